/-
C16, C18: multiplication and rotation pseudo-instructions.
-/
import Verif.Props.Arith

namespace Mips
open Isa Machine Syntax Source Pseudo

theorem mul_words (rd rs rt : BitVec 5) :
    encR .Mul (rs.setWidth 32) (rt.setWidth 32) (rd.setWidth 32) 0#32 = [rWord 0 rs rt 0 0 24, rWord 0 0 0 rd 0 18] ∧
    encR .Mulu (rs.setWidth 32) (rt.setWidth 32) (rd.setWidth 32) 0#32 = [rWord 0 rs rt 0 0 25, rWord 0 0 0 rd 0 18] ∧
    encR .Dmul (rs.setWidth 32) (rt.setWidth 32) (rd.setWidth 32) 0#32 = [rWord 0 rs rt 0 0 28, rWord 0 0 0 rd 0 18] ∧
    encR .Dmulu (rs.setWidth 32) (rt.setWidth 32) (rd.setWidth 32) 0#32 = [rWord 0 rs rt 0 0 29, rWord 0 0 0 rd 0 18] ∧
    encR .Mulo (rs.setWidth 32) (rt.setWidth 32) (rd.setWidth 32) 0#32 =
      [rWord 0 rs rt 0 0 24, rWord 0 0 0 rd 0 18, rWord 0 0 rd rd 31 3, rWord 0 0 0 1 0 16, rWord 0 rd 1 0 6 54, rWord 0 0 0 rd 0 18] ∧
    encR .Dmulo (rs.setWidth 32) (rt.setWidth 32) (rd.setWidth 32) 0#32 =
      [rWord 0 rs rt 0 0 28, rWord 0 0 0 rd 0 18, rWord 0 0 rd rd 31 63, rWord 0 0 0 1 0 16, rWord 0 rd 1 0 6 54, rWord 0 0 0 rd 0 18] ∧
    encR .Mulou (rs.setWidth 32) (rt.setWidth 32) (rd.setWidth 32) 0#32 =
      [rWord 0 rs rt 0 0 25, rWord 0 0 0 1 0 16, rWord 0 0 0 rd 0 18, rWord 0 1 0 0 6 54] ∧
    encR .Dmulou (rs.setWidth 32) (rt.setWidth 32) (rd.setWidth 32) 0#32 =
      [rWord 0 rs rt 0 0 29, rWord 0 0 0 1 0 16, rWord 0 0 0 rd 0 18, rWord 0 1 0 0 6 54] := by
  simp [encR, rWord_or, iWord_or, BitVec.or_assoc]

/-- HI and LO replaced. -/
def Machine.Cpu.hl (s : Cpu) (h l : W64) : Cpu := { s with hi := some h, lo := some l }
@[simp] theorem hl_get (s : Cpu) (h l : W64) (r : BitVec 5) : (s.hl h l).get r = s.get r := rfl
@[simp] theorem hl_npc (s : Cpu) (h l : W64) : (s.hl h l).npc = s.npc := rfl
@[simp] theorem hl_hi (s : Cpu) (h l : W64) : (s.hl h l).hi = some h := rfl
@[simp] theorem hl_lo (s : Cpu) (h l : W64) : (s.hl h l).lo = some l := rfl

theorem mflo_step {s : Cpu} {l : W64} (h : s.lo = some l) (rd : BitVec 5) : exec s c!"mflo" [.gpr rd] = .next (s.set rd l).next := by
  show (match s.lo with | some v => s.write rd (.ok v) | none => .undef) = _
  rw [h]; rfl
theorem mfhi_step {s : Cpu} {l : W64} (h : s.hi = some l) (rd : BitVec 5) : exec s c!"mfhi" [.gpr rd] = .next (s.set rd l).next := by
  show (match s.hi with | some v => s.write rd (.ok v) | none => .undef) = _
  rw [h]; rfl

/-- Multiply, then move from LO. -/
theorem mul_flo {w : W32} {s : Cpu} {mn : Str} {as : List Arg} {h l : W64} {rd : BitVec 5} (he : s.Entry) (hd : decoding w = some (mn, as))
    (hx : exec s mn as = .next (s.hl h l).next) : Computes [w, rWord 0 0 0 rd 0 18] s rd [] true (.ok l) := by
  refine ⟨_, (chain_step rfl hd hx rfl (chain_step rfl (dec_mflo _ _ _ _) (mflo_step (l := l) rfl rd) (set_npc _ _ _) (chain_end _ rfl))).falls he, ?_, ?_, ?_⟩
  · intro h0; rw [get_next, get_set_self _ _ h0]
  · intro r hr
    have hr : r ≠ rd := by simpa using hr
    rw [get_next, get_set_ne _ _ hr]; rfl
  · intro h; cases h

theorem low_mul (a b : W64) : low (a * b) = low a * low b := by
  unfold low
  exact BitVec.setWidth_mul a b (by decide)

theorem getset1 {s : Cpu} {q r : BitVec 5} {v : W64} (h : q ≠ r) : ((s.set r v).next).get q = s.get q := by rw [get_next, get_set_ne _ _ h]
theorem getset0 {s : Cpu} {r : BitVec 5} {v : W64} (h : r ≠ 0) : ((s.set r v).next).get r = v := by rw [get_next, get_set_self _ _ h]

theorem tne_step {s : Cpu} {a b : BitVec 5} (h : s.get a = s.get b) : exec s c!"tne" [.gpr a, .gpr b] = .next s.next := by
  show (if (s.get a != s.get b) = true then Step.trap else .next s.next) = _
  rw [h, if_neg (by simp)]
theorem tne_trap {s : Cpu} {a b : BitVec 5} (h : s.get a ≠ s.get b) : exec s c!"tne" [.gpr a, .gpr b] = .trap := by
  show (if (s.get a != s.get b) = true then Step.trap else .next s.next) = _
  rw [if_pos (by simpa using h)]

/-- Multiply, compare the sign of LO with HI, trap if they differ. -/
theorem mulo_flo {w w3 : W32} {s : Cpu} {mn mn3 : Str} {as as3 : List Arg} {h l v : W64} {rd : BitVec 5} (he : s.Entry)
    (h0 : rd ≠ 0) (h1 : rd ≠ 1) (hd : decoding w = some (mn, as)) (hx : exec s mn as = .next (s.hl h l).next)
    (hd3 : decoding w3 = some (mn3, as3)) (hx3 : ∀ t : Cpu, t.get rd = l → exec t mn3 as3 = .next (t.set rd v).next) :
    Computes [w, rWord 0 0 0 rd 0 18, w3, rWord 0 0 0 1 0 16, rWord 0 rd 1 0 6 54, rWord 0 0 0 rd 0 18] s rd [1] true
      (if v = h then .ok l else .trap) := by
  let s1 := (s.hl h l).next
  let s2 := (s1.set rd l).next
  let s3 := (s2.set rd v).next
  let s4 := (s3.set 1 h).next
  have x2 : exec s1 c!"mflo" [.gpr rd] = .next s2 := mflo_step rfl rd
  have x3 : exec s2 mn3 as3 = .next s3 := hx3 s2 (getset0 h0)
  have x4 : exec s3 c!"mfhi" [.gpr 1] = .next s4 := mfhi_step (by simp [s3, s2, s1]) 1
  have g1 : s4.get rd = v := (getset1 h1).trans (getset0 h0)
  have g2 : s4.get 1 = h := getset0 (by decide)
  by_cases e : v = h
  · rw [if_pos e]
    have x5 : exec s4 c!"tne" [.gpr rd, .gpr 1] = .next s4.next := tne_step (by rw [g1, g2, e])
    have x6 : exec s4.next c!"mflo" [.gpr rd] = .next (s4.next.set rd l).next := mflo_step (by simp [s4, s3, s2, s1]) rd
    refine ⟨_, (chain_step rfl hd hx rfl (chain_step rfl (dec_mflo _ _ _ _) x2 (set_npc _ _ _) (chain_step rfl hd3 x3 (set_npc _ _ _)
      (chain_step rfl (dec_mfhi _ _ _ _) x4 (set_npc _ _ _) (chain_step rfl (dec_tne _ _ _ _) x5 rfl
      (chain_step rfl (dec_mflo _ _ _ _) x6 (set_npc _ _ _) (chain_end _ rfl))))))).falls he, fun _ => getset0 h0, ?_, by intro h; cases h⟩
    intro r hr
    simp only [List.mem_cons, List.not_mem_nil, or_false, not_or] at hr
    exact (getset1 hr.1).trans ((getset1 hr.2).trans ((getset1 hr.1).trans (getset1 hr.1)))
  · rw [if_neg e]
    have x5 : exec s4 c!"tne" [.gpr rd, .gpr 1] = .trap := tne_trap (by rw [g1, g2]; exact e)
    exact (chainT_step rfl hd hx rfl (chainT_step rfl (dec_mflo _ _ _ _) x2 (set_npc _ _ _) (chainT_step rfl hd3 x3 (set_npc _ _ _)
      (chainT_step rfl (dec_mfhi _ _ _ _) x4 (set_npc _ _ _) (chainT_trap rfl (dec_tne _ _ _ _) x5))))).traps he

/-- Multiply, trap if HI is not zero. -/
theorem mulou_flo {w : W32} {s : Cpu} {mn : Str} {as : List Arg} {h l : W64} {rd : BitVec 5} (he : s.Entry)
    (h1 : rd ≠ 1) (hd : decoding w = some (mn, as)) (hx : exec s mn as = .next (s.hl h l).next) :
    Computes [w, rWord 0 0 0 1 0 16, rWord 0 0 0 rd 0 18, rWord 0 1 0 0 6 54] s rd [1] true (if h = 0 then .ok l else .trap) := by
  let s1 := (s.hl h l).next
  let s2 := (s1.set 1 h).next
  let s3 := (s2.set rd l).next
  have x2 : exec s1 c!"mfhi" [.gpr 1] = .next s2 := mfhi_step rfl 1
  have x3 : exec s2 c!"mflo" [.gpr rd] = .next s3 := mflo_step (by simp [s2, s1]) rd
  have g1 : s3.get 1 = h := (getset1 h1.symm).trans (getset0 (by decide))
  by_cases e : h = 0
  · rw [if_pos e]
    have x4 : exec s3 c!"tne" [.gpr 1, .gpr 0] = .next s3.next := tne_step (by rw [g1, e]; rfl)
    refine ⟨_, (chain_step rfl hd hx rfl (chain_step rfl (dec_mfhi _ _ _ _) x2 (set_npc _ _ _) (chain_step rfl (dec_mflo _ _ _ _) x3 (set_npc _ _ _)
      (chain_step rfl (dec_tne _ _ _ _) x4 rfl (chain_end _ rfl))))).falls he, fun h0 => getset0 h0, ?_, by intro h; cases h⟩
    intro r hr
    simp only [List.mem_cons, List.not_mem_nil, or_false, not_or] at hr
    exact (getset1 hr.1).trans (getset1 hr.2)
  · rw [if_neg e]
    have x4 : exec s3 c!"tne" [.gpr 1, .gpr 0] = .trap := tne_trap (by rw [g1]; exact e)
    exact (chainT_step rfl hd hx rfl (chainT_step rfl (dec_mfhi _ _ _ _) x2 (set_npc _ _ _) (chainT_step rfl (dec_mflo _ _ _ _) x3 (set_npc _ _ _)
      (chainT_trap rfl (dec_tne _ _ _ _) x4)))).traps he

/-! ### products -/

theorem natAbs_le31 (x : W32) : x.toInt.natAbs ≤ 2147483648 := by
  have hb := BitVec.toInt_lt (x := x)
  have hb2 := BitVec.le_toInt (x := x)
  simp at hb hb2; omega
theorem natAbs_le63 (x : W64) : x.toInt.natAbs ≤ 9223372036854775808 := by
  have hb := BitVec.toInt_lt (x := x)
  have hb2 := BitVec.le_toInt (x := x)
  simp at hb hb2; omega

theorem mul_bound {x y : Int} {n : Nat} (hx : x.natAbs ≤ n) (hy : y.natAbs ≤ n) : -((n * n : Nat) : Int) ≤ x * y ∧ x * y ≤ (n * n : Nat) := by
  have h : (x * y).natAbs ≤ n * n := by rw [Int.natAbs_mul]; exact Nat.mul_le_mul hx hy
  omega

/-- The product of two words is exact in 64 bits. -/
theorem toInt_mulW {a b : W64} (ha : IsWord a) (hb : IsWord b) : (a * b).toInt = a.toInt * b.toInt := by
  rw [BitVec.toInt_mul]
  have h := mul_bound (natAbs_le31 (low a)) (natAbs_le31 (low b))
  rw [← ha.toInt, ← hb.toInt] at h
  simp only [Nat.reduceMul] at h
  exact Int.bmod_eq_of_le (by simp; omega) (by simp; omega)

theorem toInt_mulD (a b : W64) : (a.signExtend 128 * b.signExtend 128).toInt = a.toInt * b.toInt := by
  rw [BitVec.toInt_mul, BitVec.toInt_signExtend_of_le (by decide), BitVec.toInt_signExtend_of_le (by decide)]
  have h := mul_bound (natAbs_le63 a) (natAbs_le63 b)
  simp only [Nat.reduceMul] at h
  exact Int.bmod_eq_of_le (by simp; omega) (by simp; omega)

theorem sext_inj {a b : W32} : sext a = sext b ↔ a = b := ⟨fun h => by rw [← low_sext a, h, low_sext], fun h => by rw [h]⟩

theorem hi_sign32 (p : W64) : (low p).sshiftRight 31 = low (p >>> 32) ↔ fits 32 p.toInt = true := by
  rw [sra31]
  have hp := p.isLt
  have h1 : (low p).toNat = p.toNat % 4294967296 := by simp [low]
  have h2 : (low (p >>> 32)).toNat = p.toNat / 4294967296 := by
    simp [low, Nat.shiftRight_eq_div_pow]; omega
  have h3 : (low p).msb = decide (2147483648 ≤ p.toNat % 4294967296) := by rw [BitVec.msb_eq_decide, h1]
  rw [← BitVec.toNat_inj, h2, h3, fits, BitVec.toInt_eq_toNat_cond]
  simp only [decide_eq_true_eq]
  split <;> split <;> simp <;> omega

theorem sra63 (x : W64) : x.sshiftRight 63 = if x.msb then BitVec.allOnes 64 else 0#64 := by
  apply BitVec.eq_of_toInt_eq
  have hb := BitVec.toInt_lt (x := x)
  have hb2 := BitVec.le_toInt (x := x)
  rw [BitVec.toInt_sshiftRight, Int.shiftRight_eq_div_pow, BitVec.msb_eq_toInt]
  simp only [Nat.reduceSub] at hb hb2
  by_cases h : x.toInt < 0
  · rw [if_pos (by simpa using h), show (BitVec.allOnes 64).toInt = -1 by decide]; omega
  · rw [if_neg (by simpa using h), show (0#64).toInt = 0 by decide]; omega

theorem hi_sign64 (p : BitVec 128) : (p.setWidth 64).sshiftRight 63 = p.extractLsb' 64 64 ↔ fits 64 p.toInt = true := by
  rw [sra63]
  have hp := p.isLt
  have h1 : (p.setWidth 64).toNat = p.toNat % 18446744073709551616 := by simp
  have h2 : (p.extractLsb' 64 64).toNat = p.toNat / 18446744073709551616 := by
    simp [Nat.shiftRight_eq_div_pow]; omega
  have h3 : (p.setWidth 64).msb = decide (9223372036854775808 ≤ p.toNat % 18446744073709551616) := by rw [BitVec.msb_eq_decide, h1]
  rw [← BitVec.toNat_inj, h2, h3, fits, BitVec.toInt_eq_toNat_cond]
  simp only [decide_eq_true_eq]
  split <;> split <;> simp <;> omega

theorem mult_step (s : Cpu) {a b : BitVec 5} (ha : IsWord (s.get a)) (hb : IsWord (s.get b)) : exec s c!"mult" [.gpr a, .gpr b] =
    .next (s.hl (sext (low ((s.get a * s.get b) >>> 32))) (sext (low (s.get a * s.get b)))).next := by
  show (match (if IsWord (s.get a) ∧ IsWord (s.get b) then some (some (sext (low ((s.get a * s.get b) >>> 32))), some (sext (low (s.get a * s.get b)))) else none) with
    | some (h, l) => Step.next { s with hi := h, lo := l }.next
    | none => .undef) = _
  rw [if_pos ⟨ha, hb⟩]; rfl
/-- The unsigned product of two words. -/
def uprod (a b : W64) : W64 := (low a).setWidth 64 * (low b).setWidth 64
theorem multu_step (s : Cpu) {a b : BitVec 5} (ha : IsWord (s.get a)) (hb : IsWord (s.get b)) : exec s c!"multu" [.gpr a, .gpr b] =
    .next (s.hl (sext (low (uprod (s.get a) (s.get b) >>> 32))) (sext (low (uprod (s.get a) (s.get b))))).next := by
  show (match (if IsWord (s.get a) ∧ IsWord (s.get b) then some (some (sext (low (uprod (s.get a) (s.get b) >>> 32))), some (sext (low (uprod (s.get a) (s.get b))))) else none) with
    | some (h, l) => Step.next { s with hi := h, lo := l }.next
    | none => .undef) = _
  rw [if_pos ⟨ha, hb⟩]; rfl
def sprod128 (a b : W64) : BitVec 128 := a.signExtend 128 * b.signExtend 128
def uprod128 (a b : W64) : BitVec 128 := a.setWidth 128 * b.setWidth 128
theorem dmult_step (s : Cpu) (a b : BitVec 5) : exec s c!"dmult" [.gpr a, .gpr b] =
    .next (s.hl ((sprod128 (s.get a) (s.get b)).extractLsb' 64 64) ((sprod128 (s.get a) (s.get b)).setWidth 64)).next := rfl
theorem dmultu_step (s : Cpu) (a b : BitVec 5) : exec s c!"dmultu" [.gpr a, .gpr b] =
    .next (s.hl ((uprod128 (s.get a) (s.get b)).extractLsb' 64 64) ((uprod128 (s.get a) (s.get b)).setWidth 64)).next := rfl

theorem low_uprod (a b : W64) : low (uprod a b) = low a * low b := by
  unfold uprod
  rw [low_mul]
  simp [low]
theorem low_sprod (a b : W64) : (sprod128 a b).setWidth 64 = a * b := by
  unfold sprod128
  have e : ∀ x : W64, (x.signExtend 128).setWidth 64 = x := by
    intro x; ext i hi; simp [BitVec.getLsbD_signExtend, hi]; intro h; omega
  rw [BitVec.setWidth_mul _ _ (by decide), e, e]
theorem low_uprod128 (a b : W64) : (uprod128 a b).setWidth 64 = a * b := by
  unfold uprod128
  rw [BitVec.setWidth_mul _ _ (by decide)]
  simp

theorem uprod_toNat (a b : W64) : (uprod a b).toNat = (low a).toNat * (low b).toNat := by
  have h : (low a).toNat * (low b).toNat < 4294967296 * 4294967296 := by
    have ha := (low a).isLt
    have hb := (low b).isLt
    exact Nat.mul_lt_mul_of_lt_of_lt ha hb
  unfold uprod
  rw [BitVec.toNat_mul]
  simp only [BitVec.toNat_setWidth]
  have ha := (low a).isLt
  have hb := (low b).isLt
  rw [Nat.mod_eq_of_lt (by omega : (low a).toNat < 2 ^ 64), Nat.mod_eq_of_lt (by omega : (low b).toNat < 2 ^ 64)]
  exact Nat.mod_eq_of_lt (by omega)
theorem uprod128_toNat (a b : W64) : (uprod128 a b).toNat = a.toNat * b.toNat := by
  have h : a.toNat * b.toNat < 18446744073709551616 * 18446744073709551616 := by
    have ha := a.isLt
    have hb := b.isLt
    exact Nat.mul_lt_mul_of_lt_of_lt ha hb
  unfold uprod128
  rw [BitVec.toNat_mul]
  simp only [BitVec.toNat_setWidth]
  have ha := a.isLt
  have hb := b.isLt
  rw [Nat.mod_eq_of_lt (by omega : a.toNat < 2 ^ 128), Nat.mod_eq_of_lt (by omega : b.toNat < 2 ^ 128)]
  exact Nat.mod_eq_of_lt (by omega)

theorem uhi_zero32 (p : W64) : sext (low (p >>> 32)) = 0 ↔ p.toNat < 4294967296 := by
  rw [show (0 : W64) = sext 0 by decide, sext_inj, ← BitVec.toNat_inj]
  have hp := p.isLt
  have h2 : (low (p >>> 32)).toNat = p.toNat / 4294967296 := by
    simp [low, Nat.shiftRight_eq_div_pow]; omega
  rw [h2, show (0 : W32).toNat = 0 by decide]; omega
theorem uhi_zero64 (p : BitVec 128) : p.extractLsb' 64 64 = 0 ↔ p.toNat < 18446744073709551616 := by
  rw [← BitVec.toNat_inj]
  have hp := p.isLt
  have h2 : (p.extractLsb' 64 64).toNat = p.toNat / 18446744073709551616 := by
    simp [Nat.shiftRight_eq_div_pow]; omega
  rw [h2, show (0 : W64).toNat = 0 by decide]; omega

/-- What the table needs to know about a three-register mnemonic. -/
def Reg3Ok (mn : Str) (o : RTypeOp) : Prop :=
  RTypeOp.fromStr mn = some o ∧ (classify mn = .reg3 ∨ classify mn = .div) ∧ mnOk mn = true ∧ mn ∉ [c!"break", c!"syscall", c!"sll", c!"jalr"]

instance (mn : Str) (o : RTypeOp) : Decidable (Reg3Ok mn o) := inferInstanceAs (Decidable (_ ∧ _))

theorem reg3_words [Unicode] {rt : Rt} {m : Mipsasm} {text : Str} {is : List Instruction} {warns : List ParserWarning}
    (h : assemble rt m text = .ok is warns) {k : Nat} {raw mn : Str} {rd ra rb : BitVec 5} {o : RTypeOp}
    (hk : (lines text)[k]? = some raw) (hc : kind raw = .code) (hi : InstrText (body raw) mn [.gpr rd, .gpr ra, .gpr rb]) (ho : Reg3Ok mn o) :
    (is[codeCount ((lines text).take k)]?).map Instruction.getBytes = some (encR o (ra.setWidth 32) (rb.setWidth 32) (rd.setWidth 32) 0#32) :=
  line_words h hk hc (fun x _ => emits_reg3 x hi ho.1 ho.2.1 ho.2.2.1 ho.2.2.2 rt.ovf)

theorem mul_sem (rd rs rt : BitVec 5) {mn : Str} {f : W64 → W64 → Val} (h : (mn, f) ∈ mulOps) :
    ∃ o, Reg3Ok mn o ∧ ∀ s : Cpu, s.Entry →
      Computes (encR o (rs.setWidth 32) (rt.setWidth 32) (rd.setWidth 32) 0#32) s rd [] true (f (s.get rs) (s.get rt)) := by
  obtain ⟨e1, e2, e3, e4, _⟩ := mul_words rd rs rt
  simp only [mulOps, List.mem_cons, Prod.mk.injEq, List.not_mem_nil, or_false] at h
  rcases h with ⟨rfl, rfl⟩ | ⟨rfl, rfl⟩ | ⟨rfl, rfl⟩ | ⟨rfl, rfl⟩
  · refine ⟨.Mul, by decide +kernel, fun s he => ?_⟩
    rw [e1]; dsimp only; split
    · rename_i hw
      rw [← low_mul]
      exact mul_flo he (dec_mult _ _ _ _) (mult_step s hw.1 hw.2)
    · trivial
  · refine ⟨.Mulu, by decide +kernel, fun s he => ?_⟩
    rw [e2]; dsimp only; split
    · rename_i hw
      rw [← low_uprod]
      exact mul_flo he (dec_multu _ _ _ _) (multu_step s hw.1 hw.2)
    · trivial
  · refine ⟨.Dmul, by decide +kernel, fun s he => ?_⟩
    rw [e3]; dsimp only; rw [← low_sprod]
    exact mul_flo he (dec_dmult _ _ _ _) (dmult_step s _ _)
  · refine ⟨.Dmulu, by decide +kernel, fun s he => ?_⟩
    rw [e4]; dsimp only; rw [← low_uprod128]
    exact mul_flo he (dec_dmultu _ _ _ _) (dmultu_step s _ _)

theorem ofNat_low (p : W64) : BitVec.ofNat 32 p.toNat = low p := by
  apply BitVec.eq_of_toNat_eq; simp [low]

theorem mulo_sem (rd rs rt : BitVec 5) {mn : Str} {f : W64 → W64 → Val} (h : (mn, f) ∈ mulTrapOps) :
    ∃ o, Reg3Ok mn o ∧ ∀ s : Cpu, s.Entry → rd ≠ 1 → (mn = c!"mulo" ∨ mn = c!"dmulo" → rd ≠ 0) →
      Computes (encR o (rs.setWidth 32) (rt.setWidth 32) (rd.setWidth 32) 0#32) s rd [1] true (f (s.get rs) (s.get rt)) := by
  obtain ⟨_, _, _, _, e5, e6, e7, e8⟩ := mul_words rd rs rt
  simp only [mulTrapOps, List.mem_cons, Prod.mk.injEq, List.not_mem_nil, or_false] at h
  rcases h with ⟨rfl, rfl⟩ | ⟨rfl, rfl⟩ | ⟨rfl, rfl⟩ | ⟨rfl, rfl⟩
  · refine ⟨.Mulo, by decide +kernel, fun s he h1 h0 => ?_⟩
    rw [e5]; dsimp only; split
    · rename_i hw
      have := mulo_flo he (h0 (Or.inl rfl)) h1 (dec_mult rs rt 0 0) (mult_step s hw.1 hw.2) (dec_sra 0 rd rd 31)
        (v := sext ((low (s.get rs * s.get rt)).sshiftRight 31)) (by
          intro t ht
          show t.write rd (if IsWord (t.get rd) then .ok (sext ((low (t.get rd)).sshiftRight 31)) else .undef) = _
          rw [ht, if_pos (isWord_sext _), low_sext]; rfl)
      refine computes_val this ?_
      simp only [sext_inj, hi_sign32, toInt_mulW hw.1 hw.2]
      split
      · rename_i hf
        rw [← sext_ofInt hf, ← toInt_mulW hw.1 hw.2]
        congr 2
        apply BitVec.eq_of_toNat_eq
        rw [BitVec.toNat_ofInt, BitVec.toInt_eq_toNat_cond]
        have hp := (s.get rs * s.get rt).isLt
        have hl : (low (s.get rs * s.get rt)).toNat = (s.get rs * s.get rt).toNat % 4294967296 := by simp [low]
        rw [hl]
        split <;> simp <;> omega
      · rfl
    · trivial
  · refine ⟨.Mulou, by decide +kernel, fun s he h1 _ => ?_⟩
    rw [e7]; dsimp only; split
    · rename_i hw
      refine computes_val (mulou_flo he h1 (dec_multu rs rt 0 0) (multu_step s hw.1 hw.2)) ?_
      rw [← ofNat_low (uprod _ _)]
      simp only [uhi_zero32, uprod_toNat]
    · trivial
  · refine ⟨.Dmulo, by decide +kernel, fun s he h1 h0 => ?_⟩
    rw [e6]; dsimp only
    have := mulo_flo he (h0 (Or.inr rfl)) h1 (dec_dmult rs rt 0 0) (dmult_step s rs rt) (dec_dsra32 0 rd rd 31)
        (v := ((sprod128 (s.get rs) (s.get rt)).setWidth 64).sshiftRight 63) (by
          intro t ht
          show t.write rd (.ok ((t.get rd).sshiftRight (31 + 32))) = _
          rw [ht]; rfl)
    refine computes_val this ?_
    simp only [hi_sign64]
    unfold sprod128
    rw [toInt_mulD]
    split
    · rw [show (BitVec.signExtend 128 (s.get rs) * BitVec.signExtend 128 (s.get rt)).setWidth 64 = s.get rs * s.get rt from low_sprod _ _]
      rw [BitVec.ofInt_mul, BitVec.ofInt_toInt, BitVec.ofInt_toInt]
    · rfl
  · refine ⟨.Dmulou, by decide +kernel, fun s he h1 _ => ?_⟩
    rw [e8]; dsimp only
    refine computes_val (mulou_flo he h1 (dec_dmultu rs rt 0 0) (dmultu_step s rs rt)) ?_
    simp only [uhi_zero64, uprod128_toNat, low_uprod128]
    show (if _ < 2 ^ 64 then _ else _) = _
    rw [show BitVec.ofNat 64 ((s.get rs).toNat * (s.get rt).toNat) = s.get rs * s.get rt by simp [BitVec.ofNat_mul]]

/-- C16, `mul`, `mulu`, `dmul`, `dmulu`: in every program that assembles, executing the words of such a line
leaves the low word (doubleword) of the product in `rd`; only `rd`, HI and LO change. -/
theorem C16_mul [Unicode] (rt : Rt) (m : Mipsasm) (text : Str) (is : List Instruction) (warns : List ParserWarning)
    (h : assemble rt m text = .ok is warns) (k : Nat) (raw mn : Str) (rd ra rb : BitVec 5) (f : W64 → W64 → Val)
    (hk : (lines text)[k]? = some raw) (hc : kind raw = .code) (hi : InstrText (body raw) mn [.gpr rd, .gpr ra, .gpr rb])
    (hf : (mn, f) ∈ mulOps) :
    ∃ ws, (is[codeCount ((lines text).take k)]?).map Instruction.getBytes = some ws ∧
      ∀ s, s.Entry → Computes ws s rd [] true (f (s.get ra) (s.get rb)) := by
  obtain ⟨o, ho, h5⟩ := mul_sem rd ra rb hf
  exact ⟨_, reg3_words h hk hc hi ho, h5⟩

/-- C16, `mulo`, `mulou`, `dmulo`, `dmulou`: executing the words of such a line leaves the product in `rd`, or
traps, exactly when the product does not fit.  `rd` may not be `$at`; and for the signed ones it may not be
`$zero` (see `C16_zero_wrong`). -/
theorem C16_mulo_partial [Unicode] (rt : Rt) (m : Mipsasm) (text : Str) (is : List Instruction) (warns : List ParserWarning)
    (h : assemble rt m text = .ok is warns) (k : Nat) (raw mn : Str) (rd ra rb : BitVec 5) (f : W64 → W64 → Val)
    (hk : (lines text)[k]? = some raw) (hc : kind raw = .code) (hi : InstrText (body raw) mn [.gpr rd, .gpr ra, .gpr rb])
    (hf : (mn, f) ∈ mulTrapOps) :
    ∃ ws, (is[codeCount ((lines text).take k)]?).map Instruction.getBytes = some ws ∧
      ∀ s, s.Entry → rd ≠ at' → (mn = c!"mulo" ∨ mn = c!"dmulo" → rd ≠ 0) → Computes ws s rd [at'] true (f (s.get ra) (s.get rb)) := by
  obtain ⟨o, ho, h5⟩ := mulo_sem rd ra rb hf
  exact ⟨_, reg3_words h hk hc hi ho, h5⟩

/-- The words of a one-line program. -/
def wordsOf (line : Str) : List Word := ((@assemble asciiUnicode (idRt true) Mipsasm.new line).words).getD []

/-- Did the run trap? -/
def Machine.Out.isTrap : Out → Bool
  | .trap => true
  | _ => false
theorem traps_of {ws : List W32} {s : Cpu} (n : Nat) (h : (run ws n s).isTrap = true) : Traps ws s := by
  refine ⟨n, ?_⟩
  revert h
  cases run ws n s <;> simp [Out.isTrap]

/-- Counterexample to the unrestricted C16: `mulo $zero, $a0, $a1` traps on (-1) * 1, which fits, and does not
trap on 0x40000000 * 2, which does not. -/
theorem C16_zero_wrong : Traps (wordsOf c!"mulo $zero, $a0, $a1") (cpu2 4 (-1) 5 1) ∧
    resultOf c!"mulo $zero, $a0, $a1" (cpu2 4 0x40000000 5 2) 0 = some 0 := by
  exact ⟨traps_of 10 (by decide +kernel), by decide +kernel⟩

/-- Non-vacuity and sanity: a product that fits, and one that does not. -/
example : resultOf c!"mulo $v0, $a0, $a1" (cpu2 4 (-3) 5 7) 2 = some (-21) ∧ resultOf c!"dmulou $v0, $a0, $a1" (cpu2 4 3 5 7) 2 = some 21 ∧
    resultOf c!"mul $v0, $a0, $a1" (cpu2 4 (-3) 5 7) 2 = some (-21) ∧ resultOf c!"dmulu $v0, $a0, $a1" (cpu2 4 3 5 7) 2 = some 21 := by
  decide +kernel
example : Traps (wordsOf c!"mulo $v0, $a0, $a1") (cpu2 4 0x40000000 5 2) := traps_of 10 (by decide +kernel)

/-! ### rotation -/

theorem rot_words (rd rs rt : BitVec 5) :
    encR .Drol (rs.setWidth 32) (rt.setWidth 32) (rd.setWidth 32) 0#32 = [rWord 0 0 rt 1 0 47, rWord 0 1 rs 1 0 22, rWord 0 rt rs rd 0 20, rWord 0 rd 1 rd 0 37] ∧
    encR .Dror (rs.setWidth 32) (rt.setWidth 32) (rd.setWidth 32) 0#32 = [rWord 0 0 rt 1 0 47, rWord 0 1 rs 1 0 20, rWord 0 rt rs rd 0 22, rWord 0 rd 1 rd 0 37] := by
  simp [encR, rWord_or, iWord_or, BitVec.or_assoc]

theorem neg_mod64 (b : W64) : (0 - b).toNat % 64 = (64 - b.toNat % 64) % 64 := by
  simp only [BitVec.toNat_sub, BitVec.ofNat_eq_ofNat, BitVec.toNat_ofNat]
  have := b.isLt
  omega

theorem rol_eq (a b : W64) : a <<< (b.toNat % 64) ||| a >>> ((0 - b).toNat % 64) = a.rotateLeft (b.toNat % 64) := by
  rw [neg_mod64, BitVec.rotateLeft, BitVec.rotateLeftAux, Nat.mod_mod]
  by_cases h : b.toNat % 64 = 0
  · have e : a >>> 64 = 0 := by
      apply BitVec.eq_of_toNat_eq
      have := a.isLt
      simp [Nat.shiftRight_eq_div_pow]; omega
    rw [h]; simp; rw [e]; simp
  · rw [Nat.mod_eq_of_lt (by omega : 64 - b.toNat % 64 < 64)]
theorem ror_eq (a b : W64) : a >>> (b.toNat % 64) ||| a <<< ((0 - b).toNat % 64) = a.rotateRight (b.toNat % 64) := by
  rw [neg_mod64, BitVec.rotateRight, BitVec.rotateRightAux, Nat.mod_mod]
  by_cases h : b.toNat % 64 = 0
  · rw [h]; simp
  · rw [Nat.mod_eq_of_lt (by omega : 64 - b.toNat % 64 < 64)]

theorem rot_flo {w2 w3 : W32} {mn2 mn3 : Str} {f2 f3 : W64 → W64 → W64} {s : Cpu} {rd rs rt : BitVec 5} (he : s.Entry) (h1 : rd ≠ 1) (h2 : rs ≠ 1) (h3 : rt ≠ 1)
    (hd2 : decoding w2 = some (mn2, [.gpr 1, .gpr rs, .gpr 1])) (hx2 : ∀ t : Cpu, exec t mn2 [.gpr 1, .gpr rs, .gpr 1] = .next (t.set 1 (f2 (t.get rs) (t.get 1))).next)
    (hd3 : decoding w3 = some (mn3, [.gpr rd, .gpr rs, .gpr rt])) (hx3 : ∀ t : Cpu, exec t mn3 [.gpr rd, .gpr rs, .gpr rt] = .next (t.set rd (f3 (t.get rs) (t.get rt))).next) :
    Computes [rWord 0 0 rt 1 0 47, w2, w3, rWord 0 rd 1 rd 0 37] s rd [1] false
      (.ok (f3 (s.get rs) (s.get rt) ||| f2 (s.get rs) (0 - s.get rt))) := by
  let s1 := (s.set 1 (0 - s.get rt)).next
  let s2 := (s1.set 1 (f2 (s1.get rs) (s1.get 1))).next
  let s3 := (s2.set rd (f3 (s2.get rs) (s2.get rt))).next
  have x1 : exec s c!"dsubu" [.gpr 1, .gpr 0, .gpr rt] = .next s1 := rfl
  have x4 : exec s3 c!"or" [.gpr rd, .gpr rd, .gpr 1] = .next (s3.set rd (s3.get rd ||| s3.get 1)).next := rfl
  refine ⟨_, (chain_step rfl (dec_dsubu _ _ _ _) x1 (set_npc _ _ _) (chain_step rfl hd2 (hx2 _) (set_npc _ _ _)
    (chain_step rfl hd3 (hx3 _) (set_npc _ _ _) (chain_step rfl (dec_or _ _ _ _) x4 (set_npc _ _ _) (chain_end _ rfl))))).falls he, ?_, ?_, by intro _; simp [s3, s2, s1]⟩
  · intro h0
    rw [getset0 h0]
    congr 1
    · refine (getset0 h0).trans ?_
      rw [show s2.get rs = s.get rs from (getset1 h2).trans (getset1 h2), show s2.get rt = s.get rt from (getset1 h3).trans (getset1 h3)]
    · refine (getset1 h1.symm).trans ((getset0 (by decide)).trans ?_)
      rw [show s1.get rs = s.get rs from (getset1 h2), show s1.get 1 = _ from getset0 (by decide)]
  · intro r hr
    simp only [List.mem_cons, List.not_mem_nil, or_false, not_or] at hr
    exact (getset1 hr.1).trans ((getset1 hr.1).trans ((getset1 hr.2).trans (getset1 hr.2)))

/-- C18: in every program that assembles, executing the words of `drol rd, rs, rt` (`dror`) leaves `rs`
rotated left (right) by `rt` modulo 64 in `rd`, and changes nothing else but `$at`; no operand may be `$at`. -/
theorem C18_rotate [Unicode] (rt : Rt) (m : Mipsasm) (text : Str) (is : List Instruction) (warns : List ParserWarning)
    (h : assemble rt m text = .ok is warns) (k : Nat) (raw mn : Str) (rd ra rb : BitVec 5) (f : W64 → W64 → W64)
    (hk : (lines text)[k]? = some raw) (hc : kind raw = .code) (hi : InstrText (body raw) mn [.gpr rd, .gpr ra, .gpr rb])
    (hf : (mn, f) ∈ rotOps) (h1 : rd ≠ at') (h2 : ra ≠ at') (h3 : rb ≠ at') :
    ∃ ws, (is[codeCount ((lines text).take k)]?).map Instruction.getBytes = some ws ∧
      ∀ s, s.Entry → Computes ws s rd [at'] false (.ok (f (s.get ra) (s.get rb))) := by
  obtain ⟨e1, e2⟩ := rot_words rd ra rb
  simp only [rotOps, List.mem_cons, Prod.mk.injEq, List.not_mem_nil, or_false] at hf
  rcases hf with ⟨rfl, rfl⟩ | ⟨rfl, rfl⟩
  · refine ⟨_, reg3_words (o := .Drol) h hk hc hi (by decide +kernel), fun s he => ?_⟩
    rw [e1]; dsimp only; rw [← rol_eq]
    exact rot_flo (f2 := fun a b => a >>> (b.toNat % 64)) (f3 := fun a b => a <<< (b.toNat % 64)) he h1 h2 h3 (dec_dsrlv _ _ _ _) (fun _ => rfl) (dec_dsllv _ _ _ _) (fun _ => rfl)
  · refine ⟨_, reg3_words (o := .Dror) h hk hc hi (by decide +kernel), fun s he => ?_⟩
    rw [e2]; dsimp only; rw [← ror_eq]
    exact rot_flo (f2 := fun a b => a <<< (b.toNat % 64)) (f3 := fun a b => a >>> (b.toNat % 64)) he h1 h2 h3 (dec_dsllv _ _ _ _) (fun _ => rfl) (dec_dsrlv _ _ _ _) (fun _ => rfl)

example : resultOf c!"drol $v0, $a0, $a1" (cpu2 4 0x8000000000000001 5 1) 2 = some 3 ∧
    resultOf c!"dror $v0, $a0, $a1" (cpu2 4 3 5 65) 2 = some 0x8000000000000001 := by decide +kernel

end Mips
