/-
C17: division pseudo-instructions.
-/
import Verif.Props.MulDiv

namespace Mips
open Isa Machine Syntax Source Pseudo

/-- The state after a taken branch at `k`. -/
def Machine.Cpu.jumped (s : Cpu) (off : BitVec 16) : Cpu := { s with pc := s.npc, npc := s.pc + 1 + off.toInt }

@[simp] theorem jumped_get (s : Cpu) (o : BitVec 16) (r : BitVec 5) : (s.jumped o).get r = s.get r := rfl

/-- A taken branch with its delay slot. -/
theorem chain_branch {ws : List W32} {k j : Nat} {s t s' : Cpu} {w w2 : W32} {mn mn2 : Str} {args args2 : List Arg} {off : BitVec 16}
    (hw : ws[k]? = some w) (hd : decoding w = some (mn, args)) (hx : exec s mn args = .next (s.jumped off))
    (hj : (k : Int) + 1 + off.toInt = j)
    (hw2 : ws[k + 1]? = some w2) (hd2 : decoding w2 = some (mn2, args2)) (hx2 : exec (s.jumped off) mn2 args2 = .next t.next)
    (hn : t.npc = (s.jumped off).npc) (h : Chain ws j t.next s') : Chain ws k s s' := by
  intro h1 h2
  have e1 : (s.jumped off).pc = ((k + 1 : Nat) : Int) := by show s.npc = _; rw [h2]; rfl
  have e2 : (s.jumped off).npc = j := by show s.pc + 1 + off.toInt = _; rw [h1]; exact hj
  obtain ⟨⟨n, hr⟩, h3⟩ := h (by rw [next_pc, hn, e2]) (by rw [next_npc, hn, e2])
  exact ⟨⟨n + 1 + 1, by rw [run_next h1 hw hd hx, run_next e1 hw2 hd2 hx2, hr]⟩, h3⟩

theorem div_words (rd rs rt : BitVec 5) :
    (rt ≠ 0 → encR .Div (rs.setWidth 32) (rt.setWidth 32) (rd.setWidth 32) 0#32 =
      [rWord 0 rt 0 0 7 52, rWord 0 rs rt 0 0 26, iWord 15 0 1 0xFFFF, iWord 13 1 1 0xFFFF, iWord 5 rt 1 3, iWord 15 0 1 0x8000, rWord 0 rs 1 0 6 52, rWord 0 0 0 rd 0 18]) ∧
    encR .Rem (rs.setWidth 32) (rt.setWidth 32) (rd.setWidth 32) 0#32 =
      [rWord 0 rt 0 0 7 52, rWord 0 rs rt 0 0 26, iWord 15 0 1 0xFFFF, iWord 13 1 1 0xFFFF, iWord 5 rt 1 3, iWord 15 0 1 0x8000, rWord 0 rs 1 0 6 52, rWord 0 0 0 rd 0 16] ∧
    (rt ≠ 0 → encR .Ddiv (rs.setWidth 32) (rt.setWidth 32) (rd.setWidth 32) 0#32 =
      [rWord 0 rt 0 0 7 52, rWord 0 rs rt 0 0 30, iWord 25 0 1 0xFFFF, iWord 5 rt 1 4, iWord 25 0 1 1, rWord 0 0 1 1 31 60, rWord 0 rs 1 0 6 52, rWord 0 0 0 rd 0 18]) ∧
    encR .Drem (rs.setWidth 32) (rt.setWidth 32) (rd.setWidth 32) 0#32 =
      [rWord 0 rt 0 0 7 52, rWord 0 rs rt 0 0 30, iWord 25 0 1 0xFFFF, iWord 5 rt 1 4, iWord 25 0 1 1, rWord 0 0 1 1 31 60, rWord 0 rs 1 0 6 52, rWord 0 0 0 rd 0 16] ∧
    (rt ≠ 0 → encR .Divu (rs.setWidth 32) (rt.setWidth 32) (rd.setWidth 32) 0#32 = [rWord 0 rt 0 0 7 52, rWord 0 rs rt 0 0 27, rWord 0 0 0 rd 0 18]) ∧
    encR .Remu (rs.setWidth 32) (rt.setWidth 32) (rd.setWidth 32) 0#32 = [rWord 0 rt 0 0 7 52, rWord 0 rs rt 0 0 27, rWord 0 0 0 rd 0 16] ∧
    (rt ≠ 0 → encR .Ddivu (rs.setWidth 32) (rt.setWidth 32) (rd.setWidth 32) 0#32 = [rWord 0 rt 0 0 7 52, rWord 0 rs rt 0 0 31, rWord 0 0 0 rd 0 18]) ∧
    encR .Dremu (rs.setWidth 32) (rt.setWidth 32) (rd.setWidth 32) 0#32 = [rWord 0 rt 0 0 7 52, rWord 0 rs rt 0 0 31, rWord 0 0 0 rd 0 16] := by
  have h0 : rt ≠ 0 → rt.setWidth 32 ≠ 0#32 := by
    intro h h'
    apply h
    apply BitVec.eq_of_toNat_eq
    have := congrArg BitVec.toNat h'
    have hl := rt.isLt
    simp at this ⊢; omega
  refine ⟨fun h => ?_, ?_, fun h => ?_, ?_, fun h => ?_, ?_, fun h => ?_, ?_⟩
  · simp [encR, if_neg (h0 h), rWord_or, iWord_or, BitVec.or_assoc]
  · simp [encR, rWord_or, iWord_or, BitVec.or_assoc]
  · simp [encR, if_neg (h0 h), rWord_or, iWord_or, BitVec.or_assoc]
  · simp [encR, rWord_or, iWord_or, BitVec.or_assoc]
  · simp [encR, if_neg (h0 h), rWord_or, iWord_or, BitVec.or_assoc]
  · simp [encR, rWord_or, iWord_or, BitVec.or_assoc]
  · simp [encR, if_neg (h0 h), rWord_or, iWord_or, BitVec.or_assoc]
  · simp [encR, rWord_or, iWord_or, BitVec.or_assoc]

theorem teq_step {s : Cpu} {a b : BitVec 5} (h : s.get a ≠ s.get b) : exec s c!"teq" [.gpr a, .gpr b] = .next s.next := by
  show (if (s.get a == s.get b) = true then Step.trap else .next s.next) = _
  rw [if_neg (by simpa using h)]
theorem teq_trap {s : Cpu} {a b : BitVec 5} (h : s.get a = s.get b) : exec s c!"teq" [.gpr a, .gpr b] = .trap := by
  show (if (s.get a == s.get b) = true then Step.trap else .next s.next) = _
  rw [if_pos (by simpa using h)]

/-- Moving from HI or LO, as the last instruction. -/
def Moves (w : W32) (mn : Str) (rd : BitVec 5) (h l v : W64) : Prop :=
  decoding w = some (mn, [.gpr rd]) ∧ ∀ t : Cpu, t.hi = some h → t.lo = some l → exec t mn [.gpr rd] = .next (t.set rd v).next

theorem moves_lo (rd : BitVec 5) (h l : W64) : Moves (rWord 0 0 0 rd 0 18) c!"mflo" rd h l l := ⟨dec_mflo _ _ _ _, fun _ _ e => mflo_step e rd⟩
theorem moves_hi (rd : BitVec 5) (h l : W64) : Moves (rWord 0 0 0 rd 0 16) c!"mfhi" rd h l h := ⟨dec_mfhi _ _ _ _, fun _ e _ => mfhi_step e rd⟩

/-- Check the divisor, divide, move the result. -/
theorem udiv_flo {w w3 : W32} {s : Cpu} {mn mn3 : Str} {h l v : W64} {rd ra rb : BitVec 5} (he : s.Entry) (hd : decoding w = some (mn, [.gpr ra, .gpr rb]))
    (hx : s.get rb ≠ 0 → exec s.next mn [.gpr ra, .gpr rb] = .next (s.next.hl h l).next) (hm : Moves w3 mn3 rd h l v) :
    Computes [rWord 0 rb 0 0 7 52, w, w3] s rd [] true (if s.get rb = 0 then .trap else .ok v) := by
  by_cases e : s.get rb = 0
  · rw [if_pos e]
    exact (chainT_trap rfl (dec_teq _ _ _ _) (teq_trap (e.trans (get_zero s).symm))).traps he
  · rw [if_neg e]
    have x1 : exec s c!"teq" [.gpr rb, .gpr 0] = .next s.next := teq_step e
    refine ⟨_, (chain_step rfl (dec_teq _ _ _ _) x1 rfl (chain_step rfl hd (hx e) rfl (chain_step rfl hm.1 (hm.2 _ rfl rfl) (set_npc _ _ _) (chain_end _ rfl)))).falls he,
      fun h0 => getset0 h0, ?_, by intro h; cases h⟩
    intro r hr
    exact getset1 (by simpa using hr)

theorem divu_step (s : Cpu) {a b : BitVec 5} (ha : IsWord (s.get a)) (hb : IsWord (s.get b)) (h0 : s.get b ≠ 0) : exec s c!"divu" [.gpr a, .gpr b] =
    .next (s.hl (sext (low (s.get a) % low (s.get b))) (sext (low (s.get a) / low (s.get b)))).next := by
  have h0' : low (s.get b) ≠ 0 := by
    intro e; apply h0
    have : sext (low (s.get b)) = s.get b := hb
    rw [← this, e]; decide
  show (match (if IsWord (s.get a) ∧ IsWord (s.get b) then if low (s.get b) = 0 then some (none, none) else
      some (some (sext (low (s.get a) % low (s.get b))), some (sext (low (s.get a) / low (s.get b)))) else none) with
    | some (h, l) => Step.next { s with hi := h, lo := l }.next
    | none => .undef) = _
  rw [if_pos ⟨ha, hb⟩, if_neg h0']; rfl
theorem ddivu_step (s : Cpu) {a b : BitVec 5} (h0 : s.get b ≠ 0) : exec s c!"ddivu" [.gpr a, .gpr b] =
    .next (s.hl (s.get a % s.get b) (s.get a / s.get b)).next := by
  show (match (if s.get b = 0 then some (none, none) else some (some (s.get a % s.get b), some (s.get a / s.get b))) with
    | some (h, l) => Step.next { s with hi := h, lo := l }.next
    | none => .undef) = _
  rw [if_neg h0]; rfl

theorem udiv_nat {n : Nat} (x y : BitVec n) : BitVec.ofNat n (x.toNat / y.toNat) = x / y := by
  apply BitVec.eq_of_toNat_eq
  rw [BitVec.toNat_ofNat, BitVec.toNat_udiv]
  exact Nat.mod_eq_of_lt (Nat.lt_of_le_of_lt (Nat.div_le_self _ _) x.isLt)
theorem umod_nat {n : Nat} (x y : BitVec n) : BitVec.ofNat n (x.toNat % y.toNat) = x % y := by
  apply BitVec.eq_of_toNat_eq
  rw [BitVec.toNat_ofNat, BitVec.toNat_umod]
  exact Nat.mod_eq_of_lt (Nat.lt_of_le_of_lt (Nat.mod_le _ _) x.isLt)

theorem udiv_sem (rd rs rt : BitVec 5) {mn : Str} {f : W64 → W64 → Val} (h : (mn, f) ∈ udivOps) :
    ∃ o, Reg3Ok mn o ∧ ∀ s : Cpu, s.Entry → (mn = c!"divu" ∨ mn = c!"ddivu" → rt ≠ 0) →
      Computes (encR o (rs.setWidth 32) (rt.setWidth 32) (rd.setWidth 32) 0#32) s rd [] true (f (s.get rs) (s.get rt)) := by
  obtain ⟨_, _, _, _, e5, e6, e7, e8⟩ := div_words rd rs rt
  simp only [udivOps, List.mem_cons, Prod.mk.injEq, List.not_mem_nil, or_false] at h
  rcases h with ⟨rfl, rfl⟩ | ⟨rfl, rfl⟩ | ⟨rfl, rfl⟩ | ⟨rfl, rfl⟩
  · refine ⟨.Divu, by decide +kernel, fun s he h0 => ?_⟩
    rw [e5 (h0 (Or.inl rfl))]; dsimp only; split
    · rename_i hw
      rw [udiv_nat]
      exact udiv_flo he (dec_divu _ _ _ _) (fun h => divu_step s.next hw.1 hw.2 h) (moves_lo _ _ _)
    · trivial
  · refine ⟨.Remu, by decide +kernel, fun s he h0 => ?_⟩
    rw [e6]; dsimp only; split
    · rename_i hw
      rw [umod_nat]
      exact udiv_flo he (dec_divu _ _ _ _) (fun h => divu_step s.next hw.1 hw.2 h) (moves_hi _ _ _)
    · trivial
  · refine ⟨.Ddivu, by decide +kernel, fun s he h0 => ?_⟩
    rw [e7 (h0 (Or.inr rfl))]; dsimp only
    rw [udiv_nat]
    exact udiv_flo he (dec_ddivu _ _ _ _) (fun h => ddivu_step s.next h) (moves_lo _ _ _)
  · refine ⟨.Dremu, by decide +kernel, fun s he h0 => ?_⟩
    rw [e8]; dsimp only
    rw [umod_nat]
    exact udiv_flo he (dec_ddivu _ _ _ _) (fun h => ddivu_step s.next h) (moves_hi _ _ _)

/-- C17, `divu`, `remu`, `ddivu`, `dremu`: in every program that assembles, executing the words of such a
line leaves the unsigned quotient (remainder) in `rd`, and traps exactly on division by zero; only `rd`, HI
and LO change.  For `divu` and `ddivu` the divisor register must not be `$zero` (see `C17_divu_zero_wrong`). -/
theorem C17_unsigned_partial [Unicode] (rt : Rt) (m : Mipsasm) (text : Str) (is : List Instruction) (warns : List ParserWarning)
    (h : assemble rt m text = .ok is warns) (k : Nat) (raw mn : Str) (rd ra rb : BitVec 5) (f : W64 → W64 → Val)
    (hk : (lines text)[k]? = some raw) (hc : kind raw = .code) (hi : InstrText (body raw) mn [.gpr rd, .gpr ra, .gpr rb])
    (hf : (mn, f) ∈ udivOps) (h0 : mn = c!"divu" ∨ mn = c!"ddivu" → rb ≠ 0) :
    ∃ ws, (is[codeCount ((lines text).take k)]?).map Instruction.getBytes = some ws ∧
      ∀ s, s.Entry → Computes ws s rd [] true (f (s.get ra) (s.get rb)) := by
  obtain ⟨o, ho, h5⟩ := udiv_sem rd ra rb hf
  exact ⟨_, reg3_words h hk hc hi ho, fun s he => h5 s he h0⟩

/-- Counterexample to the unrestricted C17: `divu $v0, $a0, $zero` does not trap; it is assembled to the
two-operand `divu $v0, $a0`. -/
theorem C17_divu_zero_wrong : resultOf c!"divu $v0, $a0, $zero" (cpu2 4 5 2 7) 2 = some 7 ∧
    wordsOf c!"divu $v0, $a0, $zero" = wordsOf c!"divu $v0, $a0" := by decide +kernel

example : resultOf c!"divu $v0, $a0, $a1" (cpu2 4 (-1) 5 2) 2 = some 0x7fffffff ∧ resultOf c!"dremu $v0, $a0, $a1" (cpu2 4 23 5 7) 2 = some 2 := by decide +kernel
example : Traps (wordsOf c!"remu $v0, $a0, $a1") (cpu2 4 3 5 0) := traps_of 10 (by decide +kernel)

/-! ### signed division -/

/-- HI and LO replaced, possibly by unpredictable values. -/
def Machine.Cpu.hlo (s : Cpu) (h l : Option W64) : Cpu := { s with hi := h, lo := l }
@[simp] theorem hlo_get (s : Cpu) (h l : Option W64) (r : BitVec 5) : (s.hlo h l).get r = s.get r := rfl

theorem bne_step {s : Cpu} {a b : BitVec 5} {o : BitVec 16} (h : s.get a = s.get b) : exec s c!"bne" [.gpr a, .gpr b, .off o] = .next s.next := by
  show s.branch false (s.get a != s.get b) o = _
  rw [h]; simp [Cpu.branch]
theorem bne_jump {s : Cpu} {a b : BitVec 5} {o : BitVec 16} (h : s.get a ≠ s.get b) : exec s c!"bne" [.gpr a, .gpr b, .off o] = .next (s.jumped o) := by
  show s.branch false (s.get a != s.get b) o = _
  rw [show (s.get a != s.get b) = true by simpa using h]; rfl

theorem lui_step (s : Cpu) (r : BitVec 5) (v : BitVec 16) : exec s c!"lui" [.gpr r, .uimm v] = .next (s.set r (sext (v.setWidth 32 <<< 16))).next := rfl
theorem ori_step (s : Cpu) (r q : BitVec 5) (v : BitVec 16) : exec s c!"ori" [.gpr r, .gpr q, .uimm v] = .next (s.set r (s.get q ||| v.setWidth 64)).next := rfl
theorem daddiu_step (s : Cpu) (r q : BitVec 5) (v : BitVec 16) : exec s c!"daddiu" [.gpr r, .gpr q, .simm v] = .next (s.set r (s.get q + v.signExtend 64)).next := rfl
theorem dsll32_step (s : Cpu) (r q : BitVec 5) (n : BitVec 5) : exec s c!"dsll32" [.gpr r, .gpr q, .sa n] = .next (s.set r (s.get q <<< (n.toNat + 32))).next := rfl

theorem ns_hi {s : Cpu} {r : BitVec 5} {v : W64} : ((s.set r v).next).hi = s.hi := set_hi s r v
theorem ns_lo {s : Cpu} {r : BitVec 5} {v : W64} : ((s.set r v).next).lo = s.lo := set_lo s r v
theorem lit_min : sext ((0x8000 : BitVec 16).setWidth 32 <<< 16) = minWord := by decide +kernel
theorem lit_m1 : sext ((0xFFFF : BitVec 16).setWidth 32 <<< 16) ||| (0xFFFF : BitVec 16).setWidth 64 = -1 := by decide +kernel
theorem lit_m1' : (0 : W64) + (0xFFFF : BitVec 16).signExtend 64 = -1 := by decide +kernel
theorem lit_min64 : (0 + (1 : BitVec 16).signExtend 64 : W64) <<< ((31 : BitVec 5).toNat + 32) = BitVec.intMin 64 := by decide +kernel
theorem lit_j3 : ((4 : Nat) : Int) + 1 + (3 : BitVec 16).toInt = (8 : Nat) := by decide +kernel
theorem lit_j4 : ((3 : Nat) : Int) + 1 + (4 : BitVec 16).toInt = (8 : Nat) := by decide +kernel
theorem m1_ne : (-1 : W64) ≠ 0 := by decide +kernel

/-- What the emitted words of a signed division do, given what the machine's division does. -/
theorem sdiv_flo32 {w8 : W32} {s : Cpu} {mn8 : Str} {H L : Option W64} {h l v : W64} {rd ra rb : BitVec 5} (he : s.Entry) (h1 : ra ≠ 1) (h2 : rb ≠ 1)
    (hx : s.get rb ≠ 0 → exec s.next c!"div" [.gpr ra, .gpr rb] = .next (s.next.hlo H L).next)
    (hv : s.get rb = -1 → s.get ra ≠ minWord → H = some h ∧ L = some l)
    (hm : Moves w8 mn8 rd h l v) (ws : List W32)
    (e : ws = [rWord 0 rb 0 0 7 52, rWord 0 ra rb 0 0 26, iWord 15 0 1 0xFFFF, iWord 13 1 1 0xFFFF, iWord 5 rb 1 3, iWord 15 0 1 0x8000, rWord 0 ra 1 0 6 52, w8]) :
    (s.get rb = 0 → Traps ws s) ∧ (s.get rb = -1 → Computes ws s rd [1] true (if s.get ra = minWord then .trap else .ok v)) ∧
    (s.get rb ≠ 0 → s.get rb ≠ -1 → ∃ s', Falls ws s s' ∧ Keeps s s' [1]) := by
  subst e
  let s2 := (s.next.hlo H L).next
  let s3 := (s2.set 1 (sext ((0xFFFF : BitVec 16).setWidth 32 <<< 16))).next
  let s4 := (s3.set 1 (s3.get 1 ||| (0xFFFF : BitVec 16).setWidth 64)).next
  let s5 := s4.next
  let s6 := (s5.set 1 minWord).next
  have g4 : s4.get 1 = -1 := by
    refine (getset0 (by decide)).trans ?_
    rw [show s3.get 1 = _ from getset0 (by decide)]
    exact lit_m1
  have gb : s4.get rb = s.get rb := (getset1 h2).trans (getset1 h2)
  have x3 : exec s2 c!"lui" [.gpr 1, .uimm 0xFFFF] = .next s3 := lui_step _ _ _
  have x4 : exec s3 c!"ori" [.gpr 1, .gpr 1, .uimm 0xFFFF] = .next s4 := ori_step _ _ _ _
  have x6 : exec s5 c!"lui" [.gpr 1, .uimm 0x8000] = .next s6 := by rw [lui_step, lit_min]
  have ga : s6.get ra = s.get ra := (getset1 h1).trans ((getset1 h1).trans (getset1 h1))
  have g6 : s6.get 1 = minWord := getset0 (by decide)
  refine ⟨?_, ?_, ?_⟩
  · intro e
    exact (chainT_trap rfl (dec_teq _ _ _ _) (teq_trap (e.trans (get_zero s).symm))).traps he
  · intro e
    have e0 : s.get rb ≠ 0 := by rw [e]; exact m1_ne
    have x1 : exec s c!"teq" [.gpr rb, .gpr 0] = .next s.next := teq_step e0
    have x5 : exec s4 c!"bne" [.gpr rb, .gpr 1, .off 3] = .next s5 := bne_step (by rw [g4, gb, e])
    by_cases em : s.get ra = minWord
    · rw [if_pos em]
      have x7 : exec s6 c!"teq" [.gpr ra, .gpr 1] = .trap := teq_trap (by rw [ga, g6, em])
      exact (chainT_step rfl (dec_teq _ _ _ _) x1 rfl (chainT_step rfl (dec_div _ _ _ _) (hx e0) rfl (chainT_step rfl (dec_lui _ _ _) x3 (set_npc _ _ _)
        (chainT_step rfl (dec_ori _ _ _) x4 (set_npc _ _ _) (chainT_step rfl (dec_bne _ _ _) x5 rfl (chainT_step rfl (dec_lui _ _ _) x6 (set_npc _ _ _)
        (chainT_trap rfl (dec_teq _ _ _ _) x7))))))).traps he
    · rw [if_neg em]
      obtain ⟨rfl, rfl⟩ := hv e em
      have x7 : exec s6 c!"teq" [.gpr ra, .gpr 1] = .next s6.next := teq_step (by rw [ga, g6]; exact em)
      have hi3 : s3.hi = s2.hi := ns_hi
      have hi5 : s5.hi = s3.hi := ns_hi
      have hi6 : s6.hi = s5.hi := ns_hi
      have lo3 : s3.lo = s2.lo := ns_lo
      have lo5 : s5.lo = s3.lo := ns_lo
      have lo6 : s6.lo = s5.lo := ns_lo
      have x8 : exec s6.next mn8 [.gpr rd] = .next (s6.next.set rd v).next := hm.2 _ (hi6.trans (hi5.trans hi3)) (lo6.trans (lo5.trans lo3))
      refine ⟨_, (chain_step rfl (dec_teq _ _ _ _) x1 rfl (chain_step rfl (dec_div _ _ _ _) (hx e0) rfl (chain_step rfl (dec_lui _ _ _) x3 (set_npc _ _ _)
        (chain_step rfl (dec_ori _ _ _) x4 (set_npc _ _ _) (chain_step rfl (dec_bne _ _ _) x5 rfl (chain_step rfl (dec_lui _ _ _) x6 (set_npc _ _ _)
        (chain_step rfl (dec_teq _ _ _ _) x7 rfl (chain_step rfl hm.1 x8 (set_npc _ _ _) (chain_end _ rfl))))))))).falls he, fun h0 => getset0 h0, ?_, by intro h; cases h⟩
      intro r hr
      simp only [List.mem_cons, List.not_mem_nil, or_false, not_or] at hr
      exact (getset1 hr.1).trans ((getset1 hr.2).trans ((getset1 hr.2).trans (getset1 hr.2)))
  · intro e0 e1
    have x1 : exec s c!"teq" [.gpr rb, .gpr 0] = .next s.next := teq_step e0
    have x5 : exec s4 c!"bne" [.gpr rb, .gpr 1, .off 3] = .next (s4.jumped 3) := bne_jump (by rw [g4, gb]; exact e1)
    refine ⟨_, (chain_step rfl (dec_teq _ _ _ _) x1 rfl (chain_step rfl (dec_div _ _ _ _) (hx e0) rfl (chain_step rfl (dec_lui _ _ _) x3 (set_npc _ _ _)
        (chain_step rfl (dec_ori _ _ _) x4 (set_npc _ _ _) (chain_branch (j := 8) rfl (dec_bne _ _ _) x5 lit_j3 rfl (dec_lui _ _ _) (lui_step _ _ _) (set_npc _ _ _) (chain_end _ rfl)))))).falls he, ?_⟩
    intro r hr
    simp only [List.mem_cons, List.not_mem_nil, or_false] at hr
    exact (getset1 hr).trans ((getset1 hr).trans (getset1 hr))

theorem sdiv_flo64 {w8 : W32} {s : Cpu} {mn8 : Str} {H L : Option W64} {h l v : W64} {rd ra rb : BitVec 5} (he : s.Entry) (h1 : ra ≠ 1) (h2 : rb ≠ 1)
    (hx : s.get rb ≠ 0 → exec s.next c!"ddiv" [.gpr ra, .gpr rb] = .next (s.next.hlo H L).next)
    (hv : s.get rb = -1 → s.get ra ≠ BitVec.intMin 64 → H = some h ∧ L = some l)
    (hm : Moves w8 mn8 rd h l v) (ws : List W32)
    (e : ws = [rWord 0 rb 0 0 7 52, rWord 0 ra rb 0 0 30, iWord 25 0 1 0xFFFF, iWord 5 rb 1 4, iWord 25 0 1 1, rWord 0 0 1 1 31 60, rWord 0 ra 1 0 6 52, w8]) :
    (s.get rb = 0 → Traps ws s) ∧ (s.get rb = -1 → Computes ws s rd [1] true (if s.get ra = BitVec.intMin 64 then .trap else .ok v)) ∧
    (s.get rb ≠ 0 → s.get rb ≠ -1 → ∃ s', Falls ws s s' ∧ Keeps s s' [1]) := by
  subst e
  let s2 := (s.next.hlo H L).next
  let s3 := (s2.set 1 (s2.get 0 + (0xFFFF : BitVec 16).signExtend 64)).next
  let s4 := s3.next
  let s5 := (s4.set 1 (s4.get 0 + (1 : BitVec 16).signExtend 64)).next
  let s6 := (s5.set 1 (s5.get 1 <<< ((31 : BitVec 5).toNat + 32))).next
  have g3 : s3.get 1 = -1 := by
    refine (getset0 (by decide)).trans ?_
    rw [show s2.get 0 = 0 from rfl]
    exact lit_m1'
  have gb : s3.get rb = s.get rb := getset1 h2
  have x3 : exec s2 c!"daddiu" [.gpr 1, .gpr 0, .simm 0xFFFF] = .next s3 := daddiu_step _ _ _ _
  have x5 : exec s4 c!"daddiu" [.gpr 1, .gpr 0, .simm 1] = .next s5 := daddiu_step _ _ _ _
  have x6 : exec s5 c!"dsll32" [.gpr 1, .gpr 1, .sa 31] = .next s6 := dsll32_step _ _ _ _
  have ga : s6.get ra = s.get ra := (getset1 h1).trans ((getset1 h1).trans (getset1 h1))
  have g6 : s6.get 1 = BitVec.intMin 64 := by
    refine (getset0 (by decide)).trans ?_
    rw [show s5.get 1 = _ from getset0 (by decide), show s4.get 0 = 0 from rfl]
    exact lit_min64
  refine ⟨?_, ?_, ?_⟩
  · intro e
    exact (chainT_trap rfl (dec_teq _ _ _ _) (teq_trap (e.trans (get_zero s).symm))).traps he
  · intro e
    have e0 : s.get rb ≠ 0 := by rw [e]; exact m1_ne
    have x1 : exec s c!"teq" [.gpr rb, .gpr 0] = .next s.next := teq_step e0
    have x4 : exec s3 c!"bne" [.gpr rb, .gpr 1, .off 4] = .next s4 := bne_step (by rw [g3, gb, e])
    by_cases em : s.get ra = BitVec.intMin 64
    · rw [if_pos em]
      have x7 : exec s6 c!"teq" [.gpr ra, .gpr 1] = .trap := teq_trap (by rw [ga, g6, em])
      exact (chainT_step rfl (dec_teq _ _ _ _) x1 rfl (chainT_step rfl (dec_ddiv _ _ _ _) (hx e0) rfl (chainT_step rfl (dec_daddiu _ _ _) x3 (set_npc _ _ _)
        (chainT_step rfl (dec_bne _ _ _) x4 rfl (chainT_step rfl (dec_daddiu _ _ _) x5 (set_npc _ _ _) (chainT_step rfl (dec_dsll32 _ _ _ _) x6 (set_npc _ _ _)
        (chainT_trap rfl (dec_teq _ _ _ _) x7))))))).traps he
    · rw [if_neg em]
      obtain ⟨rfl, rfl⟩ := hv e em
      have x7 : exec s6 c!"teq" [.gpr ra, .gpr 1] = .next s6.next := teq_step (by rw [ga, g6]; exact em)
      have hi3 : s3.hi = s2.hi := ns_hi
      have hi5 : s5.hi = s3.hi := ns_hi
      have hi6 : s6.hi = s5.hi := ns_hi
      have lo3 : s3.lo = s2.lo := ns_lo
      have lo5 : s5.lo = s3.lo := ns_lo
      have lo6 : s6.lo = s5.lo := ns_lo
      have x8 : exec s6.next mn8 [.gpr rd] = .next (s6.next.set rd v).next := hm.2 _ (hi6.trans (hi5.trans hi3)) (lo6.trans (lo5.trans lo3))
      refine ⟨_, (chain_step rfl (dec_teq _ _ _ _) x1 rfl (chain_step rfl (dec_ddiv _ _ _ _) (hx e0) rfl (chain_step rfl (dec_daddiu _ _ _) x3 (set_npc _ _ _)
        (chain_step rfl (dec_bne _ _ _) x4 rfl (chain_step rfl (dec_daddiu _ _ _) x5 (set_npc _ _ _) (chain_step rfl (dec_dsll32 _ _ _ _) x6 (set_npc _ _ _)
        (chain_step rfl (dec_teq _ _ _ _) x7 rfl (chain_step rfl hm.1 x8 (set_npc _ _ _) (chain_end _ rfl))))))))).falls he, fun h0 => getset0 h0, ?_, by intro h; cases h⟩
      intro r hr
      simp only [List.mem_cons, List.not_mem_nil, or_false, not_or] at hr
      exact (getset1 hr.1).trans ((getset1 hr.2).trans ((getset1 hr.2).trans (getset1 hr.2)))
  · intro e0 e1
    have x1 : exec s c!"teq" [.gpr rb, .gpr 0] = .next s.next := teq_step e0
    have x4 : exec s3 c!"bne" [.gpr rb, .gpr 1, .off 4] = .next (s3.jumped 4) := bne_jump (by rw [g3, gb]; exact e1)
    refine ⟨_, (chain_step rfl (dec_teq _ _ _ _) x1 rfl (chain_step rfl (dec_ddiv _ _ _ _) (hx e0) rfl (chain_step rfl (dec_daddiu _ _ _) x3 (set_npc _ _ _)
        (chain_branch (j := 8) rfl (dec_bne _ _ _) x4 lit_j4 rfl (dec_daddiu _ _ _) (daddiu_step _ _ _ _) (set_npc _ _ _) (chain_end _ rfl))))).falls he, ?_⟩
    intro r hr
    simp only [List.mem_cons, List.not_mem_nil, or_false] at hr
    exact (getset1 hr).trans (getset1 hr)

theorem low_m1 {b : W64} (h : IsWord b) : b = -1 ↔ low b = -1 := by
  constructor
  · rintro rfl; decide +kernel
  · intro e
    have : sext (low b) = b := h
    rw [← this, e]; decide +kernel
theorem low_0 {b : W64} (h : IsWord b) : b = 0 ↔ low b = 0 := by
  constructor
  · rintro rfl; decide +kernel
  · intro e
    have : sext (low b) = b := h
    rw [← this, e]; decide +kernel

/-- HI and LO after a 32-bit division by a number other than 0. -/
def divHL (a b : W64) : Option W64 × Option W64 :=
  if low a = BitVec.intMin 32 ∧ low b = -1 then (none, none) else (some (sext ((low a).srem (low b))), some (sext ((low a).sdiv (low b))))
def ddivHL (a b : W64) : Option W64 × Option W64 :=
  if a = BitVec.intMin 64 ∧ b = -1 then (none, none) else (some (a.srem b), some (a.sdiv b))

theorem div_step (s : Cpu) {a b : BitVec 5} (ha : IsWord (s.get a)) (hb : IsWord (s.get b)) (h0 : s.get b ≠ 0) : exec s c!"div" [.gpr a, .gpr b] =
    .next (s.hlo (divHL (s.get a) (s.get b)).1 (divHL (s.get a) (s.get b)).2).next := by
  show (match (if IsWord (s.get a) ∧ IsWord (s.get b) then if low (s.get b) = 0 ∨ low (s.get a) = BitVec.intMin 32 ∧ low (s.get b) = -1 then some (none, none) else
      some (some (sext ((low (s.get a)).srem (low (s.get b)))), some (sext ((low (s.get a)).sdiv (low (s.get b))))) else none) with
    | some (h, l) => Step.next { s with hi := h, lo := l }.next
    | none => .undef) = _
  rw [if_pos ⟨ha, hb⟩]
  unfold divHL
  by_cases e : low (s.get a) = BitVec.intMin 32 ∧ low (s.get b) = -1
  · rw [if_pos (Or.inr e), if_pos e]; rfl
  · rw [if_neg (fun h => h.elim (fun h => h0 ((low_0 hb).2 h)) e), if_neg e]; rfl
theorem ddiv_step (s : Cpu) {a b : BitVec 5} (h0 : s.get b ≠ 0) : exec s c!"ddiv" [.gpr a, .gpr b] =
    .next (s.hlo (ddivHL (s.get a) (s.get b)).1 (ddivHL (s.get a) (s.get b)).2).next := by
  show (match (if s.get b = 0 ∨ s.get a = BitVec.intMin 64 ∧ s.get b = -1 then some (none, none) else
      some (some ((s.get a).srem (s.get b)), some ((s.get a).sdiv (s.get b)))) with
    | some (h, l) => Step.next { s with hi := h, lo := l }.next
    | none => .undef) = _
  unfold ddivHL
  by_cases e : s.get a = BitVec.intMin 64 ∧ s.get b = -1
  · rw [if_pos (Or.inr e), if_pos e]; rfl
  · rw [if_neg (fun h => h.elim h0 e), if_neg e]; rfl

theorem quot32 {a b : W64} (ha : IsWord a) (hb : IsWord b) (h : a ≠ minWord) : sext ((low a).sdiv (low b)) = BitVec.ofInt 64 (a.toInt.tdiv b.toInt) := by
  rw [ha.toInt, hb.toInt, ← BitVec.toInt_sdiv_of_ne_or_ne _ _ (Or.inl (mt (minWord_iff ha).2 h)), ← toInt_sext, BitVec.ofInt_toInt]
theorem rem32 {a b : W64} (ha : IsWord a) (hb : IsWord b) : sext ((low a).srem (low b)) = BitVec.ofInt 64 (a.toInt.tmod b.toInt) := by
  rw [ha.toInt, hb.toInt, ← BitVec.toInt_srem, ← toInt_sext, BitVec.ofInt_toInt]
theorem quot64 {a b : W64} (h : a ≠ BitVec.intMin 64) : a.sdiv b = BitVec.ofInt 64 (a.toInt.tdiv b.toInt) := by
  rw [← BitVec.toInt_sdiv_of_ne_or_ne _ _ (Or.inl h), BitVec.ofInt_toInt]
theorem rem64 (a b : W64) : a.srem b = BitVec.ofInt 64 (a.toInt.tmod b.toInt) := by
  rw [← BitVec.toInt_srem, BitVec.ofInt_toInt]

/-- What a signed division line does, as opposed to what it should do. -/
def SDivEffect (ws : List W32) (s : Cpu) (rd ra rb : BitVec 5) (f : W64 → W64 → Val) : Prop :=
  (s.get rb = 0 ∨ s.get rb = -1 → Computes ws s rd [1] true (f (s.get ra) (s.get rb))) ∧
  (s.get rb ≠ 0 → s.get rb ≠ -1 → f (s.get ra) (s.get rb) ≠ .undef → ∃ s', Falls ws s s' ∧ Keeps s s' [1])

theorem sdiv_effect {ws : List W32} {s : Cpu} {rd ra rb : BitVec 5} {v : W64} {f : W64 → W64 → Val} {mn : W64}
    (h : (s.get rb = 0 → Traps ws s) ∧ (s.get rb = -1 → Computes ws s rd [1] true (if s.get ra = mn then .trap else .ok v)) ∧
      (s.get rb ≠ 0 → s.get rb ≠ -1 → ∃ s', Falls ws s s' ∧ Keeps s s' [1]))
    (h0 : s.get rb = 0 → f (s.get ra) (s.get rb) = .trap) (h1 : s.get rb = -1 → f (s.get ra) (s.get rb) = if s.get ra = mn then .trap else .ok v) :
    SDivEffect ws s rd ra rb f := by
  refine ⟨?_, fun a b _ => h.2.2 a b⟩
  rintro (e | e)
  · rw [h0 e]; exact h.1 e
  · rw [h1 e]; exact h.2.1 e

theorem sdiv_sem (rd rs rt : BitVec 5) {mn : Str} {f : W64 → W64 → Val} (h : (mn, f) ∈ sdivOps) :
    ∃ o, Reg3Ok mn o ∧ ∀ s : Cpu, s.Entry → rs ≠ 1 → rt ≠ 1 → (mn = c!"div" ∨ mn = c!"ddiv" → rt ≠ 0) →
      SDivEffect (encR o (rs.setWidth 32) (rt.setWidth 32) (rd.setWidth 32) 0#32) s rd rs rt f := by
  obtain ⟨e1, e2, e3, e4, _⟩ := div_words rd rs rt
  simp only [sdivOps, List.mem_cons, Prod.mk.injEq, List.not_mem_nil, or_false] at h
  have hdv : ∀ a b : W64, IsWord a → IsWord b → b = -1 → a ≠ minWord → (divHL a b).1 = some (sext ((low a).srem (low b))) ∧ (divHL a b).2 = some (sext ((low a).sdiv (low b))) := by
    intro a b ha hb _ hm
    unfold divHL
    rw [if_neg (fun h => hm ((minWord_iff ha).2 h.1))]; exact ⟨rfl, rfl⟩
  have hddv : ∀ a b : W64, b = -1 → a ≠ BitVec.intMin 64 → (ddivHL a b).1 = some (a.srem b) ∧ (ddivHL a b).2 = some (a.sdiv b) := by
    intro a b _ hm
    unfold ddivHL
    rw [if_neg (fun h => hm h.1)]; exact ⟨rfl, rfl⟩
  rcases h with ⟨rfl, rfl⟩ | ⟨rfl, rfl⟩ | ⟨rfl, rfl⟩ | ⟨rfl, rfl⟩
  · refine ⟨.Div, by decide +kernel, fun s he h1 h2 h0 => ?_⟩
    by_cases hw : IsWord (s.get rs) ∧ IsWord (s.get rt)
    · refine sdiv_effect (sdiv_flo32 he h1 h2 (fun h => div_step s.next hw.1 hw.2 h) (hdv _ _ hw.1 hw.2) (moves_lo _ _ _) _ (e1 (h0 (Or.inl rfl)))) ?_ ?_
      · intro e; exact (if_pos hw).trans (if_pos (Or.inl e))
      · intro e
        refine (if_pos hw).trans ?_
        by_cases em : s.get rs = minWord
        · exact (if_pos (Or.inr ⟨em, e⟩)).trans (if_pos em).symm
        · rw [if_neg em]; refine (if_neg (fun h => h.elim (fun h => m1_ne (e.symm.trans h)) (fun h => em h.1))).trans ?_; rw [← quot32 hw.1 hw.2 em]
    · simp only [SDivEffect, if_neg hw]; exact ⟨fun _ => trivial, fun _ _ h => absurd rfl h⟩
  · refine ⟨.Rem, by decide +kernel, fun s he h1 h2 h0 => ?_⟩
    by_cases hw : IsWord (s.get rs) ∧ IsWord (s.get rt)
    · refine sdiv_effect (sdiv_flo32 he h1 h2 (fun h => div_step s.next hw.1 hw.2 h) (hdv _ _ hw.1 hw.2) (moves_hi _ _ _) _ e2) ?_ ?_
      · intro e; exact (if_pos hw).trans (if_pos (Or.inl e))
      · intro e
        refine (if_pos hw).trans ?_
        by_cases em : s.get rs = minWord
        · exact (if_pos (Or.inr ⟨em, e⟩)).trans (if_pos em).symm
        · rw [if_neg em]; refine (if_neg (fun h => h.elim (fun h => m1_ne (e.symm.trans h)) (fun h => em h.1))).trans ?_; rw [← rem32 hw.1 hw.2]
    · simp only [SDivEffect, if_neg hw]; exact ⟨fun _ => trivial, fun _ _ h => absurd rfl h⟩
  · refine ⟨.Ddiv, by decide +kernel, fun s he h1 h2 h0 => ?_⟩
    refine sdiv_effect (sdiv_flo64 he h1 h2 (fun h => ddiv_step s.next h) (hddv _ _) (moves_lo _ _ _) _ (e3 (h0 (Or.inr rfl)))) ?_ ?_
    · intro e; exact if_pos (Or.inl e)
    · intro e
      by_cases em : s.get rs = BitVec.intMin 64
      · exact (if_pos (Or.inr ⟨em, e⟩)).trans (if_pos em).symm
      · rw [if_neg em]; refine (if_neg (fun h => h.elim (fun h => m1_ne (e.symm.trans h)) (fun h => em h.1))).trans ?_; rw [← quot64 em]
  · refine ⟨.Drem, by decide +kernel, fun s he h1 h2 h0 => ?_⟩
    refine sdiv_effect (sdiv_flo64 he h1 h2 (fun h => ddiv_step s.next h) (hddv _ _) (moves_hi _ _ _) _ e4) ?_ ?_
    · intro e; exact if_pos (Or.inl e)
    · intro e
      by_cases em : s.get rs = BitVec.intMin 64
      · exact (if_pos (Or.inr ⟨em, e⟩)).trans (if_pos em).symm
      · rw [if_neg em]; refine (if_neg (fun h => h.elim (fun h => m1_ne (e.symm.trans h)) (fun h => em h.1))).trans ?_; rw [← rem64]

/-- C17, signed: when the divisor is 0 or -1, executing the words of a `div`, `rem`, `ddiv` or `drem` line has
the specified outcome (including the traps). The operands may not be `$at`; for `div` and `ddiv` the divisor
register must not be `$zero`.  For every other divisor see `C17_signed_skips`. -/
theorem C17_signed_partial [Unicode] (rt : Rt) (m : Mipsasm) (text : Str) (is : List Instruction) (warns : List ParserWarning)
    (h : assemble rt m text = .ok is warns) (k : Nat) (raw mn : Str) (rd ra rb : BitVec 5) (f : W64 → W64 → Val)
    (hk : (lines text)[k]? = some raw) (hc : kind raw = .code) (hi : InstrText (body raw) mn [.gpr rd, .gpr ra, .gpr rb])
    (hf : (mn, f) ∈ sdivOps) (ha : ra ≠ at') (hb : rb ≠ at') (h0 : mn = c!"div" ∨ mn = c!"ddiv" → rb ≠ 0) :
    ∃ ws, (is[codeCount ((lines text).take k)]?).map Instruction.getBytes = some ws ∧
      ∀ s, s.Entry → s.get rb = 0 ∨ s.get rb = -1 → Computes ws s rd [at'] true (f (s.get ra) (s.get rb)) := by
  obtain ⟨o, ho, h5⟩ := sdiv_sem rd ra rb hf
  exact ⟨_, reg3_words h hk hc hi ho, fun s he => (h5 s he ha hb h0).1⟩

/-- C17 is violated by every signed division whose divisor is neither 0 nor -1: the branch around the overflow
check also skips the final `mflo`/`mfhi`, so that no register but `$at` changes - `rd` never receives the result. -/
theorem C17_signed_skips [Unicode] (rt : Rt) (m : Mipsasm) (text : Str) (is : List Instruction) (warns : List ParserWarning)
    (h : assemble rt m text = .ok is warns) (k : Nat) (raw mn : Str) (rd ra rb : BitVec 5) (f : W64 → W64 → Val)
    (hk : (lines text)[k]? = some raw) (hc : kind raw = .code) (hi : InstrText (body raw) mn [.gpr rd, .gpr ra, .gpr rb])
    (hf : (mn, f) ∈ sdivOps) (ha : ra ≠ at') (hb : rb ≠ at') (h0 : mn = c!"div" ∨ mn = c!"ddiv" → rb ≠ 0) :
    ∃ ws, (is[codeCount ((lines text).take k)]?).map Instruction.getBytes = some ws ∧
      ∀ s, s.Entry → s.get rb ≠ 0 → s.get rb ≠ -1 → f (s.get ra) (s.get rb) ≠ .undef → ∃ s', Falls ws s s' ∧ Keeps s s' [at'] := by
  obtain ⟨o, ho, h5⟩ := sdiv_sem rd ra rb hf
  exact ⟨_, reg3_words h hk hc hi ho, fun s he => (h5 s he ha hb h0).2⟩

/-- Counterexample to the unrestricted C17: 20 / 4 leaves 0, the old value of `$v0`. -/
theorem C17_div_wrong : resultOf c!"div $v0, $a0, $a1" (cpu2 4 20 5 4) 2 = some 0 ∧ resultOf c!"drem $v0, $a0, $a1" (cpu2 4 20 5 7) 2 = some 0 := by
  decide +kernel

example : resultOf c!"div $v0, $a0, $a1" (cpu2 4 20 5 (-1)) 2 = some (-20) ∧ resultOf c!"ddiv $v0, $a0, $a1" (cpu2 4 20 5 (-1)) 2 = some (-20) := by
  decide +kernel

end Mips
