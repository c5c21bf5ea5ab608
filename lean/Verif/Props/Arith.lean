/-
C14: arithmetic pseudo-instructions.
-/
import Verif.Lemmas.WordL
import Verif.Spec.Report

namespace Mips
open Isa Machine Syntax Source Pseudo

theorem unary_words (rd rs : BitVec 5) :
    encR .Move (rs.setWidth 32) 0#32 (rd.setWidth 32) 0#32 = [rWord 0 0 rs rd 0 33] ∧
    encR .Dmove (rs.setWidth 32) 0#32 (rd.setWidth 32) 0#32 = [rWord 0 rs 0 rd 0 45] ∧
    encR .Not (rs.setWidth 32) 0#32 (rd.setWidth 32) 0#32 = [rWord 0 rs 0 rd 0 39] ∧
    encR .Neg (rs.setWidth 32) 0#32 (rd.setWidth 32) 0#32 = [rWord 0 0 rs rd 0 34] ∧
    encR .Negu (rs.setWidth 32) 0#32 (rd.setWidth 32) 0#32 = [rWord 0 0 rs rd 0 35] ∧
    encR .Dneg (rs.setWidth 32) 0#32 (rd.setWidth 32) 0#32 = [rWord 0 0 rs rd 0 46] ∧
    encR .Dnegu (rs.setWidth 32) 0#32 (rd.setWidth 32) 0#32 = [rWord 0 0 rs rd 0 47] ∧
    encR .Abs (rs.setWidth 32) 0#32 (rd.setWidth 32) 0#32 = [rWord 0 0 rs 1 31 3, rWord 0 rs 1 rd 0 38, rWord 0 rd 1 rd 0 35] ∧
    encR .Dabs (rs.setWidth 32) 0#32 (rd.setWidth 32) 0#32 = [rWord 0 0 rs 1 31 59, rWord 0 rs 1 rd 0 38, rWord 0 rd 1 rd 0 46] ∧
    encR .Clear 0#32 0#32 (rd.setWidth 32) 0#32 = [rWord 0 0 0 rd 0 33] := by
  simp [encR, rWord_or, iWord_or, BitVec.or_assoc]

theorem sra31 (x : W32) : x.sshiftRight 31 = if x.msb then BitVec.allOnes 32 else 0#32 := by
  ext i hi
  rw [BitVec.getElem_sshiftRight]
  by_cases hm : x.msb = true
  · simp only [hm, if_true]
    split
    · rename_i h
      have : i = 0 := by omega
      subst this
      have := BitVec.msb_eq_getLsbD_last x
      rw [hm] at this
      simp at this ⊢
      exact this
    · rw [BitVec.getElem_allOnes]
  · simp only [hm]
    split
    · rename_i h
      have : i = 0 := by omega
      subst this
      have := BitVec.msb_eq_getLsbD_last x
      simp only [hm] at this
      simp at this ⊢
      exact this
    · simp

theorem abs_trick (x : W32) : (x ^^^ x.sshiftRight 31) - x.sshiftRight 31 = if x.msb then -x else x := by
  rw [sra31]
  by_cases hm : x.msb = true
  · simp only [hm, if_true, BitVec.xor_allOnes]
    rw [BitVec.neg_eq_not_add]
    have : (1#32) = - BitVec.allOnes 32 := by decide
    rw [this, BitVec.sub_eq_add_neg]
  · simp [hm]

theorem low_xor (a b : W64) : low (a ^^^ b) = low a ^^^ low b := by unfold low; exact BitVec.setWidth_xor

theorem toInt_neg32 {x : W32} (h : x ≠ BitVec.intMin 32) : (-x).toInt = -x.toInt := by
  exact BitVec.toInt_neg_of_ne_intMin h

theorem abs_sem (s : Cpu) (he : s.Entry) (rd rs : BitVec 5) (h1 : rd ≠ 1) (h2 : rs ≠ 1) (hw : IsWord (s.get rs)) (hm : s.get rs ≠ minWord) :
    Computes [rWord 0 0 rs 1 31 3, rWord 0 rs 1 rd 0 38, rWord 0 rd 1 rd 0 35] s rd [1] false
      (.ok (BitVec.ofInt 64 (s.get rs).toInt.natAbs)) := by
  let m : W64 := sext ((low (s.get rs)).sshiftRight 31)
  let s1 := (s.set 1 m).next
  let s2 := (s1.set rd (s.get rs ^^^ m)).next
  have g1 : s1.get rs = s.get rs := get_set_ne _ _ h2
  have g2 : s1.get 1 = m := get_set_self s m (by decide)
  have g3 : s2.get 1 = m := by rw [get_next, get_set_ne _ _ (Ne.symm h1)]; exact g2
  have wm : IsWord m := isWord_sext _
  have w2 : IsWord (s2.get rd) := by
    by_cases h0 : rd = 0
    · subst h0; exact isWord_zero
    · rw [get_next, get_set_self _ _ h0]; exact hw.xor wm
  have x3 : exec s2 c!"subu" [.gpr rd, .gpr rd, .gpr 1] = .next (s2.set rd (sext (low (s2.get rd) - low m))).next := by
    show s2.write rd (op32 (· - ·) (s2.get rd) (s2.get 1)) = _
    rw [g3, op32_ok w2 wm]; rfl
  have x1 : exec s c!"sra" [.gpr 1, .gpr rs, .sa 31] = .next s1 := by
    show s.write 1 (if IsWord (s.get rs) then _ else _) = _
    rw [if_pos hw]; rfl
  have x2 : exec s1 c!"xor" [.gpr rd, .gpr rs, .gpr 1] = .next s2 := by
    show s1.write rd (.ok (s1.get rs ^^^ s1.get 1)) = _
    rw [g1, g2]; rfl
  refine ⟨_, (chain_step rfl (dec_sra _ _ _ _) x1 (set_npc _ _ _) (chain_step rfl (dec_xor _ _ _ _) x2 (set_npc _ _ _)
    (chain_step rfl (dec_subu _ _ _ _) x3 (set_npc _ _ _) (chain_end _ rfl)))).falls he, ?_, ?_, ?_⟩
  · intro h0
    rw [get_next, get_set_self _ _ h0, get_next, get_set_self _ _ h0, low_xor]
    show sext ((low (s.get rs) ^^^ low (sext _)) - low (sext _)) = _
    rw [low_sext, abs_trick]
    have hx : low (s.get rs) ≠ BitVec.intMin 32 := by
      intro h; apply hm; unfold minWord; rw [← h]; exact hw.symm
    rw [hw.toInt]
    apply BitVec.eq_of_toInt_eq
    rw [toInt_sext]
    have hb := BitVec.toInt_lt (x := low (s.get rs))
    have hb2 := BitVec.le_toInt (x := low (s.get rs))
    rw [BitVec.toInt_ofInt_eq_self (by decide) (by simp) (by simp at hb hb2 ⊢; omega)]
    have := BitVec.msb_eq_toInt (x := low (s.get rs))
    split
    · rename_i hmsb
      rw [toInt_neg32 hx]
      rw [hmsb] at this
      have := of_decide_eq_true this.symm
      omega
    · rename_i hmsb
      simp only [hmsb] at this
      have := of_decide_eq_false this.symm
      omega
  · intro r hr
    simp only [List.mem_cons, List.not_mem_nil, or_false, not_or] at hr
    rw [get_next, get_set_ne _ _ hr.1, get_next, get_set_ne _ _ hr.1, get_next, get_set_ne _ _ hr.2]
  · intro _; simp [s2, s1]

theorem ssubOverflow_zero32 (x : W32) : BitVec.ssubOverflow 0 x = decide (x = BitVec.intMin 32) := by
  unfold BitVec.ssubOverflow
  have hb := BitVec.toInt_lt (x := x)
  have hb2 := BitVec.le_toInt (x := x)
  rw [show (0 : W32).toInt = 0 by decide, Bool.eq_iff_iff]
  simp only [Bool.or_eq_true, decide_eq_true_eq]
  constructor
  · intro h
    apply BitVec.eq_of_toInt_eq
    rw [show (BitVec.intMin 32).toInt = -2147483648 by decide]
    simp at h hb hb2; omega
  · rintro rfl; left; decide

theorem ssubOverflow_zero64 (x : W64) : BitVec.ssubOverflow 0 x = decide (x = BitVec.intMin 64) := by
  unfold BitVec.ssubOverflow
  have hb := BitVec.toInt_lt (x := x)
  have hb2 := BitVec.le_toInt (x := x)
  rw [show (0 : W64).toInt = 0 by decide, Bool.eq_iff_iff]
  simp only [Bool.or_eq_true, decide_eq_true_eq]
  constructor
  · intro h
    apply BitVec.eq_of_toInt_eq
    rw [show (BitVec.intMin 64).toInt = -9223372036854775808 by decide]
    simp at h hb hb2; omega
  · rintro rfl; left; decide

theorem neg_ofInt64 (a : W64) : 0 - a = BitVec.ofInt 64 (- a.toInt) := by
  rw [BitVec.ofInt_neg, BitVec.ofInt_toInt]; simp

theorem neg_ofInt32 (a : W32) : 0 - a = BitVec.ofInt 32 (- a.toInt) := by
  rw [BitVec.ofInt_neg, BitVec.ofInt_toInt]; simp

theorem computes_val {ws : List W32} {s : Cpu} {rd : BitVec 5} {cl : List (BitVec 5)} {hl : Bool} {v w : Val} (h : Computes ws s rd cl hl v)
    (e : v = w) : Computes ws s rd cl hl w := e ▸ h

theorem minWord_iff {a : W64} (h : IsWord a) : a = minWord ↔ low a = BitVec.intMin 32 := by
  constructor
  · rintro rfl; exact low_sext _
  · intro e; unfold minWord; rw [← e]; exact h.symm

theorem unary_sem (rd rs : BitVec 5) {mn : Str} {f : W64 → Val} (h : (mn, f) ∈ unaryOps) (hd : mn ≠ c!"dabs") :
    ∃ o, RTypeOp.fromStr mn = some o ∧ classify mn = .pseudo2 ∧ mnOk mn = true ∧ mn ∉ [c!"break", c!"syscall", c!"sll", c!"jalr"] ∧
      ∀ s : Cpu, s.Entry → (mn = c!"move" → IsWord (s.get rs)) → (mn = c!"abs" → rd ≠ 1 ∧ rs ≠ 1) →
        Computes (encR o (rs.setWidth 32) 0#32 (rd.setWidth 32) 0#32) s rd (if mn = c!"abs" then [1] else []) false (f (s.get rs)) := by
  obtain ⟨e1, e2, e3, e4, e5, e6, e7, e8, e9, _⟩ := unary_words rd rs
  simp only [unaryOps, List.mem_cons, Prod.mk.injEq, List.not_mem_nil, or_false] at h
  rcases h with ⟨rfl, rfl⟩ | ⟨rfl, rfl⟩ | ⟨rfl, rfl⟩ | ⟨rfl, rfl⟩ | ⟨rfl, rfl⟩ | ⟨rfl, rfl⟩ | ⟨rfl, rfl⟩ | ⟨rfl, rfl⟩ | ⟨rfl, rfl⟩
  · refine ⟨.Move, by decide +kernel, by decide +kernel, by decide, by decide, ?_⟩
    intro s he hw _
    rw [e1]
    refine computes_write (dec_addu _ _ _ _) ?_ he _ _ (by simp)
    show s.write rd (op32 (· + ·) 0 (s.get rs)) = _
    rw [op32_ok isWord_zero (hw rfl)]
    show s.write rd (.ok (sext (0#32 + low (s.get rs)))) = _
    rw [BitVec.zero_add, hw rfl]
  · refine ⟨.Dmove, by decide +kernel, by decide +kernel, by decide, by decide, ?_⟩
    intro s he _ _
    rw [e2]
    refine computes_write (dec_daddu _ _ _ _) ?_ he _ _ (by simp)
    show s.write rd (.ok (s.get rs + 0)) = _
    rw [show s.get rs + 0 = s.get rs from BitVec.add_zero _]
  · refine ⟨.Not, by decide +kernel, by decide +kernel, by decide, by decide, ?_⟩
    intro s he _ _
    rw [e3]
    refine computes_write (dec_nor _ _ _ _) ?_ he _ _ (by simp)
    show s.write rd (.ok (~~~ (s.get rs ||| 0))) = _
    rw [show s.get rs ||| 0 = s.get rs from BitVec.or_zero]
  · refine ⟨.Neg, by decide +kernel, by decide +kernel, by decide, by decide, ?_⟩
    intro s he _ _
    rw [e4]
    by_cases hw : IsWord (s.get rs)
    · simp only [hw, not_true, if_false]
      refine computes_write (dec_sub _ _ _ _) ?_ he _ _ (by first | (split <;> simp) | (dsimp only; split <;> simp))
      show s.write rd (op32t (· - ·) BitVec.ssubOverflow 0 (s.get rs)) = _
      rw [op32t_eq isWord_zero hw]
      show s.write rd (if BitVec.ssubOverflow 0 (low (s.get rs)) = true then _ else .ok (sext (0 - low (s.get rs)))) = _
      rw [ssubOverflow_zero32]
      congr 1
      by_cases hm : s.get rs = minWord
      · simp [hm, minWord]
      · have := mt (minWord_iff hw).2 hm
        simp only [this, hm, decide_false, if_false, Bool.false_eq_true]
        rw [neg_ofInt32, hw.toInt]
        congr 1
        apply sext_ofInt
        have hb := BitVec.toInt_lt (x := low (s.get rs))
        have hb2 := BitVec.le_toInt (x := low (s.get rs))
        have hne : (low (s.get rs)).toInt ≠ (BitVec.intMin 32).toInt := fun h => this (BitVec.eq_of_toInt_eq h)
        rw [show (BitVec.intMin 32).toInt = -2147483648 by decide] at hne
        simp [fits] at *; omega
    · simp only [hw, not_false_eq_true, if_true]; trivial
  · refine ⟨.Negu, by decide +kernel, by decide +kernel, by decide, by decide, ?_⟩
    intro s he _ _
    rw [e5]
    by_cases hw : IsWord (s.get rs)
    · simp only [hw, not_true, if_false]
      refine computes_write (dec_subu _ _ _ _) ?_ he _ _ (by simp)
      show s.write rd (op32 (· - ·) 0 (s.get rs)) = _
      rw [op32_ok isWord_zero hw]
      show s.write rd (.ok (sext (0 - low (s.get rs)))) = _
      rw [neg_ofInt32, hw.toInt]
    · simp only [hw, not_false_eq_true, if_true]; trivial
  · refine ⟨.Dneg, by decide +kernel, by decide +kernel, by decide, by decide, ?_⟩
    intro s he _ _
    rw [e6]
    refine computes_write (dec_dsub _ _ _ _) ?_ he _ _ (by first | (split <;> simp) | (dsimp only; split <;> simp))
    show s.write rd (if BitVec.ssubOverflow 0 (s.get rs) = true then _ else .ok (0 - s.get rs)) = _
    rw [ssubOverflow_zero64, neg_ofInt64]
    simp
  · refine ⟨.Dnegu, by decide +kernel, by decide +kernel, by decide, by decide, ?_⟩
    intro s he _ _
    rw [e7]
    refine computes_write (dec_dsubu _ _ _ _) ?_ he _ _ (by simp)
    show s.write rd (.ok (0 - s.get rs)) = _
    rw [neg_ofInt64]
  · refine ⟨.Abs, by decide +kernel, by decide +kernel, by decide, by decide, ?_⟩
    intro s he _ hat
    rw [e8, if_pos rfl]
    by_cases hw : IsWord (s.get rs)
    · by_cases hm : s.get rs = minWord
      · simp only [hm, or_true, if_true]; trivial
      · simp only [hm, hw, not_true, or_false, if_false]
        exact abs_sem s he rd rs (hat rfl).1 (hat rfl).2 hw hm
    · simp only [hw, not_false_eq_true, true_or, if_true]; trivial
  · exact absurd rfl hd

/-- C14, the two-register pseudo-instructions other than `dabs`: in every program that assembles, executing
the words of such a line from any state does what the specification says.  `move` is a 32-bit operation, so
its operand must hold a word; `abs` uses `$at`, so neither operand may be `$at`. -/
theorem C14_unary_partial [Unicode] (rt : Rt) (m : Mipsasm) (text : Str) (is : List Instruction) (warns : List ParserWarning)
    (h : assemble rt m text = .ok is warns) (k : Nat) (raw mn : Str) (rd rs : BitVec 5) (f : W64 → Val)
    (hk : (lines text)[k]? = some raw) (hc : kind raw = .code) (hi : InstrText (body raw) mn [.gpr rd, .gpr rs])
    (hf : (mn, f) ∈ unaryOps) (hd : mn ≠ c!"dabs") :
    ∃ ws, (is[codeCount ((lines text).take k)]?).map Instruction.getBytes = some ws ∧
      ∀ s, s.Entry → (mn = c!"move" → IsWord (s.get rs)) → (mn = c!"abs" → rd ≠ at' ∧ rs ≠ at') →
        Computes ws s rd (if mn = c!"abs" then [at'] else []) false (f (s.get rs)) := by
  obtain ⟨o, h1, h2, h3, h4, h5⟩ := unary_sem rd rs hf hd
  exact ⟨_, line_words h hk hc (fun x _ => emits_reg2 x hi h1 h2 h3 h4 rt.ovf), h5⟩

/-- C14, `clear`. -/
theorem C14_clear [Unicode] (rt : Rt) (m : Mipsasm) (text : Str) (is : List Instruction) (warns : List ParserWarning)
    (h : assemble rt m text = .ok is warns) (k : Nat) (raw : Str) (rd : BitVec 5)
    (hk : (lines text)[k]? = some raw) (hc : kind raw = .code) (hi : InstrText (body raw) c!"clear" [.gpr rd]) :
    ∃ ws, (is[codeCount ((lines text).take k)]?).map Instruction.getBytes = some ws ∧
      ∀ s, s.Entry → Computes ws s rd [] false (.ok 0) := by
  refine ⟨_, line_words h hk hc (fun x _ => emits_rd1 (o := .Clear) x hi (by decide +kernel) (by decide +kernel) (by decide) (by decide) rt.ovf), ?_⟩
  intro s he
  obtain ⟨_, _, _, _, _, _, _, _, _, e⟩ := unary_words rd rd
  rw [e]
  refine computes_write (dec_addu _ _ _ _) ?_ he _ _ (by simp)
  show s.write rd (op32 (· + ·) 0 0) = _
  rw [op32_ok isWord_zero isWord_zero]; rfl

/-! ### subtraction of immediates -/

theorem neg_imm (v : BitVec 16) : (- v.setWidth 32) &&& 0xFFFF#32 = (-v).setWidth 32 := by
  apply BitVec.eq_of_toNat_eq
  rw [BitVec.toNat_and, show (0xFFFF#32).toNat = 2 ^ 16 - 1 by decide, Nat.and_two_pow_sub_one_eq_mod]
  simp only [BitVec.toNat_neg, BitVec.toNat_setWidth]
  have := v.isLt
  omega

theorem sub_words (ovf : Bool) (rt rs : BitVec 5) (v : BitVec 16) (l : BitVec 64) :
    encI ovf .Subi (rs.setWidth 32) (rt.setWidth 32) (v.setWidth 32) l = some [iWord 8 rs rt (-v)] ∧
    encI ovf .Subiu (rs.setWidth 32) (rt.setWidth 32) (v.setWidth 32) l = some [iWord 9 rs rt (-v)] ∧
    encI ovf .Dsubi (rs.setWidth 32) (rt.setWidth 32) (v.setWidth 32) l = some [iWord 24 rs rt (-v)] ∧
    encI ovf .Dsubiu (rs.setWidth 32) (rt.setWidth 32) (v.setWidth 32) l = some [iWord 25 rs rt (-v)] := by
  simp only [encI, neg_imm]
  simp [iWord_or, BitVec.or_assoc]

theorem neg_simm {v : BitVec 16} (h : v ≠ BitVec.intMin 16) : (-v).toInt = - v.toInt := BitVec.toInt_neg_of_ne_intMin h

theorem saddOverflow_iff {w : Nat} (hw : 0 < w) (x y : BitVec w) : BitVec.saddOverflow x y = !fits w (x.toInt + y.toInt) := by
  unfold BitVec.saddOverflow fits
  rw [Bool.eq_iff_iff]
  simp only [Bool.or_eq_true, decide_eq_true_eq, Bool.not_eq_true', decide_eq_false_iff_not]
  generalize (2 : Int) ^ (w - 1) = p
  omega

theorem add_ofInt {w : Nat} (x y : BitVec w) : x + y = BitVec.ofInt w (x.toInt + y.toInt) := by
  rw [BitVec.ofInt_add, BitVec.ofInt_toInt, BitVec.ofInt_toInt]

theorem toInt_simm32 (v : BitVec 16) : (v.signExtend 32).toInt = v.toInt := BitVec.toInt_signExtend_of_le (by decide)
theorem toInt_simm64 (v : BitVec 16) : (v.signExtend 64).toInt = v.toInt := BitVec.toInt_signExtend_of_le (by decide)

theorem sub_sem (rt rs : BitVec 5) (v : BitVec 16) {mn : Str} {f : W64 → Int → Val} (h : (mn, f) ∈ subOps) :
    ∃ o ws, ITypeOp.fromStr mn = some o ∧ classify mn = .arith ∧ mnOk mn = true ∧ mn ∉ [c!"break", c!"syscall", c!"sll", c!"jalr"] ∧
      (mn ≠ c!"andi" ∧ mn ≠ c!"ori" ∧ mn ≠ c!"xori") ∧
      (∀ ovf, encI ovf o (rs.setWidth 32) (rt.setWidth 32) (v.setWidth 32) (v.setWidth 64) = some ws) ∧
      ∀ s : Cpu, s.Entry → Computes ws s rt [] false (f (s.get rs) (-(-v).toInt)) := by
  have hb := BitVec.toInt_lt (x := -v)
  have hb2 := BitVec.le_toInt (x := -v)
  simp only [subOps, List.mem_cons, Prod.mk.injEq, List.not_mem_nil, or_false] at h
  rcases h with ⟨rfl, rfl⟩ | ⟨rfl, rfl⟩ | ⟨rfl, rfl⟩ | ⟨rfl, rfl⟩
  · refine ⟨.Subi, _, by decide +kernel, by decide +kernel, by decide, by decide, by decide, fun ovf => (sub_words ovf rt rs v _).1, ?_⟩
    intro s he
    by_cases hw : IsWord (s.get rs)
    · simp only [hw, not_true, if_false]
      refine computes_write (dec_addi _ _ _) ?_ he _ _ (by split <;> simp)
      show s.write rt (op32t (· + ·) BitVec.saddOverflow (s.get rs) ((-v).signExtend 64)) = _
      rw [op32t_eq hw (isWord_simm _), low_simm, saddOverflow_iff (by decide), toInt_simm32, hw.toInt, Int.sub_neg]
      by_cases hf : fits 32 ((low (s.get rs)).toInt + (-v).toInt) = true
      · simp only [hf, Bool.not_true, Bool.false_eq_true, if_false, if_true]
        rw [add_ofInt, toInt_simm32, sext_ofInt hf]
      · simp only [hf, Bool.not_false, if_true, if_false]; rfl
    · simp only [hw, not_false_eq_true, if_true]; trivial
  · refine ⟨.Subiu, _, by decide +kernel, by decide +kernel, by decide, by decide, by decide, fun ovf => (sub_words ovf rt rs v _).2.1, ?_⟩
    intro s he
    by_cases hw : IsWord (s.get rs)
    · simp only [hw, not_true, if_false]
      refine computes_write (dec_addiu _ _ _) ?_ he _ _ (by simp)
      show s.write rt (op32 (· + ·) (s.get rs) ((-v).signExtend 64)) = _
      rw [op32_ok hw (isWord_simm _), low_simm, add_ofInt, toInt_simm32, hw.toInt, Int.sub_neg]
    · simp only [hw, not_false_eq_true, if_true]; trivial
  · refine ⟨.Dsubi, _, by decide +kernel, by decide +kernel, by decide, by decide, by decide, fun ovf => (sub_words ovf rt rs v _).2.2.1, ?_⟩
    intro s he
    refine computes_write (dec_daddi _ _ _) ?_ he _ _ (by dsimp only; split <;> simp)
    show s.write rt (if BitVec.saddOverflow (s.get rs) ((-v).signExtend 64) = true then _ else .ok (s.get rs + (-v).signExtend 64)) = _
    dsimp only
    rw [saddOverflow_iff (by decide), toInt_simm64, Int.sub_neg, add_ofInt, toInt_simm64]
    by_cases hf : fits 64 ((s.get rs).toInt + (-v).toInt) = true
    · simp only [hf, Bool.not_true, Bool.false_eq_true, if_false, if_true]
    · simp only [hf, Bool.not_false, if_true, if_false]; rfl
  · refine ⟨.Dsubiu, _, by decide +kernel, by decide +kernel, by decide, by decide, by decide, fun ovf => (sub_words ovf rt rs v _).2.2.2, ?_⟩
    intro s he
    refine computes_write (dec_daddiu _ _ _) ?_ he _ _ (by simp)
    show s.write rt (.ok (s.get rs + (-v).signExtend 64)) = _
    dsimp only
    rw [add_ofInt, toInt_simm64, Int.sub_neg]

/-- The subtrahend the emitted words really use: the immediate, except that -32768 is used as +32768. -/
def effSub (v : BitVec 16) : Int := if v.toInt = -32768 then 32768 else v.toInt

theorem effSub_eq (v : BitVec 16) : -(-v).toInt = effSub v := by
  unfold effSub
  by_cases h : v = BitVec.intMin 16
  · subst h; decide
  · rw [neg_simm h, if_neg, Int.neg_neg]
    intro hh; exact h (BitVec.eq_of_toInt_eq (by rw [hh]; decide))

/-- C14, subtract-immediate, exact for every immediate: what is subtracted is `effSub v`. -/
theorem C14_sub_exact [Unicode] (rt : Rt) (m : Mipsasm) (text : Str) (is : List Instruction) (warns : List ParserWarning)
    (h : assemble rt m text = .ok is warns) (k : Nat) (raw mn : Str) (rd rs : BitVec 5) (v : BitVec 16) (f : W64 → Int → Val)
    (hk : (lines text)[k]? = some raw) (hc : kind raw = .code) (hi : InstrText (body raw) mn [.gpr rd, .gpr rs, .simm v])
    (hn : NoNumeralLabel (lines text)) (hf : (mn, f) ∈ subOps) :
    ∃ ws, (is[codeCount ((lines text).take k)]?).map Instruction.getBytes = some ws ∧
      ∀ s, s.Entry → Computes ws s rd [] false (f (s.get rs) (effSub v)) := by
  obtain ⟨o, ws, h1, h2, h3, h4, h5, h6, h7⟩ := sub_sem rd rs v hf
  refine ⟨ws, line_words h hk hc (fun x hx => emits_simm x hi (hx.noNum hn) h1 h2 h3 h4 h5 rt.ovf (h6 _)), ?_⟩
  rw [effSub_eq] at h7
  exact h7

/-- C14, subtract-immediate: correct for every immediate but -32768. -/
theorem C14_sub_partial [Unicode] (rt : Rt) (m : Mipsasm) (text : Str) (is : List Instruction) (warns : List ParserWarning)
    (h : assemble rt m text = .ok is warns) (k : Nat) (raw mn : Str) (rd rs : BitVec 5) (v : BitVec 16) (f : W64 → Int → Val)
    (hk : (lines text)[k]? = some raw) (hc : kind raw = .code) (hi : InstrText (body raw) mn [.gpr rd, .gpr rs, .simm v])
    (hn : NoNumeralLabel (lines text)) (hf : (mn, f) ∈ subOps) (hv : v.toInt ≠ -32768) :
    ∃ ws, (is[codeCount ((lines text).take k)]?).map Instruction.getBytes = some ws ∧
      ∀ s, s.Entry → Computes ws s rd [] false (f (s.get rs) v.toInt) := by
  have := C14_sub_exact rt m text is warns h k raw mn rd rs v f hk hc hi hn hf
  rwa [effSub, if_neg hv] at this

/-! ### dabs -/

theorem not_ofInt (a : W64) : ~~~ a = BitVec.ofInt 64 (-1 - a.toInt) := by
  have : ~~~ a = -1 - a := by
    rw [BitVec.neg_eq_not_add, BitVec.sub_eq_add_neg, BitVec.neg_eq_not_add]
    rw [show (~~~(1 : W64) + 1#64) = -1 by decide, BitVec.add_comm, BitVec.add_assoc]
    rw [show (1#64 + (-1 : W64)) = 0 by decide]; exact (BitVec.add_zero _).symm
  rw [this, BitVec.sub_eq_add_neg, Int.sub_eq_add_neg, BitVec.ofInt_add, BitVec.ofInt_neg, BitVec.ofInt_neg, BitVec.ofInt_toInt]
  rfl

theorem dsra31 {a : W64} (h : IsWord a) : a.sshiftRight 31 = if a.toInt < 0 then BitVec.allOnes 64 else 0#64 := by
  apply BitVec.eq_of_toInt_eq
  rw [BitVec.toInt_sshiftRight, Int.shiftRight_eq_div_pow, h.toInt]
  have hb := BitVec.toInt_lt (x := low a)
  have hb2 := BitVec.le_toInt (x := low a)
  simp only [Nat.reduceSub] at hb hb2
  split
  · rw [show (BitVec.allOnes 64).toInt = -1 by decide]; omega
  · rw [show (0#64).toInt = 0 by decide]; omega

theorem dabs_sem (s : Cpu) (he : s.Entry) (rd rs : BitVec 5) (h1 : rd ≠ 1) (h2 : rs ≠ 1) (hw : IsWord (s.get rs)) :
    Computes [rWord 0 0 rs 1 31 59, rWord 0 rs 1 rd 0 38, rWord 0 rd 1 rd 0 46] s rd [1] false
      (.ok (BitVec.ofInt 64 (s.get rs).toInt.natAbs)) := by
  let m : W64 := (s.get rs).sshiftRight 31
  let s1 := (s.set 1 m).next
  let s2 := (s1.set rd (s.get rs ^^^ m)).next
  have g1 : s1.get rs = s.get rs := get_set_ne _ _ h2
  have g2 : s1.get 1 = m := get_set_self s m (by decide)
  have g3 : s2.get 1 = m := by rw [get_next, get_set_ne _ _ (Ne.symm h1)]; exact g2
  have hm : m = if (s.get rs).toInt < 0 then BitVec.allOnes 64 else 0#64 := dsra31 hw
  have hb := BitVec.toInt_lt (x := low (s.get rs))
  have hb2 := BitVec.le_toInt (x := low (s.get rs))
  have ht := hw.toInt
  simp only [Nat.reduceSub] at hb hb2
  have hov : BitVec.ssubOverflow (s2.get rd) m = false := by
    by_cases h0 : rd = 0
    · subst h0
      rw [show s2.get 0 = 0 from rfl, ssubOverflow_zero64, hm]
      split <;> decide
    · rw [get_next, get_set_self _ _ h0, hm]
      split
      · rw [BitVec.xor_allOnes, not_ofInt]
        unfold BitVec.ssubOverflow
        rw [BitVec.toInt_ofInt_eq_self (by decide) (by simp; omega) (by simp; omega), show (BitVec.allOnes 64).toInt = -1 by decide]
        simp; omega
      · simp only [BitVec.xor_zero]
        unfold BitVec.ssubOverflow
        rw [show (0#64).toInt = 0 by decide]
        simp; omega
  have x3 : exec s2 c!"dsub" [.gpr rd, .gpr rd, .gpr 1] = .next (s2.set rd (s2.get rd - m)).next := by
    show s2.write rd (if BitVec.ssubOverflow (s2.get rd) (s2.get 1) = true then _ else _) = _
    rw [g3, hov]; rfl
  have x1 : exec s c!"dsra" [.gpr 1, .gpr rs, .sa 31] = .next s1 := rfl
  have x2 : exec s1 c!"xor" [.gpr rd, .gpr rs, .gpr 1] = .next s2 := by
    show s1.write rd (.ok (s1.get rs ^^^ s1.get 1)) = _
    rw [g1, g2]; rfl
  refine ⟨_, (chain_step rfl (dec_dsra _ _ _ _) x1 (set_npc _ _ _) (chain_step rfl (dec_xor _ _ _ _) x2 (set_npc _ _ _)
    (chain_step rfl (dec_dsub _ _ _ _) x3 (set_npc _ _ _) (chain_end _ rfl)))).falls he, ?_, ?_, ?_⟩
  · intro h0
    rw [get_next, get_set_self _ _ h0, get_next, get_set_self _ _ h0, hm]
    split
    · rename_i hneg
      rw [BitVec.xor_allOnes, BitVec.sub_eq_add_neg, show (- BitVec.allOnes 64) = 1#64 by decide, ← BitVec.neg_eq_not_add]
      rw [show ((s.get rs).toInt.natAbs : Int) = - (s.get rs).toInt by omega, BitVec.ofInt_neg, BitVec.ofInt_toInt]
    · rename_i hneg
      rw [show ((s.get rs).toInt.natAbs : Int) = (s.get rs).toInt by omega, BitVec.ofInt_toInt]
      simp
  · intro r hr
    simp only [List.mem_cons, List.not_mem_nil, or_false, not_or] at hr
    rw [get_next, get_set_ne _ _ hr.1, get_next, get_set_ne _ _ hr.1, get_next, get_set_ne _ _ hr.2]
  · intro _; simp [s2, s1]

/-- C14, `dabs`: correct when the operand fits 32 bits (see `C14_dabs_wrong`). -/
theorem C14_dabs_partial [Unicode] (rt : Rt) (m : Mipsasm) (text : Str) (is : List Instruction) (warns : List ParserWarning)
    (h : assemble rt m text = .ok is warns) (k : Nat) (raw : Str) (rd rs : BitVec 5)
    (hk : (lines text)[k]? = some raw) (hc : kind raw = .code) (hi : InstrText (body raw) c!"dabs" [.gpr rd, .gpr rs])
    (h1 : rd ≠ at') (h2 : rs ≠ at') :
    ∃ ws, (is[codeCount ((lines text).take k)]?).map Instruction.getBytes = some ws ∧
      ∀ s, s.Entry → IsWord (s.get rs) →
        Computes ws s rd [at'] false (.ok (BitVec.ofInt 64 (s.get rs).toInt.natAbs)) := by
  refine ⟨_, line_words h hk hc (fun x _ => emits_reg2 (o := .Dabs) x hi (by decide +kernel) (by decide +kernel) (by decide) (by decide) rt.ovf), ?_⟩
  intro s he hw
  obtain ⟨_, _, _, _, _, _, _, _, e, _⟩ := unary_words rd rs
  rw [e]
  exact dabs_sem s he rd rs h1 h2 hw

/-- A machine state with one register set. -/
def cpu1 (r : BitVec 5) (v : W64) : Cpu := ⟨fun q => if q = r then v else 0, some 0, some 0, 0, 1⟩
/-- A machine state with two registers set. -/
def cpu2 (r : BitVec 5) (v : W64) (r' : BitVec 5) (v' : W64) : Cpu := ⟨fun q => if q = r then v else if q = r' then v' else 0, some 0, some 0, 0, 1⟩

/-- What executing the words of a one-line program leaves in a register. -/
def resultOf (line : Str) (s : Cpu) (r : BitVec 5) : Option W64 :=
  match (@assemble asciiUnicode (idRt true) Mipsasm.new line).words with
  | some ws => match run ws 16 s with
    | .done s' => some (s'.get r)
    | _ => none
  | none => none

/-- C14 fails for `dabs` (the 64-bit sign is taken from bit 31 up): `dabs $v0, $a0` with `$a0` = 2^31 + 1
gives 2^31 - 1. -/
theorem C14_dabs_wrong : resultOf c!"dabs $v0, $a0" (cpu1 4 0x80000001) 2 = some 0x7fffffff := by decide +kernel

/-- C14 fails for the subtract-immediate instructions at -32768: `dsubiu $v0, $a0, -32768` with `$a0` = 0
gives -32768. -/
theorem C14_sub_wrong : resultOf c!"dsubiu $v0, $a0, -32768" (cpu1 4 0) 2 = some (-32768) := by decide +kernel

/-- C14 fails for `move` on a value that is not a word: the emitted `addu` is then undefined. -/
theorem C14_move_undefined : resultOf c!"move $v0, $a0" (cpu1 4 0x100000000) 2 = none := by decide +kernel

/-- C14 fails for `abs` if an operand is `$at`: `abs $v0, $at` with `$at` = 5 gives 0. -/
theorem C14_abs_at : resultOf c!"abs $v0, $at" (cpu1 1 5) 2 = some 0 := by decide +kernel

/-- Non-vacuity: `abs $v0, $a0` and `subi $v0, $a0, 5`, and what they compute on a sample state. -/
example : (@assemble asciiUnicode (idRt true) Mipsasm.new c!"abs $v0, $a0").words = some [0x00040fc3#32, 0x00811026#32, 0x00411023#32] ∧
    resultOf c!"abs $v0, $a0" (cpu1 4 (-7)) 2 = some 7 ∧ resultOf c!"subi $v0, $a0, 5" (cpu1 4 7) 2 = some 2 ∧
    resultOf c!"dabs $v0, $a0" (cpu1 4 (-7)) 2 = some 7 ∧ resultOf c!"clear $v0" (cpu1 2 7) 2 = some 0 ∧
    InstrText (body c!"abs $v0, $a0") c!"abs" [.gpr 2, .gpr 4] := by
  refine ⟨by decide +kernel, by decide +kernel, by decide +kernel, by decide +kernel, by decide +kernel, ?_⟩
  rw [show body c!"abs $v0, $a0" = c!"abs" ++ ' ' :: (c!"$v0" ++ ',' :: c!" $a0") by decide +kernel]
  refine .args _ _ _ _ (by unfold SameName; decide) (by decide) (.cons _ _ _ _ ?_ (.one _ _ ?_))
  · exact .gpr _ _ (.dollar [] c!"v0" [] 2 (by simp [Blank]) (by simp [Blank]) (.name _ c!"v0" _ (by decide) (by unfold SameName; decide)))
  · exact .gpr _ _ (.dollar [' '] c!"a0" [] 4 (by simp [Blank]; decide) (by simp [Blank]) (.name _ c!"a0" _ (by decide) (by unfold SameName; decide)))

end Mips
