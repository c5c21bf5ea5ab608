/-
C12, C13: loading constants.
-/
import Verif.Lemmas.WordL
import Verif.Spec.Report
import Verif.Props.Arith

namespace Mips
open Isa Machine Syntax Source Pseudo

theorem const_split {a b : Str} {r : BitVec 5} {n : Int} (ha : Reg GprCore a r) (hb : PNum b n) : split ',' (a ++ ',' :: b) = [a, b] := by
  rw [split_cons _ _ _ (fun h => (reg_chars gprCore_alnum ha _ h).2.2.1 rfl),
    split_noComma _ _ (fun h => ((pnum_chars hb).2 _ h).2.2.1 rfl)]

/-- The halves of a word. -/
def hi16 (i : W32) : BitVec 16 := i.extractLsb' 16 16
/-- see `hi16` -/
def lo16 (i : W32) : BitVec 16 := i.setWidth 16

theorem shr16 (i : W32) : i >>> 16 = (hi16 i).setWidth 32 := by
  unfold hi16
  apply BitVec.eq_of_toNat_eq
  have := i.isLt
  simp [BitVec.extractLsb'_toNat, Nat.shiftRight_eq_div_pow]; omega

theorem and16 (i : W32) : i &&& 0xFFFF#32 = (lo16 i).setWidth 32 := by
  unfold lo16
  apply BitVec.eq_of_toNat_eq
  rw [BitVec.toNat_and, show (0xFFFF#32).toNat = 2 ^ 16 - 1 by decide, Nat.and_two_pow_sub_one_eq_mod]
  simp; omega

theorem halves (i : W32) : (hi16 i).setWidth 32 <<< 16 ||| (lo16 i).setWidth 32 = i := by
  unfold hi16 lo16
  ext k hk
  simp
  by_cases h : k < 16
  · simp [h, BitVec.getLsbD_eq_getElem hk]
  · simp [h]
    have : 16 + (k - 16) = k := by omega
    rw [this]
    simp [BitVec.getLsbD_eq_getElem hk]; omega

theorem sext_or_lo (x : W32) (l : BitVec 16) : sext x ||| l.setWidth 64 = sext (x ||| l.setWidth 32) := by
  have : l.setWidth 64 = sext (l.setWidth 32) := by
    unfold sext
    rw [BitVec.signExtend_eq_setWidth_of_msb_false]
    · simp
    · rw [BitVec.msb_setWidth]; simp
  rw [this]; unfold sext; rw [BitVec.signExtend_or]

theorem hi16_zero (i : W32) : (i &&& 0xFFFF#32 = i) ↔ hi16 i = 0 := by
  rw [and16]
  constructor
  · intro h
    have h2 := halves i
    rw [h] at h2
    unfold hi16; rw [← h]
    ext k hk
    simp
  · intro h
    have h2 := halves i
    rw [h] at h2
    simpa using h2

theorem lo16_zero (i : W32) : (i &&& 0xFFFF#32 = 0#32) ↔ lo16 i = 0 := by
  rw [and16]
  constructor
  · intro h
    apply BitVec.eq_of_toNat_eq
    have := congrArg BitVec.toNat h
    simp at this ⊢
    have := (lo16 i).isLt; omega
  · intro h; rw [h]; rfl

theorem li_words (rt : BitVec 5) (i : W32) : encLi (rt.setWidth 32) i =
    if (hi16 i) = 0 then [iWord 13 0 rt (lo16 i)]
    else if lo16 i = 0 then [iWord 15 0 rt (hi16 i)]
    else if i &&& 0xFFFF8000#32 = 0xFFFF8000#32 then [iWord 15 0 rt (hi16 i), iWord 9 rt rt (lo16 i)]
    else [iWord 15 0 rt (hi16 i), iWord 13 rt rt (lo16 i)] := by
  unfold encLi
  by_cases h1 : hi16 i = 0
  · have h := (hi16_zero i).2 h1
    rw [if_pos h, if_pos h1]
    rw [and16] at h
    rw [← h, iWord_or]
    simp [lo16]
  · rw [if_neg (mt (hi16_zero i).1 h1), if_neg h1]
    by_cases h2 : lo16 i = 0
    · rw [if_pos ((lo16_zero i).2 h2), if_pos h2, shr16, iWord_or]; simp
    · rw [if_neg (mt (lo16_zero i).1 h2), if_neg h2, shr16, and16]
      simp [iWord_or, BitVec.or_assoc]

theorem liu_words (rt : BitVec 5) (i : W32) : encLiu (rt.setWidth 32) i =
    if (hi16 i) = 0 then [iWord 13 0 rt (lo16 i)]
    else if lo16 i = 0 then [iWord 15 0 rt (hi16 i)]
    else [iWord 15 0 rt (hi16 i), iWord 13 rt rt (lo16 i)] := by
  unfold encLiu
  by_cases h1 : hi16 i = 0
  · have h := (hi16_zero i).2 h1
    rw [if_pos h, if_pos h1]
    rw [and16] at h
    rw [← h, iWord_or]
    simp [lo16]
  · rw [if_neg (mt (hi16_zero i).1 h1), if_neg h1]
    by_cases h2 : lo16 i = 0
    · rw [if_pos ((lo16_zero i).2 h2), if_pos h2, shr16, iWord_or]; simp
    · rw [if_neg (mt (lo16_zero i).1 h2), if_neg h2, shr16, and16]
      simp [iWord_or, BitVec.or_assoc]

theorem computes_seq2 {w1 w2 : W32} {s : Cpu} {r : BitVec 5} {v1 v2 : W64} {m1 m2 : Str} {a1 a2 : List Arg} (he : s.Entry)
    (d1 : decoding w1 = some (m1, a1)) (d2 : decoding w2 = some (m2, a2))
    (x1 : exec s m1 a1 = .next (s.set r v1).next)
    (x2 : exec (s.set r v1).next m2 a2 = .next ((s.set r v1).next.set r v2).next) : Computes [w1, w2] s r [] false (.ok v2) := by
  refine ⟨_, (chain_step rfl d1 x1 (set_npc _ _ _) (chain_step rfl d2 x2 (set_npc _ _ _) (chain_end _ rfl))).falls he, ?_, ?_, ?_⟩
  · intro h0; rw [get_next, get_set_self _ _ h0]
  · intro q hq
    have hq : q ≠ r := by simpa using hq
    rw [get_next, get_set_ne _ _ hq, get_next, get_set_ne _ _ hq]
  · intro _; simp

/-- Executing `ori rt, $zero, v`. -/
theorem ori_sem (s : Cpu) (he : s.Entry) (rt : BitVec 5) (v : BitVec 16) :
    Computes [iWord 13 0 rt v] s rt [] false (.ok (v.setWidth 64)) := by
  refine computes_write (dec_ori _ _ _) ?_ he _ _ (by simp)
  show s.write rt (.ok (0 ||| v.setWidth 64)) = _
  rw [show (0 ||| v.setWidth 64 : W64) = v.setWidth 64 from BitVec.zero_or]

/-- A write to register 0 has no effect, so what value is written does not matter. -/
theorem set_ite (s : Cpu) (r : BitVec 5) (v w : W64) (h : r ≠ 0 → v = w) : s.set r v = s.set r w := by
  by_cases h0 : r = 0
  · unfold Cpu.set; rw [if_pos h0, if_pos h0]
  · rw [h h0]

theorem lui_ori_sem (s : Cpu) (he : s.Entry) (rt : BitVec 5) (h l : BitVec 16) :
    Computes [iWord 15 0 rt h, iWord 13 rt rt l] s rt [] false (.ok (sext (h.setWidth 32 <<< 16 ||| l.setWidth 32))) := by
  refine computes_seq2 he (dec_lui _ _ _) (dec_ori _ _ _) (v1 := sext (h.setWidth 32 <<< 16)) rfl ?_
  show Step.next ((s.set rt _).next.set rt ((s.set rt (sext (h.setWidth 32 <<< 16))).next.get rt ||| l.setWidth 64)).next = _
  congr 2
  apply set_ite
  intro h0
  rw [get_next, get_set_self _ _ h0, sext_or_lo]

theorem addiu_step (s1 : Cpu) (rt : BitVec 5) (x : W32) (l : BitVec 16) (hg : rt ≠ 0 → s1.get rt = sext x) : 
   exec s1 c!"addiu" [.gpr rt, .gpr rt, .simm l] = .next (s1.set rt (sext (x + l.signExtend 32))).next := by
  have hw : IsWord (s1.get rt) := by
    by_cases h0 : rt = 0
    · subst h0; exact isWord_zero
    · rw [hg h0]; exact isWord_sext _
  show s1.write rt (op32 (· + ·) (s1.get rt) (l.signExtend 64)) = Step.next _
  rw [op32_ok hw (isWord_simm _), low_simm]
  show Step.next (s1.set rt (sext (low (s1.get rt) + l.signExtend 32))).next = _
  rw [set_ite s1 rt (sext (low (s1.get rt) + l.signExtend 32)) (sext (x + l.signExtend 32)) (fun h0 => by rw [hg h0, low_sext])]

theorem lui_addiu_sem (s : Cpu) (he : s.Entry) (rt : BitVec 5) (h l : BitVec 16) :
    Computes [iWord 15 0 rt h, iWord 9 rt rt l] s rt [] false (.ok (sext ((h.setWidth 32 <<< 16) + l.signExtend 32))) :=
  computes_seq2 he (dec_lui _ _ _) (dec_addiu _ _ _) (v1 := sext (h.setWidth 32 <<< 16)) rfl
    (addiu_step _ _ _ _ (fun h0 => by rw [get_next, get_set_self _ _ h0]))

theorem lui_sem (s : Cpu) (he : s.Entry) (rt : BitVec 5) (h : BitVec 16) :
    Computes [iWord 15 0 rt h] s rt [] false (.ok (sext (h.setWidth 32 <<< 16))) :=
  computes_write (dec_lui _ _ _) rfl he _ _ (by simp)

/-- The constant that the words for `li r, n` really load. -/
def effLi (n : Int) : Int := if 0xFFFF8000 ≤ n then n - 0x10000 else n

theorem lo64 (l : BitVec 16) : l.setWidth 64 = sext (l.setWidth 32) := by
  have := sext_or_lo 0 l
  simpa [sext] using this

theorem and_ffff8000 (i : W32) : i &&& 0xFFFF8000#32 = (i >>> 15) <<< 15 := by
  have hm : ∀ k : Fin 32, (0xFFFF8000#32).getLsbD k = decide (15 ≤ k.1) := by decide
  apply BitVec.eq_of_getLsbD_eq
  intro k hk
  have := hm ⟨k, hk⟩
  rw [BitVec.getLsbD_and, this, BitVec.getLsbD_shiftLeft, BitVec.getLsbD_ushiftRight]
  by_cases h : 15 ≤ k
  · rw [show 15 + (k - 15) = k by omega]; simp [h, hk]
  · simp [h]

theorem ffff8000_iff (i : W32) : i &&& 0xFFFF8000#32 = 0xFFFF8000#32 ↔ 0xFFFF8000 ≤ i.toNat := by
  rw [and_ffff8000, ← BitVec.toNat_inj, BitVec.toNat_shiftLeft, BitVec.toNat_ushiftRight, Nat.shiftLeft_eq, Nat.shiftRight_eq_div_pow]
  have := i.isLt
  simp
  omega

theorem li_sem (s : Cpu) (he : s.Entry) (rt : BitVec 5) (n : Int) (h0 : 0 ≤ n) (h1 : n ≤ 0xFFFFFFFF) :
    Computes (encLi (rt.setWidth 32) (BitVec.ofInt 32 n)) s rt [] false (.ok (sext (BitVec.ofInt 32 (effLi n)))) := by
  have hn : (BitVec.ofInt 32 n).toNat = n.toNat := by rw [BitVec.toNat_ofInt]; omega
  have hc : ((BitVec.ofInt 32 n) &&& 0xFFFF8000#32 = 0xFFFF8000#32) ↔ 0xFFFF8000 ≤ n := by
    rw [ffff8000_iff, hn]; omega
  rw [li_words]
  unfold effLi
  split
  · rename_i h
    have hh := halves (BitVec.ofInt 32 n)
    rw [h] at hh
    have hh : (lo16 (BitVec.ofInt 32 n)).setWidth 32 = BitVec.ofInt 32 n := by simpa using hh
    have hlt : n < 0xFFFF8000 := by
      have := (lo16 (BitVec.ofInt 32 n)).isLt
      have h2 := congrArg BitVec.toNat hh
      rw [hn, BitVec.toNat_setWidth] at h2
      omega
    rw [if_neg (by omega), ← hh, ← lo64, hh]
    exact ori_sem s he rt _
  · split
    · rename_i h
      have hh := halves (BitVec.ofInt 32 n)
      rw [h] at hh
      have hh : (hi16 (BitVec.ofInt 32 n)).setWidth 32 <<< 16 = BitVec.ofInt 32 n := by simpa using hh
      have hlt : ¬ 0xFFFF8000 ≤ n := by
        have := (hi16 (BitVec.ofInt 32 n)).isLt
        have h2 := congrArg BitVec.toNat hh
        rw [hn, BitVec.toNat_shiftLeft, BitVec.toNat_setWidth, Nat.shiftLeft_eq] at h2
        omega
      rw [if_neg hlt]
      have := lui_sem s he rt (hi16 (BitVec.ofInt 32 n))
      rwa [hh] at this
    · split
      · rename_i h
        have hn8 := hc.1 h
        rw [if_pos hn8]
        have := lui_addiu_sem s he rt (hi16 (BitVec.ofInt 32 n)) (lo16 (BitVec.ofInt 32 n))
        have e : ((hi16 (BitVec.ofInt 32 n)).setWidth 32 <<< 16) + (lo16 (BitVec.ofInt 32 n)).signExtend 32 = BitVec.ofInt 32 (n - 0x10000) := by
          have e1 : hi16 (BitVec.ofInt 32 n) = 0xFFFF#16 := by
            apply BitVec.eq_of_toNat_eq
            unfold hi16
            rw [BitVec.extractLsb'_toNat, hn, Nat.shiftRight_eq_div_pow]
            simp; omega
          have e2 : (lo16 (BitVec.ofInt 32 n)).toInt = n - 0x100000000 := by
            unfold lo16
            rw [BitVec.toInt_eq_toNat_cond, BitVec.toNat_setWidth, hn]
            rw [if_neg] <;> simp <;> omega
          rw [e1]
          apply BitVec.eq_of_toInt_eq
          rw [BitVec.toInt_add, toInt_simm32, e2, BitVec.toInt_ofInt]
          rw [show ((0xFFFF#16).setWidth 32 <<< 16 : W32).toInt = -0x10000 by decide]
          rw [show n - 0x10000 = (-0x10000 + (n - 0x100000000)) + 2 ^ 32 by omega]
          exact (Int.add_bmod_right _ _).symm
        rwa [e] at this
      · rename_i h
        rw [if_neg (mt hc.2 h)]
        have := lui_ori_sem s he rt (hi16 (BitVec.ofInt 32 n)) (lo16 (BitVec.ofInt 32 n))
        rwa [halves] at this

theorem liu_sem (s : Cpu) (he : s.Entry) (rt : BitVec 5) (i : W32) :
    Computes (encLiu (rt.setWidth 32) i) s rt [] false (.ok (sext i)) := by
  rw [liu_words]
  have hh := halves i
  split
  · rename_i h
    rw [h] at hh
    have hh : (lo16 i).setWidth 32 = i := by simpa using hh
    rw [← hh, ← lo64, hh]
    exact ori_sem s he rt _
  · split
    · rename_i h
      rw [h] at hh
      have hh : (hi16 i).setWidth 32 <<< 16 = i := by simpa using hh
      have := lui_sem s he rt (hi16 i)
      rwa [hh] at this
    · have := lui_ori_sem s he rt (hi16 i) (lo16 i)
      rwa [halves] at this

/-! ### dli -/

/-- The 16-bit pieces of a 64-bit value. -/
def piece (l : W64) (n : Nat) : BitVec 16 := l.extractLsb' n 16

theorem dli_words (ovf : Bool) (rs i : Word) (rt : BitVec 5) (l : W64) : encI ovf .Dli rs (rt.setWidth 32) i l =
    some [iWord 15 0 rt (piece l 48), iWord 13 rt rt (piece l 32), rWord 0 0 rt rt 16 56, iWord 13 rt rt (piece l 16),
      rWord 0 0 rt rt 16 56, iWord 13 rt rt (piece l 0)] := by
  have p3 : (l >>> 48).setWidth 32 = (piece l 48).setWidth 32 := by
    unfold piece
    apply BitVec.eq_of_toNat_eq
    have := l.isLt
    simp [BitVec.extractLsb'_toNat, Nat.shiftRight_eq_div_pow]; omega
  have p (n : Nat) : ((l >>> n) &&& 0xFFFF#64).setWidth 32 = (piece l n).setWidth 32 := by
    unfold piece
    apply BitVec.eq_of_toNat_eq
    rw [BitVec.toNat_setWidth, BitVec.toNat_and, show (0xFFFF#64).toNat = 2 ^ 16 - 1 by decide, Nat.and_two_pow_sub_one_eq_mod]
    simp [BitVec.extractLsb'_toNat]
  have p0 : (l &&& 0xFFFF#64).setWidth 32 = (piece l 0).setWidth 32 := by
    have := p 0
    simpa using this
  simp only [encI, p3, p, p0, iWord_or, rWord_or]
  simp [BitVec.or_assoc]

theorem getLsbD_piece (l : W64) (n k : Nat) : (piece l n).getLsbD k = (decide (k < 16) && l.getLsbD (n + k)) := by
  unfold piece; rw [BitVec.getLsbD_extractLsb']
theorem pieces (l : W64) :
    (((sext ((piece l 48).setWidth 32 <<< 16) ||| (piece l 32).setWidth 64) <<< 16 ||| (piece l 16).setWidth 64) <<< 16 |||
      (piece l 0).setWidth 64) = l := by
  unfold sext
  apply BitVec.eq_of_getLsbD_eq
  intro k hk
  simp only [BitVec.getLsbD_or, BitVec.getLsbD_shiftLeft, BitVec.getLsbD_signExtend, BitVec.getLsbD_setWidth, getLsbD_piece]
  by_cases h1 : k < 16
  · have : ¬ 16 ≤ k := by omega
    simp [h1, hk]
  by_cases h2 : k < 32
  · have a1 : k - 16 < 16 := by omega
    have a2 : k - 16 - 16 = 0 := by omega
    simp [h1, hk, a1, a2, show k - 16 < 64 by omega, show 16 + (k - 16) = k by omega]
  by_cases h3 : k < 48
  · have a1 : ¬ k - 16 < 16 := by omega
    simp [h1, hk, a1, show k - 16 - 16 < 16 by omega, show k - 16 < 64 by omega, show 16 + (k - 16) = k by omega, show k - 16 - 16 < 32 by omega, show k - 16 - 16 < 64 by omega, show 32 + (k - 16 - 16) = k by omega]
  · have a1 : ¬ k - 16 < 16 := by omega
    have a2 : ¬ k - 16 - 16 < 16 := by omega
    simp [h1, hk, a1, a2, show k - 16 < 64 by omega, show k - 16 - 16 < 32 by omega, show k - 16 - 16 < 64 by omega, show k - 16 - 16 - 16 < 32 by omega, show k - 16 - 16 - 16 < 16 by omega, show 48 + (k - 16 - 16 - 16) = k by omega]

theorem self_step {s1 : Cpu} {r : BitVec 5} {v w : W64} {mn : Str} {as : List Arg} (f : W64 → W64) (hx : exec s1 mn as = s1.write r (.ok (f (s1.get r))))
    (hg : r ≠ 0 → s1.get r = v) (hw : w = f v) : exec s1 mn as = .next (s1.set r w).next := by
  rw [hx, hw]
  show Step.next (s1.set r (f (s1.get r))).next = _
  rw [set_ite s1 r (f (s1.get r)) (f v) (fun h0 => by rw [hg h0])]

theorem get_self (s : Cpu) (r : BitVec 5) (v : W64) (h : r ≠ 0) : (s.set r v).next.get r = v := get_set_self _ _ h

theorem dli_sem (s : Cpu) (he : s.Entry) (rt : BitVec 5) (l : W64) :
    Computes [iWord 15 0 rt (piece l 48), iWord 13 rt rt (piece l 32), rWord 0 0 rt rt 16 56, iWord 13 rt rt (piece l 16),
      rWord 0 0 rt rt 16 56, iWord 13 rt rt (piece l 0)] s rt [] false (.ok l) := by
  have x1 : exec s c!"lui" [.gpr rt, .uimm (piece l 48)] = .next (s.set rt (sext ((piece l 48).setWidth 32 <<< 16))).next := rfl
  have ori (s1 : Cpu) (p : BitVec 16) {v : W64} (hg : rt ≠ 0 → s1.get rt = v) :
      exec s1 c!"ori" [.gpr rt, .gpr rt, .uimm p] = .next (s1.set rt (v ||| p.setWidth 64)).next :=
    self_step (fun x => x ||| p.setWidth 64) rfl hg rfl
  have sll (s1 : Cpu) {v : W64} (hg : rt ≠ 0 → s1.get rt = v) :
      exec s1 c!"dsll" [.gpr rt, .gpr rt, .sa 16] = .next (s1.set rt (v <<< 16)).next :=
    self_step (fun x => x <<< 16) rfl hg rfl
  have hp := pieces l
  refine ⟨_, (chain_step rfl (dec_lui _ _ _) x1 (set_npc _ _ _)
    (chain_step rfl (dec_ori _ _ _) (ori _ _ (get_self _ _ _)) (set_npc _ _ _)
    (chain_step rfl (dec_dsll _ _ _ _) (sll _ (get_self _ _ _)) (set_npc _ _ _)
    (chain_step rfl (dec_ori _ _ _) (ori _ _ (get_self _ _ _)) (set_npc _ _ _)
    (chain_step rfl (dec_dsll _ _ _ _) (sll _ (get_self _ _ _)) (set_npc _ _ _)
    (chain_step rfl (dec_ori _ _ _) (ori _ _ (get_self _ _ _)) (set_npc _ _ _) (chain_end _ rfl))))))).falls he, ?_, ?_, ?_⟩
  · intro h0; rw [get_self _ _ _ h0, hp]
  · intro q hq
    have hq : q ≠ rt := by simpa using hq
    simp only [get_next, get_set_ne _ _ hq]
  · intro _; simp

/-! ### lines -/

theorem const_emits [Unicode] (x : Ctx) {s mn : Str} {r : BitVec 5} {n : Int} (h : ConstText s mn r n) (hm : mnOk mn = true)
    (hl : NoNumLabel x.labels) {o : ITypeOp} (ho : ITypeOp.fromStr mn = some o) :
    ((classify mn = .li ∨ classify mn = .liu) → (0 ≤ n ∧ n ≤ 0xFFFFFFFF → (parseInst x s).res = .ok (.imm o Register.null r.toFin (.long (BitVec.ofInt 64 n)) [])) ∧
      (¬ (0 ≤ n ∧ n ≤ 0xFFFFFFFF) → ∃ e, (parseInst x s).res = .err (.invalidImmediate x.line e))) ∧
    (classify mn = .dli → (-2^63 ≤ n ∧ n < 2^63 → (parseInst x s).res = .ok (.imm o Register.null r.toFin (.long (BitVec.ofInt 64 n)) [])) ∧
      (¬ (-2^63 ≤ n ∧ n < 2^63) → ∃ e, (parseInst x s).res = .err (.invalidImmediate x.line e))) ∧
    (classify mn = .lui → (0 ≤ n ∧ n ≤ 0xFFFF → (parseInst x s).res = .ok (.imm o Register.null r.toFin (.short (BitVec.ofInt 16 n)) [])) ∧
      (¬ (0 ≤ n ∧ n ≤ 0xFFFF) → ∃ e, (parseInst x s).res = .err (.invalidImmediate x.line e))) := by
  obtain ⟨mn', a, b, rfl, hs, ha, hb⟩ := h
  have hM : Mn mn' mn := ⟨hs, hm⟩
  have hsp := const_split ha hb
  rw [parseInst_args x hM]
  have hli (hc : classify mn = .li ∨ classify mn = .liu) : parseArm x (classify mn) mn' (a ++ ',' :: b) = parseLi x mn' (a ++ ',' :: b) [a, b] := by
    rcases hc with hc | hc <;> rw [hc, ← hsp] <;> rfl
  have hiP : (-9223372036854775808 ≤ n ∧ n ≤ 9223372036854775807) → parseImm x .i64 b = .ok (.long (BitVec.ofInt 64 n)) :=
    fun h => (parseImm_num x .i64 hl hb).trans (if_pos h)
  have hiN : ¬ (-9223372036854775808 ≤ n ∧ n ≤ 9223372036854775807) → ∃ e, parseImm x .i64 b = .err (.invalidImmediate x.line e) :=
    fun h => ⟨_, (parseImm_num x .i64 hl hb).trans (if_neg h)⟩
  have huP : (0 ≤ n ∧ n ≤ 65535) → parseImm x .u16 b = .ok (.short (BitVec.ofInt 16 n)) :=
    fun h => (parseImm_num x .u16 hl hb).trans (if_pos h)
  have huN : ¬ (0 ≤ n ∧ n ≤ 65535) → ∃ e, parseImm x .u16 b = .err (.invalidImmediate x.line e) :=
    fun h => ⟨_, (parseImm_num x .u16 hl hb).trans (if_neg h)⟩
  refine ⟨fun hc => ⟨?_, ?_⟩, fun hc => ⟨?_, ?_⟩, fun hc => ⟨?_, ?_⟩⟩
  · intro hr
    have hi := hiP (by omega)
    rw [hli hc]
    have : ¬ 0xFFFFFFFF < (BitVec.ofInt 64 n).toNat := by rw [BitVec.toNat_ofInt]; omega
    simp only [parseLi, parseReg_ok x ha, hi, Immediate.asU64, if_neg this, mkI, hM.opI ho, W.bind_nil_ok, W.lift_ok, W.pure_def]
  · intro hr
    rw [hli hc]
    by_cases h64 : -9223372036854775808 ≤ n ∧ n ≤ 9223372036854775807
    · have hi := hiP h64
      have : 0xFFFFFFFF < (BitVec.ofInt 64 n).toNat := by rw [BitVec.toNat_ofInt]; omega
      refine ⟨b, ?_⟩
      simp only [parseLi, parseReg_ok x ha, hi, Immediate.asU64, if_pos this, W.fail, W.bind_nil_ok, W.lift_ok]
    · obtain ⟨e, hi⟩ := hiN h64
      exact ⟨_, by simp only [parseLi, parseReg_ok x ha, hi, W.bind_nil_ok]; rfl⟩
  · intro hr
    have hi := hiP (by omega)
    rw [hc, arm_dli x hM ho hsp ha hi]
  · intro hr
    obtain ⟨e, hi⟩ := hiN (by omega)
    rw [hc]
    exact ⟨_, by simp only [parseArm, hsp, parseReg_ok x ha, mkI, hM.opI ho, hi, W.bind_nil_ok]; rfl⟩
  · intro hr
    have hu := huP (by omega)
    rw [hc, arm_lui x hM ho hsp ha hu]
  · intro hr
    obtain ⟨e, hu⟩ := huN (by omega)
    rw [hc]
    exact ⟨_, by simp only [parseArm, hsp, parseReg_ok x ha, mkI, hM.opI ho, hu, W.bind_nil_ok]; rfl⟩

/-- A line whose parse fails is in no program that assembles. -/
theorem line_not_err [Unicode] {rt : Rt} {m : Mipsasm} {text : Str} {is : List Instruction} {warns : List ParserWarning}
    (h : assemble rt m text = .ok is warns) {k : Nat} {raw : Str} (hk : (lines text)[k]? = some raw) (hc : kind raw = .code)
    (he : ∀ x, AtLine rt m (lines text) k x → ∃ e, (parseInst x (body raw)).res = .err e) : False := by
  obtain ⟨tr, x, wn, p, a, b, _, _, _, hx, _, hp, _⟩ := line_done h hk hc
  obtain ⟨e, he⟩ := he x hx
  rw [hp] at he; cases he

/-- C12, exactly: in a program that assembles, `li r, n` has 0 ≤ n < 2^32, and executing its words leaves
the sign-extended 32-bit word `effLi n` in `r`, changing nothing else. -/
theorem C12_li_exact [Unicode] (rt : Rt) (m : Mipsasm) (text : Str) (is : List Instruction) (warns : List ParserWarning)
    (h : assemble rt m text = .ok is warns) (k : Nat) (raw : Str) (r : BitVec 5) (n : Int)
    (hk : (lines text)[k]? = some raw) (hc : kind raw = .code) (hi : ConstText (body raw) c!"li" r n)
    (hn : NoNumeralLabel (lines text)) :
    (0 ≤ n ∧ n ≤ 0xFFFFFFFF) ∧ ∃ ws, (is[codeCount ((lines text).take k)]?).map Instruction.getBytes = some ws ∧
      ∀ s, s.Entry → Computes ws s r [] false (.ok (sext (BitVec.ofInt 32 (effLi n)))) := by
  have hp := fun x (hx : AtLine rt m (lines text) k x) => (const_emits (o := .Li) x hi (by decide) (hx.noNum hn) (by decide +kernel)).1 (Or.inl (by decide +kernel))
  have hr : 0 ≤ n ∧ n ≤ 0xFFFFFFFF := by
    apply Decidable.byContradiction
    intro hcon
    exact line_not_err h hk hc (fun x hx => by obtain ⟨e, he⟩ := (hp x hx).2 hcon; exact ⟨_, he⟩)
  refine ⟨hr, encLi (r.setWidth 32) (BitVec.ofInt 32 n), ?_, fun s he => li_sem s he r n hr.1 hr.2⟩
  apply line_words h hk hc
  intro x hx
  refine ⟨_, (hp x hx).1 hr, rfl, ?_⟩
  have : (BitVec.ofInt 64 n).setWidth 32 = BitVec.ofInt 32 n := by
    apply BitVec.eq_of_toNat_eq; rw [BitVec.toNat_setWidth, BitVec.toNat_ofInt, BitVec.toNat_ofInt]; omega
  simp only [encode, Immediate.asU32, Immediate.asU64, opt_bind, Option.bind_some, encI, num_toFin, this]

/-- C12: correct below 0xFFFF8000. -/
theorem C12_li_partial [Unicode] (rt : Rt) (m : Mipsasm) (text : Str) (is : List Instruction) (warns : List ParserWarning)
    (h : assemble rt m text = .ok is warns) (k : Nat) (raw : Str) (r : BitVec 5) (n : Int)
    (hk : (lines text)[k]? = some raw) (hc : kind raw = .code) (hi : ConstText (body raw) c!"li" r n)
    (hn : NoNumeralLabel (lines text)) (hv : n < 0xFFFF8000) :
    ∃ ws, (is[codeCount ((lines text).take k)]?).map Instruction.getBytes = some ws ∧
      ∀ s, s.Entry → Computes ws s r [] false (.ok (sext (BitVec.ofInt 32 n))) := by
  have := (C12_li_exact rt m text is warns h k raw r n hk hc hi hn).2
  rwa [effLi, if_neg (by omega)] at this

/-- C12 fails above: `li $v0, 0xFFFFFFFF` loads 0xFFFEFFFF; and negative constants are rejected. -/
theorem C12_li_wrong : resultOf c!"li $v0, 0xFFFFFFFF" (cpu1 0 0) 2 = some 0xfffffffffffeffff ∧
    ((@assemble asciiUnicode (idRt true) Mipsasm.new c!"li $v0, -1").errors).map List.length = some 1 := by decide +kernel

/-- C13, `liu`. -/
theorem C13_liu [Unicode] (rt : Rt) (m : Mipsasm) (text : Str) (is : List Instruction) (warns : List ParserWarning)
    (h : assemble rt m text = .ok is warns) (k : Nat) (raw : Str) (r : BitVec 5) (n : Int)
    (hk : (lines text)[k]? = some raw) (hc : kind raw = .code) (hi : ConstText (body raw) c!"liu" r n)
    (hn : NoNumeralLabel (lines text)) :
    (0 ≤ n ∧ n ≤ 0xFFFFFFFF) ∧ ∃ ws, (is[codeCount ((lines text).take k)]?).map Instruction.getBytes = some ws ∧
      ∀ s, s.Entry → Computes ws s r [] false (.ok (sext (BitVec.ofInt 32 n))) := by
  have hp := fun x (hx : AtLine rt m (lines text) k x) => (const_emits (o := .Liu) x hi (by decide) (hx.noNum hn) (by decide +kernel)).1 (Or.inr (by decide +kernel))
  have hr : 0 ≤ n ∧ n ≤ 0xFFFFFFFF := by
    apply Decidable.byContradiction
    intro hcon
    exact line_not_err h hk hc (fun x hx => by obtain ⟨e, he⟩ := (hp x hx).2 hcon; exact ⟨_, he⟩)
  refine ⟨hr, encLiu (r.setWidth 32) (BitVec.ofInt 32 n), ?_, fun s he => liu_sem s he r _⟩
  apply line_words h hk hc
  intro x hx
  refine ⟨_, (hp x hx).1 hr, rfl, ?_⟩
  have : (BitVec.ofInt 64 n).setWidth 32 = BitVec.ofInt 32 n := by
    apply BitVec.eq_of_toNat_eq; rw [BitVec.toNat_setWidth, BitVec.toNat_ofInt, BitVec.toNat_ofInt]; omega
  simp only [encode, Immediate.asU32, Immediate.asU64, opt_bind, Option.bind_some, encI, num_toFin, this]

/-- C13, `dli`. -/
theorem C13_dli [Unicode] (rt : Rt) (m : Mipsasm) (text : Str) (is : List Instruction) (warns : List ParserWarning)
    (h : assemble rt m text = .ok is warns) (k : Nat) (raw : Str) (r : BitVec 5) (n : Int)
    (hk : (lines text)[k]? = some raw) (hc : kind raw = .code) (hi : ConstText (body raw) c!"dli" r n)
    (hn : NoNumeralLabel (lines text)) :
    (-2^63 ≤ n ∧ n < 2^63) ∧ ∃ ws, (is[codeCount ((lines text).take k)]?).map Instruction.getBytes = some ws ∧
      ∀ s, s.Entry → Computes ws s r [] false (.ok (BitVec.ofInt 64 n)) := by
  have hp := fun x (hx : AtLine rt m (lines text) k x) => (const_emits (o := .Dli) x hi (by decide) (hx.noNum hn) (by decide +kernel)).2.1 (by decide +kernel)
  have hr : -2^63 ≤ n ∧ n < 2^63 := by
    apply Decidable.byContradiction
    intro hcon
    exact line_not_err h hk hc (fun x hx => by obtain ⟨e, he⟩ := (hp x hx).2 hcon; exact ⟨_, he⟩)
  refine ⟨hr, _, ?_, fun s he => dli_sem s he r _⟩
  apply line_words h hk hc
  intro x hx
  refine ⟨_, (hp x hx).1 hr, rfl, ?_⟩
  simp only [encode, Immediate.asU32, Immediate.asU64, opt_bind, Option.bind_some, num_toFin, dli_words]

/-- C13, `lli`. -/
theorem C13_lli [Unicode] (rt : Rt) (m : Mipsasm) (text : Str) (is : List Instruction) (warns : List ParserWarning)
    (h : assemble rt m text = .ok is warns) (k : Nat) (raw : Str) (r : BitVec 5) (n : Int)
    (hk : (lines text)[k]? = some raw) (hc : kind raw = .code) (hi : ConstText (body raw) c!"lli" r n)
    (hn : NoNumeralLabel (lines text)) :
    (0 ≤ n ∧ n ≤ 0xFFFF) ∧ ∃ ws, (is[codeCount ((lines text).take k)]?).map Instruction.getBytes = some ws ∧
      ∀ s, s.Entry → Computes ws s r [] false (.ok (BitVec.ofInt 64 n)) := by
  have hp := fun x (hx : AtLine rt m (lines text) k x) => (const_emits (o := .Lli) x hi (by decide) (hx.noNum hn) (by decide +kernel)).2.2 (by decide +kernel)
  have hr : 0 ≤ n ∧ n ≤ 0xFFFF := by
    apply Decidable.byContradiction
    intro hcon
    exact line_not_err h hk hc (fun x hx => by obtain ⟨e, he⟩ := (hp x hx).2 hcon; exact ⟨_, he⟩)
  have e : BitVec.ofInt 64 n = (BitVec.ofInt 16 n).setWidth 64 := by
    apply BitVec.eq_of_toNat_eq; rw [BitVec.toNat_setWidth, BitVec.toNat_ofInt, BitVec.toNat_ofInt]; omega
  refine ⟨hr, _, ?_, fun s he => by rw [e]; exact ori_sem s he r _⟩
  apply line_words h hk hc
  intro x hx
  refine ⟨_, (hp x hx).1 hr, rfl, ?_⟩
  simp only [encode_imm, num_toFin, encI]
  simp [iWord_or]

/-- Non-vacuity: `li`, `liu`, `dli` and `lli` lines of the required form, and what they load. -/
example : ConstText (body c!"li $v0, 0x12345678") c!"li" 2 0x12345678 ∧
    resultOf c!"li $v0, 0x12345678" (cpu1 0 0) 2 = some 0x12345678 ∧ resultOf c!"liu $v0, 0xFFFFFFFF" (cpu1 0 0) 2 = some (-1) ∧
    resultOf c!"dli $v0, -0x123456789abcdef" (cpu1 0 0) 2 = some (-0x123456789abcdef) ∧
    resultOf c!"lli $v0, 0xFFFF" (cpu1 0 0) 2 = some 0xFFFF := by
  refine ⟨?_, by decide +kernel, by decide +kernel, by decide +kernel, by decide +kernel⟩
  rw [show body c!"li $v0, 0x12345678" = c!"li" ++ ' ' :: (c!"$v0" ++ ',' :: c!" 0x12345678") by decide +kernel]
  refine ⟨c!"li", c!"$v0", c!" 0x12345678", rfl, by unfold SameName; decide, ?_, ?_⟩
  · exact .dollar [] c!"v0" [] 2 (by simp [Blank]) (by simp [Blank]) (.name _ c!"v0" _ (by decide) (by unfold SameName; decide))
  · refine .mk [' '] c!"0x12345678" [] _ (by simp [Blank]; decide) (by simp [Blank]) (.pos _ _ (.hex c!"12345678" _ ?_))
    exact .snoc c!"1234567" '8' 0x1234567 8 (.snoc c!"123456" '7' 0x123456 7 (.snoc c!"12345" '6' 0x12345 6 (.snoc c!"1234" '5' 0x1234 5
      (.snoc c!"123" '4' 0x123 4 (.snoc c!"12" '3' 0x12 3 (.snoc c!"1" '2' 0x1 2 (.one '1' 1 rfl) rfl) rfl) rfl) rfl) rfl) rfl) rfl

end Mips
