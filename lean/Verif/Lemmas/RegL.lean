/- Register parsing. -/
import Verif.Lemmas.NumL
import Verif.Model.Ast

namespace Mips
open Syntax

/-! ### the regex `r\d{1,2}` -/

/-- The first character, if any, satisfies `p`. -/
def headP (p : Char → Bool) : Str → Bool
  | d :: _ => p d
  | [] => false

/-- `r` followed by a digit occurs in the text. -/
def hasRD (p : Char → Bool) : Str → Bool
  | [] => false
  | c :: s => (c == 'r' && headP p s) || hasRD p s

theorem run_REG_nil [Unicode] : Re.run Re.REG [] = [] := by
  simp [Re.REG, Re.run, Re.lit]

theorem run_REG_cons [Unicode] (c : Char) (s : Str) :
    (Re.run Re.REG (c :: s)).isEmpty = !(c == 'r' && headP Unicode.isNd s) := by
  simp only [Re.REG, Re.run, Re.lit]
  by_cases hc : c = 'r'
  · subst hc
    cases s with
    | nil => simp [Re.run, headP]
    | cons d t =>
      by_cases hd : Unicode.isNd d = true
      · simp [Re.run, headP, hd]
      · simp [Re.run, headP, hd]
  · simp [hc]

theorem regReMatches_eq [Unicode] (s : Str) : regReMatches s = hasRD Unicode.isNd s := by
  unfold regReMatches
  induction s with
  | nil => simp [Re.find, run_REG_nil, hasRD]
  | cons c s ih =>
    have h := run_REG_cons c s
    simp only [Re.find, hasRD]
    rw [← ih]
    generalize (c == 'r' && headP Unicode.isNd s) = g at h ⊢
    cases hr : Re.run Re.REG (c :: s) with
    | nil =>
      rw [hr] at h
      cases g
      · simp
      · simp at h
    | cons x xs =>
      rw [hr] at h
      cases g
      · simp at h
      · simp

theorem hasRD_lower [Unicode] (s : Str) (ha : ∀ c ∈ s, isAscii c = true)
    (h : hasRD Unicode.isNd s = true) : hasRD isDigit (s.map asciiLower) = true := by
  induction s with
  | nil => simp [hasRD] at h
  | cons c s ih =>
    simp only [hasRD, List.map_cons, Bool.or_eq_true] at h ⊢
    rcases h with h | h
    · left
      simp only [Bool.and_eq_true, beq_iff_eq] at h ⊢
      obtain ⟨rfl, h⟩ := h
      refine ⟨by decide, ?_⟩
      cases s with
      | nil => simp [headP] at h
      | cons d t =>
        simp only [List.map_cons, headP] at h ⊢
        rw [Unicode.isNd_ascii d (ha d (by simp))] at h
        have : asciiLower d = d := by
          apply char_ext
          rw [asciiLower_toNat, if_neg]
          unfold isDigit at h
          simp only [Bool.and_eq_true, decide_eq_true_eq, UInt32.le_iff_toNat_le, val_toNat,
            UInt32.reduceToNat] at h
          omega
        rw [this, h]
    · right; exact ih (fun d hd => ha d (by simp [hd])) h

/-! ### names -/

theorem isAscii_toNat (c : Char) : isAscii c = true ↔ c.toNat < 128 := by
  unfold isAscii
  simp only [decide_eq_true_eq, UInt32.lt_iff_toNat_lt, val_toNat, UInt32.reduceToNat]

theorem sameName_ascii {s n : Str} (h : SameName s n) (hn : ∀ c ∈ n, isAscii c = true) :
    ∀ c ∈ s, isAscii c = true := by
  intro c hc
  have : asciiLower c ∈ n := by rw [← h]; exact List.mem_map_of_mem hc
  have := hn _ this
  rw [isAscii_toNat] at this ⊢
  rw [asciiLower_toNat] at this
  split at this <;> omega

/-- A name: non-empty, of letters and digits, starting with a letter, without `r` before a digit. -/
def nameOk (n : Str) : Bool :=
  !n.isEmpty && n.all (fun c => (97 ≤ c.toNat && c.toNat ≤ 122) || (48 ≤ c.toNat && c.toNat ≤ 57)) &&
  (match n with | c :: _ => (97 ≤ c.toNat && c.toNat ≤ 122) | [] => false)

theorem nameOk_chars {s n : Str} (h : SameName s n) (hn : nameOk n = true) :
    s ≠ [] ∧ (∀ c ∈ s, (97 ≤ c.toNat ∧ c.toNat ≤ 122) ∨ (65 ≤ c.toNat ∧ c.toNat ≤ 90) ∨
      (48 ≤ c.toNat ∧ c.toNat ≤ 57)) ∧
    ∃ c t, s = c :: t ∧ ((97 ≤ c.toNat ∧ c.toNat ≤ 122) ∨ (65 ≤ c.toNat ∧ c.toNat ≤ 90)) := by
  unfold SameName at h
  subst h
  simp only [nameOk, Bool.and_eq_true, List.all_map, List.all_eq_true, Function.comp_apply,
    Bool.or_eq_true, decide_eq_true_eq] at hn
  obtain ⟨⟨h1, h2⟩, h3⟩ := hn
  have h0 : s ≠ [] := by rintro rfl; simp at h1
  refine ⟨h0, ?_, ?_⟩
  · intro c hc
    have := h2 c hc
    rw [asciiLower_toNat] at this
    split at this <;> omega
  · cases s with
    | nil => exact absurd rfl h0
    | cons c t =>
      refine ⟨c, t, rfl, ?_⟩
      simp only [List.map_cons, Bool.and_eq_true, decide_eq_true_eq] at h3
      rw [asciiLower_toNat] at h3
      split at h3 <;> omega

theorem digitVal_ten_none {c : Char} (h : ¬(48 ≤ c.toNat ∧ c.toNat ≤ 57)) : digitVal 10 c = none := by
  unfold digitVal
  simp only [if_neg h]
  split
  · rename_i v hv
    split
    · rename_i hlt
      split at hv
      · simp at hv; omega
      · split at hv
        · simp at hv; omega
        · cases hv
    · rfl
  · rfl

theorem parseU32_letter {c : Char} {t : Str} (h : (97 ≤ c.toNat ∧ c.toNat ≤ 122) ∨ (65 ≤ c.toNat ∧ c.toNat ≤ 90)) :
    parseU32 (c :: t) = none := by
  unfold parseU32
  have h1 : c ≠ '+' := by rintro rfl; simp at h
  have h2 : c ≠ '-' := by rintro rfl; simp at h
  have : fromStrRadix .u32 10 (c :: t) = none := by
    rw [fromStrRadix.eq_def]
    split <;> simp_all [parseDigits, digitVal_ten_none (c := c) (by omega)]
  rw [this]; rfl

theorem parseU32_dec {s : Str} {n : Nat} (h : Digits decDigits s n) (hn : n < 2 ^ 32) : parseU32 s = some n := by
  unfold parseU32
  rw [fromStrRadix_digits _ _ _ (digits_chars_dec h).1 (dec_noSign h), parseDigits_dec h]
  simp [IntTy.check, IntTy.min, IntTy.max]; omega

theorem letter_notWs {c : Char} (h : (97 ≤ c.toNat ∧ c.toNat ≤ 122) ∨ (65 ≤ c.toNat ∧ c.toNat ≤ 90) ∨
      (48 ≤ c.toNat ∧ c.toNat ≤ 57)) : isWs c = false := by
  rw [Bool.eq_false_iff]; intro hw
  rw [isWs_toNat c (by omega)] at hw; omega

/-- Letters and digits only. -/
def Alnum (s : Str) : Prop := s ≠ [] ∧ ∀ c ∈ s, (97 ≤ c.toNat ∧ c.toNat ≤ 122) ∨
  (65 ≤ c.toNat ∧ c.toNat ≤ 90) ∨ (48 ≤ c.toNat ∧ c.toNat ≤ 57)

theorem Alnum.tight {s : Str} (h : Alnum s) : Tight s :=
  tight_of_chars h.1 fun c hc => letter_notWs (h.2 c hc)

theorem Alnum.tight_dollar {s : Str} (h : Alnum s) : Tight ('$' :: s) := by
  apply tight_of_chars (by simp)
  intro c hc
  rcases List.mem_cons.mp hc with rfl | hc
  · decide
  · exact letter_notWs (h.2 c hc)

theorem Alnum.noDollar {s : Str} (h : Alnum s) : trimStartMatches '$' s = s := by
  cases s with
  | nil => exact absurd rfl h.1
  | cons c t =>
    have := h.2 c (by simp)
    have hc : (c == '$') = false := by
      rw [beq_eq_false_iff_ne]; rintro rfl; simp at this
    simp [trimStartMatches, List.dropWhile, hc]

theorem blank_ws {s : Str} (h : Blank s) : ∀ c ∈ s, isWs c = true := fun c hc => (h c hc).1

/-- Reading a register text: white space and `$` are removed. -/
theorem reg_core {core : Str → BitVec 5 → Prop} (hc : ∀ s r, core s r → Alnum s) {s : Str} {r : BitVec 5}
    (h : Reg core s r) : ∃ b, core b r ∧ trimStartMatches '$' (trim s) = b := by
  cases h with
  | bare p b q r hp hq hb =>
    refine ⟨b, hb, ?_⟩
    rw [trim_blank_tight _ _ _ (blank_ws hp) (blank_ws hq) (hc _ _ hb).tight, (hc _ _ hb).noDollar]
  | dollar p b q r hp hq hb =>
    refine ⟨b, hb, ?_⟩
    rw [trim_blank_tight _ _ _ (blank_ws hp) (blank_ws hq) (hc _ _ hb).tight_dollar]
    have := (hc _ _ hb).noDollar
    unfold trimStartMatches at this ⊢
    simp [List.dropWhile, this]

theorem dec_alnum {s : Str} {n : Nat} (h : Digits decDigits s n) : Alnum s :=
  ⟨(digits_chars_dec h).1, fun c hc => Or.inr (Or.inr ((digits_chars_dec h).2 c hc))⟩

/-! ### general-purpose registers -/

theorem gprNames_ok : ∀ r : Fin 32, ∀ n, gprNames[r.val]? = some n →
    nameOk n = true ∧ hasRD isDigit n = false ∧ regTable.lookup n = some r := by decide +kernel

theorem gprNames_ok' (r : BitVec 5) (n : Str) (h : gprNames[r.toNat]? = some n) :
    nameOk n = true ∧ hasRD isDigit n = false ∧ regTable.lookup n = some r.toFin :=
  gprNames_ok r.toFin n h

theorem gprCore_alnum (s : Str) (r : BitVec 5) (h : GprCore s r) : Alnum s := by
  cases h with
  | name s n r hr hs =>
    obtain ⟨h1, h2, _⟩ := nameOk_chars hs (gprNames_ok' r n hr).1
    exact ⟨h1, h2⟩
  | num s r h => exact dec_alnum h
  | rnum s r h =>
    refine ⟨by simp, ?_⟩
    intro c hc
    rcases List.mem_cons.mp hc with rfl | hc
    · left; decide
    · exact (dec_alnum h).2 c hc

theorem nameOk_ascii {n : Str} (h : nameOk n = true) : ∀ c ∈ n, isAscii c = true := by
  intro c hc
  simp only [nameOk, Bool.and_eq_true, List.all_eq_true, Bool.or_eq_true, decide_eq_true_eq] at h
  have := h.1.2 c hc
  rw [isAscii_toNat]; omega

theorem lower_name [Unicode] {s n : Str} (h : SameName s n) (hn : nameOk n = true) : Unicode.lower s = n := by
  rw [Unicode.lower_ascii s (sameName_ascii h (nameOk_ascii hn))]; exact h

theorem tryFrom_bv (r : BitVec 5) : Register.tryFrom r.toNat = .ok r.toFin := by
  unfold Register.tryFrom
  rw [dif_pos (by have := r.isLt; omega)]; rfl

theorem hasRD_dec {s : Str} {n : Nat} (h : Digits decDigits s n) (p : Char → Bool) : hasRD p s = false := by
  have hc := (digits_chars_dec h).2
  clear h
  induction s with
  | nil => rfl
  | cons c s ih =>
    simp only [hasRD, ih (fun d hd => hc d (by simp [hd]))]
    have : (c == 'r') = false := by
      rw [beq_eq_false_iff_ne]; rintro rfl; have := hc 'r' (by simp); simp at this
    simp [this]

theorem gprCore_parse [Unicode] {b : Str} {r : BitVec 5} (h : GprCore b r) :
    (if regReMatches b then
      match parseU32 (trimStartMatches 'r' b) with
      | some n => Register.tryFrom n
      | none => .panic
    else match parseU32 b with
      | some n => Register.tryFrom n
      | none => match regTable.lookup (Unicode.lower b) with
        | some x => .ok x
        | none => .err reg) = (.ok r.toFin : Res Str Register) := by
  cases h with
  | name s n r hr hs =>
    obtain ⟨h1, h2, h3⟩ := gprNames_ok' r n hr
    have hm : regReMatches b = false := by
      rw [regReMatches_eq, Bool.eq_false_iff]
      intro hh
      have := hasRD_lower b (sameName_ascii hs (nameOk_ascii h1)) hh
      rw [show b.map asciiLower = n from hs, h2] at this; cases this
    rw [hm, if_neg (by simp)]
    obtain ⟨_, _, c, t, rfl, hc⟩ := nameOk_chars hs h1
    rw [parseU32_letter hc, lower_name hs h1, h3]
  | num s r h =>
    rw [regReMatches_eq, hasRD_dec h, if_neg (by simp), parseU32_dec h (by have := r.isLt; omega)]
    exact tryFrom_bv r
  | rnum s r h =>
    obtain ⟨h1, h2⟩ := digits_chars_dec h
    have hm : regReMatches ('r' :: s) = true := by
      rw [regReMatches_eq]
      cases s with
      | nil => exact absurd rfl h1
      | cons d t =>
        have hd := h2 d (by simp)
        simp only [hasRD, headP]
        rw [Unicode.isNd_ascii d (by rw [isAscii_toNat]; omega)]
        simp only [isDigit, UInt32.le_iff_toNat_le, val_toNat, UInt32.reduceToNat]
        simp [hd]
    rw [hm, if_pos rfl]
    have : trimStartMatches 'r' ('r' :: s) = s := by
      unfold trimStartMatches
      cases s with
      | nil => exact absurd rfl h1
      | cons d t =>
        have : (d == 'r') = false := by
          rw [beq_eq_false_iff_ne]; rintro rfl; have := h2 'r' (by simp); simp at this
        simp [List.dropWhile, this]
    rw [this, parseU32_dec h (by have := r.isLt; omega)]
    exact tryFrom_bv r

theorem gpr_fromStr [Unicode] {s : Str} {r : BitVec 5} (h : Reg GprCore s r) :
    Register.fromStr s = .ok r.toFin := by
  obtain ⟨b, hb, ht⟩ := reg_core gprCore_alnum h
  unfold Register.fromStr
  simp only [ht]
  exact gprCore_parse hb

/-! ### floating-point registers -/

theorem fprNames_ok1 : ∀ r : Fin 32, ∀ n, fprNames[r.val]? = some n →
    nameOk n = true ∧ fregTable.lookup n = some r := by decide +kernel
theorem fprNames_ok2 : ∀ r : Fin 32, ∀ n, fprNumNames[r.val]? = some n →
    nameOk n = true ∧ fregTable.lookup n = some r := by decide +kernel

theorem fprNames_ok' (r : BitVec 5) (n : Str) (h : fprNames[r.toNat]? = some n ∨ fprNumNames[r.toNat]? = some n) :
    nameOk n = true ∧ fregTable.lookup n = some r.toFin :=
  h.elim (fprNames_ok1 r.toFin n) (fprNames_ok2 r.toFin n)

theorem fprCore_alnum (s : Str) (r : BitVec 5) (h : FprCore s r) : Alnum s := by
  cases h with
  | name n r hr hs =>
    obtain ⟨h1, h2, _⟩ := nameOk_chars hs (fprNames_ok' r n (.inl hr)).1
    exact ⟨h1, h2⟩
  | num r h => exact dec_alnum h
  | fnum n r hr hs =>
    obtain ⟨h1, h2, _⟩ := nameOk_chars hs (fprNames_ok' r n (.inr hr)).1
    exact ⟨h1, h2⟩

theorem ftryFrom_bv (r : BitVec 5) : FloatRegister.tryFrom r.toNat = .ok r.toFin := by
  unfold FloatRegister.tryFrom
  rw [dif_pos (by have := r.isLt; omega)]; rfl

theorem fpr_fromStr [Unicode] {s : Str} {r : BitVec 5} (h : Reg FprCore s r) :
    FloatRegister.fromStr s = .ok r.toFin := by
  obtain ⟨b, hb, ht⟩ := reg_core fprCore_alnum h
  unfold FloatRegister.fromStr
  simp only [ht]
  have name : ∀ n, (fprNames[r.toNat]? = some n ∨ fprNumNames[r.toNat]? = some n) → SameName b n →
      parseU32 b = none ∧ fregTable.lookup (Unicode.lower b) = some r.toFin := by
    intro n hr hs
    obtain ⟨h1, h3⟩ := fprNames_ok' r n hr
    obtain ⟨_, _, c, t, rfl, hc⟩ := nameOk_chars hs h1
    exact ⟨parseU32_letter hc, by rw [lower_name hs h1, h3]⟩
  cases hb with
  | name n r hr hs => obtain ⟨h1, h2⟩ := name n (.inl hr) hs; simp only [h1, h2]
  | num r h => rw [parseU32_dec h (by have := r.isLt; omega)]; exact ftryFrom_bv r
  | fnum n r hr hs => obtain ⟨h1, h2⟩ := name n (.inr hr) hs; simp only [h1, h2]

/-! ### coprocessor 0 registers -/

theorem cop0Names_ok : ∀ e ∈ cop0Names, nameOk e.2 = true ∧ parseU32Hex e.2 = none ∧
    (∃ x, cop0Table.find? (fun t => t.2.2 == e.2) = some x ∧ x.1.val = e.1) ∧
    (∃ x, cop0Table.find? (fun t => t.1.val == e.1) = some x ∧ x.1.val = e.1) := by decide +kernel

theorem c0Core_alnum (s : Str) (r : BitVec 5) (h : C0Core s r) : Alnum s := by
  cases h with
  | name n r hr hs =>
    obtain ⟨h1, h2, _⟩ := nameOk_chars hs (cop0Names_ok _ hr).1
    exact ⟨h1, h2⟩
  | num n r _ h => exact dec_alnum h

theorem digitVal_lower (b : Nat) (hb : b ≤ 36) (c : Char) : digitVal b c = digitVal b (asciiLower c) := by
  unfold digitVal
  simp only [asciiLower_toNat]
  by_cases h : 65 ≤ c.toNat ∧ c.toNat ≤ 90
  · simp only [if_pos h]
    rw [if_neg (by omega), if_neg (by omega), if_neg (by omega), if_pos (by omega)]
    simp [show c.toNat + 32 - 87 = c.toNat - 55 by omega]
  · simp only [h, if_false]

theorem parseDigits_lower (b : Nat) (hb : b ≤ 36) (a : Nat) (s : Str) :
    parseDigits b a s = parseDigits b a (s.map asciiLower) := by
  induction s generalizing a with
  | nil => rfl
  | cons c s ih =>
    simp only [parseDigits, List.map_cons]
    rw [← digitVal_lower b hb]
    cases digitVal b c with
    | none => rfl
    | some d => exact ih _

theorem fin_of_val {x : Fin 32} {r : BitVec 5} (h : x.val = r.toNat) : x = r.toFin := Fin.ext h

theorem parseU32Hex_alnum {s : Str} (h : Alnum s) : parseU32Hex s = parseU32Hex (s.map asciiLower) := by
  unfold parseU32Hex
  have h1 : ∀ c ∈ s, c ≠ '+' ∧ c ≠ '-' := by
    intro c hc
    have := h.2 c hc
    constructor <;> rintro rfl <;> simp at this
  have h2 : ∀ c ∈ s.map asciiLower, c ≠ '+' ∧ c ≠ '-' := by
    intro c hc
    obtain ⟨d, hd, rfl⟩ := List.mem_map.mp hc
    have hl := asciiLower_toNat d
    have := h.2 d hd
    constructor <;> intro hh <;> rw [hh] at hl <;> simp at hl <;> split at hl <;> omega
  rw [fromStrRadix_digits _ _ _ h.1 h1, fromStrRadix_digits _ _ _ (by simpa using h.1) h2,
    parseDigits_lower 16 (by omega)]

theorem c0_fromStr [Unicode] {s : Str} {r : BitVec 5} (h : Reg C0Core s r) :
    Cop0Register.fromStr s = .ok r.toFin := by
  obtain ⟨b, hb, ht⟩ := reg_core c0Core_alnum h
  unfold Cop0Register.fromStr
  simp only [ht]
  cases hb with
  | name n r hr hs =>
    obtain ⟨h1, h2, ⟨x, h3, h4⟩, _⟩ := cop0Names_ok _ hr
    have ha := nameOk_chars hs h1
    have hx : parseU32Hex b = none := by
      rw [parseU32Hex_alnum ⟨ha.1, ha.2.1⟩]
      rw [show b.map asciiLower = n from hs]; exact h2
    obtain ⟨_, _, c, t, rfl, hc⟩ := ha
    rw [parseU32_letter hc, hx, lower_name hs h1]
    simp only [h3]
    rw [fin_of_val h4]
  | num n r hr h =>
    obtain ⟨_, _, _, ⟨x, h3, h4⟩⟩ := cop0Names_ok _ hr
    rw [parseU32_dec h (by have := r.isLt; omega)]
    simp only [Cop0Register.tryFrom, h3]
    rw [fin_of_val h4]

end Mips
