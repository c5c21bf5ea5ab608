/- Lemmas about numerals. -/
import Verif.Lemmas.StrL
import Verif.Spec.Syntax

namespace Mips
open Syntax

theorem val_toNat (c : Char) : c.val.toNat = c.toNat := rfl

theorem asciiLower_toNat (c : Char) :
    (asciiLower c).toNat = if 65 ≤ c.toNat ∧ c.toNat ≤ 90 then c.toNat + 32 else c.toNat := by
  unfold asciiLower
  simp only [UInt32.le_iff_toNat_le, Bool.and_eq_true, decide_eq_true_eq, val_toNat]
  split
  · rename_i h
    have h' : 65 ≤ c.toNat ∧ c.toNat ≤ 90 := h
    rw [if_pos h']
    have hv : Nat.isValidChar (c.toNat + 32) := by simp [Nat.isValidChar]; omega
    rw [Char.ofNat, dif_pos hv]; rfl
  · rename_i h
    have h' : ¬(65 ≤ c.toNat ∧ c.toNat ≤ 90) := h
    rw [if_neg h']

theorem isWs_toNat (c : Char) (h : c.toNat < 128) : isWs c = true ↔ (9 ≤ c.toNat ∧ c.toNat ≤ 13) ∨ c.toNat = 32 := by
  unfold isWs
  simp only [Bool.or_eq_true, Bool.and_eq_true, decide_eq_true_eq, beq_iff_eq, UInt32.le_iff_toNat_le,
    val_toNat, ← UInt32.toNat_inj]
  simp only [UInt32.reduceToNat]
  omega

/-- The digit characters of the specification are those of the model. -/
theorem dec_digit {k : Nat} {c : Char} (h : decDigits[k]? = some (asciiLower c)) :
    k < 10 ∧ c.toNat = 48 + k := by
  have hl := asciiLower_toNat c
  have hk : k < 10 := by
    rcases Nat.lt_or_ge k 10 with hk | hk
    · exact hk
    · rw [List.getElem?_eq_none (by simpa [decDigits] using hk)] at h; cases h
  refine ⟨hk, ?_⟩
  have h2 : (asciiLower c).toNat = 48 + k := by
    rcases k with _|_|_|_|_|_|_|_|_|_|k <;>
      first
      | (simp only [decDigits, List.getElem?_cons_succ, List.getElem?_cons_zero, Option.some.injEq] at h
         rw [← h]; rfl)
      | omega
  rw [h2] at hl
  split at hl <;> omega

theorem hex_digit {k : Nat} {c : Char} (h : hexDigits[k]? = some (asciiLower c)) :
    k < 16 ∧ (k < 10 → c.toNat = 48 + k) ∧ (10 ≤ k → c.toNat = 87 + k ∨ c.toNat = 55 + k) := by
  have hl := asciiLower_toNat c
  have hk : k < 16 := by
    rcases Nat.lt_or_ge k 16 with hk | hk
    · exact hk
    · rw [List.getElem?_eq_none (by simpa [hexDigits] using hk)] at h; cases h
  refine ⟨hk, ?_⟩
  have h2 : (asciiLower c).toNat = if k < 10 then 48 + k else 87 + k := by
    rcases k with _|_|_|_|_|_|_|_|_|_|_|_|_|_|_|_|k <;>
      first
      | (simp only [hexDigits, List.getElem?_cons_succ, List.getElem?_cons_zero, Option.some.injEq] at h
         rw [← h]; rfl)
      | omega
  rw [h2] at hl
  split at hl <;> split at hl <;> omega

theorem digitVal_dec {k : Nat} {c : Char} (h : decDigits[k]? = some (asciiLower c)) :
    digitVal 10 c = some k := by
  obtain ⟨h1, h2⟩ := dec_digit h
  unfold digitVal
  simp only [h2]
  rw [if_pos (by omega)]
  simp only [show 48 + k - 48 = k by omega, h1, if_true]

theorem digitVal_hex {k : Nat} {c : Char} (h : hexDigits[k]? = some (asciiLower c)) :
    digitVal 16 c = some k := by
  obtain ⟨h1, h2, h3⟩ := hex_digit h
  unfold digitVal
  rcases Nat.lt_or_ge k 10 with hk | hk
  · simp only [h2 hk]
    rw [if_pos (by omega)]
    simp only [show 48 + k - 48 = k by omega, h1, if_true]
  · rcases h3 hk with h4 | h4
    · simp only [h4]
      rw [if_neg (by omega), if_pos (by omega)]
      simp only [show 87 + k - 87 = k by omega, h1, if_true]
    · simp only [h4]
      rw [if_neg (by omega), if_neg (by omega), if_pos (by omega)]
      simp only [show 55 + k - 55 = k by omega, h1, if_true]

theorem parseDigits_dec {s : Str} {n : Nat} (h : Digits decDigits s n) : parseDigits 10 0 s = some n := by
  induction h with
  | one c k h => simp [parseDigits, digitVal_dec h]
  | snoc s c n k _ hk ih =>
    rw [parseDigits_snoc, ih, digitVal_dec hk]
    rfl

theorem parseDigits_hex {s : Str} {n : Nat} (h : Digits hexDigits s n) : parseDigits 16 0 s = some n := by
  induction h with
  | one c k h => simp [parseDigits, digitVal_hex h]
  | snoc s c n k _ hk ih =>
    rw [parseDigits_snoc, ih, digitVal_hex hk]
    rfl

/-- Characters of a numeral. -/
theorem digits_chars_dec {s : Str} {n : Nat} (h : Digits decDigits s n) :
    s ≠ [] ∧ ∀ c ∈ s, 48 ≤ c.toNat ∧ c.toNat ≤ 57 := by
  induction h with
  | one c k h => obtain ⟨h1, h2⟩ := dec_digit h; simp; omega
  | snoc s c n k _ hk ih =>
    obtain ⟨h1, h2⟩ := dec_digit hk
    refine ⟨by simp, ?_⟩
    intro d hd
    rcases List.mem_append.mp hd with hd | hd
    · exact ih.2 d hd
    · simp at hd; subst hd; omega

theorem digits_chars_hex {s : Str} {n : Nat} (h : Digits hexDigits s n) :
    s ≠ [] ∧ ∀ c ∈ s, (48 ≤ c.toNat ∧ c.toNat ≤ 57) ∨ (65 ≤ c.toNat ∧ c.toNat ≤ 70) ∨
      (97 ≤ c.toNat ∧ c.toNat ≤ 102) := by
  induction h with
  | one c k h => obtain ⟨h1, h2⟩ := hex_digit h; simp; omega
  | snoc s c n k _ hk ih =>
    obtain ⟨h1, h2⟩ := hex_digit hk
    refine ⟨by simp, ?_⟩
    intro d hd
    rcases List.mem_append.mp hd with hd | hd
    · exact ih.2 d hd
    · simp at hd; subst hd; omega

/-- Every character of an unsigned numeral is an ASCII letter or digit. -/
theorem unum_chars {s : Str} {n : Nat} (h : UNum s n) :
    s ≠ [] ∧ ∀ c ∈ s, (48 ≤ c.toNat ∧ c.toNat ≤ 57) ∨ (65 ≤ c.toNat ∧ c.toNat ≤ 70) ∨
      (97 ≤ c.toNat ∧ c.toNat ≤ 102) ∨ c = 'x' := by
  cases h with
  | dec s n h =>
    obtain ⟨h1, h2⟩ := digits_chars_dec h
    exact ⟨h1, fun c hc => Or.inl (h2 c hc)⟩
  | hex s n h =>
    obtain ⟨h1, h2⟩ := digits_chars_hex h
    refine ⟨by simp, ?_⟩
    intro c hc
    simp only [List.cons_append, List.nil_append, List.mem_cons] at hc
    rcases hc with rfl | rfl | hc
    · left; decide
    · right; right; right; rfl
    · have := h2 c hc; grind

/-- Every character of a numeral. -/
def numChar (c : Char) : Prop :=
  (48 ≤ c.toNat ∧ c.toNat ≤ 57) ∨ (65 ≤ c.toNat ∧ c.toNat ≤ 70) ∨ (97 ≤ c.toNat ∧ c.toNat ≤ 102) ∨
    c = 'x' ∨ c = '+' ∨ c = '-'

theorem num_chars {s : Str} {v : Int} (h : Num s v) : s ≠ [] ∧ ∀ c ∈ s, numChar c := by
  unfold numChar
  cases h with
  | pos s n h => have := unum_chars h; grind
  | plus s n h => have := unum_chars h; grind
  | neg s n h _ => have := unum_chars h; grind

theorem numChar_range {c : Char} (h : numChar c) : 43 ≤ c.toNat ∧ c.toNat ≤ 120 ∧ c.toNat ≠ 44 ∧ c.toNat ≠ 47
    ∧ c.toNat ≠ 59 ∧ c.toNat ≠ 64 := by
  unfold numChar at h
  rcases h with h | h | h | h | h | h
  · omega
  · omega
  · omega
  all_goals subst h; decide

theorem numChar_notWs {c : Char} (h : numChar c) : isWs c = false := by
  have := numChar_range h
  rw [Bool.eq_false_iff]; intro hw
  rw [isWs_toNat c (by omega)] at hw
  omega

theorem tight_of_chars {s : Str} (h0 : s ≠ []) (h : ∀ c ∈ s, isWs c = false) : Tight s :=
  ⟨h0, fun c hc => h c (List.mem_of_mem_head? hc), fun c hc => h c (List.mem_of_getLast? hc)⟩

theorem num_tight {s : Str} {v : Int} (h : Num s v) : Tight s :=
  tight_of_chars (num_chars h).1 fun c hc => numChar_notWs ((num_chars h).2 c hc)

/-! ### `0x` removal -/

theorem remove0x_cons (c : Char) (s : Str) (h : ¬(c = '0' ∧ ∃ t, s = 'x' :: t)) :
    remove0x (c :: s) = c :: remove0x s := by
  rw [remove0x.eq_def]
  split
  · rename_i heq; simp at heq; exact absurd ⟨heq.1, _, heq.2⟩ h
  · rename_i heq; simp at heq; rw [heq.1, heq.2]
  · rename_i heq; simp at heq

theorem remove0x_noX (s : Str) (h : 'x' ∉ s) : remove0x s = s := by
  induction s with
  | nil => simp [remove0x]
  | cons c s ih =>
    simp only [List.mem_cons, not_or] at h
    rw [remove0x_cons, ih h.2]
    rintro ⟨_, t, rfl⟩
    simp at h

theorem contains_noX (s : Str) (h : 'x' ∉ s) : contains c!"0x" s = false := by
  induction s with
  | nil => simp [contains]
  | cons c s ih =>
    simp only [List.mem_cons, not_or] at h
    simp only [contains, ih h.2, Bool.or_false]
    cases s with
    | nil => simp [List.isPrefixOf]
    | cons d t =>
      have : d ≠ 'x' := by rintro rfl; simp at h
      simp [List.isPrefixOf, Ne.symm this]

theorem remove0x_0x (s : Str) : remove0x ('0' :: 'x' :: s) = remove0x s := by
  rw [remove0x.eq_def]; rfl

/-- Characters that are not `x` in digits. -/
theorem noX_dec {s : Str} {n : Nat} (h : Digits decDigits s n) : 'x' ∉ s := by
  intro hx
  have := (digits_chars_dec h).2 _ hx
  simp at this

theorem noX_hex {s : Str} {n : Nat} (h : Digits hexDigits s n) : 'x' ∉ s := by
  intro hx
  have := (digits_chars_hex h).2 _ hx
  simp at this

/-! ### Rust integer parsing of digits -/

theorem fromStrRadix_digits (ty : IntTy) (b : Nat) (s : Str) (hs : s ≠ [])
    (h : ∀ c ∈ s, c ≠ '+' ∧ c ≠ '-') :
    fromStrRadix ty b s = (parseDigits b 0 s).bind fun n => ty.check (n : Int) := by
  cases s with
  | nil => exact absurd rfl hs
  | cons c s =>
    have := h c (by simp)
    rw [fromStrRadix.eq_def]
    split <;> simp_all

theorem fromStrRadix_plus (ty : IntTy) (b : Nat) (s : Str) (hs : s ≠ []) :
    fromStrRadix ty b ('+' :: s) = (parseDigits b 0 s).bind fun n => ty.check (n : Int) := by
  cases s with
  | nil => exact absurd rfl hs
  | cons c s => simp [fromStrRadix]

theorem fromStrRadix_minus (ty : IntTy) (b : Nat) (s : Str) (hs : s ≠ []) :
    fromStrRadix ty b ('-' :: s) =
      if ty.signed then (parseDigits b 0 s).bind fun n => ty.check (-(n : Int)) else none := by
  cases s with
  | nil => exact absurd rfl hs
  | cons c s => simp [fromStrRadix]

theorem dec_noSign {s : Str} {n : Nat} (h : Digits decDigits s n) : ∀ c ∈ s, c ≠ '+' ∧ c ≠ '-' := by
  intro c hc
  have := (digits_chars_dec h).2 _ hc
  constructor <;> rintro rfl <;> simp at this

theorem hex_noSign {s : Str} {n : Nat} (h : Digits hexDigits s n) : ∀ c ∈ s, c ≠ '+' ∧ c ≠ '-' := by
  intro c hc
  have := (digits_chars_hex h).2 _ hc
  constructor <;> rintro rfl <;> simp at this

/-- The numeric reading used by `parse_immediate`: whether the text contains `0x`, remove it and read
base 16, otherwise read base 10. -/
def readNum (ty : IntTy) (s : Str) : Option Int :=
  if contains c!"0x" s then fromStrRadix ty 16 (remove0x s) else fromStrRadix ty 10 s

theorem check_neg (ty : IntTy) (h : ty.signed = false) (n : Nat) (hn : 0 < n) : ty.check (-(n : Int)) = none := by
  cases ty <;> simp [IntTy.signed] at h <;> simp [IntTy.check, IntTy.min, IntTy.max] <;> omega

theorem readNum_num (ty : IntTy) {s : Str} {v : Int} (h : Num s v) : readNum ty s = ty.check v := by
  unfold readNum
  cases h with
  | pos s n h =>
    cases h with
    | dec s n h =>
      rw [contains_noX _ (noX_dec h), fromStrRadix_digits _ _ _ (digits_chars_dec h).1 (dec_noSign h),
        parseDigits_dec h]; simp
    | hex s n h =>
      have : contains c!"0x" (c!"0x" ++ s) = true := by simp [contains, List.isPrefixOf]
      rw [this, if_pos rfl]
      simp only [List.cons_append, List.nil_append]
      rw [remove0x_0x, remove0x_noX _ (noX_hex h),
        fromStrRadix_digits _ _ _ (digits_chars_hex h).1 (hex_noSign h), parseDigits_hex h]; simp
  | plus s n h =>
    cases h with
    | dec s n h =>
      have hx : 'x' ∉ '+' :: s := by simp [noX_dec h]
      rw [contains_noX _ hx, fromStrRadix_plus _ _ _ (digits_chars_dec h).1, parseDigits_dec h]; simp
    | hex s n h =>
      have : contains c!"0x" ('+' :: (c!"0x" ++ s)) = true := by simp [contains, List.isPrefixOf]
      rw [this, if_pos rfl]
      simp only [List.cons_append, List.nil_append]
      rw [remove0x_cons _ _ (by simp), remove0x_0x, remove0x_noX _ (noX_hex h),
        fromStrRadix_plus _ _ _ (digits_chars_hex h).1, parseDigits_hex h]; simp
  | neg s n h hn =>
    have key : ∀ o : Option Nat, o = some n → (if ty.signed = true then o.bind fun n => ty.check (-(n : Int)) else none) = ty.check (-(n : Int)) := by
      rintro o rfl
      split
      · rfl
      · rename_i hs; rw [check_neg ty (by simpa using hs) n hn]
    cases h with
    | dec s n h =>
      have hx : 'x' ∉ '-' :: s := by simp [noX_dec h]
      rw [contains_noX _ hx, fromStrRadix_minus _ _ _ (digits_chars_dec h).1]
      simpa using key _ (parseDigits_dec h)
    | hex s n h =>
      have : contains c!"0x" ('-' :: (c!"0x" ++ s)) = true := by simp [contains, List.isPrefixOf]
      rw [this, if_pos rfl]
      simp only [List.cons_append, List.nil_append]
      rw [remove0x_cons _ _ (by simp), remove0x_0x, remove0x_noX _ (noX_hex h),
        fromStrRadix_minus _ _ _ (digits_chars_hex h).1]
      exact key _ (parseDigits_hex h)

end Mips
