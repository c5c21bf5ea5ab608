/- Lemmas about the string functions of the model. -/
import Verif.Model.Num

namespace Mips

/-! ### trimming -/

/-- First and last characters are not white space. -/
def Tight (s : Str) : Prop := s ≠ [] ∧ (∀ c, s.head? = some c → isWs c = false) ∧
  (∀ c, s.getLast? = some c → isWs c = false)

theorem trimEnd_append_blank (s q : Str) (hq : ∀ c ∈ q, isWs c = true) : trimEnd (s ++ q) = trimEnd s := by
  induction s with
  | nil =>
    simp only [List.nil_append]
    induction q with
    | nil => rfl
    | cons c q ih =>
      have := ih (fun d hd => hq d (List.mem_cons_of_mem _ hd))
      simp only [trimEnd] at this ⊢
      rw [this]
      simp [hq c (by simp)]
  | cons c s ih => simp only [List.cons_append, trimEnd, ih]

theorem trimEnd_tight (s : Str) (h : ∀ c, s.getLast? = some c → isWs c = false) : trimEnd s = s := by
  induction s with
  | nil => rfl
  | cons c s ih =>
    cases s with
    | nil => simp [trimEnd, h c (by simp)]
    | cons d t =>
      have := ih (fun e he => h e (by simpa using he))
      rw [trimEnd, this]

theorem trimStart_tight (s : Str) (h : ∀ c, s.head? = some c → isWs c = false) : trimStart s = s := by
  cases s with
  | nil => rfl
  | cons c s => simp [trimStart, List.dropWhile, h c (by simp)]

theorem trimStart_append_blank (p s : Str) (hp : ∀ c ∈ p, isWs c = true) : trimStart (p ++ s) = trimStart s := by
  induction p with
  | nil => rfl
  | cons c p ih =>
    have h2 := ih (fun d hd => hp d (List.mem_cons_of_mem _ hd))
    have hc := hp c (by simp)
    unfold trimStart at h2 ⊢
    simp [List.dropWhile, hc, h2]

theorem trim_blank_tight (p s q : Str) (hp : ∀ c ∈ p, isWs c = true) (hq : ∀ c ∈ q, isWs c = true)
    (hs : Tight s) : trim (p ++ s ++ q) = s := by
  unfold trim
  rw [List.append_assoc, trimStart_append_blank _ _ hp]
  obtain ⟨h0, h1, h2⟩ := hs
  have : trimStart (s ++ q) = s ++ q := by
    apply trimStart_tight
    intro c hc
    cases s with
    | nil => exact absurd rfl h0
    | cons d t => exact h1 c (by simpa using hc)
  rw [this, trimEnd_append_blank _ _ hq, trimEnd_tight _ h2]

theorem trim_tight (s : Str) (hs : Tight s) : trim s = s := by
  have := trim_blank_tight [] s [] (by simp) (by simp) hs
  simpa using this

theorem trim_blank (p : Str) (hp : ∀ c ∈ p, isWs c = true) : trim p = [] := by
  unfold trim
  have : trimStart p = [] := by
    have := trimStart_append_blank p [] hp
    simpa [trimStart] using this
  rw [this]; rfl

theorem trimEnd_last (s : Str) : ∀ c, (trimEnd s).getLast? = some c → isWs c = false := by
  induction s with
  | nil => simp [trimEnd]
  | cons d s ih =>
    intro c hc
    rw [trimEnd] at hc
    split at hc
    · split at hc
      · simp at hc
      · simp at hc; subst hc; simp_all
    · rename_i t e x he
      apply ih
      rw [he]
      simpa using hc

theorem trimEnd_prefix (s : Str) : ∃ q, s = trimEnd s ++ q ∧ ∀ c ∈ q, isWs c = true := by
  induction s with
  | nil => exact ⟨[], rfl, by simp⟩
  | cons d s ih =>
    obtain ⟨q, h1, h2⟩ := ih
    rw [trimEnd]
    split
    · rename_i he
      rw [he] at h1
      split
      · rename_i hw
        refine ⟨d :: q, by simpa using h1, ?_⟩
        simp [hw]; exact h2
      · exact ⟨q, by simpa using h1, h2⟩
    · rename_i t e x he
      refine ⟨q, ?_, h2⟩
      rw [List.cons_append, ← he, ← h1]

theorem trimStart_suffix (s : Str) : ∃ p, s = p ++ trimStart s ∧ ∀ c ∈ p, isWs c = true := by
  induction s with
  | nil => exact ⟨[], rfl, by simp⟩
  | cons d s ih =>
    obtain ⟨p, h1, h2⟩ := ih
    by_cases hw : isWs d = true
    · refine ⟨d :: p, ?_, ?_⟩
      · have : trimStart (d :: s) = trimStart s := by simp [trimStart, List.dropWhile, hw]
        rw [this, List.cons_append, ← h1]
      · simp [hw]; exact h2
    · refine ⟨[], ?_, by simp⟩
      simp [trimStart, List.dropWhile, hw]

theorem trimStart_head (s : Str) : ∀ c, (trimStart s).head? = some c → isWs c = false := by
  induction s with
  | nil => simp [trimStart]
  | cons d s ih =>
    intro c hc
    by_cases hw : isWs d = true
    · have : trimStart (d :: s) = trimStart s := by simp [trimStart, List.dropWhile, hw]
      rw [this] at hc; exact ih c hc
    · have : trimStart (d :: s) = d :: s := by simp [trimStart, List.dropWhile, hw]
      rw [this] at hc; simp at hc; subst hc; simpa using hw

/-- `trim` decomposes its argument. -/
theorem trim_decomp (s : Str) : ∃ p q, s = p ++ trim s ++ q ∧ (∀ c ∈ p, isWs c = true) ∧
    (∀ c ∈ q, isWs c = true) := by
  obtain ⟨p, h1, h2⟩ := trimStart_suffix s
  obtain ⟨q, h3, h4⟩ := trimEnd_prefix (trimStart s)
  refine ⟨p, q, ?_, h2, h4⟩
  unfold trim
  rw [List.append_assoc, ← h3, ← h1]

theorem trim_tight_of (s : Str) (h : trim s ≠ []) : Tight (trim s) := by
  refine ⟨h, ?_, ?_⟩
  · intro c hc
    unfold trim at hc h
    obtain ⟨q, h3, _⟩ := trimEnd_prefix (trimStart s)
    apply trimStart_head s
    rw [h3]
    generalize trimEnd (trimStart s) = t at *
    cases t with
    | nil => exact absurd rfl h
    | cons d t => simpa using hc
  · exact trimEnd_last _

@[simp] theorem trim_trim (s : Str) : trim (trim s) = trim s := by
  by_cases h : trim s = []
  · rw [h]; rfl
  · exact trim_tight _ (trim_tight_of s h)

@[simp] theorem trim_nil : trim [] = [] := rfl

/-! ### splitting -/

theorem split_noComma (ch : Char) (s : Str) (h : ch ∉ s) : split ch s = [s] := by
  induction s with
  | nil => rfl
  | cons c s ih =>
    simp only [List.mem_cons, not_or] at h
    rw [split, if_neg (Ne.symm h.1), ih h.2]

theorem split_cons (ch : Char) (a t : Str) (h : ch ∉ a) : split ch (a ++ ch :: t) = a :: split ch t := by
  induction a with
  | nil => simp [split]
  | cons c s ih =>
    simp only [List.mem_cons, not_or] at h
    rw [List.cons_append, split, if_neg (Ne.symm h.1), ih h.2]

theorem splitOnce_some (ch : Char) (m t : Str) (h : ch ∉ m) : splitOnce ch (m ++ ch :: t) = some (m, t) := by
  induction m with
  | nil => simp [splitOnce]
  | cons c s ih =>
    simp only [List.mem_cons, not_or] at h
    rw [List.cons_append, splitOnce, if_neg (Ne.symm h.1), ih h.2]; rfl

theorem splitOnce_none (ch : Char) (m : Str) (h : ch ∉ m) : splitOnce ch m = none := by
  induction m with
  | nil => rfl
  | cons c s ih =>
    simp only [List.mem_cons, not_or] at h
    rw [splitOnce, if_neg (Ne.symm h.1), ih h.2]; rfl

theorem splitOnce_eq_some {ch : Char} {s a b : Str} (h : splitOnce ch s = some (a, b)) :
    s = a ++ ch :: b ∧ ch ∉ a := by
  induction s generalizing a b with
  | nil => simp [splitOnce] at h
  | cons c s ih =>
    rw [splitOnce] at h
    split at h
    · simp only [Option.some.injEq, Prod.mk.injEq] at h
      obtain ⟨rfl, rfl⟩ := h
      subst c; simp
    · rename_i hc
      rw [Option.map_eq_some_iff] at h
      obtain ⟨⟨a', b'⟩, h1, h2⟩ := h
      simp only [Prod.mk.injEq] at h2
      obtain ⟨rfl, rfl⟩ := h2
      obtain ⟨h3, h4⟩ := ih h1
      rw [h3]
      simp only [List.cons_append, List.mem_cons, not_or, true_and]
      exact ⟨fun h => hc h.symm, h4⟩

theorem splitOnce_eq_none {ch : Char} {s : Str} (h : splitOnce ch s = none) : ch ∉ s := by
  induction s with
  | nil => simp
  | cons c s ih =>
    rw [splitOnce] at h
    split at h
    · simp at h
    · rename_i hc
      rw [Option.map_eq_none_iff] at h
      simp only [List.mem_cons, not_or]
      exact ⟨fun h => hc h.symm, ih h⟩

theorem split_ne_nil (ch : Char) (s : Str) : split ch s ≠ [] := by
  cases s with
  | nil => simp [split]
  | cons c s =>
    rw [split]
    split
    · simp
    · split <;> simp

/-! ### characters -/

theorem char_ext {a b : Char} (h : a.toNat = b.toNat) : a = b := Char.toNat_inj.mp h

/-! ### digits -/

theorem parseDigits_append (r a : Nat) (s t : Str) :
    parseDigits r a (s ++ t) = (parseDigits r a s).bind fun n => parseDigits r n t := by
  induction s generalizing a with
  | nil => rfl
  | cons c s ih =>
    simp only [List.cons_append, parseDigits]
    cases digitVal r c with
    | none => rfl
    | some d => exact ih _

theorem parseDigits_snoc (r a : Nat) (s : Str) (c : Char) :
    parseDigits r a (s ++ [c]) =
      (parseDigits r a s).bind fun n => (digitVal r c).map fun d => n * r + d := by
  rw [parseDigits_append]
  congr 1; funext n
  simp only [parseDigits]
  cases digitVal r c <;> rfl

end Mips
