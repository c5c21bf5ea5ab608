/- `squeeze` collapses white space; number formatting. -/
import Verif.Spec.Listing
import Verif.Model.Lib
import Verif.Lemmas.StrL

namespace Mips
open Listing

namespace Re
theorem starM_head (p : Char → Bool) (s : Str) : ∃ tl, starM p s = (s.takeWhile p, s.dropWhile p) :: tl := by
  induction s with
  | nil => exact ⟨[], rfl⟩
  | cons c s ih =>
    obtain ⟨tl, ht⟩ := ih
    by_cases h : p c
    · simp [starM, h, ht]
    · simp [starM, h]

theorem run_SPACE_ws (c : Char) (s : Str) (h : isWs c = true) :
    ∃ tl, run SPACE (c :: s) = (c :: s.takeWhile isWs, s.dropWhile isWs) :: tl := by
  obtain ⟨tl, ht⟩ := starM_head isWs s
  exact ⟨_, by simp [SPACE, run, h, ht]; rfl⟩

theorem run_SPACE_no (c : Char) (s : Str) (h : isWs c = false) : run SPACE (c :: s) = [] := by
  simp [SPACE, run, h]
end Re

theorem squash_no (b t : Str) (h : ∀ c ∈ b, isWs c = false) : squash (b ++ t) = b ++ squash t := by
  induction b with
  | nil => rfl
  | cons c b ih =>
    have hc := h c (by simp)
    have := ih (fun d hd => h d (by simp [hd]))
    cases b <;> simp_all [squash]

theorem squash_ws (c : Char) (s : Str) (h : isWs c = true) : squash (c :: s) = ' ' :: squash (s.dropWhile isWs) := by
  induction s generalizing c with
  | nil => simp [squash, h]
  | cons d s ih =>
    by_cases hd : isWs d
    · rw [show squash (c :: d :: s) = squash (d :: s) by simp [squash, h, hd], ih d hd]
      simp [hd]
    · simp [squash, h, hd]

theorem find_SPACE (s : Str) : Re.find Re.SPACE s = none ∧ (∀ c ∈ s, isWs c = false) ∨
    ∃ b c t, Re.find Re.SPACE s = some (b, c :: t.takeWhile isWs, t.dropWhile isWs) ∧ s = b ++ c :: t ∧
      isWs c = true ∧ ∀ c ∈ b, isWs c = false := by
  induction s with
  | nil => left; exact ⟨by decide, by simp⟩
  | cons d s ih =>
    by_cases hd : isWs d
    · right
      obtain ⟨tl, ht⟩ := Re.run_SPACE_ws d s hd
      exact ⟨[], d, s, by simp [Re.find, ht], rfl, hd, by simp⟩
    · have hd : isWs d = false := by simpa using hd
      have hr := Re.run_SPACE_no d s hd
      rcases ih with ⟨h1, h2⟩ | ⟨b, c, t, h1, h2, h3, h4⟩
      · left
        exact ⟨by simp [Re.find, hr, h1], by simp [hd]; exact h2⟩
      · right
        exact ⟨d :: b, c, t, by simp [Re.find, hr, h1], by simp [h2], h3, by simp [hd]; exact h4⟩

theorem replace_SPACE (n : Nat) : ∀ s : Str, s.length < n → Re.replaceAll Re.SPACE [' '] n s = squash s := by
  induction n with
  | zero => intro s h; omega
  | succ n ih =>
    intro s hs
    rw [Re.replaceAll]
    rcases find_SPACE s with ⟨h1, h2⟩ | ⟨b, c, t, h1, h2, h3, h4⟩
    · rw [h1]
      have := squash_no s [] h2
      simpa [squash] using this.symm
    · rw [h1]
      simp only [List.isEmpty_cons, Bool.false_eq_true, ↓reduceIte]
      rw [h2, squash_no b _ h4, squash_ws c t h3, ih]
      · simp
      · have := (List.dropWhile_sublist (l := t) isWs).length_le
        rw [h2] at hs; simp at hs; omega

theorem squeeze_eq (s : Str) : squeeze s = squash s := replace_SPACE _ s (by omega)

/-- No white space at all. -/
def NoWs (s : Str) : Prop := ∀ c ∈ s, isWs c = false

theorem squash_blank (k : Nat) (t : Str) (h : ∀ c, t.head? = some c → isWs c = false) :
    squash (List.replicate (k + 1) ' ' ++ t) = ' ' :: squash t := by
  rw [List.replicate_succ, List.cons_append, squash_ws _ _ (by decide)]
  congr 1
  have : ∀ k, (List.replicate k ' ' ++ t).dropWhile isWs = t := by
    intro k
    induction k with
    | zero => exact trimStart_tight t h
    | succ k ih => rw [List.replicate_succ, List.cons_append, List.dropWhile_cons_of_pos (by decide), ih]
  rw [this]

theorem squash_space (t : Str) (h : ∀ c, t.head? = some c → isWs c = false) :
    squash (' ' :: t) = ' ' :: squash t := squash_blank 0 t h

/-! ### numbers -/

theorem digitsAux_eq (f : Nat → Char) (g : Char → Char) (fuel n : Nat) (hf : ∀ k, k < 16 → f k = g (Nat.digitChar k))
    (h : n < fuel) : digitsAux 16 f fuel n = (Nat.toDigits 16 n).map g := by
  induction fuel generalizing n with
  | zero => omega
  | succ fuel ih =>
    rw [digitsAux]
    split
    · next h => rw [hf n h, Nat.toDigits_of_lt_base h]; rfl
    · next h =>
      rw [ih _ (by have := Nat.div_lt_self (n := n) (k := 16) (by omega) (by omega); omega),
        hf _ (Nat.mod_lt _ (by omega)), Nat.toDigits_of_base_le (n := n) (by omega : 1 < 16) (by omega)]
      simp

theorem hexLower_eq (n : Nat) : hexLower n = Nat.toDigits 16 n := by
  have : ∀ k : Fin 16, hexChar k.val = id (Nat.digitChar k.val) := by decide
  have := digitsAux_eq hexChar id (n + 1) n (fun k hk => this ⟨k, hk⟩) (by omega)
  simpa [hexLower, digitsWith] using this

theorem hexUpper_eq (n : Nat) : hexUpper n = (Nat.toDigits 16 n).map Char.toUpper := by
  have : ∀ k : Fin 16, hexCharU k.val = (Nat.digitChar k.val).toUpper := by decide
  exact digitsAux_eq hexCharU _ (n + 1) n (fun k hk => this ⟨k, hk⟩) (by omega)

/-- `k` hexadecimal digits of `n`. -/
def fixedHex : Nat → Nat → Str
  | 0, _ => []
  | k + 1, n => fixedHex k (n / 16) ++ [Nat.digitChar (n % 16)]

theorem fixedHex_zero (k : Nat) : fixedHex k 0 = List.replicate k '0' := by
  induction k with
  | zero => rfl
  | succ k ih => rw [fixedHex, Nat.zero_div, ih, List.replicate_succ']; rfl

theorem zeroPad_hex (k n : Nat) (h : n < 16 ^ k) (hk : 0 < k) : zeroPad k (hexLower n) = fixedHex k n := by
  rw [hexLower_eq]
  induction k generalizing n with
  | zero => omega
  | succ k ih =>
    by_cases hn : n < 16
    · rw [Nat.toDigits_of_lt_base hn, fixedHex, Nat.div_eq_of_lt hn, Nat.mod_eq_of_lt hn, fixedHex_zero]
      simp [zeroPad]
    · rw [fixedHex, Nat.toDigits_of_base_le (by omega) (by omega)]
      have hk : 0 < k := by
        rcases Nat.eq_zero_or_pos k with rfl | h0
        · simp at h; omega
        · exact h0
      rw [← ih (n / 16) (by rw [Nat.pow_succ] at h; omega) hk]
      simp [zeroPad]

theorem hex8_eq (w : Word) : c!"0x" ++ zeroPad 8 (hexLower w.toNat) = hex8 w := by
  rw [zeroPad_hex 8 _ (by have := w.isLt; omega) (by omega)]
  have : ∀ k, (w.extractLsb' k 4).toNat = w.toNat / 2 ^ k % 16 := by
    intro k; simp [BitVec.extractLsb'_toNat, Nat.shiftRight_eq_div_pow]
  simp only [hex8, fixedHex, show List.range 8 = [0,1,2,3,4,5,6,7] from rfl, List.map_cons, List.map_nil, this,
    Nat.div_div_eq_div_mul]
  simp

end Mips
