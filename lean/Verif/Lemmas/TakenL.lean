/- What the register parsers take. -/
import Verif.Spec.Operands
import Verif.Lemmas.NumInv
import Verif.Lemmas.OperandL

namespace Mips
open Syntax Operands

theorem u32_min : IntTy.u32.min = 0 := rfl

theorem radix_plus {b : Nat} {ds : Str} (hd : ∀ s n, s ≠ [] → parseDigits b 0 s = some n → Digits ds s n) {s : Str} {v : Int}
    (h : fromStrRadix .u32 b s = some v) : Plus ds s v.toNat := by
  obtain ⟨_, _, d, n, h0, hp, h⟩ := fromStrRadix_inv h
  have := hd d n h0 hp
  rcases h with ⟨rfl, rfl⟩ | ⟨rfl, rfl⟩ | ⟨_, _, h⟩
  · exact .inl (by simpa using this)
  · exact .inr ⟨d, rfl, by simpa using this⟩
  · cases h

theorem parseU32_plus {s : Str} {n : Nat} (h : parseU32 s = some n) : Plus decDigits s n := by
  unfold parseU32 at h
  rw [Option.map_eq_some_iff] at h
  obtain ⟨v, hv, rfl⟩ := h
  exact radix_plus (fun _ _ => parseDigits_dec_inv) hv

theorem parseU32Hex_plus {s : Str} {n : Nat} (h : parseU32Hex s = some n) : Plus hexDigits s n := by
  unfold parseU32Hex at h
  rw [Option.map_eq_some_iff] at h
  obtain ⟨v, hv, rfl⟩ := h
  exact radix_plus (fun _ _ => parseDigits_hex_inv) hv

/-- decimal numerals that fit are read -/
theorem plus_parseU32 {s : Str} {n : Nat} (h : Plus decDigits s n) : parseU32 s = if n < 2 ^ 32 then some n else none := by
  rcases h with h | ⟨t, rfl, h⟩
  · unfold parseU32
    rw [fromStrRadix_digits _ _ _ (digits_chars_dec h).1 (dec_noSign h), parseDigits_dec h]
    simp [IntTy.check, IntTy.min, IntTy.max]; split <;> split <;> first | omega | simp
  · unfold parseU32
    rw [fromStrRadix_plus _ _ _ (digits_chars_dec h).1, parseDigits_dec h]
    simp [IntTy.check, IntTy.min, IntTy.max]; split <;> split <;> first | omega | simp

theorem plus_parseU32Hex {s : Str} {n : Nat} (h : Plus hexDigits s n) : parseU32Hex s = if n < 2 ^ 32 then some n else none := by
  rcases h with h | ⟨t, rfl, h⟩
  · have hns : ∀ c ∈ s, c ≠ '+' ∧ c ≠ '-' := by
      intro c hc
      have := (digits_chars_hex h).2 c hc
      constructor <;> rintro rfl <;> simp at this
    unfold parseU32Hex
    rw [fromStrRadix_digits _ _ _ (digits_chars_hex h).1 hns, parseDigits_hex h]
    simp [IntTy.check, IntTy.min, IntTy.max]; split <;> split <;> first | omega | simp
  · unfold parseU32Hex
    rw [fromStrRadix_plus _ _ _ (digits_chars_hex h).1, parseDigits_hex h]
    simp [IntTy.check, IntTy.min, IntTy.max]; split <;> split <;> first | omega | simp

/-- Decimal digits are also hexadecimal digits, of no smaller value. -/
theorem dec_hex {s : Str} {n : Nat} (h : Digits decDigits s n) : ∃ m, n ≤ m ∧ Digits hexDigits s m := by
  have dig : ∀ (k : Nat) (c : Char), decDigits[k]? = some (asciiLower c) → hexDigits[k]? = some (asciiLower c) := by
    intro k c hk
    have : k < 10 := (dec_digit hk).1
    rw [← hk]
    match k, this with
    | 0, _ | 1, _ | 2, _ | 3, _ | 4, _ | 5, _ | 6, _ | 7, _ | 8, _ | 9, _ => rfl
  induction h with
  | one c k h => exact ⟨k, Nat.le_refl _, .one c k (dig k c h)⟩
  | snoc s c n k _ hk ih =>
    obtain ⟨m, hm, ih⟩ := ih
    refine ⟨_, ?_, .snoc s c m k ih (dig k c hk)⟩
    show n * 10 + k ≤ m * 16 + k
    omega

theorem hex_notDec {s : Str} {n : Nat} (h : parseU32Hex s = some n) (hd : parseU32 s = none) (hn : n < 32) : ∀ m, ¬ Plus decDigits s m := by
  intro m hm
  have hbig : ¬ m < 2 ^ 32 := by
    intro hlt
    rw [plus_parseU32 hm, if_pos hlt] at hd
    cases hd
  rcases hm with hm | ⟨t, rfl, hm⟩
  · obtain ⟨v, hv, hh⟩ := dec_hex hm
    rw [plus_parseU32Hex (.inl hh)] at h
    split at h
    · omega
    · cases h
  · obtain ⟨v, hv, hh⟩ := dec_hex hm
    rw [plus_parseU32Hex (.inr ⟨t, rfl, hh⟩)] at h
    split at h
    · omega
    · cases h

/-! ### the shape of register texts -/

theorem trimStartMatches_eq (c : Char) (s : Str) : ∃ k, s = List.replicate k c ++ trimStartMatches c s := by
  unfold trimStartMatches
  induction s with
  | nil => exact ⟨0, rfl⟩
  | cons d s ih =>
    by_cases h : d = c
    · subst h
      obtain ⟨k, hk⟩ := ih
      refine ⟨k + 1, ?_⟩
      simp only [List.dropWhile, beq_self_eq_true, List.replicate_succ, List.cons_append]
      rw [← hk]
    · have : (d == c) = false := by rw [beq_eq_false_iff_ne]; exact h
      exact ⟨0, by simp [List.dropWhile, this]⟩

theorem taken_of {core : Str → BitVec 5 → Prop} {s : Str} {r : BitVec 5} (h : core (trimStartMatches '$' (trim s)) r) : Taken core s r := by
  obtain ⟨p, q, e, hp, hq⟩ := trim_decomp s
  obtain ⟨k, hk⟩ := trimStartMatches_eq '$' (trim s)
  have := Taken.mk (core := core) p _ q k r hp hq h
  rw [← hk, ← e] at this
  exact this

theorem tryFrom_ok {n : Nat} {r : Register} (h : Register.tryFrom n = .ok r) : r.val = n := by
  unfold Register.tryFrom at h
  split at h
  · cases h; rfl
  · cases h

theorem bv_of_fin (r : Fin 32) : (BitVec.ofFin r : BitVec 5).toNat = r.val := rfl

theorem regTable_names : ∀ e ∈ regTable, e.1 = c!"r0" ∨ gprNames[e.2.val]? = some e.1 := by decide +kernel

theorem lookup_taken {α : Type} {l : List (Str × α)} {k : Str} {n : α} (hl : l.lookup k = some n) : (k, n) ∈ l := by
  induction l with
  | nil => cases hl
  | cons e l ih =>
    obtain ⟨a, b⟩ := e
    rw [List.lookup_cons] at hl
    split at hl
    · rename_i hk
      have : k = a := by simpa using hk
      subst this; cases hl; exact List.mem_cons_self ..
    · exact List.mem_cons_of_mem _ (ih hl)

theorem hasRD_iff [Unicode] (s : Str) : hasRD Unicode.isNd s = true ↔ RDigit s := by
  unfold RDigit
  induction s with
  | nil => simp [hasRD]
  | cons c s ih =>
    simp only [hasRD, Bool.or_eq_true, Bool.and_eq_true, beq_iff_eq, ih]
    constructor
    · rintro (⟨rfl, h⟩ | ⟨a, d, b, rfl, h⟩)
      · cases s with
        | nil => cases h
        | cons d t => exact ⟨[], d, t, rfl, h⟩
      · exact ⟨c :: a, d, b, rfl, h⟩
    · rintro ⟨a, d, b, e, h⟩
      cases a with
      | nil => cases e; exact .inl ⟨rfl, h⟩
      | cons a0 a => cases e; exact .inr ⟨a, d, b, rfl, h⟩

theorem hasRD_append {p : Char → Bool} (k : Nat) (s : Str) (hs : hasRD p s = false) (hr : p 'r' = false)
    (h : hasRD p (List.replicate k 'r' ++ s) = true) : ∃ j, k = j + 1 ∧ headP p s = true := by
  induction k with
  | zero => rw [List.replicate_zero, List.nil_append, hs] at h; cases h
  | succ k ih =>
    refine ⟨k, rfl, ?_⟩
    simp only [List.replicate_succ, List.cons_append, hasRD, Bool.or_eq_true, Bool.and_eq_true] at h
    rcases h with ⟨_, h⟩ | h
    · cases k with
      | zero => exact h
      | succ k => simp only [List.replicate_succ, List.cons_append, headP, hr] at h; cases h
    · obtain ⟨_, _, h⟩ := ih h; exact h

theorem plus_noRD {s : Str} {n : Nat} (h : Plus decDigits s n) (p : Char → Bool) : hasRD p s = false := by
  rcases h with h | ⟨t, rfl, h⟩
  · exact hasRD_dec h p
  · simp [hasRD, hasRD_dec h p]

/-- What `FromStr for Register` takes. -/
theorem gpr_taken [Unicode] {s : Str} {r : Register} (h : Register.fromStr s = .ok r) : Taken GprTaken s (BitVec.ofFin r) := by
  apply taken_of
  unfold Register.fromStr at h
  dsimp only at h
  revert h
  generalize trimStartMatches '$' (trim s) = t
  intro h
  split at h
  · rename_i hm
    split at h
    · rename_i n hn
      have hv := tryFrom_ok h
      obtain ⟨k, hk⟩ := trimStartMatches_eq 'r' t
      have hp := parseU32_plus hn
      rw [regReMatches_eq, hk] at hm
      obtain ⟨j, hj, hh⟩ := hasRD_append k _ (plus_noRD hp _) (by rw [Unicode.isNd_ascii 'r' (by decide)]; decide) hm
      rcases hp with hp | ⟨u, hu, _⟩
      · rw [hk, hj]
        exact .rnum j _ _ (by rw [bv_of_fin, hv]; exact hp)
      · rw [hu, headP, Unicode.isNd_ascii '+' (by decide)] at hh
        exact absurd hh (by decide)
    · cases h
  · split at h
    · rename_i n hn
      exact .num _ _ (by rw [bv_of_fin, tryFrom_ok h]; exact parseU32_plus hn)
    · rename_i hno hpn
      split at h
      · rename_i x hx
        have hxr : x = r := by cases h; rfl
        subst hxr
        rcases regTable_names _ (lookup_taken hx) with h0 | h0
        · -- `r0` in the table: the text would be read by number first
          have h0' : Unicode.lower t = c!"r0" := h0
          have hx' : (c!"r0", x) ∈ regTable := by rw [← h0']; exact lookup_taken hx
          have hx0 : ∀ e ∈ regTable, e.1 = c!"r0" → e.2 = 0 := by decide +kernel
          have h1 : x = 0 := hx0 _ hx' rfl
          exact .r0 _ _ h0' (by rw [h1]; rfl)
        · exact .name _ _ _ h0 rfl
      · cases h

theorem fregTable_names : ∀ e ∈ fregTable, fprNames[e.2.val]? = some e.1 ∨ fprNumNames[e.2.val]? = some e.1 := by decide +kernel

theorem ftryFrom_ok {n : Nat} {r : FloatRegister} (h : FloatRegister.tryFrom n = .ok r) : r.val = n := by
  unfold FloatRegister.tryFrom at h
  split at h
  · cases h; rfl
  · cases h

/-- What `FromStr for FloatRegister` takes. -/
theorem fpr_taken [Unicode] {s : Str} {r : FloatRegister} (h : FloatRegister.fromStr s = .ok r) : Taken FprTaken s (BitVec.ofFin r) := by
  apply taken_of
  unfold FloatRegister.fromStr at h
  dsimp only at h
  revert h
  generalize trimStartMatches '$' (trim s) = t
  intro h
  split at h
  · rename_i n hn
    exact .num _ _ (by rw [bv_of_fin, ftryFrom_ok h]; exact parseU32_plus hn)
  · rename_i hpn
    split at h
    · rename_i x hx
      have hxr : x = r := by cases h; rfl
      subst hxr
      exact .name _ _ _ (fregTable_names _ (lookup_taken hx)) rfl
    · split at h
      · rename_i n hn
        have hv := ftryFrom_ok h
        have := r.isLt
        exact .hex _ _ (by rw [bv_of_fin, hv]; exact parseU32Hex_plus hn) (hex_notDec hn hpn (by omega))
      · cases h

theorem cop0Table_names : ∀ e ∈ cop0Table, (e.1.val, e.2.2) ∈ cop0Names := by decide +kernel

theorem ctryFrom_ok {n : Nat} {r : Cop0Register} (h : Cop0Register.tryFrom n = .ok r) : r.val = n ∧ ∃ m, (r.val, m) ∈ cop0Names := by
  unfold Cop0Register.tryFrom at h
  split at h
  · rename_i e he
    cases h
    have h1 := List.find?_some he
    have h2 := List.mem_of_find?_eq_some he
    exact ⟨by simpa using h1, _, cop0Table_names _ h2⟩
  · cases h

/-- What `FromStr for Cop0Register` takes. -/
theorem c0_taken [Unicode] {s : Str} {r : Cop0Register} (h : Cop0Register.fromStr s = .ok r) : Taken C0Taken s (BitVec.ofFin r) := by
  apply taken_of
  unfold Cop0Register.fromStr at h
  dsimp only at h
  revert h
  generalize trimStartMatches '$' (trim s) = t
  intro h
  split at h
  · rename_i n hn
    obtain ⟨h1, m, h2⟩ := ctryFrom_ok h
    exact .num _ m _ h2 (by rw [bv_of_fin, h1]; exact parseU32_plus hn)
  · rename_i hpn
    split at h
    · rename_i n hn
      obtain ⟨h1, m, h2⟩ := ctryFrom_ok h
      have := r.isLt
      exact .hex _ m _ h2 (by rw [bv_of_fin, h1]; exact parseU32Hex_plus hn) (hex_notDec hn hpn (by omega))
    · split at h
      · rename_i e he
        have hxr : e.1 = r := by cases h; rfl
        subst hxr
        have h1 : (e.2.2 == Unicode.lower t) = true := by simpa using List.find?_some he
        have h2 := cop0Table_names _ (List.mem_of_find?_eq_some he)
        have h3 : e.2.2 = Unicode.lower t := by simpa using h1
        rw [h3] at h2
        exact .name _ _ _ h2 rfl
      · cases h

end Mips
