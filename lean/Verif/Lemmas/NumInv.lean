/- Converse of the digit lemmas: what integer parsing accepts is a numeral of the specification. -/
import Verif.Lemmas.RegL

namespace Mips
open Syntax

theorem dec_get : ∀ k : Fin 10, decDigits[k.val]? = some (Char.ofNat (48 + k.val)) := by decide +kernel
theorem hex_get : ∀ k : Fin 16, hexDigits[k.val]? = some (hexChar k.val) := by decide +kernel

theorem ofNat_toNat' (n : Nat) (h : n < 0xd800) : (Char.ofNat n).toNat = n := by
  have hv : n.isValidChar := Or.inl h
  rw [Char.ofNat, dif_pos hv]; rfl

theorem digitVal_dec_inv {c : Char} {k : Nat} (h : digitVal 10 c = some k) :
    decDigits[k]? = some (asciiLower c) := by
  by_cases hc : 48 ≤ c.toNat ∧ c.toNat ≤ 57
  · unfold digitVal at h
    simp only [if_pos hc] at h
    split at h
    · cases h
      have hl : asciiLower c = c := by
        apply char_ext; rw [asciiLower_toNat]; split <;> omega
      rw [hl, dec_get ⟨c.toNat - 48, by omega⟩]
      congr 1
      apply char_ext
      rw [ofNat_toNat' _ (by simp only; omega)]; simp only; omega
    · cases h
  · rw [digitVal_ten_none hc] at h; cases h

theorem hexChar_toNat (n : Nat) (h : n < 16) : (hexChar n).toNat = if n < 10 then 48 + n else 87 + n := by
  unfold hexChar
  split
  · exact ofNat_toNat' _ (by omega)
  · exact ofNat_toNat' _ (by omega)

theorem digitVal_hex_inv {c : Char} {k : Nat} (h : digitVal 16 c = some k) :
    hexDigits[k]? = some (asciiLower c) := by
  have hk : k < 16 ∧ (asciiLower c).toNat = if k < 10 then 48 + k else 87 + k := by
    rw [asciiLower_toNat]
    unfold digitVal at h
    simp only at h
    by_cases h1 : 48 ≤ c.toNat ∧ c.toNat ≤ 57
    · rw [if_pos h1] at h; simp only at h
      split at h
      · cases h; refine ⟨by omega, ?_⟩
        rw [if_neg (by omega), if_pos (by omega)]; omega
      · cases h
    · rw [if_neg h1] at h
      by_cases h2 : 97 ≤ c.toNat ∧ c.toNat ≤ 122
      · rw [if_pos h2] at h; simp only at h
        split at h
        · cases h; refine ⟨by omega, ?_⟩
          rw [if_neg (by omega), if_neg (by omega)]; omega
        · cases h
      · rw [if_neg h2] at h
        by_cases h3 : 65 ≤ c.toNat ∧ c.toNat ≤ 90
        · rw [if_pos h3] at h; simp only at h
          split at h
          · cases h; refine ⟨by omega, ?_⟩
            rw [if_pos (by omega), if_neg (by omega)]; omega
          · cases h
        · rw [if_neg h3] at h; cases h
  rw [hex_get ⟨k, hk.1⟩]
  congr 1
  apply char_ext
  rw [hexChar_toNat _ hk.1, hk.2]

theorem snoc_cases {P : Str → Prop} (s : Str) (h0 : s = [] → P s) (h1 : ∀ t c, s = t ++ [c] → P s) : P s := by
  by_cases h : s = []
  · exact h0 h
  · exact h1 _ _ (List.dropLast_concat_getLast h).symm

theorem parseDigits_inv (b : Nat) (ds : Str) (hds : ds.length = b)
    (hd : ∀ c k, digitVal b c = some k → ds[k]? = some (asciiLower c)) :
    ∀ (m : Nat) (s : Str) (n : Nat), s.length = m → s ≠ [] → parseDigits b 0 s = some n → Digits ds s n := by
  intro m
  induction m with
  | zero => intro s n hl h; exact absurd (List.length_eq_zero_iff.1 hl) h
  | succ m ih =>
    intro s n hl h0 h
    obtain ⟨t, c, rfl⟩ : ∃ t c, s = t ++ [c] := ⟨_, _, (List.dropLast_concat_getLast h0).symm⟩
    rw [parseDigits_snoc, Option.bind_eq_some_iff] at h
    obtain ⟨a, ha, h⟩ := h
    rw [Option.map_eq_some_iff] at h
    obtain ⟨k, hk, rfl⟩ := h
    by_cases ht : t = []
    · subst ht
      cases ha
      simpa using Digits.one c k (hd c k hk)
    · have := ih t a (by simpa using hl) ht ha
      rw [← hds]
      exact Digits.snoc t c a k this (hd c k hk)

theorem parseDigits_dec_inv {s : Str} {n : Nat} (h0 : s ≠ []) (h : parseDigits 10 0 s = some n) : Digits decDigits s n :=
  parseDigits_inv 10 decDigits rfl (fun _ _ => digitVal_dec_inv) _ s n rfl h0 h
theorem parseDigits_hex_inv {s : Str} {n : Nat} (h0 : s ≠ []) (h : parseDigits 16 0 s = some n) : Digits hexDigits s n :=
  parseDigits_inv 16 hexDigits rfl (fun _ _ => digitVal_hex_inv) _ s n rfl h0 h

theorem check_some {ty : IntTy} {v w : Int} (h : ty.check v = some w) : w = v ∧ ty.min ≤ v ∧ v ≤ ty.max := by
  unfold IntTy.check at h
  split at h
  · cases h; exact ⟨rfl, by assumption⟩
  · cases h

/-- Everything `from_str_radix` accepts: digits with an optional sign. -/
theorem fromStrRadix_inv {ty : IntTy} {b : Nat} {s : Str} {v : Int} (h : fromStrRadix ty b s = some v) :
    ty.min ≤ v ∧ v ≤ ty.max ∧ ∃ d n, d ≠ [] ∧ parseDigits b 0 d = some n ∧
      ((s = d ∧ v = n) ∨ (s = '+' :: d ∧ v = n) ∨ (s = '-' :: d ∧ v = -(n : Int) ∧ ty.signed = true)) := by
  have fin : ∀ (o : Option Nat) (f : Nat → Int), (o.bind fun n => ty.check (f n)) = some v →
      ∃ n, o = some n ∧ v = f n ∧ ty.min ≤ v ∧ v ≤ ty.max := by
    intro o f h
    rw [Option.bind_eq_some_iff] at h
    obtain ⟨n, h1, h2⟩ := h
    obtain ⟨rfl, h3⟩ := check_some h2
    exact ⟨n, h1, rfl, h3⟩
  rw [fromStrRadix.eq_def] at h
  split at h
  · cases h
  · cases h
  · cases h
  · rename_i ds hn
    obtain ⟨n, h1, h2, h3, h4⟩ := fin _ (fun n => (n : Int)) h
    exact ⟨h3, h4, ds, n, by rintro rfl; exact hn rfl, h1, Or.inr (Or.inl ⟨rfl, h2⟩)⟩
  · rename_i ds hn
    split at h
    · rename_i hs
      obtain ⟨n, h1, h2, h3, h4⟩ := fin _ (fun n => -(n : Int)) h
      exact ⟨h3, h4, ds, n, by rintro rfl; exact hn rfl, h1, Or.inr (Or.inr ⟨rfl, h2, hs⟩)⟩
    · cases h
  · rename_i h0 _ _ _ _
    obtain ⟨n, h1, h2, h3, h4⟩ := fin _ (fun n => (n : Int)) h
    exact ⟨h3, h4, _, n, h0, h1, Or.inl ⟨rfl, h2⟩⟩

end Mips
