/-
**C84** — the text functions of the standard library, as they are modelled, do what their documentation says.
-/
import Verif.Spec.TextFns
import Verif.Lemmas.StrL
import Verif.Lemmas.NumInv
import Verif.Lemmas.SqL
import Verif.Props.AnatomyP

namespace Mips
open TextFns
open Anatomy (White white_iff white_false)

/-- **C84**, `trim`. -/
theorem C84_trim (s t : Str) : trim s = t ↔ Trimmed s t := by
  constructor
  · rintro rfl
    obtain ⟨p, q, e, hp, hq⟩ := trim_decomp s
    refine ⟨p, q, e, fun c hc => (white_iff c).1 (hp c hc), fun c hc => (white_iff c).1 (hq c hc), ?_, ?_⟩
    · intro c u hu
      have ht := trim_tight_of s (by rw [hu]; simp)
      exact white_false.2 (ht.2.1 c (by rw [hu]; rfl))
    · intro u c hu
      have ht := trim_tight_of s (by rw [hu]; simp)
      exact white_false.2 (ht.2.2 c (by rw [hu]; simp))
  · rintro ⟨p, q, rfl, hp, hq, h1, h2⟩
    have hp' : ∀ c ∈ p, isWs c = true := fun c hc => (white_iff c).2 (hp c hc)
    have hq' : ∀ c ∈ q, isWs c = true := fun c hc => (white_iff c).2 (hq c hc)
    by_cases e : t = []
    · subst e
      rw [trim_blank]
      intro c hc
      simp only [List.append_nil, List.mem_append] at hc
      exact hc.elim (hp' c) (hq' c)
    · refine trim_blank_tight p t q hp' hq' ⟨e, ?_, ?_⟩
      · intro c hc
        cases t with
        | nil => cases hc
        | cons a u =>
          simp only [List.head?_cons, Option.some.injEq] at hc
          subst hc
          exact white_false.1 (h1 _ u rfl)
      · intro c hc
        obtain ⟨u, hu⟩ := List.getLast?_eq_some_iff.1 hc
        exact white_false.1 (h2 u c hu)

theorem pieces_cons {ch : Char} {a : Str} {ps : List Str} (h : ps ≠ []) : [ch].intercalate (a :: ps) = a ++ ch :: [ch].intercalate ps := by
  cases ps with
  | nil => exact absurd rfl h
  | cons b ps => simp [List.intercalate, List.intersperse]

theorem split_of_pieces (ch : Char) : ∀ (ps : List Str), ps ≠ [] → (∀ p ∈ ps, ch ∉ p) → split ch ([ch].intercalate ps) = ps
  | [], h, _ => absurd rfl h
  | [p], _, h => by
    have : [ch].intercalate [p] = p := by simp [List.intercalate]
    rw [this]
    exact split_noComma ch p (h p (by simp))
  | p :: q :: ps, _, h => by
    rw [pieces_cons (by simp), split_cons ch p _ (h p (by simp)), split_of_pieces ch (q :: ps) (by simp) (fun x hx => h x (by simp [hx]))]

theorem pieces_of_split (ch : Char) (s : Str) : Pieces ch s (split ch s) := by
  induction s with
  | nil => exact ⟨by simp [split], by simp [split], by simp [split, List.intercalate]⟩
  | cons c s ih =>
    obtain ⟨i1, i2, i3⟩ := ih
    rw [split]
    split
    · rename_i e
      subst e
      refine ⟨by simp, ?_, ?_⟩
      · intro p hp
        rcases List.mem_cons.1 hp with rfl | hp
        · simp
        · exact i2 p hp
      · rw [pieces_cons i1, i3]; rfl
    · rename_i e
      cases hs : split ch s with
      | nil => exact absurd hs i1
      | cons p ps =>
        rw [hs] at i2 i3
        refine ⟨by simp, ?_, ?_⟩
        · intro q hq
          rcases List.mem_cons.1 hq with rfl | hq
          · intro hx
            rcases List.mem_cons.1 hx with rfl | hx
            · exact e rfl
            · exact i2 p (by simp) hx
          · exact i2 q (by simp [hq])
        · cases ps with
          | nil => simpa [List.intercalate] using i3
          | cons r ps =>
            rw [pieces_cons (by simp)] at i3 ⊢
            rw [List.cons_append, i3]

/-- **C84**, `split`. -/
theorem C84_split (ch : Char) (s : Str) (ps : List Str) : split ch s = ps ↔ Pieces ch s ps := by
  constructor
  · rintro rfl; exact pieces_of_split ch s
  · rintro ⟨h1, h2, rfl⟩; exact split_of_pieces ch ps h1 h2

/-- **C84**, `split_once`. -/
theorem C84_splitOnce (ch : Char) (s a b : Str) : splitOnce ch s = some (a, b) ↔ ch ∉ a ∧ s = a ++ ch :: b := by
  constructor
  · intro h
    obtain ⟨h1, h2⟩ := splitOnce_eq_some h
    first | exact ⟨h1, h2⟩ | exact ⟨h2, h1⟩
  · rintro ⟨h, rfl⟩; exact splitOnce_some ch a b h

/-- **C84**, `starts_with`, `ends_with` and `contains`. -/
theorem C84_parts (pat s : Str) (ch : Char) :
    (startsWith pat s = true ↔ ∃ t, s = pat ++ t) ∧ (endsWith ch s = true ↔ ∃ t, s = t ++ [ch]) ∧
    (contains pat s = true ↔ ∃ a, OccursBehind pat s a) := by
  have hst : ∀ s, List.isPrefixOf pat s = true ↔ ∃ t, s = pat ++ t := fun s => by
    rw [List.isPrefixOf_iff_prefix]
    exact ⟨fun ⟨t, ht⟩ => ⟨t, ht.symm⟩, fun ⟨t, ht⟩ => ⟨t, ht.symm⟩⟩
  refine ⟨hst s, ?_, ?_⟩
  · unfold endsWith
    rw [beq_iff_eq, List.getLast?_eq_some_iff]
  · induction s with
    | nil =>
      rw [contains, hst]
      constructor
      · rintro ⟨t, ht⟩; exact ⟨[], t, by simpa using ht⟩
      · rintro ⟨a, b, h⟩
        refine ⟨b, ?_⟩
        have := congrArg List.length h
        simp only [List.length_nil, List.length_append] at this
        have : a = [] := List.eq_nil_of_length_eq_zero (by omega)
        subst this; simpa using h
    | cons c s ih =>
      rw [contains, Bool.or_eq_true, hst, ih]
      constructor
      · rintro (⟨t, ht⟩ | ⟨a, b, h⟩)
        · exact ⟨[], t, by simpa using ht⟩
        · exact ⟨c :: a, b, by rw [h]; rfl⟩
      · rintro ⟨a, b, h⟩
        cases a with
        | nil => exact .inl ⟨b, by simpa using h⟩
        | cons d a =>
          simp only [List.cons_append, List.cons.injEq] at h
          exact .inr ⟨a, b, h.2⟩

/-- **C84**, `len`: the length in bytes. -/
theorem C84_len (s : Str) : byteLen s = bytes s := by
  have hc : ∀ c : Char, c.utf8Size = charBytes c := by
    intro c
    unfold Char.utf8Size charBytes
    simp only [UInt32.le_iff_toNat_le]
    show (if c.toNat ≤ 127 then 1 else if c.toNat ≤ 2047 then 2 else if c.toNat ≤ 65535 then 3 else 4) = _
    repeat' split
    all_goals first | rfl | omega
  induction s with
  | nil => rfl
  | cons c s ih => rw [byteLen, ih, hc]; rfl

theorem byteLen_pos (c : Char) : 0 < c.utf8Size := Char.utf8Size_pos c

/-- **C84**, `&s[..n]`: defined exactly if the first `n` bytes are whole characters. -/
theorem C84_take (s : Str) (n : Nat) (t : Str) : takeBytes s n = some t ↔ ∃ u, s = t ++ u ∧ bytes t = n := by
  rw [← C84_len]
  induction s generalizing n t with
  | nil =>
    cases n with
    | zero =>
      rw [takeBytes]
      constructor
      · intro h; cases h; exact ⟨[], rfl, rfl⟩
      · rintro ⟨u, h1, h2⟩
        have : t = [] := by
          have := congrArg List.length h1
          simp only [List.length_nil, List.length_append] at this
          exact List.eq_nil_of_length_eq_zero (by omega)
        rw [this]
    | succ n =>
      rw [takeBytes]
      constructor
      · intro h; cases h
      · rintro ⟨u, h1, h2⟩
        have : t = [] := by
          have := congrArg List.length h1
          simp only [List.length_nil, List.length_append] at this
          exact List.eq_nil_of_length_eq_zero (by omega)
        subst this
        cases h2
  | cons c s ih =>
    cases n with
    | zero =>
      rw [takeBytes]
      constructor
      · intro h; cases h; exact ⟨c :: s, rfl, rfl⟩
      · rintro ⟨u, h1, h2⟩
        cases t with
        | nil => rfl
        | cons d t => have := byteLen_pos d; rw [byteLen] at h2; omega
    | succ n =>
      rw [takeBytes]
      split
      · rename_i hle
        rw [Option.map_eq_some_iff]
        constructor
        · rintro ⟨t', h1, rfl⟩
          obtain ⟨u, h2, h3⟩ := (ih _ _).1 h1
          exact ⟨u, by rw [h2]; rfl, by rw [byteLen, h3]; omega⟩
        · rintro ⟨u, h1, h2⟩
          cases t with
          | nil => cases h2
          | cons d t =>
            simp only [List.cons_append, List.cons.injEq] at h1
            obtain ⟨rfl, h1⟩ := h1
            rw [byteLen] at h2
            exact ⟨t, (ih _ _).2 ⟨u, h1, by omega⟩, rfl⟩
      · rename_i hle
        constructor
        · intro h; cases h
        · rintro ⟨u, h1, h2⟩
          exfalso
          cases t with
          | nil => cases h2
          | cons d t =>
            simp only [List.cons_append, List.cons.injEq] at h1
            obtain ⟨rfl, h1⟩ := h1
            rw [byteLen] at h2
            omega

/-- **C84**, `find`: the number of bytes in front of the first occurrence. -/
theorem C84_find (pat s : Str) (n : Nat) : findStr pat s = some n ↔
    ∃ a, OccursBehind pat s a ∧ bytes a = n ∧ ∀ a', OccursBehind pat s a' → a.length ≤ a'.length := by
  have hst : ∀ s, List.isPrefixOf pat s = true ↔ ∃ t, s = pat ++ t := fun s => (C84_parts pat s ' ').1
  rw [← funext C84_len]
  induction s generalizing n with
  | nil =>
    rw [findStr]
    split
    · rename_i h
      obtain ⟨t, ht⟩ := (hst _).1 h
      constructor
      · intro h; cases h; exact ⟨[], ⟨t, by simpa using ht⟩, rfl, fun _ _ => Nat.zero_le _⟩
      · rintro ⟨a, ⟨b, h1⟩, h2, _⟩
        have : a = [] := by
          have := congrArg List.length h1
          simp only [List.length_nil, List.length_append] at this
          exact List.eq_nil_of_length_eq_zero (by omega)
        subst this; rw [← h2]; rfl
    · rename_i h
      constructor
      · intro h; cases h
      · rintro ⟨a, ⟨b, h1⟩, h2, _⟩
        exfalso
        have : a = [] := by
          have := congrArg List.length h1
          simp only [List.length_nil, List.length_append] at this
          exact List.eq_nil_of_length_eq_zero (by omega)
        subst this
        exact h ((hst _).2 ⟨b, by simpa using h1⟩)
  | cons c s ih =>
    rw [findStr]
    split
    · rename_i h
      obtain ⟨t, ht⟩ := (hst _).1 h
      constructor
      · intro h; cases h; exact ⟨[], ⟨t, by simpa using ht⟩, rfl, fun _ _ => Nat.zero_le _⟩
      · rintro ⟨a, _, h2, h3⟩
        have := h3 [] ⟨t, by simpa using ht⟩
        have : a = [] := List.eq_nil_of_length_eq_zero (by simpa using this)
        subst this; rw [← h2]; rfl
    · rename_i h
      have hne : ∀ a b, c :: s = a ++ pat ++ b → ∃ a', a = c :: a' ∧ s = a' ++ pat ++ b := by
        intro a b e
        cases a with
        | nil => exact absurd ((hst _).2 ⟨b, by simpa using e⟩) h
        | cons d a =>
          simp only [List.cons_append, List.cons.injEq] at e
          exact ⟨a, by rw [e.1], e.2⟩
      rw [Option.map_eq_some_iff]
      constructor
      · rintro ⟨k, h1, rfl⟩
        obtain ⟨a, ⟨b, e⟩, h2, h3⟩ := (ih k).1 h1
        refine ⟨c :: a, ⟨b, by rw [e]; rfl⟩, by rw [byteLen, h2], ?_⟩
        rintro a' ⟨b', e'⟩
        obtain ⟨a'', rfl, e''⟩ := hne _ _ e'
        have := h3 a'' ⟨b', e''⟩
        simp only [List.length_cons]; omega
      · rintro ⟨a, ⟨b, e⟩, h2, h3⟩
        obtain ⟨a', rfl, e'⟩ := hne _ _ e
        refine ⟨byteLen a', (ih _).2 ⟨a', ⟨b, e'⟩, rfl, ?_⟩, by rw [← h2, byteLen]⟩
        rintro a'' ⟨b'', e''⟩
        have := h3 (c :: a'') ⟨b'', by rw [e'']; rfl⟩
        simp only [List.length_cons] at this; omega

theorem without_cons {pat p : Str} {ps : List Str} (h : ps ≠ []) : pat.intercalate (p :: ps) = p ++ (pat ++ pat.intercalate ps) := by
  cases ps with
  | nil => exact absurd rfl h
  | cons b ps => simp [List.intercalate, List.intersperse]

/-- **C84**, `replace("0x", "")`. -/
theorem C84_remove (s t : Str) : remove0x s = t ↔ Without c!"0x" s t := by
  constructor
  · rintro rfl
    fun_induction remove0x s with
    | case1 s ih =>
      obtain ⟨ps, h1, h2, h3, h4⟩ := ih
      refine ⟨[] :: ps, by simp, ?_, by rw [without_cons h1, h3]; rfl, by simpa using h4⟩
      intro p hp
      rcases List.mem_cons.1 hp with rfl | hp
      · rintro a ⟨b, e⟩
        have := congrArg List.length e
        simp at this
      · exact h2 p hp
    | case2 c s hx ih =>
      obtain ⟨ps, h1, h2, h3, h4⟩ := ih
      cases ps with
      | nil => exact absurd rfl h1
      | cons p ps =>
        refine ⟨(c :: p) :: ps, by simp, ?_, ?_, by simpa using h4⟩
        · intro q hq
          rcases List.mem_cons.1 hq with rfl | hq
          · rintro a ⟨b, e⟩
            cases a with
            | nil =>
              simp only [List.nil_append, List.cons_append, List.cons.injEq] at e
              obtain ⟨rfl, rfl⟩ := e
              cases ps with
              | nil => exact hx b rfl (by rw [← h3]; simp [List.intercalate])
              | cons r ps => exact hx (b ++ (c!"0x" ++ c!"0x".intercalate (r :: ps))) rfl (by rw [← h3, without_cons (by simp)]; rfl)
            | cons d a =>
              simp only [List.cons_append, List.cons.injEq] at e
              exact h2 p (by simp) a ⟨b, e.2⟩
          · exact h2 q (by simp [hq])
        · cases ps with
          | nil => rw [← h3]; simp [List.intercalate]
          | cons r ps =>
            rw [without_cons (p := c :: p) (ps := r :: ps) (by simp), ← h3, without_cons (p := p) (ps := r :: ps) (by simp)]; rfl
    | case3 => exact ⟨[[]], by simp, by
        intro p hp a
        rcases List.mem_singleton.1 hp with rfl
        rintro ⟨b, e⟩
        have := congrArg List.length e
        simp at this, by simp [List.intercalate], rfl⟩
  · rintro ⟨ps, h1, h2, rfl, rfl⟩
    have step : ∀ (p r : Str), (∀ a, ¬ OccursBehind c!"0x" p a) → (r = [] ∨ ∃ u, r = '0' :: u) → remove0x (p ++ r) = p ++ remove0x r := by
      intro p r
      induction p with
      | nil => intro _ _; rfl
      | cons c p ih =>
        intro h hr
        have hp : ∀ a, ¬ OccursBehind c!"0x" p a := by
          rintro a ⟨b, e⟩
          exact h (c :: a) ⟨b, by rw [e]; rfl⟩
        rw [List.cons_append, remove0x_cons, ih hp hr, List.cons_append]
        rintro ⟨rfl, t, e⟩
        cases p with
        | nil =>
          rcases hr with rfl | ⟨u, rfl⟩
          · cases e
          · simp only [List.nil_append, List.cons.injEq] at e
            exact absurd e.1 (by decide)
        | cons d p =>
          simp only [List.cons_append, List.cons.injEq] at e
          obtain ⟨rfl, _⟩ := e
          exact h [] ⟨p, rfl⟩
    induction ps with
    | nil => exact absurd rfl h1
    | cons p ps ih =>
      cases ps with
      | nil =>
        have e : c!"0x".intercalate [p] = p ++ [] := by simp [List.intercalate]
        rw [e, step p [] (h2 p (by simp)) (.inl rfl)]
        simp [remove0x]
      | cons r ps =>
        rw [without_cons (by simp), step p (c!"0x" ++ c!"0x".intercalate (r :: ps)) (h2 p (by simp)) (.inr ⟨'x' :: c!"0x".intercalate (r :: ps), rfl⟩)]
        show p ++ remove0x ('0' :: 'x' :: c!"0x".intercalate (r :: ps)) = _
        rw [remove0x_0x, ih (by simp) (fun q hq => h2 q (by simp [hq]))]
        rfl

/-- **C84**, `to_ascii_lowercase`: the letters A to Z become a to z. -/
theorem C84_lower (c : Char) : (65 ≤ c.toNat → c.toNat ≤ 90 → (asciiLower c).toNat = c.toNat + 32) ∧
    (¬ (65 ≤ c.toNat ∧ c.toNat ≤ 90) → asciiLower c = c) := by
  have h := asciiLower_toNat c
  constructor
  · intro h1 h2
    rw [h, if_pos ⟨h1, h2⟩]
  · intro h1
    rw [if_neg h1] at h
    exact char_ext h

/-- **C84**, characters. -/
theorem C84_chars (c : Char) : (isWs c = true ↔ White c) ∧ (isAscii c = true ↔ c.toNat < 128) ∧ (isDigit c = true ↔ c ∈ Syntax.decDigits) := by
  refine ⟨white_iff c, ?_, ?_⟩
  · simp only [isAscii, decide_eq_true_eq, UInt32.lt_iff_toNat_lt]; rfl
  · simp only [isDigit, Bool.and_eq_true, decide_eq_true_eq, UInt32.le_iff_toNat_le]
    show 48 ≤ c.toNat ∧ c.toNat ≤ 57 ↔ _
    constructor
    · rintro ⟨h1, h2⟩
      have : ∀ k : Fin 10, Char.ofNat (48 + k.val) ∈ Syntax.decDigits := by decide +kernel
      have e := this ⟨c.toNat - 48, by omega⟩
      have : Char.ofNat (48 + (c.toNat - 48)) = c := by rw [show 48 + (c.toNat - 48) = c.toNat by omega]; exact Char.ofNat_toNat c
      rw [this] at e; exact e
    · intro h
      have : ∀ d ∈ Syntax.decDigits, 48 ≤ d.toNat ∧ d.toNat ≤ 57 := by decide +kernel
      exact this c h

/-- **C84**, the decimal and hexadecimal notation of numbers. -/
theorem C84_show (n : Nat) : decimal n = Nat.toDigits 10 n ∧ hexLower n = Nat.toDigits 16 n ∧ hexUpper n = (Nat.toDigits 16 n).map Char.toUpper := by
  refine ⟨?_, hexLower_eq n, hexUpper_eq n⟩
  have key : ∀ fuel n, n < fuel → digitsAux 10 hexChar fuel n = Nat.toDigits 10 n := by
    intro fuel
    induction fuel with
    | zero => intro n h; omega
    | succ fuel ih =>
      intro n h
      have hd : ∀ k : Fin 10, hexChar k.val = Nat.digitChar k.val := by decide +kernel
      rw [digitsAux]
      split
      · rename_i hn
        rw [Nat.toDigits_of_lt_base hn, hd ⟨n, hn⟩]
      · rename_i hn
        have e : hexChar (n % 10) = Nat.digitChar (n % 10) := hd ⟨n % 10, by omega⟩
        rw [ih (n / 10) (by omega), e, Nat.toDigits_of_base_le (n := n) (by omega) (by omega)]
  exact key (n + 1) n (by omega)

/-- **C84**, `from_str_radix` and `parse`. -/
theorem C84_parse (ty : IntTy) (b : Nat) (hb : b = 10 ∨ b = 16) (s : Str) (v : Int) :
    fromStrRadix ty b s = some v ↔ Numeral b s v ∧ InType ty v ∧ SignOk ty s := by
  have hdig : ∀ ds n, Syntax.Digits (digitsOf b) ds n ↔ ds ≠ [] ∧ parseDigits b 0 ds = some n := by
    intro ds n
    rcases hb with rfl | rfl
    · exact ⟨fun h => ⟨by cases h <;> simp, parseDigits_dec h⟩, fun h => parseDigits_dec_inv h.1 h.2⟩
    · exact ⟨fun h => ⟨by cases h <;> simp, parseDigits_hex h⟩, fun h => parseDigits_hex_inv h.1 h.2⟩
  have hin : InType ty v ↔ ty.min ≤ v ∧ v ≤ ty.max := by
    cases ty <;> simp only [InType, IntTy.min, IntTy.max] <;> omega
  have hsig : ty.signed = false ↔ ty = .u16 ∨ ty = .u32 := by cases ty <;> simp [IntTy.signed]
  constructor
  · intro h
    obtain ⟨h1, h2, d, n, h3, h4, h5⟩ := fromStrRadix_inv h
    have hd := (hdig d n).2 ⟨h3, h4⟩
    refine ⟨?_, hin.2 ⟨h1, h2⟩, ?_⟩
    · rcases h5 with ⟨rfl, rfl⟩ | ⟨rfl, rfl⟩ | ⟨rfl, rfl, _⟩
      · exact .plain _ _ hd
      · exact .plus _ _ hd
      · exact .minus _ _ hd
    · intro hu t e
      rcases h5 with ⟨rfl, _⟩ | ⟨rfl, _⟩ | ⟨rfl, _, h6⟩
      · subst e
        rcases hb with rfl | rfl
        · exact (dec_noSign hd '-' (by simp)).2 rfl
        · exact (hex_noSign hd '-' (by simp)).2 rfl
      · simp only [List.cons.injEq] at e
        exact absurd e.1 (by decide)
      · rw [hsig.2 hu] at h6; cases h6
  · rintro ⟨h1, h2, h3⟩
    have hc : ty.check v = some v := by unfold IntTy.check; rw [if_pos (hin.1 h2)]
    cases h1 with
    | plain ds n hd =>
      have hns : ∀ c ∈ s, c ≠ '+' ∧ c ≠ '-' := by
        rcases hb with rfl | rfl
        · exact dec_noSign hd
        · exact hex_noSign hd
      obtain ⟨k1, k2⟩ := (hdig _ _).1 hd
      rw [fromStrRadix_digits ty b s k1 hns, k2]; exact hc
    | plus ds n hd =>
      obtain ⟨k1, k2⟩ := (hdig _ _).1 hd
      rw [fromStrRadix_plus ty b ds k1, k2]; exact hc
    | minus ds n hd =>
      obtain ⟨k1, k2⟩ := (hdig _ _).1 hd
      have hs : ty.signed = true := by
        cases e : ty.signed with
        | true => rfl
        | false => exact absurd rfl (h3 (hsig.1 e) ds)
      rw [fromStrRadix_minus ty b ds k1, if_pos hs, k2]; exact hc

/-! Concrete cases: each function has a result other than its argument, and fails where it can fail. -/

example : Trimmed c!" \t add $t0, $t1 " c!"add $t0, $t1" := (C84_trim _ _).1 (by decide +kernel)
example : ¬ Trimmed c!" a " c!"a " := fun h => absurd ((C84_trim _ _).2 h) (by decide +kernel)
example : Pieces ',' c!"$t0,, 1" [c!"$t0", [], c!" 1"] := (C84_split _ _ _).1 (by decide +kernel)
example : splitOnce ' ' c!"li $t0, 1" = some (c!"li", c!"$t0, 1") := (C84_splitOnce _ _ _ _).2 ⟨by decide, rfl⟩
example : contains c!"//" c!"nop//x" = true := (C84_parts _ _ ' ').2.2.2 ⟨c!"nop", c!"x", rfl⟩
example : byteLen c!"aé€😀" = 10 := by rw [C84_len]; decide +kernel
example : takeBytes c!"é€" 2 = some c!"é" := (C84_take _ _ _).2 ⟨c!"€", rfl, by decide +kernel⟩
example : takeBytes c!"é€" 1 = none := by decide +kernel
example : findStr c!"//" c!"é//x//" = some 2 := by decide +kernel
example : Without c!"0x" c!"00xx10x" c!"0x1" := (C84_remove _ _).1 (by decide +kernel)
example : (asciiLower 'Q').toNat = 'q'.toNat := (C84_lower 'Q').1 (by decide) (by decide)
example : hexLower 48879 = c!"beef" := by rw [(C84_show _).2.1]; decide +kernel
example : Numeral 16 c!"-7fFf" (-32767) := ((C84_parse .i16 16 (.inr rfl) c!"-7fFf" (-32767)).1 (by decide +kernel)).1
example : fromStrRadix .i16 10 c!"32768" = none ∧ fromStrRadix .u32 10 c!"-0" = none ∧ fromStrRadix .i32 10 c!"-2147483648" = some (-2147483648) := by
  decide +kernel

end Mips
