/- What each operand reader takes, complains about and panics on (for C56). -/
import Verif.Spec.Language
import Verif.Props.Tame

namespace Mips
open Source Syntax Branch Operands Isa
open Mips.Names hiding none

def AsciiS (s : Str) : Prop := ∀ c ∈ s, isAscii c = true

/-! ### numerals -/

theorem signed_radix {ty : IntTy} {b : Nat} {ds : Str} (hb : (b = 10 ∧ ds = decDigits) ∨ (b = 16 ∧ ds = hexDigits)) {s : Str} {v : Int} :
    fromStrRadix ty b s = some v ↔ Lang.Signed ty.signed ds s v ∧ ty.min ≤ v ∧ v ≤ ty.max := by
  have hinv : ∀ d n, d ≠ [] → parseDigits b 0 d = some n → Digits ds d n := by
    rcases hb with ⟨rfl, rfl⟩ | ⟨rfl, rfl⟩
    · exact fun _ _ => parseDigits_dec_inv
    · exact fun _ _ => parseDigits_hex_inv
  have hdig : ∀ d n, Digits ds d n → parseDigits b 0 d = some n ∧ d ≠ [] ∧ ∀ c ∈ d, c ≠ '+' ∧ c ≠ '-' := by
    rcases hb with ⟨rfl, rfl⟩ | ⟨rfl, rfl⟩
    · exact fun d n h => ⟨parseDigits_dec h, (digits_chars_dec h).1, dec_noSign h⟩
    · refine fun d n h => ⟨parseDigits_hex h, (digits_chars_hex h).1, ?_⟩
      intro c hc
      have := (digits_chars_hex h).2 c hc
      constructor <;> rintro rfl <;> simp at this
  constructor
  · intro h
    obtain ⟨h1, h2, d, n, h0, hp, h⟩ := fromStrRadix_inv h
    refine ⟨?_, h1, h2⟩
    rcases h with ⟨rfl, rfl⟩ | ⟨rfl, rfl⟩ | ⟨rfl, rfl, hs⟩
    · exact .plus _ _ (.inl (hinv _ _ h0 hp))
    · exact .plus _ _ (.inr ⟨_, rfl, hinv _ _ h0 hp⟩)
    · exact .minus _ _ hs (hinv _ _ h0 hp)
  · rintro ⟨h, h1, h2⟩
    cases h with
    | plus s n h =>
      rcases h with h | ⟨t, rfl, h⟩
      · obtain ⟨e1, e2, e3⟩ := hdig _ _ h
        rw [fromStrRadix_digits _ _ _ e2 e3, e1]
        simp [IntTy.check, h1, h2]
      · obtain ⟨e1, e2, e3⟩ := hdig _ _ h
        rw [fromStrRadix_plus _ _ _ e2, e1]
        simp [IntTy.check, h1, h2]
    | minus s n hs h =>
      obtain ⟨e1, e2, e3⟩ := hdig _ _ h
      rw [fromStrRadix_minus _ _ _ e2, if_pos hs, e1]
      simp [IntTy.check, h1, h2]

theorem numeral_read {ty : IntTy} {s : Str} {v : Int} :
    readNum ty s = some v ↔ Lang.Numeral ty.signed s v ∧ ty.min ≤ v ∧ v ≤ ty.max := by
  unfold readNum Lang.Numeral
  cases h : contains c!"0x" s
  · simp only [Bool.false_eq_true, if_false, signed_radix (.inl ⟨rfl, rfl⟩), false_and, false_or, true_and]
  · simp only [if_true, signed_radix (.inr ⟨rfl, rfl⟩), reduceCtorEq, false_and, or_false, true_and]

/-! ### registers -/

theorem trimStart_repl (ch : Char) (k : Nat) (b : Str) (h : ∀ c t, b = c :: t → c ≠ ch) : trimStartMatches ch (List.replicate k ch ++ b) = b := by
  unfold trimStartMatches
  induction k with
  | zero =>
    cases b with
    | nil => rfl
    | cons c t =>
      have : (c == ch) = false := by rw [beq_eq_false_iff_ne]; exact h c t rfl
      simp [this]
  | succ k ih => simp [List.replicate_succ, ih]

/-- Reading a register text: white space and `$` are removed. -/
theorem dollars_core {p b q : Str} {k : Nat} (hp : ∀ c ∈ p, isWs c = true) (hq : ∀ c ∈ q, isWs c = true)
    (h0 : b ≠ []) (hb : ∀ c ∈ b, isWs c = false ∧ c ≠ '$') :
    trimStartMatches '$' (trim (p ++ (List.replicate k '$' ++ b) ++ q)) = b := by
  rw [trim_blank_tight _ _ _ hp hq (tight_of_chars (by simp [h0]) (by
    intro c hc
    rcases List.mem_append.1 hc with hc | hc
    · rw [List.eq_of_mem_replicate hc]; decide
    · exact (hb c hc).1))]
  exact trimStart_repl _ _ _ fun c t e => (hb c (by rw [e]; simp)).2

theorem taken_core {core : Str → BitVec 5 → Prop} {s : Str} {r : BitVec 5} (h : Taken core s r)
    (hc : ∀ b, core b r → b ≠ [] ∧ ∀ c ∈ b, isWs c = false ∧ c ≠ '$') :
    ∃ b, core b r ∧ trimStartMatches '$' (trim s) = b := by
  cases h with
  | mk p b q k r hp hq h =>
    obtain ⟨h1, h2⟩ := hc b h
    exact ⟨b, h, dollars_core hp hq h1 h2⟩

theorem alnum_plain {b : Str} (h : Alnum b) : b ≠ [] ∧ ∀ c ∈ b, isWs c = false ∧ c ≠ '$' :=
  ⟨h.1, fun c hc => ⟨letter_notWs (h.2 c hc), by rintro rfl; have := h.2 _ hc; simp at this⟩⟩

theorem plus_plain {ds b : Str} {n : Nat} (hd : ds = decDigits ∨ ds = hexDigits) (h : Plus ds b n) : b ≠ [] ∧ ∀ c ∈ b, isWs c = false ∧ c ≠ '$' := by
  have hal : ∀ t, Digits ds t n → Alnum t := by
    intro t h
    rcases hd with rfl | rfl
    · exact dec_alnum h
    · exact ⟨(digits_chars_hex h).1, fun c hc => by have := (digits_chars_hex h).2 c hc; omega⟩
  rcases h with h | ⟨t, rfl, h⟩
  · exact alnum_plain (hal _ h)
  · refine ⟨by simp, ?_⟩
    intro c hc
    rcases List.mem_cons.1 hc with rfl | hc
    · decide
    · exact (alnum_plain (hal _ h)).2 c hc

theorem lower_same [Unicode] {b n : Str} (ha : AsciiS b) (h : Unicode.lower b = n) : SameName b n := by
  unfold SameName; rw [← h, Unicode.lower_ascii b ha]

/-- the Kelvin sign -/
def IsK (c : Char) : Prop := c.val = 0x212A

theorem isK_low {c : Char} (h : IsK c) : lowChar c = 'k' := by unfold lowChar; rw [if_pos (show c.val = 0x212A from h)]

theorem isK_toNat {c : Char} (h : IsK c) : c.toNat = 0x212A := congrArg UInt32.toNat h

theorem isK_notAscii {c : Char} (h : IsK c) : isAscii c = false := by
  have := isK_toNat h
  rw [Bool.eq_false_iff, ne_eq, isAscii_toNat]; omega

theorem isK_plain {c : Char} (h : IsK c) : isWs c = false ∧ c ≠ '$' := by
  have := isK_toNat h
  refine ⟨?_, by rintro rfl; revert this; decide⟩
  have e : c = Char.ofNat 0x212A := char_ext (by rw [this]; rfl)
  rw [e]; decide

theorem lowChar_ascii_inv {c : Char} (h : isAscii (lowChar c) = true) : isAscii c = true ∨ IsK c := by
  by_cases hk : IsK c
  · exact .inr hk
  · left
    unfold lowChar at h
    rw [if_neg (show ¬ c.val = 0x212A from hk), isAscii_toNat, asciiLower_toNat] at h
    rw [isAscii_toNat]
    split at h <;> omega

/-- Texts whose lower case is ASCII. -/
theorem lower_inv [Unicode] {b n : Str} (h : Unicode.lower b = n) (hn : AsciiS n) : b.map lowChar = n ∧ ∀ c ∈ b, isAscii c = true ∨ IsK c := by
  by_cases hx : ∃ c ∈ b, isAscii c = false ∧ c.val ≠ 0x212A ∧ isWs c = false
  · obtain ⟨d, h1, h2, _⟩ := Unicode.lower_other b hx
    rw [h] at h1
    rw [hn d h1] at h2; cases h2
  · have hk : b.map lowChar = n := by
      rw [← h, Unicode.lower_known]
      intro c hc
      cases h1 : isAscii c with
      | true => exact .inl rfl
      | false =>
        right
        cases h2 : isWs c with
        | true => exact .inr rfl
        | false => exact .inl (Classical.byContradiction fun h3 => hx ⟨c, hc, h1, h3, h2⟩)
    refine ⟨hk, fun c hc => lowChar_ascii_inv (hn _ ?_)⟩
    rw [← hk]; exact List.mem_map.2 ⟨c, hc, rfl⟩

theorem lower_cases [Unicode] {b n : Str} (h : Unicode.lower b = n) (hn : AsciiS n) :
    (AsciiS b ∧ SameName b n) ∨ (b.map lowChar = n ∧ (∀ c ∈ b, isAscii c = true ∨ IsK c) ∧ (∃ c ∈ b, IsK c) ∧ 'k' ∈ n) := by
  obtain ⟨h1, h2⟩ := lower_inv h hn
  by_cases hk : ∃ c ∈ b, IsK c
  · obtain ⟨c, hc, hk⟩ := hk
    refine .inr ⟨h1, h2, ⟨c, hc, hk⟩, ?_⟩
    rw [← h1, ← isK_low hk]; exact List.mem_map.2 ⟨c, hc, rfl⟩
  · have ha : AsciiS b := fun c hc => (h2 c hc).elim id fun e => absurd ⟨c, hc, e⟩ hk
    exact .inl ⟨ha, lower_same ha h⟩

theorem nameOk_asciiS {n : Str} (h : nameOk n = true) : AsciiS n := by
  intro c hc
  simp only [nameOk, Bool.and_eq_true, List.all_eq_true, Bool.or_eq_true, decide_eq_true_eq] at h
  have := h.1.2 c hc
  rw [isAscii_toNat]; omega

/-- characters of a text whose lower case is a name -/
theorem name_plain [Unicode] {b n : Str} (h : Unicode.lower b = n) (hn : nameOk n = true) : b ≠ [] ∧ ∀ c ∈ b, isWs c = false ∧ c ≠ '$' := by
  rcases lower_cases h (nameOk_asciiS hn) with ⟨_, hs⟩ | ⟨h1, h2, ⟨k, hk, _⟩, _⟩
  · obtain ⟨h1, h2, _⟩ := nameOk_chars hs hn
    exact alnum_plain ⟨h1, h2⟩
  · refine ⟨(by rintro rfl; cases hk), fun c hc => ?_⟩
    rcases h2 c hc with ha | hK
    · have hm : asciiLower c ∈ n := by rw [← h1, ← lowChar_ascii ha]; exact List.mem_map.2 ⟨c, hc, rfl⟩
      have : SameName [c] [asciiLower c] := rfl
      simp only [nameOk, Bool.and_eq_true, List.all_eq_true, Bool.or_eq_true, decide_eq_true_eq] at hn
      have h3 := hn.1.2 _ hm
      rw [asciiLower_toNat] at h3
      have : (97 ≤ c.toNat ∧ c.toNat ≤ 122) ∨ (65 ≤ c.toNat ∧ c.toNat ≤ 90) ∨ (48 ≤ c.toNat ∧ c.toNat ≤ 57) := by
        split at h3 <;> omega
      exact ⟨letter_notWs this, by rintro rfl; simp at this⟩
    · exact isK_plain hK

/-- no number contains the Kelvin sign -/
theorem plus_noK {ds b : Str} {n : Nat} (hd : ds = decDigits ∨ ds = hexDigits) (h : Plus ds b n) {c : Char} (hc : c ∈ b) (hk : IsK c) : False := by
  have := isK_toNat hk
  have key : ∀ t, Digits ds t n → c ∈ t → False := by
    intro t ht hm
    rcases hd with rfl | rfl
    · have := (digits_chars_dec ht).2 c hm; omega
    · have := (digits_chars_hex ht).2 c hm; omega
  rcases h with h | ⟨t, rfl, h⟩
  · exact key _ h hc
  · rcases List.mem_cons.1 hc with rfl | hc
    · revert this; decide
    · exact key _ h hc

theorem u32_noK {b : Str} {c : Char} (hc : c ∈ b) (hk : IsK c) : parseU32 b = none := by
  cases h : parseU32 b with
  | none => rfl
  | some n => exact (plus_noK (.inl rfl) (parseU32_plus h) hc hk).elim

theorem hex_noK {b : Str} {c : Char} (hc : c ∈ b) (hk : IsK c) : parseU32Hex b = none := by
  cases h : parseU32Hex b with
  | none => rfl
  | some n => exact (plus_noK (.inr rfl) (parseU32Hex_plus h) hc hk).elim

theorem gprTaken_plain [Unicode] (r : BitVec 5) (b : Str) (h : GprTaken b r) : b ≠ [] ∧ ∀ c ∈ b, isWs c = false ∧ c ≠ '$' := by
  cases h with
  | name b n r hr hn => exact name_plain hn (gprNames_ok' r n hr).1
  | num b r h => exact plus_plain (.inl rfl) h
  | rnum k s r h =>
    refine ⟨by simp [List.replicate_succ], ?_⟩
    intro c hc
    rcases List.mem_append.1 hc with hc | hc
    · rw [List.eq_of_mem_replicate hc]; decide
    · exact (alnum_plain (dec_alnum h)).2 c hc
  | r0 b r h hr => exact name_plain (n := c!"r0") h (by decide)

/-- `Register::from_str` without `$` and white space -/
def gprRaw [Unicode] (s b : Str) : Res Str Register :=
  if regReMatches b then
    match parseU32 (trimStartMatches 'r' b) with
    | some n => Register.tryFrom n
    | none => .panic
  else match parseU32 b with
    | some n => Register.tryFrom n
    | none => match regTable.lookup (Unicode.lower b) with
      | some x => .ok x
      | none => .err s

theorem gpr_raw [Unicode] (s : Str) : Register.fromStr s = gprRaw s (trimStartMatches '$' (trim s)) := rfl

theorem rd_rep {p : Char → Bool} (k : Nat) {d : Char} {t : Str} (hd : p d = true) : hasRD p (List.replicate (k + 1) 'r' ++ d :: t) = true := by
  induction k with
  | zero => simp [hasRD, headP, hd]
  | succ k ih =>
    rw [List.replicate_succ, List.cons_append, hasRD, ih]; simp

theorem nd_dec [Unicode] {c : Char} (h : 48 ≤ c.toNat ∧ c.toNat ≤ 57) : Unicode.isNd c = true := by
  rw [Unicode.isNd_ascii c (by rw [isAscii_toNat]; omega)]
  simp only [isDigit, UInt32.le_iff_toNat_le, val_toNat, UInt32.reduceToNat]
  simp [h]

/-- letters `r` and a number -/
theorem raw_rnum [Unicode] (s : Str) (k : Nat) {t : Str} {n : Nat} (h : Digits decDigits t n) (hn : n < 2 ^ 32) :
    gprRaw s (List.replicate (k + 1) 'r' ++ t) = Register.tryFrom n := by
  obtain ⟨h1, h2⟩ := digits_chars_dec h
  cases t with
  | nil => exact absurd rfl h1
  | cons d t =>
    unfold gprRaw
    rw [regReMatches_eq, rd_rep k (nd_dec (h2 d (by simp))), if_pos rfl, trimStart_repl _ _ _ (by
      intro c u e; cases e; rintro rfl; have := h2 'r' (by simp); simp at this), parseU32_dec h hn]

theorem rd_front {p : Char → Bool} {a s : Str} (ha : ∀ c ∈ a, c ≠ 'r') (h : hasRD p (a ++ s) = true) : hasRD p s = true := by
  induction a with
  | nil => exact h
  | cons c a ih =>
    have : (c == 'r') = false := by rw [beq_eq_false_iff_ne]; exact ha c (by simp)
    simp only [List.cons_append, hasRD, this, Bool.false_and, Bool.false_or] at h
    exact ih (fun d hd => ha d (by simp [hd])) h

theorem gprTaken_ok [Unicode] {s b : Str} {r : BitVec 5} (h : GprTaken b r) : gprRaw s b = .ok r.toFin := by
  have hr := r.isLt
  cases h with
  | name b n r h hn =>
    obtain ⟨o1, _, o3⟩ := gprNames_ok' r n h
    rcases lower_cases hn (nameOk_asciiS o1) with ⟨_, hs⟩ | ⟨h1, h2, ⟨k, hk, hK⟩, hkn⟩
    · exact gprCore_parse (.name b n r h hs)
    · have hr' : 'r' ∉ b := by
        intro hr'
        have : 'r' ∈ n := by rw [← h1]; exact List.mem_map.2 ⟨'r', hr', by decide⟩
        have key : ∀ m ∈ gprNames, 'k' ∈ m → 'r' ∉ m := by decide
        exact key n (List.mem_of_getElem? h) hkn this
      unfold gprRaw
      rw [regReMatches_eq, u32_noK hk hK, hn, o3]
      have : hasRD Unicode.isNd b = false := by
        rw [Bool.eq_false_iff]
        intro hh
        have := rd_front (p := Unicode.isNd) (s := []) (fun c hc => by rintro rfl; exact hr' hc) (by rw [List.append_nil]; exact hh)
        cases this
      rw [this]; rfl
  | num b r h =>
    rcases h with h | ⟨t, rfl, h⟩
    · exact gprCore_parse (.num b r h)
    · unfold gprRaw
      rw [regReMatches_eq, plus_noRD (.inr ⟨t, rfl, h⟩), if_neg (by simp), plus_parseU32 (.inr ⟨t, rfl, h⟩), if_pos (by omega)]
      exact tryFrom_bv r
  | rnum k t r h => rw [raw_rnum s k h (by omega)]; exact tryFrom_bv r
  | r0 b r h hr0 =>
    subst hr0
    have hs : SameName b c!"r0" := by
      rcases lower_cases h (by unfold AsciiS; decide) with ⟨_, hs⟩ | ⟨_, _, _, hk⟩
      · exact hs
      · exact absurd hk (by decide)
    by_cases he : b = c!"r0"
    · subst he
      exact gprCore_parse (.rnum c!"0" 0#5 (.one '0' 0 rfl))
    · unfold SameName at hs
      match b, hs with
      | [c, d], hs =>
        simp only [List.map_cons, List.map_nil, List.cons.injEq, and_true] at hs
        obtain ⟨h1, h2⟩ := hs
        have e1 : c ≠ 'r' := by
          rintro rfl
          apply he
          have : d = '0' := by
            apply char_ext
            have := congrArg Char.toNat h2
            rw [asciiLower_toNat] at this
            simp at this ⊢
            split at this <;> omega
          rw [this]
        unfold gprRaw
        have hm : regReMatches [c, d] = false := by
          rw [regReMatches_eq]
          simp [hasRD, headP, e1]
        have hp : parseU32 [c, d] = none := by
          apply parseU32_letter
          have := congrArg Char.toNat h1
          rw [asciiLower_toNat] at this
          simp at this
          split at this <;> omega
        rw [hm, hp, h]
        rfl
      | [], hs => cases hs
      | [_], hs => simp at hs
      | _ :: _ :: _ :: _, hs => simp at hs

theorem gpr_reads [Unicode] {s : Str} {r : BitVec 5} (h : Taken GprTaken s r) : Register.fromStr s = .ok r.toFin := by
  obtain ⟨b, hb, e⟩ := taken_core h (gprTaken_plain r)
  rw [gpr_raw, e]
  exact gprTaken_ok hb

theorem isGpr_iff [Unicode] {s : Str} : (∃ r, Register.fromStr s = .ok r) ↔ Lang.IsGpr s := by
  constructor
  · rintro ⟨r, h⟩; exact ⟨_, gpr_taken h⟩
  · rintro ⟨r, h⟩; exact ⟨_, gpr_reads h⟩

theorem rd_back {p : Char → Bool} {s b : Str} (hb : ∀ c ∈ b, c ≠ 'r' ∧ p c = false) (h : hasRD p (s ++ b) = true) : hasRD p s = true := by
  induction s with
  | nil =>
    have := rd_front (s := []) (fun c hc => (hb c hc).1) (by rw [List.append_nil]; exact h)
    cases this
  | cons c s ih =>
    simp only [List.cons_append, hasRD, Bool.or_eq_true, Bool.and_eq_true] at h ⊢
    rcases h with ⟨h1, h2⟩ | h
    · left
      refine ⟨h1, ?_⟩
      cases s with
      | nil =>
        cases b with
        | nil => cases h2
        | cons d b => simp only [List.nil_append, headP] at h2; rw [(hb d (by simp)).2] at h2; cases h2
      | cons d s => exact h2
    · exact .inr (ih h)

theorem badGpr_iff [Unicode] {s : Str} : Register.fromStr s = .panic ↔ Lang.BadGpr s := by
  constructor
  · intro h
    refine ⟨Classical.byContradiction fun hr => gpr_noPanic hr h, ?_⟩
    rintro p q k j t n rfl hp hq ht
    apply Nat.le_of_not_lt
    intro hn
    have hpl : List.replicate j 'r' ++ t ≠ [] ∧ ∀ c ∈ List.replicate j 'r' ++ t, isWs c = false ∧ c ≠ '$' := by
      refine ⟨by simp [(digits_chars_dec ht).1], ?_⟩
      intro c hc
      rcases List.mem_append.1 hc with hc | hc
      · rw [List.eq_of_mem_replicate hc]; decide
      · exact (alnum_plain (dec_alnum ht)).2 c hc
    rw [gpr_raw, dollars_core hp hq hpl.1 hpl.2] at h
    have tf : ∀ n, Register.tryFrom n ≠ .panic := by intro n; unfold Register.tryFrom; split <;> (intro h; cases h)
    cases j with
    | zero =>
      unfold gprRaw at h
      rw [List.replicate_zero, List.nil_append, regReMatches_eq, hasRD_dec ht, if_neg (by simp), parseU32_dec ht hn] at h
      exact tf _ h
    | succ j =>
      rw [raw_rnum _ j ht hn] at h
      exact tf _ h
  · rintro ⟨hr, h⟩
    obtain ⟨p, q, e, hp, hq⟩ := trim_decomp s
    obtain ⟨k, hk⟩ := trimStartMatches_eq '$' (trim s)
    obtain ⟨j, hj⟩ := trimStartMatches_eq 'r' (trimStartMatches '$' (trim s))
    have hm : hasRD Unicode.isNd (trimStartMatches '$' (trim s)) = true := by
      rw [← hasRD_iff, e] at hr
      have hr := rd_back (fun c hc => ⟨by rintro rfl; exact absurd (hq _ hc) (by decide), by
        exact Unicode.isNd_ws c (hq _ hc)⟩) hr
      have hr := rd_front (fun c hc => by rintro rfl; exact absurd (hp _ hc) (by decide)) hr
      rw [hk] at hr
      exact rd_front (fun c hc => by rw [List.eq_of_mem_replicate hc]; decide) hr
    rw [gpr_raw]
    unfold gprRaw
    rw [regReMatches_eq, hm, if_pos rfl]
    cases hn : parseU32 (trimStartMatches 'r' (trimStartMatches '$' (trim s))) with
    | none => rfl
    | some n =>
      exfalso
      have hpl := parseU32_plus hn
      rw [hj] at hm
      obtain ⟨i, hi, hh⟩ := hasRD_append j _ (plus_noRD hpl _) (by rw [Unicode.isNd_ascii 'r' (by decide)]; decide) hm
      rcases hpl with hpl | ⟨u, hu, _⟩
      · have := h p q k j _ n (by rw [← hj, ← hk]; exact e) hp hq hpl
        rw [plus_parseU32 (.inl hpl), if_neg (by omega)] at hn
        cases hn
      · rw [hu, headP, Unicode.isNd_ascii '+' (by decide)] at hh
        exact absurd hh (by decide)

theorem fprTaken_plain [Unicode] (r : BitVec 5) (b : Str) (h : FprTaken b r) : b ≠ [] ∧ ∀ c ∈ b, isWs c = false ∧ c ≠ '$' := by
  cases h with
  | name n r hr hn =>
    exact name_plain hn (fprNames_ok' r n hr).1
  | num r h => exact plus_plain (.inl rfl) h
  | hex r h => exact plus_plain (.inr rfl) h

theorem u32_none {b : Str} (h : ∀ n, ¬ Plus decDigits b n) : parseU32 b = none := by
  cases hp : parseU32 b with
  | none => rfl
  | some n => exact absurd (parseU32_plus hp) (h n)

theorem fpr_reads [Unicode] {s : Str} {r : BitVec 5} (h : Taken FprTaken s r) : FloatRegister.fromStr s = .ok r.toFin := by
  obtain ⟨b, hb, e⟩ := taken_core h (fprTaken_plain r)
  have hr := r.isLt
  unfold FloatRegister.fromStr
  simp only [e]
  cases hb with
  | name n r hr hn =>
    obtain ⟨h1, h3⟩ := fprNames_ok' r n hr
    rcases lower_cases hn (nameOk_asciiS h1) with ⟨_, hs⟩ | ⟨_, _, ⟨k, hk, hK⟩, _⟩
    · obtain ⟨_, _, c, t, rfl, hc⟩ := nameOk_chars hs h1
      rw [parseU32_letter hc, hn, h3]
    · rw [u32_noK hk hK, hn, h3]
  | num r h => rw [plus_parseU32 h, if_pos (by omega)]; exact ftryFrom_bv r
  | hex r h hd =>
    rw [u32_none hd]
    cases hl : fregTable.lookup (Unicode.lower b) with
    | some x =>
      exfalso
      have hn : ∀ e ∈ fregTable, ∀ r : Fin 32, parseU32Hex e.1 ≠ some r.val := by decide +kernel
      have hm := lookup_taken hl
      have := hn _ hm r.toFin
      have ha : AsciiS b := by
        obtain ⟨h1, h3⟩ := fprNames_ok' (BitVec.ofFin x) _ (fregTable_names _ hm)
        rcases lower_cases rfl (nameOk_asciiS h1) with ⟨ha, hs⟩ | ⟨_, _, ⟨k, hk, hK⟩, _⟩
        · exact ha
        · exact (plus_noK (.inr rfl) h hk hK).elim
      have hal : Alnum b := by
        obtain ⟨h1, h3⟩ := fprNames_ok' (BitVec.ofFin x) _ (fregTable_names _ hm)
        obtain ⟨h4, h5, _⟩ := nameOk_chars (lower_same ha rfl) h1
        exact ⟨h4, h5⟩
      have h6 := parseU32Hex_alnum hal
      rw [plus_parseU32Hex h, if_pos (by omega)] at h6
      rw [Unicode.lower_ascii b ha] at this
      exact this h6.symm
    | none => rw [plus_parseU32Hex h, if_pos (by omega)]; exact ftryFrom_bv r

theorem isFpr_iff [Unicode] {s : Str} : (∃ r, FloatRegister.fromStr s = .ok r) ↔ ∃ r, Taken FprTaken s r := by
  constructor
  · rintro ⟨r, h⟩; exact ⟨_, fpr_taken h⟩
  · rintro ⟨r, h⟩; exact ⟨_, fpr_reads h⟩

theorem c0Taken_plain [Unicode] (r : BitVec 5) (b : Str) (h : C0Taken b r) : b ≠ [] ∧ ∀ c ∈ b, isWs c = false ∧ c ≠ '$' := by
  cases h with
  | name n r hr hn =>
    exact name_plain hn (cop0Names_ok _ hr).1
  | num n r _ h => exact plus_plain (.inl rfl) h
  | hex n r _ h => exact plus_plain (.inr rfl) h

theorem c0_reads [Unicode] {s : Str} {r : BitVec 5} (h : Taken C0Taken s r) : Cop0Register.fromStr s = .ok r.toFin := by
  obtain ⟨b, hb, e⟩ := taken_core h (c0Taken_plain r)
  have hr := r.isLt
  have tf : ∀ n, (r.toNat, n) ∈ cop0Names → Cop0Register.tryFrom r.toNat = .ok r.toFin := by
    intro n hn
    have key : ∀ e ∈ cop0Names, (match Cop0Register.tryFrom e.1 with | .ok x => x.val == e.1 | _ => false) = true := by decide +kernel
    have := key _ hn
    revert this
    cases h : Cop0Register.tryFrom r.toNat <;> simp
    intro e; apply Fin.eq_of_val_eq; exact e
  unfold Cop0Register.fromStr
  simp only [e]
  cases hb with
  | name n r hr hn =>
    obtain ⟨h1, h2, ⟨x, h3, h4⟩, _⟩ := cop0Names_ok _ hr
    rcases lower_cases hn (nameOk_asciiS h1) with ⟨_, hs⟩ | ⟨_, _, ⟨k, hk, hK⟩, _⟩
    case inr =>
      rw [u32_noK hk hK, hex_noK hk hK, hn]
      simp only [h3]
      congr 1
      exact Fin.eq_of_val_eq h4
    have ha := nameOk_chars hs h1
    have hx : parseU32Hex b = none := by
      rw [parseU32Hex_alnum ⟨ha.1, ha.2.1⟩]
      rw [show b.map asciiLower = n from hs]; exact h2
    obtain ⟨_, _, c, t, rfl, hc⟩ := ha
    rw [parseU32_letter hc, hx, hn]
    simp only [h3]
    congr 1
    exact Fin.eq_of_val_eq h4
  | num n r hn h => rw [plus_parseU32 h, if_pos (by omega)]; exact tf n hn
  | hex n r hn h hd =>
    rw [u32_none hd, plus_parseU32Hex h, if_pos (by omega)]; exact tf n hn

theorem isC0_iff [Unicode] {s : Str} : (∃ r, Cop0Register.fromStr s = .ok r) ↔ ∃ r, Taken C0Taken s r := by
  constructor
  · rintro ⟨r, h⟩; exact ⟨_, c0_taken h⟩
  · rintro ⟨r, h⟩; exact ⟨_, c0_reads h⟩

end Mips
