/- Verdicts of the operand readers (for C56). -/
import Verif.Lemmas.LangL2

namespace Mips
open Source Syntax Branch Operands Isa
open Mips.Names hiding none

/-- The context in which a line is read agrees with its place in the file. -/
structure Sees [Unicode] (p : Lang.Place) (x : Ctx) : Prop where
  ovf : x.ovf = p.ovf
  syms : x.syms = p.syms
  refers : ∀ s, Lang.RefersTo p s ↔ (startsWith c!"@@" (trim s) = true ∨ hasLabel x.labels (trim s) = true)

theorem isDigit_toNat (c : Char) : isDigit c = true ↔ 48 ≤ c.toNat ∧ c.toNat ≤ 57 := by
  simp only [isDigit, Bool.and_eq_true, decide_eq_true_eq, UInt32.le_iff_toNat_le, val_toNat, UInt32.reduceToNat]

theorem parseU32_one {c : Char} : (parseU32 [c]).isSome = isDigit c := by
  cases h : parseU32 [c] with
  | none =>
    symm
    rw [Option.isSome_none, Bool.eq_false_iff]
    intro hd
    rw [isDigit_toNat] at hd
    have hk : decDigits[c.toNat - 48]? = some (asciiLower c) := by
      have : digitVal 10 c = some (c.toNat - 48) := by
        unfold digitVal; simp only [if_pos hd]; rw [if_pos (by omega)]
      exact digitVal_dec_inv this
    rw [plus_parseU32 (.inl (.one c _ hk)), if_pos (by omega)] at h
    cases h
  | some n =>
    rw [Option.isSome_some]
    rcases parseU32_plus h with h | ⟨t, e, h⟩
    · exact (((isDigit_toNat c).2 ((digits_chars_dec h).2 c (by simp)))).symm
    · cases e; exact absurd rfl (digits_chars_dec h).1

theorem takeBytes_one {c : Char} {t : Str} (h : isAscii c = true) : takeBytes (c :: t) 1 = some [c] := by
  have hlen : c.utf8Size = 1 := by
    have := byteLen_ascii [c] (by simp [h])
    simpa [byteLen] using this
  simp [takeBytes, hlen]

theorem takeBytes_one_none {c : Char} {t : Str} (h : isAscii c = false) : takeBytes (c :: t) 1 = none := by
  have hlen : ¬ c.utf8Size ≤ 1 := by
    intro h1
    have h2 : c.utf8Size = 1 := by have := Char.utf8Size_pos c; omega
    unfold isAscii at h
    rw [Char.utf8Size_eq_one_iff] at h2
    rw [UInt32.le_iff_toNat_le] at h2
    simp only [decide_eq_false_iff_not, UInt32.lt_iff_toNat_lt] at h
    apply h
    have e1 : (127 : UInt32).toNat = 127 := rfl
    have e2 : (128 : UInt32).toNat = 128 := rfl
    omega
  simp [takeBytes, hlen]

theorem digit_ascii {c : Char} (h : isAscii c = false) : isDigit c = false := by
  cases hd : isDigit c with
  | false => rfl
  | true =>
    rw [isDigit_toNat] at hd
    unfold isAscii at h
    simp only [decide_eq_false_iff_not, UInt32.lt_iff_toNat_lt, val_toNat] at h
    have e2 : (128 : UInt32).toNat = 128 := rfl
    omega

theorem digits_head {t : Str} {n : Nat} (h : Digits decDigits t n) : ∃ c u, t = c :: u ∧ isDigit c = true := by
  obtain ⟨h1, h2⟩ := digits_chars_dec h
  cases t with
  | nil => exact absurd rfl h1
  | cons c u => exact ⟨c, u, rfl, (isDigit_toNat c).2 (h2 c (by simp))⟩

theorem zx_head {t : Str} (h : startsWith c!"0x" t = true) : ∃ u, t = '0' :: u := by
  cases t with
  | nil => cases h
  | cons c u => simp [startsWith, List.isPrefixOf] at h; exact ⟨u, by rw [h.1]⟩

section
variable [Unicode] {p : Lang.Place} {x : Ctx}

theorem target_addr (hx : Sees p x) {t : Str} {a : Word} : parseTarget x t = .ok (.address a) ↔ Lang.Address p.syms t a := by
  have hs : findSym x.syms t = Lang.symbol p.syms t := by rw [hx.syms]; rfl
  unfold parseTarget Lang.Address
  rw [hs]
  cases hq : Lang.symbol p.syms t with
  | some b => simp
  | none =>
    simp only [reduceCtorEq, true_and, false_or]
    by_cases h0 : startsWith c!"0x" t = true
    · rw [if_pos h0]
      constructor
      · intro h
        split at h
        · rename_i n hn
          cases h
          have hp := parseU32Hex_plus hn
          rw [plus_parseU32Hex hp] at hn
          refine ⟨n, ?_, rfl, .inl ⟨h0, hp⟩⟩
          split at hn
          · assumption
          · cases hn
        · cases h
      · rintro ⟨n, hn, rfl, ⟨_, h⟩ | ⟨h, _⟩⟩
        · rw [plus_parseU32Hex h, if_pos hn]
        · rw [h0] at h; cases h
    · rw [if_neg h0]
      have h0' : startsWith c!"0x" t = false := by simpa using h0
      cases t with
      | nil =>
        simp only [takeBytes, reduceCtorEq, false_iff]
        rintro ⟨n, _, _, ⟨h, _⟩ | ⟨_, h⟩⟩
        · exact h0 h
        · exact absurd rfl (digits_chars_dec h).1
      | cons c u =>
        cases hca : isAscii c with
        | false =>
          rw [takeBytes_one_none hca]
          simp only [reduceCtorEq, false_iff]
          rintro ⟨n, _, _, ⟨h, _⟩ | ⟨_, h⟩⟩
          · exact h0 h
          · obtain ⟨c', u', e, h⟩ := digits_head h
            cases e; rw [digit_ascii hca] at h; cases h
        | true =>
        rw [takeBytes_one hca]
        simp only [parseU32_one]
        cases hd : isDigit c with
        | true =>
          rw [if_pos rfl]
          constructor
          · intro h
            split at h
            · rename_i n hn
              cases h
              have hp := parseU32_plus hn
              rw [plus_parseU32 hp] at hn
              refine ⟨n, ?_, rfl, .inr ⟨h0', ?_⟩⟩
              · split at hn
                · assumption
                · cases hn
              · rcases hp with hp | ⟨v, e, hp⟩
                · exact hp
                · cases e; exact absurd hd (by decide)
            · cases h
          · rintro ⟨n, hn, rfl, ⟨h, _⟩ | ⟨_, h⟩⟩
            · exact absurd h h0
            · rw [plus_parseU32 (.inl h), if_pos hn]
        | false =>
          rw [if_neg (by simp)]
          simp only [Res.ok.injEq, reduceCtorEq, false_iff]
          rintro ⟨n, _, _, ⟨h, _⟩ | ⟨_, h⟩⟩
          · exact h0 h
          · obtain ⟨c', u', e, h⟩ := digits_head h
            cases e; rw [hd] at h; cases h

theorem target_label (hx : Sees p x) {t l : Str} : parseTarget x t = .ok (.label l) ↔ l = t ∧ Lang.LabelName p.syms t := by
  have hs : findSym x.syms t = Lang.symbol p.syms t := by rw [hx.syms]; rfl
  unfold parseTarget Lang.LabelName
  rw [hs]
  cases hq : Lang.symbol p.syms t with
  | some b => simp
  | none =>
    simp only [true_and]
    by_cases h0 : startsWith c!"0x" t = true
    · rw [if_pos h0]
      obtain ⟨u, rfl⟩ := zx_head h0
      constructor
      · intro h; split at h <;> cases h
      · rintro ⟨_, c, s, e, _, h⟩; cases e; exact absurd h (by decide)
    · rw [if_neg h0]
      cases t with
      | nil =>
        simp only [takeBytes, reduceCtorEq, false_iff]
        rintro ⟨_, _, _, h, _⟩; cases h
      | cons c u =>
        cases hca : isAscii c with
        | false =>
          rw [takeBytes_one_none hca]
          simp only [reduceCtorEq, false_iff]
          rintro ⟨_, c', s, e, h, _⟩; cases e; rw [hca] at h; cases h
        | true =>
        rw [takeBytes_one hca]
        simp only [parseU32_one]
        cases hd : isDigit c with
        | true =>
          rw [if_pos rfl]
          constructor
          · intro h; split at h <;> cases h
          · rintro ⟨_, c', s, e, _, h⟩; cases e; rw [hd] at h; cases h
        | false =>
          rw [if_neg (by simp)]
          constructor
          · intro h; cases h; exact ⟨rfl, c, u, rfl, hca, hd⟩
          · rintro ⟨rfl, _⟩; rfl

theorem target_panic (hx : Sees p x) {t : Str} : parseTarget x t = .panic ↔ Lang.Nothing p.syms t := by
  have hs : findSym x.syms t = Lang.symbol p.syms t := by rw [hx.syms]; rfl
  unfold parseTarget Lang.Nothing
  rw [hs]
  cases hq : Lang.symbol p.syms t with
  | some b => simp
  | none =>
    simp only [true_and]
    by_cases h0 : startsWith c!"0x" t = true
    · rw [if_pos h0]
      obtain ⟨u, rfl⟩ := zx_head h0
      constructor
      · intro h; split at h <;> cases h
      · intro h; exact absurd (h _ _ rfl) (by decide)
    · rw [if_neg h0]
      cases t with
      | nil => simp [takeBytes]
      | cons c u =>
        cases hca : isAscii c with
        | false =>
          rw [takeBytes_one_none hca]
          simp only [true_iff]
          intro c' s e; cases e; exact hca
        | true =>
          have hno : ¬ ∀ c' s, c :: u = c' :: s → isAscii c' = false := fun h => by have := h _ _ rfl; rw [hca] at this; cases this
          rw [takeBytes_one hca]
          simp only [parseU32_one, hno, iff_false]
          split
          · split <;> (intro h; cases h)
          · intro h; cases h

end

/-! ### constants -/

def rangeOf (ty : IntTy) : Lang.Range := ⟨ty.signed, ty.min, ty.max⟩

/-- the immediate denotes the value -/
def Has (ty : IntTy) (i : Immediate) (v : Int) : Prop :=
  (i = Immediate.new ty v ∧ ty.min ≤ v ∧ v ≤ ty.max) ∨ (i = .short (BitVec.ofInt 16 v) ∧ 0 ≤ v ∧ v < 65536)

theorem hi_release (a : Word) : hiOf false a = some (BitVec.ofInt 16 (((a.toNat + 0x8000) / 0x10000 % 0x10000 : Nat) : Int)) := by
  have h1 : (a &&& 0x8000#32).toNat = if a.toNat % 2 ^ 16 < 2 ^ 15 then 0 else 2 ^ 15 := by
    have : (0x8000#32) = BitVec.twoPow 32 15 := by decide
    rw [this, BitVec.and_twoPow]
    have hb : a.getLsbD 15 = decide (2 ^ 15 ≤ a.toNat % 2 ^ 16) := by
      unfold BitVec.getLsbD
      rw [Nat.testBit_eq_decide_div_mod_eq]
      congr 1; apply propext; omega
    rw [hb]
    by_cases h : a.toNat % 2 ^ 16 < 2 ^ 15
    · rw [if_pos h, if_neg (by simp; omega)]; rfl
    · rw [if_neg h, if_pos (by simp; omega)]; rfl
  have e : hiOf false a = some (((a + (a &&& 0x8000#32) * 2#32) >>> 16).setWidth 16) := rfl
  rw [e]
  congr 1
  generalize hx : (a &&& 0x8000#32) = m at *
  have ha := a.isLt
  apply BitVec.eq_of_toNat_eq
  simp only [BitVec.toNat_setWidth, BitVec.toNat_ushiftRight, BitVec.toNat_add, BitVec.toNat_mul, h1, Nat.shiftRight_eq_div_pow,
    BitVec.ofInt_natCast, BitVec.toNat_ofNat]
  split <;> omega

theorem hi_half (ovf : Bool) (a : Word) : hiOf ovf a = if ovf = true ∧ 0xFFFF8000 ≤ a.toNat then none
    else some (BitVec.ofInt 16 (((a.toNat + 0x8000) / 0x10000 % 0x10000 : Nat) : Int)) := by
  cases ovf with
  | false => rw [if_neg (by simp)]; exact hi_release a
  | true =>
    rw [hiOf_checked]
    by_cases h : a.toNat < 0xFFFF8000
    · rw [if_pos h, if_neg (by omega)]; exact hi_release a
    · rw [if_neg h, if_pos ⟨rfl, by omega⟩]

theorem lo_half (a : Word) : loOf a = BitVec.ofInt 16 ((a.toNat % 0x10000 : Nat) : Int) := by
  apply BitVec.eq_of_toNat_eq
  unfold loOf
  rw [and16]
  unfold lo16
  simp only [BitVec.ofInt_natCast, BitVec.toNat_ofNat, BitVec.toNat_setWidth, BitVec.toNat_ofNat]
  omega

theorem ascii_trim {s : Str} (h : AsciiS s) : AsciiS (trim s) := by
  obtain ⟨p, q, e, _, _⟩ := trim_decomp s
  intro c hc; apply h; rw [e]; simp [hc]

theorem nl_trim {s : Str} (h : '\n' ∉ s) : '\n' ∉ trim s := by
  obtain ⟨p, q, e, _, _⟩ := trim_decomp s
  intro hc; apply h; rw [e]; simp [hc]

theorem ascii_filter {s : Str} {f : Char → Bool} (h : AsciiS s) : AsciiS (s.filter f) :=
  fun c hc => h c (List.mem_filter.1 hc).1

theorem group_ascii {s m : Str} (h : AsciiS s) (hg : Lang.Group s m) : AsciiS (Lang.bare m) := by
  obtain ⟨a, b, e, _, _⟩ := hg
  intro c hc
  apply ascii_trim h
  rw [e]
  simp [(List.mem_filter.1 hc).1]

theorem takeBytes_asciis {h : Str} (hh : ∀ c ∈ h, isAscii c = true) {t : Str} : ∀ {n : Nat}, h.length = n → (takeBytes t n = some h ↔ ∃ u, t = h ++ u) := by
  induction h generalizing t with
  | nil =>
    intro n hn
    subst hn
    cases t <;> simp [takeBytes]
  | cons a h ih =>
    intro n hn
    subst hn
    cases t with
    | nil => simp [takeBytes]
    | cons c u =>
      have ha : a.utf8Size = 1 := by
        have := byteLen_ascii [a] (by simp [hh a (by simp)])
        simpa [byteLen] using this
      simp only [List.length_cons, takeBytes]
      by_cases hc : c.utf8Size ≤ h.length + 1
      · rw [if_pos hc]
        simp only [Option.map_eq_some_iff, List.cons.injEq, List.cons_append]
        constructor
        · rintro ⟨b, e, rfl, rfl⟩
          rw [ha, Nat.add_sub_cancel] at e
          obtain ⟨v, rfl⟩ := (ih (fun d hd => hh d (by simp [hd])) rfl).1 e
          exact ⟨v, rfl, rfl⟩
        · rintro ⟨v, rfl, rfl⟩
          rw [ha, Nat.add_sub_cancel]
          exact ⟨h, (ih (fun d hd => hh d (by simp [hd])) rfl).2 ⟨v, rfl⟩, rfl, rfl⟩
      · rw [if_neg hc]
        simp only [reduceCtorEq, List.cons_append, List.cons.injEq, false_iff]
        rintro ⟨v, rfl, rfl⟩
        omega

theorem take3 {t : Str} (h : Str) (hl : h.length = 3) (hh : ∀ c ∈ h, isAscii c = true) : takeBytes t 3 = some h ↔ ∃ u, t = h ++ u :=
  takeBytes_asciis hh hl

section
variable [Unicode] {p : Lang.Place} {x : Ctx}

theorem value_parse (hx : Sees p x) {ty : IntTy} {s : Str} (hn : '\n' ∉ s) (hr : ¬ Lang.RefersTo p s) {v : Int}
    (h : Lang.Value p (rangeOf ty) s v) : ∃ i, parseImm x ty s = .ok i ∧ Has ty i v := by
  rw [hx.refers] at hr
  simp only [not_or, Bool.not_eq_true] at hr
  unfold parseImm
  dsimp only
  rw [hr.1, hr.2]
  simp only [Bool.false_eq_true, if_false]
  cases h with
  | num v hg hv h1 h2 =>
    rw [group_none hg]
    simp only
    rw [parseNum_eq, numeral_read.2 ⟨hv, h1, h2⟩]
    exact ⟨_, rfl, .inl ⟨rfl, h1, h2⟩⟩
  | hi m t a hg hA e hov =>
    rw [group_find (nl_trim hn) hg]
    simp only [bare_eq]
    rw [(target_addr hx).2 hA]
    simp only [Res.bind, (take3 c!"%hi" rfl (by decide)).2 ⟨t, e⟩, if_true, Target.asU32]
    rw [hi_half, hx.ovf, if_neg (by rintro ⟨h1, h2⟩; have := hov h1; omega)]
    exact ⟨_, rfl, .inr ⟨rfl, by omega, by omega⟩⟩
  | lo m t a hg hA e =>
    rw [group_find (nl_trim hn) hg]
    simp only [bare_eq]
    rw [(target_addr hx).2 hA]
    simp only [Res.bind, (take3 c!"%lo" rfl (by decide)).2 ⟨t, e⟩, Target.asU32]
    rw [if_neg (by decide), if_pos trivial, lo_half]
    exact ⟨_, rfl, .inr ⟨rfl, by omega, by omega⟩⟩

theorem parse_value (hx : Sees p x) {ty : IntTy} {s : Str} (hn : '\n' ∉ s) (hr : ¬ Lang.RefersTo p s) {i : Immediate}
    (h : parseImm x ty s = .ok i) : ∃ v, Lang.Value p (rangeOf ty) s v ∧ Has ty i v := by
  rw [hx.refers] at hr
  simp only [not_or, Bool.not_eq_true] at hr
  unfold parseImm at h
  dsimp only at h
  rw [hr.1, hr.2] at h
  simp only [Bool.false_eq_true, if_false] at h
  by_cases hg : ∃ m, Lang.Group s m
  · obtain ⟨m, hg⟩ := hg
    rw [group_find (nl_trim hn) hg] at h
    simp only [bare_eq] at h
    cases ht : parseTarget x (Lang.bare m) with
    | panic => rw [ht] at h; cases h
    | err e => rw [ht] at h; cases h
    | ok t =>
      rw [ht] at h
      simp only [Res.bind] at h
      cases hb : takeBytes (trim s) 3 with
      | none => rw [hb] at h; cases h
      | some b =>
        rw [hb] at h
        simp only at h
        cases t with
        | label l => simp only [Target.asU32] at h; split at h <;> (try split at h) <;> cases h
        | address a =>
          have hA := (target_addr hx).1 ht
          simp only [Target.asU32] at h
          split at h
          · rename_i e; subst e
            obtain ⟨t, e⟩ := (take3 c!"%hi" rfl (by decide)).1 hb
            rw [hi_half, hx.ovf] at h
            by_cases hov : p.ovf = true ∧ 0xFFFF8000 ≤ a.toNat
            · rw [if_pos hov] at h; cases h
            · rw [if_neg hov] at h
              cases h
              exact ⟨_, .hi m t a hg hA e (fun ho => by
                apply Nat.lt_of_not_le; intro hle; exact hov ⟨ho, hle⟩), .inr ⟨rfl, by omega, by omega⟩⟩
          · split at h
            · rename_i e; subst e
              obtain ⟨t, e⟩ := (take3 c!"%lo" rfl (by decide)).1 hb
              rw [lo_half] at h
              cases h
              exact ⟨_, .lo m t a hg hA e, .inr ⟨rfl, by omega, by omega⟩⟩
            · cases h
  · have hg' : ∀ m, ¬ Lang.Group s m := fun m h => hg ⟨m, h⟩
    rw [group_none hg'] at h
    simp only at h
    rw [parseNum_eq] at h
    split at h
    · rename_i v hv
      cases h
      obtain ⟨h1, h2, h3⟩ := numeral_read.1 hv
      exact ⟨v, .num v hg' h1 h2 h3, .inl ⟨rfl, h2, h3⟩⟩
    · cases h

theorem parse_breaks (hx : Sees p x) {ty : IntTy} {s : Str} (hn : '\n' ∉ s) (hr : ¬ Lang.RefersTo p s) :
    parseImm x ty s = .panic ↔ Lang.Breaks p s := by
  rw [hx.refers] at hr
  simp only [not_or, Bool.not_eq_true] at hr
  unfold parseImm Lang.Breaks
  dsimp only
  rw [hr.1, hr.2]
  simp only [Bool.false_eq_true, if_false]
  by_cases hg : ∃ m, Lang.Group s m
  · obtain ⟨m, hg⟩ := hg
    rw [group_find (nl_trim hn) hg]
    simp only [bare_eq]
    have huniq : ∀ m', Lang.Group s m' → m' = m := fun m' h => group_unique (nl_trim hn) h hg
    cases ht : parseTarget x (Lang.bare m) with
    | panic =>
      simp only [Res.bind, true_iff]
      exact ⟨m, hg, .inl ((target_panic hx).1 ht)⟩
    | err e =>
      simp only [Res.bind, reduceCtorEq, false_iff]
      rintro ⟨m', h1, h2⟩
      obtain rfl := huniq _ h1
      rcases h2 with h2 | h2 | ⟨a, h2, _⟩
      · rw [(target_panic hx).2 h2] at ht; cases ht
      · rw [(target_label hx).2 ⟨rfl, h2⟩] at ht; cases ht
      · rw [(target_addr hx).2 h2] at ht; cases ht
    | ok t =>
      simp only [Res.bind]
      cases t with
      | label l =>
        obtain ⟨rfl, hl⟩ := (target_label hx).1 ht
        constructor
        · intro _; exact ⟨m, hg, .inr (.inl hl)⟩
        · intro _
          simp only [Target.asU32]
          split
          · rfl
          · split
            · rfl
            · split <;> rfl
      | address a =>
        have hA := (target_addr hx).1 ht
        simp only [Target.asU32]
        have hi3 := take3 (t := trim s) c!"%hi" rfl (by decide)
        have lo3 := take3 (t := trim s) c!"%lo" rfl (by decide)
        have red : (∃ m, Lang.Group s m ∧ (Lang.Nothing p.syms (Lang.bare m) ∨ Lang.LabelName p.syms (Lang.bare m) ∨ ∃ a, Lang.Address p.syms (Lang.bare m) a ∧
            (∀ t, trim s = c!"%hi" ++ t → p.ovf = true ∧ 0xFFFF8000 ≤ a.toNat) ∧ (∀ t, trim s ≠ c!"%lo" ++ t))) ↔
            ((takeBytes (trim s) 3 = some c!"%hi" → p.ovf = true ∧ 0xFFFF8000 ≤ a.toNat) ∧ takeBytes (trim s) 3 ≠ some c!"%lo") := by
          rw [hi3, show (takeBytes (trim s) 3 ≠ some c!"%lo") ↔ ¬ ∃ u, trim s = c!"%lo" ++ u from not_congr lo3]
          constructor
          · rintro ⟨m', h1, h2⟩
            obtain rfl := huniq _ h1
            rcases h2 with h2 | h2 | ⟨a', h2, h3, h4⟩
            · rw [(target_panic hx).2 h2] at ht; cases ht
            · rw [(target_label hx).2 ⟨rfl, h2⟩] at ht; cases ht
            · have := (target_addr hx).2 h2
              rw [ht] at this
              cases this
              exact ⟨fun ⟨u, e⟩ => h3 u e, fun ⟨u, e⟩ => h4 u e⟩
          · rintro ⟨h3, h4⟩
            exact ⟨m, hg, .inr (.inr ⟨a, hA, fun u e => h3 ⟨u, e⟩, fun u e => h4 ⟨u, e⟩⟩)⟩
        rw [red]
        cases hb : takeBytes (trim s) 3 with
        | none => simp
        | some b =>
          simp only [Option.some.injEq]
          by_cases e1 : b = c!"%hi"
          · rw [if_pos e1, hi_half, hx.ovf]
            subst e1
            by_cases hov : p.ovf = true ∧ 0xFFFF8000 ≤ a.toNat
            · simp [if_pos hov, hov]
            · rw [if_neg hov]
              simp only [reduceCtorEq, true_implies, false_iff, not_and]
              intro h; exact absurd h hov
          · rw [if_neg e1]
            by_cases e2 : b = c!"%lo"
            · rw [if_pos e2]; simp [e2]
            · rw [if_neg e2]; simp [e1, e2]
  · have hg' : ∀ m, ¬ Lang.Group s m := fun m h => hg ⟨m, h⟩
    rw [group_none hg']
    constructor
    · intro h; exact absurd h parseNum_np
    · rintro ⟨m, h, _⟩; exact absurd h (hg' m)

theorem parse_refers (hx : Sees p x) {ty : IntTy} {s : Str} (hr : Lang.RefersTo p s) :
    parseImm x ty s = .ok (.localLabel (trim s)) ∨ parseImm x ty s = .ok (.label (trim s)) := by
  rw [hx.refers] at hr
  unfold parseImm
  dsimp only
  by_cases h : startsWith c!"@@" (trim s) = true
  · left; rw [if_pos h]
  · right
    rw [if_neg h, if_pos (hr.resolve_left h)]

end
end Mips
