/- C21: mnemonics are case-insensitive — exactly. -/
import Verif.Props.CaseP
import Verif.Props.EditP
import Verif.Spec.CaseX

namespace Mips
open Source Syntax Branch Case Operands Edit
open Mips.Lang (Step Values Yields)

namespace CaseX

variable [Unicode]

omit [Unicode] in
theorem noWs_case {c d : Char} (h : mnChar d = true) (he : asciiLower d = asciiLower c) : isWs c = false := by
  cases hw : isWs c with
  | false => rfl
  | true =>
    exfalso
    have hr : c.toNat < 65 ∨ 122 < c.toNat := by
      unfold isWs at hw
      simp only [Bool.or_eq_true, Bool.and_eq_true, decide_eq_true_eq, beq_iff_eq, UInt32.le_iff_toNat_le, ← UInt32.toNat_inj] at hw
      have e : c.val.toNat = c.toNat := rfl
      simp at hw
      omega
    have hc : asciiLower c = c := by
      have h1 := asciiLower_toNat c
      rw [if_neg (by omega)] at h1
      exact Char.ext (UInt32.toNat_inj.1 h1)
    rw [hc] at he
    have := (asciiLower_eq d c hc (by omega)).1 he
    subst this
    unfold mnChar at h
    simp only [Bool.or_eq_true, beq_iff_eq] at h
    rcases h with h | rfl
    · simp only [Char.isAlphanum, Char.isAlpha, Char.isUpper, Char.isLower, Char.isDigit, Bool.or_eq_true, Bool.and_eq_true, decide_eq_true_eq, ge_iff_le] at h
      unfold isWs at hw
      simp only [Bool.or_eq_true, Bool.and_eq_true, decide_eq_true_eq, beq_iff_eq, UInt32.le_iff_toNat_le, ← UInt32.toNat_inj] at hw h
      simp at hw h
      omega
    · revert hw; decide

/-- what the two lines have in common -/
theorem cased_parts {raw raw' op op' r : Str} (hr : Cased raw raw' op op' r) :
    kind raw' = .code ∧ mnemonic (body raw') = mnemonic (body raw) ∧ operands (body raw') = operands (body raw) ∧
    firstWord (body raw) = op ∧ firstWord (body raw') = op' ∧ (∀ c ∈ op, isAscii c = true) ∧ (∀ c ∈ op', isAscii c = true) := by
  have hsp : ∀ s : Str, s.map asciiLower = op.map asciiLower → ' ' ∉ s ∧ ':' ∉ s := by
    intro s hs
    have : ∀ d, asciiLower d = d → d.toNat < 97 ∨ 122 < d.toNat → mnChar d = false → d ∉ s := by
      intro d hd1 hd2 hd3 hm
      have : asciiLower d ∈ op.map asciiLower := by rw [← hs]; exact List.mem_map_of_mem hm
      obtain ⟨c, hc, e⟩ := List.mem_map.1 this
      rw [hd1] at e
      have := (asciiLower_eq c d hd1 hd2).1 e
      subst this
      rw [hr.chars c hc] at hd3; cases hd3
    exact ⟨this ' ' (by decide) (by decide) (by decide), this ':' (by decide) (by decide) (by decide)⟩
  have ha : ∀ c ∈ op, isAscii c = true := fun c hc => mnChar_ascii (hr.chars c hc)
  have ha' := ascii_cases hr.case ha
  have hlen : op.length = op'.length := by simpa using congrArg List.length hr.case
  have hcode := hr.code
  have hne : op ++ r ≠ [] := by
    intro e
    unfold kind at hcode
    rw [hr.text, e] at hcode
    simp [endsWith] at hcode
  have hne' : op' ++ r ≠ [] := by
    intro e
    apply hne
    obtain ⟨rfl, rfl⟩ := List.append_eq_nil_iff.1 e
    cases op with
    | nil => rfl
    | cons => simp at hlen
  have hcode' : kind raw' = .code := by
    unfold kind at hcode ⊢
    rw [hr.text']
    rw [hr.text] at hcode
    have hend : endsWith ':' (op' ++ r) = false := by
      have h1 : endsWith ':' (op ++ r) = false := by
        cases hx : endsWith ':' (op ++ r) with
        | false => rfl
        | true => rw [hx] at hcode; simp at hcode
      cases hl : r.getLast? with
      | some d =>
        unfold endsWith at h1 ⊢
        rw [List.getLast?_append, hl] at h1 ⊢
        exact h1
      | none =>
        have := List.getLast?_eq_none_iff.1 hl
        subst this
        unfold endsWith
        rw [List.append_nil, beq_eq_false_iff_ne]
        intro e
        exact (hsp op' hr.case.symm).2 (List.mem_of_getLast? e)
    rw [hend]
    simp [hne']
  obtain ⟨w1, w2⟩ := words_sep hr.sep (hsp op rfl).1
  obtain ⟨w3, w4⟩ := words_sep hr.sep (hsp op' hr.case.symm).1
  refine ⟨hcode', ?_, ?_, by rw [hr.text, w1], by rw [hr.text', w3], ha, ha'⟩
  · rw [hr.text, hr.text']
    unfold mnemonic
    rw [w1, w3, Unicode.lower_ascii _ ha, Unicode.lower_ascii _ ha', hr.case]
  · rw [hr.text, hr.text']
    unfold operands
    rw [w2, w4]

theorem logical_sigs : ∀ e ∈ Lang.intSignatures, e.1 ∈ logicalNames → e.2 = [.gpr, .gpr, .uimm] := by decide +kernel

theorem logical_plan3 : ∀ mn ∈ logicalNames, mn ∉ Names.none ∧ mn ≠ c!".word" ∧ Lang.intSignatures.any (fun e => e.1 == mn) = true ∧
    mn ∉ cmpBranchNames ∧ mn ∉ Operands.memNames ∧
    (Lang.intSignatures.find? fun e => e.1 == mn && e.2.length == 3) = some (mn, [.gpr, .gpr, .uimm]) := by decide +kernel

/-- the steps of reading a logical instruction -/
theorem logical_plan {s : Str} (h : mnemonic s ∈ logicalNames) :
    (∃ a b c, operands s = [a, b, c] ∧ Lang.plan s = some [.gpr false a, .gpr false b, .name (firstWord s), .const (numbers (firstWord s)) c]) ∨
    ((operands s).length ≠ 3 ∧ Lang.plan s = none) := by
  obtain ⟨h1, h2, h3, h4, h5, h6⟩ := logical_plan3 _ h
  by_cases hl : (operands s).length = 3
  · left
    match ho : operands s, hl with
    | [a, b, c], _ =>
      refine ⟨a, b, c, rfl, ?_⟩
      unfold Lang.plan
      simp only [if_neg h1, if_neg h2, h3, if_true, ho, List.length_cons, List.length_nil]
      rw [h6]
      simp only [Option.map_some, Option.some.injEq, Lang.steps, decide_eq_false h5, List.cons.injEq, and_true, true_and, Lang.Step.const.injEq]
      unfold numbers
      have key : (mnemonic s ∈ [c!"andi", c!"ori", c!"xori"] ∧ firstWord s ≠ mnemonic s) ↔ ¬ firstWord s ∈ logicalNames := by
        constructor
        · rintro ⟨_, k2⟩ k3
          apply k2
          have : ∀ m ∈ logicalNames, trim (m.map asciiLower) = m ∧ ∀ c ∈ m, isAscii c = true := by decide +kernel
          unfold mnemonic
          rw [Unicode.lower_ascii _ (this _ k3).2, (this _ k3).1]
        · intro k
          exact ⟨h, fun e => k (e ▸ h)⟩
      by_cases hw : firstWord s ∈ logicalNames
      · rw [if_neg (fun c => key.1 c hw), if_pos hw]
      · rw [if_pos (key.2 hw), if_neg hw]
  · right
    refine ⟨hl, ?_⟩
    unfold Lang.plan
    simp only [if_neg h1, if_neg h2, h3, if_true]
    rw [List.find?_eq_none.2]; rfl
    intro e he hc
    simp only [Bool.and_eq_true, beq_iff_eq] at hc
    have := logical_sigs e he (hc.1 ▸ h)
    rw [this] at hc
    exact hl hc.2.symm

theorem numbers_cases (w : Str) : numbers w = Lang.uimm ∨ numbers w = Lang.simm := by
  unfold numbers; split
  · exact .inl rfl
  · exact .inr rfl

theorem numbers_addr (w : Str) : numbers w ≠ Lang.addr ∧ numbers w ≠ Lang.wide := by
  rcases numbers_cases w with h | h <;> rw [h] <;> exact ⟨by decide, by decide⟩

/-- numerals have one value, signed or not -/
theorem numeral_neg {neg neg' : Bool} {t : Str} {v v' : Int} (h : Lang.Numeral neg t v) (h' : Lang.Numeral neg' t v') : v = v' := by
  have up : ∀ {n : Bool} {ds s : Str} {x : Int}, Lang.Signed n ds s x → Lang.Signed true ds s x := by
    intro n ds s x hx
    cases hx with
    | plus s n hp => exact .plus s n hp
    | minus s n _ hd => exact .minus s n rfl hd
  have up2 : ∀ {n : Bool} {x : Int}, Lang.Numeral n t x → Lang.Numeral true t x := by
    intro n x hx
    rcases hx with ⟨a, b⟩ | ⟨a, b⟩
    · exact .inl ⟨a, up b⟩
    · exact .inr ⟨a, up b⟩
  exact numeral_unique (up2 h) (up2 h')

/-- a number that both ranges have is the same number -/
theorem value_other {p : Lang.Place} {r r' : Lang.Range} {t : Str} {v v' : Int} (h : Lang.Value p r t v) (h' : Lang.Value p r' t v') : Lang.Value p r' t v := by
  cases h with
  | num v h1 h2 h3 h4 =>
    cases h' with
    | num v' h1' h2' h3' h4' =>
      have := numeral_neg h2 h2'
      subst this
      exact .num v h1' h2' h3' h4'
    | hi m u a hm => exact absurd hm (h1 m)
    | lo m u a hm => exact absurd hm (h1 m)
  | hi m u a k1 k2 k3 k4 => exact .hi m u a k1 k2 k3 k4
  | lo m u a k1 k2 k3 => exact .lo m u a k1 k2 k3

theorem const_other {f : Lang.File} {k : Nat} {w w' t : Str} {v : Int} (h : Lang.Const f k (numbers w) t v)
    (hr : Lang.Reads (f.place k) (.const (numbers w') t)) : Lang.Const f k (numbers w') t v := by
  have n1 := numbers_addr w
  have n2 := numbers_addr w'
  cases h with
  | «local» d k1 k2 => rw [if_neg n1.2]; have := Lang.Const.local (f := f) (k := k) (r := numbers w') (t := t) d k1 k2; rwa [if_neg n2.2] at this
  | label d k0 k1 => rw [if_neg n1.2]; have := Lang.Const.label (f := f) (k := k) (r := numbers w') (t := t) d k0 k1; rwa [if_neg n2.2] at this
  | value v k0 k1 k2 =>
    rcases hr with hr | ⟨v', hr⟩
    · exact absurd hr k1
    · exact .value v n2.1 k1 (value_other k2 hr)
  | place v k0 => exact absurd k0 n1.1
  | half m v k0 => exact absurd k0 n1.1

theorem yields_inv {f : Lang.File} {k : Nat} {a b w c : Str} {r : Lang.Range} {vs : List Lang.Val}
    (h : Values f k [.gpr false a, .gpr false b, .name w, .const r c] vs) :
    ∃ x y v, Taken GprTaken a x ∧ Taken GprTaken b y ∧ Lang.Const f k r c v ∧ vs = [.gpr x, .gpr y, .num v] := by
  cases h with
  | cons _ _ _ _ h1 h =>
  cases h with
  | cons _ _ _ _ h2 h =>
  cases h with
  | cons _ _ _ _ h3 h =>
  cases h with
  | cons _ _ _ _ h4 h =>
  cases h
  cases h1 with
  | gpr _ _ x h1 =>
  cases h2 with
  | gpr _ _ y h2 =>
  cases h3
  cases h4 with
  | const _ _ v h4 => exact ⟨x, y, v, h1, h2, h4, rfl⟩

theorem yields_mk {f : Lang.File} {k : Nat} {a b w c : Str} {r : Lang.Range} {x y : BitVec 5} {v : Int} (h1 : Taken GprTaken a x) (h2 : Taken GprTaken b y)
    (h3 : Lang.Const f k r c v) : Values f k [.gpr false a, .gpr false b, .name w, .const r c] [.gpr x, .gpr y, .num v] :=
  .cons _ _ [.gpr x] _ (.gpr _ _ _ h1) (.cons _ _ [.gpr y] _ (.gpr _ _ _ h2) (.cons _ _ [] _ (.name _) (.cons _ _ [.num v] _ (.const _ _ _ h3) .nil)))

/-- the line `raw'` is the logical instruction `raw` in another case -/
def Pair (raw raw' : Str) : Prop := mnemonic (body raw) ∈ logicalNames ∧ ∃ op op' r, Cased raw raw' op op' r

/-- files that differ only in the letter case of logical instructions -/
def Pairs (ls ls' : List Str) : Prop := ls.length = ls'.length ∧ ∀ (k : Nat) raw raw', ls[k]? = some raw → ls'[k]? = some raw' → raw = raw' ∨ Pair raw raw'

theorem pair_call {raw raw' : Str} (h : Pair raw raw') : Lang.callName (firstWord (body raw')) = Lang.callName (firstWord (body raw)) := by
  obtain ⟨hm, op, op', r, hc⟩ := h
  obtain ⟨k1, k2, k3, k4, k5, k6, k7⟩ := cased_parts hc
  unfold Lang.callName
  rw [k4, k5, Unicode.lower_ascii _ k6, Unicode.lower_ascii _ k7, ← hc.case]

theorem alike {rt : Rt} {m : Mipsasm} {ls ls' : List Str} (h : Pairs ls ls') :
    Alike ⟨rt.ovf, m.base, m.syms, ls⟩ ⟨rt.ovf, m.base, m.syms, ls'⟩ := by
  refine ⟨rfl, rfl, rfl, ?_⟩
  show ls.map kind = ls'.map kind
  apply List.ext_getElem?
  intro k
  rw [List.getElem?_map, List.getElem?_map]
  cases hk : ls[k]? with
  | none =>
    have := List.getElem?_eq_none_iff.1 hk
    rw [List.getElem?_eq_none_iff.2 (by rw [← h.1]; exact this)]
  | some raw =>
    cases hk' : ls'[k]? with
    | none =>
      have := List.getElem?_eq_none_iff.1 hk'
      have := (List.getElem?_eq_some_iff.1 hk).1
      have := h.1
      omega
    | some raw' =>
      rcases h.2 k raw raw' hk hk' with rfl | ⟨_, op, op', r, hc⟩
      · rfl
      · simp only [Option.map_some]
        rw [hc.code, (cased_parts hc).1]

/-- a changed line that is taken has the words it had -/
theorem pair_words {f : Lang.File} {k : Nat} {raw raw' : Str} (h : Pair raw raw') {ws : List Word} (hw : Lang.LineWords f k raw ws)
    (ht : Lang.LineTaken (f.place k) raw') : Lang.LineWords f k raw' ws := by
  obtain ⟨st, vs, h1, h2, h3⟩ := hw
  have hcall := pair_call h
  obtain ⟨hm, op, op', r, hc⟩ := h
  obtain ⟨k1, k2, k3, k4, k5, k6, k7⟩ := cased_parts hc
  rcases logical_plan hm with ⟨a, b, c, ho, hp⟩ | ⟨_, hp⟩
  · rcases logical_plan (s := body raw') (k2 ▸ hm) with ⟨a', b', c', ho', hp'⟩ | ⟨ho', _⟩
    · rw [k3, ho] at ho'
      cases ho'
      rw [hp] at h1
      cases h1
      obtain ⟨x, y, v, q1, q2, q3, rfl⟩ := yields_inv h2
      unfold Lang.LineTaken at ht
      rw [k1] at ht
      obtain ⟨st', e1, e2⟩ := ht
      rw [hp'] at e1
      cases e1
      exact ⟨_, _, hp', yields_mk q1 q2 (const_other q3 (e2 _ (by simp))), by rw [hcall]; exact h3⟩
    · rw [k3, ho] at ho'; exact absurd rfl ho'
  · rw [hp] at h1; cases h1

/-- the changed file is accepted, with the same words, if its logical instructions are taken -/
theorem pairs_words {rt : Rt} {m : Mipsasm} {ls ls' : List Str} (h : Pairs ls ls') (ha : Lang.Accepted ⟨rt.ovf, m.base, m.syms, ls⟩)
    (ht : ∀ (k : Nat) raw raw', ls[k]? = some raw → ls'[k]? = some raw' → Pair raw raw' → Lang.LineTaken ⟨rt.ovf, m.syms, ls', k⟩ raw') :
    Lang.Accepted ⟨rt.ovf, m.base, m.syms, ls'⟩ ∧
    ∀ k ws, Lang.Generates ⟨rt.ovf, m.base, m.syms, ls⟩ k ws → Lang.Generates ⟨rt.ovf, m.base, m.syms, ls'⟩ k ws := by
  have hA := alike (rt := rt) (m := m) h
  have other : ∀ {k : Nat} {raw' : Str}, ls'[k]? = some raw' → ∃ raw, ls[k]? = some raw ∧ (raw = raw' ∨ Pair raw raw') := by
    intro k raw' hk
    have h1 := (List.getElem?_eq_some_iff.1 hk).1
    have h2 : ls[k]? = some (ls[k]'(by rw [h.1]; exact h1)) := List.getElem?_eq_getElem _
    exact ⟨_, h2, h.2 k _ _ h2 hk⟩
  have hT : Lang.AllTaken ⟨rt.ovf, m.base, m.syms, ls'⟩ := by
    intro k raw' hk
    obtain ⟨raw, h1, rfl | h2⟩ := other hk
    · exact hA.lineTaken.1 (ha.1 k raw h1)
    · exact ht k raw raw' h1 hk h2
  constructor
  · rw [Alike.accepted_iff] at ha ⊢
    refine ⟨hT, fun k => ?_⟩
    cases hk : ls'[k]? with
    | none => exact Alike.noLine hk
    | some raw' =>
      obtain ⟨a1, a2, a3⟩ := ha.2 k
      obtain ⟨raw, h1, rfl | h2⟩ := other hk
      · have e : ls'[k]? = ls[k]? := hk.trans h1.symm
        exact ⟨fun x => a1 (hA.symm.overflowsAt hT ha.1 e x), fun x => a2 (hA.symm.badPlaceAt e x), fun x => a3 (hA.symm.noCodeAt e x)⟩
      · obtain ⟨hm, op, op', r, hc⟩ := h2
        obtain ⟨k1, k2, k3, k4, k5, k6, k7⟩ := cased_parts hc
        have taken := ha.1 k raw h1
        unfold Lang.LineTaken at taken
        rw [hc.code] at taken
        obtain ⟨st, e1, e2⟩ := taken
        rcases logical_plan hm with ⟨a, b, c, ho, hp⟩ | ⟨_, hp⟩
        · rcases logical_plan (s := body raw') (k2 ▸ hm) with ⟨a', b', c', ho', hp'⟩ | ⟨ho', _⟩
          · rw [k3, ho] at ho'
            cases ho'
            have inst : ∀ {st'}, Lang.Instr ⟨rt.ovf, m.base, m.syms, ls'⟩ k st' → st' = [.gpr false a, .gpr false b, .name (firstWord (body raw')), .const (numbers (firstWord (body raw'))) c] := by
              rintro st' ⟨raw2, q1, q2, q3, q4⟩
              have q1' : ls'[k]? = some raw2 := q1
              rw [hk] at q1'
              cases q1'
              rw [hp'] at q3
              exact (Option.some.inj q3).symm
            have noaddr : ∀ {t}, Step.const Lang.addr t ∉ ([.gpr false a, .gpr false b, .name (firstWord (body raw')), .const (numbers (firstWord (body raw'))) c] : List Step) := by
              intro t hin
              simp only [List.mem_cons, List.not_mem_nil, or_false, reduceCtorEq, false_or, Step.const.injEq] at hin
              exact (numbers_addr _).1 hin.1.symm
            refine ⟨?_, ?_, ?_⟩
            · rintro ⟨_, st', t, hi, hh⟩
              rw [inst hi] at hh
              rcases hh with ⟨h1, _⟩ | ⟨h1, _⟩
              · exact noaddr h1
              · simp at h1
            · rintro ⟨st', t, hi, hh⟩
              rw [inst hi] at hh
              rcases hh with ⟨q1, q2, q3⟩ | ⟨q1, _⟩ | ⟨q1, _⟩
              · apply a2
                refine ⟨st, t, ⟨raw, h1, hc.code, e1, e2⟩, .inl ⟨?_, q2, fun ⟨x1, d, x2⟩ => q3 ⟨hA.closed.1 x1, d, hA.chosen x2⟩⟩⟩
                rw [hp] at e1
                cases e1
                rcases q1 with ⟨r', q1⟩ | ⟨b', s, o, q1, _⟩
                · simp only [List.mem_cons, List.not_mem_nil, or_false, reduceCtorEq, false_or, Step.const.injEq] at q1
                  exact .inl ⟨numbers (firstWord (body raw)), by rw [q1.2]; simp⟩
                · simp at q1
              · simp at q1
              · exact noaddr q1
            · rintro ⟨raw2, q1, q2, q3⟩
              have q1' : ls'[k]? = some raw2 := q1
              rw [hk] at q1'
              cases q1'
              obtain ⟨_, z2, _, z4, _⟩ := logical_plan3 _ hm
              rw [k2] at q3
              rcases q3 with q3 | ⟨_, q3, _⟩
              · exact z2 q3
              · exact z4 q3
          · rw [k3, ho] at ho'; exact absurd rfl ho'
        · rw [hp] at e1; cases e1
  · intro k ws hg
    induction hg with
    | none => exact .none
    | inst k raw w out _ h1 h2 h3 ih =>
      have h1' : ls[k]? = some raw := h1
      have hlt : k < ls'.length := by rw [← h.1]; exact (List.getElem?_eq_some_iff.1 h1').1
      have hk : ls'[k]? = some ls'[k] := List.getElem?_eq_getElem hlt
      have hw := hA.lineWords h3
      rcases h.2 k _ _ h1' hk with e | hp
      · exact .inst k _ _ _ ih hk (e ▸ h2) (e ▸ hw)
      · obtain ⟨_, op, op', r, hc⟩ := id hp
        exact .inst k _ _ _ ih hk (cased_parts hc).1 (pair_words hp hw (hT k _ hk))
    | other k raw out _ h1 h2 ih =>
      obtain ⟨raw', h1', h2'⟩ := hA.kinds h1
      exact .other k raw' out ih h1' (by rw [h2']; exact h2)

/-- a file in between: the other instructions changed, the logical ones not -/
theorem split_file {ls ls' : List Str} (h : CasedFile ls ls') : ∃ mid, Case.SameFile ls mid ∧ Pairs mid ls' ∧ (∀ l ∈ mid, l ∈ ls ∨ l ∈ ls') := by
  induction h with
  | nil => exact ⟨[], .nil, ⟨rfl, by simp⟩, by simp⟩
  | same raw ls ls' _ ih =>
    obtain ⟨mid, h1, h2, h3⟩ := ih
    refine ⟨raw :: mid, .cons _ _ _ _ (.inl rfl) h1, ⟨by simp [h2.1], ?_⟩, ?_⟩
    · intro k a b ha hb
      cases k with
      | zero => simp at ha hb; exact .inl (ha ▸ hb)
      | succ k => exact h2.2 k a b (by simpa using ha) (by simpa using hb)
    · intro l hl
      rcases List.mem_cons.1 hl with rfl | hl
      · simp
      · rcases h3 l hl with h | h <;> simp [h]
  | cased raw raw' op op' r ls ls' hc _ ih =>
    obtain ⟨mid, h1, h2, h3⟩ := ih
    by_cases hm : mnemonic (body raw) ∈ logicalNames
    · refine ⟨raw :: mid, .cons _ _ _ _ (.inl rfl) h1, ⟨by simp [h2.1], ?_⟩, ?_⟩
      · intro k a b ha hb
        cases k with
        | zero => simp at ha hb; subst ha; subst hb; exact .inr ⟨hm, op, op', r, hc⟩
        | succ k => exact h2.2 k a b (by simpa using ha) (by simpa using hb)
      · intro l hl
        rcases List.mem_cons.1 hl with rfl | hl
        · simp
        · rcases h3 l hl with h | h <;> simp [h]
    · have hn : op.map asciiLower ∉ logicalNames := by
        intro hx
        apply hm
        obtain ⟨_, _, _, k4, _, k6, _⟩ := cased_parts hc
        unfold mnemonic
        rw [k4, Unicode.lower_ascii _ k6]
        have : ∀ m ∈ logicalNames, trim m = m := by decide +kernel
        rw [this _ hx]
        exact hx
      refine ⟨raw' :: mid, .cons _ _ _ _ (.inr ⟨op, op', r, ⟨hc.code, hc.text, hc.text', hc.sep, hc.chars, hc.case, fun h => absurd h hn⟩⟩) h1, ⟨by simp [h2.1], ?_⟩, ?_⟩
      · intro k a b ha hb
        cases k with
        | zero => simp at ha hb; exact .inl (ha ▸ hb)
        | succ k => exact h2.2 k a b (by simpa using ha) (by simpa using hb)
      · intro l hl
        rcases List.mem_cons.1 hl with rfl | hl
        · simp
        · rcases h3 l hl with h | h <;> simp [h]

theorem accepted_logical {rt : Rt} {m : Mipsasm} {ls : List Str} (a1 : Lang.Accepted ⟨rt.ovf, m.base, m.syms, ls⟩)
    (k : Nat) (raw c : Str) (hk : ls[k]? = some raw) (hc : kind raw = .code) (hm : mnemonic (body raw) ∈ logicalNames)
    (hl : (operands (body raw)).getLast? = some c) :
    Lang.RefersTo ⟨rt.ovf, m.syms, ls, k⟩ c ∨ ∃ v, Lang.Value ⟨rt.ovf, m.syms, ls, k⟩ (numbers (firstWord (body raw))) c v := by
  have := a1.1 k raw hk
  unfold Lang.LineTaken at this
  rw [hc] at this
  obtain ⟨st, q1, q2⟩ := this
  rcases logical_plan hm with ⟨a, b, d, ho, hp⟩ | ⟨_, hp⟩
  · rw [hp] at q1
    cases q1
    rw [ho] at hl
    have : d = c := by simpa using hl
    subst this
    exact q2 (.const (numbers (firstWord (body raw))) d) (by simp)
  · rw [hp] at q1; cases q1

end CaseX

open CaseX in
/-- **C21**, exactly.  If the letter case of mnemonics is changed in a program that is accepted, the program is accepted with the same code exactly if
the constant of every `andi`, `ori` and `xori` is a label, half of an address, or a number that the mnemonic takes as it is spelled now: an unsigned
one in lower case, a signed one otherwise. -/
theorem C21_exact [Unicode] (rt : Rt) (m : Mipsasm) (text text' : Str) (h : CasedFile (lines text) (lines text')) (ws : List Word)
    (ha : (assemble rt m text).words = some ws) :
    (assemble rt m text').words = some ws ↔
      ∀ (k : Nat) raw c, (lines text')[k]? = some raw → kind raw = .code → mnemonic (body raw) ∈ logicalNames →
        (operands (body raw)).getLast? = some c →
        Lang.RefersTo ⟨rt.ovf, m.syms, lines text', k⟩ c ∨ ∃ v, Lang.Value ⟨rt.ovf, m.syms, lines text', k⟩ (numbers (firstWord (body raw))) c v := by
  obtain ⟨mid, h1, h2, h3⟩ := split_file h
  have hmid : lines (textOf mid) = mid := lines_textOf mid fun l hl => by
    rcases h3 l hl with h | h
    · exact lines_noNl text l h
    · exact lines_noNl text' l h
  have e := (C21_case_partial rt m text (textOf mid) (hmid.symm ▸ h1)).2
  rw [ha] at e
  have acc := (C57_program rt m (textOf mid) ws).1 e.symm
  rw [hmid] at acc
  rw [C57_program]
  constructor
  · rintro ⟨a1, _⟩
    exact accepted_logical a1
  · intro hx
    have ht : ∀ (k : Nat) raw raw', mid[k]? = some raw → (lines text')[k]? = some raw' → Pair raw raw' → Lang.LineTaken ⟨rt.ovf, m.syms, lines text', k⟩ raw' := by
      rintro k raw raw' hk hk' ⟨hm, op, op', r, hc⟩
      obtain ⟨k1, k2, k3, k4, k5, k6, k7⟩ := cased_parts hc
      have taken := (alike (rt := rt) (m := m) h2).lineTaken.1 (acc.1.1 k raw hk)
      unfold Lang.LineTaken at taken ⊢
      rw [hc.code] at taken
      rw [k1]
      obtain ⟨st, e1, e2⟩ := taken
      rcases logical_plan hm with ⟨a, b, c, ho, hp⟩ | ⟨_, hp⟩
      · rcases logical_plan (s := body raw') (k2 ▸ hm) with ⟨a', b', c', ho', hp'⟩ | ⟨ho', _⟩
        · have ho2 := ho'
          rw [k3, ho] at ho'
          cases ho'
          refine ⟨_, hp', fun s hs => ?_⟩
          rw [hp] at e1
          cases e1
          have hcase := hx k raw' c hk' k1 (k2 ▸ hm) (by rw [ho2]; rfl)
          simp only [List.mem_cons, List.not_mem_nil, or_false] at hs
          rcases hs with rfl | rfl | rfl | rfl
          · exact e2 _ (by simp)
          · exact e2 _ (by simp)
          · have n1 : Lang.Reads _ (.name (firstWord (body raw))) := e2 (.name (firstWord (body raw))) (by simp)
            refine ⟨?_, by rw [k5]; exact k7⟩
            rw [k5]
            exact noWs_trim fun c hcm => by
              have hlow : asciiLower c ∈ op.map asciiLower := by rw [hc.case]; exact List.mem_map_of_mem hcm
              obtain ⟨d, hd, hde⟩ := List.mem_map.1 hlow
              exact noWs_case (hc.chars d hd) hde
          · exact hcase
        · rw [k3, ho] at ho'; exact absurd rfl ho'
      · rw [hp] at e1; cases e1
    obtain ⟨q1, q2⟩ := pairs_words h2 acc.1 ht
    refine ⟨q1, ?_⟩
    have := q2 _ _ acc.2
    rw [h2.1] at this
    exact this

open CaseX in
/-- **C21**: if a program is accepted in two spellings of its mnemonics, it has the same code in both, whatever the operands. -/
theorem C21_both [Unicode] (rt : Rt) (m : Mipsasm) (text text' : Str) (h : CasedFile (lines text) (lines text')) (ws ws' : List Word)
    (ha : (assemble rt m text).words = some ws) (ha' : (assemble rt m text').words = some ws') : ws = ws' := by
  have := (C21_exact rt m text text' h ws ha).2 (accepted_logical ((C57_program rt m text' ws').1 ha').1)
  rw [ha'] at this
  exact (Option.some.inj this).symm

/-! ### The hypotheses are satisfiable -/

def lowText : Str := c!"a:\naddu $a0, $a1, $a2\nori $a0, $a1, %lo(0x1234ffff)\nxori $t0, $t1, 0xffff"
def capText : Str := c!"a:\nADDU $a0, $a1, $a2\nORI $a0, $a1, %lo(0x1234ffff)\nxori $t0, $t1, 0xffff"

example : CasedFile (lines lowText) (lines capText) ∧ (@assemble asciiUnicode (idRt true) Mipsasm.new lowText).words = some [0x00a62021#32, 0x34a4ffff#32, 0x3928ffff#32] ∧
    (@assemble asciiUnicode (idRt true) Mipsasm.new capText).words = some [0x00a62021#32, 0x34a4ffff#32, 0x3928ffff#32] := by
  refine ⟨?_, by decide +kernel, by decide +kernel⟩
  rw [show lines lowText = [c!"a:", c!"addu $a0, $a1, $a2", c!"ori $a0, $a1, %lo(0x1234ffff)", c!"xori $t0, $t1, 0xffff"] by decide +kernel,
    show lines capText = [c!"a:", c!"ADDU $a0, $a1, $a2", c!"ORI $a0, $a1, %lo(0x1234ffff)", c!"xori $t0, $t1, 0xffff"] by decide +kernel]
  refine .same _ _ _ (.cased _ _ c!"addu" c!"ADDU" c!" $a0, $a1, $a2" _ _ ?_ (.cased _ _ c!"ori" c!"ORI" c!" $a0, $a1, %lo(0x1234ffff)" _ _ ?_ (.same _ _ _ .nil)))
  · exact ⟨by decide +kernel, by decide +kernel, by decide +kernel, .inr rfl, by decide +kernel, by decide +kernel⟩
  · exact ⟨by decide +kernel, by decide +kernel, by decide +kernel, .inr rfl, by decide +kernel, by decide +kernel⟩

end Mips
