/- The verdict of label resolution and encoding (for C56). -/
import Verif.Lemmas.LangL11
import Verif.Props.Tame

namespace Mips
open Source Syntax Branch Operands
open Mips.Isa hiding conds
open Mips.Names hiding none

/-- line `k`, read in the steps `st`, overflows -/
def OvfAt [Unicode] (f : Lang.File) (k : Nat) (st : List Lang.Step) : Prop :=
  ∃ t, (.const Lang.addr t ∈ st ∧ (∃ v, Lang.Number (f.place k) t v) ∧ ∃ n, Lang.Counted f f.ls.length n ∧ Lang.NoRoom f n) ∨
     (.target t ∈ st ∧ Lang.LabelName f.syms (trim t) ∧ ∃ d n, Lang.FirstDef f.ls d (trim t) ∧ Lang.Counted f d n ∧ Lang.NoRoom f n)

/-- a place of line `k` cannot be found -/
def BadAt [Unicode] (f : Lang.File) (k : Nat) (st : List Lang.Step) : Prop :=
  ∃ t, (Lang.Constant st t ∧ isLocal (trim t) = true ∧ ¬ (HasClosedScope f.ls ∧ ∃ d, Chosen f.ls k d (trim t))) ∨
     (.target t ∈ st ∧ Lang.LabelName f.syms (trim t) ∧ ∀ d, ¬ Lang.FirstDef f.ls d (trim t)) ∨
     (.const Lang.addr t ∈ st ∧ ∃ v, Lang.Number (f.place k) t v ∧ (v < f.base.toNat ∨ (f.base.toNat + 4 * codeCount f.ls) % 2 ^ 32 < v))

theorem chk_cases (ovf : Bool) (base : Word) (n : Nat) :
    ((ovf = true ∧ 2 ^ 32 ≤ base.toNat + 4 * (n % 2 ^ 32)) ∧ ((chkMul ovf (BitVec.ofNat 32 n) 4#32).bind fun a => chkAdd ovf base a) = none) ∨
    (¬ (ovf = true ∧ 2 ^ 32 ≤ base.toNat + 4 * (n % 2 ^ 32)) ∧
      ∃ a t, chkMul ovf (BitVec.ofNat 32 n) 4#32 = some a ∧ chkAdd ovf base a = some t ∧ t.toNat = (base.toNat + 4 * n) % 2 ^ 32) := by
  have h4 : (4#32 : BitVec 32).toNat = 4 := rfl
  have hm : (BitVec.ofNat 32 n * 4#32).toNat = (4 * n) % 2 ^ 32 := by
    rw [BitVec.toNat_mul, BitVec.toNat_ofNat, h4]; omega
  unfold chkMul
  rw [BitVec.toNat_ofNat, h4]
  by_cases h1 : ovf = true ∧ 2 ^ 32 ≤ n % 2 ^ 32 * 4
  · rw [if_pos h1]
    refine .inl ⟨⟨h1.1, by omega⟩, rfl⟩
  · rw [if_neg h1]
    simp only [Option.bind_some, chkAdd]
    by_cases h2 : ovf = true ∧ 2 ^ 32 ≤ base.toNat + (BitVec.ofNat 32 n * 4#32).toNat
    · rw [if_pos h2]
      refine .inl ⟨⟨h2.1, ?_⟩, rfl⟩
      rw [hm] at h2; omega
    · refine .inr ⟨fun h => ?_, _, _, rfl, if_neg h2, ?_⟩
      · rcases h with ⟨ho, h⟩
        apply h2
        rw [hm]
        refine ⟨ho, ?_⟩
        have : ¬ 2 ^ 32 ≤ n % 2 ^ 32 * 4 := fun h => h1 ⟨ho, h⟩
        omega
      · rw [BitVec.toNat_add, hm]; omega

section
variable [Unicode] {rt : Rt} {m : Mipsasm} {text : Str} {tr : List Outcome}

theorem line_of (hT : IsTrace (envOf rt m text) (lines text) tr) {k : Nat} (hk : k < tr.length) :
    ∃ raw, (envOf rt m text).input[k + 1 - 1]? = some raw ∧ lineAt (envOf rt m text) (k + 1) = some ⟨k + 1, raw⟩ := by
  have hkl : k < (lines text).length := by rw [← hT.1]; exact hk
  have : (envOf rt m text).input[k + 1 - 1]? = some (lines text)[k] := List.getElem?_eq_getElem hkl
  refine ⟨_, this, ?_⟩
  unfold lineAt
  rw [this]; rfl

theorem last_line (hT : IsTrace (envOf rt m text) (lines text) tr) {k : Nat} (hk : k < tr.length) :
    ∃ l, lineAt (envOf rt m text) (canonF tr).lineNum = some l := by
  unfold lineAt
  have hlt : tr.length - 1 < (lines text).length := by rw [← hT.1]; omega
  have : (envOf rt m text).input[tr.length - 1]? = some (lines text)[tr.length - 1] := List.getElem?_eq_getElem hlt
  show ∃ l, ((envOf rt m text).input[tr.length - 1]?).map _ = some l
  rw [this]; exact ⟨_, rfl⟩

/-- whether the addresses overflow -/
theorem adjust_none_iff (hT : IsTrace (envOf rt m text) (lines text) tr) {k : Nat} {ws : List ParserWarning} {i : Instruction}
    (hk : tr[k]? = some (.inst ws i)) {st : List Lang.Step} (hS : Shape (fileOf rt m text) (outLabels 0 (tr.take k)) k st i) (n : Nat) :
    adjust1 (envOf rt m text) (canonF tr) n (k + 1, i) = none ↔ rt.ovf = true ∧ OvfAt (fileOf rt m text) k st := by
  have hkt : k < tr.length := (List.getElem?_eq_some_iff.1 hk).1
  obtain ⟨raw, hr1, hr2⟩ := line_of hT hkt
  obtain ⟨ll, hll⟩ := last_line hT hkt
  have hcnt : Lang.Counted (fileOf rt m text) (lines text).length (outInsts 0 tr).length := by
    have := counted_of (rt := rt) (m := m) hT _ (Nat.le_refl _)
    rwa [List.take_of_length_le (by rw [hT.1]; exact Nat.le_refl _)] at this
  have hcntd : ∀ d l, Lang.FirstDef (lines text) d l → Lang.Counted (fileOf rt m text) d (outInsts 0 (tr.take d)).length := by
    intro d l hd
    obtain ⟨raw, h, _⟩ := hd.1
    exact counted_of (rt := rt) (m := m) hT d (Nat.le_of_lt (List.getElem?_eq_some_iff.1 h).1)
  cases hS with
  | still _ h1 h2 h3 h4 h5 =>
    rw [h1]
    simp only [reduceCtorEq, false_iff]
    rintro ⟨_, t, ⟨c1, ⟨v, c2⟩, _⟩ | ⟨c1, c2, _⟩⟩
    · exact h4 t v c1 c2
    · exact h3 t c1 c2
  | loc o rs r t h1 h2 h3 =>
    constructor
    · intro h
      exfalso
      unfold adjust1 at h
      dsimp only at h
      rw [hr2] at h
      split at h
      · cases h
      · obtain ⟨q, hq⟩ := findLocal_some (labels := (canonF tr).labels) (n := (canonF tr).insts.length) (i := n)
          (l := (canonF tr).dropped.filter fun d => d.1 == trim t) (fun e he => by
            have he := (List.mem_filter.1 he).1
            have he' : e ∈ finalLocs tr := he
            unfold finalLocs at he'
            split at he'
            · cases he'
            · exact (locs_scope tr).1 e he')
        simp only [hq, opt_bind, Option.bind_some] at h
        split at h <;> cases h
    · rintro ⟨_, t', ⟨c1, ⟨v, c2⟩, _⟩ | ⟨c1, c2, _⟩⟩
      · obtain rfl := (h2 t').1 (const_constant c1)
        exact absurd (local_refers h1) c2.1
      · exact absurd c1 (h3 t')
  | lab o rs r t h1 hl hr h2 h3 =>
    constructor
    · intro h
      exfalso
      unfold adjust1 at h
      dsimp only at h
      have : ∃ a, (canonF tr).labels.lookup (trim t) = some a := by
        simp only [hasLabel, List.any_eq_true, beq_iff_eq] at hl
        obtain ⟨⟨a, b⟩, he, hab⟩ := hl
        simp only at hab; subst hab
        obtain ⟨b', hb⟩ := outLabels_take tr k
        show ∃ a', (outLabels 0 tr).lookup (trim t) = some a'
        rw [hb]
        exact lookup_isSome_of_mem (List.mem_append_left _ he)
      obtain ⟨a, ha⟩ := this
      rw [ha] at h; cases h
    · rintro ⟨_, t', ⟨c1, ⟨v, c2⟩, _⟩ | ⟨c1, c2, _⟩⟩
      · obtain rfl := (h2 t').1 (const_constant c1)
        exact absurd hr c2.1
      · exact absurd c1 (h3 t')
  | num o rs r t v hv hb h2 h2' h3 =>
    unfold adjust1
    simp only [hb, Bool.not_true, Bool.false_eq_true, if_false]
    rcases chk_cases rt.ovf m.base (outInsts 0 tr).length with ⟨c, e⟩ | ⟨c, a, q, e1, e2, _⟩
    · have : ((chkMul (envOf rt m text).rt.ovf (BitVec.ofNat 32 (canonF tr).insts.length) 4#32).bind fun a => chkAdd (envOf rt m text).rt.ovf (envOf rt m text).base a) = none := e
      constructor
      · intro _
        exact ⟨c.1, t, .inl ⟨(h2' t).2 rfl, ⟨v, hv⟩, _, hcnt, c.2⟩⟩
      · intro _
        cases h1 : chkMul (envOf rt m text).rt.ovf (BitVec.ofNat 32 (canonF tr).insts.length) 4#32 with
        | none => rfl
        | some a =>
          rw [h1] at this
          simp only [Option.bind_some] at this
          simp only [opt_bind, Option.bind_some, this, Option.bind_none]
    · have e1' : chkMul (envOf rt m text).rt.ovf (BitVec.ofNat 32 (canonF tr).insts.length) 4#32 = some a := e1
      have e2' : chkAdd (envOf rt m text).rt.ovf (envOf rt m text).base a = some q := e2
      simp only [e1', opt_bind, Option.bind_some, e2', hll, hr1]
      constructor
      · intro h
        split at h <;> cases h
      · rintro ⟨ho, t', ⟨c1, _, n', cn, cr⟩ | ⟨c1, c2, _⟩⟩
        · rw [counted_unique cn hcnt] at cr
          exact absurd ⟨ho, cr⟩ c
        · exact absurd c1 (h3 t')
  | jmp o t hl h2 h3 =>
    unfold adjust1
    simp only
    cases hlk : (canonF tr).labels.lookup (trim t) with
    | none =>
      simp only [hr2, opt_bind, Option.bind_some, reduceCtorEq, false_iff]
      rintro ⟨ho, t', ⟨c1, _, n', cn, cr⟩ | ⟨c1, c2, d, n', cd, _⟩⟩
      · exact h3 t' (const_constant c1)
      · obtain rfl := (h2 t').1 c1
        exact (lookup_none_iff hT).1 hlk d cd
    | some a =>
      obtain ⟨d, hd, rfl⟩ := (lookup_iff hT).1 hlk
      simp only [opt_bind]
      rcases chk_cases rt.ovf m.base (outInsts 0 (tr.take d)).length with ⟨c, e⟩ | ⟨c, a, q, e1, e2, _⟩
      · have : ((chkMul (envOf rt m text).rt.ovf (BitVec.ofNat 32 (outInsts 0 (tr.take d)).length) 4#32).bind fun a => chkAdd (envOf rt m text).rt.ovf (envOf rt m text).base a) = none := e
        constructor
        · intro _
          exact ⟨c.1, t, .inr ⟨(h2 t).2 rfl, hl, d, _, hd, hcntd d _ hd, c.2⟩⟩
        · intro _
          cases h1 : chkMul (envOf rt m text).rt.ovf (BitVec.ofNat 32 (outInsts 0 (tr.take d)).length) 4#32 with
          | none => rfl
          | some a =>
            rw [h1] at this
            simp only [Option.bind_some] at this
            simp only [Option.bind_some, this, Option.bind_none]
      · have e1' : chkMul (envOf rt m text).rt.ovf (BitVec.ofNat 32 (outInsts 0 (tr.take d)).length) 4#32 = some a := e1
        have e2' : chkAdd (envOf rt m text).rt.ovf (envOf rt m text).base a = some q := e2
        simp only [e1', Option.bind_some, e2', reduceCtorEq, false_iff]
        rintro ⟨ho, t', ⟨c1, _, n', cn, cr⟩ | ⟨c1, c2, d', n', cd, cn, cr⟩⟩
        · exact h3 t' (const_constant c1)
        · obtain rfl := (h2 t').1 c1
          obtain rfl := firstDef_unique cd hd
          rw [counted_unique cn (hcntd _ _ hd)] at cr
          exact c ⟨ho, cr⟩

/-- whether the places are found -/
theorem adjust_err_iff (hT : IsTrace (envOf rt m text) (lines text) tr) (he : outErrors tr = []) {k : Nat} {ws : List ParserWarning} {i : Instruction}
    (hk : tr[k]? = some (.inst ws i)) {raw : Str} (hraw : (lines text)[k]? = some raw) (hkind : kind raw = .code)
    {st : List Lang.Step} (hS : Shape (fileOf rt m text) (outLabels 0 (tr.take k)) k st i) {n : Nat}
    (hn : (outInsts 0 (tr.take k)).length = n) {a : Instruction} {es : List ParserError}
    (hadj : adjust1 (envOf rt m text) (canonF tr) n (k + 1, i) = some (a, es)) : es ≠ [] ↔ BadAt (fileOf rt m text) k st := by
  have hkt : k < tr.length := (List.getElem?_eq_some_iff.1 hk).1
  obtain ⟨raw', hr1, hr2⟩ := line_of hT hkt
  obtain ⟨ll, hll⟩ := last_line hT hkt
  have hnc : n = codeCount ((lines text).take k) := by rw [← hn]; exact (trace_counts hT he k).2
  cases hS with
  | still _ h1 h2 h3 h4 h5 =>
    rw [h1] at hadj
    cases hadj
    simp only [ne_eq, not_true_eq_false, false_iff]
    rintro ⟨t, ⟨c1, c2, _⟩ | ⟨c1, c2, _⟩ | ⟨c1, v, c2, _⟩⟩
    · rw [h2 t c1] at c2; cases c2
    · exact h3 t c1 c2
    · exact h4 t v c1 c2
  | loc o rs r t h1 h2 h3 =>
    have only : BadAt (fileOf rt m text) k st ↔ ¬ (HasClosedScope (lines text) ∧ ∃ d, Chosen (lines text) k d (trim t)) := by
      constructor
      · rintro ⟨t', ⟨c1, c2, c3⟩ | ⟨c1, c2, _⟩ | ⟨c1, v, c2, _⟩⟩
        · obtain rfl := (h2 t').1 c1; exact c3
        · exact absurd c1 (h3 t')
        · obtain rfl := (h2 t').1 (const_constant c1)
          exact absurd (local_refers h1) c2.1
      · intro h; exact ⟨t, .inl ⟨(h2 t).2 rfl, h1, h⟩⟩
    rw [only]
    subst hnc
    rcases local_exact hT he hraw hkind h1 o rs r [] with ⟨d, c1, c2, e⟩ | ⟨c1, e⟩ | ⟨c1, c2, c3, e⟩
    · rw [e] at hadj; cases hadj
      simp only [ne_eq, not_true_eq_false, false_iff, Classical.not_not]
      exact ⟨c2, d, c1⟩
    · rw [e] at hadj; cases hadj
      simp only [ne_eq, reduceCtorEq, not_false_eq_true, true_iff]
      rintro ⟨c2, d, c3⟩
      rcases c1 with c1 | c1
      · exact c1 c2
      · exact c1 d c3.1
    · rw [e] at hadj; cases hadj
      simp only [ne_eq, reduceCtorEq, not_false_eq_true, true_iff]
      rintro ⟨_, d, c4⟩
      exact c3 d c4.1 c4.2.1
  | lab o rs r t h1 hl hr h2 h3 =>
    unfold adjust1 at hadj
    simp only [opt_bind, Option.bind_eq_some_iff, Option.some.injEq, Prod.mk.injEq] at hadj
    obtain ⟨_, _, _, rfl⟩ := hadj
    simp only [ne_eq, not_true_eq_false, false_iff]
    rintro ⟨t', ⟨c1, c2, _⟩ | ⟨c1, c2, _⟩ | ⟨c1, v, c2, _⟩⟩
    · obtain rfl := (h2 t').1 c1; rw [h1] at c2; cases c2
    · exact absurd c1 (h3 t')
    · obtain rfl := (h2 t').1 (const_constant c1)
      exact absurd hr c2.1
  | num o rs r t v hv hb h2 h2' h3 =>
    unfold adjust1 at hadj
    simp only [hb, Bool.not_true, Bool.false_eq_true, if_false] at hadj
    have hcc : (outInsts 0 tr).length = codeCount (lines text) := (trace_counts_all hT he).2
    rcases chk_cases rt.ovf m.base (outInsts 0 tr).length with ⟨c, e⟩ | ⟨c, a, q, e1, e2, hq⟩
    · exfalso
      have : ((chkMul (envOf rt m text).rt.ovf (BitVec.ofNat 32 (canonF tr).insts.length) 4#32).bind fun a => chkAdd (envOf rt m text).rt.ovf (envOf rt m text).base a) = none := e
      cases h1 : chkMul (envOf rt m text).rt.ovf (BitVec.ofNat 32 (canonF tr).insts.length) 4#32 with
      | none => rw [h1] at hadj; cases hadj
      | some a =>
        rw [h1] at this hadj
        simp only [Option.bind_some] at this
        simp only [opt_bind, Option.bind_some, this, Option.bind_none] at hadj
        cases hadj
    · have e1' : chkMul (envOf rt m text).rt.ovf (BitVec.ofNat 32 (canonF tr).insts.length) 4#32 = some a := e1
      have e2' : chkAdd (envOf rt m text).rt.ovf (envOf rt m text).base a = some q := e2
      simp only [e1', opt_bind, Option.bind_some, e2', hll, hr1] at hadj
      have hvn : (BitVec.ofNat 32 v).toNat = v := by
        have := hv.2.2.2
        rw [BitVec.toNat_ofNat]; omega
      rw [hvn, hq, hcc] at hadj
      have only : BadAt (fileOf rt m text) k st ↔ (v < m.base.toNat ∨ (m.base.toNat + 4 * codeCount (lines text)) % 2 ^ 32 < v) := by
        constructor
        · rintro ⟨t', ⟨c1, c2, c3⟩ | ⟨c1, c2, _⟩ | ⟨c1, v', c2, c3⟩⟩
          · obtain rfl := (h2 t').1 c1; exact absurd (local_refers c2) hv.1
          · exact absurd c1 (h3 t')
          · obtain rfl := (h2' t').1 c1
            obtain rfl := number_unique hv c2
            exact c3
        · intro h; exact ⟨t, .inr (.inr ⟨(h2' t).2 rfl, v, hv, h⟩)⟩
      rw [only]
      have hb' : (envOf rt m text).base = m.base := rfl
      rw [hb'] at hadj
      by_cases hc : v < m.base.toNat ∨ (m.base.toNat + 4 * codeCount (lines text)) % 2 ^ 32 < v
      · simp only [if_pos hc, Option.bind_some, Option.some.injEq, Prod.mk.injEq] at hadj
        rw [← hadj.2]
        simp only [ne_eq, reduceCtorEq, not_false_eq_true, true_iff]; exact hc
      · simp only [if_neg hc, Option.bind_some, Option.some.injEq, Prod.mk.injEq] at hadj
        rw [← hadj.2]
        simp only [ne_eq, not_true_eq_false, false_iff]; exact hc
  | jmp o t hl h2 h3 =>
    unfold adjust1 at hadj
    simp only at hadj
    have only : BadAt (fileOf rt m text) k st ↔ ∀ d, ¬ Lang.FirstDef (lines text) d (trim t) := by
      constructor
      · rintro ⟨t', ⟨c1, c2, c3⟩ | ⟨c1, c2, c3⟩ | ⟨c1, v', c2, c3⟩⟩
        · exact absurd c1 (h3 t')
        · obtain rfl := (h2 t').1 c1; exact c3
        · exact absurd (const_constant c1) (h3 t')
      · intro h; exact ⟨t, .inr (.inl ⟨(h2 t).2 rfl, hl, h⟩)⟩
    rw [only, ← lookup_none_iff hT]
    have hlab : (canonF tr).labels = outLabels 0 tr := rfl
    rw [hlab] at hadj
    cases hlk : (outLabels 0 tr).lookup (trim t) with
    | none =>
      rw [hlk] at hadj
      simp only [hr2, opt_bind, Option.bind_some, Option.some.injEq, Prod.mk.injEq] at hadj
      rw [← hadj.2]; simp
    | some a =>
      rw [hlk] at hadj
      simp only [opt_bind, Option.bind_eq_some_iff, Option.some.injEq, Prod.mk.injEq] at hadj
      obtain ⟨_, _, _, _, _, rfl⟩ := hadj
      simp

end
end Mips
