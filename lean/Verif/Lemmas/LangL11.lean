/- How the references of a taken instruction are resolved (for C56). -/
import Verif.Lemmas.LangL10
import Verif.Props.Errors

namespace Mips
open Source Syntax Branch Operands
open Mips.Isa hiding conds
open Mips.Names hiding none

section
variable [Unicode] {p : Lang.Place} {x : Ctx}

theorem local_refers {t : Str} (h : isLocal (trim t) = true) : Lang.RefersTo p t := .inl h

theorem imm_kind (hx : Sees p x) {ty : IntTy} {t : Str} {i : Immediate} (h : parseImm x ty t = .ok i) :
    (isLocal (trim t) = true ∧ i = .localLabel (trim t)) ∨
    (isLocal (trim t) = false ∧ hasLabel x.labels (trim t) = true ∧ i = .label (trim t)) ∨
    (isLocal (trim t) = false ∧ ¬ Lang.RefersTo p t ∧ (∀ l, i ≠ .localLabel l) ∧ ∀ l, i ≠ .label l) := by
  by_cases h1 : isLocal (trim t) = true
  · refine .inl ⟨h1, ?_⟩
    unfold parseImm at h
    dsimp only at h
    rw [if_pos (show startsWith c!"@@" (trim t) = true from h1)] at h
    cases h; rfl
  · have h1' : isLocal (trim t) = false := by simpa using h1
    by_cases h2 : hasLabel x.labels (trim t) = true
    · refine .inr (.inl ⟨h1', h2, ?_⟩)
      unfold parseImm at h
      dsimp only at h
      rw [if_neg (show ¬ startsWith c!"@@" (trim t) = true from h1), if_pos h2] at h
      cases h; rfl
    · have hr : ¬ Lang.RefersTo p t := by
        rw [hx.refers]; rintro (h | h)
        · exact h1 h
        · exact h2 h
      refine .inr (.inr ⟨h1', hr, ?_⟩)
      unfold parseImm at h
      dsimp only at h
      rw [if_neg (show ¬ startsWith c!"@@" (trim t) = true from h1), if_neg h2] at h
      split at h
      · cases ht : parseTarget x (removeParens ‹_›) with
        | ok a =>
          rw [ht] at h
          simp only [Res.bind] at h
          repeat' split at h
          all_goals first | (cases h; done) | (cases h; exact ⟨nofun, nofun⟩)
        | err e => rw [ht] at h; cases h
        | panic => rw [ht] at h; cases h
      · unfold parseNum at h
        have key : ∀ v, (∀ l, Immediate.new ty v ≠ .localLabel l) ∧ ∀ l, Immediate.new ty v ≠ .label l := by
          intro v; cases ty <;> exact ⟨nofun, nofun⟩
        simp only at h
        repeat' split at h
        all_goals first | (cases h; done) | (cases h; exact key _)

theorem imm_place (hx : Sees p x) {t : Str} {i : Immediate} (hn : '\n' ∉ t) (h : parseImm x .u32 t = .ok i) (hr : ¬ Lang.RefersTo p t) :
    (∃ v, Lang.Number p t v ∧ i = .int (BitVec.ofNat 32 v)) ∨
    (∃ m v, Lang.Group t m ∧ Lang.Value p Lang.addr t v ∧ i = .short (BitVec.ofInt 16 v)) := by
  obtain ⟨v, hv, hh⟩ := parse_value hx hn hr h
  have hr' := hr
  rw [hx.refers] at hr'
  simp only [not_or, Bool.not_eq_true] at hr'
  unfold parseImm at h
  dsimp only at h
  rw [hr'.1, hr'.2] at h
  simp only [Bool.false_eq_true, if_false] at h
  by_cases hg : ∃ m, Lang.Group t m
  · obtain ⟨m, hg⟩ := hg
    refine .inr ⟨m, v, hg, hv, ?_⟩
    rcases hh with ⟨rfl, _⟩ | ⟨rfl, _⟩
    · rw [group_find (nl_trim hn) hg] at h
      cases ht : parseTarget x (removeParens ('(' :: (m ++ [')']))) with
      | ok a =>
        simp only [ht, Res.bind] at h
        repeat' split at h
        all_goals cases h
      | err e => simp only [ht] at h; cases h
      | panic => simp only [ht] at h; cases h
    · rfl
  · refine .inl ?_
    cases hv with
    | num v hng hnum h1 h2 =>
      have h1' : 0 ≤ v := h1
      have h2' : v ≤ 4294967295 := h2
      refine ⟨v.toNat, ⟨hr, hng, ?_, by omega⟩, ?_⟩
      · rw [Int.toNat_of_nonneg h1']; exact hnum
      · rw [group_none hng] at h
        simp only at h
        rw [parseNum_eq, numeral_read (ty := .u32).2 ⟨hnum, h1, h2⟩] at h
        simp only [Res.ok.injEq] at h
        rw [← h]
        show Immediate.int (BitVec.ofInt 32 v) = _
        congr 1
        apply BitVec.eq_of_toNat_eq
        simp only [BitVec.toNat_ofInt, BitVec.toNat_ofNat]
        omega
    | hi m t a hg' => exact absurd ⟨m, hg'⟩ hg
    | lo m t a hg' => exact absurd ⟨m, hg'⟩ hg

theorem number_unique {t : Str} {v v' : Nat} (h : Lang.Number p t v) (h' : Lang.Number p t v') : v = v' := by
  obtain ⟨_, _, h1, h2⟩ := h
  obtain ⟨_, _, h1', h2'⟩ := h'
  have e1 := numeral_read (ty := .u32).2 ⟨h1, by show (0:Int) ≤ v; omega, by show (v : Int) ≤ 4294967295; omega⟩
  have e2 := numeral_read (ty := .u32).2 ⟨h1', by show (0:Int) ≤ v'; omega, by show (v' : Int) ≤ 4294967295; omega⟩
  rw [e1] at e2
  have := Option.some.inj e2
  omega

omit [Unicode] in
theorem has_unique {i : Immediate} {v v' : Int} (h : Has .u32 i v) (h' : Has .u32 i v') : v = v' := by
  rcases h with ⟨rfl, h1, h2⟩ | ⟨rfl, h1, h2⟩ <;> rcases h' with ⟨e, h3, h4⟩ | ⟨e, h3, h4⟩
  · simp only [Immediate.new, Immediate.int.injEq] at e
    have := congrArg BitVec.toNat e
    simp only [IntTy.min, IntTy.max] at h1 h2 h3 h4
    simp only [BitVec.toNat_ofInt] at this
    omega
  · cases e
  · cases e
  · simp only [Immediate.short.injEq] at e
    have := congrArg BitVec.toNat e
    simp only [BitVec.toNat_ofInt] at this
    omega

theorem opI_mn {w : Str} {o : ITypeOp} (h : ITypeOp.fromStr w = some o) : mnOf w = o.name.map asciiLower := by
  unfold ITypeOp.fromStr at h
  have h1 := List.find?_some h
  have h2 := List.mem_of_find?_eq_some h
  rw [mnOf_ascii (same_ascii h1 (names_ascii.1 o h2)), same_noWs h1 (names_tight.1 o h2)]
  unfold eqIgnoreCase at h1
  exact beq_iff_eq.1 h1

omit [Unicode] in
theorem cmp_names : ∀ o ∈ ITypeOp.all, (o.name.map asciiLower ∈ cmpBranchNames ↔ o ∈ cmpBranches) ∧
    (isBrCls (classify (o.name.map asciiLower)) = true → startsWith c!"b" o.name = true) := by decide +kernel

theorem opI_cmp {w : Str} {o : ITypeOp} (h : ITypeOp.fromStr w = some o) : (mnOf w ∈ cmpBranchNames ↔ o ∈ cmpBranches) ∧
    (isBrCls (classify (mnOf w)) = true → startsWith c!"b" o.name = true) := by
  have := cmp_names o (List.mem_of_find?_eq_some h)
  rw [opI_mn h]; exact this

end

section
variable [Unicode] {rt : Rt} {m : Mipsasm} {text : Str} {tr : List Outcome}

/-- a taken instruction, by what it refers to -/
inductive Shape [Unicode] (f : Lang.File) (labels : List (Str × Nat)) (k : Nat) (st : List Lang.Step) : Instruction → Prop
  | still (i : Instruction) : (∀ env s n ln, adjust1 env s n (ln, i) = some (i, [])) → (∀ t, Lang.Constant st t → isLocal (trim t) = false) →
      (∀ t, .target t ∈ st → ¬ Lang.LabelName f.syms (trim t)) → (∀ t v, .const Lang.addr t ∈ st → ¬ Lang.Number (f.place k) t v) →
      (∀ o rs r im b, i = .imm o rs r im b → ∀ t, .const Lang.addr t ∈ st → ∃ v, Lang.Distance f k t v ∧ im = .short (BitVec.ofInt 16 v)) → Shape f labels k st i
  | loc (o : ITypeOp) (rs r : Register) (t : Str) : isLocal (trim t) = true → (∀ t', Lang.Constant st t' ↔ t' = t) → (∀ t', .target t' ∉ st) →
      Shape f labels k st (.imm o rs r (.localLabel (trim t)) [])
  | lab (o : ITypeOp) (rs r : Register) (t : Str) : isLocal (trim t) = false → hasLabel labels (trim t) = true → Lang.RefersTo (f.place k) t →
      (∀ t', Lang.Constant st t' ↔ t' = t) → (∀ t', .target t' ∉ st) → Shape f labels k st (.imm o rs r (.label (trim t)) [])
  | num (o : ITypeOp) (rs r : Register) (t : Str) (v : Nat) : Lang.Number (f.place k) t v → startsWith c!"b" o.name = true →
      (∀ t', Lang.Constant st t' ↔ t' = t) → (∀ t', .const Lang.addr t' ∈ st ↔ t' = t) → (∀ t', .target t' ∉ st) →
      Shape f labels k st (.imm o rs r (.int (BitVec.ofNat 32 v)) [])
  | jmp (o : JTypeOp) (t : Str) : Lang.LabelName f.syms (trim t) → (∀ t', .target t' ∈ st ↔ t' = t) → (∀ t', ¬ Lang.Constant st t') →
      Shape f labels k st (.jump o (.label (trim t)) [])

omit [Unicode] in
theorem const_constant {r : Lang.Range} {t : Str} {st : List Lang.Step} (h : Lang.Step.const r t ∈ st) : Lang.Constant st t := .inl ⟨r, h⟩

theorem shape_of (hT : IsTrace (envOf rt m text) (lines text) tr) {k : Nat} {ws : List ParserWarning} {i : Instruction}
    (hk : tr[k]? = some (.inst ws i)) :
    ∃ st raw, Lang.Instr (fileOf rt m text) k st ∧ (lines text)[k]? = some raw ∧ kind raw = .code ∧
      Shape (fileOf rt m text) (outLabels 0 (tr.take k)) k st i ∧ ((∃ w, i = .bytes w) ↔ classify (mnemonic (body raw)) = .word) ∧
      ∀ o rs r im b, i = .imm o rs r im b → ITypeOp.fromStr (firstWord (body raw)) = some o := by
  obtain ⟨st, raw, h1, h2, h3, hP, hC, hA⟩ := instr_of hT hk
  refine ⟨st, raw, h1, h2, h3, ?_, ?_, ?_⟩
  · have hlt : k < (lines text).length := (List.getElem?_eq_some_iff.1 h2).1
    have hS : Sees ((fileOf rt m text).place k) (ctxAt (envOf rt m text) (tr.take k)) := sees_at (isTrace_take hT k) (Nat.le_of_lt hlt)
    have noT : targets st = [] → ∀ t, Lang.Step.target t ∉ st := by
      intro h t ht; rw [← mem_targets, h] at ht; cases ht
    have noC : consts st = [] → ∀ t, ¬ Lang.Constant st t := by
      intro h t ht; rw [← hC, h] at ht; cases ht
    have oneC : ∀ {t}, consts st = [t] → ∀ t', Lang.Constant st t' ↔ t' = t := by
      intro t h t'; rw [← hC, h, List.mem_singleton]
    have noP : places st = [] → ∀ t, Lang.Step.const Lang.addr t ∉ st := by
      intro h t ht; rw [← mem_places, h] at ht; cases ht
    have oneP : ∀ {t}, places st = [t] → ∀ t', Lang.Step.const Lang.addr t' ∈ st ↔ t' = t := by
      intro t h t'; rw [← mem_places, h, List.mem_singleton]
    cases i with
    | reg o rs r rd sa b =>
      obtain ⟨c1, c2, c3, _⟩ := hP
      exact .still _ (fun _ _ _ _ => rfl) (fun t ht => absurd ht (noC c1 t)) (fun t ht => absurd ht (noT c2 t)) (fun t v ht => absurd ht (noP c3 t)) (fun _ _ _ _ _ e => by cases e)
    | bytes w =>
      obtain ⟨c1, c2, c3, _⟩ := hP
      exact .still _ (fun _ _ _ _ => rfl) (fun t ht => absurd ht (noC c1 t)) (fun t ht => absurd ht (noT c2 t)) (fun t v ht => absurd ht (noP c3 t)) (fun _ _ _ _ _ e => by cases e)
    | jump o q b =>
      obtain ⟨c1, c3, _, rfl, t, ht, hq⟩ := hP
      have hmem : ∀ t', Lang.Step.target t' ∈ st ↔ t' = t := by intro t'; rw [← mem_targets, ht, List.mem_singleton]
      cases q with
      | label l =>
        obtain ⟨rfl, hl⟩ := (target_label hS).1 hq
        exact .jmp o t hl hmem (noC c1)
      | address a =>
        refine .still _ (fun _ _ _ _ => rfl) (fun t ht => absurd ht (noC c1 t)) ?_ (fun t v ht => absurd ht (noP c3 t)) (fun _ _ _ _ _ e => by cases e)
        intro t' ht' hl
        obtain rfl := (hmem t').1 ht'
        have := (target_label hS).2 ⟨rfl, hl⟩
        rw [hq] at this; cases this
    | imm o rs r im b =>
      obtain ⟨rfl, ho, _, hcT, hc⟩ := hP
      rcases hc with ⟨c1, c2, c3⟩ | ⟨t, ty, c1, c2, c3, c4⟩ | ⟨t, c1, c2, c3, c4⟩
      · refine .still _ ?_ (fun t ht => absurd ht (noC c1 t)) (fun t ht => absurd ht (noT hcT t)) (fun t v ht => absurd ht (noP c2 t))
          (fun _ _ _ _ _ e t ht => absurd ht (noP c2 t))
        intro env s n ln
        cases im <;> first | rfl | exact c3.elim
      · rcases imm_kind hS c4 with ⟨l1, rfl⟩ | ⟨l1, l2, rfl⟩ | ⟨l1, l2, l3, l4⟩
        · exact .loc o rs r t l1 (oneC c1) (noT hcT)
        · exact .lab o rs r t l1 l2 ((hS.refers t).2 (.inr l2)) (oneC c1) (noT hcT)
        · refine .still _ ?_ ?_ (fun t ht => absurd ht (noT hcT t)) (fun t v ht => absurd ht (noP c2 t)) (fun _ _ _ _ _ e t ht => absurd ht (noP c2 t))
          · intro env s n ln
            cases im with
            | localLabel l => exact absurd rfl (l3 l)
            | label l => exact absurd rfl (l4 l)
            | int w => exact c3.elim
            | _ => rfl
          · intro t' ht'; rw [oneC c1] at ht'; subst ht'; exact l1
      · rcases imm_kind hS c4 with ⟨l1, rfl⟩ | ⟨l1, l2, rfl⟩ | ⟨l1, l2, l3, l4⟩
        · exact .loc o rs r t l1 (oneC c1) (noT hcT)
        · exact .lab o rs r t l1 l2 ((hS.refers t).2 (.inr l2)) (oneC c1) (noT hcT)
        · have hat := hA t (.inl (by rw [c1]; simp))
          rcases imm_place hS hat c4 l2 with ⟨v, hv, rfl⟩ | ⟨g, v, hg, hv, rfl⟩
          · refine .num o rs r t v hv ?_ (oneC c1) (oneP c2) (noT hcT)
            rw [mnemonic_of] at c3
            exact (opI_cmp ho).2 c3
          · refine .still _ (fun _ _ _ _ => rfl) ?_ (fun t ht => absurd ht (noT hcT t)) ?_ ?_
            · intro t' ht'; rw [oneC c1] at ht'; subst ht'; exact l1
            · intro t' v' ht' hv'; rw [oneP c2] at ht'; subst ht'; exact hv'.2.1 g hg
            · intro _ _ _ _ _ e t' ht'; rw [oneP c2] at ht'; subst ht'
              cases e
              exact ⟨v, .half g v l2 hg hv, rfl⟩
  · cases i with
    | bytes w => exact ⟨fun _ => hP.2.2.2, fun _ => ⟨w, rfl⟩⟩
    | reg o rs r rd sa b => exact ⟨(fun ⟨_, e⟩ => by cases e), fun e => absurd e hP.2.2.2⟩
    | imm o rs r im b => exact ⟨(fun ⟨_, e⟩ => by cases e), fun e => absurd e hP.2.2.1⟩
    | jump o t b => exact ⟨(fun ⟨_, e⟩ => by cases e), fun e => absurd e hP.2.2.1⟩
  · intro o rs r im b e
    subst e
    exact hP.2.1

end
end Mips
