/- The outcomes of the lines of a file and the specification of files (for C56). -/
import Verif.Lemmas.LangL9
import Verif.Props.LocalX
import Verif.Props.Unused

namespace Mips
open Source Syntax Branch Operands
open Mips.Isa hiding conds
open Mips.Names hiding none

/-- the file that is assembled -/
def fileOf (rt : Rt) (m : Mipsasm) (text : Str) : Lang.File := ⟨rt.ovf, m.base, m.syms, lines text⟩

theorem mem_places {st : List Lang.Step} {t : Str} : t ∈ places st ↔ Lang.Step.const Lang.addr t ∈ st := by
  induction st with
  | nil => simp [places]
  | cons s st ih =>
    cases s <;> simp only [places, List.mem_cons, reduceCtorEq, false_or, ih]
    rename_i r u
    split
    · rename_i h; subst h
      simp only [List.mem_cons, Lang.Step.const.injEq, true_and, ih]
    · rename_i h
      simp only [ih, Lang.Step.const.injEq]
      constructor
      · exact .inr
      · rintro (⟨e, _⟩ | e)
        · exact absurd e.symm h
        · exact e

theorem mem_targets {st : List Lang.Step} {t : Str} : t ∈ targets st ↔ Lang.Step.target t ∈ st := by
  induction st with
  | nil => simp [targets]
  | cons s st ih => cases s <;> simp only [targets, List.mem_cons, reduceCtorEq, false_or, ih, Lang.Step.target.injEq]

theorem mem_consts {st : List Lang.Step} {t : Str} (h : ∀ b s, Lang.Step.offset b s ∈ st → '\n' ∉ s) : t ∈ consts st ↔ Lang.Constant st t := by
  unfold Lang.Constant
  induction st with
  | nil => simp [consts]
  | cons s st ih =>
    have ih := ih fun b s hs => h b s (List.mem_cons_of_mem _ hs)
    cases s <;> simp only [consts, List.mem_cons, reduceCtorEq, false_or, ih, Lang.Step.const.injEq, List.mem_append, Lang.Step.offset.injEq]
    case const r u =>
      constructor
      · rintro (rfl | ⟨r', h⟩ | h)
        · exact .inl ⟨r, .inl ⟨rfl, rfl⟩⟩
        · exact .inl ⟨r', .inr h⟩
        · exact .inr h
      · rintro (⟨r', ⟨_, rfl⟩ | h⟩ | h)
        · exact .inl rfl
        · exact .inr (.inl ⟨r', h⟩)
        · exact .inr (.inr h)
    case offset b s =>
      have hn := h b s (List.mem_cons_self ..)
      have e : ∀ o : Str, (if b = true then removeOpenParen (o ++ ['(']) else (o ++ ['(']).dropLast) = if b = true then o.filter (fun c => !(c == '(')) else o := by
        intro o
        cases b
        · simp
        · simp [removeOpenParen]
      have key : (t ∈ (match findOffset s with
          | some o => [if b = true then removeOpenParen o else o.dropLast]
          | none => [])) ↔ ∃ o, Lang.Offset s o ∧ t = if b = true then o.filter (fun c => !(c == '(')) else o := by
        by_cases ho : ∃ o, Lang.Offset s o
        · obtain ⟨o, ho⟩ := ho
          rw [findOffset_some hn ho]
          simp only [List.mem_singleton, e]
          constructor
          · intro h; exact ⟨o, ho, h⟩
          · rintro ⟨o', ho', h⟩; rw [offset_unique hn ho ho']; exact h
        · rw [findOffset_none hn fun o ho' => ho ⟨o, ho'⟩]
          simp only [List.not_mem_nil, false_iff]
          rintro ⟨o, ho', _⟩; exact ho ⟨o, ho'⟩
      refine (or_congr key Iff.rfl).trans ?_
      constructor
      · rintro (⟨o, h1, h2⟩ | h | ⟨b', s', o, h1, h2⟩)
        · exact .inr ⟨b, s, o, .inl ⟨rfl, rfl⟩, h1, h2⟩
        · exact .inl h
        · exact .inr ⟨b', s', o, .inr h1, h2⟩
      · rintro (h | ⟨b', s', o, ⟨rfl, rfl⟩ | h1, h2⟩)
        · exact .inr (.inl h)
        · exact .inl ⟨o, h2⟩
        · exact .inr (.inr ⟨b', s', o, h1, h2⟩)

theorem steps_noNl {mn w : Str} {b : Bool} {s : Str} : ∀ {rs : List Role} {ops : List Str}, Lang.Step.offset b s ∈ Lang.steps mn w rs ops → s ∈ ops := by
  intro rs
  induction rs with
  | nil => intro ops h; simp [Lang.steps] at h
  | cons r rs ih =>
    intro ops h
    unfold Lang.steps at h
    split at h
    all_goals first
      | (simp at h; done)
      | (simp at h; simp [h.2]; done)
      | (split at h <;> simp at h; done)
      | (rename_i e
         cases e
         simp only [List.mem_cons, reduceCtorEq, false_or] at h
         exact List.mem_cons_of_mem _ (ih h))

theorem plan_offset [Unicode] {s t : Str} {b : Bool} {st : List Lang.Step} (h : Lang.plan s = some st) (ho : Lang.Step.offset b t ∈ st) : t ∈ operands s := by
  unfold Lang.plan at h
  simp only at h
  split at h
  · cases h; simp at ho
  · split at h
    · cases h; simp at ho
    · split at h
      · simp only [Option.map_eq_some_iff] at h
        obtain ⟨e, _, rfl⟩ := h
        exact steps_noNl ho
      · unfold Lang.floatPlan at h
        repeat' split at h
        all_goals first
          | (cases h; done)
          | (cases h; simp at ho; done)


theorem steps_chars {mn w : Str} {t : Str} : ∀ {rs : List Role} {ops : List Str}, t ∈ consts (Lang.steps mn w rs ops) ∨ t ∈ targets (Lang.steps mn w rs ops) →
    ∃ o ∈ ops, ∀ c ∈ t, c ∈ o := by
  have hoff : ∀ (b : Bool) (s : Str), t ∈ consts [.offset b s] → ∀ c ∈ t, c ∈ s := by
    intro b s ht c hc
    simp only [consts, List.append_nil] at ht
    cases ho : findOffset s with
    | none => rw [ho] at ht; cases ht
    | some o =>
      rw [ho] at ht
      simp only [List.mem_singleton] at ht
      subst ht
      have hin : c ∈ o := by
        split at hc
        · exact (List.mem_filter.1 hc).1
        · exact List.dropLast_subset _ hc
      exact (findOffset_infix ho).subset hin
  intro rs
  induction rs with
  | nil => intro ops h; simp [Lang.steps, consts, targets] at h
  | cons r rs ih =>
    intro ops h
    unfold Lang.steps at h
    split at h
    · refine ⟨_, List.mem_singleton.2 rfl, ?_⟩
      rcases h with h | h
      · exact hoff _ _ h
      · cases h
    all_goals first
      | (simp [consts, targets] at h; done)
      | (simp [consts, targets] at h; subst h; exact ⟨_, List.mem_singleton.2 rfl, fun c hc => hc⟩)
      | (split at h
         · simp [consts, targets] at h; subst h; exact ⟨_, List.mem_singleton.2 rfl, fun c hc => hc⟩
         · simp [consts, targets] at h)
      | (rename_i e
         cases e
         obtain ⟨o, h1, h2⟩ := ih h
         exact ⟨o, List.mem_cons_of_mem _ h1, h2⟩)

theorem plan_chars [Unicode] {s : Str} {st : List Lang.Step} (h : Lang.plan s = some st) (hop : ∀ o ∈ operands s, ∀ c ∈ o, c ∈ s) :
    ∀ t c, t ∈ consts st ∨ t ∈ targets st → c ∈ t → c ∈ s := by
  intro t c ht hc
  have key : ∀ {l : List Str} {tail : List Lang.Step}, consts tail = [] → targets tail = [] →
      consts (l.map .fpr ++ tail) = [] ∧ targets (l.map .fpr ++ tail) = [] := by
    intro l tail h1 h2
    induction l with
    | nil => exact ⟨h1, h2⟩
    | cons a l ih => exact ih
  unfold Lang.plan at h
  simp only at h
  split at h
  · cases h; simp [consts, targets] at ht
  · split at h
    · cases h; simp [consts, targets] at ht
    · split at h
      · simp only [Option.map_eq_some_iff] at h
        obtain ⟨e, _, rfl⟩ := h
        obtain ⟨o, h1, h2⟩ := steps_chars ht
        exact hop o h1 c (h2 c hc)
      · unfold Lang.floatPlan at h
        repeat' split at h
        all_goals first
          | (cases h; done)
          | (cases h; simp [consts, targets] at ht; done)
          | (cases h
             rename_i ops _ _
             have := key (l := operands s) (tail := [.fname (firstWord s)]) rfl rfl
             rw [this.1, this.2] at ht; simp at ht; done)
          | (cases h
             have := key (l := operands s) (tail := [.format (firstWord s), .cond (firstWord s)]) rfl rfl
             rw [this.1, this.2] at ht; simp at ht; done)

section
variable [Unicode] {rt : Rt} {m : Mipsasm} {text : Str} {tr : List Outcome}

theorem mnemonic_of {raw : Str} : mnemonic (body raw) = mnOf (firstWord (body raw)) := rfl

/-- an instruction that is taken -/
theorem instr_of (hT : IsTrace (envOf rt m text) (lines text) tr) {k : Nat} {ws : List ParserWarning} {i : Instruction}
    (hk : tr[k]? = some (.inst ws i)) :
    ∃ st raw, Lang.Instr (fileOf rt m text) k st ∧ (lines text)[k]? = some raw ∧ kind raw = .code ∧
      RefPost (ctxAt (envOf rt m text) (tr.take k)) (classify (mnemonic (body raw))) (firstWord (body raw)) st i ∧
      (∀ t, t ∈ consts st ↔ Lang.Constant st t) ∧ ∀ t, (t ∈ consts st ∨ t ∈ targets st) → '\n' ∉ t := by
  obtain ⟨raw, h1, h2, h3⟩ := trace_inst hT hk
  have ht := (taken_iff hT h1 hk).1 rfl
  unfold Lang.LineTaken at ht
  rw [h2] at ht
  obtain ⟨st, p1, p2⟩ := ht
  have hlt : k < (lines text).length := (List.getElem?_eq_some_iff.1 h1).1
  have hnl : '\n' ∉ raw := lines_noNl text _ (List.mem_of_getElem? h1)
  have hbn : '\n' ∉ body raw := fun hc => hnl ((body_infix raw).subset hc)
  refine ⟨st, raw, ⟨raw, h1, h2, p1, p2⟩, h1, h2, ?_, ?_, ?_⟩
  · rw [mnemonic_of]
    exact inst_refs (sees_at (isTrace_take hT k) (Nat.le_of_lt hlt)) (kind_code_ne h2) p1 i (congrArg W.res h3)
  · intro t
    refine mem_consts fun b s hs => ?_
    have := plan_offset p1 hs
    exact fun hc => hbn ((words_infix (body raw)).2.subset ((infix_of_split this).subset hc))
  · have key : ∀ t c, t ∈ consts st ∨ t ∈ targets st → c ∈ t → c ∈ body raw := by
      have hop : ∀ o ∈ operands (body raw), ∀ c ∈ o, c ∈ body raw := fun o ho c hc =>
        (words_infix (body raw)).2.subset ((infix_of_split ho).subset hc)
      exact plan_chars p1 hop
    intro t ht
    exact fun hc => hbn (key t _ ht hc)

theorem inst_of (hT : IsTrace (envOf rt m text) (lines text) tr) {k : Nat} {st : List Lang.Step}
    (h : Lang.Instr (fileOf rt m text) k st) : ∃ ws i, tr[k]? = some (.inst ws i) := by
  obtain ⟨raw, h1, h2, h3, h4⟩ := h
  have h1' : (lines text)[k]? = some raw := h1
  have hlt : k < tr.length := by rw [hT.1]; exact (List.getElem?_eq_some_iff.1 h1').1
  have ho : tr[k]? = some tr[k] := List.getElem?_eq_getElem hlt
  have ht := (taken_iff hT h1' ho).2 (by unfold Lang.LineTaken; rw [h2]; exact ⟨st, h3, h4⟩)
  have hr := hT.2 k raw _ h1' ho
  unfold lineRes at hr
  rw [h2] at hr
  simp only [instRes] at hr
  split at hr
  · rename_i i _
    simp only [Option.some.injEq] at hr
    exact ⟨_, i, by rw [ho, ← hr]⟩
  · simp only [Option.some.injEq] at hr
    rw [← hr] at ht; cases ht
  · cases hr

theorem instr_unique {f : Lang.File} {k : Nat} {st st' : List Lang.Step} (h : Lang.Instr f k st) (h' : Lang.Instr f k st') : st = st' := by
  obtain ⟨raw, h1, _, h3, _⟩ := h
  obtain ⟨raw', h1', _, h3', _⟩ := h'
  rw [h1] at h1'; cases h1'
  rw [h3] at h3'; cases h3'; rfl

theorem counted_of (hT : IsTrace (envOf rt m text) (lines text) tr) : ∀ k ≤ (lines text).length,
    Lang.Counted (fileOf rt m text) k (outInsts 0 (tr.take k)).length := by
  intro k
  induction k with
  | zero => intro _; exact .none
  | succ k ih =>
    intro hk
    have hlt : k < tr.length := by rw [hT.1]; omega
    have ho : tr[k]? = some tr[k] := List.getElem?_eq_getElem hlt
    rw [List.take_succ_eq_append_getElem hlt, outInsts_append, List.length_append]
    by_cases hi : ∃ ws i, tr[k] = .inst ws i
    · obtain ⟨ws, i, e⟩ := hi
      rw [e] at ho ⊢
      obtain ⟨st, raw, h1, _⟩ := instr_of hT ho
      exact .inst k _ st (ih (by omega)) h1
    · have : (outInsts (0 + (tr.take k).length) [tr[k]]).length = 0 := by
        cases h : tr[k] <;> first | rfl | (exact absurd ⟨_, _, h⟩ hi)
      rw [this]
      refine .other k _ (ih (by omega)) hk fun st hst => ?_
      obtain ⟨ws, i, e⟩ := inst_of hT hst
      rw [ho] at e
      exact hi ⟨ws, i, Option.some.inj e⟩

theorem counted_unique {f : Lang.File} {k n : Nat} (h : Lang.Counted f k n) : ∀ {n'}, Lang.Counted f k n' → n = n' := by
  induction h with
  | none => intro n' h; cases h; rfl
  | inst k n st _ h1 ih =>
    intro n' h
    cases h with
    | inst _ n2 _ h _ => rw [ih h]
    | other _ _ _ _ h => exact absurd h1 (h st)
  | other k n _ _ h1 ih =>
    intro n' h
    cases h with
    | inst _ n2 st _ h => exact absurd h (h1 st)
    | other _ _ h _ _ => exact ih h

theorem first_def {ls : List Str} {l : Str} (hg : Lang.Global l) {d : Nat} (h : Defines ls d l) : ∃ d' ≤ d, Lang.FirstDef ls d' l := by
  induction d using Nat.strongRecOn with
  | _ d ih =>
    by_cases hx : ∃ d' < d, Defines ls d' l
    · obtain ⟨d', h1, h2⟩ := hx
      obtain ⟨d'', h3, h4⟩ := ih d' h1 h2
      exact ⟨d'', by omega, h4⟩
    · exact ⟨d, Nat.le_refl _, h, hg, fun d' h1 h2 => hx ⟨d', h1, h2⟩⟩

theorem firstDef_unique {ls : List Str} {l : Str} {d d' : Nat} (h : Lang.FirstDef ls d l) (h' : Lang.FirstDef ls d' l) : d = d' := by
  rcases Nat.lt_trichotomy d d' with hh | hh | hh
  · exact absurd h.1 (h'.2.2 d hh)
  · exact hh
  · exact absurd h'.1 (h.2.2 d' hh)

/-- where the labels are -/
theorem lookup_first (hT : IsTrace (envOf rt m text) (lines text) tr) {d : Nat} {l : Str} (h : Lang.FirstDef (lines text) d l) :
    (outLabels 0 tr).lookup l = some (outInsts 0 (tr.take d)).length := by
  obtain ⟨⟨raw, hr, hkind⟩, hg, hno⟩ := h
  have hdl : d < (lines text).length := (List.getElem?_eq_some_iff.1 hr).1
  have hdt : d < tr.length := by rw [hT.1]; exact hdl
  have hno' : ∀ e ∈ outLabels 0 (tr.take d), e.1 ≠ l := by
    rintro ⟨l', a⟩ he rfl
    have : hasLabel (outLabels 0 (tr.take d)) l' = true := by
      simp only [hasLabel, List.any_eq_true, beq_iff_eq]; exact ⟨_, he, rfl⟩
    obtain ⟨_, d', h1, h2⟩ := (known_iff (isTrace_take hT d) (Nat.le_of_lt hdl) l').1 this
    exact hno d' h1 h2
  have hres := hT.2 d raw tr[d] hr (List.getElem?_eq_getElem hdt)
  unfold lineRes at hres
  rw [hkind] at hres
  simp only at hres
  obtain ⟨hloc, c, t, rfl, hc⟩ := hg
  rw [labelRes_ok ⟨⟨c, t, rfl, hc⟩, hno'⟩, hloc] at hres
  simp only [Option.some.injEq] at hres
  have : tr = tr.take d ++ (.label (c :: t)) :: tr.drop (d + 1) := by
    have e : Outcome.label (c :: t) = tr[d] := hres
    rw [e]; simp
  rw [this, outLabels_append, List.lookup_append, lookup_none_of hno']
  simp [outLabels, List.take_append, Nat.min_eq_left (Nat.le_of_lt hdt)]

theorem lookup_iff (hT : IsTrace (envOf rt m text) (lines text) tr) {l : Str} {a : Nat} :
    (outLabels 0 tr).lookup l = some a ↔ ∃ d, Lang.FirstDef (lines text) d l ∧ a = (outInsts 0 (tr.take d)).length := by
  constructor
  · intro h
    have hh : hasLabel (outLabels 0 tr) l = true := by
      simp only [hasLabel, List.any_eq_true, beq_iff_eq]; exact ⟨_, lookup_mem' h, rfl⟩
    obtain ⟨hg, d, _, hd⟩ := (known_iff (k := (lines text).length) (by rw [List.take_length]; exact hT) (Nat.le_refl _) l).1 hh
    obtain ⟨d', _, hd'⟩ := first_def hg hd
    refine ⟨d', hd', ?_⟩
    rw [lookup_first hT hd'] at h
    exact (Option.some.inj h).symm
  · rintro ⟨d, hd, rfl⟩
    exact lookup_first hT hd

theorem lookup_none_iff (hT : IsTrace (envOf rt m text) (lines text) tr) {l : Str} :
    (outLabels 0 tr).lookup l = none ↔ ∀ d, ¬ Lang.FirstDef (lines text) d l := by
  constructor
  · intro h d hd
    rw [lookup_first hT hd] at h; cases h
  · intro h
    cases hl : (outLabels 0 tr).lookup l with
    | none => rfl
    | some a =>
      obtain ⟨d, hd, _⟩ := (lookup_iff hT).1 hl
      exact absurd hd (h d)

theorem allTaken_iff (hT : IsTrace (envOf rt m text) (lines text) tr) : outErrors tr = [] ↔ Lang.AllTaken (fileOf rt m text) := by
  have key : ∀ tr : List Outcome, outErrors tr = [] ↔ ∀ o ∈ tr, outErrors [o] = [] := by
    intro tr
    induction tr with
    | nil => simp [outErrors]
    | cons o tr ih =>
      rw [show o :: tr = [o] ++ tr from rfl, outErrors_append, List.append_eq_nil_iff, ih]
      simp
  rw [key]
  constructor
  · intro h k raw hk
    have hlt : k < tr.length := by rw [hT.1]; exact (List.getElem?_eq_some_iff.1 hk).1
    exact (taken_iff hT hk (List.getElem?_eq_getElem hlt)).1 (h _ (List.getElem_mem hlt))
  · intro h o ho
    obtain ⟨k, hk⟩ := List.getElem?_of_mem ho
    have hlt : k < (lines text).length := by rw [← hT.1]; exact (List.getElem?_eq_some_iff.1 hk).1
    exact (taken_iff hT (List.getElem?_eq_getElem hlt) hk).2 (h k _ (List.getElem?_eq_getElem hlt))

end
end Mips
