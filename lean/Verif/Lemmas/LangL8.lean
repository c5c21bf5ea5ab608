/- The verdict of a line of a file (for C56). -/
import Verif.Lemmas.LangL7
import Verif.Props.Shown

namespace Mips
open Source Syntax Branch Operands
open Mips.Isa hiding conds
open Mips.Names hiding none

theorem lines_sub : ∀ (text : Str), ∀ l ∈ lines text, ∀ c ∈ l, c ∈ text := by
  intro text
  induction text with
  | nil => intro l hl; cases hl
  | cons a s ih =>
    intro l hl c hc
    unfold lines at hl
    split at hl
    · rcases List.mem_cons.1 hl with rfl | hl
      · cases hc
      · exact List.mem_cons_of_mem _ (ih l hl c hc)
    · split at hl
      · simp only [List.mem_singleton] at hl
        subst hl
        simp only [List.mem_singleton] at hc
        subst hc; exact List.mem_cons_self ..
      · rename_i p ps he
        split at hl
        · exact List.mem_cons_of_mem _ (ih l (by rw [he]; exact hl) c hc)
        · rcases List.mem_cons.1 hl with rfl | hl
          · rcases List.mem_cons.1 hc with rfl | hc
            · exact List.mem_cons_self ..
            · exact List.mem_cons_of_mem _ (ih p (by rw [he]; exact List.mem_cons_self ..) c hc)
          · exact List.mem_cons_of_mem _ (ih l (by rw [he]; exact List.mem_cons_of_mem _ hl) c hc)
      · rename_i p ps _ _ he
        rcases List.mem_cons.1 hl with rfl | hl
        · rcases List.mem_cons.1 hc with rfl | hc
          · exact List.mem_cons_self ..
          · exact List.mem_cons_of_mem _ (ih p (by rw [he]; exact List.mem_cons_self ..) c hc)
        · exact List.mem_cons_of_mem _ (ih l (by rw [he]; exact List.mem_cons_of_mem _ hl) c hc)
      · simp only [List.mem_singleton] at hl
        subst hl
        simp only [List.mem_singleton] at hc
        subst hc; exact List.mem_cons_self ..

/-- a label is part of the statement -/
theorem kind_label_body {raw l : Str} (h : kind raw = .label l) : ∀ c ∈ l, c ∈ body raw := by
  unfold kind at h
  split at h
  · cases h; exact fun c hc => List.dropLast_subset _ hc
  · split at h <;> cases h

section
variable [Unicode]

/-- A label is known after some lines iff they define it. -/
theorem known_iff {rt : Rt} {m : Mipsasm} {text : Str} {k : Nat} {tr : List Outcome}
    (h : IsTrace (envOf rt m text) ((lines text).take k) tr) (hk : k ≤ (lines text).length) (l : Str) :
    hasLabel (outLabels 0 tr) l = true ↔ Lang.Global l ∧ ∃ d < k, Defines (lines text) d l := by
  have hl : tr.length = k := by rw [h.1]; simp; omega
  constructor
  · intro hh
    simp only [hasLabel, List.any_eq_true, beq_iff_eq] at hh
    obtain ⟨⟨l', a⟩, he, rfl⟩ := hh
    obtain ⟨d, hd⟩ := outLabels_mem he
    have hdk : d < k := by have := (List.getElem?_eq_some_iff.1 hd).1; omega
    have hdl : d < (lines text).length := by omega
    have hr := h.2 d _ _ (by rw [List.getElem?_take_of_lt hdk]; exact List.getElem?_eq_getElem hdl) hd
    unfold lineRes at hr
    split at hr
    · cases hr
    · rename_i l'' hkind
      obtain ⟨h1, h2⟩ := labelRes_label hr
      subst h1
      refine ⟨⟨h2, ?_⟩, d, hdk, _, List.getElem?_eq_getElem hdl, hkind⟩
      unfold labelRes at hr
      split at hr
      · cases hr
      · rename_i c t
        split at hr
        · cases hr
        · rename_i hc
          refine ⟨c, t, rfl, ?_⟩
          simpa using hc
    · exfalso
      unfold instRes at hr
      split at hr <;> simp at hr
  · rintro ⟨hg, hd⟩
    -- the first definition
    have hmin : ∃ d, d < k ∧ Defines (lines text) d l ∧ ∀ d' < d, ¬ Defines (lines text) d' l := by
      obtain ⟨d, hd⟩ := hd
      induction d using Nat.strongRecOn with
      | _ d ih =>
        by_cases hx : ∃ d' < d, Defines (lines text) d' l
        · obtain ⟨d', h1, h2⟩ := hx
          exact ih d' h1 ⟨by omega, h2⟩
        · exact ⟨d, hd.1, hd.2, fun d' h1 h2 => hx ⟨d', h1, h2⟩⟩
    obtain ⟨d, hdk, ⟨raw, hr, hkind⟩, hfirst⟩ := hmin
    have hdt : d < tr.length := by omega
    have hT := isTrace_take h d
    have hres := h.2 d raw tr[d] (by rw [List.getElem?_take_of_lt hdk]; exact hr) (List.getElem?_eq_getElem hdt)
    have hno : ∀ e ∈ outLabels 0 (tr.take d), e.1 ≠ l := by
      rintro ⟨l', a⟩ he rfl
      obtain ⟨d', hd'⟩ := outLabels_mem he
      have h1 := (List.getElem?_eq_some_iff.1 hd').1
      rw [List.length_take] at h1
      have hd'd : d' < d := by omega
      have hd't : d' < (lines text).length := by omega
      have hr' := h.2 d' (lines text)[d'] _ (by rw [List.getElem?_take_of_lt (by omega)]; exact List.getElem?_eq_getElem hd't)
        (by rw [List.getElem?_take_of_lt hd'd] at hd'; exact hd')
      unfold lineRes at hr'
      split at hr'
      · cases hr'
      · rename_i l'' hk'
        obtain ⟨h1, _⟩ := labelRes_label hr'
        subst h1
        exact hfirst d' hd'd ⟨_, List.getElem?_eq_getElem hd't, hk'⟩
      · unfold instRes at hr'
        split at hr' <;> simp at hr'
    obtain ⟨hloc, c, t, rfl, hc⟩ := hg
    unfold lineRes at hres
    rw [hkind] at hres
    simp only at hres
    rw [labelRes_ok ⟨⟨c, t, rfl, hc⟩, hno⟩, hloc] at hres
    simp only [Option.some.injEq] at hres
    have hmem : tr[d]? = some (.label (c :: t)) := by rw [List.getElem?_eq_getElem hdt, ← hres]; rfl
    have : ∀ (tr : List Outcome) (d n : Nat), tr[d]? = some (.label (c :: t)) → hasLabel (outLabels n tr) (c :: t) = true := by
      intro tr
      induction tr with
      | nil => intro d n h; simp at h
      | cons o tr ih =>
        intro d n h
        cases d with
        | zero => cases h; simp [outLabels, hasLabel]
        | succ d =>
          have := fun n => ih d n (by simpa using h)
          cases o with
          | label l' => simp only [outLabels, hasLabel, List.any_cons, Bool.or_eq_true] at this ⊢; exact .inr (this n)
          | _ => simp only [outLabels]; exact this _
    exact this tr d 0 hmem

theorem sees_at {rt : Rt} {m : Mipsasm} {text : Str} {k : Nat} {tr : List Outcome}
    (h : IsTrace (envOf rt m text) ((lines text).take k) tr) (hk : k ≤ (lines text).length) :
    Sees ⟨rt.ovf, m.syms, lines text, k⟩ (ctxAt (envOf rt m text) tr) := by
  refine ⟨rfl, rfl, fun s => ?_⟩
  unfold Lang.RefersTo
  rw [← known_iff h hk]
  rfl

/-- What becomes of a line, by the specification. -/
theorem line_verdict {rt : Rt} {m : Mipsasm} {text : Str} {k : Nat} {tr : List Outcome} {raw : Str}
    (h : IsTrace (envOf rt m text) ((lines text).take k) tr) (hk : (lines text)[k]? = some raw) :
    (lineRes (envOf rt m text) tr raw = none ↔ Lang.LineCrashes ⟨rt.ovf, m.syms, lines text, k⟩ raw) ∧
    ((∃ o, lineRes (envOf rt m text) tr raw = some o ∧ outErrors [o] = []) ↔ Lang.LineTaken ⟨rt.ovf, m.syms, lines text, k⟩ raw) := by
  have hlt : k < (lines text).length := (List.getElem?_eq_some_iff.1 hk).1
  have hl : tr.length = k := by rw [h.1]; simp; omega
  have hS := sees_at h (Nat.le_of_lt hlt)
  unfold lineRes Lang.LineCrashes Lang.LineTaken
  cases hkind : kind raw with
  | blank => exact ⟨⟨(fun e => by cases e), False.elim⟩, ⟨fun _ => trivial, fun _ => ⟨_, rfl, rfl⟩⟩⟩
  | code =>
    have hb := inst_plan hS (kind_code_ne hkind) (fun hc => lines_noNl text _ (List.mem_of_getElem? hk) ((body_infix raw).subset hc))
    have e1 : ∀ w : W Instruction, instRes w = none ↔ w.res = .panic := by
      intro w; unfold instRes; split <;> rename_i e <;> rw [e] <;> simp
    have e2 : ∀ w : W Instruction, (∃ o, instRes w = some o ∧ outErrors [o] = []) ↔ ∃ i, w.res = .ok i := by
      intro w; unfold instRes; split <;> rename_i e <;> rw [e] <;> simp [outErrors]
    simp only [e1, e2]
    unfold ArmIs at hb
    cases hp : Lang.plan (body raw) with
    | none =>
      rw [hp] at hb
      have he : (parseInst (ctxAt (envOf rt m text) tr) (body raw)).res = .err _ := hb
      rw [he]
      simp
    | some st =>
      rw [hp] at hb
      obtain ⟨b1, b2, _⟩ := hb
      simp only [Option.some.injEq, exists_eq_left']
      exact ⟨b2, b1⟩
  | label l =>
    simp only
    cases l with
    | nil => exact ⟨⟨fun _ => rfl, fun _ => rfl⟩, ⟨(fun ⟨o, e, _⟩ => by cases e), (fun ⟨⟨_, _, e, _⟩, _⟩ => by cases e)⟩⟩
    | cons c t =>
      simp only [labelRes]
      cases hc : Unicode.isNumeric c with
      | true =>
        simp only [if_true]
        refine ⟨⟨(fun e => by cases e), (fun e => by cases e)⟩, ⟨?_, ?_⟩⟩
        · rintro ⟨o, e, e'⟩; cases e; cases e'
        · rintro ⟨⟨c', t', e, e'⟩, _⟩; cases e; rw [hc] at e'; cases e'
      | false =>
        simp only [if_neg Bool.false_ne_true]
        have hkn := known_iff h (Nat.le_of_lt hlt) (c :: t)
        cases hf : (outLabels 0 tr).lookup (c :: t) with
        | some first =>
          have := outLabels_lt 0 (lookup_mem' hf)
          have hf2 : first < (lines text).length := by omega
          have hin : (envOf rt m text).input[first]? = some (lines text)[first] := List.getElem?_eq_getElem hf2
          simp only [hin]
          have hh : hasLabel (outLabels 0 tr) (c :: t) = true := by
            simp only [hasLabel, List.any_eq_true, beq_iff_eq]
            exact ⟨_, lookup_mem' hf, rfl⟩
          obtain ⟨hg, d, hd, hd'⟩ := hkn.1 hh
          refine ⟨⟨(fun e => by cases e), (fun e => by cases e)⟩, ⟨?_, ?_⟩⟩
          · rintro ⟨o, e, e'⟩; cases e; cases e'
          · rintro ⟨_, e⟩; exact absurd hd' (e hg.1 d hd)
        | none =>
          simp only
          refine ⟨⟨(fun e => by cases e), (fun e => by cases e)⟩, ⟨fun _ => ⟨⟨c, t, rfl, hc⟩, ?_⟩, fun _ => ⟨_, rfl, by split <;> rfl⟩⟩⟩
          intro hloc d hd hd'
          have := hkn.2 ⟨⟨hloc, c, t, rfl, hc⟩, d, hd, hd'⟩
          simp only [hasLabel, List.any_eq_true, beq_iff_eq] at this
          obtain ⟨⟨l', a⟩, he, rfl⟩ := this
          obtain ⟨a', ha'⟩ := lookup_isSome_of_mem he
          rw [ha'] at hf; cases hf

/-- All lines before the first that ends the program have outcomes. -/
theorem trace_upto {rt : Rt} {m : Mipsasm} {text : Str} {n : Nat} (hn : n ≤ (lines text).length)
    (h : ∀ (k : Nat) raw, k < n → (lines text)[k]? = some raw → ¬ Lang.LineCrashes ⟨rt.ovf, m.syms, lines text, k⟩ raw) :
    ∃ tr, IsTrace (envOf rt m text) ((lines text).take n) tr := by
  induction n with
  | zero => exact ⟨[], rfl, fun k raw o h => by simp at h⟩
  | succ n ih =>
    obtain ⟨tr, ht⟩ := ih (by omega) fun k raw hk => h k raw (by omega)
    have hk : (lines text)[n]? = some (lines text)[n] := List.getElem?_eq_getElem (by omega)
    cases ho : lineRes (envOf rt m text) tr (lines text)[n] with
    | none => exact absurd ((line_verdict ht hk).1.1 ho) (h n _ (by omega) hk)
    | some o =>
      refine ⟨tr ++ [o], ?_⟩
      rw [List.take_succ_eq_append_getElem (by omega)]
      exact isTrace_snoc ht ho

theorem trace_iff_lines {rt : Rt} {m : Mipsasm} {text : Str} :
    (∃ tr, IsTrace (envOf rt m text) (lines text) tr) ↔
      ∀ (k : Nat) raw, (lines text)[k]? = some raw → ¬ Lang.LineCrashes ⟨rt.ovf, m.syms, lines text, k⟩ raw := by
  constructor
  · rintro ⟨tr, hT⟩ k raw hk hc
    have hlt : k < (lines text).length := (List.getElem?_eq_some_iff.1 hk).1
    have := (line_verdict (isTrace_take hT k) hk).1.2 hc
    have hkt : k < tr.length := by rw [hT.1]; exact hlt
    rw [hT.2 k raw _ hk (List.getElem?_eq_getElem hkt)] at this
    cases this
  · intro h
    obtain ⟨tr, ht⟩ := trace_upto (Nat.le_refl _) fun k raw _ hk => h k raw hk
    rw [List.take_length] at ht
    exact ⟨tr, ht⟩

/-- Line `k` is taken iff its outcome is not an error. -/
theorem taken_iff {rt : Rt} {m : Mipsasm} {text : Str} {tr : List Outcome} (hT : IsTrace (envOf rt m text) (lines text) tr)
    {k : Nat} {raw : Str} {o : Outcome} (hk : (lines text)[k]? = some raw) (ho : tr[k]? = some o) :
    outErrors [o] = [] ↔ Lang.LineTaken ⟨rt.ovf, m.syms, lines text, k⟩ raw := by
  have h1 := (line_verdict (isTrace_take hT k) hk).2
  have h2 := hT.2 k raw o hk ho
  rw [← h1, h2]
  simp

end
end Mips
