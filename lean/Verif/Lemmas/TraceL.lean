/- The line loop as a trace of per-line outcomes; independence of the hash iteration order. -/
import Verif.Lemmas.LoopL2

namespace Mips
open Source

/-- What happens to one input line. -/
inductive Outcome where
  | blank
  | label (l : Str)
  | loc (l : Str)
  | inst (ws : List ParserWarning) (i : Instruction)
  | rejected (ws : List ParserWarning) (e : ParserError)

/-- Is it an accepted instruction? -/
def Outcome.isInst : Outcome → Bool
  | .inst _ _ => true
  | _ => false

/-- The accepted instructions with their line numbers (`k` lines precede). -/
def outInsts : Nat → List Outcome → List (Nat × Instruction)
  | _, [] => []
  | k, .inst _ i :: tr => (k + 1, i) :: outInsts (k + 1) tr
  | k, _ :: tr => outInsts (k + 1) tr

/-- The accepted global labels with the number of accepted instructions in front (`n` are counted already). -/
def outLabels : Nat → List Outcome → List (Str × Nat)
  | _, [] => []
  | n, .label l :: tr => (l, n) :: outLabels n tr
  | n, .inst _ _ :: tr => outLabels (n + 1) tr
  | n, _ :: tr => outLabels n tr

/-- The errors of rejected lines. -/
def outErrors : List Outcome → List ParserError
  | [] => []
  | .rejected _ e :: tr => e :: outErrors tr
  | _ :: tr => outErrors tr

/-- The warnings printed. -/
def outWarns : List Outcome → List ParserWarning
  | [] => []
  | .rejected ws _ :: tr => ws ++ outWarns tr
  | .inst ws _ :: tr => ws ++ outWarns tr
  | _ :: tr => outWarns tr

/-- Local labels: (flushed, current), as a left fold over the trace with the instruction count and the
current scope. -/
structure LocSt where
  n : Nat
  scope : Str
  dropped : List Loc
  cur : List Loc

/-- one step -/
def LocSt.step (a : LocSt) : Outcome → LocSt
  | .loc l => { a with cur := locInsert a.cur l (a.n, a.scope) }
  | .label l => { a with scope := l, dropped := a.dropped ++ a.cur, cur := [] }
  | .inst _ _ => { a with n := a.n + 1 }
  | _ => a

/-- fold over the trace -/
def outLocs (tr : List Outcome) : LocSt := tr.foldl LocSt.step ⟨0, [], [], []⟩

theorem snoc_ind {α} {P : List α → Prop} (nil : P []) (snoc : ∀ a o, P a → P (a ++ [o])) : ∀ l, P l := by
  intro l
  rw [← List.reverse_reverse l]
  induction l.reverse with
  | nil => exact nil
  | cons x xs ih => rw [List.reverse_cons]; exact snoc _ _ ih

theorem outInsts_append (k : Nat) (a b : List Outcome) : outInsts k (a ++ b) = outInsts k a ++ outInsts (k + a.length) b := by
  induction a generalizing k with
  | nil => rfl
  | cons o a ih =>
    have e : k + (o :: a).length = k + 1 + a.length := by simp; omega
    rw [List.cons_append, e]
    cases o <;> simp [outInsts, ih]

theorem outLabels_append (n : Nat) (a b : List Outcome) :
    outLabels n (a ++ b) = outLabels n a ++ outLabels (n + (outInsts 0 a).length) b := by
  have hl : ∀ k j (a : List Outcome), (outInsts k a).length = (outInsts j a).length := by
    intro k j a
    induction a generalizing k j with
    | nil => rfl
    | cons o a ih => cases o <;> simp [outInsts, ih (k + 1) (j + 1)]
  induction a generalizing n with
  | nil => rfl
  | cons o a ih =>
    cases o with
    | inst ws i => simp [outLabels, outInsts, ih, hl 1 0]; congr 1; omega
    | _ => simp [outLabels, outInsts, ih, hl 1 0]

theorem outErrors_append (a b : List Outcome) : outErrors (a ++ b) = outErrors a ++ outErrors b := by
  induction a with
  | nil => rfl
  | cons o a ih => cases o <;> simp [outErrors, ih]

theorem outWarns_append (a b : List Outcome) : outWarns (a ++ b) = outWarns a ++ outWarns b := by
  induction a with
  | nil => rfl
  | cons o a ih => cases o <;> simp [outWarns, ih]

theorem outLocs_snoc (a : List Outcome) (o : Outcome) : outLocs (a ++ [o]) = (outLocs a).step o := by
  simp [outLocs]

theorem outLocs_n (tr : List Outcome) : (outLocs tr).n = (outInsts 0 tr).length := by
  induction tr using snoc_ind with
  | nil => rfl
  | snoc a o ih =>
    rw [outLocs_snoc, outInsts_append, List.length_append, ← ih]
    cases o <;> simp [LocSt.step, outInsts]

theorem outLocs_scope (tr : List Outcome) : (outLocs tr).scope = ((outLabels 0 tr).getLast?.map (·.1)).getD [] := by
  induction tr using snoc_ind with
  | nil => rfl
  | snoc a o ih =>
    rw [outLocs_snoc, outLabels_append]
    cases o <;> simp [LocSt.step, outLabels, ih]

/-- The parser's view at the line that follows the trace `tr`. -/
def ctxAt (env : Env) (tr : List Outcome) : Ctx where
  ovf := env.rt.ovf
  syms := env.syms
  lineNum := tr.length + 1
  content := (env.input[tr.length]?).getD []
  prevContent := (env.input[tr.length + 1 - 2]?).getD []
  lastDelay := match (outInsts 0 tr).getLast? with
    | some (_, i) => i.hasDelaySlot
    | none => false
  labels := outLabels 0 tr

/-- The outcome of a label definition `l:`. -/
def labelRes [Unicode] (env : Env) (tr : List Outcome) (l : Str) : Option Outcome :=
  match l with
  | [] => none
  | c :: _ =>
    if Unicode.isNumeric c then some (.rejected [] (.invalidLabel (ctxAt env tr).line l))
    else match (outLabels 0 tr).lookup l with
      | some first => match env.input[first]? with
        | some content => some (.rejected [] (.multipleLabelDefinition (ctxAt env tr).line l ⟨first + 1, content⟩))
        | none => none
      | none => some (if isLocal l then .loc l else .label l)

/-- The outcome of an instruction. -/
def instRes (w : W Instruction) : Option Outcome :=
  match w.res with
  | .ok i => some (.inst w.warns i)
  | .err e => some (.rejected w.warns e)
  | .panic => none

/-- The outcome of the next line; `none` is a panic. -/
def lineRes [Unicode] (env : Env) (tr : List Outcome) (raw : Str) : Option Outcome :=
  match kind raw with
  | .blank => some .blank
  | .label l => labelRes env tr l
  | .code => instRes (parseInst (ctxAt env tr) (body raw))

/-- The outcomes of all lines. -/
def traceFrom [Unicode] (env : Env) : List Outcome → List Str → Option (List Outcome)
  | tr, [] => some tr
  | tr, raw :: rest => match lineRes env tr raw with
    | none => none
    | some o => traceFrom env (tr ++ [o]) rest

/-- The parser state that corresponds to a trace. -/
def canon (tr : List Outcome) : PState where
  lineNum := tr.length
  insts := outInsts 0 tr
  labels := outLabels 0 tr
  locals := (outLocs tr).cur
  dropped := (outLocs tr).dropped
  errors := outErrors tr
  warns := outWarns tr

/-- States that agree up to the order of flushed local labels with different names. -/
structure Eqv (s t : PState) : Prop where
  lineNum : s.lineNum = t.lineNum
  insts : s.insts = t.insts
  labels : s.labels = t.labels
  locals : s.locals = t.locals
  errors : s.errors = t.errors
  warns : s.warns = t.warns
  perm : s.dropped.Perm t.dropped
  same : ∀ x, s.dropped.filter (fun d => d.1 == x) = t.dropped.filter (fun d => d.1 == x)

theorem locInsert_keys {m : List Loc} (h : (m.map (·.1)).Nodup) (k : Str) (v : Nat × Str) : ((locInsert m k v).map (·.1)).Nodup := by
  unfold locInsert
  rw [List.map_append, List.nodup_append]
  refine ⟨List.Nodup.sublist (List.Sublist.map _ List.filter_sublist) h, by simp, ?_⟩
  intro a ha b hb
  simp only [List.mem_map, List.mem_filter] at ha
  obtain ⟨e, ⟨_, he⟩, rfl⟩ := ha
  simp at hb he
  rw [hb]; exact he

theorem outLocs_keys (tr : List Outcome) : ((outLocs tr).cur.map (·.1)).Nodup := by
  induction tr using snoc_ind with
  | nil => simp [outLocs]
  | snoc a o ih =>
    rw [outLocs_snoc]
    cases o with
    | loc l => exact locInsert_keys ih _ _
    | label l => simp [LocSt.step]
    | _ => exact ih

theorem filter_key {l : List Loc} (h : (l.map (·.1)).Nodup) (x : Str) : (l.filter fun d => d.1 == x).length ≤ 1 := by
  induction l with
  | nil => simp
  | cons a l ih =>
    simp only [List.map_cons, List.nodup_cons] at h
    by_cases ha : a.1 = x
    · have : l.filter (fun d => d.1 == x) = [] := by
        rw [List.filter_eq_nil_iff]
        intro d hd hx
        simp at hx
        exact h.1 (List.mem_map.2 ⟨d, hd, by rw [hx, ha]⟩)
      simp [List.filter_cons, ha, this]
    · simp [List.filter_cons, ha]
      exact ih h.2

theorem filter_perm {l m : List Loc} (h : (l.map (·.1)).Nodup) (hp : m.Perm l) (x : Str) :
    (m.filter fun d => d.1 == x) = l.filter fun d => d.1 == x := by
  have h1 := hp.filter (fun d => d.1 == x)
  have h2 := filter_key h x
  generalize l.filter (fun d => d.1 == x) = a at *
  generalize m.filter (fun d => d.1 == x) = b at *
  match a, h2 with
  | [], _ => exact h1.eq_nil
  | [c], _ => exact h1.eq_singleton

theorem canon_next (tr : List Outcome) : (canon tr).next = { canon tr with lineNum := tr.length + 1 } := rfl

theorem ctxOf_eqv {env : Env} {s : PState} {tr : List Outcome} (h : Eqv s (canon tr)) : ctxOf env s.next = ctxAt env tr := by
  unfold ctxOf ctxAt PState.next
  simp [h.lineNum, h.insts, h.labels, canon]
  cases (outInsts 0 tr).getLast? <;> rfl

theorem parseLabel_eqv [Unicode] {env : Env} {s : PState} {tr : List Outcome} (h : Eqv s (canon tr)) (l : Str) :
    (match parseLabel env s.next l with
      | .panic => none
      | .err e => some (Outcome.rejected [] e)
      | .ok l' => some (if isLocal l' then Outcome.loc l' else .label l')) = labelRes env tr l := by
  unfold parseLabel labelRes
  rw [ctxOf_eqv h]
  cases l with
  | nil => rfl
  | cons c l =>
    simp only
    by_cases hc : Unicode.isNumeric c = true
    · simp only [if_pos hc]
    · simp only [if_neg hc]
      have : s.next.labels = outLabels 0 tr := by simp [PState.next, h.labels, canon]
      rw [this]
      cases (outLabels 0 tr).lookup (c :: l) with
      | none => rfl
      | some f => simp only; cases env.input[f]? <;> rfl

theorem step_eqv [Unicode] {env : Env} {s : PState} {tr : List Outcome} (h : Eqv s (canon tr)) (raw : Str) :
    (stepKind env s raw = none ∧ lineRes env tr raw = none) ∨
    ∃ s' o, stepKind env s raw = some s' ∧ lineRes env tr raw = some o ∧ Eqv s' (canon (tr ++ [o])) := by
  obtain ⟨h1, h2, h3, h4, h5, h6, h7, h8⟩ := h
  have hE : Eqv s (canon tr) := ⟨h1, h2, h3, h4, h5, h6, h7, h8⟩
  have snoc : ∀ o, canon (tr ++ [o]) = { canon tr with
      lineNum := tr.length + 1
      insts := outInsts 0 tr ++ outInsts tr.length [o]
      labels := outLabels 0 tr ++ outLabels (outInsts 0 tr).length [o]
      locals := ((outLocs tr).step o).cur
      dropped := ((outLocs tr).step o).dropped
      errors := outErrors tr ++ outErrors [o]
      warns := outWarns tr ++ outWarns [o] } := by
    intro o
    simp [canon, outInsts_append, outLabels_append, outLocs_snoc, outErrors_append, outWarns_append]
  simp only [canon] at h1 h2 h3 h4 h5 h6 h7 h8
  unfold stepKind lineRes
  cases hk : kind raw with
  | blank =>
    refine Or.inr ⟨_, _, rfl, rfl, ?_⟩
    rw [snoc]
    constructor <;> simp [PState.next, canon, outInsts, outLabels, outErrors, outWarns, LocSt.step, *]
  | code =>
    simp only
    rw [ctxOf_eqv hE]
    unfold instRes
    cases hp : (parseInst (ctxAt env tr) (body raw)).res with
    | panic => exact Or.inl ⟨rfl, rfl⟩
    | err e =>
      refine Or.inr ⟨_, _, rfl, rfl, ?_⟩
      rw [snoc]
      constructor <;> simp [PState.next, canon, outInsts, outLabels, outErrors, outWarns, LocSt.step, *]
    | ok i =>
      refine Or.inr ⟨_, _, rfl, rfl, ?_⟩
      rw [snoc]
      constructor <;> simp [PState.next, canon, outInsts, outLabels, outErrors, outWarns, LocSt.step, *]
  | label l =>
    simp only
    rw [← parseLabel_eqv hE]
    cases hp : parseLabel env s.next l with
    | panic => exact Or.inl ⟨rfl, rfl⟩
    | err e =>
      refine Or.inr ⟨_, _, rfl, rfl, ?_⟩
      rw [snoc]
      constructor <;> simp [PState.next, canon, outInsts, outLabels, outErrors, outWarns, LocSt.step, *]
    | ok l' =>
      obtain ⟨rfl, _⟩ := parseLabel_ok hp
      by_cases hl : isLocal l' = true
      · simp only [hl, if_true]
        refine Or.inr ⟨_, _, rfl, rfl, ?_⟩
        rw [snoc]
        constructor <;> simp [PState.next, canon, outInsts, outLabels, outErrors, outWarns, LocSt.step, outLocs_n, outLocs_scope, *]
      · simp only [hl, if_neg Bool.false_ne_true]
        refine Or.inr ⟨_, _, rfl, rfl, ?_⟩
        rw [snoc]
        constructor
        case perm =>
          simp only [canon, LocSt.step]
          refine h7.append ?_
          rw [← h4]
          exact env.rt.perm _ _
        case same =>
          intro x
          simp only [canon, LocSt.step, List.filter_append, h8]
          congr 1
          rw [← h4]
          exact filter_perm (l := s.locals) (by rw [h4]; exact outLocs_keys tr) (env.rt.perm _ _) x
        all_goals simp [PState.next, canon, outInsts, outLabels, outErrors, outWarns, LocSt.step, *]

theorem run_eqv [Unicode] {env : Env} (rest : List Str) (hn : ∀ l ∈ rest, '\n' ∉ l) {s : PState} {tr : List Outcome}
    (h : Eqv s (canon tr)) :
    (runLines env s rest = none ∧ traceFrom env tr rest = none) ∨
    ∃ s' tr', runLines env s rest = some s' ∧ traceFrom env tr rest = some tr' ∧ Eqv s' (canon tr') := by
  induction rest generalizing s tr with
  | nil => exact Or.inr ⟨s, tr, rfl, rfl, h⟩
  | cons raw rest ih =>
    unfold runLines traceFrom
    rw [stepLine_eq env s raw (hn raw (by simp))]
    rcases step_eqv (env := env) h raw with ⟨e1, e2⟩ | ⟨s', o, e1, e2, h'⟩
    · exact Or.inl ⟨by rw [e1], by rw [e2]⟩
    · rw [e1, e2]
      exact ih (fun l hl => hn l (by simp [hl])) h'

theorem Eqv.refl (s : PState) : Eqv s s := ⟨rfl, rfl, rfl, rfl, rfl, rfl, List.Perm.refl _, fun _ => rfl⟩

/-- The flushed local labels after the last line. -/
def finalLocs (tr : List Outcome) : List Loc :=
  if (outLocs tr).dropped.isEmpty then [] else (outLocs tr).dropped ++ (outLocs tr).cur

/-- The final state. -/
def canonF (tr : List Outcome) : PState := { canon tr with dropped := finalLocs tr }

theorem adjust1_congr {env : Env} {s t : PState} (hi : s.insts.length = t.insts.length) (hl : s.labels = t.labels)
    (hn : s.lineNum = t.lineNum) (hd : ∀ x, s.dropped.filter (fun d => d.1 == x) = t.dropped.filter (fun d => d.1 == x))
    (i : Nat) (e : Nat × Instruction) : adjust1 env s i e = adjust1 env t i e := by
  unfold adjust1
  simp only [hi, hl, hn, hd]

/-- `parse` in terms of the trace. -/
def parseT [Unicode] (env : Env) : Option ParseOut :=
  match traceFrom env [] env.input with
  | none => none
  | some tr => match (outInsts 0 tr).zipIdx.mapM (fun p => adjust1 env (canonF tr) p.2 p.1) with
    | none => none
    | some out =>
      some ⟨outWarns tr, if (outErrors tr ++ out.flatMap (·.2)).isEmpty then .ok (out.map (·.1))
        else .error (outErrors tr ++ out.flatMap (·.2))⟩

theorem parse_eq [Unicode] (rt : Rt) (base : Word) (syms : List (Word × Str)) (text : Str) :
    parse rt base syms text = parseT ⟨rt, base, syms, lines text⟩ := by
  unfold parse parseT
  generalize hv : (⟨rt, base, syms, lines text⟩ : Env) = env
  have hi : env.input = lines text := by rw [← hv]
  simp only
  rcases run_eqv (env := env) env.input (by rw [hi]; exact lines_noNl text) (s := {}) (tr := []) (Eqv.refl _) with
    ⟨e1, e2⟩ | ⟨s, tr, e1, e2, h⟩
  · rw [e1, e2]
  · rw [e1, e2]
    simp only
    have hE : s.dropped.isEmpty = (outLocs tr).dropped.isEmpty := by
      have := h.perm
      cases hs : s.dropped with
      | nil => rw [hs] at this; simp [canon] at this; simp [this]
      | cons a l => rw [hs] at this; cases ht : (outLocs tr).dropped with
        | nil => simp [canon, ht] at this
        | cons b m => rfl
    have hf : Eqv (finalFlush env s) { canonF tr with locals := (finalFlush env s).locals } := by
      obtain ⟨h1, h2, h3, h4, h5, h6, h7, h8⟩ := h
      unfold finalFlush canonF finalLocs
      rw [hE]
      by_cases hd : (outLocs tr).dropped.isEmpty = true
      · simp only [hd, if_true]
        have h0 : s.dropped = [] := by rw [hd] at hE; simpa using hE
        constructor <;> simp [*]
      · simp only [hd]
        constructor
        case perm =>
          simp only [if_neg Bool.false_ne_true]
          refine h7.append ?_
          rw [h4]
          exact env.rt.perm _ _
        case same =>
          intro x
          simp only [if_neg Bool.false_ne_true, List.filter_append, h8]
          congr 1
          rw [h4]
          exact filter_perm (outLocs_keys tr) (env.rt.perm _ _) x
        all_goals simp [*]
    have hA : adjustAll env (finalFlush env s) = (outInsts 0 tr).zipIdx.mapM (fun p => adjust1 env (canonF tr) p.2 p.1) := by
      unfold adjustAll
      have : (finalFlush env s).insts = outInsts 0 tr := hf.insts
      rw [this]
      congr 1
      funext p
      exact adjust1_congr (by rw [hf.insts]) hf.labels hf.lineNum hf.same _ _
    rw [hA, show (finalFlush env s).errors = outErrors tr from hf.errors, show (finalFlush env s).warns = outWarns tr from hf.warns]
    cases (outInsts 0 tr).zipIdx.mapM (fun p => adjust1 env (canonF tr) p.2 p.1) <;> rfl

/-- The identity iteration order. -/
def idRt (ovf : Bool) : Rt := ⟨ovf, fun _ l => l, fun _ l => List.Perm.refl l⟩

end Mips
