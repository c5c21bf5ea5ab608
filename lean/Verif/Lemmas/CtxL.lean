/- How the outcome of a line depends on the parser's context. -/
import Verif.Lemmas.TraceL

namespace Mips
open Source

/-! ### dependence on the runtime, the base address and the symbol table -/

theorem parseTarget_syms (x : Ctx) (syms : List (Word × Str)) (h : ∀ n, findSym syms n = findSym x.syms n) (t : Str) :
    parseTarget { x with syms := syms } t = parseTarget x t := by
  unfold parseTarget
  simp only [h]
  rfl

theorem parseImm_syms (x : Ctx) (syms : List (Word × Str)) (h : ∀ n, findSym syms n = findSym x.syms n) (ty : IntTy) (t : Str) :
    parseImm { x with syms := syms } ty t = parseImm x ty t := by
  unfold parseImm
  simp only [parseTarget_syms x syms h]
  rfl

theorem parseArm_syms [Unicode] (x : Ctx) (syms : List (Word × Str)) (h : ∀ n, findSym syms n = findSym x.syms n)
    (cls : Cls) (op arg : Str) : parseArm { x with syms := syms } cls op arg = parseArm x cls op arg := by
  have h1 := parseTarget_syms x syms h
  have h2 := parseImm_syms x syms h
  cases cls <;> simp only [parseArm, parseBranch0, parseLi, parseFloat, h1, h2] <;> rfl

theorem parseInst_syms [Unicode] (x : Ctx) (syms : List (Word × Str)) (h : ∀ n, findSym syms n = findSym x.syms n)
    (line : Str) : parseInst { x with syms := syms } line = parseInst x line := by
  unfold parseInst
  simp only [parseArm_syms x syms h]
  rfl

/-- Two environments that the line loop cannot distinguish. -/
structure SameEnv (e f : Env) : Prop where
  ovf : e.rt.ovf = f.rt.ovf
  syms : ∀ n, findSym e.syms n = findSym f.syms n
  input : e.input = f.input

theorem lineRes_congr [Unicode] {e f : Env} (h : SameEnv e f) (tr : List Outcome) (raw : Str) :
    lineRes e tr raw = lineRes f tr raw := by
  have hc : ctxAt e tr = { ctxAt f tr with syms := e.syms } := by
    unfold ctxAt; simp [h.ovf, h.input]
  have hl : (ctxAt e tr).line = (ctxAt f tr).line := by rw [hc]; rfl
  unfold lineRes
  have h1 : ∀ l, labelRes e tr l = labelRes f tr l := by
    intro l; unfold labelRes; rw [hl, h.input]
  have h2 : parseInst (ctxAt e tr) (body raw) = parseInst (ctxAt f tr) (body raw) := by
    rw [hc]; exact parseInst_syms _ _ h.syms _
  rw [h2]
  simp only [h1]

theorem traceFrom_congr [Unicode] {e f : Env} (h : SameEnv e f) (rest : List Str) (tr : List Outcome) :
    traceFrom e tr rest = traceFrom f tr rest := by
  induction rest generalizing tr with
  | nil => rfl
  | cons raw rest ih =>
    unfold traceFrom
    rw [lineRes_congr h]
    cases lineRes f tr raw with
    | none => rfl
    | some o => exact ih _

theorem adjust1_env {e f : Env} (h1 : e.rt.ovf = f.rt.ovf) (h2 : e.base = f.base) (h3 : e.input = f.input)
    (s : PState) (i : Nat) (p : Nat × Instruction) : adjust1 e s i p = adjust1 f s i p := by
  unfold adjust1 lineAt
  rw [h1, h2, h3]

theorem parseT_congr [Unicode] {e f : Env} (h : SameEnv e f) (hb : e.base = f.base) : parseT e = parseT f := by
  unfold parseT
  rw [traceFrom_congr h, h.input]
  cases traceFrom f [] f.input with
  | none => rfl
  | some tr =>
    simp only
    have : (fun p : (Nat × Instruction) × Nat => adjust1 e (canonF tr) p.2 p.1) =
        fun p => adjust1 f (canonF tr) p.2 p.1 := by
      funext p; exact adjust1_env h.ovf hb h.input _ _ _
    rw [this]

theorem assemble_congr [Unicode] {rt rt' : Rt} {m m' : Mipsasm} (hr : rt.ovf = rt'.ovf) (hb : m.base = m'.base)
    (hs : ∀ n, findSym m.syms n = findSym m'.syms n) (text : Str) : assemble rt m text = assemble rt' m' text := by
  unfold assemble
  rw [parse_eq, parse_eq, parseT_congr (e := ⟨rt, m.base, m.syms, lines text⟩) (f := ⟨rt', m'.base, m'.syms, lines text⟩) ⟨hr, hs, rfl⟩ hb, hr]

theorem findSym_perm {a b : List (Word × Str)} (hp : a.Perm b) (hn : (a.map (·.2)).Nodup) (n : Str) :
    findSym a n = findSym b n := by
  have key : ∀ l : List (Word × Str), (l.map (·.2)).Nodup → ∀ w, findSym l n = some w ↔ (w, n) ∈ l := by
    intro l
    induction l with
    | nil => simp [findSym]
    | cons e l ih =>
      intro hl w
      simp only [List.map_cons, List.nodup_cons] at hl
      unfold findSym at *
      rw [List.find?_cons]
      by_cases he : e.2 = n
      · simp only [he, BEq.rfl, Option.map_some, Option.some.injEq, List.mem_cons]
        constructor
        · rintro rfl; left; rw [← he]
        · rintro (h | h)
          · rw [← h]
          · exact absurd (List.mem_map.2 ⟨_, h, he.symm⟩) hl.1
      · have : (e.2 == n) = false := by simp [he]
        rw [this]
        simp only [List.mem_cons]
        rw [ih hl.2 w]
        constructor
        · exact Or.inr
        · rintro (h | h)
          · rw [← h] at he; exact absurd rfl he
          · exact h
  apply Option.ext
  intro w
  rw [key a hn, key b ((hp.map _).nodup_iff.1 hn)]
  exact hp.mem_iff

theorem symAt_perm {a b : List (Word × Str)} (hp : a.Perm b) (hn : (a.map (·.1)).Nodup) (w : Word) :
    symAt a w = symAt b w := by
  have key : ∀ l : List (Word × Str), (l.map (·.1)).Nodup → ∀ n, symAt l w = some n ↔ (w, n) ∈ l := by
    intro l
    induction l with
    | nil => simp [symAt]
    | cons e l ih =>
      intro hl n
      simp only [List.map_cons, List.nodup_cons] at hl
      unfold symAt at *
      obtain ⟨e1, e2⟩ := e
      rw [List.lookup_cons]
      by_cases he : w = e1
      · subst he
        simp only [BEq.rfl, Option.some.injEq, List.mem_cons, Prod.mk.injEq, true_and]
        constructor
        · rintro rfl; left; rfl
        · rintro (h | h)
          · exact h.symm
          · exact absurd (List.mem_map.2 ⟨_, h, rfl⟩) hl.1
      · have : (w == e1) = false := by simp [he]
        rw [this]
        simp only [List.mem_cons, Prod.mk.injEq, he, false_and, false_or]
        exact ih hl.2 n
  apply Option.ext
  intro n
  rw [key a hn, key b ((hp.map _).nodup_iff.1 hn)]
  exact hp.mem_iff

end Mips
