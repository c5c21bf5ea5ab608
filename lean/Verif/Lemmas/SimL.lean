/- Programs that behave alike: the parser's result does not depend on line numbers and quoted text. -/
import Verif.Lemmas.ErrL
import Verif.Lemmas.LineL
import Verif.Lemmas.ArmL
import Verif.Spec.Same

namespace Mips
open Source

variable {γ δ : Type}

/-- Related results. -/
def RSim {α} (g : ParserError → γ) : Res ParserError α → Res ParserError α → Prop
  | .ok a, .ok b => a = b
  | .err e, .err e' => g e = g e'
  | .panic, .panic => True
  | _, _ => False

/-- Related computations. -/
def WSim {α} (g : ParserError → γ) (h : ParserWarning → δ) (w v : W α) : Prop :=
  w.warns.map h = v.warns.map h ∧ RSim g w.res v.res

section
variable {α β : Type} {g : ParserError → γ} {h : ParserWarning → δ}

theorem RSim.refl (r : Res ParserError α) : RSim g r r := by cases r <;> simp [RSim]

theorem wsim_refl (w : W α) : WSim g h w w := ⟨rfl, RSim.refl _⟩

theorem wsim_bind {w v : W α} {f f' : α → W β} (h1 : WSim g h w v) (h2 : ∀ a, WSim g h (f a) (f' a)) :
    WSim g h (w >>= f) (v >>= f') := by
  obtain ⟨ws, r⟩ := w
  obtain ⟨vs, q⟩ := v
  obtain ⟨e1, e2⟩ := h1
  cases r <;> cases q <;> simp only [RSim] at e2
  · subst e2
    rename_i a
    obtain ⟨k1, k2⟩ := h2 a
    refine ⟨?_, k2⟩
    show (ws ++ (f a).warns).map h = (vs ++ (f' a).warns).map h
    rw [List.map_append, List.map_append, k1, show ws.map h = vs.map h from e1]
  · exact ⟨e1, e2⟩
  · exact ⟨e1, trivial⟩

theorem wsim_fail {e e' : ParserError} (he : g e = g e') : WSim g h (W.fail e : W α) (W.fail e') := ⟨rfl, he⟩
theorem wsim_lift {r r' : Res ParserError α} (he : RSim g r r') : WSim g h (W.lift r) (W.lift r') := ⟨rfl, he⟩

end

/-- The diagnostics seen through `g` and `h` do not depend on lines. -/
structure Lineless (g : ParserError → γ) (h : ParserWarning → δ) : Prop where
  err : ∀ e e', e.erase = e'.erase → g e = g e'
  warn : ∀ e e', e.erase = e'.erase → h e = h e'

/-- Contexts in which instructions are read alike. -/
structure CtxSim (g : ParserError → γ) (h : ParserWarning → δ) (x y : Ctx) : Prop where
  ln : Lineless g h
  ovf : x.ovf = y.ovf
  syms : x.syms = y.syms
  labels : x.labels = y.labels
  delay : WSim g h (delayCheck x) (delayCheck y)

section
variable {g : ParserError → γ} {h : ParserWarning → δ} {x y : Ctx}

theorem sim_mapErr {α} (c : CtxSim g h x y) (r : Res Str α) :
    RSim g (r.mapErr (.invalidRegister x.line)) (r.mapErr (.invalidRegister y.line)) := by
  cases r with
  | ok a => exact RSim.refl _
  | err e => exact c.ln.err _ _ rfl
  | panic => exact RSim.refl _

theorem sim_parseReg [Unicode] (c : CtxSim g h x y) (s : Str) : WSim g h (parseReg x s) (parseReg y s) := wsim_lift (sim_mapErr c _)
theorem sim_parseFReg [Unicode] (c : CtxSim g h x y) (s : Str) : WSim g h (parseFReg x s) (parseFReg y s) := wsim_lift (sim_mapErr c _)
theorem sim_parseCReg [Unicode] (c : CtxSim g h x y) (s : Str) : WSim g h (parseCReg x s) (parseCReg y s) := wsim_lift (sim_mapErr c _)

theorem sim_parseTarget (c : CtxSim g h x y) (s : Str) : RSim g (parseTarget x s) (parseTarget y s) := by
  unfold parseTarget
  rw [c.syms]
  dsimp only
  repeat' first
    | exact RSim.refl _
    | exact c.ln.err _ _ rfl
    | split

theorem sim_resBind {α β} {r r' : Res ParserError α} {f f' : α → Res ParserError β} (h1 : RSim g r r') (h2 : ∀ a, RSim g (f a) (f' a)) :
    RSim g (r.bind f) (r'.bind f') := by
  cases r <;> cases r' <;> simp only [RSim] at h1
  · subst h1; exact h2 _
  · exact h1
  · trivial

theorem sim_parseNum (c : CtxSim g h x y) (ty : IntTy) (s : Str) : RSim g (parseNum x ty s) (parseNum y ty s) := by
  unfold parseNum
  dsimp only
  repeat' first
    | exact RSim.refl _
    | exact c.ln.err _ _ rfl
    | split

theorem sim_parseImm (c : CtxSim g h x y) (ty : IntTy) (s : Str) : WSim g h (W.lift (parseImm x ty s)) (W.lift (parseImm y ty s)) := by
  apply wsim_lift
  unfold parseImm
  simp only [c.labels, c.ovf]
  split
  · exact RSim.refl _
  · split
    · exact RSim.refl _
    · split
      · exact sim_resBind (sim_parseTarget c _) fun _ => RSim.refl _
      · exact sim_parseNum c _ _

theorem sim_tgt (c : CtxSim g h x y) (s : Str) : WSim g h (W.lift (parseTarget x s)) (W.lift (parseTarget y s)) := wsim_lift (sim_parseTarget c s)

theorem sim_cond [Unicode] (c : CtxSim g h x y) (s : Str) : WSim g h (W.lift (parseFloatCond x s)) (W.lift (parseFloatCond y s)) := by
  apply wsim_lift
  unfold parseFloatCond
  split
  · exact RSim.refl _
  · exact c.ln.err _ _ rfl

theorem sim_align (c : CtxSim g h x y) (i : Immediate) (s : Str) : WSim g h (alignCheck x i s) (alignCheck y i s) := by
  unfold alignCheck
  split
  · exact wsim_refl _
  · split
    · refine ⟨?_, rfl⟩
      show [h _] = [h _]
      rw [c.ln.warn (.unalignedBranch x.line s) (.unalignedBranch y.line s) rfl]
    · exact wsim_refl _

theorem sim_unalignedJump (c : CtxSim g h x y) (s : Str) : WSim g h (W.warn (.unalignedJump x.line s)) (W.warn (.unalignedJump y.line s)) := by
  refine ⟨?_, rfl⟩
  show [h _] = [h _]
  rw [c.ln.warn (.unalignedJump x.line s) (.unalignedJump y.line s) rfl]

theorem sim_bad {α} (c : CtxSim g h x y) (s : Str) (m n : Nat) : WSim g h (badCount x s m n : W α) (badCount y s m n) :=
  wsim_fail (c.ln.err _ _ rfl)

theorem sim_mkI {op : Str} {a b : Register} {w v : W Immediate} (hw : WSim g h w v) : WSim g h (mkI op a b w) (mkI op a b v) :=
  wsim_bind (wsim_refl _) fun _ => wsim_bind hw fun _ => wsim_refl _

set_option maxHeartbeats 4000000 in
theorem sim_arm [Unicode] (c : CtxSim g h x y) (cls : Cls) (op arg : Str) : WSim g h (parseArm x cls op arg) (parseArm y cls op arg) := by
  have f1 : ∀ (s : Str), WSim g h (W.fail (.invalidImmediate x.line s) : W Instruction) (W.fail (.invalidImmediate y.line s)) :=
    fun s => wsim_fail (c.ln.err _ _ rfl)
  have f2 : ∀ (s : Str), WSim g h (W.fail (.invalidOpcode x.line s) : W Instruction) (W.fail (.invalidOpcode y.line s)) :=
    fun s => wsim_fail (c.ln.err _ _ rfl)
  unfold parseArm
  generalize split ',' arg = args
  cases cls
  all_goals simp only [parseFloat, parseBranch0, parseLi]
  all_goals repeat' first
    | with_reducible exact wsim_refl _
    | with_reducible exact sim_bad c _ _ _
    | with_reducible exact sim_parseReg c _
    | with_reducible exact sim_parseFReg c _
    | with_reducible exact sim_parseCReg c _
    | with_reducible exact sim_parseImm c _ _
    | with_reducible exact sim_tgt c _
    | with_reducible exact sim_cond c _
    | with_reducible exact sim_align c _ _
    | with_reducible exact sim_unalignedJump c _
    | with_reducible exact c.delay
    | with_reducible exact f1 _
    | with_reducible exact f2 _
    | with_reducible refine sim_mkI ?_
    | with_reducible refine wsim_bind ?_ (fun _ => ?_)
    | split

theorem sim_inst [Unicode] (c : CtxSim g h x y) (s : Str) : WSim g h (parseInst x s) (parseInst y s) := by
  by_cases hs : s = []
  · subst hs
    exact wsim_fail (c.ln.err _ _ rfl)
  · rw [parseInst_eq x hs, parseInst_eq y hs]
    exact sim_arm c _ _ _

end

/-! ### Traces -/

/-- What matters of the outcome of a line. -/
inductive Abs (γ δ : Type) where
  | label (l : Str)
  | loc (l : Str)
  | inst (ws : List δ) (i : Instruction)
  | rejected (ws : List δ) (e : γ)

/-- see `Abs` -/
def Outcome.abs (g : ParserError → γ) (h : ParserWarning → δ) : Outcome → Option (Abs γ δ)
  | .blank => none
  | .label l => some (.label l)
  | .loc l => some (.loc l)
  | .inst ws i => some (.inst (ws.map h) i)
  | .rejected ws e => some (.rejected (ws.map h) (g e))

/-- see `Abs` -/
def absT (g : ParserError → γ) (h : ParserWarning → δ) (tr : List Outcome) : List (Abs γ δ) := tr.filterMap (Outcome.abs g h)

/-- instructions -/
def absInsts : List (Abs γ δ) → List Instruction
  | [] => []
  | .inst _ i :: t => i :: absInsts t
  | _ :: t => absInsts t
/-- labels -/
def absLabels : Nat → List (Abs γ δ) → List (Str × Nat)
  | _, [] => []
  | n, .label l :: tr => (l, n) :: absLabels n tr
  | n, .inst _ _ :: tr => absLabels (n + 1) tr
  | n, _ :: tr => absLabels n tr
/-- errors -/
def absErrors : List (Abs γ δ) → List γ
  | [] => []
  | .rejected _ e :: tr => e :: absErrors tr
  | _ :: tr => absErrors tr
/-- warnings -/
def absWarns : List (Abs γ δ) → List δ
  | [] => []
  | .rejected ws _ :: tr => ws ++ absWarns tr
  | .inst ws _ :: tr => ws ++ absWarns tr
  | _ :: tr => absWarns tr
/-- local labels -/
def absStep (a : LocSt) : Abs γ δ → LocSt
  | .loc l => { a with cur := locInsert a.cur l (a.n, a.scope) }
  | .label l => { a with scope := l, dropped := a.dropped ++ a.cur, cur := [] }
  | .inst _ _ => { a with n := a.n + 1 }
  | _ => a

section
variable (g : ParserError → γ) (h : ParserWarning → δ)

theorem abs_insts (tr : List Outcome) : ∀ k, (outInsts k tr).map (·.2) = absInsts (absT g h tr) := by
  induction tr with
  | nil => intro k; rfl
  | cons o tr ih => intro k; cases o <;> simp [outInsts, absT, Outcome.abs, absInsts] <;> exact ih _
theorem abs_labels (tr : List Outcome) : ∀ n, outLabels n tr = absLabels n (absT g h tr) := by
  induction tr with
  | nil => intro k; rfl
  | cons o tr ih => intro k; cases o <;> simp [outLabels, absT, Outcome.abs, absLabels] <;> exact ih _
theorem abs_errors (tr : List Outcome) : (outErrors tr).map g = absErrors (absT g h tr) := by
  induction tr with
  | nil => rfl
  | cons o tr ih => cases o <;> simp [outErrors, absT, Outcome.abs, absErrors] <;> exact ih
theorem abs_warns (tr : List Outcome) : (outWarns tr).map h = absWarns (absT g h tr) := by
  induction tr with
  | nil => rfl
  | cons o tr ih => cases o <;> simp [outWarns, absT, Outcome.abs, absWarns] <;> exact ih
theorem abs_locs (tr : List Outcome) : outLocs tr = (absT g h tr).foldl absStep ⟨0, [], [], []⟩ := by
  unfold outLocs
  generalize (⟨0, [], [], []⟩ : LocSt) = a
  induction tr generalizing a with
  | nil => rfl
  | cons o tr ih => cases o <;> simp [absT, Outcome.abs, LocSt.step, absStep] <;> exact ih _
end

section
variable {g : ParserError → γ} {h : ParserWarning → δ} {tr tr' : List Outcome}

theorem same_insts (e : absT g h tr = absT g h tr') (k k' : Nat) : (outInsts k tr).map (·.2) = (outInsts k' tr').map (·.2) := by
  rw [abs_insts g h, abs_insts g h, e]
theorem same_labels (e : absT g h tr = absT g h tr') (n : Nat) : outLabels n tr = outLabels n tr' := by
  rw [abs_labels g h, abs_labels g h, e]
theorem same_errors (e : absT g h tr = absT g h tr') : (outErrors tr).map g = (outErrors tr').map g := by
  rw [abs_errors g h, abs_errors g h, e]
theorem same_warns (e : absT g h tr = absT g h tr') : (outWarns tr).map h = (outWarns tr').map h := by
  rw [abs_warns g h, abs_warns g h, e]
theorem same_locs (e : absT g h tr = absT g h tr') : outLocs tr = outLocs tr' := by
  rw [abs_locs g h, abs_locs g h, e]

/-- The last instruction is the same. -/
theorem same_delay (e : absT g h tr = absT g h tr') (env env' : Env) : (ctxAt env tr).lastDelay = (ctxAt env' tr').lastDelay := by
  have hi := same_insts e 0 0
  have key : ∀ l l' : List (Nat × Instruction), l.map (·.2) = l'.map (·.2) →
      (l.getLast? = none ∧ l'.getLast? = none) ∨ ∃ n n' i, l.getLast? = some (n, i) ∧ l'.getLast? = some (n', i) := by
    intro l l' hm
    have := congrArg List.getLast? hm
    rw [List.getLast?_map, List.getLast?_map] at this
    cases k1 : l.getLast? <;> cases k2 : l'.getLast? <;> rw [k1, k2] at this
    · exact .inl ⟨rfl, rfl⟩
    · cases this
    · cases this
    · rename_i p p'
      obtain ⟨n, i⟩ := p
      obtain ⟨n', i'⟩ := p'
      cases (Option.some.inj this : i = i')
      exact .inr ⟨n, n', i, rfl, rfl⟩
  unfold ctxAt
  simp only
  rcases key _ _ hi with ⟨k1, k2⟩ | ⟨n, n', i, k1, k2⟩
  · rw [k1, k2]
  · rw [k1, k2]

theorem outLabels_bound (tr : List Outcome) : ∀ n, ∀ e ∈ outLabels n tr, e.2 ≤ n + tr.length := by
  induction tr with
  | nil => intro n e he; cases he
  | cons o tr ih =>
    intro n e he
    cases o <;> simp only [outLabels, List.length_cons] at he ⊢
    · have := ih _ e he; omega
    · rcases List.mem_cons.1 he with rfl | he
      · simp
      · have := ih _ e he; omega
    · have := ih _ e he; omega
    · have := ih _ e he; omega
    · have := ih _ e he; omega

end

/-- Environments that differ only in the text. -/
structure EnvSim (env env' : Env) : Prop where
  ovf : env.rt.ovf = env'.rt.ovf
  base : env.base = env'.base
  syms : env.syms = env'.syms

/-- Lines that are read alike. -/
def LineSim [Unicode] (g : ParserError → γ) (h : ParserWarning → δ) (raw raw' : Str) : Prop :=
  (∃ l, kind raw = .label l ∧ kind raw' = .label l) ∨
  (kind raw = .code ∧ kind raw' = .code ∧ ∀ x y, CtxSim g h x y → WSim g h (parseInst x (body raw)) (parseInst y (body raw')))

/-- Lines that are read alike in the contexts that satisfy `P`; the labels satisfy `Q`. -/
def LineSimP [Unicode] (P : Ctx → Prop) (Q : Str → Prop) (g : ParserError → γ) (h : ParserWarning → δ) (raw raw' : Str) : Prop :=
  (∃ l, kind raw = .label l ∧ kind raw' = .label l ∧ (isLocal l = false → Q l)) ∨
  (kind raw = .code ∧ kind raw' = .code ∧ ∀ x y, CtxSim g h x y → P x → WSim g h (parseInst x (body raw)) (parseInst y (body raw')))

/-- `P` holds in the contexts of `env` where all labels satisfy `Q`. -/
def CtxInv (P : Ctx → Prop) (Q : Str → Prop) (env : Env) : Prop := ∀ tr : List Outcome, (∀ e ∈ outLabels 0 tr, Q e.1) → P (ctxAt env tr)

theorem LineSim.toP [Unicode] {g : ParserError → γ} {h : ParserWarning → δ} {raw raw' : Str} (hl : LineSim g h raw raw') :
    LineSimP (fun _ => True) (fun _ => True) g h raw raw' := by
  rcases hl with ⟨l, a, b⟩ | ⟨a, b, c⟩
  · exact .inl ⟨l, a, b, fun _ => trivial⟩
  · exact .inr ⟨a, b, fun x y h _ => c x y h⟩

theorem SameLines.imp {R S : Str → Str → Prop} {ls ls' : List Str} (h : SameLines R ls ls') (hi : ∀ a b, R a b → S a b) : SameLines S ls ls' := by
  induction h with
  | nil => exact .nil
  | left raw ls ls' hk _ ih => exact .left _ _ _ hk ih
  | right raw ls ls' hk _ ih => exact .right _ _ _ hk ih
  | both raw raw' ls ls' hr _ ih => exact .both _ _ _ _ (hi _ _ hr) ih

section
variable {g : ParserError → γ} {h : ParserWarning → δ}

theorem delaySim (ln : Lineless g h) {x y : Ctx} (hd : x.lastDelay = y.lastDelay) : WSim g h (delayCheck x) (delayCheck y) := by
  unfold delayCheck
  rw [hd]
  split
  · refine ⟨?_, rfl⟩
    show [h _] = [h _]
    rw [ln.warn (.invalidInstructionInDelaySlot ⟨x.lineNum - 1, x.prevContent⟩ x.line)
      (.invalidInstructionInDelaySlot ⟨y.lineNum - 1, y.prevContent⟩ y.line) rfl]
  · exact wsim_refl _

theorem ctxSim_at (ln : Lineless g h) {env env' : Env} (he : EnvSim env env') {tr tr' : List Outcome} (e : absT g h tr = absT g h tr') :
    CtxSim g h (ctxAt env tr) (ctxAt env' tr') :=
  ⟨ln, he.ovf, he.syms, same_labels e 0, delaySim ln (same_delay e env env')⟩

/-- Related outcomes of lines. -/
def OSim (g : ParserError → γ) (h : ParserWarning → δ) : Option Outcome → Option Outcome → Prop
  | none, none => True
  | some o, some o' => o.abs g h = o'.abs g h
  | _, _ => False

theorem sim_instRes {w v : W Instruction} (hw : WSim g h w v) : OSim g h (instRes w) (instRes v) := by
  obtain ⟨ws, r⟩ := w
  obtain ⟨vs, q⟩ := v
  obtain ⟨e1, e2⟩ := hw
  dsimp only at e1 e2
  cases r <;> cases q <;> simp only [RSim] at e2
  · subst e2; simp only [instRes, OSim, Outcome.abs, e1]
  · simp only [instRes, OSim, Outcome.abs, e1, e2]
  · trivial

theorem lookup_mem_snd {l : List (Str × Nat)} {k : Str} {n : Nat} (hl : l.lookup k = some n) : (k, n) ∈ l := by
  induction l with
  | nil => cases hl
  | cons e l ih =>
    obtain ⟨a, b⟩ := e
    rw [List.lookup_cons] at hl
    split at hl
    · rename_i hk
      cases hl
      have : k = a := by simpa using hk
      subst this; simp
    · exact List.mem_cons_of_mem _ (ih hl)

theorem sim_line [Unicode] {P : Ctx → Prop} {Q : Str → Prop} (ln : Lineless g h) {env env' : Env} (he : EnvSim env env')
    {tr tr' : List Outcome} (e : absT g h tr = absT g h tr') (hP : P (ctxAt env tr))
    {raw raw' : Str} (hr : LineSimP P Q g h raw raw') (h1 : tr.length < env.input.length) (h2 : tr'.length < env'.input.length) :
    OSim g h (lineRes env tr raw) (lineRes env' tr' raw') := by
  rcases hr with ⟨l, k1, k2, _⟩ | ⟨k1, k2, k3⟩
  · simp only [lineRes, k1, k2]
    unfold labelRes
    cases l with
    | nil => trivial
    | cons c l =>
      simp only
      split
      · show some _ = some _
        simp only [Outcome.abs, List.map_nil]
        congr 2
        exact ln.err _ _ rfl
      · rw [← same_labels e 0]
        cases hl : (outLabels 0 tr).lookup (c :: l) with
        | none => exact rfl
        | some f =>
          have hb := outLabels_bound tr 0 _ (lookup_mem_snd hl)
          have hb' := outLabels_bound tr' 0 _ (by rw [← same_labels e 0]; exact lookup_mem_snd hl)
          simp only at hb hb'
          simp only
          have i1 : env.input[f]? = some env.input[f] := List.getElem?_eq_getElem (by omega)
          have i2 : env'.input[f]? = some env'.input[f] := List.getElem?_eq_getElem (by omega)
          rw [i1, i2]
          show some _ = some _
          simp only [Outcome.abs, List.map_nil]
          congr 2
          exact ln.err _ _ rfl
  · simp only [lineRes, k1, k2]
    exact sim_instRes (k3 _ _ (ctxSim_at ln he e) hP)

/-- Related traces. -/
def TSim (g : ParserError → γ) (h : ParserWarning → δ) : Option (List Outcome) → Option (List Outcome) → Prop
  | none, none => True
  | some t, some t' => absT g h t = absT g h t'
  | _, _ => False

theorem absT_snoc {tr tr' : List Outcome} (e : absT g h tr = absT g h tr') {o o' : Outcome} (ho : o.abs g h = o'.abs g h) :
    absT g h (tr ++ [o]) = absT g h (tr' ++ [o']) := by
  unfold absT at *
  rw [List.filterMap_append, List.filterMap_append, e]
  simp [List.filterMap_cons, ho]

theorem absT_blank (tr : List Outcome) : absT g h (tr ++ [.blank]) = absT g h tr := by
  unfold absT
  rw [List.filterMap_append]
  simp [Outcome.abs]

theorem outLabels_snoc_Q {Q : Str → Prop} {tr : List Outcome} {o : Outcome} (h1 : ∀ e ∈ outLabels 0 tr, Q e.1) (h2 : ∀ l, o = .label l → Q l) :
    ∀ e ∈ outLabels 0 (tr ++ [o]), Q e.1 := by
  intro e he
  rw [outLabels_append] at he
  rcases List.mem_append.1 he with he | he
  · exact h1 e he
  · cases o <;> simp [outLabels] at he
    subst he
    exact h2 _ rfl

theorem lineRes_label [Unicode] {env : Env} {tr : List Outcome} {raw l : Str} (h : lineRes env tr raw = some (.label l)) :
    kind raw = .label l ∧ isLocal l = false := by
  unfold lineRes at h
  cases hk : kind raw with
  | blank => rw [hk] at h; cases h
  | code =>
    rw [hk] at h
    simp only [instRes] at h
    split at h <;> cases h
  | label m =>
    rw [hk] at h
    simp only [labelRes] at h
    split at h
    · cases h
    · split at h
      · cases h
      · split at h
        · split at h <;> cases h
        · split at h
          · cases h
          · rename_i hl
            cases h; exact ⟨rfl, by simpa using hl⟩

theorem sim_trace [Unicode] {P : Ctx → Prop} {Q : Str → Prop} (ln : Lineless g h) {env env' : Env} (he : EnvSim env env')
    (hPQ : CtxInv P Q env) {ls ls' : List Str}
    (hs : SameLines (LineSimP P Q g h) ls ls') : ∀ {tr tr' : List Outcome}, absT g h tr = absT g h tr' → (∀ e ∈ outLabels 0 tr, Q e.1) →
    tr.length + ls.length = env.input.length → tr'.length + ls'.length = env'.input.length →
    TSim g h (traceFrom env tr ls) (traceFrom env' tr' ls') := by
  induction hs with
  | nil => intro tr tr' e _ _ _; exact e
  | left raw ls ls' hk _ ih =>
    intro tr tr' e hq h1 h2
    rw [traceFrom]
    simp only [lineRes, hk]
    exact ih (by rw [absT_blank]; exact e) (outLabels_snoc_Q hq (fun _ e => by cases e)) (by simp at h1 ⊢; omega) h2
  | right raw ls ls' hk _ ih =>
    intro tr tr' e hq h1 h2
    rw [traceFrom.eq_def env' tr' (raw :: ls')]
    simp only [lineRes, hk]
    exact ih (by rw [absT_blank]; exact e) hq h1 (by simp at h2 ⊢; omega)
  | both raw raw' ls ls' hr _ ih =>
    intro tr tr' e hq h1 h2
    simp only [List.length_cons] at h1 h2
    rw [traceFrom, traceFrom]
    have := sim_line ln he e (hPQ tr hq) hr (by omega) (by omega)
    cases o1 : lineRes env tr raw <;> cases o2 : lineRes env' tr' raw' <;> rw [o1, o2] at this <;> simp only [OSim] at this
    · exact trivial
    · refine ih (absT_snoc e this) (outLabels_snoc_Q hq ?_) (by simp; omega) (by simp; omega)
      rintro l rfl
      obtain ⟨hk, hloc⟩ := lineRes_label o1
      rcases hr with ⟨l', k1, _, k3⟩ | ⟨k1, _⟩
      · rw [hk] at k1; cases k1; exact k3 hloc
      · rw [hk] at k1; cases k1

/-- Related results of label resolution. -/
def ASim (g : ParserError → γ) : Option (Instruction × List ParserError) → Option (Instruction × List ParserError) → Prop
  | none, none => True
  | some a, some a' => a.1 = a'.1 ∧ a.2.map g = a'.2.map g
  | _, _ => False

theorem asim_refl (a : Option (Instruction × List ParserError)) : ASim g a a := by cases a <;> simp [ASim]

theorem asim_bind {α} {o : Option α} {f f' : α → Option (Instruction × List ParserError)} (hf : ∀ a, ASim g (f a) (f' a)) :
    ASim g (o.bind f) (o.bind f') := by
  cases o with
  | none => trivial
  | some a => exact hf a

theorem sim_adjust (ln : Lineless g h) {env env' : Env} (he : EnvSim env env') {s s' : PState} (hi : s.insts.length = s'.insts.length)
    (hl : s.labels = s'.labels) (hd : s.dropped = s'.dropped) {n n' : Nat} (hn : 1 ≤ n ∧ n ≤ env.input.length)
    (hn' : 1 ≤ n' ∧ n' ≤ env'.input.length) (hs : 1 ≤ s.lineNum ∧ s.lineNum ≤ env.input.length)
    (hs' : 1 ≤ s'.lineNum ∧ s'.lineNum ≤ env'.input.length) (i : Nat) (p : Instruction) :
    ASim g (adjust1 env s i (n, p)) (adjust1 env' s' i (n', p)) := by
  have l1 : ∀ {e : Env} {k : Nat}, 1 ≤ k ∧ k ≤ e.input.length → ∃ t, e.input[k - 1]? = some t := by
    intro e k hk
    exact ⟨_, List.getElem?_eq_getElem (by omega)⟩
  obtain ⟨t1, e1⟩ := l1 hn
  obtain ⟨t2, e2⟩ := l1 hn'
  obtain ⟨t3, e3⟩ := l1 hs
  obtain ⟨t4, e4⟩ := l1 hs'
  have f1 : ∀ (l l' : Line) (x : Str), [g (.undefinedLabel l x)] = [g (.undefinedLabel l' x)] := fun l l' x => congrArg (fun a => [a]) (ln.err _ _ rfl)
  have f2 : ∀ (l l' : Line) (x : Str), [g (.localLabelOutOfScope l x)] = [g (.localLabelOutOfScope l' x)] := fun l l' x => congrArg (fun a => [a]) (ln.err _ _ rfl)
  have f3 : ∀ (l l' : Line) (t t' : Str) (x y : Word), [g (.branchOutOfBounds l t x y)] = [g (.branchOutOfBounds l' t' x y)] :=
    fun l l' t t' x y => congrArg (fun a => [a]) (ln.err _ _ rfl)
  unfold adjust1
  simp only [lineAt, e1, e2, e3, e4, Option.map_some, opt_bind, Option.bind_some, hi, hl, hd, he.ovf, he.base]
  split
  · exact asim_refl _
  · split
    · exact ⟨rfl, f1 _ _ _⟩
    · refine asim_bind fun r => ?_
      cases r with
      | some a => exact ⟨rfl, rfl⟩
      | none => exact ⟨rfl, f2 _ _ _⟩
  · split
    · exact asim_refl _
    · refine asim_bind fun n4 => asim_bind fun hi => ?_
      split
      · exact ⟨rfl, f3 _ _ _ _ _ _⟩
      · exact ⟨rfl, rfl⟩
  · split
    · exact ⟨rfl, f1 _ _ _⟩
    · exact asim_refl _
  · exact asim_refl _

/-- Related lists of results. -/
def LSim (g : ParserError → γ) : Option (List (Instruction × List ParserError)) → Option (List (Instruction × List ParserError)) → Prop
  | none, none => True
  | some a, some a' => a.map (·.1) = a'.map (·.1) ∧ (a.flatMap (·.2)).map g = (a'.flatMap (·.2)).map g
  | _, _ => False

theorem mapM_sim {α β} {f : α → Option (Instruction × List ParserError)} {f' : β → Option (Instruction × List ParserError)} :
    ∀ {l : List α} {l' : List β}, l.length = l'.length → (∀ (i : Nat) a b, l[i]? = some a → l'[i]? = some b → ASim g (f a) (f' b)) →
    LSim g (l.mapM f) (l'.mapM f') := by
  intro l
  induction l with
  | nil =>
    intro l' hl _
    cases l' with
    | nil => exact ⟨rfl, rfl⟩
    | cons => cases hl
  | cons a l ih =>
    intro l' hl hf
    cases l' with
    | nil => cases hl
    | cons b l' =>
      have h0 := hf 0 a b rfl rfl
      have hr := ih (l' := l') (by simpa using hl) (fun i a b h1 h2 => hf (i + 1) a b (by simpa using h1) (by simpa using h2))
      rw [List.mapM_cons, List.mapM_cons]
      cases k1 : f a <;> cases k2 : f' b <;> rw [k1, k2] at h0 <;> simp only [ASim] at h0
      · trivial
      · cases k3 : l.mapM f <;> cases k4 : l'.mapM f' <;> rw [k3, k4] at hr <;> simp only [LSim] at hr
        · exact trivial
        · refine ⟨?_, ?_⟩
          · simp only [List.map_cons, h0.1, hr.1]
          · simp only [List.flatMap_cons, List.map_append, h0.2, hr.2]

/-- Related results of `assemble`. -/
def OutSim (g : ParserError → γ) (h : ParserWarning → δ) : AsmOut → AsmOut → Prop
  | .ok is ws, .ok is' ws' => is = is' ∧ ws.map h = ws'.map h
  | .err es ws, .err es' ws' => es.map g = es'.map g ∧ ws.map h = ws'.map h
  | .panic, .panic => True
  | _, _ => False

theorem outInsts_line {tr : List Outcome} {i : Nat} {p : Nat × Instruction} (hp : (outInsts 0 tr)[i]? = some p) : 1 ≤ p.1 ∧ p.1 ≤ tr.length := by
  obtain ⟨k, ws, e1, e2, _⟩ := outInsts_get hp
  have := (List.getElem?_eq_some_iff.1 e1).1
  omega

/-- Programs of lines that are read alike have related results. -/
theorem sim_assembleP [Unicode] {P : Ctx → Prop} {Q : Str → Prop} (ln : Lineless g h) {rt rt' : Rt} {m m' : Mipsasm} {text text' : Str}
    (hPQ : CtxInv P Q (envOf rt m text)) (ho : rt.ovf = rt'.ovf) (hb : m.base = m'.base)
    (hsy : m.syms = m'.syms) (hs : SameLines (LineSimP P Q g h) (lines text) (lines text')) :
    OutSim g h (assemble rt m text) (assemble rt' m' text') := by
  have he : EnvSim (envOf rt m text) (envOf rt' m' text') := ⟨ho, hb, hsy⟩
  have ht := sim_trace ln he hPQ hs (tr := []) (tr' := []) rfl (by simp [outLabels]) (by simp [envOf]) (by simp [envOf])
  have hw : ∀ (rt : Rt) (m : Mipsasm) (text : Str) (tr : List Outcome), traceFrom (envOf rt m text) [] (lines text) = some tr →
      (((outWarns tr).all fun w => w.display.isSome) = true ∧ tr.length = (lines text).length) := by
    intro rt m text tr h
    have hT := (isTrace_iff _ _ _).1 h
    exact ⟨List.all_eq_true.2 (trace_warns_display (env := envOf rt m text) hT), hT.1⟩
  unfold assemble
  rw [parse_eq, parse_eq]
  rw [show (⟨rt, m.base, m.syms, lines text⟩ : Env) = envOf rt m text from rfl,
    show (⟨rt', m'.base, m'.syms, lines text'⟩ : Env) = envOf rt' m' text' from rfl]
  unfold parseT
  rw [show (envOf rt m text).input = lines text from rfl, show (envOf rt' m' text').input = lines text' from rfl]
  cases k1 : traceFrom (envOf rt m text) [] (lines text) <;> cases k2 : traceFrom (envOf rt' m' text') [] (lines text') <;>
    rw [k1, k2] at ht <;> simp only [TSim] at ht
  · trivial
  · rename_i tr tr'
    obtain ⟨w1, w2⟩ := hw _ _ _ _ k1
    obtain ⟨w3, w4⟩ := hw _ _ _ _ k2
    have hins := same_insts ht 0 0
    have hilen : (outInsts 0 tr).length = (outInsts 0 tr').length := by
      have := congrArg List.length hins; simpa using this
    have hlocs := same_locs ht
    have hL := mapM_sim (g := g) (l := (outInsts 0 tr).zipIdx) (l' := (outInsts 0 tr').zipIdx)
      (f := fun p => adjust1 (envOf rt m text) (canonF tr) p.2 p.1) (f' := fun p => adjust1 (envOf rt' m' text') (canonF tr') p.2 p.1)
      (by simpa using hilen) (by
        intro i a b ha hb
        rw [List.getElem?_zipIdx] at ha hb
        cases q1 : (outInsts 0 tr)[i]? with
        | none => rw [q1] at ha; cases ha
        | some p =>
          cases q2 : (outInsts 0 tr')[i]? with
          | none => rw [q2] at hb; cases hb
          | some p' =>
            rw [q1] at ha; rw [q2] at hb
            simp only [Option.map_some, Option.some.injEq] at ha hb
            subst ha hb
            have hp : p.2 = p'.2 := by
              have h1 : ((outInsts 0 tr).map (·.2))[i]? = some p.2 := by rw [List.getElem?_map, q1]; rfl
              have h2 : ((outInsts 0 tr').map (·.2))[i]? = some p'.2 := by rw [List.getElem?_map, q2]; rfl
              rw [hins, h2] at h1; exact (Option.some.inj h1).symm
            obtain ⟨n, p⟩ := p
            obtain ⟨n', p'⟩ := p'
            simp only at hp; subst hp
            have b1 := outInsts_line q1
            have b2 := outInsts_line q2
            simp only at b1 b2
            refine sim_adjust ln he (s := canonF tr) (s' := canonF tr') hilen (same_labels ht 0) ?_ ?_ ?_ ?_ ?_ _ _
            · show finalLocs tr = finalLocs tr'
              unfold finalLocs; rw [hlocs]
            · show 1 ≤ n ∧ n ≤ (lines text).length; omega
            · show 1 ≤ n' ∧ n' ≤ (lines text').length; omega
            · show 1 ≤ tr.length ∧ tr.length ≤ (lines text).length; omega
            · show 1 ≤ tr'.length ∧ tr'.length ≤ (lines text').length; omega)
    simp only
    revert hL
    generalize List.mapM (fun p => adjust1 (envOf rt m text) (canonF tr) p.2 p.1) (outInsts 0 tr).zipIdx = r1
    generalize List.mapM (fun p => adjust1 (envOf rt' m' text') (canonF tr') p.2 p.1) (outInsts 0 tr').zipIdx = r2
    intro hL
    cases r1 <;> cases r2 <;> simp only [LSim] at hL
    · trivial
    · rename_i out out'
      simp only [w1, w3, if_true]
      have hE : (outErrors tr ++ out.flatMap (·.2)).map g = (outErrors tr' ++ out'.flatMap (·.2)).map g := by
        rw [List.map_append, List.map_append, same_errors ht, hL.2]
      have hE0 : (outErrors tr ++ out.flatMap (·.2)).isEmpty = (outErrors tr' ++ out'.flatMap (·.2)).isEmpty := by
        rw [← List.isEmpty_map (f := g), hE, List.isEmpty_map]
      rw [hE0]
      cases hb : (outErrors tr' ++ out'.flatMap (·.2)).isEmpty with
      | true =>
        simp only [if_true]
        rw [hL.1, ho]
        cases assembleAll rt'.ovf (out'.map (·.1)) with
        | none => trivial
        | some is => exact ⟨rfl, same_warns ht⟩
      | false => exact ⟨hE, same_warns ht⟩

/-- The same for lines that are read alike in all contexts. -/
theorem sim_assemble [Unicode] (ln : Lineless g h) {rt rt' : Rt} {m m' : Mipsasm} {text text' : Str} (ho : rt.ovf = rt'.ovf) (hb : m.base = m'.base)
    (hsy : m.syms = m'.syms) (hs : SameLines (LineSim g h) (lines text) (lines text')) :
    OutSim g h (assemble rt m text) (assemble rt' m' text') :=
  sim_assembleP ln (P := fun _ => True) (Q := fun _ => True) (fun _ _ => trivial) ho hb hsy (SameLines.imp hs fun _ _ h => h.toP)

end
end Mips
