/- Substrings. -/
import Verif.Lemmas.TraceL

namespace Mips
open Source

theorem isPrefixOf_iff' (p s : Str) : p.isPrefixOf s = true ↔ p <+: s := List.isPrefixOf_iff_prefix

theorem findStr_isSome (p s : Str) : (findStr p s).isSome ↔ p <:+: s := by
  induction s with
  | nil =>
    unfold findStr
    rw [List.infix_nil]
    cases p with
    | nil => simp
    | cons c p => simp [List.isPrefixOf]
  | cons c s ih =>
    unfold findStr
    rw [List.infix_cons_iff]
    by_cases h : p.isPrefixOf (c :: s) = true
    · rw [if_pos h]
      simp [isPrefixOf_iff'] at h
      simp [h]
    · rw [if_neg h]
      rw [isPrefixOf_iff'] at h
      simp only [Option.isSome_map, ih, h, false_or]

theorem infix_of_split {ch : Char} {s a : Str} (h : a ∈ split ch s) : a <:+: s := by
  induction s generalizing a with
  | nil => simp [split] at h; subst h; exact List.infix_refl _
  | cons c s ih =>
    unfold split at h
    split at h
    · simp only [List.mem_cons] at h
      rcases h with rfl | h
      · exact List.nil_infix
      · exact List.infix_cons (ih h)
    · have hs := split_ne_nil ch s
      cases e : split ch s with
      | nil => exact absurd e hs
      | cons p ps =>
        rw [e] at h ih
        simp only [List.mem_cons] at h
        rcases h with rfl | h
        · have hp : p <+: s := by
            clear ih hs
            induction s generalizing p ps with
            | nil => simp [split] at e; rw [← e.1]; exact List.prefix_refl _
            | cons d s ih2 =>
              unfold split at e
              split at e
              · simp at e; rw [e.1]; exact List.nil_prefix
              · cases e2 : split ch s with
                | nil => exact absurd e2 (split_ne_nil ch s)
                | cons q qs =>
                  rw [e2] at e
                  simp at e
                  rw [← e.1]
                  exact List.cons_prefix_cons.2 ⟨rfl, ih2 q qs e2⟩
          exact (List.cons_prefix_cons.2 ⟨rfl, hp⟩).isInfix
        · exact List.infix_cons (ih (by simp [h]))

theorem trim_infix (s : Str) : trim s <:+: s := by
  obtain ⟨p, q, e, _, _⟩ := trim_decomp s
  exact ⟨p, q, e.symm⟩

theorem uncomment_prefix (s : Str) : uncomment s <+: s := by
  rcases uncomment_split s with ⟨e, _⟩ | ⟨t, e, _⟩
  · rw [e]; exact List.prefix_refl _
  · exact ⟨t, e.symm⟩

theorem body_infix (raw : Str) : body raw <:+: raw :=
  (uncomment_prefix _).isInfix.trans (trim_infix raw)

theorem splitOnce_infix {ch : Char} {s a b : Str} (h : splitOnce ch s = some (a, b)) : a <:+: s ∧ b <:+: s := by
  obtain ⟨h1, h2⟩ := splitOnce_eq_some h
  rw [h1]
  exact ⟨(List.prefix_append _ _).isInfix, ((List.suffix_cons _ _).trans (List.suffix_append _ _)).isInfix⟩

/-! ### warnings -/

/-- Every printed warning satisfies `P`. -/
def WPost {α} (w : W α) (P : ParserWarning → Prop) : Prop := ∀ v ∈ w.warns, P v

theorem wpost_bind {α β} {w : W α} {f : α → W β} {P : ParserWarning → Prop} (h1 : WPost w P) (h2 : ∀ a, WPost (f a) P) :
    WPost (w >>= f) P := by
  obtain ⟨ws, r⟩ := w
  intro v hv
  cases r with
  | ok a =>
    have : ((⟨ws, .ok a⟩ : W α) >>= f).warns = ws ++ (f a).warns := rfl
    rw [this, List.mem_append] at hv
    exact hv.elim (h1 v) (h2 a v)
  | err e => exact h1 v hv
  | panic => exact h1 v hv

theorem wpost_lift {α} {r : Res ParserError α} {P : ParserWarning → Prop} : WPost (W.lift r) P := by intro v hv; cases hv
theorem wpost_pure {α} {a : α} {P : ParserWarning → Prop} : WPost (pure a) P := by intro v hv; cases hv
theorem wpost_fail {α} {e : ParserError} {P : ParserWarning → Prop} : WPost (W.fail e : W α) P := by intro v hv; cases hv
theorem wpost_panic {α} {P : ParserWarning → Prop} : WPost (W.panic : W α) P := by intro v hv; cases hv
theorem wpost_bad {α} {x : Ctx} {s : Str} {m n : Nat} {P : ParserWarning → Prop} : WPost (badCount x s m n : W α) P := by intro v hv; cases hv
theorem wpost_reg [Unicode] {x : Ctx} {s : Str} {P : ParserWarning → Prop} : WPost (parseReg x s) P := by intro v hv; cases hv
theorem wpost_freg [Unicode] {x : Ctx} {s : Str} {P : ParserWarning → Prop} : WPost (parseFReg x s) P := by intro v hv; cases hv
theorem wpost_creg [Unicode] {x : Ctx} {s : Str} {P : ParserWarning → Prop} : WPost (parseCReg x s) P := by intro v hv; cases hv
theorem wpost_opI {s : Str} {P : ParserWarning → Prop} : WPost (opI s) P := by intro v hv; cases hv
theorem wpost_opJ {s : Str} {P : ParserWarning → Prop} : WPost (opJ s) P := by intro v hv; cases hv
theorem wpost_opR {s : Str} {P : ParserWarning → Prop} : WPost (opR s) P := by intro v hv; cases hv
theorem wpost_mkI {s : Str} {a b : Register} {w : W Immediate} {P : ParserWarning → Prop} (h : WPost w P) : WPost (mkI s a b w) P :=
  wpost_bind wpost_opI fun _ => wpost_bind h fun _ => wpost_pure
theorem wpost_mkR {s : Str} {a b c : Register} {P : ParserWarning → Prop} : WPost (mkR s a b c) P :=
  wpost_bind wpost_opR fun _ => wpost_pure
theorem wpost_warn {w : ParserWarning} {P : ParserWarning → Prop} (h : P w) : WPost (W.warn w) P := by
  intro v hv
  simp [W.warn] at hv
  rw [hv]; exact h
theorem wpost_delay {x : Ctx} {P : ParserWarning → Prop}
    (h : P (.invalidInstructionInDelaySlot ⟨x.lineNum - 1, x.prevContent⟩ x.line)) : WPost (delayCheck x) P := by
  unfold delayCheck
  split
  · exact wpost_warn h
  · exact wpost_pure
theorem wpost_align {x : Ctx} {im : Immediate} {s : Str} {P : ParserWarning → Prop}
    (h : P (.unalignedBranch x.line s)) : WPost (alignCheck x im s) P := by
  unfold alignCheck
  split
  · exact wpost_pure
  · split
    · exact wpost_warn h
    · exact wpost_pure

/-- Everything `parse_inst` can print. -/
theorem parseArm_warns [Unicode] (x : Ctx) (cls : Cls) (op arg : Str) {P : ParserWarning → Prop}
    (h1 : P (.invalidInstructionInDelaySlot ⟨x.lineNum - 1, x.prevContent⟩ x.line))
    (h2 : ∀ s ∈ split ',' arg, P (.unalignedBranch x.line s))
    (h3 : ∀ s ∈ split ',' arg, P (.unalignedJump x.line (trim s))) : WPost (parseArm x cls op arg) P := by
  cases cls <;> simp only [parseArm, parseBranch0, parseLi, parseFloat]
  all_goals repeat' first
    | with_reducible exact wpost_lift | with_reducible exact wpost_pure | with_reducible exact wpost_fail
    | with_reducible exact wpost_panic | with_reducible exact wpost_bad | with_reducible exact wpost_reg
    | with_reducible exact wpost_freg | with_reducible exact wpost_creg | with_reducible exact wpost_opR
    | with_reducible exact wpost_opJ
    | with_reducible exact wpost_mkR | with_reducible apply wpost_mkI
    | with_reducible exact wpost_delay h1
    | with_reducible apply wpost_align
    | with_reducible apply wpost_warn
    | (apply h2; simp_all; done) | (apply h3; simp_all; done)
    | (with_reducible refine wpost_bind ?_ (fun _ => ?_))
    | split

theorem parseInst_warns [Unicode] (x : Ctx) (line : Str) {P : ParserWarning → Prop}
    (h1 : P (.invalidInstructionInDelaySlot ⟨x.lineNum - 1, x.prevContent⟩ x.line))
    (h2 : ∀ s, s <:+: line → P (.unalignedBranch x.line s))
    (h3 : ∀ s, s <:+: line → P (.unalignedJump x.line s)) : WPost (parseInst x line) P := by
  unfold parseInst
  split
  rename_i op arg he
  have ha : arg <:+: line := by
    split at he
    · rename_i p hp
      obtain ⟨p1, p2⟩ := p
      simp at he
      rw [← he.2]
      exact (splitOnce_infix hp).2
    · simp at he; rw [he.2]; exact List.nil_infix
  split
  · exact wpost_fail
  · exact parseArm_warns x _ _ _ h1 (fun s hs => h2 s ((infix_of_split hs).trans ha))
      (fun s hs => h3 _ ((trim_infix s).trans ((infix_of_split hs).trans ha)))

theorem fmtLine_isSome (n : Nat) (content : Str) (m : Nat) (b : Bool) (msg : Str) (f : Bool) (u : Str) :
    (fmtLine n content m b msg f u).isSome ↔ u <:+: content := by
  rw [← findStr_isSome]
  unfold fmtLine
  cases findStr u content <;> simp

theorem headed_isSome (h : Str) (b : Option Str) : (headed h b).isSome = b.isSome := by simp [headed]

theorem headed2_isSome (h : Str) (a b : Option Str) : (headed2 h a b).isSome = (a.isSome && b.isSome) := by
  cases a <;> cases b <;> rfl

theorem traceFrom_append [Unicode] {env : Env} {tr : List Outcome} {rest : List Str} {tr' : List Outcome}
    (h : traceFrom env tr rest = some tr') : ∃ os, tr' = tr ++ os ∧ os.length = rest.length := by
  induction rest generalizing tr with
  | nil => cases h; exact ⟨[], by simp, rfl⟩
  | cons raw rest ih =>
    unfold traceFrom at h
    cases hl : lineRes env tr raw with
    | none => rw [hl] at h; cases h
    | some o =>
      rw [hl] at h
      obtain ⟨os, h1, h2⟩ := ih h
      exact ⟨o :: os, by rw [h1]; simp, by simp [h2]⟩

/-- A trace, by index. -/
def IsTrace [Unicode] (env : Env) (ls : List Str) (tr : List Outcome) : Prop :=
  tr.length = ls.length ∧ ∀ k raw o, ls[k]? = some raw → tr[k]? = some o → lineRes env (tr.take k) raw = some o

theorem traceFrom_iff [Unicode] (env : Env) (pre : List Outcome) (rest : List Str) (os : List Outcome) :
    traceFrom env pre rest = some (pre ++ os) ↔
      (os.length = rest.length ∧ ∀ k raw o, rest[k]? = some raw → os[k]? = some o →
        lineRes env (pre ++ os.take k) raw = some o) := by
  induction rest generalizing pre os with
  | nil =>
    unfold traceFrom
    constructor
    · intro h
      simp at h
      subst h; simp
    · rintro ⟨h, _⟩
      rw [List.length_eq_zero_iff.1 h]; simp
  | cons raw rest ih =>
    unfold traceFrom
    constructor
    · intro h
      cases hl : lineRes env pre raw with
      | none => rw [hl] at h; cases h
      | some o =>
        rw [hl] at h
        simp only at h
        obtain ⟨os', h1, h2⟩ := traceFrom_append h
        have e : os = o :: os' := by
          have : pre ++ os = pre ++ (o :: os') := by rw [h1]; simp
          exact List.append_cancel_left this
        subst e
        rw [show pre ++ o :: os' = pre ++ [o] ++ os' by simp, ih] at h
        refine ⟨by simp [h2], ?_⟩
        intro k r o' hk ho
        cases k with
        | zero => simp at hk ho; subst hk; subst ho; simpa using hl
        | succ k =>
          simp only [List.getElem?_cons_succ] at hk ho
          have := h.2 k r o' hk ho
          simpa using this
    · rintro ⟨h1, h2⟩
      cases os with
      | nil => simp at h1
      | cons o os =>
        have := h2 0 raw o rfl rfl
        simp only [List.take_zero, List.append_nil] at this
        rw [this]
        simp only
        rw [show pre ++ o :: os = pre ++ [o] ++ os by simp, ih]
        refine ⟨by simpa using h1, ?_⟩
        intro k r o' hk ho
        have := h2 (k + 1) r o' (by simpa using hk) (by simpa using ho)
        simpa using this

theorem isTrace_iff [Unicode] (env : Env) (ls : List Str) (tr : List Outcome) :
    traceFrom env [] ls = some tr ↔ IsTrace env ls tr := by
  have := traceFrom_iff env [] ls tr
  simpa [IsTrace] using this

theorem mem_outWarns {tr : List Outcome} {w : ParserWarning} (h : w ∈ outWarns tr) :
    ∃ k : Nat, (∃ ws i, tr[k]? = some (Outcome.inst ws i) ∧ w ∈ ws) ∨ ∃ ws e, tr[k]? = some (Outcome.rejected ws e) ∧ w ∈ ws := by
  induction tr with
  | nil => cases h
  | cons o tr ih =>
    have next : w ∈ outWarns tr → ∃ k : Nat, (∃ ws i, (o :: tr)[k]? = some (Outcome.inst ws i) ∧ w ∈ ws) ∨
        ∃ ws e, (o :: tr)[k]? = some (Outcome.rejected ws e) ∧ w ∈ ws := by
      intro hw
      obtain ⟨k, hk⟩ := ih hw
      exact ⟨k + 1, by simpa using hk⟩
    cases o with
    | inst ws i =>
      simp only [outWarns, List.mem_append] at h
      rcases h with h | h
      · exact ⟨0, Or.inl ⟨ws, i, rfl, h⟩⟩
      · exact next h
    | rejected ws e =>
      simp only [outWarns, List.mem_append] at h
      rcases h with h | h
      · exact ⟨0, Or.inr ⟨ws, e, rfl, h⟩⟩
      · exact next h
    | _ => exact next h

theorem instRes_inst {w : W Instruction} {ws : List ParserWarning} {i : Instruction} (h : instRes w = some (.inst ws i)) :
    ws = w.warns ∧ w.res = .ok i := by
  unfold instRes at h
  split at h
  · rename_i e; simp at h; exact ⟨h.1.symm, by rw [e, h.2]⟩
  · simp at h
  · cases h

theorem instRes_rejected {w : W Instruction} {ws : List ParserWarning} {e : ParserError} (h : instRes w = some (.rejected ws e)) :
    ws = w.warns ∧ w.res = .err e := by
  unfold instRes at h
  split at h
  · simp at h
  · rename_i e; simp at h; exact ⟨h.1.symm, by rw [e, h.2]⟩
  · cases h

theorem labelRes_warns [Unicode] {env : Env} {tr : List Outcome} {l : Str} {o : Outcome} (h : labelRes env tr l = some o) :
    (∀ ws i, o ≠ .inst ws i) ∧ (∀ ws e, o = .rejected ws e → ws = []) := by
  unfold labelRes at h
  repeat' split at h
  all_goals first | (cases h; done) | (cases h; exact ⟨by simp, by simp +contextual⟩)

/-- Every printed warning can be formatted. -/
theorem trace_warns_display [Unicode] {env : Env} {tr : List Outcome} (h : IsTrace env env.input tr) :
    ∀ w ∈ outWarns tr, w.display.isSome := by
  intro w hw
  obtain ⟨k, hk⟩ := mem_outWarns hw
  obtain ⟨hlen, htr⟩ := h
  have hkl : k < tr.length := by
    rcases hk with ⟨_, _, h, _⟩ | ⟨_, _, h, _⟩ <;> exact (List.getElem?_eq_some_iff.1 h).1
  have hin : env.input[k]? = some (env.input[k]'(by omega)) := List.getElem?_eq_getElem _
  generalize env.input[k]'(by omega) = raw at hin
  have hctx : (ctxAt env (tr.take k)).content = raw := by
    unfold ctxAt; simp [Nat.min_eq_left (Nat.le_of_lt hkl), hin]
  have key : ∀ o, lineRes env (tr.take k) raw = some o → (∃ ws i, o = .inst ws i ∧ w ∈ ws) ∨ (∃ ws e, o = .rejected ws e ∧ w ∈ ws) →
      w.display.isSome := by
    intro o ho hw2
    unfold lineRes at ho
    split at ho
    · cases ho; rcases hw2 with ⟨_, _, h, _⟩ | ⟨_, _, h, _⟩ <;> cases h
    · obtain ⟨h1, h2⟩ := labelRes_warns ho
      rcases hw2 with ⟨ws, i, h, _⟩ | ⟨ws, e, h, h3⟩
      · exact absurd h (h1 ws i)
      · rw [h2 ws e h] at h3; cases h3
    · have hw3 : w ∈ (parseInst (ctxAt env (tr.take k)) (body raw)).warns := by
        rcases hw2 with ⟨ws, i, rfl, h⟩ | ⟨ws, e, rfl, h⟩
        · rw [(instRes_inst ho).1] at h; exact h
        · rw [(instRes_rejected ho).1] at h; exact h
      refine parseInst_warns (P := fun w => w.display.isSome) _ _ ?_ ?_ ?_ w hw3
      · simp only [ParserWarning.display, headed2_isSome, Bool.and_eq_true, fmtLine_isSome]
        exact ⟨trim_infix _, trim_infix _⟩
      · intro s hs
        simp only [ParserWarning.display, headed_isSome, fmtLine_isSome, Ctx.line, hctx]
        exact hs.trans (body_infix raw)
      · intro s hs
        simp only [ParserWarning.display, headed_isSome, fmtLine_isSome, Ctx.line, hctx]
        exact hs.trans (body_infix raw)
  rcases hk with ⟨ws, i, h, hw⟩ | ⟨ws, e, h, hw⟩
  · exact key _ (htr k raw _ hin h) (Or.inl ⟨ws, i, rfl, hw⟩)
  · exact key _ (htr k raw _ hin h) (Or.inr ⟨ws, e, rfl, hw⟩)

end Mips
