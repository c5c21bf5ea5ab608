/- Failed assemblies. -/
import Verif.Lemmas.ProgL
import Verif.Spec.Report

namespace Mips
open Source

/-- What a failed assembly means. -/
theorem assemble_err [Unicode] {rt : Rt} {m : Mipsasm} {text : Str} {errs : List ParserError} {warns : List ParserWarning}
    (h : assemble rt m text = .err errs warns) :
    ∃ (tr : List Outcome) (out : List (Instruction × List ParserError)), IsTrace (envOf rt m text) (lines text) tr ∧ warns = outWarns tr ∧ errs ≠ [] ∧
      errs = outErrors tr ++ out.flatMap (·.2) ∧ out.length = (outInsts 0 tr).length ∧
      ∀ i p, (outInsts 0 tr)[i]? = some p → ∃ q, out[i]? = some q ∧ adjust1 (envOf rt m text) (canonF tr) i p = some q := by
  unfold assemble at h
  rw [parse_eq] at h
  have hb : (⟨rt, m.base, m.syms, lines text⟩ : Env) = envOf rt m text := rfl
  rw [hb] at h
  unfold parseT at h
  cases ht : traceFrom (envOf rt m text) [] (envOf rt m text).input with
  | none => rw [ht] at h; cases h
  | some tr =>
    rw [ht] at h
    simp only at h
    have hT : IsTrace (envOf rt m text) (lines text) tr := (isTrace_iff _ _ _).1 ht
    cases hm : (outInsts 0 tr).zipIdx.mapM (fun p => adjust1 (envOf rt m text) (canonF tr) p.2 p.1) with
    | none => rw [hm] at h; cases h
    | some out =>
      rw [hm] at h
      simp only at h
      split at h
      · by_cases he : (outErrors tr ++ out.flatMap (·.2)).isEmpty = true
        · rw [if_pos he] at h
          simp only at h
          cases ha : assembleAll rt.ovf (out.map (·.1)) with
          | none => rw [ha] at h; cases h
          | some is' => rw [ha] at h; cases h
        · rw [if_neg he] at h
          cases h
          obtain ⟨m1, m2⟩ := (mapM_some_iff _ _ _).1 hm
          refine ⟨tr, out, hT, rfl, by simpa using he, rfl, by simpa using m1, ?_⟩
          intro i p hp
          obtain ⟨b, hb1, hb2⟩ := m2 i (p, i) (by simp [hp])
          exact ⟨b, hb1, hb2⟩
      · cases h

theorem outErrors_get {tr : List Outcome} {e : ParserError} (h : e ∈ outErrors tr) :
    ∃ (k : Nat) (ws : List ParserWarning), tr[k]? = some (Outcome.rejected ws e) := by
  induction tr with
  | nil => cases h
  | cons o tr ih =>
    cases o with
    | rejected ws e' =>
      simp only [outErrors, List.mem_cons] at h
      rcases h with rfl | h
      · exact ⟨0, ws, rfl⟩
      · obtain ⟨k, ws, hk⟩ := ih h; exact ⟨k + 1, ws, hk⟩
    | _ => simp only [outErrors] at h; obtain ⟨k, ws, hk⟩ := ih h; exact ⟨k + 1, ws, hk⟩

theorem outErrors_mem {tr : List Outcome} {k : Nat} {ws : List ParserWarning} {e : ParserError}
    (h : tr[k]? = some (Outcome.rejected ws e)) : e ∈ outErrors tr := by
  induction tr generalizing k with
  | nil => cases h
  | cons o tr ih =>
    cases k with
    | zero => simp at h; subst h; simp [outErrors]
    | succ k =>
      have := ih (k := k) (by simpa using h)
      cases o <;> simp [outErrors, this]

/-- `EPost w P`: every error of `w` satisfies `P`. -/
def EPost {α} (w : W α) (P : ParserError → Prop) : Prop := ∀ e, w.res = .err e → P e

theorem epost_bind {α β} {w : W α} {f : α → W β} {P : ParserError → Prop} (h1 : EPost w P) (h2 : ∀ a, EPost (f a) P) :
    EPost (w >>= f) P := by
  intro e he
  obtain ⟨ws, r⟩ := w
  cases r with
  | ok a => exact h2 a e he
  | err e' => cases he; exact h1 _ rfl
  | panic => cases he
theorem epost_ok {α} {a : α} {P : ParserError → Prop} : EPost (pure a : W α) P := by intro e he; cases he
theorem epost_fail {α} {e : ParserError} {P : ParserError → Prop} (h : P e) : EPost (W.fail e : W α) P := by intro e he; cases he; exact h
theorem epost_panic {α} {P : ParserError → Prop} : EPost (W.panic : W α) P := by intro e he; cases he
theorem epost_unwrap {α ε} {r : Res ε α} {P : ParserError → Prop} : EPost (W.lift r.unwrap) P := by
  intro e he; cases r <;> cases he
theorem epost_ofOption {α} {r : Option α} {P : ParserError → Prop} : EPost (W.lift (.ofOption r)) P := by
  intro e he; cases r <;> cases he
theorem epost_bad {α} {x : Ctx} {s : Str} {m n : Nat} {P : ParserError → Prop} (h : P (.invalidOperandCount x.line m n s)) :
    EPost (badCount x s m n : W α) P := epost_fail h
theorem epost_warn {w : ParserWarning} {P : ParserError → Prop} : EPost (W.warn w) P := by intro e he; cases he
theorem epost_delay {x : Ctx} {P : ParserError → Prop} : EPost (delayCheck x) P := by
  unfold delayCheck; split; exact epost_warn; exact epost_ok
theorem epost_align {x : Ctx} {i : Immediate} {s : Str} {P : ParserError → Prop} : EPost (alignCheck x i s) P := by
  unfold alignCheck; repeat' split
  exact epost_ok; exact epost_warn; exact epost_ok
theorem epost_opI {s : Str} {P : ParserError → Prop} : EPost (opI s) P := epost_ofOption
theorem epost_opJ {s : Str} {P : ParserError → Prop} : EPost (opJ s) P := epost_ofOption
theorem epost_opR {s : Str} {P : ParserError → Prop} : EPost (opR s) P := epost_ofOption
theorem epost_mkI {s : Str} {a b : Register} {w : W Immediate} {P : ParserError → Prop} (h : EPost w P) : EPost (mkI s a b w) P :=
  epost_bind epost_opI fun _ => epost_bind h fun _ => epost_ok
theorem epost_mkR {s : Str} {a b c : Register} {P : ParserError → Prop} : EPost (mkR s a b c) P :=
  epost_bind epost_opR fun _ => epost_ok

/-- The operands parsed as floating-point or coprocessor 0 registers. -/
def fpos : Cls → Nat → Bool
  | .cop0, 1 => true
  | .cop1, 1 => true
  | .fmem, 0 => true
  | .other, _ => true
  | _, _ => false

/-- What the errors of each kind of operand satisfy. -/
structure EHyp [Unicode] (x : Ctx) (cls : Cls) (op arg : Str) (P : ParserError → Prop) : Prop where
  cnt : ∀ m n, P (.invalidOperandCount x.line m n arg)
  reg : ∀ a ∈ split ',' arg, ∀ e, (Register.fromStr a) = .err e → P (.invalidRegister x.line e)
  base : ∀ a t, baseText a = some t → a ∈ split ',' arg → ∀ e, (Register.fromStr t) = .err e → P (.invalidRegister x.line e)
  freg : ∀ (i : Nat) a, (split ',' arg)[i]? = some a → fpos cls i = true → ∀ e, (FloatRegister.fromStr a) = .err e → P (.invalidRegister x.line e)
  creg : ∀ (i : Nat) a, (split ',' arg)[i]? = some a → fpos cls i = true → ∀ e, (Cop0Register.fromStr a) = .err e → P (.invalidRegister x.line e)
  imm : ∀ a ∈ split ',' arg, ∀ ty e, parseImm x ty a = .err e → P e
  immT : ∀ a ∈ split ',' arg, ∀ ty e, parseImm x ty (trim a) = .err e → P e
  li : ∀ a ∈ split ',' arg, P (.invalidImmediate x.line a)
  offs : ∀ a o, findOffset a = some o → a ∈ split ',' arg → ∀ e, parseImm x .i16 o.dropLast = .err e → P e
  offs' : ∀ a o, findOffset a = some o → a ∈ split ',' arg → ∀ e, parseImm x .i16 (removeOpenParen o) = .err e → P e
  zero : ∀ e, parseImm x .i16 c!"0" = .err e → P e
  tgt : cls = .jump → ∀ a ∈ split ',' arg, ∀ e, parseTarget x (trim a) = .err e → P e
  cond : ∀ c, (split '.' op)[1]? = some c → P (.invalidFloatCond x.line c)
  opc : P (.invalidOpcode x.line op)
  wrd : cls = .word → ∀ e, parseImm x .u32 arg = .err e → P e

theorem epost_mapErr {α ε} {r : Res ε α} {f : ε → ParserError} {P : ParserError → Prop} (h : ∀ e, r = .err e → P (f e)) :
    EPost (W.lift (r.mapErr f)) P := by
  intro e he
  cases r with
  | ok a => cases he
  | err e' => cases he; exact h _ rfl
  | panic => cases he

theorem epost_lift {α} {r : Res ParserError α} {P : ParserError → Prop} (h : ∀ e, r = .err e → P e) : EPost (W.lift r) P := h

theorem epost_reg [Unicode] {x : Ctx} {s : Str} {P : ParserError → Prop} (h : ∀ e, Register.fromStr s = .err e → P (.invalidRegister x.line e)) :
    EPost (parseReg x s) P := epost_mapErr h
theorem epost_freg [Unicode] {x : Ctx} {s : Str} {P : ParserError → Prop} (h : ∀ e, FloatRegister.fromStr s = .err e → P (.invalidRegister x.line e)) :
    EPost (parseFReg x s) P := epost_mapErr h
theorem epost_creg [Unicode] {x : Ctx} {s : Str} {P : ParserError → Prop} (h : ∀ e, Cop0Register.fromStr s = .err e → P (.invalidRegister x.line e)) :
    EPost (parseCReg x s) P := epost_mapErr h

set_option maxHeartbeats 4000000 in
theorem parseArm_errs [Unicode] (x : Ctx) (cls : Cls) (op arg : Str) {P : ParserError → Prop} (H : EHyp x cls op arg P) :
    EPost (parseArm x cls op arg) P := by
  obtain ⟨cnt, reg, base, freg, creg, imm, immT, li, offs, offs', zero, tgt, cond, opc, wrd⟩ := H
  unfold parseArm
  generalize hA : split ',' arg = args at *
  cases cls <;> simp only [parseBranch0, parseLi, parseFloat]
  all_goals repeat' first
    | with_reducible exact epost_ok
    | (with_reducible refine epost_lift (fun e he => ?_); unfold parseFloatCond at he; split at he <;> cases he; exact cond _ ‹_›)
    | with_reducible exact epost_panic
    | with_reducible exact epost_bad (cnt _ _)
    | with_reducible exact epost_delay
    | with_reducible exact epost_align
    | with_reducible exact epost_warn
    | with_reducible exact epost_mkR
    | with_reducible exact epost_opI
    | with_reducible exact epost_opR
    | with_reducible exact epost_opJ
    | with_reducible exact epost_unwrap
    | with_reducible exact epost_fail opc
    | with_reducible exact epost_fail (li _ (by simp))
    | with_reducible refine epost_mkI ?_
    | (with_reducible refine epost_lift (offs _ _ (by assumption) ?_); (simp; done))
    | (with_reducible refine epost_lift (offs' _ _ (by assumption) ?_); (simp; done))
    | with_reducible refine epost_lift zero
    | with_reducible refine epost_lift (wrd rfl)
    | (with_reducible refine epost_reg (base _ _ (by assumption) ?_); (simp; done))
    | (with_reducible refine epost_lift (immT _ ?_ _); (simp; done))
    | (with_reducible refine epost_reg (reg _ ?_); (simp; done))
    | ((with_reducible refine epost_freg (freg 0 _ ?_ ?_)) <;> (rfl; done))
    | ((with_reducible refine epost_freg (freg 1 _ ?_ ?_)) <;> (rfl; done))
    | ((with_reducible refine epost_freg (freg 2 _ ?_ ?_)) <;> (rfl; done))
    | ((with_reducible refine epost_creg (creg 1 _ ?_ ?_)) <;> (rfl; done))
    | (with_reducible refine epost_lift (imm _ ?_ _); (simp; done))
    | (with_reducible refine epost_lift (tgt rfl _ ?_); (simp; done))
    | with_reducible refine epost_bind ?_ (fun _ => ?_)
    | split
theorem parseInst_errs [Unicode] (x : Ctx) (line : Str) {P : ParserError → Prop} (h0 : line = [] → P (.invalidInstruction x.line))
    (H : ∀ cls op arg, op <:+: line → arg <:+: line → EHyp x cls op arg P) : EPost (parseInst x line) P := by
  unfold parseInst
  cases hs : splitOnce ' ' line with
  | none =>
    simp only
    split
    · rename_i h; exact epost_fail (h0 (by simpa using h))
    · exact parseArm_errs x _ _ _ (H _ _ _ (List.infix_refl _) (List.nil_infix))
  | some p =>
    obtain ⟨op, arg⟩ := p
    simp only
    obtain ⟨i1, i2⟩ := splitOnce_infix hs
    split
    · rename_i h; exact epost_fail (h0 (by simpa using h))
    · exact parseArm_errs x _ _ _ (H _ _ _ i1 i2)

theorem parseTarget_err {x : Ctx} {t : Str} {e : ParserError} (h : parseTarget x t = .err e) :
    ∃ a, e = .invalidTargetAddress x.line a := by
  unfold parseTarget at h
  simp only at h
  repeat' split at h
  all_goals first
    | cases h; done
    | (cases h; exact ⟨_, rfl⟩)

theorem parseImm_err {x : Ctx} {ty : IntTy} {t : Str} {e : ParserError} (h : parseImm x ty t = .err e) :
    (∃ a, e = .invalidTargetAddress x.line a) ∨ (∃ a, e = .invalidImmediate x.line a) := by
  unfold parseImm at h
  simp only at h
  split at h
  · cases h
  split at h
  · cases h
  split at h
  · rename_i m _
    cases ht : parseTarget x (removeParens m) with
    | ok t =>
      rw [ht] at h
      simp only [Res.bind] at h
      repeat' split at h
      all_goals cases h
    | err e' => rw [ht] at h; cases h; exact Or.inl (parseTarget_err ht)
    | panic => rw [ht] at h; cases h
  · right
    unfold parseNum at h
    simp only at h
    repeat' split at h
    all_goals first
      | cases h; done
      | (cases h; exact ⟨_, rfl⟩)

theorem parseInst_err_line [Unicode] (x : Ctx) (line : Str) : EPost (parseInst x line) (fun e => e.line = x.line ∧ e.isRef = false) := by
  refine parseInst_errs x line (fun _ => ⟨rfl, rfl⟩) (fun _ op arg _ _ => ?_)
  have hi : ∀ ty s e, parseImm x ty s = .err e → e.line = x.line ∧ e.isRef = false := by
    intro ty s e h
    rcases parseImm_err h with ⟨a, rfl⟩ | ⟨a, rfl⟩ <;> exact ⟨rfl, rfl⟩
  constructor
  case imm => intro _ _ ty e h; exact hi _ _ _ h
  case immT => intro _ _ ty e h; exact hi _ _ _ h
  case offs => intro _ _ _ _ e h; exact hi _ _ _ h
  case offs' => intro _ _ _ _ e h; exact hi _ _ _ h
  case zero => intro e h; exact hi _ _ _ h
  case wrd => intro _ e h; exact hi _ _ _ h
  case tgt =>
    intro _ _ _ e h
    obtain ⟨a, rfl⟩ := parseTarget_err h
    exact ⟨rfl, rfl⟩
  all_goals (intros; exact ⟨rfl, rfl⟩)

theorem labelRes_err [Unicode] {env : Env} {tr : List Outcome} {l : Str} {ws : List ParserWarning} {e : ParserError}
    (h : labelRes env tr l = some (.rejected ws e)) : e.line = (ctxAt env tr).line ∧ e.isRef = false := by
  unfold labelRes at h
  split at h
  · cases h
  split at h
  · cases h; exact ⟨rfl, rfl⟩
  split at h
  · split at h
    · cases h; exact ⟨rfl, rfl⟩
    · cases h
  · split at h <;> cases h

theorem lineRes_err [Unicode] {env : Env} {tr : List Outcome} {raw : Str} {ws : List ParserWarning} {e : ParserError}
    (h : lineRes env tr raw = some (.rejected ws e)) : e.line = (ctxAt env tr).line ∧ e.isRef = false := by
  unfold lineRes at h
  split at h
  · cases h
  · exact labelRes_err h
  · obtain ⟨h1, h2⟩ := instRes_rejected h
    exact parseInst_err_line _ _ e h2

/-- The error of line `k` carries the number and text of line `k`. -/
theorem trace_err_line [Unicode] {env : Env} {tr : List Outcome} (h : IsTrace env env.input tr) {k : Nat}
    {ws : List ParserWarning} {e : ParserError} (hk : tr[k]? = some (Outcome.rejected ws e)) :
    ∃ raw, env.input[k]? = some raw ∧ e.line = ⟨k + 1, raw⟩ ∧ e.isRef = false := by
  have hlt : k < tr.length := (List.getElem?_eq_some_iff.1 hk).1
  have hlt' : k < env.input.length := by rw [← h.1]; exact hlt
  have hr : env.input[k]? = some env.input[k] := List.getElem?_eq_getElem hlt'
  obtain ⟨h1, h2⟩ := lineRes_err (h.2 k _ _ hr hk)
  refine ⟨_, hr, ?_, h2⟩
  rw [h1]
  have e1 : (tr.take k).length = k := by simp; omega
  simp only [Ctx.line, ctxAt, e1, hr, Option.getD_some]

theorem outErrors_sorted {tr : List Outcome} (j : Nat)
    (h : ∀ (k : Nat) ws e, tr[k]? = some (Outcome.rejected ws e) → e.line.num = j + k + 1) :
    ((outErrors tr).map (·.line.num)).Pairwise (· < ·) ∧ ∀ e ∈ outErrors tr, j < e.line.num := by
  induction tr generalizing j with
  | nil => exact ⟨List.Pairwise.nil, by simp [outErrors]⟩
  | cons o tr ih =>
    obtain ⟨i1, i2⟩ := ih (j + 1) (fun k ws e hk => by rw [h (k + 1) ws e (by simpa using hk)]; omega)
    have i3 : ∀ e ∈ outErrors tr, j < e.line.num := fun e he => Nat.lt_of_succ_lt (i2 e he)
    cases o with
    | rejected ws e =>
      have h0 := h 0 ws e rfl
      simp only [outErrors, List.map_cons, List.pairwise_cons]
      refine ⟨⟨?_, i1⟩, ?_⟩
      · intro a ha
        obtain ⟨e', he', rfl⟩ := List.mem_map.1 ha
        have := i2 e' he'; omega
      · intro e' he'
        rcases List.mem_cons.1 he' with rfl | he'
        · omega
        · exact i3 _ he'
    | _ => exact ⟨i1, i3⟩

theorem trace_errs_sorted [Unicode] {env : Env} {tr : List Outcome} (h : IsTrace env env.input tr) :
    ((outErrors tr).map (·.line.num)).Pairwise (· < ·) :=
  (outErrors_sorted 0 (fun k ws e hk => by
    obtain ⟨raw, _, h2, _⟩ := trace_err_line h hk
    rw [h2]; simp)).1

/-- The errors of one instruction in the second pass. -/
theorem adjust1_errs {env : Env} {s : PState} {i : Nat} {p : Nat × Instruction} {a : Instruction} {es : List ParserError}
    (h : adjust1 env s i p = some (a, es)) :
    es = [] ∨
    (∃ l raw, es = [.undefinedLabel ⟨p.1, raw⟩ l] ∧ env.input[p.1 - 1]? = some raw ∧
      ((∃ op rs rt b, p.2 = .imm op rs rt (.localLabel l) b) ∨ ∃ op b, p.2 = .jump op (.label l) b ∧ s.labels.lookup l = none)) ∨
    (∃ l raw, es = [.localLabelOutOfScope ⟨p.1, raw⟩ l] ∧ env.input[p.1 - 1]? = some raw ∧
      (∃ op rs rt b, p.2 = .imm op rs rt (.localLabel l) b)) ∨
    (∃ last raw hi, es = [.branchOutOfBounds ⟨s.lineNum, last⟩ raw env.base hi] ∧ env.input[p.1 - 1]? = some raw ∧
      env.input[s.lineNum - 1]? = some last ∧
      (∃ op rs rt b addr, p.2 = .imm op rs rt (.int addr) b)) := by
  obtain ⟨n, q⟩ := p
  have hla : ∀ k l, lineAt env k = some l → ∃ raw, env.input[k - 1]? = some raw ∧ l = ⟨k, raw⟩ := by
    intro k l h
    unfold lineAt at h
    rw [Option.map_eq_some_iff] at h
    obtain ⟨raw, h1, h2⟩ := h
    exact ⟨raw, h1, h2.symm⟩
  unfold adjust1 at h
  simp only at h
  split at h
  · simp only [opt_bind, Option.bind_eq_some_iff, Option.some.injEq, Prod.mk.injEq] at h
    obtain ⟨_, _, _, rfl⟩ := h
    exact Or.inl rfl
  · split at h
    · simp only [opt_bind, Option.bind_eq_some_iff, Option.some.injEq, Prod.mk.injEq] at h
      obtain ⟨l, hl, _, rfl⟩ := h
      obtain ⟨raw, h1, rfl⟩ := hla _ _ hl
      exact Or.inr (Or.inl ⟨_, raw, rfl, h1, Or.inl ⟨_, _, _, _, rfl⟩⟩)
    · simp only [opt_bind, Option.bind_eq_some_iff] at h
      obtain ⟨r, _, h⟩ := h
      split at h
      · cases h; exact Or.inl rfl
      · simp only [Option.bind_eq_some_iff, Option.some.injEq, Prod.mk.injEq] at h
        obtain ⟨l, hl, _, rfl⟩ := h
        obtain ⟨raw, h1, rfl⟩ := hla _ _ hl
        exact Or.inr (Or.inr (Or.inl ⟨_, raw, rfl, h1, ⟨_, _, _, _, rfl⟩⟩))
  · split at h
    · cases h; exact Or.inl rfl
    · simp only [opt_bind, Option.bind_eq_some_iff] at h
      obtain ⟨n4, _, hi, _, es', hes, h⟩ := h
      simp only [Option.some.injEq, Prod.mk.injEq] at h
      obtain ⟨_, rfl⟩ := h
      split at hes
      · simp only [Option.bind_eq_some_iff, Option.some.injEq] at hes
        obtain ⟨l, hl, t, ht, rfl⟩ := hes
        obtain ⟨raw, h1, rfl⟩ := hla _ _ hl
        exact Or.inr (Or.inr (Or.inr ⟨raw, t, hi, rfl, ht, h1, ⟨_, _, _, _, _, rfl⟩⟩))
      · cases hes; exact Or.inl rfl
  · split at h
    · rename_i hn
      simp only [opt_bind, Option.bind_eq_some_iff, Option.some.injEq, Prod.mk.injEq] at h
      obtain ⟨l, hl, _, rfl⟩ := h
      obtain ⟨raw, h1, rfl⟩ := hla _ _ hl
      exact Or.inr (Or.inl ⟨_, raw, rfl, h1, Or.inr ⟨_, _, rfl, hn⟩⟩)
    · simp only [opt_bind, Option.bind_eq_some_iff, Option.some.injEq, Prod.mk.injEq] at h
      obtain ⟨_, _, _, _, _, rfl⟩ := h
      exact Or.inl rfl
  · cases h; exact Or.inl rfl

theorem lines_cons2 (c d : Char) (t : Str) (hc : c ≠ '\n') (x : Str) (xs : List Str) (h : lines (d :: t) = x :: xs) :
    lines (c :: d :: t) = if d = '\n' ∧ c = '\r' then x :: xs else (c :: x) :: xs := by
  conv => lhs; unfold lines
  rw [if_neg hc]
  simp only [h]
  by_cases hd : d = '\n'
  · subst hd
    by_cases hr : c = '\r'
    · subst hr; simp
    · simp [hr]
  · simp [hd]
theorem lines_append (a b : Str) : lines (a ++ '\n' :: b) = lines (a ++ ['\n']) ++ lines b := by
  induction a with
  | nil => simp [lines]
  | cons c s ih =>
    by_cases hc : c = '\n'
    · subst hc; simp [lines, ih]
    · cases s with
      | nil =>
        have h1 : lines ('\n' :: b) = [] :: lines b := by simp [lines]
        have h2 : lines ['\n'] = [] :: [] := by simp [lines]
        simp only [List.nil_append, List.cons_append]
        rw [lines_cons2 c '\n' _ hc _ _ h1, lines_cons2 c '\n' _ hc _ _ h2]
        split <;> rfl
      | cons d s =>
        simp only [List.cons_append] at ih ⊢
        cases hl : lines (d :: (s ++ ['\n'])) with
        | nil =>
          exfalso
          unfold lines at hl
          split at hl
          · cases hl
          · split at hl
            all_goals first | cases hl; done | (split at hl <;> cases hl)
        | cons x xs =>
          rw [hl] at ih
          rw [lines_cons2 c d _ hc _ _ hl, lines_cons2 c d _ hc _ _ ih]
          split <;> rfl

/-! ### Prefixes -/

theorem outLabels_lt {tr : List Outcome} (n : Nat) {l : Str} {a : Nat} (h : (l, a) ∈ outLabels n tr) : a < n + tr.length := by
  induction tr generalizing n with
  | nil => cases h
  | cons o tr ih =>
    cases o with
    | label l' =>
      simp only [outLabels, List.mem_cons] at h
      rcases h with h | h
      · cases h; simp
      · have := ih n h; simp; omega
    | inst ws i => have := ih (n + 1) h; simp; omega
    | _ => have := ih n h; simp; omega

theorem lookup_mem' {l : List (Str × Nat)} {k : Str} {v : Nat} (h : l.lookup k = some v) : (k, v) ∈ l := by
  induction l with
  | nil => cases h
  | cons e l ih =>
    obtain ⟨a, b⟩ := e
    rw [List.lookup_cons] at h
    split at h
    · rename_i hk; cases h; simp at hk; subst hk; exact List.mem_cons_self
    · exact List.mem_cons_of_mem _ (ih h)

/-- Two environments with the same configuration whose inputs agree on the first `n` lines. -/
structure SamePre (e f : Env) (n : Nat) : Prop where
  ovf : e.rt.ovf = f.rt.ovf
  syms : e.syms = f.syms
  input : ∀ k, k < n → e.input[k]? = f.input[k]?

theorem ctxAt_pre {e f : Env} {n : Nat} (h : SamePre e f n) {tr : List Outcome} (ht : tr.length < n) : ctxAt e tr = ctxAt f tr := by
  unfold ctxAt
  rw [h.ovf, h.syms, h.input _ ht, h.input (tr.length + 1 - 2) (by omega)]

theorem lineRes_pre [Unicode] {e f : Env} {n : Nat} (h : SamePre e f n) {tr : List Outcome} (ht : tr.length < n) (raw : Str) :
    lineRes e tr raw = lineRes f tr raw := by
  unfold lineRes
  rw [ctxAt_pre h ht]
  cases kind raw with
  | blank => rfl
  | code => rfl
  | label l =>
    simp only
    unfold labelRes
    rw [ctxAt_pre h ht]
    cases l with
    | nil => rfl
    | cons c l =>
      simp only
      split
      · rfl
      · cases hl : (outLabels 0 tr).lookup (c :: l) with
        | none => rfl
        | some first =>
          have := outLabels_lt 0 (lookup_mem' hl)
          simp only
          rw [h.input first (by omega)]

theorem isTrace_pre [Unicode] {e f : Env} {a b : List Str} (h : SamePre e f a.length) {tr : List Outcome}
    (ht : IsTrace e (a ++ b) tr) : IsTrace f a (tr.take a.length) := by
  have hl : tr.length = a.length + b.length := by simpa using ht.1
  refine ⟨by simp; omega, ?_⟩
  intro k raw o h1 h2
  have hk : k < a.length := (List.getElem?_eq_some_iff.1 h1).1
  rw [List.getElem?_take, if_pos hk] at h2
  have := ht.2 k raw o (by rw [List.getElem?_append_left hk]; exact h1) h2
  rw [List.take_take, Nat.min_eq_left (Nat.le_of_lt hk), ← lineRes_pre h (by simp; omega)]
  exact this

theorem isTrace_unique [Unicode] {e : Env} {a : List Str} {tr tr' : List Outcome} (h : IsTrace e a tr) (h' : IsTrace e a tr') : tr = tr' := by
  have h1 := (isTrace_iff _ _ _).2 h
  have h2 := (isTrace_iff _ _ _).2 h'
  rw [h1] at h2
  exact Option.some.inj h2

/-- Anything but a panic. -/
theorem assemble_errors [Unicode] {rt : Rt} {m : Mipsasm} {text : Str} {es : List ParserError}
    (h : (assemble rt m text).errors = some es) :
    ∃ (tr : List Outcome) (out : List (Instruction × List ParserError)), IsTrace (envOf rt m text) (lines text) tr ∧
      es = outErrors tr ++ out.flatMap (·.2) ∧ out.length = (outInsts 0 tr).length ∧
      ∀ i p, (outInsts 0 tr)[i]? = some p → ∃ q, out[i]? = some q ∧ adjust1 (envOf rt m text) (canonF tr) i p = some q := by
  cases ha : assemble rt m text with
  | panic => rw [ha] at h; cases h
  | err es' ws =>
    rw [ha] at h; cases h
    obtain ⟨tr, out, h1, _, _, h2, h3, h4⟩ := assemble_err ha
    exact ⟨tr, out, h1, h2, h3, h4⟩
  | ok is ws =>
    rw [ha] at h; cases h
    obtain ⟨tr, h1, h2, _, h3, h4⟩ := assemble_ok ha
    obtain ⟨out, ho⟩ := mapM_exists (fun p : (Nat × Instruction) × Nat => adjust1 (envOf rt m text) (canonF tr) p.2 p.1) (outInsts 0 tr).zipIdx (by
      rintro ⟨p, i⟩ hp
      rw [List.mem_zipIdx_iff_getElem?] at hp
      obtain ⟨a, b, hd, _⟩ := h4 i p (by simpa using hp)
      exact ⟨_, hd.1⟩)
    obtain ⟨o1, o2⟩ := (mapM_some_iff _ _ _).1 ho
    refine ⟨tr, out, h1, ?_, by simpa using o1, ?_⟩
    · rw [h2, List.nil_append, eq_comm, List.flatMap_eq_nil_iff]
      intro q hq
      obtain ⟨i, hi⟩ := List.getElem?_of_mem hq
      have hlt : i < (outInsts 0 tr).length := by
        have := (List.getElem?_eq_some_iff.1 hi).1
        simp at o1; omega
      obtain ⟨b, hb1, hb2⟩ := o2 i ((outInsts 0 tr)[i], i) (by simp [hlt])
      rw [hi] at hb1; cases hb1
      obtain ⟨a, c, hd, _⟩ := h4 i _ (List.getElem?_eq_getElem hlt)
      rw [hd.1] at hb2
      cases hb2; rfl
    · intro i p hp
      obtain ⟨b, hb1, hb2⟩ := o2 i (p, i) (by simp [hp])
      exact ⟨b, hb1, hb2⟩

theorem ref_isRef {env : Env} {s : PState} {insts : List (Nat × Instruction)} {out : List (Instruction × List ParserError)}
    (hl : out.length = insts.length)
    (h : ∀ (i : Nat) p, insts[i]? = some p → ∃ q, out[i]? = some q ∧ adjust1 env s i p = some q) :
    ∀ e ∈ out.flatMap (·.2), e.isRef = true ∧ ∃ i p q, insts[i]? = some p ∧ adjust1 env s i p = some q ∧ q.2 = [e] := by
  intro e he
  obtain ⟨q, hq, heq⟩ := List.mem_flatMap.1 he
  obtain ⟨i, hi⟩ := List.getElem?_of_mem hq
  have hlt : i < insts.length := by
    have := (List.getElem?_eq_some_iff.1 hi).1; omega
  obtain ⟨q', hq', ha⟩ := h i _ (List.getElem?_eq_getElem hlt)
  rw [hi] at hq'; cases hq'
  obtain ⟨a, es⟩ := q
  simp only at heq
  rcases adjust1_errs ha with rfl | ⟨l, raw, rfl, h1, _⟩ | ⟨l, raw, rfl, h1, _⟩ | ⟨last, raw, hi', rfl, h1, h2, _⟩
  · cases heq
  all_goals
    simp only [List.mem_singleton] at heq
    subst heq
    exact ⟨rfl, i, _, _, List.getElem?_eq_getElem hlt, ha, rfl⟩

end Mips
