/- The warnings of one line. -/
import Verif.Spec.Warn
import Verif.Props.Opcode

namespace Mips
open Source Branch

/-- the warnings of an outcome -/
def Outcome.warns : Outcome → List ParserWarning
  | .inst ws _ => ws
  | .rejected ws _ => ws
  | _ => []

theorem outWarns_flat (tr : List Outcome) : outWarns tr = tr.flatMap Outcome.warns := by
  induction tr with
  | nil => rfl
  | cons o tr ih => cases o <;> simp [outWarns, Outcome.warns, ih]

theorem parseInst_about [Unicode] (x : Ctx) (s : Str) : ∀ w ∈ (parseInst x s).warns, w.about = x.line :=
  parseInst_warns (P := fun w => w.about = x.line) x s rfl (fun _ _ => rfl) (fun _ _ => rfl)

theorem outcome_about [Unicode] {rt : Rt} {m : Mipsasm} {text : Str} {tr : List Outcome} (h : IsTrace (envOf rt m text) (lines text) tr)
    {k : Nat} {raw : Str} {o : Outcome} (hk : (lines text)[k]? = some raw) (ho : tr[k]? = some o) : ∀ w ∈ o.warns, w.about = ⟨k + 1, raw⟩ := by
  have hr := h.2 k raw o hk ho
  have hs := seenAt h hk
  unfold lineRes at hr
  split at hr
  · cases hr; intro w hw; cases hw
  · obtain ⟨h1, h2⟩ := labelRes_warns hr
    intro w hw
    cases o with
    | inst ws i => exact absurd rfl (h1 ws i)
    | rejected ws e => rw [Outcome.warns, h2 ws e rfl] at hw; cases hw
    | _ => cases hw
  · intro w hw
    rw [← hs.line]
    apply parseInst_about _ (body raw)
    cases o with
    | inst ws i => rw [Outcome.warns, (instRes_inst hr).1] at hw; exact hw
    | rejected ws e => rw [Outcome.warns, (instRes_rejected hr).1] at hw; exact hw
    | _ => cases hw

theorem flat_pick {f : Outcome → List ParserWarning} : ∀ (tr : List Outcome) (j : Nat),
    (∀ (i : Nat) o, tr[i]? = some o → ∀ w ∈ f o, w.about.num = j + i + 1) → ∀ (k : Nat) o, tr[k]? = some o →
    (tr.flatMap f).filter (fun w => w.about.num = j + k + 1) = f o := by
  intro tr
  induction tr with
  | nil => intro j _ k o h; cases h
  | cons a tr ih =>
    intro j hj k o ho
    rw [List.flatMap_cons, List.filter_append]
    cases k with
    | zero =>
      simp only [List.getElem?_cons_zero, Option.some.injEq] at ho
      subst ho
      have h1 : (f a).filter (fun w => w.about.num = j + 0 + 1) = f a := by
        rw [List.filter_eq_self]
        intro w hw
        simpa using hj 0 a rfl w hw
      have h2 : (tr.flatMap f).filter (fun w => w.about.num = j + 0 + 1) = [] := by
        rw [List.filter_eq_nil_iff]
        intro w hw
        obtain ⟨o, ho, hw⟩ := List.mem_flatMap.1 hw
        obtain ⟨i, hi⟩ := List.getElem?_of_mem ho
        have := hj (i + 1) o (by simpa using hi) w hw
        simp; omega
      rw [h1, h2, List.append_nil]
    | succ k =>
      have h1 : (f a).filter (fun w => w.about.num = j + (k + 1) + 1) = [] := by
        rw [List.filter_eq_nil_iff]
        intro w hw
        have := hj 0 a rfl w hw
        simp; omega
      rw [h1, List.nil_append]
      have := ih (j + 1) (fun i o h w hw => by have := hj (i + 1) o (by simpa using h) w hw; omega) k o (by simpa using ho)
      rw [← this]
      congr 1
      funext w
      congr 2
      omega

/-- The warnings about line `k + 1` are those of the parse of the line. -/
theorem trace_about [Unicode] {rt : Rt} {m : Mipsasm} {text : Str} {tr : List Outcome} (h : IsTrace (envOf rt m text) (lines text) tr)
    {k : Nat} {o : Outcome} (ho : tr[k]? = some o) : (outWarns tr).filter (fun w => w.about.num = k + 1) = o.warns := by
  rw [outWarns_flat]
  have := flat_pick (f := Outcome.warns) tr 0 (by
    intro i o ho w hw
    have hlt : i < (lines text).length := by rw [← h.1]; exact (List.getElem?_eq_some_iff.1 ho).1
    rw [outcome_about h (List.getElem?_eq_getElem hlt) ho w hw]
    simp) k o ho
  simpa using this

/-- The warnings of an accepted line. -/
theorem line_about [Unicode] {rt : Rt} {m : Mipsasm} {text : Str} {is : List Instruction} {warns : List ParserWarning}
    (h : assemble rt m text = .ok is warns) {k : Nat} {raw : Str} (hk : (lines text)[k]? = some raw) (hc : kind raw = .code) :
    ∃ (tr : List Outcome) (x : Ctx) (p : Instruction), IsTrace (envOf rt m text) (lines text) tr ∧ outErrors tr = [] ∧
      x = ctxAt (envOf rt m text) (tr.take k) ∧ AtLine rt m (lines text) k x ∧ x.line = ⟨k + 1, raw⟩ ∧
      (parseInst x (body raw)).res = .ok p ∧
      warns.filter (fun w => w.about.num = k + 1) = (parseInst x (body raw)).warns := by
  obtain ⟨tr, x, ws, p, a, b, hT, he, hx, hat, htk, hp, _⟩ := line_done h hk hc
  obtain ⟨tr', hT', _, hw, _⟩ := assemble_ok h
  have := isTrace_unique hT hT'
  subst this
  refine ⟨tr, x, p, hT, he, hx, hat, ?_, by rw [hp], ?_⟩
  · subst hx; exact (seenAt hT hk).line
  · rw [hw, trace_about hT htk, hp]; rfl

theorem bind_ok {α β} {w : W α} {f : α → W β} {b : β} (h : (w >>= f).res = .ok b) :
    ∃ a, w.res = .ok a ∧ (f a).res = .ok b ∧ (w >>= f).warns = w.warns ++ (f a).warns := by
  obtain ⟨ws, r⟩ := w
  cases r with
  | ok a => exact ⟨a, rfl, h, rfl⟩
  | err e => cases h
  | panic => cases h

/-- Does the class check the delay slot? -/
def slotCls (c : Cls) (key : Str) : Bool :=
  isBrCls c || c = .jump || c = .jalr || (c = .rs1 && key = c!"jr")

/-- the delay-slot warnings among some warnings -/
def delays (ws : List ParserWarning) : List ParserWarning := ws.filter (·.isDelay)

theorem delays_none {ws : List ParserWarning} (h : ∀ w ∈ ws, w.isDelay = false) : delays ws = [] := by
  unfold delays
  rw [List.filter_eq_nil_iff]
  intro w hw
  rw [h w hw]; simp

theorem delays_check (x : Ctx) : delays (delayCheck x).warns =
    if x.lastDelay then [.invalidInstructionInDelaySlot ⟨x.lineNum - 1, x.prevContent⟩ x.line] else [] := by
  unfold delayCheck
  split <;> rfl

set_option maxHeartbeats 4000000 in
theorem arm_delays [Unicode] (x : Ctx) (cls : Cls) (op arg : Str) {p : Instruction} (h : (parseArm x cls op arg).res = .ok p) :
    delays (parseArm x cls op arg).warns = if slotCls cls (trim (Unicode.lower op)) then delays (delayCheck x).warns else [] := by
  have step : ∀ {α} {f : Unit → W α} {a : α}, (delayCheck x >>= f).res = .ok a → (∀ u, WPost (f u) (fun w => w.isDelay = false)) →
      delays (delayCheck x >>= f).warns = delays (delayCheck x).warns := by
    intro α f a h1 h2
    obtain ⟨u, _, _, e⟩ := bind_ok h1
    rw [e]
    unfold delays
    rw [List.filter_append]
    have : List.filter (·.isDelay) (f u).warns = [] := delays_none (h2 u)
    rw [this, List.append_nil]
  unfold parseArm at h ⊢
  revert h
  generalize split ',' arg = args
  cases cls
  case rs1 =>
    intro h
    simp only at h ⊢
    split at h
    · by_cases hj : trim (Unicode.lower op) = c!"jr"
      · simp only [if_pos hj] at h ⊢
        rw [step h (fun _ => by
          with_reducible refine wpost_bind wpost_reg (fun _ => wpost_mkR))]
        simp [slotCls, isBrCls, hj]
      · simp only [if_neg hj] at h ⊢
        rw [delays_none (wpost_bind wpost_reg fun _ => wpost_mkR)]
        simp [slotCls, isBrCls, hj]
    · cases h
  case br1 | br2 | b | bc | jump | jalr =>
    intro h
    simp only [parseBranch0] at h ⊢
    split at h
    all_goals first
      | (cases h; done)
      | (rw [step h (fun _ => by
          repeat' first
            | with_reducible exact wpost_lift | with_reducible exact wpost_pure | with_reducible exact wpost_reg
            | with_reducible exact wpost_opJ | with_reducible exact wpost_mkR | with_reducible apply wpost_mkI
            | with_reducible exact wpost_align rfl | with_reducible exact wpost_warn rfl
            | (with_reducible refine wpost_bind ?_ (fun _ => ?_))
            | split)]
         rfl)
  all_goals
    intro h
    rw [delays_none]
    · rfl
    · change WPost _ (fun w => w.isDelay = false)
      simp only [parseLi, parseFloat]
      repeat' first
        | with_reducible exact wpost_lift | with_reducible exact wpost_pure | with_reducible exact wpost_fail
        | with_reducible exact wpost_panic | with_reducible exact wpost_bad | with_reducible exact wpost_reg
        | with_reducible exact wpost_freg | with_reducible exact wpost_creg | with_reducible exact wpost_opR
        | with_reducible exact wpost_mkR | with_reducible apply wpost_mkI
        | (with_reducible refine wpost_bind ?_ (fun _ => ?_))
        | split

end Mips
