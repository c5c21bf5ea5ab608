/- The warnings of one line (for C59). -/
import Verif.Lemmas.LangL10
import Verif.Props.Align
import Verif.Spec.Warnings

namespace Mips
open Source Syntax Branch Operands
open Mips.Isa hiding conds Code
open Mips.Names hiding none

/-! ### the warnings of a computation -/

/-- `w` prints `d`, and if it returns, something that satisfies `P` after it -/
def WW {α} (w : W α) (d : List ParserWarning) (P : List ParserWarning → Prop) : Prop :=
  (∀ e, w.res = .err e → w.warns = d) ∧ ∀ a, w.res = .ok a → ∃ b, w.warns = d ++ b ∧ P b

theorem ww_silent {α β} {w : W α} {f : α → W β} {P : List ParserWarning → Prop} (h : w.warns = []) (hf : ∀ a, w.res = .ok a → WW (f a) [] P) :
    WW (w >>= f) [] P := by
  obtain ⟨ws, r⟩ := w
  simp only at h; subst h
  cases r with
  | ok a =>
    obtain ⟨h1, h2⟩ := hf a rfl
    exact ⟨h1, h2⟩
  | err e => exact ⟨fun _ _ => rfl, fun a h => by cases h⟩
  | panic => exact ⟨fun _ h => (by cases h), fun a h => (by cases h)⟩

theorem ww_delay {β} {x : Ctx} {f : Unit → W β} {P : List ParserWarning → Prop} (hf : WW (f ()) [] P) :
    WW (delayCheck x >>= f) (delayCheck x).warns P := by
  have hr : (delayCheck x).res = .ok () := by unfold delayCheck; split <;> rfl
  generalize delayCheck x = w at *
  obtain ⟨ws, r⟩ := w
  simp only at hr; subst hr
  refine ⟨fun e he => ?_, fun a ha => ?_⟩
  · have : (f ()).warns = [] := hf.1 e he
    show ws ++ (f ()).warns = ws
    rw [this, List.append_nil]
  · obtain ⟨b, h1, h2⟩ := hf.2 a ha
    exact ⟨b, by show ws ++ (f ()).warns = _; rw [h1]; rfl, h2⟩

theorem ww_last {α β} {w : W α} {f : α → W β} {P : List ParserWarning → Prop} (h : ∀ e, w.res ≠ .err e) (h1 : ∀ a, (f a).warns = [])
    (h2 : ∀ a e, (f a).res ≠ .err e) (hP : P w.warns) : WW (w >>= f) [] P := by
  obtain ⟨ws, r⟩ := w
  cases r with
  | ok a =>
    refine ⟨fun e he => absurd he (h2 a e), fun b hb => ⟨ws, ?_, hP⟩⟩
    show ws ++ (f a).warns = [] ++ ws
    rw [h1, List.append_nil]; rfl
  | err e => exact absurd rfl (h e)
  | panic => exact ⟨fun _ h => (by cases h), fun a h => (by cases h)⟩

theorem ww_quiet {α} {w : W α} {P : List ParserWarning → Prop} (h : w.warns = []) (hP : P []) : WW w [] P :=
  ⟨fun _ _ => h, fun _ _ => ⟨[], h, hP⟩⟩

theorem silent {α} {w : W α} (h : WPost w (fun _ => False)) : w.warns = [] := List.eq_nil_iff_forall_not_mem.2 h

theorem align_noErr {x : Ctx} {i : Immediate} {t : Str} (e : ParserError) : (alignCheck x i t).res ≠ .err e := by
  unfold alignCheck
  split
  · exact fun h => by cases h
  · split <;> exact fun h => by cases h

theorem align_warns (x : Ctx) (i : Immediate) (t : Str) : (alignCheck x i t).warns = alignOf i.asU32 (.unalignedBranch x.line t) := by
  unfold alignCheck alignOf
  cases i.asU32 with
  | none => rfl
  | some a => simp only; split <;> rfl

theorem opI_noErr {w : Str} (e : ParserError) : (opI w).res ≠ .err e := by
  unfold opI W.lift Res.ofOption; split <;> exact fun h => by cases h
theorem opJ_noErr {w : Str} (e : ParserError) : (opJ w).res ≠ .err e := by
  unfold opJ W.lift Res.ofOption; split <;> exact fun h => by cases h

theorem bind_noErr {α β} {w : W α} {f : α → W β} (h : ∀ e, w.res ≠ .err e) (h2 : ∀ a e, (f a).res ≠ .err e) (e : ParserError) : (w >>= f).res ≠ .err e := by
  obtain ⟨ws, r⟩ := w
  cases r with
  | ok a => exact h2 a e
  | err e' => exact absurd rfl (h e')
  | panic => exact fun h => by cases h

theorem mkI_noErr {w : Str} {a b : Register} {i : Immediate} (e : ParserError) : (mkI w a b (pure i)).res ≠ .err e := by
  unfold mkI
  refine bind_noErr opI_noErr (fun o e => ?_) e
  exact fun h => by cases h

/-- the warning about the address, for the given steps -/
def AlignIs [Unicode] (x : Ctx) (st : List Lang.Step) (b : List ParserWarning) : Prop :=
  (places st = [] ∧ targets st = [] ∧ b = []) ∨
  (∃ t i, places st = [t] ∧ targets st = [] ∧ parseImm x .u32 t = .ok i ∧ b = alignOf i.asU32 (.unalignedBranch x.line t)) ∨
  (∃ t q, places st = [] ∧ targets st = [t] ∧ parseTarget x (trim t) = .ok q ∧ b = alignOf q.asU32 (.unalignedJump x.line (trim t)))

section
variable [Unicode] {p : Lang.Place} {x : Ctx}

theorem arm_silent {cls : Cls} {w arg : Str} (h : slotCls cls (trim (Unicode.lower w)) = false) : (parseArm x cls w arg).warns = [] := by
  apply silent
  unfold parseArm
  generalize split ',' arg = args
  cases cls
  case br1 | br2 | b | bc | jump | jalr => cases h
  case rs1 =>
    simp only
    split
    · have hj : trim (Unicode.lower w) ≠ c!"jr" := by
        intro e; rw [e] at h; revert h; decide
      simp only [if_neg hj]
      with_reducible exact wpost_bind wpost_reg fun _ => wpost_mkR
    · exact wpost_bad
  all_goals
    simp only [parseLi, parseFloat]
    repeat' first
      | with_reducible exact wpost_lift | with_reducible exact wpost_pure | with_reducible exact wpost_fail
      | with_reducible exact wpost_panic | with_reducible exact wpost_bad | with_reducible exact wpost_reg
      | with_reducible exact wpost_freg | with_reducible exact wpost_creg | with_reducible exact wpost_opR
      | with_reducible exact wpost_mkR | with_reducible apply wpost_mkI
      | (with_reducible refine wpost_bind ?_ (fun _ => ?_))
      | split

theorem ww_branch {w t : Str} {a b : Register} {st : List Lang.Step} (h1 : places st = [t]) (h2 : targets st = []) :
    WW (do let imm ← W.lift (parseImm x .u32 t); alignCheck x imm t; mkI w a b (pure imm)) [] (AlignIs x st) := by
  refine ww_silent rfl fun i hi => ?_
  refine ww_last align_noErr (fun _ => silent (wpost_mkI wpost_pure)) (fun _ => mkI_noErr) ?_
  exact .inr (.inl ⟨t, i, h1, h2, hi, align_warns x i t⟩)

/-- The warnings of a jump or branch. -/
theorem arm_warns {cls : Cls} {w arg : Str} (hk : trim (Unicode.lower w) = mnOf w) (h : slotCls cls (mnOf w) = true) :
    match planOf cls (mnOf w) w (split ',' arg) with
    | none => (parseArm x cls w arg).warns = []
    | some st => WW (parseArm x cls w arg) (delayCheck x).warns (AlignIs x st) := by
  unfold parseArm
  generalize split ',' arg = args
  have c0 : args = [] ∨ (∃ a, args = [a]) ∨ (∃ a b, args = [a, b]) ∨ (∃ a b c, args = [a, b, c]) ∨ ∃ a b c d r, args = a :: b :: c :: d :: r := by
    rcases args with _ | ⟨a, _ | ⟨b, _ | ⟨c, _ | ⟨d, r⟩⟩⟩⟩
    · exact .inl rfl
    · exact .inr (.inl ⟨_, rfl⟩)
    · exact .inr (.inr (.inl ⟨_, _, rfl⟩))
    · exact .inr (.inr (.inr (.inl ⟨_, _, _, rfl⟩)))
    · exact .inr (.inr (.inr (.inr ⟨_, _, _, _, _, rfl⟩)))
  cases cls
  case br1 =>
    rcases c0 with rfl | ⟨a, rfl⟩ | ⟨a, b, rfl⟩ | ⟨a, b, c, rfl⟩ | ⟨a, b, c, d, r, rfl⟩ <;> try rfl
    exact ww_delay (ww_silent rfl fun _ _ => ww_branch rfl rfl)
  case br2 =>
    rcases c0 with rfl | ⟨a, rfl⟩ | ⟨a, b, rfl⟩ | ⟨a, b, c, rfl⟩ | ⟨a, b, c, d, r, rfl⟩ <;> try rfl
    exact ww_delay (ww_silent rfl fun _ _ => ww_silent rfl fun _ _ => ww_branch rfl rfl)
  case b | bc =>
    rcases c0 with rfl | ⟨a, rfl⟩ | ⟨a, b, rfl⟩ | ⟨a, b, c, rfl⟩ | ⟨a, b, c, d, r, rfl⟩ <;> try rfl
    exact ww_delay (ww_branch rfl rfl)
  case jump =>
    rcases c0 with rfl | ⟨a, rfl⟩ | ⟨a, b, rfl⟩ | ⟨a, b, c, rfl⟩ | ⟨a, b, c, d, r, rfl⟩ <;> try rfl
    refine ww_delay (ww_silent rfl fun q hq => ww_last ?_ ?_ ?_ (.inr (.inr ⟨a, q, rfl, rfl, hq, ?_⟩)))
    · intro e
      split
      · exact fun h => by cases h
      · split <;> exact fun h => by cases h
    · exact fun _ => silent (wpost_bind wpost_opJ fun _ => wpost_pure)
    · exact fun _ => bind_noErr opJ_noErr fun _ _ h => by cases h
    · unfold alignOf
      cases q.asU32 with
      | none => rfl
      | some a => simp only; split <;> rfl
  case jalr =>
    rcases c0 with rfl | ⟨a, rfl⟩ | ⟨a, b, rfl⟩ | ⟨a, b, c, rfl⟩ | ⟨a, b, c, d, r, rfl⟩ <;> try rfl
    · exact ww_delay (ww_silent rfl fun _ _ => ww_quiet (silent wpost_mkR) (.inl ⟨rfl, rfl, rfl⟩))
    · exact ww_delay (ww_silent rfl fun _ _ => ww_silent rfl fun _ _ => ww_quiet (silent wpost_mkR) (.inl ⟨rfl, rfl, rfl⟩))
  case rs1 =>
    have hj : mnOf w = c!"jr" := by simpa [slotCls, isBrCls] using h
    rcases c0 with rfl | ⟨a, rfl⟩ | ⟨a, b, rfl⟩ | ⟨a, b, c, rfl⟩ | ⟨a, b, c, d, r, rfl⟩ <;> try rfl
    simp only [hk, if_pos hj]
    exact ww_delay (ww_silent rfl fun _ _ => ww_quiet (silent wpost_mkR) (.inl ⟨rfl, rfl, rfl⟩))
  all_goals cases h

/-- The warnings of an instruction line. -/
theorem inst_warns {s : Str} (h0 : s ≠ []) :
    (mnemonic s ∉ transfers → (parseInst x s).warns = []) ∧
    (mnemonic s ∈ transfers → match Lang.plan s with
      | none => (parseInst x s).warns = []
      | some st => WW (parseInst x s) (delayCheck x).warns (AlignIs x st)) := by
  rw [parseInst_eq x h0]
  have hk : trim (Unicode.lower (firstWord s)) = mnOf (firstWord s) := rfl
  have hm : mnemonic s = mnOf (firstWord s) := hk
  rw [hm]
  have hs := slot_iff (mnOf (firstWord s))
  constructor
  · intro h
    exact arm_silent (by rw [hk]; cases hc : slotCls (classify (mnOf (firstWord s))) (mnOf (firstWord s)) with
      | false => rfl
      | true => exact absurd (hs.1 hc) h)
  · intro h
    have hc : classify (mnOf (firstWord s)) ≠ .other := (slot_cls _ h).1
    have hw : classify (mnOf (firstWord s)) ≠ .word := (slot_cls _ h).2.1
    have hsl := hs.2 h
    have hb : ¬ (classify (mnOf (firstWord s)) = .bare ∨ classify (mnOf (firstWord s)) = .tlb) := by
      rintro (e | e) <;> rw [e] at hsl <;> revert hsl <;> simp [slotCls, isBrCls]
    have hrow := row_of hc
    have := arm_warns (x := x) (arg := operandText s) hk hsl
    generalize classify (mnOf (firstWord s)) = cls at *
    have h3 : sigList (mnOf (firstWord s)) ≠ [] := by
      rw [hrow.sigs]
      cases cls <;> simp only [clsList] <;> first | (simp; done) | (split <;> simp; done) | exact absurd rfl hw | exact absurd rfl hc | exact absurd (.inl rfl) hb | exact absurd (.inr rfl) hb
    have hp : Lang.plan s = planOf cls (mnOf (firstWord s)) (firstWord s) (split ',' (operandText s)) := by
      unfold Lang.plan
      simp only [hm]
      rw [if_neg (fun h => hb (hrow.none.1 h)), if_neg (fun h => hw (hrow.word.1 h)), if_pos (by rw [any_sig]; simpa using h3), find_sig, Option.map_map, hrow.sigs]
      rfl
    rw [hp]; exact this

end
end Mips
