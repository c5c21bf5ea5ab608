/- What an instruction line refers to (for C56). -/
import Verif.Lemmas.LangL8

namespace Mips
open Source Syntax Branch Operands
open Mips.Isa hiding conds
open Mips.Names hiding none

/-- the constants among the steps -/
def consts : List Lang.Step → List Str
  | [] => []
  | .const _ t :: st => t :: consts st
  | .offset strip s :: st => (match findOffset s with
    | some o => [if strip then removeOpenParen o else o.dropLast]
    | none => []) ++ consts st
  | _ :: st => consts st

/-- the targets among the steps -/
def targets : List Lang.Step → List Str
  | [] => []
  | .target t :: st => t :: targets st
  | _ :: st => targets st

/-- the places to branch to among the steps -/
def places : List Lang.Step → List Str
  | [] => []
  | .const r t :: st => if r = Lang.addr then t :: places st else places st
  | _ :: st => places st

/-- a constant that refers to no label and is no place to branch to -/
def Still : Immediate → Prop
  | .short _ => True
  | .long _ => True
  | _ => False

/-- what an accepted line with the given steps is parsed to -/
def RefPost (x : Ctx) (cls : Cls) (w : Str) (st : List Lang.Step) : Instruction → Prop
  | .imm o _ _ i b => b = [] ∧ ITypeOp.fromStr w = some o ∧ cls ≠ .word ∧ targets st = [] ∧
      ((consts st = [] ∧ places st = [] ∧ Still i) ∨ (∃ t ty, consts st = [t] ∧ places st = [] ∧ NotInt i ∧ parseImm x ty t = .ok i) ∨
       (∃ t, consts st = [t] ∧ places st = [t] ∧ isBrCls cls = true ∧ parseImm x .u32 t = .ok i))
  | .reg _ _ _ _ _ _ => consts st = [] ∧ targets st = [] ∧ places st = [] ∧ cls ≠ .word
  | .jump _ q b => consts st = [] ∧ places st = [] ∧ cls ≠ .word ∧ b = [] ∧ ∃ t, targets st = [t] ∧ parseTarget x (trim t) = .ok q
  | .bytes _ => consts st = [] ∧ targets st = [] ∧ places st = [] ∧ cls = .word

section
variable [Unicode] {p : Lang.Place} {x : Ctx} {cls : Cls} {w : Str} {st : List Lang.Step}

theorem leafR {a b c : Register} (h1 : consts st = []) (h2 : targets st = []) (h3 : places st = []) (h4 : cls ≠ .word) :
    RPost (mkR w a b c) (RefPost x cls w st) := rpost_mkR fun _ _ => ⟨h1, h2, h3, h4⟩
theorem leafP {o : RTypeOp} {a b c : Register} {v : Word} {l : List Word} (h1 : consts st = []) (h2 : targets st = []) (h3 : places st = []) (h4 : cls ≠ .word) :
    RPost (pure (.reg o a b c v l) : W Instruction) (RefPost x cls w st) := rpost_pure ⟨h1, h2, h3, h4⟩
theorem leafI {a b : Register} {ty : IntTy} {s : Str} (h1 : consts st = [s]) (h2 : targets st = []) (h3 : places st = []) (h4 : cls ≠ .word)
    (h5 : ty = .i16 ∨ ty = .u16 ∨ ty = .i64) : RPost (mkI w a b (W.lift (parseImm x ty s))) (RefPost x cls w st) :=
  rpost_mkI rpost_imm fun _ _ ho hi => ⟨rfl, ho, h4, h2, .inr (.inl ⟨s, ty, h1, h3, parseImm_notInt hi h5, hi⟩)⟩
theorem leafB {a b : Register} {i : Immediate} {s : Str} (h1 : consts st = [s]) (h2 : targets st = []) (h3 : places st = [s]) (h4 : cls ≠ .word)
    (h5 : isBrCls cls = true) (hi : parseImm x .u32 s = .ok i) : RPost (mkI w a b (pure i)) (RefPost x cls w st) :=
  rpost_mkI (Q := (· = i)) (rpost_pure rfl) fun _ _ ho hi' => ⟨rfl, ho, h4, h2, .inr (.inr ⟨s, h1, h3, h5, by rw [hi']; exact hi⟩)⟩
theorem leafS {a b : Register} {i : Immediate} (h1 : consts st = []) (h2 : targets st = []) (h3 : places st = []) (h4 : cls ≠ .word)
    (h5 : Still i) : RPost (mkI w a b (pure i)) (RefPost x cls w st) :=
  rpost_mkI (Q := (· = i)) (rpost_pure rfl) fun _ _ ho hi' => ⟨rfl, ho, h4, h2, .inl ⟨h1, h3, by rw [hi']; exact h5⟩⟩
theorem leafZ (hx : Sees p x) {a b : Register} (h1 : consts st = []) (h2 : targets st = []) (h3 : places st = []) (h4 : cls ≠ .word) :
    RPost (mkI w a b (W.lift (parseImm x .i16 c!"0"))) (RefPost x cls w st) := by
  refine rpost_mkI rpost_imm fun _ i ho hi => ⟨rfl, ho, h4, h2, .inl ⟨h1, h3, ?_⟩⟩
  have hr : ¬ Lang.RefersTo p c!"0" := by
    rintro (h | ⟨⟨_, c, t, e, h⟩, _⟩)
    · revert h; decide
    · have e0 : trim c!"0" = ['0'] := by decide
      rw [e0] at e; cases e; rw [Unicode.isNumeric_ascii _ (by decide)] at h; revert h; decide
  rw [hx.refers] at hr
  unfold parseImm at hi
  simp only [not_or] at hi hr
  rw [if_neg hr.1, if_neg hr.2] at hi
  have e1 : findImm (trim c!"0") = none := by decide
  have e2 : ∀ x : Ctx, parseNum x .i16 (trim c!"0") = .ok (.short 0#16) := by intro x; rfl
  rw [e1, e2] at hi
  cases hi; trivial

set_option maxHeartbeats 2000000 in
theorem arm_refs (hx : Sees p x) {cls : Cls} {w arg : Str} (hrow : Row cls (mnOf w)) (hk : trim (Unicode.lower w) = mnOf w)
    (h1 : cls ≠ .bare) (h2 : cls ≠ .tlb) (h3 : cls ≠ .word) (h4 : cls ≠ .other) {st : List Lang.Step} (hst : planOf cls (mnOf w) w (split ',' arg) = some st) :
    RPost (parseArm x cls w arg) (RefPost x cls w st) := by
  unfold parseArm
  revert hst
  generalize split ',' arg = args
  intro hst
  have c0 : args = [] ∨ (∃ a, args = [a]) ∨ (∃ a b, args = [a, b]) ∨ (∃ a b c, args = [a, b, c]) ∨ ∃ a b c d r, args = a :: b :: c :: d :: r := by
    rcases args with _ | ⟨a, _ | ⟨b, _ | ⟨c, _ | ⟨d, r⟩⟩⟩⟩
    · exact .inl rfl
    · exact .inr (.inl ⟨_, rfl⟩)
    · exact .inr (.inr (.inl ⟨_, _, rfl⟩))
    · exact .inr (.inr (.inr (.inl ⟨_, _, _, rfl⟩)))
    · exact .inr (.inr (.inr (.inr ⟨_, _, _, _, _, rfl⟩)))
  have D : cls ≠ .dli → mnOf w ≠ c!"dli" := fun h e => h (hrow.dli.1 e)
  have memB : mnOf w ∈ memNames ↔ cls = .mem := hrow.mem
  have uR : ∀ P : Prop, [Decidable P] → (if P then Lang.simm else Lang.uimm) ≠ Lang.addr := by intro P _; split <;> decide
  cases cls
  case bare => exact absurd rfl h1
  case tlb => exact absurd rfl h2
  case word => exact absurd rfl h3
  case other => exact absurd rfl h4
  case mem =>
    have Gm : mnOf w ∈ memNames := memB.2 rfl
    have hmem : ∃ a b s0, args = [a, b] ∧ consts [s0] = [] ∧ targets [s0] = [] ∧ places [s0] = [] ∧
        st = [s0, .base true b, .name w, .offset false b] := by
      by_cases hc : mnOf w = c!"cache"
      · simp only [planOf, clsList, if_pos hc] at hst
        rcases c0 with rfl | ⟨a, rfl⟩ | ⟨a, b, rfl⟩ | ⟨a, b, c, rfl⟩ | ⟨a, b, c, d, r, rfl⟩ <;>
          first
            | (simp at hst; done)
            | (refine ⟨a, b, .cop a, rfl, rfl, rfl, rfl, ?_⟩
               simp [Lang.steps, Gm] at hst; exact hst.symm)
      · simp only [planOf, clsList, if_neg hc] at hst
        rcases c0 with rfl | ⟨a, rfl⟩ | ⟨a, b, rfl⟩ | ⟨a, b, c, rfl⟩ | ⟨a, b, c, d, r, rfl⟩ <;>
          first
            | (simp at hst; done)
            | (refine ⟨a, b, .gpr true a, rfl, rfl, rfl, rfl, ?_⟩
               simp [Lang.steps, Gm] at hst; exact hst.symm)
    obtain ⟨a, b, s0, rfl, k1, k2, k3, rfl⟩ := hmem
    have k1' : ∀ l, consts (s0 :: l) = consts l := by
      intro l; cases s0 <;> first | rfl | (cases k1; done) | (simp only [consts] at k1 ⊢; rw [(List.append_eq_nil_iff.1 k1).1]; rfl)
    have k2' : ∀ l, targets (s0 :: l) = targets l := by intro l; cases s0 <;> first | rfl | (cases k2; done)
    have k3' : ∀ l, places (s0 :: l) = places l := by intro l; cases s0 <;> first | rfl | (cases k1; done)
    simp only
    refine rpost_any fun _ => ?_
    split
    · exact rpost_panic
    · refine rpost_any fun _ => ?_
      split
      · rename_i o ho
        exact leafI (by rw [k1']; simp [consts, ho]) (by rw [k2']; rfl) (by rw [k3']; rfl) (by decide) (by simp)
      · rename_i ho
        exact leafZ hx (by rw [k1']; simp [consts, ho]) (by rw [k2']; rfl) (by rw [k3']; rfl) (by decide)
  case fmem =>
    have Gm : mnOf w ∉ memNames := fun h => by cases memB.1 h
    simp only [planOf, clsList] at hst
    rcases c0 with rfl | ⟨a, rfl⟩ | ⟨a, b, rfl⟩ | ⟨a, b, c, rfl⟩ | ⟨a, b, c, d, r, rfl⟩ <;>
      first
        | (simp at hst; done)
        | skip
    simp [Lang.steps, Gm] at hst
    subst hst
    simp only
    refine rpost_any fun _ => ?_
    split
    · exact rpost_panic
    · refine rpost_any fun _ => ?_
      split
      · rename_i o ho
        exact leafI (by simp [consts, ho]) rfl rfl (by decide) (by simp)
      · rename_i ho
        exact leafZ hx (by simp [consts, ho]) rfl rfl (by decide)
  case arith =>
    have : ∃ a b c r, args = [a, b, c] ∧ st = [.gpr (decide (mnOf w ∈ memNames)) a, .gpr (decide (mnOf w ∈ memNames)) b, .name w, .const r c] ∧ r ≠ Lang.addr := by
      by_cases hc : mnOf w ∈ logicNames
      · simp only [planOf, clsList, if_pos hc] at hst
        rcases c0 with rfl | ⟨a, rfl⟩ | ⟨a, b, rfl⟩ | ⟨a, b, c, rfl⟩ | ⟨a, b, c, d, r, rfl⟩ <;>
          first
            | (simp at hst; done)
            | (cases hst; exact ⟨a, b, c, _, rfl, rfl, uR _⟩)
      · simp only [planOf, clsList, if_neg hc] at hst
        rcases c0 with rfl | ⟨a, rfl⟩ | ⟨a, b, rfl⟩ | ⟨a, b, c, rfl⟩ | ⟨a, b, c, d, r, rfl⟩ <;>
          first
            | (simp at hst; done)
            | (refine ⟨a, b, c, Lang.simm, rfl, ?_, by decide⟩
               simp [Lang.steps] at hst; rw [← hst])
    obtain ⟨a, b, c, r, rfl, rfl, hr⟩ := this
    simp only
    refine rpost_any fun _ => rpost_any fun _ => ?_
    split
    · exact leafI rfl rfl (by simp [places, hr]) (by decide) (by simp)
    · exact leafI rfl rfl (by simp [places, hr]) (by decide) (by simp)
  case jump =>
    simp only [planOf, clsList] at hst
    rcases c0 with rfl | ⟨a, rfl⟩ | ⟨a, b, rfl⟩ | ⟨a, b, c, rfl⟩ | ⟨a, b, c, d, r, rfl⟩ <;>
      first
        | (simp at hst; done)
        | skip
    cases hst
    exact rpost_any fun _ => rpost_bind rpost_tgt fun q hq => rpost_any fun _ => rpost_any fun o => rpost_pure ⟨rfl, rfl, by decide, rfl, a, rfl, hq⟩
  case li | liu =>
    simp only [planOf, clsList] at hst
    rcases c0 with rfl | ⟨a, rfl⟩ | ⟨a, b, rfl⟩ | ⟨a, b, c, rfl⟩ | ⟨a, b, c, d, r, rfl⟩ <;>
      first
        | (simp at hst; done)
        | skip
    simp [Lang.steps, D] at hst
    subst hst
    simp only [parseLi]
    refine rpost_any fun _ => rpost_bind rpost_imm fun i hi => ?_
    split
    · exact rpost_panic
    · rename_i v hv
      split
      · exact rpost_fail
      · refine leafS rfl rfl rfl (by decide) ?_
        have := parseImm_notInt hi (.inr (.inr rfl))
        cases i <;> first | trivial | (cases hv; done) | exact this
  case lui =>
    simp only [planOf, clsList] at hst
    rcases c0 with rfl | ⟨a, rfl⟩ | ⟨a, b, rfl⟩ | ⟨a, b, c, rfl⟩ | ⟨a, b, c, d, r, rfl⟩ <;>
      first
        | (simp at hst; done)
        | skip
    cases hst
    exact rpost_any fun _ => leafI rfl rfl (by simp [places, Lang.steps, uR]) (by decide) (by simp)
  case dli =>
    simp only [planOf, clsList] at hst
    rcases c0 with rfl | ⟨a, rfl⟩ | ⟨a, b, rfl⟩ | ⟨a, b, c, rfl⟩ | ⟨a, b, c, d, r, rfl⟩ <;>
      first
        | (simp at hst; done)
        | skip
    simp [Lang.steps, hrow.dli.2] at hst
    subst hst
    exact rpost_any fun _ => leafI rfl rfl (by simp [places, Lang.wide, Lang.addr]) (by decide) (by simp)
  case br1 | br2 | b | bc =>
    simp only [planOf, clsList] at hst
    rcases c0 with rfl | ⟨a, rfl⟩ | ⟨a, b, rfl⟩ | ⟨a, b, c, rfl⟩ | ⟨a, b, c, d, r, rfl⟩ <;>
      first
        | (simp at hst; done)
        | skip
    cases hst
    simp only [parseBranch0]
    repeat' first
      | with_reducible refine rpost_bind rpost_imm (fun i hi => rpost_any fun _ => leafB rfl rfl rfl (by decide) rfl hi)
      | with_reducible refine rpost_any (fun _ => ?_)
  all_goals
    simp only [planOf, clsList] at hst
    rcases c0 with rfl | ⟨a, rfl⟩ | ⟨a, b, rfl⟩ | ⟨a, b, c, rfl⟩ | ⟨a, b, c, d, r, rfl⟩ <;>
      first
        | (simp at hst; done)
        | (cases hst
           simp only
           repeat' first
             | with_reducible exact rpost_bad
             | with_reducible exact rpost_fail
             | with_reducible exact rpost_panic
             | with_reducible exact leafR rfl rfl rfl (by decide)
             | with_reducible exact leafP rfl rfl rfl (by decide)
             | with_reducible exact leafI rfl rfl rfl (by decide) (by simp)
             | with_reducible refine rpost_any (fun _ => ?_)
             | split)

theorem float_refs {w arg : Str} {st : List Lang.Step} (hst : Lang.floatPlan w (split ',' arg) = some st) :
    RPost (parseFloat x w arg (split ',' arg)) (RefPost x .other w st) := by
  have key : ∀ {l : List Str} {tail : List Lang.Step}, consts tail = [] → targets tail = [] → places tail = [] →
      consts (l.map .fpr ++ tail) = [] ∧ targets (l.map .fpr ++ tail) = [] ∧ places (l.map .fpr ++ tail) = [] := by
    intro l tail h1 h2 h3
    induction l with
    | nil => exact ⟨h1, h2, h3⟩
    | cons a l ih => exact ih
  have hst' : consts st = [] ∧ targets st = [] ∧ places st = [] := by
    unfold Lang.floatPlan at hst
    split at hst
    · cases hst; exact ⟨rfl, rfl, rfl⟩
    · split at hst
      · split at hst
        · cases hst; exact key rfl rfl rfl
        · cases hst
      · split at hst
        · split at hst
          · cases hst; exact key rfl rfl rfl
          · cases hst
        · split at hst
          · split at hst
            · cases hst; exact key rfl rfl rfl
            · cases hst
          · cases hst
  obtain ⟨k1, k2, k3⟩ := hst'
  unfold parseFloat
  simp only
  repeat' first
    | with_reducible exact rpost_bad
    | with_reducible exact rpost_fail
    | with_reducible exact rpost_panic
    | with_reducible exact leafR k1 k2 k3 (by decide)
    | with_reducible exact leafP k1 k2 k3 (by decide)
    | with_reducible refine rpost_any (fun _ => ?_)
    | split

/-- The result of parsing an instruction line. -/
theorem inst_refs {s : Str} (hx : Sees p x) (h0 : s ≠ []) {st : List Lang.Step} (hst : Lang.plan s = some st) :
    RPost (parseInst x s) (RefPost x (classify (mnOf (firstWord s))) (firstWord s) st) := by
  rw [parseInst_eq x h0]
  have hk : trim (Unicode.lower (firstWord s)) = mnOf (firstWord s) := rfl
  have hm : mnemonic s = mnOf (firstWord s) := hk
  rw [hm]
  unfold Lang.plan at hst
  simp only [hm] at hst
  have ho : operands s = split ',' (operandText s) := rfl
  by_cases hc : classify (mnOf (firstWord s)) = .other
  · have t := table_other
    rw [if_neg (fun h => t.2.1 _ h hc), if_neg (fun h => by rw [h] at hc; exact t.2.2 hc), if_neg] at hst
    · rw [hc]; exact float_refs hst
    · intro h
      rw [List.any_eq_true] at h
      obtain ⟨e, he, h⟩ := h
      rw [beq_iff_eq] at h
      exact t.1 e he (by rw [h]; exact hc)
  · have hrow := row_of hc
    generalize classify (mnOf (firstWord s)) = cls at hrow hc
    by_cases h1 : cls = .bare ∨ cls = .tlb
    · rw [if_pos (hrow.none.2 h1)] at hst
      cases hst
      rcases h1 with rfl | rfl
      · exact leafR rfl rfl rfl (by decide)
      · exact leafR rfl rfl rfl (by decide)
    · rw [if_neg (fun h => h1 (hrow.none.1 h))] at hst
      by_cases h2 : cls = .word
      · rw [if_pos (hrow.word.2 h2)] at hst
        subst h2
        cases hst
        refine rpost_any fun i => ?_
        split
        · exact rpost_panic
        · exact rpost_pure ⟨rfl, rfl, rfl, rfl⟩
      · rw [if_neg (fun h => h2 (hrow.word.1 h))] at hst
        have h3 : sigList (mnOf (firstWord s)) ≠ [] := by
          rw [hrow.sigs]
          cases cls <;> simp only [clsList] <;> first | (simp; done) | (split <;> simp; done) | exact absurd rfl h2 | exact absurd rfl hc | exact absurd (.inl rfl) h1 | exact absurd (.inr rfl) h1
        rw [if_pos (by rw [any_sig]; simpa using h3), find_sig, Option.map_map, hrow.sigs] at hst
        exact arm_refs hx hrow hk (fun h => h1 (.inl h)) (fun h => h1 (.inr h)) h2 hc hst

end
end Mips
