/- The verdict of a whole instruction line (for C56). -/
import Verif.Lemmas.LangL5

namespace Mips
open Source Syntax Branch Operands Isa
open Mips.Names hiding none

/-- the operands of the mnemonic -/
def sigList (mn : Str) : List (List Role) := (Lang.intSignatures.filter fun e => e.1 == mn).map (·.2)

def logicNames : List Str := [c!"andi", c!"ori", c!"xori"]

/-- the operands of the mnemonics of a class -/
def clsList : Cls → Str → List (List Role)
  | .mem, n => if n = c!"cache" then [[.cop, .mem]] else [[.gpr, .mem]]
  | .arith, n => if n ∈ logicNames then [[.gpr, .gpr, .uimm]] else [[.gpr, .gpr, .simm]]
  | .lui, _ => [[.gpr, .uimm]]
  | .trapi, _ => [[.gpr, .simm]]
  | .br1, _ => [[.gpr, .addr]]
  | .br2, _ => [[.gpr, .gpr, .addr]]
  | .jump, _ => [[.target]]
  | .reg3, _ | .shiftv, _ => [[.gpr, .gpr, .gpr]]
  | .shift, _ => [[.gpr, .gpr, .shamt]]
  | .code, _ => [[.code]]
  | .reg2, _ | .pseudo2, _ => [[.gpr, .gpr]]
  | .jalr, _ => [[.gpr, .gpr], [.gpr]]
  | .b, _ | .bc, _ => [[.addr]]
  | .li, _ | .liu, _ | .dli, _ => [[.gpr, .wide]]
  | .div, _ => [[.gpr, .gpr, .gpr], [.gpr, .gpr]]
  | .rs1, _ | .rd1, _ => [[.gpr]]
  | .cop0, _ => [[.gpr, .c0]]
  | .cop1, _ => [[.gpr, .fpr]]
  | .fmem, _ => [[.fpr, .mem]]
  | _, _ => []

/-- the operation of a mnemonic exists -/
def opThere (cls : Cls) (mn : Str) : Bool :=
  match cls with
  | .mem | .arith | .lui | .trapi | .br1 | .br2 | .b | .li | .liu | .dli | .bc | .fmem => (ITypeOp.fromStr mn).isSome
  | .jump => (JTypeOp.fromStr mn).isSome
  | .word | .other => true
  | _ => (RTypeOp.fromStr mn).isSome

theorem table_sigs : ∀ g ∈ clsTable, ∀ n ∈ g.2, sigList n = clsList g.1 n := by decide +kernel
theorem table_names : ∀ g ∈ clsTable, ∀ n ∈ g.2, (decide (n ∈ Names.none) = (g.1 == .bare || g.1 == .tlb)) ∧ (decide (n = c!".word") = (g.1 == .word)) ∧
    (decide (n ∈ memNames) = (g.1 == .mem)) ∧ (decide (n = c!"dli") = (g.1 == .dli)) ∧ (n ∈ logicNames → g.1 = .arith) ∧ opThere g.1 n = true := by decide +kernel
theorem table_other : (∀ e ∈ Lang.intSignatures, classify e.1 ≠ .other) ∧ (∀ n ∈ Names.none, classify n ≠ .other) ∧ classify c!".word" ≠ .other := by decide +kernel

/-- what is known of a mnemonic of the class -/
structure Row (cls : Cls) (n : Str) : Prop where
  sigs : sigList n = clsList cls n
  none : n ∈ Names.none ↔ cls = .bare ∨ cls = .tlb
  word : n = c!".word" ↔ cls = .word
  mem : n ∈ memNames ↔ cls = .mem
  dli : n = c!"dli" ↔ cls = .dli
  logic : n ∈ logicNames → cls = .arith
  op : opThere cls n = true

theorem row_of {n : Str} (h : classify n ≠ .other) : Row (classify n) n := by
  unfold classify at h ⊢
  cases hf : clsTable.find? fun e => e.2.contains n with
  | none => rw [hf] at h; exact absurd rfl h
  | some g =>
    have hm := List.mem_of_find?_eq_some hf
    have hn : n ∈ g.2 := by have := List.find?_some hf; simpa using this
    obtain ⟨h1, h2, h3, h4, h5, h6⟩ := table_names g hm n hn
    refine ⟨table_sigs g hm n hn, ?_, ?_, ?_, ?_, h5, h6⟩
    · have := congrArg (· = true) h1; simpa using this
    · have := congrArg (· = true) h2; simpa using this
    · have := congrArg (· = true) h3; simpa using this
    · have := congrArg (· = true) h4; simpa using this

theorem find_sig (mn : Str) (k : Nat) : (Lang.intSignatures.find? fun e => e.1 == mn && e.2.length == k) = 
    ((sigList mn).find? fun r => r.length == k).map fun r => (mn, r) := by
  unfold sigList
  rw [List.find?_map, List.find?_filter, Option.map_map]
  have e2 : (fun a : Str × List Role => decide ((a.1 == mn) = true ∧ ((fun r : List Role => r.length == k) ∘ fun e : Str × List Role => e.2) a = true)) =
      fun e => e.1 == mn && e.2.length == k := by
    funext a
    rw [Bool.eq_iff_iff]; simp
  rw [e2]
  cases h : Lang.intSignatures.find? fun e => e.1 == mn && e.2.length == k with
  | none => rfl
  | some e =>
    have := List.find?_some h
    simp only [Bool.and_eq_true, beq_iff_eq] at this
    simp only [Option.map_some, Function.comp, ← this.1]

theorem any_sig (mn : Str) : (Lang.intSignatures.any fun e => e.1 == mn) = !(sigList mn).isEmpty := by
  unfold sigList
  rw [Bool.eq_iff_iff]
  simp


section
variable [Unicode] {p : Lang.Place} {x : Ctx}

/-- the verdict of the arm, by plan -/
def ArmIs (p : Lang.Place) (x : Ctx) (e : ParserError) (w : W Instruction) (st : Option (List Lang.Step)) : Prop :=
  match st with
  | none => w.res = .err e
  | some st => VS p x.line w st

theorem armIs_count {x : Ctx} {a : Str} {m n : Nat} : ArmIs p x (.invalidOperandCount x.line m n a) (badCount x a m n) none := rfl

theorem vs_branch {x : Ctx} (hx : Sees p x) {w b : Str} (he : (ITypeOp.fromStr (mnOf w)).isSome = true) {r s : Register} (hn : '\n' ∉ b) :
    VS p x.line (do
      let imm ← W.lift (parseImm x .u32 b)
      alignCheck x imm b
      mkI w r s (pure imm)) [.const Lang.addr b, .name w] :=
  vs_cons (verd_const hx (ty := .u32) hn) fun _ _ => vs_skip skip_align fun _ => vs_mkI' he

/-- the number of operands asked for -/
def expectedOf (cls : Cls) (mn : Str) : Nat := ((clsList cls mn).map List.length).foldl max 0

omit [Unicode] in
theorem expected_row {cls : Cls} {mn : Str} (h : Row cls mn) : Lang.expected mn = expectedOf cls mn := by
  unfold Lang.expected expectedOf
  rw [← h.sigs]
  unfold sigList
  rw [List.map_map]; rfl

/-- the steps of the operands -/
def planOf (cls : Cls) (mn w : Str) (args : List Str) : Option (List Lang.Step) :=
  ((clsList cls mn).find? fun r => r.length == args.length).map fun r => Lang.steps mn w r args

set_option maxHeartbeats 1000000 in
theorem arm_plan (hx : Sees p x) {cls : Cls} {w arg : Str} (hrow : Row cls (mnOf w))
    (hn : ∀ s ∈ split ',' arg, '\n' ∉ s)
    (h1 : cls ≠ .bare) (h2 : cls ≠ .tlb) (h3 : cls ≠ .word) (h4 : cls ≠ .other) :
    ArmIs p x (.invalidOperandCount x.line (expectedOf cls (mnOf w)) (split ',' arg).length arg) (parseArm x cls w arg) (planOf cls (mnOf w) w (split ',' arg)) := by
  have hk : trim (Unicode.lower w) = mnOf w := rfl
  have hop := hrow.op
  unfold opThere at hop
  unfold parseArm
  revert hn
  generalize split ',' arg = args
  intro hn
  have c0 : args = [] ∨ (∃ a, args = [a]) ∨ (∃ a b, args = [a, b]) ∨ (∃ a b c, args = [a, b, c]) ∨ ∃ a b c d r, args = a :: b :: c :: d :: r := by
    rcases args with _ | ⟨a, _ | ⟨b, _ | ⟨c, _ | ⟨d, r⟩⟩⟩⟩
    · exact .inl rfl
    · exact .inr (.inl ⟨_, rfl⟩)
    · exact .inr (.inr (.inl ⟨_, _, rfl⟩))
    · exact .inr (.inr (.inr (.inl ⟨_, _, _, rfl⟩)))
    · exact .inr (.inr (.inr (.inr ⟨_, _, _, _, _, rfl⟩)))
  have G : cls ≠ .mem → ∀ s ∈ args, Verd (parseReg x s) (Lang.Reads p (.gpr (decide (mnOf w ∈ memNames)) s)) (Lang.Crashes p (.gpr (decide (mnOf w ∈ memNames)) s)) (Lang.Complains p x.line (.gpr (decide (mnOf w ∈ memNames)) s)) := by
    intro h s hs
    rw [show decide (mnOf w ∈ memNames) = false from decide_eq_false fun hm => h (hrow.mem.1 hm)]
    exact verd_gpr
  have D : cls ≠ .dli → mnOf w ≠ c!"dli" := fun h e => h (hrow.dli.1 e)
  have L : cls ≠ .arith → mnOf w ∉ logicNames := fun h e => h (hrow.logic e)
  cases cls
  case mem =>
    have Gm : decide (mnOf w ∈ memNames) = true := decide_eq_true (hrow.mem.2 rfl)
    by_cases hc : mnOf w = c!"cache"
    · simp only [hk, planOf, expectedOf, clsList, if_pos hc]
      rcases c0 with rfl | ⟨a, rfl⟩ | ⟨a, b, rfl⟩ | ⟨a, b, c, rfl⟩ | ⟨a, b, c, d, r, rfl⟩
      · exact armIs_count
      · exact armIs_count
      · show VS p x.line _ [.cop a, .base (decide (mnOf w ∈ memNames)) b, .name w, .offset (decide (mnOf w ∉ memNames)) b]
        rw [Gm, show decide (mnOf w ∉ memNames) = false from by rw [decide_not, Gm]; rfl]
        exact vs_cons (verd_cop hx (hn a (by simp))) fun _ _ => vs_base (hn b (by simp)) (fun _ => verd_gpr')
          fun _ => vs_mem hx hop (hn b (by simp))
      · exact armIs_count
      · exact armIs_count
    · simp only [hk, planOf, expectedOf, clsList, if_neg hc]
      rcases c0 with rfl | ⟨a, rfl⟩ | ⟨a, b, rfl⟩ | ⟨a, b, c, rfl⟩ | ⟨a, b, c, d, r, rfl⟩
      · exact armIs_count
      · exact armIs_count
      · show VS p x.line _ [.gpr (decide (mnOf w ∈ memNames)) a, .base (decide (mnOf w ∈ memNames)) b, .name w, .offset (decide (mnOf w ∉ memNames)) b]
        rw [Gm, show decide (mnOf w ∉ memNames) = false from by rw [decide_not, Gm]; rfl]
        exact vs_cons (verd_gpr') fun _ _ => vs_base (hn b (by simp)) (fun _ => verd_gpr')
          fun _ => vs_mem hx hop (hn b (by simp))
      · exact armIs_count
      · exact armIs_count
  all_goals replace G := G (by decide)
  case arith =>
    have hw0 : (w = c!"andi" ∨ w = c!"ori" ∨ w = c!"xori") ↔ (mnOf w ∈ logicNames ∧ w = mnOf w) := by
      constructor
      · rintro (rfl | rfl | rfl) <;> (rw [mnOf_ascii (by unfold AsciiS; decide)]; decide)
      · rintro ⟨h, e⟩
        rw [← e] at h
        simpa [logicNames] using h
    by_cases hl : mnOf w ∈ logicNames
    · simp only [planOf, expectedOf, clsList, if_pos hl]
      rcases c0 with rfl | ⟨a, rfl⟩ | ⟨a, b, rfl⟩ | ⟨a, b, c, rfl⟩ | ⟨a, b, c, d, r, rfl⟩
      · exact armIs_count
      · exact armIs_count
      · exact armIs_count
      · show VS p x.line _ [.gpr (decide (mnOf w ∈ memNames)) a, .gpr (decide (mnOf w ∈ memNames)) b, .name w,
          .const (if mnOf w ∈ logicNames ∧ w ≠ mnOf w then Lang.simm else Lang.uimm) c]
        refine vs_cons (G a (by simp)) fun _ _ => vs_cons (G b (by simp)) fun _ _ => ?_
        by_cases hw : w = mnOf w
        · rw [if_pos (hw0.2 ⟨hl, hw⟩), if_neg (fun h => h.2 hw)]
          exact vs_mkI hop (verd_const hx (ty := .u16) (hn c (by simp)))
        · rw [if_neg (fun h => hw (hw0.1 h).2), if_pos ⟨hl, hw⟩]
          exact vs_mkI hop (verd_const hx (ty := .i16) (hn c (by simp)))
      · exact armIs_count
    · simp only [planOf, expectedOf, clsList, if_neg hl]
      rcases c0 with rfl | ⟨a, rfl⟩ | ⟨a, b, rfl⟩ | ⟨a, b, c, rfl⟩ | ⟨a, b, c, d, r, rfl⟩
      · exact armIs_count
      · exact armIs_count
      · exact armIs_count
      · show VS p x.line _ [.gpr (decide (mnOf w ∈ memNames)) a, .gpr (decide (mnOf w ∈ memNames)) b, .name w, .const Lang.simm c]
        refine vs_cons (G a (by simp)) fun _ _ => vs_cons (G b (by simp)) fun _ _ => ?_
        rw [if_neg (fun h => hl (hw0.1 h).1)]
        exact vs_mkI hop (verd_const hx (ty := .i16) (hn c (by simp)))
      · exact armIs_count
  case lui =>
    rcases c0 with rfl | ⟨a, rfl⟩ | ⟨a, b, rfl⟩ | ⟨a, b, c, rfl⟩ | ⟨a, b, c, d, r, rfl⟩
    · exact armIs_count
    · exact armIs_count
    · show VS p x.line _ [.gpr (decide (mnOf w ∈ memNames)) a, .name w, .const (if mnOf w ∈ logicNames ∧ w ≠ mnOf w then Lang.simm else Lang.uimm) b]
      rw [if_neg (fun h => L (by decide) h.1)]
      exact vs_cons (G a (by simp)) fun _ _ => vs_mkI hop (verd_const hx (ty := .u16) (hn b (by simp)))
    · exact armIs_count
    · exact armIs_count
  case trapi =>
    rcases c0 with rfl | ⟨a, rfl⟩ | ⟨a, b, rfl⟩ | ⟨a, b, c, rfl⟩ | ⟨a, b, c, d, r, rfl⟩
    · exact armIs_count
    · exact armIs_count
    · exact vs_cons (G a (by simp)) fun _ _ => vs_mkI hop (verd_const hx (ty := .i16) (hn b (by simp)))
    · exact armIs_count
    · exact armIs_count
  case br1 =>
    rcases c0 with rfl | ⟨a, rfl⟩ | ⟨a, b, rfl⟩ | ⟨a, b, c, rfl⟩ | ⟨a, b, c, d, r, rfl⟩
    · exact armIs_count
    · exact armIs_count
    · exact vs_skip skip_delay fun _ => vs_cons (G a (by simp)) fun _ _ => vs_branch hx hop (hn b (by simp))
    · exact armIs_count
    · exact armIs_count
  case br2 =>
    rcases c0 with rfl | ⟨a, rfl⟩ | ⟨a, b, rfl⟩ | ⟨a, b, c, rfl⟩ | ⟨a, b, c, d, r, rfl⟩
    · exact armIs_count
    · exact armIs_count
    · exact armIs_count
    · exact vs_skip skip_delay fun _ => vs_cons (G a (by simp)) fun _ _ => vs_cons (G b (by simp)) fun _ _ => vs_branch hx hop (hn c (by simp))
    · exact armIs_count
  case jump =>
    rcases c0 with rfl | ⟨a, rfl⟩ | ⟨a, b, rfl⟩ | ⟨a, b, c, rfl⟩ | ⟨a, b, c, d, r, rfl⟩
    · exact armIs_count
    · refine vs_skip skip_delay fun _ => vs_cons (verd_target hx) fun t _ => vs_skip ?_ fun _ => vs_cons (verd_opJ hop) fun _ _ => vs_nil rfl
      cases t.asU32 with
      | none => exact ⟨_, rfl⟩
      | some v => simp only []; split <;> exact ⟨_, rfl⟩
    · exact armIs_count
    · exact armIs_count
    · exact armIs_count
  case reg3 =>
    rcases c0 with rfl | ⟨a, rfl⟩ | ⟨a, b, rfl⟩ | ⟨a, b, c, rfl⟩ | ⟨a, b, c, d, r, rfl⟩
    · exact armIs_count
    · exact armIs_count
    · exact armIs_count
    · exact vs_cons (G a (by simp)) fun _ _ => vs_cons (G b (by simp)) fun _ _ => vs_cons (G c (by simp)) fun _ _ => vs_mkR hop
    · exact armIs_count
  case shiftv =>
    rcases c0 with rfl | ⟨a, rfl⟩ | ⟨a, b, rfl⟩ | ⟨a, b, c, rfl⟩ | ⟨a, b, c, d, r, rfl⟩
    · exact armIs_count
    · exact armIs_count
    · exact armIs_count
    · exact vs_cons (G a (by simp)) fun _ _ => vs_cons (G b (by simp)) fun _ _ => vs_cons (G c (by simp)) fun _ _ => vs_mkR hop
    · exact armIs_count
  case shift =>
    rcases c0 with rfl | ⟨a, rfl⟩ | ⟨a, b, rfl⟩ | ⟨a, b, c, rfl⟩ | ⟨a, b, c, d, r, rfl⟩
    · exact armIs_count
    · exact armIs_count
    · exact armIs_count
    · exact vs_cons (G a (by simp)) fun _ _ => vs_cons (G b (by simp)) fun _ _ => vs_cons (verd_opR hop) fun _ _ => vs_shamt fun _ => ⟨_, rfl⟩
    · exact armIs_count
  case code =>
    rcases c0 with rfl | ⟨a, rfl⟩ | ⟨a, b, rfl⟩ | ⟨a, b, c, rfl⟩ | ⟨a, b, c, d, r, rfl⟩
    · exact armIs_count
    · exact vs_code hx (hn a (by simp)) (verd_opR hop) (fun _ _ => ⟨_, rfl⟩) (opR_noErr w)
    · exact armIs_count
    · exact armIs_count
    · exact armIs_count
  case reg2 =>
    rcases c0 with rfl | ⟨a, rfl⟩ | ⟨a, b, rfl⟩ | ⟨a, b, c, rfl⟩ | ⟨a, b, c, d, r, rfl⟩
    · exact armIs_count
    · exact armIs_count
    · exact vs_cons (G a (by simp)) fun _ _ => vs_cons (G b (by simp)) fun _ _ => vs_mkR hop
    · exact armIs_count
    · exact armIs_count
  case pseudo2 =>
    rcases c0 with rfl | ⟨a, rfl⟩ | ⟨a, b, rfl⟩ | ⟨a, b, c, rfl⟩ | ⟨a, b, c, d, r, rfl⟩
    · exact armIs_count
    · exact armIs_count
    · exact vs_cons (G a (by simp)) fun _ _ => vs_cons (G b (by simp)) fun _ _ => vs_mkR hop
    · exact armIs_count
    · exact armIs_count
  case jalr =>
    rcases c0 with rfl | ⟨a, rfl⟩ | ⟨a, b, rfl⟩ | ⟨a, b, c, rfl⟩ | ⟨a, b, c, d, r, rfl⟩
    · exact armIs_count
    · exact vs_skip skip_delay fun _ => vs_cons (G a (by simp)) fun _ _ => vs_mkR hop
    · exact vs_skip skip_delay fun _ => vs_cons (G a (by simp)) fun _ _ => vs_cons (G b (by simp)) fun _ _ => vs_mkR hop
    · exact armIs_count
    · exact armIs_count
  case b =>
    rcases c0 with rfl | ⟨a, rfl⟩ | ⟨a, b, rfl⟩ | ⟨a, b, c, rfl⟩ | ⟨a, b, c, d, r, rfl⟩
    · exact armIs_count
    · exact vs_skip skip_delay fun _ => vs_branch hx hop (hn a (by simp))
    · exact armIs_count
    · exact armIs_count
    · exact armIs_count
  case bc =>
    rcases c0 with rfl | ⟨a, rfl⟩ | ⟨a, b, rfl⟩ | ⟨a, b, c, rfl⟩ | ⟨a, b, c, d, r, rfl⟩
    · exact armIs_count
    · exact vs_skip skip_delay fun _ => vs_branch hx hop (hn a (by simp))
    · exact armIs_count
    · exact armIs_count
    · exact armIs_count
  case li =>
    rcases c0 with rfl | ⟨a, rfl⟩ | ⟨a, b, rfl⟩ | ⟨a, b, c, rfl⟩ | ⟨a, b, c, d, r, rfl⟩
    · exact armIs_count
    · exact armIs_count
    · show VS p x.line _ (.gpr (decide (mnOf w ∈ memNames)) a :: if mnOf w = c!"dli" then [.name w, .const Lang.wide b] else [.word32 b, .name w])
      rw [if_neg (D (by decide))]
      exact vs_cons (G a (by simp)) fun _ _ => vs_word32 hx (hn b (by simp)) fun _ => vs_mkI' hop
    · exact armIs_count
    · exact armIs_count
  case liu =>
    rcases c0 with rfl | ⟨a, rfl⟩ | ⟨a, b, rfl⟩ | ⟨a, b, c, rfl⟩ | ⟨a, b, c, d, r, rfl⟩
    · exact armIs_count
    · exact armIs_count
    · show VS p x.line _ (.gpr (decide (mnOf w ∈ memNames)) a :: if mnOf w = c!"dli" then [.name w, .const Lang.wide b] else [.word32 b, .name w])
      rw [if_neg (D (by decide))]
      exact vs_cons (G a (by simp)) fun _ _ => vs_word32 hx (hn b (by simp)) fun _ => vs_mkI' hop
    · exact armIs_count
    · exact armIs_count
  case dli =>
    rcases c0 with rfl | ⟨a, rfl⟩ | ⟨a, b, rfl⟩ | ⟨a, b, c, rfl⟩ | ⟨a, b, c, d, r, rfl⟩
    · exact armIs_count
    · exact armIs_count
    · show VS p x.line _ (.gpr (decide (mnOf w ∈ memNames)) a :: if mnOf w = c!"dli" then [.name w, .const Lang.wide b] else [.word32 b, .name w])
      rw [if_pos (hrow.dli.2 rfl)]
      exact vs_cons (G a (by simp)) fun _ _ => vs_mkI hop (verd_const hx (ty := .i64) (hn b (by simp)))
    · exact armIs_count
    · exact armIs_count
  case div =>
    rcases c0 with rfl | ⟨a, rfl⟩ | ⟨a, b, rfl⟩ | ⟨a, b, c, rfl⟩ | ⟨a, b, c, d, r, rfl⟩
    · exact armIs_count
    · exact armIs_count
    · exact vs_cons (G a (by simp)) fun _ _ => vs_cons (G b (by simp)) fun _ _ => vs_mkR hop
    · exact vs_cons (G a (by simp)) fun _ _ => vs_cons (G b (by simp)) fun _ _ => vs_cons (G c (by simp)) fun _ _ => vs_mkR hop
    · exact armIs_count
  case rs1 =>
    rcases c0 with rfl | ⟨a, rfl⟩ | ⟨a, b, rfl⟩ | ⟨a, b, c, rfl⟩ | ⟨a, b, c, d, r, rfl⟩
    · exact armIs_count
    · by_cases hj : trim (Unicode.lower w) = c!"jr"
      · simp only [if_pos hj]
        exact vs_skip skip_delay fun _ => vs_cons (G a (by simp)) fun _ _ => vs_mkR hop
      · simp only [if_neg hj]
        exact vs_cons (G a (by simp)) fun _ _ => vs_mkR hop
    · exact armIs_count
    · exact armIs_count
    · exact armIs_count
  case rd1 =>
    rcases c0 with rfl | ⟨a, rfl⟩ | ⟨a, b, rfl⟩ | ⟨a, b, c, rfl⟩ | ⟨a, b, c, d, r, rfl⟩
    · exact armIs_count
    · exact vs_cons (G a (by simp)) fun _ _ => vs_mkR hop
    · exact armIs_count
    · exact armIs_count
    · exact armIs_count
  case cop0 =>
    rcases c0 with rfl | ⟨a, rfl⟩ | ⟨a, b, rfl⟩ | ⟨a, b, c, rfl⟩ | ⟨a, b, c, d, r, rfl⟩
    · exact armIs_count
    · exact armIs_count
    · exact vs_cons (G a (by simp)) fun _ _ => vs_cons (verd_c0) fun _ _ => vs_mkR hop
    · exact armIs_count
    · exact armIs_count
  case cop1 =>
    rcases c0 with rfl | ⟨a, rfl⟩ | ⟨a, b, rfl⟩ | ⟨a, b, c, rfl⟩ | ⟨a, b, c, d, r, rfl⟩
    · exact armIs_count
    · exact armIs_count
    · exact vs_cons (G a (by simp)) fun _ _ => vs_cons (verd_fpr) fun _ _ => vs_mkR hop
    · exact armIs_count
    · exact armIs_count
  case fmem =>
    rcases c0 with rfl | ⟨a, rfl⟩ | ⟨a, b, rfl⟩ | ⟨a, b, c, rfl⟩ | ⟨a, b, c, d, r, rfl⟩
    · exact armIs_count
    · exact armIs_count
    · show VS p x.line _ [.fpr a, .base (decide (mnOf w ∈ memNames)) b, .name w, .offset (decide (mnOf w ∉ memNames)) b]
      have Gm : decide (mnOf w ∈ memNames) = false := decide_eq_false fun hm => by have := hrow.mem.1 hm; cases this
      rw [Gm, show decide (mnOf w ∉ memNames) = true from by rw [decide_not, Gm]; rfl]
      exact vs_cons (verd_fpr) fun _ _ => vs_base (hn b (by simp)) (fun _ => verd_gpr) fun _ => vs_fmem hx hop (hn b (by simp))
    · exact armIs_count
    · exact armIs_count
  case bare => exact absurd rfl h1
  case tlb => exact absurd rfl h2
  case word => exact absurd rfl h3
  case other => exact absurd rfl h4

/-! ### floating point -/

omit [Unicode] in
theorem stems_ops : ∀ o ∈ RTypeOp.all, let n := o.name.map asciiLower
    n.take (n.length - 2) ∈ Lang.stems3 ++ Lang.stems2 → 2 ≤ n.length → classify n = .other → ∃ e ∈ signatures, e.1 = n := by decide +kernel
omit [Unicode] in
theorem stems_sigs : ∀ e ∈ signatures, e.1.take (e.1.length - 2) ∈ Lang.stems3 ++ Lang.stems2 → classify e.1 = .other → (RTypeOp.fromStr e.1).isSome = true := by decide +kernel

theorem stem_ascii {w : Str} (hw : AsciiS w) : Lang.stem w = if w.length < 2 then none else some ((w.map asciiLower).take (w.length - 2)) := by
  unfold Lang.stem
  rw [byteLen_ascii w hw, Unicode.lower_ascii w hw]
  by_cases h : w.length < 2
  · rw [if_pos h, if_pos h]
  · rw [if_neg h, if_neg h, takeBytes_ascii _ _ _ (by simp)]
    intro c hc
    obtain ⟨d, hd, rfl⟩ := List.mem_map.1 hc
    exact lower_ascii' (hw d hd)

theorem fname_iff {w st : Str} (hst : Lang.stem w = some st) (hm : st ∈ Lang.stems3 ++ Lang.stems2)
    (hc : classify (mnOf w) = .other) : (RTypeOp.fromStr w).isSome = true ↔ ∃ sig, (w.map asciiLower, sig) ∈ signatures := by
  have key : AsciiS w → 2 ≤ w.length ∧ (w.map asciiLower).take (w.length - 2) ∈ Lang.stems3 ++ Lang.stems2 := by
    intro ha
    rw [stem_ascii ha] at hst
    split at hst
    · cases hst
    · cases hst; exact ⟨by omega, hm⟩
  constructor
  · intro h
    obtain ⟨o, ho⟩ := Option.isSome_iff_exists.1 h
    have hm := List.mem_of_find?_eq_some ho
    have he := List.find?_some ho
    have hw := same_noWs he (names_tight.2.1 o hm)
    have ha := same_ascii he (names_ascii.2.1 o hm)
    obtain ⟨h2, hs⟩ := key ha
    unfold eqIgnoreCase at he
    rw [beq_iff_eq] at he
    have hl : (o.name.map asciiLower).length = w.length := by rw [← he, List.length_map]
    have := stems_ops o hm
    simp only [] at this
    rw [hl, ← he] at this
    have hmn : mnOf w = w.map asciiLower := by rw [mnOf_ascii ha, hw]
    obtain ⟨e, h1, h3⟩ := this hs h2 (by rw [← hmn]; exact hc)
    refine ⟨e.2, ?_⟩
    rw [← h3]; exact h1
  · rintro ⟨sig, h⟩
    have ha : AsciiS w := by
      intro c hcw
      have := ((mn_all (sigs_ok _ h).1).2.1 _ (List.mem_map_of_mem hcw)).1
      rw [isAscii_toNat, asciiLower_toNat] at this
      rw [isAscii_toNat]
      split at this <;> omega
    obtain ⟨h2, hs⟩ := key ha
    have hmn : mnOf w = w.map asciiLower := by
      have := noWs_trim (w := w) fun c hcw => by
        apply asciiLower_ws
        exact ((mn_all (sigs_ok _ h).1).2.1 _ (List.mem_map_of_mem hcw)).2.1
      rw [mnOf_ascii ha, this]
    have := stems_sigs _ h (by simpa using hs) (by rw [← hmn]; exact hc)
    rw [fromStr_lowerR (mn := w.map asciiLower) rfl (by rw [← hmn]; exact mnOf_lower ha)]
    exact this

omit [Unicode] in
theorem split_two {s : Str} (h : '.' ∈ s) : ∃ c, (split '.' s)[1]? = some c := by
  induction s with
  | nil => simp at h
  | cons d s ih =>
    unfold split
    by_cases hd : d = '.'
    · rw [if_pos hd]
      cases hs : split '.' s with
      | nil => exact absurd hs (split_ne_nil '.' s)
      | cons a t => exact ⟨a, rfl⟩
    · rw [if_neg hd]
      obtain ⟨c, hc⟩ := ih (by simpa [Ne.symm hd] using h)
      cases hs : split '.' s with
      | nil => rw [hs] at hc; simp at hc
      | cons a t => rw [hs] at hc; exact ⟨c, by simpa using hc⟩

end
end Mips
