/- C23: spellings of registers. -/
import Verif.Lemmas.TakenL
import Verif.Props.Count
import Verif.Lemmas.WarnL

namespace Mips
open Source Branch Syntax Operands

variable {γ δ : Type}

/-! ### Equivalent spellings -/

/-- kinds of operands of a class of mnemonics -/
def clsSigs : Cls → List (List Role)
  | .mem => [[.gpr, .mem], [.cop, .mem]]
  | .arith => [[.gpr, .gpr, .simm], [.gpr, .gpr, .uimm]]
  | .lui => [[.gpr, .uimm]]
  | .trapi => [[.gpr, .simm]]
  | .br1 => [[.gpr, .addr]]
  | .br2 => [[.gpr, .gpr, .addr]]
  | .jump => [[.target]]
  | .reg3 | .shiftv => [[.gpr, .gpr, .gpr]]
  | .shift => [[.gpr, .gpr, .shamt]]
  | .code => [[.code]]
  | .reg2 | .pseudo2 => [[.gpr, .gpr]]
  | .jalr => [[.gpr], [.gpr, .gpr]]
  | .b | .bc => [[.addr]]
  | .li | .liu | .dli => [[.gpr, .wide]]
  | .div => [[.gpr, .gpr], [.gpr, .gpr, .gpr]]
  | .rs1 | .rd1 => [[.gpr]]
  | .cop0 => [[.gpr, .c0]]
  | .cop1 => [[.gpr, .fpr]]
  | .fmem => [[.fpr, .mem]]
  | .other => [[.fpr, .fpr], [.fpr, .fpr, .fpr]]
  | _ => []

theorem sigs_ok : ∀ e ∈ signatures, mnOk e.1 = true ∧ e.2 ∈ clsSigs (classify e.1) ∧
    (e.1 = c!"cache" ↔ e.2 = [.cop, .mem]) ∧ (classify e.1 = .mem ↔ e.1 ∈ memNames) ∧ (classify e.1 = .other → 2 ≤ e.1.length ∧
      stemCount (e.1.take (e.1.length - 2)) = some e.2.length) := by
  decide +kernel

section
variable {g : ParserError → γ} {h : ParserWarning → δ} {x y : Ctx}

theorem same_reg [Unicode] (c : CtxSim g h x y) {a b : Str} (o : SameOperand .gpr a b) : WSim g h (parseReg x a) (parseReg y b) := by
  cases o with
  | same => exact sim_parseReg c _
  | gpr _ _ r h1 h2 => rw [parseReg_ok x h1, parseReg_ok y h2]; exact wsim_refl _

theorem same_unwrap [Unicode] {a b : Str} (o : SameOperand .gpr a b) :
    Res.unwrap (ε := Str) (ε' := ParserError) (Register.fromStr a) = Res.unwrap (Register.fromStr b) := by
  cases o with
  | same => rfl
  | gpr _ _ r h1 h2 => rw [gpr_fromStr h1, gpr_fromStr h2]

theorem same_freg [Unicode] (c : CtxSim g h x y) {a b : Str} (o : SameOperand .fpr a b) : WSim g h (parseFReg x a) (parseFReg y b) := by
  cases o with
  | same => exact sim_parseFReg c _
  | fpr _ _ r h1 h2 => rw [parseFReg_ok x h1, parseFReg_ok y h2]; exact wsim_refl _

theorem same_creg [Unicode] (c : CtxSim g h x y) {a b : Str} (o : SameOperand .c0 a b) : WSim g h (parseCReg x a) (parseCReg y b) := by
  cases o with
  | same => exact sim_parseCReg c _
  | c0 _ _ r h1 h2 => rw [parseCReg_ok x h1, parseCReg_ok y h2]; exact wsim_refl _

theorem same_mem [Unicode] {a b : Str} (o : SameOperand .mem a b) : a = b ∨ ∃ bt bt' r, baseText a = some bt ∧ baseText b = some bt' ∧
    Register.fromStr bt = .ok r ∧ Register.fromStr bt' = .ok r ∧ findOffset a = findOffset b := by
  cases o with
  | same => exact .inl rfl
  | mem o b b' q q' r h1 h2 hb hb' hq hq' =>
    have cb := reg_chars gprCore_alnum hb
    have cb' := reg_chars gprCore_alnum hb'
    have cq := blank_chars hq
    have cq' := blank_chars hq'
    refine .inr ⟨trim b, trim b', r.toFin, ?_, ?_, gpr_fromStr (reg_trim gprCore_alnum hb), gpr_fromStr (reg_trim gprCore_alnum hb'), ?_⟩
    · exact baseText_mem o b q (fun c hc e => h1 (e ▸ hc)) (fun c hc => ⟨(cb c hc).1, (cb c hc).2.1, (cb c hc).2.2.2⟩) (fun c hc => (cq c hc).1)
    · exact baseText_mem o b' q' (fun c hc e => h1 (e ▸ hc)) (fun c hc => ⟨(cb' c hc).1, (cb' c hc).2.1, (cb' c hc).2.2.2⟩) (fun c hc => (cq' c hc).1)
    · rw [findOffset_mem o b q (fun c hc e => h2 (e ▸ hc)) (fun c hc => (cb c hc).1) (fun c hc => (cq c hc).1),
        findOffset_mem o b' q' (fun c hc e => h2 (e ▸ hc)) (fun c hc => (cb' c hc).1) (fun c hc => (cq' c hc).1)]

theorem same_memArm [Unicode] (c : CtxSim g h x y) {a b : Str} (o : SameOperand .mem a b) (op : Str) (p : Register) :
    WSim g h (match baseText a with
      | none => W.panic
      | some bt => do
        let base ← W.lift (Res.unwrap (Register.fromStr bt))
        match findOffset a with
        | some o => mkI op base p (W.lift (parseImm x .i16 o.dropLast))
        | none => mkI op base p (W.lift (parseImm x .i16 c!"0")))
      (match baseText b with
      | none => W.panic
      | some bt => do
        let base ← W.lift (Res.unwrap (Register.fromStr bt))
        match findOffset b with
        | some o => mkI op base p (W.lift (parseImm y .i16 o.dropLast))
        | none => mkI op base p (W.lift (parseImm y .i16 c!"0"))) := by
  have key : ∀ (base : Register), WSim g h (match findOffset b with
        | some o => mkI op base p (W.lift (parseImm x .i16 o.dropLast))
        | none => mkI op base p (W.lift (parseImm x .i16 c!"0")))
      (match findOffset b with
        | some o => mkI op base p (W.lift (parseImm y .i16 o.dropLast))
        | none => mkI op base p (W.lift (parseImm y .i16 c!"0"))) := by
    intro base
    split
    · exact sim_mkI (sim_parseImm c _ _)
    · exact sim_mkI (sim_parseImm c _ _)
  rcases same_mem o with rfl | ⟨bt, bt', r, e1, e2, e3, e4, e5⟩
  · split
    · exact wsim_refl _
    · exact wsim_bind (wsim_refl _) fun base => key base
  · simp only [e1, e2, e3, e4, e5]
    exact wsim_bind (wsim_refl _) fun base => key base

theorem same_fmemArm [Unicode] (c : CtxSim g h x y) {a b : Str} (o : SameOperand .mem a b) (op : Str) (p : Register) :
    WSim g h (match baseText a with
      | none => W.panic
      | some bt => do
        let base ← parseReg x bt
        match findOffset a with
        | some o => mkI op base p (W.lift (parseImm x .i16 (removeOpenParen o)))
        | none => mkI op base p (W.lift (parseImm x .i16 c!"0")))
      (match baseText b with
      | none => W.panic
      | some bt => do
        let base ← parseReg y bt
        match findOffset b with
        | some o => mkI op base p (W.lift (parseImm y .i16 (removeOpenParen o)))
        | none => mkI op base p (W.lift (parseImm y .i16 c!"0"))) := by
  have key : ∀ (base : Register), WSim g h (match findOffset b with
        | some o => mkI op base p (W.lift (parseImm x .i16 (removeOpenParen o)))
        | none => mkI op base p (W.lift (parseImm x .i16 c!"0")))
      (match findOffset b with
        | some o => mkI op base p (W.lift (parseImm y .i16 (removeOpenParen o)))
        | none => mkI op base p (W.lift (parseImm y .i16 c!"0"))) := by
    intro base
    split
    · exact sim_mkI (sim_parseImm c _ _)
    · exact sim_mkI (sim_parseImm c _ _)
  rcases same_mem o with rfl | ⟨bt, bt', r, e1, e2, e3, e4, e5⟩
  · split
    · exact wsim_refl _
    · exact wsim_bind (sim_parseReg c _) fun base => key base
  · have p1 : parseReg x bt = ⟨[], .ok r⟩ := by unfold parseReg; rw [e3]; rfl
    have p2 : parseReg y bt' = ⟨[], .ok r⟩ := by unfold parseReg; rw [e4]; rfl
    simp only [e1, e2, p1, p2, e5]
    exact wsim_bind (wsim_refl _) fun base => key base

theorem ops_inv1 {a : Role} {l l' : List Str} (h : SameOperands [a] l l') : ∃ s s', l = [s] ∧ l' = [s'] ∧ SameOperand a s s' := by
  cases h with | cons _ s s' _ _ _ o hs => cases hs; exact ⟨_, _, rfl, rfl, o⟩
theorem ops_inv2 {a b : Role} {l l' : List Str} (h : SameOperands [a, b] l l') :
    ∃ s s' t t', l = [s, t] ∧ l' = [s', t'] ∧ SameOperand a s s' ∧ SameOperand b t t' := by
  cases h with | cons _ s s' _ _ _ o hs => obtain ⟨t, t', rfl, rfl, o'⟩ := ops_inv1 hs; exact ⟨_, _, _, _, rfl, rfl, o, o'⟩
theorem ops_inv3 {a b d : Role} {l l' : List Str} (h : SameOperands [a, b, d] l l') :
    ∃ s s' t t' u u', l = [s, t, u] ∧ l' = [s', t', u'] ∧ SameOperand a s s' ∧ SameOperand b t t' ∧ SameOperand d u u' := by
  cases h with | cons _ s s' _ _ _ o hs => obtain ⟨t, t', u, u', rfl, rfl, o', o''⟩ := ops_inv2 hs; exact ⟨_, _, _, _, _, _, rfl, rfl, o, o', o''⟩

theorem same_simple {role : Role} (hr : (role.isReg || decide (role = .mem)) = false) {a b : Str} (o : SameOperand role a b) : a = b := by
  cases o with
  | same => rfl
  | _ => cases hr

set_option maxHeartbeats 8000000 in
theorem regs_arm [Unicode] (c : CtxSim g h x y) (t : TextFree g h) {cls : Cls} {sig : List Role} (hsig : sig ∈ clsSigs cls) {op arg arg' : Str}
    (hc : sig = [.gpr, .mem] → trim (Unicode.lower op) ≠ c!"cache") (hc' : sig = [.cop, .mem] → trim (Unicode.lower op) = c!"cache")
    (hs : SameOperands sig (split ',' arg) (split ',' arg')) :
    WSim g h (parseArm x cls op arg) (parseArm y cls op arg') := by
  have f1 : ∀ (s s' : Str), WSim g h (W.fail (.invalidImmediate x.line s) : W Instruction) (W.fail (.invalidImmediate y.line s')) :=
    fun s s' => wsim_fail (t.err _ _ rfl)
  have f2 : ∀ (s s' : Str), WSim g h (W.fail (.invalidOpcode x.line s) : W Instruction) (W.fail (.invalidOpcode y.line s')) :=
    fun s s' => wsim_fail (t.err _ _ rfl)
  unfold parseArm
  revert hs
  generalize split ',' arg = args
  generalize split ',' arg' = args'
  intro hs
  cases cls <;> simp only [clsSigs, List.mem_cons, List.not_mem_nil, or_false] at hsig
  case mem =>
    rcases hsig with rfl | rfl
    · obtain ⟨_, _, _, _, rfl, rfl, o0, o1⟩ := ops_inv2 hs
      simp only [if_neg (hc rfl), same_unwrap o0]
      exact wsim_bind (wsim_refl _) fun _ => same_memArm c o1 _ _
    · obtain ⟨_, _, _, _, rfl, rfl, o0, o1⟩ := ops_inv2 hs
      obtain rfl := same_simple rfl o0
      simp only [if_pos (hc' rfl)]
      refine wsim_bind (wsim_bind (sim_parseImm c _ _) fun _ => wsim_refl _) fun _ => same_memArm c o1 _ _
  case fmem =>
    subst hsig
    obtain ⟨_, _, _, _, rfl, rfl, o0, o1⟩ := ops_inv2 hs
    exact wsim_bind (same_freg c o0) fun _ => same_fmemArm c o1 _ _
  case other =>
    rcases hsig with rfl | rfl
    · obtain ⟨_, _, _, _, rfl, rfl, o0, o1⟩ := ops_inv2 hs
      simp only [parseFloat]
      repeat' first
        | with_reducible exact wsim_refl _
        | ((with_reducible refine read_bad' t ?_); rfl)
        | with_reducible exact f2 _ _
        | exact wsim_bind (same_freg c o0) fun p => wsim_bind (same_freg c o1) fun q => read_fcmp t (OpcSim.refl _) p q
        | with_reducible exact same_freg c o0
        | with_reducible exact same_freg c o1
        | with_reducible refine wsim_bind ?_ (fun _ => ?_)
        | split
    · obtain ⟨_, _, _, _, _, _, rfl, rfl, o0, o1, o2⟩ := ops_inv3 hs
      simp only [parseFloat]
      repeat' first
        | with_reducible exact wsim_refl _
        | ((with_reducible refine read_bad' t ?_); rfl)
        | with_reducible exact f2 _ _
        | with_reducible exact same_freg c o0
        | with_reducible exact same_freg c o1
        | with_reducible exact same_freg c o2
        | with_reducible refine wsim_bind ?_ (fun _ => ?_)
        | split
  all_goals first | subst hsig | (rcases hsig with hsig | hsig <;> subst hsig)
  all_goals
    first
      | (obtain ⟨_, _, rfl, rfl, o0⟩ := ops_inv1 hs)
      | (obtain ⟨_, _, _, _, rfl, rfl, o0, o1⟩ := ops_inv2 hs)
      | (obtain ⟨_, _, _, _, _, _, rfl, rfl, o0, o1, o2⟩ := ops_inv3 hs)
    try (obtain rfl := same_simple rfl o0)
    try (obtain rfl := same_simple rfl o1)
    try (obtain rfl := same_simple rfl o2)
    simp only [parseBranch0, parseLi]
    repeat' first
      | with_reducible exact wsim_refl _
      | with_reducible exact same_reg c o0
      | with_reducible exact same_reg c o1
      | with_reducible exact same_reg c o2
      | with_reducible exact same_freg c o1
      | with_reducible exact same_creg c o1
      | with_reducible exact sim_parseImm c _ _
      | with_reducible exact sim_tgt c _
      | with_reducible exact read_align t _ _ _
      | with_reducible exact read_jump t _ _
      | with_reducible exact c.delay
      | with_reducible exact f1 _ _
      | with_reducible refine sim_mkI ?_
      | with_reducible refine wsim_bind ?_ (fun _ => ?_)
      | split

theorem lineSim_regs [Unicode] (t : TextFree g h) {raw raw' : Str} (hr : Respelled raw raw') : LineSim g h raw raw' := by
  refine .inr ⟨hr.code, hr.code', fun x y c => ?_⟩
  obtain ⟨mn, sig, hm, hc, hs⟩ := hr.ops
  obtain ⟨h1, h2, h3, _⟩ := sigs_ok _ hm
  simp only at h1 h2 h3
  have hmn : Mn (firstWord (body raw)) mn := ⟨hc, h1⟩
  rw [parseInst_eq x (kind_code_ne hr.code), parseInst_eq y (kind_code_ne hr.code')]
  have hk : mnemonic (body raw) = mn := hmn.key
  have hk' : mnemonic (body raw') = mn := by unfold mnemonic; rw [← hr.word]; exact hk
  rw [hk, hk', ← hr.word]
  have hk2 : trim (Unicode.lower (firstWord (body raw))) = mn := hk
  refine regs_arm c t h2 ?_ ?_ hs
  · rintro rfl e; rw [hk2] at e; exact absurd (h3.1 e) (by decide)
  · rintro rfl; rw [hk2]; exact h3.2 rfl

theorem sameLines_regs [Unicode] (tf : TextFree g h) {ls ls' : List Str} (hs : Operands.SameFile ls ls') : SameLines (LineSim g h) ls ls' := by
  induction hs with
  | nil => exact .nil
  | cons raw raw' ls ls' h1 _ ih =>
    rcases h1 with rfl | h1
    · cases hk : kind raw with
      | blank => exact .left _ _ _ hk (.right _ _ _ hk ih)
      | label l => exact .both _ _ _ _ (.inl ⟨l, hk, hk⟩) ih
      | code => exact .both _ _ _ _ (.inr ⟨hk, hk, fun x y c => sim_inst c _⟩) ih
    · exact .both _ _ _ _ (lineSim_regs tf h1) ih
end

/-- **C23**, equivalence.  Two programs that differ only in the spelling of registers (name, `$name`, `rN`, `$rN`, `N`, `$N` with
any white space around and the name in any letter case; `fN` and the calling-convention names for the floating-point registers;
names and numbers for the registers of coprocessor 0; also the base registers of loads and stores) give the same result: the same
instructions and words, or the same kinds of diagnostics. -/
theorem C23_equivalent [Unicode] (rt : Rt) (m : Mipsasm) (text text' : Str) (h : Operands.SameFile (lines text) (lines text')) :
    (assemble rt m text).bare = (assemble rt m text').bare ∧ (assemble rt m text).words = (assemble rt m text').words := by
  have := outSim_bare (sim_assemble (rt := rt) (rt' := rt) (m := m) (m' := m) bare_textFree.lineless rfl rfl rfl (sameLines_regs bare_textFree h))
  exact ⟨this, words_bare this⟩

/-! ### Only registers are taken -/

/-- `w` succeeds only if `p`. -/
def Need {α : Type} (p : Prop) (w : W α) : Prop := ∀ a, w.res = .ok a → p

theorem need_left {α β} {p : Prop} {w : W α} {f : α → W β} (h : Need p w) : Need p (w >>= f) := by
  intro b hb
  obtain ⟨a, h1, _⟩ := bind_ok hb
  exact h a h1
theorem need_right {α β} {p : Prop} {w : W α} {f : α → W β} (h : ∀ a, Need p (f a)) : Need p (w >>= f) := by
  intro b hb
  obtain ⟨a, _, h2, _⟩ := bind_ok hb
  exact h a b h2
theorem need_fail {α} {p : Prop} {e : ParserError} : Need p (W.fail e : W α) := by intro a h; cases h
theorem need_panic {α} {p : Prop} : Need p (W.panic : W α) := by intro a h; cases h
theorem need_bad {α} {p : Prop} {x : Ctx} {s : Str} {m n : Nat} : Need p (badCount x s m n : W α) := need_fail

theorem need_gpr [Unicode] (x : Ctx) (s : Str) : Need (TakenAs .gpr s) (parseReg x s) := by
  intro r h
  unfold parseReg at h
  cases hs : Register.fromStr s <;> rw [hs] at h <;> simp [Res.mapErr, W.lift] at h
  exact ⟨_, gpr_taken hs⟩
theorem need_gpr' [Unicode] (s : Str) : Need (TakenAs .gpr s) (W.lift (Res.unwrap (Register.fromStr s)) : W Register) := by
  intro r h
  cases hs : Register.fromStr s <;> rw [hs] at h <;> simp [Res.unwrap, W.lift] at h
  exact ⟨_, gpr_taken hs⟩
theorem need_fpr [Unicode] (x : Ctx) (s : Str) : Need (TakenAs .fpr s) (parseFReg x s) := by
  intro r h
  unfold parseFReg at h
  cases hs : FloatRegister.fromStr s <;> rw [hs] at h <;> simp [Res.mapErr, W.lift] at h
  exact ⟨_, fpr_taken hs⟩
theorem need_c0 [Unicode] (x : Ctx) (s : Str) : Need (TakenAs .c0 s) (parseCReg x s) := by
  intro r h
  unfold parseCReg at h
  cases hs : Cop0Register.fromStr s <;> rw [hs] at h <;> simp [Res.mapErr, W.lift] at h
  exact ⟨_, c0_taken hs⟩

theorem taken_trim [Unicode] {b : Str} {r : Register} (h : Register.fromStr (trim b) = .ok r) : ∃ r, Taken GprTaken b r := by
  have := read_unwrap (a := trim b) (b := b) (trim_trim b)
  rw [h] at this
  cases hb : Register.fromStr b with
  | ok r' => exact ⟨_, gpr_taken hb⟩
  | err e => rw [hb] at this; cases this
  | panic => rw [hb] at this; cases this

/-- the base register of an address -/
theorem need_base [Unicode] {α} {s : Str} {f : Str → W α} (hf : ∀ bt, Need (∃ r, Register.fromStr bt = .ok r) (f bt)) :
    Need (TakenAs .mem s) (match baseText s with | none => W.panic | some bt => f bt) := by
  intro a h o b q hs ho hb hq
  rw [hs, baseText_mem o b q (fun c hc e => ho (e ▸ hc)) hb (fun c hc e => hq (e ▸ hc))] at h
  obtain ⟨r, hr⟩ := hf _ a h
  exact taken_trim hr

theorem need_unwrap [Unicode] (s : Str) : Need (∃ r, Register.fromStr s = .ok r) (W.lift (Res.unwrap (Register.fromStr s)) : W Register) := by
  intro r h
  cases hs : Register.fromStr s <;> rw [hs] at h <;> simp [Res.unwrap, W.lift] at h
  exact ⟨_, rfl⟩
theorem need_parseReg [Unicode] (x : Ctx) (s : Str) : Need (∃ r, Register.fromStr s = .ok r) (parseReg x s) := by
  intro r h
  unfold parseReg at h
  cases hs : Register.fromStr s <;> rw [hs] at h <;> simp [Res.mapErr, W.lift] at h
  exact ⟨_, rfl⟩

theorem need_and {α} {p q : Prop} {w : W α} (h1 : Need p w) (h2 : Need q w) : Need (p ∧ q) w := fun a h => ⟨h1 a h, h2 a h⟩
theorem need_true {α} {w : W α} : Need True w := fun _ _ => trivial

/-- all register operands in the list are taken -/
def AllTaken [Unicode] : List Role → List Str → Prop
  | r :: rs, s :: l => TakenAs r s ∧ AllTaken rs l
  | _, _ => True

theorem allTaken_get [Unicode] {rs : List Role} {l : List Str} (h : AllTaken rs l) {i : Nat} {r : Role} {s : Str} (hr : rs[i]? = some r)
    (hs : l[i]? = some s) : TakenAs r s := by
  induction rs generalizing l i with
  | nil => cases hr
  | cons r' rs ih =>
    cases l with
    | nil => cases hs
    | cons s' l =>
      cases i with
      | zero => cases hr; cases hs; exact h.1
      | succ i => exact ih h.2 hr hs

set_option maxHeartbeats 4000000 in
theorem need_arm [Unicode] (x : Ctx) {cls : Cls} {sig : List Role} (hsig : sig ∈ clsSigs cls) (op : Str) {arg : Str}
    (hc : sig = [.gpr, .mem] → trim (Unicode.lower op) ≠ c!"cache")
    (hl : (split ',' arg).length = sig.length) : Need (AllTaken sig (split ',' arg)) (parseArm x cls op arg) := by
  unfold parseArm
  revert hl
  generalize split ',' arg = args
  intro hl
  have l1 : ∀ (l : List Str), l.length = 1 → ∃ a, l = [a] := fun l h => List.length_eq_one_iff.1 h
  have l2 : ∀ (l : List Str), l.length = 2 → ∃ a b, l = [a, b] := fun l h => by
    match l, h with | [a, b], _ => exact ⟨a, b, rfl⟩
  have l3 : ∀ (l : List Str), l.length = 3 → ∃ a b c, l = [a, b, c] := fun l h => by
    match l, h with | [a, b, c], _ => exact ⟨a, b, c, rfl⟩
  cases cls <;> simp only [clsSigs, List.mem_cons, List.not_mem_nil, or_false] at hsig
  all_goals first | subst hsig | (rcases hsig with hsig | hsig <;> subst hsig)
  all_goals
    first
      | (obtain ⟨a0, rfl⟩ := l1 _ hl)
      | (obtain ⟨a0, a1, rfl⟩ := l2 _ hl)
      | (obtain ⟨a0, a1, a2, rfl⟩ := l3 _ hl)
    simp only [parseBranch0, parseLi, parseFloat, AllTaken]
    repeat' first
      | exact fun _ _ => trivial
      | with_reducible exact need_bad
      | with_reducible exact need_fail
      | with_reducible exact need_panic
      | with_reducible refine need_and ?_ ?_
      | with_reducible exact need_left (need_gpr _ _)
      | with_reducible exact need_right fun _ => need_left (need_gpr _ _)
      | with_reducible exact need_right fun _ => need_right fun _ => need_left (need_gpr _ _)
      | with_reducible exact need_left (need_fpr _ _)
      | with_reducible exact need_right fun _ => need_left (need_fpr _ _)
      | with_reducible exact need_right fun _ => need_right fun _ => need_left (need_fpr _ _)
      | with_reducible exact need_right fun _ => need_left (need_c0 _ _)
      | exact need_right fun _ => need_base fun _ => need_left (need_unwrap _)
      | exact need_right fun _ => need_base fun _ => need_left (need_parseReg _ _)
      | (rw [if_neg (hc rfl)]; exact need_left (need_gpr' _))
      | split

theorem line_ok [Unicode] {rt : Rt} {m : Mipsasm} {text : Str} {ws : List Word} (h : (assemble rt m text).words = some ws) {k : Nat} {raw : Str}
    (hk : (lines text)[k]? = some raw) (hc : kind raw = .code) :
    ∃ x i, SeenAt rt m (lines text) k raw x ∧ (parseInst x (body raw)).res = .ok i := by
  have he : (assemble rt m text).errors = some [] := by
    cases ha : assemble rt m text <;> rw [ha] at h <;> simp_all [AsmOut.words, AsmOut.errors]
  obtain ⟨x, h1, h2, h3⟩ := line_outcome he hk hc
  cases hr : (parseInst x (body raw)).res with
  | ok i => exact ⟨x, i, h1, hr⟩
  | err e => exact absurd (h3 e hr) (by simp)
  | panic => exact absurd hr h2

/-- **C23**, nothing else is taken.  In a program that assembles, wherever the mnemonic of a line asks for a register, the operand
is the name or the number of one (`TakenAs`: with blanks around, `$` in front, and the numerals `rN`, `N`, `+N`; the floating-point
and coprocessor 0 registers also by hexadecimal numbers).  So any other text makes the call fail. -/
theorem C23_only_registers [Unicode] (rt : Rt) (m : Mipsasm) (text : Str) {ws : List Word} (h : (assemble rt m text).words = some ws)
    {k : Nat} {raw : Str} (hk : (lines text)[k]? = some raw) (hc : kind raw = .code) {mn : Str} {sig : List Role}
    (hm : (mn, sig) ∈ signatures) (hmn : Names.Calls (body raw) mn) (hl : Names.count (body raw) = sig.length)
    {i : Nat} {role : Role} {s : Str} (hr : sig[i]? = some role) (hs : (operands (body raw))[i]? = some s) : TakenAs role s := by
  obtain ⟨x, inst, _, hp⟩ := line_ok h hk hc
  obtain ⟨h1, h2, h3, _⟩ := sigs_ok _ hm
  simp only at h1 h2 h3
  have hM : Mn (firstWord (body raw)) mn := ⟨hmn, h1⟩
  rw [parseInst_eq x (kind_code_ne hc), show mnemonic (body raw) = mn from hM.key] at hp
  have hlen : (split ',' (operandText (body raw))).length = sig.length := by rw [split_length]; exact hl
  refine allTaken_get (need_arm x h2 _ ?_ hlen _ hp) hr hs
  rintro rfl e
  have hk2 : trim (Unicode.lower (firstWord (body raw))) = mn := hM.key
  rw [hk2] at e; exact absurd (h3.1 e) (by decide)

/-! ### The error -/

theorem bind_err {α β} {w : W α} {f : α → W β} {e : ParserError} (h : w.res = .err e) : (w >>= f).res = .err e := by
  obtain ⟨ws, r⟩ := w; subst h; rfl
theorem bind_step {α β} {w : W α} {f : α → W β} {a : α} {e : ParserError} (h : w.res = .ok a) (h' : (f a).res = .err e) :
    (w >>= f).res = .err e := by
  obtain ⟨ws, r⟩ := w; subst h; exact h'

/-- reading a register of a kind -/
def readAs [Unicode] (role : Role) (x : Ctx) (s : Str) : W Register :=
  match role with
  | .fpr => parseFReg x s
  | .c0 => parseCReg x s
  | _ => parseReg x s

theorem regular_read [Unicode] {role : Role} (hr : role.isReg = true) {s : Str} (h : Regular role s) : ∃ r, ∀ x, (readAs role x s).res = .ok r := by
  cases role <;> first | (cases hr) | skip
  · obtain ⟨r, h⟩ := h; exact ⟨_, fun x => congrArg W.res (parseReg_ok x h)⟩
  · obtain ⟨r, h⟩ := h; exact ⟨_, fun x => congrArg W.res (parseFReg_ok x h)⟩
  · obtain ⟨r, h⟩ := h; exact ⟨_, fun x => congrArg W.res (parseCReg_ok x h)⟩

theorem gpr_noPanic [Unicode] {s : Str} (h : ¬ RDigit s) : Register.fromStr s ≠ .panic := by
  unfold Register.fromStr
  dsimp only
  have : regReMatches (trimStartMatches '$' (trim s)) = false := by
    rw [Bool.eq_false_iff]
    intro e
    rw [regReMatches_eq, hasRD_iff] at e
    obtain ⟨a, d, b, e, hd⟩ := e
    obtain ⟨p, q, e1, _, _⟩ := trim_decomp s
    obtain ⟨k, hk⟩ := trimStartMatches_eq '$' (trim s)
    apply h
    refine ⟨p ++ List.replicate k '$' ++ a, d, b ++ q, ?_, hd⟩
    rw [e1, hk, e]; simp
  rw [this, if_neg (by simp)]
  split
  · unfold Register.tryFrom; split <;> simp
  · split <;> simp

theorem bad_read [Unicode] {role : Role} (hr : role.isReg = true) {s : Str} (h : ¬ TakenAs role s) (hp : role = .gpr → ¬ RDigit s) :
    ∃ t, ∀ x, (readAs role x s).res = .err (.invalidRegister x.line t) := by
  cases role <;> first | (cases hr) | skip
  · cases hs : Register.fromStr s with
    | ok r => exact absurd ⟨_, gpr_taken hs⟩ h
    | err t => exact ⟨t, fun x => by show (Res.mapErr _ _) = _; rw [hs]; rfl⟩
    | panic => exact absurd hs (gpr_noPanic (hp rfl))
  · cases hs : FloatRegister.fromStr s with
    | ok r => exact absurd ⟨_, fpr_taken hs⟩ h
    | err t => exact ⟨t, fun x => by show (Res.mapErr _ _) = _; rw [hs]; rfl⟩
    | panic =>
      exfalso; revert hs
      unfold FloatRegister.fromStr FloatRegister.tryFrom
      dsimp only
      repeat' split
      all_goals simp
  · cases hs : Cop0Register.fromStr s with
    | ok r => exact absurd ⟨_, c0_taken hs⟩ h
    | err t => exact ⟨t, fun x => by show (Res.mapErr _ _) = _; rw [hs]; rfl⟩
    | panic =>
      exfalso; revert hs
      unfold Cop0Register.fromStr Cop0Register.tryFrom
      dsimp only
      repeat' split
      all_goals simp

set_option maxHeartbeats 8000000 in
theorem bad_arm [Unicode] {cls : Cls} (hcls : cls ≠ .mem) {sig : List Role} (hsig : sig ∈ clsSigs cls) {op mn : Str} (hM : Mn op mn)
    (hst : cls = .other → 2 ≤ mn.length ∧ stemCount (mn.take (mn.length - 2)) = some sig.length) {arg : Str}
    (hl : (split ',' arg).length = sig.length) {j : Nat} {role : Role} {s : Str} (hr : sig[j]? = some role) (hj : role.isReg = true)
    (hs : (split ',' arg)[j]? = some s) (hbad : ¬ TakenAs role s) (hp : role = .gpr → ¬ RDigit s)
    (hgood : ∀ i < j, ∀ r' s', sig[i]? = some r' → (split ',' arg)[i]? = some s' → Regular r' s') :
    ∃ t, ∀ x, (parseArm x cls op arg).res = .err (.invalidRegister x.line t) := by
  obtain ⟨t, ht⟩ := bad_read hj hbad hp
  refine ⟨t, fun x => ?_⟩
  have ht := ht x
  unfold parseArm
  revert hl hs hgood
  generalize split ',' arg = args
  intro hl hs hgood
  have l1 : ∀ (l : List Str), l.length = 1 → ∃ a, l = [a] := fun l h => List.length_eq_one_iff.1 h
  have l2 : ∀ (l : List Str), l.length = 2 → ∃ a b, l = [a, b] := fun l h => by
    match l, h with | [a, b], _ => exact ⟨a, b, rfl⟩
  have l3 : ∀ (l : List Str), l.length = 3 → ∃ a b c, l = [a, b, c] := fun l h => by
    match l, h with | [a, b, c], _ => exact ⟨a, b, c, rfl⟩
  have dc := delayCheck_res x
  have good : ∀ i (_ : i < j) r' s', sig[i]? = some r' → args[i]? = some s' → r'.isReg = true → ∃ r, (readAs r' x s').res = .ok r := by
    intro i hi r' s' h1 h2 h3
    obtain ⟨r, h⟩ := regular_read h3 (hgood i hi r' s' h1 h2)
    exact ⟨r, h x⟩
  cases cls <;> simp only [clsSigs, List.mem_cons, List.not_mem_nil, or_false] at hsig
  case mem => exact absurd rfl hcls
  case other =>
    obtain ⟨h2, hst⟩ := hst rfl
    have ha : ∀ c ∈ mn, isAscii c = true := fun c hc => ((mn_all hM.ok).2.1 c hc).1
    have ha' : ∀ c ∈ op, isAscii c = true := sameName_ascii hM.same ha
    have hle : op.length = mn.length := by rw [← hM.same, List.length_map]
    simp only [parseFloat, hM.lower, byteLen_ascii op ha', hle, if_neg (Nat.not_lt.2 h2), takeBytes_ascii mn ha _ (Nat.sub_le _ _)]
    revert hst
    generalize mn.take (mn.length - 2) = e
    intro hst
    unfold stemCount at hst
    rcases hsig with rfl | rfl
    · obtain ⟨a0, a1, rfl⟩ := l2 _ hl
      have n1 : ¬ ([c!"add", c!"sub", c!"mul", c!"div"].contains e) = true := by
        intro c1; rw [if_pos c1] at hst; cases hst
      rw [if_neg n1] at hst ⊢
      have main : ∀ f : Register → Register → W Instruction, (do
          let p ← parseFReg x a0
          let q ← parseFReg x a1
          f p q).res = .err (.invalidRegister x.line t) := by
        intro f
        rcases j with _ | _ | j
        · cases hr; cases hs; exact bind_err ht
        · cases hr; cases hs
          obtain ⟨r0, g0⟩ := good 0 (by omega) _ _ rfl rfl rfl
          exact bind_step g0 (bind_err ht)
        · cases hr
      split
      · exact main _
      · rename_i n2
        rw [if_neg n2] at hst
        split
        · exact main _
        · rename_i n3; rw [if_neg n3] at hst; cases hst
    · obtain ⟨a0, a1, a2, rfl⟩ := l3 _ hl
      split at hst
      · rename_i c1
        rw [if_pos c1]
        rcases j with _ | _ | _ | j
        · cases hr; cases hs; exact bind_err ht
        · cases hr; cases hs
          obtain ⟨r0, g0⟩ := good 0 (by omega) _ _ rfl rfl rfl
          exact bind_step g0 (bind_err ht)
        · cases hr; cases hs
          obtain ⟨r0, g0⟩ := good 0 (by omega) _ _ rfl rfl rfl
          obtain ⟨r1, g1⟩ := good 1 (by omega) _ _ rfl rfl rfl
          exact bind_step g0 (bind_step g1 (bind_err ht))
        · cases hr
      · split at hst
        · cases hst
        · split at hst <;> cases hst
  all_goals first | subst hsig | (rcases hsig with hsig | hsig <;> subst hsig)
  all_goals
    first
      | (obtain ⟨a0, rfl⟩ := l1 _ hl)
      | (obtain ⟨a0, a1, rfl⟩ := l2 _ hl)
      | (obtain ⟨a0, a1, a2, rfl⟩ := l3 _ hl)
    simp only [parseBranch0, parseLi]
    rcases j with _ | _ | _ | j
    · cases hr; cases hs
      first
        | (cases hj; done)
        | exact bind_err ht
        | exact bind_step dc (bind_err ht)
        | (split <;> first | exact bind_step dc (bind_err ht) | exact bind_err ht)
        | (refine bind_step (a := ()) ?_ (bind_err ht); split <;> first | exact dc | rfl)
    · cases hr <;> cases hs <;> first
        | (cases hj; done)
        | (obtain ⟨r0, g0⟩ := good 0 (by omega) _ _ rfl rfl rfl
           first
            | exact bind_step g0 (bind_err ht)
            | exact bind_step dc (bind_step g0 (bind_err ht)))
    · cases hr <;> cases hs <;> first
        | (cases hj; done)
        | (obtain ⟨r0, g0⟩ := good 0 (by omega) _ _ rfl rfl rfl
           obtain ⟨r1, g1⟩ := good 1 (by omega) _ _ rfl rfl rfl
           first
            | exact bind_step g0 (bind_step g1 (bind_err ht))
            | exact bind_step dc (bind_step g0 (bind_step g1 (bind_err ht))))
    · cases hr

/-- **C23**, what is not a register is reported (loads, stores and `cache` aside, and texts with an `r` in front of a digit aside:
there the assembler may panic).  If the operands have the right number, those in front are registers in a regular spelling, and
an operand where the mnemonic asks for a register is not the name or number of one, the line is reported with `InvalidRegister`. -/
theorem C23_rejected_partial [Unicode] (rt : Rt) (m : Mipsasm) (text : Str) {k : Nat} {raw : Str} (hk : (lines text)[k]? = some raw)
    (hc : kind raw = .code) {mn : Str} {sig : List Role} (hm : (mn, sig) ∈ signatures) (hmn : Names.Calls (body raw) mn)
    (hmem : mn ∉ memNames) (hl : Names.count (body raw) = sig.length)
    {j : Nat} {role : Role} {s : Str} (hr : sig[j]? = some role) (hj : role.isReg = true) (hs : (operands (body raw))[j]? = some s)
    (hgood : ∀ i < j, ∀ r' s', sig[i]? = some r' → (operands (body raw))[i]? = some s' → Regular r' s')
    (hbad : ¬ TakenAs role s) (hp : role = .gpr → ¬ RDigit s) :
    ∃ t, Names.Reports (assemble rt m text) (.invalidRegister ⟨k + 1, raw⟩ t) := by
  obtain ⟨h1, h2, h3, h4, h5⟩ := sigs_ok _ hm
  simp only at h1 h2 h3 h4 h5
  have hM : Mn (firstWord (body raw)) mn := ⟨hmn, h1⟩
  have hlen : (split ',' (operandText (body raw))).length = sig.length := by rw [split_length]; exact hl
  obtain ⟨t, ht⟩ := bad_arm (fun e => hmem (h4.1 e)) h2 hM h5 hlen hr hj hs hbad hp hgood
  refine ⟨t, line_reported hk hc fun x hx => ?_⟩
  rw [parseInst_eq x (kind_code_ne hc), show mnemonic (body raw) = mn from hM.key, ht x, hx.line]

/-- C23 as stated is too generous: texts that are no spelling of a register are taken (`$$a0`, `rr5`, `+5`, `$a` as a floating-point
register); `R4` is refused although `r4` and `A0` are taken; and some texts that are no register make the call panic. -/
theorem C23_wrong :
    (@assemble asciiUnicode (idRt true) Mipsasm.new c!"mthi $$a0").words = some [0x00800011#32] ∧
    (@assemble asciiUnicode (idRt true) Mipsasm.new c!"mthi rr5").words = some [0x00a00011#32] ∧
    (@assemble asciiUnicode (idRt true) Mipsasm.new c!"mthi +5").words = some [0x00a00011#32] ∧
    (@assemble asciiUnicode (idRt true) Mipsasm.new c!"mov.s $a, $c").words = some [0x46006286#32] ∧
    (@assemble asciiUnicode (idRt true) Mipsasm.new c!"mthi A0").words = some [0x00800011#32] ∧
    (@assemble asciiUnicode (idRt true) Mipsasm.new c!"mthi r4").words = some [0x00800011#32] ∧
    (@assemble asciiUnicode (idRt true) Mipsasm.new c!"mthi R0").words = some [0x00000011#32] ∧
    (@assemble asciiUnicode (idRt true) Mipsasm.new c!"mthi R4").errors = some [.invalidRegister ⟨1, c!"mthi R4"⟩ c!"R4"] ∧
    (@assemble asciiUnicode (idRt true) Mipsasm.new c!"mthi r5x").errors = none ∧
    (@assemble asciiUnicode (idRt true) Mipsasm.new c!"lw $x0, 4($a0)").errors = none ∧
    (@assemble asciiUnicode (idRt true) Mipsasm.new c!"lw $a0, 4($x0)").errors = none := by
  refine ⟨?_, ?_, ?_, ?_, ?_, ?_, ?_, ?_, ?_, ?_, ?_⟩ <;> decide +kernel

/-! ### The hypotheses are satisfiable -/

theorem ex_a0 : Reg GprCore c!" $a0" 4#5 := Reg.dollar c!" " c!"a0" [] 4#5 (by unfold Blank; decide) (by unfold Blank; decide) (.name _ c!"a0" _ rfl rfl)
theorem ex_r4 : Reg GprCore c!" r4 " 4#5 := Reg.bare c!" " c!"r4" c!" " 4#5 (by unfold Blank; decide) (by unfold Blank; decide)
  (.rnum _ _ (.one '4' 4 rfl))
theorem ex_A0 : Reg GprCore c!"A0" 4#5 := Reg.bare [] c!"A0" [] 4#5 (by unfold Blank; decide) (by unfold Blank; decide) (.name _ c!"a0" _ rfl rfl)
theorem ex_4 : Reg GprCore c!"4" 4#5 := Reg.bare [] c!"4" [] 4#5 (by unfold Blank; decide) (by unfold Blank; decide) (.num _ _ (.one '4' 4 rfl))

example : Operands.SameFile [c!"l:", c!"addu $t0,A0, $a0", c!"lw A0,8(A0)"] [c!"l:", c!"addu $t0,4, r4 ", c!"lw 4,8( r4 ) ; x"] := by
  refine .cons _ _ _ _ (.inl rfl) (.cons _ _ _ _ (.inr ⟨by decide +kernel, by decide +kernel, by decide +kernel, c!"addu", [Role.gpr, .gpr, .gpr], ?_, by unfold Names.Calls; decide +kernel, ?_⟩)
    (.cons _ _ _ _ (.inr ⟨by decide +kernel, by decide +kernel, by decide +kernel, c!"lw", [Role.gpr, .mem], ?_, by unfold Names.Calls; decide +kernel, ?_⟩) .nil))
  · decide +kernel
  · rw [show operands (body c!"addu $t0,A0, $a0") = [c!"$t0", c!"A0", c!" $a0"] by decide +kernel,
      show operands (body c!"addu $t0,4, r4 ") = [c!"$t0", c!"4", c!" r4"] by decide +kernel]
    have r4 : Reg GprCore c!" r4" 4#5 := Reg.bare c!" " c!"r4" [] 4#5 (by unfold Blank; decide) (by unfold Blank; decide) (.rnum _ _ (.one '4' 4 rfl))
    exact .cons _ _ _ _ _ _ (.same _ _) (.cons _ _ _ _ _ _ (.gpr _ _ _ ex_A0 ex_4) (.cons _ _ _ _ _ _ (.gpr _ _ _ ex_a0 r4) .nil))
  · decide +kernel
  · rw [show operands (body c!"lw A0,8(A0)") = [c!"A0", c!"8(A0)"] by decide +kernel,
      show operands (body c!"lw 4,8( r4 ) ; x") = [c!"4", c!"8( r4 ) "] by decide +kernel]
    refine .cons _ _ _ _ _ _ (.gpr _ _ _ ex_A0 ex_4) (.cons _ _ _ _ _ _ ?_ .nil)
    exact .mem c!"8" c!"A0" c!" r4 " [] c!" " 4#5 (by decide) (by decide) ex_A0 ex_r4 (by unfold Blank; decide) (by unfold Blank; decide)

/-- A text with the letter `x` is not taken as a general-purpose register. -/
theorem ex_notTaken {s : Str} (hx : 'x' ∈ s) : ¬ @TakenAs asciiUnicode .gpr s := by
  rintro ⟨r, h⟩
  cases h with
  | mk p s q k r hp hq hs =>
    have hxs : 'x' ∈ s := by
      rw [List.mem_append, List.mem_append, List.mem_append] at hx
      rcases hx with (h | h | h) | h
      · exact absurd (hp _ h) (by decide)
      · exact absurd (List.eq_of_mem_replicate h) (by decide)
      · exact h
      · exact absurd (hq _ h) (by decide)
    have dg : ∀ {t : Str} {n : Nat}, Digits decDigits t n → 'x' ∉ t := fun h => noX_dec h
    cases hs with
    | name _ n r hn hl =>
      have : 'x' ∈ n := by
        rw [← hl]
        exact List.mem_map.2 ⟨'x', hxs, by decide⟩
      have all : ∀ m ∈ gprNames, 'x' ∉ m := by decide +kernel
      exact all n (List.mem_of_getElem? hn) this
    | num _ r h =>
      rcases h with h | ⟨t, rfl, h⟩
      · exact dg h hxs
      · rcases List.mem_cons.1 hxs with h' | h'
        · exact absurd h' (by decide)
        · exact dg h h'
    | rnum j s r h =>
      rcases List.mem_append.1 hxs with h' | h'
      · exact absurd (List.eq_of_mem_replicate h') (by decide)
      · exact dg h h'
    | r0 _ r hl _ =>
      have : 'x' ∈ c!"r0" := by
        rw [← hl]
        exact List.mem_map.2 ⟨'x', hxs, by decide⟩
      exact absurd this (by decide)

example : ∃ t, Names.Reports (@assemble asciiUnicode (idRt true) Mipsasm.new c!"nop\n addu $a0,A0, $x9 ; no")
    (.invalidRegister ⟨2, c!" addu $a0,A0, $x9 ; no"⟩ t) := by
  letI := asciiUnicode
  have ho : operands (body c!" addu $a0,A0, $x9 ; no") = [c!"$a0", c!"A0", c!" $x9 "] := by decide +kernel
  refine C23_rejected_partial (idRt true) Mipsasm.new _ (k := 1) (by decide +kernel) (by decide +kernel) (mn := c!"addu") (sig := [.gpr, .gpr, .gpr])
    (by decide +kernel) (by unfold Names.Calls; decide +kernel) (by decide +kernel) (by decide +kernel) (j := 2) rfl rfl (s := c!" $x9 ") ?_ ?_ ?_ ?_
  · rw [ho]; rfl
  · intro i hi r' s' h1 h2
    rw [ho] at h2
    have a0 : Reg GprCore c!"$a0" 4#5 := Reg.dollar [] c!"a0" [] 4#5 (by unfold Blank; decide) (by unfold Blank; decide) (.name _ c!"a0" _ rfl rfl)
    match i, hi with
    | 0, _ => cases h1; cases h2; exact ⟨_, a0⟩
    | 1, _ => cases h1; cases h2; exact ⟨_, ex_A0⟩
  · exact ex_notTaken (by decide)
  · rintro - ⟨a, d, b, e, _⟩
    have : 'r' ∈ c!" $x9 " := by rw [e]; simp
    exact absurd this (by decide)

example : (@assemble asciiUnicode (idRt true) Mipsasm.new c!"nop\n addu $a0,A0, $t9 ; yes").words = some [0#32, 0x00992021#32] := by decide +kernel

end Mips
