/- C55: only the values of the operands matter. -/
import Verif.Spec.Equal
import Verif.Props.Regs
import Verif.Props.HiLo
import Verif.Props.Shift
import Verif.Props.Labels

namespace Mips
open Source Branch Syntax Operands Equal

variable {γ δ : Type}

/-- What the labels and symbols of a context must be like. -/
structure Sane (syms : List (Word × Str)) (x : Ctx) : Prop where
  num : NoNumLabel x.labels
  paren : NoParen x.labels
  tab : x.syms = syms
  names : (syms.map (·.2)).Nodup

section
variable {g : ParserError → γ} {h : ParserWarning → δ} {x y : Ctx} {syms : List (Word × Str)} {fp : Bool}

theorem Sane.other (hx : Sane syms x) (c : CtxSim g h x y) : Sane syms y :=
  ⟨c.labels ▸ hx.num, c.labels ▸ hx.paren, c.syms ▸ hx.tab, hx.names⟩

theorem val_num (c : CtxSim g h x y) (t : TextFree g h) (hx : Sane syms x) (ty : IntTy) {a b : Str} {v : Int} (ha : PNum a v) (hb : PNum b v) :
    RSim g (parseImm x ty a) (parseImm y ty b) := by
  rw [parseImm_num x ty hx.num ha, parseImm_num y ty (hx.other c).num hb]
  split
  · exact RSim.refl _
  · exact t.err _ _ rfl

theorem val_half (c : CtxSim g h x y) (hx : Sane syms x) (ty : IntTy) {a b f : Str} {v : Word} (hf : f = c!"%hi" ∨ f = c!"%lo")
    (ha : HiLo.Half syms f a v) (hb : HiLo.Half syms f b v) : RSim g (parseImm x ty a) (parseImm y ty b) := by
  have hy := hx.other c
  rw [parseImm_half x ty hf hx.paren (by rw [hx.tab]; exact hx.names) (by rw [hx.tab]; exact ha),
    parseImm_half y ty hf hy.paren (by rw [hy.tab]; exact hy.names) (by rw [hy.tab]; exact hb), c.ovf]
  exact RSim.refl _

theorem val_imm (c : CtxSim g h x y) (t : TextFree g h) (hx : Sane syms x) (ty : IntTy) {role : Role} (hr : isNumber role = true) (hr2 : role ≠ .shamt)
    {a b : Str} (o : SameValue syms fp role a b) : WSim g h (W.lift (parseImm x ty a)) (W.lift (parseImm y ty b)) := by
  cases o with
  | reg _ _ _ o =>
    cases o with
    | same => exact sim_parseImm c ty a
    | _ => cases hr
  | num _ _ _ v _ h1 h2 => exact wsim_lift (val_num c t hx ty h1 h2)
  | half _ f _ _ v _ _ hf h1 h2 => exact wsim_lift (val_half c hx ty hf h1 h2)
  | mem => cases hr
  | memLo => cases hr
  | target => cases hr

theorem pnum_trim {s : Str} {v : Int} (h : PNum s v) : PNum (trim s) v := by
  cases h with
  | mk p s q v hp hq h =>
    rw [trim_blank_tight p s q (blank_ws hp) (blank_ws hq) (num_tight h)]
    have := PNum.mk [] s [] v (by simp [Blank]) (by simp [Blank]) h
    simpa using this

theorem val_code (c : CtxSim g h x y) (t : TextFree g h) (hx : Sane syms x)
    {a b : Str} (o : SameValue syms fp .code a b) :
    WSim g h (if a.isEmpty then pure (.short 0#16) else W.lift (parseImm x .u16 (trim a)))
      (if b.isEmpty then pure (.short 0#16) else W.lift (parseImm y .u16 (trim b))) := by
  have ht : ∀ (z : Ctx) s, parseImm z .u16 (trim s) = parseImm z .u16 s := fun z s => parseImm_trim z .u16 (trim_trim s)
  have hne : ∀ s v, PNum s v → s.isEmpty = false := fun s v h => by
    have := (pnum_chars h).1
    cases s with
    | nil => exact absurd rfl this
    | cons _ _ => rfl
  have hnh : ∀ f s v, f = c!"%hi" ∨ f = c!"%lo" → HiLo.Half syms f s v → s.isEmpty = false := fun f s v hf h => by
    have := (half_chars hf h).1
    cases s with
    | nil => exact absurd rfl this
    | cons _ _ => rfl
  rw [ht, ht]
  cases o with
  | reg _ _ _ o =>
    cases o
    split
    · exact wsim_refl _
    · exact sim_parseImm c .u16 a
  | num _ _ _ v hr h1 h2 =>
    rw [hne _ _ h1, hne _ _ h2]
    exact wsim_lift (val_num c t hx .u16 h1 h2)
  | half _ f _ _ v hr h0 hf h1 h2 =>
    rw [hnh _ _ _ hf h1, hnh _ _ _ hf h2]
    exact wsim_lift (val_half c hx .u16 hf h1 h2)

theorem val_shift {a b : Str} (o : SameValue syms fp .shamt a b) : parseShift a = parseShift b := by
  cases o with
  | reg _ _ _ o => cases o; rfl
  | num _ _ _ v _ h1 h2 => rw [parseShift_int h1, parseShift_int h2]
  | half _ _ _ _ _ _ h => exact absurd rfl h

theorem val_target (c : CtxSim g h x y) (hx : Sane syms x) {a b : Str} (o : SameValue syms fp .target a b) :
    WSim g h (W.lift (parseTarget x (trim a))) (W.lift (parseTarget y (trim b))) := by
  cases o with
  | reg _ _ _ o => cases o; exact sim_tgt c _
  | num _ _ _ _ h => cases h
  | half _ _ _ _ _ h => cases h
  | target _ _ v h1 h2 =>
    have hy := hx.other c
    rw [names_target x (by rw [hx.tab]; exact hx.names) (by rw [hx.tab]; exact h1),
      names_target y (by rw [hy.tab]; exact hy.names) (by rw [hy.tab]; exact h2)]
    exact wsim_refl _

theorem val_reg {role : Role} (hr : role.isReg = true) {a b : Str} (o : SameValue syms fp role a b) : SameOperand role a b := by
  cases o with
  | reg _ _ _ o => exact o
  | num _ _ _ _ h => cases role <;> first | (cases h; done) | (cases hr; done)
  | half _ _ _ _ _ h => cases role <;> first | (cases h; done) | (cases hr; done)
  | mem => cases hr
  | memLo => cases hr
  | target => cases hr

theorem removeOpenParen_last {o : Str} (h : ∀ c ∈ o, c ≠ '(') : removeOpenParen (o ++ ['(']) = o := by
  unfold removeOpenParen
  rw [List.filter_append]
  have : o.filter (fun c => !(c == '(')) = o := by
    rw [List.filter_eq_self]
    intro c hc
    simp [h c hc]
  rw [this]; simp

/-- What the arms of the loads and stores make of their second operand. -/
theorem val_mem [Unicode] (c : CtxSim g h x y) (t : TextFree g h) (hx : Sane syms x) {a b : Str} (o : SameValue syms fp .mem a b) :
    SameOperand .mem a b ∨ ∃ bt bt' r o o', baseText a = some bt ∧ baseText b = some bt' ∧
      Register.fromStr bt = .ok r ∧ Register.fromStr bt' = .ok r ∧ findOffset a = some (o ++ ['(']) ∧ findOffset b = some (o' ++ ['(']) ∧
      RSim g (parseImm x .i16 o) (parseImm y .i16 o') ∧
      (fp = true → removeOpenParen (o ++ ['(']) = o ∧ removeOpenParen (o' ++ ['(']) = o') := by
  cases o with
  | reg _ _ _ o => exact .inl o
  | num _ _ _ _ h => cases h
  | half _ _ _ _ _ h => cases h
  | mem o o' b b' q q' v r ho ho' hb hb' hq hq' =>
    have cb := reg_chars gprCore_alnum hb
    have cb' := reg_chars gprCore_alnum hb'
    have cq := blank_chars hq
    have cq' := blank_chars hq'
    obtain ⟨n, co⟩ := pnum_chars ho
    obtain ⟨n', co'⟩ := pnum_chars ho'
    refine .inr ⟨trim b, trim b', r.toFin, o, o', ?_, ?_, gpr_fromStr (reg_trim gprCore_alnum hb), gpr_fromStr (reg_trim gprCore_alnum hb'), ?_, ?_,
      val_num c t hx .i16 ho ho', fun _ => ⟨removeOpenParen_last fun c hc => (co c hc).1, removeOpenParen_last fun c hc => (co' c hc).1⟩⟩
    · exact baseText_mem o b q (fun c hc => (co c hc).1) (fun c hc => ⟨(cb c hc).1, (cb c hc).2.1, (cb c hc).2.2.2⟩) (fun c hc => (cq c hc).1)
    · exact baseText_mem o' b' q' (fun c hc => (co' c hc).1) (fun c hc => ⟨(cb' c hc).1, (cb' c hc).2.1, (cb' c hc).2.2.2⟩) (fun c hc => (cq' c hc).1)
    · rw [findOffset_mem o b q (fun c hc => (co c hc).2.2.2) (fun c hc => (cb c hc).1) (fun c hc => (cq c hc).1), if_neg n]
    · rw [findOffset_mem o' b' q' (fun c hc => (co' c hc).2.2.2) (fun c hc => (cb' c hc).1) (fun c hc => (cq' c hc).1), if_neg n']
  | memLo o o' b b' q q' v r hfp ho ho' hb hb' hq hq' =>
    have cb := reg_chars gprCore_alnum hb
    have cb' := reg_chars gprCore_alnum hb'
    have cq := blank_chars hq
    have cq' := blank_chars hq'
    obtain ⟨n, co⟩ := half_chars (.inr rfl) ho
    obtain ⟨n', co'⟩ := half_chars (.inr rfl) ho'
    refine .inr ⟨trim b, trim b', r.toFin, o, o', ?_, ?_, gpr_fromStr (reg_trim gprCore_alnum hb), gpr_fromStr (reg_trim gprCore_alnum hb'), ?_, ?_,
      val_half c hx .i16 (.inr rfl) ho ho', fun h => by rw [hfp] at h; cases h⟩
    · exact baseText_half ho (fun c hc => ⟨(cb c hc).1, (cb c hc).2.1, (cb c hc).2.2.2⟩) (fun c hc => (cq c hc).1)
    · exact baseText_half ho' (fun c hc => ⟨(cb' c hc).1, (cb' c hc).2.1, (cb' c hc).2.2.2⟩) (fun c hc => (cq' c hc).1)
    · rw [findOffset_mem o b q (fun c hc => (co c hc).2) (fun c hc => (cb c hc).1) (fun c hc => (cq c hc).1), if_neg n]
    · rw [findOffset_mem o' b' q' (fun c hc => (co' c hc).2) (fun c hc => (cb' c hc).1) (fun c hc => (cq' c hc).1), if_neg n']

theorem val_memArm [Unicode] (c : CtxSim g h x y) (t : TextFree g h) (hx : Sane syms x) {a b : Str} (o : SameValue syms fp .mem a b) (op : Str) (p : Register) :
    WSim g h (match baseText a with
      | none => W.panic
      | some bt => do
        let base ← W.lift (Res.unwrap (Register.fromStr bt))
        match findOffset a with
        | some o => mkI op base p (W.lift (parseImm x .i16 o.dropLast))
        | none => mkI op base p (W.lift (parseImm x .i16 c!"0")))
      (match baseText b with
      | none => W.panic
      | some bt => do
        let base ← W.lift (Res.unwrap (Register.fromStr bt))
        match findOffset b with
        | some o => mkI op base p (W.lift (parseImm y .i16 o.dropLast))
        | none => mkI op base p (W.lift (parseImm y .i16 c!"0"))) := by
  rcases val_mem c t hx o with o | ⟨bt, bt', r, o, o', e1, e2, e3, e4, e5, e6, e7, _⟩
  · exact same_memArm c o op p
  · simp only [e1, e2, e3, e4, e5, e6, List.dropLast_concat]
    exact wsim_bind (wsim_refl _) fun base => sim_mkI (wsim_lift e7)

theorem val_fmemArm [Unicode] (c : CtxSim g h x y) (t : TextFree g h) (hx : Sane syms x) {a b : Str} (o : SameValue syms true .mem a b) (op : Str) (p : Register) :
    WSim g h (match baseText a with
      | none => W.panic
      | some bt => do
        let base ← parseReg x bt
        match findOffset a with
        | some o => mkI op base p (W.lift (parseImm x .i16 (removeOpenParen o)))
        | none => mkI op base p (W.lift (parseImm x .i16 c!"0")))
      (match baseText b with
      | none => W.panic
      | some bt => do
        let base ← parseReg y bt
        match findOffset b with
        | some o => mkI op base p (W.lift (parseImm y .i16 (removeOpenParen o)))
        | none => mkI op base p (W.lift (parseImm y .i16 c!"0"))) := by
  rcases val_mem c t hx o with o | ⟨bt, bt', r, o, o', e1, e2, e3, e4, e5, e6, e7, e8⟩
  · exact same_fmemArm c o op p
  · have p1 : parseReg x bt = ⟨[], .ok r⟩ := by unfold parseReg; rw [e3]; rfl
    have p2 : parseReg y bt' = ⟨[], .ok r⟩ := by unfold parseReg; rw [e4]; rfl
    simp only [e1, e2, p1, p2, e5, e6, (e8 rfl).1, (e8 rfl).2]
    exact wsim_bind (wsim_refl _) fun base => sim_mkI (wsim_lift e7)

theorem vals_inv1 {a : Role} {l l' : List Str} (h : SameValues syms fp [a] l l') : ∃ s s', l = [s] ∧ l' = [s'] ∧ SameValue syms fp a s s' := by
  cases h with | cons _ s s' _ _ _ o hs => cases hs; exact ⟨_, _, rfl, rfl, o⟩
theorem vals_inv2 {a b : Role} {l l' : List Str} (h : SameValues syms fp [a, b] l l') :
    ∃ s s' t t', l = [s, t] ∧ l' = [s', t'] ∧ SameValue syms fp a s s' ∧ SameValue syms fp b t t' := by
  cases h with | cons _ s s' _ _ _ o hs => obtain ⟨t, t', rfl, rfl, o'⟩ := vals_inv1 hs; exact ⟨_, _, _, _, rfl, rfl, o, o'⟩
theorem vals_inv3 {a b d : Role} {l l' : List Str} (h : SameValues syms fp [a, b, d] l l') :
    ∃ s s' t t' u u', l = [s, t, u] ∧ l' = [s', t', u'] ∧ SameValue syms fp a s s' ∧ SameValue syms fp b t t' ∧ SameValue syms fp d u u' := by
  cases h with | cons _ s s' _ _ _ o hs => obtain ⟨t, t', u, u', rfl, rfl, o', o''⟩ := vals_inv2 hs; exact ⟨_, _, _, _, _, _, rfl, rfl, o, o', o''⟩

set_option maxHeartbeats 8000000 in
theorem vals_arm [Unicode] (c : CtxSim g h x y) (t : TextFree g h) (hx : Sane syms x) {cls : Cls} {sig : List Role} (hsig : sig ∈ clsSigs cls)
    (hfp : fp = decide (sig = [.fpr, .mem])) {op arg arg' : Str}
    (hc : sig = [.gpr, .mem] → trim (Unicode.lower op) ≠ c!"cache") (hc' : sig = [.cop, .mem] → trim (Unicode.lower op) = c!"cache")
    (hs : SameValues syms fp sig (split ',' arg) (split ',' arg')) :
    WSim g h (parseArm x cls op arg) (parseArm y cls op arg') := by
  have f1 : ∀ (s s' : Str), WSim g h (W.fail (.invalidImmediate x.line s) : W Instruction) (W.fail (.invalidImmediate y.line s')) :=
    fun s s' => wsim_fail (t.err _ _ rfl)
  have f2 : ∀ (s s' : Str), WSim g h (W.fail (.invalidOpcode x.line s) : W Instruction) (W.fail (.invalidOpcode y.line s')) :=
    fun s s' => wsim_fail (t.err _ _ rfl)
  unfold parseArm
  revert hs
  generalize split ',' arg = args
  generalize split ',' arg' = args'
  intro hs
  cases cls <;> simp only [clsSigs, List.mem_cons, List.not_mem_nil, or_false] at hsig
  case mem =>
    rcases hsig with rfl | rfl
    · obtain ⟨_, _, _, _, rfl, rfl, o0, o1⟩ := vals_inv2 hs
      simp only [if_neg (hc rfl), same_unwrap (val_reg rfl o0)]
      exact wsim_bind (wsim_refl _) fun _ => val_memArm c t hx o1 _ _
    · obtain ⟨_, _, _, _, rfl, rfl, o0, o1⟩ := vals_inv2 hs
      simp only [if_pos (hc' rfl)]
      refine wsim_bind (wsim_bind (val_imm c t hx _ rfl (by decide) o0) fun _ => wsim_refl _) fun _ => val_memArm c t hx o1 _ _
  case fmem =>
    subst hsig
    have : fp = true := by rw [hfp]; rfl
    subst this
    obtain ⟨_, _, _, _, rfl, rfl, o0, o1⟩ := vals_inv2 hs
    exact wsim_bind (same_freg c (val_reg rfl o0)) fun _ => val_fmemArm c t hx o1 _ _
  case other =>
    rcases hsig with rfl | rfl
    · obtain ⟨_, _, _, _, rfl, rfl, o0, o1⟩ := vals_inv2 hs
      have o0 := val_reg rfl o0
      have o1 := val_reg rfl o1
      simp only [parseFloat]
      repeat' first
        | with_reducible exact wsim_refl _
        | ((with_reducible refine read_bad' t ?_); rfl)
        | with_reducible exact f2 _ _
        | exact wsim_bind (same_freg c o0) fun p => wsim_bind (same_freg c o1) fun q => read_fcmp t (OpcSim.refl _) p q
        | with_reducible exact same_freg c o0
        | with_reducible exact same_freg c o1
        | with_reducible refine wsim_bind ?_ (fun _ => ?_)
        | split
    · obtain ⟨_, _, _, _, _, _, rfl, rfl, o0, o1, o2⟩ := vals_inv3 hs
      have o0 := val_reg rfl o0
      have o1 := val_reg rfl o1
      have o2 := val_reg rfl o2
      simp only [parseFloat]
      repeat' first
        | with_reducible exact wsim_refl _
        | ((with_reducible refine read_bad' t ?_); rfl)
        | with_reducible exact f2 _ _
        | with_reducible exact same_freg c o0
        | with_reducible exact same_freg c o1
        | with_reducible exact same_freg c o2
        | with_reducible refine wsim_bind ?_ (fun _ => ?_)
        | split
  case code =>
    subst hsig
    obtain ⟨_, _, rfl, rfl, o0⟩ := vals_inv1 hs
    exact wsim_bind (val_code c t hx o0) fun _ => wsim_refl _
  case shift =>
    subst hsig
    obtain ⟨_, _, _, _, _, _, rfl, rfl, o0, o1, o2⟩ := vals_inv3 hs
    simp only [val_shift o2]
    exact wsim_bind (same_reg c (val_reg rfl o0)) fun _ => wsim_bind (same_reg c (val_reg rfl o1)) fun _ => wsim_refl _
  all_goals first | subst hsig | (rcases hsig with hsig | hsig <;> subst hsig)
  all_goals
    first
      | (obtain ⟨_, _, rfl, rfl, o0⟩ := vals_inv1 hs)
      | (obtain ⟨_, _, _, _, rfl, rfl, o0, o1⟩ := vals_inv2 hs)
      | (obtain ⟨_, _, _, _, _, _, rfl, rfl, o0, o1, o2⟩ := vals_inv3 hs)
    try (replace o0 := val_reg rfl o0)
    try (replace o1 := val_reg rfl o1)
    try (replace o2 := val_reg rfl o2)
    simp only [parseBranch0, parseLi]
    repeat' first
      | with_reducible exact wsim_refl _
      | with_reducible exact same_reg c o0
      | with_reducible exact same_reg c o1
      | with_reducible exact same_reg c o2
      | with_reducible exact same_freg c o1
      | with_reducible exact same_creg c o1
      | exact val_imm c t hx _ rfl (by decide) o0
      | exact val_imm c t hx _ rfl (by decide) o1
      | exact val_imm c t hx _ rfl (by decide) o2
      | with_reducible exact val_target c hx o0
      | with_reducible exact read_align t _ _ _
      | with_reducible exact read_jump t _ _
      | with_reducible exact c.delay
      | with_reducible exact f1 _ _
      | with_reducible refine sim_mkI ?_
      | with_reducible refine wsim_bind ?_ (fun _ => ?_)
      | split

/-- What a label must not be like. -/
def SaneLabel (l : Str) : Prop := (∀ v, ¬ Num l v) ∧ '(' ∉ l

theorem lineSim_vals [Unicode] (t : TextFree g h) {raw raw' : Str} (hr : Rewritten syms raw raw') :
    LineSimP (Sane syms) SaneLabel g h raw raw' := by
  refine .inr ⟨hr.code, hr.code', fun x y c hx => ?_⟩
  obtain ⟨mn, sig, hm, hc, hs⟩ := hr.ops
  obtain ⟨h1, h2, h3, _⟩ := sigs_ok _ hm
  simp only at h1 h2 h3
  have hmn : Mn (firstWord (body raw)) mn := ⟨hc, h1⟩
  rw [parseInst_eq x (kind_code_ne hr.code), parseInst_eq y (kind_code_ne hr.code')]
  have hk : mnemonic (body raw) = mn := hmn.key
  have hk' : mnemonic (body raw') = mn := by unfold mnemonic; rw [← hr.word]; exact hk
  rw [hk, hk', ← hr.word]
  have hk2 : trim (Unicode.lower (firstWord (body raw))) = mn := hk
  refine vals_arm c t hx h2 rfl ?_ ?_ hs
  · rintro rfl e; rw [hk2] at e; exact absurd (h3.1 e) (by decide)
  · rintro rfl; rw [hk2]; exact h3.2 rfl

theorem sameLines_vals [Unicode] (tf : TextFree g h) {ls ls' : List Str} (hs : Equal.SameFile syms ls ls')
    (hq : ∀ l, ∀ raw ∈ ls, kind raw = .label l → isLocal l = false → SaneLabel l) :
    SameLines (LineSimP (Sane syms) SaneLabel g h) ls ls' := by
  induction hs with
  | nil => exact .nil
  | cons raw raw' ls ls' h1 _ ih =>
    have ih := ih fun l r hr => hq l r (List.mem_cons_of_mem _ hr)
    rcases h1 with rfl | h1
    · cases hk : kind raw with
      | blank => exact .left _ _ _ hk (.right _ _ _ hk ih)
      | label l => exact .both _ _ _ _ (.inl ⟨l, hk, hk, hq l raw List.mem_cons_self hk⟩) ih
      | code => exact .both _ _ _ _ (.inr ⟨hk, hk, fun x y c _ => sim_inst c _⟩) ih
    · exact .both _ _ _ _ (lineSim_vals tf h1) ih
end

theorem label_global {ls : List Str} {raw l : Str} (h : raw ∈ ls) (hk : kind raw = .label l) (hl : isLocal l = false) :
    ∃ n, (l, n) ∈ globals ls := by
  obtain ⟨d, hd⟩ := List.mem_iff_getElem?.1 h
  have : (l, codeCount (ls.take d)) ∈ globals (ls.take (d + 1)) := by rw [globals_at hd hk hl]; simp
  exact ⟨_, globals_take_mem this⟩

theorem ctxInv_sane (rt : Rt) (m : Mipsasm) (text : Str) (hn : (m.syms.map (·.2)).Nodup) :
    CtxInv (Sane m.syms) SaneLabel (envOf rt m text) := by
  intro tr h
  exact ⟨fun e he => (h e he).1, fun e he => (h e he).2, rfl, hn⟩

/-- **C55.**  Two programs whose instructions have operands of the same values (`SameFile`: any spelling of a register, any numeral of
a number, a symbol or its address as the target of a jump or under `%hi` and `%lo`) give the same result: the same
instructions and words, or the same kinds of diagnostics.  (Symbols have different names, and no label is spelled like a numeral or
contains a parenthesis.) -/
theorem C55_equivalent [Unicode] (rt : Rt) (m : Mipsasm) (text text' : Str) (h : Equal.SameFile m.syms (lines text) (lines text'))
    (hs : (m.syms.map (·.2)).Nodup) (hn : NoNumeralLabel (lines text)) (hp : HiLo.NoParenLabel (lines text)) :
    (assemble rt m text).bare = (assemble rt m text').bare ∧ (assemble rt m text).words = (assemble rt m text').words := by
  have hq : ∀ l, ∀ raw ∈ lines text, kind raw = .label l → isLocal l = false → SaneLabel l := by
    intro l raw hr hk hl
    obtain ⟨n, hm⟩ := label_global hr hk hl
    exact ⟨hn _ hm, hp _ hm⟩
  have := outSim_bare (sim_assembleP (rt := rt) (rt' := rt) (m := m) (m' := m) (text := text) (text' := text') bare_textFree.lineless
    (ctxInv_sane rt m text hs) rfl rfl rfl (sameLines_vals bare_textFree h hq))
  exact ⟨this, words_bare this⟩

/-! ### Non-vacuity -/

/-- A symbol at 0x1000. -/
def eqTool : Mipsasm := { Mipsasm.new with syms := [(0x1000#32, c!"foo")] }
def eqText : Str := c!"k:\n addiu $a0,$0,16\n j foo\n lw $a0,%lo(foo)($a1)\n ldc1 $f0,8($a0)"
def eqText' : Str := c!"k:\n addiu $a0,$0, 0x010\n j 0x1000\n lw $a0,%lo(0x1000)(5)\n ldc1 $f0,0x8($a0) ; eight"

theorem eq_1000 : UNum c!"0x1000" 0x1000 :=
  .hex c!"1000" 0x1000 (.snoc c!"100" '0' 0x100 0 (.snoc c!"10" '0' 0x10 0 (.snoc c!"1" '0' 1 0 (.one '1' 1 rfl) rfl) rfl) rfl)
theorem eq_names : HiLo.Names eqTool.syms c!"foo" 0x1000#32 := .sym _ _ (by decide) (by decide)
theorem eq_names' : HiLo.Names eqTool.syms c!"0x1000" 0x1000#32 := .num _ 0x1000 eq_1000 (by decide) (by decide)
theorem eq_a1 : Reg GprCore c!"$a1" 5#5 := .dollar [] c!"a1" [] 5#5 (by unfold Blank; decide) (by unfold Blank; decide) (.name _ c!"a1" _ rfl rfl)
theorem eq_5 : Reg GprCore c!"5" 5#5 := .bare [] c!"5" [] 5#5 (by unfold Blank; decide) (by unfold Blank; decide) (.num _ _ (.one '5' 5 rfl))
theorem eq_a0 : Reg GprCore c!"$a0" 4#5 := .dollar [] c!"a0" [] 4#5 (by unfold Blank; decide) (by unfold Blank; decide) (.name _ c!"a0" _ rfl rfl)

theorem eq_same : Equal.SameFile eqTool.syms (lines eqText) (lines eqText') := by
  letI := asciiUnicode
  rw [show lines eqText = [c!"k:", c!" addiu $a0,$0,16", c!" j foo", c!" lw $a0,%lo(foo)($a1)", c!" ldc1 $f0,8($a0)"] by decide +kernel,
    show lines eqText' = [c!"k:", c!" addiu $a0,$0, 0x010", c!" j 0x1000", c!" lw $a0,%lo(0x1000)(5)", c!" ldc1 $f0,0x8($a0) ; eight"] by decide +kernel]
  have b0 : Blank [] := by unfold Blank; decide
  have b1 : Blank c!" " := by unfold Blank; decide
  refine .cons _ _ _ _ (.inl rfl) (.cons _ _ _ _ (.inr ?_) (.cons _ _ _ _ (.inr ?_) (.cons _ _ _ _ (.inr ?_) (.cons _ _ _ _ (.inr ?_) .nil))))
  · refine ⟨by decide +kernel, by decide +kernel, by decide +kernel, c!"addiu", [Role.gpr, .gpr, .simm], by decide +kernel, by unfold Names.Calls; decide +kernel, ?_⟩
    rw [show operands (body c!" addiu $a0,$0,16") = [c!"$a0", c!"$0", c!"16"] by decide +kernel,
      show operands (body c!" addiu $a0,$0, 0x010") = [c!"$a0", c!"$0", c!" 0x010"] by decide +kernel]
    exact .cons _ _ _ _ _ _ (.reg _ _ _ (.same _ _)) (.cons _ _ _ _ _ _ (.reg _ _ _ (.same _ _)) (.cons _ _ _ _ _ _ (.num _ _ _ 16 rfl
      (.mk [] c!"16" [] 16 b0 b0 (.pos c!"16" 16 (.dec _ _ (.snoc c!"1" '6' 1 6 (.one '1' 1 rfl) rfl))))
      (.mk c!" " c!"0x010" [] 16 b1 b0 (.pos c!"0x010" 16 (.hex c!"010" 16 (.snoc c!"01" '0' 1 0 (.snoc c!"0" '1' 0 1 (.one '0' 0 rfl) rfl) rfl))))) .nil))
  · refine ⟨by decide +kernel, by decide +kernel, by decide +kernel, c!"j", [Role.target], by decide +kernel, by unfold Names.Calls; decide +kernel, ?_⟩
    rw [show operands (body c!" j foo") = [c!"foo"] by decide +kernel, show operands (body c!" j 0x1000") = [c!"0x1000"] by decide +kernel]
    exact .cons _ _ _ _ _ _ (.target _ _ 0x1000#32 eq_names eq_names') .nil
  · refine ⟨by decide +kernel, by decide +kernel, by decide +kernel, c!"lw", [Role.gpr, .mem], by decide +kernel, by unfold Names.Calls; decide +kernel, ?_⟩
    rw [show operands (body c!" lw $a0,%lo(foo)($a1)") = [c!"$a0", c!"%lo(foo)($a1)"] by decide +kernel,
      show operands (body c!" lw $a0,%lo(0x1000)(5)") = [c!"$a0", c!"%lo(0x1000)(5)"] by decide +kernel]
    refine .cons _ _ _ _ _ _ (.reg _ _ _ (.same _ _)) (.cons _ _ _ _ _ _ ?_ .nil)
    exact .memLo c!"%lo(foo)" c!"%lo(0x1000)" c!"$a1" c!"5" [] [] 0x1000#32 5#5 rfl ⟨[], _, [], b0, b0, rfl, eq_names⟩ ⟨[], _, [], b0, b0, rfl, eq_names'⟩
      eq_a1 eq_5 b0 b0
  · refine ⟨by decide +kernel, by decide +kernel, by decide +kernel, c!"ldc1", [Role.fpr, .mem], by decide +kernel, by unfold Names.Calls; decide +kernel, ?_⟩
    rw [show operands (body c!" ldc1 $f0,8($a0)") = [c!"$f0", c!"8($a0)"] by decide +kernel,
      show operands (body c!" ldc1 $f0,0x8($a0) ; eight") = [c!"$f0", c!"0x8($a0) "] by decide +kernel]
    refine .cons _ _ _ _ _ _ (.reg _ _ _ (.same _ _)) (.cons _ _ _ _ _ _ ?_ .nil)
    exact .mem c!"8" c!"0x8" c!"$a0" c!"$a0" [] c!" " 8 4#5 (.mk [] c!"8" [] 8 b0 b0 (.pos _ 8 (.dec _ _ (.one '8' 8 rfl))))
      (.mk [] c!"0x8" [] 8 b0 b0 (.pos _ 8 (.hex _ _ (.one '8' 8 rfl)))) eq_a0 eq_a0 b0 b1

example : (eqTool.syms.map (·.2)).Nodup ∧ NoNumeralLabel (lines eqText) ∧ HiLo.NoParenLabel (lines eqText) := by
  have hg : globals (lines eqText) = [(c!"k", 0)] := by decide +kernel
  refine ⟨by decide, ?_, ?_⟩
  · intro e he
    rw [hg] at he
    cases List.mem_singleton.1 he
    intro v hv
    have h1 : numChar 'k' := (num_chars hv).2 'k' (by simp)
    exact absurd h1 (by unfold numChar; decide)
  · intro e he
    rw [hg] at he
    cases List.mem_singleton.1 he
    decide

example : (@assemble asciiUnicode (idRt true) eqTool eqText).words = some [0x24040010#32, 0x08000400#32, 0x8ca41000#32, 0xd4800008#32] ∧
    (@assemble asciiUnicode (idRt true) eqTool eqText').words = some [0x24040010#32, 0x08000400#32, 0x8ca41000#32, 0xd4800008#32] := by decide +kernel

/-- Without the hypothesis on labels the statement fails: a label named `-4` is meant by `-4` but not by `-0x4`. -/
theorem C55_limit : ∃ text text', Equal.SameFile [] (lines text) (lines text') ∧
    (@assemble asciiUnicode (idRt true) Mipsasm.new text).words ≠ (@assemble asciiUnicode (idRt true) Mipsasm.new text').words := by
  letI := asciiUnicode
  refine ⟨c!"-4:\n nop\n addiu $a0,$0,-4", c!"-4:\n nop\n addiu $a0,$0,-0x4", ?_, by decide +kernel⟩
  rw [show lines c!"-4:\n nop\n addiu $a0,$0,-4" = [c!"-4:", c!" nop", c!" addiu $a0,$0,-4"] by decide +kernel,
    show lines c!"-4:\n nop\n addiu $a0,$0,-0x4" = [c!"-4:", c!" nop", c!" addiu $a0,$0,-0x4"] by decide +kernel]
  have b0 : Blank [] := by unfold Blank; decide
  refine .cons _ _ _ _ (.inl rfl) (.cons _ _ _ _ (.inl rfl) (.cons _ _ _ _ (.inr ?_) .nil))
  refine ⟨by decide +kernel, by decide +kernel, by decide +kernel, c!"addiu", [Role.gpr, .gpr, .simm], by decide +kernel, by unfold Names.Calls; decide +kernel, ?_⟩
  rw [show operands (body c!" addiu $a0,$0,-4") = [c!"$a0", c!"$0", c!"-4"] by decide +kernel,
    show operands (body c!" addiu $a0,$0,-0x4") = [c!"$a0", c!"$0", c!"-0x4"] by decide +kernel]
  exact .cons _ _ _ _ _ _ (.reg _ _ _ (.same _ _)) (.cons _ _ _ _ _ _ (.reg _ _ _ (.same _ _)) (.cons _ _ _ _ _ _ (.num _ _ _ (-4) rfl
    (.mk [] c!"-4" [] (-4) b0 b0 (.neg c!"4" 4 (.dec _ _ (.one '4' 4 rfl)) (by decide)))
    (.mk [] c!"-0x4" [] (-4) b0 b0 (.neg c!"0x4" 4 (.hex c!"4" 4 (.one '4' 4 rfl)) (by decide)))) .nil))
end Mips
