/- Instructions that are read alike although their texts differ: blanks after operands, letter case of the mnemonic. -/
import Verif.Lemmas.SimL

namespace Mips
open Source

variable {γ δ : Type}

/-- The diagnostics seen through `g` and `h` do not depend on quotations. -/
structure TextFree (g : ParserError → γ) (h : ParserWarning → δ) : Prop where
  err : ∀ e e', e.bare = e'.bare → g e = g e'
  warn : ∀ e e', e.bare = e'.bare → h e = h e'

theorem ParserError.bare_of_erase {e e' : ParserError} (h : e.erase = e'.erase) : e.bare = e'.bare := by
  cases e <;> cases e' <;> simp_all [ParserError.erase, ParserError.bare]

theorem ParserWarning.bare_of_erase {e e' : ParserWarning} (h : e.erase = e'.erase) : e.bare = e'.bare := by
  cases e <;> cases e' <;> simp_all [ParserWarning.erase, ParserWarning.bare]

theorem TextFree.lineless {g : ParserError → γ} {h : ParserWarning → δ} (t : TextFree g h) : Lineless g h :=
  ⟨fun _ _ e => t.err _ _ (ParserError.bare_of_erase e), fun _ _ e => t.warn _ _ (ParserWarning.bare_of_erase e)⟩

theorem bare_textFree : TextFree ParserError.bare ParserWarning.bare := ⟨fun _ _ h => h, fun _ _ h => h⟩
theorem erase_lineless : Lineless ParserError.erase ParserWarning.erase := ⟨fun _ _ h => h, fun _ _ h => h⟩

/-- Operands that are read alike. -/
structure OpSim (a b : Str) : Prop where
  trm : trim a = trim b
  base : baseText a = baseText b
  off : (findOffset a).map (fun o => trim o.dropLast) = (findOffset b).map (fun o => trim o.dropLast)
  off' : (findOffset a).map (fun o => trim (removeOpenParen o)) = (findOffset b).map (fun o => trim (removeOpenParen o))

/-- Mnemonics that are read alike. -/
structure OpcSim [Unicode] (op op' : Str) : Prop where
  low : Unicode.lower op = Unicode.lower op'
  I : ITypeOp.fromStr op = ITypeOp.fromStr op'
  J : JTypeOp.fromStr op = JTypeOp.fromStr op'
  R : RTypeOp.fromStr op = RTypeOp.fromStr op'
  len : byteLen op = byteLen op'
  logical : (op = c!"andi" ∨ op = c!"ori" ∨ op = c!"xori") ↔ (op' = c!"andi" ∨ op' = c!"ori" ∨ op' = c!"xori")
  fmt : op.getLast?.map (fun c => RTypeOp.fromStr (c!"C." ++ [c])) = op'.getLast?.map (fun c => RTypeOp.fromStr (c!"C." ++ [c]))
  cond : (split '.' op)[1]?.map Unicode.lower = (split '.' op')[1]?.map Unicode.lower

theorem OpcSim.refl [Unicode] (op : Str) : OpcSim op op := ⟨rfl, rfl, rfl, rfl, rfl, Iff.rfl, rfl, rfl⟩

/-- Operand lists that are read alike. -/
inductive OpsSim : List Str → List Str → Prop
  | nil : OpsSim [] []
  | cons {a b : Str} {l l' : List Str} : OpSim a b → OpsSim l l' → OpsSim (a :: l) (b :: l')

theorem OpSim.refl (a : Str) : OpSim a a := ⟨rfl, rfl, rfl, rfl⟩
theorem OpsSim.refl : ∀ l, OpsSim l l
  | [] => .nil
  | a :: l => .cons (.refl a) (OpsSim.refl l)

theorem OpsSim.length {l l' : List Str} (h : OpsSim l l') : l.length = l'.length := by
  induction h with
  | nil => rfl
  | cons _ _ ih => simp [ih]

section
variable {g : ParserError → γ} {h : ParserWarning → δ} {x y : Ctx}

theorem read_fromStr [Unicode] {a b : Str} (o : trim a = trim b) : RSim (fun _ => ()) ((Register.fromStr a).mapErr fun s => ParserError.invalidLabel noLine s)
    ((Register.fromStr b).mapErr fun s => ParserError.invalidLabel noLine s) := by
  unfold Register.fromStr
  rw [o]
  dsimp only
  generalize trimStartMatches '$' (trim b) = r
  try dsimp only
  repeat' first
    | exact RSim.refl _
    | trivial
    | split

theorem read_unwrap [Unicode] {a b : Str} (o : trim a = trim b) :
    Res.unwrap (ε := Str) (ε' := ParserError) (Register.fromStr a) = Res.unwrap (Register.fromStr b) := by
  have := read_fromStr o
  revert this
  cases Register.fromStr a <;> cases Register.fromStr b <;> simp [RSim, Res.mapErr, Res.unwrap]

theorem read_reg [Unicode] (t : TextFree g h) {a b : Str} (o : OpSim a b) : WSim g h (parseReg x a) (parseReg y b) := by
  have := read_fromStr o.trm
  apply wsim_lift
  revert this
  cases Register.fromStr a <;> cases Register.fromStr b <;> simp [RSim, Res.mapErr]
  exact t.err _ _ rfl

theorem read_freg [Unicode] (t : TextFree g h) {a b : Str} (o : OpSim a b) : WSim g h (parseFReg x a) (parseFReg y b) := by
  apply wsim_lift
  have : FloatRegister.fromStr a = FloatRegister.fromStr b := by unfold FloatRegister.fromStr; rw [o.trm]
  rw [this]
  cases FloatRegister.fromStr b <;> simp [RSim, Res.mapErr]
  exact t.err _ _ rfl

theorem read_creg [Unicode] (t : TextFree g h) {a b : Str} (o : OpSim a b) : WSim g h (parseCReg x a) (parseCReg y b) := by
  apply wsim_lift
  have : Cop0Register.fromStr a = Cop0Register.fromStr b := by unfold Cop0Register.fromStr; rw [o.trm]
  rw [this]
  cases Cop0Register.fromStr b <;> simp [RSim, Res.mapErr]
  exact t.err _ _ rfl

theorem parseImm_trim (x : Ctx) (ty : IntTy) {a b : Str} (o : trim a = trim b) : parseImm x ty a = parseImm x ty b := by
  unfold parseImm; rw [o]

theorem read_imm (c : CtxSim g h x y) {a b : Str} (o : OpSim a b) (ty : IntTy) : WSim g h (W.lift (parseImm x ty a)) (W.lift (parseImm y ty b)) := by
  rw [parseImm_trim x ty o.trm]; exact sim_parseImm c ty b

theorem read_imm' (c : CtxSim g h x y) {a b : Str} (o : trim a = trim b) (ty : IntTy) : WSim g h (W.lift (parseImm x ty a)) (W.lift (parseImm y ty b)) := by
  rw [parseImm_trim x ty o]; exact sim_parseImm c ty b

theorem read_align (t : TextFree g h) (i : Immediate) (a b : Str) : WSim g h (alignCheck x i a) (alignCheck y i b) := by
  unfold alignCheck
  split
  · exact wsim_refl _
  · split
    · exact ⟨congrArg (fun w => [w]) (t.warn _ _ rfl), rfl⟩
    · exact wsim_refl _

theorem read_jump (t : TextFree g h) (a b : Str) : WSim g h (W.warn (.unalignedJump x.line a)) (W.warn (.unalignedJump y.line b)) :=
  ⟨congrArg (fun w => [w]) (t.warn _ _ rfl), rfl⟩

theorem read_bad {α} (t : TextFree g h) (a b : Str) (m n : Nat) : WSim g h (badCount x a m n : W α) (badCount y b m n) :=
  wsim_fail (t.err _ _ rfl)

theorem read_bad' {α} (t : TextFree g h) {a b : Str} {m n n' : Nat} (e : n = n') : WSim g h (badCount x a m n : W α) (badCount y b m n') := by
  subst e; exact read_bad t _ _ _ _

theorem read_shift {a b : Str} (o : OpSim a b) : parseShift a = parseShift b := by
  unfold parseShift; rw [o.trm]

theorem read_opI {op op' : Str} (h : ITypeOp.fromStr op = ITypeOp.fromStr op') : opI op = opI op' := by unfold opI; rw [h]
theorem read_opJ {op op' : Str} (h : JTypeOp.fromStr op = JTypeOp.fromStr op') : opJ op = opJ op' := by unfold opJ; rw [h]
theorem read_opR {op op' : Str} (h : RTypeOp.fromStr op = RTypeOp.fromStr op') : opR op = opR op' := by unfold opR; rw [h]

theorem read_mkI {op op' : Str} (h1 : ITypeOp.fromStr op = ITypeOp.fromStr op') {a b : Register} {w v : W Immediate} (hw : WSim g h w v) :
    WSim g h (mkI op a b w) (mkI op' a b v) := by
  have : mkI op a b w = mkI op' a b w := by unfold mkI; rw [read_opI h1]
  rw [this]; exact sim_mkI hw

theorem read_mkR [Unicode] {op op' : Str} (h1 : OpcSim op op') {a b d : Register} : WSim g h (mkR op a b d) (mkR op' a b d) := by
  have : mkR op a b d = mkR op' a b d := by unfold mkR; rw [read_opR h1.R]
  rw [this]; exact wsim_refl _

/-- The offset in front of the base register. -/
theorem read_off [Unicode] (c : CtxSim g h x y) {op op' : Str} (k : OpcSim op op') {a b : Str} (o : OpSim a b) (f : Str → Str) 
    (hf : (findOffset a).map (fun o => trim (f o)) = (findOffset b).map (fun o => trim (f o))) (p q : Register) : 
    WSim g h (match findOffset a with
        | some o => mkI op p q (W.lift (parseImm x .i16 (f o)))
        | none => mkI op p q (W.lift (parseImm x .i16 c!"0")))
      (match findOffset b with
        | some o => mkI op' p q (W.lift (parseImm y .i16 (f o)))
        | none => mkI op' p q (W.lift (parseImm y .i16 c!"0"))) := by
  cases h1 : findOffset a <;> cases h2 : findOffset b <;> rw [h1, h2] at hf <;> simp at hf
  · exact read_mkI k.I (sim_parseImm c _ _)
  · exact read_mkI k.I (read_imm' c hf _)

theorem read_cond [Unicode] (t : TextFree g h) {a b : Str} (o : Unicode.lower a = Unicode.lower b) :
    WSim g h (W.lift (parseFloatCond x a)) (W.lift (parseFloatCond y b)) := by
  apply wsim_lift
  unfold parseFloatCond
  rw [o]
  split
  · exact RSim.refl _
  · exact t.err _ _ rfl

/-- A compare instruction of the floating point unit. -/
theorem read_fcmp [Unicode] (t : TextFree g h) {op op' : Str} (k : OpcSim op op') (p q : Register) :
    WSim g h
      (match op.getLast? with
        | none => W.panic
        | some c => do
          let o ← opR (c!"C." ++ [c])
          match (split '.' op)[1]? with
          | none => W.panic
          | some cond => do
            let sa ← W.lift (parseFloatCond x cond)
            pure (Instruction.reg o p q Register.null sa []))
      (match op'.getLast? with
        | none => W.panic
        | some c => do
          let o ← opR (c!"C." ++ [c])
          match (split '.' op')[1]? with
          | none => W.panic
          | some cond => do
            let sa ← W.lift (parseFloatCond y cond)
            pure (Instruction.reg o p q Register.null sa [])) := by
  have k1 := k.fmt
  have k2 := k.cond
  cases h1 : op.getLast? <;> cases h2 : op'.getLast? <;> rw [h1, h2] at k1 <;> simp only [Option.map_some, Option.some.injEq, Option.map_none, reduceCtorEq] at k1
  · exact wsim_refl _
  · simp only [opR, k1]
    cases h3 : (split '.' op)[1]? <;> cases h4 : (split '.' op')[1]? <;> rw [h3, h4] at k2 <;> simp only [Option.map_some, Option.some.injEq, Option.map_none, reduceCtorEq] at k2
    · exact wsim_refl _
    · exact wsim_bind (wsim_refl _) fun _ => wsim_bind (read_cond t k2) fun _ => wsim_refl _

set_option maxHeartbeats 8000000 in
theorem read_arm [Unicode] (c : CtxSim g h x y) (t : TextFree g h) (cls : Cls) {op op' arg arg' : Str} (k : OpcSim op op') (ha : trim arg = trim arg')
    (hs : OpsSim (split ',' arg) (split ',' arg')) (he : cls = .code → ∀ a b, split ',' arg = [a] → split ',' arg' = [b] → a.isEmpty = b.isEmpty) :
    WSim g h (parseArm x cls op arg) (parseArm y cls op' arg') := by
  have f1 : ∀ (s s' : Str), WSim g h (W.fail (.invalidImmediate x.line s) : W Instruction) (W.fail (.invalidImmediate y.line s')) :=
    fun s s' => wsim_fail (t.err _ _ rfl)
  have f2 : ∀ (s s' : Str), WSim g h (W.fail (.invalidOpcode x.line s) : W Instruction) (W.fail (.invalidOpcode y.line s')) :=
    fun s s' => wsim_fail (t.err _ _ rfl)
  unfold parseArm
  revert hs he
  generalize split ',' arg = args
  generalize split ',' arg' = args'
  intro hs he
  rw [k.low]
  cases cls
  all_goals simp only [parseFloat, parseBranch0, parseLi, k.low, k.len, k.logical, read_opI k.I, read_opJ k.J, read_opR k.R]
  case word =>
    exact wsim_bind (read_imm' c ha _) fun _ => wsim_refl _
  case bare => exact read_mkR k
  case tlb => exact read_mkR k
  case code => 
    cases hs with
    | nil => exact read_bad t _ _ _ _
    | cons o0 hs =>
      cases hs with
      | nil => 
        rename_i a b
        have e : a.isEmpty = b.isEmpty := he rfl a b rfl rfl
        simp only [e, o0.trm]
        refine wsim_bind ?_ fun _ => wsim_refl _
        split
        · exact wsim_refl _
        · exact sim_parseImm c _ _
      | cons o1 hs => simp only [List.length_cons, hs.length]; exact read_bad t _ _ _ _
  case other =>
    have k3 := hs.length
    cases hs with
    | nil => 
      try dsimp only
      repeat' first
        | with_reducible exact wsim_refl _
        | ((with_reducible refine read_bad' t ?_); rfl)
        | with_reducible exact f2 _ _
        | split
    | cons o0 hs =>
      cases hs with
      | nil => 
        try dsimp only
        repeat' first
          | with_reducible exact wsim_refl _
          | ((with_reducible refine read_bad' t ?_); rfl)
          | with_reducible exact f2 _ _
          | split
      | cons o1 hs =>
        cases hs with
        | nil => 
          try dsimp only
          repeat' first
            | with_reducible exact wsim_refl _
            | ((with_reducible refine read_bad' t ?_); rfl)
            | with_reducible exact f2 _ _
            | with_reducible exact read_mkR k
            | exact wsim_bind (read_freg t o0) fun p => wsim_bind (read_freg t o1) fun q => read_fcmp t k p q
            | with_reducible exact read_freg t o0
            | with_reducible exact read_freg t o1
            | with_reducible refine wsim_bind ?_ (fun _ => ?_)
            | split
        | cons o2 hs =>
          cases hs with
          | nil => 
            try dsimp only
            repeat' first
              | with_reducible exact wsim_refl _
              | ((with_reducible refine read_bad' t ?_); rfl)
              | with_reducible exact f2 _ _
              | with_reducible exact read_mkR k
              | with_reducible exact read_freg t o0
              | with_reducible exact read_freg t o1
              | with_reducible exact read_freg t o2
              | with_reducible refine wsim_bind ?_ (fun _ => ?_)
              | split
          | cons o3 hs => 
            simp only [List.length_cons, hs.length]
            try dsimp only
            repeat' first
              | with_reducible exact wsim_refl _
              | ((with_reducible refine read_bad' t ?_); rfl)
              | with_reducible exact f2 _ _
              | split
  all_goals
    cases hs with
    | nil => exact read_bad t _ _ _ _
    | cons o0 hs =>
      cases hs with
      | nil => 
        try simp only [o0.trm]
        try dsimp only
        repeat' first
          | with_reducible exact wsim_refl _
          | ((with_reducible refine read_bad' t ?_); rfl)
          | with_reducible exact read_mkR k
          | with_reducible exact read_reg t o0
          | with_reducible exact read_imm c o0 _
          | with_reducible exact sim_tgt c _
          | with_reducible exact read_align t _ _ _
          | with_reducible exact read_jump t _ _
          | with_reducible exact c.delay
          | with_reducible refine read_mkI k.I ?_
          | with_reducible refine wsim_bind ?_ (fun _ => ?_)
          | split
      | cons o1 hs =>
        cases hs with
        | nil => 
          simp only [read_unwrap o0.trm, o1.base]
          try dsimp only
          repeat' first
            | with_reducible exact wsim_refl _
            | ((with_reducible refine read_bad' t ?_); rfl)
            | with_reducible exact read_mkR k
            | with_reducible exact read_reg t o0
            | with_reducible exact read_reg t o1
            | with_reducible exact read_freg t o0
            | with_reducible exact read_freg t o1
            | with_reducible exact read_creg t o0
            | with_reducible exact read_creg t o1
            | with_reducible exact sim_parseReg c _
            | with_reducible exact read_imm c o0 _
            | with_reducible exact read_imm c o1 _
            | with_reducible exact sim_tgt c _
            | with_reducible exact read_align t _ _ _
            | with_reducible exact read_jump t _ _
            | with_reducible exact c.delay
            | with_reducible exact f1 _ _
            | exact read_off c k o1 _ o1.off _ _
            | exact read_off c k o1 _ o1.off' _ _
            | with_reducible refine read_mkI k.I ?_
            | with_reducible refine wsim_bind ?_ (fun _ => ?_)
            | split
        | cons o2 hs =>
          cases hs with
          | nil => 
            try simp only [read_shift o2]
            try dsimp only
            repeat' first
              | with_reducible exact wsim_refl _
              | ((with_reducible refine read_bad' t ?_); rfl)
              | with_reducible exact read_mkR k
              | with_reducible exact read_reg t o0
              | with_reducible exact read_reg t o1
              | with_reducible exact read_reg t o2
              | with_reducible exact read_imm c o2 _
              | with_reducible exact read_align t _ _ _
              | with_reducible exact c.delay
              | with_reducible refine read_mkI k.I ?_
              | with_reducible refine wsim_bind ?_ (fun _ => ?_)
              | split
          | cons o3 hs => 
            simp only [List.length_cons, hs.length]; exact read_bad t _ _ _ _

end
end Mips
