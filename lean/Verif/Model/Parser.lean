/-
Model of src/parser.rs.
-/
import Verif.Model.Assembler
import Verif.Model.Error

namespace Mips

/-- An entry of `local_labels` / `local_labels_dropped`: name, instruction index, enclosing label. -/
abbrev Loc := Str × Nat × Str

/-- What the language runtime decides: whether integer overflow panics (debug) or wraps (release),
and the iteration order of a `HashMap` (one arbitrary permutation per iteration, indexed by the line
number at which the iteration happens; index 0 is the final flush). -/
structure Rt where
  ovf : Bool
  order : Nat → List Loc → List Loc
  perm : ∀ n l, (order n l).Perm l

/-- What `parse_inst` reads of `self` (src/parser.rs:61-71): the current line number, the text of the
current and previous input lines, whether the last pushed instruction `has_delay_slot`, the label
names known so far, and the symbol table in its iteration order. -/
structure Ctx where
  ovf : Bool
  syms : List (Word × Str)
  lineNum : Nat
  content : Str
  prevContent : Str
  lastDelay : Bool
  labels : List (Str × Nat)

/-- The `Line` the `error!` macro attaches (src/error.rs:5-128). -/
def Ctx.line (x : Ctx) : Line := ⟨x.lineNum, x.content⟩

/-- A computation that prints warnings and returns, fails or panics. -/
structure W (α : Type) where
  warns : List ParserWarning
  res : Res ParserError α
  deriving DecidableEq

namespace W
variable {α β : Type}
instance : Monad W where
  pure a := ⟨[], .ok a⟩
  bind x f := match x.res with
    | .ok a => ⟨x.warns ++ (f a).warns, (f a).res⟩
    | .err e => ⟨x.warns, .err e⟩
    | .panic => ⟨x.warns, .panic⟩
/-- A computation that prints nothing. -/
def lift (r : Res ParserError α) : W α := ⟨[], r⟩
/-- `eprintln!("{}", warning!(..))`; the formatting itself is in `Lib.lean`. -/
def warn (w : ParserWarning) : W Unit := ⟨[w], .ok ()⟩
/-- `return Err(e)`. -/
def fail (e : ParserError) : W α := ⟨[], .err e⟩
/-- a panic -/
def panic : W α := ⟨[], .panic⟩
end W

/-- `x.parse::<Register>().map_err(|e| error!(self, InvalidRegister, e))` -/
def parseReg [Unicode] (x : Ctx) (s : Str) : W Register :=
  .lift ((Register.fromStr s).mapErr (.invalidRegister x.line))

/-- `x.parse::<FloatRegister>().map_err(..)` -/
def parseFReg [Unicode] (x : Ctx) (s : Str) : W Register :=
  .lift ((FloatRegister.fromStr s).mapErr (.invalidRegister x.line))

/-- `x.parse::<Cop0Register>().map_err(..)` -/
def parseCReg [Unicode] (x : Ctx) (s : Str) : W Register :=
  .lift ((Cop0Register.fromStr s).mapErr (.invalidRegister x.line))

/-- `self.syms.iter().find(|(_, v)| **v == target)` (src/parser.rs:1023). -/
def findSym (syms : List (Word × Str)) (name : Str) : Option Word :=
  (syms.find? fun e => e.2 == name).map (·.1)

/-- `parse_target` (src/parser.rs:1022-1042). -/
def parseTarget (x : Ctx) (target : Str) : Res ParserError Target :=
  match findSym x.syms target with
  | some a => .ok (.address a)
  | none =>
    if startsWith c!"0x" target then
      let t := remove0x target
      match parseU32Hex t with
      | some n => .ok (.address (BitVec.ofNat 32 n))
      | none => .err (.invalidTargetAddress x.line t)
    else match takeBytes target 1 with
      | none => .panic
      | some h =>
        if (parseU32 h).isSome then
          match parseU32 target with
          | some n => .ok (.address (BitVec.ofNat 32 n))
          | none => .err (.invalidTargetAddress x.line target)
        else .ok (.label target)

/-- `x + y` on `u32`: a panic when overflow checks are on, wrapping otherwise. -/
def chkAdd (ovf : Bool) (a b : Word) : Option Word :=
  if ovf = true ∧ 2 ^ 32 ≤ a.toNat + b.toNat then none else some (a + b)

/-- `x * y` on `u32`. -/
def chkMul (ovf : Bool) (a b : Word) : Option Word :=
  if ovf = true ∧ 2 ^ 32 ≤ a.toNat * b.toNat then none else some (a * b)

/-- The `%hi` expression (src/parser.rs:1000-1002). -/
def hiOf (ovf : Bool) (a : Word) : Option (BitVec 16) :=
  (chkAdd ovf a ((a &&& 0x8000#32) * 2#32)).map fun (s : Word) => (s >>> 16).setWidth 16

/-- The `%lo` expression (src/parser.rs:1004). -/
def loOf (a : Word) : BitVec 16 := (a &&& 0xffff#32).setWidth 16

/-- `labels.contains_key`. -/
def hasLabel (labels : List (Str × Nat)) (l : Str) : Bool := labels.any fun e => e.1 == l

/-- The numeric tail of `parse_immediate` (src/parser.rs:1009-1019). -/
def parseNum (x : Ctx) (ty : IntTy) (imm : Str) : Res ParserError Immediate :=
  if contains c!"0x" imm then
    let imm := remove0x imm
    match fromStrRadix ty 16 imm with
    | some v => .ok (Immediate.new ty v)
    | none => .err (.invalidImmediate x.line imm)
  else match fromStrRadix ty 10 imm with
    | some v => .ok (Immediate.new ty v)
    | none => .err (.invalidImmediate x.line imm)

/-- `parse_immediate::<T>` (src/parser.rs:982-1020). -/
def parseImm (x : Ctx) (ty : IntTy) (s : Str) : Res ParserError Immediate :=
  let imm := trim s
  if startsWith c!"@@" imm then .ok (.localLabel imm)
  else if hasLabel x.labels imm then .ok (.label imm)
  else match findImm imm with
    | some m =>
      (parseTarget x (removeParens m)).bind fun t =>
      match takeBytes imm 3 with
      | none => .panic
      | some p =>
        if p = c!"%hi" then
          match t.asU32 with
          | none => .panic
          | some a => match hiOf x.ovf a with
            | none => .panic
            | some h => .ok (.short h)
        else if p = c!"%lo" then
          match t.asU32 with
          | none => .panic
          | some a => .ok (.short (loOf a))
        else .panic
    | none => parseNum x ty imm

/-- `parse_float_cond` (src/parser.rs:1044-1064). -/
def parseFloatCond [Unicode] (x : Ctx) (cond : Str) : Res ParserError Word :=
  match (floatConds.zipIdx.find? fun e => e.1 == Unicode.lower cond) with
  | some e => .ok (BitVec.ofNat 32 e.2)
  | none => .err (.invalidFloatCond x.line cond)

/-- `op.parse::<ITypeOp>().unwrap()` and `op.parse::<RTypeOp>().unwrap()` etc. inside `inst!`
(src/parser.rs:11-53). -/
def opI (op : Str) : W ITypeOp := .lift (.ofOption (ITypeOp.fromStr op))
/-- see `opI` -/
def opJ (op : Str) : W JTypeOp := .lift (.ofOption (JTypeOp.fromStr op))
/-- see `opI` -/
def opR (op : Str) : W RTypeOp := .lift (.ofOption (RTypeOp.fromStr op))

/-- `inst!(Imm, op, rs, rt, imm)`: the operation is parsed first, then the immediate. -/
def mkI (op : Str) (rs rt : Register) (imm : W Immediate) : W Instruction := do
  let o ← opI op
  let i ← imm
  pure (.imm o rs rt i [])

/-- `inst!(Reg, op, rs, rt, rd)`. -/
def mkR (op : Str) (rs rt rd : Register) : W Instruction := do
  let o ← opR op
  pure (.reg o rs rt rd 0#32 [])

/-- The delay-slot check in front of every branch and jump (src/parser.rs:292-297 etc.), with the
`Line`s of the `warning!` macro (src/error.rs:133-144). -/
def delayCheck (x : Ctx) : W Unit :=
  if x.lastDelay then
    .warn (.invalidInstructionInDelaySlot ⟨x.lineNum - 1, x.prevContent⟩ x.line)
  else pure ()

/-- `if !imm.is_label() && imm.as_u32() % 4 != 0 { eprintln!(.. UnalignedBranch ..) }`
(src/parser.rs:302-305 etc.). -/
def alignCheck (x : Ctx) (imm : Immediate) (offset : Str) : W Unit :=
  match imm.asU32 with
  | none => pure ()
  | some v => if v.toNat % 4 ≠ 0 then .warn (.unalignedBranch x.line offset) else pure ()

/-- `return Err(error!(self, InvalidOperandCount, arg, n, args.len()))`. -/
def badCount {α : Type} (x : Ctx) (arg : Str) (expected found : Nat) : W α :=
  .fail (.invalidOperandCount x.line expected found arg)

/-- The arms of the `match op.to_lowercase().trim()` (src/parser.rs:184-872). -/
inductive Cls
  | mem | arith | lui | trapi | br1 | br2 | jump | bare | reg3 | shift | shiftv | code | reg2
  | jalr | pseudo2 | b | li | liu | div | rs1 | rd1 | dli | bc | cop0 | cop1 | tlb | fmem | word
  | other
  deriving DecidableEq, Repr

/-- The string patterns of each arm, in source order (src/parser.rs:189-191, 229-230, 251, 271,
287-288, 312-314, 341, 362, 373-376, 395, 424, 443, 468-469, 485, 507, 519, 543, 560, 577, 600, 625,
640, 660, 688, 705, 722, 733, 774).  The first match wins. -/
def clsTable : List (Cls × List Str) :=
  [(.mem, [c!"cache", c!"lb", c!"lbu", c!"ld", c!"ldl", c!"ldr", c!"lh", c!"lhu", c!"ll", c!"lld",
      c!"lw", c!"lwl", c!"lwr", c!"lwu", c!"sb", c!"sc", c!"scd", c!"sd", c!"sdl", c!"sdr", c!"sh",
      c!"sw", c!"swl", c!"swr"]),
   (.arith, [c!"addi", c!"addiu", c!"andi", c!"daddi", c!"daddiu", c!"ori", c!"slti", c!"sltiu",
      c!"xori", c!"dsubi", c!"dsubiu", c!"subi", c!"subiu"]),
   (.lui, [c!"lui", c!"lli"]),
   (.trapi, [c!"teqi", c!"tgei", c!"tgeiu", c!"tlti", c!"tltiu", c!"tnei"]),
   (.br1, [c!"bgez", c!"bgezal", c!"bgezall", c!"bgezl", c!"bltz", c!"bltzal", c!"bltzall",
      c!"bltzl", c!"beqz", c!"bnez", c!"beqzl", c!"bnezl", c!"bgtz", c!"bgtzl", c!"blez", c!"blezl"]),
   (.br2, [c!"beq", c!"beql", c!"bne", c!"bnel", c!"bge", c!"bgt", c!"ble", c!"blt", c!"bgeu",
      c!"bgtu", c!"bleu", c!"bltu", c!"bgel", c!"bgtl", c!"blel", c!"bltl", c!"bgeul", c!"bgtul",
      c!"bleul", c!"bltul"]),
   (.jump, [c!"j", c!"jal"]),
   (.bare, [c!"nop", c!"sync"]),
   (.reg3, [c!"add", c!"addu", c!"and", c!"dadd", c!"daddu", c!"dsub", c!"dsubu", c!"nor", c!"or",
      c!"slt", c!"sltu", c!"sub", c!"subu", c!"xor", c!"dmul", c!"dmulu", c!"dmulo", c!"dmulou",
      c!"drem", c!"dremu", c!"drol", c!"dror", c!"mul", c!"mulu", c!"mulo", c!"mulou", c!"rem",
      c!"remu", c!"seq", c!"sge", c!"sgeu", c!"sgt", c!"sgtu", c!"sle", c!"sleu", c!"sne"]),
   (.shift, [c!"dsll", c!"dsll32", c!"dsra", c!"dsra32", c!"dsrl", c!"dsrl32", c!"sll", c!"sra",
      c!"srl"]),
   (.shiftv, [c!"dsllv", c!"dsrav", c!"dsrlv", c!"sllv", c!"srav", c!"srlv"]),
   (.code, [c!"break", c!"syscall"]),
   (.reg2, [c!"dmult", c!"dmultu", c!"mult", c!"multu", c!"teq", c!"tge", c!"tgeu", c!"tlt",
      c!"tltu", c!"tne"]),
   (.jalr, [c!"jalr"]),
   (.pseudo2, [c!"abs", c!"dabs", c!"dmove", c!"dneg", c!"dnegu", c!"move", c!"neg", c!"negu",
      c!"not"]),
   (.b, [c!"b", c!"bal"]),
   (.li, [c!"li"]),
   (.liu, [c!"liu"]),
   (.div, [c!"ddiv", c!"ddivu", c!"div", c!"divu"]),
   (.rs1, [c!"jr", c!"mthi", c!"mtlo"]),
   (.rd1, [c!"clear", c!"mfhi", c!"mflo"]),
   (.dli, [c!"dli"]),
   (.bc, [c!"bc0f", c!"bc1f", c!"bc0fl", c!"bc1fl", c!"bc0t", c!"bc1t", c!"bc0tl", c!"bc1tl"]),
   (.cop0, [c!"cfc0", c!"ctc0", c!"dmfc0", c!"dmtc0", c!"mfc0", c!"mtc0"]),
   (.cop1, [c!"cfc1", c!"ctc1", c!"dmfc1", c!"dmtc1", c!"mfc1", c!"mtc1"]),
   (.tlb, [c!"eret", c!"tlbp", c!"tlbr", c!"tlbwi", c!"tlbwr"]),
   (.fmem, [c!"ldc1", c!"lwc1", c!"sdc1", c!"swc1"]),
   (.word, [c!".word"])]

/-- Which arm of the match `key` selects. -/
def classify (key : Str) : Cls :=
  match clsTable.find? fun e => e.2.contains key with
  | some e => e.1
  | none => .other

/-- The base register text: `BASE_RE.find_iter(x).last().unwrap().as_str()` with parentheses removed
and trimmed (src/parser.rs:204-210); `none` is the panic. -/
def baseText (s : Str) : Option Str := (findBaseLast s).map fun m => trim (removeParens m)

/-- Shift-amount expression (src/parser.rs:405-419); `none` is the panic. -/
def parseShift (s : Str) : Option Word :=
  let sa := trim s
  if endsWith '`' sa || !contains c!"0x" sa then
    (fromStrRadix .i32 10 (trimEndMatches '`' sa)).map (BitVec.ofInt 32)
  else
    (fromStrRadix .i32 16 (remove0x sa)).map (BitVec.ofInt 32)

/-- The single-operand branches (src/parser.rs:519-542, 660-683). -/
def parseBranch0 (x : Ctx) (op arg : Str) (args : List Str) : W Instruction :=
  match args with
  | [a] => do
    delayCheck x
    let imm ← W.lift (parseImm x .u32 a)
    alignCheck x imm a
    mkI op Register.null Register.null (pure imm)
  | _ => badCount x arg 1 args.length

/-- `"li"` and `"liu"` (src/parser.rs:543-576). -/
def parseLi [Unicode] (x : Ctx) (op arg : Str) (args : List Str) : W Instruction :=
  match args with
  | [a, b] => do
    let rt ← parseReg x a
    let imm ← W.lift (parseImm x .i64 b)
    match imm.asU64 with
    | none => W.panic
    | some v =>
      if 0xFFFFFFFF < v.toNat then W.fail (.invalidImmediate x.line b)
      else mkI op Register.null rt (pure imm)
  | _ => badCount x arg 2 args.length

/-- The `_ => match &op.to_lowercase()[..op.len() - 2]` arm (src/parser.rs:777-870). -/
def parseFloat [Unicode] (x : Ctx) (op arg : Str) (args : List Str) : W Instruction :=
  let low := Unicode.lower op
  if byteLen op < 2 then W.panic
  else match takeBytes low (byteLen op - 2) with
  | none => W.panic
  | some e =>
    if [c!"add", c!"sub", c!"mul", c!"div"].contains e then
      match args with
      | [a, b, c] => do
        let fd ← parseFReg x a
        let fs ← parseFReg x b
        let ft ← parseFReg x c
        mkR op fs ft fd
      | _ => badCount x arg 3 args.length
    else if [c!"abs", c!"ceil.l", c!"ceil.w", c!"cvt.d", c!"cvt.l", c!"cvt.s", c!"cvt.w",
        c!"floor.l", c!"floor.w", c!"mov", c!"neg", c!"round.l", c!"round.w", c!"sqrt", c!"trunc.l",
        c!"trunc.w"].contains e then
      match args with
      | [a, b] => do
        let fd ← parseFReg x a
        let fs ← parseFReg x b
        mkR op fs Register.null fd
      | _ => badCount x arg 2 args.length
    else if startsWith c!"c." e then
      match args with
      | [a, b] => do
        let fs ← parseFReg x a
        let ft ← parseFReg x b
        match op.getLast? with
        | none => W.panic
        | some c => do
          let o ← opR (c!"C." ++ [c])
          match (split '.' op)[1]? with
          | none => W.panic
          | some cond => do
            let sa ← W.lift (parseFloatCond x cond)
            pure (.reg o fs ft Register.null sa [])
      | _ => badCount x arg 2 args.length
    else W.fail (.invalidOpcode x.line op)

/-- The operand parsing of one arm of `parse_inst` (src/parser.rs:189-776; the arm of each class is at
the line listed at `clsTable`). -/
def parseArm [Unicode] (x : Ctx) (cls : Cls) (op arg : Str) : W Instruction :=
  let args := split ',' arg
  let key := trim (Unicode.lower op)
  match cls with
  | .mem => match args with
    | [a, b] => do
      let rt ← (if key = c!"cache" then do
          let i ← W.lift (parseImm x .u16 a)
          match i.asU32 with
          | none => W.panic
          | some v => W.lift (Res.unwrap (Register.tryFrom v.toNat))
        else W.lift (Res.unwrap (Register.fromStr a)))
      match baseText b with
      | none => W.panic
      | some bt => do
        let base ← W.lift (Res.unwrap (Register.fromStr bt))
        match findOffset b with
        | some o => mkI op base rt (W.lift (parseImm x .i16 o.dropLast))
        | none => mkI op base rt (W.lift (parseImm x .i16 c!"0"))
    | _ => badCount x arg 2 args.length
  | .arith => match args with
    | [a, b, c] => do
      let rt ← parseReg x a
      let rs ← parseReg x b
      if op = c!"andi" ∨ op = c!"ori" ∨ op = c!"xori" then
        mkI op rs rt (W.lift (parseImm x .u16 c))
      else
        mkI op rs rt (W.lift (parseImm x .i16 c))
    | _ => badCount x arg 3 args.length
  | .lui => match args with
    | [a, b] => do
      let rt ← parseReg x a
      mkI op Register.null rt (W.lift (parseImm x .u16 b))
    | _ => badCount x arg 2 args.length
  | .trapi => match args with
    | [a, b] => do
      let rs ← parseReg x a
      mkI op rs Register.null (W.lift (parseImm x .i16 b))
    | _ => badCount x arg 2 args.length
  | .br1 => match args with
    | [a, b] => do
      delayCheck x
      let rs ← parseReg x a
      let imm ← W.lift (parseImm x .u32 b)
      alignCheck x imm b
      mkI op rs Register.null (pure imm)
    | _ => badCount x arg 2 args.length
  | .br2 => match args with
    | [a, b, c] => do
      delayCheck x
      let rs ← parseReg x a
      let rt ← parseReg x b
      let imm ← W.lift (parseImm x .u32 c)
      alignCheck x imm c
      mkI op rs rt (pure imm)
    | _ => badCount x arg 3 args.length
  | .jump => match args with
    | [a] => do
      delayCheck x
      let t ← W.lift (parseTarget x (trim a))
      (match t.asU32 with
        | none => pure ()
        | some v => if v.toNat % 4 ≠ 0 then W.warn (.unalignedJump x.line (trim a)) else pure ())
      let o ← opJ op
      pure (.jump o t [])
    | _ => badCount x arg 1 args.length
  | .bare => mkR op Register.null Register.null Register.null
  | .reg3 => match args with
    | [a, b, c] => do
      let rd ← parseReg x a
      let rs ← parseReg x b
      let rt ← parseReg x c
      mkR op rs rt rd
    | _ => badCount x arg 3 args.length
  | .shift => match args with
    | [a, b, c] => do
      let rd ← parseReg x a
      let rt ← parseReg x b
      let o ← opR op
      match parseShift c with
      | none => W.panic
      | some sa => pure (.reg o Register.null rt rd sa [])
    | _ => badCount x arg 3 args.length
  | .shiftv => match args with
    | [a, b, c] => do
      let rd ← parseReg x a
      let rt ← parseReg x b
      let rs ← parseReg x c
      mkR op rs rt rd
    | _ => badCount x arg 3 args.length
  | .code => match args with
    | [a] => do
      let code ← (if a.isEmpty then pure (.short 0#16) else W.lift (parseImm x .u16 (trim a)))
      let o ← opR op
      match code.asU32 with
      | none => W.panic
      | some v => pure (.reg o Register.null Register.null Register.null v [])
    | _ => badCount x arg 1 args.length
  | .reg2 => match args with
    | [a, b] => do
      let rs ← parseReg x a
      let rt ← parseReg x b
      mkR op rs rt Register.null
    | _ => badCount x arg 2 args.length
  | .jalr => match args with
    | [a] => do
      delayCheck x
      let rs ← parseReg x a
      mkR op rs Register.null Register.ra
    | [a, b] => do
      delayCheck x
      let rs ← parseReg x a
      let rd ← parseReg x b
      mkR op rd Register.null rs
    | _ => badCount x arg 2 args.length
  | .pseudo2 => match args with
    | [a, b] => do
      let rd ← parseReg x a
      let rs ← parseReg x b
      mkR op rs Register.null rd
    | _ => badCount x arg 2 args.length
  | .b => parseBranch0 x op arg args
  | .li => parseLi x op arg args
  | .liu => parseLi x op arg args
  | .div => match args with
    | [a, b] => do
      let rd ← parseReg x a
      let rs ← parseReg x b
      mkR op rs Register.null rd
    | [a, b, c] => do
      let rd ← parseReg x a
      let rs ← parseReg x b
      let rt ← parseReg x c
      mkR op rs rt rd
    | _ => badCount x arg 3 args.length
  | .rs1 => match args with
    | [a] => do
      if key = c!"jr" then delayCheck x else pure ()
      let rs ← parseReg x a
      mkR op rs Register.null Register.null
    | _ => badCount x arg 1 args.length
  | .rd1 => match args with
    | [a] => do
      let rd ← parseReg x a
      mkR op Register.null Register.null rd
    | _ => badCount x arg 1 args.length
  | .dli => match args with
    | [a, b] => do
      let rt ← parseReg x a
      mkI op Register.null rt (W.lift (parseImm x .i64 b))
    | _ => badCount x arg 2 args.length
  | .bc => parseBranch0 x op arg args
  | .cop0 => match args with
    | [a, b] => do
      let rt ← parseReg x a
      let rd ← parseCReg x b
      mkR op Register.null rt rd
    | _ => badCount x arg 2 args.length
  | .cop1 => match args with
    | [a, b] => do
      let rt ← parseReg x a
      let rd ← parseFReg x b
      mkR op Register.null rt rd
    | _ => badCount x arg 2 args.length
  | .tlb => mkR op Register.null Register.null Register.null
  | .fmem => match args with
    | [a, b] => do
      let ft ← parseFReg x a
      match baseText b with
      | none => W.panic
      | some bt => do
        let base ← parseReg x bt
        match findOffset b with
        | some o => mkI op base ft (W.lift (parseImm x .i16 (removeOpenParen o)))
        | none => mkI op base ft (W.lift (parseImm x .i16 c!"0"))
    | _ => badCount x arg 2 args.length
  | .word => do
    let i ← W.lift (parseImm x .u32 arg)
    match i.asU32 with
    | none => W.panic
    | some v => pure (.bytes v)
  | .other => parseFloat x op arg args

/-- `parse_inst` (src/parser.rs:172-872), for a non-empty line (the only way it is called,
src/parser.rs:150-152, so the `InvalidInstruction` check never fires). -/
def parseInst [Unicode] (x : Ctx) (line : Str) : W Instruction :=
  let (op, arg) := match splitOnce ' ' line with
    | some p => p
    | none => (line, [])
  if line.isEmpty then W.fail (.invalidInstruction x.line)
  else parseArm x (classify (trim (Unicode.lower op))) op arg

/-! ### The line loop -/

/-- The mutable part of `Parser` (src/parser.rs:61-71).  `labels` is the insertion-ordered `IndexMap`;
`locals` is the `HashMap` `local_labels` (keys distinct); `dropped` is `local_labels_dropped`, a map
from a name to the vector of its values, flattened to the list of (name, value) pairs in push order. -/
structure PState where
  lineNum : Nat := 0
  insts : List (Nat × Instruction) := []
  labels : List (Str × Nat) := []
  locals : List Loc := []
  dropped : List Loc := []
  errors : List ParserError := []
  warns : List ParserWarning := []

/-- What the parser is configured with, plus the input lines. -/
structure Env where
  rt : Rt
  base : Word
  syms : List (Word × Str)
  input : List Str

/-- `HashMap::insert` on `local_labels`. -/
def locInsert (m : List Loc) (k : Str) (v : Nat × Str) : List Loc :=
  m.filter (fun e => !(e.1 == k)) ++ [(k, v)]

/-- The context `parse_inst` sees at state `s` (`s.lineNum` already counts the current line). -/
def ctxOf (env : Env) (s : PState) : Ctx where
  ovf := env.rt.ovf
  syms := env.syms
  lineNum := s.lineNum
  content := (env.input[s.lineNum - 1]?).getD []
  prevContent := (env.input[s.lineNum - 2]?).getD []
  lastDelay := match s.insts.getLast? with
    | some (_, i) => i.hasDelaySlot
    | none => false
  labels := s.labels

/-- `parse_label` (src/parser.rs:157-170). -/
def parseLabel [Unicode] (env : Env) (s : PState) (label : Str) : Res ParserError Str :=
  match label with
  | [] => .panic
  | c :: _ =>
    if Unicode.isNumeric c then .err (.invalidLabel (ctxOf env s).line label)
    else match s.labels.lookup label with
      | some first => match env.input[first]? with
        | some content =>
          .err (.multipleLabelDefinition (ctxOf env s).line label ⟨first + 1, content⟩)
        | none => .panic
      | none => .ok label

/-- `scan_line` (src/parser.rs:119-155) together with
`.unwrap_or_else(|e| self.errors.push(e))` (src/parser.rs:92); `none` is a panic. -/
def scanLine [Unicode] (env : Env) (s : PState) (line : Str) : Option PState :=
  if endsWith ':' line then
    match parseLabel env s line.dropLast with
    | .panic => none
    | .err e => some { s with errors := s.errors ++ [e] }
    | .ok l =>
      if startsWith c!"@@" line then
        let scope := match s.labels.getLast? with
          | some (lbl, _) => lbl
          | none => []
        some { s with locals := locInsert s.locals l (s.insts.length, scope) }
      else
        some { s with
          labels := s.labels ++ [(l, s.insts.length)]
          dropped := s.dropped ++ env.rt.order s.lineNum s.locals
          locals := [] }
  else if line.isEmpty then some s
  else
    let w := parseInst (ctxOf env s) line
    match w.res with
    | .panic => none
    | .err e => some { s with errors := s.errors ++ [e], warns := s.warns ++ w.warns }
    | .ok i => some { s with insts := s.insts ++ [(s.lineNum, i)], warns := s.warns ++ w.warns }

/-- One iteration of the loop in `parse` (src/parser.rs:89-93) on the raw input line. -/
def stepLine [Unicode] (env : Env) (s : PState) (raw : Str) : Option PState :=
  scanLine env { s with lineNum := s.lineNum + 1 } (stripComment (trim raw))

/-- The flush after the loop (src/parser.rs:94-106). -/
def finalFlush (env : Env) (s : PState) : PState :=
  if s.dropped.isEmpty then s
  else { s with dropped := s.dropped ++ env.rt.order 0 s.locals, locals := [] }

/-- `get_label_scope` (src/parser.rs:1066-1079); `none` is the panic of `labels.get(lbl).unwrap()`. -/
def labelScope (labels : List (Str × Nat)) (n : Nat) (lbl : Str) : Option (Nat × Nat) :=
  if lbl.isEmpty then some (0, n)
  else match labels.findIdx? (fun e => e.1 == lbl) with
    | none => none
    | some k => match labels[k]? with
      | none => none
      | some (_, lo) => match labels[k + 1]? with
        | some (_, hi) => some (lo, hi)
        | none => some (lo, n)

/-- The `for (addr, lbl) in lbls.unwrap()` loop (src/parser.rs:910-926): the first entry whose scope
contains `i`; outer `none` is a panic. -/
def findLocal (labels : List (Str × Nat)) (n i : Nat) : List Loc → Option (Option Nat)
  | [] => some none
  | (_, addr, lbl) :: rest =>
    match labelScope labels n lbl with
    | none => none
    | some (lo, hi) => if i < lo ∨ hi < i then findLocal labels n i rest else some (some addr)

/-- Relative offset `(addr as isize - (i + 1) as isize) as u16`. -/
def relOff (addr i : Nat) : BitVec 16 := BitVec.ofInt 16 ((addr : Int) - ((i : Int) + 1))

/-- The `Line` given by `error!(self, .., line_num, ..)` (src/error.rs:110-127); `none` is a panic. -/
def lineAt (env : Env) (n : Nat) : Option Line :=
  (env.input[n - 1]?).map fun t => ⟨n, t⟩

/-- One iteration of the loop in `adjust_labels` (src/parser.rs:877-973): the new instruction and the
errors it pushes; `none` is a panic. -/
def adjust1 (env : Env) (s : PState) (i : Nat) (e : Nat × Instruction) :
    Option (Instruction × List ParserError) :=
  let n := s.insts.length
  match e.2 with
  | .imm op rs rt (.label lbl) _ => do
    let addr ← s.labels.lookup lbl
    some (.imm op rs rt (.short (relOff addr i)) [], [])
  | .imm op rs rt (.localLabel loc) b =>
    let lbls := s.dropped.filter fun d => d.1 == loc
    if lbls.isEmpty then do
      let l ← lineAt env e.1
      some (.imm op rs rt (.localLabel loc) b, [.undefinedLabel l loc])
    else do
      let r ← findLocal s.labels n i lbls
      match r with
      | some addr => some (.imm op rs rt (.short (relOff addr i)) [], [])
      | none => do
        let l ← lineAt env e.1
        some (.imm op rs rt (.localLabel loc) b, [.localLabelOutOfScope l loc])
  | .imm op rs rt (.int addr) b =>
    if !(startsWith c!"b" op.name) then some (.imm op rs rt (.int addr) b, [])
    else do
      let n4 ← chkMul env.rt.ovf (BitVec.ofNat 32 n) 4#32
      let hi ← chkAdd env.rt.ovf env.base n4
      let errs ← (if addr.toNat < env.base.toNat ∨ hi.toNat < addr.toNat then do
          let l ← lineAt env s.lineNum
          let t ← env.input[e.1 - 1]?
          some [.branchOutOfBounds l t env.base hi]
        else some [])
      let off : Int := (addr.toNat : Int) - ((i : Int) + 1)
      some (.imm op rs rt (.short (BitVec.ofInt 16 (off.tdiv 4))) [], errs)
  | .jump op (.label lbl) b =>
    match s.labels.lookup lbl with
    | none => do
      let l ← lineAt env e.1
      some (.jump op (.label lbl) b, [.undefinedLabel l lbl])
    | some addr => do
      let a4 ← chkMul env.rt.ovf (BitVec.ofNat 32 addr) 4#32
      let t ← chkAdd env.rt.ovf env.base a4
      some (.jump op (.address t) [], [])
  | other => some (other, [])

/-- `adjust_labels` (src/parser.rs:875-980). -/
def adjustAll (env : Env) (s : PState) : Option (List (Instruction × List ParserError)) :=
  s.insts.zipIdx.mapM fun p => adjust1 env s p.2 p.1

/-- The line loop of `parse` (src/parser.rs:88-93). -/
def runLines [Unicode] (env : Env) : PState → List Str → Option PState
  | s, [] => some s
  | s, raw :: rest => match stepLine env s raw with
    | none => none
    | some s' => runLines env s' rest

/-- Result of `Parser::parse`: printed warnings and the returned value; `none` is a panic. -/
structure ParseOut where
  warns : List ParserWarning
  result : Except (List ParserError) (List Instruction)

/-- `Parser::new` and `Parser::parse` (src/parser.rs:74-116). -/
def parse [Unicode] (rt : Rt) (base : Word) (syms : List (Word × Str)) (text : Str) :
    Option ParseOut :=
  let env : Env := ⟨rt, base, syms, lines text⟩
  match runLines env {} env.input with
  | none => none
  | some s0 =>
    let s := finalFlush env s0
    match adjustAll env s with
    | none => none
    | some out =>
      let errs := s.errors ++ out.flatMap (·.2)
      some ⟨s.warns, if errs.isEmpty then .ok (out.map (·.1)) else .error errs⟩

end Mips
