/-
Model of src/ast.rs: registers, immediates, targets, instructions and their queries.
The operation enums are in `Ops.lean`; `Display for Instruction` is in `Display.lean`.
-/
import Verif.Model.Num
import Verif.Model.Regex
import Verif.Model.Ops

namespace Mips

/-- A Rust `Result<α, ε>` computation that may also panic. -/
inductive Res (ε α : Type) where
  | ok (a : α)
  | err (e : ε)
  | panic
  deriving Repr, DecidableEq

namespace Res
variable {ε ε' α β : Type}
/-- `?` / sequencing. -/
@[inline] protected def bind (x : Res ε α) (f : α → Res ε β) : Res ε β :=
  match x with | ok a => f a | err e => err e | panic => panic
instance : Monad (Res ε) where
  pure := ok
  bind := Res.bind
/-- `Result::map_err`. -/
def mapErr (f : ε → ε') : Res ε α → Res ε' α
  | ok a => ok a | err e => err (f e) | panic => panic
/-- `Result::unwrap`: an error becomes a panic. -/
def unwrap : Res ε α → Res ε' α
  | ok a => ok a | err _ => panic | panic => panic
/-- `Option::unwrap`, or any partial operation that panics. -/
def ofOption : Option α → Res ε α
  | some a => ok a | none => panic
end Res

/-- A machine word `u32`. -/
abbrev Word := BitVec 32

/-! ### Registers -/

/-- `Register` (src/ast.rs:636-671): a fieldless enum with discriminants 0..=31, modelled by the discriminant. -/
abbrev Register := Fin 32

/-- `Register as Display` (strum snake_case, src/ast.rs:636-671), indexed by discriminant. -/
def regNames : List Str :=
  [c!"zero", c!"at", c!"v0", c!"v1", c!"a0", c!"a1", c!"a2", c!"a3",
   c!"t0", c!"t1", c!"t2", c!"t3", c!"t4", c!"t5", c!"t6", c!"t7",
   c!"s0", c!"s1", c!"s2", c!"s3", c!"s4", c!"s5", c!"s6", c!"s7",
   c!"t8", c!"t9", c!"k0", c!"k1", c!"gp", c!"sp", c!"fp", c!"ra"]

/-- `Register::to_string`. -/
def Register.name (r : Register) : Str := regNames[r.val]'(r.isLt)

/-- `Register::null()` (src/ast.rs:674-676). -/
def Register.null : Register := 0

/-- `Register::Ra`. -/
def Register.ra : Register := 31

/-- `Register::as_num` (src/ast.rs:678-680). -/
def Register.num (r : Register) : Word := BitVec.ofNat 32 r.val

/-- `TryFrom<u32> for Register` (src/ast.rs:683-723); the error text is the decimal number. -/
def Register.tryFrom (n : Nat) : Res Str Register :=
  if h : n < 32 then .ok ⟨n, h⟩ else .err (decimal n)

/-- `s.parse::<u32>()` as a natural number. -/
def parseU32 (s : Str) : Option Nat := (fromStrRadix .u32 10 s).map Int.toNat

/-- `u32::from_str_radix(s, 16)` as a natural number. -/
def parseU32Hex (s : Str) : Option Nat := (fromStrRadix .u32 16 s).map Int.toNat

/-- The name table in `FromStr for Register` (src/ast.rs:741-773): accepted spelling and register. -/
def regTable : List (Str × Register) :=
  [(c!"zero", 0), (c!"r0", 0), (c!"at", 1), (c!"v0", 2), (c!"v1", 3),
   (c!"a0", 4), (c!"a1", 5), (c!"a2", 6), (c!"a3", 7),
   (c!"t0", 8), (c!"t1", 9), (c!"t2", 10), (c!"t3", 11),
   (c!"t4", 12), (c!"t5", 13), (c!"t6", 14), (c!"t7", 15),
   (c!"s0", 16), (c!"s1", 17), (c!"s2", 18), (c!"s3", 19),
   (c!"s4", 20), (c!"s5", 21), (c!"s6", 22), (c!"s7", 23),
   (c!"t8", 24), (c!"t9", 25), (c!"k0", 26), (c!"k1", 27),
   (c!"gp", 28), (c!"sp", 29), (c!"fp", 30), (c!"ra", 31)]

/-- `FromStr for Register` (src/ast.rs:725-777). -/
def Register.fromStr [Unicode] (reg : Str) : Res Str Register :=
  let r := trimStartMatches '$' (trim reg)
  if regReMatches r then
    match parseU32 (trimStartMatches 'r' r) with
    | some n => Register.tryFrom n
    | none => .panic
  else match parseU32 r with
    | some n => Register.tryFrom n
    | none => match regTable.lookup (Unicode.lower r) with
      | some x => .ok x
      | none => .err reg

/-- `FloatRegister` (src/ast.rs:791-826), modelled by its discriminant 0..=31. -/
abbrev FloatRegister := Fin 32

/-- `FloatRegister as Display` (strum snake_case), indexed by discriminant. -/
def fregNames : List Str :=
  [c!"fv0", c!"fv0f", c!"fv1", c!"fv1f", c!"ft0", c!"ft0f", c!"ft1", c!"ft1f",
   c!"ft2", c!"ft2f", c!"ft3", c!"ft3f", c!"fa0", c!"fa0f", c!"fa1", c!"fa1f",
   c!"ft4", c!"ft4f", c!"ft5", c!"ft5f", c!"fs0", c!"fs0f", c!"fs1", c!"fs1f",
   c!"fs2", c!"fs2f", c!"fs3", c!"fs3f", c!"fs4", c!"fs4f", c!"fs5", c!"fs5f"]

/-- `FloatRegister::to_string`. -/
def FloatRegister.name (r : FloatRegister) : Str := fregNames[r.val]'(r.isLt)

/-- `TryFrom<u32> for FloatRegister` (src/ast.rs:828-868). -/
def FloatRegister.tryFrom (n : Nat) : Res Str FloatRegister :=
  if h : n < 32 then .ok ⟨n, h⟩ else .err (decimal n)

/-- The name table in `FromStr for FloatRegister` (src/ast.rs:880-912). -/
def fregTable : List (Str × FloatRegister) :=
  [(c!"f0", 0), (c!"fv0", 0), (c!"f1", 1), (c!"fv0f", 1), (c!"f2", 2), (c!"fv1", 2),
   (c!"f3", 3), (c!"fv1f", 3), (c!"f4", 4), (c!"ft0", 4), (c!"f5", 5), (c!"ft0f", 5),
   (c!"f6", 6), (c!"ft1", 6), (c!"f7", 7), (c!"ft1f", 7), (c!"f8", 8), (c!"ft2", 8),
   (c!"f9", 9), (c!"ft2f", 9), (c!"f10", 10), (c!"ft3", 10), (c!"f11", 11), (c!"ft3f", 11),
   (c!"f12", 12), (c!"fa0", 12), (c!"f13", 13), (c!"fa0f", 13), (c!"f14", 14), (c!"fa1", 14),
   (c!"f15", 15), (c!"fa1f", 15), (c!"f16", 16), (c!"ft4", 16), (c!"f17", 17), (c!"ft4f", 17),
   (c!"f18", 18), (c!"ft5", 18), (c!"f19", 19), (c!"ft5f", 19), (c!"f20", 20), (c!"fs0", 20),
   (c!"f21", 21), (c!"fs0f", 21), (c!"f22", 22), (c!"fs1", 22), (c!"f23", 23), (c!"fs1f", 23),
   (c!"f24", 24), (c!"fs2", 24), (c!"f25", 25), (c!"fs2f", 25), (c!"f26", 26), (c!"fs3", 26),
   (c!"f27", 27), (c!"fs3f", 27), (c!"f28", 28), (c!"fs4", 28), (c!"f29", 29), (c!"fs4f", 29),
   (c!"f30", 30), (c!"fs5", 30), (c!"f31", 31), (c!"fs5f", 31)]

/-- `FromStr for FloatRegister` (src/ast.rs:870-921). -/
def FloatRegister.fromStr [Unicode] (reg0 : Str) : Res Str FloatRegister :=
  let reg := trimStartMatches '$' (trim reg0)
  match parseU32 reg with
  | some n => FloatRegister.tryFrom n
  | none => match fregTable.lookup (Unicode.lower reg) with
    | some x => .ok x
    | none => match parseU32Hex reg with
      | some n => FloatRegister.tryFrom n
      | none => .err (Unicode.lower reg)

/-- `Cop0Register` (src/ast.rs:929-957), modelled by its discriminant. -/
abbrev Cop0Register := Fin 32

/-- COP0 registers: discriminant, `Display` name (strum PascalCase, which re-cases `LLAddr` to
`LlAddr` and `ErrorEPC` to `ErrorEpc`), and the (lower-case) spelling in `FromStr`
(src/ast.rs:929-957, 959-992, 1008-1033). -/
def cop0Table : List (Cop0Register × Str × Str) :=
  [(0, c!"Index", c!"index"), (1, c!"Random", c!"random"), (2, c!"EntryLo0", c!"entrylo0"),
   (3, c!"EntryLo1", c!"entrylo1"), (4, c!"Context", c!"context"), (5, c!"PageMask", c!"pagemask"),
   (6, c!"Wired", c!"wired"), (8, c!"BadVAddr", c!"badvaddr"), (9, c!"Count", c!"count"),
   (10, c!"EntryHi", c!"entryhi"), (11, c!"Compare", c!"compare"), (12, c!"Status", c!"status"),
   (13, c!"Cause", c!"cause"), (14, c!"Epc", c!"epc"), (15, c!"PrId", c!"prid"),
   (16, c!"Config", c!"config"), (17, c!"LlAddr", c!"lladdr"), (18, c!"WatchLo", c!"watchlo"),
   (19, c!"WatchHi", c!"watchhi"), (20, c!"XContext", c!"xcontext"),
   (26, c!"ParityError", c!"parityerror"), (27, c!"CacheError", c!"cacheerror"),
   (28, c!"TagLo", c!"taglo"), (29, c!"TagHi", c!"taghi"), (30, c!"ErrorEpc", c!"errorepc")]

/-- `TryFrom<u32> for Cop0Register` (src/ast.rs:959-992). -/
def Cop0Register.tryFrom (n : Nat) : Res Str Cop0Register :=
  match cop0Table.find? fun e => e.1.val == n with
  | some e => .ok e.1
  | none => .err (decimal n)

/-- `FromStr for Cop0Register` (src/ast.rs:994-1037). -/
def Cop0Register.fromStr [Unicode] (reg0 : Str) : Res Str Cop0Register :=
  let reg := trimStartMatches '$' (trim reg0)
  match parseU32 reg with
  | some n => Cop0Register.tryFrom n
  | none => match parseU32Hex reg with
    | some n => Cop0Register.tryFrom n
    | none =>
      let l := Unicode.lower reg
      match cop0Table.find? fun e => e.2.2 == l with
      | some e => .ok e.1
      | none => .err l

/-- `TryFrom<Register> for Cop0Register` + `Display` (src/ast.rs:1039-1045, 494-495):
the printed name of COP0 register `r`, if it has one. -/
def Cop0Register.nameOf (r : Register) : Option Str :=
  (cop0Table.find? fun e => e.1.val == r.val).map fun e => e.2.1

/-- `FloatCond as Display` (strum snake_case, src/ast.rs:1357-1377), indexed by discriminant;
`TryFrom<u32>` (src/ast.rs:1379-1403) accepts exactly 0..=15. -/
def floatConds : List Str :=
  [c!"f", c!"un", c!"eq", c!"ueq", c!"olt", c!"ult", c!"ole", c!"ule",
   c!"sf", c!"ngle", c!"seq", c!"ngl", c!"lt", c!"nge", c!"le", c!"ngt"]

/-! ### Operands and instructions -/

/-- `Target` (src/ast.rs:18-22). -/
inductive Target where
  | label (name : Str)
  | address (addr : Word)
  deriving DecidableEq, Repr

/-- `Target::as_u32` (src/ast.rs:25-32); `none` is the panic. -/
def Target.asU32 : Target → Option Word
  | .label _ => none
  | .address a => some a

/-- `Target::is_label` (src/ast.rs:34-36). -/
def Target.isLabel : Target → Bool
  | .label _ => true | .address _ => false

/-- `Immediate` (src/ast.rs:39-46). -/
inductive Immediate where
  | short (v : BitVec 16)
  | int (v : BitVec 32)
  | long (v : BitVec 64)
  | localLabel (name : Str)
  | label (name : Str)
  deriving DecidableEq, Repr

/-- `Immediate::as_u32` (src/ast.rs:49-56); `none` is the panic. -/
def Immediate.asU32 : Immediate → Option Word
  | .short v => some (v.setWidth 32)
  | .int v => some v
  | .long v => some (v.setWidth 32)
  | _ => none

/-- `Immediate::as_u64` (src/ast.rs:58-65); `none` is the panic. -/
def Immediate.asU64 : Immediate → Option (BitVec 64)
  | .short v => some (v.setWidth 64)
  | .int v => some (v.setWidth 64)
  | .long v => some v
  | _ => none

/-- `Immediate::is_label` (src/ast.rs:67-69). -/
def Immediate.isLabel : Immediate → Bool
  | .localLabel _ => true | .label _ => true | _ => false

/-- `Immediate::new::<T>` (src/ast.rs:71-99) for a value already in range of `T`:
the width of `T` selects the variant, a negative value is stored in two's complement. -/
def Immediate.new (ty : IntTy) (v : Int) : Immediate :=
  match ty with
  | .u16 | .i16 => .short (BitVec.ofInt 16 v)
  | .u32 | .i32 => .int (BitVec.ofInt 32 v)
  | .i64 => .long (BitVec.ofInt 64 v)

/-- `Instruction` (src/ast.rs:119-144). -/
inductive Instruction where
  | imm (op : ITypeOp) (rs rt : Register) (imm : Immediate) (bytes : List Word)
  | jump (op : JTypeOp) (target : Target) (bytes : List Word)
  | reg (op : RTypeOp) (rs rt rd : Register) (sa : Word) (bytes : List Word)
  | bytes (w : Word)
  deriving DecidableEq, Repr

/-- `Instruction::has_delay_slot` (src/ast.rs:151-186). -/
def Instruction.hasDelaySlot : Instruction → Bool
  | .jump .. => true
  | .imm op .. => match op with
    | .Beqz | .Bgtz | .Bgtzl | .Blez | .Blezl | .Bnez | .Beq | .Beql | .Bne | .Bnel
    | .Bgez | .Bgezal | .Bgezall | .Bgezl | .Bltz | .Bltzal | .Bltzall | .Bltzl
    | .Bc0f | .Bc1f | .Bc0fl | .Bc1fl | .Bc0t | .Bc1t | .Bc0tl | .Bc1tl => true
    | _ => false
  | .reg op .. => match op with
    | .Jr | .Jalr => true
    | _ => false
  | .bytes _ => false

/-- `Instruction::push_bytes` (src/ast.rs:188-195); `none` is the `panic!()` on `Bytes`. -/
def Instruction.pushBytes (i : Instruction) (bs : List Word) : Option Instruction :=
  match i with
  | .imm op rs rt im b => some (.imm op rs rt im (b ++ bs))
  | .jump op t b => some (.jump op t (b ++ bs))
  | .reg op rs rt rd sa b => some (.reg op rs rt rd sa (b ++ bs))
  | .bytes _ => none

/-- `Instruction::get_bytes` (src/ast.rs:197-204). -/
def Instruction.getBytes : Instruction → List Word
  | .imm _ _ _ _ b => b
  | .jump _ _ b => b
  | .reg _ _ _ _ _ b => b
  | .bytes w => [w]

/-- `Instruction::is_unconditional_jump` (src/ast.rs:240-245). -/
def Instruction.isUnconditionalJump : Instruction → Bool
  | .jump .J .. => true
  | .reg .Jr .. => true
  | _ => false

/-- `Instruction::get_jump_target` (src/ast.rs:254-259); outer `none` is the panic of
`Target::as_u32` on a label. -/
def Instruction.getJumpTarget : Instruction → Option (Option Word)
  | .jump _ t _ => t.asU32.map some
  | _ => some none

end Mips
