/-
Model of `Display for Instruction` and `Debug for Instruction` (src/ast.rs:101-117, 262-634).
-/
import Verif.Model.Ast

namespace Mips

/-- `{:#x}` of `Signed(v)` (src/ast.rs:101-117): `pad_integral` prints `-` unless `v < 0x7fff`. -/
def signedHex (v : BitVec 16) : Str :=
  let abs : Nat := if v.toNat = 0x7fff then 0x7fff else v.toInt.natAbs
  (if v.toNat < 0x7fff then [] else c!"-") ++ c!"0x" ++ hexLower abs

/-- `{:#x}` of an unsigned integer. -/
def uhex (n : Nat) : Str := c!"0x" ++ hexLower n

/-- `{:11}` of an operation name. -/
def op11 (name : Str) : Str := padRight 11 name

/-- `${}` of a register. -/
def dr (r : Register) : Str := '$' :: r.name
/-- `${}` of `FloatRegister::from(r)`. -/
def df (r : Register) : Str := '$' :: FloatRegister.name r
/-- `", "` -/
def sep : Str := c!", "

/-- `op.to_string().replace('_', ".")` (src/ast.rs:505 etc.). -/
def dotted (s : Str) : Str := s.map fun c => if c = '_' then '.' else c

/-- The `Immediate::Short` arms (src/ast.rs:265-357); `none` is the panic on pseudo-instructions. -/
def displayI (op : ITypeOp) (rs rt : Register) (v : BitVec 16) : Option Str :=
  match op with
  | .Lb | .Lbu | .Ld | .Ldl | .Ldr | .Lh | .Lhu | .Ll | .Lld | .Lw | .Lwl | .Lwr | .Lwu | .Sb | .Sc
  | .Scd | .Sd | .Sdl | .Sdr | .Sh | .Sw | .Swl | .Swr =>
    some (op11 op.name ++ dr rt ++ sep ++ signedHex v ++ c!"(" ++ dr rs ++ c!")")
  | .Cache => some (op11 op.name ++ uhex rt.val ++ sep ++ signedHex v ++ c!"(" ++ dr rs ++ c!")")
  | .Addi | .Addiu | .Daddi | .Daddiu | .Slti | .Sltiu =>
    some (op11 op.name ++ dr rt ++ sep ++ dr rs ++ sep ++ signedHex v)
  | .Andi | .Ori | .Xori => some (op11 op.name ++ dr rt ++ sep ++ dr rs ++ sep ++ uhex v.toNat)
  | .Lui => some (op11 op.name ++ dr rt ++ sep ++ uhex v.toNat)
  | .Beqz | .Bgtz | .Bgtzl | .Blez | .Blezl | .Bnez =>
    some (op11 op.name ++ dr rs ++ sep ++ signedHex v)
  | .Beq | .Beql | .Bne | .Bnel =>
    some (op11 op.name ++ dr rs ++ sep ++ dr rt ++ sep ++ signedHex v)
  | .Bgez | .Bgezal | .Bgezall | .Bgezl | .Bltz | .Bltzal | .Bltzall | .Bltzl | .Teqi | .Tgei
  | .Tgeiu | .Tlti | .Tltiu | .Tnei => some (op11 op.name ++ dr rs ++ sep ++ signedHex v)
  | .Bc0f | .Bc1f | .Bc0fl | .Bc1fl | .Bc0t | .Bc1t | .Bc0tl | .Bc1tl =>
    some (op11 op.name ++ signedHex v)
  | .Ldc1 | .Lwc1 | .Sdc1 | .Swc1 =>
    some (op11 op.name ++ df rt ++ sep ++ signedHex v ++ c!"(" ++ dr rs ++ c!")")
  | _ => none

/-- The `Immediate::Label` / `Immediate::LocalLabel` arms (src/ast.rs:358-405). -/
def displayIL (op : ITypeOp) (rs rt : Register) (l : Str) : Option Str :=
  match op with
  | .Beqz | .Bgtz | .Bgtzl | .Blez | .Blezl | .Bnez => some (op11 op.name ++ dr rs ++ sep ++ l)
  | .Beq | .Beql | .Bne | .Bnel => some (op11 op.name ++ dr rs ++ sep ++ dr rt ++ sep ++ l)
  | .Bgez | .Bgezal | .Bgezall | .Bgezl | .Bltz | .Bltzal | .Bltzall | .Bltzl | .Teqi | .Tgei
  | .Tgeiu | .Tlti | .Tltiu | .Tnei => some (op11 op.name ++ dr rs ++ sep ++ l)
  | .Bc0f | .Bc1f | .Bc0fl | .Bc1fl | .Bc0t | .Bc1t | .Bc0tl | .Bc1tl => some (op11 op.name ++ l)
  | _ => none

/-- `c.cond.fmt` text (src/ast.rs:578-621): four spaces, preceded by a tab unless the condition is 9. -/
def displayC (fmt : Char) (rs rt : Register) (sa : Word) : Option Str :=
  (floatConds[sa.toNat]?).map fun cond =>
    c!"c." ++ cond ++ ['.', fmt] ++ (if sa = 9#32 then [] else ['\t']) ++ c!"    " ++ df rs ++ sep ++ df rt

/-- The `Register` arms (src/ast.rs:419-623). -/
def displayR (op : RTypeOp) (rs rt rd : Register) (sa : Word) (bytes : List Word) : Option Str :=
  match op with
  | .Sync => some op.name
  | .Add | .Addu | .And | .Dadd | .Daddu | .Dsub | .Dsubu | .Nor | .Or | .Slt | .Sltu | .Sub | .Subu
  | .Xor => some (op11 op.name ++ dr rd ++ sep ++ dr rs ++ sep ++ dr rt)
  | .Dsll | .Dsll32 | .Dsra | .Dsra32 | .Dsrl | .Dsrl32 | .Sll | .Sra | .Srl =>
    some (op11 op.name ++ dr rd ++ sep ++ dr rt ++ sep ++ uhex sa.toNat)
  | .Dsllv | .Dsrav | .Dsrlv | .Sllv | .Srav | .Srlv =>
    some (op11 op.name ++ dr rd ++ sep ++ dr rt ++ sep ++ dr rs)
  | .Break | .Syscall => some (if sa = 0#32 then op.name else op11 op.name ++ uhex sa.toNat)
  | .Ddiv | .Ddivu | .Div | .Divu | .Dmult | .Dmultu | .Mult | .Multu | .Teq | .Tge | .Tgeu | .Tlt
  | .Tltu | .Tne => some (op11 op.name ++ dr rs ++ sep ++ dr rt)
  | .Jalr =>
    some (if rd = Register.ra then op11 op.name ++ dr rs else op11 op.name ++ dr rd ++ sep ++ dr rs)
  | .Jr | .Mthi | .Mtlo => some (op11 op.name ++ dr rs)
  | .Mfhi | .Mflo => some (op11 op.name ++ dr rd)
  | .Cfc0 | .Ctc0 | .Dmfc0 | .Dmtc0 | .Mfc0 | .Mtc0 =>
    match Cop0Register.nameOf rd with
    | some n => some (op11 op.name ++ dr rt ++ sep ++ n)
    | none => bytes.head?.map fun w =>
      op11 c!".word" ++ c!"0x" ++ zeroPad 8 (hexLower w.toNat) ++ c!" " ++ c!"         #" ++ c!" " ++
        op11 op.name ++ dr rt ++ sep ++ c!"0x" ++ zeroPad 2 (hexLower rd.val)
  | .Cfc1 | .Ctc1 | .Dmfc1 | .Dmtc1 | .Mfc1 | .Mtc1 => some (op11 op.name ++ dr rt ++ sep ++ df rd)
  | .Eret | .Tlbp | .Tlbr | .Tlbwi | .Tlbwr => some op.name
  | .AddS | .AddD | .SubS | .SubD | .MulS | .MulD | .DivS | .DivD =>
    some (op11 (dotted op.name) ++ df rd ++ sep ++ df rs ++ sep ++ df rt)
  | .AbsS | .AbsD | .CvtDS | .CvtDW | .CvtDL | .CvtLS | .CvtLD | .CvtSD | .CvtSW | .CvtSL | .CvtWD
  | .CvtWS | .MovS | .MovD | .NegS | .NegD | .SqrtS | .SqrtD =>
    some (op11 (dotted op.name) ++ df rd ++ sep ++ df rs)
  | .CeilLS | .CeilLD | .CeilWS | .CeilWD => some (dotted op.name ++ c!"    " ++ df rd ++ sep ++ df rs)
  | .FloorLS | .FloorLD | .FloorWS | .FloorWD | .RoundLS | .RoundLD | .RoundWS | .RoundWD | .TruncLS
  | .TruncLD | .TruncWS | .TruncWD => some (dotted op.name ++ c!"   " ++ df rd ++ sep ++ df rs)
  | .Cs => displayC 's' rs rt sa
  | .Cd => displayC 'd' rs rt sa
  | _ => none

/-- `Display for Instruction` (src/ast.rs:262-628); `none` is a panic. -/
def Instruction.display : Instruction → Option Str
  | .imm op rs rt (.short v) _ => displayI op rs rt v
  | .imm op rs rt (.label l) _ => displayIL op rs rt l
  | .imm op rs rt (.localLabel l) _ => displayIL op rs rt l
  | .imm .. => none
  | .jump op (.address t) _ => some (op11 op.name ++ c!"0x" ++ hexUpper t.toNat)
  | .jump op (.label l) _ => some (op11 op.name ++ l)
  | .reg op rs rt rd sa b => displayR op rs rt rd sa b
  | .bytes w => some (op11 c!".word" ++ c!"0x" ++ zeroPad 8 (hexLower w.toNat))

/-- `Debug for Instruction` (src/ast.rs:630-634). -/
def Instruction.debug (i : Instruction) : Option Str := i.display.map squeeze

end Mips
