/-
Operation enums of src/ast.rs with their strum names.  GENERATED by tools/gen_ast.py from /repo/src/ast.rs.

`#[strum(serialize_all = "snake_case")]` turns the (one-word) variant names into lower case;
`#[strum(to_string = ..)]` overrides it; `#[strum(ascii_case_insensitive)]` makes `FromStr` compare
with `eq_ignore_ascii_case`.
-/
import Verif.Model.Str

namespace Mips

/-- `ITypeOp` (src/ast.rs:1050-1150). -/
inductive ITypeOp
  | Addi | Addiu | Andi | Bc0f | Bc0fl | Bc0t | Bc0tl | Bc1f
  | Bc1fl | Bc1t | Bc1tl | Beq | Beql | Bgez | Bgezal | Bgezall
  | Bgezl | Bgtz | Bgtzl | Blez | Blezl | Bltz | Bltzal | Bltzall
  | Bltzl | Bne | Bnel | Cache | Daddi | Daddiu | Lb | Lbu
  | Ld | Ldc1 | Ldl | Ldr | Lh | Lhu | Ll | Lld
  | Lui | Lw | Lwc1 | Lwl | Lwr | Lwu | Ori | Sb
  | Sc | Scd | Sd | Sdc1 | Sdl | Sdr | Sh | Slti
  | Sltiu | Sw | Swc1 | Swl | Swr | Teqi | Tgei | Tgeiu
  | Tlti | Tltiu | Tnei | Xori | B | Bal | Beqz | Bnez
  | Beqzl | Bnezl | Bge | Bgt | Ble | Blt | Bgeu | Bgtu
  | Bleu | Bltu | Bgel | Bgtl | Blel | Bltl | Bgeul | Bgtul
  | Bleul | Bltul | Dli | Dsubi | Dsubiu | Lli | Li | Liu
  | Subi | Subiu
  deriving DecidableEq, Repr

/-- `ITypeOp as Display` (strum, src/ast.rs:1047-1150). -/
def ITypeOp.name : ITypeOp → Str
  | .Addi => c!"addi"
  | .Addiu => c!"addiu"
  | .Andi => c!"andi"
  | .Bc0f => c!"bc0f"
  | .Bc0fl => c!"bc0fl"
  | .Bc0t => c!"bc0t"
  | .Bc0tl => c!"bc0tl"
  | .Bc1f => c!"bc1f"
  | .Bc1fl => c!"bc1fl"
  | .Bc1t => c!"bc1t"
  | .Bc1tl => c!"bc1tl"
  | .Beq => c!"beq"
  | .Beql => c!"beql"
  | .Bgez => c!"bgez"
  | .Bgezal => c!"bgezal"
  | .Bgezall => c!"bgezall"
  | .Bgezl => c!"bgezl"
  | .Bgtz => c!"bgtz"
  | .Bgtzl => c!"bgtzl"
  | .Blez => c!"blez"
  | .Blezl => c!"blezl"
  | .Bltz => c!"bltz"
  | .Bltzal => c!"bltzal"
  | .Bltzall => c!"bltzall"
  | .Bltzl => c!"bltzl"
  | .Bne => c!"bne"
  | .Bnel => c!"bnel"
  | .Cache => c!"cache"
  | .Daddi => c!"daddi"
  | .Daddiu => c!"daddiu"
  | .Lb => c!"lb"
  | .Lbu => c!"lbu"
  | .Ld => c!"ld"
  | .Ldc1 => c!"ldc1"
  | .Ldl => c!"ldl"
  | .Ldr => c!"ldr"
  | .Lh => c!"lh"
  | .Lhu => c!"lhu"
  | .Ll => c!"ll"
  | .Lld => c!"lld"
  | .Lui => c!"lui"
  | .Lw => c!"lw"
  | .Lwc1 => c!"lwc1"
  | .Lwl => c!"lwl"
  | .Lwr => c!"lwr"
  | .Lwu => c!"lwu"
  | .Ori => c!"ori"
  | .Sb => c!"sb"
  | .Sc => c!"sc"
  | .Scd => c!"scd"
  | .Sd => c!"sd"
  | .Sdc1 => c!"sdc1"
  | .Sdl => c!"sdl"
  | .Sdr => c!"sdr"
  | .Sh => c!"sh"
  | .Slti => c!"slti"
  | .Sltiu => c!"sltiu"
  | .Sw => c!"sw"
  | .Swc1 => c!"swc1"
  | .Swl => c!"swl"
  | .Swr => c!"swr"
  | .Teqi => c!"teqi"
  | .Tgei => c!"tgei"
  | .Tgeiu => c!"tgeiu"
  | .Tlti => c!"tlti"
  | .Tltiu => c!"tltiu"
  | .Tnei => c!"tnei"
  | .Xori => c!"xori"
  | .B => c!"b"
  | .Bal => c!"bal"
  | .Beqz => c!"beqz"
  | .Bnez => c!"bnez"
  | .Beqzl => c!"beqzl"
  | .Bnezl => c!"bnezl"
  | .Bge => c!"bge"
  | .Bgt => c!"bgt"
  | .Ble => c!"ble"
  | .Blt => c!"blt"
  | .Bgeu => c!"bgeu"
  | .Bgtu => c!"bgtu"
  | .Bleu => c!"bleu"
  | .Bltu => c!"bltu"
  | .Bgel => c!"bgel"
  | .Bgtl => c!"bgtl"
  | .Blel => c!"blel"
  | .Bltl => c!"bltl"
  | .Bgeul => c!"bgeul"
  | .Bgtul => c!"bgtul"
  | .Bleul => c!"bleul"
  | .Bltul => c!"bltul"
  | .Dli => c!"dli"
  | .Dsubi => c!"dsubi"
  | .Dsubiu => c!"dsubiu"
  | .Lli => c!"lli"
  | .Li => c!"li"
  | .Liu => c!"liu"
  | .Subi => c!"subi"
  | .Subiu => c!"subiu"

/-- All variants in declaration order. -/
def ITypeOp.all : List ITypeOp :=
  [.Addi, .Addiu, .Andi, .Bc0f, .Bc0fl, .Bc0t, .Bc0tl, .Bc1f, .Bc1fl, .Bc1t,
   .Bc1tl, .Beq, .Beql, .Bgez, .Bgezal, .Bgezall, .Bgezl, .Bgtz, .Bgtzl, .Blez,
   .Blezl, .Bltz, .Bltzal, .Bltzall, .Bltzl, .Bne, .Bnel, .Cache, .Daddi, .Daddiu,
   .Lb, .Lbu, .Ld, .Ldc1, .Ldl, .Ldr, .Lh, .Lhu, .Ll, .Lld,
   .Lui, .Lw, .Lwc1, .Lwl, .Lwr, .Lwu, .Ori, .Sb, .Sc, .Scd,
   .Sd, .Sdc1, .Sdl, .Sdr, .Sh, .Slti, .Sltiu, .Sw, .Swc1, .Swl,
   .Swr, .Teqi, .Tgei, .Tgeiu, .Tlti, .Tltiu, .Tnei, .Xori, .B, .Bal,
   .Beqz, .Bnez, .Beqzl, .Bnezl, .Bge, .Bgt, .Ble, .Blt, .Bgeu, .Bgtu,
   .Bleu, .Bltu, .Bgel, .Bgtl, .Blel, .Bltl, .Bgeul, .Bgtul, .Bleul, .Bltul,
   .Dli, .Dsubi, .Dsubiu, .Lli, .Li, .Liu, .Subi, .Subiu]

theorem ITypeOp.mem_all (o : ITypeOp) : o ∈ ITypeOp.all := by cases o <;> decide

/-- `str::parse::<ITypeOp>()` (strum `EnumString`, ascii_case_insensitive): first variant whose name matches. -/
def ITypeOp.fromStr (s : Str) : Option ITypeOp := ITypeOp.all.find? fun o => eqIgnoreCase s o.name

/-- `JTypeOp` (src/ast.rs:1155-1158). -/
inductive JTypeOp
  | J | Jal
  deriving DecidableEq, Repr

/-- `JTypeOp as Display` (strum, src/ast.rs:1152-1158). -/
def JTypeOp.name : JTypeOp → Str
  | .J => c!"j"
  | .Jal => c!"jal"

/-- All variants in declaration order. -/
def JTypeOp.all : List JTypeOp :=
  [.J, .Jal]

theorem JTypeOp.mem_all (o : JTypeOp) : o ∈ JTypeOp.all := by cases o <;> decide

/-- `str::parse::<JTypeOp>()` (strum `EnumString`, ascii_case_insensitive): first variant whose name matches. -/
def JTypeOp.fromStr (s : Str) : Option JTypeOp := JTypeOp.all.find? fun o => eqIgnoreCase s o.name

/-- `RTypeOp` (src/ast.rs:1163-1355). -/
inductive RTypeOp
  | AbsS | AbsD | Add | Addu | AddS | AddD | And | Break
  | Cs | Cd | CeilLS | CeilLD | CeilWS | CeilWD | Cfc0 | Cfc1
  | Ctc0 | Ctc1 | CvtDS | CvtDW | CvtDL | CvtLS | CvtLD | CvtSD
  | CvtSW | CvtSL | CvtWS | CvtWD | Dadd | Daddu | Ddiv | Ddivu
  | Div | Divu | DivS | DivD | Dmfc0 | Dmfc1 | Dmtc0 | Dmtc1
  | Dmult | Dmultu | Dsll | Dsll32 | Dsllv | Dsra | Dsra32 | Dsrav
  | Dsrl | Dsrl32 | Dsrlv | Dsub | Dsubu | Eret | FloorLS | FloorLD
  | FloorWS | FloorWD | Jalr | Jr | Mfc0 | Mfc1 | Mfhi | Mflo
  | MovS | MovD | Mtc0 | Mtc1 | Mthi | Mtlo | MulS | MulD
  | Mult | Multu | NegS | NegD | Nor | Or | RoundLS | RoundLD
  | RoundWS | RoundWD | Sll | Sllv | Slt | Sltu | SqrtS | SqrtD
  | Sra | Srav | Srl | Srlv | Sub | Subu | SubS | SubD
  | Sync | Syscall | Teq | Tge | Tgeu | Tlbp | Tlbr | Tlbwi
  | Tlbwr | Tlt | Tltu | Tne | TruncLS | TruncLD | TruncWS | TruncWD
  | Xor | Abs | Clear | Dabs | Dmove | Dmul | Dmulu | Dmulo
  | Dmulou | Dneg | Dnegu | Drem | Dremu | Drol | Dror | Move
  | Mul | Mulu | Mulo | Mulou | Neg | Negu | Nop | Not
  | Rem | Remu | Seq | Sge | Sgeu | Sgt | Sgtu | Sle
  | Sleu | Sne
  deriving DecidableEq, Repr

/-- `RTypeOp as Display` (strum, src/ast.rs:1160-1355). -/
def RTypeOp.name : RTypeOp → Str
  | .AbsS => c!"abs.s"
  | .AbsD => c!"abs.d"
  | .Add => c!"add"
  | .Addu => c!"addu"
  | .AddS => c!"add.s"
  | .AddD => c!"add.d"
  | .And => c!"and"
  | .Break => c!"break"
  | .Cs => c!"c.s"
  | .Cd => c!"c.d"
  | .CeilLS => c!"ceil.l.s"
  | .CeilLD => c!"ceil.l.d"
  | .CeilWS => c!"ceil.w.s"
  | .CeilWD => c!"ceil.w.d"
  | .Cfc0 => c!"cfc0"
  | .Cfc1 => c!"cfc1"
  | .Ctc0 => c!"ctc0"
  | .Ctc1 => c!"ctc1"
  | .CvtDS => c!"cvt.d.s"
  | .CvtDW => c!"cvt.d.w"
  | .CvtDL => c!"cvt.d.l"
  | .CvtLS => c!"cvt.l.s"
  | .CvtLD => c!"cvt.l.d"
  | .CvtSD => c!"cvt.s.d"
  | .CvtSW => c!"cvt.s.w"
  | .CvtSL => c!"cvt.s.l"
  | .CvtWS => c!"cvt.w.s"
  | .CvtWD => c!"cvt.w.d"
  | .Dadd => c!"dadd"
  | .Daddu => c!"daddu"
  | .Ddiv => c!"ddiv"
  | .Ddivu => c!"ddivu"
  | .Div => c!"div"
  | .Divu => c!"divu"
  | .DivS => c!"div.s"
  | .DivD => c!"div.d"
  | .Dmfc0 => c!"dmfc0"
  | .Dmfc1 => c!"dmfc1"
  | .Dmtc0 => c!"dmtc0"
  | .Dmtc1 => c!"dmtc1"
  | .Dmult => c!"dmult"
  | .Dmultu => c!"dmultu"
  | .Dsll => c!"dsll"
  | .Dsll32 => c!"dsll32"
  | .Dsllv => c!"dsllv"
  | .Dsra => c!"dsra"
  | .Dsra32 => c!"dsra32"
  | .Dsrav => c!"dsrav"
  | .Dsrl => c!"dsrl"
  | .Dsrl32 => c!"dsrl32"
  | .Dsrlv => c!"dsrlv"
  | .Dsub => c!"dsub"
  | .Dsubu => c!"dsubu"
  | .Eret => c!"eret"
  | .FloorLS => c!"floor.l.s"
  | .FloorLD => c!"floor.l.d"
  | .FloorWS => c!"floor.w.s"
  | .FloorWD => c!"floor.w.d"
  | .Jalr => c!"jalr"
  | .Jr => c!"jr"
  | .Mfc0 => c!"mfc0"
  | .Mfc1 => c!"mfc1"
  | .Mfhi => c!"mfhi"
  | .Mflo => c!"mflo"
  | .MovS => c!"mov.s"
  | .MovD => c!"mov.d"
  | .Mtc0 => c!"mtc0"
  | .Mtc1 => c!"mtc1"
  | .Mthi => c!"mthi"
  | .Mtlo => c!"mtlo"
  | .MulS => c!"mul.s"
  | .MulD => c!"mul.d"
  | .Mult => c!"mult"
  | .Multu => c!"multu"
  | .NegS => c!"neg.s"
  | .NegD => c!"neg.d"
  | .Nor => c!"nor"
  | .Or => c!"or"
  | .RoundLS => c!"round.l.s"
  | .RoundLD => c!"round.l.d"
  | .RoundWS => c!"round.w.s"
  | .RoundWD => c!"round.w.d"
  | .Sll => c!"sll"
  | .Sllv => c!"sllv"
  | .Slt => c!"slt"
  | .Sltu => c!"sltu"
  | .SqrtS => c!"sqrt.s"
  | .SqrtD => c!"sqrt.d"
  | .Sra => c!"sra"
  | .Srav => c!"srav"
  | .Srl => c!"srl"
  | .Srlv => c!"srlv"
  | .Sub => c!"sub"
  | .Subu => c!"subu"
  | .SubS => c!"sub.s"
  | .SubD => c!"sub.d"
  | .Sync => c!"sync"
  | .Syscall => c!"syscall"
  | .Teq => c!"teq"
  | .Tge => c!"tge"
  | .Tgeu => c!"tgeu"
  | .Tlbp => c!"tlbp"
  | .Tlbr => c!"tlbr"
  | .Tlbwi => c!"tlbwi"
  | .Tlbwr => c!"tlbwr"
  | .Tlt => c!"tlt"
  | .Tltu => c!"tltu"
  | .Tne => c!"tne"
  | .TruncLS => c!"trunc.l.s"
  | .TruncLD => c!"trunc.l.d"
  | .TruncWS => c!"trunc.w.s"
  | .TruncWD => c!"trunc.w.d"
  | .Xor => c!"xor"
  | .Abs => c!"abs"
  | .Clear => c!"clear"
  | .Dabs => c!"dabs"
  | .Dmove => c!"dmove"
  | .Dmul => c!"dmul"
  | .Dmulu => c!"dmulu"
  | .Dmulo => c!"dmulo"
  | .Dmulou => c!"dmulou"
  | .Dneg => c!"dneg"
  | .Dnegu => c!"dnegu"
  | .Drem => c!"drem"
  | .Dremu => c!"dremu"
  | .Drol => c!"drol"
  | .Dror => c!"dror"
  | .Move => c!"move"
  | .Mul => c!"mul"
  | .Mulu => c!"mulu"
  | .Mulo => c!"mulo"
  | .Mulou => c!"mulou"
  | .Neg => c!"neg"
  | .Negu => c!"negu"
  | .Nop => c!"nop"
  | .Not => c!"not"
  | .Rem => c!"rem"
  | .Remu => c!"remu"
  | .Seq => c!"seq"
  | .Sge => c!"sge"
  | .Sgeu => c!"sgeu"
  | .Sgt => c!"sgt"
  | .Sgtu => c!"sgtu"
  | .Sle => c!"sle"
  | .Sleu => c!"sleu"
  | .Sne => c!"sne"

/-- All variants in declaration order. -/
def RTypeOp.all : List RTypeOp :=
  [.AbsS, .AbsD, .Add, .Addu, .AddS, .AddD, .And, .Break, .Cs, .Cd,
   .CeilLS, .CeilLD, .CeilWS, .CeilWD, .Cfc0, .Cfc1, .Ctc0, .Ctc1, .CvtDS, .CvtDW,
   .CvtDL, .CvtLS, .CvtLD, .CvtSD, .CvtSW, .CvtSL, .CvtWS, .CvtWD, .Dadd, .Daddu,
   .Ddiv, .Ddivu, .Div, .Divu, .DivS, .DivD, .Dmfc0, .Dmfc1, .Dmtc0, .Dmtc1,
   .Dmult, .Dmultu, .Dsll, .Dsll32, .Dsllv, .Dsra, .Dsra32, .Dsrav, .Dsrl, .Dsrl32,
   .Dsrlv, .Dsub, .Dsubu, .Eret, .FloorLS, .FloorLD, .FloorWS, .FloorWD, .Jalr, .Jr,
   .Mfc0, .Mfc1, .Mfhi, .Mflo, .MovS, .MovD, .Mtc0, .Mtc1, .Mthi, .Mtlo,
   .MulS, .MulD, .Mult, .Multu, .NegS, .NegD, .Nor, .Or, .RoundLS, .RoundLD,
   .RoundWS, .RoundWD, .Sll, .Sllv, .Slt, .Sltu, .SqrtS, .SqrtD, .Sra, .Srav,
   .Srl, .Srlv, .Sub, .Subu, .SubS, .SubD, .Sync, .Syscall, .Teq, .Tge,
   .Tgeu, .Tlbp, .Tlbr, .Tlbwi, .Tlbwr, .Tlt, .Tltu, .Tne, .TruncLS, .TruncLD,
   .TruncWS, .TruncWD, .Xor, .Abs, .Clear, .Dabs, .Dmove, .Dmul, .Dmulu, .Dmulo,
   .Dmulou, .Dneg, .Dnegu, .Drem, .Dremu, .Drol, .Dror, .Move, .Mul, .Mulu,
   .Mulo, .Mulou, .Neg, .Negu, .Nop, .Not, .Rem, .Remu, .Seq, .Sge,
   .Sgeu, .Sgt, .Sgtu, .Sle, .Sleu, .Sne]

theorem RTypeOp.mem_all (o : RTypeOp) : o ∈ RTypeOp.all := by cases o <;> decide

/-- `str::parse::<RTypeOp>()` (strum `EnumString`, ascii_case_insensitive): first variant whose name matches. -/
def RTypeOp.fromStr (s : Str) : Option RTypeOp := RTypeOp.all.find? fun o => eqIgnoreCase s o.name

end Mips
