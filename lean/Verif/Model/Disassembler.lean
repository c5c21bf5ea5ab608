/-
Model of src/disassembler.rs.  GENERATED by tools/gen_dis.py, arm by arm.
-/
import Verif.Model.Ast

namespace Mips

/-- The fields extracted at src/disassembler.rs:49-57.  The register fields are `Fin 32`: the values
are masked with `0x1F`, so `Register::try_from(..).unwrap()` never fails (that is what `fld` proves). -/
structure Fields where
  op : Word
  rs : Register
  rt : Register
  rd : Register
  sa : Register
  sa32 : Word
  code : Word
  funct : Word
  imm : BitVec 16

/-- `Register::try_from((inst >> k) & 0x1F).unwrap()` -/
def fld (w : Word) (k : Nat) : Register :=
  ⟨((w >>> k) &&& 0x1F#32).toNat, by
    have h : ((w >>> k) &&& 0x1F#32).toNat ≤ 31 := by
      rw [BitVec.toNat_and]; exact Nat.and_le_right
    omega⟩

/-- src/disassembler.rs:49-57, 11 (`$imm as u16`). -/
def fields (w : Word) : Fields where
  op := w >>> 26
  rs := fld w 21
  rt := fld w 16
  rd := fld w 11
  sa := fld w 6
  sa32 := (w >>> 6) &&& 0x1F#32
  code := (w >>> 6) &&& 0xFFFFF#32
  funct := w &&& 0x3F#32
  imm := (w &&& 0xFFFF#32).setWidth 16

/-- `target` (src/disassembler.rs:57). -/
def jumpTarget (base w : Word) : Word :=
  ((w &&& 0x3FFFFFF#32) <<< 2) ||| (base &&& ~~~ 0xFFFFFFF#32)

/-- src/disassembler.rs:60-114 -/
def decodeSpecial (w : Word) (f : Fields) : Instruction :=
  match f.funct.toNat with
  | 0 => .reg .Sll 0 f.rt f.rd f.sa32 [w]
  | 2 => .reg .Srl 0 f.rt f.rd f.sa32 [w]
  | 3 => .reg .Sra 0 f.rt f.rd f.sa32 [w]
  | 4 => .reg .Sllv f.rs f.rt f.rd 0#32 [w]
  | 6 => .reg .Srlv f.rs f.rt f.rd 0#32 [w]
  | 7 => .reg .Srav f.rs f.rt f.rd 0#32 [w]
  | 8 => .reg .Jr f.rs 0 0 0#32 [w]
  | 9 => .reg .Jalr f.rs 0 f.rd 0#32 [w]
  | 12 => .reg .Syscall 0 0 0 f.code [w]
  | 13 => .reg .Break 0 0 0 f.code [w]
  | 15 => .reg .Sync 0 0 0 f.code [w]
  | 16 => .reg .Mfhi 0 0 f.rd 0#32 [w]
  | 17 => .reg .Mthi f.rs 0 0 0#32 [w]
  | 18 => .reg .Mflo 0 0 f.rd 0#32 [w]
  | 19 => .reg .Mtlo f.rs 0 0 0#32 [w]
  | 20 => .reg .Dsllv f.rs f.rt f.rd 0#32 [w]
  | 22 => .reg .Dsrlv f.rs f.rt f.rd 0#32 [w]
  | 23 => .reg .Dsrav f.rs f.rt f.rd 0#32 [w]
  | 24 => .reg .Mult f.rs f.rt 0 0#32 [w]
  | 25 => .reg .Multu f.rs f.rt 0 0#32 [w]
  | 26 => .reg .Div f.rs f.rt 0 0#32 [w]
  | 27 => .reg .Divu f.rs f.rt 0 0#32 [w]
  | 28 => .reg .Dmult f.rs f.rt 0 0#32 [w]
  | 29 => .reg .Dmultu f.rs f.rt 0 0#32 [w]
  | 30 => .reg .Ddiv f.rs f.rt 0 0#32 [w]
  | 31 => .reg .Ddivu f.rs f.rt 0 0#32 [w]
  | 32 => .reg .Add f.rs f.rt f.rd 0#32 [w]
  | 33 => .reg .Addu f.rs f.rt f.rd 0#32 [w]
  | 34 => .reg .Sub f.rs f.rt f.rd 0#32 [w]
  | 35 => .reg .Subu f.rs f.rt f.rd 0#32 [w]
  | 36 => .reg .And f.rs f.rt f.rd 0#32 [w]
  | 37 => .reg .Or f.rs f.rt f.rd 0#32 [w]
  | 38 => .reg .Xor f.rs f.rt f.rd 0#32 [w]
  | 39 => .reg .Nor f.rs f.rt f.rd 0#32 [w]
  | 42 => .reg .Slt f.rs f.rt f.rd 0#32 [w]
  | 43 => .reg .Sltu f.rs f.rt f.rd 0#32 [w]
  | 44 => .reg .Dadd f.rs f.rt f.rd 0#32 [w]
  | 45 => .reg .Daddu f.rs f.rt f.rd 0#32 [w]
  | 46 => .reg .Dsub f.rs f.rt f.rd 0#32 [w]
  | 47 => .reg .Dsubu f.rs f.rt f.rd 0#32 [w]
  | 48 => .reg .Tge f.rs f.rt 0 0#32 [w]
  | 49 => .reg .Tgeu f.rs f.rt 0 0#32 [w]
  | 50 => .reg .Tlt f.rs f.rt 0 0#32 [w]
  | 51 => .reg .Tltu f.rs f.rt 0 0#32 [w]
  | 52 => .reg .Teq f.rs f.rt 0 0#32 [w]
  | 54 => .reg .Tne f.rs f.rt 0 0#32 [w]
  | 56 => .reg .Dsll 0 f.rt f.rd f.sa32 [w]
  | 58 => .reg .Dsrl 0 f.rt f.rd f.sa32 [w]
  | 59 => .reg .Dsra 0 f.rt f.rd f.sa32 [w]
  | 60 => .reg .Dsll32 0 f.rt f.rd f.sa32 [w]
  | 62 => .reg .Dsrl32 0 f.rt f.rd f.sa32 [w]
  | 63 => .reg .Dsra32 0 f.rt f.rd f.sa32 [w]
  | _ => .bytes w

/-- src/disassembler.rs:115-131 -/
def decodeRegimm (w : Word) (f : Fields) : Instruction :=
  match f.rt.val with
  | 0 => .imm .Bltz f.rs 0 (.short f.imm) [w]
  | 1 => .imm .Bgez f.rs 0 (.short f.imm) [w]
  | 2 => .imm .Bltzl f.rs 0 (.short f.imm) [w]
  | 3 => .imm .Bgezl f.rs 0 (.short f.imm) [w]
  | 8 => .imm .Tgei f.rs 0 (.short f.imm) [w]
  | 9 => .imm .Tgeiu f.rs 0 (.short f.imm) [w]
  | 10 => .imm .Tlti f.rs 0 (.short f.imm) [w]
  | 11 => .imm .Tltiu f.rs 0 (.short f.imm) [w]
  | 12 => .imm .Teqi f.rs 0 (.short f.imm) [w]
  | 14 => .imm .Tnei f.rs 0 (.short f.imm) [w]
  | 16 => .imm .Bltzal f.rs 0 (.short f.imm) [w]
  | 17 => .imm .Bgezal f.rs 0 (.short f.imm) [w]
  | 18 => .imm .Bltzall f.rs 0 (.short f.imm) [w]
  | 19 => .imm .Bgezall f.rs 0 (.short f.imm) [w]
  | _ => .bytes w

/-- src/disassembler.rs:157-164 -/
def decodeCop0Co (w : Word) (f : Fields) : Instruction :=
  match f.funct.toNat with
  | 1 => .reg .Tlbr 0 0 0 0#32 [w]
  | 2 => .reg .Tlbwi 0 0 0 0#32 [w]
  | 6 => .reg .Tlbwr 0 0 0 0#32 [w]
  | 8 => .reg .Tlbp 0 0 0 0#32 [w]
  | 24 => .reg .Eret 0 0 0 0#32 [w]
  | _ => .bytes w

/-- src/disassembler.rs:146-165 -/
def decodeCop0 (w : Word) (f : Fields) : Instruction :=
  match f.rs.val, f.rt.val with
  | 0, _ => .reg .Mfc0 0 f.rt f.rd 0#32 [w]
  | 1, _ => .reg .Dmfc0 0 f.rt f.rd 0#32 [w]
  | 2, _ => .reg .Cfc0 0 f.rt f.rd 0#32 [w]
  | 4, _ => .reg .Mtc0 0 f.rt f.rd 0#32 [w]
  | 5, _ => .reg .Dmtc0 0 f.rt f.rd 0#32 [w]
  | 6, _ => .reg .Ctc0 0 f.rt f.rd 0#32 [w]
  | 8, 0 => .imm .Bc0f 0 0 (.short f.imm) [w]
  | 8, 1 => .imm .Bc0t 0 0 (.short f.imm) [w]
  | 8, 2 => .imm .Bc0fl 0 0 (.short f.imm) [w]
  | 8, 3 => .imm .Bc0tl 0 0 (.short f.imm) [w]
  | _, _ => decodeCop0Co w f

/-- src/disassembler.rs:177-199 -/
def decodeCop1S (w : Word) (f : Fields) : Instruction :=
  match f.funct.toNat with
  | 0 => .reg .AddS f.rd f.rt f.sa 0#32 [w]
  | 1 => .reg .SubS f.rd f.rt f.sa 0#32 [w]
  | 2 => .reg .MulS f.rd f.rt f.sa 0#32 [w]
  | 3 => .reg .DivS f.rd f.rt f.sa 0#32 [w]
  | 4 => .reg .SqrtS f.rd 0 f.sa 0#32 [w]
  | 5 => .reg .AbsS f.rd 0 f.sa 0#32 [w]
  | 6 => .reg .MovS f.rd 0 f.sa 0#32 [w]
  | 7 => .reg .NegS f.rd 0 f.sa 0#32 [w]
  | 8 => .reg .RoundLS f.rd 0 f.sa 0#32 [w]
  | 9 => .reg .TruncLS f.rd 0 f.sa 0#32 [w]
  | 10 => .reg .CeilLS f.rd 0 f.sa 0#32 [w]
  | 11 => .reg .FloorLS f.rd 0 f.sa 0#32 [w]
  | 12 => .reg .RoundWS f.rd 0 f.sa 0#32 [w]
  | 13 => .reg .TruncWS f.rd 0 f.sa 0#32 [w]
  | 14 => .reg .CeilWS f.rd 0 f.sa 0#32 [w]
  | 15 => .reg .FloorWS f.rd 0 f.sa 0#32 [w]
  | 33 => .reg .CvtDS f.rd 0 f.sa 0#32 [w]
  | 36 => .reg .CvtWS f.rd 0 f.sa 0#32 [w]
  | 37 => .reg .CvtLS f.rd 0 f.sa 0#32 [w]
  | 48 | 49 | 50 | 51 | 52 | 53 | 54 | 55 | 56 | 57 | 58 | 59 | 60 | 61 | 62 | 63 => .reg .Cs f.rd f.rt 0 (f.funct &&& 0xF#32) [w]
  | _ => .bytes w

/-- src/disassembler.rs:200-222 -/
def decodeCop1D (w : Word) (f : Fields) : Instruction :=
  match f.funct.toNat with
  | 0 => .reg .AddD f.rd f.rt f.sa 0#32 [w]
  | 1 => .reg .SubD f.rd f.rt f.sa 0#32 [w]
  | 2 => .reg .MulD f.rd f.rt f.sa 0#32 [w]
  | 3 => .reg .DivD f.rd f.rt f.sa 0#32 [w]
  | 4 => .reg .SqrtD f.rd 0 f.sa 0#32 [w]
  | 5 => .reg .AbsD f.rd 0 f.sa 0#32 [w]
  | 6 => .reg .MovD f.rd 0 f.sa 0#32 [w]
  | 7 => .reg .NegD f.rd 0 f.sa 0#32 [w]
  | 8 => .reg .RoundLD f.rd 0 f.sa 0#32 [w]
  | 9 => .reg .TruncLD f.rd 0 f.sa 0#32 [w]
  | 10 => .reg .CeilLD f.rd 0 f.sa 0#32 [w]
  | 11 => .reg .FloorLD f.rd 0 f.sa 0#32 [w]
  | 12 => .reg .RoundWD f.rd 0 f.sa 0#32 [w]
  | 13 => .reg .TruncWD f.rd 0 f.sa 0#32 [w]
  | 14 => .reg .CeilWD f.rd 0 f.sa 0#32 [w]
  | 15 => .reg .FloorWD f.rd 0 f.sa 0#32 [w]
  | 32 => .reg .CvtSD f.rd 0 f.sa 0#32 [w]
  | 36 => .reg .CvtWD f.rd 0 f.sa 0#32 [w]
  | 37 => .reg .CvtLD f.rd 0 f.sa 0#32 [w]
  | 48 | 49 | 50 | 51 | 52 | 53 | 54 | 55 | 56 | 57 | 58 | 59 | 60 | 61 | 62 | 63 => .reg .Cd f.rd f.rt 0 (f.funct &&& 0xF#32) [w]
  | _ => .bytes w

/-- src/disassembler.rs:223-227 -/
def decodeCop1W (w : Word) (f : Fields) : Instruction :=
  match f.funct.toNat with
  | 32 => .reg .CvtSW f.rd 0 f.sa 0#32 [w]
  | 33 => .reg .CvtDW f.rd 0 f.sa 0#32 [w]
  | _ => .bytes w

/-- src/disassembler.rs:228-232 -/
def decodeCop1L (w : Word) (f : Fields) : Instruction :=
  match f.funct.toNat with
  | 32 => .reg .CvtSL f.rd 0 f.sa 0#32 [w]
  | 33 => .reg .CvtDL f.rd 0 f.sa 0#32 [w]
  | _ => .bytes w

/-- src/disassembler.rs:166-234 -/
def decodeCop1 (w : Word) (f : Fields) : Instruction :=
  match f.rs.val, f.rt.val with
  | 0, _ => .reg .Mfc1 0 f.rt f.rd 0#32 [w]
  | 1, _ => .reg .Dmfc1 0 f.rt f.rd 0#32 [w]
  | 2, _ => .reg .Cfc1 0 f.rt f.rd 0#32 [w]
  | 4, _ => .reg .Mtc1 0 f.rt f.rd 0#32 [w]
  | 5, _ => .reg .Dmtc1 0 f.rt f.rd 0#32 [w]
  | 6, _ => .reg .Ctc1 0 f.rt f.rd 0#32 [w]
  | 8, 0 => .imm .Bc1f 0 0 (.short f.imm) [w]
  | 8, 1 => .imm .Bc1t 0 0 (.short f.imm) [w]
  | 8, 2 => .imm .Bc1fl 0 0 (.short f.imm) [w]
  | 8, 3 => .imm .Bc1tl 0 0 (.short f.imm) [w]
  | 16, _ => decodeCop1S w f
  | 17, _ => decodeCop1D w f
  | 20, _ => decodeCop1W w f
  | 21, _ => decodeCop1L w f
  | _, _ => .bytes w

/-- src/disassembler.rs:59-270 -/
def decode (base w : Word) : Instruction :=
  let f := fields w
  match f.op.toNat with
  | 0 => decodeSpecial w f
  | 1 => decodeRegimm w f
  | 2 => .jump .J (.address (jumpTarget base w)) [w]
  | 3 => .jump .Jal (.address (jumpTarget base w)) [w]
  | 4 => .imm .Beq f.rs f.rt (.short f.imm) [w]
  | 5 => .imm .Bne f.rs f.rt (.short f.imm) [w]
  | 6 => .imm .Blez f.rs f.rt (.short f.imm) [w]
  | 7 => .imm .Bgtz f.rs f.rt (.short f.imm) [w]
  | 8 => .imm .Addi f.rs f.rt (.short f.imm) [w]
  | 9 => .imm .Addiu f.rs f.rt (.short f.imm) [w]
  | 10 => .imm .Slti f.rs f.rt (.short f.imm) [w]
  | 11 => .imm .Sltiu f.rs f.rt (.short f.imm) [w]
  | 12 => .imm .Andi f.rs f.rt (.short f.imm) [w]
  | 13 => .imm .Ori f.rs f.rt (.short f.imm) [w]
  | 14 => .imm .Xori f.rs f.rt (.short f.imm) [w]
  | 15 => .imm .Lui f.rs f.rt (.short f.imm) [w]
  | 16 => decodeCop0 w f
  | 17 => decodeCop1 w f
  | 20 => .imm .Beql f.rs f.rt (.short f.imm) [w]
  | 21 => .imm .Bnel f.rs f.rt (.short f.imm) [w]
  | 22 => .imm .Blezl f.rs f.rt (.short f.imm) [w]
  | 23 => .imm .Bgtzl f.rs f.rt (.short f.imm) [w]
  | 24 => .imm .Daddi f.rs f.rt (.short f.imm) [w]
  | 25 => .imm .Daddiu f.rs f.rt (.short f.imm) [w]
  | 26 => .imm .Ldl f.rs f.rt (.short f.imm) [w]
  | 27 => .imm .Ldr f.rs f.rt (.short f.imm) [w]
  | 32 => .imm .Lb f.rs f.rt (.short f.imm) [w]
  | 33 => .imm .Lh f.rs f.rt (.short f.imm) [w]
  | 34 => .imm .Lwl f.rs f.rt (.short f.imm) [w]
  | 35 => .imm .Lw f.rs f.rt (.short f.imm) [w]
  | 36 => .imm .Lbu f.rs f.rt (.short f.imm) [w]
  | 37 => .imm .Lhu f.rs f.rt (.short f.imm) [w]
  | 38 => .imm .Lwr f.rs f.rt (.short f.imm) [w]
  | 39 => .imm .Lwu f.rs f.rt (.short f.imm) [w]
  | 40 => .imm .Sb f.rs f.rt (.short f.imm) [w]
  | 41 => .imm .Sh f.rs f.rt (.short f.imm) [w]
  | 42 => .imm .Swl f.rs f.rt (.short f.imm) [w]
  | 43 => .imm .Sw f.rs f.rt (.short f.imm) [w]
  | 44 => .imm .Sdl f.rs f.rt (.short f.imm) [w]
  | 45 => .imm .Sdr f.rs f.rt (.short f.imm) [w]
  | 46 => .imm .Swr f.rs f.rt (.short f.imm) [w]
  | 47 => .imm .Cache f.rs f.rt (.short f.imm) [w]
  | 48 => .imm .Ll f.rs f.rt (.short f.imm) [w]
  | 49 => .imm .Lwc1 f.rs f.rt (.short f.imm) [w]
  | 52 => .imm .Lld f.rs f.rt (.short f.imm) [w]
  | 53 => .imm .Ldc1 f.rs f.rt (.short f.imm) [w]
  | 55 => .imm .Ld f.rs f.rt (.short f.imm) [w]
  | 56 => .imm .Sc f.rs f.rt (.short f.imm) [w]
  | 57 => .imm .Swc1 f.rs f.rt (.short f.imm) [w]
  | 60 => .imm .Scd f.rs f.rt (.short f.imm) [w]
  | 61 => .imm .Sdc1 f.rs f.rt (.short f.imm) [w]
  | 63 => .imm .Sd f.rs f.rt (.short f.imm) [w]
  | _ => .bytes w

/-- `disassembler::disassemble` (src/disassembler.rs:45-275). -/
def disassembleWords (ws : List Word) (base : Word) : List Instruction := ws.map (decode base)

end Mips
