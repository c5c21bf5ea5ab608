/-
Model of src/assembler.rs.  GENERATED by tools/gen_asm.py: every arm is a token-by-token
translation of the Rust arm at the cited line (`<<` to `<<<`, `|` to `|||`, `&` to `&&&`;
Rust and Lean agree on their relative precedence).  `rs rt rd` stand for `x.as_num()`, `i` for
`imm.as_u32()`, `l` for `imm.as_u64()`, `t` for `target.as_u32()`, `sa` for `*sa`.
-/
import Verif.Model.Ast

namespace Mips

/-- `imm.as_u32() - 1` (src/assembler.rs:33 etc.): panics on 0 when overflow checks are on (`ovf`),
wraps otherwise. -/
def subOne (ovf : Bool) (i : Word) : Option Word :=
  if i = 0#32 ∧ ovf = true then none else some (i - 1#32)

/-- `I::Li` (src/assembler.rs:132-157). -/
def encLi (rt i : Word) : List Word :=
  if i &&& 0xFFFF#32 = i then [0b001101#32 <<< 26 ||| rt <<< 16 ||| i]
  else if i &&& 0xFFFF#32 = 0#32 then [0b001111#32 <<< 26 ||| rt <<< 16 ||| i >>> 16]
  else if i &&& 0xFFFF8000#32 = 0xFFFF8000#32 then
    [0b001111#32 <<< 26 ||| rt <<< 16 ||| i >>> 16,
     0b001001#32 <<< 26 ||| rt <<< 21 ||| rt <<< 16 ||| i &&& 0xFFFF#32]
  else
    [0b001111#32 <<< 26 ||| rt <<< 16 ||| i >>> 16,
     0b001101#32 <<< 26 ||| rt <<< 21 ||| rt <<< 16 ||| i &&& 0xFFFF#32]

/-- `I::Liu` (src/assembler.rs:158-176). -/
def encLiu (rt i : Word) : List Word :=
  if i &&& 0xFFFF#32 = i then [0b001101#32 <<< 26 ||| rt <<< 16 ||| i]
  else if i &&& 0xFFFF#32 = 0#32 then [0b001111#32 <<< 26 ||| rt <<< 16 ||| i >>> 16]
  else
    [0b001111#32 <<< 26 ||| rt <<< 16 ||| i >>> 16,
     0b001101#32 <<< 26 ||| rt <<< 21 ||| rt <<< 16 ||| i &&& 0xFFFF#32]

/-- The `Immediate` arms (src/assembler.rs:13-209); `none` is a panic. -/
def encI (ovf : Bool) (op : ITypeOp) (rs rt i : Word) (l : BitVec 64) : Option (List Word) :=
  match op with
  | .Addi => some [0b001000#32 <<< 26 ||| rs <<< 21 ||| rt <<< 16 ||| i]
  | .Addiu => some [0b001001#32 <<< 26 ||| rs <<< 21 ||| rt <<< 16 ||| i]
  | .Andi => some [0b001100#32 <<< 26 ||| rs <<< 21 ||| rt <<< 16 ||| i]
  | .B => some [0b000100#32 <<< 26 ||| i]
  | .Bal => some [0b000001#32 <<< 26 ||| 0b10001#32 <<< 16 ||| i]
  | .Bc0f => some [0b010000#32 <<< 26 ||| 0b01000#32 <<< 21 ||| i]
  | .Bc0fl => some [0b010000#32 <<< 26 ||| 0b01000#32 <<< 21 ||| 0b00010#32 <<< 16 ||| i]
  | .Bc0t => some [0b010000#32 <<< 26 ||| 0b01000#32 <<< 21 ||| 0b00001#32 <<< 16 ||| i]
  | .Bc0tl => some [0b010000#32 <<< 26 ||| 0b01000#32 <<< 21 ||| 0b00011#32 <<< 16 ||| i]
  | .Bc1f => some [0b010001#32 <<< 26 ||| 0b01000#32 <<< 21 ||| i]
  | .Bc1fl => some [0b010001#32 <<< 26 ||| 0b01000#32 <<< 21 ||| 0b00010#32 <<< 16 ||| i]
  | .Bc1t => some [0b010001#32 <<< 26 ||| 0b01000#32 <<< 21 ||| 0b00001#32 <<< 16 ||| i]
  | .Bc1tl => some [0b010001#32 <<< 26 ||| 0b01000#32 <<< 21 ||| 0b00011#32 <<< 16 ||| i]
  | .Beq => some [0b000100#32 <<< 26 ||| rs <<< 21 ||| rt <<< 16 ||| i]
  | .Beql => some [0b010100#32 <<< 26 ||| rs <<< 21 ||| rt <<< 16 ||| i]
  | .Beqz => some [0b000100#32 <<< 26 ||| rs <<< 21 ||| i]
  | .Beqzl => some [0b010100#32 <<< 26 ||| rs <<< 21 ||| i]
  | .Bge => (subOne ovf i).map fun i1 => [rs <<< 21 ||| rt <<< 16 ||| 0b000001#32 <<< 11 ||| 0b101010#32, 0b000100#32 <<< 26 ||| 0b000001#32 <<< 21 ||| i1]
  | .Bgel => (subOne ovf i).map fun i1 => [rs <<< 21 ||| rt <<< 16 ||| 0b000001#32 <<< 11 ||| 0b101010#32, 0b010100#32 <<< 26 ||| 0b000001#32 <<< 21 ||| i1]
  | .Bgeu => (subOne ovf i).map fun i1 => [rs <<< 21 ||| rt <<< 16 ||| 0b000001#32 <<< 11 ||| 0b101011#32, 0b000100#32 <<< 26 ||| 0b000001#32 <<< 21 ||| i1]
  | .Bgeul => (subOne ovf i).map fun i1 => [rs <<< 21 ||| rt <<< 16 ||| 0b000001#32 <<< 11 ||| 0b101011#32, 0b010100#32 <<< 26 ||| 0b000001#32 <<< 21 ||| i1]
  | .Bgez => some [0b000001#32 <<< 26 ||| rs <<< 21 ||| 0b00001#32 <<< 16 ||| i]
  | .Bgezal => some [0b000001#32 <<< 26 ||| rs <<< 21 ||| 0b10001#32 <<< 16 ||| i]
  | .Bgezall => some [0b000001#32 <<< 26 ||| rs <<< 21 ||| 0b10011#32 <<< 16 ||| i]
  | .Bgezl => some [0b000001#32 <<< 26 ||| rs <<< 21 ||| 0b00011#32 <<< 16 ||| i]
  | .Bgt => (subOne ovf i).map fun i1 => [rt <<< 21 ||| rs <<< 16 ||| 0b000001#32 <<< 11 ||| 0b101010#32, 0b000101#32 <<< 26 ||| 0b000001#32 <<< 21 ||| i1]
  | .Bgtl => (subOne ovf i).map fun i1 => [rt <<< 21 ||| rs <<< 16 ||| 0b000001#32 <<< 11 ||| 0b101010#32, 0b010101#32 <<< 26 ||| 0b000001#32 <<< 21 ||| i1]
  | .Bgtu => (subOne ovf i).map fun i1 => [rt <<< 21 ||| rs <<< 16 ||| 0b000001#32 <<< 11 ||| 0b101011#32, 0b000101#32 <<< 26 ||| 0b000001#32 <<< 21 ||| i1]
  | .Bgtul => (subOne ovf i).map fun i1 => [rt <<< 21 ||| rs <<< 16 ||| 0b000001#32 <<< 11 ||| 0b101011#32, 0b010101#32 <<< 26 ||| 0b000001#32 <<< 21 ||| i1]
  | .Bgtz => some [0b000111#32 <<< 26 ||| rs <<< 21 ||| i]
  | .Bgtzl => some [0b010111#32 <<< 26 ||| rs <<< 21 ||| i]
  | .Ble => (subOne ovf i).map fun i1 => [rt <<< 21 ||| rs <<< 16 ||| 0b000001#32 <<< 11 ||| 0b101010#32, 0b000100#32 <<< 26 ||| 0b000001#32 <<< 21 ||| i1]
  | .Blel => (subOne ovf i).map fun i1 => [rt <<< 21 ||| rs <<< 16 ||| 0b000001#32 <<< 11 ||| 0b101010#32, 0b010100#32 <<< 26 ||| 0b000001#32 <<< 21 ||| i1]
  | .Bleu => (subOne ovf i).map fun i1 => [rt <<< 21 ||| rs <<< 16 ||| 0b000001#32 <<< 11 ||| 0b101011#32, 0b000100#32 <<< 26 ||| 0b000001#32 <<< 21 ||| i1]
  | .Bleul => (subOne ovf i).map fun i1 => [rt <<< 21 ||| rs <<< 16 ||| 0b000001#32 <<< 11 ||| 0b101011#32, 0b010100#32 <<< 26 ||| 0b000001#32 <<< 21 ||| i1]
  | .Blez => some [0b000110#32 <<< 26 ||| rs <<< 21 ||| i]
  | .Blezl => some [0b010110#32 <<< 26 ||| rs <<< 21 ||| i]
  | .Blt => (subOne ovf i).map fun i1 => [rs <<< 21 ||| rt <<< 16 ||| 0b000001#32 <<< 11 ||| 0b101010#32, 0b000101#32 <<< 26 ||| 0b000001#32 <<< 21 ||| i1]
  | .Bltl => (subOne ovf i).map fun i1 => [rs <<< 21 ||| rt <<< 16 ||| 0b000001#32 <<< 11 ||| 0b101010#32, 0b010101#32 <<< 26 ||| 0b000001#32 <<< 21 ||| i1]
  | .Bltu => (subOne ovf i).map fun i1 => [rs <<< 21 ||| rt <<< 16 ||| 0b000001#32 <<< 11 ||| 0b101011#32, 0b000101#32 <<< 26 ||| 0b000001#32 <<< 21 ||| i1]
  | .Bltul => (subOne ovf i).map fun i1 => [rs <<< 21 ||| rt <<< 16 ||| 0b000001#32 <<< 11 ||| 0b101011#32, 0b010101#32 <<< 26 ||| 0b000001#32 <<< 21 ||| i1]
  | .Bltz => some [0b000001#32 <<< 26 ||| rs <<< 21 ||| i]
  | .Bltzal => some [0b000001#32 <<< 26 ||| rs <<< 21 ||| 0b10000#32 <<< 16 ||| i]
  | .Bltzall => some [0b000001#32 <<< 26 ||| rs <<< 21 ||| 0b10010#32 <<< 16 ||| i]
  | .Bltzl => some [0b000001#32 <<< 26 ||| rs <<< 21 ||| 0b00010#32 <<< 16 ||| i]
  | .Bne => some [0b000101#32 <<< 26 ||| rs <<< 21 ||| rt <<< 16 ||| i]
  | .Bnel => some [0b010101#32 <<< 26 ||| rs <<< 21 ||| rt <<< 16 ||| i]
  | .Bnez => some [0b000101#32 <<< 26 ||| rs <<< 21 ||| i]
  | .Bnezl => some [0b010101#32 <<< 26 ||| rs <<< 21 ||| i]
  | .Cache => some [0b101111#32 <<< 26 ||| rs <<< 21 ||| rt <<< 16 ||| i]
  | .Daddi => some [0b011000#32 <<< 26 ||| rs <<< 21 ||| rt <<< 16 ||| i]
  | .Daddiu => some [0b011001#32 <<< 26 ||| rs <<< 21 ||| rt <<< 16 ||| i]
  | .Dli => some [0b001111#32 <<< 26 ||| rt <<< 16 ||| (l >>> 48).setWidth 32, 0b001101#32 <<< 26 ||| rt <<< 21 ||| rt <<< 16 ||| ((l >>> 32) &&& 0xFFFF#64).setWidth 32, rt <<< 16 ||| rt <<< 11 ||| 16#32 <<< 6 ||| 0b111000#32, 0b001101#32 <<< 26 ||| rt <<< 21 ||| rt <<< 16 ||| ((l >>> 16) &&& 0xFFFF#64).setWidth 32, rt <<< 16 ||| rt <<< 11 ||| 16#32 <<< 6 ||| 0b111000#32, 0b001101#32 <<< 26 ||| rt <<< 21 ||| rt <<< 16 ||| (l &&& 0xFFFF#64).setWidth 32]
  | .Dsubi => some [0b011000#32 <<< 26 ||| rs <<< 21 ||| rt <<< 16 ||| (-i) &&& 0xFFFF#32]
  | .Dsubiu => some [0b011001#32 <<< 26 ||| rs <<< 21 ||| rt <<< 16 ||| (-i) &&& 0xFFFF#32]
  | .Lb => some [0b100000#32 <<< 26 ||| rs <<< 21 ||| rt <<< 16 ||| i]
  | .Lbu => some [0b100100#32 <<< 26 ||| rs <<< 21 ||| rt <<< 16 ||| i]
  | .Ld => some [0b110111#32 <<< 26 ||| rs <<< 21 ||| rt <<< 16 ||| i]
  | .Ldc1 => some [0b110101#32 <<< 26 ||| rs <<< 21 ||| rt <<< 16 ||| i]
  | .Ldl => some [0b011010#32 <<< 26 ||| rs <<< 21 ||| rt <<< 16 ||| i]
  | .Ldr => some [0b011011#32 <<< 26 ||| rs <<< 21 ||| rt <<< 16 ||| i]
  | .Lh => some [0b100001#32 <<< 26 ||| rs <<< 21 ||| rt <<< 16 ||| i]
  | .Lhu => some [0b100101#32 <<< 26 ||| rs <<< 21 ||| rt <<< 16 ||| i]
  | .Li => some (encLi rt i)
  | .Liu => some (encLiu rt i)
  | .Ll => some [0b110000#32 <<< 26 ||| rs <<< 21 ||| rt <<< 16 ||| i]
  | .Lld => some [0b110100#32 <<< 26 ||| rs <<< 21 ||| rt <<< 16 ||| i]
  | .Lli => some [0b001101#32 <<< 26 ||| rt <<< 16 ||| i]
  | .Lui => some [0b001111#32 <<< 26 ||| rt <<< 16 ||| i]
  | .Lw => some [0b100011#32 <<< 26 ||| rs <<< 21 ||| rt <<< 16 ||| i]
  | .Lwc1 => some [0b110001#32 <<< 26 ||| rs <<< 21 ||| rt <<< 16 ||| i]
  | .Lwl => some [0b100010#32 <<< 26 ||| rs <<< 21 ||| rt <<< 16 ||| i]
  | .Lwr => some [0b100110#32 <<< 26 ||| rs <<< 21 ||| rt <<< 16 ||| i]
  | .Lwu => some [0b100111#32 <<< 26 ||| rs <<< 21 ||| rt <<< 16 ||| i]
  | .Ori => some [0b001101#32 <<< 26 ||| rs <<< 21 ||| rt <<< 16 ||| i]
  | .Sb => some [0b101000#32 <<< 26 ||| rs <<< 21 ||| rt <<< 16 ||| i]
  | .Sc => some [0b111000#32 <<< 26 ||| rs <<< 21 ||| rt <<< 16 ||| i]
  | .Scd => some [0b111100#32 <<< 26 ||| rs <<< 21 ||| rt <<< 16 ||| i]
  | .Sd => some [0b111111#32 <<< 26 ||| rs <<< 21 ||| rt <<< 16 ||| i]
  | .Sdc1 => some [0b111101#32 <<< 26 ||| rs <<< 21 ||| rt <<< 16 ||| i]
  | .Sdl => some [0b101100#32 <<< 26 ||| rs <<< 21 ||| rt <<< 16 ||| i]
  | .Sdr => some [0b101101#32 <<< 26 ||| rs <<< 21 ||| rt <<< 16 ||| i]
  | .Sh => some [0b101001#32 <<< 26 ||| rs <<< 21 ||| rt <<< 16 ||| i]
  | .Slti => some [0b001010#32 <<< 26 ||| rs <<< 21 ||| rt <<< 16 ||| i]
  | .Sltiu => some [0b001011#32 <<< 26 ||| rs <<< 21 ||| rt <<< 16 ||| i]
  | .Subi => some [0b001000#32 <<< 26 ||| rs <<< 21 ||| rt <<< 16 ||| (-i) &&& 0xFFFF#32]
  | .Subiu => some [0b001001#32 <<< 26 ||| rs <<< 21 ||| rt <<< 16 ||| (-i) &&& 0xFFFF#32]
  | .Sw => some [0b101011#32 <<< 26 ||| rs <<< 21 ||| rt <<< 16 ||| i]
  | .Swc1 => some [0b111001#32 <<< 26 ||| rs <<< 21 ||| rt <<< 16 ||| i]
  | .Swl => some [0b101010#32 <<< 26 ||| rs <<< 21 ||| rt <<< 16 ||| i]
  | .Swr => some [0b101110#32 <<< 26 ||| rs <<< 21 ||| rt <<< 16 ||| i]
  | .Teqi => some [0b000001#32 <<< 26 ||| rs <<< 21 ||| 0b01100#32 <<< 16 ||| i]
  | .Tgei => some [0b000001#32 <<< 26 ||| rs <<< 21 ||| 0b01000#32 <<< 16 ||| i]
  | .Tgeiu => some [0b000001#32 <<< 26 ||| rs <<< 21 ||| 0b01001#32 <<< 16 ||| i]
  | .Tlti => some [0b000001#32 <<< 26 ||| rs <<< 21 ||| 0b01010#32 <<< 16 ||| i]
  | .Tltiu => some [0b000001#32 <<< 26 ||| rs <<< 21 ||| 0b01011#32 <<< 16 ||| i]
  | .Tnei => some [0b000001#32 <<< 26 ||| rs <<< 21 ||| 0b01110#32 <<< 16 ||| i]
  | .Xori => some [0b001110#32 <<< 26 ||| rs <<< 21 ||| rt <<< 16 ||| i]

/-- The `Jump` arms (src/assembler.rs:212-213). -/
def encJ (op : JTypeOp) (t : Word) : List Word :=
  match op with
  | .J => [0b000010#32 <<< 26 ||| (t &&& 0x3FFFFFF#32) >>> 2]
  | .Jal => [0b000011#32 <<< 26 ||| (t &&& 0x3FFFFFF#32) >>> 2]

/-- The `Register` arms (src/assembler.rs:216-498). -/
def encR (op : RTypeOp) (rs rt rd sa : Word) : List Word :=
  match op with
  | .Abs => [rs <<< 16 ||| 0b000001#32 <<< 11 ||| 31#32 <<< 6 ||| 0b000011#32, rs <<< 21 ||| 0b000001#32 <<< 16 ||| rd <<< 11 ||| 0b100110#32, rd <<< 21 ||| 0b000001#32 <<< 16 ||| rd <<< 11 ||| 0b100011#32]
  | .AbsS => [0b010001#32 <<< 26 ||| 0b10000#32 <<< 21 ||| rs <<< 11 ||| rd <<< 6 ||| 0b000101#32]
  | .AbsD => [0b010001#32 <<< 26 ||| 0b10001#32 <<< 21 ||| rs <<< 11 ||| rd <<< 6 ||| 0b000101#32]
  | .Add => [rs <<< 21 ||| rt <<< 16 ||| rd <<< 11 ||| 0b100000#32]
  | .Addu => [rs <<< 21 ||| rt <<< 16 ||| rd <<< 11 ||| 0b100001#32]
  | .AddS => [0b010001#32 <<< 26 ||| 0b10000#32 <<< 21 ||| rt <<< 16 ||| rs <<< 11 ||| rd <<< 6]
  | .AddD => [0b010001#32 <<< 26 ||| 0b10001#32 <<< 21 ||| rt <<< 16 ||| rs <<< 11 ||| rd <<< 6]
  | .And => [rs <<< 21 ||| rt <<< 16 ||| rd <<< 11 ||| 0b100100#32]
  | .Break => [sa <<< 6 ||| 0b001101#32]
  | .Clear => [rd <<< 11 ||| 0b100001#32]
  | .Cs => [0b010001#32 <<< 26 ||| 0b10000#32 <<< 21 ||| rt <<< 16 ||| rs <<< 11 ||| 0b0000011#32 <<< 4 ||| sa]
  | .Cd => [0b010001#32 <<< 26 ||| 0b10001#32 <<< 21 ||| rt <<< 16 ||| rs <<< 11 ||| 0b0000011#32 <<< 4 ||| sa]
  | .CeilLS => [0b010001#32 <<< 26 ||| 0b10000#32 <<< 21 ||| rs <<< 11 ||| rd <<< 6 ||| 0b001010#32]
  | .CeilLD => [0b010001#32 <<< 26 ||| 0b10001#32 <<< 21 ||| rs <<< 11 ||| rd <<< 6 ||| 0b001010#32]
  | .CeilWS => [0b010001#32 <<< 26 ||| 0b10000#32 <<< 21 ||| rs <<< 11 ||| rd <<< 6 ||| 0b001110#32]
  | .CeilWD => [0b010001#32 <<< 26 ||| 0b10001#32 <<< 21 ||| rs <<< 11 ||| rd <<< 6 ||| 0b001110#32]
  | .Cfc0 => [0b010000#32 <<< 26 ||| 0b00010#32 <<< 21 ||| rt <<< 16 ||| rd <<< 11]
  | .Cfc1 => [0b010001#32 <<< 26 ||| 0b00010#32 <<< 21 ||| rt <<< 16 ||| rd <<< 11]
  | .Ctc0 => [0b010000#32 <<< 26 ||| 0b00110#32 <<< 21 ||| rt <<< 16 ||| rd <<< 11]
  | .Ctc1 => [0b010001#32 <<< 26 ||| 0b00110#32 <<< 21 ||| rt <<< 16 ||| rd <<< 11]
  | .CvtDS => [0b010001#32 <<< 26 ||| 0b10000#32 <<< 21 ||| rs <<< 11 ||| rd <<< 6 ||| 0b100001#32]
  | .CvtDW => [0b010001#32 <<< 26 ||| 0b10100#32 <<< 21 ||| rs <<< 11 ||| rd <<< 6 ||| 0b100001#32]
  | .CvtDL => [0b010001#32 <<< 26 ||| 0b10101#32 <<< 21 ||| rs <<< 11 ||| rd <<< 6 ||| 0b100001#32]
  | .CvtLS => [0b010001#32 <<< 26 ||| 0b10000#32 <<< 21 ||| rs <<< 11 ||| rd <<< 6 ||| 0b100101#32]
  | .CvtLD => [0b010001#32 <<< 26 ||| 0b10001#32 <<< 21 ||| rs <<< 11 ||| rd <<< 6 ||| 0b100101#32]
  | .CvtSD => [0b010001#32 <<< 26 ||| 0b10001#32 <<< 21 ||| rs <<< 11 ||| rd <<< 6 ||| 0b100000#32]
  | .CvtSW => [0b010001#32 <<< 26 ||| 0b10100#32 <<< 21 ||| rs <<< 11 ||| rd <<< 6 ||| 0b100000#32]
  | .CvtSL => [0b010001#32 <<< 26 ||| 0b10101#32 <<< 21 ||| rs <<< 11 ||| rd <<< 6 ||| 0b100000#32]
  | .CvtWS => [0b010001#32 <<< 26 ||| 0b10000#32 <<< 21 ||| rs <<< 11 ||| rd <<< 6 ||| 0b100100#32]
  | .CvtWD => [0b010001#32 <<< 26 ||| 0b10001#32 <<< 21 ||| rs <<< 11 ||| rd <<< 6 ||| 0b100100#32]
  | .Dabs => [rs <<< 16 ||| 0b000001#32 <<< 11 ||| 31#32 <<< 6 ||| 0b111011#32, rs <<< 21 ||| 0b000001#32 <<< 16 ||| rd <<< 11 ||| 0b100110#32, rd <<< 21 ||| 0b000001#32 <<< 16 ||| rd <<< 11 ||| 0b101110#32]
  | .Dadd => [rs <<< 21 ||| rt <<< 16 ||| rd <<< 11 ||| 0b101100#32]
  | .Daddu => [rs <<< 21 ||| rt <<< 16 ||| rd <<< 11 ||| 0b101101#32]
  | .Ddiv => if rt = 0#32 then [rd <<< 21 ||| rs <<< 16 ||| 0b011110#32]
      else [rt <<< 21 ||| 7#32 <<< 6 ||| 0b110100#32, rs <<< 21 ||| rt <<< 16 ||| 0b011110#32, 0b011001#32 <<< 26 ||| 0b000001#32 <<< 16 ||| 0xFFFF#32, 0b000101#32 <<< 26 ||| rt <<< 21 ||| 0b000001#32 <<< 16 ||| 4#32, 0b011001#32 <<< 26 ||| 0b000001#32 <<< 16 ||| 1#32, 0b000001#32 <<< 16 ||| 0b000001#32 <<< 11 ||| 31#32 <<< 6 ||| 0b111100#32, rs <<< 21 ||| 0b000001#32 <<< 16 ||| 6#32 <<< 6 ||| 0b110100#32, rd <<< 11 ||| 0b010010#32]
  | .Ddivu => if rt = 0#32 then [rd <<< 21 ||| rs <<< 16 ||| 0b011111#32]
      else [rt <<< 21 ||| 7#32 <<< 6 ||| 0b110100#32, rs <<< 21 ||| rt <<< 16 ||| 0b011111#32, rd <<< 11 ||| 0b010010#32]
  | .Div => if rt = 0#32 then [rd <<< 21 ||| rs <<< 16 ||| 0b011010#32]
      else [rt <<< 21 ||| 7#32 <<< 6 ||| 0b110100#32, rs <<< 21 ||| rt <<< 16 ||| 0b011010#32, 0b001111#32 <<< 26 ||| 0b000001#32 <<< 16 ||| 0xFFFF#32, 0b001101#32 <<< 26 ||| 0b000001#32 <<< 21 ||| 0b000001#32 <<< 16 ||| 0xFFFF#32, 0b000101#32 <<< 26 ||| rt <<< 21 ||| 0b000001#32 <<< 16 ||| 3#32, 0b001111#32 <<< 26 ||| 0b000001#32 <<< 16 ||| 0x8000#32, rs <<< 21 ||| 0b000001#32 <<< 16 ||| 6#32 <<< 6 ||| 0b110100#32, rd <<< 11 ||| 0b010010#32]
  | .Divu => if rt = 0#32 then [rd <<< 21 ||| rs <<< 16 ||| 0b011011#32]
      else [rt <<< 21 ||| 7#32 <<< 6 ||| 0b110100#32, rs <<< 21 ||| rt <<< 16 ||| 0b011011#32, rd <<< 11 ||| 0b010010#32]
  | .DivS => [0b010001#32 <<< 26 ||| 0b10000#32 <<< 21 ||| rt <<< 16 ||| rs <<< 11 ||| rd <<< 6 ||| 0b000011#32]
  | .DivD => [0b010001#32 <<< 26 ||| 0b10001#32 <<< 21 ||| rt <<< 16 ||| rs <<< 11 ||| rd <<< 6 ||| 0b000011#32]
  | .Dmfc0 => [0b010000#32 <<< 26 ||| 0b00001#32 <<< 21 ||| rt <<< 16 ||| rd <<< 11]
  | .Dmfc1 => [0b010001#32 <<< 26 ||| 0b00001#32 <<< 21 ||| rt <<< 16 ||| rd <<< 11]
  | .Dmove => [rs <<< 21 ||| rd <<< 11 ||| 0b101101#32]
  | .Dmtc0 => [0b010000#32 <<< 26 ||| 0b00101#32 <<< 21 ||| rt <<< 16 ||| rd <<< 11]
  | .Dmtc1 => [0b010001#32 <<< 26 ||| 0b00101#32 <<< 21 ||| rt <<< 16 ||| rd <<< 11]
  | .Dmul => [rs <<< 21 ||| rt <<< 16 ||| 0b011100#32, rd <<< 11 ||| 0b010010#32]
  | .Dmulo => [rs <<< 21 ||| rt <<< 16 ||| 0b011100#32, rd <<< 11 ||| 0b010010#32, rd <<< 16 ||| rd <<< 11 ||| 31#32 <<< 6 ||| 0b111111#32, 0b000001#32 <<< 11 ||| 0b010000#32, rd <<< 21 ||| 0b000001#32 <<< 16 ||| 6#32 <<< 6 ||| 0b110110#32, rd <<< 11 ||| 0b010010#32]
  | .Dmulou => [rs <<< 21 ||| rt <<< 16 ||| 0b011101#32, 0b000001#32 <<< 11 ||| 0b010000#32, rd <<< 11 ||| 0b010010#32, 0b000001#32 <<< 21 ||| 6#32 <<< 6 ||| 0b110110#32]
  | .Dmult => [rs <<< 21 ||| rt <<< 16 ||| 0b011100#32]
  | .Dmulu => [rs <<< 21 ||| rt <<< 16 ||| 0b011101#32, rd <<< 11 ||| 0b010010#32]
  | .Dmultu => [rs <<< 21 ||| rt <<< 16 ||| 0b011101#32]
  | .Dneg => [rs <<< 16 ||| rd <<< 11 ||| 0b101110#32]
  | .Dnegu => [rs <<< 16 ||| rd <<< 11 ||| 0b101111#32]
  | .Drem => [rt <<< 21 ||| 7#32 <<< 6 ||| 0b110100#32, rs <<< 21 ||| rt <<< 16 ||| 0b011110#32, 0b011001#32 <<< 26 ||| 0b000001#32 <<< 16 ||| 0xFFFF#32, 0b000101#32 <<< 26 ||| rt <<< 21 ||| 0b000001#32 <<< 16 ||| 4#32, 0b011001#32 <<< 26 ||| 0b000001#32 <<< 16 ||| 1#32, 0b000001#32 <<< 16 ||| 0b000001#32 <<< 11 ||| 31#32 <<< 6 ||| 0b111100#32, rs <<< 21 ||| 0b000001#32 <<< 16 ||| 6#32 <<< 6 ||| 0b110100#32, rd <<< 11 ||| 0b010000#32]
  | .Dremu => [rt <<< 21 ||| 7#32 <<< 6 ||| 0b110100#32, rs <<< 21 ||| rt <<< 16 ||| 0b011111#32, rd <<< 11 ||| 0b010000#32]
  | .Drol => [rt <<< 16 ||| 0b000001#32 <<< 11 ||| 0b101111#32, 0b000001#32 <<< 21 ||| rs <<< 16 ||| 0b000001#32 <<< 11 ||| 0b010110#32, rt <<< 21 ||| rs <<< 16 ||| rd <<< 11 ||| 0b010100#32, rd <<< 21 ||| 0b000001#32 <<< 16 ||| rd <<< 11 ||| 0b100101#32]
  | .Dror => [rt <<< 16 ||| 0b000001#32 <<< 11 ||| 0b101111#32, 0b000001#32 <<< 21 ||| rs <<< 16 ||| 0b000001#32 <<< 11 ||| 0b010100#32, rt <<< 21 ||| rs <<< 16 ||| rd <<< 11 ||| 0b010110#32, rd <<< 21 ||| 0b000001#32 <<< 16 ||| rd <<< 11 ||| 0b100101#32]
  | .Dsll => [rt <<< 16 ||| rd <<< 11 ||| sa <<< 6 ||| 0b111000#32]
  | .Dsll32 => [rt <<< 16 ||| rd <<< 11 ||| sa <<< 6 ||| 0b111100#32]
  | .Dsllv => [rs <<< 21 ||| rt <<< 16 ||| rd <<< 11 ||| 0b010100#32]
  | .Dsra => [rt <<< 16 ||| rd <<< 11 ||| sa <<< 6 ||| 0b111011#32]
  | .Dsra32 => [rt <<< 16 ||| rd <<< 11 ||| sa <<< 6 ||| 0b111111#32]
  | .Dsrav => [rs <<< 21 ||| rt <<< 16 ||| rd <<< 11 ||| 0b010111#32]
  | .Dsrl => [rt <<< 16 ||| rd <<< 11 ||| sa <<< 6 ||| 0b111010#32]
  | .Dsrl32 => [rt <<< 16 ||| rd <<< 11 ||| sa <<< 6 ||| 0b111110#32]
  | .Dsrlv => [rs <<< 21 ||| rt <<< 16 ||| rd <<< 11 ||| 0b010110#32]
  | .Dsub => [rs <<< 21 ||| rt <<< 16 ||| rd <<< 11 ||| 0b101110#32]
  | .Dsubu => [rs <<< 21 ||| rt <<< 16 ||| rd <<< 11 ||| 0b101111#32]
  | .Eret => [0b010000#32 <<< 26 ||| 0b00001#32 <<< 25 ||| 0b011000#32]
  | .FloorLS => [0b010001#32 <<< 26 ||| 0b10000#32 <<< 21 ||| rs <<< 11 ||| rd <<< 6 ||| 0b001011#32]
  | .FloorLD => [0b010001#32 <<< 26 ||| 0b10001#32 <<< 21 ||| rs <<< 11 ||| rd <<< 6 ||| 0b001011#32]
  | .FloorWS => [0b010001#32 <<< 26 ||| 0b10000#32 <<< 21 ||| rs <<< 11 ||| rd <<< 6 ||| 0b001111#32]
  | .FloorWD => [0b010001#32 <<< 26 ||| 0b10001#32 <<< 21 ||| rs <<< 11 ||| rd <<< 6 ||| 0b001111#32]
  | .Jalr => [rs <<< 21 ||| rd <<< 11 ||| 0b001001#32]
  | .Jr => [rs <<< 21 ||| 0b001000#32]
  | .Mfc0 => [0b010000#32 <<< 26 ||| rt <<< 16 ||| rd <<< 11]
  | .Mfc1 => [0b010001#32 <<< 26 ||| rt <<< 16 ||| rd <<< 11]
  | .Mfhi => [rd <<< 11 ||| 0b010000#32]
  | .Mflo => [rd <<< 11 ||| 0b010010#32]
  | .Move => [rs <<< 16 ||| rd <<< 11 ||| 0b100001#32]
  | .MovS => [0b010001#32 <<< 26 ||| 0b10000#32 <<< 21 ||| rs <<< 11 ||| rd <<< 6 ||| 0b000110#32]
  | .MovD => [0b010001#32 <<< 26 ||| 0b10001#32 <<< 21 ||| rs <<< 11 ||| rd <<< 6 ||| 0b000110#32]
  | .Mtc0 => [0b010000#32 <<< 26 ||| 0b00100#32 <<< 21 ||| rt <<< 16 ||| rd <<< 11]
  | .Mtc1 => [0b010001#32 <<< 26 ||| 0b00100#32 <<< 21 ||| rt <<< 16 ||| rd <<< 11]
  | .Mthi => [rs <<< 21 ||| 0b010001#32]
  | .Mtlo => [rs <<< 21 ||| 0b010011#32]
  | .Mul => [rs <<< 21 ||| rt <<< 16 ||| 0b011000#32, rd <<< 11 ||| 0b010010#32]
  | .Mulu => [rs <<< 21 ||| rt <<< 16 ||| 0b011001#32, rd <<< 11 ||| 0b010010#32]
  | .MulS => [0b010001#32 <<< 26 ||| 0b10000#32 <<< 21 ||| rt <<< 16 ||| rs <<< 11 ||| rd <<< 6 ||| 0b000010#32]
  | .MulD => [0b010001#32 <<< 26 ||| 0b10001#32 <<< 21 ||| rt <<< 16 ||| rs <<< 11 ||| rd <<< 6 ||| 0b000010#32]
  | .Mulo => [rs <<< 21 ||| rt <<< 16 ||| 0b011000#32, rd <<< 11 ||| 0b010010#32, rd <<< 16 ||| rd <<< 11 ||| 31#32 <<< 6 ||| 0b000011#32, 0b000001#32 <<< 11 ||| 0b010000#32, rd <<< 21 ||| 0b000001#32 <<< 16 ||| 6#32 <<< 6 ||| 0b110110#32, rd <<< 11 ||| 0b010010#32]
  | .Mulou => [rs <<< 21 ||| rt <<< 16 ||| 0b011001#32, 0b000001#32 <<< 11 ||| 0b010000#32, rd <<< 11 ||| 0b010010#32, 0b000001#32 <<< 21 ||| 6#32 <<< 6 ||| 0b110110#32]
  | .Mult => [rs <<< 21 ||| rt <<< 16 ||| 0b011000#32]
  | .Multu => [rs <<< 21 ||| rt <<< 16 ||| 0b011001#32]
  | .Neg => [rs <<< 16 ||| rd <<< 11 ||| 0b100010#32]
  | .Negu => [rs <<< 16 ||| rd <<< 11 ||| 0b100011#32]
  | .NegS => [0b010001#32 <<< 26 ||| 0b10000#32 <<< 21 ||| rs <<< 11 ||| rd <<< 6 ||| 0b000111#32]
  | .NegD => [0b010001#32 <<< 26 ||| 0b10001#32 <<< 21 ||| rs <<< 11 ||| rd <<< 6 ||| 0b000111#32]
  | .Nop => [0#32]
  | .Nor => [rs <<< 21 ||| rt <<< 16 ||| rd <<< 11 ||| 0b100111#32]
  | .Not => [rs <<< 21 ||| rd <<< 11 ||| 0b100111#32]
  | .Or => [rs <<< 21 ||| rt <<< 16 ||| rd <<< 11 ||| 0b100101#32]
  | .Rem => [rt <<< 21 ||| 7#32 <<< 6 ||| 0b110100#32, rs <<< 21 ||| rt <<< 16 ||| 0b011010#32, 0b001111#32 <<< 26 ||| 0b000001#32 <<< 16 ||| 0xFFFF#32, 0b001101#32 <<< 26 ||| 0b000001#32 <<< 21 ||| 0b000001#32 <<< 16 ||| 0xFFFF#32, 0b000101#32 <<< 26 ||| rt <<< 21 ||| 0b000001#32 <<< 16 ||| 3#32, 0b001111#32 <<< 26 ||| 0b000001#32 <<< 16 ||| 0x8000#32, rs <<< 21 ||| 0b000001#32 <<< 16 ||| 6#32 <<< 6 ||| 0b110100#32, rd <<< 11 ||| 0b010000#32]
  | .Remu => [rt <<< 21 ||| 7#32 <<< 6 ||| 0b110100#32, rs <<< 21 ||| rt <<< 16 ||| 0b011011#32, rd <<< 11 ||| 0b010000#32]
  | .RoundLS => [0b010001#32 <<< 26 ||| 0b10000#32 <<< 21 ||| rs <<< 11 ||| rd <<< 6 ||| 0b001000#32]
  | .RoundLD => [0b010001#32 <<< 26 ||| 0b10001#32 <<< 21 ||| rs <<< 11 ||| rd <<< 6 ||| 0b001000#32]
  | .RoundWS => [0b010001#32 <<< 26 ||| 0b10000#32 <<< 21 ||| rs <<< 11 ||| rd <<< 6 ||| 0b001100#32]
  | .RoundWD => [0b010001#32 <<< 26 ||| 0b10001#32 <<< 21 ||| rs <<< 11 ||| rd <<< 6 ||| 0b001100#32]
  | .Seq => [rs <<< 21 ||| rt <<< 16 ||| rd <<< 11 ||| 0b100110#32, 0b001011#32 <<< 26 ||| rd <<< 21 ||| rd <<< 16 ||| 1#32]
  | .Sge => [rs <<< 21 ||| rt <<< 16 ||| rd <<< 11 ||| 0b101010#32, 0b001110#32 <<< 26 ||| rd <<< 21 ||| rd <<< 16 ||| 1#32]
  | .Sgeu => [rs <<< 21 ||| rt <<< 16 ||| rd <<< 11 ||| 0b101011#32, 0b001110#32 <<< 26 ||| rd <<< 21 ||| rd <<< 16 ||| 1#32]
  | .Sgt => [rt <<< 21 ||| rs <<< 16 ||| rd <<< 11 ||| 0b101010#32]
  | .Sgtu => [rt <<< 21 ||| rs <<< 16 ||| rd <<< 11 ||| 0b101011#32]
  | .Sle => [rt <<< 21 ||| rs <<< 16 ||| rd <<< 11 ||| 0b101010#32, 0b001110#32 <<< 26 ||| rd <<< 21 ||| rd <<< 16 ||| 1#32]
  | .Sleu => [rt <<< 21 ||| rs <<< 16 ||| rd <<< 11 ||| 0b101011#32, 0b001110#32 <<< 26 ||| rd <<< 21 ||| rd <<< 16 ||| 1#32]
  | .Sll => [rt <<< 16 ||| rd <<< 11 ||| sa <<< 6]
  | .Sllv => [rs <<< 21 ||| rt <<< 16 ||| rd <<< 11 ||| 0b000100#32]
  | .Slt => [rs <<< 21 ||| rt <<< 16 ||| rd <<< 11 ||| 0b101010#32]
  | .Sltu => [rs <<< 21 ||| rt <<< 16 ||| rd <<< 11 ||| 0b101011#32]
  | .Sne => [rs <<< 21 ||| rt <<< 16 ||| rd <<< 11 ||| 0b100110#32, rd <<< 16 ||| rd <<< 11 ||| 0b101011#32]
  | .SqrtS => [0b010001#32 <<< 26 ||| 0b10000#32 <<< 21 ||| rs <<< 11 ||| rd <<< 6 ||| 0b000100#32]
  | .SqrtD => [0b010001#32 <<< 26 ||| 0b10001#32 <<< 21 ||| rs <<< 11 ||| rd <<< 6 ||| 0b000100#32]
  | .Sra => [rt <<< 16 ||| rd <<< 11 ||| sa <<< 6 ||| 0b000011#32]
  | .Srav => [rs <<< 21 ||| rt <<< 16 ||| rd <<< 11 ||| 0b000111#32]
  | .Srl => [rt <<< 16 ||| rd <<< 11 ||| sa <<< 6 ||| 0b000010#32]
  | .Srlv => [rs <<< 21 ||| rt <<< 16 ||| rd <<< 11 ||| 0b000110#32]
  | .Sub => [rs <<< 21 ||| rt <<< 16 ||| rd <<< 11 ||| 0b100010#32]
  | .Subu => [rs <<< 21 ||| rt <<< 16 ||| rd <<< 11 ||| 0b100011#32]
  | .SubS => [0b010001#32 <<< 26 ||| 0b10000#32 <<< 21 ||| rt <<< 16 ||| rs <<< 11 ||| rd <<< 6 ||| 0b000001#32]
  | .SubD => [0b010001#32 <<< 26 ||| 0b10001#32 <<< 21 ||| rt <<< 16 ||| rs <<< 11 ||| rd <<< 6 ||| 0b000001#32]
  | .Sync => [0b001111#32]
  | .Syscall => [sa <<< 6 ||| 0b001100#32]
  | .Teq => [rs <<< 21 ||| rt <<< 16 ||| 0b110100#32]
  | .Tge => [rs <<< 21 ||| rt <<< 16 ||| 0b110000#32]
  | .Tgeu => [rs <<< 21 ||| rt <<< 16 ||| 0b110001#32]
  | .Tlbp => [0b010000#32 <<< 26 ||| 0b00001#32 <<< 25 ||| 0b001000#32]
  | .Tlbr => [0b010000#32 <<< 26 ||| 0b00001#32 <<< 25 ||| 0b000001#32]
  | .Tlbwi => [0b010000#32 <<< 26 ||| 0b00001#32 <<< 25 ||| 0b000010#32]
  | .Tlbwr => [0b010000#32 <<< 26 ||| 0b00001#32 <<< 25 ||| 0b000110#32]
  | .Tlt => [rs <<< 21 ||| rt <<< 16 ||| 0b110010#32]
  | .Tltu => [rs <<< 21 ||| rt <<< 16 ||| 0b110011#32]
  | .Tne => [rs <<< 21 ||| rt <<< 16 ||| 0b110110#32]
  | .TruncLS => [0b010001#32 <<< 26 ||| 0b10000#32 <<< 21 ||| rs <<< 11 ||| rd <<< 6 ||| 0b001001#32]
  | .TruncLD => [0b010001#32 <<< 26 ||| 0b10001#32 <<< 21 ||| rs <<< 11 ||| rd <<< 6 ||| 0b001001#32]
  | .TruncWS => [0b010001#32 <<< 26 ||| 0b10000#32 <<< 21 ||| rs <<< 11 ||| rd <<< 6 ||| 0b001101#32]
  | .TruncWD => [0b010001#32 <<< 26 ||| 0b10001#32 <<< 21 ||| rs <<< 11 ||| rd <<< 6 ||| 0b001101#32]
  | .Xor => [rs <<< 21 ||| rt <<< 16 ||| rd <<< 11 ||| 0b100110#32]

/-- The words one loop iteration of `assemble` computes (src/assembler.rs:9-500); `none` is a panic. -/
def encode (ovf : Bool) : Instruction → Option (List Word)
  | .imm op rs rt im _ => do
    let i ← im.asU32
    let l ← im.asU64
    encI ovf op rs.num rt.num i l
  | .jump op t _ => do
    let a ← t.asU32
    some (encJ op a)
  | .reg op rs rt rd sa _ => some (encR op rs.num rt.num rd.num sa)
  | .bytes w => some [w]

/-- One iteration of the loop in `assemble`: compute the words and `push_bytes` them
(src/assembler.rs:9-11, 499-502). -/
def assembleInst (ovf : Bool) (i : Instruction) : Option Instruction := do
  let ws ← encode ovf i
  i.pushBytes ws

/-- `assembler::assemble` (src/assembler.rs:8-504); `none` is a panic. -/
def assembleAll (ovf : Bool) (is : List Instruction) : Option (List Instruction) :=
  is.mapM (assembleInst ovf)

end Mips
