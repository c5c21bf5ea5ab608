/-
SPECIFICATION (not a model of the code): the text of a disassembled word.  Built from the opcode maps of
`Spec.Isa` (what the word denotes) and a notation for operands; no reference to the model of mipsasm.
-/
import Verif.Spec.Syntax

namespace Mips.Listing
open Mips.Isa Mips.Syntax

/-- Each run of white space becomes one space. -/
def squash : Str → Str
  | [] => []
  | c :: s =>
    if isWs c then
      match s with
      | [] => [' ']
      | d :: _ => if isWs d then squash s else ' ' :: squash s
    else c :: squash s

/-- Lower-case hexadecimal with `0x`, no leading zeros. -/
def hexText (n : Nat) : Str := c!"0x" ++ Nat.toDigits 16 n

/-- Hexadecimal with a sign. -/
def intText (v : Int) : Str := (if v < 0 then c!"-" else []) ++ hexText v.natAbs

/-- Upper-case hexadecimal digits with `0x`. -/
def hexTextU (n : Nat) : Str := c!"0x" ++ (Nat.toDigits 16 n).map Char.toUpper

/-- Exactly eight lower-case hexadecimal digits, with `0x`. -/
def hex8 (w : BitVec 32) : Str :=
  c!"0x" ++ (List.range 8).map fun k => (Nat.digitChar (w.extractLsb' (4 * (7 - k)) 4).toNat)

/-- The printed names of the coprocessor 0 registers that have one. -/
def c0Names : List (Nat × Str) :=
  [(0, c!"Index"), (1, c!"Random"), (2, c!"EntryLo0"), (3, c!"EntryLo1"), (4, c!"Context"),
   (5, c!"PageMask"), (6, c!"Wired"), (8, c!"BadVAddr"), (9, c!"Count"), (10, c!"EntryHi"),
   (11, c!"Compare"), (12, c!"Status"), (13, c!"Cause"), (14, c!"Epc"), (15, c!"PrId"),
   (16, c!"Config"), (17, c!"LlAddr"), (18, c!"WatchLo"), (19, c!"WatchHi"), (20, c!"XContext"),
   (26, c!"ParityError"), (27, c!"CacheError"), (28, c!"TagLo"), (29, c!"TagHi"), (30, c!"ErrorEpc")]

/-- `$` and the register's name. -/
def gprText (r : BitVec 5) : Str := '$' :: (gprNames[r.toNat]?).getD []
/-- `$` and the register's calling-convention name. -/
def fprText (r : BitVec 5) : Str := '$' :: (fprNames[r.toNat]?).getD []

/-- Where `j`/`jal` with instruction index `t` goes, from the 256 MB region of `base`. -/
def jumpAddr (base : BitVec 32) (t : BitVec 26) : BitVec 32 := base.extractLsb' 28 4 ++ t ++ 0#2

/-- How an operand is printed, and a jump target through `sym`. -/
def argText (sym : BitVec 32 → Option Str) (base : BitVec 32) : Arg → Str
  | .gpr r => gprText r
  | .fpr r => fprText r
  | .c0 r => (c0Names.lookup r.toNat).getD []
  | .sa v => hexText v.toNat
  | .simm v => intText v.toInt
  | .uimm v => hexText v.toNat
  | .off v => intText v.toInt
  | .mem v b => intText v.toInt ++ c!"(" ++ gprText b ++ c!")"
  | .cop v => hexText v.toNat
  | .code v => hexText v.toNat
  | .target t => match sym (jumpAddr base t) with
    | some name => name
    | none => hexTextU (jumpAddr base t).toNat

/-- The operands that are printed: a zero `break`/`syscall` code and the default link register of
`jalr` are left out. -/
def shown (mn : Str) (args : List Arg) : List Arg :=
  if args = [.code 0] then []
  else match args with
    | [.gpr 31, .gpr rs] => if mn = c!"jalr" then [.gpr rs] else args
    | _ => args

/-- The text of an instruction. -/
def instText (sym : BitVec 32 → Option Str) (base : BitVec 32) (mn : Str) (args : List Arg) : Str :=
  if shown mn args = [] then mn
  else mn ++ c!" " ++ c!", ".intercalate ((shown mn args).map (argText sym base))

/-- The text of a reserved word. -/
def wordText (w : BitVec 32) : Str := c!".word " ++ hex8 w

/-- The coprocessor 0 register operand, if there is one. -/
def c0Arg : List Arg → Option (BitVec 5)
  | [_, .c0 r] => some r
  | _ => none

/-- The text of a word: `.word` if the maps leave it reserved (or it names a reserved coprocessor 0
register, in which case the instruction is appended as a comment), the instruction otherwise. -/
def lineText (sym : BitVec 32 → Option Str) (base w : BitVec 32) : Str :=
  match decoding w with
  | none => wordText w
  | some (mn, args) => match c0Arg args with
    | some r =>
      if (c0Names.lookup r.toNat).isSome then instText sym base mn args
      else wordText w ++ c!" # " ++ mn ++ c!" " ++ gprText (fRt w) ++ c!", 0x" ++
        [Nat.digitChar (r.toNat / 16), Nat.digitChar (r.toNat % 16)]
    | none => instText sym base mn args

/-- Is the operand the largest positive signed 16-bit value? -/
def topArg : Arg → Bool
  | .simm v => v = 0x7FFF#16
  | .off v => v = 0x7FFF#16
  | .mem v _ => v = 0x7FFF#16
  | _ => false

/-- The word has a signed operand with value 32767. -/
def TopImm (w : BitVec 32) : Prop := ∃ mn args, decoding w = some (mn, args) ∧ ∃ a ∈ args, topArg a = true

/-- A reserved word of the coprocessor 0 map whose low six bits look like a CP0 function. -/
def CopHole (w : BitVec 32) : Prop :=
  fOp w = copOp 0 ∧ fRs w < 16#5 ∧ decoding w = none ∧ (fFn w).toNat ∈ cp0Map.map (·.2)

end Mips.Listing
