/-
SPECIFICATION (not a model of the code): the mnemonics used in the statements about displaying an
assembled instruction.
-/
import Verif.Spec.Program

namespace Mips.Show

/-- Mnemonics of instructions that stand for others (they have no text of their own in a listing). -/
def hidden : List Str :=
  [c!"b", c!"bal", c!"beqzl", c!"bnezl", c!"bge", c!"bgt", c!"ble", c!"blt", c!"bgeu", c!"bgtu", c!"bleu", c!"bltu",
   c!"bgel", c!"bgtl", c!"blel", c!"bltl", c!"bgeul", c!"bgtul", c!"bleul", c!"bltul", c!"dli", c!"dsubi", c!"dsubiu",
   c!"lli", c!"li", c!"liu", c!"subi", c!"subiu", c!"abs", c!"clear", c!"dabs", c!"dmove", c!"dmul", c!"dmulu",
   c!"dmulo", c!"dmulou", c!"dneg", c!"dnegu", c!"drem", c!"dremu", c!"drol", c!"dror", c!"move", c!"mul", c!"mulu",
   c!"mulo", c!"mulou", c!"neg", c!"negu", c!"nop", c!"not", c!"rem", c!"remu", c!"seq", c!"sge", c!"sgeu", c!"sgt",
   c!"sgtu", c!"sle", c!"sleu", c!"sne"]

/-- Compare with zero. -/
def zero : List Str := [c!"beqz", c!"bnez"]
/-- The divisions. -/
def division : List Str := [c!"div", c!"divu", c!"ddiv", c!"ddivu"]
/-- Jumps to an address. -/
def jump : List Str := [c!"j", c!"jal"]
/-- Shifts by a constant. -/
def shift : List Str := [c!"sll", c!"srl", c!"sra", c!"dsll", c!"dsrl", c!"dsra", c!"dsll32", c!"dsrl32", c!"dsra32"]

/-- A line of a listing: the mnemonic, a space, the operands separated by a comma and a space. -/
def inst (mn : Str) (ops : List Str) : Str := mn ++ c!" " ++ c!", ".intercalate ops

end Mips.Show
