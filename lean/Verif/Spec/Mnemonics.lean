/-
SPECIFICATION (not a model of the code): the mnemonics of the language and the number of operands each takes.  Refers
only to character-level definitions.
-/
import Verif.Spec.Words
import Verif.Spec.Report

namespace Mips.Names
open Mips.Branch

/-- The names built from some stems and suffixes. -/
def names (stems suffixes : List Str) : List Str := stems.flatMap fun a => suffixes.map fun b => a ++ b

/-- The conditions of the floating-point comparisons `c.<cond>.<fmt>`. -/
def conds : List Str :=
  [c!"f", c!"un", c!"eq", c!"ueq", c!"olt", c!"ult", c!"ole", c!"ule", c!"sf", c!"ngle", c!"seq", c!"ngl", c!"lt", c!"nge",
   c!"le", c!"ngt"]

/-- The floating-point comparisons. -/
def compares : List Str := names (conds.map fun c => c!"c." ++ c) [c!".s", c!".d"]

/-- Mnemonics with one operand. -/
def one : List Str :=
  [c!"j", c!"jal", c!"b", c!"bal", c!"bc0f", c!"bc0fl", c!"bc0t", c!"bc0tl", c!"bc1f", c!"bc1fl", c!"bc1t", c!"bc1tl",
   c!"jr", c!"mthi", c!"mtlo", c!"clear", c!"mfhi", c!"mflo"]

/-- Mnemonics with an optional operand (the code of `break` and `syscall`). -/
def optional : List Str := [c!"break", c!"syscall"]

/-- Mnemonics with two operands. -/
def two : List Str :=
  [c!"lb", c!"lbu", c!"ld", c!"ldl", c!"ldr", c!"lh", c!"lhu", c!"ll", c!"lld", c!"lw", c!"lwl", c!"lwr", c!"lwu",
   c!"sb", c!"sc", c!"scd", c!"sd", c!"sdl", c!"sdr", c!"sh", c!"sw", c!"swl", c!"swr", c!"cache",
   c!"ldc1", c!"lwc1", c!"sdc1", c!"swc1",
   c!"lui", c!"lli", c!"li", c!"liu", c!"dli",
   c!"teqi", c!"tgei", c!"tgeiu", c!"tlti", c!"tltiu", c!"tnei", c!"teq", c!"tge", c!"tgeu", c!"tlt", c!"tltu", c!"tne",
   c!"bgez", c!"bgezal", c!"bgezall", c!"bgezl", c!"bltz", c!"bltzal", c!"bltzall", c!"bltzl", c!"bgtz", c!"bgtzl",
   c!"blez", c!"blezl", c!"beqz", c!"bnez", c!"beqzl", c!"bnezl",
   c!"mult", c!"multu", c!"dmult", c!"dmultu",
   c!"abs", c!"dabs", c!"move", c!"dmove", c!"neg", c!"negu", c!"dneg", c!"dnegu", c!"not",
   c!"mfc0", c!"mtc0", c!"dmfc0", c!"dmtc0", c!"cfc0", c!"ctc0", c!"mfc1", c!"mtc1", c!"dmfc1", c!"dmtc1", c!"cfc1",
   c!"ctc1"] ++
  names [c!"abs", c!"mov", c!"neg", c!"sqrt", c!"round.l", c!"round.w", c!"trunc.l", c!"trunc.w", c!"ceil.l", c!"ceil.w",
    c!"floor.l", c!"floor.w", c!"cvt.l", c!"cvt.w"] [c!".s", c!".d"] ++
  [c!"cvt.s.d", c!"cvt.s.w", c!"cvt.s.l", c!"cvt.d.s", c!"cvt.d.w", c!"cvt.d.l"] ++ compares

/-- Mnemonics with three operands. -/
def three : List Str :=
  [c!"add", c!"addu", c!"sub", c!"subu", c!"dadd", c!"daddu", c!"dsub", c!"dsubu", c!"and", c!"or", c!"xor", c!"nor",
   c!"slt", c!"sltu", c!"mul", c!"mulu", c!"mulo", c!"mulou", c!"dmul", c!"dmulu", c!"dmulo", c!"dmulou",
   c!"rem", c!"remu", c!"drem", c!"dremu", c!"drol", c!"dror",
   c!"seq", c!"sne", c!"sge", c!"sgeu", c!"sgt", c!"sgtu", c!"sle", c!"sleu",
   c!"addi", c!"addiu", c!"andi", c!"ori", c!"xori", c!"slti", c!"sltiu", c!"daddi", c!"daddiu", c!"subi", c!"subiu",
   c!"dsubi", c!"dsubiu",
   c!"sll", c!"srl", c!"sra", c!"dsll", c!"dsrl", c!"dsra", c!"dsll32", c!"dsrl32", c!"dsra32",
   c!"sllv", c!"srlv", c!"srav", c!"dsllv", c!"dsrlv", c!"dsrav",
   c!"beq", c!"beql", c!"bne", c!"bnel"] ++ cmpBranchNames ++
  names [c!"add", c!"sub", c!"mul", c!"div"] [c!".s", c!".d"]

/-- Mnemonics with no operand. -/
def none : List Str := [c!"nop", c!"sync", c!"eret", c!"tlbp", c!"tlbr", c!"tlbwi", c!"tlbwr"]

/-- The word each of them stands for. -/
def noneWords : List (Str × BitVec 32) :=
  [(c!"nop", 0#32), (c!"sync", 0xf#32), (c!"eret", 0x42000018#32), (c!"tlbp", 0x42000008#32), (c!"tlbr", 0x42000001#32),
   (c!"tlbwi", 0x42000002#32), (c!"tlbwr", 0x42000006#32)]

/-- `div rs, rt` is the machine instruction, `div rd, rs, rt` the pseudo-instruction. -/
def division : List Str := [c!"div", c!"divu", c!"ddiv", c!"ddivu"]

/-- The mnemonics that take operands: the name, the numbers of operands it may have, and the number an error message
mentions. -/
def arities : List (Str × List Nat × Nat) :=
  (one ++ optional).map (fun n => (n, [1], 1)) ++ [(c!"jalr", [1, 2], 2)] ++ two.map (fun n => (n, [2], 2)) ++
  division.map (fun n => (n, [2, 3], 3)) ++ three.map (fun n => (n, [3], 3))

/-- All mnemonics, and the directive. -/
def all : List Str := one ++ optional ++ [c!"jalr"] ++ two ++ division ++ three ++ none ++ [c!".word"]

/-- The names in front of the format suffix of the floating-point instructions. -/
def floatStems : List Str :=
  [c!"add", c!"sub", c!"mul", c!"div", c!"abs", c!"mov", c!"neg", c!"sqrt", c!"round.l", c!"round.w", c!"trunc.l", c!"trunc.w",
   c!"ceil.l", c!"ceil.w", c!"floor.l", c!"floor.w", c!"cvt.s", c!"cvt.d", c!"cvt.l", c!"cvt.w"]

/-- The text of a line names the mnemonic `mn`, in any letter case. -/
def Calls (text mn : Str) : Prop := (firstWord text).map asciiLower = mn

/-- A word that resembles a floating-point comparison: it starts with `c.`, its second dot-separated part is a condition,
and it ends in the format `s` or `d`. -/
def CompareLike [Unicode] (w : Str) : Prop :=
  (Unicode.lower w).take 2 = c!"c." ∧
    ∃ cond f, (split '.' w)[1]? = some cond ∧ Unicode.lower cond ∈ conds ∧ w.getLast? = some f ∧
      (asciiLower f = 's' ∨ asciiLower f = 'd')

/-- A word of at least two visible ASCII characters that is no mnemonic and does not resemble a floating-point one. -/
structure Unknown (w : Str) : Prop where
  long : 2 ≤ w.length
  visible : ∀ c ∈ w, isAscii c = true ∧ isWs c = false
  unknown : w.map asciiLower ∉ all
  stem : (w.map asciiLower).take (w.length - 2) ∉ floatStems
  compare : ((w.map asciiLower).take (w.length - 2)).take 2 ≠ c!"c."

/-- Number of operands, counting the text behind the mnemonic as one operand plus one for each comma. -/
def count (text : Str) : Nat := (operandText text).count ',' + 1

/-- If the call returns at all, it returns an error report that contains `e` (and so produces no code). -/
def Reports (out : AsmOut) (e : ParserError) : Prop := ∀ es, out.errors = some es → e ∈ es

end Mips.Names
