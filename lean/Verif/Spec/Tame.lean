/-
SPECIFICATION (not a model of the code): programs on which the assembler is guaranteed to return a result.  Refers only to
character-level definitions and to the tables of mnemonics.
-/
import Verif.Spec.Operands
import Verif.Spec.HiLo

namespace Mips.Tame
open Mips.Isa Mips.Syntax Mips.Source Mips.Branch Mips.Names Mips.Operands Mips.HiLo

/-- The surroundings of a line: the build mode (overflow checks), the symbols, the lines of the file and the line's index. -/
structure Place where
  ovf : Bool
  syms : List (BitVec 32 × Str)
  ls : List Str
  k : Nat

/-- A constant operand that contains no parenthesis (right or wrong, of any range, or a label), or that is `%hi(x)` or `%lo(x)`
of a known symbol or of a number; `%hi` with overflow checks needs an address below 0xFFFF8000. -/
def Const (p : Place) (s : Str) : Prop :=
  '(' ∉ s ∨ ∃ f a, (f = c!"%hi" ∨ f = c!"%lo") ∧ Half p.syms f s a ∧ (f = c!"%hi" → p.ovf = true → a.toNat < 0xFFFF8000) ∧
    (p.syms.map (·.2)).Nodup ∧ NoParenLabel p.ls

/-- Not a label: neither `@@name` nor the name of a label defined above. -/
def NotLabel (p : Place) (s : Str) : Prop := isLocal (trim s) = false ∧ ∀ d < p.k, ¬ Defines p.ls d (trim s)

/-- The operands the assembler can read or complain about. -/
def Operand [Unicode] (p : Place) (mn : Str) : Role → Str → Prop
  | .gpr, s => Regular .gpr s ∨ (mn ∉ memNames ∧ ¬ RDigit s)
  | .fpr, _ => True
  | .c0, _ => True
  | .simm, s => Const p s
  | .uimm, s => Const p s
  | .addr, s => Const p s
  | .wide, s => Const p s ∧ (mn ≠ c!"dli" → NotLabel p s)
  | .code, s => Const p s ∧ NotLabel p s
  | .shamt, s => ∃ v, PNum s v ∧ -2147483648 ≤ v ∧ v ≤ 2147483647
  | .cop, s => (∃ v, PNum s v ∧ (v < 32 ∨ 65536 ≤ v)) ∧ NotLabel p s
  | .mem, s => ∃ o b q, s = o ++ '(' :: b ++ ')' :: q ∧ (∀ c ∈ b, c ≠ '(' ∧ c ≠ ')') ∧ '(' ∉ q ∧
      (Regular .gpr b ∨ (mn ∉ memNames ∧ ¬ RDigit b)) ∧
      ('(' ∉ o ∨ (mn ∈ memNames ∧ (∃ a, Half p.syms c!"%lo" o a) ∧ (p.syms.map (·.2)).Nodup ∧ NoParenLabel p.ls))
  | .target, s => ∃ c t, trim s = c :: t ∧ isAscii c = true

/-- A line the assembler either takes or complains about. -/
inductive Line [Unicode] (p : Place) (raw : Str) : Prop
  | blank : kind raw = .blank → Line p raw
  /-- a label, whatever its name -/
  | label (l : Str) : kind raw = .label l → l ≠ [] → Line p raw
  /-- an unknown mnemonic, whatever the operands -/
  | unknown : kind raw = .code → Unknown (firstWord (body raw)) → Line p raw
  /-- a mnemonic that has no operands, whatever stands behind it -/
  | bare (mn : Str) : kind raw = .code → Calls (body raw) mn → mn ∈ Names.none → Line p raw
  /-- a wrong number of operands, whatever they are -/
  | count (mn : Str) (ns : List Nat) (n : Nat) : kind raw = .code → Calls (body raw) mn → (mn, ns, n) ∈ arities →
      count (body raw) ∉ ns → Line p raw
  /-- the right number of operands, each readable; with overflow checks, compare-and-branch pseudo-instructions must name a
  label above, in a program of at most 65535 instructions -/
  | inst (mn : Str) (sig : List Role) : kind raw = .code → Calls (body raw) mn → (mn, sig) ∈ signatures →
      (operands (body raw)).length = sig.length →
      (∀ (i : Nat) role s, sig[i]? = some role → (operands (body raw))[i]? = some s → Operand p mn role s) →
      (mn ∈ cmpBranchNames → p.ovf = true → codeCount p.ls < 65536 ∧
        ∀ s, (operands (body raw)).getLast? = some s → isLocal (trim s) = false ∧ ∃ d < p.k, Defines p.ls d (trim s)) → Line p raw

/-- A file all of whose lines are such; with overflow checks, the code must end below 4 GB. -/
structure Program [Unicode] (ovf : Bool) (base : BitVec 32) (syms : List (BitVec 32 × Str)) (ls : List Str) : Prop where
  lines : ∀ (k : Nat) raw, ls[k]? = some raw → Line ⟨ovf, syms, ls, k⟩ raw
  room : ovf = true → base.toNat + 4 * codeCount ls < 2 ^ 32

end Mips.Tame
