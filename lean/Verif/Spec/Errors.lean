/-
SPECIFICATION (not a model of the code): the errors that are reported for a source file: which lines are complained about,
in which words, and in which order.
-/
import Verif.Spec.Language
import Verif.Spec.Shown

namespace Mips.Lang
open Mips.Isa hiding conds
open Mips.Names hiding none
open Mips.Syntax Mips.Source Mips.Branch Mips.Operands
open Mips.Shown (core)

/-! ### What is quoted -/

/-- The number a general-purpose register is written with; if an `r` stands in front of a digit, the letters `r` in front are skipped. -/
def GprNumber [Unicode] (s : Str) (n : Nat) : Prop :=
  n < 2 ^ 32 ∧ ((RDigit (core s) ∧ Plus decDigits ((core s).dropWhile (· == 'r')) n) ∨ (¬ RDigit (core s) ∧ Plus decDigits (core s) n))

/-- What is quoted of a general-purpose register that there is not: its number, otherwise the whole operand. -/
inductive GprQuote [Unicode] (s : Str) : Str → Prop
  | number (n : Nat) : GprNumber s n → GprQuote s (decimal n)
  | text : (∀ n, ¬ GprNumber s n) → GprQuote s s

/-- The number a floating-point or coprocessor 0 register is written with: decimal, otherwise hexadecimal. -/
def SysNumber (s : Str) (n : Nat) : Prop :=
  n < 2 ^ 32 ∧ (Plus decDigits (core s) n ∨ ((∀ m < 2 ^ 32, ¬ Plus decDigits (core s) m) ∧ Plus hexDigits (core s) n))

/-- What is quoted of a floating-point or coprocessor 0 register that there is not: its number, otherwise its name in lower case. -/
inductive SysQuote [Unicode] (s : Str) : Str → Prop
  | number (n : Nat) : SysNumber s n → SysQuote s (decimal n)
  | text : (∀ n, ¬ SysNumber s n) → SysQuote s (Unicode.lower (core s))

/-- What is quoted of a wrong address: without `0x` if it starts with it. -/
def addressQuote (t : Str) : Str := if startsWith c!"0x" t then remove0x t else t

/-- The complaint about a constant: a number is quoted without its `0x`, in parentheses the address is quoted. -/
inductive ConstError (l : Line) (s : Str) : ParserError → Prop
  | number : (∀ m, ¬ Group s m) → ConstError l s (.invalidImmediate l (remove0x (trim s)))
  | address (m : Str) : Group s m → ConstError l s (.invalidTargetAddress l (addressQuote (bare m)))

/-! ### Instructions -/

/-- The complaint about the text of a step. -/
def Complains [Unicode] (p : Place) (l : Line) : Step → ParserError → Prop
  | .gpr _ s, e => ∃ q, GprQuote s q ∧ e = .invalidRegister l q
  | .fpr s, e => ∃ q, SysQuote s q ∧ e = .invalidRegister l q
  | .c0 s, e => ∃ q, SysQuote s q ∧ e = .invalidRegister l q
  | .base _ s, e => ∃ m q, BaseGroup s m ∧ GprQuote (trim (bare m)) q ∧ e = .invalidRegister l q
  | .offset strip s, e => ∃ o, Offset s o ∧ ConstError l (if strip then o.filter (fun c => !(c == '(')) else o) e
  | .const _ s, e => ConstError l s e
  | .number _ s, e => ConstError l s e
  | .code s, e => ConstError l s e
  | .cop s, e => ConstError l s e
  | .word32 s, e => ((∃ v, Value p wide s v) ∧ e = .invalidImmediate l s) ∨ ((∀ v, ¬ Value p wide s v) ∧ ConstError l s e)
  | .target s, e => e = .invalidTargetAddress l (addressQuote (trim s))
  | .cond w, e => ∃ c, (split '.' w)[1]? = some c ∧ e = .invalidFloatCond l c
  | _, _ => False

/-- The first step that does not read its text complains. -/
def Fails [Unicode] (p : Place) (l : Line) : List Step → ParserError → Prop
  | [], _ => False
  | s :: ss, e => (¬ Reads p s ∧ ¬ Crashes p s ∧ Complains p l s e) ∨ (Reads p s ∧ Fails p l ss e)

/-- The number of operands that is asked for: the greatest one of the mnemonic. -/
def expected (mn : Str) : Nat := ((intSignatures.filter fun e => e.1 == mn).map fun e => e.2.length).foldl max 0

/-- The complaint about a line that is refused straight away: the number of operands, or the mnemonic. -/
def refusal [Unicode] (l : Line) (s : Str) : ParserError :=
  let w := firstWord s
  let mn := mnemonic s
  let st := (stem w).getD []
  let count := fun n => ParserError.invalidOperandCount l n (operands s).length (operandText s)
  if intSignatures.any (fun e => e.1 == mn) then count (expected mn)
  else if st ∈ stems3 then count 3
  else if st ∈ stems2 ∨ st.take 2 = c!"c." then count 2
  else .invalidOpcode l w

/-! ### Lines -/

/-- The complaint about line `k`.  (A label that is defined again is said to be first defined on the line whose number is one more than
the number of instructions above the first definition.) -/
def LineError [Unicode] (f : File) (k : Nat) (raw : Str) (e : ParserError) : Prop :=
  match kind raw with
  | .blank => False
  | .label l =>
    (∃ c t, l = c :: t ∧ Unicode.isNumeric c = true ∧ e = .invalidLabel ⟨k + 1, raw⟩ l) ∨
    (isLocal l = false ∧ ∃ d n r, d < k ∧ FirstDef f.ls d l ∧ Counted f d n ∧ f.ls[n]? = some r ∧
      e = .multipleLabelDefinition ⟨k + 1, raw⟩ l ⟨n + 1, r⟩)
  | .code =>
    (plan (body raw) = none ∧ e = refusal ⟨k + 1, raw⟩ (body raw)) ∨
    ∃ st, plan (body raw) = some st ∧ Fails (f.place k) ⟨k + 1, raw⟩ st e

/-- The complaint about the place that the instruction on line `k` refers to.  Places are looked up in the file `g`; line `raw` is
quoted, and the last line is named if a branch leaves the program. -/
def PlaceError [Unicode] (f g : File) (k : Nat) (raw : Str) (e : ParserError) : Prop :=
  ∃ st t, Instr g k st ∧
    ((Constant st t ∧ isLocal (trim t) = true ∧ ¬ (HasClosedScope g.ls ∧ ∃ d, Defines g.ls d (trim t)) ∧
        e = .undefinedLabel ⟨k + 1, raw⟩ (trim t)) ∨
     (Constant st t ∧ isLocal (trim t) = true ∧ HasClosedScope g.ls ∧ (∃ d, Defines g.ls d (trim t)) ∧ (∀ d, ¬ Chosen g.ls k d (trim t)) ∧
        e = .localLabelOutOfScope ⟨k + 1, raw⟩ (trim t)) ∨
     (.target t ∈ st ∧ LabelName g.syms (trim t) ∧ (∀ d, ¬ FirstDef g.ls d (trim t)) ∧ e = .undefinedLabel ⟨k + 1, raw⟩ (trim t)) ∨
     (.const addr t ∈ st ∧ ∃ v last, Number (g.place k) t v ∧
        (v < g.base.toNat ∨ (g.base.toNat + 4 * codeCount g.ls) % 2 ^ 32 < v) ∧ f.ls.getLast? = some last ∧
        e = .branchOutOfBounds ⟨f.ls.length, last⟩ raw g.base (BitVec.ofNat 32 (g.base.toNat + 4 * codeCount g.ls))))

/-! ### Files -/

/-- The errors `P` of the lines, in order, at most one each. -/
inductive InOrder (P : Nat → ParserError → Prop) : Nat → List ParserError → Prop
  | nil : InOrder P 0 []
  | error (k : Nat) (es : List ParserError) (e : ParserError) : InOrder P k es → P k e → InOrder P (k + 1) (es ++ [e])
  | none (k : Nat) (es : List ParserError) : InOrder P k es → (∀ e, ¬ P k e) → InOrder P (k + 1) es

/-- The file with the lines blanked that are not taken. -/
def Cleaned [Unicode] (f g : File) : Prop :=
  g.ovf = f.ovf ∧ g.base = f.base ∧ g.syms = f.syms ∧ g.ls.length = f.ls.length ∧
    ∀ k raw, f.ls[k]? = some raw → (LineTaken (f.place k) raw ∧ g.ls[k]? = some raw) ∨ (¬ LineTaken (f.place k) raw ∧ g.ls[k]? = some [])

/-- The errors: first those of the lines, then those of the places the taken instructions refer to, which are looked up as if the
refused lines were blank. -/
def Reports [Unicode] (f : File) (es : List ParserError) : Prop :=
  ∃ a b g, es = a ++ b ∧ Cleaned f g ∧
    InOrder (fun k e => ∃ raw, f.ls[k]? = some raw ∧ LineError f k raw e) f.ls.length a ∧
    InOrder (fun k e => ∃ raw, f.ls[k]? = some raw ∧ PlaceError f g k raw e) f.ls.length b

end Mips.Lang
