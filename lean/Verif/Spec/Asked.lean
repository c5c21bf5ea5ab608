/-
SPECIFICATION (not a model of the code): the names that an instruction can look up in the table of symbols.
-/
import Verif.Spec.Language

namespace Mips.Asked
open Mips.Source Mips.Branch Mips.Operands
open Mips.Lang (Group Offset bare)

/-- The line is an instruction, and `n` is

* its operand, if it is `j` or `jal`, without the white space around;
* or what stands in an operand between the first opening and the last closing parenthesis (`%hi(n)`), other parentheses left out;
* or the same in the offset of an address in memory (`%lo(n)(base)`), or in all that is behind the mnemonic. -/
def Asks [Unicode] (raw n : Str) : Prop :=
  kind raw = .code ∧
    ((mnemonic (body raw) ∈ [c!"j", c!"jal"] ∧ ∃ s ∈ operands (body raw), trim s = n) ∨
     (∃ s ∈ operandText (body raw) :: operands (body raw), ∃ m, Group s m ∧ bare m = n) ∨
     (∃ s ∈ operands (body raw), ∃ o m, Offset s o ∧ Group o m ∧ bare m = n))

/-- A line of the text does. -/
def AskedIn [Unicode] (text n : Str) : Prop := ∃ raw ∈ lines text, Asks raw n

end Mips.Asked
