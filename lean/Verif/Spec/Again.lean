/-
SPECIFICATION (not a model of the code): how the operands of an assembled instruction come back in a listing.
-/
import Verif.Spec.Listing

namespace Mips.Listing
open Mips.Isa

/-- The operand a listing shows for an operand: itself, except that the signed operand 32767 is shown as -32767. -/
def listed : Arg → Arg
  | .simm v => .simm (if v = 0x7FFF#16 then 0x8001#16 else v)
  | .off v => .off (if v = 0x7FFF#16 then 0x8001#16 else v)
  | .mem v b => .mem (if v = 0x7FFF#16 then 0x8001#16 else v) b
  | a => a

end Mips.Listing
