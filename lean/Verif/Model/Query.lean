/- The queries on an instruction that only users of the library call (src/ast.rs:206-252). -/
import Verif.Model.Ast

namespace Mips

/-- `Instruction::is_branch` (src/ast.rs:206-238). -/
def Instruction.isBranch : Instruction → Bool
  | .imm op .. => match op with
    | .Bltz | .Bgez | .Bltzl | .Bgezl | .Bltzal | .Bgezal | .Bltzall | .Bgezall | .Bal
    | .Bc0f | .Bc0t | .Bc0fl | .Bc0tl | .Bc1f | .Bc1t | .Bc1fl | .Bc1tl
    | .Beq | .Bne | .Beql | .Bnel | .Blez | .Blezl | .Bgtz | .Bgtzl => true
    | _ => false
  | _ => false

/-- `Instruction::get_branch_offset` (src/ast.rs:247-252): the immediate as an `i32`; `none` is the panic on an instruction
without an immediate, or of `Immediate::as_u32` on a label. -/
def Instruction.getBranchOffset : Instruction → Option Int
  | .imm _ _ _ i _ => i.asU32.map BitVec.toInt
  | _ => none

end Mips
