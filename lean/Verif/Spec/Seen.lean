/-
SPECIFICATION (not a model of the code): what can be seen of a word in a listing, and symbol tables that do not hide anything.
-/
import Verif.Spec.Again
import Verif.Spec.Columns

namespace Mips.Listing
open Mips.Isa

/-- What can be seen of a word in a listing: an instruction (of its operands, the signed 32767 looks like -32767), or the number of the word if it is no
instruction or has a coprocessor 0 register without a name.  Some words of the coprocessor 0 map that are no instructions look like one. -/
inductive Seen where
  | inst (mn : Str) (args : List Arg)
  | word (w : BitVec 32)
  deriving DecidableEq

/-- What is seen of `w`. -/
def seen (w : BitVec 32) : Seen :=
  match decoding w with
  | none =>
    if fOp w = copOp 0 ∧ fRs w < 16#5 then
      match cp0Map.find? (fun e => e.2 = (fFn w).toNat) with
      | some (mn, _) => .inst mn []
      | none => .word w
    else .word w
  | some (mn, args) => match c0Arg args with
    | some r => if (c0Names.lookup r.toNat).isSome then .inst mn (args.map listed) else .word w
    | none => .inst mn (args.map listed)

/-- The names of symbols have no white space, different addresses have different names, and no name is spelled like an address. -/
structure ClearSyms (syms : List (BitVec 32 × Str)) : Prop where
  plain : ∀ e ∈ syms, ∀ c ∈ e.2, isWs c = false
  different : ∀ a b n, syms.lookup a = some n → syms.lookup b = some n → a = b
  names : ∀ e ∈ syms, ∀ n : Nat, e.2 ≠ hexTextU n

end Mips.Listing
