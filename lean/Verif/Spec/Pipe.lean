/-
SPECIFICATION (not a model of the code): the end of a run of `disasm`, in terms of what the library returns.
-/
import Verif.Spec.Io

namespace Mips

open Cli in
/-- What the run of `disasm` on a file with these words is to end with: a panic if there are no words or the library panics; otherwise the listing that
the library returns, on standard output or in the output file. -/
def Cli.listingEnd (rt : Rt) (c : Cmd) (d : Disk) (syms : List (Word × Str)) (addr : Word) (ws : List Word) : End :=
  if ws = [] then .panic
  else match disassemble rt ((Mipsasm.new.setBase addr).setSymbols syms) ws with
    | none => .panic
    | some out => success c d (utf8 out.flatten) (onLines out) []

end Mips
