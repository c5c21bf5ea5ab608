/-
Model of src/lib.rs: the public API.
-/
import Verif.Model.Parser
import Verif.Model.Display
import Verif.Model.Disassembler

namespace Mips

/-- `Mipsasm` (src/lib.rs:46-50).  The symbol `HashMap` is the list of its entries in iteration order. -/
structure Mipsasm where
  base : Word
  syms : List (Word × Str)
  debug : Bool

namespace Mipsasm

/-- `Mipsasm::new` (src/lib.rs:62-68). -/
def new : Mipsasm := ⟨0#32, [], false⟩
/-- `Mipsasm::base` (src/lib.rs:80-83). -/
def setBase (m : Mipsasm) (addr : Word) : Mipsasm := { m with base := addr }
/-- `Mipsasm::symbols` (src/lib.rs:96-99). -/
def setSymbols (m : Mipsasm) (syms : List (Word × Str)) : Mipsasm := { m with syms := syms }
/-- `Mipsasm::debug` (src/lib.rs:114-117). -/
def setDebug (m : Mipsasm) : Mipsasm := { m with debug := true }

end Mipsasm

/-- What a call to `assemble` does: text printed to stderr and the returned `Result`, or a panic. -/
inductive AsmOut where
  | ok (insts : List Instruction) (warns : List ParserWarning)
  | err (errs : List ParserError) (warns : List ParserWarning)
  | panic
  deriving DecidableEq

/-- `Mipsasm::assemble` (src/lib.rs:131-136).  Every warning is printed with `eprintln!("{}", ..)`
while parsing; if formatting one panics, the call panics.  (The model formats them all after parsing;
only the order of the panic among other panics differs.) -/
def assemble [Unicode] (rt : Rt) (m : Mipsasm) (text : Str) : AsmOut :=
  match parse rt m.base m.syms text with
  | none => .panic
  | some out =>
    if out.warns.all fun w => w.display.isSome then
      match out.result with
      | .error e => .err e out.warns
      | .ok is => match assembleAll rt.ovf is with
        | none => .panic
        | some is' => .ok is' out.warns
    else .panic

/-- `get_bytes` (src/lib.rs:233-235). -/
def getBytes (is : List Instruction) : List Word := is.flatMap Instruction.getBytes

/-- `self.syms.get(&addr)` -/
def symAt (syms : List (Word × Str)) (a : Word) : Option Str := syms.lookup a

/-- Body of the loop in `match_syms` (src/lib.rs:193-209). -/
def matchSym (syms : List (Word × Str)) (i : Instruction) : Instruction :=
  match i with
  | .jump op (.address a) b => match symAt syms a with
    | some s => .jump op (.label s) b
    | none => i
  | _ => i

/-- `get_sym` (src/lib.rs:211-217). -/
def getSym (syms : List (Word × Str)) (a : Word) : Str :=
  match symAt syms a with
  | some s => s
  | none => c!"func_" ++ zeroPad 8 (hexLower a.toNat)

/-- `Option<u32> < Option<u32>` as derived: `None` is smallest. -/
def optLt : Option Word → Option Word → Bool
  | none, none => false
  | none, some _ => true
  | some _, none => false
  | some a, some b => a.toNat < b.toNat

/-- The test at src/lib.rs:176-179, evaluated with short circuit; outer `none` is a panic.
`funcStart` is the byte offset `func_start`. -/
def endsFunction (ovf : Bool) (base : Word) (funcStart i : Nat) (x : Instruction) : Option Bool :=
  if x.isUnconditionalJump then do
    let t ← x.getJumpTarget
    let lo ← chkAdd ovf (BitVec.ofNat 32 funcStart) base
    if optLt t (some lo) then some true
    else do
      let i4 ← chkMul ovf (BitVec.ofNat 32 i) 4#32
      let hi ← chkAdd ovf i4 base
      some (optLt (some hi) t)
  else some false

/-- The loop at src/lib.rs:165-186 over the remaining instructions, starting at index `i` of `n`;
`none` is a panic. -/
def layout (ovf : Bool) (base : Word) (syms : List (Word × Str)) (n : Nat) :
    Nat → Nat → Bool → List Instruction → Option (List Str)
  | _, _, _, [] => some []
  | i, fs, ended, x :: rest =>
    if ended then do
      let t ← x.display
      let here ← (if i < n - 1 then do
          let i4 ← chkMul ovf (BitVec.ofNat 32 (i + 1)) 4#32
          let a ← chkAdd ovf base i4
          some [t, [], getSym syms a ++ c!":"]
        else some [t])
      let tail ← layout ovf base syms n (i + 1) (i * 4) false rest
      some (here ++ tail)
    else do
      let e ← endsFunction ovf base fs i x
      let t ← x.display
      let tail ← layout ovf base syms n (i + 1) fs e rest
      some (t :: tail)

/-- `Mipsasm::disassemble` (src/lib.rs:148-190); `none` is a panic. -/
def disassemble (rt : Rt) (m : Mipsasm) (ws : List Word) : Option (List Str) :=
  let x := (disassembleWords ws m.base).map (matchSym m.syms)
  if m.debug then x.mapM Instruction.debug
  else (layout rt.ovf m.base m.syms x.length 0 0 false x).map fun out =>
    (getSym m.syms m.base ++ c!":") :: out

end Mips
