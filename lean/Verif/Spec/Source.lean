/-
SPECIFICATION (not a model of the code): the line structure of a source file.  Refers only to
character-level definitions (`Str`, `trim`, `endsWith`, `startsWith`).
-/
import Verif.Model.Str

namespace Mips.Source

/-- The text in front of the first comment marker (`//` or `;`). -/
def uncomment : Str → Str
  | [] => []
  | c :: s => if c = ';' ∨ (c = '/' ∧ s.head? = some '/') then [] else c :: uncomment s

/-- The significant part of a line. -/
def body (raw : Str) : Str := uncomment (trim raw)

/-- What a line is. -/
inductive Kind where
  /-- nothing -/
  | blank
  /-- a label definition `l:` -/
  | label (l : Str)
  /-- an instruction -/
  | code
  deriving DecidableEq, Repr

/-- Classify a line. -/
def kind (raw : Str) : Kind :=
  if endsWith ':' (body raw) then .label (body raw).dropLast
  else if (body raw).isEmpty then .blank
  else .code

/-- Is the line an instruction? -/
def isCode (raw : Str) : Bool := kind raw = .code

/-- Number of instruction lines. -/
def codeCount (ls : List Str) : Nat := (ls.filter isCode).length

/-- Local labels are written `@@name`. -/
def isLocal (l : Str) : Bool := startsWith c!"@@" l

/-- The global labels defined in a file, each with the number of instruction lines in front of it
(`n` of which are counted already). -/
def globalsFrom : Nat → List Str → List (Str × Nat)
  | _, [] => []
  | n, raw :: rest => match kind raw with
    | .blank => globalsFrom n rest
    | .code => globalsFrom (n + 1) rest
    | .label l => if isLocal l then globalsFrom n rest else (l, n) :: globalsFrom n rest

/-- The global labels of a file with the index of the instruction they stand in front of. -/
def globals (ls : List Str) : List (Str × Nat) := globalsFrom 0 ls

end Mips.Source
