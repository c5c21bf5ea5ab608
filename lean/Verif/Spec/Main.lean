/- Specification vocabulary for the command-line tool (C44, C46). -/
import Verif.Spec.Syntax

namespace Mips.Syntax

/-- Eight upper-case hexadecimal digits with value `w`. -/
def Hex8 (s : Str) (w : BitVec 32) : Prop :=
  s.length = 8 ∧ (∀ c ∈ s, c ∈ c!"0123456789ABCDEF") ∧ Digits hexDigits s w.toNat

/-- Words separated by a comma and a space. -/
inductive HexWords : Str → List (BitVec 32) → Prop
  | nil : HexWords [] []
  | one (s : Str) (w : BitVec 32) : Hex8 s w → HexWords s [w]
  | cons (s t : Str) (w v : BitVec 32) (ws : List (BitVec 32)) : Hex8 s w → HexWords t (v :: ws) →
      HexWords (s ++ c!", " ++ t) (w :: v :: ws)

/-- A bracketed list of words, as printed on one line. -/
def PrintedWords (t : Str) (ws : List (BitVec 32)) : Prop := ∃ s, HexWords s ws ∧ t = c!"[" ++ s ++ c!"]\n"

end Mips.Syntax
