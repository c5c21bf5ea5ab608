/-
SPECIFICATION (not a model of the code): what is on a line of the source, character by character.
-/
import Verif.Spec.Endings

namespace Mips.Anatomy

/-- The code points of white space. -/
def whiteCodes : List Nat :=
  [9, 10, 11, 12, 13, 32, 0x85, 0xA0, 0x1680, 0x2000, 0x2001, 0x2002, 0x2003, 0x2004, 0x2005, 0x2006, 0x2007, 0x2008, 0x2009, 0x200A,
   0x2028, 0x2029, 0x202F, 0x205F, 0x3000]

def White (c : Char) : Prop := c.toNat ∈ whiteCodes

/-- The text starts with a comment. -/
def Marker (s : Str) : Prop := (∃ t, s = ';' :: t) ∨ ∃ t, s = '/' :: '/' :: t

/-- The statement on a line: what is left without the white space around it; or what stands between the white space at the start of the line
and the first comment. -/
inductive Statement : Str → Str → Prop
  | plain (p s q : Str) : (∀ c ∈ p, White c) → (∀ c ∈ q, White c) → (∀ c, s.head? = some c → ¬ White c) → (∀ c, s.getLast? = some c → ¬ White c) →
      (∀ a b, s = a ++ b → ¬ Marker b) → Statement (p ++ s ++ q) s
  | comment (p s c : Str) : (∀ c ∈ p, White c) → (∀ c, s.head? = some c → ¬ White c) → Marker c →
      (∀ a b, s = a ++ b → b ≠ [] → ¬ Marker (b ++ c)) → Statement (p ++ s ++ c) s

/-- What is on a line. -/
inductive Reading
  | nothing
  /-- the definition of a label -/
  | label (l : Str)
  /-- an instruction: its first word and its operands, as they are written -/
  | instruction (w : Str) (ops : List Str)
  deriving DecidableEq

/-- The first word ends at the first space; the rest, if any, is made of operands with commas between them. -/
inductive Words : Str → Str → List Str → Prop
  | bare (w : Str) : ' ' ∉ w → Words w w [[]]
  | more (w : Str) (ops : List Str) : ' ' ∉ w → ops ≠ [] → (∀ o ∈ ops, ',' ∉ o) → Words (w ++ ' ' :: [','].intercalate ops) w ops

/-- What is on the line. -/
inductive Reads : Str → Reading → Prop
  | nothing (raw : Str) : Statement raw [] → Reads raw .nothing
  | label (raw l : Str) : Statement raw (l ++ [':']) → Reads raw (.label l)
  | instruction (raw s w : Str) (ops : List Str) : Statement raw s → s ≠ [] → s.getLast? ≠ some ':' → Words s w ops → Reads raw (.instruction w ops)

/-- The statements of a program, lines with nothing on them left out. -/
inductive Program : List Str → List Reading → Prop
  | nil : Program [] []
  | skip (raw : Str) (ls : List Str) (rs : List Reading) : Reads raw .nothing → Program ls rs → Program (raw :: ls) rs
  | cons (raw : Str) (r : Reading) (ls : List Str) (rs : List Reading) : Reads raw r → (r = .nothing → False) → Program ls rs → Program (raw :: ls) (r :: rs)

end Mips.Anatomy
