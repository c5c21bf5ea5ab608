/-
SPECIFICATION (not a model of the code): the exact text of a diagnostic, colours included.
-/
import Verif.Spec.Diag

namespace Mips.Diag
open Mips.Shown

/-- The colours of a terminal. -/
inductive Colour
  | plain
  | red
  | blue
  deriving DecidableEq

/-- The text that switches to a colour. -/
def switch : Colour → Str
  | .plain => Char.ofNat 27 :: c!"[0m"
  | .red => Char.ofNat 27 :: c!"[91m"
  | .blue => Char.ofNat 27 :: c!"[94m"

/-- Coloured pieces of text, when the colour in front of them is `c`. -/
def paintFrom (c : Colour) : List (Colour × Str) → Str
  | [] => []
  | (k, t) :: ps => (if k = c then [] else switch k) ++ t ++ paintFrom k ps
/-- Coloured pieces of text. -/
def paint (ps : List (Colour × Str)) : Str := paintFrom .plain ps

/-- Blanks. -/
def blanks (n : Nat) : Str := List.replicate n ' '

/-- `n` is the number of bytes in front of the first occurrence of `u` in `s`. -/
def ByteColumn (u s : Str) (n : Nat) : Prop :=
  ∃ a b, s = a ++ u ++ b ∧ (∀ a' b', s = a' ++ u ++ b' → a.length ≤ a'.length) ∧ n = (a.map Char.utf8Size).sum

/-- A place that is quoted, in a message whose line numbers have `w` columns: the numbered line, the row of markers - as many as the text has
bytes, behind as many blanks as there are bytes in front of it - with the note, and an empty row. -/
def Quoted (w : Nat) (place : Str × Line × Char × Str) (ps : List (Colour × Str)) : Prop :=
  let (u, l, mark, note) := place
  let row := List.replicate ((u.map Char.utf8Size).sum) mark ++ c!" " ++ note
  ∃ n, ByteColumn u l.content n ∧
    ps = [(.blue, blanks (w - (decimal l.num).length) ++ decimal l.num ++ c!" |"), (.plain, c!" " ++ l.content ++ c!"\n")] ++
      (if mark = '^' then [(.blue, blanks w ++ c!" | " ++ blanks n), (.red, row)] else [(.blue, blanks w ++ c!" | " ++ blanks n ++ row)]) ++
      [(.plain, c!"\n"), (.blue, blanks w ++ c!" |"), (.plain, c!"\n")]

/-- The places of a message, with dots between them. -/
inductive QuotedAll (w : Nat) : List (Str × Line × Char × Str) → List (Colour × Str) → Prop
  | one (p ps) : Quoted w p ps → QuotedAll w [p] ps
  | more (p q rest ps qs) : Quoted w p ps → QuotedAll w (q :: rest) qs → QuotedAll w (p :: q :: rest) (ps ++ [(.blue, c!"..."), (.plain, c!"\n")] ++ qs)

/-- The places an error quotes: the text, its line, the marker and what is said next to it. -/
def errorPlaces (e : ParserError) : List (Str × Line × Char × Str) := ((marks e).zip (notes e)).map fun p => (p.1.1, p.1.2, p.2.1, p.2.2)

/-- The greatest number of digits of the line numbers. -/
def columns (places : List (Str × Line × Char × Str)) : Nat := (places.map fun p => (decimal p.2.1.num).length).foldl max 0

/-- The message of an error: the headline with `error` in red, an empty row, the places. -/
def ErrorMessage (e : ParserError) (s : Str) : Prop :=
  ∃ rest ps, headline e = c!"error" ++ rest ∧ QuotedAll (columns (errorPlaces e)) (errorPlaces e) ps ∧
    s = paint ([(.red, c!"error"), (.plain, rest ++ c!"\n"), (.blue, blanks (columns (errorPlaces e)) ++ c!" |"), (.plain, c!"\n")] ++ ps)

/-- The message of a warning: the headline, an empty row if it is about a delay slot, the places.  (The line numbers get the columns of
the number of the line that is quoted last.) -/
def WarningMessage (w : ParserWarning) (s : Str) : Prop :=
  ∃ ps last, (warnMarks w).getLast? = some last ∧ QuotedAll (decimal last.2.1.num).length (warnMarks w) ps ∧
    s = paint ([(.plain, warnHeadline w ++ c!"\n")] ++
      (if (warnMarks w).length = 2 then [(.blue, blanks (decimal last.2.1.num).length ++ c!" |"), (.plain, c!"\n")] else []) ++ ps)

end Mips.Diag
