/-
SPECIFICATION (not a model of the code): the ways of writing a list of lines as a text.
-/
import Verif.Model.Str

namespace Mips.Endings

/-- The text is made of the lines `ls`: each is ended by a line feed, or by a carriage return and a line feed; the last one need not be ended,
unless it is empty. A line that ends in a carriage return of its own is not ended by a line feed alone. -/
inductive Written : List Str → Str → Prop
  | nil : Written [] []
  | last (l) : l ≠ [] → '\n' ∉ l → Written [l] l
  | lf (l ls text) : '\n' ∉ l → l.getLast? ≠ some '\r' → Written ls text → Written (l :: ls) (l ++ '\n' :: text)
  | crlf (l ls text) : '\n' ∉ l → Written ls text → Written (l :: ls) (l ++ '\r' :: '\n' :: text)

end Mips.Endings
