/- Which symbols a program or a listing can be affected by (specification for C42). -/
import Verif.Spec.Source
import Verif.Spec.Listing

namespace Mips

/-- The name `n` stands somewhere in a line of the text, or in a line with its parentheses left out
(`%hi(n)`, `%lo((n))` and the like). -/
def Source.Mentions (text n : Str) : Prop :=
  ∃ l ∈ lines text, n <:+: l ∨ n <:+: l.filter fun c => !(c == '(' || c == ')')

/-- Two symbol tables hold the same entries for the name `n`. -/
def Source.SameFor (s t : List (BitVec 32 × Str)) (n : Str) : Prop := ∀ a, (a, n) ∈ s ↔ (a, n) ∈ t

/-- The addresses a listing of `ws` at `base` can name: those of the words themselves and of the targets of
`j` and `jal`. -/
def Listing.Shown (base : BitVec 32) (ws : List (BitVec 32)) (a : BitVec 32) : Prop :=
  (∃ k, k ≤ ws.length ∧ a = base + BitVec.ofNat 32 (4 * k)) ∨
  (∃ w ∈ ws, (Isa.fOp w = 2#6 ∨ Isa.fOp w = 3#6) ∧ a = Listing.jumpAddr base (Isa.fTarget w))

end Mips
