/-
Model of the `regex` crate for the six patterns the code uses: a backtracking matcher with
leftmost-first (Perl-like) semantics, which is what the crate documents.
Simplification: `*` and `*?` are only needed over single-character classes.
-/
import Verif.Model.Str

namespace Mips

/-- Regular expressions (the fragment used in src/parser.rs:56-59 and src/ast.rs:9-10). -/
inductive Re
  | eps
  | chr (p : Char → Bool)
  | seq (a b : Re)
  | alt (a b : Re)
  | star (p : Char → Bool)
  | starLazy (p : Char → Bool)

namespace Re

/-- Greedy `p*`: (consumed, rest) pairs, longest first. -/
def starM (p : Char → Bool) : Str → List (Str × Str)
  | [] => [([], [])]
  | c :: s => if p c then ((starM p s).map fun (a, b) => (c :: a, b)) ++ [([], c :: s)] else [([], c :: s)]

/-- Lazy `p*?`: shortest first. -/
def starLazyM (p : Char → Bool) : Str → List (Str × Str)
  | [] => [([], [])]
  | c :: s => ([], c :: s) :: (if p c then (starLazyM p s).map fun (a, b) => (c :: a, b) else [])

/-- All ways `r` matches a prefix of the text, in priority order, as (consumed, rest). -/
def run : Re → Str → List (Str × Str)
  | eps, s => [([], s)]
  | chr _, [] => []
  | chr p, c :: s => if p c then [([c], s)] else []
  | seq a b, s => (run a s).flatMap fun (x, r) => (run b r).map fun (y, r') => (x ++ y, r')
  | alt a b, s => run a s ++ run b s
  | star p, s => starM p s
  | starLazy p, s => starLazyM p s

/-- `Regex::find`: leftmost match, as (text before, match, text after). -/
def find (r : Re) : Str → Option (Str × Str × Str)
  | [] => match run r [] with
    | (m, rest) :: _ => some ([], m, rest)
    | [] => none
  | c :: s => match run r (c :: s) with
    | (m, rest) :: _ => some ([], m, rest)
    | [] => (find r s).map fun (b, m, a) => (c :: b, m, a)

/-- `Regex::find_iter(..)` match texts; `fuel` bounds the number of matches (the text length + 1
suffices because all patterns used match at least one character). -/
def findIter (r : Re) : Nat → Str → List Str
  | 0, _ => []
  | fuel + 1, s => match find r s with
    | none => []
    | some (_, m, rest) => if m.isEmpty then [m] else m :: findIter r fuel rest

/-- `Regex::replace_all(text, rep)` for patterns that match at least one character. -/
def replaceAll (r : Re) (rep : Str) : Nat → Str → Str
  | 0, s => s
  | fuel + 1, s => match find r s with
    | none => s
    | some (b, m, rest) => if m.isEmpty then s else b ++ rep ++ replaceAll r rep fuel rest

/-- A literal character. -/
def lit (c : Char) : Re := chr (· == c)
/-- `.`: any character except `\n`. -/
def dot (c : Char) : Bool := !(c == '\n')

/-- `(/{2}|;).*` (src/parser.rs:56). -/
def COMMENT : Re := seq (alt (seq (lit '/') (lit '/')) (lit ';')) (star dot)
/-- `.+\s*\(` (src/parser.rs:57). -/
def OFFSET : Re := seq (seq (chr dot) (star dot)) (seq (star isWs) (lit '('))
/-- `\(.*?\)` (src/parser.rs:58). -/
def BASE : Re := seq (lit '(') (seq (starLazy dot) (lit ')'))
/-- `\(.*\)` (src/parser.rs:59). -/
def IMM : Re := seq (lit '(') (seq (star dot) (lit ')'))
/-- `r\d{1,2}` (src/ast.rs:9). -/
def REG [Unicode] : Re :=
  seq (lit 'r') (seq (chr Unicode.isNd) (alt (chr Unicode.isNd) eps))
/-- `\s+` (src/ast.rs:10). -/
def SPACE : Re := seq (chr isWs) (star isWs)

end Re

/-- `COMMENT_RE.replace_all(s, "")` (src/parser.rs:91). -/
def stripComment (s : Str) : Str := Re.replaceAll Re.COMMENT [] (s.length + 1) s

/-- `SPACE_RE.replace_all(s, " ")` (src/ast.rs:632). -/
def squeeze (s : Str) : Str := Re.replaceAll Re.SPACE [' '] (s.length + 1) s

/-- `OFFSET_RE.find(x).map(as_str)` (src/parser.rs:213,756). -/
def findOffset (s : Str) : Option Str := (Re.find Re.OFFSET s).map fun (_, m, _) => m

/-- `BASE_RE.find_iter(x).last().map(as_str)` (src/parser.rs:204-208,745-749). -/
def findBaseLast (s : Str) : Option Str := (Re.findIter Re.BASE (s.length + 1) s).getLast?

/-- `IMM_RE.find(imm).map(as_str)` (src/parser.rs:996). -/
def findImm (s : Str) : Option Str := (Re.find Re.IMM s).map fun (_, m, _) => m

/-- `REG_RE.find(r).is_some()` (src/ast.rs:731). -/
def regReMatches [Unicode] (s : Str) : Bool := (Re.find Re.REG s).isSome

end Mips
