/-
Model of the parts of Rust's `std::str` / `char` that mipsasm calls.

Modelled: the documented behaviour of the standard-library functions used at the cited lines of /repo.
A Rust `&str`/`String` is modelled as its list of chars (`Str`).  A Lean `Char` is a Unicode scalar
value, exactly like a Rust `char`.
-/
namespace Mips

/-- A Rust `&str` / `String`, as the list of its `char`s. -/
abbrev Str := List Char

open Lean in
/-- `c!"abc"` is the list-of-chars literal `['a', 'b', 'c']` (kernel-friendly string literal). -/
macro:max "c!" s:str : term => do
  let cs : Array Term := (s.getString.toList.map (fun c => (Syntax.mkCharLit c : Term))).toArray
  `(([$cs,*] : List Char))

/-- `char::is_ascii`. -/
def isAscii (c : Char) : Bool := c.val < 128

/-- ASCII digit `'0'..='9'`. -/
def isDigit (c : Char) : Bool := 48 ≤ c.val && c.val ≤ 57

/-- `char::to_ascii_lowercase`. -/
def asciiLower (c : Char) : Char :=
  if 65 ≤ c.val && c.val ≤ 90 then Char.ofNat (c.toNat + 32) else c

/-- Lower case of ASCII letters, and of the Kelvin sign (U+212A), the only other character whose lower case is ASCII. -/
def lowChar (c : Char) : Char := if c.val = 0x212A then 'k' else asciiLower c

/-- Unicode `White_Space`, i.e. `char::is_whitespace`, also the regex class `\s`. -/
def isWs (c : Char) : Bool :=
  (9 ≤ c.val && c.val ≤ 13) || c.val == 0x20 || c.val == 0x85 || c.val == 0xA0 || c.val == 0x1680 ||
  (0x2000 ≤ c.val && c.val ≤ 0x200A) || c.val == 0x2028 || c.val == 0x2029 || c.val == 0x202F ||
  c.val == 0x205F || c.val == 0x3000

/-- Unicode tables the code depends on: `str::to_lowercase` (src/parser.rs:184,195,604,777,1045,
src/ast.rs:741,880,1008), `char::is_numeric` (src/parser.rs:158) and the regex class `\d`
(src/ast.rs:9).  Every theorem holds for every table with the laws below, which are facts of the Unicode character database:
ASCII characters behave as expected; the Kelvin sign becomes `k`; white space is kept; the lower case of every other
character contains a character that is neither ASCII nor white space; a full stop comes only from a full stop; white space is no digit. -/
class Unicode where
  /-- `str::to_lowercase` -/
  lower : Str → Str
  /-- `char::is_numeric` (general categories Nd, Nl, No) -/
  isNumeric : Char → Bool
  /-- regex `\d` (general category Nd) -/
  isNd : Char → Bool
  lower_known : ∀ s : Str, (∀ c ∈ s, isAscii c = true ∨ c.val = 0x212A ∨ isWs c = true) → lower s = s.map lowChar
  lower_other : ∀ s : Str, (∃ c ∈ s, isAscii c = false ∧ c.val ≠ 0x212A ∧ isWs c = false) →
    ∃ c ∈ lower s, isAscii c = false ∧ isWs c = false
  lower_dot : ∀ s : Str, '.' ∈ lower s → '.' ∈ s
  isNumeric_ascii : ∀ c, isAscii c = true → isNumeric c = isDigit c
  isNd_ascii : ∀ c, isAscii c = true → isNd c = isDigit c
  isNd_ws : ∀ c, isWs c = true → isNd c = false

theorem lowChar_ascii {c : Char} (h : isAscii c = true) : lowChar c = asciiLower c := by
  unfold lowChar
  rw [if_neg]
  intro e
  simp only [isAscii, decide_eq_true_eq, e] at h
  exact absurd h (by decide)

theorem Unicode.lower_ascii [Unicode] (s : Str) (h : ∀ c ∈ s, isAscii c = true) : Unicode.lower s = s.map asciiLower := by
  rw [Unicode.lower_known s fun c hc => .inl (h c hc)]
  exact List.map_congr_left fun c hc => lowChar_ascii (h c hc)

/-- The smallest instance: shows that the class is inhabited, and is used to run examples. -/
@[reducible] def asciiUnicode : Unicode where
  lower s := s.map lowChar
  isNumeric := isDigit
  isNd := isDigit
  lower_known _ _ := rfl
  lower_other s := by
    rintro ⟨c, hc, h1, h2, h3⟩
    refine ⟨c, List.mem_map.2 ⟨c, hc, ?_⟩, h1, h3⟩
    unfold lowChar asciiLower
    rw [if_neg h2, if_neg]
    intro h
    simp only [isAscii, Bool.and_eq_true, decide_eq_true_eq, decide_eq_false_iff_not, UInt32.le_iff_toNat_le, UInt32.lt_iff_toNat_lt] at h h1
    have : c.val.toNat ≤ 90 := h.2
    exact h1 (Nat.lt_of_le_of_lt this (by decide))
  lower_dot s := by
    intro h
    obtain ⟨c, hc, e⟩ := List.mem_map.1 h
    unfold lowChar asciiLower at e
    split at e
    · exact absurd e (by decide)
    · split at e
      · rename_i hr
        simp only [Bool.and_eq_true, decide_eq_true_eq, UInt32.le_iff_toNat_le, UInt32.reduceToNat] at hr
        have h1 : 65 ≤ c.toNat := hr.1
        have h2 : c.toNat ≤ 90 := hr.2
        have h3 := congrArg Char.toNat e
        have hv : Nat.isValidChar (c.toNat + 32) := by simp [Nat.isValidChar]; omega
        rw [Char.ofNat, dif_pos hv] at h3
        have h4 : c.toNat + 32 = 46 := h3
        omega
      · rw [← e]; exact hc
  isNumeric_ascii _ _ := rfl
  isNd_ascii _ _ := rfl
  isNd_ws c h := by
    rw [Bool.eq_false_iff]
    intro hd
    simp only [isDigit, isWs, Bool.and_eq_true, Bool.or_eq_true, decide_eq_true_eq, beq_iff_eq, UInt32.le_iff_toNat_le,
      ← UInt32.toNat_inj, UInt32.reduceToNat] at h hd
    omega

/-- `str::trim_start`. -/
def trimStart (s : Str) : Str := s.dropWhile isWs

/-- `str::trim_end`. -/
def trimEnd : Str → Str
  | [] => []
  | c :: s => match trimEnd s with
    | [] => if isWs c then [] else [c]
    | t@(_ :: _) => c :: t

/-- `str::trim`. -/
def trim (s : Str) : Str := trimEnd (trimStart s)

/-- `str::trim_start_matches(ch)`. -/
def trimStartMatches (ch : Char) (s : Str) : Str := s.dropWhile (· == ch)

/-- `str::trim_end_matches(ch)`. -/
def trimEndMatches (ch : Char) : Str → Str
  | [] => []
  | c :: s => match trimEndMatches ch s with
    | [] => if c == ch then [] else [c]
    | t@(_ :: _) => c :: t

/-- `str::len`: length in UTF-8 bytes. -/
def byteLen : Str → Nat
  | [] => 0
  | c :: s => c.utf8Size + byteLen s

/-- `&s[..n]` with `n` a byte index; `none` is the panic (out of range or not a char boundary). -/
def takeBytes : Str → Nat → Option Str
  | _, 0 => some []
  | [], _ + 1 => none
  | c :: s, n + 1 =>
    if c.utf8Size ≤ n + 1 then (takeBytes s (n + 1 - c.utf8Size)).map (c :: ·) else none

/-- `str::split_once(ch)`. -/
def splitOnce (ch : Char) : Str → Option (Str × Str)
  | [] => none
  | c :: s => if c = ch then some ([], s) else (splitOnce ch s).map fun (a, b) => (c :: a, b)

/-- `str::split(ch).collect::<Vec<&str>>()` (never empty). -/
def split (ch : Char) : Str → List Str
  | [] => [[]]
  | c :: s =>
    if c = ch then [] :: split ch s
    else match split ch s with
      | [] => [[c]]
      | p :: ps => (c :: p) :: ps

/-- `str::starts_with(&str)`. -/
def startsWith (pre : Str) (s : Str) : Bool := pre.isPrefixOf s

/-- `str::ends_with(char)`. -/
def endsWith (ch : Char) (s : Str) : Bool := s.getLast? == some ch

/-- `str::contains(&str)`. -/
def contains (pat : Str) : Str → Bool
  | [] => pat.isPrefixOf []
  | c :: s => pat.isPrefixOf (c :: s) || contains pat s

/-- `str::find(&str)`: byte index of the first occurrence. -/
def findStr (pat : Str) : Str → Option Nat
  | [] => if pat.isPrefixOf [] then some 0 else none
  | c :: s => if pat.isPrefixOf (c :: s) then some 0 else (findStr pat s).map (c.utf8Size + ·)

/-- `str::replace("0x", "")` (src/parser.rs:415,1010,1028, src/bin/bin.rs:64):
left-to-right, non-overlapping removal of the two-character pattern. -/
def remove0x : Str → Str
  | '0' :: 'x' :: s => remove0x s
  | c :: s => c :: remove0x s
  | [] => []

/-- `str::replace(&['(', ')'][..], "")` (src/parser.rs:209,750,997). -/
def removeParens (s : Str) : Str := s.filter fun c => !(c == '(' || c == ')')

/-- `str::replace('(', "")` (src/parser.rs:762). -/
def removeOpenParen (s : Str) : Str := s.filter fun c => !(c == '(')

/-- `str::eq_ignore_ascii_case` (generated by strum's `ascii_case_insensitive`). -/
def eqIgnoreCase (a b : Str) : Bool := a.map asciiLower == b.map asciiLower

/-- `str::lines`: pieces terminated by `\n`, with one trailing `\r` removed from a piece that was
terminated by `\n`; a final empty piece is not produced. -/
def lines : Str → List Str
  | [] => []
  | c :: s =>
    if c = '\n' then [] :: lines s
    else match s, lines s with
      | [], _ => [[c]]
      | '\n' :: _, p :: ps => if c = '\r' then p :: ps else (c :: p) :: ps
      | _, p :: ps => (c :: p) :: ps
      | _, [] => [[c]]

end Mips
