/-
SPECIFICATION (not a model of the code): what the command-line tool is to write, from the contents of the files at the start alone.
-/
import Verif.Model.Io
import Verif.Spec.Code
import Verif.Spec.Columns
import Verif.Spec.Errors
import Verif.Spec.Warnings
import Verif.Spec.Message
import Verif.Spec.Main
import Verif.Props.CliP

namespace Mips.Cli
open Mips Syntax

/-- The text of the symbol file; no file counts as an empty one. -/
def SymText (c : Cmd) (d : Disk) (text : Str) : Prop := match c.syms with | none => text = [] | some p => d p = some (utf8 text)

/-- The base address is written in hexadecimal; `0x` is left out wherever it occurs, a plus sign may stand in front. -/
def BaseText (s : Str) (addr : BitVec 32) : Prop := ∃ t, (remove0x s = t ∨ remove0x s = '+' :: t) ∧ Digits hexDigits t addr.toNat

/-- The symbol file is UTF-8 and YAML, with the entries `syms` in some order; the base address is `addr`. -/
def Configured (L : Lib) (c : Cmd) (d : Disk) (syms : List (BitVec 32 × Str)) (addr : BitVec 32) : Prop :=
  ∃ text y, SymText c d text ∧ L.yaml text = some y ∧ syms = L.order (loadSyms y) ∧ BaseText c.base addr

/-- The result of a run: the contents of the output file, or the text on standard output. -/
inductive Result [Unicode] (ovf : Bool) (L : Lib) (c : Cmd) (d : Disk) : Bytes → Str → Prop
  /-- the code of the program, if it is accepted -/
  | asm (syms addr data ws file text) : c.mode = .asm → Configured L c d syms addr → d c.input = some (utf8 data) →
      Lang.Accepted ⟨ovf, addr, syms, lines data⟩ → Lang.Generates ⟨ovf, addr, syms, lines data⟩ (lines data).length ws →
      Stored ws file → PrintedWords text ws → Result ovf L c d file text
  /-- the listing of the words, if there is one -/
  | disasm (syms addr bytes ws) : c.mode = .disasm → Configured L c d syms addr → d c.input = some bytes → bytes ≠ [] → Stored ws bytes →
      ¬ Listing.NoListing ovf (fun a => syms.lookup a) addr ws →
      Result ovf L c d (utf8 (Listing.listing (fun a => syms.lookup a) addr ws).flatten)
        ((Listing.listing (fun a => syms.lookup a) addr ws).flatMap fun l => l ++ c!"\n")

/-- The end of a run: a status, the disk and the texts on standard output and standard error; or a panic. -/
inductive End
  | status (n : Nat) (disk : Disk) (out err : Str)
  | panic

/-- These files are not UTF-8. -/
def NotText (bs : Bytes) : Prop := ∀ t, bs ≠ utf8 t

/-- The texts `ts` are the messages of `xs`. -/
inductive Messages {α : Type} (message : α → Str → Prop) : List α → List Str → Prop
  | nil : Messages message [] []
  | cons (x xs t ts) : message x t → Messages message xs ts → Messages message (x :: xs) (t :: ts)

/-- The texts, each on lines of its own. -/
def onLines (ts : List Str) : Str := ts.flatMap fun t => t ++ c!"\n"

/-- The end of a successful run: the result goes to the output file if there is one, otherwise to standard output. -/
def success (c : Cmd) (d : Disk) (file : Bytes) (text err : Str) : End :=
  match c.output with
  | some p => .status 0 (d.set p file) [] err
  | none => .status 0 d text err

/-- How a run ends in which no operation on files fails. -/
inductive Ends [Unicode] (ovf : Bool) (L : Lib) (c : Cmd) (d : Disk) : End → Prop
  /-- the symbol file is not UTF-8 -/
  | symbols (p bs) : c.syms = some p → d p = some bs → NotText bs → Ends ovf L c d (.status 1 d [] (c!"Error: " ++ L.badUtf8 ++ c!"\n"))
  /-- the symbol file is not YAML -/
  | yaml (text) : SymText c d text → L.yaml text = none → Ends ovf L c d .panic
  /-- there is no base address -/
  | base (text y) : SymText c d text → L.yaml text = some y → (∀ addr, ¬ BaseText c.base addr) →
      Ends ovf L c d (.status 1 d [] (c!"Error: Invalid base address `" ++ c.base ++ c!"`\n"))
  /-- the program to assemble is not UTF-8 -/
  | input (syms addr bs) : c.mode = .asm → Configured L c d syms addr → d c.input = some bs → NotText bs →
      Ends ovf L c d (.status 1 d [] (c!"Error: " ++ L.badUtf8 ++ c!"\n"))
  /-- the program makes the assembler panic -/
  | crash (syms addr data) : c.mode = .asm → Configured L c d syms addr → d c.input = some (utf8 data) →
      Lang.Panics ⟨ovf, addr, syms, lines data⟩ → Ends ovf L c d .panic
  /-- the program is accepted: its warnings, then its code -/
  | code (syms addr data ws warns ts file text) : c.mode = .asm → Configured L c d syms addr → d c.input = some (utf8 data) →
      Lang.Accepted ⟨ovf, addr, syms, lines data⟩ → Lang.Generates ⟨ovf, addr, syms, lines data⟩ (lines data).length ws →
      Lang.Warns ⟨ovf, addr, syms, lines data⟩ warns → Messages Diag.WarningMessage warns ts → Stored ws file → PrintedWords text ws →
      Ends ovf L c d (success c d file text (onLines ts))
  /-- the program is refused: its warnings, then its errors -/
  | errors (syms addr data es warns ts us) : c.mode = .asm → Configured L c d syms addr → d c.input = some (utf8 data) →
      Lang.Refused ⟨ovf, addr, syms, lines data⟩ → Lang.Reports ⟨ovf, addr, syms, lines data⟩ es →
      Lang.Warns ⟨ovf, addr, syms, lines data⟩ warns → Messages Diag.WarningMessage warns ts → Messages Diag.ErrorMessage es us →
      Ends ovf L c d (.status 1 d [] (onLines (ts ++ us)))
  /-- the program is refused, but what an error quotes does not occur in the line it names -/
  | unquoted (syms addr data es e) : c.mode = .asm → Configured L c d syms addr → d c.input = some (utf8 data) →
      Lang.Refused ⟨ovf, addr, syms, lines data⟩ → Lang.Reports ⟨ovf, addr, syms, lines data⟩ es → e ∈ es →
      ¬ (∀ m ∈ Shown.marks e, m.1 <:+: m.2.content) → Ends ovf L c d .panic
  /-- there are no words to disassemble, or a broken one -/
  | words (syms addr bytes) : c.mode = .disasm → Configured L c d syms addr → d c.input = some bytes →
      (bytes = [] ∨ ∀ ws, ¬ Stored ws bytes) → Ends ovf L c d .panic
  /-- the words have no listing -/
  | noListing (syms addr bytes ws) : c.mode = .disasm → Configured L c d syms addr → d c.input = some bytes → bytes ≠ [] → Stored ws bytes →
      Listing.NoListing ovf (fun a => syms.lookup a) addr ws → Ends ovf L c d .panic
  /-- the listing of the words -/
  | listing (syms addr bytes ws) : c.mode = .disasm → Configured L c d syms addr → d c.input = some bytes → bytes ≠ [] → Stored ws bytes →
      ¬ Listing.NoListing ovf (fun a => syms.lookup a) addr ws →
      Ends ovf L c d (success c d (utf8 (Listing.listing (fun a => syms.lookup a) addr ws).flatten)
        (onLines (Listing.listing (fun a => syms.lookup a) addr ws)) [])

/-- A moment of a run that is this end. -/
def IsEnd (s : St) : End → Prop
  | .status n disk out err => s.io = .exit n ∧ s.disk = disk ∧ s.out = utf8 out ∧ s.err = utf8 err
  | .panic => s.io = .panic

end Mips.Cli
