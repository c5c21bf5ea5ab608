/-
Model of `main` in src/bin/bin.rs as a program that reads and writes files: the order of its effects, every failure of the file
system, and every point at which it may be interrupted.  The operating system is modelled by `Step`: each read, creation, write and
print may succeed, or fail at any time with any message, a write or print also after a part of its bytes.
Not modelled: clap's argument parsing, the YAML grammar (a parameter, `Lib.yaml`), several names of one file, other processes
changing the files, and, on standard error, the message of a panic and the warnings printed before the assembler panics.
-/
import Verif.Model.Main

namespace Mips.Cli
open Mips

/-- Contents of files. -/
abbrev Bytes := List (BitVec 8)

/-- The UTF-8 encoding of a text (Rust strings are UTF-8). -/
def utf8 (s : Str) : Bytes := s.flatMap fun c => (String.utf8EncodeChar c).map UInt8.toBitVec

/-- `String::from_utf8`: Lean's decoder, which inverts the encoding (`fromUtf8_iff`). -/
def fromUtf8 (bs : Bytes) : Option Str := ((bs.map UInt8.ofBitVec).toByteArray.utf8Decode?).map Array.toList

/-- `Mode` (src/bin/bin.rs:33-37). -/
inductive Mode
  | asm
  | disasm
  deriving DecidableEq

/-- The command line after parsing (src/bin/bin.rs:13-31); paths are names of files. -/
structure Cmd where
  mode : Mode
  output : Option Str
  syms : Option Str
  input : Str
  base : Str

/-- What the program takes from its libraries: `YamlLoader::load_from_str` (src/bin/bin.rs:46; `none`: it fails, otherwise the
top-level mapping of the first document, if there is one), the order in which the hash map of the symbols is iterated, and the text of
the error for a file that is not UTF-8. -/
structure Lib where
  yaml : Str → Option (Option (List (Yaml × Yaml)))
  yaml_empty : yaml [] = some none
  badUtf8 : Str
  order : List (Word × Str) → List (Word × Str)
  perm : ∀ l, (order l).Perm l

/-- A program that does input and output. -/
inductive Io
  /-- it has ended, with this status -/
  | exit (status : Nat)
  /-- it has panicked -/
  | panic
  /-- `main` returns an error: print the text to standard error (ignoring failures), and end with status 1 -/
  | fail (msg : Str)
  /-- `fs::read` -/
  | read (path : Str) (next : Except Str Bytes → Io)
  /-- `println!`; panics if it fails -/
  | out (text : Str) (next : Io)
  /-- `eprintln!`; panics if it fails -/
  | err (text : Str) (next : Io)
  /-- `File::create`: makes the file empty -/
  | create (path : Str) (next : Option Str → Io)
  /-- `write_all` to the file created -/
  | write (path : Str) (bytes : Bytes) (next : Option Str → Io)

/-- `?` in `main` (src/bin/bin.rs:39): the error is printed with `Debug` behind `Error: `, the status is 1. -/
def failed (e : Str) : Io := .fail (c!"Error: " ++ e ++ c!"\n")

/-- `?` behind an operation that may fail. -/
def orFail (next : Io) : Option Str → Io
  | none => next
  | some e => failed e

/-- `fs::read_to_string(path)?.parse()?` (src/bin/bin.rs:43,72; parsing a `String` never fails). -/
def readText (L : Lib) (path : Str) (next : Str → Io) : Io :=
  .read path fun
    | .error e => failed e
    | .ok bs => match fromUtf8 bs with
      | none => failed L.badUtf8
      | some s => next s

/-- The text of the symbol file, or the empty text (src/bin/bin.rs:42-45). -/
def symText (L : Lib) : Option Str → (Str → Io) → Io
  | none, next => next []
  | some p, next => readText L p next

/-- `eprintln!` of warnings, while the parser runs (src/parser.rs:295,304,321,333,348,354,492,526,533,607); a `Display` may panic. -/
def warnAll (ws : List ParserWarning) (next : Io) : Io :=
  ws.foldr (fun w k => match w.display with
    | none => .panic
    | some t => .err (t ++ c!"\n") k) next

/-- `for err in e { eprintln!("{}", err) }` (src/bin/bin.rs:76-78). -/
def errAll (es : List ParserError) (next : Io) : Io :=
  es.foldr (fun e k => match e.display with
    | none => .panic
    | some t => .err (t ++ c!"\n") k) next

/-- `Mode::Asm` (src/bin/bin.rs:71-94). -/
def runAsm [Unicode] (rt : Rt) (m : Mipsasm) (output : Option Str) (data : Str) : Io :=
  match assemble rt m data with
  | .panic => .panic
  | .err es ws => warnAll ws (errAll es (.exit 1))
  | .ok is ws => warnAll ws <| match output with
    | some p => .create p <| orFail <| .write p (outBytes (getBytes is)) <| orFail <| .exit 0
    | none => .out (hexList (getBytes is) ++ c!"\n") (.exit 0)

/-- `Mode::Disasm` (src/bin/bin.rs:95-118). -/
def runDisasm (rt : Rt) (m : Mipsasm) (output : Option Str) (bytes : Bytes) : Io :=
  match readWords bytes with
  | none => .panic
  | some ws => match disassemble rt m ws with
    | none => .panic
    | some ls => match output with
      | some p => .create p <| orFail <| ls.foldr (fun l k => .write p (utf8 l) (orFail k)) (.exit 0)
      | none => ls.foldr (fun l k => .out (l ++ c!"\n") k) (.exit 0)

/-- `main` (src/bin/bin.rs:39-121). -/
def program [Unicode] (rt : Rt) (L : Lib) (c : Cmd) : Io :=
  symText L c.syms fun y =>
  match L.yaml y with
  | none => .panic
  | some syms =>
    match parseBase c.base with
    | none => .err (c!"Error: Invalid base address `" ++ c.base ++ c!"`\n") (.exit 1)
    | some addr =>
      let m := (Mipsasm.new.setBase addr).setSymbols (L.order (loadSyms syms))
      match c.mode with
      | .asm => readText L c.input (runAsm rt m c.output)
      | .disasm => .read c.input fun
        | .error e => failed e
        | .ok bytes => runDisasm rt m c.output bytes

/-- The files that exist, and their contents. -/
abbrev Disk := Str → Option Bytes

/-- The disk with the contents of one file replaced. -/
def Disk.set (d : Disk) (p : Str) (bs : Bytes) : Disk := fun q => if q = p then some bs else d q

/-- A moment of a run: what remains to be done, the disk, and what has been written to standard output and standard error. -/
structure St where
  io : Io
  disk : Disk
  out : Bytes
  err : Bytes

/-- One operation of the operating system; `Step true` if it succeeds. -/
inductive Step : Bool → St → St → Prop
  | read {d o e p bs k} : d p = some bs → Step true ⟨.read p k, d, o, e⟩ ⟨k (.ok bs), d, o, e⟩
  | noRead {d o e p k} (x : Str) : Step false ⟨.read p k, d, o, e⟩ ⟨k (.error x), d, o, e⟩
  | out {d o e s k} : Step true ⟨.out s k, d, o, e⟩ ⟨k, d, o ++ utf8 s, e⟩
  | noOut {d o e s k} (t : Bytes) : t <+: utf8 s → Step false ⟨.out s k, d, o, e⟩ ⟨.panic, d, o ++ t, e⟩
  | err {d o e s k} : Step true ⟨.err s k, d, o, e⟩ ⟨k, d, o, e ++ utf8 s⟩
  | noErr {d o e s k} (t : Bytes) : t <+: utf8 s → Step false ⟨.err s k, d, o, e⟩ ⟨.panic, d, o, e ++ t⟩
  | fail {d o e s} : Step true ⟨.fail s, d, o, e⟩ ⟨.exit 1, d, o, e ++ utf8 s⟩
  | noFail {d o e s} (t : Bytes) : t <+: utf8 s → Step false ⟨.fail s, d, o, e⟩ ⟨.exit 1, d, o, e ++ t⟩
  | create {d o e p k} : Step true ⟨.create p k, d, o, e⟩ ⟨k none, Disk.set d p [], o, e⟩
  | noCreate {d o e p k} (x : Str) : Step false ⟨.create p k, d, o, e⟩ ⟨k (some x), d, o, e⟩
  | write {d o e p bs k} : Step true ⟨.write p bs k, d, o, e⟩ ⟨k none, Disk.set d p ((d p).getD [] ++ bs), o, e⟩
  | noWrite {d o e p bs k} (x : Str) (t : Bytes) : t <+: bs →
      Step false ⟨.write p bs k, d, o, e⟩ ⟨k (some x), Disk.set d p ((d p).getD [] ++ t), o, e⟩

/-- The moments of a run from a moment on; with `ok`, nothing fails. -/
inductive Reach (ok : Bool) : St → St → Prop
  | here (s : St) : Reach ok s s
  | next {s t u : St} (b : Bool) : (ok = true → b = true) → Step b s t → Reach ok t u → Reach ok s u

/-- The start of a run. -/
def start [Unicode] (rt : Rt) (L : Lib) (c : Cmd) (d : Disk) : St := ⟨program rt L c, d, [], []⟩

end Mips.Cli
