/-
Model of `main` in src/bin/bin.rs from the parsed command line on: symbol file, base address, the two modes,
standard output, standard error, output file and exit status.  Not modelled: clap's argument parsing, the
YAML grammar (the model starts from the top-level mapping of the first document).  Failing file I/O is in Model/Io.
-/
import Verif.Model.Cli

namespace Mips.Cli

open Mips

/-- A scalar of the YAML symbol file, as far as src/bin/bin.rs:53-54 looks at it. -/
inductive Yaml
  | int (v : Int)
  | str (s : Str)
  | other
  deriving DecidableEq

/-- `k.as_i64().unwrap_or_default()` (src/bin/bin.rs:53). -/
def Yaml.key : Yaml → Int
  | .int v => v
  | _ => 0

/-- `v.as_str().unwrap_or_default()` (src/bin/bin.rs:54). -/
def Yaml.val : Yaml → Str
  | .str s => s
  | _ => []

/-- The symbol table (src/bin/bin.rs:46-62); `none`: no file, an empty one, or one that is not a mapping. -/
def loadSyms : Option (List (Yaml × Yaml)) → List (Word × Str)
  | none => []
  | some kvs => collectSyms (kvs.map fun kv => (kv.1.key, kv.2.val))

/-- `Mode` (src/bin/bin.rs:33-37) with the contents of the input file. -/
inductive Job
  | asm (data : Str)
  | disasm (bytes : List (BitVec 8))

/-- The command line after parsing (src/bin/bin.rs:13-31), with the files read. -/
structure Args where
  job : Job
  toFile : Bool
  syms : Option (List (Yaml × Yaml))
  base : Str

/-- Contents of the output file: bytes (`asm`) or text (`disasm`). -/
inductive File
  | bytes (bs : List (BitVec 8))
  | text (s : Str)
  deriving DecidableEq

/-- What a run of the program does. -/
inductive Run
  | exit (status : Nat) (stdout stderr : Str) (file : Option File)
  | panic
  deriving DecidableEq

/-- `println!("{}", line)` / `eprintln!` of each line. -/
def linesOut (ls : List Str) : Str := ls.flatMap fun l => l ++ c!"\n"

/-- The warnings printed while assembling (each with `eprintln!`). -/
def warnText (ws : List ParserWarning) : Option Str := (ws.mapM ParserWarning.display).map linesOut

/-- `main` (src/bin/bin.rs:39-121). -/
def main [Unicode] (rt : Rt) (a : Args) : Run :=
  let syms := loadSyms a.syms
  match parseBase a.base with
  | none => .exit 1 [] (c!"Error: Invalid base address `" ++ a.base ++ c!"`\n") none
  | some addr =>
    let m := (Mipsasm.new.setBase addr).setSymbols syms
    match a.job with
    | .asm data =>
      match assemble rt m data with
      | .panic => .panic
      | .err es ws =>
        match warnText ws, es.mapM ParserError.display with
        | some wt, some ts => .exit 1 [] (wt ++ linesOut ts) none
        | _, _ => .panic
      | .ok is ws =>
        match warnText ws with
        | none => .panic
        | some wt =>
          if a.toFile then .exit 0 [] wt (some (.bytes (outBytes (getBytes is))))
          else .exit 0 (hexList (getBytes is) ++ c!"\n") wt none
    | .disasm bytes =>
      match readWords bytes with
      | none => .panic
      | some ws => match disassemble rt m ws with
        | none => .panic
        | some ls =>
          if a.toFile then .exit 0 [] [] (some (.text ls.flatten))
          else .exit 0 (linesOut ls) [] none

end Mips.Cli
