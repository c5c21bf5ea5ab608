/-
Model of the pure parts of src/bin/bin.rs: base-address parsing, symbol-table collection, byte order,
and the text that is printed.  The two modes are in Model/Main.  Argument parsing (clap) and YAML parsing
(yaml_rust) are not modelled; file I/O, with its failures, is in Model/Io.
-/
import Verif.Model.Lib

namespace Mips.Cli

open Mips

/-- Base address (src/bin/bin.rs:64-68); `none` is the "Invalid base address" exit. -/
def parseBase (s : Str) : Option Word := (parseU32Hex (remove0x s)).map (BitVec.ofNat 32)

/-- `k.as_i64() as u32` and `HashMap::from_iter` (src/bin/bin.rs:47-62) on the (key, value) pairs of the
YAML mapping: a later entry with the same key replaces the earlier one. -/
def collectSyms (kvs : List (Int × Str)) : List (Word × Str) :=
  kvs.foldl (fun m kv => m.filter (fun e => !(e.1 == BitVec.ofInt 32 kv.1)) ++ [(BitVec.ofInt 32 kv.1, kv.2)]) []

/-- `u32::to_be_bytes` -/
def toBe (w : Word) : List (BitVec 8) :=
  [(w >>> 24).setWidth 8, (w >>> 16).setWidth 8, (w >>> 8).setWidth 8, w.setWidth 8]

/-- The bytes written by `asm -o` (src/bin/bin.rs:84-90). -/
def outBytes (ws : List Word) : List (BitVec 8) := ws.flatMap toBe

/-- `u32::from_be_bytes` -/
def ofBe (a b c d : BitVec 8) : Word :=
  (a.setWidth 32 <<< 24) ||| (b.setWidth 32 <<< 16) ||| (c.setWidth 32 <<< 8) ||| d.setWidth 32

/-- The reading loop of `disasm` (src/bin/bin.rs:96-107); `none` is the slice panic on fewer than
four remaining bytes (the loop body runs before the emptiness test). -/
def readWords : List (BitVec 8) → Option (List Word)
  | a :: b :: c :: d :: rest =>
    match rest with
    | [] => some [ofBe a b c d]
    | _ :: _ => (readWords rest).map (ofBe a b c d :: ·)
  | _ => none

/-- `println!("{:08X?}", output)` (src/bin/bin.rs:92), without the newline. -/
def hexList (ws : List Word) : Str :=
  c!"[" ++ (List.intercalate c!", " (ws.map fun w => zeroPad 8 (hexUpper w.toNat))) ++ c!"]"

end Mips.Cli
