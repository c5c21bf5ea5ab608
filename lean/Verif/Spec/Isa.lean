/-
SPECIFICATION (not a model of the code): the MIPS III instruction set of the VR4300, transcribed from
the opcode maps and instruction formats of the processor manual.  Nothing in this file refers to the
model of mipsasm, only to `Str` (lists of characters).
-/
import Verif.Model.Str

namespace Mips.Isa

/-- An operand, with its value as a bit field. -/
inductive Arg where
  /-- a general-purpose register -/
  | gpr (r : BitVec 5)
  /-- a floating-point register -/
  | fpr (r : BitVec 5)
  /-- a coprocessor 0 register -/
  | c0 (r : BitVec 5)
  /-- a shift amount -/
  | sa (v : BitVec 5)
  /-- a signed 16-bit immediate -/
  | simm (v : BitVec 16)
  /-- an unsigned 16-bit immediate -/
  | uimm (v : BitVec 16)
  /-- a branch offset, in instructions relative to the delay slot -/
  | off (v : BitVec 16)
  /-- `offset(base)` -/
  | mem (v : BitVec 16) (base : BitVec 5)
  /-- the cache operation -/
  | cop (v : BitVec 5)
  /-- the code of `break` and `syscall` -/
  | code (v : BitVec 20)
  /-- the instruction index of `j` and `jal` -/
  | target (v : BitVec 26)
  deriving DecidableEq, Repr

/-- Operand syntax of an instruction, named after the format line of the manual. -/
inductive Syn where
  | rdRsRt | rdRtSa | rdRtRs | rsRt | rs | rd | rdRs | code | none
  | rtRsSimm | rtRsUimm | rtUimm | rsSimm | rtMem | ftMem | copMem
  | rsRtOff | rsOff | off | target
  | rtC0 | rtFs | fdFsFt | fdFs | fsFt
  deriving DecidableEq, Repr

/-- Position in the opcode maps. -/
inductive Code where
  /-- main map: bits 31..26 -/
  | main (op : BitVec 6)
  /-- SPECIAL map: bits 5..0 -/
  | special (fn : BitVec 6)
  /-- REGIMM map: bits 20..16 -/
  | regimm (rt : BitVec 5)
  /-- COPz map: bits 25..21 -/
  | cop (z : BitVec 2) (rs : BitVec 5)
  /-- BCz map: bits 20..16 -/
  | bc (z : BitVec 2) (rt : BitVec 5)
  /-- CP0 function map: bits 5..0 -/
  | co (fn : BitVec 6)
  /-- COP1 format (bits 25..21) and function map (bits 5..0) -/
  | fp (fmt : BitVec 5) (fn : BitVec 6)
  deriving DecidableEq, Repr

/-- `*`: no instruction of the VR4300 integer, CP0 and CP1 sets at this position. -/
def X : Str := []

/-- Main opcode map, bits 31..26. -/
def mainMap : List Str :=
  [X,          X,          c!"j",    c!"jal",   c!"beq",  c!"bne",  c!"blez",  c!"bgtz",
   c!"addi",   c!"addiu",  c!"slti", c!"sltiu", c!"andi", c!"ori",  c!"xori",  c!"lui",
   X,          X,          X,        X,         c!"beql", c!"bnel", c!"blezl", c!"bgtzl",
   c!"daddi",  c!"daddiu", c!"ldl",  c!"ldr",   X,        X,        X,         X,
   c!"lb",     c!"lh",     c!"lwl",  c!"lw",    c!"lbu",  c!"lhu",  c!"lwr",   c!"lwu",
   c!"sb",     c!"sh",     c!"swl",  c!"sw",    c!"sdl",  c!"sdr",  c!"swr",   c!"cache",
   c!"ll",     c!"lwc1",   X,        X,         c!"lld",  c!"ldc1", X,         c!"ld",
   c!"sc",     c!"swc1",   X,        X,         c!"scd",  c!"sdc1", X,         c!"sd"]

/-- SPECIAL function map, bits 5..0. -/
def specialMap : List Str :=
  [c!"sll",  X,         c!"srl",  c!"sra",  c!"sllv",    X,         c!"srlv",   c!"srav",
   c!"jr",   c!"jalr",  X,        X,        c!"syscall", c!"break", X,          c!"sync",
   c!"mfhi", c!"mthi",  c!"mflo", c!"mtlo", c!"dsllv",   X,         c!"dsrlv",  c!"dsrav",
   c!"mult", c!"multu", c!"div",  c!"divu", c!"dmult",   c!"dmultu", c!"ddiv",  c!"ddivu",
   c!"add",  c!"addu",  c!"sub",  c!"subu", c!"and",     c!"or",    c!"xor",    c!"nor",
   X,        X,         c!"slt",  c!"sltu", c!"dadd",    c!"daddu", c!"dsub",   c!"dsubu",
   c!"tge",  c!"tgeu",  c!"tlt",  c!"tltu", c!"teq",     X,         c!"tne",    X,
   c!"dsll", X,         c!"dsrl", c!"dsra", c!"dsll32",  X,         c!"dsrl32", c!"dsra32"]

/-- REGIMM map, bits 20..16. -/
def regimmMap : List Str :=
  [c!"bltz",   c!"bgez",   c!"bltzl",   c!"bgezl",   X,       X, X,       X,
   c!"tgei",   c!"tgeiu",  c!"tlti",    c!"tltiu",   c!"teqi", X, c!"tnei", X,
   c!"bltzal", c!"bgezal", c!"bltzall", c!"bgezall", X,       X, X,       X,
   X, X, X, X, X, X, X, X]

/-- COPz map, bits 25..21, without the coprocessor number (8 is BC, 16..31 are the CO functions). -/
def copMap : List Str := [c!"mfc", c!"dmfc", c!"cfc", X, c!"mtc", c!"dmtc", c!"ctc", X]

/-- CP0 function map, bits 5..0. -/
def cp0Map : List (Str × Nat) :=
  [(c!"tlbr", 1), (c!"tlbwi", 2), (c!"tlbwr", 6), (c!"tlbp", 8), (c!"eret", 24)]

/-- CP1 function map, bits 5..0, for the rows that are not compares. -/
def cp1Map : List Str :=
  [c!"add",     c!"sub",     c!"mul",    c!"div",     c!"sqrt",    c!"abs",     c!"mov",    c!"neg",
   c!"round.l", c!"trunc.l", c!"ceil.l", c!"floor.l", c!"round.w", c!"trunc.w", c!"ceil.w", c!"floor.w",
   X, X, X, X, X, X, X, X, X, X, X, X, X, X, X, X,
   c!"cvt.s",   c!"cvt.d",   X,          X,           c!"cvt.w",   c!"cvt.l"]

/-- The compare conditions, functions 48..63. -/
def conds : List Str :=
  [c!"f", c!"un", c!"eq", c!"ueq", c!"olt", c!"ult", c!"ole", c!"ule",
   c!"sf", c!"ngle", c!"seq", c!"ngl", c!"lt", c!"nge", c!"le", c!"ngt"]

/-- Format field: `s` single, `d` double, `w` 32-bit integer, `l` 64-bit integer. -/
def fmtCode : Char → BitVec 5
  | 's' => 16#5 | 'd' => 17#5 | 'w' => 20#5 | _ => 21#5

/-- The source formats each CP1 function is defined for. -/
def fmtsOf (base : Str) : List Char :=
  if base = c!"cvt.s" then ['d', 'w', 'l']
  else if base = c!"cvt.d" then ['s', 'w', 'l']
  else ['s', 'd']

/-- Operand syntax of each mnemonic outside CP1 arithmetic. -/
def synTable : List (Syn × List Str) :=
  [(.rdRsRt, [c!"add", c!"addu", c!"and", c!"dadd", c!"daddu", c!"dsub", c!"dsubu", c!"nor", c!"or",
      c!"slt", c!"sltu", c!"sub", c!"subu", c!"xor"]),
   (.rdRtSa, [c!"dsll", c!"dsll32", c!"dsra", c!"dsra32", c!"dsrl", c!"dsrl32", c!"sll", c!"sra", c!"srl"]),
   (.rdRtRs, [c!"dsllv", c!"dsrav", c!"dsrlv", c!"sllv", c!"srav", c!"srlv"]),
   (.rsRt, [c!"ddiv", c!"ddivu", c!"div", c!"divu", c!"dmult", c!"dmultu", c!"mult", c!"multu",
      c!"teq", c!"tge", c!"tgeu", c!"tlt", c!"tltu", c!"tne"]),
   (.rs, [c!"jr", c!"mthi", c!"mtlo"]),
   (.rd, [c!"mfhi", c!"mflo"]),
   (.rdRs, [c!"jalr"]),
   (.code, [c!"break", c!"syscall"]),
   (.none, [c!"sync", c!"tlbr", c!"tlbwi", c!"tlbwr", c!"tlbp", c!"eret"]),
   (.rtRsSimm, [c!"addi", c!"addiu", c!"daddi", c!"daddiu", c!"slti", c!"sltiu"]),
   (.rtRsUimm, [c!"andi", c!"ori", c!"xori"]),
   (.rtUimm, [c!"lui"]),
   (.rsSimm, [c!"teqi", c!"tgei", c!"tgeiu", c!"tlti", c!"tltiu", c!"tnei"]),
   (.rtMem, [c!"lb", c!"lbu", c!"ld", c!"ldl", c!"ldr", c!"lh", c!"lhu", c!"ll", c!"lld", c!"lw",
      c!"lwl", c!"lwr", c!"lwu", c!"sb", c!"sc", c!"scd", c!"sd", c!"sdl", c!"sdr", c!"sh", c!"sw",
      c!"swl", c!"swr"]),
   (.ftMem, [c!"ldc1", c!"lwc1", c!"sdc1", c!"swc1"]),
   (.copMem, [c!"cache"]),
   (.rsRtOff, [c!"beq", c!"beql", c!"bne", c!"bnel"]),
   (.rsOff, [c!"bgez", c!"bgezal", c!"bgezall", c!"bgezl", c!"bgtz", c!"bgtzl", c!"blez", c!"blezl",
      c!"bltz", c!"bltzal", c!"bltzall", c!"bltzl"]),
   (.off, [c!"bc0f", c!"bc0t", c!"bc0fl", c!"bc0tl", c!"bc1f", c!"bc1t", c!"bc1fl", c!"bc1tl"]),
   (.target, [c!"j", c!"jal"]),
   (.rtC0, [c!"mfc0", c!"dmfc0", c!"cfc0", c!"mtc0", c!"dmtc0", c!"ctc0"]),
   (.rtFs, [c!"mfc1", c!"dmfc1", c!"cfc1", c!"mtc1", c!"dmtc1", c!"ctc1"])]

/-- One instruction: mnemonic, operand syntax, opcode-map position. -/
structure Row where
  mn : Str
  syn : Syn
  code : Code
  deriving DecidableEq, Repr

/-- Look up the operand syntax of a mnemonic. -/
def synOf (mn : Str) : Syn :=
  match synTable.find? fun e => e.2.contains mn with
  | some e => e.1
  | Option.none => .none

/-- The rows of one map: the entry at position `k` gets the code `f k`. -/
def rowsOf (map : List Str) (f : Nat → Code) : List Row :=
  (map.zipIdx.filter fun e => !e.1.isEmpty).map fun e => ⟨e.1, synOf e.1, f e.2⟩

/-- Rows of the CP1 function map. -/
def fpRows : List Row :=
  (cp1Map.zipIdx.filter fun e => !e.1.isEmpty).flatMap fun e =>
    (fmtsOf e.1).map fun c =>
      ⟨e.1 ++ ['.', c], if e.2 < 4 then .fdFsFt else .fdFs, .fp (fmtCode c) (BitVec.ofNat 6 e.2)⟩

/-- Rows of the compares. -/
def condRows : List Row :=
  conds.zipIdx.flatMap fun e => ['s', 'd'].map fun c =>
    ⟨c!"c." ++ e.1 ++ ['.', c], .fsFt, .fp (fmtCode c) (BitVec.ofNat 6 (48 + e.2))⟩

/-- The instruction set: all rows of all maps. -/
def table : List Row :=
  rowsOf mainMap (fun k => .main (BitVec.ofNat 6 k)) ++
  rowsOf specialMap (fun k => .special (BitVec.ofNat 6 k)) ++
  rowsOf regimmMap (fun k => .regimm (BitVec.ofNat 5 k)) ++
  rowsOf (copMap.map fun m => if m.isEmpty then m else m ++ ['0']) (fun k => .cop 0#2 (BitVec.ofNat 5 k)) ++
  rowsOf (copMap.map fun m => if m.isEmpty then m else m ++ ['1']) (fun k => .cop 1#2 (BitVec.ofNat 5 k)) ++
  rowsOf [c!"bc0f", c!"bc0t", c!"bc0fl", c!"bc0tl"] (fun k => .bc 0#2 (BitVec.ofNat 5 k)) ++
  rowsOf [c!"bc1f", c!"bc1t", c!"bc1fl", c!"bc1tl"] (fun k => .bc 1#2 (BitVec.ofNat 5 k)) ++
  cp0Map.map (fun e => ⟨e.1, synOf e.1, .co (BitVec.ofNat 6 e.2)⟩) ++
  fpRows ++ condRows

/-! ### Instruction words -/

/-- R-type word: opcode, rs, rt, rd, sa, function. -/
def rWord (op : BitVec 6) (rs rt rd sa : BitVec 5) (fn : BitVec 6) : BitVec 32 :=
  op ++ rs ++ rt ++ rd ++ sa ++ fn
/-- I-type word: opcode, rs, rt, immediate. -/
def iWord (op : BitVec 6) (rs rt : BitVec 5) (imm : BitVec 16) : BitVec 32 := op ++ rs ++ rt ++ imm
/-- J-type word: opcode, instruction index. -/
def jWord (op : BitVec 6) (t : BitVec 26) : BitVec 32 := op ++ t

/-- Opcode of coprocessor `z`. -/
def copOp (z : BitVec 2) : BitVec 6 := 4#4 ++ z

/-- The word of an instruction, given its map position and operands; all other fields are zero. -/
def place : Code → Syn → List Arg → Option (BitVec 32)
  | .special f, .rdRsRt, [.gpr rd, .gpr rs, .gpr rt] => some (rWord 0 rs rt rd 0 f)
  | .special f, .rdRtSa, [.gpr rd, .gpr rt, .sa v] => some (rWord 0 0 rt rd v f)
  | .special f, .rdRtRs, [.gpr rd, .gpr rt, .gpr rs] => some (rWord 0 rs rt rd 0 f)
  | .special f, .rsRt, [.gpr rs, .gpr rt] => some (rWord 0 rs rt 0 0 f)
  | .special f, .rs, [.gpr rs] => some (rWord 0 rs 0 0 0 f)
  | .special f, .rd, [.gpr rd] => some (rWord 0 0 0 rd 0 f)
  | .special f, .rdRs, [.gpr rd, .gpr rs] => some (rWord 0 rs 0 rd 0 f)
  | .special f, .code, [.code v] => some (0#6 ++ v ++ f)
  | .special f, .none, [] => some (rWord 0 0 0 0 0 f)
  | .main o, .rtRsSimm, [.gpr rt, .gpr rs, .simm v] => some (iWord o rs rt v)
  | .main o, .rtRsUimm, [.gpr rt, .gpr rs, .uimm v] => some (iWord o rs rt v)
  | .main o, .rtUimm, [.gpr rt, .uimm v] => some (iWord o 0 rt v)
  | .main o, .rtMem, [.gpr rt, .mem v b] => some (iWord o b rt v)
  | .main o, .ftMem, [.fpr ft, .mem v b] => some (iWord o b ft v)
  | .main o, .copMem, [.cop c, .mem v b] => some (iWord o b c v)
  | .main o, .rsRtOff, [.gpr rs, .gpr rt, .off v] => some (iWord o rs rt v)
  | .main o, .rsOff, [.gpr rs, .off v] => some (iWord o rs 0 v)
  | .main o, .target, [.target t] => some (jWord o t)
  | .regimm c, .rsOff, [.gpr rs, .off v] => some (iWord 1 rs c v)
  | .regimm c, .rsSimm, [.gpr rs, .simm v] => some (iWord 1 rs c v)
  | .cop z c, .rtC0, [.gpr rt, .c0 rd] => some (rWord (copOp z) c rt rd 0 0)
  | .cop z c, .rtFs, [.gpr rt, .fpr rd] => some (rWord (copOp z) c rt rd 0 0)
  | .bc z c, .off, [.off v] => some (iWord (copOp z) 8 c v)
  | .co f, .none, [] => some (rWord (copOp 0) 16 0 0 0 f)
  | .fp m f, .fdFsFt, [.fpr fd, .fpr fs, .fpr ft] => some (rWord (copOp 1) m ft fs fd f)
  | .fp m f, .fdFs, [.fpr fd, .fpr fs] => some (rWord (copOp 1) m 0 fs fd f)
  | .fp m f, .fsFt, [.fpr fs, .fpr ft] => some (rWord (copOp 1) m ft fs 0 f)
  | _, _, _ => Option.none

/-- The encoding of the instruction `mn args`, if there is such an instruction. -/
def encoding (mn : Str) (args : List Arg) : Option (BitVec 32) :=
  match table.find? fun r => r.mn == mn with
  | some r => place r.code r.syn args
  | Option.none => Option.none

/-! ### Decoding -/

/-- bits 31..26 -/
def fOp (w : BitVec 32) : BitVec 6 := w.extractLsb' 26 6
/-- bits 25..21 -/
def fRs (w : BitVec 32) : BitVec 5 := w.extractLsb' 21 5
/-- bits 20..16 -/
def fRt (w : BitVec 32) : BitVec 5 := w.extractLsb' 16 5
/-- bits 15..11 -/
def fRd (w : BitVec 32) : BitVec 5 := w.extractLsb' 11 5
/-- bits 10..6 -/
def fSa (w : BitVec 32) : BitVec 5 := w.extractLsb' 6 5
/-- bits 5..0 -/
def fFn (w : BitVec 32) : BitVec 6 := w.extractLsb' 0 6
/-- bits 15..0 -/
def fImm (w : BitVec 32) : BitVec 16 := w.extractLsb' 0 16
/-- bits 25..6 -/
def fCode (w : BitVec 32) : BitVec 20 := w.extractLsb' 6 20
/-- bits 25..0 -/
def fTarget (w : BitVec 32) : BitVec 26 := w.extractLsb' 0 26

/-- The position of a word in the opcode maps. -/
def codeOf (w : BitVec 32) : Code :=
  if fOp w = 0#6 then .special (fFn w)
  else if fOp w = 1#6 then .regimm (fRt w)
  else if fOp w = copOp 0 then
    if fRs w = 8#5 then .bc 0 (fRt w) else if fRs w < 16#5 then .cop 0 (fRs w) else .co (fFn w)
  else if fOp w = copOp 1 then
    if fRs w = 8#5 then .bc 1 (fRt w) else if fRs w < 16#5 then .cop 1 (fRs w) else .fp (fRs w) (fFn w)
  else .main (fOp w)

/-- The operands of a word, given the operand syntax of its instruction. -/
def argsOf (w : BitVec 32) : Syn → List Arg
  | .rdRsRt => [.gpr (fRd w), .gpr (fRs w), .gpr (fRt w)]
  | .rdRtSa => [.gpr (fRd w), .gpr (fRt w), .sa (fSa w)]
  | .rdRtRs => [.gpr (fRd w), .gpr (fRt w), .gpr (fRs w)]
  | .rsRt => [.gpr (fRs w), .gpr (fRt w)]
  | .rs => [.gpr (fRs w)]
  | .rd => [.gpr (fRd w)]
  | .rdRs => [.gpr (fRd w), .gpr (fRs w)]
  | .code => [.code (fCode w)]
  | .none => []
  | .rtRsSimm => [.gpr (fRt w), .gpr (fRs w), .simm (fImm w)]
  | .rtRsUimm => [.gpr (fRt w), .gpr (fRs w), .uimm (fImm w)]
  | .rtUimm => [.gpr (fRt w), .uimm (fImm w)]
  | .rsSimm => [.gpr (fRs w), .simm (fImm w)]
  | .rtMem => [.gpr (fRt w), .mem (fImm w) (fRs w)]
  | .ftMem => [.fpr (fRt w), .mem (fImm w) (fRs w)]
  | .copMem => [.cop (fRt w), .mem (fImm w) (fRs w)]
  | .rsRtOff => [.gpr (fRs w), .gpr (fRt w), .off (fImm w)]
  | .rsOff => [.gpr (fRs w), .off (fImm w)]
  | .off => [.off (fImm w)]
  | .target => [.target (fTarget w)]
  | .rtC0 => [.gpr (fRt w), .c0 (fRd w)]
  | .rtFs => [.gpr (fRt w), .fpr (fRd w)]
  | .fdFsFt => [.fpr (fSa w), .fpr (fRd w), .fpr (fRt w)]
  | .fdFs => [.fpr (fSa w), .fpr (fRd w)]
  | .fsFt => [.fpr (fRd w), .fpr (fRt w)]

/-- The instruction a word denotes according to the opcode maps; `none` for reserved positions. -/
def decoding (w : BitVec 32) : Option (Str × List Arg) :=
  (table.find? fun r => decide (r.code = codeOf w)).map fun r => (r.mn, argsOf w r.syn)

/-- A word all of whose unused fields are zero: it is the encoding of what it denotes. -/
def Canonical (w : BitVec 32) : Prop :=
  ∃ mn args, decoding w = some (mn, args) ∧ encoding mn args = some w

end Mips.Isa
