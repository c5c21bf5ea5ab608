# Formal model of imaandrew/mipsasm in Lean 4

## Layout

* `lean/Verif/Model/*`  - the model of the code that exists, one Lean module per Rust module
  (`Str`, `Num`, `Regex` model the parts of `std`/`regex` that the code calls).
* `lean/Verif/Spec/*`   - independent specifications: MIPS III opcode maps (`Isa`), a small MIPS III
  machine with delay slots and traps (`Machine`), source-language notions (label position, scopes).
* `lean/Verif/Lemmas/*` - helper lemmas, no claims.
* `lean/Verif/Props/*`  - the property theorems, named `C<id>_...`, each with a non-vacuity example.

## Modelling conventions

* Rust `str`/`String` = `List Char` (`Str`); a Lean `Char` is a Unicode scalar value like a Rust `char`.
  Byte-indexed slicing is modelled through UTF-8 lengths, with a panic off a character boundary.
* Unicode tables used by the code (`str::to_lowercase`, `char::is_numeric`, regex `\d`) are an abstract
  class `Unicode` constrained by facts of the Unicode character database: their behaviour on ASCII; the Kelvin
  sign becomes `k`; white space is kept and is no digit; the lower case of any other text contains a character that
  is neither ASCII nor white space; a full stop comes only from a full stop. Every theorem holds for every such table.
* A panic is an explicit outcome. `Res` has `ok | err | panic`.  Debug builds panic on integer overflow
  and release builds wrap: the model carries `ovf : Bool` and theorems quantify over it.
* HashMap iteration order is an oracle (`order`), constrained only to be a permutation.
* `u32`/`u16`/`u64` values are `BitVec`; `usize`/`isize` are unbounded `Nat`/`Int` (64-bit target,
  programs shorter than 2^31 lines), with the truncating `as` casts kept.

## Trusted base

* Lean 4.33.0's kernel and the three standard axioms `propext`, `Classical.choice`, `Quot.sound`; every
  claimed theorem depends on a subset of these and on nothing else (`vcheck` lists the axioms of each
  one). The model adds no axiom, no theorem is left open, and nothing is evaluated by compiled code:
  concrete facts are `decide`/`decide +kernel`/`rfl`, i.e. reduced by the kernel.
* That `Model/*` says what `/repo/src` does. It was written by reading the source (no compiler here);
  `Model/Assembler`, `Model/Disassembler` and `Model/Ops` are mechanical arm-by-arm translations. Every
  definition cites its file and lines.
* That `Spec/*` says what the English property says (`Spec/Isa` the MIPS III opcode maps, `Spec/Machine`
  the MIPS III semantics of the instructions the pseudo-instructions expand to).
* Documented behaviour of `std` (`str`, `char`, integer parsing and formatting; `str::lines` as documented today: a carriage
  return at the very end of a text, with no line feed behind it, stays - older versions dropped it), of the `regex` crate on
  the six patterns used (leftmost-first matching, `Model/Regex`), of `strum`'s `EnumString`/`Display`
  derive, of `HashMap`/`IndexMap` (maps; iteration order arbitrary for `HashMap`, insertion order for
  `IndexMap`).

### Modelled

| Rust | Lean | what |
|------|------|------|
| `src/parser.rs` | `Model/Parser` | all of it: the line loop, comments, labels, local label scopes, `parse_inst` (every arm), operands, symbols, `%hi/%lo`, warnings, errors, `adjust_labels` |
| `src/assembler.rs` | `Model/Assembler` | every arm of the three encoders |
| `src/disassembler.rs` | `Model/Disassembler` | every arm of the decoder |
| `src/ast.rs` | `Model/Ops`, `Model/Ast`, `Model/Query`, `Model/Display` | op enums and names, the three register files (parsing and names), immediates, targets, `Display`/`Debug` of instructions, jump/branch/delay-slot queries (`Model/Query`) |
| `src/error.rs` | `Model/Error` | all error and warning values and their `Display` |
| `src/lib.rs` | `Model/Lib` | `new/base/symbols/debug/assemble/disassemble/get_bytes`, symbol matching, function layout |
| `src/bin/bin.rs` | `Model/Cli`, `Model/Main`, `Model/Io` | base address parsing, symbol collection from the YAML mapping, byte order, the printed text, exit status, output files; the order of all reads, prints, file creations and writes, with their failures and partial effects |

### Not modelled

clap's argument parsing, the YAML grammar of the symbol file (the model starts from the parsed mapping),
several names (links) for one file, other processes changing the files (except other runs of the tool, C89, whose operations - a read, a creation, a write - are interleaved as wholes; files that two runs share are only read), the text of operating system errors, ANSI/terminal behaviour of stderr (the model returns the text), the `Debug` derives of
errors, memory exhaustion, and programs so large that `usize` arithmetic wraps (2^63 lines). Recent versions of Rust panic
when a run-time format width exceeds 65535 (the columns of a diagnostic for a line that long); older ones do not, and
the model does not. Rust's own memory
safety and the correctness of `rustc` and the dependencies are assumed.

## How to read a claim

`properties.jsonl` is the English list; `MANIFEST.json` maps each id to theorems. A theorem `C<id>_x` lives in
`lean/Verif/Props/*.lean`; its statement uses only the public model API (`assemble`, `disassemble`, `getBytes`,
`Cli.*`) and definitions of `Spec/*`. Beside each one there is an `example` showing a concrete non-trivial instance
of its hypotheses. The suffix `_partial` marks a theorem that covers only part of the English statement;
`_wrong`/`_panics`/`_overflow` mark kernel-checked witnesses that the code violates the full statement, and
`_exact` marks an exact characterisation of what the code does instead. Status `partial` in the manifest
therefore mostly means: *the code does not have the property; here is the witness, and here is the largest domain on which
it does*.

## Plan per property (initial)

| id | model | proof |
|----|-------|-------|
| C01 | assembler `encode`, parser text -> AST | opcode-map spec as `BitVec` append; generic field lemmas; case split over op enums |
| C02 | disassembler `decode`, `Display` | opcode-map lookup on the word's fields, split over map positions |
| C03 | whole pipeline | parse-of-display lemma per operand format, induction over lines; in full (`C03_exact`): what every word becomes (`Spec/Reread`), by cases on the three kinds of printed lines (`Props/RoundTrip2`) |
| C04, C05 | `disassemble` layout loop | case split over decoder; induction over the instruction list |
| C06-C11, C40 | `scan_line`, `adjust_labels`, `get_label_scope` | invariants over the line loop |
| C12-C19 | encoder + `Spec.Machine`; `$at`/`$zero` as operands: `Spec/AtX` | symbolic execution of the emitted words, BitVec algebra; the corner cases (`Props/AtX`, `Props/CmpX`) give the exact, wrong, result |
| C20 | `parse_immediate` | BitVec arithmetic |
| C21-C25, C31, C32 | `parse_inst`, register and integer parsing | string lemmas; C21 exactly, from C56 and C57 (`Spec/CaseX`, `Props/CaseX`) |
| C26 | oracle | permutation invariance of the flush fold |
| C27-C29, C34, C35 | parser loop with error/warning lists, `error.rs` formatter | induction over lines; substring lemmas |
| C30 | explicit panic outcomes | witnesses + panic-freedom for characterised inputs |
| C33, C37 | `lib.rs` | direct, induction over call histories |
| C36 | whole pipeline | induction over lines |
| C38, C39 | `bin.rs` pure parts | induction over bytes |
| C41 | the `ovf` flag | simulation between the two builds, combinator by combinator |
| C42 | symbol lookup | simulation between two tables that agree on the names of the text / the addresses of the listing |
| C43-C46 | `bin.rs` `main` (`Model/Main`): reading, symbol file, base address, running, writing | case analysis over the run; induction over printed lists |
| C47, C48 | `Display`/`Debug` and the public queries of `Instruction` | shape invariant of returned instructions (`Lemmas/FinalL`), decoder case split |
| C49 | words per instruction line, by mnemonic | `Final` shape of returned instructions + length of every expansion (`Props/SizeP`) |
| C50 | assemble followed by disassemble; injectivity of the encoding | decoding inverts encoding (`Lemmas/IsaL`), composed with C01 and C02 (`Props/Again`) |
| C51 | a small-step semantics of source lines (`Spec/Exec`, nondeterministic where a pseudo-instruction clobbers registers) and of the emitted words (`Spec/Machine` extended by an arbitrary interpretation of the other instructions) | forward simulation: every line's words, embedded in the whole code, do what the line means (C01, C06, C09, C12-C19); induction on the number of lines; determinism gives the converse (`Lemmas/RunL`, `Props/ExecP`) |
| C52 | the `warning!` macro (previous source line) in `delayCheck` | the context of each line in the trace (`outcome_slot`), C34's exact rule for the branch in front |
| C53 | `fmt_line`, `Display` of errors and warnings; `Spec/Diag`: a terminal (colour codes removed) and what it means that markers stand below a text | `findStr` finds the first occurrence; byte lengths are lengths for ASCII; the visible text computed block by block (`Props/DiagP`) |
| C54 | the whole of `assemble` on two texts, one a continuation of the other; `Spec/Scope`: `NoClash` | the trace of the longer text begins with that of the shorter; label tables grow at the end; `Chosen` (C09's exact rule) is preserved (`Props/AppendP`); line by line, for any continuation, from C57 (`Spec/AppendX`, `Props/AppendX`) |
| C55 | all of the parser on two texts; `Spec/Equal`: operands of the same value (`SameValue`), files of such lines (`SameFile`) | relational simulation of the parser under an invariant of the label table and the symbols (`Lemmas/SimL`, `sim_assembleP`), line by line over all operand classes (`Props/EqualP`) |
| C56 | all of the parser, label resolution and encoding; `Spec/Language`: the accepted language, as steps per line (`plan`, `Reads`, `Crashes`) and rules per file (`Overflows`, `BadPlace`, `NoCode`) | exactness of every operand reader, then of every arm of the parser, against the steps (`Lemmas/LangL`–`LangL7`); lines by induction over the trace (`LangL8`); references of the parsed instructions (`LangL9`–`LangL11`); label resolution and encoding (`LangL12`, `LangL13`); `Props/LanguageP` |
| C57 | all of the parser, label resolution and encoding; `Spec/Code`: values of operands, expansions of pseudo-instructions as lists of machine instructions over values, encodings by `Spec/Isa` | values are unique (`CodeL1`); every row of the encoder equals the expansion (`CodeL2`–`CodeL5`, by class of mnemonics); every arm of the parser yields the values of its steps (`CodeL6`–`CodeL8`); label resolution puts in the distances and addresses (`CodeL9`); lines and files by induction (`Props/CodeP`) |
| C58 | all of the parser and label resolution; `Spec/Errors`: the complaint of every step, line and reference, what it quotes, and the order | every arm of the parser complains about its first failing step (`LangL4`–`LangL8`, with the errors carried through the combinators); complaints are unique (`LangL14`); the file with the refused lines blanked has the same instructions and labels (`LangL15`), so that label resolution complains as on it (`LangL16`); reports by induction over the lines (`Props/ReportP`) |
| C59 | all of the parser; `Spec/Warnings`: the warnings of every line and their order | every arm of the parser warns by its steps (`LangL17`); what the parser remembers is the last instruction of the specification; addresses by the value lemmas of C57; induction over the lines (`Props/WarningsP`) |
| C60 | decoder, display, layout; `Spec/Columns`: the text of a word in columns, where labels go, when an address needs more than 32 bits | the decoder and display against the opcode maps by cases on the fields (`DisX`), the layout by induction over the words with the state of the walk (`Props/ListingP`) |
| C61 | `bin.rs` as a tree of operations (`Model/Io`) and a transition system for the operating system, in which every operation may fail and a write may be partial; `Spec/Io`: the result from the files at the start | an invariant of all reachable moments (`Props/IoP`), with C57 and C60 for the result; well-foundedness of the tree for termination |
| C62 | the same, without failures; `Spec/Io`: the ends of a run | evaluation of the tree, C56-C60 for the cases, uniqueness of the printed texts (`Props/IoRun`) |
| C63 | `error.rs`; `Spec/Message`: coloured pieces of text | evaluation of `fmt_line`, `findStr` against first occurrences (`Props/MessageP`) |
| C64 | specification level: `Spec/Rename` relates two files line by line | `Accepted`, `Refused`, `Panics`, `Generates` of C56/C57 are transported along the relation, step by step (`Lemmas/RenameL`, `RenameL2`); `Reports` and `Warns` of C58/C59 likewise (`RenameL3`) |
| C65 | specification level: `Spec/Fresh`: lines with labels are added | blank lines first (C22's simulation), then labels in their places: the correspondence of C64 (`Lemmas/FreshL`) with names that stay |
| C66 | `disassemble` (exact text: C60), `assemble`, the tool (C62) | every printed line is shown to be an instruction text of C01 or a jump of C07 with blanks, the labels to be distinct; then program and run are composed (`Props/Reassemble`); in full (`C66_exact`) as for C03 (`Props/Reassemble2`), and for the tool (`C66_tool`, `Props/Reassemble3`) |
| C67 | `assemble` (exact verdict: C56, exact code: C57), scopes (`Spec/Scope`) | each of the two programs is a part of the whole (`Link.Part`): references, distances and addresses of a part are those in the whole; verdict and code then follow from C56 and C57 line by line; the converse (`Props/CutP`): what a part refers to it finds in itself (`Back`), so it is accepted (`Part.accepted`) |
| C68 | `assemble` (exact verdict: C56, exact code: C57, errors of lines: C58) | verdict, words and complaint of a line depend on the file only through the kinds of its lines (`Edit.Alike`: every definition of Spec/Language and Spec/Code is shown to be a function of these) |
| C69 | `assemble` (exact code: C57, errors of lines: C58) | every definition of Spec/Language, Spec/Code and Spec/Errors about a line is shown to depend on the file only through what the line's texts refer to (`Context.values_congr`, `Context.lineError_moved`) |
| C70 | `assemble` (exact verdict: C56, exact code: C57), the symbol table | acceptance and code are monotone in symbols that are labels of the program (`Export.accepted_up`, `generates_up`), and acceptance comes back if they are only jumped to (`accepted_down`); with C67 this is separate assembly with exported labels |
| C71 | `disassemble` (exact listing: C60) | the walk over the words looks neither at words behind (`trail_front`) nor at words that are no jumps (`trail_set`); the lines are rendered in order (`render_front`, `render_set`) |
| C72 | `assemble` (exact verdict: C56, exact code: C57) | induction over the parts with C67 (`apart_of_part`); without jumps to labels and branches to numbers neither acceptance nor code depend on the base address (`accepted_base`, `generates_base`) |
| C73 | `str::lines`, `assemble`, the tool (C62) | the relation `Written` between lists of lines and texts, by induction in both directions (`written_lines`, `written_total`); the model reads the text through its lines only; for the tool with C62 |
| C74 | `assemble` (exact report: C58) | blanking refused lines keeps first definitions, references, counts and the cleaned file of C58 (`Recover.Cut`); the report is transported line by line (`inOrder_cut`) |
| C75 | `assemble` (exact code: C57) | the words of a line that is no jump to a label are transported by C69's `lineWords_congr`; for jumps to labels the word is computed for both addresses (`moved_word`); induction over the lines |
| C76 | `assemble` (exact errors and warnings: C58, C59) | every notion of the specification (definitions, scopes, counts, references, errors, warnings) is transported along the embedding of the old line numbers into the new ones; the instructions are the same by C22's simulation |
| C77 | `disassemble` (exact listing: C60) | the text of a line determines the mnemonic (up to the first white space), the texts of the operands (between commas) and so the operands; the walk that places labels looks at nothing else; false for the operand 32767 and for words that are no encodings: exact rule |
| C78 | `disassemble` (exact listing: C60) | of the operands only jump targets look at the base address and the symbols, and only j and jal have them; without j the walk that places labels does not look at addresses (`Props/PlaceP`) |
| C79 | `assemble` with its symbol table | with the symbols of both programs together, C55 says that they are equivalent; each of them alone is unaffected by the symbols of the other (`C42_asked`, with exactly the names looked up) (`Props/AskedP`) |
| C80 | `parse_instruction` and all readers of operands | operands that are alike up to blanks have the same trimmed text, base register text and trimmed offset (`Blanks.opSim`), which is all the readers look at (`read_arm_ops`, case by case over the groups of mnemonics); then simulation of the whole run (`sim_assemble`) |
| C81 | `lines`, `trim`, the comment regex, `split_once`, `split`, label lines | the relational reading (`Spec/Anatomy`) is shown to be the graph of what the parser computes (`statement_iff`, `words_iff`, `reads_iff`), so it is total and unique; equal readings then give equal runs (`sim_assemble`) |
| C82 | `assemble`, `disassemble` (debug), all of parser, `fmt` | listing lines of expressible words emit the word in every context (`back_emits`); straight programs by induction over `WrittenOut` with C36; with labels by C56 (`Alike.mix`), C57 and C68 |
| C83 | `parse_target`, `adjust_labels`, encoder and decoder of jumps, `match_syms`, `fmt` | C07 gives the instruction index of the jump; its word in the code is listed by C33; the address comes back iff `Low` |
| C84 | `trim`, `split`, `splitOnce`, `startsWith`, `endsWith`, `contains`, `findStr`, `takeBytes`, `byteLen`, `remove0x`, `asciiLower`, `isWs`, `fromStrRadix`, `decimal`, `hexLower`, `hexUpper` | each function against a relation of Spec/TextFns, by induction on the text; pins the vocabulary that other specifications share with the model |
| C85 | as C03, C66 | from the exact descriptions C03_exact and C66_exact: operands that have been read again once are `Kept`, by cases on the operand |
| C86 | `push_bytes`, `get_bytes`, the queries, `Display` | by cases on the instruction; every assembled instruction has a word (`emits_word`) and is no raw word |
| C87 | Model/Io, two runs in sequence | the written words are determined (`asm_run_words`), then C62 (`Ends`, unique) for the second run on the resulting disk |
| C88 | Model/Io, sequences of stopped or failing runs (`Attempts`, Spec/Rerun) | attempts change the output file only (C61), `Ends` (C62) depends on the files that are read only |
| C89 | Model/Io, any family of runs interleaved on one disk (`ParReach`, Spec/Parallel) | simulation: each run sees the files it uses as if alone (induction over schedules); determinism of undisturbed runs (`clean`); well-founded descent on the list of remaining programs |
| C90 | Model/Io, two disks | `Ends` (C62) read as a relation on the files it mentions, for each way to end |
| C91 | Model/Io, sequences of different runs (`Session`, Spec/Session) | induction over the sequence with C90's frame rule; from its first write on, a run without failing operations ends with status 0 |

Where the unchanged code violates the property the negation is proved with a concrete witness and the
positive theorem is proved on the largest domain found (`_partial`).

## What the proofs found in the code

Each line is a kernel-checked witness or an exact characterisation theorem.

* **Panics instead of errors** (C30_wrong, C20_overflow, C20_unknown_symbol, C23_wrong, C25_panics, C32_wrong): `.word` always panics; `:` alone;
  `li rt, label`; `%hi`/`%lo` of an unknown name; a missing/odd address operand of a load or store; `add.x`, `c.eq.x`; `j` without
  operand; an unknown one-byte mnemonic; a shift amount that is not a number; a tab behind a bare mnemonic;
  `j` to a label whose first letter is not ASCII; a mnemonic written with the Kelvin sign or followed by a no-break space.
* **Wrong code, silently**: `li` of 0xFFFF8000..0xFFFFFFFF (C12_li_wrong); signed 3-operand `div`/`rem` skip their own `mflo`/`mfhi`
  for every divisor but 0 and -1 (C17_signed_skips); `divu rd, rs, $zero` (C17_divu_zero_wrong); `mulo/dmulo $zero` (C16_zero_wrong);
  `dabs` outside 32 bits, `subi` of -32768 (C14_*_wrong); `bge` family forward/next (C19_*_wrong); label branches across
  multi-word pseudo-instructions (C06_wrong); numeric branch targets (C08_wrong, exact offset C08_exact); `j`/`jal` above 64 MB of
  a region (C07_wrong); shift amounts outside 0..31 spill into other fields (C25_wrong, C25_fields_exact).
* **Rejected though valid**: forward branches to global labels (C06_forward_rejected); `break`/`syscall` codes over 16 bits and unnamed COP0 registers (C01_limits).
* **Accepted though invalid**: register spellings (C23_wrong), `c.eq.zzs` (C32_wrong), operands of `nop`… (C31_none_exact), duplicated local labels (C09), base addresses
  such as `10x2` (C39_not_exact).
* **Disassembly**: operand 32767 printed as -32767 (C02_top_wrong), reserved COP0 words printed as CP0 functions (C02_hole_wrong), panic on `j` to a symbol
  (C05_panics), function heading off by one (C05_slot_wrong); branches and several other texts do not reassemble (C03_wrong).
* **Diagnostics**: displaying an error panics when the marked text does not occur in the quoted line (C28_exact, C28_wrong);
  `BranchOutOfBounds` quotes the last line (C27_out_of_bounds_line); no delay-slot warning after `b`, `bal`, `beqzl`, `bnezl`, `bge`… (C34_wrong).
* **Library values**: displaying an assembled `nop` or pseudo-instruction panics (C47_panics), a two-operand division is displayed with the wrong
  registers (C47_div); `has_delay_slot`/`is_branch` miss pseudo-branches, `get_branch_offset` of a backward branch is positive (C48_wrong).
* **Command line**: `disasm -o` writes the lines without separators (C46_file_wrong); errors that cannot be displayed make the tool panic (C43_undisplayable);
  symbol addresses are cut to 32 bits (C45_unchecked).

## Seeded bugs

`seeded/LOG.jsonl` records the edits to the model that were tried in a scratch copy, the claim each breaks, and which theorems stop proving.
The driver compiles every module of the scratch copy, keeps going past failures (a failed proof taints everything that uses it), and lists the
manifest theorems that are tainted; restatement lemmas of the line loop (`Lemmas/TraceL`, `Lemmas/LoopL2`) receive the same edit, so that a theorem is
counted only if its own claim no longer follows.
