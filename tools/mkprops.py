import json
P=[]
def p(title,statement,quantifier,why,anchors):
    P.append(dict(id="C%02d"%(len(P)+1),title=title,statement=statement,quantifier=quantifier,why_tests_cant=why,anchors=anchors))

p("Native instructions assemble to the ISA encoding",
  "For every native (non-pseudo) R4300i mnemonic and every operand tuple, assemble() followed by get_bytes() yields exactly one 32-bit word, and that word is the one given by the MIPS III opcode maps: opcode/funct/regimm/fmt code at the mnemonic's position in the map, each operand in its field, every unused field zero.",
  "all native mnemonics x all register operands x all 16-bit immediates / 5-bit shift amounts / 16-bit codes / jump targets",
  "The suite checks one operand tuple per mnemonic (mostly $a0,$a1,$a2); a swapped or overlapping field is only visible for other operand values.",
  ["src/assembler.rs: assemble","src/lib.rs: Mipsasm::assemble, get_bytes"])
p("Disassembly names the instruction the ISA decodes",
  "For every 32-bit word, disassemble() prints the mnemonic found at that word's position in the MIPS III opcode maps with the operands taken from the fields the ISA assigns, and prints .word for words the maps leave reserved.",
  "all 2^32 words and all base addresses",
  "2^32 words; tests decode about 200 of them.",
  ["src/disassembler.rs: disassemble","src/ast.rs: Display for Instruction"])
p("Disassemble-then-assemble is the identity on canonical code",
  "For every list of words that are canonical encodings (unused fields zero), feeding the debug disassembly, one instruction per line, back to assemble() yields the same list of words.",
  "all lists of words of any length, all base addresses",
  "Round-trip over an unbounded input space; tests try single words with one operand choice.",
  ["src/lib.rs: Mipsasm::disassemble, Mipsasm::assemble","src/ast.rs: Debug for Instruction","src/parser.rs: parse_inst"])
p("Disassembly is total and has one entry per word",
  "In debug mode disassemble() never panics and returns exactly one string per input word, for every input and symbol table.",
  "all word lists, all symbol tables, all base addresses",
  "A panic arm in Display is reached only by particular words; no test enumerates them.",
  ["src/lib.rs: Mipsasm::disassemble, match_syms","src/ast.rs: Display for Instruction"])
p("Function-splitting layout preserves the listing",
  "In normal (non-debug) mode disassemble() never panics, starts with the label of the base address, and after removing label and blank lines the remaining lines are exactly the per-instruction texts in program order, with a label after (and only after) the delay slot of an unconditional jump that leaves the current function.",
  "all word lists, all symbol tables, all base addresses",
  "The layout depends on the whole history of jumps and delay slots in a listing of unbounded length.",
  ["src/lib.rs: Mipsasm::disassemble, get_sym"])
p("Branches to labels reach the label",
  "If assemble() succeeds, every branch whose operand is a (global or local) label carries the signed 16-bit offset o such that (word index of branch + 1 + o) is the word index of the first word emitted after the label definition.",
  "all programs with labels, of any length",
  "The offset depends on the number of words emitted by every instruction between branch and label.",
  ["src/parser.rs: adjust_labels, scan_line","src/assembler.rs: assemble"])
p("Jumps to labels and symbols reach their target",
  "If assemble() succeeds, executing an emitted j/jal from the region of the base address transfers control to the address of the named label (base + 4 * words emitted before it) or to the symbol's address.",
  "all programs, base addresses and symbol tables",
  "Targets range over 2^32 addresses and unbounded programs.",
  ["src/parser.rs: adjust_labels, parse_target","src/assembler.rs: assemble (J, Jal)"])
p("Branches to numeric addresses reach the address",
  "A branch written with a numeric address inside the program, at any position of the program and for any base address, is encoded with the offset that reaches that address.",
  "all programs, positions, base addresses, aligned target addresses within the program",
  "The existing test uses position 0 and base 0x80000000 only.",
  ["src/parser.rs: adjust_labels (Immediate::Int arm)"])
p("Local labels resolve inside their scope",
  "A reference to a local label (@@name) resolves to the definition of @@name that lies in the same scope (between the enclosing global label and the next one), for forward and backward references alike, and to nothing else; if there is none, assemble() returns an error.",
  "all programs with any number of scopes and local labels",
  "Unbounded nesting of scopes; boundary cases at the first/last instruction of a scope.",
  ["src/parser.rs: scan_line, parse, adjust_labels, get_label_scope"])
p("No unresolved label survives a successful assembly",
  "When assemble() returns Ok, every returned instruction has been encoded: no operand is still a label, so label-to-number conversion never panics in the encoder; a reference to an undefined label yields Err.",
  "all source texts, base addresses, symbol tables, hash iteration orders",
  "Needs an invariant over all program texts and the order of definitions and uses.",
  ["src/parser.rs: adjust_labels, parse_immediate","src/assembler.rs: assemble","src/ast.rs: Target::as_u32, Immediate::as_u32"])
p("Duplicate and malformed labels are rejected",
  "If a program defines the same global label twice, or a label starting with a digit, assemble() returns Err; the set of accepted global labels is duplicate free.",
  "all source texts",
  "Definitions may be arbitrarily far apart.",
  ["src/parser.rs: scan_line, parse_label"])
p("li loads its constant",
  "Executing the words emitted for `li rt, n` on a MIPS III machine leaves the sign-extended 32-bit constant n in rt, and no other register changes.",
  "all registers rt and all 32-bit constants n, all machine states",
  "2^32 constants; the test tries one.",
  ["src/assembler.rs: I::Li","src/parser.rs: li"])
p("liu, lli and dli load their constants",
  "Executing the words emitted for `liu`, `lli`, `dli` leaves respectively the sign-extended 32-bit constant, the zero-extended 16-bit constant and the 64-bit constant in rt, and changes no other register.",
  "all registers and all 32/16/64-bit constants, all machine states",
  "2^64 constants.",
  ["src/assembler.rs: I::Liu, I::Lli, I::Dli"])
p("Arithmetic pseudo-instructions compute their function",
  "Executing the words emitted for abs, neg, negu, not, move, dmove, clear, dneg, dnegu, dabs, subi, subiu, dsubi, dsubiu leaves the documented function of the source operand(s) in the destination; no register other than the destination and $at changes.",
  "all operand registers (other than $at), all operand values and machine states",
  "64-bit operand values and register aliasing cannot be enumerated.",
  ["src/assembler.rs: R::Abs, R::Dabs, R::Neg, R::Not, R::Move, I::Subi, ..."])
p("Set-on-compare pseudo-instructions compute their predicate",
  "Executing seq, sne, sge, sgeu, sgt, sgtu, sle, sleu leaves 1 in rd if the comparison of the 64-bit operands holds and 0 otherwise, whatever registers alias.",
  "all register triples (rd not $zero), all operand values",
  "64-bit operand values and register aliasing cannot be enumerated.",
  ["src/assembler.rs: R::Seq .. R::Sne"])
p("Multiply pseudo-instructions compute the product and trap on overflow",
  "mul/mulu/dmul/dmulu leave the low word of the product in rd; mulo/mulou/dmulo/dmulou do the same or trap exactly when the product does not fit.",
  "all register triples (not $at), all operand values",
  "64-bit operand values cannot be enumerated.",
  ["src/assembler.rs: R::Mul, R::Mulo, R::Mulou, R::Dmul, R::Dmulo, R::Dmulou"])
p("Division pseudo-instructions leave quotient or remainder",
  "Executing three-operand div, divu, ddiv, ddivu, rem, remu, drem, dremu leaves the quotient (remainder) of rs by rt in rd, and traps exactly on division by zero and on signed overflow.",
  "all register triples (not $at), all operand values",
  "Control flow inside the expansion depends on operand values.",
  ["src/assembler.rs: R::Div, R::Divu, R::Ddiv, R::Ddivu, R::Rem, R::Remu, R::Drem, R::Dremu"])
p("Rotate pseudo-instructions rotate",
  "Executing drol/dror leaves rs rotated left/right by rt mod 64 in rd, unless rs or rt is $at, which the expansion overwrites.",
  "all register triples (not $at), all operand values",
  "64-bit operand values cannot be enumerated.",
  ["src/assembler.rs: R::Drol, R::Dror"])
p("Compare-and-branch pseudo-instructions branch on the predicate",
  "Executing bge, bgt, ble, blt (and u/l variants) takes the branch exactly when the comparison of the 64-bit operands holds; the taken branch goes to the offset the parser computed, adjusted for the extra compare word.",
  "all operand registers and values, all offsets",
  "Operand and offset ranges cannot be enumerated; boundary offsets are special.",
  ["src/assembler.rs: I::Bge .. I::Bltul"])
p("%hi/%lo recombine",
  "For every 32-bit address x, (%hi(x) << 16) + sign_extend(%lo(x)) = x modulo 2^32.",
  "all 2^32 addresses, as literals or symbols",
  "2^32 addresses; the carry case is a boundary.",
  ["src/parser.rs: parse_immediate"])
p("Mnemonics are case-insensitive",
  "Changing the letter case of a mnemonic does not change the result of assemble().",
  "all source lines and all case variants of the mnemonic",
  "Exponentially many case variants.",
  ["src/parser.rs: parse_inst"])
p("Comments, blank lines and indentation are ignored",
  "Appending a `//` or `;` comment to a line, indenting it, or inserting blank/comment-only lines does not change the words assemble() produces.",
  "all source lines, all comment texts, all positions",
  "Arbitrary text.",
  ["src/parser.rs: parse, COMMENT_RE, scan_line"])
p("All spellings of a register are equivalent",
  "name, $name, rN, $rN, N and $N (any surrounding whitespace, any letter case of the name) denote the same general-purpose register; likewise fN / ABI names for FPU registers and names / numbers for COP0 registers; anything that does not denote one of the 32 registers is rejected.",
  "all registers, all spellings, all whitespace paddings",
  "Cross product of spellings and paddings; regex and parse fall-throughs.",
  ["src/ast.rs: FromStr for Register, FloatRegister, Cop0Register"])
p("Immediates are range-checked",
  "A numeric immediate (decimal, or hexadecimal with 0x, optionally signed) is accepted iff its mathematical value fits the operand's type (i16 for signed immediates/offsets, u16 for logical immediates and lui, u32 for addresses), and is then encoded with exactly that value; otherwise Err is returned, never a truncated encoding.",
  "all integers and all their decimal/hex spellings",
  "Unbounded literal length; boundaries at +-2^15, 2^16, 2^32.",
  ["src/parser.rs: parse_immediate","src/ast.rs: Immediate::new"])
p("Shift amounts are range-checked",
  "A shift instruction is accepted only with a shift amount 0..31, and the amount never alters other fields of the encoding.",
  "all integers as shift amounts",
  "The test uses one amount.",
  ["src/parser.rs: parse_inst (shift instructions)","src/assembler.rs: R::Sll .."])
p("Result independent of hash iteration order",
  "The result of assemble() does not depend on the iteration order of the hash maps holding local labels; and, if symbol names are pairwise distinct, not on the iteration order of the symbol table either.",
  "all source texts, all iteration orders, all symbol tables",
  "Iteration order is randomised per process; a test observes one order.",
  ["src/parser.rs: parse, scan_line, parse_target"])
p("Every bad line is reported, once, in order",
  "assemble() returns Err exactly when some line is rejected or some reference cannot be resolved; the errors for rejected lines appear once per line, in line order, and carry the number and text of the offending line.",
  "all source texts",
  "Any number of errors interleaved with good lines.",
  ["src/parser.rs: parse, scan_line","src/error.rs: error!"])
p("Errors can be displayed",
  "Formatting any ParserError returned by assemble() terminates normally (no panic) and shows the offending line.",
  "all source texts and all errors they produce",
  "The formatter panics if the highlighted text is not found in the quoted line; depends on exact text.",
  ["src/error.rs: Display for ParserError, fmt_line"])
p("Warnings can be displayed",
  "Every warning printed during assemble() is formatted without panic.",
  "all source texts",
  "Depends on arbitrary text of the previous and current line.",
  ["src/error.rs: Display for ParserWarning, fmt_line","src/parser.rs: warning!"])
p("assemble() does not panic",
  "assemble() returns Ok or Err for every input text; malformed input never panics.",
  "all source texts, symbol tables, base addresses",
  "Arbitrary text.",
  ["src/parser.rs","src/assembler.rs","src/ast.rs"])
p("Operand count is checked",
  "A line with a known mnemonic and a number of comma-separated operands different from what the mnemonic takes is rejected with InvalidOperandCount.",
  "all mnemonics, all operand texts",
  "Arbitrary operand text and counts.",
  ["src/parser.rs: parse_inst"])
p("Unknown mnemonics are rejected",
  "A line whose first word is not a mnemonic of the language yields InvalidOpcode and no code.",
  "all words that are not mnemonics",
  "Infinite set of words.",
  ["src/parser.rs: parse_inst"])
p("Symbol substitution in disassembly is exact",
  "In a disassembly, the operand of j/jal is printed as a symbol iff the target address is a key of the symbol table, and then as that key's name; no other operand or instruction is affected.",
  "all words, symbol tables, base addresses",
  "All addresses and tables.",
  ["src/lib.rs: match_syms"])
p("Delay-slot warnings are exact",
  "A delay-slot warning is printed for an instruction iff it is a branch or jump placed immediately after a branch or jump.",
  "all programs",
  "All pairs of instructions in all programs.",
  ["src/ast.rs: has_delay_slot","src/parser.rs: parse_inst"])
p("Alignment warnings are exact",
  "A branch (jump) with numeric target emits the unaligned warning iff the target is not a multiple of 4; the warning does not change the code.",
  "all branch/jump lines with numeric operands",
  "All addresses.",
  ["src/parser.rs: parse_inst"])
p("Label-free programs assemble line by line",
  "For programs without labels and numeric branches, the words of a program are the concatenation of the words of its lines, in order; in particular appending lines never changes the words already emitted.",
  "all programs, all splits",
  "Unbounded programs.",
  ["src/parser.rs: parse","src/assembler.rs: assemble","src/lib.rs: get_bytes"])
p("Configuration is a last-write-wins record",
  "base, symbols and debug each set only their own field; the last call wins; assemble() ignores the debug flag, depends on base only through label/branch/jump resolution, and leaves the instance unchanged so repeated calls give the same result.",
  "all sequences of builder calls, assemble and disassemble calls",
  "All histories of calls.",
  ["src/lib.rs: Mipsasm::new, base, symbols, debug, assemble, disassemble"])
p("CLI byte order round-trips",
  "Bytes written by `asm -o` are the big-endian words in order; reading them with `disasm` recovers exactly the same words; an input whose length is not a positive multiple of 4 does not produce a listing.",
  "all word lists, all byte files",
  "All files.",
  ["src/bin/bin.rs: main"])
p("CLI base address is parsed as hexadecimal",
  "-b accepts exactly the hexadecimal spellings (with or without 0x) of 32-bit values and uses that value; everything else is reported as invalid.",
  "all strings",
  "Infinite set of strings.",
  ["src/bin/bin.rs: main"])
p("Branch relocation: labels make offsets base independent",
  "For programs whose branches use labels only, the emitted branch and ALU words do not depend on the base address; only j/jal words to labels do.",
  "all programs, all pairs of base addresses",
  "All programs and bases.",
  ["src/parser.rs: adjust_labels"])
p("Debug and release builds agree",
  "Whenever a build with arithmetic overflow checks (cargo's debug profile) returns from assemble() or disassemble(), a build without them (release) returns the same result, errors and warnings; turning the checks on can only turn a result into a panic.",
  "all source texts, word lists, base addresses, symbol tables and debug flags",
  "Overflow is reached only on particular combinations of base address, program length and immediate; all inputs are ranged over.",
  ["src/parser.rs: parse_immediate, adjust_labels","src/assembler.rs: assemble","src/lib.rs: disassemble"])
p("Unmentioned symbols are irrelevant",
  "Of the symbol table only the entries whose name occurs in the source text can influence assemble() (words, errors and warnings alike), and only the entries at listed addresses or at targets of j/jal can influence disassemble(); adding, removing or moving any other entry changes nothing.",
  "all source texts, word lists and pairs of symbol tables",
  "Infinitely many tables and texts.",
  ["src/parser.rs: parse_target, parse_immediate","src/lib.rs: match_syms, get_sym"])
p("CLI exit status and streams",
  "`asm` exits with 0 exactly when the program assembles; then the words go to the output file (-o) or to standard output and standard error holds only the warnings. If it does not and its errors can be displayed (C28), it exits with 1, standard error lists the warnings and every error in order, nothing is printed and no output file is written. An invalid base address exits with 1 and a message naming it.",
  "all input files, symbol files and base address strings",
  "All files and all combinations of errors and warnings.",
  ["src/bin/bin.rs: main","src/error.rs: Display"])
p("CLI prints the words recoverably",
  "Without -o, `asm` prints on standard output one bracketed, comma-separated list with every word as exactly eight upper-case hexadecimal digits, in order, from which the words can be recovered.",
  "all programs",
  "All word lists.",
  ["src/bin/bin.rs: main"])
p("CLI symbol files",
  "The symbol table built from a symbol file gives each address at most one name, the one of the last entry for that address (keys taken modulo 2^32, missing or non-integer keys as 0, non-string names as empty); with no file there are no symbols.",
  "all YAML mappings",
  "All mappings, including colliding keys.",
  ["src/bin/bin.rs: main"])
p("CLI listings are written line by line",
  "`disasm` prints the listing one line per entry, so that reading standard output (or the file given with -o) line by line gives back exactly the listing.",
  "all input files, symbol files and base addresses",
  "All listings.",
  ["src/bin/bin.rs: main"])
p("Displaying an assembled instruction",
  "Every instruction returned by assemble() can be displayed, and its Debug text is the line the disassembler (in debug mode, without symbols) prints for its word.",
  "all programs, all instructions returned for them, all base addresses of the listing",
  "All programs, operands and mnemonics.",
  ["src/ast.rs: Display for Instruction, Debug for Instruction","src/disassembler.rs","src/assembler.rs"])
p("Queries on an assembled instruction",
  "On every instruction returned by assemble(): has_delay_slot() and is_branch() say whether its mnemonic is a control transfer / branch, is_unconditional_jump() holds exactly for j and jr, get_jump_target() is the target encoded in a j/jal and None otherwise and never panics, and get_branch_offset() of a branch is the signed offset in its word.",
  "all programs, all instructions returned for them",
  "All programs and mnemonics.",
  ["src/ast.rs: has_delay_slot, is_branch, is_unconditional_jump, get_branch_offset, get_jump_target"])
p("Size of a line",
  "The number of words an instruction line is assembled to depends on its mnemonic alone and is the documented size of its expansion, except for li/liu (one word when the number is below 2^16 or a multiple of 2^16, else two) and the three-operand divisions (one word when the divisor is $zero, else the whole expansion). Hence a program of one-word mnemonics has as many words as instruction lines, and a branch over such lines reaches its label.",
  "all accepted programs and their lines",
  "All operands, mnemonics and programs.",
  ["src/assembler.rs: assemble","src/parser.rs: adjust_labels"])
p("Assembled code lists as it was written",
  "Disassembling (in debug mode, at any base address and with any symbols) the words of an accepted program shows every native instruction as it was written: the same mnemonic and the same operands in normal form. In particular two native instructions are assembled to the same word only if they have the same mnemonic and the same operands.",
  "all accepted programs, all their native instruction lines, all disassembler settings",
  "All mnemonics, operand values and programs.",
  ["src/assembler.rs: assemble","src/disassembler.rs: disassemble","src/ast.rs: Display for Instruction"])
p("Executing the assembled program does what its lines say",
  "Executing the emitted words, from the first word of any line, in any machine state, follows the source: whatever executing n lines leads to - a line reached with certain register, HI/LO and memory contents, a trap, or leaving the program, at its end or by a jump elsewhere - the words lead to as well, with the same contents, at the first word of that line; and the words trap, leave or get stuck only if the lines do. Taken and untaken branches, likely branches, jumps, calls and returns, delay slots, loops, expansions of several words and arbitrary other instructions (loads, stores, coprocessors) in between are included.",
  "all accepted programs, all machine states, all interpretations of the non-integer instructions, all numbers of executed lines",
  "All programs with all their loops, from all of the 2^2048 register states, for unboundedly many steps.",
  ["src/assembler.rs: assemble","src/parser.rs: scan_line, adjust_labels","src/lib.rs: assemble, get_bytes"])
p("The delay-slot warning names the branch",
  "A warning about a jump or branch in a delay slot quotes that instruction and, as the line with the delay slot, the jump or branch in front of it, each with its own line number.",
  "all accepted programs and their delay-slot warnings",
  "All programs, all arrangements of lines.",
  ["src/error.rs: warning!","src/parser.rs"])
p("Diagnostics mark the offending text",
  "A displayed error or warning starts with a headline that names the kind and the offending text; every place it is about is quoted behind its line number, and the row below it has markers exactly below the offending text (its first occurrence in the line), followed by the note that belongs to the kind.",
  "all errors and warnings that can be displayed",
  "All lines, texts, line numbers and kinds of diagnostics.",
  ["src/error.rs: fmt_line, Display for ParserError, Display for ParserWarning"])
p("Adding lines at the end keeps the code in front",
  "When lines are added at the end of a program and both the shorter and the longer program are accepted, the code of the longer one begins with exactly the instructions and words of the shorter one, and its warnings with the warnings of the shorter one.",
  "all pairs of accepted programs of which one is the other followed by further lines",
  "All programs and all continuations of them.",
  ["src/parser.rs: parse, scan_line, adjust_labels, get_label_scope","src/lib.rs: assemble"])
p("Only the values of operands matter",
  "Writing an operand in another way with the same value does not change the result of assembling: another spelling of a register; another numeral (decimal, hexadecimal, leading zeros, letter case, blanks around), also as the offset of a load or store; a symbol or its address as the target of a jump and inside %hi and %lo. The instructions, the words and the kinds of diagnostics are the same. (As long as symbols have different names and no label of the program is spelled like a numeral or contains a parenthesis: such a label is meant by one spelling and not by the other.)",
  "all pairs of programs whose lines have operands of the same values, accepted or not, all symbol tables and base addresses",
  "All spellings of all operands of all instructions in all programs.",
  ["src/parser.rs: parse_immediate, parse_target, parse_inst"])
p("Exactly the right programs are accepted",
  "For every source text, every base address, symbol table and build mode, whether assembling returns code, returns errors or panics is decided by the following rules. Every line is read in steps from left to right (the operands of its mnemonic, each in the spellings of its kind); the first step that fails decides whether the line is reported or ends the program. With overflow checks, addresses beyond 2^32 end the program. If all lines are taken, local labels must have a visible definition, jump targets a definition, and numeric branch targets lie in the program. What then remains is code, except for .word lines and, with overflow checks, compare-and-branch instructions over the distance 0, which panic. The report has an error about a line exactly if the line is not taken.",
  "all source texts (any Unicode text), base addresses, symbol tables, both build modes",
  "All texts: every combination of mnemonics, operands, labels and lines.",
  ["src/parser.rs: parse, scan_line, parse_inst, parse_immediate, parse_target, adjust_labels","src/assembler.rs: assemble","src/lib.rs: assemble"])
p("Exactly the right code is generated",
  "For every source text, every base address, symbol table and build mode: a program that is accepted is assembled to one list of words, which the text determines by the following rules. Each line stands for its mnemonic and the values of its operands: registers have their numbers; constants are numbers, halves of addresses, distances to labels; jump targets are addresses, and a label is the base address plus four times the number of instruction lines above it. A pseudo-instruction stands for a fixed list of machine instructions over these values; each machine instruction is encoded as in the instruction set reference; and the words are those of the lines in their order. (The rules contain, as exceptions, the deviations of this assembler: numeric branch targets, lost jump bits, unchecked shift amounts, compare-and-branch over the distance 0.)",
  "all source texts (any Unicode text), base addresses, symbol tables, both build modes",
  "All texts: every mnemonic with every spelling and value of its operands, at every place of every program.",
  ["src/parser.rs: parse, parse_inst, adjust_labels","src/assembler.rs: assemble","src/lib.rs: assemble, get_bytes"])
p("Exactly the right errors are reported",
  "For every source text, every base address, symbol table and build mode for which assembling returns: the errors are, in order, one for every line that is not taken, and after them one for every instruction that refers to a place that cannot be found or reached. A line is blamed for its first wrong part, from left to right in the order its mnemonic reads it: the kind of error, the line and the text that is quoted (of a register its number, otherwise its text; of a number its text without 0x; of a condition the condition; the number of operands that was expected and found) are determined by the text. Places are looked up as if the lines with errors were blank. If there are none of these errors, code is returned.",
  "all source texts (any Unicode text), base addresses, symbol tables, both build modes",
  "All texts: every combination of wrong lines, in every order, with every way to be wrong.",
  ["src/parser.rs: parse, scan_line, parse_inst, parse_immediate, parse_target, parse_float_cond, adjust_labels","src/error.rs: ParserError"])
p("Exactly the right warnings are given",
  "For every source text, every base address, symbol table and build mode for which assembling returns (code or errors): the warnings are, line by line, the following. A jump or branch with the right number of operands, right or wrong, whose last accepted instruction above is a jump or branch, gets the warning that it stands in a delay slot, quoting the source line above it; the compare-and-branch pseudo-instructions are forgotten as instructions above. An accepted branch to a number or half of an address, or jump to an address, that is no multiple of 4 gets a warning quoting its operand. Nothing else is warned about.",
  "all source texts (any Unicode text), base addresses, symbol tables, both build modes",
  "All texts: every sequence of instructions, refused lines, labels and blank lines, with every operand.",
  ["src/parser.rs: parse, parse_inst","src/error.rs: ParserWarning, warning!","src/ast.rs: has_delay_slot"])
p("Exactly this listing is printed",
  "For all words, base addresses, symbol tables, both build modes and both output modes: disassembling panics exactly when (normal mode) a j outside a recognised final delay slot goes to a symbol or, in a debug build, one of the addresses the layout computes needs more than 32 bits; otherwise it returns exactly the lines that are determined by the words: the label of the base address, then each word as its mnemonic, blanks up to the operand column and operands in the order of the instruction set reference, with a blank line and a label after the delay slot of every jump that leaves the function. In debug mode there are no labels and every run of white space is one space. (The rules contain the deviations of this program: the sign of 32767, tabs behind comparisons, holes in the COP0 map, and where a function is taken to start.)",
  "all lists of words, base addresses, symbol tables, both build modes, both output modes",
  "All 2^32 words in every order, at every address, with every symbol table.",
  ["src/lib.rs: disassemble, match_syms, get_sym","src/ast.rs: Display for Instruction, Debug for Instruction","src/disassembler.rs: disassemble"])
p("The tool never damages files, at any moment of any run",
  "At every moment of a run of the command-line tool, whichever reads, prints, file creations and writes fail and however little of a write is done: no file but the output file has changed; the output file has its old contents, does not exist if it did not, or holds the beginning of the result; what has been printed is the beginning of the result, and is nothing if there is an output file. The result is the code of the program or the listing of the words that the files held at the start. A run ends; status 0 means that the result is complete, any other status is 1; if there is no result, nothing is written. (It is not guaranteed, and false, that a failed run leaves the old output file as it was.)",
  "all command lines, contents of files, failures of the file system and streams, and moments of interruption",
  "Every sequence of failures and every crash point.",
  ["src/bin/bin.rs: main"])
p("A run of the tool does exactly this",
  "If no operation on files or streams fails, a run of the command-line tool does exactly the following. A symbol file or program that is not UTF-8 and a wrong base address are reported with status 1; a symbol file that is not YAML panics. An accepted program: its warnings on standard error, then its words, big-endian in the output file or in hexadecimal on standard output, status 0. A refused program: its warnings and errors on standard error, status 1, nothing written. Words: their listing, in the output file without line ends or on standard output line by line, status 0. It panics for input that makes the assembler or disassembler panic, for errors whose quotation is not in the line they name, and for input that is not a positive number of words. There is exactly one such end.",
  "all command lines, contents of the files, symbol tables, both build modes",
  "All inputs and options in all combinations.",
  ["src/bin/bin.rs: main"])
p("Exactly the right messages",
  "The text of every error and warning, colours included, is determined by what it is about: the headline of its kind with the offending text; an empty row (not for warnings about unaligned targets); every place it quotes, with dots between two of them: the line number, right-aligned, and the line; the row of markers and the note of the kind, with as many markers as the text has bytes, behind as many blanks as there are bytes in front of its first occurrence; and an empty row. Every warning that assembling gives can be displayed; an error can be exactly if the text it quotes occurs in the line it names (else displaying it panics).",
  "all errors and warnings, with any line numbers, lines and texts",
  "All lines, texts, line numbers and kinds of diagnostics.",
  ["src/error.rs: fmt_line, Display for ParserError, Display for ParserWarning"])
p("The names of labels do not matter",
  "If the labels of a program are renamed consistently, in their definitions and in all operands that refer to them (branch and jump targets, immediates, offsets of loads and stores), distinct names to distinct names, local ones (@@name) to local ones, and no name is that of a symbol or can be read as a number, then the program assembles to the same code, is refused or panics exactly as before; also if a new name is that of a register or mnemonic. The errors and warnings correspond one by one: same kinds, same lines, same quotes, but for the names of labels.",
  "all programs (right or wrong), all renamings, base addresses, symbol tables, both build modes",
  "All programs and all bijections of names.",
  ["src/parser.rs: parse, scan_line, parse_immediate, parse_target, adjust_labels"])
p("Labels that nothing refers to do not matter",
  "Adding labels that a program neither defines nor mentions (local ones; or any, if the program has no local labels; no global one twice) anywhere in the program keeps its meaning: if it assembles, it assembles to the same words; the program with the labels is refused only if the one without is; a panic remains. If the program has a local label in front of a global one, or no local labels, the two programs are accepted with the same code, refused or panic exactly alike. (A new global label ends the scope of local labels, and a new local label in front of a global one can make a refused program valid.)",
  "all programs (right or wrong), all sets of additional labels and places for them, base addresses, symbol tables, both build modes",
  "All programs and all ways of adding labels.",
  ["src/parser.rs: parse, scan_line, adjust_labels"])
p("A printed listing assembles back",
  "Whatever the disassembler prints in normal mode - function labels, blank lines and columns included - assembles to the words it was made of; with the command-line tool, the output of disasm sent to a file and given to asm with the same symbols and any base address gives the same bytes.",
  "all lists of words, base addresses, symbol tables, both build modes",
  "All programs: any words in any order, with any symbols.",
  ["src/lib.rs: disassemble, assemble","src/ast.rs: Display for Instruction","src/parser.rs: parse","src/bin/bin.rs: main"])
p("Programs can be assembled separately",
  "If two programs are accepted on their own, the second one for the address 4 bytes per instruction of the first behind it, and they do not get in each other's way - no global label of the first is defined or mentioned in the second (other than by a jump to a symbol of that name); the local labels of the second stand behind its first global label; no local label of the first is visible where the second mentions it; no branch of the second is given a number; all addresses fit in 32 bits - then the two, one behind the other in one file, are accepted, and the code is that of the first followed by that of the second. Conversely, if such a file is accepted and each part has what it needs - the first mentions no global label of the second (other than by a jump to a symbol of that name) and branches to no number beyond its own end, and a part that mentions local labels has a local label that a global one follows - then both parts are accepted on their own, with these codes.",
  "all pairs of programs, base addresses, symbol tables, both build modes",
  "All pairs of programs of any length.",
  ["src/parser.rs: parse, scan_line, adjust_labels","src/lib.rs: assemble, base"])
p("Editing instructions in place has only local effects",
  "Take two files with the same outline: blank lines, instructions and definitions of the same labels on the same lines. If both are accepted, an instruction that is on the same line in both has the same words; and every file that has, on each line, the line of the one or of the other, is accepted. If both are assembled, with or without errors, the errors and the warnings about an instruction that is on the same line in both are the same (the warning about delay slots aside, which is about two lines). Replacing one instruction by another leaves all words in front of it and behind it unchanged, even if it becomes longer or shorter.",
  "all pairs of files with the same outline, all mixtures, base addresses, symbol tables, both build modes",
  "All files and all edits.",
  ["src/parser.rs: parse, scan_line, adjust_labels","src/lib.rs: assemble"])
p("An instruction means the same wherever it stands",
  "Take an instruction on a line of one file and the same text on a line of another (or of the same) file, with the same symbols and the same build mode but any base addresses. If both files are accepted and the instruction's labels are at the same distance (jumps: at the same address), and, if it branches to a number, as many instructions are above it, it has the same words; in particular, every instruction without labels that does not branch to a number has the same words everywhere. Whatever the files, if the same of its texts are labels in both places, the complaint about it, and the warning about its address, are the same but for the number of the line, and an instruction of an accepted program is complained about nowhere. Whether the line below an instruction gets the warning about delay slots depends on the two lines only.",
  "all pairs of files, all lines, base addresses, symbol tables, both build modes",
  "All instructions in all contexts.",
  ["src/parser.rs: parse, scan_line, parse_immediate, adjust_labels","src/lib.rs: assemble"])
p("Symbols can stand for labels of another file",
  "Telling the assembler, as symbols, the addresses of labels of the program changes nothing: a program that is accepted is accepted with the same code. Conversely, if a program is accepted with such symbols and uses them to jump only, it is accepted without them, with the same code. So two programs that jump to labels of each other can be assembled separately, each with the addresses of the other's labels as symbols: the code of the first followed by the code of the second is the code of the two in one file (under the conditions of C67).",
  "all programs and pairs of programs, all sets of labels, base addresses, symbol tables, both build modes",
  "All programs and symbol tables.",
  ["src/parser.rs: parse_target, adjust_labels","src/lib.rs: assemble, symbols, base"])
p("Listings are local",
  "If some words have a listing, every front part of them has one, and the listing starts with it: words behind never change lines in front. Putting a word that is neither j nor jr in the place of another such word changes exactly one line of the listing, the line of the word, which is the line it has in a listing of its own, and does not change whether there is a listing. In debug mode every word has one line, the line it has in a listing of its own.",
  "all lists of words, all splits, all words put in the place of others, base addresses, symbol tables, both build modes",
  "All lists of words of any length.",
  ["src/lib.rs: disassemble","src/disassembler.rs: disassemble","src/ast.rs: Display for Instruction"])
p("Programs can be made of any number of parts, in any order",
  "Take any number of parts: each begins with a global label, no first instruction mentions a local label, no branch is given a number, and no global label of one is defined in another or mentioned there other than by a jump to a symbol of that name (local labels may have the same names). If each is accepted for the address where it comes to stand, they are accepted one behind the other in one file, and the code is the code of the parts, one behind the other. If their jumps go to symbols and addresses only and each is accepted at some base address, this holds for every order of the parts.",
  "all lists of parts, all orders, base addresses, symbol tables, both build modes",
  "All lists of programs of any length and all permutations.",
  ["src/parser.rs: parse, scan_line, adjust_labels","src/lib.rs: assemble, base"])
p("Line endings do not matter",
  "A text is made of lines in exactly one way: each is ended by a line feed, or by a carriage return and a line feed, the last may lack its end unless it is empty; these are the lines the assembler works on and numbers in its messages. Two texts made of the same lines, whatever the ends, have the same outcome: the same code, errors and warnings; and the tool ends with the same status, the same texts on standard output and standard error and the same output file.",
  "all lists of lines, all ways of writing them as a text, base addresses, symbol tables, both build modes, all disks and commands",
  "All texts and all ways of ending each line.",
  ["src/parser.rs: parse","src/lib.rs: assemble","src/bin/bin.rs: main"])
p("Errors are independent of each other",
  "If some of the lines that are complained about are blanked, the errors of the new file are the other errors of the old one, in the same order and in the same words (a second line that an error quotes may be blank now): no complaint about a line causes or hides another error, be it about a line or about a place referred to. The warnings of the new file are the warnings of the old one about lines that are not blanked, in the same order. Only when no error remains may the assembler panic; otherwise the file is accepted then.",
  "all files with errors, all sets of lines that are complained about, base addresses, symbol tables, both build modes",
  "All files and all subsets of their errors.",
  ["src/parser.rs: parse, scan_line, adjust_labels","src/lib.rs: assemble"])
p("Assembled code can be relocated",
  "Every program has a table of places in its code, the words of its j and jal to labels, such that the code for one base address, with the difference of the two base addresses (in words, modulo 2^24) added to the lower 24 bits of the words at these places, is the code for any other base address, whenever the program is accepted for both. All other words do not depend on the base address.",
  "all programs, all pairs of base addresses, symbol tables, both build modes",
  "All programs and all pairs of addresses.",
  ["src/parser.rs: adjust_labels","src/assembler.rs: assemble","src/lib.rs: assemble, base"])
p("A blank line or comment that is inserted changes nothing but line numbers",
  "When a blank line or a comment line is inserted anywhere in a source file, the result of assemble is the same: the same instructions, the same errors and warnings in the same order, with the lines they quote further down where they stand now. Two quotations do not follow their lines: a branch out of the program is always reported on the last line of the file, a redefined label's first definition is quoted by the same (wrong) number as before; the line quoted in front of an instruction in a delay slot is the one directly above it, even if that is the inserted one.",
  "every source text, every position of the inserted line, every blank or comment line, every base address, symbol table and build mode",
  "a test inserts one line into one program; the claim is about all programs and positions, and about the complete result with all messages",
  ["src/parser.rs: Parser::parse, adjust_labels", "src/error.rs: Line", "src/lib.rs: Mipsasm::assemble"])

p("A listing identifies the code",
  "Different lists of instruction words have different listings: if two lists of words (each the encoding of the instruction it denotes) have the same listing, with the same base address and symbols, in debug mode or not, they are the same words. (As long as symbols have different names without white space that are not spelled like addresses.) Of words that are no instructions the listing tells the number.",
  "every two lists of words of any length, every base address, every such symbol table, both modes and both build modes",
  "a collision of two listings can be anywhere among 2^32 words and depends on labels and blank lines in front; tests compare a few listings",
  ["src/lib.rs: Mipsasm::disassemble", "src/disassembler.rs: disassemble", "src/ast.rs: Instruction::fmt"])

p("A listing shows the place of the code only in jumps and labels",
  "The line that a disassembly has for a word does not depend on the base address and on the symbols, unless the word is j or jal; the line of those depends only on the address they go to and on the symbol of that address. The listing (in normal mode) of words among which there is no j or jal has the same lines at all base addresses and with all symbols, blank lines included, but for the names of labels.",
  "every list of words of any length, every two base addresses and symbol tables, both modes, both build modes",
  "all words at all pairs of addresses with all symbol tables; tests list a few words at one address",
  ["src/lib.rs: Mipsasm::disassemble", "src/disassembler.rs: disassemble", "src/ast.rs: Instruction::fmt"])

p("The names of symbols do not matter",
  "Symbols can be given other names, in the symbol table and in the program: the result of assemble is the same instructions and words, or the same kinds of errors and warnings, as long as the new names are not looked up by the program already and the old ones not any more. What a program looks up is exactly the operands of j and jal and what stands in parentheses in an operand (%hi(name), %lo(name)); a name that stands elsewhere in the text, as a label, in a comment or as a part of another name, does no harm.",
  "every program, every set of symbols that are renamed, every other symbol, base address, both build modes",
  "all programs and all renamings; a test renames one symbol in one program",
  ["src/parser.rs: parse_target, parse_immediate, parse_inst", "src/lib.rs: Mipsasm::assemble, symbols"])

p("Blanks around operands do not matter",
  "Two programs with the same label definitions and, in the same order, instructions with the same mnemonic and the same operands up to the blanks (spaces, tabs and other white space) around each operand have the same outcome: the same instructions and words, and the same kinds of errors and warnings. Not so for blanks in front of an operand that begins with a parenthesis, behind a bare break or syscall, inside an operand, or a tab in place of the space behind the mnemonic.",
  "all pairs of programs, valid or not, of any length, all symbol tables and base addresses, both build modes",
  "All programs with any blanks anywhere around operands.",
  ["src/parser.rs: parse_inst, parse_immediate, parse_target, OFFSET_RE, BASE_RE","src/ast.rs: Register::from_str"])
p("Only the statements of a text matter",
  "Every text has exactly one reading: it is made of lines (C73), and on each line there is nothing, the definition of a label, or an instruction, which is a first word (up to the first space) and operands (what stands between commas behind it). The statement on a line is what is left without the white space around it, or what stands between the white space in front and the first comment (`;` or `//`). Two texts with the same statements in the same order have the same outcome - the same instructions and words, errors and warnings - up to line numbers and the lines quoted in diagnostics.",
  "all texts, all characters of Unicode, all symbol tables and base addresses, both build modes",
  "All texts and all ways of laying them out.",
  ["src/parser.rs: parse, scan_line, parse_inst, COMMENT_RE","src/lib.rs: assemble"])
p("An instruction can be replaced by what the disassembler shows of it",
  "What a line assembles to can be written in its place: if in an accepted program without labels and branches any of the lines (pseudo instructions of several words included) are replaced by the listings, in debug mode, of the words they give when assembled alone, the program is still accepted and has exactly the same words. In a program with labels (none spelled like a number) and branches the same holds for every instruction of a single word. This is for words that the notation of the assembler can express, as in C03 (a branch, for one, is listed with an offset but read with an address). With labels it is not true of instructions of several words: distances are counted in instructions, so that the branches over them change.",
  "every accepted program of any length, every selection of its lines, every symbol table whose names have no white space, every base address, both build modes",
  "all programs and all choices of lines, through assembler and disassembler; tests do one instruction each",
  ["src/lib.rs: Mipsasm::assemble, Mipsasm::disassemble, Mipsasm::debug","src/parser.rs: parse, parse_inst","src/ast.rs: Instruction::fmt"])
p("The names that jumps are written with come back in the listing",
  "If a program that is accepted has a line j name or jal name, where name is a global label of the program or a symbol, and the code is disassembled (debug mode) at the same base address with symbols among which name stands for the address of the label (base plus 4 for every instruction in front) or symbol, then the line of the listing at the place of the word of this jump is again j name or jal name, exactly. This requires that the address is in the lowest 64 MB of the region of the base (and aligned), and if the name stands for no other address, the jump is listed so if and only if that is the case.",
  "every accepted program of any length, every jump in it, every symbol table whose names have no white space, every base address, both build modes",
  "all programs, jumps, addresses and tables, through assembler and disassembler",
  ["src/parser.rs: parse_target, adjust_labels","src/lib.rs: Mipsasm::disassemble, match_syms","src/disassembler.rs: disassemble","src/ast.rs: Instruction::fmt"])
p("Texts are taken apart, and numbers read and shown, as documented",
  "What the program does with the characters of its input is what the documentation of the standard library says: trimming removes exactly the white space (of Unicode) at both ends; splitting gives the pieces between the separators, whose joining gives the text back; a text starts with, ends with or contains a pattern iff the pattern stands there; the search finds the first occurrence, and positions and lengths count the bytes of UTF-8; cutting in the middle of a character is not possible; removing 0x removes all occurrences and keeps all else; only A to Z have a lower case in ASCII; a number is read into a type iff it is an optional sign (no minus for unsigned types) and at least one digit of the base, and in the range of the type, and the value is then the one written; numbers are shown in decimal and hexadecimal without leading zeros.",
  "all texts, all characters of Unicode, all numbers, all integer types that the code uses, bases 10 and 16",
  "The sets of texts and numbers are infinite; every other statement about the assembler rests on these functions.",
  ["src/parser.rs: parse, scan_line, parse_inst, parse_immediate, parse_target, parse_register","src/lib.rs: Mipsasm::disassemble","src/ast.rs: Immediate, Instruction::fmt","src/main.rs: main"])
p("Disassembling and assembling settles after one round",
  "Disassemble words that contain no branches and assemble the text again. If that works, the words that come out are a fixed point: disassembling and assembling them any number of further times, at whatever base addresses, always succeeds in debug mode and always gives these same words again. The same holds for printed listings with labels, when they can be printed.",
  "all lists of at most 2^17 words without branches, all symbol tables whose names can be written as jump targets (as labels, for printed listings), all four base addresses",
  "There are 2^32 words in each position; a test of the round trip on samples does not show that lossy words settle after one round.",
  ["src/lib.rs Mipsasm::disassemble, Mipsasm::assemble", "src/ast.rs Display for Instruction", "src/parser.rs parse_immediate, parse_target"])

p("Adding words to an instruction",
  "push_bytes puts words behind those an instruction has: get_bytes then returns the old words followed by the new ones. No query (has_delay_slot, is_branch, is_unconditional_jump, get_branch_offset, get_jump_target) and, for an instruction that has words, no text (Display, Debug) changes. It panics exactly for a raw word, which assemble never returns.",
  "all instructions, and all instructions that assemble returns for any text; all lists of words",
  "The instruction, with all values of its operands, and the words are arbitrary.",
  ["src/ast.rs Instruction::push_bytes, Instruction::get_bytes, Display for Instruction"])

p("disasm reads what asm has written",
  "If a run of asm with an output file ends successfully and disasm is then started on that file (with any symbols, base address and output, on the disk as the first run left it), and no operation on files fails, the second run does exactly this: it writes, on standard output or to its output file, the listing that the library returns for the words the library assembles from the source text. If the library panics for them, or if the program has no instructions, it panics.",
  "all source texts, symbol files, base addresses, paths (also equal ones), contents of the disk, both build modes, all runs without failing operations",
  "The source text and the contents of the disk are arbitrary, and two runs of a program with several effects each are combined.",
  ["src/bin/bin.rs main"])

p("A run of the tool can be repeated after a crash",
  "After any number of runs of the tool with the same command line, each of them stopped at any moment, failed or completed, a further run in which no operation on files fails ends as it would have ended on the original disk: with the same status (or the same panic) and the same texts on standard output and standard error, and, if it is successful, with the same contents of every file. So running the tool twice is the same as running it once. The order in which the hash map of the symbols is iterated may differ from run to run, if no two addresses of the symbol file have the same name. This needs that the files that are read are not the one that is written: with the same file for both, a second run can fail after a successful one.",
  "all command lines, disks, symbol files and source texts; all finite sequences of attempts, all points at which they stop, all failures of operations with partial writes",
  "The points at which a run is stopped, the partial writes and the number of attempts are arbitrary.",
  ["src/bin/bin.rs main"])

p("Runs of the tool at the same time do not disturb each other",
  "Any number of runs of the tool may be active at the same time on the same disk, with their operations interleaved in any way. If no run reads or writes the file that another one writes, then at every moment of every schedule, also when operations fail, each run is at a point it could have reached alone, with the same texts written and the same contents of its output file, and all other files are unchanged. When no operation fails, each run ends exactly as it does alone, and the final state of the disk and of all runs is the same for every schedule, in particular the one of running them one after the other in any order. Finitely many runs come to an end in every schedule and are never stuck. Without the condition the outcome can depend on the schedule.",
  "all families of runs (finite or not), command lines, disks, all interleavings of their operations, all failures of operations with partial writes",
  "The number of schedules is exponential in the number of operations, and tests see few of them.",
  ["src/bin/bin.rs main"])

p("A run depends only on the files it reads",
  "How a run of the tool without failing operations ends depends on the command line and on the contents of the input file and the symbol file, and on nothing else on the disk: on any two disks on which these files have the same contents (before the run) it ends with the same status, or the same panic, and the same texts on standard output and standard error. If it is successful it gives the output file the same contents, whatever they were before, and in any case it leaves all other files alone. (The order in which the hash map of the symbols is iterated may differ, if no two addresses have the same name.)",
  "all command lines (the output file may be one of the files that are read), all pairs of disks, both build modes",
  "The contents of the disk are arbitrary; a test cannot show that nothing else is looked at.",
  ["src/bin/bin.rs main"])

p("Many runs of the tool, one after the other",
  "After any sequence of runs of the tool with any command lines, successful or not, among which none reads a file that one of them writes, every run has ended with the status and texts it would have had on the original disk, and every file holds exactly what the last successful run that has it as its output file writes when started on the original disk; a file that no successful run writes, for instance the output file of runs that were refused or panicked, is unchanged. If the files to be read exist, such a sequence of runs is always possible.",
  "all finite sequences of runs (different command lines, libraries and build modes; several may have the same output file), all disks, no failing operations",
  "Histories of any length over arbitrary disks and programs.",
  ["src/bin/bin.rs main"])

with open("/verif/properties.jsonl","w") as f:
    for q in P: f.write(json.dumps(q)+"\n")
print(len(P))
