{"id": "C01", "title": "Native instructions assemble to the ISA encoding", "statement": "For every native (non-pseudo) R4300i mnemonic and every operand tuple, assemble() followed by get_bytes() yields exactly one 32-bit word, and that word is the one given by the MIPS III opcode maps: opcode/funct/regimm/fmt code at the mnemonic's position in the map, each operand in its field, every unused field zero.", "quantifier": "all native mnemonics x all register operands x all 16-bit immediates / 5-bit shift amounts / 16-bit codes / jump targets", "why_tests_cant": "The suite checks one operand tuple per mnemonic (mostly $a0,$a1,$a2); a swapped or overlapping field is only visible for other operand values.", "anchors": ["src/assembler.rs: assemble", "src/lib.rs: Mipsasm::assemble, get_bytes"]}
{"id": "C02", "title": "Disassembly names the instruction the ISA decodes", "statement": "For every 32-bit word, disassemble() prints the mnemonic found at that word's position in the MIPS III opcode maps with the operands taken from the fields the ISA assigns, and prints .word for words the maps leave reserved.", "quantifier": "all 2^32 words and all base addresses", "why_tests_cant": "2^32 words; tests decode about 200 of them.", "anchors": ["src/disassembler.rs: disassemble", "src/ast.rs: Display for Instruction"]}
{"id": "C03", "title": "Disassemble-then-assemble is the identity on canonical code", "statement": "For every list of words that are canonical encodings (unused fields zero), feeding the debug disassembly, one instruction per line, back to assemble() yields the same list of words.", "quantifier": "all lists of words of any length, all base addresses", "why_tests_cant": "Round-trip over an unbounded input space; tests try single words with one operand choice.", "anchors": ["src/lib.rs: Mipsasm::disassemble, Mipsasm::assemble", "src/ast.rs: Debug for Instruction", "src/parser.rs: parse_inst"]}
{"id": "C04", "title": "Disassembly is total and has one entry per word", "statement": "In debug mode disassemble() never panics and returns exactly one string per input word, for every input and symbol table.", "quantifier": "all word lists, all symbol tables, all base addresses", "why_tests_cant": "A panic arm in Display is reached only by particular words; no test enumerates them.", "anchors": ["src/lib.rs: Mipsasm::disassemble, match_syms", "src/ast.rs: Display for Instruction"]}
{"id": "C05", "title": "Function-splitting layout preserves the listing", "statement": "In normal (non-debug) mode disassemble() never panics, starts with the label of the base address, and after removing label and blank lines the remaining lines are exactly the per-instruction texts in program order, with a label after (and only after) the delay slot of an unconditional jump that leaves the current function.", "quantifier": "all word lists, all symbol tables, all base addresses", "why_tests_cant": "The layout depends on the whole history of jumps and delay slots in a listing of unbounded length.", "anchors": ["src/lib.rs: Mipsasm::disassemble, get_sym"]}
{"id": "C06", "title": "Branches to labels reach the label", "statement": "If assemble() succeeds, every branch whose operand is a (global or local) label carries the signed 16-bit offset o such that (word index of branch + 1 + o) is the word index of the first word emitted after the label definition.", "quantifier": "all programs with labels, of any length", "why_tests_cant": "The offset depends on the number of words emitted by every instruction between branch and label.", "anchors": ["src/parser.rs: adjust_labels, scan_line", "src/assembler.rs: assemble"]}
{"id": "C07", "title": "Jumps to labels and symbols reach their target", "statement": "If assemble() succeeds, executing an emitted j/jal from the region of the base address transfers control to the address of the named label (base + 4 * words emitted before it) or to the symbol's address.", "quantifier": "all programs, base addresses and symbol tables", "why_tests_cant": "Targets range over 2^32 addresses and unbounded programs.", "anchors": ["src/parser.rs: adjust_labels, parse_target", "src/assembler.rs: assemble (J, Jal)"]}
{"id": "C08", "title": "Branches to numeric addresses reach the address", "statement": "A branch written with a numeric address inside the program, at any position of the program and for any base address, is encoded with the offset that reaches that address.", "quantifier": "all programs, positions, base addresses, aligned target addresses within the program", "why_tests_cant": "The existing test uses position 0 and base 0x80000000 only.", "anchors": ["src/parser.rs: adjust_labels (Immediate::Int arm)"]}
{"id": "C09", "title": "Local labels resolve inside their scope", "statement": "A reference to a local label (@@name) resolves to the definition of @@name that lies in the same scope (between the enclosing global label and the next one), for forward and backward references alike, and to nothing else; if there is none, assemble() returns an error.", "quantifier": "all programs with any number of scopes and local labels", "why_tests_cant": "Unbounded nesting of scopes; boundary cases at the first/last instruction of a scope.", "anchors": ["src/parser.rs: scan_line, parse, adjust_labels, get_label_scope"]}
{"id": "C10", "title": "No unresolved label survives a successful assembly", "statement": "When assemble() returns Ok, every returned instruction has been encoded: no operand is still a label, so label-to-number conversion never panics in the encoder; a reference to an undefined label yields Err.", "quantifier": "all source texts, base addresses, symbol tables, hash iteration orders", "why_tests_cant": "Needs an invariant over all program texts and the order of definitions and uses.", "anchors": ["src/parser.rs: adjust_labels, parse_immediate", "src/assembler.rs: assemble", "src/ast.rs: Target::as_u32, Immediate::as_u32"]}
{"id": "C11", "title": "Duplicate and malformed labels are rejected", "statement": "If a program defines the same global label twice, or a label starting with a digit, assemble() returns Err; the set of accepted global labels is duplicate free.", "quantifier": "all source texts", "why_tests_cant": "Definitions may be arbitrarily far apart.", "anchors": ["src/parser.rs: scan_line, parse_label"]}
{"id": "C12", "title": "li loads its constant", "statement": "Executing the words emitted for `li rt, n` on a MIPS III machine leaves the sign-extended 32-bit constant n in rt, and no other register changes.", "quantifier": "all registers rt and all 32-bit constants n, all machine states", "why_tests_cant": "2^32 constants; the test tries one.", "anchors": ["src/assembler.rs: I::Li", "src/parser.rs: li"]}
{"id": "C13", "title": "liu, lli and dli load their constants", "statement": "Executing the words emitted for `liu`, `lli`, `dli` leaves respectively the sign-extended 32-bit constant, the zero-extended 16-bit constant and the 64-bit constant in rt, and changes no other register.", "quantifier": "all registers and all 32/16/64-bit constants, all machine states", "why_tests_cant": "2^64 constants.", "anchors": ["src/assembler.rs: I::Liu, I::Lli, I::Dli"]}
{"id": "C14", "title": "Arithmetic pseudo-instructions compute their function", "statement": "Executing the words emitted for abs, neg, negu, not, move, dmove, clear, dneg, dnegu, dabs, subi, subiu, dsubi, dsubiu leaves the documented function of the source operand(s) in the destination; no register other than the destination and $at changes.", "quantifier": "all operand registers (other than $at), all operand values and machine states", "why_tests_cant": "64-bit operand values and register aliasing cannot be enumerated.", "anchors": ["src/assembler.rs: R::Abs, R::Dabs, R::Neg, R::Not, R::Move, I::Subi, ..."]}
{"id": "C15", "title": "Set-on-compare pseudo-instructions compute their predicate", "statement": "Executing seq, sne, sge, sgeu, sgt, sgtu, sle, sleu leaves 1 in rd if the comparison of the 64-bit operands holds and 0 otherwise, whatever registers alias.", "quantifier": "all register triples (rd not $zero), all operand values", "why_tests_cant": "64-bit operand values and register aliasing cannot be enumerated.", "anchors": ["src/assembler.rs: R::Seq .. R::Sne"]}
{"id": "C16", "title": "Multiply pseudo-instructions compute the product and trap on overflow", "statement": "mul/mulu/dmul/dmulu leave the low word of the product in rd; mulo/mulou/dmulo/dmulou do the same or trap exactly when the product does not fit.", "quantifier": "all register triples (not $at), all operand values", "why_tests_cant": "64-bit operand values cannot be enumerated.", "anchors": ["src/assembler.rs: R::Mul, R::Mulo, R::Mulou, R::Dmul, R::Dmulo, R::Dmulou"]}
{"id": "C17", "title": "Division pseudo-instructions leave quotient or remainder", "statement": "Executing three-operand div, divu, ddiv, ddivu, rem, remu, drem, dremu leaves the quotient (remainder) of rs by rt in rd, and traps exactly on division by zero and on signed overflow.", "quantifier": "all register triples (not $at), all operand values", "why_tests_cant": "Control flow inside the expansion depends on operand values.", "anchors": ["src/assembler.rs: R::Div, R::Divu, R::Ddiv, R::Ddivu, R::Rem, R::Remu, R::Drem, R::Dremu"]}
{"id": "C18", "title": "Rotate pseudo-instructions rotate", "statement": "Executing drol/dror leaves rs rotated left/right by rt mod 64 in rd, unless rs or rt is $at, which the expansion overwrites.", "quantifier": "all register triples (not $at), all operand values", "why_tests_cant": "64-bit operand values cannot be enumerated.", "anchors": ["src/assembler.rs: R::Drol, R::Dror"]}
{"id": "C19", "title": "Compare-and-branch pseudo-instructions branch on the predicate", "statement": "Executing bge, bgt, ble, blt (and u/l variants) takes the branch exactly when the comparison of the 64-bit operands holds; the taken branch goes to the offset the parser computed, adjusted for the extra compare word.", "quantifier": "all operand registers and values, all offsets", "why_tests_cant": "Operand and offset ranges cannot be enumerated; boundary offsets are special.", "anchors": ["src/assembler.rs: I::Bge .. I::Bltul"]}
{"id": "C20", "title": "%hi/%lo recombine", "statement": "For every 32-bit address x, (%hi(x) << 16) + sign_extend(%lo(x)) = x modulo 2^32.", "quantifier": "all 2^32 addresses, as literals or symbols", "why_tests_cant": "2^32 addresses; the carry case is a boundary.", "anchors": ["src/parser.rs: parse_immediate"]}
{"id": "C21", "title": "Mnemonics are case-insensitive", "statement": "Changing the letter case of a mnemonic does not change the result of assemble().", "quantifier": "all source lines and all case variants of the mnemonic", "why_tests_cant": "Exponentially many case variants.", "anchors": ["src/parser.rs: parse_inst"]}
{"id": "C22", "title": "Comments, blank lines and indentation are ignored", "statement": "Appending a `//` or `;` comment to a line, indenting it, or inserting blank/comment-only lines does not change the words assemble() produces.", "quantifier": "all source lines, all comment texts, all positions", "why_tests_cant": "Arbitrary text.", "anchors": ["src/parser.rs: parse, COMMENT_RE, scan_line"]}
{"id": "C23", "title": "All spellings of a register are equivalent", "statement": "name, $name, rN, $rN, N and $N (any surrounding whitespace, any letter case of the name) denote the same general-purpose register; likewise fN / ABI names for FPU registers and names / numbers for COP0 registers; anything that does not denote one of the 32 registers is rejected.", "quantifier": "all registers, all spellings, all whitespace paddings", "why_tests_cant": "Cross product of spellings and paddings; regex and parse fall-throughs.", "anchors": ["src/ast.rs: FromStr for Register, FloatRegister, Cop0Register"]}
{"id": "C24", "title": "Immediates are range-checked", "statement": "A numeric immediate (decimal, or hexadecimal with 0x, optionally signed) is accepted iff its mathematical value fits the operand's type (i16 for signed immediates/offsets, u16 for logical immediates and lui, u32 for addresses), and is then encoded with exactly that value; otherwise Err is returned, never a truncated encoding.", "quantifier": "all integers and all their decimal/hex spellings", "why_tests_cant": "Unbounded literal length; boundaries at +-2^15, 2^16, 2^32.", "anchors": ["src/parser.rs: parse_immediate", "src/ast.rs: Immediate::new"]}
{"id": "C25", "title": "Shift amounts are range-checked", "statement": "A shift instruction is accepted only with a shift amount 0..31, and the amount never alters other fields of the encoding.", "quantifier": "all integers as shift amounts", "why_tests_cant": "The test uses one amount.", "anchors": ["src/parser.rs: parse_inst (shift instructions)", "src/assembler.rs: R::Sll .."]}
{"id": "C26", "title": "Result independent of hash iteration order", "statement": "The result of assemble() does not depend on the iteration order of the hash maps holding local labels; and, if symbol names are pairwise distinct, not on the iteration order of the symbol table either.", "quantifier": "all source texts, all iteration orders, all symbol tables", "why_tests_cant": "Iteration order is randomised per process; a test observes one order.", "anchors": ["src/parser.rs: parse, scan_line, parse_target"]}
{"id": "C27", "title": "Every bad line is reported, once, in order", "statement": "assemble() returns Err exactly when some line is rejected or some reference cannot be resolved; the errors for rejected lines appear once per line, in line order, and carry the number and text of the offending line.", "quantifier": "all source texts", "why_tests_cant": "Any number of errors interleaved with good lines.", "anchors": ["src/parser.rs: parse, scan_line", "src/error.rs: error!"]}
{"id": "C28", "title": "Errors can be displayed", "statement": "Formatting any ParserError returned by assemble() terminates normally (no panic) and shows the offending line.", "quantifier": "all source texts and all errors they produce", "why_tests_cant": "The formatter panics if the highlighted text is not found in the quoted line; depends on exact text.", "anchors": ["src/error.rs: Display for ParserError, fmt_line"]}
{"id": "C29", "title": "Warnings can be displayed", "statement": "Every warning printed during assemble() is formatted without panic.", "quantifier": "all source texts", "why_tests_cant": "Depends on arbitrary text of the previous and current line.", "anchors": ["src/error.rs: Display for ParserWarning, fmt_line", "src/parser.rs: warning!"]}
{"id": "C30", "title": "assemble() does not panic", "statement": "assemble() returns Ok or Err for every input text; malformed input never panics.", "quantifier": "all source texts, symbol tables, base addresses", "why_tests_cant": "Arbitrary text.", "anchors": ["src/parser.rs", "src/assembler.rs", "src/ast.rs"]}
{"id": "C31", "title": "Operand count is checked", "statement": "A line with a known mnemonic and a number of comma-separated operands different from what the mnemonic takes is rejected with InvalidOperandCount.", "quantifier": "all mnemonics, all operand texts", "why_tests_cant": "Arbitrary operand text and counts.", "anchors": ["src/parser.rs: parse_inst"]}
{"id": "C32", "title": "Unknown mnemonics are rejected", "statement": "A line whose first word is not a mnemonic of the language yields InvalidOpcode and no code.", "quantifier": "all words that are not mnemonics", "why_tests_cant": "Infinite set of words.", "anchors": ["src/parser.rs: parse_inst"]}
{"id": "C33", "title": "Symbol substitution in disassembly is exact", "statement": "In a disassembly, the operand of j/jal is printed as a symbol iff the target address is a key of the symbol table, and then as that key's name; no other operand or instruction is affected.", "quantifier": "all words, symbol tables, base addresses", "why_tests_cant": "All addresses and tables.", "anchors": ["src/lib.rs: match_syms"]}
{"id": "C34", "title": "Delay-slot warnings are exact", "statement": "A delay-slot warning is printed for an instruction iff it is a branch or jump placed immediately after a branch or jump.", "quantifier": "all programs", "why_tests_cant": "All pairs of instructions in all programs.", "anchors": ["src/ast.rs: has_delay_slot", "src/parser.rs: parse_inst"]}
{"id": "C35", "title": "Alignment warnings are exact", "statement": "A branch (jump) with numeric target emits the unaligned warning iff the target is not a multiple of 4; the warning does not change the code.", "quantifier": "all branch/jump lines with numeric operands", "why_tests_cant": "All addresses.", "anchors": ["src/parser.rs: parse_inst"]}
{"id": "C36", "title": "Label-free programs assemble line by line", "statement": "For programs without labels and numeric branches, the words of a program are the concatenation of the words of its lines, in order; in particular appending lines never changes the words already emitted.", "quantifier": "all programs, all splits", "why_tests_cant": "Unbounded programs.", "anchors": ["src/parser.rs: parse", "src/assembler.rs: assemble", "src/lib.rs: get_bytes"]}
{"id": "C37", "title": "Configuration is a last-write-wins record", "statement": "base, symbols and debug each set only their own field; the last call wins; assemble() ignores the debug flag, depends on base only through label/branch/jump resolution, and leaves the instance unchanged so repeated calls give the same result.", "quantifier": "all sequences of builder calls, assemble and disassemble calls", "why_tests_cant": "All histories of calls.", "anchors": ["src/lib.rs: Mipsasm::new, base, symbols, debug, assemble, disassemble"]}
{"id": "C38", "title": "CLI byte order round-trips", "statement": "Bytes written by `asm -o` are the big-endian words in order; reading them with `disasm` recovers exactly the same words; an input whose length is not a positive multiple of 4 does not produce a listing.", "quantifier": "all word lists, all byte files", "why_tests_cant": "All files.", "anchors": ["src/bin/bin.rs: main"]}
{"id": "C39", "title": "CLI base address is parsed as hexadecimal", "statement": "-b accepts exactly the hexadecimal spellings (with or without 0x) of 32-bit values and uses that value; everything else is reported as invalid.", "quantifier": "all strings", "why_tests_cant": "Infinite set of strings.", "anchors": ["src/bin/bin.rs: main"]}
{"id": "C40", "title": "Branch relocation: labels make offsets base independent", "statement": "For programs whose branches use labels only, the emitted branch and ALU words do not depend on the base address; only j/jal words to labels do.", "quantifier": "all programs, all pairs of base addresses", "why_tests_cant": "All programs and bases.", "anchors": ["src/parser.rs: adjust_labels"]}
{"id": "C41", "title": "Debug and release builds agree", "statement": "Whenever a build with arithmetic overflow checks (cargo's debug profile) returns from assemble() or disassemble(), a build without them (release) returns the same result, errors and warnings; turning the checks on can only turn a result into a panic.", "quantifier": "all source texts, word lists, base addresses, symbol tables and debug flags", "why_tests_cant": "Overflow is reached only on particular combinations of base address, program length and immediate; all inputs are ranged over.", "anchors": ["src/parser.rs: parse_immediate, adjust_labels", "src/assembler.rs: assemble", "src/lib.rs: disassemble"]}
{"id": "C42", "title": "Unmentioned symbols are irrelevant", "statement": "Of the symbol table only the entries whose name occurs in the source text can influence assemble() (words, errors and warnings alike), and only the entries at listed addresses or at targets of j/jal can influence disassemble(); adding, removing or moving any other entry changes nothing.", "quantifier": "all source texts, word lists and pairs of symbol tables", "why_tests_cant": "Infinitely many tables and texts.", "anchors": ["src/parser.rs: parse_target, parse_immediate", "src/lib.rs: match_syms, get_sym"]}
{"id": "C43", "title": "CLI exit status and streams", "statement": "`asm` exits with 0 exactly when the program assembles; then the words go to the output file (-o) or to standard output and standard error holds only the warnings. If it does not and its errors can be displayed (C28), it exits with 1, standard error lists the warnings and every error in order, nothing is printed and no output file is written. An invalid base address exits with 1 and a message naming it.", "quantifier": "all input files, symbol files and base address strings", "why_tests_cant": "All files and all combinations of errors and warnings.", "anchors": ["src/bin/bin.rs: main", "src/error.rs: Display"]}
{"id": "C44", "title": "CLI prints the words recoverably", "statement": "Without -o, `asm` prints on standard output one bracketed, comma-separated list with every word as exactly eight upper-case hexadecimal digits, in order, from which the words can be recovered.", "quantifier": "all programs", "why_tests_cant": "All word lists.", "anchors": ["src/bin/bin.rs: main"]}
{"id": "C45", "title": "CLI symbol files", "statement": "The symbol table built from a symbol file gives each address at most one name, the one of the last entry for that address (keys taken modulo 2^32, missing or non-integer keys as 0, non-string names as empty); with no file there are no symbols.", "quantifier": "all YAML mappings", "why_tests_cant": "All mappings, including colliding keys.", "anchors": ["src/bin/bin.rs: main"]}
{"id": "C46", "title": "CLI listings are written line by line", "statement": "`disasm` prints the listing one line per entry, so that reading standard output (or the file given with -o) line by line gives back exactly the listing.", "quantifier": "all input files, symbol files and base addresses", "why_tests_cant": "All listings.", "anchors": ["src/bin/bin.rs: main"]}
{"id": "C47", "title": "Displaying an assembled instruction", "statement": "Every instruction returned by assemble() can be displayed, and its Debug text is the line the disassembler (in debug mode, without symbols) prints for its word.", "quantifier": "all programs, all instructions returned for them, all base addresses of the listing", "why_tests_cant": "All programs, operands and mnemonics.", "anchors": ["src/ast.rs: Display for Instruction, Debug for Instruction", "src/disassembler.rs", "src/assembler.rs"]}
{"id": "C48", "title": "Queries on an assembled instruction", "statement": "On every instruction returned by assemble(): has_delay_slot() and is_branch() say whether its mnemonic is a control transfer / branch, is_unconditional_jump() holds exactly for j and jr, get_jump_target() is the target encoded in a j/jal and None otherwise and never panics, and get_branch_offset() of a branch is the signed offset in its word.", "quantifier": "all programs, all instructions returned for them", "why_tests_cant": "All programs and mnemonics.", "anchors": ["src/ast.rs: has_delay_slot, is_branch, is_unconditional_jump, get_branch_offset, get_jump_target"]}
{"id": "C49", "title": "Size of a line", "statement": "The number of words an instruction line is assembled to depends on its mnemonic alone and is the documented size of its expansion, except for li/liu (one word when the number is below 2^16 or a multiple of 2^16, else two) and the three-operand divisions (one word when the divisor is $zero, else the whole expansion). Hence a program of one-word mnemonics has as many words as instruction lines, and a branch over such lines reaches its label.", "quantifier": "all accepted programs and their lines", "why_tests_cant": "All operands, mnemonics and programs.", "anchors": ["src/assembler.rs: assemble", "src/parser.rs: adjust_labels"]}
{"id": "C50", "title": "Assembled code lists as it was written", "statement": "Disassembling (in debug mode, at any base address and with any symbols) the words of an accepted program shows every native instruction as it was written: the same mnemonic and the same operands in normal form. In particular two native instructions are assembled to the same word only if they have the same mnemonic and the same operands.", "quantifier": "all accepted programs, all their native instruction lines, all disassembler settings", "why_tests_cant": "All mnemonics, operand values and programs.", "anchors": ["src/assembler.rs: assemble", "src/disassembler.rs: disassemble", "src/ast.rs: Display for Instruction"]}
{"id": "C51", "title": "Executing the assembled program does what its lines say", "statement": "Executing the emitted words, from the first word of any line, in any machine state, follows the source: whatever executing n lines leads to - a line reached with certain register, HI/LO and memory contents, a trap, or leaving the program, at its end or by a jump elsewhere - the words lead to as well, with the same contents, at the first word of that line; and the words trap, leave or get stuck only if the lines do. Taken and untaken branches, likely branches, jumps, calls and returns, delay slots, loops, expansions of several words and arbitrary other instructions (loads, stores, coprocessors) in between are included.", "quantifier": "all accepted programs, all machine states, all interpretations of the non-integer instructions, all numbers of executed lines", "why_tests_cant": "All programs with all their loops, from all of the 2^2048 register states, for unboundedly many steps.", "anchors": ["src/assembler.rs: assemble", "src/parser.rs: scan_line, adjust_labels", "src/lib.rs: assemble, get_bytes"]}
{"id": "C52", "title": "The delay-slot warning names the branch", "statement": "A warning about a jump or branch in a delay slot quotes that instruction and, as the line with the delay slot, the jump or branch in front of it, each with its own line number.", "quantifier": "all accepted programs and their delay-slot warnings", "why_tests_cant": "All programs, all arrangements of lines.", "anchors": ["src/error.rs: warning!", "src/parser.rs"]}
{"id": "C53", "title": "Diagnostics mark the offending text", "statement": "A displayed error or warning starts with a headline that names the kind and the offending text; every place it is about is quoted behind its line number, and the row below it has markers exactly below the offending text (its first occurrence in the line), followed by the note that belongs to the kind.", "quantifier": "all errors and warnings that can be displayed", "why_tests_cant": "All lines, texts, line numbers and kinds of diagnostics.", "anchors": ["src/error.rs: fmt_line, Display for ParserError, Display for ParserWarning"]}
{"id": "C54", "title": "Adding lines at the end keeps the code in front", "statement": "When lines are added at the end of a program and both the shorter and the longer program are accepted, the code of the longer one begins with exactly the instructions and words of the shorter one, and its warnings with the warnings of the shorter one.", "quantifier": "all pairs of accepted programs of which one is the other followed by further lines", "why_tests_cant": "All programs and all continuations of them.", "anchors": ["src/parser.rs: parse, scan_line, adjust_labels, get_label_scope", "src/lib.rs: assemble"]}
{"id": "C55", "title": "Only the values of operands matter", "statement": "Writing an operand in another way with the same value does not change the result of assembling: another spelling of a register; another numeral (decimal, hexadecimal, leading zeros, letter case, blanks around), also as the offset of a load or store; a symbol or its address as the target of a jump and inside %hi and %lo. The instructions, the words and the kinds of diagnostics are the same. (As long as symbols have different names and no label of the program is spelled like a numeral or contains a parenthesis: such a label is meant by one spelling and not by the other.)", "quantifier": "all pairs of programs whose lines have operands of the same values, accepted or not, all symbol tables and base addresses", "why_tests_cant": "All spellings of all operands of all instructions in all programs.", "anchors": ["src/parser.rs: parse_immediate, parse_target, parse_inst"]}
{"id": "C56", "title": "Exactly the right programs are accepted", "statement": "For every source text, every base address, symbol table and build mode, whether assembling returns code, returns errors or panics is decided by the following rules. Every line is read in steps from left to right (the operands of its mnemonic, each in the spellings of its kind); the first step that fails decides whether the line is reported or ends the program. With overflow checks, addresses beyond 2^32 end the program. If all lines are taken, local labels must have a visible definition, jump targets a definition, and numeric branch targets lie in the program. What then remains is code, except for .word lines and, with overflow checks, compare-and-branch instructions over the distance 0, which panic. The report has an error about a line exactly if the line is not taken.", "quantifier": "all source texts (any Unicode text), base addresses, symbol tables, both build modes", "why_tests_cant": "All texts: every combination of mnemonics, operands, labels and lines.", "anchors": ["src/parser.rs: parse, scan_line, parse_inst, parse_immediate, parse_target, adjust_labels", "src/assembler.rs: assemble", "src/lib.rs: assemble"]}
{"id": "C57", "title": "Exactly the right code is generated", "statement": "For every source text, every base address, symbol table and build mode: a program that is accepted is assembled to one list of words, which the text determines by the following rules. Each line stands for its mnemonic and the values of its operands: registers have their numbers; constants are numbers, halves of addresses, distances to labels; jump targets are addresses, and a label is the base address plus four times the number of instruction lines above it. A pseudo-instruction stands for a fixed list of machine instructions over these values; each machine instruction is encoded as in the instruction set reference; and the words are those of the lines in their order. (The rules contain, as exceptions, the deviations of this assembler: numeric branch targets, lost jump bits, unchecked shift amounts, compare-and-branch over the distance 0.)", "quantifier": "all source texts (any Unicode text), base addresses, symbol tables, both build modes", "why_tests_cant": "All texts: every mnemonic with every spelling and value of its operands, at every place of every program.", "anchors": ["src/parser.rs: parse, parse_inst, adjust_labels", "src/assembler.rs: assemble", "src/lib.rs: assemble, get_bytes"]}
{"id": "C58", "title": "Exactly the right errors are reported", "statement": "For every source text, every base address, symbol table and build mode for which assembling returns: the errors are, in order, one for every line that is not taken, and after them one for every instruction that refers to a place that cannot be found or reached. A line is blamed for its first wrong part, from left to right in the order its mnemonic reads it: the kind of error, the line and the text that is quoted (of a register its number, otherwise its text; of a number its text without 0x; of a condition the condition; the number of operands that was expected and found) are determined by the text. Places are looked up as if the lines with errors were blank. If there are none of these errors, code is returned.", "quantifier": "all source texts (any Unicode text), base addresses, symbol tables, both build modes", "why_tests_cant": "All texts: every combination of wrong lines, in every order, with every way to be wrong.", "anchors": ["src/parser.rs: parse, scan_line, parse_inst, parse_immediate, parse_target, parse_float_cond, adjust_labels", "src/error.rs: ParserError"]}
{"id": "C59", "title": "Exactly the right warnings are given", "statement": "For every source text, every base address, symbol table and build mode for which assembling returns (code or errors): the warnings are, line by line, the following. A jump or branch with the right number of operands, right or wrong, whose last accepted instruction above is a jump or branch, gets the warning that it stands in a delay slot, quoting the source line above it; the compare-and-branch pseudo-instructions are forgotten as instructions above. An accepted branch to a number or half of an address, or jump to an address, that is no multiple of 4 gets a warning quoting its operand. Nothing else is warned about.", "quantifier": "all source texts (any Unicode text), base addresses, symbol tables, both build modes", "why_tests_cant": "All texts: every sequence of instructions, refused lines, labels and blank lines, with every operand.", "anchors": ["src/parser.rs: parse, parse_inst", "src/error.rs: ParserWarning, warning!", "src/ast.rs: has_delay_slot"]}
{"id": "C60", "title": "Exactly this listing is printed", "statement": "For all words, base addresses, symbol tables, both build modes and both output modes: disassembling panics exactly when (normal mode) a j outside a recognised final delay slot goes to a symbol or, in a debug build, one of the addresses the layout computes needs more than 32 bits; otherwise it returns exactly the lines that are determined by the words: the label of the base address, then each word as its mnemonic, blanks up to the operand column and operands in the order of the instruction set reference, with a blank line and a label after the delay slot of every jump that leaves the function. In debug mode there are no labels and every run of white space is one space. (The rules contain the deviations of this program: the sign of 32767, tabs behind comparisons, holes in the COP0 map, and where a function is taken to start.)", "quantifier": "all lists of words, base addresses, symbol tables, both build modes, both output modes", "why_tests_cant": "All 2^32 words in every order, at every address, with every symbol table.", "anchors": ["src/lib.rs: disassemble, match_syms, get_sym", "src/ast.rs: Display for Instruction, Debug for Instruction", "src/disassembler.rs: disassemble"]}
{"id": "C61", "title": "The tool never damages files, at any moment of any run", "statement": "At every moment of a run of the command-line tool, whichever reads, prints, file creations and writes fail and however little of a write is done: no file but the output file has changed; the output file has its old contents, does not exist if it did not, or holds the beginning of the result; what has been printed is the beginning of the result, and is nothing if there is an output file. The result is the code of the program or the listing of the words that the files held at the start. A run ends; status 0 means that the result is complete, any other status is 1; if there is no result, nothing is written. (It is not guaranteed, and false, that a failed run leaves the old output file as it was.)", "quantifier": "all command lines, contents of files, failures of the file system and streams, and moments of interruption", "why_tests_cant": "Every sequence of failures and every crash point.", "anchors": ["src/bin/bin.rs: main"]}
{"id": "C62", "title": "A run of the tool does exactly this", "statement": "If no operation on files or streams fails, a run of the command-line tool does exactly the following. A symbol file or program that is not UTF-8 and a wrong base address are reported with status 1; a symbol file that is not YAML panics. An accepted program: its warnings on standard error, then its words, big-endian in the output file or in hexadecimal on standard output, status 0. A refused program: its warnings and errors on standard error, status 1, nothing written. Words: their listing, in the output file without line ends or on standard output line by line, status 0. It panics for input that makes the assembler or disassembler panic, for errors whose quotation is not in the line they name, and for input that is not a positive number of words. There is exactly one such end.", "quantifier": "all command lines, contents of the files, symbol tables, both build modes", "why_tests_cant": "All inputs and options in all combinations.", "anchors": ["src/bin/bin.rs: main"]}
{"id": "C63", "title": "Exactly the right messages", "statement": "The text of every error and warning, colours included, is determined by what it is about: the headline of its kind with the offending text; an empty row (not for warnings about unaligned targets); every place it quotes, with dots between two of them: the line number, right-aligned, and the line; the row of markers and the note of the kind, with as many markers as the text has bytes, behind as many blanks as there are bytes in front of its first occurrence; and an empty row. Every warning that assembling gives can be displayed; an error can be exactly if the text it quotes occurs in the line it names (else displaying it panics).", "quantifier": "all errors and warnings, with any line numbers, lines and texts", "why_tests_cant": "All lines, texts, line numbers and kinds of diagnostics.", "anchors": ["src/error.rs: fmt_line, Display for ParserError, Display for ParserWarning"]}
{"id": "C64", "title": "The names of labels do not matter", "statement": "If the labels of a program are renamed consistently, in their definitions and in all operands that refer to them (branch and jump targets, immediates, offsets of loads and stores), distinct names to distinct names, local ones (@@name) to local ones, and no name is that of a symbol or can be read as a number, then the program assembles to the same code, is refused or panics exactly as before; also if a new name is that of a register or mnemonic. The errors and warnings correspond one by one: same kinds, same lines, same quotes, but for the names of labels.", "quantifier": "all programs (right or wrong), all renamings, base addresses, symbol tables, both build modes", "why_tests_cant": "All programs and all bijections of names.", "anchors": ["src/parser.rs: parse, scan_line, parse_immediate, parse_target, adjust_labels"]}
{"id": "C65", "title": "Labels that nothing refers to do not matter", "statement": "Adding labels that a program neither defines nor mentions (local ones; or any, if the program has no local labels; no global one twice) anywhere in the program keeps its meaning: if it assembles, it assembles to the same words; the program with the labels is refused only if the one without is; a panic remains. If the program has a local label in front of a global one, or no local labels, the two programs are accepted with the same code, refused or panic exactly alike. (A new global label ends the scope of local labels, and a new local label in front of a global one can make a refused program valid.)", "quantifier": "all programs (right or wrong), all sets of additional labels and places for them, base addresses, symbol tables, both build modes", "why_tests_cant": "All programs and all ways of adding labels.", "anchors": ["src/parser.rs: parse, scan_line, adjust_labels"]}
{"id": "C66", "title": "A printed listing assembles back", "statement": "Whatever the disassembler prints in normal mode - function labels, blank lines and columns included - assembles to the words it was made of; with the command-line tool, the output of disasm sent to a file and given to asm with the same symbols and any base address gives the same bytes.", "quantifier": "all lists of words, base addresses, symbol tables, both build modes", "why_tests_cant": "All programs: any words in any order, with any symbols.", "anchors": ["src/lib.rs: disassemble, assemble", "src/ast.rs: Display for Instruction", "src/parser.rs: parse", "src/bin/bin.rs: main"]}
{"id": "C67", "title": "Programs can be assembled separately", "statement": "If two programs are accepted on their own, the second one for the address 4 bytes per instruction of the first behind it, and they do not get in each other's way - no global label of the first is defined or mentioned in the second (other than by a jump to a symbol of that name); the local labels of the second stand behind its first global label; no local label of the first is visible where the second mentions it; no branch of the second is given a number; all addresses fit in 32 bits - then the two, one behind the other in one file, are accepted, and the code is that of the first followed by that of the second. Conversely, if such a file is accepted and each part has what it needs - the first mentions no global label of the second (other than by a jump to a symbol of that name) and branches to no number beyond its own end, and a part that mentions local labels has a local label that a global one follows - then both parts are accepted on their own, with these codes.", "quantifier": "all pairs of programs, base addresses, symbol tables, both build modes", "why_tests_cant": "All pairs of programs of any length.", "anchors": ["src/parser.rs: parse, scan_line, adjust_labels", "src/lib.rs: assemble, base"]}
{"id": "C68", "title": "Editing instructions in place has only local effects", "statement": "Take two files with the same outline: blank lines, instructions and definitions of the same labels on the same lines. If both are accepted, an instruction that is on the same line in both has the same words; and every file that has, on each line, the line of the one or of the other, is accepted. If both are assembled, with or without errors, the errors and the warnings about an instruction that is on the same line in both are the same (the warning about delay slots aside, which is about two lines). Replacing one instruction by another leaves all words in front of it and behind it unchanged, even if it becomes longer or shorter.", "quantifier": "all pairs of files with the same outline, all mixtures, base addresses, symbol tables, both build modes", "why_tests_cant": "All files and all edits.", "anchors": ["src/parser.rs: parse, scan_line, adjust_labels", "src/lib.rs: assemble"]}
{"id": "C69", "title": "An instruction means the same wherever it stands", "statement": "Take an instruction on a line of one file and the same text on a line of another (or of the same) file, with the same symbols and the same build mode but any base addresses. If both files are accepted and the instruction's labels are at the same distance (jumps: at the same address), and, if it branches to a number, as many instructions are above it, it has the same words; in particular, every instruction without labels that does not branch to a number has the same words everywhere. Whatever the files, if the same of its texts are labels in both places, the complaint about it, and the warning about its address, are the same but for the number of the line, and an instruction of an accepted program is complained about nowhere. Whether the line below an instruction gets the warning about delay slots depends on the two lines only.", "quantifier": "all pairs of files, all lines, base addresses, symbol tables, both build modes", "why_tests_cant": "All instructions in all contexts.", "anchors": ["src/parser.rs: parse, scan_line, parse_immediate, adjust_labels", "src/lib.rs: assemble"]}
{"id": "C70", "title": "Symbols can stand for labels of another file", "statement": "Telling the assembler, as symbols, the addresses of labels of the program changes nothing: a program that is accepted is accepted with the same code. Conversely, if a program is accepted with such symbols and uses them to jump only, it is accepted without them, with the same code. So two programs that jump to labels of each other can be assembled separately, each with the addresses of the other's labels as symbols: the code of the first followed by the code of the second is the code of the two in one file (under the conditions of C67).", "quantifier": "all programs and pairs of programs, all sets of labels, base addresses, symbol tables, both build modes", "why_tests_cant": "All programs and symbol tables.", "anchors": ["src/parser.rs: parse_target, adjust_labels", "src/lib.rs: assemble, symbols, base"]}
{"id": "C71", "title": "Listings are local", "statement": "If some words have a listing, every front part of them has one, and the listing starts with it: words behind never change lines in front. Putting a word that is neither j nor jr in the place of another such word changes exactly one line of the listing, the line of the word, which is the line it has in a listing of its own, and does not change whether there is a listing. In debug mode every word has one line, the line it has in a listing of its own.", "quantifier": "all lists of words, all splits, all words put in the place of others, base addresses, symbol tables, both build modes", "why_tests_cant": "All lists of words of any length.", "anchors": ["src/lib.rs: disassemble", "src/disassembler.rs: disassemble", "src/ast.rs: Display for Instruction"]}
{"id": "C72", "title": "Programs can be made of any number of parts, in any order", "statement": "Take any number of parts: each begins with a global label, no first instruction mentions a local label, no branch is given a number, and no global label of one is defined in another or mentioned there other than by a jump to a symbol of that name (local labels may have the same names). If each is accepted for the address where it comes to stand, they are accepted one behind the other in one file, and the code is the code of the parts, one behind the other. If their jumps go to symbols and addresses only and each is accepted at some base address, this holds for every order of the parts.", "quantifier": "all lists of parts, all orders, base addresses, symbol tables, both build modes", "why_tests_cant": "All lists of programs of any length and all permutations.", "anchors": ["src/parser.rs: parse, scan_line, adjust_labels", "src/lib.rs: assemble, base"]}
{"id": "C73", "title": "Line endings do not matter", "statement": "A text is made of lines in exactly one way: each is ended by a line feed, or by a carriage return and a line feed, the last may lack its end unless it is empty; these are the lines the assembler works on and numbers in its messages. Two texts made of the same lines, whatever the ends, have the same outcome: the same code, errors and warnings; and the tool ends with the same status, the same texts on standard output and standard error and the same output file.", "quantifier": "all lists of lines, all ways of writing them as a text, base addresses, symbol tables, both build modes, all disks and commands", "why_tests_cant": "All texts and all ways of ending each line.", "anchors": ["src/parser.rs: parse", "src/lib.rs: assemble", "src/bin/bin.rs: main"]}
{"id": "C74", "title": "Errors are independent of each other", "statement": "If some of the lines that are complained about are blanked, the errors of the new file are the other errors of the old one, in the same order and in the same words (a second line that an error quotes may be blank now): no complaint about a line causes or hides another error, be it about a line or about a place referred to. The warnings of the new file are the warnings of the old one about lines that are not blanked, in the same order. Only when no error remains may the assembler panic; otherwise the file is accepted then.", "quantifier": "all files with errors, all sets of lines that are complained about, base addresses, symbol tables, both build modes", "why_tests_cant": "All files and all subsets of their errors.", "anchors": ["src/parser.rs: parse, scan_line, adjust_labels", "src/lib.rs: assemble"]}
{"id": "C75", "title": "Assembled code can be relocated", "statement": "Every program has a table of places in its code, the words of its j and jal to labels, such that the code for one base address, with the difference of the two base addresses (in words, modulo 2^24) added to the lower 24 bits of the words at these places, is the code for any other base address, whenever the program is accepted for both. All other words do not depend on the base address.", "quantifier": "all programs, all pairs of base addresses, symbol tables, both build modes", "why_tests_cant": "All programs and all pairs of addresses.", "anchors": ["src/parser.rs: adjust_labels", "src/assembler.rs: assemble", "src/lib.rs: assemble, base"]}
{"id": "C76", "title": "A blank line or comment that is inserted changes nothing but line numbers", "statement": "When a blank line or a comment line is inserted anywhere in a source file, the result of assemble is the same: the same instructions, the same errors and warnings in the same order, with the lines they quote further down where they stand now. Two quotations do not follow their lines: a branch out of the program is always reported on the last line of the file, a redefined label's first definition is quoted by the same (wrong) number as before; the line quoted in front of an instruction in a delay slot is the one directly above it, even if that is the inserted one.", "quantifier": "every source text, every position of the inserted line, every blank or comment line, every base address, symbol table and build mode", "why_tests_cant": "a test inserts one line into one program; the claim is about all programs and positions, and about the complete result with all messages", "anchors": ["src/parser.rs: Parser::parse, adjust_labels", "src/error.rs: Line", "src/lib.rs: Mipsasm::assemble"]}
{"id": "C77", "title": "A listing identifies the code", "statement": "Different lists of instruction words have different listings: if two lists of words (each the encoding of the instruction it denotes) have the same listing, with the same base address and symbols, in debug mode or not, they are the same words. (As long as symbols have different names without white space that are not spelled like addresses.) Of words that are no instructions the listing tells the number.", "quantifier": "every two lists of words of any length, every base address, every such symbol table, both modes and both build modes", "why_tests_cant": "a collision of two listings can be anywhere among 2^32 words and depends on labels and blank lines in front; tests compare a few listings", "anchors": ["src/lib.rs: Mipsasm::disassemble", "src/disassembler.rs: disassemble", "src/ast.rs: Instruction::fmt"]}
{"id": "C78", "title": "A listing shows the place of the code only in jumps and labels", "statement": "The line that a disassembly has for a word does not depend on the base address and on the symbols, unless the word is j or jal; the line of those depends only on the address they go to and on the symbol of that address. The listing (in normal mode) of words among which there is no j or jal has the same lines at all base addresses and with all symbols, blank lines included, but for the names of labels.", "quantifier": "every list of words of any length, every two base addresses and symbol tables, both modes, both build modes", "why_tests_cant": "all words at all pairs of addresses with all symbol tables; tests list a few words at one address", "anchors": ["src/lib.rs: Mipsasm::disassemble", "src/disassembler.rs: disassemble", "src/ast.rs: Instruction::fmt"]}
{"id": "C79", "title": "The names of symbols do not matter", "statement": "Symbols can be given other names, in the symbol table and in the program: the result of assemble is the same instructions and words, or the same kinds of errors and warnings, as long as the new names are not looked up by the program already and the old ones not any more. What a program looks up is exactly the operands of j and jal and what stands in parentheses in an operand (%hi(name), %lo(name)); a name that stands elsewhere in the text, as a label, in a comment or as a part of another name, does no harm.", "quantifier": "every program, every set of symbols that are renamed, every other symbol, base address, both build modes", "why_tests_cant": "all programs and all renamings; a test renames one symbol in one program", "anchors": ["src/parser.rs: parse_target, parse_immediate, parse_inst", "src/lib.rs: Mipsasm::assemble, symbols"]}
{"id": "C80", "title": "Blanks around operands do not matter", "statement": "Two programs with the same label definitions and, in the same order, instructions with the same mnemonic and the same operands up to the blanks (spaces, tabs and other white space) around each operand have the same outcome: the same instructions and words, and the same kinds of errors and warnings. Not so for blanks in front of an operand that begins with a parenthesis, behind a bare break or syscall, inside an operand, or a tab in place of the space behind the mnemonic.", "quantifier": "all pairs of programs, valid or not, of any length, all symbol tables and base addresses, both build modes", "why_tests_cant": "All programs with any blanks anywhere around operands.", "anchors": ["src/parser.rs: parse_inst, parse_immediate, parse_target, OFFSET_RE, BASE_RE", "src/ast.rs: Register::from_str"]}
{"id": "C81", "title": "Only the statements of a text matter", "statement": "Every text has exactly one reading: it is made of lines (C73), and on each line there is nothing, the definition of a label, or an instruction, which is a first word (up to the first space) and operands (what stands between commas behind it). The statement on a line is what is left without the white space around it, or what stands between the white space in front and the first comment (`;` or `//`). Two texts with the same statements in the same order have the same outcome - the same instructions and words, errors and warnings - up to line numbers and the lines quoted in diagnostics.", "quantifier": "all texts, all characters of Unicode, all symbol tables and base addresses, both build modes", "why_tests_cant": "All texts and all ways of laying them out.", "anchors": ["src/parser.rs: parse, scan_line, parse_inst, COMMENT_RE", "src/lib.rs: assemble"]}
{"id": "C82", "title": "An instruction can be replaced by what the disassembler shows of it", "statement": "What a line assembles to can be written in its place: if in an accepted program without labels and branches any of the lines (pseudo instructions of several words included) are replaced by the listings, in debug mode, of the words they give when assembled alone, the program is still accepted and has exactly the same words. In a program with labels (none spelled like a number) and branches the same holds for every instruction of a single word. This is for words that the notation of the assembler can express, as in C03 (a branch, for one, is listed with an offset but read with an address). With labels it is not true of instructions of several words: distances are counted in instructions, so that the branches over them change.", "quantifier": "every accepted program of any length, every selection of its lines, every symbol table whose names have no white space, every base address, both build modes", "why_tests_cant": "all programs and all choices of lines, through assembler and disassembler; tests do one instruction each", "anchors": ["src/lib.rs: Mipsasm::assemble, Mipsasm::disassemble, Mipsasm::debug", "src/parser.rs: parse, parse_inst", "src/ast.rs: Instruction::fmt"]}
{"id": "C83", "title": "The names that jumps are written with come back in the listing", "statement": "If a program that is accepted has a line j name or jal name, where name is a global label of the program or a symbol, and the code is disassembled (debug mode) at the same base address with symbols among which name stands for the address of the label (base plus 4 for every instruction in front) or symbol, then the line of the listing at the place of the word of this jump is again j name or jal name, exactly. This requires that the address is in the lowest 64 MB of the region of the base (and aligned), and if the name stands for no other address, the jump is listed so if and only if that is the case.", "quantifier": "every accepted program of any length, every jump in it, every symbol table whose names have no white space, every base address, both build modes", "why_tests_cant": "all programs, jumps, addresses and tables, through assembler and disassembler", "anchors": ["src/parser.rs: parse_target, adjust_labels", "src/lib.rs: Mipsasm::disassemble, match_syms", "src/disassembler.rs: disassemble", "src/ast.rs: Instruction::fmt"]}
{"id": "C84", "title": "Texts are taken apart, and numbers read and shown, as documented", "statement": "What the program does with the characters of its input is what the documentation of the standard library says: trimming removes exactly the white space (of Unicode) at both ends; splitting gives the pieces between the separators, whose joining gives the text back; a text starts with, ends with or contains a pattern iff the pattern stands there; the search finds the first occurrence, and positions and lengths count the bytes of UTF-8; cutting in the middle of a character is not possible; removing 0x removes all occurrences and keeps all else; only A to Z have a lower case in ASCII; a number is read into a type iff it is an optional sign (no minus for unsigned types) and at least one digit of the base, and in the range of the type, and the value is then the one written; numbers are shown in decimal and hexadecimal without leading zeros.", "quantifier": "all texts, all characters of Unicode, all numbers, all integer types that the code uses, bases 10 and 16", "why_tests_cant": "The sets of texts and numbers are infinite; every other statement about the assembler rests on these functions.", "anchors": ["src/parser.rs: parse, scan_line, parse_inst, parse_immediate, parse_target, parse_register", "src/lib.rs: Mipsasm::disassemble", "src/ast.rs: Immediate, Instruction::fmt", "src/main.rs: main"]}
{"id": "C85", "title": "Disassembling and assembling settles after one round", "statement": "Disassemble words that contain no branches and assemble the text again. If that works, the words that come out are a fixed point: disassembling and assembling them any number of further times, at whatever base addresses, always succeeds in debug mode and always gives these same words again. The same holds for printed listings with labels, when they can be printed.", "quantifier": "all lists of at most 2^17 words without branches, all symbol tables whose names can be written as jump targets (as labels, for printed listings), all four base addresses", "why_tests_cant": "There are 2^32 words in each position; a test of the round trip on samples does not show that lossy words settle after one round.", "anchors": ["src/lib.rs Mipsasm::disassemble, Mipsasm::assemble", "src/ast.rs Display for Instruction", "src/parser.rs parse_immediate, parse_target"]}
{"id": "C86", "title": "Adding words to an instruction", "statement": "push_bytes puts words behind those an instruction has: get_bytes then returns the old words followed by the new ones. No query (has_delay_slot, is_branch, is_unconditional_jump, get_branch_offset, get_jump_target) and, for an instruction that has words, no text (Display, Debug) changes. It panics exactly for a raw word, which assemble never returns.", "quantifier": "all instructions, and all instructions that assemble returns for any text; all lists of words", "why_tests_cant": "The instruction, with all values of its operands, and the words are arbitrary.", "anchors": ["src/ast.rs Instruction::push_bytes, Instruction::get_bytes, Display for Instruction"]}
{"id": "C87", "title": "disasm reads what asm has written", "statement": "If a run of asm with an output file ends successfully and disasm is then started on that file (with any symbols, base address and output, on the disk as the first run left it), and no operation on files fails, the second run does exactly this: it writes, on standard output or to its output file, the listing that the library returns for the words the library assembles from the source text. If the library panics for them, or if the program has no instructions, it panics.", "quantifier": "all source texts, symbol files, base addresses, paths (also equal ones), contents of the disk, both build modes, all runs without failing operations", "why_tests_cant": "The source text and the contents of the disk are arbitrary, and two runs of a program with several effects each are combined.", "anchors": ["src/bin/bin.rs main"]}
{"id": "C88", "title": "A run of the tool can be repeated after a crash", "statement": "After any number of runs of the tool with the same command line, each of them stopped at any moment, failed or completed, a further run in which no operation on files fails ends as it would have ended on the original disk: with the same status (or the same panic) and the same texts on standard output and standard error, and, if it is successful, with the same contents of every file. So running the tool twice is the same as running it once. The order in which the hash map of the symbols is iterated may differ from run to run, if no two addresses of the symbol file have the same name. This needs that the files that are read are not the one that is written: with the same file for both, a second run can fail after a successful one.", "quantifier": "all command lines, disks, symbol files and source texts; all finite sequences of attempts, all points at which they stop, all failures of operations with partial writes", "why_tests_cant": "The points at which a run is stopped, the partial writes and the number of attempts are arbitrary.", "anchors": ["src/bin/bin.rs main"]}
{"id": "C89", "title": "Runs of the tool at the same time do not disturb each other", "statement": "Any number of runs of the tool may be active at the same time on the same disk, with their operations interleaved in any way. If no run reads or writes the file that another one writes, then at every moment of every schedule, also when operations fail, each run is at a point it could have reached alone, with the same texts written and the same contents of its output file, and all other files are unchanged. When no operation fails, each run ends exactly as it does alone, and the final state of the disk and of all runs is the same for every schedule, in particular the one of running them one after the other in any order. Finitely many runs come to an end in every schedule and are never stuck. Without the condition the outcome can depend on the schedule.", "quantifier": "all families of runs (finite or not), command lines, disks, all interleavings of their operations, all failures of operations with partial writes", "why_tests_cant": "The number of schedules is exponential in the number of operations, and tests see few of them.", "anchors": ["src/bin/bin.rs main"]}
{"id": "C90", "title": "A run depends only on the files it reads", "statement": "How a run of the tool without failing operations ends depends on the command line and on the contents of the input file and the symbol file, and on nothing else on the disk: on any two disks on which these files have the same contents (before the run) it ends with the same status, or the same panic, and the same texts on standard output and standard error. If it is successful it gives the output file the same contents, whatever they were before, and in any case it leaves all other files alone. (The order in which the hash map of the symbols is iterated may differ, if no two addresses have the same name.)", "quantifier": "all command lines (the output file may be one of the files that are read), all pairs of disks, both build modes", "why_tests_cant": "The contents of the disk are arbitrary; a test cannot show that nothing else is looked at.", "anchors": ["src/bin/bin.rs main"]}
{"id": "C91", "title": "Many runs of the tool, one after the other", "statement": "After any sequence of runs of the tool with any command lines, successful or not, among which none reads a file that one of them writes, every run has ended with the status and texts it would have had on the original disk, and every file holds exactly what the last successful run that has it as its output file writes when started on the original disk; a file that no successful run writes, for instance the output file of runs that were refused or panicked, is unchanged. If the files to be read exist, such a sequence of runs is always possible.", "quantifier": "all finite sequences of runs (different command lines, libraries and build modes; several may have the same output file), all disks, no failing operations", "why_tests_cant": "Histories of any length over arbitrary disks and programs.", "anchors": ["src/bin/bin.rs main"]}
