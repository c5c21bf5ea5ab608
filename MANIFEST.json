{
 "claims": [
  {
   "property": "C01",
   "status": "partial",
   "theorems": [
    "Mips.C01_line",
    "Mips.C01_program",
    "Mips.C01_limits"
   ],
   "note": "break/syscall codes above 16 bits and unnamed COP0 registers are rejected by the parser (witness C01_limits); branches and jumps are the subject of C06-C08."
  },
  {
   "property": "C02",
   "status": "partial",
   "theorems": [
    "Mips.C02_text_partial",
    "Mips.C02_top_wrong",
    "Mips.C02_hole_wrong",
    "Mips.C02_false"
   ],
   "note": "Every word: the text is the one of the opcode maps, except (exactly characterised, and refuted) signed operand 32767, printed as -32767, and reserved COP0 words whose low bits look like a CP0 function. Symbol names without white space. The exact text of every word, deviations included, is C60."
  },
  {
   "property": "C03",
   "status": "partial",
   "theorems": [
    "Mips.C03_round_trip_partial",
    "Mips.C03_exact",
    "Mips.C03_same",
    "Mips.C03_branches",
    "Mips.C03_wrong"
   ],
   "note": "Proved for all lists of canonical words whose operands are readable (Returns: no branches, no signed operand 32767, 16-bit break codes, named CP0 registers, jumps below 64 MB); each excluded class is refuted in C03_wrong. The property as stated is false; C03_exact says what becomes of every list of words (up to 2^29, symbols that are plain names): the result is Listing.allBack (Spec/Reread), word by word, and no code at all where a word has none. C03_same: exactly the lists of words that are unchanged; C03_branches: a branch is unchanged only with offset 0 among the first three words and base address 0."
  },
  {
   "property": "C04",
   "status": "proved",
   "theorems": [
    "Mips.C04_total"
   ],
   "note": "Debug mode: all words, symbol tables, bases and overflow modes."
  },
  {
   "property": "C05",
   "status": "partial",
   "theorems": [
    "Mips.C05_shape",
    "Mips.C05_breaks_partial",
    "Mips.C05_listing_partial",
    "Mips.C05_panics",
    "Mips.C05_slot_wrong",
    "Mips.C05_overflow"
   ],
   "note": "Shape proved for every run that returns; exact positions of the labels when no j goes to a symbol and addresses fit 32 bits. False as stated: panic on j to a symbol, function start off by one, overflow at the top of the address space. The exact listing and exactly when there is none: C60."
  },
  {
   "property": "C06",
   "status": "partial",
   "theorems": [
    "Mips.C06_offset",
    "Mips.C06_reaches_partial",
    "Mips.C06_exact",
    "Mips.C06_local_exact",
    "Mips.C06_wrong",
    "Mips.C06_forward_rejected",
    "Mips.C09_reaches_partial"
   ],
   "note": "The exact offset is proved for every program; it reaches the label if and only if the instructions in between are one word long and the distance fits 16 bits (C06_exact for global, C06_local_exact for local labels, above and below). False across multi-word pseudo-instructions (C06_wrong); forward branches to global labels are never accepted (C06_forward_rejected). Local labels: C09."
  },
  {
   "property": "C07",
   "status": "partial",
   "theorems": [
    "Mips.C07_symbol",
    "Mips.C07_address",
    "Mips.C07_label",
    "Mips.C07_exact",
    "Mips.C07_symbol_partial",
    "Mips.C07_label_partial",
    "Mips.C07_label_exact",
    "Mips.C07_wrong"
   ],
   "note": "The exact instruction index is proved for every program. It reaches the target iff that is aligned and in the lowest 64 MB of the region (C07_exact), and, for labels, iff moreover no pseudo-instruction longer than a word precedes the label (C07_label_exact); witnesses in C07_wrong."
  },
  {
   "property": "C08",
   "status": "partial",
   "theorems": [
    "Mips.C08_offset",
    "Mips.C08_exact",
    "Mips.C08_bounds_exact",
    "Mips.C08_first_partial",
    "Mips.C08_wrong"
   ],
   "note": "False in general. Exact offset for every program, and an iff characterisation (C08_exact) of when it is right."
  },
  {
   "property": "C09",
   "status": "partial",
   "theorems": [
    "Mips.C09_resolves_partial",
    "Mips.C09_reaches_partial",
    "Mips.C09_accepted_partial",
    "Mips.C09_next_scope",
    "Mips.C09_top_level",
    "Mips.C09_single_scope",
    "Mips.C09_resolves_exact",
    "Mips.C09_reaches_exact",
    "Mips.C09_reported_exact"
   ],
   "note": "False in general: the property is proved for references undisturbed by definitions before all global labels and not at the boundary of a scope, and the three kinds of violation are witnessed. The rule the program actually follows is proved for every program: which definition is chosen (C09_resolves_exact), and exactly when a reference is undefined or out of scope (C09_reported_exact)."
  },
  {
   "property": "C10",
   "status": "proved",
   "theorems": [
    "Mips.C10_no_label_survives",
    "Mips.C10_encoder_total",
    "Mips.C10_jump",
    "Mips.C10_branch"
   ],
   "note": "C10_jump: exactly when a jump is reported as one to an undefined label."
  },
  {
   "property": "C11",
   "status": "proved",
   "theorems": [
    "Mips.C11_duplicate_reported",
    "Mips.C11_malformed_reported",
    "Mips.C11_accepted"
   ],
   "note": ""
  },
  {
   "property": "C12",
   "status": "partial",
   "theorems": [
    "Mips.C12_li_exact",
    "Mips.C12_li_partial",
    "Mips.C12_li_wrong"
   ],
   "note": "Proved for constants below 0xFFFF8000; false above (witness), negative constants rejected; C12_li_exact gives the value really loaded for every n."
  },
  {
   "property": "C13",
   "status": "proved",
   "theorems": [
    "Mips.C13_liu",
    "Mips.C13_dli",
    "Mips.C13_lli"
   ],
   "note": ""
  },
  {
   "property": "C14",
   "status": "partial",
   "theorems": [
    "Mips.C14_unary_partial",
    "Mips.C14_clear",
    "Mips.C14_sub_exact",
    "Mips.C14_sub_partial",
    "Mips.C14_dabs_partial",
    "Mips.C14_dabs_exact",
    "Mips.C14_dabs_wrong",
    "Mips.C14_sub_wrong",
    "Mips.C14_move_undefined",
    "Mips.C14_abs_at",
    "Mips.C14_abs_exact",
    "Mips.C14_dabs_at_exact"
   ],
   "note": "False for dabs of values outside 32 bits, for subtracting -32768, for move of a non-word and for abs with an $at operand (witnesses); proved otherwise. What is computed is settled for all operands and registers: C14_sub_exact, C14_dabs_exact, and C14_abs_exact and C14_dabs_at_exact with $at or $zero as operand."
  },
  {
   "property": "C15",
   "status": "proved",
   "theorems": [
    "Mips.C15_set"
   ],
   "note": ""
  },
  {
   "property": "C16",
   "status": "partial",
   "theorems": [
    "Mips.C16_mul",
    "Mips.C16_mulo_partial",
    "Mips.C16_zero_wrong",
    "Mips.C16_at_wrong",
    "Mips.C16_at_unsigned_wrong",
    "Mips.C16_at_exact",
    "Mips.C16_zero_exact"
   ],
   "note": "mulo/dmulo with rd = $zero violate the property (C16_zero_wrong); everything else is proved for all registers but rd = $at, where it fails too (C16_at_wrong). What they do instead with these registers: C16_zero_exact, C16_at_exact."
  },
  {
   "property": "C17",
   "status": "partial",
   "theorems": [
    "Mips.C17_unsigned_partial",
    "Mips.C17_signed_partial",
    "Mips.C17_signed_skips",
    "Mips.C17_div_wrong",
    "Mips.C17_at_wrong",
    "Mips.C17_divu_zero_wrong",
    "Mips.C17_at_divisor",
    "Mips.C17_at_dividend",
    "Mips.C17_zero_exact"
   ],
   "note": "Unsigned: proved except `divu rd, rs, $zero` (C17_divu_zero_wrong). Signed: the code violates the property for every divisor other than 0 and -1, proved in general (C17_signed_skips); correct for 0 and -1 (C17_signed_partial). With $at as divisor the signed ones are right but for the least dividend (C17_at_divisor), with $at as dividend always wrong (C17_at_dividend); with $zero as divisor div, divu, ddiv, ddivu are the two-operand instructions (C17_zero_exact). This covers all registers and values."
  },
  {
   "property": "C18",
   "status": "proved",
   "theorems": [
    "Mips.C18_rotate",
    "Mips.C18_at_wrong",
    "Mips.C18_exact"
   ],
   "note": "Operands other than $at, which the expansion overwrites (C18_at_wrong); C18_exact: what is computed for all registers."
  },
  {
   "property": "C19",
   "status": "partial",
   "theorems": [
    "Mips.C19_branches_partial",
    "Mips.C19_exact",
    "Mips.C19_label_partial",
    "Mips.C19_local_exact",
    "Mips.C19_below_wrong",
    "Mips.C19_forward_wrong",
    "Mips.C19_next_wrong"
   ],
   "note": "The condition, the delay slot and the target are proved for every offset but 0 and -32768; C19_exact gives what happens there (forward jump; 0xFFFFFFFF in place of the branch). Labels above the branch are reached. Local labels: C19_local_exact gives the target. Labels below are always missed by one word (C19_below_wrong in general, C19_forward_wrong an instance); offset 0 panics or emits 0xFFFFFFFF (C19_next_wrong)."
  },
  {
   "property": "C20",
   "status": "partial",
   "theorems": [
    "Mips.C20_recombine",
    "Mips.C20_hi",
    "Mips.C20_lo",
    "Mips.C20_accepted_partial",
    "Mips.C20_overflow",
    "Mips.C20_wrong",
    "Mips.C20_unknown_symbol",
    "Mips.C20_label_wrong"
   ],
   "note": "For every accepted lui/%hi, addiu-or-load/%lo pair the halves recombine to the address, for all names and addresses (C20_recombine). Acceptance: in a build with overflow checks %hi panics from 0xFFFF8000 up (C20_overflow), accepted otherwise; ldc1-family %lo and unknown symbols panic (witnesses)."
  },
  {
   "property": "C21",
   "status": "partial",
   "theorems": [
    "Mips.C21_case_partial",
    "Mips.C21_exact",
    "Mips.C21_both",
    "Mips.C21_logical_wrong"
   ],
   "note": "False only of andi, ori and xori, which in another case than lower case take signed numbers (C21_logical_wrong). C21_exact: exactly when another spelling is accepted with the same code, for all programs and operands (CasedFile and numbers: Spec/CaseX); C21_both: the code never differs. C21_case_partial: errors and warnings included, for constants in 0..32767."
  },
  {
   "property": "C22",
   "status": "partial",
   "theorems": [
    "Mips.C22_layout",
    "Mips.C22_comments_partial",
    "Mips.C22_label_wrong",
    "Mips.C22_tab_wrong",
    "Mips.C22_break_wrong"
   ],
   "note": "Proved for all programs: indentation, blank and comment lines, and comments glued to any statement (C22_layout); comments behind blanks for instructions (C22_comments_partial). Refuted for labels, for a tab behind a bare mnemonic and for two spaces behind break/syscall."
  },
  {
   "property": "C23",
   "status": "partial",
   "theorems": [
    "Mips.C23_equivalent",
    "Mips.C23_only_registers",
    "Mips.C23_rejected_partial",
    "Mips.C23_wrong"
   ],
   "note": "All programs: any two spellings of the same register in any operand give the same result (C23_equivalent); in an accepted program every register operand is one of an exactly described set of texts (C23_only_registers), which is larger than the documented one (C23_wrong). Other texts are reported as InvalidRegister when the earlier operands are regular; address operands and r-digit texts panic instead (C23_wrong)."
  },
  {
   "property": "C24",
   "status": "partial",
   "theorems": [
    "Mips.C24_checked_partial",
    "Mips.C24_no_truncation",
    "Mips.C24_encoded",
    "Mips.C24_only_numbers",
    "Mips.C24_wrong"
   ],
   "note": "All programs: a numeric last operand is complained about iff it is out of range (C24_checked_partial), so no assembled number is out of range (C24_no_truncation), and the field of the word holds exactly the number (C24_encoded, native instructions). Any operand text that assembles is a number in range, a label or a half of an address (C24_only_numbers). Excluded, and refuted in C24_wrong: labels spelled like numbers, -0, 0x inside a number, andi/ori/xori in capitals."
  },
  {
   "property": "C25",
   "status": "partial",
   "theorems": [
    "Mips.C25_exact",
    "Mips.C25_in_range_partial",
    "Mips.C25_fields_exact",
    "Mips.C25_panics",
    "Mips.C25_wrong"
   ],
   "note": "False as stated: every 32-bit number is accepted. The exact word is proved for all numbers (C25_exact), it is right for 0..31 (C25_in_range_partial), and which other fields change is characterised (C25_fields_exact)."
  },
  {
   "property": "C26",
   "status": "proved",
   "theorems": [
    "Mips.C26_local_label_order",
    "Mips.C26_symbol_order",
    "Mips.C26_disassemble_order",
    "Mips.C26_duplicate_names"
   ],
   "note": "C26_duplicate_names witnesses that the distinct-names hypothesis is needed."
  },
  {
   "property": "C27",
   "status": "partial",
   "theorems": [
    "Mips.C27_report",
    "Mips.C27_success",
    "Mips.C27_prefix",
    "Mips.C27_references",
    "Mips.C27_out_of_bounds_line"
   ],
   "note": "The BranchOutOfBounds error carries the last line, not the offending one (witness C27_out_of_bounds_line); everything else holds."
  },
  {
   "property": "C28",
   "status": "partial",
   "theorems": [
    "Mips.C28_exact",
    "Mips.C28_shows",
    "Mips.C28_displayed_partial",
    "Mips.C28_duplicate_partial",
    "Mips.C28_bounds_exact",
    "Mips.C28_wrong"
   ],
   "note": "False as stated (C28_wrong). Exactly: an error is displayed iff each text it underlines occurs in the line it quotes (C28_exact), and then the line and its number are shown (C28_shows). All errors of plainly written lines are displayed (C28_displayed_partial); duplicates and out-of-bounds branches are characterised separately."
  },
  {
   "property": "C29",
   "status": "proved",
   "theorems": [
    "Mips.C29_warnings_display"
   ],
   "note": ""
  },
  {
   "property": "C30",
   "status": "partial",
   "theorems": [
    "Mips.C30_returns_partial",
    "Mips.C30_wrong",
    "Mips.C56_verdict"
   ],
   "note": "False as stated: C30_wrong lists 15 texts that make assemble panic. Proved: no panic on every file whose lines are blank, labels, unknown mnemonics, operand-less mnemonics, wrong operand counts, or instructions with readable (right or wrong) operands; the exact characterisation of the panicking texts is C56_verdict."
  },
  {
   "property": "C31",
   "status": "partial",
   "theorems": [
    "Mips.C31_count_partial",
    "Mips.C31_count_alone",
    "Mips.C31_accepted",
    "Mips.C31_none_exact",
    "Mips.C31_wrong"
   ],
   "note": "All mnemonics that take operands, any operand text. The operandless mnemonics ignore operands (proved exactly), and a missing only operand is reported differently or panics (C31_wrong)."
  },
  {
   "property": "C32",
   "status": "partial",
   "theorems": [
    "Mips.C32_unknown_partial",
    "Mips.C32_unknown_alone",
    "Mips.C32_accepted",
    "Mips.C32_wrong"
   ],
   "note": "InvalidOpcode for all visible ASCII words of two characters or more that do not resemble floating-point mnemonics; no code for any unknown word but the look-alikes of c.cond.fmt (C32_accepted), which are accepted (C32_wrong)."
  },
  {
   "property": "C33",
   "status": "proved",
   "theorems": [
    "Mips.C33_jumps",
    "Mips.C33_jumps_plain",
    "Mips.C33_others",
    "Mips.C33_spaces_wrong"
   ],
   "note": "All words and symbol tables. In debug mode a run of white space inside a name is printed as one space (C33_spaces_wrong); exactly the name otherwise."
  },
  {
   "property": "C34",
   "status": "partial",
   "theorems": [
    "Mips.C34_exact",
    "Mips.C34_lines",
    "Mips.C34_warning_partial",
    "Mips.C34_wrong"
   ],
   "note": "Exact rule for every accepted program (C34_exact); it coincides with the property unless the first instruction is b, bal, beqzl, bnezl or a compare-and-branch pseudo-instruction (C34_wrong)."
  },
  {
   "property": "C35",
   "status": "proved",
   "theorems": [
    "Mips.C35_branch",
    "Mips.C35_branch_label",
    "Mips.C35_jump",
    "Mips.C35_symbol",
    "Mips.C35_jump_label",
    "Mips.C35_others"
   ],
   "note": "Exact list of alignment warnings per line, for all accepted programs. That the code is what it is whatever the alignment: C07_address, C08_offset."
  },
  {
   "property": "C36",
   "status": "proved",
   "theorems": [
    "Mips.C36_lines",
    "Mips.C36_append",
    "Mips.C36_branch_position"
   ],
   "note": ""
  },
  {
   "property": "C37",
   "status": "proved",
   "theorems": [
    "Mips.C37_last_write_wins",
    "Mips.C37_fresh",
    "Mips.C37_assemble_ignores_debug",
    "Mips.C37_history_irrelevant"
   ],
   "note": ""
  },
  {
   "property": "C38",
   "status": "proved",
   "theorems": [
    "Mips.C38_written_bytes",
    "Mips.C38_read",
    "Mips.C38_readable",
    "Mips.C38_round_trip",
    "Mips.C38_no_listing"
   ],
   "note": ""
  },
  {
   "property": "C39",
   "status": "partial",
   "theorems": [
    "Mips.C39_accepts_hex",
    "Mips.C39_accepted_only",
    "Mips.C39_not_exact",
    "Mips.C39_exact_partial"
   ],
   "note": "'exactly' is false of the code (0x deleted anywhere, + accepted): witness C39_not_exact; exact characterisation C39_accepted_only."
  },
  {
   "property": "C40",
   "status": "proved",
   "theorems": [
    "Mips.C40_words",
    "Mips.C40_accepted",
    "Mips.C40_numeric"
   ],
   "note": ""
  },
  {
   "property": "C41",
   "status": "proved",
   "theorems": [
    "Mips.C41_assemble",
    "Mips.C41_disassemble",
    "Mips.C41_panics"
   ],
   "note": "C41_panics: a program on which the checked build panics and the unchecked one returns, so the hypothesis is needed."
  },
  {
   "property": "C42",
   "status": "proved",
   "theorems": [
    "Mips.C42_assemble",
    "Mips.C42_asked",
    "Mips.C42_disassemble",
    "Mips.C42_needed"
   ],
   "note": "C42_asked: with exactly the names that are looked up (Spec/Asked). assemble: tables with distinct names (without them the result depends on iteration order, C26_duplicate_names)."
  },
  {
   "property": "C43",
   "status": "proved",
   "theorems": [
    "Mips.C43_success",
    "Mips.C43_failure",
    "Mips.C43_base",
    "Mips.C43_status",
    "Mips.C43_undisplayable"
   ],
   "note": "If displaying an error panics (C28) the tool panics; C43_failure is about errors that can be displayed."
  },
  {
   "property": "C44",
   "status": "proved",
   "theorems": [
    "Mips.C44_printed",
    "Mips.C44_recover"
   ],
   "note": ""
  },
  {
   "property": "C45",
   "status": "proved",
   "theorems": [
    "Mips.C45_distinct",
    "Mips.C45_lookup",
    "Mips.C45_none",
    "Mips.C45_unchecked"
   ],
   "note": "Starts from the parsed YAML mapping."
  },
  {
   "property": "C46",
   "status": "partial",
   "theorems": [
    "Mips.C46_stdout",
    "Mips.C46_printed",
    "Mips.C46_names_wrong",
    "Mips.C46_file_exact",
    "Mips.C46_file_wrong"
   ],
   "note": "True of standard output unless the name of a symbol contains a line end (C46_printed, C46_names_wrong); false of -o, which writes the lines without separators (exact content C46_file_exact, witness C46_file_wrong)."
  },
  {
   "property": "C47",
   "status": "partial",
   "theorems": [
    "Mips.C47_same",
    "Mips.C47_panics",
    "Mips.C47_zero",
    "Mips.C47_jump",
    "Mips.C47_div",
    "Mips.C47_wrong"
   ],
   "note": "Exact: displaying panics exactly for nop and the pseudo-instructions (C47_panics); the text is the listing for all other mnemonics (C47_same, shift amounts below 32) except beqz/bnez (C47_zero), j/jal outside the low 64 MB of the region of the base (C47_jump) and the two-operand divisions, whose registers are displayed wrongly (C47_div, C47_wrong)."
  },
  {
   "property": "C48",
   "status": "partial",
   "theorems": [
    "Mips.C48_delay_exact",
    "Mips.C48_branch_exact",
    "Mips.C48_unconditional",
    "Mips.C48_target",
    "Mips.C48_offset_exact",
    "Mips.C48_wrong"
   ],
   "note": "is_unconditional_jump and get_jump_target are right; has_delay_slot and is_branch miss the listed pseudo-branches, and the offset of a backward branch is reported unsigned: exact characterisations, witness C48_wrong."
  },
  {
   "property": "C49",
   "status": "proved",
   "theorems": [
    "Mips.C49_fixed",
    "Mips.C49_varying",
    "Mips.C49_const",
    "Mips.C49_division",
    "Mips.C49_total",
    "Mips.C49_reaches"
   ],
   "note": ""
  },
  {
   "property": "C50",
   "status": "partial",
   "theorems": [
    "Mips.C50_listing_exact",
    "Mips.C50_listing_partial",
    "Mips.C50_unambiguous",
    "Mips.C50_wrong"
   ],
   "note": "False only of the signed operand 32767, which is listed as -32767 (C50_wrong); C50_listing_exact gives the listing for all operands. Words are unambiguous without exception (C50_unambiguous)."
  },
  {
   "property": "C51",
   "status": "partial",
   "theorems": [
    "Mips.C51_execution_partial",
    "Mips.C51_converse_partial",
    "Mips.C06_wrong",
    "Mips.C07_wrong",
    "Mips.C12_li_wrong",
    "Mips.C17_div_wrong",
    "Mips.C19_forward_wrong"
   ],
   "note": "Simulation in both directions for all programs whose lines have a meaning (Program): native instructions, %hi and %lo operands, all pseudo-instructions where their expansion is right, branches (linking and coprocessor ones included) to labels over one-word lines, j/jal to labels, symbols and addresses, jr, jalr and eret; a native instruction in every delay slot; code in the lowest 64 MB of a region (C07). Where the assembler is wrong (C06, C07, C08, C12, C14, C16, C17, C19) the meaning is left undefined."
  },
  {
   "property": "C52",
   "status": "partial",
   "theorems": [
    "Mips.C52_exact",
    "Mips.C52_names_partial",
    "Mips.C52_wrong"
   ],
   "note": "The line quoted is always the source line directly above (C52_exact); it is the branch if that line is an instruction (C52_names_partial), and is wrong when a blank line, comment or label stands in between (C52_wrong)."
  },
  {
   "property": "C53",
   "status": "partial",
   "theorems": [
    "Mips.C53_error",
    "Mips.C53_warning_partial",
    "Mips.C53_wrong"
   ],
   "note": "All errors and warnings that quote ASCII lines, except delay-slot warnings across a power of ten (lines 9 and 10), whose markers are one column off; text that is not ASCII is marked by its length in bytes (C53_wrong)."
  },
  {
   "property": "C54",
   "status": "partial",
   "theorems": [
    "Mips.C54_prefix_partial",
    "Mips.C54_text_partial",
    "Mips.C54_function",
    "Mips.C54_line",
    "Mips.C54_words",
    "Mips.C54_redefined",
    "Mips.C54_wrong"
   ],
   "note": "False only when the added lines, ahead of their first global label, define a local label again that the last scope of the program defines (Redefined, Spec/AppendX): an earlier branch to it then silently changes its target (C54_wrong), namely to the last of the added definitions (C54_redefined). C54_line, C54_words: every instruction that does not refer to such a label keeps its words; C54_prefix_partial: instructions and warnings for all continuations without such a label, in particular whenever they begin with a global label (C54_function)."
  },
  {
   "property": "C55",
   "status": "proved",
   "theorems": [
    "Mips.C55_equivalent",
    "Mips.C55_limit"
   ],
   "note": "For all programs, contexts and both build modes; C55_limit shows that the condition on labels cannot be dropped."
  },
  {
   "property": "C56",
   "status": "proved",
   "theorems": [
    "Mips.C56_verdict",
    "Mips.C56_lines",
    "Mips.C56_release"
   ],
   "note": "The rules are Spec/Language: line level (plan, Reads, Crashes, LineTaken, LineCrashes) and file level (Overflows, BadPlace, NoCode); Panics, Refused and Accepted are proved to be exactly the three verdicts, for all texts; of the tables of Unicode only the facts stated as the laws of the class Unicode are used."
  },
  {
   "property": "C57",
   "status": "proved",
   "theorems": [
    "Mips.C57_line",
    "Mips.C57_program"
   ],
   "note": "The rules are Spec/Code over Spec/Language and Spec/Isa: values of operands (Const, Yields, Values), expansions (expand), encodings (machine), lines and files (LineWords, Generates). For all texts, the words returned are exactly those generated (C57_program), line by line (C57_line). The deviations that C06, C07, C08, C12, C16, C17, C19 and C25 report as wrong are part of these rules."
  },
  {
   "property": "C58",
   "status": "proved",
   "theorems": [
    "Mips.C58_report"
   ],
   "note": "The rules are Spec/Errors over Spec/Language: what is quoted (GprQuote, SysQuote, addressQuote), the complaint about a step, a line (LineError) and a place (PlaceError), and their order (InOrder, Reports). The report of the assembler is exactly the one of the rules for all texts on which it does not panic (C56). What the rules contain of quirks: a label that is defined again is said to be first defined on the line numbered by the instructions above it, a branch out of bounds is reported on the last line."
  },
  {
   "property": "C59",
   "status": "proved",
   "theorems": [
    "Mips.C59_warnings"
   ],
   "note": "The rules are Spec/Warnings over Spec/Language (LastInstr, InSlot, Unaligned, LineWarnings, Warns). For all texts, the warnings returned with code or errors are exactly those, in this order; the deviations that C34, C35 and C52 report (the forgotten pseudo-branches, the quoted line above) are part of the rules."
  },
  {
   "property": "C60",
   "status": "proved",
   "theorems": [
    "Mips.C60_listing",
    "Mips.C60_debug"
   ],
   "note": "The rules are Spec/Columns over Spec/Listing and Spec/Layout. The text of every word, the labels and exactly when the call panics, without assumptions on symbols or addresses."
  },
  {
   "property": "C61",
   "status": "proved",
   "theorems": [
    "Mips.C61_safe",
    "Mips.C61_complete",
    "Mips.C61_untouched",
    "Mips.C61_ends",
    "Mips.C61_unique",
    "Mips.C61_wrong"
   ],
   "note": "Model/Io: the order of the effects of main, with every operation failing at any time, a write also after any part of its bytes. C61_wrong shows that the old output file is not kept when a run fails. Assumed: the output path names one file, no other process changes the files."
  },
  {
   "property": "C62",
   "status": "proved",
   "theorems": [
    "Mips.C62_run",
    "Mips.C62_one",
    "Mips.C62_symbol_order"
   ],
   "note": "Specification Spec/Io over the languages of C56-C60 and the messages of C63. The hash map of the symbols is iterated in an arbitrary fixed order, which does not matter if names are distinct (C62_symbol_order). Standard error is not described for a panic."
  },
  {
   "property": "C63",
   "status": "proved",
   "theorems": [
    "Mips.C63_error",
    "Mips.C63_warning",
    "Mips.C63_message"
   ],
   "note": "Spec/Message. Not modelled: the panic of recent Rust versions for format widths above 65535."
  },
  {
   "property": "C64",
   "status": "proved",
   "theorems": [
    "Mips.C64_renaming",
    "Mips.C64_errors",
    "Mips.C64_warnings",
    "Mips.C64_back"
   ],
   "note": "Spec/Rename, Spec/RenameMsg. Names must not be symbols, contain parentheses or 0x, or start with a digit, a sign or a character outside of ASCII; labels that are no such names stay as they are."
  },
  {
   "property": "C65",
   "status": "proved",
   "theorems": [
    "Mips.C65_added",
    "Mips.C65_exact",
    "Mips.C65_split_wrong",
    "Mips.C65_refused_wrong"
   ],
   "note": "Spec/Fresh. C65_split_wrong and C65_refused_wrong show that the conditions on local labels cannot be dropped."
  },
  {
   "property": "C66",
   "status": "partial",
   "theorems": [
    "Mips.C66_listing_partial",
    "Mips.C66_exact",
    "Mips.C66_same",
    "Mips.C66_tool_partial",
    "Mips.C66_tool",
    "Mips.C66_wrong",
    "Mips.C66_file_wrong"
   ],
   "note": "Proved for all lists of less than 2^30 words in Returns (canonical words with operands that are read back as printed, as for C03: no branches, whose offset is printed but read as an address) that are not floating-point comparisons (printed with a tab), and symbols that can be labels (LabelSyms). C66_wrong: it is false for branches, comparisons, symbols that are no label names, and j to a symbol; C66_file_wrong: the file written by disasm -o has no line ends and cannot be assembled. C66_exact says what becomes of the listing of every list of words (up to 2^29): Listing.allListed (Spec/Reread), word by word, and no code at all where a word has none; C66_same: exactly the lists that are unchanged. C66_tool: the same in full for the two runs of the tool, with exactly the words allListed says."
  },
  {
   "property": "C67",
   "status": "proved",
   "theorems": [
    "Mips.C67_separate",
    "Mips.C67_modules",
    "Mips.C67_words_wrong",
    "Mips.C67_number_wrong",
    "Mips.C67_local_wrong",
    "Mips.C67_cut",
    "Mips.C67_both",
    "Mips.C67_cut_wrong"
   ],
   "note": "Apart (Spec/Link) is the condition in words; Modules an everyday case of it. The place of the second program is counted in instructions, as the assembler does, and not in words: C67_words_wrong shows that behind a pseudo-instruction of several words the code for the true address is not that of the whole. C67_number_wrong, C67_local_wrong: the conditions on numbers and local labels are needed. C67_cut and C67_both are the converse (Cut, Spec/Cut: the two parts also have what they need); C67_cut_wrong shows that its conditions are needed."
  },
  {
   "property": "C68",
   "status": "proved",
   "theorems": [
    "Mips.C68_line",
    "Mips.C68_mix",
    "Mips.C68_errors",
    "Mips.C68_warnings",
    "Mips.C68_patch"
   ],
   "note": "SameOutline and Mixed are in Spec/Edit. C68_patch holds because distances and jump targets are counted in instructions, not in words (which is why branches over a pseudo-instruction of several words go wrong, see C06)."
  },
  {
   "property": "C69",
   "status": "proved",
   "theorems": [
    "Mips.C69_line",
    "Mips.C69_free",
    "Mips.C69_errors",
    "Mips.C69_taken",
    "Mips.C69_warnings",
    "Mips.C69_slot"
   ],
   "note": "What an instruction sees (SameView, Free, SameRefs) is defined in Spec/Context. Errors about references between lines (undefined labels, branches out of bounds) are not meant by the complaint about a line. The last example shows that the words of a branch to a number do depend on its place."
  },
  {
   "property": "C70",
   "status": "proved",
   "theorems": [
    "Mips.C70_add",
    "Mips.C70_drop",
    "Mips.C70_link",
    "Mips.C70_other_wrong",
    "Mips.C70_half_wrong"
   ],
   "note": "Extends and JumpsOnly are in Spec/Export, Apart in Spec/Link. The address of a label is counted in instructions, not words (C06, C67). C70_other_wrong and C70_half_wrong show that the conditions are needed: a symbol with another address wins over the label, and %hi of a label that is no symbol panics."
  },
  {
   "property": "C71",
   "status": "proved",
   "theorems": [
    "Mips.C71_front",
    "Mips.C71_patch",
    "Mips.C71_debug"
   ],
   "note": "Leaving w: the word is j or jr (Props/PatchP). With j or jr labels and blank lines move, as shown by an example."
  },
  {
   "property": "C72",
   "status": "proved",
   "theorems": [
    "Mips.C72_parts",
    "Mips.C72_order",
    "Mips.C72_first_wrong"
   ],
   "note": "IsPart, Strange and NoLabelJumps are in Spec/Parts. C72_first_wrong: the condition on the first instruction is needed, a local label in front captures it."
  },
  {
   "property": "C73",
   "status": "proved",
   "theorems": [
    "Mips.C73_lines",
    "Mips.C73_endings",
    "Mips.C73_tool"
   ],
   "note": "Written is in Spec/Endings: the ways to write a list of lines as a text."
  },
  {
   "property": "C74",
   "status": "proved",
   "theorems": [
    "Mips.C74_recover",
    "Mips.C74_warnings",
    "Mips.C74_accepted",
    "Mips.C74_panics"
   ],
   "note": "Blanked, requote and remaining are in Spec/Recover. C74_panics: the exception is real."
  },
  {
   "property": "C75",
   "status": "proved",
   "theorems": [
    "Mips.C75_words",
    "Mips.C75_table"
   ],
   "note": "Site (which words), moved and relocate are in Spec/Reloc. When a program is accepted for the other address: C40_accepted."
  },
  {
   "property": "C76",
   "status": "proved",
   "theorems": [
    "Mips.C76_insert",
    "Mips.C76_words",
    "Mips.C76_lines"
   ],
   "note": "Inserted, down and result are in Spec/Insert: the complete result of the edited file as a function of that of the file; repeated insertion follows by repeated use."
  },
  {
   "property": "C77",
   "status": "partial",
   "theorems": [
    "Mips.C77_exact",
    "Mips.C77_code_partial",
    "Mips.C77_wrong"
   ],
   "note": "seen and ClearSyms are in Spec/Seen. C77_exact: the exact rule for all words. False for the signed operand 32767 (listed as -32767), for words with bits set in unused fields and for reserved words that look like a coprocessor 0 instruction (C77_wrong)."
  },
  {
   "property": "C78",
   "status": "proved",
   "theorems": [
    "Mips.C78_debug",
    "Mips.C78_listing"
   ],
   "note": "IsJump and unnamed are in Spec/Place."
  },
  {
   "property": "C79",
   "status": "proved",
   "theorems": [
    "Mips.C79_rename",
    "Mips.C79_clash"
   ],
   "note": "The two programs are related by Equal.SameFile (Spec/Equal) for both sets of symbols; the names looked up are Asked.AskedIn (Spec/Asked). C79_clash: a new name that the program looked up already, a label, does change the result."
  },
  {
   "property": "C80",
   "status": "proved",
   "theorems": [
    "Mips.C80_blanks",
    "Mips.C80_wrong"
   ],
   "note": "SameText, Respaced (Spec/Blanks). All outcomes, also errors and panics, are compared; the texts quoted in diagnostics naturally differ. C80_wrong: the exceptions named in the property are real - lw $a0,($a1) assembles, lw $a0, ($a1) is refused."
  },
  {
   "property": "C81",
   "status": "proved",
   "theorems": [
    "Mips.C81_reading",
    "Mips.C81_same",
    "Mips.C81_label_comment"
   ],
   "note": "Spec/Anatomy defines statements and words character by character, with no helper of the model; C81_reading: exactly one reading exists; C81_same: it determines the outcome. Blanks between a statement and a comment belong to the statement (C81_label_comment), which is why C22 is only partial."
  },
  {
   "property": "C82",
   "status": "proved",
   "theorems": [
    "Mips.C82_straight",
    "Mips.C82_line",
    "Mips.C82_wrong"
   ],
   "note": "Shows and WrittenOut are in Spec/Shorthand, Returns (the words the notation can express) in Spec/Back. C82_wrong: writing out li of 32 bits in a program with a label does change the branch over it."
  },
  {
   "property": "C83",
   "status": "proved",
   "theorems": [
    "Mips.C83_label",
    "Mips.C83_symbol",
    "Mips.C83_exact",
    "Mips.C83_wrong"
   ],
   "note": "addressOf is in Spec/Export, Low (lowest 64 MB of the region) and JumpAt in Spec/Jump. C83_wrong: outside of the lowest 64 MB the listing shows another address."
  },
  {
   "property": "C84",
   "status": "proved",
   "theorems": [
    "Mips.C84_trim",
    "Mips.C84_split",
    "Mips.C84_splitOnce",
    "Mips.C84_parts",
    "Mips.C84_len",
    "Mips.C84_take",
    "Mips.C84_find",
    "Mips.C84_remove",
    "Mips.C84_lower",
    "Mips.C84_chars",
    "Mips.C84_show",
    "Mips.C84_parse"
   ],
   "note": "Specifications in Spec/TextFns, Spec/Anatomy (White), Spec/Syntax (Digits). Lines of a text: C73_lines. The tables of Unicode (to_lowercase, is_numeric) stay a parameter of the model with laws."
  },
  {
   "property": "C85",
   "status": "proved",
   "theorems": [
    "Mips.C85_debug",
    "Mips.C85_listing",
    "Mips.C85_branches"
   ],
   "note": "Branches are excluded in the statement: C85_branches shows that they go on changing. BranchWord is in Spec/Twice."
  },
  {
   "property": "C86",
   "status": "proved",
   "theorems": [
    "Mips.C86_push",
    "Mips.C86_assembled"
   ],
   "note": "That push_bytes leaves the vector it is given empty is not modelled."
  },
  {
   "property": "C87",
   "status": "proved",
   "theorems": [
    "Mips.C87_pipe",
    "Mips.C87_empty"
   ],
   "note": "The end of the second run is listingEnd (Spec/Pipe), in terms of the library; what the library returns is C57 and C60."
  },
  {
   "property": "C88",
   "status": "proved",
   "theorems": [
    "Mips.C88_again",
    "Mips.C88_twice",
    "Mips.C88_same_file"
   ],
   "note": "C88_again: all sequences of attempts; C88_twice: a successful run repeated; C88_same_file: the hypothesis Apart is needed."
  },
  {
   "property": "C89",
   "status": "proved",
   "theorems": [
    "Mips.C89_alone",
    "Mips.C89_ends",
    "Mips.C89_schedule",
    "Mips.C89_finite",
    "Mips.C89_finishes",
    "Mips.C89_sequence",
    "Mips.C89_dependent"
   ],
   "note": "Schedules are ParReach (Spec/Parallel), over the operations of Model/Io. C89_dependent: the condition Independent is needed."
  },
  {
   "property": "C90",
   "status": "proved",
   "theorems": [
    "Mips.C90_frame"
   ],
   "note": "onDisk and SameLib: Spec/Rerun; how it ends is C62."
  },
  {
   "property": "C91",
   "status": "proved",
   "theorems": [
    "Mips.C91_session",
    "Mips.C91_possible"
   ],
   "note": "Session, NoneReads and Writes: Spec/Session. That an undisturbed run which is not successful leaves the disk alone is careful_reach."
  }
 ]
}