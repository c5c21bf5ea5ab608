C['C37']=("proved",["C37_last_write_wins","C37_fresh","C37_assemble_ignores_debug","C37_history_irrelevant"],"")
C['C38']=("proved",["C38_written_bytes","C38_read","C38_readable","C38_round_trip","C38_no_listing"],"")
C['C39']=("partial",["C39_accepts_hex","C39_accepted_only","C39_not_exact","C39_exact_partial"],"'exactly' is false of the code (0x deleted anywhere, + accepted): witness C39_not_exact; exact characterisation C39_accepted_only.")
C['C26']=("proved",["C26_local_label_order","C26_symbol_order","C26_disassemble_order","C26_duplicate_names"],"C26_duplicate_names witnesses that the distinct-names hypothesis is needed.")
C['C10']=('proved',['C10_no_label_survives','C10_encoder_total','C10_jump','C10_branch'],'C10_jump: exactly when a jump is reported as one to an undefined label.')
C['C11']=("proved",["C11_duplicate_reported","C11_malformed_reported","C11_accepted"],"")
C['C27']=("partial",["C27_report","C27_success","C27_prefix","C27_references","C27_out_of_bounds_line"],"The BranchOutOfBounds error carries the last line, not the offending one (witness C27_out_of_bounds_line); everything else holds.")
C['C29']=("proved",["C29_warnings_display"],"")
C['C30']=('partial',['C30_returns_partial','C30_wrong','C56_verdict'],'False as stated: C30_wrong lists 15 texts that make assemble panic. Proved: no panic on every file whose lines are blank, labels, unknown mnemonics, operand-less mnemonics, wrong operand counts, or instructions with readable (right or wrong) operands; the exact characterisation of the panicking texts is C56_verdict.')
C['C01']=("partial",["C01_line","C01_program","C01_limits"],"break/syscall codes above 16 bits and unnamed COP0 registers are rejected by the parser (witness C01_limits); branches and jumps are the subject of C06-C08.")
C['C15']=("proved",["C15_set"],"")
C['C12']=("partial",["C12_li_exact","C12_li_partial","C12_li_wrong"],"Proved for constants below 0xFFFF8000; false above (witness), negative constants rejected; C12_li_exact gives the value really loaded for every n.")
C['C13']=("proved",["C13_liu","C13_dli","C13_lli"],"")
C['C14']=("partial",["C14_unary_partial","C14_clear","C14_sub_exact","C14_sub_partial","C14_dabs_partial","C14_dabs_exact","C14_dabs_wrong","C14_sub_wrong","C14_move_undefined","C14_abs_at","C14_abs_exact","C14_dabs_at_exact"],"False for dabs of values outside 32 bits, for subtracting -32768, for move of a non-word and for abs with an $at operand (witnesses); proved otherwise. What is computed is settled for all operands and registers: C14_sub_exact, C14_dabs_exact, and C14_abs_exact and C14_dabs_at_exact with $at or $zero as operand.")
C['C16']=("partial",["C16_mul","C16_mulo_partial","C16_zero_wrong","C16_at_wrong","C16_at_unsigned_wrong","C16_at_exact","C16_zero_exact"],"mulo/dmulo with rd = $zero violate the property (C16_zero_wrong); everything else is proved for all registers but rd = $at, where it fails too (C16_at_wrong). What they do instead with these registers: C16_zero_exact, C16_at_exact.")
C['C17']=("partial",["C17_unsigned_partial","C17_signed_partial","C17_signed_skips","C17_div_wrong","C17_at_wrong","C17_divu_zero_wrong","C17_at_divisor","C17_at_dividend","C17_zero_exact"],"Unsigned: proved except `divu rd, rs, $zero` (C17_divu_zero_wrong). Signed: the code violates the property for every divisor other than 0 and -1, proved in general (C17_signed_skips); correct for 0 and -1 (C17_signed_partial). With $at as divisor the signed ones are right but for the least dividend (C17_at_divisor), with $at as dividend always wrong (C17_at_dividend); with $zero as divisor div, divu, ddiv, ddivu are the two-operand instructions (C17_zero_exact). This covers all registers and values.")
C['C18']=("proved",["C18_rotate","C18_at_wrong","C18_exact"],"Operands other than $at, which the expansion overwrites (C18_at_wrong); C18_exact: what is computed for all registers.")
C['C02']=('partial',['C02_text_partial','C02_top_wrong','C02_hole_wrong','C02_false'],
 'Every word: the text is the one of the opcode maps, except (exactly characterised, and refuted) signed operand 32767, printed as -32767, and reserved COP0 words whose low bits look like a CP0 function. Symbol names without white space. The exact text of every word, deviations included, is C60.')
C['C04']=('proved',['C04_total'],'Debug mode: all words, symbol tables, bases and overflow modes.')
C['C05']=('partial',['C05_shape','C05_breaks_partial','C05_listing_partial','C05_panics','C05_slot_wrong','C05_overflow'],
 'Shape proved for every run that returns; exact positions of the labels when no j goes to a symbol and addresses fit 32 bits. False as stated: panic on j to a symbol, function start off by one, overflow at the top of the address space. The exact listing and exactly when there is none: C60.')
C['C33']=('proved',['C33_jumps','C33_jumps_plain','C33_others','C33_spaces_wrong'],'All words and symbol tables. In debug mode a run of white space inside a name is printed as one space (C33_spaces_wrong); exactly the name otherwise.')
C['C06']=('partial',['C06_offset','C06_reaches_partial','C06_exact','C06_local_exact','C06_wrong','C06_forward_rejected','C09_reaches_partial'],
 'The exact offset is proved for every program; it reaches the label if and only if the instructions in between are one word long and the distance fits 16 bits (C06_exact for global, C06_local_exact for local labels, above and below). False across multi-word pseudo-instructions (C06_wrong); forward branches to global labels are never accepted (C06_forward_rejected). Local labels: C09.')
C['C09']=('partial',['C09_resolves_partial','C09_reaches_partial','C09_accepted_partial','C09_next_scope','C09_top_level','C09_single_scope','C09_resolves_exact','C09_reaches_exact','C09_reported_exact'],
 'False in general: the property is proved for references undisturbed by definitions before all global labels and not at the boundary of a scope, and the three kinds of violation are witnessed. The rule the program actually follows is proved for every program: which definition is chosen (C09_resolves_exact), and exactly when a reference is undefined or out of scope (C09_reported_exact).')
C['C07']=('partial',['C07_symbol','C07_address','C07_label','C07_exact','C07_symbol_partial','C07_label_partial','C07_label_exact','C07_wrong'],
 'The exact instruction index is proved for every program. It reaches the target iff that is aligned and in the lowest 64 MB of the region (C07_exact), and, for labels, iff moreover no pseudo-instruction longer than a word precedes the label (C07_label_exact); witnesses in C07_wrong.')
C['C08']=('partial',['C08_offset','C08_exact','C08_bounds_exact','C08_first_partial','C08_wrong'],
 'False in general. Exact offset for every program, and an iff characterisation (C08_exact) of when it is right.')
C['C40']=('proved',['C40_words','C40_accepted','C40_numeric'],'')
C['C19']=('partial',['C19_branches_partial','C19_exact','C19_label_partial','C19_local_exact','C19_below_wrong','C19_forward_wrong','C19_next_wrong'],
 'The condition, the delay slot and the target are proved for every offset but 0 and -32768; C19_exact gives what happens there (forward jump; 0xFFFFFFFF in place of the branch). Labels above the branch are reached. Local labels: C19_local_exact gives the target. Labels below are always missed by one word (C19_below_wrong in general, C19_forward_wrong an instance); offset 0 panics or emits 0xFFFFFFFF (C19_next_wrong).')
C['C03']=('partial',['C03_round_trip_partial','C03_exact','C03_same','C03_branches','C03_wrong'],
 'Proved for all lists of canonical words whose operands are readable (Returns: no branches, no signed operand 32767, 16-bit break codes, named CP0 registers, jumps below 64 MB); each excluded class is refuted in C03_wrong. The property as stated is false; C03_exact says what becomes of every list of words (up to 2^29, symbols that are plain names): the result is Listing.allBack (Spec/Reread), word by word, and no code at all where a word has none. C03_same: exactly the lists of words that are unchanged; C03_branches: a branch is unchanged only with offset 0 among the first three words and base address 0.')
C['C20']=('partial',['C20_recombine','C20_hi','C20_lo','C20_accepted_partial','C20_overflow','C20_wrong','C20_unknown_symbol','C20_label_wrong'],
 'For every accepted lui/%hi, addiu-or-load/%lo pair the halves recombine to the address, for all names and addresses (C20_recombine). Acceptance: in a build with overflow checks %hi panics from 0xFFFF8000 up (C20_overflow), accepted otherwise; ldc1-family %lo and unknown symbols panic (witnesses).')
C['C22']=('partial',['C22_layout','C22_comments_partial','C22_label_wrong','C22_tab_wrong','C22_break_wrong'],
 'Proved for all programs: indentation, blank and comment lines, and comments glued to any statement (C22_layout); comments behind blanks for instructions (C22_comments_partial). Refuted for labels, for a tab behind a bare mnemonic and for two spaces behind break/syscall.')
C['C21']=('partial',['C21_case_partial','C21_exact','C21_both','C21_logical_wrong'],'False only of andi, ori and xori, which in another case than lower case take signed numbers (C21_logical_wrong). C21_exact: exactly when another spelling is accepted with the same code, for all programs and operands (CasedFile and numbers: Spec/CaseX); C21_both: the code never differs. C21_case_partial: errors and warnings included, for constants in 0..32767.')
C['C36']=('proved',['C36_lines','C36_append','C36_branch_position'],'')
C['C31']=('partial',['C31_count_partial','C31_count_alone','C31_accepted','C31_none_exact','C31_wrong'],
 'All mnemonics that take operands, any operand text. The operandless mnemonics ignore operands (proved exactly), and a missing only operand is reported differently or panics (C31_wrong).')
C['C32']=('partial',['C32_unknown_partial','C32_unknown_alone','C32_accepted','C32_wrong'],
 'InvalidOpcode for all visible ASCII words of two characters or more that do not resemble floating-point mnemonics; no code for any unknown word but the look-alikes of c.cond.fmt (C32_accepted), which are accepted (C32_wrong).')
C['C34']=('partial',['C34_exact','C34_lines','C34_warning_partial','C34_wrong'],
 'Exact rule for every accepted program (C34_exact); it coincides with the property unless the first instruction is b, bal, beqzl, bnezl or a compare-and-branch pseudo-instruction (C34_wrong).')
C['C35']=('proved',['C35_branch','C35_branch_label','C35_jump','C35_symbol','C35_jump_label','C35_others'],
 'Exact list of alignment warnings per line, for all accepted programs. That the code is what it is whatever the alignment: C07_address, C08_offset.')
C['C23']=('partial',['C23_equivalent','C23_only_registers','C23_rejected_partial','C23_wrong'],
 'All programs: any two spellings of the same register in any operand give the same result (C23_equivalent); in an accepted program every register operand is one of an exactly described set of texts (C23_only_registers), which is larger than the documented one (C23_wrong). Other texts are reported as InvalidRegister when the earlier operands are regular; address operands and r-digit texts panic instead (C23_wrong).')
C['C24']=('partial',['C24_checked_partial','C24_no_truncation','C24_encoded','C24_only_numbers','C24_wrong'],
 'All programs: a numeric last operand is complained about iff it is out of range (C24_checked_partial), so no assembled number is out of range (C24_no_truncation), and the field of the word holds exactly the number (C24_encoded, native instructions). Any operand text that assembles is a number in range, a label or a half of an address (C24_only_numbers). Excluded, and refuted in C24_wrong: labels spelled like numbers, -0, 0x inside a number, andi/ori/xori in capitals.')
C['C25']=('partial',['C25_exact','C25_in_range_partial','C25_fields_exact','C25_panics','C25_wrong'],
 'False as stated: every 32-bit number is accepted. The exact word is proved for all numbers (C25_exact), it is right for 0..31 (C25_in_range_partial), and which other fields change is characterised (C25_fields_exact).')
C['C28']=('partial',['C28_exact','C28_shows','C28_displayed_partial','C28_duplicate_partial','C28_bounds_exact','C28_wrong'],
 'False as stated (C28_wrong). Exactly: an error is displayed iff each text it underlines occurs in the line it quotes (C28_exact), and then the line and its number are shown (C28_shows). All errors of plainly written lines are displayed (C28_displayed_partial); duplicates and out-of-bounds branches are characterised separately.')
C['C41']=('proved',['C41_assemble','C41_disassemble','C41_panics'],'C41_panics: a program on which the checked build panics and the unchecked one returns, so the hypothesis is needed.')
C['C42']=('proved',['C42_assemble','C42_asked','C42_disassemble','C42_needed'],'C42_asked: with exactly the names that are looked up (Spec/Asked). assemble: tables with distinct names (without them the result depends on iteration order, C26_duplicate_names).')
C['C43']=('proved',['C43_success','C43_failure','C43_base','C43_status','C43_undisplayable'],'If displaying an error panics (C28) the tool panics; C43_failure is about errors that can be displayed.')
C['C44']=('proved',['C44_printed','C44_recover'],'')
C['C45']=('proved',['C45_distinct','C45_lookup','C45_none','C45_unchecked'],'Starts from the parsed YAML mapping.')
C['C46']=('partial',['C46_stdout','C46_printed','C46_names_wrong','C46_file_exact','C46_file_wrong'],'True of standard output unless the name of a symbol contains a line end (C46_printed, C46_names_wrong); false of -o, which writes the lines without separators (exact content C46_file_exact, witness C46_file_wrong).')
C['C47']=('partial',['C47_same','C47_panics','C47_zero','C47_jump','C47_div','C47_wrong'],'Exact: displaying panics exactly for nop and the pseudo-instructions (C47_panics); the text is the listing for all other mnemonics (C47_same, shift amounts below 32) except beqz/bnez (C47_zero), j/jal outside the low 64 MB of the region of the base (C47_jump) and the two-operand divisions, whose registers are displayed wrongly (C47_div, C47_wrong).')
C['C48']=('partial',['C48_delay_exact','C48_branch_exact','C48_unconditional','C48_target','C48_offset_exact','C48_wrong'],'is_unconditional_jump and get_jump_target are right; has_delay_slot and is_branch miss the listed pseudo-branches, and the offset of a backward branch is reported unsigned: exact characterisations, witness C48_wrong.')
C['C49']=('proved',['C49_fixed','C49_varying','C49_const','C49_division','C49_total','C49_reaches'],'')
C['C50']=('partial',['C50_listing_exact','C50_listing_partial','C50_unambiguous','C50_wrong'],'False only of the signed operand 32767, which is listed as -32767 (C50_wrong); C50_listing_exact gives the listing for all operands. Words are unambiguous without exception (C50_unambiguous).')
C['C51']=('partial',['C51_execution_partial','C51_converse_partial','C06_wrong','C07_wrong','C12_li_wrong','C17_div_wrong','C19_forward_wrong'],'Simulation in both directions for all programs whose lines have a meaning (Program): native instructions, %hi and %lo operands, all pseudo-instructions where their expansion is right, branches (linking and coprocessor ones included) to labels over one-word lines, j/jal to labels, symbols and addresses, jr, jalr and eret; a native instruction in every delay slot; code in the lowest 64 MB of a region (C07). Where the assembler is wrong (C06, C07, C08, C12, C14, C16, C17, C19) the meaning is left undefined.')
C['C52']=('partial',['C52_exact','C52_names_partial','C52_wrong'],'The line quoted is always the source line directly above (C52_exact); it is the branch if that line is an instruction (C52_names_partial), and is wrong when a blank line, comment or label stands in between (C52_wrong).')
C['C53']=('partial',['C53_error','C53_warning_partial','C53_wrong'],'All errors and warnings that quote ASCII lines, except delay-slot warnings across a power of ten (lines 9 and 10), whose markers are one column off; text that is not ASCII is marked by its length in bytes (C53_wrong).')
C['C54']=('partial',['C54_prefix_partial','C54_text_partial','C54_function','C54_line','C54_words','C54_redefined','C54_wrong'],'False only when the added lines, ahead of their first global label, define a local label again that the last scope of the program defines (Redefined, Spec/AppendX): an earlier branch to it then silently changes its target (C54_wrong), namely to the last of the added definitions (C54_redefined). C54_line, C54_words: every instruction that does not refer to such a label keeps its words; C54_prefix_partial: instructions and warnings for all continuations without such a label, in particular whenever they begin with a global label (C54_function).')
C['C55']=('proved',['C55_equivalent','C55_limit'],'For all programs, contexts and both build modes; C55_limit shows that the condition on labels cannot be dropped.')
C['C56']=('proved',['C56_verdict','C56_lines','C56_release'],'The rules are Spec/Language: line level (plan, Reads, Crashes, LineTaken, LineCrashes) and file level (Overflows, BadPlace, NoCode); Panics, Refused and Accepted are proved to be exactly the three verdicts, for all texts; of the tables of Unicode only the facts stated as the laws of the class Unicode are used.')
C['C57']=('proved',['C57_line','C57_program'],'The rules are Spec/Code over Spec/Language and Spec/Isa: values of operands (Const, Yields, Values), expansions (expand), encodings (machine), lines and files (LineWords, Generates). For all texts, the words returned are exactly those generated (C57_program), line by line (C57_line). The deviations that C06, C07, C08, C12, C16, C17, C19 and C25 report as wrong are part of these rules.')
C['C58']=('proved',['C58_report'],'The rules are Spec/Errors over Spec/Language: what is quoted (GprQuote, SysQuote, addressQuote), the complaint about a step, a line (LineError) and a place (PlaceError), and their order (InOrder, Reports). The report of the assembler is exactly the one of the rules for all texts on which it does not panic (C56). What the rules contain of quirks: a label that is defined again is said to be first defined on the line numbered by the instructions above it, a branch out of bounds is reported on the last line.')
C['C59']=('proved',['C59_warnings'],'The rules are Spec/Warnings over Spec/Language (LastInstr, InSlot, Unaligned, LineWarnings, Warns). For all texts, the warnings returned with code or errors are exactly those, in this order; the deviations that C34, C35 and C52 report (the forgotten pseudo-branches, the quoted line above) are part of the rules.')
C['C60']=('proved',['C60_listing','C60_debug'],'The rules are Spec/Columns over Spec/Listing and Spec/Layout. The text of every word, the labels and exactly when the call panics, without assumptions on symbols or addresses.')
C['C61']=('proved',['C61_safe','C61_complete','C61_untouched','C61_ends','C61_unique','C61_wrong'],'Model/Io: the order of the effects of main, with every operation failing at any time, a write also after any part of its bytes. C61_wrong shows that the old output file is not kept when a run fails. Assumed: the output path names one file, no other process changes the files.')
C['C62']=('proved',['C62_run','C62_one','C62_symbol_order'],'Specification Spec/Io over the languages of C56-C60 and the messages of C63. The hash map of the symbols is iterated in an arbitrary fixed order, which does not matter if names are distinct (C62_symbol_order). Standard error is not described for a panic.')
C['C63']=('proved',['C63_error','C63_warning','C63_message'],'Spec/Message. Not modelled: the panic of recent Rust versions for format widths above 65535.')
C['C64']=('proved',['C64_renaming','C64_errors','C64_warnings','C64_back'],'Spec/Rename, Spec/RenameMsg. Names must not be symbols, contain parentheses or 0x, or start with a digit, a sign or a character outside of ASCII; labels that are no such names stay as they are.')
C['C65']=('proved',['C65_added','C65_exact','C65_split_wrong','C65_refused_wrong'],'Spec/Fresh. C65_split_wrong and C65_refused_wrong show that the conditions on local labels cannot be dropped.')
C['C66']=('partial',['C66_listing_partial','C66_exact','C66_same','C66_tool_partial','C66_tool','C66_wrong','C66_file_wrong'],'Proved for all lists of less than 2^30 words in Returns (canonical words with operands that are read back as printed, as for C03: no branches, whose offset is printed but read as an address) that are not floating-point comparisons (printed with a tab), and symbols that can be labels (LabelSyms). C66_wrong: it is false for branches, comparisons, symbols that are no label names, and j to a symbol; C66_file_wrong: the file written by disasm -o has no line ends and cannot be assembled. C66_exact says what becomes of the listing of every list of words (up to 2^29): Listing.allListed (Spec/Reread), word by word, and no code at all where a word has none; C66_same: exactly the lists that are unchanged. C66_tool: the same in full for the two runs of the tool, with exactly the words allListed says.')
C['C67']=('proved',['C67_separate','C67_modules','C67_words_wrong','C67_number_wrong','C67_local_wrong','C67_cut','C67_both','C67_cut_wrong'],'Apart (Spec/Link) is the condition in words; Modules an everyday case of it. The place of the second program is counted in instructions, as the assembler does, and not in words: C67_words_wrong shows that behind a pseudo-instruction of several words the code for the true address is not that of the whole. C67_number_wrong, C67_local_wrong: the conditions on numbers and local labels are needed. C67_cut and C67_both are the converse (Cut, Spec/Cut: the two parts also have what they need); C67_cut_wrong shows that its conditions are needed.')
C['C68']=('proved',['C68_line','C68_mix','C68_errors','C68_warnings','C68_patch'],'SameOutline and Mixed are in Spec/Edit. C68_patch holds because distances and jump targets are counted in instructions, not in words (which is why branches over a pseudo-instruction of several words go wrong, see C06).')
C['C69']=('proved',['C69_line','C69_free','C69_errors','C69_taken','C69_warnings','C69_slot'],'What an instruction sees (SameView, Free, SameRefs) is defined in Spec/Context. Errors about references between lines (undefined labels, branches out of bounds) are not meant by the complaint about a line. The last example shows that the words of a branch to a number do depend on its place.')
C['C70']=('proved',['C70_add','C70_drop','C70_link','C70_other_wrong','C70_half_wrong'],'Extends and JumpsOnly are in Spec/Export, Apart in Spec/Link. The address of a label is counted in instructions, not words (C06, C67). C70_other_wrong and C70_half_wrong show that the conditions are needed: a symbol with another address wins over the label, and %hi of a label that is no symbol panics.')
C['C71']=('proved',['C71_front','C71_patch','C71_debug'],'Leaving w: the word is j or jr (Props/PatchP). With j or jr labels and blank lines move, as shown by an example.')
C['C72']=('proved',['C72_parts','C72_order','C72_first_wrong'],'IsPart, Strange and NoLabelJumps are in Spec/Parts. C72_first_wrong: the condition on the first instruction is needed, a local label in front captures it.')
C['C73']=('proved',['C73_lines','C73_endings','C73_tool'],'Written is in Spec/Endings: the ways to write a list of lines as a text.')
C['C74']=('proved',['C74_recover','C74_warnings','C74_accepted','C74_panics'],'Blanked, requote and remaining are in Spec/Recover. C74_panics: the exception is real.')
C['C75']=('proved',['C75_words','C75_table'],'Site (which words), moved and relocate are in Spec/Reloc. When a program is accepted for the other address: C40_accepted.')
C['C76']=('proved',['C76_insert','C76_words','C76_lines'],'Inserted, down and result are in Spec/Insert: the complete result of the edited file as a function of that of the file; repeated insertion follows by repeated use.')
C['C77']=('partial',['C77_exact','C77_code_partial','C77_wrong'],'seen and ClearSyms are in Spec/Seen. C77_exact: the exact rule for all words. False for the signed operand 32767 (listed as -32767), for words with bits set in unused fields and for reserved words that look like a coprocessor 0 instruction (C77_wrong).')
C['C78']=('proved',['C78_debug','C78_listing'],'IsJump and unnamed are in Spec/Place.')
C['C79']=('proved',['C79_rename','C79_clash'],'The two programs are related by Equal.SameFile (Spec/Equal) for both sets of symbols; the names looked up are Asked.AskedIn (Spec/Asked). C79_clash: a new name that the program looked up already, a label, does change the result.')
C['C80']=('proved',['C80_blanks','C80_wrong'],'SameText, Respaced (Spec/Blanks). All outcomes, also errors and panics, are compared; the texts quoted in diagnostics naturally differ. C80_wrong: the exceptions named in the property are real - lw $a0,($a1) assembles, lw $a0, ($a1) is refused.')
C['C81']=('proved',['C81_reading','C81_same','C81_label_comment'],'Spec/Anatomy defines statements and words character by character, with no helper of the model; C81_reading: exactly one reading exists; C81_same: it determines the outcome. Blanks between a statement and a comment belong to the statement (C81_label_comment), which is why C22 is only partial.')
C['C82']=('proved',['C82_straight','C82_line','C82_wrong'],'Shows and WrittenOut are in Spec/Shorthand, Returns (the words the notation can express) in Spec/Back. C82_wrong: writing out li of 32 bits in a program with a label does change the branch over it.')
C['C83']=('proved',['C83_label','C83_symbol','C83_exact','C83_wrong'],'addressOf is in Spec/Export, Low (lowest 64 MB of the region) and JumpAt in Spec/Jump. C83_wrong: outside of the lowest 64 MB the listing shows another address.')
C['C84']=('proved',['C84_trim','C84_split','C84_splitOnce','C84_parts','C84_len','C84_take','C84_find','C84_remove','C84_lower','C84_chars','C84_show','C84_parse'],'Specifications in Spec/TextFns, Spec/Anatomy (White), Spec/Syntax (Digits). Lines of a text: C73_lines. The tables of Unicode (to_lowercase, is_numeric) stay a parameter of the model with laws.')
C['C85']=('proved',['C85_debug','C85_listing','C85_branches'],'Branches are excluded in the statement: C85_branches shows that they go on changing. BranchWord is in Spec/Twice.')
C['C86']=('proved',['C86_push','C86_assembled'],'That push_bytes leaves the vector it is given empty is not modelled.')
C['C87']=('proved',['C87_pipe','C87_empty'],'The end of the second run is listingEnd (Spec/Pipe), in terms of the library; what the library returns is C57 and C60.')
C['C88']=('proved',['C88_again','C88_twice','C88_same_file'],'C88_again: all sequences of attempts; C88_twice: a successful run repeated; C88_same_file: the hypothesis Apart is needed.')
C['C89']=('proved',['C89_alone','C89_ends','C89_schedule','C89_finite','C89_finishes','C89_sequence','C89_dependent'],'Schedules are ParReach (Spec/Parallel), over the operations of Model/Io. C89_dependent: the condition Independent is needed.')
C['C90']=('proved',['C90_frame'],'onDisk and SameLib: Spec/Rerun; how it ends is C62.')
C['C91']=('proved',['C91_session','C91_possible'],'Session, NoneReads and Writes: Spec/Session. That an undisturbed run which is not successful leaves the disk alone is careful_reach.')
