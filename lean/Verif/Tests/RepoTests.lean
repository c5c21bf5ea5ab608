/-
GENERATED by tools/gen_tests.py: the expectations of /repo/tests replayed on the model.  These are
tests of the model's fidelity, not property proofs.
-/
import Verif.Model.Lib

namespace Mips.Tests

/-- A concrete runtime: overflow checks on, insertion-order hash maps. -/
def rt0 : Rt := ⟨true, fun _ l => l, fun _ _ => .refl _⟩

/-- `asm` of tests/common/mod.rs -/
def asm (t : Str) : Option (List Word) :=
  match @assemble asciiUnicode rt0 (Mipsasm.new.setBase 0x80000000#32) t with
  | .ok is _ => some (getBytes is)
  | _ => none

/-- `disasm` of tests/common/mod.rs -/
def dis (w : Word) : Option (List Str) :=
  disassemble rt0 ((Mipsasm.new.setBase 0x80000000#32).setDebug) [w]

example : asm c!"add $a0, $a1, $a2" = some [0x00a62020#32] := by decide +kernel
example : asm c!"addi $a0, $a1, 0x8" = some [0x20a40008#32] := by decide +kernel
example : asm c!"addiu $a0, $a1, 0x8" = some [0x24a40008#32] := by decide +kernel
example : asm c!"addu $a0, $a1, $a2" = some [0x00a62021#32] := by decide +kernel
example : asm c!"and $a0, $a1, $a2" = some [0x00a62024#32] := by decide +kernel
example : asm c!"andi $a0, $a1, 0x8" = some [0x30a40008#32] := by decide +kernel
example : asm c!"BC0F:\nbc0f BC0F" = some [0x4100ffff#32] := by decide +kernel
example : asm c!"BC1F:\nbc1f BC1F" = some [0x4500ffff#32] := by decide +kernel
example : asm c!"BC0FL:\nbc0fl BC0FL" = some [0x4102ffff#32] := by decide +kernel
example : asm c!"BC1FL:\nbc1fl BC1FL" = some [0x4502ffff#32] := by decide +kernel
example : asm c!"BC0T:\nbc0t BC0T" = some [0x4101ffff#32] := by decide +kernel
example : asm c!"BC1T:\nbc1t BC1T" = some [0x4501ffff#32] := by decide +kernel
example : asm c!"BC0TL:\nbc0tl BC0TL" = some [0x4103ffff#32] := by decide +kernel
example : asm c!"BC1TL:\nbc1tl BC1TL" = some [0x4503ffff#32] := by decide +kernel
example : asm c!"BEQ:\nbeq $a0, $a1, BEQ" = some [0x1085ffff#32] := by decide +kernel
example : asm c!"BEQL:\nbeql $a0, $a1, BEQL" = some [0x5085ffff#32] := by decide +kernel
example : asm c!"BGEZ:\nbgez $a0, BGEZ" = some [0x0481ffff#32] := by decide +kernel
example : asm c!"BGEZAL:\nbgezal $a0, BGEZAL" = some [0x0491ffff#32] := by decide +kernel
example : asm c!"BGEZALL:\nbgezall $a0, BGEZALL" = some [0x0493ffff#32] := by decide +kernel
example : asm c!"BGEZL:\nbgezl $a0, BGEZL" = some [0x0483ffff#32] := by decide +kernel
example : asm c!"BGTZ:\nbgtz $a0, BGTZ" = some [0x1c80ffff#32] := by decide +kernel
example : asm c!"BGTZL:\nbgtzl $a0, BGTZL" = some [0x5c80ffff#32] := by decide +kernel
example : asm c!"BLEZ:\nblez $a0, BLEZ" = some [0x1880ffff#32] := by decide +kernel
example : asm c!"BLEZL:\nblezl $a0, BLEZL" = some [0x5880ffff#32] := by decide +kernel
example : asm c!"BLTZ:\nbltz $a0, BLTZ" = some [0x0480ffff#32] := by decide +kernel
example : asm c!"BLTZAL:\nbltzal $a0, BLTZAL" = some [0x0490ffff#32] := by decide +kernel
example : asm c!"BLTZALL:\nbltzall $a0, BLTZALL" = some [0x0492ffff#32] := by decide +kernel
example : asm c!"BLTZL:\nbltzl $a0, BLTZL" = some [0x0482ffff#32] := by decide +kernel
example : asm c!"BNE:\nbne $a0, $a1, BNE" = some [0x1485ffff#32] := by decide +kernel
example : asm c!"BNEL:\nbnel $a0, $a1, BNEL" = some [0x5485ffff#32] := by decide +kernel
example : asm c!"break" = some [0x0000000d#32] := by decide +kernel
example : asm c!"break 0x20" = some [0x0000080d#32] := by decide +kernel
example : asm c!"cache 0x14, 0x10($a0)" = some [0xbc940010#32] := by decide +kernel
example : asm c!"cfc0 $a0, Context" = some [0x40442000#32] := by decide +kernel
example : asm c!"cfc1 $a0, $fa1" = some [0x44447000#32] := by decide +kernel
example : asm c!"ctc0 $a0, Context" = some [0x40c42000#32] := by decide +kernel
example : asm c!"ctc1 $a0, $fa1" = some [0x44c47000#32] := by decide +kernel
example : asm c!"dadd $a0, $a1, $a2" = some [0x00a6202c#32] := by decide +kernel
example : asm c!"daddi $a0, $a1, 0x8" = some [0x60a40008#32] := by decide +kernel
example : asm c!"daddiu $a0, $a1, 0x8" = some [0x64a40008#32] := by decide +kernel
example : asm c!"daddu $a0, $a1, $a2" = some [0x00a6202d#32] := by decide +kernel
example : asm c!"ddiv $a0, $a1" = some [0x0085001e#32] := by decide +kernel
example : asm c!"ddivu $a0, $a1" = some [0x0085001f#32] := by decide +kernel
example : asm c!"div $a0, $a1" = some [0x0085001a#32] := by decide +kernel
example : asm c!"divu $a0, $a1" = some [0x0085001b#32] := by decide +kernel
example : asm c!"dmfc0 $a0, Context" = some [0x40242000#32] := by decide +kernel
example : asm c!"dmfc1 $a0, $fa1" = some [0x44247000#32] := by decide +kernel
example : asm c!"dmult $a0, $a1" = some [0x0085001c#32] := by decide +kernel
example : asm c!"dmultu $a0, $a1" = some [0x0085001d#32] := by decide +kernel
example : asm c!"dmtc0 $a0, Context" = some [0x40a42000#32] := by decide +kernel
example : asm c!"dmtc1 $a0, $fa1" = some [0x44a47000#32] := by decide +kernel
example : asm c!"dsll $a0, $a1, 0x1f" = some [0x000527f8#32] := by decide +kernel
example : asm c!"dsll32 $a0, $a1, 0x1f" = some [0x000527fc#32] := by decide +kernel
example : asm c!"dsllv $a0, $a1, $a2" = some [0x00c52014#32] := by decide +kernel
example : asm c!"dsra $a0, $a1, 0x1f" = some [0x000527fb#32] := by decide +kernel
example : asm c!"dsra32 $a0, $a1, 0x1f" = some [0x000527ff#32] := by decide +kernel
example : asm c!"dsrav $a0, $a1, $a2" = some [0x00c52017#32] := by decide +kernel
example : asm c!"dsrl $a0, $a1, 0x1f" = some [0x000527fa#32] := by decide +kernel
example : asm c!"dsrl32 $a0, $a1, 0x1f" = some [0x000527fe#32] := by decide +kernel
example : asm c!"dsrlv $a0, $a1, $a2" = some [0x00c52016#32] := by decide +kernel
example : asm c!"dsub $a0, $a1, $a2" = some [0x00a6202e#32] := by decide +kernel
example : asm c!"dsubu $a0, $a1, $a2" = some [0x00a6202f#32] := by decide +kernel
example : asm c!"eret" = some [0x42000018#32] := by decide +kernel
example : asm c!"j 0x80000000" = some [0x08000000#32] := by decide +kernel
example : asm c!"jal 0x80000000" = some [0x0c000000#32] := by decide +kernel
example : asm c!"jr $ra" = some [0x03e00008#32] := by decide +kernel
example : asm c!"jalr $ra" = some [0x03e0f809#32] := by decide +kernel
example : asm c!"jalr $a0, $a1" = some [0x00a02009#32] := by decide +kernel
example : asm c!"lb $a0, 0x10($a1)" = some [0x80a40010#32] := by decide +kernel
example : asm c!"lbu $a0, 0x10($a1)" = some [0x90a40010#32] := by decide +kernel
example : asm c!"ld $a0, 0x10($a1)" = some [0xdca40010#32] := by decide +kernel
example : asm c!"ldc1 $ft0, 0x8($a0)" = some [0xd4840008#32] := by decide +kernel
example : asm c!"ldl $a0, 0x10($a1)" = some [0x68a40010#32] := by decide +kernel
example : asm c!"ldr $a0, 0x10($a1)" = some [0x6ca40010#32] := by decide +kernel
example : asm c!"lh $a0, 0x10($a1)" = some [0x84a40010#32] := by decide +kernel
example : asm c!"lhu $a0, 0x10($a1)" = some [0x94a40010#32] := by decide +kernel
example : asm c!"ll $a0, 0x10($a1)" = some [0xc0a40010#32] := by decide +kernel
example : asm c!"lld $a0, 0x10($a1)" = some [0xd0a40010#32] := by decide +kernel
example : asm c!"lwc1 $ft0, 0x8($a0)" = some [0xc4840008#32] := by decide +kernel
example : asm c!"lwu $a0, 0x10($a1)" = some [0x9ca40010#32] := by decide +kernel
example : asm c!"lui $a0, 0x8000" = some [0x3c048000#32] := by decide +kernel
example : asm c!"lw $a0, 0x10($a1)" = some [0x8ca40010#32] := by decide +kernel
example : asm c!"lwl $a0, 0x10($a1)" = some [0x88a40010#32] := by decide +kernel
example : asm c!"lwr $a0, 0x10($a1)" = some [0x98a40010#32] := by decide +kernel
example : asm c!"mfc0 $a0, Context" = some [0x40042000#32] := by decide +kernel
example : asm c!"mfc1 $a0, $fa1" = some [0x44047000#32] := by decide +kernel
example : asm c!"mfhi $a0" = some [0x00002010#32] := by decide +kernel
example : asm c!"mflo $a0" = some [0x00002012#32] := by decide +kernel
example : asm c!"mult $a0, $a1" = some [0x00850018#32] := by decide +kernel
example : asm c!"multu $a0, $a1" = some [0x00850019#32] := by decide +kernel
example : asm c!"mtc0 $a0, Context" = some [0x40842000#32] := by decide +kernel
example : asm c!"mtc1 $a0, $fa1" = some [0x44847000#32] := by decide +kernel
example : asm c!"mthi $a0" = some [0x00800011#32] := by decide +kernel
example : asm c!"mtlo $a0" = some [0x00800013#32] := by decide +kernel
example : asm c!"nor $a0, $a1, $a2" = some [0x00a62027#32] := by decide +kernel
example : asm c!"or $a0, $a1, $a2" = some [0x00a62025#32] := by decide +kernel
example : asm c!"ori $a0, $a1, 0x8" = some [0x34a40008#32] := by decide +kernel
example : asm c!"sb $a0, 0x10($a1)" = some [0xa0a40010#32] := by decide +kernel
example : asm c!"sc $a0, 0x10($a1)" = some [0xe0a40010#32] := by decide +kernel
example : asm c!"scd $a0, 0x10($a1)" = some [0xf0a40010#32] := by decide +kernel
example : asm c!"sd $a0, 0x10($a1)" = some [0xfca40010#32] := by decide +kernel
example : asm c!"sdc1 $ft0, 0x8($a0)" = some [0xf4840008#32] := by decide +kernel
example : asm c!"sdl $a0, 0x10($a1)" = some [0xb0a40010#32] := by decide +kernel
example : asm c!"sdr $a0, 0x10($a1)" = some [0xb4a40010#32] := by decide +kernel
example : asm c!"sh $a0, 0x10($a1)" = some [0xa4a40010#32] := by decide +kernel
example : asm c!"sll $a0, $a1, 0x1f" = some [0x000527c0#32] := by decide +kernel
example : asm c!"sllv $a0, $a1, $a2" = some [0x00c52004#32] := by decide +kernel
example : asm c!"slt $a0, $a1, $a2" = some [0x00a6202a#32] := by decide +kernel
example : asm c!"slti $a0, $a1, 0x8" = some [0x28a40008#32] := by decide +kernel
example : asm c!"sltiu $a0, $a1, 0x8" = some [0x2ca40008#32] := by decide +kernel
example : asm c!"sltu $a0, $a1, $a2" = some [0x00a6202b#32] := by decide +kernel
example : asm c!"sra $a0, $a1, 0x1f" = some [0x000527c3#32] := by decide +kernel
example : asm c!"srav $a0, $a1, $a2" = some [0x00c52007#32] := by decide +kernel
example : asm c!"srl $a0, $a1, 0x1f" = some [0x000527c2#32] := by decide +kernel
example : asm c!"srlv $a0, $a1, $a2" = some [0x00c52006#32] := by decide +kernel
example : asm c!"sub $a0, $a1, $a2" = some [0x00a62022#32] := by decide +kernel
example : asm c!"subu $a0, $a1, $a2" = some [0x00a62023#32] := by decide +kernel
example : asm c!"sw $a0, 0x10($a1)" = some [0xaca40010#32] := by decide +kernel
example : asm c!"swc1 $ft0, 0x8($a0)" = some [0xe4840008#32] := by decide +kernel
example : asm c!"swl $a0, 0x10($a1)" = some [0xa8a40010#32] := by decide +kernel
example : asm c!"swr $a0, 0x10($a1)" = some [0xb8a40010#32] := by decide +kernel
example : asm c!"sync" = some [0x0000000f#32] := by decide +kernel
example : asm c!"syscall" = some [0x0000000c#32] := by decide +kernel
example : asm c!"syscall 0x20" = some [0x0000080c#32] := by decide +kernel
example : asm c!"teq $a0, $a1" = some [0x00850034#32] := by decide +kernel
example : asm c!"teqi $a0, 0x20" = some [0x048c0020#32] := by decide +kernel
example : asm c!"tge $a0, $a1" = some [0x00850030#32] := by decide +kernel
example : asm c!"tgei $a0, 0x20" = some [0x04880020#32] := by decide +kernel
example : asm c!"tgeiu $a0, 0x20" = some [0x04890020#32] := by decide +kernel
example : asm c!"tgeu $a0, $a1" = some [0x00850031#32] := by decide +kernel
example : asm c!"tlbp" = some [0x42000008#32] := by decide +kernel
example : asm c!"tlbr" = some [0x42000001#32] := by decide +kernel
example : asm c!"tlbwi" = some [0x42000002#32] := by decide +kernel
example : asm c!"tlbwr" = some [0x42000006#32] := by decide +kernel
example : asm c!"tlt $a0, $a1" = some [0x00850032#32] := by decide +kernel
example : asm c!"tlti $a0, 0x20" = some [0x048a0020#32] := by decide +kernel
example : asm c!"tltiu $a0, 0x20" = some [0x048b0020#32] := by decide +kernel
example : asm c!"tltu $a0, $a1" = some [0x00850033#32] := by decide +kernel
example : asm c!"tne $a0, $a1" = some [0x00850036#32] := by decide +kernel
example : asm c!"tnei $a0, 0x20" = some [0x048e0020#32] := by decide +kernel
example : asm c!"xor $a0, $a1, $a2" = some [0x00a62026#32] := by decide +kernel
example : asm c!"xori $a0, $a1, 0x8" = some [0x38a40008#32] := by decide +kernel
example : asm c!"abs $a0, $a1" = some [0x00050fc3#32, 0x00a12026#32, 0x00812023#32] := by decide +kernel
example : asm c!"B:\nb B" = some [0x1000ffff#32] := by decide +kernel
example : asm c!"BAL:\nbal BAL" = some [0x0411ffff#32] := by decide +kernel
example : asm c!"beq a0, a1, 0x80000008\nnop\nnop\nnop" = some [0x10850001#32, 0x00000000#32, 0x00000000#32, 0x00000000#32] := by decide +kernel
example : asm c!"BEQZ:\nbeqz $a0, BEQZ" = some [0x1080ffff#32] := by decide +kernel
example : asm c!"BEQZL:\nbeqzl $a0, BEQZL" = some [0x5080ffff#32] := by decide +kernel
example : asm c!"BGE:\nbge $a0, $a1, BGE" = some [0x0085082a#32, 0x1020fffe#32] := by decide +kernel
example : asm c!"BGEL:\nbgel $a0, $a1, BGEL" = some [0x0085082a#32, 0x5020fffe#32] := by decide +kernel
example : asm c!"BGEU:\nbgeu $a0, $a1, BGEU" = some [0x0085082b#32, 0x1020fffe#32] := by decide +kernel
example : asm c!"BGEUL:\nbgeul $a0, $a1, BGEUL" = some [0x0085082b#32, 0x5020fffe#32] := by decide +kernel
example : asm c!"BGT:\nbgt $a0, $a1, BGT" = some [0x00a4082a#32, 0x1420fffe#32] := by decide +kernel
example : asm c!"BGTL:\nbgtl $a0, $a1, BGTL" = some [0x00a4082a#32, 0x5420fffe#32] := by decide +kernel
example : asm c!"BGTU:\nbgtu $a0, $a1, BGTU" = some [0x00a4082b#32, 0x1420fffe#32] := by decide +kernel
example : asm c!"BGTUL:\nbgtul $a0, $a1, BGTUL" = some [0x00a4082b#32, 0x5420fffe#32] := by decide +kernel
example : asm c!"BLE:\nble $a0, $a1, BLE" = some [0x00a4082a#32, 0x1020fffe#32] := by decide +kernel
example : asm c!"BLEL:\nblel $a0, $a1, BLEL" = some [0x00a4082a#32, 0x5020fffe#32] := by decide +kernel
example : asm c!"BLEU:\nbleu $a0, $a1, BLEU" = some [0x00a4082b#32, 0x1020fffe#32] := by decide +kernel
example : asm c!"BLEUL:\nbleul $a0, $a1, BLEUL" = some [0x00a4082b#32, 0x5020fffe#32] := by decide +kernel
example : asm c!"BLT:\nblt $a0, $a1, BLT" = some [0x0085082a#32, 0x1420fffe#32] := by decide +kernel
example : asm c!"BLTL:\nbltl $a0, $a1, BLTL" = some [0x0085082a#32, 0x5420fffe#32] := by decide +kernel
example : asm c!"BLTU:\nbltu $a0, $a1, BLTU" = some [0x0085082b#32, 0x1420fffe#32] := by decide +kernel
example : asm c!"BLTUL:\nbltul $a0, $a1, BLTUL" = some [0x0085082b#32, 0x5420fffe#32] := by decide +kernel
example : asm c!"BNEZ:\nbnez $a0, BNEZ" = some [0x1480ffff#32] := by decide +kernel
example : asm c!"BNEZL:\nbnezl $a0, BNEZL" = some [0x5480ffff#32] := by decide +kernel
example : asm c!"clear $a0" = some [0x00002021#32] := by decide +kernel
example : asm c!"dabs $a0, $a1" = some [0x00050ffb#32, 0x00a12026#32, 0x0081202e#32] := by decide +kernel
example : asm c!"ddiv $a0, $a1, $a2" = some [0x00c001f4#32, 0x00a6001e#32, 0x6401ffff#32, 0x14c10004#32, 0x64010001#32, 0x00010ffc#32, 0x00a101b4#32, 0x00002012#32] := by decide +kernel
example : asm c!"ddivu $a0, $a1, $a2" = some [0x00c001f4#32, 0x00a6001f#32, 0x00002012#32] := by decide +kernel
example : asm c!"div $a0, $a1, $a2" = some [0x00c001f4#32, 0x00a6001a#32, 0x3c01ffff#32, 0x3421ffff#32, 0x14c10003#32, 0x3c018000#32, 0x00a101b4#32, 0x00002012#32] := by decide +kernel
example : asm c!"divu $a0, $a1, $a2" = some [0x00c001f4#32, 0x00a6001b#32, 0x00002012#32] := by decide +kernel
example : asm c!"dli $a0, 0x123456789abcdef0" = some [0x3c041234#32, 0x34845678#32, 0x00042438#32, 0x34849abc#32, 0x00042438#32, 0x3484def0#32] := by decide +kernel
example : asm c!"dli $a0, -423023405674592" = some [0x3c04fffe#32, 0x34847f43#32, 0x00042438#32, 0x3484302c#32, 0x00042438#32, 0x34844fa0#32] := by decide +kernel
example : asm c!"dmove $a0, $a1" = some [0x00a0202d#32] := by decide +kernel
example : asm c!"dmul $a0, $a1, $a2" = some [0x00a6001c#32, 0x00002012#32] := by decide +kernel
example : asm c!"dmulu $a0, $a1, $a2" = some [0x00a6001d#32, 0x00002012#32] := by decide +kernel
example : asm c!"dmulo $a0, $a1, $a2" = some [0x00a6001c#32, 0x00002012#32, 0x000427ff#32, 0x00000810#32, 0x008101b6#32, 0x00002012#32] := by decide +kernel
example : asm c!"dmulou $a0, $a1, $a2" = some [0x00a6001d#32, 0x00000810#32, 0x00002012#32, 0x002001b6#32] := by decide +kernel
example : asm c!"dneg $a0, $a1" = some [0x0005202e#32] := by decide +kernel
example : asm c!"dnegu $a0, $a1" = some [0x0005202f#32] := by decide +kernel
example : asm c!"drem $a0, $a1, $a2" = some [0x00c001f4#32, 0x00a6001e#32, 0x6401ffff#32, 0x14c10004#32, 0x64010001#32, 0x00010ffc#32, 0x00A101B4#32, 0x00002010#32] := by decide +kernel
example : asm c!"dremu $a0, $a1, $a2" = some [0x00c001f4#32, 0x00a6001f#32, 0x00002010#32] := by decide +kernel
example : asm c!"drol $a0, $a1, $a2" = some [0x0006082f#32, 0x00250816#32, 0x00c52014#32, 0x00812025#32] := by decide +kernel
example : asm c!"dror $a0, $a1, $a2" = some [0x0006082f#32, 0x00250814#32, 0x00c52016#32, 0x00812025#32] := by decide +kernel
example : asm c!"dsubi $a0, $a1, 0x8" = some [0x60a4fff8#32] := by decide +kernel
example : asm c!"dsubiu $a0, $a1, 0x8" = some [0x64a4fff8#32] := by decide +kernel
example : asm c!"lli $a0, 0x10" = some [0x34040010#32] := by decide +kernel
example : asm c!"li $a0, 0x12345678" = some [0x3c041234#32, 0x34845678#32] := by decide +kernel
example : asm c!"move $a0, $a1" = some [0x00052021#32] := by decide +kernel
example : asm c!"mul $a0, $a1, $a2" = some [0x00a60018#32, 0x00002012#32] := by decide +kernel
example : asm c!"mulu $a0, $a1, $a2" = some [0x00a60019#32, 0x00002012#32] := by decide +kernel
example : asm c!"mulo $a0, $a1, $a2" = some [0x00a60018#32, 0x00002012#32, 0x000427c3#32, 0x00000810#32, 0x008101b6#32, 0x00002012#32] := by decide +kernel
example : asm c!"mulou $a0, $a1, $a2" = some [0x00a60019#32, 0x00000810#32, 0x00002012#32, 0x002001b6#32] := by decide +kernel
example : asm c!"neg $a0, $a1" = some [0x00052022#32] := by decide +kernel
example : asm c!"negu $a0, $a1" = some [0x00052023#32] := by decide +kernel
example : asm c!"nop" = some [0x00000000#32] := by decide +kernel
example : asm c!"not $a0, $a1" = some [0x00a02027#32] := by decide +kernel
example : asm c!"rem $a0, $a1, $a2" = some [0x00c001f4#32, 0x00a6001a#32, 0x3c01ffff#32, 0x3421ffff#32, 0x14c10003#32, 0x3c018000#32, 0x00a101b4#32, 0x00002010#32] := by decide +kernel
example : asm c!"remu $a0, $a1, $a2" = some [0x00c001f4#32, 0x00a6001b#32, 0x00002010#32] := by decide +kernel
example : asm c!"seq $a0, $a1, $a2" = some [0x00a62026#32, 0x2c840001#32] := by decide +kernel
example : asm c!"sge $a0, $a1, $a2" = some [0x00a6202a#32, 0x38840001#32] := by decide +kernel
example : asm c!"sgeu $a0, $a1, $a2" = some [0x00a6202b#32, 0x38840001#32] := by decide +kernel
example : asm c!"sgt $a0, $a1, $a2" = some [0x00c5202a#32] := by decide +kernel
example : asm c!"sgtu $a0, $a1, $a2" = some [0x00c5202b#32] := by decide +kernel
example : asm c!"sle $a0, $a1, $a2" = some [0x00c5202a#32, 0x38840001#32] := by decide +kernel
example : asm c!"sleu $a0, $a1, $a2" = some [0x00c5202b#32, 0x38840001#32] := by decide +kernel
example : asm c!"sne $a0, $a1, $a2" = some [0x00a62026#32, 0x0004202b#32] := by decide +kernel
example : asm c!"subi $a0, $a1, 0x8" = some [0x20a4fff8#32] := by decide +kernel
example : asm c!"subiu $a0, $a1, 0x8" = some [0x24a4fff8#32] := by decide +kernel
example : asm c!"abs.s $fa0, $fa1" = some [0x46007305#32] := by decide +kernel
example : asm c!"abs.d $fa0, $fa1" = some [0x46207305#32] := by decide +kernel
example : asm c!"add.s $fa0, $fa1, $ft0" = some [0x46047300#32] := by decide +kernel
example : asm c!"add.d $fa0, $fa1, $ft0" = some [0x46247300#32] := by decide +kernel
example : asm c!"c.eq.s $fa1, $ft0" = some [0x46047032#32] := by decide +kernel
example : asm c!"c.eq.d $fa1, $ft0" = some [0x46247032#32] := by decide +kernel
example : asm c!"c.f.s $fa1, $ft0" = some [0x46047030#32] := by decide +kernel
example : asm c!"c.f.d $fa1, $ft0" = some [0x46247030#32] := by decide +kernel
example : asm c!"c.le.s $fa1, $ft0" = some [0x4604703e#32] := by decide +kernel
example : asm c!"c.le.d $fa1, $ft0" = some [0x4624703e#32] := by decide +kernel
example : asm c!"c.lt.s $fa1, $ft0" = some [0x4604703c#32] := by decide +kernel
example : asm c!"c.lt.d $fa1, $ft0" = some [0x4624703c#32] := by decide +kernel
example : asm c!"c.nge.s $fa1, $ft0" = some [0x4604703d#32] := by decide +kernel
example : asm c!"c.nge.d $fa1, $ft0" = some [0x4624703d#32] := by decide +kernel
example : asm c!"c.ngl.s $fa1, $ft0" = some [0x4604703b#32] := by decide +kernel
example : asm c!"c.ngl.d $fa1, $ft0" = some [0x4624703b#32] := by decide +kernel
example : asm c!"c.ngle.s $fa1, $ft0" = some [0x46047039#32] := by decide +kernel
example : asm c!"c.ngle.d $fa1, $ft0" = some [0x46247039#32] := by decide +kernel
example : asm c!"c.ngt.s $fa1, $ft0" = some [0x4604703f#32] := by decide +kernel
example : asm c!"c.ngt.d $fa1, $ft0" = some [0x4624703f#32] := by decide +kernel
example : asm c!"c.ole.s $fa1, $ft0" = some [0x46047036#32] := by decide +kernel
example : asm c!"c.ole.d $fa1, $ft0" = some [0x46247036#32] := by decide +kernel
example : asm c!"c.olt.s $fa1, $ft0" = some [0x46047034#32] := by decide +kernel
example : asm c!"c.olt.d $fa1, $ft0" = some [0x46247034#32] := by decide +kernel
example : asm c!"c.seq.s $fa1, $ft0" = some [0x4604703a#32] := by decide +kernel
example : asm c!"c.seq.d $fa1, $ft0" = some [0x4624703a#32] := by decide +kernel
example : asm c!"c.sf.s $fa1, $ft0" = some [0x46047038#32] := by decide +kernel
example : asm c!"c.sf.d $fa1, $ft0" = some [0x46247038#32] := by decide +kernel
example : asm c!"c.ueq.s $fa1, $ft0" = some [0x46047033#32] := by decide +kernel
example : asm c!"c.ueq.d $fa1, $ft0" = some [0x46247033#32] := by decide +kernel
example : asm c!"c.ule.s $fa1, $ft0" = some [0x46047037#32] := by decide +kernel
example : asm c!"c.ule.d $fa1, $ft0" = some [0x46247037#32] := by decide +kernel
example : asm c!"c.ult.s $fa1, $ft0" = some [0x46047035#32] := by decide +kernel
example : asm c!"c.ult.d $fa1, $ft0" = some [0x46247035#32] := by decide +kernel
example : asm c!"c.un.s $fa1, $ft0" = some [0x46047031#32] := by decide +kernel
example : asm c!"c.un.d $fa1, $ft0" = some [0x46247031#32] := by decide +kernel
example : asm c!"ceil.l.s $fa0, $fa1" = some [0x4600730a#32] := by decide +kernel
example : asm c!"ceil.l.d $fa0, $fa1" = some [0x4620730a#32] := by decide +kernel
example : asm c!"ceil.w.s $fa0, $fa1" = some [0x4600730e#32] := by decide +kernel
example : asm c!"ceil.w.d $fa0, $fa1" = some [0x4620730e#32] := by decide +kernel
example : asm c!"cvt.d.l $fa0, $fa1" = some [0x46a07321#32] := by decide +kernel
example : asm c!"cvt.d.s $fa0, $fa1" = some [0x46007321#32] := by decide +kernel
example : asm c!"cvt.d.w $fa0, $fa1" = some [0x46807321#32] := by decide +kernel
example : asm c!"cvt.l.d $fa0, $fa1" = some [0x46207325#32] := by decide +kernel
example : asm c!"cvt.l.s $fa0, $fa1" = some [0x46007325#32] := by decide +kernel
example : asm c!"cvt.s.d $fa0, $fa1" = some [0x46207320#32] := by decide +kernel
example : asm c!"cvt.s.l $fa0, $fa1" = some [0x46a07320#32] := by decide +kernel
example : asm c!"cvt.s.w $fa0, $fa1" = some [0x46807320#32] := by decide +kernel
example : asm c!"cvt.w.d $fa0, $fa1" = some [0x46207324#32] := by decide +kernel
example : asm c!"cvt.w.s $fa0, $fa1" = some [0x46007324#32] := by decide +kernel
example : asm c!"div.s $fa0, $fa1, $ft0" = some [0x46047303#32] := by decide +kernel
example : asm c!"div.d $fa0, $fa1, $ft0" = some [0x46247303#32] := by decide +kernel
example : asm c!"floor.l.s $fa0, $fa1" = some [0x4600730b#32] := by decide +kernel
example : asm c!"floor.l.d $fa0, $fa1" = some [0x4620730b#32] := by decide +kernel
example : asm c!"floor.w.s $fa0, $fa1" = some [0x4600730f#32] := by decide +kernel
example : asm c!"floor.w.d $fa0, $fa1" = some [0x4620730f#32] := by decide +kernel
example : asm c!"mul.s $fa0, $fa1, $ft0" = some [0x46047302#32] := by decide +kernel
example : asm c!"mul.d $fa0, $fa1, $ft0" = some [0x46247302#32] := by decide +kernel
example : asm c!"mov.s $fa0, $fa1" = some [0x46007306#32] := by decide +kernel
example : asm c!"mov.d $fa0, $fa1" = some [0x46207306#32] := by decide +kernel
example : asm c!"neg.s $fa0, $fa1" = some [0x46007307#32] := by decide +kernel
example : asm c!"neg.d $fa0, $fa1" = some [0x46207307#32] := by decide +kernel
example : asm c!"round.l.s $fa0, $fa1" = some [0x46007308#32] := by decide +kernel
example : asm c!"round.l.d $fa0, $fa1" = some [0x46207308#32] := by decide +kernel
example : asm c!"round.w.s $fa0, $fa1" = some [0x4600730c#32] := by decide +kernel
example : asm c!"round.w.d $fa0, $fa1" = some [0x4620730c#32] := by decide +kernel
example : asm c!"sqrt.s $fa0, $fa1" = some [0x46007304#32] := by decide +kernel
example : asm c!"sqrt.d $fa0, $fa1" = some [0x46207304#32] := by decide +kernel
example : asm c!"sub.s $fa0, $fa1, $ft0" = some [0x46047301#32] := by decide +kernel
example : asm c!"sub.d $fa0, $fa1, $ft0" = some [0x46247301#32] := by decide +kernel
example : asm c!"trunc.l.s $fa0, $fa1" = some [0x46007309#32] := by decide +kernel
example : asm c!"trunc.l.d $fa0, $fa1" = some [0x46207309#32] := by decide +kernel
example : asm c!"trunc.w.s $fa0, $fa1" = some [0x4600730d#32] := by decide +kernel
example : asm c!"trunc.w.d $fa0, $fa1" = some [0x4620730d#32] := by decide +kernel
example : dis 0x00a62020#32 = some [c!"add $a0, $a1, $a2"] := by decide +kernel
example : dis 0x20a40008#32 = some [c!"addi $a0, $a1, 0x8"] := by decide +kernel
example : dis 0x24a40008#32 = some [c!"addiu $a0, $a1, 0x8"] := by decide +kernel
example : dis 0x00a62021#32 = some [c!"addu $a0, $a1, $a2"] := by decide +kernel
example : dis 0x00a62024#32 = some [c!"and $a0, $a1, $a2"] := by decide +kernel
example : dis 0x30a40008#32 = some [c!"andi $a0, $a1, 0x8"] := by decide +kernel
example : dis 0x4100ffff#32 = some [c!"bc0f -0x1"] := by decide +kernel
example : dis 0x4500ffff#32 = some [c!"bc1f -0x1"] := by decide +kernel
example : dis 0x4102ffff#32 = some [c!"bc0fl -0x1"] := by decide +kernel
example : dis 0x4502ffff#32 = some [c!"bc1fl -0x1"] := by decide +kernel
example : dis 0x4101ffff#32 = some [c!"bc0t -0x1"] := by decide +kernel
example : dis 0x4501ffff#32 = some [c!"bc1t -0x1"] := by decide +kernel
example : dis 0x4103ffff#32 = some [c!"bc0tl -0x1"] := by decide +kernel
example : dis 0x4503ffff#32 = some [c!"bc1tl -0x1"] := by decide +kernel
example : dis 0x1085ffff#32 = some [c!"beq $a0, $a1, -0x1"] := by decide +kernel
example : dis 0x5085ffff#32 = some [c!"beql $a0, $a1, -0x1"] := by decide +kernel
example : dis 0x0481ffff#32 = some [c!"bgez $a0, -0x1"] := by decide +kernel
example : dis 0x0491ffff#32 = some [c!"bgezal $a0, -0x1"] := by decide +kernel
example : dis 0x0493ffff#32 = some [c!"bgezall $a0, -0x1"] := by decide +kernel
example : dis 0x0483ffff#32 = some [c!"bgezl $a0, -0x1"] := by decide +kernel
example : dis 0x1c80ffff#32 = some [c!"bgtz $a0, -0x1"] := by decide +kernel
example : dis 0x5c80ffff#32 = some [c!"bgtzl $a0, -0x1"] := by decide +kernel
example : dis 0x1880ffff#32 = some [c!"blez $a0, -0x1"] := by decide +kernel
example : dis 0x5880ffff#32 = some [c!"blezl $a0, -0x1"] := by decide +kernel
example : dis 0x0480ffff#32 = some [c!"bltz $a0, -0x1"] := by decide +kernel
example : dis 0x0490ffff#32 = some [c!"bltzal $a0, -0x1"] := by decide +kernel
example : dis 0x0492ffff#32 = some [c!"bltzall $a0, -0x1"] := by decide +kernel
example : dis 0x0482ffff#32 = some [c!"bltzl $a0, -0x1"] := by decide +kernel
example : dis 0x1485ffff#32 = some [c!"bne $a0, $a1, -0x1"] := by decide +kernel
example : dis 0x5485ffff#32 = some [c!"bnel $a0, $a1, -0x1"] := by decide +kernel
example : dis 0x0000000d#32 = some [c!"break"] := by decide +kernel
example : dis 0x0000080d#32 = some [c!"break 0x20"] := by decide +kernel
example : dis 0xbc940010#32 = some [c!"cache 0x14, 0x10($a0)"] := by decide +kernel
example : dis 0x40442000#32 = some [c!"cfc0 $a0, Context"] := by decide +kernel
example : dis 0x44447000#32 = some [c!"cfc1 $a0, $fa1"] := by decide +kernel
example : dis 0x40c42000#32 = some [c!"ctc0 $a0, Context"] := by decide +kernel
example : dis 0x44c47000#32 = some [c!"ctc1 $a0, $fa1"] := by decide +kernel
example : dis 0x00a6202c#32 = some [c!"dadd $a0, $a1, $a2"] := by decide +kernel
example : dis 0x60a40008#32 = some [c!"daddi $a0, $a1, 0x8"] := by decide +kernel
example : dis 0x64a40008#32 = some [c!"daddiu $a0, $a1, 0x8"] := by decide +kernel
example : dis 0x00a6202d#32 = some [c!"daddu $a0, $a1, $a2"] := by decide +kernel
example : dis 0x0085001e#32 = some [c!"ddiv $a0, $a1"] := by decide +kernel
example : dis 0x0085001f#32 = some [c!"ddivu $a0, $a1"] := by decide +kernel
example : dis 0x0085001a#32 = some [c!"div $a0, $a1"] := by decide +kernel
example : dis 0x0085001b#32 = some [c!"divu $a0, $a1"] := by decide +kernel
example : dis 0x40242000#32 = some [c!"dmfc0 $a0, Context"] := by decide +kernel
example : dis 0x44247000#32 = some [c!"dmfc1 $a0, $fa1"] := by decide +kernel
example : dis 0x0085001c#32 = some [c!"dmult $a0, $a1"] := by decide +kernel
example : dis 0x0085001d#32 = some [c!"dmultu $a0, $a1"] := by decide +kernel
example : dis 0x40a42000#32 = some [c!"dmtc0 $a0, Context"] := by decide +kernel
example : dis 0x44a47000#32 = some [c!"dmtc1 $a0, $fa1"] := by decide +kernel
example : dis 0x000527f8#32 = some [c!"dsll $a0, $a1, 0x1f"] := by decide +kernel
example : dis 0x000527fc#32 = some [c!"dsll32 $a0, $a1, 0x1f"] := by decide +kernel
example : dis 0x00c52014#32 = some [c!"dsllv $a0, $a1, $a2"] := by decide +kernel
example : dis 0x000527fb#32 = some [c!"dsra $a0, $a1, 0x1f"] := by decide +kernel
example : dis 0x000527ff#32 = some [c!"dsra32 $a0, $a1, 0x1f"] := by decide +kernel
example : dis 0x00c52017#32 = some [c!"dsrav $a0, $a1, $a2"] := by decide +kernel
example : dis 0x000527fa#32 = some [c!"dsrl $a0, $a1, 0x1f"] := by decide +kernel
example : dis 0x000527fe#32 = some [c!"dsrl32 $a0, $a1, 0x1f"] := by decide +kernel
example : dis 0x00c52016#32 = some [c!"dsrlv $a0, $a1, $a2"] := by decide +kernel
example : dis 0x00a6202e#32 = some [c!"dsub $a0, $a1, $a2"] := by decide +kernel
example : dis 0x00a6202f#32 = some [c!"dsubu $a0, $a1, $a2"] := by decide +kernel
example : dis 0x42000018#32 = some [c!"eret"] := by decide +kernel
example : dis 0x08000000#32 = some [c!"j 0x80000000"] := by decide +kernel
example : dis 0x0c000000#32 = some [c!"jal 0x80000000"] := by decide +kernel
example : dis 0x03e00008#32 = some [c!"jr $ra"] := by decide +kernel
example : dis 0x03e0f809#32 = some [c!"jalr $ra"] := by decide +kernel
example : dis 0x00a02009#32 = some [c!"jalr $a0, $a1"] := by decide +kernel
example : dis 0x80a40010#32 = some [c!"lb $a0, 0x10($a1)"] := by decide +kernel
example : dis 0x90a40010#32 = some [c!"lbu $a0, 0x10($a1)"] := by decide +kernel
example : dis 0xdca40010#32 = some [c!"ld $a0, 0x10($a1)"] := by decide +kernel
example : dis 0xd4840008#32 = some [c!"ldc1 $ft0, 0x8($a0)"] := by decide +kernel
example : dis 0x68a40010#32 = some [c!"ldl $a0, 0x10($a1)"] := by decide +kernel
example : dis 0x6ca40010#32 = some [c!"ldr $a0, 0x10($a1)"] := by decide +kernel
example : dis 0x84a40010#32 = some [c!"lh $a0, 0x10($a1)"] := by decide +kernel
example : dis 0x94a40010#32 = some [c!"lhu $a0, 0x10($a1)"] := by decide +kernel
example : dis 0xc0a40010#32 = some [c!"ll $a0, 0x10($a1)"] := by decide +kernel
example : dis 0xd0a40010#32 = some [c!"lld $a0, 0x10($a1)"] := by decide +kernel
example : dis 0xc4840008#32 = some [c!"lwc1 $ft0, 0x8($a0)"] := by decide +kernel
example : dis 0x9ca40010#32 = some [c!"lwu $a0, 0x10($a1)"] := by decide +kernel
example : dis 0x3c048000#32 = some [c!"lui $a0, 0x8000"] := by decide +kernel
example : dis 0x8ca40010#32 = some [c!"lw $a0, 0x10($a1)"] := by decide +kernel
example : dis 0x88a40010#32 = some [c!"lwl $a0, 0x10($a1)"] := by decide +kernel
example : dis 0x98a40010#32 = some [c!"lwr $a0, 0x10($a1)"] := by decide +kernel
example : dis 0x40042000#32 = some [c!"mfc0 $a0, Context"] := by decide +kernel
example : dis 0x44047000#32 = some [c!"mfc1 $a0, $fa1"] := by decide +kernel
example : dis 0x00002010#32 = some [c!"mfhi $a0"] := by decide +kernel
example : dis 0x00002012#32 = some [c!"mflo $a0"] := by decide +kernel
example : dis 0x00850018#32 = some [c!"mult $a0, $a1"] := by decide +kernel
example : dis 0x00850019#32 = some [c!"multu $a0, $a1"] := by decide +kernel
example : dis 0x40842000#32 = some [c!"mtc0 $a0, Context"] := by decide +kernel
example : dis 0x44847000#32 = some [c!"mtc1 $a0, $fa1"] := by decide +kernel
example : dis 0x00800011#32 = some [c!"mthi $a0"] := by decide +kernel
example : dis 0x00800013#32 = some [c!"mtlo $a0"] := by decide +kernel
example : dis 0x00a62027#32 = some [c!"nor $a0, $a1, $a2"] := by decide +kernel
example : dis 0x00a62025#32 = some [c!"or $a0, $a1, $a2"] := by decide +kernel
example : dis 0x34a40008#32 = some [c!"ori $a0, $a1, 0x8"] := by decide +kernel
example : dis 0xa0a40010#32 = some [c!"sb $a0, 0x10($a1)"] := by decide +kernel
example : dis 0xe0a40010#32 = some [c!"sc $a0, 0x10($a1)"] := by decide +kernel
example : dis 0xf0a40010#32 = some [c!"scd $a0, 0x10($a1)"] := by decide +kernel
example : dis 0xfca40010#32 = some [c!"sd $a0, 0x10($a1)"] := by decide +kernel
example : dis 0xf4840008#32 = some [c!"sdc1 $ft0, 0x8($a0)"] := by decide +kernel
example : dis 0xb0a40010#32 = some [c!"sdl $a0, 0x10($a1)"] := by decide +kernel
example : dis 0xb4a40010#32 = some [c!"sdr $a0, 0x10($a1)"] := by decide +kernel
example : dis 0xa4a40010#32 = some [c!"sh $a0, 0x10($a1)"] := by decide +kernel
example : dis 0x000527c0#32 = some [c!"sll $a0, $a1, 0x1f"] := by decide +kernel
example : dis 0x00c52004#32 = some [c!"sllv $a0, $a1, $a2"] := by decide +kernel
example : dis 0x00a6202a#32 = some [c!"slt $a0, $a1, $a2"] := by decide +kernel
example : dis 0x28a40008#32 = some [c!"slti $a0, $a1, 0x8"] := by decide +kernel
example : dis 0x2ca40008#32 = some [c!"sltiu $a0, $a1, 0x8"] := by decide +kernel
example : dis 0x00a6202b#32 = some [c!"sltu $a0, $a1, $a2"] := by decide +kernel
example : dis 0x000527c3#32 = some [c!"sra $a0, $a1, 0x1f"] := by decide +kernel
example : dis 0x00c52007#32 = some [c!"srav $a0, $a1, $a2"] := by decide +kernel
example : dis 0x000527c2#32 = some [c!"srl $a0, $a1, 0x1f"] := by decide +kernel
example : dis 0x00c52006#32 = some [c!"srlv $a0, $a1, $a2"] := by decide +kernel
example : dis 0x00a62022#32 = some [c!"sub $a0, $a1, $a2"] := by decide +kernel
example : dis 0x00a62023#32 = some [c!"subu $a0, $a1, $a2"] := by decide +kernel
example : dis 0xaca40010#32 = some [c!"sw $a0, 0x10($a1)"] := by decide +kernel
example : dis 0xe4840008#32 = some [c!"swc1 $ft0, 0x8($a0)"] := by decide +kernel
example : dis 0xa8a40010#32 = some [c!"swl $a0, 0x10($a1)"] := by decide +kernel
example : dis 0xb8a40010#32 = some [c!"swr $a0, 0x10($a1)"] := by decide +kernel
example : dis 0x0000000f#32 = some [c!"sync"] := by decide +kernel
example : dis 0x0000000c#32 = some [c!"syscall"] := by decide +kernel
example : dis 0x0000080c#32 = some [c!"syscall 0x20"] := by decide +kernel
example : dis 0x00850034#32 = some [c!"teq $a0, $a1"] := by decide +kernel
example : dis 0x048c0020#32 = some [c!"teqi $a0, 0x20"] := by decide +kernel
example : dis 0x00850030#32 = some [c!"tge $a0, $a1"] := by decide +kernel
example : dis 0x04880020#32 = some [c!"tgei $a0, 0x20"] := by decide +kernel
example : dis 0x04890020#32 = some [c!"tgeiu $a0, 0x20"] := by decide +kernel
example : dis 0x00850031#32 = some [c!"tgeu $a0, $a1"] := by decide +kernel
example : dis 0x42000008#32 = some [c!"tlbp"] := by decide +kernel
example : dis 0x42000001#32 = some [c!"tlbr"] := by decide +kernel
example : dis 0x42000002#32 = some [c!"tlbwi"] := by decide +kernel
example : dis 0x42000006#32 = some [c!"tlbwr"] := by decide +kernel
example : dis 0x00850032#32 = some [c!"tlt $a0, $a1"] := by decide +kernel
example : dis 0x048a0020#32 = some [c!"tlti $a0, 0x20"] := by decide +kernel
example : dis 0x048b0020#32 = some [c!"tltiu $a0, 0x20"] := by decide +kernel
example : dis 0x00850033#32 = some [c!"tltu $a0, $a1"] := by decide +kernel
example : dis 0x00850036#32 = some [c!"tne $a0, $a1"] := by decide +kernel
example : dis 0x048e0020#32 = some [c!"tnei $a0, 0x20"] := by decide +kernel
example : dis 0x00a62026#32 = some [c!"xor $a0, $a1, $a2"] := by decide +kernel
example : dis 0x38a40008#32 = some [c!"xori $a0, $a1, 0x8"] := by decide +kernel
example : dis 0x46007305#32 = some [c!"abs.s $fa0, $fa1"] := by decide +kernel
example : dis 0x46207305#32 = some [c!"abs.d $fa0, $fa1"] := by decide +kernel
example : dis 0x46047300#32 = some [c!"add.s $fa0, $fa1, $ft0"] := by decide +kernel
example : dis 0x46247300#32 = some [c!"add.d $fa0, $fa1, $ft0"] := by decide +kernel
example : dis 0x46047032#32 = some [c!"c.eq.s $fa1, $ft0"] := by decide +kernel
example : dis 0x46247032#32 = some [c!"c.eq.d $fa1, $ft0"] := by decide +kernel
example : dis 0x46047030#32 = some [c!"c.f.s $fa1, $ft0"] := by decide +kernel
example : dis 0x46247030#32 = some [c!"c.f.d $fa1, $ft0"] := by decide +kernel
example : dis 0x4604703e#32 = some [c!"c.le.s $fa1, $ft0"] := by decide +kernel
example : dis 0x4624703e#32 = some [c!"c.le.d $fa1, $ft0"] := by decide +kernel
example : dis 0x4604703c#32 = some [c!"c.lt.s $fa1, $ft0"] := by decide +kernel
example : dis 0x4624703c#32 = some [c!"c.lt.d $fa1, $ft0"] := by decide +kernel
example : dis 0x4604703d#32 = some [c!"c.nge.s $fa1, $ft0"] := by decide +kernel
example : dis 0x4624703d#32 = some [c!"c.nge.d $fa1, $ft0"] := by decide +kernel
example : dis 0x4604703b#32 = some [c!"c.ngl.s $fa1, $ft0"] := by decide +kernel
example : dis 0x4624703b#32 = some [c!"c.ngl.d $fa1, $ft0"] := by decide +kernel
example : dis 0x46047039#32 = some [c!"c.ngle.s $fa1, $ft0"] := by decide +kernel
example : dis 0x46247039#32 = some [c!"c.ngle.d $fa1, $ft0"] := by decide +kernel
example : dis 0x4604703f#32 = some [c!"c.ngt.s $fa1, $ft0"] := by decide +kernel
example : dis 0x4624703f#32 = some [c!"c.ngt.d $fa1, $ft0"] := by decide +kernel
example : dis 0x46047036#32 = some [c!"c.ole.s $fa1, $ft0"] := by decide +kernel
example : dis 0x46247036#32 = some [c!"c.ole.d $fa1, $ft0"] := by decide +kernel
example : dis 0x46047034#32 = some [c!"c.olt.s $fa1, $ft0"] := by decide +kernel
example : dis 0x46247034#32 = some [c!"c.olt.d $fa1, $ft0"] := by decide +kernel
example : dis 0x4604703a#32 = some [c!"c.seq.s $fa1, $ft0"] := by decide +kernel
example : dis 0x4624703a#32 = some [c!"c.seq.d $fa1, $ft0"] := by decide +kernel
example : dis 0x46047038#32 = some [c!"c.sf.s $fa1, $ft0"] := by decide +kernel
example : dis 0x46247038#32 = some [c!"c.sf.d $fa1, $ft0"] := by decide +kernel
example : dis 0x46047033#32 = some [c!"c.ueq.s $fa1, $ft0"] := by decide +kernel
example : dis 0x46247033#32 = some [c!"c.ueq.d $fa1, $ft0"] := by decide +kernel
example : dis 0x46047037#32 = some [c!"c.ule.s $fa1, $ft0"] := by decide +kernel
example : dis 0x46247037#32 = some [c!"c.ule.d $fa1, $ft0"] := by decide +kernel
example : dis 0x46047035#32 = some [c!"c.ult.s $fa1, $ft0"] := by decide +kernel
example : dis 0x46247035#32 = some [c!"c.ult.d $fa1, $ft0"] := by decide +kernel
example : dis 0x46047031#32 = some [c!"c.un.s $fa1, $ft0"] := by decide +kernel
example : dis 0x46247031#32 = some [c!"c.un.d $fa1, $ft0"] := by decide +kernel
example : dis 0x4600730a#32 = some [c!"ceil.l.s $fa0, $fa1"] := by decide +kernel
example : dis 0x4620730a#32 = some [c!"ceil.l.d $fa0, $fa1"] := by decide +kernel
example : dis 0x4600730e#32 = some [c!"ceil.w.s $fa0, $fa1"] := by decide +kernel
example : dis 0x4620730e#32 = some [c!"ceil.w.d $fa0, $fa1"] := by decide +kernel
example : dis 0x46a07321#32 = some [c!"cvt.d.l $fa0, $fa1"] := by decide +kernel
example : dis 0x46007321#32 = some [c!"cvt.d.s $fa0, $fa1"] := by decide +kernel
example : dis 0x46807321#32 = some [c!"cvt.d.w $fa0, $fa1"] := by decide +kernel
example : dis 0x46207325#32 = some [c!"cvt.l.d $fa0, $fa1"] := by decide +kernel
example : dis 0x46007325#32 = some [c!"cvt.l.s $fa0, $fa1"] := by decide +kernel
example : dis 0x46207320#32 = some [c!"cvt.s.d $fa0, $fa1"] := by decide +kernel
example : dis 0x46a07320#32 = some [c!"cvt.s.l $fa0, $fa1"] := by decide +kernel
example : dis 0x46807320#32 = some [c!"cvt.s.w $fa0, $fa1"] := by decide +kernel
example : dis 0x46207324#32 = some [c!"cvt.w.d $fa0, $fa1"] := by decide +kernel
example : dis 0x46007324#32 = some [c!"cvt.w.s $fa0, $fa1"] := by decide +kernel
example : dis 0x46047303#32 = some [c!"div.s $fa0, $fa1, $ft0"] := by decide +kernel
example : dis 0x46247303#32 = some [c!"div.d $fa0, $fa1, $ft0"] := by decide +kernel
example : dis 0x4600730b#32 = some [c!"floor.l.s $fa0, $fa1"] := by decide +kernel
example : dis 0x4620730b#32 = some [c!"floor.l.d $fa0, $fa1"] := by decide +kernel
example : dis 0x4600730f#32 = some [c!"floor.w.s $fa0, $fa1"] := by decide +kernel
example : dis 0x4620730f#32 = some [c!"floor.w.d $fa0, $fa1"] := by decide +kernel
example : dis 0x46047302#32 = some [c!"mul.s $fa0, $fa1, $ft0"] := by decide +kernel
example : dis 0x46247302#32 = some [c!"mul.d $fa0, $fa1, $ft0"] := by decide +kernel
example : dis 0x46007306#32 = some [c!"mov.s $fa0, $fa1"] := by decide +kernel
example : dis 0x46207306#32 = some [c!"mov.d $fa0, $fa1"] := by decide +kernel
example : dis 0x46007307#32 = some [c!"neg.s $fa0, $fa1"] := by decide +kernel
example : dis 0x46207307#32 = some [c!"neg.d $fa0, $fa1"] := by decide +kernel
example : dis 0x46007308#32 = some [c!"round.l.s $fa0, $fa1"] := by decide +kernel
example : dis 0x46207308#32 = some [c!"round.l.d $fa0, $fa1"] := by decide +kernel
example : dis 0x4600730c#32 = some [c!"round.w.s $fa0, $fa1"] := by decide +kernel
example : dis 0x4620730c#32 = some [c!"round.w.d $fa0, $fa1"] := by decide +kernel
example : dis 0x46007304#32 = some [c!"sqrt.s $fa0, $fa1"] := by decide +kernel
example : dis 0x46207304#32 = some [c!"sqrt.d $fa0, $fa1"] := by decide +kernel
example : dis 0x46047301#32 = some [c!"sub.s $fa0, $fa1, $ft0"] := by decide +kernel
example : dis 0x46247301#32 = some [c!"sub.d $fa0, $fa1, $ft0"] := by decide +kernel
example : dis 0x46007309#32 = some [c!"trunc.l.s $fa0, $fa1"] := by decide +kernel
example : dis 0x46207309#32 = some [c!"trunc.l.d $fa0, $fa1"] := by decide +kernel
example : dis 0x4600730d#32 = some [c!"trunc.w.s $fa0, $fa1"] := by decide +kernel
example : dis 0x4620730d#32 = some [c!"trunc.w.d $fa0, $fa1"] := by decide +kernel

end Mips.Tests
