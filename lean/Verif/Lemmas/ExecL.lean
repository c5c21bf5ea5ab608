/- GENERATED by tools/gen_exec.py.
Decoding and executing the machine words that pseudo-instructions expand to. -/
import Verif.Lemmas.Bits
import Verif.Spec.Machine

namespace Mips
open Isa Machine

theorem dec_special {fn : BitVec 6} {r : Row} (h : (table.find? fun r => decide (r.code = Code.special fn)) = some r)
    (rs rt rd sa : BitVec 5) :
    decoding (rWord 0 rs rt rd sa fn) = some (r.mn, argsOf (rWord 0 rs rt rd sa fn) r.syn) := by
  have hc : codeOf (rWord 0 rs rt rd sa fn) = Code.special fn := by
    unfold codeOf; rw [fOp_r, if_pos (show (0 : BitVec 6) = 0#6 from rfl), fFn_r]
  unfold decoding
  rw [hc, h]; rfl

theorem dec_main {op : BitVec 6} {r : Row} (h0 : op ≠ 0#6) (h1 : op ≠ 1#6) (h2 : op ≠ copOp 0) (h3 : op ≠ copOp 1)
    (h : (table.find? fun r => decide (r.code = Code.main op)) = some r) (rs rt : BitVec 5) (v : BitVec 16) :
    decoding (iWord op rs rt v) = some (r.mn, argsOf (iWord op rs rt v) r.syn) := by
  unfold decoding codeOf
  simp only [fOp_i, if_neg h0, if_neg h1, if_neg h2, if_neg h3]
  rw [h]; rfl

theorem dec_sll (rs rt rd sa : BitVec 5) : decoding (rWord 0 rs rt rd sa 0#6) = some (c!"sll", [.gpr rd, .gpr rt, .sa sa]) := by
  rw [dec_special (r := ⟨c!"sll", .rdRtSa, .special 0⟩) (by decide +kernel)]; simp [argsOf]
theorem dec_srl (rs rt rd sa : BitVec 5) : decoding (rWord 0 rs rt rd sa 2#6) = some (c!"srl", [.gpr rd, .gpr rt, .sa sa]) := by
  rw [dec_special (r := ⟨c!"srl", .rdRtSa, .special 2⟩) (by decide +kernel)]; simp [argsOf]
theorem dec_sra (rs rt rd sa : BitVec 5) : decoding (rWord 0 rs rt rd sa 3#6) = some (c!"sra", [.gpr rd, .gpr rt, .sa sa]) := by
  rw [dec_special (r := ⟨c!"sra", .rdRtSa, .special 3⟩) (by decide +kernel)]; simp [argsOf]
theorem dec_sllv (rs rt rd sa : BitVec 5) : decoding (rWord 0 rs rt rd sa 4#6) = some (c!"sllv", [.gpr rd, .gpr rt, .gpr rs]) := by
  rw [dec_special (r := ⟨c!"sllv", .rdRtRs, .special 4⟩) (by decide +kernel)]; simp [argsOf]
theorem dec_srlv (rs rt rd sa : BitVec 5) : decoding (rWord 0 rs rt rd sa 6#6) = some (c!"srlv", [.gpr rd, .gpr rt, .gpr rs]) := by
  rw [dec_special (r := ⟨c!"srlv", .rdRtRs, .special 6⟩) (by decide +kernel)]; simp [argsOf]
theorem dec_srav (rs rt rd sa : BitVec 5) : decoding (rWord 0 rs rt rd sa 7#6) = some (c!"srav", [.gpr rd, .gpr rt, .gpr rs]) := by
  rw [dec_special (r := ⟨c!"srav", .rdRtRs, .special 7⟩) (by decide +kernel)]; simp [argsOf]
theorem dec_mfhi (rs rt rd sa : BitVec 5) : decoding (rWord 0 rs rt rd sa 16#6) = some (c!"mfhi", [.gpr rd]) := by
  rw [dec_special (r := ⟨c!"mfhi", .rd, .special 16⟩) (by decide +kernel)]; simp [argsOf]
theorem dec_mthi (rs rt rd sa : BitVec 5) : decoding (rWord 0 rs rt rd sa 17#6) = some (c!"mthi", [.gpr rs]) := by
  rw [dec_special (r := ⟨c!"mthi", .rs, .special 17⟩) (by decide +kernel)]; simp [argsOf]
theorem dec_mflo (rs rt rd sa : BitVec 5) : decoding (rWord 0 rs rt rd sa 18#6) = some (c!"mflo", [.gpr rd]) := by
  rw [dec_special (r := ⟨c!"mflo", .rd, .special 18⟩) (by decide +kernel)]; simp [argsOf]
theorem dec_mtlo (rs rt rd sa : BitVec 5) : decoding (rWord 0 rs rt rd sa 19#6) = some (c!"mtlo", [.gpr rs]) := by
  rw [dec_special (r := ⟨c!"mtlo", .rs, .special 19⟩) (by decide +kernel)]; simp [argsOf]
theorem dec_dsllv (rs rt rd sa : BitVec 5) : decoding (rWord 0 rs rt rd sa 20#6) = some (c!"dsllv", [.gpr rd, .gpr rt, .gpr rs]) := by
  rw [dec_special (r := ⟨c!"dsllv", .rdRtRs, .special 20⟩) (by decide +kernel)]; simp [argsOf]
theorem dec_dsrlv (rs rt rd sa : BitVec 5) : decoding (rWord 0 rs rt rd sa 22#6) = some (c!"dsrlv", [.gpr rd, .gpr rt, .gpr rs]) := by
  rw [dec_special (r := ⟨c!"dsrlv", .rdRtRs, .special 22⟩) (by decide +kernel)]; simp [argsOf]
theorem dec_dsrav (rs rt rd sa : BitVec 5) : decoding (rWord 0 rs rt rd sa 23#6) = some (c!"dsrav", [.gpr rd, .gpr rt, .gpr rs]) := by
  rw [dec_special (r := ⟨c!"dsrav", .rdRtRs, .special 23⟩) (by decide +kernel)]; simp [argsOf]
theorem dec_mult (rs rt rd sa : BitVec 5) : decoding (rWord 0 rs rt rd sa 24#6) = some (c!"mult", [.gpr rs, .gpr rt]) := by
  rw [dec_special (r := ⟨c!"mult", .rsRt, .special 24⟩) (by decide +kernel)]; simp [argsOf]
theorem dec_multu (rs rt rd sa : BitVec 5) : decoding (rWord 0 rs rt rd sa 25#6) = some (c!"multu", [.gpr rs, .gpr rt]) := by
  rw [dec_special (r := ⟨c!"multu", .rsRt, .special 25⟩) (by decide +kernel)]; simp [argsOf]
theorem dec_div (rs rt rd sa : BitVec 5) : decoding (rWord 0 rs rt rd sa 26#6) = some (c!"div", [.gpr rs, .gpr rt]) := by
  rw [dec_special (r := ⟨c!"div", .rsRt, .special 26⟩) (by decide +kernel)]; simp [argsOf]
theorem dec_divu (rs rt rd sa : BitVec 5) : decoding (rWord 0 rs rt rd sa 27#6) = some (c!"divu", [.gpr rs, .gpr rt]) := by
  rw [dec_special (r := ⟨c!"divu", .rsRt, .special 27⟩) (by decide +kernel)]; simp [argsOf]
theorem dec_dmult (rs rt rd sa : BitVec 5) : decoding (rWord 0 rs rt rd sa 28#6) = some (c!"dmult", [.gpr rs, .gpr rt]) := by
  rw [dec_special (r := ⟨c!"dmult", .rsRt, .special 28⟩) (by decide +kernel)]; simp [argsOf]
theorem dec_dmultu (rs rt rd sa : BitVec 5) : decoding (rWord 0 rs rt rd sa 29#6) = some (c!"dmultu", [.gpr rs, .gpr rt]) := by
  rw [dec_special (r := ⟨c!"dmultu", .rsRt, .special 29⟩) (by decide +kernel)]; simp [argsOf]
theorem dec_ddiv (rs rt rd sa : BitVec 5) : decoding (rWord 0 rs rt rd sa 30#6) = some (c!"ddiv", [.gpr rs, .gpr rt]) := by
  rw [dec_special (r := ⟨c!"ddiv", .rsRt, .special 30⟩) (by decide +kernel)]; simp [argsOf]
theorem dec_ddivu (rs rt rd sa : BitVec 5) : decoding (rWord 0 rs rt rd sa 31#6) = some (c!"ddivu", [.gpr rs, .gpr rt]) := by
  rw [dec_special (r := ⟨c!"ddivu", .rsRt, .special 31⟩) (by decide +kernel)]; simp [argsOf]
theorem dec_add (rs rt rd sa : BitVec 5) : decoding (rWord 0 rs rt rd sa 32#6) = some (c!"add", [.gpr rd, .gpr rs, .gpr rt]) := by
  rw [dec_special (r := ⟨c!"add", .rdRsRt, .special 32⟩) (by decide +kernel)]; simp [argsOf]
theorem dec_addu (rs rt rd sa : BitVec 5) : decoding (rWord 0 rs rt rd sa 33#6) = some (c!"addu", [.gpr rd, .gpr rs, .gpr rt]) := by
  rw [dec_special (r := ⟨c!"addu", .rdRsRt, .special 33⟩) (by decide +kernel)]; simp [argsOf]
theorem dec_sub (rs rt rd sa : BitVec 5) : decoding (rWord 0 rs rt rd sa 34#6) = some (c!"sub", [.gpr rd, .gpr rs, .gpr rt]) := by
  rw [dec_special (r := ⟨c!"sub", .rdRsRt, .special 34⟩) (by decide +kernel)]; simp [argsOf]
theorem dec_subu (rs rt rd sa : BitVec 5) : decoding (rWord 0 rs rt rd sa 35#6) = some (c!"subu", [.gpr rd, .gpr rs, .gpr rt]) := by
  rw [dec_special (r := ⟨c!"subu", .rdRsRt, .special 35⟩) (by decide +kernel)]; simp [argsOf]
theorem dec_and (rs rt rd sa : BitVec 5) : decoding (rWord 0 rs rt rd sa 36#6) = some (c!"and", [.gpr rd, .gpr rs, .gpr rt]) := by
  rw [dec_special (r := ⟨c!"and", .rdRsRt, .special 36⟩) (by decide +kernel)]; simp [argsOf]
theorem dec_or (rs rt rd sa : BitVec 5) : decoding (rWord 0 rs rt rd sa 37#6) = some (c!"or", [.gpr rd, .gpr rs, .gpr rt]) := by
  rw [dec_special (r := ⟨c!"or", .rdRsRt, .special 37⟩) (by decide +kernel)]; simp [argsOf]
theorem dec_xor (rs rt rd sa : BitVec 5) : decoding (rWord 0 rs rt rd sa 38#6) = some (c!"xor", [.gpr rd, .gpr rs, .gpr rt]) := by
  rw [dec_special (r := ⟨c!"xor", .rdRsRt, .special 38⟩) (by decide +kernel)]; simp [argsOf]
theorem dec_nor (rs rt rd sa : BitVec 5) : decoding (rWord 0 rs rt rd sa 39#6) = some (c!"nor", [.gpr rd, .gpr rs, .gpr rt]) := by
  rw [dec_special (r := ⟨c!"nor", .rdRsRt, .special 39⟩) (by decide +kernel)]; simp [argsOf]
theorem dec_slt (rs rt rd sa : BitVec 5) : decoding (rWord 0 rs rt rd sa 42#6) = some (c!"slt", [.gpr rd, .gpr rs, .gpr rt]) := by
  rw [dec_special (r := ⟨c!"slt", .rdRsRt, .special 42⟩) (by decide +kernel)]; simp [argsOf]
theorem dec_sltu (rs rt rd sa : BitVec 5) : decoding (rWord 0 rs rt rd sa 43#6) = some (c!"sltu", [.gpr rd, .gpr rs, .gpr rt]) := by
  rw [dec_special (r := ⟨c!"sltu", .rdRsRt, .special 43⟩) (by decide +kernel)]; simp [argsOf]
theorem dec_dadd (rs rt rd sa : BitVec 5) : decoding (rWord 0 rs rt rd sa 44#6) = some (c!"dadd", [.gpr rd, .gpr rs, .gpr rt]) := by
  rw [dec_special (r := ⟨c!"dadd", .rdRsRt, .special 44⟩) (by decide +kernel)]; simp [argsOf]
theorem dec_daddu (rs rt rd sa : BitVec 5) : decoding (rWord 0 rs rt rd sa 45#6) = some (c!"daddu", [.gpr rd, .gpr rs, .gpr rt]) := by
  rw [dec_special (r := ⟨c!"daddu", .rdRsRt, .special 45⟩) (by decide +kernel)]; simp [argsOf]
theorem dec_dsub (rs rt rd sa : BitVec 5) : decoding (rWord 0 rs rt rd sa 46#6) = some (c!"dsub", [.gpr rd, .gpr rs, .gpr rt]) := by
  rw [dec_special (r := ⟨c!"dsub", .rdRsRt, .special 46⟩) (by decide +kernel)]; simp [argsOf]
theorem dec_dsubu (rs rt rd sa : BitVec 5) : decoding (rWord 0 rs rt rd sa 47#6) = some (c!"dsubu", [.gpr rd, .gpr rs, .gpr rt]) := by
  rw [dec_special (r := ⟨c!"dsubu", .rdRsRt, .special 47⟩) (by decide +kernel)]; simp [argsOf]
theorem dec_tge (rs rt rd sa : BitVec 5) : decoding (rWord 0 rs rt rd sa 48#6) = some (c!"tge", [.gpr rs, .gpr rt]) := by
  rw [dec_special (r := ⟨c!"tge", .rsRt, .special 48⟩) (by decide +kernel)]; simp [argsOf]
theorem dec_tgeu (rs rt rd sa : BitVec 5) : decoding (rWord 0 rs rt rd sa 49#6) = some (c!"tgeu", [.gpr rs, .gpr rt]) := by
  rw [dec_special (r := ⟨c!"tgeu", .rsRt, .special 49⟩) (by decide +kernel)]; simp [argsOf]
theorem dec_tlt (rs rt rd sa : BitVec 5) : decoding (rWord 0 rs rt rd sa 50#6) = some (c!"tlt", [.gpr rs, .gpr rt]) := by
  rw [dec_special (r := ⟨c!"tlt", .rsRt, .special 50⟩) (by decide +kernel)]; simp [argsOf]
theorem dec_tltu (rs rt rd sa : BitVec 5) : decoding (rWord 0 rs rt rd sa 51#6) = some (c!"tltu", [.gpr rs, .gpr rt]) := by
  rw [dec_special (r := ⟨c!"tltu", .rsRt, .special 51⟩) (by decide +kernel)]; simp [argsOf]
theorem dec_teq (rs rt rd sa : BitVec 5) : decoding (rWord 0 rs rt rd sa 52#6) = some (c!"teq", [.gpr rs, .gpr rt]) := by
  rw [dec_special (r := ⟨c!"teq", .rsRt, .special 52⟩) (by decide +kernel)]; simp [argsOf]
theorem dec_tne (rs rt rd sa : BitVec 5) : decoding (rWord 0 rs rt rd sa 54#6) = some (c!"tne", [.gpr rs, .gpr rt]) := by
  rw [dec_special (r := ⟨c!"tne", .rsRt, .special 54⟩) (by decide +kernel)]; simp [argsOf]
theorem dec_dsll (rs rt rd sa : BitVec 5) : decoding (rWord 0 rs rt rd sa 56#6) = some (c!"dsll", [.gpr rd, .gpr rt, .sa sa]) := by
  rw [dec_special (r := ⟨c!"dsll", .rdRtSa, .special 56⟩) (by decide +kernel)]; simp [argsOf]
theorem dec_dsrl (rs rt rd sa : BitVec 5) : decoding (rWord 0 rs rt rd sa 58#6) = some (c!"dsrl", [.gpr rd, .gpr rt, .sa sa]) := by
  rw [dec_special (r := ⟨c!"dsrl", .rdRtSa, .special 58⟩) (by decide +kernel)]; simp [argsOf]
theorem dec_dsra (rs rt rd sa : BitVec 5) : decoding (rWord 0 rs rt rd sa 59#6) = some (c!"dsra", [.gpr rd, .gpr rt, .sa sa]) := by
  rw [dec_special (r := ⟨c!"dsra", .rdRtSa, .special 59⟩) (by decide +kernel)]; simp [argsOf]
theorem dec_dsll32 (rs rt rd sa : BitVec 5) : decoding (rWord 0 rs rt rd sa 60#6) = some (c!"dsll32", [.gpr rd, .gpr rt, .sa sa]) := by
  rw [dec_special (r := ⟨c!"dsll32", .rdRtSa, .special 60⟩) (by decide +kernel)]; simp [argsOf]
theorem dec_dsrl32 (rs rt rd sa : BitVec 5) : decoding (rWord 0 rs rt rd sa 62#6) = some (c!"dsrl32", [.gpr rd, .gpr rt, .sa sa]) := by
  rw [dec_special (r := ⟨c!"dsrl32", .rdRtSa, .special 62⟩) (by decide +kernel)]; simp [argsOf]
theorem dec_dsra32 (rs rt rd sa : BitVec 5) : decoding (rWord 0 rs rt rd sa 63#6) = some (c!"dsra32", [.gpr rd, .gpr rt, .sa sa]) := by
  rw [dec_special (r := ⟨c!"dsra32", .rdRtSa, .special 63⟩) (by decide +kernel)]; simp [argsOf]
theorem dec_beq (rs rt : BitVec 5) (v : BitVec 16) : decoding (iWord 4#6 rs rt v) = some (c!"beq", [.gpr rs, .gpr rt, .off v]) := by
  rw [dec_main (r := ⟨c!"beq", .rsRtOff, .main 4⟩) (by decide) (by decide) (by decide) (by decide) (by decide +kernel)]; simp [argsOf]
theorem dec_bne (rs rt : BitVec 5) (v : BitVec 16) : decoding (iWord 5#6 rs rt v) = some (c!"bne", [.gpr rs, .gpr rt, .off v]) := by
  rw [dec_main (r := ⟨c!"bne", .rsRtOff, .main 5⟩) (by decide) (by decide) (by decide) (by decide) (by decide +kernel)]; simp [argsOf]
theorem dec_beql (rs rt : BitVec 5) (v : BitVec 16) : decoding (iWord 20#6 rs rt v) = some (c!"beql", [.gpr rs, .gpr rt, .off v]) := by
  rw [dec_main (r := ⟨c!"beql", .rsRtOff, .main 20⟩) (by decide) (by decide) (by decide) (by decide) (by decide +kernel)]; simp [argsOf]
theorem dec_bnel (rs rt : BitVec 5) (v : BitVec 16) : decoding (iWord 21#6 rs rt v) = some (c!"bnel", [.gpr rs, .gpr rt, .off v]) := by
  rw [dec_main (r := ⟨c!"bnel", .rsRtOff, .main 21⟩) (by decide) (by decide) (by decide) (by decide) (by decide +kernel)]; simp [argsOf]
theorem dec_addi (rs rt : BitVec 5) (v : BitVec 16) : decoding (iWord 8#6 rs rt v) = some (c!"addi", [.gpr rt, .gpr rs, .simm v]) := by
  rw [dec_main (r := ⟨c!"addi", .rtRsSimm, .main 8⟩) (by decide) (by decide) (by decide) (by decide) (by decide +kernel)]; simp [argsOf]
theorem dec_addiu (rs rt : BitVec 5) (v : BitVec 16) : decoding (iWord 9#6 rs rt v) = some (c!"addiu", [.gpr rt, .gpr rs, .simm v]) := by
  rw [dec_main (r := ⟨c!"addiu", .rtRsSimm, .main 9⟩) (by decide) (by decide) (by decide) (by decide) (by decide +kernel)]; simp [argsOf]
theorem dec_slti (rs rt : BitVec 5) (v : BitVec 16) : decoding (iWord 10#6 rs rt v) = some (c!"slti", [.gpr rt, .gpr rs, .simm v]) := by
  rw [dec_main (r := ⟨c!"slti", .rtRsSimm, .main 10⟩) (by decide) (by decide) (by decide) (by decide) (by decide +kernel)]; simp [argsOf]
theorem dec_sltiu (rs rt : BitVec 5) (v : BitVec 16) : decoding (iWord 11#6 rs rt v) = some (c!"sltiu", [.gpr rt, .gpr rs, .simm v]) := by
  rw [dec_main (r := ⟨c!"sltiu", .rtRsSimm, .main 11⟩) (by decide) (by decide) (by decide) (by decide) (by decide +kernel)]; simp [argsOf]
theorem dec_andi (rs rt : BitVec 5) (v : BitVec 16) : decoding (iWord 12#6 rs rt v) = some (c!"andi", [.gpr rt, .gpr rs, .uimm v]) := by
  rw [dec_main (r := ⟨c!"andi", .rtRsUimm, .main 12⟩) (by decide) (by decide) (by decide) (by decide) (by decide +kernel)]; simp [argsOf]
theorem dec_ori (rs rt : BitVec 5) (v : BitVec 16) : decoding (iWord 13#6 rs rt v) = some (c!"ori", [.gpr rt, .gpr rs, .uimm v]) := by
  rw [dec_main (r := ⟨c!"ori", .rtRsUimm, .main 13⟩) (by decide) (by decide) (by decide) (by decide) (by decide +kernel)]; simp [argsOf]
theorem dec_xori (rs rt : BitVec 5) (v : BitVec 16) : decoding (iWord 14#6 rs rt v) = some (c!"xori", [.gpr rt, .gpr rs, .uimm v]) := by
  rw [dec_main (r := ⟨c!"xori", .rtRsUimm, .main 14⟩) (by decide) (by decide) (by decide) (by decide) (by decide +kernel)]; simp [argsOf]
theorem dec_lui (rs rt : BitVec 5) (v : BitVec 16) : decoding (iWord 15#6 rs rt v) = some (c!"lui", [.gpr rt, .uimm v]) := by
  rw [dec_main (r := ⟨c!"lui", .rtUimm, .main 15⟩) (by decide) (by decide) (by decide) (by decide) (by decide +kernel)]; simp [argsOf]
theorem dec_daddi (rs rt : BitVec 5) (v : BitVec 16) : decoding (iWord 24#6 rs rt v) = some (c!"daddi", [.gpr rt, .gpr rs, .simm v]) := by
  rw [dec_main (r := ⟨c!"daddi", .rtRsSimm, .main 24⟩) (by decide) (by decide) (by decide) (by decide) (by decide +kernel)]; simp [argsOf]
theorem dec_daddiu (rs rt : BitVec 5) (v : BitVec 16) : decoding (iWord 25#6 rs rt v) = some (c!"daddiu", [.gpr rt, .gpr rs, .simm v]) := by
  rw [dec_main (r := ⟨c!"daddiu", .rtRsSimm, .main 25⟩) (by decide) (by decide) (by decide) (by decide) (by decide +kernel)]; simp [argsOf]

/-! ### the register file -/

@[simp] theorem get_zero (s : Cpu) : s.get 0 = 0 := rfl
theorem get_set (s : Cpu) (r q : BitVec 5) (v : W64) : (s.set r v).get q = if q = r ∧ r ≠ 0 then v else s.get q := by
  unfold Cpu.get Cpu.set
  by_cases h : r = 0
  · have : ¬ (q = r ∧ r ≠ 0) := fun hh => hh.2 h
    simp only [if_pos h, if_neg this]
  · by_cases hq : q = r
    · have h2 : q = r ∧ r ≠ 0 := ⟨hq, h⟩
      have h3 : ¬ q = 0 := by rw [hq]; exact h
      simp only [if_neg h, if_neg h3, if_pos h2, if_pos hq]
    · have : ¬ (q = r ∧ r ≠ 0) := fun hh => hq hh.1
      simp only [if_neg h, if_neg this, if_neg hq]
theorem get_set_self (s : Cpu) {r : BitVec 5} (v : W64) (h : r ≠ 0) : (s.set r v).get r = v := by rw [get_set, if_pos ⟨rfl, h⟩]
theorem get_set_ne (s : Cpu) {r q : BitVec 5} (v : W64) (h : q ≠ r) : (s.set r v).get q = s.get q := by rw [get_set, if_neg (fun hh => h hh.1)]
@[simp] theorem get_next (s : Cpu) (q : BitVec 5) : s.next.get q = s.get q := rfl
@[simp] theorem next_pc (s : Cpu) : s.next.pc = s.npc := rfl
@[simp] theorem next_npc (s : Cpu) : s.next.npc = s.npc + 1 := rfl
@[simp] theorem next_hi (s : Cpu) : s.next.hi = s.hi := rfl
@[simp] theorem next_lo (s : Cpu) : s.next.lo = s.lo := rfl
@[simp] theorem set_pc (s : Cpu) (r : BitVec 5) (v : W64) : (s.set r v).pc = s.pc := by unfold Cpu.set; split <;> rfl
@[simp] theorem set_npc (s : Cpu) (r : BitVec 5) (v : W64) : (s.set r v).npc = s.npc := by unfold Cpu.set; split <;> rfl
@[simp] theorem set_hi (s : Cpu) (r : BitVec 5) (v : W64) : (s.set r v).hi = s.hi := by unfold Cpu.set; split <;> rfl
@[simp] theorem set_lo (s : Cpu) (r : BitVec 5) (v : W64) : (s.set r v).lo = s.lo := by unfold Cpu.set; split <;> rfl

/-- One step of a run. -/
theorem run_step {ws : List W32} {n k : Nat} {s : Cpu} {w : W32} {mn : Str} {args : List Arg} (hpc : s.pc = (k : Int))
    (hw : ws[k]? = some w) (hd : decoding w = some (mn, args)) :
    run ws (n + 1) s = match exec s mn args with | .next s' => run ws n s' | .trap => .trap | .undef => .undef := by
  have h0 : ¬ s.pc < 0 := by rw [hpc]; omega
  have h1 : s.pc.toNat = k := by rw [hpc]; rfl
  rw [run]
  simp only [if_neg h0, h1, hw, hd]
  cases exec s mn args <;> rfl

theorem run_end {ws : List W32} {n k : Nat} {s : Cpu} (hpc : s.pc = (k : Int)) (hk : ws.length ≤ k) : run ws (n + 1) s = .done s := by
  unfold run
  rw [if_neg (by rw [hpc]; omega), show s.pc.toNat = k by rw [hpc]; rfl, List.getElem?_eq_none hk]

theorem run_next {ws : List W32} {n k : Nat} {s s' : Cpu} {w : W32} {mn : Str} {args : List Arg} (hpc : s.pc = (k : Int))
    (hw : ws[k]? = some w) (hd : decoding w = some (mn, args)) (he : exec s mn args = .next s') :
    run ws (n + 1) s = run ws n s' := by rw [run_step hpc hw hd, he]

theorem run_trap {ws : List W32} {n k : Nat} {s : Cpu} {w : W32} {mn : Str} {args : List Arg} (hpc : s.pc = (k : Int))
    (hw : ws[k]? = some w) (hd : decoding w = some (mn, args)) (he : exec s mn args = .trap) :
    run ws (n + 1) s = .trap := by rw [run_step hpc hw hd, he]

end Mips
