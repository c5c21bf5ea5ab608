#!/usr/bin/env python3
# Generates lean/Verif/Lemmas/ExecL.lean: decode+execute lemmas for the instructions pseudo-instructions expand to.
import os
out=['''/- GENERATED by tools/gen_exec.py.
Decoding and executing the machine words that pseudo-instructions expand to. -/
import Verif.Lemmas.Bits
import Verif.Spec.Machine

namespace Mips
open Isa Machine

theorem dec_special {fn : BitVec 6} {r : Row} (h : (table.find? fun r => decide (r.code = Code.special fn)) = some r)
    (rs rt rd sa : BitVec 5) :
    decoding (rWord 0 rs rt rd sa fn) = some (r.mn, argsOf (rWord 0 rs rt rd sa fn) r.syn) := by
  have hc : codeOf (rWord 0 rs rt rd sa fn) = Code.special fn := by
    unfold codeOf; rw [fOp_r, if_pos (show (0 : BitVec 6) = 0#6 from rfl), fFn_r]
  unfold decoding
  rw [hc, h]; rfl

theorem dec_main {op : BitVec 6} {r : Row} (h0 : op ≠ 0#6) (h1 : op ≠ 1#6) (h2 : op ≠ copOp 0) (h3 : op ≠ copOp 1)
    (h : (table.find? fun r => decide (r.code = Code.main op)) = some r) (rs rt : BitVec 5) (v : BitVec 16) :
    decoding (iWord op rs rt v) = some (r.mn, argsOf (iWord op rs rt v) r.syn) := by
  unfold decoding codeOf
  simp only [fOp_i, if_neg h0, if_neg h1, if_neg h2, if_neg h3]
  rw [h]; rfl
''']
spec=dict(sll=0,srl=2,sra=3,sllv=4,srlv=6,srav=7,mfhi=16,mthi=17,mflo=18,mtlo=19,dsllv=20,dsrlv=22,dsrav=23,mult=24,multu=25,div=26,divu=27,dmult=28,dmultu=29,ddiv=30,ddivu=31,
 add=32,addu=33,sub=34,subu=35,**{'and':36,'or':37},xor=38,nor=39,slt=42,sltu=43,dadd=44,daddu=45,dsub=46,dsubu=47,tge=48,tgeu=49,tlt=50,tltu=51,teq=52,tne=54,dsll=56,dsrl=58,dsra=59,dsll32=60,dsrl32=62,dsra32=63)
syn={}
for k in 'add addu sub subu and or xor nor slt sltu dadd daddu dsub dsubu'.split(): syn[k]=('rdRsRt','[.gpr rd, .gpr rs, .gpr rt]')
for k in 'sll srl sra dsll dsrl dsra dsll32 dsrl32 dsra32'.split(): syn[k]=('rdRtSa','[.gpr rd, .gpr rt, .sa sa]')
for k in 'sllv srlv srav dsllv dsrlv dsrav'.split(): syn[k]=('rdRtRs','[.gpr rd, .gpr rt, .gpr rs]')
for k in 'mult multu dmult dmultu div divu ddiv ddivu teq tne tge tgeu tlt tltu'.split(): syn[k]=('rsRt','[.gpr rs, .gpr rt]')
for k in 'mfhi mflo'.split(): syn[k]=('rd','[.gpr rd]')
for k in 'mthi mtlo'.split(): syn[k]=('rs','[.gpr rs]')
for k,c in spec.items():
    s,a=syn[k]
    out.append(f'''theorem dec_{k} (rs rt rd sa : BitVec 5) : decoding (rWord 0 rs rt rd sa {c}#6) = some (c!"{k}", {a}) := by
  rw [dec_special (r := ⟨c!"{k}", .{s}, .special {c}⟩) (by decide +kernel)]; simp [argsOf]''')
main=dict(beq=4,bne=5,beql=20,bnel=21,addi=8,addiu=9,slti=10,sltiu=11,andi=12,ori=13,xori=14,lui=15,daddi=24,daddiu=25)
ms={}
for k in 'beq bne beql bnel'.split(): ms[k]=('rsRtOff','[.gpr rs, .gpr rt, .off v]')
for k in 'addi addiu slti sltiu daddi daddiu'.split(): ms[k]=('rtRsSimm','[.gpr rt, .gpr rs, .simm v]')
for k in 'andi ori xori'.split(): ms[k]=('rtRsUimm','[.gpr rt, .gpr rs, .uimm v]')
ms['lui']=('rtUimm','[.gpr rt, .uimm v]')
for k,c in main.items():
    s,a=ms[k]
    out.append(f'''theorem dec_{k} (rs rt : BitVec 5) (v : BitVec 16) : decoding (iWord {c}#6 rs rt v) = some (c!"{k}", {a}) := by
  rw [dec_main (r := ⟨c!"{k}", .{s}, .main {c}⟩) (by decide) (by decide) (by decide) (by decide) (by decide +kernel)]; simp [argsOf]''')
out.append('''
/-! ### the register file -/

@[simp] theorem get_zero (s : Cpu) : s.get 0 = 0 := rfl
theorem get_set (s : Cpu) (r q : BitVec 5) (v : W64) : (s.set r v).get q = if q = r ∧ r ≠ 0 then v else s.get q := by
  unfold Cpu.get Cpu.set
  by_cases h : r = 0
  · have : ¬ (q = r ∧ r ≠ 0) := fun hh => hh.2 h
    simp only [if_pos h, if_neg this]
  · by_cases hq : q = r
    · have h2 : q = r ∧ r ≠ 0 := ⟨hq, h⟩
      have h3 : ¬ q = 0 := by rw [hq]; exact h
      simp only [if_neg h, if_neg h3, if_pos h2, if_pos hq]
    · have : ¬ (q = r ∧ r ≠ 0) := fun hh => hq hh.1
      simp only [if_neg h, if_neg this, if_neg hq]
theorem get_set_self (s : Cpu) {r : BitVec 5} (v : W64) (h : r ≠ 0) : (s.set r v).get r = v := by rw [get_set, if_pos ⟨rfl, h⟩]
theorem get_set_ne (s : Cpu) {r q : BitVec 5} (v : W64) (h : q ≠ r) : (s.set r v).get q = s.get q := by rw [get_set, if_neg (fun hh => h hh.1)]
@[simp] theorem get_next (s : Cpu) (q : BitVec 5) : s.next.get q = s.get q := rfl
@[simp] theorem next_pc (s : Cpu) : s.next.pc = s.npc := rfl
@[simp] theorem next_npc (s : Cpu) : s.next.npc = s.npc + 1 := rfl
@[simp] theorem next_hi (s : Cpu) : s.next.hi = s.hi := rfl
@[simp] theorem next_lo (s : Cpu) : s.next.lo = s.lo := rfl
@[simp] theorem set_pc (s : Cpu) (r : BitVec 5) (v : W64) : (s.set r v).pc = s.pc := by unfold Cpu.set; split <;> rfl
@[simp] theorem set_npc (s : Cpu) (r : BitVec 5) (v : W64) : (s.set r v).npc = s.npc := by unfold Cpu.set; split <;> rfl
@[simp] theorem set_hi (s : Cpu) (r : BitVec 5) (v : W64) : (s.set r v).hi = s.hi := by unfold Cpu.set; split <;> rfl
@[simp] theorem set_lo (s : Cpu) (r : BitVec 5) (v : W64) : (s.set r v).lo = s.lo := by unfold Cpu.set; split <;> rfl

/-- One step of a run. -/
theorem run_step {ws : List W32} {n k : Nat} {s : Cpu} {w : W32} {mn : Str} {args : List Arg} (hpc : s.pc = (k : Int))
    (hw : ws[k]? = some w) (hd : decoding w = some (mn, args)) :
    run ws (n + 1) s = match exec s mn args with | .next s' => run ws n s' | .trap => .trap | .undef => .undef := by
  have h0 : ¬ s.pc < 0 := by rw [hpc]; omega
  have h1 : s.pc.toNat = k := by rw [hpc]; rfl
  rw [run]
  simp only [if_neg h0, h1, hw, hd]
  cases exec s mn args <;> rfl

theorem run_end {ws : List W32} {n k : Nat} {s : Cpu} (hpc : s.pc = (k : Int)) (hk : ws.length ≤ k) : run ws (n + 1) s = .done s := by
  unfold run
  rw [if_neg (by rw [hpc]; omega), show s.pc.toNat = k by rw [hpc]; rfl, List.getElem?_eq_none hk]

theorem run_next {ws : List W32} {n k : Nat} {s s' : Cpu} {w : W32} {mn : Str} {args : List Arg} (hpc : s.pc = (k : Int))
    (hw : ws[k]? = some w) (hd : decoding w = some (mn, args)) (he : exec s mn args = .next s') :
    run ws (n + 1) s = run ws n s' := by rw [run_step hpc hw hd, he]

theorem run_trap {ws : List W32} {n k : Nat} {s : Cpu} {w : W32} {mn : Str} {args : List Arg} (hpc : s.pc = (k : Int))
    (hw : ws[k]? = some w) (hd : decoding w = some (mn, args)) (he : exec s mn args = .trap) :
    run ws (n + 1) s = .trap := by rw [run_step hpc hw hd, he]

end Mips''')
open('/verif/lean/Verif/Lemmas/ExecL.lean','w').write('\n'.join(out)+'\n')
