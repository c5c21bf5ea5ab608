/-
**C19** at the two offsets that Props/CmpBranch leaves out: 0 and -32768.
-/
import Verif.Props.CmpBranch

namespace Mips
open Isa Machine Syntax Source Branch Pseudo

theorem cmp_zero : ∀ e ∈ cmpTable, ∀ (ovf : Bool) (r q : BitVec 5) (b : List Word),
    encode ovf (.imm e.2.1 (brRs [r, q]) (brRt [r, q]) (.short 0) b) =
      if ovf then none else some [rWord 0 (if e.2.2.2.2.2 then q else r) (if e.2.2.2.2.2 then r else q) 1 0 (if e.2.2.1 then 43 else 42), 0xffffffff#32] := by
  have hh : ∀ x : BitVec 32, x ||| 0xffffffff#32 = 0xffffffff#32 := fun x => BitVec.or_allOnes
  simp only [cmpTable, List.forall_mem_cons]
  repeat' apply And.intro
  all_goals first
    | (intro ovf r q b
       cases ovf <;>
       simp [encode_imm, brRs, brRt, encI, num_toFin, subOne, rWord_or, BitVec.or_assoc, hh]; done)
    | simp

/-- **C19**, every offset: in an accepted program, a compare-and-branch line is stored with a 16-bit offset `v` and two words.
* `v` neither 0 nor -32768: the words branch exactly if the comparison holds, to the word `v` words after the comparison;
* `v` = -32768: they branch exactly if the comparison holds, but **forwards**, to the word 32768 words after the comparison;
* `v` = 0: only without overflow checks (with them the assembler panics), and the second word is no branch but 0xFFFFFFFF,
  `sd $ra, -1($ra)`. -/
theorem C19_exact [Unicode] (rt : Rt) (m : Mipsasm) (text : Str) (is : List Instruction) (warns : List ParserWarning)
    (h : assemble rt m text = .ok is warns) (k : Nat) (t mn : Str) (r q : BitVec 5) (likely : Bool) (f : W64 → W64 → Bool)
    (hb : BranchAt (lines text) k mn [r, q] t) (hf : (mn, likely, f) ∈ cmpOps) :
    ∃ (op : ITypeOp) (v : BitVec 16) (ws : List Word),
      is[codeCount ((lines text).take k)]? = some (.imm op r.toFin q.toFin (.short v) ws) ∧ op.name = mn ∧ ws.length = 2 ∧
      (v.toInt ≠ 0 → ∀ s : Cpu, s.Entry → BranchesIf ws s likely (f (s.get r) (s.get q)) (1 + if v.toInt = -32768 then 32768 else v.toInt)) ∧
      (v.toInt = 0 → rt.ovf = false ∧ ws[1]? = some 0xffffffff#32 ∧ decoding 0xffffffff#32 = some (c!"sd", [.gpr 31, .mem (-1) 31])) := by
  obtain ⟨tr, x, op, im, v, ws, _, _, _, _, _, h1, h2, h3⟩ := cmp_line h hb hf
  refine ⟨op, v, ws, h1, h2, ?_⟩
  have hv0 : v.toInt = 0 ↔ v = 0 := ⟨fun e => BitVec.eq_of_toInt_eq e, fun e => e ▸ rfl⟩
  by_cases h0 : v = 0
  · have key : rt.ovf = false ∧ ws.length = 2 ∧ ws[1]? = some 0xffffffff#32 := by
      subst h0
      obtain ⟨raw, hk, hc, hb⟩ := hb
      obtain ⟨tr, x, ws', p, a, b, hT, he, hx, hat, ho, hp, ha, hb', hab, hi, hlen⟩ := line_done h hk hc
      obtain ⟨e, hem, rfl, rfl, hop, hsem⟩ := cmp_ops hf
      have hpar := br_parse x hb hop rfl
      rw [hp] at hpar
      cases him : parseImm x .u32 t with
      | err e => rw [him] at hpar; cases hpar
      | panic => rw [him] at hpar; cases hpar
      | ok im =>
        rw [him] at hpar
        simp only [Res.bind, Res.ok.injEq] at hpar
        subst hpar
        obtain ⟨v, rfl⟩ := adjust_short rfl (brOps_ok _ hop).2.2.1 (parseImm_u32 him) ha
        simp only [assembleInst, hb', opt_bind, Option.bind_some, Instruction.pushBytes, List.nil_append, Option.some.injEq] at hab
        rw [h1, ← hab] at hi
        simp only [Option.some.injEq, Instruction.imm.injEq, Immediate.short.injEq] at hi
        obtain ⟨-, -, -, rfl, rfl⟩ := hi
        have hw := cmp_zero e hem rt.ovf r q []
        rw [hw] at hb'
        split at hb'
        · cases hb'
        · rename_i ho
          rw [← Option.some.inj hb']
          exact ⟨by simpa using ho, rfl, rfl⟩
    exact ⟨key.2.1, fun hn => absurd (hv0.2 h0) hn, fun _ => ⟨key.1, key.2.2, by decide +kernel⟩⟩
  · have hv : 2 + (v - 1).toInt = 1 + if v.toInt = -32768 then 32768 else v.toInt := by
      have hn0 : v.toNat ≠ 0 := fun e => h0 (BitVec.eq_of_toNat_eq e)
      have hl := v.isLt
      have h1 : (1 : BitVec 16).toNat = 1 := rfl
      rw [BitVec.toInt_eq_toNat_cond, BitVec.toInt_eq_toNat_cond, BitVec.toNat_sub, h1]
      split <;> split <;> split <;> omega
    exact ⟨(h3 h0 ⟨fun _ => 0, none, none, 0, 1⟩ ⟨rfl, rfl⟩).2, fun _ s hs => hv ▸ (h3 h0 s hs).1, fun e => absurd (hv0.1 e) h0⟩

/-- Non-vacuity: the offset 0 (first program), and an ordinary one (-2, second program).  The offset -32768 takes a label 32767 instructions above. -/
example : BranchAt (lines c!"a:\nblt $t0,$t1, @@x\n@@x:\nnop\nb:") 1 c!"blt" [8, 9] c!" @@x" :=
  ⟨c!"blt $t0,$t1, @@x", by decide +kernel, by decide +kernel,
    .r2 c!"blt" c!"blt" c!"$t0" c!"$t1" c!" @@x" 8 9 (by unfold SameName; decide) (reg_name c!"t0" 8 (by decide) (by unfold SameName; decide)) (reg_name c!"t1" 9 (by decide) (by unfold SameName; decide)) (by decide)⟩
example : (@assemble asciiUnicode (idRt false) Mipsasm.new c!"a:\nblt $t0,$t1, @@x\n@@x:\nnop\nb:").words = some [0x0109082a#32, 0xffffffff#32, 0#32] := by
  decide +kernel
example : (@assemble asciiUnicode (idRt true) Mipsasm.new c!"a:\nnop\nblt $t0,$t1, a").words = some [0#32, 0x0109082a#32, 0x1420fffd#32] := by
  decide +kernel

end Mips
