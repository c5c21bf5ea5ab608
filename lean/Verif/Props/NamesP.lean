/-
**C83** — the names of the targets of jumps come back in the listing.
-/
import Verif.Props.Jumps
import Verif.Props.Dis2
import Verif.Spec.Export

namespace Mips
open Isa Syntax Source Branch Listing

theorem jumpAddr_low (pc a : Word) : jumpAddr pc (index24 a) = a ↔ Low pc a := by
  have hidx : (index24 a).toNat = a.toNat / 4 % 2 ^ 24 := by
    unfold index24
    rw [BitVec.toNat_setWidth, BitVec.extractLsb'_toNat, Nat.shiftRight_eq_div_pow]
    omega
  rw [← BitVec.toNat_inj, jumpAddr_toNat, hidx]
  unfold Low
  have := a.isLt
  have := pc.isLt
  omega

/-- the word of an instruction of one word, in the code -/
theorem word_at {is : List Instruction} {i : Nat} {w : Word} (h : (is[i]?).map Instruction.getBytes = some [w]) :
    (getBytes is)[wordIndex is i]? = some w := by
  obtain ⟨x, hx, hw⟩ := Option.map_eq_some_iff.1 h
  have hi := (List.getElem?_eq_some_iff.1 hx).1
  have e : is = is.take i ++ x :: is.drop (i + 1) := by
    have := (List.getElem?_eq_some_iff.1 hx).2
    rw [← this, List.getElem_cons_drop, List.take_append_drop]
  have e2 : getBytes is = getBytes (is.take i) ++ ([w] ++ getBytes (is.drop (i + 1))) := by
    conv => lhs; rw [e]
    simp [getBytes, hw]
  rw [e2]
  unfold wordIndex
  rw [List.getElem?_append_right (Nat.le_refl _)]
  simp

/-- the line that a listing has for a jump -/
theorem jump_listed {rt' : Rt} {m' : Mipsasm} (hd : m'.debug = true) (hp : PlainSyms m'.syms) {is : List Instruction} {i : Nat} {mn : Str} {idx : BitVec 26}
    (hm : mn ∈ jumpOps) (h : HasTarget is i mn idx) :
    ∃ out, disassemble rt' m' (getBytes is) = some out ∧
      out[wordIndex is i]? = some (mn ++ ' ' :: (match m'.syms.lookup (jumpAddr m'.base idx) with
        | some name => name
        | none => hexTextU (jumpAddr m'.base idx).toNat)) := by
  obtain ⟨w, h1, h2⟩ := h
  have hw := word_at h2
  simp only [jumpOps, List.mem_cons, List.not_mem_nil, or_false] at hm
  rcases hm with rfl | rfl
  · have h1 : some (jWord 2 idx) = some w := h1
    cases h1
    obtain ⟨out, o1, o2⟩ := C33_jumps_plain rt' m' hd hp (getBytes is) _ _ hw (.inl (fOp_j ..))
    refine ⟨out, o1, ?_⟩
    rw [o2, fTarget_j, if_pos (show fOp (jWord 2 idx) = 2#6 from fOp_j ..)]; rfl
  · have h1 : some (jWord 3 idx) = some w := h1
    cases h1
    obtain ⟨out, o1, o2⟩ := C33_jumps_plain rt' m' hd hp (getBytes is) _ _ hw (.inr (fOp_j ..))
    refine ⟨out, o1, ?_⟩
    rw [o2, fTarget_j, if_neg (by rw [fOp_j]; decide)]; rfl

/-- **C83**.  A jump to a label is listed with the name of the label, if the disassembler is told this name for the address of the label and that is
in the lowest 64 MB of the region. -/
theorem C83_label [Unicode] (rt rt' : Rt) (m m' : Mipsasm) (text : Str) (is : List Instruction) (warns : List ParserWarning)
    (h : assemble rt m text = .ok is warns) (k d : Nat) (mn t l : Str) (hj : JumpAt (lines text) k mn t) (hd : Defines (lines text) d l)
    (hl : isLocal l = false) (ht : trim t = l) (hs : ∀ e ∈ m.syms, e.2 ≠ l) (hb : m'.base = m.base) (hdb : m'.debug = true)
    (hp : PlainSyms m'.syms) (hx : m'.syms.lookup (Export.addressOf m.base (lines text) d) = some l)
    (hlow : Low m.base (Export.addressOf m.base (lines text) d)) :
    ∃ out, disassemble rt' m' (getBytes is) = some out ∧
      out[wordIndex is (codeCount ((lines text).take k))]? = some (mn ++ ' ' :: l) := by
  obtain ⟨out, o1, o2⟩ := jump_listed (rt' := rt') hdb hp hj.1 (C07_label rt m text is warns h k d mn t l hj hd hl ht hs)
  refine ⟨out, o1, ?_⟩
  rw [o2, hb]
  have e := (jumpAddr_low _ _).2 hlow
  unfold Export.addressOf at e hx
  rw [e, hx]

/-- **C83**.  A jump to a symbol is listed with the name of the symbol under the same conditions. -/
theorem C83_symbol [Unicode] (rt rt' : Rt) (m m' : Mipsasm) (text : Str) (is : List Instruction) (warns : List ParserWarning)
    (h : assemble rt m text = .ok is warns) (k : Nat) (mn t : Str) (hj : JumpAt (lines text) k mn t) (a : Word) (hs : (a, trim t) ∈ m.syms)
    (hn : (m.syms.map (·.2)).Nodup) (hb : m'.base = m.base) (hdb : m'.debug = true) (hp : PlainSyms m'.syms)
    (hx : m'.syms.lookup a = some (trim t)) (hlow : Low m.base a) :
    ∃ out, disassemble rt' m' (getBytes is) = some out ∧
      out[wordIndex is (codeCount ((lines text).take k))]? = some (mn ++ ' ' :: trim t) := by
  obtain ⟨out, o1, o2⟩ := jump_listed (rt' := rt') hdb hp hj.1 (C07_symbol rt m text is warns h k mn t hj a hs hn)
  refine ⟨out, o1, ?_⟩
  rw [o2, hb, (jumpAddr_low _ _).2 hlow, hx]

/-- **C83**.  The condition on the address is necessary, if the name stands for one address only. -/
theorem C83_exact [Unicode] (rt rt' : Rt) (m m' : Mipsasm) (text : Str) (is : List Instruction) (warns : List ParserWarning)
    (h : assemble rt m text = .ok is warns) (k d : Nat) (mn t l : Str) (hj : JumpAt (lines text) k mn t) (hd : Defines (lines text) d l)
    (hl : isLocal l = false) (ht : trim t = l) (hs : ∀ e ∈ m.syms, e.2 ≠ l) (hb : m'.base = m.base) (hdb : m'.debug = true)
    (hp : PlainSyms m'.syms) (hx : ∀ a, m'.syms.lookup a = some l ↔ a = Export.addressOf m.base (lines text) d) (out : List Str)
    (ho : disassemble rt' m' (getBytes is) = some out) :
    out[wordIndex is (codeCount ((lines text).take k))]? = some (mn ++ ' ' :: l) ↔ Low m.base (Export.addressOf m.base (lines text) d) := by
  constructor
  · intro he
    obtain ⟨out', o1, o2⟩ := jump_listed (rt' := rt') hdb hp hj.1 (C07_label rt m text is warns h k d mn t l hj hd hl ht hs)
    rw [ho] at o1
    cases o1
    rw [he, hb] at o2
    simp only [Option.some.injEq, List.append_cancel_left_eq, List.cons.injEq, true_and] at o2
    split at o2
    · rename_i name hn
      subst o2
      have := (hx _).1 hn
      exact (jumpAddr_low _ _).1 this
    · exfalso
      obtain ⟨raw, h1, h2⟩ := hd
      obtain ⟨c, r, hcr, hnum⟩ := (C11_accepted rt m text is warns h).2 raw (List.mem_of_getElem? h1) l h2
      rw [o2] at hcr
      unfold hexTextU at hcr
      simp only [List.cons_append, List.nil_append, List.cons.injEq] at hcr
      rw [← hcr.1, Unicode.isNumeric_ascii _ (by decide)] at hnum
      exact absurd hnum (by decide)
  · intro hlow
    obtain ⟨out', o1, o2⟩ := C83_label rt rt' m m' text is warns h k d mn t l hj hd hl ht hs hb hdb hp ((hx _).2 rfl) hlow
    rw [ho] at o1
    cases o1
    exact o2

/-- **C83** is limited to the lowest 64 MB of the region: elsewhere the jump of the code goes to another address, and this is listed. -/
theorem C83_wrong : letI := asciiUnicode
    (assemble (idRt true) (Mipsasm.new.setBase 0x84000000#32) c!"f:\njal f\nnop").words = some [0x0c000000#32, 0#32] ∧
    disassemble (idRt true) ⟨0x84000000#32, [(0x84000000#32, c!"f")], true⟩ [0x0c000000#32, 0#32] = some [c!"jal 0x80000000", c!"sll $zero, $zero, 0x0"] := by
  decide +kernel

/-! ### The hypotheses are satisfiable -/

def ex83 : Str := c!"li $a0, 0x12345678\nJAL  f ; call\nnop\nf:\njr $ra\nnop"
def ex83m : Mipsasm := ⟨0x80000000#32, [(0x8000000c#32, c!"f")], true⟩

/-- a call of a label behind it: line 1 of the file, word 2 of the code, listed as `jal f` -/
example : letI := asciiUnicode
    ∃ is warns, assemble (idRt true) (Mipsasm.new.setBase 0x80000000#32) ex83 = .ok is warns ∧
      ∃ out, disassemble (idRt true) ex83m (getBytes is) = some out ∧
        out[wordIndex is (codeCount ((lines ex83).take 1))]? = some c!"jal f" := by
  letI := asciiUnicode
  have hok : (assemble (idRt true) (Mipsasm.new.setBase 0x80000000#32) ex83).words.isSome = true := by decide +kernel
  cases e : assemble (idRt true) (Mipsasm.new.setBase 0x80000000#32) ex83 with
  | ok is warns =>
    refine ⟨is, warns, rfl, ?_⟩
    exact C83_label (idRt true) (idRt true) _ ex83m ex83 is warns e 1 3 c!"jal" c!" f " c!"f"
      ⟨by decide, by decide, c!"JAL  f ; call", c!"JAL", by decide +kernel, by decide +kernel, by unfold SameName; decide, by decide +kernel⟩
      ⟨c!"f:", by decide +kernel, by decide +kernel⟩ (by decide) (by decide +kernel) (by intro e he; cases he) rfl rfl
      (by intro e he; cases List.mem_singleton.1 he; unfold NoWs; decide) (by decide +kernel) (by unfold Low; decide +kernel)
  | err es ws => rw [e] at hok; cases hok
  | panic => rw [e] at hok; cases hok

/-- the same with a symbol -/
example : letI := asciiUnicode
    ∃ is warns, assemble (idRt true) ex83m c!"nop\nj f\nnop" = .ok is warns ∧
      ∃ out, disassemble (idRt true) ex83m (getBytes is) = some out ∧
        out[wordIndex is (codeCount ((lines c!"nop\nj f\nnop").take 1))]? = some c!"j f" := by
  letI := asciiUnicode
  have hok : (assemble (idRt true) ex83m c!"nop\nj f\nnop").words.isSome = true := by decide +kernel
  cases e : assemble (idRt true) ex83m c!"nop\nj f\nnop" with
  | ok is warns =>
    refine ⟨is, warns, rfl, ?_⟩
    exact C83_symbol (idRt true) (idRt true) ex83m ex83m c!"nop\nj f\nnop" is warns e 1 c!"j" c!"f"
      ⟨by decide, by decide, c!"j f", c!"j", by decide +kernel, by decide +kernel, by unfold SameName; decide, by decide +kernel⟩
      0x8000000c#32 (by decide) (by decide) rfl rfl
      (by intro e he; cases List.mem_singleton.1 he; unfold NoWs; decide) (by decide +kernel) (by unfold Low; decide +kernel)
  | err es ws => rw [e] at hok; cases hok
  | panic => rw [e] at hok; cases hok

/-- the table of `ex83m` names one address only, as `C83_exact` requires -/
example : ∀ a, ex83m.syms.lookup a = some c!"f" ↔ a = @Export.addressOf 0x80000000#32 (lines ex83) 3 := by
  intro a
  have : Export.addressOf 0x80000000#32 (lines ex83) 3 = 0x8000000c#32 := by decide +kernel
  rw [this]
  show List.lookup a [(0x8000000c#32, c!"f")] = some c!"f" ↔ _
  by_cases h : a = 0x8000000c#32
  · subst h; simp
  · have : (a == 0x8000000c#32) = false := by simpa using h
    simp [List.lookup, this, h]

end Mips
