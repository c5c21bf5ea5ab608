/- C48: the queries on an assembled instruction. -/
import Verif.Model.Query
import Verif.Props.ShowP
import Verif.Spec.Warn

namespace Mips
open Isa Syntax Source Branch Listing

/-- `c.cond.fmt` is none of the named mnemonics. -/
theorem other_plain {s : Str} (h : classify s = .other) (l : List Str) (hl : ∀ n ∈ l, classify n ≠ .other) : s ∉ l :=
  fun hs => hl s hs h

theorem query_of [Unicode] {rt : Rt} {m : Mipsasm} {text : Str} {is : List Instruction} {warns : List ParserWarning}
    (h : assemble rt m text = .ok is warns) {k : Nat} {raw : Str} (hk : (lines text)[k]? = some raw) (hc : kind raw = .code)
    (f : Instruction → Bool) (l : List Str) (hl : ∀ n ∈ l, classify n ≠ .other)
    (hI : ∀ o rs rt im b, f (.imm o rs rt im b) = l.contains o.name)
    (hJ : ∀ o t b, f (.jump o t b) = l.contains o.name)
    (hR : ∀ o rs rt rd sa b, f (.reg o rs rt rd sa b) = l.contains o.name) :
    ∃ i, is[codeCount ((lines text).take k)]? = some i ∧ (f i = true ↔ mnemonic (body raw) ∈ l) := by
  obtain ⟨i, hi, hf⟩ := line_final h hk hc
  refine ⟨i, hi, ?_⟩
  cases i with
  | bytes w => exact hf.elim
  | imm o rs rt im b => rw [hI, hf.1, List.contains_iff_mem]
  | jump o t b => rw [hJ, hf.1, List.contains_iff_mem]
  | reg o rs rt rd sa b =>
    rw [hR, List.contains_iff_mem]
    obtain ⟨_, ⟨hn, _⟩ | ⟨ho, _, hcl⟩⟩ := hf
    · rw [hn]
    · refine iff_of_false ?_ (other_plain hcl l hl)
      intro ho'
      refine hl _ ho' ?_
      rcases ho with rfl | rfl <;> decide

/-- The transfers of control whose delay slot is known. -/
def Branch.known : List Str := transfers.filter fun n => !forgotten.contains n

/-- **C48 (delay slots).** `has_delay_slot` of an assembled instruction holds exactly if its mnemonic is a jump or branch other
than the forgotten ones (`b`, `bal`, `beqzl`, `bnezl` and the comparing branches). -/
theorem C48_delay_exact [Unicode] (rt : Rt) (m : Mipsasm) (text : Str) (is : List Instruction) (warns : List ParserWarning)
    (h : assemble rt m text = .ok is warns) (k : Nat) (raw : Str) (hk : (lines text)[k]? = some raw) (hc : kind raw = .code) :
    ∃ i, is[codeCount ((lines text).take k)]? = some i ∧
      (i.hasDelaySlot = true ↔ mnemonic (body raw) ∈ transfers ∧ mnemonic (body raw) ∉ forgotten) := by
  obtain ⟨i, hi, hf⟩ := query_of h hk hc Instruction.hasDelaySlot Branch.known (by decide)
    (by intro o; intros; cases o <;> rfl)
    (by intro o; intros; cases o <;> rfl)
    (by intro o; intros; cases o <;> rfl)
  refine ⟨i, hi, hf.trans ?_⟩
  simp [Branch.known, List.mem_filter]

/-- **C48 (branches).** `is_branch` of an assembled instruction holds exactly for the machine's branches and `bal`. -/
theorem C48_branch_exact [Unicode] (rt : Rt) (m : Mipsasm) (text : Str) (is : List Instruction) (warns : List ParserWarning)
    (h : assemble rt m text = .ok is warns) (k : Nat) (raw : Str) (hk : (lines text)[k]? = some raw) (hc : kind raw = .code) :
    ∃ i, is[codeCount ((lines text).take k)]? = some i ∧
      (i.isBranch = true ↔ mnemonic (body raw) ∈ nativeBranches ∨ mnemonic (body raw) = c!"bal") := by
  obtain ⟨i, hi, hf⟩ := query_of h hk hc Instruction.isBranch (nativeBranches ++ [c!"bal"]) (by decide)
    (by intro o; intros; cases o <;> rfl)
    (by intro o; intros; cases o <;> rfl)
    (by intro o; intros; cases o <;> rfl)
  refine ⟨i, hi, hf.trans ?_⟩
  simp

/-- **C48 (unconditional jumps).** `is_unconditional_jump` of an assembled instruction holds exactly for `j` and `jr`. -/
theorem C48_unconditional [Unicode] (rt : Rt) (m : Mipsasm) (text : Str) (is : List Instruction) (warns : List ParserWarning)
    (h : assemble rt m text = .ok is warns) (k : Nat) (raw : Str) (hk : (lines text)[k]? = some raw) (hc : kind raw = .code) :
    ∃ i, is[codeCount ((lines text).take k)]? = some i ∧
      (i.isUnconditionalJump = true ↔ mnemonic (body raw) = c!"j" ∨ mnemonic (body raw) = c!"jr") := by
  obtain ⟨i, hi, hf⟩ := query_of h hk hc Instruction.isUnconditionalJump [c!"j", c!"jr"] (by decide)
    (by intro o; intros; cases o <;> rfl)
    (by intro o; intros; cases o <;> rfl)
    (by intro o; intros; cases o <;> rfl)
  refine ⟨i, hi, hf.trans ?_⟩
  simp

/-- **C48 (targets).** `get_jump_target` never panics on an assembled instruction; it is `Some` exactly for `j` and `jal`, and
then bits 2 to 25 of it are the low 24 bits of the index in the word. -/
theorem C48_target [Unicode] (rt : Rt) (m : Mipsasm) (text : Str) (is : List Instruction) (warns : List ParserWarning)
    (h : assemble rt m text = .ok is warns) (k : Nat) (raw : Str) (hk : (lines text)[k]? = some raw) (hc : kind raw = .code) :
    ∃ i, is[codeCount ((lines text).take k)]? = some i ∧
      (mnemonic (body raw) ∉ Show.jump → i.getJumpTarget = some none) ∧
      (mnemonic (body raw) ∈ Show.jump → ∃ T w, i.getJumpTarget = some (some T) ∧ i.getBytes = [w] ∧
        fTarget w = 0#2 ++ T.extractLsb' 2 24) := by
  by_cases hm : mnemonic (body raw) ∈ Show.jump
  · obtain ⟨i, w, T, h1, h2, h3, h4, _⟩ := C47_jump rt m text is warns h k raw hk hc hm
    exact ⟨i, h1, fun h => absurd hm h, fun _ => ⟨T, w, h3, h2, h4⟩⟩
  · obtain ⟨i, hi, hf⟩ := line_final h hk hc
    refine ⟨i, hi, fun _ => ?_, fun h => absurd h hm⟩
    cases i with
    | bytes w => exact hf.elim
    | imm o rs rt im b => rfl
    | jump o t b => exfalso; rw [← hf.1] at hm; revert hm; cases o <;> decide
    | reg o rs rt rd sa b => rfl

set_option maxHeartbeats 4000000 in
theorem off_word {ovf : Bool} {o : ITypeOp} (ho : o.name ∈ branchNames) {rs rt : BitVec 5} {l : BitVec 64} {b : List Word}
    {v : BitVec 16} (he : encI ovf o (rs.setWidth 32) (rt.setWidth 32) (v.setWidth 32) l = some b) (hc : o.name ∉ cmpBranchNames) :
    ∃ w, b = [w] ∧ fImm w = v := by
  cases o <;> first
    | exact absurd (by decide) hc
    | exact absurd ho (by decide)
    | (simp only [encI, Option.some.injEq] at he
       refine ⟨_, he.symm, ?_⟩
       simp [fImm, BitVec.extractLsb'_or, ext_hi, ext_eq0]
       done)

theorem setWidth_toInt (v : BitVec 16) : (v.setWidth 32 : Word).toInt = v.toNat := by
  rw [BitVec.toInt_eq_toNat_cond, BitVec.toNat_setWidth, Nat.mod_eq_of_lt (by have := v.isLt; omega), if_pos (by have := v.isLt; omega)]

/-- **C48 (offsets).** For a branch line other than the comparing branches, `get_branch_offset` of the assembled instruction is the
16-bit offset field of its word read as an unsigned number; so it is the branch's offset exactly if that is not negative. -/
theorem C48_offset_exact [Unicode] (rt : Rt) (m : Mipsasm) (text : Str) (is : List Instruction) (warns : List ParserWarning)
    (h : assemble rt m text = .ok is warns) (k : Nat) (raw : Str) (hk : (lines text)[k]? = some raw) (hc : kind raw = .code)
    (hb : mnemonic (body raw) ∈ branchNames) (hn : mnemonic (body raw) ∉ cmpBranchNames) :
    ∃ i w, is[codeCount ((lines text).take k)]? = some i ∧ i.getBytes = [w] ∧ i.getBranchOffset = some (fImm w).toNat ∧
      (i.getBranchOffset = some (fImm w).toInt ↔ 0 ≤ (fImm w).toInt) := by
  obtain ⟨i, hi, hf⟩ := line_final h hk hc
  cases i with
  | bytes w => exact hf.elim
  | jump o t b => exfalso; rw [← hf.1] at hb; revert hb; cases o <;> decide
  | reg o rs rt rd sa b =>
    exfalso
    obtain ⟨_, ⟨hn, _⟩ | ⟨_, _, hcl⟩⟩ := hf
    · rw [← hn] at hb; revert hb; cases o <;> decide
    · exact other_plain hcl branchNames (by decide) hb
  | imm o rs rt im b =>
    obtain ⟨hname, hf⟩ := hf
    rw [← hname] at hb hn
    rcases hf with ⟨v, rfl, he⟩ | ⟨hcl, v, rfl, _⟩
    · obtain ⟨rs, rfl⟩ := asBits rs
      obtain ⟨rt, rfl⟩ := asBits rt
      rw [num_toFin, num_toFin] at he
      obtain ⟨w, rfl, rfl⟩ := off_word hb he hn
      have e : (Instruction.imm o rs.toFin rt.toFin (.short (fImm w)) [w]).getBranchOffset = some ((fImm w).toNat : Int) := by
        show some _ = some _
        rw [setWidth_toInt]
      refine ⟨_, w, hi, rfl, e, ?_⟩
      rw [e, Option.some.injEq]
      have := (fImm w).isLt
      rw [BitVec.toInt_eq_toNat_cond]
      split <;> omega
    · exfalso; rw [← hname] at hcl; revert hcl hb; cases o <;> decide

/-- `(has_delay_slot, is_branch, get_branch_offset)` of the instructions of a program. -/
def Show.queries : AsmOut → Option (List (Bool × Bool × Option Int))
  | .ok is _ => some (is.map fun i => (i.hasDelaySlot, i.isBranch, i.getBranchOffset))
  | _ => none

/-- **C48 does not hold in general**: `b` has a delay slot and is a branch, `beqz` is a branch, and the offset of a backward branch
is reported as 65535 instead of -1. -/
theorem C48_wrong : letI := asciiUnicode
    Show.queries (assemble (idRt true) Mipsasm.new c!"nop\nl:\nb l\nnop\nbeqz $a0, l\nnop\nbne $a0, $a1, l\nnop") =
      some [(false, false, none), (false, false, some 65535), (false, false, none), (true, false, some 65533), (false, false, none),
        (true, true, some 65531), (false, false, none)] := by decide +kernel

/-- Non-vacuity: a program with jumps, branches and others, and what the theorems say of its lines. -/
example : letI := asciiUnicode
    let text := c!"l:\nbne $a0, $a1, l\nnop\nj l\nnop\njr $ra\nnop\nbgez $a0, 28\nnop\njal 0x40\nnop\naddu $v0, $a0, $a1"
    Show.queries (assemble (idRt true) Mipsasm.new text) =
      some [(true, true, some 65535), (false, false, none), (true, false, none), (false, false, none), (true, false, none),
        (false, false, none), (true, true, some 5), (false, false, none), (true, false, none), (false, false, none), (false, false, none)] ∧
    (lines text).map (fun raw => decide (mnemonic (body raw) ∈ transfers)) =
      [false, true, false, true, false, true, false, true, false, true, false, false] := by decide +kernel

end Mips
