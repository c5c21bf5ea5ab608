/- Straight-line execution, and what pseudo-instruction lines are parsed to. -/
import Verif.Lemmas.ExecL
import Verif.Lemmas.LineL
import Verif.Spec.Program

namespace Mips
open Isa Machine Syntax Source

/-- From index `k` in state `s` the sequence falls through its end in state `s'`. -/
def Chain (ws : List W32) (k : Nat) (s s' : Cpu) : Prop :=
  s.pc = k → s.npc = k + 1 → (∃ n, run ws n s = .done s') ∧ s'.pc = ws.length ∧ s'.npc = ws.length + 1

theorem Chain.falls {ws : List W32} {s s' : Cpu} (h : Chain ws 0 s s') (he : s.Entry) : Falls ws s s' :=
  h (by simpa using he.1) (by simpa using he.2)

theorem chain_end {ws : List W32} {k : Nat} (s : Cpu) (hk : k = ws.length) : Chain ws k s s := by
  intro h1 h2
  subst hk
  exact ⟨⟨1, run_end h1 (Nat.le_refl _)⟩, h1, h2⟩

theorem chain_step {ws : List W32} {k : Nat} {s t s' : Cpu} {w : W32} {mn : Str} {args : List Arg}
    (hw : ws[k]? = some w) (hd : decoding w = some (mn, args)) (hx : exec s mn args = .next t.next) (hn : t.npc = s.npc)
    (h : Chain ws (k + 1) t.next s') : Chain ws k s s' := by
  intro h1 h2
  obtain ⟨⟨n, hr⟩, h3⟩ := h (by rw [next_pc, hn, h2]; rfl) (by rw [next_npc, hn, h2]; rfl)
  exact ⟨⟨n + 1, by rw [run_next h1 hw hd hx, hr]⟩, h3⟩

/-- From index `k` in state `s` the sequence traps. -/
def ChainT (ws : List W32) (k : Nat) (s : Cpu) : Prop :=
  s.pc = k → s.npc = k + 1 → ∃ n, run ws n s = .trap

theorem ChainT.traps {ws : List W32} {s : Cpu} (h : ChainT ws 0 s) (he : s.Entry) : Traps ws s :=
  h (by simpa using he.1) (by simpa using he.2)

theorem chainT_step {ws : List W32} {k : Nat} {s t : Cpu} {w : W32} {mn : Str} {args : List Arg}
    (hw : ws[k]? = some w) (hd : decoding w = some (mn, args)) (hx : exec s mn args = .next t.next) (hn : t.npc = s.npc)
    (h : ChainT ws (k + 1) t.next) : ChainT ws k s := by
  intro h1 h2
  obtain ⟨n, hr⟩ := h (by rw [next_pc, hn, h2]; rfl) (by rw [next_npc, hn, h2]; rfl)
  exact ⟨n + 1, by rw [run_next h1 hw hd hx, hr]⟩

theorem chainT_trap {ws : List W32} {k : Nat} {s : Cpu} {w : W32} {mn : Str} {args : List Arg}
    (hw : ws[k]? = some w) (hd : decoding w = some (mn, args)) (hx : exec s mn args = .trap) : ChainT ws k s := by
  intro h1 _
  exact ⟨1, run_trap h1 hw hd hx⟩

/-! ### Lines -/

theorem instrText_inv {s mn : Str} {as : List Arg} (h : InstrText s mn as) (h0 : as ≠ [])
    (h1 : mn ∉ [c!"break", c!"syscall", c!"sll", c!"jalr"]) :
    ∃ mn' text, s = mn' ++ ' ' :: text ∧ SameName mn' mn ∧
      (mn = c!"andi" ∨ mn = c!"ori" ∨ mn = c!"xori" → mn' = mn) ∧ SpellsAll text as := by
  cases h with
  | args mn' mn text as hm hcase hs => exact ⟨mn', text, rfl, hm, hcase, hs⟩
  | bare => exact absurd rfl h0
  | code0 mn' mn hm hb => exact absurd (by rcases hb with rfl | rfl <;> simp) h1
  | nop => exact absurd (by simp) h1
  | jalr => exact absurd (by simp) h1

theorem toFin_num (r : BitVec 5) : Register.num r.toFin = r.setWidth 32 := num_toFin r

/-- Three-register lines. -/
theorem emits_reg3 [Unicode] (x : Ctx) {s mn : Str} {rd rs rt : BitVec 5} (h : InstrText s mn [.gpr rd, .gpr rs, .gpr rt])
    {o : RTypeOp} (ho : RTypeOp.fromStr mn = some o) (hc : classify mn = .reg3 ∨ classify mn = .div) (hm : mnOk mn = true)
    (h1 : mn ∉ [c!"break", c!"syscall", c!"sll", c!"jalr"]) (ovf : Bool) :
    Emits x s ovf (encR o (rs.setWidth 32) (rt.setWidth 32) (rd.setWidth 32) 0#32) := by
  obtain ⟨mn', text, rfl, hs, _, hsp⟩ := instrText_inv h (by simp) h1
  have hM : Mn mn' mn := ⟨hs, hm⟩
  obtain ⟨a, b, c, e, ha, hb, hcc⟩ := spellsL3 (spellsAll_split hsp)
  refine ⟨.reg o rs.toFin rt.toFin rd.toFin 0#32 [], ?_, rfl, ?_⟩
  · rw [parseInst_args x hM]
    rcases hc with hc | hc
    · rw [hc, arm_reg3 x hM ho e ha.gpr' hb.gpr' hcc.gpr']
    · rw [hc, arm_div3 x hM ho e ha.gpr' hb.gpr' hcc.gpr']
  · simp only [encode_reg, num_toFin]

/-- Two-register lines. -/
theorem emits_reg2 [Unicode] (x : Ctx) {s mn : Str} {rd rs : BitVec 5} (h : InstrText s mn [.gpr rd, .gpr rs])
    {o : RTypeOp} (ho : RTypeOp.fromStr mn = some o) (hc : classify mn = .pseudo2) (hm : mnOk mn = true)
    (h1 : mn ∉ [c!"break", c!"syscall", c!"sll", c!"jalr"]) (ovf : Bool) :
    Emits x s ovf (encR o (rs.setWidth 32) 0#32 (rd.setWidth 32) 0#32) := by
  obtain ⟨mn', text, rfl, hs, _, hsp⟩ := instrText_inv h (by simp) h1
  have hM : Mn mn' mn := ⟨hs, hm⟩
  obtain ⟨a, b, e, ha, hb⟩ := spellsL2 (spellsAll_split hsp)
  refine ⟨.reg o rs.toFin Register.null rd.toFin 0#32 [], ?_, rfl, ?_⟩
  · rw [parseInst_args x hM, hc, arm_pseudo2 x hM ho e ha.gpr' hb.gpr']
  · simp only [encode_reg, num_toFin, num_null]

/-- One-register lines. -/
theorem emits_rd1 [Unicode] (x : Ctx) {s mn : Str} {rd : BitVec 5} (h : InstrText s mn [.gpr rd])
    {o : RTypeOp} (ho : RTypeOp.fromStr mn = some o) (hc : classify mn = .rd1) (hm : mnOk mn = true)
    (h1 : mn ∉ [c!"break", c!"syscall", c!"sll", c!"jalr"]) (ovf : Bool) :
    Emits x s ovf (encR o 0#32 0#32 (rd.setWidth 32) 0#32) := by
  obtain ⟨mn', text, rfl, hs, _, hsp⟩ := instrText_inv h (by simp) h1
  have hM : Mn mn' mn := ⟨hs, hm⟩
  obtain ⟨a, e, ha⟩ := spellsL1 (spellsAll_split hsp)
  refine ⟨.reg o Register.null Register.null rd.toFin 0#32 [], ?_, rfl, ?_⟩
  · rw [parseInst_args x hM, hc, arm_rd1 x hM ho e ha.gpr']
  · simp only [encode_reg, num_toFin, num_null]

/-- Lines with two registers and a signed immediate. -/
theorem emits_simm [Unicode] (x : Ctx) {s mn : Str} {rt rs : BitVec 5} {v : BitVec 16} (h : InstrText s mn [.gpr rt, .gpr rs, .simm v])
    (hl : NoNumLabel x.labels)
    {o : ITypeOp} (ho : ITypeOp.fromStr mn = some o) (hc : classify mn = .arith) (hm : mnOk mn = true)
    (h1 : mn ∉ [c!"break", c!"syscall", c!"sll", c!"jalr"]) (hu : mn ≠ c!"andi" ∧ mn ≠ c!"ori" ∧ mn ≠ c!"xori") (ovf : Bool) {ws : List Word}
    (hw : encI ovf o (rs.setWidth 32) (rt.setWidth 32) (v.setWidth 32) (v.setWidth 64) = some ws) :
    Emits x s ovf ws := by
  obtain ⟨mn', text, rfl, hs, _, hsp⟩ := instrText_inv h (by simp) h1
  have hM : Mn mn' mn := ⟨hs, hm⟩
  obtain ⟨a, b, c, e, ha, hb, hcc⟩ := spellsL3 (spellsAll_split hsp)
  refine ⟨.imm o rs.toFin rt.toFin (.short v) [], ?_, rfl, ?_⟩
  · rw [parseInst_args x hM, hc, arm_arith_s x hM ho e hu ha.gpr' hb.gpr' (parseImm_i16 x hl hcc.simm')]
  · simp only [encode_imm, num_toFin, hw]

end Mips
