/-
C01: native instructions assemble to the ISA encoding.
-/
import Verif.Lemmas.LineL
import Verif.Spec.Program
import Verif.Spec.Report

namespace Mips
open Isa Syntax Source

theorem encoding_row {mn : Str} {args : List Arg} {w : Word} (h : encoding mn args = some w) :
    ∃ r ∈ table, r.mn = mn ∧ place r.code r.syn args = some w := by
  unfold encoding at h
  split at h
  · rename_i r hr
    exact ⟨r, List.mem_of_find?_eq_some hr, by simpa using List.find?_some hr, h⟩
  · cases h

theorem table_uimm : ∀ r ∈ table, r.syn = .rtRsUimm → r.mn = c!"andi" ∨ r.mn = c!"ori" ∨ r.mn = c!"xori" := by decide +kernel
theorem table_code : ∀ r ∈ table, r.mn = c!"break" ∨ r.mn = c!"syscall" → r.syn = .code := by decide +kernel

theorem NativeOut.emits [Unicode] {x : Ctx} {line : Str} {w : Word} (h : NativeOut (parseInst x line).res w) (ovf : Bool) :
    Emits x line ovf [w] := by
  obtain ⟨a, h1, h2, h3⟩ := h
  exact ⟨a, h1, h2.settled, h3 ovf⟩

/-- A native instruction text emits its ISA encoding, in any context. -/
theorem native_emits [Unicode] (x : Ctx) (hl : NoNumLabel x.labels) {s mn : Str} {as : List Arg} (h : InstrText s mn as)
    {w : Word} (hw : encoding mn as = some w) (ovf : Bool) : Emits x s ovf [w] := by
  cases h with
  | args mn' mn text as hm hcase hs =>
    obtain ⟨r, hr, rfl, hp⟩ := encoding_row hw
    exact (native_args x hl hr hm (fun h => hcase (table_uimm r hr h)) hs hp).emits ovf
  | bare mn' mn hm =>
    obtain ⟨r, hr, rfl, hp⟩ := encoding_row hw
    exact (native_bare x hr hm (Or.inl hp)).emits ovf
  | code0 mn' mn hm hb =>
    obtain ⟨r, hr, rfl, hp⟩ := encoding_row hw
    exact (native_bare x hr hm (Or.inr hp)).emits ovf
  | nop mn' hm =>
    have e : w = 0#32 := by
      have : encoding c!"sll" [.gpr 0, .gpr 0, .sa 0] = some 0#32 := by decide +kernel
      rw [hw] at this; exact Option.some.inj this
    subst e
    have hM : Mn s c!"nop" := ⟨hm, by decide⟩
    refine ⟨.reg .Nop Register.null Register.null Register.null 0#32 [], ?_, rfl, rfl⟩
    rw [parseInst_bare x hM, show classify c!"nop" = .bare by decide +kernel, arm_bare x hM (o := .Nop) (by decide +kernel)]
  | jalr mn' text rs hm hr =>
    have e : w = rWord 0 rs 0 31 0 9 := by
      have : encoding c!"jalr" [.gpr 31, .gpr rs] = some (rWord 0 rs 0 31 0 9) := by
        unfold encoding
        rw [show (table.find? fun r => r.mn == c!"jalr") = some ⟨c!"jalr", .rdRs, .special 9⟩ by decide +kernel]
        rfl
      rw [hw] at this; exact Option.some.inj this
    subst e
    have hM : Mn mn' c!"jalr" := ⟨hm, by decide⟩
    refine ⟨.reg .Jalr rs.toFin Register.null Register.ra 0#32 [], ?_, rfl, ?_⟩
    · rw [parseInst_args x hM, show classify c!"jalr" = .jalr by decide +kernel, arm_jalr1 x hM (o := .Jalr) (by decide +kernel) ?_ hr]
      exact split_noComma _ _ (spells_noComma (Spells.gpr text rs hr))
    · simp only [encode_reg, num_toFin, num_null]
      clear hr hw; revert rs; decide +kernel

/-- C01, one line of any program: whenever a program assembles, every native instruction in it emits
exactly one word, the one the MIPS III opcode maps and formats give. -/
theorem C01_line [Unicode] (rt : Rt) (m : Mipsasm) (text : Str) (is : List Instruction) (warns : List ParserWarning)
    (h : assemble rt m text = .ok is warns) (k : Nat) (raw mn : Str) (as : List Arg) (w : Word)
    (hk : (lines text)[k]? = some raw) (hc : kind raw = .code) (hi : InstrText (body raw) mn as)
    (hw : encoding mn as = some w) (hn : NoNumeralLabel (lines text)) :
    (is[codeCount ((lines text).take k)]?).map Instruction.getBytes = some [w] :=
  line_words h hk hc (fun x hx => native_emits x (hx.noNum hn) hi hw rt.ovf)

/-- What `NativeProg` requires of a line. -/
def NativeR (raw : Str) (v : List Word) : Prop :=
  ∃ mn as w, InstrText (body raw) mn as ∧ encoding mn as = some w ∧ v = [w]

theorem nativeProg_progOf {ls : List Str} {ws : List Word} (h : NativeProg ls ws) :
    ProgOf NativeR ls ws ∧ ∀ raw ∈ ls, kind raw = .blank ∨ kind raw = .code ∧ ∃ v, NativeR raw v := by
  induction h with
  | nil => exact ⟨.nil, by simp⟩
  | blank raw ls ws hk _ ih =>
    refine ⟨.skip _ _ _ (by simp [hk]) ih.1, ?_⟩
    intro r hr
    rcases List.mem_cons.1 hr with rfl | hr
    · exact Or.inl hk
    · exact ih.2 r hr
  | instr raw ls ws mn as w hk ht he _ ih =>
    have hR : NativeR raw [w] := ⟨mn, as, w, ht, he, rfl⟩
    refine ⟨.code raw ls [w] ws hk hR ih.1, ?_⟩
    intro r hr
    rcases List.mem_cons.1 hr with rfl | hr
    · exact Or.inr ⟨hk, _, hR⟩
    · exact ih.2 r hr

theorem globals_nil {ls : List Str} (h : ∀ raw ∈ ls, ∀ l, kind raw ≠ .label l) : globals ls = [] := by
  have key : ∀ (ls : List Str) n, (∀ raw ∈ ls, ∀ l, kind raw ≠ .label l) → globalsFrom n ls = [] := by
    intro ls
    induction ls with
    | nil => intros; rfl
    | cons r ls ih =>
      intro n h
      unfold globalsFrom
      split
      · exact ih _ (fun x hx => h x (by simp [hx]))
      · exact ih _ (fun x hx => h x (by simp [hx]))
      · rename_i l hl; exact absurd hl (h r (by simp) l)
  exact key ls 0 h

/-- C01, whole programs: a program of native instructions (one per line, blank and comment lines between
them) assembles, and its words are the ISA encodings of its instructions, in order and nothing else. -/
theorem C01_program [Unicode] (rt : Rt) (m : Mipsasm) (text : Str) (ws : List Word) (h : NativeProg (lines text) ws) :
    (assemble rt m text).words = some ws := by
  obtain ⟨hp, hk⟩ := nativeProg_progOf h
  have hg : globals (lines text) = [] := globals_nil (by
    intro raw hr l
    rcases hk raw hr with h | ⟨h, _⟩ <;> simp [h])
  have hn : NoNumeralLabel (lines text) := by intro e he; rw [hg] at he; cases he
  obtain ⟨is, warns, ha⟩ := prog_ok (rt := rt) (m := m) (text := text) (by
      intro k raw l h1 h2
      rcases hk raw (List.mem_of_getElem? h1) with h | ⟨h, _⟩ <;> rw [h] at h2 <;> cases h2) (by
      intro k raw h1 h2 x hx
      rcases hk raw (List.mem_of_getElem? h1) with h | ⟨_, v, mn, as, w, ht, he, rfl⟩
      · rw [h] at h2; cases h2
      · exact ⟨[w], native_emits x (hx.noNum hn) ht he rt.ovf⟩)
  rw [ha]
  refine congrArg some (words_of_prog hp (is_length ha) ?_)
  rintro k raw v h1 h2 ⟨mn, as, w, ht, he, rfl⟩
  exact C01_line rt m text is warns ha k raw mn as w h1 h2 ht he hn

/-- Non-vacuity: a concrete three-line program meets the premise of `C01_program`. -/
example : NativeProg (lines c!"  addiu $sp, sp, -0x18 // frame\n\nSYNC") [0x27bdffe8#32, 0x0000000f#32] := by
  rw [show lines c!"  addiu $sp, sp, -0x18 // frame\n\nSYNC" = [c!"  addiu $sp, sp, -0x18 // frame", [], c!"SYNC"] by decide +kernel]
  refine .instr _ _ _ c!"addiu" [.gpr 29, .gpr 29, .simm (-0x18)] _ (by decide +kernel) ?_ (by decide +kernel) ?_
  · rw [show body c!"  addiu $sp, sp, -0x18 // frame" = c!"addiu" ++ ' ' :: (c!"$sp" ++ ',' :: (c!" sp" ++ ',' :: c!" -0x18 ")) by decide +kernel]
    refine .args _ _ _ _ (by unfold SameName; decide) (by decide) (.cons _ _ _ _ ?_ (.cons _ _ _ _ ?_ (.one _ _ ?_)))
    · exact .gpr _ _ (.dollar [] c!"sp" [] 29 (by simp [Blank]) (by simp [Blank]) (.name _ c!"sp" _ (by decide) (by unfold SameName; decide)))
    · exact .gpr _ _ (.bare [' '] c!"sp" [] 29 (by simp [Blank]; decide) (by simp [Blank]) (.name _ c!"sp" _ (by decide) (by unfold SameName; decide)))
    · refine .simm _ _ (.mk [' '] c!"-0x18" [' '] _ (by simp [Blank]; decide) (by simp [Blank]; decide) ?_)
      exact .neg c!"0x18" 24 (.hex c!"18" 24 (.snoc c!"1" '8' 1 8 (.one '1' 1 (by decide)) (by decide))) (by decide)
  · refine .blank _ _ _ (by decide +kernel) ?_
    exact .instr _ _ _ c!"sync" [] _ (by decide +kernel) (by
      rw [show body c!"SYNC" = c!"SYNC" by decide +kernel]; exact .bare _ _ (by unfold SameName; decide)) (by decide +kernel) .nil

/-- The limits of C01: the 20-bit codes of `break` and `syscall` are accepted only up to 16 bits, and the
COP0 registers without a name only by none of their numbers, so "every operand tuple" is false of the code. -/
theorem C01_limits :
    encoding c!"break" [.code 0x10000] = some 0x40000d#32 ∧
    (@assemble asciiUnicode (idRt true) Mipsasm.new c!"break 0x10000").words = none ∧
    encoding c!"mfc0" [.gpr 2, .c0 7] = some 0x40023800#32 ∧
    (@assemble asciiUnicode (idRt true) Mipsasm.new c!"mfc0 $v0, $7").words = none := by decide +kernel

end Mips
