/-
**C69** — an instruction means the same wherever it stands: its code and the complaint about it depend on its own text, on the symbols,
on the build mode and on its labels only.
-/
import Verif.Lemmas.ContextL
import Verif.Props.EditP

namespace Mips
open Source Syntax Branch Operands Context
open Lang (plan)

/-- **C69**.  If two programs are accepted (with any base addresses), and an instruction is on line `k` of the one and on line `k'` of the
other and sees the same there, it has the same words. -/
theorem C69_line [Unicode] (rt rt' : Rt) (m m' : Mipsasm) (text text' : Str) (is is' : List Instruction) (warns warns' : List ParserWarning)
    (ho : rt.ovf = rt'.ovf) (hs : m.syms = m'.syms) (h : assemble rt m text = .ok is warns) (h' : assemble rt' m' text' = .ok is' warns')
    (k k' : Nat) (raw : Str) (hk : (lines text)[k]? = some raw) (hk' : (lines text')[k']? = some raw) (hc : kind raw = .code)
    (hv : ∀ st, plan (body raw) = some st →
      SameView ⟨rt.ovf, m.base, m.syms, lines text⟩ k ⟨rt'.ovf, m'.base, m'.syms, lines text'⟩ k' st) :
    (is[codeCount ((lines text).take k)]?).map Instruction.getBytes = (is'[codeCount ((lines text').take k')]?).map Instruction.getBytes := by
  obtain ⟨ws, hw⟩ : ∃ ws, (is[codeCount ((lines text).take k)]?).map Instruction.getBytes = some ws := by
    obtain ⟨tr, x, wn, p, a, b, _, _, _, _, _, _, _, _, _, hi, _⟩ := line_done h hk hc
    exact ⟨b.getBytes, by rw [hi]; rfl⟩
  rw [hw]
  have h1 := (C57_line rt m text is warns h k raw hk hc ws).1 hw
  exact ((C57_line rt' m' text' is' warns' h' k' raw hk' hc ws).2 (lineWords_congr ho hs hv h1)).symm

/-- **C69**.  An instruction that has no labels and does not branch to a number has the same words wherever it stands in an accepted
program. -/
theorem C69_free [Unicode] (rt rt' : Rt) (m m' : Mipsasm) (text text' : Str) (is is' : List Instruction) (warns warns' : List ParserWarning)
    (ho : rt.ovf = rt'.ovf) (hs : m.syms = m'.syms) (h : assemble rt m text = .ok is warns) (h' : assemble rt' m' text' = .ok is' warns')
    (k k' : Nat) (raw : Str) (hk : (lines text)[k]? = some raw) (hk' : (lines text')[k']? = some raw) (hc : kind raw = .code)
    (hf : ∀ st, plan (body raw) = some st → Free ⟨rt.ovf, m.base, m.syms, lines text⟩ k st)
    (hf' : ∀ st, plan (body raw) = some st → Free ⟨rt'.ovf, m'.base, m'.syms, lines text'⟩ k' st) :
    (is[codeCount ((lines text).take k)]?).map Instruction.getBytes = (is'[codeCount ((lines text').take k')]?).map Instruction.getBytes :=
  C69_line rt rt' m m' text text' is is' warns warns' ho hs h h' k k' raw hk hk' hc fun st e => free_view (hf st e) (hf' st e)

/-- **C69**.  If two files are assembled, with errors, and an instruction is on line `k` of the one and on line `k'` of the other and the
same of its texts are labels there, then the errors about it are the same, apart from the number of the line (errors about references
between lines aside). -/
theorem C69_errors [Unicode] (rt rt' : Rt) (m m' : Mipsasm) (text text' : Str) (es es' : List ParserError)
    (ho : rt.ovf = rt'.ovf) (hs : m.syms = m'.syms) (h : (assemble rt m text).errors = some es) (h' : (assemble rt' m' text').errors = some es')
    (k k' : Nat) (raw : Str) (hk : (lines text)[k]? = some raw) (hk' : (lines text')[k']? = some raw) (hc : kind raw = .code)
    (hv : ∀ st, plan (body raw) = some st →
      SameRefs ⟨rt.ovf, m.base, m.syms, lines text⟩ k ⟨rt'.ovf, m'.base, m'.syms, lines text'⟩ k' st)
    (e : ParserError) (he : e.line.num = k + 1) : e ∈ lineErrors es ↔ moved (k' + 1) e ∈ lineErrors es' := by
  have num : ∀ n e, (moved n e).line.num = n := by intro n e; cases e <;> rfl
  have h1 := lineErrors_iff h hk (e := e)
  have h2 := lineErrors_iff h' hk' (e := moved (k' + 1) e)
  constructor
  · intro hm
    exact (h2.2 (lineError_moved ho hs hc hv (h1.1 ⟨hm, he⟩))).1
  · intro hm
    have hb := lineError_moved (g := ⟨rt.ovf, m.base, m.syms, lines text⟩) (k' := k) ho.symm hs.symm hc
      (fun st e t ht => (hv st e t ht).symm) (h2.1 ⟨hm, num _ _⟩)
    rw [moved_moved, ← he, moved_self] at hb
    exact (h1.2 hb).1

/-- **C69**.  An instruction of an accepted program is not complained about in any other file where the same of its texts are labels
(errors about references between lines aside). -/
theorem C69_taken [Unicode] (rt rt' : Rt) (m m' : Mipsasm) (text text' : Str) (ws : List Word) (es : List ParserError)
    (ho : rt.ovf = rt'.ovf) (hs : m.syms = m'.syms) (h : (assemble rt m text).words = some ws) (h' : (assemble rt' m' text').errors = some es)
    (k k' : Nat) (raw : Str) (hk : (lines text)[k]? = some raw) (hk' : (lines text')[k']? = some raw) (hc : kind raw = .code)
    (hv : ∀ st, plan (body raw) = some st →
      SameRefs ⟨rt.ovf, m.base, m.syms, lines text⟩ k ⟨rt'.ovf, m'.base, m'.syms, lines text'⟩ k' st) :
    ∀ e ∈ lineErrors es, e.line ≠ ⟨k' + 1, raw⟩ := by
  intro e he hl
  have a1 := ((C57_program rt m text ws).1 h).1.1 k raw hk
  exact (C56_lines rt' m' text' es h' k' raw hk').1 ⟨e, he, hl⟩ (lineTaken_congr (g := ⟨rt'.ovf, m'.base, m'.syms, lines text'⟩) ho hs hc hv a1)

/-! ### The hypotheses are satisfiable -/

def exHere : Str := c!"main:\nnop\nb main\nli $a0, 0x12345678"
def exThere : Str := c!"xor $a0, $a0, $a1\nli $a0, 0x12345678\nmain:\n\nor $v0, $v0, $a0\nb main"

/-- The hypotheses of `C69_line` are met: a branch to a label, on other lines of two programs with other base addresses. -/
example : letI := asciiUnicode
    (assemble (idRt true) Mipsasm.new exHere).words = some [0#32, 0x1000FFFE#32, 0x3C041234#32, 0x34845678#32] ∧
    (assemble (idRt true) ⟨0x80000000#32, [], false⟩ exThere).words =
      some [0x00852026#32, 0x3C041234#32, 0x34845678#32, 0x00441025#32, 0x1000FFFE#32] ∧
    (lines exHere)[2]? = some c!"b main" ∧ (lines exThere)[5]? = some c!"b main" ∧
    ∀ st, plan (body c!"b main") = some st →
      SameView ⟨true, 0#32, [], lines exHere⟩ 2 ⟨true, 0x80000000#32, [], lines exThere⟩ 5 st := by
  letI := asciiUnicode
  refine ⟨by decide +kernel, by decide +kernel, by decide +kernel, by decide +kernel, fun st hst => ?_⟩
  have e : plan (body c!"b main") = some [.const Lang.addr c!"main", .name c!"b"] := by decide +kernel
  rw [e] at hst; cases hst
  have def1 : ∀ d < 2, Defines (lines exHere) d c!"main" → d = 0 := by unfold Defines; decide +kernel
  have def2 : ∀ d < 5, Defines (lines exThere) d c!"main" → d = 2 := by unfold Defines; decide +kernel
  have tm : trim c!"main" = c!"main" := by decide +kernel
  have gl : Lang.Global (trim c!"main") := ⟨by decide +kernel, 'm', c!"ain", by decide +kernel, by decide +kernel⟩
  refine ⟨fun t ht v => ?_, fun t ht => ?_, fun t v ht hn => ?_⟩
  · have : t = c!"main" := by
      rcases ht with ⟨r, ht⟩ | ⟨b, s, o, ht, _⟩
      · simp at ht; exact ht.2
      · simp at ht
    subst this
    constructor
    · intro h
      cases h with
      | «local» d h1 _ => exact absurd h1 (by decide +kernel)
      | label d h1 h2 =>
        rw [def1 d h1 (tm ▸ h2.1)]
        exact .label 2 (by decide) ⟨by unfold Defines; decide +kernel, gl, by unfold Defines; decide +kernel⟩
    · intro h
      cases h with
      | «local» d h1 _ => exact absurd h1 (by decide +kernel)
      | label d h1 h2 =>
        rw [def2 d h1 (tm ▸ h2.1)]
        exact .label 0 (by decide) ⟨by unfold Defines; decide +kernel, gl, by unfold Defines; decide +kernel⟩
  · simp at ht
  · have : t = c!"main" := by simpa using ht
    subst this
    exact absurd hn.1 (by
      intro hh
      exact hh (.inr ⟨gl, 0, by decide, by unfold Defines; decide +kernel⟩))

/-- The hypotheses of `C69_free` are met by `li`, on lines 4 and 2 of the same two programs. -/
example : letI := asciiUnicode
    (lines exHere)[3]? = some c!"li $a0, 0x12345678" ∧ (lines exThere)[1]? = some c!"li $a0, 0x12345678" ∧
    (∀ st, plan (body c!"li $a0, 0x12345678") = some st → Free ⟨true, 0#32, [], lines exHere⟩ 3 st) ∧
    ∀ st, plan (body c!"li $a0, 0x12345678") = some st → Free ⟨true, 0x80000000#32, [], lines exThere⟩ 1 st := by
  letI := asciiUnicode
  have e : plan (body c!"li $a0, 0x12345678") = some [.gpr false c!"$a0", .word32 c!" 0x12345678", .name c!"li"] := by decide +kernel
  have men : ∀ t, Mentioned [.gpr false c!"$a0", .word32 c!" 0x12345678", .name c!"li"] t → t = c!" 0x12345678" := by
    intro t ht
    rcases ht with (⟨r, ht⟩ | ⟨b, s, o, ht, _⟩) | ⟨r, ht⟩ | ht | ht | ht
    · simp at ht
    · simp at ht
    · simp at ht
    · simp at ht
    · simpa using ht
    · simp at ht
  refine ⟨by decide +kernel, by decide +kernel, fun st hst => ?_, fun st hst => ?_⟩
  all_goals
    rw [e] at hst; cases hst
    refine ⟨fun t ht hr => ?_, fun t ht => by simp at ht, fun t v ht => by simp at ht⟩
    rw [men t ht] at hr
    rcases hr with hr | ⟨_, d, hd, hr⟩
    · exact absurd hr (by decide +kernel)
    · revert hr
      revert d
      unfold Defines
      decide +kernel

/-- Without them the words may differ: a branch to a number that stands at another place. -/
example : letI := asciiUnicode
    (assemble (idRt true) Mipsasm.new c!"b 8\nnop\nnop\nnop\nb 8").words = some [0x10000001#32, 0#32, 0#32, 0#32, 0x10000000#32] := by
  decide +kernel

/-- The hypotheses of `C69_errors` and `C69_taken` are met: a register that there is not, on line 1 and on line 3. -/
example : letI := asciiUnicode
    (assemble (idRt true) Mipsasm.new c!"or $a0, $zz, $a1\nnop").errors = some [.invalidRegister ⟨1, c!"or $a0, $zz, $a1"⟩ c!" $zz"] ∧
    (assemble (idRt true) Mipsasm.new c!"nop\n\nor $a0, $zz, $a1").errors = some [.invalidRegister ⟨3, c!"or $a0, $zz, $a1"⟩ c!" $zz"] ∧
    moved 3 (.invalidRegister ⟨1, c!"or $a0, $zz, $a1"⟩ c!" $zz") = .invalidRegister ⟨3, c!"or $a0, $zz, $a1"⟩ c!" $zz" ∧
    ∀ f k g k' st, plan (body c!"or $a0, $zz, $a1") = some st → SameRefs f k g k' st := by
  letI := asciiUnicode
  refine ⟨by decide +kernel, by decide +kernel, by decide +kernel, fun f k g k' st hst => ?_⟩
  have e : plan (body c!"or $a0, $zz, $a1") = some [.gpr false c!"$a0", .gpr false c!" $zz", .gpr false c!" $a1", .name c!"or"] := by decide +kernel
  rw [e] at hst; cases hst
  intro t ht
  rcases ht with (⟨r, ht⟩ | ⟨b, s, o, ht, _⟩) | ⟨r, ht⟩ | ht | ht | ht <;> simp at ht

end Mips
