/-
**C70** — symbols can stand for labels: a program jumps to a label in another file by its address in the symbol table.
-/
import Verif.Lemmas.ExportL
import Verif.Props.LinkP

namespace Mips
open Source Syntax Branch Operands Export
open Lang (plan)

/-- **C70**.  Telling the assembler the addresses of labels of the program changes nothing. -/
theorem C70_add [Unicode] (rt : Rt) (m : Mipsasm) (text : Str) (syms' : List (BitVec 32 × Str)) (ws : List Word)
    (he : Extends m.base (lines text) m.syms syms') (h : (assemble rt m text).words = some ws) :
    (assemble rt { m with syms := syms' } text).words = some ws := by
  rw [C57_program] at h ⊢
  exact ⟨accepted_up he h.1, generates_up he h.2⟩

/-- **C70**.  Nor does it if they are not told, unless a label is used other than to jump to it. -/
theorem C70_drop [Unicode] (rt : Rt) (m : Mipsasm) (text : Str) (syms' : List (BitVec 32 × Str)) (ws : List Word)
    (he : Extends m.base (lines text) m.syms syms') (hj : JumpsOnly (lines text) m.syms syms')
    (hr : rt.ovf = true → m.base.toNat + 4 * codeCount (lines text) < 2 ^ 32)
    (h : (assemble rt { m with syms := syms' } text).words = some ws) : (assemble rt m text).words = some ws := by
  have ha := accepted_down he hj hr ((C57_program rt { m with syms := syms' } text ws).1 h).1
  obtain ⟨is, wn, e⟩ := (C56_verdict rt m text).2.2.2 ha
  have hw : (assemble rt m text).words = some (getBytes is) := by rw [e]; rfl
  have := C70_add rt m text syms' _ he hw
  rw [h] at this
  rw [hw, this]

/-- **C70**.  Separate assembly of two programs that jump to labels of each other: if each is assembled with a symbol table that has the
addresses of these labels (and the second for the address behind the first), the code of the first followed by the code of the second is the
code of the whole, where they are labels. -/
theorem C70_link [Unicode] (rt : Rt) (m : Mipsasm) (ta tb text : Str) (syms' : List (BitVec 32 × Str)) (wa wb : List Word)
    (h : Link.Apart syms' (lines ta) (lines tb)) (hl : lines text = lines ta ++ lines tb)
    (hr : m.base.toNat + 4 * (codeCount (lines ta) + codeCount (lines tb)) < 2 ^ 32)
    (he : Extends m.base (lines text) m.syms syms') (hj : JumpsOnly (lines text) m.syms syms')
    (ha : (assemble rt { m with syms := syms' } ta).words = some wa)
    (hb : (assemble rt { m with base := m.base + BitVec.ofNat 32 (4 * codeCount (lines ta)), syms := syms' } tb).words = some wb) :
    (assemble rt m text).words = some (wa ++ wb) := by
  refine C70_drop rt m text syms' _ he hj (fun _ => ?_) (C67_separate rt { m with syms := syms' } ta tb text wa wb h hl hr ha hb)
  rw [hl, codeCount_append]; exact hr

/-! ### Limits -/

/-- With an address that is not the label's, the symbol wins. -/
theorem C70_other_wrong : letI := asciiUnicode
    (assemble (idRt true) Mipsasm.new c!"main:\nj main\nnop").words = some [0x08000000#32, 0#32] ∧
    (assemble (idRt true) ⟨0#32, [(0x400#32, c!"main")], false⟩ c!"main:\nj main\nnop").words = some [0x08000100#32, 0#32] := by decide +kernel

/-- The address of a label can be split only if it is a symbol too. -/
theorem C70_half_wrong : letI := asciiUnicode
    (assemble (idRt true) ⟨0#32, [(0#32, c!"main")], false⟩ c!"main:\nlui $a0, %hi(main)").words = some [0x3C040000#32] ∧
    assemble (idRt true) Mipsasm.new c!"main:\nlui $a0, %hi(main)" = .panic := by
  exact ⟨by decide +kernel, by decide +kernel⟩

/-! ### Example -/

def exOne : Str := c!"first:\n@@l:\naddiu a0, a0, -1\njal G\nbne a0, zero, @@l\nnop\nlast:\njr ra\nnop\n"
def exTwo : Str := c!"G:\naddiu v0, v0, 2\nj first\nnop\n"
def exShared : List (BitVec 32 × Str) := [(0x80000000#32, c!"first"), (0x80000018#32, c!"G")]

theorem exOne_lines : lines exOne =
    [c!"first:", c!"@@l:", c!"addiu a0, a0, -1", c!"jal G", c!"bne a0, zero, @@l", c!"nop", c!"last:", c!"jr ra", c!"nop"] := by decide +kernel
theorem exTwo_lines : lines exTwo = [c!"G:", c!"addiu v0, v0, 2", c!"j first", c!"nop"] := by decide +kernel

theorem exOne_def {d : Nat} {l : Str} (h : Defines (lines exOne) d l) : l = c!"first" ∨ l = c!"@@l" ∨ l = c!"last" := by
  have hd := Link.defines_lt h
  obtain ⟨raw, h1, h2⟩ := h
  have k2 : ∀ raw ∈ lines exOne, kind raw = .blank ∨ kind raw = .code ∨ kind raw = .label c!"first" ∨ kind raw = .label c!"@@l" ∨
      kind raw = .label c!"last" := by decide +kernel
  rcases k2 raw (List.mem_of_getElem? h1) with k | k | k | k | k <;> rw [h2] at k <;> cases k
  · exact .inl rfl
  · exact .inr (.inl rfl)
  · exact .inr (.inr rfl)

theorem exOneTwo : @Link.Apart asciiUnicode exShared (lines exOne) (lines exTwo) := by
  letI := asciiUnicode
  refine ⟨?_, ?_, ?_, ?_, ?_⟩
  · rintro d e l hl hd ⟨raw, h1, h2⟩
    have : ∀ raw ∈ lines exTwo, kind raw ≠ .label c!"first" ∧ kind raw ≠ .label c!"last" := by decide +kernel
    have := this raw (List.mem_of_getElem? h1)
    rcases exOne_def hd with rfl | rfl | rfl
    · exact this.1 h2
    · exact absurd hl (by decide)
    · exact this.2 h2
  · intro d l hl hd raw hr hm
    have key : ∀ raw ∈ lines exTwo, kind raw = .code → 's' ∈ raw → raw = c!"j first" := by decide +kernel
    have k2 : ∀ raw ∈ lines exTwo, kind raw = .code → 'l' ∉ raw := by decide +kernel
    rcases exOne_def hd with rfl | rfl | rfl
    · obtain rfl := key raw hr hm.1 (Fresh.mentions_chars hm 's' (by decide))
      exact ⟨⟨c!"first", c!"j", by decide +kernel⟩, by decide +kernel⟩
    · exact absurd hl (by decide)
    · exact absurd (Fresh.mentions_chars hm 'l' (by decide)) (k2 raw hr hm.1)
  · intro e x hx hd
    obtain ⟨raw, h1, h2⟩ := hd
    have : ∀ raw ∈ lines exTwo, kind raw = .blank ∨ kind raw = .code ∨ kind raw = .label c!"G" := by decide +kernel
    rcases this raw (List.mem_of_getElem? h1) with k | k | k <;> rw [h2] at k <;> cases k
    exact absurd hx (by decide)
  · intro d k x raw hx hd hk hm
    have k2 : ∀ raw ∈ lines exTwo, '@' ∉ raw := by decide +kernel
    rcases exOne_def hd with rfl | rfl | rfl
    · exact absurd hx (by decide)
    · exact absurd (Fresh.mentions_chars hm '@' (by decide)) (k2 raw (List.mem_of_getElem? hk))
    · exact absurd hx (by decide)
  · intro raw hr st t v hp ht hn
    have key : ∀ raw ∈ lines exTwo, ∀ st ∈ plan (body raw), ∀ x ∈ st, ∀ t ∈ (match x with | .const r t => if r = Lang.addr then some t else none | _ => none),
        Rename.Name [] (trim t) := by decide +kernel
    exact Rename.name_numeral (key raw hr st hp _ ht t (by simp)) hn

theorem exOneTwo_lines : lines (exOne ++ exTwo) = lines exOne ++ lines exTwo := by decide +kernel

theorem exOneTwo_extends : @Extends asciiUnicode 0x80000000#32 (lines (exOne ++ exTwo)) [] exShared := by
  letI := asciiUnicode
  intro t
  by_cases h1 : t = c!"first"
  · subst h1
    exact .inr ⟨rfl, 0, ⟨by unfold Defines; decide +kernel, ⟨by decide +kernel, 'f', c!"irst", rfl, by decide +kernel⟩, by intro d hd; omega⟩, by decide +kernel⟩
  · by_cases h2 : t = c!"G"
    · subst h2
      exact .inr ⟨rfl, 9, ⟨by unfold Defines; decide +kernel, ⟨by decide +kernel, 'G', [], rfl, by decide +kernel⟩, by unfold Defines; decide +kernel⟩,
        by decide +kernel⟩
    · left
      unfold Lang.symbol exShared
      simp [Ne.symm h1, Ne.symm h2]

theorem exOneTwo_jumps : @JumpsOnly asciiUnicode (lines (exOne ++ exTwo)) [] exShared := by
  letI := asciiUnicode
  refine ⟨?_, ?_⟩
  · intro c t ⟨_, h⟩
    rcases exOneTwo_extends (c :: t) with e | ⟨_, d, hd, _⟩
    · exact absurd e (by intro e; exact h e)
    · by_cases h1 : c :: t = c!"first"
      · cases h1; decide
      · by_cases h2 : c :: t = c!"G"
        · cases h2; decide
        · exfalso; apply h
          unfold Lang.symbol exShared
          simp [Ne.symm h1, Ne.symm h2]
  · intro raw hr st t m hp ht ⟨a, b, e, _⟩
    have key : ∀ raw ∈ lines (exOne ++ exTwo), '(' ∉ raw := by decide +kernel
    have k2 : ∀ raw ∈ lines (exOne ++ exTwo), plan (body raw) ≠ none → kind raw = .code := by decide +kernel
    have hc := k2 raw hr (by rw [hp]; simp)
    have hL : Link.Looks st t := by
      rcases ht with ht | ⟨r, ht⟩ | ht | ht | ht
      · exact Link.looks_constant ht
      · exact .inl ⟨_, ht, rfl⟩
      · exact .inl ⟨_, ht, rfl⟩
      · exact .inl ⟨_, ht, rfl⟩
      · exact .inl ⟨_, ht, rfl⟩
    exact absurd (Fresh.mentions_chars (Link.looks_mentions hc hp hL) '(' (by rw [e]; simp)) (key raw hr)

/-- The hypotheses of the theorems are met: two programs that call each other. -/
example : letI := asciiUnicode
    let m : Mipsasm := ⟨0x80000000#32, [], false⟩
    Link.Apart exShared (lines exOne) (lines exTwo) ∧ lines (exOne ++ exTwo) = lines exOne ++ lines exTwo ∧
    m.base.toNat + 4 * (codeCount (lines exOne) + codeCount (lines exTwo)) < 2 ^ 32 ∧
    Extends m.base (lines (exOne ++ exTwo)) m.syms exShared ∧ JumpsOnly (lines (exOne ++ exTwo)) m.syms exShared ∧
    (assemble (idRt true) { m with syms := exShared } exOne).words =
      some [0x2484FFFF#32, 0x0C000006#32, 0x1480FFFD#32, 0#32, 0x03E00008#32, 0#32] ∧
    (assemble (idRt true) { m with base := m.base + BitVec.ofNat 32 (4 * codeCount (lines exOne)), syms := exShared } exTwo).words =
      some [0x24420002#32, 0x08000000#32, 0#32] ∧
    -- neither is accepted without the symbols
    (assemble (idRt true) m exOne).words = none ∧ (assemble (idRt true) m exTwo).words = none := by
  letI := asciiUnicode
  exact ⟨exOneTwo, exOneTwo_lines, by decide +kernel, exOneTwo_extends, exOneTwo_jumps, by decide +kernel, by decide +kernel, by decide +kernel, by decide +kernel⟩

end Mips
