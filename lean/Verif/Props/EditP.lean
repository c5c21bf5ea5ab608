/-
**C68** — editing instructions in place: what a line stands for depends on that line and on the outline of the file only.
-/
import Verif.Lemmas.EditL
import Verif.Props.CodeP
import Verif.Props.ReportP

namespace Mips
open Source Syntax Branch Operands Edit
open Lang (plan)

section
variable [Unicode] {rt : Rt} {m : Mipsasm} {text text' : Str}

theorem alike_of (h : SameOutline (lines text) (lines text')) :
    Alike ⟨rt.ovf, m.base, m.syms, lines text⟩ ⟨rt.ovf, m.base, m.syms, lines text'⟩ := ⟨rfl, rfl, rfl, h⟩

/-- the errors of a line are the complaints about it -/
theorem lineErrors_iff {es : List ParserError} (h : (assemble rt m text).errors = some es) {k : Nat} {raw : Str} (hk : (lines text)[k]? = some raw)
    {e : ParserError} : (e ∈ lineErrors es ∧ e.line.num = k + 1) ↔ Lang.LineError ⟨rt.ovf, m.base, m.syms, lines text⟩ k raw e := by
  have fwd : ∀ {e : ParserError}, e ∈ lineErrors es → e.line.num = k + 1 → Lang.LineError ⟨rt.ovf, m.base, m.syms, lines text⟩ k raw e := by
    intro e he hn
    obtain ⟨tr, out, hT, rfl, b, c⟩ := assemble_errors h
    unfold lineErrors at he
    obtain ⟨he, hr⟩ := List.mem_filter.1 he
    rcases List.mem_append.1 he with he | he
    · obtain ⟨k', ws, hk'⟩ := outErrors_get he
      obtain ⟨raw', h1, h2, h3⟩ := trace_err_line hT hk'
      have h1 : (lines text)[k']? = some raw' := h1
      rw [h2] at hn
      have : k' = k := by simp only at hn; omega
      subst this
      rw [hk] at h1; cases h1
      exact line_error hT hk hk'
    · rw [(ref_isRef b c e he).1] at hr; cases hr
  constructor
  · rintro ⟨h1, h2⟩; exact fwd h1 h2
  · intro hl
    obtain ⟨e', h1, h2⟩ := (C56_lines rt m text es h k raw hk).2 (lineError_not hl)
    have := fwd h1 (by rw [h2])
    rw [lineError_unique (lines_noNl text _ (List.mem_of_getElem? hk)) hl this]
    exact ⟨h1, by rw [h2]⟩

end

/-- **C68**.  If two files with the same outline are accepted, an instruction that is on the same line in both has the same words. -/
theorem C68_line [Unicode] (rt : Rt) (m : Mipsasm) (text text' : Str) (is is' : List Instruction) (warns warns' : List ParserWarning)
    (ho : SameOutline (lines text) (lines text')) (h : assemble rt m text = .ok is warns) (h' : assemble rt m text' = .ok is' warns')
    (k : Nat) (raw : Str) (hk : (lines text)[k]? = some raw) (hk' : (lines text')[k]? = some raw) (hc : kind raw = .code) :
    (is[codeCount ((lines text).take k)]?).map Instruction.getBytes = (is'[codeCount ((lines text').take k)]?).map Instruction.getBytes := by
  obtain ⟨ws, hw⟩ : ∃ ws, (is[codeCount ((lines text).take k)]?).map Instruction.getBytes = some ws := by
    obtain ⟨tr, x, wn, p, a, b, _, _, _, _, _, _, _, _, _, hi, _⟩ := line_done h hk hc
    exact ⟨b.getBytes, by rw [hi]; rfl⟩
  rw [hw]
  have h1 := (C57_line rt m text is warns h k raw hk hc ws).1 hw
  exact ((C57_line rt m text' is' warns' h' k raw hk' hc ws).2 ((alike_of ho).lineWords h1)).symm

/-- **C68**.  If two files with the same outline are accepted, so is every file that has, on each line, the line of the one or the line
of the other. -/
theorem C68_mix [Unicode] (rt : Rt) (m : Mipsasm) (text text' mixed : Str) (ws ws' : List Word)
    (ho : SameOutline (lines text) (lines text')) (hm : Mixed (lines text) (lines text') (lines mixed))
    (h : (assemble rt m text).words = some ws) (h' : (assemble rt m text').words = some ws') :
    ∃ ws'', (assemble rt m mixed).words = some ws'' := by
  have a1 := ((C57_program rt m text ws).1 h).1
  have a2 := ((C57_program rt m text' ws').1 h').1
  have hmx : SameOutline (lines text) (lines mixed) := by
    unfold SameOutline
    apply List.ext_getElem?
    intro k
    rw [List.getElem?_map, List.getElem?_map]
    cases hk : (lines mixed)[k]? with
    | none =>
      have := List.getElem?_eq_none_iff.1 hk
      rw [List.getElem?_eq_none_iff.2 (by rw [← hm.1]; exact this)]
    | some raw =>
      rcases hm.2 k raw hk with e | e
      · rw [e]
      · have e2 : ((lines text).map kind)[k]? = ((lines text').map kind)[k]? := by rw [ho]
        rw [List.getElem?_map, List.getElem?_map, e] at e2
        exact e2
  have hmx' : SameOutline (lines text') (lines mixed) := ho.symm.trans hmx
  have := Edit.Alike.mix a1 a2 (alike_of (rt := rt) (m := m) hmx) (alike_of hmx') hm.2
  obtain ⟨is, wn, e⟩ := (C56_verdict rt m mixed).2.2.2 this
  exact ⟨getBytes is, by rw [e]; rfl⟩

/-- **C68**.  If two files with the same outline are assembled, with or without errors, the errors about an instruction that is on the same
line in both are the same (errors about references between lines aside). -/
theorem C68_errors [Unicode] (rt : Rt) (m : Mipsasm) (text text' : Str) (es es' : List ParserError)
    (ho : SameOutline (lines text) (lines text')) (h : (assemble rt m text).errors = some es) (h' : (assemble rt m text').errors = some es')
    (k : Nat) (raw : Str) (hk : (lines text)[k]? = some raw) (hk' : (lines text')[k]? = some raw) (hc : kind raw = .code)
    (e : ParserError) (he : e.line.num = k + 1) : e ∈ lineErrors es ↔ e ∈ lineErrors es' := by
  have h1 := lineErrors_iff h hk (e := e)
  have h2 := lineErrors_iff h' hk' (e := e)
  rw [(alike_of ho).lineError hc, ← h2] at h1
  exact ⟨fun x => (h1.1 ⟨x, he⟩).1, fun x => (h1.2 ⟨x, he⟩).1⟩

/-- **C68**.  Replacing one instruction by another leaves the words in front of it and the words behind it as they were. -/
theorem C68_patch [Unicode] (rt : Rt) (m : Mipsasm) (text text' : Str) (pre post : List Str) (raw raw' : Str)
    (hl : lines text = pre ++ raw :: post) (hl' : lines text' = pre ++ raw' :: post) (hc : kind raw = .code) (hc' : kind raw' = .code)
    (ws ws' : List Word) (h : (assemble rt m text).words = some ws) (h' : (assemble rt m text').words = some ws') :
    ∃ a w w' b, ws = a ++ w ++ b ∧ ws' = a ++ w' ++ b ∧ Lang.Generates ⟨rt.ovf, m.base, m.syms, lines text⟩ pre.length a ∧
      Lang.LineWords ⟨rt.ovf, m.base, m.syms, lines text⟩ pre.length raw w ∧ Lang.LineWords ⟨rt.ovf, m.base, m.syms, lines text'⟩ pre.length raw' w' := by
  have ho : SameOutline (lines text) (lines text') := by unfold SameOutline; rw [hl, hl']; simp [hc, hc']
  have hA := alike_of (rt := rt) (m := m) ho
  have hg := ((C57_program rt m text ws).1 h).2
  have hg' := ((C57_program rt m text' ws').1 h').2
  have same : ∀ {k a}, Lang.Generates ⟨rt.ovf, m.base, m.syms, lines text⟩ k a → k ≤ pre.length → Lang.Generates ⟨rt.ovf, m.base, m.syms, lines text'⟩ k a := by
    intro k a hk
    induction hk with
    | none => intro _; exact .none
    | inst k r w out _ h1 h2 h3 ih =>
      intro hle
      have h1' : (lines text')[k]? = some r := by
        have h1 : (lines text)[k]? = some r := h1
        rw [hl, List.getElem?_append_left (by omega)] at h1
        rw [hl', List.getElem?_append_left (by omega)]; exact h1
      exact .inst k r w out (ih (by omega)) h1' h2 (hA.lineWords h3)
    | other k r out _ h1 h2 ih =>
      intro hle
      have h1' : (lines text')[k]? = some r := by
        have h1 : (lines text)[k]? = some r := h1
        rw [hl, List.getElem?_append_left (by omega)] at h1
        rw [hl', List.getElem?_append_left (by omega)]; exact h1
      exact .other k r out (ih (by omega)) h1' h2
  have L0 : (lines text)[pre.length]? = some raw := by rw [hl]; simp
  have L0' : (lines text')[pre.length]? = some raw' := by rw [hl']; simp
  have step : ∀ (n : Nat) (out : List Word), Lang.Generates ⟨rt.ovf, m.base, m.syms, lines text⟩ (pre.length + 1 + n) out →
      ∃ a w b, out = a ++ w ++ b ∧ Lang.Generates ⟨rt.ovf, m.base, m.syms, lines text⟩ pre.length a ∧
        Lang.LineWords ⟨rt.ovf, m.base, m.syms, lines text⟩ pre.length raw w ∧
        ∀ w', Lang.LineWords ⟨rt.ovf, m.base, m.syms, lines text'⟩ pre.length raw' w' →
          Lang.Generates ⟨rt.ovf, m.base, m.syms, lines text'⟩ (pre.length + 1 + n) (a ++ w' ++ b) := by
    intro n
    induction n with
    | zero =>
      intro out hout
      generalize hK : pre.length + 1 + 0 = K at hout
      cases hout with
      | none => omega
      | inst k r w out h0 h1 h2 h3 =>
        have : k = pre.length := by omega
        subst this
        have h1 : (lines text)[pre.length]? = some r := h1
        rw [L0] at h1; cases h1
        refine ⟨out, w, [], by simp, h0, h3, fun w' hw' => ?_⟩
        rw [List.append_nil]
        exact .inst _ raw' w' out (same h0 (Nat.le_refl _)) L0' hc' hw'
      | other k r out h0 h1 h2 =>
        have : k = pre.length := by omega
        subst this
        have h1 : (lines text)[pre.length]? = some r := h1
        rw [L0] at h1; cases h1
        exact absurd hc h2
    | succ n ih =>
      intro out hout
      have tail : ∀ r, (lines text)[pre.length + 1 + n]? = some r → (lines text')[pre.length + 1 + n]? = some r := by
        intro r hr
        rw [hl, List.getElem?_append_right (by omega), show pre.length + 1 + n - pre.length = n + 1 by omega, List.getElem?_cons_succ] at hr
        rw [hl', List.getElem?_append_right (by omega), show pre.length + 1 + n - pre.length = n + 1 by omega, List.getElem?_cons_succ]
        exact hr
      generalize hK : pre.length + 1 + (n + 1) = K at hout
      cases hout with
      | none => omega
      | inst k r w out h0 h1 h2 h3 =>
        have : k = pre.length + 1 + n := by omega
        subst this
        obtain ⟨a, w0, b, e, g1, g2, g3⟩ := ih _ h0
        refine ⟨a, w0, b ++ w, by rw [e]; simp, g1, g2, fun w' hw' => ?_⟩
        rw [← List.append_assoc]
        exact .inst _ r w _ (g3 w' hw') (tail r h1) h2 (hA.lineWords h3)
      | other k r out h0 h1 h2 =>
        have : k = pre.length + 1 + n := by omega
        subst this
        obtain ⟨a, w0, b, e, g1, g2, g3⟩ := ih _ h0
        exact ⟨a, w0, b, e, g1, g2, fun w' hw' => .other _ r _ (g3 w' hw') (tail r h1) h2⟩
  have len : (lines text).length = pre.length + 1 + post.length := by rw [hl]; simp; omega
  have len' : (lines text').length = pre.length + 1 + post.length := by rw [hl']; simp; omega
  rw [len] at hg
  obtain ⟨a, w, b, e, g1, g2, g3⟩ := step _ _ hg
  obtain ⟨is', wn', hok⟩ : ∃ is' wn', assemble rt m text' = .ok is' wn' := by
    cases hx : assemble rt m text' with
    | ok is' wn' => exact ⟨is', wn', rfl⟩
    | err => rw [hx] at h'; cases h'
    | panic => rw [hx] at h'; cases h'
  obtain ⟨w', hw'⟩ : ∃ w', (is'[codeCount ((lines text').take pre.length)]?).map Instruction.getBytes = some w' := by
    obtain ⟨tr, x, wn, p, a, b, _, _, _, _, _, _, _, _, _, hi, _⟩ := line_done hok L0' hc'
    exact ⟨b.getBytes, by rw [hi]; rfl⟩
  have hw2 := (C57_line rt m text' is' wn' hok pre.length raw' L0' hc' w').1 hw'
  have fin := (C57_program rt m text' (a ++ w' ++ b)).2 ⟨((C57_program rt m text' ws').1 h').1, by rw [len']; exact g3 w' hw2⟩
  rw [h'] at fin
  cases fin
  exact ⟨a, w, w', b, e, rfl, g1, g2, hw2⟩

/-! ### The hypotheses are satisfiable -/

def exEdit : Str := c!"main:\n@@l:\naddiu $a0, $a0, -1\nbne $a0, $zero, @@l\nnop\njal main\nlast:\njr $ra"
def exEdit' : Str := c!"main:\n@@l:\nli $a0, 0x12345678\nbeqz $a0, @@l\nnop\nj last\nlast:\nmove $v0, $a0"
def exMixed : Str := c!"main:\n@@l:\nli $a0, 0x12345678\nbne $a0, $zero, @@l\nnop\njal main\nlast:\nmove $v0, $a0"

/-- The hypotheses of `C68_line` and `C68_mix` are met by two programs and a mixture. -/
example : letI := asciiUnicode
    SameOutline (lines exEdit) (lines exEdit') ∧ Mixed (lines exEdit) (lines exEdit') (lines exMixed) ∧
    (assemble (idRt true) Mipsasm.new exEdit).words = some [0x2484FFFF#32, 0x1480FFFE#32, 0#32, 0x0C000000#32, 0x03E00008#32] ∧
    (assemble (idRt true) Mipsasm.new exEdit').words = some [0x3C041234#32, 0x34845678#32, 0x1080FFFE#32, 0#32, 0x08000004#32, 0x00041021#32] ∧
    (assemble (idRt true) Mipsasm.new exMixed).words = some [0x3C041234#32, 0x34845678#32, 0x1480FFFE#32, 0#32, 0x0C000000#32, 0x00041021#32] := by
  letI := asciiUnicode
  refine ⟨by unfold SameOutline; decide +kernel, ⟨by decide +kernel, ?_⟩, by decide +kernel, by decide +kernel, by decide +kernel⟩
  intro k raw hk
  have hlt : k < (lines exMixed).length := (List.getElem?_eq_some_iff.1 hk).1
  have key : ∀ k < (lines exMixed).length, (lines exMixed)[k]? = (lines exEdit)[k]? ∨ (lines exMixed)[k]? = (lines exEdit')[k]? := by decide +kernel
  rcases key k hlt with e | e
  · exact .inl (e ▸ hk)
  · exact .inr (e ▸ hk)

/-- The hypotheses of `C68_errors` are met: the error about line 2 is the same in both files. -/
example : letI := asciiUnicode
    SameOutline (lines c!"main:\naddiu $a0, $zz, 1\nb main") (lines c!"main:\naddiu $a0, $zz, 1\nb 7z") ∧
    (assemble (idRt true) Mipsasm.new c!"main:\naddiu $a0, $zz, 1\nb main").errors =
      some [.invalidRegister ⟨2, c!"addiu $a0, $zz, 1"⟩ c!" $zz"] ∧
    (assemble (idRt true) Mipsasm.new c!"main:\naddiu $a0, $zz, 1\nb 7z").errors =
      some [.invalidRegister ⟨2, c!"addiu $a0, $zz, 1"⟩ c!" $zz", .invalidImmediate ⟨3, c!"b 7z"⟩ c!"7z"] := by
  exact ⟨by unfold SameOutline; decide +kernel, by decide +kernel, by decide +kernel⟩

/-- The hypotheses of `C68_patch` are met: a line with two words is replaced by one with one word. -/
example : letI := asciiUnicode
    let pre := [c!"main:", c!"@@l:"]
    let post := [c!"bne $a0, $zero, @@l", c!"nop", c!"jal main", c!"last:", c!"jr $ra"]
    lines exEdit = pre ++ c!"addiu $a0, $a0, -1" :: post ∧
    lines c!"main:\n@@l:\nli $a0, 0x12345678\nbne $a0, $zero, @@l\nnop\njal main\nlast:\njr $ra" = pre ++ c!"li $a0, 0x12345678" :: post ∧
    kind c!"addiu $a0, $a0, -1" = .code ∧ kind c!"li $a0, 0x12345678" = .code ∧
    (assemble (idRt true) Mipsasm.new c!"main:\n@@l:\nli $a0, 0x12345678\nbne $a0, $zero, @@l\nnop\njal main\nlast:\njr $ra").words =
      some [0x3C041234#32, 0x34845678#32, 0x1480FFFE#32, 0#32, 0x0C000000#32, 0x03E00008#32] := by
  exact ⟨by decide +kernel, by decide +kernel, by decide +kernel, by decide +kernel, by decide +kernel⟩

end Mips
