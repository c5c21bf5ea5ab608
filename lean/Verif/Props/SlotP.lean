/- C52: the delay-slot warning names the branch. -/
import Verif.Props.Warn
import Verif.Props.DiagP

namespace Mips
open Source Branch Syntax

/-- The branch a delay-slot warning quotes, at the outcome of a line. -/
theorem outcome_slot [Unicode] {rt : Rt} {m : Mipsasm} {text : Str} {tr : List Outcome} (h : IsTrace (envOf rt m text) (lines text) tr)
    {k : Nat} {raw : Str} {o : Outcome} (hk : (lines text)[k]? = some raw) (ho : tr[k]? = some o) (l d : Line)
    (hw : .invalidInstructionInDelaySlot l d ∈ o.warns) : l = ⟨k, ((lines text)[k - 1]?).getD []⟩ := by
  have hr := h.2 k raw o hk ho
  have hlt : k < tr.length := (List.getElem?_eq_some_iff.1 ho).1
  have e1 : (ctxAt (envOf rt m text) (tr.take k)).lineNum - 1 = k := by
    show (tr.take k).length + 1 - 1 = k
    rw [List.length_take]; omega
  have e2 : (ctxAt (envOf rt m text) (tr.take k)).prevContent = ((lines text)[k - 1]?).getD [] := by
    show ((lines text)[(tr.take k).length + 1 - 2]?).getD [] = _
    rw [List.length_take, show min k tr.length + 1 - 2 = k - 1 by omega]
  unfold lineRes at hr
  split at hr
  · cases hr; cases hw
  · obtain ⟨h1, h2⟩ := labelRes_warns hr
    cases o with
    | inst ws i => exact absurd rfl (h1 ws i)
    | rejected ws e => rw [Outcome.warns, h2 ws e rfl] at hw; cases hw
    | _ => cases hw
  · have hw' : ParserWarning.invalidInstructionInDelaySlot l d ∈ (parseInst (ctxAt (envOf rt m text) (tr.take k)) (body raw)).warns := by
      cases o with
      | inst ws i => rw [Outcome.warns, (instRes_inst hr).1] at hw; exact hw
      | rejected ws e => rw [Outcome.warns, (instRes_rejected hr).1] at hw; exact hw
      | _ => cases hw
    have := parseInst_warns (P := fun w => ∀ l d, w = .invalidInstructionInDelaySlot l d → l = ⟨k, ((lines text)[k - 1]?).getD []⟩)
      (ctxAt (envOf rt m text) (tr.take k)) (body raw) (fun l d e => by cases e; rw [e1, e2]) (fun _ _ _ _ e => by cases e) (fun _ _ _ _ e => by cases e) _ hw'
    exact this l d rfl

/-- **C52, the exact rule.**  A delay-slot warning is about an instruction line, and quotes the source line directly in front of it as
the one with the delay slot - whatever that line is. -/
theorem C52_exact [Unicode] (rt : Rt) (m : Mipsasm) (text : Str) (is : List Instruction) (ws : List ParserWarning)
    (h : assemble rt m text = .ok is ws) (l d : Line) (hw : .invalidInstructionInDelaySlot l d ∈ ws) :
    ∃ k prev raw, (lines text)[k]? = some prev ∧ (lines text)[k + 1]? = some raw ∧ kind raw = .code ∧ l = ⟨k + 1, prev⟩ ∧ d = ⟨k + 2, raw⟩ ∧
      mnemonic (body raw) ∈ transfers ∧ ∃ q, before (lines text) (k + 1) = some q ∧ mnemonic (body q) ∈ transfers := by
  obtain ⟨j, raw, hj, hc, ha⟩ := C34_lines h _ hw
  have ha : d = ⟨j + 1, raw⟩ := ha
  obtain ⟨h1, h2⟩ := C34_exact h hj hc
  have hm : ParserWarning.invalidInstructionInDelaySlot l d ∈ delayWarnings ws (j + 1) := by
    unfold delayWarnings
    rw [List.mem_filter]
    refine ⟨hw, ?_⟩
    rw [ha]
    simp [ParserWarning.isDelay, ParserWarning.about]
  have hlen : (delayWarnings ws (j + 1)).length = 1 := by
    have := List.length_pos_of_mem hm; omega
  obtain ⟨h3, q, h4, h5, h6⟩ := h1.1 hlen
  cases j with
  | zero => simp [before] at h4
  | succ j =>
    obtain ⟨tr, hT, he, hws, _⟩ := assemble_ok h
    have hlt : j + 1 < (lines text).length := (List.getElem?_eq_some_iff.1 hj).1
    have hl : l = ⟨j + 1, ((lines text)[j]?).getD []⟩ := by
      rw [hws] at hw
      obtain ⟨k, hk⟩ := mem_outWarns hw
      have key : ∀ o, tr[k]? = some o → ParserWarning.invalidInstructionInDelaySlot l d ∈ o.warns → l = ⟨j + 1, ((lines text)[j]?).getD []⟩ := by
        intro o ho hwo
        have hkl : k < (lines text).length := by rw [← hT.1]; exact (List.getElem?_eq_some_iff.1 ho).1
        have hab := outcome_about hT (List.getElem?_eq_getElem hkl) ho _ hwo
        have hab : d = ⟨k + 1, (lines text)[k]⟩ := hab
        have hkj : k = j + 1 := by
          have := ha.symm.trans hab
          injection this with e1 e2
          omega
        rw [outcome_slot hT (List.getElem?_eq_getElem hkl) ho l d hwo, hkj]
        rfl
      rcases hk with ⟨ws', i, ho, hwo⟩ | ⟨ws', e, ho, hwo⟩
      · exact key _ ho hwo
      · exact key _ ho hwo
    have hp : (lines text)[j]? = some ((lines text)[j]'(by omega)) := List.getElem?_eq_getElem _
    rw [hp] at hl
    exact ⟨j, _, raw, hp, hj, hc, hl, ha, h3, q, h4, h5⟩

/-- **C52** (branches directly in front of the instruction).  If the line in front of the instruction is an instruction, the quoted line
is the branch in whose delay slot it stands. -/
theorem C52_names_partial [Unicode] (rt : Rt) (m : Mipsasm) (text : Str) (is : List Instruction) (ws : List ParserWarning)
    (h : assemble rt m text = .ok is ws) (l d : Line) (hw : .invalidInstructionInDelaySlot l d ∈ ws)
    (hc : kind l.content = .code) :
    (lines text)[d.num - 1]? = some d.content ∧ (lines text)[l.num - 1]? = some l.content ∧
      before (lines text) (d.num - 1) = some l.content ∧ mnemonic (body l.content) ∈ transfers := by
  obtain ⟨k, prev, raw, h1, h2, h3, rfl, rfl, h4, q, h5, h6⟩ := C52_exact rt m text is ws h l d hw
  have hb : before (lines text) (k + 1) = some prev := by
    unfold before
    rw [List.take_add_one, h1]
    simp only [Option.toList_some, List.filter_append, List.filter_cons, List.filter_nil]
    rw [if_pos (by simp [isCode, show kind prev = .code from hc])]
    simp
  rw [h5] at hb
  cases hb
  exact ⟨h2, h1, h5, h6⟩

/-- Non-vacuity. -/
example : (@assemble asciiUnicode (idRt true) Mipsasm.new c!"foo:\n  beq $a0, $a1, foo\n  jr $ra").warnings =
      some [.invalidInstructionInDelaySlot ⟨2, c!"  beq $a0, $a1, foo"⟩ ⟨3, c!"  jr $ra"⟩] ∧ kind c!"  beq $a0, $a1, foo" = .code := by
  refine ⟨?_, ?_⟩ <;> decide +kernel

/-- **C52** is false if there is a blank line, a comment or a label between the branch and the instruction: that line is quoted as the
one with the delay slot. -/
theorem C52_wrong :
    (@assemble asciiUnicode (idRt true) Mipsasm.new c!"j 0\n; comment\njr $ra").warnings =
      some [.invalidInstructionInDelaySlot ⟨2, c!"; comment"⟩ ⟨3, c!"jr $ra"⟩] ∧
    before (lines c!"j 0\n; comment\njr $ra") 2 = some c!"j 0" := by
  refine ⟨?_, ?_⟩ <;> decide +kernel

end Mips
