/- C22: comments, blank lines and indentation are ignored. -/
import Verif.Lemmas.DecorL
import Verif.Lemmas.TextL

namespace Mips
open Source Syntax Decor Branch

/-- Two related results, in terms of the result without source lines. -/
theorem outSim_erase {a b : AsmOut} (h : OutSim ParserError.erase ParserWarning.erase a b) : a.erase = b.erase := by
  cases a <;> cases b <;> simp only [OutSim] at h <;> simp [AsmOut.erase, h]

theorem outSim_bare {a b : AsmOut} (h : OutSim ParserError.bare ParserWarning.bare a b) : a.bare = b.bare := by
  cases a <;> cases b <;> simp only [OutSim] at h <;> simp [AsmOut.bare, h]

theorem words_bare {a b : AsmOut} (h : a.bare = b.bare) : a.words = b.words := by
  cases a <;> cases b <;> simp [AsmOut.bare] at h <;> simp [AsmOut.words, h]

/-- C22.  Indentation, trailing blanks, empty lines, comment lines and comments directly behind a statement change nothing: two files
with the same statements have the same result up to the line numbers and lines quoted in diagnostics. -/
theorem C22_layout [Unicode] (rt : Rt) (m : Mipsasm) (ts : List Str) (text text' : Str) (h : LayoutOf Glued ts (lines text))
    (h' : LayoutOf Glued ts (lines text')) : (assemble rt m text).erase = (assemble rt m text').erase :=
  outSim_erase (sim_assemble erase_lineless rfl rfl rfl
    (sameLines_layout (fun _ _ _ ht h1 h2 => lineSim_glued ht h1 h2) h h'))

/-- C22 (partial).  Comments separated by blanks from an instruction (in the positions described by `Follow`) do not change the
instructions, the words, nor the kinds of the diagnostics. -/
theorem C22_comments_partial [Unicode] (rt : Rt) (m : Mipsasm) (ts : List Str) (text text' : Str) (h : LayoutOf Follow ts (lines text))
    (h' : LayoutOf Follow ts (lines text')) :
    (assemble rt m text).bare = (assemble rt m text').bare ∧ (assemble rt m text).words = (assemble rt m text').words := by
  have := outSim_bare (sim_assemble (rt := rt) (rt' := rt) (m := m) (m' := m) bare_textFree.lineless rfl rfl rfl
    (sameLines_layout (fun _ _ _ ht h1 h2 => lineSim_follow bare_textFree ht h1 h2) h h'))
  exact ⟨this, words_bare this⟩

/-- C22 is false as stated: a comment behind blanks behind a label makes the label an unknown instruction, ... -/
theorem C22_label_wrong :
    (@assemble asciiUnicode (idRt true) Mipsasm.new c!"foo:\nnop").words = some [0#32] ∧
    (@assemble asciiUnicode (idRt true) Mipsasm.new c!"foo: // c\nnop").words = none := by
  constructor <;> decide +kernel

/-- ... a tab in front of a comment behind a bare mnemonic panics, ... -/
theorem C22_tab_wrong :
    (@assemble asciiUnicode (idRt true) Mipsasm.new c!"nop").words = some [0#32] ∧
    @assemble asciiUnicode (idRt true) Mipsasm.new c!"nop\t// c" = .panic := by
  refine ⟨by decide +kernel, rfl⟩

/-- ... and two spaces behind a bare `break` are taken for its operand. -/
theorem C22_break_wrong :
    (@assemble asciiUnicode (idRt true) Mipsasm.new c!"break").words = some [0xD#32] ∧
    (@assemble asciiUnicode (idRt true) Mipsasm.new c!"break  // c").words = none := by
  constructor <;> decide +kernel

/-! ### The hypotheses are satisfiable -/

/-- Statements. -/
def ex22 : List Str := [c!"main:", c!"addiu $a0, $zero, 5", c!"jr $ra", c!"nop"]

theorem ex22_stmt : ∀ t ∈ ex22, Statement t := by
  intro t ht
  have h1 : ∀ t ∈ ex22, t ≠ [] ∧ t.head?.all (fun c => !isWs c) = true ∧ t.getLast?.all (fun c => !isWs c) = true ∧ uncomment t = t ∧ '\n' ∉ t := by
    decide +kernel
  obtain ⟨a, b, c, d, e⟩ := h1 t ht
  exact ⟨a, fun x hx => by rw [hx] at b; simpa using b, fun x hx => by rw [hx] at c; simpa using c, d, e⟩

/-- A bare file ... -/
theorem ex22_plain [Unicode] : LayoutOf Follow ex22 ex22 := by
  have hp : ∀ t, OnLine Follow t t := fun t => by
    have := OnLine.plain (F := Follow) (t := t) [] [] (by simp [Blank]) (by simp [Blank])
    simpa using this
  have h := ex22_stmt
  unfold ex22 at *
  exact .cons _ _ _ _ (h _ (by simp)) (hp _) (.cons _ _ _ _ (h _ (by simp)) (hp _) (.cons _ _ _ _ (h _ (by simp)) (hp _)
    (.cons _ _ _ _ (h _ (by simp)) (hp _) .nil)))

/-- ... and the same statements with indentation, empty lines and comments. -/
def ex22' : List Str := [c!"; a comment", c!"main:// label", c!"  addiu $a0, $zero, 5   // five", c!"", c!"\tjr $ra\t; return", c!"  nop  // slot "]

theorem ex22_decorated [Unicode] : LayoutOf Follow ex22 ex22' := by
  have h := ex22_stmt
  have hb : ∀ n, Blank (List.replicate n ' ') := by
    intro n c hc
    rw [List.eq_of_mem_replicate hc]
    decide
  unfold ex22 ex22' at *
  refine .skip _ _ _ (.comment [] c!"; a comment" (hb 0) ⟨by decide, .inr rfl⟩) ?_
  refine .cons _ _ _ _ (h _ (by simp)) (.comment [] [] c!"// label" (hb 0) (hb 0) ⟨by decide, .inl rfl⟩ ⟨by decide, .inl rfl⟩) ?_
  refine .cons _ _ _ _ (h _ (by simp)) (.comment c!"  " c!"   " c!"// five" (hb 2) (hb 3) ⟨by decide, .inl rfl⟩
    ⟨by decide, .inr ⟨rfl, .inl (by decide)⟩⟩) ?_
  refine .skip _ _ _ (.blank [] (hb 0)) ?_
  refine .cons _ _ _ _ (h _ (by simp)) (.comment c!"\t" c!"\t" c!"; return" (by intro c hc; simp at hc; subst hc; decide)
    (by intro c hc; simp at hc; subst hc; decide) ⟨by decide, .inr rfl⟩ ⟨by decide, .inr ⟨rfl, .inl (by decide)⟩⟩) ?_
  refine .cons _ _ _ _ (h _ (by simp)) (.comment c!"  " c!"  " c!"// slot " (hb 2) (hb 2) ⟨by decide, .inl rfl⟩
    ⟨by decide, .inr ⟨rfl, .inr ⟨c!" ", rfl, .inr ?_⟩⟩⟩) .nil
  have : mnemonic c!"nop" = c!"nop" := by
    unfold mnemonic
    rw [Unicode.lower_ascii _ (by decide)]
    decide
  rw [this]; decide

example [Unicode] (rt : Rt) (m : Mipsasm) (text text' : Str) (h : lines text = ex22) (h' : lines text' = ex22') :
    (assemble rt m text).words = (assemble rt m text').words :=
  (C22_comments_partial rt m ex22 text text' (h ▸ ex22_plain) (h' ▸ ex22_decorated)).2

example : lines c!"main:\naddiu $a0, $zero, 5\njr $ra\nnop\n" = ex22 := by decide +kernel

end Mips
