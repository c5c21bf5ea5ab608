/-
**C80**: blanks around operands do not matter.
-/
import Verif.Spec.Blanks
import Verif.Props.Layout22
import Verif.Lemmas.LangL2
import Verif.Lemmas.ReadL2
import Verif.Lemmas.LangL7
import Verif.Lemmas.InfixL

namespace Mips
open Source Syntax Branch Decor Blanks

namespace Blanks

theorem trim_around (t : Str) {p q : Str} (hp : Blank p) (hq : Blank q) : trim (p ++ t ++ q) = trim t := by
  rw [trim_append_blank _ hq]
  unfold trim
  rw [trimStart_append_blank p t (blank_ws hp)]

theorem trim_front (t : Str) {p : Str} (hp : Blank p) : trim (p ++ t) = trim t := by
  have := trim_around t hp (q := []) (by simp [Blank])
  simpa using this

theorem group_around {p q t m : Str} (hp : Blank p) (hq : Blank q) (h : Lang.BaseGroup t m) : Lang.BaseGroup (p ++ t ++ q) m := by
  obtain ⟨u, v, rfl, h1, h2, h3⟩ := h
  have hp' := blank_chars hp
  have hq' := blank_chars hq
  refine ⟨p ++ u, v ++ q, by simp, h1, fun a b e => ?_, fun a b e => ?_⟩
  · rcases List.append_eq_append_iff.1 e with ⟨c, e1, e2⟩ | ⟨c, e1, e2⟩
    · exact h2 c b e2
    · cases c with
      | nil => exact h2 [] b (by simpa using e2.symm)
      | cons d c =>
        cases e2
        exact absurd rfl (hp' '(' (by rw [e1]; simp)).1
  · rcases List.append_eq_append_iff.1 e with ⟨c, e1, e2⟩ | ⟨c, e1, e2⟩
    · exact absurd rfl (hq' '(' (by rw [e2]; simp)).1
    · cases c with
      | nil => exact absurd rfl (hq' '(' (by rw [List.nil_append] at e2; rw [← e2]; simp)).1
      | cons d c =>
        cases e2
        intro hc
        rcases List.mem_append.1 hc with hc | hc
        · exact h3 a c e1 hc
        · exact absurd rfl (hq' ')' hc).2.1

theorem base_around {p q t : Str} (hp : Blank p) (hq : Blank q) (ht : '\n' ∉ t) : baseText (p ++ t ++ q) = baseText t := by
  have hn : '\n' ∉ p ++ t ++ q := by
    simp only [List.mem_append, not_or]
    exact ⟨⟨fun h => (hp _ h).2 rfl, ht⟩, fun h => (hq _ h).2 rfl⟩
  cases h : baseText t with
  | some b =>
    obtain ⟨m, e, hm⟩ := (baseText_iff ht).1 h
    exact (baseText_iff hn).2 ⟨m, e, group_around hp hq hm⟩
  | none =>
    cases h' : baseText (p ++ t ++ q) with
    | none => rfl
    | some b =>
      exfalso
      obtain ⟨m, e, u, v, e1, e2, e3, e4⟩ := (baseText_iff hn).1 h'
      have hp' := blank_chars hp
      have hq' := blank_chars hq
      -- the group lies in `t`
      have h1 : ∃ u', u = p ++ u' ∧ t ++ q = u' ++ '(' :: m ++ ')' :: v := by
        have e1' : p ++ (t ++ q) = u ++ ('(' :: m ++ ')' :: v) := by simpa using e1
        rcases List.append_eq_append_iff.1 e1' with ⟨c, c1, c2⟩ | ⟨c, c1, c2⟩
        · exact ⟨c, c1, by simpa using c2⟩
        · cases c with
          | nil => exact ⟨[], by simpa using c1.symm, by simpa using c2.symm⟩
          | cons d c =>
            simp only [List.cons_append, List.cons.injEq] at c2
            obtain rfl := c2.1
            exact absurd rfl (hp' '(' (by rw [c1]; simp)).1
      obtain ⟨u', rfl, h2⟩ := h1
      have h3 : ∃ v', v = v' ++ q ∧ t = u' ++ '(' :: m ++ ')' :: v' := by
        have e1' : t ++ q = (u' ++ '(' :: m ++ [')']) ++ v := by simpa using h2
        rcases List.append_eq_append_iff.1 e1' with ⟨c, c1, c2⟩ | ⟨c, c1, c2⟩
        · cases hc : c.reverse with
          | nil =>
            have : c = [] := by simpa using hc
            subst this
            exact ⟨[], by simpa using c2.symm, by simpa using c1.symm⟩
          | cons d r =>
            have hc : c = r.reverse ++ [d] := by rw [← List.reverse_reverse c, hc]; simp
            rw [hc, ← List.append_assoc] at c1
            have := (List.append_inj' c1 rfl).2
            simp only [List.cons.injEq, and_true] at this
            subst this
            exact absurd rfl (hq' ')' (by rw [c2, hc]; simp)).2.1
        · exact ⟨c, c2, by simpa using c1⟩
      obtain ⟨v', rfl, h4⟩ := h3
      have : baseText t = some b := (baseText_iff ht).2 ⟨m, e, u', v', h4, e2, fun a b' ee => e3 (p ++ a) b' (by rw [ee]; simp),
        fun a b' ee hb => e4 a (b' ++ q) (by rw [ee]; simp) (by simp [hb])⟩
      rw [h] at this
      cases this

theorem filter_open (p o : Str) (hp : Blank p) : removeOpenParen (p ++ o ++ ['(']) = p ++ removeOpenParen o := by
  unfold removeOpenParen
  rw [List.filter_append, List.filter_append]
  have : p.filter (fun c => !(c == '(')) = p := by
    rw [List.filter_eq_self]
    intro c hc
    have := (blank_chars hp c hc).1
    simp [this]
  rw [this]
  simp

theorem off_some {p q o v : Str} (hp : Blank p) (hq : Blank q) (hn : '\n' ∉ o ++ '(' :: v) (hv : '(' ∉ v) (ho : p ++ o ≠ []) :
    findOffset (p ++ (o ++ '(' :: v) ++ q) = some (p ++ o ++ ['(']) := by
  refine findOffset_some ?_ ⟨ho, v ++ q, by simp, ?_⟩
  · rw [List.mem_append, List.mem_append, not_or, not_or]
    exact ⟨⟨fun h => (hp _ h).2 rfl, hn⟩, fun h => (hq _ h).2 rfl⟩
  · rw [List.mem_append, not_or]
    exact ⟨hv, fun h => (blank_chars hq _ h).1 rfl⟩

theorem opSim {a b : Str} (h : SameText a b) (ha : '\n' ∉ a) : OpSim a b := by
  obtain ⟨p, q, p', q', t, hp, hq, hp', hq', hpar⟩ := h
  have ht : '\n' ∉ t := fun hh => ha (by simp [hh])
  have hb : '\n' ∉ p' ++ t ++ q' := by
    simp only [List.mem_append, not_or]
    exact ⟨⟨fun h => (hp' _ h).2 rfl, ht⟩, fun h => (hq' _ h).2 rfl⟩
  have key : ∀ f : Str → Str, (∀ p o, Blank p → trim (f (p ++ o ++ ['('])) = trim (f (o ++ ['(']))) →
      (findOffset (p ++ t ++ q)).map (fun o => trim (f o)) = (findOffset (p' ++ t ++ q')).map (fun o => trim (f o)) := by
    intro f hf
    by_cases hm : '(' ∈ t
    · obtain ⟨o, v, rfl, hv⟩ := last_of hm
      by_cases ho : o = []
      · subst ho
        have hpp := hpar rfl
        by_cases h0 : p = []
        · have h0' := hpp.1 h0
          subst h0 h0'
          have no : ∀ {q : Str}, Blank q → '\n' ∉ [] ++ ([] ++ '(' :: v) ++ q → findOffset ([] ++ ([] ++ '(' :: v) ++ q) = none := by
            intro q hq hn
            refine findOffset_none hn ?_
            rintro o ⟨h1, w, h2, h3⟩
            cases o with
            | nil => exact h1 rfl
            | cons c o =>
              simp only [List.nil_append, List.cons_append, List.cons.injEq] at h2
              have : '(' ∈ v ++ q := by rw [h2.2]; simp
              rcases List.mem_append.1 this with h | h
              · exact hv h
              · exact (blank_chars hq _ h).1 rfl
          rw [no hq ha, no hq' hb]
        · have h0' : p' ≠ [] := fun h => h0 (hpp.2 h)
          rw [off_some hp hq ht hv (by simpa using h0), off_some hp' hq' ht hv (by simpa using h0')]
          simp only [Option.map_some, hf p [] hp, hf p' [] hp']
      · rw [off_some hp hq ht hv (by simp [ho]), off_some hp' hq' ht hv (by simp [ho])]
        simp only [Option.map_some, hf p o hp, hf p' o hp']
    · have no : ∀ {p q : Str}, Blank p → Blank q → '\n' ∉ p ++ t ++ q → findOffset (p ++ t ++ q) = none := by
        intro p q hp hq hn
        refine findOffset_none hn ?_
        rintro o ⟨_, w, h2, _⟩
        have : '(' ∈ p ++ t ++ q := by rw [h2]; simp
        simp only [List.mem_append] at this
        rcases this with (h | h) | h
        · exact (blank_chars hp _ h).1 rfl
        · exact hm h
        · exact (blank_chars hq _ h).1 rfl
      rw [no hp hq ha, no hp' hq' hb]
  refine ⟨?_, ?_, ?_, ?_⟩
  · rw [trim_around t hp hq, trim_around t hp' hq']
  · rw [base_around hp hq ht, base_around hp' hq' ht]
  · refine key List.dropLast fun p o hp => ?_
    rw [List.dropLast_concat, List.dropLast_concat, trim_front o hp]
  · refine key removeOpenParen fun p o hp => ?_
    rw [filter_open p o hp, trim_front _ hp]
    have := filter_open [] o (by simp [Blank])
    simp only [List.nil_append] at this
    rw [this]

theorem opsSim {l l' : List Str} (h : SameTexts l l') (hn : ∀ s ∈ l, '\n' ∉ s) : OpsSim l l' := by
  induction h with
  | nil => exact .nil
  | cons s s' l l' h1 _ ih => exact .cons (opSim h1 (hn s (by simp))) (ih fun s hs => hn s (by simp [hs]))

theorem split_single {s a : Str} (h : split ',' s = [a]) : a = s := by
  induction s generalizing a with
  | nil => simpa [split] using h.symm
  | cons c s ih =>
    unfold split at h
    split at h
    · cases hs : split ',' s with
      | nil => exact absurd hs (by cases s <;> unfold split <;> (repeat' split) <;> simp)
      | cons => rw [hs] at h; cases h
    · split at h
      · rename_i hs
        exact absurd hs (by cases s <;> unfold split <;> (repeat' split) <;> simp)
      · rename_i p ps hs
        simp only [List.cons.injEq] at h
        obtain ⟨rfl, rfl⟩ := h
        rw [ih hs]

end Blanks

section
variable [Unicode] {γ δ : Type} {g : ParserError → γ} {h : ParserWarning → δ}

theorem classify_dotWord (m : Str) (h : classify m = .word) : m = c!".word" := by
  have : ∀ e ∈ clsTable, e.1 = Cls.word → e.2 = [c!".word"] := by decide
  unfold classify at h
  split at h
  · rename_i e he
    have h1 := List.mem_of_find?_eq_some he
    have h2 := List.find?_some he
    rw [this e h1 h] at h2
    simpa using h2
  · cases h

theorem lineSim_blanks (tf : TextFree g h) {raw raw' : Str} (hn : '\n' ∉ raw) (hl : SameLine raw raw') : LineSim g h raw raw' := by
  rcases hl with hl | ⟨h1, h2, h3, h4, h5, h6⟩
  · exact .inl hl
  refine .inr ⟨h1, h2, fun x y c => ?_⟩
  have ne : ∀ {raw}, kind raw = .code → body raw ≠ [] := by
    intro raw hk e
    unfold kind at hk
    rw [e] at hk
    revert hk; decide
  have hb : '\n' ∉ operandText (body raw) := fun hh => hn ((body_infix raw).subset (operandText_mem hh))
  have hm : mnemonic (body raw') = mnemonic (body raw) := by unfold mnemonic; rw [h3]
  rw [parseInst_eq x (ne h1), parseInst_eq y (ne h2), hm, ← h3]
  refine read_arm_ops c tf _ (OpcSim.refl _) (fun hc => ?_) (Blanks.opsSim h4 fun s hs hh => hb (split_mem s hs _ hh)) fun hc a b ha hb => ?_
  · exact (Blanks.opSim (h6 (classify_dotWord _ hc)) hb).trm
  · have := h5 (classify_code _ hc)
    rw [Blanks.split_single ha, Blanks.split_single hb, Bool.eq_iff_iff, List.isEmpty_iff, List.isEmpty_iff]
    exact this

end

/-- **C80**.  Two programs that differ only in blank lines, indentation, comments (as far as they leave the statements as they are) and the blanks around operands have the same
instructions and words, and the same kinds of errors and warnings. -/
theorem C80_blanks [Unicode] (rt : Rt) (m : Mipsasm) (text text' : Str) (h : SameLines SameLine (lines text) (lines text')) :
    (assemble rt m text).bare = (assemble rt m text').bare ∧ (assemble rt m text).words = (assemble rt m text').words := by
  have key : ∀ {ls ls' : List Str}, SameLines SameLine ls ls' → (∀ l ∈ ls, '\n' ∉ l) →
      SameLines (LineSim ParserError.bare ParserWarning.bare) ls ls' := by
    intro ls ls' hs
    induction hs with
    | nil => exact fun _ => .nil
    | left raw ls ls' h1 _ ih => exact fun hn => .left _ _ _ h1 (ih fun l hl => hn l (by simp [hl]))
    | right raw ls ls' h1 _ ih => exact fun hn => .right _ _ _ h1 (ih hn)
    | both raw raw' ls ls' h1 _ ih =>
      exact fun hn => .both _ _ _ _ (lineSim_blanks bare_textFree (hn raw (by simp)) h1) (ih fun l hl => hn l (by simp [hl]))
  have := outSim_bare (sim_assemble (rt := rt) (rt' := rt) (m := m) (m' := m) bare_textFree.lineless rfl rfl rfl (key h (lines_noNl text)))
  exact ⟨this, words_bare this⟩

/-! ### The condition is met -/

theorem blank_dec {p : Str} (h : (p.all fun c => isWs c && c != '\n') = true) : Blank p := by
  intro c hc
  have := List.all_eq_true.1 h c hc
  simpa using this

theorem sameText_dec (p q p' q' t : Str) (h : ([p, q, p', q'].all fun p => p.all fun c => isWs c && c != '\n') = true)
    (ht : t.head? = some '(' → (p = [] ↔ p' = [])) : SameText (p ++ t ++ q) (p' ++ t ++ q') := by
  simp only [List.all_cons, List.all_nil, Bool.and_true, Bool.and_eq_true] at h
  exact .mk p q p' q' t (blank_dec h.1) (blank_dec h.2.1) (blank_dec h.2.2.1) (blank_dec h.2.2.2) ht

def exTight : Str := c!"top:\nadd $a0,$a1,$a2\nlw $t0,4($sp)\nbne $a0,$zero,top\nnop\n"
def exLoose : Str := c!"top:\n\n  add   $a0 , $a1\t,  $a2\nlw $t0,   4($sp)\n  bne  $a0, $zero, top // again\nnop"

theorem exBlanks : @SameLines (@SameLine asciiUnicode) (lines exTight) (lines exLoose) := by
  letI := asciiUnicode
  rw [show lines exTight = [c!"top:", c!"add $a0,$a1,$a2", c!"lw $t0,4($sp)", c!"bne $a0,$zero,top", c!"nop"] by decide +kernel,
    show lines exLoose = [c!"top:", c!"", c!"  add   $a0 , $a1\t,  $a2", c!"lw $t0,   4($sp)", c!"  bne  $a0, $zero, top // again", c!"nop"] by decide +kernel]
  refine .both _ _ _ _ (.inl ⟨c!"top", by decide +kernel, by decide +kernel⟩) (.right _ _ _ (by decide +kernel) ?_)
  refine .both _ _ _ _ (.inr ⟨by decide +kernel, by decide +kernel, by decide +kernel, ?_, by decide +kernel, fun h => absurd h (by decide +kernel)⟩) ?_
  · rw [show operands (body c!"add $a0,$a1,$a2") = [c!"$a0", c!"$a1", c!"$a2"] by decide +kernel,
      show operands (body c!"  add   $a0 , $a1\t,  $a2") = [c!"  $a0 ", c!" $a1\t", c!"  $a2"] by decide +kernel]
    exact .cons _ _ _ _ (sameText_dec [] [] c!"  " c!" " c!"$a0" (by decide) (by decide))
      (.cons _ _ _ _ (sameText_dec [] [] c!" " c!"\t" c!"$a1" (by decide) (by decide))
        (.cons _ _ _ _ (sameText_dec [] [] c!"  " [] c!"$a2" (by decide) (by decide)) .nil))
  refine .both _ _ _ _ (.inr ⟨by decide +kernel, by decide +kernel, by decide +kernel, ?_, by decide +kernel, fun h => absurd h (by decide +kernel)⟩) ?_
  · rw [show operands (body c!"lw $t0,4($sp)") = [c!"$t0", c!"4($sp)"] by decide +kernel,
      show operands (body c!"lw $t0,   4($sp)") = [c!"$t0", c!"   4($sp)"] by decide +kernel]
    exact .cons _ _ _ _ (sameText_dec [] [] [] [] c!"$t0" (by decide) (by decide))
      (.cons _ _ _ _ (sameText_dec [] [] c!"   " [] c!"4($sp)" (by decide) (by decide)) .nil)
  refine .both _ _ _ _ (.inr ⟨by decide +kernel, by decide +kernel, by decide +kernel, ?_, by decide +kernel, fun h => absurd h (by decide +kernel)⟩) ?_
  · rw [show operands (body c!"bne $a0,$zero,top") = [c!"$a0", c!"$zero", c!"top"] by decide +kernel,
      show operands (body c!"  bne  $a0, $zero, top // again") = [c!" $a0", c!" $zero", c!" top "] by decide +kernel]
    exact .cons _ _ _ _ (sameText_dec [] [] c!" " [] c!"$a0" (by decide) (by decide))
      (.cons _ _ _ _ (sameText_dec [] [] c!" " [] c!"$zero" (by decide) (by decide))
        (.cons _ _ _ _ (sameText_dec [] [] c!" " c!" " c!"top" (by decide) (by decide)) .nil))
  refine .both _ _ _ _ (.inr ⟨by decide +kernel, by decide +kernel, by decide +kernel, ?_, by decide +kernel, fun h => absurd h (by decide +kernel)⟩) .nil
  rw [show operands (body c!"nop") = [[]] by decide +kernel]
  exact .cons _ _ _ _ (sameText_dec [] [] [] [] [] (by decide) (by decide)) .nil

/-- The hypothesis of `C80_blanks` is met, and the result is code. -/
example : letI := asciiUnicode
    SameLines SameLine (lines exTight) (lines exLoose) ∧
    (assemble (idRt true) Mipsasm.new exTight).words = some [0x00A62020#32, 0x8FA80004#32, 0x1480FFFD#32, 0#32] ∧
    (assemble (idRt true) Mipsasm.new exLoose).words = some [0x00A62020#32, 0x8FA80004#32, 0x1480FFFD#32, 0#32] := by
  letI := asciiUnicode
  exact ⟨exBlanks, by decide +kernel, by decide +kernel⟩

/-- Blanks do matter in front of an opening parenthesis: `(a1)` alone is an address, with a blank in front the blank is taken for the offset, which is
no number.  And they matter inside an operand, and in place of the space behind the mnemonic: a tab there is part of the mnemonic. -/
theorem C80_wrong :
    ((@assemble asciiUnicode (idRt true) Mipsasm.new c!"lw $a0,($a1)").words = some [0x8CA40000#32] ∧
      (@assemble asciiUnicode (idRt true) Mipsasm.new c!"lw $a0, ($a1)").errors = some [.invalidImmediate ⟨1, c!"lw $a0, ($a1)"⟩ []]) ∧
    ((@assemble asciiUnicode (idRt true) Mipsasm.new c!"addiu $a0, $a1, -1").words = some [0x24A4FFFF#32] ∧
      (@assemble asciiUnicode (idRt true) Mipsasm.new c!"addiu $a0, $a1, - 1").words = none) ∧
    ((@assemble asciiUnicode (idRt true) Mipsasm.new c!"jr $ra").words = some [0x03E00008#32] ∧
      (@assemble asciiUnicode (idRt true) Mipsasm.new c!"jr\t$ra").words = none) := by
  decide +kernel

end Mips
