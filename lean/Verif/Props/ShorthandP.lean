/-
**C82** — an instruction can be replaced by what the disassembler shows of it.
-/
import Verif.Spec.Shorthand
import Verif.Props.ByLine
import Verif.Props.Reassemble

import Verif.Props.EditP

namespace Mips
open Source Syntax Branch Operands Edit Listing Shorthand

/-- the listing of readable words: one line each, that is read back everywhere -/
theorem shows_lines [Unicode] {rt : Rt} {m : Mipsasm} (hp : PlainSyms m.syms) {ws : List Word} {out : List Str}
    (h : ∀ w ∈ ws, Returns m.syms m.base w) (hd : disassemble rt (debugging m) ws = some out) :
    out = ws.map (lineText (fun a => m.syms.lookup a) m.base) := by
  obtain ⟨out', h1, h2, h3⟩ := C02_text_partial rt (debugging m) rfl hp ws
  rw [hd] at h1
  cases h1
  apply List.ext_getElem?
  intro k
  rw [List.getElem?_map]
  cases hk : ws[k]? with
  | none =>
    rw [List.getElem?_eq_none_iff] at hk
    rw [List.getElem?_eq_none (by omega)]; rfl
  | some w =>
    obtain ⟨mn, args, hd, he, hr⟩ := h w (List.mem_of_getElem? hk)
    refine h3 k w hk ?_ ?_
    · rintro ⟨mn', args', hd', a, ha, hta⟩
      rw [hd] at hd'; cases hd'
      have := hr a ha
      cases a <;> simp_all [topArg, Readable]
    · rintro ⟨_, _, hd', _⟩
      rw [hd] at hd'; cases hd'

/-- the words of the listing of a word, assembled alone -/
theorem shown_words [Unicode] (rt : Rt) (m : Mipsasm) {w : Word} (h : Returns m.syms m.base w) :
    (assemble rt m (lineText (fun a => m.syms.lookup a) m.base w)).words = some [w] := by
  obtain ⟨h1, h2⟩ := back_emits h
  refine emits_prog (ls := [lineText (fun a => m.syms.lookup a) m.base w]) ?_ rfl ?_
  · have := lines_join (l := [lineText (fun a => m.syms.lookup a) m.base w]) (by simpa using h1)
    simpa [List.intercalate] using this
  · intro k s w' hk hw
    cases k with
    | zero =>
      simp only [List.getElem?_cons_zero, Option.some.injEq] at hk hw
      subst hk; subst hw
      exact ⟨h1.kind, h2⟩
    | succ k => simp at hk

/-- **C82**.  If lines of an accepted program without labels and branches are replaced by the listings of their words, the program is accepted
and has the same words. -/
theorem C82_straight [Unicode] (rt : Rt) (m : Mipsasm) (hp : PlainSyms m.syms) (text text' : Str) (hs : Straight (lines text))
    (hw : WrittenOut rt m (lines text) (lines text')) (ws : List Word) (h : (assemble rt m text).words = some ws) :
    (assemble rt m text').words = some ws := by
  rw [C36_lines rt m text hs] at h
  have hone : ∀ raw ∈ lines text, ∀ v, (assemble rt m raw).words = some v → if kind raw = .code then LineEmits rt m raw v else v = [] :=
    fun raw hr v => (single_words rt m (lines_noNl text raw hr) (hs.labels raw hr) (hs.branches raw hr) v).1
  have hlab := hs.labels
  have hem : ∀ w, Returns m.syms m.base w → LineEmits rt m (lineText (fun a => m.syms.lookup a) m.base w) [w] := by
    intro w hw x _ h2 h3
    exact (back_emits hw).2 x h2 (by rw [h3]; intro e he; cases he) _
  have key : ∀ {ls ls' : List Str}, WrittenOut rt m ls ls' → (∀ raw ∈ ls, raw ∈ lines text) → ∀ wss, ls.mapM (fun raw => (assemble rt m raw).words) = some wss →
      (∀ raw ∈ ls', ∀ l, kind raw ≠ .label l) ∧ (∀ raw ∈ ls', kind raw = .code → LineEmits rt m raw (((assemble rt m raw).words).getD [])) ∧
      ((ls'.filter isCode).flatMap fun raw => ((assemble rt m raw).words).getD []) = wss.flatten := by
    intro ls ls' hwo
    induction hwo with
    | nil => intro _ wss hm; cases hm; exact ⟨by simp, by simp, rfl⟩
    | keep raw _ ih =>
      intro hin wss hm
      rw [List.mapM_cons] at hm
      simp only [opt_bind, Option.bind_eq_some_iff] at hm
      obtain ⟨v, h1, vs, h2, h3⟩ := hm
      cases h3
      obtain ⟨i1, i2, i3⟩ := ih (fun r hr => hin r (by simp [hr])) vs h2
      have hv := hone raw (hin raw (by simp)) v h1
      refine ⟨?_, ?_, ?_⟩
      · intro r hr l
        rcases List.mem_cons.1 hr with rfl | hr
        · exact hlab _ (hin _ (by simp)) l
        · exact i1 r hr l
      · intro r hr hc
        rcases List.mem_cons.1 hr with rfl | hr
        · rw [if_pos hc] at hv
          rw [h1]; exact hv
        · exact i2 r hr hc
      · rw [List.filter_cons, List.flatten_cons]
        by_cases hc : isCode raw = true
        · rw [if_pos hc, List.flatMap_cons, h1, i3]; rfl
        · rw [if_neg hc, i3]
          rw [if_neg (by simpa [isCode] using hc)] at hv
          subst hv; rfl
    | write raw out hsh _ ih =>
      intro hin wss hm
      rw [List.mapM_cons] at hm
      simp only [opt_bind, Option.bind_eq_some_iff] at hm
      obtain ⟨v, h1, vs, h2, h3⟩ := hm
      cases h3
      obtain ⟨i1, i2, i3⟩ := ih (fun r hr => hin r (by simp [hr])) vs h2
      obtain ⟨v', g1, g2, g3⟩ := hsh
      rw [h1] at g1
      cases g1
      have ho := shows_lines hp g2 g3
      subst ho
      refine ⟨?_, ?_, ?_⟩
      · intro r hr l
        rcases List.mem_append.1 hr with hr | hr
        · obtain ⟨w, hw, rfl⟩ := List.mem_map.1 hr
          rw [(back_emits (g2 w hw)).1.kind]
          intro e; cases e
        · exact i1 r hr l
      · intro r hr hc
        rcases List.mem_append.1 hr with hr | hr
        · obtain ⟨w, hw, rfl⟩ := List.mem_map.1 hr
          rw [shown_words rt m (g2 w hw)]
          exact hem w (g2 w hw)
        · exact i2 r hr hc
      · rw [List.filter_append, List.flatMap_append, List.flatten_cons, i3]
        refine congrArg (· ++ _) ?_
        clear g3 h1 i1 i2 i3 h2
        induction v with
        | nil => rfl
        | cons w v ihv =>
          have hw := g2 w (by simp)
          rw [List.map_cons, List.filter_cons, if_pos (by simp [isCode, (back_emits hw).1.kind]), List.flatMap_cons, shown_words rt m hw,
            ihv (fun x hx => g2 x (by simp [hx]))]
          rfl
  cases hM : (lines text).mapM fun raw => (assemble rt m raw).words with
  | none => rw [hM] at h; cases h
  | some wss =>
    rw [hM] at h
    cases h
    obtain ⟨k1, k2, k3⟩ := key hw (fun _ h => h) wss hM
    rw [byLine_ok rt m text' k1 _ k2, k3]

/-- a text with given lines -/
theorem text_of : ∀ (ls : List Str), (∀ r ∈ ls, '\n' ∉ r) → ∃ text, lines text = ls
  | [], _ => ⟨[], rfl⟩
  | r :: ls, h => by
    obtain ⟨t, ht⟩ := text_of ls (fun a ha => h a (by simp [ha]))
    exact ⟨r ++ '\r' :: '\n' :: t, by rw [lines_crlf r t (h r (by simp)), ht]⟩

/-- **C82**.  If an instruction of an accepted program has a single word, it can be replaced by the listing of that word: labels do not matter. -/
theorem C82_line [Unicode] (rt rt' : Rt) (m : Mipsasm) (hp : PlainSyms m.syms) (text text' : Str) (hn : NoNumeralLabel (lines text))
    (pre post : List Str) (raw raw' : Str) (hl : lines text = pre ++ raw :: post) (hc : kind raw = .code) (is : List Instruction)
    (warns : List ParserWarning) (h : assemble rt m text = .ok is warns) (w : Word)
    (hw : (is[codeCount pre]?).map Instruction.getBytes = some [w]) (hr : Returns m.syms m.base w)
    (hd : disassemble rt' (debugging m) [w] = some [raw']) (hl' : lines text' = pre ++ raw' :: post) :
    (assemble rt m text').words = (assemble rt m text).words := by
  have hraw := shows_lines (rt := rt') hp (ws := [w]) (by simpa using hr) hd
  simp only [List.map_cons, List.map_nil, List.cons.injEq, and_true] at hraw
  obtain ⟨b1, b2⟩ := back_emits hr
  rw [← hraw] at b1 b2
  have hc' : kind raw' = .code := b1.kind
  have ho : SameOutline (lines text) (lines text') := by unfold SameOutline; rw [hl, hl']; simp [hc, hc']
  -- the same outline, with this line for every instruction
  obtain ⟨t2, e2⟩ := text_of ((lines text).map fun r => if kind r = .code then raw' else r) (by
    intro r hr hx
    obtain ⟨a, ha, rfl⟩ := List.mem_map.1 hr
    split at hx
    · have : raw' ∈ lines text' := by rw [hl']; simp
      exact lines_noNl text' raw' this hx
    · exact lines_noNl text a ha hx)
  have ho2 : SameOutline (lines text) (lines t2) := by
    unfold SameOutline
    rw [e2, List.map_map]
    apply List.map_congr_left
    intro r _
    show kind r = kind (if kind r = .code then raw' else r)
    split
    · rename_i hk; rw [hk, hc']
    · rfl
  have hA2 := alike_of (rt := rt) (m := m) ho2
  have hw1 : (assemble rt m text).words = some (getBytes is) := by rw [h]; rfl
  have a1 := ((C57_program rt m text _).1 hw1).1
  have hT := (Edit.Alike.accepted_iff.1 a1).1
  have hg2 : ∀ k, globals ((lines t2).take k) = globals ((lines text).take k) := fun k => by
    unfold globals
    exact (Edit.globalsFrom_congr 0 (hA2.take k)).symm
  have hn2 : NoNumeralLabel (lines t2) := by
    intro e he
    have := hg2 (lines t2).length
    rw [List.take_length, List.take_of_length_le (by rw [← hA2.length]; exact Nat.le_refl _)] at this
    rw [this] at he
    exact hn e he
  obtain ⟨is2, warns2, h2⟩ := prog_ok (rt := rt) (m := m) (text := t2) (by
      intro k r l k1 k2
      obtain ⟨r0, k3, k4⟩ := hA2.symm.kinds k1
      have := hT k r0 k3
      unfold Lang.LineTaken at this
      rw [k4, k2] at this
      refine ⟨this.1, fun e he hx => ?_⟩
      rw [hg2] at he
      have hloc := globals_global he
      rw [hx] at hloc
      obtain ⟨d, hd1, hd2⟩ := mem_globals he
      rw [hx] at hd2
      have hdk : d < k := by
        rw [List.length_take] at hd1; omega
      refine this.2 hloc d hdk ?_
      obtain ⟨r1, q1, q2⟩ := hd2
      rw [List.getElem?_take_of_lt hdk] at q1
      exact ⟨r1, q1, q2⟩) (by
      intro k r k1 k2 x hx
      have hr' : r = raw' := by
        rw [e2, List.getElem?_map] at k1
        cases hq : (lines text)[k]? with
        | none => rw [hq] at k1; cases k1
        | some q =>
          rw [hq] at k1
          simp only [Option.map_some, Option.some.injEq] at k1
          subst k1
          split
          · rfl
          · rename_i hk; rw [if_neg hk] at k2; exact absurd k2 hk
      subst hr'
      exact ⟨[w], b2 x hx.syms (hx.noNum hn2) _⟩)
  have a2 := ((C57_program rt m t2 _).1 (by rw [h2]; rfl : (assemble rt m t2).words = some (getBytes is2))).1
  have acc := Edit.Alike.mix a1 a2 (alike_of (rt := rt) (m := m) ho) (alike_of (rt := rt) (m := m) (ho2.symm.trans ho)) (by
    intro k r hk
    have hk : (lines text')[k]? = some r := hk
    show (lines text)[k]? = some r ∨ (lines t2)[k]? = some r
    by_cases e : k = pre.length
    · right
      subst e
      rw [hl'] at hk
      simp at hk
      subst hk
      rw [e2, List.getElem?_map, hl]
      simp [hc]
    · left
      rw [hl'] at hk
      rw [hl]
      by_cases e' : k < pre.length
      · rw [List.getElem?_append_left e'] at hk ⊢; exact hk
      · rw [List.getElem?_append_right (by omega)] at hk ⊢
        obtain ⟨j, hj⟩ : ∃ j, k - pre.length = j + 1 := ⟨k - pre.length - 1, by omega⟩
        rw [hj] at hk ⊢
        simpa using hk)
  obtain ⟨is', warns', h'⟩ := (C56_verdict rt m text').2.2.2 acc
  have hw' : (assemble rt m text').words = some (getBytes is') := by rw [h']; rfl
  obtain ⟨a, u, u', b, q1, q2, _, q3, q4⟩ := C68_patch rt m text text' pre post raw raw' hl hl' hc hc' _ _ hw1 hw'
  have L0 : (lines text)[pre.length]? = some raw := by rw [hl]; simp
  have L0' : (lines text')[pre.length]? = some raw' := by rw [hl']; simp
  have T0 : (lines text).take pre.length = pre := by rw [hl]; simp
  have T0' : (lines text').take pre.length = pre := by rw [hl']; simp
  have r1 := (C57_line rt m text is warns h pre.length raw L0 hc u).2 q3
  rw [T0, hw] at r1
  have hn' : NoNumeralLabel (lines text') := by
    intro e he
    have hA := alike_of (rt := rt) (m := m) ho
    have : globals (lines text') = globals (lines text) := (Edit.globalsFrom_congr 0 ho).symm
    rw [this] at he
    exact hn e he
  have r2 := (C57_line rt m text' is' warns' h' pre.length raw' L0' hc' u').2 q4
  rw [line_words h' L0' hc' (ws := [w]) (fun x hx => b2 x hx.syms (hx.noNum hn') _)] at r2
  cases r1; cases r2
  rw [hw', hw1, q1, q2]

/-- **C82** is about single words where labels are concerned: distances are counted in instructions, so writing out `li` changes the branch over
it (to what it should have been). -/
theorem C82_wrong :
    (@assemble asciiUnicode (idRt true) Mipsasm.new c!"x:\nli $a0, 0x12345678\nb x\nnop").words =
      some [0x3c041234#32, 0x34845678#32, 0x1000fffe#32, 0#32] ∧
    disassemble (idRt true) (debugging Mipsasm.new) [0x3c041234#32, 0x34845678#32] = some [c!"lui $a0, 0x1234", c!"ori $a0, $a0, 0x5678"] ∧
    (@assemble asciiUnicode (idRt true) Mipsasm.new c!"x:\nlui $a0, 0x1234\nori $a0, $a0, 0x5678\nb x\nnop").words =
      some [0x3c041234#32, 0x34845678#32, 0x1000fffd#32, 0#32] := by
  decide +kernel

/-! ### The hypotheses are satisfiable -/

theorem ex82_ret {w : Word} {mn : Str} {args : List Isa.Arg} (h1 : Isa.decoding w = some (mn, args)) (h2 : Isa.encoding mn args = some w)
    (h3 : ∀ a ∈ args, Readable [] 0#32 a) : Returns [] 0#32 w := ⟨mn, args, h1, h2, h3⟩

theorem ex82_words : ∀ w ∈ [0x3c041234#32, 0x34845678#32, 0x00052021#32], Returns [] 0#32 w := by
  intro w hw
  simp only [List.mem_cons, List.not_mem_nil, or_false] at hw
  rcases hw with rfl | rfl | rfl
  · refine ex82_ret (mn := c!"lui") (args := [.gpr 4, .uimm 0x1234#16]) (by decide +kernel) (by decide +kernel) ?_
    intro a ha; simp at ha; rcases ha with rfl | rfl <;> simp [Readable]
  · refine ex82_ret (mn := c!"ori") (args := [.gpr 4, .gpr 4, .uimm 0x5678#16]) (by decide +kernel) (by decide +kernel) ?_
    intro a ha; simp at ha; rcases ha with rfl | rfl | rfl <;> simp [Readable]
  · refine ex82_ret (mn := c!"addu") (args := [.gpr 4, .gpr 0, .gpr 5]) (by decide +kernel) (by decide +kernel) ?_
    intro a ha; simp at ha; rcases ha with rfl | rfl | rfl <;> simp [Readable]

/-- a constant of 32 bits and a move are written out, a return is kept -/
example :
    letI := asciiUnicode
    PlainSyms Mipsasm.new.syms ∧ Straight (lines c!"li $a0, 0x12345678\nmove $a0, $a1\njr $ra\nnop") ∧
    WrittenOut (idRt true) Mipsasm.new (lines c!"li $a0, 0x12345678\nmove $a0, $a1\njr $ra\nnop")
      (lines c!"lui $a0, 0x1234\nori $a0, $a0, 0x5678\naddu $a0, $zero, $a1\njr $ra\nnop") ∧
    (assemble (idRt true) Mipsasm.new c!"li $a0, 0x12345678\nmove $a0, $a1\njr $ra\nnop").words =
      some [0x3c041234#32, 0x34845678#32, 0x00052021#32, 0x03e00008#32, 0#32] := by
  letI := asciiUnicode
  refine ⟨fun e he => (by cases he), ?_, ?_, by decide +kernel⟩
  · have h1 : ∀ raw ∈ lines c!"li $a0, 0x12345678\nmove $a0, $a1\njr $ra\nnop", (kind raw = .blank ∨ kind raw = .code) ∧
        mnemonic (body raw) ∉ branchNames := by decide +kernel
    refine Straight.mk ?_ ?_
    · intro raw hr l e
      rcases (h1 raw hr).1 with h | h <;> rw [h] at e <;> cases e
    · intro raw hr _
      exact (h1 raw hr).2
  · have e1 : lines c!"li $a0, 0x12345678\nmove $a0, $a1\njr $ra\nnop" = [c!"li $a0, 0x12345678", c!"move $a0, $a1", c!"jr $ra", c!"nop"] := by decide +kernel
    have e2 : lines c!"lui $a0, 0x1234\nori $a0, $a0, 0x5678\naddu $a0, $zero, $a1\njr $ra\nnop" =
        [c!"lui $a0, 0x1234", c!"ori $a0, $a0, 0x5678"] ++ ([c!"addu $a0, $zero, $a1"] ++ [c!"jr $ra", c!"nop"]) := by decide +kernel
    rw [e1, e2]
    refine .write _ _ ⟨[0x3c041234#32, 0x34845678#32], by decide +kernel, fun w hw => ex82_words w ?_, by decide +kernel⟩
      (.write _ _ ⟨[0x00052021#32], by decide +kernel, fun w hw => ex82_words w ?_, by decide +kernel⟩ (.keep _ (.keep _ .nil)))
    · simp only [List.mem_cons, List.not_mem_nil, or_false] at hw ⊢; rcases hw with h | h <;> simp [h]
    · simp only [List.mem_cons, List.not_mem_nil, or_false] at hw ⊢; simp [hw]

/-- a move in a program with a label and a jump to it -/
example :
    letI := asciiUnicode
    (assemble (idRt true) Mipsasm.new c!"x:\nmove $a0, $a1\nj x\nnop").words =
      (assemble (idRt true) Mipsasm.new c!"x:\naddu $a0, $zero, $a1\nj x\nnop").words := by
  letI := asciiUnicode
  obtain ⟨is, warns, h⟩ : ∃ is warns, assemble (idRt true) Mipsasm.new c!"x:\nmove $a0, $a1\nj x\nnop" = .ok is warns ∧
      (is[0]?).map Instruction.getBytes = some [0x00052021#32] := by
    cases e : assemble (idRt true) Mipsasm.new c!"x:\nmove $a0, $a1\nj x\nnop" with
    | ok is warns =>
      refine ⟨is, warns, rfl, ?_⟩
      have : ∀ is warns, assemble (idRt true) Mipsasm.new c!"x:\nmove $a0, $a1\nj x\nnop" = .ok is warns →
          ((match assemble (idRt true) Mipsasm.new c!"x:\nmove $a0, $a1\nj x\nnop" with
            | .ok is _ => (is[0]?).map Instruction.getBytes
            | _ => none) = some [0x00052021#32]) → (is[0]?).map Instruction.getBytes = some [0x00052021#32] := by
        intro is warns e h; rw [e] at h; exact h
      exact this is warns e (by decide +kernel)
    | err es ws => exact absurd e (by
        have : (assemble (idRt true) Mipsasm.new c!"x:\nmove $a0, $a1\nj x\nnop").words.isSome = true := by decide +kernel
        intro e; rw [e] at this; cases this)
    | panic => exact absurd e (by
        have : (assemble (idRt true) Mipsasm.new c!"x:\nmove $a0, $a1\nj x\nnop").words.isSome = true := by decide +kernel
        intro e; rw [e] at this; cases this)
  refine (C82_line (idRt true) (idRt true) Mipsasm.new (fun e he => by cases he) c!"x:\nmove $a0, $a1\nj x\nnop"
    c!"x:\naddu $a0, $zero, $a1\nj x\nnop" ?_ [c!"x:"] [c!"j x", c!"nop"] c!"move $a0, $a1" c!"addu $a0, $zero, $a1"
    (by decide +kernel) (by decide +kernel) is warns h.1 0x00052021#32 ?_ (ex82_words _ (by simp)) (by decide +kernel) (by decide +kernel)).symm
  · intro e he v hv
    have : globals (lines c!"x:\nmove $a0, $a1\nj x\nnop") = [(c!"x", 0)] := by decide +kernel
    rw [this] at he
    cases List.mem_singleton.1 he
    obtain ⟨c, t, e1, e2⟩ := num_head hv
    simp at e1
    obtain ⟨rfl, _⟩ := e1
    rcases e2 with e2 | e2 | e2
    · exact absurd e2 (by decide)
    · exact absurd e2 (by decide)
    · exact absurd e2 (by decide)
  · have : codeCount [c!"x:"] = 0 := by decide +kernel
    rw [this]; exact h.2

end Mips
