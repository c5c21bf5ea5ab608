/- C54, line by line: what becomes of each line of a program when lines are added at its end. -/
import Verif.Props.AppendP
import Verif.Props.CodeP
import Verif.Lemmas.ContextL
import Verif.Spec.AppendX

namespace Mips
open Source Syntax Branch Operands
open Mips.Lang (Step)

namespace AppendX

theorem chosen_kept {a b : List Str} {k d : Nat} {x : Str} (hx : ¬ Redefined a b x) (hk : k < a.length)
    (h : Chosen a k d x) : Chosen (a ++ b) k d x := by
  obtain ⟨h1, h2, h3, h4⟩ := h
  have hd : d < a.length := by obtain ⟨raw, hr, _⟩ := h1; exact (List.getElem?_eq_some_iff.1 hr).1
  have hle : scope a d ≤ scope a k := by
    rcases h2 with h2 | h2
    · omega
    · exact h2.1
  have hka := scope_mono a (Nat.le_of_lt hk)
  refine ⟨defines_left h1, (visible_left hk (Nat.le_of_lt hd)).2 h2, ?_, ?_⟩
  · intro d' hd' hv
    rcases defines_append hd' with ⟨hlt, hd'⟩ | ⟨e, rfl, _⟩
    · rw [scope_left a b (Nat.le_of_lt hd), scope_left a b (Nat.le_of_lt hlt)]
      exact h3 d' hd' ((visible_left hk (Nat.le_of_lt hlt)).1 hv)
    · rw [scope_left a b (Nat.le_of_lt hd), scope_right]
      omega
  · intro d' hlt hd'
    rcases defines_append hd' with ⟨hlt', hd'⟩ | ⟨e, rfl, he⟩
    · rw [scope_left a b (Nat.le_of_lt hd), scope_left a b (Nat.le_of_lt hlt')]
      exact h4 d' hlt hd'
    · rw [scope_left a b (Nat.le_of_lt hd), scope_right]
      intro hh
      exact hx ⟨d, e, h1, by omega, he, by omega⟩

variable [Unicode]

theorem first_kept {a b : List Str} {d : Nat} {l : Str} (h : Lang.FirstDef a d l) : Lang.FirstDef (a ++ b) d l := by
  obtain ⟨h1, h2, h3⟩ := h
  have hd : d < a.length := by obtain ⟨raw, hr, _⟩ := h1; exact (List.getElem?_eq_some_iff.1 hr).1
  refine ⟨defines_left h1, h2, fun d' hlt hd' => ?_⟩
  rcases defines_append hd' with ⟨_, hd'⟩ | ⟨e, rfl, _⟩
  · exact h3 d' hlt hd'
  · omega

theorem first_back {a b : List Str} {d : Nat} {l : Str} (hd : d < a.length) (h : Lang.FirstDef (a ++ b) d l) : Lang.FirstDef a d l := by
  obtain ⟨h1, h2, h3⟩ := h
  rcases defines_append h1 with ⟨_, h1⟩ | ⟨e, rfl, _⟩
  · exact ⟨h1, h2, fun d' hlt hd' => h3 d' hlt (defines_left hd')⟩
  · omega

/-- a line that refers to nothing that is defined again keeps its words -/
theorem line_kept (rt : Rt) (m : Mipsasm) (t1 t2 : Str) (more : List Str) (hl : lines t2 = lines t1 ++ more)
    (acc1 : Lang.Accepted ⟨rt.ovf, m.base, m.syms, lines t1⟩)
    (k : Nat) (raw : Str) (hk : (lines t1)[k]? = some raw) (hc : kind raw = .code)
    (hx : ∀ st t, Lang.plan (body raw) = some st → Lang.Constant st t → isLocal (trim t) = true → ¬ Redefined (lines t1) more (trim t))
    (ws : List Word) (g1 : Lang.LineWords ⟨rt.ovf, m.base, m.syms, lines t1⟩ k raw ws) : Lang.LineWords ⟨rt.ovf, m.base, m.syms, lines t2⟩ k raw ws := by
  have hlt : k < (lines t1).length := (List.getElem?_eq_some_iff.1 hk).1
  have htake : ∀ d ≤ (lines t1).length, (lines t2).take d = (lines t1).take d := fun d hd => by rw [hl, List.take_append_of_le_length hd]
  refine Context.lineWords_congr (f := ⟨rt.ovf, m.base, m.syms, lines t1⟩) (g := ⟨rt.ovf, m.base, m.syms, lines t2⟩) rfl rfl (fun st hst => ?_) g1
  have hinst : Lang.Instr ⟨rt.ovf, m.base, m.syms, lines t1⟩ k st := by
    have := acc1.1 k raw hk
    unfold Lang.LineTaken at this
    rw [hc] at this
    obtain ⟨st', e1, e2⟩ := this
    rw [hst] at e1
    cases e1
    exact ⟨raw, hk, hc, hst, e2⟩
  have dist : ∀ d ≤ (lines t1).length, Lang.distance ⟨rt.ovf, m.base, m.syms, lines t2⟩ k d = Lang.distance ⟨rt.ovf, m.base, m.syms, lines t1⟩ k d := by
    intro d hd
    unfold Lang.distance
    show (codeCount ((lines t2).take d) : Int) - (codeCount ((lines t2).take k) + 1) = (codeCount ((lines t1).take d) : Int) - (codeCount ((lines t1).take k) + 1)
    rw [htake d hd, htake k (Nat.le_of_lt hlt)]
  refine ⟨fun t ht v => ?_, fun t ht a => ?_, fun t v _ _ => by show codeCount ((lines t1).take k) = codeCount ((lines t2).take k); rw [htake k (Nat.le_of_lt hlt)]⟩
  · constructor
    · intro hp
      cases hp with
      | «local» d p1 p2 =>
        have hd : d ≤ (lines t1).length := by obtain ⟨⟨raw', hr, _⟩, _⟩ := p2; exact Nat.le_of_lt (List.getElem?_eq_some_iff.1 hr).1
        rw [← dist d hd]
        refine .local d p1 ?_
        show Chosen (lines t2) k d (trim t)
        rw [hl]
        exact chosen_kept (hx st t hst ht p1) hlt p2
      | label d p0 p1 =>
        rw [← dist d (by omega)]
        refine .label d p0 ?_
        show Lang.FirstDef (lines t2) d (trim t)
        rw [hl]
        exact first_kept p1
    · intro hp
      cases hp with
      | «local» d p1 p2 =>
        have : HasClosedScope (lines t1) ∧ ∃ d, Chosen (lines t1) k d (trim t) := by
          apply Classical.byContradiction
          intro hn
          exact acc1.2.2.1 ⟨k, st, t, hinst, .inl ⟨ht, p1, hn⟩⟩
        obtain ⟨_, d', c1⟩ := this
        have hd : d' ≤ (lines t1).length := by obtain ⟨⟨raw', hr, _⟩, _⟩ := c1; exact Nat.le_of_lt (List.getElem?_eq_some_iff.1 hr).1
        have c2 : Chosen (lines t2) k d' (trim t) := by rw [hl]; exact chosen_kept (hx st t hst ht p1) hlt c1
        have e := chosen_unique (show Chosen (lines t2) k d (trim t) from p2) c2
        subst e
        rw [dist d hd]
        exact .local d p1 c1
      | label d p0 p1 =>
        rw [dist d (by omega)]
        have hd : d < (lines t1).length := by omega
        refine .label d p0 (first_back (b := more) hd ?_)
        rw [← hl]
        exact p1
  · have fdef : Lang.LabelName m.syms (trim t) → ∃ d, Lang.FirstDef (lines t1) d (trim t) := by
      intro hn
      apply Classical.byContradiction
      intro hno
      exact acc1.2.2.1 ⟨k, st, t, hinst, .inr (.inl ⟨ht, hn, fun d hd => hno ⟨d, hd⟩⟩)⟩
    constructor
    · rintro ⟨q1, d, q2, q3⟩
      have hd : d ≤ (lines t1).length := by obtain ⟨⟨raw', hr, _⟩, _⟩ := q2; exact Nat.le_of_lt (List.getElem?_eq_some_iff.1 hr).1
      refine ⟨q1, d, ?_, ?_⟩
      · show Lang.FirstDef (lines t2) d (trim t)
        rw [hl]; exact first_kept q2
      · rw [q3]
        show m.base + BitVec.ofNat 32 (4 * codeCount ((lines t1).take d)) = m.base + BitVec.ofNat 32 (4 * codeCount ((lines t2).take d))
        rw [htake d hd]
    · rintro ⟨q1, d, q2, q3⟩
      obtain ⟨d', q4⟩ := fdef q1
      have e : d = d' := firstDef_unique (show Lang.FirstDef (lines t2) d (trim t) from q2) (by rw [hl]; exact first_kept q4)
      subst e
      have hd : d ≤ (lines t1).length := by obtain ⟨⟨raw', hr, _⟩, _⟩ := q4; exact Nat.le_of_lt (List.getElem?_eq_some_iff.1 hr).1
      refine ⟨q1, d, q4, ?_⟩
      rw [q3]
      show m.base + BitVec.ofNat 32 (4 * codeCount ((lines t2).take d)) = m.base + BitVec.ofNat 32 (4 * codeCount ((lines t1).take d))
      rw [htake d hd]

end AppendX

open AppendX in
/-- **C54**, line by line and without a condition on the added lines: an instruction of the shorter program has the same words in the longer one,
unless it refers to a local label that is defined again. -/
theorem C54_line [Unicode] (rt : Rt) (m : Mipsasm) (t1 t2 : Str) (more : List Str) (is1 is2 : List Instruction)
    (w1 w2 : List ParserWarning) (hl : lines t2 = lines t1 ++ more) (h1 : assemble rt m t1 = .ok is1 w1) (h2 : assemble rt m t2 = .ok is2 w2)
    (k : Nat) (raw : Str) (hk : (lines t1)[k]? = some raw) (hc : kind raw = .code)
    (hx : ∀ st t, Lang.plan (body raw) = some st → Lang.Constant st t → isLocal (trim t) = true → ¬ Redefined (lines t1) more (trim t)) :
    (is2[codeCount ((lines t1).take k)]?).map Instruction.getBytes = (is1[codeCount ((lines t1).take k)]?).map Instruction.getBytes := by
  have hlt : k < (lines t1).length := (List.getElem?_eq_some_iff.1 hk).1
  have hk2 : (lines t2)[k]? = some raw := by rw [hl, List.getElem?_append_left hlt]; exact hk
  have htake : ∀ d ≤ (lines t1).length, (lines t2).take d = (lines t1).take d := fun d hd => by rw [hl, List.take_append_of_le_length hd]
  obtain ⟨ws, hw⟩ : ∃ ws, (is1[codeCount ((lines t1).take k)]?).map Instruction.getBytes = some ws := by
    obtain ⟨tr, x, wn, p, a, b, _, _, _, _, _, _, _, _, _, hi, _⟩ := line_done h1 hk hc
    exact ⟨b.getBytes, by rw [hi]; rfl⟩
  rw [hw]
  have g1 := (C57_line rt m t1 is1 w1 h1 k raw hk hc ws).1 hw
  have key := line_kept rt m t1 t2 more hl ((C56_verdict rt m t1).2.2.1 ⟨_, _, h1⟩) k raw hk hc hx ws g1
  have := (C57_line rt m t2 is2 w2 h2 k raw hk2 hc ws).2 key
  rw [htake k (Nat.le_of_lt hlt)] at this
  exact this

open AppendX in
/-- **C54**: if no instruction of the shorter program refers to a local label that is defined again, and both programs are accepted, then the code of
the longer one begins with that of the shorter one. -/
theorem C54_words [Unicode] (rt : Rt) (m : Mipsasm) (t1 t2 : Str) (more : List Str) (ws1 ws2 : List Word) (hl : lines t2 = lines t1 ++ more)
    (h1 : (assemble rt m t1).words = some ws1) (h2 : (assemble rt m t2).words = some ws2)
    (hx : ∀ (k : Nat) raw st t, (lines t1)[k]? = some raw → kind raw = .code → Lang.plan (body raw) = some st → Lang.Constant st t →
      isLocal (trim t) = true → ¬ Redefined (lines t1) more (trim t)) : ws1 <+: ws2 := by
  obtain ⟨acc1, g1⟩ := (C57_program rt m t1 ws1).1 h1
  obtain ⟨acc2, g2⟩ := (C57_program rt m t2 ws2).1 h2
  have up : ∀ {k out}, Lang.Generates ⟨rt.ovf, m.base, m.syms, lines t1⟩ k out → Lang.Generates ⟨rt.ovf, m.base, m.syms, lines t2⟩ k out := by
    intro k out hg
    have lift : ∀ {k : Nat} {raw : Str}, (lines t1)[k]? = some raw → (lines t2)[k]? = some raw := by
      intro k raw hk
      rw [hl, List.getElem?_append_left (List.getElem?_eq_some_iff.1 hk).1]; exact hk
    induction hg with
    | none => exact .none
    | inst k raw w out _ e1 e2 e3 ih =>
      exact .inst k raw w out ih (lift e1) e2 (line_kept rt m t1 t2 more hl acc1 k raw e1 e2 (fun st t => hx k raw st t e1 e2) w e3)
    | other k raw out _ e1 e2 ih => exact .other k raw out ih (lift e1) e2
  have low := up g1
  -- the words of more lines begin with those of fewer
  have go : ∀ n, (lines t1).length + n ≤ (lines t2).length → ∃ out, Lang.Generates ⟨rt.ovf, m.base, m.syms, lines t2⟩ ((lines t1).length + n) (ws1 ++ out) := by
    intro n
    induction n with
    | zero => intro _; exact ⟨[], by rw [List.append_nil]; exact low⟩
    | succ n ih =>
      intro hn
      obtain ⟨out, ho⟩ := ih (by omega)
      have hlt : (lines t1).length + n < (lines t2).length := by omega
      have hk : (lines t2)[(lines t1).length + n]? = some ((lines t2)[(lines t1).length + n]) := List.getElem?_eq_getElem hlt
      by_cases hc : kind ((lines t2)[(lines t1).length + n]) = .code
      · have hok : ∃ is wn, assemble rt m t2 = .ok is wn := (C56_verdict rt m t2).2.2.2 acc2
        obtain ⟨is, wn, hok⟩ := hok
        obtain ⟨w, hw⟩ : ∃ ws, (is[codeCount ((lines t2).take ((lines t1).length + n))]?).map Instruction.getBytes = some ws := by
          obtain ⟨tr, x, wn, p, a, b, _, _, _, _, _, _, _, _, _, hi, _⟩ := line_done hok hk hc
          exact ⟨b.getBytes, by rw [hi]; rfl⟩
        refine ⟨out ++ w, ?_⟩
        rw [← List.append_assoc]
        exact .inst _ _ w _ ho hk hc ((C57_line rt m t2 is wn hok _ _ hk hc w).1 hw)
      · exact ⟨out, .other _ _ _ ho hk hc⟩
  have hlen : (lines t1).length + more.length = (lines t2).length := by rw [hl, List.length_append]
  obtain ⟨out, ho⟩ := go more.length (by omega)
  rw [hlen] at ho
  have : (assemble rt m t2).words = some (ws1 ++ out) := (C57_program rt m t2 _).2 ⟨acc2, ho⟩
  rw [h2] at this
  exact ⟨out, (Option.some.inj this).symm⟩

/-- **C54**: a reference to a local label that is defined again is a reference to the last of the added definitions ahead of their first global label. -/
theorem C54_redefined (ls more : List Str) (k d e : Nat) (x : Str) (hk : k < ls.length) (hc : Chosen ls k d x) (hs : scope ls d = scope ls ls.length)
    (he : Defines more e x) (h0 : scope more e = 0) (hlast : ∀ e', e < e' → Defines more e' x → scope more e' ≠ 0) :
    Chosen (ls ++ more) k (ls.length + e) x := by
  obtain ⟨h1, h2, h3, h4⟩ := hc
  have hd : d < ls.length := by obtain ⟨raw, hr, _⟩ := h1; exact (List.getElem?_eq_some_iff.1 hr).1
  have hsc : scope (ls ++ more) (ls.length + e) = scope (ls ++ more) d := by
    rw [scope_right, scope_left ls more (Nat.le_of_lt hd), h0, hs]; rfl
  have hv := (visible_left (b := more) hk (Nat.le_of_lt hd)).2 h2
  refine ⟨?_, ?_, ?_, ?_⟩
  · obtain ⟨raw, hr, hq⟩ := he
    exact ⟨raw, by rw [List.getElem?_append_right (by omega)]; simpa using hr, hq⟩
  · unfold Visible at hv ⊢
    rw [hsc]; exact hv
  · intro d' hd' hv'
    rw [hsc]
    have hle : scope ls d ≤ scope ls k := by
      rcases h2 with h2 | h2
      · omega
      · exact h2.1
    rcases defines_append hd' with ⟨hlt, hd'⟩ | ⟨e', rfl, _⟩
    · rw [scope_left ls more (Nat.le_of_lt hd), scope_left ls more (Nat.le_of_lt hlt)]
      exact h3 d' hd' ((visible_left hk (Nat.le_of_lt hlt)).1 hv')
    · rw [scope_left ls more (Nat.le_of_lt hd), scope_right]; omega
  · intro d' hlt hd'
    rcases defines_append hd' with ⟨hlt', _⟩ | ⟨e', rfl, hd2⟩
    · omega
    · rw [hsc, scope_right, scope_left ls more (Nat.le_of_lt hd), hs]
      intro hh
      exact hlast e' (by omega) hd2 (by omega)

/-! ### The hypotheses are satisfiable -/

/-- Of the two branches of the program, the one to the label that is defined again is changed and the other one is not. -/
example : letI := asciiUnicode
    let pre := c!"a:\n@@y:\nnop\nb:\n@@x:\nb @@y\nnop\nb @@x"
    (assemble (idRt true) Mipsasm.new (pre ++ ['\n'])).words = some [0, 0x1000FFFE, 0, 0x1000FFFD] ∧
    (assemble (idRt true) Mipsasm.new (pre ++ c!"\n@@x:\nnop\nc:")).words = some [0, 0x1000FFFE, 0, 0x10000000, 0] ∧
    (Lang.plan (body c!"b @@y")) = some [.const Lang.addr c!"@@y", .name c!"b"] := by decide +kernel

end Mips
