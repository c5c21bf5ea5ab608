/-
**C75** — assembled code can be relocated: the words of jumps to labels, and only they, depend on the base address, in the known way.
-/
import Verif.Lemmas.RelocL
import Verif.Props.CodeP

namespace Mips
open Source Syntax Branch Operands Reloc

section
variable [Unicode] {rt : Rt} {m : Mipsasm} {text : Str}

theorem generates_unique {ws : List Word} (h : (assemble rt m text).words = some ws) {k : Nat} {out : List Word}
    (hg : Lang.Generates ⟨rt.ovf, m.base, m.syms, lines text⟩ k out) :
    ∀ out', Lang.Generates ⟨rt.ovf, m.base, m.syms, lines text⟩ k out' → out = out' := by
  obtain ⟨tr, hT⟩ : ∃ tr, IsTrace (envOf rt m text) (lines text) tr := by
    cases h' : assemble rt m text with
    | panic => rw [h'] at h; cases h
    | ok a b => obtain ⟨tr, h1, _⟩ := assemble_ok h'; exact ⟨tr, h1⟩
    | err a b => rw [h'] at h; cases h
  induction hg with
  | none => intro out' h; cases h; rfl
  | inst k raw ws out _ h1 h2 h3 ih =>
    intro out' h
    cases h with
    | inst _ raw' ws' out2 g1 g2 g3 g4 =>
      rw [h1] at g2; cases g2
      rw [ih _ g1, lineWords_unique hT h1 h3 g4]
    | other _ raw' _ g1 g2 g3 =>
      rw [h1] at g2; cases g2
      exact absurd h2 g3
  | other k raw out _ h1 h2 ih =>
    intro out' h
    cases h with
    | inst _ raw' ws' out2 g1 g2 g3 g4 =>
      rw [h1] at g2; cases g2
      exact absurd g3 h2
    | other _ raw' _ g1 g2 g3 => exact ih _ g1

theorem generates_sub {f : Lang.File} {k : Nat} {out : List Word} (hg : Lang.Generates f k out) :
    ∀ j ≤ k, ∃ pre, Lang.Generates f j pre ∧ pre.length ≤ out.length := by
  induction hg with
  | none => intro j hj; exact ⟨[], by rw [Nat.le_zero.1 hj]; exact .none, Nat.le_refl _⟩
  | inst k raw ws out h0 h1 h2 h3 ih =>
    intro j hj
    rcases Nat.lt_or_eq_of_le hj with h | rfl
    · obtain ⟨pre, g1, g2⟩ := ih j (by omega)
      exact ⟨pre, g1, by rw [List.length_append]; omega⟩
    · exact ⟨_, .inst k raw ws out h0 h1 h2 h3, Nat.le_refl _⟩
  | other k raw out h0 h1 h2 ih =>
    intro j hj
    rcases Nat.lt_or_eq_of_le hj with h | rfl
    · exact ih j (by omega)
    · exact ⟨_, .other k raw out h0 h1 h2, Nat.le_refl _⟩

/-- Code of the first `k` lines, for two base addresses. -/
theorem generates_moved {f g : Lang.File} (ho : f.ovf = g.ovf) (hs : f.syms = g.syms) (hl : f.ls = g.ls)
    (uf : ∀ k out out', Lang.Generates f k out → Lang.Generates f k out' → out = out')
    (ug : ∀ k raw ws ws', g.ls[k]? = some raw → Lang.LineWords g k raw ws → Lang.LineWords g k raw ws' → ws = ws') {k : Nat} {out : List Word}
    (hg : Lang.Generates f k out) : ∀ out', Lang.Generates g k out' → out'.length = out.length ∧
      ∀ (i : Nat) (w : Word), out[i]? = some w → (Site f i ∧ out'[i]? = some (moved f.base g.base w)) ∨ (¬ Site f i ∧ out'[i]? = some w) := by
  induction hg with
  | none => intro out' h; cases h; exact ⟨rfl, fun i w h => by simp at h⟩
  | other k raw out h0 h1 h2 ih =>
    intro out' h
    cases h with
    | inst _ raw' ws' out2 g1 g2 g3 g4 =>
      rw [← hl, h1] at g2; cases g2
      exact absurd g3 h2
    | other _ raw' _ g1 g2 g3 => exact ih _ g1
  | inst k raw ws out h0 h1 h2 h3 ih =>
    intro out' h
    cases h with
    | other _ raw' _ g1 g2 g3 =>
      rw [← hl, h1] at g2; cases g2
      exact absurd h2 g3
    | inst _ raw' ws' out2 g1 g2 g3 g4 =>
      rw [← hl, h1] at g2; cases g2
      obtain ⟨i1, i2⟩ := ih _ g1
      by_cases hj : JumpsToLabel f k
      · obtain ⟨w, rfl, hw⟩ := line_moved hs hl h1 hj h3
        have := ug k raw _ _ (hl ▸ h1) g4 hw
        subst this
        refine ⟨by simp [i1], fun i v hv => ?_⟩
        by_cases hi : i < out.length
        · rw [List.getElem?_append_left hi] at hv
          rw [List.getElem?_append_left (by omega)]
          exact i2 i v hv
        · have e : i = out.length := by
            have := (List.getElem?_eq_some_iff.1 hv).1
            rw [List.length_append] at this; simp at this; omega
          subst e
          simp only [List.getElem?_concat_length, Option.some.injEq] at hv
          subst hv
          refine .inl ⟨⟨k, out, h0, rfl, hj⟩, ?_⟩
          rw [← i1]; simp
      · have := ug k raw _ _ (hl ▸ h1) g4 (line_same ho hs hl h1 h2 hj h3)
        subst this
        refine ⟨by simp [i1], fun i v hv => ?_⟩
        by_cases hi : i < out.length
        · rw [List.getElem?_append_left hi] at hv
          rw [List.getElem?_append_left (by omega)]
          exact i2 i v hv
        · refine .inr ⟨?_, ?_⟩
          · rintro ⟨k2, o2, q1, q2, q3⟩
            have hlt := (List.getElem?_eq_some_iff.1 hv).1
            rw [List.length_append] at hlt
            rcases Nat.lt_trichotomy k2 k with c | rfl | c
            · obtain ⟨pre, p1, p2⟩ := generates_sub h0 (k2 + 1) c
              have q4 := q3
              obtain ⟨r, t, e1, e2, _⟩ := q4
              cases p1 with
              | other _ r' _ y1 y2 y3 => rw [e1] at y2; cases y2; exact absurd e2 y3
              | inst _ r' w' o' y1 y2 y3 y4 =>
                obtain ⟨v', rfl, _⟩ := line_moved hs hl y2 q3 y4
                rw [uf _ _ _ y1 q1, List.length_append] at p2
                simp at p2; omega
            · exact hj q3
            · obtain ⟨pre, p1, p2⟩ := generates_sub q1 (k + 1) c
              have := uf _ _ _ p1 (.inst k raw ws' out h0 h1 h2 h3)
              rw [this, List.length_append] at p2
              omega
          · rw [List.getElem?_append_right (by omega)] at hv ⊢
            rw [i1]; exact hv
theorem generates_other {f g : Lang.File} (ho : f.ovf = g.ovf) (hs : f.syms = g.syms) (hl : f.ls = g.ls) {k : Nat} {out : List Word}
    (hg : Lang.Generates f k out) : ∃ out', Lang.Generates g k out' ∧ out'.length = out.length := by
  induction hg with
  | none => exact ⟨[], .none, rfl⟩
  | other k raw out h0 h1 h2 ih =>
    obtain ⟨o, g1, g2⟩ := ih
    exact ⟨o, .other k raw o g1 (hl ▸ h1) h2, g2⟩
  | inst k raw ws out h0 h1 h2 h3 ih =>
    obtain ⟨o, g1, g2⟩ := ih
    by_cases hj : JumpsToLabel f k
    · obtain ⟨w, rfl, hw⟩ := line_moved hs hl h1 hj h3
      exact ⟨_, .inst k raw _ o g1 (hl ▸ h1) h2 hw, by simp [g2]⟩
    · exact ⟨_, .inst k raw ws o g1 (hl ▸ h1) h2 (line_same ho hs hl h1 h2 hj h3), by simp [g2]⟩

theorem site_other {f g : Lang.File} (ho : f.ovf = g.ovf) (hs : f.syms = g.syms) (hl : f.ls = g.ls) {i : Nat} (h : Site f i) : Site g i := by
  obtain ⟨k, out, h1, h2, r, t, h3, h4, h5, h6, h7⟩ := h
  obtain ⟨o, g1, g2⟩ := generates_other ho hs hl h1
  exact ⟨k, o, g1, by omega, r, t, hl ▸ h3, h4, h5, h6, hs ▸ h7⟩

end

/-- **C75**.  If a program is accepted for two base addresses, the words of its jumps to labels differ by the distance between the two
addresses, and all other words are the same. -/
theorem C75_words [Unicode] (rt : Rt) (m : Mipsasm) (b b' : Word) (text : Str) (ws ws' : List Word)
    (h : (assemble rt { m with base := b } text).words = some ws) (h' : (assemble rt { m with base := b' } text).words = some ws') :
    ws'.length = ws.length ∧ ∀ (i : Nat) (w : Word), ws[i]? = some w →
      (Site ⟨rt.ovf, b, m.syms, lines text⟩ i → ws'[i]? = some (moved b b' w)) ∧ (¬ Site ⟨rt.ovf, b, m.syms, lines text⟩ i → ws'[i]? = some w) := by
  have g1 := ((C57_program rt { m with base := b } text ws).1 h).2
  have g2 := ((C57_program rt { m with base := b' } text ws').1 h').2
  obtain ⟨tr, hT⟩ : ∃ tr, IsTrace (envOf rt { m with base := b' } text) (lines text) tr := by
    cases hh : assemble rt { m with base := b' } text with
    | panic => rw [hh] at h'; cases h'
    | ok a b => obtain ⟨tr, h1, _⟩ := assemble_ok hh; exact ⟨tr, h1⟩
    | err a b => rw [hh] at h'; cases h'
  obtain ⟨e1, e2⟩ := generates_moved (f := ⟨rt.ovf, b, m.syms, lines text⟩) (g := ⟨rt.ovf, b', m.syms, lines text⟩) rfl rfl rfl
    (fun k out out' x y => generates_unique h x out' y)
    (fun k raw u u' hk x y => lineWords_unique hT hk x y) g1 ws' g2
  refine ⟨e1, fun i w hw => ?_⟩
  rcases e2 i w hw with ⟨x, y⟩ | ⟨x, y⟩
  · exact ⟨fun _ => y, fun c => absurd x c⟩
  · exact ⟨fun c => absurd c x, fun _ => y⟩

/-- **C75**.  Every program has a table of places such that its code for one base address, with the words at these places changed, is its
code for any other base address for which it is accepted. -/
theorem C75_table [Unicode] (rt : Rt) (m : Mipsasm) (text : Str) : ∃ R : List Nat, ∀ (b b' : Word) (ws ws' : List Word),
    (assemble rt { m with base := b } text).words = some ws → (assemble rt { m with base := b' } text).words = some ws' →
    ws' = relocate R b b' ws ∧ ∀ i ∈ R, ∃ w, ws[i]? = some w ∧ Site ⟨rt.ovf, b, m.syms, lines text⟩ i := by
  classical
  by_cases hx : ∃ b ws, (assemble rt { m with base := b } text).words = some ws
  · obtain ⟨b0, ws0, h0⟩ := hx
    refine ⟨(List.range ws0.length).filter fun i => decide (Site ⟨rt.ovf, b0, m.syms, lines text⟩ i), fun b b' ws ws' h h' => ?_⟩
    have hlen := (C75_words rt m b0 b text ws0 ws h0 h).1
    obtain ⟨hlen', key⟩ := C75_words rt m b b' text ws ws' h h'
    have site : ∀ i, Site ⟨rt.ovf, b0, m.syms, lines text⟩ i ↔ Site ⟨rt.ovf, b, m.syms, lines text⟩ i :=
      fun i => ⟨fun x => site_other (f := ⟨rt.ovf, b0, m.syms, lines text⟩) (g := ⟨rt.ovf, b, m.syms, lines text⟩) rfl rfl rfl x, fun x => site_other (f := ⟨rt.ovf, b, m.syms, lines text⟩) (g := ⟨rt.ovf, b0, m.syms, lines text⟩) rfl rfl rfl x⟩
    refine ⟨?_, fun i hi => ?_⟩
    · apply List.ext_getElem?
      intro i
      unfold relocate
      rw [List.getElem?_mapIdx]
      cases hw : ws[i]? with
      | none =>
        have := List.getElem?_eq_none_iff.1 hw
        simpa using (by omega : ws'.length ≤ i)
      | some w =>
        have hi := (List.getElem?_eq_some_iff.1 hw).1
        simp only [Option.map_some, List.mem_filter, List.mem_range, decide_eq_true_eq]
        split
        · rename_i hc; exact (key i w hw).1 ((site i).1 hc.2)
        · rename_i hc; exact (key i w hw).2 (fun x => hc ⟨by omega, (site i).2 x⟩)
    · simp only [List.mem_filter, List.mem_range, decide_eq_true_eq] at hi
      exact ⟨ws[i]'(by omega), List.getElem?_eq_getElem _, (site i).1 hi.2⟩
  · exact ⟨[], fun b _ ws _ h => absurd ⟨b, ws, h⟩ hx⟩

/-! ### The hypotheses are satisfiable -/

def exMove : Str := c!"jal main\nnop\nmain:\nli $a0, 0x12345678\nj main\nj 0x40\nbne $a0, $v0, main\nj far"

/-- Code for two base addresses: words 0 and 4 are jumps to a label, all others are the same. -/
example : letI := asciiUnicode
    (assemble (idRt true) ⟨0#32, [(0x100#32, c!"far")], false⟩ exMove).words =
      some [0x0C000002#32, 0#32, 0x3C041234#32, 0x34845678#32, 0x08000002#32, 0x08000010#32, 0x1482FFFC#32, 0x08000040#32] ∧
    (assemble (idRt true) ⟨0x80001000#32, [(0x100#32, c!"far")], false⟩ exMove).words =
      some (relocate [0, 4] 0#32 0x80001000#32
        [0x0C000002#32, 0#32, 0x3C041234#32, 0x34845678#32, 0x08000002#32, 0x08000010#32, 0x1482FFFC#32, 0x08000040#32]) ∧
    relocate [0, 4] 0#32 0x80001000#32
        [0x0C000002#32, 0#32, 0x3C041234#32, 0x34845678#32, 0x08000002#32, 0x08000010#32, 0x1482FFFC#32, 0x08000040#32] =
      [0x0C000402#32, 0#32, 0x3C041234#32, 0x34845678#32, 0x08000402#32, 0x08000010#32, 0x1482FFFC#32, 0x08000040#32] := by
  letI := asciiUnicode
  exact ⟨by decide +kernel, by decide +kernel, by decide +kernel⟩

end Mips
