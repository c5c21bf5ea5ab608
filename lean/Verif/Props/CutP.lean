/-
**C67**, the other way round: a program is cut in two.
-/
import Verif.Spec.Cut
import Verif.Props.LinkP

namespace Mips
open Source Syntax Branch Operands Link
open Lang (plan)

namespace Link
open Lang (File Instr Accepted Generates RefersTo FirstDef plan Numeral LabelName Constant BadPlace NoCode Distance Number)

section
variable [Unicode] {f g : File} {o c : Nat}

/-- what is needed to get from the whole to the part -/
structure Back (f g : File) (o : Nat) : Prop where
  chosen : ∀ (k : Nat) raw t D, f.ls[k]? = some raw → Says f.syms raw (trim t) → isLocal (trim t) = true → Chosen g.ls (o + k) D (trim t) →
    HasClosedScope f.ls ∧ ∃ d, Chosen f.ls k d (trim t)
  first : ∀ (k : Nat) raw t D, f.ls[k]? = some raw → Says f.syms raw (trim t) → FirstDef g.ls D (trim t) → ∃ d, FirstDef f.ls d (trim t)
  inside : ∀ (k : Nat) raw st t (v : Nat), f.ls[k]? = some raw → plan (body raw) = some st → .const Lang.addr t ∈ st → Numeral false (trim t) v →
    v ≤ f.base.toNat + 4 * codeCount f.ls

theorem Part.toDistance (h : Part f g o c) {k : Nat} (hk : k < f.ls.length) {st : List Lang.Step} {t : Str} (hi : Instr f k st)
    (ht : .const Lang.addr t ∈ st) {v : Int} (hd : Distance f k t v) : Distance g (o + k) t v := by
  obtain ⟨raw, r1, r3, r2⟩ := Part.mentions hi (t := t) (.inl (.inl ⟨_, ht⟩))
  have cnt := h.count k (Nat.le_of_lt hk)
  have dst : ∀ d ≤ f.ls.length, (codeCount (g.ls.take (o + d)) : Int) - (codeCount (g.ls.take (o + k)) + 1) =
      (codeCount (f.ls.take d) : Int) - (codeCount (f.ls.take k) + 1) := by
    intro d hd
    rw [cnt, h.count d hd]; omega
  cases hd with
  | «local» d h1 h2 =>
    rw [← dst d (Nat.le_of_lt (defines_lt h2.1))]
    exact .local _ h1 (h.chosen k raw t d r1 r2 h1 h2)
  | label d h1 h2 =>
    rw [← dst d (Nat.le_of_lt (defines_lt h2.1))]
    exact .label _ (by omega) (h.first k raw t d r1 r2 h2)
  | number v h1 =>
    have hc : c = 0 := h.numbers k raw st t v r1 r3 ht h1.2.2.1
    have cnt' : codeCount (g.ls.take (o + k)) = codeCount (f.ls.take k) := by rw [cnt, hc, Nat.zero_add]
    rw [← cnt']
    exact .number v ((h.number r1 r2).1 h1)
  | half m v h1 h2 h3 => exact .half m v (fun hh => h1 ((h.refers k raw t r1 r2).2 hh)) h2 ((h.value _ _).1 h3)

theorem Part.accepted (h : Part f g o c) (hb : Back f g o) (hg : Accepted g) : Accepted f := by
  obtain ⟨g1, g2, g3, g4⟩ := hg
  have room : f.base.toNat + 4 * codeCount f.ls < 2 ^ 32 := Nat.lt_of_le_of_lt h.room h.room'
  refine ⟨?_, not_overflows room, ?_, ?_⟩
  · intro k raw hk
    have := g1 (o + k) raw (h.line' hk)
    unfold Lang.LineTaken at this ⊢
    cases hkd : kind raw with
    | blank => trivial
    | label l =>
      rw [hkd] at this
      refine ⟨this.1, fun hl d hd hh => this.2 hl (o + d) ?_ ?_⟩
      · have hd : d < k := hd
        show o + d < o + k
        omega
      · obtain ⟨r, r1, r2⟩ := hh
        exact ⟨r, h.line' r1, r2⟩
    | code =>
      rw [hkd] at this
      obtain ⟨st, h1, h2⟩ := this
      exact ⟨st, h1, (h.allReads hk hkd h1).2 h2⟩
  · rintro ⟨k, st, t, hi, hx⟩
    have hk : k < f.ls.length := by obtain ⟨raw, h1, _⟩ := hi; exact (List.getElem?_eq_some_iff.1 h1).1
    refine g3 ⟨o + k, st, t, (h.instr hk).1 hi, ?_⟩
    rcases hx with ⟨h1, h2, h3⟩ | ⟨h1, h2, h3⟩ | ⟨h1, v, h2, h3⟩
    · obtain ⟨raw, r1, _, r2⟩ := Part.mentions hi (.inl h1)
      refine .inl ⟨h1, h2, ?_⟩
      rintro ⟨_, D, hD⟩
      exact h3 (hb.chosen k raw t D r1 r2 h2 hD)
    · obtain ⟨raw, r1, _, r2⟩ := Part.mentions hi (t := t) (.inr ⟨h1, h2⟩)
      refine .inr (.inl ⟨h1, h.syms ▸ h2, fun D hD => ?_⟩)
      obtain ⟨d, hd⟩ := hb.first k raw t D r1 r2 hD
      exact h3 d hd
    · obtain ⟨raw, r1, r3, r2⟩ := Part.mentions hi (t := t) (.inl (.inl ⟨_, h1⟩))
      have hc : c = 0 := h.numbers k raw st t v r1 r3 h1 h2.2.2.1
      have hbase : f.base = g.base := by rw [h.base, hc]; simp
      have hin := hb.inside k raw st t v r1 r3 h1 h2.2.2.1
      refine .inr (.inr ⟨h1, v, (h.number r1 r2).1 h2, ?_⟩)
      rw [Nat.mod_eq_of_lt room] at h3
      rcases h3 with h3 | h3
      · exact .inl (hbase ▸ h3)
      · omega
  · rintro ⟨k, raw, hk, hc, hx⟩
    have hkl := (List.getElem?_eq_some_iff.1 hk).1
    refine g4 ⟨o + k, raw, h.line' hk, hc, ?_⟩
    rcases hx with h1 | ⟨h1, h2, st, t, v, h3, h4, h5, h6⟩
    · exact .inl h1
    · exact .inr ⟨h.ovf ▸ h1, h2, st, t, v, (h.instr hkl).1 h3, h4, h.toDistance hkl h3 h4 h5, h6⟩

end

section
variable [Unicode] {a b : List Str} {ovf : Bool} {B : BitVec 32} {syms : List (BitVec 32 × Str)}

theorem back_left (h : Cut B syms a b) : Back ⟨ovf, B, syms, a⟩ ⟨ovf, B, syms, a ++ b⟩ 0 where
  chosen k raw t D hk hm hl hD := by
    have hk : a[k]? = some raw := hk
    have hkl : k < a.length := (List.getElem?_eq_some_iff.1 hk).1
    refine ⟨h.closed raw (List.mem_of_getElem? hk) _ hl hm.1, ?_⟩
    rw [Nat.zero_add] at hD
    obtain ⟨h1, h2, h3, h4⟩ := hD
    have hka := scope_mono a (Nat.le_of_lt hkl)
    have h2 : Visible (a ++ b) k D := h2
    rcases defines_append h1 with ⟨hlt, h1'⟩ | ⟨e, rfl, h1'⟩
    · refine ⟨D, h1', (visible_left hkl (Nat.le_of_lt hlt)).1 h2, fun d' hd' hv => ?_, fun d' hlt' hd' => ?_⟩
      · have hdl := defines_lt hd'
        have := h3 d' (defines_left hd') ((visible_left hkl (Nat.le_of_lt hdl)).2 hv)
        have this : scope (a ++ b) D ≤ scope (a ++ b) d' := this
        rw [scope_left a b (Nat.le_of_lt hlt), scope_left a b (Nat.le_of_lt hdl)] at this
        exact this
      · have hdl := defines_lt hd'
        have := h4 d' hlt' (defines_left hd')
        have this : scope (a ++ b) d' ≠ scope (a ++ b) D := this
        rw [scope_left a b (Nat.le_of_lt hlt), scope_left a b (Nat.le_of_lt hdl)] at this
        exact this
    · exfalso
      have hs := h.apart.behind e _ hl h1'
      rcases h2 with h2 | ⟨h2, _⟩
      · rw [scope_right] at h2; omega
      · rw [scope_right, scope_left a b (Nat.le_of_lt hkl)] at h2
        omega
  first k raw t D hk hm hD := by
    have hD : FirstDef (a ++ b) D (trim t) := hD
    rcases defines_append hD.1 with ⟨hlt, h1⟩ | ⟨e, rfl, h1⟩
    · exact ⟨D, h1, hD.2.1, fun d' hd' hh => hD.2.2 d' hd' (defines_left hh)⟩
    · exact absurd (h.front e _ hD.2.1.1 h1 raw (List.mem_of_getElem? hk) hm.1) hm.2
  inside k raw st t v hk hp ht hv := h.inside raw (List.mem_of_getElem? hk) st t v hp ht hv

theorem back_right (h : Cut B syms a b) : Back ⟨ovf, B + BitVec.ofNat 32 (4 * codeCount a), syms, b⟩ ⟨ovf, B, syms, a ++ b⟩ a.length where
  chosen k raw t D hk hm hl hD := by
    have hk : b[k]? = some raw := hk
    refine ⟨h.closed' raw (List.mem_of_getElem? hk) _ hl hm.1, ?_⟩
    obtain ⟨h1, h2, h3, h4⟩ := hD
    have h2 : Visible (a ++ b) (a.length + k) D := h2
    rcases defines_append h1 with ⟨hlt, h1'⟩ | ⟨e, rfl, h1'⟩
    · exact absurd h2 (h.apart.hidden D k _ raw hl h1' hk hm.1)
    · refine ⟨e, h1', visible_right' h2, fun d' hd' hv => ?_, fun d' hlt' hd' => ?_⟩
      · have := h3 _ (defines_right hd') (visible_right hv (h.apart.behind d' _ hl hd'))
        have this : scope (a ++ b) (a.length + e) ≤ scope (a ++ b) (a.length + d') := this
        rw [scope_right, scope_right] at this
        exact Nat.le_of_add_le_add_left this
      · have := h4 _ (Nat.add_lt_add_left hlt' _) (defines_right hd')
        have this : scope (a ++ b) (a.length + d') ≠ scope (a ++ b) (a.length + e) := this
        rw [scope_right, scope_right] at this
        exact fun hh => this (by rw [hh])
  first k raw t D hk hm hD := by
    have hD : FirstDef (a ++ b) D (trim t) := hD
    rcases defines_append hD.1 with ⟨hlt, h1⟩ | ⟨e, rfl, h1⟩
    · exact absurd (h.apart.unused D _ hD.2.1.1 h1 raw (List.mem_of_getElem? hk) hm.1) hm.2
    · exact ⟨e, h1, hD.2.1, fun d' hd' hh => hD.2.2 _ (Nat.add_lt_add_left hd' _) (defines_right hh)⟩
  inside k raw st t v hk hp ht hv := absurd hv (h.apart.numbers raw (List.mem_of_getElem? hk) st t v hp ht)

end
end Link

/-- **C67**, the other way round.  If a program is accepted and can be cut in two (`Cut`), both parts are accepted on their own, the second one for
the address behind the first (4 bytes for each of its instructions), and the code is the code of the first part followed by that of the second. -/
theorem C67_cut [Unicode] (rt : Rt) (m : Mipsasm) (ta tb text : Str) (ws : List Word) (h : Cut m.base m.syms (lines ta) (lines tb))
    (hl : lines text = lines ta ++ lines tb) (hr : m.base.toNat + 4 * (codeCount (lines ta) + codeCount (lines tb)) < 2 ^ 32)
    (hw : (assemble rt m text).words = some ws) :
    ∃ wa wb, (assemble rt m ta).words = some wa ∧
      (assemble rt { m with base := m.base + BitVec.ofNat 32 (4 * codeCount (lines ta)) } tb).words = some wb ∧ ws = wa ++ wb := by
  have hg := ((C57_program rt m text ws).1 hw).1
  rw [hl] at hg
  have aa := (part_left (ovf := rt.ovf) h.apart hr).accepted (back_left h) hg
  have ab := (part_right (ovf := rt.ovf) h.apart hr).accepted (back_right h) hg
  obtain ⟨is, wn, e1⟩ := (C56_verdict rt m ta).2.2.2 aa
  obtain ⟨is', wn', e2⟩ := (C56_verdict rt { m with base := m.base + BitVec.ofNat 32 (4 * codeCount (lines ta)) } tb).2.2.2 ab
  have h1 : (assemble rt m ta).words = some (getBytes is) := by rw [e1]; rfl
  have h2 : (assemble rt { m with base := m.base + BitVec.ofNat 32 (4 * codeCount (lines ta)) } tb).words = some (getBytes is') := by rw [e2]; rfl
  refine ⟨_, _, h1, h2, ?_⟩
  have := C67_separate rt m ta tb text _ _ h.apart hl hr h1 h2
  rw [hw] at this
  exact Option.some.inj this

/-- **C67**, both ways: the whole has code exactly if both parts have. -/
theorem C67_both [Unicode] (rt : Rt) (m : Mipsasm) (ta tb text : Str) (h : Cut m.base m.syms (lines ta) (lines tb))
    (hl : lines text = lines ta ++ lines tb) (hr : m.base.toNat + 4 * (codeCount (lines ta) + codeCount (lines tb)) < 2 ^ 32) :
    (assemble rt m text).words = (assemble rt m ta).words.bind fun wa =>
      (assemble rt { m with base := m.base + BitVec.ofNat 32 (4 * codeCount (lines ta)) } tb).words.map fun wb => wa ++ wb := by
  apply Option.ext
  intro ws
  rw [Option.bind_eq_some_iff]
  constructor
  · intro hw
    obtain ⟨wa, wb, h1, h2, rfl⟩ := C67_cut rt m ta tb text ws h hl hr hw
    exact ⟨wa, h1, by rw [h2]; rfl⟩
  · rintro ⟨wa, h1, h2⟩
    obtain ⟨wb, h3, rfl⟩ := Option.map_eq_some_iff.1 h2
    exact C67_separate rt m ta tb text wa wb h.apart hl hr h1 h3

theorem exCut2 : @Cut asciiUnicode Mipsasm.new.base [] (lines exFront) (lines exBehind) := by
  letI := asciiUnicode
  refine ⟨exLink, ?_, ?_, ?_, ?_⟩
  · intro e l hl hd raw hr hm
    exfalso
    have no : ∀ raw ∈ lines exFront, kind raw = .code → 'G' ∉ raw ∧ 'H' ∉ raw := by decide +kernel
    have no := no raw hr hm.1
    have he := Link.defines_lt hd
    obtain ⟨r, h1, h2⟩ := hd
    have key : ∀ e < (lines exBehind).length, kind (((lines exBehind)[e]?).getD []) = .blank ∨ kind (((lines exBehind)[e]?).getD []) = .code ∨
        kind (((lines exBehind)[e]?).getD []) = .label c!"G" ∨ kind (((lines exBehind)[e]?).getD []) = .label c!"@@l" ∨
        kind (((lines exBehind)[e]?).getD []) = .label c!"H" := by decide +kernel
    have k := key e he
    rw [h1] at k
    simp only [Option.getD_some] at k
    rcases k with k | k | k | k | k <;> rw [h2] at k <;> cases k
    · exact no.1 (Fresh.mentions_chars hm _ (by decide))
    · revert hl; decide
    · exact no.2 (Fresh.mentions_chars hm _ (by decide))
  · intro raw hr st t v hp ht hn
    have key : ∀ raw ∈ lines exFront, ∀ st ∈ plan (body raw), ∀ x ∈ st, ∀ t ∈ (match x with | .const _ t => some t | _ => none),
        Rename.Name [] (trim t) ∨ kind raw = .code ∧ st.all (fun x => match x with | .const k _ => k != Lang.addr | _ => true) = true := by
      decide +kernel
    rcases key raw hr st hp _ ht t rfl with h | ⟨_, h⟩
    · exact absurd hn (fun hn => Rename.name_numeral h hn)
    · have := List.all_eq_true.1 h _ ht
      have h0 : (Lang.addr != Lang.addr) = false := by decide
      exact Bool.noConfusion (h0.symm.trans this)
  · intro _ _ _ _ _
    exact Fresh.closed_pair.2 ⟨1, 5, c!"@@l", c!"last", by decide, by unfold Defines; decide +kernel, by decide, by unfold Defines; decide +kernel, by decide⟩
  · intro _ _ _ _ _
    exact Fresh.closed_pair.2 ⟨2, 7, c!"@@l", c!"H", by decide, by unfold Defines; decide +kernel, by decide, by unfold Defines; decide +kernel, by decide⟩

/-- The hypotheses of `C67_cut` are met: a program with local labels, branches and jumps on both sides. -/
example : letI := asciiUnicode
    Cut Mipsasm.new.base Mipsasm.new.syms (lines exFront) (lines exBehind) ∧ lines (exFront ++ exBehind) = lines exFront ++ lines exBehind ∧
    Mipsasm.new.base.toNat + 4 * (codeCount (lines exFront) + codeCount (lines exBehind)) < 2 ^ 32 ∧
    (assemble (idRt true) Mipsasm.new (exFront ++ exBehind)).words = some [0x2484FFFF#32, 0x1480FFFE#32, 0#32, 0x03E00008#32, 0x08000000#32,
      0#32, 0x8CA20004#32, 0x1000FFFE#32, 0x0C000005#32, 0x1040FFFB#32, 0#32] := by
  letI := asciiUnicode
  exact ⟨exCut2, by decide +kernel, by decide +kernel, by decide +kernel⟩

/-- Why `closed` and `inside` are asked for: programs that are accepted although their first part is not.  The local label of the first one is only
closed by the global label of the second part; the branch of the second one goes into the second part by number. -/
theorem C67_cut_wrong : letI := asciiUnicode
    ((assemble (idRt true) Mipsasm.new c!"@@l:\nb @@l\nnop\nG:\nnop\n").words = some [0x1000FFFF#32, 0#32, 0#32] ∧
      (assemble (idRt true) Mipsasm.new c!"@@l:\nb @@l\nnop\n").words = none) ∧
    ((assemble (idRt true) Mipsasm.new c!"b 8\nnop\nnop\nnop\n").words.isSome = true ∧
      (assemble (idRt true) Mipsasm.new c!"b 8\n").words = none) := by
  decide +kernel

end Mips
