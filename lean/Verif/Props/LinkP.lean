/-
**C67** — separate assembly: the code of two programs, one behind the other, is the code of the first and then the code of the second,
assembled for its place.
-/
import Verif.Lemmas.LinkL
import Verif.Props.CodeP
import Verif.Props.FreshP

namespace Mips
open Source Syntax Branch Operands Link
open Lang (plan)

namespace Link
open Lang (File Instr Accepted Generates RefersTo FirstDef plan)

section
variable [Unicode] {a b : List Str} {ovf : Bool} {B : BitVec 32} {syms : List (BitVec 32 × Str)}

theorem defines_right {a b : List Str} {e : Nat} {x : Str} (h : Defines b e x) : Defines (a ++ b) (a.length + e) x := by
  obtain ⟨raw, h1, h2⟩ := h
  exact ⟨raw, by rw [List.getElem?_append_right (by omega), Nat.add_sub_cancel_left]; exact h1, h2⟩

theorem visible_right {a b : List Str} {k d : Nat} (h : Visible b k d) (hd : scope b d ≠ 0) : Visible (a ++ b) (a.length + k) (a.length + d) := by
  rcases h with h | ⟨h1, h2⟩
  · exact absurd h hd
  · refine .inr ⟨by rw [scope_right, scope_right]; omega, fun j raw hj hr hc => ?_⟩
    rw [scope_right]
    by_cases hja : j < a.length
    · rw [scope_left a b (by omega)]
      have := scope_mono a (Nat.le_of_lt hja)
      omega
    · obtain ⟨e, rfl⟩ := Nat.exists_eq_add_of_le (Nat.le_of_not_lt hja)
      rw [List.getElem?_append_right (by omega), Nat.add_sub_cancel_left] at hr
      rw [scope_right]
      have := h2 e raw (by omega) hr hc
      omega

theorem visible_right' {a b : List Str} {k d : Nat} (h : Visible (a ++ b) (a.length + k) (a.length + d)) : Visible b k d := by
  rcases h with h | ⟨h1, h2⟩
  · rw [scope_right] at h
    exact .inl (by omega)
  · rw [scope_right, scope_right] at h1
    refine .inr ⟨by omega, fun j raw hj hr hc => ?_⟩
    have := h2 (a.length + j) raw (by omega) (by rw [List.getElem?_append_right (by omega), Nat.add_sub_cancel_left]; exact hr) hc
    rw [scope_right, scope_right] at this
    omega

theorem part_left (h : Apart syms a b) (hr : B.toNat + 4 * (codeCount a + codeCount b) < 2 ^ 32) :
    Part ⟨ovf, B, syms, a⟩ ⟨ovf, B, syms, a ++ b⟩ 0 0 where
  ovf := rfl
  syms := rfl
  base := by simp
  line k hk := by
    have hk : k < a.length := hk
    simp only [Nat.zero_add]
    exact List.getElem?_append_left hk
  count k hk := by
    simp only [Nat.zero_add]
    rw [List.take_append_of_le_length hk]
  refers k raw t hk _ := by
    have hkl : k < a.length := (List.getElem?_eq_some_iff.1 hk).1
    unfold RefersTo
    refine or_congr Iff.rfl (and_congr Iff.rfl ?_)
    constructor
    · rintro ⟨d, h1, h2⟩
      exact ⟨d, by show d < 0 + k; rw [Nat.zero_add]; exact h1, defines_left h2⟩
    · rintro ⟨d, h1, h2⟩
      have h1 : d < 0 + k := h1
      rw [Nat.zero_add] at h1
      rcases defines_append h2 with ⟨_, h3⟩ | ⟨e, rfl, _⟩
      · exact ⟨d, h1, h3⟩
      · omega
  first k raw t d _ _ hf := by
    rw [Nat.zero_add]
    refine ⟨defines_left hf.1, hf.2.1, fun d' hd' hh => ?_⟩
    rcases defines_append hh with ⟨_, h3⟩ | ⟨e, rfl, _⟩
    · exact hf.2.2 d' hd' h3
    · have := defines_lt hf.1
      have : d < a.length := this
      omega
  chosen k raw t d hk _ hl hc := by
    rw [Nat.zero_add, Nat.zero_add]
    exact chosen_append (fun _ e x h1 _ _ h4 => h.behind e x h1 h4) hl (List.getElem?_eq_some_iff.1 hk).1 hc
  closed := by
    rintro ⟨d, g, y, h1, h2, h3, h4⟩
    have hs : ∃ j z, d < j ∧ Defines a j z ∧ isLocal z = false := by
      obtain ⟨d', j, y', z, k1, k2, k3, k4, k5⟩ := Fresh.closed_pair.1 ⟨d, g, y, h1, h2, h3, h4⟩
      obtain ⟨j, z, e1, e2, e3⟩ := Fresh.scope_lt h4
      refine ⟨j, z, ?_, e2, e3⟩
      rcases Nat.eq_or_lt_of_le e1 with rfl | hlt
      · obtain ⟨r1, e4, e5⟩ := h1
        obtain ⟨r2, e6, e7⟩ := e2
        have e4 : a[d]? = some r1 := e4
        rw [e4] at e6; cases e6
        rw [e5] at e7; cases e7
        rw [h2] at e3; cases e3
      · exact hlt
    obtain ⟨j, z, e1, e2, e3⟩ := hs
    exact Fresh.closed_pair.2 ⟨d, j, y, z, e1, defines_left h1, h2, defines_left e2, e3⟩
  numbers _ _ _ _ _ _ _ _ _ := rfl
  room := by
    show B.toNat + 4 * codeCount a ≤ B.toNat + 4 * codeCount (a ++ b)
    rw [codeCount_append]; omega
  room' := by
    show B.toNat + 4 * codeCount (a ++ b) < 2 ^ 32
    rw [codeCount_append]; exact hr

theorem part_right (h : Apart syms a b) (hr : B.toNat + 4 * (codeCount a + codeCount b) < 2 ^ 32) :
    Part ⟨ovf, B + BitVec.ofNat 32 (4 * codeCount a), syms, b⟩ ⟨ovf, B, syms, a ++ b⟩ a.length (codeCount a) where
  ovf := rfl
  syms := rfl
  base := rfl
  line k hk := by
    show (a ++ b)[a.length + k]? = b[k]?
    rw [List.getElem?_append_right (by omega), Nat.add_sub_cancel_left]
  count k hk := by
    show codeCount ((a ++ b).take (a.length + k)) = codeCount a + codeCount (b.take k)
    rw [List.take_length_add_append, codeCount_append]
  refers k raw t hk hm := by
    have hkl : k < b.length := (List.getElem?_eq_some_iff.1 hk).1
    unfold RefersTo
    constructor
    · rintro (hl | ⟨hg, d, h1, h2⟩)
      · exact .inl hl
      · exact .inr ⟨hg, a.length + d, Nat.add_lt_add_left h1 _, defines_right h2⟩
    · rintro (hl | ⟨hg, d, h1, h2⟩)
      · exact .inl hl
      · rcases defines_append h2 with ⟨_, h3⟩ | ⟨e, rfl, h3⟩
        · exact absurd (h.unused d _ hg.1 h3 raw (List.mem_of_getElem? hk) hm.1) hm.2
        · exact .inr ⟨hg, e, Nat.lt_of_add_lt_add_left h1, h3⟩
  first k raw t d hk hm hf := by
    refine ⟨defines_right hf.1, hf.2.1, fun d' hd' hh => ?_⟩
    rcases defines_append hh with ⟨_, h3⟩ | ⟨e, rfl, h3⟩
    · exact hm.2 (h.unused d' _ hf.2.1.1 h3 raw (List.mem_of_getElem? hk) hm.1)
    · exact hf.2.2 e (by omega) h3
  chosen k raw t d hk hm hl hc := by
    obtain ⟨h1, h2, h3, h4⟩ := hc
    refine ⟨defines_right h1, visible_right h2 (h.behind d _ hl h1), fun d' hd' hv => ?_, fun d' hlt hd' => ?_⟩
    · rcases defines_append hd' with ⟨_, k1⟩ | ⟨e, rfl, k1⟩
      · exact absurd hv (h.hidden d' k _ raw hl k1 hk hm.1)
      · show scope (a ++ b) _ ≤ scope (a ++ b) _
        rw [scope_right, scope_right]
        have := h3 e k1 (visible_right' hv)
        exact Nat.add_le_add_left this _
    · rcases defines_append hd' with ⟨k0, k1⟩ | ⟨e, rfl, k1⟩
      · omega
      · show scope (a ++ b) _ ≠ scope (a ++ b) _
        rw [scope_right, scope_right]
        have := h4 e (by omega) k1
        exact fun hh => this (Nat.add_left_cancel hh)
  closed := by
    intro hc
    obtain ⟨d, j, y, z, e1, h1, h2, e2, e3⟩ := Fresh.closed_pair.1 hc
    exact Fresh.closed_pair.2 ⟨a.length + d, a.length + j, y, z, by omega, defines_right h1, h2, defines_right e2, e3⟩
  numbers k raw st t v hk hp ht hv := absurd hv (h.numbers raw (List.mem_of_getElem? hk) st t v hp ht)
  room := by
    show (B + BitVec.ofNat 32 (4 * codeCount a)).toNat + 4 * codeCount b ≤ B.toNat + 4 * codeCount (a ++ b)
    rw [codeCount_append, BitVec.toNat_add, BitVec.toNat_ofNat]
    omega
  room' := by
    show B.toNat + 4 * codeCount (a ++ b) < 2 ^ 32
    rw [codeCount_append]; exact hr

/-- a line of the whole is a line of one of the parts -/
theorem line_cases {k : Nat} {raw : Str} (hk : (a ++ b)[k]? = some raw) : (a[k]? = some raw) ∨ ∃ e : Nat, k = a.length + e ∧ b[e]? = some raw := by
  by_cases h : k < a.length
  · rw [List.getElem?_append_left h] at hk; exact .inl hk
  · rw [List.getElem?_append_right (by omega)] at hk
    exact .inr ⟨k - a.length, by omega, hk⟩

theorem accepted_append (h : Apart syms a b) (hr : B.toNat + 4 * (codeCount a + codeCount b) < 2 ^ 32) (ha : Accepted ⟨ovf, B, syms, a⟩)
    (hb : Accepted ⟨ovf, B + BitVec.ofNat 32 (4 * codeCount a), syms, b⟩) : Accepted ⟨ovf, B, syms, a ++ b⟩ := by
  have pa := part_left (ovf := ovf) (syms := syms) h hr
  have pb := part_right (ovf := ovf) (syms := syms) h hr
  obtain ⟨a1, a2, a3, a4⟩ := ha
  obtain ⟨b1, b2, b3, b4⟩ := hb
  refine ⟨?_, not_overflows pa.room', ?_, ?_⟩
  · intro k raw hk
    unfold Lang.LineTaken
    rcases line_cases hk with hk' | ⟨e, rfl, hk'⟩
    · have := a1 k raw hk'
      unfold Lang.LineTaken at this
      cases hkd : kind raw with
      | blank => trivial
      | label l =>
        rw [hkd] at this
        refine ⟨this.1, fun hl d hd hh => ?_⟩
        rcases defines_append hh with ⟨_, h3⟩ | ⟨e, rfl, _⟩
        · exact this.2 hl d hd h3
        · have h4 := (List.getElem?_eq_some_iff.1 hk').1
          have hd : a.length + e < k := hd
          omega
      | code =>
        rw [hkd] at this
        obtain ⟨st, h1, h2⟩ := this
        have := (pa.allReads hk' hkd h1).1 h2
        rw [Nat.zero_add] at this
        exact ⟨st, h1, this⟩
    · have := b1 e raw hk'
      unfold Lang.LineTaken at this
      cases hkd : kind raw with
      | blank => trivial
      | label l =>
        rw [hkd] at this
        refine ⟨this.1, fun hl d hd hh => ?_⟩
        rcases defines_append hh with ⟨_, h3⟩ | ⟨e', rfl, h3⟩
        · exact h.defined d e l hl h3 ⟨raw, hk', hkd⟩
        · exact this.2 hl e' (Nat.lt_of_add_lt_add_left hd) h3
      | code =>
        rw [hkd] at this
        obtain ⟨st, h1, h2⟩ := this
        exact ⟨st, h1, (pb.allReads hk' hkd h1).1 h2⟩
  · rintro ⟨k, st, t, hi, hx⟩
    obtain ⟨raw, hk, hi'⟩ := hi
    rcases line_cases hk with hk' | ⟨e, rfl, hk'⟩
    · have := pa.noBadPlace a3 (k := k) (List.getElem?_eq_some_iff.1 hk').1 (st := st) (t := t)
      simp only [Nat.zero_add] at this
      exact this ⟨raw, hk, hi'⟩ hx
    · exact pb.noBadPlace b3 (k := e) (List.getElem?_eq_some_iff.1 hk').1 (st := st) (t := t) ⟨raw, hk, hi'⟩ hx
  · rintro ⟨k, raw, hk, hc, hx⟩
    rcases line_cases hk with hk' | ⟨e, rfl, hk'⟩
    · have := pa.noNoCode a3 a4 hk' hc
      simp only [Nat.zero_add] at this
      exact this hx
    · exact pb.noNoCode b3 b4 hk' hc hx

theorem generates_append (h : Apart syms a b) (hr : B.toNat + 4 * (codeCount a + codeCount b) < 2 ^ 32) {wa wb : List (BitVec 32)}
    (ha : Generates ⟨ovf, B, syms, a⟩ a.length wa)
    (hb : Generates ⟨ovf, B + BitVec.ofNat 32 (4 * codeCount a), syms, b⟩ b.length wb) :
    Generates ⟨ovf, B, syms, a ++ b⟩ (a ++ b).length (wa ++ wb) := by
  have pa := part_left (ovf := ovf) (syms := syms) h hr
  have pb := part_right (ovf := ovf) (syms := syms) h hr
  have g1 := pa.generates (pre := []) .none ha
  rw [Nat.zero_add, List.nil_append] at g1
  rw [List.length_append]
  exact pb.generates g1 hb

/-- programs whose labels occur in one of them only -/
theorem apart_of_modules (h : Modules a b) : Apart syms a b where
  defined d e l _ h1 := h.defined d e l h1
  unused d l _ h1 raw hr hm := absurd hm (h.unused d l h1 raw hr)
  behind e x hx he := by
    obtain ⟨raw, g, rest, rfl, h1, h2⟩ := h.starts
    cases e with
    | zero =>
      obtain ⟨r, k1, k2⟩ := he
      simp only [List.getElem?_cons_zero, Option.some.injEq] at k1
      subst k1
      rw [h1] at k2; cases k2
      rw [h2] at hx; cases hx
    | succ e =>
      unfold scope globals
      rw [List.take_succ_cons]
      unfold globalsFrom
      simp [h1, h2]
  hidden d k x raw _ h1 h2 h3 := absurd h3 (h.unused d x h1 raw (List.mem_of_getElem? h2))
  numbers := h.numbers

end
end Link

/-- **C67**.  If two programs do not get in each other's way, both are accepted on their own (the second for the address behind the
first, 4 bytes for each of its instructions), and all addresses fit in 32 bits, then the two programs, one behind the other, are
accepted, and the code is the code of the first followed by that of the second. -/
theorem C67_separate [Unicode] (rt : Rt) (m : Mipsasm) (ta tb text : Str) (wa wb : List Word) (h : Apart m.syms (lines ta) (lines tb))
    (hl : lines text = lines ta ++ lines tb) (hr : m.base.toNat + 4 * (codeCount (lines ta) + codeCount (lines tb)) < 2 ^ 32)
    (ha : (assemble rt m ta).words = some wa)
    (hb : (assemble rt { m with base := m.base + BitVec.ofNat 32 (4 * codeCount (lines ta)) } tb).words = some wb) :
    (assemble rt m text).words = some (wa ++ wb) := by
  rw [C57_program] at ha hb ⊢
  rw [hl]
  exact ⟨accepted_append h hr ha.1 hb.1, generates_append h hr ha.2 hb.2⟩

/-- **C67**, for programs whose labels occur in one of them only, the second one beginning with a global label. -/
theorem C67_modules [Unicode] (rt : Rt) (m : Mipsasm) (ta tb text : Str) (wa wb : List Word) (h : Modules (lines ta) (lines tb))
    (hl : lines text = lines ta ++ lines tb) (hr : m.base.toNat + 4 * (codeCount (lines ta) + codeCount (lines tb)) < 2 ^ 32)
    (ha : (assemble rt m ta).words = some wa)
    (hb : (assemble rt { m with base := m.base + BitVec.ofNat 32 (4 * codeCount (lines ta)) } tb).words = some wb) :
    (assemble rt m text).words = some (wa ++ wb) :=
  C67_separate rt m ta tb text wa wb (apart_of_modules h) hl hr ha hb

/-! ### Limits -/

/-- The place of the second program is counted in instructions, not in words: behind a pseudo-instruction of two words, code assembled
for the address where it comes to stand is not the code of the whole. -/
theorem C67_words_wrong : letI := asciiUnicode
    let a := c!"li t0, 0x12345678\n"
    let b := c!"h:\nj h\nnop\n"
    (assemble (idRt true) Mipsasm.new a).words = some [0x3C081234#32, 0x35085678#32] ∧
    (assemble (idRt true) { Mipsasm.new with base := 8#32 } b).words = some [0x08000002#32, 0#32] ∧
    (assemble (idRt true) { Mipsasm.new with base := 4#32 } b).words = some [0x08000001#32, 0#32] ∧
    (assemble (idRt true) Mipsasm.new (a ++ b)).words = some [0x3C081234#32, 0x35085678#32, 0x08000001#32, 0#32] := by decide +kernel

/-- A branch to a number is not the same in the whole ... -/
theorem C67_number_wrong : letI := asciiUnicode
    let a := c!"nop\n"
    let b := c!"h:\nnop\nnop\nnop\nb 12\n"
    (assemble (idRt true) Mipsasm.new a).words = some [0#32] ∧
    (assemble (idRt true) { Mipsasm.new with base := 4#32 } b).words = some [0#32, 0#32, 0#32, 0x10000002#32] ∧
    (assemble (idRt true) Mipsasm.new (a ++ b)).words = some [0#32, 0#32, 0#32, 0#32, 0x10000001#32] := by decide +kernel

/-- ... and a local label in front of the first program captures the references of the second to its own label of that name. -/
theorem C67_local_wrong : letI := asciiUnicode
    let a := c!"@@l:\nnop\nf:\nnop\n"
    let b := c!"h:\n@@l:\nnop\nb @@l\nnop\ni:\n"
    (assemble (idRt true) Mipsasm.new a).words = some [0#32, 0#32] ∧
    (assemble (idRt true) { Mipsasm.new with base := 8#32 } b).words = some [0#32, 0x1000FFFE#32, 0#32] ∧
    (assemble (idRt true) Mipsasm.new (a ++ b)).words = some [0#32, 0#32, 0#32, 0x1000FFFC#32, 0#32] := by decide +kernel

/-! ### Example -/

def exFront : Str := c!"first:\n@@l:\naddiu a0, a0, -1\nbne a0, zero, @@l\nnop\nlast:\njr ra\nj first\n"
def exBehind : Str := c!"G:\nnop\n@@l:\nlw v0, 4(a1)\nb @@l\njal G\nbeq v0, zero, G\nH:\nnop\n"

theorem exFront_lines : lines exFront =
    [c!"first:", c!"@@l:", c!"addiu a0, a0, -1", c!"bne a0, zero, @@l", c!"nop", c!"last:", c!"jr ra", c!"j first"] := by decide +kernel

theorem exBehind_lines : lines exBehind =
    [c!"G:", c!"nop", c!"@@l:", c!"lw v0, 4(a1)", c!"b @@l", c!"jal G", c!"beq v0, zero, G", c!"H:", c!"nop"] := by decide +kernel

theorem exFront_def {d : Nat} {l : Str} (h : Defines (lines exFront) d l) : (d = 0 ∧ l = c!"first") ∨ (d = 1 ∧ l = c!"@@l") ∨ (d = 5 ∧ l = c!"last") := by
  have hd := Link.defines_lt h
  obtain ⟨raw, h1, h2⟩ := h
  have key : ∀ d < (lines exFront).length, ∀ raw, (lines exFront)[d]? = some raw →
      kind raw = .blank ∨ kind raw = .code ∨ (d = 0 ∧ kind raw = .label c!"first") ∨ (d = 1 ∧ kind raw = .label c!"@@l") ∨
        (d = 5 ∧ kind raw = .label c!"last") := by
    have k2 : ∀ d < (lines exFront).length, kind (((lines exFront)[d]?).getD []) = .blank ∨ kind (((lines exFront)[d]?).getD []) = .code ∨
        (d = 0 ∧ kind (((lines exFront)[d]?).getD []) = .label c!"first") ∨ (d = 1 ∧ kind (((lines exFront)[d]?).getD []) = .label c!"@@l") ∨
        (d = 5 ∧ kind (((lines exFront)[d]?).getD []) = .label c!"last") := by decide +kernel
    intro d hd raw hr
    have := k2 d hd
    rw [hr] at this
    exact this
  rcases key d hd raw h1 with k | k | ⟨rfl, k⟩ | ⟨rfl, k⟩ | ⟨rfl, k⟩ <;> rw [h2] at k <;> cases k
  · exact .inl ⟨rfl, rfl⟩
  · exact .inr (.inl ⟨rfl, rfl⟩)
  · exact .inr (.inr ⟨rfl, rfl⟩)

theorem exLink : @Apart asciiUnicode [] (lines exFront) (lines exBehind) := by
  letI := asciiUnicode
  have noLabel : ∀ raw ∈ lines exBehind, kind raw ≠ .label c!"first" ∧ kind raw ≠ .label c!"last" := by decide +kernel
  have noLast : ∀ raw ∈ lines exBehind, kind raw = .code → 's' ∉ raw := by decide +kernel
  refine ⟨?_, ?_, ?_, ?_, ?_⟩
  · rintro d e l hl hd ⟨raw, h1, h2⟩
    have := noLabel raw (List.mem_of_getElem? h1)
    rcases exFront_def hd with ⟨_, rfl⟩ | ⟨_, rfl⟩ | ⟨_, rfl⟩
    · exact this.1 h2
    · revert hl; decide
    · exact this.2 h2
  · intro d l hl hd raw hr hm
    have := noLast raw hr hm.1
    exfalso
    rcases exFront_def hd with ⟨_, rfl⟩ | ⟨_, rfl⟩ | ⟨_, rfl⟩
    · exact this (Fresh.mentions_chars hm _ (by decide))
    · revert hl; decide
    · exact this (Fresh.mentions_chars hm _ (by decide))
  · intro e x hx hd
    have hlt := Link.defines_lt hd
    obtain ⟨raw, h1, h2⟩ := hd
    have k2 : ∀ e < (lines exBehind).length, scope (lines exBehind) e = 0 → e = 0 := by decide +kernel
    intro hs
    obtain rfl := k2 e hlt hs
    rw [exBehind_lines] at h1
    cases h1
    have : kind c!"G:" = .label c!"G" := by decide +kernel
    rw [this] at h2; cases h2
    revert hx; decide
  · intro d k x raw hx hd hk hm hv
    have hk4 : 4 ≤ k ∧ d = 1 := by
      rcases exFront_def hd with ⟨_, rfl⟩ | ⟨rfl, rfl⟩ | ⟨_, rfl⟩
      · exact absurd hx (by decide)
      · refine ⟨?_, rfl⟩
        have : ∀ k < 4, kind (((lines exBehind)[k]?).getD []) = .code → '@' ∉ ((lines exBehind)[k]?).getD [] := by decide +kernel
        by_cases h4 : 4 ≤ k
        · exact h4
        · have := this k (by omega)
          rw [hk] at this
          exact absurd (Fresh.mentions_chars hm '@' (by decide)) (this hm.1)
      · exact absurd hx (by decide)
    obtain ⟨h4, rfl⟩ := hk4
    have s1 : scope (lines exFront ++ lines exBehind) 1 = 1 := by decide +kernel
    rcases hv with hv | ⟨_, hv⟩
    · rw [s1] at hv; cases hv
    · have := hv 9 c!"nop" (by rw [exFront_lines]; simp only [List.length_cons, List.length_nil]; omega) (by decide +kernel) (by decide +kernel)
      revert this; decide +kernel
  · intro raw hr st t v hp ht hn
    have key : ∀ raw ∈ lines exBehind, ∀ st ∈ plan (body raw), ∀ x ∈ st, ∀ t ∈ (match x with | .const _ t => some t | _ => none),
        Rename.Name [] (trim t) := by decide +kernel
    exact Rename.name_numeral (key raw hr st hp _ ht t rfl) hn

/-- The hypotheses of `C67_separate` are met: two programs with a local label of the same name, branches and jumps. -/
example : letI := asciiUnicode
    Apart [] (lines exFront) (lines exBehind) ∧ lines (exFront ++ exBehind) = lines exFront ++ lines exBehind ∧
    Mipsasm.new.base.toNat + 4 * (codeCount (lines exFront) + codeCount (lines exBehind)) < 2 ^ 32 ∧
    (assemble (idRt true) Mipsasm.new exFront).words = some [0x2484FFFF#32, 0x1480FFFE#32, 0#32, 0x03E00008#32, 0x08000000#32] ∧
    (assemble (idRt true) { Mipsasm.new with base := Mipsasm.new.base + BitVec.ofNat 32 (4 * codeCount (lines exFront)) } exBehind).words =
      some [0#32, 0x8CA20004#32, 0x1000FFFE#32, 0x0C000005#32, 0x1040FFFB#32, 0#32] := by
  letI := asciiUnicode
  exact ⟨exLink, by decide +kernel, by decide +kernel, by decide +kernel, by decide +kernel⟩

end Mips
