/-
**C65** — labels that nothing refers to do not matter: a program with additional labels has the same code.
-/
import Verif.Lemmas.FreshL
import Verif.Props.CodeP
import Verif.Props.Layout22
import Verif.Props.RenameP

namespace Mips.Fresh
open Mips.Isa hiding conds
open Mips.Names hiding none
open Mips.Syntax Mips.Source Mips.Branch Mips.Operands
open Mips.Lang Mips.Rename

/-- The second file has additional empty lines. -/
inductive Gaps : List Str → List Str → Prop
  | nil : Gaps [] []
  | same (raw : Str) (ls ls' : List Str) : Gaps ls ls' → Gaps (raw :: ls) (raw :: ls')
  | gap (ls ls' : List Str) : Gaps ls ls' → Gaps ls ([] :: ls')

section
variable {syms : List (BitVec 32 × Str)} {X : Str → Prop} {ls ls' mid : List Str}

theorem Added.split (h : Added X ls ls') : ∃ mid, Gaps ls mid ∧ Filled X mid ls' := by
  induction h with
  | nil => exact ⟨[], .nil, .nil⟩
  | same raw _ _ _ ih =>
    obtain ⟨m, h1, h2⟩ := ih
    exact ⟨raw :: m, .same _ _ _ h1, .same _ _ _ h2⟩
  | label raw l _ _ k1 k2 _ ih =>
    obtain ⟨m, h1, h2⟩ := ih
    exact ⟨[] :: m, .gap _ _ h1, .label _ l _ _ k1 k2 h2⟩

theorem Gaps.mem (h : Gaps ls mid) : ∀ raw ∈ mid, raw = [] ∨ raw ∈ ls := by
  induction h with
  | nil => intro _ h; cases h
  | same a _ _ _ ih =>
    intro raw hr
    rcases List.mem_cons.1 hr with rfl | hr
    · exact .inr (by simp)
    · exact (ih raw hr).imp id (List.mem_cons_of_mem _)
  | gap _ _ _ ih =>
    intro raw hr
    rcases List.mem_cons.1 hr with rfl | hr
    · exact .inl rfl
    · exact ih raw hr

theorem Gaps.def (h : Gaps ls mid) {d : Nat} {l : Str} (hd : Defines mid d l) : ∃ d', Defines ls d' l := by
  obtain ⟨raw, h1, h2⟩ := hd
  rcases h.mem raw (List.mem_of_getElem? h1) with rfl | h3
  · rw [kind_nil] at h2; cases h2
  · obtain ⟨d', h4⟩ := List.mem_iff_getElem?.1 h3
    exact ⟨d', raw, h4, h2⟩

theorem Gaps.new (h : Gaps ls mid) (hn : New syms X ls) : New syms X mid where
  name := hn.name
  undefined l hl d hd := by
    obtain ⟨d', h1⟩ := h.def hd
    exact hn.undefined l hl d' h1
  unused l hl raw hr hm := by
    rcases h.mem raw hr with rfl | h1
    · have := hm.1
      rw [kind_nil] at this; cases this
    · exact hn.unused l hl raw h1 hm

theorem Gaps.harmless (h : Gaps ls mid) (hh : Harmless X ls) : Harmless X mid :=
  hh.imp id fun hl d l hd => by
    obtain ⟨d', h1⟩ := h.def hd
    exact hl d' l h1

/-! ### Mentions -/

/-- A line mentions only what it has the letters for. -/
theorem mentions_chars {raw l : Str} (h : Mentions raw l) : ∀ c ∈ l, c ∈ raw := by
  have hb : ∀ c ∈ operandText (body raw), c ∈ raw := fun c hc => (body_infix raw).subset (operandText_mem hc)
  intro c hc
  obtain ⟨_, h | ⟨s, hs, h | ⟨o, ⟨_, v, rfl, _⟩, h | h⟩⟩⟩ := h
  · rw [← h] at hc; exact hb c (trim_mem hc)
  · rw [← h] at hc; exact hb c (split_mem _ hs c (trim_mem hc))
  · rw [← h] at hc; exact hb c (split_mem _ hs c (by simp [trim_mem hc]))
  · rw [← h] at hc
    have := (List.mem_filter.1 (trim_mem hc)).1
    exact hb c (split_mem _ hs c (by simp [this]))

/-! ### Closed scopes -/

theorem scope_step {k : Nat} (hs : scope ls k < scope ls (k + 1)) : ∃ z, Defines ls k z ∧ isLocal z = false := by
  cases hk : ls[k]? with
  | none =>
    have := List.getElem?_eq_none_iff.1 hk
    rw [show scope ls k = scope ls (k + 1) by unfold scope; rw [List.take_of_length_le this, List.take_of_length_le (by omega)]] at hs
    omega
  | some raw =>
    have e : ls.take (k + 1) = ls.take k ++ [raw] := by rw [List.take_add_one, hk]; rfl
    have hs' : (globalsFrom 0 (ls.take k)).length < (globalsFrom 0 (ls.take (k + 1))).length := hs
    rw [e, globalsFrom_append] at hs'
    cases hr : kind raw with
    | blank => simp [globalsFrom, hr] at hs'
    | code => simp [globalsFrom, hr] at hs'
    | label z =>
      cases hz : isLocal z with
      | true => simp [globalsFrom, hr, hz] at hs'
      | false => exact ⟨z, ⟨raw, hk, hr⟩, hz⟩

theorem scope_lt {d g : Nat} (hs : scope ls d < scope ls g) : ∃ j z, d ≤ j ∧ Defines ls j z ∧ isLocal z = false := by
  have key : ∀ n, scope ls d < scope ls (d + n) → ∃ j z, d ≤ j ∧ Defines ls j z ∧ isLocal z = false := by
    intro n
    induction n with
    | zero => intro h; simp at h
    | succ n ih =>
      intro h
      by_cases h1 : scope ls d < scope ls (d + n)
      · exact ih h1
      · have hm : scope ls d ≤ scope ls (d + n) := scope_mono ls (by omega)
        obtain ⟨z, k1, k2⟩ := scope_step (ls := ls) (k := d + n) (by rw [show d + n + 1 = d + (n + 1) from rfl]; omega)
        exact ⟨d + n, z, by omega, k1, k2⟩
  by_cases hg : g ≤ d
  · have := scope_mono ls hg
    omega
  · exact key (g - d) (by rw [show d + (g - d) = g by omega]; exact hs)

theorem closed_pair : HasClosedScope ls ↔ ∃ d j y z, d < j ∧ Defines ls d y ∧ isLocal y = true ∧ Defines ls j z ∧ isLocal z = false := by
  constructor
  · rintro ⟨d, g, y, h1, h2, _, h4⟩
    obtain ⟨j, z, k1, k2, k3⟩ := scope_lt h4
    refine ⟨d, j, y, z, ?_, h1, h2, k2, k3⟩
    rcases Nat.lt_or_eq_of_le k1 with h | rfl
    · exact h
    · obtain ⟨r, a1, a2⟩ := h1
      obtain ⟨r', b1, b2⟩ := k2
      rw [a1] at b1; cases b1
      rw [a2] at b2; cases b2
      rw [h2] at k3; cases k3
  · rintro ⟨d, j, y, z, h1, h2, h3, ⟨raw, k1, k2⟩, h5⟩
    refine ⟨d, j + 1, y, h2, h3, by omega, ?_⟩
    have e := congrArg List.length (globals_at k1 k2 h5)
    have hm : scope ls d ≤ scope ls j := scope_mono ls (by omega)
    simp only [List.length_append, List.length_singleton] at e
    have e' : scope ls (j + 1) = scope ls j + 1 := e
    omega

theorem Gaps.at (h : Gaps ls mid) {d : Nat} {raw : Str} (hd : ls[d]? = some raw) : ∃ d' : Nat, mid[d']? = some raw := by
  induction h generalizing d with
  | nil => simp at hd
  | same a _ _ _ ih =>
    cases d with
    | zero => exact ⟨0, by simpa using hd⟩
    | succ d =>
      obtain ⟨e, he⟩ := ih (by simpa using hd)
      exact ⟨e + 1, by simpa using he⟩
  | gap _ _ _ ih =>
    obtain ⟨e, he⟩ := ih hd
    exact ⟨e + 1, by simpa using he⟩

theorem Gaps.pair (h : Gaps ls mid) {d j : Nat} {a b : Str} (hlt : d < j) (hd : ls[d]? = some a) (hj : ls[j]? = some b) :
    ∃ d' j' : Nat, d' < j' ∧ mid[d']? = some a ∧ mid[j']? = some b := by
  induction h generalizing d j with
  | nil => simp at hd
  | same r _ _ hg ih =>
    obtain ⟨j, rfl⟩ : ∃ i, j = i + 1 := ⟨j - 1, by omega⟩
    cases d with
    | zero =>
      obtain ⟨e, he⟩ := hg.at (by simpa using hj)
      exact ⟨0, e + 1, by omega, by simpa using hd, by simpa using he⟩
    | succ d =>
      obtain ⟨d', j', k1, k2, k3⟩ := ih (d := d) (j := j) (by omega) (by simpa using hd) (by simpa using hj)
      exact ⟨d' + 1, j' + 1, by omega, by simpa using k2, by simpa using k3⟩
  | gap _ _ _ ih =>
    obtain ⟨d', j', k1, k2, k3⟩ := ih hlt hd hj
    exact ⟨d' + 1, j' + 1, by omega, by simpa using k2, by simpa using k3⟩

theorem Gaps.closed (h : Gaps ls mid) (hc : HasClosedScope ls) : HasClosedScope mid := by
  obtain ⟨d, j, y, z, h1, ⟨a, a1, a2⟩, h3, ⟨b, b1, b2⟩, h5⟩ := closed_pair.1 hc
  obtain ⟨d', j', k1, k2, k3⟩ := h.pair h1 a1 b1
  exact closed_pair.2 ⟨d', j', y, z, k1, ⟨a, k2, a2⟩, h3, ⟨b, k3, b2⟩, h5⟩

/-! ### The text with empty lines -/

/-- a text with these lines -/
def textOfLines (ls : List Str) : Str := ls.flatMap (· ++ ['\r', '\n'])

theorem lines_one (l : Str) (h : '\n' ∉ l) : lines (l ++ ['\r', '\n']) = [l] := by
  induction l with
  | nil => decide
  | cons c s ih =>
    simp only [List.mem_cons, not_or] at h
    have hl := ih h.2
    have hc : c ≠ '\n' := fun e => h.1 e.symm
    cases s with
    | nil =>
      simp only [List.nil_append, List.cons_append] at hl ⊢
      rw [lines_cons2 c '\r' _ hc _ _ hl]
      simp
    | cons d s =>
      simp only [List.cons_append] at hl ⊢
      rw [lines_cons2 c d _ hc _ _ hl]
      have : d ≠ '\n' := fun e => h.2 (by simp [e])
      simp [this]

theorem lines_textOfLines (h : ∀ l ∈ ls, '\n' ∉ l) : lines (textOfLines ls) = ls := by
  induction ls with
  | nil => rfl
  | cons l ls ih =>
    have e : textOfLines (l :: ls) = (l ++ ['\r']) ++ '\n' :: textOfLines ls := by simp [textOfLines]
    rw [e, lines_append, ih fun x hx => h x (by simp [hx]), List.append_assoc]
    show lines (l ++ ['\r', '\n']) ++ ls = l :: ls
    rw [lines_one l (h l (by simp))]
    rfl

theorem Gaps.sameLines [Unicode] {γ δ : Type} {g : ParserError → γ} {e : ParserWarning → δ} (h : Gaps ls mid) : SameLines (LineSim g e) ls mid := by
  induction h with
  | nil => exact .nil
  | same raw _ _ _ ih =>
    cases hk : kind raw with
    | blank => exact .left _ _ _ hk (.right _ _ _ hk ih)
    | label l => exact .both _ _ _ _ (.inl ⟨l, hk, hk⟩) ih
    | code => exact .both _ _ _ _ (.inr ⟨hk, hk, fun x y c => sim_inst c _⟩) ih
  | gap _ _ _ ih => exact .right _ _ _ kind_nil ih

theorem Gaps.assemble [Unicode] (rt : Rt) (m : Mipsasm) {text text' : Str} (h : Gaps (lines text) (lines text')) :
    (assemble rt m text).bare = (assemble rt m text').bare :=
  outSim_bare (sim_assemble (rt := rt) (rt' := rt) (m := m) (m' := m) bare_textFree.lineless rfl rfl rfl h.sameLines)

theorem bare_err {a b : AsmOut} (h : a.bare = b.bare) : (∃ es ws, a = .err es ws) ↔ ∃ es ws, b = .err es ws := by
  cases a <;> cases b <;> simp [AsmOut.bare] at h <;> simp

theorem bare_panic {a b : AsmOut} (h : a.bare = b.bare) : a = .panic ↔ b = .panic := by
  cases a <;> cases b <;> simp [AsmOut.bare] at h <;> simp

end
end Mips.Fresh

namespace Mips
open Source Syntax Branch Operands Fresh

theorem words_of_iff {a b : AsmOut} (h : ∀ ws, a.words = some ws ↔ b.words = some ws) : a.words = b.words := by
  cases h1 : a.words with
  | some ws => exact ((h ws).1 h1).symm
  | none =>
    cases h2 : b.words with
    | none => rfl
    | some ws => rw [(h ws).2 h2] at h1; cases h1

/-- **C65**.  A program that assembles also assembles, to the same words, with additional labels that it does not refer to, if they
are local labels or the program has no local labels; and the errors of the program with these labels are errors of the program
without. -/
theorem C65_added [Unicode] (rt : Rt) (m : Mipsasm) (text text' : Str) (X : Str → Prop) (h : Added X (lines text) (lines text'))
    (hn : New m.syms X (lines text)) (ho : Once X (lines text')) (hh : Harmless X (lines text)) :
    (∀ ws, (assemble rt m text).words = some ws → (assemble rt m text').words = some ws) ∧
    ((∃ es ws, assemble rt m text' = .err es ws) → ∃ es ws, assemble rt m text = .err es ws) ∧
    (assemble rt m text = .panic → assemble rt m text' = .panic) := by
  obtain ⟨mid, hg, hf⟩ := h.split
  have hl : lines (textOfLines mid) = mid := lines_textOfLines fun l hl => by
    rcases hg.mem l hl with rfl | h1
    · simp
    · exact lines_noNl text l h1
  have hb : (assemble rt m text).bare = (assemble rt m (textOfLines mid)).bare := Gaps.assemble rt m (by rw [hl]; exact hg)
  obtain ⟨i1, i2, i3, i4, i5, _⟩ := filled_iff (ovf := rt.ovf) (b := m.base) hf (hg.new hn) ho (hg.harmless hh)
  have hc : Rename.Corr m.syms (keep m.syms X) ⟨rt.ovf, m.base, m.syms, mid⟩ ⟨rt.ovf, m.base, m.syms, lines text'⟩ :=
    corr_filled hf (hg.new hn) (hg.harmless hh)
  refine ⟨fun ws hw => ?_, fun he => ?_, fun hp => ?_⟩
  · rw [words_bare hb, C57_program, hl] at hw
    rw [C57_program]
    obtain ⟨⟨a1, a2, a3, a4⟩, h2⟩ := hw
    exact ⟨⟨i3.1 a1, fun k => a2 (i2.2 k), fun k => a3 (i5 k), fun k => a4 (i4.2 k)⟩, by rw [← hf.length]; exact Rename.generates_new hc h2⟩
  · rw [(C56_verdict rt m text').2.1] at he
    rw [bare_err hb, (C56_verdict rt m _).2.1, hl]
    obtain ⟨a1, a2, a3⟩ := he
    exact ⟨fun k => a1 (i1.1 k), fun k => a2 (i2.1 k), a3.imp (fun a k => a (i3.1 k)) i5⟩
  · rw [bare_panic hb, (C56_verdict rt m _).1, hl] at hp
    rw [(C56_verdict rt m text').1]
    rcases hp with a | a | ⟨a1, a2, a3⟩
    · exact .inl (i1.1 a)
    · exact .inr (.inl (i2.1 a))
    · exact .inr (.inr ⟨i3.1 a1, fun k => a2 (i5 k), i4.1 a3⟩)

/-- **C65**.  If the program has a local label in front of a global label, or no local labels, nothing changes: both programs are
accepted with the same code, refused, or end the program alike. -/
theorem C65_exact [Unicode] (rt : Rt) (m : Mipsasm) (text text' : Str) (X : Str → Prop) (h : Added X (lines text) (lines text'))
    (hn : New m.syms X (lines text)) (ho : Once X (lines text')) (hh : Harmless X (lines text))
    (hs : HasClosedScope (lines text) ∨ ∀ d l, Defines (lines text) d l → isLocal l = false) :
    (assemble rt m text).words = (assemble rt m text').words ∧
    ((∃ es ws, assemble rt m text = .err es ws) ↔ ∃ es ws, assemble rt m text' = .err es ws) ∧
    (assemble rt m text = .panic ↔ assemble rt m text' = .panic) := by
  obtain ⟨mid, hg, hf⟩ := h.split
  have hl : lines (textOfLines mid) = mid := lines_textOfLines fun l hl => by
    rcases hg.mem l hl with rfl | h1
    · simp
    · exact lines_noNl text l h1
  have hb : (assemble rt m text).bare = (assemble rt m (textOfLines mid)).bare := Gaps.assemble rt m (by rw [hl]; exact hg)
  obtain ⟨i1, i2, i3, i4, i5, i6⟩ := filled_iff (ovf := rt.ovf) (b := m.base) hf (hg.new hn) ho (hg.harmless hh)
  have i6 := i6 (hs.imp hg.closed fun hl d l hd => by
    obtain ⟨d', h1⟩ := hg.def hd
    exact hl d' l h1)
  have i7 : Lang.BadPlace ⟨rt.ovf, m.base, m.syms, mid⟩ ↔ Lang.BadPlace ⟨rt.ovf, m.base, m.syms, lines text'⟩ := ⟨i6, i5⟩
  have hc : Rename.Corr m.syms (keep m.syms X) ⟨rt.ovf, m.base, m.syms, mid⟩ ⟨rt.ovf, m.base, m.syms, lines text'⟩ :=
    corr_filled hf (hg.new hn) (hg.harmless hh)
  refine ⟨?_, ?_, ?_⟩
  · rw [words_bare hb]
    refine words_of_iff fun ws => ?_
    rw [C57_program, C57_program, hl]
    refine and_congr ?_ ?_
    · unfold Lang.Accepted
      rw [i2, i3, i4, i7]
    · rw [← hf.length]
      exact ⟨Rename.generates_new hc, Rename.generates_new hc.symm⟩
  · rw [bare_err hb, (C56_verdict rt m _).2.1, (C56_verdict rt m _).2.1, hl]
    unfold Lang.Refused
    rw [i1, i2, i3, i7]
  · rw [bare_panic hb, (C56_verdict rt m _).1, (C56_verdict rt m _).1, hl]
    unfold Lang.Panics
    rw [i1, i2, i3, i4, i7]

/-! ### Limits -/

/-- The condition on local labels is needed: a new global label ends the scope of the local labels in front of it ... -/
theorem C65_split_wrong :
    (@assemble asciiUnicode (idRt true) Mipsasm.new c!"f:\nb @@x\nnop\n@@x:\nnop\ng:\nnop").words.isSome = true ∧
    (@assemble asciiUnicode (idRt true) Mipsasm.new c!"f:\nb @@x\nnop\nnew:\n@@x:\nnop\ng:\nnop").words = none := by
  constructor <;> decide +kernel

/-- ... and a program that is refused can be accepted with an additional local label: without the label no local label stands in
front of a global label. -/
theorem C65_refused_wrong :
    (@assemble asciiUnicode (idRt true) Mipsasm.new c!"g:\n@@x:\nnop\nb @@x\nnop").words = none ∧
    (@assemble asciiUnicode (idRt true) Mipsasm.new c!"@@y:\ng:\n@@x:\nnop\nb @@x\nnop").words.isSome = true := by
  constructor <;> decide +kernel

/-! ### Example -/

/-- the new labels -/
def exFresh (l : Str) : Prop := l ∈ [c!"@@begin", c!"@@end"]

instance (l : Str) : Decidable (exFresh l) := by unfold exFresh; infer_instance

def exFew : Str := c!"f:\nb @@x\nnop\n@@x:\nnop\ng:\njal f\naddiu a0, a0, 4"
def exMore : Str := c!"f:\n@@begin:\nb @@x\nnop\n@@x:\nnop\n@@end: \ng:\njal f\naddiu a0, a0, 4"

theorem exFresh_added : Added exFresh (lines exFew) (lines exMore) := by
  rw [show lines exFew = [c!"f:", c!"b @@x", c!"nop", c!"@@x:", c!"nop", c!"g:", c!"jal f", c!"addiu a0, a0, 4"] by decide +kernel,
    show lines exMore = [c!"f:", c!"@@begin:", c!"b @@x", c!"nop", c!"@@x:", c!"nop", c!"@@end: ", c!"g:", c!"jal f", c!"addiu a0, a0, 4"] by decide +kernel]
  refine .same _ _ _ (.label _ c!"@@begin" _ _ (by decide +kernel) (by decide) (.same _ _ _ (.same _ _ _ (.same _ _ _ (.same _ _ _
    (.label _ c!"@@end" _ _ (by decide +kernel) (by decide) (.same _ _ _ (.same _ _ _ (.same _ _ _ .nil)))))))))

theorem exFresh_new : New Mipsasm.new.syms exFresh (lines exFew) where
  name l hl := by
    have : ∀ l ∈ [c!"@@begin", c!"@@end"], Rename.Name [] l := by decide
    exact this l hl
  undefined l hl d hd := by
    obtain ⟨raw, h1, h2⟩ := hd
    have : ∀ raw ∈ lines exFew, ∀ l ∈ [c!"@@begin", c!"@@end"], kind raw ≠ .label l := by decide +kernel
    exact this raw (List.mem_of_getElem? h1) l hl h2
  unused l hl raw hr hm := by
    have h1 : ∀ l ∈ [c!"@@begin", c!"@@end"], 'e' ∈ l := by decide
    have h2 : ∀ raw ∈ lines exFew, 'e' ∉ raw := by decide +kernel
    exact h2 raw hr (mentions_chars hm _ (h1 l hl))

/-- The hypotheses of `C65_added` and `C65_exact` are met, and the code is not empty. -/
example : letI := asciiUnicode
    Added exFresh (lines exFew) (lines exMore) ∧ New Mipsasm.new.syms exFresh (lines exFew) ∧ Once exFresh (lines exMore) ∧
    Harmless exFresh (lines exFew) ∧ HasClosedScope (lines exFew) ∧
    (assemble (idRt true) Mipsasm.new exFew).words = some [0x10000001#32, 0#32, 0#32, 0x0C000000#32, 0x24840004#32] := by
  letI := asciiUnicode
  have hloc : ∀ l ∈ [c!"@@begin", c!"@@end"], isLocal l = true := by decide
  refine ⟨exFresh_added, exFresh_new, ?_, .inl hloc, ?_, by decide +kernel⟩
  · intro l hl h
    rw [hloc l hl] at h; cases h
  · exact ⟨3, 6, c!"@@x", ⟨c!"@@x:", by decide +kernel, by decide +kernel⟩, by decide, by decide, by decide +kernel⟩

end Mips
