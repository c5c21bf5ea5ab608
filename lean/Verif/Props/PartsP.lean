/-
**C72** — programs can be made of any number of parts, in any order.
-/
import Verif.Spec.Parts
import Verif.Props.LinkP
import Verif.Lemmas.ContextL

namespace Mips
open Source Syntax Branch Operands Link Parts
open Lang (plan)

namespace Parts
open Lang (File Instr Accepted Generates RefersTo FirstDef LineWords plan)

section
variable [Unicode] {a b : List Str} {ovf : Bool} {B : BitVec 32} {syms : List (BitVec 32 × Str)}

/-- A program whose local labels stand behind a global one, and a part behind it, are apart. -/
theorem apart_of_part (hs : Strange syms a b) (hb : IsPart b) (ha : ∀ e x, isLocal x = true → Defines a e x → scope a e ≠ 0) : Apart syms a b where
  defined := hs.defined
  unused := hs.unused
  behind e x hx he := by
    obtain ⟨raw, g, rest, rfl, h1, h2⟩ := hb.starts
    cases e with
    | zero =>
      obtain ⟨r, k1, k2⟩ := he
      simp only [List.getElem?_cons_zero, Option.some.injEq] at k1
      subst k1
      rw [h1] at k2; cases k2
      rw [h2] at hx; cases hx
    | succ e =>
      unfold scope globals
      rw [List.take_succ_cons]
      unfold globalsFrom
      simp [h1, h2]
  hidden d k x raw hx hd hk hm hv := by
    have hdl : d < a.length := Link.defines_lt hd
    rcases hv with hv | ⟨_, hv⟩
    · rw [scope_left a b (by omega)] at hv
      exact ha d x hx hd hv
    · obtain ⟨j, r, hj, hr, hc⟩ := hb.first k raw x hk hx hm
      have h3 := hv (a.length + j) r (by omega) (by rw [List.getElem?_append_right (by omega), Nat.add_sub_cancel_left]; exact hr) hc
      rw [scope_right, scope_left a b (by omega)] at h3
      have h4 := scope_mono a (Nat.le_of_lt hdl)
      have h5 : scope b j ≠ 0 := by
        obtain ⟨raw', g, rest, rfl, g1, g2⟩ := hb.starts
        cases j with
        | zero =>
          simp only [List.getElem?_cons_zero, Option.some.injEq] at hr
          subst hr
          rw [g1] at hc; cases hc
        | succ j =>
          unfold scope globals
          rw [List.take_succ_cons]
          unfold globalsFrom
          simp [g1, g2]
      omega
  numbers := hb.numbers

theorem part_defines {l : Str} {d : Nat} (h : Defines (a ++ b) d l) : Defines a d l ∨ ∃ e, d = a.length + e ∧ Defines b e l := by
  obtain ⟨raw, h1, h2⟩ := h
  by_cases hd : d < a.length
  · rw [List.getElem?_append_left hd] at h1
    exact .inl ⟨raw, h1, h2⟩
  · rw [List.getElem?_append_right (by omega)] at h1
    exact .inr ⟨d - a.length, by omega, raw, h1, h2⟩

theorem strange_append {c : List Str} (h1 : Strange syms a c) (h2 : Strange syms b c) : Strange syms (a ++ b) c where
  defined d e l hl hd := by
    rcases part_defines hd with hd | ⟨e', _, hd⟩
    · exact h1.defined d e l hl hd
    · exact h2.defined e' e l hl hd
  unused d l hl hd := by
    rcases part_defines hd with hd | ⟨e', _, hd⟩
    · exact h1.unused d l hl hd
    · exact h2.unused e' l hl hd

theorem empty_accepted : Accepted ⟨ovf, B, syms, []⟩ := by
  refine ⟨fun k raw h => (by cases h), ?_, ?_, ?_⟩
  · rintro ⟨_, k, st, t, ⟨raw, h, _⟩, _⟩; cases h
  · rintro ⟨k, st, t, ⟨raw, h, _⟩, _⟩; cases h
  · rintro ⟨k, raw, h, _⟩; cases h

/-- With neither branches to numbers nor jumps to labels, the base address does not matter. -/
theorem same_view (B' : BitVec 32) {ls : List Str} (hj : NoLabelJumps syms ls) {k : Nat} {raw : Str} (hk : ls[k]? = some raw) (st : List Lang.Step)
    (hp : plan (body raw) = some st) : Context.SameView ⟨ovf, B, syms, ls⟩ k ⟨ovf, B', syms, ls⟩ k st where
  near t _ v := by
    constructor <;> intro h <;> cases h with
    | «local» d h1 h2 => exact .local d h1 h2
    | label d h1 h2 => exact .label d h1 h2
  far t ht a := by
    constructor <;> rintro ⟨h, _⟩ <;> exact absurd h (hj raw (List.mem_of_getElem? hk) st t hp ht)
  count _ _ _ _ := rfl

theorem generates_base (B' : BitVec 32) {ls : List Str} (hj : NoLabelJumps syms ls) {k : Nat} {ws : List (BitVec 32)}
    (h : Generates ⟨ovf, B, syms, ls⟩ k ws) : Generates ⟨ovf, B', syms, ls⟩ k ws := by
  induction h with
  | none => exact .none
  | inst k raw ws out _ h1 h2 h3 ih =>
    exact .inst k raw ws out ih h1 h2 (Context.lineWords_congr (f := ⟨ovf, B, syms, ls⟩) (g := ⟨ovf, B', syms, ls⟩) rfl rfl (fun st hp => same_view (B := B) B' hj h1 st hp) h3)
  | other k raw out _ h1 h2 ih => exact .other k raw out ih h1 h2

theorem accepted_base (B' : BitVec 32) {ls : List Str} (hj : NoLabelJumps syms ls)
    (hn : ∀ raw ∈ ls, ∀ st t v, plan (body raw) = some st → .const Lang.addr t ∈ st → ¬ Lang.Numeral false (trim t) v)
    (h : Accepted ⟨ovf, B, syms, ls⟩) : Accepted ⟨ovf, B', syms, ls⟩ := by
  obtain ⟨h1, h2, h3, h4⟩ := h
  refine ⟨h1, ?_, ?_, ?_⟩
  · rintro ⟨_, k, st, t, ⟨raw, g1, g2, g3, g4⟩, ⟨c1, ⟨v, c2⟩, _⟩ | ⟨c1, c2, _⟩⟩
    · exact hn raw (List.mem_of_getElem? g1) st t v g3 c1 c2.2.2.1
    · exact hj raw (List.mem_of_getElem? g1) st t g3 c1 c2
  · rintro ⟨k, st, t, ⟨raw, g1, g2, g3, g4⟩, c | c | ⟨c1, v, c2, _⟩⟩
    · exact h3 ⟨k, st, t, ⟨raw, g1, g2, g3, g4⟩, .inl c⟩
    · exact h3 ⟨k, st, t, ⟨raw, g1, g2, g3, g4⟩, .inr (.inl c)⟩
    · exact hn raw (List.mem_of_getElem? g1) st t v g3 c1 c2.2.2.1
  · rintro ⟨k, raw, g1, g2, c | ⟨c1, c2, st, t, o, c3, c4, c5, c6⟩⟩
    · exact h4 ⟨k, raw, g1, g2, .inl c⟩
    · refine h4 ⟨k, raw, g1, g2, .inr ⟨c1, c2, st, t, o, c3, c4, ?_, c6⟩⟩
      cases c5 with
      | «local» d k1 k2 => exact .local d k1 k2
      | label d k1 k2 => exact .label d k1 k2
      | number v k1 => exact .number v k1
      | half m _ k1 k2 k3 => exact .half m _ k1 k2 k3

end
end Parts

/-- **C72**.  Parts that are strangers to each other, each accepted for the address where it comes to stand (4 bytes for every
instruction in front), are accepted one behind the other, and their code is the code of the parts, one behind the other. -/
theorem C72_parts [Unicode] (rt : Rt) (m : Mipsasm) (ts : List Str) (code : Str → List Word) (text : Str)
    (hp : ∀ t ∈ ts, IsPart (lines t)) (hs : ts.Pairwise fun t u => Strange m.syms (lines t) (lines u))
    (hr : m.base.toNat + 4 * codeCount (ts.flatMap lines) < 2 ^ 32) (hl : lines text = ts.flatMap lines)
    (hc : ∀ pre t post, ts = pre ++ t :: post →
      (assemble rt { m with base := m.base + BitVec.ofNat 32 (4 * codeCount (pre.flatMap lines)) } t).words = some (code t)) :
    (assemble rt m text).words = some (ts.flatMap code) := by
  have key : ∀ (ts : List Str) (a : List Str) (wa : List Word), m.base.toNat + 4 * (codeCount a + codeCount (ts.flatMap lines)) < 2 ^ 32 →
      (∀ e x, isLocal x = true → Defines a e x → scope a e ≠ 0) →
      (∀ t ∈ ts, IsPart (lines t) ∧ Strange m.syms a (lines t)) → ts.Pairwise (fun t u => Strange m.syms (lines t) (lines u)) →
      (∀ pre t post, ts = pre ++ t :: post →
        (assemble rt { m with base := m.base + BitVec.ofNat 32 (4 * codeCount (a ++ pre.flatMap lines)) } t).words = some (code t)) →
      Lang.Accepted ⟨rt.ovf, m.base, m.syms, a⟩ → Lang.Generates ⟨rt.ovf, m.base, m.syms, a⟩ a.length wa →
      Lang.Accepted ⟨rt.ovf, m.base, m.syms, a ++ ts.flatMap lines⟩ ∧
        Lang.Generates ⟨rt.ovf, m.base, m.syms, a ++ ts.flatMap lines⟩ (a ++ ts.flatMap lines).length (wa ++ ts.flatMap code) := by
    intro ts
    induction ts with
    | nil =>
      intro a wa _ _ _ _ _ h1 h2
      simp only [List.flatMap_nil, List.append_nil]
      exact ⟨h1, h2⟩
    | cons t ts ih =>
      intro a wa hr hl hp hw hc h1 h2
      rw [List.flatMap_cons, codeCount_append] at hr
      obtain ⟨ht, hst⟩ := hp t List.mem_cons_self
      have hap := apart_of_part hst ht hl
      have c0 := hc [] t ts rfl
      simp only [List.flatMap_nil, List.append_nil] at c0
      obtain ⟨c1, c2⟩ := (C57_program _ _ _ _).1 c0
      have hr' : m.base.toNat + 4 * (codeCount a + codeCount (lines t)) < 2 ^ 32 := by omega
      have n1 := accepted_append hap hr' h1 c1
      have n2 := generates_append hap hr' h2 c2
      obtain ⟨w1, w2⟩ := List.pairwise_cons.1 hw
      have := ih (a ++ lines t) (wa ++ code t) (by rw [codeCount_append]; omega) ?_ ?_ w2 ?_ n1 n2
      · rw [List.flatMap_cons, List.flatMap_cons, ← List.append_assoc, ← List.append_assoc]
        exact this
      · intro e x hx hd
        rcases part_defines hd with hd | ⟨e', rfl, hd'⟩
        · rw [scope_left a _ (Nat.le_of_lt (Link.defines_lt hd))]; exact hl e x hx hd
        · rw [scope_right]
          have := hap.behind e' x hx hd'
          omega
      · intro u hu
        obtain ⟨u1, u2⟩ := hp u (List.mem_cons_of_mem _ hu)
        exact ⟨u1, strange_append u2 (w1 u hu)⟩
      · intro pre u post e
        have := hc (t :: pre) u post (by rw [e]; rfl)
        rwa [List.flatMap_cons, ← List.append_assoc] at this
  have nope : ∀ d l, ¬ Defines [] d l := by rintro d l ⟨_, h, _⟩; cases h
  have := key ts [] [] (by simpa [codeCount] using hr) (fun e x _ h => absurd h (nope e x))
    (fun t ht => ⟨hp t ht, ⟨fun d e l _ h => absurd h (nope d l), fun d l _ h => absurd h (nope d l)⟩⟩) hs
    hc empty_accepted .none
  rw [C57_program, hl]
  simpa using this

/-- **C72**.  Parts that are strangers to each other, are accepted (each at any base address of its own) and jump to symbols and addresses
only, can be put one behind the other in any order: the program is accepted, and its code is the code of the parts in this order. -/
theorem C72_order [Unicode] (rt : Rt) (m : Mipsasm) (ts ts' : List Str) (code : Str → List Word) (text : Str) (hperm : ts'.Perm ts)
    (hp : ∀ t ∈ ts, IsPart (lines t) ∧ NoLabelJumps m.syms (lines t) ∧ ∃ B, (assemble rt { m with base := B } t).words = some (code t))
    (hs : ts.Pairwise fun t u => Strange m.syms (lines t) (lines u) ∧ Strange m.syms (lines u) (lines t))
    (hr : m.base.toNat + 4 * codeCount (ts.flatMap lines) < 2 ^ 32) (hl : lines text = ts'.flatMap lines) :
    (assemble rt m text).words = some (ts'.flatMap code) := by
  have hcount : ∀ {us us' : List Str}, us'.Perm us → codeCount (us'.flatMap lines) = codeCount (us.flatMap lines) := by
    intro us us' h
    induction h with
    | nil => rfl
    | cons x _ ih => rw [List.flatMap_cons, List.flatMap_cons, codeCount_append, codeCount_append, ih]
    | swap x y l =>
      simp only [List.flatMap_cons, codeCount_append]
      omega
    | trans _ _ h1 h2 => rw [h1, h2]
  refine C72_parts rt m ts' code text (fun t ht => (hp t (hperm.mem_iff.1 ht)).1) ?_ (by rw [hcount hperm]; exact hr) hl ?_
  · refine List.Pairwise.imp (fun h => h.1) ((hperm.pairwise_iff ?_).2 hs)
    intro t u h
    exact ⟨h.2, h.1⟩
  · intro pre t post e
    obtain ⟨h1, h2, B, h3⟩ := hp t (hperm.mem_iff.1 (by rw [e]; simp))
    rw [C57_program] at h3 ⊢
    exact ⟨accepted_base _ h2 h1.numbers h3.1, generates_base _ h2 h3.2⟩

/-! ### Example -/

def exF : Str := c!"F:\nnop\n@@l:\nb @@l\njal G\nFX:\n"
def exG : Str := c!"G:\naddiu a0, a0, -1\n@@l:\nbne a0, zero, G\nlw v0, 4(a1)\nb @@l\nGX:\n"
def exH : Str := c!"H:\nli v1, 0x12345678\nj F\nnop\n"
def exTable : List (Word × Str) := [(0x100#32, c!"F"), (0x200#32, c!"G")]
def exCode (t : Str) : List Word :=
  if t = exF then [0#32, 0x1000FFFF#32, 0x0C000080#32]
  else if t = exG then [0x2484FFFF#32, 0x1480FFFE#32, 0x8CA20004#32, 0x1000FFFD#32]
  else [0x3C031234#32, 0x34635678#32, 0x08000040#32, 0#32]

/-- The labels that are defined. -/
def labelsOf (ls : List Str) : List Str := ls.filterMap fun r => match kind r with | .label l => some l | _ => none

theorem mem_labelsOf {ls : List Str} {d : Nat} {l : Str} (h : Defines ls d l) : l ∈ labelsOf ls := by
  obtain ⟨raw, h1, h2⟩ := h
  exact List.mem_filterMap.2 ⟨raw, List.mem_of_getElem? h1, by rw [h2]⟩

theorem exPart : letI := asciiUnicode
    ∀ t ∈ [exF, exG, exH], IsPart (lines t) ∧ NoLabelJumps exTable (lines t) := by
  letI := asciiUnicode
  intro t ht
  have hst : ∀ t ∈ [exF, exG, exH], ∃ raw ∈ (lines t).head?, ∃ g ∈ labelsOf [raw], kind raw = .label g ∧ isLocal g = false := by decide +kernel
  have hfi : ∀ t ∈ [exF, exG, exH], ∀ k < (lines t).length, ∀ raw ∈ (lines t)[k]?, kind raw = .code → '@' ∈ raw →
      ∃ j, j < k ∧ ∃ r ∈ (lines t)[j]?, kind r = .code := by decide +kernel
  have hnu : ∀ t ∈ [exF, exG, exH], ∀ raw ∈ lines t, ∀ st ∈ plan (body raw), ∀ x ∈ st, ∀ s ∈ (match x with | .const ⟨false, _, 4294967295⟩ s => some s | _ => none),
        Rename.Name [] (trim s) := by decide +kernel
  have hju : ∀ t ∈ [exF, exG, exH], ∀ raw ∈ lines t, ∀ st ∈ plan (body raw), ∀ x ∈ st, ∀ s ∈ (match x with | .target s => some s | _ => none),
        Lang.symbol exTable (trim s) ≠ none := by decide +kernel
  refine ⟨⟨?_, ?_, ?_⟩, ?_⟩
  · obtain ⟨raw, h1, g, _, h2, h3⟩ := hst t ht
    cases hl : lines t with
    | nil => rw [hl] at h1; cases h1
    | cons r rest => rw [hl] at h1; cases h1; exact ⟨_, g, rest, rfl, h2, h3⟩
  · intro k raw x hk hx hm
    have hx' : '@' ∈ x := by
      have hp : c!"@@" <+: x := by
        unfold isLocal at hx
        simpa [startsWith] using hx
      exact hp.subset (by decide)
    obtain ⟨j, h1, r, h2, h3⟩ := hfi t ht k (List.getElem?_eq_some_iff.1 hk).1 raw hk hm.1 (Fresh.mentions_chars hm '@' hx')
    exact ⟨j, r, h1, h2, h3⟩
  · intro raw hr st s v hp hs hn
    exact Rename.name_numeral (hnu t ht raw hr st hp _ hs s rfl) hn
  · intro raw hr st s hp hs hn
    exact hju t ht raw hr st hp _ hs s rfl hn.1

theorem exStrange : letI := asciiUnicode
    ∀ t ∈ [exF, exG, exH], ∀ u ∈ [exF, exG, exH], t ≠ u → Strange exTable (lines t) (lines u) := by
  letI := asciiUnicode
  intro t ht u hu htu
  have hde : ∀ t ∈ [exF, exG, exH], ∀ u ∈ [exF, exG, exH], t ≠ u → ∀ l ∈ labelsOf (lines t), isLocal l = false → l ∉ labelsOf (lines u) := by decide +kernel
  have hun : ∀ t ∈ [exF, exG, exH], ∀ u ∈ [exF, exG, exH], t ≠ u → ∀ l ∈ labelsOf (lines t), ∀ raw ∈ lines u,
      (isLocal l || !(kind raw == .code) || l.any (fun c => !raw.contains c) || (raw == c!"jal G" && l == c!"G") || (raw == c!"j F" && l == c!"F")) = true := by
    decide +kernel
  refine ⟨fun d e l hl h1 h2 => hde t ht u hu htu l (mem_labelsOf h1) hl (mem_labelsOf h2), fun d l hl h1 raw hr hm => ?_⟩
  have := hun t ht u hu htu l (mem_labelsOf h1) raw hr
  rw [hl, hm.1] at this
  simp only [Bool.false_or, Bool.or_eq_true, Bool.and_eq_true, beq_iff_eq, BEq.rfl, Bool.not_true] at this
  rcases this with (hc | ⟨rfl, rfl⟩) | ⟨rfl, rfl⟩
  · obtain ⟨c, c1, c2⟩ := List.any_eq_true.1 hc
    have := Fresh.mentions_chars hm c c1
    simp [this] at c2
  · exact ⟨⟨c!"G", c!"jal", by decide +kernel⟩, by decide +kernel⟩
  · exact ⟨⟨c!"F", c!"j", by decide +kernel⟩, by decide +kernel⟩

/-- The hypotheses of `C72_parts` and `C72_order` are met: three functions, two of them with a local label of the same name, that jump to
each other. -/
example : letI := asciiUnicode
    (∀ t ∈ [exF, exG, exH], IsPart (lines t) ∧ NoLabelJumps exTable (lines t) ∧
      ∃ B, (assemble (idRt true) { base := B, syms := exTable, debug := false } t).words = some (exCode t)) ∧
    [exF, exG, exH].Pairwise (fun t u => Strange exTable (lines t) (lines u) ∧ Strange exTable (lines u) (lines t)) ∧
    (0 : Nat) + 4 * codeCount ([exF, exG, exH].flatMap lines) < 2 ^ 32 ∧
    lines (exH ++ exF ++ exG) = [exH, exF, exG].flatMap lines ∧ [exH, exF, exG].Perm [exF, exG, exH] := by
  letI := asciiUnicode
  refine ⟨fun t ht => ⟨(exPart t ht).1, (exPart t ht).2, 0#32, ?_⟩, ?_, by decide +kernel, by decide +kernel, by decide +kernel⟩
  · revert t; decide +kernel
  · have hne : exF ≠ exG ∧ exF ≠ exH ∧ exG ≠ exH := by decide +kernel
    simp only [List.pairwise_cons, List.Pairwise.nil, and_true, List.mem_cons, List.not_mem_nil, or_false, forall_eq_or_imp, forall_eq, false_imp_iff, implies_true]
    refine ⟨⟨⟨?_, ?_⟩, ⟨?_, ?_⟩⟩, ⟨?_, ?_⟩⟩ <;> apply exStrange <;> first | (simp; done) | exact hne.1 | exact hne.2.1 | exact hne.2.2 | exact hne.1.symm | exact hne.2.1.symm | exact hne.2.2.symm

/-- A reference from the first instruction of a part to a local label of its own name in front is captured. -/
theorem C72_first_wrong : letI := asciiUnicode
    let a := c!"F:\n@@l:\nnop\nFX:\n"
    let b := c!"G:\nb @@l\nnop\n@@l:\nnop\nGX:\n"
    (assemble (idRt true) Mipsasm.new a).words = some [0#32] ∧
    (assemble (idRt true) Mipsasm.new b).words = some [0x10000001#32, 0#32, 0#32] ∧
    (assemble (idRt true) Mipsasm.new (b ++ a)).words = some [0x10000001#32, 0#32, 0#32, 0#32] ∧
    (assemble (idRt true) Mipsasm.new (a ++ b)).words = some [0#32, 0x1000FFFE#32, 0#32, 0#32] := by decide +kernel

end Mips
