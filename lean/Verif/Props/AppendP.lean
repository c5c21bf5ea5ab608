/- C54: lines added at the end of a program leave the code of the earlier lines alone. -/
import Verif.Props.LocalX
import Verif.Props.Errors
import Verif.Props.Labels

namespace Mips
open Isa Syntax Source Branch

/-! ### scopes of a file with lines added at the end -/

theorem globalsFrom_len (ls : List Str) (n k : Nat) : (globalsFrom n ls).length = (globalsFrom k ls).length := by
  induction ls generalizing n k with
  | nil => rfl
  | cons raw ls ih =>
    unfold globalsFrom
    split
    · exact ih _ _
    · exact ih _ _
    · split
      · exact ih _ _
      · simp only [List.length_cons]; rw [ih]

theorem scope_left (a b : List Str) {d : Nat} (h : d ≤ a.length) : scope (a ++ b) d = scope a d := by
  unfold scope
  rw [List.take_append_of_le_length h]

theorem scope_right (a b : List Str) (e : Nat) : scope (a ++ b) (a.length + e) = scope a a.length + scope b e := by
  unfold scope
  rw [List.take_length_add_append, List.take_length]
  unfold globals
  rw [globalsFrom_append, List.length_append, globalsFrom_len (b.take e) _ 0]

theorem defines_left {a b : List Str} {d : Nat} {x : Str} (h : Defines a d x) : Defines (a ++ b) d x := by
  obtain ⟨raw, h1, h2⟩ := h
  exact ⟨raw, by rw [List.getElem?_append_left (List.getElem?_eq_some_iff.1 h1).1]; exact h1, h2⟩

theorem defines_append {a b : List Str} {d : Nat} {x : Str} (h : Defines (a ++ b) d x) :
    (d < a.length ∧ Defines a d x) ∨ ∃ e, d = a.length + e ∧ Defines b e x := by
  obtain ⟨raw, h1, h2⟩ := h
  by_cases hd : d < a.length
  · rw [List.getElem?_append_left hd] at h1
    exact .inl ⟨hd, raw, h1, h2⟩
  · rw [List.getElem?_append_right (by omega)] at h1
    exact .inr ⟨d - a.length, by omega, raw, h1, h2⟩

theorem visible_left {a b : List Str} {k d : Nat} (hk : k < a.length) (hd : d ≤ a.length) :
    Visible (a ++ b) k d ↔ Visible a k d := by
  unfold Visible
  rw [scope_left a b hd, scope_left a b (Nat.le_of_lt hk)]
  refine or_congr Iff.rfl (and_congr Iff.rfl ?_)
  constructor
  · intro h j raw hj hr hc
    have := h j raw hj (by rw [List.getElem?_append_left (by omega)]; exact hr) hc
    rwa [scope_left a b (by omega)] at this
  · intro h j raw hj hr hc
    rw [List.getElem?_append_left (by omega)] at hr
    rw [scope_left a b (by omega)]
    exact h j raw hj hr hc

theorem chosen_append {a b : List Str} (hx : NoClash a b) {k d : Nat} {x : Str} (hl : isLocal x = true) (hk : k < a.length)
    (h : Chosen a k d x) : Chosen (a ++ b) k d x := by
  obtain ⟨h1, h2, h3, h4⟩ := h
  have hd : d < a.length := by obtain ⟨raw, hr, _⟩ := h1; exact (List.getElem?_eq_some_iff.1 hr).1
  have hle : scope a d ≤ scope a k := by
    rcases h2 with h2 | h2
    · omega
    · exact h2.1
  have hka := scope_mono a (Nat.le_of_lt hk)
  refine ⟨defines_left h1, (visible_left hk (Nat.le_of_lt hd)).2 h2, ?_, ?_⟩
  · intro d' hd' hv
    rcases defines_append hd' with ⟨hlt, hd'⟩ | ⟨e, rfl, _⟩
    · rw [scope_left a b (Nat.le_of_lt hd), scope_left a b (Nat.le_of_lt hlt)]
      exact h3 d' hd' ((visible_left hk (Nat.le_of_lt hlt)).1 hv)
    · rw [scope_left a b (Nat.le_of_lt hd), scope_right]
      omega
  · intro d' hlt hd'
    rcases defines_append hd' with ⟨hlt', hd'⟩ | ⟨e, rfl, he⟩
    · rw [scope_left a b (Nat.le_of_lt hd), scope_left a b (Nat.le_of_lt hlt')]
      exact h4 d' hlt hd'
    · rw [scope_left a b (Nat.le_of_lt hd), scope_right]
      intro hh
      exact hx d e x hl h1 (by omega) he (by omega)

section
variable [Unicode] {rt : Rt} {m : Mipsasm} {t1 t2 : Str} {more : List Str} {tr1 tr2 : List Outcome}

theorem adjust_append (hl : lines t2 = lines t1 ++ more) (hx : NoClash (lines t1) more)
    (hT1 : IsTrace (envOf rt m t1) (lines t1) tr1) (he1 : outErrors tr1 = [])
    (hT2 : IsTrace (envOf rt m t2) (lines t2) tr2) (he2 : outErrors tr2 = []) (ht : tr1 = tr2.take (lines t1).length)
    {i : Nat} {p : Nat × Instruction} (hp : (outInsts 0 tr1)[i]? = some p) {a1 a2 : Instruction}
    (h1 : adjust1 (envOf rt m t1) (canonF tr1) i p = some (a1, [])) (h2 : adjust1 (envOf rt m t2) (canonF tr2) i p = some (a2, [])) :
    a1 = a2 := by
  obtain ⟨b, hb⟩ := outLabels_take tr2 (lines t1).length
  rw [← ht] at hb
  have hlk : ∀ l v, (outLabels 0 tr1).lookup l = some v → (outLabels 0 tr2).lookup l = some v := by
    intro l v h
    rw [hb, List.lookup_append, h]; rfl
  have hlab1 : (canonF tr1).labels = outLabels 0 tr1 := rfl
  have hlab2 : (canonF tr2).labels = outLabels 0 tr2 := rfl
  have hfresh := trace_fresh hT1 hp
  obtain ⟨k, ws, hk1, hk2, hk3⟩ := outInsts_get hp
  obtain ⟨n, ins⟩ := p
  cases ins with
  | reg op rs rt' rd sa b =>
    cases h1; cases h2; rfl
  | bytes w => cases h1; cases h2; rfl
  | jump op tg b =>
    cases tg with
    | address w => cases h1; cases h2; rfl
    | label l =>
      simp only [adjust1, hlab1, hlab2] at h1 h2
      cases hv : (outLabels 0 tr1).lookup l with
      | none =>
        rw [hv] at h1
        simp only [opt_bind, Option.bind_eq_some_iff] at h1
        obtain ⟨_, _, h1⟩ := h1
        cases h1
      | some v =>
        rw [hv] at h1
        rw [hlk l v hv] at h2
        have e : (do
          let a4 ← chkMul (envOf rt m t1).rt.ovf (BitVec.ofNat 32 v) 4#32
          let t ← chkAdd (envOf rt m t1).rt.ovf (envOf rt m t1).base a4
          some (Instruction.jump op (.address t) [], ([] : List ParserError))) = some (a2, []) := h2
        have := h1.symm.trans e
        cases this; rfl
  | imm op rs rt' im b =>
    cases im with
    | short v => cases h1; cases h2; rfl
    | long v => cases h1; cases h2; rfl
    | int v =>
      simp only [adjust1] at h1 h2
      by_cases hs : (!startsWith c!"b" op.name) = true
      · rw [if_pos hs] at h1 h2
        cases h1; cases h2; rfl
      · rw [if_neg hs] at h1 h2
        simp only [opt_bind, Option.bind_eq_some_iff, Option.some.injEq, Prod.mk.injEq] at h1 h2
        obtain ⟨_, _, _, _, _, _, h1, _⟩ := h1
        obtain ⟨_, _, _, _, _, _, h2, _⟩ := h2
        rw [← h1, ← h2]
    | label l =>
      simp only [adjust1, hlab1, hlab2, opt_bind, Option.bind_eq_some_iff, Option.some.injEq, Prod.mk.injEq, and_true] at h1 h2
      obtain ⟨v, v1, rfl⟩ := h1
      obtain ⟨v', v2, rfl⟩ := h2
      rw [hlk l v v1] at v2
      cases v2; rfl
    | localLabel x =>
      have hx' : isLocal x = true := (hfresh.2.2 x rfl)
      obtain ⟨raw, r1, r2, _⟩ := trace_inst hT1 hk1
      have hkl : k < (lines t1).length := (List.getElem?_eq_some_iff.1 r1).1
      have r1' : (lines t2)[k]? = some raw := by rw [hl, List.getElem?_append_left hkl]; exact r1
      have hi : i = codeCount ((lines t1).take k) := by
        rw [← (trace_counts hT1 he1 k).2]; exact hk3.symm
      have hi2 : (lines t2).take k = (lines t1).take k := by rw [hl, List.take_append_of_le_length (Nat.le_of_lt hkl)]
      have hn : n = k + 1 := by simpa using hk2
      subst hn hi
      rcases local_exact hT1 he1 r1 r2 hx' op rs rt' b with ⟨d, c1, c2, c3⟩ | ⟨_, c3⟩ | ⟨_, _, _, c3⟩
      rotate_left
      · rw [h1] at c3; cases c3
      · rw [h1] at c3; cases c3
      have hd : d < (lines t1).length := by obtain ⟨raw, hr, _⟩ := c1.1; exact (List.getElem?_eq_some_iff.1 hr).1
      have q1 := chosen_append hx hx' hkl c1
      rw [← hl] at q1
      rw [h1] at c3
      have hle := local_exact hT2 he2 r1' r2 hx' op rs rt' b
      rw [hi2, h2] at hle
      rcases hle with ⟨d', c1', c2', c3'⟩ | ⟨_, c3'⟩ | ⟨_, _, _, c3'⟩
      · have := chosen_unique q1 c1'
        subst this
        rw [hl, List.take_append_of_le_length (Nat.le_of_lt hd)] at c3'
        cases c3; cases c3'; rfl
      · cases c3'
      · cases c3'
end

/-- C54, for files that do not define a local label twice across the seam: when lines are added at the end of a program and both
programs are accepted, the longer program begins with the very instructions of the shorter one, and with its warnings. -/
theorem C54_prefix_partial [Unicode] (rt : Rt) (m : Mipsasm) (t1 t2 : Str) (more : List Str) (is1 is2 : List Instruction)
    (w1 w2 : List ParserWarning) (hl : lines t2 = lines t1 ++ more) (hx : NoClash (lines t1) more)
    (h1 : assemble rt m t1 = .ok is1 w1) (h2 : assemble rt m t2 = .ok is2 w2) :
    is1 <+: is2 ∧ w1 <+: w2 := by
  obtain ⟨tr1, hT1, he1, hw1, hn1, ha1⟩ := assemble_ok h1
  obtain ⟨tr2, hT2, he2, hw2, hn2, ha2⟩ := assemble_ok h2
  have pre' : SamePre (envOf rt m t2) (envOf rt m t1) (lines t1).length := by
    refine ⟨rfl, rfl, ?_⟩
    intro k hk
    show (lines _)[k]? = (lines _)[k]?
    rw [hl, List.getElem?_append_left hk]
  have hT2' := hT2
  rw [hl] at hT2'
  have ht := isTrace_unique hT1 (isTrace_pre pre' hT2')
  have hsplit : tr2 = tr1 ++ tr2.drop (lines t1).length := by
    rw [ht]; exact (List.take_append_drop _ _).symm
  constructor
  · have hins : ∀ (i : Nat) p, (outInsts 0 tr1)[i]? = some p → (outInsts 0 tr2)[i]? = some p := by
      intro i p hp
      rw [hsplit, outInsts_append, List.getElem?_append_left (List.getElem?_eq_some_iff.1 hp).1]
      exact hp
    have hle : is1.length ≤ is2.length := by
      rw [hn1, hn2, hsplit, outInsts_append, List.length_append]; omega
    rw [List.prefix_iff_eq_take]
    apply List.ext_getElem?
    intro i
    by_cases hi : i < is1.length
    · rw [List.getElem?_take, if_pos hi]
      have hp : (outInsts 0 tr1)[i]? = some ((outInsts 0 tr1)[i]'(by omega)) := List.getElem?_eq_getElem _
      generalize (outInsts 0 tr1)[i]'(by omega) = p at hp
      obtain ⟨a1, b1, d1, e1, f1⟩ := ha1 i p hp
      obtain ⟨a2, b2, d2, e2, f2⟩ := ha2 i p (hins i p hp)
      have := adjust_append hl hx hT1 he1 hT2 he2 ht hp d1.1 d2.1
      subst this
      rw [f1] at f2
      cases f2
      rw [e1, e2]
    · rw [List.getElem?_take, if_neg hi, List.getElem?_eq_none (by omega)]
  · rw [hw1, hw2, hsplit, outWarns_append]
    exact List.prefix_append _ _

/-- C54 in terms of the text: what is appended behind a final newline. -/
theorem C54_text_partial [Unicode] (rt : Rt) (m : Mipsasm) (pre more : Str) (is1 is2 : List Instruction)
    (w1 w2 : List ParserWarning) (hx : NoClash (lines (pre ++ ['\n'])) (lines more))
    (h1 : assemble rt m (pre ++ ['\n']) = .ok is1 w1) (h2 : assemble rt m (pre ++ '\n' :: more) = .ok is2 w2) :
    is1 <+: is2 ∧ getBytes is1 <+: getBytes is2 ∧ w1 <+: w2 := by
  obtain ⟨a, b⟩ := C54_prefix_partial rt m _ _ _ is1 is2 w1 w2 (lines_append pre more) hx h1 h2
  refine ⟨a, ?_, b⟩
  obtain ⟨c, rfl⟩ := a
  unfold getBytes
  rw [List.flatMap_append]
  exact List.prefix_append _ _

/-- Added lines that begin with a global label clash with nothing. -/
theorem noClash_global {ls more : List Str} {raw g : Str} (hk : kind raw = .label g) (hg : isLocal g = false) :
    NoClash ls (raw :: more) := by
  intro d e x hx _ _ hd hs
  cases e with
  | zero =>
    obtain ⟨r, h1, h2⟩ := hd
    simp only [List.getElem?_cons_zero, Option.some.injEq] at h1
    subst h1
    rw [hk] at h2
    cases h2
    rw [hg] at hx; cases hx
  | succ e =>
    unfold scope globals at hs
    rw [List.take_succ_cons] at hs
    unfold globalsFrom at hs
    simp [hk, hg] at hs

/-- C54, the everyday case: appending a function, which begins with a global label, to an accepted program. -/
theorem C54_function [Unicode] (rt : Rt) (m : Mipsasm) (pre more raw g : Str) (rest : List Str) (is1 is2 : List Instruction)
    (w1 w2 : List ParserWarning) (hm : lines more = raw :: rest) (hk : kind raw = .label g) (hg : isLocal g = false)
    (h1 : assemble rt m (pre ++ ['\n']) = .ok is1 w1) (h2 : assemble rt m (pre ++ '\n' :: more) = .ok is2 w2) :
    is1 <+: is2 ∧ getBytes is1 <+: getBytes is2 ∧ w1 <+: w2 :=
  C54_text_partial rt m pre more is1 is2 w1 w2 (by rw [hm]; exact noClash_global hk hg) h1 h2

/-- Non-vacuity: a function with a local label, a backward branch and a warning, and a function that is appended to it; the
added function has a local label of the same name. -/
example : letI := asciiUnicode
    let pre := c!"f:\n@@l:\naddiu $a0, $a0, -1\ng:\nbne $a0, $zero, @@l\nj f\nb f"
    let more := c!"h:\n@@l:\nb @@l\nnop"
    (assemble (idRt true) Mipsasm.new (pre ++ ['\n'])).words = some [0x2484FFFF, 0x1480FFFE, 0x08000000, 0x1000FFFC] ∧
    (assemble (idRt true) Mipsasm.new (pre ++ ['\n'])).warnings.map List.length = some 2 ∧
    (assemble (idRt true) Mipsasm.new (pre ++ '\n' :: more)).words =
      some [0x2484FFFF, 0x1480FFFE, 0x08000000, 0x1000FFFC, 0x1000FFFF, 0] ∧
    (lines more).head? = some c!"h:" ∧ kind c!"h:" = .label c!"h" ∧ isLocal c!"h" = false := by decide +kernel

/-- C54 fails without the condition: added lines that define `@@x` again ahead of their first global label silently change the
branch of an earlier line. -/
theorem C54_wrong : letI := asciiUnicode
    ∃ pre more is1 is2 w1 w2, assemble (idRt true) Mipsasm.new (pre ++ ['\n']) = .ok is1 w1 ∧
      assemble (idRt true) Mipsasm.new (pre ++ '\n' :: more) = .ok is2 w2 ∧ ¬ is1 <+: is2 ∧
      getBytes is1 = [0, 0, 0x1000FFFE] ∧ getBytes is2 = [0, 0, 0x10000000, 0] := by
  letI := asciiUnicode
  have hq : ∀ (o p : AsmOut) (a b : List Word), o.words = some a → p.words = some b → ¬ a <+: b →
      ∃ is1 is2 w1 w2, o = .ok is1 w1 ∧ p = .ok is2 w2 ∧ ¬ is1 <+: is2 ∧ getBytes is1 = a ∧ getBytes is2 = b := by
    intro o p a b ha hb hab
    cases o with
    | err _ _ => cases ha
    | panic => cases ha
    | ok is1 w1 =>
      cases p with
      | err _ _ => cases hb
      | panic => cases hb
      | ok is2 w2 =>
        have e1 : getBytes is1 = a := Option.some.inj ha
        have e2 : getBytes is2 = b := Option.some.inj hb
        refine ⟨is1, is2, w1, w2, rfl, rfl, ?_, e1, e2⟩
        rintro ⟨c, rfl⟩
        apply hab
        rw [← e1, ← e2]
        unfold getBytes
        rw [List.flatMap_append]
        exact List.prefix_append _ _
  refine ⟨c!"a:\n@@y:\nnop\nb:\n@@x:\nnop\nb @@x", c!"@@x:\nnop\nc:", hq _ _ _ _ (by decide +kernel) (by decide +kernel) (by decide)⟩

end Mips
