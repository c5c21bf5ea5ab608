/- Renamed labels: operands and steps. -/
import Verif.Spec.Rename
import Verif.Spec.Code
import Verif.Lemmas.LangL13

namespace Mips.Rename
open Mips.Isa hiding conds
open Mips.Names hiding none
open Mips.Syntax Mips.Source Mips.Branch Mips.Operands
open Mips.Lang

/-- the inverse -/
abbrev inv (R : Str → Str → Prop) : Str → Str → Prop := fun a b => R b a

theorem Renaming.symm {syms : List (BitVec 32 × Str)} {R : Str → Str → Prop} (h : Renaming syms R) : Renaming syms (inv R) :=
  ⟨fun a b c h1 h2 => h.back b c a h1 h2, fun a b c h1 h2 => h.to c a b h1 h2, fun a b h1 => h.name' b a h1, fun a b h1 => h.name b a h1,
    fun a b h1 => (h.loc b a h1).symm⟩

section
variable {syms : List (BitVec 32 × Str)} {R : Str → Str → Prop}

theorem NewLabel.symm {l l' : Str} (h : NewLabel syms R l l') : NewLabel syms (inv R) l' l := by
  rcases h with h | ⟨rfl, h⟩
  · exact .inl h
  · exact .inr ⟨rfl, h⟩

theorem NewOperand.symm {s s' : Str} (h : NewOperand syms R s s') : NewOperand syms (inv R) s' s := by
  rcases h with h | ⟨rfl, h⟩
  · exact .inl h
  · exact .inr ⟨rfl, h⟩

theorem NewAddress.symm {s s' : Str} (h : NewAddress syms R s s') : NewAddress syms (inv R) s' s := by
  rcases h with ⟨o, o', v, h1, h2, h3, h4⟩ | ⟨rfl, h⟩
  · exact .inl ⟨o', o, v, h2, h1, h3, h4⟩
  · exact .inr ⟨rfl, h⟩

theorem NewText.symm {role : Role} {s s' : Str} (h : NewText syms R role s s') : NewText syms (inv R) role s' s := by
  cases role
  case mem => exact NewAddress.symm h
  all_goals first
    | exact Eq.symm h
    | exact NewOperand.symm h

theorem NewTexts.symm {sig : List Role} {l l' : List Str} (h : NewTexts syms R sig l l') : NewTexts syms (inv R) sig l' l := by
  induction h with
  | nil => exact .nil
  | cons _ _ _ _ _ _ h1 _ ih => exact .cons _ _ _ _ _ _ h1.symm ih

theorem NewOperand.label {s s' : Str} (h : NewOperand syms R s s') : NewLabel syms R (trim s) (trim s') := by
  rcases h with h | ⟨rfl, h⟩
  · exact .inl h
  · exact .inr ⟨rfl, h⟩

theorem NewLabel.to (hR : Renaming syms R) {a b c : Str} (h1 : NewLabel syms R a b) (h2 : NewLabel syms R a c) : b = c := by
  rcases h1 with h1 | ⟨rfl, h1⟩ <;> rcases h2 with h2 | ⟨rfl, h2⟩
  · exact hR.to _ _ _ h1 h2
  · exact absurd (hR.name _ _ h1) h2
  · exact absurd (hR.name _ _ h2) h1
  · rfl

theorem NewLabel.loc (hR : Renaming syms R) {a b : Str} (h : NewLabel syms R a b) : isLocal a = isLocal b := by
  rcases h with h | ⟨rfl, _⟩
  · exact hR.loc _ _ h
  · rfl

theorem NewLabel.head [Unicode] (hR : Renaming syms R) {a b : Str} (h : NewLabel syms R a b)
    (ha : ∃ c t, a = c :: t ∧ Unicode.isNumeric c = false) : ∃ c t, b = c :: t ∧ Unicode.isNumeric c = false := by
  rcases h with h | ⟨rfl, _⟩
  · obtain ⟨c, t, e, h1, h2, _⟩ := (hR.name' _ _ h).head
    exact ⟨c, t, e, by rw [Unicode.isNumeric_ascii c h1]; exact h2⟩
  · exact ha

theorem NewLabel.glob [Unicode] (hR : Renaming syms R) {a b : Str} (h : NewLabel syms R a b) (ha : Lang.Global a) : Lang.Global b :=
  ⟨by rw [← h.loc hR]; exact ha.1, h.head hR ha.2⟩

/-! ### Names are no numbers -/

theorem name_signed {neg : Bool} {l : Str} (h : Name syms l) {v : Int} : ¬ Signed neg decDigits l v := by
  obtain ⟨c, t, rfl, _, h2, h3, h4⟩ := h.head
  intro hs
  cases hs with
  | plus _ n hp =>
    rcases hp with hp | ⟨t', e, _⟩
    · obtain ⟨c', u, e, hd⟩ := digits_head hp
      cases e; rw [h2] at hd; cases hd
    · cases e; exact h3 rfl
  | minus _ n _ _ => exact h4 rfl

theorem name_numeral {neg : Bool} {l : Str} (h : Name syms l) {v : Int} : ¬ Numeral neg l v := by
  rintro (⟨h1, _⟩ | ⟨_, h2⟩)
  · rw [h.noHex] at h1; cases h1
  · exact name_signed h h2

theorem name_group {s m : Str} (h : Name syms (trim s)) : ¬ Group s m := by
  rintro ⟨a, b, e, _⟩
  exact h.noOpen (by rw [e]; simp)

theorem name_value {p : Place} {r : Lang.Range} {s : Str} {v : Int} (h : Name syms (trim s)) : ¬ Value p r s v := by
  intro hv
  cases hv with
  | num _ _ hn => exact name_numeral h hn
  | hi m t a hg => exact name_group h hg
  | lo m t a hg => exact name_group h hg

theorem name_breaks {p : Place} {s : Str} (h : Name syms (trim s)) : ¬ Breaks p s := by
  rintro ⟨m, hg, _⟩; exact name_group h hg

theorem name_labelName {l : Str} (h : Name syms l) : LabelName syms l := by
  obtain ⟨c, t, e, h1, h2, _⟩ := h.head
  exact ⟨h.free, c, t, e, h1, h2⟩

theorem name_address {l : Str} {a : BitVec 32} (h : Name syms l) : ¬ Address syms l a := by
  rintro (h1 | ⟨_, n, _, _, (⟨h2, _⟩ | ⟨_, h2⟩)⟩)
  · rw [h.free] at h1; cases h1
  · have := h.noHex
    obtain ⟨c, t, rfl, _, hd, _⟩ := h.head
    cases t with
    | nil => simp [startsWith] at h2
    | cons d t =>
      simp [startsWith] at h2
      rw [← h2.1] at hd
      cases hd
  · obtain ⟨c, t, rfl, _, hd, _⟩ := h.head
    obtain ⟨c', u, e, hd'⟩ := digits_head h2
    cases e; rw [hd] at hd'; cases hd'

theorem name_nothing {l : Str} (h : Name syms l) : ¬ Nothing syms l := by
  rintro ⟨_, h2⟩
  obtain ⟨c, t, e, h1, _⟩ := h.head
  rw [h2 c t e] at h1; cases h1

/-- what is not a name is read the same way at all places of the same build mode and symbols -/
theorem value_place {p p' : Place} (ho : p.ovf = p'.ovf) (hs : p.syms = p'.syms) {r : Lang.Range} {s : Str} {v : Int} (h : Value p r s v) : Value p' r s v := by
  cases h with
  | num _ h1 h2 h3 h4 => exact .num _ h1 h2 h3 h4
  | hi m t a h1 h2 h3 h4 => exact .hi m t a h1 (hs ▸ h2) h3 (ho ▸ h4)
  | lo m t a h1 h2 h3 => exact .lo m t a h1 (hs ▸ h2) h3

theorem breaks_place {p p' : Place} (ho : p.ovf = p'.ovf) (hs : p.syms = p'.syms) {s : Str} (h : Breaks p s) : Breaks p' s := by
  obtain ⟨m, hg, h⟩ := h
  refine ⟨m, hg, ?_⟩
  rcases h with h | h | ⟨a, h1, h2, h3⟩
  · exact .inl (hs ▸ h)
  · exact .inr (.inl (hs ▸ h))
  · exact .inr (.inr ⟨a, hs ▸ h1, ho ▸ h2, h3⟩)

/-! ### Places and operands -/

/-- Places that correspond: the labels defined above are renamed. -/
structure SamePlace (syms : List (BitVec 32 × Str)) (R : Str → Str → Prop) (p p' : Place) : Prop where
  ren : Renaming syms R
  ovf : p.ovf = p'.ovf
  sy : p.syms = syms
  sy' : p'.syms = syms
  k : p.k = p'.k
  defs : ∀ d l l', NewLabel syms R l l' → (Defines p.ls d l ↔ Defines p'.ls d l')

theorem SamePlace.symm {p p' : Place} (h : SamePlace syms R p p') : SamePlace syms (inv R) p' p :=
  ⟨h.ren.symm, h.ovf.symm, h.sy', h.sy, h.k.symm, fun d l l' hl => (h.defs d l' l hl.symm).symm⟩

theorem SamePlace.eqSyms {p p' : Place} (h : SamePlace syms R p p') : p.syms = p'.syms := h.sy.trans h.sy'.symm

theorem SamePlace.def {p p' : Place} (h : SamePlace syms R p p') {d : Nat} {l l' : Str} (hl : NewLabel syms R l l') (hd : Defines p.ls d l) :
    Defines p'.ls d l' := (h.defs d l l' hl).1 hd

section
variable [Unicode] {p p' : Place}

theorem refers_new (h : SamePlace syms R p p') {s s' : Str} (ho : NewOperand syms R s s') (hr : RefersTo p s) : RefersTo p' s' := by
  have hl := ho.label
  rcases hr with hr | ⟨hg, d, hd, hr⟩
  · left; rw [← hl.loc h.ren]; exact hr
  · exact .inr ⟨hl.glob h.ren hg, d, h.k ▸ hd, h.def hl hr⟩

theorem refers_iff (h : SamePlace syms R p p') {s s' : Str} (ho : NewOperand syms R s s') : RefersTo p s ↔ RefersTo p' s' :=
  ⟨refers_new h ho, refers_new h.symm ho.symm⟩

omit [Unicode] in
theorem value_new (h : SamePlace syms R p p') {s s' : Str} (ho : NewOperand syms R s s') {r : Lang.Range} {v : Int} (hv : Value p r s v) :
    Value p' r s' v := by
  rcases ho with ho | ⟨rfl, _⟩
  · exact absurd hv (name_value (h.ren.name _ _ ho))
  · exact value_place h.ovf h.eqSyms hv

omit [Unicode] in
theorem value_iff (h : SamePlace syms R p p') {s s' : Str} (ho : NewOperand syms R s s') {r : Lang.Range} {v : Int} :
    Value p r s v ↔ Value p' r s' v := ⟨value_new h ho, value_new h.symm ho.symm⟩

omit [Unicode] in
theorem breaks_new (h : SamePlace syms R p p') {s s' : Str} (ho : NewOperand syms R s s') (hv : Breaks p s) : Breaks p' s' := by
  rcases ho with ho | ⟨rfl, _⟩
  · exact absurd hv (name_breaks (h.ren.name _ _ ho))
  · exact breaks_place h.ovf h.eqSyms hv

omit [Unicode] in
theorem breaks_iff (h : SamePlace syms R p p') {s s' : Str} (ho : NewOperand syms R s s') : Breaks p s ↔ Breaks p' s' :=
  ⟨breaks_new h ho, breaks_new h.symm ho.symm⟩

omit [Unicode] in
theorem address_new (h : SamePlace syms R p p') {s s' : Str} (ho : NewOperand syms R s s') {a : BitVec 32} (hv : Address p.syms (trim s) a) :
    Address p'.syms (trim s') a := by
  rw [h.sy] at hv; rw [h.sy']
  rcases ho with ho | ⟨rfl, _⟩
  · exact absurd hv (name_address (h.ren.name _ _ ho))
  · exact hv

omit [Unicode] in
theorem labelName_new (h : SamePlace syms R p p') {s s' : Str} (ho : NewOperand syms R s s') (hv : LabelName p.syms (trim s)) :
    LabelName p'.syms (trim s') := by
  rw [h.sy] at hv; rw [h.sy']
  rcases ho with ho | ⟨rfl, _⟩
  · exact name_labelName (h.ren.name' _ _ ho)
  · exact hv

omit [Unicode] in
theorem nothing_new (h : SamePlace syms R p p') {s s' : Str} (ho : NewOperand syms R s s') (hv : Nothing p.syms (trim s)) :
    Nothing p'.syms (trim s') := by
  rw [h.sy] at hv; rw [h.sy']
  rcases ho with ho | ⟨rfl, _⟩
  · exact absurd hv (name_nothing (h.ren.name _ _ ho))
  · exact hv

theorem number_new (h : SamePlace syms R p p') {s s' : Str} (ho : NewOperand syms R s s') {v : Nat} (hv : Number p s v) : Number p' s' v := by
  obtain ⟨h1, h2, h3, h4⟩ := hv
  refine ⟨fun h' => h1 ((refers_iff h ho).2 h'), ?_⟩
  rcases ho with ho | ⟨rfl, _⟩
  · exact absurd h3 (name_numeral (h.ren.name _ _ ho))
  · exact ⟨h2, h3, h4⟩

/-! ### Addresses in memory -/

omit [Unicode] in
theorem ws_paren {c : Char} (h : isWs c = true) : c ≠ '(' ∧ c ≠ ')' := by
  constructor <;> (rintro rfl; revert h; decide)

omit [Unicode] in
theorem name_noParen {o : Str} (h : Name syms (trim o)) : '(' ∉ o ∧ ')' ∉ o ∧ o ≠ [] := by
  obtain ⟨a, b, e, h1, h2⟩ := trim_decomp o
  refine ⟨?_, ?_, ?_⟩
  · rw [e]; simp only [List.mem_append, not_or]
    exact ⟨⟨fun hc => (ws_paren (h1 _ hc)).1 rfl, h.noOpen⟩, fun hc => (ws_paren (h2 _ hc)).1 rfl⟩
  · rw [e]; simp only [List.mem_append, not_or]
    exact ⟨⟨fun hc => (ws_paren (h1 _ hc)).2 rfl, h.noClose⟩, fun hc => (ws_paren (h2 _ hc)).2 rfl⟩
  · rintro rfl
    obtain ⟨c, t, e, _⟩ := h.head
    cases e

omit [Unicode] in
theorem name_filter {o : Str} (h : Name syms (trim o)) : o.filter (fun c => !(c == '(')) = o := by
  rw [List.filter_eq_self]
  intro c hc
  have := (name_noParen h).1
  simp only [Bool.not_eq_true', beq_eq_false_iff_ne]
  rintro rfl; exact this hc

omit [Unicode] in
theorem offset_unique {s o o' : Str} (h : Offset s o) (h' : Offset s o') : o = o' := by
  obtain ⟨_, v, rfl, hv⟩ := h
  obtain ⟨_, v', e, hv'⟩ := h'
  rcases List.append_eq_append_iff.1 e with ⟨a, e1, e2⟩ | ⟨a, e1, e2⟩
  · cases a with
    | nil => simp at e1; exact e1.symm
    | cons c a => cases e2; exact absurd (by simp) hv
  · cases a with
    | nil => simp at e1; exact e1
    | cons c a => cases e2; exact absurd (by simp) hv'

omit [Unicode] in
/-- the offset of an address is renamed -/
theorem offset_new (hR : Renaming syms R) {s s' : Str} (ho : NewAddress syms R s s') {o : Str} (h : Offset s o) :
    ∃ o', Offset s' o' ∧ ∀ b, NewOperand syms R (offsetText b o) (offsetText b o') := by
  rcases ho with ⟨o1, o2, v, rfl, rfl, hv, hr⟩ | ⟨rfl, hn⟩
  · have n1 := name_noParen (hR.name _ _ hr)
    have n2 := name_noParen (hR.name' _ _ hr)
    obtain rfl := offset_unique h ⟨n1.2.2, v, rfl, hv⟩
    refine ⟨o2, ⟨n2.2.2, v, rfl, hv⟩, fun b => .inl ?_⟩
    unfold offsetText
    rw [name_filter (hR.name _ _ hr), name_filter (hR.name' _ _ hr)]
    simpa using hr
  · refine ⟨o, h, fun b => .inr ⟨rfl, ?_⟩⟩
    have := hn o h
    unfold offsetText
    cases b with
    | true => simpa using this
    | false =>
      simp only [Bool.false_eq_true, if_false]
      intro hN
      rw [name_filter hN] at this
      exact this hN

omit [Unicode] in
theorem base_new (hR : Renaming syms R) {s s' : Str} (ho : NewAddress syms R s s') {m : Str} (h : BaseGroup s m) : BaseGroup s' m := by
  rcases ho with ⟨o1, o2, v, rfl, rfl, hv, hr⟩ | ⟨rfl, hn⟩
  · obtain ⟨n1, n1', _⟩ := name_noParen (hR.name _ _ hr)
    obtain ⟨n2, n2', _⟩ := name_noParen (hR.name' _ _ hr)
    obtain ⟨u, w, e, h1, h2, h3⟩ := h
    -- the only opening parenthesis is the one after the offset
    have hu : u = o1 ∧ v = m ++ ')' :: w := by
      rw [List.append_assoc, List.cons_append] at e
      rcases List.append_eq_append_iff.1 e with ⟨a, e1, e2⟩ | ⟨a, e1, e2⟩
      · cases a with
        | nil => simp at e1 e2; exact ⟨e1, e2⟩
        | cons c a => cases e2; exact absurd (by simp) hv
      · cases a with
        | nil => simp at e1 e2; exact ⟨e1.symm, e2.symm⟩
        | cons c a =>
          have e3 := (List.cons.inj e2).1
          subst e3
          exact absurd (by rw [e1]; simp) n1
    obtain ⟨rfl, rfl⟩ := hu
    refine ⟨o2, w, by simp, h1, ?_, h3⟩
    rintro a b rfl
    exact absurd (by simp) n2
  · exact h

/-! ### Steps -/

/-- Steps that correspond. -/
inductive NewStep (syms : List (BitVec 32 × Str)) (R : Str → Str → Prop) : Step → Step → Prop
  | gpr (b : Bool) (s : Str) : NewStep syms R (.gpr b s) (.gpr b s)
  | fpr (s : Str) : NewStep syms R (.fpr s) (.fpr s)
  | c0 (s : Str) : NewStep syms R (.c0 s) (.c0 s)
  | base (b : Bool) (s s' : Str) : (∀ m, BaseGroup s m ↔ BaseGroup s' m) → NewStep syms R (.base b s) (.base b s')
  | offset (b : Bool) (s s' : Str) : (∀ o, Offset s o → ∃ o', Offset s' o' ∧ NewOperand syms R (offsetText b o) (offsetText b o')) →
      (∀ o', Offset s' o' → ∃ o, Offset s o ∧ NewOperand syms R (offsetText b o) (offsetText b o')) → NewStep syms R (.offset b s) (.offset b s')
  | const (r : Lang.Range) (s s' : Str) : NewOperand syms R s s' → NewStep syms R (.const r s) (.const r s')
  | number (r : Lang.Range) (s s' : Str) : NewOperand syms R s s' → NewStep syms R (.number r s) (.number r s')
  | code (s s' : Str) : NewOperand syms R s s' → NewStep syms R (.code s) (.code s')
  | word32 (s s' : Str) : NewOperand syms R s s' → NewStep syms R (.word32 s) (.word32 s')
  | cop (s s' : Str) : NewOperand syms R s s' → NewStep syms R (.cop s) (.cop s')
  | shamt (s : Str) : NewStep syms R (.shamt s) (.shamt s)
  | target (s s' : Str) : NewOperand syms R s s' → NewStep syms R (.target s) (.target s')
  | name (w : Str) : NewStep syms R (.name w) (.name w)
  | fname (w : Str) : NewStep syms R (.fname w) (.fname w)
  | format (w : Str) : NewStep syms R (.format w) (.format w)
  | cond (w : Str) : NewStep syms R (.cond w) (.cond w)
  | short : NewStep syms R .short .short

omit [Unicode] in
theorem NewStep.symm {a b : Step} (h : NewStep syms R a b) : NewStep syms (inv R) b a := by
  cases h with
  | base b s s' h => exact .base b s' s fun m => (h m).symm
  | offset b s s' h h' =>
    refine .offset b s' s (fun o ho => ?_) fun o ho => ?_
    · obtain ⟨o', h1, h2⟩ := h' o ho
      exact ⟨o', h1, h2.symm⟩
    · obtain ⟨o', h1, h2⟩ := h o ho
      exact ⟨o', h1, h2.symm⟩
  | _ =>
    constructor
    try exact NewOperand.symm ‹_›

omit [Unicode] in
theorem base_step (hR : Renaming syms R) (b : Bool) {s s' : Str} (h : NewAddress syms R s s') : NewStep syms R (.base b s) (.base b s') :=
  .base b s s' fun _ => ⟨base_new hR h, base_new hR.symm h.symm⟩

omit [Unicode] in
theorem offset_step (hR : Renaming syms R) (b : Bool) {s s' : Str} (h : NewAddress syms R s s') : NewStep syms R (.offset b s) (.offset b s') := by
  refine .offset b s s' (fun o ho => ?_) fun o ho => ?_
  · obtain ⟨o', h1, h2⟩ := offset_new hR h ho
    exact ⟨o', h1, h2 b⟩
  · obtain ⟨o', h1, h2⟩ := offset_new hR.symm h.symm ho
    exact ⟨o', h1, (h2 b).symm⟩

omit [Unicode] in
theorem nil_new (h : SamePlace syms R p p') {s s' : Str} (ho : NewOperand syms R s s') (hs : s = []) : s' = [] := by
  subst hs
  rcases ho with ho | ⟨rfl, _⟩
  · obtain ⟨c, t, e, _⟩ := (h.ren.name _ _ ho).head
    cases e
  · rfl

theorem reads_new (h : SamePlace syms R p p') {a b : Step} (hs : NewStep syms R a b) (hr : Lang.Reads p a) : Lang.Reads p' b := by
  cases hs with
  | gpr | fpr | c0 | shamt | name | fname | format | cond | short => exact hr
  | base b s s' ho =>
    obtain ⟨m, h1, h2⟩ := hr
    exact ⟨m, (ho m).1 h1, h2⟩
  | offset b s s' _ ho =>
    intro o' h'
    obtain ⟨o, h1, h2⟩ := ho o' h'
    rcases hr o h1 with k | ⟨v, k⟩
    · exact .inl (refers_new h h2 k)
    · exact .inr ⟨v, value_new h h2 k⟩
  | const r s s' ho =>
    rcases hr with k | ⟨v, k⟩
    · exact .inl (refers_new h ho k)
    · exact .inr ⟨v, value_new h ho k⟩
  | number r s s' ho =>
    obtain ⟨k1, v, k2⟩ := hr
    exact ⟨fun k => k1 ((refers_iff h ho).2 k), v, value_new h ho k2⟩
  | code s s' ho =>
    rcases hr with k | ⟨k1, v, k2⟩
    · exact .inl (nil_new h ho k)
    · exact .inr ⟨fun k => k1 ((refers_iff h ho).2 k), v, value_new h ho k2⟩
  | word32 s s' ho =>
    obtain ⟨k1, v, k2, k3⟩ := hr
    exact ⟨fun k => k1 ((refers_iff h ho).2 k), v, value_new h ho k2, k3⟩
  | cop s s' ho =>
    obtain ⟨k1, v, k2, k3⟩ := hr
    exact ⟨fun k => k1 ((refers_iff h ho).2 k), v, value_new h ho k2, k3⟩
  | target s s' ho =>
    rcases hr with ⟨a, k⟩ | k
    · exact .inl ⟨a, address_new h ho k⟩
    · exact .inr (labelName_new h ho k)

theorem crashes_new (h : SamePlace syms R p p') {a b : Step} (hs : NewStep syms R a b) (hr : Crashes p a) : Crashes p' b := by
  cases hs with
  | gpr | fpr | c0 | shamt | name | fname | format | cond | short => exact hr
  | base b s s' ho =>
    rcases hr with k | ⟨m, k1, k2⟩
    · exact .inl fun m hm => k m ((ho m).2 hm)
    · exact .inr ⟨m, (ho m).1 k1, k2⟩
  | offset b s s' ho _ =>
    obtain ⟨o, h1, h2, h3⟩ := hr
    obtain ⟨o', g1, g2⟩ := ho o h1
    exact ⟨o', g1, fun k => h2 ((refers_iff h g2).2 k), breaks_new h g2 h3⟩
  | const r s s' ho => exact ⟨fun k => hr.1 ((refers_iff h ho).2 k), breaks_new h ho hr.2⟩
  | number r s s' ho =>
    rcases hr with k | k
    · exact .inl (refers_new h ho k)
    · exact .inr (breaks_new h ho k)
  | code s s' ho =>
    refine ⟨fun k => hr.1 (nil_new h.symm ho.symm k), ?_⟩
    rcases hr.2 with k | k
    · exact .inl (refers_new h ho k)
    · exact .inr (breaks_new h ho k)
  | word32 s s' ho =>
    rcases hr with k | k
    · exact .inl (refers_new h ho k)
    · exact .inr (breaks_new h ho k)
  | cop s s' ho =>
    rcases hr with k | k | ⟨v, k, k2⟩
    · exact .inl (refers_new h ho k)
    · exact .inr (.inl (breaks_new h ho k))
    · exact .inr (.inr ⟨v, value_new h ho k, k2⟩)
  | target s s' ho => exact nothing_new h ho hr

/-- Lists of steps that correspond. -/
inductive NewSteps (syms : List (BitVec 32 × Str)) (R : Str → Str → Prop) : List Step → List Step → Prop
  | nil : NewSteps syms R [] []
  | cons (a b : Step) (as bs : List Step) : NewStep syms R a b → NewSteps syms R as bs → NewSteps syms R (a :: as) (b :: bs)

omit [Unicode] in
theorem NewSteps.symm {a b : List Step} (h : NewSteps syms R a b) : NewSteps syms (inv R) b a := by
  induction h with
  | nil => exact .nil
  | cons _ _ _ _ h _ ih => exact .cons _ _ _ _ h.symm ih

omit [Unicode] in
theorem NewSteps.mem {a b : List Step} (h : NewSteps syms R a b) {x : Step} (hx : x ∈ a) : ∃ y ∈ b, NewStep syms R x y := by
  induction h with
  | nil => cases hx
  | cons c d _ _ h _ ih =>
    rcases List.mem_cons.1 hx with rfl | hx
    · exact ⟨d, by simp, h⟩
    · obtain ⟨y, h1, h2⟩ := ih hx
      exact ⟨y, List.mem_cons_of_mem _ h1, h2⟩

theorem allReads_new (h : SamePlace syms R p p') {a b : List Step} (hs : NewSteps syms R a b) (hr : ∀ s ∈ a, Lang.Reads p s) : ∀ s ∈ b, Lang.Reads p' s := by
  intro s hb
  obtain ⟨x, h1, h2⟩ := hs.symm.mem hb
  exact reads_new h h2.symm (hr x h1)

theorem stops_new (h : SamePlace syms R p p') {a b : List Step} (hs : NewSteps syms R a b) (hr : Stops p a) : Stops p' b := by
  induction hs with
  | nil => exact hr
  | cons c d _ _ h1 _ ih =>
    rcases hr with hr | ⟨k1, k2⟩
    · exact .inl (crashes_new h h1 hr)
    · exact .inr ⟨reads_new h h1 k1, ih k2⟩

omit [Unicode] in
theorem steps_new (hR : Renaming syms R) (mn w : Str) {sig : List Role} {l l' : List Str} (h : NewTexts syms R sig l l') :
    NewSteps syms R (steps mn w sig l) (steps mn w sig l') := by
  have one : ∀ a b : Step, NewStep syms R a b → NewSteps syms R [a] [b] := fun a b h => .cons _ _ _ _ h .nil
  have two : ∀ a b c d : Step, NewStep syms R a b → NewStep syms R c d → NewSteps syms R [a, c] [b, d] := fun a b c d h h' => .cons _ _ _ _ h (one _ _ h')
  induction h with
  | nil => exact one _ _ (.name w)
  | cons role s s' rs l l' h1 h2 ih =>
    cases role with
    | gpr => cases (show s = s' from h1); exact .cons _ _ _ _ (.gpr _ _) ih
    | fpr => cases (show s = s' from h1); exact .cons _ _ _ _ (.fpr _) ih
    | c0 => cases (show s = s' from h1); exact .cons _ _ _ _ (.c0 _) ih
    | cop => exact .cons _ _ _ _ (.cop _ _ h1) ih
    | mem =>
      cases h2 with
      | nil => exact .cons _ _ _ _ (base_step hR _ h1) (two _ _ _ _ (.name w) (offset_step hR _ h1))
      | cons => exact one _ _ (.name w)
    | simm =>
      cases h2 with
      | nil => exact two _ _ _ _ (.name w) (.const _ _ _ h1)
      | cons => exact one _ _ (.name w)
    | uimm =>
      cases h2 with
      | nil => exact two _ _ _ _ (.name w) (.const _ _ _ h1)
      | cons => exact one _ _ (.name w)
    | wide =>
      cases h2 with
      | nil =>
        simp only [steps]
        split
        · exact two _ _ _ _ (.name w) (.const _ _ _ h1)
        · exact two _ _ _ _ (.word32 _ _ h1) (.name w)
      | cons => exact one _ _ (.name w)
    | addr =>
      cases h2 with
      | nil => exact two _ _ _ _ (.const _ _ _ h1) (.name w)
      | cons => exact one _ _ (.name w)
    | shamt =>
      cases (show s = s' from h1)
      cases h2 with
      | nil => exact two _ _ _ _ (.name w) (.shamt _)
      | cons => exact one _ _ (.name w)
    | code =>
      cases h2 with
      | nil => exact two _ _ _ _ (.code _ _ h1) (.name w)
      | cons => exact one _ _ (.name w)
    | target =>
      cases h2 with
      | nil => exact two _ _ _ _ (.target _ _ h1) (.name w)
      | cons => exact one _ _ (.name w)

end
end
end Mips.Rename
