/- Symbols that stand for labels of the program. -/
import Verif.Spec.Export
import Verif.Lemmas.EditL
import Verif.Lemmas.ContextL

namespace Mips.Export
open Mips.Isa hiding conds
open Mips.Names hiding none
open Mips.Syntax Mips.Source Mips.Branch Mips.Operands
open Mips.Lang
open Mips.Context (Mentioned)

section
variable [Unicode] {ovf : Bool} {B : BitVec 32} {ls : List Str} {S S' : List (BitVec 32 × Str)}

/-- what starts as a label is no number -/
theorem global_no_number {t : Str} (hg : Global t) {n : Nat} :
    ¬ ((startsWith c!"0x" t = true ∧ Plus hexDigits (remove0x t) n) ∨ (startsWith c!"0x" t = false ∧ Digits decDigits t n)) := by
  obtain ⟨_, c, u, rfl, hn⟩ := hg
  have key : isAscii c = true → isDigit c = true → False := by
    intro h1 h2
    rw [Unicode.isNumeric_ascii c h1, h2] at hn; cases hn
  rintro (⟨h, _⟩ | ⟨_, h⟩)
  · unfold startsWith at h
    simp only [List.isPrefixOf, Bool.and_eq_true, beq_iff_eq] at h
    obtain ⟨h, _⟩ := h
    subst h
    exact key (by decide) (by decide)
  · obtain ⟨c', u', e, hd⟩ := digits_head h
    cases e
    refine key ?_ hd
    unfold isDigit at hd
    unfold isAscii
    simp only [Bool.and_eq_true, decide_eq_true_eq] at hd ⊢
    have h2 : c.toNat ≤ '9'.toNat := hd.2
    exact Nat.lt_of_le_of_lt h2 (by decide)

omit [Unicode] in
theorem group_one {t m m' : Str} (h : Group t m) (h' : Group t m') : m = m' := by
  obtain ⟨a, b, e, h1, h2⟩ := h
  obtain ⟨a', b', e', h1', h2'⟩ := h'
  rw [e] at e'
  simp only [List.append_assoc, List.cons_append] at e'
  obtain ⟨_, e2⟩ := first_unique e' h1 h1'
  have e3 := congrArg List.reverse e2
  simp only [List.reverse_append, List.reverse_cons, List.append_assoc, List.cons_append, List.nil_append] at e3
  have := (first_unique e3 (by simpa using h2) (by simpa using h2')).2
  simpa using this

theorem extends_none (h : Extends B ls S S') {t : Str} (hn : symbol S' t = none) : symbol S t = none := by
  rcases h t with e | ⟨e, _⟩
  · rw [← e]; exact hn
  · exact e

theorem address_up (h : Extends B ls S S') {t : Str} {a : BitVec 32} (ha : Address S t a) : Address S' t a := by
  rcases ha with ha | ⟨h1, n, h2, h3, h4⟩
  · rcases h t with e | ⟨e, _⟩
    · exact .inl (e.trans ha)
    · rw [e] at ha; cases ha
  · rcases h t with e | ⟨_, d, hd, _⟩
    · exact .inr ⟨e.trans h1, n, h2, h3, h4⟩
    · exact absurd h4 (global_no_number hd.2.1)

theorem address_down (h : Extends B ls S S') {t : Str} (hn : ¬ New S S' t) {a : BitVec 32} (ha : Address S' t a) : Address S t a := by
  have e : symbol S t = symbol S' t := by
    cases hs : symbol S' t with
    | none => exact extends_none h hs
    | some x =>
      rcases h t with e | ⟨e, _⟩
      · rw [← e, hs]
      · exact absurd ⟨e, by rw [hs]; simp⟩ hn
  unfold Address at *
  rw [e]; exact ha

theorem not_new (h : Extends B ls S S') {t : Str} {a : BitVec 32} (ha : Address S t a) : ¬ New S S' t := by
  rintro ⟨h1, h2⟩
  rcases h t with e | ⟨_, d, hd, _⟩
  · exact h2 (e.trans h1)
  · rcases ha with ha | ⟨_, n, _, _, h4⟩
    · rw [h1] at ha; cases ha
    · exact global_no_number hd.2.1 h4

theorem value_up (h : Extends B ls S S') {k : Nat} {r : Lang.Range} {t : Str} {v : Int} (hv : Value (File.place ⟨ovf, B, S, ls⟩ k) r t v) :
    Value (File.place ⟨ovf, B, S', ls⟩ k) r t v := by
  cases hv with
  | num v h1 h2 h3 h4 => exact .num v h1 h2 h3 h4
  | hi m u a h1 h2 h3 h4 => exact .hi m u a h1 (address_up h h2) h3 h4
  | lo m u a h1 h2 h3 => exact .lo m u a h1 (address_up h h2) h3

theorem value_down (h : Extends B ls S S') {k : Nat} {r : Lang.Range} {t : Str} {v : Int} (hn : ∀ m, Group t m → ¬ New S S' (bare m))
    (hv : Value (File.place ⟨ovf, B, S', ls⟩ k) r t v) : Value (File.place ⟨ovf, B, S, ls⟩ k) r t v := by
  cases hv with
  | num v h1 h2 h3 h4 => exact .num v h1 h2 h3 h4
  | hi m u a h1 h2 h3 h4 => exact .hi m u a h1 (address_down h (hn m h1) h2) h3 h4
  | lo m u a h1 h2 h3 => exact .lo m u a h1 (address_down h (hn m h1) h2) h3

theorem reads_up (h : Extends B ls S S') {k : Nat} {x : Step} (hr : Lang.Reads (File.place ⟨ovf, B, S, ls⟩ k) x) :
    Lang.Reads (File.place ⟨ovf, B, S', ls⟩ k) x := by
  cases x with
  | gpr | fpr | c0 | shamt | name | fname | format | cond | short | base => exact hr
  | offset b s =>
    intro o ho
    rcases hr o ho with hh | ⟨v, hh⟩
    · exact .inl hh
    · exact .inr ⟨v, value_up h hh⟩
  | const r s =>
    rcases hr with hh | ⟨v, hh⟩
    · exact .inl hh
    · exact .inr ⟨v, value_up h hh⟩
  | number r s => exact ⟨hr.1, hr.2.imp fun v hv => value_up h hv⟩
  | code s => exact hr.imp id fun hh => ⟨hh.1, hh.2.imp fun v hv => value_up h hv⟩
  | word32 s => exact ⟨hr.1, hr.2.imp fun v hv => ⟨value_up h hv.1, hv.2⟩⟩
  | cop s => exact ⟨hr.1, hr.2.imp fun v hv => ⟨value_up h hv.1, hv.2⟩⟩
  | target s =>
    rcases hr with ⟨a, ha⟩ | ⟨h1, h2⟩
    · exact .inl ⟨a, address_up h ha⟩
    · cases hs : symbol S' (trim s) with
      | none => exact .inr ⟨hs, h2⟩
      | some a => exact .inl ⟨a, .inl hs⟩

theorem const_up (h : Extends B ls S S') {k : Nat} {r : Lang.Range} {t : Str} {v : Int} (hv : Lang.Const ⟨ovf, B, S, ls⟩ k r t v) :
    Lang.Const ⟨ovf, B, S', ls⟩ k r t v := by
  cases hv with
  | «local» d h1 h2 => exact .local d h1 h2
  | label d h1 h2 => exact .label d h1 h2
  | value _ h1 h2 h3 => exact .value v h1 h2 (value_up h h3)
  | place v h1 h2 => exact .place v h1 h2
  | half m _ h1 h2 h3 h4 => exact .half m v h1 h2 h3 (value_up h h4)

theorem yields_up (h : Extends B ls S S') {k : Nat} {x : Step} {vs : List Val} (hy : Yields ⟨ovf, B, S, ls⟩ k x vs) :
    Yields ⟨ovf, B, S', ls⟩ k x vs := by
  cases hy with
  | gpr b s r h1 => exact .gpr b s r h1
  | fpr s r h1 => exact .fpr s r h1
  | c0 s r h1 => exact .c0 s r h1
  | base b s m r h1 h2 => exact .base b s m r h1 h2
  | offset b s u v h1 h2 => exact .offset b s u v h1 (const_up h h2)
  | noOffset b s h1 => exact .noOffset b s h1
  | const r s v h1 => exact .const r s v (const_up h h1)
  | number r s v h1 => exact .number r s v (value_up h h1)
  | code s v h1 h2 => exact .code s v h1 (value_up h h2)
  | noCode => exact .noCode
  | word32 s v h1 => exact .word32 s v (value_up h h1)
  | cop s v h1 => exact .cop s v (value_up h h1)
  | shamt s v h1 => exact .shamt s v h1
  | target s a h1 => exact .target s a (address_up h h1)
  | label s d h1 h2 =>
    rcases h (trim s) with e | ⟨_, d', hd, e⟩
    · exact .label s d ⟨e.trans h1.1, h1.2⟩ h2
    · obtain rfl := Link.first_unique h2 hd
      exact .target s _ (.inl e)
  | name w => exact .name w
  | fname w => exact .fname w
  | format w => exact .format w
  | cond w => exact .cond w

theorem values_up (h : Extends B ls S S') {k : Nat} {st : List Step} {vs : List Val} (hy : Values ⟨ovf, B, S, ls⟩ k st vs) :
    Values ⟨ovf, B, S', ls⟩ k st vs := by
  induction hy with
  | nil => exact .nil
  | cons s sub a vs h1 _ ih => exact .cons s sub a vs (yields_up h h1) ih

theorem generates_up (h : Extends B ls S S') {k : Nat} {ws : List (BitVec 32)} (hg : Generates ⟨ovf, B, S, ls⟩ k ws) :
    Generates ⟨ovf, B, S', ls⟩ k ws := by
  induction hg with
  | none => exact .none
  | inst k raw ws out _ h1 h2 h3 ih =>
    obtain ⟨st, vs, g1, g2, g3⟩ := h3
    exact .inst k raw ws out ih h1 h2 ⟨st, vs, g1, values_up h g2, g3⟩
  | other k raw out _ h1 h2 ih => exact .other k raw out ih h1 h2

theorem taken_up (h : Extends B ls S S') {k : Nat} {raw : Str} (ht : LineTaken (File.place ⟨ovf, B, S, ls⟩ k) raw) :
    LineTaken (File.place ⟨ovf, B, S', ls⟩ k) raw := by
  unfold LineTaken at *
  cases hk : kind raw with
  | blank => trivial
  | label l => rw [hk] at ht; exact ht
  | code =>
    rw [hk] at ht
    obtain ⟨st, h1, h2⟩ := ht
    exact ⟨st, h1, fun s hs => reads_up h (h2 s hs)⟩

/-- the instructions of a file without refused lines -/
theorem instr_taken {f g : File} (ha : Lang.AllTaken f) {k : Nat} {st : List Step} (hi : Instr g k st) (hl : f.ls = g.ls) : Instr f k st := by
  obtain ⟨raw, h1, h2, h3, h4⟩ := hi
  rw [← hl] at h1
  have := ha k raw h1
  unfold LineTaken at this
  rw [h2] at this
  obtain ⟨st', e1, e2⟩ := this
  rw [h3] at e1; cases e1
  exact ⟨raw, h1, h2, h3, e2⟩

theorem counted_swap {f g : File} (ha : Lang.AllTaken f) (hb : Lang.AllTaken g) (hl : f.ls = g.ls) {k n : Nat} (hc : Counted g k n) : Counted f k n := by
  have hk : k ≤ f.ls.length := by
    rw [hl]
    cases hc with
    | none => exact Nat.zero_le _
    | inst k n st _ hi => obtain ⟨raw, h1, _⟩ := hi; exact (List.getElem?_eq_some_iff.1 h1).1
    | other k n _ hlt _ => exact hlt
  obtain ⟨n', hn'⟩ := Edit.Alike.counted_get f k hk
  rw [Edit.Alike.counted_all hb hc, ← hl, ← Edit.Alike.counted_all ha hn']
  exact hn'

/-- the half of an address that is read without the new symbols -/
theorem half_down (h : Extends B ls S S') {k : Nat} {r : Lang.Range} {t m : Str} {v v' : Int} (hg : Group t m)
    (hv : Value (File.place ⟨ovf, B, S, ls⟩ k) r t v') (hw : Value (File.place ⟨ovf, B, S', ls⟩ k) r t v) :
    Value (File.place ⟨ovf, B, S, ls⟩ k) r t v := by
  have key : ∀ m', Group t m' → ¬ New S S' (bare m') := by
    intro m' hm'
    cases hv with
    | num _ h1 => exact absurd hg (h1 m)
    | hi m2 u a h1 h2 => rw [group_one hm' h1]; exact not_new h h2
    | lo m2 u a h1 h2 => rw [group_one hm' h1]; exact not_new h h2
  exact value_down h key hw

theorem accepted_up (h : Extends B ls S S') (ha : Accepted ⟨ovf, B, S, ls⟩) : Accepted ⟨ovf, B, S', ls⟩ := by
  obtain ⟨a1, a2, a3, a4⟩ := ha
  have b1 : Lang.AllTaken ⟨ovf, B, S', ls⟩ := fun k raw hk => taken_up h (a1 k raw hk)
  have un : ∀ {t}, LabelName S' t → LabelName S t := fun hn => ⟨extends_none h hn.1, hn.2⟩
  refine ⟨b1, ?_, ?_, ?_⟩
  · rintro ⟨h0, k, st, t, hi, hx⟩
    refine a2 ⟨h0, k, st, t, instr_taken a1 hi rfl, ?_⟩
    rcases hx with ⟨x1, x2, n, x3, x4⟩ | ⟨x1, x2, d, n, x3, x4, x5⟩
    · exact .inl ⟨x1, x2, n, counted_swap a1 b1 rfl x3, x4⟩
    · exact .inr ⟨x1, un x2, d, n, x3, counted_swap a1 b1 rfl x4, x5⟩
  · rintro ⟨k, st, t, hi, hx⟩
    refine a3 ⟨k, st, t, instr_taken a1 hi rfl, ?_⟩
    rcases hx with hx | ⟨x1, x2, x3⟩ | hx
    · exact .inl hx
    · exact .inr (.inl ⟨x1, un x2, x3⟩)
    · exact .inr (.inr hx)
  · rintro ⟨k, raw, hk, hc, hx⟩
    refine a4 ⟨k, raw, hk, hc, ?_⟩
    rcases hx with hx | ⟨x1, x2, st, t, v, x3, x4, x5, x6⟩
    · exact .inl hx
    · have hi := instr_taken (f := ⟨ovf, B, S, ls⟩) a1 x3 rfl
      refine .inr ⟨x1, x2, st, t, v, hi, x4, ?_, x6⟩
      cases x5 with
      | «local» d y1 y2 => exact .local d y1 y2
      | label d y1 y2 => exact .label d y1 y2
      | number v y1 => exact .number v y1
      | half m v y1 y2 y3 =>
        obtain ⟨_, _, _, _, hr⟩ := hi
        rcases hr _ x4 with hr | ⟨v', hr⟩
        · exact absurd hr y1
        · exact .half m v y1 y2 (half_down h y2 hr y3)

theorem accepted_down (h : Extends B ls S S') (hj : JumpsOnly ls S S') (hr : ovf = true → B.toNat + 4 * codeCount ls < 2 ^ 32)
    (ha : Accepted ⟨ovf, B, S', ls⟩) : Accepted ⟨ovf, B, S, ls⟩ := by
  obtain ⟨a1, a2, a3, a4⟩ := ha
  have lab : ∀ {t}, New S S' t → LabelName S t ∧ ∃ d, FirstDef ls d t := by
    intro t ht
    rcases h t with e | ⟨_, d, hd, _⟩
    · exact absurd (e.trans ht.1) ht.2
    · obtain ⟨c, u, rfl, hn⟩ := hd.2.1.2
      have hc := hj.ascii c u ht
      exact ⟨⟨ht.1, c, u, rfl, hc, by rw [← Unicode.isNumeric_ascii c hc]; exact hn⟩, d, hd⟩
  have b1 : Lang.AllTaken ⟨ovf, B, S, ls⟩ := by
    intro k raw hk
    have := a1 k raw hk
    unfold LineTaken at *
    cases hkd : kind raw with
    | blank => trivial
    | label l => rw [hkd] at this; exact this
    | code =>
      rw [hkd] at this
      obtain ⟨st, h1, h2⟩ := this
      refine ⟨st, h1, fun x hx => ?_⟩
      have hm : ∀ t m, Mentioned st t → Group t m → ¬ New S S' (bare m) := fun t m => hj.halves raw (List.mem_of_getElem? hk) st t m h1
      have vd : ∀ {r t v}, Mentioned st t → Value (File.place ⟨ovf, B, S', ls⟩ k) r t v → Value (File.place ⟨ovf, B, S, ls⟩ k) r t v :=
        fun ht hv => value_down h (fun m hg => hm _ m ht hg) hv
      have hr := h2 x hx
      cases x with
      | gpr | fpr | c0 | shamt | name | fname | format | cond | short | base => exact hr
      | offset b s =>
        intro o ho
        rcases hr o ho with hh | ⟨v, hh⟩
        · exact .inl hh
        · exact .inr ⟨v, vd (.inl (.inr ⟨b, s, o, hx, ho, rfl⟩)) hh⟩
      | const r s =>
        rcases hr with hh | ⟨v, hh⟩
        · exact .inl hh
        · exact .inr ⟨v, vd (.inl (.inl ⟨r, hx⟩)) hh⟩
      | number r s => exact ⟨hr.1, hr.2.imp fun v hv => vd (.inr (.inl ⟨r, hx⟩)) hv⟩
      | code s => exact hr.imp id fun hh => ⟨hh.1, hh.2.imp fun v hv => vd (.inr (.inr (.inl hx))) hv⟩
      | word32 s => exact ⟨hr.1, hr.2.imp fun v hv => ⟨vd (.inr (.inr (.inr (.inl hx)))) hv.1, hv.2⟩⟩
      | cop s => exact ⟨hr.1, hr.2.imp fun v hv => ⟨vd (.inr (.inr (.inr (.inr hx)))) hv.1, hv.2⟩⟩
      | target s =>
        by_cases hn : New S S' (trim s)
        · exact .inr (lab hn).1
        · rcases hr with ⟨a, ha⟩ | ⟨k1, k2⟩
          · exact .inl ⟨a, address_down h hn ha⟩
          · exact .inr ⟨extends_none h k1, k2⟩
  refine ⟨b1, ?_, ?_, ?_⟩
  · intro ho
    exact Link.not_overflows (hr ho.1) ho
  · rintro ⟨k, st, t, hi, hx⟩
    refine a3 ⟨k, st, t, instr_taken a1 hi rfl, ?_⟩
    rcases hx with hx | ⟨x1, x2, x3⟩ | hx
    · exact .inl hx
    · refine .inr (.inl ⟨x1, ⟨?_, x2.2⟩, x3⟩)
      rcases h (trim t) with e | ⟨_, d, hd, _⟩
      · exact e.trans x2.1
      · exact absurd hd (x3 d)
    · exact .inr (.inr hx)
  · rintro ⟨k, raw, hk, hc, hx⟩
    refine a4 ⟨k, raw, hk, hc, ?_⟩
    rcases hx with hx | ⟨x1, x2, st, t, v, x3, x4, x5, x6⟩
    · exact .inl hx
    · refine .inr ⟨x1, x2, st, t, v, instr_taken a1 x3 rfl, x4, ?_, x6⟩
      cases x5 with
      | «local» d y1 y2 => exact .local d y1 y2
      | label d y1 y2 => exact .label d y1 y2
      | number v y1 => exact .number v y1
      | half m v y1 y2 y3 => exact .half m v y1 y2 (value_up h y3)

end
end Mips.Export
