/- The same instruction in two places. -/
import Verif.Spec.Context
import Verif.Lemmas.EditL

namespace Mips.Context
open Mips.Isa hiding conds
open Mips.Names hiding none
open Mips.Syntax Mips.Source Mips.Branch Mips.Operands
open Mips.Lang

section
variable [Unicode] {f g : File} {k k' : Nat}

theorem const_of_points {r : Lang.Range} {t : Str} {v : Int} (h : Points f k t v) :
    Lang.Const f k r t (if r = wide then v % 65536 else v) := by
  cases h with
  | «local» d h1 h2 => exact .local d h1 h2
  | label d h1 h2 => exact .label d h1 h2

/-- the first definition -/
theorem first_le {ls : List Str} {l : Str} (hg : Global l) : ∀ (d : Nat), Defines ls d l → ∃ d0 ≤ d, FirstDef ls d0 l := by
  intro d
  induction d using Nat.strongRecOn with
  | ind d ih =>
    intro hd
    by_cases h : ∃ d' < d, Defines ls d' l
    · obtain ⟨d', h1, h2⟩ := h
      obtain ⟨d0, h3, h4⟩ := ih d' h1 h2
      exact ⟨d0, by omega, h4⟩
    · exact ⟨d, Nat.le_refl _, hd, hg, fun d' h1 h2 => h ⟨d', h1, h2⟩⟩

theorem refers_of_points {t : Str} {v : Int} (h : Points f k t v) : RefersTo (f.place k) t := by
  cases h with
  | «local» d h1 h2 => exact .inl h1
  | label d h1 h2 => exact .inr ⟨h2.2.1, d, h1, h2.1⟩

theorem points_of_refers {t : Str} (h : RefersTo (f.place k) t) : isLocal (trim t) = true ∨ ∃ v, Points f k t v := by
  rcases h with h | ⟨h1, d, h2, h3⟩
  · exact .inl h
  · obtain ⟨d0, h4, h5⟩ := first_le h1 d h3
    exact .inr ⟨_, .label d0 (by have : d < k := h2; omega) h5⟩

theorem refers_congr {t : Str} (h : ∀ v, Points f k t v ↔ Points g k' t v) : RefersTo (f.place k) t ↔ RefersTo (g.place k') t := by
  constructor
  · intro hr
    rcases points_of_refers hr with hl | ⟨v, hv⟩
    · exact .inl hl
    · exact refers_of_points ((h v).1 hv)
  · intro hr
    rcases points_of_refers hr with hl | ⟨v, hv⟩
    · exact .inl hl
    · exact refers_of_points ((h v).2 hv)

theorem value_congr (ho : f.ovf = g.ovf) (hs : f.syms = g.syms) {r : Lang.Range} {s : Str} {v : Int} :
    Value (f.place k) r s v ↔ Value (g.place k') r s v :=
  ⟨Rename.value_place ho hs, Rename.value_place ho.symm hs.symm⟩

theorem const_congr (ho : f.ovf = g.ovf) (hs : f.syms = g.syms) {r : Lang.Range} {t : Str} {v : Int}
    (hp : ∀ v, Points f k t v ↔ Points g k' t v)
    (hc : ∀ v, r = addr → Number (f.place k) t v → codeCount (f.ls.take k) = codeCount (g.ls.take k'))
    (hv : Lang.Const f k r t v) : Lang.Const g k' r t v := by
  have hr := refers_congr hp
  cases hv with
  | «local» d h1 h2 => exact const_of_points ((hp _).1 (.local d h1 h2))
  | label d h1 h2 => exact const_of_points ((hp _).1 (.label d h1 h2))
  | value _ h1 h2 h3 => exact .value v h1 (fun x => h2 (hr.2 x)) ((value_congr ho hs).1 h3)
  | place v h1 h2 =>
    rw [hc v h1 h2]
    exact .place v h1 ⟨fun x => h2.1 (hr.2 x), h2.2⟩
  | half m _ h1 h2 h3 h4 => exact .half m v h1 (fun x => h2 (hr.2 x)) h3 ((value_congr ho hs).1 h4)

theorem values_congr (ho : f.ovf = g.ovf) (hs : f.syms = g.syms) {st : List Step} {vs : List Val} (hy : Values f k st vs) :
    SameView f k g k' st → Values g k' st vs := by
  induction hy with
  | nil => intro _; exact .nil
  | cons x sub a vs h1 _ ih =>
    intro hw
    have hsub : SameView f k g k' sub := by
      refine ⟨fun t ht => hw.near t ?_, fun t ht => hw.far t (.tail _ ht), fun t v ht => hw.count t v (.tail _ ht)⟩
      rcases ht with ⟨r, ht⟩ | ⟨b, s, o, h1, h2, h3⟩
      · exact .inl ⟨r, .tail _ ht⟩
      · exact .inr ⟨b, s, o, .tail _ h1, h2, h3⟩
    refine .cons x sub a vs ?_ (ih hsub)
    have val := fun {r s v} => value_congr (k := k) (k' := k') ho hs (r := r) (s := s) (v := v)
    cases h1 with
    | gpr b s r h1 => exact .gpr b s r h1
    | fpr s r h1 => exact .fpr s r h1
    | c0 s r h1 => exact .c0 s r h1
    | base b s m r h1 h2 => exact .base b s m r h1 h2
    | offset b s u v h1 h2 =>
      refine .offset b s u v h1 (const_congr ho hs (hw.near _ (.inr ⟨b, s, u, .head _, h1, rfl⟩)) ?_ h2)
      intro v hr; exact absurd hr (by decide)
    | noOffset b s h1 => exact .noOffset b s h1
    | const r s v h1 =>
      refine .const r s v (const_congr ho hs (hw.near _ (.inl ⟨r, .head _⟩)) ?_ h1)
      rintro v rfl hn; exact hw.count s v (.head _) hn
    | number r s v h1 => exact .number r s v (val.1 h1)
    | code s v h1 h2 => exact .code s v h1 (val.1 h2)
    | noCode => exact .noCode
    | word32 s v h1 => exact .word32 s v (val.1 h1)
    | cop s v h1 => exact .cop s v (val.1 h1)
    | shamt s v h1 => exact .shamt s v h1
    | target s a h1 => exact .target s a (hs ▸ h1)
    | label s d h1 h2 =>
      obtain ⟨l1, d', l2, l3⟩ := (hw.far s (.head _) _).1 ⟨h1, d, h2, rfl⟩
      rw [l3]
      exact .label s d' l1 l2
    | name w => exact .name w
    | fname w => exact .fname w
    | format w => exact .format w
    | cond w => exact .cond w

theorem lineWords_congr (ho : f.ovf = g.ovf) (hs : f.syms = g.syms) {raw : Str} {ws : List (BitVec 32)}
    (hw : ∀ st, plan (body raw) = some st → SameView f k g k' st) (h : LineWords f k raw ws) : LineWords g k' raw ws := by
  obtain ⟨st, vs, h1, h2, h3⟩ := h
  exact ⟨st, vs, h1, values_congr ho hs h2 (hw st h1), h3⟩

/-- what is free of its context sees the same everywhere -/
theorem free_view {st : List Step} (hf : Free f k st) (hg : Free g k' st) : SameView f k g k' st := by
  refine ⟨fun t ht v => ?_, fun t ht a => ?_, fun t v ht hn => absurd hn (hf.2.2 t v ht)⟩
  · exact ⟨fun h => absurd (refers_of_points h) (hf.1 t (.inl ht)), fun h => absurd (refers_of_points h) (hg.1 t (.inl ht))⟩
  · exact ⟨fun h => absurd h.1 (hf.2.1 t ht), fun h => absurd h.1 (hg.2.1 t ht)⟩

/-! ### Complaints -/

theorem SameRefs.tail {x : Step} {st : List Step} (h : SameRefs f k g k' (x :: st)) : SameRefs f k g k' st := by
  intro t ht
  apply h t
  rcases ht with (⟨r, ht⟩ | ⟨b, s, o, h1, h2, h3⟩) | ⟨r, ht⟩ | ht | ht | ht
  · exact .inl (.inl ⟨r, .tail _ ht⟩)
  · exact .inl (.inr ⟨b, s, o, .tail _ h1, h2, h3⟩)
  · exact .inr (.inl ⟨r, .tail _ ht⟩)
  · exact .inr (.inr (.inl (.tail _ ht)))
  · exact .inr (.inr (.inr (.inl (.tail _ ht))))
  · exact .inr (.inr (.inr (.inr (.tail _ ht))))

theorem breaks_congr (ho : f.ovf = g.ovf) (hs : f.syms = g.syms) {s : Str} : Breaks (f.place k) s ↔ Breaks (g.place k') s := by
  have e1 : (f.place k).syms = (g.place k').syms := hs
  have e2 : (f.place k).ovf = (g.place k').ovf := ho
  unfold Breaks
  rw [e1, e2]

theorem reads_congr (ho : f.ovf = g.ovf) (hs : f.syms = g.syms) {x : Step} {st : List Step} (h : SameRefs f k g k' (x :: st)) :
    Lang.Reads (f.place k) x ↔ Lang.Reads (g.place k') x := by
  have val := fun {r s v} => value_congr (k := k) (k' := k') ho hs (r := r) (s := s) (v := v)
  cases x with
  | gpr | fpr | c0 | shamt | name | fname | format | cond | short | base => exact Iff.rfl
  | offset b s =>
    have ref := fun o (hO : Offset s o) => h _ (.inl (.inr ⟨b, s, o, .head _, hO, rfl⟩))
    simp only [Lang.Reads, val]
    exact forall_congr' fun o => forall_congr' fun hO => or_congr (ref o hO) Iff.rfl
  | const r s =>
    have ref := h s (.inl (.inl ⟨r, .head _⟩))
    simp only [Lang.Reads, ref, val]
  | number r s =>
    have ref := h s (.inr (.inl ⟨r, .head _⟩))
    simp only [Lang.Reads, ref, val]
  | code s =>
    have ref := h s (.inr (.inr (.inl (.head _))))
    simp only [Lang.Reads, ref, val]
  | word32 s =>
    have ref := h s (.inr (.inr (.inr (.inl (.head _)))))
    simp only [Lang.Reads, ref, val]
  | cop s =>
    have ref := h s (.inr (.inr (.inr (.inr (.head _)))))
    simp only [Lang.Reads, ref, val]
  | target s =>
    show ((∃ a, Address f.syms (trim s) a) ∨ LabelName f.syms (trim s)) ↔ ((∃ a, Address g.syms (trim s) a) ∨ LabelName g.syms (trim s))
    rw [hs]

theorem crashes_congr (ho : f.ovf = g.ovf) (hs : f.syms = g.syms) {x : Step} {st : List Step} (h : SameRefs f k g k' (x :: st)) :
    Crashes (f.place k) x ↔ Crashes (g.place k') x := by
  have val := fun {r s v} => value_congr (k := k) (k' := k') ho hs (r := r) (s := s) (v := v)
  have br := fun {s} => breaks_congr (k := k) (k' := k') ho hs (s := s)
  cases x with
  | gpr | fpr | c0 | shamt | name | fname | format | cond | short | base => exact Iff.rfl
  | offset b s =>
    have ref := fun o (hO : Offset s o) => h _ (.inl (.inr ⟨b, s, o, .head _, hO, rfl⟩))
    simp only [Crashes, br]
    exact exists_congr fun o => and_congr_right fun hO => and_congr (not_congr (ref o hO)) Iff.rfl
  | const r s =>
    have ref := h s (.inl (.inl ⟨r, .head _⟩))
    simp only [Crashes, ref, br]
  | number r s =>
    have ref := h s (.inr (.inl ⟨r, .head _⟩))
    simp only [Crashes, ref, br]
  | code s =>
    have ref := h s (.inr (.inr (.inl (.head _))))
    simp only [Crashes, ref, br]
  | word32 s =>
    have ref := h s (.inr (.inr (.inr (.inl (.head _)))))
    simp only [Crashes, ref, br]
  | cop s =>
    have ref := h s (.inr (.inr (.inr (.inr (.head _)))))
    simp only [Crashes, ref, br, val]
  | target s =>
    show Nothing f.syms (trim s) ↔ Nothing g.syms (trim s)
    rw [hs]

theorem constError_moved {l : Line} {n : Nat} {s : Str} {e : ParserError} (h : ConstError l s e) : ConstError ⟨n, l.content⟩ s (moved n e) := by
  cases h with
  | number h => exact .number h
  | address m h => exact .address m h

theorem complains_moved (ho : f.ovf = g.ovf) (hs : f.syms = g.syms) {l : Line} {n : Nat} {x : Step} {e : ParserError}
    (h : Complains (f.place k) l x e) : Complains (g.place k') ⟨n, l.content⟩ x (moved n e) := by
  have val := fun {r s v} => value_congr (k := k) (k' := k') ho hs (r := r) (s := s) (v := v)
  cases x with
  | gpr b s => obtain ⟨q, h1, rfl⟩ := h; exact ⟨q, h1, rfl⟩
  | fpr s => obtain ⟨q, h1, rfl⟩ := h; exact ⟨q, h1, rfl⟩
  | c0 s => obtain ⟨q, h1, rfl⟩ := h; exact ⟨q, h1, rfl⟩
  | base b s => obtain ⟨m, q, h1, h2, rfl⟩ := h; exact ⟨m, q, h1, h2, rfl⟩
  | offset b s => obtain ⟨o, h1, h2⟩ := h; exact ⟨o, h1, constError_moved h2⟩
  | const r s => exact constError_moved (show ConstError l s e from h)
  | number r s => exact constError_moved (show ConstError l s e from h)
  | code s => exact constError_moved (show ConstError l s e from h)
  | cop s => exact constError_moved (show ConstError l s e from h)
  | word32 s =>
    rcases h with ⟨⟨v, h1⟩, rfl⟩ | ⟨h1, h2⟩
    · exact .inl ⟨⟨v, val.1 h1⟩, rfl⟩
    · exact .inr ⟨fun v hv => h1 v (val.2 hv), constError_moved h2⟩
  | target s => cases (show e = _ from h); exact rfl
  | cond w => obtain ⟨c, h1, rfl⟩ := h; exact ⟨c, h1, rfl⟩
  | shamt | name | fname | format | short => exact h.elim

theorem fails_moved (ho : f.ovf = g.ovf) (hs : f.syms = g.syms) {l : Line} {n : Nat} {e : ParserError} :
    ∀ {st : List Step}, SameRefs f k g k' st → Fails (f.place k) l st e → Fails (g.place k') ⟨n, l.content⟩ st (moved n e)
  | [], _, h => h
  | x :: st, hr, h => by
    rcases h with ⟨h1, h2, h3⟩ | ⟨h1, h2⟩
    · exact .inl ⟨fun y => h1 ((reads_congr ho hs hr).2 y), fun y => h2 ((crashes_congr ho hs hr).2 y), complains_moved ho hs h3⟩
    · exact .inr ⟨(reads_congr ho hs hr).1 h1, fails_moved ho hs hr.tail h2⟩

theorem refusal_moved (l : Line) (n : Nat) (s : Str) : moved n (refusal l s) = refusal ⟨n, l.content⟩ s := by
  unfold refusal
  dsimp only
  repeat' split
  all_goals rfl

theorem lineError_moved (ho : f.ovf = g.ovf) (hs : f.syms = g.syms) {raw : Str} (hc : kind raw = .code) {e : ParserError}
    (hr : ∀ st, plan (body raw) = some st → SameRefs f k g k' st) (h : LineError f k raw e) : LineError g k' raw (moved (k' + 1) e) := by
  unfold LineError at *
  rw [hc] at *
  dsimp only at *
  rcases h with ⟨h1, rfl⟩ | ⟨st, h1, h2⟩
  · exact .inl ⟨h1, refusal_moved _ _ _⟩
  · exact .inr ⟨st, h1, fails_moved ho hs (hr st h1) h2⟩

theorem moved_moved (a b : Nat) (e : ParserError) : moved a (moved b e) = moved a e := by cases e <;> rfl
theorem moved_self (e : ParserError) : moved e.line.num e = e := by cases e <;> rfl

theorem lineTaken_congr (ho : f.ovf = g.ovf) (hs : f.syms = g.syms) {raw : Str} (hc : kind raw = .code)
    (hr : ∀ st, plan (body raw) = some st → SameRefs f k g k' st) (h : LineTaken (f.place k) raw) : LineTaken (g.place k') raw := by
  unfold LineTaken at *
  rw [hc] at *
  obtain ⟨st, h1, h2⟩ := h
  refine ⟨st, h1, ?_⟩
  have := hr st h1
  clear h1 hr
  induction st with
  | nil => intro s hs; cases hs
  | cons x st ih =>
    intro s hs'
    rcases List.mem_cons.1 hs' with rfl | hs'
    · exact (reads_congr ho hs this).1 (h2 s (.head _))
    · exact ih (fun s hs => h2 s (.tail _ hs)) this.tail s hs'

end
end Mips.Context
