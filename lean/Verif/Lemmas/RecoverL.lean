/- Blanked lines. -/
import Verif.Spec.Recover
import Verif.Spec.Errors
import Verif.Spec.Warnings
import Verif.Lemmas.ContextL
import Verif.Lemmas.LangL14
import Verif.Lemmas.FreshL

namespace Mips.Recover
open Mips.Isa hiding conds
open Mips.Names hiding none
open Mips.Syntax Mips.Source Mips.Branch Mips.Operands
open Mips.Lang Mips.Context

/-- `f'` is the file `f` with refused lines blanked. -/
structure Cut [Unicode] (S : Nat → Bool) (f f' : File) : Prop where
  ovf : f.ovf = f'.ovf
  base : f.base = f'.base
  syms : f.syms = f'.syms
  ls : Blanked S f.ls f'.ls
  refused : ∀ k raw, f.ls[k]? = some raw → S k = true → ¬ LineTaken (f.place k) raw

section
variable [Unicode] {S : Nat → Bool} {f f' g : File}

theorem Cut.keep (h : Cut S f f') {k : Nat} {raw : Str} (hs : S k = false) (hk : f.ls[k]? = some raw) : f'.ls[k]? = some raw := by
  have := h.ls.2 k raw hk; rw [hs] at this; exact this

theorem Cut.back (h : Cut S f f') {k : Nat} {raw : Str} (hk : f'.ls[k]? = some raw) :
    (S k = false ∧ f.ls[k]? = some raw) ∨ (S k = true ∧ raw = []) := by
  have hl : k < f.ls.length := by rw [← h.ls.1]; exact (List.getElem?_eq_some_iff.1 hk).1
  have e := List.getElem?_eq_getElem hl
  have := h.ls.2 k _ e
  rw [hk] at this
  cases hs : S k with
  | false => rw [hs] at this; exact .inl ⟨rfl, by rw [e]; exact this.symm⟩
  | true => rw [hs] at this; exact .inr ⟨rfl, by simpa using this⟩

theorem Cut.def (h : Cut S f f') {d : Nat} {l : Str} : Defines f'.ls d l ↔ Defines f.ls d l ∧ S d = false := by
  constructor
  · rintro ⟨raw, h1, h2⟩
    rcases h.back h1 with ⟨k1, k2⟩ | ⟨_, rfl⟩
    · exact ⟨⟨raw, k2, h2⟩, k1⟩
    · rw [Fresh.kind_nil] at h2; cases h2
  · rintro ⟨⟨raw, h1, h2⟩, h3⟩
    exact ⟨raw, h.keep h3 h1, h2⟩

/-- the first definition of a label is not refused -/
theorem Cut.first_kept (h : Cut S f f') {d : Nat} {l : Str} (hf : FirstDef f.ls d l) : S d = false := by
  obtain ⟨⟨raw, h1, h2⟩, h3, h4⟩ := hf
  cases hs : S d with
  | false => rfl
  | true =>
    refine absurd ?_ (h.refused d raw h1 hs)
    unfold LineTaken
    rw [h2]
    exact ⟨h3.2, fun _ d' hd => h4 d' hd⟩

theorem Cut.above (h : Cut S f f') {k : Nat} {l : Str} (hg : Global l) : (∃ d < k, Defines f.ls d l) ↔ ∃ d < k, Defines f'.ls d l := by
  constructor
  · rintro ⟨d, h1, h2⟩
    obtain ⟨d0, h3, h4⟩ := first_le hg d h2
    exact ⟨d0, by omega, h.def.2 ⟨h4.1, h.first_kept h4⟩⟩
  · rintro ⟨d, h1, h2⟩
    exact ⟨d, h1, (h.def.1 h2).1⟩

theorem Cut.first (h : Cut S f f') {d : Nat} {l : Str} : FirstDef f.ls d l ↔ FirstDef f'.ls d l := by
  constructor
  · intro hf
    exact ⟨h.def.2 ⟨hf.1, h.first_kept hf⟩, hf.2.1, fun d' h1 h2 => hf.2.2 d' h1 (h.def.1 h2).1⟩
  · intro hf
    refine ⟨(h.def.1 hf.1).1, hf.2.1, fun d' h1 h2 => ?_⟩
    obtain ⟨d0, h3, h4⟩ := (h.above hf.2.1).1 ⟨d', h1, h2⟩
    exact hf.2.2 d0 h3 h4

theorem Cut.refers (h : Cut S f f') {k : Nat} {t : Str} : RefersTo (f.place k) t ↔ RefersTo (f'.place k) t := by
  unfold RefersTo
  constructor
  · rintro (h1 | ⟨h1, h2⟩)
    · exact .inl h1
    · exact .inr ⟨h1, (h.above h1).1 h2⟩
  · rintro (h1 | ⟨h1, h2⟩)
    · exact .inl h1
    · exact .inr ⟨h1, (h.above h1).2 h2⟩

theorem Cut.sameRefs (h : Cut S f f') (k : Nat) (st : List Step) : SameRefs f k f' k st := fun _ _ => h.refers
theorem Cut.sameRefs' (h : Cut S f f') (k : Nat) (st : List Step) : SameRefs f' k f k st := fun _ _ => h.refers.symm

theorem Cut.taken (h : Cut S f f') {k : Nat} {raw : Str} : LineTaken (f.place k) raw ↔ LineTaken (f'.place k) raw := by
  cases hk : kind raw with
  | blank => unfold LineTaken; rw [hk]
  | code =>
    exact ⟨lineTaken_congr h.ovf h.syms hk fun st _ => h.sameRefs k st, lineTaken_congr h.ovf.symm h.syms.symm hk fun st _ => h.sameRefs' k st⟩
  | label l =>
    unfold LineTaken; rw [hk]
    have key : (∃ c t, l = c :: t ∧ Unicode.isNumeric c = false) → isLocal l = false →
        ((∀ d < k, ¬ Defines f.ls d l) ↔ ∀ d < k, ¬ Defines f'.ls d l) := fun h1 h2 =>
      ⟨fun h3 d h4 h5 => by obtain ⟨d', h6, h7⟩ := (h.above ⟨h2, h1⟩).2 ⟨d, h4, h5⟩; exact h3 d' h6 h7,
       fun h3 d h4 h5 => by obtain ⟨d', h6, h7⟩ := (h.above ⟨h2, h1⟩).1 ⟨d, h4, h5⟩; exact h3 d' h6 h7⟩
    exact ⟨fun ⟨h1, h2⟩ => ⟨h1, fun h3 => (key h1 h3).1 (h2 h3)⟩, fun ⟨h1, h2⟩ => ⟨h1, fun h3 => (key h1 h3).2 (h2 h3)⟩⟩

theorem instr_taken {k : Nat} {raw : Str} {st : List Step} (hk : f.ls[k]? = some raw) (h : Instr f k st) : kind raw = .code ∧ LineTaken (f.place k) raw := by
  obtain ⟨r, h1, h2, h3, h4⟩ := h
  rw [hk] at h1; cases h1
  exact ⟨h2, by unfold LineTaken; rw [h2]; exact ⟨st, h3, h4⟩⟩

theorem reads_all (h : Cut S f f') {k : Nat} {st : List Step} : (∀ s ∈ st, Lang.Reads (f.place k) s) ↔ ∀ s ∈ st, Lang.Reads (f'.place k) s := by
  have : ∀ s, Lang.Reads (f.place k) s ↔ Lang.Reads (f'.place k) s := fun s => Context.reads_congr h.ovf h.syms (st := []) (h.sameRefs k [s])
  simp only [this]

theorem Cut.instr (h : Cut S f f') {k : Nat} {st : List Step} : Instr f k st ↔ Instr f' k st := by
  constructor
  · intro hi
    obtain ⟨raw, h1, h2, h3, h4⟩ := hi
    have hs : S k = false := by
      cases hs : S k with
      | false => rfl
      | true => exact absurd (instr_taken h1 ⟨raw, h1, h2, h3, h4⟩).2 (h.refused k raw h1 hs)
    exact ⟨raw, h.keep hs h1, h2, h3, (reads_all h).1 h4⟩
  · rintro ⟨raw, h1, h2, h3, h4⟩
    rcases h.back h1 with ⟨k1, k2⟩ | ⟨_, rfl⟩
    · exact ⟨raw, k2, h2, h3, (reads_all h).2 h4⟩
    · rw [Fresh.kind_nil] at h2; cases h2

theorem Cut.counted (h : Cut S f f') {k n : Nat} (hc : Counted f k n) : Counted f' k n := by
  induction hc with
  | none => exact .none
  | inst k n st _ hi ih => exact .inst k n st ih (h.instr.1 hi)
  | other k n _ hk hi ih => exact .other k n ih (by rw [h.ls.1]; exact hk) fun st hs => hi st (h.instr.2 hs)

theorem Cut.counted' (h : Cut S f f') {k n : Nat} (hc : Counted f' k n) : Counted f k n := by
  induction hc with
  | none => exact .none
  | inst k n st _ hi ih => exact .inst k n st ih (h.instr.2 hi)
  | other k n _ hk hi ih => exact .other k n ih (by rw [← h.ls.1]; exact hk) fun st hs => hi st (h.instr.1 hs)

theorem Cut.cleaned (h : Cut S f f') (hg : Cleaned f g) : Cleaned f' g := by
  obtain ⟨a1, a2, a3, a4, a5⟩ := hg
  refine ⟨a1.trans h.ovf, a2.trans h.base, a3.trans h.syms, a4.trans h.ls.1.symm, fun k raw hk => ?_⟩
  rcases h.back hk with ⟨k1, k2⟩ | ⟨k1, rfl⟩
  · rw [← h.taken]; exact a5 k raw k2
  · have hl : k < f.ls.length := by rw [← h.ls.1]; exact (List.getElem?_eq_some_iff.1 hk).1
    have e := List.getElem?_eq_getElem hl
    refine .inl ⟨by unfold LineTaken; rw [Fresh.kind_nil]; trivial, ?_⟩
    rcases a5 k _ e with ⟨b1, _⟩ | ⟨_, b2⟩
    · exact absurd b1 (h.refused k _ e k1)
    · exact b2

theorem Cut.overflows (h : Cut S f f') : Overflows f' → Overflows f := by
  rintro ⟨h1, k, st, t, hi, hx⟩
  have room : ∀ n, NoRoom f' n → NoRoom f n := fun n hn => by unfold NoRoom at *; rw [h.base]; exact hn
  refine ⟨h.ovf.trans h1, k, st, t, h.instr.2 hi, ?_⟩
  rcases hx with ⟨h2, ⟨v, h3⟩, n, h4, h5⟩ | ⟨h2, h3, d, n, h4, h5, h6⟩
  · exact .inl ⟨h2, ⟨v, fun y => h3.1 (h.refers.1 y), h3.2⟩, n, h.counted' (by rw [← h.ls.1]; exact h4), room n h5⟩
  · exact .inr ⟨h2, by rw [h.syms]; exact h3, d, n, h.first.2 h4, h.counted' h5, room n h6⟩

theorem Cut.crashes (h : Cut S f f') {k : Nat} {st : List Step} (hs : Stops (f'.place k) st) : Stops (f.place k) st := by
  induction st with
  | nil => exact hs
  | cons x st ih =>
    rcases hs with hs | ⟨h1, h2⟩
    · exact .inl ((crashes_congr h.ovf h.syms (h.sameRefs k (x :: st))).2 hs)
    · exact .inr ⟨(Context.reads_congr h.ovf h.syms (h.sameRefs k (x :: st))).2 h1, ih h2⟩

theorem Cut.lineEnds (h : Cut S f f') : LineEnds f' → LineEnds f := by
  rintro ⟨k, raw, h1, h2⟩
  rcases h.back h1 with ⟨k1, k2⟩ | ⟨_, rfl⟩
  · refine ⟨k, raw, k2, ?_⟩
    unfold LineCrashes at *
    cases hk : kind raw with
    | blank => rw [hk] at h2; exact h2
    | label l => rw [hk] at h2; exact h2
    | code =>
      rw [hk] at h2
      obtain ⟨st, h3, h4⟩ := h2
      exact ⟨st, h3, h.crashes h4⟩
  · unfold LineCrashes at h2; rw [Fresh.kind_nil] at h2; cases h2

/-! ### Errors -/

theorem requote_same {e : ParserError} (h1 : ∀ l x d, e ≠ .multipleLabelDefinition l x d) (h2 : ∀ l x a b, e ≠ .branchOutOfBounds l x a b) :
    requote S e = e := by
  cases e with
  | multipleLabelDefinition l x d => exact absurd rfl (h1 l x d)
  | branchOutOfBounds l x a b => exact absurd rfl (h2 l x a b)
  | _ => rfl

theorem Cut.quoted (h : Cut S f f') {k : Nat} {raw : Str} (hk : f.ls[k]? = some raw) : f'.ls[k]? = some (if S k then [] else raw) := h.ls.2 k raw hk

theorem constError_quotes {l : Line} {s : Str} {e : ParserError} (h : ConstError l s e) : requote S e = e ∧ e.line = l ∧ e.isRef = false := by
  cases h <;> exact ⟨rfl, rfl, rfl⟩

theorem fails_quotes {p : Place} {l : Line} {e : ParserError} : ∀ {st : List Step}, Fails p l st e → requote S e = e ∧ e.line = l ∧ e.isRef = false
  | [], h => h.elim
  | x :: st, h => by
    rcases h with ⟨_, _, h⟩ | ⟨_, h⟩
    · cases x with
      | gpr b s => obtain ⟨q, _, rfl⟩ := h; exact ⟨rfl, rfl, rfl⟩
      | fpr s => obtain ⟨q, _, rfl⟩ := h; exact ⟨rfl, rfl, rfl⟩
      | c0 s => obtain ⟨q, _, rfl⟩ := h; exact ⟨rfl, rfl, rfl⟩
      | base b s => obtain ⟨m, q, _, _, rfl⟩ := h; exact ⟨rfl, rfl, rfl⟩
      | offset b s => obtain ⟨o, _, h⟩ := h; exact constError_quotes h
      | const r s => exact constError_quotes (show ConstError l s e from h)
      | number r s => exact constError_quotes (show ConstError l s e from h)
      | code s => exact constError_quotes (show ConstError l s e from h)
      | cop s => exact constError_quotes (show ConstError l s e from h)
      | word32 s =>
        rcases h with ⟨_, rfl⟩ | ⟨_, h⟩
        · exact ⟨rfl, rfl, rfl⟩
        · exact constError_quotes h
      | target s => cases (show e = _ from h); exact ⟨rfl, rfl, rfl⟩
      | cond w => obtain ⟨c, _, rfl⟩ := h; exact ⟨rfl, rfl, rfl⟩
      | shamt | name | fname | format | short => exact h.elim
    · exact fails_quotes h

theorem refusal_quotes (l : Line) (s : Str) : requote S (refusal l s) = refusal l s ∧ (refusal l s).line = l ∧ (refusal l s).isRef = false := by
  unfold refusal
  dsimp only
  repeat' split
  all_goals exact ⟨rfl, rfl, rfl⟩

theorem lineError_line {k : Nat} {raw : Str} {e : ParserError} (h : LineError f k raw e) : e.line = ⟨k + 1, raw⟩ ∧ e.isRef = false := by
  unfold LineError at h
  cases hk : kind raw with
  | blank => rw [hk] at h; exact h.elim
  | label l =>
    rw [hk] at h
    rcases h with ⟨c, t, _, _, rfl⟩ | ⟨_, d, n, r, _, _, _, _, rfl⟩ <;> exact ⟨rfl, rfl⟩
  | code =>
    rw [hk] at h
    rcases h with ⟨_, rfl⟩ | ⟨st, _, h⟩
    · exact (refusal_quotes (S := fun _ => false) _ _).2
    · exact (fails_quotes (S := fun _ => false) h).2

theorem placeError_isRef {k : Nat} {raw : Str} {e : ParserError} (h : PlaceError f g k raw e) : e.isRef = true := by
  obtain ⟨st, t, _, h⟩ := h
  rcases h with ⟨_, _, _, rfl⟩ | ⟨_, _, _, _, _, rfl⟩ | ⟨_, _, _, rfl⟩ | ⟨_, v, last, _, _, _, rfl⟩ <;> rfl

theorem Cut.lineError (h : Cut S f f') {k : Nat} {raw : Str} {e : ParserError} (he : LineError f k raw e) : LineError f' k raw (requote S e) := by
  cases hk : kind raw with
  | blank => unfold LineError at he; rw [hk] at he; exact he.elim
  | label l =>
    unfold LineError at he ⊢
    rw [hk] at he ⊢
    rcases he with ⟨c, t, h1, h2, rfl⟩ | ⟨h1, d, n, r, h2, h3, h4, h5, rfl⟩
    · exact .inl ⟨c, t, h1, h2, rfl⟩
    · exact .inr ⟨h1, d, n, _, h2, h.first.1 h3, h.counted h4, h.quoted h5, rfl⟩
  | code =>
    have := lineError_moved h.ovf h.syms hk (fun st _ => h.sameRefs k st) he
    have hl := (lineError_line he).1
    have hm : moved (k + 1) e = e := by
      have := moved_self e
      rw [hl] at this; exact this
    rw [hm] at this
    have hq : requote S e = e := by
      unfold LineError at he
      rw [hk] at he
      rcases he with ⟨_, rfl⟩ | ⟨st, _, h⟩
      · exact (refusal_quotes _ _).1
      · exact (fails_quotes h).1
    rw [hq]; exact this

theorem Cut.lineError' (h : Cut S f f') {k : Nat} {raw : Str} {e : ParserError} (he : LineError f' k raw e) : ∃ e', LineError f k raw e' := by
  cases hk : kind raw with
  | blank => unfold LineError at he; rw [hk] at he; exact he.elim
  | label l =>
    unfold LineError at he ⊢
    rw [hk] at he ⊢
    rcases he with ⟨c, t, h1, h2, rfl⟩ | ⟨h1, d, n, r, h2, h3, h4, h5, rfl⟩
    · exact ⟨_, .inl ⟨c, t, h1, h2, rfl⟩⟩
    · have hl : n < f.ls.length := by rw [← h.ls.1]; exact (List.getElem?_eq_some_iff.1 h5).1
      exact ⟨_, .inr ⟨h1, d, n, _, h2, h.first.2 h3, h.counted' h4, List.getElem?_eq_getElem hl, rfl⟩⟩
  | code => exact ⟨_, lineError_moved h.ovf.symm h.syms.symm hk (fun st _ => h.sameRefs' k st) he⟩

theorem Cut.placeError (h : Cut S f f') {k : Nat} {raw : Str} {e : ParserError} (he : PlaceError f g k raw e) : PlaceError f' g k raw (requote S e) := by
  obtain ⟨st, t, hi, hx⟩ := he
  refine ⟨st, t, hi, ?_⟩
  rcases hx with ⟨h1, h2, h3, rfl⟩ | ⟨h1, h2, h3, h4, h5, rfl⟩ | ⟨h1, h2, h3, rfl⟩ | ⟨h1, v, last, h2, h3, h4, rfl⟩
  · exact .inl ⟨h1, h2, h3, rfl⟩
  · exact .inr (.inl ⟨h1, h2, h3, h4, h5, rfl⟩)
  · exact .inr (.inr (.inl ⟨h1, h2, h3, rfl⟩))
  · rw [List.getLast?_eq_getElem?] at h4
    refine .inr (.inr (.inr ⟨h1, v, _, h2, h3, ?_, by rw [h.ls.1]; rfl⟩))
    rw [List.getLast?_eq_getElem?, h.ls.1]
    exact h.quoted h4

theorem Cut.placeError' (h : Cut S f f') {k : Nat} {raw : Str} {e : ParserError} (he : PlaceError f' g k raw e) : ∃ e', PlaceError f g k raw e' := by
  obtain ⟨st, t, hi, hx⟩ := he
  rcases hx with ⟨h1, h2, h3, rfl⟩ | ⟨h1, h2, h3, h4, h5, rfl⟩ | ⟨h1, h2, h3, rfl⟩ | ⟨h1, v, last, h2, h3, h4, rfl⟩
  · exact ⟨_, st, t, hi, .inl ⟨h1, h2, h3, rfl⟩⟩
  · exact ⟨_, st, t, hi, .inr (.inl ⟨h1, h2, h3, h4, h5, rfl⟩)⟩
  · exact ⟨_, st, t, hi, .inr (.inr (.inl ⟨h1, h2, h3, rfl⟩))⟩
  · have hne : f.ls ≠ [] := fun e => by
      have := h.ls.1
      rw [e, List.length_nil] at this
      rw [List.length_eq_zero_iff.1 this] at h4; cases h4
    exact ⟨_, st, t, hi, .inr (.inr (.inr ⟨h1, v, _, h2, h3, List.getLast?_eq_some_getLast hne, rfl⟩))⟩

theorem inOrder_cut {P P' : Nat → ParserError → Prop} {K : Nat → Bool} {keep : ParserError → Bool} {F : ParserError → ParserError}
    (h1 : ∀ k e, P k e → keep e = K k) (h2 : ∀ k e, P k e → K k = true → P' k (F e)) (h3 : ∀ k e, P' k e → K k = true ∧ ∃ e', P k e') {n : Nat}
    {es : List ParserError} (h : InOrder P n es) : InOrder P' n ((es.filter keep).map F) := by
  induction h with
  | nil => exact .nil
  | error k es e _ hp ih =>
    rw [List.filter_append, List.map_append]
    cases hk : K k with
    | true =>
      have e1 : [e].filter keep = [e] := by simp [h1 k e hp, hk]
      rw [e1]
      exact .error k _ _ ih (h2 k e hp hk)
    | false =>
      have e1 : [e].filter keep = [] := by simp [h1 k e hp, hk]
      rw [e1, List.map_nil, List.append_nil]
      exact .none k _ ih fun e' he' => by rw [(h3 k e' he').1] at hk; cases hk
  | none k es _ hp ih => exact .none k _ ih fun e he => by obtain ⟨_, e', h⟩ := h3 k e he; exact hp e' h

theorem Cut.reports (h : Cut S f f') {es : List ParserError} (he : Reports f es) : Reports f' (remaining S es) := by
  obtain ⟨a, b, g, rfl, hg, ha, hb⟩ := he
  have hl : f.ls.length = f'.ls.length := h.ls.1.symm
  refine ⟨_, _, g, by unfold remaining; rw [List.filter_append, List.map_append], h.cleaned hg, ?_, ?_⟩
  · rw [← hl]
    refine inOrder_cut (K := fun k => !(S k)) ?_ ?_ ?_ ha
    · rintro k e ⟨raw, h1, h2⟩
      obtain ⟨k1, k2⟩ := lineError_line h2
      rw [k1, k2]; simp
    · rintro k e ⟨raw, h1, h2⟩ hk
      exact ⟨raw, h.keep (by simpa using hk) h1, h.lineError h2⟩
    · rintro k e ⟨raw, h1, h2⟩
      rcases h.back h1 with ⟨k1, k2⟩ | ⟨_, rfl⟩
      · obtain ⟨e', h3⟩ := h.lineError' h2
        exact ⟨by simp [k1], e', raw, k2, h3⟩
      · unfold LineError at h2; rw [Fresh.kind_nil] at h2; exact h2.elim
  · rw [← hl]
    have inst : ∀ {k : Nat} {raw : Str} {f : File} {e : ParserError}, Cleaned f g → f.ls[k]? = some raw → PlaceError f g k raw e → kind raw = .code ∧ LineTaken (f.place k) raw := by
      intro k raw f e hg hk hp
      obtain ⟨st, t, ⟨r, j1, j2, j3, j4⟩, _⟩ := hp
      rcases hg.2.2.2.2 k raw hk with ⟨c1, c2⟩ | ⟨c1, c2⟩
      · rw [j1] at c2; cases c2; exact ⟨j2, c1⟩
      · rw [j1] at c2; cases c2; rw [Fresh.kind_nil] at j2; cases j2
    refine inOrder_cut (K := fun _ => true) ?_ ?_ ?_ hb
    · rintro k e ⟨raw, h1, h2⟩
      rw [placeError_isRef h2]; rfl
    · rintro k e ⟨raw, h1, h2⟩ _
      have hs : S k = false := by
        cases hs : S k with
        | false => rfl
        | true => exact absurd (inst hg h1 h2).2 (h.refused k raw h1 hs)
      exact ⟨raw, h.keep hs h1, h.placeError h2⟩
    · rintro k e ⟨raw, h1, h2⟩
      have := inst (h.cleaned hg) h1 h2
      rcases h.back h1 with ⟨k1, k2⟩ | ⟨_, rfl⟩
      · obtain ⟨e', h3⟩ := h.placeError' h2
        exact ⟨rfl, e', raw, k2, h3⟩
      · rw [Fresh.kind_nil] at this; cases this.1

/-! ### Warnings -/

theorem Cut.kept (h : Cut S f f') {k : Nat} {st : List Step} (hi : Instr f k st) : S k = false := by
  cases hs : S k with
  | false => rfl
  | true =>
    have hi' := hi
    obtain ⟨raw, h1, _⟩ := hi'
    exact absurd (instr_taken h1 hi).2 (h.refused k raw h1 hs)

theorem Cut.last (h : Cut S f f') {k d : Nat} {raw : Str} : LastInstr f k d raw ↔ LastInstr f' k d raw := by
  unfold LastInstr
  constructor
  · rintro ⟨h1, h2, ⟨st, h3⟩, h4⟩
    exact ⟨h1, h.keep (h.kept h3) h2, ⟨st, h.instr.1 h3⟩, fun j j1 j2 st hj => h4 j j1 j2 st (h.instr.2 hj)⟩
  · rintro ⟨h1, h2, ⟨st, h3⟩, h4⟩
    refine ⟨h1, ?_, ⟨st, h.instr.2 h3⟩, fun j j1 j2 st hj => h4 j j1 j2 st (h.instr.1 hj)⟩
    rcases h.back h2 with ⟨_, k2⟩ | ⟨k1, _⟩
    · exact k2
    · rw [h.kept (h.instr.2 h3)] at k1; cases k1

theorem Cut.inSlot (h : Cut S f f') {k : Nat} {raw : Str} : InSlot f k raw ↔ InSlot f' k raw := by
  unfold InSlot; simp only [h.last]

theorem Cut.unaligned (h : Cut S f f') {k : Nat} {raw : Str} {w : ParserWarning} : Unaligned f k raw w ↔ Unaligned f' k raw w := by
  have val := fun {r s v} => value_congr (f := f) (g := f') (k := k) (k' := k) h.ovf h.syms (r := r) (s := s) (v := v)
  unfold Unaligned
  simp only [h.instr, h.refers, val, h.syms]

theorem Cut.warned (h : Cut S f f') {k : Nat} {ws : List ParserWarning} (hw : Warned f k ws) : Warned f' k (remainingWarnings S ws) := by
  induction hw with
  | nil => exact .nil
  | line k raw ws as _ h1 h2 ih =>
    unfold remainingWarnings at *
    rw [List.filter_append, List.map_append]
    refine .line k (if S k then [] else raw) _ _ ih (h.quoted h1) ?_
    obtain ⟨a, b, rfl, ha, hb⟩ := h2
    cases hs : S k with
    | true =>
      have ea : a.filter (fun w => !(S (about w - 1))) = [] := by
        rcases ha with ⟨_, above, _, rfl⟩ | ⟨_, rfl⟩
        · simp [about, hs]
        · rfl
      have eb : b = [] := by
        rcases hb with ⟨w, ⟨st, t, hi, _⟩, _⟩ | ⟨_, rfl⟩
        · rw [h.kept hi] at hs; cases hs
        · rfl
      rw [List.filter_append, ea, eb]
      refine ⟨[], [], rfl, .inr ⟨?_, rfl⟩, .inr ⟨?_, rfl⟩⟩
      · rintro ⟨h3, _⟩; rw [if_pos rfl, Fresh.kind_nil] at h3; cases h3
      · rintro w ⟨st, t, hi, _⟩
        rw [h.kept (h.instr.2 hi)] at hs; cases hs
    | false =>
      rw [if_neg (by simp), List.filter_append, List.map_append]
      refine ⟨_, _, rfl, ?_, ?_⟩
      · rw [← h.inSlot]
        rcases ha with ⟨h3, above, h4, rfl⟩ | ⟨h3, rfl⟩
        · refine .inl ⟨h3, _, h.quoted h4, ?_⟩
          simp [about, hs, requoteWarning]
        · exact .inr ⟨h3, rfl⟩
      · simp only [← h.unaligned]
        rcases hb with ⟨w, h3, rfl⟩ | ⟨h3, rfl⟩
        · refine .inl ⟨w, h3, ?_⟩
          obtain ⟨st, t, _, h4⟩ := h3
          rcases h4 with ⟨_, _, v, _, _, rfl⟩ | ⟨_, a, _, _, rfl⟩ <;> simp [about, hs, requoteWarning]
        · exact .inr ⟨h3, rfl⟩

end
end Mips.Recover
