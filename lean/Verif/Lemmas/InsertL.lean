/-
Lemmas for C76: what is read in a file into which a blank line is inserted.
-/
import Verif.Spec.Insert
import Verif.Lemmas.RecoverL
import Verif.Props.AppendP
import Verif.Props.FreshP
import Verif.Props.ContextW
import Verif.Lemmas.EditL
import Verif.Lemmas.LinkL

namespace Mips.Insert
open Mips.Isa hiding conds
open Mips.Names hiding none
open Mips.Syntax Mips.Source Mips.Branch Mips.Operands Mips.Lang Mips.Context

/-- where line `i` stands then -/
def at' (n i : Nat) : Nat := if i < n then i else i + 1

theorem at_lt {n i j : Nat} : at' n i < at' n j ↔ i < j := by unfold at'; split <;> split <;> omega
theorem at_ne {n i : Nat} : at' n i ≠ n := by unfold at'; split <;> omega
theorem at_inj {n i j : Nat} (h : at' n i = at' n j) : i = j := by unfold at' at h; split at h <;> split at h <;> omega
theorem at_cases (n j : Nat) : j = n ∨ ∃ i, j = at' n i := by
  rcases Nat.lt_trichotomy j n with h | h | h
  · exact .inr ⟨j, by unfold at'; rw [if_pos h]⟩
  · exact .inl h
  · exact .inr ⟨j - 1, by unfold at'; rw [if_neg (by omega)]; omega⟩

structure Ins (n : Nat) (x : Str) (f f' : File) : Prop where
  ovf : f.ovf = f'.ovf
  base : f.base = f'.base
  syms : f.syms = f'.syms
  ls : Inserted n x f.ls f'.ls

section
variable {n : Nat} {x : Str} {ls ls' : List Str}

theorem Inserted.length (h : Inserted n x ls ls') : ls'.length = ls.length + 1 := by
  obtain ⟨h1, _, rfl⟩ := h
  simp; omega

theorem Inserted.line (h : Inserted n x ls ls') (i : Nat) : ls'[at' n i]? = ls[i]? := by
  obtain ⟨h1, _, rfl⟩ := h
  unfold at'
  split
  · rename_i hi
    rw [List.getElem?_append_left (by simp; omega), List.getElem?_take, if_pos hi]
  · rename_i hi
    rw [List.getElem?_append_right (by simp; omega), List.length_take, Nat.min_eq_left h1,
      show i + 1 - n = (i - n) + 1 by omega, List.getElem?_cons_succ, List.getElem?_drop, show n + (i - n) = i by omega]

theorem Inserted.mid (h : Inserted n x ls ls') : ls'[n]? = some x := by
  obtain ⟨h1, _, rfl⟩ := h
  rw [List.getElem?_append_right (by simp; omega)]
  simp [Nat.min_eq_left h1]

theorem Inserted.back (h : Inserted n x ls ls') {j : Nat} {raw : Str} (hj : ls'[j]? = some raw) :
    (j = n ∧ raw = x) ∨ ∃ i, j = at' n i ∧ ls[i]? = some raw := by
  rcases at_cases n j with rfl | ⟨i, rfl⟩
  · rw [h.mid] at hj; cases hj; exact .inl ⟨rfl, rfl⟩
  · rw [h.line] at hj; exact .inr ⟨i, rfl, hj⟩

theorem Inserted.defines (h : Inserted n x ls ls') {i : Nat} {l : Str} : Defines ls' (at' n i) l ↔ Defines ls i l := by
  unfold Defines; rw [h.line]

theorem Inserted.def_at (h : Inserted n x ls ls') {j : Nat} {l : Str} (hd : Defines ls' j l) : ∃ i, j = at' n i ∧ Defines ls i l := by
  obtain ⟨raw, h1, h2⟩ := hd
  rcases h.back h1 with ⟨_, rfl⟩ | ⟨i, rfl, h3⟩
  · rw [h.2.1] at h2; cases h2
  · exact ⟨i, rfl, raw, h3, h2⟩

theorem Inserted.take (h : Inserted n x ls ls') (i : Nat) :
    ls'.take (at' n i) = ls.take i ∨ ∃ r, ls'.take (at' n i) = ls.take n ++ x :: r ∧ ls.take i = ls.take n ++ r := by
  obtain ⟨h1, _, rfl⟩ := h
  unfold at'
  split
  · rename_i hi
    left
    rw [List.take_append_of_le_length (by simp; omega), List.take_take, Nat.min_eq_left (by omega)]
  · rename_i hi
    right
    refine ⟨(ls.drop n).take (i - n), ?_, ?_⟩
    · rw [List.take_append, List.length_take, Nat.min_eq_left h1, List.take_of_length_le (by simp; omega),
        show i + 1 - n = (i - n) + 1 by omega, List.take_succ_cons]
    · have : ls.take i = (ls.take n ++ ls.drop n).take i := by rw [List.take_append_drop]
      rw [this, List.take_append, List.length_take, Nat.min_eq_left h1, List.take_of_length_le (by simp; omega)]

theorem count_blank (hx : kind x = .blank) (a b : List Str) : codeCount (a ++ x :: b) = codeCount (a ++ b) := by
  simp [codeCount, isCode, hx]

theorem globals_blank (hx : kind x = .blank) (a b : List Str) : globals (a ++ x :: b) = globals (a ++ b) := by
  unfold globals
  rw [globalsFrom_append, globalsFrom_append]
  simp [globalsFrom, hx]

theorem Inserted.count (h : Inserted n x ls ls') (i : Nat) : codeCount (ls'.take (at' n i)) = codeCount (ls.take i) := by
  rcases h.take i with e | ⟨r, e1, e2⟩
  · rw [e]
  · rw [e1, e2, count_blank h.2.1]

theorem Inserted.all (h : Inserted n x ls ls') : codeCount ls' = codeCount ls := by
  obtain ⟨_, h2, rfl⟩ := h
  rw [count_blank h2, List.take_append_drop]

theorem Inserted.scope (h : Inserted n x ls ls') (i : Nat) : scope ls' (at' n i) = scope ls i := by
  unfold Branch.scope
  rcases h.take i with e | ⟨r, e1, e2⟩
  · rw [e]
  · rw [e1, e2, globals_blank h.2.1]

theorem Inserted.visible (h : Inserted n x ls ls') {k d : Nat} : Visible ls' (at' n k) (at' n d) ↔ Visible ls k d := by
  unfold Visible
  rw [h.scope, h.scope]
  refine or_congr Iff.rfl (and_congr Iff.rfl ⟨fun hv j raw h1 h2 h3 => ?_, fun hv j raw h1 h2 h3 => ?_⟩)
  · have := hv (at' n j) raw (at_lt.2 h1) (by rw [h.line]; exact h2) h3
    rwa [h.scope] at this
  · rcases h.back h2 with ⟨_, rfl⟩ | ⟨i, rfl, h4⟩
    · rw [h.2.1] at h3; cases h3
    · rw [h.scope]; exact hv i raw (at_lt.1 h1) h4 h3

theorem Inserted.chosen (h : Inserted n x ls ls') {k d : Nat} {l : Str} : Chosen ls' (at' n k) (at' n d) l ↔ Chosen ls k d l := by
  unfold Chosen
  rw [h.defines, h.visible]
  refine and_congr Iff.rfl (and_congr Iff.rfl (and_congr ⟨fun hv d' h1 h2 => ?_, fun hv d' h1 h2 => ?_⟩ ⟨fun hv d' h1 h2 => ?_, fun hv d' h1 h2 => ?_⟩))
  · have := hv (at' n d') (h.defines.2 h1) (h.visible.2 h2)
    rwa [h.scope, h.scope] at this
  · obtain ⟨i, rfl, h3⟩ := h.def_at h1
    rw [h.scope, h.scope]; exact hv i h3 (h.visible.1 h2)
  · have := hv (at' n d') (at_lt.2 h1) (h.defines.2 h2)
    rwa [h.scope, h.scope] at this
  · obtain ⟨i, rfl, h3⟩ := h.def_at h2
    rw [h.scope, h.scope]; exact hv i (at_lt.1 h1) h3

theorem Inserted.closed (h : Inserted n x ls ls') : HasClosedScope ls' ↔ HasClosedScope ls := by
  rw [Fresh.closed_pair, Fresh.closed_pair]
  constructor
  · rintro ⟨d, j, y, z, h1, h2, h3, h4, h5⟩
    obtain ⟨d0, rfl, k2⟩ := h.def_at h2
    obtain ⟨j0, rfl, k4⟩ := h.def_at h4
    exact ⟨d0, j0, y, z, at_lt.1 h1, k2, h3, k4, h5⟩
  · rintro ⟨d, j, y, z, h1, h2, h3, h4, h5⟩
    exact ⟨_, _, y, z, at_lt.2 h1, h.defines.2 h2, h3, h.defines.2 h4, h5⟩

theorem Inserted.some_def (h : Inserted n x ls ls') {l : Str} : (∃ d, Defines ls' d l) ↔ ∃ d, Defines ls d l :=
  ⟨fun ⟨_, hd⟩ => by obtain ⟨i, _, h1⟩ := h.def_at hd; exact ⟨i, h1⟩, fun ⟨d, hd⟩ => ⟨_, h.defines.2 hd⟩⟩

theorem Inserted.above (h : Inserted n x ls ls') {k : Nat} {l : Str} : (∃ d < at' n k, Defines ls' d l) ↔ ∃ d < k, Defines ls d l := by
  constructor
  · rintro ⟨d, h1, h2⟩
    obtain ⟨i, rfl, h3⟩ := h.def_at h2
    exact ⟨i, at_lt.1 h1, h3⟩
  · rintro ⟨d, h1, h2⟩
    exact ⟨_, at_lt.2 h1, h.defines.2 h2⟩

variable [Unicode] {f f' : File}

theorem Inserted.first (h : Inserted n x ls ls') {d : Nat} {l : Str} : FirstDef ls' (at' n d) l ↔ FirstDef ls d l := by
  unfold FirstDef
  rw [h.defines]
  refine and_congr Iff.rfl (and_congr Iff.rfl ⟨fun hv d' h1 h2 => hv _ (at_lt.2 h1) (h.defines.2 h2), fun hv d' h1 h2 => ?_⟩)
  obtain ⟨i, rfl, h3⟩ := h.def_at h2
  exact hv i (at_lt.1 h1) h3

theorem Inserted.first_at (h : Inserted n x ls ls') {j : Nat} {l : Str} (hd : FirstDef ls' j l) : ∃ i, j = at' n i ∧ FirstDef ls i l := by
  obtain ⟨i, rfl, _⟩ := h.def_at hd.1
  exact ⟨i, rfl, h.first.1 hd⟩

theorem Inserted.no_first (h : Inserted n x ls ls') {l : Str} : (∀ d, ¬ FirstDef ls' d l) ↔ ∀ d, ¬ FirstDef ls d l :=
  ⟨fun hv d hd => hv _ (h.first.2 hd), fun hv _ hd => by obtain ⟨i, _, h1⟩ := h.first_at hd; exact hv i h1⟩

theorem Inserted.no_chosen (h : Inserted n x ls ls') {k : Nat} {l : Str} : (∀ d, ¬ Chosen ls' (at' n k) d l) ↔ ∀ d, ¬ Chosen ls k d l := by
  refine ⟨fun hv d hd => hv _ (h.chosen.2 hd), fun hv j hd => ?_⟩
  obtain ⟨i, rfl, _⟩ := h.def_at hd.1
  exact hv i (h.chosen.1 hd)

theorem Ins.refers (h : Ins n x f f') {k : Nat} {t : Str} : RefersTo (f.place k) t ↔ RefersTo (f'.place (at' n k)) t :=
  or_congr Iff.rfl (and_congr Iff.rfl h.ls.above.symm)

theorem Ins.sameRefs (h : Ins n x f f') (k : Nat) (st : List Step) : SameRefs f k f' (at' n k) st := fun _ _ => h.refers
theorem Ins.sameRefs' (h : Ins n x f f') (k : Nat) (st : List Step) : SameRefs f' (at' n k) f k st := fun _ _ => h.refers.symm

theorem Ins.taken (h : Ins n x f f') {k : Nat} {raw : Str} : LineTaken (f.place k) raw ↔ LineTaken (f'.place (at' n k)) raw := by
  cases hk : kind raw with
  | blank => unfold LineTaken; rw [hk]
  | code =>
    exact ⟨lineTaken_congr h.ovf h.syms hk fun st _ => h.sameRefs k st, lineTaken_congr h.ovf.symm h.syms.symm hk fun st _ => h.sameRefs' k st⟩
  | label l =>
    have e : (∀ d < k, ¬ Defines f.ls d l) ↔ ∀ d < at' n k, ¬ Defines f'.ls d l :=
      ⟨fun a d h1 h2 => by obtain ⟨i, h3, h4⟩ := h.ls.above.1 ⟨d, h1, h2⟩; exact a i h3 h4,
       fun a d h1 h2 => a _ (at_lt.2 h1) (h.ls.defines.2 h2)⟩
    unfold LineTaken
    rw [hk]
    exact and_congr Iff.rfl (imp_congr Iff.rfl e)

theorem Ins.reads (h : Ins n x f f') {k : Nat} {s : Step} : Lang.Reads (f.place k) s ↔ Lang.Reads (f'.place (at' n k)) s :=
  Context.reads_congr h.ovf h.syms (st := []) (h.sameRefs k [s])

theorem Ins.instr (h : Ins n x f f') {k : Nat} {st : List Step} : Instr f k st ↔ Instr f' (at' n k) st := by
  unfold Instr
  simp only [h.ls.line, h.reads]

theorem Ins.no_instr (h : Ins n x f f') {st : List Step} : ¬ Instr f' n st := by
  rintro ⟨raw, h1, h2, _⟩
  rw [h.ls.mid] at h1; cases h1
  rw [h.ls.2.1] at h2; cases h2

/-- line `n` itself -/
theorem Ins.counted_mid (h : Ins n x f f') {c : Nat} (hc : Counted f' n c) : Counted f' (n + 1) c :=
  .other n c hc (by rw [h.ls.length]; have := h.ls.1; omega) fun _ => h.no_instr

theorem Ins.counted (h : Ins n x f f') {k c : Nat} (hc : Counted f k c) : (k ≤ n → Counted f' k c) ∧ (n ≤ k → Counted f' (k + 1) c) := by
  have hl := h.ls.length
  induction hc with
  | none => exact ⟨fun _ => .none, fun h1 => by
      have : n = 0 := by omega
      subst this
      exact h.counted_mid .none⟩
  | inst k c st _ hi ih =>
    have key : k + 1 ≤ n → Counted f' (k + 1) (c + 1) := fun h1 => by
      have := h.instr.1 hi
      unfold at' at this
      rw [if_pos (by omega)] at this
      exact .inst k c st (ih.1 (by omega)) this
    refine ⟨key, fun h1 => ?_⟩
    rcases Nat.eq_or_lt_of_le h1 with rfl | h2
    · exact h.counted_mid (key (Nat.le_refl _))
    · have := h.instr.1 hi
      unfold at' at this
      rw [if_neg (by omega)] at this
      exact .inst (k + 1) c st (ih.2 (by omega)) this
  | other k c _ hk hi ih =>
    have key : k + 1 ≤ n → Counted f' (k + 1) c := fun h1 => by
      refine .other k c (ih.1 (by omega)) (by omega) fun st hs => hi st (h.instr.2 ?_)
      unfold at'
      rwa [if_pos (by omega)]
    refine ⟨key, fun h1 => ?_⟩
    rcases Nat.eq_or_lt_of_le h1 with rfl | h2
    · exact h.counted_mid (key (Nat.le_refl _))
    · refine .other (k + 1) c (ih.2 (by omega)) (by omega) fun st hs => hi st (h.instr.2 ?_)
      unfold at'
      rwa [if_neg (by omega)]

theorem Ins.counted_at (h : Ins n x f f') {k c : Nat} (hc : Counted f k c) : Counted f' (at' n k) c := by
  unfold at'
  split
  · exact (h.counted hc).1 (by omega)
  · exact (h.counted hc).2 (by omega)

/-! ### Errors -/

theorem down_at (n k : Nat) (c : Str) : down n ⟨k + 1, c⟩ = ⟨at' n k + 1, c⟩ := by
  unfold down at'
  by_cases h : k < n
  · rw [if_pos (show k + 1 ≤ n by omega), if_pos h]
  · rw [if_neg (show ¬ k + 1 ≤ n by omega), if_neg h]

theorem lineNo_of {ls : List Str} {k : Nat} {r : Str} (h : ls[k]? = some r) : lineNo ls (k + 1) = ⟨k + 1, r⟩ := by
  unfold lineNo; rw [Nat.add_sub_cancel, h]; rfl

theorem constError_down {k : Nat} {raw s : Str} {e : ParserError} (h : ConstError ⟨k + 1, raw⟩ s e) : error n ls' e = moved (at' n k + 1) e := by
  cases h <;> simp only [error, moved, down_at]

theorem fails_down {p : Place} {k : Nat} {raw : Str} {e : ParserError} :
    ∀ {st : List Step}, Fails p ⟨k + 1, raw⟩ st e → error n ls' e = moved (at' n k + 1) e
  | [], h => h.elim
  | x :: st, h => by
    rcases h with ⟨_, _, h⟩ | ⟨_, h⟩
    · cases x with
      | gpr b s => obtain ⟨q, _, rfl⟩ := h; simp only [error, moved, down_at]
      | fpr s => obtain ⟨q, _, rfl⟩ := h; simp only [error, moved, down_at]
      | c0 s => obtain ⟨q, _, rfl⟩ := h; simp only [error, moved, down_at]
      | base b s => obtain ⟨m, q, _, _, rfl⟩ := h; simp only [error, moved, down_at]
      | offset b s => obtain ⟨o, _, h⟩ := h; exact constError_down h
      | const r s => exact constError_down (show ConstError _ s e from h)
      | number r s => exact constError_down (show ConstError _ s e from h)
      | code s => exact constError_down (show ConstError _ s e from h)
      | cop s => exact constError_down (show ConstError _ s e from h)
      | word32 s =>
        rcases h with ⟨_, rfl⟩ | ⟨_, h⟩
        · simp only [error, moved, down_at]
        · exact constError_down h
      | target s => cases (show e = _ from h); simp only [error, moved, down_at]
      | cond w => obtain ⟨c, _, rfl⟩ := h; simp only [error, moved, down_at]
      | shamt | name | fname | format | short => exact h.elim
    · exact fails_down h

theorem refusal_down (k : Nat) (raw s : Str) : error n ls' (refusal ⟨k + 1, raw⟩ s) = moved (at' n k + 1) (refusal ⟨k + 1, raw⟩ s) := by
  unfold refusal
  dsimp only
  repeat' split
  all_goals simp only [error, moved, down_at]

theorem Ins.lineError (h : Ins n x f f') {k : Nat} {raw : Str} {e : ParserError} (he : LineError f k raw e) :
    LineError f' (at' n k) raw (error n f'.ls e) := by
  cases hk : kind raw with
  | blank => unfold LineError at he; rw [hk] at he; exact he.elim
  | label l =>
    unfold LineError at he ⊢
    rw [hk] at he ⊢
    rcases he with ⟨c, t, h1, h2, rfl⟩ | ⟨h1, d, c, r, h2, h3, h4, h5, rfl⟩
    · exact .inl ⟨c, t, h1, h2, by simp only [error, down_at]⟩
    · have hl : c < f'.ls.length := by
        rw [h.ls.length]; have := (List.getElem?_eq_some_iff.1 h5).1; omega
      refine .inr ⟨h1, at' n d, c, _, at_lt.2 h2, h.ls.first.2 h3, h.counted_at h4, List.getElem?_eq_getElem hl, ?_⟩
      simp only [error, down_at, lineNo_of (List.getElem?_eq_getElem hl)]
  | code =>
    have := lineError_moved h.ovf h.syms hk (fun st _ => h.sameRefs k st) he
    have hq : error n f'.ls e = moved (at' n k + 1) e := by
      unfold LineError at he
      rw [hk] at he
      rcases he with ⟨_, rfl⟩ | ⟨st, _, h⟩
      · exact refusal_down _ _ _
      · exact fails_down h
    rw [hq]; exact this

theorem Ins.lineError' (h : Ins n x f f') {k : Nat} {raw : Str} {e : ParserError} (he : LineError f' (at' n k) raw e) : ∃ e', LineError f k raw e' := by
  cases hk : kind raw with
  | blank => unfold LineError at he; rw [hk] at he; exact he.elim
  | label l =>
    unfold LineError at he ⊢
    rw [hk] at he ⊢
    rcases he with ⟨c, t, h1, h2, rfl⟩ | ⟨h1, d, c, r, h2, h3, h4, h5, rfl⟩
    · exact ⟨_, .inl ⟨c, t, h1, h2, rfl⟩⟩
    · obtain ⟨i, rfl, h6⟩ := h.ls.first_at h3
      have hi : i < f.ls.length := by obtain ⟨r, hr, _⟩ := h6.1; exact (List.getElem?_eq_some_iff.1 hr).1
      obtain ⟨c', hc⟩ := Edit.Alike.counted_get f i (by omega)
      have hl : c' < f.ls.length := by
        have := Link.counted_le hc
        have h9 : codeCount (f.ls.take i) ≤ (f.ls.take i).length := List.length_filter_le _ _
        rw [List.length_take] at h9
        omega
      exact ⟨_, .inr ⟨h1, i, c', _, at_lt.1 h2, h6, hc, List.getElem?_eq_getElem hl, rfl⟩⟩
  | code => exact ⟨_, lineError_moved h.ovf.symm h.syms.symm hk (fun st _ => h.sameRefs' k st) he⟩

theorem Ins.number (h : Ins n x f f') {k : Nat} {t : Str} {v : Nat} : Number (f.place k) t v ↔ Number (f'.place (at' n k)) t v := by
  unfold Number; rw [h.refers]

variable {g g' : File}

theorem Ins.placeError (h : Ins n x f f') (hg : Ins n x g g') {k : Nat} {raw : Str} {e : ParserError} (he : PlaceError f g k raw e) :
    PlaceError f' g' (at' n k) raw (error n f'.ls e) := by
  obtain ⟨st, t, hi, hx⟩ := he
  refine ⟨st, t, hg.instr.1 hi, ?_⟩
  rcases hx with ⟨h1, h2, h3, rfl⟩ | ⟨h1, h2, h3, h4, h5, rfl⟩ | ⟨h1, h2, h3, rfl⟩ | ⟨h1, v, last, h2, h3, h4, rfl⟩
  · exact .inl ⟨h1, h2, by rw [hg.ls.closed, hg.ls.some_def]; exact h3, by simp only [error, down_at]⟩
  · exact .inr (.inl ⟨h1, h2, hg.ls.closed.2 h3, hg.ls.some_def.2 h4, hg.ls.no_chosen.2 h5, by simp only [error, down_at]⟩)
  · exact .inr (.inr (.inl ⟨h1, hg.syms ▸ h2, hg.ls.no_first.2 h3, by simp only [error, down_at]⟩))
  · have hl : f'.ls.length - 1 < f'.ls.length := by rw [h.ls.length]; omega
    refine .inr (.inr (.inr ⟨h1, v, _, hg.number.1 h2, by rw [hg.ls.all, ← hg.base]; exact h3,
      by rw [List.getLast?_eq_getElem?]; exact List.getElem?_eq_getElem hl, ?_⟩))
    simp only [error]
    rw [hg.ls.all, ← hg.base]
    congr 1
    unfold lineNo
    rw [List.getElem?_eq_getElem hl]; rfl

theorem Ins.placeError' (h : Ins n x f f') (hg : Ins n x g g') (hf : f.ls ≠ []) {k : Nat} {raw : Str} {e : ParserError} (he : PlaceError f' g' (at' n k) raw e) :
    ∃ e', PlaceError f g k raw e' := by
  obtain ⟨st, t, hi, hx⟩ := he
  have hi := hg.instr.2 hi
  rcases hx with ⟨h1, h2, h3, rfl⟩ | ⟨h1, h2, h3, h4, h5, rfl⟩ | ⟨h1, h2, h3, rfl⟩ | ⟨h1, v, last, h2, h3, h4, rfl⟩
  · exact ⟨_, st, t, hi, .inl ⟨h1, h2, by rw [← hg.ls.closed, ← hg.ls.some_def]; exact h3, rfl⟩⟩
  · exact ⟨_, st, t, hi, .inr (.inl ⟨h1, h2, hg.ls.closed.1 h3, hg.ls.some_def.1 h4, hg.ls.no_chosen.1 h5, rfl⟩)⟩
  · exact ⟨_, st, t, hi, .inr (.inr (.inl ⟨h1, hg.syms ▸ h2, hg.ls.no_first.1 h3, rfl⟩))⟩
  · exact ⟨_, st, t, hi, .inr (.inr (.inr ⟨h1, v, _, hg.number.2 h2, by rw [← hg.ls.all, hg.base]; exact h3, List.getLast?_eq_some_getLast hf, rfl⟩))⟩

omit [Unicode] in
theorem inOrder_at {P P' : Nat → ParserError → Prop} {F : ParserError → ParserError} (h1 : ∀ k e, P k e → P' (at' n k) (F e))
    (h2 : ∀ k e, P' (at' n k) e → ∃ e', P k e') (h3 : ∀ e, ¬ P' n e) {k : Nat} {es : List ParserError} (h : InOrder P k es) :
    (k ≤ n → InOrder P' k (es.map F)) ∧ (n ≤ k → InOrder P' (k + 1) (es.map F)) := by
  induction h with
  | nil => exact ⟨fun _ => .nil, fun h => by
      have : n = 0 := by omega
      subst this
      exact .none 0 _ .nil h3⟩
  | error k es e _ hp ih =>
    rw [List.map_append]
    have hp' := h1 k e hp
    unfold at' at hp'
    have key : k + 1 ≤ n → InOrder P' (k + 1) (es.map F ++ [e].map F) := fun h => by
      rw [if_pos (by omega)] at hp'
      exact .error k _ _ (ih.1 (by omega)) hp'
    refine ⟨key, fun h => ?_⟩
    rcases Nat.eq_or_lt_of_le h with rfl | h4
    · exact .none _ _ (key (Nat.le_refl _)) h3
    · rw [if_neg (by omega)] at hp'
      exact .error (k + 1) _ _ (ih.2 (by omega)) hp'
  | none k es _ hp ih =>
    have hp' : ∀ e, ¬ P' (at' n k) e := fun e he => by obtain ⟨e', h⟩ := h2 k e he; exact hp e' h
    unfold at' at hp'
    have key : k + 1 ≤ n → InOrder P' (k + 1) (es.map F) := fun h => by
      rw [if_pos (by omega)] at hp'
      exact .none k _ (ih.1 (by omega)) hp'
    refine ⟨key, fun h => ?_⟩
    rcases Nat.eq_or_lt_of_le h with rfl | h4
    · exact .none _ _ (key (Nat.le_refl _)) h3
    · rw [if_neg (by omega)] at hp'
      exact .none (k + 1) _ (ih.2 (by omega)) hp'

theorem Ins.cleaned (h : Ins n x f f') (hc : Cleaned f g) : ∃ g', Ins n x g g' ∧ Cleaned f' g' := by
  obtain ⟨a1, a2, a3, a4, a5⟩ := hc
  let g' : File := ⟨g.ovf, g.base, g.syms, g.ls.take n ++ x :: g.ls.drop n⟩
  have hg : Ins n x g g' := ⟨rfl, rfl, rfl, by rw [a4]; exact h.ls.1, h.ls.2.1, rfl⟩
  refine ⟨g', hg, a1.trans h.ovf, a2.trans h.base, a3.trans h.syms, by rw [hg.ls.length, h.ls.length, a4], fun k raw hk => ?_⟩
  rcases h.ls.back hk with ⟨rfl, rfl⟩ | ⟨i, rfl, hi⟩
  · exact .inl ⟨by unfold LineTaken; rw [h.ls.2.1]; trivial, hg.ls.mid⟩
  · rw [hg.ls.line, ← h.taken]
    exact a5 i raw hi

theorem Ins.reports (h : Ins n x f f') {es : List ParserError} (he : Reports f es) : Reports f' (es.map (error n f'.ls)) := by
  obtain ⟨a, b, g, rfl, hc, ha, hb⟩ := he
  obtain ⟨g', hg, hc'⟩ := h.cleaned hc
  refine ⟨a.map (error n f'.ls), b.map (error n f'.ls), g', List.map_append, hc', ?_, ?_⟩
  · rw [h.ls.length]
    refine (inOrder_at ?_ ?_ ?_ ha).2 h.ls.1
    · rintro k e ⟨raw, h1, h2⟩; exact ⟨raw, by rw [h.ls.line]; exact h1, h.lineError h2⟩
    · rintro k e ⟨raw, h1, h2⟩
      rw [h.ls.line] at h1
      obtain ⟨e', h3⟩ := h.lineError' h2
      exact ⟨e', raw, h1, h3⟩
    · rintro e ⟨raw, h1, h2⟩
      rw [h.ls.mid] at h1; cases h1
      unfold LineError at h2; rw [h.ls.2.1] at h2; exact h2
  · rw [h.ls.length]
    refine (inOrder_at ?_ ?_ ?_ hb).2 h.ls.1
    · rintro k e ⟨raw, h1, h2⟩; exact ⟨raw, by rw [h.ls.line]; exact h1, h.placeError hg h2⟩
    · rintro k e ⟨raw, h1, h2⟩
      rw [h.ls.line] at h1
      obtain ⟨e', h3⟩ := h.placeError' hg (fun e => by rw [e] at h1; cases h1) h2
      exact ⟨e', raw, h1, h3⟩
    · rintro e ⟨raw, h1, st, t, h2, _⟩
      exact hg.no_instr h2

/-! ### Warnings -/

theorem Ins.last (h : Ins n x f f') {k d : Nat} {raw : Str} : LastInstr f k d raw ↔ LastInstr f' (at' n k) (at' n d) raw := by
  unfold LastInstr
  rw [h.ls.line, at_lt]
  simp only [h.instr]
  refine and_congr Iff.rfl (and_congr Iff.rfl (and_congr Iff.rfl ⟨fun hv j h1 h2 st hi => ?_, fun hv j h1 h2 => hv _ (at_lt.2 h1) (at_lt.2 h2)⟩))
  rcases at_cases n j with rfl | ⟨i, rfl⟩
  · exact h.no_instr hi
  · exact hv i (at_lt.1 h1) (at_lt.1 h2) st hi

theorem Ins.inSlot (h : Ins n x f f') {k : Nat} {raw : Str} : InSlot f k raw ↔ InSlot f' (at' n k) raw := by
  unfold InSlot
  refine and_congr Iff.rfl (and_congr Iff.rfl (and_congr Iff.rfl ⟨fun ⟨d, ab, h1, h2⟩ => ⟨_, ab, h.last.1 h1, h2⟩, fun ⟨d, ab, h1, h2⟩ => ?_⟩))
  rcases at_cases n d with rfl | ⟨i, rfl⟩
  · obtain ⟨_, _, ⟨st, h3⟩, _⟩ := h1
    exact absurd h3 h.no_instr
  · exact ⟨i, ab, h.last.2 h1, h2⟩

theorem Ins.unaligned (h : Ins n x f f') {k : Nat} {raw : Str} (hk : f.ls[k]? = some raw) {w : ParserWarning} (hu : Unaligned f k raw w) :
    Unaligned f' (at' n k) raw (warning n f'.ls w) := by
  have hk' : f'.ls[at' n k]? = some raw := by rw [h.ls.line]; exact hk
  have := unaligned_moved h.ovf h.syms hk hk' (fun st _ => h.sameRefs k st) hu
  obtain ⟨st, t, _, ⟨_, _, v, _, _, rfl⟩ | ⟨_, a, _, _, rfl⟩⟩ := hu <;> simpa only [warning, movedWarning, down_at] using this

theorem Ins.unaligned' (h : Ins n x f f') {k : Nat} {raw : Str} (hk : f.ls[k]? = some raw) {w : ParserWarning} (hu : Unaligned f' (at' n k) raw w) :
    ∃ w', Unaligned f k raw w' :=
  ⟨_, unaligned_moved h.ovf.symm h.syms.symm (by rw [h.ls.line]; exact hk) hk (fun st _ => h.sameRefs' k st) hu⟩

theorem Ins.lineWarnings (h : Ins n x f f') {k : Nat} {raw : Str} (hk : f.ls[k]? = some raw) {ws : List ParserWarning} (hw : LineWarnings f k raw ws) :
    LineWarnings f' (at' n k) raw (ws.map (warning n f'.ls)) := by
  obtain ⟨a, b, rfl, ha, hb⟩ := hw
  have hlt : k < f.ls.length := (List.getElem?_eq_some_iff.1 hk).1
  refine ⟨_, _, List.map_append, ?_, ?_⟩
  · rcases ha with ⟨h1, above, h2, rfl⟩ | ⟨h1, rfl⟩
    · refine .inl ⟨h.inSlot.1 h1, ?_⟩
      have hpos : 0 < at' n k := by
        obtain ⟨_, _, _, d, _, ⟨h3, _⟩, _⟩ := h1
        have := (at_lt (n := n)).2 h3
        omega
      have hb' : at' n k - 1 < f'.ls.length := by
        rw [h.ls.length]; unfold at'; split <;> omega
      refine ⟨_, List.getElem?_eq_getElem hb', ?_⟩
      simp only [List.map_cons, List.map_nil, warning, down_at, Nat.add_sub_cancel]
      congr 2
      unfold lineNo
      rw [List.getElem?_eq_getElem hb']; rfl
    · exact .inr ⟨fun hs => h1 (h.inSlot.2 hs), rfl⟩
  · rcases hb with ⟨w, h1, rfl⟩ | ⟨h1, rfl⟩
    · exact .inl ⟨_, h.unaligned hk h1, rfl⟩
    · exact .inr ⟨fun w hw => by obtain ⟨w', h2⟩ := h.unaligned' hk hw; exact h1 w' h2, rfl⟩

theorem Ins.mid_warnings (h : Ins n x f f') : LineWarnings f' n x [] := by
  refine ⟨[], [], rfl, .inr ⟨?_, rfl⟩, .inr ⟨?_, rfl⟩⟩
  · rintro ⟨h1, _⟩
    rw [h.ls.2.1] at h1; cases h1
  · rintro w ⟨st, t, h1, _⟩
    exact h.no_instr h1

theorem Ins.warned (h : Ins n x f f') {k : Nat} {ws : List ParserWarning} (hw : Warned f k ws) :
    (k ≤ n → Warned f' k (ws.map (warning n f'.ls))) ∧ (n ≤ k → Warned f' (k + 1) (ws.map (warning n f'.ls))) := by
  have mid : ∀ {l}, Warned f' n l → Warned f' (n + 1) l := fun hl => by
    have := Warned.line n x _ _ hl h.ls.mid h.mid_warnings
    rwa [List.append_nil] at this
  induction hw with
  | nil => exact ⟨fun _ => .nil, fun h1 => by
      have : n = 0 := by omega
      subst this
      exact mid .nil⟩
  | line k raw ws as _ hk hl ih =>
    rw [List.map_append]
    have hl' := h.lineWarnings hk hl
    have hk' : f'.ls[at' n k]? = some raw := by rw [h.ls.line]; exact hk
    unfold at' at hl' hk'
    have key : k + 1 ≤ n → Warned f' (k + 1) (ws.map (warning n f'.ls) ++ as.map (warning n f'.ls)) := fun h1 => by
      rw [if_pos (by omega)] at hl' hk'
      exact .line k raw _ _ (ih.1 (by omega)) hk' hl'
    refine ⟨key, fun h1 => ?_⟩
    rcases Nat.eq_or_lt_of_le h1 with rfl | h4
    · exact mid (key (Nat.le_refl _))
    · rw [if_neg (by omega)] at hl' hk'
      exact .line (k + 1) raw _ _ (ih.2 (by omega)) hk' hl'

end
end Mips.Insert
