/- Files with the same outline. -/
import Verif.Spec.Edit
import Verif.Spec.Errors
import Verif.Lemmas.LinkL

namespace Mips.Edit
open Mips.Isa hiding conds
open Mips.Names hiding none
open Mips.Syntax Mips.Source Mips.Branch Mips.Operands
open Mips.Lang

theorem defines_iff {ls : List Str} {d : Nat} {l : Str} : Defines ls d l ↔ (ls.map kind)[d]? = some (.label l) := by
  unfold Defines
  rw [List.getElem?_map]
  cases ls[d]? <;> simp

theorem codeCount_map (ls : List Str) : codeCount ls = ((ls.map kind).filter (fun x => decide (x = .code))).length := by
  unfold codeCount
  induction ls with
  | nil => rfl
  | cons a ls ih =>
    simp only [List.filter_cons, List.map_cons, isCode]
    by_cases h : kind a = .code
    · simp only [h, decide_true, if_true, List.length_cons]; exact congrArg (· + 1) ih
    · simp only [h, decide_false]; exact ih

theorem globalsFrom_congr : ∀ {a b : List Str} (n : Nat), a.map kind = b.map kind → globalsFrom n a = globalsFrom n b := by
  intro a
  induction a with
  | nil =>
    intro b n h
    cases b with
    | nil => rfl
    | cons => cases h
  | cons x a ih =>
    intro b n h
    cases b with
    | nil => cases h
    | cons y b =>
      simp only [List.map_cons, List.cons.injEq] at h
      unfold globalsFrom
      rw [h.1]
      cases kind y with
      | blank => exact ih n h.2
      | code => exact ih (n + 1) h.2
      | label l => simp only [ih n h.2]

/-- The two files differ only in the texts of their lines. -/
structure Alike (f g : File) : Prop where
  ovf : f.ovf = g.ovf
  base : f.base = g.base
  syms : f.syms = g.syms
  outline : SameOutline f.ls g.ls

namespace Alike
section
variable {f g : File}

theorem symm (h : Alike f g) : Alike g f := ⟨h.ovf.symm, h.base.symm, h.syms.symm, h.outline.symm⟩

theorem defines (h : Alike f g) {d : Nat} {l : Str} : Defines f.ls d l ↔ Defines g.ls d l := by
  rw [defines_iff, defines_iff, h.outline]

theorem take (h : Alike f g) (k : Nat) : SameOutline (f.ls.take k) (g.ls.take k) := by
  unfold SameOutline
  rw [List.map_take, List.map_take, h.outline]

theorem count (h : Alike f g) (k : Nat) : codeCount (f.ls.take k) = codeCount (g.ls.take k) := by
  rw [codeCount_map, codeCount_map, h.take k]

theorem total (h : Alike f g) : codeCount f.ls = codeCount g.ls := by
  rw [codeCount_map, codeCount_map, h.outline]

theorem length (h : Alike f g) : f.ls.length = g.ls.length := by
  have := congrArg List.length h.outline
  simpa using this

theorem scope (h : Alike f g) (k : Nat) : Branch.scope f.ls k = Branch.scope g.ls k := by
  unfold Branch.scope globals
  rw [globalsFrom_congr 0 (h.take k)]

theorem kinds (h : Alike f g) {k : Nat} {raw : Str} (hk : f.ls[k]? = some raw) : ∃ raw', g.ls[k]? = some raw' ∧ kind raw' = kind raw := by
  have e : (f.ls.map kind)[k]? = (g.ls.map kind)[k]? := by rw [h.outline]
  rw [List.getElem?_map, List.getElem?_map, hk] at e
  cases hg : g.ls[k]? with
  | none => rw [hg] at e; cases e
  | some r => rw [hg] at e; simp only [Option.map_some, Option.some.injEq] at e; exact ⟨r, rfl, e.symm⟩

theorem visible (h : Alike f g) {k d : Nat} (hv : Visible f.ls k d) : Visible g.ls k d := by
  unfold Visible at *
  rw [← h.scope d, ← h.scope k]
  rcases hv with hv | ⟨h1, h2⟩
  · exact .inl hv
  · refine .inr ⟨h1, fun j raw hj hr hc => ?_⟩
    obtain ⟨raw', e1, e2⟩ := h.symm.kinds hr
    rw [← h.scope j]
    exact h2 j raw' hj e1 (e2.trans hc)

theorem chosen (h : Alike f g) {k d : Nat} {x : Str} (hc : Chosen f.ls k d x) : Chosen g.ls k d x := by
  obtain ⟨h1, h2, h3, h4⟩ := hc
  refine ⟨h.defines.1 h1, h.visible h2, fun d' k1 k2 => ?_, fun d' k1 k2 => ?_⟩
  · rw [← h.scope, ← h.scope]; exact h3 d' (h.defines.2 k1) (h.symm.visible k2)
  · rw [← h.scope, ← h.scope]; exact h4 d' k1 (h.defines.2 k2)

theorem chosen_iff (h : Alike f g) {k d : Nat} {x : Str} : Chosen f.ls k d x ↔ Chosen g.ls k d x := ⟨h.chosen, h.symm.chosen⟩

theorem closed (h : Alike f g) : HasClosedScope f.ls ↔ HasClosedScope g.ls := by
  unfold HasClosedScope
  simp only [h.defines, h.scope]

variable [Unicode]

theorem first (h : Alike f g) {d : Nat} {l : Str} : FirstDef f.ls d l ↔ FirstDef g.ls d l := by
  unfold FirstDef
  simp only [h.defines]

theorem refers (h : Alike f g) {k : Nat} {t : Str} : RefersTo (f.place k) t ↔ RefersTo (g.place k) t := by
  unfold RefersTo
  show (_ ∨ (_ ∧ ∃ d < k, Defines f.ls d _)) ↔ (_ ∨ (_ ∧ ∃ d < k, Defines g.ls d _))
  simp only [h.defines]

theorem value (h : Alike f g) {k : Nat} {r : Lang.Range} {s : Str} {v : Int} : Value (f.place k) r s v ↔ Value (g.place k) r s v :=
  ⟨Rename.value_place h.ovf h.syms, Rename.value_place h.ovf.symm h.syms.symm⟩

theorem number (h : Alike f g) {k : Nat} {t : Str} {v : Nat} : Number (f.place k) t v ↔ Number (g.place k) t v := by
  unfold Number; rw [h.refers]

theorem reads (h : Alike f g) {k : Nat} {x : Step} : Lang.Reads (f.place k) x ↔ Lang.Reads (g.place k) x := by
  have ref := fun {t} => h.refers (k := k) (t := t)
  have val := fun {r s v} => h.value (k := k) (r := r) (s := s) (v := v)
  cases x with
  | gpr | fpr | c0 | shamt | name | fname | format | cond | short | base => exact Iff.rfl
  | offset b s => simp only [Lang.Reads, ref, val]
  | const r s => simp only [Lang.Reads, ref, val]
  | number r s => simp only [Lang.Reads, ref, val]
  | code s => simp only [Lang.Reads, ref, val]
  | word32 s => simp only [Lang.Reads, ref, val]
  | cop s => simp only [Lang.Reads, ref, val]
  | target s =>
    show ((∃ a, Address f.syms (trim s) a) ∨ LabelName f.syms (trim s)) ↔ ((∃ a, Address g.syms (trim s) a) ∨ LabelName g.syms (trim s))
    rw [h.syms]

theorem breaks (h : Alike f g) {k : Nat} {s : Str} : Breaks (f.place k) s ↔ Breaks (g.place k) s := by
  have e1 : (f.place k).syms = (g.place k).syms := h.syms
  have e2 : (f.place k).ovf = (g.place k).ovf := h.ovf
  unfold Breaks
  rw [e1, e2]

theorem crashes (h : Alike f g) {k : Nat} {x : Step} : Crashes (f.place k) x ↔ Crashes (g.place k) x := by
  have ref := fun {t} => h.refers (k := k) (t := t)
  have val := fun {r s v} => h.value (k := k) (r := r) (s := s) (v := v)
  have br := fun {s} => h.breaks (k := k) (s := s)
  cases x with
  | gpr | fpr | c0 | shamt | name | fname | format | cond | short | base => exact Iff.rfl
  | offset b s => simp only [Crashes, ref, br]
  | const r s => simp only [Crashes, ref, br]
  | number r s => simp only [Crashes, ref, br]
  | code s => simp only [Crashes, ref, br]
  | word32 s => simp only [Crashes, ref, br]
  | cop s => simp only [Crashes, ref, br, val]
  | target s =>
    show Nothing f.syms (trim s) ↔ Nothing g.syms (trim s)
    rw [h.syms]

theorem stops (h : Alike f g) {k : Nat} : ∀ {st : List Step}, Stops (f.place k) st ↔ Stops (g.place k) st
  | [] => Iff.rfl
  | s :: st => by
    unfold Stops
    rw [h.crashes, h.reads, h.stops]

theorem complains (h : Alike f g) {k : Nat} {l : Line} {x : Step} {e : ParserError} : Complains (f.place k) l x e ↔ Complains (g.place k) l x e := by
  have val := fun {r s v} => h.value (k := k) (r := r) (s := s) (v := v)
  cases x with
  | word32 s => simp only [Complains, val]
  | _ => exact Iff.rfl

theorem fails (h : Alike f g) {k : Nat} {l : Line} {e : ParserError} : ∀ {st : List Step}, Fails (f.place k) l st e ↔ Fails (g.place k) l st e
  | [] => Iff.rfl
  | s :: st => by
    unfold Fails
    rw [h.crashes, h.reads, h.complains, h.fails]

theorem lineTaken (h : Alike f g) {k : Nat} {raw : Str} : LineTaken (f.place k) raw ↔ LineTaken (g.place k) raw := by
  unfold LineTaken
  cases kind raw with
  | blank => exact Iff.rfl
  | label l =>
    show (_ ∧ (_ → ∀ d < k, ¬ Defines f.ls d l)) ↔ (_ ∧ (_ → ∀ d < k, ¬ Defines g.ls d l))
    simp only [h.defines]
  | code => simp only [h.reads]

theorem lineCrashes (h : Alike f g) {k : Nat} {raw : Str} : LineCrashes (f.place k) raw ↔ LineCrashes (g.place k) raw := by
  unfold LineCrashes
  cases kind raw with
  | blank => exact Iff.rfl
  | label l => exact Iff.rfl
  | code => simp only [h.stops]

/-- the complaint about an instruction -/
theorem lineError (h : Alike f g) {k : Nat} {raw : Str} (hc : kind raw = .code) {e : ParserError} : LineError f k raw e ↔ LineError g k raw e := by
  unfold LineError
  rw [hc]
  simp only [h.fails]

/-- an instruction that stands in the same place -/
theorem instr (h : Alike f g) {k : Nat} (hk : f.ls[k]? = g.ls[k]?) {st : List Step} : Instr f k st ↔ Instr g k st := by
  unfold Instr
  simp only [hk, h.reads]

theorem const (h : Alike f g) {k : Nat} {r : Lang.Range} {t : Str} {v : Int} (hv : Lang.Const f k r t v) : Lang.Const g k r t v := by
  have dst : ∀ d, Lang.distance f k d = Lang.distance g k d := by intro d; unfold Lang.distance; rw [h.count k, h.count d]
  cases hv with
  | «local» d h1 h2 => rw [dst]; exact .local d h1 (h.chosen h2)
  | label d h1 h2 => rw [dst]; exact .label d h1 (h.first.1 h2)
  | value _ h1 h2 h3 => exact .value v h1 (fun k' => h2 (h.refers.2 k')) (h.value.1 h3)
  | place v h1 h2 => rw [h.count k]; exact .place v h1 (h.number.1 h2)
  | half m _ h1 h2 h3 h4 => exact .half m v h1 (fun k' => h2 (h.refers.2 k')) h3 (h.value.1 h4)

theorem yields (h : Alike f g) {k : Nat} {x : Step} {vs : List Val} (hy : Yields f k x vs) : Yields g k x vs := by
  cases hy with
  | gpr b s r h1 => exact .gpr b s r h1
  | fpr s r h1 => exact .fpr s r h1
  | c0 s r h1 => exact .c0 s r h1
  | base b s m r h1 h2 => exact .base b s m r h1 h2
  | offset b s u v h1 h2 => exact .offset b s u v h1 (h.const h2)
  | noOffset b s h1 => exact .noOffset b s h1
  | const r s v h1 => exact .const r s v (h.const h1)
  | number r s v h1 => exact .number r s v (h.value.1 h1)
  | code s v h1 h2 => exact .code s v h1 (h.value.1 h2)
  | noCode => exact .noCode
  | word32 s v h1 => exact .word32 s v (h.value.1 h1)
  | cop s v h1 => exact .cop s v (h.value.1 h1)
  | shamt s v h1 => exact .shamt s v h1
  | target s a h1 => exact .target s a (h.syms ▸ h1)
  | label s d h1 h2 => rw [h.base, h.count d]; exact .label s d (h.syms ▸ h1) (h.first.1 h2)
  | name w => exact .name w
  | fname w => exact .fname w
  | format w => exact .format w
  | cond w => exact .cond w

theorem values (h : Alike f g) {k : Nat} {st : List Step} {vs : List Val} (hy : Values f k st vs) : Values g k st vs := by
  induction hy with
  | nil => exact .nil
  | cons s sub a vs h1 _ ih => exact .cons s sub a vs (h.yields h1) ih

/-- the words of an instruction -/
theorem lineWords (h : Alike f g) {k : Nat} {raw : Str} {ws : List (BitVec 32)} (hw : LineWords f k raw ws) : LineWords g k raw ws := by
  obtain ⟨st, vs, h1, h2, h3⟩ := hw
  exact ⟨st, vs, h1, h.values h2, h3⟩

theorem distance (h : Alike f g) {k : Nat} {t : Str} {v : Int} (hd : Distance f k t v) : Distance g k t v := by
  cases hd with
  | «local» d h1 h2 => rw [h.count k, h.count d]; exact .local d h1 (h.chosen h2)
  | label d h1 h2 => rw [h.count k, h.count d]; exact .label d h1 (h.first.1 h2)
  | number v h1 => rw [h.count k]; exact .number v (h.number.1 h1)
  | half m v h1 h2 h3 => exact .half m v (fun hh => h1 (h.refers.2 hh)) h2 (h.value.1 h3)

/-- if all lines are taken, the instructions taken are the instructions -/
theorem counted_all {f : File} (ha : Lang.AllTaken f) {k n : Nat} (hc : Counted f k n) : n = codeCount (f.ls.take k) := by
  induction hc with
  | none => rfl
  | inst k n st _ hi ih =>
    obtain ⟨raw, h1, h2, _⟩ := hi
    rw [List.take_add_one, h1, codeCount_append, ← ih]
    have : codeCount (some raw).toList = 1 := by simp [codeCount, isCode, h2]
    omega
  | other k n _ hlt hn ih =>
    obtain ⟨raw, hr⟩ : ∃ raw, f.ls[k]? = some raw := ⟨_, List.getElem?_eq_getElem hlt⟩
    rw [List.take_add_one, hr, codeCount_append, ← ih]
    have hk : kind raw ≠ .code := by
      intro hk
      have := ha k raw hr
      unfold LineTaken at this
      rw [hk] at this
      obtain ⟨st, h1, h2⟩ := this
      exact hn st ⟨raw, hr, hk, h1, h2⟩
    have : codeCount (some raw).toList = 0 := by simp [codeCount, isCode, hk]
    omega

theorem counted_get (f : File) : ∀ k ≤ f.ls.length, ∃ n, Counted f k n
  | 0, _ => ⟨0, .none⟩
  | k + 1, hk => by
    obtain ⟨n, hn⟩ := counted_get f k (by omega)
    by_cases h : ∃ st, Instr f k st
    · obtain ⟨st, h⟩ := h; exact ⟨n + 1, .inst k n st hn h⟩
    · exact ⟨n, .other k n hn (by omega) fun st hs => h ⟨st, hs⟩⟩

theorem counted (h : Alike f g) (hf : Lang.AllTaken f) (hg : Lang.AllTaken g) {k n : Nat} (hc : Counted f k n) : Counted g k n := by
  have hk : k ≤ g.ls.length := by
    rw [← h.length]
    cases hc with
    | none => exact Nat.zero_le _
    | inst k n st _ hi => obtain ⟨raw, h1, _⟩ := hi; exact (List.getElem?_eq_some_iff.1 h1).1
    | other k n _ hlt _ => exact hlt
  obtain ⟨n', hn'⟩ := counted_get g k hk
  rw [counted_all hf hc, h.count k, ← counted_all hg hn']
  exact hn'

/-- what is wrong with line `k` -/
def OverflowsAt (f : File) (k : Nat) : Prop :=
  f.ovf = true ∧ ∃ st t, Instr f k st ∧
    ((.const addr t ∈ st ∧ (∃ v, Number (f.place k) t v) ∧ ∃ n, Counted f f.ls.length n ∧ NoRoom f n) ∨
     (.target t ∈ st ∧ LabelName f.syms (trim t) ∧ ∃ d n, FirstDef f.ls d (trim t) ∧ Counted f d n ∧ NoRoom f n))

def BadPlaceAt (f : File) (k : Nat) : Prop :=
  ∃ st t, Instr f k st ∧
    ((Constant st t ∧ isLocal (trim t) = true ∧ ¬ (HasClosedScope f.ls ∧ ∃ d, Chosen f.ls k d (trim t))) ∨
     (.target t ∈ st ∧ LabelName f.syms (trim t) ∧ ∀ d, ¬ FirstDef f.ls d (trim t)) ∨
     (.const addr t ∈ st ∧ ∃ v, Number (f.place k) t v ∧ (v < f.base.toNat ∨ (f.base.toNat + 4 * codeCount f.ls) % 2 ^ 32 < v)))

def NoCodeAt (f : File) (k : Nat) : Prop :=
  ∃ raw, f.ls[k]? = some raw ∧ kind raw = .code ∧
    (mnemonic (body raw) = c!".word" ∨
     (f.ovf = true ∧ mnemonic (body raw) ∈ cmpBranchNames ∧ ∃ st t o, Instr f k st ∧ .const addr t ∈ st ∧ Distance f k t o ∧ o % 65536 = 0))

theorem overflowsAt (h : Alike f g) (hf : Lang.AllTaken f) (hg : Lang.AllTaken g) {k : Nat} (hk : f.ls[k]? = g.ls[k]?) (ho : OverflowsAt f k) :
    OverflowsAt g k := by
  obtain ⟨h0, st, t, hi, hh⟩ := ho
  refine ⟨h.ovf ▸ h0, st, t, (h.instr hk).1 hi, ?_⟩
  have room : ∀ {n}, NoRoom f n → NoRoom g n := by intro n hn; unfold NoRoom at *; rw [← h.base]; exact hn
  rcases hh with ⟨h1, ⟨v, h2⟩, n, h3, h4⟩ | ⟨h1, h2, d, n, h3, h4, h5⟩
  · exact .inl ⟨h1, ⟨v, h.number.1 h2⟩, n, h.length ▸ h.counted hf hg h3, room h4⟩
  · exact .inr ⟨h1, h.syms ▸ h2, d, n, h.first.1 h3, h.counted hf hg h4, room h5⟩

theorem badPlaceAt (h : Alike f g) {k : Nat} (hk : f.ls[k]? = g.ls[k]?) (ho : BadPlaceAt f k) : BadPlaceAt g k := by
  obtain ⟨st, t, hi, hh⟩ := ho
  refine ⟨st, t, (h.instr hk).1 hi, ?_⟩
  rcases hh with ⟨h1, h2, h3⟩ | ⟨h1, h2, h3⟩ | ⟨h1, v, h2, h3⟩
  · exact .inl ⟨h1, h2, fun ⟨k1, d, k2⟩ => h3 ⟨h.closed.2 k1, d, h.symm.chosen k2⟩⟩
  · exact .inr (.inl ⟨h1, h.syms ▸ h2, fun d hd => h3 d (h.first.2 hd)⟩)
  · exact .inr (.inr ⟨h1, v, h.number.1 h2, by rw [← h.base, ← h.total]; exact h3⟩)

theorem noCodeAt (h : Alike f g) {k : Nat} (hk : f.ls[k]? = g.ls[k]?) (ho : NoCodeAt f k) : NoCodeAt g k := by
  obtain ⟨raw, h1, h2, h3⟩ := ho
  refine ⟨raw, hk ▸ h1, h2, ?_⟩
  rcases h3 with h3 | ⟨h3, h4, st, t, o, h5, h6, h7, h8⟩
  · exact .inl h3
  · exact .inr ⟨h.ovf ▸ h3, h4, st, t, o, (h.instr hk).1 h5, h6, h.distance h7, h8⟩

theorem accepted_iff {f : File} : Accepted f ↔ Lang.AllTaken f ∧ ∀ k, ¬ OverflowsAt f k ∧ ¬ BadPlaceAt f k ∧ ¬ NoCodeAt f k := by
  constructor
  · rintro ⟨h1, h2, h3, h4⟩
    refine ⟨h1, fun k => ⟨?_, ?_, ?_⟩⟩
    · rintro ⟨h0, st, t, h⟩; exact h2 ⟨h0, k, st, t, h⟩
    · rintro ⟨st, t, h⟩; exact h3 ⟨k, st, t, h⟩
    · rintro ⟨raw, h⟩; exact h4 ⟨k, raw, h⟩
  · rintro ⟨h1, h2⟩
    refine ⟨h1, ?_, ?_, ?_⟩
    · rintro ⟨h0, k, st, t, h⟩; exact (h2 k).1 ⟨h0, st, t, h⟩
    · rintro ⟨k, st, t, h⟩; exact (h2 k).2.1 ⟨st, t, h⟩
    · rintro ⟨k, raw, h⟩; exact (h2 k).2.2 ⟨raw, h⟩

theorem noLine {f : File} {k : Nat} (hk : f.ls[k]? = none) : ¬ OverflowsAt f k ∧ ¬ BadPlaceAt f k ∧ ¬ NoCodeAt f k := by
  refine ⟨?_, ?_, ?_⟩
  · rintro ⟨_, st, t, ⟨raw, h1, _⟩, _⟩; rw [hk] at h1; cases h1
  · rintro ⟨st, t, ⟨raw, h1, _⟩, _⟩; rw [hk] at h1; cases h1
  · rintro ⟨raw, h1, _⟩; rw [hk] at h1; cases h1

/-- a file whose lines are those of files that are accepted -/
theorem mix {c : File} (ha : Accepted f) (hb : Accepted g) (hfc : Alike f c) (hgc : Alike g c)
    (hm : ∀ (k : Nat) raw, c.ls[k]? = some raw → f.ls[k]? = some raw ∨ g.ls[k]? = some raw) : Accepted c := by
  rw [accepted_iff] at *
  have hT : Lang.AllTaken c := by
    intro k raw hk
    rcases hm k raw hk with h | h
    · exact hfc.lineTaken.1 (ha.1 k raw h)
    · exact hgc.lineTaken.1 (hb.1 k raw h)
  refine ⟨hT, fun k => ?_⟩
  cases hk : c.ls[k]? with
  | none => exact noLine hk
  | some raw =>
    rcases hm k raw hk with h | h
    · have e := hk.trans h.symm
      obtain ⟨a1, a2, a3⟩ := ha.2 k
      exact ⟨fun x => a1 (hfc.symm.overflowsAt hT ha.1 e x), fun x => a2 (hfc.symm.badPlaceAt e x), fun x => a3 (hfc.symm.noCodeAt e x)⟩
    · have e := hk.trans h.symm
      obtain ⟨a1, a2, a3⟩ := hb.2 k
      exact ⟨fun x => a1 (hgc.symm.overflowsAt hT hb.1 e x), fun x => a2 (hgc.symm.badPlaceAt e x), fun x => a3 (hgc.symm.noCodeAt e x)⟩

end
end Alike
end Mips.Edit
