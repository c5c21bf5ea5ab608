/- C09: local labels. -/
import Verif.Props.Labels
import Verif.Lemmas.LocalL

namespace Mips
open Isa Syntax Source Branch

theorem globalsFrom_append (a b : List Str) (n : Nat) : globalsFrom n (a ++ b) = globalsFrom n a ++ globalsFrom (n + codeCount a) b := by
  induction a generalizing n with
  | nil => simp [globalsFrom, codeCount]
  | cons r a ih =>
    rw [List.cons_append]
    simp only [globalsFrom]
    cases hr : kind r with
    | blank => simp only [ih]; congr 2; simp [codeCount, isCode, hr]
    | code => simp only [ih]; congr 2; simp [codeCount, isCode, hr]; omega
    | label q =>
      have e : codeCount (r :: a) = codeCount a := by simp [codeCount, isCode, hr]
      simp only [ih, e]
      split <;> simp

theorem globalsFrom_bounds (ls : List Str) (n : Nat) : ∀ e ∈ globalsFrom n ls, n ≤ e.2 ∧ e.2 ≤ n + codeCount ls := by
  induction ls generalizing n with
  | nil => intro e h; cases h
  | cons r ls ih =>
    intro e h
    simp only [globalsFrom] at h
    have hc : codeCount (r :: ls) = codeCount ls + if isCode r then 1 else 0 := by
      simp only [codeCount, List.filter_cons]; split <;> simp
    cases hr : kind r with
    | blank => rw [hr] at h; have := ih n e h; omega
    | code =>
      rw [hr] at h; have := ih (n + 1) e h
      rw [hc, show isCode r = true by simp [isCode, hr]]
      simp only [if_true]; omega
    | label q =>
      rw [hr] at h
      simp only at h
      split at h
      · have := ih n e h; omega
      · rcases List.mem_cons.1 h with rfl | h
        · exact ⟨Nat.le_refl _, Nat.le_add_right _ _⟩
        · have := ih n e h; omega

theorem globals_take (ls : List Str) (d : Nat) : globals (ls.take d) = (globals ls).take (scope ls d) := by
  obtain ⟨r, hr⟩ := globals_split ls d
  rw [hr]
  simp [scope]

theorem scope_le (ls : List Str) (d : Nat) : scope ls d ≤ (globals ls).length := by
  obtain ⟨r, hr⟩ := globals_split ls d
  rw [hr]
  simp [scope]

theorem scope_mono (ls : List Str) {d k : Nat} (h : d ≤ k) : scope ls d ≤ scope ls k := by
  have := scope_le (ls.take k) d
  unfold scope at *
  rwa [List.take_take, Nat.min_eq_left h] at this

/-- labels of earlier or the same scope are in front of line `k` -/
theorem label_before {ls : List Str} {k s : Nat} {e : Str × Nat} (h : (globals ls)[s]? = some e) (hs : s < scope ls k) :
    e.2 ≤ codeCount (ls.take k) := by
  have hm : e ∈ globals (ls.take k) := by
    rw [globals_take]
    rw [← List.getElem?_take_of_lt hs] at h
    exact List.mem_of_getElem? h
  have := (globalsFrom_bounds (ls.take k) 0 e hm).2
  omega

/-- labels of later scopes are behind the instruction of line `k` -/
theorem label_after {ls : List Str} {k s : Nat} {raw : Str} (hk : ls[k]? = some raw) (hc : kind raw = .code) {e : Str × Nat}
    (h : (globals ls)[s]? = some e) (hs : scope ls k ≤ s) : codeCount (ls.take k) < e.2 := by
  have hlt : k < ls.length := (List.getElem?_eq_some_iff.1 hk).1
  have e1 : ls = ls.take k ++ raw :: ls.drop (k + 1) := by
    have : ls[k] = raw := (List.getElem?_eq_some_iff.1 hk).2
    rw [← this, ← List.drop_eq_getElem_cons hlt, List.take_append_drop]
  have e2 : globals ls = globals (ls.take k) ++ globalsFrom (codeCount (ls.take k) + 1) (ls.drop (k + 1)) := by
    show globalsFrom 0 ls = globalsFrom 0 _ ++ _
    conv => lhs; rw [e1]
    rw [globalsFrom_append]
    simp [globalsFrom, hc]
  rw [e2, List.getElem?_append_right (by simpa [scope] using hs)] at h
  have := (globalsFrom_bounds _ _ e (List.mem_of_getElem? h)).1
  omega

/-- the name of the scope -/
def scName (ls : List Str) (k : Nat) : Str := ((globals (ls.take k)).getLast?.map (·.1)).getD []

theorem scName_zero {ls : List Str} {k : Nat} (h : scope ls k = 0) : scName ls k = [] := by
  unfold scName
  rw [List.length_eq_zero_iff.1 h]; rfl

theorem scName_succ {ls : List Str} {k s : Nat} (h : scope ls k = s + 1) : ∃ lo, (globals ls)[s]? = some (scName ls k, lo) := by
  have hl : s < (globals ls).length := by have := scope_le ls k; omega
  have : globals (ls.take k) = (globals ls).take (s + 1) := by rw [globals_take, h]
  refine ⟨((globals ls)[s]).2, ?_⟩
  unfold scName
  rw [this, List.take_succ, List.getElem?_eq_getElem hl, Option.toList_some, List.getLast?_concat]
  rfl

theorem findIdx_nodup {l : List (Str × Nat)} (h : (l.map (·.1)).Nodup) {s : Nat} {e : Str × Nat} (hs : l[s]? = some e) :
    l.findIdx? (fun q => q.1 == e.1) = some s := by
  rw [List.findIdx?_eq_some_iff_getElem]
  obtain ⟨hlt, he⟩ := List.getElem?_eq_some_iff.1 hs
  refine ⟨hlt, by simp [he], ?_⟩
  intro j hj
  simp only [beq_iff_eq, Bool.not_eq_true, beq_eq_false_iff_ne, ne_eq]
  intro hh
  have h1 : (l.map (·.1))[j]'(by simp; omega) = (l.map (·.1))[s]'(by simpa using hlt) := by simp [hh, he]
  exact List.pairwise_iff_getElem.1 h j s _ _ hj h1

theorem labelScope_zero (labels : List (Str × Nat)) (n : Nat) : labelScope labels n [] = some (0, n) := rfl

theorem labelScope_succ {labels : List (Str × Nat)} (h : (labels.map (·.1)).Nodup) (n : Nat) {s : Nat} {e : Str × Nat}
    (hs : labels[s]? = some e) (hne : e.1 ≠ []) :
    labelScope labels n e.1 = some (e.2, ((labels[s + 1]?).map (·.2)).getD n) := by
  unfold labelScope
  rw [if_neg (by simpa using hne), findIdx_nodup h hs]
  simp only [hs]
  cases labels[s + 1]? <;> rfl

/-- Where the scope of line `d` ends up relative to the instruction of line `k`. -/
theorem inRange {ls : List Str} (hn : ((globals ls).map (·.1)).Nodup) (hne : ∀ e ∈ globals ls, e.1 ≠ []) {k d : Nat} {raw : Str}
    (hk : ls[k]? = some raw) (hc : kind raw = .code)
    (h1 : scope ls d = 0 → scope ls k = 0)
    (h2 : (∃ j raw', j < k ∧ ls[j]? = some raw' ∧ kind raw' = .code ∧ scope ls j = scope ls k) ∨ scope ls k ≤ scope ls d) :
    ∃ lo hi, labelScope (globals ls) (codeCount ls) (scName ls d) = some (lo, hi) ∧
      (¬(codeCount (ls.take k) < lo ∨ hi < codeCount (ls.take k)) ↔ scName ls d = scName ls k) := by
  have hle := codeCount_take_le ls k
  rcases Nat.eq_zero_or_pos (scope ls d) with h0 | h0
  · rw [scName_zero h0, scName_zero (h1 h0)]
    exact ⟨0, _, labelScope_zero _ _, by simp; omega⟩
  · obtain ⟨s, hs⟩ : ∃ s, scope ls d = s + 1 := ⟨scope ls d - 1, by omega⟩
    obtain ⟨lo, hlo⟩ := scName_succ hs
    refine ⟨_, _, labelScope_succ hn _ hlo (hne _ (List.mem_of_getElem? hlo)), ?_⟩
    simp only
    have hname : scName ls d = scName ls k ↔ scope ls d = scope ls k := by
      constructor
      · intro hh
        rcases Nat.eq_zero_or_pos (scope ls k) with k0 | k0
        · rw [scName_zero k0] at hh
          exact absurd hh (hne _ (List.mem_of_getElem? hlo))
        · obtain ⟨s', hs'⟩ : ∃ s, scope ls k = s + 1 := ⟨scope ls k - 1, by omega⟩
          obtain ⟨lo', hlo'⟩ := scName_succ hs'
          have a := findIdx_nodup hn hlo
          have b := findIdx_nodup hn hlo'
          simp only at a b
          rw [hh, b] at a
          cases a; omega
      · intro hh
        unfold scName
        rw [globals_take, globals_take, hh]
    rw [hname]
    rcases Nat.lt_trichotomy (scope ls d) (scope ls k) with hlt | heq | hgt
    · -- an earlier scope
      have hsl : s + 1 < (globals ls).length := by have := scope_le ls k; omega
      have hsome : (globals ls)[s + 1]? = some (globals ls)[s + 1] := List.getElem?_eq_getElem hsl
      rcases h2 with ⟨j, raw', hj, hj1, hj2, hj3⟩ | h2
      · have a := label_before (k := j) hsome (by omega)
        have b : codeCount (ls.take j) < codeCount (ls.take k) := by
          have := codeCount_mono ls (show j + 1 ≤ k by omega)
          have e : codeCount (ls.take (j + 1)) = codeCount (ls.take j) + 1 := by
            rw [List.take_succ, hj1, codeCount_append]
            simp [codeCount, isCode, hj2]
          omega
        rw [hsome]
        simp only [Option.map_some, Option.getD_some]
        constructor
        · intro hh; omega
        · intro hh; omega
      · omega
    · -- the same scope
      constructor
      · intro _; exact heq
      · intro _
        have a := label_before (k := k) hlo (by omega)
        simp only at a
        intro hh
        rcases hh with hh | hh
        · omega
        · cases hx : (globals ls)[s + 1]? with
          | none => rw [hx] at hh; simp at hh; omega
          | some e =>
            have := label_after hk hc hx (by omega)
            rw [hx] at hh; simp at hh; omega
    · -- a later scope
      have a := label_after hk hc hlo (by omega)
      simp only at a
      constructor
      · intro hh; exact absurd (.inl a) hh
      · intro hh; omega

theorem exists_last {P : Nat → Prop} {N : Nat} (hN : ∀ d, P d → d < N) (h : ∃ d, P d) : ∃ d, P d ∧ ∀ d', d < d' → ¬ P d' := by
  induction N with
  | zero => obtain ⟨d, hd⟩ := h; exact absurd (hN d hd) (by omega)
  | succ N ih =>
    by_cases hP : P N
    · exact ⟨N, hP, fun d' hd' h' => by have := hN d' h'; omega⟩
    · refine ih (fun d hd => ?_)
      have := hN d hd
      rcases Nat.lt_or_ge d N with h1 | h1
      · exact h1
      · have : d = N := by omega
        subst this; exact absurd hd hP

theorem lookup_ne_none {l : List (Str × Nat)} {k : Str} {v : Nat} (h : (k, v) ∈ l) : l.lookup k ≠ none := by
  intro hh
  rw [List.lookup_eq_none_iff] at hh
  have := hh _ h
  simp at this

theorem findLocal_spec {labels : List (Str × Nat)} {n i : Nat} {nm : Str} : ∀ (L : List Loc),
    (∀ e ∈ L, ∃ lo hi, labelScope labels n e.2.2 = some (lo, hi) ∧ (¬(i < lo ∨ hi < i) ↔ e.2.2 = nm)) →
    findLocal labels n i L = some ((L.find? fun e => e.2.2 == nm).map (·.2.1)) := by
  intro L
  induction L with
  | nil => intro _; rfl
  | cons e L ih =>
    intro h
    obtain ⟨lo, hi, h1, h2⟩ := h e (by simp)
    obtain ⟨x, a, b⟩ := e
    simp only at h1 h2
    simp only [findLocal, h1]
    by_cases hb : b = nm
    · rw [if_neg (h2.2 hb), List.find?_cons]
      simp [hb]
    · rw [if_pos (Decidable.not_not.1 (fun hh => hb (h2.1 hh))), List.find?_cons]
      rw [show (b == nm) = false by simpa using hb]
      exact ih (fun e he => h e (by simp [he]))

section
variable [Unicode] {rt : Rt} {m : Mipsasm} {text : Str} {tr : List Outcome}

theorem tr_loc (hT : IsTrace (envOf rt m text) (lines text) tr) (he : outErrors tr = []) {x : Str} (hx : isLocal x = true) (d : Nat) :
    tr[d]? = some (.loc x) ↔ Defines (lines text) d x := by
  constructor
  · intro h
    have hd : d < (lines text).length := by rw [← hT.1]; exact (List.getElem?_eq_some_iff.1 h).1
    have hr : (lines text)[d]? = some (lines text)[d] := List.getElem?_eq_getElem hd
    rcases trace_matches hT he hr h with ⟨_, h2⟩ | ⟨_, _, _, h2⟩ | ⟨l, h1, _, h2⟩ | ⟨l, _, _, h2⟩
    · cases h2
    · cases h2
    · cases h2; exact ⟨_, hr, h1⟩
    · cases h2
  · rintro ⟨raw, h1, h2⟩
    have hd : d < tr.length := by rw [hT.1]; exact (List.getElem?_eq_some_iff.1 h1).1
    have ho : tr[d]? = some tr[d] := List.getElem?_eq_getElem hd
    rw [ho]
    rcases trace_matches hT he h1 ho with ⟨h3, _⟩ | ⟨h3, _⟩ | ⟨l, h3, _, h4⟩ | ⟨l, h3, h4, _⟩
    · rw [h2] at h3; cases h3
    · rw [h2] at h3; cases h3
    · rw [h2] at h3; cases h3; rw [h4]
    · rw [h2] at h3; cases h3; rw [hx] at h4; cases h4

theorem tr_sc (hT : IsTrace (envOf rt m text) (lines text) tr) (he : outErrors tr = []) (d : Nat) : trSc tr d = scope (lines text) d := by
  unfold trSc scope; rw [(trace_counts hT he d).1]

theorem tr_entry (hT : IsTrace (envOf rt m text) (lines text) tr) (he : outErrors tr = []) (d : Nat) (x : Str) :
    entryOf tr d x = (x, codeCount ((lines text).take d), scName (lines text) d) := by
  unfold entryOf trCnt trName scName; rw [(trace_counts hT he d).1, (trace_counts hT he d).2]

theorem labels_facts (hT : IsTrace (envOf rt m text) (lines text) tr) (he : outErrors tr = []) :
    ((globals (lines text)).map (·.1)).Nodup ∧ ∀ e ∈ globals (lines text), e.1 ≠ [] := by
  have key : ∀ (j : Nat) raw l, (lines text)[j]? = some raw → kind raw = .label l → isLocal l = false →
      l ≠ [] ∧ (globals ((lines text).take j)).lookup l = none := by
    intro j raw l h1 h2 h3
    have hlt : j < tr.length := by rw [hT.1]; exact (List.getElem?_eq_some_iff.1 h1).1
    have ho : tr[j]? = some tr[j] := List.getElem?_eq_getElem hlt
    have hr := hT.2 j raw _ h1 ho
    have hnr := outErrors_nil he j
    rw [ho] at hnr
    unfold lineRes at hr
    rw [h2] at hr
    simp only [labelRes] at hr
    cases l with
    | nil => cases hr
    | cons c l =>
      simp only at hr
      rw [(trace_counts hT he j).1] at hr
      refine ⟨by simp, ?_⟩
      cases hlk : (globals ((lines text).take j)).lookup (c :: l) with
      | none => rfl
      | some v =>
        rw [hlk] at hr
        split at hr
        · rw [← Option.some.inj hr] at hnr; exact absurd rfl (hnr _ _)
        · simp only at hr
          split at hr
          · rw [← Option.some.inj hr] at hnr; exact absurd rfl (hnr _ _)
          · cases hr
  constructor
  · refine nodup_globals ?_ 0
    intro j k raw raw' l hjk h1 h2 hl k1 k2
    have := (key k raw' l h2 k2 hl).2
    have hm := defines_mem (ls := lines text) (d := j) (k := k) ⟨raw, h1, k1⟩ hl hjk
    exact absurd this (lookup_ne_none hm)
  · intro e h
    obtain ⟨d, hd, raw, h1, h2⟩ := mem_globals h
    intro h0
    rw [h0] at h2
    have := (key d raw [] h1 h2 (by decide)).1
    exact this rfl

/-- What label resolution does to a reference to a local label. -/
theorem local_adjust (hT : IsTrace (envOf rt m text) (lines text) tr) (he : outErrors tr = []) {k : Nat} {raw x : Str}
    (hk : (lines text)[k]? = some raw) (hc : kind raw = .code) (hx : isLocal x = true) (hu : Undisturbed (lines text) k x)
    (op : ITypeOp) (rs rt' : Register) (b : List Word) :
    (∃ d, LastIn (lines text) k d x ∧ (outLocs tr).dropped ≠ [] ∧
      adjust1 (envOf rt m text) (canonF tr) (codeCount ((lines text).take k)) (k + 1, .imm op rs rt' (.localLabel x) b) =
        some (.imm op rs rt' (.short (relOff (codeCount ((lines text).take d)) (codeCount ((lines text).take k)))) [], [])) ∨
    (((∀ d, Defines (lines text) d x → scope (lines text) d ≠ scope (lines text) k) ∨ (outLocs tr).dropped = []) ∧
      ∃ a, adjust1 (envOf rt m text) (canonF tr) (codeCount ((lines text).take k)) (k + 1, .imm op rs rt' (.localLabel x) b) =
        some (a, [.undefinedLabel ⟨k + 1, raw⟩ x]) ∨
        adjust1 (envOf rt m text) (canonF tr) (codeCount ((lines text).take k)) (k + 1, .imm op rs rt' (.localLabel x) b) =
        some (a, [.localLabelOutOfScope ⟨k + 1, raw⟩ x])) := by
  have hline : lineAt (envOf rt m text) (k + 1) = some ⟨k + 1, raw⟩ := by
    simp [lineAt, envOf, hk]
  obtain ⟨hn, hne⟩ := labels_facts hT he
  have hlab : (canonF tr).labels = globals (lines text) := (trace_counts_all hT he).1
  have hins : (canonF tr).insts.length = codeCount (lines text) := (trace_counts_all hT he).2
  by_cases hdr : (outLocs tr).dropped = []
  · refine .inr ⟨.inr hdr, .imm op rs rt' (.localLabel x) b, .inl ?_⟩
    have : (canonF tr).dropped = [] := by simp [canonF, finalLocs, hdr]
    simp only [adjust1, this, hline, opt_bind, Option.bind_some, List.filter_nil, List.isEmpty_nil, if_true]
  · have hfl : (canonF tr).dropped = (outLocs tr).dropped ++ (outLocs tr).cur := by
      simp only [canonF, finalLocs]
      rw [if_neg (by simpa using hdr)]
    have hent : ∀ e, e ∈ (canonF tr).dropped ↔ ∃ d y, IsLast tr d y ∧ e = entryOf tr d y := by
      intro e
      rw [hfl, List.mem_append, (outLocs_spec tr).1, (outLocs_spec tr).2]
      constructor
      · rintro (⟨d, y, a, _, c⟩ | ⟨d, y, a, _, c⟩) <;> exact ⟨d, y, a, c⟩
      · rintro ⟨d, y, a, c⟩
        have := trSc_mono tr (Nat.le_of_lt (isLast_lt a))
        rcases Nat.lt_or_ge (trSc tr d) (trSc tr tr.length) with h | h
        · exact .inl ⟨d, y, a, h, c⟩
        · exact .inr ⟨d, y, a, by omega, c⟩
    generalize hL : ((canonF tr).dropped.filter fun d => d.1 == x) = L
    have hLm : ∀ e, e ∈ L ↔ ∃ d, IsLast tr d x ∧ e = (x, codeCount ((lines text).take d), scName (lines text) d) := by
      intro e
      rw [← hL, List.mem_filter, hent]
      constructor
      · rintro ⟨⟨d, y, a, c⟩, h⟩
        rw [tr_entry hT he] at c
        subst c
        simp only [beq_iff_eq] at h
        subst h
        exact ⟨d, a, rfl⟩
      · rintro ⟨d, a, c⟩
        rw [← tr_entry hT he] at c
        exact ⟨⟨d, x, a, c⟩, by subst c; simp [entryOf]⟩
    have hspec := findLocal_spec (labels := globals (lines text)) (n := codeCount (lines text)) (i := codeCount ((lines text).take k))
      (nm := scName (lines text) k) L (by
        intro e hel
        obtain ⟨d, a, rfl⟩ := (hLm e).1 hel
        have hdef := (tr_loc hT he hx d).1 a.1
        refine inRange hn hne hk hc (hu.1 d hdef) ?_
        rcases hu.2 with h | h
        · exact .inl h
        · exact .inr (h d hdef))
    have hname : ∀ d, Defines (lines text) d x → scName (lines text) d = scName (lines text) k → scope (lines text) d = scope (lines text) k := by
      intro d hdef hh
      rcases Nat.eq_zero_or_pos (scope (lines text) d) with h0 | h0
      · rw [h0, hu.1 d hdef h0]
      · obtain ⟨s, hs⟩ : ∃ s, scope (lines text) d = s + 1 := ⟨scope (lines text) d - 1, by omega⟩
        obtain ⟨lo, hlo⟩ := scName_succ hs
        rcases Nat.eq_zero_or_pos (scope (lines text) k) with k0 | k0
        · rw [scName_zero k0] at hh
          exact absurd hh (hne _ (List.mem_of_getElem? hlo))
        · obtain ⟨s', hs'⟩ : ∃ s, scope (lines text) k = s + 1 := ⟨scope (lines text) k - 1, by omega⟩
          obtain ⟨lo', hlo'⟩ := scName_succ hs'
          have a := findIdx_nodup hn hlo
          have b := findIdx_nodup hn hlo'
          simp only at a b
          rw [hh, b] at a
          cases a; omega
    cases hf : L.find? fun e => e.2.2 == scName (lines text) k with
    | some e =>
      obtain ⟨d, a, hed⟩ := (hLm e).1 (List.mem_of_find?_eq_some hf)
      have hp := List.find?_some hf
      simp only [beq_iff_eq] at hp
      have hdef := (tr_loc hT he hx d).1 a.1
      have hsc := hname d hdef (by rw [← hp, hed])
      refine .inl ⟨d, ⟨hdef, hsc, ?_⟩, hdr, ?_⟩
      · intro d' hd' hdef'
        have := a.2 d' hd' ((tr_loc hT he hx d').2 hdef')
        rw [tr_sc hT he, tr_sc hT he, hsc] at this
        exact this
      · have hLe : L.isEmpty = false := by
          cases L with
          | nil => cases hf
          | cons _ _ => rfl
        rw [hf, Option.map_some, hed] at hspec
        simp only [adjust1, hL, hLe, hlab, hins, hspec, opt_bind, Option.bind_some]
        rfl
    | none =>
      refine .inr ⟨.inl ?_, ?_⟩
      · intro d hdef hsc
        -- take the last definition in the scope
        obtain ⟨d2, h2, h3⟩ : ∃ d2, IsLast tr d2 x ∧ scope (lines text) d2 = scope (lines text) k := by
          obtain ⟨d2, h2, h3⟩ := exists_last (P := fun d => tr[d]? = some (.loc x) ∧ scope (lines text) d = scope (lines text) k) (N := tr.length)
            (fun d h => (List.getElem?_eq_some_iff.1 h.1).1) ⟨d, (tr_loc hT he hx d).2 hdef, hsc⟩
          refine ⟨d2, ⟨h2.1, fun d' hd' h4 h5 => ?_⟩, h2.2⟩
          rw [tr_sc hT he, tr_sc hT he, h2.2] at h5
          exact h3 d' hd' ⟨h4, h5⟩
        have := List.find?_eq_none.1 hf _ ((hLm _).2 ⟨d2, h2, rfl⟩)
        simp only [beq_iff_eq] at this
        apply this
        unfold scName
        rw [globals_take, globals_take, h3]
      · rw [hf, Option.map_none] at hspec
        cases hLe : L.isEmpty with
        | true => exact ⟨.imm op rs rt' (.localLabel x) b, .inl (by simp only [adjust1, hL, hLe, hline, opt_bind, Option.bind_some, if_true])⟩
        | false => exact ⟨.imm op rs rt' (.localLabel x) b, .inr (by simp only [adjust1, hL, hLe, hlab, hins, hspec, hline, opt_bind, Option.bind_some]; rfl)⟩
end


/-- C09, restricted to undisturbed references: in an accepted program, a reference to a local label resolves to its (last)
definition in the scope of the reference, before or after it.
Missing: without the restriction the property is false (`C09_next_scope`, `C09_top_level`). -/
theorem C09_resolves_partial [Unicode] (rt : Rt) (m : Mipsasm) (text : Str) (is : List Instruction) (warns : List ParserWarning)
    (h : assemble rt m text = .ok is warns) (k : Nat) (x t mn : Str) (regs : List (BitVec 5))
    (hb : BranchAt (lines text) k mn regs t) (hbr : IsBranch mn regs) (ht : trim t = x) (hx : isLocal x = true)
    (hu : Undisturbed (lines text) k x) :
    ∃ d, LastIn (lines text) k d x ∧ HasOffset is (codeCount ((lines text).take k)) mn regs
      (BitVec.ofInt 16 ((codeCount ((lines text).take d) : Int) - (codeCount ((lines text).take k) + 1))) := by
  obtain ⟨raw, hk, hc, hb⟩ := hb
  obtain ⟨tr, c, ws, p, a, b, hT, he, _, hat, ho, hp, ha, hb', hab, hi, hlen⟩ := line_done h hk hc
  obtain ⟨op, hop⟩ := isBranch_op hbr
  have hpar := br_parse c hb (brOps1_mem _ hop) rfl
  rw [parseImm_local c .u32 (by rw [ht]; exact hx), hp, ht] at hpar
  simp only [Res.bind, Res.ok.injEq] at hpar
  subst hpar
  rcases local_adjust hT he hk hc hx hu op (brRs regs) (brRt regs) [] with ⟨d, h1, _, h2⟩ | ⟨_, q, h2 | h2⟩
  · rw [ha] at h2
    cases h2
    refine ⟨d, h1, ?_⟩
    obtain ⟨w, w1, w2⟩ := br_encode hop rt.ovf (relOff (codeCount ((lines text).take d)) (codeCount ((lines text).take k))) []
    rw [w2] at hb'
    refine ⟨w, w1, ?_⟩
    rw [hi]
    simp only [Option.map_some]
    exact congrArg some (Option.some.inj hb').symm
  · rw [ha] at h2; cases h2
  · rw [ha] at h2; cases h2

/-- C09 and C06 for local labels, restricted moreover to one-word instructions in between and to distances that fit: the branch
reaches the first word emitted after the definition. -/
theorem C09_reaches_partial [Unicode] (rt : Rt) (m : Mipsasm) (text : Str) (is : List Instruction) (warns : List ParserWarning)
    (h : assemble rt m text = .ok is warns) (k d : Nat) (x t mn : Str) (regs : List (BitVec 5))
    (hb : BranchAt (lines text) k mn regs t) (hbr : IsBranch mn regs) (ht : trim t = x) (hx : isLocal x = true)
    (hu : Undisturbed (lines text) k x) (hd : LastIn (lines text) k d x)
    (hs : Single is (min (codeCount ((lines text).take d)) (codeCount ((lines text).take k)))
      (max (codeCount ((lines text).take d)) (codeCount ((lines text).take k))))
    (hf : codeCount ((lines text).take k) < codeCount ((lines text).take d) + 32768 ∧
      codeCount ((lines text).take d) ≤ codeCount ((lines text).take k) + 32768) :
    Reaches is (codeCount ((lines text).take k)) (codeCount ((lines text).take d)) mn regs := by
  obtain ⟨d', h1, h2⟩ := C09_resolves_partial rt m text is warns h k x t mn regs hb hbr ht hx hu
  have : d' = d := by
    rcases Nat.lt_trichotomy d d' with hh | hh | hh
    · exact absurd h1.2.1 (hd.2.2 d' hh h1.1)
    · exact hh.symm
    · exact absurd hd.2.1 (h1.2.2 d hh hd.1)
  subst this
  have hc2 := codeCount_take_le (lines text) d'
  exact reaches_of (by rw [is_length h]; omega) h2 hs (by omega) (by omega)

theorem noErr_of_lineErrors {tr : List Outcome} {es : List ParserError} {env : Env} [Unicode] (hT : IsTrace env env.input tr)
    (hl : lineErrors (outErrors tr ++ es) = []) : outErrors tr = [] := by
  cases ho : outErrors tr with
  | nil => rfl
  | cons e l =>
    obtain ⟨k, ws, hk⟩ := outErrors_get (tr := tr) (e := e) (by rw [ho]; simp)
    obtain ⟨_, _, _, this⟩ := trace_err_line hT hk
    rw [ho] at hl
    simp only [lineErrors, List.cons_append, List.filter_cons] at hl
    rw [if_pos (by simp [this])] at hl
    cases hl

/-- C09: if all lines are well-formed, no reference to a local label that is defined in the scope of the reference is
reported, provided some local label of the file is followed by a global label. -/
theorem C09_accepted_partial [Unicode] (rt : Rt) (m : Mipsasm) (text : Str) (errs : List ParserError)
    (h : (assemble rt m text).errors = some errs) (hl : lineErrors errs = []) (k : Nat) (raw x t mn : Str) (regs : List (BitVec 5))
    (hk : (lines text)[k]? = some raw) (hc : kind raw = .code) (hb : BrText (body raw) mn regs t) (hbr : IsBranch mn regs)
    (ht : trim t = x) (hx : isLocal x = true) (hu : Undisturbed (lines text) k x)
    (hd : ∃ d, Defines (lines text) d x ∧ scope (lines text) d = scope (lines text) k)
    (hg : ∃ d g y, Defines (lines text) d y ∧ isLocal y = true ∧ d < g ∧ scope (lines text) d < scope (lines text) g) :
    ∀ l y, (.undefinedLabel l y ∈ errs ∨ .localLabelOutOfScope l y ∈ errs) → l.num ≠ k + 1 := by
  obtain ⟨tr, out, hT, hes, hlen, hall⟩ := assemble_errors h
  rw [hes] at hl
  have he := noErr_of_lineErrors (env := envOf rt m text) hT hl
  have href := ref_isRef (env := envOf rt m text) (s := canonF tr) hlen hall
  obtain ⟨op, hop⟩ := isBranch_op hbr
  -- the outcome of line k
  have hlt : k < tr.length := by rw [hT.1]; exact (List.getElem?_eq_some_iff.1 hk).1
  have ho : tr[k]? = some tr[k] := List.getElem?_eq_getElem hlt
  have hres := hT.2 k raw _ hk ho
  unfold lineRes at hres
  rw [hc] at hres
  have hpar := br_parse (ctxAt (envOf rt m text) (tr.take k)) hb (brOps1_mem _ hop) rfl
  rw [parseImm_local _ .u32 (by rw [ht]; exact hx), ht] at hpar
  simp only [Res.bind] at hpar
  simp only [instRes, hpar] at hres
  rw [← Option.some.inj hres] at ho
  have hins := outInsts_at ho
  rw [(trace_counts hT he k).2] at hins
  have hdr : (outLocs tr).dropped ≠ [] := by
    obtain ⟨d, g, y, h1, h2, h3, h4⟩ := hg
    have ht1 := (tr_loc hT he h2 d).2 h1
    obtain ⟨d2, q1, q2⟩ := exists_last (P := fun e => tr[e]? = some (.loc y) ∧ trSc tr e = trSc tr d) (N := tr.length)
      (fun d h => (List.getElem?_eq_some_iff.1 h.1).1) ⟨d, ht1, rfl⟩
    have hlast : IsLast tr d2 y := ⟨q1.1, fun d' a b c => q2 d' a ⟨b, c.trans q1.2⟩⟩
    have : trSc tr d2 < trSc tr tr.length := by
      rw [q1.2]
      have a := tr_sc hT he d
      have b := tr_sc hT he g
      have b2 := tr_sc hT he tr.length
      have c : scope (lines text) g ≤ scope (lines text) tr.length := by
        rcases Nat.le_total g tr.length with hh | hh
        · exact scope_mono _ hh
        · unfold scope
          rw [List.take_of_length_le (by rw [← hT.1]; exact hh), List.take_of_length_le (by rw [← hT.1]; exact Nat.le_refl _)]
          exact Nat.le_refl _
      omega
    intro h0
    have := ((outLocs_spec tr).1 _).2 ⟨d2, y, hlast, this, rfl⟩
    rw [h0] at this; cases this
  obtain ⟨a0, ha0⟩ : ∃ a, adjust1 (envOf rt m text) (canonF tr) (codeCount ((lines text).take k))
      (k + 1, .imm op (brRs regs) (brRt regs) (.localLabel x) []) = some (a, []) := by
    rcases local_adjust hT he hk hc hx hu op (brRs regs) (brRt regs) [] with ⟨d, _, _, h2⟩ | ⟨h2 | h2, _⟩
    · exact ⟨_, h2⟩
    · obtain ⟨d, h3, h4⟩ := hd
      exact absurd h4 (h2 d h3)
    · exact absurd h2 hdr
  intro l y hly hnum
  have : ∃ e, e ∈ errs ∧ e.line = l ∧ (e = .undefinedLabel l y ∨ e = .localLabelOutOfScope l y) := by
    rcases hly with h | h
    · exact ⟨_, h, rfl, .inl rfl⟩
    · exact ⟨_, h, rfl, .inr rfl⟩
  obtain ⟨e, hm, _, hel⟩ := this
  rw [hes, he, List.nil_append] at hm
  obtain ⟨_, i, p, q, hp, hq, hq2⟩ := href e hm
  -- the error is that of instruction i, whose line number is l.num = k + 1
  have hpn : p.1 = l.num := by
    obtain ⟨a, es⟩ := q
    simp only at hq2
    subst hq2
    rcases adjust1_errs hq with h | ⟨l', raw', h, h1, h2⟩ | ⟨l', raw', h, h1, h2⟩ | ⟨last, raw', hi', h, h1, h2, _⟩
    · cases h
    all_goals
      simp only [List.cons.injEq, and_true] at h
      subst h
      rcases hel with h | h <;> cases h
    all_goals rfl
  obtain ⟨k', ws', g1, g2, g3⟩ := outInsts_get hp
  have hkk : k' = k := by omega
  subst hkk
  have : i = codeCount ((lines text).take k') := by rw [← (trace_counts hT he k').2, g3]
  subst this
  rw [hins] at hp
  cases hp
  rw [ha0] at hq
  cases hq
  cases hq2


/-- C09 fails for the first instruction of a scope: it also sees the local labels of the scope in front of it, and prefers
them. In `a: @@x: nop; b: b @@x; @@x: nop` the reference lies in the scope of `b` but goes to the definition in the scope
of `a`. -/
theorem C09_next_scope : ∃ text is warns, @assemble asciiUnicode (idRt true) Mipsasm.new text = .ok is warns ∧
    BranchAt (lines text) 4 c!"b" [] c!"@@x" ∧ LastIn (lines text) 4 5 c!"@@x" ∧ codeCount ((lines text).take 5) = 2 ∧
    HasOffset is 1 c!"b" [] (-2) := by
  let text := c!"a:\n@@x:\nnop\nb:\nb @@x\n@@x:\nnop"
  obtain ⟨is, warns, h, hf⟩ := insts_ok (o := @assemble asciiUnicode (idRt true) Mipsasm.new text)
    (f := fun is => decide ((is[1]?).map Instruction.getBytes = some [0x1000fffe#32])) (by decide +kernel)
  refine ⟨text, is, warns, h, ⟨c!"b @@x", by decide +kernel, by decide +kernel, brText0 (by unfold SameName; decide) (by decide +kernel) (by decide)⟩,
    ⟨⟨c!"@@x:", by decide +kernel, by decide +kernel⟩, by decide +kernel, ?_⟩, by decide +kernel, ⟨_, rfl, (of_decide_eq_true hf).trans (by decide)⟩⟩
  intro d' hd' ⟨raw, h1, h2⟩
  have h1 : ([c!"a:", c!"@@x:", c!"nop", c!"b:", c!"b @@x", c!"@@x:", c!"nop"] : List Str)[d']? = some raw := h1
  match d', hd' with
  | 6, _ => cases h1; exact absurd h2 (by decide +kernel)
  | n + 7, _ => cases h1

/-- C09 fails for local labels in front of all global labels: they are visible, and preferred, everywhere. -/
theorem C09_top_level : ∃ text is warns, @assemble asciiUnicode (idRt true) Mipsasm.new text = .ok is warns ∧
    BranchAt (lines text) 4 c!"b" [] c!"@@x" ∧ (∀ d, Defines (lines text) d c!"@@x" → scope (lines text) d ≠ scope (lines text) 4) ∧
    HasOffset is 2 c!"b" [] (-3) := by
  let text := c!"@@x:\nnop\na:\nnop\nb @@x"
  obtain ⟨is, warns, h, hf⟩ := insts_ok (o := @assemble asciiUnicode (idRt true) Mipsasm.new text)
    (f := fun is => decide ((is[2]?).map Instruction.getBytes = some [0x1000fffd#32])) (by decide +kernel)
  refine ⟨text, is, warns, h, ⟨c!"b @@x", by decide +kernel, by decide +kernel, brText0 (by unfold SameName; decide) (by decide +kernel) (by decide)⟩,
    ?_, ⟨_, rfl, (of_decide_eq_true hf).trans (by decide)⟩⟩
  intro d ⟨raw, h1, h2⟩
  have h1 : ([c!"@@x:", c!"nop", c!"a:", c!"nop", c!"b @@x"] : List Str)[d]? = some raw := h1
  match d with
  | 0 => decide +kernel
  | 1 | 2 | 3 | 4 => cases h1; exact absurd h2 (by decide +kernel)
  | n + 5 => cases h1

/-- C09 fails in a file in which no global label follows a local one: no reference to a local label is ever accepted. -/
theorem C09_single_scope [Unicode] (rt : Rt) (m : Mipsasm) (text : Str) (k : Nat) (x t mn : Str) (regs : List (BitVec 5))
    (hb : BranchAt (lines text) k mn regs t) (hbr : IsBranch mn regs) (ht : trim t = x) (hx : isLocal x = true)
    (hg : ∀ d g y, Defines (lines text) d y → isLocal y = true → d < g → scope (lines text) g ≤ scope (lines text) d)
    (is : List Instruction) (warns : List ParserWarning) : assemble rt m text ≠ .ok is warns := by
  intro h
  obtain ⟨raw, hk, hc, hb⟩ := hb
  obtain ⟨tr, c, ws, p, a, b, hT, he, _, hat, ho, hp, ha, hb', hab, hi, hlen⟩ := line_done h hk hc
  obtain ⟨op, hop⟩ := isBranch_op hbr
  have hpar := br_parse c hb (brOps1_mem _ hop) rfl
  rw [parseImm_local c .u32 (by rw [ht]; exact hx), hp, ht] at hpar
  simp only [Res.bind, Res.ok.injEq] at hpar
  subst hpar
  have hdr : (outLocs tr).dropped = [] := by
    rw [List.eq_nil_iff_forall_not_mem]
    intro e hem
    obtain ⟨d, y, h1, h2, _⟩ := ((outLocs_spec tr).1 e).1 hem
    have hd := isLast_lt h1
    have hy : isLocal y = true := by
      have hr : (lines text)[d]? = some ((lines text)[d]'(by rw [← hT.1]; exact hd)) := List.getElem?_eq_getElem _
      rcases trace_matches hT he hr h1.1 with ⟨_, h2⟩ | ⟨_, _, _, h2⟩ | ⟨l, _, h1, h2⟩ | ⟨l, _, _, h2⟩
      · cases h2
      · cases h2
      · cases h2; exact h1
      · cases h2
    have := hg d tr.length y ((tr_loc hT he hy d).1 h1.1) hy hd
    rw [tr_sc hT he, tr_sc hT he] at h2
    omega
  have : (canonF tr).dropped = [] := by simp [canonF, finalLocs, hdr]
  have hline : lineAt (envOf rt m text) (k + 1) = some ⟨k + 1, raw⟩ := by
    simp [lineAt, envOf, hk]
  simp only [adjust1, this, hline, opt_bind, Option.bind_some, List.filter_nil, List.isEmpty_nil, if_true] at ha
  cases ha

/-- Non-vacuity: two scopes with the same local name, a forward and a backward reference. -/
example : ∃ is warns, @assemble asciiUnicode (idRt true) Mipsasm.new c!"a:\nnop\nb @@x\nnop\n@@x:\nnop\nb:\n@@x:\nnop\nb @@x" = .ok is warns ∧
    HasOffset is 1 c!"b" [] 1 ∧ HasOffset is 5 c!"b" [] (-2) ∧ IsBranch c!"b" [] := by
  obtain ⟨is, warns, h, hf⟩ := insts_ok (o := @assemble asciiUnicode (idRt true) Mipsasm.new c!"a:\nnop\nb @@x\nnop\n@@x:\nnop\nb:\n@@x:\nnop\nb @@x")
    (f := fun is => decide ((is[1]?).map Instruction.getBytes = some [0x10000001#32] ∧ (is[5]?).map Instruction.getBytes = some [0x1000fffe#32])) (by decide +kernel)
  obtain ⟨h1, h2⟩ := of_decide_eq_true hf
  exact ⟨is, warns, h, ⟨_, rfl, h1.trans (by decide)⟩, ⟨_, rfl, h2.trans (by decide)⟩, rfl⟩

example : Undisturbed (lines c!"a:\nnop\nb @@x\nnop\n@@x:\nnop\nb:\n@@x:\nnop\nb @@x") 9 c!"@@x" := by
  refine ⟨?_, .inl ⟨8, c!"nop", by decide, by decide +kernel, by decide +kernel, by decide +kernel⟩⟩
  · intro d ⟨raw, h1, h2⟩ h0
    have h1 : ([c!"a:", c!"nop", c!"b @@x", c!"nop", c!"@@x:", c!"nop", c!"b:", c!"@@x:", c!"nop", c!"b @@x"] : List Str)[d]? = some raw := h1
    match d with
    | 0 | 1 | 2 | 3 | 5 | 6 | 8 | 9 => cases h1; exact absurd h2 (by decide +kernel)
    | 4 | 7 => exact absurd h0 (by decide +kernel)
    | n + 10 => cases h1

/-- Non-vacuity of `C09_single_scope`: the only scope of a file. -/
example : (@assemble asciiUnicode (idRt true) Mipsasm.new c!"a:\n@@x:\nnop\nb @@x").errors = some [.undefinedLabel ⟨4, c!"b @@x"⟩ c!"@@x"] := by
  decide +kernel

end Mips
