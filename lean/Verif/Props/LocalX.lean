/- C09: the exact rule by which references to local labels are resolved. -/
import Verif.Props.Local
import Verif.Spec.Scope

namespace Mips
open Isa Syntax Source Branch

theorem cur_filter (tr : List Outcome) (x : Str) : (outLocs tr).cur.filter (fun d => d.1 == x) = [] ∨
    ∃ d, (outLocs tr).cur.filter (fun d => d.1 == x) = [entryOf tr d x] ∧ IsLast tr d x ∧ trSc tr d = trSc tr tr.length := by
  have hl := filter_key (outLocs_keys tr) x
  cases hf : (outLocs tr).cur.filter (fun d => d.1 == x) with
  | nil => exact .inl rfl
  | cons e l =>
    rw [hf] at hl
    cases l with
    | cons _ _ => simp at hl
    | nil =>
      have hm : e ∈ (outLocs tr).cur.filter (fun d => d.1 == x) := by rw [hf]; simp
      obtain ⟨h1, h2⟩ := List.mem_filter.1 hm
      obtain ⟨d, y, a, b, rfl⟩ := ((outLocs_spec tr).2 e).1 h1
      have : y = x := by simpa [entryOf] using h2
      subst this
      exact .inr ⟨d, rfl, a, b⟩

theorem isLast_unique {tr : List Outcome} {x : Str} {d e : Nat} (hd : IsLast tr d x) (he : IsLast tr e x) (h : trSc tr d = trSc tr e) : d = e := by
  rcases Nat.lt_trichotomy d e with hh | hh | hh
  · exact absurd h.symm (hd.2 e hh he.1)
  · exact hh
  · exact absurd h (he.2 d hh hd.1)

theorem cur_nil {tr : List Outcome} {x : Str} (h : (outLocs tr).cur.filter (fun d => d.1 == x) = []) {d : Nat} (hd : IsLast tr d x) :
    trSc tr d ≠ trSc tr tr.length := by
  intro hh
  have : entryOf tr d x ∈ (outLocs tr).cur.filter (fun d => d.1 == x) :=
    List.mem_filter.2 ⟨((outLocs_spec tr).2 _).2 ⟨d, x, hd, hh, rfl⟩, by simp [entryOf]⟩
  rw [h] at this; cases this

/-- The flushed definitions of `x`, in the order of their scopes. -/
theorem dropped_chain (tr : List Outcome) (x : Str) : ∃ ds : List Nat,
    (outLocs tr).dropped.filter (fun d => d.1 == x) = ds.map (entryOf tr · x) ∧ ds.Pairwise (fun a b => trSc tr a < trSc tr b) ∧
    ∀ d, d ∈ ds ↔ IsLast tr d x ∧ trSc tr d < trSc tr tr.length := by
  induction tr using snoc_ind with
  | nil => exact ⟨[], rfl, List.Pairwise.nil, by intro d; simp [IsLast]⟩
  | snoc tr o ih =>
    obtain ⟨ds, h1, h2, h3'⟩ := ih
    have h3 : ∀ d ∈ ds, IsLast tr d x ∧ trSc tr d < trSc tr tr.length := fun d => (h3' d).1
    have hlt : ∀ d ∈ ds, d < tr.length := fun d hd => isLast_lt (h3 d hd).1
    have hmap : ds.map (entryOf (tr ++ [o]) · x) = ds.map (entryOf tr · x) :=
      List.map_congr_left fun d hd => entry_snoc tr o x (Nat.le_of_lt (hlt d hd))
    have hpw : ds.Pairwise (fun a b => trSc (tr ++ [o]) a < trSc (tr ++ [o]) b) := by
      refine List.Pairwise.imp_of_mem (fun {a b} ha hb hab => ?_) h2
      rw [trSc_snoc tr o (Nat.le_of_lt (hlt a ha)), trSc_snoc tr o (Nat.le_of_lt (hlt b hb))]; exact hab
    have hlast : ∀ d, IsLast tr d x → trSc tr d < trSc tr tr.length → IsLast (tr ++ [o]) d x := by
      intro d hd hlt'
      cases o with
      | loc l => exact (isLast_snoc_loc l d x).2 (.inr ⟨hd, fun _ => by omega⟩)
      | _ => exact (isLast_snoc_other (by simp) d x).2 hd
    have hsc := outLabels_len_snoc tr o
    have hmem : ∀ d ∈ ds, IsLast (tr ++ [o]) d x ∧ trSc (tr ++ [o]) d < trSc (tr ++ [o]) (tr ++ [o]).length := by
      intro d hd
      refine ⟨hlast d (h3 d hd).1 (h3 d hd).2, ?_⟩
      rw [hsc, trSc_snoc tr o (Nat.le_of_lt (hlt d hd))]
      have := (h3 d hd).2
      omega
    have hback : o.lab = 0 → ∀ d, d ∈ ds ↔ IsLast (tr ++ [o]) d x ∧ trSc (tr ++ [o]) d < trSc (tr ++ [o]) (tr ++ [o]).length := by
      intro hl d
      refine ⟨hmem d, fun ⟨a, b⟩ => (h3' d).2 ?_⟩
      rw [hsc, hl, Nat.add_zero] at b
      have hd : d < tr.length := by
        rcases Nat.lt_or_ge d tr.length with hh | hh
        · exact hh
        · have hm := trSc_mono (tr ++ [o]) hh
          rw [trSc_snoc _ _ (Nat.le_refl _)] at hm; omega
      rw [trSc_snoc _ _ (Nat.le_of_lt hd)] at b
      refine ⟨?_, b⟩
      cases o with
      | loc l =>
        rcases (isLast_snoc_loc l d x).1 a with ⟨e, _⟩ | ⟨a, _⟩
        · omega
        · exact a
      | _ => exact (isLast_snoc_other (by simp) d x).1 a
    rw [outLocs_snoc]
    cases o with
    | blank => exact ⟨ds, h1.trans hmap.symm, hpw, hback rfl⟩
    | inst ws i => exact ⟨ds, h1.trans hmap.symm, hpw, hback rfl⟩
    | rejected ws e => exact ⟨ds, h1.trans hmap.symm, hpw, hback rfl⟩
    | loc l => exact ⟨ds, h1.trans hmap.symm, hpw, hback rfl⟩
    | label l =>
      simp only [LocSt.step, List.filter_append]
      have hs1 : trSc (tr ++ [Outcome.label l]) (tr ++ [Outcome.label l]).length = trSc tr tr.length + 1 := hsc
      have hiff : ∀ d, IsLast (tr ++ [Outcome.label l]) d x ↔ IsLast tr d x := fun d => isLast_snoc_other (by simp) d x
      have hle : ∀ d, IsLast tr d x → trSc (tr ++ [Outcome.label l]) d = trSc tr d ∧ trSc tr d ≤ trSc tr tr.length := fun d hd =>
        ⟨trSc_snoc _ _ (Nat.le_of_lt (isLast_lt hd)), trSc_mono _ (Nat.le_of_lt (isLast_lt hd))⟩
      rcases cur_filter tr x with hc | ⟨d, hc, hd1, hd2⟩
      · rw [hc, List.append_nil]
        refine ⟨ds, h1.trans hmap.symm, hpw, fun d => ⟨hmem d, fun ⟨a, b⟩ => (h3' d).2 ?_⟩⟩
        have a := (hiff d).1 a
        have := cur_nil hc a
        have := hle d a
        exact ⟨a, by omega⟩
      · have hdl := isLast_lt hd1
        have hd3 := trSc_snoc tr (Outcome.label l) (Nat.le_of_lt hdl)
        refine ⟨ds ++ [d], ?_, ?_, ?_⟩
        · rw [hc, h1, List.map_append, hmap, List.map_singleton, entry_snoc _ _ _ (Nat.le_of_lt hdl)]
        · rw [List.pairwise_append]
          refine ⟨hpw, List.pairwise_singleton _ _, fun a ha b hb => ?_⟩
          rw [List.mem_singleton.1 hb, hd3, trSc_snoc _ _ (Nat.le_of_lt (hlt a ha)), hd2]
          exact (h3 a ha).2
        · intro e
          rw [List.mem_append, List.mem_singleton]
          constructor
          · rintro (he | rfl)
            · exact hmem e he
            · exact ⟨(hiff _).2 hd1, by rw [hs1, hd3]; omega⟩
          · rintro ⟨a, b⟩
            have a := (hiff e).1 a
            have := hle e a
            rcases Nat.lt_or_ge (trSc tr e) (trSc tr tr.length) with hh | hh
            · exact .inl ((h3' e).2 ⟨a, hh⟩)
            · exact .inr (isLast_unique a hd1 (by omega))

theorem all_chain (tr : List Outcome) (x : Str) : ∃ ds : List Nat,
    ((outLocs tr).dropped ++ (outLocs tr).cur).filter (fun d => d.1 == x) = ds.map (entryOf tr · x) ∧
    ds.Pairwise (fun a b => trSc tr a < trSc tr b) ∧ ∀ d, d ∈ ds ↔ IsLast tr d x := by
  obtain ⟨ds, h1, h2, h3⟩ := dropped_chain tr x
  have hle : ∀ d, IsLast tr d x → trSc tr d ≤ trSc tr tr.length := fun d hd => trSc_mono _ (Nat.le_of_lt (isLast_lt hd))
  rw [List.filter_append, h1]
  rcases cur_filter tr x with hc | ⟨d, hc, hd1, hd2⟩
  · rw [hc, List.append_nil]
    refine ⟨ds, rfl, h2, fun d => ⟨fun h => ((h3 d).1 h).1, fun h => (h3 d).2 ⟨h, ?_⟩⟩⟩
    have := cur_nil hc h
    have := hle d h
    omega
  · refine ⟨ds ++ [d], by rw [hc, List.map_append]; rfl, ?_, ?_⟩
    · rw [List.pairwise_append]
      refine ⟨h2, List.pairwise_singleton _ _, fun a ha b hb => ?_⟩
      rw [List.mem_singleton.1 hb, hd2]
      exact ((h3 a).1 ha).2
    · intro e
      rw [List.mem_append, List.mem_singleton]
      constructor
      · rintro (he | rfl)
        · exact ((h3 e).1 he).1
        · exact hd1
      · intro a
        have := hle e a
        rcases Nat.lt_or_ge (trSc tr e) (trSc tr tr.length) with hh | hh
        · exact .inl ((h3 e).2 ⟨a, hh⟩)
        · exact .inr (isLast_unique a hd1 (by omega))

theorem inRange' {ls : List Str} (hn : ((globals ls).map (·.1)).Nodup) (hne : ∀ e ∈ globals ls, e.1 ≠ []) {k d : Nat} {raw : Str}
    (hk : ls[k]? = some raw) (hc : kind raw = .code) :
    ∃ lo hi, labelScope (globals ls) (codeCount ls) (scName ls d) = some (lo, hi) ∧
      (¬(codeCount (ls.take k) < lo ∨ hi < codeCount (ls.take k)) ↔ Visible ls k d) := by
  have hle := codeCount_take_le ls k
  rcases Nat.eq_zero_or_pos (scope ls d) with h0 | h0
  · rw [scName_zero h0]
    exact ⟨0, _, labelScope_zero _ _, ⟨fun _ => .inl h0, fun _ => by omega⟩⟩
  · obtain ⟨s, hs⟩ : ∃ s, scope ls d = s + 1 := ⟨scope ls d - 1, by omega⟩
    obtain ⟨lo, hlo⟩ := scName_succ hs
    refine ⟨_, _, labelScope_succ hn _ hlo (hne _ (List.mem_of_getElem? hlo)), ?_⟩
    simp only
    unfold Visible
    rw [show (scope ls d = 0) = False from eq_false (by omega), false_or]
    rcases Nat.lt_trichotomy (scope ls d) (scope ls k) with hlt | heq | hgt
    · have hsl : s + 1 < (globals ls).length := by have := scope_le ls k; omega
      have hsome : (globals ls)[s + 1]? = some (globals ls)[s + 1] := List.getElem?_eq_getElem hsl
      rw [hsome]
      simp only [Option.map_some, Option.getD_some]
      have a := label_before (k := k) hlo (by omega)
      simp only at a
      constructor
      · intro hh
        refine ⟨by omega, fun j raw' hj hj1 hj2 => ?_⟩
        rcases Nat.lt_or_ge (scope ls d) (scope ls j) with hq | hq
        · have a := label_before (k := j) hsome (by omega)
          have b : codeCount (ls.take j) < codeCount (ls.take k) := by
            have := codeCount_mono ls (show j + 1 ≤ k by omega)
            have e : codeCount (ls.take (j + 1)) = codeCount (ls.take j) + 1 := by
              rw [List.take_add_one, hj1, codeCount_append]
              simp [codeCount, isCode, hj2]
            omega
          exact absurd (.inr (by omega)) hh
        · exact hq
      · rintro ⟨_, hall⟩ (hh | hh)
        · omega
        · obtain ⟨j, raw', hj1, hj2, hj3⟩ := code_get (ls := ls) (i := (globals ls)[s + 1].2) (by omega)
          have hjk : j < k := by
            rcases Nat.lt_or_ge j k with hq | hq
            · exact hq
            · have := codeCount_mono ls hq; omega
          have := hall j raw' hjk hj1 hj2
          have := label_after hj1 hj2 hsome (by omega)
          omega
    · have a := label_before (k := k) hlo (by omega)
      simp only at a
      constructor
      · intro _
        exact ⟨by omega, fun j _ hj _ _ => by rw [heq]; exact scope_mono ls (Nat.le_of_lt hj)⟩
      · intro _ hh
        rcases hh with hh | hh
        · omega
        · cases hx : (globals ls)[s + 1]? with
          | none => rw [hx] at hh; simp at hh; omega
          | some e =>
            have := label_after hk hc hx (by omega)
            rw [hx] at hh; simp at hh; omega
    · have a := label_after hk hc hlo (by omega)
      simp only at a
      constructor
      · intro hh; exact absurd (.inl a) hh
      · rintro ⟨hh, _⟩; omega

theorem findLocal_pred {labels : List (Str × Nat)} {n i : Nat} {P : Nat → Prop} [DecidablePred P] (f : Nat → Loc) : ∀ (ds : List Nat),
    (∀ d ∈ ds, ∃ lo hi, labelScope labels n (f d).2.2 = some (lo, hi) ∧ (¬(i < lo ∨ hi < i) ↔ P d)) →
    findLocal labels n i (ds.map f) = some ((ds.find? fun d => decide (P d)).map fun d => (f d).2.1) := by
  intro ds
  induction ds with
  | nil => intro _; rfl
  | cons d ds ih =>
    intro h
    obtain ⟨lo, hi, h1, h2⟩ := h d (by simp)
    rw [List.map_cons]
    simp only [findLocal, h1]
    by_cases hb : P d
    · rw [if_neg (h2.2 hb), List.find?_cons]
      simp [hb]
    · rw [if_pos (Decidable.not_not.1 (fun hh => hb (h2.1 hh))), List.find?_cons]
      simp only [hb, decide_false]
      exact ih (fun e he => h e (by simp [he]))

section
variable [Unicode] {rt : Rt} {m : Mipsasm} {text : Str} {tr : List Outcome}

theorem dropped_iff (hT : IsTrace (envOf rt m text) (lines text) tr) (he : outErrors tr = []) :
    (outLocs tr).dropped ≠ [] ↔ HasClosedScope (lines text) := by
  constructor
  · intro h
    cases hd : (outLocs tr).dropped with
    | nil => exact absurd hd h
    | cons e l =>
      obtain ⟨d, y, h1, h2, _⟩ := ((outLocs_spec tr).1 e).1 (by rw [hd]; simp)
      have hlt := isLast_lt h1
      have hy : isLocal y = true := by
        have hr : (lines text)[d]? = some ((lines text)[d]'(by rw [← hT.1]; exact hlt)) := List.getElem?_eq_getElem _
        rcases trace_matches hT he hr h1.1 with ⟨_, h2⟩ | ⟨_, _, _, h2⟩ | ⟨l, _, h1, h2⟩ | ⟨l, _, _, h2⟩
        · cases h2
        · cases h2
        · cases h2; exact h1
        · cases h2
      rw [tr_sc hT he, tr_sc hT he] at h2
      exact ⟨d, tr.length, y, (tr_loc hT he hy d).1 h1.1, hy, hlt, h2⟩
  · rintro ⟨d, g, y, h1, h2, h3, h4⟩ h0
    have ht1 := (tr_loc hT he h2 d).2 h1
    obtain ⟨d2, q1, q2⟩ := exists_last (P := fun e => tr[e]? = some (.loc y) ∧ trSc tr e = trSc tr d) (N := tr.length)
      (fun d h => (List.getElem?_eq_some_iff.1 h.1).1) ⟨d, ht1, rfl⟩
    have hlast : IsLast tr d2 y := ⟨q1.1, fun d' a b c => q2 d' a ⟨b, c.trans q1.2⟩⟩
    have : trSc tr d2 < trSc tr tr.length := by
      rw [q1.2]
      have a := tr_sc hT he d
      have b2 := tr_sc hT he tr.length
      have c : scope (lines text) g ≤ scope (lines text) tr.length := by
        rcases Nat.le_total g tr.length with hh | hh
        · exact scope_mono _ hh
        · unfold scope
          rw [List.take_of_length_le (by rw [← hT.1]; exact hh), List.take_of_length_le (by rw [← hT.1]; exact Nat.le_refl _)]
          exact Nat.le_refl _
      omega
    have := ((outLocs_spec tr).1 _).2 ⟨d2, y, hlast, this, rfl⟩
    rw [h0] at this; cases this

/-- What label resolution does to a reference to a local label, in every case. -/
theorem local_exact (hT : IsTrace (envOf rt m text) (lines text) tr) (he : outErrors tr = []) {k : Nat} {raw x : Str}
    (hk : (lines text)[k]? = some raw) (hc : kind raw = .code) (hx : isLocal x = true)
    (op : ITypeOp) (rs rt' : Register) (b : List Word) :
    (∃ d, Chosen (lines text) k d x ∧ HasClosedScope (lines text) ∧
      adjust1 (envOf rt m text) (canonF tr) (codeCount ((lines text).take k)) (k + 1, .imm op rs rt' (.localLabel x) b) =
        some (.imm op rs rt' (.short (relOff (codeCount ((lines text).take d)) (codeCount ((lines text).take k)))) [], [])) ∨
    ((¬ HasClosedScope (lines text) ∨ ∀ d, ¬ Defines (lines text) d x) ∧
      adjust1 (envOf rt m text) (canonF tr) (codeCount ((lines text).take k)) (k + 1, .imm op rs rt' (.localLabel x) b) =
        some (.imm op rs rt' (.localLabel x) b, [.undefinedLabel ⟨k + 1, raw⟩ x])) ∨
    (HasClosedScope (lines text) ∧ (∃ d, Defines (lines text) d x) ∧ (∀ d, Defines (lines text) d x → ¬ Visible (lines text) k d) ∧
      adjust1 (envOf rt m text) (canonF tr) (codeCount ((lines text).take k)) (k + 1, .imm op rs rt' (.localLabel x) b) =
        some (.imm op rs rt' (.localLabel x) b, [.localLabelOutOfScope ⟨k + 1, raw⟩ x])) := by
  have hline : lineAt (envOf rt m text) (k + 1) = some ⟨k + 1, raw⟩ := by
    simp [lineAt, envOf, hk]
  obtain ⟨hn, hne⟩ := labels_facts hT he
  have hlab : (canonF tr).labels = globals (lines text) := (trace_counts_all hT he).1
  have hins : (canonF tr).insts.length = codeCount (lines text) := (trace_counts_all hT he).2
  by_cases hdr : (outLocs tr).dropped = []
  · refine .inr (.inl ⟨.inl (fun h => (dropped_iff hT he).2 h hdr), ?_⟩)
    have : (canonF tr).dropped = [] := by simp [canonF, finalLocs, hdr]
    simp only [adjust1, this, hline, opt_bind, Option.bind_some, List.filter_nil, List.isEmpty_nil, if_true]
  · have hcl := (dropped_iff hT he).1 hdr
    have hfl : (canonF tr).dropped = (outLocs tr).dropped ++ (outLocs tr).cur := by
      simp only [canonF, finalLocs]
      rw [if_neg (by simpa using hdr)]
    obtain ⟨ds, hL, hpw, hds⟩ := all_chain tr x
    rw [← hfl] at hL
    have hlastdef : ∀ d, Defines (lines text) d x → ∃ d2, IsLast tr d2 x ∧ scope (lines text) d2 = scope (lines text) d := by
      intro d hdef
      obtain ⟨d2, h2, h3⟩ := exists_last (P := fun e => tr[e]? = some (.loc x) ∧ scope (lines text) e = scope (lines text) d) (N := tr.length)
        (fun d h => (List.getElem?_eq_some_iff.1 h.1).1) ⟨d, (tr_loc hT he hx d).2 hdef, rfl⟩
      refine ⟨d2, ⟨h2.1, fun d' hd' h4 h5 => ?_⟩, h2.2⟩
      rw [tr_sc hT he, tr_sc hT he, h2.2] at h5
      exact h3 d' hd' ⟨h4, h5⟩
    have hvis : ∀ d e, scope (lines text) d = scope (lines text) e → Visible (lines text) k d → Visible (lines text) k e := by
      intro d e h1 h2
      unfold Visible at h2 ⊢
      rwa [← h1]
    classical
    have hspec := findLocal_pred (labels := globals (lines text)) (n := codeCount (lines text)) (i := codeCount ((lines text).take k))
      (P := Visible (lines text) k) (entryOf tr · x) ds (by
        intro d _
        simp only [tr_entry hT he]
        exact inRange' hn hne hk hc)
    cases hf : ds.find? fun d => decide (Visible (lines text) k d) with
    | some d =>
      have hdm := (hds d).1 (List.mem_of_find?_eq_some hf)
      have hv : Visible (lines text) k d := by simpa using List.find?_some hf
      have hdef := (tr_loc hT he hx d).1 hdm.1
      refine .inl ⟨d, ⟨hdef, hv, ?_, ?_⟩, hcl, ?_⟩
      · intro d' hdef' hv'
        obtain ⟨d2, h2, h3⟩ := hlastdef d' hdef'
        have hv2 := hvis d' d2 h3.symm hv'
        rw [← h3]
        obtain ⟨as, bs, hab, hnot⟩ := (List.find?_eq_some_iff_append.1 hf).2
        have hm2 := (hds d2).2 h2
        rw [hab] at hm2 hpw
        rcases List.mem_append.1 hm2 with hm2 | hm2
        · have := hnot d2 hm2
          simp [hv2] at this
        · rcases List.mem_cons.1 hm2 with rfl | hm2
          · exact Nat.le_refl _
          · have := (List.pairwise_cons.1 (List.pairwise_append.1 hpw).2.1).1 d2 hm2
            rw [tr_sc hT he, tr_sc hT he] at this
            omega
      · intro d' hd' hdef'
        have := hdm.2 d' hd' ((tr_loc hT he hx d').2 hdef')
        rwa [tr_sc hT he, tr_sc hT he] at this
      · have hLe : (ds.map (entryOf tr · x)).isEmpty = false := by
          cases ds with
          | nil => cases hf
          | cons _ _ => rfl
        rw [hf, Option.map_some, tr_entry hT he] at hspec
        simp only [adjust1, hL, hLe, hlab, hins, hspec, opt_bind, Option.bind_some]
        rfl
    | none =>
      rw [hf, Option.map_none] at hspec
      refine .inr ?_
      cases hLe : (ds.map (entryOf tr · x)).isEmpty with
      | true =>
        have hnil : ds = [] := by simpa using hLe
        refine .inl ⟨.inr fun d hdef => ?_, by simp only [adjust1, hL, hLe, hline, opt_bind, Option.bind_some, if_true]⟩
        obtain ⟨d2, h2, _⟩ := hlastdef d hdef
        have := (hds d2).2 h2
        rw [hnil] at this; cases this
      | false =>
        refine .inr ⟨hcl, ?_, ?_, by simp only [adjust1, hL, hLe, hlab, hins, hspec, hline, opt_bind, Option.bind_some]; rfl⟩
        · cases ds with
          | nil => simp at hLe
          | cons d _ => exact ⟨d, (tr_loc hT he hx d).1 ((hds d).1 (by simp)).1⟩
        · intro d hdef hv
          obtain ⟨d2, h2, h3⟩ := hlastdef d hdef
          have := List.find?_eq_none.1 hf d2 ((hds d2).2 h2)
          simp [hvis d d2 h3.symm hv] at this
end

/-- C09, the exact rule for accepted programs, without restriction: every reference to a local label resolves to the definition
`Chosen` names: among the visible ones that of the earliest scope, and in it the last one. -/
theorem C09_resolves_exact [Unicode] (rt : Rt) (m : Mipsasm) (text : Str) (is : List Instruction) (warns : List ParserWarning)
    (h : assemble rt m text = .ok is warns) (k : Nat) (x t mn : Str) (regs : List (BitVec 5))
    (hb : BranchAt (lines text) k mn regs t) (hbr : IsBranch mn regs) (ht : trim t = x) (hx : isLocal x = true) :
    ∃ d, Chosen (lines text) k d x ∧ HasOffset is (codeCount ((lines text).take k)) mn regs
      (BitVec.ofInt 16 ((codeCount ((lines text).take d) : Int) - (codeCount ((lines text).take k) + 1))) := by
  obtain ⟨raw, hk, hc, hb⟩ := hb
  obtain ⟨tr, c, ws, p, a, b, hT, he, _, hat, ho, hp, ha, hb', hab, hi, hlen⟩ := line_done h hk hc
  obtain ⟨op, hop⟩ := isBranch_op hbr
  have hpar := br_parse c hb (brOps1_mem _ hop) rfl
  rw [parseImm_local c .u32 (by rw [ht]; exact hx), hp, ht] at hpar
  simp only [Res.bind, Res.ok.injEq] at hpar
  subst hpar
  rcases local_exact hT he hk hc hx op (brRs regs) (brRt regs) [] with ⟨d, h1, _, h2⟩ | ⟨_, h2⟩ | ⟨_, _, _, h2⟩
  · rw [ha] at h2
    cases h2
    refine ⟨d, h1, ?_⟩
    obtain ⟨w, w1, w2⟩ := br_encode hop rt.ovf (relOff (codeCount ((lines text).take d)) (codeCount ((lines text).take k))) []
    rw [w2] at hb'
    refine ⟨w, w1, ?_⟩
    rw [hi]
    simp only [Option.map_some]
    exact congrArg some (Option.some.inj hb').symm
  · rw [ha] at h2; cases h2
  · rw [ha] at h2; cases h2

/-- An error that label resolution reports about line `n` of the file (`branchOutOfBounds` never names the line it is about). -/
def labelErrorAt (n : Nat) : ParserError → Prop
  | .undefinedLabel l _ => l.num = n
  | .localLabelOutOfScope l _ => l.num = n
  | _ => False

/-- C09, exactly which references to local labels are rejected, and how, in a file all of whose lines are well-formed: the label
counts as undefined if it is defined nowhere, or if no local label of the file is followed by a global label; it is out of
scope if it is defined, but nowhere visible; and otherwise it is accepted. -/
theorem C09_reported_exact [Unicode] (rt : Rt) (m : Mipsasm) (text : Str) (errs : List ParserError)
    (h : (assemble rt m text).errors = some errs) (hl : lineErrors errs = []) (k : Nat) (raw x t mn : Str) (regs : List (BitVec 5))
    (hk : (lines text)[k]? = some raw) (hc : kind raw = .code) (hb : BrText (body raw) mn regs t) (hbr : IsBranch mn regs)
    (ht : trim t = x) (hx : isLocal x = true) :
    (.undefinedLabel ⟨k + 1, raw⟩ x ∈ errs ↔ ¬ HasClosedScope (lines text) ∨ ∀ d, ¬ Defines (lines text) d x) ∧
    (.localLabelOutOfScope ⟨k + 1, raw⟩ x ∈ errs ↔ HasClosedScope (lines text) ∧ (∃ d, Defines (lines text) d x) ∧
      ∀ d, Defines (lines text) d x → ¬ Visible (lines text) k d) ∧
    ((∃ e ∈ errs, labelErrorAt (k + 1) e) ↔ ¬ (HasClosedScope (lines text) ∧ ∃ d, Chosen (lines text) k d x)) := by
  obtain ⟨tr, out, hT, hes, hlen, hall⟩ := assemble_errors h
  rw [hes] at hl
  have he := noErr_of_lineErrors (env := envOf rt m text) hT hl
  have href := ref_isRef (env := envOf rt m text) (s := canonF tr) hlen hall
  obtain ⟨op, hop⟩ := isBranch_op hbr
  have hlt : k < tr.length := by rw [hT.1]; exact (List.getElem?_eq_some_iff.1 hk).1
  have ho : tr[k]? = some tr[k] := List.getElem?_eq_getElem hlt
  have hres := hT.2 k raw _ hk ho
  unfold lineRes at hres
  rw [hc] at hres
  have hpar := br_parse (ctxAt (envOf rt m text) (tr.take k)) hb (brOps1_mem _ hop) rfl
  rw [parseImm_local _ .u32 (by rw [ht]; exact hx), ht] at hpar
  simp only [Res.bind] at hpar
  simp only [instRes, hpar] at hres
  rw [← Option.some.inj hres] at ho
  have hins := outInsts_at ho
  rw [(trace_counts hT he k).2] at hins
  obtain ⟨q0, hq0, ha0⟩ := hall _ _ hins
  -- the errors about line k are those of its instruction
  have hmem : ∀ e, labelErrorAt (k + 1) e → (e ∈ errs ↔ e ∈ q0.2) := by
    intro e hel
    rw [hes, he, List.nil_append]
    constructor
    · intro hm
      obtain ⟨_, i, p, q, hp, hq, hq2⟩ := href e hm
      have hpn : p.1 = k + 1 := by
        obtain ⟨a, es⟩ := q
        simp only at hq2
        subst hq2
        rcases adjust1_errs hq with h | ⟨l', raw', h, h1, h2⟩ | ⟨l', raw', h, h1, h2⟩ | ⟨last, raw', hi', h, h1, h2, _⟩
        · cases h
        all_goals
          simp only [List.cons.injEq, and_true] at h
          subst h
        all_goals first | exact hel | exact hel.elim
      obtain ⟨k', ws', g1, g2, g3⟩ := outInsts_get hp
      have hkk : k' = k := by omega
      subst hkk
      have : i = codeCount ((lines text).take k') := by rw [← (trace_counts hT he k').2, g3]
      subst this
      rw [hins] at hp
      cases hp
      rw [ha0] at hq
      cases hq
      rw [hq2]; simp
    · intro hm
      exact List.mem_flatMap.2 ⟨q0, List.mem_of_getElem? hq0, hm⟩
  have hex : (∃ e ∈ errs, labelErrorAt (k + 1) e) ↔ ∃ e ∈ q0.2, labelErrorAt (k + 1) e :=
    ⟨fun ⟨e, a, b⟩ => ⟨e, (hmem e b).1 a, b⟩, fun ⟨e, a, b⟩ => ⟨e, (hmem e b).2 a, b⟩⟩
  rw [hmem _ (show labelErrorAt (k + 1) (.undefinedLabel ⟨k + 1, raw⟩ x) from rfl),
    hmem _ (show labelErrorAt (k + 1) (.localLabelOutOfScope ⟨k + 1, raw⟩ x) from rfl), hex]
  rcases local_exact hT he hk hc hx op (brRs regs) (brRt regs) [] with ⟨d, h1, h0, h2⟩ | ⟨h1, h2⟩ | ⟨h0, h1, h3, h2⟩
  · rw [ha0] at h2
    rw [Option.some.inj h2]
    refine ⟨iff_of_false (by simp) ?_, iff_of_false (by simp) ?_, iff_of_false (by simp) fun hh => hh ⟨h0, d, h1⟩⟩
    · rintro (hh | hh)
      · exact hh h0
      · exact hh d h1.1
    · rintro ⟨_, _, hh⟩
      exact hh d h1.1 h1.2.1
  · rw [ha0] at h2
    rw [Option.some.inj h2]
    refine ⟨iff_of_true (by simp) h1, iff_of_false (by simp) ?_, iff_of_true ⟨_, List.mem_singleton.2 rfl, rfl⟩ ?_⟩
    · rintro ⟨a, ⟨d, b⟩, _⟩
      rcases h1 with h1 | h1
      · exact h1 a
      · exact h1 d b
    · rintro ⟨a, d, b⟩
      rcases h1 with h1 | h1
      · exact h1 a
      · exact h1 d b.1
  · rw [ha0] at h2
    rw [Option.some.inj h2]
    refine ⟨iff_of_false (by simp) ?_, iff_of_true (by simp) ⟨h0, h1, h3⟩, iff_of_true ⟨_, List.mem_singleton.2 rfl, rfl⟩ ?_⟩
    · rintro (hh | hh)
      · exact hh h0
      · obtain ⟨d, hd⟩ := h1; exact hh d hd
    · rintro ⟨_, d, b⟩
      exact h3 d b.1 b.2.1

/-- The definition the rule names is unique. -/
theorem chosen_unique {ls : List Str} {k d e : Nat} {x : Str} (hd : Chosen ls k d x) (he : Chosen ls k e x) : d = e := by
  have h1 := hd.2.2.1 e he.1 he.2.1
  have h2 := he.2.2.1 d hd.1 hd.2.1
  rcases Nat.lt_trichotomy d e with hh | hh | hh
  · exact absurd (by omega) (hd.2.2.2 e hh he.1)
  · exact hh
  · exact absurd (by omega) (he.2.2.2 d hh hd.1)

/-- C09 and C06 for local labels, for every accepted program: if the instructions in between are one word long each and the distance
fits, the branch reaches the first word emitted after the chosen definition. -/
theorem C09_reaches_exact [Unicode] (rt : Rt) (m : Mipsasm) (text : Str) (is : List Instruction) (warns : List ParserWarning)
    (h : assemble rt m text = .ok is warns) (k d : Nat) (x t mn : Str) (regs : List (BitVec 5))
    (hb : BranchAt (lines text) k mn regs t) (hbr : IsBranch mn regs) (ht : trim t = x) (hx : isLocal x = true)
    (hd : Chosen (lines text) k d x)
    (hs : Single is (min (codeCount ((lines text).take d)) (codeCount ((lines text).take k)))
      (max (codeCount ((lines text).take d)) (codeCount ((lines text).take k))))
    (hf : codeCount ((lines text).take k) < codeCount ((lines text).take d) + 32768 ∧
      codeCount ((lines text).take d) ≤ codeCount ((lines text).take k) + 32768) :
    Reaches is (codeCount ((lines text).take k)) (codeCount ((lines text).take d)) mn regs := by
  obtain ⟨d', h1, h2⟩ := C09_resolves_exact rt m text is warns h k x t mn regs hb hbr ht hx
  rw [chosen_unique h1 hd] at h2
  have hc2 := codeCount_take_le (lines text) d
  exact reaches_of (by rw [is_length h]; omega) h2 hs (by omega) (by omega)

/-- Non-vacuity: line 4 of `a: @@x: nop; b: b @@x; @@x: nop` is the first instruction of the scope of `b`; of the two visible
definitions, on lines 1 and 5, the rule chooses the one on line 1 - and the program is accepted with offset -2
(`C09_next_scope`). -/
example : Chosen (lines c!"a:\n@@x:\nnop\nb:\nb @@x\n@@x:\nnop") 4 1 c!"@@x" ∧
    HasClosedScope (lines c!"a:\n@@x:\nnop\nb:\nb @@x\n@@x:\nnop") := by
  have hls : lines c!"a:\n@@x:\nnop\nb:\nb @@x\n@@x:\nnop" = [c!"a:", c!"@@x:", c!"nop", c!"b:", c!"b @@x", c!"@@x:", c!"nop"] := by
    decide +kernel
  rw [hls]
  refine ⟨⟨⟨c!"@@x:", rfl, by decide +kernel⟩, .inr ⟨by decide +kernel, ?_⟩, ?_, ?_⟩,
    1, 4, c!"@@x", ⟨c!"@@x:", rfl, by decide +kernel⟩, rfl, by decide, by decide +kernel⟩
  · intro j raw hj h1 h2
    match j, hj with
    | 0, _ | 1, _ | 2, _ | 3, _ => first | decide +kernel | (cases h1; exact absurd h2 (by decide +kernel))
  · intro d ⟨raw, h1, h2⟩ _
    match d with
    | 0 | 2 | 3 | 4 | 6 => cases h1; exact absurd h2 (by decide +kernel)
    | 1 | 5 => decide +kernel
    | n + 7 => cases h1
  · intro d hd ⟨raw, h1, h2⟩
    match d, hd with
    | 2, _ | 3, _ | 4, _ | 6, _ => cases h1; exact absurd h2 (by decide +kernel)
    | 5, _ => decide +kernel
    | n + 7, _ => cases h1

/-- Non-vacuity of `C09_reported_exact`: a label defined only in a later scope, one defined nowhere, and a file without a closed
scope. -/
example : (@assemble asciiUnicode (idRt true) Mipsasm.new c!"a:\n@@y:\nb @@x\nb @@z\nb:\n@@x:\nnop").errors =
      some [.localLabelOutOfScope ⟨3, c!"b @@x"⟩ c!"@@x", .undefinedLabel ⟨4, c!"b @@z"⟩ c!"@@z"] ∧
    (@assemble asciiUnicode (idRt true) Mipsasm.new c!"a:\n@@x:\nb @@x").errors = some [.undefinedLabel ⟨3, c!"b @@x"⟩ c!"@@x"] := by
  decide +kernel

end Mips
