/-
C10, C11, C27, C29: labels are resolved or reported; every bad line is reported once; warnings print.
-/
import Verif.Lemmas.ErrL

namespace Mips
open Source

/-! ### C29 -/

/-- C29: every warning that parsing any text prints is formatted without panic. -/
theorem C29_warnings_display [Unicode] (rt : Rt) (base : Word) (syms : List (Word × Str)) (text : Str) (out : ParseOut)
    (h : parse rt base syms text = some out) : ∀ w ∈ out.warns, ∃ s, w.display = some s := by
  rw [parse_eq] at h
  unfold parseT at h
  split at h
  · cases h
  · rename_i tr ht
    split at h
    · cases h
    · cases h
      intro w hw
      exact Option.isSome_iff_exists.1 (trace_warns_display ((isTrace_iff _ _ _).1 ht) w hw)

/-- Non-vacuity: a text that prints a delay-slot warning and an alignment warning. -/
example : ((@parse asciiUnicode (idRt true) 0 [] c!"j 8\nj 6").map (·.warns.length)) = some 2 := by decide +kernel

/-! ### C27 -/

/-- C27: a failed assembly reports the rejected lines first - once each, in line order, with the number
and text of the line - and then the unresolved references. -/
theorem C27_report [Unicode] (rt : Rt) (m : Mipsasm) (text : Str) (errs : List ParserError) (ws : List ParserWarning)
    (h : assemble rt m text = .err errs ws) :
    ∃ lineErrs refErrs, errs = lineErrs ++ refErrs ∧ errs ≠ [] ∧
      (lineErrs.map fun e => e.line.num).Pairwise (· < ·) ∧
      (∀ e ∈ lineErrs, e.isRef = false ∧ 1 ≤ e.line.num ∧ (lines text)[e.line.num - 1]? = some e.line.content) ∧
      (∀ e ∈ refErrs, e.isRef = true ∧ (lines text)[e.line.num - 1]? = some e.line.content) := by
  obtain ⟨tr, out, h1, h2, h3, h4, h5, h6⟩ := assemble_err h
  refine ⟨_, _, h4, h3, trace_errs_sorted h1, ?_, ?_⟩
  · intro e he
    obtain ⟨k, ws', hk⟩ := outErrors_get he
    obtain ⟨raw, e1, e2, e3⟩ := trace_err_line h1 hk
    rw [e2]
    exact ⟨e3, by simp, e1⟩
  · intro e he
    obtain ⟨hr, i, p, ⟨a, es⟩, hp, ha, rfl⟩ := ref_isRef h5 h6 e he
    refine ⟨hr, ?_⟩
    rcases adjust1_errs ha with h0 | ⟨l, raw, h0, h1, _⟩ | ⟨l, raw, h0, h1, _⟩ | ⟨last, raw, hi', h0, h1, h2, _⟩
    · cases h0
    all_goals
      simp only [List.cons.injEq, and_true] at h0
      subst h0
      first | exact h2 | exact h1

/-- C27: when nothing is rejected or unresolved, there is exactly one instruction per instruction line. -/
theorem C27_success [Unicode] (rt : Rt) (m : Mipsasm) (text : Str) (is : List Instruction) (ws : List ParserWarning)
    (h : assemble rt m text = .ok is ws) : is.length = codeCount (lines text) := by
  obtain ⟨tr, h1, h2, _, h3, _⟩ := assemble_ok h
  rw [h3, (trace_counts_all h1 h2).2]

/-- C27: whether a line is rejected depends on that line and the lines before it only: adding lines at the
end neither adds nor hides an error of an earlier line. -/
theorem C27_prefix [Unicode] (rt : Rt) (m : Mipsasm) (pre rest : Str) (e1 e2 : List ParserError)
    (h1 : (assemble rt m (pre ++ ['\n'])).errors = some e1) (h2 : (assemble rt m (pre ++ '\n' :: rest)).errors = some e2) :
    lineErrors e1 = (lineErrors e2).filter fun e => decide (e.line.num ≤ (lines (pre ++ ['\n'])).length) := by
  obtain ⟨tr, out, t1, t2, t3, t4⟩ := assemble_errors h1
  obtain ⟨tr', out', u1, u2, u3, u4⟩ := assemble_errors h2
  have filt : ∀ {env : Env} {s : PState} {tr : List Outcome} {out : List (Instruction × List ParserError)},
      IsTrace env env.input tr → out.length = (outInsts 0 tr).length →
      (∀ (i : Nat) p, (outInsts 0 tr)[i]? = some p → ∃ q, out[i]? = some q ∧ adjust1 env s i p = some q) →
      lineErrors (outErrors tr ++ out.flatMap (·.2)) = outErrors tr := by
    intro env s tr out a b c
    unfold lineErrors
    rw [List.filter_append]
    have e1 : (out.flatMap (·.2)).filter (fun e => !e.isRef) = [] := by
      rw [List.filter_eq_nil_iff]
      intro e he
      simp [(ref_isRef b c e he).1]
    rw [e1, List.append_nil, List.filter_eq_self]
    intro e he
    obtain ⟨k, ws, hk⟩ := outErrors_get he
    obtain ⟨_, _, _, h⟩ := trace_err_line a hk
    simp [h]
  rw [t2, u2, filt t1 t3 t4, filt u1 u3 u4]
  rw [lines_append] at u1
  have pre' : SamePre (envOf rt m (pre ++ '\n' :: rest)) (envOf rt m (pre ++ ['\n'])) (lines (pre ++ ['\n'])).length := by
    refine ⟨rfl, rfl, ?_⟩
    intro k hk
    show (lines _)[k]? = (lines _)[k]?
    rw [lines_append, List.getElem?_append_left hk]
  have ht := isTrace_unique t1 (isTrace_pre pre' u1)
  have hlen : (lines (pre ++ ['\n'])).length ≤ tr'.length := by rw [u1.1]; simp
  have key : ∀ (n j : Nat) (tr : List Outcome), (∀ (k : Nat) ws e, tr[k]? = some (Outcome.rejected ws e) → e.line.num = j + k + 1) →
      outErrors (tr.take n) = (outErrors tr).filter fun e => decide (e.line.num ≤ j + n) := by
    intro n j tr hk
    have e := outErrors_append (tr.take n) (tr.drop n)
    rw [List.take_append_drop] at e
    rw [e, List.filter_append]
    have f1 : (outErrors (tr.take n)).filter (fun e => decide (e.line.num ≤ j + n)) = outErrors (tr.take n) := by
      rw [List.filter_eq_self]
      intro e he
      obtain ⟨k, ws, hk'⟩ := outErrors_get he
      have hlt : k < n := by have := (List.getElem?_eq_some_iff.1 hk').1; simp at this; omega
      rw [List.getElem?_take, if_pos hlt] at hk'
      simp; rw [hk k ws e hk']; omega
    have f2 : (outErrors (tr.drop n)).filter (fun e => decide (e.line.num ≤ j + n)) = [] := by
      rw [List.filter_eq_nil_iff]
      intro e he
      obtain ⟨k, ws, hk'⟩ := outErrors_get he
      rw [List.getElem?_drop] at hk'
      simp; rw [hk _ ws e hk']; omega
    rw [f1, f2, List.append_nil]
  rw [ht]
  have := key (lines (pre ++ ['\n'])).length 0 tr' (by
    intro k ws e hk
    rw [← lines_append] at u1
    obtain ⟨raw, _, h, _⟩ := trace_err_line u1 hk
    rw [h]; simp)
  simpa using this

/-- Non-vacuity and content: three bad lines among good ones. -/
example : ((@assemble asciiUnicode (idRt true) Mipsasm.new c!"foo $a0\nnop\nadd $a0, $a1\nj nowhere\nbar $a0").errors.map
    fun es => es.map fun e => (e.line.num, e.isRef)) = some [(1, false), (3, false), (5, false), (4, true)] := by decide +kernel

/-- C27, the reference errors: an unresolved label is reported with the number and text of an instruction
line, and each instruction line is reported at most once, in order. -/
theorem C27_references [Unicode] (rt : Rt) (m : Mipsasm) (text : Str) (errs : List ParserError) (ws : List ParserWarning)
    (h : assemble rt m text = .err errs ws) (e : ParserError) (he : e ∈ errs)
    (hr : (∃ l x, e = .undefinedLabel l x) ∨ ∃ l x, e = .localLabelOutOfScope l x) :
    ∃ raw, (lines text)[e.line.num - 1]? = some raw ∧ e.line.content = raw ∧ kind raw = .code := by
  obtain ⟨tr, out, h1, h2, h3, h4, h5, h6⟩ := assemble_err h
  rw [h4] at he
  have hre : e.isRef = true := by rcases hr with ⟨l, x, rfl⟩ | ⟨l, x, rfl⟩ <;> rfl
  rcases List.mem_append.1 he with he | he
  · obtain ⟨k, ws', hk⟩ := outErrors_get he
    obtain ⟨_, _, _, e3⟩ := trace_err_line h1 hk
    rw [hre] at e3; cases e3
  · obtain ⟨_, i, p, ⟨a, es⟩, hp, ha, he'⟩ := ref_isRef h5 h6 e he
    obtain ⟨k, ws', hk1, hk2, hk3⟩ := outInsts_get hp
    obtain ⟨raw, r1, r2, _⟩ := trace_inst h1 hk1
    have hn : p.1 - 1 = k := by omega
    refine ⟨raw, ?_⟩
    simp only at he'
    subst he'
    have hi : (envOf rt m text).input = lines text := rfl
    rcases adjust1_errs ha with h0 | ⟨l, raw', h0, h1', _⟩ | ⟨l, raw', h0, h1', _⟩ | ⟨last, raw', hi', h0, h1', h2', _⟩
    · cases h0
    · simp only [List.cons.injEq, and_true] at h0
      subst h0
      rw [hi, hn, r1] at h1'; cases h1'
      simp only [ParserError.line]
      rw [hn]; exact ⟨r1, by simp, r2⟩
    · simp only [List.cons.injEq, and_true] at h0
      subst h0
      rw [hi, hn, r1] at h1'; cases h1'
      simp only [ParserError.line]
      rw [hn]; exact ⟨r1, by simp, r2⟩
    · simp only [List.cons.injEq, and_true] at h0
      subst h0
      rcases hr with ⟨_, _, h⟩ | ⟨_, _, h⟩ <;> cases h

/-- C27 is violated by branch-out-of-bounds errors: the error names the last line of the file instead of
the line of the branch (here line 1). -/
theorem C27_out_of_bounds_line : ∃ text : Str, ((@assemble asciiUnicode (idRt true) Mipsasm.new text).errors.map
    fun es => es.map fun e => (e.line.num, e.line.content)) = some [(2, c!"nop")] ∧ lines text = [c!"b 64", c!"nop"] :=
  ⟨c!"b 64\nnop", by decide +kernel⟩

/-! ### C11 -/

theorem lookup_isSome_of_mem {l : List (Str × Nat)} {k : Str} {v : Nat} (h : (k, v) ∈ l) : ∃ w, l.lookup k = some w := by
  induction l with
  | nil => cases h
  | cons e l ih =>
    obtain ⟨a, b⟩ := e
    rw [List.lookup_cons]
    split
    · exact ⟨_, rfl⟩
    · rename_i hk
      rcases List.mem_cons.1 h with h | h
      · cases h; simp at hk
      · exact ih h

theorem labelRes_known [Unicode] {env : Env} {tr : List Outcome} {l : Str} {o : Outcome} (h : labelRes env tr l = some o)
    (hl : isLocal l = false) (hk : ∃ v, (l, v) ∈ outLabels 0 tr) : ∃ ws e, o = .rejected ws e := by
  obtain ⟨v, hv⟩ := hk
  obtain ⟨w, hw⟩ := lookup_isSome_of_mem hv
  unfold labelRes at h
  split at h
  · cases h
  split at h
  · cases h; exact ⟨_, _, rfl⟩
  rw [hw] at h
  simp only at h
  split at h
  · cases h; exact ⟨_, _, rfl⟩
  · cases h

/-- C11: if a label is defined twice, the second definition is reported. -/
theorem C11_duplicate_reported [Unicode] (rt : Rt) (m : Mipsasm) (text : Str) (errs : List ParserError)
    (h : (assemble rt m text).errors = some errs) (j k : Nat) (raw raw' l : Str) (hjk : j < k)
    (h1 : (lines text)[j]? = some raw) (h2 : (lines text)[k]? = some raw') (hl : isLocal l = false)
    (k1 : kind raw = .label l) (k2 : kind raw' = .label l) :
    ∃ e ∈ errs, e.line = ⟨k + 1, raw'⟩ ∧ ((∃ f, e = .multipleLabelDefinition ⟨k + 1, raw'⟩ l f) ∨ e = .invalidLabel ⟨k + 1, raw'⟩ l) := by
  obtain ⟨tr, out, t1, t2, t3, t4⟩ := assemble_errors h
  have hk : k < tr.length := by rw [t1.1]; exact (List.getElem?_eq_some_iff.1 h2).1
  have ho := t1.2 j raw tr[j] h1 (List.getElem?_eq_getElem (by omega))
  have ho' := t1.2 k raw' tr[k] h2 (List.getElem?_eq_getElem hk)
  have hrej : ∃ ws e, tr[k] = .rejected ws e := by
    unfold lineRes at ho ho'
    rw [k1] at ho
    rw [k2] at ho'
    simp only at ho ho'
    cases hc : tr[j] with
    | label l' =>
      have : l' = l := by
        rw [hc] at ho
        unfold labelRes at ho
        split at ho
        · cases ho
        split at ho
        · cases ho
        split at ho
        · split at ho <;> cases ho
        · split at ho
          · cases ho
          · cases ho; rfl
      subst this
      refine labelRes_known ho' hl ⟨(outInsts 0 (tr.take j)).length, ?_⟩
      have e : tr.take k = tr.take j ++ (.label l') :: (tr.take k).drop (j + 1) := by
        rw [← hc]
        have : tr.take j = (tr.take k).take j := by rw [List.take_take, Nat.min_eq_left (by omega)]
        rw [this]
        have hg : tr[j] = (tr.take k)[j]'(by simp; omega) := by simp
        rw [hg, ← List.drop_eq_getElem_cons, List.take_append_drop]
      rw [e, outLabels_append]
      simp [outLabels]
    | rejected ws e =>
      rw [hc] at ho
      unfold labelRes at ho ho'
      cases l with
      | nil => cases ho
      | cons c l =>
        simp only at ho ho'
        by_cases hn : Unicode.isNumeric c = true
        · rw [if_pos hn] at ho'; exact ⟨_, _, (Option.some.inj ho').symm⟩
        · rw [if_neg hn] at ho ho'
          cases hq : (outLabels 0 (tr.take j)).lookup (c :: l) with
          | none =>
            rw [hq] at ho; simp only at ho
            split at ho <;> cases ho
          | some f =>
            have hm := lookup_mem' hq
            obtain ⟨b, hb⟩ := outLabels_take (tr.take k) j
            rw [List.take_take, Nat.min_eq_left (by omega)] at hb
            have hm' : (c :: l, f) ∈ outLabels 0 (tr.take k) := by rw [hb]; exact List.mem_append_left _ hm
            obtain ⟨w, hw⟩ := lookup_isSome_of_mem hm'
            rw [hw] at ho'
            simp only at ho'
            split at ho'
            · exact ⟨_, _, (Option.some.inj ho').symm⟩
            · cases ho'
    | blank => rw [hc] at ho; unfold labelRes at ho; repeat' split at ho
               all_goals cases ho
    | inst ws i => rw [hc] at ho; exact absurd rfl ((labelRes_warns ho).1 ws i)
    | loc l' =>
      rw [hc] at ho; unfold labelRes at ho
      split at ho
      · cases ho
      split at ho
      · cases ho
      split at ho
      · split at ho <;> cases ho
      · split at ho
        · rename_i hx; rw [hl] at hx; cases hx
        · cases ho
  obtain ⟨ws, e, hre⟩ := hrej
  have hg : tr[k]? = some (Outcome.rejected ws e) := by rw [List.getElem?_eq_getElem hk, hre]
  obtain ⟨raw2, r1, r2, _⟩ := trace_err_line (env := envOf rt m text) t1 hg
  have : raw2 = raw' := by
    have hi : (envOf rt m text).input = lines text := rfl
    rw [hi, h2] at r1; cases r1; rfl
  subst this
  refine ⟨e, ?_, r2, ?_⟩
  · rw [t2]; exact List.mem_append_left _ (outErrors_mem hg)
  · unfold lineRes at ho'
    rw [k2, hre] at ho'
    simp only at ho'
    have hctx : (ctxAt (envOf rt m text) (tr.take k)).line = ⟨k + 1, raw2⟩ := by
      have e1 : (tr.take k).length = k := by simp; omega
      have hi : (envOf rt m text).input = lines text := rfl
      simp only [Ctx.line, ctxAt, e1, hi, h2, Option.getD_some]
    unfold labelRes at ho'
    rw [hctx] at ho'
    split at ho'
    · cases ho'
    split at ho'
    · cases ho'; exact Or.inr rfl
    split at ho'
    · split at ho'
      · cases ho'; exact Or.inl ⟨_, rfl⟩
      · cases ho'
    · split at ho' <;> cases ho'

/-- C11: a label (global or local) that starts with a numeric character is reported. -/
theorem C11_malformed_reported [Unicode] (rt : Rt) (m : Mipsasm) (text : Str) (errs : List ParserError)
    (h : (assemble rt m text).errors = some errs) (k : Nat) (raw : Str) (c : Char) (l : Str)
    (h2 : (lines text)[k]? = some raw) (k2 : kind raw = .label (c :: l)) (hc : Unicode.isNumeric c = true) :
    .invalidLabel ⟨k + 1, raw⟩ (c :: l) ∈ errs := by
  obtain ⟨tr, out, t1, t2, t3, t4⟩ := assemble_errors h
  have hk : k < tr.length := by rw [t1.1]; exact (List.getElem?_eq_some_iff.1 h2).1
  have ho' := t1.2 k raw tr[k] h2 (List.getElem?_eq_getElem hk)
  unfold lineRes at ho'
  rw [k2] at ho'
  simp only [labelRes, if_pos hc, Option.some.injEq] at ho'
  have hctx : (ctxAt (envOf rt m text) (tr.take k)).line = ⟨k + 1, raw⟩ := by
    have e1 : (tr.take k).length = k := by simp; omega
    have hi : (envOf rt m text).input = lines text := rfl
    simp only [Ctx.line, ctxAt, e1, hi, h2, Option.getD_some]
  rw [hctx] at ho'
  rw [t2]
  exact List.mem_append_left _ (outErrors_mem (k := k) (ws := []) (by rw [List.getElem?_eq_getElem hk, ← ho']))

theorem globalsFrom_mem {l : Str} {v : Nat} {n : Nat} {ls : List Str} (h : (l, v) ∈ globalsFrom n ls) :
    isLocal l = false ∧ ∃ (k : Nat) (raw : Str), ls[k]? = some raw ∧ kind raw = .label l := by
  induction ls generalizing n with
  | nil => cases h
  | cons raw ls ih =>
    unfold globalsFrom at h
    have tail : ∀ n, (l, v) ∈ globalsFrom n ls → isLocal l = false ∧ ∃ (k : Nat) (r : Str), (raw :: ls)[k]? = some r ∧ kind r = .label l := by
      intro n hn
      obtain ⟨a, k, r, b, c⟩ := ih hn
      exact ⟨a, k + 1, r, by simpa using b, c⟩
    split at h
    · exact tail _ h
    · exact tail _ h
    · rename_i l' hk
      split at h
      · exact tail _ h
      · rename_i hl
        rcases List.mem_cons.1 h with h | h
        · cases h; exact ⟨by simpa using hl, 0, raw, rfl, hk⟩
        · exact tail _ h

theorem nodup_globals {ls : List Str} (h : ∀ (j k : Nat) raw raw' l, j < k → ls[j]? = some raw → ls[k]? = some raw' → isLocal l = false →
    kind raw = .label l → kind raw' = .label l → False) (n : Nat) : ((globalsFrom n ls).map (·.1)).Nodup := by
  induction ls generalizing n with
  | nil => simp [globalsFrom]
  | cons raw ls ih =>
    have ih' := ih (fun j k r r' l hjk a b c d e => h (j + 1) (k + 1) r r' l (by omega) (by simpa using a) (by simpa using b) c d e)
    unfold globalsFrom
    split
    · exact ih' _
    · exact ih' _
    · rename_i l hk
      split
      · exact ih' _
      · rename_i hl
        rw [List.map_cons, List.nodup_cons]
        refine ⟨?_, ih' _⟩
        intro hm
        obtain ⟨⟨l', v⟩, hm', he⟩ := List.mem_map.1 hm
        simp only at he; subst he
        obtain ⟨_, k, r, h1, h2⟩ := globalsFrom_mem hm'
        exact h 0 (k + 1) raw r l' (by omega) rfl (by simpa using h1) (by simpa using hl) hk h2

/-- C11: in an accepted program the global labels are pairwise distinct, and no label (global or local)
is empty or starts with a numeric character. -/
theorem C11_accepted [Unicode] (rt : Rt) (m : Mipsasm) (text : Str) (is : List Instruction) (ws : List ParserWarning)
    (h : assemble rt m text = .ok is ws) :
    ((globals (lines text)).map (·.1)).Nodup ∧
    ∀ raw ∈ lines text, ∀ l, kind raw = .label l → ∃ c t, l = c :: t ∧ Unicode.isNumeric c = false := by
  have he : (assemble rt m text).errors = some [] := by rw [h]; rfl
  refine ⟨nodup_globals ?_ 0, ?_⟩
  · intro j k raw raw' l hjk h1 h2 hl k1 k2
    obtain ⟨e, hm, _⟩ := C11_duplicate_reported rt m text [] he j k raw raw' l hjk h1 h2 hl k1 k2
    cases hm
  · intro raw hraw l hk
    obtain ⟨k, hk'⟩ := List.getElem?_of_mem hraw
    cases l with
    | nil =>
      obtain ⟨tr, t1, t2, _⟩ := assemble_ok h
      have hlt : k < tr.length := by rw [t1.1]; exact (List.getElem?_eq_some_iff.1 hk').1
      have ho := t1.2 k raw tr[k] hk' (List.getElem?_eq_getElem hlt)
      unfold lineRes at ho
      rw [hk] at ho
      cases ho
    | cons c t =>
      refine ⟨c, t, rfl, ?_⟩
      cases hc : Unicode.isNumeric c with
      | false => rfl
      | true =>
        have := C11_malformed_reported rt m text [] he k raw c t hk' hk hc
        cases this

/-- Non-vacuity: an accepted program with two labels; rejected programs. -/
example : (@assemble asciiUnicode (idRt true) Mipsasm.new c!"a:\nb a\nb:\nb b").errors = some [] := by decide +kernel
example : ((@assemble asciiUnicode (idRt true) Mipsasm.new c!"a:\nnop\na:\n1x:").errors.map fun es => es.map (·.line.num)) = some [3, 4] := by
  decide +kernel

/-! ### C10 -/

theorem adjust1_resolved {env : Env} {s : PState} {i : Nat} {p : Nat × Instruction} {a : Instruction}
    (h : adjust1 env s i p = some (a, [])) : NoLabel a := by
  obtain ⟨n, q⟩ := p
  unfold adjust1 at h
  simp only at h
  split at h
  · simp only [opt_bind, Option.bind_eq_some_iff, Option.some.injEq, Prod.mk.injEq] at h
    obtain ⟨_, _, rfl, _⟩ := h
    rfl
  · split at h
    · simp only [opt_bind, Option.bind_eq_some_iff, Option.some.injEq, Prod.mk.injEq] at h
      obtain ⟨l, hl, _, h⟩ := h
      cases h
    · simp only [opt_bind, Option.bind_eq_some_iff] at h
      obtain ⟨r, _, h⟩ := h
      split at h
      · cases h; rfl
      · simp only [Option.bind_eq_some_iff, Option.some.injEq, Prod.mk.injEq] at h
        obtain ⟨l, hl, _, h⟩ := h
        cases h
  · split at h
    · cases h; rfl
    · simp only [opt_bind, Option.bind_eq_some_iff] at h
      obtain ⟨n4, _, hi, _, es', hes, h⟩ := h
      simp only [Option.some.injEq, Prod.mk.injEq] at h
      obtain ⟨rfl, _⟩ := h
      rfl
  · split at h
    · simp only [opt_bind, Option.bind_eq_some_iff, Option.some.injEq, Prod.mk.injEq] at h
      obtain ⟨l, hl, _, h⟩ := h
      cases h
    · simp only [opt_bind, Option.bind_eq_some_iff, Option.some.injEq, Prod.mk.injEq] at h
      obtain ⟨_, _, _, _, rfl, _⟩ := h
      rfl
  · rename_i h1 h2 h3 h4
    cases h
    cases a with
    | imm op rs rt im b =>
      cases im with
      | label l => exact absurd rfl (h1 _ _ _ _ _)
      | localLabel l => exact absurd rfl (h2 _ _ _ _ _)
      | _ => rfl
    | jump op t b =>
      cases t with
      | label l => exact absurd rfl (h4 _ _ _)
      | address => rfl
    | _ => trivial

theorem assembleInst_noLabel {ovf : Bool} {a b : Instruction} (h : assembleInst ovf a = some b) (ha : NoLabel a) : NoLabel b := by
  unfold assembleInst at h
  rw [opt_bind, Option.bind_eq_some_iff] at h
  obtain ⟨ws, h1, h2⟩ := h
  cases a <;> cases h2 <;> exact ha

/-- C10: no operand of a returned instruction is a label. -/
theorem C10_no_label_survives [Unicode] (rt : Rt) (m : Mipsasm) (text : Str) (is : List Instruction) (ws : List ParserWarning)
    (h : assemble rt m text = .ok is ws) : ∀ i ∈ is, NoLabel i := by
  obtain ⟨tr, t1, t2, _, t3, t4⟩ := assemble_ok h
  intro b hb
  obtain ⟨i, hi⟩ := List.getElem?_of_mem hb
  have hlt : i < (outInsts 0 tr).length := by rw [← t3]; exact (List.getElem?_eq_some_iff.1 hi).1
  obtain ⟨a, b', hd, hb', hc⟩ := t4 i _ (List.getElem?_eq_getElem hlt)
  rw [hi] at hb'; cases hb'
  exact assembleInst_noLabel hc (adjust1_resolved hd.1)

/-- The compare-and-branch pseudo-instructions, whose expansion subtracts one from the offset. -/
def cmpBranches : List ITypeOp := [.Bge, .Bgel, .Bgeu, .Bgeul, .Bgt, .Bgtl, .Bgtu, .Bgtul, .Ble, .Blel, .Bleu, .Bleul, .Blt, .Bltl, .Bltu, .Bltul]

/-- C10: after parsing, encoding never panics because of an unresolved label: the only panics left are
`.word` and, with overflow checks on, a compare-and-branch with offset 0. -/
theorem C10_encoder_total (ovf : Bool) (i : Instruction) (h : NoLabel i) (hn : assembleInst ovf i = none) :
    (∃ w, i = .bytes w) ∨ (ovf = true ∧ ∃ op rs rt im b, i = .imm op rs rt im b ∧ op ∈ cmpBranches ∧ im.asU32 = some 0#32) := by
  cases i with
  | bytes w => exact Or.inl ⟨w, rfl⟩
  | reg op rs rt rd sa b => cases hn
  | jump op t b =>
    cases t with
    | label l => cases h
    | address a => cases hn
  | imm op rs rt im b =>
    right
    have hs : ∃ v l, im.asU32 = some v ∧ im.asU64 = some l := by
      cases im with
      | label l => cases h
      | localLabel l => cases h
      | short v => exact ⟨_, _, rfl, rfl⟩
      | int v => exact ⟨_, _, rfl, rfl⟩
      | long v => exact ⟨_, _, rfl, rfl⟩
    obtain ⟨v, l, h1, h2⟩ := hs
    have he : encI ovf op rs.num rt.num v l = none := by
      unfold assembleInst encode at hn
      simp only [h1, h2, opt_bind, Option.bind_some] at hn
      cases hq : encI ovf op rs.num rt.num v l with
      | none => rfl
      | some ws => rw [hq] at hn; cases hn
    have hz : ∀ {f : Word → List Word}, (subOne ovf v).map f = none → ovf = true ∧ v = 0#32 := by
      intro f hf
      unfold subOne at hf
      split at hf
      · rename_i hh; exact ⟨hh.2, hh.1⟩
      · cases hf
    have : op ∈ cmpBranches ∧ ovf = true ∧ v = 0#32 := by
      cases op
      all_goals first
        | (cases he; done)
        | exact ⟨by decide, hz he⟩
    exact ⟨this.2.1, op, rs, rt, im, b, rfl, this.1, by rw [h1, this.2.2]⟩

end Mips
