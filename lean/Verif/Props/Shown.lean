/-
C28: displaying errors.
-/
import Verif.Lemmas.ShownL
import Verif.Props.Errors

namespace Mips
open Source Isa Syntax Branch Shown Operands

/-! ### The formatter -/

theorem errLine_isSome (l : Line) (h m u : Str) : (errLine l h m u).isSome ↔ u <:+: l.content := by
  unfold errLine; rw [headed_isSome, fmtLine_isSome]

/-- C28, exactly: an error is displayed if and only if each text it underlines occurs in the line it quotes; otherwise
formatting it panics. -/
theorem C28_exact (e : ParserError) : (∃ s, e.display = some s) ↔ ∀ m ∈ marks e, m.1 <:+: m.2.content := by
  rw [← Option.isSome_iff_exists]
  cases e <;> simp only [ParserError.display, marks, errLine_isSome, headed2_isSome, Bool.and_eq_true, fmtLine_isSome, List.mem_cons,
    List.not_mem_nil, or_false, forall_eq_or_imp, forall_eq]

theorem fmtLine_shows {n : Nat} {content : Str} {m : Nat} {b : Bool} {msg : Str} {f : Bool} {u s : Str}
    (h : fmtLine n content m b msg f u = some s) : decimal n ++ c!" |" ++ reset ++ c!" " ++ content ++ ['\n'] <:+: s := by
  unfold fmtLine at h
  split at h
  · cases h
  · simp only [Option.some.injEq] at h
    subst h
    unfold padLeft
    refine ⟨(if f then blue ++ (List.replicate (m - ([] : Str).length) ' ' ++ []) ++ c!" |" ++ reset ++ ['\n'] else []) ++
      (blue ++ List.replicate (m - (decimal n).length) ' '), ?_, ?_⟩
    rotate_left
    · simp only [List.append_assoc]
      rfl

theorem headed_some {h : Str} {b : Option Str} {s : Str} (hs : headed h b = some s) : ∃ t, b = some t ∧ t <:+: s := by
  unfold headed at hs
  rw [Option.map_eq_some_iff] at hs
  obtain ⟨t, ht, rfl⟩ := hs
  exact ⟨t, ht, ⟨h ++ ['\n'], ['\n'], by simp⟩⟩

theorem headed2_some {h : Str} {a b : Option Str} {s : Str} (hs : headed2 h a b = some s) :
    ∃ t u, a = some t ∧ b = some u ∧ t <:+: s ∧ u <:+: s := by
  unfold headed2 at hs
  split at hs
  · rename_i t u
    simp only [Option.some.injEq] at hs
    subst hs
    exact ⟨t, u, rfl, rfl, ⟨h ++ ['\n'], ['\n'] ++ blue ++ c!"..." ++ reset ++ ['\n'] ++ u ++ ['\n'], by simp⟩,
      ⟨h ++ ['\n'] ++ t ++ ['\n'] ++ blue ++ c!"..." ++ reset ++ ['\n'], ['\n'], by simp⟩⟩
  · cases hs

/-- C28: the message shows the number and the full text of each line the error refers to. -/
theorem C28_shows (e : ParserError) (s : Str) (h : e.display = some s) : ∀ m ∈ marks e,
    decimal m.2.num ++ c!" |" ++ reset ++ c!" " ++ m.2.content ++ ['\n'] <:+: s := by
  have one : ∀ {l : Line} {hd m u : Str}, errLine l hd m u = some s →
      decimal l.num ++ c!" |" ++ reset ++ c!" " ++ l.content ++ ['\n'] <:+: s := by
    intro l hd m u hs
    obtain ⟨t, h1, h2⟩ := headed_some hs
    exact (fmtLine_shows h1).trans h2
  cases e <;> simp only [ParserError.display] at h <;>
    simp only [marks, List.mem_cons, List.not_mem_nil, or_false, forall_eq_or_imp, forall_eq]
  case multipleLabelDefinition =>
    obtain ⟨t, u, h1, h2, h3, h4⟩ := headed2_some h
    exact ⟨(fmtLine_shows h1).trans h3, (fmtLine_shows h2).trans h4⟩
  all_goals exact one h

/-! ### Rejected lines -/

def copNames : List Str :=
  [c!"mfc0", c!"mtc0", c!"dmfc0", c!"dmtc0", c!"cfc0", c!"ctc0", c!"mfc1", c!"mtc1", c!"dmfc1", c!"dmtc1", c!"cfc1", c!"ctc1"]

theorem other_names : ∀ n ∈ Names.all, '.' ∈ n ∨ (classify n ≠ .other ∧ (classify n ≠ .cop0 ∨ n ∈ copNames) ∧
    (classify n ≠ .cop1 ∨ n ∈ copNames) ∧ (classify n ≠ .fmem ∨ n ∈ [c!"ldc1", c!"lwc1", c!"sdc1", c!"swc1"])) := by
  decide +kernel

theorem systemPos_of {mn : Str} {i : Nat} (h : fpos (classify mn) i = true) : SystemPos mn i := by
  by_cases h1 : mn ∈ Names.all
  · by_cases h2 : '.' ∈ mn
    · exact .inr (.inr (.inl h2))
    · obtain ⟨a, b, b', c⟩ := (other_names mn h1).resolve_left h2
      generalize hc : classify mn = cl at *
      unfold fpos at h
      split at h
      · exact .inl ⟨b.resolve_left (by simp), rfl⟩
      · exact .inl ⟨b'.resolve_left (by simp), rfl⟩
      · exact .inr (.inl ⟨c.resolve_left (by simp), rfl⟩)
      · exact absurd rfl a
      · cases h
  · exact .inr (.inr (.inr h1))

theorem classify_word_name {mn : Str} (h : classify mn = .word) : mn = c!".word" := by
  unfold classify at h
  split at h
  · rename_i e he
    have h1 := List.mem_of_find?_eq_some he
    have h2 := List.find?_some he
    have : ∀ e ∈ clsTable, e.1 = .word → e.2 = [c!".word"] := by decide +kernel
    rw [this e h1 h] at h2
    simpa using h2
  · cases h

theorem classify_jump_names {mn : Str} (h : classify mn = .jump) : mn ∈ [c!"j", c!"jal"] := by
  unfold classify at h
  split at h
  · rename_i e he
    have h1 := List.mem_of_find?_eq_some he
    have h2 := List.find?_some he
    have : ∀ e ∈ clsTable, e.1 = .jump → e.2 = [c!"j", c!"jal"] := by decide +kernel
    rw [this e h1 h] at h2
    simpa using h2
  · cases h

theorem mem_cut {ch : Char} {s : Str} (h : ch ∈ s) : ∃ a t, s = a ++ ch :: t ∧ ch ∉ a := by
  induction s with
  | nil => cases h
  | cons c s ih =>
    by_cases hc : c = ch
    · exact ⟨[], s, by simp [hc], by simp⟩
    · have : ch ∈ s := by
        rcases List.mem_cons.1 h with h | h
        · exact absurd h.symm hc
        · exact h
      obtain ⟨a, t, rfl, ha⟩ := ih this
      exact ⟨c :: a, t, rfl, by simp [ha, Ne.symm hc]⟩

theorem split_single {ch : Char} {s : Str} (h : (split ch s).length = 1) : split ch s = [s] := by
  by_cases hc : ch ∈ s
  · obtain ⟨a, t, rfl, ha⟩ := mem_cut hc
    rw [split_cons _ _ _ ha] at h
    have := split_ne_nil ch t
    cases hs : split ch t with
    | nil => exact absurd hs this
    | cons b l => rw [hs] at h; simp at h
  · exact split_noComma ch s hc

/-- All texts an error underlines occur in the lines it quotes. -/
def MarksOk (e : ParserError) : Prop := ∀ m ∈ marks e, m.1 <:+: m.2.content

theorem marks_one {e : ParserError} {t : Str} {l : Line} (h : marks e = [(t, l)]) (hi : t <:+: l.content) : MarksOk e := by
  intro m hm
  rw [h] at hm
  simp only [List.mem_cons, List.not_mem_nil, or_false] at hm
  subst hm; exact hi

theorem words_infix (s : Str) : firstWord s <:+: s ∧ operandText s <:+: s := by
  have := splitOnce_words s
  cases hs : splitOnce ' ' s with
  | none =>
    rw [hs] at this
    simp only [Prod.mk.injEq] at this
    rw [← this.1, ← this.2]
    exact ⟨List.infix_refl _, List.nil_infix⟩
  | some p =>
    rw [hs] at this
    simp only at this
    subst this
    exact splitOnce_infix hs

theorem parse_marks [Unicode] {x : Ctx} {raw : Str} (hx : x.line.content = raw) (hc : kind raw = .code) (hp : PlainLine raw) :
    EPost (parseInst x (body raw)) MarksOk := by
  rw [parseInst_eq x (kind_code_ne hc)]
  obtain ⟨w1, w2⟩ := words_infix (body raw)
  have hop : firstWord (body raw) <:+: x.line.content := by rw [hx]; exact w1.trans (body_infix raw)
  have harg : operandText (body raw) <:+: x.line.content := by rw [hx]; exact w2.trans (body_infix raw)
  have hs : ∀ s ∈ split ',' (operandText (body raw)), s <:+: x.line.content := fun s h => (infix_of_split h).trans harg
  have himm : ∀ s, PlainOp s → s <:+: x.line.content → ∀ ty e, parseImm x ty s = .err e → MarksOk e := by
    intro s h1 h2 ty e h
    obtain ⟨a, rfl | rfl, ha⟩ := parseImm_text h1 h <;> exact marks_one rfl (ha.trans h2)
  apply parseArm_errs
  constructor
  case cnt => intro _ _; exact marks_one rfl harg
  case reg => intro a ha e he; exact marks_one rfl ((gpr_err_text he).trans (hs a ha))
  case base => intro a t h1 h2 e he; exact marks_one rfl ((gpr_err_text he).trans ((plain_base (hp.ops a h2) h1).trans (hs a h2)))
  case freg =>
    intro i a h1 h2 e he
    exact marks_one rfl ((fpr_err_text (hp.regs i a h1 (systemPos_of h2)) he).trans (hs a (List.mem_of_getElem? h1)))
  case creg =>
    intro i a h1 h2 e he
    exact marks_one rfl ((c0_err_text (hp.regs i a h1 (systemPos_of h2)) he).trans (hs a (List.mem_of_getElem? h1)))
  case imm => intro a ha ty e he; exact himm a (hp.ops a ha) (hs a ha) ty e he
  case immT =>
    intro a ha ty e he
    refine himm a (hp.ops a ha) (hs a ha) ty e ?_
    rw [← he]; unfold parseImm; rw [trim_trim]
  case li => intro a ha; exact marks_one rfl (hs a ha)
  case offs => intro a o h1 h2 e he; obtain ⟨o1, o2, o3⟩ := plain_offset (hp.ops a h2) h1; exact himm _ o1 (o3.trans (hs a h2)) _ _ he
  case offs' =>
    intro a o h1 h2 e he
    obtain ⟨o1, o2, o3⟩ := plain_offset (hp.ops a h2) h1
    rw [o2] at he
    exact himm _ o1 (o3.trans (hs a h2)) _ _ he
  case zero => intro e he; exact absurd he parseImm_zero
  case tgt =>
    intro hj a ha e he
    have hl := hp.jump (classify_jump_names hj) a ha
    obtain ⟨t, rfl, ht⟩ := parseTarget_text (fun _ => hl) he
    exact marks_one rfl (ht.trans ((trim_infix a).trans (hs a ha)))
  case cond =>
    intro c h
    exact marks_one rfl ((infix_of_split (List.mem_of_getElem? h)).trans hop)
  case opc => exact marks_one rfl hop
  case wrd =>
    intro hw e he
    have h1 := hp.word (classify_word_name hw)
    unfold operands at h1
    have h2 : operandText (body raw) ∈ split ',' (operandText (body raw)) := by
      rw [split_single h1]; exact List.mem_singleton.2 rfl
    exact himm _ (hp.ops _ h2) harg _ _ he

theorem kind_label_infix {raw l : Str} (h : kind raw = .label l) : l <:+: raw := by
  unfold kind at h
  split at h
  · cases h
    exact ((body raw).dropLast_prefix).isInfix.trans (body_infix raw)
  · split at h <;> cases h

theorem labelRes_marks [Unicode] {env : Env} {tr : List Outcome} {l : Str} {ws : List ParserWarning} {e : ParserError}
    (h : labelRes env tr l = some (.rejected ws e)) (hl : l <:+: (ctxAt env tr).line.content) (ho : ¬ OtherLine e) : MarksOk e := by
  unfold labelRes at h
  split at h
  · cases h
  split at h
  · cases h; exact marks_one rfl hl
  split at h
  · split at h
    · cases h; exact absurd trivial ho
    · cases h
  · split at h <;> cases h

theorem ctxAt_content [Unicode] {rt : Rt} {m : Mipsasm} {text : Str} {tr : List Outcome} (h : IsTrace (envOf rt m text) (lines text) tr)
    {k : Nat} {raw : Str} (hk : (lines text)[k]? = some raw) : (ctxAt (envOf rt m text) (tr.take k)).line = ⟨k + 1, raw⟩ :=
  (seenAt h hk).line

theorem marks_line (e : ParserError) : ∃ t, (t, e.line) ∈ marks e := by
  cases e <;> simp [marks, ParserError.line]

/-- C28 (partial): every error of an assembly is displayed, with the number and the full text of the line it is about, if the
operands of that line are plain: at most one pair of parentheses, `0x` only in front of a number, floating-point and
coprocessor registers in lower case and not read as hexadecimal numbers.
Missing: the two errors that quote other lines (see `C28_duplicate_partial` and `C28_bounds_exact`), and lines that are not
plain, of which `C28_wrong` shows some whose errors cannot be displayed. -/
theorem C28_displayed_partial [Unicode] (rt : Rt) (m : Mipsasm) (text : Str) (errs : List ParserError) (ws : List ParserWarning)
    (h : assemble rt m text = .err errs ws) (e : ParserError) (he : e ∈ errs) (ho : ¬ OtherLine e)
    (hp : kind e.line.content = .code → PlainLine e.line.content) :
    ∃ s, e.display = some s ∧ decimal e.line.num ++ c!" |" ++ reset ++ c!" " ++ e.line.content ++ ['\n'] <:+: s ∧
      (lines text)[e.line.num - 1]? = some e.line.content := by
  have hm : MarksOk e ∧ (lines text)[e.line.num - 1]? = some e.line.content := by
    obtain ⟨tr, out, h1, h2, h3, h4, h5, h6⟩ := assemble_err h
    rw [h4] at he
    rcases List.mem_append.1 he with he | he
    · obtain ⟨k, ws', hk⟩ := outErrors_get he
      obtain ⟨raw, e1, e2, e3⟩ := trace_err_line h1 hk
      refine ⟨?_, by rw [e2]; exact e1⟩
      have hc := ctxAt_content h1 e1
      have hr := h1.2 k _ _ e1 hk
      rw [e2] at hp
      simp only at hp
      unfold lineRes at hr
      split at hr
      · cases hr
      · rename_i l hl
        refine labelRes_marks hr ?_ ho
        rw [hc]; exact kind_label_infix hl
      · rename_i hl
        obtain ⟨_, h8⟩ := instRes_rejected hr
        exact parse_marks (by rw [hc]) hl (hp hl) e h8
    · obtain ⟨hr, i, p, ⟨a, es⟩, hp', ha, rfl⟩ := ref_isRef h5 h6 e he
      obtain ⟨k, ws', k1, k2, k3⟩ := outInsts_get hp'
      obtain ⟨raw, r1, r2, r3⟩ := trace_inst h1 k1
      have hn : p.1 - 1 = k := by omega
      have key : PlainLine raw → InstText (operandText (body raw)) p.2 := by
        intro hq
        rw [parseInst_eq _ (kind_code_ne r2)] at r3
        exact parseArm_text _ _ _ _ hq.ops p.2 (by rw [r3])
      have hw := (words_infix (body raw)).2.trans (body_infix raw)
      rcases adjust1_errs ha with h0 | ⟨l, raw', h0, h1', h2'⟩ | ⟨l, raw', h0, h1', h2'⟩ | ⟨last, raw', hi', h0, h1', h2', _⟩
      · cases h0
      · simp only [List.cons.injEq, and_true] at h0
        subst h0
        rw [hn, show (envOf rt m text).input = lines text from rfl, r1] at h1'
        cases h1'
        refine ⟨?_, by show (lines text)[p.1 - 1]? = _; rw [hn]; exact r1⟩
        have hq := key (hp r2)
        rcases h2' with ⟨o, rs, rt', b, hh⟩ | ⟨o, b, hh, _⟩
        · exact marks_one rfl ((hq.1 _ _ _ _ _ hh).trans hw)
        · exact marks_one rfl ((hq.2 _ _ _ hh).trans hw)
      · simp only [List.cons.injEq, and_true] at h0
        subst h0
        rw [hn, show (envOf rt m text).input = lines text from rfl, r1] at h1'
        cases h1'
        refine ⟨?_, by show (lines text)[p.1 - 1]? = _; rw [hn]; exact r1⟩
        have hq := key (hp r2)
        obtain ⟨o, rs, rt', b, hh⟩ := h2'
        exact marks_one rfl ((hq.1 _ _ _ _ _ hh).trans hw)
      · simp only [List.cons.injEq, and_true] at h0
        subst h0
        exact absurd trivial ho
  obtain ⟨s, hs⟩ := (C28_exact e).2 hm.1
  refine ⟨s, hs, ?_, hm.2⟩
  obtain ⟨t, ht⟩ := marks_line e
  have := C28_shows e s hs (t, e.line) ht
  dsimp only at this
  exact this

/-- C28: a branch outside the program is reported with the number and text of the last line of the file; the error is
displayed if and only if the text of the line with the branch occurs in the last line. -/
theorem C28_bounds_exact [Unicode] (rt : Rt) (m : Mipsasm) (text : Str) (errs : List ParserError) (ws : List ParserWarning)
    (h : assemble rt m text = .err errs ws) (l : Line) (b : Str) (lo hi : BitVec 32) (he : .branchOutOfBounds l b lo hi ∈ errs) :
    l.num = (lines text).length ∧ (lines text).getLast? = some l.content ∧ (∃ (k : Nat), (lines text)[k]? = some b ∧ kind b = .code) ∧
      ((∃ s, (ParserError.branchOutOfBounds l b lo hi).display = some s) ↔ b <:+: l.content) := by
  refine ⟨?_, ?_, ?_, ?_⟩
  rotate_right
  · rw [C28_exact]; simp [marks]
  all_goals
    obtain ⟨tr, out, h1, h2, h3, h4, h5, h6⟩ := assemble_err h
    rw [h4] at he
    rcases List.mem_append.1 he with he | he
    · obtain ⟨k, ws', hk⟩ := outErrors_get he
      obtain ⟨_, _, _, e3⟩ := trace_err_line h1 hk
      cases e3
    obtain ⟨hr, i, p, ⟨a, es⟩, hp', ha, hes⟩ := ref_isRef h5 h6 _ he
    obtain ⟨k, ws', k1, k2, k3⟩ := outInsts_get hp'
    obtain ⟨raw, r1, r2, r3⟩ := trace_inst h1 k1
    have hn : p.1 - 1 = k := by omega
    simp only at hes
    subst hes
    have hln : (canonF tr).lineNum = (lines text).length := by rw [← h1.1]; rfl
    rcases adjust1_errs ha with h0 | ⟨l, raw', h0, h1', h2'⟩ | ⟨l, raw', h0, h1', h2'⟩ | ⟨last, raw', hi', h0, h1', h2', _⟩
    · cases h0
    · cases h0
    · cases h0
    simp only [List.cons.injEq, and_true] at h0
    cases h0
    rw [hn, show (envOf rt m text).input = lines text from rfl, r1] at h1'
    rw [hln, show (envOf rt m text).input = lines text from rfl] at h2'
    cases h1'
  · exact hln
  · rw [List.getLast?_eq_getElem?]; exact h2'
  · exact ⟨k, r1, r2⟩

theorem outLabels_at {tr : List Outcome} : ∀ {n : Nat} {l : Str} {a : Nat}, (l, a) ∈ outLabels n tr →
    ∃ d : Nat, tr[d]? = some (Outcome.label l) ∧ ((∀ j, j < d → ∃ ws i, tr[j]? = some (Outcome.inst ws i)) → a = n + d) := by
  induction tr with
  | nil => intro n l a h; cases h
  | cons o tr ih =>
    intro n l a h
    have no : (∀ ws i, o ≠ .inst ws i) → (∃ d : Nat, tr[d]? = some (Outcome.label l)) →
        ∃ d : Nat, (o :: tr)[d]? = some (Outcome.label l) ∧ ((∀ j, j < d → ∃ ws i, (o :: tr)[j]? = some (Outcome.inst ws i)) → a = n + d) := by
      rintro ho ⟨d, hd⟩
      refine ⟨d + 1, hd, fun hj => ?_⟩
      obtain ⟨ws, i, he⟩ := hj 0 (by omega)
      simp only [List.getElem?_cons_zero, Option.some.injEq] at he
      exact absurd he (ho ws i)
    cases o with
    | label l' =>
      simp only [outLabels, List.mem_cons] at h
      rcases h with h | h
      · cases h; exact ⟨0, rfl, fun _ => rfl⟩
      · obtain ⟨d, hd, _⟩ := ih h; exact no (by simp) ⟨d, hd⟩
    | inst ws i =>
      simp only [outLabels] at h
      obtain ⟨d, hd, hh⟩ := ih h
      refine ⟨d + 1, hd, fun hj => ?_⟩
      have := hh (fun j hjd => hj (j + 1) (by omega))
      omega
    | _ => simp only [outLabels] at h; obtain ⟨d, hd, _⟩ := ih h; exact no (by simp) ⟨d, hd⟩

/-- C28 (partial): a label defined twice is reported at the second definition; if the lines above the first definition are
all accepted instruction lines, the error also quotes the first definition, and is displayed.
Missing: with other lines above the first definition, the error quotes some line above it, and is displayed only if the name
of the label occurs there (`C28_exact`, `C28_wrong`). -/
theorem C28_duplicate_partial [Unicode] (rt : Rt) (m : Mipsasm) (text : Str) (errs : List ParserError) (ws : List ParserWarning)
    (h : assemble rt m text = .err errs ws) (l f : Line) (x : Str) (he : .multipleLabelDefinition l x f ∈ errs) :
    (lines text)[l.num - 1]? = some l.content ∧ kind l.content = .label x ∧
      ∃ (d : Nat) (raw : Str), d + 1 < l.num ∧ (lines text)[d]? = some raw ∧ kind raw = .label x ∧
        ((∀ j, j < d → ∃ r, (lines text)[j]? = some r ∧ kind r = .code ∧ ∀ e ∈ errs, e.isRef = false → e.line.num ≠ j + 1) →
          f = ⟨d + 1, raw⟩ ∧ ∃ s, (ParserError.multipleLabelDefinition l x f).display = some s) := by
  obtain ⟨tr, out, h1, h2, h3, h4, h5, h6⟩ := assemble_err h
  have he' := he
  rw [h4] at he'
  rcases List.mem_append.1 he' with he' | he'
  · obtain ⟨k, ws', hk⟩ := outErrors_get he'
    obtain ⟨raw, e1, e2, _⟩ := trace_err_line h1 hk
    have e2' : l = ⟨k + 1, raw⟩ := e2
    subst e2'
    have hr := h1.2 k _ _ e1 hk
    unfold lineRes at hr
    split at hr
    · cases hr
    · rename_i y hy
      unfold labelRes at hr
      split at hr
      · cases hr
      split at hr
      · cases hr
      split at hr
      · rename_i first hf
        split at hr
        · rename_i content hcon
          simp only [Option.some.injEq, Outcome.rejected.injEq, ParserError.multipleLabelDefinition.injEq] at hr
          obtain ⟨_, _, hx, hf'⟩ := hr
          subst hf'
          rw [hx] at hf hy
          refine ⟨e1, hy, ?_⟩
          obtain ⟨d, d1, d2⟩ := outLabels_at (lookup_mem' hf)
          have hdk : d < k := by
            have := (List.getElem?_eq_some_iff.1 d1).1
            rw [List.length_take] at this; omega
          rw [List.getElem?_take_of_lt hdk] at d1
          have hdl : d < (lines text).length := by
            have := (List.getElem?_eq_some_iff.1 d1).1
            rw [h1.1] at this; exact this
          have hrd := h1.2 d _ _ (List.getElem?_eq_getElem hdl) d1
          have hkd : kind (lines text)[d] = .label x := by
            unfold lineRes at hrd
            split at hrd
            · cases hrd
            · rename_i hk'
              rw [hk', (labelRes_label hrd).1]
            · unfold instRes at hrd
              split at hrd <;> cases hrd
          refine ⟨d, _, by show d + 1 < k + 1; omega, List.getElem?_eq_getElem hdl, hkd, ?_⟩
          intro hall
          have hfd : first = 0 + d := by
            refine d2 (fun j hj => ?_)
            obtain ⟨r, r1, r2, r3⟩ := hall j hj
            have hjl : j < tr.length := by rw [h1.1]; omega
            have hrj := h1.2 j _ _ r1 (List.getElem?_eq_getElem hjl)
            rw [List.getElem?_take_of_lt (by omega), List.getElem?_eq_getElem hjl]
            unfold lineRes at hrj
            rw [r2] at hrj
            simp only at hrj
            unfold instRes at hrj
            split at hrj
            · simp only [Option.some.injEq] at hrj
              exact ⟨_, _, congrArg some hrj.symm⟩
            · exfalso
              have hrej := List.getElem?_eq_getElem hjl
              rw [← hrj] at hrej
              obtain ⟨_, _, q2, q3⟩ := trace_err_line h1 hrej
              exact r3 _ (by rw [h4]; exact List.mem_append_left _ (outErrors_mem hrej)) q3 (by rw [q2])
            · cases hrj
          rw [Nat.zero_add] at hfd
          subst hfd
          have hcc : content = (lines text)[first] := by
            have : (lines text)[first]? = some content := hcon
            rw [List.getElem?_eq_getElem hdl] at this
            cases this; rfl
          subst hcc
          refine ⟨rfl, ?_⟩
          rw [C28_exact]
          intro mk hmk
          simp only [marks, List.mem_cons, List.not_mem_nil, or_false] at hmk
          rcases hmk with rfl | rfl
          · exact kind_label_infix hkd
          · exact kind_label_infix hy
        · cases hr
      · split at hr <;> cases hr
    · obtain ⟨_, h8⟩ := instRes_rejected hr
      exfalso
      have := parseInst_errs (P := fun e => ∀ l x f, e ≠ .multipleLabelDefinition l x f)
        (ctxAt (envOf rt m text) (tr.take k)) (body raw) (fun _ => by simp) (fun cls op arg _ _ => by
          have hi : ∀ ty s e, parseImm (ctxAt (envOf rt m text) (tr.take k)) ty s = .err e → ∀ l x f, e ≠ .multipleLabelDefinition l x f := by
            intro ty s e h
            rcases parseImm_err h with ⟨a, rfl⟩ | ⟨a, rfl⟩ <;> simp
          constructor
          case imm => intro _ _ ty e h; exact hi _ _ _ h
          case immT => intro _ _ ty e h; exact hi _ _ _ h
          case offs => intro _ _ _ _ e h; exact hi _ _ _ h
          case offs' => intro _ _ _ _ e h; exact hi _ _ _ h
          case zero => intro e h; exact hi _ _ _ h
          case wrd => intro _ e h; exact hi _ _ _ h
          case tgt =>
            intro _ _ _ e h
            obtain ⟨a, rfl⟩ := parseTarget_err h
            simp
          all_goals (intros; simp)) _ h8
      exact this _ _ _ rfl
  · exfalso
    obtain ⟨hr, _⟩ := ref_isRef h5 h6 _ he'
    cases hr

/-! ### Examples and counterexamples -/

/-- Non-vacuity: a plain line whose errors are displayed. -/
example : @PlainLine asciiUnicode c!"addi $a0, $zz, 0x10" ∧
    ((@assemble asciiUnicode (idRt true) Mipsasm.new c!"nop\naddi $a0, $zz, 0x10").errors.map
      fun es => es.map fun e => (e.line.num, e.line.content)) = some [(2, c!"addi $a0, $zz, 0x10")] := by
  letI := asciiUnicode
  refine ⟨⟨?_, ?_, ?_, ?_⟩, by decide +kernel⟩
  · intro s hs
    have : operands (body c!"addi $a0, $zz, 0x10") = [c!"$a0", c!" $zz", c!" 0x10"] := by decide +kernel
    rw [this] at hs
    simp only [List.mem_cons, List.not_mem_nil, or_false] at hs
    have no : ∀ t : Str, 'x' ∉ t → ¬ c!"0x" <:+: t := fun t h hi => h (hi.subset (by simp))
    rcases hs with rfl | rfl | rfl
    · exact .bare _ (by decide) (.inl (no _ (by decide)))
    · exact .bare _ (by decide) (.inl (no _ (by decide)))
    · exact .bare _ (by decide) (.inr ⟨c!"10", by decide, no _ (by decide)⟩)
  · intro i s _ h
    have : ¬ SystemPos c!"addi" i := by
      unfold SystemPos
      rintro (⟨h, _⟩ | ⟨h, _⟩ | h | h) <;> revert h <;> decide +kernel
    exact absurd h this
  · intro h; exact absurd h (by decide +kernel)
  · intro h; exact absurd h (by decide +kernel)

/-- Non-vacuity of `C28_duplicate_partial` and `C28_bounds_exact`. -/
example : ((@assemble asciiUnicode (idRt true) Mipsasm.new c!"nop\nfoo:\nnop\nfoo:").errors.map
      fun es => es.map fun e => e.display.isSome) = some [true] ∧
    ((@assemble asciiUnicode (idRt true) Mipsasm.new c!"nop\nb 0x400").errors.map
      fun es => es.map fun e => (e.line.num, e.display.isSome)) = some [(2, true)] := by decide +kernel

/-- C28 as stated is false: these texts are rejected with an error that cannot be formatted: a negative hexadecimal constant out
of range, a general-purpose register for a floating-point one, a coprocessor register with a capital letter, a label
defined twice after a blank line, a branch outside the program that is not on the last line. -/
theorem C28_wrong :
    (@assemble asciiUnicode (idRt true) Mipsasm.new c!"addi $a0, $a0, -0x9000").errors.map (·.map (·.display)) = some [none] ∧
    (@assemble asciiUnicode (idRt true) Mipsasm.new c!"add.s $a0, $f1, $f2").errors.map (·.map (·.display)) = some [none] ∧
    (@assemble asciiUnicode (idRt true) Mipsasm.new c!"mtc0 $a0, Foo").errors.map (·.map (·.display)) = some [none] ∧
    (@assemble asciiUnicode (idRt true) Mipsasm.new c!"\nfoo:\nnop\nfoo:").errors.map (·.map (·.display)) = some [none] ∧
    (@assemble asciiUnicode (idRt true) Mipsasm.new c!"b 0x400\nnop").errors.map (·.map (·.display)) = some [none] := by
  decide +kernel

end Mips
