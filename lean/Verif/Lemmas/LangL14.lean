/- The errors of the lines (for C58). -/
import Verif.Props.LanguageP
import Verif.Props.CodeP
import Verif.Spec.Errors

namespace Mips
open Source Syntax Branch Operands
open Mips.Isa hiding conds Code
open Mips.Names hiding none

section
variable [Unicode]

/-! ### what is quoted is unique -/

theorem gprNumber_unique {s : Str} {n n' : Nat} (h : Lang.GprNumber s n) (h' : Lang.GprNumber s n') : n = n' := by
  obtain ⟨h1, ⟨a, b⟩ | ⟨a, b⟩⟩ := h <;> obtain ⟨h1', ⟨a', b'⟩ | ⟨a', b'⟩⟩ := h'
  · have := (u32_iff.2 ⟨h1, b⟩).symm.trans (u32_iff.2 ⟨h1', b'⟩); simpa using this
  · exact absurd a a'
  · exact absurd a' a
  · have := (u32_iff.2 ⟨h1, b⟩).symm.trans (u32_iff.2 ⟨h1', b'⟩); simpa using this

theorem gprQuote_unique {s q q' : Str} (h : Lang.GprQuote s q) (h' : Lang.GprQuote s q') : q = q' := by
  cases h with
  | number n h =>
    cases h' with
    | number n' h' => rw [gprNumber_unique h h']
    | text h' => exact absurd h (h' n)
  | text h =>
    cases h' with
    | number n' h' => exact absurd h' (h n')
    | text _ => rfl

omit [Unicode] in
theorem sysNumber_unique {s : Str} {n n' : Nat} (h : Lang.SysNumber s n) (h' : Lang.SysNumber s n') : n = n' := by
  obtain ⟨h1, b | ⟨a, b⟩⟩ := h <;> obtain ⟨h1', b' | ⟨a', b'⟩⟩ := h'
  · have := (u32_iff.2 ⟨h1, b⟩).symm.trans (u32_iff.2 ⟨h1', b'⟩); simpa using this
  · exact absurd b (a' n h1)
  · exact absurd b' (a n' h1')
  · have := (u32hex_iff.2 ⟨h1, b⟩).symm.trans (u32hex_iff.2 ⟨h1', b'⟩); simpa using this

theorem sysQuote_unique {s q q' : Str} (h : Lang.SysQuote s q) (h' : Lang.SysQuote s q') : q = q' := by
  cases h with
  | number n h =>
    cases h' with
    | number n' h' => rw [sysNumber_unique h h']
    | text h' => exact absurd h (h' n)
  | text h =>
    cases h' with
    | number n' h' => exact absurd h' (h n')
    | text _ => rfl

omit [Unicode] in
theorem constError_unique {l : Line} {s : Str} {e e' : ParserError} (hn : '\n' ∉ s) (h : Lang.ConstError l s e) (h' : Lang.ConstError l s e') : e = e' := by
  cases h with
  | number h =>
    cases h' with
    | number _ => rfl
    | address m h' => exact absurd h' (h m)
  | address m h =>
    cases h' with
    | number h' => exact absurd h (h' m)
    | address m' h' => rw [group_unique (nl_trim hn) h h']

theorem complains_unique {p : Lang.Place} {l : Line} {s : Lang.Step} {e e' : ParserError} (hn : '\n' ∉ stepText s)
    (h : Lang.Complains p l s e) (h' : Lang.Complains p l s e') : e = e' := by
  cases s with
  | gpr b t => obtain ⟨q, h, rfl⟩ := h; obtain ⟨q', h', rfl⟩ := h'; rw [gprQuote_unique h h']
  | fpr t => obtain ⟨q, h, rfl⟩ := h; obtain ⟨q', h', rfl⟩ := h'; rw [sysQuote_unique h h']
  | c0 t => obtain ⟨q, h, rfl⟩ := h; obtain ⟨q', h', rfl⟩ := h'; rw [sysQuote_unique h h']
  | base b t =>
    obtain ⟨m, q, hm, h, rfl⟩ := h; obtain ⟨m', q', hm', h', rfl⟩ := h'
    obtain rfl := baseGroup_unique hn hm hm'
    rw [gprQuote_unique h h']
  | offset b t =>
    obtain ⟨o, ho, h⟩ := h; obtain ⟨o', ho', h'⟩ := h'
    obtain rfl := offset_unique hn ho ho'
    refine constError_unique ?_ h h'
    obtain ⟨_, v, rfl, _⟩ := ho
    intro hc
    apply hn
    show _ ∈ o ++ _
    have : '\n' ∈ o := by
      split at hc
      · exact (List.mem_filter.1 hc).1
      · exact hc
    simp [this]
  | const r t => exact constError_unique hn h h'
  | number r t => exact constError_unique hn h h'
  | code t => exact constError_unique hn h h'
  | cop t => exact constError_unique hn h h'
  | word32 t =>
    rcases h with ⟨⟨v, h⟩, rfl⟩ | ⟨a, h⟩ <;> rcases h' with ⟨⟨v', h'⟩, rfl⟩ | ⟨a', h'⟩
    · rfl
    · exact absurd h (a' v)
    · exact absurd h' (a v')
    · exact constError_unique hn h h'
  | target t => rw [show e = _ from h, show e' = _ from h']
  | cond w =>
    obtain ⟨c, h, rfl⟩ := h; obtain ⟨c', h', rfl⟩ := h'
    rw [h] at h'; cases h'; rfl
  | shamt t => exact absurd h id
  | name t => exact absurd h id
  | fname t => exact absurd h id
  | format t => exact absurd h id
  | short => exact absurd h id

theorem fails_unique {p : Lang.Place} {l : Line} {e e' : ParserError} : ∀ {st : List Lang.Step}, (∀ s ∈ st, '\n' ∉ stepText s) →
    Lang.Fails p l st e → Lang.Fails p l st e' → e = e'
  | [], _, h, _ => absurd h id
  | s :: st, hn, h, h' => by
    rcases h with ⟨a, _, h⟩ | ⟨a, h⟩ <;> rcases h' with ⟨a', _, h'⟩ | ⟨a', h'⟩
    · exact complains_unique (hn s (by simp)) h h'
    · exact absurd a' a
    · exact absurd a a'
    · exact fails_unique (fun s hs => hn s (by simp [hs])) h h'

theorem fails_not {p : Lang.Place} {l : Line} {e : ParserError} : ∀ {st : List Lang.Step}, Lang.Fails p l st e → ¬ ∀ s ∈ st, Lang.Reads p s
  | [], h, _ => h
  | s :: st, h, hr => by
    rcases h with ⟨a, _, _⟩ | ⟨_, h⟩
    · exact a (hr s (by simp))
    · exact fails_not h fun s hs => hr s (by simp [hs])

theorem plan_noNl {raw : Str} {st : List Lang.Step} (hn : '\n' ∉ raw) (h : Lang.plan (body raw) = some st) : ∀ s ∈ st, '\n' ∉ stepText s := by
  intro s hs hc
  apply hn
  apply (body_infix raw).subset
  rcases plan_text h hs with h | h | h
  · rw [h] at hc; cases hc
  · rw [h] at hc; exact operandText_sub _ hc
  · exact operandText_sub _ (split_mem _ h _ hc)

theorem lineError_unique {f : Lang.File} {k : Nat} {raw : Str} {e e' : ParserError} (hn : '\n' ∉ raw)
    (h : Lang.LineError f k raw e) (h' : Lang.LineError f k raw e') : e = e' := by
  unfold Lang.LineError at h h'
  cases hk : kind raw with
  | blank => rw [hk] at h; exact absurd h id
  | label l =>
    rw [hk] at h h'
    rcases h with ⟨c, t, rfl, hc, rfl⟩ | ⟨hl, d, n, r, _, hd, hn, hr, rfl⟩ <;> rcases h' with ⟨c', t', e', hc', rfl⟩ | ⟨hl', d', n', r', _, hd', hn', hr', rfl⟩
    · rfl
    · obtain ⟨_, c', t', e, hc'⟩ := hd'.2.1
      cases e; rw [hc] at hc'; cases hc'
    · obtain ⟨_, _, _, e, hc⟩ := hd.2.1
      rw [e'] at e; cases e; rw [hc'] at hc; cases hc
    · obtain rfl := firstDef_unique hd hd'
      obtain rfl := counted_unique hn hn'
      rw [hr] at hr'; cases hr'; rfl
  | code =>
    rw [hk] at h h'
    rcases h with ⟨h1, rfl⟩ | ⟨st, h1, h⟩ <;> rcases h' with ⟨h1', rfl⟩ | ⟨st', h1', h'⟩
    · rfl
    · rw [h1] at h1'; cases h1'
    · rw [h1] at h1'; cases h1'
    · rw [h1] at h1'; cases h1'
      exact fails_unique (plan_noNl hn h1) h h'

theorem lineError_not {f : Lang.File} {k : Nat} {raw : Str} {e : ParserError} (h : Lang.LineError f k raw e) : ¬ Lang.LineTaken (f.place k) raw := by
  unfold Lang.LineError at h
  unfold Lang.LineTaken
  cases hk : kind raw with
  | blank => rw [hk] at h; exact absurd h id
  | label l =>
    rw [hk] at h
    rintro ⟨⟨c, t, rfl, hc⟩, h2⟩
    rcases h with ⟨c', t', e, hc', rfl⟩ | ⟨hl, d, n, r, hlt, hd, _⟩
    · cases e; rw [hc] at hc'; cases hc'
    · exact h2 hl d hlt hd.1
  | code =>
    rw [hk] at h
    rintro ⟨st, h1, h2⟩
    rcases h with ⟨h1', _⟩ | ⟨st', h1', h⟩
    · rw [h1] at h1'; cases h1'
    · rw [h1] at h1'; cases h1'
      exact fails_not h h2

/-! ### the errors of the lines -/

variable {rt : Rt} {m : Mipsasm} {text : Str} {tr : List Outcome}

theorem line_error (hT : IsTrace (envOf rt m text) (lines text) tr) {k : Nat} {raw : Str} {ws : List ParserWarning} {e : ParserError}
    (hk : (lines text)[k]? = some raw) (ho : tr[k]? = some (.rejected ws e)) : Lang.LineError (fileOf rt m text) k raw e := by
  have hlt : k < (lines text).length := (List.getElem?_eq_some_iff.1 hk).1
  have hl : (tr.take k).length = k := by rw [List.length_take, hT.1]; omega
  have hS := sees_at (isTrace_take hT k) (Nat.le_of_lt hlt)
  have hres := hT.2 k raw _ hk ho
  have hline : (ctxAt (envOf rt m text) (tr.take k)).line = ⟨k + 1, raw⟩ := by
    unfold Ctx.line ctxAt
    simp only [hl]
    have : (envOf rt m text).input[k]? = some raw := hk
    rw [this]; rfl
  unfold lineRes at hres
  unfold Lang.LineError
  cases hkind : kind raw with
  | blank => rw [hkind] at hres; cases hres
  | code =>
    rw [hkind] at hres
    have hb := inst_plan hS (kind_code_ne hkind) (fun hc => lines_noNl text _ (List.mem_of_getElem? hk) ((body_infix raw).subset hc))
    have he : (parseInst (ctxAt (envOf rt m text) (tr.take k)) (body raw)).res = .err e := by
      simp only [instRes] at hres
      split at hres <;> cases hres
      assumption
    unfold ArmIs at hb
    rw [hline] at hb
    simp only
    cases hp : Lang.plan (body raw) with
    | none =>
      rw [hp] at hb
      have hb : (parseInst (ctxAt (envOf rt m text) (tr.take k)) (body raw)).res = .err _ := hb
      rw [he] at hb; cases hb
      exact .inl ⟨rfl, rfl⟩
    | some st =>
      rw [hp] at hb
      exact .inr ⟨st, rfl, hb.2.2 e he⟩
  | label l =>
    rw [hkind] at hres
    simp only at hres ⊢
    cases l with
    | nil => cases hres
    | cons c t =>
      simp only [labelRes] at hres
      cases hc : Unicode.isNumeric c with
      | true =>
        rw [hc] at hres
        simp only [if_true, hline] at hres
        cases hres
        exact .inl ⟨c, t, rfl, hc, rfl⟩
      | false =>
        rw [hc] at hres
        simp only [if_neg Bool.false_ne_true] at hres
        cases hf : (outLabels 0 (tr.take k)).lookup (c :: t) with
        | none =>
          rw [hf] at hres
          simp only at hres
          split at hres <;> cases hres
        | some first =>
          rw [hf] at hres
          simp only at hres
          have hkn := (known_iff (isTrace_take hT k) (Nat.le_of_lt hlt) (c :: t)).1 (by
            simp only [hasLabel, List.any_eq_true, beq_iff_eq]
            exact ⟨_, lookup_mem' hf, rfl⟩)
          obtain ⟨hg, d, hd, hd'⟩ := hkn
          obtain ⟨d0, hd0, hfd⟩ := first_def hg hd'
          have hd0k : d0 < k := by omega
          have hfirst : first = (outInsts 0 (tr.take d0)).length := by
            obtain ⟨b', hb⟩ := outLabels_take tr k
            have h1 := lookup_first hT hfd
            rw [hb] at h1
            have : ((outLabels 0 (tr.take k)) ++ b').lookup (c :: t) = some first := by
              rw [List.lookup_append, hf]; rfl
            rw [this] at h1
            exact Option.some.inj h1
          subst hfirst
          split at hres
          · rename_i content hin
            rw [hline] at hres
            cases hres
            refine .inr ⟨hg.1, d0, _, content, hd0k, hfd, counted_of hT d0 (by omega), hin, rfl⟩
          · cases hres

/-- the errors of the first lines -/
theorem errors_inOrder (hT : IsTrace (envOf rt m text) (lines text) tr) {k : Nat} (hk : k ≤ (lines text).length) :
    Lang.InOrder (fun k e => ∃ raw, (lines text)[k]? = some raw ∧ Lang.LineError (fileOf rt m text) k raw e) k (outErrors (tr.take k)) := by
  induction k with
  | zero => exact .nil
  | succ k ih =>
    have hlt : k < tr.length := by rw [hT.1]; omega
    have ho : tr[k]? = some tr[k] := List.getElem?_eq_getElem hlt
    have hraw : (lines text)[k]? = some (lines text)[k] := List.getElem?_eq_getElem (by omega)
    rw [List.take_succ_eq_append_getElem hlt, outErrors_append]
    by_cases hE : outErrors [tr[k]] = []
    · rw [hE, List.append_nil]
      refine .none k _ (ih (by omega)) ?_
      rintro e ⟨raw, h1, h2⟩
      rw [hraw] at h1; cases h1
      exact lineError_not h2 ((taken_iff hT hraw ho).1 hE)
    · cases hc : tr[k] with
      | rejected ws e =>
        rw [hc] at ho
        exact .error k _ e (ih (by omega)) ⟨_, hraw, line_error hT hraw ho⟩
      | _ => rw [hc] at hE; exact absurd rfl hE

omit [Unicode] in
theorem inOrder_unique {P : Nat → ParserError → Prop} (hP : ∀ k e e', P k e → P k e' → e = e') {k : Nat} {es es' : List ParserError}
    (h : Lang.InOrder P k es) (h' : Lang.InOrder P k es') : es = es' := by
  induction h generalizing es' with
  | nil => cases h'; rfl
  | error k es e _ hp ih =>
    cases h' with
    | error _ es2 e2 h2 hp2 => rw [ih h2, hP k _ _ hp hp2]
    | none _ _ h2 hn => exact absurd hp (hn e)
  | none k es _ hn ih =>
    cases h' with
    | error _ es2 e2 h2 hp2 => exact absurd hp2 (hn e2)
    | none _ _ h2 _ => exact ih h2

end
end Mips
