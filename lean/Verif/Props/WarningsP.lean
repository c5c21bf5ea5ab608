/-
**C59** — exactly which warnings are printed, in which order.
-/
import Verif.Lemmas.LangL17
import Verif.Lemmas.CodeL1
import Verif.Props.LanguageP

namespace Mips
open Source Syntax Branch Operands
open Mips.Isa hiding conds Code
open Mips.Names hiding none

section
variable [Unicode] {rt : Rt} {m : Mipsasm} {text : Str} {tr : List Outcome}

/-- The last instruction above a line. -/
theorem last_instr (hT : IsTrace (envOf rt m text) (lines text) tr) {k : Nat} (hk : k ≤ (lines text).length) :
    ((outInsts 0 (tr.take k)).getLast? = none ∧ ∀ d above, ¬ Lang.LastInstr (fileOf rt m text) k d above) ∨
    ∃ d ws i above, tr[d]? = some (.inst ws i) ∧ (outInsts 0 (tr.take k)).getLast? = some (d + 1, i) ∧ Lang.LastInstr (fileOf rt m text) k d above := by
  induction k with
  | zero => exact .inl ⟨by simp [outInsts], fun d above h => absurd h.1 (by omega)⟩
  | succ k ih =>
    have hlt : k < tr.length := by rw [hT.1]; omega
    have hkt : tr[k]? = some tr[k] := List.getElem?_eq_getElem hlt
    have hraw : (lines text)[k]? = some (lines text)[k] := List.getElem?_eq_getElem (by omega)
    have hl : (tr.take k).length = k := by rw [List.length_take]; omega
    rw [List.take_succ_eq_append_getElem hlt, outInsts_append]
    by_cases hi : ∃ ws i, tr[k]? = some (.inst ws i)
    · obtain ⟨ws, i, hi⟩ := hi
      rw [hkt] at hi
      rw [Option.some.inj hi]
      obtain ⟨st, raw, h1, h2, _⟩ := instr_of hT (hkt.trans hi)
      refine .inr ⟨k, ws, i, raw, hkt.trans hi, ?_, by omega, h2, ⟨st, h1⟩, fun j a b => absurd a (by omega)⟩
      simp [outInsts, hl]
    · have hno : ∀ st, ¬ Lang.Instr (fileOf rt m text) k st := fun st h => hi (inst_of hT h)
      have he : outInsts (0 + (tr.take k).length) [tr[k]] = [] := by
        cases hc : tr[k] with
        | inst ws i => rw [hc] at hkt; exact absurd ⟨ws, i, hkt⟩ hi
        | _ => rfl
      rw [he, List.append_nil]
      rcases ih (by omega) with ⟨h1, h2⟩ | ⟨d, ws, i, above, h1, h2, h3, h4, h5, h6⟩
      · refine .inl ⟨h1, ?_⟩
        rintro d above ⟨g1, g2, g3, g4⟩
        by_cases hd : d = k
        · subst hd; exact hno _ g3.choose_spec
        · exact h2 d above ⟨by omega, g2, g3, fun j a b => g4 j a (by omega)⟩
      · refine .inr ⟨d, ws, i, above, h1, h2, by omega, h4, h5, ?_⟩
        intro j a b
        by_cases hj : j = k
        · subst hj; exact hno
        · exact h6 j a (by omega)

theorem lastInstr_unique {f : Lang.File} {k d d' : Nat} {r r' : Str} (h : Lang.LastInstr f k d r) (h' : Lang.LastInstr f k d' r') : d = d' ∧ r = r' := by
  obtain ⟨a1, a2, ⟨st, a3⟩, a4⟩ := h
  obtain ⟨b1, b2, ⟨st', b3⟩, b4⟩ := h'
  have : d = d' := by
    rcases Nat.lt_trichotomy d d' with h | h | h
    · exact absurd b3 (a4 d' h b1 st')
    · exact h
    · exact absurd a3 (b4 d h a1 st)
  subst this
  rw [a2] at b2; cases b2
  exact ⟨rfl, rfl⟩

/-- What the parser remembers of the instruction above. -/
theorem delay_iff (hT : IsTrace (envOf rt m text) (lines text) tr) {k : Nat} (hk : k ≤ (lines text).length) :
    (ctxAt (envOf rt m text) (tr.take k)).lastDelay = true ↔
      ∃ d above, Lang.LastInstr (fileOf rt m text) k d above ∧ mnemonic (body above) ∈ transfers ∧ mnemonic (body above) ∉ forgotten := by
  show (match (outInsts 0 (tr.take k)).getLast? with
    | some (_, i) => i.hasDelaySlot
    | none => false) = true ↔ _
  rcases last_instr hT hk with ⟨h1, h2⟩ | ⟨d, ws, i, above, h1, h2, h3⟩
  · rw [h1]
    simp only [Bool.false_eq_true, false_iff]
    rintro ⟨d, above, h, _⟩
    exact h2 d above h
  · rw [h2]
    simp only
    have hs : i.hasDelaySlot = decide (mnemonic (body above) ∈ transfers ∧ mnemonic (body above) ∉ forgotten) := by
      obtain ⟨raw, g1, g2, g3⟩ := trace_inst hT h1
      have g1' : (lines text)[d]? = some above := h3.2.1
      rw [g1] at g1'; cases g1'
      exact slot_of (kind_code_ne g2) (by rw [g3])
    rw [hs, decide_eq_true_iff]
    constructor
    · exact fun h => ⟨d, above, h3, h⟩
    · rintro ⟨d', above', h, g⟩
      obtain ⟨rfl, rfl⟩ := lastInstr_unique h3 h
      exact g

/-- The warning about the address. -/
theorem unaligned_exact (hT : IsTrace (envOf rt m text) (lines text) tr) {k : Nat} {raw : Str} (hraw : (lines text)[k]? = some raw)
    {ws : List ParserWarning} {i : Instruction} (hk : tr[k]? = some (.inst ws i)) {st : List Lang.Step} (hI : Lang.Instr (fileOf rt m text) k st)
    (hA : ∀ t, (t ∈ places st ∨ t ∈ targets st) → '\n' ∉ t)
    {b : List ParserWarning} (hb : AlignIs (ctxAt (envOf rt m text) (tr.take k)) st b) :
    ((∃ w, Lang.Unaligned (fileOf rt m text) k raw w ∧ b = [w]) ∨ ((∀ w, ¬ Lang.Unaligned (fileOf rt m text) k raw w) ∧ b = [])) ∧
      ∀ w w', Lang.Unaligned (fileOf rt m text) k raw w → Lang.Unaligned (fileOf rt m text) k raw w' → w = w' := by
  have hlt : k < (lines text).length := (List.getElem?_eq_some_iff.1 hraw).1
  have hl : (tr.take k).length = k := by rw [List.length_take, hT.1]; omega
  have hS : Sees ((fileOf rt m text).place k) (ctxAt (envOf rt m text) (tr.take k)) := sees_at (isTrace_take hT k) (Nat.le_of_lt hlt)
  have hline : (ctxAt (envOf rt m text) (tr.take k)).line = ⟨k + 1, raw⟩ := by
    unfold Ctx.line ctxAt
    simp only [hl]
    have : (envOf rt m text).input[k]? = some raw := hraw
    rw [this]; rfl
  generalize ctxAt (envOf rt m text) (tr.take k) = x at *
  have off : ∀ {b : List ParserWarning}, (∀ w, ¬ Lang.Unaligned (fileOf rt m text) k raw w) ∧ b = [] →
      ((∃ w, Lang.Unaligned (fileOf rt m text) k raw w ∧ b = [w]) ∨ ((∀ w, ¬ Lang.Unaligned (fileOf rt m text) k raw w) ∧ b = [])) ∧
      ∀ w w', Lang.Unaligned (fileOf rt m text) k raw w → Lang.Unaligned (fileOf rt m text) k raw w' → w = w' :=
    fun h => ⟨.inr h, fun w w' hw _ => absurd hw (h.1 w)⟩
  rcases hb with ⟨h1, h2, rfl⟩ | ⟨t, im, h1, h2, h3, rfl⟩ | ⟨t, q, h1, h2, h3, rfl⟩
  · refine off ⟨?_, rfl⟩
    rintro w ⟨st', t, hI', ⟨g, _⟩ | ⟨g, _⟩⟩ <;> obtain rfl := instr_unique hI' hI
    · rw [← mem_places, h1] at g; cases g
    · rw [← mem_targets, h2] at g; cases g
  · have ht : Lang.Step.const Lang.addr t ∈ st := by rw [← mem_places, h1]; simp
    have htn := hA t (.inl (by rw [h1]; simp))
    have only : ∀ w, Lang.Unaligned (fileOf rt m text) k raw w → ¬ Lang.RefersTo ((fileOf rt m text).place k) t ∧
        ∃ v, Lang.Value ((fileOf rt m text).place k) Lang.addr t v ∧ v % 4 ≠ 0 ∧ w = .unalignedBranch ⟨k + 1, raw⟩ t := by
      rintro w ⟨st', t', hI', ⟨g, g'⟩ | ⟨g, _⟩⟩ <;> obtain rfl := instr_unique hI' hI
      · rw [← mem_places, h1] at g
        simp only [List.mem_singleton] at g
        subst g; exact g'
      · rw [← mem_targets, h2] at g; cases g
    by_cases hr : Lang.RefersTo ((fileOf rt m text).place k) t
    · refine off ⟨fun w hw => (only w hw).1 hr, ?_⟩
      rcases parse_refers hS hr with h | h <;> rw [h] at h3 <;> cases h3 <;> rfl
    · obtain ⟨v, hv, hh⟩ := parse_value hS htn hr h3
      have hmod : (∃ a, im.asU32 = some a ∧ (a.toNat % 4 ≠ 0 ↔ v % 4 ≠ 0)) := by
        rcases hh with ⟨rfl, c1, c2⟩ | ⟨rfl, c1, c2⟩
        · refine ⟨_, rfl, ?_⟩
          simp only [IntTy.min, IntTy.max] at c1 c2
          rw [BitVec.toNat_ofInt]; omega
        · refine ⟨_, rfl, ?_⟩
          have : ((BitVec.ofInt 16 v).setWidth 32).toNat = v.toNat := by
            rw [BitVec.toNat_setWidth, BitVec.toNat_ofInt]; omega
          rw [this]; omega
      obtain ⟨a, ea, hm⟩ := hmod
      rw [ea, hline]
      unfold alignOf
      simp only
      by_cases hz : v % 4 = 0
      · rw [if_neg (fun h => hm.1 h hz)]
        refine off ⟨?_, rfl⟩
        intro w hw
        obtain ⟨_, v', hv', hz', _⟩ := only w hw
        rw [value_unique hS htn hv hv'] at hz
        exact hz' hz
      · rw [if_pos (hm.2 hz)]
        exact ⟨.inl ⟨_, ⟨st, t, hI, .inl ⟨ht, hr, v, hv, hz, rfl⟩⟩, rfl⟩, fun w w' hw hw' => by
          obtain ⟨_, _, _, _, rfl⟩ := only w hw
          obtain ⟨_, _, _, _, rfl⟩ := only w' hw'
          rfl⟩
  · have ht : Lang.Step.target t ∈ st := by rw [← mem_targets, h2]; simp
    have htn := hA t (.inr (by rw [h2]; simp))
    have only : ∀ w, Lang.Unaligned (fileOf rt m text) k raw w → ∃ a, Lang.Address (fileOf rt m text).syms (trim t) a ∧ a.toNat % 4 ≠ 0 ∧
        w = .unalignedJump ⟨k + 1, raw⟩ (trim t) := by
      rintro w ⟨st', t', hI', ⟨g, _⟩ | ⟨g, g'⟩⟩ <;> obtain rfl := instr_unique hI' hI
      · rw [← mem_places, h1] at g; cases g
      · rw [← mem_targets, h2] at g
        simp only [List.mem_singleton] at g
        subst g; exact g'
    cases q with
    | label l =>
      refine off ⟨?_, rfl⟩
      intro w hw
      obtain ⟨a, h, _⟩ := only w hw
      have := (target_addr hS).2 h
      rw [h3] at this; cases this
    | address a =>
      have hAd := (target_addr hS).1 h3
      rw [hline]
      unfold alignOf
      simp only [Target.asU32]
      by_cases hz : a.toNat % 4 = 0
      · rw [if_neg (fun h => h hz)]
        refine off ⟨?_, rfl⟩
        intro w hw
        obtain ⟨a', h, hz', _⟩ := only w hw
        rw [address_unique hS hAd h] at hz
        exact hz' hz
      · rw [if_pos hz]
        exact ⟨.inl ⟨_, ⟨st, t, hI, .inr ⟨ht, a, hAd, hz, rfl⟩⟩, rfl⟩, fun w w' hw hw' => by
          obtain ⟨_, _, _, rfl⟩ := only w hw
          obtain ⟨_, _, _, rfl⟩ := only w' hw'
          rfl⟩

private theorem plan_texts {s : Str} {st : List Lang.Step} (hn : '\n' ∉ s) (h : Lang.plan s = some st) :
    ∀ t, (t ∈ places st ∨ t ∈ targets st) → '\n' ∉ t := by
  have := plan_chars h (fun o ho c hc => operandText_sub c (split_mem o ho c hc))
  intro t ht
  have hsub : ∀ c ∈ t, c ∈ s := by
    refine fun c hc => this t c ?_ hc
    rcases ht with ht | ht
    · left
      have := const_constant (mem_places.1 ht)
      exact (mem_consts (fun b o ho hc => hn (operandText_sub _ (split_mem o (plan_offset h ho) _ hc)))).2 this
    · exact .inr ht
  exact fun hc => hn (hsub _ hc)

/-- The warnings of a line. -/
theorem line_warnings (hT : IsTrace (envOf rt m text) (lines text) tr) {k : Nat} {raw : Str} (hraw : (lines text)[k]? = some raw)
    {o : Outcome} (hk : tr[k]? = some o) : Lang.LineWarnings (fileOf rt m text) k raw o.warns ∧
      ∀ w w', Lang.Unaligned (fileOf rt m text) k raw w → Lang.Unaligned (fileOf rt m text) k raw w' → w = w' := by
  have hlt : k < (lines text).length := (List.getElem?_eq_some_iff.1 hraw).1
  have hl : (tr.take k).length = k := by rw [List.length_take, hT.1]; omega
  have hres := hT.2 k raw o hraw hk
  have hdel := delay_iff hT (Nat.le_of_lt hlt)
  have hline : (ctxAt (envOf rt m text) (tr.take k)).line = ⟨k + 1, raw⟩ := by
    unfold Ctx.line ctxAt
    simp only [hl]
    have : (envOf rt m text).input[k]? = some raw := hraw
    rw [this]; rfl
  have noUn : (∀ ws i, o ≠ .inst ws i) → ∀ w, ¬ Lang.Unaligned (fileOf rt m text) k raw w := by
    rintro h w ⟨st, t, hI, _⟩
    obtain ⟨ws, i, hi⟩ := inst_of hT hI
    rw [hk] at hi; exact h ws i (Option.some.inj hi)
  have off : ∀ {ws : List ParserWarning}, (∀ w, ¬ Lang.Unaligned (fileOf rt m text) k raw w) → ws = [] → ¬ Lang.InSlot (fileOf rt m text) k raw →
      Lang.LineWarnings (fileOf rt m text) k raw ws ∧ ∀ w w', Lang.Unaligned (fileOf rt m text) k raw w → Lang.Unaligned (fileOf rt m text) k raw w' → w = w' :=
    fun h1 h2 h3 => ⟨⟨[], [], h2, .inr ⟨h3, rfl⟩, .inr ⟨h1, rfl⟩⟩, fun w w' hw _ => absurd hw (h1 w)⟩
  unfold lineRes at hres
  cases hkind : kind raw with
  | blank =>
    rw [hkind] at hres; cases hres
    exact off (noUn (fun _ _ h => (by cases h))) rfl (fun h => (by rw [h.1] at hkind; cases hkind))
  | label l =>
    rw [hkind] at hres
    obtain ⟨h1, h2⟩ := labelRes_warns hres
    refine off (noUn h1) ?_ (fun h => (by rw [h.1] at hkind; cases hkind))
    cases o with
    | inst ws i => exact absurd rfl (h1 ws i)
    | rejected ws e => exact h2 ws e rfl
    | _ => rfl
  | code =>
    rw [hkind] at hres
    have hbn : '\n' ∉ body raw := fun hc => lines_noNl text _ (List.mem_of_getElem? hraw) ((body_infix raw).subset hc)
    obtain ⟨w1, w2⟩ := inst_warns (x := ctxAt (envOf rt m text) (tr.take k)) (kind_code_ne hkind)
    have hdw : ((ctxAt (envOf rt m text) (tr.take k)).lastDelay = true ∧ ∃ above, (lines text)[k - 1]? = some above ∧
          (delayCheck (ctxAt (envOf rt m text) (tr.take k))).warns = [.invalidInstructionInDelaySlot ⟨k, above⟩ ⟨k + 1, raw⟩]) ∨
        ((ctxAt (envOf rt m text) (tr.take k)).lastDelay = false ∧ (delayCheck (ctxAt (envOf rt m text) (tr.take k))).warns = []) := by
      cases hd : (ctxAt (envOf rt m text) (tr.take k)).lastDelay with
      | false => exact .inr ⟨rfl, by unfold delayCheck; rw [hd]; rfl⟩
      | true =>
        obtain ⟨d, above, hab, _⟩ := hdel.1 hd
        have hk1 : (lines text)[k - 1]? = some (lines text)[k - 1] := List.getElem?_eq_getElem (by omega)
        refine .inl ⟨rfl, _, hk1, ?_⟩
        unfold delayCheck
        rw [hd, hline]
        simp only [if_true]
        show [ParserWarning.invalidInstructionInDelaySlot ⟨(tr.take k).length + 1 - 1, ((lines text)[(tr.take k).length + 1 - 2]?).getD []⟩ _] = _
        rw [hl, show k + 1 - 2 = k - 1 by omega, hk1]
        rfl
    generalize hx : ctxAt (envOf rt m text) (tr.take k) = x at *
    have hw : o.warns = (parseInst x (body raw)).warns ∧ ((∃ ws i, o = .inst ws i ∧ (parseInst x (body raw)).res = .ok i) ∨ (∃ e, (∀ ws i, o ≠ .inst ws i) ∧ (parseInst x (body raw)).res = .err e)) := by
      simp only [instRes, hx] at hres
      split at hres <;> cases hres
      · exact ⟨rfl, .inl ⟨_, _, rfl, by assumption⟩⟩
      · exact ⟨rfl, .inr ⟨_, (fun _ _ h => by cases h), by assumption⟩⟩
    obtain ⟨hw, hr⟩ := hw
    rw [hw]
    by_cases hm : mnemonic (body raw) ∈ transfers
    · have w2 := w2 hm
      cases hp : Lang.plan (body raw) with
      | none =>
        rw [hp] at w2
        have w2 : (parseInst x (body raw)).warns = [] := w2
        rw [w2]
        refine off ?_ rfl ?_
        case refine_2 => rintro ⟨_, _, ⟨st, h⟩, _⟩; rw [hp] at h; cases h
        · rintro w ⟨st, t, ⟨raw', g1, _, g2, _⟩, _⟩
          have g1' : (lines text)[k]? = some raw' := g1
          rw [hraw] at g1'; cases g1'
          rw [hp] at g2; cases g2
      | some st =>
        rw [hp] at w2
        have w2 : WW (parseInst x (body raw)) (delayCheck x).warns (AlignIs x st) := w2
        have hslot : (Lang.InSlot (fileOf rt m text) k raw ∧ ∃ above, (fileOf rt m text).ls[k - 1]? = some above ∧
              (delayCheck x).warns = [.invalidInstructionInDelaySlot ⟨k, above⟩ ⟨k + 1, raw⟩]) ∨
            (¬ Lang.InSlot (fileOf rt m text) k raw ∧ (delayCheck x).warns = []) := by
          rcases hdw with ⟨h1, h2⟩ | ⟨h1, h2⟩
          · exact .inl ⟨⟨hkind, hm, ⟨st, hp⟩, hdel.1 h1⟩, h2⟩
          · refine .inr ⟨?_, h2⟩
            rintro ⟨_, _, _, h⟩
            rw [hdel.2 h] at h1; cases h1
        rcases hr with ⟨ws, i, rfl, hr⟩ | ⟨e, hne, hr⟩
        · obtain ⟨b, e1, e2⟩ := w2.2 i hr
          obtain ⟨st', raw', hI, hr1, _⟩ := instr_of hT hk
          have hI' := hI
          obtain ⟨raw'', g1, _, g2, _⟩ := hI'
          have g1' : (lines text)[k]? = some raw'' := g1
          rw [hraw] at g1'; cases g1'
          rw [hp] at g2; cases g2
          rw [← hx] at e2
          obtain ⟨u1, u2⟩ := unaligned_exact hT hraw hk hI (plan_texts hbn hp) e2
          exact ⟨⟨_, b, e1, hslot, u1⟩, u2⟩
        · exact ⟨⟨_, [], by rw [w2.1 e hr, List.append_nil], hslot, .inr ⟨noUn hne, rfl⟩⟩, fun w w' hw _ => absurd hw (noUn hne w)⟩
    · rw [w1 hm]
      refine off ?_ rfl (fun h => hm h.2.1)
      rcases hr with ⟨ws, i, rfl, hr⟩ | ⟨e, hne, hr⟩
      · obtain ⟨st, raw', hI, hr1, hr2, hP, hC, _⟩ := instr_of hT hk
        rw [hraw] at hr1; cases hr1
        have hop := parseArm_op x (classify (mnemonic (body raw))) (firstWord (body raw)) (operandText (body raw)) i (by rw [← parseInst_eq x (kind_code_ne hkind)]; exact hr)
        have hnb : isBrCls (classify (mnemonic (body raw))) = false := by
          cases hb : isBrCls (classify (mnemonic (body raw))) with
          | false => rfl
          | true => exact absurd ((slot_iff _).1 (by unfold slotCls; rw [hb]; rfl)) hm
        have hpt : places st = [] ∧ targets st = [] := by
          cases i with
          | imm o rs r im b =>
            obtain ⟨_, _, _, h, ⟨_, h', _⟩ | ⟨_, _, _, h', _⟩ | ⟨_, _, _, h', _⟩⟩ := hP
            · exact ⟨h', h⟩
            · exact ⟨h', h⟩
            · rw [hnb] at h'; cases h'
          | reg o rs r rd sa b => exact ⟨hP.2.2.1, hP.2.1⟩
          | bytes w => exact ⟨hP.2.2.1, hP.2.1⟩
          | jump o t b =>
            have hmn := fromStrJ_mn hop
            exfalso
            have := slot_J o (JTypeOp.mem_all o)
            rw [decide_eq_true_iff] at this
            exact hm (by rw [show mnemonic (body raw) = _ from hmn.key]; exact this.1)
        rintro w ⟨st', t, hI', ⟨g, _⟩ | ⟨g, _⟩⟩ <;> obtain rfl := instr_unique hI' hI
        · rw [← mem_places, hpt.1] at g; cases g
        · rw [← mem_targets, hpt.2] at g; cases g
      · exact noUn hne

omit [Unicode] in
theorem lineWarnings_unique [Unicode] {f : Lang.File} {k : Nat} {raw : Str} {ws ws' : List ParserWarning}
    (hu : ∀ w w', Lang.Unaligned f k raw w → Lang.Unaligned f k raw w' → w = w') (h : Lang.LineWarnings f k raw ws) (h' : Lang.LineWarnings f k raw ws') : ws = ws' := by
  obtain ⟨a, b, rfl, h1, h2⟩ := h
  obtain ⟨a', b', rfl, h1', h2'⟩ := h'
  have ea : a = a' := by
    rcases h1 with ⟨p, r, q, rfl⟩ | ⟨p, rfl⟩ <;> rcases h1' with ⟨p', r', q', rfl⟩ | ⟨p', rfl⟩
    · rw [q] at q'; cases q'; rfl
    · exact absurd p p'
    · exact absurd p' p
    · rfl
  have eb : b = b' := by
    rcases h2 with ⟨w, p, rfl⟩ | ⟨p, rfl⟩ <;> rcases h2' with ⟨w', p', rfl⟩ | ⟨p', rfl⟩
    · rw [hu w w' p p']
    · exact absurd p (p' w)
    · exact absurd p' (p w')
    · rfl
  rw [ea, eb]

/-- The warnings of the first `k` lines, and that there are no others. -/
theorem warned_of (hT : IsTrace (envOf rt m text) (lines text) tr) {k : Nat} (hk : k ≤ (lines text).length) :
    Lang.Warned (fileOf rt m text) k (outWarns (tr.take k)) ∧ ∀ ws, Lang.Warned (fileOf rt m text) k ws → ws = outWarns (tr.take k) := by
  induction k with
  | zero =>
    refine ⟨by simpa [outWarns] using Lang.Warned.nil, ?_⟩
    intro ws h
    cases h
    simp [outWarns]
  | succ k ih =>
    obtain ⟨i1, i2⟩ := ih (by omega)
    have hlt : k < tr.length := by rw [hT.1]; omega
    have ho : tr[k]? = some tr[k] := List.getElem?_eq_getElem hlt
    have hraw : (lines text)[k]? = some (lines text)[k] := List.getElem?_eq_getElem (by omega)
    have he : outWarns (tr.take (k + 1)) = outWarns (tr.take k) ++ tr[k].warns := by
      rw [List.take_succ_eq_append_getElem hlt, outWarns_flat, outWarns_flat, List.flatMap_append]; simp only [List.flatMap_cons, List.flatMap_nil, List.append_nil]
    obtain ⟨h1, h2⟩ := line_warnings hT hraw ho
    rw [he]
    refine ⟨.line k _ _ _ i1 hraw h1, ?_⟩
    intro ws h
    cases h with
    | line _ raw ws as g1 g2 g3 =>
      have g2' : (lines text)[k]? = some raw := g2
      rw [hraw] at g2'; cases g2'
      rw [i2 _ g1, lineWarnings_unique h2 g3 h1]

theorem warns_of {ws : List ParserWarning} (h : (assemble rt m text).warnings = some ws) :
    Lang.Warns (fileOf rt m text) ws ∧ ∀ ws', Lang.Warns (fileOf rt m text) ws' → ws' = ws := by
  have : ∃ tr, IsTrace (envOf rt m text) (lines text) tr ∧ ws = outWarns tr := by
    cases h' : assemble rt m text with
    | panic => rw [h'] at h; cases h
    | ok a b =>
      rw [h'] at h; cases h
      obtain ⟨tr, h1, _, h2, _⟩ := assemble_ok h'
      exact ⟨tr, h1, h2⟩
    | err a b =>
      rw [h'] at h; cases h
      obtain ⟨tr, _, h1, h2, _⟩ := assemble_err h'
      exact ⟨tr, h1, h2⟩
  obtain ⟨tr, hT, rfl⟩ := this
  have := warned_of hT (Nat.le_refl _)
  rw [← hT.1, List.take_length, hT.1] at this
  exact this

end

/-- **C59**.  For every source text, build mode, base address and symbols, the assembler returns (with code or with errors) the
warnings `ws` exactly if it does not panic and the specification of the language has the warnings `ws`: line by line, the warning that
the line is a jump or branch in a delay slot, and the warning that its address is no multiple of 4. -/
theorem C59_warnings [Unicode] (rt : Rt) (m : Mipsasm) (text : Str) (ws : List ParserWarning) :
    (assemble rt m text).warnings = some ws ↔
      ¬ Lang.Panics ⟨rt.ovf, m.base, m.syms, lines text⟩ ∧ Lang.Warns ⟨rt.ovf, m.base, m.syms, lines text⟩ ws := by
  constructor
  · intro h
    refine ⟨fun hp => ?_, (warns_of h).1⟩
    rw [(C56_verdict rt m text).1.2 hp] at h
    cases h
  · rintro ⟨hp, hr⟩
    cases h : (assemble rt m text).warnings with
    | some ws0 => rw [(warns_of h).2 ws hr]
    | none =>
      refine absurd ((C56_verdict rt m text).1.1 ?_) hp
      cases h' : assemble rt m text with
      | panic => rfl
      | ok _ _ => rw [h'] at h; cases h
      | err _ _ => rw [h'] at h; cases h

/-! ### Warnings -/

/-- Both warnings about one line, a warning about a refused line, the pseudo-branches that are forgotten, a comment between the jump and
its delay slot: the warnings of the assembler are those of the specification. -/
example : letI := asciiUnicode
    Lang.Warns ⟨true, 0#32, [], lines c!"a:\n jr $ra\n j 0x1002\n nop\n beq $a0, $a1, 6\n ; slot\n jal $a0, $a1\n bnez r99, 4\n nop\n bgez $a0, a\n b 4\n nop\n bge $a0, 3, a\n j a\n nop"⟩
      [.invalidInstructionInDelaySlot ⟨2, c!" jr $ra"⟩ ⟨3, c!" j 0x1002"⟩, .unalignedJump ⟨3, c!" j 0x1002"⟩ c!"0x1002",
       .unalignedBranch ⟨5, c!" beq $a0, $a1, 6"⟩ c!" 6", .invalidInstructionInDelaySlot ⟨7, c!" jal $a0, $a1"⟩ ⟨8, c!" bnez r99, 4"⟩,
       .invalidInstructionInDelaySlot ⟨10, c!" bgez $a0, a"⟩ ⟨11, c!" b 4"⟩] := by
  letI := asciiUnicode
  refine (((C59_warnings (idRt true) { base := 0#32, syms := [], debug := false } _ _).1 ?_).2)
  decide +kernel

end Mips
