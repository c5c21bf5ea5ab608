/- The verdict of an instruction line, by its plan (for C56). -/
import Verif.Lemmas.LangL6

namespace Mips
open Source Syntax Branch Operands
open Mips.Isa hiding conds
open Mips.Names hiding none

section
variable [Unicode] {p : Lang.Place} {x : Ctx}

omit [Unicode] in
theorem split_mem {ch : Char} {t : Str} : ∀ s ∈ split ch t, ∀ c ∈ s, c ∈ t := by
  induction t with
  | nil => intro s hs c hc; simp [split] at hs; subst hs; simp at hc
  | cons d t ih =>
    intro s hs c hc
    unfold split at hs
    by_cases hd : d = ch
    · rw [if_pos hd] at hs
      rcases List.mem_cons.1 hs with rfl | hs
      · simp at hc
      · exact List.mem_cons_of_mem _ (ih s hs c hc)
    · rw [if_neg hd] at hs
      cases hsp : split ch t with
      | nil => exact absurd hsp (split_ne_nil ch t)
      | cons a r =>
        rw [hsp] at hs ih
        rcases List.mem_cons.1 hs with rfl | hs
        · rcases List.mem_cons.1 hc with rfl | hc
          · simp
          · exact List.mem_cons_of_mem _ (ih a (by simp) c hc)
        · exact List.mem_cons_of_mem _ (ih s (by simp [hs]) c hc)

theorem conds_lower {s : Str} : Unicode.lower s ∈ conds ↔ s.map asciiLower ∈ conds := by
  have hA : ∀ n ∈ conds, ∀ c ∈ n, isAscii c = true ∧ c ≠ 'k' := by decide +kernel
  constructor
  · intro h
    rcases lower_cases (b := s) rfl (fun c hc => (hA _ h c hc).1) with ⟨_, h1⟩ | ⟨_, _, _, hk⟩
    · unfold SameName at h1; rw [h1]; exact h
    · exact absurd rfl (hA _ h _ hk).2
  · intro h
    rw [Unicode.lower_ascii]
    · exact h
    · intro c hc
      have := (hA _ h _ (List.mem_map_of_mem hc)).1
      rw [isAscii_toNat, asciiLower_toNat] at this
      rw [isAscii_toNat]
      split at this <;> omega

theorem verd_cond {s : Str} {w : Str} (hs : (split '.' w)[1]? = some s) :
    Verd (W.lift (parseFloatCond x s)) (Lang.Reads p (.cond w)) (Lang.Crashes p (.cond w)) (Lang.Complains p x.line (.cond w)) := by
  show Verd _ (∃ c, (split '.' w)[1]? = some c ∧ c.map asciiLower ∈ conds) False _
  have e : (∃ c, (split '.' w)[1]? = some c ∧ c.map asciiLower ∈ conds) ↔ s.map asciiLower ∈ conds := by
    rw [hs]
    constructor
    · rintro ⟨c, h, h2⟩; cases h; exact h2
    · intro h; exact ⟨s, rfl, h⟩
  rw [e, ← conds_lower]
  have e1 : conds = floatConds := rfl
  rw [e1]
  unfold parseFloatCond
  cases h : (floatConds.zipIdx.find? fun e => e.1 == Unicode.lower s) with
  | none =>
    refine verd_err (e := .invalidFloatCond x.line s) rfl ?_ id ⟨s, hs, rfl⟩
    intro hm
    rw [List.find?_eq_none] at h
    obtain ⟨k, hk, e⟩ := List.getElem_of_mem hm
    exact h (Unicode.lower s, k) (by rw [List.mem_iff_getElem]; exact ⟨k, by simpa using hk, by simp [e]⟩) (by simp)
  | some e =>
    refine verd_ok (a := BitVec.ofNat 32 e.2) rfl ?_ id
    have h1 := List.mem_of_find?_eq_some h
    have h2 := List.find?_some h
    rw [beq_iff_eq] at h2
    rw [← h2]
    exact List.fst_mem_of_mem_zipIdx h1

theorem verd_format {w : Str} {c : Char} (hc : w.getLast? = some c) :
    Verd (opR (c!"C." ++ [c])) (Lang.Reads p (.format w)) (Lang.Crashes p (.format w)) (Lang.Complains p x.line (.format w)) := by
  show Verd _ (∃ c, w.getLast? = some c ∧ (asciiLower c = 's' ∨ asciiLower c = 'd')) (∀ c, w.getLast? = some c → asciiLower c ≠ 's' ∧ asciiLower c ≠ 'd') _
  have e1 : (∃ c, w.getLast? = some c ∧ (asciiLower c = 's' ∨ asciiLower c = 'd')) ↔ (RTypeOp.fromStr (c!"C." ++ [c])).isSome = true := by
    rw [format_ops, hc]
    constructor
    · rintro ⟨d, h, h2⟩; cases h; exact h2
    · intro h; exact ⟨c, rfl, h⟩
  have e2 : (∀ c, w.getLast? = some c → asciiLower c ≠ 's' ∧ asciiLower c ≠ 'd') ↔ ¬ (RTypeOp.fromStr (c!"C." ++ [c])).isSome = true := by
    rw [format_ops, hc]
    constructor
    · intro h h2
      obtain ⟨h3, h4⟩ := h c rfl
      exact h2.elim h3 h4
    · rintro h d e; cases e
      exact ⟨fun e => h (.inl e), fun e => h (.inr e)⟩
  rw [e1, e2]
  unfold opR
  cases h : RTypeOp.fromStr (c!"C." ++ [c]) with
  | none => exact verd_panic rfl (by simp) (by simp)
  | some o => exact verd_ok (a := o) rfl (by simp) (by simp)

omit [Unicode] in
theorem starts2 (s : Str) : startsWith c!"c." s = true ↔ s.take 2 = c!"c." := by
  rcases s with _ | ⟨a, _ | ⟨b, t⟩⟩ <;> simp [startsWith] <;> exact ⟨fun h => ⟨h.1.symm, h.2.symm⟩, fun h => ⟨h.1.symm, h.2.symm⟩⟩

/-- the complaint about a floating-point line that is refused straight away -/
def floatRefusal (l : Line) (w : Str) (args : List Str) (arg : Str) : ParserError :=
  let stem := (Lang.stem w).getD []
  if stem ∈ Lang.stems3 then .invalidOperandCount l 3 args.length arg
  else if stem ∈ Lang.stems2 ∨ stem.take 2 = c!"c." then .invalidOperandCount l 2 args.length arg
  else .invalidOpcode l w

omit [Unicode] in
theorem takeBytes_mem : ∀ {s : Str} {n : Nat} {t : Str}, takeBytes s n = some t → ∀ {c : Char}, c ∈ t → c ∈ s
  | [], 0, t, h, c, hc => by simp only [takeBytes] at h; cases h; cases hc
  | _ :: _, 0, t, h, c, hc => by simp only [takeBytes] at h; cases h; cases hc
  | [], n + 1, t, h, c, hc => by simp only [takeBytes] at h; cases h
  | d :: s, n + 1, t, h, c, hc => by
    simp only [takeBytes] at h
    split at h
    · obtain ⟨u, hu, rfl⟩ := Option.map_eq_some_iff.1 h
      rcases List.mem_cons.1 hc with rfl | hc
      · simp
      · exact List.mem_cons_of_mem _ (takeBytes_mem hu hc)
    · cases h

theorem float_plan {w arg : Str} (hc : classify (mnOf w) = .other) :
    ArmIs p x (floatRefusal x.line w (split ',' arg) arg) (parseFloat x w arg (split ',' arg)) (Lang.floatPlan w (split ',' arg)) := by
  generalize split ',' arg = args
  have c0 : args = [] ∨ (∃ a, args = [a]) ∨ (∃ a b, args = [a, b]) ∨ (∃ a b c, args = [a, b, c]) ∨ ∃ a b c d r, args = a :: b :: c :: d :: r := by
    rcases args with _ | ⟨a, _ | ⟨b, _ | ⟨c, _ | ⟨d, r⟩⟩⟩⟩
    · exact .inl rfl
    · exact .inr (.inl ⟨_, rfl⟩)
    · exact .inr (.inr (.inl ⟨_, _, rfl⟩))
    · exact .inr (.inr (.inr (.inl ⟨_, _, _, rfl⟩)))
    · exact .inr (.inr (.inr (.inr ⟨_, _, _, _, _, rfl⟩)))
  unfold parseFloat Lang.floatPlan floatRefusal
  by_cases h2 : byteLen w < 2
  · have hstem : Lang.stem w = none := by unfold Lang.stem; rw [if_pos h2]
    simp only [if_pos h2, hstem]
    exact vs_last (verd_panic rfl id trivial)
  · simp only [if_neg h2]
    have hstem : Lang.stem w = takeBytes (Unicode.lower w) (byteLen w - 2) := by unfold Lang.stem; rw [if_neg h2]
    rw [← hstem]
    cases hst : Lang.stem w with
    | none => exact vs_last (verd_panic rfl id trivial)
    | some stem =>
    simp only [Option.getD_some]
    by_cases hs3 : stem ∈ Lang.stems3
    · rw [if_pos hs3, if_pos hs3, if_pos (show ([c!"add", c!"sub", c!"mul", c!"div"].contains stem = true) by simpa [Lang.stems3] using hs3)]
      have hf := fname_iff hst (List.mem_append_left _ hs3) hc
      rcases c0 with rfl | ⟨a, rfl⟩ | ⟨a, b, rfl⟩ | ⟨a, b, c, rfl⟩ | ⟨a, b, c, d, r, rfl⟩
      · exact armIs_count
      · exact armIs_count
      · exact armIs_count
      · exact vs_cons verd_fpr fun _ _ => vs_cons verd_fpr fun _ _ => vs_cons verd_fpr fun _ _ =>
          vs_cons (verd_fname hf) fun _ _ => vs_nil rfl
      · rw [if_neg (by simp only [List.length_cons]; omega)]
        exact armIs_count
    · rw [if_neg hs3, if_neg hs3, if_neg (show ¬ ([c!"add", c!"sub", c!"mul", c!"div"].contains stem = true) by simpa [Lang.stems3] using hs3)]
      by_cases hs2 : stem ∈ Lang.stems2
      · rw [if_pos hs2, if_pos (Or.inl hs2), if_pos (by rw [List.contains_iff_mem]; exact hs2)]
        have hf := fname_iff hst (List.mem_append_right _ hs2) hc
        rcases c0 with rfl | ⟨a, rfl⟩ | ⟨a, b, rfl⟩ | ⟨a, b, c, rfl⟩ | ⟨a, b, c, d, r, rfl⟩
        · exact armIs_count
        · exact armIs_count
        · exact vs_cons verd_fpr fun _ _ => vs_cons verd_fpr fun _ _ => vs_cons (verd_fname hf) fun _ _ => vs_nil rfl
        · exact armIs_count
        · rw [if_neg (by simp only [List.length_cons]; omega)]
          exact armIs_count
      · have hs2' : ¬ (Lang.stems2.contains stem = true) := by rw [List.contains_iff_mem]; exact hs2
        rw [if_neg hs2]
        erw [if_neg hs2']
        by_cases hc2 : stem.take 2 = c!"c."
        · rw [if_pos hc2, if_pos (Or.inr hc2), if_pos ((starts2 _).2 hc2)]
          rcases c0 with rfl | ⟨a, rfl⟩ | ⟨a, b, rfl⟩ | ⟨a, b, c, rfl⟩ | ⟨a, b, c, d, r, rfl⟩
          · exact armIs_count
          · exact armIs_count
          · refine vs_cons verd_fpr fun _ _ => vs_cons verd_fpr fun _ _ => ?_
            cases hl : w.getLast? with
            | none => rw [List.getLast?_eq_none_iff] at hl; subst hl; exact absurd (show byteLen [] < 2 by decide) h2
            | some c =>
              refine vs_cons (verd_format hl) fun o _ => ?_
              have hdot : '.' ∈ w := by
                apply Unicode.lower_dot
                have h3 : '.' ∈ stem.take 2 := by rw [hc2]; simp
                have h4 := List.mem_of_mem_take h3
                rw [hstem] at hst
                exact takeBytes_mem hst h4
              obtain ⟨s, hs⟩ := split_two hdot
              rw [hs]
              exact vs_cons (verd_cond hs) fun _ _ => vs_nil rfl
          · exact armIs_count
          · rw [if_neg (by simp only [List.length_cons]; omega)]
            exact armIs_count
        · rw [if_neg hc2, if_neg (fun h => h.elim hs2 hc2), if_neg (by rw [starts2]; exact hc2)]
          rfl

omit [Unicode] in
theorem firstWord_sub {s : Str} : ∀ c ∈ firstWord s, c ∈ s := by
  induction s with
  | nil => simp [firstWord]
  | cons d s ih =>
    unfold firstWord
    intro c hc
    split at hc
    · simp at hc
    · rcases List.mem_cons.1 hc with rfl | hc
      · simp
      · exact List.mem_cons_of_mem _ (ih c hc)
omit [Unicode] in
theorem operandText_sub {s : Str} : ∀ c ∈ operandText s, c ∈ s := by
  induction s with
  | nil => simp [operandText]
  | cons d s ih =>
    unfold operandText
    intro c hc
    split at hc
    · exact List.mem_cons_of_mem _ hc
    · exact List.mem_cons_of_mem _ (ih c hc)

/-- the verdict of an instruction line -/
theorem inst_plan (hx : Sees p x) {s : Str} (h0 : s ≠ []) (hn : '\n' ∉ s) : ArmIs p x (Lang.refusal x.line s) (parseInst x s) (Lang.plan s) := by
  rw [parseInst_eq x h0]
  unfold Lang.plan Lang.refusal
  simp only []
  have hk : mnemonic s = mnOf (firstWord s) := rfl
  have hon : ∀ t ∈ operands s, '\n' ∉ t := fun t ht hc => hn (operandText_sub _ (split_mem t ht _ hc))
  rw [hk]
  by_cases hc : classify (mnOf (firstWord s)) = .other
  · have t := table_other
    have t1 : ¬ (Lang.intSignatures.any fun e => e.1 == mnOf (firstWord s)) = true := by
      intro h
      rw [List.any_eq_true] at h
      obtain ⟨e, he, h⟩ := h
      rw [beq_iff_eq] at h
      exact t.1 e he (by rw [h]; exact hc)
    have t2 : ¬ mnOf (firstWord s) ∈ Names.none := fun h => t.2.1 _ h hc
    have t3 : ¬ mnOf (firstWord s) = c!".word" := fun h => by rw [h] at hc; exact t.2.2 hc
    rw [if_neg t1, if_neg t2, if_neg t3, if_neg t1, hc]
    exact float_plan hc
  · have hrow := row_of hc
    generalize classify (mnOf (firstWord s)) = cls at hrow hc
    by_cases h1 : cls = .bare ∨ cls = .tlb
    · rw [if_pos (show mnOf (firstWord s) ∈ Names.none from hrow.none.2 h1)]
      have hop := hrow.op
      rcases h1 with rfl | rfl
      · exact vs_mkR hop
      · exact vs_mkR hop
    · rw [if_neg (show ¬ mnOf (firstWord s) ∈ Names.none from fun h => h1 (hrow.none.1 h))]
      by_cases h2 : cls = .word
      · rw [if_pos (show mnOf (firstWord s) = c!".word" from hrow.word.2 h2)]
        subst h2
        exact vs_number hx (fun hc => hn (operandText_sub _ hc)) fun _ => ⟨_, rfl⟩
      · rw [if_neg (show ¬ mnOf (firstWord s) = c!".word" from fun h => h2 (hrow.word.1 h))]
        have h3 : sigList (mnOf (firstWord s)) ≠ [] := by
          rw [hrow.sigs]
          cases cls <;> simp only [clsList] <;> first | (simp; done) | (split <;> simp; done) | exact absurd rfl h2 | exact absurd rfl hc | exact absurd (.inl rfl) h1 | exact absurd (.inr rfl) h1
        have h4 : (Lang.intSignatures.any fun e => e.1 == mnOf (firstWord s)) = true := by rw [any_sig]; simpa using h3
        rw [if_pos h4, if_pos h4, expected_row hrow, find_sig, Option.map_map, hrow.sigs]
        exact arm_plan hx hrow hon (fun h => h1 (.inl h)) (fun h => h1 (.inr h)) h2 hc

end
end Mips
