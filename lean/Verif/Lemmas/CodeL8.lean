/- Floating-point arms and whole lines, in terms of the words (for C57). -/
import Verif.Lemmas.CodeL7

namespace Mips
open Source Syntax Branch Operands
open Mips.Isa hiding conds Code
open Mips.Names hiding none
open Mips.Lang (Val Values Yields Const code callName)

theorem in_fp3 : ∀ o ∈ RTypeOp.all, classify (rname o) = .other → (rname o).take ((rname o).length - 2) ∈ Lang.stems3 →
    (rname o, o) ∈ L_fdFsFt_other_fp.map (fun e => (e.1, e.2.1)) := by decide +kernel
theorem in_fp2 : ∀ o ∈ RTypeOp.all, classify (rname o) = .other → (rname o).take ((rname o).length - 2) ∈ Lang.stems2 →
    (rname o, o) ∈ L_fdFs_other_fp.map (fun e => (e.1, e.2.1)) := by decide +kernel
theorem stem_long : ∀ t ∈ Lang.stems3 ++ Lang.stems2, 2 ≤ t.length ∧ t.take 2 ≠ c!"c." := by decide +kernel
theorem c_rows : ∀ e ∈ floatConds.zipIdx, ∀ o ∈ RTypeOp.all, ∀ ch ∈ ['s', 'd'], rname o = c!"c." ++ [ch] →
    ∃ r ∈ L_fsFt_other_fp, r.1 = c!"c." ++ e.1 ++ '.' :: [ch] ∧ r.2.1 = o ∧ (r.2.2.2.setWidth 4).setWidth 32 = BitVec.ofNat 32 e.2 := by decide +kernel
theorem table_noC : ∀ g ∈ clsTable, ∀ n ∈ g.2, n.take 2 ≠ c!"c." := by decide +kernel

theorem trim_c {l : Str} (h : l.take 2 = c!"c.") : (trim l).take 2 = c!"c." := by
  rcases l with _ | ⟨a, _ | ⟨b, t⟩⟩
  · cases h
  · cases h
  · cases h
    have e1 : trimStart ('c' :: '.' :: t) = 'c' :: '.' :: t := trimStart_tight _ (by intro c hc; cases hc; decide)
    unfold trim
    rw [e1]
    obtain ⟨q, hq, hw⟩ := trimEnd_prefix ('c' :: '.' :: t)
    rcases htr : trimEnd ('c' :: '.' :: t) with _ | ⟨a, _ | ⟨b, u⟩⟩
    · rw [htr] at hq
      have := hw 'c' (by simp only [List.nil_append] at hq; rw [← hq]; simp)
      exact absurd this (by decide)
    · rw [htr] at hq
      simp only [List.cons_append, List.nil_append, List.cons.injEq] at hq
      have := hw '.' (by rw [← hq.2]; simp)
      exact absurd this (by decide)
    · rw [htr] at hq
      simp only [List.cons_append, List.cons.injEq] at hq
      rw [← hq.1, ← hq.2.1]; rfl

theorem takeBytes_pre : ∀ {s : Str} {n : Nat} {t : Str}, takeBytes s n = some t → t <+: s
  | [], 0, t, h => by simp only [takeBytes] at h; cases h; exact List.prefix_refl _
  | _ :: _, 0, t, h => by simp only [takeBytes] at h; cases h; exact List.nil_prefix
  | [], n + 1, t, h => by simp only [takeBytes] at h; cases h
  | d :: s, n + 1, t, h => by
    simp only [takeBytes] at h
    split at h
    · obtain ⟨u, hu, rfl⟩ := Option.map_eq_some_iff.1 h
      exact List.cons_prefix_cons.2 ⟨rfl, takeBytes_pre hu⟩
    · cases h

theorem prefix_take {a b : Str} (h : a <+: b) {n : Nat} (hn : n ≤ a.length) : b.take n = a.take n := by
  obtain ⟨t, rfl⟩ := h
  rw [List.take_append_of_le_length hn]

theorem callName_cls [Unicode] {w : Str} (hc : classify (mnOf w) ≠ .other) : callName w = mnOf w := by
  unfold callName
  simp only []
  rw [if_neg]
  · rfl
  intro h
  have h2 := trim_c h
  unfold classify at hc
  cases hf : clsTable.find? fun e => e.2.contains (mnOf w) with
  | none => rw [hf] at hc; exact hc rfl
  | some g =>
    have hm := List.mem_of_find?_eq_some hf
    have hn : mnOf w ∈ g.2 := by have := List.find?_some hf; simpa using this
    exact table_noC g hm _ hn h2

section
variable [Unicode] {f : Lang.File} {k : Nat} {x : Ctx}

theorem float_words {w arg : Str} (hc : classify (mnOf w) = .other) {st : List Lang.Step}
    (hst : Lang.floatPlan w (split ',' arg) = some st) : RPost (parseFloat x w arg (split ',' arg)) (CPost f k x (callName w) st) := by
  revert hst
  generalize split ',' arg = args
  intro hst
  have c0 : args = [] ∨ (∃ a, args = [a]) ∨ (∃ a b, args = [a, b]) ∨ (∃ a b c, args = [a, b, c]) ∨ ∃ a b c d r, args = a :: b :: c :: d :: r := by
    rcases args with _ | ⟨a, _ | ⟨b, _ | ⟨c, _ | ⟨d, r⟩⟩⟩⟩
    · exact .inl rfl
    · exact .inr (.inl ⟨_, rfl⟩)
    · exact .inr (.inr (.inl ⟨_, _, rfl⟩))
    · exact .inr (.inr (.inr (.inl ⟨_, _, _, rfl⟩)))
    · exact .inr (.inr (.inr (.inr ⟨_, _, _, _, _, rfl⟩)))
  unfold parseFloat
  unfold Lang.floatPlan at hst
  by_cases h2 : byteLen w < 2
  · simp only [if_pos h2]
    exact rpost_panic
  · simp only [if_neg h2]
    have hstem : Lang.stem w = takeBytes (Unicode.lower w) (byteLen w - 2) := by unfold Lang.stem; rw [if_neg h2]
    rw [← hstem]
    cases hs0 : Lang.stem w with
    | none => exact rpost_panic
    | some stem =>
    have hpre : stem <+: Unicode.lower w := by rw [hstem] at hs0; exact takeBytes_pre hs0
    rw [hs0] at hst
    simp only [] at hst ⊢
    have nm : ∀ {o : RTypeOp}, RTypeOp.fromStr w = some o → stem ∈ Lang.stems3 ++ Lang.stems2 →
        o ∈ RTypeOp.all ∧ rname o = callName w ∧ classify (rname o) = .other ∧ (rname o).take ((rname o).length - 2) = stem := by
      intro o ho hs
      obtain ⟨m1, m2⟩ := rname_of ho
      have h1 : eqIgnoreCase w o.name = true := by have := List.find?_some ho; exact this
      have hwa := same_ascii h1 (names_ascii.2.1 o m1)
      have hlw : w.map asciiLower = rname o := by
        unfold eqIgnoreCase at h1
        rw [beq_iff_eq] at h1
        exact h1
      refine ⟨m1, ?_, by rw [m2]; exact hc, ?_⟩
      · rw [m2]
        unfold callName
        simp only []
        rw [if_neg]
        · rfl
        intro h
        have hlong := stem_long _ hs
        exact hlong.2 (by rw [← prefix_take hpre hlong.1]; exact h)
      · rw [stem_ascii hwa] at hs0
        split at hs0
        · cases hs0
        · cases hs0
          rw [← hlw, List.length_map]
    by_cases hs3 : stem ∈ Lang.stems3
    · rw [if_pos hs3] at hst
      rw [if_pos (by simpa [Lang.stems3] using hs3)]
      rcases c0 with rfl | ⟨a, rfl⟩ | ⟨a, b, rfl⟩ | ⟨a, b, c, rfl⟩ | ⟨a, b, c, d, r, rfl⟩
      case inr.inr.inr.inl =>
        cases hst
        refine rpost_bind rp_fpr fun _ ⟨fd, hd, e⟩ => ?_
        subst e
        refine rpost_bind rp_fpr fun _ ⟨fs, hs, e⟩ => ?_
        subst e
        refine rpost_bind rp_fpr fun _ ⟨ft, ht, e⟩ => ?_
        subst e
        refine rpost_mkR fun o ho => ⟨rfl, _, va_fpr hd (va_fpr hs (va_fpr ht (va_fname .nil))), ?_⟩
        obtain ⟨n1, n2, n3, n4⟩ := nm ho (List.mem_append_left _ hs3)
        obtain ⟨g, hg⟩ := pair_mem (in_fp3 o n1 n3 (by rw [n4]; exact hs3))
        rw [← n2, num_toFin, num_toFin, num_toFin]
        exact (code_fdFsFt_other_fp _ hg fd fs ft).trans (congrArg some (enc_fdFsFt_other_fp _ hg fd fs ft).symm)
      all_goals first | exact rpost_bad | (simp at hst; done)
    · rw [if_neg hs3] at hst
      rw [if_neg (by simpa [Lang.stems3] using hs3)]
      by_cases hs2 : stem ∈ Lang.stems2
      · rw [if_pos hs2] at hst
        rw [if_pos (by rw [List.contains_iff_mem]; exact hs2)]
        rcases c0 with rfl | ⟨a, rfl⟩ | ⟨a, b, rfl⟩ | ⟨a, b, c, rfl⟩ | ⟨a, b, c, d, r, rfl⟩
        case inr.inr.inl =>
          cases hst
          refine rpost_bind rp_fpr fun _ ⟨fd, hd, e⟩ => ?_
          subst e
          refine rpost_bind rp_fpr fun _ ⟨fs, hs, e⟩ => ?_
          subst e
          refine rpost_mkR fun o ho => ⟨rfl, _, va_fpr hd (va_fpr hs (va_fname .nil)), ?_⟩
          obtain ⟨n1, n2, n3, n4⟩ := nm ho (List.mem_append_right _ hs2)
          obtain ⟨g, hg⟩ := pair_mem (in_fp2 o n1 n3 (by rw [n4]; exact hs2))
          rw [← n2, num_toFin fd, num_toFin fs, num_null]
          exact (code_fdFs_other_fp _ hg fd fs).trans (congrArg some (enc_fdFs_other_fp _ hg fd fs).symm)
        all_goals first | exact rpost_bad | (simp at hst; done)
      · rw [if_neg hs2] at hst
        rw [if_neg (by rw [List.contains_iff_mem]; exact hs2)]
        by_cases hc2 : stem.take 2 = c!"c."
        · rw [if_pos hc2] at hst
          rw [if_pos ((starts2 _).2 hc2)]
          rcases c0 with rfl | ⟨a, rfl⟩ | ⟨a, b, rfl⟩ | ⟨a, b, c, rfl⟩ | ⟨a, b, c, d, r, rfl⟩
          case inr.inr.inl =>
            cases hst
            refine rpost_bind rp_fpr fun _ ⟨fs, hs, e⟩ => ?_
            subst e
            refine rpost_bind rp_fpr fun _ ⟨ft, ht, e⟩ => ?_
            subst e
            cases hl : w.getLast? with
            | none => exact rpost_panic
            | some c =>
              refine rpost_bind rpost_opR fun o ho => ?_
              cases hsp : (split '.' w)[1]? with
              | none => exact rpost_panic
              | some cd =>
                refine rpost_bind (Q := fun v => parseFloatCond x cd = .ok v) (fun _ h => h) fun sa hsa => rpost_pure ?_
                refine ⟨rfl, _, va_fpr hs (va_fpr ht (va_format (va_cond .nil))), ?_⟩
                unfold parseFloatCond at hsa
                cases hfd : (floatConds.zipIdx.find? fun e => e.1 == Unicode.lower cd) with
                | none => rw [hfd] at hsa; cases hsa
                | some e =>
                  rw [hfd] at hsa
                  cases hsa
                  have hem := List.mem_of_find?_eq_some hfd
                  have hee0 : e.1 = Unicode.lower cd := by have := List.find?_some hfd; simpa using this
                  have hee : e.1 = cd.map asciiLower := by
                    have hA : ∀ e ∈ floatConds.zipIdx, ∀ c ∈ e.1, isAscii c = true ∧ c ≠ 'k' := by decide +kernel
                    rcases lower_cases hee0.symm (fun c hc => (hA e hem c hc).1) with ⟨_, h1⟩ | ⟨_, _, _, hk⟩
                    · exact h1.symm
                    · exact absurd rfl (hA e hem _ hk).2
                  have hom := List.mem_of_find?_eq_some ho
                  have hon : eqIgnoreCase (c!"C." ++ [c]) o.name = true := by have := List.find?_some ho; exact this
                  unfold eqIgnoreCase at hon
                  rw [beq_iff_eq] at hon
                  have hch : asciiLower c = 's' ∨ asciiLower c = 'd' := (format_ops c).1 (by rw [ho]; rfl)
                  obtain ⟨r, hr, e1, e2, e3⟩ := c_rows e hem o hom (asciiLower c) (by simpa using hch) (by unfold rname; rw [← hon]; simp; decide)
                  have hnm : callName w = r.1 := by
                    unfold callName
                    simp only []
                    rw [if_pos]
                    · rw [e1, hee, split_map, List.getElem?_map, hsp, List.getLast?_map, hl]; rfl
                    · have hlen := congrArg List.length hc2
                      rw [List.length_take] at hlen
                      simp only [List.length_cons, List.length_nil] at hlen
                      rw [prefix_take hpre (by omega)]
                      exact hc2
                  rw [hnm, num_toFin fs, num_toFin ft, num_null, ← e3, ← e2]
                  exact (code_fsFt_other_fp r hr fs ft).trans (congrArg some (enc_fsFt_other_fp r hr fs ft).symm)
          all_goals first | exact rpost_bad | (simp at hst; done)
        · rw [if_neg hc2] at hst
          cases hst

/-- The words of an instruction line. -/
theorem inst_words {s : Str} (hx : Sees (f.place k) x) (h0 : s ≠ []) (hn : '\n' ∉ s) {st : List Lang.Step} (hst : Lang.plan s = some st) :
    RPost (parseInst x s) (CPost f k x (callName (firstWord s)) st) := by
  rw [parseInst_eq x h0]
  have hk : trim (Unicode.lower (firstWord s)) = mnOf (firstWord s) := rfl
  have hm : mnemonic s = mnOf (firstWord s) := hk
  rw [hm]
  unfold Lang.plan at hst
  simp only [hm] at hst
  have ho : operands s = split ',' (operandText s) := rfl
  have hsub : ∀ t ∈ split ',' (operandText s), ∀ c ∈ t, c ∈ s := fun t ht c hc => operandText_sub c (split_mem t ht c hc)
  have hN : ∀ t ∈ split ',' (operandText s), '\n' ∉ t := fun t ht hc => hn (hsub t ht _ hc)
  by_cases hc : classify (mnOf (firstWord s)) = .other
  · have t := table_other
    rw [if_neg (fun h => t.2.1 _ h hc), if_neg (fun h => by rw [h] at hc; exact t.2.2 hc), if_neg] at hst
    · rw [hc]; exact float_words hc hst
    · intro h
      rw [List.any_eq_true] at h
      obtain ⟨e, he, h⟩ := h
      rw [beq_iff_eq] at h
      exact t.1 e he (by rw [h]; exact hc)
  · rw [callName_cls hc]
    have hrow := row_of hc
    revert hrow hc
    generalize hcl : classify (mnOf (firstWord s)) = cls
    intro hc hrow
    by_cases h1 : cls = .bare ∨ cls = .tlb
    · rw [if_pos (hrow.none.2 h1)] at hst
      cases hst
      rcases h1 with rfl | rfl
      · exact lfR hcl (va_name .nil) fun o ho hc => cl_bare ho hc rfl
      · exact lfR hcl (va_name .nil) fun o ho hc => cl_tlb ho hc rfl
    · rw [if_neg (fun h => h1 (hrow.none.1 h))] at hst
      by_cases h2 : cls = .word
      · subst h2
        refine rpost_any fun i => ?_
        split
        · exact rpost_panic
        · exact rpost_pure trivial
      · rw [if_neg (fun h => h2 (hrow.word.1 h))] at hst
        have h3 : sigList (mnOf (firstWord s)) ≠ [] := by
          rw [hrow.sigs]
          cases cls <;> simp only [clsList] <;> first | (simp; done) | (split <;> simp; done) | exact absurd rfl h2 | exact absurd rfl hc | exact absurd (.inl rfl) h1 | exact absurd (.inr rfl) h1
        rw [if_pos (by rw [any_sig]; simpa using h3), find_sig, Option.map_map, hrow.sigs] at hst
        exact arm_words hx hcl hrow hk hN (fun h => h1 (.inl h)) (fun h => h1 (.inr h)) h2 hc hst

end
end Mips
