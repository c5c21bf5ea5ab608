/- The verdict of encoding (for C56). -/
import Verif.Lemmas.LangL12

namespace Mips
open Source Syntax Branch Operands
open Mips.Isa hiding conds
open Mips.Names hiding none

theorem encode_cmp {ovf : Bool} {op : ITypeOp} {rs rt : Register} {w : BitVec 16} {b : List Word} (h : op ∈ cmpBranches) :
    assembleInst ovf (.imm op rs rt (.short w) b) = none ↔ ovf = true ∧ w = 0#16 := by
  constructor
  · intro hn
    rcases C10_encoder_total ovf _ (by rfl) hn with ⟨w, e⟩ | ⟨ho, op', rs', rt', im, b', e, _, hz⟩
    · cases e
    · cases e
      refine ⟨ho, ?_⟩
      simp only [Immediate.asU32, Option.some.injEq] at hz
      have := congrArg BitVec.toNat hz
      apply BitVec.eq_of_toNat_eq
      simp only [BitVec.toNat_setWidth, BitVec.toNat_ofNat] at this ⊢
      omega
  · rintro ⟨rfl, rfl⟩
    have key : ∀ op ∈ cmpBranches, ∀ rs rt : Word, ∀ l : BitVec 64, encI true op rs rt 0#32 l = none := by
      intro op h rs rt l
      simp only [cmpBranches, List.mem_cons, List.not_mem_nil, or_false] at h
      rcases h with rfl | rfl | rfl | rfl | rfl | rfl | rfl | rfl | rfl | rfl | rfl | rfl | rfl | rfl | rfl | rfl <;> rfl
    unfold assembleInst encode
    simp only [Immediate.asU32, Immediate.asU64, opt_bind, Option.bind_some]
    have e : BitVec.setWidth 32 (0#16) = 0#32 := rfl
    rw [e, key op h]
    rfl

theorem cmp_sigs : ∀ e ∈ Lang.intSignatures, e.1 ∈ cmpBranchNames → e.2 = [.gpr, .gpr, .addr] := by decide +kernel
theorem cmp_plan : ∀ mn ∈ cmpBranchNames, mn ∉ Names.none ∧ mn ≠ c!".word" ∧ Lang.intSignatures.any (fun e => e.1 == mn) = true := by decide +kernel

theorem classify_word (s : Str) : classify s = .word ↔ s = c!".word" := by
  constructor
  · intro h
    unfold classify at h
    split at h
    · rename_i e he
      have h1 := List.find?_some he
      have h2 := (table_names e (List.mem_of_find?_eq_some he) s (by simpa using h1)).2.1
      rw [h] at h2
      simpa using h2
    · cases h
  · rintro rfl; decide +kernel

section
variable [Unicode] {rt : Rt} {m : Mipsasm} {text : Str} {tr : List Outcome}

theorem plan_cmp {s : Str} {st : List Lang.Step} (h : Lang.plan s = some st) (hc : mnOf (firstWord s) ∈ cmpBranchNames) :
    ∃ t, Lang.Step.const Lang.addr t ∈ st := by
  obtain ⟨h1, h2, h3⟩ := cmp_plan _ hc
  unfold Lang.plan at h
  simp only [show mnemonic s = mnOf (firstWord s) from rfl] at h
  rw [if_neg h1, if_neg h2, if_pos h3] at h
  simp only [Option.map_eq_some_iff] at h
  obtain ⟨e, he, rfl⟩ := h
  have h4 := List.find?_some he
  have h5 := List.mem_of_find?_eq_some he
  simp only [Bool.and_eq_true, beq_iff_eq] at h4
  have h6 := cmp_sigs e h5 (by rw [h4.1]; exact hc)
  rw [h6] at h4 ⊢
  obtain ⟨a, b, c, hop⟩ : ∃ a b c, operands s = [a, b, c] := by
    have := h4.2.symm
    match h : operands s, this with
    | [a, b, c], _ => exact ⟨a, b, c, rfl⟩
  rw [hop]
  exact ⟨c, by simp [Lang.steps]⟩

theorem dist_unique {f : Lang.File} {k : Nat} {t : Str} {x : Ctx} (hx : Sees (f.place k) x) (hn : '\n' ∉ t) {o o' : Int}
    (h : Lang.Distance f k t o) (h' : Lang.Distance f k t o') : o = o' := by
  have glo : ∀ {d}, Lang.FirstDef f.ls d (trim t) → isLocal (trim t) = false := fun h => h.2.1.1
  have ref : ∀ {d}, d < k → Lang.FirstDef f.ls d (trim t) → Lang.RefersTo (f.place k) t := fun hd h => .inr ⟨h.2.1, _, hd, h.1⟩
  cases h with
  | «local» d h1 h2 =>
    cases h' with
    | «local» d' h1' h2' => rw [chosen_unique h2 h2']
    | label d' h1' h2' => rw [glo h2'] at h1; cases h1
    | number v h1' => exact absurd (local_refers h1) h1'.1
    | half g v h1' => exact absurd (local_refers h1) h1'
  | label d h1 h2 =>
    cases h' with
    | «local» d' h1' h2' => rw [glo h2] at h1'; cases h1'
    | label d' h1' h2' => rw [firstDef_unique h2 h2']
    | number v h1' => exact absurd (ref h1 h2) h1'.1
    | half g v h1' => exact absurd (ref h1 h2) h1'
  | number v h1 =>
    cases h' with
    | «local» d' h1' h2' => exact absurd (local_refers h1') h1.1
    | label d' h1' h2' => exact absurd (ref h1' h2') h1.1
    | number v' h1' => rw [number_unique h1 h1']
    | half g v' h1' h2' => exact absurd h2' (h1.2.1 g)
  | half g v h1 h2 h3 =>
    cases h' with
    | «local» d' h1' h2' => exact absurd (local_refers h1') h1
    | label d' h1' h2' => exact absurd (ref h1' h2') h1
    | number v' h1' => exact absurd h2 (h1'.2.1 g)
    | half g' v' h1' h2' h3' =>
      have e : Lang.addr = rangeOf .u32 := rfl
      rw [e] at h3 h3'
      obtain ⟨i, hi, hh⟩ := value_parse hx hn h1 h3
      obtain ⟨i', hi', hh'⟩ := value_parse hx hn h1 h3'
      rw [hi] at hi'; cases hi'
      exact has_unique hh hh'

/-- the distance that is encoded -/
theorem adjust_dist (hT : IsTrace (envOf rt m text) (lines text) tr) (he : outErrors tr = []) {k : Nat} {ws : List ParserWarning} {i : Instruction}
    (hk : tr[k]? = some (.inst ws i)) {raw : Str} (hraw : (lines text)[k]? = some raw) (hkind : kind raw = .code)
    {st : List Lang.Step} (hS : Shape (fileOf rt m text) (outLabels 0 (tr.take k)) k st i) {n : Nat}
    (hn : (outInsts 0 (tr.take k)).length = n) {a : Instruction} (hadj : adjust1 (envOf rt m text) (canonF tr) n (k + 1, i) = some (a, []))
    {t : Str} (ht : Lang.Step.const Lang.addr t ∈ st) {o : ITypeOp} {rs r : Register} {im : Immediate} {b : List Word} (hi : i = .imm o rs r im b) :
    ∃ v b', Lang.Distance (fileOf rt m text) k t v ∧ a = .imm o rs r (.short (BitVec.ofInt 16 v)) b' := by
  have hnc : n = codeCount ((lines text).take k) := by rw [← hn]; exact (trace_counts hT he k).2
  cases hS with
  | still _ h1 h2 h3 h4 h5 =>
    rw [h1] at hadj
    cases hadj
    obtain ⟨v, hv, rfl⟩ := h5 o rs r im b hi t ht
    exact ⟨v, b, hv, hi⟩
  | loc o' rs' r' t' h1 h2 h3 =>
    cases hi
    obtain rfl := (h2 t).1 (const_constant ht)
    subst hnc
    rcases local_exact hT he hraw hkind h1 o rs r [] with ⟨d, c1, c2, e⟩ | ⟨c1, e⟩ | ⟨c1, c2, c3, e⟩
    · rw [e] at hadj; cases hadj
      exact ⟨_, _, .local d h1 c1, rfl⟩
    · rw [e] at hadj; cases hadj
    · rw [e] at hadj; cases hadj
  | lab o' rs' r' t' h1 hl hr h2 h3 =>
    cases hi
    obtain rfl := (h2 t).1 (const_constant ht)
    unfold adjust1 at hadj
    simp only [opt_bind, Option.bind_eq_some_iff, Option.some.injEq, Prod.mk.injEq] at hadj
    obtain ⟨ad, hlk, rfl, _⟩ := hadj
    obtain ⟨d, hd, rfl⟩ := (lookup_iff hT).1 hlk
    obtain ⟨hg, d0, hd0, hdef⟩ : Lang.Global (trim t) ∧ ∃ d0 < k, Defines (lines text) d0 (trim t) := by
      rcases hr with hr | hr
      · rw [h1] at hr; cases hr
      · exact hr
    obtain ⟨d1, hle, hd1⟩ := first_def hg hdef
    obtain rfl := firstDef_unique hd hd1
    refine ⟨_, [], .label d (by omega) hd, ?_⟩
    unfold relOff
    rw [(trace_counts hT he d).2, hnc]
    rfl
  | num o' rs' r' t' v hv hb h2 h2' h3 =>
    cases hi
    obtain rfl := (h2' t).1 ht
    unfold adjust1 at hadj
    simp only [hb, Bool.not_true, Bool.false_eq_true, if_false] at hadj
    simp only [opt_bind, Option.bind_eq_some_iff, Option.some.injEq, Prod.mk.injEq] at hadj
    obtain ⟨_, _, _, _, _, _, rfl, _⟩ := hadj
    refine ⟨_, [], .number v hv, ?_⟩
    have hvn : (BitVec.ofNat 32 v).toNat = v := by
      have := hv.2.2.2
      rw [BitVec.toNat_ofNat]; omega
    rw [hvn, hnc]
    rfl
  | jmp o' t' hl h2 h3 => cases hi

/-- what cannot be encoded -/
def ZeroAt [Unicode] (f : Lang.File) (k : Nat) (raw : Str) : Prop :=
  mnemonic (body raw) = c!".word" ∨
     (f.ovf = true ∧ mnemonic (body raw) ∈ cmpBranchNames ∧ ∃ st t o, Lang.Instr f k st ∧ .const Lang.addr t ∈ st ∧ Lang.Distance f k t o ∧ o % 65536 = 0)

omit [Unicode] in
theorem ofInt_zero (o : Int) : BitVec.ofInt 16 o = 0#16 ↔ o % 65536 = 0 := by
  constructor
  · intro h
    have := congrArg BitVec.toNat h
    simp only [BitVec.toNat_ofInt, BitVec.toNat_ofNat] at this
    omega
  · intro h
    apply BitVec.eq_of_toNat_eq
    simp only [BitVec.toNat_ofInt, BitVec.toNat_ofNat]
    omega

theorem encode_none_iff (hT : IsTrace (envOf rt m text) (lines text) tr) (he : outErrors tr = []) {k : Nat} {ws : List ParserWarning} {i : Instruction}
    (hk : tr[k]? = some (.inst ws i)) {n : Nat} (hn : (outInsts 0 (tr.take k)).length = n) {a : Instruction}
    (hadj : adjust1 (envOf rt m text) (canonF tr) n (k + 1, i) = some (a, [])) {raw : Str} (hraw : (lines text)[k]? = some raw) :
    assembleInst rt.ovf a = none ↔ ZeroAt (fileOf rt m text) k raw := by
  obtain ⟨st, raw', hI, h2, hkind, hS, hw, hop⟩ := shape_of hT hk
  rw [hraw] at h2; cases h2
  have hlt : k < (lines text).length := (List.getElem?_eq_some_iff.1 hraw).1
  have hSee : Sees ((fileOf rt m text).place k) (ctxAt (envOf rt m text) (tr.take k)) := sees_at (isTrace_take hT k) (Nat.le_of_lt hlt)
  obtain ⟨st0, _, hI', _, _, hP, hC, hA⟩ := instr_of hT hk
  obtain rfl := instr_unique hI hI'
  have hmn := mnemonic_of (raw := raw)
  have hplan : Lang.plan (body raw) = some st := by
    obtain ⟨raw', r1, _, r2, _⟩ := hI
    have r1' : (lines text)[k]? = some raw' := r1
    rw [hraw] at r1'; cases r1'; exact r2
  have hcls : classify (mnemonic (body raw)) = .word ↔ mnemonic (body raw) = c!".word" := classify_word _
  rw [hcls] at hw
  constructor
  · intro hnone
    rcases C10_encoder_total rt.ovf a (adjust1_resolved hadj) hnone with ⟨w, rfl⟩ | ⟨ho, op, rs, r, im, b, rfl, hcmp, hz⟩
    · left
      apply hw.1
      cases i with
      | bytes w' => exact ⟨w', rfl⟩
      | imm => exact absurd hadj (adjust_imm_ne w)
      | jump => obtain ⟨_, _, e⟩ := adjust_jump hadj; cases e
      | reg => cases hadj
    · right
      refine ⟨ho, ?_⟩
      cases i with
      | bytes w' => cases hadj
      | jump => obtain ⟨_, _, e⟩ := adjust_jump hadj; cases e
      | reg => cases hadj
      | imm o' rs' r' im' b' =>
        obtain rfl := adjust_imm_op hadj
        have hmc : mnOf (firstWord (body raw)) ∈ cmpBranchNames := (opI_cmp (hop _ _ _ _ _ rfl)).1.2 hcmp
        obtain ⟨t, ht⟩ := plan_cmp hplan hmc
        rw [hmn]
        refine ⟨hmc, st, t, ?_⟩
        obtain ⟨v, b2, hd, e⟩ := adjust_dist hT he hk hraw hkind hS hn hadj ht rfl
        refine ⟨v, hI, ht, hd, ?_⟩
        rw [e] at hnone
        exact (ofInt_zero v).1 ((encode_cmp hcmp).1 hnone).2
  · rintro (h | ⟨ho, hmc, st', t, o, hI2, ht, hd, hz⟩)
    · obtain ⟨w, rfl⟩ := hw.2 h
      cases hadj
      rfl
    · obtain rfl := instr_unique hI hI2
      have hta : '\n' ∉ t := hA t (.inl ((hC t).2 (const_constant ht)))
      rw [hmn] at hmc
      cases i with
      | imm o' rs' r' im' b' =>
        obtain ⟨v, b2, hd', rfl⟩ := adjust_dist hT he hk hraw hkind hS hn hadj ht rfl
        rw [dist_unique hSee hta hd' hd]
        rw [encode_cmp ((opI_cmp (hop _ _ _ _ _ rfl)).1.1 hmc)]
        exact ⟨ho, (ofInt_zero o).2 hz⟩
      | jump o' q b' => exact absurd ((hC t).2 (const_constant ht)) (by rw [hP.1]; simp)
      | reg o' rs' r' rd sa b' => exact absurd ((hC t).2 (const_constant ht)) (by rw [hP.1]; simp)
      | bytes w => exact absurd ((hC t).2 (const_constant ht)) (by rw [hP.1]; simp)

end
end Mips
