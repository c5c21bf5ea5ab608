/- The arms of the parser, in terms of the words (for C57). -/
import Verif.Lemmas.CodeL6

namespace Mips
open Source Syntax Branch Operands
open Mips.Isa hiding conds Code
open Mips.Names hiding none
open Mips.Lang (Val Values Yields Const code)

section
variable [Unicode] {f : Lang.File} {k : Nat} {x : Ctx} {st : List Lang.Step}

omit [Unicode] in
theorem encA {ovf : Bool} {o : ITypeOp} {a b : BitVec 5} {v : BitVec 16} {ws : List Word} (h : encode ovf (.imm o a.toFin b.toFin (.short v) []) = some ws) :
    encI ovf o (a.setWidth 32) (b.setWidth 32) (v.setWidth 32) (v.setWidth 64) = some ws := by
  rw [← num_toFin a, ← num_toFin b]; exact h
omit [Unicode] in
theorem encA1 {ovf : Bool} {o : ITypeOp} {a : BitVec 5} {v : BitVec 16} {ws : List Word} (h : encode ovf (.imm o a.toFin Register.null (.short v) []) = some ws) :
    encI ovf o (a.setWidth 32) 0#32 (v.setWidth 32) (v.setWidth 64) = some ws := by
  rw [← num_toFin a]; exact h
omit [Unicode] in
theorem encA2 {ovf : Bool} {o : ITypeOp} {b : BitVec 5} {v : BitVec 16} {ws : List Word} (h : encode ovf (.imm o Register.null b.toFin (.short v) []) = some ws) :
    encI ovf o 0#32 (b.setWidth 32) (v.setWidth 32) (v.setWidth 64) = some ws := by
  rw [← num_toFin b]; exact h
omit [Unicode] in
theorem encA0 {ovf : Bool} {o : ITypeOp} {v : BitVec 16} {ws : List Word} (h : encode ovf (.imm o Register.null Register.null (.short v) []) = some ws) :
    encI ovf o 0#32 0#32 (v.setWidth 32) (v.setWidth 64) = some ws := h

omit [Unicode] in
theorem enc_wide {ovf : Bool} {o : ITypeOp} {a b : Register} {im : Immediate} {l : BitVec 64} {ws : List Word} (hl : im.asU64 = some l)
    (h : encode ovf (.imm o a b im []) = some ws) : ∃ u, im.asU32 = some u ∧ encI ovf o a.num b.num u l = some ws := by
  unfold encode at h
  simp only [opt_bind, Option.bind_eq_some_iff] at h
  obtain ⟨u, h1, l', h2, h3⟩ := h
  rw [hl] at h2; cases h2
  exact ⟨u, h1, h3⟩

/-- the operation of `cache` -/
theorem rp_cop (hx : Sees (f.place k) x) {s : Str} (hn : '\n' ∉ s) :
    RPost (((W.lift (parseImm x .u16 s) : W Immediate) >>= fun i => match i.asU32 with
      | none => W.panic | some v => W.lift (Res.unwrap (Register.tryFrom v.toNat))) : W Register)
      (fun r => ∃ v, Lang.Value (f.place k) Lang.uimm s v ∧ r.num = (BitVec.ofInt 5 v).setWidth 32) := by
  refine rpost_bind rpost_imm fun i hi r hr => ?_
  rcases imm_case hx .u16 hn with ⟨j, h1, h2, h3, _⟩ | ⟨h1, h2, h3, h4⟩ | ⟨j, v', h1, h2, h3, h5, h4⟩ | ⟨e, h1, h2, h3, h4⟩
  · rw [hi] at h2; cases h2
    rw [h3] at hr; cases hr
  · rw [hi] at h4; cases h4
  · rw [hi] at h4; cases h4
    obtain ⟨w, hw, hv⟩ := has_u16 (h5 v' h3)
    rw [hw] at hr
    refine ⟨v', h3, ?_⟩
    have hr' : Res.unwrap (Register.tryFrom w.toNat) = .ok r := hr
    unfold Register.tryFrom at hr'
    by_cases hlt : w.toNat < 32
    · rw [dif_pos hlt] at hr'
      cases hr'
      unfold Register.num
      apply BitVec.eq_of_toNat_eq
      simp only [BitVec.toNat_ofNat, BitVec.toNat_setWidth, BitVec.toNat_ofInt]
      omega
    · rw [dif_neg hlt] at hr'; cases hr'
  · rw [hi] at h4; cases h4

/-- the base register; `g` reads it -/
theorem rp_base {g : Str → W Register} {F : Register → W Instruction} {s : Str} {P : Instruction → Prop} (hn : '\n' ∉ s)
    (hg : ∀ t, RPost (g t) (fun r => ∃ b : BitVec 5, Taken GprTaken t b ∧ r = b.toFin))
    (hF : ∀ m b, Lang.BaseGroup s m → Taken GprTaken (trim (Lang.bare m)) b → RPost (F b.toFin) P) :
    RPost (match baseText s with | none => W.panic | some bt => g bt >>= F) P := by
  cases h : baseText s with
  | none => exact rpost_panic
  | some bt =>
    obtain ⟨m, rfl, hm⟩ := (baseText_iff hn).1 h
    refine rpost_bind (hg _) fun r ⟨b, hb, e⟩ => ?_
    subst e
    exact hF m b hm hb

/-- the offset -/
theorem rp_offset (hx : Sees (f.place k) x) {w s : Str} {cls : Cls} {b : Bool} {ra rb : Register} (hcls : classify (mnOf w) = cls) (hn : '\n' ∉ s)
    (hc : ∀ o ∈ ITypeOp.all, iname o = mnOf w → classify (iname o) = cls → ∀ v, Values f k [.offset b s] [.num v] → ∀ ovf ws, encode ovf (.imm o ra rb (.short (.ofInt 16 v)) []) = some ws →
      LW f k st (iname o) ws) :
    RPost (match findOffset s with
      | some o => mkI w ra rb (W.lift (parseImm x .i16 (if b then removeOpenParen o else o.dropLast)))
      | none => mkI w ra rb (W.lift (parseImm x .i16 c!"0"))) (CPost f k x (mnOf w) st) := by
  by_cases h : ∃ o, Lang.Offset s o
  · obtain ⟨o, ho⟩ := h
    rw [findOffset_some hn ho]
    simp only []
    have e : (if b then removeOpenParen (o ++ ['(']) else (o ++ ['(']).dropLast) = Lang.offsetText b o := by
      unfold Lang.offsetText
      cases b
      · simp
      · simp [removeOpenParen]
    rw [e]
    have hmem : ∀ c ∈ Lang.offsetText b o, c ∈ s := by
      obtain ⟨_, v, rfl, _⟩ := ho
      intro c hc
      have : c ∈ o := by
        unfold Lang.offsetText at hc
        split at hc
        · exact (List.mem_filter.1 hc).1
        · exact hc
      simp [this]
    refine lfI hcls (fun hc => hn (hmem _ hc)) (.inl rfl) ?_
    intro op hop hnm hcl v hv im hr ovf ws henc
    have : im = .short (.ofInt 16 v) := hr
    subst this
    exact hc op hop hnm hcl v (va_offset ho hv .nil) ovf ws henc
  · have h' : ∀ o, ¬ Lang.Offset s o := fun o ho => h ⟨o, ho⟩
    rw [findOffset_none hn h']
    simp only []
    refine lfZ hx hcls ?_
    intro op hop hnm hcl ovf ws henc
    exact hc op hop hnm hcl 0 (va_noOffset h' .nil) ovf ws henc

/-- putting the offset behind other steps -/
theorem va_tail {st₁ : List Lang.Step} {vs₁ : List Val} (h : Values f k st₁ vs₁) {st₂ : List Lang.Step} {vs₂ : List Val} (h2 : Values f k st₂ vs₂) :
    Values f k (st₁ ++ st₂) (vs₁ ++ vs₂) := by
  induction h with
  | nil => exact h2
  | cons s st a vs ha _ ih => rw [List.append_assoc]; exact .cons _ _ _ _ ha ih

set_option maxHeartbeats 2000000 in
theorem arm_words (hx : Sees (f.place k) x) {cls : Cls} {w arg : Str} (hcls : classify (mnOf w) = cls) (hrow : Row cls (mnOf w)) (hk : trim (Unicode.lower w) = mnOf w)
    (hn : ∀ s ∈ split ',' arg, '\n' ∉ s)
    (h1 : cls ≠ .bare) (h2 : cls ≠ .tlb) (h3 : cls ≠ .word) (h4 : cls ≠ .other) {st : List Lang.Step} (hst : planOf cls (mnOf w) w (split ',' arg) = some st) :
    RPost (parseArm x cls w arg) (CPost f k x (mnOf w) st) := by
  unfold parseArm
  revert hst hn
  generalize split ',' arg = args
  intro hn hst
  have c0 : args = [] ∨ (∃ a, args = [a]) ∨ (∃ a b, args = [a, b]) ∨ (∃ a b c, args = [a, b, c]) ∨ ∃ a b c d r, args = a :: b :: c :: d :: r := by
    rcases args with _ | ⟨a, _ | ⟨b, _ | ⟨c, _ | ⟨d, r⟩⟩⟩⟩
    · exact .inl rfl
    · exact .inr (.inl ⟨_, rfl⟩)
    · exact .inr (.inr (.inl ⟨_, _, rfl⟩))
    · exact .inr (.inr (.inr (.inl ⟨_, _, _, rfl⟩)))
    · exact .inr (.inr (.inr (.inr ⟨_, _, _, _, _, rfl⟩)))
  have D : cls ≠ .dli → mnOf w ≠ c!"dli" := fun h e => h (hrow.dli.1 e)
  have L : cls ≠ .arith → mnOf w ∉ logicNames := fun h e => h (hrow.logic e)
  have memB : mnOf w ∈ memNames ↔ cls = .mem := hrow.mem
  cases cls
  case bare => exact absurd rfl h1
  case tlb => exact absurd rfl h2
  case word => exact absurd rfl h3
  case other => exact absurd rfl h4
  case mem =>
    have Gm : mnOf w ∈ memNames := memB.2 rfl
    by_cases hc : mnOf w = c!"cache"
    · simp only [planOf, clsList, if_pos hc] at hst
      rcases c0 with rfl | ⟨a, rfl⟩ | ⟨a, b, rfl⟩ | ⟨a, b, c, rfl⟩ | ⟨a, b, c, d, r, rfl⟩ <;>
        first
          | (simp at hst; done)
          | skip
      simp [Lang.steps, Gm] at hst
      subst hst
      simp only [hk, if_pos hc]
      refine rpost_bind (rp_cop hx (hn a (by simp))) fun r ⟨c, hc1, hc2⟩ => ?_
      refine rp_base (hn b (by simp)) (fun _ => rp_gpr') fun m rb hm hb => ?_
      refine rp_offset hx (b := false) hcls (hn b (by simp)) ?_
      intro o ho hnm hcl v hv ovf ws he
      refine ⟨_, va_cop hc1 (va_base hm hb (va_name hv)), ?_⟩
      refine cl_cache ho ⟨hcl, hnm.trans hc⟩ ovf rb c v ((BitVec.ofInt 16 v).setWidth 64) ?_
      rw [← num_toFin rb, ← hc2]; exact he
    · simp only [planOf, clsList, if_neg hc] at hst
      rcases c0 with rfl | ⟨a, rfl⟩ | ⟨a, b, rfl⟩ | ⟨a, b, c, rfl⟩ | ⟨a, b, c, d, r, rfl⟩ <;>
        first
          | (simp at hst; done)
          | skip
      simp [Lang.steps, Gm] at hst
      subst hst
      simp only [hk, if_neg hc]
      refine rpost_bind (rp_gpr') fun r ⟨c, hc1, hc2⟩ => ?_
      subst hc2
      refine rp_base (hn b (by simp)) (fun _ => rp_gpr') fun m rb hm hb => ?_
      refine rp_offset hx (b := false) hcls (hn b (by simp)) ?_
      intro o ho hnm hcl v hv ovf ws he
      exact ⟨_, va_gpr hc1 (va_base hm hb (va_name hv)), cl_mem ho ⟨hcl, fun e => hc (hnm.symm.trans e)⟩ ovf rb c v _ (encA he)⟩
  case fmem =>
    have Gm : mnOf w ∉ memNames := fun h => by cases memB.1 h
    simp only [planOf, clsList] at hst
    rcases c0 with rfl | ⟨a, rfl⟩ | ⟨a, b, rfl⟩ | ⟨a, b, c, rfl⟩ | ⟨a, b, c, d, r, rfl⟩ <;>
      first
        | (simp at hst; done)
        | skip
    simp [Lang.steps, Gm] at hst
    subst hst
    simp only
    refine rpost_bind (rp_fpr) fun r ⟨c, hc1, hc2⟩ => ?_
    subst hc2
    refine rp_base (hn b (by simp)) (fun _ => rp_gpr) fun m rb hm hb => ?_
    refine rp_offset hx (b := true) hcls (hn b (by simp)) ?_
    intro o ho hnm hcl v hv ovf ws he
    exact ⟨_, va_fpr hc1 (va_base hm hb (va_name hv)), cl_fmem ho hcl ovf rb c v _ (encA he)⟩
  case arith =>
    have hw0 : (w = c!"andi" ∨ w = c!"ori" ∨ w = c!"xori") ↔ (mnOf w ∈ logicNames ∧ w = mnOf w) := by
      constructor
      · rintro (rfl | rfl | rfl) <;> (rw [mnOf_ascii (by unfold AsciiS; decide)]; decide)
      · rintro ⟨h, e⟩
        rw [← e] at h
        simpa [logicNames] using h
    have : ∃ a b c r ty, args = [a, b, c] ∧ st = [.gpr (decide (mnOf w ∈ memNames)) a, .gpr (decide (mnOf w ∈ memNames)) b, .name w, .const r c] ∧
        r = rangeOf ty ∧ ty = if w = c!"andi" ∨ w = c!"ori" ∨ w = c!"xori" then IntTy.u16 else IntTy.i16 := by
      by_cases hc : mnOf w ∈ logicNames
      · simp only [planOf, clsList, if_pos hc] at hst
        rcases c0 with rfl | ⟨a, rfl⟩ | ⟨a, b, rfl⟩ | ⟨a, b, c, rfl⟩ | ⟨a, b, c, d, r, rfl⟩ <;>
          first
            | (simp at hst; done)
            | (cases hst
               refine ⟨a, b, c, _, _, rfl, rfl, ?_, rfl⟩
               by_cases hw : w = mnOf w
               · rw [if_neg (fun h => h.2 hw), if_pos (hw0.2 ⟨hc, hw⟩)]; rfl
               · rw [if_pos ⟨hc, hw⟩, if_neg (fun h => hw (hw0.1 h).2)]; rfl)
      · simp only [planOf, clsList, if_neg hc] at hst
        rcases c0 with rfl | ⟨a, rfl⟩ | ⟨a, b, rfl⟩ | ⟨a, b, c, rfl⟩ | ⟨a, b, c, d, r, rfl⟩ <;>
          first
            | (simp at hst; done)
            | (refine ⟨a, b, c, Lang.simm, _, rfl, ?_, ?_, rfl⟩
               · simp [Lang.steps] at hst; rw [← hst]
               · rw [if_neg (fun h => hc (hw0.1 h).1)]; rfl)
    obtain ⟨a, b, c, r, ty, rfl, rfl, hr, hty⟩ := this
    simp only
    refine rpost_bind (rp_gpr) fun _ ⟨rt, ht, e⟩ => ?_
    subst e
    refine rpost_bind (rp_gpr) fun _ ⟨rs, hs, e⟩ => ?_
    subst e
    have key : ty ≠ .i64 → (ty = .i16 ∨ ty = .u16 ∨ ty = .i64) → RPost (mkI w rs.toFin rt.toFin (W.lift (parseImm x ty c)))
        (CPost f k x (mnOf w) [.gpr (decide (mnOf w ∈ memNames)) a, .gpr (decide (mnOf w ∈ memNames)) b, .name w, .const r c]) := by
      intro hne htt
      refine lfI hcls (hn c (by simp)) htt ?_
      intro o ho hnm hcl v hv im hres ovf ws he
      unfold Resolved at hres
      rw [if_neg hne] at hres
      subst hres
      refine ⟨_, va_gpr ht (va_gpr hs (va_name (va_const (hr ▸ hv) .nil))), cl_arith ho hcl ovf rs rt v _ (encA he)⟩
    split
    · rename_i hc; rw [if_pos hc] at hty; subst hty; exact key (by decide) (by simp)
    · rename_i hc; rw [if_neg hc] at hty; subst hty; exact key (by decide) (by simp)
  case jump =>
    simp only [planOf, clsList] at hst
    rcases c0 with rfl | ⟨a, rfl⟩ | ⟨a, b, rfl⟩ | ⟨a, b, c, rfl⟩ | ⟨a, b, c, d, r, rfl⟩ <;>
      first
        | (simp at hst; done)
        | skip
    cases hst
    refine rpost_any fun _ => rpost_bind rpost_tgt fun q hq => rpost_any fun _ => rpost_bind rpost_opJ fun o ho => rpost_pure ⟨rfl, a, hq, ?_⟩
    intro ad had
    obtain ⟨h1, h2⟩ := jname_of ho
    refine ⟨_, va_target had (va_name .nil), ?_⟩
    rw [← h2]
    exact cl_jump h1 (by rw [h2]; exact hcls) ad rfl
  case li | liu =>
    simp only [planOf, clsList] at hst
    rcases c0 with rfl | ⟨a, rfl⟩ | ⟨a, b, rfl⟩ | ⟨a, b, c, rfl⟩ | ⟨a, b, c, d, r, rfl⟩ <;>
      first
        | (simp at hst; done)
        | skip
    simp [Lang.steps, D] at hst
    subst hst
    simp only [parseLi]
    refine rpost_bind (rp_gpr) fun _ ⟨rt, ht, e⟩ => ?_
    subst e
    refine rpost_bind rpost_imm fun i hi => ?_
    split
    · exact rpost_panic
    · rename_i v hv
      split
      · exact rpost_fail
      · rename_i hle
        have hns := parseImm_notInt hi (.inr (.inr rfl))
        have hstill : Still i := by cases i <;> first | trivial | (cases hv; done) | exact hns
        have hr : ¬ Lang.RefersTo (f.place k) b := by
          intro hr
          rcases parse_refers (ty := .i64) hx hr with h | h <;> rw [hi] at h <;> cases h <;> cases hv
        obtain ⟨n, hn1, hn2⟩ := parse_value hx (hn b (by simp)) hr hi
        obtain ⟨w64, hw64, hb⟩ := has_i64 hn2
        rw [hv] at hw64; cases hw64
        have hbd : 0 ≤ n ∧ n ≤ 4294967295 := by
          by_cases h : 0 ≤ n ∧ n ≤ 4294967295
          · exact h
          · exact absurd (hb.2 h) hle
        refine lfS hcls hstill ?_
        intro o ho hcl ovf ws he
        have hu : i.asU32 = some (BitVec.ofInt 32 n) := by
          rcases hn2 with ⟨rfl, _⟩ | ⟨rfl, q1, q2⟩
          · show some (BitVec.setWidth 32 (BitVec.ofInt 64 n)) = _
            congr 1
            apply BitVec.eq_of_toNat_eq
            simp only [BitVec.toNat_setWidth, BitVec.toNat_ofInt]
            omega
          · show some (BitVec.setWidth 32 (BitVec.ofInt 16 n)) = _
            congr 1
            apply BitVec.eq_of_toNat_eq
            simp only [BitVec.toNat_setWidth, BitVec.toNat_ofInt]
            omega
        obtain ⟨u, hu', he'⟩ := enc_wide hv he
        rw [hu] at hu'; cases hu'
        rw [num_null, num_toFin] at he'
        first
          | exact ⟨_, va_gpr ht (va_word32 hn1 (va_name .nil)), cl_li ho hcl ovf rt n _ hbd.1 hbd.2 he'⟩
          | exact ⟨_, va_gpr ht (va_word32 hn1 (va_name .nil)), cl_liu ho hcl ovf rt n _ hbd.1 hbd.2 he'⟩
  case lui =>
    simp only [planOf, clsList] at hst
    rcases c0 with rfl | ⟨a, rfl⟩ | ⟨a, b, rfl⟩ | ⟨a, b, c, rfl⟩ | ⟨a, b, c, d, r, rfl⟩ <;>
      first
        | (simp at hst; done)
        | skip
    replace hst : some [Lang.Step.gpr (decide (mnOf w ∈ memNames)) a, .name w, .const (if mnOf w ∈ logicNames ∧ w ≠ mnOf w then Lang.simm else Lang.uimm) b] = some st := hst
    rw [if_neg (fun h => L (by decide) h.1)] at hst
    cases hst
    refine rpost_bind (rp_gpr) fun _ ⟨rt, ht, e⟩ => ?_
    subst e
    refine lfI hcls (hn b (by simp)) (.inr (.inl rfl)) ?_
    intro o ho hnm hcl v hv im hres ovf ws he
    have : im = .short (.ofInt 16 v) := hres
    subst this
    exact ⟨_, va_gpr ht (va_name (va_const hv .nil)), cl_lui ho hcl ovf rt v _ (encA2 he)⟩
  case trapi =>
    simp only [planOf, clsList] at hst
    rcases c0 with rfl | ⟨a, rfl⟩ | ⟨a, b, rfl⟩ | ⟨a, b, c, rfl⟩ | ⟨a, b, c, d, r, rfl⟩ <;>
      first
        | (simp at hst; done)
        | skip
    cases hst
    refine rpost_bind (rp_gpr) fun _ ⟨rt, ht, e⟩ => ?_
    subst e
    refine lfI hcls (hn b (by simp)) (.inl rfl) ?_
    intro o ho hnm hcl v hv im hres ovf ws he
    have : im = .short (.ofInt 16 v) := hres
    subst this
    exact ⟨_, va_gpr ht (va_name (va_const hv .nil)), cl_trapi ho hcl ovf rt v _ (encA1 he)⟩
  case dli =>
    simp only [planOf, clsList] at hst
    rcases c0 with rfl | ⟨a, rfl⟩ | ⟨a, b, rfl⟩ | ⟨a, b, c, rfl⟩ | ⟨a, b, c, d, r, rfl⟩ <;>
      first
        | (simp at hst; done)
        | skip
    simp [Lang.steps, hrow.dli.2] at hst
    subst hst
    refine rpost_bind (rp_gpr) fun _ ⟨rt, ht, e⟩ => ?_
    subst e
    refine lfI hcls (hn b (by simp)) (.inr (.inr rfl)) ?_
    intro o ho hnm hcl v hv im hres ovf ws he
    obtain ⟨h64, u, hu⟩ : im.asU64 = some (BitVec.ofInt 64 v) ∧ ∃ u, im.asU32 = some u := hres
    obtain ⟨u', hu', he'⟩ := enc_wide h64 he
    rw [num_null, num_toFin] at he'
    exact ⟨_, va_gpr ht (va_name (va_const hv .nil)), cl_dli ho hcl ovf rt v u' he'⟩
  case br1 =>
    simp only [planOf, clsList] at hst
    rcases c0 with rfl | ⟨a, rfl⟩ | ⟨a, b, rfl⟩ | ⟨a, b, c, rfl⟩ | ⟨a, b, c, d, r, rfl⟩ <;>
      first
        | (simp at hst; done)
        | skip
    cases hst
    refine rpost_any fun _ => rpost_bind (rp_gpr) fun _ ⟨rt, ht, e⟩ => ?_
    subst e
    refine rpost_bind rpost_imm fun i hi => rpost_any fun _ => lfB hcls rfl (hn b (by simp)) hi ?_
    intro o ho hcl v hv ovf ws he
    exact ⟨_, va_gpr ht (va_const hv (va_name .nil)), cl_br1 ho hcl ovf rt v _ (encA1 he)⟩
  case br2 =>
    simp only [planOf, clsList] at hst
    rcases c0 with rfl | ⟨a, rfl⟩ | ⟨a, b, rfl⟩ | ⟨a, b, c, rfl⟩ | ⟨a, b, c, d, r, rfl⟩ <;>
      first
        | (simp at hst; done)
        | skip
    cases hst
    refine rpost_any fun _ => rpost_bind (rp_gpr) fun _ ⟨rs, hs, e⟩ => ?_
    subst e
    refine rpost_bind (rp_gpr) fun _ ⟨rt, ht, e⟩ => ?_
    subst e
    refine rpost_bind rpost_imm fun i hi => rpost_any fun _ => lfB hcls rfl (hn c (by simp)) hi ?_
    intro o ho hcl v hv ovf ws he
    exact ⟨_, va_gpr hs (va_gpr ht (va_const hv (va_name .nil))), cl_br2 ho hcl ovf rs rt v _ (encA he)⟩
  case b | bc =>
    simp only [planOf, clsList] at hst
    rcases c0 with rfl | ⟨a, rfl⟩ | ⟨a, b, rfl⟩ | ⟨a, b, c, rfl⟩ | ⟨a, b, c, d, r, rfl⟩ <;>
      first
        | (simp at hst; done)
        | skip
    cases hst
    refine rpost_any fun _ => rpost_bind rpost_imm fun i hi => rpost_any fun _ => lfB hcls rfl (hn a (by simp)) hi ?_
    intro o ho hcl v hv ovf ws he
    first
      | exact ⟨_, va_const hv (va_name .nil), cl_b ho hcl ovf v _ (encA0 he)⟩
      | exact ⟨_, va_const hv (va_name .nil), cl_bc ho hcl ovf v _ (encA0 he)⟩
  case shift =>
    simp only [planOf, clsList] at hst
    rcases c0 with rfl | ⟨a, rfl⟩ | ⟨a, b, rfl⟩ | ⟨a, b, c, rfl⟩ | ⟨a, b, c, d, r, rfl⟩ <;>
      first
        | (simp at hst; done)
        | skip
    cases hst
    refine rpost_bind (rp_gpr) fun _ ⟨rd, hd, e⟩ => ?_
    subst e
    refine rpost_bind (rp_gpr) fun _ ⟨rt, ht, e⟩ => ?_
    subst e
    refine rpost_bind rpost_opR fun o ho => ?_
    cases hp : parseShift c with
    | none => exact rpost_panic
    | some sa =>
      obtain ⟨v, hv, rfl⟩ := shift_is.1 hp
      obtain ⟨h1, h2⟩ := rname_of ho
      refine rpost_pure ⟨rfl, _, va_gpr hd (va_gpr ht (va_name (va_shamt hv .nil))), ?_⟩
      rw [← h2]
      exact cl_shift h1 (by rw [h2]; exact hcls) rt rd v (by rw [← num_toFin rt, ← num_toFin rd]; rfl)
  case code =>
    simp only [planOf, clsList] at hst
    rcases c0 with rfl | ⟨a, rfl⟩ | ⟨a, b, rfl⟩ | ⟨a, b, c, rfl⟩ | ⟨a, b, c, d, r, rfl⟩ <;>
      first
        | (simp at hst; done)
        | skip
    cases hst
    simp only
    have leaf : ∀ (o : RTypeOp) (n : Int) (u : Word), RTypeOp.fromStr w = some o → u = (BitVec.ofInt 20 n).setWidth 32 → code (mnOf w) [.num n] = some (encR o 0#32 0#32 0#32 u) := by
      intro o n u ho e
      obtain ⟨h1, h2⟩ := rname_of ho
      subst e
      rw [← h2]
      exact cl_code h1 (by rw [h2]; exact hcls) n rfl
    by_cases h0 : a = []
    · subst h0
      refine rpost_bind (Q := (· = .short 0#16)) (rpost_pure rfl) fun i hi => ?_
      subst hi
      refine rpost_bind rpost_opR fun o ho => ?_
      exact rpost_pure ⟨rfl, _, va_noCode (va_name .nil), leaf o 0 _ ho (by decide)⟩
    · have h0' : a.isEmpty = false := by simpa using h0
      rw [h0', if_neg (by simp)]
      have et : parseImm x .u16 (trim a) = parseImm x .u16 a := by unfold parseImm; rw [trim_trim]
      rw [et]
      refine rpost_bind rpost_imm fun i hi => rpost_bind rpost_opR fun o ho => ?_
      cases hu : i.asU32 with
      | none => exact rpost_panic
      | some u =>
        have hr : ¬ Lang.RefersTo (f.place k) a := by
          intro hr
          rcases parse_refers (ty := .u16) hx hr with h | h <;> rw [hi] at h <;> cases h <;> cases hu
        obtain ⟨n, hn1, hn2⟩ := parse_value hx (hn a (by simp)) hr hi
        obtain ⟨u', hu', hun⟩ := has_u16 hn2
        rw [hu] at hu'; cases hu'
        refine rpost_pure ⟨rfl, _, va_code h0 hn1 (va_name .nil), leaf o n _ ho ?_⟩
        have hlt : n < 65536 := by
          rcases hn2 with ⟨rfl, _, q⟩ | ⟨_, _, q⟩
          · simp only [IntTy.max] at q; omega
          · exact q
        apply BitVec.eq_of_toNat_eq
        simp only [BitVec.toNat_setWidth, BitVec.toNat_ofInt]
        omega
  case jalr =>
    simp only [planOf, clsList] at hst
    rcases c0 with rfl | ⟨a, rfl⟩ | ⟨a, b, rfl⟩ | ⟨a, b, c, rfl⟩ | ⟨a, b, c, d, r, rfl⟩ <;>
      first
        | (simp at hst; done)
        | skip
    · cases hst
      refine rpost_any fun _ => rpost_bind (rp_gpr) fun _ ⟨rs, hs, e⟩ => ?_
      subst e
      exact lfR hcls (va_gpr hs (va_name .nil)) fun o ho hc => cl_jalr1 ho hc rs (by rw [← num_toFin rs]; rfl)
    · cases hst
      refine rpost_any fun _ => rpost_bind (rp_gpr) fun _ ⟨rd, hd, e⟩ => ?_
      subst e
      refine rpost_bind (rp_gpr) fun _ ⟨rs, hs, e⟩ => ?_
      subst e
      exact lfR hcls (va_gpr hd (va_gpr hs (va_name .nil))) fun o ho hc => cl_jalr2 ho hc rs rd (by rw [← num_toFin rs, ← num_toFin rd]; rfl)
  case div =>
    simp only [planOf, clsList] at hst
    rcases c0 with rfl | ⟨a, rfl⟩ | ⟨a, b, rfl⟩ | ⟨a, b, c, rfl⟩ | ⟨a, b, c, d, r, rfl⟩ <;>
      first
        | (simp at hst; done)
        | skip
    · cases hst
      refine rpost_bind (rp_gpr) fun _ ⟨rd, hd, e⟩ => ?_
      subst e
      refine rpost_bind (rp_gpr) fun _ ⟨rs, hs, e⟩ => ?_
      subst e
      exact lfR hcls (va_gpr hd (va_gpr hs (va_name .nil))) fun o ho hc => cl_div2 ho hc rs rd (by rw [← num_toFin rs, ← num_toFin rd]; rfl)
    · cases hst
      refine rpost_bind (rp_gpr) fun _ ⟨rd, hd, e⟩ => ?_
      subst e
      refine rpost_bind (rp_gpr) fun _ ⟨rs, hs, e⟩ => ?_
      subst e
      refine rpost_bind (rp_gpr) fun _ ⟨rt, ht, e⟩ => ?_
      subst e
      exact lfR hcls (va_gpr hd (va_gpr hs (va_gpr ht (va_name .nil)))) fun o ho hc => cl_div3 ho hc rs rt rd (by rw [← num_toFin rs, ← num_toFin rt, ← num_toFin rd])
  case reg3 =>
    simp only [planOf, clsList] at hst
    rcases c0 with rfl | ⟨a, rfl⟩ | ⟨a, b, rfl⟩ | ⟨a, b, c, rfl⟩ | ⟨a, b, c, d, r, rfl⟩ <;>
      first
        | (simp at hst; done)
        | skip
    cases hst
    refine rpost_bind (rp_gpr) fun _ ⟨rd, hd, e⟩ => ?_
    subst e
    refine rpost_bind (rp_gpr) fun _ ⟨rs, hs, e⟩ => ?_
    subst e
    refine rpost_bind (rp_gpr) fun _ ⟨rt, ht, e⟩ => ?_
    subst e
    exact lfR hcls (va_gpr hd (va_gpr hs (va_gpr ht (va_name .nil)))) fun o ho hc => cl_reg3 ho hc rs rt rd (by rw [← num_toFin rs, ← num_toFin rt, ← num_toFin rd])
  case shiftv =>
    simp only [planOf, clsList] at hst
    rcases c0 with rfl | ⟨a, rfl⟩ | ⟨a, b, rfl⟩ | ⟨a, b, c, rfl⟩ | ⟨a, b, c, d, r, rfl⟩ <;>
      first
        | (simp at hst; done)
        | skip
    cases hst
    refine rpost_bind (rp_gpr) fun _ ⟨rd, hd, e⟩ => ?_
    subst e
    refine rpost_bind (rp_gpr) fun _ ⟨rt, ht, e⟩ => ?_
    subst e
    refine rpost_bind (rp_gpr) fun _ ⟨rs, hs, e⟩ => ?_
    subst e
    exact lfR hcls (va_gpr hd (va_gpr ht (va_gpr hs (va_name .nil)))) fun o ho hc => cl_shiftv ho hc rs rt rd (by rw [← num_toFin rs, ← num_toFin rt, ← num_toFin rd])
  case reg2 =>
    simp only [planOf, clsList] at hst
    rcases c0 with rfl | ⟨a, rfl⟩ | ⟨a, b, rfl⟩ | ⟨a, b, c, rfl⟩ | ⟨a, b, c, d, r, rfl⟩ <;>
      first
        | (simp at hst; done)
        | skip
    cases hst
    refine rpost_bind (rp_gpr) fun _ ⟨rs, hs, e⟩ => ?_
    subst e
    refine rpost_bind (rp_gpr) fun _ ⟨rt, ht, e⟩ => ?_
    subst e
    exact lfR hcls (va_gpr hs (va_gpr ht (va_name .nil))) fun o ho hc => cl_reg2 ho hc rs rt (by rw [← num_toFin rs, ← num_toFin rt]; rfl)
  case pseudo2 =>
    simp only [planOf, clsList] at hst
    rcases c0 with rfl | ⟨a, rfl⟩ | ⟨a, b, rfl⟩ | ⟨a, b, c, rfl⟩ | ⟨a, b, c, d, r, rfl⟩ <;>
      first
        | (simp at hst; done)
        | skip
    cases hst
    refine rpost_bind (rp_gpr) fun _ ⟨rd, hd, e⟩ => ?_
    subst e
    refine rpost_bind (rp_gpr) fun _ ⟨rs, hs, e⟩ => ?_
    subst e
    exact lfR hcls (va_gpr hd (va_gpr hs (va_name .nil))) fun o ho hc => cl_pseudo2 ho hc rs rd (by rw [← num_toFin rs, ← num_toFin rd]; rfl)
  case rs1 =>
    simp only [planOf, clsList] at hst
    rcases c0 with rfl | ⟨a, rfl⟩ | ⟨a, b, rfl⟩ | ⟨a, b, c, rfl⟩ | ⟨a, b, c, d, r, rfl⟩ <;>
      first
        | (simp at hst; done)
        | skip
    cases hst
    simp only
    have leaf : RPost (parseReg x a >>= fun rs => mkR w rs Register.null Register.null)
        (CPost f k x (mnOf w) [.gpr (decide (mnOf w ∈ memNames)) a, .name w]) := by
      refine rpost_bind (rp_gpr) fun _ ⟨rs, hs, e⟩ => ?_
      subst e
      exact lfR hcls (va_gpr hs (va_name .nil)) fun o ho hc => cl_rs1 ho hc rs (by rw [← num_toFin rs]; rfl)
    split
    · exact rpost_any fun _ => leaf
    · exact leaf
  case rd1 =>
    simp only [planOf, clsList] at hst
    rcases c0 with rfl | ⟨a, rfl⟩ | ⟨a, b, rfl⟩ | ⟨a, b, c, rfl⟩ | ⟨a, b, c, d, r, rfl⟩ <;>
      first
        | (simp at hst; done)
        | skip
    cases hst
    refine rpost_bind (rp_gpr) fun _ ⟨rd, hd, e⟩ => ?_
    subst e
    exact lfR hcls (va_gpr hd (va_name .nil)) fun o ho hc => cl_rd1 ho hc rd (by rw [← num_toFin rd]; rfl)
  case cop0 =>
    simp only [planOf, clsList] at hst
    rcases c0 with rfl | ⟨a, rfl⟩ | ⟨a, b, rfl⟩ | ⟨a, b, c, rfl⟩ | ⟨a, b, c, d, r, rfl⟩ <;>
      first
        | (simp at hst; done)
        | skip
    cases hst
    refine rpost_bind (rp_gpr) fun _ ⟨rt, ht, e⟩ => ?_
    subst e
    refine rpost_bind (rp_c0) fun _ ⟨rd, hd, e⟩ => ?_
    subst e
    exact lfR hcls (va_gpr ht (va_c0 hd (va_name .nil))) fun o ho hc => cl_cop0 ho hc rt rd (by rw [← num_toFin rt, ← num_toFin rd]; rfl)
  case cop1 =>
    simp only [planOf, clsList] at hst
    rcases c0 with rfl | ⟨a, rfl⟩ | ⟨a, b, rfl⟩ | ⟨a, b, c, rfl⟩ | ⟨a, b, c, d, r, rfl⟩ <;>
      first
        | (simp at hst; done)
        | skip
    cases hst
    refine rpost_bind (rp_gpr) fun _ ⟨rt, ht, e⟩ => ?_
    subst e
    refine rpost_bind (rp_fpr) fun _ ⟨rd, hd, e⟩ => ?_
    subst e
    exact lfR hcls (va_gpr ht (va_fpr hd (va_name .nil))) fun o ho hc => cl_cop1 ho hc rt rd (by rw [← num_toFin rt, ← num_toFin rd]; rfl)

end
end Mips
