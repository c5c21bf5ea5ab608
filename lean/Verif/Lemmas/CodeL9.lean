/- The words of a line of an accepted program (for C57): label resolution puts in the values that the specification gives. -/
import Verif.Lemmas.CodeL8
import Verif.Props.LanguageP

namespace Mips
open Source Syntax Branch Operands
open Mips.Isa hiding conds Code
open Mips.Names hiding none
open Mips.Lang (Val Values Yields Const code callName)

theorem range_ty (ty : IntTy) : (rangeOf ty = Lang.wide ↔ ty = .i64) ∧ (rangeOf ty = Lang.addr ↔ ty = .u32) := by
  cases ty <;> decide

/-- what a label in a constant stands for -/
theorem resolved_dist (ty : IntTy) (v : Int) : Resolved ty (if rangeOf ty = Lang.wide then v % 65536 else v) (.short (BitVec.ofInt 16 v)) := by
  unfold Resolved
  by_cases h : ty = .i64
  · rw [if_pos h, if_pos ((range_ty ty).1.2 h)]
    refine ⟨?_, _, rfl⟩
    simp only [Immediate.asU64, Option.some.injEq]
    apply BitVec.eq_of_toNat_eq
    simp only [BitVec.toNat_setWidth, BitVec.toNat_ofInt]
    omega
  · rw [if_neg h, if_neg (fun c => h ((range_ty ty).1.1 c))]

theorem resolved_has {ty : IntTy} {v : Int} {i : Immediate} (h : Has ty i v) (hn : NotInt i) : Resolved ty v i := by
  have key : ∀ v : Int, 0 ≤ v → v < 65536 → (BitVec.ofInt 16 v).setWidth 64 = BitVec.ofInt 64 v := by
    intro v h1 h2
    apply BitVec.eq_of_toNat_eq
    simp only [BitVec.toNat_setWidth, BitVec.toNat_ofInt]
    omega
  unfold Resolved
  rcases h with ⟨rfl, _⟩ | ⟨rfl, h1, h2⟩
  · cases ty
    all_goals first
      | exact hn.elim
      | (simp [Immediate.new]; done)
      | (rw [if_pos rfl]; exact ⟨rfl, _, rfl⟩)
  · by_cases h : ty = .i64
    · rw [if_pos h]
      exact ⟨congrArg some (key v h1 h2), _, rfl⟩
    · rw [if_neg h]

section
variable [Unicode] {rt : Rt} {m : Mipsasm} {text : Str} {tr : List Outcome}

/-- the words of a line of an accepted program are those of the specification -/
theorem line_code (hT : IsTrace (envOf rt m text) (lines text) tr) (he : outErrors tr = []) {k : Nat} {ws : List ParserWarning} {i : Instruction}
    (hk : tr[k]? = some (.inst ws i)) {n : Nat} (hn : (outInsts 0 (tr.take k)).length = n) {a : Instruction}
    (hadj : adjust1 (envOf rt m text) (canonF tr) n (k + 1, i) = some (a, [])) {raw : Str} (hraw : (lines text)[k]? = some raw)
    {words : List Word} (henc : encode rt.ovf a = some words) (hnw : ∀ w, i ≠ .bytes w) : Lang.LineWords (fileOf rt m text) k raw words := by
  obtain ⟨raw', h1, hkind, h3⟩ := trace_inst hT hk
  have h1' : (lines text)[k]? = some raw' := h1
  rw [hraw] at h1'; cases h1'
  obtain ⟨st, raw', hI, h2, _, _, hw, hop⟩ := shape_of hT hk
  rw [hraw] at h2; cases h2
  have hplan : Lang.plan (body raw) = some st := by
    obtain ⟨raw', r1, _, r2, _⟩ := hI
    have r1' : (lines text)[k]? = some raw' := r1
    rw [hraw] at r1'; cases r1'; exact r2
  have hlt : k < (lines text).length := (List.getElem?_eq_some_iff.1 hraw).1
  have hnl : '\n' ∉ raw := lines_noNl text _ (List.mem_of_getElem? hraw)
  have hbn : '\n' ∉ body raw := fun hc => hnl ((body_infix raw).subset hc)
  have hS : Sees ((fileOf rt m text).place k) (ctxAt (envOf rt m text) (tr.take k)) := sees_at (isTrace_take hT k) (Nat.le_of_lt hlt)
  have hnc : n = codeCount ((lines text).take k) := by rw [← hn]; exact (trace_counts hT he k).2
  have hC := inst_words hS (kind_code_ne hkind) hbn hplan i (congrArg W.res h3)
  suffices h : LW (fileOf rt m text) k st (callName (firstWord (body raw))) words by
    obtain ⟨vs, hv, hc⟩ := h
    exact ⟨st, vs, hplan, hv, hc⟩
  cases i with
  | bytes w => exact absurd rfl (hnw w)
  | reg o rs r rd sa b =>
    obtain ⟨rfl, hC⟩ := hC
    cases hadj
    cases henc
    exact hC
  | jump o q b =>
    obtain ⟨rfl, t, ht, hC⟩ := hC
    cases q with
    | address ad =>
      cases hadj
      cases henc
      exact hC ad (.target t ad ((target_addr hS).1 ht))
    | label l =>
      obtain ⟨rfl, hl⟩ := (target_label hS).1 ht
      unfold adjust1 at hadj
      dsimp only at hadj
      split at hadj
      · simp only [opt_bind, Option.bind_eq_some_iff, Option.some.injEq, Prod.mk.injEq] at hadj
        obtain ⟨_, _, _, h⟩ := hadj
        cases h
      · rename_i ad hlk
        obtain ⟨d, hd, rfl⟩ := (lookup_iff hT).1 hlk
        rcases chk_cases rt.ovf m.base (outInsts 0 (tr.take d)).length with ⟨c, e⟩ | ⟨c, a4, q, e1, e2, e3⟩
        · have e' : ((chkMul (envOf rt m text).rt.ovf (BitVec.ofNat 32 (outInsts 0 (tr.take d)).length) 4#32).bind fun a => chkAdd (envOf rt m text).rt.ovf (envOf rt m text).base a) = none := e
          simp only [opt_bind, Option.bind_eq_some_iff] at hadj
          obtain ⟨a4, q1, q, q2, _⟩ := hadj
          rw [q1, Option.bind_some, q2] at e'; cases e'
        · have e1' : chkMul (envOf rt m text).rt.ovf (BitVec.ofNat 32 (outInsts 0 (tr.take d)).length) 4#32 = some a4 := e1
          have e2' : chkAdd (envOf rt m text).rt.ovf (envOf rt m text).base a4 = some q := e2
          simp only [e1', e2', opt_bind, Option.bind_some] at hadj
          cases hadj
          cases henc
          refine hC q ?_
          have hq : q = (fileOf rt m text).base + BitVec.ofNat 32 (4 * codeCount ((fileOf rt m text).ls.take d)) := by
            apply BitVec.eq_of_toNat_eq
            rw [e3, (trace_counts hT he d).2, BitVec.toNat_add, BitVec.toNat_ofNat]
            show (m.base.toNat + 4 * codeCount ((lines text).take d)) % 2 ^ 32 = (m.base.toNat + 4 * codeCount ((lines text).take d) % 2 ^ 32) % 2 ^ 32
            omega
          rw [hq]
          exact .label t d hl hd
  | imm o rs r im b =>
    obtain ⟨rfl, hC⟩ := hC
    rcases hC with ⟨ty, t, hp, htn, hni, hbr, hC⟩ | ⟨hst, hC⟩
    · rcases imm_kind hS hp with ⟨hl, rfl⟩ | ⟨hl, hlab, rfl⟩ | ⟨hl, hr, hn1, hn2⟩
      · subst hnc
        rcases local_exact hT he hraw hkind hl o rs r [] with ⟨d, c1, c2, e⟩ | ⟨c1, e⟩ | ⟨c1, c2, c3, e⟩
        · rw [e] at hadj; cases hadj
          exact hC _ (.local d hl c1) _ (resolved_dist ty _) _ _ henc
        · rw [e] at hadj; cases hadj
        · rw [e] at hadj; cases hadj
      · have hr : Lang.RefersTo ((fileOf rt m text).place k) t := by rw [hS.refers]; exact .inr hlab
        unfold adjust1 at hadj
        simp only [opt_bind, Option.bind_eq_some_iff, Option.some.injEq, Prod.mk.injEq] at hadj
        obtain ⟨ad, hlk, rfl, _⟩ := hadj
        obtain ⟨d, hd, rfl⟩ := (lookup_iff hT).1 hlk
        obtain ⟨hg, d0, hd0, hdef⟩ : Lang.Global (trim t) ∧ ∃ d0 < k, Defines (lines text) d0 (trim t) := by
          rcases hr with hr | hr
          · rw [hl] at hr; cases hr
          · exact hr
        obtain ⟨d1, hle, hd1⟩ := first_def hg hdef
        obtain rfl := firstDef_unique hd hd1
        refine hC _ (.label d (by omega) hd) _ (resolved_dist ty _) rt.ovf _ ?_
        unfold relOff at henc
        rw [(trace_counts hT he d).2, hnc] at henc
        exact henc
      · by_cases hty : ty = .u32
        · subst hty
          rcases imm_place hS htn hp hr with ⟨v, hv, rfl⟩ | ⟨g, v, hg, hv, rfl⟩
          · have hb' := (opI_cmp (hop o rs r _ [] rfl)).2 (by rw [opI_mn (hop o rs r _ [] rfl)]; exact hbr rfl)
            unfold adjust1 at hadj
            simp only [hb', Bool.not_true, Bool.false_eq_true, if_false] at hadj
            simp only [opt_bind, Option.bind_eq_some_iff, Option.some.injEq, Prod.mk.injEq] at hadj
            obtain ⟨_, _, _, _, _, _, rfl, _⟩ := hadj
            have hvn : (BitVec.ofNat 32 v).toNat = v := by
              have := hv.2.2.2
              rw [BitVec.toNat_ofNat]; omega
            rw [hvn, hnc] at henc
            exact hC _ (.place v rfl hv) _ rfl rt.ovf _ henc
          · cases hadj
            exact hC v (.half g v rfl hr hg hv) _ rfl rt.ovf _ henc
        · obtain ⟨v, hv, hh⟩ := parse_value hS htn hr hp
          have hNI := hni hty
          have hadj' : adjust1 (envOf rt m text) (canonF tr) n (k + 1, .imm o rs r im []) = some (.imm o rs r im [], []) := by
            cases im with
            | short _ => rfl
            | long _ => rfl
            | int _ => exact hNI.elim
            | localLabel l => exact absurd rfl (hn1 l)
            | label l => exact absurd rfl (hn2 l)
          rw [hadj'] at hadj; cases hadj
          exact hC v (.value v (fun c => hty ((range_ty ty).2.1 c)) hr hv) _ (resolved_has hh hNI) rt.ovf _ henc
    · have hadj' : adjust1 (envOf rt m text) (canonF tr) n (k + 1, .imm o rs r im []) = some (.imm o rs r im [], []) := by
        cases im with
        | short _ => rfl
        | long _ => rfl
        | int _ => exact hst.elim
        | localLabel l => exact hst.elim
        | label l => exact hst.elim
      rw [hadj'] at hadj; cases hadj
      exact hC rt.ovf _ henc

end

end Mips
