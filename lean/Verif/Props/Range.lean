/- C24: ranges of numeric operands. -/
import Verif.Spec.Range
import Verif.Props.Regs
import Verif.Props.Labels
import Verif.Props.Native

namespace Mips
open Source Branch Syntax Operands

/-- `w` succeeds if `p` and reports the number otherwise. -/
def Reads {α : Type} (x : Ctx) (p : Prop) (t : Str) (w : W α) : Prop :=
  (p → ∃ i, w.res = .ok i) ∧ (¬ p → w.res = .err (.invalidImmediate x.line t))

theorem bind_to {α β} {w : W α} {f : α → W β} {a : α} (h : w.res = .ok a) : (w >>= f).res = (f a).res := by
  obtain ⟨ws, r⟩ := w; subst h; rfl

/-- the number that is reported -/
def numText (s : Str) : Str := if contains c!"0x" (trim s) then remove0x (trim s) else trim s

section
variable {α β : Type} {x : Ctx} {p : Prop} {t : Str}

theorem reads_step {w : W α} {f : α → W β} {a : α} (h : w.res = .ok a) (h' : Reads x p t (f a)) : Reads x p t (w >>= f) := by
  unfold Reads; rw [bind_to h]; exact h'

theorem reads_then {w : W α} {f : α → W β} (h : Reads x p t w) (h' : ∀ a, ∃ i, (f a).res = .ok i) : Reads x p t (w >>= f) := by
  refine ⟨fun hp => ?_, fun hp => bind_err (h.2 hp)⟩
  obtain ⟨a, ha⟩ := h.1 hp
  rw [bind_to ha]; exact h' a

theorem reads_imm {ty : IntTy} {s : Str} {v : Int} (hl : NoNumLabel x.labels) (h : PNum s v) :
    Reads x (ty.min ≤ v ∧ v ≤ ty.max) (if contains c!"0x" (trim s) then remove0x (trim s) else trim s) (W.lift (parseImm x ty s)) := by
  rw [parseImm_num x ty hl h]
  refine ⟨fun hp => ?_, fun hp => ?_⟩
  · rw [if_pos hp]; exact ⟨_, rfl⟩
  · rw [if_neg hp]; rfl

theorem reads_mkI {op mn : Str} (hM : Mn op mn) {o : ITypeOp} (ho : ITypeOp.fromStr mn = some o) (rs rt : Register) {i : W Immediate}
    (h : Reads x p t i) : Reads x p t (mkI op rs rt i) := by
  unfold mkI
  rw [hM.opI ho]
  exact reads_step (a := o) rfl (reads_then h fun a => ⟨_, rfl⟩)

theorem mkI_ok {op mn : Str} (hM : Mn op mn) {o : ITypeOp} (ho : ITypeOp.fromStr mn = some o) (rs rt : Register) (i : Immediate) :
    ∃ r, (mkI op rs rt (pure i)).res = .ok r := by
  unfold mkI
  rw [hM.opI ho]
  exact ⟨_, rfl⟩

theorem bind_ok' {w : W α} {f : α → W β} {a : α} {i : β} (h : w.res = .ok a) (h' : (f a).res = .ok i) : ∃ i, (w >>= f).res = .ok i :=
  ⟨i, by rw [bind_to h]; exact h'⟩

theorem reads_i16 {s : Str} {v : Int} (hl : NoNumLabel x.labels) (h : PNum s v) :
    Reads x (-32768 ≤ v ∧ v ≤ 32767) (numText s) (W.lift (parseImm x .i16 s)) := reads_imm (ty := .i16) hl h
theorem reads_u16 {s : Str} {v : Int} (hl : NoNumLabel x.labels) (h : PNum s v) :
    Reads x (0 ≤ v ∧ v ≤ 65535) (numText s) (W.lift (parseImm x .u16 s)) := reads_imm (ty := .u16) hl h
theorem reads_u32 {s : Str} {v : Int} (hl : NoNumLabel x.labels) (h : PNum s v) :
    Reads x (0 ≤ v ∧ v ≤ 4294967295) (numText s) (W.lift (parseImm x .u32 s)) := reads_imm (ty := .u32) hl h
theorem reads_i64 {s : Str} {v : Int} (hl : NoNumLabel x.labels) (h : PNum s v) :
    Reads x (-9223372036854775808 ≤ v ∧ v ≤ 9223372036854775807) (numText s) (W.lift (parseImm x .i64 s)) := reads_imm (ty := .i64) hl h

theorem reads_congr {q : Prop} {w : W α} (h : p ↔ q) (h' : Reads x p t w) : Reads x q t w := by
  rw [← propext h]; exact h'

end

/-- mnemonics with a number as the last operand name immediate instructions, `break` and `syscall` register instructions -/
theorem sigs_op : ∀ e ∈ signatures, ∀ role, e.2.getLast? = some role → (range e.1 role).isSome = true →
    (if role = .code then (RTypeOp.fromStr e.1).isSome = true else (ITypeOp.fromStr e.1).isSome = true) ∧
    (classify e.1 = .arith → (role = .uimm ↔ e.1 ∈ Case.logicalNames)) ∧ (classify e.1 = .dli ↔ e.1 = c!"dli") := by
  decide +kernel

theorem trim_pnum {s : Str} {v : Int} (h : PNum s v) : PNum (trim s) v := by
  cases h with
  | mk p s q v hp hq h =>
    rw [trim_blank_tight p s q (blank_ws hp) (blank_ws hq) (num_tight h)]
    have := PNum.mk [] s [] v (fun c hc => by cases hc) (fun c hc => by cases hc) h
    simpa using this

theorem txt_trim (s : Str) : (if contains c!"0x" (trim (trim s)) then remove0x (trim (trim s)) else trim (trim s)) =
    (if contains c!"0x" (trim s) then remove0x (trim s) else trim s) := by rw [trim_trim]

theorem logical_iff {mn : Str} : mn ∈ Case.logicalNames ↔ mn = c!"andi" ∨ mn = c!"ori" ∨ mn = c!"xori" := by
  simp [Case.logicalNames]

theorem value_num {role : Role} {s : Str} {v : Int} (h : Value role s v) (hr : role ≠ .mem) : PNum s v := by
  cases h with
  | num _ _ _ _ h => exact h
  | mem => exact absurd rfl hr

theorem fine_gpr [Unicode] {s : Str} (h : Fine .gpr s) : ∃ r, ∀ x, (parseReg x s).res = .ok r := by
  obtain ⟨r, h⟩ := h; exact ⟨_, fun x => congrArg W.res (parseReg_ok x h)⟩
theorem fine_fpr [Unicode] {s : Str} (h : Fine .fpr s) : ∃ r, ∀ x, (parseFReg x s).res = .ok r := by
  obtain ⟨r, h⟩ := h; exact ⟨_, fun x => congrArg W.res (parseFReg_ok x h)⟩

theorem snoc1 {α} {r : List α} {x a : α} (h : r ++ [x] = [a]) : r = [] ∧ x = a := by
  cases r with
  | nil => cases h; exact ⟨rfl, rfl⟩
  | cons _ r => cases r <;> cases h
theorem snoc2 {α} {r : List α} {x a b : α} (h : r ++ [x] = [a, b]) : r = [a] ∧ x = b := by
  cases r with
  | nil => cases h
  | cons c r => injection h with h1 h2; obtain ⟨rfl, rfl⟩ := snoc1 h2; exact ⟨by rw [h1], rfl⟩
theorem snoc3 {α} {r : List α} {x a b c : α} (h : r ++ [x] = [a, b, c]) : r = [a, b] ∧ x = c := by
  cases r with
  | nil => cases h
  | cons c r => injection h with h1 h2; obtain ⟨rfl, rfl⟩ := snoc2 h2; exact ⟨by rw [h1], rfl⟩

section
variable [Unicode] {op mn : Str} {v lo hi : Int}

theorem value_mem {s : Str} (h : Value .mem s v) : ∃ o bt r, PNum o v ∧ baseText s = some bt ∧ Register.fromStr bt = .ok r ∧
    findOffset s = some (o ++ ['(']) := by
  cases h with
  | num _ _ _ h => exact absurd rfl h
  | mem o b q _ r ho hb hq =>
    have co := pnum_chars ho
    have cb := reg_chars gprCore_alnum hb
    have cq := blank_chars hq
    refine ⟨o, trim b, r.toFin, ho, ?_, gpr_fromStr (reg_trim gprCore_alnum hb), ?_⟩
    · exact baseText_mem o b q (fun c hc => (co.2 c hc).1) (fun c hc => ⟨(cb c hc).1, (cb c hc).2.1, (cb c hc).2.2.2⟩) (fun c hc => (cq c hc).1)
    · rw [findOffset_mem o b q (fun c hc => (co.2 c hc).2.2.2) (fun c hc => (cb c hc).1) (fun c hc => (cq c hc).1), if_neg co.1]

theorem num_li (hM : Mn op mn) {o : ITypeOp} (ho : ITypeOp.fromStr mn = some o) {a s : Str} (ha : Fine .gpr a) (hv : PNum s v) (arg : Str) :
    ∃ t, ∀ x, NoNumLabel x.labels → Reads x (0 ≤ v ∧ v ≤ 4294967295) t (parseLi x op arg [a, s]) := by
  obtain ⟨r, hr⟩ := fine_gpr ha
  by_cases h64 : (IntTy.i64).min ≤ v ∧ v ≤ (IntTy.i64).max
  · refine ⟨s, fun x hx => ?_⟩
    unfold parseLi
    refine reads_step (hr x) ?_
    rw [parseImm_num x .i64 hx hv, if_pos h64]
    refine reads_step (a := Immediate.new .i64 v) rfl ?_
    simp only [Immediate.new, Immediate.asU64]
    have e : (BitVec.ofInt 64 v).toNat = (v % 18446744073709551616).toNat := by rw [BitVec.toNat_ofInt]; rfl
    simp only [IntTy.min, IntTy.max] at h64
    rw [e]
    refine ⟨fun hp => ?_, fun hp => ?_⟩
    · rw [if_neg (by omega)]; exact mkI_ok hM ho _ _ _
    · rw [if_pos (by omega)]; rfl
  · refine ⟨numText s, fun x hx => ?_⟩
    unfold parseLi
    refine reads_step (hr x) ?_
    have : ¬ (0 ≤ v ∧ v ≤ 4294967295) := by simp only [IntTy.min, IntTy.max] at h64; omega
    exact ⟨fun h => absurd h this, fun _ => bind_err ((reads_imm hx hv).2 h64)⟩

set_option maxHeartbeats 4000000 in
theorem num_arm {roles : List Role} {role : Role} (hsig : (mn, roles ++ [role]) ∈ signatures) (hM : Mn op mn)
    (hlog : mn ∈ Case.logicalNames → op = mn) {texts : List Str} {s arg : Str} (harg : split ',' arg = texts ++ [s])
    (hlen : texts.length = roles.length) (hfine : ∀ (i : Nat) r t, roles[i]? = some r → texts[i]? = some t → Fine r t) (hv : Value role s v)
    (hr : range mn role = some (lo, hi)) :
    ∃ t, ∀ x, NoNumLabel x.labels → Reads x (lo ≤ v ∧ v ≤ hi) t (parseArm x (classify mn) op arg) := by
  obtain ⟨_, h2, h3, _⟩ := sigs_ok _ hsig
  obtain ⟨ho, hlu, hdli⟩ := sigs_op _ hsig role (by simp) (by rw [hr]; rfl)
  simp only at h2 h3 ho hlu hdli
  have hkey : trim (Unicode.lower op) = mn := hM.key
  have t1 : roles = [] → texts = [] := fun h => by subst h; simpa using hlen
  have t2 : ∀ a, roles = [a] → ∃ b, texts = [b] ∧ Fine a b := by
    rintro a rfl
    match texts, hlen with
    | [b], _ => exact ⟨b, rfl, hfine 0 _ _ rfl rfl⟩
  have t3 : ∀ a b, roles = [a, b] → ∃ c d, texts = [c, d] ∧ Fine a c ∧ Fine b d := by
    rintro a b rfl
    match texts, hlen with
    | [c, d], _ => exact ⟨c, d, rfl, hfine 0 _ _ rfl rfl, hfine 1 _ _ rfl rfl⟩
  unfold parseArm
  simp only [harg, hkey]
  cases hcls : classify mn <;> rw [hcls] at h2 <;> simp only [clsSigs, List.mem_cons, List.not_mem_nil, or_false] at h2
  case mem =>
    rcases h2 with h2 | h2
    · obtain ⟨rfl, rfl⟩ := snoc2 h2
      obtain ⟨b, rfl, hb⟩ := t2 _ rfl
      obtain ⟨r, hb⟩ := hb
      cases hr
      obtain ⟨p, ho⟩ := Option.isSome_iff_exists.1 (by simpa using ho)
      obtain ⟨o, bt, br, g1, g2, g3, g4⟩ := value_mem hv
      refine ⟨numText o, fun x hx => ?_⟩
      have : ¬ mn = c!"cache" := fun e => by have := h3.1 e; simp at this
      simp only [List.cons_append, List.nil_append, if_neg this, g2, g3, g4, gpr_fromStr hb, Res.unwrap, List.dropLast_concat]
      refine reads_step (a := r.toFin) rfl (reads_step (a := br) rfl (reads_mkI hM ho _ _ (reads_i16 hx g1)))
    · obtain ⟨rfl, rfl⟩ := snoc2 h2
      obtain ⟨b, rfl, n, hn, hb⟩ := t2 _ rfl
      cases hr
      obtain ⟨p, ho⟩ := Option.isSome_iff_exists.1 (by simpa using ho)
      obtain ⟨o, bt, br, g1, g2, g3, g4⟩ := value_mem hv
      refine ⟨numText o, fun x hx => ?_⟩
      have hc : mn = c!"cache" := h3.2 rfl
      simp only [List.cons_append, List.nil_append, if_pos hc, g2, g3, g4, Res.unwrap, List.dropLast_concat]
      rw [parseImm_num x .u16 hx hb, if_pos (by simp only [IntTy.min, IntTy.max]; omega)]
      have e : BitVec.setWidth 32 (BitVec.ofInt 16 (n : Int)) = BitVec.ofNat 32 n := by
        apply BitVec.eq_of_toNat_eq
        simp [BitVec.toNat_ofInt]; omega
      refine reads_step (a := ⟨n, hn⟩) ?_ (reads_step (a := br) rfl (reads_mkI hM ho _ _ (reads_i16 hx g1)))
      rw [bind_to (a := Immediate.new .u16 n) rfl]
      simp only [Immediate.new, Immediate.asU32, e, BitVec.toNat_ofNat]
      rw [Nat.mod_eq_of_lt (by omega)]
      simp only [Register.tryFrom, hn, dite_true, W.lift]
  case fmem =>
    obtain ⟨rfl, rfl⟩ := snoc2 h2
    obtain ⟨b, rfl, hb⟩ := t2 _ rfl
    obtain ⟨fr, hb⟩ := fine_fpr hb
    cases hr
    obtain ⟨p, ho⟩ := Option.isSome_iff_exists.1 (by simpa using ho)
    obtain ⟨o, bt, br, g1, g2, g3, g4⟩ := value_mem hv
    refine ⟨numText o, fun x hx => ?_⟩
    simp only [List.cons_append, List.nil_append, g2, g4]
    refine reads_step (hb x) (reads_step (a := br) (by simp only [parseReg, g3]; rfl) (reads_mkI hM ho _ _ ?_))
    have : removeOpenParen (o ++ ['(']) = o := by
      have co := (pnum_chars g1).2
      simp only [removeOpenParen, List.filter_append]
      rw [List.filter_eq_self.2 (fun c hc => by simpa using (co c hc).1)]
      simp
    rw [this]
    exact reads_i16 hx g1
  case arith =>
    have hl := hlu hcls
    rcases h2 with h2 | h2
    · obtain ⟨rfl, rfl⟩ := snoc3 h2
      obtain ⟨b, c, rfl, hb, hc⟩ := t3 _ _ rfl
      obtain ⟨r, hb⟩ := fine_gpr hb
      obtain ⟨r', hc⟩ := fine_gpr hc
      cases hr
      obtain ⟨p, ho⟩ := Option.isSome_iff_exists.1 (by simpa using ho)
      refine ⟨numText s, fun x hx => ?_⟩
      refine reads_step (hb x) (reads_step (hc x) ?_)
      have : ¬ (op = c!"andi" ∨ op = c!"ori" ∨ op = c!"xori") := by
        intro e
        have hn : mn ∈ Case.logicalNames := by
          rw [logical_iff]
          have := hM.same
          rcases e with rfl | rfl | rfl
          · exact .inl (this.symm.trans rfl)
          · exact .inr (.inl (this.symm.trans rfl))
          · exact .inr (.inr (this.symm.trans rfl))
        exact absurd (hl.2 hn) (by decide)
      simp only [if_neg this]
      exact reads_mkI hM ho _ _ (reads_i16 hx (value_num hv (by decide)))
    · obtain ⟨rfl, rfl⟩ := snoc3 h2
      obtain ⟨b, c, rfl, hb, hc⟩ := t3 _ _ rfl
      obtain ⟨r, hb⟩ := fine_gpr hb
      obtain ⟨r', hc⟩ := fine_gpr hc
      cases hr
      obtain ⟨p, ho⟩ := Option.isSome_iff_exists.1 (by simpa using ho)
      refine ⟨numText s, fun x hx => ?_⟩
      refine reads_step (hb x) (reads_step (hc x) ?_)
      have : op = c!"andi" ∨ op = c!"ori" ∨ op = c!"xori" := by
        have hn := hl.1 rfl
        rw [hlog hn]; exact logical_iff.1 hn
      simp only [if_pos this]
      exact reads_mkI hM ho _ _ (reads_u16 hx (value_num hv (by decide)))
  case lui =>
    obtain ⟨rfl, rfl⟩ := snoc2 h2
    obtain ⟨b, rfl, hb⟩ := t2 _ rfl
    obtain ⟨r, hb⟩ := fine_gpr hb
    cases hr
    obtain ⟨p, ho⟩ := Option.isSome_iff_exists.1 (by simpa using ho)
    exact ⟨numText s, fun x hx => reads_step (hb x) (reads_mkI hM ho _ _ (reads_u16 hx (value_num hv (by decide))))⟩
  case trapi =>
    obtain ⟨rfl, rfl⟩ := snoc2 h2
    obtain ⟨b, rfl, hb⟩ := t2 _ rfl
    obtain ⟨r, hb⟩ := fine_gpr hb
    cases hr
    obtain ⟨p, ho⟩ := Option.isSome_iff_exists.1 (by simpa using ho)
    exact ⟨numText s, fun x hx => reads_step (hb x) (reads_mkI hM ho _ _ (reads_i16 hx (value_num hv (by decide))))⟩
  case dli =>
    obtain ⟨rfl, rfl⟩ := snoc2 h2
    obtain ⟨b, rfl, hb⟩ := t2 _ rfl
    obtain ⟨r, hb⟩ := fine_gpr hb
    simp only [range, if_pos (hdli.1 hcls)] at hr
    cases hr
    obtain ⟨p, ho⟩ := Option.isSome_iff_exists.1 (by simpa using ho)
    exact ⟨numText s, fun x hx => reads_step (hb x) (reads_mkI hM ho _ _ (reads_i64 hx (value_num hv (by decide))))⟩
  case li | liu =>
    obtain ⟨rfl, rfl⟩ := snoc2 h2
    obtain ⟨b, rfl, hb⟩ := t2 _ rfl
    have : ¬ mn = c!"dli" := fun e => by rw [hdli.2 e] at hcls; cases hcls
    simp only [range, if_neg this] at hr
    cases hr
    obtain ⟨p, ho⟩ := Option.isSome_iff_exists.1 (by simpa using ho)
    exact num_li hM ho hb (value_num hv (by decide)) arg
  case br1 =>
    obtain ⟨rfl, rfl⟩ := snoc2 h2
    obtain ⟨b, rfl, hb⟩ := t2 _ rfl
    obtain ⟨r, hb⟩ := fine_gpr hb
    cases hr
    obtain ⟨p, ho⟩ := Option.isSome_iff_exists.1 (by simpa using ho)
    refine ⟨numText s, fun x hx => ?_⟩
    refine reads_step (delayCheck_res x) (reads_step (hb x) (reads_then (reads_u32 hx (value_num hv (by decide))) fun i => ?_))
    obtain ⟨k, hk⟩ := mkI_ok hM ho r Register.null i
    exact bind_ok' (alignCheck_res x i s) hk
  case br2 =>
    obtain ⟨rfl, rfl⟩ := snoc3 h2
    obtain ⟨b, c, rfl, hb, hc⟩ := t3 _ _ rfl
    obtain ⟨r, hb⟩ := fine_gpr hb
    obtain ⟨r', hc⟩ := fine_gpr hc
    cases hr
    obtain ⟨p, ho⟩ := Option.isSome_iff_exists.1 (by simpa using ho)
    refine ⟨numText s, fun x hx => ?_⟩
    refine reads_step (delayCheck_res x) (reads_step (hb x) (reads_step (hc x) (reads_then (reads_u32 hx (value_num hv (by decide))) fun i => ?_)))
    obtain ⟨k, hk⟩ := mkI_ok hM ho r r' i
    exact bind_ok' (alignCheck_res x i s) hk
  case b | bc =>
    obtain ⟨rfl, rfl⟩ := snoc1 h2
    obtain rfl := t1 rfl
    cases hr
    obtain ⟨p, ho⟩ := Option.isSome_iff_exists.1 (by simpa using ho)
    refine ⟨numText s, fun x hx => ?_⟩
    refine reads_step (delayCheck_res x) (reads_then (reads_u32 hx (value_num hv (by decide))) fun i => ?_)
    obtain ⟨k, hk⟩ := mkI_ok hM ho Register.null Register.null i
    exact bind_ok' (alignCheck_res x i s) hk
  case code =>
    obtain ⟨rfl, rfl⟩ := snoc1 h2
    obtain rfl := t1 rfl
    cases hr
    obtain ⟨p, ho⟩ := Option.isSome_iff_exists.1 (by simpa using ho)
    have hv := value_num hv (by decide)
    refine ⟨numText (trim s), fun x hx => ?_⟩
    have he : s.isEmpty = false := by
      have := (pnum_chars hv).1
      cases s <;> simp_all
    simp only [List.nil_append, he, hM.opR ho]
    by_cases hin : 0 ≤ v ∧ v ≤ 65535
    · refine ⟨fun _ => ?_, fun h => absurd hin h⟩
      rw [if_neg (by simp), parseImm_num x .u16 hx (trim_pnum hv), if_pos (show IntTy.u16.min ≤ v ∧ v ≤ IntTy.u16.max from hin)]
      exact ⟨_, rfl⟩
    · refine ⟨fun h => absurd h hin, fun _ => ?_⟩
      rw [if_neg (by simp)]
      exact bind_err ((reads_u16 hx (trim_pnum hv)).2 hin)
  all_goals first
    | (exact absurd h2 id; done)
    | (obtain ⟨rfl, rfl⟩ := snoc1 h2; cases hr; done)
    | (obtain ⟨rfl, rfl⟩ := snoc2 h2; cases hr; done)
    | (obtain ⟨rfl, rfl⟩ := snoc3 h2; cases hr; done)
    | (rcases h2 with h2 | h2 <;> first
        | (obtain ⟨rfl, rfl⟩ := snoc1 h2; cases hr; done)
        | (obtain ⟨rfl, rfl⟩ := snoc2 h2; cases hr; done)
        | (obtain ⟨rfl, rfl⟩ := snoc3 h2; cases hr; done))
end

/-! ### What may stand for a number -/

theorem imm_loose {x : Ctx} {ty : IntTy} {t : Str} {i : Immediate} (h : parseNum x ty t = .ok i) :
    ∃ v, Loose t v ∧ ty.min ≤ v ∧ v ≤ ty.max ∧ i = Immediate.new ty v := by
  unfold parseNum at h
  dsimp only at h
  split at h
  · rename_i hx
    split at h
    · rename_i v hv
      cases h
      obtain ⟨h1, h2, d, n, h3, h4, h5⟩ := fromStrRadix_inv hv
      have hd := parseDigits_hex_inv h3 h4
      refine ⟨v, ?_, h1, h2, rfl⟩
      rcases h5 with ⟨e, rfl⟩ | ⟨e, rfl⟩ | ⟨e, rfl, _⟩
      · exact .hex _ d n hx hd (.inl e)
      · exact .hex _ d n hx hd (.inr e)
      · exact .hexNeg _ d n hx hd e
    · cases h
  · rename_i hx
    have hx : contains c!"0x" t = false := by simpa using hx
    split at h
    · rename_i v hv
      cases h
      obtain ⟨h1, h2, d, n, h3, h4, h5⟩ := fromStrRadix_inv hv
      have hd := parseDigits_dec_inv h3 h4
      refine ⟨v, ?_, h1, h2, rfl⟩
      rcases h5 with ⟨e, rfl⟩ | ⟨e, rfl⟩ | ⟨e, rfl, _⟩
      · exact .dec _ d n hx hd (.inl e)
      · exact .dec _ d n hx hd (.inr e)
      · subst e; exact .decNeg d n hx hd
    · cases h

/-- what `parse_immediate` takes -/
theorem imm_taken {rt : Rt} {m : Mipsasm} {ls : List Str} {k : Nat} {raw : Str} {x : Ctx} (hx : SeenAt rt m ls k raw x) {ty : IntTy} {s : Str}
    {i : Immediate} (h : parseImm x ty s = .ok i) :
    (∃ v, Loose (trim s) v ∧ ty.min ≤ v ∧ v ≤ ty.max ∧ i = Immediate.new ty v) ∨
    (∃ l, isLocal (trim s) = true ∧ i = .localLabel l) ∨ (∃ d l, d < k ∧ Defines ls d (trim s) ∧ i = .label l) ∨
    ∃ t, (trim s = c!"%hi" ++ t ∨ trim s = c!"%lo" ++ t) ∧ '(' ∈ t := by
  unfold parseImm at h
  dsimp only at h
  split at h
  · rename_i hl; cases h; exact .inr (.inl ⟨_, hl, rfl⟩)
  · split at h
    · rename_i hl
      cases h
      simp only [hasLabel, List.any_eq_true, beq_iff_eq] at hl
      obtain ⟨e, he, hl⟩ := hl
      obtain ⟨d, hd, raw', h1, h2, _⟩ := hx.labels e he
      exact .inr (.inr (.inl ⟨d, _, hd, ⟨raw', h1, by rw [h2, hl]⟩, rfl⟩))
    · split at h
      · rename_i m' hm
        have hp : '(' ∈ trim s := by
          apply Classical.byContradiction
          intro hn
          unfold findImm at hm
          rw [Re.find_IMM_none _ hn] at hm; cases hm
        cases ht : parseTarget x (removeParens m') <;> rw [ht] at h <;> simp only [Res.bind] at h <;> try (cases h; done)
        split at h
        · cases h
        · rename_i p hpre
          obtain ⟨t, ht⟩ := takeBytes_prefix hpre
          have fin : p = c!"%hi" ∨ p = c!"%lo" → ∃ t, (trim s = c!"%hi" ++ t ∨ trim s = c!"%lo" ++ t) ∧ '(' ∈ t := by
            intro e
            rw [← ht] at hp
            rcases e with rfl | rfl
            · exact ⟨t, .inl ht.symm, by simpa using hp⟩
            · exact ⟨t, .inr ht.symm, by simpa using hp⟩
          split at h
          · rename_i e; exact .inr (.inr (.inr (fin (.inl e))))
          · split at h
            · rename_i e; exact .inr (.inr (.inr (fin (.inr e))))
            · cases h
      · exact .inl (imm_loose h)

section
variable {rt : Rt} {m : Mipsasm} {ls : List Str} {k : Nat} {raw : Str} {x : Ctx}

theorem need_imm (hx : SeenAt rt m ls k raw x) (ty : IntTy) (s : Str) : Need (NumberTaken ls k ty.min ty.max s) (W.lift (parseImm x ty s)) := by
  intro i h
  have h : parseImm x ty s = .ok i := h
  rcases imm_taken hx h with ⟨v, h1, h2, h3, _⟩ | ⟨l, h1, _⟩ | ⟨d, l, h1, h2, _⟩ | ⟨t, h1, h2⟩
  · exact .number v h1 h2 h3
  · exact .loc h1
  · exact .label d h1 h2
  · exact .half t h1 h2

theorem need_mkI {p : Prop} {op : Str} {rs rt : Register} {i : W Immediate} (h : Need p i) : Need p (mkI op rs rt i) :=
  need_right fun _ => need_left h

theorem need_if {α} {p : Prop} {c : Prop} [Decidable c] {a b : W α} (h1 : c → Need p a) (h2 : ¬ c → Need p b) : Need p (if c then a else b) := by
  split
  · exact h1 ‹_›
  · exact h2 ‹_›

theorem need_li [Unicode] (hx : SeenAt rt m ls k raw x) (op arg a s : Str) : Need (NumberTaken ls k 0 4294967295 s) (parseLi x op arg [a, s]) := by
  unfold parseLi
  refine need_right fun r i0 h => ?_
  obtain ⟨i, h1, h2, _⟩ := bind_ok h
  have h1 : parseImm x .i64 s = .ok i := h1
  rcases imm_taken hx h1 with ⟨v, h3, h4, h5, rfl⟩ | ⟨l, h3, rfl⟩ | ⟨d, l, h3, h4, rfl⟩ | ⟨t, h3, h4⟩
  · simp only [Immediate.new, Immediate.asU64] at h2
    have e : (BitVec.ofInt 64 v).toNat = (v % 18446744073709551616).toNat := by rw [BitVec.toNat_ofInt]; rfl
    simp only [IntTy.min, IntTy.max] at h4 h5
    rw [e] at h2
    split at h2
    · cases h2
    · exact .number v h3 (by omega) (by omega)
  · exact .loc h3
  · exact .label d h3 h4
  · exact .half t h3 h4

theorem taken_trim' {lo hi : Int} {s : Str} (h : NumberTaken ls k lo hi (trim s)) : NumberTaken ls k lo hi s := by
  cases h with
  | number v h1 h2 h3 => exact .number v (by rwa [trim_trim] at h1) h2 h3
  | loc h => exact .loc (by rwa [trim_trim] at h)
  | label d h1 h2 => exact .label d h1 (by rwa [trim_trim] at h2)
  | half t h1 h2 => exact .half t (by rwa [trim_trim] at h1) h2

theorem need_mono {α} {p q : Prop} {w : W α} (h : Need p w) (hpq : p → q) : Need q w := fun a ha => hpq (h a ha)

theorem need_cop [Unicode] (hx : SeenAt rt m ls k raw x) (s : Str) : Need (NumberTaken ls k 0 31 s) (do
          let i ← W.lift (parseImm x .u16 s)
          match i.asU32 with
          | none => W.panic
          | some v => W.lift (Res.unwrap (Register.tryFrom v.toNat)) : W Register) := by
  intro r h
  obtain ⟨i, h1, h2, _⟩ := bind_ok h
  have h1 : parseImm x .u16 s = .ok i := h1
  rcases imm_taken hx h1 with ⟨v, h3, h4, h5, rfl⟩ | ⟨l, h3, rfl⟩ | ⟨d, l, h3, h4, rfl⟩ | ⟨t, h3, h4⟩
  · simp only [Immediate.new, Immediate.asU32] at h2
    simp only [IntTy.min, IntTy.max] at h4 h5
    have e : (BitVec.setWidth 32 (BitVec.ofInt 16 v)).toNat = v.toNat := by
      simp [BitVec.toNat_ofInt]; omega
    rw [e] at h2
    refine .number v h3 h4 ?_
    unfold Register.tryFrom at h2
    split at h2
    · omega
    · cases h2
  · exact .loc h3
  · exact .label d h3 h4
  · exact .half t h3 h4

set_option maxHeartbeats 4000000 in
theorem num_need [Unicode] (hx : SeenAt rt m ls k raw x) {op mn : Str} {sig : List Role} (hsig : (mn, sig) ∈ signatures) (hM : Mn op mn)
    (hlog : mn ∈ Case.logicalNames → op = mn) {arg : Str} (hl : (split ',' arg).length = sig.length) {j : Nat} {role : Role} {s : Str}
    (hr : sig[j]? = some role) (hs : (split ',' arg)[j]? = some s) : Need (NumTakenAs ls k mn role s) (parseArm x (classify mn) op arg) := by
  obtain ⟨_, h2, h3, _⟩ := sigs_ok _ hsig
  have hso := sigs_op _ hsig
  simp only at h2 h3 hso
  have hkey : trim (Unicode.lower op) = mn := hM.key
  unfold parseArm
  revert hl hs
  generalize split ',' arg = args
  intro hl hs
  simp only [hkey]
  have l1 : ∀ (l : List Str), l.length = 1 → ∃ a, l = [a] := fun l h => List.length_eq_one_iff.1 h
  have l2 : ∀ (l : List Str), l.length = 2 → ∃ a b, l = [a, b] := fun l h => by
    match l, h with | [a, b], _ => exact ⟨a, b, rfl⟩
  have l3 : ∀ (l : List Str), l.length = 3 → ∃ a b c, l = [a, b, c] := fun l h => by
    match l, h with | [a, b, c], _ => exact ⟨a, b, c, rfl⟩
  have tr : ∀ {α : Type} {role : Role} {s : Str} {w : W α}, role = .gpr ∨ role = .fpr ∨ role = .c0 ∨ role = .shamt ∨ role = .target →
      Need (NumTakenAs ls k mn role s) w := by
    intro α role s w h i _
    rcases h with rfl | rfl | rfl | rfl | rfl <;> (intro lo hi h; cases h)
  have i16 : ∀ s, Need (NumberTaken ls k (-32768) 32767 s) (W.lift (parseImm x .i16 s)) := fun s => need_imm hx .i16 s
  have u16 : ∀ s, Need (NumberTaken ls k 0 65535 s) (W.lift (parseImm x .u16 s)) := fun s => need_imm hx .u16 s
  have u32 : ∀ s, Need (NumberTaken ls k 0 4294967295 s) (W.lift (parseImm x .u32 s)) := fun s => need_imm hx .u32 s
  have i64 : ∀ s, Need (NumberTaken ls k (-9223372036854775808) 9223372036854775807 s) (W.lift (parseImm x .i64 s)) := fun s => need_imm hx .i64 s
  have lift : ∀ {α : Type} {role : Role} {s : Str} {w : W α} {lo hi : Int}, role = .simm ∨ role = .uimm ∨ role = .addr ∨ role = .wide →
      range mn role = some (lo, hi) → Need (NumberTaken ls k lo hi s) w → Need (NumTakenAs ls k mn role s) w := by
    intro α role s w lo hi h h1 h2 i hi'
    have := h2 i hi'
    rcases h with rfl | rfl | rfl | rfl <;> (intro lo' hi' h'; rw [h1] at h'; cases h'; exact this)
  cases hcls : classify mn <;> rw [hcls] at h2 <;> simp only [clsSigs, List.mem_cons, List.not_mem_nil, or_false] at h2
  case mem =>
    have key : ∀ (r : Register) b, Need (NumTakenAs ls k mn .mem b) (match baseText b with
      | none => W.panic
      | some bt => do
        let base ← W.lift (Res.unwrap (Register.fromStr bt))
        match findOffset b with
        | some o => mkI op base r (W.lift (parseImm x .i16 o.dropLast))
        | none => mkI op base r (W.lift (parseImm x .i16 c!"0"))) := by
      intro r b a h o bb q hs' hnl ho hb hq
      have h' := h
      rw [hs', baseText_mem o bb q (fun c hc e => ho (e ▸ hc)) hb (fun c hc e => hq (e ▸ hc)),
        findOffset_mem o bb q (fun c hc e => hnl (e ▸ hc)) (fun c hc => (hb c hc).1) (fun c hc e => hq (e ▸ hc))] at h'
      by_cases h0 : o = []
      · exact .inl h0
      · rw [if_neg h0] at h'
        simp only [List.dropLast_concat] at h'
        exact .inr (need_right (fun _ => need_mkI (i16 o)) a h')
    rcases h2 with rfl | rfl
    · obtain ⟨a, b, rfl⟩ := l2 _ hl
      rcases j with _ | _ | j
      · cases hr; exact tr (.inl rfl)
      · cases hr; cases hs; exact need_right fun r => key r s
      · cases hr
    · obtain ⟨a, b, rfl⟩ := l2 _ hl
      rcases j with _ | _ | j
      · cases hr; cases hs
        have hc : mn = c!"cache" := h3.2 rfl
        simp only [if_pos hc]
        exact need_left (need_cop hx s)
      · cases hr; cases hs; exact need_right fun r => key r s
      · cases hr
  case fmem =>
    have key : ∀ (r : Register) b, Need (NumTakenAs ls k mn .mem b) (match baseText b with
      | none => W.panic
      | some bt => do
        let base ← parseReg x bt
        match findOffset b with
        | some o => mkI op base r (W.lift (parseImm x .i16 (removeOpenParen o)))
        | none => mkI op base r (W.lift (parseImm x .i16 c!"0"))) := by
      intro r b a h o bb q hs' hnl ho hb hq
      have h' := h
      rw [hs', baseText_mem o bb q (fun c hc e => ho (e ▸ hc)) hb (fun c hc e => hq (e ▸ hc)),
        findOffset_mem o bb q (fun c hc e => hnl (e ▸ hc)) (fun c hc => (hb c hc).1) (fun c hc e => hq (e ▸ hc))] at h'
      by_cases h0 : o = []
      · exact .inl h0
      · rw [if_neg h0] at h'
        have e : removeOpenParen (o ++ ['(']) = o := by
          simp only [removeOpenParen, List.filter_append]
          rw [List.filter_eq_self.2 (fun c hc => by simpa using fun (e : c = '(') => ho (e ▸ hc))]
          simp
        simp only [e] at h'
        exact .inr (need_right (fun _ => need_mkI (i16 o)) a h')
    subst h2
    obtain ⟨a, b, rfl⟩ := l2 _ hl
    rcases j with _ | _ | j
    · cases hr; exact tr (.inr (.inl rfl))
    · cases hr; cases hs; exact need_right fun r => key r s
    · cases hr
  case arith =>
    rcases h2 with rfl | rfl <;> obtain ⟨a, b, c, rfl⟩ := l3 _ hl
    · rcases j with _ | _ | _ | j
      · cases hr; exact tr (.inl rfl)
      · cases hr; exact tr (.inl rfl)
      · cases hr; cases hs
        have hlu := (hso .simm rfl rfl).2.1 hcls
        have : ¬ (op = c!"andi" ∨ op = c!"ori" ∨ op = c!"xori") := by
          intro e
          have hn : mn ∈ Case.logicalNames := by
            rw [logical_iff]
            have := hM.same
            rcases e with rfl | rfl | rfl
            · exact .inl (this.symm.trans rfl)
            · exact .inr (.inl (this.symm.trans rfl))
            · exact .inr (.inr (this.symm.trans rfl))
          exact absurd (hlu.2 hn) (by decide)
        simp only [if_neg this]
        exact lift (.inl rfl) rfl (need_right fun _ => need_right fun _ => need_mkI (i16 _))
      · cases hr
    · rcases j with _ | _ | _ | j
      · cases hr; exact tr (.inl rfl)
      · cases hr; exact tr (.inl rfl)
      · cases hr; cases hs
        have hlu := (hso .uimm rfl rfl).2.1 hcls
        have : op = c!"andi" ∨ op = c!"ori" ∨ op = c!"xori" := by
          have hn := hlu.1 rfl
          rw [hlog hn]; exact logical_iff.1 hn
        simp only [if_pos this]
        exact lift (.inr (.inl rfl)) rfl (need_right fun _ => need_right fun _ => need_mkI (u16 _))
      · cases hr
  case lui =>
    subst h2; obtain ⟨a, b, rfl⟩ := l2 _ hl
    rcases j with _ | _ | j
    · cases hr; exact tr (.inl rfl)
    · cases hr; cases hs; exact lift (.inr (.inl rfl)) rfl (need_right fun _ => need_mkI (u16 _))
    · cases hr
  case trapi =>
    subst h2; obtain ⟨a, b, rfl⟩ := l2 _ hl
    rcases j with _ | _ | j
    · cases hr; exact tr (.inl rfl)
    · cases hr; cases hs; exact lift (.inl rfl) rfl (need_right fun _ => need_mkI (i16 _))
    · cases hr
  case dli =>
    subst h2; obtain ⟨a, b, rfl⟩ := l2 _ hl
    rcases j with _ | _ | j
    · cases hr; exact tr (.inl rfl)
    · cases hr; cases hs
      have hd := ((hso .wide rfl (by simp only [range]; split <;> rfl)).2.2).1 hcls
      exact lift (.inr (.inr (.inr rfl))) (by simp only [range, if_pos hd]) (need_right fun _ => need_mkI (i64 _))
    · cases hr
  case li | liu =>
    subst h2; obtain ⟨a, b, rfl⟩ := l2 _ hl
    rcases j with _ | _ | j
    · cases hr; exact tr (.inl rfl)
    · cases hr; cases hs
      have hd : ¬ mn = c!"dli" := fun e => by
        have := ((hso .wide rfl (by simp only [range]; split <;> rfl)).2.2).2 e
        rw [hcls] at this; cases this
      exact lift (.inr (.inr (.inr rfl))) (by simp only [range, if_neg hd]) (need_li hx _ _ _ _)
    · cases hr
  case br1 =>
    subst h2; obtain ⟨a, b, rfl⟩ := l2 _ hl
    rcases j with _ | _ | j
    · cases hr; exact tr (.inl rfl)
    · cases hr; cases hs; exact lift (.inr (.inr (.inl rfl))) rfl (need_right fun _ => need_right fun _ => need_left (u32 _))
    · cases hr
  case br2 =>
    subst h2; obtain ⟨a, b, c, rfl⟩ := l3 _ hl
    rcases j with _ | _ | _ | j
    · cases hr; exact tr (.inl rfl)
    · cases hr; exact tr (.inl rfl)
    · cases hr; cases hs; exact lift (.inr (.inr (.inl rfl))) rfl (need_right fun _ => need_right fun _ => need_right fun _ => need_left (u32 _))
    · cases hr
  case b | bc =>
    subst h2; obtain ⟨a, rfl⟩ := l1 _ hl
    rcases j with _ | j
    · cases hr; cases hs; exact lift (.inr (.inr (.inl rfl))) rfl (need_right fun _ => need_left (u32 _))
    · cases hr
  case code =>
    subst h2; obtain ⟨a, rfl⟩ := l1 _ hl
    rcases j with _ | j
    · cases hr; cases hs
      simp only
      cases s with
      | nil => intro _ _; exact .inl rfl
      | cons c s =>
        rw [if_neg (by simp)]
        exact need_left (need_mono (u16 _) fun h => .inr (taken_trim' h))
    · cases hr
  all_goals first
    | (exact absurd h2 id; done)
    | skip
  all_goals first
    | subst h2
    | (rcases h2 with h2 | h2 <;> subst h2)
  all_goals
    rcases j with _ | _ | _ | j
    all_goals (cases hr <;> first | exact tr (.inl rfl) | exact tr (.inr (.inl rfl)) | exact tr (.inr (.inr (.inl rfl))) |
      exact tr (.inr (.inr (.inr (.inl rfl)))) | exact tr (.inr (.inr (.inr (.inr rfl)))))

end

/-! ### The theorems -/

theorem SeenAt.noNum {rt : Rt} {m : Mipsasm} {ls : List Str} {k : Nat} {raw : Str} {x : Ctx} (h : SeenAt rt m ls k raw x)
    (hn : NoNumeralLabel ls) : NoNumLabel x.labels := by
  intro e he v
  obtain ⟨d, hd, raw', h1, h2, h3⟩ := h.labels e he
  have hdef : Defines ls d e.1 := ⟨raw', h1, h2⟩
  have hlt : d < ls.length := (List.getElem?_eq_some_iff.1 h1).1
  have := defines_mem hdef h3 hlt
  rw [List.take_length] at this
  exact hn _ this v

theorem number_line [Unicode] {raw mn : Str} {role : Role} {v lo hi : Int} (h : NumberLine raw mn role v) (hr : range mn role = some (lo, hi)) :
    ∃ t, ∀ x, NoNumLabel x.labels → Reads x (lo ≤ v ∧ v ≤ hi) t (parseInst x (body raw)) := by
  obtain ⟨roles, texts, s, h1, h2, h3, h4, h5⟩ := h.ops
  have hM : Mn (firstWord (body raw)) mn := ⟨h.calls, (sigs_ok _ h1).1⟩
  obtain ⟨t, ht⟩ := num_arm h1 hM h.logical (arg := operandText (body raw)) h2 h3 h4 h5 hr
  refine ⟨t, fun x hx => ?_⟩
  rw [parseInst_eq x (kind_code_ne h.code), show mnemonic (body raw) = mn from hM.key]
  exact ht x hx

/-- an error of a single line that carries the number of line `k` comes from there -/
theorem reported_line [Unicode] {rt : Rt} {m : Mipsasm} {text : Str} {es : List ParserError} (h : (assemble rt m text).errors = some es)
    {k : Nat} {raw : Str} (hk : (lines text)[k]? = some raw) (hc : kind raw = .code) :
    ∃ x, SeenAt rt m (lines text) k raw x ∧ ∀ e, e.isRef = false → e.line.num = k + 1 → (e ∈ es ↔ (parseInst x (body raw)).res = .err e) := by
  obtain ⟨tr, out, hT, hes, hl, ha⟩ := assemble_errors h
  have hlt : k < (lines text).length := (List.getElem?_eq_some_iff.1 hk).1
  have hlt' : k < tr.length := by rw [hT.1]; exact hlt
  have hr := hT.2 k _ _ hk (List.getElem?_eq_getElem hlt')
  unfold lineRes at hr
  rw [hc] at hr
  simp only at hr
  refine ⟨_, seenAt hT hk, fun e he hn => ⟨fun hm => ?_, fun hp => ?_⟩⟩
  · rw [hes, List.mem_append] at hm
    rcases hm with hm | hm
    · obtain ⟨j, ws, hj⟩ := outErrors_get hm
      obtain ⟨raw', h1, h2, _⟩ := trace_err_line (env := envOf rt m text) hT hj
      rw [h2] at hn
      have hjk : j = k := by simpa using hn
      subst hjk
      rw [List.getElem?_eq_getElem hlt'] at hj
      rw [Option.some.inj hj] at hr
      exact (instRes_rejected hr).2
    · have := (ref_isRef hl ha e hm).1
      rw [he] at this; cases this
  · unfold instRes at hr
    rw [hp] at hr
    simp only [Option.some.injEq] at hr
    rw [hes, List.mem_append]
    left
    exact outErrors_mem (by rw [List.getElem?_eq_getElem hlt', ← hr])

/-- **C24**, the check.  If the last operand of an instruction line is a number (decimal, or hexadecimal with `0x`, with an optional
sign), the call complains about the number iff it is outside of the range of the operand: signed 16 bits for constants and offsets,
unsigned 16 bits for logical constants, `lui` and codes, unsigned 32 bits for branch addresses and `li`, signed 64 bits for `dli`.
(The registers in front are in regular spelling, `andi`, `ori`, `xori` are in lower case, no label of the file is spelled like a number, and the number is not `-0`.) -/
theorem C24_checked_partial [Unicode] (rt : Rt) (m : Mipsasm) (text : Str) {k : Nat} {raw mn : Str} {role : Role} {v lo hi : Int}
    (hk : (lines text)[k]? = some raw) (h : NumberLine raw mn role v) (hr : range mn role = some (lo, hi)) (hn : NoNumeralLabel (lines text))
    {es : List ParserError} (he : (assemble rt m text).errors = some es) :
    (∃ t, .invalidImmediate ⟨k + 1, raw⟩ t ∈ es) ↔ ¬ (lo ≤ v ∧ v ≤ hi) := by
  obtain ⟨x, hx, hmem⟩ := reported_line he hk h.code
  obtain ⟨t, ht⟩ := number_line h hr
  obtain ⟨h1, h2⟩ := ht x (hx.noNum hn)
  constructor
  · rintro ⟨t', ht'⟩ hin
    obtain ⟨i, hi⟩ := h1 hin
    have := (hmem _ rfl rfl).1 ht'
    rw [hi] at this; cases this
  · intro hout
    exact ⟨t, (hmem _ rfl rfl).2 (by rw [h2 hout, hx.line])⟩

/-- **C24**, no wrong number is assembled: in a program that assembles every such number is in its range. -/
theorem C24_no_truncation [Unicode] (rt : Rt) (m : Mipsasm) (text : Str) {ws : List Word} (h : (assemble rt m text).words = some ws)
    {k : Nat} {raw mn : Str} {role : Role} {v lo hi : Int}
    (hk : (lines text)[k]? = some raw) (hl : NumberLine raw mn role v) (hr : range mn role = some (lo, hi)) (hn : NoNumeralLabel (lines text)) :
    lo ≤ v ∧ v ≤ hi := by
  have he : (assemble rt m text).errors = some [] := by
    cases ha : assemble rt m text <;> rw [ha] at h <;> simp_all [AsmOut.words, AsmOut.errors]
  exact Classical.byContradiction fun hc => by
    obtain ⟨t, ht⟩ := (C24_checked_partial rt m text hk hl hr hn he).2 hc
    cases ht

theorem e_imm (o : BitVec 6) (rs rt : BitVec 5) (v : BitVec 16) : (Isa.iWord o rs rt v).extractLsb' 0 16 = v := fImm_i o rs rt v
theorem e_rt (o : BitVec 6) (rs rt : BitVec 5) (v : BitVec 16) : (Isa.iWord o rs rt v).extractLsb' 16 5 = rt := fRt_i o rs rt v
theorem e_sa (o : BitVec 6) (rs rt rd sa : BitVec 5) (f : BitVec 6) : (Isa.rWord o rs rt rd sa f).extractLsb' 6 5 = sa := fSa_r o rs rt rd sa f
theorem e_code (v : BitVec 20) (f : BitVec 6) : (0#6 ++ v ++ f).extractLsb' 6 20 = v := fCode_code f v

theorem place_field {c : Isa.Code} {y : Isa.Syn} {as : List Isa.Arg} {w : Word} (h : Isa.place c y as = some w) : ∀ a ∈ as, Field w a := by
  unfold Isa.place at h
  split at h
  all_goals first | (cases h; done) | skip
  all_goals
    simp only [Option.some.injEq] at h
    subst h
    simp only [List.mem_cons, List.not_mem_nil, or_false, forall_eq_or_imp, forall_eq, Field, e_imm, e_rt, e_sa, e_code, and_self, false_imp_iff, implies_true]

/-- **C24**, the encoding: the field of the instruction word that holds a number holds exactly the number that is written
(constants and offsets as two's complement numbers of 16 bits), for every native instruction in a program that assembles. -/
theorem C24_encoded [Unicode] (rt : Rt) (m : Mipsasm) (text : Str) (is : List Instruction) (warns : List ParserWarning)
    (h : assemble rt m text = .ok is warns) (k : Nat) (raw mn : Str) (as : List Isa.Arg) (w : Word)
    (hk : (lines text)[k]? = some raw) (hc : kind raw = .code) (hi : InstrText (body raw) mn as)
    (hw : Isa.encoding mn as = some w) (hn : NoNumeralLabel (lines text)) :
    (is[codeCount ((lines text).take k)]?).map Instruction.getBytes = some [w] ∧ ∀ a ∈ as, Field w a := by
  refine ⟨C01_line rt m text is warns h k raw mn as w hk hc hi hw hn, ?_⟩
  obtain ⟨r, _, _, hp⟩ := encoding_row hw
  exact place_field hp


/-- **C24**, nothing else is taken for a number.  In a program that assembles, wherever the mnemonic of a line asks for a number, the
operand is a number within the range (`Loose`: also with a plus sign, and with `0x` anywhere between the digits), a label, or `%hi`, `%lo` of an
address.  So any other text makes the call fail. -/
theorem C24_only_numbers [Unicode] (rt : Rt) (m : Mipsasm) (text : Str) {ws : List Word} (h : (assemble rt m text).words = some ws)
    {k : Nat} {raw : Str} (hk : (lines text)[k]? = some raw) (hc : kind raw = .code) {mn : Str} {sig : List Role}
    (hm : (mn, sig) ∈ signatures) (hmn : Names.Calls (body raw) mn) (hlog : mn ∈ Case.logicalNames → firstWord (body raw) = mn)
    (hl : Names.count (body raw) = sig.length)
    {i : Nat} {role : Role} {s : Str} (hr : sig[i]? = some role) (hs : (operands (body raw))[i]? = some s) :
    NumTakenAs (lines text) k mn role s := by
  obtain ⟨x, inst, hx, hp⟩ := line_ok h hk hc
  have hM : Mn (firstWord (body raw)) mn := ⟨hmn, (sigs_ok _ hm).1⟩
  rw [parseInst_eq x (kind_code_ne hc), show mnemonic (body raw) = mn from hM.key] at hp
  have hlen : (split ',' (operandText (body raw))).length = sig.length := by rw [split_length]; exact hl
  exact num_need hx hm hM hlog hlen hr hs _ hp


/-- **C24** fails where the conditions of `C24_checked_partial` do: a label spelled like a number takes its place; `-0` is not
accepted as an unsigned number; `0x` is dropped wherever it stands, so `1200x34` is read as 0x12034; `ANDI` in capitals rejects 0x8000 and
takes -1. -/
theorem C24_wrong :
    (@assemble asciiUnicode (idRt true) Mipsasm.new c!"-5:\naddi $t0, $t0, -5").words ≠
      (@assemble asciiUnicode (idRt true) Mipsasm.new c!"x:\naddi $t0, $t0, -5").words ∧
    (@assemble asciiUnicode (idRt true) Mipsasm.new c!"andi $t0, $t0, -0").errors.map List.length = some 1 ∧
    (@assemble asciiUnicode (idRt true) Mipsasm.new c!"li $t0, 1200x34").words = (@assemble asciiUnicode (idRt true) Mipsasm.new c!"li $t0, 0x12034").words ∧
    (@assemble asciiUnicode (idRt true) Mipsasm.new c!"ANDI $t0, $t0, 0x8000").errors.map List.length = some 1 ∧
    (@assemble asciiUnicode (idRt true) Mipsasm.new c!"ANDI $t0, $t0, -1").words = some [0x3108FFFF#32] := by decide +kernel

private theorem ex_line (v : Int) (s : Str) (hs : PNum s v) (hc : ',' ∉ s) (raw : Str) (hr : kind raw = .code) (hb : body raw = c!"lw $t0, " ++ s ++ c!"($sp)") :
    operands (body raw) = [c!"$t0", c!" " ++ s ++ c!"($sp)"] → NumberLine raw c!"lw" .mem v := by
  intro ho
  refine ⟨hr, ?_, fun h => absurd h (by decide), [.gpr], [c!"$t0"], c!" " ++ s ++ c!"($sp)", by decide +kernel, ho, rfl, ?_, ?_⟩
  · show SameName (firstWord (body raw)) _
    rw [hb]; rfl
  · intro i r t h1 h2
    match i with
    | 0 => cases h1; cases h2; exact ⟨8, .dollar [] c!"t0" [] 8 (fun c h => by cases h) (fun c h => by cases h) (.name _ _ _ rfl rfl)⟩
    | i + 1 => cases h1
  · have : PNum (c!" " ++ s) v := by
      cases hs with
      | mk p s q v hp hq h =>
        have := PNum.mk (' ' :: p) s q v (fun c hc => by
          rcases List.mem_cons.1 hc with rfl | hc
          · decide
          · exact hp c hc) hq h
        simpa using this
    have h2 := Value.mem (c!" " ++ s) c!"$sp" [] v 29 this
      (.dollar [] c!"sp" [] 29 (fun c h => by cases h) (fun c h => by cases h) (.name _ _ _ rfl rfl)) (fun c h => by cases h)
    simpa using h2

/-- The hypotheses are met: `lw $t0, 40000($sp)` has the number 40000, which is out of range. -/
example : NumberLine c!"  lw $t0, 40000($sp)" c!"lw" .mem 40000 ∧ range c!"lw" .mem = some (-32768, 32767) :=
  ⟨ex_line 40000 c!"40000" (PNum.mk [] c!"40000" [] 40000 (fun c h => by cases h) (fun c h => by cases h)
      (.pos c!"40000" 40000 (.dec _ _ (parseDigits_dec_inv (by decide) (by decide))))) (by decide) _ (by decide +kernel) (by decide +kernel) (by decide +kernel), rfl⟩

end Mips
