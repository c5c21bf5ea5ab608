/- C30: programs on which `assemble` returns. -/
import Verif.Spec.Tame
import Verif.Props.Shift
import Verif.Props.Count
import Verif.Props.Opcode
import Verif.Props.HiLo
import Verif.Props.Shown
import Verif.Props.CmpBranch

namespace Mips
open Source Syntax Branch Operands HiLo Isa
open Mips.Names hiding none

/-- The computation does not panic. -/
def Np {α : Type} (w : W α) : Prop := w.res ≠ .panic

theorem np_bind {α β} {w : W α} {f : α → W β} (h : Np w) (hf : ∀ a, w.res = .ok a → Np (f a)) : Np (w >>= f) := by
  unfold Np at *
  cases w with
  | mk ws r =>
    cases r with
    | ok a => exact hf a rfl
    | err e => intro h; cases h
    | panic => exact absurd rfl h
theorem np_bind' {α β} {w : W α} {f : α → W β} (h : Np w) (hf : ∀ a, Np (f a)) : Np (w >>= f) := np_bind h fun a _ => hf a
theorem np_pure {α} {a : α} : Np (pure a : W α) := by intro h; cases h
theorem np_fail {α} {e : ParserError} : Np (W.fail e : W α) := by intro h; cases h
theorem np_bad {α} {x : Ctx} {s : Str} {m n : Nat} : Np (badCount x s m n : W α) := np_fail
theorem np_warn {w : ParserWarning} : Np (W.warn w) := by intro h; cases h
theorem np_delay {x : Ctx} : Np (delayCheck x) := by
  unfold delayCheck; split
  · exact np_warn
  · exact np_pure
theorem np_align {x : Ctx} {i : Immediate} {s : Str} : Np (alignCheck x i s) := by
  unfold alignCheck; split
  · exact np_pure
  · split
    · exact np_warn
    · exact np_pure
theorem np_lift {α} {r : Res ParserError α} (h : r ≠ .panic) : Np (W.lift r) := h

theorem np_fpr [Unicode] {x : Ctx} {s : Str} : Np (parseFReg x s) := by
  intro h
  unfold parseFReg at h
  have : FloatRegister.fromStr s ≠ .panic := by
    unfold FloatRegister.fromStr FloatRegister.tryFrom
    dsimp only
    repeat' split
    all_goals intro h; cases h
  cases hs : FloatRegister.fromStr s <;> rw [hs] at h <;> first | exact this hs | cases h
theorem np_c0 [Unicode] {x : Ctx} {s : Str} : Np (parseCReg x s) := by
  intro h
  unfold parseCReg at h
  have : Cop0Register.fromStr s ≠ .panic := by
    unfold Cop0Register.fromStr Cop0Register.tryFrom
    dsimp only
    repeat' split
    all_goals intro h; cases h
  cases hs : Cop0Register.fromStr s <;> rw [hs] at h <;> first | exact this hs | cases h
theorem np_gpr [Unicode] {x : Ctx} {s : Str} (h : Regular .gpr s ∨ ¬ RDigit s) : Np (parseReg x s) := by
  rcases h with ⟨r, h⟩ | h
  · rw [parseReg_ok x h]; intro h; cases h
  · intro e
    unfold parseReg at e
    have := gpr_noPanic h
    cases hs : Register.fromStr s <;> rw [hs] at e <;> first | exact this hs | cases e
theorem np_gpr' [Unicode] {s : Str} (h : Regular .gpr s) : Np (W.lift (Res.unwrap (Register.fromStr s)) : W Register) := by
  obtain ⟨r, h⟩ := h
  rw [gpr_fromStr h]; intro h; cases h

theorem rdigit_trim [Unicode] {b : Str} (h : RDigit (trim b)) : RDigit b := by
  obtain ⟨a, d, c, e, hd⟩ := h
  obtain ⟨p, q, e1, _, _⟩ := trim_decomp b
  exact ⟨p ++ a, d, c ++ q, by rw [e1, e]; simp, hd⟩

theorem regular_trim [Unicode] {b : Str} (h : Regular .gpr b) : Regular .gpr (trim b) := by
  obtain ⟨r, h⟩ := h; exact ⟨r, reg_trim gprCore_alnum h⟩

theorem paren_trim {s : Str} (h : '(' ∉ s) : '(' ∉ trim s := by
  obtain ⟨p, q, e, _, _⟩ := trim_decomp s
  intro hc; apply h; rw [e]; simp [hc]

theorem parseNum_np {x : Ctx} {ty : IntTy} {s : Str} : parseNum x ty s ≠ .panic := by
  unfold parseNum
  dsimp only
  repeat' split
  all_goals intro h; cases h

theorem parseImm_np {x : Ctx} {ty : IntTy} {s : Str} (h : '(' ∉ s) : parseImm x ty s ≠ .panic := by
  unfold parseImm
  dsimp only
  have hf : findImm (trim s) = none := by unfold findImm; rw [Re.find_IMM_none _ (paren_trim h)]; rfl
  rw [hf]
  split
  · intro h; cases h
  · split
    · intro h; cases h
    · exact parseNum_np

theorem SeenAt.noParen {rt : Rt} {m : Mipsasm} {ls : List Str} {k : Nat} {raw : Str} {x : Ctx} (h : SeenAt rt m ls k raw x)
    (hn : NoParenLabel ls) : NoParen x.labels := by
  intro e he
  obtain ⟨d, _, raw', h1, h2, h3⟩ := h.labels e he
  have hd := (List.getElem?_eq_some_iff.1 h1).1
  have := defines_mem (k := ls.length) ⟨raw', h1, h2⟩ h3 hd
  rw [List.take_length] at this
  have := hn _ this
  exact this


/-- the operand is readable at line `k` -/
theorem SeenAt.imm_np {rt : Rt} {m : Mipsasm} {ls : List Str} {k : Nat} {raw : Str} {x : Ctx} (h : SeenAt rt m ls k raw x) {ty : IntTy}
    {s : Str} (hc : Tame.Const ⟨rt.ovf, m.syms, ls, k⟩ s) : parseImm x ty s ≠ .panic := by
  rcases hc with hc | ⟨f, a, hf, hh, hv, hn, hp⟩
  · exact parseImm_np hc
  · rw [parseImm_half x ty hf (h.noParen hp) (by rw [h.syms]; exact hn) (by rw [h.syms]; exact hh)]
    split
    · rename_i hf'
      have hv := hv hf'
      have : ∃ v, hiOf x.ovf a = some v := by
        rw [h.ovf]
        simp only at hv
        cases ho : rt.ovf with
        | false => unfold hiOf chkAdd; simp
        | true =>
          rw [hiOf_checked, if_pos (hv ho)]
          unfold hiOf chkAdd; simp
      obtain ⟨v, hv⟩ := this
      rw [hv]; intro h; cases h
    · intro h; cases h

theorem SeenAt.notLabel {rt : Rt} {m : Mipsasm} {ls : List Str} {k : Nat} {raw : Str} {x : Ctx} (h : SeenAt rt m ls k raw x) {s : Str}
    (hc : Tame.NotLabel ⟨rt.ovf, m.syms, ls, k⟩ s) : startsWith c!"@@" (trim s) = false ∧ hasLabel x.labels (trim s) = false := by
  refine ⟨hc.1, ?_⟩
  rw [Bool.eq_false_iff]
  intro hh
  simp only [hasLabel, List.any_eq_true, beq_iff_eq] at hh
  obtain ⟨e, he, e1⟩ := hh
  obtain ⟨d, hd, raw', h1, h2, h3⟩ := h.labels e he
  exact hc.2 d hd ⟨raw', h1, by rw [h2, e1]⟩

theorem parseNum_asU {x : Ctx} {ty : IntTy} {s : Str} {i : Immediate} (h : parseNum x ty s = .ok i) : (∃ v, i.asU32 = some v) ∧ ∃ v, i.asU64 = some v := by
  have key : ∀ v, (∃ w, (Immediate.new ty v).asU32 = some w) ∧ ∃ w, (Immediate.new ty v).asU64 = some w := by
    intro v; cases ty <;> exact ⟨⟨_, rfl⟩, ⟨_, rfl⟩⟩
  unfold parseNum at h
  dsimp only at h
  split at h <;> split at h <;> cases h <;> exact key _

/-- a constant that is not a label has a value -/
theorem parseImm_asU {x : Ctx} {ty : IntTy} {s : Str} {i : Immediate} (h1 : startsWith c!"@@" (trim s) = false) (h2 : hasLabel x.labels (trim s) = false)
    (h : parseImm x ty s = .ok i) : (∃ v, i.asU32 = some v) ∧ ∃ v, i.asU64 = some v := by
  unfold parseImm at h
  dsimp only at h
  rw [if_neg (by simp [h1]), if_neg (by simp [h2])] at h
  split at h
  · cases hp : parseTarget x (removeParens _) with
    | panic => rw [hp] at h; cases h
    | err e => rw [hp] at h; cases h
    | ok t =>
      rw [hp] at h
      simp only [Res.bind] at h
      split at h
      · cases h
      · split at h
        · split at h
          · cases h
          · split at h
            · cases h
            · cases h; exact ⟨⟨_, rfl⟩, ⟨_, rfl⟩⟩
        · split at h
          · split at h
            · cases h
            · cases h; exact ⟨⟨_, rfl⟩, ⟨_, rfl⟩⟩
          · cases h
  · exact parseNum_asU h

/-- a numeral that is not a label -/
theorem parseImm_num' (x : Ctx) (ty : IntTy) {s : Str} {v : Int} (h2 : hasLabel x.labels (trim s) = false) (h : PNum s v) :
    parseImm x ty s = if ty.min ≤ v ∧ v ≤ ty.max then .ok (Immediate.new ty v)
      else .err (.invalidImmediate x.line (if contains c!"0x" (trim s) then remove0x (trim s) else trim s)) := by
  have e : parseImm x ty s = parseImm { x with labels := [] } ty s := by
    unfold parseImm
    dsimp only
    rw [h2]
    rfl
  rw [e, parseImm_num { x with labels := [] } ty (fun e he => by cases he) h]
  rfl

/-! ### the arms -/

theorem np_opI {op mn : Str} (h : Mn op mn) (he : (ITypeOp.fromStr mn).isSome = true) : Np (opI op) := by
  obtain ⟨o, ho⟩ := Option.isSome_iff_exists.1 he
  rw [h.opI ho]; intro h; cases h
theorem np_opR {op mn : Str} (h : Mn op mn) (he : (RTypeOp.fromStr mn).isSome = true) : Np (opR op) := by
  obtain ⟨o, ho⟩ := Option.isSome_iff_exists.1 he
  rw [h.opR ho]; intro h; cases h
theorem np_opJ {op mn : Str} (h : Mn op mn) (he : (JTypeOp.fromStr mn).isSome = true) : Np (opJ op) := by
  obtain ⟨o, ho⟩ := Option.isSome_iff_exists.1 he
  rw [h.opJ ho]; intro h; cases h

/-- The operation each mnemonic needs exists. -/
def opExists (mn : Str) : Bool :=
  match classify mn with
  | .mem | .arith | .lui | .trapi | .br1 | .br2 | .b | .li | .liu | .dli | .bc | .fmem => (ITypeOp.fromStr mn).isSome
  | .jump => (JTypeOp.fromStr mn).isSome
  | .other => if startsWith c!"c." (mn.take (mn.length - 2)) then
      ((mn.getLast?.map fun c => (RTypeOp.fromStr (c!"C." ++ [c])).isSome) == some true) && (split '.' mn)[1]?.isSome
    else (RTypeOp.fromStr mn).isSome
  | _ => (RTypeOp.fromStr mn).isSome

theorem ops_exist : ∀ e ∈ signatures, opExists e.1 = true ∧ (e.1 = c!"dli" ↔ classify e.1 = .dli) := by decide +kernel

theorem np_mkI {op mn : Str} (h : Mn op mn) (he : (ITypeOp.fromStr mn).isSome = true) {a b : Register} {w : W Immediate} (hw : Np w) :
    Np (mkI op a b w) := np_bind' (np_opI h he) fun _ => np_bind' hw fun _ => np_pure
theorem np_mkR {op mn : Str} (h : Mn op mn) (he : (RTypeOp.fromStr mn).isSome = true) {a b c : Register} :
    Np (mkR op a b c) := np_bind' (np_opR h he) fun _ => np_pure

theorem np_target {x : Ctx} {s : Str} (h : ∃ c t, s = c :: t ∧ isAscii c = true) : parseTarget x s ≠ .panic := by
  obtain ⟨c, t, rfl, hc⟩ := h
  have : takeBytes (c :: t) 1 = some [c] := by
    have hlen : c.utf8Size = 1 := by
      have := byteLen_ascii [c] (by simp [hc])
      simpa [byteLen] using this
    simp [takeBytes, hlen]
  unfold parseTarget
  rw [this]
  dsimp only
  repeat' split
  all_goals first | (intro h; cases h; done) | skip

theorem half_nl {syms : List (BitVec 32 × Str)} {x : Ctx} {ty : IntTy} {o : Str} {a : Word} (hp : NoParen x.labels)
    (hn : (x.syms.map (·.2)).Nodup) (hs : x.syms = syms) (h : Half syms c!"%lo" o a) : parseImm x ty o ≠ .panic := by
  rw [parseImm_half x ty (.inr rfl) hp hn (by rw [hs]; exact h), if_neg (by decide)]
  intro h; cases h

theorem dropLast_snoc (o : Str) : (o ++ ['(']).dropLast = o := by simp

/-- loads and stores of general registers, and `cache` -/
theorem np_mem [Unicode] {rt : Rt} {m : Mipsasm} {ls : List Str} {k : Nat} {raw : Str} {x : Ctx} (h : SeenAt rt m ls k raw x) {op mn s : Str}
    (hM : Mn op mn) (he : (ITypeOp.fromStr mn).isSome = true) (hm : mn ∈ memNames) (hnl : '\n' ∉ s)
    (hs : Tame.Operand ⟨rt.ovf, m.syms, ls, k⟩ mn .mem s) (p : Register) :
    Np (match baseText s with
      | none => W.panic
      | some bt => do
        let base ← W.lift (Res.unwrap (Register.fromStr bt))
        match findOffset s with
        | some o => mkI op base p (W.lift (parseImm x .i16 o.dropLast))
        | none => mkI op base p (W.lift (parseImm x .i16 c!"0"))) := by
  obtain ⟨o, b, q, rfl, hb, hq, hreg, ho⟩ := hs
  simp only [List.mem_append, List.mem_cons, not_or] at hnl
  have hr : Regular .gpr b := by
    rcases hreg with h | h
    · exact h
    · exact absurd hm h.1
  have hb' : ∀ c ∈ b, c ≠ '(' ∧ c ≠ ')' ∧ c ≠ '\n' := fun c hc => ⟨(hb c hc).1, (hb c hc).2, fun e => hnl.1.2.2 (e ▸ hc)⟩
  have hq' : ∀ c ∈ q, c ≠ '(' := fun c hc e => hq (e ▸ hc)
  have hbt : baseText (o ++ '(' :: b ++ ')' :: q) = some (trim b) := by
    rcases ho with ho | ⟨_, ⟨a, ho⟩, _⟩
    · exact baseText_mem o b q (fun c hc e => ho (e ▸ hc)) hb' hq'
    · exact baseText_half ho hb' hq'
  rw [hbt, findOffset_mem o b q (fun c hc e => hnl.1.1 (e ▸ hc)) (fun c hc => (hb c hc).1) hq']
  refine np_bind' (np_gpr' (regular_trim hr)) fun base => ?_
  split
  · rename_i o' ho'
    split at ho'
    · cases ho'
    · cases ho'
      rw [dropLast_snoc]
      refine np_mkI hM he (np_lift ?_)
      rcases ho with ho | ⟨_, ⟨a, ho⟩, hn, hp⟩
      · exact parseImm_np ho
      · exact half_nl (h.noParen hp) (by rw [h.syms]; exact hn) h.syms ho
  · exact np_mkI hM he (np_lift (parseImm_np (by decide)))

/-- loads and stores of floating-point registers -/
theorem np_fmem [Unicode] {x : Ctx} {op mn s : Str} {p' : Tame.Place}
    (hM : Mn op mn) (he : (ITypeOp.fromStr mn).isSome = true) (hm : mn ∉ memNames) (hnl : '\n' ∉ s)
    (hs : Tame.Operand p' mn .mem s) (p : Register) :
    Np (match baseText s with
      | none => W.panic
      | some bt => do
        let base ← parseReg x bt
        match findOffset s with
        | some o => mkI op base p (W.lift (parseImm x .i16 (removeOpenParen o)))
        | none => mkI op base p (W.lift (parseImm x .i16 c!"0"))) := by
  obtain ⟨o, b, q, rfl, hb, hq, hreg, ho⟩ := hs
  simp only [List.mem_append, List.mem_cons, not_or] at hnl
  have hb' : ∀ c ∈ b, c ≠ '(' ∧ c ≠ ')' ∧ c ≠ '\n' := fun c hc => ⟨(hb c hc).1, (hb c hc).2, fun e => hnl.1.2.2 (e ▸ hc)⟩
  have hq' : ∀ c ∈ q, c ≠ '(' := fun c hc e => hq (e ▸ hc)
  have ho : '(' ∉ o := by
    rcases ho with ho | ho
    · exact ho
    · exact absurd ho.1 hm
  rw [baseText_mem o b q (fun c hc e => ho (e ▸ hc)) hb' hq', findOffset_mem o b q (fun c hc e => hnl.1.1 (e ▸ hc)) (fun c hc => (hb c hc).1) hq']
  refine np_bind' (np_gpr ?_) fun base => ?_
  · rcases hreg with h | h
    · exact .inl (regular_trim h)
    · exact .inr fun hd => h.2 (rdigit_trim hd)
  · split
    · rename_i o' ho'
      split at ho'
      · cases ho'
      · cases ho'
        refine np_mkI hM he (np_lift (parseImm_np ?_))
        unfold removeOpenParen
        simp [List.mem_filter]
    · exact np_mkI hM he (np_lift (parseImm_np (by decide)))

set_option maxHeartbeats 4000000 in
theorem arm_np [Unicode] {rt : Rt} {m : Mipsasm} {ls : List Str} {k : Nat} {raw : Str} {x : Ctx} (h : SeenAt rt m ls k raw x) {op mn : Str}
    (hM : Mn op mn) {sig : List Role} (hm : (mn, sig) ∈ signatures) {arg : Str}
    (hl : (split ',' arg).length = sig.length) (hnl : ∀ s ∈ split ',' arg, '\n' ∉ s)
    (ho : ∀ (i : Nat) role s, sig[i]? = some role → (split ',' arg)[i]? = some s → Tame.Operand ⟨rt.ovf, m.syms, ls, k⟩ mn role s) :
    Np (parseArm x (classify mn) op arg) := by
  obtain ⟨h1, hsig, h3, h4, h5⟩ := sigs_ok _ hm
  obtain ⟨he, hdli⟩ := ops_exist _ hm
  simp only at h1 hsig h3 h4 h5 he hdli
  unfold opExists at he
  unfold parseArm
  revert hl hnl ho
  generalize split ',' arg = args
  intro hl hnl ho
  have l1 : ∀ (l : List Str), l.length = 1 → ∃ a, l = [a] := fun l h => List.length_eq_one_iff.1 h
  have l2 : ∀ (l : List Str), l.length = 2 → ∃ a b, l = [a, b] := fun l h => by
    match l, h with | [a, b], _ => exact ⟨a, b, rfl⟩
  have l3 : ∀ (l : List Str), l.length = 3 → ∃ a b c, l = [a, b, c] := fun l h => by
    match l, h with | [a, b, c], _ => exact ⟨a, b, c, rfl⟩
  have gpr : ∀ {s : Str}, Tame.Operand ⟨rt.ovf, m.syms, ls, k⟩ mn .gpr s → Np (parseReg x s) := by
    intro s hs
    rcases hs with hs | hs
    · exact np_gpr (.inl hs)
    · exact np_gpr (.inr hs.2)
  have imm : ∀ {ty : IntTy} {s : Str}, Tame.Const ⟨rt.ovf, m.syms, ls, k⟩ s → Np (W.lift (parseImm x ty s)) := fun hs => h.imm_np hs
  have hkey : trim (Unicode.lower op) = mn := hM.key
  generalize hC : classify mn = cls at *
  cases cls <;> simp only [clsSigs, List.mem_cons, List.not_mem_nil, or_false] at hsig <;> simp only at he
  case mem =>
    have hmem := h4.1 rfl
    rcases hsig with rfl | rfl
    · obtain ⟨a, b, rfl⟩ := l2 _ hl
      have o0 := ho 0 _ _ rfl rfl
      have o1 := ho 1 _ _ rfl rfl
      have nc : trim (Unicode.lower op) ≠ c!"cache" := by rw [hkey]; intro e; exact absurd (h3.1 e) (by decide)
      simp only [if_neg nc]
      refine np_bind' (np_gpr' ?_) fun r => np_mem h hM he hmem (hnl _ (by simp)) o1 r
      rcases o0 with o0 | o0
      · exact o0
      · exact absurd hmem o0.1
    · obtain ⟨a, b, rfl⟩ := l2 _ hl
      have o0 := ho 0 _ _ rfl rfl
      have o1 := ho 1 _ _ rfl rfl
      have nc : trim (Unicode.lower op) = c!"cache" := by rw [hkey]; exact h3.2 rfl
      simp only [if_pos nc]
      refine np_bind' ?_ fun r => np_mem h hM he hmem (hnl _ (by simp)) o1 r
      obtain ⟨⟨v, hv, hr⟩, hn⟩ := o0
      have hlab := (h.notLabel hn).2
      have hp := parseImm_num' x .u16 hlab hv
      by_cases hin : IntTy.u16.min ≤ v ∧ v ≤ IntTy.u16.max
      · rw [if_pos hin] at hp
        rw [hp]
        have hv2 : 0 ≤ v ∧ v ≤ 65535 := hin
        obtain ⟨n, rfl⟩ := Int.eq_ofNat_of_zero_le hv2.1
        have hn32 : n < 32 := by omega
        have : ((Immediate.new .u16 (n : Int)).asU32) = some (BitVec.ofNat 32 n) := by
          simp only [Immediate.new, Immediate.asU32, Option.some.injEq]
          apply BitVec.eq_of_toNat_eq
          simp [BitVec.ofInt_natCast]
          omega
        refine np_bind (fun h => by cases h) fun i hi => ?_
        cases hi
        rw [this]
        have hr : Register.tryFrom (BitVec.ofNat 32 n).toNat = .ok ⟨n, hn32⟩ := by
          have : (BitVec.ofNat 32 n).toNat = n := by rw [BitVec.toNat_ofNat]; omega
          rw [this]; simp [Register.tryFrom, hn32]
        simp only [hr]; intro h; cases h
      · rw [if_neg hin] at hp
        rw [hp]
        exact np_bind (fun h => by cases h) fun i hi => by cases hi
  case fmem =>
    subst hsig
    obtain ⟨a, b, rfl⟩ := l2 _ hl
    have hmem : mn ∉ memNames := fun e => absurd (h4.2 e) (by decide)
    exact np_bind' np_fpr fun r => np_fmem hM he hmem (hnl _ (by simp)) (ho 1 _ _ rfl rfl) r
  case other =>
    obtain ⟨g2, hst⟩ := h5 rfl
    have ha : ∀ c ∈ mn, isAscii c = true := fun c hc => ((mn_all hM.ok).2.1 c hc).1
    have ha' : ∀ c ∈ op, isAscii c = true := sameName_ascii hM.same ha
    have hle : op.length = mn.length := by rw [← hM.same, List.length_map]
    simp only [parseFloat, hM.lower, byteLen_ascii op ha', hle, if_neg (Nat.not_lt.2 g2), takeBytes_ascii mn ha _ (Nat.sub_le _ _)]
    revert hst he
    generalize mn.take (mn.length - 2) = e
    intro he hst
    have hR : startsWith c!"c." e = false → (RTypeOp.fromStr mn).isSome = true := by
      intro hh; rwa [if_neg (by simp [hh])] at he
    split
    · rename_i c1
      have hR := hR (by
        simp only [List.contains_eq_mem, decide_eq_true_eq] at c1
        have : ∀ e ∈ [c!"add", c!"sub", c!"mul", c!"div"], startsWith c!"c." e = false := by decide
        exact this e c1)
      split
      · exact np_bind' np_fpr fun _ => np_bind' np_fpr fun _ => np_bind' np_fpr fun _ => np_mkR hM hR
      · exact np_bad
    · split
      · rename_i c1
        have hR := hR (by
          simp only [List.contains_eq_mem, decide_eq_true_eq] at c1
          have : ∀ e ∈ [c!"abs", c!"ceil.l", c!"ceil.w", c!"cvt.d", c!"cvt.l", c!"cvt.s", c!"cvt.w",
            c!"floor.l", c!"floor.w", c!"mov", c!"neg", c!"round.l", c!"round.w", c!"sqrt", c!"trunc.l",
            c!"trunc.w"], startsWith c!"c." e = false := by decide
          exact this e c1)
        split
        · exact np_bind' np_fpr fun _ => np_bind' np_fpr fun _ => np_mkR hM hR
        · exact np_bad
      · split
        · rename_i c3
          rw [if_pos c3] at he
          have k := opSim_case (op := mn) (op' := op) ha (by rw [hM.same]; exact (mn_all hM.ok).2.2) (by
            rw [(mn_all hM.ok).2.2]
            intro hl
            have : ∀ n ∈ Case.logicalNames, classify n ≠ .other := by decide +kernel
            exact this _ hl hC)
          have k1 := k.fmt
          have k2 := k.cond
          simp only [Bool.and_eq_true, beq_iff_eq] at he
          split
          · refine np_bind' np_fpr fun _ => np_bind' np_fpr fun _ => ?_
            cases hg : mn.getLast? with
            | none => rw [hg] at he; cases he.1
            | some c =>
              rw [hg] at k1 he
              cases hg' : op.getLast? with
              | none => rw [hg'] at k1; cases k1
              | some c' =>
                rw [hg'] at k1
                simp only [Option.map_some, Option.some.injEq] at k1 he
                obtain ⟨o, ho⟩ := Option.isSome_iff_exists.1 he.1
                simp only [opR, ← k1, ho]
                cases hc : (split '.' mn)[1]? with
                | none => rw [hc] at he; cases he.2
                | some cd =>
                  rw [hc] at k2
                  cases hc' : (split '.' op)[1]? with
                  | none => rw [hc'] at k2; cases k2
                  | some cd' =>
                    refine np_bind' (fun h => by cases h) fun _ => np_bind' ?_ fun _ => np_pure
                    refine np_lift ?_
                    unfold parseFloatCond
                    split <;> · intro h; cases h
          · exact np_bad
        · exact np_fail
  case code =>
    subst hsig
    obtain ⟨a, rfl⟩ := l1 _ hl
    have o0 := ho 0 _ _ rfl rfl
    obtain ⟨n1, n2⟩ := h.notLabel o0.2
    have hti : ∀ ty, parseImm x ty (trim a) = parseImm x ty a := by
      intro ty; unfold parseImm; rw [trim_trim]
    refine np_bind ?_ fun i hi => np_bind' (np_opR hM he) fun o => ?_
    · split
      · exact np_pure
      · rw [hti]; exact imm o0.1
    · have : ∃ v, i.asU32 = some v := by
        split at hi
        · cases hi; exact ⟨_, rfl⟩
        · rw [hti] at hi; exact (parseImm_asU n1 n2 hi).1
      obtain ⟨v, hv⟩ := this
      rw [hv]; exact np_pure
  case li | liu =>
    subst hsig
    obtain ⟨a, b, rfl⟩ := l2 _ hl
    have o1 := ho 1 _ _ rfl rfl
    have nd : mn ≠ c!"dli" := fun e => absurd (hdli.1 e) (by decide)
    obtain ⟨n1, n2⟩ := h.notLabel (o1.2 nd)
    simp only [parseLi]
    refine np_bind' (gpr (ho 0 _ _ rfl rfl)) fun r => np_bind (imm o1.1) fun i hi => ?_
    obtain ⟨v, hv⟩ := (parseImm_asU n1 n2 hi).2
    rw [hv]
    dsimp only
    split
    · exact np_fail
    · exact np_mkI hM he np_pure
  case shift =>
    subst hsig
    obtain ⟨a, b, c, rfl⟩ := l3 _ hl
    obtain ⟨v, hv, hr⟩ := ho 2 _ _ rfl rfl
    refine np_bind' (gpr (ho 0 _ _ rfl rfl)) fun _ => np_bind' (gpr (ho 1 _ _ rfl rfl)) fun _ => np_bind' (np_opR hM he) fun _ => ?_
    rw [parseShift_int hv, if_pos hr]
    exact np_pure
  case jump =>
    subst hsig
    obtain ⟨a, rfl⟩ := l1 _ hl
    refine np_bind' np_delay fun _ => np_bind' (np_lift (np_target (ho 0 _ _ rfl rfl))) fun t => np_bind' ?_ fun _ =>
      np_bind' (np_opJ hM he) fun _ => np_pure
    split
    · exact np_pure
    · split
      · exact np_warn
      · exact np_pure
  case arith =>
    have hl3 : args.length = 3 := by rcases hsig with e | e <;> rw [e] at hl <;> exact hl
    obtain ⟨a, b, c, rfl⟩ := l3 _ hl3
    have o0 : Tame.Operand ⟨rt.ovf, m.syms, ls, k⟩ mn .gpr a := by rcases hsig with rfl | rfl <;> exact ho 0 _ _ rfl rfl
    have o1 : Tame.Operand ⟨rt.ovf, m.syms, ls, k⟩ mn .gpr b := by rcases hsig with rfl | rfl <;> exact ho 1 _ _ rfl rfl
    have o2 : Tame.Const ⟨rt.ovf, m.syms, ls, k⟩ c := by rcases hsig with rfl | rfl <;> exact ho 2 _ _ rfl rfl
    refine np_bind' (gpr o0) fun _ => np_bind' (gpr o1) fun _ => ?_
    split
    · exact np_mkI hM he (imm o2)
    · exact np_mkI hM he (imm o2)
  all_goals first | subst hsig | (rcases hsig with hsig | hsig <;> subst hsig)
  all_goals
    first
      | (obtain ⟨a0, rfl⟩ := l1 _ hl)
      | (obtain ⟨a0, a1, rfl⟩ := l2 _ hl)
      | (obtain ⟨a0, a1, a2, rfl⟩ := l3 _ hl)
    simp only [parseBranch0]
    repeat' first
      | with_reducible exact np_mkR hM he
      | with_reducible exact np_delay
      | with_reducible exact np_align
      | with_reducible exact np_pure
      | with_reducible exact np_fpr
      | with_reducible exact np_c0
      | exact gpr (ho 0 _ _ rfl rfl)
      | exact gpr (ho 1 _ _ rfl rfl)
      | exact gpr (ho 2 _ _ rfl rfl)
      | exact imm (ho 0 _ _ rfl rfl)
      | exact imm (ho 1 _ _ rfl rfl)
      | exact imm (ho 1 _ _ rfl rfl).1
      | exact imm (ho 2 _ _ rfl rfl)
      | with_reducible refine np_mkI hM he ?_
      | with_reducible refine np_bind' ?_ (fun _ => ?_)
      | split

/-! ### lines -/

theorem line_np [Unicode] {rt : Rt} {m : Mipsasm} {ls : List Str} {k : Nat} {raw : Str} {x : Ctx} (h : SeenAt rt m ls k raw x)
    (hnl : '\n' ∉ raw) (hc : kind raw = .code) (ht : Tame.Line ⟨rt.ovf, m.syms, ls, k⟩ raw) : Np (parseInst x (body raw)) := by
  have hne := kind_code_ne hc
  cases ht with
  | blank h => rw [hc] at h; cases h
  | label l h => rw [hc] at h; cases h
  | unknown _ hu => rw [parse_unknown x hne hu]; exact np_fail
  | bare mn _ hcalls hmn =>
    have key : ∀ mn ∈ Names.none, mnOk mn = true ∧ (classify mn = .bare ∨ classify mn = .tlb) ∧ (RTypeOp.fromStr mn).isSome = true := by
      decide +kernel
    obtain ⟨hok, hcls, ho⟩ := key mn hmn
    have hM : Mn (firstWord (body raw)) mn := ⟨hcalls, hok⟩
    rw [parseInst_eq x hne]
    have hk : mnemonic (body raw) = mn := hM.key
    rw [hk]
    rcases hcls with hcls | hcls <;> · rw [hcls]; exact np_mkR hM ho
  | count mn ns n _ hcalls ha hn => rw [parse_count x hne hcalls ha hn]; exact np_bad
  | inst mn sig _ hcalls hm hl ho hcmp =>
    obtain ⟨h1, _⟩ := sigs_ok _ hm
    have hM : Mn (firstWord (body raw)) mn := ⟨hcalls, h1⟩
    rw [parseInst_eq x hne]
    have hk : mnemonic (body raw) = mn := hM.key
    rw [hk]
    refine arm_np h hM hm hl ?_ ho
    intro s hs hn
    have hi := ((infix_of_split hs).trans (words_infix (body raw)).2).trans (body_infix raw)
    exact hnl (hi.subset hn)

theorem seenAt_pre [Unicode] {rt : Rt} {m : Mipsasm} {text : Str} {tr : List Outcome} {k : Nat} {raw : Str}
    (h : IsTrace (envOf rt m text) ((lines text).take k) tr) (hk : (lines text)[k]? = some raw) :
    SeenAt rt m (lines text) k raw (ctxAt (envOf rt m text) tr) := by
  have hlt : k < (lines text).length := (List.getElem?_eq_some_iff.1 hk).1
  have hl : tr.length = k := by rw [h.1]; simp; omega
  refine ⟨rfl, rfl, ?_, ?_⟩
  · show (⟨tr.length + 1, ((envOf rt m text).input[tr.length]?).getD []⟩ : Line) = _
    rw [hl]
    show (⟨k + 1, ((lines text)[k]?).getD []⟩ : Line) = _
    rw [hk]; rfl
  · rintro ⟨l, a⟩ he
    obtain ⟨d, hd⟩ := outLabels_mem (show (l, a) ∈ outLabels 0 tr from he)
    have hdk : d < k := by
      have := (List.getElem?_eq_some_iff.1 hd).1; omega
    have hdl : d < (lines text).length := by omega
    have hr := h.2 d _ _ (by rw [List.getElem?_take_of_lt hdk]; exact List.getElem?_eq_getElem hdl) hd
    refine ⟨d, hdk, _, List.getElem?_eq_getElem hdl, ?_⟩
    unfold lineRes at hr
    split at hr
    · cases hr
    · rename_i l' hkind
      obtain ⟨h1, h2⟩ := labelRes_label hr
      subst h1
      exact ⟨hkind, h2⟩
    · exfalso
      unfold instRes at hr
      split at hr <;> simp at hr

theorem trace_exists [Unicode] {rt : Rt} {m : Mipsasm} {text : Str}
    (h : ∀ (k : Nat) raw, (lines text)[k]? = some raw → Tame.Line ⟨rt.ovf, m.syms, lines text, k⟩ raw) :
    ∃ tr, IsTrace (envOf rt m text) (lines text) tr := by
  have key : ∀ n, n ≤ (lines text).length → ∃ tr, IsTrace (envOf rt m text) ((lines text).take n) tr := by
    intro n
    induction n with
    | zero => intro _; exact ⟨[], rfl, fun k raw o h => by simp at h⟩
    | succ n ih =>
      intro hn
      obtain ⟨tr, ht⟩ := ih (by omega)
      have hk : (lines text)[n]? = some (lines text)[n] := List.getElem?_eq_getElem (by omega)
      have hS := seenAt_pre ht hk
      have hT := h n _ hk
      have hl : tr.length = n := by rw [ht.1]; simp; omega
      have : ∃ o, lineRes (envOf rt m text) tr (lines text)[n] = some o := by
        unfold lineRes
        cases hkind : kind (lines text)[n] with
        | blank => exact ⟨_, rfl⟩
        | code =>
          have := line_np hS (lines_noNl text _ (List.getElem_mem _)) hkind hT
          simp only [instRes]
          unfold Np at this
          split
          · exact ⟨_, rfl⟩
          · exact ⟨_, rfl⟩
          · rename_i hp; exact absurd hp this
        | label l =>
          have hne : l ≠ [] := by
            cases hT with
            | blank h => rw [hkind] at h; cases h
            | label l' h h' => rw [hkind] at h; cases h; exact h'
            | unknown h => rw [hkind] at h; cases h
            | bare _ h => rw [hkind] at h; cases h
            | count _ _ _ h => rw [hkind] at h; cases h
            | inst _ _ h => rw [hkind] at h; cases h
          cases l with
          | nil => exact absurd rfl hne
          | cons c l =>
            simp only [labelRes]
            split
            · exact ⟨_, rfl⟩
            · split
              · rename_i first hf
                have := outLabels_lt 0 (lookup_mem' hf)
                have hf2 : first < (lines text).length := by omega
                have hin : (envOf rt m text).input[first]? = some (lines text)[first] := List.getElem?_eq_getElem hf2
                rw [hin]; exact ⟨_, rfl⟩
              · exact ⟨_, rfl⟩
      obtain ⟨o, ho⟩ := this
      refine ⟨tr ++ [o], ?_⟩
      rw [List.take_succ_eq_append_getElem (by omega)]
      exact isTrace_snoc ht ho
  obtain ⟨tr, ht⟩ := key _ (Nat.le_refl _)
  rw [List.take_length] at ht
  exact ⟨tr, ht⟩

/-! ### the second pass -/

theorem locs_scope (tr : List Outcome) : (∀ e ∈ (outLocs tr).dropped ++ (outLocs tr).cur, e.2.2 = [] ∨ hasLabel (outLabels 0 tr) e.2.2 = true) ∧
    ((outLocs tr).scope = [] ∨ hasLabel (outLabels 0 tr) (outLocs tr).scope = true) := by
  induction tr using snoc_ind with
  | nil => exact ⟨fun e he => by simp [outLocs] at he, .inl rfl⟩
  | snoc a o ih =>
    rw [outLocs_snoc, outLabels_append]
    have mono : ∀ {s b}, (s = [] ∨ hasLabel (outLabels 0 a) s = true) → (s = [] ∨ hasLabel (outLabels 0 a ++ b) s = true) := by
      intro s b h
      rcases h with h | h
      · exact .inl h
      · exact .inr (hasLabel_append h)
    cases o with
    | loc l =>
      refine ⟨?_, mono ih.2⟩
      intro e he
      simp only [LocSt.step, locInsert, List.mem_append, List.mem_filter, List.mem_singleton] at he
      rcases he with he | he | rfl
      · exact mono (ih.1 e (by simp [he]))
      · exact mono (ih.1 e (by simp [he.1]))
      · exact mono ih.2
    | label l =>
      refine ⟨?_, .inr (by simp [LocSt.step, outLabels, hasLabel])⟩
      intro e he
      simp only [LocSt.step, List.append_nil] at he
      exact mono (ih.1 e he)
    | inst ws i => exact ⟨fun e he => mono (ih.1 e he), mono ih.2⟩
    | blank => exact ⟨fun e he => mono (ih.1 e he), mono ih.2⟩
    | rejected ws e => exact ⟨fun e he => mono (ih.1 e he), mono ih.2⟩

theorem scope_some {labels : List (Str × Nat)} {n : Nat} {lbl : Str} (h : lbl = [] ∨ hasLabel labels lbl = true) :
    ∃ r, labelScope labels n lbl = some r := by
  unfold labelScope
  split
  · exact ⟨_, rfl⟩
  · rename_i hn
    rcases h with h | h
    · subst h; exact absurd rfl hn
    · unfold hasLabel at h
      split
      · rename_i hf
        rw [List.findIdx?_eq_none_iff] at hf
        rw [List.any_eq_true] at h
        obtain ⟨e, he, h⟩ := h
        have := hf e he
        rw [this] at h; cases h
      · rename_i k hf
        rw [List.findIdx?_eq_some_iff_getElem] at hf
        obtain ⟨hk, _⟩ := hf
        rw [List.getElem?_eq_getElem hk]
        dsimp only
        split <;> exact ⟨_, rfl⟩

theorem findLocal_some {labels : List (Str × Nat)} {n i : Nat} : ∀ {l : List Loc}, (∀ e ∈ l, e.2.2 = [] ∨ hasLabel labels e.2.2 = true) →
    ∃ r, findLocal labels n i l = some r := by
  intro l
  induction l with
  | nil => intro _; exact ⟨_, rfl⟩
  | cons e l ih =>
    intro h
    obtain ⟨a, b, c⟩ := e
    obtain ⟨⟨lo, hi⟩, hr⟩ := scope_some (n := n) (h _ (List.mem_cons_self ..))
    simp only [findLocal, hr]
    split
    · exact ih fun e he => h e (List.mem_cons_of_mem _ he)
    · exact ⟨_, rfl⟩

theorem insts_le_code {ls : List Str} : ∀ {tr : List Outcome} {j : Nat}, tr.length = ls.length →
    (∀ (k : Nat) ws i, tr[k]? = some (.inst ws i) → ∃ raw, ls[k]? = some raw ∧ kind raw = .code) → (outInsts j tr).length ≤ codeCount ls := by
  induction ls with
  | nil => intro tr j h _; cases tr with
    | nil => exact Nat.le_refl _
    | cons => cases h
  | cons raw ls ih =>
    intro tr j hl h
    cases tr with
    | nil => cases hl
    | cons o tr =>
      have ih := ih (tr := tr) (j := j + 1) (by simpa using hl) (fun k ws i hk => by
        obtain ⟨raw, h1, h2⟩ := h (k + 1) ws i hk
        exact ⟨raw, h1, h2⟩)
      have hle : codeCount ls ≤ codeCount (raw :: ls) := by
        unfold codeCount
        rw [List.filter_cons]; split
        · simp
        · exact Nat.le_refl _
      cases o with
      | inst ws i =>
        obtain ⟨raw', h1, h2⟩ := h 0 ws i rfl
        cases h1
        have : codeCount (raw :: ls) = codeCount ls + 1 := by
          unfold codeCount
          rw [List.filter_cons, if_pos (by unfold isCode; rw [h2]; rfl)]; rfl
        simp only [outInsts, List.length_cons]
        omega
      | _ => simp only [outInsts]; omega

theorem chk_some {ovf : Bool} {base : Word} {n : Nat} (h : ovf = true → base.toNat + 4 * n < 2 ^ 32) :
    ∃ a t, chkMul ovf (BitVec.ofNat 32 n) 4#32 = some a ∧ chkAdd ovf base a = some t := by
  cases ovf with
  | false => exact ⟨_, _, by simp [chkMul]; rfl, by simp [chkAdd]; rfl⟩
  | true =>
    have h := h rfl
    have h1 : (BitVec.ofNat 32 n).toNat = n := by rw [BitVec.toNat_ofNat]; omega
    have e1 : chkMul true (BitVec.ofNat 32 n) 4#32 = some (BitVec.ofNat 32 n * 4#32) := by
      unfold chkMul
      rw [if_neg]
      rw [h1]
      rintro ⟨_, h⟩
      have : (4#32 : BitVec 32).toNat = 4 := rfl
      rw [this] at h
      omega
    refine ⟨_, base + BitVec.ofNat 32 n * 4#32, e1, ?_⟩
    unfold chkAdd
    rw [if_neg]
    rintro ⟨_, h'⟩
    have : (BitVec.ofNat 32 n * 4#32).toNat = n * 4 := by
      rw [BitVec.toNat_mul, h1]
      have : (4#32 : BitVec 32).toNat = 4 := rfl
      rw [this]; omega
    rw [this] at h'
    omega

theorem labels_le : ∀ (tr : List Outcome) (n j : Nat) (l : Str) (a : Nat), (l, a) ∈ outLabels n tr → a ≤ n + (outInsts j tr).length := by
  intro tr
  induction tr with
  | nil => intro n j l a h; cases h
  | cons o tr ih =>
    intro n j l a h
    cases o with
    | label l' =>
      simp only [outLabels, List.mem_cons] at h
      rcases h with h | h
      · cases h; omega
      · have := ih n (j + 1) l a h; simpa [outInsts] using this
    | inst ws i => have := ih (n + 1) (j + 1) l a h; simp only [outInsts, List.length_cons]; omega
    | _ => have := ih n (j + 1) l a h; simpa [outInsts] using this

theorem adjust_some [Unicode] {rt : Rt} {m : Mipsasm} {text : Str} {tr : List Outcome} (hT : IsTrace (envOf rt m text) (lines text) tr)
    (hroom : rt.ovf = true → m.base.toNat + 4 * codeCount (lines text) < 2 ^ 32) {i : Nat} {p : Nat × Instruction}
    (hp : (outInsts 0 tr)[i]? = some p) : ∃ q, adjust1 (envOf rt m text) (canonF tr) i p = some q := by
  have hF := trace_fresh hT hp
  obtain ⟨k, ws, h1, h2, h3⟩ := outInsts_get hp
  have hkt : k < tr.length := (List.getElem?_eq_some_iff.1 h1).1
  have hkl : k < (lines text).length := by rw [← hT.1]; exact hkt
  have hle : (outInsts 0 tr).length ≤ codeCount (lines text) := insts_le_code hT.1 fun k ws i hk => by
    obtain ⟨raw, r1, r2, _⟩ := trace_inst hT hk
    exact ⟨raw, r1, r2⟩
  have hline : ∃ l, lineAt (envOf rt m text) p.1 = some l := by
    unfold lineAt
    have : (envOf rt m text).input[p.1 - 1]? = some (lines text)[k] := by
      rw [h2, show 0 + k + 1 - 1 = k by omega]; exact List.getElem?_eq_getElem hkl
    rw [this]; exact ⟨_, rfl⟩
  have hlast : ∃ l, lineAt (envOf rt m text) (canonF tr).lineNum = some l := by
    unfold lineAt
    have hlt : tr.length - 1 < (lines text).length := by rw [← hT.1]; omega
    have : (envOf rt m text).input[tr.length - 1]? = some (lines text)[tr.length - 1] := List.getElem?_eq_getElem hlt
    show ∃ l, ((envOf rt m text).input[tr.length - 1]?).map _ = some l
    rw [this]; exact ⟨_, rfl⟩
  have htext : ∃ t, (envOf rt m text).input[p.1 - 1]? = some t := by
    refine ⟨(lines text)[k], ?_⟩
    rw [h2, show 0 + k + 1 - 1 = k by omega]; exact List.getElem?_eq_getElem hkl
  obtain ⟨ln, q⟩ := p
  have lookup : ∀ {l : Str} {labels : List (Str × Nat)}, hasLabel labels l = true → ∃ a, labels.lookup l = some a := by
    intro l labels h
    simp only [hasLabel, List.any_eq_true, beq_iff_eq] at h
    obtain ⟨⟨a, b⟩, he, rfl⟩ := h
    exact lookup_isSome_of_mem he
  unfold adjust1
  dsimp only
  split
  · obtain ⟨a, ha⟩ := lookup (hF.2.1 _ rfl)
    have : (canonF tr).labels = outLabels 0 tr := rfl
    rw [this, ha]; exact ⟨_, rfl⟩
  · obtain ⟨l, hl⟩ := hline
    split
    · simp only at hl
      rw [hl]; exact ⟨_, rfl⟩
    · rename_i loc _ _
      obtain ⟨r, hr⟩ := findLocal_some (labels := (canonF tr).labels) (n := (canonF tr).insts.length) (i := i)
        (l := (canonF tr).dropped.filter fun d => d.1 == loc) (fun e he => by
          have he := (List.mem_filter.1 he).1
          have he' : e ∈ finalLocs tr := he
          unfold finalLocs at he'
          split at he'
          · cases he'
          · exact (locs_scope tr).1 e he')
      simp only [hr, opt_bind, Option.bind_some]
      split
      · exact ⟨_, rfl⟩
      · simp only at hl
        rw [hl]; exact ⟨_, rfl⟩
  · split
    · exact ⟨_, rfl⟩
    · obtain ⟨a, t, e1, e2⟩ := chk_some (ovf := rt.ovf) (base := m.base) (n := (outInsts 0 tr).length) (fun ho => by
        have := hroom ho; omega)
      have e1' : chkMul (envOf rt m text).rt.ovf (BitVec.ofNat 32 (canonF tr).insts.length) 4#32 = some a := e1
      have e2' : chkAdd (envOf rt m text).rt.ovf (envOf rt m text).base a = some t := e2
      rw [e1']
      simp only [opt_bind, Option.bind_some, e2']
      obtain ⟨l, hl⟩ := hlast
      obtain ⟨t', ht'⟩ := htext
      simp only at ht'
      split
      · rw [hl, ht']; exact ⟨_, rfl⟩
      · exact ⟨_, rfl⟩
  · split
    · obtain ⟨l, hl⟩ := hline
      simp only at hl
      rw [hl]; exact ⟨_, rfl⟩
    · rename_i addr hlk
      have hlt : addr ≤ codeCount (lines text) := by
        have hm := lookup_mem' hlk
        have hm' : (_, addr) ∈ outLabels 0 tr := hm
        have := labels_le tr 0 0 _ _ hm'
        omega
      obtain ⟨a, t, e1, e2⟩ := chk_some (ovf := rt.ovf) (base := m.base) (n := addr) (fun ho => by
        have := hroom ho; omega)
      have e1' : chkMul (envOf rt m text).rt.ovf (BitVec.ofNat 32 addr) 4#32 = some a := e1
      have e2' : chkAdd (envOf rt m text).rt.ovf (envOf rt m text).base a = some t := e2
      rw [e1']
      simp only [opt_bind, Option.bind_some, e2']
      exact ⟨_, rfl⟩
  · exact ⟨_, rfl⟩

theorem adjust_imm_op {env : Env} {s : PState} {i ln : Nat} {o op : ITypeOp} {rs rt rs' rt' : Register} {im im' : Immediate} {b b' : List Word} {es : List ParserError}
    (h : adjust1 env s i (ln, .imm o rs rt im b) = some (.imm op rs' rt' im' b', es)) : o = op := by
  unfold adjust1 at h
  dsimp only at h
  split at h
  case h_1 | h_2 | h_3 =>
    rename_i hh
    cases hh
    first
      | (simp only [opt_bind, Option.bind_eq_some_iff, Option.some.injEq, Prod.mk.injEq, Instruction.imm.injEq] at h
         obtain ⟨_, _, ⟨h, _⟩, _⟩ := h; exact h)
      | (split at h
         · simp only [opt_bind, Option.bind_eq_some_iff, Option.some.injEq, Prod.mk.injEq, Instruction.imm.injEq] at h
           first | (obtain ⟨_, _, ⟨h, _⟩, _⟩ := h; exact h) | exact h.1.1
         · simp only [opt_bind, Option.bind_eq_some_iff] at h
           first
            | (obtain ⟨r, _, h⟩ := h
               split at h
               · cases h; rfl
               · simp only [Option.bind_eq_some_iff, Option.some.injEq, Prod.mk.injEq, Instruction.imm.injEq] at h
                 obtain ⟨_, _, ⟨h, _⟩, _⟩ := h; exact h)
            | (obtain ⟨_, _, _, _, _, _, h⟩ := h; cases h; rfl))
  · rename_i hh; cases hh
  · cases h; rfl

theorem adjust_imm_ne {env : Env} {s : PState} {i ln : Nat} {o : ITypeOp} {rs rt : Register} {im : Immediate} {b : List Word} (w : Word) {es : List ParserError} :
    adjust1 env s i (ln, .imm o rs rt im b) ≠ some (.bytes w, es) := by
  intro h
  unfold adjust1 at h
  dsimp only at h
  split at h
  case h_1 | h_2 | h_3 =>
    rename_i hh
    cases hh
    first
      | (simp only [opt_bind, Option.bind_eq_some_iff, Option.some.injEq, Prod.mk.injEq, reduceCtorEq, false_and, and_false, exists_false] at h; done)
      | (split at h
         · simp only [opt_bind, Option.bind_eq_some_iff, Option.some.injEq, Prod.mk.injEq, reduceCtorEq, false_and, and_false, exists_false] at h
         · simp only [opt_bind, Option.bind_eq_some_iff] at h
           first
            | (obtain ⟨r, _, h⟩ := h
               split at h
               · cases h
               · simp only [Option.bind_eq_some_iff, Option.some.injEq, Prod.mk.injEq, reduceCtorEq, false_and, and_false, exists_false] at h)
            | (obtain ⟨_, _, _, _, _, _, h⟩ := h; cases h))
  · rename_i hh; cases hh
  · cases h

theorem adjust_jump {env : Env} {s : PState} {i ln : Nat} {o : JTypeOp} {t : Target} {b : List Word} {a : Instruction} {es : List ParserError}
    (h : adjust1 env s i (ln, .jump o t b) = some (a, es)) : ∃ t b, a = .jump o t b := by
  unfold adjust1 at h
  dsimp only at h
  split at h
  case h_1 | h_2 | h_3 => rename_i hh; cases hh
  · rename_i hh
    cases hh
    split at h
    · simp only [opt_bind, Option.bind_eq_some_iff, Option.some.injEq, Prod.mk.injEq] at h
      obtain ⟨_, _, rfl, _⟩ := h; exact ⟨_, _, rfl⟩
    · simp only [opt_bind, Option.bind_eq_some_iff, Option.some.injEq, Prod.mk.injEq] at h
      obtain ⟨_, _, _, _, rfl, _⟩ := h; exact ⟨_, _, rfl⟩
  · cases h; exact ⟨_, _, rfl⟩

/-- an instruction of a line that is not `.word`, whose operation needs no subtraction or goes to a label above -/
theorem line_encodes [Unicode] {rt : Rt} {m : Mipsasm} {text : Str} {tr : List Outcome} (hT : IsTrace (envOf rt m text) (lines text) tr)
    (he : outErrors tr = [])
    (hline : ∀ (k : Nat) raw, (lines text)[k]? = some raw → Tame.Line ⟨rt.ovf, m.syms, lines text, k⟩ raw)
    {i : Nat} {p : Nat × Instruction} (hp : (outInsts 0 tr)[i]? = some p) {a : Instruction}
    (ha : adjust1 (envOf rt m text) (canonF tr) i p = some (a, [])) : ∃ b, assembleInst rt.ovf a = some b := by
  cases hb : assembleInst rt.ovf a with
  | some b => exact ⟨b, rfl⟩
  | none =>
  exfalso
  obtain ⟨k, ws, h1, h2, h3⟩ := outInsts_get hp
  obtain ⟨raw, r1, r2, r3⟩ := trace_inst hT h1
  have hne := kind_code_ne r2
  have hTL := hline k raw r1
  -- the line names a mnemonic with known operands
  have hmn : ∃ mn, Mn (firstWord (body raw)) mn ∧ ((mn ∈ Names.none ∧ (classify mn = .bare ∨ classify mn = .tlb)) ∨
      ∃ sig, (mn, sig) ∈ signatures ∧ (mn ∈ cmpBranchNames → rt.ovf = true → codeCount (lines text) < 65536 ∧
        ∀ s, (operands (body raw)).getLast? = some s → isLocal (trim s) = false ∧ ∃ d < k, Defines (lines text) d (trim s))) := by
    cases hTL with
    | blank h => rw [r2] at h; cases h
    | label l h => rw [r2] at h; cases h
    | unknown _ hu => rw [parse_unknown _ hne hu] at r3; cases r3
    | bare mn _ hcalls hmn =>
      have key : ∀ mn ∈ Names.none, mnOk mn = true ∧ (classify mn = .bare ∨ classify mn = .tlb) := by decide +kernel
      obtain ⟨hok, hcls⟩ := key mn hmn
      exact ⟨mn, ⟨hcalls, hok⟩, .inl ⟨hmn, hcls⟩⟩
    | count mn ns n _ hcalls hA hn => rw [parse_count _ hne hcalls hA hn] at r3; cases r3
    | inst mn sig _ hcalls hm hl ho hcmp => exact ⟨mn, ⟨hcalls, (sigs_ok _ hm).1⟩, .inr ⟨sig, hm, hcmp⟩⟩
  obtain ⟨mn, hM, hmn⟩ := hmn
  have hk : mnemonic (body raw) = mn := hM.key
  rw [parseInst_eq _ hne, hk] at r3
  have hA := parseArm_ok _ _ _ _ _ (congrArg W.res r3)
  have hword : classify mn ≠ .word := by
    rcases hmn with ⟨_, h | h⟩ | ⟨sig, h, _⟩
    · rw [h]; decide
    · rw [h]; decide
    · intro e
      have := (sigs_ok _ h).2.1
      simp only [e, clsSigs] at this
      cases this
  obtain ⟨ln, q⟩ := p
  simp only at hA
  rcases hA with ⟨o, rs, rt', im, rfl, hop, hcj, hbr⟩ | ⟨o, rs, rt', rd, sa, rfl, _⟩ | ⟨_, o, t, q', _, _, rfl, _⟩ | ⟨hw, _⟩
  · rcases C10_encoder_total rt.ovf a (adjust1_resolved ha) hb with ⟨w, rfl⟩ | ⟨hovf, op, rs', rt'', im', b', rfl, hcmp, hz⟩
    · exact absurd ha (adjust_imm_ne w)
    · obtain rfl : o = op := adjust_imm_op ha
      rw [fromStr_lowerI hM.same (mn_all hM.ok).2.2] at hop
      rcases hmn with ⟨hmn, _⟩ | ⟨sig, hs, hcm⟩
      · have : ∀ n ∈ Names.none, (ITypeOp.fromStr n) = Option.none := by decide +kernel
        rw [this _ hmn] at hop; cases hop
      · have key : ∀ e ∈ signatures, (match ITypeOp.fromStr e.1 with | some o => decide (o ∈ cmpBranches) | none => false) = false ∨
            (e.1 ∈ cmpBranchNames ∧ classify e.1 = .br2) := by decide +kernel
        have key := key _ hs
        simp only [hop, decide_eq_false_iff_not] at key
        obtain ⟨hcn, hcl⟩ : mn ∈ cmpBranchNames ∧ classify mn = .br2 := by
          rcases key with h | h
          · exact absurd hcmp h
          · exact h
        obtain ⟨hcount, hlab⟩ := hcm hcn hovf
        rw [hcl, if_pos (show isBrCls .br2 = true from rfl)] at hbr
        obtain ⟨t, ht, hi⟩ := hbr
        obtain ⟨hloc, d, hdk, hd⟩ := hlab t ht
        have hkl : k < (lines text).length := (List.getElem?_eq_some_iff.1 r1).1
        have hat := (trace_counts hT he k)
        have hmem := defines_mem hd hloc hdk
        have hlabel : hasLabel (outLabels 0 (tr.take k)) (trim t) = true := by
          rw [hat.1]
          simp only [hasLabel, List.any_eq_true, beq_iff_eq]
          exact ⟨_, hmem, rfl⟩
        have him : im = .label (trim t) := by
          unfold parseImm at hi
          dsimp only at hi
          rw [if_neg (by unfold isLocal at hloc; simp [hloc]), if_pos (show hasLabel (ctxAt (envOf rt m text) (List.take k tr)).labels (trim t) = true from hlabel)] at hi
          cases hi; rfl
        subst him
        unfold adjust1 at ha
        simp only [opt_bind, Option.bind_eq_some_iff, Option.some.injEq, Prod.mk.injEq, Instruction.imm.injEq, and_true] at ha
        obtain ⟨addr, hl, _, _, _, rfl, _⟩ := ha
        have hl' : (outLabels 0 tr).lookup (trim t) = some addr := hl
        obtain ⟨b, hb⟩ := outLabels_take tr k
        have hle : addr ≤ i := by
          obtain ⟨a0, ha0⟩ : ∃ a, (outLabels 0 (tr.take k)).lookup (trim t) = some a := by
            rw [hat.1]; exact lookup_isSome_of_mem hmem
          rw [hb, List.lookup_append, ha0] at hl'
          simp only [Option.some_or, Option.some.injEq] at hl'
          subst hl'
          have := labels_le (tr.take k) 0 0 _ _ (lookup_mem' ha0)
          omega
        have hin : i < codeCount (lines text) := by
          have := (trace_counts_all hT he).2
          rw [← this]; exact (List.getElem?_eq_some_iff.1 hp).1
        simp only [Immediate.asU32, Option.some.injEq] at hz
        have hz' := congrArg BitVec.toNat hz
        unfold relOff at hz'
        simp only [BitVec.toNat_setWidth, BitVec.toNat_ofInt, BitVec.toNat_ofNat] at hz'
        omega
  · cases ha; cases hb
  · rcases C10_encoder_total rt.ovf a (adjust1_resolved ha) hb with ⟨w, rfl⟩ | ⟨hovf, op, rs', rt'', im', b', rfl, hcmp, hz⟩
    · obtain ⟨_, _, h⟩ := adjust_jump ha; cases h
    · obtain ⟨_, _, h⟩ := adjust_jump ha; cases h
  · exact hword hw

/-- **C30** (partial).  `assemble` returns `Ok` or `Err` on every program all of whose lines are blank lines, labels, lines with an
unknown mnemonic, mnemonics without operands, mnemonics with a wrong number of operands, and instructions whose operands are
readable in the sense of `Tame.Operand` (which includes wrong register names, constants out of range, undefined labels and so on). -/
theorem C30_returns_partial [Unicode] (rt : Rt) (m : Mipsasm) (text : Str) (h : Tame.Program rt.ovf m.base m.syms (lines text)) :
    assemble rt m text ≠ .panic := by
  obtain ⟨tr, hT⟩ := trace_exists h.lines
  have hT' : traceFrom (envOf rt m text) [] (envOf rt m text).input = some tr := (isTrace_iff _ _ _).2 hT
  obtain ⟨out, ho⟩ := mapM_exists (fun p : (Nat × Instruction) × Nat => adjust1 (envOf rt m text) (canonF tr) p.2 p.1) (outInsts 0 tr).zipIdx (by
    rintro ⟨p, i⟩ hp
    exact adjust_some hT h.room (List.mk_mem_zipIdx_iff_getElem?.1 hp))
  unfold assemble
  rw [parse_eq]
  have hb : (⟨rt, m.base, m.syms, lines text⟩ : Env) = envOf rt m text := rfl
  rw [hb]
  unfold parseT
  rw [hT']
  simp only [ho]
  have hd : ((outWarns tr).all fun w => w.display.isSome) = true := by
    rw [List.all_eq_true]; exact trace_warns_display hT
  rw [if_pos hd]
  by_cases hE : (outErrors tr ++ out.flatMap (·.2)).isEmpty = true
  · rw [if_pos hE]
    dsimp only
    have hE' : outErrors tr = [] ∧ ∀ q ∈ out, q.2 = [] := by
      simpa using hE
    obtain ⟨bs, hbs⟩ := mapM_exists (assembleInst rt.ovf) (out.map (·.1)) (by
      intro a ha
      obtain ⟨q, hq, rfl⟩ := List.mem_map.1 ha
      obtain ⟨j, hj⟩ := List.getElem?_of_mem hq
      obtain ⟨hlen, hall⟩ := (mapM_some_iff _ _ _).1 ho
      have hlt : j < (outInsts 0 tr).zipIdx.length := by
        rw [← hlen]; exact (List.getElem?_eq_some_iff.1 hj).1
      have hlt' : j < (outInsts 0 tr).length := by simpa using hlt
      have hz : (outInsts 0 tr).zipIdx[j]? = some ((outInsts 0 tr)[j], j) := by simp [hlt']
      obtain ⟨b, hb1, h1⟩ := hall j _ hz
      rw [hj] at hb1
      cases hb1
      have h2 := hE'.2 q hq
      obtain ⟨q1, q2⟩ := q
      simp only at h2; subst h2
      exact line_encodes hT hE'.1 h.lines (List.getElem?_eq_getElem hlt') h1)
    have : assembleAll rt.ovf (out.map (·.1)) = some bs := hbs
    rw [this]
    intro h; cases h
  · rw [if_neg hE]
    intro h; cases h

/-! ### A program that meets the hypotheses -/

private def exText : Str := c!"foo:; start\n addi $a0, $zz, 0x99999\n frob 1\n\n nop\n add $a0, $a1\n lw $t0, 8($sp)\n bne $a0,$a1,foo\n bge $a0, $a1, foo"

private theorem ex_reg (k : Nat) (n : Str) (v : BitVec 5) (h : gprNames[v.toNat]? = some n) (hn : n.map asciiLower = n) :
    Regular .gpr (List.replicate k ' ' ++ '$' :: n) :=
  ⟨v, by simpa using Reg.dollar (List.replicate k ' ') n [] v (by
    intro c hc; rw [List.eq_of_mem_replicate hc]; decide) (by intro c hc; cases hc) (.name _ n v h hn)⟩

private theorem ex_tame : letI := asciiUnicode; Tame.Program true 0#32 [] (lines exText) := by
  letI := asciiUnicode
  have hl : lines exText = [c!"foo:; start", c!" addi $a0, $zz, 0x99999", c!" frob 1", c!"", c!" nop", c!" add $a0, $a1",
    c!" lw $t0, 8($sp)", c!" bne $a0,$a1,foo", c!" bge $a0, $a1, foo"] := by decide +kernel
  rw [hl]
  refine ⟨?_, by intro _; decide +kernel⟩
  intro k raw hk
  match k, hk with
  | 0, hk => cases hk; exact .label c!"foo" (by decide +kernel) (by decide)
  | 1, hk =>
    cases hk
    refine .inst c!"addi" [.gpr, .gpr, .simm] (by decide +kernel) (by unfold Calls; decide +kernel) (by decide +kernel) (by decide +kernel) ?_
      (fun h => absurd h (by decide +kernel))
    have ho : operands (body c!" addi $a0, $zz, 0x99999") = [c!"$a0", c!" $zz", c!" 0x99999"] := by decide +kernel
    rw [ho]
    intro i r s h1 h2
    match i, h1 with
    | 0, h1 => cases h1; cases h2; exact .inl (ex_reg 0 c!"a0" 4#5 rfl rfl)
    | 1, h1 =>
      cases h1; cases h2
      refine .inr ⟨by decide +kernel, ?_⟩
      rintro ⟨a, d, b, e, _⟩
      have : 'r' ∈ c!" $zz" := by rw [e]; simp
      exact absurd this (by decide)
    | 2, h1 => cases h1; cases h2; exact .inl (by decide)
  | 2, hk => cases hk; exact .unknown (by decide +kernel) ⟨by decide +kernel, by decide +kernel, by decide +kernel, by decide +kernel, by decide +kernel⟩
  | 3, hk => cases hk; exact .blank (by decide +kernel)
  | 4, hk => cases hk; exact .bare c!"nop" (by decide +kernel) (by unfold Calls; decide +kernel) (by decide +kernel)
  | 5, hk => cases hk; exact .count c!"add" [3] 3 (by decide +kernel) (by unfold Calls; decide +kernel) (by decide +kernel) (by decide +kernel)
  | 6, hk =>
    cases hk
    refine .inst c!"lw" [.gpr, .mem] (by decide +kernel) (by unfold Calls; decide +kernel) (by decide +kernel) (by decide +kernel) ?_
      (fun h => absurd h (by decide +kernel))
    have ho : operands (body c!" lw $t0, 8($sp)") = [c!"$t0", c!" 8($sp)"] := by decide +kernel
    rw [ho]
    intro i r s h1 h2
    match i, h1 with
    | 0, h1 => cases h1; cases h2; exact .inl (ex_reg 0 c!"t0" 8#5 rfl rfl)
    | 1, h1 =>
      cases h1; cases h2
      exact ⟨c!" 8", c!"$sp", [], rfl, by decide, by decide, .inl (ex_reg 0 c!"sp" 29#5 rfl rfl), .inl (by decide)⟩
  | 7, hk =>
    cases hk
    refine .inst c!"bne" [.gpr, .gpr, .addr] (by decide +kernel) (by unfold Calls; decide +kernel) (by decide +kernel) (by decide +kernel) ?_
      (fun h => absurd h (by decide +kernel))
    have ho : operands (body c!" bne $a0,$a1,foo") = [c!"$a0", c!"$a1", c!"foo"] := by decide +kernel
    rw [ho]
    intro i r s h1 h2
    match i, h1 with
    | 0, h1 => cases h1; cases h2; exact .inl (ex_reg 0 c!"a0" 4#5 rfl rfl)
    | 1, h1 => cases h1; cases h2; exact .inl (ex_reg 0 c!"a1" 5#5 rfl rfl)
    | 2, h1 => cases h1; cases h2; exact .inl (by decide)
  | 8, hk =>
    cases hk
    have ho : operands (body c!" bge $a0, $a1, foo") = [c!"$a0", c!" $a1", c!" foo"] := by decide +kernel
    refine .inst c!"bge" [.gpr, .gpr, .addr] (by decide +kernel) (by unfold Calls; decide +kernel) (by decide +kernel) (by decide +kernel) ?_
      (fun _ _ => ⟨by decide +kernel, ?_⟩)
    · rw [ho]
      intro i r s h1 h2
      match i, h1 with
      | 0, h1 => cases h1; cases h2; exact .inl (ex_reg 0 c!"a0" 4#5 rfl rfl)
      | 1, h1 => cases h1; cases h2; exact .inl (ex_reg 1 c!"a1" 5#5 rfl rfl)
      | 2, h1 => cases h1; cases h2; exact .inl (by decide)
    · rw [ho]
      intro s hs
      cases hs
      exact ⟨by decide +kernel, 0, by decide, _, rfl, by decide +kernel⟩
  | k + 9, hk => cases hk

example : @assemble asciiUnicode (idRt true) Mipsasm.new exText ≠ .panic :=
  @C30_returns_partial asciiUnicode (idRt true) Mipsasm.new exText ex_tame

/-- Texts on which `assemble` panics. -/
def panicking : List Str :=
  [c!":", c!".word 1", c!"lw $zz, 0($a0)", c!"lw $a0, 4", c!"j", c!"sll $a0,$a0,x", c!"abs.w $f0,$f1", c!"foo:\nli $a0, foo",
   c!"addi $a0,$a0,%hi(foo)", c!"bge $a0,$a1,0", c!"jr $r5x", c!"x", c!"nop\t// c", c!"c.eq.x $f0,$f1", c!"cache 40, 0($a0)"]

/-- **C30** fails as stated: each of these one- or two-line texts makes `assemble` panic. -/
theorem C30_wrong : ∀ t ∈ panicking, @assemble asciiUnicode (idRt true) Mipsasm.new t = .panic := by
  intro t ht
  have key : ∀ t ∈ panicking, (match @assemble asciiUnicode (idRt true) Mipsasm.new t with | .panic => true | _ => false) = true := by
    decide +kernel
  have := key t ht
  revert this
  cases @assemble asciiUnicode (idRt true) Mipsasm.new t <;> simp

end Mips
