/- C41: builds with and without overflow checks agree. -/
import Verif.Props.Order
import Verif.Lemmas.ArmL
import Verif.Lemmas.InfixL

namespace Mips
open Source

/-- `w` panics, or `v` does the same as `w`. -/
def WLe {α : Type} (w v : W α) : Prop := w.res = .panic ∨ v = w
/-- see `WLe` -/
def RLe {α : Type} (w v : Res ParserError α) : Prop := w = .panic ∨ v = w

section
variable {α β : Type}
theorem wle_refl (w : W α) : WLe w w := .inr rfl
theorem rle_refl (w : Res ParserError α) : RLe w w := .inr rfl
theorem wle_bind {w v : W α} {f f' : α → W β} (h1 : WLe w v) (h2 : ∀ a, WLe (f a) (f' a)) : WLe (w >>= f) (v >>= f') := by
  rcases h1 with h1 | rfl
  · left
    show (Bind.bind w f).res = _
    simp only [Bind.bind, h1]
  · obtain ⟨ws, r⟩ := v
    cases r with
    | ok a =>
      rcases h2 a with h | h
      · left; exact h
      · right
        show (⟨ws ++ (f' a).warns, (f' a).res⟩ : W β) = ⟨ws ++ (f a).warns, (f a).res⟩
        rw [h]
    | err e => right; rfl
    | panic => left; rfl
theorem wle_lift {r q : Res ParserError α} (h : RLe r q) : WLe (W.lift r) (W.lift q) := by
  rcases h with h | rfl
  · left; exact h
  · right; rfl
theorem rle_bind {w v : Res ParserError α} {f f' : α → Res ParserError β} (h1 : RLe w v) (h2 : ∀ a, RLe (f a) (f' a)) :
    RLe (w.bind f) (v.bind f') := by
  rcases h1 with rfl | rfl
  · left; rfl
  · cases v with
    | ok a => exact h2 a
    | err e => right; rfl
    | panic => left; rfl
theorem wle_mkI {op : Str} {a b : Register} {w v : W Immediate} (h : WLe w v) : WLe (mkI op a b w) (mkI op a b v) :=
  wle_bind (wle_refl _) fun _ => wle_bind h fun _ => wle_refl _
end

/-- Without overflow checks. -/
def Ctx.release (x : Ctx) : Ctx := { x with ovf := false }

theorem chkAdd_le {ovf : Bool} {a b s : Word} (h : chkAdd ovf a b = some s) (o : Bool) (ho : o = true → ovf = true) : chkAdd o a b = some s := by
  unfold chkAdd at *
  split at h
  · cases h
  · rename_i hn
    rw [if_neg (fun hh => hn ⟨ho hh.1, hh.2⟩)]; exact h
theorem chkMul_le {ovf : Bool} {a b s : Word} (h : chkMul ovf a b = some s) (o : Bool) (ho : o = true → ovf = true) : chkMul o a b = some s := by
  unfold chkMul at *
  split at h
  · cases h
  · rename_i hn
    rw [if_neg (fun hh => hn ⟨ho hh.1, hh.2⟩)]; exact h
theorem hiOf_le {ovf : Bool} {a : Word} {s : BitVec 16} (h : hiOf ovf a = some s) (o : Bool) (ho : o = true → ovf = true) : hiOf o a = some s := by
  unfold hiOf at *
  obtain ⟨t, h1, h2⟩ := Option.map_eq_some_iff.1 h
  rw [chkAdd_le h1 o ho]; exact congrArg some h2

theorem imm_le (x : Ctx) (ty : IntTy) (s : Str) : RLe (parseImm x ty s) (parseImm x.release ty s) := by
  unfold parseImm
  have e1 : x.release.labels = x.labels := rfl
  have e2 : x.release.ovf = false := rfl
  simp only [e1, e2]
  by_cases h1 : startsWith c!"@@" (trim s) = true
  · rw [if_pos h1, if_pos h1]; exact rle_refl _
  rw [if_neg h1, if_neg h1]
  by_cases h2 : hasLabel x.labels (trim s) = true
  · rw [if_pos h2, if_pos h2]; exact rle_refl _
  rw [if_neg h2, if_neg h2]
  cases findImm (trim s) with
  | none => exact rle_refl _
  | some m =>
    refine rle_bind (rle_refl _) fun t => ?_
    cases takeBytes (trim s) 3 with
    | none => exact rle_refl _
    | some p =>
      dsimp only
      by_cases h3 : p = c!"%hi"
      · rw [if_pos h3, if_pos h3]
        cases t.asU32 with
        | none => exact rle_refl _
        | some a =>
          dsimp only
          cases h4 : hiOf x.ovf a with
          | none => left; rfl
          | some h => rw [hiOf_le h4 false (by intro h; cases h)]; exact rle_refl _
      · rw [if_neg h3, if_neg h3]; exact rle_refl _

theorem lift_imm_le (x : Ctx) (ty : IntTy) (s : Str) : WLe (W.lift (parseImm x ty s)) (W.lift (parseImm x.release ty s)) := wle_lift (imm_le x ty s)

set_option maxHeartbeats 4000000 in
theorem arm_le [Unicode] (x : Ctx) (cls : Cls) (op arg : Str) : WLe (parseArm x cls op arg) (parseArm x.release cls op arg) := by
  unfold parseArm
  generalize split ',' arg = args
  cases cls
  all_goals simp only [parseFloat, parseBranch0, parseLi]
  all_goals repeat' first
    | exact wle_refl _
    | with_reducible exact lift_imm_le _ _ _
    | with_reducible refine wle_mkI ?_
    | with_reducible refine wle_bind ?_ (fun _ => ?_)
    | split

theorem inst_le [Unicode] (x : Ctx) (s : Str) : WLe (parseInst x s) (parseInst x.release s) := by
  by_cases hs : s = []
  · subst hs; exact wle_refl _
  · rw [parseInst_eq x hs, parseInst_eq x.release hs]
    exact arm_le x _ _ _

/-- Without overflow checks. -/
def Env.release (e : Env) (rt : Rt) : Env := { e with rt := rt }

theorem trace_le [Unicode] {env : Env} {rt : Rt} (hr : rt.ovf = true → env.rt.ovf = true) {ls : List Str} {tr : List Outcome}
    (h : IsTrace env ls tr) : IsTrace (env.release rt) ls tr := by
  refine ⟨h.1, ?_⟩
  intro k raw o h1 h2
  have h3 := h.2 k raw o h1 h2
  have hc : ctxAt (env.release rt) (tr.take k) = { ctxAt env (tr.take k) with ovf := rt.ovf } := rfl
  unfold lineRes at *
  cases hk : kind raw with
  | blank => rw [hk] at h3; exact h3
  | label l => rw [hk] at h3; exact h3
  | code =>
    rw [hk] at h3
    dsimp only at h3 ⊢
    rw [hc]
    cases ho : rt.ovf with
    | true =>
      have : { ctxAt env (tr.take k) with ovf := true } = ctxAt env (tr.take k) := by
        have := hr ho
        unfold ctxAt
        rw [this]
      rw [this]; exact h3
    | false =>
      rcases inst_le (ctxAt env (tr.take k)) (body raw) with h | h
      · unfold instRes at h3; rw [h] at h3; cases h3
      · have e : { ctxAt env (tr.take k) with ovf := false } = (ctxAt env (tr.take k)).release := rfl
        rw [e, h]; exact h3

theorem adjust_le {env : Env} {rt : Rt} (hr : rt.ovf = true → env.rt.ovf = true) {s : PState} {i : Nat} {e : Nat × Instruction}
    {r : Instruction × List ParserError} (h : adjust1 env s i e = some r) : adjust1 (env.release rt) s i e = some r := by
  unfold adjust1 at *
  have hl : ∀ n, lineAt (env.release rt) n = lineAt env n := fun _ => rfl
  have hi : (env.release rt).input = env.input := rfl
  have hb : (env.release rt).base = env.base := rfl
  have hrt : (env.release rt).rt.ovf = rt.ovf := rfl
  simp only [hl, hi, hb, hrt]
  split at h
  · exact h
  · exact h
  · split at h
    · rename_i hc; rw [if_pos hc]; exact h
    · rename_i hc
      rw [if_neg hc]
      simp only [opt_bind, Option.bind_eq_some_iff] at h ⊢
      obtain ⟨n4, h1, hi', h2, errs, h3, h4⟩ := h
      exact ⟨n4, chkMul_le h1 _ hr, hi', chkAdd_le h2 _ hr, errs, h3, h4⟩
  · split at h
    · exact h
    · rename_i a hc
      simp only [opt_bind, Option.bind_eq_some_iff] at h ⊢
      obtain ⟨n4, h1, hi', h2, h4⟩ := h
      exact ⟨n4, chkMul_le h1 _ hr, hi', chkAdd_le h2 _ hr, h4⟩
  · exact h

theorem mapM_le {α β : Type} {f g : α → Option β} {l : List α} {r : List β} (h : l.mapM f = some r)
    (hfg : ∀ a ∈ l, ∀ b, f a = some b → g a = some b) : l.mapM g = some r := by
  induction l generalizing r with
  | nil => exact h
  | cons a l ih =>
    simp only [List.mapM_cons, opt_bind, Option.bind_eq_some_iff] at h ⊢
    obtain ⟨b, h1, bs, h2, h3⟩ := h
    exact ⟨b, hfg a (List.mem_cons_self ..) b h1, bs, ih h2 (fun a ha => hfg a (List.mem_cons_of_mem _ ha)), h3⟩

theorem subOne_le {ovf : Bool} {i j : Word} (h : subOne ovf i = some j) (o : Bool) (ho : o = true → ovf = true) : subOne o i = some j := by
  unfold subOne at *
  split at h
  · cases h
  · rename_i hn
    rw [if_neg (fun hh => hn ⟨hh.1, ho hh.2⟩)]; exact h

set_option maxHeartbeats 2000000 in
theorem encI_le {ovf : Bool} {op : ITypeOp} {rs rt i : Word} {l : BitVec 64} {ws : List Word} (h : encI ovf op rs rt i l = some ws)
    (o : Bool) (ho : o = true → ovf = true) : encI o op rs rt i l = some ws := by
  cases op
  all_goals first
    | exact h
    | (unfold encI at *
       obtain ⟨t, h1, h2⟩ := Option.map_eq_some_iff.1 h
       rw [subOne_le h1 o ho]; exact congrArg some h2)

theorem assembleInst_le {ovf : Bool} {a b : Instruction} (h : assembleInst ovf a = some b) (o : Bool) (ho : o = true → ovf = true) :
    assembleInst o a = some b := by
  unfold assembleInst at *
  simp only [opt_bind, Option.bind_eq_some_iff] at h ⊢
  obtain ⟨ws, h1, h2⟩ := h
  refine ⟨ws, ?_, h2⟩
  cases a with
  | imm op rs rt im b' =>
    unfold encode at *
    simp only [opt_bind, Option.bind_eq_some_iff] at h1 ⊢
    obtain ⟨i, e1, l, e2, e3⟩ := h1
    exact ⟨i, e1, l, e2, encI_le e3 o ho⟩
  | jump op t b' => exact h1
  | reg op rs rt rd sa b' => exact h1
  | bytes w => exact h1

/-- **C41**: the two build modes agree.  If a build with overflow checks returns from `assemble` (with `Ok` or `Err`), then every
build returns the same instructions, errors and warnings. -/
theorem C41_assemble [Unicode] (rt rt' : Rt) (h : rt.ovf = true) (m : Mipsasm) (text : Str) (hr : assemble rt m text ≠ .panic) :
    assemble rt' m text = assemble rt m text := by
  have ho : rt'.ovf = true → rt.ovf = true := fun _ => h
  unfold assemble at *
  rw [parse_eq] at hr ⊢
  rw [parse_eq]
  have he : (⟨rt', m.base, m.syms, lines text⟩ : Env) = Env.release ⟨rt, m.base, m.syms, lines text⟩ rt' := rfl
  rw [he]
  generalize hE : (⟨rt, m.base, m.syms, lines text⟩ : Env) = env at *
  have hrt : env.rt = rt := by rw [← hE]
  unfold parseT at *
  cases hT : traceFrom env [] env.input with
  | none => rw [hT] at hr; exact absurd rfl hr
  | some tr =>
    rw [hT] at hr
    have hT' : traceFrom (env.release rt') [] (env.release rt').input = some tr :=
      (isTrace_iff _ _ _).2 (trace_le (by rw [hrt]; exact ho) ((isTrace_iff _ _ _).1 hT))
    rw [hT']
    dsimp only at hr ⊢
    cases hA : (outInsts 0 tr).zipIdx.mapM (fun p => adjust1 env (canonF tr) p.2 p.1) with
    | none => rw [hA] at hr; exact absurd rfl hr
    | some out =>
      rw [hA] at hr
      have hA' : (outInsts 0 tr).zipIdx.mapM (fun p => adjust1 (env.release rt') (canonF tr) p.2 p.1) = some out :=
        mapM_le hA fun p _ b hb => adjust_le (by rw [hrt]; exact ho) hb
      rw [hA']
      dsimp only at hr ⊢
      split
      · rename_i hw
        rw [if_pos hw] at hr
        by_cases hE : (outErrors tr ++ out.flatMap (·.2)).isEmpty = true
        · rw [if_pos hE] at hr ⊢
          dsimp only at hr ⊢
          cases hB : assembleAll rt.ovf (out.map (·.1)) with
          | none => rw [hB] at hr; exact absurd rfl hr
          | some bs =>
            have : assembleAll rt'.ovf (out.map (·.1)) = some bs := mapM_le hB fun a _ b hb => assembleInst_le hb _ ho
            rw [this]
        · rw [if_neg hE]
      · rfl

theorem layout_le {ovf o : Bool} (ho : o = true → ovf = true) (base : Word) (syms : List (Word × Str)) (n : Nat) (l : List Instruction) :
    ∀ i fs e out, layout ovf base syms n i fs e l = some out → layout o base syms n i fs e l = some out := by
  induction l with
  | nil => intro i fs e out h; exact h
  | cons x l ih =>
    intro i fs e out h
    unfold layout at h ⊢
    cases e with
    | true =>
      simp only [if_true, opt_bind, Option.bind_eq_some_iff] at h ⊢
      obtain ⟨t, h1, here, h2, tail, h3, h4⟩ := h
      refine ⟨t, h1, here, ?_, tail, ih _ _ _ _ h3, h4⟩
      split at h2
      · rename_i hc
        rw [if_pos hc]
        simp only [Option.bind_eq_some_iff] at h2 ⊢
        obtain ⟨a, e1, b, e2, e3⟩ := h2
        exact ⟨a, chkMul_le e1 _ ho, b, chkAdd_le e2 _ ho, e3⟩
      · rename_i hc; rw [if_neg hc]; exact h2
    | false =>
      simp only [if_neg (show ¬ (false = true) by decide), opt_bind, Option.bind_eq_some_iff] at h ⊢
      obtain ⟨e, h1, t, h2, tail, h3, h4⟩ := h
      refine ⟨e, ?_, t, h2, tail, ih _ _ _ _ h3, h4⟩
      unfold endsFunction at h1 ⊢
      split at h1
      · rename_i hc
        rw [if_pos hc]
        simp only [opt_bind, Option.bind_eq_some_iff] at h1 ⊢
        obtain ⟨t, e1, lo, e2, e3⟩ := h1
        refine ⟨t, e1, lo, chkAdd_le e2 _ ho, ?_⟩
        split at e3
        · rename_i hc; rw [if_pos hc]; exact e3
        · rename_i hc
          rw [if_neg hc]
          simp only [Option.bind_eq_some_iff] at e3 ⊢
          obtain ⟨a, e1, b, e2, e3⟩ := e3
          exact ⟨a, chkMul_le e1 _ ho, b, chkAdd_le e2 _ ho, e3⟩
      · rename_i hc; rw [if_neg hc]; exact h1

/-- **C41**: likewise for `disassemble`. -/
theorem C41_disassemble (rt rt' : Rt) (h : rt.ovf = true) (m : Mipsasm) (ws : List Word) (out : List Str)
    (hr : disassemble rt m ws = some out) : disassemble rt' m ws = some out := by
  unfold disassemble at *
  dsimp only at hr ⊢
  split at hr
  · rename_i hd; rw [if_pos hd]; exact hr
  · rename_i hd
    rw [if_neg hd]
    obtain ⟨o, h1, h2⟩ := Option.map_eq_some_iff.1 hr
    rw [layout_le (fun _ => h) _ _ _ _ _ _ _ _ h1]
    exact congrArg some h2

/-- A program that a build with overflow checks assembles. -/
example : (@assemble asciiUnicode (idRt true) Mipsasm.new c!"foo:\n addiu $a0,$a0,%hi(0x8000)\n bne $a0,$a1,foo").words =
    some [0x24840001#32, 0x1485FFFE#32] := by decide +kernel
example : (@assemble asciiUnicode (idRt false) Mipsasm.new c!"foo:\n addiu $a0,$a0,%hi(0x8000)\n bne $a0,$a1,foo").words =
    some [0x24840001#32, 0x1485FFFE#32] := by decide +kernel
/-- The hypothesis is needed: here only the build without checks returns. -/
theorem C41_panics : @assemble asciiUnicode (idRt true) Mipsasm.new c!"lui $a0, %hi(0xFFFF8000)" = .panic ∧
    (@assemble asciiUnicode (idRt false) Mipsasm.new c!"lui $a0, %hi(0xFFFF8000)").words = some [0x3C040000#32] := by decide +kernel

end Mips
