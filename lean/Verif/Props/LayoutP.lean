/-
C05: the function-splitting layout.
-/
import Verif.Props.Dis2
import Verif.Spec.Layout
import Verif.Lemmas.ProgL

namespace Mips
open Isa Listing Syntax

theorem getSym_label (syms : List (Word × Str)) (a : Word) : getSym syms a ++ c!":" = labelText (fun a => syms.lookup a) a := by
  unfold getSym labelText symAt
  dsimp only
  cases syms.lookup a with
  | some s => rfl
  | none =>
    have : (hex8 a).drop 2 = zeroPad 8 (hexLower a.toNat) := by rw [← hex8_eq]; rfl
    rw [Option.getD_none, this]

theorem render_congr (label : Nat → Str) (b b' : Nat → Bool) (texts : List Str) :
    ∀ i, (∀ k, i ≤ k → b k = b' k) → render label b i texts = render label b' i texts := by
  induction texts with
  | nil => intros; rfl
  | cons t ts ih =>
    intro i h
    rw [render, render, h i (by omega), ih (i + 1) fun k hk => h k (by omega)]

theorem chkMul_some {ovf : Bool} {a b c : Word} (h : chkMul ovf a b = some c) : c = a * b := by
  unfold chkMul at h; split at h
  · cases h
  · exact (Option.some.inj h).symm
theorem chkAdd_some {ovf : Bool} {a b c : Word} (h : chkAdd ovf a b = some c) : c = a + b := by
  unfold chkAdd at h; split at h
  · cases h
  · exact (Option.some.inj h).symm

theorem mul4 (k : Nat) : BitVec.ofNat 32 k * 4#32 = BitVec.ofNat 32 (4 * k) := by
  apply BitVec.eq_of_toNat_eq; simp [BitVec.toNat_mul, Nat.mul_comm]

/-- The label lines. -/
def lbl (base : Word) (syms : List (Word × Str)) (k : Nat) : Str :=
  labelText (fun a => syms.lookup a) (base + BitVec.ofNat 32 (4 * k))

/-- Any successful run of the loop renders the display texts, with breaks somewhere. -/
theorem layout_shape (ovf : Bool) (base : Word) (syms : List (Word × Str)) (n : Nat) (xs : List Instruction) :
    ∀ i fs ended out, i + xs.length = n → layout ovf base syms n i fs ended xs = some out →
      ∃ texts brk, xs.map Instruction.display = texts.map some ∧
        out = render (lbl base syms) brk i texts := by
  induction xs with
  | nil =>
    intro i fs ended out _ h
    simp only [layout, Option.some.injEq] at h
    subst h
    exact ⟨[], fun _ => false, rfl, rfl⟩
  | cons x xs ih =>
    intro i fs ended out hn h
    have hl : ∀ texts : List Str, xs.map Instruction.display = texts.map some → texts.length = xs.length := by
      intro texts h; have := congrArg List.length h; simpa using this.symm
    rw [layout] at h
    split at h
    · simp only [opt_bind, Option.bind_eq_some_iff] at h
      obtain ⟨t, ht, here, hh, tail, h1, h2⟩ := h
      obtain ⟨texts, brk, e1, e2⟩ := ih _ _ _ _ (by simp at hn; omega) h1
      refine ⟨t :: texts, fun k => if k = i then true else brk k, by simp [ht, e1], ?_⟩
      have ec := render_congr (lbl base syms) (fun k => if k = i then true else brk k) brk texts (i + 1)
        (by intro k hk; simp; omega)
      rw [render, ec, ← e2]
      have hlen := hl texts e1
      simp only [Option.some.injEq] at h2
      subst h2
      simp only [if_true, Bool.true_and]
      split at hh
      · rename_i hlt
        simp only [opt_bind, Option.bind_eq_some_iff, Option.some.injEq] at hh
        obtain ⟨i4, hm, a, ha, hh⟩ := hh
        rw [← hh, if_pos]
        · simp only [getSym_label, chkAdd_some ha, chkMul_some hm, mul4, lbl]; simp
        · have : texts ≠ [] := by intro e; rw [e] at hlen; simp at hlen hn; omega
          cases texts <;> simp at this ⊢
      · rename_i hlt
        simp only [Option.some.injEq] at hh
        rw [← hh, if_neg]
        · simp
        · have : texts.length = 0 := by rw [hlen]; simp at hn; omega
          rw [List.length_eq_zero_iff] at this
          rw [this]; simp
    · simp only [opt_bind, Option.bind_eq_some_iff] at h
      obtain ⟨e, he, t, ht, tail, h1, h2⟩ := h
      obtain ⟨texts, brk, e1, e2⟩ := ih _ _ _ _ (by simp at hn; omega) h1
      refine ⟨t :: texts, fun k => if k = i then false else brk k, by simp [ht, e1], ?_⟩
      have ec := render_congr (lbl base syms) (fun k => if k = i then false else brk k) brk texts (i + 1)
        (by intro k hk; simp; omega)
      rw [render, ec, ← e2]
      simp only [Option.some.injEq] at h2
      subst h2
      simp


theorem special_uncond (w : Word) (f : Fields) : (decodeSpecial w f).isUnconditionalJump = decide (f.funct.toNat = 8) ∧
    (decodeSpecial w f).getJumpTarget = some none := by
  unfold decodeSpecial
  split
  case h_53 => exact ⟨by rw [decide_eq_false (by assumption)]; rfl, rfl⟩
  all_goals (refine ⟨?_, rfl⟩; rw [‹f.funct.toNat = _›]; rfl)
theorem regimm_uncond (w : Word) (f : Fields) : (decodeRegimm w f).isUnconditionalJump = false := by
  unfold decodeRegimm; split <;> rfl
theorem cop0_uncond (w : Word) (f : Fields) : (decodeCop0 w f).isUnconditionalJump = false := by
  unfold decodeCop0
  split <;> first | rfl | (unfold decodeCop0Co; split <;> rfl)
theorem cop1_uncond (w : Word) (f : Fields) : (decodeCop1 w f).isUnconditionalJump = false := by
  unfold decodeCop1
  split <;> first | rfl | (unfold decodeCop1S; split <;> rfl) | (unfold decodeCop1D; split <;> rfl) |
    (unfold decodeCop1W; split <;> rfl) | (unfold decodeCop1L; split <;> rfl)

/-- No `j` goes to an address in the symbol table. -/
def Listing.NoSymJump (m : Mipsasm) (ws : List Word) : Prop :=
  ∀ w ∈ ws, fOp w = 2#6 → m.syms.lookup (jumpAddr m.base (fTarget w)) = none

theorem uncond_false (base w : Word) (h : ¬ (fOp w = 0#6 ∧ fFn w = 8#6)) (h2 : fOp w ≠ 2#6) (syms : List (Word × Str)) :
    (matchSym syms (decode base w)).isUnconditionalJump = false := by
  by_cases h3 : fOp w = 3#6
  · have e : decode base w = .jump .Jal (.address (jumpTarget base w)) [w] := by
      unfold decode; dsimp only; rw [fields_op, h3]; rfl
    rw [e]; unfold matchSym; dsimp only; cases symAt syms (jumpTarget base w) <;> rfl
  · rw [matchSym_notJump _ _ (decode_notJump _ _ h2 h3)]
    unfold decode
    dsimp only
    rw [fields_op]
    split
    case h_1 h0 =>
      rw [(special_uncond ..).1, fields_funct, decide_eq_false]
      intro e; exact h ⟨bv_of h0, bv_of e⟩
    case h_3 h => exact absurd (bv_of h) h2
    case h_4 h => exact absurd (bv_of h) h3
    all_goals first | rfl | exact regimm_uncond .. | exact cop0_uncond .. | exact cop1_uncond ..

theorem chkAdd_ok {ovf : Bool} {a b : Word} (h : a.toNat + b.toNat < 2 ^ 32) : chkAdd ovf a b = some (a + b) := by
  unfold chkAdd; rw [if_neg (by omega)]
theorem chkMul_ok {ovf : Bool} {a b : Word} (h : a.toNat * b.toNat < 2 ^ 32) : chkMul ovf a b = some (a * b) := by
  unfold chkMul; rw [if_neg (by omega)]

theorem ends_eq (ovf : Bool) (m : Mipsasm) (ws : List Word) (hs : NoSymJump m ws) (hb : m.base.toNat + 4 * ws.length ≤ 2 ^ 32)
    (lo i : Nat) (w : Word) (hi : ws[i]? = some w) (hlo : lo ≤ i) :
    endsFunction ovf m.base (lo * 4) i (matchSym m.syms (decode m.base w)) = some (leaves m.base ws lo i) := by
  have hil : i < ws.length := by rw [List.getElem?_eq_some_iff] at hi; exact hi.1
  unfold leaves
  rw [hi]
  dsimp only
  by_cases h0 : fOp w = 0#6 ∧ fFn w = 8#6
  · have e : decode m.base w = .reg .Jr (fields w).rs 0 0 0#32 [w] := by
      unfold decode; dsimp only; rw [fields_op, h0.1]
      show decodeSpecial w (fields w) = _
      unfold decodeSpecial; rw [fields_funct, h0.2]; rfl
    rw [e]
    show endsFunction _ _ _ _ (Instruction.reg .Jr _ _ _ _ _) = _
    unfold endsFunction
    simp only [Instruction.isUnconditionalJump, if_true, Instruction.getJumpTarget, opt_bind, Option.bind_some]
    rw [chkAdd_ok (by simp only [BitVec.toNat_ofNat]; rw [Nat.mod_eq_of_lt (by omega)]; omega)]
    simp [optLt, h0]
  · by_cases h2 : fOp w = 2#6
    · have e : decode m.base w = .jump .J (.address (jumpTarget m.base w)) [w] := by
        unfold decode; dsimp only; rw [fields_op, h2]; rfl
      have e2 : matchSym m.syms (decode m.base w) = .jump .J (.address (jumpAddr m.base (fTarget w))) [w] := by
        rw [e]; unfold matchSym; dsimp only; rw [jumpTarget_eq]
        have : symAt m.syms (jumpAddr m.base (fTarget w)) = none := hs w (List.mem_of_getElem? hi) h2
        rw [this]
      rw [e2]
      have q1 : (BitVec.ofNat 32 (lo * 4)).toNat = lo * 4 := by
        rw [BitVec.toNat_ofNat]; exact Nat.mod_eq_of_lt (by omega)
      have q2 : (BitVec.ofNat 32 i).toNat = i := by
        rw [BitVec.toNat_ofNat]; exact Nat.mod_eq_of_lt (by omega)
      have q3 : (BitVec.ofNat 32 i * 4#32).toNat = i * 4 := by
        rw [BitVec.toNat_mul, q2]; exact Nat.mod_eq_of_lt (by simp; omega)
      unfold endsFunction
      simp only [Instruction.isUnconditionalJump, if_true, Instruction.getJumpTarget, Target.asU32, opt_bind, Option.bind_some, Option.map_some]
      rw [chkAdd_ok (by omega), Option.bind_some]
      rw [chkMul_ok (by rw [q2]; simp; omega), Option.bind_some]
      rw [chkAdd_ok (by omega), Option.bind_some]
      have r1 : (BitVec.ofNat 32 (lo * 4) + m.base).toNat = m.base.toNat + 4 * lo := by
        rw [BitVec.toNat_add, q1, Nat.mod_eq_of_lt (by omega)]; omega
      have r2 : (BitVec.ofNat 32 i * 4#32 + m.base).toNat = m.base.toNat + 4 * i := by
        rw [BitVec.toNat_add, q3, Nat.mod_eq_of_lt (by omega)]; omega
      simp only [optLt, r1, r2, h2]
      by_cases c1 : (jumpAddr m.base (fTarget w)).toNat < m.base.toNat + 4 * lo
      · simp [c1]
      · simp [c1]
    · unfold endsFunction
      rw [uncond_false m.base w h0 h2 m.syms]
      have h0' : (decide (fOp w = 0#6) && decide (fFn w = 8#6)) = false := by
        rw [Bool.eq_false_iff]; simpa using h0
      simp [h2]
      simpa using h0'

/-- The walk of the code: after a break the function is taken to start at the delay slot. -/
theorem layout_exact (ovf : Bool) (m : Mipsasm) (ws : List Word) (hs : NoSymJump m ws) (hb : m.base.toNat + 4 * ws.length ≤ 2 ^ 32)
    (texts : List Str) (ht : ws.map (fun w => (matchSym m.syms (decode m.base w)).display) = texts.map some) :
    ∀ j i, i + j = ws.length → (walk id m.base ws i).1 ≤ i ∧
      layout ovf m.base m.syms ws.length i ((walk id m.base ws i).1 * 4) (walk id m.base ws i).2
        ((ws.drop i).map fun w => matchSym m.syms (decode m.base w)) =
      some (render (lbl m.base m.syms) (fun k => (walk id m.base ws k).2) i (texts.drop i)) := by
  have hlo : ∀ i, (walk id m.base ws i).1 ≤ i := by
    intro i
    induction i with
    | zero => exact Nat.le_refl _
    | succ i ih =>
      rw [walk]
      split
      · exact Nat.le_succ i
      · exact Nat.le_succ_of_le ih
  have hlen : texts.length = ws.length := by have := congrArg List.length ht; simpa using this.symm
  intro j
  induction j with
  | zero =>
    intro i h
    refine ⟨hlo i, ?_⟩
    rw [List.drop_of_length_le (by omega), List.drop_of_length_le (by omega)]
    rfl
  | succ j ih =>
    intro i h
    refine ⟨hlo i, ?_⟩
    obtain ⟨-, ih⟩ := ih (i + 1) (by omega)
    have hi : i < ws.length := by omega
    have hi' : i < texts.length := by omega
    have hx : (matchSym m.syms (decode m.base ws[i])).display = some texts[i] := by
      have := congrArg (·[i]?) ht
      simpa [hi, hi'] using this
    rw [List.drop_eq_getElem_cons hi, List.drop_eq_getElem_cons hi', List.map_cons, layout, render]
    rw [walk] at ih
    by_cases hw : (walk id m.base ws i).2 = true
    · rw [if_pos hw] at ih
      rw [if_pos hw, hx]
      simp only [opt_bind, Option.bind_some]
      dsimp only [id] at ih
      rw [ih, hw]
      by_cases hl : i < ws.length - 1
      · have q2 : (BitVec.ofNat 32 (i + 1)).toNat = i + 1 := by
          rw [BitVec.toNat_ofNat]; exact Nat.mod_eq_of_lt (by omega)
        have q3 : (BitVec.ofNat 32 (i + 1) * 4#32).toNat = (i + 1) * 4 := by
          rw [BitVec.toNat_mul, q2]; exact Nat.mod_eq_of_lt (by simp; omega)
        rw [if_pos hl, chkMul_ok (by rw [q2]; simp; omega), Option.bind_some, chkAdd_ok (by omega), Option.bind_some, Option.bind_some, Option.bind_some]
        have : (texts.drop (i + 1)).isEmpty = false := by
          rw [List.drop_eq_getElem_cons (by omega)]; rfl
        simp only [this, getSym_label, mul4, lbl]; simp
      · rw [if_neg hl, Option.bind_some, Option.bind_some]
        have : (texts.drop (i + 1)).isEmpty = true := by
          rw [List.drop_of_length_le (by omega)]; rfl
        simp [this]
    · rw [if_neg hw] at ih
      rw [if_neg hw, ends_eq ovf m ws hs hb _ i ws[i] (by simp [hi]) (hlo i)]
      simp only [opt_bind, Option.bind_some]
      rw [hx, Option.bind_some]
      dsimp only at ih
      rw [ih, Option.bind_some]
      rw [Bool.not_eq_true] at hw
      simp [hw]

theorem displays (m : Mipsasm) (ws : List Word) : ∃ texts : List Str,
    ws.map (fun w => (matchSym m.syms (decode m.base w)).display) = texts.map some := by
  induction ws with
  | nil => exact ⟨[], rfl⟩
  | cons w ws ih =>
    obtain ⟨ts, h⟩ := ih
    obtain ⟨t, ht⟩ := Option.isSome_iff_exists.mp (matchSym_display m.syms _ (decode_display m.base w))
    exact ⟨t :: ts, by simp [ht, h]⟩

/-- The listing has one text per word, and up to white space they are the texts of the debug mode. -/
def Listing.SameTexts (rt : Rt) (m : Mipsasm) (ws : List Word) (texts : List Str) : Prop :=
  disassemble rt m.setDebug ws = some (texts.map squash)

theorem sameTexts (rt : Rt) (m : Mipsasm) (ws : List Word) (texts : List Str)
    (h : ws.map (fun w => (matchSym m.syms (decode m.base w)).display) = texts.map some) : SameTexts rt m ws texts := by
  unfold SameTexts disassemble Mipsasm.setDebug
  dsimp only
  rw [if_pos rfl]
  unfold disassembleWords
  rw [List.map_map]
  clear rt
  induction ws generalizing texts with
  | nil => cases texts <;> simp at h; rfl
  | cons w ws ih =>
    cases texts with
    | nil => simp at h
    | cons t ts =>
      simp only [List.map_cons, List.cons.injEq] at h
      simp only [List.map_cons, List.mapM_cons, ih ts h.2, opt_bind]
      have : (matchSym m.syms (decode m.base w)).debug = some (squash t) := by
        unfold Instruction.debug; rw [h.1, Option.map_some, squeeze_eq]
      simp only [Function.comp_apply, this]; rfl

/-- C05, every listing: whenever `disassemble` (in normal mode) returns, the result is the label of the base address
followed by the texts of the instructions in program order, between which there are only pairs of an empty line and the label
of the address that follows. -/
theorem C05_shape (rt : Rt) (m : Mipsasm) (hm : m.debug = false) (ws : List Word) (out : List Str)
    (h : disassemble rt m ws = some out) :
    ∃ texts brk, SameTexts rt m ws texts ∧
      out = labelText (fun a => m.syms.lookup a) m.base ::
        render (fun k => labelText (fun a => m.syms.lookup a) (m.base + BitVec.ofNat 32 (4 * k))) brk 0 texts := by
  unfold disassemble at h
  dsimp only at h
  rw [hm] at h
  simp only [Bool.false_eq_true, if_false, Option.map_eq_some_iff] at h
  obtain ⟨o, h1, h2⟩ := h
  obtain ⟨texts, brk, e1, e2⟩ := layout_shape _ _ _ _ _ _ _ _ _ (Nat.zero_add _) h1
  refine ⟨texts, brk, sameTexts rt m ws texts (by simpa [disassembleWords, Function.comp_def] using e1), ?_⟩
  rw [← h2, e2, getSym_label]; rfl

theorem layout_total (rt : Rt) (m : Mipsasm) (hm : m.debug = false) (ws : List Word) (hs : NoSymJump m ws)
    (hb : m.base.toNat + 4 * ws.length ≤ 2 ^ 32) :
    ∃ texts, SameTexts rt m ws texts ∧ disassemble rt m ws = some (labelText (fun a => m.syms.lookup a) m.base ::
        render (lbl m.base m.syms) (fun k => (walk id m.base ws k).2) 0 texts) := by
  obtain ⟨texts, ht⟩ := displays m ws
  refine ⟨texts, sameTexts rt m ws texts ht, ?_⟩
  have := (layout_exact rt.ovf m ws hs hb texts ht ws.length 0 (by omega)).2
  unfold disassemble
  dsimp only
  rw [hm]
  simp only [Bool.false_eq_true, if_false]
  have e : (disassembleWords ws m.base).map (matchSym m.syms) = (ws.drop 0).map fun w => matchSym m.syms (decode m.base w) := by
    simp [disassembleWords, Function.comp_def]
  rw [e]
  have hl : ((ws.drop 0).map fun w => matchSym m.syms (decode m.base w)).length = ws.length := by simp
  rw [hl]
  change layout rt.ovf m.base m.syms ws.length 0 0 false _ = _ at this
  rw [this, Option.map_some, getSym_label]
  rfl

/-- C05, the breaks the code makes: it is as specified except that after a break the current function is taken to start at
the delay slot of the jump (`walk id`) and not behind it (`walk (· + 1)`).  Not proved because false: the case that a `j` goes to a
symbol (panic, `C05_panics`), and addresses beyond 2^32. -/
theorem C05_breaks_partial (rt : Rt) (m : Mipsasm) (hm : m.debug = false) (ws : List Word) (hs : NoSymJump m ws)
    (hb : m.base.toNat + 4 * ws.length ≤ 2 ^ 32) :
    ∃ texts, SameTexts rt m ws texts ∧ disassemble rt m ws = some (labelText (fun a => m.syms.lookup a) m.base ::
        render (fun k => labelText (fun a => m.syms.lookup a) (m.base + BitVec.ofNat 32 (4 * k)))
          (fun k => (walk id m.base ws k).2) 0 texts) :=
  layout_total rt m hm ws hs hb

/-- No `j` of the program goes to a delay slot that the code takes for a function start: `j` back to the word in front of the start
of its function. -/
def Listing.NoSlotJump (base : Word) (ws : List Word) : Prop :=
  ∀ i w, ws[i]? = some w → fOp w = 2#6 →
    ¬ (base.toNat + 4 * (walk (· + 1) base ws i).1 ≤ (jumpAddr base (fTarget w)).toNat + 4 ∧
      (jumpAddr base (fTarget w)).toNat < base.toNat + 4 * (walk (· + 1) base ws i).1)

theorem walk_agree (base : Word) (ws : List Word) (h : NoSlotJump base ws) :
    ∀ i, (walk id base ws i).2 = (walk (· + 1) base ws i).2 ∧
      ((walk id base ws i).1 = (walk (· + 1) base ws i).1 ∨ (walk id base ws i).1 + 1 = (walk (· + 1) base ws i).1) := by
  intro i
  induction i with
  | zero => exact ⟨rfl, .inl rfl⟩
  | succ i ih =>
    obtain ⟨h1, h2⟩ := ih
    rw [walk, walk, h1]
    by_cases hw : (walk (· + 1) base ws i).2 = true
    · rw [if_pos hw, if_pos hw]; exact ⟨rfl, .inr rfl⟩
    · rw [if_neg hw, if_neg hw]
      refine ⟨?_, h2⟩
      dsimp only
      rcases h2 with h2 | h2
      · rw [h2]
      · unfold leaves
        cases hwi : ws[i]? with
        | none => rfl
        | some w =>
          dsimp only
          by_cases ho : fOp w = 2#6
          · have hne := h i w hwi ho
            simp only [ho]
            have : (jumpAddr base (fTarget w)).toNat < base.toNat + 4 * (walk id base ws i).1 ↔
                (jumpAddr base (fTarget w)).toNat < base.toNat + 4 * (walk (· + 1) base ws i).1 := by omega
            simp only [this]
          · simp [ho]

/-- C05, the intended layout: labels go after the delay slots of jumps that leave the current function and nowhere else. -/
theorem C05_listing_partial (rt : Rt) (m : Mipsasm) (hm : m.debug = false) (ws : List Word) (hs : NoSymJump m ws)
    (hb : m.base.toNat + 4 * ws.length ≤ 2 ^ 32) (hj : NoSlotJump m.base ws) :
    ∃ texts, SameTexts rt m ws texts ∧ disassemble rt m ws = some (labelText (fun a => m.syms.lookup a) m.base ::
        render (fun k => labelText (fun a => m.syms.lookup a) (m.base + BitVec.ofNat 32 (4 * k))) (ends m.base ws) 0 texts) := by
  obtain ⟨texts, h1, h2⟩ := layout_total rt m hm ws hs hb
  refine ⟨texts, h1, h2.trans ?_⟩
  rw [render_congr _ _ (ends m.base ws) texts 0 fun k _ => (walk_agree m.base ws hj k).1]
  rfl

/-- Non-vacuity: two functions, the second reached by nothing; and the listing the theorem speaks of. -/
example : NoSymJump ⟨0x80000000#32, [(0x80000008#32, c!"g")], false⟩ [0x03e00008#32, 0x00000000#32, 0x08000003#32, 0x00000000#32] ∧
    NoSlotJump 0x80000000#32 [0x03e00008#32, 0x00000000#32, 0x08000003#32, 0x00000000#32] ∧
    disassemble (idRt true) ⟨0x80000000#32, [(0x80000008#32, c!"g")], false⟩
      [0x03e00008#32, 0x00000000#32, 0x08000003#32, 0x00000000#32] =
      some [c!"func_80000000:", c!"jr         $ra", c!"sll        $zero, $zero, 0x0", [], c!"g:",
        c!"j          0x8000000C", c!"sll        $zero, $zero, 0x0"] := by
  refine ⟨?_, ?_, by decide +kernel⟩
  · intro w hw
    simp only [List.mem_cons, List.not_mem_nil, or_false] at hw
    rcases hw with rfl | rfl | rfl | rfl <;> decide
  · intro i w hi ho
    match i, hi with
    | 0, hi => cases hi; exact absurd ho (by decide)
    | 1, hi => cases hi; exact absurd ho (by decide)
    | 2, hi => cases hi; decide +kernel
    | 3, hi => cases hi; exact absurd ho (by decide)

/-- C05 is false of the code (1): a `j` to a symbol makes `disassemble` panic. -/
theorem C05_panics : disassemble (idRt false) ⟨0x80000000#32, [(0x80000000#32, c!"main")], false⟩ [0x08000000#32, 0#32] = none := by
  decide +kernel

/-- C05 is false of the code (2): after `jr $ra; nop`, a function at index 2 that jumps to index 1 leaves its function, but gets no
label after its delay slot. -/
theorem C05_slot_wrong :
    ends 0#32 [0x03e00008#32, 0#32, 0x08000001#32, 0#32, 0#32] 3 = true ∧
    disassemble (idRt false) Mipsasm.new [0x03e00008#32, 0#32, 0x08000001#32, 0#32, 0#32] =
      some [c!"func_00000000:", c!"jr         $ra", c!"sll        $zero, $zero, 0x0", [], c!"func_00000008:",
        c!"j          0x4", c!"sll        $zero, $zero, 0x0", c!"sll        $zero, $zero, 0x0"] := by
  decide +kernel

/-- C05 is false of the code (3): at the top of the address space the address arithmetic overflows (a panic where overflow checks are on). -/
theorem C05_overflow : disassemble (idRt true) ⟨0xfffffff8#32, [], false⟩ [0#32, 0x03e00008#32, 0x08000000#32, 0#32] = none := by
  decide +kernel

end Mips
