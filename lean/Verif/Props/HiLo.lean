/- C20: %hi and %lo. -/
import Verif.Props.Jumps
import Verif.Props.Consts
import Verif.Props.Native
import Verif.Props.CmpBranch
import Verif.Spec.HiLo

namespace Mips
open Isa Syntax Source HiLo Machine

theorem unum_safe {s : Str} {n : Nat} (h : UNum s n) : ∀ c ∈ s, c ≠ '(' ∧ c ≠ ')' ∧ c ≠ ',' ∧ c ≠ '\n' := by
  have := pnum_chars (PNum.mk [] s [] n (by simp [Blank]) (by simp [Blank]) (.pos s n h))
  simpa using this.2

theorem names_chars {syms : List (BitVec 32 × Str)} {t : Str} {x : BitVec 32} (h : Names syms t x) :
    ∀ c ∈ t, c ≠ '(' ∧ c ≠ ')' ∧ c ≠ ',' ∧ c ≠ '\n' := by
  cases h with
  | sym _ h1 h2 => exact h2
  | num _ h1 h2 h3 => exact unum_safe h1

theorem names_target (x : Ctx) {t : Str} {a : Word} (hn : (x.syms.map (·.2)).Nodup) (h : Names x.syms t a) :
    parseTarget x t = .ok (.address a) := by
  cases h with
  | sym _ h1 h2 => unfold parseTarget; rw [findSym_some h1 hn]
  | num _ h1 h2 h3 => exact parseTarget_num x h1 h2 (findSym_none h3)

theorem removeParens_id {t : Str} (h : ∀ c ∈ t, c ≠ '(' ∧ c ≠ ')' ∧ c ≠ ',' ∧ c ≠ '\n') : removeParens ('(' :: (t ++ [')'])) = t := by
  unfold removeParens
  simp only [List.filter_cons, List.filter_append]
  simp
  intro c hc
  exact ⟨(h c hc).1, (h c hc).2.1⟩

/-- The labels of the context have no parenthesis. -/
def NoParen (labels : List (Str × Nat)) : Prop := ∀ e ∈ labels, '(' ∉ e.1

theorem AtLine.noParen {rt : Rt} {m : Mipsasm} {ls : List Str} {k : Nat} {x : Ctx} (h : AtLine rt m ls k x)
    (hn : NoParenLabel ls) : NoParen x.labels := by
  intro e he
  rw [h.labels] at he
  exact hn e (globals_take_mem he)

/-- What `parse_immediate` makes of `%hi(x)` and `%lo(x)`. -/
theorem parseImm_half (x : Ctx) (ty : IntTy) {f s : Str} {a : Word} (hf : f = c!"%hi" ∨ f = c!"%lo") (hp : NoParen x.labels)
    (hn : (x.syms.map (·.2)).Nodup) (h : Half x.syms f s a) :
    parseImm x ty s = if f = c!"%hi" then (match hiOf x.ovf a with | none => .panic | some h => .ok (.short h)) else
      .ok (.short (loOf a)) := by
  obtain ⟨p, t, q, hp1, hq1, rfl, hN⟩ := h
  have hc := names_chars hN
  have ht : trim (p ++ (f ++ '(' :: (t ++ [')'])) ++ q) = f ++ '(' :: (t ++ [')']) := by
    apply trim_blank_tight _ _ _ (blank_ws hp1) (blank_ws hq1)
    refine ⟨by simp, ?_, ?_⟩
    · rcases hf with rfl | rfl <;> · intro c h; cases h; decide
    · intro c h
      have : (f ++ '(' :: (t ++ [')'])).getLast? = some ')' := by
        rw [show f ++ '(' :: (t ++ [')']) = (f ++ '(' :: t) ++ [')'] by simp]; exact List.getLast?_concat ..
      rw [this] at h; cases h; decide
  unfold parseImm
  simp only [ht]
  have h1 : startsWith c!"@@" (f ++ '(' :: (t ++ [')'])) = false := by rcases hf with rfl | rfl <;> rfl
  have h2 : hasLabel x.labels (f ++ '(' :: (t ++ [')'])) = false := by
    unfold hasLabel
    rw [List.any_eq_false]
    intro e he
    simp only [beq_iff_eq]
    intro hh
    exact hp e he (by rw [hh]; simp)
  have h3 : findImm (f ++ '(' :: (t ++ [')'])) = some ('(' :: (t ++ [')'])) := by
    unfold findImm
    have hno : '(' ∉ f := by rcases hf with rfl | rfl <;> decide
    have := Re.find_IMM f t [] hno (by simp) (fun c h => (hc c h).2.2.2)
    rw [this]; rfl
  have h4 : takeBytes (f ++ '(' :: (t ++ [')'])) 3 = some f := by
    rcases hf with rfl | rfl <;> rfl
  rw [h1, h2, h3]
  simp only [Bool.false_eq_true, if_false, removeParens_id hc, names_target x hn hN, Res.bind, h4, Target.asU32]
  rcases hf with rfl | rfl
  · rfl
  · rfl

theorem half_chars {syms : List (BitVec 32 × Str)} {f s : Str} {x : BitVec 32} (hf : f = c!"%hi" ∨ f = c!"%lo") (h : Half syms f s x) :
    s ≠ [] ∧ ∀ c ∈ s, c ≠ ',' ∧ c ≠ '\n' := by
  obtain ⟨p, t, q, hp, hq, rfl, hN⟩ := h
  refine ⟨by simp, ?_⟩
  have h1 := blank_chars hp
  have h2 := blank_chars hq
  have h3 := names_chars hN
  intro c hc
  simp only [List.mem_append, List.mem_cons, List.not_mem_nil, or_false] at hc
  rcases hc with (h | h | h | h | h) | h
  · exact ⟨(h1 c h).2.2.1, (h1 c h).2.2.2⟩
  · have : ∀ c ∈ f, c ≠ ',' ∧ c ≠ '\n' := by rcases hf with rfl | rfl <;> decide
    exact this c h
  · subst h; decide
  · exact ⟨(h3 c h).2.2.1, (h3 c h).2.2.2⟩
  · subst h; decide
  · exact ⟨(h2 c h).2.2.1, (h2 c h).2.2.2⟩

theorem hiOf_release (a : Word) : ∃ h, hiOf false a = some h ∧ address h (loOf a) = a := by
  refine ⟨((a + (a &&& 0x8000#32) * 2#32) >>> 16).setWidth 16, rfl, ?_⟩
  unfold address loOf
  have h1 : (a &&& 0x8000#32).toNat = if a.toNat % 2 ^ 16 < 2 ^ 15 then 0 else 2 ^ 15 := by
    have : (0x8000#32) = BitVec.twoPow 32 15 := by decide
    rw [this, BitVec.and_twoPow]
    have hb : a.getLsbD 15 = decide (2 ^ 15 ≤ a.toNat % 2 ^ 16) := by
      unfold BitVec.getLsbD
      rw [Nat.testBit_eq_decide_div_mod_eq]
      congr 1; apply propext; omega
    rw [hb]
    by_cases h : a.toNat % 2 ^ 16 < 2 ^ 15
    · rw [if_pos h, if_neg (by simp; omega)]; rfl
    · rw [if_neg h, if_pos (by simp; omega)]; rfl
  have h2 : ((a &&& 0xffff#32).setWidth 16).toNat = a.toNat % 2 ^ 16 := by
    rw [and16]; unfold lo16; simp
  generalize hx : (a &&& 0x8000#32) = m at *
  generalize hl : ((a &&& 0xffff#32).setWidth 16) = l at *
  have ha := a.isLt
  apply BitVec.eq_of_toNat_eq
  have hs : (l.signExtend 32).toNat = if l.toNat < 2 ^ 15 then l.toNat else l.toNat + (2 ^ 32 - 2 ^ 16) := by
    rw [BitVec.toNat_signExtend]
    have : l.msb = decide (2 ^ 15 ≤ l.toNat) := by rw [BitVec.msb_eq_decide]
    rw [this]
    have := l.isLt
    by_cases h : l.toNat < 2 ^ 15
    · rw [if_pos h, if_neg (by simp; omega)]; simp; omega
    · rw [if_neg h, if_pos (by simp; omega)]; simp; omega
  have hh : ∀ h : BitVec 16, (h ++ 0#16).toNat = h.toNat * 2 ^ 16 := by
    intro h; rw [BitVec.toNat_append, Nat.shiftLeft_eq]; exact Nat.or_zero _
  rw [BitVec.toNat_add, hh, hs, h2]
  simp only [BitVec.toNat_setWidth, BitVec.toNat_ushiftRight, BitVec.toNat_add, BitVec.toNat_mul, h1, Nat.shiftRight_eq_div_pow]
  rw [show (2#32).toNat = 2 by rfl]
  split <;> omega

theorem hiOf_checked (a : Word) : hiOf true a = if a.toNat < 0xFFFF8000 then hiOf false a else none := by
  unfold hiOf
  have h1 : ((a &&& 0x8000#32) * 2#32).toNat = if a.toNat % 2 ^ 16 < 2 ^ 15 then 0 else 2 ^ 16 := by
    have h1 : (a &&& 0x8000#32) = if a.toNat % 2 ^ 16 < 2 ^ 15 then 0 else 0x8000#32 := by
      have : (0x8000#32) = BitVec.twoPow 32 15 := by decide
      rw [this, BitVec.and_twoPow]
      have hb : a.getLsbD 15 = decide (2 ^ 15 ≤ a.toNat % 2 ^ 16) := by
        unfold BitVec.getLsbD
        rw [Nat.testBit_eq_decide_div_mod_eq]
        congr 1; apply propext; omega
      rw [hb]
      by_cases h : a.toNat % 2 ^ 16 < 2 ^ 15
      · rw [if_pos h, if_neg (by simp; omega)]; rfl
      · rw [if_neg h, if_pos (by simp; omega)]
    rw [h1]; split
    · rfl
    · rfl
  have ha := a.isLt
  by_cases h : a.toNat < 0xFFFF8000
  · rw [if_pos h]
    unfold chkAdd
    rw [h1, if_neg (by intro hh; have := hh.2; split at this <;> omega)]
    rfl
  · rw [if_neg h]
    unfold chkAdd
    rw [h1, if_pos ⟨rfl, by split <;> omega⟩]
    rfl

theorem gpr_noComma {s : Str} {r : BitVec 5} (h : Reg GprCore s r) : ',' ∉ s := spells_noComma (.gpr s r h)

theorem lui_enc (r : BitVec 5) (v : BitVec 16) : encoding c!"lui" [.gpr r, .uimm v] = some (iWord 15 0 r v) := by
  unfold encoding
  rw [show (table.find? fun r => r.mn == c!"lui") = some ⟨c!"lui", .rtUimm, .main 15⟩ by decide +kernel]
  rfl

/-- `lui r, %hi(a)`. -/
theorem hi_emits [Unicode] (x : Ctx) (hp : NoParen x.labels) (hn : (x.syms.map (·.2)).Nodup) {s : Str} {r : BitVec 5} {a : Word}
    (h : HiText x.syms s r a) {v : BitVec 16} (hv : hiOf x.ovf a = some v) (ovf : Bool) :
    Emits x s ovf [iWord 15 0 r v] := by
  obtain ⟨mn', ra, b, rfl, hm, hr, hb⟩ := h
  have hM : Mn mn' c!"lui" := ⟨hm, by decide⟩
  have hi := parseImm_half x .u16 (Or.inl rfl) hp hn hb
  rw [if_pos rfl, hv] at hi
  have hs : split ',' (ra ++ ',' :: b) = [ra, b] := by
    rw [split_cons _ _ _ (gpr_noComma hr), split_noComma _ _ (fun h => ((half_chars (Or.inl rfl) hb).2 _ h).1 rfl)]
  refine ⟨.imm .Lui Register.null r.toFin (.short v) [], ?_, rfl, ?_⟩
  · rw [parseInst_args x hM, show classify c!"lui" = .lui by decide +kernel, arm_lui x hM (o := .Lui) (by decide +kernel) hs hr hi]
  · rw [encode_imm]
    simp only [num_toFin, num_null]
    exact enc_rtUimm_lui_main (c!"lui", .Lui, 15) (by decide +kernel) ovf r v _

theorem hi_panics [Unicode] (x : Ctx) (hp : NoParen x.labels) (hn : (x.syms.map (·.2)).Nodup) {s : Str} {r : BitVec 5} {a : Word}
    (h : HiText x.syms s r a) (hv : hiOf x.ovf a = none) : (parseInst x s).res = .panic := by
  obtain ⟨mn', ra, b, rfl, hm, hr, hb⟩ := h
  have hM : Mn mn' c!"lui" := ⟨hm, by decide⟩
  have hi := parseImm_half x .u16 (Or.inl rfl) hp hn hb
  rw [if_pos rfl, hv] at hi
  have hs : split ',' (ra ++ ',' :: b) = [ra, b] := by
    rw [split_cons _ _ _ (gpr_noComma hr), split_noComma _ _ (fun h => ((half_chars (Or.inl rfl) hb).2 _ h).1 rfl)]
  rw [parseInst_args x hM, show classify c!"lui" = .lui by decide +kernel]
  simp only [parseArm, hs, parseReg_ok x hr, mkI, hM.opI (o := .Lui) (by decide +kernel), hi]
  rfl

theorem arith_rows : ∀ mn ∈ [c!"addi", c!"addiu", c!"daddi", c!"daddiu", c!"slti", c!"sltiu"], mnOk mn = true ∧
    ∃ e ∈ L_rtRsSimm_arith_main, e.1 = mn ∧ table.find? (fun r => r.mn == mn) = some ⟨mn, .rtRsSimm, .main e.2.2⟩ := by decide +kernel

theorem mem_rows : ∀ mn ∈ [c!"lb", c!"lbu", c!"ld", c!"ldl", c!"ldr", c!"lh", c!"lhu", c!"ll", c!"lld", c!"lw", c!"lwl", c!"lwr", c!"lwu",
            c!"sb", c!"sc", c!"scd", c!"sd", c!"sdl", c!"sdr", c!"sh", c!"sw", c!"swl", c!"swr"], mnOk mn = true ∧
    ∃ e ∈ L_rtMem_mem_main, e.1 = mn ∧ table.find? (fun r => r.mn == mn) = some ⟨mn, .rtMem, .main e.2.2⟩ := by decide +kernel

/-- The base register of `%lo(t)(b)`. -/
theorem baseText_half {syms : List (BitVec 32 × Str)} {o b q : Str} {a : BitVec 32} (ho : Half syms c!"%lo" o a)
    (hb : ∀ c ∈ b, c ≠ '(' ∧ c ≠ ')' ∧ c ≠ '\n') (hq : ∀ c ∈ q, c ≠ '(') : baseText (o ++ '(' :: b ++ ')' :: q) = some (trim b) := by
  obtain ⟨p, t, s, hp, hs, rfl, hN⟩ := ho
  have hc := names_chars hN
  have h1 := blank_chars hp
  have h2 := blank_chars hs
  unfold baseText findBaseLast
  have e : p ++ (c!"%lo" ++ '(' :: (t ++ [')'])) ++ s ++ '(' :: b ++ ')' :: q =
      (p ++ c!"%lo") ++ '(' :: (t ++ ')' :: (s ++ '(' :: (b ++ ')' :: q))) := by simp
  rw [e]
  have hlen : ∃ n, ((p ++ c!"%lo") ++ '(' :: (t ++ ')' :: (s ++ '(' :: (b ++ ')' :: q)))).length = n + 1 := by
    refine ⟨(p ++ c!"%lo").length + (t ++ ')' :: (s ++ '(' :: (b ++ ')' :: q))).length, ?_⟩
    simp only [List.length_append, List.length_cons]; omega
  obtain ⟨n, hn⟩ := hlen
  rw [hn, Re.findIter_BASE _ _ _ _ (by
      simp only [List.mem_append, not_or]
      exact ⟨fun h => (h1 _ h).1 rfl, by decide⟩) (fun h => (hc _ h).2.1 rfl) (fun c h => (hc c h).2.2.2),
    Re.findIter_BASE _ _ _ _ (fun h => (h2 _ h).1 rfl) (fun h => (hb _ h).2.1 rfl) (fun c h => (hb c h).2.2),
    Re.findIter_BASE_none _ _ (fun h => hq _ h rfl)]
  simp only [List.getLast?_cons_cons, List.getLast?_singleton, Option.map_some]
  rw [trim_paren b (fun c hc => ⟨(hb c hc).1, (hb c hc).2.1⟩)]

/-- An instruction with `%lo(a)`. -/
theorem lo_emits [Unicode] (x : Ctx) (hp : NoParen x.labels) (hn : (x.syms.map (·.2)).Nodup) {s mn : Str} {args : BitVec 16 → List Arg} {a : Word}
    (h : LoText x.syms a s mn args) (ovf : Bool) : ∃ w, encoding mn (args (loOf a)) = some w ∧ Emits x s ovf [w] := by
  cases h with
  | arith mn' mn ta tb tc rt rs hm hmn h1 h2 h3 =>
    obtain ⟨k1, ⟨m0, o, f⟩, he, rfl, hf⟩ := arith_rows _ hmn
    have hM : Mn mn' m0 := ⟨hm, k1⟩
    obtain ⟨_, k2, k3⟩ := L_rtRsSimm_arith_main_ok _ he
    dsimp only at k2 k3 hf
    have hi := parseImm_half x .i16 (Or.inr rfl) hp hn h3
    rw [if_neg (by decide)] at hi
    have hs : split ',' (ta ++ ',' :: (tb ++ ',' :: tc)) = [ta, tb, tc] := by
      rw [split_cons _ _ _ (gpr_noComma h1), split_cons _ _ _ (gpr_noComma h2),
        split_noComma _ _ (fun h => ((half_chars (Or.inr rfl) h3).2 _ h).1 rfl)]
    refine ⟨iWord f rs rt (loOf a), ?_, .imm o rs.toFin rt.toFin (.short (loOf a)) [], ?_, rfl, ?_⟩
    · unfold encoding; dsimp only; rw [hf]; rfl
    · rw [parseInst_args x hM, k2, arm_arith_s x hM k3 hs (L_simm_facts _ he) h1 h2 hi]
    · rw [encode_imm]
      simp only [num_toFin]
      exact enc_rtRsSimm_arith_main _ he ovf rs rt (loOf a) _
  | mem mn' mn ta tc tb q rt base hm hmn h1 h3 h2 hq =>
    obtain ⟨k1, ⟨m0, o, f⟩, he, rfl, hf⟩ := mem_rows _ hmn
    have hM : Mn mn' m0 := ⟨hm, k1⟩
    obtain ⟨_, k2, k3⟩ := L_rtMem_mem_main_ok _ he
    dsimp only at k2 k3 hf
    have hi := parseImm_half x .i16 (Or.inr rfl) hp hn h3
    rw [if_neg (by decide)] at hi
    have hb' := reg_chars gprCore_alnum h2
    have hq' := blank_chars hq
    have hc := half_chars (Or.inr rfl) h3
    have hs : split ',' (ta ++ ',' :: (tc ++ '(' :: tb ++ ')' :: q)) = [ta, tc ++ '(' :: tb ++ ')' :: q] := by
      rw [split_cons _ _ _ (gpr_noComma h1), split_noComma]
      simp only [List.mem_append, List.mem_cons, not_or]
      exact ⟨⟨fun h => (hc.2 _ h).1 rfl, by decide, gpr_noComma h2⟩, by decide, fun h => (hq' _ h).2.2.1 rfl⟩
    have e1 := baseText_half (b := tb) (q := q) h3 (fun c h => ⟨(hb' c h).1, (hb' c h).2.1, (hb' c h).2.2.2⟩) (fun c h => (hq' c h).1)
    have e2 := findOffset_mem tc tb q (fun c h => (hc.2 c h).2) (fun c h => (hb' c h).1) (fun c h => (hq' c h).1)
    rw [if_neg hc.1] at e2
    refine ⟨iWord f base rt (loOf a), ?_, .imm o base.toFin rt.toFin (.short (loOf a)) [], ?_, rfl, ?_⟩
    · unfold encoding; dsimp only; rw [hf]; rfl
    · rw [parseInst_args x hM, k2]
      simp only [parseArm, hs, hM.key, if_neg (L_mem_facts _ he), gpr_fromStr h1, e1, gpr_fromStr (reg_trim gprCore_alnum h2), Res.unwrap, W.lift_ok, W.bind_nil_ok,
        e2, List.dropLast_concat, mkI, hM.opI k3, hi, W.pure_def]
    · rw [encode_imm]
      simp only [num_toFin]
      exact enc_rtMem_mem_main _ he ovf base rt (loOf a) _

/-- The two halves of an address are determined by it. -/
theorem halves_unique {h l h' l' : BitVec 16} (e : address h l = address h' l') : h = h' ∧ l = l' := by
  unfold address at e
  have e2 := congrArg BitVec.toNat e
  have k : ∀ h l : BitVec 16, ((h ++ 0#16 : BitVec 32) + l.signExtend 32).toNat = (h.toNat * 65536 + (l.signExtend 32).toNat) % 2 ^ 32 := by
    intro h l
    rw [BitVec.toNat_add, BitVec.toNat_append]
    simp [Nat.shiftLeft_eq]
  rw [k, k, BitVec.toNat_signExtend, BitVec.toNat_signExtend, BitVec.toNat_setWidth, BitVec.toNat_setWidth] at e2
  have := h.isLt; have := h'.isLt; have := l.isLt; have := l'.isLt
  have hl : l.toNat = l'.toNat := by split at e2 <;> split at e2 <;> omega
  have hl : l = l' := BitVec.eq_of_toNat_eq hl
  subst hl
  exact ⟨BitVec.eq_of_toNat_eq (by split at e2 <;> omega), rfl⟩

/-- C20, one line: an accepted `lui r, %hi(a)` carries the upper half of `a`. -/
theorem C20_hi [Unicode] (rt : Rt) (m : Mipsasm) (text : Str) (is : List Instruction) (warns : List ParserWarning)
    (h : assemble rt m text = .ok is warns) (hn : (m.syms.map (·.2)).Nodup) (hp : NoParenLabel (lines text))
    (a : BitVec 32) (i : Nat) (rawi : Str) (r : BitVec 5) (hi : (lines text)[i]? = some rawi) (hci : kind rawi = .code)
    (hti : HiText m.syms (body rawi) r a) (v l : BitVec 16) (hv : address v l = a) :
    ∃ w, encoding c!"lui" [.gpr r, .uimm v] = some w ∧ (is[codeCount ((lines text).take i)]?).map Instruction.getBytes = some [w] := by
  have hv : hiOf rt.ovf a = some v := by
    obtain ⟨v', e1, e2⟩ := hiOf_release a
    rw [← hv] at e2
    have e2 := (halves_unique e2).1
    subst e2
    cases ho : rt.ovf with
    | false => exact e1
    | true =>
      rw [hiOf_checked]
      split
      · exact e1
      · rename_i hlt
        exfalso
        obtain ⟨tr, x, ws, p, _, _, _, _, _, hx, _, hpar, _⟩ := line_done h hi hci
        have hpan := hi_panics x (hx.noParen hp) (by rw [hx.syms]; exact hn) (by rw [hx.syms]; exact hti)
          (by rw [hx.ovf, ho, hiOf_checked, if_neg hlt])
        rw [hpar] at hpan; cases hpan
  refine ⟨_, lui_enc r v, ?_⟩
  exact line_words h hi hci (fun x hx => hi_emits x (hx.noParen hp) (by rw [hx.syms]; exact hn) (by rw [hx.syms]; exact hti)
    (by rw [hx.ovf]; exact hv) rt.ovf)

/-- C20, one line: an accepted instruction with `%lo(a)` carries the lower half of `a`. -/
theorem C20_lo [Unicode] (rt : Rt) (m : Mipsasm) (text : Str) (is : List Instruction) (warns : List ParserWarning)
    (h : assemble rt m text = .ok is warns) (hn : (m.syms.map (·.2)).Nodup) (hp : NoParenLabel (lines text))
    (a : BitVec 32) (j : Nat) (rawj : Str) (mn : Str) (args : BitVec 16 → List Arg)
    (hj : (lines text)[j]? = some rawj) (hcj : kind rawj = .code) (htj : LoText m.syms a (body rawj) mn args)
    (v l : BitVec 16) (hl : address v l = a) :
    ∃ w, encoding mn (args l) = some w ∧ (is[codeCount ((lines text).take j)]?).map Instruction.getBytes = some [w] := by
  have hl : l = loOf a := by
    obtain ⟨v', _, e2⟩ := hiOf_release a
    rw [← e2] at hl
    exact (halves_unique hl).2
  subst hl
  have hw : ∃ w, encoding mn (args (loOf a)) = some w ∧ ∀ x, AtLine rt m (lines text) j x → Emits x (body rawj) rt.ovf [w] := by
    obtain ⟨tr, x, ws, p, _, _, _, _, _, hx, _, hpar, _⟩ := line_done h hj hcj
    obtain ⟨w, w1, _⟩ := lo_emits x (hx.noParen hp) (by rw [hx.syms]; exact hn) (by rw [hx.syms]; exact htj) rt.ovf
    refine ⟨w, w1, ?_⟩
    intro y hy
    obtain ⟨w', w1', w2'⟩ := lo_emits y (hy.noParen hp) (by rw [hy.syms]; exact hn) (by rw [hy.syms]; exact htj) rt.ovf
    rw [w1] at w1'; cases w1'; exact w2'
  obtain ⟨wj, w1, w2⟩ := hw
  exact ⟨wj, w1, line_words h hj hcj w2⟩

/-- C20, in accepted programs: whenever a program assembles, a `lui r, %hi(a)` in it and any instruction with `%lo(a)` in it carry
16-bit fields `h` and `l` that add up to `a`: `(h << 16) + sign_extend(l) = a` modulo 2^32, for all 2^32 addresses `a`, written as
numerals or as symbols, in both build modes. -/
theorem C20_recombine [Unicode] (rt : Rt) (m : Mipsasm) (text : Str) (is : List Instruction) (warns : List ParserWarning)
    (h : assemble rt m text = .ok is warns) (hn : (m.syms.map (·.2)).Nodup) (hp : NoParenLabel (lines text))
    (a : BitVec 32) (i j : Nat) (rawi rawj : Str) (r : BitVec 5) (mn : Str) (args : BitVec 16 → List Arg)
    (hi : (lines text)[i]? = some rawi) (hci : kind rawi = .code) (hti : HiText m.syms (body rawi) r a)
    (hj : (lines text)[j]? = some rawj) (hcj : kind rawj = .code) (htj : LoText m.syms a (body rawj) mn args) :
    ∃ hi lo wi wj, address hi lo = a ∧ encoding c!"lui" [.gpr r, .uimm hi] = some wi ∧ encoding mn (args lo) = some wj ∧
      (is[codeCount ((lines text).take i)]?).map Instruction.getBytes = some [wi] ∧
      (is[codeCount ((lines text).take j)]?).map Instruction.getBytes = some [wj] := by
  obtain ⟨v, _, e2⟩ := hiOf_release a
  obtain ⟨wi, h1, h2⟩ := C20_hi rt m text is warns h hn hp a i rawi r hi hci hti v _ e2
  obtain ⟨wj, h3, h4⟩ := C20_lo rt m text is warns h hn hp a j rawj mn args hj hcj htj v _ e2
  exact ⟨v, loOf a, wi, wj, e2, h1, h3, h2, h4⟩

/-- C20, acceptance: a program of native instructions and of instructions with `%hi` and `%lo` assembles, provided that no address
in a `%hi` is above 0xFFFF7FFF when arithmetic overflow is checked (debug builds). -/
theorem C20_accepted_partial [Unicode] (rt : Rt) (m : Mipsasm) (text : Str) (hn : (m.syms.map (·.2)).Nodup)
    (hl : ∀ raw ∈ lines text, kind raw = .blank ∨ kind raw = .code ∧
      ((∃ r a, HiText m.syms (body raw) r a ∧ (rt.ovf = true → a.toNat < 0xFFFF8000)) ∨ (∃ a mn args, LoText m.syms a (body raw) mn args) ∨
        ∃ mn as w, InstrText (body raw) mn as ∧ encoding mn as = some w)) :
    ∃ is warns, assemble rt m text = .ok is warns := by
  have hg : globals (lines text) = [] := globals_nil (by
    intro raw hr l
    rcases hl raw hr with h | ⟨h, _⟩ <;> simp [h])
  refine prog_ok ?_ ?_
  · intro k raw l h1 h2
    rcases hl raw (List.mem_of_getElem? h1) with h | ⟨h, _⟩ <;> rw [h] at h2 <;> cases h2
  · intro k raw h1 h2 x hx
    have hp : NoParen x.labels := hx.noParen (by intro e he; rw [hg] at he; cases he)
    have hm : NoNumLabel x.labels := hx.noNum (by intro e he; rw [hg] at he; cases he)
    have hn' : (x.syms.map (·.2)).Nodup := by rw [hx.syms]; exact hn
    rcases hl raw (List.mem_of_getElem? h1) with h | ⟨_, ⟨r, a, h, ha⟩ | ⟨a, mn, args, h⟩ | ⟨mn, as, w, h, hw⟩⟩
    · rw [h2] at h; cases h
    · obtain ⟨v, e1, e2⟩ := hiOf_release a
      refine ⟨_, hi_emits x hp hn' (by rw [hx.syms]; exact h) (v := v) ?_ rt.ovf⟩
      rw [hx.ovf]
      cases ho : rt.ovf with
      | false => exact e1
      | true => rw [hiOf_checked, if_pos (ha ho)]; exact e1
    · obtain ⟨w, _, h⟩ := lo_emits x hp hn' (by rw [hx.syms]; exact h) rt.ovf
      exact ⟨_, h⟩
    · exact ⟨_, native_emits x hm h hw rt.ovf⟩

/-- Why `_partial`: with overflow checks, `%hi(0xFFFF8000)` and `%hi` of every address above it panics. -/
theorem C20_overflow [Unicode] (rt : Rt) (m : Mipsasm) (text : Str) (ho : rt.ovf = true) (hn : (m.syms.map (·.2)).Nodup)
    (hp : NoParenLabel (lines text)) (k : Nat) (raw : Str) (r : BitVec 5) (a : BitVec 32)
    (hk : (lines text)[k]? = some raw) (hc : kind raw = .code) (ht : HiText m.syms (body raw) r a) (ha : 0xFFFF8000 ≤ a.toNat) :
    ∀ is warns, assemble rt m text ≠ .ok is warns := by
  intro is warns h
  obtain ⟨tr, x, ws, p, _, _, _, _, _, hx, _, hpar, _⟩ := line_done h hk hc
  have hpan := hi_panics x (hx.noParen hp) (by rw [hx.syms]; exact hn) (by rw [hx.syms]; exact ht)
    (by rw [hx.ovf, ho, hiOf_checked, if_neg (by omega)])
  rw [hpar] at hpan; cases hpan

/-- C20 and the overflow check, concretely: `%hi(0xFFFF8000)` panics in a debug build, is right in a release build; and the highest
address that works in both. -/
theorem C20_wrong : @assemble asciiUnicode (idRt true) Mipsasm.new c!"lui $a0, %hi(0xFFFF8000)" = .panic ∧
    (@assemble asciiUnicode (idRt false) Mipsasm.new c!"lui $a0, %hi(0xFFFF8000)").words = some [0x3c040000#32] ∧
    (@assemble asciiUnicode (idRt true) Mipsasm.new c!"lui $a0, %hi(0xFFFF7FFF)").words = some [0x3c04ffff#32] := by
  refine ⟨rfl, ?_, ?_⟩ <;> decide +kernel

/-- `%hi` and `%lo` of a name that is not a symbol panic, even if it is a label; and `%lo` does not work in the floating-point
loads and stores. -/
theorem C20_unknown_symbol : @assemble asciiUnicode (idRt true) Mipsasm.new c!"foo:\nlui $a0, %hi(foo)" = .panic ∧
    (@assemble asciiUnicode (idRt true) Mipsasm.new c!"lwc1 $f0, %lo(16)($a0)").errors.map List.length = some 1 := by
  refine ⟨rfl, ?_⟩; decide +kernel

/-! The hypotheses of C20_recombine are met by `lui $a0, %hi(0x80018ABC)`, `lw $a1, %lo(data)($a0)` with `data` at 0x80018ABC. -/

/-- the text of the example -/
def hiLoText : Str := c!"lui $a0, %hi(0x80018ABC)\nlw $a1, %lo(data)($a0)"
/-- its symbol table -/
def hiLoSyms : Mipsasm := Mipsasm.new.setSymbols [(0x80018ABC, c!"data")]

theorem ex_hi : HiText hiLoSyms.syms c!"lui $a0, %hi(0x80018ABC)" 4 0x80018ABC := by
  refine ⟨c!"lui", c!"$a0", c!" %hi(0x80018ABC)", rfl, by unfold SameName; decide, reg_name c!"a0" 4 rfl (by unfold SameName; decide),
    c!" ", c!"0x80018ABC", [], by simp [Blank]; decide, by simp [Blank], rfl, ?_⟩
  refine Names.num c!"0x80018ABC" 0x80018ABC (.hex c!"80018ABC" _ ?_) (by decide) (by decide)
  exact .snoc c!"80018AB" 'C' 0x80018AB 12 (.snoc c!"80018A" 'B' 0x80018A 11 (.snoc c!"80018" 'A' 0x80018 10 (.snoc c!"8001" '8' 0x8001 8
    (.snoc c!"800" '1' 0x800 1 (.snoc c!"80" '0' 0x80 0 (.snoc c!"8" '0' 8 0 (.one '8' 8 rfl) rfl) rfl) rfl) rfl) rfl) rfl) rfl

theorem ex_lo : LoText hiLoSyms.syms 0x80018ABC c!"lw $a1, %lo(data)($a0)" c!"lw" (fun l => [.gpr 5, .mem l 4]) :=
  LoText.mem c!"lw" c!"lw" c!"$a1" c!" %lo(data)" c!"$a0" [] 5 4 (by unfold SameName; decide) (by decide)
    (reg_name c!"a1" 5 rfl (by unfold SameName; decide))
    ⟨c!" ", c!"data", [], by simp [Blank]; decide, by simp [Blank], rfl, .sym _ _ (by decide) (by decide)⟩
    (reg_name c!"a0" 4 rfl (by unfold SameName; decide)) (by simp [Blank])

example : (@assemble asciiUnicode (idRt true) hiLoSyms hiLoText).words = some [0x3c048002#32, 0x8c858abc#32] ∧
    (lines hiLoText).map kind = [.code, .code] ∧ globals (lines hiLoText) = [] ∧ (hiLoSyms.syms.map (·.2)).Nodup ∧
    address 0x8002 0x8abc = 0x80018ABC := by decide +kernel

end Mips
