/- Every word prints as the instruction the opcode maps give it. -/
import Verif.Lemmas.DisL

namespace Mips
open Isa Listing Syntax

variable {sym : Word → Option Str} {base w : Word}

theorem bv_of {n k : Nat} {v : BitVec n} (h : v.toNat = k) : v = BitVec.ofNat n k := by
  rw [← h]; simp

theorem c_special (ho : fOp w = 0#6) {k : Nat} (h : (fFn w).toNat = k) : codeOf w = .special (BitVec.ofNat 6 k) := by
  rw [code_special ho, ← bv_of h]
theorem c_regimm (ho : fOp w = 1#6) {k : Nat} (h : (fRt w).toNat = k) : codeOf w = .regimm (BitVec.ofNat 5 k) := by
  rw [code_regimm ho, ← bv_of h]
theorem c_main {k : Nat} (h : (fOp w).toNat = k) (h0 : BitVec.ofNat 6 k ≠ 0#6) (h1 : BitVec.ofNat 6 k ≠ 1#6)
    (h2 : BitVec.ofNat 6 k ≠ copOp 0) (h3 : BitVec.ofNat 6 k ≠ copOp 1) : codeOf w = .main (BitVec.ofNat 6 k) :=
  code_main (bv_of h) h0 h1 h2 h3

/-- Close one case of the decoder for an R-type instruction. -/
macro "dis_r" hc:term : tactic => `(tactic| first
  | exact text_rdRsRt $hc (by decide +kernel) (by decide) (fun _ _ _ _ _ => rfl) _ _
  | exact text_rdRtSa $hc (by decide +kernel) (by decide) (fun _ _ _ _ _ => rfl) _ _
  | exact text_rdRtRs $hc (by decide +kernel) (by decide) (fun _ _ _ _ _ => rfl) _ _
  | exact text_rsRt $hc (by decide +kernel) (by decide) (fun _ _ _ _ _ => rfl) _ _ _
  | exact text_rs $hc (by decide +kernel) (by decide) (fun _ _ _ _ _ => rfl) _ _ _ _
  | exact text_rd $hc (by decide +kernel) (by decide) (fun _ _ _ _ _ => rfl) _ _ _ _
  | exact text_code $hc (by decide +kernel) (by decide) (fun _ _ _ _ _ => rfl) _ _ _ _
  | exact text_bare $hc (by decide +kernel) rfl)

/-- Close one case of the decoder for an I-type instruction. -/
macro "dis_i" hc:term "," ht:term : tactic => `(tactic| first
  | exact text_rtMem $hc (by decide +kernel) (by decide) (fun _ _ _ => rfl) $ht _
  | exact text_rtRsSimm $hc (by decide +kernel) (by decide) (fun _ _ _ => rfl) $ht _
  | exact text_rsOff $hc (by decide +kernel) (by decide) (fun _ _ _ => rfl) $ht _ _
  | exact text_rsRtOff $hc (by decide +kernel) (by decide) (fun _ _ _ => rfl) $ht _
  | exact text_rsSimm $hc (by decide +kernel) (by decide) (fun _ _ _ => rfl) $ht _ _
  | exact text_ftMem $hc (by decide +kernel) (by decide) (fun _ _ _ => rfl) $ht _
  | exact text_rtRsUimm $hc (by decide +kernel) (by decide) (fun _ _ _ => rfl) _
  | exact text_rtUimm $hc (by decide +kernel) (by decide) (fun _ _ _ => rfl) _ _
  | exact text_off $hc (by decide +kernel) (by decide) (fun _ _ _ => rfl) $ht _ _ _
  | exact text_copMem $hc (by decide +kernel) (by decide) (fun _ _ _ => rfl) $ht _)

theorem none_special (ho : fOp w = 0#6) (h : rowAt (.special (fFn w)) = none) : decoding w = none := by
  rw [decoding_at (code_special ho), h]; rfl

set_option synthInstance.maxSize 2000 in
set_option synthInstance.maxHeartbeats 400000 in
theorem special_text (ho : fOp w = 0#6) : TextOf (decodeSpecial w (fields w)) (lineText sym base w) := by
  unfold decodeSpecial
  rw [fields_funct]
  split
  case h_53 =>
    apply text_bytes
    apply none_special ho
    clear ho
    revert sym base
    intro _ _
    generalize fFn w = o at *
    clear w
    revert o
    decide +kernel
  all_goals first
    | (dis_r (c_special ho ‹_›))
    | exact text_jalr ho (bv_of ‹_›) _ _ _

theorem regimm_text (ho : fOp w = 1#6) (ht : ¬ TopImm w) :
    TextOf (decodeRegimm w (fields w)) (lineText sym base w) := by
  unfold decodeRegimm
  rw [show (fields w).rt.val = (fRt w).toNat by rw [fields_rt]; rfl]
  split
  case h_15 =>
    apply text_bytes
    rw [decoding_at (code_regimm ho)]
    clear ho ht
    revert sym base
    intro _ _
    generalize argsOf w = g
    generalize fRt w = o at *
    rw [Option.map_eq_none_iff]
    clear w g
    revert o
    decide +kernel
  all_goals dis_i (c_regimm ho ‹_›), ht

theorem c_cop {z : BitVec 2} {k : Nat} (hz : z = 0 ∨ z = 1) (ho : fOp w = copOp z) (h : (fRs w).toNat = k) (h1 : k < 16) (h2 : k ≠ 8) :
    codeOf w = .cop z (BitVec.ofNat 5 k) := by
  have h3 : fRs w ≠ 8#5 := by intro e; rw [e] at h; exact h2 h.symm
  have h4 : fRs w < 16#5 := by rw [BitVec.lt_def, h]; exact h1
  rcases hz with rfl | rfl
  · rw [code_cop0 ho, if_neg h3, if_pos h4, ← bv_of h]
  · rw [code_cop1 ho, if_neg h3, if_pos h4, ← bv_of h]

theorem c_bc {z : BitVec 2} {k : Nat} (hz : z = 0 ∨ z = 1) (ho : fOp w = copOp z) (h : (fRs w).toNat = 8)
    (h1 : (fRt w).toNat = k) : codeOf w = .bc z (BitVec.ofNat 5 k) := by
  have h3 : fRs w = 8#5 := bv_of h
  rcases hz with rfl | rfl
  · rw [code_cop0 ho, if_pos h3, ← bv_of h1]
  · rw [code_cop1 ho, if_pos h3, ← bv_of h1]

theorem c_co {k : Nat} (ho : fOp w = copOp 0) (h : ¬ fRs w < 16#5) (h1 : (fFn w).toNat = k) :
    codeOf w = .co (BitVec.ofNat 6 k) := by
  have h3 : fRs w ≠ 8#5 := by intro e; rw [e] at h; exact h (by decide)
  rw [code_cop0 ho, if_neg h3, if_neg h, ← bv_of h1]

theorem c_fp {m k : Nat} (ho : fOp w = copOp 1) (h : (fRs w).toNat = m) (hm : 16 ≤ m) (h1 : (fFn w).toNat = k) :
    codeOf w = .fp (BitVec.ofNat 5 m) (BitVec.ofNat 6 k) := by
  have h3 : fRs w ≠ 8#5 := by intro e; rw [e] at h; simp at h; omega
  have h4 : ¬ fRs w < 16#5 := by rw [BitVec.lt_def, h]; simpa using hm
  rw [code_cop1 ho, if_neg h3, if_neg h4, ← bv_of h1, ← bv_of h]

theorem cop0co_text (ho : fOp w = copOp 0) (hh : ¬ CopHole w)
    (hn : fRs w < 16#5 → decoding w = none) : TextOf (decodeCop0Co w (fields w)) (lineText sym base w) := by
  unfold decodeCop0Co
  rw [fields_funct]
  by_cases h16 : fRs w < 16#5
  · have hd := hn h16
    have hf : (fFn w).toNat ∉ cp0Map.map (·.2) := fun hm => hh ⟨ho, h16, hd, hm⟩
    simp only [cp0Map, List.map_cons, List.map_nil, List.mem_cons, List.not_mem_nil, or_false, not_or] at hf
    split
    case h_6 => exact text_bytes hd
    all_goals omega
  · split
    case h_6 =>
      apply text_bytes
      rw [decoding_at (c_co ho h16 rfl), Option.map_eq_none_iff]
      rw [BitVec.ofNat_toNat, BitVec.setWidth_eq]
      clear ho hh hn h16
      revert sym base
      intro _ _
      generalize fFn w = o at *
      clear w
      revert o
      decide +kernel
    all_goals exact text_bare (c_co ho h16 ‹_›) (by decide +kernel) rfl

theorem cop0_text (ho : fOp w = copOp 0) (ht : ¬ TopImm w) (hh : ¬ CopHole w) :
    TextOf (decodeCop0 w (fields w)) (lineText sym base w) := by
  unfold decodeCop0
  rw [show (fields w).rt.val = (fRt w).toNat by rw [fields_rt]; rfl,
    show (fields w).rs.val = (fRs w).toNat by rw [fields_rs]; rfl]
  split
  case h_11 h0 h1 h2 h4 h5 h6 b0 b1 b2 b3 =>
    apply cop0co_text ho hh
    intro h16
    unfold decoding
    rw [Option.map_eq_none_iff, code_cop0 ho]
    by_cases h8 : fRs w = 8#5
    · rw [if_pos h8]
      have : ∀ r : BitVec 5, 4 ≤ r.toNat → rowAt (.bc 0 r) = none := by decide +kernel
      apply this
      rw [h8] at b0 b1 b2 b3
      have b0 : (fRt w).toNat ≠ 0 := b0 rfl
      have b1 : (fRt w).toNat ≠ 1 := b1 rfl
      have b2 : (fRt w).toNat ≠ 2 := b2 rfl
      have b3 : (fRt w).toNat ≠ 3 := b3 rfl
      omega
    · rw [if_neg h8, if_pos h16]
      have : ∀ r : BitVec 5, r.toNat ∉ [0, 1, 2, 4, 5, 6] → rowAt (.cop 0 r) = none := by decide +kernel
      apply this
      intro hm
      simp only [List.mem_cons, List.not_mem_nil, or_false] at hm
      rcases hm with h | h | h | h | h | h
      · exact h0 h
      · exact h1 h
      · exact h2 h
      · exact h4 h
      · exact h5 h
      · exact h6 h
  all_goals first
    | exact text_rtC0 (c_cop (.inl rfl) ho ‹_› (by decide) (by decide)) (by decide +kernel) (by decide) (fun _ _ _ _ _ => rfl) _ _
    | exact text_off (c_bc (.inl rfl) ho ‹_› ‹_›) (by decide +kernel) (by decide) (fun _ _ _ => rfl) ht _ _ _

theorem text_c {m n : Nat} {fmt : Char} {op : RTypeOp} (hop : ∀ rs rt rd sa b, displayR op rs rt rd sa b = displayC fmt rs rt sa)
    (ho : fOp w = copOp 1) (hm : (fRs w).toNat = m) (h16 : 16 ≤ m)
    (hrow : ∀ k : Fin 16, rowAt (.fp (BitVec.ofNat 5 m) (BitVec.ofNat 6 (48 + k.val))) =
      some ⟨c!"c." ++ floatConds[k.val]'k.isLt ++ ['.', fmt], .fsFt, .fp (BitVec.ofNat 5 m) (BitVec.ofNat 6 (48 + k.val))⟩)
    (hpr : ∀ k : Fin 16, Printable (c!"c." ++ floatConds[k.val]'k.isLt ++ ['.', fmt]) = true)
    (h : (fFn w).toNat = n) (h1 : 48 ≤ n) (h2 : n < 64) (b : List Word) :
    TextOf (.reg op (fields w).rd (fields w).rt 0 ((fields w).funct &&& 0xF#32) b) (lineText sym base w) := by
  obtain ⟨k, hk, rfl⟩ : ∃ k, k < 16 ∧ n = 48 + k := ⟨n - 48, by omega, by omega⟩
  have hs : ((fields w).funct &&& 0xF#32) = BitVec.ofNat 32 k := by
    rw [bv_of (v := (fields w).funct) (k := 48 + k) (by rw [fields_funct]; exact h)]
    have : ∀ j : Fin 16, (BitVec.ofNat 32 (48 + j.val) &&& 0xF#32) = BitVec.ofNat 32 j.val := by decide
    exact this ⟨k, hk⟩
  rw [hs]
  have hp : ∃ p : Str, p ≠ [] ∧ (∀ c ∈ p, isWs c = true) ∧ (if BitVec.ofNat 32 k = 9#32 then [] else ['\t']) ++ c!"    " = p := by
    refine ⟨_, ?_, ?_, rfl⟩
    · simp
    · split <;> decide
  obtain ⟨p, hp1, hp2, hp3⟩ := hp
  refine text_fsFt p hp1 hp2 (c_fp ho hm h16 h) (hrow ⟨k, hk⟩) (hpr ⟨k, hk⟩) _ ?_ _ _
  intro rs rt rd b
  rw [hop]
  unfold displayC
  have hz : (floatConds[(BitVec.ofNat 32 k).toNat]?) = some (floatConds[k]'hk) := by
    have : ∀ j : Fin 16, floatConds[(BitVec.ofNat 32 j.val).toNat]? = some (floatConds[j.val]'j.isLt) := by decide
    exact this ⟨k, hk⟩
  rw [hz, ← hp3]
  simp

/-- Close one case of the decoder for a coprocessor 1 arithmetic instruction. -/
macro "dis_f" hc:term : tactic => `(tactic| first
  | exact text_fdFsFt $hc (by decide +kernel) (by decide) (fun _ _ _ _ _ => rfl) _ _
  | exact text_fdFs (List.replicate 6 ' ') (by decide) (by decide) $hc (by decide +kernel) (by decide) (fun _ _ _ _ _ => rfl) _ _ _
  | exact text_fdFs (List.replicate 5 ' ') (by decide) (by decide) $hc (by decide +kernel) (by decide) (fun _ _ _ _ _ => rfl) _ _ _
  | exact text_fdFs (List.replicate 4 ' ') (by decide) (by decide) $hc (by decide +kernel) (by decide) (fun _ _ _ _ _ => rfl) _ _ _
  | exact text_fdFs (List.replicate 3 ' ') (by decide) (by decide) $hc (by decide +kernel) (by decide) (fun _ _ _ _ _ => rfl) _ _ _)

theorem none_fp {m : Nat} (ho : fOp w = copOp 1) (hm : (fRs w).toNat = m) (h16 : 16 ≤ m)
    (h : rowAt (.fp (BitVec.ofNat 5 m) (fFn w)) = none) : decoding w = none := by
  rw [decoding_at (c_fp ho hm h16 rfl), Option.map_eq_none_iff]
  rw [BitVec.ofNat_toNat, BitVec.setWidth_eq]
  exact h

set_option synthInstance.maxSize 2000 in
set_option synthInstance.maxHeartbeats 400000 in
theorem cop1s_text (ho : fOp w = copOp 1) (hm : (fRs w).toNat = 16) :
    TextOf (decodeCop1S w (fields w)) (lineText sym base w) := by
  unfold decodeCop1S
  rw [fields_funct]
  split
  case h_36 =>
    apply text_bytes
    apply none_fp ho hm (by decide)
    clear ho hm
    revert sym base
    intro _ _
    generalize fFn w = o at *
    clear w
    revert o
    decide +kernel
  all_goals first
    | dis_f (c_fp ho hm (by decide) ‹_›)
    | exact text_c (fmt := 's') (fun _ _ _ _ _ => rfl) ho hm (by decide) (by decide +kernel) (by decide) ‹_› (by decide) (by decide) _

set_option synthInstance.maxSize 2000 in
set_option synthInstance.maxHeartbeats 400000 in
theorem cop1d_text (ho : fOp w = copOp 1) (hm : (fRs w).toNat = 17) :
    TextOf (decodeCop1D w (fields w)) (lineText sym base w) := by
  unfold decodeCop1D
  rw [fields_funct]
  split
  case h_36 =>
    apply text_bytes
    apply none_fp ho hm (by decide)
    clear ho hm
    revert sym base
    intro _ _
    generalize fFn w = o at *
    clear w
    revert o
    decide +kernel
  all_goals first
    | dis_f (c_fp ho hm (by decide) ‹_›)
    | exact text_c (fmt := 'd') (fun _ _ _ _ _ => rfl) ho hm (by decide) (by decide +kernel) (by decide) ‹_› (by decide) (by decide) _

theorem cop1w_text (ho : fOp w = copOp 1) (hm : (fRs w).toNat = 20) :
    TextOf (decodeCop1W w (fields w)) (lineText sym base w) := by
  unfold decodeCop1W
  rw [fields_funct]
  split
  case h_3 =>
    apply text_bytes
    apply none_fp ho hm (by decide)
    clear ho hm
    revert sym base
    intro _ _
    generalize fFn w = o at *
    clear w
    revert o
    decide +kernel
  all_goals dis_f (c_fp ho hm (by decide) ‹_›)

theorem cop1l_text (ho : fOp w = copOp 1) (hm : (fRs w).toNat = 21) :
    TextOf (decodeCop1L w (fields w)) (lineText sym base w) := by
  unfold decodeCop1L
  rw [fields_funct]
  split
  case h_3 =>
    apply text_bytes
    apply none_fp ho hm (by decide)
    clear ho hm
    revert sym base
    intro _ _
    generalize fFn w = o at *
    clear w
    revert o
    decide +kernel
  all_goals dis_f (c_fp ho hm (by decide) ‹_›)

theorem cop1_text (ho : fOp w = copOp 1) (ht : ¬ TopImm w) :
    TextOf (decodeCop1 w (fields w)) (lineText sym base w) := by
  unfold decodeCop1
  rw [show (fields w).rt.val = (fRt w).toNat by rw [fields_rt]; rfl,
    show (fields w).rs.val = (fRs w).toNat by rw [fields_rs]; rfl]
  split
  case h_15 h0 h1 h2 h4 h5 h6 g16 g17 g20 g21 b0 b1 b2 b3 =>
    apply text_bytes
    unfold decoding
    rw [Option.map_eq_none_iff, code_cop1 ho]
    by_cases h8 : fRs w = 8#5
    · rw [if_pos h8]
      have : ∀ r : BitVec 5, 4 ≤ r.toNat → rowAt (.bc 1 r) = none := by decide +kernel
      apply this
      rw [h8] at b0 b1 b2 b3
      have b0 : (fRt w).toNat ≠ 0 := b0 rfl
      have b1 : (fRt w).toNat ≠ 1 := b1 rfl
      have b2 : (fRt w).toNat ≠ 2 := b2 rfl
      have b3 : (fRt w).toNat ≠ 3 := b3 rfl
      omega
    · rw [if_neg h8]
      split
      · have : ∀ r : BitVec 5, r.toNat ∉ [0, 1, 2, 4, 5, 6] → rowAt (.cop 1 r) = none := by decide +kernel
        apply this
        intro hm
        simp only [List.mem_cons, List.not_mem_nil, or_false] at hm
        rcases hm with h | h | h | h | h | h
        · exact h0 h
        · exact h1 h
        · exact h2 h
        · exact h4 h
        · exact h5 h
        · exact h6 h
      · have : ∀ r ∈ table, (∀ m f, r.code = .fp m f → m.toNat ∈ [16, 17, 20, 21]) := by
          have h : ∀ r ∈ table, (match r.code with | .fp m _ => decide (m.toNat ∈ [16, 17, 20, 21]) | _ => true) = true := by
            decide +kernel
          intro r hr m f e
          have := h r hr
          rw [e] at this
          simpa using this
        rw [List.find?_eq_none]
        intro r hr hc
        have hm := this r hr _ _ (of_decide_eq_true hc)
        simp only [List.mem_cons, List.not_mem_nil, or_false] at hm
        rcases hm with h | h | h | h
        · exact g16 h
        · exact g17 h
        · exact g20 h
        · exact g21 h
  all_goals first
    | exact text_rtFs (c_cop (.inr rfl) ho ‹_› (by decide) (by decide)) (by decide +kernel) (by decide) (fun _ _ _ _ _ => rfl) _ _ _
    | exact text_off (c_bc (.inr rfl) ho ‹_› ‹_›) (by decide +kernel) (by decide) (fun _ _ _ => rfl) ht _ _ _
    | exact cop1s_text ho ‹_›
    | exact cop1d_text ho ‹_›
    | exact cop1w_text ho ‹_›
    | exact cop1l_text ho ‹_›

theorem text_jump {jo : JTypeOp} {k : Nat} (syms : List (Word × Str)) (h : (fOp w).toNat = k)
    (hr : rowAt (.main (BitVec.ofNat 6 k)) = some ⟨jo.name, .target, .main (BitVec.ofNat 6 k)⟩)
    (hm : Printable jo.name = true) (hk : k = 2 ∨ k = 3) (b : List Word) :
    TextOf (matchSym syms (.jump jo (.address (jumpTarget base w)) b)) (lineText (symAt syms) base w) := by
  have hc : codeOf w = .main (BitVec.ofNat 6 k) := by
    rcases hk with rfl | rfl
    · exact c_main h (by decide) (by decide) (by decide) (by decide)
    · exact c_main h (by decide) (by decide) (by decide) (by decide)
  rw [jumpTarget_eq]
  unfold matchSym
  cases hs : symAt syms (jumpAddr base (fTarget w)) with
  | none =>
    simp only [hs]
    refine text_op (syn := .target) _ hc hr (by simp only [Instruction.display, List.append_assoc]; rfl) hm rfl (by simp [argsOf]) (by simp [argsOf]) ?_
    simp [argsOf, argText, hs, hexUpper_eq, hexTextU, List.intercalate]
  | some n =>
    simp only [hs]
    refine text_op (syn := .target) _ hc hr rfl hm rfl (by simp [argsOf]) (by simp [argsOf]) ?_
    simp [argsOf, argText, hs, List.intercalate]

/-- Not a jump. -/
def NotJump : Instruction → Bool
  | .jump .. => false
  | _ => true

theorem matchSym_notJump (syms : List (Word × Str)) (i : Instruction) (h : NotJump i = true) : matchSym syms i = i := by
  cases i <;> simp_all [NotJump, matchSym]

theorem special_notJump (w : Word) (f : Fields) : NotJump (decodeSpecial w f) = true := by
  unfold decodeSpecial; split <;> rfl
theorem regimm_notJump (w : Word) (f : Fields) : NotJump (decodeRegimm w f) = true := by
  unfold decodeRegimm; split <;> rfl
theorem cop0_notJump (w : Word) (f : Fields) : NotJump (decodeCop0 w f) = true := by
  unfold decodeCop0
  split <;> first | rfl | (unfold decodeCop0Co; split <;> rfl)
theorem cop1_notJump (w : Word) (f : Fields) : NotJump (decodeCop1 w f) = true := by
  unfold decodeCop1
  split <;> first | rfl | (unfold decodeCop1S; split <;> rfl) | (unfold decodeCop1D; split <;> rfl) |
    (unfold decodeCop1W; split <;> rfl) | (unfold decodeCop1L; split <;> rfl)

set_option synthInstance.maxSize 2000 in
set_option synthInstance.maxHeartbeats 400000 in
theorem decode_text (syms : List (Word × Str)) (base w : Word) (ht : ¬ TopImm w) (hh : ¬ CopHole w) :
    TextOf (matchSym syms (decode base w)) (lineText (symAt syms) base w) := by
  unfold decode
  dsimp only
  rw [fields_op]
  split
  case h_1 h => rw [matchSym_notJump _ _ (special_notJump ..)]; exact special_text (bv_of h)
  case h_2 h => rw [matchSym_notJump _ _ (regimm_notJump ..)]; exact regimm_text (bv_of h) ht
  case h_3 h => exact text_jump syms h (by decide +kernel) (by decide) (.inl rfl) _
  case h_4 h => exact text_jump syms h (by decide +kernel) (by decide) (.inr rfl) _
  case h_17 h => rw [matchSym_notJump _ _ (cop0_notJump ..)]; exact cop0_text (bv_of h) ht hh
  case h_18 h => rw [matchSym_notJump _ _ (cop1_notJump ..)]; exact cop1_text (bv_of h) ht
  case h_53 =>
    rw [matchSym_notJump _ _ rfl]
    apply text_bytes
    have hz : fOp w ≠ 0#6 ∧ fOp w ≠ 1#6 ∧ fOp w ≠ copOp 0 ∧ fOp w ≠ copOp 1 := by
      clear ht hh
      generalize fOp w = o at *
      refine ⟨?_, ?_, ?_, ?_⟩ <;> (rintro rfl; contradiction)
    rw [decoding_at (code_main rfl hz.1 hz.2.1 hz.2.2.1 hz.2.2.2), Option.map_eq_none_iff]
    clear ht hh hz
    generalize fOp w = o at *
    clear w base syms
    revert o
    decide +kernel
  all_goals
    rw [matchSym_notJump _ _ rfl]
    dis_i (c_main ‹_› (by decide) (by decide) (by decide) (by decide)), ht

end Mips
