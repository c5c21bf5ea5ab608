/-
C02 (the words the program gets wrong), C33: symbol substitution.
-/
import Verif.Props.Dis
import Verif.Lemmas.TraceL

namespace Mips
open Isa Listing Syntax

/-! ### C02: exactly what is printed for the remaining words -/

/-- Replace the low half of a word. -/
def Listing.withImm (w : BitVec 32) (v : BitVec 16) : BitVec 32 := iWord (fOp w) (fRs w) (fRt w) v

theorem withImm_op (w : Word) (v) : fOp (withImm w v) = fOp w := fOp_i ..
theorem withImm_rs (w : Word) (v) : fRs (withImm w v) = fRs w := fRs_i ..
theorem withImm_rt (w : Word) (v) : fRt (withImm w v) = fRt w := fRt_i ..
theorem withImm_imm (w : Word) (v) : fImm (withImm w v) = v := fImm_i ..

/-- The syntaxes with a signed 16-bit operand. -/
def signedSyn : Syn → Bool
  | .rtRsSimm | .rsSimm | .rtMem | .ftMem | .copMem | .rsRtOff | .rsOff | .off => true
  | _ => false

theorem topImm_row {w : Word} (h : TopImm w) : fImm w = 0x7FFF#16 ∧
    ∃ r ∈ table, r.code = codeOf w ∧ signedSyn r.syn = true := by
  obtain ⟨mn, args, h1, a, h2, h3⟩ := h
  unfold decoding at h1
  rw [Option.map_eq_some_iff] at h1
  obtain ⟨r, h1, h4⟩ := h1
  have hm := List.mem_of_find?_eq_some h1
  have hc : r.code = codeOf w := by
    have := List.find?_some h1; simpa using this
  simp only [Prod.mk.injEq] at h4
  rw [← h4.2] at h2
  have : signedSyn r.syn = true ∧ fImm w = 0x7FFF#16 := by
    have key : ∀ syn, ∀ a ∈ argsOf w syn, topArg a = true → signedSyn syn = true ∧ fImm w = 0x7FFF#16 := by
      intro syn; cases syn <;> simp [argsOf, signedSyn, topArg]
    exact key _ a h2 h3
  exact ⟨this.2, r, hm, hc, this.1⟩

theorem not_top_special {w : Word} (ho : fOp w = 0#6) : ¬ TopImm w := by
  intro h
  obtain ⟨-, r, hr, hc, hs⟩ := topImm_row h
  rw [code_special ho] at hc
  have : ∀ r ∈ table, signedSyn r.syn = true → ∀ f, r.code ≠ .special f := by decide +kernel
  exact this r hr hs _ hc

theorem not_top_main {w : Word} {k : Nat} (ho : (fOp w).toNat = k) (h0 : BitVec.ofNat 6 k ≠ 0#6) (h1 : BitVec.ofNat 6 k ≠ 1#6)
    (h2 : BitVec.ofNat 6 k ≠ copOp 0) (h3 : BitVec.ofNat 6 k ≠ copOp 1)
    (hn : ∀ r ∈ table, r.code = .main (BitVec.ofNat 6 k) → signedSyn r.syn = false) : ¬ TopImm w := by
  intro h
  obtain ⟨-, r, hr, hc, hs⟩ := topImm_row h
  rw [c_main ho h0 h1 h2 h3] at hc
  rw [hn r hr hc] at hs; cases hs

/-- Both display the same: same operation and registers, and the immediate prints the same. -/
theorem disp_short {op : ITypeOp} {rs rt : Register} {a c : BitVec 16} {b b' : List Word} (h : signedHex a = signedHex c)
    (ho : op ≠ .Andi ∧ op ≠ .Ori ∧ op ≠ .Xori ∧ op ≠ .Lui) :
    (Instruction.imm op rs rt (.short a) b).display = (Instruction.imm op rs rt (.short c) b').display := by
  show displayI op rs rt a = displayI op rs rt c
  cases op <;> simp [displayI, h] at ho ⊢

theorem rs_notJump {w : Word} (op : ITypeOp) (rs rt im b) (syms : List (Word × Str)) :
    (matchSym syms (.imm op rs rt im b)) = .imm op rs rt im b := rfl

theorem top_hex : signedHex 0x7FFF#16 = signedHex 0x8001#16 := by decide +kernel

theorem top_regimm {w w' : Word} (hrs : fRs w' = fRs w) (hrt : fRt w' = fRt w) (hi : fImm w = 0x7FFF#16) (hi' : fImm w' = 0x8001#16)
    (ho : fOp w = 1#6) (ht : TopImm w) :
    (decodeRegimm w (fields w)).display = (decodeRegimm w' (fields w')).display := by
  have hh : signedHex (fields w).imm = signedHex (fields w').imm := by
    rw [fields_imm, fields_imm, hi, hi']; exact top_hex
  have e1 : (fields w').rs = (fields w).rs := by rw [fields_rs, fields_rs, hrs]
  have e2 : (fields w').rt = (fields w).rt := by rw [fields_rt, fields_rt, hrt]
  unfold decodeRegimm
  rw [e2]
  split
  case h_15 =>
    exfalso
    obtain ⟨-, r, hr, hc, hs⟩ := topImm_row ht
    rw [code_regimm ho] at hc
    have hk : ∀ r ∈ table, signedSyn r.syn = true → ∀ v, r.code = .regimm v → v.toNat ∈ [0,1,2,3,8,9,10,11,12,14,16,17,18,19] := by
      decide +kernel
    have := hk r hr hs _ hc
    have e3 : (fields w).rt.val = (fRt w).toNat := by rw [fields_rt]; rfl
    rw [← e3] at this
    simp only [List.mem_cons, List.not_mem_nil, or_false] at this
    rcases this with h|h|h|h|h|h|h|h|h|h|h|h|h|h <;> contradiction
  all_goals (rw [e1]; exact disp_short hh (by decide))

/-- Positions of the instructions with a signed operand. -/
def signedCode : Code → Bool
  | .cop .. => false
  | .fp .. => false
  | .co .. => false
  | .bc _ v => decide (v.toNat < 4)
  | _ => true

theorem signed_codes : ∀ r ∈ table, signedSyn r.syn = true → signedCode r.code = true := by decide +kernel

theorem top_bc {w : Word} {z : BitVec 2} (ho : fOp w = copOp z) (hz : z = 0 ∨ z = 1) (ht : TopImm w) :
    (fRs w).toNat = 8 ∧ (fRt w).toNat < 4 := by
  obtain ⟨-, r, hr, hc, hs⟩ := topImm_row ht
  have hb := signed_codes r hr hs
  have k1 : ∀ z v, r.code ≠ .cop z v := by intro z v e; rw [e] at hb; cases hb
  have k2 : ∀ z v, r.code ≠ .fp z v := by intro z v e; rw [e] at hb; cases hb
  have k3 : ∀ v, r.code ≠ .co v := by intro v e; rw [e] at hb; cases hb
  have k4 : ∀ z v, r.code = .bc z v → v.toNat < 4 := by
    intro z v e; rw [e] at hb; exact of_decide_eq_true hb
  have : fRs w = 8#5 := by
    by_cases h : fRs w = 8#5
    · exact h
    · exfalso
      rcases hz with rfl | rfl
      · rw [code_cop0 ho, if_neg h] at hc
        split at hc
        · exact k1 _ _ hc
        · exact k3 _ hc
      · rw [code_cop1 ho, if_neg h] at hc
        split at hc
        · exact k1 _ _ hc
        · exact k2 _ _ hc
  refine ⟨by rw [this]; rfl, ?_⟩
  rcases hz with rfl | rfl
  · rw [code_cop0 ho, if_pos this] at hc; exact k4 _ _ hc
  · rw [code_cop1 ho, if_pos this] at hc; exact k4 _ _ hc

set_option maxHeartbeats 1000000 in
theorem top_display (syms : List (Word × Str)) (base : Word) {w w' : Word} (hop : fOp w' = fOp w)
    (hrs : fRs w' = fRs w) (hrt : fRt w' = fRt w) (hi : fImm w = 0x7FFF#16) (hi' : fImm w' = 0x8001#16) (ht : TopImm w) :
    (matchSym syms (decode base w)).display = (matchSym syms (decode base w')).display := by
  have hh : signedHex (fields w).imm = signedHex (fields w').imm := by
    rw [fields_imm, fields_imm, hi, hi']; exact top_hex
  have e1 : (fields w').rs = (fields w).rs := by rw [fields_rs, fields_rs, hrs]
  have e2 : (fields w').rt = (fields w).rt := by rw [fields_rt, fields_rt, hrt]
  unfold decode
  dsimp only
  rw [fields_op, fields_op, hop]
  split
  case h_1 h => exact absurd ht (not_top_special (bv_of h))
  case h_2 h =>
    rw [matchSym_notJump _ _ (regimm_notJump ..), matchSym_notJump _ _ (regimm_notJump ..)]
    exact top_regimm hrs hrt hi hi' (bv_of h) ht
  case h_3 h => exact absurd ht (not_top_main h (by decide) (by decide) (by decide) (by decide) (by decide +kernel))
  case h_4 h => exact absurd ht (not_top_main h (by decide) (by decide) (by decide) (by decide) (by decide +kernel))
  case h_13 h => exact absurd ht (not_top_main h (by decide) (by decide) (by decide) (by decide) (by decide +kernel))
  case h_14 h => exact absurd ht (not_top_main h (by decide) (by decide) (by decide) (by decide) (by decide +kernel))
  case h_15 h => exact absurd ht (not_top_main h (by decide) (by decide) (by decide) (by decide) (by decide +kernel))
  case h_16 h => exact absurd ht (not_top_main h (by decide) (by decide) (by decide) (by decide) (by decide +kernel))
  case h_17 h =>
    rw [matchSym_notJump _ _ (cop0_notJump ..), matchSym_notJump _ _ (cop0_notJump ..)]
    obtain ⟨h8, h4⟩ := top_bc (bv_of h) (.inl rfl) ht
    have e8 : (fields w).rs.val = 8 := by rw [fields_rs]; exact h8
    have e4 : (fields w).rt.val < 4 := by rw [fields_rt]; exact h4
    unfold decodeCop0
    rw [e1, e2]
    have : (fields w).rt.val = 0 ∨ (fields w).rt.val = 1 ∨ (fields w).rt.val = 2 ∨ (fields w).rt.val = 3 := by omega
    rcases this with h0 | h0 | h0 | h0 <;> (rw [e8, h0]; exact disp_short hh (by decide))
  case h_18 h =>
    rw [matchSym_notJump _ _ (cop1_notJump ..), matchSym_notJump _ _ (cop1_notJump ..)]
    obtain ⟨h8, h4⟩ := top_bc (bv_of h) (.inr rfl) ht
    have e8 : (fields w).rs.val = 8 := by rw [fields_rs]; exact h8
    have e4 : (fields w).rt.val < 4 := by rw [fields_rt]; exact h4
    unfold decodeCop1
    rw [e1, e2]
    have : (fields w).rt.val = 0 ∨ (fields w).rt.val = 1 ∨ (fields w).rt.val = 2 ∨ (fields w).rt.val = 3 := by omega
    rcases this with h0 | h0 | h0 | h0 <;> (rw [e8, h0]; exact disp_short hh (by decide))
  case h_53 =>
    exfalso
    have hz : fOp w ≠ 0#6 ∧ fOp w ≠ 1#6 ∧ fOp w ≠ copOp 0 ∧ fOp w ≠ copOp 1 := by
      clear ht hh hop
      generalize fOp w = o at *
      refine ⟨?_, ?_, ?_, ?_⟩ <;> (rintro rfl; contradiction)
    obtain ⟨-, r, hr, hc, hs⟩ := topImm_row ht
    rw [code_main rfl hz.1 hz.2.1 hz.2.2.1 hz.2.2.2] at hc
    clear ht hh hz hop
    generalize fOp w = o at *
    have hk : ∀ r ∈ table, ∀ v, r.code = .main v → v.toNat ∈ [2,3,4,5,6,7,8,9,10,11,12,13,14,15,20,21,22,23,24,25,26,27,32,33,34,35,36,37,38,39,40,41,42,43,44,45,46,47,48,49,52,53,55,56,57,60,61,63] := by
      decide +kernel
    have := hk r hr _ hc
    simp at this
    rcases this with h|h|h|h|h|h|h|h|h|h|h|h|h|h|h|h|h|h|h|h|h|h|h|h|h|h|h|h|h|h|h|h|h|h|h|h|h|h|h|h|h|h|h|h|h|h|h|h <;> contradiction
  all_goals (rw [rs_notJump (w := w), rs_notJump (w := w), e1, e2]; exact disp_short hh (by decide))

theorem topImm_code {w w' : Word} (hop : fOp w' = fOp w) (hrs : fRs w' = fRs w) (hrt : fRt w' = fRt w) (ht : TopImm w) :
    codeOf w' = codeOf w := by
  by_cases h0 : fOp w = 0#6
  · exact absurd ht (not_top_special h0)
  · unfold codeOf
    rw [hop, hrs, hrt]
    rw [if_neg h0, if_neg h0]
    by_cases h1 : fOp w = 1#6
    · rw [if_pos h1, if_pos h1]
    rw [if_neg h1, if_neg h1]
    by_cases h2 : fOp w = copOp 0
    · rw [if_pos h2, if_pos h2, if_pos (bv_of (top_bc h2 (.inl rfl) ht).1), if_pos (bv_of (top_bc h2 (.inl rfl) ht).1)]
    rw [if_neg h2, if_neg h2]
    by_cases h3 : fOp w = copOp 1
    · rw [if_pos h3, if_pos h3, if_pos (bv_of (top_bc h3 (.inr rfl) ht).1), if_pos (bv_of (top_bc h3 (.inr rfl) ht).1)]
    rw [if_neg h3, if_neg h3]

theorem not_top_of_imm {w : Word} (h : fImm w ≠ 0x7FFF#16) : ¬ TopImm w := fun ht => h (topImm_row ht).1

theorem not_hole_of_dec {w : Word} (h : (decoding w).isSome = true) : ¬ CopHole w := by
  rintro ⟨-, -, hd, -⟩; rw [hd] at h; cases h

theorem top_text (syms : List (Word × Str)) (base : Word) {w : Word} (ht : TopImm w) :
    TextOf (matchSym syms (decode base w)) (lineText (symAt syms) base (withImm w 0x8001#16)) := by
  have hop := withImm_op w 0x8001#16
  have hrs := withImm_rs w 0x8001#16
  have hrt := withImm_rt w 0x8001#16
  have hi := withImm_imm w 0x8001#16
  generalize withImm w 0x8001#16 = w' at *
  have hd : (decoding w').isSome = true := by
    unfold decoding
    rw [topImm_code hop hrs hrt ht]
    obtain ⟨mn, args, h1, -⟩ := ht
    unfold decoding at h1
    rw [Option.map_eq_some_iff] at h1
    obtain ⟨r, h1, -⟩ := h1
    rw [h1]; rfl
  obtain ⟨u, hu⟩ := decode_text syms base w' (not_top_of_imm (by rw [hi]; decide)) (not_hole_of_dec hd)
  exact ⟨u, by rw [top_display syms base hop hrs hrt (topImm_row ht).1 hi ht, hu.1], hu.2⟩

theorem hole_text (syms : List (Word × Str)) (base : Word) {w : Word} (hh : CopHole w) :
    ∃ name, (name, (fFn w).toNat) ∈ cp0Map ∧ (matchSym syms (decode base w)).display = some name := by
  obtain ⟨ho, h16, hd, hm⟩ := hh
  have e : decode base w = decodeCop0 w (fields w) := by
    unfold decode
    dsimp only
    rw [fields_op, ho]; rfl
  rw [e, matchSym_notJump _ _ (cop0_notJump ..)]
  have hco : decodeCop0 w (fields w) = decodeCop0Co w (fields w) := by
    unfold decodeCop0
    have none_cop : ∀ {k : Nat}, (fRs w).toNat = k → k < 16 → k ≠ 8 → rowAt (.cop 0 (BitVec.ofNat 5 k)) = none := by
      intro k h h1 h2
      have := decoding_at (c_cop (.inl rfl) ho h h1 h2)
      rw [hd] at this
      exact Option.map_eq_none_iff.mp this.symm
    have none_bc : ∀ {k : Nat}, (fRs w).toNat = 8 → (fRt w).toNat = k → rowAt (.bc 0 (BitVec.ofNat 5 k)) = none := by
      intro k h h1
      have := decoding_at (c_bc (.inl rfl) ho h h1)
      rw [hd] at this
      exact Option.map_eq_none_iff.mp this.symm
    have ers : (fields w).rs.val = (fRs w).toNat := by rw [fields_rs]; rfl
    have ert : (fields w).rt.val = (fRt w).toNat := by rw [fields_rt]; rfl
    rw [ers, ert]
    split <;> first
      | rfl
      | exact absurd (none_cop ‹_› (by decide) (by decide)) (by decide +kernel)
      | exact absurd (none_bc ‹_› ‹_›) (by decide +kernel)
  rw [hco]
  unfold decodeCop0Co
  rw [fields_funct]
  simp only [cp0Map, List.map_cons, List.map_nil, List.mem_cons, List.not_mem_nil, or_false] at hm
  rcases hm with h | h | h | h | h <;> rw [h]
  · exact ⟨c!"tlbr", by decide, rfl⟩
  · exact ⟨c!"tlbwi", by decide, rfl⟩
  · exact ⟨c!"tlbwr", by decide, rfl⟩
  · exact ⟨c!"tlbp", by decide, rfl⟩
  · exact ⟨c!"eret", by decide, rfl⟩

/-- C02, the signed operand 32767: it is printed as -32767, so the text is that of another instruction. -/
theorem C02_top_wrong (rt : Rt) (m : Mipsasm) (hm : m.debug = true) (hs : PlainSyms m.syms) (ws : List Word) :
    ∃ out, disassemble rt m ws = some out ∧
      ∀ (k : Nat) w, ws[k]? = some w → TopImm w →
        out[k]? = some (lineText (fun a => m.syms.lookup a) m.base (withImm w 0x8001#16)) := by
  obtain ⟨out, h1, h2, h3⟩ := disassemble_debug rt m hm ws
  refine ⟨out, h1, ?_⟩
  intro k w hk ht
  rw [h3 k w hk]
  obtain ⟨u, hu1, hu2⟩ := top_text m.syms m.base ht
  unfold Instruction.debug
  rw [hu1, Option.map_some, squeeze_eq, hu2, lineText_neat hs]
  rfl

theorem cp0_neat : ∀ e ∈ cp0Map, squash e.1 = e.1 := by decide

/-- C02, reserved words of the coprocessor 0 map whose low bits look like a CP0 function: they are printed
as that CP0 function and not as `.word`. -/
theorem C02_hole_wrong (rt : Rt) (m : Mipsasm) (hm : m.debug = true) (ws : List Word) :
    ∃ out, disassemble rt m ws = some out ∧
      ∀ (k : Nat) w, ws[k]? = some w → CopHole w →
        ∃ name, (name, (fFn w).toNat) ∈ cp0Map ∧ out[k]? = some name := by
  obtain ⟨out, h1, h2, h3⟩ := disassemble_debug rt m hm ws
  refine ⟨out, h1, ?_⟩
  intro k w hk hh
  obtain ⟨name, hn, hu⟩ := hole_text m.syms m.base hh
  refine ⟨name, hn, ?_⟩
  rw [h3 k w hk]
  unfold Instruction.debug
  rw [hu, Option.map_some, squeeze_eq, cp0_neat _ hn]

/-- C02 as stated is false of the code: `addiu $v0, $a0, 0x7fff` prints `-0x7fff`, and the reserved word
0x40600001 prints `tlbr`. -/
theorem C02_false :
    TopImm 0x24827fff#32 ∧ CopHole 0x40600001#32 ∧
    disassemble (idRt true) Mipsasm.new.setDebug [0x24827fff#32, 0x40600001#32] =
      some [c!"addiu $v0, $a0, -0x7fff", c!"tlbr"] ∧
    lineText (fun _ => none) 0#32 0x24827fff#32 = c!"addiu $v0, $a0, 0x7fff" ∧
    lineText (fun _ => none) 0#32 0x40600001#32 = c!".word 0x40600001" := by
  refine ⟨⟨c!"addiu", [.gpr 2, .gpr 4, .simm 0x7fff], by decide +kernel, .simm 0x7fff, by decide, by decide⟩,
    ⟨by decide, by decide, by decide +kernel, by decide +kernel⟩, by decide +kernel, by decide +kernel, by decide +kernel⟩

/-- Non-vacuity of `C02_text_partial`: a symbol table without white space, and words of many kinds that are neither
exception. -/
example : PlainSyms [(0x80000040#32, c!"main")] ∧
    (∀ w ∈ [0x0c000010#32, 0x46041234#32, 0x8fbf0014#32, 0xffffffff#32], ¬ TopImm w ∧ ¬ CopHole w) ∧
    lineText (fun a => [(0x80000040#32, c!"main")].lookup a) 0x80000000#32 0x0c000010#32 = c!"jal main" ∧
    lineText (fun _ => none) 0x80000000#32 0x8fbf0014#32 = c!"lw $ra, 0x14($sp)" := by
  refine ⟨by unfold PlainSyms NoWs; decide, ?_, by decide +kernel, by decide +kernel⟩
  intro w hw
  simp only [List.mem_cons, List.not_mem_nil, or_false] at hw
  rcases hw with rfl | rfl | rfl | rfl <;> exact ⟨not_top_of_imm (by decide), fun h => absurd h.1 (by decide)⟩

/-! ### C33 -/

/-- The text `disassemble` (in debug mode) gives for one word. -/
def Listing.textOf (m : Mipsasm) (w : BitVec 32) : Option Str := (disassemble (idRt false) { m with debug := true } [w]).bind (·[0]?)

theorem debug_text (rt : Rt) (m : Mipsasm) (hm : m.debug = true) (ws : List Word) (k : Nat) (w : Word) (hk : ws[k]? = some w) :
    ∃ out, disassemble rt m ws = some out ∧ out[k]? = textOf m w := by
  obtain ⟨out, h1, h2, h3⟩ := disassemble_debug rt m hm ws
  refine ⟨out, h1, ?_⟩
  rw [h3 k w hk]
  unfold textOf
  obtain ⟨out', h1', -, h3'⟩ := disassemble_debug (idRt false) { m with debug := true } rfl [w]
  rw [h1', Option.bind_some, h3' 0 w rfl]

theorem textOf_eq (m : Mipsasm) (w : Word) : textOf m w = (matchSym m.syms (decode m.base w)).debug := by
  unfold textOf
  obtain ⟨out', h1', -, h3'⟩ := disassemble_debug (idRt false) { m with debug := true } rfl [w]
  rw [h1', Option.bind_some, h3' 0 w rfl]

theorem decode_notJump (base w : Word) (h2 : fOp w ≠ 2#6) (h3 : fOp w ≠ 3#6) : NotJump (decode base w) = true := by
  unfold decode
  dsimp only
  rw [fields_op]
  split
  case h_3 h => exact absurd (bv_of h) h2
  case h_4 h => exact absurd (bv_of h) h3
  all_goals first | rfl | exact special_notJump .. | exact regimm_notJump .. | exact cop0_notJump .. | exact cop1_notJump ..

theorem decode_base (base base' w : Word) (h2 : fOp w ≠ 2#6) (h3 : fOp w ≠ 3#6) : decode base w = decode base' w := by
  unfold decode
  dsimp only
  rw [fields_op]
  split
  case h_3 h => exact absurd (bv_of h) h2
  case h_4 h => exact absurd (bv_of h) h3
  all_goals rfl

/-- C33, all other instructions: the text of a word that is not `j`/`jal` does not depend on the symbol table
(nor on the base address). -/
theorem C33_others (rt : Rt) (m : Mipsasm) (hm : m.debug = true) (ws : List Word) (k : Nat) (w : Word)
    (hk : ws[k]? = some w) (h2 : fOp w ≠ 2#6) (h3 : fOp w ≠ 3#6) (base' : Word) (syms' : List (Word × Str)) :
    ∃ out, disassemble rt m ws = some out ∧ out[k]? = textOf ⟨base', syms', true⟩ w := by
  obtain ⟨out, h1, hk'⟩ := debug_text rt m hm ws k w hk
  refine ⟨out, h1, hk'.trans ?_⟩
  rw [textOf_eq, textOf_eq, matchSym_notJump _ _ (decode_notJump _ _ h2 h3), matchSym_notJump _ _ (decode_notJump _ _ h2 h3)]
  rw [decode_base _ base' w h2 h3]

theorem jump_row {w : Word} {k : Nat} (h : (fOp w).toNat = k) (hk : k = 2 ∨ k = 3) :
    decoding w = some (if k = 2 then c!"j" else c!"jal", [.target (fTarget w)]) := by
  rcases hk with rfl | rfl
  · rw [decoding_at (c_main h (by decide) (by decide) (by decide) (by decide)),
      show rowAt (.main (BitVec.ofNat 6 2)) = some ⟨c!"j", .target, .main (BitVec.ofNat 6 2)⟩ by decide +kernel]; rfl
  · rw [decoding_at (c_main h (by decide) (by decide) (by decide) (by decide)),
      show rowAt (.main (BitVec.ofNat 6 3)) = some ⟨c!"jal", .target, .main (BitVec.ofNat 6 3)⟩ by decide +kernel]; rfl

theorem jump_lineText (sym : Word → Option Str) (base w : Word) (hj : fOp w = 2#6 ∨ fOp w = 3#6) :
    ¬ TopImm w ∧ ¬ CopHole w ∧ lineText sym base w = (if fOp w = 2#6 then c!"j " else c!"jal ") ++
        (match sym (jumpAddr base (fTarget w)) with
          | some name => name
          | none => hexTextU (jumpAddr base (fTarget w)).toNat) := by
  have hd : decoding w = some (if (fOp w).toNat = 2 then c!"j" else c!"jal", [.target (fTarget w)]) := by
    apply jump_row rfl
    rcases hj with h | h <;> rw [h]
    · exact .inl rfl
    · exact .inr rfl
  have ht : ¬ TopImm w := by
    rintro ⟨mn, args, h, a, ha, hb⟩
    rw [hd] at h
    simp only [Option.some.injEq, Prod.mk.injEq] at h
    rw [← h.2] at ha
    simp at ha; subst ha; cases hb
  refine ⟨ht, not_hole_of_dec (by rw [hd]; rfl), ?_⟩
  unfold lineText
  rw [hd]
  rcases hj with h | h <;> simp only [h, c0Arg] <;> cases hl : sym (jumpAddr base (fTarget w)) <;>
    simp [instText, shown, argText, List.intercalate, hl]

/-- C33, `j` and `jal`: the operand is the name the symbol table has for the target address, if it has one, and the
address in upper-case hexadecimal otherwise (in debug mode every run of white space in a line, also inside a name, is printed as
one space: `squash`). -/
theorem C33_jumps (rt : Rt) (m : Mipsasm) (hm : m.debug = true) (ws : List Word) (k : Nat) (w : Word)
    (hk : ws[k]? = some w) (hj : fOp w = 2#6 ∨ fOp w = 3#6) :
    ∃ out, disassemble rt m ws = some out ∧
      out[k]? = some (squash ((if fOp w = 2#6 then c!"j " else c!"jal ") ++
        (match m.syms.lookup (jumpAddr m.base (fTarget w)) with
          | some name => name
          | none => hexTextU (jumpAddr m.base (fTarget w)).toNat))) := by
  obtain ⟨out, h1, h2, h3⟩ := text_squash rt m hm ws
  obtain ⟨a, b, c⟩ := jump_lineText (fun a => m.syms.lookup a) m.base w hj
  refine ⟨out, h1, ?_⟩
  rw [h3 k w hk a b, c]

/-- C33, `j` and `jal`, when the names have no white space: exactly the name. -/
theorem C33_jumps_plain (rt : Rt) (m : Mipsasm) (hm : m.debug = true) (hs : PlainSyms m.syms) (ws : List Word) (k : Nat) (w : Word)
    (hk : ws[k]? = some w) (hj : fOp w = 2#6 ∨ fOp w = 3#6) :
    ∃ out, disassemble rt m ws = some out ∧
      out[k]? = some ((if fOp w = 2#6 then c!"j " else c!"jal ") ++
        (match m.syms.lookup (jumpAddr m.base (fTarget w)) with
          | some name => name
          | none => hexTextU (jumpAddr m.base (fTarget w)).toNat)) := by
  obtain ⟨out, h1, h2, h3⟩ := C02_text_partial rt m hm hs ws
  obtain ⟨a, b, c⟩ := jump_lineText (fun a => m.syms.lookup a) m.base w hj
  refine ⟨out, h1, ?_⟩
  rw [h3 k w hk a b, c]

/-- Non-vacuity, and the symbolic and numeric forms side by side. -/
example : disassemble (idRt true) ⟨0x80000000#32, [(0x80000040#32, c!"main")], true⟩ [0x0c000010#32, 0x08000011#32, 0x00851020#32]
    = some [c!"jal main", c!"j 0x80000044", c!"add $v0, $a0, $a1"] := by decide +kernel

/-- Where `C33_jumps` and the English claim differ: a run of white space inside a name is collapsed in debug mode. -/
theorem C33_spaces_wrong : disassemble (idRt true) ⟨0#32, [(0x40#32, c!"a  b")], true⟩ [0x0c000010#32] = some [c!"jal a b"] := by
  decide +kernel

end Mips
