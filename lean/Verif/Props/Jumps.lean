/- C07: jumps. -/
import Verif.Props.Labels
import Verif.Props.LayoutP
import Verif.Spec.Jump

namespace Mips
open Isa Syntax Source Branch Listing

theorem jumpOps_ok : ∀ mn ∈ jumpOps, classify mn = .jump ∧ mnOk mn = true ∧
    ((mn = c!"j" ∧ JTypeOp.fromStr mn = some .J) ∨ (mn = c!"jal" ∧ JTypeOp.fromStr mn = some .Jal)) := by decide +kernel

/-- The operation of a jump mnemonic. -/
def jumpOp (mn : Str) : JTypeOp := if mn = c!"j" then .J else .Jal

theorem jump_parse [Unicode] (x : Ctx) {mn mn' t : Str} (hm : mn ∈ jumpOps) (hs : SameName mn' mn) (hc : ',' ∉ t) :
    (parseInst x (mn' ++ ' ' :: t)).res = (parseTarget x (trim t)).bind fun a => .ok (.jump (jumpOp mn) a []) := by
  obtain ⟨k1, k2, k3⟩ := jumpOps_ok mn hm
  have hM : Mn mn' mn := ⟨hs, k2⟩
  have hop : JTypeOp.fromStr mn = some (jumpOp mn) := by
    rcases k3 with ⟨rfl, k⟩ | ⟨rfl, k⟩ <;> exact k
  rw [parseInst_args x hM, k1]
  cases ht : parseTarget x (trim t) with
  | ok a => rw [arm_jump x hM hop (split_noComma _ _ hc) ht]; rfl
  | err e =>
    simp only [parseArm, split_noComma _ _ hc, ht, hM.opJ hop, W.bind_res _ () (delayCheck_res x)]; rfl
  | panic =>
    simp only [parseArm, split_noComma _ _ hc, ht, hM.opJ hop, W.bind_res _ () (delayCheck_res x)]; rfl

theorem index_word (op : BitVec 6) (a : Word) : op.setWidth 32 <<< 26 ||| (a &&& 0x3FFFFFF#32) >>> 2 = jWord op (index24 a) := by
  have : (0x3FFFFFF#32 : BitVec 32) = BitVec.setWidth 32 (BitVec.allOnes 26) := by decide
  unfold jWord index24
  rw [this]
  apply BitVec.eq_of_getLsbD_eq
  intro i hi
  simp only [BitVec.getLsbD_or, BitVec.getLsbD_shiftLeft, BitVec.getLsbD_ushiftRight, BitVec.getLsbD_and, BitVec.getLsbD_setWidth,
    BitVec.getLsbD_append, BitVec.getLsbD_extractLsb', BitVec.getLsbD_allOnes]
  by_cases h26 : i < 26
  · have : 2 + i < 32 := by omega
    by_cases h24 : i < 24
    · have : 2 + i < 26 := by omega
      simp [*]
    · have : ¬ 2 + i < 26 := by omega
      simp [*]
  · have h1 : ¬ 2 + i < 26 := by omega
    have h2 : i - 26 < 32 := by omega
    simp [*]

theorem jump_encode {mn : Str} (hm : mn ∈ jumpOps) (ovf : Bool) (a : Word) (b : List Word) :
    ∃ w, encoding mn [.target (index24 a)] = some w ∧ encode ovf (.jump (jumpOp mn) (.address a) b) = some [w] := by
  simp only [jumpOps, List.mem_cons, List.not_mem_nil, or_false] at hm
  rcases hm with rfl | rfl
  · refine ⟨jWord 2 (index24 a), rfl, ?_⟩
    rw [← index_word]; rfl
  · refine ⟨jWord 3 (index24 a), rfl, ?_⟩
    rw [← index_word]; rfl

/-- A jump line whose operand was parsed to `q`, which label resolution turns into the address `a`. -/
theorem jump_done [Unicode] {rt : Rt} {m : Mipsasm} {text : Str} {is : List Instruction} {warns : List ParserWarning}
    (h : assemble rt m text = .ok is warns) {k : Nat} {mn t : Str} (hj : JumpAt (lines text) k mn t) :
    ∃ (x : Ctx) (tr : List Outcome) (q : Target) (a : Instruction), AtLine rt m (lines text) k x ∧
      IsTrace (envOf rt m text) (lines text) tr ∧ outErrors tr = [] ∧ parseTarget x (trim t) = .ok q ∧
      adjust1 (envOf rt m text) (canonF tr) (codeCount ((lines text).take k)) (k + 1, .jump (jumpOp mn) q []) = some (a, []) ∧
      ∀ v b, a = .jump (jumpOp mn) (.address v) b → HasTarget is (codeCount ((lines text).take k)) mn (index24 v) := by
  obtain ⟨hm, hc, raw, mn', hk, hkc, hs, hbody⟩ := hj
  obtain ⟨tr, x, ws, p, a, b, hT, he, hx, hat, ho, hp, ha, hb', hab, hi, hlen⟩ := line_done h hk hkc
  have hpar := jump_parse x hm hs hc
  rw [← hbody, hp] at hpar
  cases ht : parseTarget x (trim t) with
  | err e => rw [ht] at hpar; cases hpar
  | panic => rw [ht] at hpar; cases hpar
  | ok q =>
    rw [ht] at hpar
    simp only [Res.bind, Res.ok.injEq] at hpar
    subst hpar
    refine ⟨x, tr, q, a, hat, hT, he, ht, ha, ?_⟩
    rintro v b' rfl
    obtain ⟨w, w1, w2⟩ := jump_encode hm rt.ovf v b'
    rw [w2] at hb'
    exact ⟨w, w1, by rw [hi]; exact congrArg some (Option.some.inj hb').symm⟩

theorem findSym_none {syms : List (Word × Str)} {l : Str} (h : ∀ e ∈ syms, e.2 ≠ l) : findSym syms l = none := by
  unfold findSym
  rw [List.find?_eq_none.2]
  · rfl
  · intro e he; simpa using h e he

theorem findSym_some {syms : List (Word × Str)} {a : Word} {l : Str} (h : (a, l) ∈ syms) (hn : (syms.map (·.2)).Nodup) : findSym syms l = some a := by
  unfold findSym
  induction syms with
  | nil => cases h
  | cons e r ih =>
    simp only [List.map_cons, List.nodup_cons] at hn
    rw [List.find?_cons]
    rcases List.mem_cons.1 h with rfl | h
    · simp
    · have : (e.2 == l) = false := by
        rw [beq_eq_false_iff_ne]
        rintro rfl
        exact hn.1 (List.mem_map.2 ⟨_, h, rfl⟩)
      rw [this]
      exact ih h hn.2

/-- C07, jumps to symbols: in an accepted program the jump carries bits 2..25 of the symbol's address. -/
theorem C07_symbol [Unicode] (rt : Rt) (m : Mipsasm) (text : Str) (is : List Instruction) (warns : List ParserWarning)
    (h : assemble rt m text = .ok is warns) (k : Nat) (mn t : Str) (hj : JumpAt (lines text) k mn t)
    (a : Word) (hs : (a, trim t) ∈ m.syms) (hn : (m.syms.map (·.2)).Nodup) :
    HasTarget is (codeCount ((lines text).take k)) mn (index24 a) := by
  obtain ⟨x, tr, q, i, hat, hT, he, hq, ha, hw⟩ := jump_done h hj
  unfold parseTarget at hq
  rw [hat.syms, findSym_some hs hn] at hq
  cases hq
  cases ha
  exact hw _ _ rfl

/-- An address operand of a jump. -/
theorem parseTarget_num (x : Ctx) {s : Str} {n : Nat} (h : UNum s n) (hn : n < 2 ^ 32) (hs : findSym x.syms s = none) :
    parseTarget x s = .ok (.address (BitVec.ofNat 32 n)) := by
  unfold parseTarget
  rw [hs]
  simp only
  have chk : IntTy.check .u32 (n : Int) = some (n : Int) := by
    unfold IntTy.check; rw [if_pos]; simp [IntTy.min, IntTy.max]; omega
  cases h with
  | hex s n h =>
    have : startsWith c!"0x" (c!"0x" ++ s) = true := by simp [startsWith]
    rw [if_pos this]
    have hr : remove0x (c!"0x" ++ s) = s := by
      show remove0x ('0' :: 'x' :: s) = s
      rw [remove0x_0x, remove0x_noX _ (noX_hex h)]
    rw [hr]
    have : parseU32Hex s = some n := by
      unfold parseU32Hex
      rw [fromStrRadix_digits _ _ _ (digits_chars_hex h).1 (hex_noSign h), parseDigits_hex h]
      simp [chk]
    rw [this]
  | dec s n h =>
    have hx : startsWith c!"0x" s = false := by
      rw [Bool.eq_false_iff]
      intro hh
      have : 'x' ∈ s := by
        match s, hh with
        | [_], hh => simp [startsWith] at hh
        | _ :: b :: _, hh => simp [startsWith] at hh; exact hh.2 ▸ by simp
      exact noX_dec h this
    have hne : s ≠ [] := (digits_chars_dec h).1
    have hp : parseU32 s = some n := by
      unfold parseU32
      rw [fromStrRadix_digits _ _ _ hne (dec_noSign h), parseDigits_dec h]
      simp [chk]
    rw [if_neg (by simp [hx]), hp]
    obtain ⟨c, r, rfl⟩ := List.exists_cons_of_ne_nil hne
    have hc := digits_chars_dec h
    have hc1 := hc.2 c (by simp)
    have htk : takeBytes (c :: r) 1 = some [c] := by
      have : c.utf8Size = 1 := by
        unfold Char.utf8Size
        have : c.val.toNat ≤ 127 := by have := hc1; simp [val_toNat]; omega
        rw [if_pos (by rw [UInt32.le_iff_toNat_le]; exact this)]
      simp [takeBytes, this]
    rw [htk]
    simp only
    rw [if_pos]
    obtain ⟨k, hk⟩ : ∃ k, Digits decDigits [c] k ∧ k < 10 := by
      refine ⟨c.toNat - 48, .one c _ ?_, by omega⟩
      have key : ∀ n : Fin 10, decDigits[n.val]? = some (asciiLower (Char.ofNat (n.val + 48))) := by decide
      have := key ⟨c.toNat - 48, by omega⟩
      simp only at this
      rwa [show c.toNat - 48 + 48 = c.toNat by omega, Char.ofNat_toNat] at this
    unfold parseU32
    rw [fromStrRadix_digits _ _ _ (by simp) (dec_noSign hk.1), parseDigits_dec hk.1]
    have : IntTy.check .u32 (k : Int) = some (k : Int) := by
      unfold IntTy.check; rw [if_pos]; simp [IntTy.min, IntTy.max]; omega
    simp [this]

/-- C07, jumps to numeric addresses: in an accepted program the jump carries bits 2..25 of the address. -/
theorem C07_address [Unicode] (rt : Rt) (m : Mipsasm) (text : Str) (is : List Instruction) (warns : List ParserWarning)
    (h : assemble rt m text = .ok is warns) (k : Nat) (mn t : Str) (hj : JumpAt (lines text) k mn t)
    (n : Nat) (hu : UNum (trim t) n) (hn : n < 2 ^ 32) (hs : ∀ e ∈ m.syms, e.2 ≠ trim t) :
    HasTarget is (codeCount ((lines text).take k)) mn (index24 (BitVec.ofNat 32 n)) := by
  obtain ⟨x, tr, q, i, hat, hT, he, hq, ha, hw⟩ := jump_done h hj
  rw [parseTarget_num x hu hn (by rw [hat.syms]; exact findSym_none hs)] at hq
  cases hq
  cases ha
  exact hw _ _ rfl

/-- A name operand of a jump. -/
theorem parseTarget_name [Unicode] (x : Ctx) {l : Str} {c : Char} {r : Str} {q : Target} (hl : l = c :: r) (hc : Unicode.isNumeric c = false)
    (hs : findSym x.syms l = none) (hq : parseTarget x l = .ok q) : q = .label l := by
  unfold parseTarget at hq
  rw [hs] at hq
  simp only at hq
  have h0 : isAscii c = true → isDigit c = false := fun h => by rw [← Unicode.isNumeric_ascii c h]; exact hc
  split at hq
  · rename_i hx
    exfalso
    subst hl
    match r, hx with
    | [], hx => simp [startsWith] at hx
    | b :: _, hx =>
      simp [startsWith] at hx
      rw [← hx.1] at h0
      exact absurd (h0 (by decide)) (by decide)
  · split at hq
    · cases hq
    · rename_i hd htk
      split at hq
      · exfalso
        rename_i hp
        subst hl
        have hc1 : c.utf8Size ≤ 1 ∧ hd = [c] := by
          simp only [takeBytes] at htk
          split at htk
          · refine ⟨by assumption, ?_⟩
            have hpos := Char.utf8Size_pos c
            rw [show 0 + 1 - c.utf8Size = 0 by omega] at htk
            simpa [takeBytes] using htk.symm
          · cases htk
        have hasc : isAscii c = true := by
          have := hc1.1
          unfold Char.utf8Size at this
          dsimp only at this
          split at this
          · rename_i h
            rw [UInt32.le_iff_toNat_le] at h
            unfold isAscii
            rw [decide_eq_true_iff, UInt32.lt_iff_toNat_lt]
            exact Nat.lt_succ_of_le h
          · split at this
            · omega
            · split at this <;> omega
        rw [hc1.2] at hp
        obtain ⟨v, hv⟩ := Option.isSome_iff_exists.1 hp
        unfold parseU32 at hv
        rw [Option.map_eq_some_iff] at hv
        obtain ⟨z, hz, _⟩ := hv
        obtain ⟨_, _, d, n, hd0, hd, hcase⟩ := fromStrRadix_inv hz
        rcases hcase with ⟨e, _⟩ | ⟨e, _⟩ | ⟨e, _⟩
        · subst e
          simp only [parseDigits] at hd
          cases hdv : digitVal 10 c with
          | none => rw [hdv] at hd; cases hd
          | some u =>
            have hnd := h0 hasc
            unfold digitVal at hdv
            unfold isDigit at hnd
            rw [Bool.and_eq_false_iff, decide_eq_false_iff_not, decide_eq_false_iff_not, UInt32.le_iff_toNat_le, UInt32.le_iff_toNat_le] at hnd
            have hnd : ¬ 48 ≤ c.toNat ∨ ¬ c.toNat ≤ 57 := hnd
            dsimp only at hdv
            split at hdv
            · rename_i v hv
              split at hdv
              · split at hv
                · omega
                · split at hv
                  · cases hv; omega
                  · split at hv
                    · cases hv; omega
                    · cases hv
              · cases hdv
            · cases hdv
        · simp at e; exact hd0 e.2
        · simp at e; exact hd0 e.2
      · cases hq; rfl

/-- C07, jumps to labels: in an accepted program the jump carries bits 2..25 of the base address plus four times the number of
source instructions in front of the label, which may be defined before or after the jump. -/
theorem C07_label [Unicode] (rt : Rt) (m : Mipsasm) (text : Str) (is : List Instruction) (warns : List ParserWarning)
    (h : assemble rt m text = .ok is warns) (k d : Nat) (mn t l : Str) (hj : JumpAt (lines text) k mn t)
    (hd : Defines (lines text) d l) (hl : isLocal l = false) (ht : trim t = l) (hs : ∀ e ∈ m.syms, e.2 ≠ l) :
    HasTarget is (codeCount ((lines text).take k)) mn
      (index24 (m.base + BitVec.ofNat 32 (4 * codeCount ((lines text).take d)))) := by
  obtain ⟨x, tr, q, i, hat, hT, he, hq, ha, hw⟩ := jump_done h hj
  have hac := C11_accepted rt m text is warns h
  obtain ⟨raw, h1, h2⟩ := hd
  obtain ⟨c, r, hcr, hnum⟩ := hac.2 raw (List.mem_of_getElem? h1) l h2
  have := parseTarget_name x (l := trim t) (by rw [ht]; exact hcr) hnum (by rw [hat.syms, ht]; exact findSym_none hs) hq
  subst this
  rw [ht] at ha
  have hdl : d < (lines text).length := (List.getElem?_eq_some_iff.1 h1).1
  have hm := defines_mem (k := (lines text).length) ⟨raw, h1, h2⟩ hl hdl
  rw [List.take_of_length_le (Nat.le_refl _)] at hm
  have hlk := lookup_of_nodup hac.1 hm
  have hlab : (canonF tr).labels = globals (lines text) := (trace_counts_all hT he).1
  simp only [adjust1, hlab, hlk, opt_bind, Option.bind_eq_some_iff, Option.some.injEq, Prod.mk.injEq, and_true] at ha
  obtain ⟨a4, ha4, v, hv, rfl⟩ := ha
  have := hw _ _ rfl
  rw [chkAdd_some hv, chkMul_some ha4, mul4] at this
  exact this

theorem jumpAddr_toNat (pc : Word) (idx : BitVec 26) : (jumpAddr pc idx).toNat = pc.toNat / 2 ^ 28 * 2 ^ 28 + idx.toNat * 4 := by
  unfold jumpAddr
  have h2 := idx.isLt
  rw [BitVec.toNat_append, BitVec.toNat_append, Nat.shiftLeft_eq, Nat.shiftLeft_eq]
  simp only [BitVec.toNat_ofNat, Nat.zero_mod, Nat.or_zero, BitVec.extractLsb'_toNat, Nat.shiftRight_eq_div_pow]
  rw [Nat.mul_comm _ (2 ^ 26), ← Nat.two_pow_add_eq_or_of_lt h2]
  have := pc.isLt
  omega

/-- C07: where a jump with the index the assembler computes goes: to the intended address if and only if that address is a
multiple of 4 in the lowest 64 MB of the 256 MB region the jump is executed in. -/
theorem C07_exact (is : List Instruction) (i : Nat) (mn : Str) (a pc : Word) (hm : mn ∈ jumpOps) (h : HasTarget is i mn (index24 a)) :
    JumpsTo is i mn pc a ↔ Low pc a := by
  have hidx : (index24 a).toNat = a.toNat / 4 % 2 ^ 24 := by
    unfold index24
    rw [BitVec.toNat_setWidth, BitVec.extractLsb'_toNat, Nat.shiftRight_eq_div_pow]
    omega
  have hval : jumpAddr pc (index24 a) = a ↔ Low pc a := by
    rw [← BitVec.toNat_inj, jumpAddr_toNat, hidx]
    unfold Low
    have := a.isLt
    have := pc.isLt
    omega
  constructor
  · rintro ⟨idx, h', hg⟩
    obtain ⟨w, w1, w2⟩ := h
    obtain ⟨w', w1', w2'⟩ := h'
    rw [w2] at w2'
    simp only [Option.some.injEq, List.cons.injEq, and_true] at w2'
    subst w2'
    have : idx = index24 a := by
      have e : ∀ j : BitVec 26, (encoding mn [.target j]).map fTarget = some j := by
        intro j
        simp only [jumpOps, List.mem_cons, List.not_mem_nil, or_false] at hm
        rcases hm with rfl | rfl
        · show some (fTarget (jWord 2 j)) = some j
          rw [fTarget_j]
        · show some (fTarget (jWord 3 j)) = some j
          rw [fTarget_j]
      have e1 := e idx
      rw [w1'] at e1
      have e2 := e (index24 a)
      rw [w1, e1] at e2
      exact Option.some.inj e2
    rw [← hval, ← this]; exact hg
  · intro hlow
    exact ⟨_, h, hval.2 hlow⟩

/-- C07 for symbols: the jump goes to the symbol's address, if that is a multiple of 4 in the lowest 64 MB of the region.
Missing: the restriction is needed (`C07_exact`, `C07_wrong`). -/
theorem C07_symbol_partial [Unicode] (rt : Rt) (m : Mipsasm) (text : Str) (is : List Instruction) (warns : List ParserWarning)
    (h : assemble rt m text = .ok is warns) (k : Nat) (mn t : Str) (hj : JumpAt (lines text) k mn t)
    (a : Word) (hs : (a, trim t) ∈ m.syms) (hn : (m.syms.map (·.2)).Nodup) (pc : Word) (hlow : Low pc a) :
    JumpsTo is (codeCount ((lines text).take k)) mn pc a :=
  (C07_exact _ _ _ _ _ hj.1 (C07_symbol rt m text is warns h k mn t hj a hs hn)).2 hlow

/-- C07 for labels: the jump goes to the first word emitted behind the label, if all instructions in front of the label are
one word long and its address is in the lowest 64 MB of the region the jump is executed in.
Missing: both restrictions are needed (`C07_wrong`). -/
theorem C07_label_partial [Unicode] (rt : Rt) (m : Mipsasm) (text : Str) (is : List Instruction) (warns : List ParserWarning)
    (h : assemble rt m text = .ok is warns) (k d : Nat) (mn t l : Str) (hj : JumpAt (lines text) k mn t)
    (hd : Defines (lines text) d l) (hl : isLocal l = false) (ht : trim t = l) (hs : ∀ e ∈ m.syms, e.2 ≠ l)
    (hsing : Single is 0 (codeCount ((lines text).take d))) (pc : Word)
    (hlow : Low pc (m.base + BitVec.ofNat 32 (4 * wordIndex is (codeCount ((lines text).take d))))) :
    JumpsTo is (codeCount ((lines text).take k)) mn pc
      (m.base + BitVec.ofNat 32 (4 * wordIndex is (codeCount ((lines text).take d)))) := by
  have hn : codeCount ((lines text).take d) ≤ is.length := by rw [is_length h]; exact codeCount_take_le _ _
  have hw := wordIndex_single (Nat.zero_le _) hn hsing
  have h0 : wordIndex is 0 = 0 := by simp [wordIndex, getBytes]
  rw [h0] at hw
  simp only [Nat.zero_add, Nat.sub_zero] at hw
  rw [hw] at hlow ⊢
  exact (C07_exact _ _ _ _ _ hj.1 (C07_label rt m text is warns h k d mn t l hj hd hl ht hs)).2 hlow

/-! ### Concrete programs -/

theorem jumpAt0 {text mn t raw : Str} {k : Nat} (hm : mn ∈ jumpOps) (hs : SameName mn mn) (hc : ',' ∉ t) (h1 : (lines text)[k]? = some raw)
    (h2 : kind raw = .code) (h3 : body raw = mn ++ ' ' :: t) : JumpAt (lines text) k mn t := ⟨hm, hc, raw, mn, h1, h2, hs, h3⟩

/-- Where the jump word `w` goes. -/
theorem not_jumpsTo {is : List Instruction} {i : Nat} {pc a : Word} {w : Word} (hw : (is[i]?).map Instruction.getBytes = some [w])
    (hne : jumpAddr pc (fTarget w) ≠ a) : ¬ JumpsTo is i c!"j" pc a := by
  rintro ⟨idx, ⟨w', w1, w2⟩, hg⟩
  rw [hw] at w2
  simp only [Option.some.injEq, List.cons.injEq, and_true] at w2
  subst w2
  have w1' : some (jWord 2 idx) = some w := w1
  have : idx = fTarget w := by rw [← Option.some.inj w1', fTarget_j]
  exact hne (this ▸ hg)

/-- C07 fails in two ways: `a: j a` at base 0x04000000 goes to address 0 (bits 26 and 27 are lost), and in
`li $t0, 0x12345678; a: j a` the jump goes to the second word of `li`. -/
theorem C07_wrong :
    (∃ is warns, @assemble asciiUnicode (idRt true) (Mipsasm.new.setBase 0x04000000) c!"a:\nj a" = .ok is warns ∧
      JumpAt (lines c!"a:\nj a") 1 c!"j" c!"a" ∧ Defines (lines c!"a:\nj a") 0 c!"a" ∧ wordIndex is 0 = 0 ∧
      ¬ JumpsTo is 0 c!"j" 0x04000000 0x04000000) ∧
    (∃ is warns, @assemble asciiUnicode (idRt true) Mipsasm.new c!"li $t0, 0x12345678\na:\nj a" = .ok is warns ∧
      JumpAt (lines c!"li $t0, 0x12345678\na:\nj a") 2 c!"j" c!"a" ∧ Defines (lines c!"li $t0, 0x12345678\na:\nj a") 1 c!"a" ∧
      wordIndex is 1 = 2 ∧ ¬ JumpsTo is 1 c!"j" 0 (0 + BitVec.ofNat 32 (4 * 2))) := by
  constructor
  · obtain ⟨is, warns, h, hf⟩ := insts_ok (o := @assemble asciiUnicode (idRt true) (Mipsasm.new.setBase 0x04000000) c!"a:\nj a")
      (f := fun is => decide (wordIndex is 0 = 0 ∧ (is[0]?).map Instruction.getBytes = some [0x08000000#32])) (by decide +kernel)
    obtain ⟨h0, h1⟩ := of_decide_eq_true hf
    exact ⟨is, warns, h, jumpAt0 (by decide) (by unfold SameName; decide) (by decide) (raw := c!"j a") (by decide +kernel) (by decide +kernel) (by decide +kernel),
      ⟨c!"a:", by decide +kernel, by decide +kernel⟩, h0, not_jumpsTo h1 (by decide)⟩
  · obtain ⟨is, warns, h, hf⟩ := insts_ok (o := @assemble asciiUnicode (idRt true) Mipsasm.new c!"li $t0, 0x12345678\na:\nj a")
      (f := fun is => decide (wordIndex is 1 = 2 ∧ (is[1]?).map Instruction.getBytes = some [0x08000001#32])) (by decide +kernel)
    obtain ⟨h0, h1⟩ := of_decide_eq_true hf
    exact ⟨is, warns, h, jumpAt0 (by decide) (by unfold SameName; decide) (by decide) (raw := c!"j a") (by decide +kernel) (by decide +kernel) (by decide +kernel),
      ⟨c!"a:", by decide +kernel, by decide +kernel⟩, h0, not_jumpsTo h1 (by decide)⟩

/-- Non-vacuity of `C07_label_partial`: a forward jump from a program at 0x80000000. -/
example : ∃ is warns, @assemble asciiUnicode (idRt true) (Mipsasm.new.setBase 0x80000000) c!"J end\nnop\nend:\nnop" = .ok is warns ∧
    Defines (lines c!"J end\nnop\nend:\nnop") 2 c!"end" ∧ JumpAt (lines c!"J end\nnop\nend:\nnop") 0 c!"j" c!"end" ∧ Single is 0 2 ∧
    wordIndex is 2 = 2 ∧ Low 0x80000004 (0x80000000#32 + BitVec.ofNat 32 (4 * 2)) ∧ HasTarget is 0 c!"j" 2 := by
  obtain ⟨is, warns, h, hf⟩ := insts_ok (o := @assemble asciiUnicode (idRt true) (Mipsasm.new.setBase 0x80000000) c!"J end\nnop\nend:\nnop")
    (f := fun is => decide ((is[0]?).map Instruction.getBytes = some [0x08000002#32] ∧ (is[1]?).map Instruction.getBytes = some [0#32] ∧ wordIndex is 2 = 2)) (by decide +kernel)
  obtain ⟨h0, h1, h2⟩ := of_decide_eq_true hf
  refine ⟨is, warns, h, ⟨c!"end:", by decide +kernel, by decide +kernel⟩, ⟨by decide, by decide, c!"J end", c!"J", by decide +kernel, by decide +kernel, ?_, by decide +kernel⟩,
    ?_, h2, by unfold Low; decide, ⟨_, rfl, h0⟩⟩
  · unfold SameName; decide
  · intro j x _ hb hx
    match j, hb with
    | 0, _ => rw [hx] at h0; simp at h0; simp [h0]
    | 1, _ => rw [hx] at h1; simp at h1; simp [h1]

/-- Non-vacuity of `C07_symbol_partial` and `C07_address`. -/
example : ∃ is warns, @assemble asciiUnicode (idRt true) (Mipsasm.new.setSymbols [(0x80001234, c!"main")]) c!"jal main\nnop\nj 0x80000010" = .ok is warns ∧
    JumpAt (lines c!"jal main\nnop\nj 0x80000010") 0 c!"jal" c!"main" ∧ JumpAt (lines c!"jal main\nnop\nj 0x80000010") 2 c!"j" c!"0x80000010" ∧
    HasTarget is 0 c!"jal" 0x48d ∧ HasTarget is 2 c!"j" 4 ∧ Low 0x80000000 0x80001234 ∧ Low 0x80000000 0x80000010 := by
  obtain ⟨is, warns, h, hf⟩ := insts_ok (o := @assemble asciiUnicode (idRt true) (Mipsasm.new.setSymbols [(0x80001234, c!"main")]) c!"jal main\nnop\nj 0x80000010")
    (f := fun is => decide ((is[0]?).map Instruction.getBytes = some [0x0c00048d#32] ∧ (is[2]?).map Instruction.getBytes = some [0x08000004#32])) (by decide +kernel)
  obtain ⟨h0, h1⟩ := of_decide_eq_true hf
  exact ⟨is, warns, h, jumpAt0 (by decide) (by unfold SameName; decide) (by decide) (raw := c!"jal main") (by decide +kernel) (by decide +kernel) (by decide +kernel),
    jumpAt0 (by decide) (by unfold SameName; decide) (by decide) (raw := c!"j 0x80000010") (by decide +kernel) (by decide +kernel) (by decide +kernel),
    ⟨_, rfl, h0⟩, ⟨_, rfl, h1⟩, by unfold Low; decide, by unfold Low; decide⟩

end Mips
