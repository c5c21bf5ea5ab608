/- C47: how an assembled instruction is displayed. -/
import Verif.Lemmas.FinalL
import Verif.Lemmas.ShowL
import Verif.Spec.Show
import Verif.Props.Dis2
import Verif.Lemmas.TextL

namespace Mips
open Isa Syntax Source Branch Listing

theorem hiddenI (o : ITypeOp) (rs rt : Register) (v : BitVec 16) : displayI o rs rt v = none ↔ o.name ∈ Show.hidden := by
  cases o <;> first
    | exact iff_of_true rfl (by decide)
    | exact iff_of_false (fun h => by cases h) (by decide)

/-- The moves to and from coprocessor 0. -/
def isCop0 (o : RTypeOp) : Bool := [RTypeOp.Cfc0, .Ctc0, .Dmfc0, .Dmtc0, .Mfc0, .Mtc0].contains o

theorem disp_cop0 {o : RTypeOp} (h : isCop0 o = true) (rs rt rd : Register) (sa w : Word) (ws : List Word) :
    displayR o rs rt rd sa (w :: ws) = match Cop0Register.nameOf rd with
    | some n => some (op11 o.name ++ dr rt ++ sep ++ n)
    | none => some (op11 c!".word" ++ c!"0x" ++ zeroPad 8 (hexLower w.toNat) ++ c!" " ++ c!"         #" ++ c!" " ++
        op11 o.name ++ dr rt ++ sep ++ c!"0x" ++ zeroPad 2 (hexLower rd.val)) := by
  cases o <;> first | (cases h; done) | rfl

theorem hiddenR0 (o : RTypeOp) (rs rt rd : Register) (sa : Word) (ws : List Word) (ho : isCmpOp o = false) (hc : isCop0 o = false) :
    (displayR o rs rt rd sa ws).isNone = decide (o.name ∈ Show.hidden) := by
  cases o <;> first
    | (cases ho; done)
    | (cases hc; done)
    | rfl

theorem hiddenR (o : RTypeOp) (rs rt rd : Register) (sa : Word) (w : Word) (ws : List Word) (ho : isCmpOp o = false) :
    displayR o rs rt rd sa (w :: ws) = none ↔ o.name ∈ Show.hidden := by
  by_cases hc : isCop0 o = true
  · refine iff_of_false (fun h => ?_) ?_
    · rw [disp_cop0 hc] at h
      split at h <;> cases h
    · cases o <;> first | (cases hc; done) | decide
  · rw [← Option.isNone_iff_eq_none, hiddenR0 _ _ _ _ _ _ ho (by simpa using hc), decide_eq_true_iff]

theorem encR_ne (o : RTypeOp) (rs rt rd sa : Word) : ∃ w ws, encR o rs rt rd sa = w :: ws := by
  cases o <;> simp only [encR] <;> first
    | exact ⟨_, _, rfl⟩
    | (split <;> exact ⟨_, _, rfl⟩)

theorem cmp_shown (f : Char) (rs rt : Register) (sa : Word) (h : sa.toNat < 16) : ∃ t, displayC f rs rt sa = some t := by
  unfold displayC
  have : sa.toNat < floatConds.length := by rw [show floatConds.length = 16 from rfl]; exact h
  rw [List.getElem?_eq_getElem this]
  exact ⟨_, rfl⟩

theorem other_not_hidden : ∀ n ∈ Show.hidden, classify n ≠ .other := by decide

theorem cmp_other {o : RTypeOp} (h : isCmpOp o = true) : (o = .Cs ∨ o = .Cd) ∧ classify o.name = .other := by
  cases o <;> first | (cases h; done) | decide

/-- **C47 (panics).** `Display` of the instruction returned for a code line panics exactly for `nop` and the mnemonics
that stand for other instructions; for all others it returns a text. -/
theorem C47_panics [Unicode] (rt : Rt) (m : Mipsasm) (text : Str) (is : List Instruction) (warns : List ParserWarning)
    (h : assemble rt m text = .ok is warns) (k : Nat) (raw : Str) (hk : (lines text)[k]? = some raw) (hc : kind raw = .code) :
    ∃ i, is[codeCount ((lines text).take k)]? = some i ∧
      (i.display = none ↔ mnemonic (body raw) ∈ Show.hidden) ∧ (i.debug = none ↔ mnemonic (body raw) ∈ Show.hidden) := by
  obtain ⟨i, h1, h2⟩ := line_final h hk hc
  refine ⟨i, h1, ?_⟩
  suffices h : i.display = none ↔ mnemonic (body raw) ∈ Show.hidden by
    refine ⟨h, ?_⟩
    unfold Instruction.debug
    rw [Option.map_eq_none_iff, h]
  cases i with
  | imm o rs rt im b =>
    obtain ⟨hn, h2⟩ := h2
    rw [← hn]
    rcases h2 with ⟨v, rfl, _⟩ | ⟨hcl, v, rfl, _⟩
    · exact hiddenI ..
    · refine iff_of_true rfl ?_
      rw [← hn] at hcl
      revert hcl; cases o <;> decide
  | jump o t b =>
    obtain ⟨hn, a, rfl, _⟩ := h2
    rw [← hn]
    cases o <;> exact iff_of_false (fun h => by cases h) (by decide)
  | reg o rs rt rd sa b =>
    obtain ⟨hb, h2⟩ := h2
    obtain ⟨w, ws, hw⟩ := encR_ne o rs.num rt.num rd.num sa
    rw [hw] at hb
    subst hb
    show displayR .. = none ↔ _
    have cmp : (o = .Cs ∨ o = .Cd) → sa.toNat < 16 → classify (mnemonic (body raw)) = .other →
        (displayR o rs rt rd sa (w :: ws) = none ↔ mnemonic (body raw) ∈ Show.hidden) := by
      intro ho hs hcl
      refine iff_of_false (fun hd => ?_) (fun hm => other_not_hidden _ hm hcl)
      rcases ho with rfl | rfl
      · obtain ⟨t, ht⟩ := cmp_shown 's' rs rt sa hs
        rw [show displayR .Cs rs rt rd sa (w :: ws) = displayC 's' rs rt sa from rfl, ht] at hd
        cases hd
      · obtain ⟨t, ht⟩ := cmp_shown 'd' rs rt sa hs
        rw [show displayR .Cd rs rt rd sa (w :: ws) = displayC 'd' rs rt sa from rfl, ht] at hd
        cases hd
    rcases h2 with ⟨hn, hsa⟩ | ⟨ho, hs, hcl⟩
    · by_cases hcm : isCmpOp o = true
      · obtain ⟨ho, hcl⟩ := cmp_other hcm
        rw [hn] at hcl
        refine cmp ho ?_ hcl
        rw [hcl] at hsa
        simp at hsa
        rw [hsa]; decide
      · rw [← hn]; exact hiddenR _ _ _ _ _ _ _ (by simpa using hcm)
    · exact cmp ho hs hcl
  | bytes w => exact h2.elim

/-! ### The displayed text and the listing -/

set_option maxHeartbeats 2000000 in
theorem encI_one {ovf : Bool} {o : ITypeOp} {rs rt i : Word} {l : BitVec 64} {b : List Word} (h : encI ovf o rs rt i l = some b)
    (hh : o.name ∉ Show.hidden) : ∃ w, b = [w] := by
  cases o <;> first
    | exact absurd (by decide) hh
    | (simp only [encI, Option.some.injEq] at h; exact ⟨_, h.symm⟩)

set_option maxHeartbeats 2000000 in
theorem encR_one (o : RTypeOp) (rs rt rd sa : Word) (hh : o.name ∉ Show.hidden) (hd : isDivOp o = false) :
    ∃ w, encR o rs rt rd sa = [w] := by
  cases o <;> first
    | exact absurd (by decide) hh
    | (cases hd; done)
    | exact ⟨_, rfl⟩

theorem matchSym_nil (i : Instruction) : matchSym [] i = i := by
  unfold matchSym
  split
  · rfl
  · rfl

theorem text_of_decode {base w : Word} {i : Instruction} (h : i.display = (decode base w).display) :
    i.debug = textOf ⟨base, [], true⟩ w := by
  rw [textOf_eq, matchSym_nil]
  unfold Instruction.debug
  rw [h]

theorem asBits (r : Register) : ∃ b : BitVec 5, b.toFin = r := ⟨BitVec.ofFin r, rfl⟩

theorem shift_name {o : RTypeOp} (h : classify o.name = .shift) : isShift o = true ∧ o.name ∈ Show.shift := by
  revert h; cases o <;> decide

theorem code_name {o : RTypeOp} (h : classify o.name = .code) : isCodeOp o = true := by
  revert h; cases o <;> decide

theorem div_name {o : RTypeOp} (h : isDivOp o = true) : o.name ∈ Show.division := by
  revert h; cases o <;> decide

theorem shift_cmp {o : RTypeOp} (h : isShift o = true) : isDivOp o = false ∧ isCmpOp o = false ∧ isCodeOp o = false := by
  revert h; cases o <;> decide

/-- **C47 (listing).** An instruction returned for a code line whose mnemonic is neither one that stands for others,
nor `beqz`/`bnez`, a division or `j`/`jal`, has exactly one word, and its `Debug` text is the text the debug-mode
disassembler gives for that word (whatever its base address) — unless it is a shift whose amount is displayed as
32 or more. -/
theorem C47_same [Unicode] (rt : Rt) (m : Mipsasm) (text : Str) (is : List Instruction) (warns : List ParserWarning)
    (h : assemble rt m text = .ok is warns) (k : Nat) (raw : Str) (hk : (lines text)[k]? = some raw) (hc : kind raw = .code)
    (h1 : mnemonic (body raw) ∉ Show.hidden) (h2 : mnemonic (body raw) ∉ Show.zero) (h3 : mnemonic (body raw) ∉ Show.division)
    (h4 : mnemonic (body raw) ∉ Show.jump) :
    ∃ i w, is[codeCount ((lines text).take k)]? = some i ∧ i.getBytes = [w] ∧
      ((∀ base : BitVec 32, i.debug = textOf ⟨base, [], true⟩ w) ∨
       (mnemonic (body raw) ∈ Show.shift ∧ ∃ t n, 32 ≤ n ∧ i.display = some (t ++ hexText n))) := by
  obtain ⟨i, hi, hf⟩ := line_final h hk hc
  have hp := C47_panics rt m text is warns h k raw hk hc
  obtain ⟨i', hi', hd, _⟩ := hp
  rw [hi] at hi'
  cases hi'
  obtain ⟨t, ht⟩ := Option.ne_none_iff_exists'.1 (fun e => h1 (hd.1 e))
  clear hd
  cases i with
  | bytes w => exact hf.elim
  | jump o t b =>
    obtain ⟨hn, _⟩ := hf
    exfalso; rw [← hn] at h4; revert h4; cases o <;> decide
  | imm o rs rt im b =>
    obtain ⟨hn, hf⟩ := hf
    rcases hf with ⟨v, rfl, he⟩ | ⟨_, v, rfl, _⟩
    · obtain ⟨w, rfl⟩ := encI_one he (by rw [hn]; exact h1)
      refine ⟨_, w, hi, rfl, .inl fun base => text_of_decode ?_⟩
      rw [ht]
      obtain ⟨rs, rfl⟩ := asBits rs
      obtain ⟨rt, rfl⟩ := asBits rt
      rw [num_toFin, num_toFin] at he
      refine (shownI ht ?_ ?_ he).symm
      · rintro rfl; rw [← hn] at h2; exact h2 (by decide)
      · rintro rfl; rw [← hn] at h2; exact h2 (by decide)
    · cases ht
  | reg o rs rt rd sa b =>
    obtain ⟨rfl, hf⟩ := hf
    have ht : displayR o rs rt rd sa (encR o rs.num rt.num rd.num sa) = some t := ht
    obtain ⟨rs, rfl⟩ := asBits rs
    obtain ⟨rt, rfl⟩ := asBits rt
    obtain ⟨rd, rfl⟩ := asBits rd
    rw [num_toFin, num_toFin, num_toFin] at ht hi
    have done : ∀ w, encR o (rs.setWidth 32) (rt.setWidth 32) (rd.setWidth 32) sa = [w] →
        (∀ base, (decode base w).display = some t) →
        ∃ i w, is[codeCount ((lines text).take k)]? = some i ∧ i.getBytes = [w] ∧
          ((∀ base : BitVec 32, i.debug = textOf ⟨base, [], true⟩ w) ∨
           (mnemonic (body raw) ∈ Show.shift ∧ ∃ t n, 32 ≤ n ∧ i.display = some (t ++ hexText n))) := by
      intro w hw hd
      rw [hw] at hi ht
      refine ⟨_, w, hi, rfl, .inl fun base => text_of_decode ?_⟩
      rw [hd]
      exact ht
    have shift : ∀ w, encR o (rs.setWidth 32) (rt.setWidth 32) (rd.setWidth 32) sa = [w] → isShift o = true → sa.toNat < 32 →
        ∀ base, (decode base w).display = some t := by
      intro w hw hs hlt base
      rw [hw] at ht
      have e : sa = (BitVec.ofNat 5 sa.toNat).setWidth 32 := by
        apply BitVec.eq_of_toNat_eq
        rw [BitVec.toNat_setWidth, BitVec.toNat_ofNat]; omega
      rw [e] at ht hw
      exact shownShift ht hs hw
    have code : ∀ w, encR o (rs.setWidth 32) (rt.setWidth 32) (rd.setWidth 32) sa = [w] → isCodeOp o = true → sa.toNat < 2 ^ 16 →
        ∀ base, (decode base w).display = some t := by
      intro w hw hs hlt base
      rw [hw] at ht
      have e : sa = (BitVec.ofNat 20 sa.toNat).setWidth 32 := by
        apply BitVec.eq_of_toNat_eq
        rw [BitVec.toNat_setWidth, BitVec.toNat_ofNat]; omega
      rw [e] at ht hw
      exact shownCode ht hs hw
    have cmp : ∀ w, encR o (rs.setWidth 32) (rt.setWidth 32) (rd.setWidth 32) sa = [w] → isCmpOp o = true → sa.toNat < 16 →
        ∀ base, (decode base w).display = some t := by
      intro w hw hs hlt base
      rw [hw] at ht
      have e : sa = (BitVec.ofNat 4 sa.toNat).setWidth 32 := by
        apply BitVec.eq_of_toNat_eq
        rw [BitVec.toNat_setWidth, BitVec.toNat_ofNat]; omega
      rw [e] at ht hw
      exact shownCmp ht hs hw
    rcases hf with ⟨hn, hf⟩ | ⟨ho, hs, hcl⟩
    · have hdv : isDivOp o = false := by
        rw [← Bool.not_eq_true]; intro hd; exact h3 (hn ▸ div_name hd)
      obtain ⟨w, hw⟩ := encR_one o (rs.setWidth 32) (rt.setWidth 32) (rd.setWidth 32) sa (by rw [hn]; exact h1) hdv
      rcases hf with rfl | hcl | ⟨hcl, hlt⟩
      · by_cases c1 : isShift o = true
        · exact done w hw (shift w hw c1 (by decide))
        by_cases c2 : isCodeOp o = true
        · exact done w hw (code w hw c2 (by decide))
        by_cases c3 : isCmpOp o = true
        · exact done w hw (cmp w hw c3 (by decide))
        refine done w hw fun base => ?_
        rw [hw] at ht
        exact shownR (sa := 0) ht hdv (by simpa using c2) (by simpa using c3) (by simpa using c1) hw
      · rw [← hn] at hcl
        obtain ⟨hs, hsn⟩ := shift_name hcl
        by_cases hlt : sa.toNat < 32
        · exact done w hw (shift w hw hs hlt)
        · refine ⟨_, w, hi, hw, .inr ⟨hn ▸ hsn, ?_⟩⟩
          refine ⟨op11 o.name ++ dr rd.toFin ++ sep ++ dr rt.toFin ++ sep, sa.toNat, by omega, ?_⟩
          show displayR .. = _
          rw [disp_shift hs, uhex_eq]
      · rw [← hn] at hcl
        exact done w hw (code w hw (code_name hcl) hlt)
    · have hcm : isCmpOp o = true := by rcases ho with rfl | rfl <;> rfl
      obtain ⟨w, hw⟩ : ∃ w, encR o (rs.setWidth 32) (rt.setWidth 32) (rd.setWidth 32) sa = [w] := by
        rcases ho with rfl | rfl <;> exact ⟨_, rfl⟩
      exact done w hw (cmp w hw hcm hs)

theorem beqz_words {ovf : Bool} {o : ITypeOp} {rs rt : BitVec 5} {v : BitVec 16} {l : BitVec 64} {b : List Word}
    (hz : o = .Beqz ∨ o = .Bnez) (he : encI ovf o (rs.setWidth 32) (rt.setWidth 32) (v.setWidth 32) l = some b) (base : Word) :
    ∃ w, b = [w] ∧ (decode base w).display =
      some (op11 (if o = .Beqz then c!"beq" else c!"bne") ++ dr rs.toFin ++ sep ++ dr (0#5).toFin ++ sep ++ signedHex v) := by
  rcases hz with rfl | rfl <;>
  · simp only [encI, Option.some.injEq] at he
    refine ⟨_, he.symm, ?_⟩
    simp [-List.append_assoc, decode, fields_op, fields_rs, fields_rt, fields_imm, fOp, fRs, fRt, fImm, BitVec.extractLsb'_or, ext_hi, ext_lo, ext_eq, ext_lo0, ext_eq0]
    rfl

theorem sq_ops (mn : Str) (ops : List Str) (hm : mn.length < 11) (hw : NoWs mn) (ho : ∀ a ∈ ops, NoWs a) :
    squeeze (op11 mn ++ c!", ".intercalate ops) = Show.inst mn ops := by
  rw [squeeze_eq]
  obtain ⟨p, h1, h2, h3⟩ := op11_pad mn hm
  rw [h1, squash_pad mn p _ hw h2 h3]
  obtain ⟨h4, h5⟩ := inter_neat ops ho
  rw [List.append_assoc]
  have := neat_app hw (neat_sp h5 h4)
  unfold Neat at this
  rw [show [' '] ++ c!", ".intercalate ops = ' ' :: c!", ".intercalate ops from rfl, this]
  unfold Show.inst
  simp

theorem ops2 (a b : Str) : a ++ sep ++ b = c!", ".intercalate [a, b] := by
  simp [List.intercalate, List.intersperse, sep]
theorem ops3 (a b c : Str) : a ++ sep ++ b ++ sep ++ c = c!", ".intercalate [a, b, c] := by
  simp [List.intercalate, List.intersperse, sep]

theorem signedHex_noWs (v : BitVec 16) : NoWs (signedHex v) := by
  by_cases h : v = 0x7FFF#16
  · subst h; unfold NoWs; decide
  · rw [signedHex_eq v h]; exact intText_noWs _

/-- **C47 (compare with zero).** The instruction returned for `beqz r, …`/`bnez r, …` is displayed as `beqz $r, off`,
but the listing of its word says `beq $r, $zero, off`. -/
theorem C47_zero [Unicode] (rt : Rt) (m : Mipsasm) (text : Str) (is : List Instruction) (warns : List ParserWarning)
    (h : assemble rt m text = .ok is warns) (k : Nat) (raw : Str) (hk : (lines text)[k]? = some raw) (hc : kind raw = .code)
    (hm : mnemonic (body raw) ∈ Show.zero) :
    ∃ i w r off, is[codeCount ((lines text).take k)]? = some i ∧ i.getBytes = [w] ∧
      i.debug = some (Show.inst (mnemonic (body raw)) [gprText r, off]) ∧
      ∀ base : BitVec 32, textOf ⟨base, [], true⟩ w =
        some (Show.inst (if mnemonic (body raw) = c!"beqz" then c!"beq" else c!"bne") [gprText r, c!"$zero", off]) := by
  obtain ⟨i, hi, hf⟩ := line_final h hk hc
  cases i with
  | bytes w => exact hf.elim
  | jump o t b =>
    obtain ⟨hn, _⟩ := hf
    exfalso; rw [← hn] at hm; revert hm; cases o <;> decide
  | reg o rs rt rd sa b =>
    exfalso
    obtain ⟨_, ⟨hn, _⟩ | ⟨_, _, hcl⟩⟩ := hf
    · rw [← hn] at hm; revert hm; cases o <;> decide
    · revert hcl hm; generalize mnemonic (body raw) = s; revert s; simp [Show.zero]; decide
  | imm o rs rt im b =>
    obtain ⟨hn, hf⟩ := hf
    have ho : o = .Beqz ∨ o = .Bnez := by rw [← hn] at hm; revert hm; cases o <;> decide
    rcases hf with ⟨v, rfl, he⟩ | ⟨hcl, v, rfl, _⟩
    · obtain ⟨rs, rfl⟩ := asBits rs
      obtain ⟨rt, rfl⟩ := asBits rt
      rw [num_toFin, num_toFin] at he
      obtain ⟨w, rfl, _⟩ := beqz_words ho he 0
      refine ⟨_, w, rs, signedHex v, hi, rfl, ?_, ?_⟩
      · have hd : (Instruction.imm o rs.toFin rt.toFin (.short v) [w]).display =
            some (op11 o.name ++ c!", ".intercalate [gprText rs, signedHex v]) := by
          rcases ho with rfl | rfl <;>
          · rw [← ops2, ← dr_eq]
            show some _ = some _
            simp only [List.append_assoc]
        unfold Instruction.debug
        rw [hd, Option.map_some, sq_ops, hn]
        · rcases ho with rfl | rfl <;> decide
        · unfold NoWs; rcases ho with rfl | rfl <;> decide
        · intro a ha
          simp at ha
          rcases ha with rfl | rfl
          · exact gprText_noWs _
          · exact signedHex_noWs _
      · intro base
        obtain ⟨w', hw', hd⟩ := beqz_words ho he base
        cases hw'
        rw [textOf_eq, matchSym_nil]
        unfold Instruction.debug
        rw [show (decode base w).display = some (op11 (if mnemonic (body raw) = c!"beqz" then c!"beq" else c!"bne") ++
          c!", ".intercalate [gprText rs, c!"$zero", signedHex v]) from ?_, Option.map_some, sq_ops]
        · split <;> decide
        · unfold NoWs; split <;> decide
        · intro a ha
          simp at ha
          rcases ha with rfl | rfl | rfl
          · exact gprText_noWs _
          · unfold NoWs; decide
          · exact signedHex_noWs _
        · rw [hd, ← hn, ← ops3, ← dr_eq]
          rcases ho with rfl | rfl
          · show some _ = some _
            simp only [List.append_assoc]
            rfl
          · show some _ = some _
            simp only [List.append_assoc]
            rfl
    · exfalso; rw [← hn] at hcl; revert hcl; rcases ho with rfl | rfl <;> decide

theorem enc_jump (o : JTypeOp) (a : Word) : ∃ w, encJ o a = [w] ∧ fOp w = (if o = .J then 2#6 else 3#6) ∧
    fTarget w = 0#2 ++ a.extractLsb' 2 24 := by
  have e : (a &&& 0x3FFFFFF#32) >>> 2 = (a.extractLsb' 2 24).setWidth 32 := by
    have h1 : ∀ j : Fin 32, (0x3FFFFFF#32).getLsbD j.val = decide (j.val < 26) := by decide
    ext i hi
    simp
    by_cases h : i + 2 < 32
    · have := h1 ⟨2 + i, by omega⟩
      simp only [] at this
      rw [this]
      by_cases h3 : i < 24
      · simp [h3]; omega
      · simp [h3]; intro _; omega
    · have : ¬ i < 24 := by omega
      simp [this, BitVec.getLsbD_of_ge _ _ (show 32 ≤ 2 + i by omega)]
  have g : ∀ x : BitVec 24, BitVec.extractLsb' 0 26 (x.setWidth 32) = 0#2 ++ x := by
    intro x
    apply BitVec.eq_of_getLsbD_eq
    intro i hi
    rw [BitVec.getLsbD_append]
    simp [hi]
    by_cases h : i < 24
    · simp [h]; omega
    · simp [h]; exact fun _ => BitVec.getLsbD_of_ge _ _ (by omega)
  cases o
  · refine ⟨_, rfl, ?_, ?_⟩
    · rw [e]; simp [fOp, BitVec.extractLsb'_or, ext_lo0]
    · rw [e]; simp [fTarget, BitVec.extractLsb'_or, g]
  · refine ⟨_, rfl, ?_, ?_⟩
    · rw [e]; simp [fOp, BitVec.extractLsb'_or, ext_lo0]
    · rw [e]; simp [fTarget, BitVec.extractLsb'_or, g]

theorem hexTextU_inj {a b : Nat} (h : hexTextU a = hexTextU b) : a = b := by
  unfold hexTextU at h
  have h := List.append_cancel_left h
  have h1 := parseDigits_hex (digits_hex Char.toUpper (fun k => (hexDigits_char k).2) a)
  have h2 := parseDigits_hex (digits_hex Char.toUpper (fun k => (hexDigits_char k).2) b)
  rw [h, h2] at h1
  exact (Option.some.inj h1).symm

theorem inst_inj1 {mn a b : Str} (h : Show.inst mn [a] = Show.inst mn [b]) : a = b := by
  unfold Show.inst at h
  simpa [List.intercalate, List.intersperse] using h

theorem hexTextU_noWs (n : Nat) : NoWs (hexTextU n) := NoWs.append (by unfold NoWs; decide) (toDigitsU_noWs n)

/-- **C47 (jumps).** The instruction returned for a `j`/`jal` line has a target address `T`; it is displayed as `mn 0xT`.
The listing shows the address that the word denotes, `jumpAddr base index`, with the index made of bits 2 to 25 of `T`; so the
two agree exactly if `T` is word-aligned, bits 26 and 27 of `T` are zero and `base` is in the region of `T`. -/
theorem C47_jump [Unicode] (rt : Rt) (m : Mipsasm) (text : Str) (is : List Instruction) (warns : List ParserWarning)
    (h : assemble rt m text = .ok is warns) (k : Nat) (raw : Str) (hk : (lines text)[k]? = some raw) (hc : kind raw = .code)
    (hm : mnemonic (body raw) ∈ Show.jump) :
    ∃ i w T, is[codeCount ((lines text).take k)]? = some i ∧ i.getBytes = [w] ∧ i.getJumpTarget = some (some T) ∧
      fTarget w = 0#2 ++ T.extractLsb' 2 24 ∧
      i.debug = some (Show.inst (mnemonic (body raw)) [hexTextU T.toNat]) ∧
      ∀ base : BitVec 32,
        textOf ⟨base, [], true⟩ w = some (Show.inst (mnemonic (body raw)) [hexTextU (jumpAddr base (fTarget w)).toNat]) ∧
        (i.debug = textOf ⟨base, [], true⟩ w ↔ T = jumpAddr base (fTarget w)) := by
  obtain ⟨i, hi, hf⟩ := line_final h hk hc
  cases i with
  | bytes w => exact hf.elim
  | imm o rs rt im b =>
    obtain ⟨hn, _⟩ := hf
    exfalso; rw [← hn] at hm; revert hm; cases o <;> decide
  | reg o rs rt rd sa b =>
    exfalso
    obtain ⟨_, ⟨hn, _⟩ | ⟨_, _, hcl⟩⟩ := hf
    · rw [← hn] at hm; revert hm; cases o <;> decide
    · revert hcl hm; generalize mnemonic (body raw) = s; revert s; simp [Show.jump]; decide
  | jump o t b =>
    obtain ⟨hn, T, rfl, rfl⟩ := hf
    obtain ⟨w, hw, ho, ht⟩ := enc_jump o T
    rw [hw] at hi
    have hj : ∀ a : Word, ∀ b, (Instruction.jump o (.address a) b).debug = some (Show.inst (mnemonic (body raw)) [hexTextU a.toNat]) := by
      intro a b
      unfold Instruction.debug
      rw [← hn]
      have : (Instruction.jump o (.address a) b).display = some (op11 o.name ++ c!", ".intercalate [hexTextU a.toNat]) := by
        show some _ = some _
        rw [hexUpper_eq]
        simp [List.intercalate, hexTextU]
      rw [this, Option.map_some, sq_ops]
      · cases o <;> decide
      · unfold NoWs; cases o <;> decide
      · intro x hx; simp at hx; subst hx; exact hexTextU_noWs _
    have hd : ∀ base, decode base w = .jump o (.address (jumpAddr base (fTarget w))) [w] := by
      intro base
      rw [← jumpTarget_eq]
      unfold decode
      simp only [fields_op, ho]
      cases o <;> rfl
    refine ⟨_, w, T, hi, rfl, rfl, ht, hj _ _, fun base => ?_⟩
    have e := textOf_eq ⟨base, [], true⟩ w
    rw [matchSym_nil, hd, hj] at e
    refine ⟨e, ?_⟩
    rw [e, hj]
    constructor
    · intro h
      have := inst_inj1 (Option.some.inj h)
      exact BitVec.eq_of_toNat_eq (hexTextU_inj this)
    · intro h; rw [← h]

set_option maxHeartbeats 2000000 in
theorem div_word {o : RTypeOp} (ho : isDivOp o = true) {rs rt rd : BitVec 5} {sa w : Word}
    (he : encR o (rs.setWidth 32) (rt.setWidth 32) (rd.setWidth 32) sa = [w]) (base : Word) :
    rt = 0#5 ∧ fRs w = rd ∧ fRt w = rs ∧ (decode base w).display = some (op11 o.name ++ c!", ".intercalate [gprText rd, gprText rs]) := by
  have z : (rt.setWidth 32 : Word) = 0#32 → rt = 0#5 := by
    intro h; apply BitVec.eq_of_toNat_eq
    have := congrArg BitVec.toNat h
    rw [BitVec.toNat_setWidth] at this
    have := rt.isLt
    simp at *; omega
  cases o <;> first
    | (cases ho; done)
    | (simp only [encR] at he
       split at he
       · next h0 =>
         simp only [List.cons.injEq, and_true] at he
         have h1 : fRs w = rd := by subst he; simp [fRs, BitVec.extractLsb'_or, ext_hi, ext_lo, ext_eq, ext_lo0]
         have h2 : fRt w = rs := by subst he; simp [fRt, BitVec.extractLsb'_or, ext_hi, ext_lo, ext_eq, ext_lo0]
         have h3 : fOp w = 0#6 := by subst he; simp [fOp, BitVec.extractLsb'_or, ext_hi, ext_lo, ext_eq, ext_lo0]
         refine ⟨z h0, h1, h2, ?_⟩
         rw [special_of h3]
         unfold decodeSpecial
         simp only [fields_funct]
         rw [show fFn w = _ from by subst he; simp [fFn, BitVec.extractLsb'_or, ext_hi, ext_lo, ext_eq, ext_lo0]; rfl]
         simp only [fields_rs, fields_rt, h1, h2, ← ops2, ← dr_eq, ← List.append_assoc]
         rfl
       · simp at he)

/-- **C47 (divisions).** If the instruction returned for a division line is one word, it is displayed as `div $q, $zero` where
the word is `div $p, $q`. -/
theorem C47_div [Unicode] (rt : Rt) (m : Mipsasm) (text : Str) (is : List Instruction) (warns : List ParserWarning)
    (h : assemble rt m text = .ok is warns) (k : Nat) (raw : Str) (hk : (lines text)[k]? = some raw) (hc : kind raw = .code)
    (hm : mnemonic (body raw) ∈ Show.division) (i : Instruction) (hi : is[codeCount ((lines text).take k)]? = some i)
    (w : BitVec 32) (hw : i.getBytes = [w]) :
    i.debug = some (Show.inst (mnemonic (body raw)) [gprText (fRt w), c!"$zero"]) ∧
    ∀ base : BitVec 32, textOf ⟨base, [], true⟩ w = some (Show.inst (mnemonic (body raw)) [gprText (fRs w), gprText (fRt w)]) := by
  obtain ⟨i', hi', hf⟩ := line_final h hk hc
  rw [hi] at hi'
  cases hi'
  cases i with
  | bytes w => exact hf.elim
  | imm o rs rt im b =>
    obtain ⟨hn, _⟩ := hf
    exfalso; rw [← hn] at hm; revert hm; cases o <;> decide
  | jump o t b =>
    obtain ⟨hn, _⟩ := hf
    exfalso; rw [← hn] at hm; revert hm; cases o <;> decide
  | reg o rs rt rd sa b =>
    obtain ⟨rfl, ⟨hn, _⟩ | ⟨_, _, hcl⟩⟩ := hf
    · rw [← hn] at hm ⊢
      have ho : isDivOp o = true := by revert hm; cases o <;> decide
      obtain ⟨rs, rfl⟩ := asBits rs
      obtain ⟨rt, rfl⟩ := asBits rt
      obtain ⟨rd, rfl⟩ := asBits rd
      have hw : encR o (Register.num rs.toFin) (Register.num rt.toFin) (Register.num rd.toFin) sa = [w] := hw
      rw [num_toFin, num_toFin, num_toFin] at hw
      obtain ⟨rfl, h1, h2, _⟩ := div_word ho hw 0
      have hl : o.name.length < 11 := by revert ho; cases o <;> decide
      have hs : NoWs o.name := by unfold NoWs; revert ho; cases o <;> decide
      constructor
      · have hd : ∀ b, (Instruction.reg o rs.toFin (0#5).toFin rd.toFin sa b).display =
            some (op11 o.name ++ c!", ".intercalate [gprText rs, c!"$zero"]) := by
          intro b
          rw [← ops2, ← dr_eq]
          clear hi
          cases o <;> first
            | (cases ho; done)
            | (show some _ = some _; simp only [List.append_assoc]; rfl)
        unfold Instruction.debug
        rw [hd, Option.map_some, sq_ops _ _ hl hs, h2]
        intro a ha
        simp at ha
        rcases ha with rfl | rfl
        · exact gprText_noWs _
        · unfold NoWs; decide
      · intro base
        obtain ⟨_, _, _, hd⟩ := div_word ho hw base
        rw [textOf_eq, matchSym_nil]
        unfold Instruction.debug
        rw [hd, Option.map_some, sq_ops _ _ hl hs, h1, h2]
        intro a ha
        simp at ha
        rcases ha with rfl | rfl <;> exact gprText_noWs _
    · exfalso; revert hcl hm; generalize mnemonic (body raw) = s; revert s; simp [Show.division]; decide

/-- The `Debug` texts of the instructions of a program. -/
def Show.texts : AsmOut → Option (List (Option Str))
  | .ok is _ => some (is.map Instruction.debug)
  | _ => none

/-- **C47 does not hold in general**: a division is displayed with the wrong registers (`div $v0, $a0` as `div $a0, $zero`),
and `nop`, `li` and `move` panic. -/
theorem C47_wrong : letI := asciiUnicode
    Show.texts (assemble (idRt true) Mipsasm.new c!"div $v0, $a0\nnop\nli $v0, 5\nmove $a0, $a1") =
      some [some c!"div $a0, $zero", none, none, none] := by decide +kernel

/-- Non-vacuity: lines that meet the hypotheses of the theorems above. -/
example : letI := asciiUnicode
    let text := c!"addiu $sp, $sp, -0x20\nsll $v0, $a0, 4\nc.eq.s $f0, $f2\nbeqz $a0, 0\nnop\nj 0x40\nnop\ndiv $a0, $a1\nadd.s $f0, $f2, $f4"
    Show.texts (assemble (idRt true) Mipsasm.new text) = some
      [some c!"addiu $sp, $sp, -0x20", some c!"sll $v0, $a0, 0x4", some c!"c.eq.s $fv0, $fv1", some c!"beqz $a0, -0x1", none,
        some c!"j 0x40", none, some c!"div $a1, $zero", some c!"add.s $fv0, $fv1, $ft0"] ∧
    (lines text).map (fun raw => decide (kind raw = .code)) = List.replicate 9 true ∧
    (lines text).map (fun raw => decide (mnemonic (body raw) ∈ Show.hidden)) = [false, false, false, false, true, false, true, false, false] ∧
    (lines text).map (fun raw => decide (mnemonic (body raw) ∈ Show.zero)) = [false, false, false, true, false, false, false, false, false] ∧
    (lines text).map (fun raw => decide (mnemonic (body raw) ∈ Show.jump)) = [false, false, false, false, false, true, false, false, false] ∧
    (lines text).map (fun raw => decide (mnemonic (body raw) ∈ Show.division)) = [false, false, false, false, false, false, false, true, false] := by
  decide +kernel

end Mips
