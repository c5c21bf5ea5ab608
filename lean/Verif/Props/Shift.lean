/- C25: shift amounts. -/
import Verif.Spec.Shift
import Verif.Props.Range

namespace Mips
open Source Branch Syntax Shift Isa

/-- a shift amount that is a numeral -/
theorem parseShift_int {s : Str} {v : Int} (h : PNum s v) :
    parseShift s = if -2147483648 ≤ v ∧ v ≤ 2147483647 then some (BitVec.ofInt 32 v) else none := by
  cases h with
  | mk p s q v hp hq h =>
    have ht := trim_blank_tight p s q (blank_ws hp) (blank_ws hq) (num_tight h)
    unfold parseShift
    simp only [ht]
    have hb : ∀ c ∈ s, c ≠ '`' := by
      rintro c hc rfl
      have h2 := (num_chars h).2 _ hc
      unfold numChar at h2
      revert h2; decide
    have he : endsWith '`' s = false := by
      unfold endsWith
      rw [beq_eq_false_iff_ne]
      intro hh
      exact hb _ (List.mem_of_getLast? hh) rfl
    have hr := readNum_num .i32 h
    unfold readNum at hr
    have hte : trimEndMatches '`' s = s := by
      have : ∀ t : Str, (∀ c ∈ t, c ≠ '`') → trimEndMatches '`' t = t := by
        intro t
        induction t with
        | nil => intro _; rfl
        | cons c t ih =>
          intro hc
          have hi := ih (fun d hd => hc d (by simp [hd]))
          rw [trimEndMatches, hi]
          cases t with
          | nil => simp [hc c (by simp)]
          | cons d t => rfl
      exact this s hb
    rw [he, hte]
    simp only [Bool.false_or]
    have fin : (IntTy.check .i32 v).map (BitVec.ofInt 32) = if -2147483648 ≤ v ∧ v ≤ 2147483647 then some (BitVec.ofInt 32 v) else none := by
      unfold IntTy.check
      by_cases hv : -2147483648 ≤ v ∧ v ≤ 2147483647
      · rw [if_pos (show IntTy.i32.min ≤ v ∧ v ≤ IntTy.i32.max from hv), if_pos hv]; rfl
      · rw [if_neg (show ¬ (IntTy.i32.min ≤ v ∧ v ≤ IntTy.i32.max) from hv), if_neg hv]; rfl
    split at hr
    · rename_i hx; simp only [hx]; rw [if_neg (by simp), hr]; exact fin
    · rename_i hx; simp only [hx]; rw [if_pos (by simp), hr]; exact fin

theorem shift_ops : ∀ mn ∈ shiftNames, mnOk mn = true ∧ classify mn = .shift ∧ ∃ o f, (mn, o, f) ∈ L_rdRtSa_shift_special ∧ RTypeOp.fromStr mn = some o ∧
    (table.find? fun r => r.mn == mn) = some ⟨mn, .rdRtSa, .special f⟩ := by
  intro mn h
  simp only [shiftNames, List.mem_cons, List.not_mem_nil, or_false] at h
  rcases h with rfl | rfl | rfl | rfl | rfl | rfl | rfl | rfl | rfl
  · exact ⟨by decide +kernel, by decide +kernel, .Sll, 0, by decide +kernel, by decide +kernel, by decide +kernel⟩
  · exact ⟨by decide +kernel, by decide +kernel, .Srl, 2, by decide +kernel, by decide +kernel, by decide +kernel⟩
  · exact ⟨by decide +kernel, by decide +kernel, .Sra, 3, by decide +kernel, by decide +kernel, by decide +kernel⟩
  · exact ⟨by decide +kernel, by decide +kernel, .Dsll, 0x38, by decide +kernel, by decide +kernel, by decide +kernel⟩
  · exact ⟨by decide +kernel, by decide +kernel, .Dsrl, 0x3a, by decide +kernel, by decide +kernel, by decide +kernel⟩
  · exact ⟨by decide +kernel, by decide +kernel, .Dsra, 0x3b, by decide +kernel, by decide +kernel, by decide +kernel⟩
  · exact ⟨by decide +kernel, by decide +kernel, .Dsll32, 0x3c, by decide +kernel, by decide +kernel, by decide +kernel⟩
  · exact ⟨by decide +kernel, by decide +kernel, .Dsrl32, 0x3e, by decide +kernel, by decide +kernel, by decide +kernel⟩
  · exact ⟨by decide +kernel, by decide +kernel, .Dsra32, 0x3f, by decide +kernel, by decide +kernel, by decide +kernel⟩

theorem shift_or (rt rd : BitVec 5) (f : BitVec 6) (u : Word) :
    rWord 0 0 rt rd 0 f ||| u = rt.setWidth 32 <<< 16 ||| rd.setWidth 32 <<< 11 ||| u ||| f.setWidth 32 := by
  rw [rWord_or]
  have e : ∀ n : Nat, (0 : BitVec 5).setWidth 32 <<< n = 0#32 := by intro n; simp
  have e' : ∀ n : Nat, (0 : BitVec 6).setWidth 32 <<< n = 0#32 := by intro n; simp
  rw [e, e, e', BitVec.zero_or, BitVec.zero_or, BitVec.or_zero]
  rw [BitVec.or_assoc, BitVec.or_comm (f.setWidth 32), ← BitVec.or_assoc]

theorem enc_shift {mn : Str} {o : RTypeOp} {f : BitVec 6} (h : (mn, o, f) ∈ L_rdRtSa_shift_special) (rt rd : BitVec 5) (v : Word) :
    encR o 0#32 (rt.setWidth 32) (rd.setWidth 32) v = [rWord 0 0 rt rd 0 f ||| v <<< 6] := by
  rw [shift_or]
  generalize rt.setWidth 32 = rt
  generalize rd.setWidth 32 = rd
  simp only [L_rdRtSa_shift_special, List.mem_cons, List.not_mem_nil, or_false, Prod.mk.injEq] at h
  rcases h with ⟨_, rfl, rfl⟩ | ⟨_, rfl, rfl⟩ | ⟨_, rfl, rfl⟩ | ⟨_, rfl, rfl⟩ | ⟨_, rfl, rfl⟩ | ⟨_, rfl, rfl⟩ | ⟨_, rfl, rfl⟩ | ⟨_, rfl, rfl⟩ | ⟨_, rfl, rfl⟩
  · simp only [encR]; rw [show BitVec.setWidth 32 0#6 = 0#32 from rfl, BitVec.or_zero]
  all_goals rfl

theorem shift_parse [Unicode] (x : Ctx) {s mn c : Str} {rd rt : BitVec 5} (hm : mn ∈ shiftNames) (h : ShiftText s mn rd rt c) :
    ∃ o f, (mn, o, f) ∈ L_rdRtSa_shift_special ∧ encoding mn [.gpr rd, .gpr rt, .sa 0] = some (rWord 0 0 rt rd 0 f) ∧
      parseInst x s = (match parseShift c with
        | none => ⟨[], .panic⟩
        | some sa => ⟨[], .ok (.reg o Register.null rt.toFin rd.toFin sa [])⟩) := by
  obtain ⟨h1, h2, o, f, h3, h4, h5⟩ := shift_ops mn hm
  obtain ⟨mn', a, b, rfl, hs, ha, hb, hc⟩ := h
  refine ⟨o, f, h3, ?_, ?_⟩
  · unfold encoding; rw [h5]; rfl
  · have hM : Mn mn' mn := ⟨hs, h1⟩
    have na : ',' ∉ a := fun e => (reg_chars gprCore_alnum ha _ e).2.2.1 rfl
    have nb : ',' ∉ b := fun e => (reg_chars gprCore_alnum hb _ e).2.2.1 rfl
    have hsp : split ',' (a ++ ',' :: (b ++ ',' :: c)) = [a, b, c] := by
      rw [split_cons _ _ _ na, split_cons _ _ _ nb, split_noComma _ _ hc]
    rw [parseInst_args x hM, h2]
    simp only [parseArm, hsp, parseReg_ok x ha, parseReg_ok x hb, hM.opR h4, W.bind_nil_ok]
    cases parseShift c <;> rfl

/-- **C25**, what happens.  In a program that assembles, a shift amount that is a number is a signed 32-bit number `v`, not
necessarily one from 0 to 31, and the instruction word is that of the shift by 0 with all the bits of `v`, moved up by 6 places,
or-ed into it: the bits from 5 up go to the other fields. -/
theorem C25_exact [Unicode] (rt : Rt) (m : Mipsasm) (text : Str) (is : List Instruction) (warns : List ParserWarning)
    (h : assemble rt m text = .ok is warns) (k : Nat) (raw mn c : Str) (rd rt' : BitVec 5) (v : Int)
    (hk : (lines text)[k]? = some raw) (hc : kind raw = .code) (hm : mn ∈ shiftNames) (hi : ShiftText (body raw) mn rd rt' c)
    (hv : PNum c v) :
    (-2147483648 ≤ v ∧ v ≤ 2147483647) ∧ ∃ w, encoding mn [.gpr rd, .gpr rt', .sa 0] = some w ∧
      (is[codeCount ((lines text).take k)]?).map Instruction.getBytes = some [w ||| BitVec.ofInt 32 v <<< 6] := by
  have hin : -2147483648 ≤ v ∧ v ≤ 2147483647 := by
    apply Classical.byContradiction
    intro hn
    obtain ⟨tr, x, wn, p, a, b, _, _, _, hx, _, hp, _⟩ := line_done h hk hc
    obtain ⟨o, f, _, _, h3⟩ := shift_parse x hm hi
    rw [h3, parseShift_int hv, if_neg hn] at hp
    cases hp
  obtain ⟨_, _, o, f, h3, h4, h5⟩ := shift_ops mn hm
  have hw : encoding mn [.gpr rd, .gpr rt', .sa 0] = some (rWord 0 0 rt' rd 0 f) := by unfold encoding; rw [h5]; rfl
  refine ⟨hin, _, hw, ?_⟩
  refine line_words h hk hc fun x hx => ?_
  obtain ⟨o', f', g1, g2, g3⟩ := shift_parse x hm hi
  rw [hw] at g2
  rw [parseShift_int hv, if_pos hin] at g3
  refine ⟨_, congrArg W.res g3, rfl, ?_⟩
  have := enc_shift g1 rt' rd (BitVec.ofInt 32 v)
  rw [Option.some.inj g2]
  simp only [encode_reg, num_toFin, num_null]
  rw [this]

/-- **C25**, in range: a shift by 0 to 31 is assembled to exactly the word of the manual. -/
theorem C25_in_range_partial [Unicode] (rt : Rt) (m : Mipsasm) (text : Str) (is : List Instruction) (warns : List ParserWarning)
    (h : assemble rt m text = .ok is warns) (k : Nat) (raw mn c : Str) (rd rt' : BitVec 5) (v : BitVec 5)
    (hk : (lines text)[k]? = some raw) (hc : kind raw = .code) (hm : mn ∈ shiftNames) (hi : ShiftText (body raw) mn rd rt' c)
    (hv : PNum c v.toNat) :
    ∃ w, encoding mn [.gpr rd, .gpr rt', .sa v] = some w ∧ w.extractLsb' 6 5 = v ∧
      (is[codeCount ((lines text).take k)]?).map Instruction.getBytes = some [w] := by
  obtain ⟨_, w0, h1, h2⟩ := C25_exact rt m text is warns h k raw mn c rd rt' v.toNat hk hc hm hi hv
  obtain ⟨_, _, o, f, h3, h4, h5⟩ := shift_ops mn hm
  have hw : ∀ v, encoding mn [.gpr rd, .gpr rt', .sa v] = some (rWord 0 0 rt' rd v f) := by intro v; unfold encoding; rw [h5]; rfl
  refine ⟨_, hw v, fSa_r .., ?_⟩
  rw [hw 0] at h1
  cases h1
  rw [h2]
  congr 2
  have e : BitVec.ofInt 32 (v.toNat : Int) = v.setWidth 32 := by
    rw [BitVec.ofInt_natCast]; apply BitVec.eq_of_toNat_eq; simp
  rw [e, shift_or, rWord_or]
  have e : ∀ n : Nat, (0 : BitVec 5).setWidth 32 <<< n = 0#32 := by intro n; simp
  have e' : ∀ n : Nat, (0 : BitVec 6).setWidth 32 <<< n = 0#32 := by intro n; simp
  rw [e, e', BitVec.zero_or, BitVec.zero_or]

/-- The fields other than the shift amount are those of the shift by 0 iff the bits of the number from 5 up that fit the word are already set there;
for `$zero` as both registers iff there are no such bits. -/
theorem C25_fields_exact (w : Word) (v : Int) :
    (∀ i, i < 6 ∨ 11 ≤ i → (w ||| BitVec.ofInt 32 v <<< 6).getLsbD i = w.getLsbD i) ↔
    ∀ i, 5 ≤ i → i < 26 → (BitVec.ofInt 32 v).getLsbD i = true → w.getLsbD (i + 6) = true := by
  generalize BitVec.ofInt 32 v = u
  constructor
  · intro h i h1 h2 h3
    have := h (i + 6) (.inr (by omega))
    simp only [BitVec.getLsbD_or, BitVec.getLsbD_shiftLeft, Nat.add_sub_cancel, h3, Bool.and_true] at this
    have e1 : decide (i + 6 < 32) = true := by simp; omega
    have e2 : decide (i + 6 < 6) = false := by simp
    simpa [e1, e2] using this
  · intro h i hi
    simp only [BitVec.getLsbD_or, BitVec.getLsbD_shiftLeft]
    rcases hi with hi | hi
    · simp [hi]
    · by_cases h32 : i < 32
      · cases hu : u.getLsbD (i - 6) with
        | false => simp
        | true =>
          have := h (i - 6) (by omega) (by omega) hu
          rw [Nat.sub_add_cancel (by omega)] at this
          simp [this]
      · simp [h32]

/-- **C25** fails: shifts by 32, by -1 and by 2147483647 are assembled, with other registers and another function; a shift amount that is
not a 32-bit number makes the call panic. -/
theorem C25_wrong :
    (@assemble asciiUnicode (idRt true) Mipsasm.new c!"sll $t0, $t1, 32").words = (@assemble asciiUnicode (idRt true) Mipsasm.new c!"sll $t1, $t1, 0").words ∧
    (@assemble asciiUnicode (idRt true) Mipsasm.new c!"sll $t0, $t1, 32").words = some [0x00094800#32] ∧
    (@assemble asciiUnicode (idRt true) Mipsasm.new c!"sll $t0, $t1, -1").words = some [0xFFFFFFC0#32] ∧
    (@assemble asciiUnicode (idRt true) Mipsasm.new c!"srl $t0, $t1, 0x4000000").words = (@assemble asciiUnicode (idRt true) Mipsasm.new c!"srl $t0, $t1, 0").words ∧
    (@assemble asciiUnicode (idRt true) Mipsasm.new c!"sll $t0, $t1, x").errors = none ∧
    (@assemble asciiUnicode (idRt true) Mipsasm.new c!"sll $t0, $t1, 0xFFFFFFFF").errors = none := by decide +kernel

/-- Shift amounts that are no 32-bit numbers, in any program: the call does not return. -/
theorem C25_panics [Unicode] (rt : Rt) (m : Mipsasm) (text : Str) (k : Nat) (raw mn c : Str) (rd rt' : BitVec 5) (v : Int)
    (hk : (lines text)[k]? = some raw) (hc : kind raw = .code) (hm : mn ∈ shiftNames) (hi : ShiftText (body raw) mn rd rt' c)
    (hv : PNum c v) (hout : v < -2147483648 ∨ 2147483647 < v) : (assemble rt m text).errors = none := by
  cases he : (assemble rt m text).errors with
  | none => rfl
  | some es =>
    exfalso
    obtain ⟨x, _, h2, _⟩ := line_outcome he hk hc
    obtain ⟨o, f, _, _, h3⟩ := shift_parse x hm hi
    rw [h3, parseShift_int hv, if_neg (by omega)] at h2
    exact h2 rfl

/-- The hypotheses are met by `  SRA $v0, $4, 0x1f`. -/
example : kind c!"  SRA $v0, $4, 0x1f // c" = .code ∧ ShiftText (body c!"  SRA $v0, $4, 0x1f // c") c!"sra" 2 4 c!" 0x1f " ∧ PNum c!" 0x1f " 31 := by
  refine ⟨by decide +kernel, ⟨c!"SRA", c!"$v0", c!" $4", by decide +kernel, by unfold SameName; decide, ?_, ?_, by decide⟩, ?_⟩
  · exact .dollar [] c!"v0" [] 2 (fun c h => by cases h) (fun c h => by cases h) (.name _ _ _ rfl rfl)
  · exact .dollar c!" " c!"4" [] 4 (by unfold Blank; decide) (fun c h => by cases h) (.num _ _ (.one '4' 4 rfl))
  · exact .mk c!" " c!"0x1f" c!" " 31 (by unfold Blank; decide) (by unfold Blank; decide) (.pos _ 31 (.hex c!"1f" 31 (.snoc c!"1" 'f' 1 15 (.one '1' 1 rfl) rfl)))

end Mips
