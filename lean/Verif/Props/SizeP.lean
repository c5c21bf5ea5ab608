/- C49: how many words a line is assembled to. -/
import Verif.Lemmas.FinalL
import Verif.Props.LocalX
import Verif.Props.Consts
import Verif.Props.MulDiv
import Verif.Spec.Size

namespace Mips
open Isa Syntax Source Branch Pseudo

theorem encI_size {ovf : Bool} {o : ITypeOp} {rs rt i : Word} {l : BitVec 64} {b : List Word} (h : encI ovf o rs rt i l = some b)
    (hv : o.name ∉ Size.varying.map (·.1)) : b.length = Size.words o.name := by
  cases o <;> first
    | (cases h; rfl)
    | (simp only [encI, Option.map_eq_some_iff] at h; obtain ⟨_, _, rfl⟩ := h; rfl)
    | exact absurd (by decide) hv

theorem encR_size (o : RTypeOp) (rs rt rd sa : Word) (hv : o.name ∉ Size.varying.map (·.1)) :
    (encR o rs rt rd sa).length = Size.words o.name := by
  cases o <;> first
    | rfl
    | exact absurd (by decide) hv

theorem words_other {mn : Str} (h : classify mn = .other) : Size.words mn = 1 := by
  unfold Size.words
  rw [show Size.long.lookup mn = none from ?_]
  · rfl
  rw [List.lookup_eq_none_iff]
  intro p hp
  have : ∀ p ∈ Size.long, classify p.1 ≠ .other := by decide
  have hne := this p hp
  rw [bne_iff_ne]
  intro hb
  rw [hb] at h
  exact absurd h hne

/-- **C49.** In an accepted program, the number of words of an instruction line depends on its mnemonic alone, and is the one
`Size.words` lists, for every mnemonic but `li`, `liu`, `div`, `divu`, `ddiv` and `ddivu`. -/
theorem C49_fixed [Unicode] (rt : Rt) (m : Mipsasm) (text : Str) (is : List Instruction) (warns : List ParserWarning)
    (h : assemble rt m text = .ok is warns) (k : Nat) (raw : Str) (hk : (lines text)[k]? = some raw) (hc : kind raw = .code)
    (hv : mnemonic (body raw) ∉ Size.varying.map (·.1)) :
    ∃ i, is[codeCount ((lines text).take k)]? = some i ∧ i.getBytes.length = Size.words (mnemonic (body raw)) := by
  obtain ⟨i, hi, hf⟩ := line_final h hk hc
  refine ⟨i, hi, ?_⟩
  cases i with
  | bytes w => exact hf.elim
  | imm o rs rt im b =>
    obtain ⟨hn, hf⟩ := hf
    rw [← hn] at hv ⊢
    rcases hf with ⟨v, _, he⟩ | ⟨_, v, _, he⟩
    · exact encI_size he hv
    · exact encI_size he hv
  | jump o t b =>
    obtain ⟨hn, a, _, rfl⟩ := hf
    rw [← hn]
    cases o <;> rfl
  | reg o rs rt rd sa b =>
    obtain ⟨rfl, ⟨hn, _⟩ | ⟨ho, _, hcl⟩⟩ := hf
    · rw [← hn] at hv ⊢
      exact encR_size o _ _ _ _ hv
    · rw [words_other hcl]
      rcases ho with rfl | rfl <;> rfl

theorem and_low (v : Word) : (v &&& 0xFFFF#32).toNat = v.toNat % 65536 := by
  rw [BitVec.toNat_and]
  exact Nat.and_two_pow_sub_one_eq_mod v.toNat 16

theorem low_iff (v : Word) : (v &&& 0xFFFF#32 = v ↔ v.toNat < 65536) ∧ (v &&& 0xFFFF#32 = 0#32 ↔ v.toNat % 65536 = 0) := by
  constructor
  · rw [← BitVec.toNat_inj, and_low]
    constructor
    · intro h; omega
    · intro h; omega
  · rw [← BitVec.toNat_inj, and_low]; rfl

theorem encLi_len (r v : Word) : (encLi r v).length = if v.toNat < 65536 ∨ v.toNat % 65536 = 0 then 1 else 2 := by
  obtain ⟨h1, h2⟩ := low_iff v
  unfold encLi
  by_cases a : v.toNat < 65536
  · rw [if_pos (h1.2 a), if_pos (.inl a)]; rfl
  · rw [if_neg (fun h => a (h1.1 h))]
    by_cases b : v.toNat % 65536 = 0
    · rw [if_pos (h2.2 b), if_pos (.inr b)]; rfl
    · rw [if_neg (fun h => b (h2.1 h)), if_neg (c := v.toNat < 65536 ∨ v.toNat % 65536 = 0) (by omega)]
      split <;> rfl

theorem encLiu_len (r v : Word) : (encLiu r v).length = if v.toNat < 65536 ∨ v.toNat % 65536 = 0 then 1 else 2 := by
  obtain ⟨h1, h2⟩ := low_iff v
  unfold encLiu
  by_cases a : v.toNat < 65536
  · rw [if_pos (h1.2 a), if_pos (.inl a)]; rfl
  · rw [if_neg (fun h => a (h1.1 h))]
    by_cases b : v.toNat % 65536 = 0
    · rw [if_pos (h2.2 b), if_pos (.inr b)]; rfl
    · rw [if_neg (fun h => b (h2.1 h)), if_neg (by omega)]; rfl

theorem encI_varying {ovf : Bool} {o : ITypeOp} {rs rt i : Word} {l : BitVec 64} {b : List Word} {n : Nat}
    (h : encI ovf o rs rt i l = some b) (hv : (o.name, n) ∈ Size.varying) : b.length = 1 ∨ b.length = n := by
  have hn : o = .Li ∨ o = .Liu := by
    have : o.name ∈ Size.varying.map (·.1) := List.mem_map.2 ⟨_, hv, rfl⟩
    cases o <;> first | exact .inl rfl | exact .inr rfl | exact absurd this (by decide)
  have h2 : n = 2 := by
    rcases hn with rfl | rfl
    · simpa [Size.varying, Size.division, ITypeOp.name] using hv
    · simpa [Size.varying, Size.division, ITypeOp.name] using hv
  subst h2
  rcases hn with rfl | rfl
  · cases h
    rw [encLi_len]; split <;> simp
  · cases h
    rw [encLiu_len]; split <;> simp

/-- The words of a division. -/
theorem encR_varying {o : RTypeOp} {n : Nat} (rs rt rd sa : Word) (hv : (o.name, n) ∈ Size.varying) :
    (encR o rs rt rd sa).length = if rt = 0#32 then 1 else n := by
  have hn : (o = .Div ∧ n = 8) ∨ (o = .Divu ∧ n = 3) ∨ (o = .Ddiv ∧ n = 8) ∨ (o = .Ddivu ∧ n = 3) := by
    have : o.name ∈ Size.varying.map (·.1) := List.mem_map.2 ⟨_, hv, rfl⟩
    have ho : o = .Div ∨ o = .Divu ∨ o = .Ddiv ∨ o = .Ddivu := by
      cases o <;> first | exact .inl rfl | exact .inr (.inl rfl) | exact .inr (.inr (.inl rfl)) | exact .inr (.inr (.inr rfl)) | exact absurd this (by decide)
    rcases ho with rfl | rfl | rfl | rfl <;> simpa [Size.varying, Size.division, RTypeOp.name] using hv
  rcases hn with ⟨rfl, rfl⟩ | ⟨rfl, rfl⟩ | ⟨rfl, rfl⟩ | ⟨rfl, rfl⟩
  all_goals
    simp only [encR]
    split <;> rfl

/-- **C49 (the other mnemonics).** A line with `li`, `liu`, `div`, `divu`, `ddiv` or `ddivu` takes one word or the number
`Size.varying` lists. -/
theorem C49_varying [Unicode] (rt : Rt) (m : Mipsasm) (text : Str) (is : List Instruction) (warns : List ParserWarning)
    (h : assemble rt m text = .ok is warns) (k : Nat) (raw : Str) (n : Nat) (hk : (lines text)[k]? = some raw) (hc : kind raw = .code)
    (hv : (mnemonic (body raw), n) ∈ Size.varying) :
    ∃ i, is[codeCount ((lines text).take k)]? = some i ∧ (i.getBytes.length = 1 ∨ i.getBytes.length = n) := by
  obtain ⟨i, hi, hf⟩ := line_final h hk hc
  refine ⟨i, hi, ?_⟩
  cases i with
  | bytes w => exact hf.elim
  | imm o rs rt im b =>
    obtain ⟨hn, hf⟩ := hf
    rw [← hn] at hv
    rcases hf with ⟨v, _, he⟩ | ⟨_, v, _, he⟩
    · exact encI_varying he hv
    · exact encI_varying he hv
  | jump o t b =>
    obtain ⟨hn, a, _, rfl⟩ := hf
    cases o <;> exact .inl rfl
  | reg o rs rt rd sa b =>
    obtain ⟨rfl, ⟨hn, _⟩ | ⟨ho, _, hcl⟩⟩ := hf
    · rw [← hn] at hv
      have := encR_varying rs.num rt.num rd.num sa hv
      simp only [Instruction.getBytes]
      rw [this]
      split <;> simp
    · rcases ho with rfl | rfl <;> exact .inl rfl

/-- **C49 (constants).** `li r, n` and `liu r, n` take one word if `n` is below 2^16 or a multiple of 2^16, and two otherwise. -/
theorem C49_const [Unicode] (rt : Rt) (m : Mipsasm) (text : Str) (is : List Instruction) (warns : List ParserWarning)
    (h : assemble rt m text = .ok is warns) (k : Nat) (raw mn : Str) (r : BitVec 5) (n : Nat)
    (hk : (lines text)[k]? = some raw) (hc : kind raw = .code) (hm : mn = c!"li" ∨ mn = c!"liu") (hi : ConstText (body raw) mn r n)
    (hn : NoNumeralLabel (lines text)) :
    (is[codeCount ((lines text).take k)]?).map (·.getBytes.length) = some (if n < 65536 ∨ n % 65536 = 0 then 1 else 2) := by
  have hnum : n ≤ 0xFFFFFFFF → (BitVec.ofInt 32 (n : Int)).toNat = n := by
    intro hle
    rw [BitVec.ofInt_natCast, BitVec.toNat_ofNat]
    omega
  have this64 : (BitVec.ofInt 64 (n : Int)).setWidth 32 = BitVec.ofInt 32 (n : Int) := by
    apply BitVec.eq_of_toNat_eq; rw [BitVec.toNat_setWidth, BitVec.toNat_ofInt, BitVec.toNat_ofInt]; omega
  rcases hm with rfl | rfl
  · have hp := fun x (hx : AtLine rt m (lines text) k x) => (const_emits (o := .Li) x hi (by decide) (hx.noNum hn) (by decide +kernel)).1 (Or.inl (by decide +kernel))
    have hr : 0 ≤ (n : Int) ∧ (n : Int) ≤ 0xFFFFFFFF := by
      apply Decidable.byContradiction
      intro hcon
      exact line_not_err h hk hc (fun x hx => by obtain ⟨e, he⟩ := (hp x hx).2 hcon; exact ⟨_, he⟩)
    have hw := line_words h hk hc (ws := encLi (r.setWidth 32) (BitVec.ofInt 32 (n : Int))) (by
      intro x hx
      refine ⟨_, (hp x hx).1 hr, rfl, ?_⟩
      simp only [encode, Immediate.asU32, Immediate.asU64, opt_bind, Option.bind_some, encI, num_toFin, this64])
    have := congrArg (Option.map List.length) hw
    rw [Option.map_map, Option.map_some, encLi_len, hnum (by omega)] at this
    exact this
  · have hp := fun x (hx : AtLine rt m (lines text) k x) => (const_emits (o := .Liu) x hi (by decide) (hx.noNum hn) (by decide +kernel)).1 (Or.inr (by decide +kernel))
    have hr : 0 ≤ (n : Int) ∧ (n : Int) ≤ 0xFFFFFFFF := by
      apply Decidable.byContradiction
      intro hcon
      exact line_not_err h hk hc (fun x hx => by obtain ⟨e, he⟩ := (hp x hx).2 hcon; exact ⟨_, he⟩)
    have hw := line_words h hk hc (ws := encLiu (r.setWidth 32) (BitVec.ofInt 32 (n : Int))) (by
      intro x hx
      refine ⟨_, (hp x hx).1 hr, rfl, ?_⟩
      simp only [encode, Immediate.asU32, Immediate.asU64, opt_bind, Option.bind_some, encI, num_toFin, this64])
    have := congrArg (Option.map List.length) hw
    rw [Option.map_map, Option.map_some, encLiu_len, hnum (by omega)] at this
    exact this

/-- **C49 (division).** `div rd, ra, rb` and its relatives take one word if `rb` is `$zero`, and the larger number otherwise. -/
theorem C49_division [Unicode] (rt : Rt) (m : Mipsasm) (text : Str) (is : List Instruction) (warns : List ParserWarning)
    (h : assemble rt m text = .ok is warns) (k : Nat) (raw mn : Str) (n : Nat) (rd ra rb : BitVec 5)
    (hk : (lines text)[k]? = some raw) (hc : kind raw = .code) (hm : (mn, n) ∈ Size.division)
    (hi : InstrText (body raw) mn [.gpr rd, .gpr ra, .gpr rb]) :
    (is[codeCount ((lines text).take k)]?).map (·.getBytes.length) = some (if rb = 0 then 1 else n) := by
  have key : ∃ o, Reg3Ok mn o ∧ o.name = mn := by
    simp only [Size.division, List.mem_cons, Prod.mk.injEq, List.not_mem_nil, or_false] at hm
    rcases hm with ⟨rfl, _⟩ | ⟨rfl, _⟩ | ⟨rfl, _⟩ | ⟨rfl, _⟩
    · exact ⟨.Divu, by decide +kernel, rfl⟩
    · exact ⟨.Ddivu, by decide +kernel, rfl⟩
    · exact ⟨.Div, by decide +kernel, rfl⟩
    · exact ⟨.Ddiv, by decide +kernel, rfl⟩
  obtain ⟨o, ho, hon⟩ := key
  have hw := reg3_words h hk hc hi ho
  have hm : (o.name, n) ∈ Size.varying := by rw [hon]; exact List.mem_append_right _ hm
  have := congrArg (Option.map List.length) hw
  rw [Option.map_map, Option.map_some, encR_varying _ _ _ _ hm] at this
  have hz : rb.setWidth 32 = 0#32 ↔ rb = 0 := by
    rw [← BitVec.toNat_inj, ← BitVec.toNat_inj, BitVec.toNat_setWidth]
    have := rb.isLt
    rw [Nat.mod_eq_of_lt (by omega)]; rfl
  refine Eq.trans this (congrArg some ?_)
  by_cases h0 : rb = 0
  · rw [if_pos (hz.2 h0), if_pos h0]
  · rw [if_neg (fun hh => h0 (hz.1 hh)), if_neg h0]

/-- Instructions whose lines carry one-word mnemonics are one word long. -/
theorem single_of [Unicode] {rt : Rt} {m : Mipsasm} {text : Str} {is : List Instruction} {warns : List ParserWarning}
    (h : assemble rt m text = .ok is warns) {d k : Nat}
    (hs : ∀ j raw, d ≤ j → j < k → (lines text)[j]? = some raw → kind raw = .code → Size.Short (mnemonic (body raw))) :
    Single is (codeCount ((lines text).take d)) (codeCount ((lines text).take k)) := by
  intro n x h1 h2 hx
  have hn : n < codeCount (lines text) := by
    rw [← is_length h]; exact (List.getElem?_eq_some_iff.1 hx).1
  obtain ⟨j, raw, h3, h4, rfl⟩ := code_get hn
  have hdj : d ≤ j := by
    rcases Nat.lt_or_ge j d with hh | hh
    · have a := codeCount_mono (lines text) (show j + 1 ≤ d from hh)
      have e : codeCount ((lines text).take (j + 1)) = codeCount ((lines text).take j) + 1 := by
        rw [List.take_add_one, h3, codeCount_append]
        simp [codeCount, isCode, h4]
      omega
    · exact hh
  have hjk : j < k := by
    rcases Nat.lt_or_ge j k with hh | hh
    · exact hh
    · have := codeCount_mono (lines text) hh; omega
  obtain ⟨s1, s2⟩ := hs j raw hdj hjk h3 h4
  obtain ⟨i, hi, hl⟩ := C49_fixed rt m text is warns h j raw h3 h4 s2
  rw [hx] at hi
  cases hi
  rw [hl]
  unfold Size.words
  rw [show Size.long.lookup (mnemonic (body raw)) = none from ?_]
  · rfl
  rw [List.lookup_eq_none_iff]
  intro p hp
  rw [bne_iff_ne]
  intro hb
  exact s1 (List.mem_map.2 ⟨p, hp, hb.symm⟩)

/-- **C49 (programs of one-word instructions).** If every instruction line of an accepted program has a one-word mnemonic, the
program has as many words as instruction lines. -/
theorem C49_total [Unicode] (rt : Rt) (m : Mipsasm) (text : Str) (is : List Instruction) (warns : List ParserWarning)
    (h : assemble rt m text = .ok is warns)
    (hs : ∀ raw ∈ lines text, kind raw = .code → Size.Short (mnemonic (body raw))) :
    (getBytes is).length = codeCount (lines text) := by
  have hsg := single_of h (d := 0) (k := (lines text).length) (fun j raw _ _ h3 h4 => hs raw (List.mem_of_getElem? h3) h4)
  rw [List.take_of_length_le (Nat.le_refl _), ← is_length h] at hsg
  rw [← is_length h]
  have hall : ∀ x ∈ is, x.getBytes.length = 1 := by
    intro x hx
    obtain ⟨n, hn, rfl⟩ := List.mem_iff_getElem.1 hx
    exact hsg n _ (by simp [codeCount]) hn (List.getElem?_eq_getElem hn)
  clear hsg hs h
  unfold getBytes
  induction is with
  | nil => rfl
  | cons x is ih =>
    rw [List.flatMap_cons, List.length_append, hall x (by simp), ih (fun y hy => hall y (by simp [hy])), List.length_cons]
    omega

/-- **C49 (branches).** In an accepted program, a branch to a global label reaches it if all lines between the label and the branch
have one-word mnemonics and there are less than 2^15 of them. -/
theorem C49_reaches [Unicode] (rt : Rt) (m : Mipsasm) (text : Str) (is : List Instruction) (warns : List ParserWarning)
    (h : assemble rt m text = .ok is warns) (d k : Nat) (l t mn : Str) (regs : List (BitVec 5))
    (hb : BranchAt (lines text) k mn regs t) (hbr : IsBranch mn regs) (hd : Defines (lines text) d l) (hdk : d < k)
    (hl : isLocal l = false) (ht : trim t = l)
    (hs : ∀ j raw, d < j → j < k → (lines text)[j]? = some raw → kind raw = .code → Size.Short (mnemonic (body raw)))
    (hf : k < d + 32768) :
    Reaches is (codeCount ((lines text).take k)) (codeCount ((lines text).take d)) mn regs := by
  refine C06_reaches_partial rt m text is warns h d k l t mn regs hb hbr hd hdk hl ht (single_of h ?_) ?_
  · intro j raw hj1 hj2 h3 h4
    refine hs j raw ?_ hj2 h3 h4
    rcases Nat.lt_or_ge d j with hh | hh
    · exact hh
    · obtain ⟨raw', h5, h6⟩ := hd
      have : j = d := by omega
      subst this
      rw [h3] at h5
      cases h5
      rw [h4] at h6; cases h6
  · have := codeCount_append ((lines text).take d) (((lines text).drop d).take (k - d))
    rw [show (lines text).take d ++ ((lines text).drop d).take (k - d) = (lines text).take k from by
      rw [← List.take_add, show d + (k - d) = k by omega]] at this
    have hle : codeCount (((lines text).drop d).take (k - d)) ≤ k - d := by
      unfold codeCount
      refine Nat.le_trans (List.length_filter_le _ _) ?_
      rw [List.length_take]; omega
    omega

/-- Non-vacuity: one mnemonic of each size. -/
example : (wordsOf c!"add $v0, $a0, $a1").length = 1 ∧ (wordsOf c!"li $v0, 0x12340000").length = 1 ∧
    (wordsOf c!"li $v0, 0x12345678").length = 2 ∧ (wordsOf c!"divu $v0, $a0, $a1").length = 3 ∧ (wordsOf c!"divu $v0, $a0").length = 1 ∧
    (wordsOf c!"drol $v0, $a0, $a1").length = 4 ∧ (wordsOf c!"dli $v0, 5").length = 6 ∧ (wordsOf c!"rem $v0, $a0, $a1").length = 8 := by
  decide +kernel

/-- Non-vacuity of `C49_reaches`: a loop of one-word instructions. -/
example : ∃ is warns, @assemble asciiUnicode (idRt true) Mipsasm.new c!"a:\nsgt $v0, $a0, $a1\nnop\nb a\nnop" = .ok is warns ∧
    HasOffset is 2 c!"b" [] (-3) ∧ @Size.Short (@mnemonic asciiUnicode c!"sgt $v0, $a0, $a1") := by
  obtain ⟨is, warns, h, hf⟩ := insts_ok (o := @assemble asciiUnicode (idRt true) Mipsasm.new c!"a:\nsgt $v0, $a0, $a1\nnop\nb a\nnop")
    (f := fun is => decide ((is[2]?).map Instruction.getBytes = some [0x1000fffd#32])) (by decide +kernel)
  exact ⟨is, warns, h, ⟨_, rfl, (of_decide_eq_true hf).trans (by decide)⟩, by decide +kernel⟩

end Mips
