/- C06, C07, C09 and C19: exactly when branches and jumps to labels go where the label is. -/
import Verif.Props.SizeP
import Verif.Props.NumBranch
import Verif.Props.Jumps
import Verif.Props.CmpBranch

namespace Mips
open Isa Syntax Source Branch Pseudo Listing Machine

/-- Every instruction of an accepted program has a word. -/
theorem emits_word [Unicode] {rt : Rt} {m : Mipsasm} {text : Str} {is : List Instruction} {warns : List ParserWarning}
    (h : assemble rt m text = .ok is warns) {n : Nat} {x : Instruction} (hx : is[n]? = some x) : 1 ≤ x.getBytes.length := by
  have hn : n < codeCount (lines text) := by
    rw [← is_length h]; exact (List.getElem?_eq_some_iff.1 hx).1
  obtain ⟨j, raw, h3, h4, rfl⟩ := code_get hn
  by_cases hv : mnemonic (body raw) ∈ Size.varying.map (·.1)
  · obtain ⟨p, hp, he⟩ := List.mem_map.1 hv
    have hpos : ∀ p ∈ Size.varying, 1 ≤ p.2 := by decide
    have hp1 := hpos p hp
    obtain ⟨mn, n⟩ := p
    dsimp only at he hp1
    subst he
    obtain ⟨i, hi, hl⟩ := C49_varying rt m text is warns h j raw n h3 h4 hp
    rw [hx] at hi; cases hi
    omega
  · obtain ⟨i, hi, hl⟩ := C49_fixed rt m text is warns h j raw h3 h4 hv
    rw [hx] at hi; cases hi
    rw [hl]
    unfold Size.words
    cases hq : Size.long.lookup (mnemonic (body raw)) with
    | none => exact Nat.le_refl 1
    | some n =>
      have hpos : ∀ p ∈ Size.long, 1 ≤ p.2 := by decide
      exact hpos _ (lookup_mem' hq)

/-- Distances in words are at least the distances in instructions, with equality over one-word instructions only. -/
theorem words_dist {is : List Instruction} (hp : ∀ (n : Nat) x, is[n]? = some x → 1 ≤ x.getBytes.length) {a b : Nat} (hab : a ≤ b)
    (hb : b ≤ is.length) : wordIndex is a + (b - a) ≤ wordIndex is b ∧ (wordIndex is b = wordIndex is a + (b - a) ↔ Single is a b) := by
  induction b with
  | zero =>
    have : a = 0 := by omega
    subst this
    exact ⟨Nat.le_refl _, fun _ j x _ h => absurd h (Nat.not_lt_zero _), fun _ => rfl⟩
  | succ b ih =>
    rcases Nat.lt_or_ge b a with hh | hh
    · have : a = b + 1 := by omega
      subst this
      exact ⟨by omega, fun _ j x h1 h2 => absurd h1 (by omega), fun _ => by omega⟩
    · have hx : is[b]? = some is[b] := List.getElem?_eq_getElem (by omega)
      obtain ⟨i1, i2⟩ := ih hh (by omega)
      have hp1 := hp b _ hx
      rw [wordIndex_succ hx]
      refine ⟨by omega, fun he => ?_, fun hs => ?_⟩
      · have hs := i2.1 (by omega)
        have h1 : (is[b]).getBytes.length = 1 := by omega
        intro j x hj1 hj2 hjx
        rcases Nat.lt_or_ge j b with hjb | hjb
        · exact hs j x hj1 hjb hjx
        · have : j = b := by omega
          subst this
          rw [hx] at hjx; cases hjx
          exact h1
      · have := i2.2 (fun j x h1 h2 => hs j x h1 (by omega))
        have := hs b _ hh (by omega) hx
        omega

/-- The offset of an emitted branch is determined by its word. -/
theorem hasOffset_unique {is : List Instruction} {i : Nat} {mn : Str} {regs : List (BitVec 5)} {o o' : BitVec 16} (hbr : IsBranch mn regs)
    (h : HasOffset is i mn regs o) (h' : HasOffset is i mn regs o') : o = o' := by
  obtain ⟨w, w1, w2⟩ := h
  obtain ⟨w', w1', w2'⟩ := h'
  rw [w2] at w2'
  simp only [Option.some.injEq, List.cons.injEq, and_true] at w2'
  subst w2'
  have e1 := branchWord_off hbr o
  have e2 := branchWord_off hbr o'
  rw [w1] at e1
  rw [w1'] at e2
  rw [e1] at e2
  exact Option.some.inj e2

theorem toInt_ofInt16_eq {v e : Int} (h : (BitVec.ofInt 16 v).toInt = e) (h0 : (0 ≤ v ∧ v ≤ e) ∨ (v < 0 ∧ e ≤ v)) : e = v ∧ -32768 ≤ v ∧ v < 32768 := by
  have hb : -32768 ≤ e ∧ e < 32768 := by
    rw [← h]
    have h1 := BitVec.le_toInt (BitVec.ofInt 16 v)
    have h2 := BitVec.toInt_lt (x := BitVec.ofInt 16 v)
    omega
  have hv : -32768 ≤ v ∧ v < 32768 := by omega
  rw [toInt_ofInt16 hv.1 hv.2] at h
  omega

/-- From distances in instructions to distances in words: exactly when the two agree. -/
theorem reaches_iff {is : List Instruction} (hp : ∀ (n : Nat) x, is[n]? = some x → 1 ≤ x.getBytes.length) {i n : Nat} {mn : Str}
    {regs : List (BitVec 5)} (hbr : IsBranch mn regs) (hn : n ≤ is.length) (h : HasOffset is i mn regs (BitVec.ofInt 16 ((n : Int) - (i + 1)))) :
    Reaches is i n mn regs ↔ Single is (min n i) (max n i) ∧ i < n + 32768 ∧ n ≤ i + 32768 := by
  constructor
  · rintro ⟨o, ho, hr⟩
    obtain rfl := hasOffset_unique hbr ho h
    obtain ⟨x, hx, hl⟩ := hasOffset_len h
    have hi : i < is.length := (List.getElem?_eq_some_iff.1 hx).1
    rcases Nat.le_total n i with hh | hh
    · rw [Nat.min_eq_left hh, Nat.max_eq_right hh]
      obtain ⟨d1, d2⟩ := words_dist hp hh (by omega)
      obtain ⟨e1, e2, e3⟩ := toInt_ofInt16_eq (v := (n : Int) - (i + 1)) (e := (wordIndex is n : Int) - wordIndex is i - 1) (by omega) (by omega)
      exact ⟨d2.1 (by omega), by omega, by omega⟩
    · rw [Nat.min_eq_right hh, Nat.max_eq_left hh]
      obtain ⟨d1, d2⟩ := words_dist hp hh hn
      rcases Nat.eq_or_lt_of_le hh with rfl | hlt
      · exact ⟨fun j x h1 h2 => absurd h1 (by omega), by omega, by omega⟩
      · obtain ⟨e1, e2, e3⟩ := toInt_ofInt16_eq (v := (n : Int) - (i + 1)) (e := (wordIndex is n : Int) - wordIndex is i - 1) (by omega) (by omega)
        exact ⟨d2.1 (by omega), by omega, by omega⟩
  · rintro ⟨hs, h1, h2⟩
    exact reaches_of hn h hs (by omega) (by omega)

/-- **C06**, exactly when it holds for global labels: in an accepted program, a branch to a global label goes to the first word emitted behind the
label if and only if all instructions between the label and the branch are one word long and the label is less than 2^15 instructions away. -/
theorem C06_exact [Unicode] (rt : Rt) (m : Mipsasm) (text : Str) (is : List Instruction) (warns : List ParserWarning)
    (h : assemble rt m text = .ok is warns) (d k : Nat) (l t mn : Str) (regs : List (BitVec 5))
    (hb : BranchAt (lines text) k mn regs t) (hbr : IsBranch mn regs) (hd : Defines (lines text) d l) (hdk : d < k)
    (hl : isLocal l = false) (ht : trim t = l) :
    Reaches is (codeCount ((lines text).take k)) (codeCount ((lines text).take d)) mn regs ↔
      Single is (codeCount ((lines text).take d)) (codeCount ((lines text).take k)) ∧
      codeCount ((lines text).take k) < codeCount ((lines text).take d) + 32768 := by
  have hc := codeCount_mono (lines text) (Nat.le_of_lt hdk)
  have hc2 := codeCount_take_le (lines text) d
  rw [reaches_iff (fun _ _ => emits_word h) hbr (by rw [is_length h]; omega) (C06_offset rt m text is warns h d k l t mn regs hb hbr hd hdk hl ht),
    Nat.min_eq_left hc, Nat.max_eq_right hc]
  exact ⟨fun hh => ⟨hh.1, hh.2.1⟩, fun hh => ⟨hh.1, hh.2, by omega⟩⟩

/-- **C06**, exactly when it holds for local labels: in an accepted program, a branch to a local label goes to the first word emitted behind the
definition the reference resolves to, above or below, if and only if all instructions in between are one word long and the distance fits 16
bits. -/
theorem C06_local_exact [Unicode] (rt : Rt) (m : Mipsasm) (text : Str) (is : List Instruction) (warns : List ParserWarning)
    (h : assemble rt m text = .ok is warns) (k d : Nat) (x t mn : Str) (regs : List (BitVec 5))
    (hb : BranchAt (lines text) k mn regs t) (hbr : IsBranch mn regs) (ht : trim t = x) (hx : isLocal x = true)
    (hd : Chosen (lines text) k d x) :
    Reaches is (codeCount ((lines text).take k)) (codeCount ((lines text).take d)) mn regs ↔
      Single is (min (codeCount ((lines text).take d)) (codeCount ((lines text).take k)))
        (max (codeCount ((lines text).take d)) (codeCount ((lines text).take k))) ∧
      codeCount ((lines text).take k) < codeCount ((lines text).take d) + 32768 ∧
      codeCount ((lines text).take d) ≤ codeCount ((lines text).take k) + 32768 := by
  obtain ⟨d', h1, h2⟩ := C09_resolves_exact rt m text is warns h k x t mn regs hb hbr ht hx
  rw [chosen_unique h1 hd] at h2
  have hc2 := codeCount_take_le (lines text) d
  exact reaches_iff (fun _ _ => emits_word h) hbr (by rw [is_length h]; omega) h2

/-- Where a jump whose index is computed from the address `a` goes. -/
theorem jumpsTo_iff {is : List Instruction} {i : Nat} {mn : Str} {a b pc : Word} (hm : mn ∈ jumpOps) (h : HasTarget is i mn (index24 a)) :
    JumpsTo is i mn pc b ↔ jumpAddr pc (index24 a) = b := by
  constructor
  · rintro ⟨idx, h', hg⟩
    obtain ⟨w, w1, w2⟩ := h
    obtain ⟨w', w1', w2'⟩ := h'
    rw [w2] at w2'
    simp only [Option.some.injEq, List.cons.injEq, and_true] at w2'
    subst w2'
    have : idx = index24 a := by
      have e : ∀ j : BitVec 26, (encoding mn [.target j]).map fTarget = some j := by
        intro j
        simp only [jumpOps, List.mem_cons, List.not_mem_nil, or_false] at hm
        rcases hm with rfl | rfl
        · show some (fTarget (jWord 2 j)) = some j
          rw [fTarget_j]
        · show some (fTarget (jWord 3 j)) = some j
          rw [fTarget_j]
      have e1 := e idx
      rw [w1'] at e1
      have e2 := e (index24 a)
      rw [w1, e1] at e2
      exact Option.some.inj e2
    rw [← this]; exact hg
  · intro hg
    exact ⟨_, h, hg⟩

/-- **C07**, exactly when it holds for labels: in an accepted program of less than 2^24 words, a jump to a label goes to the first word emitted
behind the label if and only if all instructions in front of the label are one word long and that word is in the lowest 64 MB of the region
(and at a multiple of 4, as it is if the base address is). -/
theorem C07_label_exact [Unicode] (rt : Rt) (m : Mipsasm) (text : Str) (is : List Instruction) (warns : List ParserWarning)
    (h : assemble rt m text = .ok is warns) (k d : Nat) (mn t l : Str) (hj : JumpAt (lines text) k mn t)
    (hd : Defines (lines text) d l) (hl : isLocal l = false) (ht : trim t = l) (hs : ∀ e ∈ m.syms, e.2 ≠ l)
    (hw : (getBytes is).length < 2 ^ 24) (pc : Word) :
    JumpsTo is (codeCount ((lines text).take k)) mn pc (m.base + BitVec.ofNat 32 (4 * wordIndex is (codeCount ((lines text).take d)))) ↔
      Single is 0 (codeCount ((lines text).take d)) ∧
      Low pc (m.base + BitVec.ofNat 32 (4 * wordIndex is (codeCount ((lines text).take d)))) := by
  have hn : codeCount ((lines text).take d) ≤ is.length := by rw [is_length h]; exact codeCount_take_le _ _
  obtain ⟨d1, d2⟩ := words_dist (fun _ _ => emits_word h) (Nat.zero_le (codeCount ((lines text).take d))) hn
  have h0 : wordIndex is 0 = 0 := by simp [wordIndex, getBytes]
  have hlen : wordIndex is (codeCount ((lines text).take d)) ≤ (getBytes is).length := by
    have := (words_dist (fun _ _ => emits_word h) hn (Nat.le_refl is.length)).1
    rw [show wordIndex is is.length = (getBytes is).length by simp [wordIndex]] at this
    omega
  rw [h0] at d1 d2
  rw [jumpsTo_iff hj.1 (C07_label rt m text is warns h k d mn t l hj hd hl ht hs), ← d2, ← BitVec.toNat_inj, jumpAddr_toNat]
  have hidx : ∀ a : Word, (index24 a).toNat = a.toNat / 4 % 2 ^ 24 := by
    intro a
    unfold index24
    rw [BitVec.toNat_setWidth, BitVec.extractLsb'_toNat, Nat.shiftRight_eq_div_pow]
    omega
  rw [hidx]
  unfold Low
  simp only [BitVec.toNat_add, BitVec.toNat_ofNat]
  have := m.base.isLt
  have := pc.isLt
  generalize codeCount ((lines text).take d) = n at *
  generalize wordIndex is n = W at *
  omega

/-- **C19** for local labels, above or below: the offset does not count the comparison, so that the branch, if taken, goes to the word that is as
many words from the first word of the line as the label is instructions from the line. -/
theorem C19_local_exact [Unicode] (rt : Rt) (m : Mipsasm) (text : Str) (is : List Instruction) (warns : List ParserWarning)
    (h : assemble rt m text = .ok is warns) (d k : Nat) (l t mn : Str) (r q : BitVec 5) (likely : Bool) (f : W64 → W64 → Bool)
    (hb : BranchAt (lines text) k mn [r, q] t) (hf : (mn, likely, f) ∈ cmpOps) (hd : Chosen (lines text) k d l)
    (hl : isLocal l = true) (ht : trim t = l) (hne : codeCount ((lines text).take d) ≠ codeCount ((lines text).take k) + 1)
    (hlo : codeCount ((lines text).take k) < codeCount ((lines text).take d) + 32767)
    (hhi : codeCount ((lines text).take d) ≤ codeCount ((lines text).take k) + 32768) :
    ∃ (ws : List Word), (is[codeCount ((lines text).take k)]?).map Instruction.getBytes = some ws ∧ ws.length = 2 ∧
      ∀ s : Cpu, s.Entry → BranchesIf ws s likely (f (s.get r) (s.get q))
        ((codeCount ((lines text).take d) : Int) - codeCount ((lines text).take k)) := by
  obtain ⟨tr, x, op, im, v, ws, hT, he, hat, h1, h2, h3, _, h4⟩ := cmp_line h hb hf
  obtain ⟨raw, hk, hc, _⟩ := hb
  rw [parseImm_local x .u32 (by rw [ht]; exact hl), ht] at h1
  cases h1
  rcases local_exact hT he hk hc hl op r.toFin q.toFin [] with ⟨d', c1, _, c2⟩ | ⟨_, c2⟩ | ⟨_, _, _, c2⟩
  · rw [h2] at c2
    rw [chosen_unique c1 hd] at c2
    simp only [Option.some.injEq, Prod.mk.injEq, and_true, Instruction.imm.injEq, true_and, Immediate.short.injEq] at c2
    have hi : v = BitVec.ofInt 16 ((codeCount ((lines text).take d) : Int) - (codeCount ((lines text).take k) + 1)) := c2
    have hvi : v.toInt = (codeCount ((lines text).take d) : Int) - (codeCount ((lines text).take k) + 1) := by
      rw [hi]; exact toInt_ofInt16 (by omega) (by omega)
    have hv0 : v ≠ 0 := by rintro rfl; rw [show (0 : BitVec 16).toInt = 0 from rfl] at hvi; omega
    have hv8 : v ≠ 0x8000 := by rintro rfl; rw [show (0x8000 : BitVec 16).toInt = -32768 from by decide] at hvi; omega
    have hv : (v - 1).toInt = v.toInt - 1 := by
      have hv0 : v.toNat ≠ 0 := fun e => hv0 (BitVec.eq_of_toNat_eq e)
      have hv8 : v.toNat ≠ 0x8000 := fun e => hv8 (BitVec.eq_of_toNat_eq e)
      have hl := v.isLt
      have h1 : (1 : BitVec 16).toNat = 1 := rfl
      rw [BitVec.toInt_eq_toNat_cond, BitVec.toInt_eq_toNat_cond, BitVec.toNat_sub, h1]
      split <;> split <;> omega
    refine ⟨ws, by rw [h3]; rfl, (h4 hv0 ⟨fun _ => 0, none, none, 0, 1⟩ ⟨rfl, rfl⟩).2, fun s hs' => ?_⟩
    have := (h4 hv0 s hs').1
    rw [hv, hvi] at this
    have e : (2 : Int) + ((codeCount ((lines text).take d) : Int) - (codeCount ((lines text).take k) + 1) - 1) =
      (codeCount ((lines text).take d) : Int) - codeCount ((lines text).take k) := by omega
    rw [e] at this
    exact this
  · rw [h2] at c2; cases c2
  · rw [h2] at c2; cases c2

/-- **C19** fails for every local label below the branch: over one-word instructions, the branch, if taken, goes to the word in front of the label. -/
theorem C19_below_wrong [Unicode] (rt : Rt) (m : Mipsasm) (text : Str) (is : List Instruction) (warns : List ParserWarning)
    (h : assemble rt m text = .ok is warns) (d k : Nat) (l t mn : Str) (r q : BitVec 5) (likely : Bool) (f : W64 → W64 → Bool)
    (hb : BranchAt (lines text) k mn [r, q] t) (hf : (mn, likely, f) ∈ cmpOps) (hd : Chosen (lines text) k d l)
    (hl : isLocal l = true) (ht : trim t = l) (hlo : codeCount ((lines text).take k) + 1 < codeCount ((lines text).take d))
    (hhi : codeCount ((lines text).take d) ≤ codeCount ((lines text).take k) + 32768)
    (hs : Single is (codeCount ((lines text).take k) + 1) (codeCount ((lines text).take d))) :
    ∃ (ws : List Word), (is[codeCount ((lines text).take k)]?).map Instruction.getBytes = some ws ∧
      ∀ s : Cpu, s.Entry → BranchesIf ws s likely (f (s.get r) (s.get q))
        ((wordIndex is (codeCount ((lines text).take d)) : Int) - wordIndex is (codeCount ((lines text).take k)) - 1) := by
  obtain ⟨ws, w1, w2, w3⟩ := C19_local_exact rt m text is warns h d k l t mn r q likely f hb hf hd hl ht (by omega) (by omega) hhi
  refine ⟨ws, w1, fun s hs' => ?_⟩
  have hx : ∃ x, is[codeCount ((lines text).take k)]? = some x ∧ x.getBytes = ws := by
    cases hx : is[codeCount ((lines text).take k)]? with
    | none => rw [hx] at w1; cases w1
    | some x => rw [hx] at w1; exact ⟨x, rfl, Option.some.inj w1⟩
  obtain ⟨x, hx, rfl⟩ := hx
  have a1 := wordIndex_succ hx
  have a2 := wordIndex_single (Nat.le_of_lt hlo) (by rw [is_length h]; exact codeCount_take_le _ _) hs
  rw [w2] at a1
  have e : ((wordIndex is (codeCount ((lines text).take d)) : Int) - wordIndex is (codeCount ((lines text).take k)) - 1) =
      (codeCount ((lines text).take d) : Int) - codeCount ((lines text).take k) := by omega
  rw [e]
  exact w3 s hs'

/-- Non-vacuity: a file with a compare-and-branch to a label below, all of the conditions of `C19_below_wrong`. -/
def exBelow : Str := c!"a:\nblt $t0,$t1, @@x\nnop\n@@x:\nnop\nb:\nb b"

theorem exBelow_chosen : Chosen (lines exBelow) 1 3 c!"@@x" := by
  have hls : lines exBelow = [c!"a:", c!"blt $t0,$t1, @@x", c!"nop", c!"@@x:", c!"nop", c!"b:", c!"b b"] := by decide +kernel
  rw [hls]
  refine ⟨⟨c!"@@x:", rfl, by decide +kernel⟩, .inr ⟨by decide +kernel, ?_⟩, ?_, ?_⟩
  · intro j raw hj h1 h2
    match j, hj with
    | 0, _ => decide +kernel
  · intro d ⟨raw, h1, h2⟩ _
    match d with
    | 0 | 1 | 2 | 4 | 5 | 6 => cases h1; exact absurd h2 (by decide +kernel)
    | 3 => decide +kernel
    | n + 7 => cases h1
  · intro d hd ⟨raw, h1, h2⟩
    match d, hd with
    | 4, _ | 5, _ | 6, _ => cases h1; exact absurd h2 (by decide +kernel)
    | n + 7, _ => cases h1

example : ∃ is warns, @assemble asciiUnicode (idRt true) Mipsasm.new exBelow = .ok is warns ∧
    (∃ ws, (is[0]?).map Instruction.getBytes = some ws ∧
      ∀ s : Cpu, s.Entry → BranchesIf ws s false (decide ((s.get 8).toInt < (s.get 9).toInt)) ((3 : Int) - 0 - 1)) ∧
    (Reaches is 3 3 c!"b" [] ↔ Single is 3 3 ∧ 3 < 3 + 32768) ∧ Reaches is 3 3 c!"b" [] := by
  obtain ⟨is, warns, h, hf⟩ := insts_ok (o := @assemble asciiUnicode (idRt true) Mipsasm.new exBelow)
    (f := fun is => decide (wordIndex is 0 = 0 ∧ wordIndex is 2 = 3 ∧ (is[1]?).map Instruction.getBytes = some [0#32])) (by decide +kernel)
  obtain ⟨h0, h1, h2⟩ := of_decide_eq_true hf
  have hk : codeCount ((lines exBelow).take 1) = 0 := by decide +kernel
  have hd : codeCount ((lines exBelow).take 3) = 2 := by decide +kernel
  have hk' : codeCount ((lines exBelow).take 6) = 3 := by decide +kernel
  have hd' : codeCount ((lines exBelow).take 5) = 3 := by decide +kernel
  have hsing : Single is 1 2 := by
    intro j x ha hb hx
    have : j = 1 := by omega
    subst this
    rw [hx] at h2
    simp at h2
    simp [h2]
  have hbr : BranchAt (lines exBelow) 6 c!"b" [] c!"b" :=
    ⟨c!"b b", by decide +kernel, by decide +kernel, .r0 c!"b" c!"b" c!"b" (by unfold SameName; decide) (by decide)⟩
  have hex := @C06_exact asciiUnicode (idRt true) Mipsasm.new exBelow is warns h 5 6 c!"b" c!"b" c!"b" [] hbr rfl
    ⟨c!"b:", by decide +kernel, by decide +kernel⟩ (by decide) rfl (by decide +kernel)
  rw [hk', hd'] at hex
  refine ⟨is, warns, h, ?_, hex, hex.2 ⟨fun j x h1 h2 => absurd h1 (by omega), by omega⟩⟩
  have := @C19_below_wrong asciiUnicode (idRt true) Mipsasm.new exBelow is warns h 3 1 c!"@@x" c!" @@x" c!"blt" 8 9 false
    (fun a b => decide (a.toInt < b.toInt))
    ⟨c!"blt $t0,$t1, @@x", by decide +kernel, by decide +kernel,
      .r2 c!"blt" c!"blt" c!"$t0" c!"$t1" c!" @@x" 8 9 (by unfold SameName; decide) (reg_name c!"t0" 8 (by decide) (by unfold SameName; decide))
        (reg_name c!"t1" 9 (by decide) (by unfold SameName; decide)) (by decide)⟩
    (by simp [cmpOps]) exBelow_chosen rfl (by decide +kernel) (by rw [hk, hd]; decide) (by rw [hk, hd]; decide) (by rw [hk, hd]; exact hsing)
  rw [hk, hd, h0, h1] at this
  exact this

/-- Non-vacuity of `C07_label_exact`: `li` of two words in front of the label, so that the jump misses it (see also `C07_wrong`). -/
example : ∃ is warns, @assemble asciiUnicode (idRt true) Mipsasm.new c!"li $t0, 0x12345678\na:\nj a" = .ok is warns ∧
    ¬ JumpsTo is 1 c!"j" 0 (0 + BitVec.ofNat 32 (4 * 2)) := by
  obtain ⟨is, warns, h, hf⟩ := insts_ok (o := @assemble asciiUnicode (idRt true) Mipsasm.new c!"li $t0, 0x12345678\na:\nj a")
    (f := fun is => decide ((getBytes is).length = 3 ∧ wordIndex is 1 = 2 ∧ (is[0]?).map (fun x : Instruction => x.getBytes.length) = some 2)) (by decide +kernel)
  obtain ⟨h0, h1, h2⟩ := of_decide_eq_true hf
  refine ⟨is, warns, h, ?_⟩
  have hd : codeCount ((lines c!"li $t0, 0x12345678\na:\nj a").take 1) = 1 := by decide +kernel
  have hk : codeCount ((lines c!"li $t0, 0x12345678\na:\nj a").take 2) = 1 := by decide +kernel
  have := @C07_label_exact asciiUnicode (idRt true) Mipsasm.new c!"li $t0, 0x12345678\na:\nj a" is warns h 2 1 c!"j" c!"a" c!"a"
    (jumpAt0 (by decide) (by unfold SameName; decide) (by decide) (raw := c!"j a") (by decide +kernel) (by decide +kernel) (by decide +kernel))
    ⟨c!"a:", by decide +kernel, by decide +kernel⟩ rfl (by decide +kernel) (fun e he => by cases he) (by rw [h0]; decide) 0
  rw [hk, hd, h1] at this
  intro hj
  have hs := (this.1 hj).1
  cases hx : is[0]? with
  | none => rw [hx] at h2; cases h2
  | some x =>
    rw [hx] at h2
    have := hs 0 x (Nat.le_refl 0) (by decide) hx
    simp only [Option.map_some, Option.some.injEq] at h2
    omega

end Mips
