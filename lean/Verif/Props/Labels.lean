/- C06: branches to global labels. -/
import Verif.Lemmas.BranchL
import Verif.Props.Errors
import Verif.Lemmas.NumInv

namespace Mips
open Isa Syntax Source Branch

theorem globals_split (ls : List Str) (d : Nat) : ∃ r, globals ls = globals (ls.take d) ++ r := by
  have key : ∀ (ls : List Str) (d n : Nat), ∃ r, globalsFrom n ls = globalsFrom n (ls.take d) ++ r := by
    intro ls
    induction ls with
    | nil => intro d n; exact ⟨[], by simp [globalsFrom]⟩
    | cons r ls ih =>
      intro d n
      cases d with
      | zero => exact ⟨_, rfl⟩
      | succ d =>
        rw [List.take_succ_cons]
        simp only [globalsFrom]
        cases kind r with
        | blank => exact ih d n
        | code => exact ih d (n + 1)
        | label l =>
          obtain ⟨q, hq⟩ := ih d n
          simp only
          split
          · exact ⟨q, hq⟩
          · exact ⟨q, by rw [hq]; rfl⟩
  exact key ls d 0

theorem globals_at {ls : List Str} {d : Nat} {raw l : Str} (h : ls[d]? = some raw) (hk : kind raw = .label l) (hl : isLocal l = false) :
    globals (ls.take (d + 1)) = globals (ls.take d) ++ [(l, codeCount (ls.take d))] := by
  have key : ∀ (ls : List Str) (d n : Nat), ls[d]? = some raw →
      globalsFrom n (ls.take (d + 1)) = globalsFrom n (ls.take d) ++ [(l, n + codeCount (ls.take d))] := by
    intro ls
    induction ls with
    | nil => intro d n h; simp at h
    | cons r ls ih =>
      intro d n h
      cases d with
      | zero =>
        simp at h; subst h
        simp [globalsFrom, hk, hl, codeCount]
      | succ d =>
        have h' : ls[d]? = some raw := by simpa using h
        rw [List.take_succ_cons, List.take_succ_cons]
        simp only [globalsFrom]
        cases hr : kind r with
        | blank => simp only [ih d n h', codeCount, List.filter_cons, isCode, hr]; simp
        | code =>
          simp only [ih d (n + 1) h', codeCount, List.filter_cons, isCode, hr]
          simp; omega
        | label q =>
          simp only [ih d n h', codeCount, List.filter_cons, isCode, hr]
          split <;> simp
  simpa [globals] using key ls d 0 h

theorem lookup_of_nodup {l : List (Str × Nat)} (h : (l.map (·.1)).Nodup) {k : Str} {v : Nat} (hm : (k, v) ∈ l) : l.lookup k = some v := by
  induction l with
  | nil => cases hm
  | cons e l ih =>
    obtain ⟨a, b⟩ := e
    rw [List.lookup_cons]
    simp only [List.map_cons, List.nodup_cons] at h
    rcases List.mem_cons.1 hm with he | he
    · cases he; simp
    · have : (k == a) = false := by
        simp only [beq_eq_false_iff_ne]
        rintro rfl
        exact h.1 (List.mem_map.2 ⟨_, he, rfl⟩)
      rw [this]
      exact ih h.2 he

theorem defines_mem {ls : List Str} {d k : Nat} {l : Str} (h : Defines ls d l) (hl : isLocal l = false) (hk : d < k) :
    (l, codeCount (ls.take d)) ∈ globals (ls.take k) := by
  obtain ⟨raw, h1, h2⟩ := h
  obtain ⟨r, hr⟩ := globals_split (ls.take k) (d + 1)
  rw [List.take_take, Nat.min_eq_left (by omega)] at hr
  rw [hr, globals_at h1 h2 hl]
  simp

theorem mem_globals {ls : List Str} {e : Str × Nat} (h : e ∈ globals ls) : ∃ d, d < ls.length ∧ Defines ls d e.1 := by
  have key : ∀ (ls : List Str) (n : Nat), e ∈ globalsFrom n ls → ∃ d, d < ls.length ∧ Defines ls d e.1 := by
    intro ls
    induction ls with
    | nil => intro n h; cases h
    | cons r ls ih =>
      intro n h
      have sh : ∀ n, e ∈ globalsFrom n ls → ∃ d, d < (r :: ls).length ∧ Defines (r :: ls) d e.1 := by
        intro n h
        obtain ⟨d, h1, raw, h2, h3⟩ := ih n h
        exact ⟨d + 1, by simp; omega, raw, by simpa using h2, h3⟩
      unfold globalsFrom at h
      split at h
      · exact sh _ h
      · exact sh _ h
      · split at h
        · exact sh _ h
        · rcases List.mem_cons.1 h with rfl | h
          · exact ⟨0, by simp, r, rfl, by assumption⟩
          · exact sh _ h
  exact key ls 0 h

/-- C06: in an accepted program, a branch to a global label defined on an earlier line carries the distance to the label
counted in source instructions (modulo 2^16). -/
theorem C06_offset [Unicode] (rt : Rt) (m : Mipsasm) (text : Str) (is : List Instruction) (warns : List ParserWarning)
    (h : assemble rt m text = .ok is warns) (d k : Nat) (l t mn : Str) (regs : List (BitVec 5))
    (hb : BranchAt (lines text) k mn regs t) (hbr : IsBranch mn regs) (hd : Defines (lines text) d l) (hdk : d < k)
    (hl : isLocal l = false) (ht : trim t = l) :
    HasOffset is (codeCount ((lines text).take k)) mn regs
      (BitVec.ofInt 16 ((codeCount ((lines text).take d) : Int) - (codeCount ((lines text).take k) + 1))) := by
  obtain ⟨raw, hk, hc, hb⟩ := hb
  obtain ⟨tr, x, ws, p, a, b, hT, he, hx, hat, ho, hp, ha, hb', hab, hi, hlen⟩ := line_done h hk hc
  obtain ⟨op, hop⟩ := isBranch_op hbr
  have hm := defines_mem hd hl hdk
  have hpar := br_parse x hb (brOps1_mem _ hop) rfl
  rw [parseImm_label x .u32 (by rw [ht]; exact hl) (by
    rw [ht, hat.labels]
    simp only [hasLabel, List.any_eq_true]
    exact ⟨_, hm, by simp⟩), hp, ht] at hpar
  simp only [Res.bind, Res.ok.injEq] at hpar
  subst hpar
  have hlk : (globals (lines text)).lookup l = some (codeCount ((lines text).take d)) :=
    lookup_of_nodup (C11_accepted rt m text is warns h).1 (globals_take_mem hm)
  have hlab : (canonF tr).labels = globals (lines text) := (trace_counts_all hT he).1
  simp only [adjust1, hlab, hlk, opt_bind, Option.bind_some, Option.some.injEq, Prod.mk.injEq, and_true] at ha
  subst ha
  obtain ⟨w, w1, w2⟩ := br_encode hop rt.ovf (relOff (codeCount ((lines text).take d)) (codeCount ((lines text).take k))) []
  rw [w2] at hb'
  refine ⟨w, w1, ?_⟩
  rw [hi]
  simp only [Option.map_some]
  exact congrArg some (Option.some.inj hb').symm

theorem wordIndex_succ {is : List Instruction} {j : Nat} {x : Instruction} (h : is[j]? = some x) :
    wordIndex is (j + 1) = wordIndex is j + x.getBytes.length := by
  unfold wordIndex getBytes
  rw [List.take_succ, h]
  simp

theorem wordIndex_single {is : List Instruction} {a b : Nat} (hab : a ≤ b) (hb : b ≤ is.length) (h : Single is a b) :
    wordIndex is b = wordIndex is a + (b - a) := by
  induction b with
  | zero => have : a = 0 := by omega
            subst this; rfl
  | succ b ih =>
    rcases Nat.lt_or_ge b a with hh | hh
    · have : a = b + 1 := by omega
      subst this; simp
    · have hx : is[b]? = some is[b] := List.getElem?_eq_getElem (by omega)
      rw [wordIndex_succ hx, ih hh (by omega) (fun j x h1 h2 => h j x h1 (by omega)), h b _ hh (by omega) hx]
      omega

theorem hasOffset_len {is : List Instruction} {i : Nat} {mn : Str} {regs : List (BitVec 5)} {o : BitVec 16} (h : HasOffset is i mn regs o) :
    ∃ x, is[i]? = some x ∧ x.getBytes.length = 1 := by
  obtain ⟨w, _, h⟩ := h
  cases hx : is[i]? with
  | none => rw [hx] at h; cases h
  | some x => rw [hx] at h; exact ⟨x, rfl, by simp at h; simp [h]⟩

theorem toInt_ofInt16 {v : Int} (h1 : -32768 ≤ v) (h2 : v < 32768) : (BitVec.ofInt 16 v).toInt = v := by
  rw [BitVec.toInt_ofInt]
  exact Int.bmod_eq_of_le (by omega) (by omega)

/-- From distances in instructions to distances in words. -/
theorem reaches_of {is : List Instruction} {i n : Nat} {mn : Str} {regs : List (BitVec 5)} (hn : n ≤ is.length)
    (h : HasOffset is i mn regs (BitVec.ofInt 16 ((n : Int) - (i + 1)))) (hs : Single is (min n i) (max n i))
    (h1 : -32768 ≤ (n : Int) - (i + 1)) (h2 : (n : Int) - (i + 1) < 32768) : Reaches is i n mn regs := by
  refine ⟨_, h, ?_⟩
  rw [toInt_ofInt16 h1 h2]
  obtain ⟨x, hx, hl⟩ := hasOffset_len h
  have hi : i < is.length := (List.getElem?_eq_some_iff.1 hx).1
  rcases Nat.le_total n i with hh | hh
  · rw [Nat.min_eq_left hh, Nat.max_eq_right hh] at hs
    have := wordIndex_single hh (by omega) hs
    omega
  · rw [Nat.min_eq_right hh, Nat.max_eq_left hh] at hs
    have := wordIndex_single hh hn hs
    omega

theorem codeCount_take_le (ls : List Str) (d : Nat) : codeCount (ls.take d) ≤ codeCount ls := by
  have := codeCount_append (ls.take d) (ls.drop d)
  rw [List.take_append_drop] at this
  omega

theorem codeCount_mono (ls : List Str) {d k : Nat} (h : d ≤ k) : codeCount (ls.take d) ≤ codeCount (ls.take k) := by
  have := codeCount_take_le (ls.take k) d
  rwa [List.take_take, Nat.min_eq_left h] at this

/-- C06 for branches to global labels, restricted to the case that the instructions between the label and the branch are
one word long each and the label is less than 2^15 instructions away: the branch reaches the label.
Missing: the restriction is needed (`C06_wrong`). -/
theorem C06_reaches_partial [Unicode] (rt : Rt) (m : Mipsasm) (text : Str) (is : List Instruction) (warns : List ParserWarning)
    (h : assemble rt m text = .ok is warns) (d k : Nat) (l t mn : Str) (regs : List (BitVec 5))
    (hb : BranchAt (lines text) k mn regs t) (hbr : IsBranch mn regs) (hd : Defines (lines text) d l) (hdk : d < k)
    (hl : isLocal l = false) (ht : trim t = l)
    (hs : Single is (codeCount ((lines text).take d)) (codeCount ((lines text).take k)))
    (hf : codeCount ((lines text).take k) < codeCount ((lines text).take d) + 32768) :
    Reaches is (codeCount ((lines text).take k)) (codeCount ((lines text).take d)) mn regs := by
  have hc := codeCount_mono (lines text) (Nat.le_of_lt hdk)
  have hc2 := codeCount_take_le (lines text) d
  refine reaches_of (by rw [is_length h]; omega) ?_ ?_ (by omega) (by omega)
  · exact C06_offset rt m text is warns h d k l t mn regs hb hbr hd hdk hl ht
  · rw [Nat.min_eq_left hc, Nat.max_eq_right hc]; exact hs

theorem remove0x_mem {c : Char} (h0 : c ≠ '0') (hx : c ≠ 'x') : ∀ s : Str, c ∈ s → c ∈ remove0x s := by
  intro s
  fun_induction remove0x s with
  | case1 s ih => intro h; simp only [List.mem_cons, h0, hx, false_or] at h; exact ih h
  | case2 d s hd ih =>
    intro h
    rcases List.mem_cons.1 h with h | h
    · exact List.mem_cons.2 (.inl h)
    · exact List.mem_cons.2 (.inr (ih h))
  | case3 => intro h; cases h

theorem digitVal_chars {b : Nat} {c : Char} {v : Nat} (hb : b ≤ 16) (h : digitVal b c = some v) : c ∈ c!"0123456789abcdefABCDEFx+-" := by
  have key : ∀ n : Fin 103, (48 ≤ n.val ∧ n.val ≤ 57) ∨ (65 ≤ n.val ∧ n.val ≤ 70) ∨ (97 ≤ n.val ∧ n.val ≤ 102) →
      Char.ofNat n.val ∈ c!"0123456789abcdefABCDEFx+-" := by decide +kernel
  have hr : (48 ≤ c.toNat ∧ c.toNat ≤ 57) ∨ (65 ≤ c.toNat ∧ c.toNat ≤ 70) ∨ (97 ≤ c.toNat ∧ c.toNat ≤ 102) := by
    unfold digitVal at h
    simp only at h
    split at h
    · rename_i d hd
      split at h
      · split at hd
        · omega
        · split at hd
          · cases hd; omega
          · split at hd
            · cases hd; omega
            · cases hd
      · cases h
    · cases h
  have := key ⟨c.toNat, by omega⟩ hr
  rwa [show Char.ofNat c.toNat = c from Char.ofNat_toNat c] at this

theorem parseDigits_chars {b : Nat} (hb : b ≤ 16) : ∀ (s : Str) (a n : Nat), parseDigits b a s = some n →
    ∀ c ∈ s, c ∈ c!"0123456789abcdefABCDEFx+-" := by
  intro s
  induction s with
  | nil => intro _ _ _ c hc; cases hc
  | cons d s ih =>
    intro a n h c hc
    unfold parseDigits at h
    cases hd : digitVal b d with
    | none => rw [hd] at h; cases h
    | some v =>
      rw [hd] at h
      rcases List.mem_cons.1 hc with rfl | hc
      · exact digitVal_chars hb hd
      · exact ih _ _ h c hc

theorem fromStrRadix_chars {ty : IntTy} {b : Nat} (hb : b ≤ 16) {s : Str} {v : Int} (h : fromStrRadix ty b s = some v) :
    ∀ c ∈ s, c ∈ c!"0123456789abcdefABCDEFx+-" := by
  obtain ⟨_, _, d, n, _, hd, h⟩ := fromStrRadix_inv h
  intro c hc
  rcases h with ⟨rfl, _⟩ | ⟨rfl, _⟩ | ⟨rfl, _⟩
  · exact parseDigits_chars hb _ _ _ hd c hc
  · rcases List.mem_cons.1 hc with rfl | hc
    · decide
    · exact parseDigits_chars hb _ _ _ hd c hc
  · rcases List.mem_cons.1 hc with rfl | hc
    · decide
    · exact parseDigits_chars hb _ _ _ hd c hc

/-- A name that is neither a label defined above nor local is not accepted as an operand. -/
theorem parseImm_wordy (x : Ctx) (ty : IntTy) {t : Str} (h : startsWith c!"@@" (trim t) = false) (hl : hasLabel x.labels (trim t) = false)
    (hw : Wordy (trim t)) : ∃ u, parseImm x ty t = .err (.invalidImmediate x.line u) := by
  obtain ⟨hp, c, hc, hn⟩ := hw
  unfold parseImm
  simp only [h, hl]
  have : findImm (trim t) = none := by
    unfold findImm
    rw [Re.find_IMM_none _ hp]; rfl
  rw [this, parseNum_eq]
  have : readNum ty (trim t) = none := by
    unfold readNum
    split
    · cases hr : fromStrRadix ty 16 (remove0x (trim t)) with
      | none => rfl
      | some v =>
        refine absurd (fromStrRadix_chars (by omega) hr c (remove0x_mem ?_ ?_ _ hc)) hn
        · rintro rfl; exact hn (by decide)
        · rintro rfl; exact hn (by decide)
    · cases hr : fromStrRadix ty 10 (trim t) with
      | none => rfl
      | some v => exact absurd (fromStrRadix_chars (by omega) hr c hc) hn
  rw [this]
  exact ⟨_, rfl⟩

/-- C06 (and a limitation of the language): a branch to a global label that is not defined on an earlier line is never
accepted, even if the label is defined later. -/
theorem C06_forward_rejected [Unicode] (rt : Rt) (m : Mipsasm) (text : Str) (k : Nat) (l t mn : Str) (regs : List (BitVec 5))
    (hb : BranchAt (lines text) k mn regs t) (hbr : IsBranch mn regs) (ht : trim t = l) (hl : isLocal l = false) (hw : Wordy l)
    (hnd : ∀ d, d < k → ¬ Defines (lines text) d l) (is : List Instruction) (warns : List ParserWarning) :
    assemble rt m text ≠ .ok is warns := by
  intro h
  obtain ⟨raw, hk, hc, hb⟩ := hb
  obtain ⟨tr, x, ws, p, a, b, hT, he, hx, hat, ho, hp, _⟩ := line_done h hk hc
  obtain ⟨op, hop⟩ := isBranch_op hbr
  have hpar := br_parse x hb (brOps1_mem _ hop) rfl
  obtain ⟨u, hu⟩ := parseImm_wordy x .u32 (t := t) (by rw [ht]; exact hl) (by
    rw [ht, hat.labels]
    rw [Bool.eq_false_iff]
    intro hh
    simp only [hasLabel, List.any_eq_true, beq_iff_eq] at hh
    obtain ⟨e, hm, rfl⟩ := hh
    obtain ⟨d, hd, hdef⟩ := mem_globals hm
    rw [List.length_take] at hd
    refine hnd d (by omega) ?_
    obtain ⟨rw', h1, h2⟩ := hdef
    refine ⟨rw', ?_, h2⟩
    rw [List.getElem?_take] at h1
    split at h1
    · exact h1
    · cases h1) (by rw [ht]; exact hw)
  rw [hu, hp] at hpar
  cases hpar

/-! ### Concrete programs -/

/-- The instructions of an accepted program. -/
def AsmOut.insts : AsmOut → Option (List Instruction)
  | .ok is _ => some is
  | _ => none

theorem insts_ok {o : AsmOut} {f : List Instruction → Bool} (h : (o.insts.map f) = some true) : ∃ is warns, o = .ok is warns ∧ f is = true := by
  cases o with
  | ok is ws => exact ⟨is, ws, rfl, by simpa [AsmOut.insts] using h⟩
  | err _ _ => cases h
  | panic => cases h

theorem brText0 {s mn t : Str} (hm : SameName mn mn) (h : s = mn ++ ' ' :: t) (hc : ',' ∉ t) : BrText s mn [] t := by
  subst h; exact .r0 mn mn t hm hc

/-- C06 fails across an instruction that is two words long: in `a: li $t0, 0x12345678; b a` the branch goes to the second
word of `li`. -/
theorem C06_wrong : ∃ text is warns, @assemble asciiUnicode (idRt true) Mipsasm.new text = .ok is warns ∧
    Defines (lines text) 0 c!"a" ∧ BranchAt (lines text) 2 c!"b" [] c!"a" ∧ ¬ Reaches is 1 0 c!"b" [] := by
  let text := c!"a:\nli $t0, 0x12345678\nb a"
  obtain ⟨is, warns, h, hf⟩ := insts_ok (o := @assemble asciiUnicode (idRt true) Mipsasm.new text)
    (f := fun is => decide (wordIndex is 0 = 0 ∧ wordIndex is 1 = 2 ∧ (is[1]?).map Instruction.getBytes = some [0x1000fffe#32])) (by decide +kernel)
  refine ⟨text, is, warns, h, ⟨c!"a:", by decide +kernel, by decide +kernel⟩,
    ⟨c!"b a", by decide +kernel, by decide +kernel, brText0 (by unfold SameName; decide) (by decide +kernel) (by decide)⟩, ?_⟩
  obtain ⟨h0, h1, h2⟩ := of_decide_eq_true hf
  rintro ⟨o, ⟨w, hw, hi⟩, hr⟩
  rw [h2] at hi
  simp only [Option.some.injEq, List.cons.injEq, and_true] at hi
  subst hi
  have hw' : some (iWord 4 0 0 o) = some 0x1000fffe#32 := hw
  have ho : o = 0xfffe#16 := by
    have := congrArg fImm (Option.some.inj hw')
    rw [fImm_i] at this
    rw [this]; decide
  rw [h0, h1, ho] at hr
  revert hr; decide

/-- Non-vacuity: a backward branch over two instructions to a label, as required by `C06_offset` and `C06_reaches_partial`. -/
example : ∃ is warns, @assemble asciiUnicode (idRt true) Mipsasm.new c!"nop\na:\nnop\nb a\nnop" = .ok is warns ∧
    Single is 1 2 ∧ HasOffset is 2 c!"b" [] (-2) ∧ IsBranch c!"b" [] ∧
    Defines (lines c!"nop\na:\nnop\nb a\nnop") 1 c!"a" ∧ BranchAt (lines c!"nop\na:\nnop\nb a\nnop") 3 c!"b" [] c!"a" := by
  obtain ⟨is, warns, h, hf⟩ := insts_ok (o := @assemble asciiUnicode (idRt true) Mipsasm.new c!"nop\na:\nnop\nb a\nnop")
    (f := fun is => decide ((is[1]?).map Instruction.getBytes = some [0#32] ∧ (is[2]?).map Instruction.getBytes = some [0x1000fffe#32])) (by decide +kernel)
  obtain ⟨h1, h2⟩ := of_decide_eq_true hf
  refine ⟨is, warns, h, ?_, ⟨_, rfl, h2.trans (by decide)⟩, rfl, ⟨c!"a:", by decide +kernel, by decide +kernel⟩,
    ⟨c!"b a", by decide +kernel, by decide +kernel, brText0 (by unfold SameName; decide) (by decide +kernel) (by decide)⟩⟩
  intro j x ha hb hx
  have : j = 1 := by omega
  subst this
  rw [hx] at h1
  simp at h1
  simp [h1]

/-- Non-vacuity of `C06_forward_rejected`, and the error it is rejected with. -/
example : BranchAt (lines c!"b end\nnop\nend:\nnop") 0 c!"b" [] c!"end" ∧ IsBranch c!"b" [] ∧ Wordy c!"end" ∧
    (@assemble asciiUnicode (idRt true) Mipsasm.new c!"b end\nnop\nend:\nnop").errors =
      some [.invalidImmediate ⟨1, c!"b end"⟩ c!"end"] :=
  ⟨⟨c!"b end", by decide +kernel, by decide +kernel, brText0 (by unfold SameName; decide) (by decide +kernel) (by decide)⟩, rfl,
   ⟨by decide, 'n', by decide, by decide⟩, by decide +kernel⟩

end Mips
