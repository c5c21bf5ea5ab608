/-
**C68**, **C69** — warnings: they are about the instruction and the one above it, wherever they stand.
-/
import Verif.Props.ContextP
import Verif.Props.WarningsP

namespace Mips
open Source Syntax Branch Operands Context
open Edit (SameOutline)
open Lang (plan)

section
variable [Unicode] {rt : Rt} {m : Mipsasm} {text : Str}

theorem warned_mem {f : Lang.File} (hu : ∀ k raw, f.ls[k]? = some raw → ∀ w w', Lang.Unaligned f k raw w → Lang.Unaligned f k raw w' → w = w')
    {n : Nat} {ws : List ParserWarning} (h : Lang.Warned f n ws) (w : ParserWarning) : w ∈ ws ↔
      ∃ k < n, ∃ raw, f.ls[k]? = some raw ∧ (Lang.Unaligned f k raw w ∨
        (Lang.InSlot f k raw ∧ ∃ above, f.ls[k - 1]? = some above ∧ w = .invalidInstructionInDelaySlot ⟨k, above⟩ ⟨k + 1, raw⟩)) := by
  induction h with
  | nil => simp
  | line k raw ws as _ hk hl ih =>
    obtain ⟨a, b, rfl, h1, h2⟩ := hl
    rw [List.mem_append, ih, List.mem_append]
    constructor
    · rintro (⟨j, hj, r, g1, g2⟩ | ha | hb)
      · exact ⟨j, by omega, r, g1, g2⟩
      · rcases h1 with ⟨p, q, e1, rfl⟩ | ⟨_, rfl⟩
        · exact ⟨k, by omega, raw, hk, .inr ⟨p, q, e1, List.mem_singleton.1 ha⟩⟩
        · cases ha
      · rcases h2 with ⟨v, p, rfl⟩ | ⟨_, rfl⟩
        · exact ⟨k, by omega, raw, hk, .inl (List.mem_singleton.1 hb ▸ p)⟩
        · cases hb
    · rintro ⟨j, hj, r, g1, g2⟩
      rcases Nat.lt_succ_iff_lt_or_eq.1 hj with hlt | rfl
      · exact .inl ⟨j, hlt, r, g1, g2⟩
      · rw [hk] at g1; cases g1
        rcases g2 with g | ⟨g, q, e1, e2⟩
        · rcases h2 with ⟨v, p, rfl⟩ | ⟨p, rfl⟩
          · exact .inr (.inr (List.mem_singleton.2 (hu _ _ hk _ _ g p)))
          · exact absurd g (p w)
        · rcases h1 with ⟨p, q', e1', rfl⟩ | ⟨p, rfl⟩
          · rw [e1] at e1'; cases e1'
            exact .inr (.inl (List.mem_singleton.2 e2))
          · exact absurd g p

/-- The warnings, one by one. -/
theorem warning_iff {ws : List ParserWarning} (h : (assemble rt m text).warnings = some ws) (w : ParserWarning) : w ∈ ws ↔
    ∃ k raw, (lines text)[k]? = some raw ∧ (Lang.Unaligned ⟨rt.ovf, m.base, m.syms, lines text⟩ k raw w ∨
      (Lang.InSlot ⟨rt.ovf, m.base, m.syms, lines text⟩ k raw ∧
        ∃ above, (lines text)[k - 1]? = some above ∧ w = .invalidInstructionInDelaySlot ⟨k, above⟩ ⟨k + 1, raw⟩)) := by
  have hw := ((C59_warnings rt m text ws).1 h).2
  obtain ⟨tr, hT⟩ : ∃ tr, IsTrace (envOf rt m text) (lines text) tr := by
    cases h' : assemble rt m text with
    | panic => rw [h'] at h; cases h
    | ok a b => obtain ⟨tr, h1, _⟩ := assemble_ok h'; exact ⟨tr, h1⟩
    | err a b => obtain ⟨tr, _, h1, _⟩ := assemble_err h'; exact ⟨tr, h1⟩
  have hu : ∀ (k : Nat) (raw : Str), (lines text)[k]? = some raw → ∀ w w', Lang.Unaligned ⟨rt.ovf, m.base, m.syms, lines text⟩ k raw w →
      Lang.Unaligned ⟨rt.ovf, m.base, m.syms, lines text⟩ k raw w' → w = w' := by
    intro k raw hk
    have hlt : k < tr.length := by rw [hT.1]; exact (List.getElem?_eq_some_iff.1 hk).1
    exact (line_warnings hT hk (List.getElem?_eq_getElem hlt)).2
  rw [warned_mem hu hw]
  constructor
  · rintro ⟨k, _, raw, h1, h2⟩; exact ⟨k, raw, h1, h2⟩
  · rintro ⟨k, raw, h1, h2⟩; exact ⟨k, (List.getElem?_eq_some_iff.1 h1).1, raw, h1, h2⟩

theorem unaligned_on {f : Lang.File} {k : Nat} {raw : Str} {w : ParserWarning} (h : Lang.Unaligned f k raw w) : OnAddress w ∧ OnLine (k + 1) w := by
  obtain ⟨st, t, _, ⟨_, _, v, _, _, rfl⟩ | ⟨_, a, _, _, rfl⟩⟩ := h <;> exact ⟨trivial, rfl⟩

/-- The warning about the address of the instruction on line `k`. -/
theorem address_iff {ws : List ParserWarning} (h : (assemble rt m text).warnings = some ws) {k : Nat} {raw : Str} (hk : (lines text)[k]? = some raw)
    (w : ParserWarning) (ha : OnAddress w) (hl : OnLine (k + 1) w) :
    w ∈ ws ↔ Lang.Unaligned ⟨rt.ovf, m.base, m.syms, lines text⟩ k raw w := by
  rw [warning_iff h]
  constructor
  · rintro ⟨j, r, h1, h2 | ⟨_, q, _, rfl⟩⟩
    · have hj : j = k := by
        have := (unaligned_on h2).2
        cases w with
        | invalidInstructionInDelaySlot => exact ha.elim
        | unalignedBranch l x => simp only [OnLine] at this hl; omega
        | unalignedJump l x => simp only [OnLine] at this hl; omega
      subst hj
      rw [hk] at h1; cases h1
      exact h2
    · exact ha.elim
  · intro h1; exact ⟨k, raw, hk, .inl h1⟩

theorem instr_congr {f g : Lang.File} {k k' : Nat} (ho : f.ovf = g.ovf) (hs : f.syms = g.syms) {raw : Str} (hk : f.ls[k]? = some raw) (hk' : g.ls[k']? = some raw)
    (hr : ∀ st, plan (body raw) = some st → SameRefs f k g k' st) {st : List Lang.Step} (h : Lang.Instr f k st) : Lang.Instr g k' st := by
  obtain ⟨r, h1, h2, h3, h4⟩ := h
  rw [hk] at h1; cases h1
  have hst := hr st h3
  refine ⟨raw, hk', h2, h3, fun s hm => ?_⟩
  have up : ∀ {x}, x ∈ s :: st → x ∈ st := fun hx => by
    rcases List.mem_cons.1 hx with e | e
    · exact e ▸ hm
    · exact e
  refine (Context.reads_congr ho hs (st := st) ?_).1 (h4 s hm)
  intro t ht
  apply hst t
  rcases ht with (⟨r, ht⟩ | ⟨b, s, o, g1, g2, g3⟩) | ⟨r, ht⟩ | ht | ht | ht
  · exact .inl (.inl ⟨r, up ht⟩)
  · exact .inl (.inr ⟨b, s, o, up g1, g2, g3⟩)
  · exact .inr (.inl ⟨r, up ht⟩)
  · exact .inr (.inr (.inl (up ht)))
  · exact .inr (.inr (.inr (.inl (up ht))))
  · exact .inr (.inr (.inr (.inr (up ht))))

theorem unaligned_moved {f g : Lang.File} {k k' : Nat} (ho : f.ovf = g.ovf) (hs : f.syms = g.syms) {raw : Str} (hk : f.ls[k]? = some raw) (hk' : g.ls[k']? = some raw)
    (hr : ∀ st, plan (body raw) = some st → SameRefs f k g k' st) {w : ParserWarning} (h : Lang.Unaligned f k raw w) :
    Lang.Unaligned g k' raw (movedWarning (k' + 1) w) := by
  obtain ⟨st, t, h1, h2⟩ := h
  have hi := instr_congr ho hs hk hk' hr h1
  have hp : plan (body raw) = some st := by
    obtain ⟨r, g1, _, g3, _⟩ := h1
    rw [hk] at g1; cases g1; exact g3
  refine ⟨st, t, hi, ?_⟩
  rcases h2 with ⟨a, b, v, c, d, rfl⟩ | ⟨a, v, c, d, rfl⟩
  · exact .inl ⟨a, fun x => b ((hr st hp t (.inl (.inl ⟨_, a⟩))).2 x), v, (value_congr ho hs).1 c, d, rfl⟩
  · exact .inr ⟨a, v, hs ▸ c, d, rfl⟩

end

/-- **C69**.  If two files are assembled, with or without errors, and an instruction is on line `k` of the one and on line `k'` of the
other and the same of its texts are labels there, then the warnings about its address are the same, apart from the number of the line. -/
theorem C69_warnings [Unicode] (rt rt' : Rt) (m m' : Mipsasm) (text text' : Str) (ws ws' : List ParserWarning)
    (ho : rt.ovf = rt'.ovf) (hs : m.syms = m'.syms) (h : (assemble rt m text).warnings = some ws) (h' : (assemble rt' m' text').warnings = some ws')
    (k k' : Nat) (raw : Str) (hk : (lines text)[k]? = some raw) (hk' : (lines text')[k']? = some raw)
    (hv : ∀ st, plan (body raw) = some st →
      SameRefs ⟨rt.ovf, m.base, m.syms, lines text⟩ k ⟨rt'.ovf, m'.base, m'.syms, lines text'⟩ k' st)
    (w : ParserWarning) (ha : OnAddress w) (hl : OnLine (k + 1) w) : w ∈ ws ↔ movedWarning (k' + 1) w ∈ ws' := by
  have e1 : OnAddress (movedWarning (k' + 1) w) ∧ OnLine (k' + 1) (movedWarning (k' + 1) w) := by
    cases w with
    | invalidInstructionInDelaySlot => exact ha.elim
    | unalignedBranch l x => exact ⟨trivial, rfl⟩
    | unalignedJump l x => exact ⟨trivial, rfl⟩
  rw [address_iff h hk w ha hl, address_iff h' hk' _ e1.1 e1.2]
  constructor
  · exact unaligned_moved ho hs hk hk' hv
  · intro hu
    have := unaligned_moved (g := ⟨rt.ovf, m.base, m.syms, lines text⟩) (k' := k) ho.symm hs.symm hk' hk (fun st e t ht => (hv st e t ht).symm) hu
    have e2 : movedWarning (k + 1) (movedWarning (k' + 1) w) = w := by
      cases w with
      | invalidInstructionInDelaySlot => exact ha.elim
      | unalignedBranch l x => cases l; simp only [OnLine] at hl; subst hl; rfl
      | unalignedJump l x => cases l; simp only [OnLine] at hl; subst hl; rfl
    rwa [e2] at this

section
variable [Unicode]

theorem inSlot_iff {f : Lang.File} {k : Nat} {a b : Str} (hk : f.ls[k]? = some a) (hi : ∃ st, Lang.Instr f k st) :
    Lang.InSlot f (k + 1) b ↔ kind b = .code ∧ mnemonic (body b) ∈ transfers ∧ (∃ st, plan (body b) = some st) ∧
      mnemonic (body a) ∈ transfers ∧ mnemonic (body a) ∉ forgotten := by
  have hL : Lang.LastInstr f (k + 1) k a := ⟨by omega, hk, hi, fun j h1 h2 => absurd h1 (by omega)⟩
  unfold Lang.InSlot
  constructor
  · rintro ⟨h1, h2, h3, d, r, h4, h5, h6⟩
    obtain ⟨rfl, rfl⟩ := lastInstr_unique hL h4
    exact ⟨h1, h2, h3, h5, h6⟩
  · rintro ⟨h1, h2, h3, h5, h6⟩
    exact ⟨h1, h2, h3, k, a, hL, h5, h6⟩

theorem slotWarning_iff {rt : Rt} {m : Mipsasm} {text : Str} {ws : List ParserWarning} (h : (assemble rt m text).warnings = some ws) {k : Nat} {a b : Str}
    (hk : (lines text)[k]? = some a) (hk1 : (lines text)[k + 1]? = some b) (hi : ∃ st, Lang.Instr ⟨rt.ovf, m.base, m.syms, lines text⟩ k st) :
    .invalidInstructionInDelaySlot ⟨k + 1, a⟩ ⟨k + 2, b⟩ ∈ ws ↔ kind b = .code ∧ mnemonic (body b) ∈ transfers ∧
      (∃ st, plan (body b) = some st) ∧ mnemonic (body a) ∈ transfers ∧ mnemonic (body a) ∉ forgotten := by
  rw [← inSlot_iff (f := ⟨rt.ovf, m.base, m.syms, lines text⟩) hk hi, warning_iff h]
  constructor
  · rintro ⟨j, r, h1, h2 | ⟨h2, q, h3, h4⟩⟩
    · exact (unaligned_on h2).1.elim
    · have : j = k + 1 := by
        have := congrArg (fun w => match w with | .invalidInstructionInDelaySlot _ l => l.num | _ => 0) h4
        simp only at this; omega
      subst this
      rw [hk1] at h1; cases h1
      exact h2
  · intro h2
    exact ⟨k + 1, b, hk1, .inr ⟨h2, a, by simpa using hk, rfl⟩⟩

theorem instr_of_words {rt : Rt} {m : Mipsasm} {text : Str} {cs : List Word} (h : (assemble rt m text).words = some cs) {k : Nat} {a : Str}
    (hk : (lines text)[k]? = some a) (hc : kind a = .code) : ∃ st, Lang.Instr ⟨rt.ovf, m.base, m.syms, lines text⟩ k st := by
  have := ((C57_program rt m text cs).1 h).1.1 k a hk
  unfold Lang.LineTaken at this
  rw [hc] at this
  obtain ⟨st, h1, h2⟩ := this
  exact ⟨st, a, hk, hc, h1, h2⟩

end

/-- **C69**.  If an instruction and the line below it are on lines `k` and `k + 1` of one accepted program and on lines `k'` and `k' + 1` of
another, then either both programs or none of them get a warning that the second stands in the delay slot of the first. -/
theorem C69_slot [Unicode] (rt rt' : Rt) (m m' : Mipsasm) (text text' : Str) (cs cs' : List Word) (ws ws' : List ParserWarning)
    (h : (assemble rt m text).words = some cs) (h' : (assemble rt' m' text').words = some cs')
    (hw : (assemble rt m text).warnings = some ws) (hw' : (assemble rt' m' text').warnings = some ws')
    (k k' : Nat) (a b : Str) (hk : (lines text)[k]? = some a) (hk1 : (lines text)[k + 1]? = some b)
    (hk' : (lines text')[k']? = some a) (hk1' : (lines text')[k' + 1]? = some b) (hc : kind a = .code) :
    .invalidInstructionInDelaySlot ⟨k + 1, a⟩ ⟨k + 2, b⟩ ∈ ws ↔ .invalidInstructionInDelaySlot ⟨k' + 1, a⟩ ⟨k' + 2, b⟩ ∈ ws' := by
  rw [slotWarning_iff hw hk hk1 (instr_of_words h hk hc), slotWarning_iff hw' hk' hk1' (instr_of_words h' hk' hc)]

/-- **C68**.  If two files with the same outline are assembled, with or without errors, the warnings about the address of an instruction
that is on the same line in both are the same. -/
theorem C68_warnings [Unicode] (rt : Rt) (m : Mipsasm) (text text' : Str) (ws ws' : List ParserWarning)
    (ho : SameOutline (lines text) (lines text')) (h : (assemble rt m text).warnings = some ws) (h' : (assemble rt m text').warnings = some ws')
    (k : Nat) (raw : Str) (hk : (lines text)[k]? = some raw) (hk' : (lines text')[k]? = some raw)
    (w : ParserWarning) (ha : OnAddress w) (hl : OnLine (k + 1) w) : w ∈ ws ↔ w ∈ ws' := by
  have e2 : movedWarning (k + 1) w = w := by
    cases w with
    | invalidInstructionInDelaySlot => exact ha.elim
    | unalignedBranch l x => cases l; simp only [OnLine] at hl; subst hl; rfl
    | unalignedJump l x => cases l; simp only [OnLine] at hl; subst hl; rfl
  have := C69_warnings rt rt m m text text' ws ws' rfl rfl h h' k k raw hk hk' (fun st _ t _ => (alike_of ho).refers) w ha hl
  rwa [e2] at this

/-! ### The hypotheses are satisfiable -/

def exOdd : Str := c!"main:\nnop\nj 0x1002\nb main\nnop"
def exOdd' : Str := c!"sll $a0, $a0, 2\n\nmain:\nor $v0, $v0, $a0\nj 0x1002\nb main\nnop"

/-- The hypotheses of `C69_warnings` and `C69_slot` are met, and the warnings are there: a jump to an odd address, and a branch behind it. -/
example : letI := asciiUnicode
    (assemble (idRt true) Mipsasm.new exOdd).words.isSome ∧ (assemble (idRt true) Mipsasm.new exOdd').words.isSome ∧
    (assemble (idRt true) Mipsasm.new exOdd).warnings =
      some [.unalignedJump ⟨3, c!"j 0x1002"⟩ c!"0x1002", .invalidInstructionInDelaySlot ⟨3, c!"j 0x1002"⟩ ⟨4, c!"b main"⟩] ∧
    (assemble (idRt true) Mipsasm.new exOdd').warnings =
      some [.unalignedJump ⟨5, c!"j 0x1002"⟩ c!"0x1002", .invalidInstructionInDelaySlot ⟨5, c!"j 0x1002"⟩ ⟨6, c!"b main"⟩] ∧
    movedWarning 5 (.unalignedJump ⟨3, c!"j 0x1002"⟩ c!"0x1002") = .unalignedJump ⟨5, c!"j 0x1002"⟩ c!"0x1002" ∧
    (lines exOdd)[2]? = some c!"j 0x1002" ∧ (lines exOdd')[4]? = some c!"j 0x1002" ∧ kind c!"j 0x1002" = .code ∧
    ∀ st, plan (body c!"j 0x1002") = some st → SameRefs ⟨true, 0#32, [], lines exOdd⟩ 2 ⟨true, 0#32, [], lines exOdd'⟩ 4 st := by
  letI := asciiUnicode
  refine ⟨by decide +kernel, by decide +kernel, by decide +kernel, by decide +kernel, rfl, by decide +kernel, by decide +kernel,
    by decide +kernel, fun st hst t ht => ?_⟩
  have e : plan (body c!"j 0x1002") = some [.target c!"0x1002", .name c!"j"] := by decide +kernel
  rw [e] at hst; cases hst
  rcases ht with (⟨r, ht⟩ | ⟨b, s, o, ht, _⟩) | ⟨r, ht⟩ | ht | ht | ht <;> simp at ht

/-- The hypotheses of `C68_warnings` are met: the instruction in front of the jump is another one, the warning is the same. -/
example : letI := asciiUnicode
    SameOutline (lines exOdd) (lines c!"main:\nli $a0, 0x12345678\nj 0x1002\nadd $a0, $a0, r99\nnop") ∧
    (assemble (idRt true) Mipsasm.new c!"main:\nli $a0, 0x12345678\nj 0x1002\nadd $a0, $a0, r99\nnop").warnings =
      some [.unalignedJump ⟨3, c!"j 0x1002"⟩ c!"0x1002"] := by
  letI := asciiUnicode
  exact ⟨by unfold SameOutline; decide +kernel, by decide +kernel⟩

end Mips
