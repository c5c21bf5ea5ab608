/- C08: branches to numeric addresses. -/
import Verif.Props.Jumps

namespace Mips
open Isa Syntax Source Branch Listing

/-- C08: in an accepted program, a branch written with the numeric address `v` lies within the program, and its offset is
`(v - (i + 1)) / 4` (rounded towards zero, modulo 2^16), where `i` is the number of instructions in front of it. -/
theorem C08_offset [Unicode] (rt : Rt) (m : Mipsasm) (text : Str) (is : List Instruction) (warns : List ParserWarning)
    (h : assemble rt m text = .ok is warns) (k : Nat) (t mn : Str) (regs : List (BitVec 5))
    (hb : BranchAt (lines text) k mn regs t) (hbr : IsBranch mn regs) (v : Nat) (ht : PNum t v) (hn : NoNumeralLabel (lines text)) :
    m.base.toNat ≤ v ∧ v ≤ (m.base + BitVec.ofNat 32 (4 * codeCount (lines text))).toNat ∧
    HasOffset is (codeCount ((lines text).take k)) mn regs
      (BitVec.ofInt 16 (((v : Int) - ((codeCount ((lines text).take k) : Int) + 1)).tdiv 4)) := by
  obtain ⟨raw, hk, hc, hb⟩ := hb
  obtain ⟨tr, x, ws, p, a, b, hT, he, hx, hat, ho, hp, ha, hb', hab, hi, hlen⟩ := line_done h hk hc
  obtain ⟨op, hop⟩ := isBranch_op hbr
  have hpar := br_parse x hb (brOps1_mem _ hop) rfl
  rw [parseImm_num x .u32 (hat.noNum hn) ht, hp] at hpar
  have hr : IntTy.min .u32 ≤ (v : Int) ∧ (v : Int) ≤ IntTy.max .u32 := by
    by_cases hr : IntTy.min .u32 ≤ (v : Int) ∧ (v : Int) ≤ IntTy.max .u32
    · exact hr
    · rw [if_neg hr] at hpar; cases hpar
  rw [if_pos hr] at hpar
  simp only [Res.bind, Res.ok.injEq, Immediate.new] at hpar
  subst hpar
  have hv : v < 2 ^ 32 := by have := hr.2; simp [IntTy.max] at this; omega
  have hvn : (BitVec.ofInt 32 (v : Int)).toNat = v := by
    rw [BitVec.ofInt_natCast, BitVec.toNat_ofNat, Nat.mod_eq_of_lt hv]
  have hcnt : (canonF tr).insts.length = codeCount (lines text) := (trace_counts_all hT he).2
  obtain ⟨_, _, hbn, _⟩ := brOps_ok _ (brOps1_mem _ hop)
  simp only [adjust1, hbn, hcnt, opt_bind, Bool.not_true, Bool.false_eq_true, if_false, hvn] at ha
  rw [Option.bind_eq_some_iff] at ha
  obtain ⟨n4, h4, ha⟩ := ha
  rw [Option.bind_eq_some_iff] at ha
  obtain ⟨hi', hhi, ha⟩ := ha
  rw [Option.bind_eq_some_iff] at ha
  obtain ⟨errs, herrs, ha⟩ := ha
  simp only [Option.some.injEq, Prod.mk.injEq] at ha
  obtain ⟨ha, he0⟩ := ha
  subst he0
  rw [chkMul_some h4, mul4] at hhi
  have hhi := chkAdd_some hhi
  have hbase : (envOf rt m text).base = m.base := rfl
  rw [hbase] at hhi herrs
  split at herrs
  · simp [Option.bind_eq_some_iff] at herrs
  · rename_i hin
    subst ha
    obtain ⟨w, w1, w2⟩ := br_encode hop rt.ovf (BitVec.ofInt 16 (((v : Int) - ((codeCount ((lines text).take k) : Int) + 1)).tdiv 4)) []
    rw [w2] at hb'
    refine ⟨by omega, by rw [← hhi]; omega, w, w1, ?_⟩
    rw [hi]
    exact congrArg some (Option.some.inj hb').symm

theorem br_off0 : ∀ e ∈ brOps1, e.2.2 = 0 → ∀ o : BitVec 16, (branchWord e.1 [] o).map fImm = some o := by
  simp only [brOps1, brOps, List.take, List.forall_mem_cons]
  repeat' apply And.intro
  all_goals first
    | (intro h; exact absurd h (by decide))
    | (intro _ o; exact congrArg some (fImm_i ..))
    | simp

theorem br_off1 : ∀ e ∈ brOps1, e.2.2 = 1 → ∀ (r : BitVec 5) (o : BitVec 16), (branchWord e.1 [r] o).map fImm = some o := by
  simp only [brOps1, brOps, List.take, List.forall_mem_cons]
  repeat' apply And.intro
  all_goals first
    | (intro h; exact absurd h (by decide))
    | (intro _ r o; exact congrArg some (fImm_i ..))
    | simp

theorem br_off2 : ∀ e ∈ brOps1, e.2.2 = 2 → ∀ (r q : BitVec 5) (o : BitVec 16), (branchWord e.1 [r, q] o).map fImm = some o := by
  simp only [brOps1, brOps, List.take, List.forall_mem_cons]
  repeat' apply And.intro
  all_goals first
    | (intro h; exact absurd h (by decide))
    | (intro _ r q o; exact congrArg some (fImm_i ..))
    | simp

/-- The offset field of a branch word. -/
theorem branchWord_off {mn : Str} {regs : List (BitVec 5)} (hbr : IsBranch mn regs) (o : BitVec 16) : (branchWord mn regs o).map fImm = some o := by
  obtain ⟨op, he⟩ := isBranch_op hbr
  match regs, he with
  | [], he => exact br_off0 _ he rfl o
  | [r], he => exact br_off1 _ he rfl r o
  | [r, q], he => exact br_off2 _ he rfl r q o
  | a :: b :: c :: l, he =>
    exfalso
    have : ∀ e ∈ brOps1, e.2.2 < 3 := by decide
    have := this _ he
    simp at this
    omega

theorem hasOffset_inj {is : List Instruction} {i : Nat} {mn : Str} {regs : List (BitVec 5)} {o o' : BitVec 16} (hbr : IsBranch mn regs)
    (h : HasOffset is i mn regs o) (h' : HasOffset is i mn regs o') : o = o' := by
  obtain ⟨w, w1, w2⟩ := h
  obtain ⟨w', w1', w2'⟩ := h'
  rw [w2] at w2'
  simp only [Option.some.injEq, List.cons.injEq, and_true] at w2'
  subst w2'
  have e1 := branchWord_off hbr o
  have e2 := branchWord_off hbr o'
  rw [w1] at e1
  rw [w1', e1] at e2
  exact Option.some.inj e2

/-- C08, exactly when it holds: let the instructions in front of the branch be one word long each, the base address and the
target multiples of 4, and the target less than 2^15 words away.  Then the branch reaches the address if and only if
`base / 4 + 3 (i + 1) / 4` is a multiple of 2^16, where `i` is the index of the branch; whatever the target. -/
theorem C08_exact [Unicode] (rt : Rt) (m : Mipsasm) (text : Str) (is : List Instruction) (warns : List ParserWarning)
    (h : assemble rt m text = .ok is warns) (k i : Nat) (t mn : Str) (regs : List (BitVec 5))
    (hb : BranchAt (lines text) k mn regs t) (hbr : IsBranch mn regs) (v : Nat) (ht : PNum t v) (hn : NoNumeralLabel (lines text))
    (hi : i = codeCount ((lines text).take k)) (hs : Single is 0 i) (hv4 : v % 4 = 0) (hb4 : m.base.toNat % 4 = 0) (hvi : i < v)
    (hlo : -32768 ≤ ((v / 4 : Nat) : Int) - ((m.base.toNat / 4 : Nat) : Int) - (i + 1))
    (hhi : ((v / 4 : Nat) : Int) - ((m.base.toNat / 4 : Nat) : Int) - (i + 1) < 32768) :
    BranchesTo is i m.base mn regs (BitVec.ofNat 32 v) ↔ (m.base.toNat / 4 + 3 * (i + 1) / 4) % 2 ^ 16 = 0 := by
  obtain ⟨h1, h2, h3⟩ := C08_offset rt m text is warns h k t mn regs hb hbr v ht hn
  rw [← hi] at h3
  have hil : i ≤ is.length := by
    rw [hi, is_length h]; exact codeCount_take_le _ _
  have hw := wordIndex_single (Nat.zero_le _) hil hs
  have h0 : wordIndex is 0 = 0 := by simp [wordIndex, getBytes]
  rw [h0] at hw
  simp only [Nat.zero_add, Nat.sub_zero] at hw
  have hbl := m.base.isLt
  have hd : ((v : Int) - ((i : Int) + 1)).tdiv 4 = ((v - (i + 1)) / 4 : Nat) := by
    rw [show ((v : Int) - ((i : Int) + 1)) = ((v - (i + 1) : Nat) : Int) by omega]
    rfl
  rw [hd] at h3
  have hv32 : v < 2 ^ 32 := Nat.lt_of_le_of_lt h2 (BitVec.isLt _)
  -- the right offset
  have right : ∀ o : BitVec 16, m.base + BitVec.ofNat 32 (4 * (i + 1)) + BitVec.ofInt 32 (4 * o.toInt) = BitVec.ofNat 32 v ↔
      o.toInt = ((v / 4 : Nat) : Int) - ((m.base.toNat / 4 : Nat) : Int) - (i + 1) := by
    intro o
    generalize hB : m.base.toNat = B at *
    have e : m.base = BitVec.ofInt 32 (B : Int) := by rw [← hB, BitVec.ofInt_natCast, BitVec.ofNat_toNat]; simp
    rw [e, ← BitVec.ofInt_natCast, ← BitVec.ofInt_natCast, ← BitVec.ofInt_add, ← BitVec.ofInt_add]
    have ob1 := BitVec.toInt_lt (x := o)
    have ob2 := BitVec.le_toInt (x := o)
    constructor
    · intro hh
      have := congrArg BitVec.toNat hh
      rw [BitVec.toNat_ofInt, BitVec.toNat_ofInt] at this
      omega
    · intro hh
      congr 1
      omega
  have hkey : (v - (i + 1)) / 4 + (i + 1) = v / 4 + 3 * (i + 1) / 4 := by
    obtain ⟨q, rfl⟩ : ∃ q, v = 4 * q := ⟨v / 4, by omega⟩
    obtain ⟨a, r, hr, ha⟩ : ∃ a r, r < 4 ∧ i + 1 = 4 * a + r := ⟨(i + 1) / 4, (i + 1) % 4, by omega, by omega⟩
    rw [ha]
    have : r = 0 ∨ r = 1 ∨ r = 2 ∨ r = 3 := by omega
    rcases this with rfl | rfl | rfl | rfl <;> omega
  generalize (v - (i + 1)) / 4 = D at *
  generalize v / 4 = V at *
  generalize m.base.toNat / 4 = B at *
  generalize 3 * (i + 1) / 4 = E at *
  constructor
  · rintro ⟨o, ho, hr⟩
    have := hasOffset_inj hbr ho h3
    rw [hw] at hr
    have hr := (right o).1 hr
    rw [this, BitVec.toInt_ofInt, Int.bmod_def] at hr
    split at hr <;> omega
  · intro hh
    refine ⟨_, h3, ?_⟩
    rw [hw]
    refine (right _).2 ?_
    rw [BitVec.toInt_ofInt, Int.bmod_def]
    split <;> omega

/-- C08 for the first instruction of a program whose base address is a multiple of 0x40000.
Missing: all other positions and base addresses, for which the property is false (`C08_exact`, `C08_wrong`). -/
theorem C08_first_partial [Unicode] (rt : Rt) (m : Mipsasm) (text : Str) (is : List Instruction) (warns : List ParserWarning)
    (h : assemble rt m text = .ok is warns) (k : Nat) (t mn : Str) (regs : List (BitVec 5))
    (hb : BranchAt (lines text) k mn regs t) (hbr : IsBranch mn regs) (v : Nat) (ht : PNum t v) (hn : NoNumeralLabel (lines text))
    (h0 : codeCount ((lines text).take k) = 0) (hv4 : v % 4 = 0) (hv : 0 < v) (hb4 : m.base.toNat % 0x40000 = 0) (hf : v < m.base.toNat + 0x20000) :
    BranchesTo is 0 m.base mn regs (BitVec.ofNat 32 v) := by
  obtain ⟨h1, _⟩ := C08_offset rt m text is warns h k t mn regs hb hbr v ht hn
  exact (C08_exact rt m text is warns h k 0 t mn regs hb hbr v ht hn h0.symm (fun j _ _ h => absurd h (by omega)) hv4 (by omega) hv
    (by omega) (by omega)).2 (by omega)

/-! ### The bounds -/

theorem num_parsed [Unicode] {rt : Rt} {m : Mipsasm} {text : Str} {tr : List Outcome} (hT : IsTrace (envOf rt m text) (lines text) tr)
    (he : outErrors tr = []) {j : Nat} {p : Nat × Instruction} (hp : (outInsts 0 tr)[j]? = some p) {raw mn t : Str} {regs : List (BitVec 5)}
    (hr : (lines text)[p.1 - 1]? = some raw) (hb : BrText (body raw) mn regs t) (hbr : IsBranch mn regs) {v : Nat} (ht : PNum t v)
    (hn : NoNumeralLabel (lines text)) :
    v < 2 ^ 32 ∧ ∃ op, startsWith c!"b" op.name = true ∧ p.2 = .imm op (brRs regs) (brRt regs) (.int (BitVec.ofInt 32 v)) [] := by
  obtain ⟨k, ws, hk, hpk, _⟩ := outInsts_get hp
  have hpk : p.1 - 1 = k := by omega
  rw [hpk] at hr
  obtain ⟨raw', e1, _, e3⟩ := trace_inst hT hk
  rw [hr] at e1; cases e1
  have hlt : k < (lines text).length := (List.getElem?_eq_some_iff.1 hr).1
  have hat := ctxAt_atLine (isTrace_take hT k) (outErrors_take he k) (Nat.le_of_lt hlt)
  obtain ⟨op, hop⟩ := isBranch_op hbr
  have hpar := br_parse (ctxAt (envOf rt m text) (List.take k tr)) hb (brOps1_mem _ hop) rfl
  rw [parseImm_num _ .u32 (hat.noNum hn) ht, e3] at hpar
  have hr : IntTy.min .u32 ≤ (v : Int) ∧ (v : Int) ≤ IntTy.max .u32 := by
    by_cases hr : IntTy.min .u32 ≤ (v : Int) ∧ (v : Int) ≤ IntTy.max .u32
    · exact hr
    · rw [if_neg hr] at hpar; cases hpar
  rw [if_pos hr] at hpar
  simp only [Res.bind, Res.ok.injEq, Immediate.new] at hpar
  obtain ⟨_, _, hbn, _⟩ := brOps_ok _ (brOps1_mem _ hop)
  refine ⟨?_, op, hbn, hpar⟩
  have := hr.2; simp [IntTy.max] at this; omega

/-- C08, acceptance: if no line has an error of its own, the out-of-bounds error about a branch line with the numeric address `v` (it
quotes the line's text) is reported exactly if `v` is below the base address or above the end of the code; an address
inside, both bounds included, is accepted. -/
theorem C08_bounds_exact [Unicode] (rt : Rt) (m : Mipsasm) (text : Str) (errs : List ParserError)
    (h : (assemble rt m text).errors = some errs) (hl : lineErrors errs = []) (k : Nat) (raw t mn : Str) (regs : List (BitVec 5))
    (hk : (lines text)[k]? = some raw) (hc : kind raw = .code)
    (hb : BrText (body raw) mn regs t) (hbr : IsBranch mn regs) (v : Nat) (ht : PNum t v) (hn : NoNumeralLabel (lines text)) :
    (∃ l lo hi, ParserError.branchOutOfBounds l raw lo hi ∈ errs) ↔
      v < m.base.toNat ∨ (m.base + BitVec.ofNat 32 (4 * codeCount (lines text))).toNat < v := by
  obtain ⟨tr, out, hT, hes, hlen, hadj⟩ := assemble_errors h
  have he : outErrors tr = [] := by
    rw [List.eq_nil_iff_forall_not_mem]
    intro e hm
    obtain ⟨q, ws, hq⟩ := outErrors_get hm
    obtain ⟨_, _, _, href⟩ := trace_err_line (env := envOf rt m text) hT hq
    have : e ∈ lineErrors errs := by
      unfold lineErrors
      rw [List.mem_filter, href]
      exact ⟨by rw [hes]; exact List.mem_append_left _ hm, rfl⟩
    rw [hl] at this; cases this
  rw [he, List.nil_append] at hes
  have hcnt : (canonF tr).insts.length = codeCount (lines text) := (trace_counts_all hT he).2
  have key : ∀ (j : Nat) (p : Nat × Instruction) (q : Instruction × List ParserError), (outInsts 0 tr)[j]? = some p →
      (lines text)[p.1 - 1]? = some raw → adjust1 (envOf rt m text) (canonF tr) j p = some q →
      (q.2 ≠ [] ↔ v < m.base.toNat ∨ (m.base + BitVec.ofNat 32 (4 * codeCount (lines text))).toNat < v) ∧
      ∀ e ∈ q.2, ∃ l lo hi, e = ParserError.branchOutOfBounds l raw lo hi := by
    intro j p q hp hr ha
    obtain ⟨hv, op, hbn, hpp⟩ := num_parsed hT he hp hr hb hbr ht hn
    have hvn : (BitVec.ofInt 32 (v : Int)).toNat = v := by
      rw [BitVec.ofInt_natCast, BitVec.toNat_ofNat, Nat.mod_eq_of_lt hv]
    simp only [adjust1, hpp, hbn, hcnt, opt_bind, Bool.not_true, Bool.false_eq_true, if_false, hvn] at ha
    rw [Option.bind_eq_some_iff] at ha
    obtain ⟨n4, h4, ha⟩ := ha
    rw [Option.bind_eq_some_iff] at ha
    obtain ⟨hi', hhi, ha⟩ := ha
    rw [Option.bind_eq_some_iff] at ha
    obtain ⟨es, herrs, ha⟩ := ha
    simp only [Option.some.injEq] at ha
    subst ha
    rw [chkMul_some h4, mul4] at hhi
    have hhi := chkAdd_some hhi
    have hbase : (envOf rt m text).base = m.base := rfl
    rw [hbase] at hhi herrs
    rw [← hhi]
    have hin : (envOf rt m text).input = lines text := rfl
    split at herrs
    · rename_i hout
      rw [Option.bind_eq_some_iff] at herrs
      obtain ⟨l, _, herrs⟩ := herrs
      rw [hin, hr, Option.bind_some, Option.some.injEq] at herrs
      subst herrs
      refine ⟨iff_of_true (by simp) hout, ?_⟩
      intro e hm
      simp at hm
      exact ⟨_, _, _, hm⟩
    · rename_i hin
      cases herrs
      exact ⟨iff_of_false (by simp) hin, by intro e hm; cases hm⟩
  constructor
  · rintro ⟨l, lo, hi, hm⟩
    rw [hes] at hm
    obtain ⟨_, j, p, q, hp, ha, hq⟩ := ref_isRef hlen hadj _ hm
    have hr : (lines text)[p.1 - 1]? = some raw := by
      obtain ⟨q1, q2⟩ := q
      subst hq
      rcases adjust1_errs ha with h0 | ⟨_, _, h0, _⟩ | ⟨_, _, h0, _⟩ | ⟨_, _, _, h0, h1, _⟩
      · cases h0
      · cases h0
      · cases h0
      · simp only [List.cons.injEq, ParserError.branchOutOfBounds.injEq, and_true] at h0
        rw [h0.2.1]; exact h1
    exact (key j p q hp hr ha).1.1 (by rw [hq]; simp)
  · intro hout
    have hlt : k < (lines text).length := (List.getElem?_eq_some_iff.1 hk).1
    have hlt' : k < tr.length := by rw [hT.1]; exact hlt
    have ho : tr[k]? = some tr[k] := List.getElem?_eq_getElem hlt'
    rcases trace_matches hT he hk ho with ⟨h1, _⟩ | ⟨_, ws, p, h2⟩ | ⟨l, h1, _⟩ | ⟨l, h1, _⟩
    · rw [hc] at h1; cases h1
    · rw [h2] at ho
      have hi := outInsts_at ho
      obtain ⟨q, hq, ha⟩ := hadj _ _ hi
      obtain ⟨k1, k2⟩ := key _ _ q hi (by simpa using hk) ha
      have := k1.2 hout
      cases hq2 : q.2 with
      | nil => exact absurd hq2 this
      | cons e es =>
        obtain ⟨l, lo, hi', rfl⟩ := k2 e (by rw [hq2]; simp)
        refine ⟨l, lo, hi', ?_⟩
        rw [hes, List.mem_flatMap]
        exact ⟨q, List.mem_of_getElem? hq, by rw [hq2]; simp⟩
    · rw [hc] at h1; cases h1
    · rw [hc] at h1; cases h1

/-- Non-vacuity: a branch to the end of the code, and one beyond. -/
example : (@assemble asciiUnicode (idRt true) Mipsasm.new c!"b 8\nnop").errors = some [] ∧
    (@assemble asciiUnicode (idRt true) Mipsasm.new c!"b 9\nnop").errors = some [.branchOutOfBounds ⟨2, c!"nop"⟩ c!"b 9" 0 8] := by
  decide +kernel

/-! ### Concrete programs -/

theorem digits4 : PNum c!"4" ((4 : Nat) : Int) :=
  .mk [] c!"4" [] _ (by intro c h; cases h) (by intro c h; cases h) (.pos _ _ (.dec _ _ (.one _ 4 (by decide))))

theorem not_branchesTo {is : List Instruction} {i : Nat} {base a : Word} {w : Word} {mn : Str} {regs : List (BitVec 5)} (hbr : IsBranch mn regs)
    (hw : (is[i]?).map Instruction.getBytes = some [w])
    (hne : base + BitVec.ofNat 32 (4 * (wordIndex is i + 1)) + BitVec.ofInt 32 (4 * (fImm w).toInt) ≠ a) : ¬ BranchesTo is i base mn regs a := by
  rintro ⟨o, ⟨w', w1, w2⟩, hg⟩
  rw [hw] at w2
  simp only [Option.some.injEq, List.cons.injEq, and_true] at w2
  subst w2
  have e := branchWord_off hbr o
  rw [w1] at e
  exact hne ((Option.some.inj e) ▸ hg)

/-- C08 fails: in `nop; nop; b 4` at base 0 the branch goes to address 12. -/
theorem C08_wrong : ∃ text is warns, @assemble asciiUnicode (idRt true) Mipsasm.new text = .ok is warns ∧
    BranchAt (lines text) 2 c!"b" [] c!"4" ∧ IsBranch c!"b" [] ∧ PNum c!"4" (4 : Nat) ∧ NoNumeralLabel (lines text) ∧
    wordIndex is 2 = 2 ∧ ¬ BranchesTo is 2 0 c!"b" [] 4 ∧ BranchesTo is 2 0 c!"b" [] 12 := by
  let text := c!"nop\nnop\nb 4"
  obtain ⟨is, warns, h, hf⟩ := insts_ok (o := @assemble asciiUnicode (idRt true) Mipsasm.new text)
    (f := fun is => decide (wordIndex is 2 = 2 ∧ (is[2]?).map Instruction.getBytes = some [0x10000000#32])) (by decide +kernel)
  obtain ⟨h0, h1⟩ := of_decide_eq_true hf
  refine ⟨text, is, warns, h,
    ⟨c!"b 4", by decide +kernel, by decide +kernel, brText0 (by unfold SameName; decide) (by decide +kernel) (by decide)⟩, rfl, digits4, ?_, h0, ?_, ?_⟩
  · intro e he
    have : globals (lines text) = [] := by decide +kernel
    rw [this] at he; cases he
  · refine not_branchesTo rfl h1 ?_
    rw [h0]; decide
  · refine ⟨0, ⟨_, rfl, h1.trans (by decide)⟩, ?_⟩
    rw [h0]; decide

/-- Non-vacuity of `C08_offset`, `C08_exact` (with `C08_wrong`) and `C08_first_partial`: a first instruction that does reach its target. -/
example : ∃ is warns, @assemble asciiUnicode (idRt true) Mipsasm.new c!"b 4\nnop" = .ok is warns ∧
    BranchAt (lines c!"b 4\nnop") 0 c!"b" [] c!"4" ∧ IsBranch c!"b" [] ∧ BranchesTo is 0 0 c!"b" [] 4 := by
  obtain ⟨is, warns, h, hf⟩ := insts_ok (o := @assemble asciiUnicode (idRt true) Mipsasm.new c!"b 4\nnop")
    (f := fun is => decide (wordIndex is 0 = 0 ∧ (is[0]?).map Instruction.getBytes = some [0x10000000#32])) (by decide +kernel)
  obtain ⟨h0, h1⟩ := of_decide_eq_true hf
  refine ⟨is, warns, h,
    ⟨c!"b 4", by decide +kernel, by decide +kernel, brText0 (by unfold SameName; decide) (by decide +kernel) (by decide)⟩, rfl, ?_⟩
  refine ⟨0, ⟨_, rfl, h1.trans (by decide)⟩, ?_⟩
  rw [h0]; decide

/-- A program outside whose address range a branch target lies is rejected. -/
example : (@assemble asciiUnicode (idRt true) Mipsasm.new c!"b 12\nnop").errors = some [.branchOutOfBounds ⟨2, c!"nop"⟩ c!"b 12" 0 8] := by
  decide +kernel

end Mips
