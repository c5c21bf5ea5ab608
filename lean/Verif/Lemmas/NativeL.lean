/- Parsing of one native instruction line, and its encoding. -/
import Verif.Lemmas.Enc
import Verif.Lemmas.OperandL

namespace Mips
open Isa Syntax

/-- A mnemonic in canonical (lower-case) form. -/
def mnOk (mn : Str) : Bool :=
  !mn.isEmpty && mn.all (fun c => isAscii c && !isWs c && c != ':' && c != ';' && c != '/') && mn.map asciiLower == mn

/-- `mn'` is the mnemonic `mn` up to letter case. -/
structure Mn (mn' mn : Str) : Prop where
  same : SameName mn' mn
  ok : mnOk mn = true

theorem mn_all {mn : Str} (h : mnOk mn = true) :
    mn ≠ [] ∧ (∀ c ∈ mn, isAscii c = true ∧ isWs c = false ∧ c ≠ ':' ∧ c ≠ ';' ∧ c ≠ '/') ∧ mn.map asciiLower = mn := by
  simp only [mnOk, Bool.and_eq_true, Bool.not_eq_true', List.all_eq_true, List.isEmpty_eq_false_iff, beq_iff_eq,
    bne_iff_ne] at h
  exact ⟨h.1.1, fun c hc => by have := h.1.2 c hc; simp_all, h.2⟩

theorem Mn.lower [Unicode] {mn' mn : Str} (h : Mn mn' mn) : Unicode.lower mn' = mn := by
  rw [Unicode.lower_ascii mn' (sameName_ascii h.same fun c hc => ((mn_all h.ok).2.1 c hc).1)]
  exact h.same

theorem mn_tight {mn : Str} (h : mnOk mn = true) : Tight mn := by
  obtain ⟨h0, h1, _⟩ := mn_all h
  exact ⟨h0, fun c hc => (h1 c (List.mem_of_head? hc)).2.1, fun c hc => (h1 c (List.mem_of_getLast? hc)).2.1⟩

theorem Mn.key [Unicode] {mn' mn : Str} (h : Mn mn' mn) : trim (Unicode.lower mn') = mn := by
  rw [h.lower, trim_tight _ (mn_tight h.ok)]

theorem asciiLower_ws (c : Char) (h : isWs (asciiLower c) = false) : isWs c = false := by
  unfold asciiLower at h
  split at h
  · rename_i hr
    rw [← Bool.not_eq_true]
    intro hw
    simp only [isWs, Bool.or_eq_true, Bool.and_eq_true, decide_eq_true_eq, beq_iff_eq, UInt32.le_iff_toNat_le,
      UInt32.toNat_inj.symm] at hw hr
    simp at hw hr
    omega
  · exact h

theorem Mn.noWs {mn' mn : Str} (h : Mn mn' mn) : ∀ c ∈ mn', isWs c = false := by
  intro c hc
  apply asciiLower_ws
  have : asciiLower c ∈ mn := by rw [← h.same]; exact List.mem_map_of_mem hc
  exact ((mn_all h.ok).2.1 _ this).2.1

theorem Mn.noSpace {mn' mn : Str} (h : Mn mn' mn) : ' ' ∉ mn' := by
  intro hh; have := h.noWs _ hh; revert this; decide

theorem Mn.ne_nil {mn' mn : Str} (h : Mn mn' mn) : mn' ≠ [] := by
  rintro rfl; exact (mn_all h.ok).1 (by have := h.same; simpa [SameName] using this.symm)

theorem fromStr_lowerI {mn' mn : Str} (h : SameName mn' mn) (h2 : mn.map asciiLower = mn) :
    ITypeOp.fromStr mn' = ITypeOp.fromStr mn := by
  unfold SameName at h; simp only [ITypeOp.fromStr, eqIgnoreCase, h, h2]
theorem fromStr_lowerR {mn' mn : Str} (h : SameName mn' mn) (h2 : mn.map asciiLower = mn) :
    RTypeOp.fromStr mn' = RTypeOp.fromStr mn := by
  unfold SameName at h; simp only [RTypeOp.fromStr, eqIgnoreCase, h, h2]
theorem fromStr_lowerJ {mn' mn : Str} (h : SameName mn' mn) (h2 : mn.map asciiLower = mn) :
    JTypeOp.fromStr mn' = JTypeOp.fromStr mn := by
  unfold SameName at h; simp only [JTypeOp.fromStr, eqIgnoreCase, h, h2]

theorem Mn.opI {mn' mn : Str} (h : Mn mn' mn) {o : ITypeOp} (ho : ITypeOp.fromStr mn = some o) :
    opI mn' = ⟨[], .ok o⟩ := by
  rw [Mips.opI, fromStr_lowerI h.same (mn_all h.ok).2.2, ho]; rfl
theorem Mn.opR {mn' mn : Str} (h : Mn mn' mn) {o : RTypeOp} (ho : RTypeOp.fromStr mn = some o) :
    opR mn' = ⟨[], .ok o⟩ := by
  rw [Mips.opR, fromStr_lowerR h.same (mn_all h.ok).2.2, ho]; rfl
theorem Mn.opJ {mn' mn : Str} (h : Mn mn' mn) {o : JTypeOp} (ho : JTypeOp.fromStr mn = some o) :
    opJ mn' = ⟨[], .ok o⟩ := by
  rw [Mips.opJ, fromStr_lowerJ h.same (mn_all h.ok).2.2, ho]; rfl

/-- The line `mn text` reaches the arm of `mn`. -/
theorem parseInst_args [Unicode] (x : Ctx) {mn' mn : Str} (h : Mn mn' mn) (text : Str) :
    parseInst x (mn' ++ ' ' :: text) = parseArm x (classify mn) mn' text := by
  unfold parseInst
  rw [splitOnce_some _ _ _ h.noSpace]
  simp [h.key]

theorem parseInst_bare [Unicode] (x : Ctx) {mn' mn : Str} (h : Mn mn' mn) :
    parseInst x mn' = parseArm x (classify mn) mn' [] := by
  unfold parseInst
  rw [splitOnce_none _ _ h.noSpace]
  simp [h.key, h.ne_nil]

/-! ### operand lists -/

theorem spells_noComma {s : Str} {a : Arg} (h : Spells s a) : ',' ∉ s := by
  intro hh
  cases h with
  | gpr _ r hr => exact (reg_chars gprCore_alnum hr _ hh).2.2.1 rfl
  | fpr _ r hr => exact (reg_chars fprCore_alnum hr _ hh).2.2.1 rfl
  | c0 _ r hr => exact (reg_chars c0Core_alnum hr _ hh).2.2.1 rfl
  | sa _ v hv => exact ((pnum_chars hv).2 _ hh).2.2.1 rfl
  | simm _ v hv => exact ((pnum_chars hv).2 _ hh).2.2.1 rfl
  | uimm _ v hv => exact ((pnum_chars hv).2 _ hh).2.2.1 rfl
  | cop _ v hv => exact ((pnum_chars hv).2 _ hh).2.2.1 rfl
  | code _ v hv _ => exact ((pnum_chars hv).2 _ hh).2.2.1 rfl
  | mem s b q v r hs hb hq =>
    simp only [List.mem_append, List.mem_cons] at hh
    rcases hh with (hh | h | hh) | h | hh
    · exact ((pnum_chars hs).2 _ hh).2.2.1 rfl
    · simp at h
    · exact (reg_chars gprCore_alnum hb _ hh).2.2.1 rfl
    · simp at h
    · exact (blank_chars hq _ hh).2.2.1 rfl
  | mem0 b q r hb hq =>
    simp only [List.mem_append, List.mem_cons] at hh
    rcases hh with (h | hh) | h | hh
    · simp at h
    · exact (reg_chars gprCore_alnum hb _ hh).2.2.1 rfl
    · simp at h
    · exact (blank_chars hq _ hh).2.2.1 rfl

/-- The comma-separated pieces spell the operands one by one. -/
inductive SpellsL : List Str → List Arg → Prop
  | nil : SpellsL [] []
  | cons {s a ss as} : Spells s a → SpellsL ss as → SpellsL (s :: ss) (a :: as)

theorem spellsAll_split {t : Str} {as : List Arg} (h : SpellsAll t as) : SpellsL (split ',' t) as := by
  induction h with
  | one s a h => rw [split_noComma _ _ (spells_noComma h)]; exact .cons h .nil
  | cons s a t as h _ ih => rw [split_cons _ _ _ (spells_noComma h)]; exact .cons h ih

theorem spellsL1 {ss : List Str} {a : Arg} (h : SpellsL ss [a]) : ∃ s, ss = [s] ∧ Spells s a := by
  cases h with | cons h1 h2 => cases h2; exact ⟨_, rfl, h1⟩
theorem spellsL2 {ss : List Str} {a b : Arg} (h : SpellsL ss [a, b]) :
    ∃ s t, ss = [s, t] ∧ Spells s a ∧ Spells t b := by
  cases h with | cons h1 h2 => obtain ⟨t, rfl, h3⟩ := spellsL1 h2; exact ⟨_, t, rfl, h1, h3⟩
theorem spellsL3 {ss : List Str} {a b c : Arg} (h : SpellsL ss [a, b, c]) :
    ∃ s t u, ss = [s, t, u] ∧ Spells s a ∧ Spells t b ∧ Spells u c := by
  cases h with | cons h1 h2 => obtain ⟨t, u, rfl, h3⟩ := spellsL2 h2; exact ⟨_, t, u, rfl, h1, h3⟩

theorem Syntax.Spells.gpr' {s : Str} {r : BitVec 5} (h : Spells s (.gpr r)) : Reg GprCore s r := by cases h; assumption
theorem Syntax.Spells.fpr' {s : Str} {r : BitVec 5} (h : Spells s (.fpr r)) : Reg FprCore s r := by cases h; assumption
theorem Syntax.Spells.c0' {s : Str} {r : BitVec 5} (h : Spells s (.c0 r)) : Reg C0Core s r := by cases h; assumption
theorem Syntax.Spells.sa' {s : Str} {v : BitVec 5} (h : Spells s (.sa v)) : PNum s v.toNat := by cases h; assumption
theorem Syntax.Spells.simm' {s : Str} {v : BitVec 16} (h : Spells s (.simm v)) : PNum s v.toInt := by cases h; assumption
theorem Syntax.Spells.uimm' {s : Str} {v : BitVec 16} (h : Spells s (.uimm v)) : PNum s v.toNat := by cases h; assumption
theorem Syntax.Spells.cop' {s : Str} {v : BitVec 5} (h : Spells s (.cop v)) : PNum s v.toNat := by cases h; assumption
theorem Syntax.Spells.code' {s : Str} {v : BitVec 20} (h : Spells s (.code v)) : PNum s v.toNat ∧ v.toNat < 0x10000 := by
  cases h; constructor <;> assumption

/-- What the memory-operand arms see of `offset(base)`. -/
theorem spells_mem {s : Str} {v : BitVec 16} {b : BitVec 5}
    (h : Spells s (.mem v b)) :
    ∃ bt, baseText s = some bt ∧ Reg GprCore bt b ∧
      ((findOffset s = none ∧ v = 0#16) ∨
       ∃ o, findOffset s = some (o ++ ['(']) ∧ removeOpenParen (o ++ ['(']) = o ∧ PNum o v.toInt) := by
  cases h with
  | mem o b q v r hs hb hq =>
    have hc := pnum_chars hs
    have hb' := reg_chars gprCore_alnum hb
    have hq' := blank_chars hq
    refine ⟨_, baseText_mem o b q (fun c h => (hc.2 c h).1) (fun c h => ⟨(hb' c h).1, (hb' c h).2.1, (hb' c h).2.2.2⟩)
      (fun c h => (hq' c h).1), reg_trim gprCore_alnum hb, Or.inr ⟨o, ?_, ?_, hs⟩⟩
    · rw [findOffset_mem o b q (fun c h => (hc.2 c h).2.2.2) (fun c h => (hb' c h).1) (fun c h => (hq' c h).1),
        if_neg hc.1]
    · simp only [removeOpenParen, List.filter_append]
      simp
      intro c hcc
      exact (hc.2 c hcc).1
  | mem0 b q r hb hq =>
    have hb' := reg_chars gprCore_alnum hb
    have hq' := blank_chars hq
    have e1 := baseText_mem [] b q (by simp) (fun c h => ⟨(hb' c h).1, (hb' c h).2.1, (hb' c h).2.2.2⟩) (fun c h => (hq' c h).1)
    have e2 := findOffset_mem [] b q (by simp) (fun c h => (hb' c h).1) (fun c h => (hq' c h).1)
    refine ⟨trim b, by simpa using e1, reg_trim gprCore_alnum hb, Or.inl ⟨by simpa using e2, rfl⟩⟩


theorem map_fixed {α} {f : α → α} {l : List α} (h : l.map f = l) : ∀ a ∈ l, f a = a := by
  induction l with
  | nil => simp
  | cons b l ih => simp at h; intro a ha; simp at ha; rcases ha with rfl | ha; exact h.1; exact ih (by simpa using h.2) a ha

/-! ### The arms of `parse_inst` -/
section arms
variable [Unicode] (x : Ctx) {mn' mn text a b c : Str}

theorem arm_reg3 (h : Mn mn' mn) {o : RTypeOp} (ho : RTypeOp.fromStr mn = some o) (hs : split ',' text = [a, b, c])
    {rd rs rt : BitVec 5} (h1 : Reg GprCore a rd) (h2 : Reg GprCore b rs) (h3 : Reg GprCore c rt) :
    parseArm x .reg3 mn' text = ⟨[], .ok (.reg o rs.toFin rt.toFin rd.toFin 0#32 [])⟩ := by
  simp [parseArm, hs, mkR, parseReg_ok x h1, parseReg_ok x h2, parseReg_ok x h3, h.opR ho]

theorem arm_shiftv (h : Mn mn' mn) {o : RTypeOp} (ho : RTypeOp.fromStr mn = some o) (hs : split ',' text = [a, b, c])
    {rd rs rt : BitVec 5} (h1 : Reg GprCore a rd) (h2 : Reg GprCore b rt) (h3 : Reg GprCore c rs) :
    parseArm x .shiftv mn' text = ⟨[], .ok (.reg o rs.toFin rt.toFin rd.toFin 0#32 [])⟩ := by
  simp [parseArm, hs, mkR, parseReg_ok x h1, parseReg_ok x h2, parseReg_ok x h3, h.opR ho]

theorem arm_shift (h : Mn mn' mn) {o : RTypeOp} (ho : RTypeOp.fromStr mn = some o) (hs : split ',' text = [a, b, c])
    {rd rt : BitVec 5} {n : Nat} (h1 : Reg GprCore a rd) (h2 : Reg GprCore b rt) (hn : n < 2 ^ 31) (h3 : PNum c n) :
    parseArm x .shift mn' text = ⟨[], .ok (.reg o Register.null rt.toFin rd.toFin (BitVec.ofNat 32 n) [])⟩ := by
  simp [parseArm, hs, parseReg_ok x h1, parseReg_ok x h2, h.opR ho, parseShift_num hn h3]

theorem arm_reg2 (h : Mn mn' mn) {o : RTypeOp} (ho : RTypeOp.fromStr mn = some o) (hs : split ',' text = [a, b])
    {rs rt : BitVec 5} (h1 : Reg GprCore a rs) (h2 : Reg GprCore b rt) :
    parseArm x .reg2 mn' text = ⟨[], .ok (.reg o rs.toFin rt.toFin Register.null 0#32 [])⟩ := by
  simp [parseArm, hs, mkR, parseReg_ok x h1, parseReg_ok x h2, h.opR ho]

theorem arm_div2 (h : Mn mn' mn) {o : RTypeOp} (ho : RTypeOp.fromStr mn = some o) (hs : split ',' text = [a, b])
    {rs rt : BitVec 5} (h1 : Reg GprCore a rs) (h2 : Reg GprCore b rt) :
    parseArm x .div mn' text = ⟨[], .ok (.reg o rt.toFin Register.null rs.toFin 0#32 [])⟩ := by
  simp [parseArm, hs, mkR, parseReg_ok x h1, parseReg_ok x h2, h.opR ho]

theorem arm_div3 (h : Mn mn' mn) {o : RTypeOp} (ho : RTypeOp.fromStr mn = some o) (hs : split ',' text = [a, b, c])
    {rd rs rt : BitVec 5} (h1 : Reg GprCore a rd) (h2 : Reg GprCore b rs) (h3 : Reg GprCore c rt) :
    parseArm x .div mn' text = ⟨[], .ok (.reg o rs.toFin rt.toFin rd.toFin 0#32 [])⟩ := by
  simp [parseArm, hs, mkR, parseReg_ok x h1, parseReg_ok x h2, parseReg_ok x h3, h.opR ho]

theorem arm_pseudo2 (h : Mn mn' mn) {o : RTypeOp} (ho : RTypeOp.fromStr mn = some o) (hs : split ',' text = [a, b])
    {rd rs : BitVec 5} (h1 : Reg GprCore a rd) (h2 : Reg GprCore b rs) :
    parseArm x .pseudo2 mn' text = ⟨[], .ok (.reg o rs.toFin Register.null rd.toFin 0#32 [])⟩ := by
  simp [parseArm, hs, mkR, parseReg_ok x h1, parseReg_ok x h2, h.opR ho]

theorem arm_rd1 (h : Mn mn' mn) {o : RTypeOp} (ho : RTypeOp.fromStr mn = some o) (hs : split ',' text = [a])
    {rd : BitVec 5} (h1 : Reg GprCore a rd) :
    parseArm x .rd1 mn' text = ⟨[], .ok (.reg o Register.null Register.null rd.toFin 0#32 [])⟩ := by
  simp [parseArm, hs, mkR, parseReg_ok x h1, h.opR ho]

theorem arm_rs1 (h : Mn mn' mn) {o : RTypeOp} (ho : RTypeOp.fromStr mn = some o) (hs : split ',' text = [a])
    {rs : BitVec 5} (h1 : Reg GprCore a rs) :
    parseArm x .rs1 mn' text = ⟨(if mn = c!"jr" then (delayCheck x).warns else []),
      .ok (.reg o rs.toFin Register.null Register.null 0#32 [])⟩ := by
  simp only [parseArm, hs, mkR, parseReg_ok x h1, h.opR ho, h.key]
  split <;> rename_i hc
  · unfold delayCheck; split <;> simp [W.warn]
  · simp

theorem arm_jalr1 (h : Mn mn' mn) {o : RTypeOp} (ho : RTypeOp.fromStr mn = some o) (hs : split ',' text = [a])
    {rs : BitVec 5} (h1 : Reg GprCore a rs) :
    parseArm x .jalr mn' text = ⟨(delayCheck x).warns, .ok (.reg o rs.toFin Register.null Register.ra 0#32 [])⟩ := by
  simp only [parseArm, hs, mkR, parseReg_ok x h1, h.opR ho]
  unfold delayCheck; split <;> simp [W.warn]

theorem arm_jalr2 (h : Mn mn' mn) {o : RTypeOp} (ho : RTypeOp.fromStr mn = some o) (hs : split ',' text = [a, b])
    {rd rs : BitVec 5} (h1 : Reg GprCore a rd) (h2 : Reg GprCore b rs) :
    parseArm x .jalr mn' text = ⟨(delayCheck x).warns, .ok (.reg o rs.toFin Register.null rd.toFin 0#32 [])⟩ := by
  simp only [parseArm, hs, mkR, parseReg_ok x h1, parseReg_ok x h2, h.opR ho]
  unfold delayCheck; split <;> simp [W.warn]

theorem arm_bare (h : Mn mn' mn) {o : RTypeOp} (ho : RTypeOp.fromStr mn = some o) :
    parseArm x .bare mn' text = ⟨[], .ok (.reg o Register.null Register.null Register.null 0#32 [])⟩ := by
  simp [parseArm, mkR, h.opR ho]

theorem arm_tlb (h : Mn mn' mn) {o : RTypeOp} (ho : RTypeOp.fromStr mn = some o) :
    parseArm x .tlb mn' text = ⟨[], .ok (.reg o Register.null Register.null Register.null 0#32 [])⟩ := by
  simp [parseArm, mkR, h.opR ho]

theorem arm_code (h : Mn mn' mn) {o : RTypeOp} (ho : RTypeOp.fromStr mn = some o) (hs : split ',' text = [a])
    (hl : NoNumLabel x.labels) {v : BitVec 16} (h1 : PNum a v.toNat) :
    parseArm x .code mn' text = ⟨[], .ok (.reg o Register.null Register.null Register.null (v.setWidth 32) [])⟩ := by
  have h0 := (pnum_chars h1).1
  have h2 : PNum (trim a) v.toNat := by
    cases h1 with
    | mk p s q v hp hq hn =>
      rw [trim_blank_tight p s q (blank_ws hp) (blank_ws hq) (num_tight hn)]
      simpa using PNum.mk [] s [] _ (by simp [Blank]) (by simp [Blank]) hn
  simp [parseArm, hs, h0, parseImm_u16 x hl h2, h.opR ho, Immediate.asU32]

theorem arm_code0 (h : Mn mn' mn) {o : RTypeOp} (ho : RTypeOp.fromStr mn = some o) :
    parseArm x .code mn' [] = ⟨[], .ok (.reg o Register.null Register.null Register.null 0#32 [])⟩ := by
  simp [parseArm, split, h.opR ho, Immediate.asU32]

theorem arm_cop0 (h : Mn mn' mn) {o : RTypeOp} (ho : RTypeOp.fromStr mn = some o) (hs : split ',' text = [a, b])
    {rt rd : BitVec 5} (h1 : Reg GprCore a rt) (h2 : Reg C0Core b rd) :
    parseArm x .cop0 mn' text = ⟨[], .ok (.reg o Register.null rt.toFin rd.toFin 0#32 [])⟩ := by
  simp [parseArm, hs, mkR, parseReg_ok x h1, parseCReg_ok x h2, h.opR ho]

theorem arm_cop1 (h : Mn mn' mn) {o : RTypeOp} (ho : RTypeOp.fromStr mn = some o) (hs : split ',' text = [a, b])
    {rt rd : BitVec 5} (h1 : Reg GprCore a rt) (h2 : Reg FprCore b rd) :
    parseArm x .cop1 mn' text = ⟨[], .ok (.reg o Register.null rt.toFin rd.toFin 0#32 [])⟩ := by
  simp [parseArm, hs, mkR, parseReg_ok x h1, parseFReg_ok x h2, h.opR ho]

/-! immediate arms -/

theorem arm_arith_s (h : Mn mn' mn) {o : ITypeOp} (ho : ITypeOp.fromStr mn = some o) (hs : split ',' text = [a, b, c])
    (hu : mn ≠ c!"andi" ∧ mn ≠ c!"ori" ∧ mn ≠ c!"xori")
    {rt rs : BitVec 5} (h1 : Reg GprCore a rt) (h2 : Reg GprCore b rs) {i : Immediate} (h3 : parseImm x .i16 c = .ok i) :
    parseArm x .arith mn' text = ⟨[], .ok (.imm o rs.toFin rt.toFin i [])⟩ := by
  have e : ¬ (mn' = c!"andi" ∨ mn' = c!"ori" ∨ mn' = c!"xori") := by
    intro hh
    have hsame := h.same
    unfold SameName at hsame
    rcases hh with rfl | rfl | rfl
    · exact hu.1 hsame.symm
    · exact hu.2.1 hsame.symm
    · exact hu.2.2 hsame.symm
  simp only [parseArm, hs, parseReg_ok x h1, parseReg_ok x h2, if_neg e, mkI, h.opI ho, h3, W.bind_nil_ok, W.lift_ok, W.pure_def]

theorem arm_arith_u (h : Mn mn' mn) {o : ITypeOp} (ho : ITypeOp.fromStr mn = some o) (hs : split ',' text = [a, b, c])
    (hu : mn' = c!"andi" ∨ mn' = c!"ori" ∨ mn' = c!"xori")
    {rt rs : BitVec 5} (h1 : Reg GprCore a rt) (h2 : Reg GprCore b rs) {i : Immediate} (h3 : parseImm x .u16 c = .ok i) :
    parseArm x .arith mn' text = ⟨[], .ok (.imm o rs.toFin rt.toFin i [])⟩ := by
  simp only [parseArm, hs, parseReg_ok x h1, parseReg_ok x h2, if_pos hu, mkI, h.opI ho, h3, W.bind_nil_ok, W.lift_ok, W.pure_def]

theorem arm_lui (h : Mn mn' mn) {o : ITypeOp} (ho : ITypeOp.fromStr mn = some o) (hs : split ',' text = [a, b])
    {rt : BitVec 5} (h1 : Reg GprCore a rt) {i : Immediate} (h3 : parseImm x .u16 b = .ok i) :
    parseArm x .lui mn' text = ⟨[], .ok (.imm o Register.null rt.toFin i [])⟩ := by
  simp [parseArm, hs, parseReg_ok x h1, mkI, h.opI ho, h3]

theorem arm_trapi (h : Mn mn' mn) {o : ITypeOp} (ho : ITypeOp.fromStr mn = some o) (hs : split ',' text = [a, b])
    {rs : BitVec 5} (h1 : Reg GprCore a rs) {i : Immediate} (h3 : parseImm x .i16 b = .ok i) :
    parseArm x .trapi mn' text = ⟨[], .ok (.imm o rs.toFin Register.null i [])⟩ := by
  simp [parseArm, hs, parseReg_ok x h1, mkI, h.opI ho, h3]

theorem arm_dli (h : Mn mn' mn) {o : ITypeOp} (ho : ITypeOp.fromStr mn = some o) (hs : split ',' text = [a, b])
    {rt : BitVec 5} (h1 : Reg GprCore a rt) {i : Immediate} (h3 : parseImm x .i64 b = .ok i) :
    parseArm x .dli mn' text = ⟨[], .ok (.imm o Register.null rt.toFin i [])⟩ := by
  simp [parseArm, hs, parseReg_ok x h1, mkI, h.opI ho, h3]

theorem arm_mem (h : Mn mn' mn) {o : ITypeOp} (ho : ITypeOp.fromStr mn = some o) (hs : split ',' text = [a, b])
    (hl : NoNumLabel x.labels) (hc : mn ≠ c!"cache")
    {rt base : BitVec 5} {v : BitVec 16} (h1 : Reg GprCore a rt) (h2 : Spells b (.mem v base)) :
    parseArm x .mem mn' text = ⟨[], .ok (.imm o base.toFin rt.toFin (.short v) [])⟩ := by
  obtain ⟨bt, e1, e2, e3⟩ := spells_mem h2
  simp only [parseArm, hs, h.key, if_neg hc, gpr_fromStr h1, e1, gpr_fromStr e2, Res.unwrap, W.lift_ok, W.bind_nil_ok]
  rcases e3 with ⟨e3, rfl⟩ | ⟨off, e3, e4, e5⟩
  · have hz : PNum c!"0" (0#16).toInt := PNum.mk [] c!"0" [] 0 (by simp [Blank]) (by simp [Blank]) (.pos _ 0 (.dec _ _ (.one '0' 0 rfl)))
    simp only [e3, mkI, h.opI ho, parseImm_i16 x hl hz, W.lift_ok, W.bind_nil_ok, W.pure_def]
  · simp only [e3, List.dropLast_concat, mkI, h.opI ho, parseImm_i16 x hl e5, W.lift_ok, W.bind_nil_ok, W.pure_def]

theorem arm_fmem (h : Mn mn' mn) {o : ITypeOp} (ho : ITypeOp.fromStr mn = some o) (hs : split ',' text = [a, b])
    (hl : NoNumLabel x.labels)
    {rt base : BitVec 5} {v : BitVec 16} (h1 : Reg FprCore a rt) (h2 : Spells b (.mem v base)) :
    parseArm x .fmem mn' text = ⟨[], .ok (.imm o base.toFin rt.toFin (.short v) [])⟩ := by
  obtain ⟨bt, e1, e2, e3⟩ := spells_mem h2
  simp only [parseArm, hs, parseFReg_ok x h1, e1, parseReg_ok x e2, W.bind_nil_ok]
  rcases e3 with ⟨e3, rfl⟩ | ⟨off, e3, e4, e5⟩
  · have hz : PNum c!"0" (0#16).toInt := PNum.mk [] c!"0" [] 0 (by simp [Blank]) (by simp [Blank]) (.pos _ 0 (.dec _ _ (.one '0' 0 rfl)))
    simp only [e3, mkI, h.opI ho, parseImm_i16 x hl hz, W.lift_ok, W.bind_nil_ok, W.pure_def]
  · simp only [e3, e4, mkI, h.opI ho, parseImm_i16 x hl e5, W.lift_ok, W.bind_nil_ok, W.pure_def]

theorem arm_cache (h : Mn mn' c!"cache") {o : ITypeOp} (ho : ITypeOp.fromStr c!"cache" = some o) (hs : split ',' text = [a, b])
    (hl : NoNumLabel x.labels)
    {cop base : BitVec 5} {v : BitVec 16} (h1 : PNum a cop.toNat) (h2 : Spells b (.mem v base)) :
    parseArm x .mem mn' text = ⟨[], .ok (.imm o base.toFin cop.toFin (.short v) [])⟩ := by
  obtain ⟨bt, e1, e2, e3⟩ := spells_mem h2
  have hw : PNum a (cop.setWidth 16).toNat := by
    have : ∀ cop : BitVec 5, (cop.setWidth 16).toNat = cop.toNat := by decide
    rw [this]; exact h1
  have hw2 : ∀ cop : BitVec 5, ((cop.setWidth 16).setWidth 32).toNat = cop.toNat := by decide
  simp only [parseArm, hs, h.key, if_true, parseImm_u16 x hl hw, Immediate.asU32, hw2, tryFrom_bv, e1, gpr_fromStr e2, Res.unwrap, W.lift_ok, W.bind_nil_ok]
  rcases e3 with ⟨e3, rfl⟩ | ⟨off, e3, e4, e5⟩
  · have hz : PNum c!"0" (0#16).toInt := PNum.mk [] c!"0" [] 0 (by simp [Blank]) (by simp [Blank]) (.pos _ 0 (.dec _ _ (.one '0' 0 rfl)))
    simp only [e3, mkI, h.opI ho, parseImm_i16 x hl hz, W.lift_ok, W.bind_nil_ok, W.pure_def]
  · simp only [e3, List.dropLast_concat, mkI, h.opI ho, parseImm_i16 x hl e5, W.lift_ok, W.bind_nil_ok, W.pure_def]

/-! branches and jumps -/

theorem delayCheck_res : (delayCheck x).res = .ok () := by unfold delayCheck; split <;> rfl
theorem alignCheck_res (i : Immediate) (s : Str) : (alignCheck x i s).res = .ok () := by
  unfold alignCheck; split
  · rfl
  · split <;> rfl

theorem W.bind_res {α β} (w : W α) (r : α) (hw : w.res = .ok r) (f : α → W β) :
    (w >>= f) = ⟨w.warns ++ (f r).warns, (f r).res⟩ := by
  obtain ⟨ws, res⟩ := w; subst hw; rfl

theorem arm_br1 (h : Mn mn' mn) {o : ITypeOp} (ho : ITypeOp.fromStr mn = some o) (hs : split ',' text = [a, b])
    {rs : BitVec 5} (h1 : Reg GprCore a rs) {i : Immediate} (h3 : parseImm x .u32 b = .ok i) :
    parseArm x .br1 mn' text = ⟨(delayCheck x).warns ++ (alignCheck x i b).warns, .ok (.imm o rs.toFin Register.null i [])⟩ := by
  simp only [parseArm, hs, parseReg_ok x h1, h3, mkI, h.opI ho, W.bind_res _ () (delayCheck_res x), W.bind_res _ () (alignCheck_res x i b), W.lift_ok, W.bind_nil_ok, W.pure_def, List.append_nil]

theorem arm_br2 (h : Mn mn' mn) {o : ITypeOp} (ho : ITypeOp.fromStr mn = some o) (hs : split ',' text = [a, b, c])
    {rs rt : BitVec 5} (h1 : Reg GprCore a rs) (h2 : Reg GprCore b rt) {i : Immediate} (h3 : parseImm x .u32 c = .ok i) :
    parseArm x .br2 mn' text = ⟨(delayCheck x).warns ++ (alignCheck x i c).warns, .ok (.imm o rs.toFin rt.toFin i [])⟩ := by
  simp only [parseArm, hs, parseReg_ok x h1, parseReg_ok x h2, h3, mkI, h.opI ho, W.bind_res _ () (delayCheck_res x), W.bind_res _ () (alignCheck_res x i c), W.lift_ok, W.bind_nil_ok, W.pure_def, List.append_nil]

theorem arm_b (cls : Cls) (hc : cls = .b ∨ cls = .bc) (h : Mn mn' mn) {o : ITypeOp} (ho : ITypeOp.fromStr mn = some o) (hs : split ',' text = [a])
    {i : Immediate} (h3 : parseImm x .u32 a = .ok i) :
    parseArm x cls mn' text = ⟨(delayCheck x).warns ++ (alignCheck x i a).warns, .ok (.imm o Register.null Register.null i [])⟩ := by
  rcases hc with rfl | rfl <;>
  simp only [parseArm, parseBranch0, hs, h3, mkI, h.opI ho, W.bind_res _ () (delayCheck_res x), W.bind_res _ () (alignCheck_res x i a), W.lift_ok, W.bind_nil_ok, W.pure_def, List.append_nil]

/-- The unaligned-jump warnings. -/
def jumpWarns (x : Ctx) (t : Target) (s : Str) : List ParserWarning :=
  match t.asU32 with
  | none => []
  | some v => if v.toNat % 4 ≠ 0 then [.unalignedJump x.line s] else []

theorem arm_jump (h : Mn mn' mn) {o : JTypeOp} (ho : JTypeOp.fromStr mn = some o) (hs : split ',' text = [a])
    {t : Target} (h3 : parseTarget x (trim a) = .ok t) :
    parseArm x .jump mn' text = ⟨(delayCheck x).warns ++ jumpWarns x t (trim a), .ok (.jump o t [])⟩ := by
  simp only [parseArm, hs, h3, h.opJ ho, W.bind_res _ () (delayCheck_res x), W.lift_ok, W.bind_nil_ok]
  cases t with
  | label l => simp [Target.asU32, jumpWarns]
  | address v =>
    simp only [Target.asU32, jumpWarns]
    split <;> simp [W.warn]

/-! floating point -/

omit [Unicode] in
theorem byteLen_ascii (s : Str) (h : ∀ c ∈ s, isAscii c = true) : byteLen s = s.length := by
  induction s with
  | nil => rfl
  | cons c s ih =>
    have hc : c.utf8Size = 1 := by
      have := (isAscii_toNat c).1 (h c (by simp))
      rw [Char.utf8Size_eq_one_iff, UInt32.le_iff_toNat_le]
      have e : c.val.toNat = c.toNat := rfl
      simp; omega
    simp [byteLen, hc, ih (fun d hd => h d (by simp [hd]))]; omega

omit [Unicode] in
theorem takeBytes_ascii (s : Str) (h : ∀ c ∈ s, isAscii c = true) (n : Nat) (hn : n ≤ s.length) :
    takeBytes s n = some (s.take n) := by
  induction s generalizing n with
  | nil => simp at hn; subst hn; rfl
  | cons c s ih =>
    cases n with
    | zero => rfl
    | succ n =>
      have hc : c.utf8Size = 1 := by
        have := (isAscii_toNat c).1 (h c (by simp))
        rw [Char.utf8Size_eq_one_iff, UInt32.le_iff_toNat_le]
        have e : c.val.toNat = c.toNat := rfl
        simp; omega
      simp at hn
      simp [takeBytes, hc, ih (fun d hd => h d (by simp [hd])) n hn]

omit [Unicode] in
theorem Mn.ascii (h : Mn mn' mn) : ∀ c ∈ mn', isAscii c = true :=
  sameName_ascii h.same fun c hc => ((mn_all h.ok).2.1 c hc).1

omit [Unicode] in
theorem Mn.length (h : Mn mn' mn) : mn'.length = mn.length := by
  have := congrArg List.length h.same
  simpa using this

/-- Which arm of the floating-point match is taken. -/
theorem float_prefix (h : Mn mn' mn) (h2 : 2 ≤ mn.length) :
    byteLen mn' = mn.length ∧ takeBytes (Unicode.lower mn') (byteLen mn' - 2) = some (mn.take (mn.length - 2)) := by
  have e : byteLen mn' = mn.length := by rw [byteLen_ascii _ h.ascii, h.length]
  refine ⟨e, ?_⟩
  rw [h.lower, e, takeBytes_ascii _ (fun c hc => ((mn_all h.ok).2.1 c hc).1) _ (by omega)]

theorem arm_fp3 (h : Mn mn' mn) {o : RTypeOp} (ho : RTypeOp.fromStr mn = some o) (hs : split ',' text = [a, b, c])
    (h2 : 2 ≤ mn.length) (hp : [c!"add", c!"sub", c!"mul", c!"div"].contains (mn.take (mn.length - 2)) = true)
    {fd fs ft : BitVec 5} (h3 : Reg FprCore a fd) (h4 : Reg FprCore b fs) (h5 : Reg FprCore c ft) :
    parseArm x .other mn' text = ⟨[], .ok (.reg o fs.toFin ft.toFin fd.toFin 0#32 [])⟩ := by
  obtain ⟨e1, e2⟩ := float_prefix h h2
  simp only [parseArm, parseFloat, hs, e2, if_neg (show ¬ byteLen mn' < 2 by omega), if_pos hp, parseFReg_ok x h3, parseFReg_ok x h4, parseFReg_ok x h5, mkR, h.opR ho, W.bind_nil_ok, W.pure_def]

/-- The two-operand prefixes. -/
def fp2Prefixes : List Str := [c!"abs", c!"ceil.l", c!"ceil.w", c!"cvt.d", c!"cvt.l", c!"cvt.s", c!"cvt.w",
        c!"floor.l", c!"floor.w", c!"mov", c!"neg", c!"round.l", c!"round.w", c!"sqrt", c!"trunc.l",
        c!"trunc.w"]

theorem arm_fp2 (h : Mn mn' mn) {o : RTypeOp} (ho : RTypeOp.fromStr mn = some o) (hs : split ',' text = [a, b])
    (h2 : 2 ≤ mn.length) (hn : [c!"add", c!"sub", c!"mul", c!"div"].contains (mn.take (mn.length - 2)) = false)
    (hp : fp2Prefixes.contains (mn.take (mn.length - 2)) = true)
    {fd fs : BitVec 5} (h3 : Reg FprCore a fd) (h4 : Reg FprCore b fs) :
    parseArm x .other mn' text = ⟨[], .ok (.reg o fs.toFin Register.null fd.toFin 0#32 [])⟩ := by
  obtain ⟨e1, e2⟩ := float_prefix h h2
  unfold fp2Prefixes at hp
  simp only [parseArm, parseFloat, hs, e2, if_neg (show ¬ byteLen mn' < 2 by omega), hn, if_pos hp, parseFReg_ok x h3, parseFReg_ok x h4, mkR, h.opR ho, W.bind_nil_ok, W.pure_def, Bool.false_eq_true, if_false]

omit [Unicode] in
theorem asciiLower_eq (c d : Char) (hd : asciiLower d = d) (hd2 : d.toNat < 97 ∨ 122 < d.toNat) : asciiLower c = d ↔ c = d := by
  constructor
  · intro h
    unfold asciiLower at h
    split at h
    · rename_i hr
      exfalso
      simp only [Bool.and_eq_true, decide_eq_true_eq, UInt32.le_iff_toNat_le, val_toNat] at hr
      simp at hr
      have hv : (c.toNat + 32).isValidChar := by left; omega
      have : (Char.ofNat (c.toNat + 32)).toNat = c.toNat + 32 := by rw [Char.ofNat, dif_pos hv]; rfl
      rw [h] at this
      omega
    · exact h
  · rintro rfl; exact hd

omit [Unicode] in
theorem split_map (s : Str) : split '.' (s.map asciiLower) = (split '.' s).map (·.map asciiLower) := by
  induction s with
  | nil => rfl
  | cons c s ih =>
    simp only [List.map_cons, split]
    have hiff := asciiLower_eq c '.' (by decide) (by decide)
    by_cases hc : c = '.'
    · subst hc; simp [ih, show asciiLower '.' = '.' from by decide]
    · rw [if_neg (fun h => hc (hiff.1 h)), if_neg hc, ih]
      cases hsp : split '.' s with
      | nil => exact absurd hsp (split_ne_nil _ _)
      | cons p ps => simp

/-- The facts about one compare mnemonic the float arm depends on. -/
def condOk (e : Str × RTypeOp × BitVec 5 × BitVec 6) : Bool :=
  2 ≤ e.1.length &&
  !([c!"add", c!"sub", c!"mul", c!"div"].contains (e.1.take (e.1.length - 2))) &&
  !(fp2Prefixes.contains (e.1.take (e.1.length - 2))) &&
  startsWith c!"c." (e.1.take (e.1.length - 2)) &&
  (match e.1.getLast? with
    | some l => RTypeOp.fromStr (c!"C." ++ [l]) == some e.2.1
    | none => false) &&
  (match (split '.' e.1)[1]? with
    | some cd => match floatConds.zipIdx.find? fun f => f.1 == cd with
      | some f => BitVec.ofNat 32 f.2 == (e.2.2.2.setWidth 4).setWidth 32
      | none => false
    | none => false)

theorem arm_cond {e : Str × RTypeOp × BitVec 5 × BitVec 6} (h : Mn mn' e.1) (he : condOk e = true) (hs : split ',' text = [a, b])
    {fs ft : BitVec 5} (h3 : Reg FprCore a fs) (h4 : Reg FprCore b ft) :
    parseArm x .other mn' text =
      ⟨[], .ok (.reg e.2.1 fs.toFin ft.toFin Register.null ((e.2.2.2.setWidth 4).setWidth 32) [])⟩ := by
  simp only [condOk, Bool.and_eq_true, Bool.not_eq_true', decide_eq_true_eq] at he
  obtain ⟨⟨⟨⟨⟨h2, hn1⟩, hn2⟩, hst⟩, hl⟩, hsp⟩ := he
  obtain ⟨e1, e2⟩ := float_prefix h h2
  unfold fp2Prefixes at hn2
  have hsame : mn'.map asciiLower = e.1 := h.same
  -- last character
  have hlast : ∃ l, mn'.getLast? = some l ∧ opR (c!"C." ++ [l]) = ⟨[], .ok e.2.1⟩ := by
    have : e.1.getLast? = mn'.getLast?.map asciiLower := by rw [← hsame, List.getLast?_map]
    rw [this] at hl
    cases hm : mn'.getLast? with
    | none => simp [hm] at hl
    | some l =>
      simp only [hm, Option.map_some, beq_iff_eq] at hl
      refine ⟨l, rfl, ?_⟩
      unfold opR
      have hid : asciiLower (asciiLower l) = asciiLower l := by
        have h9 := (mn_all h.ok).2.2
        have hmem : asciiLower l ∈ e.1 := by rw [← hsame]; exact List.mem_map_of_mem (List.mem_of_getLast? hm)
        exact map_fixed h9 _ hmem
      have : RTypeOp.fromStr (c!"C." ++ [l]) = RTypeOp.fromStr (c!"C." ++ [asciiLower l]) := by
        simp only [RTypeOp.fromStr, eqIgnoreCase, List.map_append, List.map_cons, List.map_nil, hid]
      rw [this, hl]; rfl
  have hcond : ∃ cd, (split '.' mn')[1]? = some cd ∧ parseFloatCond x cd = .ok ((e.2.2.2.setWidth 4).setWidth 32) := by
    have : split '.' e.1 = (split '.' mn').map (·.map asciiLower) := by rw [← hsame, split_map]
    rw [this, List.getElem?_map] at hsp
    cases hm : (split '.' mn')[1]? with
    | none => simp [hm] at hsp
    | some cd =>
      simp only [hm, Option.map_some] at hsp
      refine ⟨cd, rfl, ?_⟩
      have hasc : ∀ c ∈ cd, isAscii c = true := by
        have hsub : ∀ (s : Str) p, p ∈ split '.' s → ∀ c ∈ p, c ∈ s := by
          intro s
          induction s with
          | nil => intro p hp c hc; simp [split] at hp; subst hp; simp at hc
          | cons d s ih =>
            intro p hp c hc
            simp only [split] at hp
            split at hp
            · simp only [List.mem_cons] at hp
              rcases hp with rfl | hp
              · simp at hc
              · exact List.mem_cons_of_mem _ (ih p hp c hc)
            · cases hsp2 : split '.' s with
              | nil => exact absurd hsp2 (split_ne_nil _ _)
              | cons q qs =>
                rw [hsp2] at hp ih
                simp only [List.mem_cons] at hp
                rcases hp with rfl | hp
                · simp only [List.mem_cons] at hc
                  rcases hc with rfl | hc
                  · simp
                  · exact List.mem_cons_of_mem _ (ih q (by simp) c hc)
                · exact List.mem_cons_of_mem _ (ih p (by simp [hp]) c hc)
        intro c hc
        exact h.ascii c (hsub mn' cd (List.mem_of_getElem? hm) c hc)
      unfold parseFloatCond
      rw [Unicode.lower_ascii cd hasc]
      split at hsp
      · rename_i f hf
        simp only [beq_iff_eq] at hsp
        rw [hf]
        simp only [hsp]
      · simp at hsp
  obtain ⟨l, hl1, hl2⟩ := hlast
  obtain ⟨cd, hc1, hc2⟩ := hcond
  simp only [parseArm, parseFloat, hs, e2, if_neg (show ¬ byteLen mn' < 2 by omega), hn1, hn2, hst, if_true, parseFReg_ok x h3, parseFReg_ok x h4, hl1, hl2, hc1, hc2, W.bind_nil_ok, W.pure_def, W.lift_ok, Bool.false_eq_true, if_false]

end arms

end Mips
