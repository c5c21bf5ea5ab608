/- C34, C35: warnings. -/
import Verif.Lemmas.WarnL

namespace Mips
open Source Branch Syntax

/-- The operation of an accepted line. -/
def OpOk (cls : Cls) (op : Str) : Instruction → Prop
  | .imm o _ _ _ _ => ITypeOp.fromStr op = some o
  | .jump o _ _ => JTypeOp.fromStr op = some o
  | .reg o _ _ _ _ _ => RTypeOp.fromStr op = some o ∨ (cls = .other ∧ ∃ f, RTypeOp.fromStr (c!"C." ++ [f]) = some o)
  | .bytes _ => cls = .word

set_option maxHeartbeats 4000000 in
theorem parseArm_op [Unicode] (x : Ctx) (cls : Cls) (op arg : Str) : RPost (parseArm x cls op arg) (OpOk cls op) := by
  unfold parseArm
  generalize split ',' arg = args
  have armI : ∀ {a b : Register} {w : W Immediate}, RPost (mkI op a b w) (OpOk cls op) := by
    intro a b w
    exact rpost_mkI (Q := fun _ => True) (fun _ _ => trivial) fun o i ho hi => ho
  have armR : ∀ {a b c : Register}, RPost (mkR op a b c) (OpOk cls op) := by
    intro a b c
    exact rpost_mkR fun o ho => .inl ho
  cases cls
  case other =>
    simp only [parseFloat]
    repeat' first
      | with_reducible exact armR
      | with_reducible exact rpost_bad
      | with_reducible exact rpost_panic
      | with_reducible exact rpost_fail
      | (refine rpost_bind rpost_opR fun o ho => ?_; split; exact rpost_panic; exact rpost_any fun _ => rpost_pure (.inr ⟨rfl, _, ho⟩))
      | with_reducible refine rpost_any fun _ => ?_
      | split
  case word =>
    simp only
    refine rpost_any fun i => ?_
    split
    · exact rpost_panic
    · exact rpost_pure rfl
  case jump =>
    simp only
    split
    · exact rpost_any fun _ => rpost_any fun _ => rpost_any fun _ => rpost_bind rpost_opJ fun o ho => rpost_pure ho
    · exact rpost_bad
  case shift =>
    simp only
    split
    · refine rpost_any fun _ => rpost_any fun _ => rpost_bind rpost_opR fun o ho => ?_
      split
      · exact rpost_panic
      · exact rpost_pure (.inl ho)
    · exact rpost_bad
  case code =>
    simp only
    split
    · refine rpost_any fun _ => rpost_bind rpost_opR fun o ho => ?_
      split
      · exact rpost_panic
      · exact rpost_pure (.inl ho)
    · exact rpost_bad
  all_goals simp only [parseBranch0, parseLi]
  all_goals repeat' first
    | with_reducible exact armI
    | with_reducible exact armR
    | with_reducible exact rpost_bad
    | with_reducible exact rpost_panic
    | with_reducible exact rpost_fail
    | with_reducible refine rpost_any fun _ => ?_
    | split

theorem slot_I : ∀ o ∈ ITypeOp.all, Instruction.hasDelaySlot (.imm o 0 0 (.short 0) []) =
    decide (o.name.map asciiLower ∈ transfers ∧ o.name.map asciiLower ∉ forgotten) := by decide +kernel
theorem slot_J : ∀ o ∈ JTypeOp.all, decide (o.name.map asciiLower ∈ transfers ∧ o.name.map asciiLower ∉ forgotten) = true := by decide +kernel
theorem slot_R : ∀ o ∈ RTypeOp.all, Instruction.hasDelaySlot (.reg o 0 0 0 0 []) =
    decide (o.name.map asciiLower ∈ transfers ∧ o.name.map asciiLower ∉ forgotten) := by decide +kernel
theorem slot_C : ∀ o ∈ RTypeOp.all, (o.name.map asciiLower).take 2 = c!"c." → Instruction.hasDelaySlot (.reg o 0 0 0 0 []) = false := by decide +kernel
theorem slot_cls : ∀ n ∈ transfers, classify n ≠ .other ∧ classify n ≠ .word ∧ slotCls (classify n) n = true := by decide +kernel
theorem slot_cls' : ∀ e ∈ clsTable, ∀ n ∈ e.2, slotCls (classify n) n = true → n ∈ transfers := by decide +kernel

theorem slot_iff (key : Str) : slotCls (classify key) key = true ↔ key ∈ transfers := by
  constructor
  · intro h
    obtain ⟨l, h1, h2⟩ := classify_mem (key := key) rfl (by intro e; rw [e] at h; simp [slotCls, isBrCls] at h)
    exact slot_cls' _ h1 _ h2 h
  · exact fun h => (slot_cls key h).2.2

/-- Does an accepted line have a delay slot the assembler knows of? -/
theorem slot_of [Unicode] {x : Ctx} {s : Str} (hs : s ≠ []) {p : Instruction} (h : (parseInst x s).res = .ok p) :
    p.hasDelaySlot = decide (mnemonic s ∈ transfers ∧ mnemonic s ∉ forgotten) := by
  rw [parseInst_eq x hs] at h
  have ho := parseArm_op x _ _ _ p h
  cases p with
  | imm o rs rt i b =>
    have hm := fromStrI_mn ho
    rw [show mnemonic s = _ from hm.key, ← slot_I o (ITypeOp.mem_all o)]
    rfl
  | jump o t b =>
    have hm := fromStrJ_mn ho
    rw [show mnemonic s = _ from hm.key, slot_J o (JTypeOp.mem_all o)]
    rfl
  | reg o rs rt rd sa b =>
    rcases ho with ho | ⟨hc, f, ho⟩
    · have hm := fromStrR_mn ho
      rw [show mnemonic s = _ from hm.key, ← slot_R o (RTypeOp.mem_all o)]
      rfl
    · have hm := fromStrR_mn ho
      have h1 : (c!"C." ++ [f]).map asciiLower = o.name.map asciiLower := hm.same
      have h2 := slot_C o (RTypeOp.mem_all o) (by rw [← h1]; rfl)
      have h3 : mnemonic s ∉ transfers := fun hx => (slot_cls _ hx).1 hc
      rw [decide_eq_false (fun hx => h3 hx.1)]
      exact h2
  | bytes w =>
    have h3 : mnemonic s ∉ transfers := fun hx => (slot_cls _ hx).2.1 ho
    rw [decide_eq_false (fun hx => h3 hx.1)]
    rfl

theorem outInsts_matches {ls : List Str} {tr : List Outcome} (hl : tr.length = ls.length)
    (h : ∀ (k : Nat) raw o, ls[k]? = some raw → tr[k]? = some o → Matches raw o)
    {P : Str → Instruction → Prop} (hP : ∀ (k : Nat) raw ws p, ls[k]? = some raw → tr[k]? = some (.inst ws p) → P raw p) (j : Nat) :
    ((ls.filter isCode).getLast? = none ∧ (outInsts j tr).getLast? = none) ∨
    ∃ raw q, (ls.filter isCode).getLast? = some raw ∧ (outInsts j tr).getLast? = some q ∧ P raw q.2 := by
  induction ls generalizing tr j with
  | nil => rw [List.length_eq_zero_iff.1 hl]; exact .inl ⟨rfl, rfl⟩
  | cons raw ls ih =>
    cases tr with
    | nil => cases hl
    | cons o tr =>
      have hm := h 0 raw o rfl rfl
      have ih' := ih (tr := tr) (by simpa using hl) (fun k raw o h1 h2 => h (k + 1) raw o (by simpa using h1) (by simpa using h2))
        (fun k raw ws p h1 h2 => hP (k + 1) raw ws p (by simpa using h1) (by simpa using h2)) (j + 1)
      have other : isCode raw = false → outInsts j (o :: tr) = outInsts (j + 1) tr →
          (((raw :: ls).filter isCode).getLast? = none ∧ (outInsts j (o :: tr)).getLast? = none) ∨
          ∃ r q, ((raw :: ls).filter isCode).getLast? = some r ∧ (outInsts j (o :: tr)).getLast? = some q ∧ P r q.2 := by
        intro h1 h2
        rw [h2, List.filter_cons_of_neg (by simp [h1])]
        exact ih'
      rcases hm with ⟨h1, h2⟩ | ⟨h1, ws, p, h2⟩ | ⟨l, h1, _, h2⟩ | ⟨l, h1, _, h2⟩
      · subst h2; exact other (by simp [isCode, h1]) rfl
      · subst h2
        right
        rw [List.filter_cons_of_pos (by simp [isCode, h1])]
        show ∃ r q, _ ∧ ((j + 1, p) :: outInsts (j + 1) tr).getLast? = some q ∧ _
        rcases ih' with ⟨a, b⟩ | ⟨r, q, a, b, c⟩
        · refine ⟨raw, (j + 1, p), ?_, ?_, hP 0 raw ws p rfl rfl⟩
          · rw [List.getLast?_eq_none_iff] at a; rw [a]; rfl
          · rw [List.getLast?_eq_none_iff] at b; rw [b]; rfl
        · refine ⟨r, q, ?_, ?_, c⟩
          · rw [List.getLast?_cons, a]; rfl
          · rw [List.getLast?_cons, b]; rfl
      · subst h2; exact other (by simp [isCode, h1]) rfl
      · subst h2; exact other (by simp [isCode, h1]) rfl

/-- The instruction in front of line `k`, as the parser remembers it. -/
theorem lastDelay_of [Unicode] {rt : Rt} {m : Mipsasm} {text : Str} {tr : List Outcome} (hT : IsTrace (envOf rt m text) (lines text) tr)
    (he : outErrors tr = []) {k : Nat} (hk : k < (lines text).length) :
    (ctxAt (envOf rt m text) (tr.take k)).lastDelay = true ↔
      ∃ q, before (lines text) k = some q ∧ mnemonic (body q) ∈ transfers ∧ mnemonic (body q) ∉ forgotten := by
  have hl : (tr.take k).length = ((lines text).take k).length := by rw [List.length_take, List.length_take, hT.1]
  have key := outInsts_matches (P := fun raw p => p.hasDelaySlot = decide (mnemonic (body raw) ∈ transfers ∧ mnemonic (body raw) ∉ forgotten)) hl
    (fun d raw o h1 h2 => by
      have hd : d < k := by have := (List.getElem?_eq_some_iff.1 h1).1; rw [List.length_take] at this; omega
      rw [List.getElem?_take_of_lt hd] at h1 h2
      exact trace_matches hT he h1 h2)
    (fun d raw ws p h1 h2 => by
      have hd : d < k := by have := (List.getElem?_eq_some_iff.1 h1).1; rw [List.length_take] at this; omega
      rw [List.getElem?_take_of_lt hd] at h1 h2
      have hr := hT.2 d raw _ h1 h2
      have hm := trace_matches hT he h1 h2
      have hc : kind raw = .code := by
        rcases hm with ⟨_, h2⟩ | ⟨h1, _⟩ | ⟨l, _, _, h2⟩ | ⟨l, _, _, h2⟩
        · cases h2
        · exact h1
        · cases h2
        · cases h2
      unfold lineRes at hr
      rw [hc] at hr
      exact slot_of (kind_code_ne hc) (instRes_inst hr).2) 0
  show (match (outInsts 0 (tr.take k)).getLast? with
    | some (_, i) => i.hasDelaySlot
    | none => false) = true ↔ _
  unfold before
  rcases key with ⟨a, b⟩ | ⟨raw, q, a, b, c⟩
  · rw [a, b]; simp
  · rw [a, b]
    simp only at c ⊢
    rw [c]
    simp

/-- **C34, the exact rule.**  In a program that assembles, the delay-slot warning is printed for an instruction line iff
it is a jump or branch and the instruction line in front of it is a jump or branch, other than `b`, `bal`, `beqzl`,
`bnezl` and the compare-and-branch pseudo-instructions, which the assembler forgets.  It is printed once. -/
theorem C34_exact [Unicode] {rt : Rt} {m : Mipsasm} {text : Str} {is : List Instruction} {ws : List ParserWarning}
    (h : assemble rt m text = .ok is ws) {k : Nat} {raw : Str} (hk : (lines text)[k]? = some raw) (hc : kind raw = .code) :
    ((delayWarnings ws (k + 1)).length = 1 ↔ mnemonic (body raw) ∈ transfers ∧
      ∃ q, before (lines text) k = some q ∧ mnemonic (body q) ∈ transfers ∧ mnemonic (body q) ∉ forgotten) ∧
    (delayWarnings ws (k + 1)).length ≤ 1 := by
  obtain ⟨tr, x, p, hT, he, hx, hat, hline, hres, hw⟩ := line_about h hk hc
  have hlt : k < (lines text).length := (List.getElem?_eq_some_iff.1 hk).1
  have e1 : delayWarnings ws (k + 1) = delays (parseInst x (body raw)).warns := by
    unfold delayWarnings delays
    rw [← hw, List.filter_filter]
    congr 1
    funext w
    rw [Bool.and_comm]
  have hne := kind_code_ne hc
  rw [parseInst_eq x hne] at hres e1
  rw [e1, arm_delays x _ _ _ hres, delays_check]
  have hd := lastDelay_of hT he hlt
  rw [← hx] at hd
  have hs := slot_iff (mnemonic (body raw))
  rw [show trim (Unicode.lower (firstWord (body raw))) = mnemonic (body raw) from rfl]
  rw [← hs, ← hd]
  by_cases c1 : slotCls (classify (mnemonic (body raw))) (mnemonic (body raw)) = true
  · by_cases c2 : x.lastDelay = true
    · simp [c1, c2]
    · simp [c1, c2]
  · simp [c1]

/-- Every warning is about an instruction line. -/
theorem C34_lines [Unicode] {rt : Rt} {m : Mipsasm} {text : Str} {is : List Instruction} {ws : List ParserWarning}
    (h : assemble rt m text = .ok is ws) : ∀ w ∈ ws, ∃ k raw, (lines text)[k]? = some raw ∧ kind raw = .code ∧ w.about = ⟨k + 1, raw⟩ := by
  obtain ⟨tr, hT, he, hws, _⟩ := assemble_ok h
  intro w hw
  rw [hws] at hw
  obtain ⟨k, hk⟩ := mem_outWarns hw
  have hlt : k < tr.length := by
    rcases hk with ⟨_, _, h, _⟩ | ⟨_, _, h, _⟩ <;> exact (List.getElem?_eq_some_iff.1 h).1
  have hlt' : k < (lines text).length := by rw [← hT.1]; exact hlt
  have hraw := List.getElem?_eq_getElem hlt'
  refine ⟨k, _, hraw, ?_, ?_⟩
  · rcases hk with ⟨_, _, h, _⟩ | ⟨ws, e, h, _⟩
    · rcases trace_matches hT he hraw h with ⟨_, h2⟩ | ⟨h1, _⟩ | ⟨l, _, _, h2⟩ | ⟨l, _, _, h2⟩
      · cases h2
      · exact h1
      · cases h2
      · cases h2
    · exact absurd h (outErrors_nil he k ws e)
  · rcases hk with ⟨ws, i, h, hw⟩ | ⟨ws, e, h, hw⟩
    · exact outcome_about hT hraw h w hw
    · exact outcome_about hT hraw h w hw

/-- **C34** (all pairs but those whose first instruction is forgotten).  In a program that assembles, the delay-slot
warning is printed for a line iff it is a jump or branch and so is the instruction line in front of it. -/
theorem C34_warning_partial [Unicode] {rt : Rt} {m : Mipsasm} {text : Str} {is : List Instruction} {ws : List ParserWarning}
    (h : assemble rt m text = .ok is ws) {k : Nat} {raw : Str} (hk : (lines text)[k]? = some raw) (hc : kind raw = .code)
    (hf : ∀ q, before (lines text) k = some q → mnemonic (body q) ∉ forgotten) :
    (∃ w ∈ ws, w.isDelay = true ∧ w.about = ⟨k + 1, raw⟩) ↔
      mnemonic (body raw) ∈ transfers ∧ ∃ q, before (lines text) k = some q ∧ mnemonic (body q) ∈ transfers := by
  obtain ⟨h1, h2⟩ := C34_exact h hk hc
  have h3 : (∃ w ∈ ws, w.isDelay = true ∧ w.about = ⟨k + 1, raw⟩) ↔ (delayWarnings ws (k + 1)).length = 1 := by
    constructor
    · rintro ⟨w, hw, hd, ha⟩
      have : w ∈ delayWarnings ws (k + 1) := by
        unfold delayWarnings
        rw [List.mem_filter]
        exact ⟨hw, by rw [ha]; simp [hd]⟩
      have := List.length_pos_of_mem this
      omega
    · intro hl
      obtain ⟨w, hw⟩ := List.exists_mem_of_length_pos (show 0 < (delayWarnings ws (k + 1)).length by omega)
      unfold delayWarnings at hw
      rw [List.mem_filter] at hw
      obtain ⟨hw, hp⟩ := hw
      simp only [Bool.and_eq_true, decide_eq_true_eq] at hp
      obtain ⟨j, r, hj, _, ha⟩ := C34_lines h w hw
      rw [ha] at hp
      have : j = k := by simpa using hp.1
      subst this
      rw [hj] at hk
      cases hk
      exact ⟨w, hw, hp.2, ha⟩
  rw [h3, h1]
  constructor
  · rintro ⟨a, q, b, c, _⟩; exact ⟨a, q, b, c⟩
  · rintro ⟨a, q, b, c⟩; exact ⟨a, q, b, c, hf q b⟩

/-- A jump in the delay slot of a branch, with a label between them, is reported. -/
example : (@assemble asciiUnicode (idRt true) Mipsasm.new c!"beq $a0, $a1, 0x4\nfoo:\nJR $ra").warnings =
      some [.invalidInstructionInDelaySlot ⟨2, c!"foo:"⟩ ⟨3, c!"JR $ra"⟩] ∧
    (@assemble asciiUnicode (idRt true) Mipsasm.new c!"beq $a0, $a1, 0x4\nfoo:\nJR $ra").words.isSome ∧
    before (lines c!"beq $a0, $a1, 0x4\nfoo:\nJR $ra") 2 = some c!"beq $a0, $a1, 0x4" ∧
    @mnemonic asciiUnicode c!"beq $a0, $a1, 0x4" ∉ forgotten :=
  ⟨by decide +kernel, by decide +kernel, by decide, by decide⟩

/-- **C34, counterexample**: a jump in the delay slot of `b` is not reported. -/
theorem C34_wrong :
    (@assemble asciiUnicode (idRt true) Mipsasm.new c!"b 0x4\njr $ra").words.isSome ∧
    (@assemble asciiUnicode (idRt true) Mipsasm.new c!"b 0x4\njr $ra").warnings = some [] ∧
    (@assemble asciiUnicode (idRt true) Mipsasm.new c!"beq $0, $0, 0x4\njr $ra").warnings =
      some [.invalidInstructionInDelaySlot ⟨1, c!"beq $0, $0, 0x4"⟩ ⟨2, c!"jr $ra"⟩] := by
  refine ⟨?_, ?_, ?_⟩ <;> decide +kernel

end Mips
