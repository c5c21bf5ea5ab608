/- C40: code that does not depend on the base address. -/
import Verif.Props.Jumps
import Verif.Props.Local
import Verif.Lemmas.ArmL

namespace Mips
open Isa Syntax Source Branch

theorem classify_mem {key : Str} {c : Cls} (h : classify key = c) (hc : c ≠ .other) : ∃ l, (c, l) ∈ clsTable ∧ key ∈ l := by
  unfold classify at h
  split at h
  · rename_i e he
    subst h
    refine ⟨e.2, List.mem_of_find?_eq_some he, ?_⟩
    have := List.find?_some he
    simpa using this
  · exact absurd h.symm hc

theorem classify_br {key : Str} (h : isBrCls (classify key) = true) : key ∈ branchNames := by
  obtain ⟨l, h1, h2⟩ := classify_mem (key := key) rfl (by intro e; rw [e] at h; cases h)
  have : ∀ e ∈ clsTable, isBrCls e.1 = true → ∀ s ∈ e.2, s ∈ branchNames := by decide
  exact this _ h1 h _ h2

theorem classify_jump {key : Str} (h : classify key = .jump) : key ∈ jumpOps := by
  obtain ⟨l, h1, h2⟩ := classify_mem h (by decide)
  have : ∀ e ∈ clsTable, e.1 = .jump → ∀ s ∈ e.2, s ∈ jumpOps := by decide
  exact this _ h1 rfl _ h2

theorem defines_lt {ls : List Str} {d k : Nat} {l : Str} (h : Defines (ls.take k) d l) : d < k ∧ Defines ls d l := by
  obtain ⟨raw, h1, h2⟩ := h
  rw [List.getElem?_take] at h1
  split at h1
  · exact ⟨by assumption, raw, h1, h2⟩
  · cases h1

theorem isLocal_defines {ls : List Str} {d : Nat} {l : Str} (hl : isLocal l = false) (h : Defines ls d l) {k : Nat} (hk : d < k) :
    hasLabel (globals (ls.take k)) l = true := by
  have := defines_mem h hl hk
  simp only [hasLabel, List.any_eq_true]
  exact ⟨_, this, by simp⟩

theorem globals_notLocal {ls : List Str} {e : Str × Nat} (h : e ∈ globals ls) : isLocal e.1 = false := by
  have key : ∀ (ls : List Str) (n : Nat), e ∈ globalsFrom n ls → isLocal e.1 = false := by
    intro ls
    induction ls with
    | nil => intro n h; cases h
    | cons r ls ih =>
      intro n h
      unfold globalsFrom at h
      split at h
      · exact ih _ h
      · exact ih _ h
      · split at h
        · exact ih _ h
        · rcases List.mem_cons.1 h with rfl | h
          · rename_i hh _; exact Bool.eq_false_iff.2 hh
          · exact ih _ h
  exact key ls 0 h

/-- Label resolution of an instruction that the base address has no influence on. -/
theorem adjust_base {env : Env} {b : Word} {s : PState} {i : Nat} {n : Nat} {p : Instruction}
    (h1 : ∀ o rs rt v bs, p ≠ .imm o rs rt (.int v) bs) (h2 : ∀ o l bs, p = .jump o (.label l) bs → s.labels.lookup l = none) :
    adjust1 { env with base := b } s i (n, p) = adjust1 env s i (n, p) := by
  unfold adjust1
  dsimp only
  cases p with
  | imm o rs rt im bs =>
    cases im with
    | int v => exact absurd rfl (h1 o rs rt v bs)
    | _ => rfl
  | jump o t bs =>
    cases t with
    | label l => simp only [h2 o l bs rfl]; rfl
    | address a => rfl
  | _ => rfl

/-- What a code line was parsed to, if all branches go to labels. -/
theorem line_parsed [Unicode] {rt : Rt} {m : Mipsasm} {ls : List Str} {k : Nat} {raw : Str} {x : Ctx} {ws : List ParserWarning} {p : Instruction}
    (hc : kind raw = .code) (hat : AtLine rt m ls k x) (hp : parseInst x (body raw) = ⟨ws, .ok p⟩)
    (hb : mnemonic (body raw) ∈ branchNames → ToLabel ls k raw) :
    (∀ o rs rt v bs, p ≠ .imm o rs rt (.int v) bs) ∧
    (∀ o l bs, p = .jump o (.label l) bs → mnemonic (body raw) ∈ jumpOps ∧ ∃ t, operands (body raw) = [t] ∧ trim t = l) ∧
    (∀ o t bs, p = .jump o t bs → mnemonic (body raw) ∈ jumpOps) := by
  have hne : body raw ≠ [] := by
    intro h
    unfold kind at hc
    rw [h] at hc
    revert hc; decide
  rw [parseInst_eq x hne] at hp
  have hok := parseArm_ok x (classify (mnemonic (body raw))) (firstWord (body raw)) (operandText (body raw)) p (by rw [hp])
  rcases hok with ⟨o, rs, rt', i, rfl, ho, hj, hi⟩ | ⟨o, rs, rt', rd, sa, rfl, hj⟩ | ⟨hj, o, t, q, hs, hq, rfl, ho⟩ | ⟨_, w, rfl⟩
  · refine ⟨?_, fun _ _ _ h => by (cases h), fun _ _ _ h => by (cases h)⟩
    intro o' rs' rt'' v bs he
    cases he
    cases hbr : isBrCls (classify (mnemonic (body raw))) with
    | false => rw [hbr] at hi; exact hi
    | true =>
      rw [hbr] at hi
      obtain ⟨t, h1, h2⟩ := hi
      obtain ⟨t', h1', hl⟩ := hb (classify_br hbr)
      have : t' = t := by
        have := h1'.symm.trans h1
        exact Option.some.inj this
      subst this
      by_cases hloc : isLocal (trim t') = true
      · rw [parseImm_local x .u32 hloc] at h2; cases h2
      · have hloc : isLocal (trim t') = false := by simpa using hloc
        rcases hl with hl | ⟨d, hd, hdef⟩
        · rw [hl] at hloc; cases hloc
        · rw [parseImm_label x .u32 hloc (by rw [hat.labels]; exact isLocal_defines hloc hdef hd)] at h2; cases h2
  · exact ⟨fun _ _ _ _ _ h => by (cases h), fun _ _ _ h => by (cases h), fun _ _ _ h => by (cases h)⟩
  · refine ⟨fun _ _ _ _ _ h => by (cases h), ?_, fun _ _ _ _ => classify_jump hj⟩
    intro o' l bs he
    cases he
    refine ⟨classify_jump hj, t, hs, ?_⟩
    unfold parseTarget at hq
    simp only at hq
    repeat' split at hq
    all_goals first
      | cases hq; done
      | (cases hq; rfl)
  · exact ⟨fun _ _ _ _ _ h => by (cases h), fun _ _ _ h => by (cases h), fun _ _ _ h => by (cases h)⟩

/-- All branches of the file go to labels. -/
def LabelBranches [Unicode] (ls : List Str) : Prop :=
  ∀ (k : Nat) raw, ls[k]? = some raw → kind raw = .code → mnemonic (body raw) ∈ branchNames → ToLabel ls k raw

theorem isTrace_base [Unicode] {rt : Rt} {m : Mipsasm} {b : Word} {text : Str} {ls : List Str} {tr : List Outcome} :
    IsTrace (envOf rt (m.setBase b) text) ls tr ↔ IsTrace (envOf rt m text) ls tr := Iff.rfl

/-- C40: if all branches of a program go to labels, then the words of every instruction that is not a jump to a label are the
same for all base addresses. -/
theorem C40_words [Unicode] (rt : Rt) (m : Mipsasm) (b : Word) (text : Str) (is is' : List Instruction) (warns warns' : List ParserWarning)
    (h : assemble rt m text = .ok is warns) (h' : assemble rt (m.setBase b) text = .ok is' warns') (hb : LabelBranches (lines text)) :
    warns' = warns ∧ is'.length = is.length ∧
    ∀ (k : Nat) raw, (lines text)[k]? = some raw → kind raw = .code →
      (mnemonic (body raw) ∈ jumpOps → ∀ t d, operands (body raw) = [t] → isLocal (trim t) = false → ¬ Defines (lines text) d (trim t)) →
      is'[codeCount ((lines text).take k)]? = is[codeCount ((lines text).take k)]? := by
  refine ⟨?_, by rw [is_length h, is_length h'], ?_⟩
  · obtain ⟨tr, hT, he, hw, _⟩ := assemble_ok h
    obtain ⟨tr', hT', he', hw', _⟩ := assemble_ok h'
    rw [hw, hw', isTrace_unique hT (isTrace_base.1 hT')]
  · intro k raw hk hc hj
    obtain ⟨tr, x, ws, p, a, bb, hT, he, hx, hat, ho, hp, ha, henc, hab, hi, hlen⟩ := line_done h hk hc
    obtain ⟨tr', x', ws', p', a', bb', hT', he', hx', hat', ho', hp', ha', henc', hab', hi', hlen'⟩ := line_done h' hk hc
    have e := isTrace_unique hT (isTrace_base.1 hT')
    subst e
    have ep : p' = p := by rw [ho] at ho'; cases ho'; rfl
    subst ep
    obtain ⟨q1, q2, q3⟩ := line_parsed hc hat hp (hb k raw hk hc)
    have hlab : (canonF tr).labels = globals (lines text) := (trace_counts_all hT he).1
    have key : adjust1 (envOf rt (m.setBase b) text) (canonF tr) (codeCount ((lines text).take k)) (k + 1, p') =
        adjust1 (envOf rt m text) (canonF tr) (codeCount ((lines text).take k)) (k + 1, p') := by
      refine adjust_base (env := envOf rt m text) (b := b) q1 ?_
      intro o l bs hpe
      rw [hlab]
      cases hl : (globals (lines text)).lookup l with
      | none => rfl
      | some n =>
        exfalso
        obtain ⟨hm, t, ht, rfl⟩ := q2 o l bs hpe
        have hmem := lookup_mem' hl
        obtain ⟨d, _, hd⟩ := mem_globals hmem
        exact hj hm t d ht (globals_notLocal hmem) hd
    rw [key, ha] at ha'
    cases ha'
    rw [hab] at hab'
    cases hab'
    rw [hi, hi']

/-- C40: if all branches of a program go to labels and it is accepted at one base address, it is accepted at every other one
(at which, if overflow checks are on, the program does not run over the end of the address space). -/
theorem C40_accepted [Unicode] (rt : Rt) (m : Mipsasm) (b : Word) (text : Str) (is : List Instruction) (warns : List ParserWarning)
    (h : assemble rt m text = .ok is warns) (hb : LabelBranches (lines text))
    (hfit : rt.ovf = false ∨ b.toNat + 4 * codeCount (lines text) < 2 ^ 32) :
    ∃ is', assemble rt (m.setBase b) text = .ok is' warns := by
  obtain ⟨tr, hT, he, hw, hlen, hall⟩ := assemble_ok h
  rw [hw]
  refine assemble_of (isTrace_base.2 hT) he ?_
  intro i p hp
  obtain ⟨a, bb, hd, hi, hab⟩ := hall i p hp
  obtain ⟨k, ws, hk, hpn, hcnt⟩ := outInsts_get hp
  have hkl : k < (lines text).length := by rw [← hT.1]; exact (List.getElem?_eq_some_iff.1 hk).1
  have hraw : (lines text)[k]? = some (lines text)[k] := List.getElem?_eq_getElem hkl
  generalize (lines text)[k] = raw at hraw
  have hm := trace_matches hT he hraw hk
  have hc : kind raw = .code := by
    rcases hm with ⟨_, h2⟩ | ⟨h1, _⟩ | ⟨l, _, _, h2⟩ | ⟨l, _, _, h2⟩
    · cases h2
    · exact h1
    · cases h2
    · cases h2
  obtain ⟨tr', x, ws', p', a', bb', hT', he', hx, hat, ho, hp', _⟩ := line_done h hraw hc
  have e := isTrace_unique hT hT'
  subst e
  have ep : p.2 = p' := by rw [hk] at ho; cases ho; rfl
  obtain ⟨q1, q2, q3⟩ := line_parsed hc hat hp' (hb k raw hraw hc)
  obtain ⟨pn, pp⟩ := p
  dsimp only at ep hpn
  subst ep
  have hlab : (canonF tr).labels = globals (lines text) := (trace_counts_all hT he).1
  by_cases hj : ∃ o l bs n, pp = .jump o (.label l) bs ∧ (globals (lines text)).lookup l = some n
  · obtain ⟨o, l, bs, n, rfl, hl⟩ := hj
    have hn : n ≤ codeCount (lines text) := by
      have := globalsFrom_bounds (lines text) 0 _ (lookup_mem' hl)
      omega
    refine ⟨.jump o (.address (b + BitVec.ofNat 32 n * 4#32)) [], encJ o (b + BitVec.ofNat 32 n * 4#32), ?_, rfl, rfl, by intro w hw; cases hw⟩
    show adjust1 (envOf rt (m.setBase b) text) (canonF tr) i (pn, _) = _
    have c1 : chkMul rt.ovf (BitVec.ofNat 32 n) 4#32 = some (BitVec.ofNat 32 n * 4#32) := by
      rcases hfit with hf | hf
      · unfold chkMul; rw [if_neg (by simp [hf])]
      · refine chkMul_ok ?_
        rw [BitVec.toNat_ofNat, Nat.mod_eq_of_lt (by omega)]
        simp; omega
    have c2 : chkAdd rt.ovf b (BitVec.ofNat 32 n * 4#32) = some (b + BitVec.ofNat 32 n * 4#32) := by
      rcases hfit with hf | hf
      · unfold chkAdd; rw [if_neg (by simp [hf])]
      · refine chkAdd_ok ?_
        rw [mul4, BitVec.toNat_ofNat, Nat.mod_eq_of_lt (by omega)]
        omega
    simp only [adjust1, hlab, hl, opt_bind, show (envOf rt (m.setBase b) text).rt = rt from rfl, show (envOf rt (m.setBase b) text).base = b from rfl,
      c1, c2, Option.bind_some]
  · refine ⟨a, bb.getBytes, ?_, hd.2⟩
    rw [← hd.1]
    refine adjust_base (env := envOf rt m text) (b := b) q1 ?_
    intro o l bs hpe
    rw [hlab]
    cases hl : (globals (lines text)).lookup l with
    | none => rfl
    | some n => exact absurd ⟨o, l, bs, n, hpe, hl⟩ hj

/-! ### Concrete programs -/

/-- Non-vacuity: a program with a backward branch, a forward local branch and a jump, at two base addresses. -/
example : @LabelBranches asciiUnicode (lines c!"a:\nb @@x\nnop\n@@x:\nbne $a0, $a1, a\nnop\nj a\nnop\nend:") := by
  have key : ∀ k : Fin 9, ∀ raw, (lines c!"a:\nb @@x\nnop\n@@x:\nbne $a0, $a1, a\nnop\nj a\nnop\nend:")[k.val]? = some raw →
      kind raw = .code → @mnemonic asciiUnicode (body raw) ∈ branchNames → (k.val = 1 ∧ raw = c!"b @@x") ∨ (k.val = 4 ∧ raw = c!"bne $a0, $a1, a") := by
    intro k raw h
    have : some raw = (lines c!"a:\nb @@x\nnop\n@@x:\nbne $a0, $a1, a\nnop\nj a\nnop\nend:")[k.val]? := h.symm
    clear h
    revert this
    have e : lines c!"a:\nb @@x\nnop\n@@x:\nbne $a0, $a1, a\nnop\nj a\nnop\nend:" =
      [c!"a:", c!"b @@x", c!"nop", c!"@@x:", c!"bne $a0, $a1, a", c!"nop", c!"j a", c!"nop", c!"end:"] := by decide +kernel
    rw [e]
    match k with
    | 0 | 1 | 2 | 3 | 4 | 5 | 6 | 7 | 8 => intro h; cases h; decide +kernel
  intro k raw hk hc hm
  have hlt : k < 9 := by
    have := (List.getElem?_eq_some_iff.1 hk).1
    have e : (lines c!"a:\nb @@x\nnop\n@@x:\nbne $a0, $a1, a\nnop\nj a\nnop\nend:").length = 9 := by decide +kernel
    omega
  rcases key ⟨k, hlt⟩ raw hk hc hm with ⟨hk1, rfl⟩ | ⟨hk1, rfl⟩
  · exact ⟨c!"@@x", by decide +kernel, .inl (by decide +kernel)⟩
  · exact ⟨c!" a", by decide +kernel, .inr ⟨0, by have hk2 : k = 4 := hk1; omega, c!"a:", by decide +kernel, by decide +kernel⟩⟩

example :
    (@assemble asciiUnicode (idRt true) (Mipsasm.new.setBase 0x80000000) c!"a:\nb @@x\nnop\n@@x:\nbne $a0, $a1, a\nnop\nj a\nnop\nend:").words =
      some [0x10000001, 0, 0x1485fffd, 0, 0x08000000, 0] ∧
    (@assemble asciiUnicode (idRt true) (Mipsasm.new.setBase 0x80000010) c!"a:\nb @@x\nnop\n@@x:\nbne $a0, $a1, a\nnop\nj a\nnop\nend:").words =
      some [0x10000001, 0, 0x1485fffd, 0, 0x08000004, 0] := by decide +kernel

/-- The hypothesis on branches is needed: the offset of a numeric branch depends on the base address only through its acceptance,
not through the base address itself, so that it goes to different places. -/
theorem C40_numeric : (@assemble asciiUnicode (idRt true) Mipsasm.new c!"b 8\nnop").words = some [0x10000001, 0] ∧
    (@assemble asciiUnicode (idRt true) (Mipsasm.new.setBase 8) c!"b 8\nnop").words = some [0x10000001, 0] ∧
    (@assemble asciiUnicode (idRt true) (Mipsasm.new.setBase 16) c!"b 8\nnop").words = none := by decide +kernel

end Mips
