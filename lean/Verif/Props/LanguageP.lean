/-
**C56** — exactly which programs are accepted, which are refused with errors, and on which the assembler panics.
-/
import Verif.Lemmas.LangL13

namespace Mips
open Source Syntax Branch Operands
open Mips.Isa hiding conds
open Mips.Names hiding none

section
variable [Unicode] {rt : Rt} {m : Mipsasm} {text : Str} {tr : List Outcome}

theorem overflows_iff {f : Lang.File} : Lang.Overflows f ↔ f.ovf = true ∧ ∃ k st, Lang.Instr f k st ∧ OvfAt f k st := by
  constructor
  · rintro ⟨h, k, st, t, h1, h2⟩; exact ⟨h, k, st, h1, t, h2⟩
  · rintro ⟨h, k, st, h1, t, h2⟩; exact ⟨h, k, st, t, h1, h2⟩

theorem badPlace_iff {f : Lang.File} : Lang.BadPlace f ↔ ∃ k st, Lang.Instr f k st ∧ BadAt f k st := by
  constructor
  · rintro ⟨k, st, t, h1, h2⟩; exact ⟨k, st, h1, t, h2⟩
  · rintro ⟨k, st, h1, t, h2⟩; exact ⟨k, st, t, h1, h2⟩

/-- the instructions of a trace and the instructions of the file -/
theorem insts_instr (hT : IsTrace (envOf rt m text) (lines text) tr) {i : Nat} {p : Nat × Instruction}
    (hp : (outInsts 0 tr)[i]? = some p) : ∃ k ws st raw, tr[k]? = some (.inst ws p.2) ∧ p.1 = k + 1 ∧ (outInsts 0 (tr.take k)).length = i ∧
      Lang.Instr (fileOf rt m text) k st ∧ (lines text)[k]? = some raw ∧ kind raw = .code ∧
      Shape (fileOf rt m text) (outLabels 0 (tr.take k)) k st p.2 := by
  obtain ⟨k, ws, h1, h2, h3⟩ := outInsts_get hp
  obtain ⟨st, raw, g1, g2, g3, g4, _⟩ := shape_of hT h1
  exact ⟨k, ws, st, raw, h1, by omega, h3, g1, g2, g3, g4⟩

theorem instr_insts (hT : IsTrace (envOf rt m text) (lines text) tr) {k : Nat} {st : List Lang.Step}
    (h : Lang.Instr (fileOf rt m text) k st) : ∃ ws i raw, tr[k]? = some (.inst ws i) ∧
      (outInsts 0 tr)[(outInsts 0 (tr.take k)).length]? = some (k + 1, i) ∧ (lines text)[k]? = some raw ∧ kind raw = .code ∧
      Shape (fileOf rt m text) (outLabels 0 (tr.take k)) k st i := by
  obtain ⟨ws, i, hi⟩ := inst_of hT h
  obtain ⟨st', raw, g1, g2, g3, g4, _⟩ := shape_of hT hi
  obtain rfl := instr_unique h g1
  exact ⟨ws, i, raw, hi, outInsts_at hi, g2, g3, g4⟩

theorem resolve_none_iff (hT : IsTrace (envOf rt m text) (lines text) tr) :
    (outInsts 0 tr).zipIdx.mapM (fun p => adjust1 (envOf rt m text) (canonF tr) p.2 p.1) = none ↔ Lang.Overflows (fileOf rt m text) := by
  rw [overflows_iff]
  constructor
  · intro h
    apply Classical.byContradiction
    intro hno
    obtain ⟨out, ho⟩ := mapM_exists (fun p : (Nat × Instruction) × Nat => adjust1 (envOf rt m text) (canonF tr) p.2 p.1) (outInsts 0 tr).zipIdx (by
      rintro ⟨p, i⟩ hp
      obtain ⟨k, ws, st, raw, h1, h2, h3, h4, h5, h6, h7⟩ := insts_instr hT (List.mk_mem_zipIdx_iff_getElem?.1 hp)
      cases hadj : adjust1 (envOf rt m text) (canonF tr) i p with
      | some q => exact ⟨q, rfl⟩
      | none =>
        obtain ⟨ln, q⟩ := p
        simp only at h2; subst h2
        have := (adjust_none_iff hT h1 h7 i).1 hadj
        exact absurd ⟨this.1, k, st, h4, this.2⟩ hno)
    rw [ho] at h; cases h
  · rintro ⟨ho, k, st, hI, hO⟩
    obtain ⟨ws, i, raw, h1, h2, h3, h4, h5⟩ := instr_insts hT hI
    cases hm : (outInsts 0 tr).zipIdx.mapM (fun p => adjust1 (envOf rt m text) (canonF tr) p.2 p.1) with
    | none => rfl
    | some out =>
      obtain ⟨hlen, hall⟩ := (mapM_some_iff _ _ _).1 hm
      obtain ⟨b, _, hb⟩ := hall (outInsts 0 (tr.take k)).length ((k + 1, i), (outInsts 0 (tr.take k)).length) (by
        simp [h2])
      rw [(adjust_none_iff hT h1 h5 _).2 ⟨ho, hO⟩] at hb
      cases hb

theorem resolve_err_iff (hT : IsTrace (envOf rt m text) (lines text) tr) (he : outErrors tr = [])
    {out : List (Instruction × List ParserError)}
    (ho : (outInsts 0 tr).zipIdx.mapM (fun p => adjust1 (envOf rt m text) (canonF tr) p.2 p.1) = some out) :
    (∀ q ∈ out, q.2 = []) ↔ ¬ Lang.BadPlace (fileOf rt m text) := by
  obtain ⟨hlen, hall⟩ := (mapM_some_iff _ _ _).1 ho
  rw [badPlace_iff]
  constructor
  · rintro h ⟨k, st, hI, hB⟩
    obtain ⟨ws, i, raw, h1, h2, h3, h4, h5⟩ := instr_insts hT hI
    obtain ⟨⟨a, es⟩, hb1, hb⟩ := hall (outInsts 0 (tr.take k)).length ((k + 1, i), (outInsts 0 (tr.take k)).length) (by
      simp [h2])
    exact (adjust_err_iff hT he h1 h3 h4 h5 rfl hb).2 hB (h _ (List.mem_of_getElem? hb1))
  · intro h q hq
    obtain ⟨j, hj⟩ := List.getElem?_of_mem hq
    have hlt : j < (outInsts 0 tr).zipIdx.length := by
      rw [← hlen]; exact (List.getElem?_eq_some_iff.1 hj).1
    have hlt' : j < (outInsts 0 tr).length := by simpa using hlt
    have hz : (outInsts 0 tr).zipIdx[j]? = some ((outInsts 0 tr)[j], j) := by simp [hlt']
    obtain ⟨b, hb1, hb⟩ := hall j _ hz
    rw [hj] at hb1; cases hb1
    obtain ⟨k, ws, st, raw, h1, h2, h3, h4, h5, h6, h7⟩ := insts_instr hT (List.getElem?_eq_getElem hlt')
    apply Classical.byContradiction
    intro hne
    obtain ⟨a, es⟩ := q
    generalize hg : (outInsts 0 tr)[j] = p at *
    obtain ⟨ln, p2⟩ := p
    simp only at h2; subst h2
    exact h ⟨k, st, h4, (adjust_err_iff hT he h1 h5 h6 h7 h3 hb).1 hne⟩

theorem encode_iff (hT : IsTrace (envOf rt m text) (lines text) tr) (he : outErrors tr = [])
    {out : List (Instruction × List ParserError)}
    (ho : (outInsts 0 tr).zipIdx.mapM (fun p => adjust1 (envOf rt m text) (canonF tr) p.2 p.1) = some out) (hq : ∀ q ∈ out, q.2 = []) :
    assembleAll rt.ovf (out.map (·.1)) = none ↔ Lang.NoCode (fileOf rt m text) := by
  obtain ⟨hlen, hall⟩ := (mapM_some_iff _ _ _).1 ho
  constructor
  · intro h
    apply Classical.byContradiction
    intro hno
    obtain ⟨bs, hbs⟩ := mapM_exists (assembleInst rt.ovf) (out.map (·.1)) (by
      intro a hain
      obtain ⟨q, hqm, rfl⟩ := List.mem_map.1 hain
      obtain ⟨j, hj⟩ := List.getElem?_of_mem hqm
      have hlt : j < (outInsts 0 tr).zipIdx.length := by
        rw [← hlen]; exact (List.getElem?_eq_some_iff.1 hj).1
      have hlt' : j < (outInsts 0 tr).length := by simpa using hlt
      have hz : (outInsts 0 tr).zipIdx[j]? = some ((outInsts 0 tr)[j], j) := by simp [hlt']
      obtain ⟨b, hb1, hb⟩ := hall j _ hz
      rw [hj] at hb1; cases hb1
      obtain ⟨k, ws, st, raw, h1, h2, h3, h4, h5, h6, h7⟩ := insts_instr hT (List.getElem?_eq_getElem hlt')
      obtain ⟨a, es⟩ := q
      obtain rfl : es = [] := hq _ hqm
      generalize hg : (outInsts 0 tr)[j] = p at *
      obtain ⟨ln, p2⟩ := p
      simp only at h2; subst h2
      cases hen : assembleInst rt.ovf a with
      | some b => exact ⟨b, rfl⟩
      | none => exact absurd ⟨k, raw, h5, h6, (encode_none_iff hT he h1 h3 hb h5).1 hen⟩ hno)
    have : assembleAll rt.ovf (out.map (·.1)) = some bs := hbs
    rw [this] at h; cases h
  · rintro ⟨k, raw, hk, hkind, hZ⟩
    have hk' : (lines text)[k]? = some raw := hk
    have hlt : k < tr.length := by rw [hT.1]; exact (List.getElem?_eq_some_iff.1 hk').1
    have htk : tr[k]? = some tr[k] := List.getElem?_eq_getElem hlt
    have hM := trace_matches hT he hk' htk
    obtain ⟨ws, i, hi⟩ : ∃ ws i, tr[k]? = some (.inst ws i) := by
      have htaken := (allTaken_iff hT).1 he k raw hk
      unfold Lang.LineTaken at htaken
      rw [hkind] at htaken
      obtain ⟨st, s1, s2⟩ := htaken
      exact inst_of hT ⟨raw, hk, hkind, s1, s2⟩
    obtain ⟨⟨a, es⟩, hb1, hb⟩ := hall (outInsts 0 (tr.take k)).length ((k + 1, i), (outInsts 0 (tr.take k)).length) (by
      simp [outInsts_at hi])
    have hmem := List.mem_of_getElem? hb1
    obtain rfl : es = [] := hq _ hmem
    have hnone := (encode_none_iff hT he hi rfl hb hk').2 hZ
    cases hall2 : assembleAll rt.ovf (out.map (·.1)) with
    | none => rfl
    | some bs =>
      have := ((mapM_some_iff _ _ _).1 hall2).2 (outInsts 0 (tr.take k)).length a (by simp [hb1])
      obtain ⟨_, _, h⟩ := this
      rw [hnone] at h; cases h

end

/-- **C56**.  For every source text, build mode, base address and symbols, the verdict of the assembler — a panic, a report of
errors, or code — is the one the specification of the language gives. -/
theorem C56_verdict [Unicode] (rt : Rt) (m : Mipsasm) (text : Str) :
    (assemble rt m text = .panic ↔ Lang.Panics ⟨rt.ovf, m.base, m.syms, lines text⟩) ∧
    ((∃ es ws, assemble rt m text = .err es ws) ↔ Lang.Refused ⟨rt.ovf, m.base, m.syms, lines text⟩) ∧
    ((∃ is ws, assemble rt m text = .ok is ws) ↔ Lang.Accepted ⟨rt.ovf, m.base, m.syms, lines text⟩) := by
  have hf : (⟨rt.ovf, m.base, m.syms, lines text⟩ : Lang.File) = fileOf rt m text := rfl
  rw [hf]
  have hends : (∃ tr, IsTrace (envOf rt m text) (lines text) tr) ↔ ¬ Lang.LineEnds (fileOf rt m text) := by
    rw [trace_iff_lines]
    constructor
    · rintro h ⟨k, raw, h1, h2⟩; exact h k raw h1 h2
    · intro h k raw h1 h2; exact h ⟨k, raw, h1, h2⟩
  have haccE : Lang.LineEnds (fileOf rt m text) → ¬ Lang.AllTaken (fileOf rt m text) := by
    rintro ⟨k, raw, h1, h2⟩ h3
    induction k using Nat.strongRecOn generalizing raw with
    | _ k ih =>
      by_cases hx : ∃ k' < k, ∃ raw', (lines text)[k']? = some raw' ∧ Lang.LineCrashes ((fileOf rt m text).place k') raw'
      · obtain ⟨k', hlt, raw', c1, c2⟩ := hx
        exact ih k' hlt raw' c1 c2
      · have hk : (lines text)[k]? = some raw := h1
        have hlt : k < (lines text).length := (List.getElem?_eq_some_iff.1 hk).1
        obtain ⟨tr, hT⟩ := trace_upto (rt := rt) (m := m) (Nat.le_of_lt hlt) fun k' raw' c1 c2 c3 => hx ⟨k', c1, raw', c2, c3⟩
        have hv := line_verdict hT hk
        obtain ⟨o, ho, _⟩ := hv.2.2 (h3 k raw h1)
        rw [hv.1.2 h2] at ho; cases ho
  unfold assemble
  rw [parse_eq]
  have hb : (⟨rt, m.base, m.syms, lines text⟩ : Env) = envOf rt m text := rfl
  rw [hb]
  unfold parseT
  unfold Lang.Panics Lang.Refused Lang.Accepted
  cases hT' : traceFrom (envOf rt m text) [] (envOf rt m text).input with
  | none =>
    have hle : Lang.LineEnds (fileOf rt m text) := by
      apply Classical.byContradiction
      intro h
      obtain ⟨tr, hT⟩ := hends.2 h
      have := (isTrace_iff _ _ _).2 hT
      have hT'' : traceFrom (envOf rt m text) [] (lines text) = none := hT'
      rw [this] at hT''; cases hT''
    simp only [hle, true_or, true_iff, reduceCtorEq, exists_false, not_true_eq_false, false_and, haccE hle, and_self]
  | some tr =>
    have hT : IsTrace (envOf rt m text) (lines text) tr := (isTrace_iff _ _ _).1 hT'
    have hle : ¬ Lang.LineEnds (fileOf rt m text) := hends.1 ⟨tr, hT⟩
    have hO := resolve_none_iff hT
    have hTk := allTaken_iff hT
    simp only
    cases ho : (outInsts 0 tr).zipIdx.mapM (fun p => adjust1 (envOf rt m text) (canonF tr) p.2 p.1) with
    | none =>
      have hov := hO.1 ho
      simp only [hov, true_or, or_true, true_iff, reduceCtorEq, exists_false, not_true_eq_false, false_and, and_false, and_self]
    | some out =>
      have hov : ¬ Lang.Overflows (fileOf rt m text) := fun h => by rw [hO.2 h] at ho; cases ho
      have hd : ((outWarns tr).all fun w => w.display.isSome) = true := by
        rw [List.all_eq_true]; exact trace_warns_display hT
      simp only [hd, if_true, hle, hov, false_or, not_false_eq_true, true_and]
      by_cases hE : outErrors tr = []
      · have hB := resolve_err_iff hT hE ho
        have htk := hTk.1 hE
        by_cases hq : ∀ q ∈ out, q.2 = []
        · have hbad := hB.1 hq
          have hemp : (outErrors tr ++ out.flatMap (·.2)).isEmpty = true := by simp [hE]; exact fun a b h => hq _ h
          rw [if_pos hemp]
          simp only [htk, hbad, not_true_eq_false, not_false_eq_true, true_and, or_false, iff_false]
          have hN := encode_iff hT hE ho hq
          cases hA : assembleAll rt.ovf (out.map (·.1)) with
          | none => simp [hN.1 hA]
          | some bs =>
            have : ¬ Lang.NoCode (fileOf rt m text) := fun h => by rw [hN.2 h] at hA; cases hA
            simp [this]
        · have hbad : Lang.BadPlace (fileOf rt m text) := Classical.byContradiction fun h => hq (hB.2 h)
          have hemp : ¬ (outErrors tr ++ out.flatMap (·.2)).isEmpty = true := by simp [hE]; simpa using hq
          rw [if_neg hemp]
          simp [hbad]
      · have htk : ¬ Lang.AllTaken (fileOf rt m text) := fun h => hE (hTk.2 h)
        have hemp : ¬ (outErrors tr ++ out.flatMap (·.2)).isEmpty = true := by simp [hE]
        rw [if_neg hemp]
        simp [htk]

/-- **C56**.  Without overflow checks, the assembler panics only because of a line that ends the program, or a `.word`. -/
theorem C56_release [Unicode] (rt : Rt) (m : Mipsasm) (text : Str) (hr : rt.ovf = false) (hp : assemble rt m text = .panic) :
    Lang.LineEnds ⟨rt.ovf, m.base, m.syms, lines text⟩ ∨
    ∃ (k : Nat) (raw : Str), (lines text)[k]? = some raw ∧ kind raw = .code ∧ mnemonic (body raw) = c!".word" := by
  rcases (C56_verdict rt m text).1.1 hp with h | h | ⟨_, _, k, raw, h1, h2, h3⟩
  · exact .inl h
  · have h' : rt.ovf = true := h.1
    rw [hr] at h'; cases h'
  · rcases h3 with h3 | ⟨h3, _⟩
    · exact .inr ⟨k, raw, h1, h2, h3⟩
    · have h' : rt.ovf = true := h3
      rw [hr] at h'; cases h'

/-- **C56**.  When the assembler returns, with errors or with code, the report has an error about a line exactly if the line is not
taken (errors about references between lines aside). -/
theorem C56_lines [Unicode] (rt : Rt) (m : Mipsasm) (text : Str) (es : List ParserError)
    (h : (assemble rt m text).errors = some es) (k : Nat) (raw : Str) (hk : (lines text)[k]? = some raw) :
    (∃ e ∈ lineErrors es, e.line = ⟨k + 1, raw⟩) ↔ ¬ Lang.LineTaken ⟨rt.ovf, m.syms, lines text, k⟩ raw := by
  obtain ⟨tr, out, hT, rfl, b, c⟩ := assemble_errors h
  have filt : lineErrors (outErrors tr ++ out.flatMap (·.2)) = outErrors tr := by
    unfold lineErrors
    rw [List.filter_append]
    have e1 : (out.flatMap (·.2)).filter (fun e => !e.isRef) = [] := by
      rw [List.filter_eq_nil_iff]
      intro e he
      simp [(ref_isRef b c e he).1]
    rw [e1, List.append_nil, List.filter_eq_self]
    intro e he
    obtain ⟨k, ws, hk⟩ := outErrors_get he
    obtain ⟨_, _, _, h⟩ := trace_err_line hT hk
    simp [h]
  have hlt : k < tr.length := by rw [hT.1]; exact (List.getElem?_eq_some_iff.1 hk).1
  have ho : tr[k]? = some tr[k] := List.getElem?_eq_getElem hlt
  rw [filt, ← taken_iff hT hk ho]
  constructor
  · rintro ⟨e, he, hl⟩ hE
    obtain ⟨k', ws, hk'⟩ := outErrors_get he
    obtain ⟨raw', h1, h2, h3⟩ := trace_err_line hT hk'
    rw [h2] at hl
    have : k' = k := by
      have := congrArg Line.num hl
      simp only at this; omega
    subst this
    rw [hk'] at ho
    rw [← Option.some.inj ho] at hE
    cases hE
  · intro hE
    cases hc : tr[k] with
    | rejected ws e =>
      rw [hc] at ho
      obtain ⟨raw', h1, h2, h3⟩ := trace_err_line hT ho
      have h1' : (lines text)[k]? = some raw' := h1
      rw [hk] at h1'; cases h1'
      refine ⟨e, ?_, h2⟩
      have : tr = tr.take k ++ (.rejected ws e) :: tr.drop (k + 1) := by rw [← hc]; simp
      rw [this, outErrors_append]
      simp [outErrors]
    | _ => rw [hc] at hE; exact absurd rfl hE

/-! ### Programs with each verdict -/

private theorem lang_ok {o : AsmOut} (h : o.words.isSome = true) : ∃ is ws, o = .ok is ws := by
  cases o with
  | ok is ws => exact ⟨is, ws, rfl⟩
  | err es ws => cases h
  | panic => cases h

/-- a program that is accepted -/
example : letI := asciiUnicode
    Lang.Accepted ⟨true, 0x80000000#32, [(0x80001234#32, c!"buf")], lines c!"main:; start\n lui $a0, %hi(buf)\n addiu $a0, $a0, %lo(buf)\n@@l:\n lw $t0, 4($a0)\n bne $t0, $zero, @@l\n nop\nend:\n jr $ra\n nop"⟩ := by
  letI := asciiUnicode
  exact (C56_verdict (idRt true) ⟨0x80000000#32, [(0x80001234#32, c!"buf")], false⟩ _).2.2.1
    (lang_ok (by decide +kernel))

private theorem lang_instr (f : Lang.File) (k : Nat) (raw t : Str) (h1 : f.ls[k]? = some raw) (h2 : kind raw = .code) (h3 : @Lang.plan asciiUnicode (body raw) = some [.target t, .name c!"j"])
    (h4 : Lang.LabelName f.syms (trim t)) : letI := asciiUnicode; Lang.Instr f k [.target t, .name c!"j"] := by
  letI := asciiUnicode
  refine ⟨raw, h1, h2, h3, ?_⟩
  intro s hs
  simp only [List.mem_cons, List.not_mem_nil, or_false] at hs
  rcases hs with rfl | rfl
  · exact .inr h4
  · exact (by decide +kernel : trim c!"j" = c!"j" ∧ ∀ c ∈ c!"j", isAscii c = true)

/-- a program that is refused: the specification says so, and therefore the assembler reports errors -/
example : letI := asciiUnicode
    ∃ es ws, assemble (idRt true) ⟨0#32, [], false⟩ c!" j nowhere" = .err es ws := by
  letI := asciiUnicode
  have hl : lines c!" j nowhere" = [c!" j nowhere"] := by decide +kernel
  refine (C56_verdict (idRt true) ⟨0#32, [], false⟩ _).2.1.2 ?_
  have hI : Lang.Instr ⟨true, 0#32, [], [c!" j nowhere"]⟩ 0 [.target c!"nowhere", .name c!"j"] :=
    lang_instr _ 0 c!" j nowhere" c!"nowhere" rfl (by decide +kernel) (by decide +kernel)
      ⟨rfl, 'n', c!"owhere", by decide +kernel, by decide⟩
  have hno : ∀ d, ¬ Lang.FirstDef [c!" j nowhere"] d c!"nowhere" := by
    rintro d ⟨⟨raw, h1, h2⟩, _⟩
    match d, h1 with
    | 0, h1 => cases h1; revert h2; decide +kernel
  have hinst : ∀ k st, Lang.Instr ⟨true, 0#32, [], [c!" j nowhere"]⟩ k st → st = [.target c!"nowhere", .name c!"j"] := by
    rintro k st ⟨raw, h1, _, h3, _⟩
    match k, h1 with
    | 0, h1 =>
      cases h1
      rw [show Lang.plan (body c!" j nowhere") = some [.target c!"nowhere", .name c!"j"] by decide +kernel] at h3
      cases h3; rfl
  show Lang.Refused ⟨true, 0#32, [], lines c!" j nowhere"⟩
  rw [hl]
  refine ⟨?_, ?_, .inr ⟨0, _, c!"nowhere", hI, .inr (.inl ⟨by simp, ⟨rfl, 'n', c!"owhere", by decide +kernel, by decide⟩, ?_⟩)⟩⟩
  · rintro ⟨k, raw, h1, h2⟩
    match k, h1 with
    | 0, h1 =>
      cases h1
      unfold Lang.LineCrashes at h2
      rw [show kind c!" j nowhere" = .code by decide +kernel] at h2
      obtain ⟨st, h3, h4⟩ := h2
      rw [show Lang.plan (body c!" j nowhere") = some [.target c!"nowhere", .name c!"j"] by decide +kernel] at h3
      cases h3
      rcases h4 with ⟨_, h4⟩ | ⟨_, h4 | ⟨_, h4⟩⟩
      · have := h4 'n' c!"owhere" (by decide +kernel); revert this; decide
      · exact h4 (by decide +kernel)
      · exact h4
  · rintro ⟨_, k, st, t, h1, ⟨h2, _⟩ | ⟨h2, _, d, n, h3, _⟩⟩
    · rw [hinst k st h1] at h2; simp at h2
    · rw [hinst k st h1] at h2
      simp at h2; subst h2
      exact hno d (by rw [show trim c!"nowhere" = c!"nowhere" by decide +kernel] at h3; exact h3)
  · rw [show trim c!"nowhere" = c!"nowhere" by decide +kernel]; exact hno

/-- a jump to a label that has no address: the specification says that the assembler panics, with overflow checks -/
example : letI := asciiUnicode; assemble (idRt true) ⟨0xFFFFFFFC#32, [], false⟩ c!" nop\nx:\n j x" = .panic := by
  letI := asciiUnicode
  have hl : lines c!" nop\nx:\n j x" = [c!" nop", c!"x:", c!" j x"] := by decide +kernel
  refine (C56_verdict (idRt true) ⟨0xFFFFFFFC#32, [], false⟩ _).1.2 ?_
  show Lang.Panics ⟨true, 0xFFFFFFFC#32, [], lines c!" nop\nx:\n j x"⟩
  rw [hl]
  have hL : Lang.LabelName [] (trim c!"x") := ⟨rfl, 'x', [], by decide +kernel, by decide⟩
  refine .inr (.inl ⟨rfl, 2, _, c!"x", lang_instr _ 2 c!" j x" c!"x" rfl (by decide +kernel) (by decide +kernel) hL, .inr ⟨by simp, hL, 1, 1, ?_, ?_, by unfold Lang.NoRoom; decide⟩⟩)
  · refine ⟨⟨c!"x:", rfl, by decide +kernel⟩, ⟨by decide +kernel, 'x', [], by decide +kernel, by decide⟩, ?_⟩
    rintro d hd ⟨raw, h1, h2⟩
    match d, hd with
    | 0, _ => cases h1; revert h2; decide +kernel
  · refine .inst 0 0 [.name c!"nop"] .none ⟨c!" nop", rfl, by decide +kernel, by decide +kernel, ?_⟩
    intro s hs
    simp only [List.mem_cons, List.not_mem_nil, or_false] at hs
    subst hs
    exact (by decide +kernel : trim c!"nop" = c!"nop" ∧ ∀ c ∈ c!"nop", isAscii c = true)

/-- a compare-and-branch over the distance 0 -/
example : letI := asciiUnicode; Lang.Panics ⟨true, 0#32, [], lines c!" bge $a0, $a1, 1"⟩ ∧ Lang.Accepted ⟨false, 0#32, [], lines c!" bge $a0, $a1, 1"⟩ := by
  letI := asciiUnicode
  refine ⟨(C56_verdict (idRt true) ⟨0#32, [], false⟩ _).1.1 ?_, (C56_verdict (idRt false) ⟨0#32, [], false⟩ _).2.2.1 (lang_ok (by decide +kernel))⟩
  decide +kernel

/-- Comments and labels may contain anything. -/
example : letI := asciiUnicode;
    Lang.Accepted ⟨true, 0#32, [], lines c!"début:; début\n jr $ra // 漢字\n nop\n j début\n nop"⟩ := by
  letI := asciiUnicode
  exact (C56_verdict (idRt true) ⟨0#32, [], false⟩ _).2.2.1 (lang_ok (by decide +kernel))

/-- A jump to a label whose first character is not ASCII, a mnemonic with the Kelvin sign, and one that is followed by a no-break space. -/
example : letI := asciiUnicode;
    Lang.Panics ⟨true, 0#32, [], lines c!"été:\n j été"⟩ ∧ Lang.Panics ⟨true, 0#32, [], lines c!" brea\u212a"⟩ ∧
    Lang.Panics ⟨true, 0#32, [], lines c!" jr\u00a0 $ra"⟩ := by
  letI := asciiUnicode
  refine ⟨(C56_verdict (idRt true) ⟨0#32, [], false⟩ _).1.1 ?_, (C56_verdict (idRt true) ⟨0#32, [], false⟩ _).1.1 ?_,
    (C56_verdict (idRt true) ⟨0#32, [], false⟩ _).1.1 ?_⟩ <;> decide +kernel

end Mips
