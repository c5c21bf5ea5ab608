/-
**C58** — the error report: exactly which errors, with which quotations, in which order.
-/
import Verif.Lemmas.LangL16
import Verif.Props.LanguageP

namespace Mips
open Source Syntax Branch Operands
open Mips.Isa hiding conds Code
open Mips.Names hiding none

section
variable [Unicode] {rt : Rt} {m : Mipsasm} {text : Str} {tr tr' : List Outcome}

omit [Unicode] in
private theorem bare_inst (h : tr'.map Outcome.bare = tr.map Outcome.bare) (k : Nat) :
    (∀ ws i, tr'[k]? = some (.inst ws i) → ∃ ws', tr[k]? = some (.inst ws' i)) ∧ (∀ ws i, tr[k]? = some (.inst ws i) → ∃ ws', tr'[k]? = some (.inst ws' i)) := by
  have hk : (tr'[k]?).map Outcome.bare = (tr[k]?).map Outcome.bare := by rw [← List.getElem?_map, ← List.getElem?_map, h]
  constructor
  · intro ws i hi
    rw [hi] at hk
    cases ho : tr[k]? with
    | none => rw [ho] at hk; cases hk
    | some o =>
      rw [ho] at hk
      cases o <;> simp only [Option.map_some, Outcome.bare, Option.some.injEq, Outcome.inst.injEq, reduceCtorEq] at hk
      exact ⟨_, by rw [hk.2]⟩
  · intro ws i hi
    rw [hi] at hk
    cases ho : tr'[k]? with
    | none => rw [ho] at hk; cases hk
    | some o =>
      rw [ho] at hk
      cases o <;> simp only [Option.map_some, Outcome.bare, Option.some.injEq, Outcome.inst.injEq, reduceCtorEq] at hk
      exact ⟨_, by rw [hk.2]⟩

/-- What a returned report says, and that the report is the only one the specification allows. -/
theorem report_of {es : List ParserError} (h : (assemble rt m text).errors = some es) :
    Lang.Reports (fileOf rt m text) es ∧ ∀ es', Lang.Reports (fileOf rt m text) es' → es' = es := by
  obtain ⟨tr, out, hT, rfl, hlen, hall⟩ := assemble_errors h
  obtain ⟨tr', hT1, hb, he⟩ := clean_trace hT
  obtain ⟨hC, hlines⟩ := cleaned_of hT
  have hT' : IsTrace (envOf rt m (textOf (cleanLs (lines text) tr))) (lines (textOf (cleanLs (lines text) tr))) tr' := by rw [hlines]; exact hT1
  generalize hg : textOf (cleanLs (lines text) tr) = gt at *
  have hI : outInsts 0 tr' = outInsts 0 tr := by rw [← bare_insts, hb, bare_insts]
  have hL : outLabels 0 tr' = outLabels 0 tr := by rw [← bare_labels, hb, bare_labels]
  have hF : finalLocs tr' = finalLocs tr := by rw [← bare_final, hb, bare_final]
  have hIk : ∀ k, outInsts 0 (tr'.take k) = outInsts 0 (tr.take k) := by
    intro k
    rw [← bare_insts, List.map_take, hb, ← List.map_take, bare_insts]
  have hraws : ∀ {k : Nat} {raw raw' : Str} {ws : List ParserWarning} {i : Instruction}, tr[k]? = some (.inst ws i) → (lines text)[k]? = some raw → (lines gt)[k]? = some raw' → raw' = raw := by
    intro k raw raw' ws i h1 h2 h3
    rw [hlines, clean_get h2 h1] at h3
    exact (Option.some.inj h3).symm
  have huniq : ∀ k raw e e', Lang.PlaceError (fileOf rt m text) (fileOf rt m gt) k raw e → Lang.PlaceError (fileOf rt m text) (fileOf rt m gt) k raw e' → e = e' := by
    intro k raw e e' h1 h2
    obtain ⟨st, _, hi, _⟩ := id h1
    obtain ⟨ws, i, _, _, _, _, _, hS⟩ := instr_insts hT' hi
    exact place_unique hi hS h1 h2
  have hplace : ∀ k ≤ (lines text).length, Lang.InOrder (fun k e => ∃ raw, (lines text)[k]? = some raw ∧ Lang.PlaceError (fileOf rt m text) (fileOf rt m gt) k raw e) k
      ((out.take (outInsts 0 (tr.take k)).length).flatMap (·.2)) := by
    intro k
    induction k with
    | zero => intro _; simp [outInsts]; exact .nil
    | succ k ih =>
      intro hk
      have ih := ih (by omega)
      have hlt : k < tr.length := by rw [hT.1]; omega
      have ho : tr[k]? = some tr[k] := List.getElem?_eq_getElem hlt
      have hraw : (lines text)[k]? = some (lines text)[k] := List.getElem?_eq_getElem (by omega)
      rw [List.take_succ_eq_append_getElem hlt, outInsts_append]
      cases hc : tr[k] with
      | inst ws i =>
        rw [hc] at ho
        have hat := outInsts_at ho
        obtain ⟨⟨a, es⟩, hq1, hq2⟩ := hall _ _ hat
        simp only [outInsts, List.length_append, List.length_cons, List.length_nil, Nat.zero_add]
        have : (out.take ((outInsts 0 (tr.take k)).length + 1)).flatMap (·.2) = (out.take (outInsts 0 (tr.take k)).length).flatMap (·.2) ++ es := by
          rw [List.take_add_one, hq1, List.flatMap_append]; simp
        rw [this]
        obtain ⟨ws', ho'⟩ := (bare_inst hb k).2 ws i ho
        obtain ⟨st, raw', hIn, hr1, hr2, hS, _⟩ := shape_of hT' ho'
        obtain rfl := hraws ho hraw hr1
        have := place_exact (env := envOf rt m text) (s := canonF tr) (f := fileOf rt m text) hT' he rfl rfl
          (by rw [hI]; rfl) (by rw [hL]; rfl) (by rw [hF]; rfl) hT.1 rfl ho' hr1 hraw hr2 hIn hS rfl (by rw [hIk]; exact hq2)
        rcases this with ⟨rfl, hno⟩ | ⟨e, rfl, hP⟩
        · rw [List.append_nil]
          refine .none k _ ih ?_
          rintro e ⟨raw, h1, h2⟩
          rw [hraw] at h1; cases h1
          exact hno e h2
        · exact .error k _ e ih ⟨_, hraw, hP⟩
      | _ =>
        rw [hc] at ho
        simp only [outInsts, List.append_nil]
        refine .none k _ ih ?_
        rintro e ⟨raw, h1, st, _, hIn, _⟩
        obtain ⟨ws, i, ho'⟩ := inst_of hT' hIn
        obtain ⟨ws', ho''⟩ := (bare_inst hb k).1 ws i ho'
        rw [ho] at ho''; cases ho''
  have hA := errors_inOrder hT (Nat.le_refl _)
  rw [← hT.1, List.take_length, hT.1] at hA
  have hB := hplace _ (Nat.le_refl _)
  rw [← hT.1, List.take_length, ← hlen, List.take_length, hT.1] at hB
  refine ⟨⟨_, _, _, rfl, hC, hA, hB⟩, ?_⟩
  rintro es' ⟨a, b, g, rfl, hC', hA', hB'⟩
  obtain rfl := cleaned_unique hC hC'
  have ea : a = outErrors tr := inOrder_unique (fun k e e' ⟨r, h1, h2⟩ ⟨r', h1', h2'⟩ => by
    rw [h1] at h1'; cases h1'
    exact lineError_unique (lines_noNl text _ (List.mem_of_getElem? h1)) h2 h2') hA' hA
  have eb : b = out.flatMap (·.2) := inOrder_unique (fun k e e' ⟨r, h1, h2⟩ ⟨r', h1', h2'⟩ => by
    rw [h1] at h1'; cases h1'
    exact huniq k _ e e' h2 h2') hB' hB
  rw [ea, eb]

end

/-- **C58**.  For every source text, build mode, base address and symbols, the assembler reports the errors `es` (none, if it
makes code) exactly if it does not panic and the specification of the language has the report `es`: one error for every line that is
not taken, in order, and then one for every instruction whose place cannot be found or reached, in order. -/
theorem C58_report [Unicode] (rt : Rt) (m : Mipsasm) (text : Str) (es : List ParserError) :
    (assemble rt m text).errors = some es ↔
      ¬ Lang.Panics ⟨rt.ovf, m.base, m.syms, lines text⟩ ∧ Lang.Reports ⟨rt.ovf, m.base, m.syms, lines text⟩ es := by
  constructor
  · intro h
    refine ⟨fun hp => ?_, (report_of h).1⟩
    rw [(C56_verdict rt m text).1.2 hp] at h
    cases h
  · rintro ⟨hp, hr⟩
    cases h : (assemble rt m text).errors with
    | some es0 => rw [(report_of h).2 es hr]
    | none =>
      refine absurd ((C56_verdict rt m text).1.1 ?_) hp
      cases h' : assemble rt m text with
      | panic => rfl
      | ok _ _ => rw [h'] at h; cases h
      | err _ _ => rw [h'] at h; cases h

/-! ### Reports -/

/-- Errors of every kind: the report of the assembler is the one of the specification. -/
example : letI := asciiUnicode
    Lang.Reports ⟨true, 0x1000#32, [], lines c!"a:\na:\n j b\n frob 1\n addu $a0, r99, $a1\n addiu $a0, $a1, 99999\n9x:\n add $a0\n beq $a0, $a1, @@q\n beq $a0, $a1, 0x4000\n c.foo.s $f0, $f1\n j 0x80000000z\n beq $a0, $a1, @@m\nz:\n nop\n@@m:\ny:\n nop"⟩
      [.multipleLabelDefinition ⟨2, c!"a:"⟩ c!"a" ⟨1, c!"a:"⟩, .invalidOpcode ⟨4, c!" frob 1"⟩ c!"frob",
       .invalidRegister ⟨5, c!" addu $a0, r99, $a1"⟩ c!"99", .invalidImmediate ⟨6, c!" addiu $a0, $a1, 99999"⟩ c!"99999",
       .invalidLabel ⟨7, c!"9x:"⟩ c!"9x", .invalidOperandCount ⟨8, c!" add $a0"⟩ 3 1 c!"$a0",
       .invalidFloatCond ⟨11, c!" c.foo.s $f0, $f1"⟩ c!"foo", .invalidTargetAddress ⟨12, c!" j 0x80000000z"⟩ c!"80000000z",
       .undefinedLabel ⟨3, c!" j b"⟩ c!"b", .undefinedLabel ⟨9, c!" beq $a0, $a1, @@q"⟩ c!"@@q",
       .branchOutOfBounds ⟨18, c!" nop"⟩ c!" beq $a0, $a1, 0x4000" 0x1000#32 0x1018#32,
       .localLabelOutOfScope ⟨13, c!" beq $a0, $a1, @@m"⟩ c!"@@m"] := by
  letI := asciiUnicode
  refine ((C58_report (idRt true) ⟨0x1000#32, [], false⟩ _ _).1 ?_).2
  decide +kernel

/-- A mnemonic that there is not: by the specification alone there is one error, and therefore the assembler reports it. -/
example : letI := asciiUnicode
    (assemble (idRt true) ⟨0#32, [], false⟩ c!" frob 1").errors = some [.invalidOpcode ⟨1, c!" frob 1"⟩ c!"frob"] := by
  letI := asciiUnicode
  have hl : lines c!" frob 1" = [c!" frob 1"] := by decide +kernel
  have hk : kind c!" frob 1" = .code := by decide +kernel
  have hp : Lang.plan (body c!" frob 1") = none := by decide +kernel
  have hnt : ∀ p, ¬ Lang.LineTaken p c!" frob 1" := by
    intro p h
    unfold Lang.LineTaken at h
    rw [hk] at h
    obtain ⟨st, h, _⟩ := h
    rw [hp] at h; cases h
  have hb : kind [] = .blank := by decide +kernel
  have hno : ∀ k st, ¬ Lang.Instr ⟨true, 0#32, [], [c!" frob 1"]⟩ k st := by
    rintro k st ⟨raw, h1, _, h3, _⟩
    match k, h1 with
    | 0, h1 => cases h1; rw [hp] at h3; cases h3
  refine (C58_report (idRt true) ⟨0#32, [], false⟩ _ _).2 ?_
  show ¬ Lang.Panics ⟨true, 0#32, [], lines c!" frob 1"⟩ ∧ Lang.Reports ⟨true, 0#32, [], lines c!" frob 1"⟩ _
  rw [hl]
  refine ⟨?_, [_], [], ⟨true, 0#32, [], [[]]⟩, rfl, ⟨rfl, rfl, rfl, rfl, ?_⟩, .error 0 [] _ .nil ⟨_, rfl, ?_⟩, .none 0 [] .nil ?_⟩
  · rintro (⟨k, raw, h1, h2⟩ | ⟨_, k, st, t, h1, _⟩ | ⟨h, _⟩)
    · match k, h1 with
      | 0, h1 =>
        cases h1
        unfold Lang.LineCrashes at h2
        rw [hk] at h2
        obtain ⟨st, h3, _⟩ := h2
        rw [hp] at h3; cases h3
    · exact hno k st h1
    · exact hnt _ (h 0 _ rfl)
  · intro k raw h1
    match k, h1 with
    | 0, h1 => cases h1; exact .inr ⟨hnt _, rfl⟩
  · unfold Lang.LineError
    rw [hk]
    exact .inl ⟨hp, by decide +kernel⟩
  · rintro e ⟨raw, _, st, t, ⟨raw', h1, h2, _⟩, _⟩
    cases h1
    rw [hb] at h2; cases h2

end Mips
