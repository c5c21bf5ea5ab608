/-
**C57** — exactly which code is generated.
-/
import Verif.Lemmas.CodeL9

namespace Mips
open Source Syntax Branch Operands
open Mips.Isa hiding conds Code
open Mips.Names hiding none
open Mips.Lang (Val Values Yields Const code callName)

theorem steps_text {mn w : Str} {e : Lang.Step} : ∀ {rs : List Role} {ops : List Str}, e ∈ Lang.steps mn w rs ops → stepText e = [] ∨ stepText e ∈ ops := by
  intro rs
  induction rs with
  | nil => intro ops h; simp [Lang.steps] at h; subst h; exact .inl rfl
  | cons r rs ih =>
    intro ops h
    unfold Lang.steps at h
    split at h
    all_goals first
      | (simp at h; rcases h with rfl | rfl | rfl <;> simp [stepText]; done)
      | (simp at h; rcases h with rfl | rfl <;> simp [stepText]; done)
      | (simp at h; subst h; exact .inl rfl)
      | (split at h <;> (simp at h; rcases h with rfl | rfl <;> simp [stepText]); done)
      | (rename_i e
         cases e
         rcases List.mem_cons.1 h with rfl | h
         · exact .inr (List.mem_cons_self ..)
         · rcases ih h with h | h
           · exact .inl h
           · exact .inr (List.mem_cons_of_mem _ h))

theorem plan_text [Unicode] {s : Str} {st : List Lang.Step} (h : Lang.plan s = some st) {e : Lang.Step} (he : e ∈ st) :
    stepText e = [] ∨ stepText e = operandText s ∨ stepText e ∈ operands s := by
  unfold Lang.plan at h
  simp only at h
  split at h
  · cases h; simp at he; subst he; exact .inl rfl
  · split at h
    · cases h; simp at he; subst he; exact .inr (.inl rfl)
    · split at h
      · simp only [Option.map_eq_some_iff] at h
        obtain ⟨e', _, rfl⟩ := h
        rcases steps_text he with h | h
        · exact .inl h
        · exact .inr (.inr h)
      · unfold Lang.floatPlan at h
        repeat' split at h
        all_goals first
          | (cases h; done)
          | (cases h; simp at he; subst he; exact .inl rfl)
          | (cases h
             simp only [List.mem_append, List.mem_map, List.mem_cons, List.not_mem_nil, or_false] at he
             rcases he with ⟨o, ho, rfl⟩ | rfl
             · exact .inr (.inr ho)
             · exact .inl rfl)
          | (cases h
             simp only [List.mem_append, List.mem_map, List.mem_cons, List.not_mem_nil, or_false] at he
             rcases he with ⟨o, ho, rfl⟩ | rfl | rfl
             · exact .inr (.inr ho)
             · exact .inl rfl
             · exact .inl rfl)

section
variable [Unicode] {rt : Rt} {m : Mipsasm} {text : Str} {tr : List Outcome}

/-- a line has at most one list of words -/
theorem lineWords_unique (hT : IsTrace (envOf rt m text) (lines text) tr) {k : Nat} {raw : Str} (hraw : (lines text)[k]? = some raw)
    {ws ws' : List Word} (h : Lang.LineWords (fileOf rt m text) k raw ws) (h' : Lang.LineWords (fileOf rt m text) k raw ws') : ws = ws' := by
  obtain ⟨st, vs, h1, h2, h3⟩ := h
  obtain ⟨st', vs', h1', h2', h3'⟩ := h'
  rw [h1] at h1'; cases h1'
  have hlt : k < (lines text).length := (List.getElem?_eq_some_iff.1 hraw).1
  have hS : Sees ((fileOf rt m text).place k) (ctxAt (envOf rt m text) (tr.take k)) := sees_at (isTrace_take hT k) (Nat.le_of_lt hlt)
  have hnl : '\n' ∉ raw := lines_noNl text _ (List.mem_of_getElem? hraw)
  have hsub : ∀ e ∈ st, ∀ c ∈ stepText e, c ∈ body raw := by
    intro e he c hc
    rcases plan_text h1 he with h | h | h
    · rw [h] at hc; cases hc
    · rw [h] at hc; exact (words_infix (body raw)).2.subset hc
    · exact (words_infix (body raw)).2.subset ((infix_of_split h).subset hc)
  have hv := values_unique hS (fun e he hc => hnl ((body_infix raw).subset (hsub e he _ hc))) h2 h2'
  rw [hv, h3'] at h3
  exact (Option.some.inj h3).symm

end

/-- **C57**.  Of every program that is accepted, the words generated for a line are exactly those that the specification gives:
the mnemonic, with the values of its operands, stands for a list of machine instructions, whose encodings are the words. -/
theorem C57_line [Unicode] (rt : Rt) (m : Mipsasm) (text : Str) (is : List Instruction) (warns : List ParserWarning)
    (h : assemble rt m text = .ok is warns) (k : Nat) (raw : Str) (hk : (lines text)[k]? = some raw) (hc : kind raw = .code) (ws : List Word) :
    (is[codeCount ((lines text).take k)]?).map Instruction.getBytes = some ws ↔
      Lang.LineWords ⟨rt.ovf, m.base, m.syms, lines text⟩ k raw ws := by
  obtain ⟨tr, x, wn, p, a, b, hT, he, _, _, ht, _, hadj, hb, hab, hi, _⟩ := line_done h hk hc
  have hnw : ∀ w, p ≠ .bytes w := by
    rintro w rfl
    cases hadj
    cases hab
  have hl : Lang.LineWords (fileOf rt m text) k raw b.getBytes := line_code hT he ht (trace_counts hT he k).2 hadj hk hb hnw
  rw [hi]
  constructor
  · intro e; cases e; exact hl
  · intro hw
    exact congrArg some (lineWords_unique hT hk hl hw)

/-- **C57**.  For every source text, build mode, base address and symbols: the assembler returns the words `ws` exactly if the
program is one that is accepted (C56) and its lines generate `ws`. -/
theorem C57_program [Unicode] (rt : Rt) (m : Mipsasm) (text : Str) (ws : List Word) :
    (assemble rt m text).words = some ws ↔
      Lang.Accepted ⟨rt.ovf, m.base, m.syms, lines text⟩ ∧ Lang.Generates ⟨rt.ovf, m.base, m.syms, lines text⟩ (lines text).length ws := by
  have hV := (C56_verdict rt m text).2.2
  by_cases hok : ∃ is warns, assemble rt m text = .ok is warns
  · have hacc := hV.1 hok
    obtain ⟨is, warns, h⟩ := hok
    obtain ⟨tr, hT, he, _, hlen, _⟩ := assemble_ok h
    have hlen' : is.length = codeCount (lines text) := is_length h
    have gen : ∀ k ≤ (lines text).length, Lang.Generates (fileOf rt m text) k (getBytes (is.take (codeCount ((lines text).take k)))) := by
      intro k
      induction k with
      | zero => intro _; exact .none
      | succ k ih =>
        intro hk
        have hraw : (lines text)[k]? = some (lines text)[k] := List.getElem?_eq_getElem (by omega)
        have htk : (lines text).take (k + 1) = (lines text).take k ++ [(lines text)[k]] := List.take_succ_eq_append_getElem (by omega)
        have ih := ih (by omega)
        by_cases hc : kind (lines text)[k] = .code
        · have hcnt : codeCount ((lines text).take (k + 1)) = codeCount ((lines text).take k) + 1 := by
            rw [htk, codeCount_append]
            simp [codeCount, isCode, hc]
          obtain ⟨_, _, _, _, _, b, _, _, _, _, _, _, _, _, _, hi, _⟩ := line_done h hraw hc
          have hw := (C57_line rt m text is warns h k _ hraw hc b.getBytes).1 (by rw [hi]; rfl)
          have hb : is.take (codeCount ((lines text).take (k + 1))) = is.take (codeCount ((lines text).take k)) ++ [b] := by
            rw [hcnt, List.take_add_one, hi]; rfl
          rw [hb]
          have : getBytes (is.take (codeCount ((lines text).take k)) ++ [b]) = getBytes (is.take (codeCount ((lines text).take k))) ++ b.getBytes := by
            simp [getBytes]
          rw [this]
          exact .inst k _ _ _ ih hraw hc hw
        · have hcnt : codeCount ((lines text).take (k + 1)) = codeCount ((lines text).take k) := by
            rw [htk, codeCount_append]
            simp [codeCount, isCode, hc]
          rw [hcnt]
          exact .other k _ _ ih hraw hc
    have uniq : ∀ k out, Lang.Generates (fileOf rt m text) k out → ∀ out', Lang.Generates (fileOf rt m text) k out' → out = out' := by
      intro k out hg
      induction hg with
      | none => intro out' h; cases h; rfl
      | inst k raw ws out _ h1 h2 h3 ih =>
        intro out' h
        cases h with
        | inst _ raw' ws' out2 g1 g2 g3 g4 =>
          rw [h1] at g2; cases g2
          rw [ih _ g1, lineWords_unique hT h1 h3 g4]
        | other _ raw' _ g1 g2 g3 =>
          rw [h1] at g2; cases g2
          exact absurd h2 g3
      | other k raw out _ h1 h2 ih =>
        intro out' h
        cases h with
        | inst _ raw' ws' out2 g1 g2 g3 g4 =>
          rw [h1] at g2; cases g2
          exact absurd g3 h2
        | other _ raw' _ g1 g2 g3 => exact ih _ g1
    have hfull := gen (lines text).length (Nat.le_refl _)
    rw [List.take_of_length_le (Nat.le_refl _), ← hlen', List.take_of_length_le (Nat.le_refl _)] at hfull
    rw [h]
    constructor
    · intro e; cases e; exact ⟨hacc, hfull⟩
    · rintro ⟨_, hg⟩
      exact congrArg some (uniq _ _ hfull _ hg)
  · constructor
    · intro h
      exfalso
      cases ho : assemble rt m text with
      | ok is warns => exact hok ⟨is, warns, ho⟩
      | err _ _ => rw [ho] at h; cases h
      | panic => rw [ho] at h; cases h
    · rintro ⟨h, _⟩
      exact absurd (hV.2 h) hok

/-! ### Programs and their words -/

/-- a program with a symbol, a local label, a backward branch, a jump to a label, a pseudo-instruction and a floating-point comparison -/
example : letI := asciiUnicode
    Lang.Generates ⟨true, 0x80000000#32, [(0x80001234#32, c!"buf")],
        lines c!"main:; start\n lui $a0, %hi(buf)\n li $t0, 0x12345678\n@@l:\n lw $t0, 4($a0)\n bne $t0, $zero, @@l\n C.LT.S $f2, $f4\nend:\n j main\n nop"⟩ 10
      [0x3C048000#32, 0x3C081234#32, 0x35085678#32, 0x8C880004#32, 0x1500FFFE#32, 0x4604103C#32, 0x08000000#32, 0#32] := by
  letI := asciiUnicode
  exact ((C57_program (idRt true) ⟨0x80000000#32, [(0x80001234#32, c!"buf")], false⟩ _ _).1 (by decide +kernel)).2

/-- the specification, by itself, gives the words of a line: an expansion into four machine instructions -/
example (f : Lang.File) (k : Nat) : letI := asciiUnicode; Lang.LineWords f k c!" MULOU $t0, $a0, $5 ; c"
    [0x00850019#32, 0x00000810#32, 0x00004012#32, 0x002001B6#32] := by
  letI := asciiUnicode
  have reg : ∀ {s : Str} {r : Register} (b : BitVec 5), Register.fromStr s = .ok r → r = b.toFin → Taken GprTaken s b := by
    intro s r b h2 h3
    obtain ⟨b', h4, h5⟩ := gpr_back h2
    have : b = b' := by
      apply BitVec.eq_of_toNat_eq
      have := h3.symm.trans h5
      exact congrArg Fin.val this
    rw [this]; exact h4
  refine ⟨[.gpr false c!"$t0", .gpr false c!" $a0", .gpr false c!" $5 ", .name c!"MULOU"], [.gpr 8, .gpr 4, .gpr 5], by decide +kernel, ?_, by decide +kernel⟩
  exact va_gpr (reg (r := 8) 8 (by decide +kernel) rfl) (va_gpr (reg (r := 4) 4 (by decide +kernel) rfl)
    (va_gpr (reg (r := 5) 5 (by decide +kernel) rfl) (va_name .nil)))

end Mips
