/- The errors about places (for C58). -/
import Verif.Lemmas.LangL15

namespace Mips
open Source Syntax Branch Operands
open Mips.Isa hiding conds Code
open Mips.Names hiding none

section
variable [Unicode] {rt : Rt} {m : Mipsasm} {text : Str} {tr : List Outcome}

omit [Unicode] in
theorem adjust1_same {env env' : Env} {s t : PState} (ho : env.rt.ovf = env'.rt.ovf) (hb : env.base = env'.base) (hi : s.insts.length = t.insts.length)
    (hl : s.labels = t.labels) (hd : s.dropped = t.dropped) {n k : Nat} (hk : env.input[k]? = env'.input[k]?) {i : Instruction}
    (hn : ∀ o rs r a b, i ≠ .imm o rs r (.int a) b) : adjust1 env s n (k + 1, i) = adjust1 env' t n (k + 1, i) := by
  have hla : lineAt env (k + 1) = lineAt env' (k + 1) := by
    unfold lineAt
    show (env.input[k]?).map _ = (env'.input[k]?).map _
    rw [hk]
  unfold adjust1
  simp only [hi, hl, hd, hla, ho, hb]
  cases i with
  | imm o rs r im b =>
    cases im with
    | int a => exact absurd rfl (hn o rs r a b)
    | _ => rfl
  | jump o t b => cases t <;> rfl
  | _ => rfl

/-- The error about the place that an instruction refers to; `env` quotes the lines of `f`. -/
theorem place_exact (hT : IsTrace (envOf rt m text) (lines text) tr) (he : outErrors tr = []) {env : Env} {s : PState} {f : Lang.File}
    (hovf : env.rt.ovf = rt.ovf) (hbase : env.base = m.base) (hs1 : s.insts.length = (outInsts 0 tr).length) (hs2 : s.labels = outLabels 0 tr)
    (hs3 : s.dropped = finalLocs tr) (hs4 : s.lineNum = f.ls.length) (hf : env.input = f.ls)
    {k : Nat} {ws : List ParserWarning} {i : Instruction} (hk : tr[k]? = some (.inst ws i)) {raw : Str} (hraw : (lines text)[k]? = some raw)
    (hraw' : f.ls[k]? = some raw) (hkind : kind raw = .code) {st : List Lang.Step} (hI : Lang.Instr (fileOf rt m text) k st)
    (hS : Shape (fileOf rt m text) (outLabels 0 (tr.take k)) k st i) {n : Nat} (hn : (outInsts 0 (tr.take k)).length = n)
    {a : Instruction} {es : List ParserError} (hadj : adjust1 env s n (k + 1, i) = some (a, es)) :
    (es = [] ∧ ∀ e, ¬ Lang.PlaceError f (fileOf rt m text) k raw e) ∨ ∃ e, es = [e] ∧ Lang.PlaceError f (fileOf rt m text) k raw e := by
  have hnc : n = codeCount ((lines text).take k) := by rw [← hn]; exact (trace_counts hT he k).2
  have hla : lineAt env (k + 1) = some ⟨k + 1, raw⟩ := by
    unfold lineAt
    show (env.input[k]?).map _ = _
    rw [hf, hraw']; rfl
  have hin : env.input[k + 1 - 1]? = some raw := by rw [hf]; exact hraw'
  have uniq : ∀ {st'}, Lang.Instr (fileOf rt m text) k st' → st' = st := fun h => instr_unique h hI
  cases hS with
  | still _ h1 h2 h3 h4 h5 =>
    rw [h1] at hadj
    cases hadj
    refine .inl ⟨rfl, ?_⟩
    rintro e ⟨st', t, hI', ⟨c1, c2, _⟩ | ⟨c1, c2, _⟩ | ⟨c1, c2, _⟩ | ⟨c1, v, last, c2, _⟩⟩ <;> obtain rfl := uniq hI'
    · rw [h2 t c1] at c2; cases c2
    · rw [h2 t c1] at c2; cases c2
    · exact h3 t c1 c2
    · exact h4 t v c1 c2
  | loc o rs r t h1 h2 h3 =>
    have hE : adjust1 env s n (k + 1, .imm o rs r (.localLabel (trim t)) []) = adjust1 (envOf rt m text) (canonF tr) n (k + 1, .imm o rs r (.localLabel (trim t)) []) :=
      adjust1_same hovf hbase hs1 hs2 hs3 (by rw [hf, hraw']; exact hraw.symm) (by intro o rs r a b h; cases h)
    rw [hE] at hadj
    subst hnc
    have hC : Lang.Constant st t := (h2 t).2 rfl
    rcases local_exact hT he hraw hkind h1 o rs r [] with ⟨d, c1, c2, e⟩ | ⟨c1, e⟩ | ⟨c1, c2, c3, e⟩
    · rw [e] at hadj; cases hadj
      refine .inl ⟨rfl, ?_⟩
      rintro e ⟨st', t', hI', ⟨g1, g2, g3, _⟩ | ⟨g1, g2, g3, g4, g5, _⟩ | ⟨g1, g2, _⟩ | ⟨g1, v, last, g2, _⟩⟩ <;> obtain rfl := uniq hI'
      · obtain rfl := (h2 t').1 g1
        exact g3 ⟨c2, d, c1.1⟩
      · obtain rfl := (h2 t').1 g1
        exact g5 d c1
      · exact h3 t' g1
      · obtain rfl := (h2 t').1 (const_constant g1)
        exact absurd (local_refers h1) g2.1
    · rw [e] at hadj; cases hadj
      refine .inr ⟨_, rfl, st, t, hI, .inl ⟨hC, h1, ?_, rfl⟩⟩
      rintro ⟨g1, d, g2⟩
      exact c1.elim (fun h => h g1) (fun h => h d g2)
    · rw [e] at hadj; cases hadj
      exact .inr ⟨_, rfl, st, t, hI, .inr (.inl ⟨hC, h1, c1, c2, fun d hd => c3 d hd.1 hd.2.1, rfl⟩)⟩
  | lab o rs r t h1 hl hr h2 h3 =>
    unfold adjust1 at hadj
    simp only [opt_bind, Option.bind_eq_some_iff, Option.some.injEq, Prod.mk.injEq] at hadj
    obtain ⟨_, _, _, rfl⟩ := hadj
    refine .inl ⟨rfl, ?_⟩
    rintro e ⟨st', t', hI', ⟨g1, g2, g3, _⟩ | ⟨g1, g2, g3, g4, g5, _⟩ | ⟨g1, g2, _⟩ | ⟨g1, v, last, g2, _⟩⟩ <;> obtain rfl := uniq hI'
    · obtain rfl := (h2 t').1 g1; rw [h1] at g2; cases g2
    · obtain rfl := (h2 t').1 g1; rw [h1] at g2; cases g2
    · exact h3 t' g1
    · obtain rfl := (h2 t').1 (const_constant g1)
      exact absurd hr g2.1
  | num o rs r t v hv hb h2 h2' h3 =>
    unfold adjust1 at hadj
    simp only [hb, Bool.not_true, Bool.false_eq_true, if_false, hs1, hovf, hbase, hs4] at hadj
    have hcc : (outInsts 0 tr).length = codeCount (lines text) := (trace_counts_all hT he).2
    have hkl : k < f.ls.length := (List.getElem?_eq_some_iff.1 hraw').1
    obtain ⟨last, hlast⟩ : ∃ last, f.ls.getLast? = some last := by
      cases h : f.ls.getLast? with
      | none => rw [List.getLast?_eq_none_iff] at h; rw [h] at hkl; cases hkl
      | some l => exact ⟨l, rfl⟩
    have hll : lineAt env f.ls.length = some ⟨f.ls.length, last⟩ := by
      unfold lineAt
      rw [hf, ← List.getLast?_eq_getElem?, hlast]; rfl
    rcases chk_cases rt.ovf m.base (outInsts 0 tr).length with ⟨c, e⟩ | ⟨c, a, q, e1, e2, hq⟩
    · exfalso
      cases h1 : chkMul rt.ovf (BitVec.ofNat 32 (outInsts 0 tr).length) 4#32 with
      | none => rw [h1] at hadj; cases hadj
      | some a =>
        rw [h1] at e hadj
        simp only [Option.bind_some] at e
        simp only [opt_bind, Option.bind_some, e, Option.bind_none] at hadj
        cases hadj
    · simp only [e1, opt_bind, Option.bind_some, e2, hll, hin] at hadj
      have hvn : (BitVec.ofNat 32 v).toNat = v := by
        have := hv.2.2.2
        rw [BitVec.toNat_ofNat]; omega
      rw [hvn, hq, hcc] at hadj
      have hqw : q = BitVec.ofNat 32 (m.base.toNat + 4 * codeCount (lines text)) := by
        apply BitVec.eq_of_toNat_eq
        rw [hq, hcc, BitVec.toNat_ofNat]
      by_cases hc : v < m.base.toNat ∨ (m.base.toNat + 4 * codeCount (lines text)) % 2 ^ 32 < v
      · simp only [if_pos hc, Option.bind_some, Option.some.injEq, Prod.mk.injEq] at hadj
        refine .inr ⟨_, hadj.2.symm, st, t, hI, .inr (.inr (.inr ⟨(h2' t).2 rfl, v, last, hv, hc, hlast, ?_⟩))⟩
        rw [hqw]; rfl
      · simp only [if_neg hc, Option.bind_some, Option.some.injEq, Prod.mk.injEq] at hadj
        refine .inl ⟨hadj.2.symm, ?_⟩
        rintro e ⟨st', t', hI', ⟨g1, g2, g3, _⟩ | ⟨g1, g2, g3, g4, g5, _⟩ | ⟨g1, g2, _⟩ | ⟨g1, v', last, g2, g3, _⟩⟩ <;> obtain rfl := uniq hI'
        · obtain rfl := (h2 t').1 g1; exact absurd (local_refers g2) hv.1
        · obtain rfl := (h2 t').1 g1; exact absurd (local_refers g2) hv.1
        · exact h3 t' g1
        · obtain rfl := (h2' t').1 g1
          obtain rfl := number_unique hv g2
          exact hc g3
  | jmp o t hl h2 h3 =>
    have hE : adjust1 env s n (k + 1, .jump o (.label (trim t)) []) = adjust1 (envOf rt m text) (canonF tr) n (k + 1, .jump o (.label (trim t)) []) :=
      adjust1_same hovf hbase hs1 hs2 hs3 (by rw [hf, hraw']; exact hraw.symm) (by intro o rs r a b h; cases h)
    rw [hE] at hadj
    have hla' : lineAt (envOf rt m text) (k + 1) = some ⟨k + 1, raw⟩ := by
      unfold lineAt
      show ((lines text)[k]?).map _ = _
      rw [hraw]; rfl
    unfold adjust1 at hadj
    simp only at hadj
    have hlab : (canonF tr).labels = outLabels 0 tr := rfl
    rw [hlab] at hadj
    cases hlk : (outLabels 0 tr).lookup (trim t) with
    | none =>
      rw [hlk] at hadj
      simp only [hla', opt_bind, Option.bind_some, Option.some.injEq, Prod.mk.injEq] at hadj
      exact .inr ⟨_, hadj.2.symm, st, t, hI, .inr (.inr (.inl ⟨(h2 t).2 rfl, hl, (lookup_none_iff hT).1 hlk, rfl⟩))⟩
    | some b =>
      rw [hlk] at hadj
      simp only [opt_bind, Option.bind_eq_some_iff, Option.some.injEq, Prod.mk.injEq] at hadj
      obtain ⟨_, _, _, _, _, rfl⟩ := hadj
      refine .inl ⟨rfl, ?_⟩
      rintro e ⟨st', t', hI', ⟨g1, _⟩ | ⟨g1, _⟩ | ⟨g1, g2, g3, _⟩ | ⟨g1, _⟩⟩ <;> obtain rfl := uniq hI'
      · exact h3 t' g1
      · exact h3 t' g1
      · obtain rfl := (h2 t').1 g1
        rw [(lookup_none_iff hT).2 g3] at hlk; cases hlk
      · exact h3 t' (const_constant g1)

/-- At most one error about a place. -/
theorem place_unique {f : Lang.File} {labels : List (Str × Nat)} {k : Nat} {raw : Str} {i : Instruction} {g : Lang.File} {st : List Lang.Step}
    (hI : Lang.Instr g k st) (hS : Shape g labels k st i) {e e' : ParserError}
    (h : Lang.PlaceError f g k raw e) (h' : Lang.PlaceError f g k raw e') : e = e' := by
  obtain ⟨st1, t, hI1, h⟩ := h
  obtain ⟨st2, t', hI2, h'⟩ := h'
  obtain rfl := instr_unique hI1 hI
  obtain rfl := instr_unique hI2 hI
  cases hS with
  | still _ h1 h2 h3 h4 h5 =>
    rcases h with ⟨c1, c2, _⟩ | ⟨c1, c2, _⟩ | ⟨c1, c2, _⟩ | ⟨c1, v, last, c2, _⟩
    · rw [h2 t c1] at c2; cases c2
    · rw [h2 t c1] at c2; cases c2
    · exact absurd c2 (h3 t c1)
    · exact absurd c2 (h4 t v c1)
  | loc o rs r t0 h1 h2 h3 =>
    rcases h with ⟨c1, c2, c3, rfl⟩ | ⟨c1, c2, c3, c4, c5, rfl⟩ | ⟨c1, c2, _⟩ | ⟨c1, v, last, c2, _⟩
    rotate_left 2
    · exact absurd c1 (h3 t)
    · obtain rfl := (h2 t).1 (const_constant c1)
      exact absurd (local_refers h1) c2.1
    all_goals
      rcases h' with ⟨g1, g2, g3, rfl⟩ | ⟨g1, g2, g3, g4, g5, rfl⟩ | ⟨g1, g2, _⟩ | ⟨g1, v, last, g2, _⟩
      rotate_left 2
      · exact absurd g1 (h3 t')
      · obtain rfl := (h2 t').1 (const_constant g1)
        exact absurd (local_refers h1) g2.1
      all_goals
        obtain rfl := (h2 t).1 c1
        obtain rfl := (h2 t').1 g1
    · rfl
    · exact absurd ⟨g3, g4⟩ c3
    · exact absurd ⟨c3, c4⟩ g3
    · rfl
  | lab o rs r t0 h1 hl hr h2 h3 =>
    rcases h with ⟨c1, c2, _⟩ | ⟨c1, c2, _⟩ | ⟨c1, c2, _⟩ | ⟨c1, v, last, c2, _⟩
    · obtain rfl := (h2 t).1 c1; rw [h1] at c2; cases c2
    · obtain rfl := (h2 t).1 c1; rw [h1] at c2; cases c2
    · exact absurd c1 (h3 t)
    · obtain rfl := (h2 t).1 (const_constant c1)
      exact absurd hr c2.1
  | num o rs r t0 v0 hv hb h2 h2' h3 =>
    rcases h with ⟨c1, c2, _⟩ | ⟨c1, c2, _⟩ | ⟨c1, c2, _⟩ | ⟨c1, v, last, c2, c3, c4, rfl⟩
    · obtain rfl := (h2 t).1 c1; exact absurd (local_refers c2) hv.1
    · obtain rfl := (h2 t).1 c1; exact absurd (local_refers c2) hv.1
    · exact absurd c1 (h3 t)
    · rcases h' with ⟨g1, g2, _⟩ | ⟨g1, g2, _⟩ | ⟨g1, g2, _⟩ | ⟨g1, v', last', g2, g3, g4, rfl⟩
      · obtain rfl := (h2 t').1 g1; exact absurd (local_refers g2) hv.1
      · obtain rfl := (h2 t').1 g1; exact absurd (local_refers g2) hv.1
      · exact absurd g1 (h3 t')
      · rw [c4] at g4; cases g4; rfl
  | jmp o t0 hl h2 h3 =>
    rcases h with ⟨c1, _⟩ | ⟨c1, _⟩ | ⟨c1, c2, c3, rfl⟩ | ⟨c1, _⟩
    · exact absurd c1 (h3 t)
    · exact absurd c1 (h3 t)
    · rcases h' with ⟨g1, _⟩ | ⟨g1, _⟩ | ⟨g1, g2, g3, rfl⟩ | ⟨g1, _⟩
      · exact absurd g1 (h3 t')
      · exact absurd g1 (h3 t')
      · obtain rfl := (h2 t).1 c1
        obtain rfl := (h2 t').1 g1
        rfl
      · exact absurd (const_constant g1) (h3 t')
    · exact absurd (const_constant c1) (h3 t)

/-- A file is cleaned in one way. -/
theorem cleaned_unique {f g g' : Lang.File} (h : Lang.Cleaned f g) (h' : Lang.Cleaned f g') : g = g' := by
  obtain ⟨a1, a2, a3, a4, a5⟩ := h
  obtain ⟨b1, b2, b3, b4, b5⟩ := h'
  cases g; cases g'
  simp only at *
  subst a1 a2 a3 b1 b2 b3
  congr 1
  apply List.ext_getElem?
  intro k
  cases hk : f.ls[k]? with
  | none =>
    have := List.getElem?_eq_none_iff.1 hk
    rw [List.getElem?_eq_none_iff.2 (by omega), List.getElem?_eq_none_iff.2 (by omega)]
  | some raw =>
    rcases a5 k raw hk with ⟨c1, c2⟩ | ⟨c1, c2⟩ <;> rcases b5 k raw hk with ⟨d1, d2⟩ | ⟨d1, d2⟩
    · rw [c2, d2]
    · exact absurd c1 d1
    · exact absurd d1 c1
    · rw [c2, d2]

/-- The cleaned file. -/
theorem cleaned_of (hT : IsTrace (envOf rt m text) (lines text) tr) :
    Lang.Cleaned (fileOf rt m text) (fileOf rt m (textOf (cleanLs (lines text) tr))) ∧ lines (textOf (cleanLs (lines text) tr)) = cleanLs (lines text) tr := by
  have hnl : ∀ l ∈ cleanLs (lines text) tr, '\n' ∉ l := by
    intro l hl
    rcases clean_mem hl with rfl | hl
    · simp
    · exact lines_noNl text _ hl
  have hlines := lines_textOf _ hnl
  refine ⟨⟨rfl, rfl, rfl, ?_, ?_⟩, hlines⟩
  · show (lines (textOf _)).length = (lines text).length
    rw [hlines]; unfold cleanLs; simp [hT.1]
  · intro k raw hk
    have hk : (lines text)[k]? = some raw := hk
    have hlt : k < tr.length := by rw [hT.1]; exact (List.getElem?_eq_some_iff.1 hk).1
    have ho : tr[k]? = some tr[k] := List.getElem?_eq_getElem hlt
    have hc := clean_get hk ho
    have ht := taken_iff hT hk ho
    show (Lang.LineTaken ⟨rt.ovf, m.syms, lines text, k⟩ raw ∧ (lines (textOf _))[k]? = _) ∨ (¬ Lang.LineTaken ⟨rt.ovf, m.syms, lines text, k⟩ raw ∧ (lines (textOf _))[k]? = _)
    rw [hlines, hc, ← ht]
    cases tr[k] with
    | rejected ws e => exact .inr ⟨by simp [outErrors], rfl⟩
    | _ => exact .inl ⟨rfl, rfl⟩

end
end Mips
