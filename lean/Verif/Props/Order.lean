/-
C26: results do not depend on hash iteration order.
-/
import Verif.Lemmas.CtxL

namespace Mips

/-- C26: `assemble` gives the same result - words, errors and warnings, or panic - whatever the iteration
orders of the local-label map are. -/
theorem C26_local_label_order [Unicode] (rt rt' : Rt) (h : rt.ovf = rt'.ovf) (m : Mipsasm) (text : Str) :
    assemble rt m text = assemble rt' m text := assemble_congr h rfl (fun _ => rfl) text

/-- C26: when symbol names are pairwise distinct, `assemble` does not depend on the iteration order of the
symbol table either. -/
theorem C26_symbol_order [Unicode] (rt rt' : Rt) (h : rt.ovf = rt'.ovf) (m : Mipsasm) (syms : List (Word × Str))
    (hp : syms.Perm m.syms) (hn : (syms.map (·.2)).Nodup) (text : Str) :
    assemble rt (m.setSymbols syms) text = assemble rt' m text :=
  assemble_congr (m := m.setSymbols syms) (m' := m) h rfl (fun n => findSym_perm hp hn n) text

/-- C26 for `disassemble`: the symbol table is a map (distinct addresses), so its iteration order is
irrelevant. -/
theorem C26_disassemble_order (rt rt' : Rt) (h : rt.ovf = rt'.ovf) (m : Mipsasm) (syms : List (Word × Str))
    (hp : syms.Perm m.syms) (hn : (syms.map (·.1)).Nodup) (ws : List Word) :
    disassemble rt (m.setSymbols syms) ws = disassemble rt' m ws := by
  have hs : symAt syms = symAt m.syms := funext (symAt_perm hp hn)
  have h1 : matchSym syms = matchSym m.syms := by
    funext i; unfold matchSym; rw [hs]
  have h2 : getSym syms = getSym m.syms := by
    funext a; unfold getSym; rw [hs]
  have h3 : ∀ n i fs e l, layout rt.ovf m.base syms n i fs e l = layout rt'.ovf m.base m.syms n i fs e l := by
    intro n i fs e l
    induction l generalizing i fs e with
    | nil => rfl
    | cons x l ih => unfold layout; rw [h] at ih ⊢; simp only [ih, h2]
  unfold disassemble
  simp only [Mipsasm.setSymbols, h1, h2, h3]

/-- Non-vacuity: a runtime that reverses every iteration is a different runtime. -/
def revRt (ovf : Bool) : Rt := ⟨ovf, fun _ l => l.reverse, fun _ l => List.reverse_perm l⟩
example : (idRt true).ovf = (revRt true).ovf ∧ (idRt true).order 1 [(c!"@@a", 0, []), (c!"@@b", 1, [])] ≠
    (revRt true).order 1 [(c!"@@a", 0, []), (c!"@@b", 1, [])] := by decide
/-- Without distinct names the result does depend on the order: `j f` goes to whichever `f` comes first. -/
theorem C26_duplicate_names : ∃ (syms syms' : List (Word × Str)), syms.Perm syms' ∧
    @assemble asciiUnicode (idRt true) ⟨0, syms, false⟩ c!"j f" ≠
    @assemble asciiUnicode (idRt true) ⟨0, syms', false⟩ c!"j f" := by
  refine ⟨[(4, c!"f"), (8, c!"f")], [(8, c!"f"), (4, c!"f")], List.Perm.swap _ _ _, ?_⟩
  decide +kernel
/-- Non-vacuity of the distinct-names premise. -/
example : ([((4 : Word), c!"f"), (8, c!"g")].map (·.2)).Nodup ∧ ([((4 : Word), c!"f"), (8, c!"g")].map (·.1)).Nodup := by decide

end Mips
