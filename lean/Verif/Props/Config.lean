/-
C37: the builder is a last-write-wins record; `assemble` ignores the debug flag.
-/
import Verif.Model.Lib

namespace Mips

/-- A call of one of the builder methods of `Mipsasm`. -/
inductive Call where
  | base (a : Word)
  | symbols (s : List (Word × Str))
  | debug

/-- Perform a builder call (src/lib.rs:80-117). -/
def Call.apply (m : Mipsasm) : Call → Mipsasm
  | .base a => m.setBase a
  | .symbols s => m.setSymbols s
  | .debug => m.setDebug

/-- Perform a history of builder calls. -/
def configure (m : Mipsasm) (cs : List Call) : Mipsasm := cs.foldl Call.apply m

/-! Specification: the last argument given to `base`/`symbols`, and whether `debug` was called. -/

/-- the argument of the last `base` call -/
def lastBase (cs : List Call) : Option Word :=
  (cs.filterMap fun | .base a => some a | _ => none).getLast?
/-- the argument of the last `symbols` call -/
def lastSymbols (cs : List Call) : Option (List (Word × Str)) :=
  (cs.filterMap fun | .symbols s => some s | _ => none).getLast?
/-- some call is `debug` -/
def calledDebug (cs : List Call) : Bool := cs.any fun | .debug => true | _ => false

/-- C37: after any history of builder calls, in any order, each field is the argument of the last call
that sets it, and is untouched by all other calls. -/
theorem C37_last_write_wins (m : Mipsasm) (cs : List Call) :
    configure m cs = ⟨(lastBase cs).getD m.base, (lastSymbols cs).getD m.syms, calledDebug cs || m.debug⟩ := by
  induction cs generalizing m with
  | nil => rfl
  | cons c cs ih =>
    have h : configure m (c :: cs) = configure (c.apply m) cs := rfl
    have getD : ∀ {α : Type} (l : List α) (a d : α), ((a :: l).getLast?).getD d = (l.getLast?).getD a := by
      intro α l a d
      cases l with
      | nil => rfl
      | cons b l => simp [List.getLast?_cons]
    rw [h, ih]
    cases c with
    | base a => simp [Call.apply, Mipsasm.setBase, lastBase, lastSymbols, calledDebug, getD]
    | symbols s => simp [Call.apply, Mipsasm.setSymbols, lastBase, lastSymbols, calledDebug, getD]
    | debug => simp [Call.apply, Mipsasm.setDebug, lastBase, lastSymbols, calledDebug]

/-- The corollary for a fresh instance: the defaults are base 0, no symbols, no debug. -/
theorem C37_fresh (cs : List Call) :
    configure Mipsasm.new cs = ⟨(lastBase cs).getD 0, (lastSymbols cs).getD [], calledDebug cs⟩ := by
  rw [C37_last_write_wins]; simp [Mipsasm.new]

/-- C37: `assemble` does not look at the debug flag. -/
theorem C37_assemble_ignores_debug [Unicode] (rt : Rt) (m : Mipsasm) (text : Str) :
    assemble rt m.setDebug text = assemble rt m text := rfl

/-- C37: two call histories with the same last base and the same last symbol table give assemblers with
the same behaviour on every text. -/
theorem C37_history_irrelevant [Unicode] (rt : Rt) (cs ds : List Call) (hb : lastBase cs = lastBase ds)
    (hs : lastSymbols cs = lastSymbols ds) (text : Str) :
    assemble rt (configure .new cs) text = assemble rt (configure .new ds) text := by
  rw [C37_fresh, C37_fresh, hb, hs]; rfl

/-- Non-vacuity: a history whose calls interleave and repeat. -/
example : configure .new [.debug, .base 4, .symbols [(1, c!"a")], .base 8, .symbols [(2, c!"b")]] =
    ⟨8, [(2, c!"b")], true⟩ := rfl
/-- Non-vacuity: two different histories with the same last calls. -/
example : lastBase [.base 4, .debug, .base 8] = lastBase [.base 8, .debug] ∧
    lastSymbols [.base 4, .debug, .base 8] = lastSymbols [.base 8, .debug] := ⟨rfl, rfl⟩

end Mips
