/-
**C78** — a listing shows the place of the code only in jumps and labels.
-/
import Verif.Props.PatchP
import Verif.Props.SeenP
import Verif.Spec.Place

namespace Mips
open Isa Listing Syntax

namespace PlaceP

theorem target_codes : ∀ r ∈ table, r.syn = .target → r.code = .main 2#6 ∨ r.code = .main 3#6 := by decide +kernel

theorem codeOf_main {w : Word} {o : BitVec 6} (h : codeOf w = .main o) : fOp w = o := by
  unfold codeOf at h
  repeat' split at h
  all_goals first | (cases h; done) | (simpa using h)

/-- only `j` and `jal` have a target -/
theorem no_target {w : Word} (hw : ¬ IsJump w) {mn : Str} {args : List Arg} (h : decoding w = some (mn, args)) (t : BitVec 26) : .target t ∉ args := by
  intro hm
  obtain ⟨r, h1, _, h3, h4⟩ := decoding_code h
  rw [h3] at hm
  rcases target_codes r h1 (target_syn hm).1 with e | e
  · exact hw (.inl (codeOf_main (h4 ▸ e)))
  · exact hw (.inr (codeOf_main (h4 ▸ e)))

theorem shown_sub {mn : Str} {args : List Arg} : ∀ a ∈ shown mn args, a ∈ args := by
  intro a ha
  unfold shown at ha
  split at ha
  · cases ha
  · split at ha
    · split at ha
      · simp at ha; simp [ha]
      · exact ha
    · exact ha

theorem arg_place {s s' : BitVec 32 → Option Str} {b b' : BitVec 32} {a : Arg}
    (h : ∀ t, a = .target t → jumpAddr b t = jumpAddr b' t ∧ s (jumpAddr b t) = s' (jumpAddr b' t)) : argCol s b a = argCol s' b' a := by
  cases a with
  | target t =>
    obtain ⟨h1, h2⟩ := h t rfl
    show argText s b (.target t) = argText s' b' (.target t)
    unfold argText
    dsimp only
    rw [h2, h1]
  | _ => rfl

/-- the text of a word that is no jump, or goes to the same address with the same name -/
theorem text_place {s s' : BitVec 32 → Option Str} {b b' w : BitVec 32}
    (h : IsJump w → jumpAddr b (fTarget w) = jumpAddr b' (fTarget w) ∧ s (jumpAddr b (fTarget w)) = s' (jumpAddr b' (fTarget w))) :
    colText s b w = colText s' b' w := by
  have key : ∀ mn args, decoding w = some (mn, args) → colInst s b mn args = colInst s' b' mn args := by
    intro mn args hd
    unfold colInst
    split
    · rfl
    · congr 2
      apply List.map_congr_left
      intro a ha
      apply arg_place
      rintro t rfl
      have hm := shown_sub _ ha
      have ht : t = fTarget w := by
        obtain ⟨r, _, _, h3, _⟩ := decoding_code hd
        rw [h3] at hm
        obtain ⟨e1, _⟩ := target_syn hm
        rw [e1] at hm
        simpa [argsOf] using hm
      subst ht
      apply h
      apply Classical.byContradiction
      intro hj
      exact no_target hj hd _ hm
  unfold colText
  cases hd : decoding w with
  | none => rfl
  | some p =>
    obtain ⟨mn, args⟩ := p
    simp only [key mn args hd]

theorem trail_place {ws : List Word} (h : ∀ w ∈ ws, ¬ IsJump w) (b b' : Word) : ∀ i, trail b ws i = trail b' ws i := by
  intro i
  induction i with
  | zero => rfl
  | succ i ih =>
    rw [trail, trail, ih]
    cases hw : ws[i]? with
    | none => rfl
    | some w =>
      have hn : fOp w ≠ 2#6 := fun e => h w (List.mem_of_getElem? hw) (.inl e)
      have : ∀ (b : Word) lo, leavesAt b lo i w = (decide (fOp w = 0#6) && decide (fFn w = 8#6)) := by
        intro b lo
        unfold leavesAt
        rw [decide_eq_false hn, Bool.false_and, Bool.or_false]
      simp only [this]

theorem label_unnamed (s : BitVec 32 → Option Str) (a : Word) : unnamed (labelText s a) = c!":" := by
  unfold unnamed labelText
  rw [if_pos]
  unfold endsWith
  rw [List.getLast?_append]
  rfl

theorem render_place (f g : Nat → Str) (hf : ∀ i, unnamed (f i) = c!":") (hg : ∀ i, unnamed (g i) = c!":") (b b' : Nat → Bool) (hb : ∀ i, b i = b' i) :
    ∀ (ts : List Str) i, (render f b i ts).map unnamed = (render g b' i ts).map unnamed := by
  intro ts
  induction ts with
  | nil => intro i; rfl
  | cons t ts ih =>
    intro i
    unfold render
    rw [hb i]
    simp only [List.map_cons, List.map_append, ih (i + 1)]
    split
    · simp only [List.map_cons, hf, hg]
    · rfl

end PlaceP

open PlaceP in
/-- **C78**, debug mode: the line of a word does not depend on the base address and the symbols, unless the word is `j` or `jal`; and then only on
the address it goes to and the symbol of that address. -/
theorem C78_debug (rt rt' : Rt) (m m' : Mipsasm) (hm : m.debug = true) (hm' : m'.debug = true) (ws : List Word) (out out' : List Str)
    (h : disassemble rt m ws = some out) (h' : disassemble rt' m' ws = some out') (k : Nat) (w : Word) (hk : ws[k]? = some w)
    (hj : IsJump w → jumpAddr m.base (fTarget w) = jumpAddr m'.base (fTarget w) ∧
      m.syms.lookup (jumpAddr m.base (fTarget w)) = m'.syms.lookup (jumpAddr m'.base (fTarget w))) : out[k]? = out'[k]? := by
  rw [C60_debug rt m hm] at h
  rw [C60_debug rt' m' hm'] at h'
  cases h
  cases h'
  rw [List.getElem?_map, List.getElem?_map, hk, Option.map_some, Option.map_some,
    text_place (s' := fun a => m'.syms.lookup a) (b' := m'.base) hj]

open PlaceP in
/-- **C78**, normal mode: the listings of words among which there is no `j` or `jal` differ, at other base addresses and with other symbols, only in
the names of their labels. -/
theorem C78_listing (rt rt' : Rt) (m m' : Mipsasm) (hm : m.debug = false) (hm' : m'.debug = false) (ws : List Word) (hw : ∀ w ∈ ws, ¬ IsJump w)
    (out out' : List Str) (h : disassemble rt m ws = some out) (h' : disassemble rt' m' ws = some out') : out.map unnamed = out'.map unnamed := by
  have get : ∀ {rt m out}, m.debug = false → disassemble rt m ws = some out → out = listing (fun a => m.syms.lookup a) m.base ws := by
    intro rt m out hm h
    obtain ⟨h1, h2⟩ := C60_listing rt m hm ws
    have hn : ¬ NoListing rt.ovf (fun a => m.syms.lookup a) m.base ws := fun c => by have := h1.2 c; rw [h] at this; cases this
    have := h2 hn
    rw [h] at this
    exact Option.some.inj this
  rw [get hm h, get hm' h']
  unfold listing
  simp only [List.map_cons, label_unnamed]
  congr 1
  have e : ws.map (colText (fun a => m.syms.lookup a) m.base) = ws.map (colText (fun a => m'.syms.lookup a) m'.base) :=
    List.map_congr_left fun w hm => text_place fun hj => absurd hj (hw w hm)
  rw [e]
  exact render_place _ _ (fun i => label_unnamed _ _) (fun i => label_unnamed _ _) _ _ (fun i => by rw [trail_place hw m.base m'.base]) _ _

/-! ### The hypotheses are satisfiable -/

/-- A function that is listed at two addresses, with and without symbols. -/
example : (∀ w ∈ [0x03e00008#32, 0x24020001#32, 0x00000000#32], ¬ IsJump w) ∧
    disassemble (idRt true) Mipsasm.new [0x03e00008#32, 0x24020001#32, 0x00000000#32] =
      some [c!"func_00000000:", c!"jr         $ra", c!"addiu      $v0, $zero, 0x1", c!"", c!"func_00000008:", c!"sll        $zero, $zero, 0x0"] ∧
    disassemble (idRt true) ⟨0x80000000#32, [(0x80000000#32, c!"one")], false⟩ [0x03e00008#32, 0x24020001#32, 0x00000000#32] =
      some [c!"one:", c!"jr         $ra", c!"addiu      $v0, $zero, 0x1", c!"", c!"func_80000008:", c!"sll        $zero, $zero, 0x0"] := by
  refine ⟨fun w hw => ?_, by decide +kernel, by decide +kernel⟩
  simp only [List.mem_cons, List.not_mem_nil, or_false] at hw
  rcases hw with rfl | rfl | rfl <;> (unfold IsJump; decide)

/-- A jump shows the place. -/
example : disassemble (idRt true) Mipsasm.new.setDebug [0x0c000001#32, 0x24020001#32] = some [c!"jal 0x4", c!"addiu $v0, $zero, 0x1"] ∧
    disassemble (idRt true) ⟨0x80000000#32, [], true⟩ [0x0c000001#32, 0x24020001#32] =
      some [c!"jal 0x80000004", c!"addiu $v0, $zero, 0x1"] := by
  refine ⟨by decide +kernel, by decide +kernel⟩

end Mips
