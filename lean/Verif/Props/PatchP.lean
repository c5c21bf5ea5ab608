/-
**C71** — listings are local: words behind others do not change their lines; a word that is no jump decides one line only.
-/
import Verif.Props.ListingP

namespace Mips
open Isa Listing Syntax

/-- The word is `j` or `jr`. -/
def Leaving (w : Word) : Prop := fOp w = 2#6 ∨ fOp w = 0#6 ∧ fFn w = 8#6

section
variable {base : Word}

/-- The walk does not look at the words behind. -/
theorem trail_front (a b : List Word) : ∀ i, i ≤ a.length → trail base (a ++ b) i = trail base a i := by
  intro i
  induction i with
  | zero => intro _; rfl
  | succ i ih =>
    intro h
    rw [trail, trail, ih (by omega), List.getElem?_append_left (by omega)]

/-- Nor at the words that are no jumps. -/
theorem trail_set (ws : List Word) {k : Nat} {w w' : Word} (hk : ws[k]? = some w) (h : ¬ Leaving w) (h' : ¬ Leaving w') :
    ∀ i, trail base (ws.set k w') i = trail base ws i := by
  have no : ∀ {v : Word}, ¬ Leaving v → ∀ lo i, leavesAt base lo i v = false := by
    intro v hv lo i
    unfold leavesAt
    have h2 : fOp v ≠ 2#6 := fun e => hv (.inl e)
    have h3 : ¬ (fOp v = 0#6 ∧ fFn v = 8#6) := fun e => hv (.inr e)
    rw [decide_eq_false h2, Bool.false_and, Bool.or_false]
    apply Bool.eq_false_iff.2
    intro e
    rw [Bool.and_eq_true, decide_eq_true_eq, decide_eq_true_eq] at e
    exact h3 e
  intro i
  induction i with
  | zero => rfl
  | succ i ih =>
    rw [trail, trail, ih]
    by_cases e : k = i
    · subst e
      have hl : k < ws.length := (List.getElem?_eq_some_iff.1 hk).1
      rw [List.getElem?_set_self hl, hk]
      simp only [no h, no h']
    · rw [List.getElem?_set_ne e]

end

/-- What is rendered of a front part is a front part of what is rendered. -/
theorem render_front (label : Nat → Str) (b b' : Nat → Bool) (ys : List Str) : ∀ (xs : List Str) i,
    (∀ k, k < i + xs.length → b k = b' k) → render label b i xs <+: render label b' i (xs ++ ys) := by
  intro xs
  induction xs with
  | nil => intro i _; exact ⟨_, rfl⟩
  | cons x xs ih =>
    intro i h
    have hb := h i (by simp)
    have tl := ih (i + 1) fun k hk => h k (by simp only [List.length_cons]; omega)
    rw [List.cons_append, render, render, hb]
    apply List.cons_prefix_cons.2 ⟨rfl, ?_⟩
    cases xs with
    | nil =>
      simp only [List.isEmpty_nil, Bool.not_true, Bool.and_false, Bool.false_eq_true, if_false, List.nil_append]
      exact ⟨_, rfl⟩
    | cons z zs =>
      simp only [List.cons_append, List.isEmpty_cons, Bool.not_false] at tl ⊢
      exact List.prefix_append_right_inj _ |>.2 tl

/-- Each text has its line. -/
theorem render_set (label : Nat → Str) (brk : Nat → Bool) : ∀ (ts : List Str) (i k : Nat) (t : Str), ts[k]? = some t →
    ∃ n : Nat, (render label brk i ts)[n]? = some t ∧ ∀ t', render label brk i (ts.set k t') = (render label brk i ts).set n t' := by
  intro ts
  induction ts with
  | nil => intro i k t h; cases h
  | cons x xs ih =>
    intro i k t h
    cases k with
    | zero =>
      simp only [List.getElem?_cons_zero, Option.some.injEq] at h
      subst h
      exact ⟨0, rfl, fun t' => rfl⟩
    | succ k =>
      rw [List.getElem?_cons_succ] at h
      obtain ⟨n, h1, h2⟩ := ih (i + 1) k t h
      have he : ∀ t', (xs.set k t').isEmpty = xs.isEmpty := by
        intro t'; cases xs <;> cases k <;> rfl
      by_cases hc : (brk i && !xs.isEmpty) = true
      · refine ⟨n + 3, ?_, fun t' => ?_⟩
        · rw [render, if_pos hc]; simpa using h1
        · rw [List.set_cons_succ, render, render, he, if_pos hc, h2]; rfl
      · refine ⟨n + 1, ?_, fun t' => ?_⟩
        · rw [render, if_neg hc]; simpa using h1
        · rw [List.set_cons_succ, render, render, he, if_neg hc, h2]; rfl

/-- **C71**, words behind: the listing of some words starts with the listing of the words in front. -/
theorem C71_front (rt : Rt) (m : Mipsasm) (a b : List Word) {out : List Str} (h : disassemble rt m (a ++ b) = some out) :
    ∃ front rest, disassemble rt m a = some front ∧ out = front ++ rest := by
  cases hm : m.debug with
  | true =>
    rw [C60_debug rt m hm] at h ⊢
    rw [List.map_append] at h
    exact ⟨_, _, rfl, (Option.some.inj h).symm⟩
  | false =>
    obtain ⟨h1, h2⟩ := C60_listing rt m hm (a ++ b)
    obtain ⟨g1, g2⟩ := C60_listing rt m hm a
    have hn : ¬ NoListing rt.ovf (fun a => m.syms.lookup a) m.base (a ++ b) := fun e => by
      rw [h1.2 e] at h; cases h
    have gn : ¬ NoListing rt.ovf (fun a => m.syms.lookup a) m.base a := by
      rintro ⟨i, w, hw, hc⟩
      have hi : i < a.length := (List.getElem?_eq_some_iff.1 hw).1
      refine hn ⟨i, w, by rw [List.getElem?_append_left hi]; exact hw, ?_⟩
      rw [trail_front a b i (by omega)]
      rcases hc with hc | hc | hc | ⟨c1, c2, c3, c4⟩
      · exact .inl hc
      · exact .inr (.inl hc)
      · exact .inr (.inr (.inl hc))
      · exact .inr (.inr (.inr ⟨c1, c2, by rw [List.length_append]; omega, c4⟩))
    have e := h2 hn
    rw [h] at e
    cases Option.some.inj e
    have hp : listing (fun a => m.syms.lookup a) m.base a <+: listing (fun a => m.syms.lookup a) m.base (a ++ b) := by
      unfold listing
      rw [List.map_append]
      refine List.cons_prefix_cons.2 ⟨rfl, render_front _ _ _ _ _ _ ?_⟩
      intro k hk
      rw [List.length_map] at hk
      simp only [trail_front a b k (by omega)]
    obtain ⟨rest, hr⟩ := hp
    exact ⟨_, rest, g2 gn, hr.symm⟩

/-- **C71**, a word changed: the line of a word that is neither `j` nor `jr` is the same as in the listing of the word alone, and
putting another such word in its place changes this line and no other, nor whether there is a listing. -/
theorem C71_patch (rt : Rt) (m : Mipsasm) (hm : m.debug = false) (ws : List Word) (k : Nat) {w : Word} (hk : ws[k]? = some w)
    (hw : ¬ Leaving w) :
    (∀ w', ¬ Leaving w' → (disassemble rt m (ws.set k w') = none ↔ disassemble rt m ws = none)) ∧
    ∀ out, disassemble rt m ws = some out → ∃ (n : Nat) (l x : Str), disassemble rt m [w] = some [l, x] ∧ out[n]? = some x ∧
      ∀ w', ¬ Leaving w' → ∃ x', disassemble rt m [w'] = some [l, x'] ∧ disassemble rt m (ws.set k w') = some (out.set n x') := by
  have hl : k < ws.length := (List.getElem?_eq_some_iff.1 hk).1
  obtain ⟨h1, h2⟩ := C60_listing rt m hm ws
  have no : ∀ {w1 w2 : Word} {vs : List Word}, vs[k]? = some w1 → ¬ Leaving w1 → ¬ Leaving w2 →
      NoListing rt.ovf (fun a => m.syms.lookup a) m.base vs → NoListing rt.ovf (fun a => m.syms.lookup a) m.base (vs.set k w2) := by
    rintro w1 w2 vs hv n1 n2 ⟨i, v, hi, hc⟩
    have hlv : k < vs.length := (List.getElem?_eq_some_iff.1 hv).1
    by_cases e : k = i
    · subst e
      rw [hv] at hi; cases hi
      refine ⟨k, w2, List.getElem?_set_self hlv, ?_⟩
      rw [trail_set vs hv n1 n2, List.length_set]
      rcases hc with hc | hc | hc | hc
      · exact absurd (.inl hc.2.1) n1
      · exact absurd hc.2.2.1 n1
      · exact absurd (.inl hc.2.2.1) n1
      · exact .inr (.inr (.inr hc))
    · refine ⟨i, v, by rw [List.getElem?_set_ne e]; exact hi, ?_⟩
      rw [trail_set vs hv n1 n2, List.length_set]
      exact hc
  have both : ∀ w', ¬ Leaving w' → (NoListing rt.ovf (fun a => m.syms.lookup a) m.base (ws.set k w') ↔
      NoListing rt.ovf (fun a => m.syms.lookup a) m.base ws) := by
    intro w' hw'
    refine ⟨fun h => ?_, no hk hw hw'⟩
    have := no (vs := ws.set k w') (List.getElem?_set_self hl) hw' hw h
    have e : ws.set k w = ws := by
      apply List.ext_getElem?
      intro i
      by_cases hi : k = i
      · subst hi; rw [List.getElem?_set_self hl, hk]
      · rw [List.getElem?_set_ne hi]
    rwa [List.set_set, e] at this
  have one : ∀ {v : Word}, ¬ Leaving v → disassemble rt m [v] =
      some [labelText (fun a => m.syms.lookup a) m.base, colText (fun a => m.syms.lookup a) m.base v] := by
    intro v hv
    have e := (C60_listing rt m hm [v]).2 ?_
    · rw [e]; rfl
    · rintro ⟨i, u, hi, hc⟩
      have hi' : i = 0 := by
        have := (List.getElem?_eq_some_iff.1 hi).1
        simp at this; exact this
      subst hi'
      cases hi
      rcases hc with hc | hc | hc | hc
      · exact hv (.inl hc.2.1)
      · exact hv hc.2.2.1
      · exact hv (.inl hc.2.2.1)
      · exact absurd hc.2.2.1 (by simp)
  refine ⟨fun w' hw' => ?_, fun out ho => ?_⟩
  · rw [(C60_listing rt m hm _).1, h1]
    exact both w' hw'
  · have hn : ¬ NoListing rt.ovf (fun a => m.syms.lookup a) m.base ws := fun e => by
      rw [h1.2 e] at ho; cases ho
    have e := h2 hn
    rw [ho] at e
    cases Option.some.inj e
    have hk' : (ws.map (colText (fun a => m.syms.lookup a) m.base))[k]? = some (colText (fun a => m.syms.lookup a) m.base w) := by
      rw [List.getElem?_map, hk]; rfl
    obtain ⟨n, n1, n2⟩ := render_set (fun k => labelText (fun a => m.syms.lookup a) (addrOf m.base k)) (fun i => (trail m.base ws i).2)
      _ 0 k _ hk'
    refine ⟨n + 1, _, _, one hw, by unfold listing; rw [List.getElem?_cons_succ]; exact n1, fun w' hw' => ⟨_, one hw', ?_⟩⟩
    rw [(C60_listing rt m hm _).2 fun e => hn ((both w' hw').1 e)]
    unfold listing
    rw [List.set_cons_succ, List.map_set, ← n2]
    simp only [trail_set ws hk hw hw']

/-- **C71**, debug mode: every line is the line of its word alone. -/
theorem C71_debug (rt : Rt) (m : Mipsasm) (hm : m.debug = true) (ws : List Word) :
    ∃ out, disassemble rt m ws = some out ∧ out.length = ws.length ∧
      ∀ (k : Nat) w, ws[k]? = some w → ∃ x, disassemble rt m [w] = some [x] ∧ out[k]? = some x := by
  refine ⟨_, C60_debug rt m hm ws, by rw [List.length_map], fun k w hw => ⟨_, C60_debug rt m hm [w], ?_⟩⟩
  rw [List.getElem?_map, hw]; rfl

/-! ### Listings with and without more words, and with another word -/

/-- A label appears when a word follows the delay slot; the front lines stay. -/
example : disassemble (idRt true) ⟨0x80000000#32, [], false⟩ [0x03e00008#32, 0#32] = some [c!"func_80000000:", c!"jr         $ra", c!"sll        $zero, $zero, 0x0"] ∧
    disassemble (idRt true) ⟨0x80000000#32, [], false⟩ ([0x03e00008#32, 0#32] ++ [0x24020001#32]) =
      some ([c!"func_80000000:", c!"jr         $ra", c!"sll        $zero, $zero, 0x0"] ++ [[], c!"func_80000008:", c!"addiu      $v0, $zero, 0x1"]) := by decide +kernel

/-- Another word in the delay slot. -/
example : ¬ Leaving 0#32 ∧ ¬ Leaving 0x24020001#32 ∧
    disassemble (idRt true) ⟨0x80000000#32, [], false⟩ [0x03e00008#32, 0#32, 0#32] =
      some [c!"func_80000000:", c!"jr         $ra", c!"sll        $zero, $zero, 0x0", [], c!"func_80000008:", c!"sll        $zero, $zero, 0x0"] ∧
    disassemble (idRt true) ⟨0x80000000#32, [], false⟩ ([0x03e00008#32, 0#32, 0#32].set 2 0x24020001#32) =
      some [c!"func_80000000:", c!"jr         $ra", c!"sll        $zero, $zero, 0x0", [], c!"func_80000008:", c!"addiu      $v0, $zero, 0x1"] := by
  refine ⟨by unfold Leaving; decide, by unfold Leaving; decide, by decide +kernel, by decide +kernel⟩

/-- With `jr` it is different: the labels move. -/
example : Leaving 0x03e00008#32 ∧
    disassemble (idRt true) ⟨0x80000000#32, [], false⟩ ([0x03e00008#32, 0#32, 0#32].set 0 0#32) =
      some [c!"func_80000000:", c!"sll        $zero, $zero, 0x0", c!"sll        $zero, $zero, 0x0", c!"sll        $zero, $zero, 0x0"] :=
  ⟨by unfold Leaving; decide, by decide +kernel⟩

/-- In debug mode. -/
example : disassemble (idRt true) ⟨0x80000000#32, [], true⟩ [0x03e00008#32, 0x24020001#32] = some [c!"jr $ra", c!"addiu $v0, $zero, 0x1"] := by
  decide +kernel

end Mips
