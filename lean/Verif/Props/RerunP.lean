/-
**C88** — a run of the tool that was stopped or failed can be repeated.
-/
import Verif.Props.IoRun
import Verif.Spec.Rerun

namespace Mips
open Cli

/-- A run in which nothing fails is a run. -/
theorem reach_weaken {s u : St} (h : Reach true s u) : Reach false s u := by
  induction h with
  | here s => exact .here s
  | next b _ h2 _ ih => exact .next b (by intro h; cases h) h2 ih

/-- Attempts change the output file only. -/
theorem attempts_others [Unicode] {c : Cmd} {d d' : Disk} (h : Attempts c d d') : ∀ p, c.output ≠ some p → d' p = d p := by
  induction h with
  | none d => exact fun _ _ => rfl
  | one rt L s h1 _ ih => exact fun p hp => (ih p hp).trans ((C61_safe s h1).1 p hp)

theorem ends_lib [Unicode] {ovf : Bool} {L L' : Lib} {c : Cmd} {d : Disk} (hl : SameLib c d L L') {x : End} (hx : Ends ovf L c d x) : Ends ovf L' c d x := by
  obtain ⟨h1, h2, h3⟩ := hl
  rcases h3 with h3 | h3
  · have e : L = L' := by
      cases L; cases L'
      dsimp only at h1 h2 h3
      cases h1; cases h2; cases h3; rfl
    exact e ▸ hx
  · exact (C62_symbol_order ovf L L' c d h1 h2 h3 x).1 hx

theorem ends_again [Unicode] {ovf : Bool} {L : Lib} {c : Cmd} {d d' : Disk} (ha : Apart c) (hd : ∀ p, c.output ≠ some p → d' p = d p) {x : End}
    (hx : Ends ovf L c d x) : Ends ovf L c d' (again d' x) := by
  obtain ⟨ha1, ha2⟩ := ha
  have hin : ∀ {b}, d c.input = some b → d' c.input = some b := fun h => (hd _ ha1).trans h
  have hsym : ∀ {t}, SymText c d t → SymText c d' t := by
    intro t h
    unfold SymText at h ⊢
    cases hs : c.syms with
    | none => rw [hs] at h; exact h
    | some p => rw [hs] at h; exact (hd p (ha2 p hs)).trans h
  have hcfg : ∀ {syms addr}, Configured L c d syms addr → Configured L c d' syms addr := by
    rintro syms addr ⟨t, y, h1, h2⟩
    exact ⟨t, y, hsym h1, h2⟩
  have hsucc : ∀ {file text err}, again d' (success c d file text err) = success c d' file text err := by
    intro file text err
    unfold success
    cases ho : c.output with
    | none =>
      have e : d' = d := funext fun p => hd p (by rw [ho]; nofun)
      rw [e]; rfl
    | some p =>
      have e : d.set p file = d'.set p file := by
        funext q
        unfold Disk.set
        by_cases hq : q = p
        · rw [if_pos hq, if_pos hq]
        · rw [if_neg hq, if_neg hq, hd q (by rw [ho]; exact fun h => hq (Option.some.inj h).symm)]
      dsimp only
      rw [e]; rfl
  cases hx with
  | symbols p bs h1 h2 h3 => exact .symbols p bs h1 ((hd p (ha2 p h1)).trans h2) h3
  | yaml t h1 h2 => exact .yaml t (hsym h1) h2
  | base t y h1 h2 h3 => exact .base t y (hsym h1) h2 h3
  | input syms addr bs h1 h2 h3 h4 => exact .input syms addr bs h1 (hcfg h2) (hin h3) h4
  | crash syms addr data h1 h2 h3 h4 => exact .crash syms addr data h1 (hcfg h2) (hin h3) h4
  | code syms addr data ws warns ts file t h1 h2 h3 h4 h5 h6 h7 h8 h9 =>
    rw [hsucc]
    exact .code syms addr data ws warns ts file t h1 (hcfg h2) (hin h3) h4 h5 h6 h7 h8 h9
  | errors syms addr data es warns ts us h1 h2 h3 h4 h5 h6 h7 h8 =>
    exact .errors syms addr data es warns ts us h1 (hcfg h2) (hin h3) h4 h5 h6 h7 h8
  | unquoted syms addr data es e h1 h2 h3 h4 h5 h6 h7 => exact .unquoted syms addr data es e h1 (hcfg h2) (hin h3) h4 h5 h6 h7
  | words syms addr bytes h1 h2 h3 h4 => exact .words syms addr bytes h1 (hcfg h2) (hin h3) h4
  | noListing syms addr bytes ws h1 h2 h3 h4 h5 h6 => exact .noListing syms addr bytes ws h1 (hcfg h2) (hin h3) h4 h5 h6
  | listing syms addr bytes ws h1 h2 h3 h4 h5 h6 =>
    rw [hsucc]
    exact .listing syms addr bytes ws h1 (hcfg h2) (hin h3) h4 h5 h6

theorem ends_frame [Unicode] {ovf : Bool} {L : Lib} {c : Cmd} {d d' : Disk} (hi : d' c.input = d c.input) (hy : ∀ p, c.syms = some p → d' p = d p) {x : End}
    (hx : Ends ovf L c d x) : Ends ovf L c d' (onDisk c d' x) := by
  have hin : ∀ {b}, d c.input = some b → d' c.input = some b := fun h => hi.trans h
  have hsym : ∀ {t}, SymText c d t → SymText c d' t := by
    intro t h
    unfold SymText at h ⊢
    cases hs : c.syms with
    | none => rw [hs] at h; exact h
    | some p => rw [hs] at h; exact (hy p hs).trans h
  have hcfg : ∀ {syms addr}, Configured L c d syms addr → Configured L c d' syms addr := by
    rintro syms addr ⟨t, y, h1, h2⟩
    exact ⟨t, y, hsym h1, h2⟩
  have hsucc : ∀ {file text err}, onDisk c d' (success c d file text err) = success c d' file text err := by
    intro file text err
    unfold success onDisk
    cases ho : c.output with
    | none => rfl
    | some p => dsimp only; rw [set_get]; rfl
  cases hx with
  | symbols p bs h1 h2 h3 => exact .symbols p bs h1 ((hy p h1).trans h2) h3
  | yaml t h1 h2 => exact .yaml t (hsym h1) h2
  | base t y h1 h2 h3 => exact .base t y (hsym h1) h2 h3
  | input syms addr bs h1 h2 h3 h4 => exact .input syms addr bs h1 (hcfg h2) (hin h3) h4
  | crash syms addr data h1 h2 h3 h4 => exact .crash syms addr data h1 (hcfg h2) (hin h3) h4
  | code syms addr data ws warns ts file t h1 h2 h3 h4 h5 h6 h7 h8 h9 =>
    rw [hsucc]
    exact .code syms addr data ws warns ts file t h1 (hcfg h2) (hin h3) h4 h5 h6 h7 h8 h9
  | errors syms addr data es warns ts us h1 h2 h3 h4 h5 h6 h7 h8 =>
    exact .errors syms addr data es warns ts us h1 (hcfg h2) (hin h3) h4 h5 h6 h7 h8
  | unquoted syms addr data es e h1 h2 h3 h4 h5 h6 h7 => exact .unquoted syms addr data es e h1 (hcfg h2) (hin h3) h4 h5 h6 h7
  | words syms addr bytes h1 h2 h3 h4 => exact .words syms addr bytes h1 (hcfg h2) (hin h3) h4
  | noListing syms addr bytes ws h1 h2 h3 h4 h5 h6 => exact .noListing syms addr bytes ws h1 (hcfg h2) (hin h3) h4 h5 h6
  | listing syms addr bytes ws h1 h2 h3 h4 h5 h6 =>
    rw [hsucc]
    exact .listing syms addr bytes ws h1 (hcfg h2) (hin h3) h4 h5 h6

/-- **C90**: how a run ends depends only on the files it reads: on two disks on which they have the same contents, runs without failing operations end with the same
status (or panic) and the same texts, and write the same output file; nothing else on the disk is changed. -/
theorem C90_frame [Unicode] (rt rt' : Rt) (hovf : rt'.ovf = rt.ovf) (L L' : Lib) (c : Cmd) (d d' : Disk) (hl : SameLib c d L L') (hi : d' c.input = d c.input)
    (hy : ∀ p, c.syms = some p → d' p = d p) (x : End) (hx : ∃ u, Reach true (start rt L c d) u ∧ IsEnd u x) (y : End) :
    (∃ v, Reach true (start rt' L' c d') v ∧ IsEnd v y) ↔ y = onDisk c d' x := by
  rw [C62_run] at hx ⊢
  rw [hovf]
  have key := ends_frame hi hy (ends_lib hl hx)
  refine ⟨fun h => (C62_one rt L' c d').1 _ _ h key, fun h => h ▸ key⟩

/-- **C88**: after any number of attempts, stopped or failed at any moment, an undisturbed run ends as it would have ended on the original disk: with the same
status or panic, the same texts and, if it is successful, the same disk; and in no other way.  The files it reads must not be the one it writes. -/
theorem C88_again [Unicode] (rt rt' : Rt) (hovf : rt'.ovf = rt.ovf) (L L' : Lib) (c : Cmd) (d d' : Disk) (hl : SameLib c d L L') (ha : Apart c)
    (h : Attempts c d d') (x : End) (hx : ∃ u, Reach true (start rt L c d) u ∧ IsEnd u x) (y : End) :
    (∃ v, Reach true (start rt' L' c d') v ∧ IsEnd v y) ↔ y = again d' x := by
  rw [C62_run] at hx ⊢
  rw [hovf]
  have hx' := ends_lib hl hx
  have key := ends_again ha (attempts_others h) hx'
  refine ⟨fun h => ?_, fun h => h ▸ key⟩
  have := (C62_one rt L' c d').1
  exact this _ _ h key

/-- **C88**: in particular, running the tool twice is the same as running it once. -/
theorem C88_twice [Unicode] (rt rt' : Rt) (hovf : rt'.ovf = rt.ovf) (L L' : Lib) (c : Cmd) (d : Disk) (hl : SameLib c d L L') (ha : Apart c) (s v : St)
    (hs : Reach true (start rt L c d) s) (h0 : s.io = .exit 0) (hv : Reach true (start rt' L' c s.disk) v) (ho : Over v) :
    v.io = .exit 0 ∧ v.disk = s.disk ∧ v.out = s.out ∧ v.err = s.err := by
  have hcl : clean (program rt L c) d [] [] = some s := reach_clean hs (.inl ⟨0, h0⟩)
  obtain ⟨x, hx⟩ := ends_exist (rt := rt) (.inr (by rw [hcl]; nofun))
  obtain ⟨u, hu, hux⟩ := ends_run hx
  rw [hcl] at hu; cases hu
  have hatt : Attempts c d s.disk := .one rt L s (reach_weaken hs) (.none _)
  obtain ⟨w, hw, hwx⟩ := (C88_again rt rt' hovf L L' c d s.disk hl ha hatt x ⟨s, hs, hux⟩ _).2 rfl
  have e1 := reach_clean hw (isEnd_over hwx)
  have e2 := reach_clean hv ho
  have e3 : w = v := by
    have := e1.symm.trans e2
    exact Option.some.inj this
  subst e3
  cases x with
  | panic => have hux : s.io = .panic := hux; rw [h0] at hux; cases hux
  | status n disk out err =>
    obtain ⟨k1, k2, k3, k4⟩ := hux
    rw [h0] at k1; cases k1
    obtain ⟨l1, l2, l3, l4⟩ := hwx
    exact ⟨l1, l2.trans k2.symm, l3.trans k3.symm, l4.trans k4.symm⟩

/-- Non-vacuity of C88: a run whose write fails after three bytes; the next one stopped before it writes; the last one writes the whole file. -/
example : ∃ d', @Attempts asciiUnicode ⟨.asm, some c!"out", none, c!"in.s", c!"0"⟩ exDisk d' ∧ d' c!"out" = some [] ∧
    Apart ⟨.asm, some c!"out", none, c!"in.s", c!"0"⟩ ∧ SameLib ⟨.asm, some c!"out", none, c!"in.s", c!"0"⟩ exDisk noYaml { noYaml with order := List.reverse, perm := List.reverse_perm } ∧
    (clean (@program asciiUnicode (idRt true) noYaml ⟨.asm, some c!"out", none, c!"in.s", c!"0"⟩) d' [] []).any (fun s => ended 0 s.io &&
      s.disk c!"out" == some [0x24, 0x02, 0x00, 0x01, 0, 0, 0, 0]) = true :=
  letI := asciiUnicode
  let c : Cmd := ⟨.asm, some c!"out", none, c!"in.s", c!"0"⟩
  let s1 := [none, none, some 3, none].foldl (fun s f => act f s) (start (idRt true) noYaml c exDisk)
  let s2 := [none, none].foldl (fun s f => act f s) (start (idRt true) noYaml c s1.disk)
  ⟨s2.disk, .one (idRt true) noYaml s1 (acts_reach _ _) (.one (idRt true) noYaml s2 (acts_reach _ _) (.none _)), by decide +kernel, ⟨by decide, by nofun⟩,
    ⟨rfl, rfl, .inr fun t y h1 h2 => by cases h1; cases h2; exact List.nodup_nil⟩, by decide +kernel⟩

theorem option_any {α : Type} {p : α → Bool} : ∀ {o : Option α}, o.any p = true → ∃ a, o = some a ∧ p a = true
  | some a, h => ⟨a, rfl, h⟩

/-- Non-vacuity of C90: the input file is the same, other files are not; the output file is the input file. -/
example : let d' : Disk := fun p => if p = c!"in.s" then exDisk c!"in.s" else some [7]
    (@clean (@program asciiUnicode (idRt true) noYaml ⟨.asm, some c!"in.s", none, c!"in.s", c!"0"⟩) d' [] []).any (fun s => ended 0 s.io &&
      s.disk c!"in.s" == some [0x24, 0x02, 0x00, 0x01, 0, 0, 0, 0] && s.disk c!"out" == some [7]) = true ∧
    (@clean (@program asciiUnicode (idRt true) noYaml ⟨.asm, some c!"in.s", none, c!"in.s", c!"0"⟩) exDisk [] []).any (fun s => ended 0 s.io &&
      s.disk c!"in.s" == some [0x24, 0x02, 0x00, 0x01, 0, 0, 0, 0] && s.disk c!"out" == some [1, 2, 3]) = true := by
  letI := asciiUnicode
  decide +kernel

/-- C88 needs that the input file is not the output file: the first run is a success, the second one is not. -/
theorem C88_same_file : ∃ s v, Reach true (@start asciiUnicode (idRt true) noYaml ⟨.asm, some c!"in.s", none, c!"in.s", c!"0"⟩ exDisk) s ∧
    ended 0 s.io = true ∧ Reach true (@start asciiUnicode (idRt true) noYaml ⟨.asm, some c!"in.s", none, c!"in.s", c!"0"⟩ s.disk) v ∧ ended 1 v.io = true := by
  letI := asciiUnicode
  have k : ∃ s, clean (@program asciiUnicode (idRt true) noYaml ⟨.asm, some c!"in.s", none, c!"in.s", c!"0"⟩) exDisk [] [] = some s ∧ ended 0 s.io = true ∧
      ∃ v, clean (@program asciiUnicode (idRt true) noYaml ⟨.asm, some c!"in.s", none, c!"in.s", c!"0"⟩) s.disk [] [] = some v ∧ ended 1 v.io = true := by
    have h : (clean (@program asciiUnicode (idRt true) noYaml ⟨.asm, some c!"in.s", none, c!"in.s", c!"0"⟩) exDisk [] []).any (fun s => ended 0 s.io &&
        (clean (@program asciiUnicode (idRt true) noYaml ⟨.asm, some c!"in.s", none, c!"in.s", c!"0"⟩) s.disk [] []).any fun v => ended 1 v.io) = true := by
      decide +kernel
    obtain ⟨s, hs, h⟩ := option_any h
    rw [Bool.and_eq_true] at h
    obtain ⟨v, hv, h'⟩ := option_any h.2
    exact ⟨s, hs, h.1, v, hv, h'⟩
  obtain ⟨s, hs, h0, v, hv, h1⟩ := k
  exact ⟨s, v, (clean_reach _ _ _ _ _ hs).1, h0, (clean_reach _ _ _ _ _ hv).1, h1⟩

end Mips
