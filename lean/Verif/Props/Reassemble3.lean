import Verif.Props.Reassemble2

/-!
C66 for the command-line tool, in full: `disasm` to the terminal, `asm` on what it printed.
-/

namespace Mips
open Lang Listing

open Cli in
/-- What a successful `disasm` run without an output file prints. -/
theorem disasm_prints [Unicode] {rt : Rt} {L : Lib} {c : Cmd} {d : Disk} {syms : List (Word × Str)} {addr : Word} {bytes : Bytes}
    {ws : List Word} {s : St} (hm : c.mode = .disasm) (ho : c.output = none) (hc : Configured L c d syms addr)
    (hb : d c.input = some bytes) (hw : Stored ws bytes) (hr : Reach true (start rt L c d) s) (hs : s.io = .exit 0) :
    s.out = utf8 (onLines (listing (fun a => syms.lookup a) addr ws)) := by
  have hover : Over s := .inl ⟨0, hs⟩
  have hcl : clean (program rt L c) d [] [] = some s := reach_clean hr hover
  obtain ⟨x, hx⟩ := ends_exist (rt := rt) (.inr (by rw [hcl]; nofun))
  obtain ⟨u, hu, hux⟩ := ends_run hx
  rw [hcl] at hu; cases hu
  cases hx with
  | symbols p bs k1 k2 k3 => have := hux.1; rw [hs] at this; cases this
  | yaml t k1 k2 => have hux : s.io = .panic := hux; rw [hs] at hux; cases hux
  | base t y k1 k2 k3 => have := hux.1; rw [hs] at this; cases this
  | input _ _ bs k1 => rw [hm] at k1; cases k1
  | crash _ _ _ k1 => rw [hm] at k1; cases k1
  | code _ _ _ _ _ _ _ _ k1 => rw [hm] at k1; cases k1
  | errors _ _ _ _ _ _ _ k1 => rw [hm] at k1; cases k1
  | unquoted _ _ _ _ _ k1 => rw [hm] at k1; cases k1
  | words _ _ _ k1 => have hux : s.io = .panic := hux; rw [hs] at hux; cases hux
  | noListing _ _ _ _ k1 => have hux : s.io = .panic := hux; rw [hs] at hux; cases hux
  | listing syms' a' bytes' ws' _ k1 k2 k3 k4 k5 =>
    obtain ⟨rfl, rfl⟩ := configured_unique hc k1
    rw [hb] at k2; cases k2
    cases stored_words hw k4
    unfold success at hux
    rw [ho] at hux
    exact hux.2.2.1

open Cli in
/-- An undisturbed `asm` run whose program has these words. -/
theorem asm_run_words [Unicode] (rt : Rt) (L : Lib) (c : Cmd) (d : Disk) (syms : List (Word × Str)) (addr : Word) (data p : Str)
    (hm : c.mode = .asm) (ho : c.output = some p) (hc : Configured L c d syms addr) (hb : d c.input = some (utf8 data)) :
    (∀ ws bytes, (assemble rt ((Mipsasm.new.setBase addr).setSymbols syms) data).words = some ws → Stored ws bytes →
      ∃ u, Reach true (start rt L c d) u ∧ u.io = .exit 0 ∧ u.disk = d.set p bytes) ∧
    (∀ u, Reach true (start rt L c d) u → u.io = .exit 0 →
      ∃ ws bytes, (assemble rt ((Mipsasm.new.setBase addr).setSymbols syms) data).words = some ws ∧ Stored ws bytes ∧ u.disk = d.set p bytes) := by
  constructor
  · intro ws bytes hwords hw
    have hend : ∃ err, Ends rt.ovf L c d (.status 0 (d.set p bytes) [] err) := by
      obtain ⟨g1, g2⟩ := (C57_program rt ((Mipsasm.new.setBase addr).setSymbols syms) data ws).1 hwords
      cases ha : assemble rt ((Mipsasm.new.setBase addr).setSymbols syms) data with
      | panic => rw [ha] at hwords; cases hwords
      | err es warns => rw [ha] at hwords; cases hwords
      | ok is warns =>
        obtain ⟨_, g3⟩ := (C59_warnings rt ((Mipsasm.new.setBase addr).setSymbols syms) data warns).1 (by rw [ha]; rfl)
        obtain ⟨ts, ht⟩ := messages_exist _ _ (assemble_warns_display rt ((Mipsasm.new.setBase addr).setSymbols syms) data warns (by rw [ha]; rfl))
        have := Ends.code (ovf := rt.ovf) (L := L) (c := c) (d := d) syms addr data ws warns ts bytes _ hm hc hb g1 g2 g3 ((messages_warn _ _).2 ht) hw
          ⟨_, hexWords_inter ws, rfl⟩
        unfold success at this
        rw [ho] at this
        exact ⟨_, this⟩
    obtain ⟨err, hend⟩ := hend
    obtain ⟨u, h1, h2⟩ := (C62_run rt L c d _).2 hend
    exact ⟨u, h1, h2.1, h2.2.1⟩
  · intro u hr hs
    have hover : Over u := .inl ⟨0, hs⟩
    have hcl : clean (program rt L c) d [] [] = some u := reach_clean hr hover
    obtain ⟨x, hx⟩ := ends_exist (rt := rt) (.inr (by rw [hcl]; nofun))
    obtain ⟨v, hv, hux⟩ := ends_run hx
    rw [hcl] at hv; cases hv
    cases hx with
    | symbols p bs k1 k2 k3 => have := hux.1; rw [hs] at this; cases this
    | yaml t k1 k2 => have hux : u.io = .panic := hux; rw [hs] at hux; cases hux
    | base t y k1 k2 k3 => have := hux.1; rw [hs] at this; cases this
    | input _ _ bs k1 => have := hux.1; rw [hs] at this; cases this
    | crash _ _ _ k1 => have hux : u.io = .panic := hux; rw [hs] at hux; cases hux
    | errors _ _ _ _ _ _ _ k1 => have := hux.1; rw [hs] at this; cases this
    | unquoted _ _ _ _ _ k1 => have hux : u.io = .panic := hux; rw [hs] at hux; cases hux
    | words _ _ _ k1 => rw [hm] at k1; cases k1
    | noListing _ _ _ _ k1 => rw [hm] at k1; cases k1
    | listing _ _ _ _ k1 => rw [hm] at k1; cases k1
    | code syms' addr' data' ws warns ts file text _ k1 k2 g1 g2 g3 g4 g5 g6 =>
      obtain ⟨rfl, rfl⟩ := configured_unique hc k1
      rw [hb] at k2
      have e : data = data' := utf8_inj (Option.some.inj k2)
      subst e
      unfold success at hux
      rw [ho] at hux
      exact ⟨ws, file, (C57_program rt ((Mipsasm.new.setBase addr).setSymbols syms) data ws).2 ⟨g1, g2⟩, g5, hux.2.1⟩

open Cli in
/-- **C66**, for the command-line tool, in full.  Let `disasm` without an output file end successfully, and let what it has printed be the
input file of an `asm` run with the same symbols, any base address and an output file.  If `allListed` has words for that base address, an
undisturbed run ends successfully and leaves exactly those words in the output file and changes no other file; every undisturbed run that
ends successfully is like that. -/
theorem C66_tool [Unicode] (rt rt' : Rt) (L : Lib) (c c' : Cmd) (d d' : Disk) (syms : List (Word × Str)) (addr addr' : Word) (bytes : Bytes)
    (ws : List Word) (p : Str) (s : St) (hm : c.mode = .disasm) (ho : c.output = none) (hc : Configured L c d syms addr)
    (hb : d c.input = some bytes) (hw : Stored ws bytes) (hl : LabelSyms syms) (hlen : ws.length ≤ 2 ^ 29)
    (hr : Reach true (start rt L c d) s) (hs : s.io = .exit 0)
    (hm' : c'.mode = .asm) (ho' : c'.output = some p) (hc' : Configured L c' d' syms addr') (hb' : d' c'.input = some s.out) :
    (∀ ws' bytes', allListed addr' ws = some ws' → Stored ws' bytes' →
      ∃ u, Reach true (start rt' L c' d') u ∧ u.io = .exit 0 ∧ u.disk = d'.set p bytes') ∧
    (∀ u, Reach true (start rt' L c' d') u → u.io = .exit 0 →
      ∃ ws' bytes', allListed addr' ws = some ws' ∧ Stored ws' bytes' ∧ u.disk = d'.set p bytes') := by
  rw [disasm_prints hm ho hc hb hw hr hs] at hb'
  have hwords := listing_exact rt' ((Mipsasm.new.setBase addr').setSymbols syms) addr hl ws hlen (onLines (listing (fun a => syms.lookup a) addr ws))
    (listing_lines2 hl ws (.inr rfl))
  have := asm_run_words rt' L c' d' syms addr' _ p hm' ho' hc' hb'
  rw [hwords] at this
  exact this

/-! ### Example -/

open Cli in
/-- `beq $v0, $at, 8` and `addiu $v0, $v0, 0x7fff` through both runs: the input of the second is the output of the first.  Neither word comes back, as
`allListed` says.  (The hypotheses of `C66_tool` are among those of `C66_tool_partial`; an example beside it meets them.) -/
example : allListed 0#32 [0x24420001#32, 0x10410008#32, 0x24427fff#32] = some [0x24420001#32, 0x10410001#32, 0x24428001#32] ∧
    ((clean (@program asciiUnicode (idRt true) noYaml ⟨.disasm, none, none, c!"i", c!"0"⟩)
      (fun p => if p = c!"i" then some [0x24, 0x42, 0, 1, 0x10, 0x41, 0, 8, 0x24, 0x42, 0x7f, 0xff] else none) [] []).bind fun s =>
        (clean (@program asciiUnicode (idRt true) noYaml ⟨.asm, some c!"o", none, c!"j", c!"0"⟩) (fun p => if p = c!"j" then some s.out else none) [] []).map
          fun u => (ended 0 s.io, ended 0 u.io, u.disk c!"o")) =
      some (true, true, some [0x24, 0x42, 0, 1, 0x10, 0x41, 0, 1, 0x24, 0x42, 0x80, 1]) := by
  refine ⟨?_, ?_⟩ <;> decide +kernel

end Mips
