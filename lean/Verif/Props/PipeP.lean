/-
**C87** — the command-line tool: `disasm` reads what `asm` has written.
-/
import Verif.Props.Reassemble3
import Verif.Spec.Pipe

namespace Mips
open Lang Listing Cli

theorem stored_nil {ws : List Word} {bs : Bytes} (h : Stored ws bs) : bs = [] ↔ ws = [] := by
  cases h with
  | nil => simp
  | cons => simp

/-- **C87**: let `asm` with the output file `p` end successfully, with no operation failing, and let `disasm` be started with the input file `p` on the disk
that the first run has left.  Then the first run has written the words `ws` that the library assembles, and the second run ends as it should for
the words `ws`, and in no other way, if no operation fails. -/
theorem C87_pipe [Unicode] (rt rt' : Rt) (L L' : Lib) (c c' : Cmd) (d : Disk) (syms syms' : List (Word × Str)) (addr addr' : Word) (data p : Str) (s : St)
    (hm : c.mode = .asm) (ho : c.output = some p) (hc : Configured L c d syms addr) (hb : d c.input = some (utf8 data))
    (hr : Reach true (start rt L c d) s) (hs : s.io = .exit 0)
    (hm' : c'.mode = .disasm) (hi' : c'.input = p) (hc' : Configured L' c' s.disk syms' addr') :
    ∃ ws, (assemble rt ((Mipsasm.new.setBase addr).setSymbols syms) data).words = some ws ∧
      ∀ x, (∃ u, Reach true (start rt' L' c' s.disk) u ∧ IsEnd u x) ↔ x = listingEnd rt' c' s.disk syms' addr' ws := by
  obtain ⟨ws, bytes, h1, h2, h3⟩ := (asm_run_words rt L c d syms addr data p hm ho hc hb).2 s hr hs
  refine ⟨ws, h1, fun x => (C62_run rt' L' c' s.disk x).trans ?_⟩
  have hin : s.disk c'.input = some bytes := by rw [h3, hi']; unfold Disk.set; rw [if_pos rfl]
  have key : Ends rt'.ovf L' c' s.disk (listingEnd rt' c' s.disk syms' addr' ws) := by
    unfold listingEnd
    by_cases hw : ws = []
    · rw [if_pos hw]
      exact .words syms' addr' bytes hm' hc' hin (.inl ((stored_nil h2).2 hw))
    · rw [if_neg hw]
      have hne : bytes ≠ [] := fun e => hw ((stored_nil h2).1 e)
      have hl := C60_listing rt' ((Mipsasm.new.setBase addr').setSymbols syms') rfl ws
      by_cases hn : NoListing rt'.ovf (fun a => syms'.lookup a) addr' ws
      · rw [hl.1.2 hn]
        exact .noListing syms' addr' bytes ws hm' hc' hin hne h2 hn
      · rw [hl.2 hn]
        exact .listing syms' addr' bytes ws hm' hc' hin hne h2 hn
  exact ⟨fun h => (C62_one rt' L' c' s.disk).1 _ _ h key, fun h => h ▸ key⟩

/-- The code of an accepted program may be such that the second run panics: if there is no instruction in it. -/
theorem C87_empty [Unicode] (rt rt' : Rt) (L L' : Lib) (c c' : Cmd) (d : Disk) (syms syms' : List (Word × Str)) (addr addr' : Word) (data p : Str) (s : St)
    (hm : c.mode = .asm) (ho : c.output = some p) (hc : Configured L c d syms addr) (hb : d c.input = some (utf8 data))
    (hr : Reach true (start rt L c d) s) (hs : s.io = .exit 0)
    (hm' : c'.mode = .disasm) (hi' : c'.input = p) (hc' : Configured L' c' s.disk syms' addr')
    (he : (assemble rt ((Mipsasm.new.setBase addr).setSymbols syms) data).words = some []) :
    ∃ u, Reach true (start rt' L' c' s.disk) u ∧ u.io = .panic := by
  obtain ⟨ws, h1, h2⟩ := C87_pipe rt rt' L L' c c' d syms syms' addr addr' data p s hm ho hc hb hr hs hm' hi' hc'
  rw [he] at h1; cases h1
  obtain ⟨u, k1, k2⟩ := (h2 .panic).2 rfl
  exact ⟨u, k1, k2⟩

/-! ### Examples -/

/-- Both runs, the second on the disk that the first leaves: whether they end with status 0, and what the second prints. -/
def pipe (data : Bytes) : Option (Bool × Bool × Option Str) :=
  (clean (@program asciiUnicode (idRt true) noYaml ⟨.asm, some c!"o", none, c!"i", c!"0"⟩) (fun p => if p = c!"i" then some data else none) [] []).bind fun s =>
    (clean (@program asciiUnicode (idRt true) noYaml ⟨.disasm, none, none, c!"o", c!"0x80000000"⟩) s.disk [] []).map fun u =>
      (ended 0 s.io, ended 0 u.io, fromUtf8 u.out)

/-- `jr $ra`, `nop`, `addiu $v0, $v0, 8` are assembled to a file and listed at another base address. -/
example : pipe (utf8 c!"jr $ra\nnop\naddiu $v0, $v0, 8") =
    some (true, true, some c!"func_80000000:\njr         $ra\nsll        $zero, $zero, 0x0\n\nfunc_80000008:\naddiu      $v0, $v0, 0x8\n") := by
  decide +kernel

/-- Only a comment: the first run is successful, the second panics. -/
example : pipe (utf8 c!"; nothing") = some (true, false, some []) := by decide +kernel

/-- The hypotheses of `C87_pipe` are met. -/
example : letI := asciiUnicode
    ∃ (d : Disk) (s : St), Configured noYaml ⟨.asm, some c!"o", none, c!"i", c!"0"⟩ d [] 0#32 ∧ d c!"i" = some (utf8 c!"jr $ra\nnop") ∧
      Reach true (start (idRt true) noYaml ⟨.asm, some c!"o", none, c!"i", c!"0"⟩ d) s ∧ s.io = .exit 0 ∧
      Configured noYaml ⟨.disasm, none, none, c!"o", c!"0x80000000"⟩ s.disk [] 0x80000000#32 := by
  letI := asciiUnicode
  have hcfg : ∀ (c : Cmd) (d : Disk) (a : Word), c.syms = none → parseBase c.base = some a → Configured noYaml c d [] a := by
    intro c d a h1 h2
    exact ⟨[], none, by unfold SymText; rw [h1], rfl, rfl, (C39_accepted_only _ _).1 h2⟩
  refine ⟨fun p => if p = c!"i" then some (utf8 c!"jr $ra\nnop") else none, ?_⟩
  obtain ⟨u, h1, h2, _⟩ := (asm_run_words (idRt true) noYaml ⟨.asm, some c!"o", none, c!"i", c!"0"⟩
    (fun p => if p = c!"i" then some (utf8 c!"jr $ra\nnop") else none) [] 0#32 c!"jr $ra\nnop" c!"o" rfl rfl (hcfg _ _ _ rfl (by decide +kernel)) (if_pos rfl)).1
    [0x03e00008#32, 0#32] _ (by decide +kernel) (C38_written_bytes _)
  exact ⟨u, hcfg _ _ _ rfl (by decide +kernel), if_pos rfl, h1, h2, hcfg _ _ _ rfl (by decide +kernel)⟩

end Mips
