/-
**C85** — disassembling and assembling again brings words without branches into a form that no further round changes.
-/
import Verif.Props.Reassemble2
import Verif.Spec.Twice

namespace Mips
open Isa Syntax Source Listing Branch

theorem mapM_mem {base : Word} {n i : Nat} {args args' : List Arg} (h : args.mapM (reread base n i) = some args') {b : Arg} (hb : b ∈ args') :
    ∃ a ∈ args, reread base n i a = some b := by
  rw [mapM_some_iff] at h
  obtain ⟨h0, h1⟩ := h
  obtain ⟨k, hk⟩ := List.getElem?_of_mem hb
  have hlt : k < args.length := by
    have := (List.getElem?_eq_some_iff.1 hk).1
    omega
  obtain ⟨b', h2, h3⟩ := h1 k args[k] (List.getElem?_eq_getElem hlt)
  rw [hk] at h2; cases h2
  exact ⟨_, List.getElem_mem hlt, h3⟩

/-- What has been read again is kept, unless it is a branch offset. -/
theorem reread_stable {base base' : Word} {n i j : Nat} {a b : Arg} (h : reread base n i a = some b) (ha : ∀ v, a ≠ .off v) : Kept base' j b := by
  cases a with
  | off v => exact absurd rfl (ha v)
  | simm v =>
    cases h
    unfold Kept rereadInt
    dsimp only
    split
    · decide
    · assumption
  | mem v r =>
    cases h
    unfold Kept rereadInt
    dsimp only
    split
    · decide
    · assumption
  | code v =>
    unfold reread at h
    dsimp only at h
    split at h
    · cases h; assumption
    · cases h
  | c0 r =>
    unfold reread at h
    dsimp only at h
    split at h
    · cases h; assumption
    · cases h
  | target t =>
    cases h
    show (BitVec.ofNat 26 (t.toNat % 2 ^ 24)).toNat < 2 ^ 24
    rw [BitVec.toNat_ofNat]
    omega
  | gpr r => cases h; trivial
  | fpr r => cases h; trivial
  | sa v => cases h; trivial
  | uimm v => cases h; trivial
  | cop v => cases h; trivial

theorem back_stable {base base' : Word} {n i j : Nat} {w w' : Word} (hb : ¬ BranchWord w) (h : comesBack base n i w = some w') :
    ∃ mn args, decoding w' = some (mn, args) ∧ encoding mn args = some w' ∧ ∀ a ∈ args, Kept base' j a := by
  unfold comesBack at h
  cases hd : decoding w with
  | none =>
    rw [hd] at h
    dsimp only at h
    split at h
    · obtain ⟨e, _, he⟩ := Option.bind_eq_some_iff.1 h
      exact ⟨e.1, [], decoding_encoding he, he, by simp⟩
    · cases h
  | some p =>
    obtain ⟨mn, args⟩ := p
    rw [hd] at h
    dsimp only at h
    obtain ⟨args', h1, h2⟩ := Option.bind_eq_some_iff.1 h
    refine ⟨mn, args', decoding_encoding h2, h2, fun b hbm => ?_⟩
    obtain ⟨a, ha, hab⟩ := mapM_mem h1 hbm
    exact reread_stable hab fun v hv => hb ⟨mn, args, v, hd, hv ▸ ha⟩

theorem co_untabbed : ∀ e ∈ cp0Map, '\t' ∉ gap e.1 := by decide +kernel

theorem listed_stable {base base' : Word} {n i j : Nat} {w w' : Word} (hb : ¬ BranchWord w) (h : listedBack base n i w = some w') :
    ¬ Tabbed w' ∧ ∃ mn args, decoding w' = some (mn, args) ∧ encoding mn args = some w' ∧ ∀ a ∈ args, Kept base' j a := by
  have ht : ¬ Tabbed w := fun ht => by rw [listedBack_tab ht] at h; cases h
  rw [listedBack_plain ht] at h
  refine ⟨?_, back_stable hb h⟩
  rintro ⟨mn', args', h1, h2⟩
  unfold comesBack at h
  cases hd : decoding w with
  | none =>
    rw [hd] at h
    dsimp only at h
    split at h
    · obtain ⟨e, hf, he⟩ := Option.bind_eq_some_iff.1 h
      rw [decoding_encoding he] at h1
      cases h1
      exact co_untabbed e (List.mem_of_find?_eq_some hf) h2
    · cases h
  | some p =>
    obtain ⟨mn, args⟩ := p
    rw [hd] at h
    dsimp only at h
    obtain ⟨args', h3, h4⟩ := Option.bind_eq_some_iff.1 h
    rw [decoding_encoding h4] at h1
    cases h1
    exact ht ⟨_, _, hd, h2⟩

/-- **C85**, with one instruction on a line (debug listings).  If the disassembly of words without branches can be assembled, the words that come out are not changed by disassembling
and assembling them again, whatever the base addresses are in the four steps. -/
theorem C85_debug [Unicode] (rt1 rt2 rt3 rt4 : Rt) (m1 m2 m3 m4 : Mipsasm) (hd1 : m1.debug = true) (hd3 : m3.debug = true) (hs2 : m2.syms = m1.syms)
    (hs3 : m3.syms = m1.syms) (hs4 : m4.syms = m1.syms) (hp : JumpSyms m1.syms) (ws ws' : List Word) (hlen : ws.length ≤ 2 ^ 17) (hb : NoBranches ws)
    (out : List Str) (h1 : disassemble rt1 m1 ws = some out) (h2 : (assemble rt2 m2 (['\n'].intercalate out)).words = some ws') :
    ∃ out', disassemble rt3 m3 ws' = some out' ∧ (assemble rt4 m4 (['\n'].intercalate out')).words = some ws' := by
  obtain ⟨_, k1, k2⟩ := C03_exact rt1 rt2 m1 m2 hd1 hs2 hp ws (by omega)
  rw [h1] at k1; cases k1
  rw [h2, allBack_range, eq_comm, mapM_some_iff, List.length_range] at k2
  obtain ⟨k3, k4⟩ := k2
  obtain ⟨out', k5, _⟩ := C03_exact rt3 rt4 m3 m4 hd3 (hs4.trans hs3.symm) (hs3 ▸ hp) ws' (by omega)
  refine ⟨out', k5, (C03_same rt3 rt4 m3 m4 hd3 (hs4.trans hs3.symm) (hs3 ▸ hp) ws' (by omega) out' k5).2 fun i w' hw' => ?_⟩
  have hi := (List.getElem?_eq_some_iff.1 hw').1
  obtain ⟨b, k6, k7⟩ := k4 i i (List.getElem?_range (by omega))
  rw [hw'] at k6; cases k6
  obtain ⟨w, k8, k9⟩ := Option.bind_eq_some_iff.1 k7
  exact back_stable (hb w (List.mem_of_getElem? k8)) k9

/-- **C85**, for printed listings with their labels, made to a text in either way. -/
theorem C85_listing [Unicode] (rt1 rt2 rt3 rt4 : Rt) (m1 m2 m3 m4 : Mipsasm) (hd1 : m1.debug = false) (hd3 : m3.debug = false) (hs2 : m2.syms = m1.syms)
    (hs3 : m3.syms = m1.syms) (hs4 : m4.syms = m1.syms) (hl : LabelSyms m1.syms) (ws ws' : List Word) (hlen : ws.length ≤ 2 ^ 17) (hb : NoBranches ws)
    (out out' : List Str) (text text' : Str) (h1 : disassemble rt1 m1 ws = some out) (ht : AsText out text) (h2 : (assemble rt2 m2 text).words = some ws')
    (h3 : disassemble rt3 m3 ws' = some out') (ht' : AsText out' text') : (assemble rt4 m4 text').words = some ws' := by
  have k2 := C66_exact rt1 rt2 m1 m2 hd1 hs2 hl ws (by omega) out h1 text ht
  rw [h2, allListed_range, eq_comm, mapM_some_iff, List.length_range] at k2
  obtain ⟨k3, k4⟩ := k2
  refine (C66_same rt3 rt4 m3 m4 hd3 (hs4.trans hs3.symm) (hs3 ▸ hl) ws' (by omega) out' h3 text' ht').2 fun i w' hw' => ?_
  have hi := (List.getElem?_eq_some_iff.1 hw').1
  obtain ⟨b, k6, k7⟩ := k4 i i (List.getElem?_range (by omega))
  rw [hw'] at k6; cases k6
  obtain ⟨w, k8, k9⟩ := Option.bind_eq_some_iff.1 k7
  exact listed_stable (hb w (List.mem_of_getElem? k8)) k9

/-- Branches had to be left out: a branch goes on changing, and may fail to come back later (here the third time). -/
theorem C85_branches :
    thereAndBack Mipsasm.new.setDebug [0#32, 0x10410008#32] = some [0#32, 0x10410001#32] ∧
    thereAndBack Mipsasm.new.setDebug [0#32, 0x10410001#32] = some [0#32, 0x10410000#32] ∧
    thereAndBack Mipsasm.new.setDebug [0#32, 0#32, 0#32, 0#32, 0x10410010#32] = some [0#32, 0#32, 0#32, 0#32, 0x10410002#32] ∧
    thereAndBack Mipsasm.new.setDebug [0#32, 0#32, 0#32, 0#32, 0x10410000#32] = some [0#32, 0#32, 0#32, 0#32, 0x1041ffff#32] ∧
    thereAndBack Mipsasm.new.setDebug [0#32, 0#32, 0#32, 0#32, 0x1041ffff#32] = none := by decide +kernel

/-! ### Examples -/

/-- `addiu` with 32767, a jump beyond 64 MB, an empty encoding of coprocessor 0 printed as `tlbp`, and a word with a field that is not zero: all
change once, and then no more. -/
example : NoBranches [0x24427fff#32, 0x09000001#32, 0x40600008#32, 0x00431061#32] := by
  intro w hw
  rintro ⟨mn, args, v, h, hv⟩
  have : ∀ w ∈ [0x24427fff#32, 0x09000001#32, 0x40600008#32, 0x00431061#32], ∀ p ∈ (decoding w).toList, ∀ a ∈ p.2, ∀ v, a ≠ Arg.off v := by
    intro w hw p hp a ha v hv
    subst hv
    revert ha hp
    simp only [List.mem_cons, List.not_mem_nil, or_false] at hw
    rcases hw with rfl | rfl | rfl | rfl
    all_goals
      intro hp ha
      rw [Option.mem_toList] at hp
      first
        | (rw [show decoding 0x24427fff#32 = some (c!"addiu", [.gpr 2, .gpr 2, .simm 0x7fff]) by decide +kernel] at hp; cases hp; simp at ha)
        | (rw [show decoding 0x09000001#32 = some (c!"j", [.target 0x1000001]) by decide +kernel] at hp; cases hp; simp at ha)
        | (rw [show decoding 0x40600008#32 = none by decide +kernel] at hp; cases hp)
        | (rw [show decoding 0x00431061#32 = some (c!"addu", [.gpr 2, .gpr 2, .gpr 3]) by decide +kernel] at hp; cases hp; simp at ha)
  exact this w hw (mn, args) (by rw [h]; simp) _ hv v rfl

example : thereAndBack Mipsasm.new.setDebug [0x24427fff#32, 0x09000001#32, 0x40600008#32, 0x00431061#32] =
      some [0x24428001#32, 0x08000001#32, 0x42000008#32, 0x00431021#32] ∧
    thereAndBack Mipsasm.new.setDebug [0x24428001#32, 0x08000001#32, 0x42000008#32, 0x00431021#32] =
      some [0x24428001#32, 0x08000001#32, 0x42000008#32, 0x00431021#32] := by decide +kernel

/-- With printed listings: two functions, the second one with the name `next`; 32767 changes the first time, nothing does the second time. -/
example : backAgain { Mipsasm.new with syms := [(0x10#32, c!"next")] } [0x24427fff#32, 0x24420001#32, 0x03e00008#32, 0#32, 0x0c000004#32] =
      some [0x24428001#32, 0x24420001#32, 0x03e00008#32, 0#32, 0x0c000004#32] ∧
    backAgain { Mipsasm.new with syms := [(0x10#32, c!"next")] } [0x24428001#32, 0x24420001#32, 0x03e00008#32, 0#32, 0x0c000004#32] =
      some [0x24428001#32, 0x24420001#32, 0x03e00008#32, 0#32, 0x0c000004#32] := by decide +kernel

end Mips
