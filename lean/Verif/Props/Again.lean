/- C50: the listing of assembled code shows the instructions that were written; different ones get different words. -/
import Verif.Spec.Again
import Verif.Lemmas.IsaL
import Verif.Props.Native
import Verif.Props.Dis2
import Verif.Props.Labels

namespace Mips
open Isa Syntax Source Listing Branch

theorem listed_same {as : List Arg} (h : ∀ a ∈ as, topArg a = false) : as.map listed = as := by
  induction as with
  | nil => rfl
  | cons a as ih =>
    rw [List.map_cons, ih (fun b hb => h b (List.mem_cons_of_mem _ hb))]
    have := h a (List.mem_cons_self ..)
    congr 1
    cases a <;> simp [topArg] at this <;> simp [listed, this]

theorem c0Arg_listed (as : List Arg) : c0Arg (as.map listed) = c0Arg as := by
  unfold c0Arg
  rcases as with _ | ⟨a, _ | ⟨b, _ | ⟨c, as⟩⟩⟩
  · rfl
  · rfl
  · cases b <;> rfl
  · simp

theorem top_decoding {w : Word} (ht : TopImm w) {mn : Str} {as : List Arg} (hd : decoding w = some (mn, as)) :
    decoding (withImm w 0x8001#16) = some (mn, as.map listed) := by
  have hi := (topImm_row ht).1
  obtain ⟨mn', as', h1, a, ha, hta⟩ := id ht
  rw [hd] at h1
  cases h1
  have hw := withImm_op w 0x8001#16
  have hrs := withImm_rs w 0x8001#16
  have hrt := withImm_rt w 0x8001#16
  have him := withImm_imm w 0x8001#16
  have hc := topImm_code hw hrs hrt ht
  generalize withImm w 0x8001#16 = w' at *
  unfold decoding at hd ⊢
  rw [hc]
  rw [Option.map_eq_some_iff] at hd ⊢
  obtain ⟨r, hr, e⟩ := hd
  refine ⟨r, hr, ?_⟩
  injection e with e1 e2
  subst e2
  rw [e1]
  congr 1
  cases hs : r.syn <;> simp only [hs, argsOf, List.mem_cons, List.not_mem_nil, or_false] at ha ⊢ <;>
    first
    | (simp [listed, hrs, hrt, him, hi]; done)
    | (exfalso; rcases ha with rfl | rfl | rfl <;> cases hta; done)
    | (exfalso; rcases ha with rfl | rfl <;> cases hta; done)
    | (exfalso; subst ha; cases hta; done)

/-- A word of the emitted code and its place in it. -/
theorem word_at {is : List Instruction} {j : Nat} {w : Word} (h : (is[j]?).map Instruction.getBytes = some [w]) :
    (getBytes is)[wordIndex is j]? = some w := by
  obtain ⟨x, hx, hb⟩ := Option.map_eq_some_iff.1 h
  have hlt := (List.getElem?_eq_some_iff.1 hx).1
  have e : is = is.take j ++ (x :: is.drop (j + 1)) := by
    rw [← (List.getElem?_eq_some_iff.1 hx).2, List.getElem_cons_drop, List.take_append_drop]
  have e2 : getBytes is = getBytes (is.take j) ++ ([w] ++ getBytes (is.drop (j + 1))) := by
    conv => lhs; rw [e]
    simp [getBytes, hb]
  rw [e2]
  unfold wordIndex
  rw [List.getElem?_append_right (Nat.le_refl _)]
  simp

theorem c0_named {s : Str} {as : List Arg} {r : BitVec 5} (h : SpellsAll s as) (hr : c0Arg as = some r) :
    (c0Names.lookup r.toNat).isSome = true := by
  have key : ∀ {s a}, Spells s a → ∀ {r}, a = .c0 r → (c0Names.lookup r.toNat).isSome = true := by
    intro s a hs r e
    subst e
    cases hs with
    | c0 _ _ hs =>
      have core : ∀ {t : Str}, C0Core t r → (c0Names.lookup r.toNat).isSome = true := by
        have all : ∀ r : BitVec 5, r.toNat ∈ cop0Names.map (·.1) → (c0Names.lookup r.toNat).isSome = true := by decide
        intro t ht
        cases ht with
        | name _ n hn => exact all r (List.mem_map_of_mem (f := (·.1)) hn)
        | num _ n hn => exact all r (List.mem_map_of_mem (f := (·.1)) hn)
      cases hs with
      | dollar _ _ _ _ _ _ h => exact core h
      | bare _ _ _ _ _ _ h => exact core h
  cases h with
  | one s a h => simp [c0Arg] at hr
  | cons s a t as h h' =>
    cases h' with
    | one _ b h' =>
      cases b <;> simp [c0Arg] at hr
      subst hr
      exact key h' rfl
    | cons _ b _ cs _ h'' => cases h'' <;> simp [c0Arg] at hr

theorem instr_c0 {s mn : Str} {as : List Arg} {r : BitVec 5} (h : InstrText s mn as) (hr : c0Arg as = some r) :
    (c0Names.lookup r.toNat).isSome = true := by
  cases h with
  | args mn' _ t _ _ _ h => exact c0_named h hr
  | bare => simp [c0Arg] at hr
  | code0 => simp [c0Arg] at hr
  | nop => simp [c0Arg] at hr
  | jalr => simp [c0Arg] at hr

theorem lineText_inst {sym : Word → Option Str} {base w : Word} {mn : Str} {as : List Arg} (hd : decoding w = some (mn, as))
    (h0 : ∀ r, c0Arg as = some r → (c0Names.lookup r.toNat).isSome = true) : lineText sym base w = instText sym base mn as := by
  unfold lineText
  rw [hd]
  dsimp only
  split
  · next r hr => rw [if_pos (h0 r hr)]
  · rfl

/-- **C50 (listing, exact).** A native instruction of an accepted program comes back in the debug-mode listing of the emitted
words, whatever the base address and symbols of the disassembler: at its place in the code the listing has the mnemonic
that was written and its operands in normal form, except that the signed operand 32767 comes back as -32767. -/
theorem C50_listing_exact [Unicode] (rt : Rt) (m : Mipsasm) (text : Str) (is : List Instruction) (warns : List ParserWarning)
    (h : assemble rt m text = .ok is warns) (k : Nat) (raw mn : Str) (as : List Arg) (w : Word)
    (hk : (lines text)[k]? = some raw) (hc : kind raw = .code) (hi : InstrText (body raw) mn as)
    (hw : encoding mn as = some w) (hn : NoNumeralLabel (lines text))
    (rt' : Rt) (m' : Mipsasm) (hm : m'.debug = true) (hs : PlainSyms m'.syms) :
    ∃ out, disassemble rt' m' (getBytes is) = some out ∧
      out[wordIndex is (codeCount ((lines text).take k))]? =
        some (instText (fun a => m'.syms.lookup a) m'.base mn (as.map listed)) := by
  have hat := word_at (C01_line rt m text is warns h k raw mn as w hk hc hi hw hn)
  have hd := decoding_encoding hw
  by_cases ht : TopImm w
  · obtain ⟨out, h1, h2⟩ := C02_top_wrong rt' m' hm hs (getBytes is)
    refine ⟨out, h1, ?_⟩
    rw [h2 _ _ hat ht, lineText_inst (top_decoding ht hd) (fun r hr => instr_c0 hi (c0Arg_listed as ▸ hr))]
  · obtain ⟨out, h1, _, h2⟩ := C02_text_partial rt' m' hm hs (getBytes is)
    refine ⟨out, h1, ?_⟩
    rw [h2 _ _ hat ht (not_hole_of_dec (by rw [hd]; rfl)), lineText_inst hd (fun r hr => instr_c0 hi hr), listed_same]
    intro a ha
    cases hta : topArg a with
    | false => rfl
    | true => exact absurd ⟨mn, as, hd, a, ha, hta⟩ ht

/-- **C50 (listing).** So without such an operand exactly the instruction that was written comes back.
Missing: the signed operand 32767 (`C50_wrong`, `C50_listing_exact`). -/
theorem C50_listing_partial [Unicode] (rt : Rt) (m : Mipsasm) (text : Str) (is : List Instruction) (warns : List ParserWarning)
    (h : assemble rt m text = .ok is warns) (k : Nat) (raw mn : Str) (as : List Arg) (w : Word)
    (hk : (lines text)[k]? = some raw) (hc : kind raw = .code) (hi : InstrText (body raw) mn as)
    (hw : encoding mn as = some w) (hn : NoNumeralLabel (lines text)) (hto : ∀ a ∈ as, topArg a = false)
    (rt' : Rt) (m' : Mipsasm) (hm : m'.debug = true) (hs : PlainSyms m'.syms) :
    ∃ out, disassemble rt' m' (getBytes is) = some out ∧
      out[wordIndex is (codeCount ((lines text).take k))]? =
        some (instText (fun a => m'.syms.lookup a) m'.base mn as) := by
  have := C50_listing_exact rt m text is warns h k raw mn as w hk hc hi hw hn rt' m' hm hs
  rwa [listed_same hto] at this

/-- **C50 (unambiguous).** Two native lines, of the same accepted program or of different ones, are assembled to the same word
only if they have the same mnemonic and the same operands. -/
theorem C50_unambiguous [Unicode] (rt rt' : Rt) (m m' : Mipsasm) (text text' : Str) (is is' : List Instruction)
    (warns warns' : List ParserWarning) (h : assemble rt m text = .ok is warns) (h' : assemble rt' m' text' = .ok is' warns')
    (k k' : Nat) (raw raw' mn mn' : Str) (as as' : List Arg)
    (hk : (lines text)[k]? = some raw) (hc : kind raw = .code) (hi : InstrText (body raw) mn as)
    (hk' : (lines text')[k']? = some raw') (hc' : kind raw' = .code) (hi' : InstrText (body raw') mn' as')
    (hw : (encoding mn as).isSome = true) (hw' : (encoding mn' as').isSome = true)
    (hn : NoNumeralLabel (lines text)) (hn' : NoNumeralLabel (lines text'))
    (he : (is[codeCount ((lines text).take k)]?).map Instruction.getBytes =
      (is'[codeCount ((lines text').take k')]?).map Instruction.getBytes) :
    mn = mn' ∧ as = as' := by
  obtain ⟨w, hw⟩ := Option.isSome_iff_exists.1 hw
  obtain ⟨w', hw'⟩ := Option.isSome_iff_exists.1 hw'
  rw [C01_line rt m text is warns h k raw mn as w hk hc hi hw hn,
    C01_line rt' m' text' is' warns' h' k' raw' mn' as' w' hk' hc' hi' hw' hn'] at he
  cases he
  exact encoding_inj hw hw'

/-- C50 is false of the signed operand 32767. -/
theorem C50_wrong : (@assemble asciiUnicode (idRt true) Mipsasm.new c!"addiu $v0, $a0, 0x7fff").words = some [0x24827fff#32] ∧
    disassemble (idRt true) Mipsasm.new.setDebug [0x24827fff#32] = some [c!"addiu $v0, $a0, -0x7fff"] := by
  decide +kernel

/-- Non-vacuity: a program that mixes sizes, and the listing of its words. -/
example : (@assemble asciiUnicode (idRt true) Mipsasm.new c!"li $t0, 0x12345\nLW $4,-8( sp ) // x\nbreak").words =
      some [0x3c080001#32, 0x35082345#32, 0x8fa4fff8#32, 0x0000000d#32] ∧
    disassemble (idRt true) Mipsasm.new.setDebug [0x3c080001#32, 0x35082345#32, 0x8fa4fff8#32, 0x0000000d#32] =
      some [c!"lui $t0, 0x1", c!"ori $t0, $t0, 0x2345", c!"lw $a0, -0x8($sp)", c!"break"] ∧
    encoding c!"lw" [.gpr 4, .mem (-8) 29] = some 0x8fa4fff8#32 ∧
    instText (fun _ => none) 0 c!"lw" [.gpr 4, .mem (-8) 29] = c!"lw $a0, -0x8($sp)" := by
  decide +kernel

end Mips
