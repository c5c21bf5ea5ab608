/- C51: executing the emitted words does what the source lines say. -/
import Verif.Lemmas.RunL
import Verif.Lemmas.IsaL
import Verif.Props.SizeP
import Verif.Props.Native
import Verif.Props.SetOps
import Verif.Props.Arith
import Verif.Props.Consts
import Verif.Props.MulDiv
import Verif.Props.Div
import Verif.Props.CmpBranch
import Verif.Props.Jumps
import Verif.Props.HiLo

namespace Mips
open Isa Syntax Source Branch Machine Pseudo Mips.Exec

/-! ### Every line has a word -/

theorem words_pos (mn : Str) : 1 ≤ Size.words mn := by
  unfold Size.words
  cases h : Size.long.lookup mn with
  | none => exact Nat.le_refl _
  | some n =>
    have : ∀ p ∈ Size.long, 1 ≤ p.2 := by decide
    rw [List.lookup_eq_some_iff] at h
    obtain ⟨l1, l2, he, _⟩ := h
    exact this (mn, n) (by rw [he]; simp)

theorem line_pos [Unicode] {rt : Rt} {m : Mipsasm} {text : Str} {is : List Instruction} {warns : List ParserWarning}
    (h : assemble rt m text = .ok is warns) {k : Nat} {raw : Str} (hk : (lines text)[k]? = some raw) (hc : kind raw = .code)
    {ws : List Word} (hw : (is[codeCount ((lines text).take k)]?).map Instruction.getBytes = some ws) : 1 ≤ ws.length := by
  by_cases hv : mnemonic (body raw) ∈ Size.varying.map (·.1)
  · obtain ⟨⟨mn, n⟩, hp, he⟩ := List.mem_map.1 hv
    obtain ⟨i, hi, hl⟩ := C49_varying rt m text is warns h k raw n hk hc (by rw [← he]; exact hp)
    have : ∀ p ∈ Size.varying, 1 ≤ p.2 := by decide
    have := this _ hp
    rw [hi] at hw; cases hw
    simp only at this
    omega
  · obtain ⟨i, hi, hl⟩ := C49_fixed rt m text is warns h k raw hk hc hv
    rw [hi] at hw; cases hw
    rw [hl]; exact words_pos _

theorem line_some [Unicode] {rt : Rt} {m : Mipsasm} {text : Str} {is : List Instruction} {warns : List ParserWarning}
    (h : assemble rt m text = .ok is warns) {k : Nat} {raw : Str} (hk : (lines text)[k]? = some raw) (hc : kind raw = .code) :
    ∃ ws, (is[codeCount ((lines text).take k)]?).map Instruction.getBytes = some ws := by
  obtain ⟨i, hi, _⟩ := line_final h hk hc
  exact ⟨_, by rw [hi]; rfl⟩

/-! ### Words inside the code -/

theorem code_split {is : List Instruction} {i : Nat} {x : Instruction} (h : is[i]? = some x) :
    getBytes is = getBytes (is.take i) ++ x.getBytes ++ getBytes (is.drop (i + 1)) := by
  unfold getBytes
  rw [← List.flatMap_singleton Instruction.getBytes x, ← List.flatMap_append, ← List.flatMap_append]
  obtain ⟨hl, rfl⟩ := List.getElem?_eq_some_iff.1 h
  congr 1
  rw [List.append_assoc, List.singleton_append, List.getElem_cons_drop, List.take_append_drop]

theorem wordIndex_le {is : List Instruction} {i : Nat} (_h : i ≤ is.length) : wordIndex is i ≤ (getBytes is).length := by
  unfold wordIndex getBytes
  conv => rhs; rw [← List.take_append_drop i is, List.flatMap_append, List.length_append]
  omega

/-! ### What the words of a line do -/

/-- The words at `i` do what `a` says. -/
def Realises (base : BitVec 32) (is : List Instruction) (i : Nat) : Act → Prop
  | .native mn as => (∃ w, (is[i]?).map Instruction.getBytes = some [w] ∧ encoding mn as = some w) ∧ (∀ o, Arg.off o ∉ as) ∧ mn ∉ Mips.Exec.control
  | .compute rd clob hilo f => ∃ ws, (is[i]?).map Instruction.getBytes = some ws ∧ 1 ≤ ws.length ∧
      ∀ s, s.Entry → Computes ws s rd clob hilo (f s.get)
  | .branch likely cond clob target => ∃ ws, (is[i]?).map Instruction.getBytes = some ws ∧ 1 ≤ ws.length ∧ target ≤ is.length ∧
      ∀ s, s.Entry → ∃ s' n, run ws n s = .done s' ∧ Changes s s' clob false ∧
        (if cond s.get then s'.pc = ws.length ∧ s'.npc = (wordIndex is target : Int) - wordIndex is i
         else if likely then s'.pc = ws.length + 1 ∧ s'.npc = ws.length + 2
         else s'.pc = ws.length ∧ s'.npc = ws.length + 1)
  | .call likely rs cond target => ∃ w mn o, (is[i]?).map Instruction.getBytes = some [w] ∧ decoding w = some (mn, [.gpr rs, .off o]) ∧
      (mn, likely, cond) ∈ linking ∧ target ≤ is.length ∧ (wordIndex is i : Int) + 1 + o.toInt = wordIndex is target
  | .cobranch likely unit wanted target => ∃ w mn o, (is[i]?).map Instruction.getBytes = some [w] ∧ decoding w = some (mn, [.off o]) ∧
      (mn, likely, unit, wanted) ∈ coprocessor ∧ target ≤ is.length ∧ (wordIndex is i : Int) + 1 + o.toInt = wordIndex is target
  | .eret => ∃ w, (is[i]?).map Instruction.getBytes = some [w] ∧ decoding w = some (c!"eret", [])
  | .jump link dest => ∃ w, (is[i]?).map Instruction.getBytes = some [w] ∧ match dest with
      | .line t => t ≤ is.length ∧ ∃ mn idx, decoding w = some (mn, [.target idx]) ∧ (mn, link) ∈ [(c!"j", none), (c!"jal", some (31 : BitVec 5))] ∧
          Listing.jumpAddr (address base (wordIndex is i + 1)) idx = (code base is).addr t
      | .address a => ∃ mn idx, decoding w = some (mn, [.target idx]) ∧ (mn, link) ∈ [(c!"j", none), (c!"jal", some (31 : BitVec 5))] ∧
          Listing.jumpAddr (address base (wordIndex is i + 1)) idx = a
      | .reg r => match link with
        | none => decoding w = some (c!"jr", [.gpr r])
        | some rd => decoding w = some (c!"jalr", [.gpr rd, .gpr r])

theorem spells_off {s : Str} {a : Arg} (h : Spells s a) (o : BitVec 16) : a ≠ .off o := by cases h <;> exact nofun
theorem spellsAll_off {s : Str} {as : List Arg} (h : SpellsAll s as) (o : BitVec 16) : Arg.off o ∉ as := by
  induction h with
  | one s a h => intro hm; rw [List.mem_singleton] at hm; exact spells_off h o hm.symm
  | cons s a t as h _ ih =>
    intro hm
    rcases List.mem_cons.1 hm with hm | hm
    · exact spells_off h o hm.symm
    · exact ih hm
theorem instrText_off {s mn : Str} {as : List Arg} (h : InstrText s mn as) (o : BitVec 16) : Arg.off o ∉ as := by
  cases h with
  | args _ _ _ _ _ _ h => exact spellsAll_off h o
  | bare => simp
  | code0 => simp
  | nop => simp
  | jalr => simp

theorem loText_off {syms : List (BitVec 32 × Str)} {a : BitVec 32} {s mn : Str} {args : BitVec 16 → List Arg}
    (h : HiLo.LoText syms a s mn args) (l o : BitVec 16) : Arg.off o ∉ args l := by
  cases h <;> simp

theorem loText_control {syms : List (BitVec 32 × Str)} {a : BitVec 32} {s mn : Str} {args : BitVec 16 → List Arg}
    (h : HiLo.LoText syms a s mn args) : mn ∉ Mips.Exec.control := by
  cases h with
  | arith _ _ _ _ _ _ _ hS hm => clear hS; revert mn; decide
  | mem _ _ _ _ _ _ _ _ hS hm => clear hS; revert mn; decide

theorem computes_promised {ws : List W32} {s : Cpu} {rd : BitVec 5} {clob : List (BitVec 5)} {hilo : Bool} {c : Prop} [Decidable c] {v : Val}
    (h : c → Computes ws s rd clob hilo v) : Computes ws s rd clob hilo (promised c v) := by
  unfold promised
  split
  · exact h ‹_›
  · trivial

theorem cond_encoding {mn : Str} {regs : List (BitVec 5)} {likely : Bool} {cond : (BitVec 5 → W64) → Bool} (h : Cond mn regs likely cond)
    (o : BitVec 16) : (encoding mn (regs.map Arg.gpr ++ [.off o])).isSome = true := by
  cases h with
  | two _ f a b h =>
    simp only [branch2, List.mem_cons, Prod.mk.injEq, List.not_mem_nil, or_false] at h
    rcases h with ⟨rfl, _⟩ | ⟨rfl, _⟩ | ⟨rfl, _⟩ | ⟨rfl, _⟩ <;> rfl
  | one _ f a h =>
    simp only [branch1, List.mem_cons, Prod.mk.injEq, List.not_mem_nil, or_false] at h
    rcases h with ⟨rfl, _⟩ | ⟨rfl, _⟩ | ⟨rfl, _⟩ | ⟨rfl, _⟩ | ⟨rfl, _⟩ | ⟨rfl, _⟩ | ⟨rfl, _⟩ | ⟨rfl, _⟩ <;> rfl

theorem cond_exec {mn : Str} {regs : List (BitVec 5)} {likely : Bool} {cond : (BitVec 5 → W64) → Bool} (h : Cond mn regs likely cond)
    (o : BitVec 16) (s : Cpu) : exec s mn (regs.map Arg.gpr ++ [.off o]) = s.branch likely (cond s.get) o := by
  cases h with
  | two _ f a b h =>
    simp only [branch2, List.mem_cons, Prod.mk.injEq, List.not_mem_nil, or_false] at h
    rcases h with ⟨rfl, rfl, rfl⟩ | ⟨rfl, rfl, rfl⟩ | ⟨rfl, rfl, rfl⟩ | ⟨rfl, rfl, rfl⟩ <;> rfl
  | one _ f a h =>
    simp only [branch1, List.mem_cons, Prod.mk.injEq, List.not_mem_nil, or_false] at h
    rcases h with ⟨rfl, rfl, rfl⟩ | ⟨rfl, rfl, rfl⟩ | ⟨rfl, rfl, rfl⟩ | ⟨rfl, rfl, rfl⟩ | ⟨rfl, rfl, rfl⟩ | ⟨rfl, rfl, rfl⟩ | ⟨rfl, rfl, rfl⟩ | ⟨rfl, rfl, rfl⟩ <;> rfl

theorem isBranch_of {mn mn' : Str} {regs regs' : List (BitVec 5)} {likely : Bool} {cond : (BitVec 5 → W64) → Bool}
    (he : expand mn regs = some (mn', regs')) (h : Cond mn' regs' likely cond) : IsBranch mn regs := by
  unfold IsBranch branchWord
  rw [he]; exact cond_encoding h 0

theorem reaches_branches {is : List Instruction} {i n : Nat} {mn mn' : Str} {regs regs' : List (BitVec 5)} {likely : Bool}
    {cond : (BitVec 5 → W64) → Bool} (h : Reaches is i n mn regs) (he : expand mn regs = some (mn', regs')) (hc : Cond mn' regs' likely cond)
    (hn : n ≤ is.length) (base : BitVec 32) : Realises base is i (.branch likely cond [] n) := by
  obtain ⟨o, ⟨w, hw, hi⟩, ho⟩ := h
  unfold branchWord at hw
  rw [he] at hw
  have hd := Isa.decoding_encoding (show encoding mn' (regs'.map Arg.gpr ++ [.off o]) = some w from hw)
  refine ⟨[w], hi, Nat.le_refl _, hn, fun s hs => ?_⟩
  obtain ⟨h0, h1⟩ := hs
  have hx := cond_exec hc o s
  unfold Cpu.branch at hx
  split at hx
  · rename_i ht
    simp only [if_pos ht]
    refine ⟨_, 2, (run_next (k := 0) h0 rfl hd hx).trans (run_end (k := 1) h1 (Nat.le_refl 1)), ⟨fun r _ => rfl, fun _ => ⟨rfl, rfl⟩⟩, h1, ?_⟩
    show s.pc + 1 + o.toInt = _
    rw [h0]; omega
  · rename_i ht
    simp only [if_neg ht]
    split at hx
    · rename_i hl
      simp only [if_pos hl]
      refine ⟨_, 2, (run_next (k := 0) h0 rfl hd hx).trans (run_end (k := 2) (show s.npc + 1 = _ by rw [h1]; rfl) (by simp)), ⟨fun r _ => rfl, fun _ => ⟨rfl, rfl⟩⟩, ?_, ?_⟩
      · show s.npc + 1 = _
        rw [h1]; rfl
      · show s.npc + 2 = _
        rw [h1]; rfl
    · rename_i hl
      simp only [if_neg hl]
      refine ⟨_, 2, (run_next (k := 0) h0 rfl hd hx).trans (run_end (k := 1) h1 (Nat.le_refl 1)), ⟨fun r _ => rfl, fun _ => ⟨rfl, rfl⟩⟩, h1, ?_⟩
      show s.npc + 1 = _
      rw [h1]; rfl

theorem linking_encoding {mn : Str} {likely : Bool} {cond : W64 → Bool} (h : (mn, likely, cond) ∈ linking) (rs : BitVec 5) (o : BitVec 16) :
    (encoding mn [.gpr rs, .off o]).isSome = true := by
  simp only [linking, List.mem_cons, Prod.mk.injEq, List.not_mem_nil, or_false] at h
  rcases h with ⟨rfl, _⟩ | ⟨rfl, _⟩ | ⟨rfl, _⟩ | ⟨rfl, _⟩ <;> rfl

theorem reaches_calls {is : List Instruction} {i n : Nat} {mn mn' : Str} {regs : List (BitVec 5)} {rs : BitVec 5} {likely : Bool}
    {cond : W64 → Bool} (h : Reaches is i n mn regs) (he : expand mn regs = some (mn', [rs])) (hc : (mn', likely, cond) ∈ linking)
    (hn : n ≤ is.length) (base : BitVec 32) : Realises base is i (.call likely rs cond n) := by
  obtain ⟨o, ⟨w, hw, hi⟩, ho⟩ := h
  unfold branchWord at hw
  rw [he] at hw
  have hd := Isa.decoding_encoding (show encoding mn' [.gpr rs, .off o] = some w from hw)
  exact ⟨w, mn', o, hi, hd, hc, hn, ho⟩

theorem coprocessor_word {mn : Str} {likely unit wanted : Bool} (h : (mn, likely, unit, wanted) ∈ coprocessor) (o : BitVec 16) :
    expand mn [] = some (mn, []) ∧ (encoding mn [.off o]).isSome = true := by
  simp only [coprocessor, List.mem_cons, Prod.mk.injEq, List.not_mem_nil, or_false] at h
  rcases h with ⟨rfl, _⟩ | ⟨rfl, _⟩ | ⟨rfl, _⟩ | ⟨rfl, _⟩ | ⟨rfl, _⟩ | ⟨rfl, _⟩ | ⟨rfl, _⟩ | ⟨rfl, _⟩ <;> exact ⟨rfl, rfl⟩

theorem reaches_cobranches {is : List Instruction} {i n : Nat} {mn : Str} {likely unit wanted : Bool} (h : Reaches is i n mn [])
    (hc : (mn, likely, unit, wanted) ∈ coprocessor) (hn : n ≤ is.length) (base : BitVec 32) :
    Realises base is i (.cobranch likely unit wanted n) := by
  obtain ⟨o, ⟨w, hw, hi⟩, ho⟩ := h
  unfold branchWord at hw
  rw [(coprocessor_word hc 0).1] at hw
  have hd := Isa.decoding_encoding (show encoding mn [.off o] = some w from hw)
  exact ⟨w, mn, o, hi, hd, hc, hn, ho⟩

theorem codeCount_near (ls : List Str) {d k : Nat} : codeCount (ls.take k) ≤ codeCount (ls.take d) + (k - d) := by
  rcases Nat.lt_or_ge d k with hdk | hdk
  · have := codeCount_append (ls.take d) ((ls.drop d).take (k - d))
    rw [show ls.take d ++ (ls.drop d).take (k - d) = ls.take k from by
      rw [← List.take_add, show d + (k - d) = k by omega]] at this
    have hle : codeCount ((ls.drop d).take (k - d)) ≤ k - d := by
      unfold codeCount
      refine Nat.le_trans (List.length_filter_le _ _) ?_
      rw [List.length_take]; omega
    omega
  · have := codeCount_mono ls hdk
    omega

section
variable [Unicode] {rt : Rt} {m : Mipsasm} {text : Str} {is : List Instruction} {warns : List ParserWarning}

omit [Unicode] in
theorem label_line {ls : List Str} {d : Nat} {l : Str} (hd : Defines ls d l) {raw : Str} (h3 : ls[d]? = some raw) (h4 : kind raw = .code) : False := by
  obtain ⟨raw', h5, h6⟩ := hd
  rw [h3] at h5; cases h5
  rw [h4] at h6; cases h6

theorem near_single (h : assemble rt m text = .ok is warns) {k d : Nat} {l : Str} (hn : Near (lines text) k d) (hd : Defines (lines text) d l)
    {raw : Str} (hk : (lines text)[k]? = some raw) (hc : kind raw = .code) {w : Word}
    (hw : (is[codeCount ((lines text).take k)]?).map Instruction.getBytes = some [w]) :
    Single is (min (codeCount ((lines text).take d)) (codeCount ((lines text).take k)))
      (max (codeCount ((lines text).take d)) (codeCount ((lines text).take k))) := by
  have hne : d ≠ k := by
    rintro rfl
    exact label_line hd hk hc
  rcases Nat.lt_or_ge d k with hdk | hdk
  · have hc := codeCount_mono (lines text) (Nat.le_of_lt hdk)
    rw [Nat.min_eq_left hc, Nat.max_eq_right hc]
    refine single_of h fun j raw h1 h2 h3 h4 => hn.2.2 j raw ?_ (by omega) h3 h4
    rcases Nat.lt_or_ge d j with hh | hh
    · omega
    · have : j = d := by omega
      subst this
      exact (label_line hd h3 h4).elim
  · have hc' := codeCount_mono (lines text) hdk
    rw [Nat.min_eq_right hc', Nat.max_eq_left hc']
    intro j x h1 h2 hx
    rcases Nat.lt_or_ge (codeCount ((lines text).take k)) j with hh | hh
    · refine single_of h (d := k + 1) (k := d) ?_ j x ?_ h2 hx
      · intro j raw h1 h2 h3 h4
        exact hn.2.2 j raw (by omega) (by omega) h3 h4
      · have := codeCount_near (lines text) (d := k) (k := k + 1)
        omega
    · have : j = codeCount ((lines text).take k) := by omega
      subst this
      rw [hx] at hw
      simp only [Option.map_some, Option.some.injEq] at hw
      rw [hw]; rfl

theorem reaches_line (h : assemble rt m text = .ok is warns) {k : Nat} {raw : Str} (hk : (lines text)[k]? = some raw) (hc : kind raw = .code)
    {mn t : Str} {regs : List (BitVec 5)} {d : Nat} (hb : BrText (body raw) mn regs t) (hbr : IsBranch mn regs)
    (hr : Refers (lines text) k d t) (hnear : Near (lines text) k d) :
    Reaches is (codeCount ((lines text).take k)) (codeCount ((lines text).take d)) mn regs := by
  have hB : BranchAt (lines text) k mn regs t := ⟨raw, hk, hc, hb⟩
  have h1 := codeCount_near (lines text) (d := d) (k := k)
  have h2 := codeCount_near (lines text) (d := k) (k := d)
  obtain ⟨h3, h4, h5⟩ := id hnear
  rcases hr with ⟨hl, hdk, hd⟩ | ⟨hl, hd⟩
  · exact C49_reaches rt m text is warns h d k _ t mn regs hB hbr hd hdk hl rfl (fun j raw a b => h5 j raw (by omega) (by omega)) (by omega)
  · obtain ⟨_, _, w, _, hw⟩ := C09_resolves_exact rt m text is warns h k _ t mn regs hB hbr rfl hl
    exact C09_reaches_exact rt m text is warns h k d _ t mn regs hB hbr rfl hl hd (near_single h hnear hd.1 hk hc hw) ⟨by omega, by omega⟩

omit [Unicode] in
theorem jumpAt_of {ls : List Str} {k : Nat} {raw mn t : Str} {link : Option (BitVec 5)} (hk : ls[k]? = some raw) (hc : kind raw = .code)
    (hj : Jump (body raw) mn link t) : JumpAt ls k mn t := by
  obtain ⟨hm, hcm, mn', h1, h2⟩ := hj
  refine ⟨?_, hcm, raw, mn', hk, hc, h1, h2⟩
  simp only [List.mem_cons, Prod.mk.injEq, List.not_mem_nil, or_false] at hm
  rcases hm with ⟨rfl, _⟩ | ⟨rfl, _⟩ <;> decide

omit [Unicode] in
theorem fits_region {base : BitVec 32} (hf : InRegion base is) {i : Nat} (hi : i ≤ is.length) :
    (address base ((wordIndex is i : Nat) + 1)).toNat / 2 ^ 28 = base.toNat / 2 ^ 28 := by
  have hw := wordIndex_le hi
  unfold InRegion at hf
  unfold address
  rw [show (4 * ((wordIndex is i : Int) + 1)) = ((4 * (wordIndex is i + 1) : Nat) : Int) by omega, BitVec.ofInt_natCast, BitVec.toNat_add, BitVec.toNat_ofNat]
  have := base.isLt
  omega

theorem realises (h : assemble rt m text = .ok is warns) (hn : NoNumeralLabel (lines text)) (hfit : InRegion m.base is) {k : Nat} {raw : Str}
    (hk : (lines text)[k]? = some raw) (hc : kind raw = .code) {a : Act} (ha : Means m (lines text) k (body raw) a) :
    Realises m.base is (codeCount ((lines text).take k)) a := by
  have fin : ∀ {rd clob hilo} {f : (BitVec 5 → W64) → Val}, (∃ ws, (is[codeCount ((lines text).take k)]?).map Instruction.getBytes = some ws ∧
      ∀ s, s.Entry → Computes ws s rd clob hilo (f s.get)) → Realises m.base is (codeCount ((lines text).take k)) (.compute rd clob hilo f) := by
    rintro rd clob hilo f ⟨ws, h1, h2⟩
    exact ⟨ws, h1, line_pos h hk hc h1, h2⟩
  cases ha with
  | native mn as hi he hnc =>
    obtain ⟨w, hw⟩ := Option.isSome_iff_exists.1 he
    exact ⟨⟨w, C01_line rt m text is warns h k raw mn as w hk hc hi hw hn, hw⟩, instrText_off hi, hnc⟩
  | hi r a v l ht hnd hnp hv =>
    obtain ⟨w, h1, h2⟩ := C20_hi rt m text is warns h hnd hnp a k raw r hk hc ht v l hv
    exact ⟨⟨w, h2, h1⟩, by simp, by decide⟩
  | lo mn args a v l ht hnd hnp hv =>
    obtain ⟨w, h1, h2⟩ := C20_lo rt m text is warns h hnd hnp a k raw mn args hk hc ht v l hv
    exact ⟨⟨w, h2, h1⟩, loText_off ht l, loText_control ht⟩
  | set mn f rd a b hf hi =>
    obtain ⟨ws, h1, h2⟩ := C15_set rt m text is warns h k raw mn rd a b f hk hc hi hf
    refine fin ⟨ws, h1, fun s hs => ?_⟩
    obtain ⟨s', h3, h4, h5, h6, h7⟩ := h2 s hs
    exact ⟨s', h3, h4, h5, fun _ => ⟨h6, h7⟩⟩
  | unary mn f rd a hf hd hi =>
    obtain ⟨ws, h1, h2⟩ := C14_unary_partial rt m text is warns h k raw mn rd a f hk hc hi hf hd
    exact fin ⟨ws, h1, fun s hs => computes_promised fun hp => h2 s hs hp.1 hp.2⟩
  | dabs rd a hi =>
    by_cases hr : rd ≠ at' ∧ a ≠ at'
    · obtain ⟨ws, h1, h2⟩ := C14_dabs_partial rt m text is warns h k raw rd a hk hc hi hr.1 hr.2
      exact fin ⟨ws, h1, fun s hs => computes_promised fun hp => h2 s hs hp.1⟩
    · obtain ⟨ws, h1⟩ := line_some h hk hc
      exact fin ⟨ws, h1, fun s hs => computes_promised fun hp => absurd hp.2 hr⟩
  | clear rd hi =>
    obtain ⟨ws, h1, h2⟩ := C14_clear rt m text is warns h k raw rd hk hc hi
    exact fin ⟨ws, h1, h2⟩
  | sub mn f rd a v hf hi =>
    obtain ⟨ws, h1, h2⟩ := C14_sub_exact rt m text is warns h k raw mn rd a v f hk hc hi hn hf
    refine fin ⟨ws, h1, fun s hs => computes_promised fun hp => ?_⟩
    have := h2 s hs
    rwa [effSub, if_neg hp] at this
  | mul mn f rd a b hf hi =>
    obtain ⟨ws, h1, h2⟩ := C16_mul rt m text is warns h k raw mn rd a b f hk hc hi hf
    exact fin ⟨ws, h1, h2⟩
  | mulo mn f rd a b hf hi =>
    obtain ⟨ws, h1, h2⟩ := C16_mulo_partial rt m text is warns h k raw mn rd a b f hk hc hi hf
    exact fin ⟨ws, h1, fun s hs => computes_promised fun hp => h2 s hs hp.1 hp.2⟩
  | udiv mn f rd a b hf hi =>
    by_cases hr : mn = c!"divu" ∨ mn = c!"ddivu" → b ≠ 0
    · obtain ⟨ws, h1, h2⟩ := C17_unsigned_partial rt m text is warns h k raw mn rd a b f hk hc hi hf hr
      exact fin ⟨ws, h1, fun s hs => computes_promised fun hp => h2 s hs⟩
    · obtain ⟨ws, h1⟩ := line_some h hk hc
      exact fin ⟨ws, h1, fun s hs => computes_promised fun hp => absurd hp hr⟩
  | sdiv mn f rd a b hf hi =>
    by_cases hr : a ≠ at' ∧ b ≠ at' ∧ (mn = c!"div" ∨ mn = c!"ddiv" → b ≠ 0)
    · obtain ⟨ws, h1, h2⟩ := C17_signed_partial rt m text is warns h k raw mn rd a b f hk hc hi hf hr.1 hr.2.1 hr.2.2
      exact fin ⟨ws, h1, fun s hs => computes_promised fun hp => h2 s hs hp.2.2.2⟩
    · obtain ⟨ws, h1⟩ := line_some h hk hc
      exact fin ⟨ws, h1, fun s hs => computes_promised fun hp => absurd ⟨hp.1, hp.2.1, hp.2.2.1⟩ hr⟩
  | rot mn f rd a b hf hi =>
    by_cases hr : rd ≠ at' ∧ a ≠ at' ∧ b ≠ at'
    · obtain ⟨ws, h1, h2⟩ := C18_rotate rt m text is warns h k raw mn rd a b f hk hc hi hf hr.1 hr.2.1 hr.2.2
      exact fin ⟨ws, h1, fun s hs => computes_promised fun hp => h2 s hs⟩
    · obtain ⟨ws, h1⟩ := line_some h hk hc
      exact fin ⟨ws, h1, fun s hs => computes_promised fun hp => absurd hp hr⟩
  | li rd n hi =>
    obtain ⟨ws, h1, h2⟩ := (C12_li_exact rt m text is warns h k raw rd n hk hc hi hn).2
    refine fin ⟨ws, h1, fun s hs => computes_promised fun hp => ?_⟩
    have := h2 s hs
    rwa [effLi, if_neg (by omega)] at this
  | liu rd n hi =>
    obtain ⟨ws, h1, h2⟩ := (C13_liu rt m text is warns h k raw rd n hk hc hi hn).2
    exact fin ⟨ws, h1, h2⟩
  | dli rd n hi =>
    obtain ⟨ws, h1, h2⟩ := (C13_dli rt m text is warns h k raw rd n hk hc hi hn).2
    exact fin ⟨ws, h1, h2⟩
  | lli rd n hi =>
    obtain ⟨ws, h1, h2⟩ := (C13_lli rt m text is warns h k raw rd n hk hc hi hn).2
    exact fin ⟨ws, h1, h2⟩
  | branch mn regs t mn' regs' likely cond d hb he hcd hr hnear =>
    have hbr := isBranch_of he hcd
    have hlen : codeCount ((lines text).take d) ≤ is.length := by rw [is_length h]; exact codeCount_take_le _ _
    exact reaches_branches (reaches_line h hk hc hb hbr hr hnear) he hcd hlen _
  | call mn regs t mn' rs likely cond d hb he hcd hr hnear =>
    have hlen : codeCount ((lines text).take d) ≤ is.length := by rw [is_length h]; exact codeCount_take_le _ _
    refine reaches_calls (reaches_line h hk hc hb ?_ hr hnear) he hcd hlen _
    unfold IsBranch branchWord
    rw [he]; exact linking_encoding hcd rs 0
  | cobranch mn t likely unit wanted d hb hcd hr hnear =>
    have hlen : codeCount ((lines text).take d) ≤ is.length := by rw [is_length h]; exact codeCount_take_le _ _
    refine reaches_cobranches (reaches_line h hk hc hb ?_ hr hnear) hcd hlen _
    unfold IsBranch branchWord
    rw [(coprocessor_word hcd 0).1]; exact (coprocessor_word hcd 0).2
  | eret hi =>
    have he : encoding c!"eret" [] = some _ := rfl
    exact ⟨_, C01_line rt m text is warns h k raw _ _ _ hk hc hi he hn, Isa.decoding_encoding he⟩
  | jump mn link t l d hj ht hd hl hs hsh =>
    have hlen : codeCount ((lines text).take d) ≤ is.length := by rw [is_length h]; exact codeCount_take_le _ _
    have hklen : codeCount ((lines text).take k) ≤ is.length := by rw [is_length h]; exact codeCount_take_le _ _
    have hsg := single_of h (d := 0) (k := d) (fun j raw _ hj => hsh j raw hj)
    have hreg := fits_region hfit hklen
    have hw := wordIndex_le hlen
    obtain ⟨idx, ⟨w, hw1, hw2⟩, hja⟩ := C07_label_partial rt m text is warns h k d mn t l (jumpAt_of hk hc hj) hd hl ht hs hsg
      (address m.base ((wordIndex is (codeCount ((lines text).take k)) : Nat) + 1)) (by
        unfold Low
        rw [hreg]
        obtain ⟨f1, f2⟩ := hfit
        rw [BitVec.toNat_add, BitVec.toNat_ofNat]
        have := m.base.isLt
        omega)
    refine ⟨w, hw2, hlen, mn, idx, Isa.decoding_encoding hw1, hj.1, hja.trans ?_⟩
    show _ = m.base + BitVec.ofInt 32 (4 * ((wordIndex is (codeCount ((lines text).take d)) : Nat) : Int))
    rw [show (4 * ((wordIndex is (codeCount ((lines text).take d)) : Nat) : Int)) = ((4 * wordIndex is (codeCount ((lines text).take d)) : Nat) : Int) by omega,
      BitVec.ofInt_natCast]
  | jumpSym mn link t a hj hs hnd hlow =>
    have hklen : codeCount ((lines text).take k) ≤ is.length := by rw [is_length h]; exact codeCount_take_le _ _
    have hreg := fits_region hfit hklen
    obtain ⟨idx, ⟨w, hw1, hw2⟩, hja⟩ := C07_symbol_partial rt m text is warns h k mn t (jumpAt_of hk hc hj) a hs hnd
      (address m.base ((wordIndex is (codeCount ((lines text).take k)) : Nat) + 1)) ⟨hlow.1, by rw [hreg]; exact hlow.2.1, hlow.2.2⟩
    exact ⟨w, hw2, mn, idx, Isa.decoding_encoding hw1, hj.1, hja⟩
  | jumpNum mn link t n hj hu hlt hs hlow =>
    have hklen : codeCount ((lines text).take k) ≤ is.length := by rw [is_length h]; exact codeCount_take_le _ _
    have hreg := fits_region hfit hklen
    have hJ := jumpAt_of hk hc hj
    obtain ⟨idx, ⟨w, hw1, hw2⟩, hja⟩ := (C07_exact _ _ _ _ _ hJ.1 (C07_address rt m text is warns h k mn t hJ n hu hlt hs)).2
      (show Low (address m.base ((wordIndex is (codeCount ((lines text).take k)) : Nat) + 1)) _ from ⟨hlow.1, by rw [hreg]; exact hlow.2.1, hlow.2.2⟩)
    exact ⟨w, hw2, mn, idx, Isa.decoding_encoding hw1, hj.1, hja⟩
  | jr r hi =>
    have he : encoding c!"jr" [.gpr r] = some _ := rfl
    exact ⟨_, C01_line rt m text is warns h k raw _ _ _ hk hc hi he hn, Isa.decoding_encoding he⟩
  | jalr rd r hi =>
    have he : encoding c!"jalr" [.gpr rd, .gpr r] = some _ := rfl
    exact ⟨_, C01_line rt m text is warns h k raw _ _ _ hk hc hi he hn, Isa.decoding_encoding he⟩
  | cmp mn likely f a b t d hf hb hl hdk hd hnear =>
    have hB : BranchAt (lines text) k mn [a, b] t := ⟨raw, hk, hc, hb⟩
    have hlen : codeCount ((lines text).take d) ≤ is.length := by rw [is_length h]; exact codeCount_take_le _ _
    have h1 := codeCount_near (lines text) (d := d) (k := k)
    obtain ⟨h3, h4, h5⟩ := id hnear
    obtain ⟨ws, hw, hs⟩ := C19_label_partial rt m text is warns h d k _ t mn a b likely f hB hf hd hdk hl rfl
      (single_of h fun j raw a b c e => h5 j raw (by
        rcases Nat.lt_or_ge d j with hh | hh
        · omega
        · have : j = d := by omega
          subst this
          exact (label_line hd c e).elim) (by omega) c e) (by omega)
    refine ⟨ws, hw, line_pos h hk hc hw, hlen, fun s he => ?_⟩
    obtain ⟨s', ⟨n, h6⟩, h7, h8, h9⟩ := hs s he
    exact ⟨s', n, h6, ⟨h8, fun _ => h9⟩, h7⟩
end

/-! ### Simulation -/

/-- The machine `t` is where the source program `s` is. -/
structure Sim {σ : Type} (base : BitVec 32) (is : List Instruction) (prog : List Act) (s t : St σ) : Prop where
  gpr : t.cpu.gpr = s.cpu.gpr
  hi : t.cpu.hi = s.cpu.hi
  lo : t.cpu.lo = s.cpu.lo
  env : t.env = s.env
  pc : At (code base is) s.cpu.pc t.cpu.pc
  npc : (s.cpu.npc = s.cpu.pc + 1 ∧ t.cpu.npc = t.cpu.pc + 1) ∨
    ((∃ mn as, prog[s.cpu.pc.toNat]? = some (.native mn as)) ∧ At (code base is) s.cpu.npc t.cpu.npc)

theorem Sim.same {σ : Type} {base : BitVec 32} {is : List Instruction} {prog : List Act} {s t : St σ} (h : Sim base is prog s t) :
    Same (code base is) s t :=
  ⟨h.gpr, h.hi, h.lo, h.env, h.pc⟩

theorem at_inv {base : BitVec 32} {is : List Instruction} {i : Nat} {q : Int} (h : At (code base is) i q) : i ≤ is.length ∧ q = wordIndex is i := by
  rcases h with ⟨_, h1, h2⟩ | ⟨a, h1, _⟩
  · exact ⟨Int.ofNat_le.1 h1, h2⟩
  · unfold away at h1; omega

theorem at_line {base : BitVec 32} {is : List Instruction} {i : Nat} {q : Int} (h1 : i ≤ is.length) (h2 : q = wordIndex is i) : At (code base is) i q :=
  Or.inl ⟨by omega, Int.ofNat_le.2 h1, h2⟩

theorem index_address (base : BitVec 32) {j : Nat} (h : j < 2 ^ 30) : index base (address base j) = some (j : Int) := by
  have : (address base j - base).toNat = 4 * j := by
    unfold address
    rw [show (4 * (j : Int)) = ((4 * j : Nat) : Int) by omega, BitVec.ofInt_natCast, BitVec.add_comm, BitVec.add_sub_cancel, BitVec.toNat_ofNat]
    omega
  unfold index
  rw [this, if_pos (by omega), Nat.mul_div_cancel_left _ (by decide)]

/-- Where the machine is after a jump. -/
theorem lands_at {base : BitVec 32} {is : List Instruction} (hf : InRegion base is) {a : BitVec 32} {p : Int} (h : Lands (code base is) a p) :
    ∃ q, index base a = some q ∧ At (code base is) p q := by
  rcases h with ⟨h1, h2, h3⟩ | ⟨h1, j, h2, h3⟩
  · refine ⟨_, ?_, Or.inl ⟨h1, h2, rfl⟩⟩
    rw [h3]
    have hle : p.toNat ≤ is.length := by
      have : p ≤ (is.length : Int) := h2
      omega
    have := wordIndex_le hle
    unfold InRegion at hf
    exact index_address base (show wordIndex is p.toNat < _ by omega)
  · exact ⟨j, h2, Or.inr ⟨a, h1, h2, h3⟩⟩

theorem wordIndex_len (is : List Instruction) : wordIndex is is.length = (getBytes is).length := by
  unfold wordIndex; rw [List.take_of_length_le (Nat.le_refl _)]

/-- The program counter of the machine, from that of the source. -/
theorem Sim.eq {σ : Type} {base : BitVec 32} {is : List Instruction} {prog : List Act} {s t : St σ} (h : Sim base is prog s t) :
    t = ⟨{ s.cpu with pc := t.cpu.pc, npc := t.cpu.npc }, s.env⟩ := by
  obtain ⟨⟨g, hi, lo, pc, npc⟩, e⟩ := t
  have h1 := h.gpr; have h2 := h.hi; have h3 := h.lo; have h4 := h.env
  simp only at h1 h2 h3 h4
  subst h1 h2 h3 h4
  rfl

theorem step_sim {σ : Type} (ext : Ext σ) {base : BitVec 32} {is : List Instruction} {prog : List Act} (hlen : prog.length = is.length)
    (hfit : InRegion base is) (hr : ∀ (i : Nat) a, prog[i]? = some a → Realises base is i a)
    (hsl : ∀ (i : Nat) a, prog[i]? = some a → a.slot = true → ∃ mn as, prog[i + 1]? = some (.native mn as))
    {s t : St σ} (h : Sim base is prog s t) {a : Act} (ha : fetch prog s.cpu.pc = some a) :
    (∃ s' t' j, 1 ≤ j ∧ Does (code base is) ext s a (.at s') ∧ Leads base ext (getBytes is) t j t' ∧ Sim base is prog s' t') ∨
    (Does (code base is) ext s a .trap ∧ ∃ j, ∀ m, go base ext (getBytes is) (j + m) t = .trap) ∨ Does (code base is) ext s a .undef := by
  have hlow : ¬ s.cpu.pc < 0 := by
    intro hh
    unfold fetch at ha
    rw [if_pos hh] at ha; cases ha
  obtain ⟨i, hi⟩ : ∃ i : Nat, s.cpu.pc = i := ⟨s.cpu.pc.toNat, by omega⟩
  have hti : s.cpu.pc.toNat = i := by omega
  unfold fetch at ha
  rw [if_neg (by omega), hti] at ha
  have hil : i < is.length := by rw [← hlen]; exact (List.getElem?_eq_some_iff.1 ha).1
  obtain ⟨x, hx⟩ : ∃ x, is[i]? = some x := ⟨_, List.getElem?_eq_getElem hil⟩
  have hC := code_split hx
  have hA : (getBytes (is.take i)).length = wordIndex is i := rfl
  have hsucc := wordIndex_succ hx
  have hR := hr i a ha
  have hpc := h.pc
  rw [hi] at hpc
  have hpc := (at_inv hpc).2
  have hnat : a.slot = true ∨ (∃ rd clob hilo f, a = .compute rd clob hilo f) → s.cpu.npc = s.cpu.pc + 1 ∧ t.cpu.npc = t.cpu.pc + 1 := by
    intro hs
    rcases h.npc with h1 | ⟨⟨mn, as, h1⟩, _⟩
    · exact h1
    · rw [hti, ha] at h1; cases h1
      rcases hs with hs | ⟨_, _, _, _, hs⟩ <;> cases hs
  have hone : ∀ {w : Word}, x.getBytes = [w] → fetch (getBytes is) t.cpu.pc = some w := by
    intro w hw
    rw [hw] at hC
    have := fetch_mid hC (pc := 0) (w := w) (by omega) rfl
    rwa [Int.zero_add, hA, ← hpc] at this
  have hslot : a.slot = true → ∃ mn as, prog[i + 1]? = some (.native mn as) ∧ i + 1 < is.length ∧ wordIndex is (i + 2) = wordIndex is (i + 1) + 1 := by
    intro hs
    obtain ⟨mn, as, hslot⟩ := hsl i a ha hs
    obtain ⟨⟨w, hsw, _⟩, _⟩ := hr _ _ hslot
    have hil2 : i + 1 < is.length := by rw [← hlen]; exact (List.getElem?_eq_some_iff.1 hslot).1
    obtain ⟨y, hy⟩ : ∃ y, is[i + 1]? = some y := ⟨_, List.getElem?_eq_getElem hil2⟩
    have hsucc2 := wordIndex_succ hy
    rw [hy] at hsw
    simp only [Option.map_some, Option.some.injEq] at hsw
    rw [hsw] at hsucc2
    exact ⟨mn, as, hslot, hil2, hsucc2⟩
  cases a with
  | native mn as =>
    obtain ⟨⟨w, hw, he⟩, ho, hnc⟩ := hR
    rw [hx] at hw
    simp only [Option.map_some, Option.some.injEq] at hw
    have hf := hone hw
    rw [hw] at hsucc
    have hd := Isa.decoding_encoding he
    have hst := plain_at ext s.cpu s.env t.cpu.pc t.cpu.npc mn as ho
    rw [← h.eq, ← step_plain base ext t as hnc] at hst
    have hdo : Does (code base is) ext s (.native mn as) (plain ext s mn as) := .native mn as
    cases hs : plain ext s mn as with
    | left s' => exact absurd hs plain_left
    | undef => rw [hs] at hdo; exact Or.inr (Or.inr hdo)
    | trap =>
      rw [hs] at hdo
      rw [show plain ext ⟨s.cpu, s.env⟩ mn as = _ from hs] at hst
      refine Or.inr (Or.inl ⟨hdo, 1, fun m => ?_⟩)
      rw [Nat.add_comm, go, hf]
      simp only [hd, hst]
    | «at» s' =>
      rw [hs] at hdo
      rw [show plain ext ⟨s.cpu, s.env⟩ mn as = _ from hs] at hst
      obtain ⟨h1, h2⟩ := plain_pc ho hs
      refine Or.inl ⟨s', _, 1, Nat.le_refl _, hdo, leads_one hf hd hst, ?_⟩
      refine ⟨rfl, rfl, rfl, rfl, ?_, Or.inl ⟨by rw [h2, h1], rfl⟩⟩
      show At _ _ t.cpu.npc
      rw [h1]
      rcases h.npc with ⟨h3, h4⟩ | ⟨_, h4⟩
      · rw [h4, h3, hpc, hi, show (i : Int) + 1 = (i + 1 : Nat) by omega]
        exact at_line (by omega) (by rw [hsucc]; rfl)
      · exact h4
  | compute rd clob hilo f =>
    obtain ⟨ws, hw, hpos, hcomp⟩ := hR
    rw [hx] at hw
    simp only [Option.map_some, Option.some.injEq] at hw
    rw [hw] at hC hsucc
    obtain ⟨hn1, hn2⟩ := hnat (Or.inr ⟨_, _, _, _, rfl⟩)
    let b : Cpu := { s.cpu with pc := 0, npc := 1 }
    have hbt : t = ⟨b.shift (getBytes (is.take i)).length, s.env⟩ := by
      refine h.eq.trans ?_
      rw [hn2, hpc, hA]
      show St.mk _ _ = St.mk { s.cpu with pc := 0 + (wordIndex is i : Int), npc := 1 + (wordIndex is i : Int) } _
      rw [Int.zero_add, Int.add_comm 1]
    have hc := hcomp b ⟨rfl, rfl⟩
    rw [show b.get = s.cpu.get from rfl] at hc
    cases hv : f s.cpu.get with
    | undef => exact Or.inr (Or.inr (.undefined _ _ _ _ hv))
    | trap =>
      rw [hv] at hc
      obtain ⟨n, hn⟩ := hc
      refine Or.inr (Or.inl ⟨.trapped _ _ _ _ hv, ?_⟩)
      rw [hbt]
      exact run_trapped base ext hC s.env n b hn
    | ok v =>
      rw [hv] at hc
      obtain ⟨s1, ⟨⟨n, hn⟩, hp1, hp2⟩, hval, hk, hhl⟩ := hc
      obtain ⟨j, hj, hj1⟩ := run_leads base ext hC s.env n b s1 hn
      refine Or.inl ⟨⟨{ s1 with pc := s.cpu.npc, npc := s.cpu.npc + 1 }, s.env⟩, ⟨s1.shift (getBytes (is.take i)).length, s.env⟩, j,
        hj1 (Int.le_refl _) (show (0 : Int) < _ by omega), ?_, by rw [hbt]; exact hj, ?_⟩
      · exact .computed _ _ _ _ v _ hv hval ⟨hk, hhl⟩ rfl rfl
      · refine ⟨rfl, rfl, rfl, rfl, ?_, Or.inl ⟨rfl, ?_⟩⟩
        · show At _ s.cpu.npc (s1.pc + ((getBytes (is.take i)).length : Int))
          rw [show s.cpu.npc = (i + 1 : Nat) by omega]
          exact at_line (by omega) (by rw [hp1, hA, hsucc]; omega)
        · show s1.npc + ((getBytes (is.take i)).length : Int) = s1.pc + ((getBytes (is.take i)).length : Int) + 1
          omega
  | branch likely cond clob target =>
    obtain ⟨ws, hw, hpos, htl, hcomp⟩ := hR
    rw [hx] at hw
    simp only [Option.map_some, Option.some.injEq] at hw
    rw [hw] at hC hsucc
    obtain ⟨hn1, hn2⟩ := hnat (Or.inl rfl)
    let b : Cpu := { s.cpu with pc := 0, npc := 1 }
    have hbt : t = ⟨b.shift (getBytes (is.take i)).length, s.env⟩ := by
      refine h.eq.trans ?_
      rw [hn2, hpc, hA]
      show St.mk _ _ = St.mk { s.cpu with pc := 0 + (wordIndex is i : Int), npc := 1 + (wordIndex is i : Int) } _
      rw [Int.zero_add, Int.add_comm 1]
    obtain ⟨mn, as, hslot, hil2, hsucc2⟩ := hslot rfl
    obtain ⟨s1, n, hn, ⟨hk, hhl⟩, hto⟩ := hcomp b ⟨rfl, rfl⟩
    rw [show b.get = s.cpu.get from rfl] at hto
    obtain ⟨j, hj, hj1⟩ := run_leads base ext hC s.env n b s1 hn
    have hj1 := hj1 (Int.le_refl _) (show (0 : Int) < _ by omega)
    rw [← hbt] at hj
    refine Or.inl ?_
    cases hcd : cond s.cpu.get with
    | true =>
      rw [hcd, if_pos rfl] at hto
      refine ⟨⟨{ s1 with pc := s.cpu.npc, npc := (target : Nat) }, s.env⟩, _, j, hj1, ?_, hj, ?_⟩
      · exact .taken _ _ _ _ _ hcd ⟨hk, hhl⟩ rfl rfl
      · refine ⟨rfl, rfl, rfl, rfl, ?_, Or.inr ⟨⟨mn, as, ?_⟩, ?_⟩⟩
        · show At _ s.cpu.npc (s1.pc + ((getBytes (is.take i)).length : Int))
          rw [show s.cpu.npc = (i + 1 : Nat) by omega]
          exact at_line (by omega) (by rw [hto.1, hA, hsucc]; omega)
        · show prog[s.cpu.npc.toNat]? = _
          rw [show s.cpu.npc.toNat = i + 1 by omega, hslot]
        · exact at_line htl (show s1.npc + ((getBytes (is.take i)).length : Int) = _ by rw [hto.2, hA]; omega)
    | false =>
      rw [hcd, if_neg (by decide)] at hto
      have hpcs : s1.pc = ws.length + (if likely = true then 1 else 0) ∧ s1.npc = s1.pc + 1 := by
        cases likely
        · rw [if_neg (by decide)] at hto ⊢; omega
        · rw [if_pos rfl] at hto ⊢; omega
      refine ⟨⟨{ s1 with pc := (if likely then s.cpu.npc + 1 else s.cpu.npc), npc := (if likely then s.cpu.npc + 1 else s.cpu.npc) + 1 }, s.env⟩, _, j, hj1, ?_, hj, ?_⟩
      · exact .notTaken _ _ _ _ _ hcd ⟨hk, hhl⟩ rfl rfl
      · refine ⟨rfl, rfl, rfl, rfl, ?_, Or.inl ⟨rfl, ?_⟩⟩
        · show At _ (if likely = true then s.cpu.npc + 1 else s.cpu.npc) (s1.pc + ((getBytes (is.take i)).length : Int))
          rw [hpcs.1, hA]
          cases likely
          · rw [if_neg (by decide), if_neg (by decide), show s.cpu.npc = (i + 1 : Nat) by omega]
            exact at_line (by omega) (by rw [hsucc]; omega)
          · rw [if_pos rfl, if_pos rfl, show s.cpu.npc + 1 = (i + 2 : Nat) by omega]
            exact at_line (by omega) (by rw [hsucc2, hsucc]; omega)
        · show s1.npc + ((getBytes (is.take i)).length : Int) = s1.pc + ((getBytes (is.take i)).length : Int) + 1
          omega
  | call likely rs cond target =>
    obtain ⟨w, mn, o, hw, hd, hlk, htl, ho⟩ := hR
    rw [hx] at hw
    simp only [Option.map_some, Option.some.injEq] at hw
    have hf := hone hw
    rw [hw] at hsucc
    obtain ⟨hn1, hn2⟩ := hnat (Or.inl rfl)
    obtain ⟨mn', as', hslot, hil2, hsucc2⟩ := hslot rfl
    have hsucc' : wordIndex is (i + 1) = wordIndex is i + 1 := hsucc
    by_cases hrs : rs = 31
    · subst hrs; exact Or.inr (Or.inr (.call31 _ _ _))
    let c0 : Cpu := t.cpu.set 31 (sext (address base (t.cpu.pc + 2)))
    have hstep : step base ext t mn [.gpr rs, .off o] = match c0.branch likely (cond (s.cpu.get rs)) o with
        | .next c => .at ⟨c, t.env⟩ | _ => .undef := by
      have hg : t.cpu.get rs = s.cpu.get rs := by unfold Cpu.get; rw [h.gpr]
      have hin : mn ∈ Mips.Exec.control ∧ linking.lookup mn = some (likely, cond) := by
        simp only [linking, List.mem_cons, Prod.mk.injEq, List.not_mem_nil, or_false] at hlk
        rcases hlk with ⟨rfl, rfl, rfl⟩ | ⟨rfl, rfl, rfl⟩ | ⟨rfl, rfl, rfl⟩ | ⟨rfl, rfl, rfl⟩ <;> exact ⟨by decide, rfl⟩
      unfold step
      rw [if_pos hin.1]
      unfold transfer
      simp only [hin.2, if_neg hrs, hg]
      rfl
    have haddr : (code base is).addr (s.cpu.pc + 2) = address base (t.cpu.pc + 2) := by
      show address base ((wordIndex is (s.cpu.pc + 2).toNat : Nat) : Int) = _
      rw [show (s.cpu.pc + 2).toNat = i + 2 by omega, hsucc2, hsucc', hpc, show (((wordIndex is i + 1 + 1 : Nat)) : Int) = wordIndex is i + 2 by omega]
    have hch : ∀ p q, Changes s.cpu { c0 with pc := p, npc := q } [31] false := by
      intro p q
      refine ⟨fun r hr => ?_, fun _ => ⟨?_, ?_⟩⟩
      · have hr : r ≠ 31 := by simpa using hr
        show (if r = 0 then 0 else (if (31 : BitVec 5) = 0 then t.cpu else { t.cpu with gpr := fun q => if q = 31 then _ else t.cpu.gpr q }).gpr r) = _
        rw [if_neg (show ¬ (31 : BitVec 5) = 0 by decide)]
        show (if r = 0 then 0 else if r = 31 then _ else t.cpu.gpr r) = _
        rw [if_neg hr, h.gpr]; rfl
      · exact h.hi
      · exact h.lo
    have h31 : ∀ p q, ({ c0 with pc := p, npc := q } : Cpu).get 31 = sext ((code base is).addr (s.cpu.pc + 2)) := by
      intro p q
      rw [haddr]; rfl
    refine Or.inl ?_
    cases hcd : cond (s.cpu.get rs) with
    | true =>
      rw [hcd] at hstep
      refine ⟨⟨{ c0 with pc := s.cpu.npc, npc := (target : Nat) }, s.env⟩, ⟨{ c0 with pc := t.cpu.npc, npc := t.cpu.pc + 1 + o.toInt }, t.env⟩, 1,
        Nat.le_refl _, .called _ _ _ _ _ hrs hcd (hch _ _) (h31 _ _) rfl rfl, leads_one hf hd hstep, ?_⟩
      refine ⟨rfl, rfl, rfl, h.env, ?_, Or.inr ⟨⟨mn', as', ?_⟩, ?_⟩⟩
      · show At _ s.cpu.npc t.cpu.npc
        rw [show s.cpu.npc = (i + 1 : Nat) by omega]
        exact at_line (by omega) (by rw [hn2, hpc, hsucc']; omega)
      · show prog[s.cpu.npc.toNat]? = _
        rw [show s.cpu.npc.toNat = i + 1 by omega, hslot]
      · exact at_line htl (show t.cpu.pc + 1 + o.toInt = _ by rw [hpc, ho])
    | false =>
      rw [hcd] at hstep
      refine ⟨⟨{ c0 with pc := (if likely then s.cpu.npc + 1 else s.cpu.npc), npc := (if likely then s.cpu.npc + 1 else s.cpu.npc) + 1 }, s.env⟩,
        ⟨{ c0 with pc := (if likely then t.cpu.npc + 1 else t.cpu.npc), npc := (if likely then t.cpu.npc + 1 else t.cpu.npc) + 1 }, t.env⟩, 1,
        Nat.le_refl _, .notCalled _ _ _ _ _ hrs hcd (hch _ _) (h31 _ _) rfl rfl, leads_one hf hd ?_, ?_⟩
      · rw [hstep]
        cases likely
        · rfl
        · show Res.at (σ := σ) ⟨{ c0 with pc := t.cpu.npc + 1, npc := t.cpu.npc + 2 }, t.env⟩ = Res.at ⟨{ c0 with pc := t.cpu.npc + 1, npc := t.cpu.npc + 1 + 1 }, t.env⟩
          rw [Int.add_assoc]; rfl
      · refine ⟨rfl, rfl, rfl, h.env, ?_, Or.inl ⟨rfl, rfl⟩⟩
        show At _ (if likely = true then s.cpu.npc + 1 else s.cpu.npc) (if likely = true then t.cpu.npc + 1 else t.cpu.npc)
        cases likely
        · rw [if_neg (by decide), if_neg (by decide), show s.cpu.npc = (i + 1 : Nat) by omega]
          exact at_line (by omega) (by rw [hn2, hpc, hsucc']; omega)
        · rw [if_pos rfl, if_pos rfl, show s.cpu.npc + 1 = (i + 2 : Nat) by omega]
          exact at_line (by omega) (by rw [hsucc2, hsucc', hn2, hpc]; omega)
  | cobranch likely unit wanted target =>
    obtain ⟨w, mn, o, hw, hd, hlk, htl, ho⟩ := hR
    rw [hx] at hw
    simp only [Option.map_some, Option.some.injEq] at hw
    have hf := hone hw
    rw [hw] at hsucc
    obtain ⟨hn1, hn2⟩ := hnat (Or.inl rfl)
    obtain ⟨mn', as', hslot, hil2, hsucc2⟩ := hslot rfl
    have hsucc' : wordIndex is (i + 1) = wordIndex is i + 1 := hsucc
    have hstep : step base ext t mn [.off o] = match t.cpu.branch likely (ext.signal unit s.env == wanted) o with
        | .next c => .at ⟨c, t.env⟩ | _ => .undef := by
      have hin : mn ∈ Mips.Exec.control ∧ coprocessor.lookup mn = some (likely, unit, wanted) := by
        simp only [coprocessor, List.mem_cons, Prod.mk.injEq, List.not_mem_nil, or_false] at hlk
        rcases hlk with ⟨rfl, rfl, rfl, rfl⟩ | ⟨rfl, rfl, rfl, rfl⟩ | ⟨rfl, rfl, rfl, rfl⟩ | ⟨rfl, rfl, rfl, rfl⟩ | ⟨rfl, rfl, rfl, rfl⟩ | ⟨rfl, rfl, rfl, rfl⟩ | ⟨rfl, rfl, rfl, rfl⟩ | ⟨rfl, rfl, rfl, rfl⟩ <;> exact ⟨by decide, rfl⟩
      unfold step
      rw [if_pos hin.1]
      unfold transfer
      simp only [hin.2, h.env]
      rfl
    refine Or.inl ?_
    by_cases hcd : ext.signal unit s.env = wanted
    · rw [show (ext.signal unit s.env == wanted) = true by rw [hcd]; exact beq_self_eq_true _] at hstep
      refine ⟨_, ⟨{ t.cpu with pc := t.cpu.npc, npc := t.cpu.pc + 1 + o.toInt }, t.env⟩, 1,
        Nat.le_refl _, .coTaken _ _ _ _ hcd, leads_one hf hd hstep, ?_⟩
      refine ⟨h.gpr, h.hi, h.lo, h.env, ?_, Or.inr ⟨⟨mn', as', ?_⟩, ?_⟩⟩
      · show At _ s.cpu.npc t.cpu.npc
        rw [show s.cpu.npc = (i + 1 : Nat) by omega]
        exact at_line (by omega) (by rw [hn2, hpc, hsucc']; omega)
      · show prog[s.cpu.npc.toNat]? = _
        rw [show s.cpu.npc.toNat = i + 1 by omega, hslot]
      · exact at_line htl (show t.cpu.pc + 1 + o.toInt = _ by rw [hpc, ho])
    · rw [show (ext.signal unit s.env == wanted) = false from beq_eq_false_iff_ne.2 hcd] at hstep
      refine ⟨_, ⟨{ t.cpu with pc := (if likely then t.cpu.npc + 1 else t.cpu.npc), npc := (if likely then t.cpu.npc + 1 else t.cpu.npc) + 1 }, t.env⟩, 1,
        Nat.le_refl _, .coNotTaken _ _ _ _ _ hcd rfl, leads_one hf hd ?_, ?_⟩
      · rw [hstep]
        cases likely
        · rfl
        · show Res.at (σ := σ) ⟨{ t.cpu with pc := t.cpu.npc + 1, npc := t.cpu.npc + 2 }, t.env⟩ = Res.at ⟨{ t.cpu with pc := t.cpu.npc + 1, npc := t.cpu.npc + 1 + 1 }, t.env⟩
          rw [Int.add_assoc]; rfl
      · refine ⟨h.gpr, h.hi, h.lo, h.env, ?_, Or.inl ⟨rfl, rfl⟩⟩
        show At _ (if likely = true then s.cpu.npc + 1 else s.cpu.npc) (if likely = true then t.cpu.npc + 1 else t.cpu.npc)
        cases likely
        · rw [if_neg (by decide), if_neg (by decide), show s.cpu.npc = (i + 1 : Nat) by omega]
          exact at_line (by omega) (by rw [hn2, hpc, hsucc']; omega)
        · rw [if_pos rfl, if_pos rfl, show s.cpu.npc + 1 = (i + 2 : Nat) by omega]
          exact at_line (by omega) (by rw [hsucc2, hsucc', hn2, hpc]; omega)
  | eret =>
    obtain ⟨w, hw, hd⟩ := hR
    rw [hx] at hw
    simp only [Option.map_some, Option.some.injEq] at hw
    have hf := hone hw
    by_cases hlost : ∀ a e p, ext.eret s.env = some (a, e) → ¬ Lands (code base is) a p
    · exact Or.inr (Or.inr (.noReturn hlost))
    have hgoes : ∃ a e p, ext.eret s.env = some (a, e) ∧ Lands (code base is) a p := by
      apply Classical.byContradiction
      intro hno
      exact hlost fun a e p h1 h2 => hno ⟨a, e, p, h1, h2⟩
    obtain ⟨a, e, p, hg, hland⟩ := hgoes
    obtain ⟨q, hq, hat⟩ := lands_at hfit hland
    have hst : step base ext t c!"eret" [] = .at ⟨{ t.cpu with pc := q, npc := q + 1 }, e⟩ := by
      show (match ext.eret t.env with
        | none => _
        | some (a, e) => match index base a with
          | none => _
          | some i => Mips.Exec.Res.at ⟨{ t.cpu with pc := i, npc := i + 1 }, e⟩) = _
      rw [h.env, hg]
      simp only [hq]
    exact Or.inl ⟨_, _, 1, Nat.le_refl _, .returned a p e hg hland, leads_one hf hd hst, h.gpr, h.hi, h.lo, rfl, hat, Or.inl ⟨rfl, rfl⟩⟩
  | jump link dest =>
    obtain ⟨w, hw, hdest⟩ := hR
    rw [hx] at hw
    simp only [Option.map_some, Option.some.injEq] at hw
    have hf := hone hw
    rw [hw] at hsucc
    obtain ⟨hn1, hn2⟩ := hnat (Or.inl rfl)
    obtain ⟨mn', as', hslot, hil2, hsucc2⟩ := hslot rfl
    have hsucc' : wordIndex is (i + 1) = wordIndex is i + 1 := hsucc
    have haddr : (code base is).addr (s.cpu.pc + 2) = address base (t.cpu.pc + 2) := by
      show address base ((wordIndex is (s.cpu.pc + 2).toNat : Nat) : Int) = _
      rw [show (s.cpu.pc + 2).toNat = i + 2 by omega, hsucc2, hsucc', hpc, show (((wordIndex is i + 1 + 1 : Nat)) : Int) = wordIndex is i + 2 by omega]
    by_cases hlost : (∀ a p, Goes (code base is) s.cpu dest a → ¬ Lands (code base is) a p) ∨ (∃ r, link = some r ∧ dest = .reg r)
    · exact Or.inr (Or.inr (.lost _ _ hlost))
    have hgoes : ∃ a p, Goes (code base is) s.cpu dest a ∧ Lands (code base is) a p := by
      apply Classical.byContradiction
      intro hno
      exact hlost (Or.inl fun a p h1 h2 => hno ⟨a, p, h1, h2⟩)
    have hnr : ∀ r, link = some r → dest ≠ .reg r := fun r h1 h2 => hlost (Or.inr ⟨r, h1, h2⟩)
    obtain ⟨a, p, hg, hland⟩ := hgoes
    obtain ⟨q, hq, hat⟩ := lands_at hfit hland
    have hstep : ∃ mn as, decoding w = some (mn, as) ∧ step base ext t mn as = jumpTo base t link a := by
      cases dest with
      | line j =>
        obtain ⟨_, mn, idx, hd, hm, hja⟩ := hdest
        refine ⟨_, _, hd, ?_⟩
        rw [show a = (code base is).addr j from hg, ← hja, ← hpc]
        simp only [List.mem_cons, Prod.mk.injEq, List.not_mem_nil, or_false] at hm
        rcases hm with ⟨rfl, rfl⟩ | ⟨rfl, rfl⟩ <;> rfl
      | address b =>
        obtain ⟨mn, idx, hd, hm, hja⟩ := hdest
        refine ⟨_, _, hd, ?_⟩
        rw [show a = b from hg, ← hja, ← hpc]
        simp only [List.mem_cons, Prod.mk.injEq, List.not_mem_nil, or_false] at hm
        rcases hm with ⟨rfl, rfl⟩ | ⟨rfl, rfl⟩ <;> rfl
      | reg r =>
        have hgt : t.cpu.get r = sext a := by
          rw [← show s.cpu.get r = sext a from hg]; unfold Cpu.get; rw [h.gpr]
        have hword : IsWord (t.cpu.get r) := by
          rw [hgt]; unfold IsWord; rw [low_sext]
        cases link with
        | none =>
          refine ⟨_, _, hdest, ?_⟩
          show (if c!"jr" = c!"jr" ∧ IsWord (t.cpu.get r) then jumpTo base t none (low (t.cpu.get r)) else _) = _
          rw [if_pos ⟨rfl, hword⟩, hgt, low_sext]
        | some rd =>
          refine ⟨_, _, hdest, ?_⟩
          have hne : rd ≠ r := fun e => hnr rd rfl (by rw [e])
          show (if c!"jalr" = c!"jalr" ∧ rd ≠ r ∧ IsWord (t.cpu.get r) then jumpTo base t (some rd) (low (t.cpu.get r)) else _) = _
          rw [if_pos ⟨rfl, hne, hword⟩, hgt, low_sext]
    obtain ⟨mn, as, hd, hst⟩ := hstep
    unfold jumpTo at hst
    rw [hq] at hst
    let c0 : Cpu := linked base t.cpu link
    have hst : step base ext t mn as = .at ⟨{ c0 with pc := t.cpu.npc, npc := q }, t.env⟩ := hst
    refine Or.inl ⟨⟨{ c0 with pc := s.cpu.npc, npc := p }, s.env⟩, ⟨{ c0 with pc := t.cpu.npc, npc := q }, t.env⟩, 1, Nat.le_refl _, ?_,
      leads_one hf hd hst, ?_⟩
    · have hgt : ∀ r, t.cpu.get r = s.cpu.get r := by intro r; unfold Cpu.get; rw [h.gpr]
      refine .jumped _ _ a p _ hg hland hnr ⟨?_, fun _ => ?_⟩ ?_ rfl rfl
      · intro r hr
        show c0.get r = _
        cases link with
        | none => exact hgt r
        | some rd =>
          have hr : r ≠ rd := by simpa using hr
          exact (get_set_ne _ _ hr).trans (hgt r)
      · cases link with
        | none => exact ⟨h.hi, h.lo⟩
        | some rd =>
          refine ⟨Eq.trans ?_ h.hi, Eq.trans ?_ h.lo⟩
          · show (t.cpu.set rd _).hi = _
            unfold Cpu.set; split <;> rfl
          · show (t.cpu.set rd _).lo = _
            unfold Cpu.set; split <;> rfl
      · rintro r rfl hr0
        rw [haddr]
        exact get_set_self _ _ hr0
    · refine ⟨rfl, rfl, rfl, h.env, ?_, Or.inr ⟨⟨mn', as', ?_⟩, hat⟩⟩
      · show At _ s.cpu.npc t.cpu.npc
        rw [show s.cpu.npc = (i + 1 : Nat) by omega]
        exact at_line (by omega) (by rw [hn2, hpc, hsucc']; omega)
      · show prog[s.cpu.npc.toNat]? = _
        rw [show s.cpu.npc.toNat = i + 1 by omega, hslot]

theorem runs_sim {σ : Type} (ext : Ext σ) {base : BitVec 32} {is : List Instruction} {prog : List Act} (hlen : prog.length = is.length)
    (hfit : InRegion base is) (hr : ∀ (i : Nat) a, prog[i]? = some a → Realises base is i a)
    (hsl : ∀ (i : Nat) a, prog[i]? = some a → a.slot = true → ∃ mn as, prog[i + 1]? = some (.native mn as))
    (n : Nat) {s t : St σ} (h : Sim base is prog s t) :
    ∃ r, Runs (code base is) ext prog n s r ∧ Follows (code base is) ext (getBytes is) n t r := by
  induction n generalizing s t with
  | zero => exact ⟨_, .zero s, 0, Nat.le_refl _, t, rfl, h.same⟩
  | succ n ih =>
    cases ha : fetch prog s.cpu.pc with
    | none =>
      refine ⟨_, .left n s ha, 1, t, ?_, h.same⟩
      rw [go]
      rw [show fetch (getBytes is) t.cpu.pc = none from ?_]
      unfold fetch
      rcases h.pc with ⟨h1, h2, h3⟩ | ⟨_, _, _, h3⟩
      · have : s.cpu.pc = is.length := by
          have h2 : s.cpu.pc ≤ (is.length : Int) := h2
          unfold fetch at ha
          rw [if_neg (by omega), List.getElem?_eq_none_iff] at ha
          omega
        rw [h3, this]
        rw [if_neg (by omega), List.getElem?_eq_none_iff, ← wordIndex_len]
        exact Nat.le_refl _
      · have h3 : ((getBytes is).length : Int) ≤ t.cpu.pc := h3
        rw [if_neg (by omega), List.getElem?_eq_none_iff]
        omega
    | some a =>
      rcases step_sim ext hlen hfit hr hsl h ha with ⟨s', t', j, hj, hd, hl, hs⟩ | ⟨hd, j, hj⟩ | hd
      · obtain ⟨r, h1, h2⟩ := ih hs
        refine ⟨r, .step n s a s' r ha hd h1, ?_⟩
        cases r with
        | «at» s2 =>
          obtain ⟨k, hk, t2, h3, h4⟩ := h2
          exact ⟨j + k, by omega, t2, (hl k).trans h3, h4⟩
        | left s2 =>
          obtain ⟨k, t2, h3, h4⟩ := h2
          exact ⟨j + k, t2, (hl k).trans h3, h4⟩
        | trap =>
          obtain ⟨k, h3⟩ := h2
          exact ⟨j + k, (hl k).trans h3⟩
        | undef => trivial
      · exact ⟨_, .trap n s a ha hd, j, hj 0⟩
      · exact ⟨_, .undef n s a ha hd, trivial⟩

/-- **C51.** Executing an assembled program does what its lines say.  If the file is accepted and its lines have the meaning `prog`
(`Program`), then, for every number `n` of lines, executing the emitted words - placed at the base address - does what executing `n`
lines may lead to: the words reach the first word of the line reached, with the same registers and memory (after at least `n` words);
they leave the program as the lines do, for the same address; or they trap as the lines do.  Nothing is promised once a line is
executed whose effect is undefined.  Execution may start in any state, at any line (so that it can go on after a call of something
outside of the program).
Partial: the meaning of a line (`Means`) leaves out the branches, jumps and pseudo-instructions for which the assembler is wrong
(C06, C07, C08, C12, C14, C16, C17, C19). -/
theorem C51_execution_partial [Unicode] {σ : Type} (ext : Ext σ) (rt : Rt) (m : Mipsasm) (text : Str) (is : List Instruction)
    (warns : List ParserWarning) (h : assemble rt m text = .ok is warns) (hn : NoNumeralLabel (lines text)) (hf : InRegion m.base is)
    (prog : List Act) (hp : Program m (lines text) prog) (n : Nat) (s t : St σ) (hs : Start (code m.base is) s t) :
    ∃ r, Runs (code m.base is) ext prog n s r ∧ Follows (code m.base is) ext (getBytes is) n t r := by
  have hlen : prog.length = is.length := by rw [hp.length, is_length h]
  refine runs_sim ext hlen hf ?_ hp.slots n ?_
  · intro i a ha
    have hi : i < codeCount (lines text) := by rw [← hp.length]; exact (List.getElem?_eq_some_iff.1 ha).1
    obtain ⟨k, raw, hk, hc, rfl⟩ := code_get hi
    obtain ⟨a', h1, h2⟩ := hp.means k raw hk hc
    rw [ha] at h1; cases h1
    exact realises h hn hf hk hc h2
  · obtain ⟨⟨h1, h2, h3, h4, h5⟩, _, _, h6, h7⟩ := hs
    exact ⟨h1, h2, h3, h4, h5, Or.inl ⟨h6, h7⟩⟩

/-! ### The converse -/

theorem go_stays {σ : Type} {base : BitVec 32} {ext : Ext σ} {C : List W32} {j : Nat} {s : St σ} {r : Mips.Exec.Res σ} (h : go base ext C j s = r) (hr : ∀ t, r ≠ .at t)
    (m : Nat) : go base ext C (j + m) s = r := by
  induction j generalizing s with
  | zero => exact absurd h.symm (hr s)
  | succ j ih =>
    rw [show j + 1 + m = (j + m) + 1 by omega]
    rw [go] at h ⊢
    cases hf : fetch C s.cpu.pc with
    | none => rw [hf] at h; exact h
    | some w =>
      rw [hf] at h
      simp only at h ⊢
      cases hd : decoding w with
      | none => rw [hd] at h; exact h
      | some p =>
        rw [hd] at h
        simp only at h ⊢
        cases hs : step base ext s p.1 p.2 with
        | «at» s' => rw [hs] at h; exact ih h
        | left s' => rw [hs] at h; exact h
        | trap => rw [hs] at h; exact h
        | undef => rw [hs] at h; exact h

/-- **C51**, the converse: the emitted words stop only if the lines do.  If they trap, or leave the program, or come to something
undefined, then so does executing the lines - or executing the lines comes to something undefined. -/
theorem C51_converse_partial [Unicode] {σ : Type} (ext : Ext σ) (rt : Rt) (m : Mipsasm) (text : Str) (is : List Instruction)
    (warns : List ParserWarning) (h : assemble rt m text = .ok is warns) (hn : NoNumeralLabel (lines text)) (hf : InRegion m.base is)
    (prog : List Act) (hp : Program m (lines text) prog) (j : Nat) (s t : St σ) (hs : Start (code m.base is) s t) :
    (go m.base ext (getBytes is) j t = .trap → ∃ n, Runs (code m.base is) ext prog n s .trap ∨ Runs (code m.base is) ext prog n s .undef) ∧
    (∀ t', go m.base ext (getBytes is) j t = .left t' → ∃ n, (∃ s', Runs (code m.base is) ext prog n s (.left s') ∧ Same (code m.base is) s' t') ∨ Runs (code m.base is) ext prog n s .undef) ∧
    (go m.base ext (getBytes is) j t = .undef → ∃ n, Runs (code m.base is) ext prog n s .undef) := by
  obtain ⟨r, h1, h2⟩ := C51_execution_partial ext rt m text is warns h hn hf prog hp (j + 1) s t hs
  have key : ∀ q : Mips.Exec.Res σ, (∀ t, q ≠ .at t) → go m.base ext (getBytes is) j t = q → ∀ k, ∀ q', (∀ t, q' ≠ .at t) → go m.base ext (getBytes is) k t = q' → q' = q := by
    intro q hq e k q' hq' e'
    rw [← go_stays e' hq' j, Nat.add_comm, go_stays e hq k]
  have key2 : ∀ q : Mips.Exec.Res σ, (∀ t, q ≠ .at t) → go m.base ext (getBytes is) j t = q → ∀ k t', j ≤ k → go m.base ext (getBytes is) k t ≠ .at t' := by
    intro q hq e k t2 hk e'
    rw [show k = j + (k - j) by omega, go_stays e hq] at e'
    exact hq t2 e'
  refine ⟨fun e => ⟨j + 1, ?_⟩, fun t1 e => ⟨j + 1, ?_⟩, fun e => ⟨j + 1, ?_⟩⟩
  · cases r with
    | «at» s' => obtain ⟨k, hk, t3, h3, _⟩ := h2; exact absurd h3 (key2 _ (fun _ e => by cases e) e k t3 (by omega))
    | left s' => obtain ⟨k, t3, h3, _⟩ := h2; cases key _ (fun _ e => by cases e) e k _ (fun _ e => by cases e) h3
    | trap => exact Or.inl h1
    | undef => exact Or.inr h1
  · cases r with
    | «at» s' => obtain ⟨k, hk, t3, h3, _⟩ := h2; exact absurd h3 (key2 _ (fun _ e => by cases e) e k t3 (by omega))
    | left s' => obtain ⟨k, t3, h3, h4⟩ := h2; cases key _ (fun _ e => by cases e) e k _ (fun _ e => by cases e) h3; exact Or.inl ⟨s', h1, h4⟩
    | trap => obtain ⟨k, h3⟩ := h2; cases key _ (fun _ e => by cases e) e k _ (fun _ e => by cases e) h3
    | undef => exact Or.inr h1
  · cases r with
    | «at» s' => obtain ⟨k, hk, t3, h3, _⟩ := h2; exact absurd h3 (key2 _ (fun _ e => by cases e) e k t3 (by omega))
    | left s' => obtain ⟨k, t3, h3, h4⟩ := h2; cases key _ (fun _ e => by cases e) e k _ (fun _ e => by cases e) h3
    | trap => obtain ⟨k, h3⟩ := h2; cases key _ (fun _ e => by cases e) e k _ (fun _ e => by cases e) h3
    | undef => exact h1

/-- A machine with nothing else than the integer unit. -/
def noExt : Ext Unit := ⟨fun _ _ _ _ => none, fun _ _ => false, fun _ => none⟩

/-- A program with a loop: its text and its meaning. -/
def loopText : Str := c!"li $t0, 77777\nloop:\naddiu $t0, $t0, -1\nsgt $v0, $t0, $a0\nbnez $v0, loop\nnop"
def loopProg : List Act :=
  [.compute 8 [] false (fun _ => promised ((77777 : Int) < 0xFFFF8000) (.ok (sext (BitVec.ofInt 32 77777)))),
   .native c!"addiu" [.gpr 8, .gpr 8, .simm 65535],
   .compute 2 [] false (fun g => .ok (flag (decide ((g 4).toInt < (g 8).toInt)))),
   .branch false (fun g => g 2 != g 0) [] 1,
   .native c!"sll" [.gpr 0, .gpr 0, .sa 0]]

theorem no_numeral {s : Str} {c d : Char} (h1 : s.getLast? = some c) (h2 : asciiLower c ∉ decDigits) (h3 : s.head? = some d)
    (h4 : d ≠ '0' ∧ d ≠ '+' ∧ d ≠ '-') (v : Int) : ¬ Num s v := by
  have hu : ∀ n, ¬ UNum s n := by
    intro n hu
    cases hu with
    | dec s n h =>
      cases h with
      | one c' k h => cases h1; exact h2 (List.mem_of_getElem? h)
      | snoc s c' n k _ h =>
        rw [List.getLast?_concat] at h1
        cases h1
        exact h2 (List.mem_of_getElem? h)
    | hex s n h => cases h3; exact h4.1 rfl
  intro hv
  cases hv with
  | pos s n h => exact hu n h
  | plus s n h => cases h3; exact h4.2.1 rfl
  | neg s n h => cases h3; exact h4.2.2 rfl

theorem loop_label : NoNumeralLabel (lines loopText) := by
  have hg : globals (lines loopText) = [(c!"loop", 1)] := by decide +kernel
  intro e he v
  rw [hg, List.mem_singleton] at he
  subst he
  exact no_numeral (c := 'p') (d := 'l') rfl (by decide) rfl (by decide) v

theorem loop_program : @Program asciiUnicode Mipsasm.new (lines loopText) loopProg := by
  letI := asciiUnicode
  have hl : lines loopText = [c!"li $t0, 77777", c!"loop:", c!"addiu $t0, $t0, -1", c!"sgt $v0, $t0, $a0", c!"bnez $v0, loop", c!"nop"] := by
    decide +kernel
  rw [hl]
  have sp : Blank [' '] := by simp [Blank]; decide
  have nb : Blank [] := by simp [Blank]
  refine ⟨by decide +kernel, ?_, ?_⟩
  · intro k raw hk hc
    match k, hk with
    | 0, hk =>
      cases hk
      refine ⟨_, rfl, .li 8 77777 ?_⟩
      refine ⟨c!"li", c!"$t0", c!" 77777", by decide +kernel, by unfold SameName; decide, reg_name c!"t0" 8 (by decide) (by unfold SameName; decide), ?_⟩
      refine .mk [' '] c!"77777" [] _ sp nb (.pos _ 77777 (.dec _ _ ?_))
      exact .snoc c!"7777" '7' 7777 7 (.snoc c!"777" '7' 777 7 (.snoc c!"77" '7' 77 7 (.snoc c!"7" '7' 7 7 (.one _ 7 (by decide)) (by decide)) (by decide)) (by decide)) (by decide)
    | 1, hk => cases hk; exact absurd hc (by decide +kernel)
    | 2, hk =>
      cases hk
      refine ⟨_, rfl, .native _ _ ?_ (by decide +kernel) (by decide)⟩
      rw [show body c!"addiu $t0, $t0, -1" = c!"addiu" ++ ' ' :: (c!"$t0" ++ ',' :: (c!" $t0" ++ ',' :: c!" -1")) by decide +kernel]
      refine .args _ _ _ _ (by unfold SameName; decide) (by decide) (.cons _ _ _ _ ?_ (.cons _ _ _ _ ?_ (.one _ _ ?_)))
      · exact .gpr _ _ (reg_name c!"t0" 8 (by decide) (by unfold SameName; decide))
      · exact .gpr _ _ (.dollar [' '] c!"t0" [] 8 sp nb (.name _ c!"t0" _ (by decide) (by unfold SameName; decide)))
      · exact .simm _ _ (.mk [' '] c!"-1" [] _ sp nb (.neg c!"1" 1 (.dec _ _ (.one _ 1 (by decide))) (by decide)))
    | 3, hk =>
      cases hk
      refine ⟨_, rfl, .set c!"sgt" (fun a b => decide (b.toInt < a.toInt)) 2 8 4 (by simp [setOps]) ?_⟩
      rw [show body c!"sgt $v0, $t0, $a0" = c!"sgt" ++ ' ' :: (c!"$v0" ++ ',' :: (c!" $t0" ++ ',' :: c!" $a0")) by decide +kernel]
      refine .args _ _ _ _ (by unfold SameName; decide) (by decide) (.cons _ _ _ _ ?_ (.cons _ _ _ _ ?_ (.one _ _ ?_)))
      · exact .gpr _ _ (reg_name c!"v0" 2 (by decide) (by unfold SameName; decide))
      · exact .gpr _ _ (.dollar [' '] c!"t0" [] 8 sp nb (.name _ c!"t0" _ (by decide) (by unfold SameName; decide)))
      · exact .gpr _ _ (.dollar [' '] c!"a0" [] 4 sp nb (.name _ c!"a0" _ (by decide) (by unfold SameName; decide)))
    | 4, hk =>
      cases hk
      refine ⟨_, rfl, .branch c!"bnez" [2] c!" loop" c!"bne" [2, 0] false (fun g => g 2 != g 0) 1 ?_ rfl (.two _ _ _ 2 0 (by simp [branch2])) (Or.inl ⟨by decide +kernel, by decide, c!"loop:", rfl, by decide +kernel⟩) ⟨by decide, by decide, ?_⟩⟩
      · rw [show body c!"bnez $v0, loop" = c!"bnez" ++ ' ' :: (c!"$v0" ++ ',' :: c!" loop") by decide +kernel]
        exact .r1 _ _ _ _ _ (by unfold SameName; decide) (reg_name c!"v0" 2 (by decide) (by unfold SameName; decide)) (by decide)
      · intro j raw h1 h2 hj _
        match j, h1, h2, hj with
        | 2, _, _, hj => cases hj; decide +kernel
        | 3, _, _, hj => cases hj; decide +kernel
    | 5, hk =>
      cases hk
      refine ⟨_, rfl, .native _ _ ?_ (by decide +kernel) (by decide)⟩
      exact .nop _ (by unfold SameName; decide +kernel)
    | k + 6, hk => cases hk
  · intro i a hi ha
    match i, hi with
    | 0, hi => cases hi; cases ha
    | 1, hi => cases hi; cases ha
    | 2, hi => cases hi; cases ha
    | 3, hi => exact ⟨_, _, rfl⟩
    | 4, hi => cases hi; cases ha
    | i + 5, hi => cases hi

/-- Non-vacuity: `loopText` is accepted, has the meaning `loopProg`, and executing its words from a concrete state leaves the program
with `$t0` counted down to `$a0`. -/
example : ∃ is warns, @assemble asciiUnicode (idRt true) Mipsasm.new loopText = .ok is warns ∧ @Program asciiUnicode Mipsasm.new (lines loopText) loopProg ∧
    NoNumeralLabel (lines loopText) ∧ InRegion 0 is ∧ Start (σ := Unit) (code 0 is) ⟨cpu1 4 77774, ()⟩ ⟨cpu1 4 77774, ()⟩ ∧
    (match go 0 noExt (getBytes is) 40 ⟨cpu1 4 77774, ()⟩ with | .left t => some (t.cpu.get 8, t.cpu.pc) | _ => none) = some (77774, 6) := by
  obtain ⟨is, warns, h, hf⟩ := insts_ok (o := @assemble asciiUnicode (idRt true) Mipsasm.new loopText)
    (f := fun is => decide (getBytes is = [0x3c080001#32, 0x35082fd1#32, 0x2508ffff#32, 0x0088102a#32, 0x1440fffd#32, 0#32])) (by decide +kernel)
  refine ⟨is, warns, h, loop_program, loop_label, ?_, ?_, ?_⟩
  · unfold InRegion; rw [of_decide_eq_true hf]; decide
  · exact ⟨⟨rfl, rfl, rfl, rfl, at_line (i := 0) (Nat.zero_le _) rfl⟩, by decide, Int.natCast_nonneg _, rfl, rfl⟩
  rw [of_decide_eq_true hf]
  decide +kernel

/-- A program with a function and a call of it. -/
def callText : Str := c!"f:\njr $ra\naddiu $v0, $a0, 1\nmain:\njal f\naddiu $a0, $zero, 41"
def callProg : List Act :=
  [.jump none (.reg 31), .native c!"addiu" [.gpr 2, .gpr 4, .simm 1], .jump (some 31) (.line 0), .native c!"addiu" [.gpr 4, .gpr 0, .simm 41]]
def callBase : Mipsasm := { Mipsasm.new with base := 0x80000400#32 }

theorem call_label : NoNumeralLabel (lines callText) := by
  have hg : globals (lines callText) = [(c!"f", 0), (c!"main", 2)] := by decide +kernel
  intro e he v
  rw [hg] at he
  simp only [List.mem_cons, List.not_mem_nil, or_false] at he
  rcases he with rfl | rfl
  · exact no_numeral (c := 'f') (d := 'f') rfl (by decide) rfl (by decide) v
  · exact no_numeral (c := 'n') (d := 'm') rfl (by decide) rfl (by decide) v

theorem call_program : @Program asciiUnicode callBase (lines callText) callProg := by
  letI := asciiUnicode
  have hl : lines callText = [c!"f:", c!"jr $ra", c!"addiu $v0, $a0, 1", c!"main:", c!"jal f", c!"addiu $a0, $zero, 41"] := by
    decide +kernel
  rw [hl]
  have sp : Blank [' '] := by simp [Blank]; decide
  have nb : Blank [] := by simp [Blank]
  refine ⟨by decide +kernel, ?_, ?_⟩
  · intro k raw hk hc
    match k, hk with
    | 0, hk => cases hk; exact absurd hc (by decide +kernel)
    | 1, hk =>
      cases hk
      refine ⟨_, rfl, .jr 31 ?_⟩
      rw [show body c!"jr $ra" = c!"jr" ++ ' ' :: c!"$ra" by decide +kernel]
      exact .args _ _ _ _ (by unfold SameName; decide) (by decide) (.one _ _ (.gpr _ _ (reg_name c!"ra" 31 (by decide) (by unfold SameName; decide))))
    | 2, hk =>
      cases hk
      refine ⟨_, rfl, .native _ _ ?_ (by decide +kernel) (by decide)⟩
      rw [show body c!"addiu $v0, $a0, 1" = c!"addiu" ++ ' ' :: (c!"$v0" ++ ',' :: (c!" $a0" ++ ',' :: c!" 1")) by decide +kernel]
      refine .args _ _ _ _ (by unfold SameName; decide) (by decide) (.cons _ _ _ _ ?_ (.cons _ _ _ _ ?_ (.one _ _ ?_)))
      · exact .gpr _ _ (reg_name c!"v0" 2 (by decide) (by unfold SameName; decide))
      · exact .gpr _ _ (.dollar [' '] c!"a0" [] 4 sp nb (.name _ c!"a0" _ (by decide) (by unfold SameName; decide)))
      · exact .simm _ _ (.mk [' '] c!"1" [] _ sp nb (.pos c!"1" 1 (.dec _ _ (.one _ 1 (by decide)))))
    | 3, hk => cases hk; exact absurd hc (by decide +kernel)
    | 4, hk =>
      cases hk
      refine ⟨_, rfl, .jump c!"jal" (some 31) c!"f" c!"f" 0 ⟨by simp, by decide, c!"jal", by unfold SameName; decide, by decide +kernel⟩ (by decide +kernel) ?_ (by decide) (by decide) ?_⟩
      · exact ⟨c!"f:", rfl, by decide +kernel⟩
      · intro j _ hj; omega
    | 5, hk =>
      cases hk
      refine ⟨_, rfl, .native _ _ ?_ (by decide +kernel) (by decide)⟩
      rw [show body c!"addiu $a0, $zero, 41" = c!"addiu" ++ ' ' :: (c!"$a0" ++ ',' :: (c!" $zero" ++ ',' :: c!" 41")) by decide +kernel]
      refine .args _ _ _ _ (by unfold SameName; decide) (by decide) (.cons _ _ _ _ ?_ (.cons _ _ _ _ ?_ (.one _ _ ?_)))
      · exact .gpr _ _ (reg_name c!"a0" 4 (by decide) (by unfold SameName; decide))
      · exact .gpr _ _ (.dollar [' '] c!"zero" [] 0 sp nb (.name _ c!"zero" _ (by decide) (by unfold SameName; decide)))
      · exact .simm _ _ (.mk [' '] c!"41" [] _ sp nb (.pos c!"41" 41 (.dec _ _ (.snoc c!"4" '1' 4 1 (.one _ 4 (by decide)) (by decide)))))
    | k + 6, hk => cases hk
  · intro i a hi ha
    match i, hi with
    | 0, hi => exact ⟨_, _, rfl⟩
    | 1, hi => cases hi; cases ha
    | 2, hi => exact ⟨_, _, rfl⟩
    | 3, hi => cases hi; cases ha
    | i + 4, hi => cases hi

/-- Non-vacuity: `callText` is accepted, has the meaning `callProg`, and executing its words from the line of `main` calls `f`, which
returns behind the call, where control leaves the program, with 42 in `$v0`. -/
example : ∃ is warns, @assemble asciiUnicode (idRt true) callBase callText = .ok is warns ∧ @Program asciiUnicode callBase (lines callText) callProg ∧
    NoNumeralLabel (lines callText) ∧ InRegion callBase.base is ∧
    Start (σ := Unit) (code callBase.base is) ⟨{ cpu1 4 0 with pc := 2, npc := 3 }, ()⟩ ⟨{ cpu1 4 0 with pc := 2, npc := 3 }, ()⟩ ∧
    (match go callBase.base noExt (getBytes is) 40 ⟨{ cpu1 4 0 with pc := 2, npc := 3 }, ()⟩ with
      | .left t => some (t.cpu.get 2, t.cpu.get 31, t.cpu.pc) | _ => none) = some (42, 0xFFFFFFFF80000410#64, 4) := by
  obtain ⟨is, warns, h, hf⟩ := insts_ok (o := @assemble asciiUnicode (idRt true) callBase callText)
    (f := fun is => decide (getBytes is = [0x03e00008#32, 0x24820001#32, 0x0c000100#32, 0x24040029#32] ∧ is.length = 4 ∧ wordIndex is 2 = 2)) (by decide +kernel)
  have hf := of_decide_eq_true hf
  refine ⟨is, warns, h, call_program, call_label, ?_, ?_, ?_⟩
  · unfold InRegion; rw [hf.1]; decide
  · exact ⟨⟨rfl, rfl, rfl, rfl, at_line (i := 2) (by rw [hf.2.1]; decide) (by rw [hf.2.2]; rfl)⟩, by decide, by rw [show (code callBase.base is).lines = is.length from rfl, hf.2.1]; decide, rfl, rfl⟩
  rw [hf.1]
  decide +kernel

/-- A program that waits for coprocessor 0 and then returns from the exception. -/
def waitText : Str := c!"wait:\ntlbr\nbc0f wait\nnop\neret"
def waitProg : List Act :=
  [.native c!"tlbr" [], .cobranch false false false 0, .native c!"sll" [.gpr 0, .gpr 0, .sa 0], .eret]
/-- A coprocessor that signals once it has been asked three times. -/
def waitExt : Ext Nat := ⟨fun _ _ c n => some (c, n + 1), fun _ n => decide (3 ≤ n), fun n => some (0x1000, n + 100)⟩

theorem wait_label : NoNumeralLabel (lines waitText) := by
  have hg : globals (lines waitText) = [(c!"wait", 0)] := by decide +kernel
  intro e he v
  rw [hg, List.mem_singleton] at he
  subst he
  exact no_numeral (c := 't') (d := 'w') rfl (by decide) rfl (by decide) v

theorem wait_program : @Program asciiUnicode Mipsasm.new (lines waitText) waitProg := by
  letI := asciiUnicode
  have hl : lines waitText = [c!"wait:", c!"tlbr", c!"bc0f wait", c!"nop", c!"eret"] := by
    decide +kernel
  rw [hl]
  refine ⟨by decide +kernel, ?_, ?_⟩
  · intro k raw hk hc
    match k, hk with
    | 0, hk => cases hk; exact absurd hc (by decide +kernel)
    | 1, hk =>
      cases hk
      refine ⟨_, rfl, .native _ _ ?_ (by decide +kernel) (by decide)⟩
      rw [show body c!"tlbr" = c!"tlbr" by decide +kernel]
      exact .bare _ _ (by unfold SameName; decide)
    | 2, hk =>
      cases hk
      refine ⟨_, rfl, .cobranch c!"bc0f" c!"wait" false false false 0 ?_ (by decide) (Or.inl ⟨by decide +kernel, by decide, c!"wait:", rfl, by decide +kernel⟩) ⟨by decide, by decide, ?_⟩⟩
      · rw [show body c!"bc0f wait" = c!"bc0f" ++ ' ' :: c!"wait" by decide +kernel]
        exact .r0 _ _ _ (by unfold SameName; decide) (by decide)
      · intro j raw h1 h2 hj _
        match j, h1, h2, hj with
        | 1, _, _, hj => cases hj; decide +kernel
    | 3, hk =>
      cases hk
      refine ⟨_, rfl, .native _ _ ?_ (by decide +kernel) (by decide)⟩
      exact .nop _ (by unfold SameName; decide +kernel)
    | 4, hk =>
      cases hk
      refine ⟨_, rfl, .eret ?_⟩
      rw [show body c!"eret" = c!"eret" by decide +kernel]
      exact .bare _ _ (by unfold SameName; decide)
    | k + 5, hk => cases hk
  · intro i a hi ha
    match i, hi with
    | 0, hi => cases hi; cases ha
    | 1, hi => exact ⟨_, _, rfl⟩
    | 2, hi => cases hi; cases ha
    | 3, hi => cases hi; cases ha
    | i + 4, hi => cases hi

/-- Non-vacuity: `waitText` is accepted, has the meaning `waitProg`, and executing its words waits for the signal and leaves the
program for the address 0x1000. -/
example : ∃ is warns, @assemble asciiUnicode (idRt true) Mipsasm.new waitText = .ok is warns ∧ @Program asciiUnicode Mipsasm.new (lines waitText) waitProg ∧
    NoNumeralLabel (lines waitText) ∧ InRegion 0 is ∧ Start (σ := Nat) (code 0 is) ⟨cpu1 4 0, 0⟩ ⟨cpu1 4 0, 0⟩ ∧
    (match go 0 waitExt (getBytes is) 40 ⟨cpu1 4 0, 0⟩ with | .left t => some (t.env, t.cpu.pc) | _ => none) = some (103, 0x400) := by
  obtain ⟨is, warns, h, hf⟩ := insts_ok (o := @assemble asciiUnicode (idRt true) Mipsasm.new waitText)
    (f := fun is => decide (getBytes is = [0x42000001#32, 0x4100fffe#32, 0#32, 0x42000018#32])) (by decide +kernel)
  refine ⟨is, warns, h, wait_program, wait_label, ?_, ?_, ?_⟩
  · unfold InRegion; rw [of_decide_eq_true hf]; decide
  · exact ⟨⟨rfl, rfl, rfl, rfl, at_line (i := 0) (Nat.zero_le _) rfl⟩, by decide, Int.natCast_nonneg _, rfl, rfl⟩
  rw [of_decide_eq_true hf]
  decide +kernel

/-- A program that loads a word through the halves of its address: its meaning, and a machine whose memory holds at every address the
address itself. -/
def hiLoProg : List Act := [.native c!"lui" [.gpr 4, .uimm 0x8002], .native c!"lw" [.gpr 5, .mem 0x8ABC 4]]
def selfMemory : Ext Unit :=
  ⟨fun mn as c e => match mn, as with
    | ['l', 'w'], [.gpr rt, .mem o b] => some (c.set rt (c.get b + o.signExtend 64), e)
    | _, _ => none, fun _ _ => false, fun _ => none⟩

theorem hiLo_program : @Program asciiUnicode hiLoSyms (lines hiLoText) hiLoProg := by
  letI := asciiUnicode
  have hl : lines hiLoText = [c!"lui $a0, %hi(0x80018ABC)", c!"lw $a1, %lo(data)($a0)"] := by decide +kernel
  have hg : HiLo.NoParenLabel [c!"lui $a0, %hi(0x80018ABC)", c!"lw $a1, %lo(data)($a0)"] := by
    have : globals [c!"lui $a0, %hi(0x80018ABC)", c!"lw $a1, %lo(data)($a0)"] = [] := by decide +kernel
    intro e he
    rw [this] at he; cases he
  rw [hl]
  refine ⟨by decide +kernel, ?_, ?_⟩
  · intro k raw hk hc
    match k, hk with
    | 0, hk =>
      cases hk
      refine ⟨_, rfl, .hi 4 0x80018ABC 0x8002 0x8ABC ?_ (by decide) hg (by decide)⟩
      rw [show body c!"lui $a0, %hi(0x80018ABC)" = c!"lui $a0, %hi(0x80018ABC)" by decide +kernel]
      exact ex_hi
    | 1, hk =>
      cases hk
      refine ⟨_, rfl, .lo c!"lw" (fun l => [.gpr 5, .mem l 4]) 0x80018ABC 0x8002 0x8ABC ?_ (by decide) hg (by decide)⟩
      rw [show body c!"lw $a1, %lo(data)($a0)" = c!"lw $a1, %lo(data)($a0)" by decide +kernel]
      exact ex_lo
    | k + 2, hk => cases hk
  · intro i a hi ha
    match i, hi with
    | 0, hi => cases hi; cases ha
    | 1, hi => cases hi; cases ha
    | i + 2, hi => cases hi

/-- Non-vacuity: `hiLoText` is accepted, has the meaning `hiLoProg`, and its words load from the address of `data`. -/
example : ∃ is warns, @assemble asciiUnicode (idRt true) hiLoSyms hiLoText = .ok is warns ∧ @Program asciiUnicode hiLoSyms (lines hiLoText) hiLoProg ∧
    NoNumeralLabel (lines hiLoText) ∧ InRegion 0 is ∧ Start (σ := Unit) (code 0 is) ⟨cpu1 4 0, ()⟩ ⟨cpu1 4 0, ()⟩ ∧
    (match go 0 selfMemory (getBytes is) 40 ⟨cpu1 4 0, ()⟩ with | .left t => some (t.cpu.get 5, t.cpu.pc) | _ => none) = some (0xFFFFFFFF80018ABC, 2) := by
  obtain ⟨is, warns, h, hf⟩ := insts_ok (o := @assemble asciiUnicode (idRt true) hiLoSyms hiLoText)
    (f := fun is => decide (getBytes is = [0x3c048002#32, 0x8c858abc#32])) (by decide +kernel)
  refine ⟨is, warns, h, hiLo_program, ?_, ?_, ?_, ?_⟩
  · have hg : globals (lines hiLoText) = [] := by decide +kernel
    intro e he v
    rw [hg] at he; cases he
  · unfold InRegion; rw [of_decide_eq_true hf]; decide
  · exact ⟨⟨rfl, rfl, rfl, rfl, at_line (i := 0) (Nat.zero_le _) rfl⟩, by decide, Int.natCast_nonneg _, rfl, rfl⟩
  rw [of_decide_eq_true hf]
  decide +kernel

end Mips
