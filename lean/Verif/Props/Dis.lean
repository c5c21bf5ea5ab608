/-
C02, C04, C33: disassembly.
-/
import Verif.Lemmas.DisT

namespace Mips
open Isa Listing Syntax

/-! ### C04 -/

theorem displayC_some (f : Char) (rs rt : Register) (x : Word) : (displayC f rs rt (x &&& 0xF#32)).isSome = true := by
  unfold displayC
  rw [Option.isSome_map]
  have : (x &&& 0xF#32).toNat < 16 := by
    rw [BitVec.toNat_and]
    have := @Nat.and_le_right x.toNat (0xF#32).toNat
    simp at this ⊢; omega
  rw [List.getElem?_eq_getElem (show _ < floatConds.length from this)]; rfl

theorem special_display (w : Word) (f : Fields) : (decodeSpecial w f).display.isSome = true := by
  unfold decodeSpecial; split <;> rfl
theorem regimm_display (w : Word) (f : Fields) : (decodeRegimm w f).display.isSome = true := by
  unfold decodeRegimm; split <;> rfl
theorem c0_display (name : Str) (rt rd : Register) (w : Word) : (c0Disp name rt rd [w]).isSome = true := by
  unfold c0Disp; cases Cop0Register.nameOf rd <;> rfl
theorem cop0_display (w : Word) (f : Fields) : (decodeCop0 w f).display.isSome = true := by
  unfold decodeCop0
  split <;> first | exact c0_display .. | rfl | (unfold decodeCop0Co; split <;> rfl)
theorem cop1s_display (w : Word) (f : Fields) : (decodeCop1S w f).display.isSome = true := by
  unfold decodeCop1S; split <;> first | rfl | exact displayC_some ..
theorem cop1d_display (w : Word) (f : Fields) : (decodeCop1D w f).display.isSome = true := by
  unfold decodeCop1D; split <;> first | rfl | exact displayC_some ..
theorem cop1_display (w : Word) (f : Fields) : (decodeCop1 w f).display.isSome = true := by
  unfold decodeCop1
  split <;> first | exact cop1s_display .. | exact cop1d_display .. | rfl | (unfold decodeCop1W; split <;> rfl) | (unfold decodeCop1L; split <;> rfl)

theorem decode_display (base w : Word) : (decode base w).display.isSome = true := by
  unfold decode
  dsimp only
  split <;> first | exact special_display .. | exact regimm_display .. | exact cop0_display .. | exact cop1_display .. | rfl

theorem matchSym_display (syms : List (Word × Str)) (i : Instruction) (h : i.display.isSome = true) :
    (matchSym syms i).display.isSome = true := by
  unfold matchSym
  split
  · split
    · rfl
    · exact h
  · exact h

theorem mapM_some {α β : Type} (f : α → Option β) (l : List α) (h : ∀ a ∈ l, (f a).isSome = true) :
    ∃ out, l.mapM f = some out ∧ out.length = l.length ∧ ∀ (k : Nat) a, l[k]? = some a → out[k]? = f a := by
  induction l with
  | nil => exact ⟨[], rfl, rfl, by simp⟩
  | cons a l ih =>
    obtain ⟨b, hb⟩ := Option.isSome_iff_exists.mp (h a (by simp))
    obtain ⟨out, h1, h2, h3⟩ := ih fun a ha => h a (by simp [ha])
    refine ⟨b :: out, by simp [List.mapM_cons, hb, h1], by simp [h2], ?_⟩
    intro k c hk
    cases k with
    | zero => simp at hk; subst hk; simp [hb]
    | succ k => exact h3 k c (by simpa using hk)

theorem disassemble_debug (rt : Rt) (m : Mipsasm) (hm : m.debug = true) (ws : List Word) :
    ∃ out, disassemble rt m ws = some out ∧ out.length = ws.length ∧
      ∀ (k : Nat) w, ws[k]? = some w → out[k]? = (matchSym m.syms (decode m.base w)).debug := by
  unfold disassemble
  dsimp only
  rw [if_pos hm]
  obtain ⟨out, h1, h2, h3⟩ := mapM_some Instruction.debug ((disassembleWords ws m.base).map (matchSym m.syms)) (by
    intro a ha
    simp only [disassembleWords, List.map_map, List.mem_map] at ha
    obtain ⟨w, -, rfl⟩ := ha
    unfold Instruction.debug
    rw [Option.isSome_map]
    exact matchSym_display _ _ (decode_display _ _))
  refine ⟨out, h1, by rw [h2]; simp [disassembleWords], ?_⟩
  intro k w hk
  apply h3
  simp [disassembleWords, hk]

/-- C04: in debug mode `disassemble` never panics and returns one text per word, for every input, symbol
table, base address and overflow mode. -/
theorem C04_total (rt : Rt) (m : Mipsasm) (hm : m.debug = true) (ws : List Word) :
    ∃ out, disassemble rt m ws = some out ∧ out.length = ws.length := by
  obtain ⟨out, h1, h2, -⟩ := disassemble_debug rt m hm ws
  exact ⟨out, h1, h2⟩

/-! ### C02 -/

theorem digitsAux_mem (b : Nat) (f : Nat → Char) (fuel n : Nat) (hb : 1 < b) (h : n < fuel) (c : Char)
    (hc : c ∈ digitsAux b f fuel n) : ∃ k, k < b ∧ c = f k := by
  induction fuel generalizing n with
  | zero => omega
  | succ fuel ih =>
    rw [digitsAux] at hc
    split at hc
    · next h => simp at hc; exact ⟨n, h, hc⟩
    · rw [List.mem_append] at hc
      rcases hc with hc | hc
      · exact ih (n / b) (by have := Nat.div_lt_self (n := n) (k := b) (by omega) hb; omega) hc
      · simp at hc; exact ⟨n % b, Nat.mod_lt _ (by omega), hc⟩

theorem toDigits_noWs (n : Nat) : NoWs (Nat.toDigits 16 n) := by
  rw [← hexLower_eq]
  intro c hc
  obtain ⟨k, hk, rfl⟩ := digitsAux_mem 16 _ _ _ (by omega) (by omega) c hc
  have : ∀ k : Fin 16, isWs (hexChar k.val) = false := by decide
  exact this ⟨k, hk⟩

theorem toDigitsU_noWs (n : Nat) : NoWs ((Nat.toDigits 16 n).map Char.toUpper) := by
  rw [← hexUpper_eq]
  intro c hc
  obtain ⟨k, hk, rfl⟩ := digitsAux_mem 16 _ _ _ (by omega) (by omega) c hc
  have : ∀ k : Fin 16, isWs (hexCharU k.val) = false := by decide
  exact this ⟨k, hk⟩

theorem NoWs.append {a b : Str} (ha : NoWs a) (hb : NoWs b) : NoWs (a ++ b) := by
  intro c hc; rw [List.mem_append] at hc; exact hc.elim (ha c) (hb c)

theorem gprText_noWs (r : BitVec 5) : NoWs (gprText r) := by unfold NoWs; revert r; decide
theorem fprText_noWs (r : BitVec 5) : NoWs (fprText r) := by unfold NoWs; revert r; decide
theorem hexText_noWs (n : Nat) : NoWs (hexText n) := NoWs.append (by unfold NoWs; decide) (toDigits_noWs n)
theorem intText_noWs (v : Int) : NoWs (intText v) := NoWs.append (by unfold NoWs; split <;> decide) (hexText_noWs _)

/-- The symbol names have no white space. -/
def PlainSyms (syms : List (Word × Str)) : Prop := ∀ e ∈ syms, NoWs e.2

theorem lookup_snd {α β : Type} [BEq α] [LawfulBEq α] {l : List (α × β)} {a : α} {b : β} (h : l.lookup a = some b) : (a, b) ∈ l := by
  induction l with
  | nil => simp at h
  | cons e l ih =>
    obtain ⟨x, y⟩ := e
    rw [List.lookup_cons] at h
    split at h
    · next hx => simp at h; simp [h, (beq_iff_eq.mp hx)]
    · exact List.mem_cons_of_mem _ (ih h)

theorem argText_noWs {syms : List (Word × Str)} (hs : PlainSyms syms) (base : Word) (a : Arg) :
    NoWs (argText (symAt syms) base a) := by
  cases a with
  | gpr r => exact gprText_noWs r
  | fpr r => exact fprText_noWs r
  | c0 r =>
    have : ∀ r : BitVec 5, ∀ c ∈ (c0Names.lookup r.toNat).getD [], isWs c = false := by decide
    exact this r
  | sa v => exact hexText_noWs _
  | simm v => exact intText_noWs _
  | uimm v => exact hexText_noWs _
  | off v => exact intText_noWs _
  | mem v b => exact (((intText_noWs _).append (by unfold NoWs; decide)).append (gprText_noWs b)).append (by unfold NoWs; decide)
  | cop v => exact hexText_noWs _
  | code v => exact hexText_noWs _
  | target t =>
    show NoWs (match symAt syms (jumpAddr base t) with | some name => name | none => hexTextU (jumpAddr base t).toNat)
    cases h : symAt syms (jumpAddr base t) with
    | none => exact NoWs.append (by unfold NoWs; decide) (toDigitsU_noWs _)
    | some n => exact hs _ (lookup_snd h)

/-- Squashing changes nothing. -/
def Neat (s : Str) : Prop := squash s = s

theorem neat_noWs {s : Str} (h : NoWs s) : Neat s := by
  have := squash_no s [] h
  simpa [Neat, squash] using this

theorem neat_app {a s : Str} (ha : NoWs a) (hs : Neat s) : Neat (a ++ s) := by
  unfold Neat at *; rw [squash_no _ _ ha, hs]

theorem neat_sp {s : Str} (h : ∀ c, s.head? = some c → isWs c = false) (hs : Neat s) : Neat (' ' :: s) := by
  unfold Neat at *; rw [squash_space _ h, hs]

theorem noWs_head {s : Str} (h : NoWs s) (t : Str) (ht : ∀ c, t.head? = some c → isWs c = false) :
    ∀ c, (s ++ t).head? = some c → isWs c = false := by
  cases s with
  | nil => exact ht
  | cons d s => intro c hc; simp at hc; exact hc ▸ h d (by simp)

theorem noWs_head' {s : Str} (h : NoWs s) (hne : s ≠ []) (t : Str) :
    ∀ c, (s ++ t).head? = some c → isWs c = false := by
  cases s with
  | nil => exact absurd rfl hne
  | cons d s => intro c hc; simp at hc; exact hc ▸ h d (by simp)

theorem inter_neat (l : List Str) (h : ∀ a ∈ l, NoWs a) :
    Neat (c!", ".intercalate l) ∧ ∀ c, (c!", ".intercalate l).head? = some c → isWs c = false := by
  induction l with
  | nil => exact ⟨rfl, by simp [List.intercalate]⟩
  | cons a l ih =>
    cases l with
    | nil => simp [List.intercalate]; exact ⟨neat_noWs (h a (by simp)), by
        intro c hc; exact h a (by simp) c (List.mem_of_mem_head? (by simpa using hc))⟩
    | cons b l =>
      obtain ⟨h1, h2⟩ := ih fun a ha => h a (by simp [ha])
      have e : c!", ".intercalate (a :: b :: l) = a ++ (',' :: ' ' :: c!", ".intercalate (b :: l)) := by
        simp [List.intercalate, List.intersperse]
      rw [e]
      refine ⟨neat_app (h a (by simp)) (neat_app (a := c!",") (by unfold NoWs; decide) (neat_sp h2 h1)), ?_⟩
      exact noWs_head (h a (by simp)) _ (by simp; decide)

theorem mn_noWs : ∀ r ∈ table, NoWs r.mn ∧ r.mn ≠ [] := by unfold NoWs; decide +kernel

theorem decoding_mn {w : Word} {mn : Str} {args : List Arg} (h : decoding w = some (mn, args)) : NoWs mn ∧ mn ≠ [] := by
  unfold decoding at h
  rw [Option.map_eq_some_iff] at h
  obtain ⟨r, h1, h2⟩ := h
  have := mn_noWs r (List.mem_of_find?_eq_some h1)
  simp at h2
  rw [h2.1] at this; exact this

theorem hex8_noWs (w : Word) : NoWs (hex8 w) := by
  unfold hex8 NoWs
  intro c hc
  rw [List.mem_append] at hc
  rcases hc with hc | hc
  · revert c; decide
  · rw [List.mem_map] at hc
    obtain ⟨k, -, rfl⟩ := hc
    have : ∀ v : BitVec 4, isWs (Nat.digitChar v.toNat) = false := by decide
    exact this _

theorem lineText_neat {syms : List (Word × Str)} (hs : PlainSyms syms) (base w : Word) :
    Neat (lineText (symAt syms) base w) := by
  have hw : ∀ t, Neat t → (∀ c, t.head? = some c → isWs c = false) → Neat (wordText w ++ t) := by
    intro t h1 h2
    have : wordText w ++ t = c!".word" ++ (' ' :: (hex8 w ++ t)) := by simp [wordText]
    rw [this]
    exact neat_app (by unfold NoWs; decide) (neat_sp (noWs_head (hex8_noWs w) t h2) (neat_app (hex8_noWs w) h1))
  unfold lineText
  cases hd : decoding w with
  | none => have := hw [] rfl (by simp); simpa using this
  | some p =>
    obtain ⟨mn, args⟩ := p
    have hm := (decoding_mn hd).1
    have hi : Neat (instText (symAt syms) base mn args) := by
      unfold instText
      split
      · exact neat_noWs hm
      · obtain ⟨h1, h2⟩ := inter_neat ((shown mn args).map (argText (symAt syms) base)) (by
          intro a ha; rw [List.mem_map] at ha; obtain ⟨b, -, rfl⟩ := ha; exact argText_noWs hs base b)
        rw [List.append_assoc]
        exact neat_app hm (neat_sp h2 h1)
    dsimp only
    cases c0Arg args with
    | none => exact hi
    | some r =>
      dsimp only
      split
      · exact hi
      · have hne := (decoding_mn hd).2
        have hdig : NoWs [Nat.digitChar (r.toNat / 16), Nat.digitChar (r.toNat % 16)] := by
          unfold NoWs; clear hi hd hm hne; revert r; decide
        have h5 : NoWs (c!"0x" ++ [Nat.digitChar (r.toNat / 16), Nat.digitChar (r.toNat % 16)]) :=
          NoWs.append (by unfold NoWs; decide) hdig
        have h6 : Neat (gprText (fRt w) ++ (c!"," ++ (' ' :: (c!"0x" ++ [Nat.digitChar (r.toNat / 16), Nat.digitChar (r.toNat % 16)])))) :=
          neat_app (gprText_noWs _) (neat_app (by unfold NoWs; decide) (neat_sp (by simp; decide) (neat_noWs h5)))
        have h7 : Neat (mn ++ (' ' :: (gprText (fRt w) ++ (c!"," ++ (' ' :: (c!"0x" ++ [Nat.digitChar (r.toNat / 16), Nat.digitChar (r.toNat % 16)])))))) :=
          neat_app hm (neat_sp (by simp [gprText]; decide) h6)
        have h8 := neat_sp (s := c!"#" ++ (' ' :: (mn ++ (' ' :: (gprText (fRt w) ++ (c!"," ++ (' ' :: (c!"0x" ++ [Nat.digitChar (r.toNat / 16), Nat.digitChar (r.toNat % 16)])))))))) (by simp; decide)
          (neat_app (by unfold NoWs; decide) (neat_sp (noWs_head' hm hne _) h7))
        have h9 := neat_app (hex8_noWs w) h8
        have h10 := neat_app (a := c!".word") (by unfold NoWs; decide) (neat_sp (by simp [hex8]; decide) h9)
        have e : wordText w ++ c!" # " ++ mn ++ c!" " ++ gprText (fRt w) ++ c!", 0x" ++
            [Nat.digitChar (r.toNat / 16), Nat.digitChar (r.toNat % 16)] =
          c!".word" ++ (' ' :: (hex8 w ++ (' ' :: (c!"#" ++ (' ' :: (mn ++ (' ' :: (gprText (fRt w) ++ (c!"," ++ (' ' ::
            (c!"0x" ++ [Nat.digitChar (r.toNat / 16), Nat.digitChar (r.toNat % 16)]))))))))))) := by
          simp [wordText]
        rw [e]
        exact h10

theorem text_squash (rt : Rt) (m : Mipsasm) (hm : m.debug = true) (ws : List Word) :
    ∃ out, disassemble rt m ws = some out ∧ out.length = ws.length ∧
      ∀ (k : Nat) w, ws[k]? = some w → ¬ TopImm w → ¬ CopHole w →
        out[k]? = some (squash (lineText (fun a => m.syms.lookup a) m.base w)) := by
  obtain ⟨out, h1, h2, h3⟩ := disassemble_debug rt m hm ws
  refine ⟨out, h1, h2, ?_⟩
  intro k w hk ht hh
  rw [h3 k w hk]
  obtain ⟨u, hu1, hu2⟩ := decode_text m.syms m.base w ht hh
  unfold Instruction.debug
  rw [hu1, Option.map_some, squeeze_eq, hu2]
  rfl

/-- C02 (part): every word whose printed text the program gets right. -/
theorem C02_text_partial (rt : Rt) (m : Mipsasm) (hm : m.debug = true) (hs : PlainSyms m.syms) (ws : List Word) :
    ∃ out, disassemble rt m ws = some out ∧ out.length = ws.length ∧
      ∀ (k : Nat) w, ws[k]? = some w → ¬ TopImm w → ¬ CopHole w →
        out[k]? = some (lineText (fun a => m.syms.lookup a) m.base w) := by
  obtain ⟨out, h1, h2, h3⟩ := text_squash rt m hm ws
  refine ⟨out, h1, h2, ?_⟩
  intro k w hk ht hh
  rw [h3 k w hk ht hh]
  exact congrArg some (lineText_neat hs m.base w)

end Mips
