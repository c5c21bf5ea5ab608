/- Printed operands are readable. -/
import Verif.Lemmas.SqL
import Verif.Lemmas.StrL
import Verif.Spec.Program
import Verif.Spec.Listing

namespace Mips
open Isa Syntax Listing

theorem hexDigits_char : ∀ k : Fin 16, hexDigits[k.val]? = some (asciiLower (Nat.digitChar k.val)) ∧
    hexDigits[k.val]? = some (asciiLower (Char.toUpper (Nat.digitChar k.val))) := by decide +kernel

/-- Hexadecimal digits, in any letter case. -/
theorem digits_hex (g : Char → Char) (hg : ∀ k : Fin 16, hexDigits[k.val]? = some (asciiLower (g (Nat.digitChar k.val)))) (n : Nat) :
    Digits hexDigits ((Nat.toDigits 16 n).map g) n := by
  induction n using Nat.strongRecOn with
  | _ n ih =>
    by_cases h : n < 16
    · rw [Nat.toDigits_of_lt_base h]
      exact .one _ n (hg ⟨n, h⟩)
    · rw [Nat.toDigits_of_base_le (by omega) (by omega), List.map_append]
      have := Digits.snoc (ds := hexDigits) _ (g (Nat.digitChar (n % 16))) (n / 16) (n % 16) (ih (n / 16) (by omega)) (hg ⟨n % 16, Nat.mod_lt _ (by omega)⟩)
      have e : n / 16 * hexDigits.length + n % 16 = n := by rw [show hexDigits.length = 16 from rfl]; omega
      rw [e] at this
      exact this

theorem unum_hexText (n : Nat) : UNum (hexText n) n := by
  have := digits_hex id (fun k => (hexDigits_char k).1) n
  rw [List.map_id] at this
  exact .hex _ n this

theorem unum_hexTextU (n : Nat) : UNum (hexTextU n) n := .hex _ n (digits_hex Char.toUpper (fun k => (hexDigits_char k).2) n)

theorem num_intText (v : Int) : Num (intText v) v := by
  unfold intText
  by_cases h : v < 0
  · rw [if_pos h]
    have := Num.neg (hexText v.natAbs) v.natAbs (unum_hexText _) (by omega)
    rw [show -(v.natAbs : Int) = v by omega] at this
    exact this
  · rw [if_neg h]
    have := Num.pos (hexText v.natAbs) v.natAbs (unum_hexText _)
    rw [show (v.natAbs : Int) = v by omega] at this
    exact this

theorem blank_nil : Blank [] := by simp [Blank]
theorem blank_sp : Blank [' '] := by simp [Blank]; decide

theorem pnum_hex {p : Str} (hp : Blank p) (n : Nat) : PNum (p ++ hexText n) n := by
  have := PNum.mk p (hexText n) [] n hp blank_nil (.pos _ _ (unum_hexText n))
  simpa using this

theorem pnum_int {p : Str} (hp : Blank p) (v : Int) : PNum (p ++ intText v) v := by
  have := PNum.mk p (intText v) [] v hp blank_nil (num_intText v)
  simpa using this

theorem gpr_names : ∀ r : BitVec 5, ∃ n, gprNames[r.toNat]? = some n ∧ SameName n n := by
  intro r
  have key : ∀ k : Fin 32, ∃ n, n ∈ gprNames ∧ gprNames[k.val]? = some n := by
    intro k
    have : k.val < gprNames.length := k.isLt
    exact ⟨_, List.getElem_mem this, List.getElem?_eq_getElem this⟩
  have hs : ∀ n ∈ gprNames, SameName n n := by unfold SameName; decide
  obtain ⟨n, h1, h2⟩ := key r.toFin
  exact ⟨n, h2, hs n h1⟩

theorem fpr_names : ∀ r : BitVec 5, ∃ n, fprNames[r.toNat]? = some n ∧ SameName n n := by
  intro r
  have key : ∀ k : Fin 32, ∃ n, n ∈ fprNames ∧ fprNames[k.val]? = some n := by
    intro k
    have : k.val < fprNames.length := k.isLt
    exact ⟨_, List.getElem_mem this, List.getElem?_eq_getElem this⟩
  have hs : ∀ n ∈ fprNames, SameName n n := by unfold SameName; decide
  obtain ⟨n, h1, h2⟩ := key r.toFin
  exact ⟨n, h2, hs n h1⟩

theorem reg_gpr {p : Str} (hp : Blank p) (r : BitVec 5) : Reg GprCore (p ++ gprText r) r := by
  obtain ⟨n, h1, h2⟩ := gpr_names r
  have := Reg.dollar (core := GprCore) p n [] r hp blank_nil (.name _ n _ h1 h2)
  simpa [gprText, h1] using this

theorem reg_fpr {p : Str} (hp : Blank p) (r : BitVec 5) : Reg FprCore (p ++ fprText r) r := by
  obtain ⟨n, h1, h2⟩ := fpr_names r
  have := Reg.dollar (core := FprCore) p n [] r hp blank_nil (.name _ n _ h1 h2)
  simpa [fprText, h1] using this

theorem c0_names : ∀ k : Fin 32, ∀ n, c0Names.lookup k.val = some n → (k.val, n.map asciiLower) ∈ cop0Names := by
  have : ∀ k : Fin 32, (match c0Names.lookup k.val with | some n => decide ((k.val, n.map asciiLower) ∈ cop0Names) | none => true) = true := by decide +kernel
  intro k n h
  have := this k
  rw [h] at this
  exact of_decide_eq_true this

theorem reg_c0 {p : Str} (hp : Blank p) (r : BitVec 5) (h : (c0Names.lookup r.toNat).isSome = true) :
    Reg C0Core (p ++ (c0Names.lookup r.toNat).getD []) r := by
  obtain ⟨n, hn⟩ := Option.isSome_iff_exists.1 h
  have := Reg.bare (core := C0Core) p n [] r hp blank_nil (.name n _ _ (c0_names r.toFin n hn) rfl)
  simpa [hn] using this

/-- The operands that the assembler reads back as they are printed. -/
def argBack : Arg → Bool
  | .off _ => false
  | .target _ => false
  | .code v => decide (v.toNat < 0x10000)
  | .c0 r => (c0Names.lookup r.toNat).isSome
  | _ => true

theorem arg_spells {sym : BitVec 32 → Option Str} {base : BitVec 32} {p : Str} (hp : Blank p) (a : Arg) (h : argBack a = true) :
    Spells (p ++ argText sym base a) a := by
  cases a with
  | gpr r => exact .gpr _ _ (reg_gpr hp r)
  | fpr r => exact .fpr _ _ (reg_fpr hp r)
  | c0 r => exact .c0 _ _ (reg_c0 hp r h)
  | sa v => exact .sa _ _ (pnum_hex hp _)
  | simm v => exact .simm _ _ (pnum_int hp _)
  | uimm v => exact .uimm _ _ (pnum_hex hp _)
  | off v => cases h
  | mem v b =>
    have := Spells.mem (p ++ intText v.toInt) (gprText b) [] v b (pnum_int hp _) (by simpa using reg_gpr blank_nil b) blank_nil
    simpa [argText] using this
  | cop v => exact .cop _ _ (pnum_hex hp _)
  | code v => exact .code _ _ (pnum_hex hp _) (of_decide_eq_true h)
  | target t => cases h

theorem args_spell {sym : BitVec 32 → Option Str} {base : BitVec 32} : ∀ (as : List Arg), as ≠ [] → (∀ a ∈ as, argBack a = true) → ∀ {p : Str}, Blank p →
    SpellsAll (p ++ c!", ".intercalate (as.map (argText sym base))) as := by
  intro as
  induction as with
  | nil => intro h; exact absurd rfl h
  | cons a as ih =>
    intro _ h p hp
    cases as with
    | nil =>
      have := SpellsAll.one _ _ (arg_spells (sym := sym) (base := base) hp a (h a (by simp)))
      simpa [List.intercalate] using this
    | cons b as =>
      have := SpellsAll.cons _ _ _ _ (arg_spells (sym := sym) (base := base) hp a (h a (by simp)))
        (ih (by simp) (fun c hc => h c (by simp [hc])) (p := [' ']) blank_sp)
      simpa [List.intercalate, List.append_assoc] using this

end Mips
