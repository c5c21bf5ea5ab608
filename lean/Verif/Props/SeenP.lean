/-
**C77** — a listing identifies the code.
-/
import Verif.Spec.Seen
import Verif.Props.RoundTrip2
import Verif.Props.ListingX
import Verif.Props.Jumps

namespace Mips
open Isa Syntax Listing

/-! ### Operands -/

theorem hexText_inj {a b : Nat} (h : hexText a = hexText b) : a = b := by
  refine hexTextU_inj ?_
  unfold hexText at h
  unfold hexTextU
  rw [List.append_cancel_left h]

theorem intText_inj {v v' : Int} (h : intText v = intText v') : v = v' := by
  unfold intText at h
  by_cases h1 : v < 0 <;> by_cases h2 : v' < 0
  · rw [if_pos h1, if_pos h2] at h
    have := hexText_inj (List.append_cancel_left h); omega
  · rw [if_pos h1, if_neg h2] at h
    simp [hexText] at h
  · rw [if_neg h1, if_pos h2] at h
    simp [hexText] at h
  · rw [if_neg h1, if_neg h2] at h
    have := hexText_inj (List.append_cancel_left h); omega

theorem hexText_has (n : Nat) : ',' ∉ hexText n ∧ '(' ∉ hexText n := by
  have : ∀ c ∈ Nat.toDigits 16 n, c ≠ ',' ∧ c ≠ '(' := by
    rw [← hexLower_eq]
    intro c hc
    obtain ⟨k, hk, rfl⟩ := digitsAux_mem 16 _ _ _ (by omega) (by omega) c hc
    have : ∀ k : Fin 16, hexChar k.val ≠ ',' ∧ hexChar k.val ≠ '(' := by decide
    exact this ⟨k, hk⟩
  unfold hexText
  refine ⟨fun hc => ?_, fun hc => ?_⟩ <;> rcases List.mem_append.1 hc with hc | hc
  · revert hc; decide
  · exact (this _ hc).1 rfl
  · revert hc; decide
  · exact (this _ hc).2 rfl

theorem intText_has (v : Int) : ',' ∉ intText v ∧ '(' ∉ intText v := by
  unfold intText
  refine ⟨fun hc => ?_, fun hc => ?_⟩ <;> rcases List.mem_append.1 hc with hc | hc
  · split at hc <;> revert hc <;> decide
  · exact (hexText_has _).1 hc
  · split at hc <;> revert hc <;> decide
  · exact (hexText_has _).2 hc

theorem gprText_has : ∀ r : BitVec 5, ',' ∉ gprText r := by decide
theorem fprText_has : ∀ r : BitVec 5, ',' ∉ fprText r := by decide
theorem gprText_inj : ∀ r r' : BitVec 5, gprText r = gprText r' → r = r' := by decide +kernel
theorem fprText_inj : ∀ r r' : BitVec 5, fprText r = fprText r' → r = r' := by decide +kernel
theorem c0Text_inj : ∀ r r' : BitVec 5, (c0Names.lookup r.toNat).isSome = true → (c0Names.lookup r'.toNat).isSome = true →
    (c0Names.lookup r.toNat).getD [] = (c0Names.lookup r'.toNat).getD [] → r = r' := by decide +kernel

/-- operands of the same form -/
def Alike : Arg → Arg → Bool
  | .gpr _, .gpr _ | .fpr _, .fpr _ | .c0 _, .c0 _ | .sa _, .sa _ | .simm _, .simm _ | .uimm _, .uimm _ | .off _, .off _
  | .mem _ _, .mem _ _ | .cop _, .cop _ | .code _, .code _ | .target _, .target _ => true
  | _, _ => false

/-- the coprocessor 0 register has a name -/
def Named : Arg → Bool
  | .c0 r => (c0Names.lookup r.toNat).isSome
  | _ => true

theorem jumpAddr_inj {base : Word} {t t' : BitVec 26} (h : jumpAddr base t = jumpAddr base t') : t = t' := by
  have := congrArg BitVec.toNat h
  rw [jumpAddr_toNat, jumpAddr_toNat] at this
  exact BitVec.eq_of_toNat_eq (by omega)

variable {syms : List (Word × Str)} {base : Word}

theorem argText_inj (hs : ClearSyms syms) {a a' : Arg} (hk : Alike a a' = true) (hn : Named a = true) (hn' : Named a' = true)
    (h : argText (fun a => syms.lookup a) base a = argText (fun a => syms.lookup a) base a') : a = a' := by
  cases a <;> cases a' <;> simp only [Alike, Bool.false_eq_true] at hk
  case gpr.gpr => exact congrArg _ (gprText_inj _ _ h)
  case fpr.fpr => exact congrArg _ (fprText_inj _ _ h)
  case c0.c0 => exact congrArg _ (c0Text_inj _ _ hn hn' h)
  case sa.sa => exact congrArg _ (BitVec.eq_of_toNat_eq (hexText_inj h))
  case simm.simm => exact congrArg _ (BitVec.eq_of_toInt_eq (intText_inj h))
  case uimm.uimm => exact congrArg _ (BitVec.eq_of_toNat_eq (hexText_inj h))
  case off.off => exact congrArg _ (BitVec.eq_of_toInt_eq (intText_inj h))
  case mem.mem v b v' b' =>
    simp only [argText, List.append_assoc, List.singleton_append] at h
    have h : intText v.toInt ++ '(' :: (gprText b ++ c!")") = intText v'.toInt ++ '(' :: (gprText b' ++ c!")") := h
    obtain ⟨h1, h2⟩ := first_unique h (intText_has _).2 (intText_has _).2
    rw [BitVec.eq_of_toInt_eq (intText_inj h1), gprText_inj _ _ (List.append_cancel_right h2)]
  case cop.cop => exact congrArg _ (BitVec.eq_of_toNat_eq (hexText_inj h))
  case code.code => exact congrArg _ (BitVec.eq_of_toNat_eq (hexText_inj h))
  case target.target t t' =>
    have h : (match syms.lookup (jumpAddr base t) with | some name => name | none => hexTextU (jumpAddr base t).toNat) =
      (match syms.lookup (jumpAddr base t') with | some name => name | none => hexTextU (jumpAddr base t').toNat) := h
    refine congrArg _ (jumpAddr_inj (base := base) ?_)
    cases h1 : syms.lookup (jumpAddr base t) with
    | none =>
      cases h2 : syms.lookup (jumpAddr base t') with
      | none => rw [h1, h2] at h; exact BitVec.eq_of_toNat_eq (hexTextU_inj h)
      | some n => rw [h1, h2] at h; exact absurd h.symm (hs.names _ (lookup_snd h2) _)
    | some n =>
      cases h2 : syms.lookup (jumpAddr base t') with
      | none => rw [h1, h2] at h; exact absurd h (hs.names _ (lookup_snd h1) _)
      | some n' =>
        rw [h1, h2] at h
        have h : n = n' := h
        subst h
        exact hs.different _ _ _ h1 h2

theorem argText_comma {a : Arg} (h : ∀ t, a ≠ .target t) : ',' ∉ argText (fun a => syms.lookup a) base a := by
  cases a with
  | gpr r => exact gprText_has r
  | fpr r => exact fprText_has r
  | c0 r =>
    have : ∀ r : BitVec 5, ',' ∉ (c0Names.lookup r.toNat).getD [] := by decide
    exact this r
  | sa v => exact (hexText_has _).1
  | simm v => exact (intText_has _).1
  | uimm v => exact (hexText_has _).1
  | off v => exact (intText_has _).1
  | mem v b =>
    intro hc
    simp only [argText, List.mem_append] at hc
    rcases hc with ((hc | hc) | hc) | hc
    · exact (intText_has _).1 hc
    · revert hc; decide
    · exact gprText_has _ hc
    · revert hc; decide
  | cop v => exact (hexText_has _).1
  | code v => exact (hexText_has _).1
  | target t => exact absurd rfl (h t)

/-! ### Lists of operands -/

theorem inter_inj : ∀ (l l' : List Str), (∀ t ∈ l, ',' ∉ t) → (∀ t ∈ l', ',' ∉ t) → l ≠ [] → l' ≠ [] →
    c!", ".intercalate l = c!", ".intercalate l' → l = l'
  | [], _, _, _, h, _, _ => absurd rfl h
  | _, [], _, _, _, h, _ => absurd rfl h
  | [a], [b], _, _, _, _, h => by simpa [List.intercalate] using h
  | [a], b :: c :: l, ha, _, _, _, h => by
    exfalso
    have h : a = b ++ ',' :: ' ' :: c!", ".intercalate (c :: l) := by simpa [List.intercalate, List.intersperse] using h
    exact ha a (by simp) (by rw [h]; simp)
  | b :: c :: l, [a], _, ha, _, _, h => by
    exfalso
    have h : b ++ ',' :: ' ' :: c!", ".intercalate (c :: l) = a := by simpa [List.intercalate, List.intersperse] using h
    exact ha a (by simp) (by rw [← h]; simp)
  | a :: b :: l, a' :: b' :: l', ha, ha', _, _, h => by
    have h : a ++ ',' :: (' ' :: c!", ".intercalate (b :: l)) = a' ++ ',' :: (' ' :: c!", ".intercalate (b' :: l')) := by
      simpa [List.intercalate, List.intersperse] using h
    obtain ⟨h1, h2⟩ := first_unique h (ha a (by simp)) (ha' a' (by simp))
    rw [h1, inter_inj (b :: l) (b' :: l') (fun t ht => ha t (by simp [ht])) (fun t ht => ha' t (by simp [ht])) (by simp) (by simp)
      (List.cons.inj h2).2]

/-- lists of operands of the same form -/
inductive AllAlike : List Arg → List Arg → Prop
  | nil : AllAlike [] []
  | cons {a a' : Arg} {as as' : List Arg} (h : Alike a a' = true) (t : AllAlike as as') : AllAlike (a :: as) (a' :: as')

theorem AllAlike.length_eq : ∀ {as as' : List Arg}, AllAlike as as' → as.length = as'.length
  | _, _, .nil => rfl
  | _, _, .cons _ t => by simp [t.length_eq]

theorem map_inj_alike {f : Arg → Str} : ∀ {as as' : List Arg}, AllAlike as as' →
    (∀ a ∈ as, ∀ a' ∈ as', Alike a a' = true → f a = f a' → a = a') → as.map f = as'.map f → as = as'
  | _, _, .nil, _, _ => rfl
  | a :: as, a' :: as', .cons h t, hi, he => by
    obtain ⟨e1, e2⟩ := List.cons.inj he
    rw [hi a (by simp) a' (by simp) h e1,
      map_inj_alike t (fun x hx y hy => hi x (List.mem_cons_of_mem _ hx) y (List.mem_cons_of_mem _ hy)) e2]

theorem shown_inj {f : Arg → Str} {mn : Str} {as as' : List Arg} (hk : AllAlike as as')
    (hi : ∀ a ∈ as, ∀ a' ∈ as', Alike a a' = true → f a = f a' → a = a')
    (he : (shown mn as).map f = (shown mn as').map f) : as = as' := by
  have plainC : ∀ {bs : List Arg}, bs ≠ [.code 0] → (∀ rs, bs = [.gpr 31, .gpr rs] → mn ≠ c!"jalr") → shown mn bs = bs := by
    intro bs h1 h2
    unfold shown
    rw [if_neg h1]
    split
    · rename_i rs
      exact if_neg (h2 rs rfl)
    · rfl
  by_cases c1 : as = [.code 0]
  · subst c1
    obtain ⟨a', rfl⟩ : ∃ a', as' = [a'] := by
      cases hk with | cons h t => cases t; exact ⟨_, rfl⟩
    by_cases c2 : a' = .code 0
    · rw [c2]
    · rw [plainC (bs := [a']) (by simpa using c2) (by simp)] at he
      simp [shown] at he
  by_cases c2 : as' = [.code 0]
  · subst c2
    obtain ⟨a', rfl⟩ : ∃ a', as = [a'] := by
      cases hk with | cons h t => cases t; exact ⟨_, rfl⟩
    rw [plainC (bs := [a']) (by simpa using c1) (by simp)] at he
    simp [shown] at he
  by_cases cm : mn = c!"jalr"
  · by_cases d1 : ∃ rs, as = [.gpr 31, .gpr rs]
    · obtain ⟨rs, rfl⟩ := d1
      by_cases d2 : ∃ rs', as' = [.gpr 31, .gpr rs']
      · obtain ⟨rs', rfl⟩ := d2
        have : f (.gpr rs) = f (.gpr rs') := by simpa [shown, cm] using he
        have := hi (.gpr rs) (by simp) (.gpr rs') (by simp) rfl this
        rw [this]
      · rw [plainC c2 (fun rs h => absurd ⟨rs, h⟩ d2)] at he
        have := congrArg List.length he
        simp [shown, cm] at this
        have := hk.length_eq
        simp at this
        omega
    · by_cases d2 : ∃ rs', as' = [.gpr 31, .gpr rs']
      · obtain ⟨rs', rfl⟩ := d2
        rw [plainC c1 (fun rs h => absurd ⟨rs, h⟩ d1)] at he
        have := congrArg List.length he
        simp [shown, cm] at this
        have := hk.length_eq
        simp at this
        omega
      · rw [plainC c1 (fun rs h => absurd ⟨rs, h⟩ d1), plainC c2 (fun rs h => absurd ⟨rs, h⟩ d2)] at he
        exact map_inj_alike hk hi he
  · rw [plainC c1 (fun _ _ => cm), plainC c2 (fun _ _ => cm)] at he
    exact map_inj_alike hk hi he

/-! ### Lines -/

/-- an instruction, with `g` between the mnemonic and the operands -/
def spaced (syms : List (Word × Str)) (base : Word) (g mn : Str) (as : List Arg) : Str :=
  if shown mn as = [] then mn else mn ++ g ++ c!", ".intercalate ((shown mn as).map (argText (fun a => syms.lookup a) base))

theorem fixA_listed (a : Arg) : fixA a = listed a := by
  cases a <;> simp [fixA, listed, rereadInt]

theorem map_fix (as : List Arg) : as.map fixA = as.map listed := List.map_congr_left fun a _ => fixA_listed a

theorem col_spaced (mn : Str) (args : List Arg) : colInst (fun a => syms.lookup a) base mn args = spaced syms base (gap mn) mn (args.map listed) := by
  unfold colInst spaced
  rw [← map_fix, shown_fix]
  by_cases h : shown mn args = []
  · rw [if_pos h, if_pos (by rw [h]; rfl)]
  · rw [if_neg h, if_neg (by simpa using h), List.map_map]
    congr 3
    funext a
    exact argCol_fix _ _ a

/-- the operands of an instruction that is seen -/
def Operands' (r : Isa.Row) (as : List Arg) : Prop := ∃ v, as = (argsOf v r.syn).map listed ∧ ∀ a ∈ as, Named a = true

theorem listed_named (a : Arg) : Named (listed a) = Named a := by cases a <;> rfl

theorem cp0_rows : ∀ e ∈ cp0Map, ∃ r ∈ table, r.mn = e.1 ∧ r.syn = .none := by decide +kernel

theorem c0Arg_mem {w : Word} : ∀ s : Syn, (c0Arg (argsOf w s) = none → ∀ a ∈ argsOf w s, Named a = true) ∧
    ∀ r, c0Arg (argsOf w s) = some r → (c0Names.lookup r.toNat).isSome = true → ∀ a ∈ argsOf w s, Named a = true := by
  intro s
  cases s <;> simp [argsOf, c0Arg, Named]
  exact fun x h => ⟨x, h⟩

theorem seen_inst (hs : PlainSyms syms) {w : Word} {mn : Str} {as : List Arg} (h : seen w = .inst mn as) :
    ∃ r ∈ table, r.mn = mn ∧ Operands' r as ∧ colText (fun a => syms.lookup a) base w = spaced syms base (gap mn) mn as ∧
      squash (colText (fun a => syms.lookup a) base w) = spaced syms base c!" " mn as := by
  have main : ∀ mn' args, decoding w = some (mn', args) → (∀ a ∈ args, Named a = true) → mn' = mn → args.map listed = as →
      colText (fun a => syms.lookup a) base w = colInst (fun a => syms.lookup a) base mn' args →
      ∃ r ∈ table, r.mn = mn ∧ Operands' r as ∧ colText (fun a => syms.lookup a) base w = spaced syms base (gap mn) mn as ∧
      squash (colText (fun a => syms.lookup a) base w) = spaced syms base c!" " mn as := by
    rintro mn' args hd hn rfl rfl hc
    obtain ⟨r, h1, h2, h3⟩ := decoding_row hd
    refine ⟨r, h1, h2, ⟨w, by rw [h3], ?_⟩, by rw [hc, col_spaced], ?_⟩
    · intro a ha
      obtain ⟨b, hb, rfl⟩ := List.mem_map.1 ha
      rw [listed_named]; exact hn b hb
    · rw [hc, ← h2, col_squash hs base h1, map_fix]
      rfl
  unfold seen at h
  cases hd : decoding w with
  | none =>
    rw [hd] at h
    dsimp only at h
    split at h
    · rename_i hc
      split at h
      · rename_i mn' n hf
        simp only [Seen.inst.injEq] at h
        obtain ⟨rfl, rfl⟩ := h
        have hm := List.mem_of_find?_eq_some hf
        obtain ⟨r, h1, h2, h3⟩ := cp0_rows _ hm
        have h2 : r.mn = mn' := h2
        have hct : colText (fun a => syms.lookup a) base w = mn' := by
          unfold colText
          rw [hd]
          dsimp only
          rw [if_pos hc, hf]
        have hsh : shown mn' [] = [] := rfl
        refine ⟨r, h1, h2, ⟨0, by rw [h3]; rfl, by simp⟩, ?_, ?_⟩
        · rw [hct]; unfold spaced; rw [if_pos hsh]
        · rw [hct]; unfold spaced; rw [if_pos hsh]
          exact cp0_neat _ hm
      · cases h
    · cases h
  | some p =>
    obtain ⟨mn', args⟩ := p
    rw [hd] at h
    dsimp only at h
    obtain ⟨r, h1, h2, h3⟩ := decoding_row hd
    split at h
    · rename_i q hq
      split at h
      · rename_i hsome
        simp only [Seen.inst.injEq] at h
        refine main mn' args hd ?_ h.1 h.2 ?_
        · rw [h3] at hq ⊢
          exact (c0Arg_mem r.syn).2 q hq hsome
        · unfold colText
          rw [hd]
          dsimp only
          rw [hq]
          dsimp only
          rw [if_pos hsome]
      · cases h
    · rename_i hq
      simp only [Seen.inst.injEq] at h
      refine main mn' args hd ?_ h.1 h.2 ?_
      · rw [h3] at hq ⊢
        exact (c0Arg_mem r.syn).1 hq
      · unfold colText
        rw [hd]
        dsimp only
        rw [hq]

theorem word_squash (w : Word) (X : Str) : ∃ rest, squash (colWord w ++ X) = c!".word" ++ c!" " ++ hex8 w ++ rest := by
  refine ⟨squash X, ?_⟩
  have e : colWord w ++ X = c!".word" ++ gap c!".word" ++ (hex8 w ++ X) := by simp [colWord]
  rw [e, squash_pad _ _ _ (by unfold NoWs; decide) (by decide) (by decide), List.append_assoc, squash_no _ _ (by decide)]
  have : squash (c!" " ++ (hex8 w ++ X)) = ' ' :: squash (hex8 w ++ X) := squash_space _ (by intro c hc; simp [hex8] at hc; subst hc; decide)
  rw [this, squash_no _ _ (hex8_noWs w)]
  simp

theorem seen_word {w v : Word} (h : seen w = .word v) : v = w ∧
    (∃ rest, colText (fun a => syms.lookup a) base w = c!".word" ++ gap c!".word" ++ hex8 w ++ rest) ∧
    ∃ rest, squash (colText (fun a => syms.lookup a) base w) = c!".word" ++ c!" " ++ hex8 w ++ rest := by
  have fin : ∀ X, colText (fun a => syms.lookup a) base w = colWord w ++ X →
    (∃ rest, colText (fun a => syms.lookup a) base w = c!".word" ++ gap c!".word" ++ hex8 w ++ rest) ∧
    ∃ rest, squash (colText (fun a => syms.lookup a) base w) = c!".word" ++ c!" " ++ hex8 w ++ rest := by
    intro X e
    refine ⟨⟨X, by rw [e]; rfl⟩, ?_⟩
    rw [e]
    exact word_squash w X
  unfold seen at h
  cases hd : decoding w with
  | none =>
    rw [hd] at h
    dsimp only at h
    split at h
    · rename_i hc
      split at h
      · cases h
      · rename_i hf
        simp only [Seen.word.injEq] at h
        refine ⟨h.symm, fin [] ?_⟩
        unfold colText
        rw [hd]
        dsimp only
        rw [if_pos hc, hf, List.append_nil]
    · rename_i hc
      simp only [Seen.word.injEq] at h
      refine ⟨h.symm, fin [] ?_⟩
      unfold colText
      rw [hd]
      dsimp only
      rw [if_neg hc, List.append_nil]
  | some p =>
    obtain ⟨mn', args⟩ := p
    rw [hd] at h
    dsimp only at h
    split at h
    · rename_i q hq
      split at h
      · cases h
      · rename_i hsome
        simp only [Seen.word.injEq] at h
        refine ⟨h.symm, fin (c!"          # " ++ mn' ++ gap mn' ++ gprText (fRt w) ++ c!", 0x" ++
          [Nat.digitChar (q.toNat / 16), Nat.digitChar (q.toNat % 16)]) ?_⟩
        unfold colText
        rw [hd]
        dsimp only
        rw [hq]
        dsimp only
        rw [if_neg hsome]
        simp
    · cases h

theorem firstWs_unique {a b X Y : Str} (ha : NoWs a) (hb : NoWs b) (hX : ∀ c, X.head? = some c → isWs c = true)
    (hY : ∀ c, Y.head? = some c → isWs c = true) (h : a ++ X = b ++ Y) : a = b ∧ X = Y := by
  induction a generalizing b with
  | nil =>
    cases b with
    | nil => exact ⟨rfl, h⟩
    | cons d b =>
      have h : X = d :: (b ++ Y) := h
      have := hX d (by rw [h]; rfl)
      rw [hb d (by simp)] at this
      cases this
  | cons c a ih =>
    cases b with
    | nil =>
      have h : c :: (a ++ X) = Y := h
      have := hY c (by rw [← h]; rfl)
      rw [ha c (by simp)] at this
      cases this
    | cons d b =>
      obtain ⟨h1, h2⟩ := List.cons.inj h
      obtain ⟨e1, e2⟩ := ih (fun x hx => ha x (by simp [hx])) (fun x hx => hb x (by simp [hx])) h2
      exact ⟨by rw [h1, e1], e2⟩

/-- a gap -/
def IsGap (g : Str) : Prop := g ≠ [] ∧ ∀ c ∈ g, isWs c = true

theorem gap_head {g : Str} (h : IsGap g) (X : Str) : ∀ c, (g ++ X).head? = some c → isWs c = true := by
  obtain ⟨h1, h2⟩ := h
  cases g with
  | nil => exact absurd rfl h1
  | cons d g => intro c hc; simp at hc; exact hc ▸ h2 d (by simp)

theorem spaced_split (g mn : Str) (as : List Arg) (hg : IsGap g) : ∃ X, spaced syms base g mn as = mn ++ X ∧ (∀ c, X.head? = some c → isWs c = true) ∧
    ((shown mn as = [] ∧ X = []) ∨ (shown mn as ≠ [] ∧ X = g ++ c!", ".intercalate ((shown mn as).map (argText (fun a => syms.lookup a) base)))) := by
  unfold spaced
  split
  · exact ⟨[], by simp, by simp, .inl ⟨by assumption, rfl⟩⟩
  · exact ⟨_, List.append_assoc _ _ _, gap_head hg _, .inr ⟨by assumption, rfl⟩⟩

theorem alike_args (v v' : Word) (s : Syn) : AllAlike ((argsOf v s).map listed) ((argsOf v' s).map listed) := by
  cases s <;> simp only [argsOf, List.map_cons, List.map_nil] <;> repeat (first | exact .nil | refine .cons rfl ?_)

theorem target_row (v : Word) (s : Syn) : (s = .target ∧ (argsOf v s).map listed = [.target (fTarget v)]) ∨
    (s ≠ .target ∧ ∀ a ∈ (argsOf v s).map listed, ∀ t, a ≠ .target t) := by
  cases s <;> simp [argsOf, listed]

theorem row_unique {r r' : Isa.Row} (h : r ∈ table) (h' : r' ∈ table) (e : r.mn = r'.mn) : r = r' := by
  have : ∀ {l : List Isa.Row}, l.Pairwise (fun a b => a.mn ≠ b.mn) → r ∈ l → r' ∈ l → r = r' := by
    intro l
    induction l with
    | nil => intro _ h; cases h
    | cons x l ih =>
      intro hp h1 h2
      rw [List.pairwise_cons] at hp
      rcases List.mem_cons.1 h1 with g1 | g1 <;> rcases List.mem_cons.1 h2 with g2 | g2
      · rw [g1, g2]
      · exact absurd (g1 ▸ e) (hp.1 _ g2)
      · exact absurd (g2 ▸ e).symm (hp.1 _ g1)
      · exact ih hp.2 g1 g2
  exact this Isa.table_names h h'

theorem spaced_inj (hs : ClearSyms syms) {G : Str → Str} (hG : ∀ r ∈ table, IsGap (G r.mn)) {r r' : Isa.Row} (hr : r ∈ table) (hr' : r' ∈ table)
    {as as' : List Arg} (ho : Operands' r as) (ho' : Operands' r' as')
    (h : spaced syms base (G r.mn) r.mn as = spaced syms base (G r'.mn) r'.mn as') : r = r' ∧ as = as' := by
  obtain ⟨X, e1, e2, e3⟩ := spaced_split (syms := syms) (base := base) (G r.mn) r.mn as (hG r hr)
  obtain ⟨Y, f1, f2, f3⟩ := spaced_split (syms := syms) (base := base) (G r'.mn) r'.mn as' (hG r' hr')
  rw [e1, f1] at h
  obtain ⟨hm, hXY⟩ := firstWs_unique (mn_noWs r hr).1 (mn_noWs r' hr').1 e2 f2 h
  have hrr := row_unique hr hr' hm
  subst hrr
  refine ⟨rfl, ?_⟩
  subst hXY
  obtain ⟨v, rfl, hn⟩ := ho
  obtain ⟨v', rfl, hn'⟩ := ho'
  refine shown_inj (f := argText (fun a => syms.lookup a) base) (mn := r.mn) (alike_args v v' r.syn)
    (fun a ha a' ha' hk he => argText_inj hs hk (hn a ha) (hn' a' ha') he) ?_
  have hg := (hG r hr).1
  rcases e3 with ⟨x1, x2⟩ | ⟨x1, x2⟩ <;> rcases f3 with ⟨y1, y2⟩ | ⟨y1, y2⟩
  · rw [x1, y1]
  · rw [x2] at y2
    have := (List.append_eq_nil_iff.1 y2.symm).1
    exact absurd this hg
  · rw [y2] at x2
    have := (List.append_eq_nil_iff.1 x2.symm).1
    exact absurd this hg
  · rw [x2] at y2
    have y2 := List.append_cancel_left y2
    rcases target_row v r.syn with ⟨t1, t2⟩ | ⟨t1, t2⟩
    · rcases target_row v' r.syn with ⟨u1, u2⟩ | ⟨u1, u2⟩
      · rw [t2, u2] at y2 ⊢
        simpa [shown, List.intercalate] using y2
      · exact absurd t1 u1
    · rcases target_row v' r.syn with ⟨u1, u2⟩ | ⟨u1, u2⟩
      · exact absurd u1 t1
      · refine inter_inj _ _ ?_ ?_ (by simpa using x1) (by simpa using y1) y2
        · intro t ht
          obtain ⟨a, ha, rfl⟩ := List.mem_map.1 ht
          exact argText_comma (t2 a (shown_sub a ha))
        · intro t ht
          obtain ⟨a, ha, rfl⟩ := List.mem_map.1 ht
          exact argText_comma (u2 a (shown_sub a ha))

theorem hex8_inj8 {w v : Word} {X Y : Str} (h : hex8 w ++ X = hex8 v ++ Y) : w = v := by
  have hl : ∀ w : Word, (hex8 w).length = 10 := fun w => by simp [hex8]
  have := (List.append_inj h (by rw [hl, hl])).1
  apply funcName_inj
  unfold funcName
  unfold hex8 at this ⊢
  rw [this]

theorem word_not : ∀ r ∈ table, r.mn ≠ c!".word" := by decide +kernel

/-- Lines are equal exactly if the same is seen. -/
theorem line_seen (hs : ClearSyms syms) (w w' : Word) :
    (colText (fun a => syms.lookup a) base w = colText (fun a => syms.lookup a) base w' ↔ seen w = seen w') ∧
    (squash (colText (fun a => syms.lookup a) base w) = squash (colText (fun a => syms.lookup a) base w') ↔ seen w = seen w') := by
  have hp : PlainSyms syms := hs.plain
  have hG1 : ∀ r ∈ table, IsGap (gap r.mn) := table_gap'
  have hG2 : ∀ r ∈ table, IsGap ((fun _ => c!" ") r.mn) := fun _ _ => (⟨by decide, by decide⟩ : IsGap c!" ")
  have mix : ∀ {r : Isa.Row} {as : List Arg} {g g' : Str} {v : Word} {X : Str}, r ∈ table → IsGap g → IsGap g' →
      spaced syms base g r.mn as ≠ c!".word" ++ g' ++ hex8 v ++ X := by
    intro r as g g' v X hr hg hg' h
    obtain ⟨Y, e1, e2, _⟩ := spaced_split (syms := syms) (base := base) g r.mn as hg
    rw [e1, List.append_assoc, List.append_assoc] at h
    exact word_not r hr (firstWs_unique (mn_noWs r hr).1 (by unfold NoWs; decide) e2 (gap_head hg' _) h).1
  have hgw : IsGap (gap c!".word") := ⟨by decide, by decide⟩
  have hgs : IsGap c!" " := ⟨by decide, by decide⟩
  cases h : seen w with
  | inst mn as =>
    obtain ⟨r, a1, rfl, a3, a4, a5⟩ := seen_inst (base := base) hp h
    cases h' : seen w' with
    | inst mn' as' =>
      obtain ⟨r', b1, rfl, b3, b4, b5⟩ := seen_inst (base := base) hp h'
      rw [a5, b5, a4, b4]
      refine ⟨⟨fun e => ?_, fun e => ?_⟩, fun e => ?_, fun e => ?_⟩
      · obtain ⟨rfl, rfl⟩ := spaced_inj hs hG1 a1 b1 a3 b3 e; rfl
      · simp only [Seen.inst.injEq] at e
        rw [e.1, e.2]
      · obtain ⟨rfl, rfl⟩ := spaced_inj (G := fun _ => c!" ") hs hG2 a1 b1 a3 b3 e; rfl
      · simp only [Seen.inst.injEq] at e
        rw [e.1, e.2]
    | word v' =>
      obtain ⟨_, ⟨X, b4⟩, Y, b5⟩ := seen_word (syms := syms) (base := base) h'
      rw [a5, b5, a4, b4]
      exact ⟨⟨fun e => absurd e (mix a1 (hG1 r a1) hgw), fun e => (by cases e)⟩, fun e => absurd e (mix a1 hgs hgs), fun e => (by cases e)⟩
  | word v =>
    obtain ⟨rfl, ⟨X, a4⟩, Y, a5⟩ := seen_word (syms := syms) (base := base) h
    cases h' : seen w' with
    | inst mn' as' =>
      obtain ⟨r', b1, rfl, b3, b4, b5⟩ := seen_inst (base := base) hp h'
      rw [a5, b5, a4, b4]
      exact ⟨⟨fun e => absurd e.symm (mix b1 (hG1 r' b1) hgw), fun e => (by cases e)⟩, fun e => absurd e.symm (mix b1 hgs hgs), fun e => (by cases e)⟩
    | word v' =>
      obtain ⟨rfl, ⟨X', b4⟩, Y', b5⟩ := seen_word (syms := syms) (base := base) h'
      refine ⟨⟨fun e => ?_, fun e => ?_⟩, fun e => ?_, fun e => ?_⟩
      · rw [a4, b4, List.append_assoc, List.append_assoc _ (hex8 v')] at e
        have := hex8_inj8 (List.append_cancel_left e)
        rw [this]
      · simp only [Seen.word.injEq] at e
        rw [e]
      · rw [a5, b5, List.append_assoc, List.append_assoc _ (hex8 v')] at e
        have := hex8_inj8 (List.append_cancel_left e)
        rw [this]
      · simp only [Seen.word.injEq] at e
        rw [e]

/-! ### Listings -/

theorem jr_row : ∀ r ∈ table, (r.mn = c!"jr" ↔ r.code = .special 8#6) ∧ (r.mn = c!"j" ↔ r.code = .main 2#6) ∧ (r.mn = c!"j" → r.syn = .target) := by
  decide +kernel

theorem cp0_not : ∀ e ∈ cp0Map, e.1 ≠ c!"jr" ∧ e.1 ≠ c!"j" := by decide

theorem codeOf_jr (w : Word) : (codeOf w = .special 8#6 ↔ fOp w = 0#6 ∧ fFn w = 8#6) ∧ (codeOf w = .main 2#6 ↔ fOp w = 2#6) := by
  unfold codeOf
  by_cases h0 : fOp w = 0#6
  · rw [if_pos h0]
    refine ⟨by simp [h0], ⟨fun h => (by cases h), fun h => ?_⟩⟩
    rw [h0] at h; exact absurd h (by decide)
  rw [if_neg h0]
  by_cases h1 : fOp w = 1#6
  · rw [if_pos h1]
    refine ⟨⟨fun h => (by cases h), fun h => absurd h.1 h0⟩, ⟨fun h => (by cases h), fun h => ?_⟩⟩
    rw [h1] at h; exact absurd h (by decide)
  rw [if_neg h1]
  by_cases h2 : fOp w = copOp 0
  · rw [if_pos h2]
    refine ⟨⟨fun h => ?_, fun h => absurd h.1 h0⟩, ⟨fun h => ?_, fun h => ?_⟩⟩
    · split at h
      · cases h
      · split at h <;> cases h
    · split at h
      · cases h
      · split at h <;> cases h
    · rw [h2] at h; exact absurd h (by decide)
  rw [if_neg h2]
  by_cases h3 : fOp w = copOp 1
  · rw [if_pos h3]
    refine ⟨⟨fun h => ?_, fun h => absurd h.1 h0⟩, ⟨fun h => ?_, fun h => ?_⟩⟩
    · split at h
      · cases h
      · split at h <;> cases h
    · split at h
      · cases h
      · split at h <;> cases h
    · rw [h3] at h; exact absurd h (by decide)
  rw [if_neg h3]
  refine ⟨⟨fun h => (by cases h), fun h => absurd h.1 h0⟩, ⟨fun h => ?_, fun h => by rw [h]⟩⟩
  simpa using h

theorem decoding_code {w : Word} {mn : Str} {args : List Arg} (h : decoding w = some (mn, args)) :
    ∃ r ∈ table, r.mn = mn ∧ args = argsOf w r.syn ∧ r.code = codeOf w := by
  unfold decoding at h
  rw [Option.map_eq_some_iff] at h
  obtain ⟨r, h1, h2⟩ := h
  simp only [Prod.mk.injEq] at h2
  exact ⟨r, List.mem_of_find?_eq_some h1, h2.1, h2.2.symm, by simpa using List.find?_some h1⟩

theorem seen_jumps {w : Word} {mn : Str} {as : List Arg} (h : seen w = .inst mn as) :
    (fOp w = 0#6 ∧ fFn w = 8#6 ↔ mn = c!"jr") ∧ (fOp w = 2#6 ↔ mn = c!"j") ∧ (mn = c!"j" → as = [.target (fTarget w)]) := by
  have main : ∀ mn' args, decoding w = some (mn', args) → mn' = mn → args.map listed = as →
      (fOp w = 0#6 ∧ fFn w = 8#6 ↔ mn = c!"jr") ∧ (fOp w = 2#6 ↔ mn = c!"j") ∧ (mn = c!"j" → as = [.target (fTarget w)]) := by
    rintro mn' args hd rfl rfl
    obtain ⟨r, h1, rfl, h3, h4⟩ := decoding_code hd
    obtain ⟨j1, j2, j3⟩ := jr_row r h1
    obtain ⟨c1, c2⟩ := codeOf_jr w
    rw [← c1, ← c2, ← h4]
    exact ⟨j1.symm, j2.symm, fun e => by rw [h3, j3 e]; rfl⟩
  unfold seen at h
  cases hd : decoding w with
  | none =>
    rw [hd] at h
    dsimp only at h
    split at h
    · rename_i hc
      split at h
      · rename_i mn' n hf
        simp only [Seen.inst.injEq] at h
        obtain ⟨rfl, rfl⟩ := h
        have hm := cp0_not _ (List.mem_of_find?_eq_some hf)
        refine ⟨⟨fun e => ?_, fun e => absurd e hm.1⟩, ⟨fun e => ?_, fun e => absurd e hm.2⟩, fun e => absurd e hm.2⟩
        · have e := e.1
          rw [hc.1] at e; exact absurd e (by decide)
        · rw [hc.1] at e; exact absurd e (by decide)
      · cases h
    · cases h
  | some p =>
    obtain ⟨mn', args⟩ := p
    rw [hd] at h
    dsimp only at h
    split at h
    · split at h
      · simp only [Seen.inst.injEq] at h
        exact main _ _ hd h.1 h.2
      · cases h
    · simp only [Seen.inst.injEq] at h
      exact main _ _ hd h.1 h.2

theorem seen_leaves {w w' : Word} (h : seen w = seen w') (lo i : Nat) : leavesAt base lo i w = leavesAt base lo i w' := by
  cases hw : seen w with
  | word v =>
    have e1 := (seen_word (syms := []) (base := 0) hw).1
    have e2 := (seen_word (syms := []) (base := 0) (h ▸ hw)).1
    rw [← e1, ← e2]
  | inst mn as =>
    obtain ⟨a1, a2, a3⟩ := seen_jumps hw
    obtain ⟨b1, b2, b3⟩ := seen_jumps (h ▸ hw)
    unfold leavesAt
    have e1 : (decide (fOp w = 0#6) && decide (fFn w = 8#6)) = (decide (fOp w' = 0#6) && decide (fFn w' = 8#6)) := by
      rw [← Bool.decide_and, ← Bool.decide_and]
      exact decide_eq_decide.2 (a1.trans b1.symm)
    rw [e1]
    by_cases hj : mn = c!"j"
    · have t := (a3 hj).symm.trans (b3 hj)
      simp only [List.cons.injEq, Arg.target.injEq, and_true] at t
      rw [t, decide_eq_decide.2 (a2.trans b2.symm)]
    · have n1 : ¬ fOp w = 2#6 := fun e => hj (a2.1 e)
      have n2 : ¬ fOp w' = 2#6 := fun e => hj (b2.1 e)
      rw [decide_eq_false n1, decide_eq_false n2, Bool.false_and, Bool.false_and]

theorem seen_trail {ws ws' : List Word} (n : Nat) (h : ∀ k < n, (ws[k]?).map seen = (ws'[k]?).map seen) :
    ∀ i ≤ n, trail base ws i = trail base ws' i := by
  intro i
  induction i with
  | zero => intro _; rfl
  | succ i ih =>
    intro hi
    have e := ih (by omega)
    have hk := h i (by omega)
    simp only [trail, e]
    split
    · rfl
    · congr 1
      cases h1 : ws[i]? with
      | none =>
        rw [h1] at hk
        cases h2 : ws'[i]? with
        | none => rfl
        | some w' => rw [h2] at hk; cases hk
      | some w =>
        rw [h1] at hk
        cases h2 : ws'[i]? with
        | none => rw [h2] at hk; cases hk
        | some w' =>
          rw [h2] at hk
          exact seen_leaves (by simpa using hk) _ _

theorem render_seen {label : Nat → Str} (hs : ClearSyms syms) (ws ws' : List Word) :
    ∀ (rest rest' : List Word) (i : Nat), ws.drop i = rest → ws'.drop i = rest' →
      (∀ k < i, (ws[k]?).map seen = (ws'[k]?).map seen) →
      render label (fun i => (trail base ws i).2) i (rest.map (colText (fun a => syms.lookup a) base)) =
        render label (fun i => (trail base ws' i).2) i (rest'.map (colText (fun a => syms.lookup a) base)) →
      rest.map seen = rest'.map seen
  | [], [], _, _, _, _, _ => rfl
  | [], b :: rest', i, _, _, _, h => by simp [render] at h
  | a :: rest, [], i, _, _, _, h => by simp [render] at h
  | a :: rest, b :: rest', i, e, e', hk, h => by
    simp only [List.map_cons, render, List.cons.injEq] at h
    obtain ⟨h1, h2⟩ := h
    have hab := (line_seen (base := base) hs a b).1.1 h1
    have get : ∀ {l : List Word} {x : Word} {r : List Word}, l.drop i = x :: r → l[i]? = some x ∧ l.drop (i + 1) = r := by
      intro l x r hl
      constructor
      · have := List.getElem?_drop (xs := l) (i := i) (j := 0)
        rw [hl] at this
        simpa using this.symm
      · rw [← List.drop_drop, hl]; rfl
    obtain ⟨g1, g2⟩ := get e
    obtain ⟨g1', g2'⟩ := get e'
    have hk' : ∀ k < i + 1, (ws[k]?).map seen = (ws'[k]?).map seen := by
      intro k hk1
      by_cases hki : k = i
      · subst hki; rw [g1, g1']; simpa using hab
      · exact hk k (by omega)
    have ht := seen_trail (base := base) i hk i (Nat.le_refl _)
    rw [List.map_cons, List.map_cons, hab]
    congr 1
    refine render_seen (label := label) hs ws ws' rest rest' (i + 1) g2 g2' hk' ?_
    rw [ht] at h2
    cases hb : (trail base ws' i).2 with
    | false =>
      rw [hb] at h2
      simpa using h2
    | true =>
      rw [hb] at h2
      cases rest with
      | nil => cases rest' with
        | nil => rfl
        | cons c r => simp [render] at h2
      | cons c r => cases rest' with
        | nil => simp [render] at h2
        | cons c' r' => simpa using h2

theorem map_seen_get {ws ws' : List Word} (h : ws.map seen = ws'.map seen) (k : Nat) : (ws[k]?).map seen = (ws'[k]?).map seen := by
  rw [← List.getElem?_map, ← List.getElem?_map, h]

theorem trail_brk_seen {ws ws' : List Word} (h : ws.map seen = ws'.map seen) (i : Nat) : trail base ws i = trail base ws' i :=
  seen_trail i (fun k _ => map_seen_get h k) i (Nat.le_refl _)

/-- **C77.** Two lists of words have the same listing exactly if the same is seen of their words: of an instruction its mnemonic and its operands,
the signed 32767 being shown as -32767; of any other word its number. -/
theorem C77_exact (rt rt' : Rt) (m : Mipsasm) (hs : ClearSyms m.syms) (ws ws' : List Word) (out out' : List Str)
    (h : disassemble rt m ws = some out) (h' : disassemble rt' m ws' = some out') : out = out' ↔ ws.map seen = ws'.map seen := by
  cases hm : m.debug with
  | true =>
    rw [C60_debug rt m hm] at h
    rw [C60_debug rt' m hm] at h'
    cases h; cases h'
    have key : ∀ ws ws' : List Word, ws.map (fun w => squash (colText (fun a => m.syms.lookup a) m.base w)) =
        ws'.map (fun w => squash (colText (fun a => m.syms.lookup a) m.base w)) ↔ ws.map seen = ws'.map seen := by
      intro ws
      induction ws with
      | nil => intro ws'; cases ws' <;> simp
      | cons w ws ih =>
        intro ws'
        cases ws' with
        | nil => simp
        | cons w' ws' => simp only [List.map_cons, List.cons.injEq, ih ws', (line_seen (base := m.base) hs w w').2]
    exact key ws ws'
  | false =>
    have get : ∀ {rt : Rt} {ws : List Word} {out : List Str}, disassemble rt m ws = some out → out = listing (fun a => m.syms.lookup a) m.base ws := by
      intro rt ws out h
      obtain ⟨h1, h2⟩ := C60_listing rt m hm ws
      have hn : ¬ NoListing rt.ovf (fun a => m.syms.lookup a) m.base ws := fun hn => by rw [h1.2 hn] at h; cases h
      rw [h2 hn] at h
      exact (Option.some.inj h).symm
    rw [get h, get h']
    unfold listing
    constructor
    · intro e
      exact render_seen hs ws ws' ws ws' 0 rfl rfl (fun k hk => absurd hk (by omega)) (List.cons.inj e).2
    · intro e
      congr 1
      have e1 : (fun i => (trail m.base ws i).2) = fun i => (trail m.base ws' i).2 := funext fun i => by rw [trail_brk_seen e i]
      have e2 : ws.map (colText (fun a => m.syms.lookup a) m.base) = ws'.map (colText (fun a => m.syms.lookup a) m.base) := by
        apply List.ext_getElem?
        intro k
        have hk := map_seen_get e k
        rw [List.getElem?_map, List.getElem?_map]
        cases h1 : ws[k]? with
        | none =>
          rw [h1] at hk
          cases h2 : ws'[k]? with
          | none => rfl
          | some w' => rw [h2] at hk; cases hk
        | some w =>
          rw [h1] at hk
          cases h2 : ws'[k]? with
          | none => rw [h2] at hk; cases hk
          | some w' =>
            rw [h2] at hk
            exact congrArg some ((line_seen hs w w').1.2 (by simpa using hk))
      rw [e1, e2]

theorem seen_listed_same {a : Arg} (h : topArg a = false) : listed a = a := by
  cases a <;> simp_all [listed, topArg]

theorem seen_canonical {w w' : Word} (h : Canonical w) (ht : ¬ TopImm w) (h' : Canonical w') (ht' : ¬ TopImm w') (e : seen w = seen w') : w = w' := by
  have form : ∀ {w : Word}, Canonical w → ¬ TopImm w → seen w = .word w ∨ ∃ mn args, encoding mn args = some w ∧ seen w = .inst mn args := by
    intro w h ht
    obtain ⟨mn, args, hd, he⟩ := h
    have hl : args.map listed = args := by
      have : args.map listed = args.map id :=
        List.map_congr_left fun a ha => seen_listed_same (Bool.eq_false_iff.2 fun hc => ht ⟨mn, args, hd, a, ha, hc⟩)
      rw [this, List.map_id]
    unfold seen
    rw [hd]
    dsimp only
    rw [hl]
    split
    · split
      · exact .inr ⟨mn, args, he, rfl⟩
      · exact .inl rfl
    · exact .inr ⟨mn, args, he, rfl⟩
  rcases form h ht with h1 | ⟨mn, args, h1, h2⟩ <;> rcases form h' ht' with g1 | ⟨mn', args', g1, g2⟩
  · rw [h1, g1] at e
    simpa using e
  · rw [h1, g2] at e; cases e
  · rw [h2, g1] at e; cases e
  · rw [h2, g2] at e
    simp only [Seen.inst.injEq] at e
    obtain ⟨rfl, rfl⟩ := e
    rw [h1] at g1
    exact Option.some.inj g1

/-- **C77** (partial).  Encodings of instructions with other signed operands than 32767 have the same listing only if they are the same.
Missing: that operand, whose line is also that of -32767 (`C77_wrong`), and words that are no encodings, of which only what is seen is told apart
(`C77_exact`). -/
theorem C77_code_partial (rt rt' : Rt) (m : Mipsasm) (hs : ClearSyms m.syms) (ws ws' : List Word) (hc : ∀ w ∈ ws, Canonical w ∧ ¬ TopImm w)
    (hc' : ∀ w ∈ ws', Canonical w ∧ ¬ TopImm w) (out : List Str) (h : disassemble rt m ws = some out) (h' : disassemble rt' m ws' = some out) :
    ws = ws' := by
  have e := (C77_exact rt rt' m hs ws ws' out out h h').1 rfl
  apply List.ext_getElem?
  intro k
  have hk := map_seen_get e k
  cases h1 : ws[k]? with
  | none =>
    rw [h1] at hk
    cases h2 : ws'[k]? with
    | none => rfl
    | some w' => rw [h2] at hk; cases hk
  | some w =>
    rw [h1] at hk
    cases h2 : ws'[k]? with
    | none => rw [h2] at hk; cases hk
    | some w' =>
      rw [h2] at hk
      have a := hc w (List.mem_of_getElem? h1)
      have b := hc' w' (List.mem_of_getElem? h2)
      rw [seen_canonical a.1 a.2 b.1 b.2 (by simpa using hk)]

/-- **C77** fails for the signed operand 32767, for words with bits set in unused fields, for reserved words that look like a coprocessor 0
instruction, and if the name of a symbol is that of another address. -/
theorem C77_wrong :
    disassemble (idRt true) Mipsasm.new [0x24827fff#32] = disassemble (idRt true) Mipsasm.new [0x24828001#32] ∧
    disassemble (idRt true) Mipsasm.new [0x00430820#32] = disassemble (idRt true) Mipsasm.new [0x00430860#32] ∧
    disassemble (idRt true) Mipsasm.new [0x42000018#32] = disassemble (idRt true) Mipsasm.new [0x41e00018#32] ∧
    disassemble (idRt true) { Mipsasm.new with syms := [(4#32, c!"0x8")] } [0x0c000001#32] =
      disassemble (idRt true) { Mipsasm.new with syms := [(4#32, c!"0x8")] } [0x0c000002#32] := by decide +kernel

/-- A symbol table that meets the condition, and encodings of instructions (one with a symbol, one a branch) that do. -/
example : ClearSyms [(4#32, c!"main"), (8#32, c!"exit")] ∧ Canonical 0x0c000001#32 ∧ Canonical 0x1000ffff#32 ∧
    (∃ out, disassemble (idRt true) { Mipsasm.new with syms := [(4#32, c!"main"), (8#32, c!"exit")] } [0x0c000001#32, 0x1000ffff#32] = some out) ∧
    ¬ TopImm 0x0c000001#32 ∧ ¬ TopImm 0x1000ffff#32 := by
  refine ⟨⟨by decide, ?_, ?_⟩, ⟨_, _, rfl, by decide +kernel⟩, ⟨_, _, rfl, by decide +kernel⟩, ⟨_, rfl⟩, ?_, ?_⟩
  · intro a b n h1 h2
    have g1 := lookup_snd h1
    have g2 := lookup_snd h2
    simp only [List.mem_cons, Prod.mk.injEq, List.not_mem_nil, or_false] at g1 g2
    rcases g1 with ⟨rfl, rfl⟩ | ⟨rfl, rfl⟩ <;> rcases g2 with ⟨rfl, e⟩ | ⟨rfl, e⟩ <;> first | rfl | (revert e; decide)
  · intro e he n
    simp only [List.mem_cons, List.not_mem_nil, or_false] at he
    rcases he with rfl | rfl <;> simp [hexTextU]
  · rintro ⟨mn, args, hd, a, ha, ht⟩
    have e : decoding 0x0c000001#32 = some (c!"jal", [.target 1#26]) := by decide +kernel
    rw [e] at hd
    cases hd
    simp only [List.mem_cons, List.not_mem_nil, or_false] at ha
    subst ha
    revert ht; decide
  · rintro ⟨mn, args, hd, a, ha, ht⟩
    have e : decoding 0x1000ffff#32 = some (c!"beq", [.gpr 0, .gpr 0, .off 0xffff#16]) := by decide +kernel
    rw [e] at hd
    cases hd
    simp only [List.mem_cons, List.not_mem_nil, or_false] at ha
    rcases ha with rfl | rfl | rfl <;> revert ht <;> decide

end Mips
