/-
C38, C39: the command-line tool's byte order and base-address parsing.
-/
import Verif.Model.Main
import Verif.Spec.Report
import Verif.Lemmas.NumInv

namespace Mips
open Syntax Cli

/-! ### C38 -/

/-- Specification of big-endian order: `b0 b1 b2 b3` with `b0` most significant. -/
def BigEndian (w : Word) (b0 b1 b2 b3 : BitVec 8) : Prop :=
  w.toNat = ((b0.toNat * 256 + b1.toNat) * 256 + b2.toNat) * 256 + b3.toNat

/-- Specification: the bytes of a list of words. -/
inductive Stored : List Word → List (BitVec 8) → Prop
  | nil : Stored [] []
  | cons (w ws b0 b1 b2 b3 bs) : BigEndian w b0 b1 b2 b3 → Stored ws bs →
      Stored (w :: ws) (b0 :: b1 :: b2 :: b3 :: bs)

theorem toBe_bigEndian (w : Word) : ∃ a b c d, toBe w = [a, b, c, d] ∧ BigEndian w a b c d := by
  refine ⟨_, _, _, _, rfl, ?_⟩
  unfold BigEndian
  simp only [BitVec.toNat_setWidth, BitVec.toNat_ushiftRight, Nat.shiftRight_eq_div_pow]
  have := w.isLt
  omega

theorem bigEndian_inj {w v : Word} {a b c d : BitVec 8} (h : BigEndian w a b c d) (h' : BigEndian v a b c d) : w = v :=
  BitVec.eq_of_toNat_eq (h.trans h'.symm)

theorem or_shift_toNat (a b c d : BitVec 8) : BigEndian (ofBe a b c d) a b c d := by
  unfold BigEndian ofBe
  have e : (a.setWidth 32 <<< 24 ||| b.setWidth 32 <<< 16 ||| c.setWidth 32 <<< 8 ||| d.setWidth 32 : Word) =
      a ++ b ++ c ++ d := by
    ext i hi
    simp only [BitVec.getElem_or, BitVec.getElem_shiftLeft, BitVec.getElem_append, BitVec.getElem_setWidth]
    simp
    grind
  rw [e]
  simp only [BitVec.toNat_append]
  have h1 : (a.toNat <<< 8 ||| b.toNat) = a.toNat * 256 + b.toNat := by
    rw [← Nat.shiftLeft_add_eq_or_of_lt b.isLt, Nat.shiftLeft_eq]
  have h2 : ((a.toNat * 256 + b.toNat) <<< 8 ||| c.toNat) = (a.toNat * 256 + b.toNat) * 256 + c.toNat := by
    rw [← Nat.shiftLeft_add_eq_or_of_lt c.isLt, Nat.shiftLeft_eq]
  rw [h1, h2, ← Nat.shiftLeft_add_eq_or_of_lt d.isLt, Nat.shiftLeft_eq]

/-- C38: the bytes `asm -o` writes for a list of words are those words in order, big-endian. -/
theorem C38_written_bytes (ws : List Word) : Stored ws (outBytes ws) := by
  induction ws with
  | nil => exact Stored.nil
  | cons w ws ih =>
    obtain ⟨a, b, c, d, e, h⟩ := toBe_bigEndian w
    have : outBytes (w :: ws) = a :: b :: c :: d :: outBytes ws := by
      simp only [outBytes, List.flatMap_cons] at *; rw [e]; rfl
    rw [this]
    exact Stored.cons _ _ _ _ _ _ _ h ih

/-- C38: reading a file yields exactly the words stored in it; a file whose length is not a positive
multiple of four is not read at all (the program panics). -/
theorem C38_read (bs : List (BitVec 8)) (ws : List Word) :
    readWords bs = some ws ↔ Stored ws bs ∧ bs ≠ [] := by
  constructor
  · intro h
    induction bs using readWords.induct generalizing ws with
    | case1 a b c d =>
      simp only [readWords, Option.some.injEq] at h
      subst h
      exact ⟨Stored.cons _ _ _ _ _ _ _ (or_shift_toNat a b c d) Stored.nil, by simp⟩
    | case2 a b c d x rest ih =>
      rw [readWords, Option.map_eq_some_iff] at h
      obtain ⟨vs, h1, rfl⟩ := h
      exact ⟨Stored.cons _ _ _ _ _ _ _ (or_shift_toNat a b c d) (ih vs h1).1, by simp⟩
    | case3 l h3 =>
      unfold readWords at h
      split at h
      · exact (h3 _ _ _ _ _ rfl).elim
      · cases h
  · rintro ⟨h, hne⟩
    induction h with
    | nil => exact absurd rfl hne
    | cons w ws a b c d bs hb hs ih =>
      have hw : ofBe a b c d = w := bigEndian_inj (or_shift_toNat a b c d) hb
      cases bs with
      | nil => cases hs; simp [readWords, hw]
      | cons x bs => rw [readWords, ih (by simp), hw]; rfl

theorem stored_length {ws : List Word} {bs : List (BitVec 8)} (h : Stored ws bs) : bs.length = 4 * ws.length := by
  induction h with
  | nil => rfl
  | cons => simp; omega

/-- C38: a file is readable exactly if its length is a positive multiple of four. -/
theorem C38_readable (bs : List (BitVec 8)) : (readWords bs).isSome ↔ 0 < bs.length ∧ bs.length % 4 = 0 := by
  constructor
  · intro h
    obtain ⟨ws, h⟩ := Option.isSome_iff_exists.1 h
    obtain ⟨h1, h2⟩ := (C38_read bs ws).1 h
    have := stored_length h1
    have := List.length_pos_iff.2 h2
    omega
  · rintro ⟨h0, h4⟩
    suffices h : ∀ n (bs : List (BitVec 8)), bs.length = 4 * n → ∃ ws, Stored ws bs by
      obtain ⟨ws, h⟩ := h (bs.length / 4) bs (by omega)
      rw [(C38_read bs ws).2 ⟨h, by rintro rfl; simp at h0⟩]; rfl
    intro n
    induction n with
    | zero => intro bs h; rw [List.length_eq_zero_iff.1 (show bs.length = 0 by omega)]; exact ⟨[], Stored.nil⟩
    | succ n ih =>
      intro bs h
      match bs, h with
      | a :: b :: c :: d :: bs, h =>
        obtain ⟨ws, hs⟩ := ih bs (by simp at h; omega)
        exact ⟨_, Stored.cons _ _ _ _ _ _ _ (or_shift_toNat a b c d) hs⟩

/-- C38: what `asm -o` writes, `disasm` reads back: whenever `asm -o` succeeds, the file holds the assembled words, and if there are any,
`disasm` of that file lists exactly these words (`disassemble`), with any symbols and base address. -/
theorem C38_round_trip [Unicode] (rt : Rt) (base : Str) (syms : Option (List (Yaml × Yaml))) (data : Str) (o e : Str)
    (bytes : List (BitVec 8)) (h : Cli.main rt ⟨.asm data, true, syms, base⟩ = .exit 0 o e (some (.bytes bytes))) :
    ∃ addr words, parseBase base = some addr ∧
      (assemble rt ((Mipsasm.new.setBase addr).setSymbols (loadSyms syms)) data).words = some words ∧ Stored words bytes ∧
      (words ≠ [] → ∀ syms' base' addr', parseBase base' = some addr' →
        ∀ ls, disassemble rt ((Mipsasm.new.setBase addr').setSymbols (loadSyms syms')) words = some ls →
          Cli.main rt ⟨.disasm bytes, false, syms', base'⟩ = .exit 0 (ls.flatMap fun l => l ++ ['\n']) [] none) := by
  unfold Cli.main at h
  simp only at h
  split at h
  · cases h
  · rename_i addr hb
    split at h
    · cases h
    · split at h <;> cases h
    · rename_i is ws ho
      split at h
      · cases h
      · simp only [if_true, Run.exit.injEq, Option.some.injEq, File.bytes.injEq] at h
        obtain ⟨_, _, _, rfl⟩ := h
        refine ⟨addr, getBytes is, hb, by rw [ho]; rfl, C38_written_bytes _, ?_⟩
        intro hne syms' base' addr' hb' ls hls
        have hr : readWords (outBytes (getBytes is)) = some (getBytes is) := by
          refine (C38_read _ _).2 ⟨C38_written_bytes _, ?_⟩
          intro h0
          have := stored_length (C38_written_bytes (getBytes is))
          rw [h0, List.length_nil] at this
          exact hne (List.length_eq_zero_iff.1 (by omega))
        unfold Cli.main
        simp only [hb', hr, hls]
        rfl

/-- C38: an input that is not a positive multiple of four bytes produces no listing (the real program
panics, which is not the clean rejection a user would expect). -/
theorem C38_no_listing [Unicode] (rt : Rt) (a : Args) (bs : List (BitVec 8)) (hj : a.job = .disasm bs) (addr : Word) (hb : parseBase a.base = some addr)
    (h : ¬(0 < bs.length ∧ bs.length % 4 = 0)) : Cli.main rt a = .panic := by
  unfold Cli.main
  have : readWords bs = none := by
    cases e : readWords bs with
    | none => rfl
    | some ws => exact absurd ((C38_readable bs).1 (by rw [e]; rfl)) h
  simp only [hb, hj, this]

/-- Non-vacuity: a program assembled to a file, and the file listed. -/
example : @Cli.main asciiUnicode ⟨true, fun _ l => l, fun _ _ => .refl _⟩ ⟨.asm c!"addu $v0, $a0, $a1\njr $ra\nnop", true, none, c!"80000000"⟩ =
      .exit 0 [] [] (some (.bytes [0, 0x85, 0x10, 0x21, 3, 0xE0, 0, 8, 0, 0, 0, 0])) ∧
    @Cli.main asciiUnicode ⟨true, fun _ l => l, fun _ _ => .refl _⟩ ⟨.disasm [0, 0x85, 0x10, 0x21, 3, 0xE0, 0, 8, 0, 0, 0, 0], false, none, c!"80000000"⟩ =
      .exit 0 c!"func_80000000:\naddu       $v0, $a0, $a1\njr         $ra\nsll        $zero, $zero, 0x0\n" [] none ∧
    @Cli.main asciiUnicode ⟨true, fun _ l => l, fun _ _ => .refl _⟩ ⟨.disasm [0, 0x85, 0x10], false, none, c!"80000000"⟩ = .panic := by decide +kernel

/-- Non-vacuity: two words written and read back; a concrete order check. -/
example : outBytes [0x01020304, 0xAABBCCDD] = [1, 2, 3, 4, 0xAA, 0xBB, 0xCC, 0xDD] ∧
    readWords [1, 2, 3, 4, 0xAA, 0xBB, 0xCC, 0xDD] = some [0x01020304, 0xAABBCCDD] ∧
    readWords [1, 2, 3, 4, 5] = none ∧ readWords [] = none := by decide

/-! ### C39 -/

/-- C39: every hexadecimal spelling of a 32-bit value, with or without `0x`, is accepted and read as that
value. -/
theorem C39_accepts_hex (s : Str) (w : Word) (h : Digits hexDigits s w.toNat) :
    parseBase s = some w ∧ parseBase (c!"0x" ++ s) = some w := by
  have h1 : parseU32Hex s = some w.toNat := by
    unfold parseU32Hex
    rw [fromStrRadix_digits _ _ _ (digits_chars_hex h).1 (hex_noSign h), parseDigits_hex h]
    have := w.isLt
    simp [IntTy.check, IntTy.min, IntTy.max]; omega
  have h2 : (parseU32Hex s).map (BitVec.ofNat 32) = some w := by rw [h1]; simp
  unfold parseBase
  simp only [List.cons_append, List.nil_append]
  rw [remove0x_0x, remove0x_noX _ (noX_hex h)]
  exact ⟨h2, h2⟩

/-- C39, the other direction: an accepted text consists, once every `0x` in it is deleted, of an optional
`+` and hexadecimal digits, and the base is their value, which fits 32 bits. -/
theorem C39_accepted_only (s : Str) (w : Word) :
    parseBase s = some w ↔ ∃ d, (remove0x s = d ∨ remove0x s = '+' :: d) ∧ Digits hexDigits d w.toNat := by
  constructor
  · intro h
    unfold parseBase parseU32Hex at h
    rw [Option.map_eq_some_iff] at h
    obtain ⟨n, h, rfl⟩ := h
    rw [Option.map_eq_some_iff] at h
    obtain ⟨v, h, rfl⟩ := h
    obtain ⟨h1, h2, d, n, hd, hp, hc⟩ := fromStrRadix_inv h
    have hdg := parseDigits_hex_inv hd hp
    rcases hc with ⟨e, rfl⟩ | ⟨e, rfl⟩ | ⟨_, _, hs⟩
    · refine ⟨d, Or.inl e, ?_⟩
      simp only [IntTy.max] at h2
      have : n < 2 ^ 32 := by omega
      simpa [Nat.mod_eq_of_lt this] using hdg
    · refine ⟨d, Or.inr e, ?_⟩
      simp only [IntTy.max] at h2
      have : n < 2 ^ 32 := by omega
      simpa [Nat.mod_eq_of_lt this] using hdg
    · cases hs
  · rintro ⟨d, he, hd⟩
    have hc : IntTy.u32.check (w.toNat : Int) = some (w.toNat : Int) := by
      have := w.isLt
      simp [IntTy.check, IntTy.min, IntTy.max]; omega
    have key : fromStrRadix .u32 16 (remove0x s) = some (w.toNat : Int) := by
      rcases he with e | e
      · rw [e, fromStrRadix_digits _ _ _ (digits_chars_hex hd).1 (hex_noSign hd), parseDigits_hex hd]
        exact hc
      · rw [e, fromStrRadix_plus _ _ _ (digits_chars_hex hd).1, parseDigits_hex hd]
        exact hc
    unfold parseBase parseU32Hex
    rw [key]; simp

/-- C39 as stated ("exactly the hexadecimal spellings") is false of the code: `0x` is deleted anywhere
in the text and a sign is accepted, so `10x2` is read as 0x12 and `+80` as 0x80. -/
theorem C39_not_exact : parseBase c!"10x2" = some 0x12 ∧ parseBase c!"+80" = some 0x80 := by decide +kernel

/-- C39, the text without any `x` or `+`: accepted exactly if it is a hexadecimal numeral of a 32-bit
value. -/
theorem C39_exact_partial (s : Str) (hx : 'x' ∉ s) (hp : '+' ∉ s) (w : Word) :
    parseBase s = some w ↔ Digits hexDigits s w.toNat := by
  rw [C39_accepted_only, remove0x_noX s hx]
  constructor
  · rintro ⟨d, rfl | rfl, h⟩
    · exact h
    · simp at hp
  · exact fun h => ⟨s, Or.inl rfl, h⟩

/-- Non-vacuity: accepted and rejected spellings. -/
example : parseBase c!"80000400" = some 0x80000400 ∧ parseBase c!"0x80000400" = some 0x80000400 ∧
    parseBase c!"0x1ffffffff" = none ∧ parseBase c!"hello" = none ∧ parseBase [] = none := by decide +kernel
/-- Non-vacuity of the premise of `C39_accepts_hex`. -/
example : Digits hexDigits c!"8f" (0x8f : Word).toNat :=
  Digits.snoc c!"8" 'f' 8 15 (Digits.one '8' 8 rfl) rfl

end Mips
