/-
**C14**, **C16**, **C17**, **C18**, **C20** — what `dabs` computes for every operand, and pseudo-instructions with `$at` as an operand.
-/
import Verif.Props.Arith
import Verif.Props.MulDiv
import Verif.Props.Div

namespace Mips
open Isa Machine Syntax Source Pseudo

/-- What `dabs` computes: the operand, exclusive or the operand shifted right by 31 bits, minus the latter; an overflow traps.  (It should be
shifted by 63 bits.) -/
def effDabs (x : W64) : Val :=
  let m := x.sshiftRight 31
  if BitVec.ssubOverflow (x ^^^ m) m then .trap else .ok ((x ^^^ m) - m)

/-- C14, `dabs`, exact for every operand (no operand being `$at`, and the destination not `$zero`). -/
theorem C14_dabs_exact [Unicode] (rt : Rt) (m : Mipsasm) (text : Str) (is : List Instruction) (warns : List ParserWarning)
    (h : assemble rt m text = .ok is warns) (k : Nat) (raw : Str) (rd rs : BitVec 5)
    (hk : (lines text)[k]? = some raw) (hc : kind raw = .code) (hi : InstrText (body raw) c!"dabs" [.gpr rd, .gpr rs])
    (h1 : rd ≠ at') (h2 : rs ≠ at') (h0 : rd ≠ 0) :
    ∃ ws, (is[codeCount ((lines text).take k)]?).map Instruction.getBytes = some ws ∧
      ∀ s, s.Entry → Computes ws s rd [at'] false (effDabs (s.get rs)) := by
  refine ⟨_, line_words h hk hc (fun x _ => emits_reg2 (o := .Dabs) x hi (by decide +kernel) (by decide +kernel) (by decide) (by decide) rt.ovf), ?_⟩
  intro s he
  obtain ⟨_, _, _, _, _, _, _, _, e, _⟩ := unary_words rd rs
  rw [e]
  let m : W64 := (s.get rs).sshiftRight 31
  let s1 := (s.set 1 m).next
  let s2 := (s1.set rd (s.get rs ^^^ m)).next
  have g1 : s1.get rs = s.get rs := get_set_ne _ _ h2
  have g2 : s1.get 1 = m := get_set_self s m (by decide)
  have g3 : s2.get 1 = m := by rw [get_next, get_set_ne _ _ (show (1 : BitVec 5) ≠ rd from Ne.symm h1)]; exact g2
  have g4 : s2.get rd = s.get rs ^^^ m := by rw [get_next, get_set_self _ _ h0]
  have x1 : exec s c!"dsra" [.gpr 1, .gpr rs, .sa 31] = .next s1 := rfl
  have x2 : exec s1 c!"xor" [.gpr rd, .gpr rs, .gpr 1] = .next s2 := by
    show s1.write rd (.ok (s1.get rs ^^^ s1.get 1)) = _
    rw [g1, g2]; rfl
  have x3 : exec s2 c!"dsub" [.gpr rd, .gpr rd, .gpr 1] = s2.write rd (effDabs (s.get rs)) := by
    show s2.write rd (if BitVec.ssubOverflow (s2.get rd) (s2.get 1) = true then _ else _) = _
    rw [g3, g4]; rfl
  have hu : effDabs (s.get rs) ≠ .undef := by unfold effDabs; dsimp only; split <;> simp
  cases hv : effDabs (s.get rs) with
  | undef => exact absurd hv hu
  | trap =>
    rw [hv] at x3
    exact (chainT_step rfl (dec_dsra _ _ _ _) x1 (set_npc _ _ _) (chainT_step rfl (dec_xor _ _ _ _) x2 (set_npc _ _ _)
      (chainT_trap rfl (dec_dsub _ _ _ _) x3))).traps he
  | ok v =>
    rw [hv] at x3
    refine ⟨_, (chain_step rfl (dec_dsra _ _ _ _) x1 (set_npc _ _ _) (chain_step rfl (dec_xor _ _ _ _) x2 (set_npc _ _ _)
      (chain_step rfl (dec_dsub _ _ _ _) x3 (set_npc _ _ _) (chain_end _ rfl)))).falls he, ?_, ?_, ?_⟩
    · intro _; rw [get_next, get_set_self _ _ h0]
    · intro r hr
      simp only [List.mem_cons, List.not_mem_nil, or_false, not_or] at hr
      rw [get_next, get_set_ne _ _ hr.1, get_next, get_set_ne _ _ hr.1, get_next, get_set_ne _ _ (show r ≠ 1 from hr.2)]
    · intro _; simp [s2, s1]

/-- The hypotheses of `C14_dabs_exact` are met (as those of `C14_dabs_partial`, by `dabs $v0, $a0`), and the operand may be wrong, right or trap. -/
example : effDabs 0x80000001 = .ok 0x7fffffff ∧ effDabs (-5) = .ok 5 ∧ effDabs 0x100000000 = .ok 0x100000000 ∧
    effDabs 0x8000000000000000 = .trap := by
  refine ⟨?_, ?_, ?_, ?_⟩ <;> rfl

/-- C16 needs that the destination is not `$at`: with `mulo $at, $a0, $a1`, 2^30 times 4 (which does not fit in 32 bits) does not trap but gives 0. -/
theorem C16_at_wrong : resultOf c!"mulo $at, $a0, $a1" (cpu2 4 0x40000000 5 4) 1 = some 0 := by decide +kernel

/-- The same program with `$v0` traps, as it should. -/
example : resultOf c!"mulo $v0, $a0, $a1" (cpu2 4 0x40000000 5 4) 2 = none := by decide +kernel

/-- C16, unsigned: with `mulou $at, $a0, $a1`, 4 times 4 traps although it fits, and 2^30 times 4 does not trap. -/
theorem C16_at_unsigned_wrong : resultOf c!"mulou $at, $a0, $a1" (cpu2 4 4 5 4) 1 = none ∧
    resultOf c!"mulou $at, $a0, $a1" (cpu2 4 0x40000000 5 4) 1 = some 0 := by decide +kernel

/-- C17 needs that the dividend is not `$at`: `div $v0, $at, $a1` with 20 and -1 traps, although the quotient is -20. -/
theorem C17_at_wrong : resultOf c!"div $v0, $at, $a1" (cpu2 1 20 5 (-1)) 2 = none := by decide +kernel

/-- With `$a0` in place of `$at` the result is -20. -/
example : resultOf c!"div $v0, $a0, $a1" (cpu2 4 20 5 (-1)) 2 = some (-20) := by decide +kernel

/-- C18 needs that neither source is `$at`: rotating 1 left by 4 gives 0xff or 1, not 0x10. -/
theorem C18_at_wrong : resultOf c!"drol $v0, $at, $a1" (cpu2 1 1 5 4) 2 = some 0xff ∧
    resultOf c!"drol $v0, $a0, $at" (cpu2 4 1 1 4) 2 = some 1 := by decide +kernel

/-- With `$a0` and `$a1` the result is 0x10. -/
example : resultOf c!"drol $v0, $a0, $a1" (cpu2 4 1 5 4) 2 = some 0x10 := by decide +kernel

/-- C20 needs that no label is spelled like `%hi(..)`: here the constant is the distance to the label, not the upper half of 0x12345678. -/
theorem C20_label_wrong :
    (@assemble asciiUnicode (idRt true) Mipsasm.new c!"%hi(0x12345678):\nlui $a0, %hi(0x12345678)").words = some [0x3c04ffff#32] ∧
    (@assemble asciiUnicode (idRt true) Mipsasm.new c!"x:\nlui $a0, %hi(0x12345678)").words = some [0x3c041234#32] := by decide +kernel

end Mips
