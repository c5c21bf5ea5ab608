/-
**C14**, **C16**, **C17**, **C18** — what the pseudo-instructions compute when an operand is `$at` or `$zero`: with the theorems of
Props/Arith, MulDiv, Div and PseudoX this settles every choice of registers.
-/
import Verif.Spec.AtX
import Verif.Props.PseudoX

namespace Mips
open Isa Machine Syntax Source Pseudo

/-! ### rotation -/

theorem rotX_flo {w2 w3 : W32} {mn2 mn3 : Str} {s : Cpu} {rd rs rt : BitVec 5} (l : Bool) (he : s.Entry)
    (hd2 : decoding w2 = some (mn2, [.gpr 1, .gpr rs, .gpr 1])) (hx2 : ∀ t : Cpu, exec t mn2 [.gpr 1, .gpr rs, .gpr 1] = .next (t.set 1 (shiftBy (!l) (t.get rs) (t.get 1))).next)
    (hd3 : decoding w3 = some (mn3, [.gpr rd, .gpr rs, .gpr rt])) (hx3 : ∀ t : Cpu, exec t mn3 [.gpr rd, .gpr rs, .gpr rt] = .next (t.set rd (shiftBy l (t.get rs) (t.get rt))).next) :
    Computes [rWord 0 0 rt 1 0 47, w2, w3, rWord 0 rd 1 rd 0 37] s rd [1] false
      (.ok (rotReal l (decide (rd = 1)) (decide (rs = 1)) (decide (rt = 1)) (s.get rs) (s.get rt))) := by
  let s1 := (s.set 1 (0 - s.get rt)).next
  let s2 := (s1.set 1 (shiftBy (!l) (s1.get rs) (s1.get 1))).next
  let s3 := (s2.set rd (shiftBy l (s2.get rs) (s2.get rt))).next
  have x1 : exec s c!"dsubu" [.gpr 1, .gpr 0, .gpr rt] = .next s1 := rfl
  have x4 : exec s3 c!"or" [.gpr rd, .gpr rd, .gpr 1] = .next (s3.set rd (s3.get rd ||| s3.get 1)).next := rfl
  have n : (1 : BitVec 5) ≠ 0 := by decide
  refine ⟨_, (chain_step rfl (dec_dsubu _ _ _ _) x1 (set_npc _ _ _) (chain_step rfl hd2 (hx2 _) (set_npc _ _ _)
    (chain_step rfl hd3 (hx3 _) (set_npc _ _ _) (chain_step rfl (dec_or _ _ _ _) x4 (set_npc _ _ _) (chain_end _ rfl))))).falls he, ?_, ?_, by intro _; simp [s3, s2, s1]⟩
  · intro h0
    rw [getset0 h0]
    have g11 : s1.get 1 = 0 - s.get rt := getset0 n
    have g1 : ∀ r, r ≠ 1 → s1.get r = s.get r := fun r h => getset1 h
    have g21 : s2.get 1 = shiftBy (!l) (if rs = 1 then 0 - s.get rt else s.get rs) (0 - s.get rt) := by
      refine (getset0 n).trans ?_
      rw [g11]
      by_cases h : rs = 1
      · rw [if_pos h, h, g11]
      · rw [if_neg h, g1 _ h]
    have g2 : ∀ r, r ≠ 1 → s2.get r = s.get r := fun r h => (getset1 h).trans (g1 r h)
    have g2' : ∀ r, s2.get r = if r = 1 then s2.get 1 else s.get r := by
      intro r
      by_cases h : r = 1
      · rw [if_pos h, h]
      · rw [if_neg h, g2 r h]
    have g3d : s3.get rd = shiftBy l (if rs = 1 then s2.get 1 else s.get rs) (if rt = 1 then s2.get 1 else s.get rt) := by
      refine (getset0 h0).trans ?_
      rw [g2' rs, g2' rt]
    by_cases hd : rd = 1
    · rw [← hd, BitVec.or_self, g3d, g21]
      simp [rotReal, hd]
    · rw [g3d, show s3.get 1 = s2.get 1 from getset1 (Ne.symm hd), g21]
      simp [rotReal, hd]
      exact fun h => absurd h hd
  · intro r hr
    simp only [List.mem_cons, List.not_mem_nil, or_false, not_or] at hr
    exact (getset1 hr.1).trans ((getset1 hr.1).trans ((getset1 hr.2).trans (getset1 hr.2)))

/-- C18, exact for all registers: `$at` as source, amount or destination included. -/
theorem C18_exact [Unicode] (rt : Rt) (m : Mipsasm) (text : Str) (is : List Instruction) (warns : List ParserWarning)
    (h : assemble rt m text = .ok is warns) (k : Nat) (raw mn : Str) (rd ra rb : BitVec 5) (left : Bool)
    (hk : (lines text)[k]? = some raw) (hc : kind raw = .code) (hi : InstrText (body raw) mn [.gpr rd, .gpr ra, .gpr rb])
    (hf : (mn, left) ∈ [(c!"drol", true), (c!"dror", false)]) :
    ∃ ws, (is[codeCount ((lines text).take k)]?).map Instruction.getBytes = some ws ∧
      ∀ s, s.Entry → Computes ws s rd [at'] false (.ok (rotReal left (decide (rd = at')) (decide (ra = at')) (decide (rb = at')) (s.get ra) (s.get rb))) := by
  obtain ⟨e1, e2⟩ := rot_words rd ra rb
  simp only [List.mem_cons, Prod.mk.injEq, List.not_mem_nil, or_false] at hf
  rcases hf with ⟨rfl, rfl⟩ | ⟨rfl, rfl⟩
  · refine ⟨_, reg3_words (o := .Drol) h hk hc hi (by decide +kernel), fun s he => ?_⟩
    rw [e1]
    exact rotX_flo true he (dec_dsrlv _ _ _ _) (fun _ => rfl) (dec_dsllv _ _ _ _) (fun _ => rfl)
  · refine ⟨_, reg3_words (o := .Dror) h hk hc hi (by decide +kernel), fun s he => ?_⟩
    rw [e2]
    exact rotX_flo false he (dec_dsllv _ _ _ _) (fun _ => rfl) (dec_dsrlv _ _ _ _) (fun _ => rfl)

/-- In agreement with the runs of `C18_at_wrong`, and with the documented function where no operand is `$at`. -/
example : rotReal true false true false 1 4 = 0xff ∧ rotReal true false false true 1 4 = 1 ∧ rotReal true false false false 1 4 = 0x10 ∧
    rotReal true true false false 0x8000000000000001 4 = 0x10 ∧ rotReal false false false false 3 65 = 0x8000000000000001 := by decide +kernel
example : resultOf c!"drol $at, $a0, $a1" (cpu2 4 0x8000000000000001 5 4) 1 = some 0x10 := by decide +kernel

/-! ### multiplication -/

/-- With `$at` as destination, the comparison is that of `$at` with itself. -/
theorem muloAt_flo {w w3 : W32} {s : Cpu} {mn mn3 : Str} {as as3 : List Arg} {h l v : W64} (he : s.Entry)
    (hd : decoding w = some (mn, as)) (hx : exec s mn as = .next (s.hl h l).next)
    (hd3 : decoding w3 = some (mn3, as3)) (hx3 : ∀ t : Cpu, t.get 1 = l → exec t mn3 as3 = .next (t.set 1 v).next) :
    Computes [w, rWord 0 0 0 1 0 18, w3, rWord 0 0 0 1 0 16, rWord 0 1 1 0 6 54, rWord 0 0 0 1 0 18] s 1 [1] true (.ok l) := by
  let s1 := (s.hl h l).next
  let s2 := (s1.set 1 l).next
  let s3 := (s2.set 1 v).next
  let s4 := (s3.set 1 h).next
  have n : (1 : BitVec 5) ≠ 0 := by decide
  have x2 : exec s1 c!"mflo" [.gpr 1] = .next s2 := mflo_step rfl 1
  have x3 : exec s2 mn3 as3 = .next s3 := hx3 s2 (getset0 n)
  have x4 : exec s3 c!"mfhi" [.gpr 1] = .next s4 := mfhi_step (by simp [s3, s2, s1]) 1
  have x5 : exec s4 c!"tne" [.gpr 1, .gpr 1] = .next s4.next := tne_step rfl
  have x6 : exec s4.next c!"mflo" [.gpr 1] = .next (s4.next.set 1 l).next := mflo_step (by simp [s4, s3, s2, s1]) 1
  refine ⟨_, (chain_step rfl hd hx rfl (chain_step rfl (dec_mflo _ _ _ _) x2 (set_npc _ _ _) (chain_step rfl hd3 x3 (set_npc _ _ _)
    (chain_step rfl (dec_mfhi _ _ _ _) x4 (set_npc _ _ _) (chain_step rfl (dec_tne _ _ _ _) x5 rfl
    (chain_step rfl (dec_mflo _ _ _ _) x6 (set_npc _ _ _) (chain_end _ rfl))))))).falls he, fun _ => getset0 n, ?_, by intro h; cases h⟩
  intro r hr
  simp only [List.mem_cons, List.not_mem_nil, or_false, not_or] at hr
  exact (getset1 hr.1).trans ((getset1 hr.1).trans ((getset1 hr.1).trans (getset1 hr.1)))

/-- With `$zero` as destination, HI is compared with zero. -/
theorem muloZero_flo {w w3 : W32} {s : Cpu} {mn mn3 : Str} {as as3 : List Arg} {h l v : W64} (he : s.Entry)
    (hd : decoding w = some (mn, as)) (hx : exec s mn as = .next (s.hl h l).next)
    (hd3 : decoding w3 = some (mn3, as3)) (hx3 : ∀ t : Cpu, exec t mn3 as3 = .next (t.set 0 v).next) :
    Computes [w, rWord 0 0 0 0 0 18, w3, rWord 0 0 0 1 0 16, rWord 0 0 1 0 6 54, rWord 0 0 0 0 0 18] s 0 [1] true (if h = 0 then .ok 0 else .trap) := by
  let s1 := (s.hl h l).next
  let s2 := (s1.set 0 l).next
  let s3 := (s2.set 0 v).next
  let s4 := (s3.set 1 h).next
  have n : (1 : BitVec 5) ≠ 0 := by decide
  have x2 : exec s1 c!"mflo" [.gpr 0] = .next s2 := mflo_step rfl 0
  have x3 : exec s2 mn3 as3 = .next s3 := hx3 s2
  have x4 : exec s3 c!"mfhi" [.gpr 1] = .next s4 := mfhi_step (by simp [s3, s2, s1]) 1
  have g : s4.get 1 = h := getset0 n
  by_cases e : h = 0
  · rw [if_pos e]
    have x5 : exec s4 c!"tne" [.gpr 0, .gpr 1] = .next s4.next := tne_step (by rw [g, e]; rfl)
    have x6 : exec s4.next c!"mflo" [.gpr 0] = .next (s4.next.set 0 l).next := mflo_step (by simp [s4, s3, s2, s1]) 0
    refine ⟨_, (chain_step rfl hd hx rfl (chain_step rfl (dec_mflo _ _ _ _) x2 (set_npc _ _ _) (chain_step rfl hd3 x3 (set_npc _ _ _)
      (chain_step rfl (dec_mfhi _ _ _ _) x4 (set_npc _ _ _) (chain_step rfl (dec_tne _ _ _ _) x5 rfl
      (chain_step rfl (dec_mflo _ _ _ _) x6 (set_npc _ _ _) (chain_end _ rfl))))))).falls he, fun h => absurd rfl h, ?_, by intro h; cases h⟩
    intro r hr
    simp only [List.mem_cons, List.not_mem_nil, or_false, not_or] at hr
    exact (getset1 hr.1).trans ((getset1 hr.2).trans ((getset1 hr.1).trans (getset1 hr.1)))
  · rw [if_neg e]
    have x5 : exec s4 c!"tne" [.gpr 0, .gpr 1] = .trap := tne_trap (by rw [g]; exact Ne.symm e)
    exact (chainT_step rfl hd hx rfl (chainT_step rfl (dec_mflo _ _ _ _) x2 (set_npc _ _ _) (chainT_step rfl hd3 x3 (set_npc _ _ _)
      (chainT_step rfl (dec_mfhi _ _ _ _) x4 (set_npc _ _ _) (chainT_trap rfl (dec_tne _ _ _ _) x5))))).traps he

/-- With `$at` as destination, LO is compared with zero. -/
theorem mulouAt_flo {w : W32} {s : Cpu} {mn : Str} {as : List Arg} {h l : W64} (he : s.Entry)
    (hd : decoding w = some (mn, as)) (hx : exec s mn as = .next (s.hl h l).next) :
    Computes [w, rWord 0 0 0 1 0 16, rWord 0 0 0 1 0 18, rWord 0 1 0 0 6 54] s 1 [1] true (if l = 0 then .ok 0 else .trap) := by
  let s1 := (s.hl h l).next
  let s2 := (s1.set 1 h).next
  let s3 := (s2.set 1 l).next
  have n : (1 : BitVec 5) ≠ 0 := by decide
  have x2 : exec s1 c!"mfhi" [.gpr 1] = .next s2 := mfhi_step rfl 1
  have x3 : exec s2 c!"mflo" [.gpr 1] = .next s3 := mflo_step (by simp [s2, s1]) 1
  have g1 : s3.get 1 = l := getset0 n
  by_cases e : l = 0
  · rw [if_pos e]
    have x4 : exec s3 c!"tne" [.gpr 1, .gpr 0] = .next s3.next := tne_step (by rw [g1, e]; rfl)
    refine ⟨_, (chain_step rfl hd hx rfl (chain_step rfl (dec_mfhi _ _ _ _) x2 (set_npc _ _ _) (chain_step rfl (dec_mflo _ _ _ _) x3 (set_npc _ _ _)
      (chain_step rfl (dec_tne _ _ _ _) x4 rfl (chain_end _ rfl))))).falls he, fun _ => g1.trans e, ?_, by intro h; cases h⟩
    intro r hr
    simp only [List.mem_cons, List.not_mem_nil, or_false, not_or] at hr
    exact (getset1 hr.1).trans (getset1 hr.1)
  · rw [if_neg e]
    have x4 : exec s3 c!"tne" [.gpr 1, .gpr 0] = .trap := tne_trap (by rw [g1]; exact e)
    exact (chainT_step rfl hd hx rfl (chainT_step rfl (dec_mfhi _ _ _ _) x2 (set_npc _ _ _) (chainT_step rfl (dec_mflo _ _ _ _) x3 (set_npc _ _ _)
      (chainT_trap rfl (dec_tne _ _ _ _) x4)))).traps he

theorem mulAt_sem (rs rt : BitVec 5) {mn : Str} {f : W64 → W64 → Val} (h : (mn, f) ∈ mulAtOps) :
    ∃ o, Reg3Ok mn o ∧ ∀ s : Cpu, s.Entry →
      Computes (encR o (rs.setWidth 32) (rt.setWidth 32) ((1 : BitVec 5).setWidth 32) 0#32) s 1 [1] true (f (s.get rs) (s.get rt)) := by
  obtain ⟨_, _, _, _, e5, e6, e7, e8⟩ := mul_words 1 rs rt
  simp only [mulAtOps, List.mem_cons, Prod.mk.injEq, List.not_mem_nil, or_false] at h
  rcases h with ⟨rfl, rfl⟩ | ⟨rfl, rfl⟩ | ⟨rfl, rfl⟩ | ⟨rfl, rfl⟩
  · refine ⟨.Mulo, by decide +kernel, fun s he => ?_⟩
    rw [e5]; dsimp only; split
    · rename_i hw
      rw [← low_mul]
      exact muloAt_flo he (dec_mult rs rt 0 0) (mult_step s hw.1 hw.2) (dec_sra 0 1 1 31)
        (v := sext ((low (s.get rs * s.get rt)).sshiftRight 31)) (by
          intro t ht
          show t.write 1 (if IsWord (t.get 1) then .ok (sext ((low (t.get 1)).sshiftRight 31)) else .undef) = _
          rw [ht, if_pos (isWord_sext _), low_sext]; rfl)
    · trivial
  · refine ⟨.Mulou, by decide +kernel, fun s he => ?_⟩
    rw [e7]; dsimp only; split
    · rename_i hw
      have := mulouAt_flo he (dec_multu rs rt 0 0) (multu_step s hw.1 hw.2)
      refine computes_val this ?_
      rw [low_uprod]
      have : sext (low (s.get rs) * low (s.get rt)) = 0 ↔ low (s.get rs) * low (s.get rt) = 0 := by
        rw [show (0 : W64) = sext 0 by decide, sext_inj]
      simp only [this]
    · trivial
  · refine ⟨.Dmulo, by decide +kernel, fun s he => ?_⟩
    rw [e6]; dsimp only; rw [← low_sprod]
    exact muloAt_flo he (dec_dmult rs rt 0 0) (dmult_step s rs rt) (dec_dsra32 0 1 1 31)
        (v := ((sprod128 (s.get rs) (s.get rt)).setWidth 64).sshiftRight 63) (by
          intro t ht
          show t.write 1 (.ok ((t.get 1).sshiftRight (31 + 32))) = _
          rw [ht]; rfl)
  · refine ⟨.Dmulou, by decide +kernel, fun s he => ?_⟩
    rw [e8]; dsimp only
    have := mulouAt_flo he (dec_dmultu rs rt 0 0) (dmultu_step s rs rt)
    rw [low_uprod128] at this
    exact this

/-- C16, the trapping multiplications with `$at` as destination, exact. -/
theorem C16_at_exact [Unicode] (rt : Rt) (m : Mipsasm) (text : Str) (is : List Instruction) (warns : List ParserWarning)
    (h : assemble rt m text = .ok is warns) (k : Nat) (raw mn : Str) (ra rb : BitVec 5) (f : W64 → W64 → Val)
    (hk : (lines text)[k]? = some raw) (hc : kind raw = .code) (hi : InstrText (body raw) mn [.gpr at', .gpr ra, .gpr rb])
    (hf : (mn, f) ∈ mulAtOps) :
    ∃ ws, (is[codeCount ((lines text).take k)]?).map Instruction.getBytes = some ws ∧
      ∀ s, s.Entry → Computes ws s at' [] true (f (s.get ra) (s.get rb)) := by
  obtain ⟨o, ho, h5⟩ := mulAt_sem ra rb hf
  refine ⟨_, reg3_words h hk hc hi ho, fun s he => ?_⟩
  have := h5 s he
  cases hv : f (s.get ra) (s.get rb) with
  | undef => trivial
  | trap => rw [hv] at this; exact this
  | ok v =>
    rw [hv] at this
    obtain ⟨s', k1, k2, k3, k4⟩ := this
    exact ⟨s', k1, k2, fun r hr => k3 r (by simpa [at'] using hr), k4⟩

/-- HI is zero iff the product is not negative and fits without sign. -/
theorem hi_zero32 (p : W64) : sext (low (p >>> 32)) = 0 ↔ 0 ≤ p.toInt ∧ p.toInt < 2 ^ 32 := by
  rw [uhi_zero32]
  have hp := p.isLt
  rw [BitVec.toInt_eq_toNat_cond]
  split <;> omega
theorem hi_zero64 (p : BitVec 128) : p.extractLsb' 64 64 = 0 ↔ 0 ≤ p.toInt ∧ p.toInt < 2 ^ 64 := by
  rw [uhi_zero64]
  have hp := p.isLt
  rw [BitVec.toInt_eq_toNat_cond]
  split <;> omega

theorem mulZero_sem (rs rt : BitVec 5) {mn : Str} {f : W64 → W64 → Val} (h : (mn, f) ∈ mulZeroOps) :
    ∃ o, Reg3Ok mn o ∧ ∀ s : Cpu, s.Entry →
      Computes (encR o (rs.setWidth 32) (rt.setWidth 32) ((0 : BitVec 5).setWidth 32) 0#32) s 0 [1] true (f (s.get rs) (s.get rt)) := by
  obtain ⟨_, _, _, _, e5, e6, _, _⟩ := mul_words 0 rs rt
  simp only [mulZeroOps, List.mem_cons, Prod.mk.injEq, List.not_mem_nil, or_false] at h
  rcases h with ⟨rfl, rfl⟩ | ⟨rfl, rfl⟩
  · refine ⟨.Mulo, by decide +kernel, fun s he => ?_⟩
    rw [e5]; dsimp only; split
    · rename_i hw
      refine computes_val (muloZero_flo he (dec_mult rs rt 0 0) (mult_step s hw.1 hw.2) (dec_sra 0 0 0 31) (v := 0) (fun t => by
        show t.write 0 (if IsWord (t.get 0) then .ok (sext ((low (t.get 0)).sshiftRight 31)) else .undef) = _
        rw [get_zero, if_pos (by decide)]; rfl)) ?_
      simp only [hi_zero32, toInt_mulW hw.1 hw.2]
    · trivial
  · refine ⟨.Dmulo, by decide +kernel, fun s he => ?_⟩
    rw [e6]; dsimp only
    refine computes_val (muloZero_flo he (dec_dmult rs rt 0 0) (dmult_step s rs rt) (dec_dsra32 0 0 0 31) (v := 0) (fun t => by
        show t.write 0 (.ok ((t.get 0).sshiftRight (31 + 32))) = _
        rw [get_zero]; rfl)) ?_
    simp only [hi_zero64]
    unfold sprod128
    rw [toInt_mulD]

/-- C16, `mulo` and `dmulo` with `$zero` as destination, exact. -/
theorem C16_zero_exact [Unicode] (rt : Rt) (m : Mipsasm) (text : Str) (is : List Instruction) (warns : List ParserWarning)
    (h : assemble rt m text = .ok is warns) (k : Nat) (raw mn : Str) (ra rb : BitVec 5) (f : W64 → W64 → Val)
    (hk : (lines text)[k]? = some raw) (hc : kind raw = .code) (hi : InstrText (body raw) mn [.gpr 0, .gpr ra, .gpr rb])
    (hf : (mn, f) ∈ mulZeroOps) :
    ∃ ws, (is[codeCount ((lines text).take k)]?).map Instruction.getBytes = some ws ∧
      ∀ s, s.Entry → Computes ws s 0 [at'] true (f (s.get ra) (s.get rb)) := by
  obtain ⟨o, ho, h5⟩ := mulZero_sem ra rb hf
  exact ⟨_, reg3_words h hk hc hi ho, h5⟩

/-- The hypotheses are met: the runs of `C16_at_wrong`, `C16_at_unsigned_wrong` and `C16_zero_wrong` are instances. -/
example : ∃ f g : W64 → W64 → Val, (c!"mulo", f) ∈ mulAtOps ∧ f 0x40000000 4 = .ok 0 ∧ (c!"mulou", g) ∈ mulAtOps ∧ g 4 4 = .trap ∧ g 0x40000000 4 = .ok 0 :=
  ⟨_, _, .head _, rfl, .tail _ (.head _), rfl, rfl⟩
example : ∃ f : W64 → W64 → Val, (c!"mulo", f) ∈ mulZeroOps ∧ f (-1) 1 = .trap ∧ f 0x40000000 2 = .ok 0 := by
  refine ⟨_, .head _, ?_, ?_⟩
  · rw [if_pos (by decide +kernel), if_neg (by decide +kernel)]
  · rw [if_pos (by decide +kernel), if_pos (by decide +kernel)]

/-! ### signed division -/

/-- Signed division by `$at`. -/
theorem sdivAt_flo32 {w8 : W32} {s : Cpu} {mn8 : Str} {H L : Option W64} {h l v : W64} {rd ra rb : BitVec 5} (he : s.Entry) (h2 : rb = 1)
    (hx : s.get rb ≠ 0 → exec s.next c!"div" [.gpr ra, .gpr rb] = .next (s.next.hlo H L).next)
    (hv : s.get ra ≠ minWord → H = some h ∧ L = some l)
    (hm : Moves w8 mn8 rd h l v) (ws : List W32)
    (e : ws = [rWord 0 rb 0 0 7 52, rWord 0 ra rb 0 0 26, iWord 15 0 1 0xFFFF, iWord 13 1 1 0xFFFF, iWord 5 rb 1 3, iWord 15 0 1 0x8000, rWord 0 ra 1 0 6 52, w8]) :
    Computes ws s rd [1] true (if s.get rb = 0 ∨ ra = 1 ∨ s.get ra = minWord then .trap else .ok v) := by
  subst e
  let s2 := (s.next.hlo H L).next
  let s3 := (s2.set 1 (sext ((0xFFFF : BitVec 16).setWidth 32 <<< 16))).next
  let s4 := (s3.set 1 (s3.get 1 ||| (0xFFFF : BitVec 16).setWidth 64)).next
  let s5 := s4.next
  let s6 := (s5.set 1 minWord).next
  have x3 : exec s2 c!"lui" [.gpr 1, .uimm 0xFFFF] = .next s3 := lui_step _ _ _
  have x4 : exec s3 c!"ori" [.gpr 1, .gpr 1, .uimm 0xFFFF] = .next s4 := ori_step _ _ _ _
  have x6 : exec s5 c!"lui" [.gpr 1, .uimm 0x8000] = .next s6 := by rw [lui_step, lit_min]
  have g6 : s6.get 1 = minWord := getset0 (by decide)
  by_cases e0 : s.get rb = 0
  · rw [if_pos (.inl e0)]
    exact (chainT_trap rfl (dec_teq _ _ _ _) (teq_trap (e0.trans (get_zero s).symm))).traps he
  have x1 : exec s c!"teq" [.gpr rb, .gpr 0] = .next s.next := teq_step e0
  have x5 : exec s4 c!"bne" [.gpr rb, .gpr 1, .off 3] = .next s5 := bne_step (by rw [h2])
  by_cases e1 : ra = 1
  · rw [if_pos (.inr (.inl e1))]
    have x7 : exec s6 c!"teq" [.gpr ra, .gpr 1] = .trap := teq_trap (by rw [e1])
    exact (chainT_step rfl (dec_teq _ _ _ _) x1 rfl (chainT_step rfl (dec_div _ _ _ _) (hx e0) rfl (chainT_step rfl (dec_lui _ _ _) x3 (set_npc _ _ _)
        (chainT_step rfl (dec_ori _ _ _) x4 (set_npc _ _ _) (chainT_step rfl (dec_bne _ _ _) x5 rfl (chainT_step rfl (dec_lui _ _ _) x6 (set_npc _ _ _)
        (chainT_trap rfl (dec_teq _ _ _ _) x7))))))).traps he
  have ga : s6.get ra = s.get ra := (getset1 e1).trans ((getset1 e1).trans (getset1 e1))
  by_cases em : s.get ra = minWord
  · rw [if_pos (.inr (.inr em))]
    have x7 : exec s6 c!"teq" [.gpr ra, .gpr 1] = .trap := teq_trap (by rw [ga, g6, em])
    exact (chainT_step rfl (dec_teq _ _ _ _) x1 rfl (chainT_step rfl (dec_div _ _ _ _) (hx e0) rfl (chainT_step rfl (dec_lui _ _ _) x3 (set_npc _ _ _)
        (chainT_step rfl (dec_ori _ _ _) x4 (set_npc _ _ _) (chainT_step rfl (dec_bne _ _ _) x5 rfl (chainT_step rfl (dec_lui _ _ _) x6 (set_npc _ _ _)
        (chainT_trap rfl (dec_teq _ _ _ _) x7))))))).traps he
  · rw [if_neg (by simp only [not_or]; exact ⟨e0, e1, em⟩)]
    obtain ⟨rfl, rfl⟩ := hv em
    have x7 : exec s6 c!"teq" [.gpr ra, .gpr 1] = .next s6.next := teq_step (by rw [ga, g6]; exact em)
    have hi3 : s3.hi = s2.hi := ns_hi
    have hi5 : s5.hi = s3.hi := ns_hi
    have hi6 : s6.hi = s5.hi := ns_hi
    have lo3 : s3.lo = s2.lo := ns_lo
    have lo5 : s5.lo = s3.lo := ns_lo
    have lo6 : s6.lo = s5.lo := ns_lo
    have x8 : exec s6.next mn8 [.gpr rd] = .next (s6.next.set rd v).next := hm.2 _ (hi6.trans (hi5.trans hi3)) (lo6.trans (lo5.trans lo3))
    refine ⟨_, (chain_step rfl (dec_teq _ _ _ _) x1 rfl (chain_step rfl (dec_div _ _ _ _) (hx e0) rfl (chain_step rfl (dec_lui _ _ _) x3 (set_npc _ _ _)
        (chain_step rfl (dec_ori _ _ _) x4 (set_npc _ _ _) (chain_step rfl (dec_bne _ _ _) x5 rfl (chain_step rfl (dec_lui _ _ _) x6 (set_npc _ _ _)
        (chain_step rfl (dec_teq _ _ _ _) x7 rfl (chain_step rfl hm.1 x8 (set_npc _ _ _) (chain_end _ rfl))))))))).falls he, fun h0 => getset0 h0, ?_, by intro h; cases h⟩
    intro r hr
    simp only [List.mem_cons, List.not_mem_nil, or_false, not_or] at hr
    exact (getset1 hr.1).trans ((getset1 hr.2).trans ((getset1 hr.2).trans (getset1 hr.2)))

/-- Signed division of `$at` by another register. -/
theorem sdivOf_flo32 {w8 : W32} {s : Cpu} {H L : Option W64} {ra rb : BitVec 5} (he : s.Entry) (h1 : ra = 1) (h2 : rb ≠ 1)
    (hx : s.get rb ≠ 0 → exec s.next c!"div" [.gpr ra, .gpr rb] = .next (s.next.hlo H L).next) (ws : List W32)
    (e : ws = [rWord 0 rb 0 0 7 52, rWord 0 ra rb 0 0 26, iWord 15 0 1 0xFFFF, iWord 13 1 1 0xFFFF, iWord 5 rb 1 3, iWord 15 0 1 0x8000, rWord 0 ra 1 0 6 52, w8]) :
    (s.get rb = 0 ∨ s.get rb = -1 → Traps ws s) ∧ (s.get rb ≠ 0 → s.get rb ≠ -1 → ∃ s', Falls ws s s' ∧ Keeps s s' [1]) := by
  subst e
  let s2 := (s.next.hlo H L).next
  let s3 := (s2.set 1 (sext ((0xFFFF : BitVec 16).setWidth 32 <<< 16))).next
  let s4 := (s3.set 1 (s3.get 1 ||| (0xFFFF : BitVec 16).setWidth 64)).next
  let s5 := s4.next
  let s6 := (s5.set 1 minWord).next
  have x3 : exec s2 c!"lui" [.gpr 1, .uimm 0xFFFF] = .next s3 := lui_step _ _ _
  have x4 : exec s3 c!"ori" [.gpr 1, .gpr 1, .uimm 0xFFFF] = .next s4 := ori_step _ _ _ _
  have x6 : exec s5 c!"lui" [.gpr 1, .uimm 0x8000] = .next s6 := by rw [lui_step, lit_min]
  have g6 : s6.get 1 = minWord := getset0 (by decide)
  have gs : s4.get 1 = -1 := by
    refine (getset0 (by decide)).trans ?_
    rw [show s3.get 1 = _ from getset0 (by decide)]
    exact lit_m1
  have gb : s4.get rb = s.get rb := (getset1 h2).trans (getset1 h2)
  refine ⟨?_, ?_⟩
  · intro e
    by_cases e0 : s.get rb = 0
    · exact (chainT_trap rfl (dec_teq _ _ _ _) (teq_trap (e0.trans (get_zero s).symm))).traps he
    have e := e.resolve_left e0
    have x1 : exec s c!"teq" [.gpr rb, .gpr 0] = .next s.next := teq_step e0
    have x5 : exec s4 c!"bne" [.gpr rb, .gpr 1, .off 3] = .next s5 := bne_step (by rw [gs, gb, e])
    have x7 : exec s6 c!"teq" [.gpr ra, .gpr 1] = .trap := teq_trap (congrArg s6.get h1)
    exact (chainT_step rfl (dec_teq _ _ _ _) x1 rfl (chainT_step rfl (dec_div _ _ _ _) (hx e0) rfl (chainT_step rfl (dec_lui _ _ _) x3 (set_npc _ _ _)
        (chainT_step rfl (dec_ori _ _ _) x4 (set_npc _ _ _) (chainT_step rfl (dec_bne _ _ _) x5 rfl (chainT_step rfl (dec_lui _ _ _) x6 (set_npc _ _ _)
        (chainT_trap rfl (dec_teq _ _ _ _) x7))))))).traps he
  · intro e0 e1
    have x1 : exec s c!"teq" [.gpr rb, .gpr 0] = .next s.next := teq_step e0
    have x5 : exec s4 c!"bne" [.gpr rb, .gpr 1, .off 3] = .next (s4.jumped 3) := bne_jump (by rw [gs, gb]; exact e1)
    refine ⟨_, (chain_step rfl (dec_teq _ _ _ _) x1 rfl (chain_step rfl (dec_div _ _ _ _) (hx e0) rfl (chain_step rfl (dec_lui _ _ _) x3 (set_npc _ _ _)
        (chain_step rfl (dec_ori _ _ _) x4 (set_npc _ _ _) (chain_branch (j := 8) rfl (dec_bne _ _ _) x5 lit_j3 rfl (dec_lui _ _ _) (lui_step _ _ _) (set_npc _ _ _) (chain_end _ rfl)))))).falls he, ?_⟩
    intro r hr
    simp only [List.mem_cons, List.not_mem_nil, or_false] at hr
    have k4 : s4.get r = s.get r := (getset1 hr).trans (getset1 hr)
    exact (getset1 hr).trans ((jumped_get _ _ _).trans k4)

/-- Signed division by `$at`. -/
theorem sdivAt_flo64 {w8 : W32} {s : Cpu} {mn8 : Str} {H L : Option W64} {h l v : W64} {rd ra rb : BitVec 5} (he : s.Entry) (h2 : rb = 1)
    (hx : s.get rb ≠ 0 → exec s.next c!"ddiv" [.gpr ra, .gpr rb] = .next (s.next.hlo H L).next)
    (hv : s.get ra ≠ BitVec.intMin 64 → H = some h ∧ L = some l)
    (hm : Moves w8 mn8 rd h l v) (ws : List W32)
    (e : ws = [rWord 0 rb 0 0 7 52, rWord 0 ra rb 0 0 30, iWord 25 0 1 0xFFFF, iWord 5 rb 1 4, iWord 25 0 1 1, rWord 0 0 1 1 31 60, rWord 0 ra 1 0 6 52, w8]) :
    Computes ws s rd [1] true (if s.get rb = 0 ∨ ra = 1 ∨ s.get ra = BitVec.intMin 64 then .trap else .ok v) := by
  subst e
  let s2 := (s.next.hlo H L).next
  let s3 := (s2.set 1 (s2.get 0 + (0xFFFF : BitVec 16).signExtend 64)).next
  let s4 := s3.next
  let s5 := (s4.set 1 (s4.get 0 + (1 : BitVec 16).signExtend 64)).next
  let s6 := (s5.set 1 (s5.get 1 <<< ((31 : BitVec 5).toNat + 32))).next
  have x3 : exec s2 c!"daddiu" [.gpr 1, .gpr 0, .simm 0xFFFF] = .next s3 := daddiu_step _ _ _ _
  have x5 : exec s4 c!"daddiu" [.gpr 1, .gpr 0, .simm 1] = .next s5 := daddiu_step _ _ _ _
  have x6 : exec s5 c!"dsll32" [.gpr 1, .gpr 1, .sa 31] = .next s6 := dsll32_step _ _ _ _
  have g6 : s6.get 1 = BitVec.intMin 64 := by
    refine (getset0 (by decide)).trans ?_
    rw [show s5.get 1 = _ from getset0 (by decide), show s4.get 0 = 0 from rfl]
    exact lit_min64
  by_cases e0 : s.get rb = 0
  · rw [if_pos (.inl e0)]
    exact (chainT_trap rfl (dec_teq _ _ _ _) (teq_trap (e0.trans (get_zero s).symm))).traps he
  have x1 : exec s c!"teq" [.gpr rb, .gpr 0] = .next s.next := teq_step e0
  have x4 : exec s3 c!"bne" [.gpr rb, .gpr 1, .off 4] = .next s4 := bne_step (by rw [h2])
  by_cases e1 : ra = 1
  · rw [if_pos (.inr (.inl e1))]
    have x7 : exec s6 c!"teq" [.gpr ra, .gpr 1] = .trap := teq_trap (by rw [e1])
    exact (chainT_step rfl (dec_teq _ _ _ _) x1 rfl (chainT_step rfl (dec_ddiv _ _ _ _) (hx e0) rfl (chainT_step rfl (dec_daddiu _ _ _) x3 (set_npc _ _ _)
        (chainT_step rfl (dec_bne _ _ _) x4 rfl (chainT_step rfl (dec_daddiu _ _ _) x5 (set_npc _ _ _) (chainT_step rfl (dec_dsll32 _ _ _ _) x6 (set_npc _ _ _)
        (chainT_trap rfl (dec_teq _ _ _ _) x7))))))).traps he
  have ga : s6.get ra = s.get ra := (getset1 e1).trans ((getset1 e1).trans (getset1 e1))
  by_cases em : s.get ra = BitVec.intMin 64
  · rw [if_pos (.inr (.inr em))]
    have x7 : exec s6 c!"teq" [.gpr ra, .gpr 1] = .trap := teq_trap (by rw [ga, g6, em])
    exact (chainT_step rfl (dec_teq _ _ _ _) x1 rfl (chainT_step rfl (dec_ddiv _ _ _ _) (hx e0) rfl (chainT_step rfl (dec_daddiu _ _ _) x3 (set_npc _ _ _)
        (chainT_step rfl (dec_bne _ _ _) x4 rfl (chainT_step rfl (dec_daddiu _ _ _) x5 (set_npc _ _ _) (chainT_step rfl (dec_dsll32 _ _ _ _) x6 (set_npc _ _ _)
        (chainT_trap rfl (dec_teq _ _ _ _) x7))))))).traps he
  · rw [if_neg (by simp only [not_or]; exact ⟨e0, e1, em⟩)]
    obtain ⟨rfl, rfl⟩ := hv em
    have x7 : exec s6 c!"teq" [.gpr ra, .gpr 1] = .next s6.next := teq_step (by rw [ga, g6]; exact em)
    have hi3 : s3.hi = s2.hi := ns_hi
    have hi5 : s5.hi = s3.hi := ns_hi
    have hi6 : s6.hi = s5.hi := ns_hi
    have lo3 : s3.lo = s2.lo := ns_lo
    have lo5 : s5.lo = s3.lo := ns_lo
    have lo6 : s6.lo = s5.lo := ns_lo
    have x8 : exec s6.next mn8 [.gpr rd] = .next (s6.next.set rd v).next := hm.2 _ (hi6.trans (hi5.trans hi3)) (lo6.trans (lo5.trans lo3))
    refine ⟨_, (chain_step rfl (dec_teq _ _ _ _) x1 rfl (chain_step rfl (dec_ddiv _ _ _ _) (hx e0) rfl (chain_step rfl (dec_daddiu _ _ _) x3 (set_npc _ _ _)
        (chain_step rfl (dec_bne _ _ _) x4 rfl (chain_step rfl (dec_daddiu _ _ _) x5 (set_npc _ _ _) (chain_step rfl (dec_dsll32 _ _ _ _) x6 (set_npc _ _ _)
        (chain_step rfl (dec_teq _ _ _ _) x7 rfl (chain_step rfl hm.1 x8 (set_npc _ _ _) (chain_end _ rfl))))))))).falls he, fun h0 => getset0 h0, ?_, by intro h; cases h⟩
    intro r hr
    simp only [List.mem_cons, List.not_mem_nil, or_false, not_or] at hr
    exact (getset1 hr.1).trans ((getset1 hr.2).trans ((getset1 hr.2).trans (getset1 hr.2)))

/-- Signed division of `$at` by another register. -/
theorem sdivOf_flo64 {w8 : W32} {s : Cpu} {H L : Option W64} {ra rb : BitVec 5} (he : s.Entry) (h1 : ra = 1) (h2 : rb ≠ 1)
    (hx : s.get rb ≠ 0 → exec s.next c!"ddiv" [.gpr ra, .gpr rb] = .next (s.next.hlo H L).next) (ws : List W32)
    (e : ws = [rWord 0 rb 0 0 7 52, rWord 0 ra rb 0 0 30, iWord 25 0 1 0xFFFF, iWord 5 rb 1 4, iWord 25 0 1 1, rWord 0 0 1 1 31 60, rWord 0 ra 1 0 6 52, w8]) :
    (s.get rb = 0 ∨ s.get rb = -1 → Traps ws s) ∧ (s.get rb ≠ 0 → s.get rb ≠ -1 → ∃ s', Falls ws s s' ∧ Keeps s s' [1]) := by
  subst e
  let s2 := (s.next.hlo H L).next
  let s3 := (s2.set 1 (s2.get 0 + (0xFFFF : BitVec 16).signExtend 64)).next
  let s4 := s3.next
  let s5 := (s4.set 1 (s4.get 0 + (1 : BitVec 16).signExtend 64)).next
  let s6 := (s5.set 1 (s5.get 1 <<< ((31 : BitVec 5).toNat + 32))).next
  have x3 : exec s2 c!"daddiu" [.gpr 1, .gpr 0, .simm 0xFFFF] = .next s3 := daddiu_step _ _ _ _
  have x5 : exec s4 c!"daddiu" [.gpr 1, .gpr 0, .simm 1] = .next s5 := daddiu_step _ _ _ _
  have x6 : exec s5 c!"dsll32" [.gpr 1, .gpr 1, .sa 31] = .next s6 := dsll32_step _ _ _ _
  have g6 : s6.get 1 = BitVec.intMin 64 := by
    refine (getset0 (by decide)).trans ?_
    rw [show s5.get 1 = _ from getset0 (by decide), show s4.get 0 = 0 from rfl]
    exact lit_min64
  have gs : s3.get 1 = -1 := by
    refine (getset0 (by decide)).trans ?_
    rw [show s2.get 0 = 0 from rfl]
    exact lit_m1'
  have gb : s3.get rb = s.get rb := getset1 h2
  refine ⟨?_, ?_⟩
  · intro e
    by_cases e0 : s.get rb = 0
    · exact (chainT_trap rfl (dec_teq _ _ _ _) (teq_trap (e0.trans (get_zero s).symm))).traps he
    have e := e.resolve_left e0
    have x1 : exec s c!"teq" [.gpr rb, .gpr 0] = .next s.next := teq_step e0
    have x4 : exec s3 c!"bne" [.gpr rb, .gpr 1, .off 4] = .next s4 := bne_step (by rw [gs, gb, e])
    have x7 : exec s6 c!"teq" [.gpr ra, .gpr 1] = .trap := teq_trap (congrArg s6.get h1)
    exact (chainT_step rfl (dec_teq _ _ _ _) x1 rfl (chainT_step rfl (dec_ddiv _ _ _ _) (hx e0) rfl (chainT_step rfl (dec_daddiu _ _ _) x3 (set_npc _ _ _)
        (chainT_step rfl (dec_bne _ _ _) x4 rfl (chainT_step rfl (dec_daddiu _ _ _) x5 (set_npc _ _ _) (chainT_step rfl (dec_dsll32 _ _ _ _) x6 (set_npc _ _ _)
        (chainT_trap rfl (dec_teq _ _ _ _) x7))))))).traps he
  · intro e0 e1
    have x1 : exec s c!"teq" [.gpr rb, .gpr 0] = .next s.next := teq_step e0
    have x4 : exec s3 c!"bne" [.gpr rb, .gpr 1, .off 4] = .next (s3.jumped 4) := bne_jump (by rw [gs, gb]; exact e1)
    refine ⟨_, (chain_step rfl (dec_teq _ _ _ _) x1 rfl (chain_step rfl (dec_ddiv _ _ _ _) (hx e0) rfl (chain_step rfl (dec_daddiu _ _ _) x3 (set_npc _ _ _)
        (chain_branch (j := 8) rfl (dec_bne _ _ _) x4 lit_j4 rfl (dec_daddiu _ _ _) (daddiu_step _ _ _ _) (set_npc _ _ _) (chain_end _ rfl))))).falls he, ?_⟩
    intro r hr
    simp only [List.mem_cons, List.not_mem_nil, or_false] at hr
    exact (getset1 hr).trans (getset1 hr)


theorem divHL_ne {a b : W64} (ha : IsWord a) (h : a ≠ minWord) :
    (divHL a b).1 = some (sext ((low a).srem (low b))) ∧ (divHL a b).2 = some (sext ((low a).sdiv (low b))) := by
  unfold divHL
  rw [if_neg (fun e => h ((minWord_iff ha).2 e.1))]; exact ⟨rfl, rfl⟩
theorem ddivHL_ne {a b : W64} (h : a ≠ BitVec.intMin 64) : (ddivHL a b).1 = some (a.srem b) ∧ (ddivHL a b).2 = some (a.sdiv b) := by
  unfold ddivHL
  rw [if_neg (fun e => h e.1)]; exact ⟨rfl, rfl⟩

theorem sdivAt_sem (rd rs rt : BitVec 5) (h2 : rt = 1) {mn : Str} {f : W64 → W64 → Val} (h : (mn, f) ∈ sdivAtOps) :
    ∃ o, Reg3Ok mn o ∧ ∀ s : Cpu, s.Entry →
      Computes (encR o (rs.setWidth 32) (rt.setWidth 32) (rd.setWidth 32) 0#32) s rd [1] true
        (match f (s.get rs) (s.get rt) with | .undef => .undef | v => if rs = 1 then .trap else v) := by
  obtain ⟨e1, e2, e3, e4, _⟩ := div_words rd rs rt
  have hz : rt ≠ 0 := by rw [h2]; decide
  simp only [sdivAtOps, List.mem_cons, Prod.mk.injEq, List.not_mem_nil, or_false] at h
  rcases h with ⟨rfl, rfl⟩ | ⟨rfl, rfl⟩ | ⟨rfl, rfl⟩ | ⟨rfl, rfl⟩
  · refine ⟨.Div, by decide +kernel, fun s he => ?_⟩
    dsimp only
    by_cases hw : IsWord (s.get rs) ∧ IsWord (s.get rt)
    · refine computes_val (sdivAt_flo32 he h2 (fun h => div_step s.next hw.1 hw.2 h) (divHL_ne hw.1) (moves_lo _ _ _) _ (e1 hz)) ?_
      rw [if_pos hw]
      by_cases a : s.get rt = 0 ∨ s.get rs = minWord
      · rw [if_pos a, if_pos (by rcases a with a | a <;> simp [a])]; simp
      · rw [if_neg a]
        simp only [not_or] at a
        simp only [a.1, a.2, false_or, or_false]
        rw [get_next, quot32 hw.1 hw.2 a.2]
    · rw [if_neg hw]; trivial
  · refine ⟨.Rem, by decide +kernel, fun s he => ?_⟩
    dsimp only
    by_cases hw : IsWord (s.get rs) ∧ IsWord (s.get rt)
    · refine computes_val (sdivAt_flo32 he h2 (fun h => div_step s.next hw.1 hw.2 h) (divHL_ne hw.1) (moves_hi _ _ _) _ e2) ?_
      rw [if_pos hw]
      by_cases a : s.get rt = 0 ∨ s.get rs = minWord
      · rw [if_pos a, if_pos (by rcases a with a | a <;> simp [a])]; simp
      · rw [if_neg a]
        simp only [not_or] at a
        simp only [a.1, a.2, false_or, or_false]
        rw [get_next, rem32 hw.1 hw.2]
    · rw [if_neg hw]; trivial
  · refine ⟨.Ddiv, by decide +kernel, fun s he => ?_⟩
    dsimp only
    refine computes_val (sdivAt_flo64 he h2 (fun h => ddiv_step s.next h) ddivHL_ne (moves_lo _ _ _) _ (e3 hz)) ?_
    by_cases a : s.get rt = 0 ∨ s.get rs = BitVec.intMin 64
    · rw [if_pos a, if_pos (by rcases a with a | a <;> simp [a])]; simp
    · rw [if_neg a]
      simp only [not_or] at a
      simp only [a.1, a.2, false_or, or_false]
      simp only [get_next]
      rw [quot64 a.2]
  · refine ⟨.Drem, by decide +kernel, fun s he => ?_⟩
    dsimp only
    refine computes_val (sdivAt_flo64 he h2 (fun h => ddiv_step s.next h) ddivHL_ne (moves_hi _ _ _) _ e4) ?_
    by_cases a : s.get rt = 0 ∨ s.get rs = BitVec.intMin 64
    · rw [if_pos a, if_pos (by rcases a with a | a <;> simp [a])]; simp
    · rw [if_neg a]
      simp only [not_or] at a
      simp only [a.1, a.2, false_or, or_false]
      simp only [get_next]
      rw [rem64]

/-- C17, signed, with `$at` as divisor (but not as dividend), exact: the result is right, except that the least number traps whatever it
is divided by. -/
theorem C17_at_divisor [Unicode] (rt : Rt) (m : Mipsasm) (text : Str) (is : List Instruction) (warns : List ParserWarning)
    (h : assemble rt m text = .ok is warns) (k : Nat) (raw mn : Str) (rd ra : BitVec 5) (f : W64 → W64 → Val)
    (hk : (lines text)[k]? = some raw) (hc : kind raw = .code) (hi : InstrText (body raw) mn [.gpr rd, .gpr ra, .gpr at'])
    (hf : (mn, f) ∈ sdivAtOps) (ha : ra ≠ at') :
    ∃ ws, (is[codeCount ((lines text).take k)]?).map Instruction.getBytes = some ws ∧
      ∀ s, s.Entry → Computes ws s rd [at'] true (f (s.get ra) (s.get at')) := by
  obtain ⟨o, ho, h5⟩ := sdivAt_sem rd ra at' rfl hf
  refine ⟨_, reg3_words h hk hc hi ho, fun s he => ?_⟩
  have := h5 s he
  cases hv : f (s.get ra) (s.get at') with
  | undef => trivial
  | trap => simp only [hv, if_neg (show ¬ ra = 1 from ha)] at this; exact this
  | ok v => simp only [hv, if_neg (show ¬ ra = 1 from ha)] at this; exact this

/-- What dividing `$at` does. -/
def DividendX (mn : Str) (rd rb : BitVec 5) (f : W64 → W64 → Val) : Prop :=
    ∃ o, Reg3Ok mn o ∧ ∀ s : Cpu, s.Entry → f (s.get at') (s.get rb) ≠ .undef →
      (rb = 1 ∨ s.get rb = 0 ∨ s.get rb = -1 → Traps (encR o (at'.setWidth 32) (rb.setWidth 32) (rd.setWidth 32) 0#32) s) ∧
      (rb ≠ 1 → s.get rb ≠ 0 → s.get rb ≠ -1 → ∃ s', Falls (encR o (at'.setWidth 32) (rb.setWidth 32) (rd.setWidth 32) 0#32) s s' ∧ Keeps s s' [1])

/-- C17, signed, with `$at` as dividend, exact: it traps if the divisor is 0 or -1 or also `$at`; else no register but `$at` changes. -/
theorem C17_at_dividend [Unicode] (rt : Rt) (m : Mipsasm) (text : Str) (is : List Instruction) (warns : List ParserWarning)
    (h : assemble rt m text = .ok is warns) (k : Nat) (raw mn : Str) (rd rb : BitVec 5) (f : W64 → W64 → Val)
    (hk : (lines text)[k]? = some raw) (hc : kind raw = .code) (hi : InstrText (body raw) mn [.gpr rd, .gpr at', .gpr rb])
    (hf : (mn, f) ∈ sdivOps) (h0 : mn = c!"div" ∨ mn = c!"ddiv" → rb ≠ 0) :
    ∃ ws, (is[codeCount ((lines text).take k)]?).map Instruction.getBytes = some ws ∧
      ∀ s, s.Entry → f (s.get at') (s.get rb) ≠ .undef →
        (rb = at' ∨ s.get rb = 0 ∨ s.get rb = -1 → Traps ws s) ∧
        (rb ≠ at' → s.get rb ≠ 0 → s.get rb ≠ -1 → ∃ s', Falls ws s s' ∧ Keeps s s' [at']) := by
  have key : DividendX mn rd rb f := by
    by_cases hb : rb = 1
    · have hz : ∀ (s : Cpu) (o : RTypeOp) (f' : W64 → W64 → Val), (∀ a b, f a b ≠ .undef → f' a b ≠ .undef) → (Computes (encR o (at'.setWidth 32) (rb.setWidth 32) (rd.setWidth 32) 0#32) s rd [1] true
          (match f' (s.get at') (s.get rb) with | .undef => .undef | v => if at' = 1 then .trap else v)) → f (s.get at') (s.get rb) ≠ .undef →
          Traps (encR o (at'.setWidth 32) (rb.setWidth 32) (rd.setWidth 32) 0#32) s := by
        intro s o f' hff hcp hu
        have := hff _ _ hu
        cases hv : f' (s.get at') (s.get rb) with
        | undef => exact absurd hv this
        | trap => rw [hv] at hcp; exact hcp
        | ok v => rw [hv] at hcp; exact hcp
      have fin : ∀ f' : W64 → W64 → Val, (mn, f') ∈ sdivAtOps → (∀ a b, f a b ≠ .undef → f' a b ≠ .undef) → DividendX mn rd rb f := fun f' hf' hff => by
        obtain ⟨o, ho, h5⟩ := sdivAt_sem rd at' rb hb hf'
        exact ⟨o, ho, fun s he hu => ⟨fun _ => hz s o f' hff (h5 s he) hu, fun h => absurd hb h⟩⟩
      simp only [sdivOps, List.mem_cons, Prod.mk.injEq, List.not_mem_nil, or_false] at hf
      rcases hf with ⟨rfl, rfl⟩ | ⟨rfl, rfl⟩ | ⟨rfl, rfl⟩ | ⟨rfl, rfl⟩
      · refine fin _ (.head _) ?_
        intro a b hu
        by_cases hw : IsWord a ∧ IsWord b
        · rw [if_pos hw]; split <;> simp
        · exact absurd (if_neg hw) hu
      · refine fin _ (.tail _ (.head _)) ?_
        intro a b hu
        by_cases hw : IsWord a ∧ IsWord b
        · rw [if_pos hw]; split <;> simp
        · exact absurd (if_neg hw) hu
      · refine fin _ (.tail _ (.tail _ (.head _))) ?_
        intro a b _; split <;> simp
      · refine fin _ (.tail _ (.tail _ (.tail _ (.head _)))) ?_
        intro a b _; split <;> simp
    · obtain ⟨e1, e2, e3, e4, _⟩ := div_words rd at' rb
      simp only [sdivOps, List.mem_cons, Prod.mk.injEq, List.not_mem_nil, or_false] at hf
      rcases hf with ⟨rfl, rfl⟩ | ⟨rfl, rfl⟩ | ⟨rfl, rfl⟩ | ⟨rfl, rfl⟩
      · refine ⟨.Div, by decide +kernel, fun s he hu => ?_⟩
        by_cases hw : IsWord (s.get at') ∧ IsWord (s.get rb)
        · obtain ⟨k1, k2⟩ := sdivOf_flo32 he rfl hb (fun h => div_step s.next hw.1 hw.2 h) _ (e1 (h0 (.inl rfl)))
          exact ⟨fun h => k1 (h.resolve_left hb), fun _ => k2⟩
        · exact absurd (if_neg hw) hu
      · refine ⟨.Rem, by decide +kernel, fun s he hu => ?_⟩
        by_cases hw : IsWord (s.get at') ∧ IsWord (s.get rb)
        · obtain ⟨k1, k2⟩ := sdivOf_flo32 he rfl hb (fun h => div_step s.next hw.1 hw.2 h) _ e2
          exact ⟨fun h => k1 (h.resolve_left hb), fun _ => k2⟩
        · exact absurd (if_neg hw) hu
      · refine ⟨.Ddiv, by decide +kernel, fun s he _ => ?_⟩
        obtain ⟨k1, k2⟩ := sdivOf_flo64 he rfl hb (fun h => ddiv_step s.next h) _ (e3 (h0 (.inr rfl)))
        exact ⟨fun h => k1 (h.resolve_left hb), fun _ => k2⟩
      · refine ⟨.Drem, by decide +kernel, fun s he _ => ?_⟩
        obtain ⟨k1, k2⟩ := sdivOf_flo64 he rfl hb (fun h => ddiv_step s.next h) _ e4
        exact ⟨fun h => k1 (h.resolve_left hb), fun _ => k2⟩
  obtain ⟨o, ho, h5⟩ := key
  exact ⟨_, reg3_words h hk hc hi ho, h5⟩

/-- Runs with `$at`: 20 / 4 is right by `$at`; the least word divided by 2 traps; `$at` divided by itself traps. -/
example : resultOf c!"div $v0, $a0, $at" (cpu2 4 20 1 4) 2 = some 5 ∧ resultOf c!"drem $v0, $a0, $at" (cpu2 4 23 1 7) 2 = some 2 := by decide +kernel
example : Traps (wordsOf c!"div $v0, $a0, $at") (cpu2 4 minWord 1 2) ∧ Traps (wordsOf c!"ddiv $v0, $at, $at") (cpu1 1 7) :=
  ⟨traps_of 10 (by decide +kernel), traps_of 10 (by decide +kernel)⟩

/-! ### division by `$zero` -/

theorem div2_words (rd rs : BitVec 5) :
    encR .Div (rs.setWidth 32) ((0 : BitVec 5).setWidth 32) (rd.setWidth 32) 0#32 = [rWord 0 rd rs 0 0 26] ∧
    encR .Divu (rs.setWidth 32) ((0 : BitVec 5).setWidth 32) (rd.setWidth 32) 0#32 = [rWord 0 rd rs 0 0 27] ∧
    encR .Ddiv (rs.setWidth 32) ((0 : BitVec 5).setWidth 32) (rd.setWidth 32) 0#32 = [rWord 0 rd rs 0 0 30] ∧
    encR .Ddivu (rs.setWidth 32) ((0 : BitVec 5).setWidth 32) (rd.setWidth 32) 0#32 = [rWord 0 rd rs 0 0 31] := by
  simp [encR, rWord_or, BitVec.or_assoc]

/-- C17, `div`, `divu`, `ddiv`, `ddivu` with `$zero` as divisor, exact: no trap and no register changes; LO and HI get the quotient and the
remainder of the *destination* by the dividend (where the machine defines them). -/
theorem C17_zero_exact [Unicode] (rt : Rt) (m : Mipsasm) (text : Str) (is : List Instruction) (warns : List ParserWarning)
    (h : assemble rt m text = .ok is warns) (k : Nat) (raw mn : Str) (rd ra : BitVec 5) (f : W64 → W64 → Option (W64 × W64))
    (hk : (lines text)[k]? = some raw) (hc : kind raw = .code) (hi : InstrText (body raw) mn [.gpr rd, .gpr ra, .gpr 0])
    (hf : (mn, f) ∈ twoOps) :
    ∃ ws, (is[codeCount ((lines text).take k)]?).map Instruction.getBytes = some ws ∧
      ∀ s, s.Entry → ∀ q r, f (s.get rd) (s.get ra) = some (q, r) →
        ∃ s', Falls ws s s' ∧ Keeps s s' [] ∧ s'.lo = some q ∧ s'.hi = some r := by
  have one : ∀ {w : W32} {nm : Str} {as : List Arg} {s : Cpu} {hi lo : W64}, s.Entry → decoding w = some (nm, as) →
      exec s nm as = .next (s.hlo (some hi) (some lo)).next → ∃ s', Falls [w] s s' ∧ Keeps s s' [] ∧ s'.lo = some lo ∧ s'.hi = some hi := by
    intro w nm as s hi lo he hd hx
    exact ⟨_, (chain_step rfl hd hx rfl (chain_end _ rfl)).falls he, fun _ _ => rfl, rfl, rfl⟩
  obtain ⟨e1, e2, e3, e4⟩ := div2_words rd ra
  simp only [twoOps, List.mem_cons, Prod.mk.injEq, List.not_mem_nil, or_false] at hf
  rcases hf with ⟨rfl, rfl⟩ | ⟨rfl, rfl⟩ | ⟨rfl, rfl⟩ | ⟨rfl, rfl⟩
  · refine ⟨_, reg3_words (o := .Div) h hk hc hi (by decide +kernel), fun s he q r hq => ?_⟩
    rw [e1]
    dsimp only at hq
    split at hq
    · rename_i hw
      cases hq
      have hx := div_step s (a := rd) (b := ra) hw.1 hw.2.1 hw.2.2.1
      have hne : ¬ (low (s.get rd) = BitVec.intMin 32 ∧ low (s.get ra) = -1) := fun e =>
        hw.2.2.2 ⟨(minWord_iff hw.1).2 e.1, (low_m1 hw.2.1).2 e.2⟩
      simp only [divHL, if_neg hne] at hx
      rw [rem32 hw.1 hw.2.1] at hx
      refine one he (dec_div _ _ _ _) (hx.trans ?_)
      have hquot : sext ((low (s.get rd)).sdiv (low (s.get ra))) = BitVec.ofInt 64 ((s.get rd).toInt.tdiv (s.get ra).toInt) := by
        rw [hw.1.toInt, hw.2.1.toInt, ← BitVec.toInt_sdiv_of_ne_or_ne _ _ (by
          by_cases e : low (s.get rd) = BitVec.intMin 32
          · exact .inr (fun e' => hne ⟨e, e'⟩)
          · exact .inl e), ← toInt_sext, BitVec.ofInt_toInt]
      rw [hquot]
    · cases hq
  · refine ⟨_, reg3_words (o := .Divu) h hk hc hi (by decide +kernel), fun s he q r hq => ?_⟩
    rw [e2]
    dsimp only at hq
    split at hq
    · rename_i hw
      cases hq
      rw [udiv_nat, umod_nat]
      exact one he (dec_divu _ _ _ _) (divu_step s hw.1 hw.2.1 hw.2.2)
    · cases hq
  · refine ⟨_, reg3_words (o := .Ddiv) h hk hc hi (by decide +kernel), fun s he q r hq => ?_⟩
    rw [e3]
    dsimp only at hq
    split at hq
    · rename_i hw
      cases hq
      have hx := ddiv_step s (a := rd) (b := ra) hw.1
      simp only [ddivHL, if_neg hw.2] at hx
      rw [rem64] at hx
      refine one he (dec_ddiv _ _ _ _) (hx.trans ?_)
      have hquot : (s.get rd).sdiv (s.get ra) = BitVec.ofInt 64 ((s.get rd).toInt.tdiv (s.get ra).toInt) := by
        rw [← BitVec.toInt_sdiv_of_ne_or_ne _ _ (by
          by_cases e : s.get rd = BitVec.intMin 64
          · exact .inr (fun e' => hw.2 ⟨e, e'⟩)
          · exact .inl e), BitVec.ofInt_toInt]
      rw [hquot]
    · cases hq
  · refine ⟨_, reg3_words (o := .Ddivu) h hk hc hi (by decide +kernel), fun s he q r hq => ?_⟩
    rw [e4]
    dsimp only at hq
    split at hq
    · rename_i hw
      cases hq
      rw [udiv_nat, umod_nat]
      exact one he (dec_ddivu _ _ _ _) (ddivu_step s hw)
    · cases hq

/-- The hypotheses are met: `divu $v0, $a0, $zero` with 5 in `$a0` and 7 in `$v0` leaves 7 in `$v0`, as in `C17_divu_zero_wrong`; LO gets 1 and HI 2. -/
example : ∃ f : W64 → W64 → Option (W64 × W64), (c!"divu", f) ∈ twoOps ∧ f 7 5 = some (1, 2) := by
  refine ⟨_, .tail _ (.head _), ?_⟩
  decide +kernel

/-! ### absolute values -/

/-- What `abs` and `dabs` leave if an operand is `$at`, or (for `dabs`) the destination is `$zero`: 0 if the destination is `$at`; the
negated sign if the source is. -/
theorem C14_abs_exact [Unicode] (rt : Rt) (m : Mipsasm) (text : Str) (is : List Instruction) (warns : List ParserWarning)
    (h : assemble rt m text = .ok is warns) (k : Nat) (raw : Str) (rd rs : BitVec 5)
    (hk : (lines text)[k]? = some raw) (hc : kind raw = .code) (hi : InstrText (body raw) c!"abs" [.gpr rd, .gpr rs])
    (hat : rd = at' ∨ rs = at') :
    ∃ ws, (is[codeCount ((lines text).take k)]?).map Instruction.getBytes = some ws ∧
      ∀ s, s.Entry → IsWord (s.get rs) → Computes ws s rd [at'] false (.ok (if rd = at' then 0 else if (s.get rs).toInt < 0 then 1 else 0)) := by
  refine ⟨_, line_words h hk hc (fun x _ => emits_reg2 (o := .Abs) x hi (by decide +kernel) (by decide +kernel) (by decide) (by decide) rt.ovf), ?_⟩
  intro s he hw
  obtain ⟨_, _, _, _, _, _, _, e, _, _⟩ := unary_words rd rs
  rw [e]
  let m : W64 := sext ((low (s.get rs)).sshiftRight 31)
  let s1 := (s.set 1 m).next
  let s2 := (s1.set rd (s1.get rs ^^^ s1.get 1)).next
  have n : (1 : BitVec 5) ≠ 0 := by decide
  have x1 : exec s c!"sra" [.gpr 1, .gpr rs, .sa 31] = .next s1 := by
    show s.write 1 (if IsWord (s.get rs) then .ok (sext ((low (s.get rs)).sshiftRight 31)) else .undef) = _
    rw [if_pos hw]; rfl
  have x2 : exec s1 c!"xor" [.gpr rd, .gpr rs, .gpr 1] = .next s2 := rfl
  have g1 : s1.get 1 = m := getset0 n
  have hm : IsWord m := isWord_sext _
  have hm' : m = if (s.get rs).toInt < 0 then -1 else 0 := by
    show sext ((low (s.get rs)).sshiftRight 31) = _
    rw [sra31, BitVec.msb_eq_toInt, hw.toInt]
    by_cases h : (low (s.get rs)).toInt < 0
    · simp only [h, decide_true, if_true]; decide
    · simp only [h, decide_false, if_false]; decide
  have g2 : IsWord (s2.get rd) ∧ IsWord (s2.get 1) ∧ (rd ≠ 0 → sext (low (s2.get rd) - low (s2.get 1)) = if rd = at' then 0 else if (s.get rs).toInt < 0 then 1 else 0) := by
    by_cases hd : rd = 1
    · subst hd
      have g : s2.get 1 = s1.get rs ^^^ s1.get 1 := getset0 n
      have hs : IsWord (s1.get rs) := by
        by_cases h : rs = 1
        · rw [h, g1]; exact hm
        · rw [show s1.get rs = s.get rs from getset1 h]; exact hw
      have hx : IsWord (s2.get 1) := by
        rw [g, g1]
        have : sext (low (s1.get rs)) = s1.get rs := hs
        rw [← this]
        rw [show sext (low (s1.get rs)) ^^^ m = sext (low (s1.get rs) ^^^ (low (s.get rs)).sshiftRight 31) from BitVec.signExtend_xor.symm]
        exact isWord_sext _
      refine ⟨hx, hx, fun _ => ?_⟩
      rw [if_pos (show (1 : BitVec 5) = at' from rfl), BitVec.sub_self]; decide
    · have hs : rs = 1 := hat.resolve_left hd
      have g3 : s2.get 1 = m := (getset1 (Ne.symm hd)).trans g1
      have g4 : s2.get rd = 0 := by
        by_cases h0 : rd = 0
        · rw [h0]; rfl
        · rw [show s2.get rd = _ from getset0 h0, hs, BitVec.xor_self]; rfl
      refine ⟨by rw [g4]; decide, by rw [g3]; exact hm, fun _ => ?_⟩
      rw [g3, g4, hm', if_neg (show ¬ rd = at' from hd)]
      split <;> decide
  have x3 : exec s2 c!"subu" [.gpr rd, .gpr rd, .gpr 1] = .next (s2.set rd (sext (low (s2.get rd) - low (s2.get 1)))).next := by
    show s2.write rd (if IsWord (s2.get rd) ∧ IsWord (s2.get 1) then .ok (sext (low (s2.get rd) - low (s2.get 1))) else .undef) = _
    rw [if_pos ⟨g2.1, g2.2.1⟩]; rfl
  refine ⟨_, (chain_step rfl (dec_sra _ _ _ _) x1 (set_npc _ _ _) (chain_step rfl (dec_xor _ _ _ _) x2 (set_npc _ _ _)
      (chain_step rfl (dec_subu _ _ _ _) x3 (set_npc _ _ _) (chain_end _ rfl)))).falls he, ?_, ?_, by intro _; simp [s2, s1]⟩
  · intro h0
    rw [getset0 h0]; exact g2.2.2 h0
  · intro r hr
    simp only [List.mem_cons, List.not_mem_nil, or_false, not_or] at hr
    exact (getset1 hr.1).trans ((getset1 hr.1).trans (getset1 (show r ≠ 1 from hr.2)))

/-- C14, `dabs` if an operand is `$at` or the destination is `$zero`: it never traps. -/
theorem C14_dabs_at_exact [Unicode] (rt : Rt) (m : Mipsasm) (text : Str) (is : List Instruction) (warns : List ParserWarning)
    (h : assemble rt m text = .ok is warns) (k : Nat) (raw : Str) (rd rs : BitVec 5)
    (hk : (lines text)[k]? = some raw) (hc : kind raw = .code) (hi : InstrText (body raw) c!"dabs" [.gpr rd, .gpr rs])
    (hat : rd = at' ∨ rs = at' ∨ rd = 0) :
    ∃ ws, (is[codeCount ((lines text).take k)]?).map Instruction.getBytes = some ws ∧
      ∀ s, s.Entry → Computes ws s rd [at'] false (.ok (if rd = at' then 0 else - (s.get rs).sshiftRight 31)) := by
  refine ⟨_, line_words h hk hc (fun x _ => emits_reg2 (o := .Dabs) x hi (by decide +kernel) (by decide +kernel) (by decide) (by decide) rt.ovf), ?_⟩
  intro s he
  obtain ⟨_, _, _, _, _, _, _, _, e, _⟩ := unary_words rd rs
  rw [e]
  let m : W64 := (s.get rs).sshiftRight 31
  let s1 := (s.set 1 m).next
  let s2 := (s1.set rd (s1.get rs ^^^ s1.get 1)).next
  have n : (1 : BitVec 5) ≠ 0 := by decide
  have x1 : exec s c!"dsra" [.gpr 1, .gpr rs, .sa 31] = .next s1 := rfl
  have x2 : exec s1 c!"xor" [.gpr rd, .gpr rs, .gpr 1] = .next s2 := rfl
  have g1 : s1.get 1 = m := getset0 n
  have hov : ∀ x : W64, BitVec.ssubOverflow 0 (x.sshiftRight 31) = false := by
    intro x
    have hb := BitVec.toInt_lt (x := x)
    have hb2 := BitVec.le_toInt (x := x)
    have e : (x.sshiftRight 31).toInt = x.toInt / 2147483648 := by
      rw [BitVec.toInt_sshiftRight, Int.shiftRight_eq_div_pow]; rfl
    simp only [Nat.reduceSub] at hb hb2
    simp only [BitVec.ssubOverflow, e]
    have e0 : (0 : W64).toInt = 0 := rfl
    rw [e0]
    simp only [Nat.reduceSub, Bool.or_eq_false_iff, decide_eq_false_iff_not]
    constructor <;> omega
  have g2 : BitVec.ssubOverflow (s2.get rd) (s2.get 1) = false ∧ (rd ≠ 0 → s2.get rd - s2.get 1 = if rd = at' then 0 else - m) := by
    by_cases hd : rd = 1
    · subst hd
      refine ⟨?_, fun _ => by rw [if_pos (show (1 : BitVec 5) = at' from rfl), BitVec.sub_self]; rfl⟩
      have hb := BitVec.toInt_lt (x := s2.get 1)
      simp only [BitVec.ssubOverflow, Int.sub_self]
      decide
    · have g3 : s2.get 1 = m := (getset1 (Ne.symm hd)).trans g1
      have g4 : s2.get rd = 0 := by
        by_cases h0 : rd = 0
        · rw [h0]; rfl
        · have hs : rs = 1 := (hat.resolve_left hd).resolve_right h0
          rw [show s2.get rd = _ from getset0 h0, hs, BitVec.xor_self]; rfl
      rw [g3, g4]
      refine ⟨hov _, fun _ => ?_⟩
      rw [if_neg (show ¬ rd = at' from hd)]
      exact BitVec.zero_sub m
  have x3 : exec s2 c!"dsub" [.gpr rd, .gpr rd, .gpr 1] = .next (s2.set rd (s2.get rd - s2.get 1)).next := by
    show s2.write rd (if BitVec.ssubOverflow (s2.get rd) (s2.get 1) = true then _ else _) = _
    rw [g2.1]; rfl
  refine ⟨_, (chain_step rfl (dec_dsra _ _ _ _) x1 (set_npc _ _ _) (chain_step rfl (dec_xor _ _ _ _) x2 (set_npc _ _ _)
      (chain_step rfl (dec_dsub _ _ _ _) x3 (set_npc _ _ _) (chain_end _ rfl)))).falls he, ?_, ?_, by intro _; simp [s2, s1]⟩
  · intro h0
    rw [getset0 h0]; exact g2.2 h0
  · intro r hr
    simp only [List.mem_cons, List.not_mem_nil, or_false, not_or] at hr
    exact (getset1 hr.1).trans ((getset1 hr.1).trans (getset1 (show r ≠ 1 from hr.2)))

/-- In agreement with runs: `abs $v0, $at` gives 0 for 5 (`C14_abs_at`) and 1 for -5, `abs $at, $a0` and `dabs $at, $a0` give 0. -/
example : resultOf c!"abs $v0, $at" (cpu1 1 (-5)) 2 = some 1 ∧ resultOf c!"abs $at, $a0" (cpu1 4 (-5)) 1 = some 0 ∧
    resultOf c!"dabs $v0, $at" (cpu1 1 (-5)) 2 = some 1 ∧ resultOf c!"dabs $at, $a0" (cpu1 4 7) 1 = some 0 := by decide +kernel

end Mips
