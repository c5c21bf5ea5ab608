import Verif.Spec.Report
/-
C15: set-on-compare pseudo-instructions.
-/
import Verif.Lemmas.PseudoL
import Verif.Spec.Pseudo

namespace Mips
open Isa Machine Syntax Source Pseudo

theorem slt_int (a b : W64) : a.slt b = decide (a.toInt < b.toInt) := by simp [BitVec.slt]
theorem ult_nat (a b : W64) : a.ult b = decide (a.toNat < b.toNat) := by simp [BitVec.ult]

theorem flag_not (p : Bool) : flag p ^^^ (1#16).setWidth 64 = flag (!p) := by cases p <;> decide

theorem xor_ult1 (a b : W64) : (a ^^^ b).ult ((1#16).signExtend 64) = decide (a = b) := by
  rw [ult_nat, decide_eq_decide]
  have : ((1#16).signExtend 64).toNat = 1 := by decide
  rw [this]
  constructor
  · intro h
    have h0 : (a ^^^ b) = 0 := BitVec.eq_of_toNat_eq (by simpa using h)
    exact BitVec.xor_eq_zero_iff.1 h0
  · rintro rfl; simp

theorem zero_ult_xor (a b : W64) : (0 : W64).ult (a ^^^ b) = decide (a ≠ b) := by
  rw [ult_nat, decide_eq_decide]
  constructor
  · rintro h rfl; simp at h
  · intro h
    have h0 : (a ^^^ b) ≠ 0 := fun h' => h (BitVec.xor_eq_zero_iff.1 h')
    have : (a ^^^ b).toNat ≠ 0 := fun h' => h0 (BitVec.eq_of_toNat_eq (by simpa using h'))
    simp only [BitVec.ofNat_eq_ofNat, BitVec.toNat_ofNat]; omega

/-- What a comparison sequence does. -/
def SetsFlag (ws : List Word) (rd rs rt : BitVec 5) (f : W64 → W64 → Bool) : Prop :=
  ∀ s, s.Entry → ∃ s', Falls ws s s' ∧ (rd ≠ 0 → s'.get rd = flag (f (s.get rs) (s.get rt))) ∧ Keeps s s' [rd] ∧
    s'.hi = s.hi ∧ s'.lo = s.lo

theorem sets1 {w : Word} {rd rs rt a b : BitVec 5} {f g : W64 → W64 → Bool} {mn : Str} (hd : decoding w = some (mn, [.gpr rd, .gpr a, .gpr b]))
    (hx : ∀ s : Cpu, exec s mn [.gpr rd, .gpr a, .gpr b] = .next (s.set rd (flag (g (s.get a) (s.get b)))).next)
    (hf : ∀ s : Cpu, g (s.get a) (s.get b) = f (s.get rs) (s.get rt)) : SetsFlag [w] rd rs rt f := by
  intro s he
  refine ⟨_, (chain_step rfl hd (hx s) (set_npc _ _ _) (chain_end _ rfl)).falls he, ?_, ?_, by simp, by simp⟩
  · intro h0; rw [get_next, get_set_self _ _ h0, hf]
  · intro r hr; rw [get_next, get_set_ne]; simpa using hr

theorem sets2 {w1 w2 : Word} {rd rs rt : BitVec 5} {f : W64 → W64 → Bool} {mn1 mn2 : Str} {as1 as2 : List Arg}
    {v1 : Cpu → W64} {v2 : W64 → W64}
    (hd1 : decoding w1 = some (mn1, as1)) (hd2 : decoding w2 = some (mn2, as2))
    (hx1 : ∀ s : Cpu, exec s mn1 as1 = .next (s.set rd (v1 s)).next)
    (hx2 : ∀ s : Cpu, exec s mn2 as2 = .next (s.set rd (v2 (s.get rd))).next)
    (hf : ∀ s : Cpu, v2 (v1 s) = flag (f (s.get rs) (s.get rt))) : SetsFlag [w1, w2] rd rs rt f := by
  intro s he
  refine ⟨_, (chain_step rfl hd1 (hx1 s) (set_npc _ _ _) (chain_step rfl hd2 (hx2 _) (set_npc _ _ _) (chain_end _ rfl))).falls he, ?_, ?_, by simp, by simp⟩
  · intro h0; rw [get_next, get_set_self _ _ h0, get_next, get_set_self _ _ h0, hf]
  · intro r hr
    have hr : r ≠ rd := by simpa using hr
    rw [get_next, get_set_ne _ _ hr, get_next, get_set_ne _ _ hr]

theorem set_words (rd rs rt : BitVec 5) :
    encR .Seq (rs.setWidth 32) (rt.setWidth 32) (rd.setWidth 32) 0#32 = [rWord 0 rs rt rd 0 38, iWord 11 rd rd 1] ∧
    encR .Sne (rs.setWidth 32) (rt.setWidth 32) (rd.setWidth 32) 0#32 = [rWord 0 rs rt rd 0 38, rWord 0 0 rd rd 0 43] ∧
    encR .Sge (rs.setWidth 32) (rt.setWidth 32) (rd.setWidth 32) 0#32 = [rWord 0 rs rt rd 0 42, iWord 14 rd rd 1] ∧
    encR .Sgeu (rs.setWidth 32) (rt.setWidth 32) (rd.setWidth 32) 0#32 = [rWord 0 rs rt rd 0 43, iWord 14 rd rd 1] ∧
    encR .Sgt (rs.setWidth 32) (rt.setWidth 32) (rd.setWidth 32) 0#32 = [rWord 0 rt rs rd 0 42] ∧
    encR .Sgtu (rs.setWidth 32) (rt.setWidth 32) (rd.setWidth 32) 0#32 = [rWord 0 rt rs rd 0 43] ∧
    encR .Sle (rs.setWidth 32) (rt.setWidth 32) (rd.setWidth 32) 0#32 = [rWord 0 rt rs rd 0 42, iWord 14 rd rd 1] ∧
    encR .Sleu (rs.setWidth 32) (rt.setWidth 32) (rd.setWidth 32) 0#32 = [rWord 0 rt rs rd 0 43, iWord 14 rd rd 1] := by
  simp [encR, rWord_or, iWord_or, BitVec.or_assoc]

theorem set_sem (rd rs rt : BitVec 5) {mn : Str} {f : W64 → W64 → Bool} (h : (mn, f) ∈ setOps) :
    ∃ o, RTypeOp.fromStr mn = some o ∧ classify mn = .reg3 ∧ mnOk mn = true ∧ mn ∉ [c!"break", c!"syscall", c!"sll", c!"jalr"] ∧
      SetsFlag (encR o (rs.setWidth 32) (rt.setWidth 32) (rd.setWidth 32) 0#32) rd rs rt f := by
  obtain ⟨e1, e2, e3, e4, e5, e6, e7, e8⟩ := set_words rd rs rt
  simp only [setOps, List.mem_cons, Prod.mk.injEq, List.not_mem_nil, or_false] at h
  rcases h with ⟨rfl, rfl⟩ | ⟨rfl, rfl⟩ | ⟨rfl, rfl⟩ | ⟨rfl, rfl⟩ | ⟨rfl, rfl⟩ | ⟨rfl, rfl⟩ | ⟨rfl, rfl⟩ | ⟨rfl, rfl⟩
  · refine ⟨.Seq, by decide +kernel, by decide +kernel, by decide, by decide, ?_⟩
    rw [e1]
    exact sets2 (dec_xor _ _ _ _) (dec_sltiu _ _ _) (v1 := fun s => s.get rs ^^^ s.get rt) (v2 := fun v => flag (v.ult ((1#16).signExtend 64)))
      (fun _ => rfl) (fun _ => rfl) (fun s => by rw [xor_ult1])
  · refine ⟨.Sne, by decide +kernel, by decide +kernel, by decide, by decide, ?_⟩
    rw [e2]
    exact sets2 (dec_xor _ _ _ _) (dec_sltu _ _ _ _) (v1 := fun s => s.get rs ^^^ s.get rt) (v2 := fun v => flag ((0 : W64).ult v))
      (fun _ => rfl) (fun _ => rfl) (fun s => by rw [zero_ult_xor])
  · refine ⟨.Sge, by decide +kernel, by decide +kernel, by decide, by decide, ?_⟩
    rw [e3]
    exact sets2 (dec_slt _ _ _ _) (dec_xori _ _ _) (v1 := fun s => flag ((s.get rs).slt (s.get rt))) (v2 := fun v => v ^^^ (1#16).setWidth 64)
      (fun _ => rfl) (fun _ => rfl) (fun s => by rw [flag_not, slt_int, ← decide_not]; congr 2; simp)
  · refine ⟨.Sgeu, by decide +kernel, by decide +kernel, by decide, by decide, ?_⟩
    rw [e4]
    exact sets2 (dec_sltu _ _ _ _) (dec_xori _ _ _) (v1 := fun s => flag ((s.get rs).ult (s.get rt))) (v2 := fun v => v ^^^ (1#16).setWidth 64)
      (fun _ => rfl) (fun _ => rfl) (fun s => by rw [flag_not, ult_nat, ← decide_not]; congr 2; simp)
  · refine ⟨.Sgt, by decide +kernel, by decide +kernel, by decide, by decide, ?_⟩
    rw [e5]
    exact sets1 (dec_slt _ _ _ _) (g := fun a b => a.slt b) (fun _ => rfl) (fun s => slt_int _ _)
  · refine ⟨.Sgtu, by decide +kernel, by decide +kernel, by decide, by decide, ?_⟩
    rw [e6]
    exact sets1 (dec_sltu _ _ _ _) (g := fun a b => a.ult b) (fun _ => rfl) (fun s => ult_nat _ _)
  · refine ⟨.Sle, by decide +kernel, by decide +kernel, by decide, by decide, ?_⟩
    rw [e7]
    exact sets2 (dec_slt _ _ _ _) (dec_xori _ _ _) (v1 := fun s => flag ((s.get rt).slt (s.get rs))) (v2 := fun v => v ^^^ (1#16).setWidth 64)
      (fun _ => rfl) (fun _ => rfl) (fun s => by rw [flag_not, slt_int, ← decide_not]; congr 2; simp)
  · refine ⟨.Sleu, by decide +kernel, by decide +kernel, by decide, by decide, ?_⟩
    rw [e8]
    exact sets2 (dec_sltu _ _ _ _) (dec_xori _ _ _) (v1 := fun s => flag ((s.get rt).ult (s.get rs))) (v2 := fun v => v ^^^ (1#16).setWidth 64)
      (fun _ => rfl) (fun _ => rfl) (fun s => by rw [flag_not, ult_nat, ← decide_not]; congr 2; simp)

/-- C15: in every program that assembles, executing the words emitted for a set-on-compare line leaves in
`rd` the truth value of the comparison of the 64-bit operands, whatever registers coincide (unless `rd` is
`$zero`, which cannot be written), and changes nothing else. -/
theorem C15_set [Unicode] (rt : Rt) (m : Mipsasm) (text : Str) (is : List Instruction) (warns : List ParserWarning)
    (h : assemble rt m text = .ok is warns) (k : Nat) (raw mn : Str) (rd ra rb : BitVec 5) (f : W64 → W64 → Bool)
    (hk : (lines text)[k]? = some raw) (hc : kind raw = .code) (hi : InstrText (body raw) mn [.gpr rd, .gpr ra, .gpr rb])
    (hf : (mn, f) ∈ setOps) :
    ∃ ws, (is[codeCount ((lines text).take k)]?).map Instruction.getBytes = some ws ∧
      ∀ s, s.Entry → ∃ s', Falls ws s s' ∧ (rd ≠ 0 → s'.get rd = flag (f (s.get ra) (s.get rb))) ∧ Keeps s s' [rd] ∧
        s'.hi = s.hi ∧ s'.lo = s.lo := by
  obtain ⟨o, h1, h2, h3, h4, h5⟩ := set_sem rd ra rb hf
  exact ⟨_, line_words h hk hc (fun x _ => emits_reg3 x hi h1 (Or.inl h2) h3 h4 rt.ovf), h5⟩

/-- Non-vacuity: `sge $t0, $t0, $a1` is such a line. -/
example : InstrText (body c!"sge $t0, $t0, $a1") c!"sge" [.gpr 8, .gpr 8, .gpr 5] ∧ kind c!"sge $t0, $t0, $a1" = .code ∧
    (@assemble asciiUnicode (idRt true) Mipsasm.new c!"sge $t0, $t0, $a1").words = some [0x0105402a#32, 0x39080001#32] := by
  refine ⟨?_, by decide +kernel, by decide +kernel⟩
  rw [show body c!"sge $t0, $t0, $a1" = c!"sge" ++ ' ' :: (c!"$t0" ++ ',' :: (c!" $t0" ++ ',' :: c!" $a1")) by decide +kernel]
  refine .args _ _ _ _ (by unfold SameName; decide) (by decide) (.cons _ _ _ _ ?_ (.cons _ _ _ _ ?_ (.one _ _ ?_)))
  · exact .gpr _ _ (.dollar [] c!"t0" [] 8 (by simp [Blank]) (by simp [Blank]) (.name _ c!"t0" _ (by decide) (by unfold SameName; decide)))
  · exact .gpr _ _ (.dollar [' '] c!"t0" [] 8 (by simp [Blank]; decide) (by simp [Blank]) (.name _ c!"t0" _ (by decide) (by unfold SameName; decide)))
  · exact .gpr _ _ (.dollar [' '] c!"a1" [] 5 (by simp [Blank]; decide) (by simp [Blank]) (.name _ c!"a1" _ (by decide) (by unfold SameName; decide)))

end Mips
