/- The instructions returned by a successful assembly. -/
import Verif.Lemmas.InstL
import Verif.Lemmas.LineL

namespace Mips
open Isa Syntax Source Branch

/-- What an instruction returned for a line of class `cls` and mnemonic `key` looks like. -/
def Final (ovf : Bool) (cls : Cls) (key : Str) : Instruction → Prop
  | .imm o rs rt im b => o.name = key ∧
      ((∃ v, im = .short v ∧ encI ovf o rs.num rt.num (v.setWidth 32) (v.setWidth 64) = some b) ∨
       ((cls = .li ∨ cls = .liu ∨ cls = .dli) ∧ ∃ v, im = .long v ∧
        encI ovf o rs.num rt.num (v.setWidth 32) v = some b))
  | .reg o rs rt rd sa b => b = encR o rs.num rt.num rd.num sa ∧
      ((o.name = key ∧ (sa = 0#32 ∨ cls = .shift ∨ (cls = .code ∧ sa.toNat < 2 ^ 16))) ∨
       ((o = .Cs ∨ o = .Cd) ∧ sa.toNat < 16 ∧ cls = .other))
  | .jump o t b => o.name = key ∧ ∃ a, t = .address a ∧ b = encJ o a
  | .bytes _ => False

theorem brName {cls : Cls} {o : ITypeOp} (hc : classify o.name = cls) (h : cls = .br1 ∨ cls = .br2 ∨ cls = .b ∨ cls = .bc) :
    startsWith c!"b" o.name = true := by
  revert hc h
  cases cls <;> simp <;> cases o <;> decide

theorem final_of [Unicode] {env : Env} {s : PState} {n : Nat} {e : Nat} {p a b : Instruction} {key : Str}
    (hp : ParsedAs (classify key) key p) (ha : adjust1 env s n (e, p) = some (a, [])) (hb : assembleInst env.rt.ovf a = some b) :
    Final env.rt.ovf (classify key) key b := by
  cases p with
  | bytes w =>
    simp only [adjust1, Option.some.injEq, Prod.mk.injEq, and_true] at ha
    subst ha
    simp [assembleInst, encode, Instruction.pushBytes] at hb
  | reg o rs rt rd sa bs =>
    obtain ⟨rfl, hp⟩ := hp
    simp only [adjust1, Option.some.injEq, Prod.mk.injEq, and_true] at ha
    subst ha
    simp [assembleInst, encode, Instruction.pushBytes] at hb
    subst hb
    exact ⟨rfl, hp⟩
  | jump o t bs =>
    obtain ⟨rfl, hn, hj⟩ := hp
    cases t with
    | address v =>
      simp only [adjust1, Option.some.injEq, Prod.mk.injEq, and_true] at ha
      subst ha
      simp [assembleInst, encode, Target.asU32, Instruction.pushBytes] at hb
      subst hb
      exact ⟨hn, v, rfl, rfl⟩
    | label l =>
      simp only [adjust1] at ha
      split at ha
      · simp only [opt_bind, Option.bind_eq_some_iff] at ha
        obtain ⟨_, _, h⟩ := ha
        simp at h
      · simp only [opt_bind, Option.bind_eq_some_iff] at ha
        obtain ⟨a4, _, t, _, h⟩ := ha
        simp only [Option.some.injEq, Prod.mk.injEq, and_true] at h
        subst h
        simp [assembleInst, encode, Target.asU32, Instruction.pushBytes] at hb
        subst hb
        exact ⟨hn, t, rfl, rfl⟩
  | imm o rs rt im bs =>
    obtain ⟨rfl, hn, hf⟩ := hp
    have short : ∀ v, a = .imm o rs rt (.short v) [] → Final env.rt.ovf (classify key) key b := by
      intro v e
      subst e
      simp [assembleInst, encode, Immediate.asU32, Immediate.asU64, Instruction.pushBytes, Option.bind_eq_some_iff] at hb
      obtain ⟨ws, h1, h2⟩ := hb
      subst h2
      exact ⟨hn, .inl ⟨v, rfl, h1⟩⟩
    cases im with
    | short v =>
      simp only [adjust1, Option.some.injEq, Prod.mk.injEq, and_true] at ha
      exact short v ha.symm
    | long v =>
      simp only [adjust1, Option.some.injEq, Prod.mk.injEq, and_true] at ha
      subst ha
      have hc : classify key = .li ∨ classify key = .liu ∨ classify key = .dli := by
        revert hf; generalize classify key = c; cases c <;> simp [clsTy, Fits]
      unfold assembleInst at hb
      simp only [opt_bind, Option.bind_eq_some_iff] at hb
      obtain ⟨ws, h1, h2⟩ := hb
      simp only [Instruction.pushBytes, Option.some.injEq] at h2
      subst h2
      simp only [encode, Immediate.asU32, Immediate.asU64, opt_bind, Option.bind_some] at h1
      exact ⟨hn, .inr ⟨hc, v, rfl, h1⟩⟩
    | int v =>
      have hc : classify key = .br1 ∨ classify key = .br2 ∨ classify key = .b ∨ classify key = .bc := by
        revert hf; generalize classify key = c; cases c <;> simp [clsTy, Fits]
      have hs : startsWith c!"b" o.name = true := brName rfl (by rw [hn]; exact hc)
      simp only [adjust1, hs, Bool.not_true, Bool.false_eq_true, if_false] at ha
      simp only [opt_bind, Option.bind_eq_some_iff] at ha
      obtain ⟨n4, _, hi, _, errs, _, h⟩ := ha
      simp only [Option.some.injEq, Prod.mk.injEq] at h
      exact short _ h.1.symm
    | label l =>
      simp only [adjust1, opt_bind, Option.bind_eq_some_iff] at ha
      obtain ⟨_, _, h⟩ := ha
      simp only [Option.some.injEq, Prod.mk.injEq, and_true] at h
      exact short _ h.symm
    | localLabel l =>
      simp only [adjust1] at ha
      split at ha
      · simp only [opt_bind, Option.bind_eq_some_iff] at ha
        obtain ⟨_, _, h⟩ := ha
        simp at h
      · simp only [opt_bind, Option.bind_eq_some_iff] at ha
        obtain ⟨r, _, h⟩ := ha
        cases r with
        | none =>
          simp only [Option.bind_eq_some_iff] at h
          obtain ⟨_, _, h⟩ := h
          simp at h
        | some addr =>
          simp only [Option.some.injEq, Prod.mk.injEq, and_true] at h
          exact short _ h.symm

/-- The instruction returned for a code line. -/
theorem line_final [Unicode] {rt : Rt} {m : Mipsasm} {text : Str} {is : List Instruction} {warns : List ParserWarning}
    (h : assemble rt m text = .ok is warns) {k : Nat} {raw : Str} (hk : (lines text)[k]? = some raw) (hc : kind raw = .code) :
    ∃ i, is[codeCount ((lines text).take k)]? = some i ∧ Final rt.ovf (classify (mnemonic (body raw))) (mnemonic (body raw)) i := by
  obtain ⟨tr, x, wn, p, a, b, _, _, _, hx, _, hp, ha, hb, hab, hi, _⟩ := line_done h hk hc
  refine ⟨b, hi, ?_⟩
  have hne : body raw ≠ [] := by
    intro e; rw [Source.kind] at hc; simp [e] at hc; revert hc; decide
  rw [parseInst_eq x hne] at hp
  have := parseArm_parsed x (classify (mnemonic (body raw))) (firstWord (body raw)) (operandText (body raw)) p (by rw [hp])
  exact final_of (env := envOf rt m text) this ha hab

/-- Every returned instruction comes from a code line. -/
theorem inst_final [Unicode] {rt : Rt} {m : Mipsasm} {text : Str} {is : List Instruction} {warns : List ParserWarning}
    (h : assemble rt m text = .ok is warns) {n : Nat} {i : Instruction} (hi : is[n]? = some i) :
    ∃ (k : Nat) (raw : Str), (lines text)[k]? = some raw ∧ kind raw = .code ∧ codeCount ((lines text).take k) = n ∧
      Final rt.ovf (classify (mnemonic (body raw))) (mnemonic (body raw)) i := by
  have hn : n < codeCount (lines text) := by
    rw [← is_length h]; exact (List.getElem?_eq_some_iff.1 hi).1
  obtain ⟨k, raw, h1, h2, h3⟩ := code_get hn
  obtain ⟨j, h4, h5⟩ := line_final h h1 h2
  rw [h3, hi] at h4
  cases h4
  exact ⟨k, raw, h1, h2, h3, h5⟩

end Mips
