/- Moving assembled code. -/
import Verif.Spec.Reloc
import Verif.Lemmas.ContextL
import Verif.Lemmas.CodeL8
import Verif.Lemmas.CodeL2

namespace Mips.Reloc
open Mips.Isa hiding conds
open Mips.Names hiding none
open Mips.Syntax Mips.Source Mips.Branch Mips.Operands Mips.Context
open Mips.Lang

theorem jump_sigs : ∀ e ∈ intSignatures, Role.target ∈ e.2 → e.2 = [.target] ∧ e.1 ∈ [c!"j", c!"jal"] := by decide +kernel

theorem steps_target {mn w t : Str} : ∀ {rs : List Role} {ss : List Str}, Step.target t ∈ steps mn w rs ss → Role.target ∈ rs := by
  intro rs
  induction rs with
  | nil => intro ss h; simp [steps] at h
  | cons r rs ih =>
    intro ss h
    cases ss with
    | nil => cases r <;> simp [steps] at h
    | cons s ss =>
      have key : (Step.target t ∈ steps mn w rs ss → Role.target ∈ r :: rs) := fun h => .tail _ (ih h)
      cases r with
      | gpr => simp [steps] at h; exact key h
      | fpr => simp [steps] at h; exact key h
      | c0 => simp [steps] at h; exact key h
      | cop => simp [steps] at h; exact key h
      | target => exact .head _
      | _ =>
        exfalso
        cases rs <;> cases ss <;> simp only [steps] at h <;> (try split at h) <;> simp at h

theorem plan_target [Unicode] {s t : Str} {st : List Step} (h : plan s = some st) (ht : .target t ∈ st) :
    st = [.target t, .name (firstWord s)] ∧ mnemonic s ∈ [c!"j", c!"jal"] ∧ operands s = [t] := by
  unfold plan at h
  dsimp only at h
  split at h
  · cases h; simp at ht
  · split at h
    · cases h; simp at ht
    · split at h
      · simp only [Option.map_eq_some_iff] at h
        obtain ⟨e, he, rfl⟩ := h
        have h4 := List.find?_some he
        have h5 := List.mem_of_find?_eq_some he
        simp only [Bool.and_eq_true, beq_iff_eq] at h4
        obtain ⟨h6, h7⟩ := jump_sigs e h5 (steps_target ht)
        rw [h6] at h4 ht ⊢
        obtain ⟨a, hop⟩ : ∃ a, operands s = [a] := by
          have := h4.2.symm
          match h : operands s, this with
          | [a], _ => exact ⟨a, rfl⟩
        rw [hop] at ht ⊢
        simp only [steps] at ht ⊢
        have : t = a := by simpa using ht
        subst this
        exact ⟨rfl, h4.1 ▸ h7, rfl⟩
      · exfalso
        unfold floatPlan at h
        split at h
        · cases h; simp at ht
        · repeat' split at h
          all_goals first | (cases h; simp at ht; done) | cases h

theorem plan_jump [Unicode] {s t : Str} (hm : mnemonic s ∈ [c!"j", c!"jal"]) (ho : operands s = [t]) : plan s = some [.target t, .name (firstWord s)] := by
  unfold plan
  dsimp only
  have e1 : ∀ mn ∈ [c!"j", c!"jal"], mn ∉ Names.none ∧ mn ≠ c!".word" ∧ intSignatures.any (fun e => e.1 == mn) = true ∧
      (intSignatures.find? fun e => e.1 == mn && e.2.length == 1) = some (mn, [.target]) := by decide +kernel
  obtain ⟨a, b, c, d⟩ := e1 _ hm
  rw [if_neg a, if_neg b, if_pos c, ho]
  simp only [List.length_cons, List.length_nil, Nat.zero_add] at d ⊢
  rw [d]
  rfl

theorem code_jump {mn : Str} (hm : mn ∈ [c!"j", c!"jal"]) : ∃ o : BitVec 6, ∀ a : BitVec 32, code mn [.addr a] = some [jWord o (((a >>> 2).setWidth 24).setWidth 26)] := by
  have : ∀ mn ∈ [c!"j", c!"jal"], ∃ e ∈ L_target_jump_main, e.1 = mn := by decide +kernel
  obtain ⟨e, he, rfl⟩ := this mn hm
  exact ⟨e.2.2, fun a => code_target_jump_main e he a⟩

theorem moved_word (o : BitVec 6) (b b' : BitVec 32) (n : Nat) :
    jWord o ((((b' + BitVec.ofNat 32 (4 * n)) >>> 2).setWidth 24).setWidth 26) =
      moved b b' (jWord o ((((b + BitVec.ofNat 32 (4 * n)) >>> 2).setWidth 24).setWidth 26)) := by
  have idx : ∀ c : BitVec 32, ((c + BitVec.ofNat 32 (4 * n)) >>> 2).setWidth 24 = c.extractLsb' 2 24 + BitVec.ofNat 24 n := by
    intro c
    apply BitVec.eq_of_toNat_eq
    simp only [BitVec.toNat_setWidth, BitVec.toNat_ushiftRight, BitVec.toNat_add, BitVec.toNat_ofNat, BitVec.extractLsb'_toNat, Nat.shiftRight_eq_div_pow]
    omega
  unfold moved
  rw [idx, idx]
  generalize b.extractLsb' 2 24 = x
  generalize b'.extractLsb' 2 24 = y
  generalize BitVec.ofNat 24 n = z
  have split : ∀ v : BitVec 24, jWord o (v.setWidth 26) = (o ++ 0#2) ++ v := by
    intro v
    unfold jWord
    apply BitVec.eq_of_toNat_eq
    simp only [BitVec.toNat_append, BitVec.toNat_setWidth, BitVec.toNat_ofNat, Nat.shiftLeft_eq]
    have h1 := v.isLt
    rw [Nat.mod_eq_of_lt (by omega : v.toNat < 2 ^ 26)]
    rw [← Nat.shiftLeft_eq, ← Nat.shiftLeft_eq]
    rw [← Nat.shiftLeft_add_eq_or_of_lt (by omega : v.toNat < 2 ^ 26), ← Nat.shiftLeft_add_eq_or_of_lt (by omega : v.toNat < 2 ^ 24)]
    simp only [Nat.shiftLeft_eq]
    simp
    omega
  rw [split, split]
  have hi : ∀ (u : BitVec 8) (v : BitVec 24), (u ++ v).extractLsb' 24 8 = u := by
    intro u v
    exact BitVec.extractLsb'_append_eq_left
  have lo : ∀ (u : BitVec 8) (v : BitVec 24), (u ++ v).extractLsb' 0 24 = v := by
    intro u v
    exact BitVec.extractLsb'_append_eq_right
  rw [hi, lo]
  congr 1
  apply BitVec.eq_of_toNat_eq
  simp only [BitVec.toNat_add, BitVec.toNat_sub]
  omega

theorem address_noLabel {syms : List (BitVec 32 × Str)} {t : Str} {a : BitVec 32} (h : Address syms t a) : ¬ LabelName syms t := by
  rintro ⟨h1, c, s, h2, h3, h4⟩
  rcases h with h | ⟨_, n, _, _, ⟨h, _⟩ | ⟨_, h⟩⟩
  · rw [h1] at h; cases h
  · rw [h2] at h
    have : c = '0' := by
      have h : ('0' == c && _) = true := h
      simp only [Bool.and_eq_true, beq_iff_eq] at h
      exact h.1.symm
    rw [this] at h4; exact absurd h4 (by decide)
  · obtain ⟨c', u, e, hd⟩ := digits_head h
    rw [h2] at e; cases e
    rw [h4] at hd; cases hd

section
variable [Unicode] {f g : File} {k : Nat} {raw : Str}

/-- a line that is no jump to a label has the same words -/
theorem line_same (ho : f.ovf = g.ovf) (hs : f.syms = g.syms) (hl : f.ls = g.ls) (hk : f.ls[k]? = some raw) (hc : kind raw = .code)
    (hj : ¬ JumpsToLabel f k) {ws : List (BitVec 32)} (h : LineWords f k raw ws) : LineWords g k raw ws := by
  refine lineWords_congr ho hs (fun st hst => ⟨fun t _ v => ?_, fun t ht a => ?_, fun t v _ _ => by rw [hl]⟩) h
  · constructor
    · intro hp
      cases hp with
      | «local» d h1 h2 => have := Points.local (f := g) (k := k) (t := t) d h1 (hl ▸ h2); simpa [distance, hl] using this
      | label d h1 h2 => have := Points.label (f := g) (k := k) (t := t) d h1 (hl ▸ h2); simpa [distance, hl] using this
    · intro hp
      cases hp with
      | «local» d h1 h2 => have := Points.local (f := f) (k := k) (t := t) d h1 (hl ▸ h2); simpa [distance, hl] using this
      | label d h1 h2 => have := Points.label (f := f) (k := k) (t := t) d h1 (hl ▸ h2); simpa [distance, hl] using this
  · have no : ¬ LabelName f.syms (trim t) := fun hn => by
      obtain ⟨_, h1, h2⟩ := plan_target hst ht
      exact hj ⟨raw, t, hk, hc, h1, h2, hn⟩
    exact ⟨fun x => absurd x.1 no, fun x => absurd (hs ▸ x.1) no⟩

/-- a jump to a label has one word, and another one for the other base address -/
theorem line_moved (hs : f.syms = g.syms) (hl : f.ls = g.ls) (hk : f.ls[k]? = some raw) (hj : JumpsToLabel f k) {ws : List (BitVec 32)}
    (h : LineWords f k raw ws) : ∃ w, ws = [w] ∧ LineWords g k raw [moved f.base g.base w] := by
  obtain ⟨raw', t, h1, _, h3, h4, h5⟩ := hj
  rw [hk] at h1; cases h1
  obtain ⟨st, vs, g1, g2, g3⟩ := h
  rw [plan_jump h3 h4] at g1; cases g1
  have hcall : callName (firstWord (body raw)) = mnemonic (body raw) := by
    apply callName_cls
    have : ∀ mn ∈ [c!"j", c!"jal"], classify mn ≠ .other := by decide +kernel
    exact this _ h3
  rw [hcall] at g3
  obtain ⟨o, ho⟩ := code_jump h3
  cases g2 with
  | cons _ _ a vs y1 y2 =>
    cases y2 with
    | cons _ _ a' vs' y3 y4 =>
      cases y3; cases y4
      cases y1 with
      | target _ a e =>
        exact absurd h5 (address_noLabel e)
      | label _ d e1 e2 =>
        simp only [List.append_nil] at g3
        rw [ho] at g3
        cases g3
        refine ⟨_, rfl, _, _, plan_jump h3 h4, .cons _ _ _ _ (.label t d (hs ▸ h5) (hl ▸ e2)) (.cons _ _ _ _ (.name _) .nil), ?_⟩
        rw [hcall, ← moved_word, ← hl]
        simp only [List.append_nil]
        rw [ho]

end
end Mips.Reloc
