/- Executing a sequence of words inside a larger one. -/
import Verif.Spec.Exec
import Verif.Lemmas.ExecL

namespace Mips
open Isa Machine Pseudo Mips.Exec

/-- The state with the program counter moved. -/
def Machine.Cpu.shift (s : Cpu) (a : Int) : Cpu := { s with pc := s.pc + a, npc := s.npc + a }

def Machine.Step.shift (a : Int) : Step → Step
  | .next s => .next (s.shift a)
  | .trap => .trap
  | .undef => .undef

@[simp] theorem get_shift (s : Cpu) (a : Int) (r : BitVec 5) : (s.shift a).get r = s.get r := rfl
theorem set_shift (s : Cpu) (a : Int) (r : BitVec 5) (v : W64) : (s.shift a).set r v = (s.set r v).shift a := by
  unfold Cpu.set; split <;> rfl
theorem next_shift (s : Cpu) (a : Int) : (s.shift a).next = s.next.shift a := by
  unfold Cpu.next Cpu.shift; simp only [Cpu.mk.injEq, true_and]; omega
theorem write_shift (s : Cpu) (a : Int) (r : BitVec 5) (v : Val) : (s.shift a).write r v = (s.write r v).shift a := by
  cases v with
  | ok v => show Step.next _ = Step.next _; rw [set_shift, next_shift]
  | trap => rfl
  | undef => rfl
theorem branch_shift (s : Cpu) (a : Int) (l t : Bool) (o : BitVec 16) : (s.shift a).branch l t o = (s.branch l t o).shift a := by
  unfold Cpu.branch
  split
  · simp only [Step.shift, Cpu.shift, Step.next.injEq, Cpu.mk.injEq, true_and]; omega
  · split
    · simp only [Step.shift, Cpu.shift, Step.next.injEq, Cpu.mk.injEq, true_and]; omega
    · show Step.next _ = Step.next _; rw [next_shift]


/-- Two functions that move the program counter, and under which `exec` does the same. -/
theorem exec_move {F G : Cpu → Cpu} (mn : Str) (as : List Arg) (s : Cpu) (hget : ∀ s r, (F s).get r = s.get r)
    (hhi : (F s).hi = s.hi) (hlo : (F s).lo = s.lo)
    (hset : ∀ r v, ((F s).set r v).next = G (s.set r v).next)
    (hhl : ∀ h l, Cpu.next { F s with hi := h, lo := l } = G (Cpu.next { s with hi := h, lo := l }))
    (hbr : (∃ o, Arg.off o ∈ as) → ∀ l t o, (F s).branch l t o = match s.branch l t o with | .next s' => .next (G s') | .trap => .trap | .undef => .undef) :
    exec (F s) mn as = match exec s mn as with | .next s' => .next (G s') | .trap => .trap | .undef => .undef := by
  have hw : ∀ r v, (F s).write r v = match s.write r v with | .next s' => .next (G s') | .trap => .trap | .undef => .undef := by
    intro r v
    cases v with
    | ok v => exact congrArg Step.next (hset r v)
    | trap => rfl
    | undef => rfl
  have hn : (F s).next = G s.next := by
    have := hhl s.hi s.lo
    rw [← hhi, ← hlo] at this
    rw [show F s = { F s with hi := (F s).hi, lo := (F s).lo } from rfl, this, hhi, hlo]
  unfold exec
  split
  · simp only [hget]
    split
    · exact hw ..
    · split
      · exact hw ..
      · rfl
  · simp only [hget]
    split
    · exact hw ..
    · rfl
  · simp only [hget]
    split
    · exact hw ..
    · rfl
  · simp only [hget]
    split
    · exact hw ..
    · rfl
  · split
    · exact hw ..
    · rfl
  · simp only [hget]
    split
    · split
      · exact congrArg Step.next (hhl _ _)
      · rfl
    · split
      · split
        · rfl
        · exact congrArg Step.next hn
      · rfl
  · simp only [hget, hhi, hlo]
    split
    · split
      · exact hw ..
      · rfl
    · split
      · split
        · exact hw ..
        · rfl
      · split
        · exact congrArg Step.next (hhl _ _)
        · split
          · exact congrArg Step.next (hhl _ _)
          · rfl
  · simp only [hget]
    split
    · exact hbr ⟨‹BitVec 16›, by simp⟩ ..
    · rfl
  · simp only [hget]
    split
    · exact hbr ⟨‹BitVec 16›, by simp⟩ ..
    · rfl
  · rfl

theorem exec_shift (s : Cpu) (a : Int) (mn : Str) (as : List Arg) : exec (s.shift a) mn as = (exec s mn as).shift a := by
  rw [exec_move (F := fun s => s.shift a) (G := fun s => s.shift a) mn as s (fun _ _ => rfl) rfl rfl]
  · cases exec s mn as <;> rfl
  · intro r v; rw [set_shift, next_shift]
  · intro h l; exact next_shift { s with hi := h, lo := l } a
  · intro _ l t o; rw [branch_shift]; cases s.branch l t o <;> rfl

/-- An instruction without branch offset, at any place. -/
theorem exec_at (s : Cpu) (p q : Int) (mn : Str) (as : List Arg) (ho : ∀ o, Arg.off o ∉ as) :
    exec { s with pc := p, npc := q } mn as =
      match exec s mn as with | .next s' => .next { s' with pc := q, npc := q + 1 } | .trap => .trap | .undef => .undef := by
  refine exec_move (F := fun s => { s with pc := p, npc := q }) (G := fun s => { s with pc := q, npc := q + 1 }) mn as s
    (fun _ _ => rfl) rfl rfl ?_ ?_ ?_
  · intro r v; unfold Cpu.set Cpu.next; split <;> rfl
  · intro h l; rfl
  · rintro ⟨o, h⟩; exact absurd h (ho o)

/-- Where such an instruction goes. -/
theorem exec_pc (s s' : Cpu) (mn : Str) (as : List Arg) (ho : ∀ o, Arg.off o ∉ as) (h : exec s mn as = .next s') :
    s'.pc = s.npc ∧ s'.npc = s.npc + 1 := by
  have := exec_at s s.pc s.npc mn as ho
  rw [show ({ s with pc := s.pc, npc := s.npc } : Cpu) = s from rfl, h] at this
  simp only [Step.next.injEq] at this
  rw [this]; exact ⟨rfl, rfl⟩

/-- `ext` may not see the program counter. -/
theorem plain_at {σ : Type} (ext : Ext σ) (c : Cpu) (e : σ) (p q : Int) (mn : Str) (as : List Arg) (ho : ∀ o, Arg.off o ∉ as) :
    plain ext ⟨{ c with pc := p, npc := q }, e⟩ mn as =
      match plain ext ⟨c, e⟩ mn as with
      | .at s' => .at ⟨{ s'.cpu with pc := q, npc := q + 1 }, s'.env⟩
      | .left s' => .left s'
      | .trap => .trap
      | .undef => .undef := by
  unfold plain
  simp only [exec_at c p q mn as ho]
  cases exec c mn as with
  | next s' => rfl
  | trap => rfl
  | undef =>
    simp only [show bare { c with pc := p, npc := q } = bare c from rfl]
    split
    · rfl
    · split <;> rfl

theorem plain_pc {σ : Type} {ext : Ext σ} {s s' : St σ} {mn : Str} {as : List Arg} (ho : ∀ o, Arg.off o ∉ as)
    (h : plain ext s mn as = .at s') : s'.cpu.pc = s.cpu.npc ∧ s'.cpu.npc = s.cpu.npc + 1 := by
  have := plain_at ext s.cpu s.env s.cpu.pc s.cpu.npc mn as ho
  rw [show (⟨{ s.cpu with pc := s.cpu.pc, npc := s.cpu.npc }, s.env⟩ : St σ) = s from rfl, h] at this
  simp only [Res.at.injEq] at this
  rw [this]; exact ⟨rfl, rfl⟩

theorem plain_left {σ : Type} {ext : Ext σ} {s s' : St σ} {mn : Str} {as : List Arg} : plain ext s mn as ≠ .left s' := by
  unfold plain
  split
  · exact nofun
  · exact nofun
  · split
    · exact nofun
    · split <;> exact nofun

theorem exec_control (s : Cpu) {mn : Str} (as : List Arg) (h : mn ∈ Mips.Exec.control) : exec s mn as = .undef := by
  unfold Mips.Exec.control at h
  simp only [List.mem_cons, List.not_mem_nil, or_false] at h
  unfold exec
  split <;> rcases h with rfl | rfl | rfl | rfl | rfl | rfl | rfl | rfl | rfl | rfl | rfl | rfl | rfl | rfl | rfl | rfl | rfl <;> rfl

theorem step_plain {σ : Type} (base : BitVec 32) (ext : Ext σ) (s : St σ) {mn : Str} (as : List Arg) (h : mn ∉ Mips.Exec.control) :
    step base ext s mn as = plain ext s mn as := if_neg h

theorem step_next {σ : Type} (base : BitVec 32) (ext : Ext σ) {c c' : Cpu} (e : σ) {mn : Str} {as : List Arg} (h : exec c mn as = .next c') :
    step base ext ⟨c, e⟩ mn as = .at ⟨c', e⟩ := by
  rw [step_plain]
  · unfold plain; simp only [h]
  · intro hc; rw [exec_control _ _ hc] at h; cases h

theorem step_trap {σ : Type} (base : BitVec 32) (ext : Ext σ) {c : Cpu} (e : σ) {mn : Str} {as : List Arg} (h : exec c mn as = .trap) :
    step base ext ⟨c, e⟩ mn as = .trap := by
  rw [step_plain]
  · unfold plain; simp only [h]
  · intro hc; rw [exec_control _ _ hc] at h; cases h

/-- `j` words lead from `s` to `s'`. -/
def Leads {σ : Type} (base : BitVec 32) (ext : Ext σ) (C : List W32) (s : St σ) (j : Nat) (s' : St σ) : Prop := ∀ m, go base ext C (j + m) s = go base ext C m s'

theorem leads_one {σ : Type} {base : BitVec 32} {ext : Ext σ} {C : List W32} {s s' : St σ} {w : W32} {mn : Str} {as : List Arg}
    (hf : fetch C s.cpu.pc = some w) (hd : decoding w = some (mn, as)) (hs : step base ext s mn as = .at s') : Leads base ext C s 1 s' := by
  intro m
  rw [Nat.add_comm, go, hf]
  simp only [hd, hs]

theorem Leads.trans {σ : Type} {base : BitVec 32} {ext : Ext σ} {C : List W32} {s s' s'' : St σ} {j k : Nat} (h : Leads base ext C s j s') (h' : Leads base ext C s' k s'') :
    Leads base ext C s (j + k) s'' := by
  intro m
  rw [Nat.add_assoc, h, h']

theorem fetch_mid {C A ws B : List W32} (hC : C = A ++ ws ++ B) {pc : Int} {w : W32} (h0 : ¬ pc < 0) (hw : ws[pc.toNat]? = some w) :
    fetch C (pc + A.length) = some w := by
  unfold fetch
  rw [if_neg (by omega), show (pc + (A.length : Int)).toNat = A.length + pc.toNat by omega, hC, List.append_assoc,
    List.getElem?_append_right (by omega), Nat.add_sub_cancel_left, List.getElem?_append_left (List.getElem?_eq_some_iff.1 hw).1, hw]

theorem run_leads {σ : Type} (base : BitVec 32) (ext : Ext σ) {C A ws B : List W32} (hC : C = A ++ ws ++ B) (e : σ) (n : Nat) (s s' : Cpu)
    (h : run ws n s = .done s') : ∃ j, Leads base ext C ⟨s.shift A.length, e⟩ j ⟨s'.shift A.length, e⟩ ∧ (0 ≤ s.pc → s.pc < ws.length → 1 ≤ j) := by
  induction n generalizing s with
  | zero => cases h
  | succ n ih =>
    rw [run] at h
    split at h
    · cases h; exact ⟨0, fun m => by rw [Nat.zero_add], by omega⟩
    · rename_i h0
      cases hw : ws[s.pc.toNat]? with
      | none =>
        rw [hw] at h; cases h
        exact ⟨0, fun m => by rw [Nat.zero_add], fun h1 h2 => by have := List.getElem?_eq_none_iff.1 hw; omega⟩
      | some w =>
        rw [hw] at h
        simp only at h
        cases hd : decoding w with
        | none => rw [hd] at h; cases h
        | some p =>
          obtain ⟨mn, as⟩ := p
          rw [hd] at h
          simp only at h
          cases hx : exec s mn as with
          | trap => rw [hx] at h; cases h
          | undef => rw [hx] at h; cases h
          | next s1 =>
            rw [hx] at h
            obtain ⟨j, hj, _⟩ := ih s1 h
            refine ⟨1 + j, (leads_one (fetch_mid hC h0 hw) hd ?_).trans hj, by omega⟩
            exact step_next base ext e (by rw [exec_shift, hx]; rfl)

theorem run_trapped {σ : Type} (base : BitVec 32) (ext : Ext σ) {C A ws B : List W32} (hC : C = A ++ ws ++ B) (e : σ) (n : Nat) (s : Cpu)
    (h : run ws n s = .trap) : ∃ j, ∀ m, go base ext C (j + m) ⟨s.shift A.length, e⟩ = .trap := by
  induction n generalizing s with
  | zero => cases h
  | succ n ih =>
    rw [run] at h
    split at h
    · cases h
    · rename_i h0
      cases hw : ws[s.pc.toNat]? with
      | none => rw [hw] at h; cases h
      | some w =>
        rw [hw] at h
        simp only at h
        cases hd : decoding w with
        | none => rw [hd] at h; cases h
        | some p =>
          obtain ⟨mn, as⟩ := p
          rw [hd] at h
          simp only at h
          cases hx : exec s mn as with
          | undef => rw [hx] at h; cases h
          | trap =>
            refine ⟨1, fun m => ?_⟩
            rw [Nat.add_comm, go, show fetch C (St.mk (s.shift A.length) e).cpu.pc = some w from fetch_mid hC h0 hw]
            simp only [hd]
            rw [step_trap base ext e (by rw [exec_shift, hx]; rfl)]
          | next s1 =>
            rw [hx] at h
            obtain ⟨j, hj⟩ := ih s1 h
            refine ⟨1 + j, fun m => ?_⟩
            rw [Nat.add_assoc, leads_one (base := base) (ext := ext) (s := ⟨s.shift A.length, e⟩) (s' := ⟨s1.shift A.length, e⟩) (fetch_mid hC h0 hw) hd, hj]
            exact step_next base ext e (by rw [exec_shift, hx]; rfl)

end Mips
