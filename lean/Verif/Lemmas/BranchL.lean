/- Branch lines: parsing and encoding. -/
import Verif.Lemmas.LineL
import Verif.Spec.Branch

namespace Mips
open Isa Syntax Source Branch

/-- mnemonic, operation, number of registers -/
def brOps : List (Str × ITypeOp × Nat) :=
  [(c!"beq", .Beq, 2), (c!"bne", .Bne, 2), (c!"beql", .Beql, 2), (c!"bnel", .Bnel, 2),
   (c!"bgez", .Bgez, 1), (c!"bgezal", .Bgezal, 1), (c!"bgezall", .Bgezall, 1), (c!"bgezl", .Bgezl, 1),
   (c!"bltz", .Bltz, 1), (c!"bltzal", .Bltzal, 1), (c!"bltzall", .Bltzall, 1), (c!"bltzl", .Bltzl, 1),
   (c!"bgtz", .Bgtz, 1), (c!"bgtzl", .Bgtzl, 1), (c!"blez", .Blez, 1), (c!"blezl", .Blezl, 1),
   (c!"bc0f", .Bc0f, 0), (c!"bc0t", .Bc0t, 0), (c!"bc0fl", .Bc0fl, 0), (c!"bc0tl", .Bc0tl, 0),
   (c!"bc1f", .Bc1f, 0), (c!"bc1t", .Bc1t, 0), (c!"bc1fl", .Bc1fl, 0), (c!"bc1tl", .Bc1tl, 0),
   (c!"b", .B, 0), (c!"bal", .Bal, 0),
   (c!"beqz", .Beqz, 1), (c!"bnez", .Bnez, 1), (c!"beqzl", .Beqzl, 1), (c!"bnezl", .Bnezl, 1),
   (c!"bge", .Bge, 2), (c!"bgt", .Bgt, 2), (c!"ble", .Ble, 2), (c!"blt", .Blt, 2),
   (c!"bgeu", .Bgeu, 2), (c!"bgtu", .Bgtu, 2), (c!"bleu", .Bleu, 2), (c!"bltu", .Bltu, 2),
   (c!"bgel", .Bgel, 2), (c!"bgtl", .Bgtl, 2), (c!"blel", .Blel, 2), (c!"bltl", .Bltl, 2),
   (c!"bgeul", .Bgeul, 2), (c!"bgtul", .Bgtul, 2), (c!"bleul", .Bleul, 2), (c!"bltul", .Bltul, 2)]

/-- the arm for a number of registers -/
def brCls (mn : Str) : Nat → Cls
  | 0 => if mn = c!"b" ∨ mn = c!"bal" then .b else .bc
  | 1 => .br1
  | _ => .br2

theorem brCls_zero (mn : Str) : brCls mn 0 = .b ∨ brCls mn 0 = .bc := by
  show (if mn = c!"b" ∨ mn = c!"bal" then Cls.b else .bc) = _ ∨ (if mn = c!"b" ∨ mn = c!"bal" then Cls.b else .bc) = _
  split
  · exact .inl rfl
  · exact .inr rfl

theorem brOps_ok : ∀ e ∈ brOps, classify e.1 = brCls e.1 e.2.2 ∧ ITypeOp.fromStr e.1 = some e.2.1 ∧
    startsWith c!"b" e.2.1.name = true ∧ mnOk e.1 = true := by decide +kernel

/-- the register fields of the parsed branch -/
def brRs (regs : List (BitVec 5)) : Register := match regs with | r :: _ => r.toFin | [] => Register.null
/-- see `brRs` -/
def brRt (regs : List (BitVec 5)) : Register := match regs with | [_, q] => q.toFin | _ => Register.null

theorem arm_br1' [Unicode] {x : Ctx} {mn' mn text a b : Str} (h : Mn mn' mn) {o : ITypeOp} (ho : ITypeOp.fromStr mn = some o) (hs : split ',' text = [a, b])
    {rs : BitVec 5} (h1 : Reg GprCore a rs) :
    (parseArm x .br1 mn' text).res = (parseImm x .u32 b).bind fun i => .ok (.imm o rs.toFin Register.null i []) := by
  cases hi : parseImm x .u32 b with
  | ok i => rw [arm_br1 x h ho hs h1 hi]; rfl
  | err e =>
    simp only [parseArm, hs, parseReg_ok x h1, hi, mkI, h.opI ho, W.bind_res _ () (delayCheck_res x), W.bind_nil_ok]; rfl
  | panic =>
    simp only [parseArm, hs, parseReg_ok x h1, hi, mkI, h.opI ho, W.bind_res _ () (delayCheck_res x), W.bind_nil_ok]; rfl

theorem arm_br2' [Unicode] {x : Ctx} {mn' mn text a b c : Str} (h : Mn mn' mn) {o : ITypeOp} (ho : ITypeOp.fromStr mn = some o) (hs : split ',' text = [a, b, c])
    {rs rt : BitVec 5} (h1 : Reg GprCore a rs) (h2 : Reg GprCore b rt) :
    (parseArm x .br2 mn' text).res = (parseImm x .u32 c).bind fun i => .ok (.imm o rs.toFin rt.toFin i []) := by
  cases hi : parseImm x .u32 c with
  | ok i => rw [arm_br2 x h ho hs h1 h2 hi]; rfl
  | err e =>
    simp only [parseArm, hs, parseReg_ok x h1, parseReg_ok x h2, hi, mkI, h.opI ho, W.bind_res _ () (delayCheck_res x), W.bind_nil_ok]; rfl
  | panic =>
    simp only [parseArm, hs, parseReg_ok x h1, parseReg_ok x h2, hi, mkI, h.opI ho, W.bind_res _ () (delayCheck_res x), W.bind_nil_ok]; rfl

theorem arm_b' [Unicode] {x : Ctx} {mn' mn text a : Str} (cls : Cls) (hc : cls = .b ∨ cls = .bc) (h : Mn mn' mn) {o : ITypeOp} (ho : ITypeOp.fromStr mn = some o) (hs : split ',' text = [a]) :
    (parseArm x cls mn' text).res = (parseImm x .u32 a).bind fun i => .ok (.imm o Register.null Register.null i []) := by
  cases hi : parseImm x .u32 a with
  | ok i => rw [arm_b x cls hc h ho hs hi]; rfl
  | err e =>
    rcases hc with rfl | rfl <;>
    (simp only [parseArm, parseBranch0, hs, hi, mkI, h.opI ho, W.bind_res _ () (delayCheck_res x)]; rfl)
  | panic =>
    rcases hc with rfl | rfl <;>
    (simp only [parseArm, parseBranch0, hs, hi, mkI, h.opI ho, W.bind_res _ () (delayCheck_res x)]; rfl)

/-- A branch line parses to the branch with the parsed target, or fails as its target does. -/
theorem br_parse [Unicode] (x : Ctx) {s mn t : Str} {regs : List (BitVec 5)} (h : BrText s mn regs t) {o : ITypeOp} {n : Nat}
    (he : (mn, o, n) ∈ brOps) (hn : regs.length = n) :
    (parseInst x s).res = (parseImm x .u32 t).bind fun i => .ok (.imm o (brRs regs) (brRt regs) i []) := by
  obtain ⟨k1, k2, k3, k4⟩ := brOps_ok _ he
  dsimp only at k1 k2 k3 k4
  cases h with
  | r0 mn' mn t hm hc =>
    have hM : Mn mn' mn := ⟨hm, k4⟩
    rw [parseInst_args x hM, k1, ← hn]
    exact arm_b' _ (brCls_zero mn) hM k2 (split_noComma _ _ hc)
  | r1 mn' mn a t r hm ha hc =>
    have hM : Mn mn' mn := ⟨hm, k4⟩
    rw [parseInst_args x hM, k1, ← hn]
    exact arm_br1' hM k2 (by rw [split_cons _ _ _ (spells_noComma (Spells.gpr a r ha)), split_noComma _ _ hc]) ha
  | r2 mn' mn a b t r q hm ha hb hc =>
    have hM : Mn mn' mn := ⟨hm, k4⟩
    rw [parseInst_args x hM, k1, ← hn]
    exact arm_br2' hM k2 (by rw [split_cons _ _ _ (spells_noComma (Spells.gpr a r ha)), split_cons _ _ _ (spells_noComma (Spells.gpr b q hb)), split_noComma _ _ hc]) ha hb

/-- The branches that are one word long. -/
def brOps1 : List (Str × ITypeOp × Nat) := brOps.take 30

theorem brOps1_mem : ∀ e ∈ brOps1, e ∈ brOps := fun e h => List.mem_of_mem_take h

/-- The word of every one-word branch. -/
theorem br_encode0 : ∀ e ∈ brOps1, e.2.2 = 0 → ∀ (ovf : Bool) (v : BitVec 16) (b : List Word),
    ∃ w, branchWord e.1 [] v = some w ∧ encode ovf (.imm e.2.1 (brRs []) (brRt []) (.short v) b) = some [w] := by
  simp only [brOps1, brOps, List.take, List.forall_mem_cons]
  repeat' apply And.intro
  all_goals first
    | (intro h; exact absurd h (by decide))
    | (intro _ ovf v b
       refine ⟨_, rfl, ?_⟩
       simp [encode_imm, brRs, brRt, encI, iWord_or, copOp, Register.null, Register.num]; done)
    | simp

theorem br_encode1 : ∀ e ∈ brOps1, e.2.2 = 1 → ∀ (r : BitVec 5) (ovf : Bool) (v : BitVec 16) (b : List Word),
    ∃ w, branchWord e.1 [r] v = some w ∧ encode ovf (.imm e.2.1 (brRs [r]) (brRt [r]) (.short v) b) = some [w] := by
  simp only [brOps1, brOps, List.take, List.forall_mem_cons]
  repeat' apply And.intro
  all_goals first
    | (intro h; exact absurd h (by decide))
    | (intro _ r ovf v b
       refine ⟨_, rfl, ?_⟩
       simp [encode_imm, brRs, brRt, encI, iWord_or, copOp, num_null, num_toFin]; done)
    | simp

theorem br_encode2 : ∀ e ∈ brOps1, e.2.2 = 2 → ∀ (r q : BitVec 5) (ovf : Bool) (v : BitVec 16) (b : List Word),
    ∃ w, branchWord e.1 [r, q] v = some w ∧ encode ovf (.imm e.2.1 (brRs [r, q]) (brRt [r, q]) (.short v) b) = some [w] := by
  simp only [brOps1, brOps, List.take, List.forall_mem_cons]
  repeat' apply And.intro
  all_goals first
    | (intro h; exact absurd h (by decide))
    | (intro _ r q ovf v b
       refine ⟨_, rfl, ?_⟩
       simp [encode_imm, brRs, brRt, encI, iWord_or, copOp, Register.null, num_toFin]; done)
    | simp

theorem expand_long (mn : Str) (a b c : BitVec 5) (l : List (BitVec 5)) : expand mn (a :: b :: c :: l) = some (mn, a :: b :: c :: l) ∧ mn ∈ nativeBranches ∨
    expand mn (a :: b :: c :: l) = none := by
  unfold expand
  rw [if_neg (by simp), if_neg (by simp)]
  by_cases h : mn ∈ nativeBranches
  · exact .inl ⟨by simp [h], h⟩
  · exact .inr (by simp [h])

theorem native_long : ∀ mn ∈ nativeBranches, ∀ (a b c : BitVec 5) (l : List (BitVec 5)) (o : BitVec 16),
    encoding mn ((a :: b :: c :: l).map Arg.gpr ++ [.off o]) = none := by
  simp only [nativeBranches, List.forall_mem_cons]
  repeat' apply And.intro
  all_goals first | (intros; rfl) | simp

theorem native_len' : ∀ e ∈ brOps.take 24,
    (e.2.2 ≠ 0 → encoding e.1 [.off 0] = none) ∧ (e.2.2 ≠ 1 → ∀ r, encoding e.1 [.gpr r, .off 0] = none) ∧
    (e.2.2 ≠ 2 → ∀ r q, encoding e.1 [.gpr r, .gpr q, .off 0] = none) := by
  simp only [brOps, List.take, List.forall_mem_cons]
  repeat' apply And.intro
  all_goals first
    | (intro h; exact absurd rfl h)
    | (intro _; rfl)
    | (intro _ _; rfl)
    | (intro _ _ _; rfl)
    | simp

theorem native_names : nativeBranches = (brOps.take 24).map (·.1) := by decide

theorem native_len (mn : Str) (h : mn ∈ nativeBranches) : ∃ o n, (mn, o, n) ∈ brOps1 ∧
    (n ≠ 0 → encoding mn [.off 0] = none) ∧ (n ≠ 1 → ∀ r, encoding mn [.gpr r, .off 0] = none) ∧
    (n ≠ 2 → ∀ r q, encoding mn [.gpr r, .gpr q, .off 0] = none) := by
  rw [native_names] at h
  obtain ⟨e, he, rfl⟩ := List.mem_map.1 h
  obtain ⟨h1, h2, h3⟩ := native_len' e he
  refine ⟨e.2.1, e.2.2, ?_, h1, h2, h3⟩
  have : ∀ e ∈ brOps.take 24, e ∈ brOps1 := by decide
  exact this e he

theorem isBranch_op {mn : Str} {regs : List (BitVec 5)} (h : IsBranch mn regs) : ∃ o, (mn, o, regs.length) ∈ brOps1 := by
  unfold IsBranch branchWord at h
  have nat : mn ∈ nativeBranches → (encoding mn (regs.map Arg.gpr ++ [.off 0])).isSome = true → ∃ o, (mn, o, regs.length) ∈ brOps1 := by
    intro hm he
    obtain ⟨o, n, h1, h2, h3, h4⟩ := native_len mn hm
    refine ⟨o, ?_⟩
    have : regs.length = n := by
      match regs, he with
      | [], he =>
        rcases Nat.decEq n 0 with hn | hn
        · rw [show List.map Arg.gpr [] ++ [Arg.off 0] = [Arg.off 0] from rfl, h2 hn] at he; cases he
        · exact hn.symm
      | [r], he =>
        rcases Nat.decEq n 1 with hn | hn
        · rw [show List.map Arg.gpr [r] ++ [Arg.off 0] = [.gpr r, Arg.off 0] from rfl, h3 hn] at he; cases he
        · exact hn.symm
      | [r, q], he =>
        rcases Nat.decEq n 2 with hn | hn
        · rw [show List.map Arg.gpr [r, q] ++ [Arg.off 0] = [.gpr r, .gpr q, Arg.off 0] from rfl, h4 hn] at he; cases he
        · exact hn.symm
      | a :: b :: c :: l, he => rw [native_long mn hm] at he; cases he
    rw [this]; exact h1
  unfold expand at h
  split at h
  · obtain ⟨rfl, rfl⟩ := ‹_ ∧ _›; exact ⟨.B, by decide⟩
  · split at h
    · obtain ⟨rfl, rfl⟩ := ‹_ ∧ _›; exact ⟨.Bal, by decide⟩
    · split at h
      · rename_i r
        split at h
        · subst mn; exact ⟨.Beqz, by show (_, _, 1) ∈ _; decide⟩
        · split at h
          · subst mn; exact ⟨.Bnez, by show (_, _, 1) ∈ _; decide⟩
          · split at h
            · subst mn; exact ⟨.Beqzl, by show (_, _, 1) ∈ _; decide⟩
            · split at h
              · subst mn; exact ⟨.Bnezl, by show (_, _, 1) ∈ _; decide⟩
              · split at h
                · exact nat ‹_› h
                · cases h
      · split at h
        · exact nat ‹_› h
        · cases h

/-- The word of a branch. -/
theorem br_encode {mn : Str} {o : ITypeOp} {regs : List (BitVec 5)} (he : (mn, o, regs.length) ∈ brOps1) (ovf : Bool) (v : BitVec 16) (b : List Word) :
    ∃ w, branchWord mn regs v = some w ∧ encode ovf (.imm o (brRs regs) (brRt regs) (.short v) b) = some [w] := by
  match regs, he with
  | [], he => exact br_encode0 _ he rfl ovf v b
  | [r], he => exact br_encode1 _ he rfl r ovf v b
  | [r, q], he => exact br_encode2 _ he rfl r q ovf v b
  | a :: b :: c :: l, he =>
    exfalso
    have : ∀ e ∈ brOps1, e.2.2 < 3 := by decide
    have := this _ he
    simp at this
    omega

/-- A label operand. -/
theorem parseImm_local (x : Ctx) (ty : IntTy) {t : Str} (h : startsWith c!"@@" (trim t) = true) :
    parseImm x ty t = .ok (.localLabel (trim t)) := by
  unfold parseImm; simp only [h, if_true]

theorem parseImm_label (x : Ctx) (ty : IntTy) {t : Str} (h : startsWith c!"@@" (trim t) = false) (hl : hasLabel x.labels (trim t) = true) :
    parseImm x ty t = .ok (.label (trim t)) := by
  unfold parseImm; simp [h, hl]

end Mips
