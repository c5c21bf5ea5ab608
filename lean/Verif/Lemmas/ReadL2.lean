/- Instructions that are read alike although the blanks around their operands differ. -/
import Verif.Lemmas.ReadL

namespace Mips
open Source

variable {γ δ : Type}

section
variable {g : ParserError → γ} {h : ParserWarning → δ} {x y : Ctx}

set_option maxHeartbeats 8000000 in
/-- As `read_arm`, for texts of operands that are only alike operand by operand. -/
theorem read_arm_ops [Unicode] (c : CtxSim g h x y) (t : TextFree g h) (cls : Cls) {op op' arg arg' : Str} (k : OpcSim op op') (ha : cls = .word → trim arg = trim arg')
    (hs : OpsSim (split ',' arg) (split ',' arg')) (he : cls = .code → ∀ a b, split ',' arg = [a] → split ',' arg' = [b] → a.isEmpty = b.isEmpty) :
    WSim g h (parseArm x cls op arg) (parseArm y cls op' arg') := by
  have f1 : ∀ (s s' : Str), WSim g h (W.fail (.invalidImmediate x.line s) : W Instruction) (W.fail (.invalidImmediate y.line s')) :=
    fun s s' => wsim_fail (t.err _ _ rfl)
  have f2 : ∀ (s s' : Str), WSim g h (W.fail (.invalidOpcode x.line s) : W Instruction) (W.fail (.invalidOpcode y.line s')) :=
    fun s s' => wsim_fail (t.err _ _ rfl)
  unfold parseArm
  revert hs he
  generalize split ',' arg = args
  generalize split ',' arg' = args'
  intro hs he
  rw [k.low]
  cases cls
  all_goals simp only [parseFloat, parseBranch0, parseLi, k.low, k.len, k.logical, read_opI k.I, read_opJ k.J, read_opR k.R]
  case word =>
    exact wsim_bind (read_imm' c (ha rfl) _) fun _ => wsim_refl _
  case bare => exact read_mkR k
  case tlb => exact read_mkR k
  case code => 
    cases hs with
    | nil => exact read_bad t _ _ _ _
    | cons o0 hs =>
      cases hs with
      | nil => 
        rename_i a b
        have e : a.isEmpty = b.isEmpty := he rfl a b rfl rfl
        simp only [e, o0.trm]
        refine wsim_bind ?_ fun _ => wsim_refl _
        split
        · exact wsim_refl _
        · exact sim_parseImm c _ _
      | cons o1 hs => simp only [List.length_cons, hs.length]; exact read_bad t _ _ _ _
  case other =>
    have k3 := hs.length
    cases hs with
    | nil => 
      try dsimp only
      repeat' first
        | with_reducible exact wsim_refl _
        | ((with_reducible refine read_bad' t ?_); rfl)
        | with_reducible exact f2 _ _
        | split
    | cons o0 hs =>
      cases hs with
      | nil => 
        try dsimp only
        repeat' first
          | with_reducible exact wsim_refl _
          | ((with_reducible refine read_bad' t ?_); rfl)
          | with_reducible exact f2 _ _
          | split
      | cons o1 hs =>
        cases hs with
        | nil => 
          try dsimp only
          repeat' first
            | with_reducible exact wsim_refl _
            | ((with_reducible refine read_bad' t ?_); rfl)
            | with_reducible exact f2 _ _
            | with_reducible exact read_mkR k
            | exact wsim_bind (read_freg t o0) fun p => wsim_bind (read_freg t o1) fun q => read_fcmp t k p q
            | with_reducible exact read_freg t o0
            | with_reducible exact read_freg t o1
            | with_reducible refine wsim_bind ?_ (fun _ => ?_)
            | split
        | cons o2 hs =>
          cases hs with
          | nil => 
            try dsimp only
            repeat' first
              | with_reducible exact wsim_refl _
              | ((with_reducible refine read_bad' t ?_); rfl)
              | with_reducible exact f2 _ _
              | with_reducible exact read_mkR k
              | with_reducible exact read_freg t o0
              | with_reducible exact read_freg t o1
              | with_reducible exact read_freg t o2
              | with_reducible refine wsim_bind ?_ (fun _ => ?_)
              | split
          | cons o3 hs => 
            simp only [List.length_cons, hs.length]
            try dsimp only
            repeat' first
              | with_reducible exact wsim_refl _
              | ((with_reducible refine read_bad' t ?_); rfl)
              | with_reducible exact f2 _ _
              | split
  all_goals
    cases hs with
    | nil => exact read_bad t _ _ _ _
    | cons o0 hs =>
      cases hs with
      | nil => 
        try simp only [o0.trm]
        try dsimp only
        repeat' first
          | with_reducible exact wsim_refl _
          | ((with_reducible refine read_bad' t ?_); rfl)
          | with_reducible exact read_mkR k
          | with_reducible exact read_reg t o0
          | with_reducible exact read_imm c o0 _
          | with_reducible exact sim_tgt c _
          | with_reducible exact read_align t _ _ _
          | with_reducible exact read_jump t _ _
          | with_reducible exact c.delay
          | with_reducible refine read_mkI k.I ?_
          | with_reducible refine wsim_bind ?_ (fun _ => ?_)
          | split
      | cons o1 hs =>
        cases hs with
        | nil => 
          simp only [read_unwrap o0.trm, o1.base]
          try dsimp only
          repeat' first
            | with_reducible exact wsim_refl _
            | ((with_reducible refine read_bad' t ?_); rfl)
            | with_reducible exact read_mkR k
            | with_reducible exact read_reg t o0
            | with_reducible exact read_reg t o1
            | with_reducible exact read_freg t o0
            | with_reducible exact read_freg t o1
            | with_reducible exact read_creg t o0
            | with_reducible exact read_creg t o1
            | with_reducible exact sim_parseReg c _
            | with_reducible exact read_imm c o0 _
            | with_reducible exact read_imm c o1 _
            | with_reducible exact sim_tgt c _
            | with_reducible exact read_align t _ _ _
            | with_reducible exact read_jump t _ _
            | with_reducible exact c.delay
            | with_reducible exact f1 _ _
            | exact read_off c k o1 _ o1.off _ _
            | exact read_off c k o1 _ o1.off' _ _
            | with_reducible refine read_mkI k.I ?_
            | with_reducible refine wsim_bind ?_ (fun _ => ?_)
            | split
        | cons o2 hs =>
          cases hs with
          | nil => 
            try simp only [read_shift o2]
            try dsimp only
            repeat' first
              | with_reducible exact wsim_refl _
              | ((with_reducible refine read_bad' t ?_); rfl)
              | with_reducible exact read_mkR k
              | with_reducible exact read_reg t o0
              | with_reducible exact read_reg t o1
              | with_reducible exact read_reg t o2
              | with_reducible exact read_imm c o2 _
              | with_reducible exact read_align t _ _ _
              | with_reducible exact c.delay
              | with_reducible refine read_mkI k.I ?_
              | with_reducible refine wsim_bind ?_ (fun _ => ?_)
              | split
          | cons o3 hs => 
            simp only [List.length_cons, hs.length]; exact read_bad t _ _ _ _

end
end Mips
