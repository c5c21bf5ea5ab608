/- GENERATED by tools/gen_place.py: which operands the specification's `place` accepts. -/
import Verif.Spec.Isa

namespace Mips
open Isa

theorem place_rdRsRt_special {f : BitVec 6} {args : List Arg} {w : BitVec 32}
    (h : place (.special f) .rdRsRt args = some w) :
    ∃ rd rs rt, args = [.gpr rd, .gpr rs, .gpr rt] ∧ w = (rWord 0 rs rt rd 0 f) := by
  unfold place at h
  split at h
  all_goals first
    | (cases h; done)
    | (rename_i h1 h2; cases h1 <;> cases h2 <;> cases h <;> exact ⟨_, _, _, rfl, rfl⟩)

theorem place_rdRtSa_special {f : BitVec 6} {args : List Arg} {w : BitVec 32}
    (h : place (.special f) .rdRtSa args = some w) :
    ∃ rd rt v, args = [.gpr rd, .gpr rt, .sa v] ∧ w = (rWord 0 0 rt rd v f) := by
  unfold place at h
  split at h
  all_goals first
    | (cases h; done)
    | (rename_i h1 h2; cases h1 <;> cases h2 <;> cases h <;> exact ⟨_, _, _, rfl, rfl⟩)

theorem place_rdRtRs_special {f : BitVec 6} {args : List Arg} {w : BitVec 32}
    (h : place (.special f) .rdRtRs args = some w) :
    ∃ rd rt rs, args = [.gpr rd, .gpr rt, .gpr rs] ∧ w = (rWord 0 rs rt rd 0 f) := by
  unfold place at h
  split at h
  all_goals first
    | (cases h; done)
    | (rename_i h1 h2; cases h1 <;> cases h2 <;> cases h <;> exact ⟨_, _, _, rfl, rfl⟩)

theorem place_rsRt_special {f : BitVec 6} {args : List Arg} {w : BitVec 32}
    (h : place (.special f) .rsRt args = some w) :
    ∃ rs rt, args = [.gpr rs, .gpr rt] ∧ w = (rWord 0 rs rt 0 0 f) := by
  unfold place at h
  split at h
  all_goals first
    | (cases h; done)
    | (rename_i h1 h2; cases h1 <;> cases h2 <;> cases h <;> exact ⟨_, _, rfl, rfl⟩)

theorem place_rs_special {f : BitVec 6} {args : List Arg} {w : BitVec 32}
    (h : place (.special f) .rs args = some w) :
    ∃ rs, args = [.gpr rs] ∧ w = (rWord 0 rs 0 0 0 f) := by
  unfold place at h
  split at h
  all_goals first
    | (cases h; done)
    | (rename_i h1 h2; cases h1 <;> cases h2 <;> cases h <;> exact ⟨_, rfl, rfl⟩)

theorem place_rd_special {f : BitVec 6} {args : List Arg} {w : BitVec 32}
    (h : place (.special f) .rd args = some w) :
    ∃ rd, args = [.gpr rd] ∧ w = (rWord 0 0 0 rd 0 f) := by
  unfold place at h
  split at h
  all_goals first
    | (cases h; done)
    | (rename_i h1 h2; cases h1 <;> cases h2 <;> cases h <;> exact ⟨_, rfl, rfl⟩)

theorem place_rdRs_special {f : BitVec 6} {args : List Arg} {w : BitVec 32}
    (h : place (.special f) .rdRs args = some w) :
    ∃ rd rs, args = [.gpr rd, .gpr rs] ∧ w = (rWord 0 rs 0 rd 0 f) := by
  unfold place at h
  split at h
  all_goals first
    | (cases h; done)
    | (rename_i h1 h2; cases h1 <;> cases h2 <;> cases h <;> exact ⟨_, _, rfl, rfl⟩)

theorem place_code_special {f : BitVec 6} {args : List Arg} {w : BitVec 32}
    (h : place (.special f) .code args = some w) :
    ∃ v, args = [.code v] ∧ w = (0#6 ++ v ++ f) := by
  unfold place at h
  split at h
  all_goals first
    | (cases h; done)
    | (rename_i h1 h2; cases h1 <;> cases h2 <;> cases h <;> exact ⟨_, rfl, rfl⟩)

theorem place_none_special {f : BitVec 6} {args : List Arg} {w : BitVec 32}
    (h : place (.special f) .none args = some w) :
    args = [] ∧ w = (rWord 0 0 0 0 0 f) := by
  unfold place at h
  split at h
  all_goals first
    | (cases h; done)
    | (rename_i h1 h2; cases h1 <;> cases h2 <;> cases h <;> exact ⟨rfl, rfl⟩)

theorem place_rtRsSimm_main {o : BitVec 6} {args : List Arg} {w : BitVec 32}
    (h : place (.main o) .rtRsSimm args = some w) :
    ∃ rt rs v, args = [.gpr rt, .gpr rs, .simm v] ∧ w = (iWord o rs rt v) := by
  unfold place at h
  split at h
  all_goals first
    | (cases h; done)
    | (rename_i h1 h2; cases h1 <;> cases h2 <;> cases h <;> exact ⟨_, _, _, rfl, rfl⟩)

theorem place_rtRsUimm_main {o : BitVec 6} {args : List Arg} {w : BitVec 32}
    (h : place (.main o) .rtRsUimm args = some w) :
    ∃ rt rs v, args = [.gpr rt, .gpr rs, .uimm v] ∧ w = (iWord o rs rt v) := by
  unfold place at h
  split at h
  all_goals first
    | (cases h; done)
    | (rename_i h1 h2; cases h1 <;> cases h2 <;> cases h <;> exact ⟨_, _, _, rfl, rfl⟩)

theorem place_rtUimm_main {o : BitVec 6} {args : List Arg} {w : BitVec 32}
    (h : place (.main o) .rtUimm args = some w) :
    ∃ rt v, args = [.gpr rt, .uimm v] ∧ w = (iWord o 0 rt v) := by
  unfold place at h
  split at h
  all_goals first
    | (cases h; done)
    | (rename_i h1 h2; cases h1 <;> cases h2 <;> cases h <;> exact ⟨_, _, rfl, rfl⟩)

theorem place_rtMem_main {o : BitVec 6} {args : List Arg} {w : BitVec 32}
    (h : place (.main o) .rtMem args = some w) :
    ∃ rt v b, args = [.gpr rt, .mem v b] ∧ w = (iWord o b rt v) := by
  unfold place at h
  split at h
  all_goals first
    | (cases h; done)
    | (rename_i h1 h2; cases h1 <;> cases h2 <;> cases h <;> exact ⟨_, _, _, rfl, rfl⟩)

theorem place_ftMem_main {o : BitVec 6} {args : List Arg} {w : BitVec 32}
    (h : place (.main o) .ftMem args = some w) :
    ∃ ft v b, args = [.fpr ft, .mem v b] ∧ w = (iWord o b ft v) := by
  unfold place at h
  split at h
  all_goals first
    | (cases h; done)
    | (rename_i h1 h2; cases h1 <;> cases h2 <;> cases h <;> exact ⟨_, _, _, rfl, rfl⟩)

theorem place_copMem_main {o : BitVec 6} {args : List Arg} {w : BitVec 32}
    (h : place (.main o) .copMem args = some w) :
    ∃ c v b, args = [.cop c, .mem v b] ∧ w = (iWord o b c v) := by
  unfold place at h
  split at h
  all_goals first
    | (cases h; done)
    | (rename_i h1 h2; cases h1 <;> cases h2 <;> cases h <;> exact ⟨_, _, _, rfl, rfl⟩)

theorem place_rsRtOff_main {o : BitVec 6} {args : List Arg} {w : BitVec 32}
    (h : place (.main o) .rsRtOff args = some w) :
    ∃ rs rt v, args = [.gpr rs, .gpr rt, .off v] ∧ w = (iWord o rs rt v) := by
  unfold place at h
  split at h
  all_goals first
    | (cases h; done)
    | (rename_i h1 h2; cases h1 <;> cases h2 <;> cases h <;> exact ⟨_, _, _, rfl, rfl⟩)

theorem place_rsOff_main {o : BitVec 6} {args : List Arg} {w : BitVec 32}
    (h : place (.main o) .rsOff args = some w) :
    ∃ rs v, args = [.gpr rs, .off v] ∧ w = (iWord o rs 0 v) := by
  unfold place at h
  split at h
  all_goals first
    | (cases h; done)
    | (rename_i h1 h2; cases h1 <;> cases h2 <;> cases h <;> exact ⟨_, _, rfl, rfl⟩)

theorem place_target_main {o : BitVec 6} {args : List Arg} {w : BitVec 32}
    (h : place (.main o) .target args = some w) :
    ∃ t, args = [.target t] ∧ w = (jWord o t) := by
  unfold place at h
  split at h
  all_goals first
    | (cases h; done)
    | (rename_i h1 h2; cases h1 <;> cases h2 <;> cases h <;> exact ⟨_, rfl, rfl⟩)

theorem place_rsOff_regimm {c : BitVec 5} {args : List Arg} {w : BitVec 32}
    (h : place (.regimm c) .rsOff args = some w) :
    ∃ rs v, args = [.gpr rs, .off v] ∧ w = (iWord 1 rs c v) := by
  unfold place at h
  split at h
  all_goals first
    | (cases h; done)
    | (rename_i h1 h2; cases h1 <;> cases h2 <;> cases h <;> exact ⟨_, _, rfl, rfl⟩)

theorem place_rsSimm_regimm {c : BitVec 5} {args : List Arg} {w : BitVec 32}
    (h : place (.regimm c) .rsSimm args = some w) :
    ∃ rs v, args = [.gpr rs, .simm v] ∧ w = (iWord 1 rs c v) := by
  unfold place at h
  split at h
  all_goals first
    | (cases h; done)
    | (rename_i h1 h2; cases h1 <;> cases h2 <;> cases h <;> exact ⟨_, _, rfl, rfl⟩)

theorem place_rtC0_cop {z : BitVec 2} {c : BitVec 5} {args : List Arg} {w : BitVec 32}
    (h : place (.cop z c) .rtC0 args = some w) :
    ∃ rt rd, args = [.gpr rt, .c0 rd] ∧ w = (rWord (copOp z) c rt rd 0 0) := by
  unfold place at h
  split at h
  all_goals first
    | (cases h; done)
    | (rename_i h1 h2; cases h1 <;> cases h2 <;> cases h <;> exact ⟨_, _, rfl, rfl⟩)

theorem place_rtFs_cop {z : BitVec 2} {c : BitVec 5} {args : List Arg} {w : BitVec 32}
    (h : place (.cop z c) .rtFs args = some w) :
    ∃ rt rd, args = [.gpr rt, .fpr rd] ∧ w = (rWord (copOp z) c rt rd 0 0) := by
  unfold place at h
  split at h
  all_goals first
    | (cases h; done)
    | (rename_i h1 h2; cases h1 <;> cases h2 <;> cases h <;> exact ⟨_, _, rfl, rfl⟩)

theorem place_off_bc {z : BitVec 2} {c : BitVec 5} {args : List Arg} {w : BitVec 32}
    (h : place (.bc z c) .off args = some w) :
    ∃ v, args = [.off v] ∧ w = (iWord (copOp z) 8 c v) := by
  unfold place at h
  split at h
  all_goals first
    | (cases h; done)
    | (rename_i h1 h2; cases h1 <;> cases h2 <;> cases h <;> exact ⟨_, rfl, rfl⟩)

theorem place_none_co {f : BitVec 6} {args : List Arg} {w : BitVec 32}
    (h : place (.co f) .none args = some w) :
    args = [] ∧ w = (rWord (copOp 0) 16 0 0 0 f) := by
  unfold place at h
  split at h
  all_goals first
    | (cases h; done)
    | (rename_i h1 h2; cases h1 <;> cases h2 <;> cases h <;> exact ⟨rfl, rfl⟩)

theorem place_fdFsFt_fp {m : BitVec 5} {f : BitVec 6} {args : List Arg} {w : BitVec 32}
    (h : place (.fp m f) .fdFsFt args = some w) :
    ∃ fd fs ft, args = [.fpr fd, .fpr fs, .fpr ft] ∧ w = (rWord (copOp 1) m ft fs fd f) := by
  unfold place at h
  split at h
  all_goals first
    | (cases h; done)
    | (rename_i h1 h2; cases h1 <;> cases h2 <;> cases h <;> exact ⟨_, _, _, rfl, rfl⟩)

theorem place_fdFs_fp {m : BitVec 5} {f : BitVec 6} {args : List Arg} {w : BitVec 32}
    (h : place (.fp m f) .fdFs args = some w) :
    ∃ fd fs, args = [.fpr fd, .fpr fs] ∧ w = (rWord (copOp 1) m 0 fs fd f) := by
  unfold place at h
  split at h
  all_goals first
    | (cases h; done)
    | (rename_i h1 h2; cases h1 <;> cases h2 <;> cases h <;> exact ⟨_, _, rfl, rfl⟩)

theorem place_fsFt_fp {m : BitVec 5} {f : BitVec 6} {args : List Arg} {w : BitVec 32}
    (h : place (.fp m f) .fsFt args = some w) :
    ∃ fs ft, args = [.fpr fs, .fpr ft] ∧ w = (rWord (copOp 1) m ft fs 0 f) := by
  unfold place at h
  split at h
  all_goals first
    | (cases h; done)
    | (rename_i h1 h2; cases h1 <;> cases h2 <;> cases h <;> exact ⟨_, _, rfl, rfl⟩)

end Mips
