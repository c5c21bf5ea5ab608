/- The code of the instructions, by arm of the parser (for C57).  GENERATED by tools/gen_code4.py. -/
import Verif.Lemmas.CodeL4
import Verif.Lemmas.LangL11

namespace Mips
open Isa hiding Code
open Lang

/-- the mnemonic, in small letters -/
abbrev iname (o : ITypeOp) : Str := o.name.map asciiLower
/-- see `iname` -/
abbrev rname (o : RTypeOp) : Str := o.name.map asciiLower
/-- see `iname` -/
abbrev jname (o : JTypeOp) : Str := o.name.map asciiLower

theorem same_code {a b : Option (List Word)} (h : a = b) {ws : List Word} (hw : a = some ws) : b = some ws := by rw [← h]; exact hw
theorem pair_mem {α β : Type} {L : List (Str × α × β)} {n : Str} {o : α} (h : (n, o) ∈ L.map fun e => (e.1, e.2.1)) : ∃ f, (n, o, f) ∈ L := by
  obtain ⟨⟨a, b, f⟩, he, e⟩ := List.mem_map.1 h
  cases e; exact ⟨f, he⟩

theorem in_arith : ∀ o ∈ ITypeOp.all, classify (iname o) = .arith → (iname o, o) ∈ L_rtRsSimm_arith_main.map (fun e => (e.1, e.2.1)) ∨ (iname o, o) ∈ L_rtRsUimm_arith_main.map (fun e => (e.1, e.2.1)) ∨ (iname o, o) ∈ [(c!"subi", .Subi), (c!"subiu", .Subiu), (c!"dsubi", .Dsubi), (c!"dsubiu", .Dsubiu)] := by decide +kernel
theorem cl_arith {o : ITypeOp} (ho : o ∈ ITypeOp.all) (hc : classify (iname o) = .arith) (ovf : Bool) (rs rt : BitVec 5) (v : Int) (l : BitVec 64) {ws : List Word}
    (h : encI ovf o (rs.setWidth 32) (rt.setWidth 32) ((BitVec.ofInt 16 v).setWidth 32) l = some ws) : code (iname o) [.gpr rt, .gpr rs, .num v] = some ws := by
  have hm := in_arith o ho hc
  revert h hm
  generalize iname o = n
  intro h hm
  rcases hm with hm | hm | hm
  · obtain ⟨f, hf⟩ := pair_mem hm
    exact same_code ((enc_rtRsSimm_arith_main _ hf ovf rs rt _ l).trans (code_rtRsSimm_arith_main _ hf rs rt v).symm) h
  · obtain ⟨f, hf⟩ := pair_mem hm
    exact same_code ((enc_rtRsUimm_arith_main _ hf ovf rs rt _ l).trans (code_rtRsUimm_arith_main _ hf rs rt v).symm) h
  · simp only [List.mem_cons, List.not_mem_nil, or_false, Prod.mk.injEq] at hm
    rcases hm with ⟨rfl, rfl⟩ | ⟨rfl, rfl⟩ | ⟨rfl, rfl⟩ | ⟨rfl, rfl⟩
    · exact same_code (p_subi ovf rs rt v l) h
    · exact same_code (p_subiu ovf rs rt v l) h
    · exact same_code (p_dsubi ovf rs rt v l) h
    · exact same_code (p_dsubiu ovf rs rt v l) h
theorem in_mem : ∀ o ∈ ITypeOp.all, classify (iname o) = .mem ∧ iname o ≠ c!"cache" → (iname o, o) ∈ L_rtMem_mem_main.map (fun e => (e.1, e.2.1)) := by decide +kernel
theorem cl_mem {o : ITypeOp} (ho : o ∈ ITypeOp.all) (hc : classify (iname o) = .mem ∧ iname o ≠ c!"cache") (ovf : Bool) (rs rt : BitVec 5) (v : Int) (l : BitVec 64) {ws : List Word}
    (h : encI ovf o (rs.setWidth 32) (rt.setWidth 32) ((BitVec.ofInt 16 v).setWidth 32) l = some ws) : code (iname o) [.gpr rt, .gpr rs, .num v] = some ws := by
  have hm := in_mem o ho hc
  revert h hm
  generalize iname o = n
  intro h hm
  obtain ⟨f, hf⟩ := pair_mem hm
  exact same_code ((enc_rtMem_mem_main _ hf ovf rs rt _ l).trans (code_rtMem_mem_main _ hf rs rt v).symm) h
theorem in_cache : ∀ o ∈ ITypeOp.all, classify (iname o) = .mem ∧ iname o = c!"cache" → (iname o, o) ∈ L_copMem_mem_main.map (fun e => (e.1, e.2.1)) := by decide +kernel
theorem cl_cache {o : ITypeOp} (ho : o ∈ ITypeOp.all) (hc : classify (iname o) = .mem ∧ iname o = c!"cache") (ovf : Bool) (rs : BitVec 5) (c v : Int) (l : BitVec 64) {ws : List Word}
    (h : encI ovf o (rs.setWidth 32) ((BitVec.ofInt 5 c).setWidth 32) ((BitVec.ofInt 16 v).setWidth 32) l = some ws) : code (iname o) [.num c, .gpr rs, .num v] = some ws := by
  have hm := in_cache o ho hc
  revert h hm
  generalize iname o = n
  intro h hm
  obtain ⟨f, hf⟩ := pair_mem hm
  exact same_code ((enc_copMem_mem_main _ hf ovf rs _ _ l).trans (code_copMem_mem_main _ hf rs c v).symm) h
theorem in_fmem : ∀ o ∈ ITypeOp.all, classify (iname o) = .fmem → (iname o, o) ∈ L_ftMem_fmem_main.map (fun e => (e.1, e.2.1)) := by decide +kernel
theorem cl_fmem {o : ITypeOp} (ho : o ∈ ITypeOp.all) (hc : classify (iname o) = .fmem) (ovf : Bool) (rs rt : BitVec 5) (v : Int) (l : BitVec 64) {ws : List Word}
    (h : encI ovf o (rs.setWidth 32) (rt.setWidth 32) ((BitVec.ofInt 16 v).setWidth 32) l = some ws) : code (iname o) [.fpr rt, .gpr rs, .num v] = some ws := by
  have hm := in_fmem o ho hc
  revert h hm
  generalize iname o = n
  intro h hm
  obtain ⟨f, hf⟩ := pair_mem hm
  exact same_code ((enc_ftMem_fmem_main _ hf ovf rs rt _ l).trans (code_ftMem_fmem_main _ hf rs rt v).symm) h
theorem in_br2 : ∀ o ∈ ITypeOp.all, classify (iname o) = .br2 → (iname o, o) ∈ L_rsRtOff_br2_main.map (fun e => (e.1, e.2.1)) ∨ (iname o, o) ∈ [(c!"bge", .Bge), (c!"bgt", .Bgt), (c!"ble", .Ble), (c!"blt", .Blt), (c!"bgeu", .Bgeu), (c!"bgtu", .Bgtu), (c!"bleu", .Bleu), (c!"bltu", .Bltu), (c!"bgel", .Bgel), (c!"bgtl", .Bgtl), (c!"blel", .Blel), (c!"bltl", .Bltl), (c!"bgeul", .Bgeul), (c!"bgtul", .Bgtul), (c!"bleul", .Bleul), (c!"bltul", .Bltul)] := by decide +kernel
theorem cl_br2 {o : ITypeOp} (ho : o ∈ ITypeOp.all) (hc : classify (iname o) = .br2) (ovf : Bool) (rs rt : BitVec 5) (v : Int) (l : BitVec 64) {ws : List Word}
    (h : encI ovf o (rs.setWidth 32) (rt.setWidth 32) ((BitVec.ofInt 16 v).setWidth 32) l = some ws) : code (iname o) [.gpr rs, .gpr rt, .num v] = some ws := by
  have hm := in_br2 o ho hc
  revert h hm
  generalize iname o = n
  intro h hm
  rcases hm with hm | hm
  · obtain ⟨f, hf⟩ := pair_mem hm
    exact same_code ((enc_rsRtOff_br2_main _ hf ovf rs rt _ l).trans (code_rsRtOff_br2_main _ hf rs rt v).symm) h
  · simp only [List.mem_cons, List.not_mem_nil, or_false, Prod.mk.injEq] at hm
    rcases hm with ⟨rfl, rfl⟩ | ⟨rfl, rfl⟩ | ⟨rfl, rfl⟩ | ⟨rfl, rfl⟩ | ⟨rfl, rfl⟩ | ⟨rfl, rfl⟩ | ⟨rfl, rfl⟩ | ⟨rfl, rfl⟩ | ⟨rfl, rfl⟩ | ⟨rfl, rfl⟩ | ⟨rfl, rfl⟩ | ⟨rfl, rfl⟩ | ⟨rfl, rfl⟩ | ⟨rfl, rfl⟩ | ⟨rfl, rfl⟩ | ⟨rfl, rfl⟩
    · exact p_bge ovf rs rt v l h
    · exact p_bgt ovf rs rt v l h
    · exact p_ble ovf rs rt v l h
    · exact p_blt ovf rs rt v l h
    · exact p_bgeu ovf rs rt v l h
    · exact p_bgtu ovf rs rt v l h
    · exact p_bleu ovf rs rt v l h
    · exact p_bltu ovf rs rt v l h
    · exact p_bgel ovf rs rt v l h
    · exact p_bgtl ovf rs rt v l h
    · exact p_blel ovf rs rt v l h
    · exact p_bltl ovf rs rt v l h
    · exact p_bgeul ovf rs rt v l h
    · exact p_bgtul ovf rs rt v l h
    · exact p_bleul ovf rs rt v l h
    · exact p_bltul ovf rs rt v l h
theorem in_br1 : ∀ o ∈ ITypeOp.all, classify (iname o) = .br1 → (iname o, o) ∈ L_rsOff_br1_main.map (fun e => (e.1, e.2.1)) ∨ (iname o, o) ∈ L_rsOff_br1_regimm.map (fun e => (e.1, e.2.1)) ∨ (iname o, o) ∈ [(c!"beqz", .Beqz), (c!"bnez", .Bnez), (c!"beqzl", .Beqzl), (c!"bnezl", .Bnezl)] := by decide +kernel
theorem cl_br1 {o : ITypeOp} (ho : o ∈ ITypeOp.all) (hc : classify (iname o) = .br1) (ovf : Bool) (rs : BitVec 5) (v : Int) (l : BitVec 64) {ws : List Word}
    (h : encI ovf o (rs.setWidth 32) 0#32 ((BitVec.ofInt 16 v).setWidth 32) l = some ws) : code (iname o) [.gpr rs, .num v] = some ws := by
  have hm := in_br1 o ho hc
  revert h hm
  generalize iname o = n
  intro h hm
  rcases hm with hm | hm | hm
  · obtain ⟨f, hf⟩ := pair_mem hm
    exact same_code ((enc_rsOff_br1_main _ hf ovf rs _ l).trans (code_rsOff_br1_main _ hf rs v).symm) h
  · obtain ⟨f, hf⟩ := pair_mem hm
    exact same_code ((enc_rsOff_br1_regimm _ hf ovf rs _ l).trans (code_rsOff_br1_regimm _ hf rs v).symm) h
  · simp only [List.mem_cons, List.not_mem_nil, or_false, Prod.mk.injEq] at hm
    rcases hm with ⟨rfl, rfl⟩ | ⟨rfl, rfl⟩ | ⟨rfl, rfl⟩ | ⟨rfl, rfl⟩
    · exact same_code (p_beqz ovf rs 0#32 v l) h
    · exact same_code (p_bnez ovf rs 0#32 v l) h
    · exact same_code (p_beqzl ovf rs 0#32 v l) h
    · exact same_code (p_bnezl ovf rs 0#32 v l) h
theorem in_trapi : ∀ o ∈ ITypeOp.all, classify (iname o) = .trapi → (iname o, o) ∈ L_rsSimm_trapi_regimm.map (fun e => (e.1, e.2.1)) := by decide +kernel
theorem cl_trapi {o : ITypeOp} (ho : o ∈ ITypeOp.all) (hc : classify (iname o) = .trapi) (ovf : Bool) (rs : BitVec 5) (v : Int) (l : BitVec 64) {ws : List Word}
    (h : encI ovf o (rs.setWidth 32) 0#32 ((BitVec.ofInt 16 v).setWidth 32) l = some ws) : code (iname o) [.gpr rs, .num v] = some ws := by
  have hm := in_trapi o ho hc
  revert h hm
  generalize iname o = n
  intro h hm
  obtain ⟨f, hf⟩ := pair_mem hm
  exact same_code ((enc_rsSimm_trapi_regimm _ hf ovf rs _ l).trans (code_rsSimm_trapi_regimm _ hf rs v).symm) h
theorem in_lui : ∀ o ∈ ITypeOp.all, classify (iname o) = .lui → (iname o, o) ∈ L_rtUimm_lui_main.map (fun e => (e.1, e.2.1)) ∨ (iname o, o) ∈ [(c!"lli", .Lli)] := by decide +kernel
theorem cl_lui {o : ITypeOp} (ho : o ∈ ITypeOp.all) (hc : classify (iname o) = .lui) (ovf : Bool) (rt : BitVec 5) (v : Int) (l : BitVec 64) {ws : List Word}
    (h : encI ovf o 0#32 (rt.setWidth 32) ((BitVec.ofInt 16 v).setWidth 32) l = some ws) : code (iname o) [.gpr rt, .num v] = some ws := by
  have hm := in_lui o ho hc
  revert h hm
  generalize iname o = n
  intro h hm
  rcases hm with hm | hm
  · obtain ⟨f, hf⟩ := pair_mem hm
    exact same_code ((enc_rtUimm_lui_main _ hf ovf rt _ l).trans (code_rtUimm_lui_main _ hf rt v).symm) h
  · simp only [List.mem_cons, List.not_mem_nil, or_false, Prod.mk.injEq] at hm
    rcases hm with ⟨rfl, rfl⟩
    · exact same_code (p_lli ovf 0#32 rt v l) h
theorem in_b : ∀ o ∈ ITypeOp.all, classify (iname o) = .b → (iname o, o) ∈ [(c!"b", .B), (c!"bal", .Bal)] := by decide +kernel
theorem cl_b {o : ITypeOp} (ho : o ∈ ITypeOp.all) (hc : classify (iname o) = .b) (ovf : Bool) (v : Int) (l : BitVec 64) {ws : List Word}
    (h : encI ovf o 0#32 0#32 ((BitVec.ofInt 16 v).setWidth 32) l = some ws) : code (iname o) [.num v] = some ws := by
  have hm := in_b o ho hc
  revert h hm
  generalize iname o = n
  intro h hm
  simp only [List.mem_cons, List.not_mem_nil, or_false, Prod.mk.injEq] at hm
  rcases hm with ⟨rfl, rfl⟩ | ⟨rfl, rfl⟩
  · exact same_code (p_b ovf 0#32 0#32 v l) h
  · exact same_code (p_bal ovf 0#32 0#32 v l) h
theorem in_bc : ∀ o ∈ ITypeOp.all, classify (iname o) = .bc → (iname o, o) ∈ L_off_bc_bc.map (fun e => (e.1, e.2.1)) := by decide +kernel
theorem cl_bc {o : ITypeOp} (ho : o ∈ ITypeOp.all) (hc : classify (iname o) = .bc) (ovf : Bool) (v : Int) (l : BitVec 64) {ws : List Word}
    (h : encI ovf o 0#32 0#32 ((BitVec.ofInt 16 v).setWidth 32) l = some ws) : code (iname o) [.num v] = some ws := by
  have hm := in_bc o ho hc
  revert h hm
  generalize iname o = n
  intro h hm
  obtain ⟨f, hf⟩ := pair_mem hm
  exact same_code ((enc_off_bc_bc _ hf ovf _ l).trans (code_off_bc_bc _ hf v).symm) h
theorem in_dli : ∀ o ∈ ITypeOp.all, classify (iname o) = .dli → (iname o, o) ∈ [(c!"dli", .Dli)] := by decide +kernel
theorem cl_dli {o : ITypeOp} (ho : o ∈ ITypeOp.all) (hc : classify (iname o) = .dli) (ovf : Bool) (rt : BitVec 5) (v : Int) (i : Word) {ws : List Word}
    (h : encI ovf o 0#32 (rt.setWidth 32) i (BitVec.ofInt 64 v) = some ws) : code (iname o) [.gpr rt, .num v] = some ws := by
  have hm := in_dli o ho hc
  revert h hm
  generalize iname o = n
  intro h hm
  simp only [List.mem_cons, List.not_mem_nil, or_false, Prod.mk.injEq] at hm
  rcases hm with ⟨rfl, rfl⟩
  · exact same_code (p_dli ovf 0#32 rt v i) h
theorem in_li : ∀ o ∈ ITypeOp.all, classify (iname o) = .li → (iname o, o) ∈ [(c!"li", .Li)] := by decide +kernel
theorem cl_li {o : ITypeOp} (ho : o ∈ ITypeOp.all) (hc : classify (iname o) = .li) (ovf : Bool) (rt : BitVec 5) (v : Int) (l : BitVec 64) (h0 : 0 ≤ v) (h1 : v ≤ 4294967295) {ws : List Word}
    (h : encI ovf o 0#32 (rt.setWidth 32) (BitVec.ofInt 32 v) l = some ws) : code (iname o) [.gpr rt, .num v] = some ws := by
  have hm := in_li o ho hc
  revert h hm
  generalize iname o = n
  intro h hm
  simp only [List.mem_cons, List.not_mem_nil, or_false, Prod.mk.injEq] at hm
  rcases hm with ⟨rfl, rfl⟩
  · exact same_code (p_li ovf 0#32 rt v l h0 h1) h
theorem in_liu : ∀ o ∈ ITypeOp.all, classify (iname o) = .liu → (iname o, o) ∈ [(c!"liu", .Liu)] := by decide +kernel
theorem cl_liu {o : ITypeOp} (ho : o ∈ ITypeOp.all) (hc : classify (iname o) = .liu) (ovf : Bool) (rt : BitVec 5) (v : Int) (l : BitVec 64) (h0 : 0 ≤ v) (h1 : v ≤ 4294967295) {ws : List Word}
    (h : encI ovf o 0#32 (rt.setWidth 32) (BitVec.ofInt 32 v) l = some ws) : code (iname o) [.gpr rt, .num v] = some ws := by
  have hm := in_liu o ho hc
  revert h hm
  generalize iname o = n
  intro h hm
  simp only [List.mem_cons, List.not_mem_nil, or_false, Prod.mk.injEq] at hm
  rcases hm with ⟨rfl, rfl⟩
  · exact same_code (p_liu ovf 0#32 rt v l h0 h1) h
theorem in_reg3 : ∀ o ∈ RTypeOp.all, classify (rname o) = .reg3 → (rname o, o) ∈ L_rdRsRt_reg3_special.map (fun e => (e.1, e.2.1)) ∨ (rname o, o) ∈ [(c!"dmul", .Dmul), (c!"dmulu", .Dmulu), (c!"dmulo", .Dmulo), (c!"dmulou", .Dmulou), (c!"drem", .Drem), (c!"dremu", .Dremu), (c!"drol", .Drol), (c!"dror", .Dror), (c!"mul", .Mul), (c!"mulu", .Mulu), (c!"mulo", .Mulo), (c!"mulou", .Mulou), (c!"rem", .Rem), (c!"remu", .Remu), (c!"seq", .Seq), (c!"sge", .Sge), (c!"sgeu", .Sgeu), (c!"sgt", .Sgt), (c!"sgtu", .Sgtu), (c!"sle", .Sle), (c!"sleu", .Sleu), (c!"sne", .Sne)] := by decide +kernel
theorem cl_reg3 {o : RTypeOp} (ho : o ∈ RTypeOp.all) (hc : classify (rname o) = .reg3) (rs rt rd : BitVec 5) {ws : List Word}
    (h : some (encR o (rs.setWidth 32) (rt.setWidth 32) (rd.setWidth 32) 0#32) = some ws) : code (rname o) [.gpr rd, .gpr rs, .gpr rt] = some ws := by
  have hm := in_reg3 o ho hc
  revert h hm
  generalize rname o = n
  intro h hm
  rcases hm with hm | hm
  · obtain ⟨f, hf⟩ := pair_mem hm
    exact same_code ((congrArg some (enc_rdRsRt_reg3_special _ hf rs rt rd)).trans (code_rdRsRt_reg3_special _ hf rs rt rd).symm) h
  · simp only [List.mem_cons, List.not_mem_nil, or_false, Prod.mk.injEq] at hm
    rcases hm with ⟨rfl, rfl⟩ | ⟨rfl, rfl⟩ | ⟨rfl, rfl⟩ | ⟨rfl, rfl⟩ | ⟨rfl, rfl⟩ | ⟨rfl, rfl⟩ | ⟨rfl, rfl⟩ | ⟨rfl, rfl⟩ | ⟨rfl, rfl⟩ | ⟨rfl, rfl⟩ | ⟨rfl, rfl⟩ | ⟨rfl, rfl⟩ | ⟨rfl, rfl⟩ | ⟨rfl, rfl⟩ | ⟨rfl, rfl⟩ | ⟨rfl, rfl⟩ | ⟨rfl, rfl⟩ | ⟨rfl, rfl⟩ | ⟨rfl, rfl⟩ | ⟨rfl, rfl⟩ | ⟨rfl, rfl⟩ | ⟨rfl, rfl⟩
    · exact same_code (p_dmul rs rt rd 0#32).symm h
    · exact same_code (p_dmulu rs rt rd 0#32).symm h
    · exact same_code (p_dmulo rs rt rd 0#32).symm h
    · exact same_code (p_dmulou rs rt rd 0#32).symm h
    · exact same_code (p_drem rs rt rd 0#32).symm h
    · exact same_code (p_dremu rs rt rd 0#32).symm h
    · exact same_code (p_drol rs rt rd 0#32).symm h
    · exact same_code (p_dror rs rt rd 0#32).symm h
    · exact same_code (p_mul rs rt rd 0#32).symm h
    · exact same_code (p_mulu rs rt rd 0#32).symm h
    · exact same_code (p_mulo rs rt rd 0#32).symm h
    · exact same_code (p_mulou rs rt rd 0#32).symm h
    · exact same_code (p_rem rs rt rd 0#32).symm h
    · exact same_code (p_remu rs rt rd 0#32).symm h
    · exact same_code (p_seq rs rt rd 0#32).symm h
    · exact same_code (p_sge rs rt rd 0#32).symm h
    · exact same_code (p_sgeu rs rt rd 0#32).symm h
    · exact same_code (p_sgt rs rt rd 0#32).symm h
    · exact same_code (p_sgtu rs rt rd 0#32).symm h
    · exact same_code (p_sle rs rt rd 0#32).symm h
    · exact same_code (p_sleu rs rt rd 0#32).symm h
    · exact same_code (p_sne rs rt rd 0#32).symm h
theorem in_shiftv : ∀ o ∈ RTypeOp.all, classify (rname o) = .shiftv → (rname o, o) ∈ L_rdRtRs_shiftv_special.map (fun e => (e.1, e.2.1)) := by decide +kernel
theorem cl_shiftv {o : RTypeOp} (ho : o ∈ RTypeOp.all) (hc : classify (rname o) = .shiftv) (rs rt rd : BitVec 5) {ws : List Word}
    (h : some (encR o (rs.setWidth 32) (rt.setWidth 32) (rd.setWidth 32) 0#32) = some ws) : code (rname o) [.gpr rd, .gpr rt, .gpr rs] = some ws := by
  have hm := in_shiftv o ho hc
  revert h hm
  generalize rname o = n
  intro h hm
  obtain ⟨f, hf⟩ := pair_mem hm
  exact same_code ((congrArg some (enc_rdRtRs_shiftv_special _ hf rs rt rd)).trans (code_rdRtRs_shiftv_special _ hf rs rt rd).symm) h
theorem in_shift : ∀ o ∈ RTypeOp.all, classify (rname o) = .shift → (rname o, o) ∈ L_rdRtSa_shift_special.map (fun e => (e.1, e.2.1)) := by decide +kernel
theorem cl_shift {o : RTypeOp} (ho : o ∈ RTypeOp.all) (hc : classify (rname o) = .shift) (rt rd : BitVec 5) (v : Int) {ws : List Word}
    (h : some (encR o 0#32 (rt.setWidth 32) (rd.setWidth 32) (BitVec.ofInt 32 v)) = some ws) : code (rname o) [.gpr rd, .gpr rt, .num v] = some ws := by
  have hm := in_shift o ho hc
  revert h hm
  generalize rname o = n
  intro h hm
  obtain ⟨f, hf⟩ := pair_mem hm
  exact same_code ((congrArg some (enc_shift hf rt rd (BitVec.ofInt 32 v))).trans (code_rdRtSa_shift_special _ hf rt rd v).symm) h
theorem in_code : ∀ o ∈ RTypeOp.all, classify (rname o) = .code → (rname o, o) ∈ L_code_code_special.map (fun e => (e.1, e.2.1)) := by decide +kernel
theorem cl_code {o : RTypeOp} (ho : o ∈ RTypeOp.all) (hc : classify (rname o) = .code) (v : Int) {ws : List Word}
    (h : some (encR o 0#32 0#32 0#32 ((BitVec.ofInt 20 v).setWidth 32)) = some ws) : code (rname o) [.num v] = some ws := by
  have hm := in_code o ho hc
  revert h hm
  generalize rname o = n
  intro h hm
  obtain ⟨f, hf⟩ := pair_mem hm
  exact same_code ((congrArg some (enc_code_code_special _ hf (BitVec.ofInt 20 v))).trans (code_code_code_special _ hf v).symm) h
theorem in_reg2 : ∀ o ∈ RTypeOp.all, classify (rname o) = .reg2 → (rname o, o) ∈ L_rsRt_reg2_special.map (fun e => (e.1, e.2.1)) := by decide +kernel
theorem cl_reg2 {o : RTypeOp} (ho : o ∈ RTypeOp.all) (hc : classify (rname o) = .reg2) (rs rt : BitVec 5) {ws : List Word}
    (h : some (encR o (rs.setWidth 32) (rt.setWidth 32) 0#32 0#32) = some ws) : code (rname o) [.gpr rs, .gpr rt] = some ws := by
  have hm := in_reg2 o ho hc
  revert h hm
  generalize rname o = n
  intro h hm
  obtain ⟨f, hf⟩ := pair_mem hm
  exact same_code ((congrArg some (enc_rsRt_reg2_special _ hf rs rt)).trans (code_rsRt_reg2_special _ hf rs rt).symm) h
theorem in_pseudo2 : ∀ o ∈ RTypeOp.all, classify (rname o) = .pseudo2 → (rname o, o) ∈ [(c!"abs", .Abs), (c!"dabs", .Dabs), (c!"dmove", .Dmove), (c!"dneg", .Dneg), (c!"dnegu", .Dnegu), (c!"move", .Move), (c!"neg", .Neg), (c!"negu", .Negu), (c!"not", .Not)] := by decide +kernel
theorem cl_pseudo2 {o : RTypeOp} (ho : o ∈ RTypeOp.all) (hc : classify (rname o) = .pseudo2) (rs rd : BitVec 5) {ws : List Word}
    (h : some (encR o (rs.setWidth 32) 0#32 (rd.setWidth 32) 0#32) = some ws) : code (rname o) [.gpr rd, .gpr rs] = some ws := by
  have hm := in_pseudo2 o ho hc
  revert h hm
  generalize rname o = n
  intro h hm
  simp only [List.mem_cons, List.not_mem_nil, or_false, Prod.mk.injEq] at hm
  rcases hm with ⟨rfl, rfl⟩ | ⟨rfl, rfl⟩ | ⟨rfl, rfl⟩ | ⟨rfl, rfl⟩ | ⟨rfl, rfl⟩ | ⟨rfl, rfl⟩ | ⟨rfl, rfl⟩ | ⟨rfl, rfl⟩ | ⟨rfl, rfl⟩
  · exact same_code (p_abs rs rd 0#32 0#32).symm h
  · exact same_code (p_dabs rs rd 0#32 0#32).symm h
  · exact same_code (p_dmove rs rd 0#32 0#32).symm h
  · exact same_code (p_dneg rs rd 0#32 0#32).symm h
  · exact same_code (p_dnegu rs rd 0#32 0#32).symm h
  · exact same_code (p_move rs rd 0#32 0#32).symm h
  · exact same_code (p_neg rs rd 0#32 0#32).symm h
  · exact same_code (p_negu rs rd 0#32 0#32).symm h
  · exact same_code (p_not rs rd 0#32 0#32).symm h
theorem in_jalr2 : ∀ o ∈ RTypeOp.all, classify (rname o) = .jalr → (rname o, o) ∈ L_rdRs_jalr_special.map (fun e => (e.1, e.2.1)) := by decide +kernel
theorem cl_jalr2 {o : RTypeOp} (ho : o ∈ RTypeOp.all) (hc : classify (rname o) = .jalr) (rs rd : BitVec 5) {ws : List Word}
    (h : some (encR o (rs.setWidth 32) 0#32 (rd.setWidth 32) 0#32) = some ws) : code (rname o) [.gpr rd, .gpr rs] = some ws := by
  have hm := in_jalr2 o ho hc
  revert h hm
  generalize rname o = n
  intro h hm
  obtain ⟨f, hf⟩ := pair_mem hm
  exact same_code ((congrArg some (enc_rdRs_jalr_special _ hf rs rd)).trans (code_rdRs_jalr_special _ hf rs rd).symm) h
theorem in_jalr1 : ∀ o ∈ RTypeOp.all, classify (rname o) = .jalr → (rname o, o) ∈ [(c!"jalr", .Jalr)] := by decide +kernel
theorem cl_jalr1 {o : RTypeOp} (ho : o ∈ RTypeOp.all) (hc : classify (rname o) = .jalr) (rs : BitVec 5) {ws : List Word}
    (h : some (encR o (rs.setWidth 32) 0#32 31#32 0#32) = some ws) : code (rname o) [.gpr rs] = some ws := by
  have hm := in_jalr1 o ho hc
  revert h hm
  generalize rname o = n
  intro h hm
  simp only [List.mem_cons, List.not_mem_nil, or_false, Prod.mk.injEq] at hm
  rcases hm with ⟨rfl, rfl⟩
  · exact same_code (p_jalr rs 0#32 0#32).symm h
theorem in_div2 : ∀ o ∈ RTypeOp.all, classify (rname o) = .div → (rname o, o) ∈ [(c!"div", .Div), (c!"divu", .Divu), (c!"ddiv", .Ddiv), (c!"ddivu", .Ddivu)] := by decide +kernel
theorem cl_div2 {o : RTypeOp} (ho : o ∈ RTypeOp.all) (hc : classify (rname o) = .div) (rs rd : BitVec 5) {ws : List Word}
    (h : some (encR o (rs.setWidth 32) 0#32 (rd.setWidth 32) 0#32) = some ws) : code (rname o) [.gpr rd, .gpr rs] = some ws := by
  have hm := in_div2 o ho hc
  revert h hm
  generalize rname o = n
  intro h hm
  simp only [List.mem_cons, List.not_mem_nil, or_false, Prod.mk.injEq] at hm
  rcases hm with ⟨rfl, rfl⟩ | ⟨rfl, rfl⟩ | ⟨rfl, rfl⟩ | ⟨rfl, rfl⟩
  · exact same_code (p_div2 rs rd 0#32).symm h
  · exact same_code (p_divu2 rs rd 0#32).symm h
  · exact same_code (p_ddiv2 rs rd 0#32).symm h
  · exact same_code (p_ddivu2 rs rd 0#32).symm h
theorem in_div3 : ∀ o ∈ RTypeOp.all, classify (rname o) = .div → (rname o, o) ∈ [(c!"div", .Div), (c!"divu", .Divu), (c!"ddiv", .Ddiv), (c!"ddivu", .Ddivu)] := by decide +kernel
theorem cl_div3 {o : RTypeOp} (ho : o ∈ RTypeOp.all) (hc : classify (rname o) = .div) (rs rt rd : BitVec 5) {ws : List Word}
    (h : some (encR o (rs.setWidth 32) (rt.setWidth 32) (rd.setWidth 32) 0#32) = some ws) : code (rname o) [.gpr rd, .gpr rs, .gpr rt] = some ws := by
  have hm := in_div3 o ho hc
  revert h hm
  generalize rname o = n
  intro h hm
  simp only [List.mem_cons, List.not_mem_nil, or_false, Prod.mk.injEq] at hm
  rcases hm with ⟨rfl, rfl⟩ | ⟨rfl, rfl⟩ | ⟨rfl, rfl⟩ | ⟨rfl, rfl⟩
  · exact same_code (p_div3 rs rt rd 0#32).symm h
  · exact same_code (p_divu3 rs rt rd 0#32).symm h
  · exact same_code (p_ddiv3 rs rt rd 0#32).symm h
  · exact same_code (p_ddivu3 rs rt rd 0#32).symm h
theorem in_rs1 : ∀ o ∈ RTypeOp.all, classify (rname o) = .rs1 → (rname o, o) ∈ L_rs_rs1_special.map (fun e => (e.1, e.2.1)) := by decide +kernel
theorem cl_rs1 {o : RTypeOp} (ho : o ∈ RTypeOp.all) (hc : classify (rname o) = .rs1) (rs : BitVec 5) {ws : List Word}
    (h : some (encR o (rs.setWidth 32) 0#32 0#32 0#32) = some ws) : code (rname o) [.gpr rs] = some ws := by
  have hm := in_rs1 o ho hc
  revert h hm
  generalize rname o = n
  intro h hm
  obtain ⟨f, hf⟩ := pair_mem hm
  exact same_code ((congrArg some (enc_rs_rs1_special _ hf rs)).trans (code_rs_rs1_special _ hf rs).symm) h
theorem in_rd1 : ∀ o ∈ RTypeOp.all, classify (rname o) = .rd1 → (rname o, o) ∈ L_rd_rd1_special.map (fun e => (e.1, e.2.1)) ∨ (rname o, o) ∈ [(c!"clear", .Clear)] := by decide +kernel
theorem cl_rd1 {o : RTypeOp} (ho : o ∈ RTypeOp.all) (hc : classify (rname o) = .rd1) (rd : BitVec 5) {ws : List Word}
    (h : some (encR o 0#32 0#32 (rd.setWidth 32) 0#32) = some ws) : code (rname o) [.gpr rd] = some ws := by
  have hm := in_rd1 o ho hc
  revert h hm
  generalize rname o = n
  intro h hm
  rcases hm with hm | hm
  · obtain ⟨f, hf⟩ := pair_mem hm
    exact same_code ((congrArg some (enc_rd_rd1_special _ hf rd)).trans (code_rd_rd1_special _ hf rd).symm) h
  · simp only [List.mem_cons, List.not_mem_nil, or_false, Prod.mk.injEq] at hm
    rcases hm with ⟨rfl, rfl⟩
    · exact same_code (p_clear 0#32 0#32 rd 0#32).symm h
theorem in_bare : ∀ o ∈ RTypeOp.all, classify (rname o) = .bare → (rname o, o) ∈ L_none_bare_special.map (fun e => (e.1, e.2.1)) ∨ (rname o, o) ∈ [(c!"nop", .Nop)] := by decide +kernel
theorem cl_bare {o : RTypeOp} (ho : o ∈ RTypeOp.all) (hc : classify (rname o) = .bare)  {ws : List Word}
    (h : some (encR o 0#32 0#32 0#32 0#32) = some ws) : code (rname o) [] = some ws := by
  have hm := in_bare o ho hc
  revert h hm
  generalize rname o = n
  intro h hm
  rcases hm with hm | hm
  · obtain ⟨f, hf⟩ := pair_mem hm
    exact same_code ((congrArg some (enc_none_bare_special _ hf )).trans (code_none_bare_special _ hf ).symm) h
  · simp only [List.mem_cons, List.not_mem_nil, or_false, Prod.mk.injEq] at hm
    rcases hm with ⟨rfl, rfl⟩
    · exact same_code (p_nop 0#32 0#32 0#32 0#32).symm h
theorem in_tlb : ∀ o ∈ RTypeOp.all, classify (rname o) = .tlb → (rname o, o) ∈ L_none_tlb_co.map (fun e => (e.1, e.2.1)) := by decide +kernel
theorem cl_tlb {o : RTypeOp} (ho : o ∈ RTypeOp.all) (hc : classify (rname o) = .tlb)  {ws : List Word}
    (h : some (encR o 0#32 0#32 0#32 0#32) = some ws) : code (rname o) [] = some ws := by
  have hm := in_tlb o ho hc
  revert h hm
  generalize rname o = n
  intro h hm
  obtain ⟨f, hf⟩ := pair_mem hm
  exact same_code ((congrArg some (enc_none_tlb_co _ hf )).trans (code_none_tlb_co _ hf ).symm) h
theorem in_cop0 : ∀ o ∈ RTypeOp.all, classify (rname o) = .cop0 → (rname o, o) ∈ L_rtC0_cop0_cop.map (fun e => (e.1, e.2.1)) := by decide +kernel
theorem cl_cop0 {o : RTypeOp} (ho : o ∈ RTypeOp.all) (hc : classify (rname o) = .cop0) (rt rd : BitVec 5) {ws : List Word}
    (h : some (encR o 0#32 (rt.setWidth 32) (rd.setWidth 32) 0#32) = some ws) : code (rname o) [.gpr rt, .c0 rd] = some ws := by
  have hm := in_cop0 o ho hc
  revert h hm
  generalize rname o = n
  intro h hm
  obtain ⟨f, hf⟩ := pair_mem hm
  exact same_code ((congrArg some (enc_rtC0_cop0_cop _ hf rt rd)).trans (code_rtC0_cop0_cop _ hf rt rd).symm) h
theorem in_cop1 : ∀ o ∈ RTypeOp.all, classify (rname o) = .cop1 → (rname o, o) ∈ L_rtFs_cop1_cop.map (fun e => (e.1, e.2.1)) := by decide +kernel
theorem cl_cop1 {o : RTypeOp} (ho : o ∈ RTypeOp.all) (hc : classify (rname o) = .cop1) (rt rd : BitVec 5) {ws : List Word}
    (h : some (encR o 0#32 (rt.setWidth 32) (rd.setWidth 32) 0#32) = some ws) : code (rname o) [.gpr rt, .fpr rd] = some ws := by
  have hm := in_cop1 o ho hc
  revert h hm
  generalize rname o = n
  intro h hm
  obtain ⟨f, hf⟩ := pair_mem hm
  exact same_code ((congrArg some (enc_rtFs_cop1_cop _ hf rt rd)).trans (code_rtFs_cop1_cop _ hf rt rd).symm) h
theorem in_jump : ∀ o ∈ JTypeOp.all, classify (jname o) = .jump → (jname o, o) ∈ L_target_jump_main.map (fun e => (e.1, e.2.1)) := by decide +kernel
theorem cl_jump {o : JTypeOp} (ho : o ∈ JTypeOp.all) (hc : classify (jname o) = .jump) (a : Word) {ws : List Word}
    (h : some (encJ o a) = some ws) : code (jname o) [.addr a] = some ws := by
  have hm := in_jump o ho hc
  revert h hm
  generalize jname o = n
  intro h hm
  obtain ⟨f, hf⟩ := pair_mem hm
  exact same_code ((congrArg some (enc_target_jump_main _ hf a)).trans (code_target_jump_main _ hf a).symm) h

end Mips
