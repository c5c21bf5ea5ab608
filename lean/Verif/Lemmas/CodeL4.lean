/- The code of the pseudo-instructions with a constant (for C57). -/
import Verif.Lemmas.CodeL3
import Verif.Props.Consts

namespace Mips
open Isa hiding Code
open Lang

theorem neg_low (x : BitVec 16) : (-(x.setWidth 32)) &&& 0xFFFF#32 = (-x).setWidth 32 := by
  apply BitVec.eq_of_toNat_eq
  have := x.isLt
  simp only [BitVec.toNat_and, BitVec.toNat_neg, BitVec.toNat_setWidth]
  rw [show BitVec.toNat 0xFFFF#32 = 2 ^ 16 - 1 from rfl, Nat.and_two_pow_sub_one_eq_mod]
  omega

theorem sub_low (v : Int) (h : v % 65536 ≠ 0) : (BitVec.ofInt 16 v).setWidth 32 - 1#32 = (BitVec.ofInt 16 (v - 1)).setWidth 32 := by
  apply BitVec.eq_of_toNat_eq
  simp only [BitVec.toNat_sub, BitVec.toNat_setWidth, BitVec.toNat_ofInt, BitVec.toNat_ofNat]
  omega

theorem sub_zero' (v : Int) (h : v % 65536 = 0) : (BitVec.ofInt 16 v).setWidth 32 - 1#32 = 0xFFFFFFFF#32 := by
  apply BitVec.eq_of_toNat_eq
  simp only [BitVec.toNat_sub, BitVec.toNat_setWidth, BitVec.toNat_ofInt, BitVec.toNat_ofNat]
  omega

theorem or_ones (x : Word) : x ||| 0xFFFFFFFF#32 = 0xFFFFFFFF#32 := by
  have : (0xFFFFFFFF#32) = BitVec.allOnes 32 := by decide
  rw [this, BitVec.or_allOnes]

theorem slice (v : Int) (k : Nat) (hk : k = 0 ∨ k = 16 ∨ k = 32 ∨ k = 48) :
    ((BitVec.ofInt 64 v >>> k) &&& 0xFFFF#64).setWidth 32 = (BitVec.ofInt 16 (v / 2 ^ k)).setWidth 32 := by
  apply BitVec.eq_of_toNat_eq
  simp only [BitVec.toNat_and, BitVec.toNat_setWidth, BitVec.toNat_ofInt, BitVec.toNat_ushiftRight]
  rw [show BitVec.toNat 0xFFFF#64 = 2 ^ 16 - 1 from rfl, Nat.and_two_pow_sub_one_eq_mod, Nat.shiftRight_eq_div_pow]
  rcases hk with rfl | rfl | rfl | rfl <;> omega
theorem slice_top (v : Int) : (BitVec.ofInt 64 v >>> 48).setWidth 32 = (BitVec.ofInt 16 (v / 2 ^ 48)).setWidth 32 := by
  apply BitVec.eq_of_toNat_eq
  simp only [BitVec.toNat_setWidth, BitVec.toNat_ofInt, BitVec.toNat_ushiftRight, Nat.shiftRight_eq_div_pow]
  omega

theorem cmp_code {mn c b : Str} {rs rt : BitVec 5} {a : List Val} {v : Int} {w1 : Word} {f : BitVec 6} {ovf : Bool} {ws : List Word}
    (hn : mn ∈ Branch.cmpBranchNames) (he : expand mn [.gpr rs, .gpr rt, .num v] = [(c, a), (b, [.gpr 1, .gpr 0, .num (v - 1)])])
    (h1 : machine c a = some w1) (h2 : machine b [.gpr 1, .gpr 0, .num (v - 1)] = some (iWord f 1 0 (.ofInt 16 (v - 1))))
    (h : ((subOne ovf ((BitVec.ofInt 16 v).setWidth 32)).map fun i1 => [w1, f.setWidth 32 <<< 26 ||| 1#32 <<< 21 ||| i1]) = some ws) :
    code mn [.gpr rs, .gpr rt, .num v] = some ws := by
  obtain ⟨i1, hi, hw⟩ := Option.map_eq_some_iff.1 h
  subst hw
  unfold subOne at hi
  split at hi
  · cases hi
  · cases hi
    by_cases hz : v % 65536 = 0
    · simp only [code, if_pos (And.intro hn hz), he, List.mapM_cons, List.mapM_nil, h1, h2, sub_zero' v hz, or_ones]
      rfl
    · have hnn : ¬ (mn ∈ Branch.cmpBranchNames ∧ v % 65536 = 0) := fun e => hz e.2
      simp only [code, if_neg hnn, he, List.mapM_cons, List.mapM_nil, h1, h2, sub_low v hz, iWord_or]
      simp

theorem p_subi (ovf : Bool) (rs rt : BitVec 5) (v : Int) (l : BitVec 64) :
    encI ovf .Subi (rs.setWidth 32) (rt.setWidth 32) ((BitVec.ofInt 16 v).setWidth 32) l = code c!"subi" [.gpr rt, .gpr rs, .num v] := by
  refine Eq.trans ?_ (code_of (is := [(c!"addi", [.gpr rt, .gpr rs, .num (-v)])]) rfl rfl (by mach; rfl)).symm
  simp only [encI, neg_low, iWord_or, BitVec.ofInt_neg]
  simp
theorem p_subiu (ovf : Bool) (rs rt : BitVec 5) (v : Int) (l : BitVec 64) :
    encI ovf .Subiu (rs.setWidth 32) (rt.setWidth 32) ((BitVec.ofInt 16 v).setWidth 32) l = code c!"subiu" [.gpr rt, .gpr rs, .num v] := by
  refine Eq.trans ?_ (code_of (is := [(c!"addiu", [.gpr rt, .gpr rs, .num (-v)])]) rfl rfl (by mach; rfl)).symm
  simp only [encI, neg_low, iWord_or, BitVec.ofInt_neg]
  simp
theorem p_dsubi (ovf : Bool) (rs rt : BitVec 5) (v : Int) (l : BitVec 64) :
    encI ovf .Dsubi (rs.setWidth 32) (rt.setWidth 32) ((BitVec.ofInt 16 v).setWidth 32) l = code c!"dsubi" [.gpr rt, .gpr rs, .num v] := by
  refine Eq.trans ?_ (code_of (is := [(c!"daddi", [.gpr rt, .gpr rs, .num (-v)])]) rfl rfl (by mach; rfl)).symm
  simp only [encI, neg_low, iWord_or, BitVec.ofInt_neg]
  simp
theorem p_dsubiu (ovf : Bool) (rs rt : BitVec 5) (v : Int) (l : BitVec 64) :
    encI ovf .Dsubiu (rs.setWidth 32) (rt.setWidth 32) ((BitVec.ofInt 16 v).setWidth 32) l = code c!"dsubiu" [.gpr rt, .gpr rs, .num v] := by
  refine Eq.trans ?_ (code_of (is := [(c!"daddiu", [.gpr rt, .gpr rs, .num (-v)])]) rfl rfl (by mach; rfl)).symm
  simp only [encI, neg_low, iWord_or, BitVec.ofInt_neg]
  simp
theorem p_bge (ovf : Bool) (rs rt : BitVec 5) (v : Int) (l : BitVec 64) {ws : List Word}
    (h : encI ovf .Bge (rs.setWidth 32) (rt.setWidth 32) ((BitVec.ofInt 16 v).setWidth 32) l = some ws) : code c!"bge" [.gpr rs, .gpr rt, .num v] = some ws := by
  refine cmp_code (by decide +kernel) (c := c!"slt") (b := c!"beq") (a := [.gpr 1, .gpr rs, .gpr rt]) rfl (m_slt rs rt 1) (m_beq 1 0 (v - 1)) (ovf := ovf) ?_
  rw [rWord_or]
  simpa [encI] using h
theorem p_bgel (ovf : Bool) (rs rt : BitVec 5) (v : Int) (l : BitVec 64) {ws : List Word}
    (h : encI ovf .Bgel (rs.setWidth 32) (rt.setWidth 32) ((BitVec.ofInt 16 v).setWidth 32) l = some ws) : code c!"bgel" [.gpr rs, .gpr rt, .num v] = some ws := by
  refine cmp_code (by decide +kernel) (c := c!"slt") (b := c!"beql") (a := [.gpr 1, .gpr rs, .gpr rt]) rfl (m_slt rs rt 1) (m_beql 1 0 (v - 1)) (ovf := ovf) ?_
  rw [rWord_or]
  simpa [encI] using h
theorem p_bgeu (ovf : Bool) (rs rt : BitVec 5) (v : Int) (l : BitVec 64) {ws : List Word}
    (h : encI ovf .Bgeu (rs.setWidth 32) (rt.setWidth 32) ((BitVec.ofInt 16 v).setWidth 32) l = some ws) : code c!"bgeu" [.gpr rs, .gpr rt, .num v] = some ws := by
  refine cmp_code (by decide +kernel) (c := c!"sltu") (b := c!"beq") (a := [.gpr 1, .gpr rs, .gpr rt]) rfl (m_sltu rs rt 1) (m_beq 1 0 (v - 1)) (ovf := ovf) ?_
  rw [rWord_or]
  simpa [encI] using h
theorem p_bgeul (ovf : Bool) (rs rt : BitVec 5) (v : Int) (l : BitVec 64) {ws : List Word}
    (h : encI ovf .Bgeul (rs.setWidth 32) (rt.setWidth 32) ((BitVec.ofInt 16 v).setWidth 32) l = some ws) : code c!"bgeul" [.gpr rs, .gpr rt, .num v] = some ws := by
  refine cmp_code (by decide +kernel) (c := c!"sltu") (b := c!"beql") (a := [.gpr 1, .gpr rs, .gpr rt]) rfl (m_sltu rs rt 1) (m_beql 1 0 (v - 1)) (ovf := ovf) ?_
  rw [rWord_or]
  simpa [encI] using h
theorem p_bgt (ovf : Bool) (rs rt : BitVec 5) (v : Int) (l : BitVec 64) {ws : List Word}
    (h : encI ovf .Bgt (rs.setWidth 32) (rt.setWidth 32) ((BitVec.ofInt 16 v).setWidth 32) l = some ws) : code c!"bgt" [.gpr rs, .gpr rt, .num v] = some ws := by
  refine cmp_code (by decide +kernel) (c := c!"slt") (b := c!"bne") (a := [.gpr 1, .gpr rt, .gpr rs]) rfl (m_slt rt rs 1) (m_bne 1 0 (v - 1)) (ovf := ovf) ?_
  rw [rWord_or]
  simpa [encI] using h
theorem p_bgtl (ovf : Bool) (rs rt : BitVec 5) (v : Int) (l : BitVec 64) {ws : List Word}
    (h : encI ovf .Bgtl (rs.setWidth 32) (rt.setWidth 32) ((BitVec.ofInt 16 v).setWidth 32) l = some ws) : code c!"bgtl" [.gpr rs, .gpr rt, .num v] = some ws := by
  refine cmp_code (by decide +kernel) (c := c!"slt") (b := c!"bnel") (a := [.gpr 1, .gpr rt, .gpr rs]) rfl (m_slt rt rs 1) (m_bnel 1 0 (v - 1)) (ovf := ovf) ?_
  rw [rWord_or]
  simpa [encI] using h
theorem p_bgtu (ovf : Bool) (rs rt : BitVec 5) (v : Int) (l : BitVec 64) {ws : List Word}
    (h : encI ovf .Bgtu (rs.setWidth 32) (rt.setWidth 32) ((BitVec.ofInt 16 v).setWidth 32) l = some ws) : code c!"bgtu" [.gpr rs, .gpr rt, .num v] = some ws := by
  refine cmp_code (by decide +kernel) (c := c!"sltu") (b := c!"bne") (a := [.gpr 1, .gpr rt, .gpr rs]) rfl (m_sltu rt rs 1) (m_bne 1 0 (v - 1)) (ovf := ovf) ?_
  rw [rWord_or]
  simpa [encI] using h
theorem p_bgtul (ovf : Bool) (rs rt : BitVec 5) (v : Int) (l : BitVec 64) {ws : List Word}
    (h : encI ovf .Bgtul (rs.setWidth 32) (rt.setWidth 32) ((BitVec.ofInt 16 v).setWidth 32) l = some ws) : code c!"bgtul" [.gpr rs, .gpr rt, .num v] = some ws := by
  refine cmp_code (by decide +kernel) (c := c!"sltu") (b := c!"bnel") (a := [.gpr 1, .gpr rt, .gpr rs]) rfl (m_sltu rt rs 1) (m_bnel 1 0 (v - 1)) (ovf := ovf) ?_
  rw [rWord_or]
  simpa [encI] using h
theorem p_ble (ovf : Bool) (rs rt : BitVec 5) (v : Int) (l : BitVec 64) {ws : List Word}
    (h : encI ovf .Ble (rs.setWidth 32) (rt.setWidth 32) ((BitVec.ofInt 16 v).setWidth 32) l = some ws) : code c!"ble" [.gpr rs, .gpr rt, .num v] = some ws := by
  refine cmp_code (by decide +kernel) (c := c!"slt") (b := c!"beq") (a := [.gpr 1, .gpr rt, .gpr rs]) rfl (m_slt rt rs 1) (m_beq 1 0 (v - 1)) (ovf := ovf) ?_
  rw [rWord_or]
  simpa [encI] using h
theorem p_blel (ovf : Bool) (rs rt : BitVec 5) (v : Int) (l : BitVec 64) {ws : List Word}
    (h : encI ovf .Blel (rs.setWidth 32) (rt.setWidth 32) ((BitVec.ofInt 16 v).setWidth 32) l = some ws) : code c!"blel" [.gpr rs, .gpr rt, .num v] = some ws := by
  refine cmp_code (by decide +kernel) (c := c!"slt") (b := c!"beql") (a := [.gpr 1, .gpr rt, .gpr rs]) rfl (m_slt rt rs 1) (m_beql 1 0 (v - 1)) (ovf := ovf) ?_
  rw [rWord_or]
  simpa [encI] using h
theorem p_bleu (ovf : Bool) (rs rt : BitVec 5) (v : Int) (l : BitVec 64) {ws : List Word}
    (h : encI ovf .Bleu (rs.setWidth 32) (rt.setWidth 32) ((BitVec.ofInt 16 v).setWidth 32) l = some ws) : code c!"bleu" [.gpr rs, .gpr rt, .num v] = some ws := by
  refine cmp_code (by decide +kernel) (c := c!"sltu") (b := c!"beq") (a := [.gpr 1, .gpr rt, .gpr rs]) rfl (m_sltu rt rs 1) (m_beq 1 0 (v - 1)) (ovf := ovf) ?_
  rw [rWord_or]
  simpa [encI] using h
theorem p_bleul (ovf : Bool) (rs rt : BitVec 5) (v : Int) (l : BitVec 64) {ws : List Word}
    (h : encI ovf .Bleul (rs.setWidth 32) (rt.setWidth 32) ((BitVec.ofInt 16 v).setWidth 32) l = some ws) : code c!"bleul" [.gpr rs, .gpr rt, .num v] = some ws := by
  refine cmp_code (by decide +kernel) (c := c!"sltu") (b := c!"beql") (a := [.gpr 1, .gpr rt, .gpr rs]) rfl (m_sltu rt rs 1) (m_beql 1 0 (v - 1)) (ovf := ovf) ?_
  rw [rWord_or]
  simpa [encI] using h
theorem p_blt (ovf : Bool) (rs rt : BitVec 5) (v : Int) (l : BitVec 64) {ws : List Word}
    (h : encI ovf .Blt (rs.setWidth 32) (rt.setWidth 32) ((BitVec.ofInt 16 v).setWidth 32) l = some ws) : code c!"blt" [.gpr rs, .gpr rt, .num v] = some ws := by
  refine cmp_code (by decide +kernel) (c := c!"slt") (b := c!"bne") (a := [.gpr 1, .gpr rs, .gpr rt]) rfl (m_slt rs rt 1) (m_bne 1 0 (v - 1)) (ovf := ovf) ?_
  rw [rWord_or]
  simpa [encI] using h
theorem p_bltl (ovf : Bool) (rs rt : BitVec 5) (v : Int) (l : BitVec 64) {ws : List Word}
    (h : encI ovf .Bltl (rs.setWidth 32) (rt.setWidth 32) ((BitVec.ofInt 16 v).setWidth 32) l = some ws) : code c!"bltl" [.gpr rs, .gpr rt, .num v] = some ws := by
  refine cmp_code (by decide +kernel) (c := c!"slt") (b := c!"bnel") (a := [.gpr 1, .gpr rs, .gpr rt]) rfl (m_slt rs rt 1) (m_bnel 1 0 (v - 1)) (ovf := ovf) ?_
  rw [rWord_or]
  simpa [encI] using h
theorem p_bltu (ovf : Bool) (rs rt : BitVec 5) (v : Int) (l : BitVec 64) {ws : List Word}
    (h : encI ovf .Bltu (rs.setWidth 32) (rt.setWidth 32) ((BitVec.ofInt 16 v).setWidth 32) l = some ws) : code c!"bltu" [.gpr rs, .gpr rt, .num v] = some ws := by
  refine cmp_code (by decide +kernel) (c := c!"sltu") (b := c!"bne") (a := [.gpr 1, .gpr rs, .gpr rt]) rfl (m_sltu rs rt 1) (m_bne 1 0 (v - 1)) (ovf := ovf) ?_
  rw [rWord_or]
  simpa [encI] using h
theorem p_bltul (ovf : Bool) (rs rt : BitVec 5) (v : Int) (l : BitVec 64) {ws : List Word}
    (h : encI ovf .Bltul (rs.setWidth 32) (rt.setWidth 32) ((BitVec.ofInt 16 v).setWidth 32) l = some ws) : code c!"bltul" [.gpr rs, .gpr rt, .num v] = some ws := by
  refine cmp_code (by decide +kernel) (c := c!"sltu") (b := c!"bnel") (a := [.gpr 1, .gpr rs, .gpr rt]) rfl (m_sltu rs rt 1) (m_bnel 1 0 (v - 1)) (ovf := ovf) ?_
  rw [rWord_or]
  simpa [encI] using h
theorem p_beqz (ovf : Bool) (rs : BitVec 5) (rt : Word) (v : Int) (l : BitVec 64) :
    encI ovf .Beqz (rs.setWidth 32) rt ((BitVec.ofInt 16 v).setWidth 32) l = code c!"beqz" [.gpr rs, .num v] := by
  refine Eq.trans ?_ (code_of (is := [(c!"beq", [.gpr rs, .gpr 0, .num v])]) rfl rfl (by mach; rfl)).symm
  simp [encI, iWord_or]
theorem p_bnez (ovf : Bool) (rs : BitVec 5) (rt : Word) (v : Int) (l : BitVec 64) :
    encI ovf .Bnez (rs.setWidth 32) rt ((BitVec.ofInt 16 v).setWidth 32) l = code c!"bnez" [.gpr rs, .num v] := by
  refine Eq.trans ?_ (code_of (is := [(c!"bne", [.gpr rs, .gpr 0, .num v])]) rfl rfl (by mach; rfl)).symm
  simp [encI, iWord_or]
theorem p_beqzl (ovf : Bool) (rs : BitVec 5) (rt : Word) (v : Int) (l : BitVec 64) :
    encI ovf .Beqzl (rs.setWidth 32) rt ((BitVec.ofInt 16 v).setWidth 32) l = code c!"beqzl" [.gpr rs, .num v] := by
  refine Eq.trans ?_ (code_of (is := [(c!"beql", [.gpr rs, .gpr 0, .num v])]) rfl rfl (by mach; rfl)).symm
  simp [encI, iWord_or]
theorem p_bnezl (ovf : Bool) (rs : BitVec 5) (rt : Word) (v : Int) (l : BitVec 64) :
    encI ovf .Bnezl (rs.setWidth 32) rt ((BitVec.ofInt 16 v).setWidth 32) l = code c!"bnezl" [.gpr rs, .num v] := by
  refine Eq.trans ?_ (code_of (is := [(c!"bnel", [.gpr rs, .gpr 0, .num v])]) rfl rfl (by mach; rfl)).symm
  simp [encI, iWord_or]
theorem p_lli (ovf : Bool) (rs : Word) (rt : BitVec 5) (v : Int) (l : BitVec 64) :
    encI ovf .Lli rs (rt.setWidth 32) ((BitVec.ofInt 16 v).setWidth 32) l = code c!"lli" [.gpr rt, .num v] := by
  refine Eq.trans ?_ (code_of (is := [(c!"ori", [.gpr rt, .gpr 0, .num v])]) rfl rfl (by mach; rfl)).symm
  simp [encI, iWord_or]
theorem p_b (ovf : Bool) (rs rt : Word) (v : Int) (l : BitVec 64) :
    encI ovf .B rs rt ((BitVec.ofInt 16 v).setWidth 32) l = code c!"b" [.num v] := by
  refine Eq.trans ?_ (code_of (is := [(c!"beq", [.gpr 0, .gpr 0, .num v])]) rfl rfl (by mach; rfl)).symm
  simp [encI, iWord_or]
theorem p_bal (ovf : Bool) (rs rt : Word) (v : Int) (l : BitVec 64) :
    encI ovf .Bal rs rt ((BitVec.ofInt 16 v).setWidth 32) l = code c!"bal" [.num v] := by
  refine Eq.trans ?_ (code_of (is := [(c!"bgezal", [.gpr 0, .num v])]) rfl rfl (by mach; rfl)).symm
  simp [encI, iWord_or]
theorem p_dli (ovf : Bool) (rs : Word) (rt : BitVec 5) (v : Int) (i : Word) :
    encI ovf .Dli rs (rt.setWidth 32) i (BitVec.ofInt 64 v) = code c!"dli" [.gpr rt, .num v] := by
  refine Eq.trans ?_ (code_of (is := [(c!"lui", [.gpr rt, .num (v / 2 ^ 48)]), (c!"ori", [.gpr rt, .gpr rt, .num (v / 2 ^ 32)]), (c!"dsll", [.gpr rt, .gpr rt, .num 16]),
      (c!"ori", [.gpr rt, .gpr rt, .num (v / 2 ^ 16)]), (c!"dsll", [.gpr rt, .gpr rt, .num 16]), (c!"ori", [.gpr rt, .gpr rt, .num v])]) rfl rfl (by mach; rfl)).symm
  have e := slice v 0 (by simp)
  rw [show v / 2 ^ 0 = v by simp, show BitVec.ofInt 64 v >>> 0 = BitVec.ofInt 64 v by simp] at e
  simp only [encI, slice_top, slice v 32 (by simp), slice v 16 (by simp), e]
  simp [iWord_or]

theorem word_halves (v : Int) (h0 : 0 ≤ v) (h1 : v ≤ 4294967295) :
    ((hi16 (BitVec.ofInt 32 v) = 0 ↔ v < 0x10000) ∧ (lo16 (BitVec.ofInt 32 v) = 0 ↔ v % 0x10000 = 0)) ∧
    hi16 (BitVec.ofInt 32 v) = BitVec.ofInt 16 (v / 0x10000) ∧ lo16 (BitVec.ofInt 32 v) = BitVec.ofInt 16 v := by
  have hn : (BitVec.ofInt 32 v).toNat = v.toNat := by rw [BitVec.toNat_ofInt]; omega
  have e1 : hi16 (BitVec.ofInt 32 v) = BitVec.ofInt 16 (v / 0x10000) := by
    apply BitVec.eq_of_toNat_eq
    unfold hi16
    rw [BitVec.extractLsb'_toNat, hn, Nat.shiftRight_eq_div_pow, BitVec.toNat_ofInt]
    omega
  have e2 : lo16 (BitVec.ofInt 32 v) = BitVec.ofInt 16 v := by
    apply BitVec.eq_of_toNat_eq
    unfold lo16
    rw [BitVec.toNat_setWidth, hn, BitVec.toNat_ofInt]
    omega
  refine ⟨⟨?_, ?_⟩, e1, e2⟩
  · rw [e1, ← BitVec.toNat_inj, BitVec.toNat_ofInt]; simp; omega
  · rw [e2, ← BitVec.toNat_inj, BitVec.toNat_ofInt]; simp; omega

theorem code_load (mn : Str) (b : Bool) (rt : BitVec 5) (v : Int) (hm : expandOne.lookup mn = some fun rt v => loadWord b rt v) :
    code mn [.gpr rt, .num v] = (loadWord b (.gpr rt) v).mapM fun i => machine i.1 i.2 := by
  simp only [code, expand, hm]

theorem p_li (ovf : Bool) (rs : Word) (rt : BitVec 5) (v : Int) (l : BitVec 64) (h0 : 0 ≤ v) (h1 : v ≤ 4294967295) :
    encI ovf .Li rs (rt.setWidth 32) (BitVec.ofInt 32 v) l = code c!"li" [.gpr rt, .num v] := by
  rw [code_load c!"li" true rt v rfl]
  simp only [encI, li_words]
  have hn : (BitVec.ofInt 32 v).toNat = v.toNat := by rw [BitVec.toNat_ofInt]; omega
  have hc : ((BitVec.ofInt 32 v) &&& 0xFFFF8000#32 = 0xFFFF8000#32) ↔ 0xFFFF8000 ≤ v := by rw [ffff8000_iff, hn]; omega
  obtain ⟨⟨e1, e2⟩, e3, e4⟩ := word_halves v h0 h1
  unfold loadWord
  simp only [e1, e2, hc, true_and]
  split
  · simp only [zero]; mach; rw [e4]; rfl
  · split
    · mach; rw [e3]; rfl
    · split
      · mach; rw [e3, e4]; rfl
      · mach; rw [e3, e4]; rfl
theorem p_liu (ovf : Bool) (rs : Word) (rt : BitVec 5) (v : Int) (l : BitVec 64) (h0 : 0 ≤ v) (h1 : v ≤ 4294967295) :
    encI ovf .Liu rs (rt.setWidth 32) (BitVec.ofInt 32 v) l = code c!"liu" [.gpr rt, .num v] := by
  rw [code_load c!"liu" false rt v rfl]
  simp only [encI, liu_words]
  obtain ⟨⟨e1, e2⟩, e3, e4⟩ := word_halves v h0 h1
  unfold loadWord
  simp only [e1, e2, Bool.false_eq_true, false_and, if_false]
  split
  · simp only [zero]; mach; rw [e4]; rfl
  · split
    · mach; rw [e3]; rfl
    · mach; rw [e3, e4]; rfl

end Mips
