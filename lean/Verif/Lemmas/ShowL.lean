/- Decoding the word of an instruction gives an instruction that is displayed in the same way. -/
import Verif.Lemmas.DisL

namespace Mips
open Isa Listing

theorem ext_hi {m : Nat} (x : BitVec m) {k n p : Nat} (h : k + n ≤ p) : BitVec.extractLsb' k n (x.setWidth 32 <<< p) = 0#n := by
  ext i hi; simp; omega
theorem ext_lo {m : Nat} (x : BitVec m) {k n p : Nat} (h : p + m ≤ k) : BitVec.extractLsb' k n (x.setWidth 32 <<< p) = 0#n := by
  ext i hi; simp; intros; exact BitVec.getLsbD_of_ge _ _ (by omega)
theorem ext_eq {m : Nat} (x : BitVec m) {k : Nat} (h : k + m ≤ 32) : BitVec.extractLsb' k m (x.setWidth 32 <<< k) = x := by
  ext i hi; simp; simp [show k + i < 32 by omega, show i < 32 by omega, show ¬ (k + i < k) by omega, hi]
theorem ext_lo0 {m : Nat} (x : BitVec m) {k n : Nat} (h : m ≤ k) : BitVec.extractLsb' k n (x.setWidth 32) = 0#n := by
  ext i hi; simp; intro _ ; exact BitVec.getLsbD_of_ge _ _ (by omega)
theorem ext_eq0 {m : Nat} (x : BitVec m) (h : m ≤ 32) : BitVec.extractLsb' 0 m (x.setWidth 32) = x := by
  ext i hi; simp [hi]; omega

set_option maxHeartbeats 4000000 in
theorem shownI {ovf : Bool} {op : ITypeOp} {rs rt : BitVec 5} {v : BitVec 16} {l : BitVec 64} {w : Word} {t : Str} {base : Word}
    (h : displayI op rs.toFin rt.toFin v = some t) (hz : op ≠ .Beqz) (hn : op ≠ .Bnez)
    (he : encI ovf op (rs.setWidth 32) (rt.setWidth 32) (v.setWidth 32) l = some [w]) :
    (decode base w).display = some t := by
  cases op <;> first
    | (cases h; done)
    | (exact absurd rfl hz)
    | (exact absurd rfl hn)
    | (rw [← h]
       simp only [encI, Option.some.injEq, List.cons.injEq, and_true] at he
       subst he
       simp [decode, decodeRegimm, decodeCop0, decodeCop1, fields_op, fields_rs, fields_rt, fields_imm, fOp, fRs, fRt, fImm, BitVec.extractLsb'_or, ext_hi, ext_lo, ext_eq, ext_lo0, ext_eq0]
       first | rfl | done)

/-- The shift instructions with an immediate amount. -/
def isShift (o : RTypeOp) : Bool :=
  [RTypeOp.Dsll, .Dsll32, .Dsra, .Dsra32, .Dsrl, .Dsrl32, .Sll, .Sra, .Srl].contains o
/-- The divisions. -/
def isDivOp (o : RTypeOp) : Bool := [RTypeOp.Ddiv, .Ddivu, .Div, .Divu].contains o
/-- The instructions with a code. -/
def isCodeOp (o : RTypeOp) : Bool := [RTypeOp.Break, .Syscall].contains o
/-- The floating-point comparisons. -/
def isCmpOp (o : RTypeOp) : Bool := [RTypeOp.Cs, .Cd].contains o

set_option maxHeartbeats 8000000 in
theorem shownR {op : RTypeOp} {rs rt rd sa : BitVec 5} {w : Word} {t : Str} {base : Word}
    (h : displayR op rs.toFin rt.toFin rd.toFin (sa.setWidth 32) [w] = some t)
    (hd : isDivOp op = false) (hc : isCodeOp op = false) (hf : isCmpOp op = false) (hs : isShift op = false)
    (he : encR op (rs.setWidth 32) (rt.setWidth 32) (rd.setWidth 32) (sa.setWidth 32) = [w]) :
    (decode base w).display = some t := by
  cases op <;> first
    | (cases h; done)
    | (cases hd; done)
    | (cases hc; done)
    | (cases hf; done)
    | (cases hs; done)
    | (rw [← h]
       simp only [encR, List.cons.injEq, and_true] at he
       subst he
       simp [decode, decodeSpecial, decodeCop0, decodeCop0Co, decodeCop1, decodeCop1S, decodeCop1D, decodeCop1L, decodeCop1W, fields_op, fields_rs, fields_rt, fields_rd, fields_sa, fields_funct, fOp, fRs, fRt, fRd, fSa, fFn, BitVec.extractLsb'_or, ext_hi, ext_lo, ext_eq]
       first | rfl | done)

theorem special_of {w : Word} (h : fOp w = 0#6) (base : Word) : decode base w = decodeSpecial w (fields w) := by
  unfold decode
  simp only [fields_op, h]
  rfl

theorem cop1_of {w : Word} (h : fOp w = 17#6) (base : Word) : decode base w = decodeCop1 w (fields w) := by
  unfold decode
  simp only [fields_op, h]
  rfl

/-- The function code of a shift. -/
def shiftFn : RTypeOp → BitVec 6
  | .Srl => 2 | .Sra => 3 | .Dsll => 56 | .Dsrl => 58 | .Dsra => 59 | .Dsll32 => 60 | .Dsrl32 => 62 | .Dsra32 => 63
  | _ => 0

theorem encR_shift {op : RTypeOp} (hs : isShift op = true) (rs rt rd sa : Word) :
    encR op rs rt rd sa = [rt <<< 16 ||| rd <<< 11 ||| sa <<< 6 ||| (shiftFn op).setWidth 32] := by
  cases op <;> first
    | (cases hs; done)
    | rfl
    | (show [_] = [_]; exact congrArg (fun z => [z]) (BitVec.or_zero).symm)

theorem dec_shift {op : RTypeOp} (hs : isShift op = true) {w : Word} {f : Fields} (h : f.funct.toNat = (shiftFn op).toNat) :
    decodeSpecial w f = .reg op 0 f.rt f.rd f.sa32 [w] := by
  unfold decodeSpecial
  rw [h]
  cases op <;> first
    | (cases hs; done)
    | rfl

theorem disp_shift {op : RTypeOp} (hs : isShift op = true) (a b c : Register) (z : Word) (ws : List Word) :
    displayR op a b c z ws = some (op11 op.name ++ dr c ++ sep ++ dr b ++ sep ++ uhex z.toNat) := by
  cases op <;> first
    | (cases hs; done)
    | rfl

theorem shownShift {op : RTypeOp} {rs : Word} {rt rd sa : BitVec 5} {a : Register} {w : Word} {t : Str} {base : Word}
    (h : displayR op a rt.toFin rd.toFin (sa.setWidth 32) [w] = some t) (hs : isShift op = true)
    (he : encR op rs (rt.setWidth 32) (rd.setWidth 32) (sa.setWidth 32) = [w]) :
    (decode base w).display = some t := by
  rw [← h, disp_shift hs]
  rw [encR_shift hs] at he
  simp only [List.cons.injEq, and_true] at he
  have h1 : fOp w = 0#6 := by subst he; simp [fOp, BitVec.extractLsb'_or, ext_lo, ext_lo0]
  have h2 : fRt w = rt := by subst he; simp [fRt, BitVec.extractLsb'_or, ext_lo, ext_eq, ext_lo0]
  have h3 : fRd w = rd := by subst he; simp [fRd, BitVec.extractLsb'_or, ext_hi, ext_lo, ext_eq, ext_lo0]
  have h4 : fSa w = sa := by subst he; simp [fSa, BitVec.extractLsb'_or, ext_hi, ext_eq, ext_lo0]
  have h5 : fFn w = shiftFn op := by subst he; simp [fFn, BitVec.extractLsb'_or, ext_hi, ext_eq0]
  rw [special_of h1, dec_shift hs (by rw [fields_funct, h5])]
  show displayR .. = _
  rw [disp_shift hs, fields_rt, fields_rd, fields_sa32, h2, h3, h4]
  rw [show (sa.setWidth 32 : Word).toNat = sa.toNat from by
    rw [BitVec.toNat_setWidth, Nat.mod_eq_of_lt]; have := sa.isLt; omega]

theorem code_setWidth {v : BitVec 20} {u : Word} (hu : u.toNat = v.toNat) : u = v.setWidth 32 := by
  apply BitVec.eq_of_toNat_eq; rw [hu, BitVec.toNat_setWidth, Nat.mod_eq_of_lt]
  have := v.isLt; omega

set_option maxHeartbeats 4000000 in
theorem shownCode {op : RTypeOp} {rs rt rd : Word} {v : BitVec 20} {a b c : Register} {w : Word} {t : Str} {base : Word}
    (h : displayR op a b c (v.setWidth 32) [w] = some t) (hc : isCodeOp op = true)
    (he : encR op rs rt rd (v.setWidth 32) = [w]) : (decode base w).display = some t := by
  rw [← h]
  cases op <;> first
    | (cases hc; done)
    | (simp only [encR, List.cons.injEq, and_true] at he
       have h1 : fOp w = 0#6 := by subst he; simp [fOp, BitVec.extractLsb'_or, ext_hi, ext_lo, ext_eq]
       have h2 : fCode w = v := by subst he; simp [fCode, BitVec.extractLsb'_or, ext_hi, ext_lo, ext_eq]
       rw [special_of h1]
       unfold decodeSpecial
       simp only [fields_funct]
       rw [show fFn w = _ from by subst he; simp [fFn, BitVec.extractLsb'_or, ext_hi, ext_lo, ext_eq]; rfl]
       rw [code_setWidth (v := v) (u := (fields w).code) (by rw [fields_code, h2])]
       rfl)

theorem cmp_and (v : BitVec 4) : (3#32 <<< 4 ||| v.setWidth 32) &&& 0xF#32 = v.setWidth 32 := by revert v; decide

theorem cmp_fn {w : Word} {v : BitVec 4} (h : fFn w = 3#2 ++ v) : (fields w).funct = 3#32 <<< 4 ||| v.setWidth 32 := by
  apply BitVec.eq_of_toNat_eq
  rw [fields_funct, h]
  clear h
  revert v; decide

theorem cmp_s {w : Word} {f : Fields} {v : BitVec 4} (h : f.funct = 3#32 <<< 4 ||| v.setWidth 32) :
    decodeCop1S w f = .reg .Cs f.rd f.rt 0 (v.setWidth 32) [w] := by
  unfold decodeCop1S
  rw [h, cmp_and]
  have : ∀ v : BitVec 4, (3#32 <<< 4 ||| v.setWidth 32 : Word).toNat ∈ (List.range 16).map (48 + ·) := by decide
  have := this v
  generalize (3#32 <<< 4 ||| v.setWidth 32 : Word).toNat = n at *
  simp only [show List.range 16 = [0,1,2,3,4,5,6,7,8,9,10,11,12,13,14,15] from rfl, List.map_cons, List.map_nil, List.mem_cons, List.not_mem_nil, or_false] at this
  rcases this with h | h | h | h | h | h | h | h | h | h | h | h | h | h | h | h <;> subst h <;> rfl

theorem cmp_d {w : Word} {f : Fields} {v : BitVec 4} (h : f.funct = 3#32 <<< 4 ||| v.setWidth 32) :
    decodeCop1D w f = .reg .Cd f.rd f.rt 0 (v.setWidth 32) [w] := by
  unfold decodeCop1D
  rw [h, cmp_and]
  have : ∀ v : BitVec 4, (3#32 <<< 4 ||| v.setWidth 32 : Word).toNat ∈ (List.range 16).map (48 + ·) := by decide
  have := this v
  generalize (3#32 <<< 4 ||| v.setWidth 32 : Word).toNat = n at *
  simp only [show List.range 16 = [0,1,2,3,4,5,6,7,8,9,10,11,12,13,14,15] from rfl, List.map_cons, List.map_nil, List.mem_cons, List.not_mem_nil, or_false] at this
  rcases this with h | h | h | h | h | h | h | h | h | h | h | h | h | h | h | h <;> subst h <;> rfl

theorem cmp_fn2 (w v4 : Word) (v : BitVec 4) (hw : BitVec.extractLsb' 0 6 w = 0#6) (hv : v4 = v.setWidth 32) :
    BitVec.extractLsb' 0 6 (w ||| 3#32 <<< 4 ||| v4) = 3#2 ++ v := by
  rw [BitVec.or_assoc, BitVec.extractLsb'_or, hw, hv, BitVec.zero_or]
  clear hv hw
  revert v; decide

set_option maxHeartbeats 4000000 in
theorem shownCmp {op : RTypeOp} {rs rt : BitVec 5} {rd : Word} {v : BitVec 4} {c : Register} {w : Word} {t : Str} {base : Word}
    (h : displayR op rs.toFin rt.toFin c (v.setWidth 32) [w] = some t) (hc : isCmpOp op = true)
    (he : encR op (rs.setWidth 32) (rt.setWidth 32) rd (v.setWidth 32) = [w]) : (decode base w).display = some t := by
  rw [← h]
  cases op <;> first
    | (cases hc; done)
    | (simp only [encR, List.cons.injEq, and_true] at he
       have h1 : fOp w = 17#6 := by subst he; simp [fOp, BitVec.extractLsb'_or, ext_hi, ext_lo, ext_eq, ext_lo0]
       have h2 : fRt w = rt := by subst he; simp [fRt, BitVec.extractLsb'_or, ext_hi, ext_lo, ext_eq, ext_lo0]
       have h3 : fRd w = rs := by subst he; simp [fRd, BitVec.extractLsb'_or, ext_hi, ext_lo, ext_eq, ext_lo0]
       have h6 : fFn w = 3#2 ++ v := by
         subst he
         refine cmp_fn2 _ _ v ?_ rfl
         simp [BitVec.extractLsb'_or, ext_hi, ext_lo, ext_eq, ext_lo0]
       rw [cop1_of h1]
       unfold decodeCop1
       simp only [fields_rs]
       rw [show fRs w = _ from by subst he; simp [fRs, BitVec.extractLsb'_or, ext_hi, ext_lo, ext_eq, ext_lo0]; rfl]
       simp only [cmp_s (cmp_fn h6), cmp_d (cmp_fn h6), fields_rd, fields_rt, h2, h3]
       rfl)

end Mips
