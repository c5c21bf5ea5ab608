/- The opcode maps are unambiguous: decoding inverts encoding. -/
import Verif.Spec.Isa

namespace Mips.Isa

theorem app_hi {a b : Nat} (x : BitVec a) (y : BitVec b) (k n : Nat) (h : b ≤ k) :
    (x ++ y).extractLsb' k n = x.extractLsb' (k - b) n := by
  ext i hi
  simp only [BitVec.getElem_extractLsb', BitVec.getLsbD_append]
  rw [if_neg (by omega)]
  congr 1; omega

theorem app_lo {a b : Nat} (x : BitVec a) (y : BitVec b) (k n : Nat) (h : k + n ≤ b) :
    (x ++ y).extractLsb' k n = y.extractLsb' k n := by
  ext i hi
  simp only [BitVec.getElem_extractLsb', BitVec.getLsbD_append]
  rw [if_pos (by omega)]

theorem app_all {n : Nat} (x : BitVec n) : x.extractLsb' 0 n = x := by
  ext i hi
  simp only [BitVec.getElem_extractLsb', Nat.zero_add]
  exact BitVec.getLsbD_eq_getElem hi

section fields
variable (op : BitVec 6) (rs rt rd sa : BitVec 5) (fn : BitVec 6) (imm : BitVec 16) (t : BitVec 26) (v : BitVec 20)

theorem rW_op : fOp (rWord op rs rt rd sa fn) = op :=
  (app_hi (op ++ rs ++ rt ++ rd ++ sa) fn 26 6 (by decide)).trans ((app_hi (op ++ rs ++ rt ++ rd) sa 20 6 (by decide)).trans ((app_hi (op ++ rs ++ rt) rd 15 6 (by decide)).trans ((app_hi (op ++ rs) rt 10 6 (by decide)).trans ((app_hi (op) rs 5 6 (by decide)).trans (app_all op)))))
theorem rW_rs : fRs (rWord op rs rt rd sa fn) = rs :=
  (app_hi (op ++ rs ++ rt ++ rd ++ sa) fn 21 5 (by decide)).trans ((app_hi (op ++ rs ++ rt ++ rd) sa 15 5 (by decide)).trans ((app_hi (op ++ rs ++ rt) rd 10 5 (by decide)).trans ((app_hi (op ++ rs) rt 5 5 (by decide)).trans ((app_lo (op) rs 0 5 (by decide)).trans (app_all rs)))))
theorem rW_rt : fRt (rWord op rs rt rd sa fn) = rt :=
  (app_hi (op ++ rs ++ rt ++ rd ++ sa) fn 16 5 (by decide)).trans ((app_hi (op ++ rs ++ rt ++ rd) sa 10 5 (by decide)).trans ((app_hi (op ++ rs ++ rt) rd 5 5 (by decide)).trans ((app_lo (op ++ rs) rt 0 5 (by decide)).trans (app_all rt))))
theorem rW_rd : fRd (rWord op rs rt rd sa fn) = rd :=
  (app_hi (op ++ rs ++ rt ++ rd ++ sa) fn 11 5 (by decide)).trans ((app_hi (op ++ rs ++ rt ++ rd) sa 5 5 (by decide)).trans ((app_lo (op ++ rs ++ rt) rd 0 5 (by decide)).trans (app_all rd)))
theorem rW_sa : fSa (rWord op rs rt rd sa fn) = sa :=
  (app_hi (op ++ rs ++ rt ++ rd ++ sa) fn 6 5 (by decide)).trans ((app_lo (op ++ rs ++ rt ++ rd) sa 0 5 (by decide)).trans (app_all sa))
theorem rW_fn : fFn (rWord op rs rt rd sa fn) = fn :=
  (app_lo (op ++ rs ++ rt ++ rd ++ sa) fn 0 6 (by decide)).trans (app_all fn)
theorem iW_op : fOp (iWord op rs rt imm) = op :=
  (app_hi (op ++ rs ++ rt) imm 26 6 (by decide)).trans ((app_hi (op ++ rs) rt 10 6 (by decide)).trans ((app_hi (op) rs 5 6 (by decide)).trans (app_all op)))
theorem iW_rs : fRs (iWord op rs rt imm) = rs :=
  (app_hi (op ++ rs ++ rt) imm 21 5 (by decide)).trans ((app_hi (op ++ rs) rt 5 5 (by decide)).trans ((app_lo (op) rs 0 5 (by decide)).trans (app_all rs)))
theorem iW_rt : fRt (iWord op rs rt imm) = rt :=
  (app_hi (op ++ rs ++ rt) imm 16 5 (by decide)).trans ((app_lo (op ++ rs) rt 0 5 (by decide)).trans (app_all rt))
theorem iW_imm : fImm (iWord op rs rt imm) = imm :=
  (app_lo (op ++ rs ++ rt) imm 0 16 (by decide)).trans (app_all imm)
theorem jW_op : fOp (jWord op t) = op :=
  (app_hi (op) t 26 6 (by decide)).trans (app_all op)
theorem jW_t : fTarget (jWord op t) = t :=
  (app_lo (op) t 0 26 (by decide)).trans (app_all t)
theorem cW_op : fOp ((op ++ v ++ fn : BitVec 32)) = op :=
  (app_hi (op ++ v) fn 26 6 (by decide)).trans ((app_hi (op) v 20 6 (by decide)).trans (app_all op))
theorem cW_v : fCode ((op ++ v ++ fn : BitVec 32)) = v :=
  (app_hi (op ++ v) fn 6 20 (by decide)).trans ((app_lo (op) v 0 20 (by decide)).trans (app_all v))
theorem cW_fn : fFn ((op ++ v ++ fn : BitVec 32)) = fn :=
  (app_lo (op ++ v) fn 0 6 (by decide)).trans (app_all fn)
end fields

/-- The positions that can be told from a word. -/
def Proper : Code → Prop
  | .main o => o ≠ 0#6 ∧ o ≠ 1#6 ∧ o ≠ copOp 0 ∧ o ≠ copOp 1
  | .special _ => True
  | .regimm _ => True
  | .cop z c => (z = 0#2 ∨ z = 1#2) ∧ c ≠ 8#5 ∧ c < 16#5
  | .bc z _ => z = 0#2 ∨ z = 1#2
  | .co _ => True
  | .fp m _ => 16#5 ≤ m

instance (c : Code) : Decidable (Proper c) := by
  cases c <;> unfold Proper <;> infer_instance

theorem table_proper : ∀ r ∈ table, Proper r.code := by decide +kernel

theorem fp_bounds {m : BitVec 5} {f : BitVec 6} (h : Proper (.fp m f)) : ¬ m = 8#5 ∧ ¬ m < 16#5 :=
  ⟨fun e => by subst e; exact absurd (show 16#5 ≤ 8#5 from h) (by decide), BitVec.not_lt.2 h⟩

/-- A placed word has the position it was placed at, and its operands can be read off. -/
theorem place_inv {c : Code} {s : Syn} {as : List Arg} {w : BitVec 32} (hc : Proper c) (h : place c s as = some w) :
    codeOf w = c ∧ argsOf w s = as := by
  unfold place at h
  split at h
  all_goals first
    | (cases h; done)
    | (injection h with h; subst h)
  all_goals
    refine ⟨?_, by simp only [argsOf, rW_rs, rW_rt, rW_rd, rW_sa, iW_rs, iW_rt, iW_imm, jW_t, cW_v]⟩
  all_goals
    simp only [codeOf, rW_op, rW_rs, rW_rt, rW_fn, iW_op, iW_rs, iW_rt, jW_op, cW_op, cW_fn, if_true]
  all_goals first
    | rfl
    | (obtain ⟨h0, h1, h2, h3⟩ := hc
       rw [if_neg h0, if_neg h1, if_neg h2, if_neg h3]; done)
    | (obtain ⟨h0 | h0, h1, h2⟩ := hc <;> subst h0 <;> simp [copOp, h1, h2]; done)
    | (rcases hc with h0 | h0 <;> subst h0 <;> simp [copOp]; done)
    | (obtain ⟨h2, h1⟩ := fp_bounds hc
       rw [if_neg (show ¬ copOp 1 = 0#6 by decide), if_neg (show ¬ copOp 1 = 1#6 by decide),
         if_neg (show ¬ copOp 1 = copOp 0 by decide), if_neg h2, if_neg h1])

theorem table_names : table.Pairwise fun a b => a.mn ≠ b.mn := by decide +kernel
theorem table_codes : table.Pairwise fun a b => a.code ≠ b.code := by decide +kernel

theorem find_unique {α : Type} {p : α → Bool} {l : List α} {a : α} (ha : a ∈ l) (hp : p a = true)
    (h : l.Pairwise fun x y => ¬ (p x = true ∧ p y = true)) : l.find? p = some a := by
  induction l with
  | nil => cases ha
  | cons x l ih =>
    rw [List.pairwise_cons] at h
    by_cases hx : p x = true
    · rw [List.find?_cons_of_pos hx]
      rcases List.mem_cons.1 ha with rfl | ha
      · rfl
      · exact absurd ⟨hx, hp⟩ (h.1 a ha)
    · rw [List.find?_cons_of_neg hx]
      rcases List.mem_cons.1 ha with rfl | ha
      · exact absurd hp hx
      · exact ih ha h.2

/-- Decoding inverts encoding. -/
theorem decoding_encoding {mn : Str} {as : List Arg} {w : BitVec 32} (h : encoding mn as = some w) :
    decoding w = some (mn, as) := by
  unfold encoding at h
  split at h
  case h_2 => cases h
  case h_1 r hr =>
    have hm := List.mem_of_find?_eq_some hr
    have hn := List.find?_some hr
    have hn : r.mn = mn := by simpa using hn
    obtain ⟨h1, h2⟩ := place_inv (table_proper r hm) h
    unfold decoding
    rw [find_unique hm (by simp [h1])
      (table_codes.imp (fun hne hp => hne ((of_decide_eq_true hp.1).trans (of_decide_eq_true hp.2).symm))), Option.map_some, h2, hn]

/-- The encoding is injective. -/
theorem encoding_inj {mn mn' : Str} {as as' : List Arg} {w : BitVec 32} (h : encoding mn as = some w) (h' : encoding mn' as' = some w) :
    mn = mn' ∧ as = as' := by
  have := (decoding_encoding h).symm.trans (decoding_encoding h')
  simpa using this

end Mips.Isa
