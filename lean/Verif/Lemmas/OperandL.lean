/- Operand parsing: what the operand parsers return on the spellings of the specification. -/
import Verif.Lemmas.RegL
import Verif.Lemmas.RegexL
import Verif.Model.Parser

namespace Mips
open Syntax

@[simp] theorem W.pure_def {α} (a : α) : (pure a : W α) = ⟨[], .ok a⟩ := rfl
@[simp] theorem W.lift_ok {α} (a : α) : W.lift (.ok a) = (⟨[], .ok a⟩ : W α) := rfl
@[simp] theorem W.bind_ok {α β} (ws : List ParserWarning) (a : α) (f : α → W β) :
    ((⟨ws, .ok a⟩ : W α) >>= f) = ⟨ws ++ (f a).warns, (f a).res⟩ := rfl
@[simp] theorem W.bind_nil_ok {α β} (a : α) (f : α → W β) : ((⟨[], .ok a⟩ : W α) >>= f) = f a := rfl

theorem parseReg_ok [Unicode] (x : Ctx) {s : Str} {r : BitVec 5} (h : Reg GprCore s r) :
    parseReg x s = ⟨[], .ok r.toFin⟩ := by
  simp [parseReg, gpr_fromStr h, Res.mapErr]

theorem parseFReg_ok [Unicode] (x : Ctx) {s : Str} {r : BitVec 5} (h : Reg FprCore s r) :
    parseFReg x s = ⟨[], .ok r.toFin⟩ := by
  simp [parseFReg, fpr_fromStr h, Res.mapErr]

theorem parseCReg_ok [Unicode] (x : Ctx) {s : Str} {r : BitVec 5} (h : Reg C0Core s r) :
    parseCReg x s = ⟨[], .ok r.toFin⟩ := by
  simp [parseCReg, c0_fromStr h, Res.mapErr]

/-- No defined label is spelled like a number. -/
def NoNumLabel (labels : List (Str × Nat)) : Prop := ∀ e ∈ labels, ∀ v, ¬ Num e.1 v

theorem hasLabel_num {labels : List (Str × Nat)} (h : NoNumLabel labels) {s : Str} {v : Int} (hs : Num s v) :
    hasLabel labels s = false := by
  rw [Bool.eq_false_iff]
  intro hh
  simp only [hasLabel, List.any_eq_true, beq_iff_eq] at hh
  obtain ⟨e, he, rfl⟩ := hh
  exact h e he v hs

theorem num_not_at {s : Str} {v : Int} (h : Num s v) : startsWith c!"@@" s = false := by
  obtain ⟨h0, hc⟩ := num_chars h
  cases s with
  | nil => exact absurd rfl h0
  | cons c t =>
    have := numChar_range (hc c (by simp))
    have hne : ('@' == c) = false := by
      rw [beq_eq_false_iff_ne]; rintro rfl; simp at this
    simp [startsWith, List.isPrefixOf, hne]

theorem num_not_mem {s : Str} {v : Int} (h : Num s v) {d : Char} (hd : ¬ numChar d) : d ∉ s :=
  fun hh => hd ((num_chars h).2 d hh)

theorem parseNum_eq (x : Ctx) (ty : IntTy) (s : Str) : parseNum x ty s =
    match readNum ty s with
    | some v => .ok (Immediate.new ty v)
    | none => .err (.invalidImmediate x.line (if contains c!"0x" s then remove0x s else s)) := by
  unfold parseNum readNum
  split
  · simp only []; split <;> simp_all
  · split <;> simp_all

/-- `parse_immediate` on a numeral: the value if it fits the type, an error otherwise. -/
theorem parseImm_num (x : Ctx) (ty : IntTy) {s : Str} {v : Int} (hl : NoNumLabel x.labels) (h : PNum s v) :
    parseImm x ty s = if ty.min ≤ v ∧ v ≤ ty.max then .ok (Immediate.new ty v)
      else .err (.invalidImmediate x.line (if contains c!"0x" (trim s) then remove0x (trim s) else trim s)) := by
  cases h with
  | mk p s q v hp hq h =>
    have ht := trim_blank_tight p s q (blank_ws hp) (blank_ws hq) (num_tight h)
    unfold parseImm
    simp only [ht, num_not_at h, hasLabel_num hl h]
    rw [if_neg (by simp), if_neg (by simp)]
    have : findImm s = none := by
      unfold findImm
      rw [Re.find_IMM_none s (num_not_mem h (by unfold numChar; decide))]; rfl
    rw [this]
    simp only []
    rw [parseNum_eq, readNum_num ty h]
    unfold IntTy.check
    by_cases hr : ty.min ≤ v ∧ v ≤ ty.max
    · simp only [if_pos hr]
    · simp only [if_neg hr]

theorem parseImm_i16 (x : Ctx) {s : Str} {v : BitVec 16} (hl : NoNumLabel x.labels) (h : PNum s v.toInt) :
    parseImm x .i16 s = .ok (.short v) := by
  rw [parseImm_num x .i16 hl h, if_pos]
  · simp [Immediate.new]
  · have := BitVec.toInt_lt (x := v); have := BitVec.le_toInt (x := v)
    simp [IntTy.min, IntTy.max]; omega

theorem ofInt_toNat16 (v : BitVec 16) : BitVec.ofInt 16 (v.toNat : Int) = v := by
  rw [BitVec.ofInt_natCast, BitVec.ofNat_toNat]; simp

theorem parseImm_u16 (x : Ctx) {s : Str} {v : BitVec 16} (hl : NoNumLabel x.labels) (h : PNum s v.toNat) :
    parseImm x .u16 s = .ok (.short v) := by
  rw [parseImm_num x .u16 hl h, if_pos]
  · simp only [Immediate.new, ofInt_toNat16]
  · have := v.isLt
    simp [IntTy.min, IntTy.max]; omega

/-- A numeral of a 5-bit field read as an i32 shift amount. -/
theorem parseShift_num {s : Str} {n : Nat} (hn : n < 2 ^ 31) (h : PNum s n) :
    parseShift s = some (BitVec.ofNat 32 n) := by
  generalize hv : (n : Int) = v at h
  cases h with
  | mk p s q v hp hq h =>
    have ht := trim_blank_tight p s q (blank_ws hp) (blank_ws hq) (num_tight h)
    unfold parseShift
    simp only [ht]
    have he : endsWith '`' s = false := by
      unfold endsWith
      rw [beq_eq_false_iff_ne]
      intro hh
      have := numChar_range ((num_chars h).2 _ (List.mem_of_getLast? hh))
      unfold numChar at *
      have h2 := (num_chars h).2 _ (List.mem_of_getLast? hh)
      unfold numChar at h2
      revert h2; decide
    have hr := readNum_num .i32 h
    unfold readNum at hr
    have hck : IntTy.check .i32 v = some v := by
      subst hv; simp [IntTy.check, IntTy.min, IntTy.max]; omega
    rw [hck] at hr
    have hte : trimEndMatches '`' s = s := by
      have : ∀ t : Str, (∀ c ∈ t, c ≠ '`') → trimEndMatches '`' t = t := by
        intro t
        induction t with
        | nil => intro _; rfl
        | cons c t ih =>
          intro hc
          have hi := ih (fun d hd => hc d (by simp [hd]))
          rw [trimEndMatches, hi]
          cases t with
          | nil => simp [hc c (by simp)]
          | cons d t => rfl
      apply this
      rintro c hc rfl
      have h2 := (num_chars h).2 _ hc
      unfold numChar at h2
      revert h2; decide
    simp only [he, Bool.false_or]
    split at hr
    · rename_i h0
      simp only [h0, Bool.not_true, Bool.false_eq_true, if_false]
      rw [hr]; subst hv; simp
    · rename_i h0
      have h0' : contains c!"0x" s = false := by simpa using h0
      simp only [h0', Bool.not_false, if_true, hte]
      rw [hr]; subst hv; simp

/-! ### memory operands -/

theorem reg_chars {core : Str → BitVec 5 → Prop} (hc : ∀ s r, core s r → Alnum s) {s : Str} {r : BitVec 5}
    (h : Reg core s r) : ∀ c ∈ s, c ≠ '(' ∧ c ≠ ')' ∧ c ≠ ',' ∧ c ≠ '\n' := by
  have al : ∀ b r, core b r → ∀ c ∈ b, c ≠ '(' ∧ c ≠ ')' ∧ c ≠ ',' ∧ c ≠ '\n' := by
    intro b r hb c hh
    have := (hc b r hb).2 c hh
    refine ⟨?_, ?_, ?_, ?_⟩ <;> rintro rfl <;> simp at this
  have bl : ∀ p, Blank p → ∀ c ∈ p, c ≠ '(' ∧ c ≠ ')' ∧ c ≠ ',' ∧ c ≠ '\n' := by
    intro p hp c hh
    obtain ⟨h1, h2⟩ := hp c hh
    refine ⟨?_, ?_, ?_, h2⟩ <;> rintro rfl <;> revert h1 <;> decide
  intro c hh
  cases h with
  | bare p b q r hp hq hb =>
    simp only [List.mem_append] at hh
    rcases hh with (hh | hh) | hh
    · exact bl p hp c hh
    · exact al b r hb c hh
    · exact bl q hq c hh
  | dollar p b q r hp hq hb =>
    simp only [List.mem_append, List.mem_cons] at hh
    rcases hh with (hh | rfl | hh) | hh
    · exact bl p hp c hh
    · decide
    · exact al b r hb c hh
    · exact bl q hq c hh

theorem blank_chars {p : Str} (hp : Blank p) : ∀ c ∈ p, c ≠ '(' ∧ c ≠ ')' ∧ c ≠ ',' ∧ c ≠ '\n' := by
  intro c hh
  obtain ⟨h1, h2⟩ := hp c hh
  refine ⟨?_, ?_, ?_, h2⟩ <;> rintro rfl <;> revert h1 <;> decide

theorem pnum_chars {s : Str} {v : Int} (h : PNum s v) : s ≠ [] ∧ ∀ c ∈ s, c ≠ '(' ∧ c ≠ ')' ∧ c ≠ ',' ∧ c ≠ '\n' := by
  cases h with
  | mk p s q v hp hq h =>
    obtain ⟨h0, h1⟩ := num_chars h
    refine ⟨by simp [h0], ?_⟩
    intro c hh
    simp only [List.mem_append] at hh
    rcases hh with (hh | hh) | hh
    · exact blank_chars hp c hh
    · have := h1 c hh
      refine ⟨?_, ?_, ?_, ?_⟩ <;> rintro rfl <;> revert this <;> unfold numChar <;> decide
    · exact blank_chars hq c hh

theorem trim_paren (b : Str) (h : ∀ c ∈ b, c ≠ '(' ∧ c ≠ ')') :
    removeParens ('(' :: (b ++ [')'])) = b := by
  simp only [removeParens]
  simp only [List.filter_cons, List.filter_append]
  simp
  intro c hc
  exact h c hc

theorem reg_trim {core : Str → BitVec 5 → Prop} (hc : ∀ s r, core s r → Alnum s) {s : Str} {r : BitVec 5}
    (h : Reg core s r) : Reg core (trim s) r := by
  cases h with
  | bare p b q r hp hq hb =>
    rw [trim_blank_tight _ _ _ (blank_ws hp) (blank_ws hq) (hc _ _ hb).tight]
    have := Reg.bare (core := core) [] b [] r (by simp [Blank]) (by simp [Blank]) hb
    simpa using this
  | dollar p b q r hp hq hb =>
    rw [trim_blank_tight _ _ _ (blank_ws hp) (blank_ws hq) (hc _ _ hb).tight_dollar]
    have := Reg.dollar (core := core) [] b [] r (by simp [Blank]) (by simp [Blank]) hb
    simpa using this

/-- The base register of `o(b)q`. -/
theorem baseText_mem (o b q : Str) (ho : ∀ c ∈ o, c ≠ '(') (hb : ∀ c ∈ b, c ≠ '(' ∧ c ≠ ')' ∧ c ≠ '\n')
    (hq : ∀ c ∈ q, c ≠ '(') : baseText (o ++ '(' :: b ++ ')' :: q) = some (trim b) := by
  unfold baseText findBaseLast
  have e : o ++ '(' :: b ++ ')' :: q = o ++ '(' :: (b ++ ')' :: q) := by simp
  rw [e, Re.findIter_BASE _ _ _ _ (fun h => ho _ h rfl) (fun h => (hb _ h).2.1 rfl) (fun c hc => (hb c hc).2.2),
    Re.findIter_BASE_none _ _ (fun h => hq _ h rfl)]
  simp only [List.getLast?_singleton, Option.map_some]
  rw [trim_paren b (fun c hc => ⟨(hb c hc).1, (hb c hc).2.1⟩)]

theorem findOffset_mem (o b q : Str) (ho : ∀ c ∈ o, c ≠ '\n') (hb : ∀ c ∈ b, c ≠ '(') (hq : ∀ c ∈ q, c ≠ '(') :
    findOffset (o ++ '(' :: b ++ ')' :: q) = if o = [] then none else some (o ++ ['(']) := by
  unfold findOffset
  have e : o ++ '(' :: b ++ ')' :: q = o ++ '(' :: (b ++ ')' :: q) := by simp
  rw [e, Re.find_OFFSET o _ ho (by
    simp only [List.mem_append, List.mem_cons, not_or]
    exact ⟨fun h => hb _ h rfl, by decide, fun h => hq _ h rfl⟩)]
  split <;> simp

end Mips
