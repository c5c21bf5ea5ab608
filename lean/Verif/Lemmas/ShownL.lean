/-
Where the texts in error values come from.
-/
import Verif.Spec.Shown
import Verif.Lemmas.TakenL
import Verif.Lemmas.ArmL
import Verif.Lemmas.RejectL

namespace Mips
open Source Isa Syntax Branch Shown Operands

/-! ### Decimal numbers -/

theorem digitsAux_fuel (b : Nat) (hb : 2 ≤ b) (f : Nat → Char) : ∀ (k n m : Nat), n < k → n < m → digitsAux b f k n = digitsAux b f m n := by
  intro k
  induction k with
  | zero => intro n m h; omega
  | succ k ih =>
    intro n m h1 h2
    cases m with
    | zero => omega
    | succ m =>
      unfold digitsAux
      split
      · rfl
      · rename_i hn
        have : n / b < n := Nat.div_lt_self (by omega) (by omega)
        rw [ih (n / b) m (by omega) (by omega)]

theorem decimal_step (n k : Nat) (hn : n ≠ 0) (hk : k < 10) : decimal (n * 10 + k) = decimal n ++ [hexChar k] := by
  unfold decimal digitsWith
  rw [digitsAux]
  rw [if_neg (by omega)]
  have h1 : (n * 10 + k) / 10 = n := by omega
  have h2 : (n * 10 + k) % 10 = k := by omega
  rw [h1, h2, digitsAux_fuel 10 (by decide) hexChar (n * 10 + k) n (n + 1) (by omega) (by omega)]

theorem dec_char {c : Char} {k : Nat} (h : decDigits[k]? = some (asciiLower c)) : c = hexChar k ∧ k < 10 := by
  have hk : k < 10 := (List.getElem?_eq_some_iff.1 h).1
  refine ⟨?_, hk⟩
  have e := dec_get ⟨k, hk⟩
  simp only at e
  rw [e] at h
  simp only [Option.some.injEq] at h
  have : hexChar k = Char.ofNat (48 + k) := by unfold hexChar; rw [if_pos hk]
  rw [this]
  have h2 := congrArg Char.toNat h
  rw [ofNat_toNat' _ (by omega)] at h2
  apply char_ext
  rw [ofNat_toNat' _ (by omega)]
  unfold asciiLower at h2
  split at h2
  · rename_i hc
    exfalso
    simp only [Bool.and_eq_true, decide_eq_true_eq, UInt32.le_iff_toNat_le] at hc
    have hc1 : 65 ≤ c.toNat := hc.1
    have hc2 : c.toNat ≤ 90 := hc.2
    rw [ofNat_toNat' _ (by omega)] at h2
    omega
  · exact h2.symm

theorem decimal_digits {s : Str} {n : Nat} (h : Digits decDigits s n) : decimal n <:+ s := by
  induction h with
  | one c k h =>
    obtain ⟨rfl, hk⟩ := dec_char h
    have : decimal k = [hexChar k] := by
      unfold decimal digitsWith digitsAux; rw [if_pos hk]
    rw [this]; exact List.suffix_refl _
  | snoc s c n k hd h ih =>
    obtain ⟨rfl, hk⟩ := dec_char h
    have hl : decDigits.length = 10 := rfl
    rw [hl]
    by_cases hn : n = 0
    · subst hn
      have : decimal (0 * 10 + k) = [hexChar k] := by
        unfold decimal digitsWith digitsAux; rw [if_pos (by omega)]; congr 2; omega
      rw [this]
      exact List.suffix_append _ _
    · rw [decimal_step n k hn hk]
      obtain ⟨t, ht⟩ := ih
      exact ⟨t, by rw [← List.append_assoc, ht]⟩

theorem decimal_plus {s : Str} {n : Nat} (h : Plus decDigits s n) : decimal n <:+: s := by
  rcases h with h | ⟨t, rfl, h⟩
  · exact (decimal_digits h).isInfix
  · exact (decimal_digits h).isInfix.trans (List.suffix_cons _ _).isInfix

/-! ### Registers -/

theorem core_infix (s : Str) : trimStartMatches '$' (trim s) <:+: s :=
  (List.dropWhile_suffix _).isInfix.trans (trim_infix s)

theorem gpr_err_text [Unicode] {s e : Str} (h : Register.fromStr s = .err e) : e <:+: s := by
  unfold Register.fromStr at h
  simp only at h
  have try_ : ∀ {t : Str} {n : Nat}, parseU32 t = some n → Register.tryFrom n = .err e → e <:+: t := by
    intro t n h1 h2
    unfold Register.tryFrom at h2
    split at h2
    · cases h2
    · cases h2; exact decimal_plus (parseU32_plus h1)
  split at h
  · split at h
    · rename_i n hn
      refine (try_ hn h).trans ?_
      exact (List.dropWhile_suffix _).isInfix.trans (core_infix s)
    · cases h
  · split at h
    · rename_i n hn
      exact (try_ hn h).trans (core_infix s)
    · split at h
      · cases h
      · cases h; exact List.infix_refl _

theorem hex_dec_parse {s : Str} {n : Nat} (h : parseU32Hex s = some n) (hd : ∃ m, Plus decDigits s m) : parseU32 s ≠ none := by
  obtain ⟨m, hm⟩ := hd
  rw [plus_parseU32 hm]
  have hx : ∃ m', m ≤ m' ∧ Plus hexDigits s m' := by
    rcases hm with hm | ⟨t, rfl, hm⟩
    · obtain ⟨m', h1, h2⟩ := dec_hex hm; exact ⟨m', h1, .inl h2⟩
    · obtain ⟨m', h1, h2⟩ := dec_hex hm; exact ⟨m', h1, .inr ⟨t, rfl, h2⟩⟩
  obtain ⟨m', h1, h2⟩ := hx
  rw [plus_parseU32Hex h2] at h
  split at h
  · rw [if_pos (by omega)]; simp
  · cases h

theorem fpr_err_text [Unicode] {s e : Str} (hp : PlainReg s) (h : FloatRegister.fromStr s = .err e) : e <:+: s := by
  unfold FloatRegister.fromStr at h
  simp only at h
  split at h
  · rename_i n hn
    unfold FloatRegister.tryFrom at h
    split at h
    · cases h
    · cases h; exact (decimal_plus (parseU32_plus hn)).trans (core_infix s)
  · rename_i hn
    split at h
    · cases h
    · split at h
      · rename_i n hx
        exact absurd hn (hex_dec_parse hx (hp.hex _ (parseU32Hex_plus hx)))
      · cases h
        have := hp.low
        unfold core at this
        unfold trimStartMatches
        rw [this]
        exact core_infix s

theorem c0_err_text [Unicode] {s e : Str} (hp : PlainReg s) (h : Cop0Register.fromStr s = .err e) : e <:+: s := by
  unfold Cop0Register.fromStr at h
  simp only at h
  split at h
  · rename_i n hn
    unfold Cop0Register.tryFrom at h
    split at h
    · cases h
    · cases h; exact (decimal_plus (parseU32_plus hn)).trans (core_infix s)
  · rename_i hn
    split at h
    · rename_i n hx
      exact absurd hn (hex_dec_parse hx (hp.hex _ (parseU32Hex_plus hx)))
    · split at h
      · cases h
      · cases h
        have := hp.low
        unfold core at this
        unfold trimStartMatches
        rw [this]
        exact core_infix s

/-! ### Numbers -/

theorem remove0x_none {s : Str} (h : ¬ c!"0x" <:+: s) : remove0x s = s := by
  induction s with
  | nil => rfl
  | cons c s ih =>
    have h2 : ¬ c!"0x" <:+: s := fun hi => h (hi.trans (List.suffix_cons _ _).isInfix)
    rw [remove0x_cons, ih h2]
    rintro ⟨rfl, t, rfl⟩
    exact h ⟨[], t, rfl⟩

theorem lead_infix {s : Str} (h : Lead s) : remove0x s <:+: s := by
  rcases h with h | ⟨t, rfl, h⟩
  · rw [remove0x_none h]; exact List.infix_refl _
  · show remove0x ('0' :: 'x' :: t) <:+: _
    rw [remove0x_0x, remove0x_none h]; exact ⟨c!"0x", [], by simp⟩

theorem parseNum_text {x : Ctx} {ty : IntTy} {s : Str} (hs : Lead s) {e : ParserError} (h : parseNum x ty s = .err e) :
    ∃ a, e = .invalidImmediate x.line a ∧ a <:+: s := by
  unfold parseNum at h
  simp only at h
  repeat' split at h
  all_goals first
    | cases h; done
    | (cases h; exact ⟨_, rfl, by first | exact lead_infix hs | exact List.infix_refl _⟩)

theorem parseTarget_text {x : Ctx} {t : Str} (ht : startsWith c!"0x" t = true → Lead t) {e : ParserError} (h : parseTarget x t = .err e) :
    ∃ a, e = .invalidTargetAddress x.line a ∧ a <:+: t := by
  unfold parseTarget at h
  simp only at h
  split at h
  · cases h
  · split at h
    · rename_i hs
      split at h
      · cases h
      · cases h; exact ⟨_, rfl, lead_infix (ht hs)⟩
    · split at h
      · cases h
      · split at h
        · split at h
          · cases h
          · cases h; exact ⟨_, rfl, List.infix_refl _⟩
        · cases h

theorem trimStart_paren (o r : Str) : trimStart (o ++ '(' :: r) = trimStart o ++ '(' :: r := by
  induction o with
  | nil => rfl
  | cons c o ih =>
    by_cases hc : isWs c = true
    · simp only [List.cons_append, trimStart, List.dropWhile_cons, hc, if_true] at ih ⊢
      exact ih
    · simp only [List.cons_append, trimStart, List.dropWhile_cons, hc] at ih ⊢
      rfl

theorem trimEnd_paren (l q : Str) : ∃ q', trimEnd (l ++ ')' :: q) = l ++ ')' :: q' ∧ ∀ c ∈ q', c ∈ q := by
  obtain ⟨w, h1, h2⟩ := trimEnd_prefix (l ++ ')' :: q)
  have h3 := h1
  rw [List.append_eq_append_iff] at h3
  rcases h3 with ⟨a, ha, hb⟩ | ⟨a, ha, hb⟩
  · rw [ha]
    cases a with
    | nil =>
      simp only [List.nil_append] at hb
      have := h2 ')' (by rw [← hb]; simp)
      exact absurd this (by decide)
    | cons c a =>
      simp only [List.cons_append, List.cons.injEq] at hb
      obtain ⟨rfl, hb⟩ := hb
      exact ⟨a, rfl, fun c hc => by rw [hb]; simp [hc]⟩
  · exfalso
    have := h2 ')' (by rw [hb]; simp)
    exact absurd this (by decide)

theorem trim_paren2 (o b q : Str) : ∃ q', trim (o ++ '(' :: b ++ ')' :: q) = trimStart o ++ '(' :: b ++ ')' :: q' ∧ ∀ c ∈ q', c ∈ q := by
  have : trimStart (o ++ '(' :: b ++ ')' :: q) = (trimStart o ++ '(' :: b) ++ ')' :: q := by
    rw [List.append_assoc, List.cons_append, trimStart_paren, List.append_assoc, List.cons_append]
  unfold trim
  rw [this]
  exact trimEnd_paren _ _

theorem lead_prefix {s t : Str} (h : t <+: s) (hs : Lead s) : Lead t := by
  rcases hs with hs | ⟨u, rfl, hu⟩
  · exact .inl fun hi => hs (hi.trans h.isInfix)
  · match t, h with
    | [], _ => exact .inl (by decide)
    | [c], _ => exact .inl (by rintro ⟨a, b, he⟩; have := congrArg List.length he; simp at this; omega)
    | c :: d :: t, h =>
      obtain ⟨w, hw⟩ := h
      simp only [List.cons_append, List.cons.injEq] at hw
      obtain ⟨rfl, rfl, hw⟩ := hw
      right
      refine ⟨t, rfl, fun hi => hu ?_⟩
      have : t <:+: u := ⟨[], w, by simpa using hw⟩
      exact hi.trans this

theorem parseImm_text {x : Ctx} {ty : IntTy} {s : Str} (hs : PlainOp s) {e : ParserError} (h : parseImm x ty s = .err e) :
    ∃ a, (e = .invalidImmediate x.line a ∨ e = .invalidTargetAddress x.line a) ∧ a <:+: s := by
  unfold parseImm at h
  simp only at h
  split at h
  · cases h
  split at h
  · cases h
  cases hs with
  | bare _ hp hl =>
    have hp' : '(' ∉ trim s := fun hc => hp ((trim_infix s).subset hc)
    have : findImm (trim s) = none := by unfold findImm; rw [Re.find_IMM_none _ hp']; rfl
    rw [this] at h
    obtain ⟨a, rfl, ha⟩ := parseNum_text hl h
    exact ⟨a, .inl rfl, ha.trans (trim_infix s)⟩
  | paren o b q hc hl hb =>
    obtain ⟨q', ht, hq⟩ := trim_paren2 o b q
    rw [ht] at h
    have hf : findImm (trimStart o ++ '(' :: b ++ ')' :: q') = some ('(' :: b ++ [')']) := by
      unfold findImm
      have e : trimStart o ++ '(' :: b ++ ')' :: q' = trimStart o ++ '(' :: (b ++ ')' :: q') := by simp
      rw [e, Re.find_IMM]
      · rfl
      · intro hm
        exact (hc '(' (by simp [(List.dropWhile_suffix _).subset hm])).1 rfl
      · intro hm
        exact (hc ')' (by simp [hq _ hm])).2.1 rfl
      · intro c hm; exact (hc c (by simp [hm])).2.2
    rw [hf] at h
    have hr : removeParens ('(' :: b ++ [')']) = b := by
      unfold removeParens
      simp only [List.cons_append, List.filter_cons, List.filter_append]
      simp
      intro c hm
      have := hc c (by simp [hm])
      simp [this.1, this.2.1]
    simp only [hr] at h
    cases hp : parseTarget x b with
    | ok t =>
      rw [hp] at h
      simp only [Res.bind] at h
      repeat' split at h
      all_goals cases h
    | err e' =>
      rw [hp] at h; cases h
      obtain ⟨a, rfl, ha⟩ := parseTarget_text (fun _ => hb) hp
      refine ⟨a, .inr rfl, ha.trans ⟨o ++ ['('], ')' :: q, by simp⟩⟩
    | panic => rw [hp] at h; cases h

theorem parseImm_zero {x : Ctx} {e : ParserError} : parseImm x .i16 c!"0" ≠ .err e := by
  unfold parseImm
  simp only [show trim c!"0" = c!"0" from rfl, show startsWith c!"@@" c!"0" = false from rfl, show findImm c!"0" = none from rfl,
    show parseNum x .i16 c!"0" = .ok (Immediate.new .i16 0) from rfl]
  split
  · simp
  · split <;> simp

theorem plain_base {a t : Str} (hp : PlainOp a) (h : baseText a = some t) : t <:+: a := by
  cases hp with
  | bare _ hn _ =>
    unfold baseText findBaseLast at h
    rw [Re.findIter_BASE_none _ _ hn] at h
    cases h
  | paren o b q hc _ _ =>
    rw [baseText_mem o b q (fun c h => (hc c (by simp [h])).1) (fun c h => hc c (by simp [h])) (fun c h => (hc c (by simp [h])).1)] at h
    cases h
    exact (trim_infix b).trans ⟨o ++ ['('], ')' :: q, by simp⟩

theorem plain_offset {a o : Str} (hp : PlainOp a) (h : findOffset a = some o) : PlainOp o.dropLast ∧ removeOpenParen o = o.dropLast ∧
    o.dropLast <:+: a := by
  cases hp with
  | bare _ hn _ =>
    unfold findOffset at h
    rw [Re.find_OFFSET_none _ hn] at h
    cases h
  | paren o' b q hc hl _ =>
    rw [findOffset_mem o' b q (fun c h => (hc c (by simp [h])).2.2) (fun c h => (hc c (by simp [h])).1) (fun c h => (hc c (by simp [h])).1)] at h
    split at h
    · cases h
    · cases h
      rw [List.dropLast_concat]
      refine ⟨.bare _ (fun h => (hc _ (by simp [h])).1 rfl) hl, ?_, ⟨[], '(' :: b ++ ')' :: q, by simp⟩⟩
      unfold removeOpenParen
      rw [List.filter_append]
      have : o'.filter (fun c => !(c == '(')) = o' := by
        rw [List.filter_eq_self]; intro c h; simp [(hc c (by simp [h])).1]
      rw [this]; simp

/-! ### Labels -/

/-- The label named by an immediate stands in `arg`. -/
def ImmText (arg : Str) (i : Immediate) : Prop := ∀ l, i = .localLabel l → l <:+: arg

/-- The label an instruction refers to stands in `arg`. -/
def InstText (arg : Str) (i : Instruction) : Prop :=
  (∀ o rs rt l b, i = .imm o rs rt (.localLabel l) b → l <:+: arg) ∧ (∀ o l b, i = .jump o (.label l) b → l <:+: arg)

theorem parseImm_label_text {x : Ctx} {ty : IntTy} {s arg : Str} (hs : s <:+: arg) {i : Immediate} (h : parseImm x ty s = .ok i) :
    ImmText arg i := by
  rintro l rfl
  unfold parseImm at h
  simp only at h
  split at h
  · cases h; exact (trim_infix s).trans hs
  split at h
  · cases h
  split at h
  · rename_i m _
    cases hp : parseTarget x (removeParens m) with
    | ok t =>
      rw [hp] at h
      simp only [Res.bind] at h
      repeat' split at h
      all_goals cases h
    | err e => rw [hp] at h; cases h
    | panic => rw [hp] at h; cases h
  · unfold parseNum at h
    simp only at h
    repeat' split at h
    all_goals first
      | cases h; done
      | (cases ty <;> cases h)

theorem rpost_immText {x : Ctx} {ty : IntTy} {s arg : Str} (hs : s <:+: arg) : RPost (W.lift (parseImm x ty s)) (ImmText arg) :=
  fun _ h => parseImm_label_text hs h

theorem rpost_mkIText {s arg : Str} {a b : Register} {w : W Immediate} (h : RPost w (ImmText arg)) : RPost (mkI s a b w) (InstText arg) :=
  rpost_mkI h fun o i _ hi => ⟨by intro _ _ _ l _ e; cases e; exact hi l rfl, by intro _ _ _ e; cases e⟩

theorem rpost_mkRText {s arg : Str} {a b c : Register} : RPost (mkR s a b c) (InstText arg) :=
  rpost_mkR fun o _ => ⟨(by intro _ _ _ _ _ e; cases e), (by intro _ _ _ e; cases e)⟩

theorem rpost_regText {arg : Str} {o : RTypeOp} {a b c : Register} {v : Word} {w : List Word} :
    RPost (pure (.reg o a b c v w) : W Instruction) (InstText arg) :=
  rpost_pure ⟨(by intro _ _ _ _ _ e; cases e), (by intro _ _ _ e; cases e)⟩

theorem rpost_bytesText {arg : Str} {w : Word} : RPost (pure (.bytes w) : W Instruction) (InstText arg) :=
  rpost_pure ⟨(by intro _ _ _ _ _ e; cases e), (by intro _ _ _ e; cases e)⟩

theorem parseTarget_label_text {x : Ctx} {s l : Str} (h : parseTarget x s = .ok (.label l)) : l = s := by
  unfold parseTarget at h
  simp only at h
  repeat' split at h
  all_goals first
    | cases h; done
    | (cases h; rfl)

set_option maxHeartbeats 4000000 in
theorem parseArm_text [Unicode] (x : Ctx) (cls : Cls) (op arg : Str) (hp : ∀ s ∈ split ',' arg, PlainOp s) :
    RPost (parseArm x cls op arg) (InstText arg) := by
  have hi : ∀ s ∈ split ',' arg, s <:+: arg := fun s h => infix_of_split h
  have hz : RPost (W.lift (parseImm x .i16 c!"0")) (ImmText arg) := by
    intro i h
    rintro l rfl
    replace h : parseImm x .i16 c!"0" = .ok (.localLabel l) := h
    unfold parseImm at h
    simp only [show trim c!"0" = c!"0" from rfl, show startsWith c!"@@" c!"0" = false from rfl, show findImm c!"0" = none from rfl,
      show parseNum x .i16 c!"0" = .ok (Immediate.new .i16 0) from rfl] at h
    simp only [Bool.false_eq_true, if_false] at h
    split at h <;> cases h
  have ho : ∀ s o, findOffset s = some o → s ∈ split ',' arg → o.dropLast <:+: arg := fun s o h1 h2 =>
    (plain_offset (hp s h2) h1).2.2.trans (hi s h2)
  have ho' : ∀ s o, findOffset s = some o → s ∈ split ',' arg → removeOpenParen o <:+: arg := fun s o h1 h2 => by
    rw [(plain_offset (hp s h2) h1).2.1]; exact ho s o h1 h2
  have ht : ∀ s ∈ split ',' arg, trim s <:+: arg := fun s h => (trim_infix s).trans (hi s h)
  unfold parseArm
  generalize hA : split ',' arg = args at *
  cases cls <;> simp only [parseBranch0, parseLi, parseFloat]
  case jump =>
    split
    · refine rpost_any fun _ => rpost_bind rpost_tgt fun q hq => rpost_any fun _ => rpost_bind rpost_opJ fun o _ => rpost_pure ?_
      refine ⟨by intro _ _ _ _ _ e; (cases e), ?_⟩
      intro _ l _ e
      cases e
      rw [parseTarget_label_text hq]
      exact ht _ (by simp)
    · exact rpost_bad
  all_goals repeat' first
    | with_reducible exact rpost_bad
    | with_reducible exact rpost_panic
    | with_reducible exact rpost_fail
    | with_reducible exact rpost_mkRText
    | (with_reducible exact rpost_pure (by assumption))
    | with_reducible exact rpost_regText
    | with_reducible exact rpost_bytesText
    | with_reducible refine rpost_mkIText ?_
    | with_reducible exact hz
    | (with_reducible refine rpost_immText (ho _ _ (by assumption) ?_); (simp; done))
    | (with_reducible refine rpost_immText (ho' _ _ (by assumption) ?_); (simp; done))
    | (with_reducible refine rpost_immText (ht _ ?_); (simp; done))
    | (with_reducible refine rpost_immText (hi _ ?_); (simp; done))
    | with_reducible refine rpost_bind (rpost_immText (arg := arg) (hi _ (by simp))) (fun _ _ => ?_)
    | with_reducible refine rpost_any (fun _ => ?_)
    | split

end Mips
