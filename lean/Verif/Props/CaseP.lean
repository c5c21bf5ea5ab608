/- C21: mnemonics are case-insensitive. -/
import Verif.Props.Layout22
import Verif.Spec.Case

namespace Mips
open Source Syntax Branch Case

theorem mnChar_ascii {c : Char} (h : mnChar c = true) : isAscii c = true := by
  unfold mnChar at h
  simp only [Bool.or_eq_true, beq_iff_eq] at h
  rcases h with h | rfl
  · simp only [Char.isAlphanum, Char.isAlpha, Char.isUpper, Char.isLower, Char.isDigit, Bool.or_eq_true, Bool.and_eq_true, decide_eq_true_eq, ge_iff_le] at h
    simp only [isAscii, decide_eq_true_eq]
    simp only [UInt32.le_iff_toNat_le, UInt32.lt_iff_toNat_lt] at *
    simp at *
    omega
  · decide

theorem ascii_case {c d : Char} (hc : isAscii c = true) (h : asciiLower c = asciiLower d) : isAscii d = true := by
  have h1 := asciiLower_toNat c
  have h2 := asciiLower_toNat d
  rw [h] at h1
  have e1 : c.val.toNat < 128 := by
    simpa [isAscii, UInt32.lt_iff_toNat_lt] using hc
  have : d.val.toNat < 128 := by
    have a : c.val.toNat = c.toNat := rfl
    have b : d.val.toNat = d.toNat := rfl
    rw [h1] at h2
    rw [a] at e1
    rw [b]
    split at h2 <;> split at h2 <;> omega
  simpa [isAscii, UInt32.lt_iff_toNat_lt] using this

theorem ascii_cases {s t : Str} (h : s.map asciiLower = t.map asciiLower) (hs : ∀ c ∈ s, isAscii c = true) : ∀ c ∈ t, isAscii c = true := by
  induction s generalizing t with
  | nil =>
    cases t with
    | nil => simp
    | cons => simp at h
  | cons c s ih =>
    cases t with
    | nil => simp at h
    | cons d t =>
      simp only [List.map_cons, List.cons.injEq] at h
      intro e he
      rcases List.mem_cons.1 he with rfl | he
      · exact ascii_case (hs c (by simp)) h.1
      · exact ih h.2 (fun x hx => hs x (by simp [hx])) e he

theorem opSim_case [Unicode] {op op' : Str} (ha : ∀ c ∈ op, isAscii c = true) (h : op.map asciiLower = op'.map asciiLower)
    (hl : op.map asciiLower ∉ logicalNames) : OpcSim op op' := by
  have ha' := ascii_cases h ha
  have hlen : op.length = op'.length := by simpa using congrArg List.length h
  have eq : ∀ n, eqIgnoreCase op n = eqIgnoreCase op' n := fun n => by unfold eqIgnoreCase; rw [h]
  constructor
  · rw [Unicode.lower_ascii _ ha, Unicode.lower_ascii _ ha', h]
  · unfold ITypeOp.fromStr; simp only [eq]
  · unfold JTypeOp.fromStr; simp only [eq]
  · unfold RTypeOp.fromStr; simp only [eq]
  · rw [byteLen_ascii _ ha, byteLen_ascii _ ha', hlen]
  · have key : ∀ s : Str, s.map asciiLower ∉ logicalNames → ¬(s = c!"andi" ∨ s = c!"ori" ∨ s = c!"xori") := by
      rintro s hs (rfl | rfl | rfl) <;> exact hs (by decide)
    exact ⟨fun k => absurd k (key op hl), fun k => absurd k (key op' (h ▸ hl))⟩
  · have h2 : op.getLast?.map asciiLower = op'.getLast?.map asciiLower := by rw [← List.getLast?_map, ← List.getLast?_map, h]
    cases h3 : op.getLast? <;> cases h4 : op'.getLast? <;> rw [h3, h4] at h2 <;> simp only [Option.map_some, Option.map_none, Option.some.injEq, reduceCtorEq] at h2
    · rename_i c d
      have : ∀ n, eqIgnoreCase (c!"C." ++ [c]) n = eqIgnoreCase (c!"C." ++ [d]) n := by
        intro n; unfold eqIgnoreCase; simp only [List.map_append, List.map_cons, List.map_nil, h2]
      simp only [Option.map_some, RTypeOp.fromStr, this]
  · have h2 : (split '.' op).map (·.map asciiLower) = (split '.' op').map (·.map asciiLower) := by rw [← split_map, ← split_map, h]
    have h3 : ((split '.' op)[1]?).map (·.map asciiLower) = ((split '.' op')[1]?).map (·.map asciiLower) := by
      rw [← List.getElem?_map, ← List.getElem?_map, h2]
    have piece : ∀ (s : Str) (t : Str) (i : Nat), (∀ c ∈ s, isAscii c = true) → (split '.' s)[i]? = some t → ∀ c ∈ t, isAscii c = true := by
      intro s
      induction s with
      | nil =>
        intro t i _ ht
        cases i with
        | zero => simp [split] at ht; subst ht; simp
        | succ i => simp [split] at ht
      | cons d s ih =>
        intro t i hs ht c hc
        unfold split at ht
        split at ht
        · cases i with
          | zero => simp at ht; subst ht; cases hc
          | succ i => exact ih t i (fun x hx => hs x (by simp [hx])) (by simpa using ht) c hc
        · split at ht
          · cases i with
            | zero => simp at ht; subst ht; simp at hc; subst hc; exact hs _ (by simp)
            | succ i => simp at ht
          · rename_i p ps hp
            cases i with
            | zero =>
              simp at ht; subst ht
              rcases List.mem_cons.1 hc with rfl | hc
              · exact hs _ (by simp)
              · exact ih p 0 (fun x hx => hs x (by simp [hx])) (by rw [hp]; rfl) c hc
            | succ i => exact ih t (i + 1) (fun x hx => hs x (by simp [hx])) (by rw [hp]; simpa using ht) c hc
    cases h4 : (split '.' op)[1]? <;> cases h5 : (split '.' op')[1]? <;> rw [h4, h5] at h3 <;> simp only [Option.map_some, Option.map_none, Option.some.injEq, reduceCtorEq] at h3
    · simp only [Option.map_some, Option.some.injEq]
      rw [Unicode.lower_ascii _ (piece _ _ _ ha h4), Unicode.lower_ascii _ (piece _ _ _ ha' h5), h3]

/-- A small constant reads the same as a signed and as an unsigned immediate. -/
theorem parseImm_small (x : Ctx) {s : Str} {n : Nat} (h : PNum s n) (hn : n < 32768) : parseImm x .u16 s = parseImm x .i16 s := by
  generalize hv : (n : Int) = v at h
  cases h with
  | mk p s q v hp hq h =>
    have ht := trim_blank_tight p s q (blank_ws hp) (blank_ws hq) (num_tight h)
    unfold parseImm
    simp only [ht, num_not_at h]
    have hf : findImm s = none := by
      unfold findImm
      rw [Re.find_IMM_none s (num_not_mem h (by unfold numChar; decide))]; rfl
    rw [hf]
    simp only []
    rw [parseNum_eq, parseNum_eq, readNum_num .u16 h, readNum_num .i16 h]
    unfold IntTy.check
    have b1 : IntTy.u16.min ≤ v ∧ v ≤ IntTy.u16.max := ⟨by simp only [IntTy.min]; omega, by simp only [IntTy.max]; omega⟩
    have b2 : IntTy.i16.min ≤ v ∧ v ≤ IntTy.i16.max := ⟨by simp only [IntTy.min]; omega, by simp only [IntTy.max]; omega⟩
    rw [if_pos b1, if_pos b2]
    rfl

theorem classify_logical (m : Str) (h : m ∈ logicalNames) : classify m = .arith := by
  revert m; decide +kernel

variable {γ δ : Type} {g : ParserError → γ} {h : ParserWarning → δ}

/-- A logical instruction with a small constant, in any case. -/
theorem read_logical [Unicode] {x y : Ctx} (c : CtxSim g h x y) (tf : TextFree g h) {op op' arg a : Str} {n : Nat}
    (hI : ITypeOp.fromStr op = ITypeOp.fromStr op') (ha : (split ',' arg).getLast? = some a) (hn : PNum a n) (hlt : n < 32768) :
    WSim g h (parseArm x .arith op arg) (parseArm y .arith op' arg) := by
  unfold parseArm
  dsimp only
  revert ha
  generalize split ',' arg = args
  intro ha
  have hb : ∀ n, WSim g h (badCount x arg 3 n : W Instruction) (badCount y arg 3 n) := fun n => read_bad tf _ _ _ _
  match args, ha with
  | [], _ => exact hb _
  | [_], _ => exact hb _
  | [_, _], _ => exact hb _
  | [a0, a1, a2], ha =>
    have : a2 = a := by simpa using ha
    subst this
    refine wsim_bind (sim_parseReg c _) fun _ => wsim_bind (sim_parseReg c _) fun _ => ?_
    have k := sim_parseImm c .i16 a2
    have e1 := parseImm_small x hn hlt
    have e2 := parseImm_small y hn hlt
    rw [e1, e2]
    simp only [ite_self]
    exact read_mkI hI k
  | _ :: _ :: _ :: _ :: _, _ => exact hb _

theorem words_sep {op r : Str} (hs : r = [] ∨ r.head? = some ' ') (h : ' ' ∉ op) :
    firstWord (op ++ r) = op ∧ operandText (op ++ r) = r.tail := by
  rcases hs with rfl | hs
  · obtain ⟨a, b, -, -⟩ := firstWord_bare (q := []) h
    rw [List.append_nil]; exact ⟨a, b⟩
  · cases r with
    | nil => cases hs
    | cons d r =>
      simp at hs; subst hs
      obtain ⟨-, -, a, b⟩ := firstWord_bare (q := r) h
      exact ⟨a, b⟩

theorem lineSim_case [Unicode] (tf : TextFree g h) {raw raw' op op' r : Str} (hr : Recased raw raw' op op' r) : LineSim g h raw raw' := by
  have hsp : ∀ s : Str, s.map asciiLower = op.map asciiLower → ' ' ∉ s ∧ ':' ∉ s := by
    intro s hs
    have : ∀ d, asciiLower d = d → d.toNat < 97 ∨ 122 < d.toNat → mnChar d = false → d ∉ s := by
      intro d hd1 hd2 hd3 hm
      have : asciiLower d ∈ op.map asciiLower := by rw [← hs]; exact List.mem_map_of_mem hm
      obtain ⟨c, hc, e⟩ := List.mem_map.1 this
      rw [hd1] at e
      have := (asciiLower_eq c d hd1 hd2).1 e
      subst this
      rw [hr.chars c hc] at hd3; cases hd3
    exact ⟨this ' ' (by decide) (by decide) (by decide), this ':' (by decide) (by decide) (by decide)⟩
  have ha : ∀ c ∈ op, isAscii c = true := fun c hc => mnChar_ascii (hr.chars c hc)
  have ha' := ascii_cases hr.case ha
  have hlen : op.length = op'.length := by simpa using congrArg List.length hr.case
  -- kinds
  have hcode := hr.code
  have hne : op ++ r ≠ [] := by
    intro e
    unfold kind at hcode
    rw [hr.text, e] at hcode
    simp [endsWith] at hcode
  have hne' : op' ++ r ≠ [] := by
    intro e
    apply hne
    obtain ⟨rfl, rfl⟩ := List.append_eq_nil_iff.1 e
    cases op with
    | nil => rfl
    | cons => simp at hlen
  have hcode' : kind raw' = .code := by
    unfold kind at hcode ⊢
    rw [hr.text'] 
    rw [hr.text] at hcode
    have hend : endsWith ':' (op' ++ r) = false := by
      have h1 : endsWith ':' (op ++ r) = false := by
        cases hx : endsWith ':' (op ++ r) with
        | false => rfl
        | true => rw [hx] at hcode; simp at hcode
      cases hl : r.getLast? with
      | some d =>
        unfold endsWith at h1 ⊢
        rw [List.getLast?_append, hl] at h1 ⊢
        exact h1
      | none =>
        have := List.getLast?_eq_none_iff.1 hl
        subst this
        unfold endsWith
        rw [List.append_nil, beq_eq_false_iff_ne]
        intro e
        exact (hsp op' hr.case.symm).2 (List.mem_of_getLast? e)
    rw [hend]
    simp [hne']
  refine .inr ⟨hcode, hcode', fun x y c => ?_⟩
  rw [hr.text, hr.text', parseInst_eq x hne, parseInst_eq y hne']
  obtain ⟨w1, w2⟩ := words_sep hr.sep (hsp op rfl).1
  obtain ⟨w3, w4⟩ := words_sep hr.sep (hsp op' hr.case.symm).1
  have hm : mnemonic (op' ++ r) = mnemonic (op ++ r) := by
    unfold mnemonic
    rw [w1, w3, Unicode.lower_ascii _ ha, Unicode.lower_ascii _ ha', hr.case]
  rw [hm, w1, w2, w3, w4]
  by_cases hl : op.map asciiLower ∈ logicalNames
  · obtain ⟨a, n, h1, h2, h3⟩ := hr.logical hl
    have : mnemonic (op ++ r) = op.map asciiLower := by
      unfold mnemonic
      rw [w1, Unicode.lower_ascii _ ha]
      exact trim_tight _ (by
        have : ∀ m ∈ logicalNames, m ≠ [] ∧ m.head?.all (fun c => !isWs c) = true ∧ m.getLast?.all (fun c => !isWs c) = true := by decide
        obtain ⟨a, b, c⟩ := this _ hl
        exact ⟨a, fun x hx => by rw [hx] at b; simpa using b, fun x hx => by rw [hx] at c; simpa using c⟩)
    rw [this, classify_logical _ hl]
    have hI : ITypeOp.fromStr op = ITypeOp.fromStr op' := by
      unfold ITypeOp.fromStr eqIgnoreCase; rw [hr.case]
    refine read_logical c tf hI ?_ h2 h3
    rw [hr.text] at h1
    unfold operands at h1
    rw [w2] at h1; exact h1
  · exact read_arm c tf _ (opSim_case ha hr.case hl) rfl (OpsSim.refl _) (fun _ a b h1 h2 => by
      rw [h1] at h2; cases h2; rfl)

theorem sameLines_case [Unicode] (tf : TextFree g h) {ls ls' : List Str} (hs : SameFile ls ls') : SameLines (LineSim g h) ls ls' := by
  induction hs with
  | nil => exact .nil
  | cons raw raw' ls ls' h1 _ ih =>
    rcases h1 with rfl | ⟨op, op', r, h1⟩
    · cases hk : kind raw with
      | blank => exact .left _ _ _ hk (.right _ _ _ hk ih)
      | label l => exact .both _ _ _ _ (.inl ⟨l, hk, hk⟩) ih
      | code => exact .both _ _ _ _ (.inr ⟨hk, hk, fun x y c => sim_inst c _⟩) ih
    · exact .both _ _ _ _ (lineSim_case tf h1) ih

/-- C21 (partial).  Changing the letter case of mnemonics does not change the instructions, the words nor the kinds of diagnostics;
`andi`, `ori` and `xori` are covered when their constant is below 32768. -/
theorem C21_case_partial [Unicode] (rt : Rt) (m : Mipsasm) (text text' : Str) (h : SameFile (lines text) (lines text')) :
    (assemble rt m text).bare = (assemble rt m text').bare ∧ (assemble rt m text).words = (assemble rt m text').words := by
  have := outSim_bare (sim_assemble (rt := rt) (rt' := rt) (m := m) (m' := m) bare_textFree.lineless rfl rfl rfl (sameLines_case bare_textFree h))
  exact ⟨this, words_bare this⟩

/-- C21 is false for the logical instructions: in upper case their operand is read as a signed number. -/
theorem C21_logical_wrong :
    (@assemble asciiUnicode (idRt true) Mipsasm.new c!"ori $a0, $a1, 0xFFFF").words = some [0x34a4ffff#32] ∧
    (@assemble asciiUnicode (idRt true) Mipsasm.new c!"ORI $a0, $a1, 0xFFFF").words = none ∧
    (@assemble asciiUnicode (idRt true) Mipsasm.new c!"andi $a0, $a1, -1").words = none ∧
    (@assemble asciiUnicode (idRt true) Mipsasm.new c!"Andi $a0, $a1, -1").words = some [0x30a4ffff#32] := by
  refine ⟨?_, ?_, ?_, ?_⟩ <;> decide +kernel

/-! ### The hypotheses are satisfiable -/

example : SameFile [c!"l:", c!"  addu $a0, $a1, $a2 ; x", c!"ori $a0, $a1, 7"] [c!"l:", c!"ADDu $a0, $a1, $a2 // y", c!"ORI $a0, $a1, 7"] := by
  refine .cons _ _ _ _ (.inl rfl) (.cons _ _ _ _ (.inr ⟨c!"addu", c!"ADDu", c!" $a0, $a1, $a2 ", ?_⟩) (.cons _ _ _ _ (.inr ⟨c!"ori", c!"ORI", c!" $a0, $a1, 7", ?_⟩) .nil))
  · exact ⟨by decide +kernel, by decide +kernel, by decide +kernel, .inr rfl, by decide +kernel, by decide +kernel, fun h => absurd h (by decide)⟩
  · refine ⟨by decide +kernel, by decide +kernel, by decide +kernel, .inr rfl, by decide +kernel, by decide +kernel, fun _ => ⟨c!" 7", 7, by decide +kernel, ?_, by decide⟩⟩
    exact PNum.mk c!" " c!"7" [] 7 (by intro c hc; simp at hc; subst hc; decide) (by simp [Blank]) (Num.pos _ 7 (.dec _ _ (.one '7' 7 (by decide))))

end Mips
