/- C32: unknown mnemonics. -/
import Verif.Props.Count

namespace Mips
open Source Branch

/-- What the name of an accepted line is known to be. -/
def NameOk [Unicode] (cls : Cls) (op : Str) : Prop :=
  (∃ o, ITypeOp.fromStr op = some o) ∧ cls ≠ .other ∨ (∃ o, JTypeOp.fromStr op = some o) ∧ cls ≠ .other ∨
  (∃ o, RTypeOp.fromStr op = some o) ∧ (cls = .other → ∃ e, takeBytes (Unicode.lower op) (byteLen op - 2) = some e ∧ e ∈ Names.floatStems) ∨
  cls = .word ∨
  ∃ e, takeBytes (Unicode.lower op) (byteLen op - 2) = some e ∧ startsWith c!"c." e = true ∧
    ∃ f, op.getLast? = some f ∧ (∃ o, RTypeOp.fromStr (c!"C." ++ [f]) = some o) ∧
      ∃ cond, (split '.' op)[1]? = some cond ∧ Unicode.lower cond ∈ Names.conds

theorem floatCond_ok [Unicode] {x : Ctx} {cond : Str} {v : Word} (h : parseFloatCond x cond = .ok v) : Unicode.lower cond ∈ Names.conds := by
  unfold parseFloatCond at h
  split at h
  · rename_i e he
    have h1 := List.find?_some he
    have h2 := List.mem_of_find?_eq_some he
    simp only [beq_iff_eq] at h1
    rw [← h1]
    have : e.1 ∈ floatConds := by
      obtain ⟨i, hi⟩ := List.getElem?_of_mem h2
      simp at hi
      obtain ⟨a, ha, rfl⟩ := hi
      exact List.mem_of_getElem? ha
    exact this
  · cases h

set_option maxHeartbeats 4000000 in
theorem parseArm_name [Unicode] (x : Ctx) (cls : Cls) (op arg : Str) : RPost (parseArm x cls op arg) (fun _ => NameOk cls op) := by
  unfold parseArm
  generalize split ',' arg = args
  have armI : ∀ {a b : Register} {w : W Immediate}, cls ≠ .other → RPost (mkI op a b w) (fun _ => NameOk cls op) := by
    intro a b w h1
    exact rpost_mkI (Q := fun _ => True) (fun _ _ => trivial) fun o i ho hi => .inl ⟨⟨o, ho⟩, h1⟩
  have armR : ∀ {a b c : Register}, cls ≠ .other → RPost (mkR op a b c) (fun _ => NameOk cls op) := by
    intro a b c h1
    exact rpost_mkR fun o ho => .inr (.inr (.inl ⟨⟨o, ho⟩, fun h => absurd h h1⟩))
  cases cls
  case other =>
    simp only [parseFloat]
    split
    · exact rpost_panic
    · split
      · exact rpost_panic
      · rename_i e he
        split
        · rename_i hs
          split
          · exact rpost_any fun _ => rpost_any fun _ => rpost_any fun _ => rpost_mkR fun o ho =>
              .inr (.inr (.inl ⟨⟨o, ho⟩, fun _ => ⟨e, he, by revert hs; simp [Names.floatStems]; grind⟩⟩))
          · exact rpost_bad
        · split
          · rename_i hs
            split
            · exact rpost_any fun _ => rpost_any fun _ => rpost_mkR fun o ho =>
                .inr (.inr (.inl ⟨⟨o, ho⟩, fun _ => ⟨e, he, by revert hs; simp [Names.floatStems]; grind⟩⟩))
            · exact rpost_bad
          · split
            · rename_i hs
              split
              · refine rpost_any fun _ => rpost_any fun _ => ?_
                split
                · exact rpost_panic
                · rename_i f hf
                  refine rpost_bind rpost_opR fun o ho => ?_
                  split
                  · exact rpost_panic
                  · rename_i cond hcond
                    refine rpost_bind (Q := fun v => parseFloatCond x cond = .ok v) (fun _ h => h) fun v hv => rpost_pure ?_
                    exact .inr (.inr (.inr (.inr ⟨e, he, hs, f, hf, ⟨o, ho⟩, cond, hcond, floatCond_ok hv⟩)))
              · exact rpost_bad
            · exact rpost_fail
  case word =>
    intro _ _
    exact .inr (.inr (.inr (.inl rfl)))
  case jump =>
    simp only
    split
    · exact rpost_any fun _ => rpost_any fun _ => rpost_any fun _ => rpost_bind rpost_opJ fun o ho =>
        rpost_pure (.inr (.inl ⟨⟨o, ho⟩, by decide⟩))
    · exact rpost_bad
  case shift =>
    simp only
    split
    · refine rpost_any fun _ => rpost_any fun _ => rpost_bind rpost_opR fun o ho => ?_
      split
      · exact rpost_panic
      · exact rpost_pure (.inr (.inr (.inl ⟨⟨o, ho⟩, fun h => by cases h⟩)))
    · exact rpost_bad
  case code =>
    simp only
    split
    · refine rpost_any fun _ => rpost_bind rpost_opR fun o ho => ?_
      split
      · exact rpost_panic
      · exact rpost_pure (.inr (.inr (.inl ⟨⟨o, ho⟩, fun h => by cases h⟩)))
    · exact rpost_bad
  all_goals simp only [parseBranch0, parseLi]
  all_goals repeat' first
    | with_reducible exact armI (by decide)
    | with_reducible exact armR (by decide)
    | with_reducible exact rpost_bad
    | with_reducible exact rpost_panic
    | with_reducible exact rpost_fail
    | with_reducible refine rpost_any fun _ => ?_
    | split

theorem opNames_ok : (∀ o ∈ ITypeOp.all, mnOk (o.name.map asciiLower) = true) ∧ (∀ o ∈ JTypeOp.all, mnOk (o.name.map asciiLower) = true) ∧
    (∀ o ∈ RTypeOp.all, mnOk (o.name.map asciiLower) = true ∧ ((o.name.map asciiLower).take (o.name.length - 2) ∈ Names.floatStems →
      classify (o.name.map asciiLower) = .other → o.name.map asciiLower ∈ Names.all) ∧
      (o.name.length = 3 → (o.name.map asciiLower).take 2 = c!"c." → (o.name.map asciiLower).getLast? = some 's' ∨ (o.name.map asciiLower).getLast? = some 'd')) := by
  decide +kernel

theorem cls_ok : ∀ e ∈ clsTable, ∀ n ∈ e.2, n ∈ Names.all := by decide +kernel

theorem classify_known {key : Str} (h : classify key ≠ .other) : key ∈ Names.all := by
  unfold classify at h
  split at h
  · rename_i e he
    have h1 := List.find?_some he
    have h2 := List.mem_of_find?_eq_some he
    exact cls_ok e h2 key (by simpa using h1)
  · exact absurd rfl h

theorem fromStrI_mn {s : Str} {o : ITypeOp} (h : ITypeOp.fromStr s = some o) : Mn s (o.name.map asciiLower) := by
  have h1 := List.find?_some h
  simp only [eqIgnoreCase, beq_iff_eq] at h1
  exact ⟨h1, opNames_ok.1 o (ITypeOp.mem_all o)⟩
theorem fromStrJ_mn {s : Str} {o : JTypeOp} (h : JTypeOp.fromStr s = some o) : Mn s (o.name.map asciiLower) := by
  have h1 := List.find?_some h
  simp only [eqIgnoreCase, beq_iff_eq] at h1
  exact ⟨h1, opNames_ok.2.1 o (JTypeOp.mem_all o)⟩
theorem fromStrR_mn {s : Str} {o : RTypeOp} (h : RTypeOp.fromStr s = some o) : Mn s (o.name.map asciiLower) := by
  have h1 := List.find?_some h
  simp only [eqIgnoreCase, beq_iff_eq] at h1
  exact ⟨h1, (opNames_ok.2.2 o (RTypeOp.mem_all o)).1⟩

theorem takeBytes_prefix : ∀ {s : Str} {n : Nat} {e : Str}, takeBytes s n = some e → e <+: s := by
  intro s
  induction s with
  | nil => intro n e h; cases n <;> simp [takeBytes] at h; subst h; exact List.nil_prefix
  | cons c s ih =>
    intro n e h
    cases n with
    | zero => simp [takeBytes] at h; subst h; exact List.nil_prefix
    | succ n =>
      simp only [takeBytes] at h
      split at h
      · cases ht : takeBytes s (n + 1 - c.utf8Size) with
        | none => rw [ht] at h; cases h
        | some e' =>
          rw [ht] at h
          cases h
          exact List.cons_prefix_cons.2 ⟨rfl, ih ht⟩
      · cases h

theorem parseArm_word [Unicode] {x : Ctx} {op arg : Str} {p : Instruction} (h : (parseArm x .word op arg).res = .ok p) : ∃ w, p = .bytes w := by
  have : RPost (parseArm x .word op arg) (fun p => ∃ w, p = .bytes w) := by
    unfold parseArm
    simp only
    refine rpost_any fun i => ?_
    split
    · exact rpost_panic
    · exact rpost_pure ⟨_, rfl⟩
  exact this p h

/-- **C32, no code for unknown mnemonics.**  If a program assembles, the first word of every instruction line is a
mnemonic of the language (in some letter case), except for words that resemble a floating-point comparison. -/
theorem C32_accepted [Unicode] {rt : Rt} {m : Mipsasm} {text : Str} {is : List Instruction} {ws : List ParserWarning}
    (h : assemble rt m text = .ok is ws) {k : Nat} {raw : Str} (hk : (lines text)[k]? = some raw) (hc : kind raw = .code) :
    (∃ mn ∈ Names.all, Names.Calls (body raw) mn) ∨ Names.CompareLike (firstWord (body raw)) := by
  obtain ⟨tr, x, ws, p, a, b, hT, he, hx, hat, htk, hp, hadj, henc, hasm, _, _⟩ := line_done h hk hc
  have hres : (parseInst x (body raw)).res = .ok p := by rw [hp]
  rw [parseInst_eq x (kind_code_ne hc)] at hres
  have known : ∀ {mn : Str}, Mn (firstWord (body raw)) mn → classify (mnemonic (body raw)) ≠ .other →
      (∃ mn ∈ Names.all, Names.Calls (body raw) mn) ∨ Names.CompareLike (firstWord (body raw)) := by
    intro mn hm hcl
    rw [show mnemonic (body raw) = mn from hm.key] at hcl
    exact .inl ⟨mn, classify_known hcl, hm.same⟩
  rcases parseArm_name x _ _ _ p hres with ⟨⟨o, ho⟩, hcl⟩ | ⟨⟨o, ho⟩, hcl⟩ | ⟨⟨o, ho⟩, hcl⟩ | hcl | ⟨e, he, hs, f, hf, ⟨o, ho⟩, cond, hcond, hl⟩
  · exact known (fromStrI_mn ho) hcl
  · exact known (fromStrJ_mn ho) hcl
  · by_cases hot : classify (mnemonic (body raw)) = .other
    · obtain ⟨e, he, hst⟩ := hcl hot
      have hm := fromStrR_mn ho
      have hl : (firstWord (body raw)).length = (o.name.map asciiLower).length := by rw [← hm.same, List.length_map]
      have ha : ∀ c ∈ o.name.map asciiLower, isAscii c = true := fun c hc => ((mn_all hm.ok).2.1 c hc).1
      have ha' : ∀ c ∈ firstWord (body raw), isAscii c = true := sameName_ascii hm.same ha
      rw [hm.lower, byteLen_ascii _ ha', hl, takeBytes_ascii _ ha _ (Nat.sub_le _ _)] at he
      cases he
      rw [List.length_map] at hst
      rw [show mnemonic (body raw) = _ from hm.key] at hot
      exact .inl ⟨_, (opNames_ok.2.2 o (RTypeOp.mem_all o)).2.1 hst hot, hm.same⟩
    · exact known (fromStrR_mn ho) hot
  · exfalso
    rw [hcl] at hres
    obtain ⟨w, rfl⟩ := parseArm_word hres
    simp [adjust1] at hadj
    subst hadj
    simp [assembleInst, Instruction.pushBytes, encode] at hasm
  · refine .inr ⟨?_, cond, f, hcond, hl, hf, ?_⟩
    · obtain ⟨t, ht⟩ := takeBytes_prefix he
      unfold startsWith at hs
      obtain ⟨u, hu⟩ := List.isPrefixOf_iff_prefix.1 hs
      rw [← ht, ← hu]
      rfl
    · have hm := fromStrR_mn ho
      have h3 := (opNames_ok.2.2 o (RTypeOp.mem_all o)).2.2
      have hsame : (c!"C." ++ [f]).map asciiLower = o.name.map asciiLower := hm.same
      rw [← hsame] at h3
      have hlen : o.name.length = 3 := by
        have := congrArg List.length hsame
        simpa using this.symm
      rcases h3 hlen rfl with h | h
      · left; simpa using h
      · right; simpa using h

example : ∃ is ws, @assemble asciiUnicode (idRt true) Mipsasm.new c!"Add.S $f0, $f1, $f2" = .ok is ws :=
  ⟨[.reg .AddS 1 2 0 0 [0x46020800#32]], [], by decide +kernel⟩

theorem stem_none {e : Str} (h1 : e ∉ Names.floatStems) (h2 : e.take 2 ≠ c!"c.") : stemCount e = none := by
  unfold stemCount
  have a1 : ([c!"add", c!"sub", c!"mul", c!"div"].contains e) = false := by
    cases hc : [c!"add", c!"sub", c!"mul", c!"div"].contains e with
    | false => rfl
    | true => exfalso; apply h1; revert hc; simp [Names.floatStems]; grind
  have a2 : ([c!"abs", c!"ceil.l", c!"ceil.w", c!"cvt.d", c!"cvt.l", c!"cvt.s", c!"cvt.w",
        c!"floor.l", c!"floor.w", c!"mov", c!"neg", c!"round.l", c!"round.w", c!"sqrt", c!"trunc.l",
        c!"trunc.w"].contains e) = false := by
    generalize hL : [c!"abs", c!"ceil.l", c!"ceil.w", c!"cvt.d", c!"cvt.l", c!"cvt.s", c!"cvt.w",
        c!"floor.l", c!"floor.w", c!"mov", c!"neg", c!"round.l", c!"round.w", c!"sqrt", c!"trunc.l",
        c!"trunc.w"] = L
    cases hc : L.contains e with
    | false => rfl
    | true =>
      exfalso; apply h1
      have hs : ∀ a ∈ L, a ∈ Names.floatStems := by subst hL; decide
      exact hs e (by simpa using hc)
  have a3 : startsWith c!"c." e = false := by
    cases hc : startsWith c!"c." e with
    | false => rfl
    | true =>
      exfalso; apply h2
      unfold startsWith at hc
      obtain ⟨u, hu⟩ := List.isPrefixOf_iff_prefix.1 hc
      rw [← hu]; rfl
  rw [a1, a2, a3]; rfl

theorem lower_lower (c : Char) : asciiLower (asciiLower c) = asciiLower c := by
  apply Char.ext
  apply UInt32.toNat_inj.1
  have h1 := asciiLower_toNat c
  have h2 := asciiLower_toNat (asciiLower c)
  show (asciiLower (asciiLower c)).toNat = (asciiLower c).toNat
  rw [h2, h1]
  split
  · split <;> omega
  · rfl

theorem lower_ascii' {c : Char} (h : isAscii c = true) : isAscii (asciiLower c) = true :=
  ascii_case (c := c) h (lower_lower c).symm

theorem ascii_lt {c : Char} (h : isAscii c = true) : c.toNat < 128 := by
  unfold isAscii at h
  simp only [decide_eq_true_eq] at h
  exact h

theorem float_unknown [Unicode] (x : Ctx) {op mn : Str} (ha' : ∀ c ∈ op, isAscii c = true) (hmn : op.map asciiLower = mn) (h2 : 2 ≤ mn.length)
    (h : stemCount (mn.take (mn.length - 2)) = none) (arg : Str) : parseArm x .other op arg = W.fail (.invalidOpcode x.line op) := by
  have ha : ∀ c ∈ mn, isAscii c = true := by
    rw [← hmn]; intro c hc
    obtain ⟨d, hd, rfl⟩ := List.mem_map.1 hc
    exact lower_ascii' (ha' d hd)
  have hl : op.length = mn.length := by rw [← hmn, List.length_map]
  have hlow : Unicode.lower op = mn := by rw [Unicode.lower_ascii op ha', hmn]
  unfold parseArm parseFloat
  simp only [hlow, byteLen_ascii op ha', hl, if_neg (Nat.not_lt.2 h2), takeBytes_ascii mn ha _ (Nat.sub_le _ _)]
  revert h
  generalize mn.take (mn.length - 2) = e
  unfold stemCount
  intro h
  split at h
  · cases h
  · rename_i c1
    rw [if_neg c1]
    split at h
    · cases h
    · rename_i c2
      rw [if_neg c2]
      split at h
      · cases h
      · rename_i c3
        rw [if_neg c3]

theorem parse_unknown [Unicode] (x : Ctx) {s : Str} (hs : s ≠ []) (h : Names.Unknown (firstWord s)) :
    parseInst x s = W.fail (.invalidOpcode x.line (firstWord s)) := by
  have ha : ∀ c ∈ firstWord s, isAscii c = true := fun c hc => (h.visible c hc).1
  have hw : ∀ c ∈ (firstWord s).map asciiLower, isWs c = false := by
    intro c hc
    obtain ⟨d, hd, rfl⟩ := List.mem_map.1 hc
    have h1 := (h.visible d hd).2
    have a1 := ascii_lt (ha d hd)
    have a2 := ascii_lt (lower_ascii' (ha d hd))
    rw [← Bool.not_eq_true, isWs_toNat _ a1] at h1
    rw [← Bool.not_eq_true, isWs_toNat _ a2, asciiLower_toNat]
    split <;> omega
  have hmn : mnemonic s = (firstWord s).map asciiLower := by
    unfold mnemonic
    rw [Unicode.lower_ascii _ ha, trim_tight]
    refine ⟨?_, fun c hc => hw c (List.mem_of_head? hc), fun c hc => hw c (List.mem_of_getLast? hc)⟩
    intro e
    have h1 := congrArg List.length e
    have h2 := h.long
    rw [List.length_map, List.length_nil] at h1
    omega
  have hcl : classify (mnemonic s) = .other := by
    cases hc : decide (classify (mnemonic s) = .other) with
    | true => exact of_decide_eq_true hc
    | false => exact absurd (classify_known (of_decide_eq_false hc)) (by rw [hmn]; exact h.unknown)
  rw [parseInst_eq x hs, hcl]
  exact float_unknown x ha rfl (by simpa using h.long) (by rw [List.length_map]; exact stem_none h.stem h.compare) _

/-- **C32** (all words but single characters, words with invisible or non-ASCII characters, and words that resemble a
floating-point mnemonic).  A line whose first word is no mnemonic is reported with `InvalidOpcode`. -/
theorem C32_unknown_partial [Unicode] (rt : Rt) (m : Mipsasm) (text : Str) {k : Nat} {raw : Str} (hk : (lines text)[k]? = some raw)
    (hc : kind raw = .code) (hu : Names.Unknown (firstWord (body raw))) :
    Names.Reports (assemble rt m text) (.invalidOpcode ⟨k + 1, raw⟩ (firstWord (body raw))) := by
  refine line_reported hk hc fun x hx => ?_
  rw [parse_unknown x (kind_code_ne hc) hu]
  show Res.err (ParserError.invalidOpcode x.line _) = _
  rw [hx.line]

/-- The same for a file of a single line, where the call certainly returns. -/
theorem C32_unknown_alone [Unicode] (rt : Rt) (m : Mipsasm) {text raw : Str} (hl : lines text = [raw])
    (hc : kind raw = .code) (hu : Names.Unknown (firstWord (body raw))) :
    assemble rt m text = .err [.invalidOpcode ⟨1, raw⟩ (firstWord (body raw))] [] := by
  refine alone_reported hl hc fun x hx _ _ => ?_
  rw [parse_unknown x (kind_code_ne hc) hu]
  show (⟨[], Res.err (ParserError.invalidOpcode x.line _)⟩ : W _) = _
  rw [hx.line]

example [Unicode] (rt : Rt) (m : Mipsasm) : assemble rt m c!"  Frob $a0, 1 ; x" =
    .err [.invalidOpcode ⟨1, c!"  Frob $a0, 1 ; x"⟩ c!"Frob"] [] :=
  C32_unknown_alone rt m (raw := c!"  Frob $a0, 1 ; x") rfl (by decide) ⟨by decide, by decide, by decide +kernel, by decide, by decide⟩

/-- **C32, counterexamples**: the word `c.eq.zzs` is accepted as `c.eq.s`; the words `x`, `add.x` and `c.eq.x` make the
call panic. -/
theorem C32_wrong :
    (@assemble asciiUnicode (idRt true) Mipsasm.new c!"c.eq.zzs $f0, $f1").words = some [0x46010032#32] ∧
    (@assemble asciiUnicode (idRt true) Mipsasm.new c!"c.eq.s $f0, $f1").words = some [0x46010032#32] ∧
    @assemble asciiUnicode (idRt true) Mipsasm.new c!"x" = .panic ∧
    @assemble asciiUnicode (idRt true) Mipsasm.new c!"add.x $f0, $f1, $f2" = .panic ∧
    @assemble asciiUnicode (idRt true) Mipsasm.new c!"c.eq.x $f0, $f1" = .panic := by
  refine ⟨?_, ?_, ?_, ?_, ?_⟩ <;> decide +kernel

end Mips
