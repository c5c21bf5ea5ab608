/- Verdicts of the remaining steps (for C56): addresses in memory, wide numbers, shift amounts, targets, mnemonics. -/
import Verif.Lemmas.LangL4
import Verif.Props.Shift

namespace Mips
open Source Syntax Branch Operands Isa
open Mips.Names hiding none

section
variable [Unicode] {p : Lang.Place} {x : Ctx} {α β : Type}

/-! ### the mnemonic -/

/-- the mnemonic behind the first word -/
def mnOf (w : Str) : Str := trim (Unicode.lower w)

omit [Unicode] in
theorem names_tight : (∀ o ∈ ITypeOp.all, ∀ c ∈ o.name.map asciiLower, isWs c = false) ∧ (∀ o ∈ RTypeOp.all, ∀ c ∈ o.name.map asciiLower, isWs c = false) ∧
    (∀ o ∈ JTypeOp.all, ∀ c ∈ o.name.map asciiLower, isWs c = false) := by decide +kernel

omit [Unicode] in
theorem noWs_trim {w : Str} (h : ∀ c ∈ w, isWs c = false) : trim w = w := by
  cases w with
  | nil => rfl
  | cons c w =>
    refine trim_tight _ ⟨by simp, ?_, ?_⟩
    · intro d hd; exact h d (by simp at hd; simp [hd])
    · intro d hd; exact h d (List.mem_of_getLast? hd)

omit [Unicode] in
theorem same_noWs {w n : Str} (h : eqIgnoreCase w n = true) (hn : ∀ c ∈ n.map asciiLower, isWs c = false) : trim w = w := by
  unfold eqIgnoreCase at h
  rw [beq_iff_eq] at h
  refine noWs_trim fun c hc => asciiLower_ws c (hn _ ?_)
  rw [← h]; exact List.mem_map_of_mem hc

omit [Unicode] in
theorem upper_facts : ∀ n < 26, isWs (Char.ofNat (n + 97)) = false ∧ isWs (Char.ofNat (n + 65)) = false ∧ Char.ofNat (n + 97) ≠ '.' := by decide
omit [Unicode] in
theorem upper_char {c : Char} (h : (decide (65 ≤ c.val) && decide (c.val ≤ 90)) = true) : ∃ n < 26, c = Char.ofNat (n + 65) ∧ Char.ofNat (c.toNat + 32) = Char.ofNat (n + 97) := by
  have hr1 : 65 ≤ c.toNat ∧ c.toNat ≤ 90 := by simpa [UInt32.le_iff_toNat_le] using h
  refine ⟨c.toNat - 65, by omega, ?_, ?_⟩
  · rw [show c.toNat - 65 + 65 = c.toNat by omega, Char.ofNat_toNat]
  · rw [show c.toNat - 65 + 97 = c.toNat + 32 by omega]

omit [Unicode] in
theorem trim_lower (w : Str) : trim (w.map asciiLower) = (trim w).map asciiLower := by
  have hws : ∀ c, isWs (asciiLower c) = isWs c := by
    intro c
    unfold asciiLower
    split
    · rename_i hr
      obtain ⟨n, hn, e1, e2⟩ := upper_char hr
      rw [e2, (upper_facts n hn).1, e1, (upper_facts n hn).2.1]
    · rfl
  have hs : ∀ w : Str, trimStart (w.map asciiLower) = (trimStart w).map asciiLower := by
    intro w
    unfold trimStart
    induction w with
    | nil => rfl
    | cons c w ih =>
      simp only [List.map_cons, List.dropWhile, hws]
      cases isWs c <;> simp [ih]
  have he : ∀ w : Str, trimEnd (w.map asciiLower) = (trimEnd w).map asciiLower := by
    intro w
    induction w with
    | nil => rfl
    | cons c w ih =>
      simp only [List.map_cons, trimEnd, ih]
      cases trimEnd w with
      | nil => simp only [List.map_nil, hws]; split <;> rfl
      | cons d t => rfl
  unfold trim
  rw [hs, he]

theorem mnOf_ascii {w : Str} (h : AsciiS w) : mnOf w = (trim w).map asciiLower := by
  unfold mnOf; rw [Unicode.lower_ascii w h, trim_lower]

omit [Unicode] in
theorem names_ascii : (∀ o ∈ ITypeOp.all, ∀ c ∈ o.name.map asciiLower, isAscii c = true) ∧ (∀ o ∈ RTypeOp.all, ∀ c ∈ o.name.map asciiLower, isAscii c = true) ∧
    (∀ o ∈ JTypeOp.all, ∀ c ∈ o.name.map asciiLower, isAscii c = true) := by decide +kernel

omit [Unicode] in
theorem same_ascii {w n : Str} (h : eqIgnoreCase w n = true) (hn : ∀ c ∈ n.map asciiLower, isAscii c = true) : AsciiS w := by
  unfold eqIgnoreCase at h
  rw [beq_iff_eq] at h
  intro c hc
  have := hn (asciiLower c) (by rw [← h]; exact List.mem_map_of_mem hc)
  rw [isAscii_toNat, asciiLower_toNat] at this
  rw [isAscii_toNat]
  split at this <;> omega

theorem mnOf_lower {w : Str} (h : AsciiS w) : (mnOf w).map asciiLower = mnOf w := by
  rw [mnOf_ascii h, List.map_map]
  congr 1
  funext c
  exact lower_lower c

theorem fromI {w : Str} {o : ITypeOp} (ho : ITypeOp.fromStr (mnOf w) = some o) :
    (trim w = w ∧ AsciiS w → ITypeOp.fromStr w = some o) ∧ (¬ (trim w = w ∧ AsciiS w) → ITypeOp.fromStr w = none) := by
  constructor
  · rintro ⟨h, ha⟩
    rw [fromStr_lowerI (mn := mnOf w) (by unfold SameName; rw [mnOf_ascii ha, h]) (mnOf_lower ha), ho]
  · intro h
    unfold ITypeOp.fromStr
    rw [List.find?_eq_none]
    intro o ho' he
    exact h ⟨same_noWs he (names_tight.1 o ho'), same_ascii he (names_ascii.1 o ho')⟩

theorem fromR {w : Str} {o : RTypeOp} (ho : RTypeOp.fromStr (mnOf w) = some o) :
    (trim w = w ∧ AsciiS w → RTypeOp.fromStr w = some o) ∧ (¬ (trim w = w ∧ AsciiS w) → RTypeOp.fromStr w = none) := by
  constructor
  · rintro ⟨h, ha⟩
    rw [fromStr_lowerR (mn := mnOf w) (by unfold SameName; rw [mnOf_ascii ha, h]) (mnOf_lower ha), ho]
  · intro h
    unfold RTypeOp.fromStr
    rw [List.find?_eq_none]
    intro o ho' he
    exact h ⟨same_noWs he (names_tight.2.1 o ho'), same_ascii he (names_ascii.2.1 o ho')⟩

theorem fromJ {w : Str} {o : JTypeOp} (ho : JTypeOp.fromStr (mnOf w) = some o) :
    (trim w = w ∧ AsciiS w → JTypeOp.fromStr w = some o) ∧ (¬ (trim w = w ∧ AsciiS w) → JTypeOp.fromStr w = none) := by
  constructor
  · rintro ⟨h, ha⟩
    rw [fromStr_lowerJ (mn := mnOf w) (by unfold SameName; rw [mnOf_ascii ha, h]) (mnOf_lower ha), ho]
  · intro h
    unfold JTypeOp.fromStr
    rw [List.find?_eq_none]
    intro o ho' he
    exact h ⟨same_noWs he (names_tight.2.2 o ho'), same_ascii he (names_ascii.2.2 o ho')⟩

theorem verd_opI {w : Str} (he : (ITypeOp.fromStr (mnOf w)).isSome = true) : Verd (opI w) (Lang.Reads p (.name w)) (Lang.Crashes p (.name w)) (Lang.Complains p x.line (.name w)) := by
  show Verd _ (trim w = w ∧ AsciiS w) (¬ (trim w = w ∧ AsciiS w)) _
  obtain ⟨o, ho⟩ := Option.isSome_iff_exists.1 he
  by_cases h : trim w = w ∧ AsciiS w
  · exact verd_ok (a := o) (by unfold opI; rw [(fromI ho).1 h]; rfl) h (fun e => e h)
  · exact verd_panic (by unfold opI; rw [(fromI ho).2 h]; rfl) h h
theorem verd_opR {w : Str} (he : (RTypeOp.fromStr (mnOf w)).isSome = true) : Verd (opR w) (Lang.Reads p (.name w)) (Lang.Crashes p (.name w)) (Lang.Complains p x.line (.name w)) := by
  show Verd _ (trim w = w ∧ AsciiS w) (¬ (trim w = w ∧ AsciiS w)) _
  obtain ⟨o, ho⟩ := Option.isSome_iff_exists.1 he
  by_cases h : trim w = w ∧ AsciiS w
  · exact verd_ok (a := o) (by unfold opR; rw [(fromR ho).1 h]; rfl) h (fun e => e h)
  · exact verd_panic (by unfold opR; rw [(fromR ho).2 h]; rfl) h h
theorem verd_opJ {w : Str} (he : (JTypeOp.fromStr (mnOf w)).isSome = true) : Verd (opJ w) (Lang.Reads p (.name w)) (Lang.Crashes p (.name w)) (Lang.Complains p x.line (.name w)) := by
  show Verd _ (trim w = w ∧ AsciiS w) (¬ (trim w = w ∧ AsciiS w)) _
  obtain ⟨o, ho⟩ := Option.isSome_iff_exists.1 he
  by_cases h : trim w = w ∧ AsciiS w
  · exact verd_ok (a := o) (by unfold opJ; rw [(fromJ ho).1 h]; rfl) h (fun e => e h)
  · exact verd_panic (by unfold opJ; rw [(fromJ ho).2 h]; rfl) h h

omit [Unicode] in
theorem opR_noErr (w : Str) : ∀ e, (opR w).res ≠ .err e := by
  intro e; unfold opR W.lift; cases RTypeOp.fromStr w <;> (intro h; cases h)

theorem vs_mkR {w : Str} (he : (RTypeOp.fromStr (mnOf w)).isSome = true) {a b c : Register} : VS p x.line (mkR w a b c) [.name w] :=
  vs_cons (verd_opR he) fun _ _ => vs_nil rfl
theorem vs_mkI {w : Str} (he : (ITypeOp.fromStr (mnOf w)).isSome = true) {a b : Register} {i : W Immediate} {st : Lang.Step}
    (hi : Verd i (Lang.Reads p st) (Lang.Crashes p st) (Lang.Complains p x.line st)) : VS p x.line (mkI w a b i) [.name w, st] :=
  vs_cons (verd_opI he) fun _ _ => vs_cons hi fun _ _ => vs_nil rfl
theorem vs_mkI' {w : Str} (he : (ITypeOp.fromStr (mnOf w)).isSome = true) {a b : Register} {i : Immediate} : VS p x.line (mkI w a b (pure i)) [.name w] :=
  vs_cons (verd_opI he) fun _ _ => vs_after (w := (pure i : W Immediate)) rfl (vs_nil rfl)

/-! ### li, liu -/

theorem vs_word32 (hx : Sees p x) {s : Str} (hn : '\n' ∉ s) {F : Immediate → W β} {st : List Lang.Step}
    (hF : ∀ i, VS p x.line (F i) st) :
    VS p x.line ((W.lift (parseImm x .i64 s) : W Immediate) >>= fun i => match i.asU64 with
      | none => W.panic | some v => if 0xFFFFFFFF < v.toNat then W.fail (.invalidImmediate x.line s) else F i) (.word32 s :: st) := by
  have e : Lang.wide = rangeOf .i64 := rfl
  apply vs_step
  · rintro ⟨hr, v, hv, hv0, hv1⟩
    rw [e] at hv
    rcases imm_case hx .i64 hn with ⟨i, h1, h2, _, _⟩ | ⟨h1, h2, h3, h4⟩ | ⟨i, v', h1, h2, h3, h5, h4⟩ | ⟨e, h1, h2, h3, h4, h6⟩
    · exact absurd h1 hr
    · exact absurd hv (h3 v)
    · refine ⟨fun h => h.elim h1 h2, ?_⟩
      obtain ⟨w, hw, hb⟩ := has_i64 (h5 v hv)
      rw [h4]
      refine vs_after (w := W.lift (.ok i)) rfl ?_
      rw [hw]
      simp only []
      rw [if_neg (fun h => hb.1 h ⟨hv0, hv1⟩)]
      exact hF i
    · exact absurd hv (h3 v)
  · intro hb
    rcases imm_case hx .i64 hn with ⟨i, h1, h2, _, h3⟩ | ⟨h1, h2, h3, h4⟩ | ⟨i, v', h1, h2, h3, h5, h4⟩ | ⟨e, h1, h2, h3, h4, h6⟩
    · refine verd_panic ?_ id (.inl h1)
      rw [h2]
      show (match i.asU64 with | none => W.panic | some v => if 0xFFFFFFFF < v.toNat then W.fail (.invalidImmediate x.line s) else F i).res = _
      rw [h3]; rfl
    · exact verd_panic (by rw [h4]; rfl) id (.inr h2)
    · obtain ⟨w, hw, hc⟩ := has_i64 (h5 v' h3)
      refine verd_err (e := .invalidImmediate x.line s) ?_ id (fun h => h.elim h1 h2) (.inl ⟨⟨v', h3⟩, rfl⟩)
      rw [h4]
      show (match i.asU64 with | none => W.panic | some v => if 0xFFFFFFFF < v.toNat then W.fail (.invalidImmediate x.line s) else F i).res = _
      rw [hw]
      simp only []
      rw [if_pos (hc.2 fun h => hb ⟨h1, v', h3, h.1, h.2⟩)]
      rfl
    · exact verd_err (e := e) (by rw [h4]; rfl) id (fun h => h.elim h1 h2) (.inr ⟨h3, h6⟩)

/-! ### cache -/

theorem verd_cop (hx : Sees p x) {s : Str} (hn : '\n' ∉ s) :
    Verd (((W.lift (parseImm x .u16 s) : W Immediate) >>= fun i => match i.asU32 with
      | none => W.panic | some v => W.lift (Res.unwrap (Register.tryFrom v.toNat))) : W Register) (Lang.Reads p (.cop s)) (Lang.Crashes p (.cop s)) (Lang.Complains p x.line (.cop s)) := by
  have e : Lang.uimm = rangeOf .u16 := rfl
  show Verd _ (¬ Lang.RefersTo p s ∧ ∃ v, Lang.Value p Lang.uimm s v ∧ v < 32) (Lang.RefersTo p s ∨ Lang.Breaks p s ∨ ∃ v, Lang.Value p Lang.uimm s v ∧ 32 ≤ v) _
  rw [e]
  rcases imm_case hx .u16 hn with ⟨i, h1, h2, h3, _⟩ | ⟨h1, h2, h3, h4⟩ | ⟨i, v', h1, h2, h3, h5, h4⟩ | ⟨e, h1, h2, h3, h4, h6⟩
  · refine verd_panic ?_ (fun h => h.1 h1) (.inl h1)
    rw [h2]
    show (match i.asU32 with | none => W.panic | some v => W.lift (Res.unwrap (Register.tryFrom v.toNat))).res = _
    rw [h3]; rfl
  · exact verd_panic (by rw [h4]; rfl) (by simp [h3]) (.inr (.inl h2))
  · obtain ⟨w, hw, hv⟩ := has_u16 (h5 v' h3)
    have hu : ∀ v, Lang.Value p (rangeOf .u16) s v → v = v' := by
      intro v hv2
      obtain ⟨w2, hw2, hv3⟩ := has_u16 (h5 v hv2)
      rw [hw] at hw2; cases hw2
      exact hv3.symm.trans hv
    by_cases hlt : w.toNat < 32
    · refine verd_ok (a := ⟨w.toNat, hlt⟩) ?_ ⟨h1, v', h3, by omega⟩ ?_
      · rw [h4]
        show (match i.asU32 with | none => W.panic | some v => W.lift (Res.unwrap (Register.tryFrom v.toNat))).res = _
        rw [hw]
        show Res.unwrap (Register.tryFrom w.toNat) = _
        unfold Register.tryFrom
        rw [dif_pos hlt]; rfl
      · rintro (h | h | ⟨v, h, h32⟩)
        · exact h1 h
        · exact h2 h
        · rw [hu v h] at h32; omega
    · refine verd_panic ?_ ?_ (.inr (.inr ⟨v', h3, by omega⟩))
      · rw [h4]
        show (match i.asU32 with | none => W.panic | some v => W.lift (Res.unwrap (Register.tryFrom v.toNat))).res = _
        rw [hw]
        show Res.unwrap (Register.tryFrom w.toNat) = _
        unfold Register.tryFrom
        rw [dif_neg hlt]; rfl
      · rintro ⟨_, v, h, h32⟩
        rw [hu v h] at h32; omega
  · refine verd_err (e := e) (by rw [h4]; rfl) (by simp [h3]) ?_ h6
    rintro (h | h | ⟨v, h, _⟩)
    · exact h1 h
    · exact h2 h
    · exact h3 v h

/-! ### addresses in memory -/

/-- the base register; `g` reads it -/
theorem vs_base {b : Bool} {g : Str → W α} {F : α → W β} {s : Str} {st : List Lang.Step} (hn : '\n' ∉ s)
    (hg : ∀ t, Verd (g t) (Lang.Reads p (.gpr b t)) (Lang.Crashes p (.gpr b t)) (Lang.Complains p x.line (.gpr b t))) (hF : ∀ r, VS p x.line (F r) st) :
    VS p x.line (match baseText s with | none => W.panic | some bt => g bt >>= F) (.base b s :: st) := by
  cases h : baseText s with
  | none =>
    have hno : ∀ m, ¬ Lang.BaseGroup s m := by
      intro m hm
      have := (baseText_iff hn).2 ⟨m, rfl, hm⟩
      rw [h] at this; cases this
    apply vs_step
    · rintro ⟨m, hm, _⟩; exact absurd hm (hno m)
    · intro _; exact verd_panic rfl id (.inl hno)
  | some bt =>
    obtain ⟨m, rfl, hm⟩ := (baseText_iff hn).1 h
    have hu : ∀ m', Lang.BaseGroup s m' → m' = m := fun m' hm' => baseGroup_unique hn hm' hm
    have hv := hg (trim (Lang.bare m))
    have h1 : Lang.Reads p (.base b s) ↔ Lang.Reads p (.gpr b (trim (Lang.bare m))) := by
      constructor
      · rintro ⟨m', hm', h⟩; rw [hu m' hm'] at h; exact h
      · intro h; exact ⟨m, hm, h⟩
    have h2 : Lang.Crashes p (.base b s) ↔ Lang.Crashes p (.gpr b (trim (Lang.bare m))) := by
      constructor
      · rintro (h | ⟨m', hm', h⟩)
        · exact absurd hm (h m)
        · rw [hu m' hm'] at h; exact h
      · intro h; exact .inr ⟨m, hm, h⟩
    have h3 : ∀ e, Lang.Complains p x.line (.gpr b (trim (Lang.bare m))) e → Lang.Complains p x.line (.base b s) e := by
      rintro e ⟨q, hq, he⟩; exact ⟨m, q, hm, hq, he⟩
    rw [← h1, ← h2] at hv
    exact vs_cons (verd_mono hv h3) fun a _ => hF a

theorem zero_imm (hx : Sees p x) : ∃ i, parseImm x .i16 c!"0" = .ok i := by
  have hr : Lang.RefersTo p c!"0" ∨ ¬ Lang.RefersTo p c!"0" := Classical.em _
  rcases hr with hr | hr
  · rcases parse_refers (ty := .i16) hx hr with h | h <;> exact ⟨_, h⟩
  · have hz : Lang.Value p (rangeOf .i16) c!"0" 0 := by
      refine .num 0 ?_ ?_ (by decide) (by decide)
      · rintro m ⟨a, b, e, _⟩
        have e0 : trim c!"0" = ['0'] := by decide
        rw [e0] at e
        have := congrArg List.length e
        simp at this
        omega
      · refine .inr ⟨by decide, ?_⟩
        have e0 : trim c!"0" = ['0'] := by decide
        rw [e0]
        refine .plus _ 0 (.inl ?_)
        exact Digits.one '0' 0 (by decide)
    obtain ⟨i, hi, _⟩ := value_parse hx (ty := .i16) (s := c!"0") (by decide) hr hz
    exact ⟨i, hi⟩

/-- the offset -/
theorem verd_offset (hx : Sees p x) {b : Bool} {s : Str} (hn : '\n' ∉ s) :
    Verd (match findOffset s with
      | some o => W.lift (parseImm x .i16 (if b then removeOpenParen o else o.dropLast))
      | none => W.lift (parseImm x .i16 c!"0")) (Lang.Reads p (.offset b s)) (Lang.Crashes p (.offset b s)) (Lang.Complains p x.line (.offset b s)) := by
  by_cases h : ∃ o, Lang.Offset s o
  · obtain ⟨o, ho⟩ := h
    have hu : ∀ o', Lang.Offset s o' → o' = o := fun o' ho' => offset_unique hn ho' ho
    rw [findOffset_some hn ho]
    simp only []
    have e : (if b then removeOpenParen (o ++ ['(']) else (o ++ ['(']).dropLast) = if b then o.filter (fun c => !(c == '(')) else o := by
      cases b
      · simp
      · simp [removeOpenParen]
    rw [e]
    generalize ht : (if b then o.filter (fun c => !(c == '(')) else o) = t
    have hmem : ∀ c ∈ t, c ∈ s := by
      obtain ⟨_, v, rfl, _⟩ := ho
      intro c hc
      have : c ∈ o := by
        rw [← ht] at hc
        split at hc
        · exact (List.mem_filter.1 hc).1
        · exact hc
      simp [this]
    have hv := verd_const hx (ty := .i16) (s := t) (fun hc => hn (hmem _ hc))
    have h1 : Lang.Reads p (.offset b s) ↔ Lang.Reads p (.const (rangeOf .i16) t) := by
      constructor
      · intro h
        have := h o ho
        rw [ht] at this; exact this
      · intro h o' ho'
        rw [hu o' ho', ht]; exact h
    have h2 : Lang.Crashes p (.offset b s) ↔ Lang.Crashes p (.const (rangeOf .i16) t) := by
      constructor
      · rintro ⟨o', ho', h⟩
        rw [hu o' ho', ht] at h; exact h
      · intro h
        refine ⟨o, ho, ?_⟩
        rw [ht]; exact h
    rw [h1, h2]
    refine verd_mono hv fun e he => ⟨o, ho, ?_⟩
    rw [ht]; exact he
  · have h' : ∀ o, ¬ Lang.Offset s o := fun o ho => h ⟨o, ho⟩
    rw [findOffset_none hn h']
    simp only []
    obtain ⟨i, hi⟩ := zero_imm hx
    refine verd_ok (a := i) hi ?_ ?_
    · intro o ho; exact absurd ho (h' o)
    · rintro ⟨o, ho, _⟩; exact h' o ho

theorem vs_mem (hx : Sees p x) {w s : Str} (he : (ITypeOp.fromStr (mnOf w)).isSome = true) {a b : Register} (hn : '\n' ∉ s) :
    VS p x.line (match findOffset s with
        | some o => mkI w a b (W.lift (parseImm x .i16 o.dropLast))
        | none => mkI w a b (W.lift (parseImm x .i16 c!"0"))) [.name w, .offset false s] := by
  have := vs_mkI (p := p) he (a := a) (b := b) (verd_offset hx (b := false) hn)
  cases h : findOffset s <;> rw [h] at this <;> exact this
theorem vs_fmem (hx : Sees p x) {w s : Str} (he : (ITypeOp.fromStr (mnOf w)).isSome = true) {a b : Register} (hn : '\n' ∉ s) :
    VS p x.line (match findOffset s with
        | some o => mkI w a b (W.lift (parseImm x .i16 (removeOpenParen o)))
        | none => mkI w a b (W.lift (parseImm x .i16 c!"0"))) [.name w, .offset true s] := by
  have := vs_mkI (p := p) he (a := a) (b := b) (verd_offset hx (b := true) hn)
  cases h : findOffset s <;> rw [h] at this <;> exact this

/-! ### shift amounts -/

omit [Unicode] in
theorem trimEnd_spec (ch : Char) (s : Str) : (∃ k, s = trimEndMatches ch s ++ List.replicate k ch) ∧ (trimEndMatches ch s).getLast? ≠ some ch := by
  induction s with
  | nil => exact ⟨⟨0, rfl⟩, by simp [trimEndMatches]⟩
  | cons c s ih =>
    obtain ⟨⟨k, hk⟩, hl⟩ := ih
    rw [trimEndMatches]
    cases h : trimEndMatches ch s with
    | nil =>
      rw [h] at hk
      simp only []
      by_cases hc : c = ch
      · subst hc
        refine ⟨⟨k + 1, ?_⟩, by simp⟩
        simp only [beq_self_eq_true, if_true, List.nil_append, List.replicate_succ]
        rw [hk]; simp
      · have : (c == ch) = false := by simpa using hc
        refine ⟨⟨k, ?_⟩, ?_⟩
        · simp only [this, Bool.false_eq_true, if_false]
          rw [hk]; simp
        · simp [this, hc]
    | cons d t =>
      rw [h] at hk hl
      simp only []
      refine ⟨⟨k, by rw [hk]; simp⟩, ?_⟩
      simpa using hl

omit [Unicode] in
theorem rep_unique {ch : Char} {t t' : Str} {k k' : Nat} (h : t ++ List.replicate k ch = t' ++ List.replicate k' ch) (ht : t.getLast? ≠ some ch) (ht' : t'.getLast? ≠ some ch) : t = t' := by
  induction k generalizing k' with
  | zero =>
    cases k' with
    | zero => simpa using h
    | succ k' =>
      rw [List.replicate_succ', ← List.append_assoc] at h
      simp only [List.replicate_zero, List.append_nil] at h
      exfalso; apply ht; rw [h]; simp
  | succ k ih =>
    cases k' with
    | zero =>
      rw [List.replicate_succ', ← List.append_assoc] at h
      simp only [List.replicate_zero, List.append_nil] at h
      exfalso; apply ht'; rw [← h]; simp
    | succ k' =>
      rw [List.replicate_succ', List.replicate_succ', ← List.append_assoc, ← List.append_assoc] at h
      exact ih (List.append_cancel_right h)

omit [Unicode] in
theorem digits_last {ds t : Str} {n : Nat} (h : Digits ds t n) : ∃ c, t.getLast? = some c ∧ asciiLower c ∈ ds := by
  cases h with
  | one c k hk => exact ⟨c, by simp, List.mem_of_getElem? hk⟩
  | snoc s c n k _ hk => exact ⟨c, by simp, List.mem_of_getElem? hk⟩

omit [Unicode] in
theorem signed_last {b : Bool} {t : Str} {v : Int} (h : Lang.Signed b decDigits t v) : t.getLast? ≠ some '`' := by
  have key : ∀ {t : Str} {n : Nat}, Digits decDigits t n → ∀ (u : Str), (u ++ t).getLast? ≠ some '`' := by
    intro t n h u e
    obtain ⟨c, hc, hd⟩ := digits_last h
    have : (u ++ t).getLast? = some c := by rw [List.getLast?_append, hc]; rfl
    rw [this] at e; cases e
    revert hd; decide
  cases h with
  | plus _ n hp =>
    rcases hp with h | ⟨u, rfl, h⟩
    · exact key h []
    · exact key h ['+']
  | minus s n _ h => exact key h ['-']

omit [Unicode] in
theorem shift_is {s : Str} {w : Word} : parseShift s = some w ↔ ∃ v, Lang.ShiftIs s v ∧ w = BitVec.ofInt 32 v := by
  have hd : ∀ t, (fromStrRadix .i32 10 t).map (BitVec.ofInt 32) = some w ↔ ∃ v, (Lang.Signed true decDigits t v ∧ -2147483648 ≤ v ∧ v ≤ 2147483647) ∧ w = BitVec.ofInt 32 v := by
    intro t
    constructor
    · intro h
      obtain ⟨v, hv, he⟩ := Option.map_eq_some_iff.1 h
      exact ⟨v, (signed_radix (.inl ⟨rfl, rfl⟩)).1 hv, he.symm⟩
    · rintro ⟨v, h, rfl⟩
      exact Option.map_eq_some_iff.2 ⟨v, (signed_radix (ty := .i32) (.inl ⟨rfl, rfl⟩)).2 h, rfl⟩
  have hh : ∀ t, (fromStrRadix .i32 16 t).map (BitVec.ofInt 32) = some w ↔ ∃ v, (Lang.Signed true hexDigits t v ∧ -2147483648 ≤ v ∧ v ≤ 2147483647) ∧ w = BitVec.ofInt 32 v := by
    intro t
    constructor
    · intro h
      obtain ⟨v, hv, he⟩ := Option.map_eq_some_iff.1 h
      exact ⟨v, (signed_radix (.inr ⟨rfl, rfl⟩)).1 hv, he.symm⟩
    · rintro ⟨v, h, rfl⟩
      exact Option.map_eq_some_iff.2 ⟨v, (signed_radix (ty := .i32) (.inr ⟨rfl, rfl⟩)).2 h, rfl⟩
  unfold parseShift Lang.ShiftIs
  simp only []
  generalize trim s = t
  obtain ⟨⟨k, hk⟩, hl⟩ := trimEnd_spec '`' t
  by_cases hc : (endsWith '`' t || !contains c!"0x" t) = true
  · rw [if_pos hc, hd]
    have hc' : endsWith '`' t = true ∨ contains c!"0x" t = false := by
      rw [Bool.or_eq_true] at hc
      rcases hc with h | h
      · exact .inl h
      · exact .inr (by simpa using h)
    constructor
    · rintro ⟨v, ⟨h1, h2, h3⟩, he⟩
      exact ⟨v, ⟨h2, h3, .inl ⟨hc', k, _, hk, h1⟩⟩, he⟩
    · rintro ⟨v, ⟨h2, h3, ⟨_, k', t', ht', h1⟩ | ⟨h4, h5, _⟩⟩, he⟩
      · refine ⟨v, ⟨?_, h2, h3⟩, he⟩
        rw [rep_unique (hk.symm.trans ht') hl (signed_last h1)]; exact h1
      · rw [h4, h5] at hc; cases hc
  · rw [if_neg hc, hh]
    have hc' : endsWith '`' t = false ∧ contains c!"0x" t = true := by
      cases h1 : endsWith '`' t <;> cases h2 : contains c!"0x" t <;> rw [h1, h2] at hc <;> first | exact ⟨rfl, rfl⟩ | exact absurd rfl hc
    constructor
    · rintro ⟨v, ⟨h1, h2, h3⟩, he⟩
      exact ⟨v, ⟨h2, h3, .inr ⟨hc'.1, hc'.2, h1⟩⟩, he⟩
    · rintro ⟨v, ⟨h2, h3, ⟨h4 | h4, _⟩ | ⟨h4, h5, h1⟩⟩, he⟩
      · rw [hc'.1] at h4; cases h4
      · rw [hc'.2] at h4; cases h4
      · exact ⟨v, ⟨h1, h2, h3⟩, he⟩

omit [Unicode] in
theorem shift_reads {s : Str} : (∃ w, parseShift s = some w) ↔ Lang.ShiftAmount s := by
  constructor
  · rintro ⟨w, h⟩
    obtain ⟨v, hv, _⟩ := shift_is.1 h
    exact ⟨v, hv⟩
  · rintro ⟨v, h⟩
    exact ⟨_, shift_is.2 ⟨v, h, rfl⟩⟩

theorem vs_shamt {s : Str} {F : Word → W β} (hF : ∀ v, ∃ a, (F v).res = .ok a) :
    VS p x.line (match parseShift s with | none => W.panic | some sa => F sa) [.shamt s] := by
  apply vs_last
  show Verd _ (Lang.ShiftAmount s) (¬ Lang.ShiftAmount s) _
  rw [← shift_reads]
  cases h : parseShift s with
  | none => exact verd_panic rfl (by simp) (by simp)
  | some v =>
    obtain ⟨a, ha⟩ := hF v
    exact verd_ok (a := a) ha ⟨v, rfl⟩ (by simp)

/-! ### targets -/

theorem verd_target (hx : Sees p x) {s : Str} :
    Verd (W.lift (parseTarget x (trim s))) (Lang.Reads p (.target s)) (Lang.Crashes p (.target s)) (Lang.Complains p x.line (.target s)) := by
  show Verd _ ((∃ a, Lang.Address p.syms (trim s) a) ∨ Lang.LabelName p.syms (trim s)) (Lang.Nothing p.syms (trim s)) _
  rw [← target_panic hx]
  have h1 := fun a => target_addr hx (t := trim s) (a := a)
  have h2 := fun l => target_label hx (t := trim s) (l := l)
  cases h : parseTarget x (trim s) with
  | ok t =>
    refine verd_ok (a := t) rfl ?_ (by simp)
    cases t with
    | address a => exact .inl ⟨a, (h1 a).1 h⟩
    | label l => exact .inr ((h2 l).1 h).2
  | err e =>
    refine verd_err (e := e) rfl ?_ (by simp) (target_quote h)
    rintro (⟨a, ha⟩ | hl)
    · have := (h1 a).2 ha; rw [h] at this; cases this
    · have := (h2 _).2 ⟨rfl, hl⟩; rw [h] at this; cases this
  | panic =>
    refine verd_panic rfl ?_ rfl
    rintro (⟨a, ha⟩ | hl)
    · have := (h1 a).2 ha; rw [h] at this; cases this
    · have := (h2 _).2 ⟨rfl, hl⟩; rw [h] at this; cases this

/-! ### floating point -/

theorem verd_fname {w : Str} (h : (RTypeOp.fromStr w).isSome = true ↔ ∃ sig, (w.map asciiLower, sig) ∈ signatures) :
    Verd (opR w) (Lang.Reads p (.fname w)) (Lang.Crashes p (.fname w)) (Lang.Complains p x.line (.fname w)) := by
  show Verd _ (∃ sig, (w.map asciiLower, sig) ∈ signatures) (∀ sig, (w.map asciiLower, sig) ∉ signatures) _
  rw [← not_exists, ← h]
  unfold opR
  cases h : RTypeOp.fromStr w with
  | none => exact verd_panic rfl (by simp) (by simp)
  | some o => exact verd_ok (a := o) rfl (by simp) (by simp)

omit [Unicode] in
theorem format_ops (c : Char) : (RTypeOp.fromStr (c!"C." ++ [c])).isSome = true ↔ (asciiLower c = 's' ∨ asciiLower c = 'd') := by
  unfold RTypeOp.fromStr
  rw [List.find?_isSome]
  simp only [eqIgnoreCase, beq_iff_eq]
  constructor
  · rintro ⟨o, ho, h⟩
    have key : ∀ o ∈ RTypeOp.all, ∀ d ∈ (o.name.map asciiLower).getLast?, (o.name.map asciiLower).take 2 = c!"c." → (o.name.map asciiLower).length = 3 → d = 's' ∨ d = 'd' := by
      decide +kernel
    have hl : (o.name.map asciiLower).getLast? = some (asciiLower c) := by rw [← h]; simp
    refine key o ho _ hl ?_ ?_
    · rw [← h]; simp; decide
    · rw [← h]; simp
  · have k : ∃ o ∈ RTypeOp.all, o.name.map asciiLower = c!"c.s" := by decide +kernel
    have k' : ∃ o ∈ RTypeOp.all, o.name.map asciiLower = c!"c.d" := by decide +kernel
    rintro (h | h)
    · obtain ⟨o, ho, e⟩ := k
      refine ⟨o, ho, ?_⟩
      rw [e]
      simp only [List.map_append, List.map_cons, List.map_nil, h]
      decide
    · obtain ⟨o, ho, e⟩ := k'
      refine ⟨o, ho, ?_⟩
      rw [e]
      simp only [List.map_append, List.map_cons, List.map_nil, h]
      decide

end
end Mips
