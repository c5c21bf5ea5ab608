/- C42 with exactly the names that are looked up, and C79: the names of symbols do not matter. -/
import Verif.Spec.Asked
import Verif.Props.Unused
import Verif.Props.EqualP
import Verif.Lemmas.LangL2
import Verif.Lemmas.DecorL

namespace Mips
open Source Branch Syntax Operands Asked
open Lang (Group Offset bare)

variable {x : Ctx} {syms : List (Word × Str)}

theorem parseImm_asked {ty : IntTy} {s : Str} (hn : '\n' ∉ s) (h : ∀ m, Group s m → findSym syms (bare m) = findSym x.syms (bare m)) :
    parseImm { x with syms := syms } ty s = parseImm x ty s := by
  have hn' : '\n' ∉ trim s := fun hm => hn ((trim_infix s).subset hm)
  unfold parseImm
  dsimp only
  split
  · rfl
  split
  · rfl
  split
  · rename_i m hm
    by_cases hg : ∃ m', Group s m'
    · obtain ⟨m', hg⟩ := hg
      rw [group_find hn' hg] at hm
      cases hm
      rw [bare_eq, parseTarget_near (h m' hg)]
    · rw [group_none fun m' h' => hg ⟨m', h'⟩] at hm
      cases hm
  · rfl

theorem group_trim {s m : Str} : Group (trim s) m ↔ Group s m := by
  unfold Group; rw [trim_trim]

theorem parseArm_asked [Unicode] (cls : Cls) (op arg : Str) (hn : '\n' ∉ arg)
    (hT : cls = .jump → ∀ a ∈ split ',' arg, findSym syms (trim a) = findSym x.syms (trim a))
    (hG : ∀ a ∈ arg :: split ',' arg, ∀ m, Group a m → findSym syms (bare m) = findSym x.syms (bare m))
    (hO' : ∀ a ∈ split ',' arg, ∀ o m, Offset a o → Group o m → findSym syms (bare m) = findSym x.syms (bare m)) :
    parseArm { x with syms := syms } cls op arg = parseArm x cls op arg := by
  have hp : ∀ a ∈ split ',' arg, a <:+: arg := fun a ha => infix_of_split ha
  have hA : ∀ ty, parseImm { x with syms := syms } ty arg = parseImm x ty arg := fun ty => parseImm_asked hn (hG _ List.mem_cons_self)
  have hM : ∀ a ∈ split ',' arg, ∀ ty, parseImm { x with syms := syms } ty a = parseImm x ty a :=
    fun a ha ty => parseImm_asked (fun hm => hn ((hp a ha).subset hm)) (hG _ (List.mem_cons_of_mem _ ha))
  have hMt : ∀ a ∈ split ',' arg, ∀ ty, parseImm { x with syms := syms } ty (trim a) = parseImm x ty (trim a) :=
    fun a ha ty => parseImm_asked (fun hm => hn (((trim_infix a).trans (hp a ha)).subset hm))
      fun m hm => hG _ (List.mem_cons_of_mem _ ha) m (group_trim.1 hm)
  have hT : cls = .jump → ∀ a ∈ split ',' arg, parseTarget { x with syms := syms } (trim a) = parseTarget x (trim a) :=
    fun hc a ha => parseTarget_near (hT hc a ha)
  have hO : ∀ b ∈ split ',' arg, ∀ o, findOffset b = some o → ∀ ty, parseImm { x with syms := syms } ty o.dropLast = parseImm x ty o.dropLast := by
    intro b hb o ho ty
    have hnb : '\n' ∉ b := fun hm => hn ((hp b hb).subset hm)
    refine parseImm_asked (fun hm => hnb ((findOffset_infix ho).subset ((List.dropLast_prefix o).isInfix.subset hm))) ?_
    by_cases hg : ∃ o', Offset b o'
    · obtain ⟨o', hg⟩ := hg
      rw [findOffset_some hnb hg] at ho
      cases ho
      rw [List.dropLast_concat]
      exact fun m hm => hO' b hb o' m hg hm
    · rw [findOffset_none hnb fun o' h' => hg ⟨o', h'⟩] at ho
      cases ho
  have hF : ∀ o ty, parseImm { x with syms := syms } ty (removeOpenParen o) = parseImm x ty (removeOpenParen o) :=
    fun o ty => parseImm_noParen (by unfold removeOpenParen; simp)
  have h0 : ∀ ty, parseImm { x with syms := syms } ty c!"0" = parseImm x ty c!"0" :=
    fun ty => parseImm_noParen (by decide)
  clear hG hO'
  cases cls <;> simp only [parseArm, parseBranch0, parseLi, parseFloat, hA, hF, h0]
  all_goals generalize split ',' arg = args at *
  all_goals rcases args with _ | ⟨a, _ | ⟨b, _ | ⟨c, _ | ⟨d, r⟩⟩⟩⟩
  all_goals try rfl
  all_goals
    have m1 := hM _ List.mem_cons_self
    have m2 := hMt _ List.mem_cons_self
    try simp only [m1, m2]
    try simp only [hT rfl _ List.mem_cons_self]
    try rfl
  all_goals
    have m1 := hM _ (List.mem_cons_of_mem _ List.mem_cons_self)
    have m4 := hO _ (List.mem_cons_of_mem _ List.mem_cons_self)
    try simp only [m1]
    try rfl
  all_goals
    first
    | (have m5 := hM _ (List.mem_cons_of_mem _ (List.mem_cons_of_mem _ List.mem_cons_self))
       simp only [m5]; rfl)
    | (cases hf : findOffset b with
       | none => rfl
       | some o => simp only [m4 o hf])

theorem classify_isJump {mn : Str} (h : classify mn = .jump) : mn ∈ [c!"j", c!"jal"] := by
  unfold classify at h
  split at h
  · rename_i e he
    have h1 := List.mem_of_find?_eq_some he
    have h2 := List.find?_some he
    have h3 : ∀ e ∈ clsTable, e.1 = .jump → e.2 = [c!"j", c!"jal"] := by decide
    rw [h3 e h1 h] at h2
    simpa using h2
  · cases h

theorem lineRes_asked [Unicode] {e f : Env} (ho : e.rt.ovf = f.rt.ovf) (hi : e.input = f.input) (raw : Str) (hn : '\n' ∉ raw)
    (h : ∀ n, Asks raw n → findSym e.syms n = findSym f.syms n) (tr : List Outcome) :
    lineRes e tr raw = lineRes f tr raw := by
  have hc : ctxAt e tr = { ctxAt f tr with syms := e.syms } := by
    unfold ctxAt; simp [ho, hi]
  have hl : (ctxAt e tr).line = (ctxAt f tr).line := by rw [hc]; rfl
  have h1 : ∀ l, labelRes e tr l = labelRes f tr l := by
    intro l; unfold labelRes; rw [hl, hi]
  cases hk : kind raw with
  | blank => unfold lineRes; rw [hk]
  | label l => unfold lineRes; rw [hk]; simp only [h1]
  | code =>
    have h2 : parseInst (ctxAt e tr) (body raw) = parseInst (ctxAt f tr) (body raw) := by
      rw [hc, parseInst_eq _ (kind_code_ne hk), parseInst_eq _ (kind_code_ne hk)]
      have hb : '\n' ∉ body raw := fun hm => hn ((body_infix raw).subset hm)
      have ha : '\n' ∉ operandText (body raw) := fun hm => hb (operandText_mem hm)
      refine parseArm_asked _ _ _ ha (fun hj a ha => ?_) (fun a ha m hm => ?_) (fun a ha o m h3 h4 => ?_)
      · exact h _ ⟨hk, .inl ⟨classify_isJump hj, a, ha, rfl⟩⟩
      · exact h _ ⟨hk, .inr (.inl ⟨a, ha, m, hm, rfl⟩)⟩
      · exact h _ ⟨hk, .inr (.inr ⟨a, ha, o, m, h3, h4, rfl⟩)⟩
    unfold lineRes
    rw [hk, h2]

theorem traceFrom_asked [Unicode] {e f : Env} (ho : e.rt.ovf = f.rt.ovf) (hi : e.input = f.input) (rest : List Str) (hn : ∀ raw ∈ rest, '\n' ∉ raw)
    (h : ∀ raw ∈ rest, ∀ n, Asks raw n → findSym e.syms n = findSym f.syms n) (tr : List Outcome) :
    traceFrom e tr rest = traceFrom f tr rest := by
  induction rest generalizing tr with
  | nil => rfl
  | cons raw rest ih =>
    unfold traceFrom
    rw [lineRes_asked ho hi raw (hn raw List.mem_cons_self) (h raw List.mem_cons_self)]
    cases lineRes f tr raw with
    | none => rfl
    | some o => exact ih (fun r hr => hn r (List.mem_cons_of_mem _ hr)) (fun r hr => h r (List.mem_cons_of_mem _ hr)) _

theorem assemble_asked [Unicode] {rt rt' : Rt} {m m' : Mipsasm} (hr : rt.ovf = rt'.ovf) (hb : m.base = m'.base) (text : Str)
    (hs : ∀ n, AskedIn text n → findSym m.syms n = findSym m'.syms n) : assemble rt m text = assemble rt' m' text := by
  unfold assemble
  have ht : parseT ⟨rt, m.base, m.syms, lines text⟩ = parseT ⟨rt', m'.base, m'.syms, lines text⟩ := by
    unfold parseT
    rw [traceFrom_asked (e := ⟨rt, m.base, m.syms, lines text⟩) (f := ⟨rt', m'.base, m'.syms, lines text⟩) hr rfl _ (lines_noNl text)
      (fun raw hraw n hn => hs n ⟨raw, hraw, hn⟩)]
    dsimp only
    cases traceFrom ⟨rt', m'.base, m'.syms, lines text⟩ [] (lines text) with
    | none => rfl
    | some tr =>
      simp only
      have : (fun p : (Nat × Instruction) × Nat => adjust1 ⟨rt, m.base, m.syms, lines text⟩ (canonF tr) p.2 p.1) =
          fun p => adjust1 ⟨rt', m'.base, m'.syms, lines text⟩ (canonF tr) p.2 p.1 := by
        funext p; exact adjust1_env (e := ⟨rt, m.base, m.syms, lines text⟩) (f := ⟨rt', m'.base, m'.syms, lines text⟩) hr hb rfl _ _ _
      rw [this]
  rw [parse_eq, parse_eq, ht, hr]

/-- **C42**, with exactly the names that the program looks up: the operands of `j` and `jal` and what stands in parentheses.  A symbol that stands in
the text only elsewhere (as a part of another name, in a comment, as a label, as the place of a branch) has no effect on the words, errors and warnings. -/
theorem C42_asked [Unicode] (rt : Rt) (m : Mipsasm) (syms : List (Word × Str)) (text : Str)
    (h1 : (m.syms.map (·.2)).Nodup) (h2 : (syms.map (·.2)).Nodup)
    (hs : ∀ n, AskedIn text n → SameFor syms m.syms n) :
    assemble rt (m.setSymbols syms) text = assemble rt m text := by
  refine assemble_asked (m := m.setSymbols syms) (m' := m) rfl rfl text fun n hn => ?_
  apply Option.ext
  intro w
  rw [show (m.setSymbols syms).syms = syms from rfl, findSym_iff h1, findSym_iff h2]
  exact hs n hn w

/-- **C79**.  Let `text` be a program for the symbols `common ++ old`, and `text'` one for the symbols `common ++ new`, that has the same operands but for how
they are written, in particular with names of `new` for names of `old` of the same address.  If the names are distinct, the first program looks up no name of
`new` and the second no name of `old`, the results are the same: the same instructions and words, or the same kinds of diagnostics. -/
theorem C79_rename [Unicode] (rt : Rt) (base : Word) (debug : Bool) (common old new : List (Word × Str)) (text text' : Str)
    (hd : ((common ++ old ++ new).map (·.2)).Nodup) (h : Equal.SameFile (common ++ old ++ new) (lines text) (lines text'))
    (ho : ∀ e ∈ new, ¬ AskedIn text e.2) (hn : ∀ e ∈ old, ¬ AskedIn text' e.2)
    (hl : NoNumeralLabel (lines text)) (hp : HiLo.NoParenLabel (lines text)) :
    (assemble rt ⟨base, common ++ old, debug⟩ text).bare = (assemble rt ⟨base, common ++ new, debug⟩ text').bare ∧
    (assemble rt ⟨base, common ++ old, debug⟩ text).words = (assemble rt ⟨base, common ++ new, debug⟩ text').words := by
  have d1 : ((common ++ old).map (·.2)).Nodup := by
    rw [List.map_append] at hd
    exact (List.nodup_append.1 hd).1
  have d2 : ((common ++ new).map (·.2)).Nodup := by
    refine hd.sublist (List.Sublist.map _ ?_)
    rw [List.append_assoc]
    exact List.Sublist.append_left (List.sublist_append_right _ _) _
  have e1 := C42_asked rt ⟨base, common ++ old ++ new, debug⟩ (common ++ old) text hd d1 fun n hn a => by
    constructor
    · intro hm; exact List.mem_append_left _ hm
    · intro hm
      rcases List.mem_append.1 hm with hm | hm
      · exact hm
      · exact absurd hn (ho _ hm)
  have e2 := C42_asked rt ⟨base, common ++ old ++ new, debug⟩ (common ++ new) text' hd d2 fun n hn' a => by
    simp only [List.mem_append]
    constructor
    · rintro (hm | hm)
      · exact .inl (.inl hm)
      · exact .inr hm
    · rintro ((hm | hm) | hm)
      · exact .inl hm
      · exact absurd hn' (hn _ hm)
      · exact .inr hm
  have := C55_equivalent rt ⟨base, common ++ old ++ new, debug⟩ text text' h hd hl hp
  rw [← e1, ← e2] at this
  exact this

/-! ### Examples -/

/-- Names among which are all that the line looks up. -/
def askedNames (raw : Str) : List Str :=
  (operands (body raw)).map trim ++ (operandText (body raw) :: operands (body raw)).filterMap (fun s => (findImm (trim s)).map removeParens) ++
    (operands (body raw)).filterMap (fun s => (findOffset s).bind fun o => (findImm (trim o.dropLast)).map removeParens)

theorem asks_names [Unicode] {raw n : Str} (hn : '\n' ∉ raw) (h : Asks raw n) : n ∈ askedNames raw := by
  have hb : '\n' ∉ body raw := fun hm => hn ((body_infix raw).subset hm)
  have ha : '\n' ∉ operandText (body raw) := fun hm => hb (operandText_mem hm)
  have hs : ∀ s ∈ operands (body raw), '\n' ∉ s := fun s hs hm => ha ((infix_of_split hs).subset hm)
  have tr : ∀ s : Str, '\n' ∉ s → '\n' ∉ trim s := fun s h hm => h ((trim_infix s).subset hm)
  unfold askedNames
  simp only [List.mem_append]
  rcases h with ⟨_, ⟨_, s, h1, h2⟩ | ⟨s, h1, m, h2, h3⟩ | ⟨s, h1, o, m, h2, h3, h4⟩⟩
  · exact .inl (.inl (List.mem_map.2 ⟨s, h1, h2⟩))
  · refine .inl (.inr (List.mem_filterMap.2 ⟨s, h1, ?_⟩))
    have : '\n' ∉ s := by
      rcases List.mem_cons.1 h1 with rfl | h1
      · exact ha
      · exact hs s h1
    rw [group_find (tr s this) h2, ← h3, ← bare_eq]; rfl
  · refine .inr (List.mem_filterMap.2 ⟨s, h1, ?_⟩)
    have hos : '\n' ∉ o := by
      obtain ⟨_, v, rfl, _⟩ := h2
      exact fun hm => hs _ h1 (by simp [hm])
    rw [findOffset_some (hs s h1) h2, Option.bind_some, List.dropLast_concat, group_find (tr o hos) h3, ← h4, ← bare_eq]; rfl

theorem not_askedIn [Unicode] {text n : Str} (h : ∀ raw ∈ lines text, n ∉ askedNames raw) : ¬ AskedIn text n := by
  rintro ⟨raw, h1, h2⟩
  exact h raw h1 (asks_names (lines_noNl text raw h1) h2)

def symText : Str := c!"foo2:\n j foo ; not foo2\n lw $a0,%lo(foo)($a1)\n jal bar"
def symText' : Str := c!"foo2:\n j foo2 ; was foo\n lw $a0,%lo(foo2)($a1)\n jal bar"
def symAll : List (Word × Str) := [(0x80#32, c!"bar")] ++ [(0x1000#32, c!"foo")] ++ [(0x1000#32, c!"foo2")]

/-- `foo` is renamed `foo2`; `bar` stays.  (The label `foo2` does not matter.)  All hypotheses of `C79_rename` hold. -/
example : (symAll.map (·.2)).Nodup ∧ Equal.SameFile symAll (lines symText) (lines symText') ∧
    (¬ @AskedIn asciiUnicode symText c!"foo2") ∧ (¬ @AskedIn asciiUnicode symText' c!"foo") ∧
    NoNumeralLabel (lines symText) ∧ HiLo.NoParenLabel (lines symText) := by
  letI := asciiUnicode
  have hg : globals (lines symText) = [(c!"foo2", 0)] := by decide +kernel
  have b0 : Blank [] := by unfold Blank; decide
  have n1 : HiLo.Names symAll c!"foo" 0x1000#32 := .sym _ _ (by decide) (by decide)
  have n2 : HiLo.Names symAll c!"foo2" 0x1000#32 := .sym _ _ (by decide) (by decide)
  refine ⟨by decide, ?_, not_askedIn (by decide +kernel), not_askedIn (by decide +kernel), ?_, ?_⟩
  · rw [show lines symText = [c!"foo2:", c!" j foo ; not foo2", c!" lw $a0,%lo(foo)($a1)", c!" jal bar"] by decide +kernel,
      show lines symText' = [c!"foo2:", c!" j foo2 ; was foo", c!" lw $a0,%lo(foo2)($a1)", c!" jal bar"] by decide +kernel]
    refine .cons _ _ _ _ (.inl rfl) (.cons _ _ _ _ (.inr ?_) (.cons _ _ _ _ (.inr ?_) (.cons _ _ _ _ (.inl rfl) .nil)))
    · refine ⟨by decide +kernel, by decide +kernel, by decide +kernel, c!"j", [Role.target], by decide +kernel, by unfold Names.Calls; decide +kernel, ?_⟩
      rw [show operands (body c!" j foo ; not foo2") = [c!"foo "] by decide +kernel, show operands (body c!" j foo2 ; was foo") = [c!"foo2 "] by decide +kernel]
      exact .cons _ _ _ _ _ _ (.target _ _ 0x1000#32 n1 n2) .nil
    · refine ⟨by decide +kernel, by decide +kernel, by decide +kernel, c!"lw", [Role.gpr, .mem], by decide +kernel, by unfold Names.Calls; decide +kernel, ?_⟩
      rw [show operands (body c!" lw $a0,%lo(foo)($a1)") = [c!"$a0", c!"%lo(foo)($a1)"] by decide +kernel,
        show operands (body c!" lw $a0,%lo(foo2)($a1)") = [c!"$a0", c!"%lo(foo2)($a1)"] by decide +kernel]
      refine .cons _ _ _ _ _ _ (.reg _ _ _ (.same _ _)) (.cons _ _ _ _ _ _ ?_ .nil)
      exact .memLo c!"%lo(foo)" c!"%lo(foo2)" c!"$a1" c!"$a1" [] [] 0x1000#32 5#5 rfl ⟨[], _, [], b0, b0, rfl, n1⟩ ⟨[], _, [], b0, b0, rfl, n2⟩
        eq_a1 eq_a1 b0 b0
  · intro e he
    rw [hg] at he
    cases List.mem_singleton.1 he
    intro v hv
    have h1 : numChar 'o' := (num_chars hv).2 'o' (by simp)
    exact absurd h1 (by unfold numChar; decide)
  · intro e he
    rw [hg] at he
    cases List.mem_singleton.1 he
    decide

example : (@assemble asciiUnicode (idRt true) ⟨0#32, [(0x80#32, c!"bar"), (0x1000#32, c!"foo")], false⟩ symText).words =
      some [0x08000400#32, 0x8ca41000#32, 0x0c000020#32] ∧
    (@assemble asciiUnicode (idRt true) ⟨0#32, [(0x80#32, c!"bar"), (0x1000#32, c!"foo2")], false⟩ symText').words =
      some [0x08000400#32, 0x8ca41000#32, 0x0c000020#32] := by decide +kernel

/-- If the new name is used already, for a label, the result changes: `foo2` was a label, and is now the symbol. -/
theorem C79_clash : letI := asciiUnicode
    (assemble (idRt true) ⟨0#32, [(0x1000#32, c!"foo")], false⟩ c!"foo2:\nj foo2\nj foo").words = some [0x08000000#32, 0x08000400#32] ∧
    (assemble (idRt true) ⟨0#32, [(0x1000#32, c!"foo2")], false⟩ c!"foo2:\nj foo2\nj foo2").words = some [0x08000400#32, 0x08000400#32] := by decide +kernel

end Mips
