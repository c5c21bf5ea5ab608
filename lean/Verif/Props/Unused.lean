/- C42: symbols that a program does not mention have no effect. -/
import Verif.Lemmas.InfixL
import Verif.Lemmas.CtxL
import Verif.Lemmas.RegexL
import Verif.Props.Dis2
import Verif.Spec.Unused
import Verif.Spec.Report

namespace Mips
open Source

/-! ### Regular expressions match a part of the text -/

theorem starLazyM_mem {p : Char → Bool} {s x r : Str} (h : (x, r) ∈ Re.starLazyM p s) : s = x ++ r := by
  induction s generalizing x r with
  | nil => simp [Re.starLazyM] at h; simp [h]
  | cons c s ih =>
    unfold Re.starLazyM at h
    rcases List.mem_cons.1 h with h | h
    · cases h; rfl
    · split at h
      · obtain ⟨⟨a, b⟩, hm, he⟩ := List.mem_map.1 h
        cases he
        rw [ih hm]; rfl
      · cases h

theorem Re.run_mem (r : Re) : ∀ {s x t : Str}, (x, t) ∈ Re.run r s → s = x ++ t := by
  induction r with
  | eps => intro s x t h; simp [Re.run] at h; rw [h.1, h.2]; rfl
  | chr p =>
    intro s x t h
    cases s with
    | nil => simp [Re.run] at h
    | cons c s =>
      unfold Re.run at h
      split at h
      · simp at h; rw [h.1, h.2]; rfl
      · cases h
  | seq a b iha ihb =>
    intro s x t h
    unfold Re.run at h
    obtain ⟨⟨x1, r1⟩, h1, h2⟩ := List.mem_flatMap.1 h
    obtain ⟨⟨y, r2⟩, h3, h4⟩ := List.mem_map.1 h2
    cases h4
    rw [iha h1, ihb h3, List.append_assoc]
  | alt a b iha ihb =>
    intro s x t h
    unfold Re.run at h
    rcases List.mem_append.1 h with h | h
    · exact iha h
    · exact ihb h
  | star p => intro s x t h; exact Re.starM_mem h
  | starLazy p => intro s x t h; exact starLazyM_mem h

theorem Re.find_parts (r : Re) : ∀ {s b m a : Str}, Re.find r s = some (b, m, a) → s = b ++ m ++ a := by
  intro s
  induction s with
  | nil =>
    intro b m a h
    unfold Re.find at h
    split at h
    · rename_i m' r' tl he
      cases h
      have := Re.run_mem r (s := []) (x := m) (t := a) (by rw [he]; exact List.mem_cons_self)
      simpa using this
    · cases h
  | cons c s ih =>
    intro b m a h
    unfold Re.find at h
    split at h
    · rename_i m' r' tl he
      cases h
      have := Re.run_mem r (s := c :: s) (x := m) (t := a) (by rw [he]; exact List.mem_cons_self)
      simpa using this
    · obtain ⟨⟨b1, m1, a1⟩, h1, h2⟩ := Option.map_eq_some_iff.1 h
      cases h2
      rw [ih h1]; rfl

theorem findImm_infix {s m : Str} (h : findImm s = some m) : m <:+: s := by
  obtain ⟨⟨b, m', a⟩, h1, h2⟩ := Option.map_eq_some_iff.1 h
  cases h2
  exact ⟨b, a, (Re.find_parts _ h1).symm⟩

theorem findOffset_infix {s m : Str} (h : findOffset s = some m) : m <:+: s := by
  obtain ⟨⟨b, m', a⟩, h1, h2⟩ := Option.map_eq_some_iff.1 h
  cases h2
  exact ⟨b, a, (Re.find_parts _ h1).symm⟩

theorem removeParens_infix {a b : Str} (h : a <:+: b) : removeParens a <:+: removeParens b := by
  obtain ⟨u, v, rfl⟩ := h
  exact ⟨removeParens u, removeParens v, by simp [removeParens]⟩

/-! ### What an instruction looks up -/

/-- `n` stands in `s`, or in `s` without its parentheses. -/
def Within (n s : Str) : Prop := n <:+: s ∨ n <:+: removeParens s

theorem Within.mono {n a b : Str} (h : a <:+: b) (hn : Within n a) : Within n b :=
  hn.elim (fun e => .inl (e.trans h)) (fun e => .inr (e.trans (removeParens_infix h)))

variable {x : Ctx} {syms : List (Word × Str)}

theorem parseTarget_near {t : Str} (h : findSym syms t = findSym x.syms t) :
    parseTarget { x with syms := syms } t = parseTarget x t := by
  unfold parseTarget
  simp only [h]
  rfl

theorem parseImm_near {ty : IntTy} {s : Str} (h : ∀ n, Within n s → findSym syms n = findSym x.syms n) :
    parseImm { x with syms := syms } ty s = parseImm x ty s := by
  unfold parseImm
  dsimp only
  split
  · rfl
  split
  · rfl
  split
  · rename_i m hm
    rw [parseTarget_near (h _ (.inr (removeParens_infix ((findImm_infix hm).trans (trim_infix s)))))]
  · rfl

theorem parseImm_noParen {ty : IntTy} {s : Str} (h : '(' ∉ s) :
    parseImm { x with syms := syms } ty s = parseImm x ty s := by
  unfold parseImm
  dsimp only
  have : findImm (trim s) = none := by
    unfold findImm
    rw [Re.find_IMM_none _ (fun hm => h ((trim_infix s).subset hm))]; rfl
  rw [this]
  rfl

theorem parseArm_near [Unicode] (cls : Cls) (op arg : Str) (h : ∀ n, Within n arg → findSym syms n = findSym x.syms n) :
    parseArm { x with syms := syms } cls op arg = parseArm x cls op arg := by
  have hp : ∀ a ∈ split ',' arg, a <:+: arg := fun a ha => infix_of_split ha
  have hI : ∀ s, s <:+: arg → ∀ ty, parseImm { x with syms := syms } ty s = parseImm x ty s :=
    fun s hs ty => parseImm_near fun n hn => h n (hn.mono hs)
  have hA := hI arg List.infix_rfl
  have hM : ∀ a ∈ split ',' arg, ∀ ty, parseImm { x with syms := syms } ty a = parseImm x ty a := fun a ha => hI a (hp a ha)
  have hMt : ∀ a ∈ split ',' arg, ∀ ty, parseImm { x with syms := syms } ty (trim a) = parseImm x ty (trim a) :=
    fun a ha => hI _ ((trim_infix a).trans (hp a ha))
  have hT : ∀ a ∈ split ',' arg, parseTarget { x with syms := syms } (trim a) = parseTarget x (trim a) :=
    fun a ha => parseTarget_near (h _ (.inl ((trim_infix a).trans (hp a ha))))
  have hO : ∀ b ∈ split ',' arg, ∀ o, findOffset b = some o → ∀ ty, parseImm { x with syms := syms } ty o.dropLast = parseImm x ty o.dropLast :=
    fun b hb o ho => hI _ (((List.dropLast_prefix o).isInfix.trans (findOffset_infix ho)).trans (hp b hb))
  have hF : ∀ o ty, parseImm { x with syms := syms } ty (removeOpenParen o) = parseImm x ty (removeOpenParen o) :=
    fun o ty => parseImm_noParen (by unfold removeOpenParen; simp)
  have h0 : ∀ ty, parseImm { x with syms := syms } ty c!"0" = parseImm x ty c!"0" :=
    fun ty => parseImm_noParen (by decide)
  cases cls <;> simp only [parseArm, parseBranch0, parseLi, parseFloat, hA, hF, h0]
  all_goals generalize split ',' arg = args at *
  all_goals rcases args with _ | ⟨a, _ | ⟨b, _ | ⟨c, _ | ⟨d, r⟩⟩⟩⟩
  all_goals try rfl
  all_goals
    have m1 := hM _ List.mem_cons_self
    have m2 := hMt _ List.mem_cons_self
    have m3 := hT _ List.mem_cons_self
    try simp only [m1, m2, m3]
    try rfl
  all_goals
    have m1 := hM _ (List.mem_cons_of_mem _ List.mem_cons_self)
    have m4 := hO _ (List.mem_cons_of_mem _ List.mem_cons_self)
    try simp only [m1]
    try rfl
  all_goals
    first
    | (have m5 := hM _ (List.mem_cons_of_mem _ (List.mem_cons_of_mem _ List.mem_cons_self))
       simp only [m5]; rfl)
    | (cases hf : findOffset b with
       | none => rfl
       | some o => simp only [m4 o hf])

theorem parseInst_near [Unicode] (line : Str) (h : ∀ n, Within n line → findSym syms n = findSym x.syms n) :
    parseInst { x with syms := syms } line = parseInst x line := by
  unfold parseInst
  split
  rename_i op arg he
  have ha : arg <:+: line := by
    split at he
    · rename_i p hp
      obtain ⟨p1, p2⟩ := p
      simp at he
      rw [← he.2]
      exact (splitOnce_infix hp).2
    · simp at he; rw [he.2]; exact List.nil_infix
  split
  · rfl
  · exact parseArm_near _ _ _ fun n hn => h n (hn.mono ha)

theorem lineRes_near [Unicode] {e f : Env} (ho : e.rt.ovf = f.rt.ovf) (hi : e.input = f.input) (raw : Str)
    (h : ∀ n, Within n raw → findSym e.syms n = findSym f.syms n) (tr : List Outcome) :
    lineRes e tr raw = lineRes f tr raw := by
  have hc : ctxAt e tr = { ctxAt f tr with syms := e.syms } := by
    unfold ctxAt; simp [ho, hi]
  have hl : (ctxAt e tr).line = (ctxAt f tr).line := by rw [hc]; rfl
  unfold lineRes
  have h1 : ∀ l, labelRes e tr l = labelRes f tr l := by
    intro l; unfold labelRes; rw [hl, hi]
  have h2 : parseInst (ctxAt e tr) (body raw) = parseInst (ctxAt f tr) (body raw) := by
    rw [hc]; exact parseInst_near _ fun n hn => h n (hn.mono (body_infix raw))
  rw [h2]
  simp only [h1]

theorem traceFrom_near [Unicode] {e f : Env} (ho : e.rt.ovf = f.rt.ovf) (hi : e.input = f.input) (rest : List Str)
    (h : ∀ raw ∈ rest, ∀ n, Within n raw → findSym e.syms n = findSym f.syms n) (tr : List Outcome) :
    traceFrom e tr rest = traceFrom f tr rest := by
  induction rest generalizing tr with
  | nil => rfl
  | cons raw rest ih =>
    unfold traceFrom
    rw [lineRes_near ho hi raw (h raw List.mem_cons_self)]
    cases lineRes f tr raw with
    | none => rfl
    | some o => exact ih (fun r hr => h r (List.mem_cons_of_mem _ hr)) _

theorem assemble_near [Unicode] {rt rt' : Rt} {m m' : Mipsasm} (hr : rt.ovf = rt'.ovf) (hb : m.base = m'.base) (text : Str)
    (hs : ∀ n, Mentions text n → findSym m.syms n = findSym m'.syms n) : assemble rt m text = assemble rt' m' text := by
  unfold assemble
  have ht : parseT ⟨rt, m.base, m.syms, lines text⟩ = parseT ⟨rt', m'.base, m'.syms, lines text⟩ := by
    unfold parseT
    rw [traceFrom_near (e := ⟨rt, m.base, m.syms, lines text⟩) (f := ⟨rt', m'.base, m'.syms, lines text⟩) hr rfl _
      (fun raw hraw n hn => hs n ⟨raw, hraw, hn⟩)]
    dsimp only
    cases traceFrom ⟨rt', m'.base, m'.syms, lines text⟩ [] (lines text) with
    | none => rfl
    | some tr =>
      simp only
      have : (fun p : (Nat × Instruction) × Nat => adjust1 ⟨rt, m.base, m.syms, lines text⟩ (canonF tr) p.2 p.1) =
          fun p => adjust1 ⟨rt', m'.base, m'.syms, lines text⟩ (canonF tr) p.2 p.1 := by
        funext p; exact adjust1_env (e := ⟨rt, m.base, m.syms, lines text⟩) (f := ⟨rt', m'.base, m'.syms, lines text⟩) hr hb rfl _ _ _
      rw [this]
  rw [parse_eq, parse_eq, ht, hr]

theorem findSym_iff {n : Str} {w : Word} : ∀ {l : List (Word × Str)}, (l.map (·.2)).Nodup → (findSym l n = some w ↔ (w, n) ∈ l)
  | [], _ => by simp [findSym]
  | e :: l, hl => by
    simp only [List.map_cons, List.nodup_cons] at hl
    have ih := findSym_iff (n := n) (w := w) hl.2
    unfold findSym at ih ⊢
    rw [List.find?_cons]
    by_cases he : e.2 = n
    · simp only [he, BEq.rfl, Option.map_some, Option.some.injEq, List.mem_cons]
      constructor
      · rintro rfl; left; rw [← he]
      · rintro (h | h)
        · rw [← h]
        · exact absurd (List.mem_map.2 ⟨_, h, he.symm⟩) hl.1
    · have : (e.2 == n) = false := by simp [he]
      rw [this]
      simp only [List.mem_cons]
      rw [ih]
      constructor
      · exact Or.inr
      · rintro (h | h)
        · rw [← h] at he; exact absurd rfl he
        · exact h

/-- C42 for `assemble`: of a symbol table with distinct names only the entries whose name stands in the text matter:
adding, removing or moving the others changes neither the words nor the errors and warnings. -/
theorem C42_assemble [Unicode] (rt : Rt) (m : Mipsasm) (syms : List (Word × Str)) (text : Str)
    (h1 : (m.syms.map (·.2)).Nodup) (h2 : (syms.map (·.2)).Nodup)
    (hs : ∀ n, Mentions text n → SameFor syms m.syms n) :
    assemble rt (m.setSymbols syms) text = assemble rt m text := by
  refine assemble_near (m := m.setSymbols syms) (m' := m) rfl rfl text fun n hn => ?_
  apply Option.ext
  intro w
  rw [show (m.setSymbols syms).syms = syms from rfl, findSym_iff h1, findSym_iff h2]
  exact hs n hn w

/-- Non-vacuity: a program that mentions `main` and not `other`. -/
example : ∀ n, Mentions c!"jal main\nnop" n → SameFor [(8#32, c!"other"), (0x40#32, c!"main")] [(0x40#32, c!"main"), (4#32, c!"another")] n := by
  have ne : ∀ (p s : Str), findStr p s = none → ¬ p <:+: s := by
    intro p s h hi
    rw [← findStr_isSome, h] at hi
    cases hi
  have key : ∀ p : Str, findStr p c!"jal main" = none → findStr p c!"nop" = none → ¬ Mentions c!"jal main\nnop" p := by
    rintro p e1 e2 ⟨l, hl, h⟩
    have : lines c!"jal main\nnop" = [c!"jal main", c!"nop"] := by decide
    rw [this] at hl
    simp only [List.mem_cons, List.not_mem_nil, or_false] at hl
    rcases hl with rfl | rfl
    · exact ne _ _ e1 (h.elim id id)
    · exact ne _ _ e2 (h.elim id id)
  intro n hn a
  have n1 : n ≠ c!"other" := by rintro rfl; exact key _ (by decide) (by decide) hn
  have n2 : n ≠ c!"another" := by rintro rfl; exact key _ (by decide) (by decide) hn
  simp [n1, n2]
example : (@assemble asciiUnicode (idRt true) ⟨0#32, [(0x40#32, c!"main"), (4#32, c!"another")], false⟩ c!"jal main\nnop").words =
    some [0x0c000010#32, 0#32] := by decide +kernel

/-- Without the mention the entry matters: the hypothesis of `C42_assemble` is about the right names. -/
theorem C42_needed : ∃ (s t : List (Word × Str)) (text : Str), (s.map (·.2)).Nodup ∧ (t.map (·.2)).Nodup ∧
    Mentions text c!"ab" ∧ (∀ n, n ≠ c!"ab" → SameFor s t n) ∧
    @assemble asciiUnicode (idRt true) ⟨0, s, false⟩ text ≠ @assemble asciiUnicode (idRt true) ⟨0, t, false⟩ text := by
  refine ⟨[(4, c!"ab")], [(8, c!"ab")], c!"addiu $a0, $a0, %lo(a(b))", by decide, by decide,
    ⟨_, List.mem_singleton.2 rfl, .inr ⟨c!"addiu $a0, $a0, %lo", [], by decide⟩⟩, ?_, by decide +kernel⟩
  intro n hn a
  simp [hn]

/-! ### Disassembly -/

theorem decode_jumpAddr (base w : Word) {op : JTypeOp} {a : Word} {b : List Word} (h : decode base w = .jump op (.address a) b) :
    (Isa.fOp w = 2#6 ∨ Isa.fOp w = 3#6) ∧ a = Listing.jumpAddr base (Isa.fTarget w) := by
  by_cases h2 : Isa.fOp w = 2#6
  · have e : decode base w = .jump .J (.address (jumpTarget base w)) [w] := by
      unfold decode; dsimp only; rw [fields_op, h2]; rfl
    rw [e] at h
    cases h
    exact ⟨.inl h2, jumpTarget_eq base w⟩
  by_cases h3 : Isa.fOp w = 3#6
  · have e : decode base w = .jump .Jal (.address (jumpTarget base w)) [w] := by
      unfold decode; dsimp only; rw [fields_op, h3]; rfl
    rw [e] at h
    cases h
    exact ⟨.inr h3, jumpTarget_eq base w⟩
  have := decode_notJump base w h2 h3
  rw [h] at this
  cases this

theorem layout_near (ovf : Bool) (base : Word) (s t : List (Word × Str)) (n : Nat)
    (hs : ∀ k, k ≤ n → getSym s (base + BitVec.ofNat 32 (4 * k)) = getSym t (base + BitVec.ofNat 32 (4 * k)))
    (l : List Instruction) : ∀ i fs e, layout ovf base s n i fs e l = layout ovf base t n i fs e l := by
  induction l with
  | nil => intro i fs e; rfl
  | cons x l ih =>
    intro i fs e
    unfold layout
    simp only [ih]
    split
    · congr 1
      funext tx
      congr 1
      split
      · rename_i hi
        have e4 : ∀ a, chkMul ovf (BitVec.ofNat 32 (i + 1)) 4#32 = some a → a = BitVec.ofNat 32 (4 * (i + 1)) := by
          intro a h
          unfold chkMul at h
          split at h
          · cases h
          · cases h
            apply BitVec.eq_of_toNat_eq
            simp [BitVec.toNat_mul, Nat.mul_comm]
        cases hm : chkMul ovf (BitVec.ofNat 32 (i + 1)) 4#32 with
        | none => rfl
        | some a =>
          show Option.bind (some a) _ = Option.bind (some a) _
          rw [Option.bind_some, Option.bind_some]
          show Option.bind (chkAdd ovf base a) _ = Option.bind (chkAdd ovf base a) _
          cases ha : chkAdd ovf base a with
          | none => rfl
          | some b =>
            have : b = base + BitVec.ofNat 32 (4 * (i + 1)) := by
              unfold chkAdd at ha
              split at ha
              · cases ha
              · cases ha; rw [e4 a hm]
            simp only [Option.bind_some]
            rw [this, hs (i + 1) (by omega)]
      · rfl
    · rfl

/-- C42 for `disassemble`: only the symbols at the addresses of the words and at the targets of `j` and `jal` matter. -/
theorem C42_disassemble (rt : Rt) (m : Mipsasm) (syms : List (Word × Str)) (ws : List Word)
    (hs : ∀ a, Listing.Shown m.base ws a → syms.lookup a = m.syms.lookup a) :
    disassemble rt (m.setSymbols syms) ws = disassemble rt m ws := by
  have h1 : (disassembleWords ws m.base).map (matchSym syms) = (disassembleWords ws m.base).map (matchSym m.syms) := by
    apply List.map_congr_left
    intro i hi
    obtain ⟨w, hw, rfl⟩ := List.mem_map.1 hi
    unfold matchSym
    split
    · rename_i op a b he
      obtain ⟨hj, ha⟩ := decode_jumpAddr _ _ he
      have := hs a (.inr ⟨w, hw, hj, ha⟩)
      unfold symAt
      rw [this]
    · rfl
  have h2 : ∀ k, k ≤ ws.length → getSym syms (m.base + BitVec.ofNat 32 (4 * k)) = getSym m.syms (m.base + BitVec.ofNat 32 (4 * k)) := by
    intro k hk
    unfold getSym symAt
    rw [hs _ (.inl ⟨k, hk, rfl⟩)]
  have h0 : getSym syms m.base = getSym m.syms m.base := by
    have := h2 0 (Nat.zero_le _)
    simpa using this
  unfold disassemble
  simp only [Mipsasm.setSymbols, h1, h0]
  rw [layout_near rt.ovf m.base syms m.syms _ (by simpa [disassembleWords] using h2)]

/-- Non-vacuity: the table may differ at an address that is neither listed nor jumped to. -/
example : ∀ a, Listing.Shown 0x80000000#32 [0x0c000010#32, 0#32] a →
    [(0x80000040#32, c!"main")].lookup a = [(0x80000100#32, c!"far"), (0x80000040#32, c!"main")].lookup a := by
  have key : ¬ Listing.Shown 0x80000000#32 [0x0c000010#32, 0#32] 0x80000100#32 := by
    rintro (⟨k, hk, h⟩ | ⟨w, hw, hj, h⟩)
    · have : k = 0 ∨ k = 1 ∨ k = 2 := by simp at hk; omega
      rcases this with rfl | rfl | rfl <;> exact absurd h (by decide)
    · simp only [List.mem_cons, List.not_mem_nil, or_false] at hw
      rcases hw with rfl | rfl
      · exact absurd h (by decide)
      · exact absurd hj (by decide)
  intro a ha
  have : a ≠ 0x80000100#32 := by rintro rfl; exact key ha
  have e : (a == 0x80000100#32) = false := by simpa using this
  simp only [List.lookup, e]

end Mips
