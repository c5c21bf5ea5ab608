/- Whole-program view of `assemble`. -/
import Verif.Lemmas.InfixL
import Verif.Lemmas.CtxL

namespace Mips
open Source

theorem mapM_some_iff {α β} (f : α → Option β) (l : List α) (r : List β) :
    l.mapM f = some r ↔ r.length = l.length ∧ ∀ (k : Nat) a, l[k]? = some a → ∃ b, r[k]? = some b ∧ f a = some b := by
  induction l generalizing r with
  | nil =>
    simp only [List.mapM_nil]
    constructor
    · intro h; cases h; simp
    · rintro ⟨h, _⟩; rw [List.length_eq_zero_iff.1 h]; rfl
  | cons a l ih =>
    rw [List.mapM_cons]
    constructor
    · intro h
      simp only [bind, Option.bind_eq_some_iff] at h
      obtain ⟨b, hb, bs, hbs, h⟩ := h
      cases h
      obtain ⟨h1, h2⟩ := (ih bs).1 hbs
      refine ⟨by simp [h1], ?_⟩
      intro k x hk
      cases k with
      | zero => simp at hk; subst hk; exact ⟨b, rfl, hb⟩
      | succ k => simpa using h2 k x (by simpa using hk)
    · rintro ⟨h1, h2⟩
      cases r with
      | nil => simp at h1
      | cons b bs =>
        obtain ⟨b', e, hb⟩ := h2 0 a rfl
        simp at e; subst e
        have : l.mapM f = some bs := by
          rw [ih]
          refine ⟨by simpa using h1, ?_⟩
          intro k x hk
          simpa using h2 (k + 1) x (by simpa using hk)
        rw [hb, this]; rfl

theorem mapM_exists {α β} (f : α → Option β) (l : List α) (h : ∀ a ∈ l, ∃ b, f a = some b) : ∃ r, l.mapM f = some r := by
  induction l with
  | nil => exact ⟨[], rfl⟩
  | cons a l ih =>
    obtain ⟨b, hb⟩ := h a (by simp)
    obtain ⟨bs, hbs⟩ := ih (fun x hx => h x (by simp [hx]))
    exact ⟨b :: bs, by rw [List.mapM_cons, hb, hbs]; rfl⟩

/-! ### instructions in a trace -/

theorem outInsts_get {tr : List Outcome} {j : Nat} {i : Nat} {p : Nat × Instruction} (h : (outInsts j tr)[i]? = some p) :
    ∃ k ws, tr[k]? = some (.inst ws p.2) ∧ p.1 = j + k + 1 ∧ (outInsts j (tr.take k)).length = i := by
  induction tr generalizing j i with
  | nil => simp [outInsts] at h
  | cons o tr ih =>
    have next : ∀ (j' : Nat), outInsts j (o :: tr) = outInsts (j + 1) tr →
        (∀ t, outInsts j (o :: t) = outInsts (j + 1) t) → ∃ k ws, (o :: tr)[k]? = some (Outcome.inst ws p.2) ∧ p.1 = j + k + 1 ∧ (outInsts j ((o :: tr).take k)).length = i := by
      intro _ e e2
      rw [e] at h
      obtain ⟨k, ws, h1, h2, h3⟩ := ih h
      exact ⟨k + 1, ws, by simpa using h1, by omega, by rw [List.take_succ_cons, e2]; exact h3⟩
    cases o with
    | inst ws i' =>
      cases i with
      | zero => simp [outInsts] at h; subst h; exact ⟨0, ws, rfl, by simp, rfl⟩
      | succ i =>
        simp only [outInsts, List.getElem?_cons_succ] at h
        obtain ⟨k, ws', h1, h2, h3⟩ := ih h
        exact ⟨k + 1, ws', by simpa using h1, by omega, by simp [outInsts, h3]⟩
    | blank => exact next 0 rfl (fun _ => rfl)
    | label l => exact next 0 rfl (fun _ => rfl)
    | loc l => exact next 0 rfl (fun _ => rfl)
    | rejected ws e => exact next 0 rfl (fun _ => rfl)

theorem outInsts_at {tr : List Outcome} {k : Nat} {ws : List ParserWarning} {i : Instruction} (h : tr[k]? = some (.inst ws i)) :
    (outInsts 0 tr)[(outInsts 0 (tr.take k)).length]? = some (k + 1, i) := by
  obtain ⟨hk, e⟩ := List.getElem?_eq_some_iff.1 h
  have : tr = tr.take k ++ (.inst ws i) :: tr.drop (k + 1) := by
    rw [← e]; simp
  rw [this, outInsts_append]
  simp only [outInsts, List.take_left', List.length_take, Nat.min_eq_left (Nat.le_of_lt hk), Nat.zero_add]
  simp

/-- Labels known at some point stay known. -/
theorem hasLabel_append {a b : List (Str × Nat)} {l : Str} (h : hasLabel a l = true) : hasLabel (a ++ b) l = true := by
  unfold hasLabel at *
  simp only [List.any_eq_true, List.mem_append] at *
  obtain ⟨x, hx, e⟩ := h
  exact ⟨x, Or.inl hx, e⟩

theorem outLabels_take (tr : List Outcome) (k : Nat) : ∃ b, outLabels 0 tr = outLabels 0 (tr.take k) ++ b := by
  refine ⟨outLabels (0 + (outInsts 0 (tr.take k)).length) (tr.drop k), ?_⟩
  rw [← outLabels_append, List.take_append_drop]

theorem Fresh.mono {a b : List (Str × Nat)} (hab : ∀ l, hasLabel a l = true → hasLabel b l = true) {i : Instruction}
    (h : Fresh a i) : Fresh b i := by
  cases i with
  | imm op rs rt im bs => exact ⟨h.1, fun l hl => hab l (h.2.1 l hl), h.2.2⟩
  | _ => exact h

theorem lineRes_inst [Unicode] {env : Env} {tr : List Outcome} {raw : Str} {ws : List ParserWarning} {i : Instruction}
    (h : lineRes env tr raw = some (.inst ws i)) :
    kind raw = .code ∧ parseInst (ctxAt env tr) (body raw) = ⟨ws, .ok i⟩ := by
  unfold lineRes at h
  split at h
  · cases h
  · exact absurd rfl ((labelRes_warns h).1 ws i)
  · rename_i hk
    obtain ⟨h1, h2⟩ := instRes_inst h
    refine ⟨hk, ?_⟩
    rw [h1, ← h2]

theorem trace_inst [Unicode] {env : Env} {ls : List Str} {tr : List Outcome} (h : IsTrace env ls tr) {k : Nat}
    {ws : List ParserWarning} {i : Instruction} (hk : tr[k]? = some (.inst ws i)) :
    ∃ raw, ls[k]? = some raw ∧ kind raw = .code ∧ parseInst (ctxAt env (tr.take k)) (body raw) = ⟨ws, .ok i⟩ := by
  have hlt : k < ls.length := by rw [← h.1]; exact (List.getElem?_eq_some_iff.1 hk).1
  have hr : ls[k]? = some ls[k] := List.getElem?_eq_getElem hlt
  obtain ⟨h1, h2⟩ := lineRes_inst (h.2 k _ _ hr hk)
  exact ⟨_, hr, h1, h2⟩

theorem trace_fresh [Unicode] {env : Env} {ls : List Str} {tr : List Outcome} (h : IsTrace env ls tr) {i : Nat} {p : Nat × Instruction}
    (hp : (outInsts 0 tr)[i]? = some p) : Fresh (outLabels 0 tr) p.2 := by
  obtain ⟨k, ws, h1, h2, h3⟩ := outInsts_get hp
  obtain ⟨raw, h4, h5, h6⟩ := trace_inst h h1
  have := parseInst_fresh (ctxAt env (tr.take k)) (body raw) p.2 (by rw [h6])
  refine Fresh.mono ?_ this
  intro l hl
  obtain ⟨b, hb⟩ := outLabels_take tr k
  rw [hb]
  exact hasLabel_append hl

/-! ### encoding and `get_bytes` -/

/-- The bytes field of an instruction is still empty. -/
def NoBytes : Instruction → Prop
  | .imm _ _ _ _ b => b = []
  | .jump _ _ b => b = []
  | .reg _ _ _ _ _ b => b = []
  | .bytes _ => True

theorem Fresh.noBytes {labels : List (Str × Nat)} {i : Instruction} (h : Fresh labels i) : NoBytes i := by
  cases i with
  | imm => exact h.1
  | jump => exact h
  | reg => exact h
  | bytes => trivial

theorem opt_bind {α β} (o : Option α) (f : α → Option β) : (o >>= f) = o.bind f := rfl

theorem adjust1_noBytes {env : Env} {s : PState} {i : Nat} {p : Nat × Instruction} {a : Instruction} {es : List ParserError}
    (hp : NoBytes p.2) (h : adjust1 env s i p = some (a, es)) : NoBytes a := by
  obtain ⟨n, q⟩ := p
  unfold adjust1 at h
  simp only at h
  repeat' split at h
  all_goals
    simp only [opt_bind, Option.bind_eq_some_iff, Option.some.injEq, Prod.mk.injEq] at h
  all_goals first
    | (obtain ⟨rfl, _⟩ := h; exact hp)
    | (obtain ⟨_, _, rfl, _⟩ := h; first | exact hp | rfl)
    | (obtain ⟨_, _, _, _, rfl, _⟩ := h; first | exact hp | rfl)
    | (obtain ⟨_, _, _, _, _, _, rfl, _⟩ := h; first | exact hp | rfl)
    | (obtain ⟨_, _, h⟩ := h
       split at h
       · simp only [Option.some.injEq, Prod.mk.injEq] at h; obtain ⟨rfl, _⟩ := h; rfl
       · simp only [Option.bind_eq_some_iff, Option.some.injEq, Prod.mk.injEq] at h
         obtain ⟨_, _, rfl, _⟩ := h; exact hp)

theorem assembleInst_getBytes {ovf : Bool} {a b : Instruction} (ha : NoBytes a) (h : assembleInst ovf a = some b) :
    encode ovf a = some b.getBytes ∧ ∀ w, a ≠ .bytes w := by
  unfold assembleInst at h
  rw [opt_bind, Option.bind_eq_some_iff] at h
  obtain ⟨ws, h1, h2⟩ := h
  rw [h1]
  cases a with
  | imm op rs rt im bs => cases ha; cases h2; simp [Instruction.getBytes]
  | jump op t bs => cases ha; cases h2; simp [Instruction.getBytes]
  | reg op rs rt rd sa bs => cases ha; cases h2; simp [Instruction.getBytes]
  | bytes w => cases h2

theorem assembleInst_of {ovf : Bool} {a : Instruction} {ws : List Word} (ha : NoBytes a) (h : encode ovf a = some ws)
    (hb : ∀ w, a ≠ .bytes w) : ∃ b, assembleInst ovf a = some b ∧ b.getBytes = ws := by
  unfold assembleInst
  rw [h]
  cases a with
  | imm op rs rt im bs => cases ha; exact ⟨_, rfl, by simp [Instruction.getBytes]⟩
  | jump op t bs => cases ha; exact ⟨_, rfl, by simp [Instruction.getBytes]⟩
  | reg op rs rt rd sa bs => cases ha; exact ⟨_, rfl, by simp [Instruction.getBytes]⟩
  | bytes w => exact absurd rfl (hb w)

/-- The environment of a call of `assemble`. -/
def envOf (rt : Rt) (m : Mipsasm) (text : Str) : Env := ⟨rt, m.base, m.syms, lines text⟩

/-- One instruction of a successful assembly: the `i`-th accepted instruction `p` (line number and parsed
form) is adjusted to `a` without error and encoded as `ws`. -/
def Done (env : Env) (tr : List Outcome) (i : Nat) (p : Nat × Instruction) (a : Instruction) (ws : List Word) : Prop :=
  adjust1 env (canonF tr) i p = some (a, []) ∧ encode env.rt.ovf a = some ws ∧ NoBytes a ∧ ∀ w, a ≠ .bytes w

/-- What a successful assembly means. -/
theorem assemble_ok [Unicode] {rt : Rt} {m : Mipsasm} {text : Str} {is : List Instruction} {warns : List ParserWarning}
    (h : assemble rt m text = .ok is warns) :
    ∃ tr, IsTrace (envOf rt m text) (lines text) tr ∧ outErrors tr = [] ∧ warns = outWarns tr ∧
      is.length = (outInsts 0 tr).length ∧
      ∀ i p, (outInsts 0 tr)[i]? = some p → ∃ a b, Done (envOf rt m text) tr i p a b.getBytes ∧
        is[i]? = some b ∧ assembleInst rt.ovf a = some b := by
  unfold assemble at h
  rw [parse_eq] at h
  have hb : (⟨rt, m.base, m.syms, lines text⟩ : Env) = envOf rt m text := rfl
  rw [hb] at h
  unfold parseT at h
  cases ht : traceFrom (envOf rt m text) [] (envOf rt m text).input with
  | none => rw [ht] at h; cases h
  | some tr =>
    rw [ht] at h
    simp only at h
    have hT : IsTrace (envOf rt m text) (lines text) tr := (isTrace_iff _ _ _).1 ht
    cases hm : (outInsts 0 tr).zipIdx.mapM (fun p => adjust1 (envOf rt m text) (canonF tr) p.2 p.1) with
    | none => rw [hm] at h; cases h
    | some out =>
      rw [hm] at h
      simp only at h
      split at h
      · by_cases he : (outErrors tr ++ out.flatMap (·.2)).isEmpty = true
        · rw [if_pos he] at h
          simp only at h
          cases ha : assembleAll rt.ovf (out.map (·.1)) with
          | none => rw [ha] at h; cases h
          | some is' =>
            rw [ha] at h
            cases h
            simp only [List.isEmpty_iff, List.append_eq_nil_iff, List.flatMap_eq_nil_iff] at he
            obtain ⟨m1, m2⟩ := (mapM_some_iff _ _ _).1 hm
            obtain ⟨a1, a2⟩ := (mapM_some_iff _ _ _).1 ha
            refine ⟨tr, hT, he.1, rfl, by simp at m1 a1; omega, ?_⟩
            intro i p hp
            obtain ⟨b, hb1, hb2⟩ := m2 i (p, i) (by simp [hp])
            obtain ⟨c, hc1, hc2⟩ := a2 i b.1 (by simp [hb1])
            have hes : b.2 = [] := he.2 b (List.mem_of_getElem? hb1)
            obtain ⟨b1, b2⟩ := b
            simp only at hes hc2
            subst hes
            have nb : NoBytes b1 := adjust1_noBytes (trace_fresh hT hp).noBytes hb2
            obtain ⟨e1, e2⟩ := assembleInst_getBytes nb hc2
            exact ⟨b1, c, ⟨hb2, e1, nb, e2⟩, hc1, hc2⟩
        · rw [if_neg he] at h; cases h
      · cases h

/-- A way to show that an assembly succeeds. -/
theorem assemble_of [Unicode] {rt : Rt} {m : Mipsasm} {text : Str} {tr : List Outcome}
    (hT : IsTrace (envOf rt m text) (lines text) tr) (he : outErrors tr = [])
    (hd : ∀ i p, (outInsts 0 tr)[i]? = some p → ∃ a ws, Done (envOf rt m text) tr i p a ws) :
    ∃ is, assemble rt m text = .ok is (outWarns tr) := by
  have ht := (isTrace_iff _ _ _).2 hT
  obtain ⟨out, hm⟩ := mapM_exists (fun p : (Nat × Instruction) × Nat => adjust1 (envOf rt m text) (canonF tr) p.2 p.1) (outInsts 0 tr).zipIdx (by
    rintro ⟨p, i⟩ hp
    rw [List.mem_zipIdx_iff_getElem?] at hp
    obtain ⟨a, ws, h⟩ := hd i p (by simpa using hp)
    exact ⟨_, h.1⟩)
  obtain ⟨m1, m2⟩ := (mapM_some_iff _ _ _).1 hm
  have key : ∀ (i : Nat) (b : Instruction × List ParserError), out[i]? = some b → ∃ ws, b.2 = [] ∧ encode rt.ovf b.1 = some ws ∧ NoBytes b.1 ∧ ∀ w, b.1 ≠ .bytes w := by
    intro i b hb
    have hi : i < (outInsts 0 tr).length := by
      have := (List.getElem?_eq_some_iff.1 hb).1
      simp at m1; omega
    have hp : (outInsts 0 tr)[i]? = some (outInsts 0 tr)[i] := List.getElem?_eq_getElem hi
    obtain ⟨a, ws, h1, h2, h3, h4⟩ := hd i _ hp
    obtain ⟨b', e1, e2⟩ := m2 i ((outInsts 0 tr)[i], i) (by simp [hi])
    rw [hb] at e1
    cases e1
    rw [h1] at e2
    cases e2
    exact ⟨ws, rfl, h2, h3, h4⟩
  have hfl : out.flatMap (·.2) = [] := by
    rw [List.flatMap_eq_nil_iff]
    intro b hb
    obtain ⟨i, hi⟩ := List.getElem?_of_mem hb
    exact (key i b hi).choose_spec.1
  obtain ⟨is, ha⟩ := mapM_exists (assembleInst rt.ovf) (out.map (·.1)) (by
    intro a ha
    obtain ⟨b, hb, rfl⟩ := List.mem_map.1 ha
    obtain ⟨i, hi⟩ := List.getElem?_of_mem hb
    obtain ⟨ws, _, h2, h3, h4⟩ := key i b hi
    obtain ⟨c, hc, _⟩ := assembleInst_of h3 h2 h4
    exact ⟨c, hc⟩)
  refine ⟨is, ?_⟩
  unfold assemble
  rw [parse_eq]
  have hb : (⟨rt, m.base, m.syms, lines text⟩ : Env) = envOf rt m text := rfl
  rw [hb]
  unfold parseT
  rw [show (envOf rt m text).input = lines text from rfl, ht]
  simp only
  rw [hm]
  simp only [he, hfl, List.append_nil, List.isEmpty_nil, if_true]
  have hw : ((outWarns tr).all fun w => w.display.isSome) = true := by
    rw [List.all_eq_true]
    exact trace_warns_display (env := envOf rt m text) hT
  rw [if_pos hw]
  unfold assembleAll
  rw [ha]

/-! ### traces without rejected lines -/

theorem outErrors_nil {tr : List Outcome} (h : outErrors tr = []) : ∀ (k : Nat) ws e, tr[k]? ≠ some (.rejected ws e) := by
  induction tr with
  | nil => simp
  | cons o tr ih =>
    intro k ws e hk
    cases k with
    | zero => simp at hk; subst hk; simp [outErrors] at h
    | succ k =>
      refine ih ?_ k ws e (by simpa using hk)
      cases o <;> simp [outErrors] at h <;> exact h

theorem lineRes_kind [Unicode] {env : Env} {tr : List Outcome} {raw : Str} {o : Outcome}
    (h : lineRes env tr raw = some o) (hr : ∀ ws e, o ≠ .rejected ws e) :
    (kind raw = .blank ∧ o = .blank) ∨ (kind raw = .code ∧ ∃ ws i, o = .inst ws i) ∨
    (∃ l, kind raw = .label l ∧ isLocal l = true ∧ o = .loc l) ∨ (∃ l, kind raw = .label l ∧ isLocal l = false ∧ o = .label l) := by
  unfold lineRes at h
  split at h
  · rename_i hk; cases h; exact Or.inl ⟨hk, rfl⟩
  · rename_i l hk
    unfold labelRes at h
    split at h
    · cases h
    · split at h
      · cases h; exact absurd rfl (hr _ _)
      · split at h
        · split at h
          · cases h; exact absurd rfl (hr _ _)
          · cases h
        · split at h
          · rename_i hl; cases h; exact Or.inr (Or.inr (Or.inl ⟨_, hk, hl, rfl⟩))
          · rename_i hl; cases h; exact Or.inr (Or.inr (Or.inr ⟨_, hk, by simpa using hl, rfl⟩))
  · rename_i hk
    refine Or.inr (Or.inl ⟨hk, ?_⟩)
    unfold instRes at h
    split at h
    · cases h; exact ⟨_, _, rfl⟩
    · cases h; exact absurd rfl (hr _ _)
    · cases h

/-- The trace matches the kinds of the lines. -/
def Matches (raw : Str) (o : Outcome) : Prop :=
  (kind raw = .blank ∧ o = .blank) ∨ (kind raw = .code ∧ ∃ ws i, o = .inst ws i) ∨
    (∃ l, kind raw = .label l ∧ isLocal l = true ∧ o = .loc l) ∨ (∃ l, kind raw = .label l ∧ isLocal l = false ∧ o = .label l)

theorem trace_matches [Unicode] {env : Env} {ls : List Str} {tr : List Outcome} (h : IsTrace env ls tr) (he : outErrors tr = [])
    {k : Nat} {raw : Str} {o : Outcome} (h1 : ls[k]? = some raw) (h2 : tr[k]? = some o) : Matches raw o :=
  lineRes_kind (h.2 k raw o h1 h2) (fun ws e h3 => outErrors_nil he k ws e (by rw [h2, h3]))

theorem matches_counts {ls : List Str} {tr : List Outcome} (hl : tr.length = ls.length)
    (h : ∀ (k : Nat) raw o, ls[k]? = some raw → tr[k]? = some o → Matches raw o) (n j : Nat) :
    outLabels n tr = globalsFrom n ls ∧ (outInsts j tr).length = codeCount ls := by
  induction ls generalizing tr n j with
  | nil => rw [List.length_eq_zero_iff.1 hl]; exact ⟨rfl, rfl⟩
  | cons raw ls ih =>
    cases tr with
    | nil => simp at hl
    | cons o tr =>
      have h0 := h 0 raw o rfl rfl
      have hs := ih (tr := tr) (by simpa using hl) (fun k r o' a b => h (k + 1) r o' (by simpa using a) (by simpa using b))
      rcases h0 with ⟨hk, rfl⟩ | ⟨hk, ws, i, rfl⟩ | ⟨l, hk, hlo, rfl⟩ | ⟨l, hk, hlo, rfl⟩
      · simp only [outLabels, outInsts, globalsFrom, hk, codeCount, List.filter_cons, isCode]
        exact ⟨(hs n (j + 1)).1, (hs n (j + 1)).2⟩
      · simp only [outLabels, outInsts, globalsFrom, hk, codeCount, List.filter_cons, isCode]
        exact ⟨(hs (n + 1) (j + 1)).1, by simp; exact (hs n (j + 1)).2⟩
      · simp only [outLabels, outInsts, globalsFrom, hk, codeCount, List.filter_cons, isCode]
        rw [if_pos hlo]
        exact ⟨(hs n (j + 1)).1, by simp; exact (hs n (j + 1)).2⟩
      · simp only [outLabels, outInsts, globalsFrom, hk, codeCount, List.filter_cons, isCode]
        rw [if_neg (by simp [hlo])]
        exact ⟨by rw [(hs n (j + 1)).1], by simp; exact (hs n (j + 1)).2⟩

theorem trace_counts [Unicode] {env : Env} {ls : List Str} {tr : List Outcome} (h : IsTrace env ls tr) (he : outErrors tr = [])
    (k : Nat) : outLabels 0 (tr.take k) = globals (ls.take k) ∧ (outInsts 0 (tr.take k)).length = codeCount (ls.take k) := by
  refine matches_counts (by simp [h.1]) ?_ 0 0
  intro j raw o h1 h2
  rw [List.getElem?_take] at h1 h2
  split at h1
  · rw [if_pos ‹_›] at h2; exact trace_matches h he h1 h2
  · cases h1

theorem trace_counts_all [Unicode] {env : Env} {ls : List Str} {tr : List Outcome} (h : IsTrace env ls tr) (he : outErrors tr = []) :
    outLabels 0 tr = globals ls ∧ (outInsts 0 tr).length = codeCount ls := by
  have := trace_counts h he ls.length
  rw [List.take_of_length_le (by rw [h.1]; exact Nat.le_refl _), List.take_of_length_le (Nat.le_refl _)] at this
  exact this

end Mips
