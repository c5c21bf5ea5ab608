/- Lines whose words do not depend on the rest of the program. -/
import Verif.Lemmas.ProgL
import Verif.Lemmas.NativeT
import Verif.Spec.Program

namespace Mips
open Source Syntax

/-- Label resolution leaves this instruction alone. -/
def Settled : Instruction → Prop
  | .imm _ _ _ (.short _) b => b = []
  | .imm op _ _ (.int _) b => startsWith c!"b" op.name = false ∧ b = []
  | .imm _ _ _ (.long _) b => b = []
  | .reg _ _ _ _ _ b => b = []
  | .jump _ (.address _) b => b = []
  | _ => False

theorem Plain.settled {a : Instruction} (h : Plain a) : Settled a := by
  unfold Plain at h
  split at h
  · exact h
  · exact h
  · cases h

theorem Settled.adjust {a : Instruction} (h : Settled a) (env : Env) (s : PState) (i n : Nat) :
    adjust1 env s i (n, a) = some (a, []) := by
  unfold Settled at h
  split at h
  · rfl
  · simp [adjust1, h.1]
  · rfl
  · rfl
  · rfl
  · cases h

theorem Settled.noBytes {a : Instruction} (h : Settled a) : NoBytes a := by
  unfold Settled at h
  split at h
  · exact h
  · exact h.2
  · exact h
  · exact h
  · exact h
  · cases h

theorem Settled.notBytes {a : Instruction} (h : Settled a) (w : Word) : a ≠ .bytes w := by
  rintro rfl; exact h

/-- The instruction text `line` is accepted in context `x` and emits `ws`. -/
def Emits [Unicode] (x : Ctx) (line : Str) (ovf : Bool) (ws : List Word) : Prop :=
  ∃ a, (parseInst x line).res = .ok a ∧ Settled a ∧ encode ovf a = some ws

/-- The contexts in which line `k` of a program may be parsed. -/
structure AtLine (rt : Rt) (m : Mipsasm) (ls : List Str) (k : Nat) (x : Ctx) : Prop where
  ovf : x.ovf = rt.ovf
  syms : x.syms = m.syms
  labels : x.labels = globals (ls.take k)
  lineNum : x.lineNum = k + 1
  content : x.content = (ls[k]?).getD []

theorem ctxAt_atLine [Unicode] {rt : Rt} {m : Mipsasm} {text : Str} {tr : List Outcome} {n : Nat}
    (h : IsTrace (envOf rt m text) ((lines text).take n) tr) (he : outErrors tr = []) (hn : n ≤ (lines text).length) :
    AtLine rt m (lines text) n (ctxAt (envOf rt m text) tr) := by
  have hl : tr.length = n := by rw [h.1]; simp; omega
  refine ⟨rfl, rfl, (trace_counts_all h he).1, ?_, ?_⟩
  · simp [ctxAt, hl]
  · simp [ctxAt, hl, envOf]

theorem isTrace_take [Unicode] {env : Env} {ls : List Str} {tr : List Outcome} (h : IsTrace env ls tr) (k : Nat) :
    IsTrace env (ls.take k) (tr.take k) := by
  refine ⟨by simp [h.1], ?_⟩
  intro j raw o h1 h2
  rw [List.getElem?_take] at h1 h2
  split at h1
  · rename_i hj
    rw [if_pos hj] at h2
    rw [List.take_take, Nat.min_eq_left (Nat.le_of_lt hj)]
    exact h.2 j raw o h1 h2
  · cases h1

theorem outErrors_take {tr : List Outcome} (h : outErrors tr = []) (k : Nat) : outErrors (tr.take k) = [] := by
  have := outErrors_append (tr.take k) (tr.drop k)
  rw [List.take_append_drop, h] at this
  exact (List.append_eq_nil_iff.1 this.symm).1

/-- In a successful assembly, what an instruction line was parsed to, and what was emitted for it. -/
theorem line_done [Unicode] {rt : Rt} {m : Mipsasm} {text : Str} {is : List Instruction} {warns : List ParserWarning}
    (h : assemble rt m text = .ok is warns) {k : Nat} {raw : Str} (hk : (lines text)[k]? = some raw) (hc : kind raw = .code) :
    ∃ (tr : List Outcome) (x : Ctx) (ws : List ParserWarning) (p a b : Instruction),
      IsTrace (envOf rt m text) (lines text) tr ∧ outErrors tr = [] ∧ x = ctxAt (envOf rt m text) (tr.take k) ∧
      AtLine rt m (lines text) k x ∧
      tr[k]? = some (.inst ws p) ∧ parseInst x (body raw) = ⟨ws, .ok p⟩ ∧
      adjust1 (envOf rt m text) (canonF tr) (codeCount ((lines text).take k)) (k + 1, p) = some (a, []) ∧
      encode rt.ovf a = some b.getBytes ∧ assembleInst rt.ovf a = some b ∧
      is[codeCount ((lines text).take k)]? = some b ∧ is.length = codeCount (lines text) := by
  obtain ⟨tr, hT, he, _, hlen, hall⟩ := assemble_ok h
  have hlt : k < (lines text).length := (List.getElem?_eq_some_iff.1 hk).1
  have hlt' : k < tr.length := by rw [hT.1]; exact hlt
  have ho : tr[k]? = some tr[k] := List.getElem?_eq_getElem hlt'
  have hm := trace_matches hT he hk ho
  rcases hm with ⟨h1, _⟩ | ⟨_, ws, p, h2⟩ | ⟨l, h1, _⟩ | ⟨l, h1, _⟩
  · rw [hc] at h1; cases h1
  · rw [h2] at ho
    obtain ⟨raw', e1, _, e3⟩ := trace_inst hT ho
    rw [hk] at e1; cases e1
    have hc2 := (trace_counts hT he k).2
    have hi := outInsts_at ho
    rw [hc2] at hi
    obtain ⟨a, b, hd, hb, hab⟩ := hall _ _ hi
    refine ⟨tr, _, ws, p, a, b, hT, he, rfl, ctxAt_atLine (isTrace_take hT k) (outErrors_take he k) (Nat.le_of_lt hlt), ho, e3,
      hd.1, hd.2.1, hab, hb, by rw [hlen, (trace_counts_all hT he).2]⟩
  · rw [hc] at h1; cases h1
  · rw [hc] at h1; cases h1

/-- In a successful assembly, a line that emits `ws` in its context does so. -/
theorem line_words [Unicode] {rt : Rt} {m : Mipsasm} {text : Str} {is : List Instruction} {warns : List ParserWarning}
    (h : assemble rt m text = .ok is warns) {k : Nat} {raw : Str} (hk : (lines text)[k]? = some raw) (hc : kind raw = .code)
    {ws : List Word} (he : ∀ x, AtLine rt m (lines text) k x → Emits x (body raw) rt.ovf ws) :
    (is[codeCount ((lines text).take k)]?).map Instruction.getBytes = some ws := by
  obtain ⟨tr, x, wn, p, a, b, _, _, _, hx, _, hp, ha, hb, _, hi, _⟩ := line_done h hk hc
  obtain ⟨a', e1, e2, e3⟩ := he x hx
  rw [hp] at e1
  cases e1
  rw [e2.adjust] at ha
  cases ha
  rw [e3] at hb
  cases hb
  rw [hi]; rfl

/-- A label that may be defined after the global labels `ls`. -/
def LabelOk [Unicode] (l : Str) (known : List (Str × Nat)) : Prop :=
  (∃ c t, l = c :: t ∧ Unicode.isNumeric c = false) ∧ ∀ e ∈ known, e.1 ≠ l

theorem lookup_none_of {l : List (Str × Nat)} {k : Str} (h : ∀ e ∈ l, e.1 ≠ k) : l.lookup k = none := by
  induction l with
  | nil => rfl
  | cons e l ih =>
    obtain ⟨a, b⟩ := e
    rw [List.lookup_cons]
    have := h (a, b) (by simp)
    simp only [ne_eq] at this
    rw [show (k == a) = false by simp; exact fun hh => this hh.symm]
    exact ih (fun e he => h e (by simp [he]))

theorem labelRes_ok [Unicode] {env : Env} {tr : List Outcome} {l : Str} (h : LabelOk l (outLabels 0 tr)) :
    labelRes env tr l = some (if isLocal l then .loc l else .label l) := by
  obtain ⟨⟨c, t, rfl, hc⟩, hn⟩ := h
  unfold labelRes
  simp only [hc, lookup_none_of hn]
  rfl

theorem isTrace_snoc [Unicode] {env : Env} {ls : List Str} {tr : List Outcome} (h : IsTrace env ls tr) {raw : Str} {o : Outcome}
    (ho : lineRes env tr raw = some o) : IsTrace env (ls ++ [raw]) (tr ++ [o]) := by
  rw [← isTrace_iff] at *
  have key : ∀ pre, traceFrom env pre ls = some tr → traceFrom env pre (ls ++ [raw]) = some (tr ++ [o]) := by
    intro pre
    clear h
    induction ls generalizing pre with
    | nil => intro h; simp only [traceFrom] at h; cases h; simp [traceFrom, ho]
    | cons r ls ih =>
      intro h
      simp only [List.cons_append, traceFrom] at h ⊢
      cases hr : lineRes env pre r with
      | none => rw [hr] at h; cases h
      | some o' => rw [hr] at h; simp only at h ⊢; exact ih _ h
  exact key [] h

/-- A program of blank lines, acceptable labels and lines that emit words in their context assembles. -/
theorem prog_trace [Unicode] {rt : Rt} {m : Mipsasm} {text : Str}
    (hl : ∀ (k : Nat) raw l, (lines text)[k]? = some raw → kind raw = .label l → LabelOk l (globals ((lines text).take k)))
    (hc : ∀ (k : Nat) raw, (lines text)[k]? = some raw → kind raw = .code →
      ∀ x, AtLine rt m (lines text) k x → ∃ ws, Emits x (body raw) rt.ovf ws) (n : Nat) (hn : n ≤ (lines text).length) :
    ∃ tr, IsTrace (envOf rt m text) ((lines text).take n) tr ∧ outErrors tr = [] ∧
      ∀ (k : Nat) ws i, tr[k]? = some (.inst ws i) → Settled i ∧ ∃ ws, encode rt.ovf i = some ws := by
  induction n with
  | zero => exact ⟨[], ⟨by simp, by simp⟩, rfl, by simp⟩
  | succ n ih =>
    obtain ⟨tr, h1, h2, h3⟩ := ih (by omega)
    have hlt : n < (lines text).length := by omega
    have hr : (lines text)[n]? = some (lines text)[n] := List.getElem?_eq_getElem hlt
    have hat := ctxAt_atLine h1 h2 (by omega)
    have hlen : tr.length = n := by rw [h1.1]; simp; omega
    rw [List.take_succ, hr]
    generalize (lines text)[n] = raw at hr ⊢
    simp only [Option.toList_some]
    have fin : ∀ o, lineRes (envOf rt m text) tr raw = some o → (∀ ws e, o ≠ .rejected ws e) →
        (∀ ws i, o = .inst ws i → Settled i ∧ ∃ ws, encode rt.ovf i = some ws) →
        ∃ tr, IsTrace (envOf rt m text) ((lines text).take n ++ [raw]) tr ∧ outErrors tr = [] ∧
          ∀ (k : Nat) ws i, tr[k]? = some (.inst ws i) → Settled i ∧ ∃ ws, encode rt.ovf i = some ws := by
      intro o ho hno hs
      refine ⟨tr ++ [o], isTrace_snoc h1 ho, ?_, ?_⟩
      · rw [outErrors_append, h2]
        cases o with
        | rejected ws e => exact absurd rfl (hno ws e)
        | _ => rfl
      · intro k ws i hk
        rw [List.getElem?_append] at hk
        split at hk
        · exact h3 k ws i hk
        · cases hd : k - tr.length with
          | zero => rw [hd] at hk; simp at hk; exact hs ws i hk
          | succ d => rw [hd] at hk; simp at hk
    cases hk : kind raw with
    | blank => exact fin .blank (by simp [lineRes, hk]) (by simp) (by simp)
    | label l =>
      have hok := hl n raw l hr hk
      rw [← (trace_counts_all h1 h2).1] at hok
      refine fin _ (by simp only [lineRes, hk]; exact labelRes_ok hok) ?_ ?_
      · intro ws e; split <;> simp
      · intro ws i; split <;> simp
    | code =>
      obtain ⟨ws, a, e1, e2, e3⟩ := hc n raw hr hk _ hat
      refine fin (.inst (parseInst (ctxAt (envOf rt m text) tr) (body raw)).warns a) (by simp [lineRes, hk, instRes, e1]) (by simp) ?_
      rintro ws' i he
      cases he
      exact ⟨e2, ws, e3⟩

theorem prog_ok [Unicode] {rt : Rt} {m : Mipsasm} {text : Str}
    (hl : ∀ (k : Nat) raw l, (lines text)[k]? = some raw → kind raw = .label l → LabelOk l (globals ((lines text).take k)))
    (hc : ∀ (k : Nat) raw, (lines text)[k]? = some raw → kind raw = .code →
      ∀ x, AtLine rt m (lines text) k x → ∃ ws, Emits x (body raw) rt.ovf ws) :
    ∃ is warns, assemble rt m text = .ok is warns := by
  obtain ⟨tr, h1, h2, h3⟩ := prog_trace (rt := rt) (m := m) hl hc (lines text).length (Nat.le_refl _)
  rw [List.take_of_length_le (Nat.le_refl _)] at h1
  obtain ⟨is, h⟩ := assemble_of h1 h2 (by
    intro i p hp
    obtain ⟨k, ws, e1, _, _⟩ := outInsts_get hp
    obtain ⟨hs, ws', he⟩ := h3 k ws p.2 e1
    exact ⟨p.2, ws', hs.adjust _ _ _ _, he, hs.noBytes, hs.notBytes⟩)
  exact ⟨is, _, h⟩

theorem is_length [Unicode] {rt : Rt} {m : Mipsasm} {text : Str} {is : List Instruction} {warns : List ParserWarning}
    (h : assemble rt m text = .ok is warns) : is.length = codeCount (lines text) := by
  obtain ⟨tr, hT, he, _, hlen, _⟩ := assemble_ok h
  rw [hlen, (trace_counts_all hT he).2]

/-- The code lines of a program, in order. -/
theorem code_get {ls : List Str} {i : Nat} (h : i < codeCount ls) : ∃ k raw, ls[k]? = some raw ∧ kind raw = .code ∧
    codeCount (ls.take k) = i := by
  induction ls generalizing i with
  | nil => simp [codeCount] at h
  | cons r ls ih =>
    by_cases hr : isCode r = true
    · cases i with
      | zero => exact ⟨0, r, rfl, by simpa [isCode] using hr, rfl⟩
      | succ i =>
        simp [codeCount, hr] at h
        obtain ⟨k, raw, h1, h2, h3⟩ := ih (i := i) (by simpa [codeCount] using h)
        refine ⟨k + 1, raw, by simpa using h1, h2, ?_⟩
        simp [codeCount, hr]; simpa [codeCount] using h3
    · simp [codeCount, hr] at h
      obtain ⟨k, raw, h1, h2, h3⟩ := ih (i := i) (by simpa [codeCount] using h)
      refine ⟨k + 1, raw, by simpa using h1, h2, ?_⟩
      simp [codeCount, hr]; simpa [codeCount] using h3

theorem codeCount_append (a b : List Str) : codeCount (a ++ b) = codeCount a + codeCount b := by
  simp [codeCount]

/-- The words of a whole program from those of its lines. -/
theorem words_of_lines {ls : List Str} {is : List Instruction} (f : Str → List Word) (hlen : is.length = codeCount ls)
    (h : ∀ (k : Nat) raw, ls[k]? = some raw → kind raw = .code → (is[codeCount (ls.take k)]?).map Instruction.getBytes = some (f raw)) :
    getBytes is = (ls.filter isCode).flatMap f := by
  induction ls generalizing is with
  | nil => rw [List.length_eq_zero_iff.1 hlen]; rfl
  | cons r ls ih =>
    by_cases hr : isCode r = true
    · have h0 := h 0 r rfl (by simpa [isCode] using hr)
      cases is with
      | nil => simp [codeCount, hr] at hlen
      | cons i is =>
        simp [codeCount] at h0
        rw [List.filter_cons, if_pos hr, List.flatMap_cons, ← ih (is := is) (by simpa [codeCount, hr] using hlen), getBytes, List.flatMap_cons, h0]
        · rfl
        · intro k raw hk hc
          have := h (k + 1) raw (by simpa using hk) hc
          simpa [codeCount, hr] using this
    · rw [List.filter_cons, if_neg hr]
      refine ih (by simpa [codeCount, hr] using hlen) ?_
      intro k raw hk hc
      have := h (k + 1) raw (by simpa using hk) hc
      simpa [codeCount, hr] using this

/-- A program whose code lines are related to their words by `R`. -/
inductive ProgOf (R : Str → List Word → Prop) : List Str → List Word → Prop
  | nil : ProgOf R [] []
  | skip (raw ls ws) : kind raw ≠ .code → ProgOf R ls ws → ProgOf R (raw :: ls) ws
  | code (raw ls v ws) : kind raw = .code → R raw v → ProgOf R ls ws → ProgOf R (raw :: ls) (v ++ ws)

theorem words_of_prog {R : Str → List Word → Prop} {ls : List Str} {ws : List Word} (hp : ProgOf R ls ws)
    {is : List Instruction} (hlen : is.length = codeCount ls)
    (h : ∀ (k : Nat) raw v, ls[k]? = some raw → kind raw = .code → R raw v →
      (is[codeCount (ls.take k)]?).map Instruction.getBytes = some v) : getBytes is = ws := by
  induction hp generalizing is with
  | nil => rw [List.length_eq_zero_iff.1 hlen]; rfl
  | skip r ls ws hr _ ih =>
    have hr : ¬ isCode r = true := by simpa [isCode] using hr
    refine ih (by simpa [codeCount, hr] using hlen) ?_
    intro k raw v hk hc hv
    have := h (k + 1) raw v (by simpa using hk) hc hv
    simpa [codeCount, hr] using this
  | code r ls v ws hr hR _ ih =>
    have hr' : isCode r = true := by simpa [isCode] using hr
    have h0 := h 0 r v rfl hr hR
    cases is with
    | nil => simp [codeCount, hr'] at hlen
    | cons i is =>
      simp [codeCount] at h0
      rw [← ih (is := is) (by simpa [codeCount, hr'] using hlen), getBytes, List.flatMap_cons, h0]
      · rfl
      · intro k raw v' hk hc hv
        have := h (k + 1) raw v' (by simpa using hk) hc hv
        simpa [codeCount, hr'] using this

theorem globals_take_mem {ls : List Str} {k : Nat} {e : Str × Nat} (h : e ∈ globals (ls.take k)) : e ∈ globals ls := by
  have key : ∀ (ls : List Str) (k n : Nat), e ∈ globalsFrom n (ls.take k) → e ∈ globalsFrom n ls := by
    intro ls
    induction ls with
    | nil => intro k n h; simpa using h
    | cons r ls ih =>
      intro k n h
      cases k with
      | zero => simp [globalsFrom] at h
      | succ k =>
        rw [List.take_succ_cons] at h
        unfold globalsFrom at h ⊢
        split at h
        · exact ih _ _ h
        · exact ih _ _ h
        · split at h
          · rw [if_pos ‹_›]; exact ih _ _ h
          · rw [if_neg ‹_›]
            rcases List.mem_cons.1 h with h | h
            · exact List.mem_cons.2 (Or.inl h)
            · exact List.mem_cons.2 (Or.inr (ih _ _ h))
  exact key ls k 0 h

theorem AtLine.noNum {rt : Rt} {m : Mipsasm} {ls : List Str} {k : Nat} {x : Ctx} (h : AtLine rt m ls k x)
    (hn : NoNumeralLabel ls) : NoNumLabel x.labels := by
  intro e he v
  rw [h.labels] at he
  exact hn e (globals_take_mem he) v

end Mips
