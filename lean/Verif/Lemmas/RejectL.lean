/- A line whose parse fails is reported. -/
import Verif.Props.RoundTrip

namespace Mips
open Source Branch

/-- What is known of the parser's view at line `k`, whether or not earlier lines were rejected. -/
structure SeenAt (rt : Rt) (m : Mipsasm) (ls : List Str) (k : Nat) (raw : Str) (x : Ctx) : Prop where
  ovf : x.ovf = rt.ovf
  syms : x.syms = m.syms
  line : x.line = ⟨k + 1, raw⟩
  labels : ∀ e ∈ x.labels, ∃ d < k, ∃ raw', ls[d]? = some raw' ∧ kind raw' = .label e.1 ∧ isLocal e.1 = false

theorem outLabels_mem {tr : List Outcome} : ∀ {n : Nat} {l : Str} {a : Nat}, (l, a) ∈ outLabels n tr →
    ∃ d : Nat, tr[d]? = some (Outcome.label l) := by
  induction tr with
  | nil => intro n l a h; cases h
  | cons o tr ih =>
    intro n l a h
    cases o with
    | label l' =>
      simp only [outLabels, List.mem_cons] at h
      rcases h with h | h
      · cases h; exact ⟨0, rfl⟩
      · obtain ⟨d, hd⟩ := ih h; exact ⟨d + 1, hd⟩
    | _ => simp only [outLabels] at h; obtain ⟨d, hd⟩ := ih h; exact ⟨d + 1, hd⟩

theorem labelRes_label [Unicode] {env : Env} {tr : List Outcome} {l l' : Str} (h : labelRes env tr l = some (.label l')) :
    l' = l ∧ isLocal l = false := by
  unfold labelRes at h
  split at h
  · cases h
  · split at h
    · cases h
    · split at h
      · split at h <;> cases h
      · simp only [Option.some.injEq] at h
        split at h
        · cases h
        · rename_i hl; cases h; exact ⟨rfl, by simpa using hl⟩

theorem seenAt [Unicode] {rt : Rt} {m : Mipsasm} {text : Str} {tr : List Outcome} (h : IsTrace (envOf rt m text) (lines text) tr)
    {k : Nat} {raw : Str} (hk : (lines text)[k]? = some raw) : SeenAt rt m (lines text) k raw (ctxAt (envOf rt m text) (tr.take k)) := by
  have hlt : k < (lines text).length := (List.getElem?_eq_some_iff.1 hk).1
  have hl : (tr.take k).length = k := by rw [List.length_take, h.1]; omega
  refine ⟨rfl, rfl, ?_, ?_⟩
  · show (⟨(tr.take k).length + 1, ((envOf rt m text).input[(tr.take k).length]?).getD []⟩ : Line) = _
    rw [hl]
    show (⟨k + 1, ((lines text)[k]?).getD []⟩ : Line) = _
    rw [hk]; rfl
  · rintro ⟨l, a⟩ he
    obtain ⟨d, hd⟩ := outLabels_mem (show (l, a) ∈ outLabels 0 (tr.take k) from he)
    have hdk : d < k := by
      have := (List.getElem?_eq_some_iff.1 hd).1; omega
    have hdl : d < (lines text).length := by omega
    rw [List.getElem?_take_of_lt hdk] at hd
    have hr := h.2 d _ _ (List.getElem?_eq_getElem hdl) hd
    refine ⟨d, hdk, _, List.getElem?_eq_getElem hdl, ?_⟩
    unfold lineRes at hr
    split at hr
    · cases hr
    · rename_i l' hkind
      obtain ⟨h1, h2⟩ := labelRes_label hr
      subst h1
      exact ⟨hkind, h2⟩
    · exfalso
      unfold instRes at hr
      split at hr <;> simp at hr

/-- The outcome of line `k` of a call that returns. -/
theorem line_outcome [Unicode] {rt : Rt} {m : Mipsasm} {text : Str} {es : List ParserError} (h : (assemble rt m text).errors = some es)
    {k : Nat} {raw : Str} (hk : (lines text)[k]? = some raw) (hc : kind raw = .code) :
    ∃ x, SeenAt rt m (lines text) k raw x ∧ (parseInst x (body raw)).res ≠ .panic ∧ ∀ e, (parseInst x (body raw)).res = .err e → e ∈ es := by
  obtain ⟨tr, out, hT, hes, _, _⟩ := assemble_errors h
  have hlt : k < (lines text).length := (List.getElem?_eq_some_iff.1 hk).1
  have hlt' : k < tr.length := by rw [hT.1]; exact hlt
  have hr := hT.2 k _ _ hk (List.getElem?_eq_getElem hlt')
  unfold lineRes at hr
  rw [hc] at hr
  simp only at hr
  refine ⟨_, seenAt hT hk, ?_, ?_⟩
  · intro hp
    unfold instRes at hr
    rw [hp] at hr
    cases hr
  · intro e he
    unfold instRes at hr
    rw [he] at hr
    simp only [Option.some.injEq] at hr
    rw [hes, List.mem_append]
    left
    exact outErrors_mem (by rw [List.getElem?_eq_getElem hlt', ← hr])

/-- A line that is rejected in every state is reported. -/
theorem line_reported [Unicode] {rt : Rt} {m : Mipsasm} {text : Str} {k : Nat} {raw : Str} (hk : (lines text)[k]? = some raw)
    (hc : kind raw = .code) {e : ParserError}
    (hx : ∀ x, SeenAt rt m (lines text) k raw x → (parseInst x (body raw)).res = .err e) :
    ∀ es, (assemble rt m text).errors = some es → e ∈ es := by
  intro es h
  obtain ⟨x, h1, _, h3⟩ := line_outcome h hk hc
  exact h3 e (hx x h1)

/-- A one-line program that is rejected. -/
theorem alone_reported [Unicode] {rt : Rt} {m : Mipsasm} {text raw : Str} (hl : lines text = [raw])
    (hc : kind raw = .code) {e : ParserError} {ws : List ParserWarning}
    (hx : ∀ x, SeenAt rt m (lines text) 0 raw x → x.labels = [] → x.lastDelay = false → parseInst x (body raw) = ⟨ws, .err e⟩) :
    assemble rt m text = .err [e] ws := by
  have hin : (envOf rt m text).input = [raw] := hl
  have hs : SeenAt rt m (lines text) 0 raw (ctxAt (envOf rt m text) []) := by
    refine ⟨rfl, rfl, ?_, ?_⟩
    · show (⟨0 + 1, ((envOf rt m text).input[0]?).getD []⟩ : Line) = _
      rw [hin]; rfl
    · intro e he; cases he
  have hp := hx _ hs rfl rfl
  have hr : lineRes (envOf rt m text) [] raw = some (.rejected ws e) := by
    unfold lineRes
    rw [hc]
    simp only [hp, instRes]
  unfold assemble
  rw [parse_eq]
  have hb : (⟨rt, m.base, m.syms, lines text⟩ : Env) = envOf rt m text := rfl
  rw [hb]
  have hT : IsTrace (envOf rt m text) (envOf rt m text).input [.rejected ws e] := by
    rw [← isTrace_iff, hin]
    simp only [traceFrom, hr, List.nil_append]
  have hd : (ws.all fun w => w.display.isSome) = true := by
    rw [List.all_eq_true]
    intro w hw
    exact trace_warns_display hT w (by simpa [outWarns] using hw)
  unfold parseT
  rw [hin]
  simp only [traceFrom, hr, List.nil_append]
  simp [outInsts, outWarns, outErrors, hd]

/-- A one-line program that makes the parser panic. -/
theorem alone_panics [Unicode] {rt : Rt} {m : Mipsasm} {text : Str} {k : Nat} {raw : Str} (hk : (lines text)[k]? = some raw)
    (hc : kind raw = .code)
    (hx : ∀ x, SeenAt rt m (lines text) k raw x → (parseInst x (body raw)).res = .panic) :
    assemble rt m text = .panic := by
  cases h : (assemble rt m text).errors with
  | none => cases ha : assemble rt m text <;> rw [ha] at h <;> simp_all [AsmOut.errors]
  | some es =>
    obtain ⟨x, h1, h2, _⟩ := line_outcome h hk hc
    exact absurd (hx x h1) h2

theorem kind_code_ne {raw : Str} (h : kind raw = .code) : body raw ≠ [] := by
  intro e
  unfold kind at h
  rw [e] at h
  revert h; decide

end Mips
