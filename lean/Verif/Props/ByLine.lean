/- C36: label-free programs assemble line by line. -/
import Verif.Props.Base
import Verif.Props.RoundTrip
import Verif.Lemmas.LocalL
import Verif.Lemmas.ReadL

namespace Mips
open Source Branch

theorem resEq_bind {α β} {w v : W α} {f f' : α → W β} (h1 : w.res = v.res) (h2 : ∀ a, (f a).res = (f' a).res) : (w >>= f).res = (v >>= f').res := by
  obtain ⟨ws, r⟩ := w
  obtain ⟨vs, q⟩ := v
  simp only at h1
  subst h1
  cases r with
  | ok a => exact h2 a
  | err e => rfl
  | panic => rfl
theorem resEq_mkI {op : Str} {a b : Register} {w v : W Immediate} (h : w.res = v.res) : (mkI op a b w).res = (mkI op a b v).res :=
  resEq_bind rfl fun _ => resEq_bind h fun _ => rfl

set_option maxHeartbeats 4000000 in
theorem arm_delay [Unicode] (x : Ctx) (b : Bool) (cls : Cls) (op arg : Str) : (parseArm x cls op arg).res = (parseArm {x with lastDelay := b} cls op arg).res := by
  have hd : (delayCheck x).res = (delayCheck {x with lastDelay := b}).res := by
    unfold delayCheck
    split <;> split <;> rfl
  unfold parseArm
  generalize split ',' arg = args
  cases cls
  all_goals simp only [parseFloat, parseBranch0, parseLi]
  all_goals repeat' first
    | with_reducible exact hd
    | with_reducible rfl
    | with_reducible refine resEq_mkI ?_
    | (with_reducible refine resEq_bind ?_ (fun _ => ?_))
    | split
    | rfl

/-- What a line is parsed to depends only on the symbols and labels. -/
theorem parse_res [Unicode] {x y : Ctx} (h1 : x.ovf = y.ovf) (h2 : x.syms = y.syms) (h3 : x.labels = y.labels) {s : Str} {p : Instruction}
    (h : (parseInst x s).res = .ok p) : (parseInst y s).res = .ok p := by
  by_cases hs : s = []
  · subst hs; cases h
  · rw [parseInst_eq _ hs] at h ⊢
    rw [arm_delay _ false] at h ⊢
    have := (sim_arm (g := fun _ => ()) (h := fun _ => ()) (x := {x with lastDelay := false}) (y := {y with lastDelay := false})
      ⟨⟨fun _ _ _ => rfl, fun _ _ _ => rfl⟩, h1, h2, h3, wsim_refl _⟩ (classify (mnemonic s)) (firstWord s) (operandText s)).2
    revert this h
    generalize (parseArm {x with lastDelay := false} _ _ _).res = r
    generalize (parseArm {y with lastDelay := false} _ _ _).res = r'
    intro h k
    subst h
    cases r' <;> simp only [RSim] at k
    rw [k]

/-- What a line without labels and branches emits, wherever it stands. -/
def LineEmits [Unicode] (rt : Rt) (m : Mipsasm) (raw : Str) (ws : List Word) : Prop :=
  ∀ x : Ctx, x.ovf = rt.ovf → x.syms = m.syms → x.labels = [] → Emits x (body raw) rt.ovf ws

theorem take_sub {α} {ls : List α} {k : Nat} {a : α} (h : a ∈ ls.take k) : a ∈ ls := List.mem_of_mem_take h

/-- A program all of whose lines emit something. -/
theorem byLine_ok [Unicode] (rt : Rt) (m : Mipsasm) (text : Str) (hl : ∀ raw ∈ lines text, ∀ l, kind raw ≠ .label l) (f : Str → List Word)
    (he : ∀ raw ∈ lines text, kind raw = .code → LineEmits rt m raw (f raw)) :
    (assemble rt m text).words = some (((lines text).filter isCode).flatMap f) := by
  have hat : ∀ (k : Nat) raw, (lines text)[k]? = some raw → kind raw = .code → ∀ x, AtLine rt m (lines text) k x → Emits x (body raw) rt.ovf (f raw) := by
    intro k raw hk hc x hx
    refine he raw (List.mem_of_getElem? hk) hc x hx.ovf hx.syms ?_
    rw [hx.labels]
    exact globals_nil fun raw hr => hl raw (take_sub hr)
  obtain ⟨is, warns, h⟩ := prog_ok (rt := rt) (m := m) (text := text) (fun k raw l hk hc => absurd hc (hl raw (List.mem_of_getElem? hk) l))
    (fun k raw hk hc x hx => ⟨_, hat k raw hk hc x hx⟩)
  rw [h]
  show some (getBytes is) = _
  rw [words_of_lines f (is_length h) (fun k raw hk hc => line_words h hk hc (hat k raw hk hc))]

/-- A line of a program that assembles emits something. -/
theorem byLine_emits [Unicode] {rt : Rt} {m : Mipsasm} {text : Str} {is : List Instruction} {warns : List ParserWarning}
    (h : assemble rt m text = .ok is warns) (hl : ∀ raw ∈ lines text, ∀ l, kind raw ≠ .label l)
    {k : Nat} {raw : Str} (hk : (lines text)[k]? = some raw) (hc : kind raw = .code) (hb : mnemonic (body raw) ∉ branchNames) :
    ∃ ws, LineEmits rt m raw ws := by
  obtain ⟨tr, x, ws, p, a, b, hT, he, hx, hat, htk, hp, hadj, henc, hasm, _, _⟩ := line_done h hk hc
  have hg : globals (lines text) = [] := globals_nil hl
  have hlab : x.labels = [] := by
    rw [hat.labels]; exact globals_nil fun raw hr => hl raw (take_sub hr)
  have hlabF : (canonF tr).labels = [] := by
    show outLabels 0 tr = []
    rw [(trace_counts_all hT he).1, hg]
  have hlocF : (canonF tr).dropped = [] := by
    show finalLocs tr = []
    unfold finalLocs
    have : (outLocs tr).dropped = [] := by
      cases hd : (outLocs tr).dropped with
      | nil => rfl
      | cons e l =>
        obtain ⟨d, x, hlast, _⟩ := ((outLocs_spec tr).1 e).1 (by rw [hd]; simp)
        have h1 := hlast.1
        have hlt : d < (lines text).length := by rw [← hT.1]; exact (List.getElem?_eq_some_iff.1 h1).1
        have := trace_matches hT he (List.getElem?_eq_getElem hlt) h1
        rcases this with ⟨_, h2⟩ | ⟨_, _, _, h2⟩ | ⟨l, h2, _⟩ | ⟨l, h2, _⟩
        · cases h2
        · cases h2
        · exact absurd h2 (hl _ (List.getElem_mem hlt) l)
        · exact absurd h2 (hl _ (List.getElem_mem hlt) l)
    rw [this]; rfl
  have hne : body raw ≠ [] := by
    intro e
    unfold kind at hc
    rw [e] at hc
    revert hc; decide
  have hres : (parseInst x (body raw)).res = .ok p := by rw [hp]
  have hset : Settled p := by
    have hr := hres
    rw [parseInst_eq x hne] at hr
    have hcls : isBrCls (classify (mnemonic (body raw))) = false := by
      cases hbr : isBrCls (classify (mnemonic (body raw))) with
      | false => rfl
      | true => exact absurd (classify_br hbr) hb
    rcases parseArm_ok x _ _ _ p hr with ⟨o, rs, rt', i, rfl, ho, hj, hi⟩ | ⟨o, rs, rt', rd, sa, rfl, hj⟩ | ⟨hj, o, t, q, hs, hq, rfl, ho⟩ | ⟨_, w, rfl⟩
    · rw [hcls] at hi
      cases i with
      | short => rfl
      | int => cases hi
      | long => rfl
      | localLabel l =>
        exfalso
        simp only [adjust1, hlocF, List.filter_nil, List.isEmpty_nil, if_true, opt_bind, Option.bind_eq_some_iff] at hadj
        obtain ⟨_, _, h2⟩ := hadj
        simp at h2
      | label l =>
        exfalso
        simp [adjust1, hlabF] at hadj
    · rfl
    · cases q with
      | address => rfl
      | label l =>
        exfalso
        simp only [adjust1, hlabF, List.lookup_nil, opt_bind, Option.bind_eq_some_iff] at hadj
        obtain ⟨_, _, h2⟩ := hadj
        simp at h2
    · exfalso
      simp [adjust1] at hadj
      subst hadj
      simp [assembleInst, Instruction.pushBytes, encode] at hasm
  rw [hset.adjust] at hadj
  cases hadj
  refine ⟨b.getBytes, fun y h1 h2 h3 => ⟨p, parse_res ?_ ?_ ?_ hres, hset, henc⟩⟩
  · rw [hat.ovf, h1]
  · rw [hat.syms, h2]
  · rw [hlab, h3]

/-- The words of a one-line program. -/
theorem single_words [Unicode] (rt : Rt) (m : Mipsasm) {raw : Str} (hn : '\n' ∉ raw) (hl : ∀ l, kind raw ≠ .label l)
    (hb : kind raw = .code → mnemonic (body raw) ∉ branchNames) (ws : List Word) :
    (assemble rt m raw).words = some ws ↔ (if kind raw = .code then LineEmits rt m raw ws else ws = []) := by
  have hls : ∀ r ∈ lines raw, r = raw := by
    by_cases h0 : raw = []
    · subst h0; intro r hr; cases hr
    · rw [lines_single h0 hn]; simp
  have hcode0 : kind raw = .code → raw ≠ [] := by
    rintro h rfl; revert h; decide
  constructor
  · intro h
    cases ha : assemble rt m raw with
    | err => rw [ha] at h; cases h
    | panic => rw [ha] at h; cases h
    | ok is warns =>
      split
      · rename_i hc
        have hln := lines_single (hcode0 hc) hn
        obtain ⟨v, hv⟩ := byLine_emits ha (fun r hr => by rw [hls r hr]; exact hl) (k := 0) (raw := raw) (by rw [hln]; rfl) hc (hb hc)
        have := byLine_ok rt m raw (fun r hr => by rw [hls r hr]; exact hl) (fun _ => v) (fun r hr _ => by rw [hls r hr]; exact hv)
        rw [this, hln] at h
        simp [isCode, hc] at h
        subst h
        exact hv
      · rename_i hc
        have := byLine_ok rt m raw (fun r hr => by rw [hls r hr]; exact hl) (fun _ => []) (fun r hr hk => by rw [hls r hr] at hk; exact absurd hk hc)
        rw [this] at h
        simp only [Option.some.injEq] at h
        rw [← h]; simp
  · intro h
    split at h
    · rename_i hc
      have := byLine_ok rt m raw (fun r hr => by rw [hls r hr]; exact hl) (fun _ => ws) (fun r hr _ => by rw [hls r hr]; exact h)
      rw [this, lines_single (hcode0 hc) hn]
      simp [isCode, hc]
    · rename_i hc
      subst h
      have := byLine_ok rt m raw (fun r hr => by rw [hls r hr]; exact hl) (fun _ => []) (fun r hr hk => by rw [hls r hr] at hk; exact absurd hk hc)
      rw [this]
      simp

/-- No label definitions and no branches. -/
structure Straight [Unicode] (ls : List Str) : Prop where
  labels : ∀ raw ∈ ls, ∀ l, kind raw ≠ .label l
  branches : ∀ raw ∈ ls, kind raw = .code → mnemonic (body raw) ∉ branchNames

/-- C36.  The words of a program without labels and branches are the concatenation of the words of its lines, each assembled on its
own; in particular the program assembles iff every line does. -/
theorem C36_lines [Unicode] (rt : Rt) (m : Mipsasm) (text : Str) (h : Straight (lines text)) :
    (assemble rt m text).words = ((lines text).mapM fun raw => (assemble rt m raw).words).map List.flatten := by
  have hs : ∀ raw ∈ lines text, ∀ ws, (assemble rt m raw).words = some ws ↔ (if kind raw = .code then LineEmits rt m raw ws else ws = []) :=
    fun raw hr ws => single_words rt m (lines_noNl text raw hr) (h.labels raw hr) (h.branches raw hr) ws
  have flat : ∀ (ls : List Str) (wss : List (List Word)), (∀ raw ∈ ls, raw ∈ lines text) → ls.mapM (fun raw => (assemble rt m raw).words) = some wss →
      wss.flatten = (ls.filter isCode).flatMap fun raw => ((assemble rt m raw).words).getD [] := by
    intro ls
    induction ls with
    | nil => intro wss _ h; cases h; rfl
    | cons r ls ih =>
      intro wss hm hw
      rw [List.mapM_cons] at hw
      simp only [opt_bind, Option.bind_eq_some_iff] at hw
      obtain ⟨w, h1, ws, h2, h3⟩ := hw
      cases h3
      rw [List.flatten_cons, ih ws (fun a ha => hm a (by simp [ha])) h2, List.filter_cons]
      by_cases hc : isCode r = true
      · rw [if_pos hc, List.flatMap_cons, h1]; rfl
      · rw [if_neg hc]
        have := (hs r (hm r (by simp)) w).1 h1
        rw [if_neg (by simpa [isCode] using hc)] at this
        subst this; rfl
  cases hM : (lines text).mapM fun raw => (assemble rt m raw).words with
  | some wss =>
    have hall : ∀ raw ∈ lines text, ∃ ws, (assemble rt m raw).words = some ws := by
      intro raw hr
      obtain ⟨k, hk, e⟩ := List.mem_iff_getElem.1 hr
      have hk' : (lines text)[k]? = some raw := by rw [List.getElem?_eq_getElem hk, e]
      obtain ⟨w, _, h1⟩ := ((mapM_some_iff _ _ _).1 hM).2 k raw hk'
      exact ⟨w, h1⟩
    rw [byLine_ok rt m text h.labels (fun raw => ((assemble rt m raw).words).getD [])]
    · rw [Option.map_some, flat _ wss (fun _ h => h) hM]
    · intro raw hr hc
      obtain ⟨ws, hw⟩ := hall raw hr
      have := (hs raw hr ws).1 hw
      rw [if_pos hc] at this
      rw [hw]; exact this
  | none =>
    rw [Option.map_none]
    cases ha : assemble rt m text with
    | err => rfl
    | panic => rfl
    | ok is warns =>
      exfalso
      have hall : ∀ raw ∈ lines text, ∃ ws, (assemble rt m raw).words = some ws := by
        intro raw hr
        by_cases hc : kind raw = .code
        · obtain ⟨k, hk, e⟩ := List.mem_iff_getElem.1 hr
          have hk' : (lines text)[k]? = some raw := by rw [List.getElem?_eq_getElem hk, e]
          obtain ⟨ws, hw⟩ := byLine_emits ha h.labels hk' hc (h.branches raw hr hc)
          exact ⟨ws, (hs raw hr ws).2 (by rw [if_pos hc]; exact hw)⟩
        · exact ⟨[], (hs raw hr []).2 (by rw [if_neg hc])⟩
      have key : ∀ ls : List Str, (∀ raw ∈ ls, ∃ ws, (assemble rt m raw).words = some ws) → ∃ wss, ls.mapM (fun raw => (assemble rt m raw).words) = some wss := by
        intro ls
        induction ls with
        | nil => intro _; exact ⟨[], rfl⟩
        | cons r ls ih =>
          intro hh
          obtain ⟨w, hw⟩ := hh r (by simp)
          obtain ⟨ws, hws⟩ := ih (fun a ha => hh a (by simp [ha]))
          exact ⟨w :: ws, by rw [List.mapM_cons, hw, hws]; rfl⟩
      obtain ⟨wss, hw⟩ := key _ hall
      rw [hw] at hM; cases hM

/-- C36.  Appending lines to such a program never changes the words already emitted. -/
theorem C36_append [Unicode] (rt : Rt) (m : Mipsasm) (a b : Str) (h : Straight (lines (a ++ '\n' :: b))) :
    (assemble rt m (a ++ '\n' :: b)).words =
      (do let u ← (assemble rt m (a ++ ['\n'])).words
          let v ← (assemble rt m b).words
          some (u ++ v)) := by
  have hl := lines_append a b
  have ha : Straight (lines (a ++ ['\n'])) := ⟨fun r hr => h.labels r (by rw [hl]; simp [hr]), fun r hr => h.branches r (by rw [hl]; simp [hr])⟩
  have hb : Straight (lines b) := ⟨fun r hr => h.labels r (by rw [hl]; simp [hr]), fun r hr => h.branches r (by rw [hl]; simp [hr])⟩
  rw [C36_lines rt m _ h, C36_lines rt m _ ha, C36_lines rt m _ hb, hl, List.mapM_append]
  cases (lines (a ++ ['\n'])).mapM fun raw => (assemble rt m raw).words with
  | none => rfl
  | some u =>
    cases (lines b).mapM fun raw => (assemble rt m raw).words with
    | none => rfl
    | some v => simp [opt_bind]

/-- C36 needs the absence of branches: a branch to an address depends on its position. -/
theorem C36_branch_position :
    (@assemble asciiUnicode (idRt true) Mipsasm.new c!"nop\nnop\nnop\nnop\nb 0").words = some [0#32, 0#32, 0#32, 0#32, 0x1000ffff#32] ∧
    (@assemble asciiUnicode (idRt true) Mipsasm.new c!"b 0").words = some [0x10000000#32] := by
  decide +kernel

/-! ### The hypotheses are satisfiable -/

theorem ex36 : @Straight asciiUnicode (lines c!"lui $a0, 0x8000\n\n// c\nlw $a1, 4($a0)\njr $ra\nnop") := by
  have h1 : ∀ raw ∈ lines c!"lui $a0, 0x8000\n\n// c\nlw $a1, 4($a0)\njr $ra\nnop", (kind raw = .blank ∨ kind raw = .code) ∧
      @mnemonic asciiUnicode (body raw) ∉ branchNames := by decide +kernel
  refine @Straight.mk asciiUnicode _ ?_ ?_
  · intro raw hr l e
    rcases (h1 raw hr).1 with h | h <;> rw [h] at e <;> cases e
  · intro raw hr _
    exact (h1 raw hr).2

example : (@assemble asciiUnicode (idRt true) Mipsasm.new c!"lui $a0, 0x8000\n\n// c\nlw $a1, 4($a0)\njr $ra\nnop").words =
    some [0x3c048000#32, 0x8c850004#32, 0x03e00008#32, 0#32] := by decide +kernel

end Mips
