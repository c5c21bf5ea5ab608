/-
**C89** — several runs of the tool at the same time do not disturb each other.
-/
import Verif.Props.IoRun
import Verif.Props.RerunP
import Verif.Spec.Parallel

namespace Mips
open Cli

/-- The files a run reads or writes. -/
def Uses (c : Cmd) (p : Str) : Prop := p = c.input ∨ c.syms = some p ∨ c.output = some p

/-- What remains to be done uses no other files, and writes to the output file only. -/
def Keeps (c : Cmd) : Io → Prop
  | .exit _ => True
  | .panic => True
  | .fail _ => True
  | .read p k => (p = c.input ∨ c.syms = some p) ∧ ∀ r, Keeps c (k r)
  | .out _ k => Keeps c k
  | .err _ k => Keeps c k
  | .create p k => c.output = some p ∧ ∀ r, Keeps c (k r)
  | .write p _ k => c.output = some p ∧ ∀ r, Keeps c (k r)

theorem keeps_orFail {c : Cmd} {k : Io} (h : Keeps c k) : ∀ r, Keeps c (orFail k r)
  | none => h
  | some _ => trivial

theorem keeps_text {c : Cmd} {L : Lib} {p : Str} {k : Str → Io} (hp : p = c.input ∨ c.syms = some p) (h : ∀ s, Keeps c (k s)) : Keeps c (readText L p k) := by
  refine ⟨hp, fun r => ?_⟩
  cases r with
  | error e => exact trivial
  | ok bs =>
    dsimp only
    split
    · exact trivial
    · exact h _

theorem keeps_warn {c : Cmd} {k : Io} (h : Keeps c k) : ∀ ws, Keeps c (warnAll ws k)
  | [] => h
  | w :: ws => by
    unfold warnAll
    rw [List.foldr_cons]
    split
    · exact trivial
    · exact keeps_warn h ws

theorem keeps_err {c : Cmd} {k : Io} (h : Keeps c k) : ∀ ws, Keeps c (errAll ws k)
  | [] => h
  | w :: ws => by
    unfold errAll
    rw [List.foldr_cons]
    split
    · exact trivial
    · exact keeps_err h ws

theorem keeps_lines {c : Cmd} {p : Str} (hp : c.output = some p) : ∀ ls : List Str, Keeps c (ls.foldr (fun l k => .write p (utf8 l) (orFail k)) (.exit 0))
  | [] => trivial
  | _ :: ls => ⟨hp, keeps_orFail (keeps_lines hp ls)⟩

theorem keeps_prints {c : Cmd} : ∀ ls : List Str, Keeps c (ls.foldr (fun l k => .out (l ++ c!"\n") k) (.exit 0))
  | [] => trivial
  | _ :: ls => keeps_prints ls

theorem keeps_program [Unicode] (rt : Rt) (L : Lib) (c : Cmd) : Keeps c (program rt L c) := by
  have key : ∀ y, Keeps c (match L.yaml y with
      | none => .panic
      | some syms =>
        match parseBase c.base with
        | none => .err (c!"Error: Invalid base address `" ++ c.base ++ c!"`\n") (.exit 1)
        | some addr =>
          let m := (Mipsasm.new.setBase addr).setSymbols (L.order (loadSyms syms))
          match c.mode with
          | .asm => readText L c.input (runAsm rt m c.output)
          | .disasm => .read c.input fun
            | .error e => failed e
            | .ok bytes => runDisasm rt m c.output bytes) := by
    intro y
    split
    · exact trivial
    split
    · exact trivial
    dsimp only
    split
    · refine keeps_text (.inl rfl) fun data => ?_
      unfold runAsm
      split
      · exact trivial
      · exact keeps_warn (keeps_err (show Keeps c (.exit 1) from trivial) _) _
      · refine keeps_warn ?_ _
        split
        · rename_i h; exact ⟨h, keeps_orFail ⟨h, keeps_orFail trivial⟩⟩
        · exact trivial
    · refine ⟨.inl rfl, fun r => ?_⟩
      cases r with
      | error e => exact trivial
      | ok bytes =>
        dsimp only
        unfold runDisasm
        split
        · exact trivial
        split
        · exact trivial
        split
        · rename_i h; exact ⟨h, keeps_orFail (keeps_lines h _)⟩
        · exact keeps_prints _
  unfold program symText
  split
  · exact key _
  · rename_i p h
    exact keeps_text (.inr h) key

/-- The same operation on a disk with the same files. -/
theorem step_same {c : Cmd} {b : Bool} {s t : St} (h : Step b s t) (hk : Keeps c s.io) (d1 : Disk) (hd : ∀ p, Uses c p → d1 p = s.disk p) :
    ∃ d2, Step b ⟨s.io, d1, s.out, s.err⟩ ⟨t.io, d2, t.out, t.err⟩ ∧ (∀ p, Uses c p → d2 p = t.disk p) ∧ (∀ p, c.output ≠ some p → t.disk p = s.disk p) ∧
      Keeps c t.io := by
  have hset : ∀ {d : Disk} {p : Str} (bs : Bytes), c.output = some p → ∀ q, c.output ≠ some q → Disk.set d p bs q = d q := by
    intro d p bs hp q hq
    unfold Disk.set
    rw [if_neg]
    rintro rfl; exact hq hp
  have hboth : ∀ {d : Disk} (p : Str) (bs : Bytes), (∀ q, Uses c q → d1 q = d q) → ∀ q, Uses c q → Disk.set d1 p bs q = Disk.set d p bs q := by
    intro d p bs h q hq
    unfold Disk.set
    by_cases e : q = p
    · rw [if_pos e, if_pos e]
    · rw [if_neg e, if_neg e, h q hq]
  cases h with
  | read h => exact ⟨d1, .read ((hd _ (hk.1.elim .inl fun h => .inr (.inl h))).trans h), hd, fun _ _ => rfl, hk.2 _⟩
  | noRead x => exact ⟨d1, .noRead x, hd, fun _ _ => rfl, hk.2 _⟩
  | out => exact ⟨d1, .out, hd, fun _ _ => rfl, hk⟩
  | noOut t h => exact ⟨d1, .noOut t h, hd, fun _ _ => rfl, trivial⟩
  | err => exact ⟨d1, .err, hd, fun _ _ => rfl, hk⟩
  | noErr t h => exact ⟨d1, .noErr t h, hd, fun _ _ => rfl, trivial⟩
  | fail => exact ⟨d1, .fail, hd, fun _ _ => rfl, trivial⟩
  | noFail t h => exact ⟨d1, .noFail t h, hd, fun _ _ => rfl, trivial⟩
  | create => exact ⟨_, .create, hboth _ _ hd, hset _ hk.1, hk.2 _⟩
  | noCreate x => exact ⟨d1, .noCreate x, hd, fun _ _ => rfl, hk.2 _⟩
  | @write d o e p bs k =>
    have e : d1 p = d p := hd p (.inr (.inr hk.1))
    refine ⟨Disk.set d1 p ((d1 p).getD [] ++ bs), .write, ?_, hset _ hk.1, hk.2 _⟩
    rw [e]
    exact hboth _ _ hd
  | @noWrite d o e p bs k x t h =>
    have e : d1 p = d p := hd p (.inr (.inr hk.1))
    refine ⟨Disk.set d1 p ((d1 p).getD [] ++ t), .noWrite x t h, ?_, hset _ hk.1, hk.2 _⟩
    rw [e]
    exact hboth _ _ hd

theorem reach_snoc {ok b : Bool} {s t u : St} (h : Reach ok s t) (hb : ok = true → b = true) (hs : Step b t u) : Reach ok s u := by
  induction h with
  | here s => exact .next b hb hs (.here _)
  | next b' h1 h2 _ ih => exact .next b' h1 h2 (ih hs)

section
variable [Unicode] {ι : Type} {jobs : ι → Launch} {d : Disk}

theorem par_inv (hi : Independent jobs) {ok : Bool} {s : Par ι} (h : ParReach ok (together jobs d) s) :
    (∀ i, ∃ d1, Reach ok ((jobs i).alone d) ⟨(s.proc i).io, d1, (s.proc i).out, (s.proc i).err⟩ ∧ (∀ p, Uses (jobs i).cmd p → d1 p = s.disk p) ∧
      Keeps (jobs i).cmd (s.proc i).io) ∧
    ∀ p, (∀ i, (jobs i).cmd.output ≠ some p) → s.disk p = d p := by
  induction h with
  | here => exact ⟨fun i => ⟨d, .here _, fun _ _ => rfl, keeps_program _ _ _⟩, fun _ _ => rfl⟩
  | @next t u b _ hb hs ih =>
    obtain ⟨ih1, ih2⟩ := ih
    obtain ⟨i, h1, h2⟩ := hs
    obtain ⟨d1, k1, k2, k3⟩ := ih1 i
    obtain ⟨d2, l1, l2, l3, l4⟩ := step_same h1 k3 d1 k2
    refine ⟨fun j => ?_, fun p hp => (l3 p (hp i)).trans (ih2 p hp)⟩
    by_cases e : j = i
    · subst e
      exact ⟨d2, reach_snoc k1 hb l1, l2, l4⟩
    · rw [h2 j e]
      obtain ⟨d1, k1, k2, k3⟩ := ih1 j
      refine ⟨d1, k1, fun p hp => (k2 p hp).trans (l3 p fun ho => ?_).symm, k3⟩
      obtain ⟨m1, m2, m3⟩ := hi i j (fun h => e h.symm) p ho
      rcases hp with hp | hp | hp
      · exact m1 hp.symm
      · exact m2 hp
      · exact m3 hp

/-- **C89**: at every moment of every schedule, with any operations failing, each run is at a moment that it could have reached alone, with the same texts written
and the same contents of its output file; files that are the output of no run are unchanged. -/
theorem C89_alone (hi : Independent jobs) (ok : Bool) (s : Par ι) (h : ParReach ok (together jobs d) s) :
    (∀ i, ∃ u, Reach ok ((jobs i).alone d) u ∧ s.proc i = ⟨u.io, u.out, u.err⟩ ∧ ∀ p, (jobs i).cmd.output = some p → s.disk p = u.disk p) ∧
    ∀ p, (∀ i, (jobs i).cmd.output ≠ some p) → s.disk p = d p := by
  obtain ⟨h1, h2⟩ := par_inv hi h
  refine ⟨fun i => ?_, h2⟩
  obtain ⟨d1, k1, k2, _⟩ := h1 i
  exact ⟨_, k1, rfl, fun p hp => (k2 p (.inr (.inr hp))).symm⟩

/-- **C89**: if no operation fails, each run ends as it ends alone. -/
theorem C89_ends (hi : Independent jobs) (s : Par ι) (h : ParReach true (together jobs d) s) (i : ι) (hs : Over (s.view i)) (u : St)
    (hu : Reach true ((jobs i).alone d) u) (ho : Over u) :
    s.proc i = ⟨u.io, u.out, u.err⟩ ∧ ∀ p, (jobs i).cmd.output = some p → s.disk p = u.disk p := by
  obtain ⟨v, k1, k2, k3⟩ := (C89_alone hi true s h).1 i
  have hv : Over v := by
    unfold Over at hs ⊢
    have e : (s.view i).io = v.io := by unfold Par.view; rw [k2]
    rw [← e]; exact hs
  have e : u = v := Option.some.inj ((reach_clean hu ho).symm.trans (reach_clean k1 hv))
  subst e
  exact ⟨k2, k3⟩

/-- **C89**: the result does not depend on the schedule; in particular it is the one of running them one after the other, in any order. -/
theorem C89_schedule (hi : Independent jobs) (s t : Par ι) (hs : ParReach true (together jobs d) s) (ht : ParReach true (together jobs d) t)
    (os : ∀ i, Over (s.view i)) (ot : ∀ i, Over (t.view i)) : s = t := by
  have key : ∀ i, s.proc i = t.proc i ∧ ∀ p, (jobs i).cmd.output = some p → s.disk p = t.disk p := by
    intro i
    obtain ⟨v, k1, k2, k3⟩ := (C89_alone hi true t ht).1 i
    have hv : Over v := by
      have := ot i
      unfold Over at this ⊢
      have e : (t.view i).io = v.io := by unfold Par.view; rw [k2]
      rw [← e]; exact this
    obtain ⟨l1, l2⟩ := C89_ends hi s hs i (os i) v k1 hv
    exact ⟨l1.trans k2.symm, fun p hp => (l2 p hp).trans (k3 p hp).symm⟩
  have e1 : s.proc = t.proc := funext fun i => (key i).1
  have e2 : s.disk = t.disk := by
    funext p
    by_cases h : ∃ i, (jobs i).cmd.output = some p
    · obtain ⟨i, h⟩ := h; exact (key i).2 p h
    · have h : ∀ i, (jobs i).cmd.output ≠ some p := fun i hi => h ⟨i, hi⟩
      rw [(C89_alone hi true s hs).2 p h, (C89_alone hi true t ht).2 p h]
  cases s; cases t
  dsimp only at e1 e2
  rw [e1, e2]

end

/-! ### Every schedule comes to its end -/

/-- One program is what remains of another one after an operation. -/
def Rest (t s : Io) : Prop := ∃ b d o e d' o' e', Step b ⟨s, d, o, e⟩ ⟨t, d', o', e'⟩

theorem rest_acc : ∀ io : Io, Acc Rest io := by
  have hx : ∀ n, Acc Rest (.exit n) := fun n => .intro _ fun t ⟨b, _, _, _, _, _, _, h⟩ => by cases h
  have hp : Acc Rest .panic := .intro _ fun t ⟨b, _, _, _, _, _, _, h⟩ => by cases h
  intro io
  induction io with
  | exit n => exact hx n
  | panic => exact hp
  | fail s => exact .intro _ fun t ⟨b, _, _, _, _, _, _, h⟩ => by cases h <;> exact hx _
  | read p k ih => exact .intro _ fun t ⟨b, _, _, _, _, _, _, h⟩ => by cases h <;> exact ih _
  | out s k ih =>
    exact .intro _ fun t ⟨b, _, _, _, _, _, _, h⟩ => by
      cases h
      · exact ih
      · exact hp
  | err s k ih =>
    exact .intro _ fun t ⟨b, _, _, _, _, _, _, h⟩ => by
      cases h
      · exact ih
      · exact hp
  | create p k ih => exact .intro _ fun t ⟨b, _, _, _, _, _, _, h⟩ => by cases h <;> exact ih _
  | write p bs k ih => exact .intro _ fun t ⟨b, _, _, _, _, _, _, h⟩ => by cases h <;> exact ih _

/-- Some of the programs have gone on. -/
inductive Rests : List Io → List Io → Prop
  | head {t s : Io} {l : List Io} : Rest t s → Rests (t :: l) (s :: l)
  | tail {s : Io} {l' l : List Io} : Rests l' l → Rests (s :: l') (s :: l)
  | both {t s : Io} {l' l : List Io} : Rest t s → Rests l' l → Rests (t :: l') (s :: l)

theorem rests_acc : ∀ l : List Io, Acc Rests l
  | [] => .intro _ fun _ h => by cases h
  | s :: l => by
    have hs := rest_acc s
    have hl := rests_acc l
    induction hs generalizing l with
    | intro s _ ih =>
      induction hl with
      | intro l hl ih2 =>
        refine .intro _ fun t ht => ?_
        cases ht with
        | head h => exact ih _ h _ (.intro _ hl)
        | tail h => exact ih2 _ h
        | both h h' => exact ih _ h _ (hl _ h')

theorem rests_map {ι : Type} {f g : ι → Io} {i : ι} (hi : Rest (g i) (f i)) (hj : ∀ j, j ≠ i → g j = f j) : ∀ l : List ι,
    (i ∈ l → Rests (l.map g) (l.map f)) ∧ (i ∉ l → l.map g = l.map f)
  | [] => ⟨nofun, fun _ => rfl⟩
  | j :: l => by
    obtain ⟨ih1, ih2⟩ := rests_map hi hj l
    rw [List.map_cons, List.map_cons]
    by_cases e : j = i
    · subst e
      refine ⟨fun _ => ?_, fun h => absurd List.mem_cons_self h⟩
      by_cases h : j ∈ l
      · exact .both hi (ih1 h)
      · rw [ih2 h]; exact .head hi
    · rw [hj j e]
      refine ⟨fun h => .tail (ih1 ?_), fun h => by rw [ih2 fun h' => h (List.mem_cons_of_mem _ h')]⟩
      rcases List.mem_cons.1 h with h | h
      · exact absurd h.symm e
      · exact h

theorem parStep_rests {ι : Type} {all : List ι} (hall : ∀ i, i ∈ all) {b : Bool} {s t : Par ι} (h : ParStep b s t) :
    Rests (all.map fun i => (t.proc i).io) (all.map fun i => (s.proc i).io) := by
  obtain ⟨i, h1, h2⟩ := h
  exact (rests_map (f := fun i => (s.proc i).io) (g := fun i => (t.proc i).io) ⟨b, _, _, _, _, _, _, h1⟩ (fun j hj => by rw [h2 j hj]) all).1 (hall i)

/-- An operation that succeeds, if there is a next one; reading a file that does not exist fails. -/
theorem step_or (s : St) : Over s ∨ (∃ t, Step true s t) ∨ ((∃ p k, s.io = .read p k ∧ s.disk p = none) ∧ ∃ t, Step false s t) := by
  obtain ⟨io, d, o, e⟩ := s
  cases io with
  | exit n => exact .inl (.inl ⟨n, rfl⟩)
  | panic => exact .inl (.inr rfl)
  | fail x => exact .inr (.inl ⟨_, .fail⟩)
  | read p k =>
    cases h : d p with
    | none => exact .inr (.inr ⟨⟨p, k, rfl, h⟩, _, .noRead []⟩)
    | some bs => exact .inr (.inl ⟨_, .read h⟩)
  | out x k => exact .inr (.inl ⟨_, .out⟩)
  | err x k => exact .inr (.inl ⟨_, .err⟩)
  | create p k => exact .inr (.inl ⟨_, .create⟩)
  | write p bs k => exact .inr (.inl ⟨_, .write⟩)

/-- No operation removes a file. -/
theorem step_exists {b : Bool} {s t : St} (h : Step b s t) (p : Str) (hp : s.disk p ≠ none) : t.disk p ≠ none := by
  have hset : ∀ (d : Disk) (q : Str) (bs : Bytes), d p ≠ none → Disk.set d q bs p ≠ none := by
    intro d q bs h
    unfold Disk.set
    split
    · nofun
    · exact h
  cases h <;> first | exact hp | exact hset _ _ _ hp

theorem parStep_of {ι : Type} {b : Bool} {s : Par ι} {i : ι} {t : St} (h : Step b (s.view i) t) : ∃ s', ParStep b s s' ∧ s'.view i = t ∧ ∀ j, j ≠ i → s'.proc j = s.proc j := by
  classical
  have e : (⟨t.disk, fun j => if j = i then ⟨t.io, t.out, t.err⟩ else s.proc j⟩ : Par ι).view i = t := by
    unfold Par.view; dsimp only; rw [if_pos rfl]
  exact ⟨⟨t.disk, fun j => if j = i then ⟨t.io, t.out, t.err⟩ else s.proc j⟩, .run i (by rw [e]; exact h) (fun j hj => if_neg hj), e, fun j hj => if_neg hj⟩

theorem parReach_trans {ι : Type} {ok : Bool} {s t u : Par ι} (h1 : ParReach ok s t) (h2 : ParReach ok t u) : ParReach ok s u := by
  induction h2 with
  | here => exact h1
  | next b _ hb hs ih => exact .next b ih hb hs

section
variable [Unicode] {ι : Type} {jobs : ι → Launch} {d : Disk}

omit [Unicode] in
theorem par_exists {ok : Bool} {s t : Par ι} (h : ParReach ok s t) (p : Str) (hp : s.disk p ≠ none) : t.disk p ≠ none := by
  induction h with
  | here => exact hp
  | next b _ _ hs ih =>
    obtain ⟨i, h1, _⟩ := hs
    exact step_exists h1 p ih

/-- **C89**: no schedule of finitely many runs goes on for ever. -/
theorem C89_finite (all : List ι) (hall : ∀ i, i ∈ all) :
    ¬ ∃ run : Nat → Par ι, run 0 = together jobs d ∧ ∀ n, ∃ b, ParStep b (run n) (run (n + 1)) := by
  rintro ⟨run, _, h⟩
  have : ∀ l, Acc Rests l → ∀ n, (all.map fun i => ((run n).proc i).io) = l → False := by
    intro l hl
    induction hl with
    | intro l _ ih =>
      intro n hn
      obtain ⟨b, hb⟩ := h n
      exact ih _ (by rw [← hn]; exact parStep_rests hall hb) (n + 1) rfl
  exact this _ (rests_acc _) 0 rfl

/-- **C89**: at no moment are finitely many runs stuck: they can go on until all of them have ended; without failing operations, if the files to be read
exist. -/
theorem C89_finishes (all : List ι) (hall : ∀ i, i ∈ all) (hi : Independent jobs) (ok : Bool)
    (hex : ok = true → ∀ i, d (jobs i).cmd.input ≠ none ∧ ∀ p, (jobs i).cmd.syms = some p → d p ≠ none) (s : Par ι)
    (h : ParReach ok (together jobs d) s) : ∃ t, ParReach ok s t ∧ ∀ i, Over (t.view i) := by
  have : ∀ l, Acc Rests l → ∀ s : Par ι, (all.map fun i => (s.proc i).io) = l → ParReach ok (together jobs d) s →
      ∃ t, ParReach ok s t ∧ ∀ i, Over (t.view i) := by
    intro l hl
    induction hl with
    | intro l _ ih =>
      intro s hs h
      by_cases ho : ∀ i, Over (s.view i)
      · exact ⟨s, .here, ho⟩
      obtain ⟨i, ho⟩ := Classical.not_forall.1 ho
      have go : ∀ b, (ok = true → b = true) → ∀ t, Step b (s.view i) t → ∃ t, ParReach ok s t ∧ ∀ i, Over (t.view i) := by
        intro b hb t ht
        obtain ⟨s', h1, _, _⟩ := parStep_of ht
        obtain ⟨u, k1, k2⟩ := ih _ (by rw [← hs]; exact parStep_rests hall h1) s' rfl (.next b h hb h1)
        exact ⟨u, parReach_trans (.next b .here hb h1) k1, k2⟩
      rcases step_or (s.view i) with k | ⟨t, k⟩ | ⟨⟨p, k, k1, k2⟩, t, k3⟩
      · exact absurd k ho
      · exact go true (fun _ => rfl) t k
      · refine go false (fun hok => ?_) t k3
        obtain ⟨_, _, _, hk⟩ := (par_inv hi h).1 i
        have k1 : (s.proc i).io = .read p k := k1
        rw [k1] at hk
        have hp : d p ≠ none := by
          rcases hk.1 with e | e
          · rw [e]; exact (hex hok i).1
          · exact (hex hok i).2 p e
        exact absurd k2 (par_exists h p hp)
  exact this _ (rests_acc _) s rfl h

end

/-! ### Examples -/

/-- Two runs: one assembles, one disassembles. -/
def twoJobs : Bool → Launch
  | true => ⟨idRt true, noYaml, ⟨.asm, some c!"out", none, c!"in.s", c!"0"⟩⟩
  | false => ⟨idRt false, noYaml, ⟨.disasm, some c!"list", none, c!"in.s", c!"0"⟩⟩

/-- Non-vacuity of C89: they are independent (both read the same file), and can be run together to the end. -/
example : Independent twoJobs ∧ ∃ t, ParReach true (@together asciiUnicode _ twoJobs exDisk) t ∧ ∀ i, Over (t.view i) := by
  letI := asciiUnicode
  have hi : Independent twoJobs := by
    intro i j hij p hp
    cases i <;> cases j <;> first
      | exact absurd rfl hij
      | (cases hp; exact ⟨by decide, by decide, by decide⟩)
  refine ⟨hi, C89_finishes [true, false] (by intro i; cases i <;> decide) hi true (fun _ i => ?_) _ .here⟩
  cases i <;> exact ⟨by decide +kernel, by nofun⟩

/-- **C89**: running one of them, from any moment on, while the others wait is a schedule. -/
theorem C89_sequence {ι : Type} (ok : Bool) (s : Par ι) (i : ι) (u : St) (h : Reach ok (s.view i) u) :
    ∃ t, ParReach ok s t ∧ t.view i = u ∧ ∀ j, j ≠ i → t.proc j = s.proc j := by
  generalize hv : s.view i = v at h
  induction h generalizing s with
  | here => exact ⟨s, .here, hv, fun _ _ => rfl⟩
  | next b hb h1 _ ih =>
    obtain ⟨s', k1, k2, k3⟩ := parStep_of (s := s) (i := i) (by rw [hv]; exact h1)
    obtain ⟨t, l1, l2, l3⟩ := ih s' k2
    exact ⟨t, parReach_trans (.next b .here hb k1) l1, l2, fun j hj => (l3 j hj).trans (k3 j hj)⟩

/-- A program is assembled while another run replaces it by its own code. -/
def clashing : Bool → Launch
  | true => ⟨idRt true, noYaml, ⟨.asm, some c!"out", none, c!"in.s", c!"0"⟩⟩
  | false => ⟨idRt true, noYaml, ⟨.asm, some c!"in.s", none, c!"in.s", c!"0"⟩⟩

/-- C89 needs that no run reads what another one writes: here one schedule lets both runs be successful, another one does not. -/
theorem C89_dependent : ∃ s t, ParReach true (@together asciiUnicode _ clashing exDisk) s ∧ ParReach true (@together asciiUnicode _ clashing exDisk) t ∧
    (∀ i, ended 0 (s.proc i).io = true) ∧ ended 0 (t.proc false).io = true ∧ ended 1 (t.proc true).io = true := by
  letI := asciiUnicode
  have two : ∀ (i j : Bool) (n : Nat), j ≠ i → (clean ((clashing i).alone exDisk).io exDisk [] []).any (fun s => ended 0 s.io &&
      (clean ((clashing j).alone exDisk).io s.disk [] []).any fun v => ended n v.io) = true →
      ∃ s, ParReach true (together clashing exDisk) s ∧ ended 0 (s.proc i).io = true ∧ ended n (s.proc j).io = true := by
    intro i j n hj h
    obtain ⟨u, hu, h⟩ := option_any h
    rw [Bool.and_eq_true] at h
    obtain ⟨v, hv, h'⟩ := option_any h.2
    obtain ⟨s, k1, k2, k3⟩ := C89_sequence true (together clashing exDisk) i u (clean_reach _ _ _ _ _ hu).1
    have e : s.view j = ⟨((clashing j).alone exDisk).io, u.disk, [], []⟩ := by
      unfold Par.view
      rw [k3 j hj, ← k2]; rfl
    obtain ⟨t, l1, l2, l3⟩ := C89_sequence true s j v (by rw [e]; exact (clean_reach _ _ _ _ _ hv).1)
    refine ⟨t, parReach_trans k1 l1, ?_, ?_⟩
    · rw [l3 i hj.symm]; have := h.1; rw [← k2] at this; exact this
    · rw [← l2] at h'; exact h'
  obtain ⟨s, h1, h2, h3⟩ := two true false 0 (by decide) (by decide +kernel)
  obtain ⟨t, k1, k2, k3⟩ := two false true 1 (by decide) (by decide +kernel)
  exact ⟨s, t, h1, k1, fun i => match i with | true => h2 | false => h3, k2, k3⟩

end Mips
