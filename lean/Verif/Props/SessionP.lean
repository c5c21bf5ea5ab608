/-
**C91** — many runs of the tool, one after the other.
-/
import Verif.Props.ParallelP
import Verif.Spec.Session

namespace Mips
open Cli

/-! ### Only a successful run changes the disk -/

/-- If all operations succeed, it ends with status 0. -/
def Surely : Io → Prop
  | .exit n => n = 0
  | .panic => False
  | .fail _ => False
  | .read _ _ => False
  | .out _ k => Surely k
  | .err _ k => Surely k
  | .create _ k => Surely (k none)
  | .write _ _ k => Surely (k none)

/-- From the first change of the disk on, it ends with status 0 if all operations succeed. -/
def Careful : Io → Prop
  | .exit _ => True
  | .panic => True
  | .fail _ => True
  | .read _ k => ∀ r, Careful (k r)
  | .out _ k => Careful k
  | .err _ k => Careful k
  | .create _ k => Surely (k none)
  | .write _ _ k => Surely (k none)

theorem careful_text {L : Lib} {p : Str} {k : Str → Io} (h : ∀ s, Careful (k s)) : Careful (readText L p k) := by
  intro r
  cases r with
  | error e => exact trivial
  | ok bs =>
    dsimp only
    split
    · exact trivial
    · exact h _

theorem careful_warn {k : Io} (h : Careful k) : ∀ ws, Careful (warnAll ws k)
  | [] => h
  | w :: ws => by
    unfold warnAll
    rw [List.foldr_cons]
    split
    · exact trivial
    · exact careful_warn h ws

theorem careful_err {k : Io} (h : Careful k) : ∀ ws, Careful (errAll ws k)
  | [] => h
  | w :: ws => by
    unfold errAll
    rw [List.foldr_cons]
    split
    · exact trivial
    · exact careful_err h ws

theorem surely_lines {p : Str} : ∀ ls : List Str, Surely (ls.foldr (fun l k => .write p (utf8 l) (orFail k)) (.exit 0))
  | [] => rfl
  | _ :: ls => surely_lines ls

theorem careful_prints : ∀ ls : List Str, Careful (ls.foldr (fun l k => .out (l ++ c!"\n") k) (.exit 0))
  | [] => trivial
  | _ :: ls => careful_prints ls

theorem careful_program [Unicode] (rt : Rt) (L : Lib) (c : Cmd) : Careful (program rt L c) := by
  have key : ∀ y, Careful (match L.yaml y with
      | none => .panic
      | some syms =>
        match parseBase c.base with
        | none => .err (c!"Error: Invalid base address `" ++ c.base ++ c!"`\n") (.exit 1)
        | some addr =>
          let m := (Mipsasm.new.setBase addr).setSymbols (L.order (loadSyms syms))
          match c.mode with
          | .asm => readText L c.input (runAsm rt m c.output)
          | .disasm => .read c.input fun
            | .error e => failed e
            | .ok bytes => runDisasm rt m c.output bytes) := by
    intro y
    split
    · exact trivial
    split
    · exact trivial
    dsimp only
    split
    · refine careful_text fun data => ?_
      unfold runAsm
      split
      · exact trivial
      · exact careful_warn (careful_err (show Careful (.exit 1) from trivial) _) _
      · refine careful_warn ?_ _
        split
        · exact (rfl : 0 = 0)
        · exact trivial
    · intro r
      cases r with
      | error e => exact trivial
      | ok bytes =>
        dsimp only
        unfold runDisasm
        split
        · exact trivial
        split
        · exact trivial
        split
        · exact surely_lines _
        · exact careful_prints _
  unfold program symText
  split
  · exact key _
  · exact careful_text key

theorem surely_reach {s u : St} (h : Reach true s u) (hs : Surely s.io) : Surely u.io := by
  induction h with
  | here => exact hs
  | next b hb h1 _ ih =>
    cases hb rfl
    apply ih
    cases h1 with
    | read h => exact hs.elim
    | out => exact hs
    | err => exact hs
    | fail => exact hs.elim
    | create => exact hs
    | write => exact hs

/-- An undisturbed run that is not successful leaves the disk as it was. -/
theorem careful_reach {s u : St} (h : Reach true s u) (hs : Careful s.io) (hu : Over u) (h0 : u.io ≠ .exit 0) : u.disk = s.disk := by
  have no : Surely u.io → False := by
    intro k
    rcases hu with ⟨n, e⟩ | e
    · rw [e] at k h0
      have k : n = 0 := k
      exact h0 (by rw [k])
    · rw [e] at k; exact k
  induction h with
  | here => rfl
  | next b hb h1 h2 ih =>
    cases hb rfl
    cases h1 with
    | read h => exact ih (hs _) hu h0 no
    | out => exact ih hs hu h0 no
    | err => exact ih hs hu h0 no
    | fail => exact ih trivial hu h0 no
    | create => exact (no (surely_reach h2 hs)).elim
    | write => exact (no (surely_reach h2 hs)).elim

/-! ### The same run on two disks -/

theorem end_of [Unicode] {j : Launch} {d : Disk} {u : St} (h : Reach true (j.alone d) u) (hu : Over u) : ∃ x, Ends j.rt.ovf j.lib j.cmd d x ∧ IsEnd u x := by
  have hcl : clean (program j.rt j.lib j.cmd) d [] [] = some u := reach_clean h hu
  obtain ⟨x, hx⟩ := ends_exist (rt := j.rt) (.inr (by rw [hcl]; nofun))
  obtain ⟨v, hv, hvx⟩ := ends_run hx
  rw [hcl] at hv; cases hv
  exact ⟨x, hx, hvx⟩

/-- The two disks have the same files to be read. -/
theorem run_same [Unicode] {j : Launch} {d d' : Disk} (hi : d' j.cmd.input = d j.cmd.input) (hy : ∀ p, j.cmd.syms = some p → d' p = d p) {u v : St}
    (hu : Reach true (j.alone d) u) (ou : Over u) (hv : Reach true (j.alone d') v) (ov : Over v) :
    v.io = u.io ∧ (∀ n, u.io = .exit n → v.out = u.out ∧ v.err = u.err) ∧ (u.io = .exit 0 → ∀ p, j.cmd.output = some p → ∃ bs, v.disk p = some bs ∧ (u.disk p).getD [] = bs) := by
  obtain ⟨x, hx, hux⟩ := end_of hu ou
  obtain ⟨y, hy', hvy⟩ := end_of hv ov
  have e : y = onDisk j.cmd d' x := (C62_one j.rt j.lib j.cmd d').1 _ _ hy' (ends_frame hi hy hx)
  subst e
  cases x with
  | panic =>
    have hux : u.io = .panic := hux
    have hvy : v.io = .panic := hvy
    rw [hux, hvy]
    exact ⟨rfl, nofun, nofun⟩
  | status n disk out err =>
    obtain ⟨k1, k2, k3, k4⟩ := hux
    cases n with
    | zero =>
      obtain ⟨l1, l2, l3, l4⟩ := hvy
      refine ⟨l1.trans k1.symm, fun _ _ => ⟨l3.trans k3.symm, l4.trans k4.symm⟩, fun _ p hp => ?_⟩
      rw [hp] at l2
      dsimp only at l2
      rw [l2, k2, set_get]
      exact ⟨_, rfl, rfl⟩
    | succ n =>
      obtain ⟨l1, l2, l3, l4⟩ := hvy
      refine ⟨l1.trans k1.symm, fun _ _ => ⟨l3.trans k3.symm, l4.trans k4.symm⟩, fun h => ?_⟩
      rw [k1] at h; cases h

/-- There is such a run on the one disk if there is one on the other. -/
theorem run_exists [Unicode] {j : Launch} {d d' : Disk} (hi : d' j.cmd.input = d j.cmd.input) (hy : ∀ p, j.cmd.syms = some p → d' p = d p) {u : St}
    (hu : Reach true (j.alone d) u) (ou : Over u) : ∃ v, Reach true (j.alone d') v ∧ Over v := by
  obtain ⟨x, hx, _⟩ := end_of hu ou
  obtain ⟨v, hv, _⟩ := ends_run (rt := j.rt) (ends_frame hi hy hx)
  exact ⟨v, clean_reach _ _ _ _ _ hv⟩

theorem session_inv [Unicode] {all : List Launch} (hn : NoneReads all) {d0 d d' : Disk} {js : List Launch} {ss : List St} (h : Session d js ss d')
    (hjs : ∀ j ∈ js, j ∈ all) (hd : ∀ p, (∀ k ∈ all, k.cmd.output ≠ some p) → d p = d0 p) :
    (ss.length = js.length ∧ ∀ (n : Nat) (j : Launch) (s : St), js[n]? = some j → ss[n]? = some s → ∀ u, Reach true (j.alone d0) u → Over u →
      s.io = u.io ∧ ∀ m, u.io = .exit m → s.out = u.out ∧ s.err = u.err) ∧
    ∀ p, (∃ pre j post bs, js = pre ++ j :: post ∧ Writes j d0 p bs ∧ (∀ k ∈ post, ∀ bs, ¬ Writes k d0 p bs) ∧ d' p = some bs) ∨
      ((∀ j ∈ js, ∀ bs, ¬ Writes j d0 p bs) ∧ d' p = d p) := by
  induction h with
  | nil d => exact ⟨⟨rfl, fun n j s h => by cases h⟩, fun p => .inr ⟨nofun, rfl⟩⟩
  | @cons d d' j js s ss h1 h2 _ ih =>
    have hja := hjs j List.mem_cons_self
    have hi : d j.cmd.input = d0 j.cmd.input := hd _ fun k hk ho => (hn j hja k hk _ ho).1 rfl
    have hy : ∀ p, j.cmd.syms = some p → d p = d0 p := fun p hp => hd p fun k hk ho => (hn j hja k hk _ ho).2 hp
    have hoth : ∀ p, j.cmd.output ≠ some p → s.disk p = d p := (C61_safe s (reach_weaken h1)).1
    obtain ⟨⟨l1, l2⟩, l3⟩ := ih (fun k hk => hjs k (List.mem_cons_of_mem _ hk)) (fun p hp => (hoth p (hp j hja)).trans (hd p hp))
    obtain ⟨u, hu, ou⟩ := run_exists (j := j) hi.symm (fun p hp => (hy p hp).symm) h1 h2
    have same := run_same hi hy hu ou h1 h2
    have same' := run_same hi.symm (fun p hp => (hy p hp).symm) h1 h2 hu ou
    refine ⟨⟨by rw [List.length_cons, List.length_cons, l1], fun n k t hk ht v hv ov => ?_⟩, fun p => ?_⟩
    · cases n with
      | zero =>
        cases hk; cases ht
        obtain ⟨k1, k2, _⟩ := run_same hi hy hv ov h1 h2
        exact ⟨k1, k2⟩
      | succ n => exact l2 n k t hk ht v hv ov
    · rcases l3 p with ⟨pre, k, post, bs, e, k1, k2, k3⟩ | ⟨k1, k2⟩
      · exact .inl ⟨j :: pre, k, post, bs, by rw [e]; rfl, k1, k2, k3⟩
      · by_cases hw : ∃ bs, Writes j d0 p bs
        · obtain ⟨bs, hw⟩ := hw
          refine .inl ⟨[], j, js, bs, rfl, hw, k1, ?_⟩
          obtain ⟨ho, v, v1, v2, v3⟩ := hw
          obtain ⟨_, _, m⟩ := run_same hi hy v1 (.inl ⟨0, v2⟩) h1 h2
          obtain ⟨bs', m1, m2⟩ := m v2 p ho
          rw [v3] at m2
          rw [k2, m1]
          exact congrArg some m2.symm
        · refine .inr ⟨fun k hk bs => ?_, k2.trans ?_⟩
          · rcases List.mem_cons.1 hk with rfl | hk
            · exact fun h => hw ⟨bs, h⟩
            · exact k1 k hk bs
          · by_cases ho : j.cmd.output = some p
            · have h0 : s.io ≠ .exit 0 := by
                intro h0
                have u0 : u.io = .exit 0 := same.1.symm.trans h0
                obtain ⟨bs, m1, _⟩ := same'.2.2 h0 p ho
                exact hw ⟨bs, ho, u, hu, u0, m1⟩
              rw [careful_reach h1 (careful_program _ _ _) h2 h0]; rfl
            · exact hoth p ho

/-- **C91**: after many runs, one after the other, each of which may have been successful or not, every run has ended (with status and texts) as it would have on the
original disk, and every file holds what the last successful run that writes it writes when it is started on the original disk; files that no successful run
writes are unchanged. -/
theorem C91_session [Unicode] (d d' : Disk) (js : List Launch) (ss : List St) (hn : NoneReads js) (h : Session d js ss d') :
    (ss.length = js.length ∧ ∀ (n : Nat) (j : Launch) (s : St), js[n]? = some j → ss[n]? = some s → ∀ u, Reach true (j.alone d) u → Over u →
      s.io = u.io ∧ ∀ m, u.io = .exit m → s.out = u.out ∧ s.err = u.err) ∧
    ∀ p, (∃ pre j post bs, js = pre ++ j :: post ∧ Writes j d p bs ∧ (∀ k ∈ post, ∀ bs, ¬ Writes k d p bs) ∧ d' p = some bs) ∨
      ((∀ j ∈ js, ∀ bs, ¬ Writes j d p bs) ∧ d' p = d p) :=
  session_inv hn h (fun _ h => h) fun _ _ => rfl

/-- **C91**: the runs can always be made, if the files to be read exist. -/
theorem C91_possible [Unicode] (js : List Launch) (d : Disk) (hex : ∀ j ∈ js, d j.cmd.input ≠ none ∧ ∀ p, j.cmd.syms = some p → d p ≠ none) :
    ∃ ss d', Session d js ss d' := by
  induction js generalizing d with
  | nil => exact ⟨[], d, .nil d⟩
  | cons j js ih =>
    obtain ⟨e1, e2⟩ := hex j List.mem_cons_self
    obtain ⟨x, hx⟩ := (C62_one j.rt j.lib j.cmd d).2 e2 e1
    obtain ⟨u, hu, _⟩ := ends_run (rt := j.rt) hx
    obtain ⟨h1, h2⟩ := clean_reach _ _ _ _ _ hu
    have hkeep : ∀ {s t : St}, Reach true s t → ∀ p, s.disk p ≠ none → t.disk p ≠ none := by
      intro s t h p
      induction h with
      | here => exact fun h => h
      | next b _ h1 _ ih => exact fun h => ih (step_exists h1 p h)
    obtain ⟨ss, d', h⟩ := ih u.disk fun k hk =>
      ⟨hkeep h1 _ (hex k (List.mem_cons_of_mem _ hk)).1, fun p hp => hkeep h1 _ ((hex k (List.mem_cons_of_mem _ hk)).2 p hp)⟩
    exact ⟨u :: ss, d', .cons h1 h2 h⟩

/-! ### Examples -/

/-- Three runs; the first and the last one write the same file, the last one is refused (its base address is no number). -/
def threeRuns : List Launch :=
  [⟨idRt true, noYaml, ⟨.asm, some c!"out", none, c!"in.s", c!"0"⟩⟩, ⟨idRt true, noYaml, ⟨.disasm, some c!"list", none, c!"in.s", c!"0"⟩⟩,
   ⟨idRt true, noYaml, ⟨.asm, some c!"out", none, c!"in.s", c!"zero"⟩⟩]

/-- Non-vacuity of C91: they can be made; the file holds what the first run has written. -/
example : NoneReads threeRuns ∧ ∃ ss d', @Session asciiUnicode exDisk threeRuns ss d' ∧ d' c!"out" = some [0x24, 0x02, 0x00, 0x01, 0, 0, 0, 0] := by
  letI := asciiUnicode
  have hn : NoneReads threeRuns := by
    have key : ∀ j ∈ threeRuns, j.cmd.input = c!"in.s" ∧ j.cmd.syms = none ∧ j.cmd.output ≠ some c!"in.s" := by
      intro j hj
      rcases List.mem_cons.1 hj with rfl | hj
      · exact ⟨rfl, rfl, by decide⟩
      rcases List.mem_cons.1 hj with rfl | hj
      · exact ⟨rfl, rfl, by decide⟩
      rcases List.mem_cons.1 hj with rfl | hj
      · exact ⟨rfl, rfl, by decide⟩
      · cases hj
    intro j hj k hk p hp
    obtain ⟨h1, h2, _⟩ := key j hj
    refine ⟨fun h => (key k hk).2.2 ?_, by rw [h2]; nofun⟩
    rw [hp, ← h, h1]
  have hex : ∀ j ∈ threeRuns, exDisk j.cmd.input ≠ none ∧ ∀ p, j.cmd.syms = some p → exDisk p ≠ none := by
    intro j hj
    rcases List.mem_cons.1 hj with rfl | hj
    · exact ⟨by decide +kernel, nofun⟩
    rcases List.mem_cons.1 hj with rfl | hj
    · exact ⟨by decide +kernel, nofun⟩
    rcases List.mem_cons.1 hj with rfl | hj
    · exact ⟨by decide +kernel, nofun⟩
    · cases hj
  have hc : ∀ j : Launch, (clean (program j.rt j.lib j.cmd) exDisk [] []).any (fun s => ended 0 s.io && s.disk c!"out" == some [0x24, 0x02, 0x00, 0x01, 0, 0, 0, 0]) = true →
      ∀ p bs, p = c!"out" → Writes j exDisk p bs → bs = [0x24, 0x02, 0x00, 0x01, 0, 0, 0, 0] := by
    rintro j h p bs rfl ⟨_, u, h1, h2, h3⟩
    obtain ⟨a, ha, h⟩ := option_any h
    have e : clean (program j.rt j.lib j.cmd) exDisk [] [] = some u := reach_clean h1 (.inl ⟨0, h2⟩)
    rw [e] at ha; cases ha
    rw [Bool.and_eq_true] at h
    have := eq_of_beq h.2
    rw [h3] at this
    exact Option.some.inj this
  obtain ⟨ss, d', h⟩ := C91_possible threeRuns exDisk hex
  refine ⟨hn, ss, d', h, ?_⟩
  have no3 : ∀ bs, ¬ Writes (⟨idRt true, noYaml, ⟨.asm, some c!"out", none, c!"in.s", c!"zero"⟩⟩ : Launch) exDisk c!"out" bs := by
    rintro bs ⟨_, u, h1, h2, _⟩
    have e := reach_clean h1 (.inl ⟨0, h2⟩)
    have h : (clean (program (idRt true) noYaml ⟨.asm, some c!"out", none, c!"in.s", c!"zero"⟩) exDisk [] []).any (fun s => ended 1 s.io) = true := by decide +kernel
    obtain ⟨a, ha, h⟩ := option_any h
    have e : clean (program (idRt true) noYaml ⟨.asm, some c!"out", none, c!"in.s", c!"zero"⟩) exDisk [] [] = some u := e
    rw [e] at ha; cases ha
    rw [h2] at h; cases h
  have w1 : ∃ bs, Writes (⟨idRt true, noYaml, ⟨.asm, some c!"out", none, c!"in.s", c!"0"⟩⟩ : Launch) exDisk c!"out" bs := by
    have h : (clean (program (idRt true) noYaml ⟨.asm, some c!"out", none, c!"in.s", c!"0"⟩) exDisk [] []).any (fun s => (match s.io with | .exit 0 => true | _ => false) &&
        s.disk c!"out" == some [0x24, 0x02, 0x00, 0x01, 0, 0, 0, 0]) = true := by decide +kernel
    obtain ⟨a, ha, h⟩ := option_any h
    rw [Bool.and_eq_true] at h
    refine ⟨_, rfl, a, (clean_reach _ _ _ _ _ ha).1, ?_, eq_of_beq h.2⟩
    have := h.1
    split at this
    · assumption
    · cases this
  rcases (C91_session exDisk d' threeRuns ss hn h).2 c!"out" with ⟨pre, j, post, bs, e, k1, _, k3⟩ | ⟨k1, _⟩
  · rw [k3]
    have hj : j ∈ threeRuns := by rw [e]; exact List.mem_append_right _ List.mem_cons_self
    rcases List.mem_cons.1 hj with rfl | hj
    · rw [hc _ (by decide +kernel) _ _ rfl k1]
    rcases List.mem_cons.1 hj with rfl | hj
    · exact absurd k1.1 (by decide)
    rcases List.mem_cons.1 hj with rfl | hj
    · exact absurd k1 (no3 _)
    · cases hj
  · obtain ⟨bs, w⟩ := w1
    exact absurd w (k1 _ List.mem_cons_self bs)

end Mips
