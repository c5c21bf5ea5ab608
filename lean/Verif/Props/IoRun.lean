/- C62: what a run of the command-line tool does if no operation fails. -/
import Verif.Props.IoP
import Verif.Props.ReportP
import Verif.Props.WarningsP
import Verif.Props.Shown
import Verif.Props.Order
import Verif.Props.MessageP

namespace Mips
open Cli Syntax

/-! ### The result is unique -/

theorem utf8_inj {a b : Str} (h : utf8 a = utf8 b) : a = b := by
  have h1 := (fromUtf8_iff (utf8 a) a).2 rfl
  rw [(fromUtf8_iff (utf8 a) b).2 h] at h1
  exact (Option.some.inj h1).symm

theorem stored_unique {ws : List Word} {a b : Bytes} (h : Stored ws a) (h' : Stored ws b) : a = b := by
  induction h generalizing b with
  | nil => cases h'; rfl
  | cons w ws b0 b1 b2 b3 bs hw _ ih =>
    cases h' with
    | cons _ _ c0 c1 c2 c3 cs hw' hs =>
      unfold BigEndian at hw hw'
      have := b0.isLt; have := b1.isLt; have := b2.isLt; have := b3.isLt
      have := c0.isLt; have := c1.isLt; have := c2.isLt; have := c3.isLt
      have e0 : b0 = c0 := BitVec.eq_of_toNat_eq (by omega)
      have e1 : b1 = c1 := BitVec.eq_of_toNat_eq (by omega)
      have e2 : b2 = c2 := BitVec.eq_of_toNat_eq (by omega)
      have e3 : b3 = c3 := BitVec.eq_of_toNat_eq (by omega)
      rw [e0, e1, e2, e3, ih hs]

theorem digits_text {s t : Str} {n : Nat} (hs : Digits hexDigits s n) (ht : Digits hexDigits t n) (hl : s.length = t.length)
    (h1 : ∀ c ∈ s, c ∈ c!"0123456789ABCDEF") (h2 : ∀ c ∈ t, c ∈ c!"0123456789ABCDEF") : s = t := by
  have bound : ∀ (k : Nat) (c : Char), hexDigits[k]? = some c → k < 16 := fun k c h => by
    obtain ⟨h, _⟩ := List.getElem?_eq_some_iff.1 h
    exact h
  have low : ∀ c ∈ c!"0123456789ABCDEF", ∀ d ∈ c!"0123456789ABCDEF", asciiLower c = asciiLower d → c = d := by decide +kernel
  induction hs generalizing t with
  | one c k hk =>
    cases ht with
    | one c' _ hk' =>
      rw [hk] at hk'
      rw [low c (h1 _ (by simp)) c' (h2 _ (by simp)) (Option.some.inj hk')]
    | snoc s' c' n' k' hd _ => cases hd <;> simp at hl
  | snoc s c n k hd hk ih =>
    generalize hm : n * hexDigits.length + k = m at ht
    cases ht with
    | one c' _ _ => cases hd <;> simp at hl
    | snoc s' c' n' k' hd' hk' =>
      have e : hexDigits.length = 16 := rfl
      rw [e] at hm
      have := bound _ _ hk
      have := bound _ _ hk'
      have e1 : n = n' := by omega
      have e2 : k = k' := by omega
      subst e1 e2
      rw [hk] at hk'
      rw [low c (h1 _ (by simp)) c' (h2 _ (by simp)) (Option.some.inj hk'),
        ih hd' (by simpa using hl) (fun c hc => h1 c (by simp [hc])) (fun c hc => h2 c (by simp [hc]))]

theorem hex8_text {s t : Str} {w : Word} (hs : Hex8 s w) (ht : Hex8 t w) : s = t :=
  digits_text hs.2.2 ht.2.2 (hs.1.trans ht.1.symm) hs.2.1 ht.2.1

theorem hexWords_text {s t : Str} {ws : List Word} (hs : HexWords s ws) (ht : HexWords t ws) : s = t := by
  induction hs generalizing t with
  | nil => cases ht; rfl
  | one s w h => cases ht with | one _ _ h' => exact hex8_text h h'
  | cons s u w v ws h _ ih => cases ht with | cons s' u' _ _ _ h' hu' => rw [hex8_text h h', ih hu']

theorem printed_text {s t : Str} {ws : List Word} (hs : PrintedWords s ws) (ht : PrintedWords t ws) : s = t := by
  obtain ⟨a, ha, rfl⟩ := hs
  obtain ⟨b, hb, rfl⟩ := ht
  rw [hexWords_text ha hb]

theorem stored_words {ws vs : List Word} {bs : Bytes} (h : Stored ws bs) (h' : Stored vs bs) : ws = vs := by
  induction h generalizing vs with
  | nil => cases h'; rfl
  | cons w ws b0 b1 b2 b3 bs hw _ ih =>
    cases h' with
    | cons v _ _ _ _ _ _ hv hs => rw [bigEndian_inj hw hv, ih hs]

section
variable [Unicode] {rt : Rt} {L : Lib} {c : Cmd} {d : Disk}

omit [Unicode] in
theorem symText_unique {a b : Str} (h : SymText c d a) (h' : SymText c d b) : a = b := by
  unfold SymText at h h'
  split at h
  · rename_i e; rw [e] at h'; exact h.trans h'.symm
  · rename_i p e
    rw [e] at h'
    have h' : d p = some (utf8 b) := h'
    rw [h] at h'; exact utf8_inj (Option.some.inj h')

omit [Unicode] in
theorem configured_unique {s s' : List (BitVec 32 × Str)} {a a' : BitVec 32} (h : Configured L c d s a) (h' : Configured L c d s' a') :
    s = s' ∧ a = a' := by
  obtain ⟨t, y, h1, h2, h3, h4⟩ := h
  obtain ⟨t', y', g1, g2, g3, g4⟩ := h'
  cases symText_unique h1 g1
  rw [h2] at g2; cases g2
  have h5 := (C39_accepted_only _ _).2 h4
  rw [(C39_accepted_only _ _).2 g4] at h5; cases h5
  exact ⟨h3.trans g3.symm, rfl⟩

/-- C61: there is at most one result. -/
theorem C61_unique (ovf : Bool) {f f' : Bytes} {t t' : Str} (h : Result ovf L c d f t) (h' : Result ovf L c d f' t') : f = f' ∧ t = t' := by
  cases h with
  | asm s a data ws _ _ m1 m2 m3 m4 m5 m6 m7 =>
    cases h' with
    | asm s' a' data' ws' _ _ n1 n2 n3 n4 n5 n6 n7 =>
      obtain ⟨rfl, rfl⟩ := configured_unique m2 n2
      rw [m3] at n3
      cases utf8_inj (Option.some.inj n3)
      have e1 := (C57_program (idRt ovf) ((Mipsasm.new.setBase a).setSymbols s) data ws).2 ⟨m4, m5⟩
      have e2 := (C57_program (idRt ovf) ((Mipsasm.new.setBase a).setSymbols s) data ws').2 ⟨n4, n5⟩
      rw [e1] at e2; cases e2
      exact ⟨stored_unique m6 n6, printed_text m7 n7⟩
    | disasm s' a' bytes ws' n1 => rw [m1] at n1; cases n1
  | disasm s a bytes ws m1 m2 m3 m4 m5 m6 =>
    cases h' with
    | asm s' a' data' ws' _ _ n1 => rw [m1] at n1; cases n1
    | disasm s' a' bytes' ws' n1 n2 n3 n4 n5 n6 =>
      obtain ⟨rfl, rfl⟩ := configured_unique m2 n2
      rw [m3] at n3; cases n3
      cases stored_words m5 n5
      exact ⟨rfl, rfl⟩

end

/-! ### Runs in which nothing fails -/

/-- The end of a run in which nothing fails; `none` if a file to read is missing. -/
def clean : Io → Disk → Bytes → Bytes → Option St
  | .exit n, d, o, e => some ⟨.exit n, d, o, e⟩
  | .panic, d, o, e => some ⟨.panic, d, o, e⟩
  | .fail s, d, o, e => some ⟨.exit 1, d, o, e ++ utf8 s⟩
  | .read p k, d, o, e => match d p with
    | none => none
    | some bs => clean (k (.ok bs)) d o e
  | .out s k, d, o, e => clean k d (o ++ utf8 s) e
  | .err s k, d, o, e => clean k d o (e ++ utf8 s)
  | .create p k, d, o, e => clean (k none) (Disk.set d p []) o e
  | .write p bs k, d, o, e => clean (k none) (Disk.set d p ((d p).getD [] ++ bs)) o e

/-- The run has ended. -/
def Over (s : St) : Prop := (∃ n, s.io = .exit n) ∨ s.io = .panic

theorem clean_reach : ∀ (io : Io) (d : Disk) (o e : Bytes) (u : St), clean io d o e = some u → Reach true ⟨io, d, o, e⟩ u ∧ Over u := by
  intro io
  induction io with
  | exit n => intro d o e u h; cases h; exact ⟨.here _, .inl ⟨n, rfl⟩⟩
  | panic => intro d o e u h; cases h; exact ⟨.here _, .inr rfl⟩
  | fail s => intro d o e u h; cases h; exact ⟨.next true (fun _ => rfl) .fail (.here _), .inl ⟨1, rfl⟩⟩
  | read p k ih =>
    intro d o e u h
    unfold clean at h
    split at h
    · cases h
    · rename_i bs hp
      obtain ⟨h1, h2⟩ := ih _ _ _ _ _ h
      exact ⟨.next true (fun _ => rfl) (.read hp) h1, h2⟩
  | out s k ih => intro d o e u h; obtain ⟨h1, h2⟩ := ih _ _ _ _ h; exact ⟨.next true (fun _ => rfl) .out h1, h2⟩
  | err s k ih => intro d o e u h; obtain ⟨h1, h2⟩ := ih _ _ _ _ h; exact ⟨.next true (fun _ => rfl) .err h1, h2⟩
  | create p k ih => intro d o e u h; obtain ⟨h1, h2⟩ := ih _ _ _ _ _ h; exact ⟨.next true (fun _ => rfl) .create h1, h2⟩
  | write p bs k ih => intro d o e u h; obtain ⟨h1, h2⟩ := ih _ _ _ _ _ h; exact ⟨.next true (fun _ => rfl) .write h1, h2⟩

theorem reach_clean {s u : St} (h : Reach true s u) (hu : Over u) : clean s.io s.disk s.out s.err = some u := by
  induction h with
  | here s =>
    obtain ⟨io, d, o, e⟩ := s
    rcases hu with ⟨n, h⟩ | h
    · simp only at h; subst h; rfl
    · simp only at h; subst h; rfl
  | next b hb hs _ ih =>
    have hb := hb rfl
    subst hb
    have ih := ih hu
    cases hs with
    | read hp => simp only [clean, hp]; exact ih
    | out => exact ih
    | err => exact ih
    | fail => exact ih
    | create => exact ih
    | write => exact ih

theorem clean_iff (s u : St) : clean s.io s.disk s.out s.err = some u ↔ Reach true s u ∧ Over u :=
  ⟨clean_reach _ _ _ _ _, fun h => reach_clean h.1 h.2⟩

theorem utf8_nil : utf8 [] = [] := rfl

theorem messages_iff {α : Type} {message : α → Str → Prop} {f : α → Option Str} (hf : ∀ x t, f x = some t ↔ message x t) :
    ∀ (xs : List α) (ts : List Str), Messages message xs ts ↔ xs.map f = ts.map some
  | [], ts => by
    constructor
    · intro h; cases h; rfl
    · intro h
      have : ts = [] := by simpa using h.symm
      subst this; exact .nil
  | x :: xs, [] => ⟨fun h => (by cases h), fun h => by simp at h⟩
  | x :: xs, t :: ts => by
    rw [List.map_cons, List.map_cons, List.cons.injEq, ← messages_iff hf xs ts, hf]
    constructor
    · intro h; cases h with | cons _ _ _ _ h1 h2 => exact ⟨h1, h2⟩
    · rintro ⟨h1, h2⟩; exact .cons _ _ _ _ h1 h2
theorem messages_warn (xs : List ParserWarning) (ts : List Str) : Messages Diag.WarningMessage xs ts ↔ xs.map ParserWarning.display = ts.map some :=
  messages_iff C63_warning xs ts
theorem messages_err (xs : List ParserError) (ts : List Str) : Messages Diag.ErrorMessage xs ts ↔ xs.map ParserError.display = ts.map some :=
  messages_iff C63_error xs ts

theorem clean_warn (k : Io) (d : Disk) (o : Bytes) : ∀ (ws : List ParserWarning) (ts : List Str) (e : Bytes),
    ws.map ParserWarning.display = ts.map some → clean (warnAll ws k) d o e = clean k d o (e ++ utf8 (onLines ts))
  | [], ts, e, h => by
    have : ts = [] := by simpa using h.symm
    subst this
    show clean k d o e = clean k d o (e ++ [])
    rw [List.append_nil]
  | w :: ws, [], e, h => by simp at h
  | w :: ws, t :: ts, e, h => by
    simp only [List.map_cons, List.cons.injEq] at h
    show clean (match w.display with | none => Io.panic | some t => .err (t ++ c!"\n") (warnAll ws k)) d o e = _
    rw [h.1]
    show clean (warnAll ws k) d o (e ++ utf8 (t ++ c!"\n")) = _
    rw [clean_warn k d o ws ts _ h.2, List.append_assoc, ← utf8_append]
    rfl
theorem clean_err (k : Io) (d : Disk) (o : Bytes) : ∀ (ws : List ParserError) (ts : List Str) (e : Bytes),
    ws.map ParserError.display = ts.map some → clean (errAll ws k) d o e = clean k d o (e ++ utf8 (onLines ts))
  | [], ts, e, h => by
    have : ts = [] := by simpa using h.symm
    subst this
    show clean k d o e = clean k d o (e ++ [])
    rw [List.append_nil]
  | w :: ws, [], e, h => by simp at h
  | w :: ws, t :: ts, e, h => by
    simp only [List.map_cons, List.cons.injEq] at h
    show clean (match w.display with | none => Io.panic | some t => .err (t ++ c!"\n") (errAll ws k)) d o e = _
    rw [h.1]
    show clean (errAll ws k) d o (e ++ utf8 (t ++ c!"\n")) = _
    rw [clean_err k d o ws ts _ h.2, List.append_assoc, ← utf8_append]
    rfl
theorem clean_silent (k : Io) (d : Disk) (o : Bytes) : ∀ (ws : List ParserError) (e : Bytes),
    (∃ x ∈ ws, x.display = none) → ∃ u, clean (errAll ws k) d o e = some u ∧ u.io = .panic
  | [], e, h => by obtain ⟨x, hx, _⟩ := h; cases hx
  | w :: ws, e, h => by
    show ∃ u, clean (match w.display with | none => Io.panic | some t => .err (t ++ c!"\n") (errAll ws k)) d o e = some u ∧ _
    cases hw : w.display with
    | none => exact ⟨_, rfl, rfl⟩
    | some t =>
      refine clean_silent k d o ws _ ?_
      obtain ⟨x, hx, h⟩ := h
      rcases List.mem_cons.1 hx with rfl | hx
      · rw [hw] at h; cases h
      · exact ⟨x, hx, h⟩

theorem clean_writes (p : Str) : ∀ (ls : List Str) (d : Disk) (part o e : Bytes),
    clean (ls.foldr (fun l k => .write p (utf8 l) (orFail k)) (.exit 0)) (Disk.set d p part) o e =
      some ⟨.exit 0, Disk.set d p (part ++ utf8 ls.flatten), o, e⟩
  | [], d, part, o, e => by
    show some _ = some _
    simp [utf8_nil]
  | l :: ls, d, part, o, e => by
    show clean (ls.foldr (fun l k => .write p (utf8 l) (orFail k)) (.exit 0)) (Disk.set (Disk.set d p part) p ((Disk.set d p part p).getD [] ++ utf8 l)) o e = _
    rw [set_get, set_set, Option.getD_some, clean_writes p ls, List.flatten_cons, utf8_append, List.append_assoc]
theorem clean_prints : ∀ (ls : List Str) (d : Disk) (o e : Bytes),
    clean (ls.foldr (fun l k => .out (l ++ c!"\n") k) (.exit 0)) d o e = some ⟨.exit 0, d, o ++ utf8 (onLines ls), e⟩
  | [], d, o, e => by
    show some _ = some _
    simp [onLines, utf8_nil]
  | l :: ls, d, o, e => by
    show clean (ls.foldr (fun l k => .out (l ++ c!"\n") k) (.exit 0)) d (o ++ utf8 (l ++ c!"\n")) e = _
    rw [clean_prints ls, List.append_assoc, ← utf8_append]
    rfl

/-! ### What a run does -/

section
variable [Unicode] {rt : Rt} {L : Lib} {c : Cmd} {d : Disk}

omit [Unicode] in
theorem clean_text (p : Str) (k : Str → Io) (s : Str) (o e : Bytes) (h : d p = some (utf8 s)) :
    clean (readText L p k) d o e = clean (k s) d o e := by
  simp only [readText, clean, h, (fromUtf8_iff (utf8 s) s).2 rfl]
omit [Unicode] in
theorem clean_notText (p : Str) (k : Str → Io) (bs : Bytes) (o e : Bytes) (h : d p = some bs) (hn : NotText bs) :
    clean (readText L p k) d o e = some ⟨.exit 1, d, o, e ++ utf8 (c!"Error: " ++ L.badUtf8 ++ c!"\n")⟩ := by
  have : fromUtf8 bs = none := by
    cases hf : fromUtf8 bs with
    | none => rfl
    | some t => exact absurd ((fromUtf8_iff bs t).1 hf) (hn t)
  simp only [readText, clean, h, this, failed]

/-- the program behind the symbol file -/
theorem clean_start (text : Str) (h : SymText c d text) : clean (program rt L c) d [] [] =
    clean (match L.yaml text with
        | none => .panic
        | some syms =>
          match parseBase c.base with
          | none => .err (c!"Error: Invalid base address `" ++ c.base ++ c!"`\n") (.exit 1)
          | some addr =>
            let m := (Mipsasm.new.setBase addr).setSymbols (L.order (loadSyms syms))
            match c.mode with
            | .asm => readText L c.input (runAsm rt m c.output)
            | .disasm => .read c.input fun
              | .error e => failed e
              | .ok bytes => runDisasm rt m c.output bytes) d [] [] := by
  unfold SymText at h
  unfold program symText
  cases hs : c.syms with
  | none =>
    rw [hs] at h
    have h : text = [] := h
    subst h; rfl
  | some p =>
    rw [hs] at h
    exact clean_text p _ text [] [] h

theorem clean_asm {syms : List (BitVec 32 × Str)} {addr : BitVec 32} (hm : c.mode = .asm) (hc : Configured L c d syms addr) :
    clean (program rt L c) d [] [] =
      clean (readText L c.input (runAsm rt ((Mipsasm.new.setBase addr).setSymbols syms) c.output)) d [] [] := by
  obtain ⟨text, y, h1, h2, rfl, h4⟩ := hc
  have h4 := (C39_accepted_only _ _).2 h4
  rw [clean_start text h1]
  simp only [h2, h4, hm]
theorem clean_disasm {syms : List (BitVec 32 × Str)} {addr : BitVec 32} {bytes : Bytes} (hm : c.mode = .disasm) (hc : Configured L c d syms addr)
    (hd : d c.input = some bytes) :
    clean (program rt L c) d [] [] = clean (runDisasm rt ((Mipsasm.new.setBase addr).setSymbols syms) c.output bytes) d [] [] := by
  obtain ⟨text, y, h1, h2, rfl, h4⟩ := hc
  have h4 := (C39_accepted_only _ _).2 h4
  rw [clean_start text h1]
  simp only [h2, h4, hm, clean, hd]

/-- the end after the code is known -/
theorem clean_code (p : Option Str) (file e : Bytes) (text : Str) (k : Io)
    (hk : k = match p with
      | some p => .create p <| orFail <| .write p file <| orFail <| .exit 0
      | none => .out text (.exit 0)) (hp : c.output = p) (err : Str) (he : e = utf8 err) :
    ∃ u, clean k d [] e = some u ∧ IsEnd u (success c d file text err) := by
  subst hk he
  unfold success
  rw [hp]
  cases p with
  | none => exact ⟨_, rfl, rfl, rfl, rfl, rfl⟩
  | some p =>
    refine ⟨_, rfl, rfl, ?_, rfl, rfl⟩
    show Disk.set (Disk.set d p []) p ((Disk.set d p [] p).getD [] ++ file) = Disk.set d p file
    rw [set_get, set_set]; rfl

theorem messages_exist {α : Type} (f : α → Option Str) : ∀ (xs : List α), (∀ x ∈ xs, (f x).isSome) → ∃ ts : List Str, xs.map f = ts.map some
  | [], _ => ⟨[], rfl⟩
  | x :: xs, h => by
    obtain ⟨ts, ht⟩ := messages_exist f xs fun y hy => h y (List.mem_cons_of_mem _ hy)
    obtain ⟨t, hx⟩ := Option.isSome_iff_exists.1 (h x List.mem_cons_self)
    exact ⟨t :: ts, by rw [List.map_cons, List.map_cons, hx, ht]⟩

/-- C62, from the specification to the program -/
theorem ends_run {x : End} (h : Ends rt.ovf L c d x) : ∃ u, clean (program rt L c) d [] [] = some u ∧ IsEnd u x := by
  cases h with
  | symbols p bs h1 h2 h3 =>
    have e : clean (program rt L c) d [] [] = some ⟨.exit 1, d, [], [] ++ utf8 (c!"Error: " ++ L.badUtf8 ++ c!"\n")⟩ := by
      unfold program symText
      rw [h1]
      exact clean_notText p _ bs _ _ h2 h3
    exact ⟨_, e, rfl, rfl, rfl, rfl⟩
  | yaml text h1 h2 => rw [clean_start text h1, h2]; exact ⟨_, rfl, rfl⟩
  | base text y h1 h2 h3 =>
    have h3 : parseBase c.base = none := by
      cases hb : parseBase c.base with
      | none => rfl
      | some a => exact absurd ((C39_accepted_only _ _).1 hb) (h3 a)
    rw [clean_start text h1, h2, h3]; exact ⟨_, rfl, rfl, rfl, rfl, rfl⟩
  | input syms addr bs h1 h2 h3 h4 => exact ⟨_, (clean_asm h1 h2).trans (clean_notText _ _ bs _ _ h3 h4), rfl, rfl, rfl, rfl⟩
  | crash syms addr data h1 h2 h3 h4 =>
    rw [clean_asm h1 h2, clean_text _ _ data _ _ h3]
    unfold runAsm
    rw [(C56_verdict rt ((Mipsasm.new.setBase addr).setSymbols syms) data).1.2 h4]
    exact ⟨_, rfl, rfl⟩
  | code syms addr data ws warns ts file text h1 h2 h3 h4 h5 h6 h7 h8 h9 =>
    rw [clean_asm h1 h2, clean_text _ _ data _ _ h3]
    have hw := (C57_program rt ((Mipsasm.new.setBase addr).setSymbols syms) data ws).2 ⟨h4, h5⟩
    unfold runAsm
    cases ha : assemble rt ((Mipsasm.new.setBase addr).setSymbols syms) data with
    | panic => rw [ha] at hw; cases hw
    | err es ws' => rw [ha] at hw; cases hw
    | ok is ws' =>
      rw [ha] at hw
      have hw : some (getBytes is) = some ws := hw
      cases hw
      have hnp : ¬ Lang.Panics ⟨rt.ovf, addr, syms, lines data⟩ := fun hp => by
        have := (C56_verdict rt ((Mipsasm.new.setBase addr).setSymbols syms) data).1.2 hp
        rw [ha] at this; cases this
      have hww := (C59_warnings rt ((Mipsasm.new.setBase addr).setSymbols syms) data warns).2 ⟨hnp, h6⟩
      rw [ha] at hww
      have hww : some ws' = some warns := hww
      cases hww
      dsimp only
      rw [clean_warn _ _ _ _ ts _ ((messages_warn _ _).1 h7), stored_unique h8 (C38_written_bytes _),
        printed_text h9 ⟨_, hexWords_inter _, rfl⟩]
      exact clean_code _ _ _ _ _ (by simp [hexList]; rfl) rfl _ rfl
  | errors syms addr data es warns ts us h1 h2 h3 h4 h5 h6 h7 h8 =>
    rw [clean_asm h1 h2, clean_text _ _ data _ _ h3]
    obtain ⟨es', ws', ha⟩ := (C56_verdict rt ((Mipsasm.new.setBase addr).setSymbols syms) data).2.1.2 h4
    have hnp : ¬ Lang.Panics ⟨rt.ovf, addr, syms, lines data⟩ := fun hp => by
      have := (C56_verdict rt ((Mipsasm.new.setBase addr).setSymbols syms) data).1.2 hp
      rw [ha] at this; cases this
    have hww := (C59_warnings rt ((Mipsasm.new.setBase addr).setSymbols syms) data warns).2 ⟨hnp, h6⟩
    have hee := (C58_report rt ((Mipsasm.new.setBase addr).setSymbols syms) data es).2 ⟨hnp, h5⟩
    rw [ha] at hww hee
    cases hww; cases hee
    unfold runAsm
    rw [ha]
    dsimp only
    rw [clean_warn _ _ _ _ ts _ ((messages_warn _ _).1 h7), clean_err _ _ _ _ us _ ((messages_err _ _).1 h8)]
    refine ⟨_, rfl, rfl, rfl, rfl, ?_⟩
    show [] ++ utf8 (onLines ts) ++ utf8 (onLines us) = utf8 (onLines (ts ++ us))
    rw [List.nil_append, ← utf8_append]
    unfold onLines
    rw [List.flatMap_append]
  | unquoted syms addr data es e h1 h2 h3 h4 h5 h6 h7 =>
    rw [clean_asm h1 h2, clean_text _ _ data _ _ h3]
    obtain ⟨es', ws', ha⟩ := (C56_verdict rt ((Mipsasm.new.setBase addr).setSymbols syms) data).2.1.2 h4
    have hnp : ¬ Lang.Panics ⟨rt.ovf, addr, syms, lines data⟩ := fun hp => by
      have := (C56_verdict rt ((Mipsasm.new.setBase addr).setSymbols syms) data).1.2 hp
      rw [ha] at this; cases this
    have hee := (C58_report rt ((Mipsasm.new.setBase addr).setSymbols syms) data es).2 ⟨hnp, h5⟩
    obtain ⟨ts, ht⟩ := messages_exist _ _ (assemble_warns_display rt ((Mipsasm.new.setBase addr).setSymbols syms) data ws' (by rw [ha]; rfl))
    rw [ha] at hee
    cases hee
    unfold runAsm
    rw [ha]
    dsimp only
    rw [clean_warn _ _ _ _ ts _ ht]
    obtain ⟨u, hu, hp⟩ := clean_silent (.exit 1) d [] es ([] ++ utf8 (onLines ts)) ⟨e, h6, by
      cases hd : e.display with
      | none => rfl
      | some t => exact absurd ((C28_exact e).1 ⟨t, hd⟩) h7⟩
    exact ⟨u, hu, hp⟩
  | words syms addr bytes h1 h2 h3 h4 =>
    rw [clean_disasm h1 h2 h3]
    unfold runDisasm
    cases hr : readWords bytes with
    | none => exact ⟨_, rfl, rfl⟩
    | some ws =>
      obtain ⟨g1, g2⟩ := (C38_read bytes ws).1 hr
      rcases h4 with h4 | h4
      · exact absurd h4 g2
      · exact absurd g1 (h4 ws)
  | noListing syms addr bytes ws h1 h2 h3 h4 h5 h6 =>
    rw [clean_disasm h1 h2 h3]
    unfold runDisasm
    rw [(C38_read bytes ws).2 ⟨h5, h4⟩]
    dsimp only
    rw [(C60_listing rt ((Mipsasm.new.setBase addr).setSymbols syms) rfl ws).1.2 h6]
    exact ⟨_, rfl, rfl⟩
  | listing syms addr bytes ws h1 h2 h3 h4 h5 h6 =>
    rw [clean_disasm h1 h2 h3]
    unfold runDisasm
    rw [(C38_read bytes ws).2 ⟨h5, h4⟩]
    dsimp only
    rw [(C60_listing rt ((Mipsasm.new.setBase addr).setSymbols syms) rfl ws).2 h6]
    dsimp only
    unfold success
    cases c.output with
    | none =>
      refine ⟨_, clean_prints _ _ _ _, rfl, rfl, ?_, rfl⟩
      rfl
    | some p =>
      refine ⟨_, clean_writes p _ d [] [] [], rfl, ?_, rfl, rfl⟩
      rfl

/-- C62: a run that does not miss a file ends in one of the ways of the specification -/
theorem ends_exist (h : ((∀ p, c.syms = some p → d p ≠ none) ∧ d c.input ≠ none) ∨ clean (program rt L c) d [] [] ≠ none) : ∃ x, Ends rt.ovf L c d x := by
  have istext : ∀ bs : Bytes, NotText bs ∨ ∃ t, bs = utf8 t := fun bs => by
    by_cases hn : NotText bs
    · exact .inl hn
    · exact .inr (Classical.byContradiction fun hc => hn fun t e => hc ⟨t, e⟩)
  have rest : ∀ text, SymText c d text → ∃ x, Ends rt.ovf L c d x := by
    intro text ht
    cases hy : L.yaml text with
    | none => exact ⟨_, .yaml text ht hy⟩
    | some y =>
      cases hb : parseBase c.base with
      | none => exact ⟨_, .base text y ht hy fun a ha => by rw [(C39_accepted_only _ _).2 ha] at hb; cases hb⟩
      | some addr =>
        have hc : Configured L c d (L.order (loadSyms y)) addr := ⟨text, y, ht, hy, rfl, (C39_accepted_only _ _).1 hb⟩
        cases hm : c.mode with
        | asm =>
          cases hd : d c.input with
          | none =>
            rcases h with h | h
            · exact absurd hd h.2
            refine absurd ?_ h
            rw [clean_asm hm hc]
            simp only [readText, clean, hd]
          | some bs =>
            rcases istext bs with hn | ⟨data, rfl⟩
            · exact ⟨_, .input _ _ bs hm hc hd hn⟩
            · have hV := C56_verdict rt ((Mipsasm.new.setBase addr).setSymbols (L.order (loadSyms y))) data
              cases ha : assemble rt ((Mipsasm.new.setBase addr).setSymbols (L.order (loadSyms y))) data with
              | panic => exact ⟨_, .crash _ _ data hm hc hd (hV.1.1 ha)⟩
              | ok is warns =>
                obtain ⟨g1, g2⟩ := (C57_program rt ((Mipsasm.new.setBase addr).setSymbols (L.order (loadSyms y))) data (getBytes is)).1 (by rw [ha]; rfl)
                obtain ⟨_, g3⟩ := (C59_warnings rt ((Mipsasm.new.setBase addr).setSymbols (L.order (loadSyms y))) data warns).1 (by rw [ha]; rfl)
                obtain ⟨ts, ht⟩ := messages_exist _ _ (assemble_warns_display rt ((Mipsasm.new.setBase addr).setSymbols (L.order (loadSyms y))) data warns (by rw [ha]; rfl))
                exact ⟨_, .code _ _ data _ warns ts _ _ hm hc hd g1 g2 g3 ((messages_warn _ _).2 ht) (C38_written_bytes _) ⟨_, hexWords_inter _, rfl⟩⟩
              | err es warns =>
                have g1 := hV.2.1.1 ⟨es, warns, ha⟩
                obtain ⟨_, g2⟩ := (C58_report rt ((Mipsasm.new.setBase addr).setSymbols (L.order (loadSyms y))) data es).1 (by rw [ha]; rfl)
                obtain ⟨_, g3⟩ := (C59_warnings rt ((Mipsasm.new.setBase addr).setSymbols (L.order (loadSyms y))) data warns).1 (by rw [ha]; rfl)
                obtain ⟨ts, ht⟩ := messages_exist _ _ (assemble_warns_display rt ((Mipsasm.new.setBase addr).setSymbols (L.order (loadSyms y))) data warns (by rw [ha]; rfl))
                by_cases hall : ∀ e ∈ es, (ParserError.display e).isSome
                · obtain ⟨us, hu⟩ := messages_exist _ _ hall
                  exact ⟨_, .errors _ _ data es warns ts us hm hc hd g1 g2 g3 ((messages_warn _ _).2 ht) ((messages_err _ _).2 hu)⟩
                · obtain ⟨e, he⟩ := Classical.not_forall.1 hall
                  obtain ⟨he, hn⟩ := Classical.not_imp.1 he
                  refine ⟨_, .unquoted _ _ data es e hm hc hd g1 g2 he fun hq => hn ?_⟩
                  rw [Option.isSome_iff_exists]
                  exact (C28_exact e).2 hq
        | disasm =>
          cases hd : d c.input with
          | none =>
            rcases h with h | h
            · exact absurd hd h.2
            refine absurd ?_ h
            obtain ⟨text, y, h1, h2, _, h4⟩ := hc
            have h4 := (C39_accepted_only _ _).2 h4
            rw [clean_start text h1]
            simp only [h2, h4, hm, clean, hd]
          | some bytes =>
            by_cases he : bytes = []
            · exact ⟨_, .words _ _ bytes hm hc hd (.inl he)⟩
            · by_cases hw : ∃ ws, Stored ws bytes
              · obtain ⟨ws, hw⟩ := hw
                by_cases hl : Listing.NoListing rt.ovf (fun a => (L.order (loadSyms y)).lookup a) addr ws
                · exact ⟨_, .noListing _ _ bytes ws hm hc hd he hw hl⟩
                · exact ⟨_, .listing _ _ bytes ws hm hc hd he hw hl⟩
              · exact ⟨_, .words _ _ bytes hm hc hd (.inr fun ws h => hw ⟨ws, h⟩)⟩
  cases hs : c.syms with
  | none => exact rest [] (by unfold SymText; rw [hs])
  | some p =>
    cases hp : d p with
    | none =>
      rcases h with h | h
      · exact absurd hp (h.1 p hs)
      refine absurd ?_ h
      unfold program symText
      rw [hs]
      simp only [readText, clean, hp]
    | some bs =>
      rcases istext bs with hn | ⟨text, rfl⟩
      · exact ⟨_, .symbols p bs hs hp hn⟩
      · exact rest text (by unfold SymText; rw [hs]; exact hp)

omit [Unicode] in
theorem isEnd_over {u : St} {x : End} (h : IsEnd u x) : Over u := by
  cases x with
  | status n disk out err => exact .inl ⟨n, h.1⟩
  | panic => exact .inr h
omit [Unicode] in
theorem isEnd_unique {u : St} {x y : End} (hx : IsEnd u x) (hy : IsEnd u y) : x = y := by
  cases x with
  | status n disk out err =>
    cases y with
    | status n' disk' out' err' =>
      obtain ⟨a1, a2, a3, a4⟩ := hx
      obtain ⟨b1, b2, b3, b4⟩ := hy
      rw [a1] at b1; cases b1
      rw [utf8_inj (a3.symm.trans b3), utf8_inj (a4.symm.trans b4), ← a2, b2]
    | panic => have hy : u.io = .panic := hy; rw [hx.1] at hy; cases hy
  | panic =>
    cases y with
    | status n' disk' out' err' => have hx : u.io = .panic := hx; rw [hy.1] at hx; cases hx
    | panic => rfl

/-- C62: the runs in which no operation fails end exactly as specified. -/
theorem C62_run (rt : Rt) (L : Lib) (c : Cmd) (d : Disk) (x : End) :
    (∃ s, Reach true (start rt L c d) s ∧ IsEnd s x) ↔ Ends rt.ovf L c d x := by
  constructor
  · rintro ⟨s, hr, hs⟩
    have hc : clean (program rt L c) d [] [] = some s := reach_clean hr (isEnd_over hs)
    obtain ⟨y, hy⟩ := ends_exist (rt := rt) (.inr (by rw [hc]; nofun))
    obtain ⟨u, hu, hx⟩ := ends_run hy
    rw [hc] at hu; cases hu
    rw [isEnd_unique hs hx]; exact hy
  · intro h
    obtain ⟨u, hu, hx⟩ := ends_run h
    exact ⟨u, (clean_reach _ _ _ _ _ hu).1, hx⟩

/-- C62: there is at most one such end, and there is one if the symbol file, if one is given, and the input file exist. -/
theorem C62_one (rt : Rt) (L : Lib) (c : Cmd) (d : Disk) :
    (∀ x y, Ends rt.ovf L c d x → Ends rt.ovf L c d y → x = y) ∧
    ((∀ p, c.syms = some p → d p ≠ none) → d c.input ≠ none → ∃ x, Ends rt.ovf L c d x) := by
  constructor
  · intro x y hx hy
    obtain ⟨u, hu, hx⟩ := ends_run hx
    obtain ⟨v, hv, hy⟩ := ends_run hy
    rw [hu] at hv; cases hv
    exact isEnd_unique hx hy
  · intro h1 h2
    exact ends_exist (rt := rt) (.inl ⟨h1, h2⟩)

/-- C62: if no two addresses of the symbol file have the same name, the order in which the hash map is iterated does not matter. -/
theorem C62_symbol_order (ovf : Bool) (L L' : Lib) (c : Cmd) (d : Disk) (hy : L.yaml = L'.yaml) (hb : L.badUtf8 = L'.badUtf8)
    (hn : ∀ text y, SymText c d text → L.yaml text = some y → ((loadSyms y).map (·.2)).Nodup) (x : End) :
    Ends ovf L c d x ↔ Ends ovf L' c d x := by
  have key : ∀ {L L' : Lib}, L.yaml = L'.yaml → L.badUtf8 = L'.badUtf8 →
      (∀ text y, SymText c d text → L.yaml text = some y → ((loadSyms y).map (·.2)).Nodup) → Ends ovf L c d x → Ends ovf L' c d x := by
    intro L L' hy hb hn h
    obtain ⟨u, hu, hx⟩ := ends_run (rt := idRt ovf) h
    have e : clean (program (idRt ovf) L' c) d [] [] = clean (program (idRt ovf) L c) d [] [] := by
      have rest : ∀ text, SymText c d text → clean (program (idRt ovf) L' c) d [] [] = clean (program (idRt ovf) L c) d [] [] := by
        intro text ht
        rw [clean_start text ht, clean_start text ht, hy]
        cases hyt : L'.yaml text with
        | none => rfl
        | some y =>
          dsimp only
          cases hpb : parseBase c.base with
          | none => rfl
          | some addr =>
            dsimp only
            have hn := hn text y ht (by rw [hy]; exact hyt)
            have p1 : (L'.order (loadSyms y)).Perm (L.order (loadSyms y)) := (L'.perm _).trans (L.perm _).symm
            have n1 : ((L'.order (loadSyms y)).map (·.2)).Nodup := ((L'.perm _).map (·.2)).nodup_iff.2 hn
            have n2 : ((L'.order (loadSyms y)).map (·.1)).Nodup := ((L'.perm _).map (·.1)).nodup_iff.2 (C45_distinct _)
            have a := C26_symbol_order (idRt ovf) (idRt ovf) rfl ((Mipsasm.new.setBase addr).setSymbols (L.order (loadSyms y))) _ p1 n1
            have b := C26_disassemble_order (idRt ovf) (idRt ovf) rfl ((Mipsasm.new.setBase addr).setSymbols (L.order (loadSyms y))) _ p1 n2
            have a : ∀ t, assemble (idRt ovf) ((Mipsasm.new.setBase addr).setSymbols (L'.order (loadSyms y))) t =
              assemble (idRt ovf) ((Mipsasm.new.setBase addr).setSymbols (L.order (loadSyms y))) t := a
            have b : ∀ t, disassemble (idRt ovf) ((Mipsasm.new.setBase addr).setSymbols (L'.order (loadSyms y))) t =
              disassemble (idRt ovf) ((Mipsasm.new.setBase addr).setSymbols (L.order (loadSyms y))) t := b
            cases c.mode with
            | asm =>
              have : runAsm (idRt ovf) ((Mipsasm.new.setBase addr).setSymbols (L'.order (loadSyms y))) c.output =
                  runAsm (idRt ovf) ((Mipsasm.new.setBase addr).setSymbols (L.order (loadSyms y))) c.output := by
                funext data; unfold runAsm; rw [a]
              simp only [this, readText, hb]
            | disasm =>
              have : runDisasm (idRt ovf) ((Mipsasm.new.setBase addr).setSymbols (L'.order (loadSyms y))) c.output =
                  runDisasm (idRt ovf) ((Mipsasm.new.setBase addr).setSymbols (L.order (loadSyms y))) c.output := by
                funext bytes; unfold runDisasm; simp only [b]
              simp only [this]
      cases hs : c.syms with
      | none => exact rest [] (by unfold SymText; rw [hs])
      | some p =>
        cases hp : d p with
        | none =>
          unfold program symText
          rw [hs]
          simp only [readText, clean, hp]
        | some bs =>
          by_cases ht : ∃ t, bs = utf8 t
          · obtain ⟨t, rfl⟩ := ht
            exact rest t (by unfold SymText; rw [hs]; exact hp)
          · unfold program symText
            rw [hs]
            dsimp only
            rw [clean_notText p _ bs _ _ hp fun t e => ht ⟨t, e⟩, clean_notText p _ bs _ _ hp fun t e => ht ⟨t, e⟩, hb]
    rw [← e] at hu
    exact (C62_run (idRt ovf) L' c d x).1 ⟨u, (clean_reach _ _ _ _ _ hu).1, hx⟩
  exact ⟨key hy hb hn, key hy.symm hb.symm fun text y ht h => hn text y ht (by rw [hy]; exact h)⟩

end

/-- Non-vacuity of C62: a program with a warning that is assembled, one with an error, and a listing that is written without line ends. -/
example :
    (clean (@program asciiUnicode (idRt true) noYaml ⟨.asm, some c!"o", none, c!"i", c!"0x80000000"⟩)
        (fun p => if p = c!"i" then some (utf8 c!"jr $ra\njr $ra\nnop") else none) [] []).any (fun s => ended 0 s.io &&
      s.disk c!"o" == some [3, 0xe0, 0, 8, 3, 0xe0, 0, 8, 0, 0, 0, 0] && s.out == [] && (utf8 c!"warning: instruction `jr $ra` cannot").isPrefixOf s.err) = true ∧
    (clean (@program asciiUnicode (idRt true) noYaml ⟨.asm, some c!"o", none, c!"i", c!"0"⟩)
        (fun p => if p = c!"i" then some (utf8 c!"addi $t0, $xyz, 1") else none) [] []).any (fun s => ended 1 s.io &&
      s.disk c!"o" == none && s.out == [] && s.err != []) = true ∧
    (clean (@program asciiUnicode (idRt true) noYaml ⟨.disasm, some c!"o", none, c!"i", c!"0"⟩)
        (fun p => if p = c!"i" then some [3, 0xe0, 0, 8, 0, 0, 0, 0] else none) [] []).any (fun s => ended 0 s.io &&
      s.disk c!"o" == some (utf8 c!"func_00000000:jr         $rasll        $zero, $zero, 0x0") && s.out == [] && s.err == []) = true := by
  letI := asciiUnicode
  decide +kernel

end Mips
