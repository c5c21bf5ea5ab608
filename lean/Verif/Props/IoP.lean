/- C61: the command-line tool and its files. -/
import Verif.Spec.Io
import Verif.Props.MainP
import Verif.Props.CodeP
import Verif.Props.ListingP

namespace Mips
open Cli Syntax

/-! ### UTF-8 -/

theorem utf8_bytes (s : Str) : (utf8 s).map UInt8.ofBitVec = s.flatMap String.utf8EncodeChar := by
  unfold utf8
  rw [List.map_flatMap]
  congr 1
  funext c
  rw [List.map_map]
  have : UInt8.ofBitVec ∘ UInt8.toBitVec = id := by funext b; rfl
  rw [this, List.map_id]

theorem ofBits_inj {a b : Bytes} (h : a.map UInt8.ofBitVec = b.map UInt8.ofBitVec) : a = b := by
  have := congrArg (List.map UInt8.toBitVec) h
  simpa [List.map_map, Function.comp_def] using this

theorem fromUtf8_iff (bs : Bytes) (s : Str) : fromUtf8 bs = some s ↔ bs = utf8 s := by
  unfold fromUtf8
  constructor
  · intro h
    obtain ⟨a, ha, rfl⟩ := Option.map_eq_some_iff.1 h
    have e := @ByteArray.utf8Encode_get_utf8Decode? ((bs.map UInt8.ofBitVec).toByteArray) (by rw [ha]; rfl)
    simp only [ha, Option.get_some] at e
    apply ofBits_inj
    rw [utf8_bytes]
    have e2 : (a.toList.flatMap String.utf8EncodeChar).toByteArray = (bs.map UInt8.ofBitVec).toByteArray := e
    have := congrArg (fun b : ByteArray => b.data.toList) e2
    simpa using this.symm
  · rintro rfl
    rw [utf8_bytes]
    have := @List.utf8Decode?_utf8Encode s
    unfold List.utf8Encode at this
    rw [this]
    simp

theorem utf8_append (a b : Str) : utf8 (a ++ b) = utf8 a ++ utf8 b := by unfold utf8; rw [List.flatMap_append]

/-! ### All moments of a run -/

/-- It holds at all moments of all runs from `s` on. -/
def Always (ok : Bool) (Q : St → Prop) (s : St) : Prop := ∀ u, Reach ok s u → Q u

section
variable {ok : Bool} {Q : St → Prop} {d : Disk} {o e : Bytes}

theorem always_exit {n : Nat} (h : Q ⟨.exit n, d, o, e⟩) : Always ok Q ⟨.exit n, d, o, e⟩ := by
  intro u hu
  cases hu with
  | here => exact h
  | next b _ hs _ => cases hs
theorem always_panic (h : Q ⟨.panic, d, o, e⟩) : Always ok Q ⟨.panic, d, o, e⟩ := by
  intro u hu
  cases hu with
  | here => exact h
  | next b _ hs _ => cases hs
theorem always_fail {s : Str} (h : Q ⟨.fail s, d, o, e⟩) (h1 : Q ⟨.exit 1, d, o, e ++ utf8 s⟩) (h2 : ok = false → ∀ t, t <+: utf8 s → Q ⟨.exit 1, d, o, e ++ t⟩) :
    Always ok Q ⟨.fail s, d, o, e⟩ := by
  intro u hu
  cases hu with
  | here => exact h
  | next b hb hs hr =>
    cases hs with
    | fail => exact always_exit h1 u hr
    | noFail t ht => exact always_exit (h2 (by cases ok with | false => rfl | true => exact absurd (hb rfl) (by decide)) t ht) u hr
theorem always_read {p : Str} {k : Except Str Bytes → Io} (h : Q ⟨.read p k, d, o, e⟩) (h1 : ∀ bs, d p = some bs → Always ok Q ⟨k (.ok bs), d, o, e⟩)
    (h2 : ok = false → ∀ x, Always ok Q ⟨k (.error x), d, o, e⟩) : Always ok Q ⟨.read p k, d, o, e⟩ := by
  intro u hu
  cases hu with
  | here => exact h
  | next b hb hs hr =>
    cases hs with
    | read hp => exact h1 _ hp u hr
    | noRead x => exact h2 (by cases ok with | false => rfl | true => exact absurd (hb rfl) (by decide)) x u hr
theorem always_out {s : Str} {k : Io} (h : Q ⟨.out s k, d, o, e⟩) (h1 : Always ok Q ⟨k, d, o ++ utf8 s, e⟩)
    (h2 : ok = false → ∀ t, t <+: utf8 s → Q ⟨.panic, d, o ++ t, e⟩) : Always ok Q ⟨.out s k, d, o, e⟩ := by
  intro u hu
  cases hu with
  | here => exact h
  | next b hb hs hr =>
    cases hs with
    | out => exact h1 u hr
    | noOut t ht => exact always_panic (h2 (by cases ok with | false => rfl | true => exact absurd (hb rfl) (by decide)) t ht) u hr
theorem always_err {s : Str} {k : Io} (h : Q ⟨.err s k, d, o, e⟩) (h1 : Always ok Q ⟨k, d, o, e ++ utf8 s⟩)
    (h2 : ok = false → ∀ t, t <+: utf8 s → Q ⟨.panic, d, o, e ++ t⟩) : Always ok Q ⟨.err s k, d, o, e⟩ := by
  intro u hu
  cases hu with
  | here => exact h
  | next b hb hs hr =>
    cases hs with
    | err => exact h1 u hr
    | noErr t ht => exact always_panic (h2 (by cases ok with | false => rfl | true => exact absurd (hb rfl) (by decide)) t ht) u hr
theorem always_create {p : Str} {k : Option Str → Io} (h : Q ⟨.create p k, d, o, e⟩) (h1 : Always ok Q ⟨k none, Disk.set d p [], o, e⟩)
    (h2 : ok = false → ∀ x, Always ok Q ⟨k (some x), d, o, e⟩) : Always ok Q ⟨.create p k, d, o, e⟩ := by
  intro u hu
  cases hu with
  | here => exact h
  | next b hb hs hr =>
    cases hs with
    | create => exact h1 u hr
    | noCreate x => exact h2 (by cases ok with | false => rfl | true => exact absurd (hb rfl) (by decide)) x u hr
theorem always_write {p : Str} {bs : Bytes} {k : Option Str → Io} (h : Q ⟨.write p bs k, d, o, e⟩)
    (h1 : Always ok Q ⟨k none, Disk.set d p ((d p).getD [] ++ bs), o, e⟩)
    (h2 : ok = false → ∀ x t, t <+: bs → Always ok Q ⟨k (some x), Disk.set d p ((d p).getD [] ++ t), o, e⟩) : Always ok Q ⟨.write p bs k, d, o, e⟩ := by
  intro u hu
  cases hu with
  | here => exact h
  | next b hb hs hr =>
    cases hs with
    | write => exact h1 u hr
    | noWrite x t ht => exact h2 (by cases ok with | false => rfl | true => exact absurd (hb rfl) (by decide)) x t ht u hr

end

/-! ### What holds at all moments -/

section
variable [Unicode] (rt : Rt) (L : Lib) (c : Cmd) (d : Disk)

/-- The invariant: only the output file changes, it holds its old contents or the beginning of the result, only the beginning of the result is
printed; at the end with status 0 the result is complete, and no other status but 1 is possible. -/
structure Fine (s : St) : Prop where
  others : ∀ p, c.output ≠ some p → s.disk p = d p
  file : ∀ p, c.output = some p → s.disk p = d p ∨ ∃ part full text, s.disk p = some part ∧ part <+: full ∧ Result rt.ovf L c d full text
  out : s.out = [] ∨ (c.output = none ∧ ∃ full text, s.out <+: utf8 text ∧ Result rt.ovf L c d full text)
  done : s.io = .exit 0 → (∀ p, c.output = some p → ∃ full text, s.disk p = some full ∧ Result rt.ovf L c d full text) ∧
    (c.output = none → ∃ full text, s.out = utf8 text ∧ Result rt.ovf L c d full text)
  status : ∀ n, s.io = .exit n → n = 0 ∨ n = 1

end

section
variable [Unicode] {rt : Rt} {L : Lib} {c : Cmd} {d : Disk} {ok : Bool}

/-- while nothing is written, with a next step that is no end -/
theorem fine_idle {io : Io} {e : Bytes} (h : ∀ n, io ≠ .exit n) : Fine rt L c d ⟨io, d, [], e⟩ :=
  ⟨fun _ _ => rfl, fun _ _ => .inl rfl, .inl rfl, fun h' => absurd h' (h 0), fun n h' => absurd h' (h n)⟩
theorem fine_one {e : Bytes} : Fine rt L c d ⟨.exit 1, d, [], e⟩ :=
  ⟨fun _ _ => rfl, fun _ _ => .inl rfl, .inl rfl, (fun h => by cases h), (fun n h => by cases h; exact .inr rfl)⟩
theorem idle_failed {x : Str} {e : Bytes} : Always ok (Fine rt L c d) ⟨failed x, d, [], e⟩ :=
  always_fail (fine_idle (by intro n; nofun)) fine_one fun _ _ _ => fine_one
theorem idle_panic {e : Bytes} : Always ok (Fine rt L c d) ⟨.panic, d, [], e⟩ := always_panic (fine_idle (by intro n; nofun))

theorem idle_text {p : Str} {k : Str → Io} {e : Bytes} (h : ∀ s, d p = some (utf8 s) → Always ok (Fine rt L c d) ⟨k s, d, [], e⟩) :
    Always ok (Fine rt L c d) ⟨readText L p k, d, [], e⟩ := by
  refine always_read (fine_idle (by intro n; nofun)) (fun bs hp => ?_) fun _ x => idle_failed
  dsimp only
  cases hf : fromUtf8 bs with
  | none => exact idle_failed
  | some s =>
    have := (fromUtf8_iff bs s).1 hf
    subst this
    exact h s hp

theorem idle_warn {k : Io} (h : ∀ e, Always ok (Fine rt L c d) ⟨k, d, [], e⟩) : ∀ (ws : List ParserWarning) (e : Bytes),
    Always ok (Fine rt L c d) ⟨warnAll ws k, d, [], e⟩
  | [], e => h e
  | w :: ws, e => by
    show Always ok _ ⟨(match w.display with | none => Io.panic | some t => .err (t ++ c!"\n") (warnAll ws k)), d, [], e⟩
    cases w.display with
    | none => exact idle_panic
    | some t => exact always_err (fine_idle (by intro n; nofun)) (idle_warn h ws _) fun _ _ _ => fine_idle (by intro n; nofun)
theorem idle_err {k : Io} (h : ∀ e, Always ok (Fine rt L c d) ⟨k, d, [], e⟩) : ∀ (ws : List ParserError) (e : Bytes),
    Always ok (Fine rt L c d) ⟨errAll ws k, d, [], e⟩
  | [], e => h e
  | w :: ws, e => by
    show Always ok _ ⟨(match w.display with | none => Io.panic | some t => .err (t ++ c!"\n") (errAll ws k)), d, [], e⟩
    cases w.display with
    | none => exact idle_panic
    | some t => exact always_err (fine_idle (by intro n; nofun)) (idle_err h ws _) fun _ _ _ => fine_idle (by intro n; nofun)

/-- while the output file is written -/
theorem fine_file {io : Io} {p : Str} {part full : Bytes} {text : Str} {e : Bytes} (hp : c.output = some p) (hr : Result rt.ovf L c d full text)
    (hpre : part <+: full) (h0 : io = .exit 0 → part = full) (h1 : ∀ n, io = .exit n → n = 0 ∨ n = 1) : Fine rt L c d ⟨io, Disk.set d p part, [], e⟩ := by
  refine ⟨fun q hq => ?_, fun q hq => .inr ⟨part, full, text, ?_, hpre, hr⟩, .inl rfl, fun h => ⟨fun q hq => ⟨full, text, ?_, hr⟩, fun hn => ?_⟩, h1⟩
  · show (if q = p then some part else d q) = d q
    rw [if_neg]; rintro rfl; exact hq hp
  · show (if q = p then some part else d q) = some part
    rw [if_pos]; rw [hp] at hq; cases hq; rfl
  · show (if q = p then some part else d q) = some full
    rw [if_pos, h0 h]; rw [hp] at hq; cases hq; rfl
  · rw [hp] at hn; cases hn
theorem file_failed {p : Str} {part full : Bytes} {text x : Str} {e : Bytes} (hp : c.output = some p) (hr : Result rt.ovf L c d full text)
    (hpre : part <+: full) : Always ok (Fine rt L c d) ⟨failed x, Disk.set d p part, [], e⟩ := by
  have h1 : ∀ e, Fine rt L c d ⟨.exit 1, Disk.set d p part, [], e⟩ := fun e => fine_file hp hr hpre (fun h => by cases h) (fun n h => by cases h; exact .inr rfl)
  exact always_fail (fine_file hp hr hpre (fun h => by cases h) (fun n h => by cases h)) (h1 _) fun _ _ _ => h1 _

omit [Unicode] in
theorem set_set (d : Disk) (p : Str) (a b : Bytes) : Disk.set (Disk.set d p a) p b = Disk.set d p b := by
  funext q
  unfold Disk.set
  split <;> rfl
omit [Unicode] in
theorem set_get (d : Disk) (p : Str) (a : Bytes) : Disk.set d p a p = some a := by unfold Disk.set; rw [if_pos rfl]

theorem write_file {p : Str} {bs part full : Bytes} {text : Str} {e : Bytes} {k : Io} (hp : c.output = some p) (hr : Result rt.ovf L c d full text)
    (hpre : part ++ bs <+: full) (hk : Always ok (Fine rt L c d) ⟨k, Disk.set d p (part ++ bs), [], e⟩) :
    Always ok (Fine rt L c d) ⟨.write p bs (orFail k), Disk.set d p part, [], e⟩ := by
  have h0 : part <+: full := (List.prefix_append part bs).trans hpre
  refine always_write (fine_file hp hr h0 (fun h => by cases h) (fun n h => by cases h)) ?_ fun _ x t ht => ?_
  · rw [set_get, set_set, Option.getD_some]; exact hk
  · rw [set_get, set_set, Option.getD_some]
    refine file_failed hp hr ?_
    obtain ⟨u, rfl⟩ := ht
    rw [← List.append_assoc] at hpre
    exact (List.prefix_append _ u).trans hpre

theorem write_all {p : Str} {full : Bytes} {text : Str} {e : Bytes} (hp : c.output = some p) (hr : Result rt.ovf L c d full text) :
    ∀ (ls : List Str) (part : Bytes), part ++ utf8 ls.flatten = full →
    Always ok (Fine rt L c d) ⟨ls.foldr (fun l k => .write p (utf8 l) (orFail k)) (.exit 0), Disk.set d p part, [], e⟩
  | [], part, h => by
    have h : part = full := by simpa [utf8] using h
    exact always_exit (fine_file hp hr (by rw [h]; exact List.prefix_refl _) (fun _ => h) (fun n h => by cases h; exact .inl rfl))
  | l :: ls, part, h => by
    rw [List.flatten_cons, utf8_append, ← List.append_assoc] at h
    exact write_file hp hr ⟨_, h⟩ (write_all hp hr ls _ h)

/-- while the result is printed -/
theorem fine_out {io : Io} {full part : Bytes} {text : Str} {e : Bytes} (hp : c.output = none) (hr : Result rt.ovf L c d full text)
    (hpre : part <+: utf8 text) (h0 : io = .exit 0 → part = utf8 text) (h1 : ∀ n, io = .exit n → n = 0 ∨ n = 1) : Fine rt L c d ⟨io, d, part, e⟩ :=
  ⟨fun _ _ => rfl, fun _ _ => .inl rfl, .inr ⟨hp, full, text, hpre, hr⟩,
    fun h => ⟨(fun q hq => by rw [hp] at hq; cases hq), fun _ => ⟨full, text, h0 h, hr⟩⟩, h1⟩

theorem print_one {s : Str} {part full : Bytes} {text : Str} {e : Bytes} {k : Io} (hp : c.output = none) (hr : Result rt.ovf L c d full text)
    (hpre : part ++ utf8 s <+: utf8 text) (hk : Always ok (Fine rt L c d) ⟨k, d, part ++ utf8 s, e⟩) :
    Always ok (Fine rt L c d) ⟨.out s k, d, part, e⟩ := by
  refine always_out (fine_out hp hr ((List.prefix_append _ _).trans hpre) (fun h => by cases h) (fun n h => by cases h)) hk fun _ t ht => ?_
  refine fine_out hp hr ?_ (fun h => by cases h) (fun n h => by cases h)
  obtain ⟨u, hu⟩ := ht
  rw [← hu, ← List.append_assoc] at hpre
  exact (List.prefix_append _ u).trans hpre

theorem print_all {full : Bytes} {text : Str} {e : Bytes} (hp : c.output = none) (hr : Result rt.ovf L c d full text) :
    ∀ (ls : List Str) (part : Bytes), part ++ utf8 (ls.flatMap fun l => l ++ c!"\n") = utf8 text →
    Always ok (Fine rt L c d) ⟨ls.foldr (fun l k => .out (l ++ c!"\n") k) (.exit 0), d, part, e⟩
  | [], part, h => by
    have h : part = utf8 text := by simpa [utf8] using h
    exact always_exit (fine_out hp hr (by rw [h]; exact List.prefix_refl _) (fun _ => h) (fun n h => by cases h; exact .inl rfl))
  | l :: ls, part, h => by
    rw [List.flatMap_cons, utf8_append, ← List.append_assoc] at h
    exact print_one hp hr ⟨_, h⟩ (print_all hp hr ls _ h)

theorem always_fine : Always ok (Fine rt L c d) (start rt L c d) := by
  have key : ∀ text, SymText c d text →
      Always ok (Fine rt L c d) ⟨(match L.yaml text with
        | none => .panic
        | some syms =>
          match parseBase c.base with
          | none => .err (c!"Error: Invalid base address `" ++ c.base ++ c!"`\n") (.exit 1)
          | some addr =>
            let m := (Mipsasm.new.setBase addr).setSymbols (L.order (loadSyms syms))
            match c.mode with
            | .asm => readText L c.input (runAsm rt m c.output)
            | .disasm => .read c.input fun
              | .error e => failed e
              | .ok bytes => runDisasm rt m c.output bytes), d, [], []⟩ := by
    intro text ht
    cases hy : L.yaml text with
    | none => exact idle_panic
    | some y =>
      dsimp only
      cases hb : parseBase c.base with
      | none => exact always_err (fine_idle (by intro n; nofun)) (always_exit fine_one) fun _ _ _ => fine_idle (by intro n; nofun)
      | some addr =>
        dsimp only
        have hcfg : Configured L c d (L.order (loadSyms y)) addr := ⟨text, y, ht, hy, rfl, (C39_accepted_only _ _).1 hb⟩
        cases hm : c.mode with
        | asm =>
          refine idle_text fun data hd => ?_
          unfold runAsm
          cases ha : assemble rt ((Mipsasm.new.setBase addr).setSymbols (L.order (loadSyms y))) data with
          | panic => exact idle_panic
          | err es ws => exact idle_warn (fun e => idle_err (fun e => always_exit fine_one) es e) ws _
          | ok is ws =>
            obtain ⟨h1, h2⟩ := (C57_program rt ((Mipsasm.new.setBase addr).setSymbols (L.order (loadSyms y))) data (getBytes is)).1 (by rw [ha]; rfl)
            have hr : Result rt.ovf L c d (outBytes (getBytes is)) (hexList (getBytes is) ++ c!"\n") :=
              .asm _ _ _ _ _ _ hm hcfg hd h1 h2 (C38_written_bytes _) ⟨_, hexWords_inter _, by simp [hexList]⟩
            refine idle_warn (fun e => ?_) ws _
            cases ho : c.output with
            | none =>
              refine print_one ho hr (part := []) (by simp) (always_exit ?_)
              exact fine_out ho hr (by simp) (fun _ => by simp) (fun n h => by cases h; exact .inl rfl)
            | some p =>
              refine always_create (fine_idle (by intro n; nofun)) ?_ fun _ x => idle_failed
              refine write_file ho hr (part := []) (by simp) (always_exit ?_)
              exact fine_file ho hr (by simp) (fun _ => by simp) (fun n h => by cases h; exact .inl rfl)
        | disasm =>
          refine always_read (fine_idle (by intro n; nofun)) (fun bytes hd => ?_) fun _ x => idle_failed
          dsimp only
          unfold runDisasm
          cases hrw : readWords bytes with
          | none => exact idle_panic
          | some ws =>
            obtain ⟨h1, h2⟩ := (C38_read bytes ws).1 hrw
            obtain ⟨g1, g2⟩ := C60_listing rt ((Mipsasm.new.setBase addr).setSymbols (L.order (loadSyms y))) rfl ws
            dsimp only
            cases hdis : disassemble rt ((Mipsasm.new.setBase addr).setSymbols (L.order (loadSyms y))) ws with
            | none => exact idle_panic
            | some ls =>
              have hno : ¬ Listing.NoListing rt.ovf (fun a => (L.order (loadSyms y)).lookup a) addr ws := by
                intro h
                have := g1.2 h
                rw [hdis] at this; cases this
              have hl := g2 hno
              rw [hdis] at hl; cases hl
              have hr : Result rt.ovf L c d _ _ := .disasm _ _ _ _ hm hcfg hd h2 h1 hno
              dsimp only
              cases ho : c.output with
              | none => exact print_all ho hr _ [] (by simp; rfl)
              | some p =>
                refine always_create (fine_idle (by intro n; nofun)) ?_ fun _ x => idle_failed
                exact write_all ho hr _ [] (by simp; rfl)
  unfold start program symText
  cases hs : c.syms with
  | none => exact key [] (by unfold SymText; rw [hs])
  | some p => exact idle_text fun s h => key s (by unfold SymText; rw [hs]; exact h)

/-! ### The theorems -/

/-- C61: at every moment of a run, whatever has failed: no file but the output file has changed; the output file is as it was or holds the
beginning of the result; what is printed is the beginning of the result, and nothing is if there is an output file. -/
theorem C61_safe (s : St) (h : Reach false (start rt L c d) s) :
    (∀ p, c.output ≠ some p → s.disk p = d p) ∧
    (∀ p, c.output = some p → s.disk p = d p ∨ ∃ full text part, Result rt.ovf L c d full text ∧ s.disk p = some part ∧ part <+: full) ∧
    (∀ p, c.output = some p → s.out = []) ∧
    (s.out = [] ∨ ∃ full text, Result rt.ovf L c d full text ∧ s.out <+: utf8 text) := by
  have hf := always_fine s h
  refine ⟨hf.others, fun p hp => ?_, fun p hp => ?_, ?_⟩
  · rcases hf.file p hp with h | ⟨part, full, text, h1, h2, h3⟩
    · exact .inl h
    · exact .inr ⟨full, text, part, h3, h1, h2⟩
  · rcases hf.out with h | ⟨h, _⟩
    · exact h
    · rw [hp] at h; cases h
  · rcases hf.out with h | ⟨_, full, text, h1, h2⟩
    · exact .inl h
    · exact .inr ⟨full, text, h2, h1⟩

/-- C61: status 0 means that the result is complete, even if some operations have failed on the way; every other end has status 1. -/
theorem C61_complete (s : St) (h : Reach false (start rt L c d) s) (n : Nat) (hn : s.io = .exit n) :
    (n = 0 ∧ ∃ full text, Result rt.ovf L c d full text ∧ (∀ p, c.output = some p → s.disk p = some full) ∧
      (c.output = none → s.out = utf8 text)) ∨ n = 1 := by
  have hf := always_fine s h
  rcases hf.status n hn with rfl | rfl
  · refine .inl ⟨rfl, ?_⟩
    obtain ⟨h1, h2⟩ := hf.done hn
    cases ho : c.output with
    | none =>
      obtain ⟨full, text, e, hr⟩ := h2 ho
      exact ⟨full, text, hr, (fun p hp => by cases hp), fun _ => e⟩
    | some q =>
      obtain ⟨full, text, e, hr⟩ := h1 q ho
      exact ⟨full, text, hr, (fun p hp => by cases hp; exact e), (fun hp => by cases hp)⟩
  · exact .inr rfl

/-- C61: without a result nothing at all is written or printed to standard output, and the status is not 0. -/
theorem C61_untouched (hno : ∀ full text, ¬ Result rt.ovf L c d full text) (s : St) (h : Reach false (start rt L c d) s) :
    s.disk = d ∧ s.out = [] ∧ s.io ≠ .exit 0 := by
  obtain ⟨h1, h2, _, h3⟩ := C61_safe s h
  refine ⟨funext fun p => ?_, ?_, fun h0 => ?_⟩
  · by_cases hp : c.output = some p
    · rcases h2 p hp with h | ⟨full, text, _, hr, _⟩
      · exact h
      · exact absurd hr (hno _ _)
    · exact h1 p hp
  · rcases h3 with h | ⟨full, text, hr, _⟩
    · exact h
    · exact absurd hr (hno _ _)
  · rcases C61_complete s h 0 h0 with ⟨_, full, text, hr, _⟩ | h
    · exact absurd hr (hno _ _)
    · cases h

omit [Unicode] in
/-- every run from a program on ends -/
theorem io_ends : ∀ (io : Io) (d : Disk) (o e : Bytes), Acc (fun t s => ∃ b, Step b s t) ⟨io, d, o, e⟩ := by
  have hx : ∀ n d o e, Acc (fun t s => ∃ b, Step b s t) ⟨.exit n, d, o, e⟩ := fun n d o e => .intro _ fun t ⟨b, h⟩ => by cases h
  have hp : ∀ d o e, Acc (fun t s => ∃ b, Step b s t) ⟨.panic, d, o, e⟩ := fun d o e => .intro _ fun t ⟨b, h⟩ => by cases h
  intro io
  induction io with
  | exit n => exact hx n
  | panic => exact hp
  | fail s => exact fun d o e => .intro _ fun t ⟨b, h⟩ => by cases h <;> exact hx _ _ _ _
  | read p k ih => exact fun d o e => .intro _ fun t ⟨b, h⟩ => by cases h <;> exact ih _ _ _ _
  | out s k ih =>
    exact fun d o e => .intro _ fun t ⟨b, h⟩ => by
      cases h
      · exact ih _ _ _
      · exact hp _ _ _
  | err s k ih =>
    exact fun d o e => .intro _ fun t ⟨b, h⟩ => by
      cases h
      · exact ih _ _ _
      · exact hp _ _ _
  | create p k ih => exact fun d o e => .intro _ fun t ⟨b, h⟩ => by cases h <;> exact ih _ _ _ _
  | write p bs k ih => exact fun d o e => .intro _ fun t ⟨b, h⟩ => by cases h <;> exact ih _ _ _ _

/-- C61: no run goes on for ever, and none stops before its end: a run that can take no step has ended with a status or panicked. -/
theorem C61_ends : (¬ ∃ run : Nat → St, run 0 = start rt L c d ∧ ∀ n, ∃ b, Step b (run n) (run (n + 1))) ∧
    ∀ s, Reach false (start rt L c d) s → (∀ b t, ¬ Step b s t) → s.io = .panic ∨ s.io = .exit 0 ∨ s.io = .exit 1 := by
  constructor
  · rintro ⟨run, h0, h⟩
    have : ∀ s, Acc (fun t s => ∃ b, Step b s t) s → ∀ n, run n = s → False := by
      intro s hs
      induction hs with
      | intro s _ ih => exact fun n hn => ih (run (n + 1)) (by rw [← hn]; exact h n) (n + 1) rfl
    exact this _ (io_ends _ _ _ _) 0 h0
  · intro s hr hs
    obtain ⟨io, d', o, e⟩ := s
    cases io with
    | exit n =>
      rcases C61_complete _ hr n rfl with ⟨rfl, _⟩ | rfl
      · exact .inr (.inl rfl)
      · exact .inr (.inr rfl)
    | panic => exact .inl rfl
    | fail x => exact absurd Step.fail (hs _ _)
    | read p k => exact absurd (Step.noRead []) (hs _ _)
    | out x k => exact absurd Step.out (hs _ _)
    | err x k => exact absurd Step.err (hs _ _)
    | create p k => exact absurd Step.create (hs _ _)
    | write p bs k => exact absurd Step.write (hs _ _)

end

/-! ### Examples -/

/-- One operation: it succeeds (`none`) or fails after some bytes. -/
def act : Option Nat → St → St
  | none, ⟨.read p k, d, o, e⟩ => match d p with
    | some bs => ⟨k (.ok bs), d, o, e⟩
    | none => ⟨k (.error []), d, o, e⟩
  | some _, ⟨.read _ k, d, o, e⟩ => ⟨k (.error []), d, o, e⟩
  | none, ⟨.out s k, d, o, e⟩ => ⟨k, d, o ++ utf8 s, e⟩
  | some n, ⟨.out s _, d, o, e⟩ => ⟨.panic, d, o ++ (utf8 s).take n, e⟩
  | none, ⟨.err s k, d, o, e⟩ => ⟨k, d, o, e ++ utf8 s⟩
  | some n, ⟨.err s _, d, o, e⟩ => ⟨.panic, d, o, e ++ (utf8 s).take n⟩
  | none, ⟨.fail s, d, o, e⟩ => ⟨.exit 1, d, o, e ++ utf8 s⟩
  | some n, ⟨.fail s, d, o, e⟩ => ⟨.exit 1, d, o, e ++ (utf8 s).take n⟩
  | none, ⟨.create p k, d, o, e⟩ => ⟨k none, Disk.set d p [], o, e⟩
  | some _, ⟨.create _ k, d, o, e⟩ => ⟨k (some []), d, o, e⟩
  | none, ⟨.write p bs k, d, o, e⟩ => ⟨k none, Disk.set d p ((d p).getD [] ++ bs), o, e⟩
  | some n, ⟨.write p bs k, d, o, e⟩ => ⟨k (some []), Disk.set d p ((d p).getD [] ++ bs.take n), o, e⟩
  | _, s => s

theorem act_step (f : Option Nat) (s : St) : act f s = s ∨ ∃ b, Step b s (act f s) := by
  obtain ⟨io, d, o, e⟩ := s
  cases f <;> cases io <;> unfold act <;> first
    | exact .inl rfl
    | (right; dsimp only; split
       · rename_i h; exact ⟨true, .read h⟩
       · exact ⟨false, .noRead _⟩)
    | exact .inr ⟨true, by constructor⟩
    | exact .inr ⟨false, by constructor; exact List.take_prefix _ _⟩
    | exact .inr ⟨false, .noRead _⟩
    | exact .inr ⟨false, .noCreate _⟩

theorem acts_reach : ∀ (fs : List (Option Nat)) (s : St), Reach false s (fs.foldl (fun s f => act f s) s)
  | [], s => .here s
  | f :: fs, s => by
    have h := acts_reach fs (act f s)
    rcases act_step f s with e | ⟨b, hb⟩
    · rw [List.foldl_cons]; rw [e] at h ⊢; exact h
    · exact .next b (by intro h; cases h) hb h

/-- A library in which no file is YAML but the empty one. -/
def noYaml : Lib := ⟨fun s => if s = [] then some none else none, rfl, c!"Error { kind: InvalidData }", fun l => l, fun l => List.Perm.refl l⟩

/-- A disk with a program, and an old output file. -/
def exDisk : Disk := fun p => if p = c!"in.s" then some (utf8 c!"addiu $v0, $zero, 1\nnop") else if p = c!"out" then some [1, 2, 3] else none

/-- Is it the end with this status? -/
def ended (n : Nat) : Io → Bool
  | .exit m => n == m
  | _ => false

/-- Non-vacuity of C61: a run to the end; one whose write fails after three bytes; one in which the output file cannot be created, so that it stays as it was. -/
example :
    (let s := [none, none, none].foldl (fun s f => act f s) (@start asciiUnicode (idRt true) noYaml ⟨.asm, some c!"out", none, c!"in.s", c!"0"⟩ exDisk)
     ended 0 s.io = true ∧ s.disk c!"out" = some [0x24, 0x02, 0x00, 0x01, 0, 0, 0, 0]) ∧
    (let s := [none, none, some 3, none].foldl (fun s f => act f s) (@start asciiUnicode (idRt true) noYaml ⟨.asm, some c!"out", none, c!"in.s", c!"0"⟩ exDisk)
     ended 1 s.io = true ∧ s.disk c!"out" = some [0x24, 0x02, 0x00]) ∧
    (let s := [none, some 0, none].foldl (fun s f => act f s) (@start asciiUnicode (idRt true) noYaml ⟨.asm, some c!"out", none, c!"in.s", c!"0"⟩ exDisk)
     ended 1 s.io = true ∧ s.disk c!"out" = some [1, 2, 3]) ∧
    (let s := [none, some 5].foldl (fun s f => act f s) (@start asciiUnicode (idRt true) noYaml ⟨.asm, none, none, c!"in.s", c!"0"⟩ exDisk)
     s.out = utf8 c!"[2402" ∧ s.disk c!"out" = some [1, 2, 3]) := by
  letI := asciiUnicode
  decide +kernel

/-- What C61 does not say, that a failed run leaves the old output file as it was, is false: it is emptied before the new contents are written. -/
theorem C61_wrong : ∃ s, Reach false (@start asciiUnicode (idRt true) noYaml ⟨.asm, some c!"out", none, c!"in.s", c!"0"⟩ exDisk) s ∧
    ended 1 s.io = true ∧ exDisk c!"out" = some [1, 2, 3] ∧ s.disk c!"out" = some [] :=
  letI := asciiUnicode
  ⟨_, acts_reach [none, none, some 0, none] _, by decide +kernel⟩

end Mips
