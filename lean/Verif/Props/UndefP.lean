/-
**C10** — references to labels that are not defined.
-/
import Verif.Props.InsertP
import Verif.Props.Errors
import Verif.Props.Labels
import Verif.Props.LocalX
import Verif.Lemmas.RelocL

namespace Mips
open Source Syntax Branch Operands
open Lang (plan LabelName Global FirstDef Cleaned)

theorem inOrder_get {P : Nat → ParserError → Prop} {n : Nat} {es : List ParserError} (h : Lang.InOrder P n es) :
    (∀ e ∈ es, ∃ k < n, P k e) ∧ ∀ k < n, (∃ e, P k e) → ∃ e ∈ es, P k e := by
  induction h with
  | nil => exact ⟨(fun e he => by cases he), fun k hk => by omega⟩
  | error k es e _ hp ih =>
    refine ⟨fun e' he => ?_, fun j hj hx => ?_⟩
    · rcases List.mem_append.1 he with h1 | h1
      · obtain ⟨j, h2, h3⟩ := ih.1 e' h1
        exact ⟨j, by omega, h3⟩
      · rw [List.mem_singleton.1 h1]; exact ⟨k, by omega, hp⟩
    · rcases Nat.lt_succ_iff_lt_or_eq.1 hj with h1 | rfl
      · obtain ⟨e', h2, h3⟩ := ih.2 j h1 hx
        exact ⟨e', List.mem_append_left _ h2, h3⟩
      · exact ⟨e, List.mem_append_right _ (List.mem_singleton.2 rfl), hp⟩
  | none k es _ hp ih =>
    refine ⟨fun e' he => ?_, fun j hj hx => ?_⟩
    · obtain ⟨j, h2, h3⟩ := ih.1 e' he
      exact ⟨j, by omega, h3⟩
    · rcases Nat.lt_succ_iff_lt_or_eq.1 hj with h1 | rfl
      · exact ih.2 j h1 hx
      · obtain ⟨e, h2⟩ := hx; exact absurd h2 (hp e)

theorem cleaned_first [Unicode] {f g : Lang.File} (hg : Cleaned f g) {d : Nat} {l : Str} : FirstDef g.ls d l ↔ FirstDef f.ls d l := by
  obtain ⟨_, _, _, h4, h5⟩ := hg
  have back : ∀ {d}, Defines g.ls d l → Defines f.ls d l := by
    rintro d ⟨raw, h1, h2⟩
    have hl : d < f.ls.length := by rw [← h4]; exact (List.getElem?_eq_some_iff.1 h1).1
    rcases h5 d _ (List.getElem?_eq_getElem hl) with ⟨_, h6⟩ | ⟨_, h6⟩
    · rw [h1] at h6; cases h6; exact ⟨_, List.getElem?_eq_getElem hl, h2⟩
    · rw [h1] at h6; cases h6; rw [Fresh.kind_nil] at h2; cases h2
  have keep : ∀ {d}, FirstDef f.ls d l → Defines g.ls d l := by
    rintro d ⟨⟨raw, h1, h2⟩, h3, h6⟩
    rcases h5 d raw h1 with ⟨_, h7⟩ | ⟨h7, _⟩
    · exact ⟨raw, h7, h2⟩
    · refine absurd ?_ h7
      unfold Lang.LineTaken
      rw [h2]
      exact ⟨h3.2, fun _ d' h8 => h6 d' h8⟩
  constructor
  · intro hd
    obtain ⟨d0, h1, h2⟩ := Context.first_le hd.2.1 d (back hd.1)
    rcases Nat.lt_or_eq_of_le h1 with h3 | rfl
    · exact absurd (keep h2) (hd.2.2 d0 h3)
    · exact h2
  · intro hd
    exact ⟨keep hd, hd.2.1, fun d' h1 h2 => hd.2.2 d' h1 (back h2)⟩

/-- **C10**.  A jump to a name that is no symbol is reported as a jump to an undefined label exactly if the name is that of a local label or no line
defines it, whatever other errors there are. -/
theorem C10_jump [Unicode] (rt : Rt) (m : Mipsasm) (text : Str) (es : List ParserError) (he : (assemble rt m text).errors = some es)
    (k : Nat) (raw t : Str) (hk : (lines text)[k]? = some raw) (hc : kind raw = .code) (hm : mnemonic (body raw) ∈ [c!"j", c!"jal"])
    (ho : operands (body raw) = [t]) (hn : LabelName m.syms (trim t)) :
    .undefinedLabel ⟨k + 1, raw⟩ (trim t) ∈ es ↔ (isLocal (trim t) = true ∨ ∀ d, ¬ Defines (lines text) d (trim t)) := by
  obtain ⟨hp, a, b, g, rfl, hg, ha, hb⟩ := (C58_report rt m text es).1 he
  have hst := Reloc.plan_jump hm ho
  have hread : ∀ s ∈ [Lang.Step.target t, .name (firstWord (body raw))], Lang.Reads ((⟨rt.ovf, m.base, m.syms, lines text⟩ : Lang.File).place k) s := by
    intro s hs
    simp only [List.mem_cons, List.not_mem_nil, or_false] at hs
    rcases hs with rfl | rfl
    · exact .inr hn
    · refine Classical.byContradiction fun hx => hp (.inl ⟨k, raw, hk, ?_⟩)
      unfold Lang.LineCrashes
      rw [hc]
      exact ⟨_, hst, .inr ⟨.inr hn, .inl hx⟩⟩
  have hgk : g.ls[k]? = some raw := by
    rcases hg.2.2.2.2 k raw hk with ⟨_, h⟩ | ⟨h, _⟩
    · exact h
    · refine absurd ?_ h
      unfold Lang.LineTaken; rw [hc]
      exact ⟨_, hst, hread⟩
  have hi : Lang.Instr g k [.target t, .name (firstWord (body raw))] := by
    refine ⟨raw, hgk, hc, hst, fun s hs => ?_⟩
    have h1 := hread s hs
    simp only [List.mem_cons, List.not_mem_nil, or_false] at hs
    rcases hs with rfl | rfl
    · refine .inr ?_
      show LabelName g.syms (trim t)
      rw [hg.2.2.1]; exact hn
    · exact h1
  have hgl : (∀ d, ¬ FirstDef (lines text) d (trim t)) ↔ (isLocal (trim t) = true ∨ ∀ d, ¬ Defines (lines text) d (trim t)) := by
    constructor
    · intro h1
      cases hl : isLocal (trim t) with
      | true => exact .inl rfl
      | false =>
        refine .inr fun d hd => ?_
        obtain ⟨_, c, u, e, h2, h3⟩ := hn
        obtain ⟨d0, _, h4⟩ := Context.first_le (show Global (trim t) from ⟨hl, c, u, e, by rw [Unicode.isNumeric_ascii c h2]; exact h3⟩) d hd
        exact h1 d0 h4
    · rintro (h1 | h1) d hd
      · rw [hd.2.1.1] at h1; cases h1
      · exact h1 d hd.1
  rw [← hgl]
  constructor
  · intro hm'
    rcases List.mem_append.1 hm' with h1 | h1
    · obtain ⟨j, _, r, _, h3⟩ := (inOrder_get ha).1 _ h1
      have := (Recover.lineError_line h3).2
      cases this
    · obtain ⟨j, _, r, h2, st, u, h3, h4⟩ := (inOrder_get hb).1 _ h1
      have hjk : j = k := by
        rcases h4 with ⟨_, _, _, e⟩ | ⟨_, _, _, _, _, e⟩ | ⟨_, _, _, e⟩ | ⟨_, v, last, _, _, _, e⟩
        · simp only [ParserError.undefinedLabel.injEq, Line.mk.injEq] at e; omega
        · cases e
        · simp only [ParserError.undefinedLabel.injEq, Line.mk.injEq] at e; omega
        · cases e
      subst hjk
      obtain ⟨r', g1, _, g3, _⟩ := h3
      rw [hgk] at g1; cases g1
      rw [hst] at g3; cases g3
      intro d hd
      rcases h4 with ⟨⟨_, h⟩ | ⟨_, _, _, h, _⟩, _⟩ | ⟨⟨_, h⟩ | ⟨_, _, _, h, _⟩, _⟩ | ⟨h, _, h5, _⟩ | ⟨h, _⟩
      all_goals try (simp at h; done)
      have : u = t := by simpa using h
      subst this
      exact h5 d ((cleaned_first hg).2 hd)
  · intro h1
    refine List.mem_append_right _ ?_
    have hlt : k < (lines text).length := (List.getElem?_eq_some_iff.1 hk).1
    have hpe : Lang.PlaceError ⟨rt.ovf, m.base, m.syms, lines text⟩ g k raw (.undefinedLabel ⟨k + 1, raw⟩ (trim t)) :=
      ⟨_, t, hi, .inr (.inr (.inl ⟨by simp, hg.2.2.1.symm ▸ hn, fun d hd => h1 d ((cleaned_first hg).1 hd), rfl⟩))⟩
    obtain ⟨e, h2, r, h3, st, u, ⟨r', g1, _, g3, _⟩, h4⟩ := (inOrder_get hb).2 k hlt ⟨_, raw, hk, hpe⟩
    have h3' : (lines text)[k]? = some r := h3
    rw [hk] at h3'; cases h3'
    rw [hgk] at g1; cases g1
    rw [hst] at g3; cases g3
    rcases h4 with ⟨⟨_, h⟩ | ⟨_, _, _, h, _⟩, _⟩ | ⟨⟨_, h⟩ | ⟨_, _, _, h, _⟩, _⟩ | ⟨h, _, _, e⟩ | ⟨h, _⟩
    all_goals try (simp at h; done)
    have : u = t := by simpa using h
    subst this
    rw [← e]; exact h2

/-- **C10**.  A branch to a name that no line defines (and that is no number) is never accepted. -/
theorem C10_branch [Unicode] (rt : Rt) (m : Mipsasm) (text : Str) (k : Nat) (t mn : Str) (regs : List (BitVec 5))
    (hb : BranchAt (lines text) k mn regs t) (hbr : IsBranch mn regs) (hw : Wordy (trim t)) (hd : ∀ d, ¬ Defines (lines text) d (trim t)) :
    (assemble rt m text).words = none := by
  cases h : assemble rt m text with
  | panic => rfl
  | err es ws => rfl
  | ok is ws =>
    cases hl : isLocal (trim t) with
    | false => exact absurd h (C06_forward_rejected rt m text k _ t mn regs hb hbr rfl hl hw (fun d _ => hd d) is ws)
    | true =>
      obtain ⟨d, h1, _⟩ := C09_resolves_exact rt m text is ws h k _ t mn regs hb hbr rfl hl
      exact absurd h1.1 (hd d)

/-- The hypotheses of `C10_jump` are met, in a file with another error. -/
example : letI := asciiUnicode
    (assemble (idRt true) Mipsasm.new c!"main:\nj nowhere\nfoo $t0\njal main").errors = some
      [.invalidOpcode ⟨3, c!"foo $t0"⟩ c!"foo", .undefinedLabel ⟨2, c!"j nowhere"⟩ c!"nowhere"] ∧
    mnemonic (body c!"j nowhere") ∈ [c!"j", c!"jal"] ∧ operands (body c!"j nowhere") = [c!"nowhere"] ∧
    LabelName [] (trim c!"nowhere") := by
  refine ⟨by decide +kernel, by decide +kernel, by decide +kernel, rfl, 'n', c!"owhere", rfl, rfl, rfl⟩

/-- The hypotheses of `C10_branch` are met, for a global and a local label. -/
example : letI := asciiUnicode
    BranchAt (lines c!"main:\nb nowhere\nnop") 1 c!"b" [] c!"nowhere" ∧ IsBranch c!"b" [] ∧ Wordy (trim c!"nowhere") ∧
    (assemble (idRt true) Mipsasm.new c!"main:\nb nowhere\nnop").words = none ∧
    BranchAt (lines c!"main:\nb @@x\nnop") 1 c!"b" [] c!"@@x" ∧ Wordy (trim c!"@@x") ∧
    (assemble (idRt true) Mipsasm.new c!"main:\nb @@x\nnop").words = none :=
  ⟨⟨c!"b nowhere", by decide +kernel, by decide +kernel, brText0 (by unfold SameName; decide) (by decide +kernel) (by decide)⟩, rfl,
   ⟨by decide +kernel, 'n', by decide +kernel, by decide⟩, by decide +kernel,
   ⟨c!"b @@x", by decide +kernel, by decide +kernel, brText0 (by unfold SameName; decide) (by decide +kernel) (by decide)⟩,
   ⟨by decide +kernel, '@', by decide +kernel, by decide⟩, by decide +kernel⟩

end Mips
