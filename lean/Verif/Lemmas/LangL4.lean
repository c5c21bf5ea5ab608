/- Verdicts of the steps of reading an instruction (for C56). -/
import Verif.Lemmas.LangL3
import Verif.Spec.Errors

namespace Mips
open Source Syntax Branch Operands Isa
open Mips.Names hiding none

/-- When the computation succeeds, when it panics, and which errors it has. -/
def Verd {α : Type} (w : W α) (R C : Prop) (E : ParserError → Prop) : Prop :=
  ((∃ a, w.res = .ok a) ↔ R) ∧ (w.res = .panic ↔ C) ∧ ∀ e, w.res = .err e → E e

theorem verd_ok {α} {w : W α} {R C : Prop} {E : ParserError → Prop} {a : α} (h : w.res = .ok a) (hR : R) (hC : ¬ C) : Verd w R C E :=
  ⟨⟨fun _ => hR, fun _ => ⟨a, h⟩⟩, ⟨(fun e => by rw [h] at e; cases e), fun e => absurd e hC⟩, fun e he => by rw [h] at he; cases he⟩
theorem verd_err {α} {w : W α} {R C : Prop} {E : ParserError → Prop} {e : ParserError} (h : w.res = .err e) (hR : ¬ R) (hC : ¬ C) (hE : E e) :
    Verd w R C E :=
  ⟨⟨(fun ⟨a, e⟩ => by rw [h] at e; cases e), fun e => absurd e hR⟩, ⟨(fun e => by rw [h] at e; cases e), fun e => absurd e hC⟩,
    fun e he => by rw [h] at he; cases he; exact hE⟩
theorem verd_panic {α} {w : W α} {R C : Prop} {E : ParserError → Prop} (h : w.res = .panic) (hR : ¬ R) (hC : C) : Verd w R C E :=
  ⟨⟨(fun ⟨a, e⟩ => by rw [h] at e; cases e), fun e => absurd e hR⟩, ⟨fun _ => hC, fun _ => h⟩, fun e he => by rw [h] at he; cases he⟩

theorem verd_mono {α} {w : W α} {R C : Prop} {E E' : ParserError → Prop} (h : Verd w R C E) (hE : ∀ e, E e → E' e) : Verd w R C E' :=
  ⟨h.1, h.2.1, fun e he => hE e (h.2.2 e he)⟩

/-- The verdict of a list of steps. -/
def VS [Unicode] {α : Type} (p : Lang.Place) (l : Line) (w : W α) (st : List Lang.Step) : Prop :=
  Verd w (∀ s ∈ st, Lang.Reads p s) (Lang.Stops p st) (Lang.Fails p l st)

section
variable [Unicode] {p : Lang.Place} {x : Ctx} {α β : Type}

theorem vs_nil {w : W α} {a : α} (h : w.res = .ok a) : VS p x.line w [] := verd_ok h (by simp) (by simp [Lang.Stops])

theorem vs_cons {w : W α} {f : α → W β} {s : Lang.Step} {st : List Lang.Step} (h : Verd w (Lang.Reads p s) (Lang.Crashes p s) (Lang.Complains p x.line s))
    (hf : ∀ a, w.res = .ok a → VS p x.line (f a) st) : VS p x.line (w >>= f) (s :: st) := by
  obtain ⟨h1, h2, h3⟩ := h
  cases w with
  | mk ws r =>
    cases r with
    | ok a =>
      obtain ⟨g1, g2, g3⟩ := hf a rfl
      have hr : Lang.Reads p s := h1.1 ⟨a, rfl⟩
      have hc : ¬ Lang.Crashes p s := fun h => by have := h2.2 h; cases this
      have e : ((W.mk ws (.ok a)) >>= f).res = (f a).res := rfl
      refine ⟨?_, ?_, ?_⟩
      · rw [e, g1]; simp [hr]
      · rw [e, g2]; simp [Lang.Stops, hr, hc]
      · intro e0 he; rw [e] at he; exact .inr ⟨hr, g3 e0 he⟩
    | err e =>
      have hr : ¬ Lang.Reads p s := fun h => by obtain ⟨a, h⟩ := h1.2 h; cases h
      have hc : ¬ Lang.Crashes p s := fun h => by have := h2.2 h; cases this
      exact verd_err (e := e) rfl (fun h => hr (h s (by simp))) (by simp [Lang.Stops, hr, hc]) (.inl ⟨hr, hc, h3 e rfl⟩)
    | panic =>
      have hr : ¬ Lang.Reads p s := fun h => by obtain ⟨a, h⟩ := h1.2 h; cases h
      have hc : Lang.Crashes p s := h2.1 rfl
      exact verd_panic rfl (fun h => hr (h s (by simp))) (.inl hc)

theorem vs_after {w : W α} {f : α → W β} {st : List Lang.Step} {a : α} (h : w.res = .ok a) (hf : VS p x.line (f a) st) : VS p x.line (w >>= f) st := by
  have e : (w >>= f).res = (f a).res := by
    cases w with
    | mk ws r => cases h; rfl
  unfold VS Verd
  rw [e]; exact hf

theorem vs_skip {w : W α} {f : α → W β} {st : List Lang.Step} (h : ∃ a, w.res = .ok a) (hf : ∀ a, VS p x.line (f a) st) : VS p x.line (w >>= f) st :=
  let ⟨a, h⟩ := h; vs_after h (hf a)

theorem vs_last {w : W α} {s : Lang.Step} (h : Verd w (Lang.Reads p s) (Lang.Crashes p s) (Lang.Complains p x.line s)) : VS p x.line w [s] := by
  have := vs_cons (f := fun a => (pure a : W α)) (st := []) h (fun a _ => vs_nil rfl)
  have e : (w >>= fun a => (pure a : W α)).res = w.res := by
    cases w with
    | mk ws r => cases r <;> rfl
  unfold VS Verd at this ⊢
  rw [e] at this; exact this

/-- a step that is itself a whole computation -/
theorem vs_step {w : W α} {s : Lang.Step} {st : List Lang.Step} (hok : Lang.Reads p s → ¬ Lang.Crashes p s ∧ VS p x.line w st)
    (hbad : ¬ Lang.Reads p s → Verd w False (Lang.Crashes p s) (Lang.Complains p x.line s)) : VS p x.line w (s :: st) := by
  by_cases hr : Lang.Reads p s
  · obtain ⟨hc, g1, g2, g3⟩ := hok hr
    refine ⟨?_, ?_, fun e he => .inr ⟨hr, g3 e he⟩⟩
    · rw [g1]; simp [hr]
    · rw [g2]; simp [Lang.Stops, hr, hc]
  · obtain ⟨g1, g2, g3⟩ := hbad hr
    refine ⟨?_, ?_, fun e he => .inl ⟨hr, fun hc => ?_, g3 e he⟩⟩
    · rw [g1]; simp [hr]
    · rw [g2]; simp [Lang.Stops, hr]
    · rw [g2.2 hc] at he; cases he

omit [Unicode] in
theorem skip_delay : ∃ a, (delayCheck x).res = .ok a := by
  unfold delayCheck; split <;> exact ⟨_, rfl⟩
omit [Unicode] in
theorem skip_align {i : Immediate} {s : Str} : ∃ a, (alignCheck x i s).res = .ok a := by
  unfold alignCheck; split
  · exact ⟨_, rfl⟩
  · split <;> exact ⟨_, rfl⟩

/-! ### what is quoted -/

omit [Unicode] in
theorem core_eq (s : Str) : Shown.core s = trimStartMatches '$' (trim s) := rfl

omit [Unicode] in
theorem u32_iff {s : Str} {n : Nat} : parseU32 s = some n ↔ n < 2 ^ 32 ∧ Plus decDigits s n := by
  constructor
  · intro h
    have hp := parseU32_plus h
    rw [plus_parseU32 hp] at h
    split at h
    · rename_i hn; exact ⟨hn, hp⟩
    · cases h
  · rintro ⟨hn, hp⟩
    rw [plus_parseU32 hp, if_pos hn]

omit [Unicode] in
theorem u32hex_iff {s : Str} {n : Nat} : parseU32Hex s = some n ↔ n < 2 ^ 32 ∧ Plus hexDigits s n := by
  unfold parseU32Hex
  rw [Option.map_eq_some_iff]
  constructor
  · rintro ⟨v, hv, rfl⟩
    obtain ⟨h1, h2, h3⟩ := (signed_radix (.inr ⟨rfl, rfl⟩)).1 hv
    cases h1 with
    | plus _ n hp => simp only [IntTy.max] at h3; exact ⟨by omega, hp⟩
    | minus _ _ hf _ => cases hf
  · rintro ⟨hn, hp⟩
    exact ⟨n, (signed_radix (.inr ⟨rfl, rfl⟩)).2 ⟨.plus _ n hp, by simp only [IntTy.min]; omega, by simp only [IntTy.max]; omega⟩, rfl⟩

theorem gpr_quote {s e : Str} (h : Register.fromStr s = .err e) : Lang.GprQuote s e := by
  have tf : ∀ {n}, Register.tryFrom n = .err e → e = decimal n := by
    intro n h; unfold Register.tryFrom at h
    split at h <;> cases h
    rfl
  unfold Register.fromStr at h
  simp only [← core_eq, regReMatches_eq] at h
  split at h
  · rename_i hr
    rw [hasRD_iff] at hr
    split at h
    · rename_i n hn
      rw [tf h]
      obtain ⟨h1, h2⟩ := u32_iff.1 hn
      exact .number n ⟨h1, .inl ⟨hr, h2⟩⟩
    · cases h
  · rename_i hr
    rw [hasRD_iff] at hr
    split at h
    · rename_i n hn
      rw [tf h]
      obtain ⟨h1, h2⟩ := u32_iff.1 hn
      exact .number n ⟨h1, .inr ⟨hr, h2⟩⟩
    · rename_i hn
      split at h <;> cases h
      refine .text fun n => ?_
      rintro ⟨h1, ⟨h2, _⟩ | ⟨_, h2⟩⟩
      · exact hr h2
      · rw [u32_iff.2 ⟨h1, h2⟩] at hn; cases hn

theorem fpr_quote {s e : Str} (h : FloatRegister.fromStr s = .err e) : Lang.SysQuote s e := by
  have tf : ∀ {n}, FloatRegister.tryFrom n = .err e → e = decimal n := by
    intro n h; unfold FloatRegister.tryFrom at h
    split at h <;> cases h
    rfl
  unfold FloatRegister.fromStr at h
  simp only [← core_eq] at h
  split at h
  · rename_i n hn
    rw [tf h]
    obtain ⟨h1, h2⟩ := u32_iff.1 hn
    exact .number n ⟨h1, .inl h2⟩
  · rename_i hn
    have hno : ∀ m < 2 ^ 32, ¬ Plus decDigits (Shown.core s) m := fun m h1 h2 => by rw [u32_iff.2 ⟨h1, h2⟩] at hn; cases hn
    split at h
    · cases h
    · split at h
      · rename_i n hn
        rw [tf h]
        obtain ⟨h1, h2⟩ := u32hex_iff.1 hn
        exact .number n ⟨h1, .inr ⟨hno, h2⟩⟩
      · rename_i hx
        cases h
        refine .text ?_
        rintro n ⟨h1, h2 | ⟨_, h2⟩⟩
        · exact hno n h1 h2
        · rw [u32hex_iff.2 ⟨h1, h2⟩] at hx; cases hx

theorem c0_quote {s e : Str} (h : Cop0Register.fromStr s = .err e) : Lang.SysQuote s e := by
  have tf : ∀ {n}, Cop0Register.tryFrom n = .err e → e = decimal n := by
    intro n h; unfold Cop0Register.tryFrom at h
    split at h <;> cases h
    rfl
  unfold Cop0Register.fromStr at h
  simp only [← core_eq] at h
  split at h
  · rename_i n hn
    rw [tf h]
    obtain ⟨h1, h2⟩ := u32_iff.1 hn
    exact .number n ⟨h1, .inl h2⟩
  · rename_i hn
    have hno : ∀ m < 2 ^ 32, ¬ Plus decDigits (Shown.core s) m := fun m h1 h2 => by rw [u32_iff.2 ⟨h1, h2⟩] at hn; cases hn
    split at h
    · rename_i n hn
      rw [tf h]
      obtain ⟨h1, h2⟩ := u32hex_iff.1 hn
      exact .number n ⟨h1, .inr ⟨hno, h2⟩⟩
    · rename_i hx
      split at h <;> cases h
      refine .text ?_
      rintro n ⟨h1, h2 | ⟨_, h2⟩⟩
      · exact hno n h1 h2
      · rw [u32hex_iff.2 ⟨h1, h2⟩] at hx; cases hx

omit [Unicode] in
theorem target_quote {t : Str} {e : ParserError} (h : parseTarget x t = .err e) : e = .invalidTargetAddress x.line (Lang.addressQuote t) := by
  unfold parseTarget at h
  unfold Lang.addressQuote
  split at h
  · cases h
  · split at h
    · rename_i h0
      rw [if_pos h0]
      simp only [] at h
      split at h <;> cases h
      rfl
    · rename_i h0
      rw [if_neg h0]
      split at h
      · cases h
      · split at h
        · split at h <;> cases h
          rfl
        · cases h

omit [Unicode] in
theorem remove0x_absent : ∀ {s : Str}, contains c!"0x" s = false → remove0x s = s
  | [], _ => by simp [remove0x]
  | c :: s, h => by
    have h' : (c!"0x".isPrefixOf (c :: s) || contains c!"0x" s) = false := h
    rw [Bool.or_eq_false_iff] at h'
    rw [remove0x_cons, remove0x_absent h'.2]
    rintro ⟨rfl, t, rfl⟩
    simp at h'

omit [Unicode] in
theorem imm_quote {ty : IntTy} {s : Str} {e : ParserError} (hn : '\n' ∉ s) (h : parseImm x ty s = .err e) : Lang.ConstError x.line s e := by
  unfold parseImm at h
  simp only [] at h
  split at h
  · cases h
  split at h
  · cases h
  by_cases hg : ∃ m, Lang.Group s m
  · obtain ⟨m, hg⟩ := hg
    rw [group_find (nl_trim hn) hg] at h
    simp only [bare_eq] at h
    cases ht : parseTarget x (Lang.bare m) with
    | panic => rw [ht] at h; cases h
    | err e' =>
      rw [ht] at h
      cases h
      rw [target_quote ht]
      exact .address m hg
    | ok t =>
      rw [ht] at h
      simp only [Res.bind] at h
      split at h
      · cases h
      · split at h
        · split at h
          · cases h
          · split at h <;> cases h
        · split at h
          · split at h <;> cases h
          · cases h
  · have hg' : ∀ m, ¬ Lang.Group s m := fun m h => hg ⟨m, h⟩
    rw [group_none hg'] at h
    simp only [parseNum] at h
    split at h
    · split at h <;> cases h
      exact .number hg'
    · rename_i hc
      split at h <;> cases h
      have := Lang.ConstError.number (l := x.line) hg'
      rw [remove0x_absent (by simpa using hc)] at this
      exact this

/-! ### registers -/

theorem verd_gpr {s : Str} : Verd (parseReg x s) (Lang.Reads p (.gpr false s)) (Lang.Crashes p (.gpr false s)) (Lang.Complains p x.line (.gpr false s)) := by
  show Verd _ (Lang.IsGpr s) (Lang.BadGpr s) _
  rw [← isGpr_iff, ← badGpr_iff]
  unfold parseReg
  cases h : Register.fromStr s with
  | ok r => exact verd_ok (a := r) rfl ⟨r, rfl⟩ (by simp)
  | err e => exact verd_err rfl (by simp) (by simp) ⟨e, gpr_quote h, rfl⟩
  | panic => exact verd_panic rfl (by simp) rfl

theorem verd_gpr' {s : Str} :
    Verd (W.lift (Res.unwrap (Register.fromStr s)) : W Register) (Lang.Reads p (.gpr true s)) (Lang.Crashes p (.gpr true s)) (Lang.Complains p x.line (.gpr true s)) := by
  show Verd _ (Lang.IsGpr s) (¬ Lang.IsGpr s) _
  rw [← isGpr_iff]
  cases h : Register.fromStr s with
  | ok r => exact verd_ok (a := r) rfl ⟨r, rfl⟩ (by simp)
  | err e => exact verd_panic rfl (by simp) (by simp)
  | panic => exact verd_panic rfl (by simp) (by simp)

theorem verd_fpr {s : Str} : Verd (parseFReg x s) (Lang.Reads p (.fpr s)) (Lang.Crashes p (.fpr s)) (Lang.Complains p x.line (.fpr s)) := by
  show Verd _ (∃ r, Taken FprTaken s r) False _
  rw [← isFpr_iff]
  have hnp := np_fpr (x := x) (s := s)
  unfold Np at hnp
  unfold parseFReg at hnp ⊢
  cases h : FloatRegister.fromStr s with
  | ok r => exact verd_ok (a := r) rfl ⟨r, rfl⟩ (by simp)
  | err e => exact verd_err rfl (by simp) (by simp) ⟨e, fpr_quote h, rfl⟩
  | panic => rw [h] at hnp; exact absurd rfl hnp

theorem verd_c0 {s : Str} : Verd (parseCReg x s) (Lang.Reads p (.c0 s)) (Lang.Crashes p (.c0 s)) (Lang.Complains p x.line (.c0 s)) := by
  show Verd _ (∃ r, Taken C0Taken s r) False _
  rw [← isC0_iff]
  have hnp := np_c0 (x := x) (s := s)
  unfold Np at hnp
  unfold parseCReg at hnp ⊢
  cases h : Cop0Register.fromStr s with
  | ok r => exact verd_ok (a := r) rfl ⟨r, rfl⟩ (by simp)
  | err e => exact verd_err rfl (by simp) (by simp) ⟨e, c0_quote h, rfl⟩
  | panic => rw [h] at hnp; exact absurd rfl hnp

/-! ### constants -/

/-- what becomes of a constant operand -/
inductive ImmCase [Unicode] (p : Lang.Place) (x : Ctx) (ty : IntTy) (s : Str) : Prop
  | label (i : Immediate) : Lang.RefersTo p s → parseImm x ty s = .ok i → i.asU32 = none → i.asU64 = none → ImmCase p x ty s
  | breaks : ¬ Lang.RefersTo p s → Lang.Breaks p s → (∀ v, ¬ Lang.Value p (rangeOf ty) s v) → parseImm x ty s = .panic → ImmCase p x ty s
  | value (i : Immediate) (v : Int) : ¬ Lang.RefersTo p s → ¬ Lang.Breaks p s → Lang.Value p (rangeOf ty) s v →
      (∀ v, Lang.Value p (rangeOf ty) s v → Has ty i v) → parseImm x ty s = .ok i → ImmCase p x ty s
  | bad (e : ParserError) : ¬ Lang.RefersTo p s → ¬ Lang.Breaks p s → (∀ v, ¬ Lang.Value p (rangeOf ty) s v) → parseImm x ty s = .err e →
      Lang.ConstError x.line s e → ImmCase p x ty s

theorem imm_case (hx : Sees p x) (ty : IntTy) {s : Str} (hn : '\n' ∉ s) : ImmCase p x ty s := by
  by_cases hr : Lang.RefersTo p s
  · rcases parse_refers (ty := ty) hx hr with h | h
    · exact .label _ hr h rfl rfl
    · exact .label _ hr h rfl rfl
  · have hb := parse_breaks (ty := ty) hx hn hr
    cases h : parseImm x ty s with
    | panic =>
      refine .breaks hr (hb.1 h) ?_ h
      intro v hv
      obtain ⟨i, hi, _⟩ := value_parse hx hn hr hv
      rw [h] at hi; cases hi
    | err e =>
      refine .bad e hr (fun hq => by have := hb.2 hq; rw [h] at this; cases this) ?_ h (imm_quote hn h)
      intro v hv
      obtain ⟨i, hi, _⟩ := value_parse hx hn hr hv
      rw [h] at hi; cases hi
    | ok i =>
      obtain ⟨v, hv, _⟩ := parse_value hx hn hr h
      refine .value i v hr (fun hq => by have := hb.2 hq; rw [h] at this; cases this) hv ?_ h
      intro v hv
      obtain ⟨j, hj, hh⟩ := value_parse hx hn hr hv
      rw [h] at hj; cases hj; exact hh

theorem verd_const (hx : Sees p x) {ty : IntTy} {s : Str} (hn : '\n' ∉ s) :
    Verd (W.lift (parseImm x ty s)) (Lang.Reads p (.const (rangeOf ty) s)) (Lang.Crashes p (.const (rangeOf ty) s)) (Lang.Complains p x.line (.const (rangeOf ty) s)) := by
  show Verd _ (Lang.RefersTo p s ∨ ∃ v, Lang.Value p (rangeOf ty) s v) (¬ Lang.RefersTo p s ∧ Lang.Breaks p s) _
  rcases imm_case hx ty hn with ⟨i, h1, h2, _, _⟩ | ⟨h1, h2, h3, h4⟩ | ⟨i, v, h1, h2, h3, _, h4⟩ | ⟨e, h1, h2, h3, h4, h6⟩
  · exact verd_ok (a := i) h2 (.inl h1) (fun h => h.1 h1)
  · exact verd_panic h4 (by simp [h1, h3]) ⟨h1, h2⟩
  · exact verd_ok (a := i) h4 (.inr ⟨v, h3⟩) (fun h => h2 h.2)
  · exact verd_err (e := e) h4 (by simp [h1, h3]) (fun h => h2 h.2) h6

omit [Unicode] in
theorem has_some {ty : IntTy} {i : Immediate} {v : Int} (h : Has ty i v) : (∃ w, i.asU32 = some w) ∧ ∃ w, i.asU64 = some w := by
  rcases h with ⟨rfl, _⟩ | ⟨rfl, _⟩
  · cases ty <;> exact ⟨⟨_, rfl⟩, ⟨_, rfl⟩⟩
  · exact ⟨⟨_, rfl⟩, ⟨_, rfl⟩⟩

omit [Unicode] in
theorem has_u16 {i : Immediate} {v : Int} (h : Has .u16 i v) : ∃ w : Word, i.asU32 = some w ∧ (w.toNat : Int) = v := by
  have key : ∀ v : Int, 0 ≤ v → v < 65536 → (((BitVec.ofInt 16 v).setWidth 32 : Word).toNat : Int) = v := by
    intro v h1 h2
    simp only [BitVec.toNat_setWidth, BitVec.toNat_ofInt]
    omega
  rcases h with ⟨rfl, h1, h2⟩ | ⟨rfl, h1, h2⟩
  · refine ⟨_, rfl, key v ?_ ?_⟩
    · exact h1
    · simp only [IntTy.max] at h2; omega
  · exact ⟨_, rfl, key v h1 h2⟩

omit [Unicode] in
theorem has_i64 {i : Immediate} {v : Int} (h : Has .i64 i v) : ∃ w : BitVec 64, i.asU64 = some w ∧ (0xFFFFFFFF < w.toNat ↔ ¬ (0 ≤ v ∧ v ≤ 4294967295)) := by
  rcases h with ⟨rfl, h1, h2⟩ | ⟨rfl, h1, h2⟩
  · refine ⟨_, rfl, ?_⟩
    simp only [IntTy.min, IntTy.max] at h1 h2
    simp only [BitVec.toNat_ofInt]
    omega
  · refine ⟨_, rfl, ?_⟩
    simp only [BitVec.toNat_setWidth, BitVec.toNat_ofInt]
    omega

/-- `.word` -/
theorem vs_number (hx : Sees p x) {s : Str} (hn : '\n' ∉ s) {β} {f : Word → W β} (hf : ∀ v, ∃ a, (f v).res = .ok a) :
    VS p x.line ((W.lift (parseImm x .u32 s) : W Immediate) >>= fun i => match i.asU32 with | none => W.panic | some v => f v) [.number Lang.addr s] := by
  have e : Lang.addr = rangeOf .u32 := rfl
  rw [e]
  apply vs_step
  · rintro ⟨hr, v, hv⟩
    rcases imm_case hx .u32 hn with ⟨i, h1, h2, _, _⟩ | ⟨h1, h2, h3, h4⟩ | ⟨i, v', h1, h2, h3, h5, h4⟩ | ⟨e, h1, h2, h3, h4, h6⟩
    · exact absurd h1 hr
    · exact absurd hv (h3 v)
    · refine ⟨fun h => h.elim h1 h2, ?_⟩
      obtain ⟨⟨w, hw⟩, _⟩ := has_some (h5 v hv)
      obtain ⟨a, hfa⟩ := hf w
      refine vs_nil (a := a) ?_
      rw [h4]
      show (match i.asU32 with | none => W.panic | some v => f v).res = _
      rw [hw]; exact hfa
    · exact absurd hv (h3 v)
  · intro hb
    rcases imm_case hx .u32 hn with ⟨i, h1, h2, h3, _⟩ | ⟨h1, h2, h3, h4⟩ | ⟨i, v', h1, h2, h3, h5, h4⟩ | ⟨e, h1, h2, h3, h4, h6⟩
    · refine verd_panic ?_ id (.inl h1)
      rw [h2]
      show (match i.asU32 with | none => W.panic | some v => f v).res = _
      rw [h3]; rfl
    · exact verd_panic (by rw [h4]; rfl) id (.inr h2)
    · exact absurd ⟨h1, v', h3⟩ hb
    · exact verd_err (e := e) (by rw [h4]; rfl) id (fun h => h.elim h1 h2) h6

/-- the code of `break` and `syscall`; `o` is the reading of the mnemonic -/
theorem vs_code (hx : Sees p x) {s : Str} (hn : '\n' ∉ s) {γ β} {o : W γ} {f : γ → Word → W β} {st : Lang.Step}
    (ho : Verd o (Lang.Reads p st) (Lang.Crashes p st) (Lang.Complains p x.line st)) (hf : ∀ c v, ∃ a, (f c v).res = .ok a) (hpn : ∀ e, o.res ≠ .err e) :
    VS p x.line ((if s.isEmpty then pure (.short 0#16) else W.lift (parseImm x .u16 (trim s)) : W Immediate) >>= fun i => o >>= fun c =>
      match i.asU32 with | none => W.panic | some v => f c v) [.code s, st] := by
  have key : ∀ (i : Immediate) (w : Word), i.asU32 = some w → VS p x.line (o >>= fun c => match i.asU32 with | none => W.panic | some v => f c v) [st] := by
    intro i w hw
    refine vs_cons ho fun c _ => ?_
    rw [hw]
    obtain ⟨a, h⟩ := hf c w
    exact vs_nil h
  by_cases h0 : s = []
  · subst h0
    apply vs_step
    · intro _
      refine ⟨fun h => h.1 rfl, ?_⟩
      exact key (.short 0#16) _ rfl
    · intro h; exact absurd (.inl rfl) h
  · have h0' : s.isEmpty = false := by simpa using h0
    rw [h0', if_neg (by simp)]
    have et : parseImm x .u16 (trim s) = parseImm x .u16 s := by unfold parseImm; rw [trim_trim]
    rw [et]
    have e : Lang.uimm = rangeOf .u16 := rfl
    apply vs_step
    · intro hr
      obtain ⟨hr, v, hv⟩ : ¬ Lang.RefersTo p s ∧ ∃ v, Lang.Value p Lang.uimm s v := hr.resolve_left h0
      rw [e] at hv
      rcases imm_case hx .u16 hn with ⟨i, h1, h2, _, _⟩ | ⟨h1, h2, h3, h4⟩ | ⟨i, v', h1, h2, h3, h5, h4⟩ | ⟨e, h1, h2, h3, h4, h6⟩
      · exact absurd h1 hr
      · exact absurd hv (h3 v)
      · refine ⟨fun h => h.2.elim h1 h2, ?_⟩
        obtain ⟨⟨w, hw⟩, _⟩ := has_some (h5 v hv)
        rw [h4]
        exact vs_after (w := W.lift (.ok i)) rfl (key i w hw)
      · exact absurd hv (h3 v)
    · intro hb
      rcases imm_case hx .u16 hn with ⟨i, h1, h2, h3, _⟩ | ⟨h1, h2, h3, h4⟩ | ⟨i, v', h1, h2, h3, h5, h4⟩ | ⟨e, h1, h2, h3, h4, h6⟩
      · refine verd_panic ?_ id ⟨h0, .inl h1⟩
        rw [h2]
        show (o >>= fun c => match i.asU32 with | none => W.panic | some v => f c v).res = .panic
        cases o with
        | mk ws r =>
          cases r with
          | ok c => show (match i.asU32 with | none => W.panic | some v => f c v).res = _; rw [h3]; rfl
          | err e => exact absurd rfl (hpn e)
          | panic => rfl
      · exact verd_panic (by rw [h4]; rfl) id ⟨h0, .inr h2⟩
      · exact absurd (.inr ⟨h1, v', h3⟩) hb
      · exact verd_err (e := e) (by rw [h4]; rfl) id (fun h => h.2.elim h1 h2) h6

end
end Mips
