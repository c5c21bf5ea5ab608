/- The value of an operand is unique (for C57). -/
import Verif.Lemmas.LangL13
import Verif.Spec.Code

namespace Mips
open Source Syntax Branch Operands
open Mips.Isa hiding conds
open Mips.Names hiding none

theorem gpr_unique [Unicode] {s : Str} {r r' : BitVec 5} (h : Taken GprTaken s r) (h' : Taken GprTaken s r') : r = r' := by
  have := (gpr_reads h).symm.trans (gpr_reads h')
  rw [Res.ok.injEq] at this
  exact BitVec.eq_of_toFin_eq this
theorem fpr_unique [Unicode] {s : Str} {r r' : BitVec 5} (h : Taken FprTaken s r) (h' : Taken FprTaken s r') : r = r' := by
  have := (fpr_reads h).symm.trans (fpr_reads h')
  rw [Res.ok.injEq] at this
  exact BitVec.eq_of_toFin_eq this
theorem c0_unique [Unicode] {s : Str} {r r' : BitVec 5} (h : Taken C0Taken s r) (h' : Taken C0Taken s r') : r = r' := by
  have := (c0_reads h).symm.trans (c0_reads h')
  rw [Res.ok.injEq] at this
  exact BitVec.eq_of_toFin_eq this

theorem signed_unique {neg : Bool} {ds t : Str} (hd : ds = decDigits ∨ ds = hexDigits) {v v' : Int} (h : Lang.Signed neg ds t v) (h' : Lang.Signed neg ds t v') : v = v' := by
  have key : ∀ {t : Str} {n n' : Nat}, Digits ds t n → Digits ds t n' → n = n' := by
    intro t n n' h h'
    rcases hd with rfl | rfl
    · have := (parseDigits_dec h).symm.trans (parseDigits_dec h')
      simpa using this
    · have := (parseDigits_hex h).symm.trans (parseDigits_hex h')
      simpa using this
  have nosign : ∀ {t : Str} {n : Nat} (c : Char), (c = '+' ∨ c = '-') → ¬ Digits ds (c :: t) n := by
    intro t n c hc h
    rcases hd with rfl | rfl
    · have := (digits_chars_dec h).2 c (by simp)
      rcases hc with rfl | rfl <;> simp at this
    · have := (digits_chars_hex h).2 c (by simp)
      rcases hc with rfl | rfl <;> simp at this
  cases h with
  | plus _ n hp =>
    cases h' with
    | plus _ n' hp' =>
      rcases hp with h1 | ⟨u, rfl, h1⟩ <;> rcases hp' with h2 | ⟨u', e, h2⟩
      · rw [key h1 h2]
      · subst e; exact absurd h1 (nosign _ (.inl rfl))
      · exact absurd h2 (nosign _ (.inl rfl))
      · cases e; rw [key h1 h2]
    | minus s n' _ h2 =>
      rcases hp with h1 | ⟨u, e, h1⟩
      · exact absurd h1 (nosign _ (.inr rfl))
      · cases e
  | minus s n _ h1 =>
    cases h' with
    | plus _ n' hp' =>
      rcases hp' with h2 | ⟨u, e, h2⟩
      · exact absurd h2 (nosign _ (.inr rfl))
      · cases e
    | minus _ n' _ h2 => rw [key h1 h2]

theorem numeral_unique {neg : Bool} {t : Str} {v v' : Int} (h : Lang.Numeral neg t v) (h' : Lang.Numeral neg t v') : v = v' := by
  rcases h with ⟨h1, h2⟩ | ⟨h1, h2⟩ <;> rcases h' with ⟨h1', h2'⟩ | ⟨h1', h2'⟩
  · exact signed_unique (.inr rfl) h2 h2'
  · rw [h1] at h1'; cases h1'
  · rw [h1] at h1'; cases h1'
  · exact signed_unique (.inl rfl) h2 h2'

theorem shift_unique {s : Str} {v v' : Int} (h : Lang.ShiftIs s v) (h' : Lang.ShiftIs s v') : v = v' := by
  have e := (shift_is.2 ⟨v, h, rfl⟩).symm.trans (shift_is.2 ⟨v', h', rfl⟩)
  obtain ⟨h1, h2, _⟩ := h
  obtain ⟨h3, h4, _⟩ := h'
  have := congrArg BitVec.toNat (Option.some.inj e)
  simp only [BitVec.toNat_ofInt] at this
  omega

theorem address_unique [Unicode] {p : Lang.Place} {x : Ctx} (hx : Sees p x) {t : Str} {a a' : Word} (h : Lang.Address p.syms t a) (h' : Lang.Address p.syms t a') : a = a' := by
  have := ((target_addr hx).2 h).symm.trans ((target_addr hx).2 h')
  simpa using this

theorem value_unique [Unicode] {p : Lang.Place} {x : Ctx} (hx : Sees p x) {r : Lang.Range} {t : Str} (hn : '\n' ∉ t) {v v' : Int}
    (h : Lang.Value p r t v) (h' : Lang.Value p r t v') : v = v' := by
  cases h with
  | num v h1 h2 h3 h4 =>
    cases h' with
    | num v' h1' h2' => exact numeral_unique h2 h2'
    | hi m u a hg => exact absurd hg (h1 m)
    | lo m u a hg => exact absurd hg (h1 m)
  | hi m u a hg h2 h3 h4 =>
    cases h' with
    | num v' h1' h2' => exact absurd hg (h1' m)
    | hi m' u' a' hg' h2' =>
      rw [group_unique (nl_trim hn) hg' hg] at h2'
      rw [address_unique hx h2 h2']
    | lo m' u' a' hg' h2' h3' =>
      rw [h3] at h3'; cases h3'
  | lo m u a hg h2 h3 =>
    cases h' with
    | num v' h1' h2' => exact absurd hg (h1' m)
    | hi m' u' a' hg' h2' h3' =>
      rw [h3] at h3'; cases h3'
    | lo m' u' a' hg' h2' h3' =>
      rw [group_unique (nl_trim hn) hg' hg] at h2'
      rw [address_unique hx h2 h2']

theorem const_unique [Unicode] {f : Lang.File} {k : Nat} {r : Lang.Range} {t : Str} {x : Ctx} (hx : Sees (f.place k) x) (hn : '\n' ∉ t) {o o' : Int}
    (h : Lang.Const f k r t o) (h' : Lang.Const f k r t o') : o = o' := by
  have glo : ∀ {d}, Lang.FirstDef f.ls d (trim t) → isLocal (trim t) = false := fun h => h.2.1.1
  have ref : ∀ {d}, d < k → Lang.FirstDef f.ls d (trim t) → Lang.RefersTo (f.place k) t := fun hd h => .inr ⟨h.2.1, _, hd, h.1⟩
  cases h with
  | «local» d h1 h2 =>
    cases h' with
    | «local» d' h1' h2' => rw [chosen_unique h2 h2']
    | label d' h1' h2' => rw [glo h2'] at h1; cases h1
    | value v _ h1' => exact absurd (local_refers h1) h1'
    | place v _ h1' => exact absurd (local_refers h1) h1'.1
    | half g v _ h1' => exact absurd (local_refers h1) h1'
  | label d h1 h2 =>
    cases h' with
    | «local» d' h1' h2' => rw [glo h2] at h1'; cases h1'
    | label d' h1' h2' => rw [firstDef_unique h2 h2']
    | value v _ h1' => exact absurd (ref h1 h2) h1'
    | place v _ h1' => exact absurd (ref h1 h2) h1'.1
    | half g v _ h1' => exact absurd (ref h1 h2) h1'
  | value v h0 h1 h2 =>
    cases h' with
    | «local» d' h1' h2' => exact absurd (local_refers h1') h1
    | label d' h1' h2' => exact absurd (ref h1' h2') h1
    | value v' _ _ h2' => exact value_unique hx hn h2 h2'
    | place v' h0' => exact absurd h0' h0
    | half g v' h0' => exact absurd h0' h0
  | place v h0 h1 =>
    cases h' with
    | «local» d' h1' h2' => exact absurd (local_refers h1') h1.1
    | label d' h1' h2' => exact absurd (ref h1' h2') h1.1
    | value v' h0' => exact absurd h0 h0'
    | place v' _ h1' => rw [number_unique h1 h1']
    | half g v' _ h1' h2' => exact absurd h2' (h1.2.1 g)
  | half g v h0 h1 h2 h3 =>
    cases h' with
    | «local» d' h1' h2' => exact absurd (local_refers h1') h1
    | label d' h1' h2' => exact absurd (ref h1' h2') h1
    | value v' h0' => exact absurd h0 h0'
    | place v' _ h1' => exact absurd h2 (h1'.2.1 g)
    | half g' v' _ h1' h2' h3' => exact value_unique hx hn h3 h3'

/-- the texts of a step -/
def stepText : Lang.Step → Str
  | .gpr _ s | .fpr s | .c0 s | .base _ s | .offset _ s | .const _ s | .number _ s | .code s | .word32 s | .cop s | .shamt s | .target s => s
  | _ => []

theorem yields_unique [Unicode] {f : Lang.File} {k : Nat} {x : Ctx} (hx : Sees (f.place k) x) {s : Lang.Step} (hn : '\n' ∉ stepText s)
    {a b : List Lang.Val} (h : Lang.Yields f k s a) (h' : Lang.Yields f k s b) : a = b := by
  cases h with
  | gpr _ s r h1 => cases h' with | gpr _ _ r' h1' => rw [gpr_unique h1 h1']
  | fpr s r h1 => cases h' with | fpr _ r' h1' => rw [fpr_unique h1 h1']
  | c0 s r h1 => cases h' with | c0 _ r' h1' => rw [c0_unique h1 h1']
  | base _ s m r h1 h2 =>
    cases h' with
    | base _ _ m' r' h1' h2' =>
      rw [baseGroup_unique hn h1' h1] at h2'
      rw [gpr_unique h2 h2']
  | offset b s o v h1 h2 =>
    cases h' with
    | offset _ _ o' v' h1' h2' =>
      rw [offset_unique hn h1' h1] at h2'
      have hsub : ∀ c ∈ Lang.offsetText b o, c ∈ s := by
        obtain ⟨_, w, rfl, _⟩ := h1
        intro c hc
        unfold Lang.offsetText at hc
        split at hc
        · simp [(List.mem_filter.1 hc).1]
        · simp [hc]
      rw [const_unique hx (fun hc => hn (hsub _ hc)) h2 h2']
    | noOffset _ _ h1' => exact absurd h1 (h1' o)
  | noOffset b s h1 =>
    cases h' with
    | offset _ _ o' v' h1' h2' => exact absurd h1' (h1 o')
    | noOffset => rfl
  | const r s v h1 => cases h' with | const _ _ v' h1' => rw [const_unique hx hn h1 h1']
  | number r s v h1 => cases h' with | number _ _ v' h1' => rw [value_unique hx hn h1 h1']
  | code s v h0 h1 =>
    cases h' with
    | code _ v' _ h1' => rw [value_unique hx hn h1 h1']
    | noCode => exact absurd rfl h0
  | noCode =>
    cases h' with
    | code _ v' h0 => exact absurd rfl h0
    | noCode => rfl
  | word32 s v h1 => cases h' with | word32 _ v' h1' => rw [value_unique hx hn h1 h1']
  | cop s v h1 => cases h' with | cop _ v' h1' => rw [value_unique hx hn h1 h1']
  | shamt s v h1 => cases h' with | shamt _ v' h1' => rw [shift_unique h1 h1']
  | target s a h1 =>
    cases h' with
    | target _ a' h1' => rw [address_unique hx (p := f.place k) h1 h1']
    | label _ d h1' =>
      have e1 := (target_addr (p := f.place k) hx).2 h1
      have e2 := (target_label (p := f.place k) hx (l := trim s)).2 ⟨rfl, h1'⟩
      rw [e1] at e2; cases e2
  | label s d h1 h2 =>
    cases h' with
    | target _ a' h1' =>
      have e1 := (target_addr (p := f.place k) hx).2 h1'
      have e2 := (target_label (p := f.place k) hx (l := trim s)).2 ⟨rfl, h1⟩
      rw [e1] at e2; cases e2
    | label _ d' h1' h2' => rw [firstDef_unique h2 h2']
  | name => cases h'; rfl
  | fname => cases h'; rfl
  | format => cases h'; rfl
  | cond => cases h'; rfl

theorem values_unique [Unicode] {f : Lang.File} {k : Nat} {x : Ctx} (hx : Sees (f.place k) x) {st : List Lang.Step} (ha : ∀ s ∈ st, '\n' ∉ stepText s)
    {vs vs' : List Lang.Val} (h : Lang.Values f k st vs) (h' : Lang.Values f k st vs') : vs = vs' := by
  induction h generalizing vs' with
  | nil => cases h'; rfl
  | cons s st a vs h1 h2 ih =>
    cases h' with
    | cons _ _ b us h1' h2' =>
      have hs := ha s (by simp)
      rw [yields_unique hx hs h1 h1', ih (fun s hs => ha s (by simp [hs])) h2']

end Mips
