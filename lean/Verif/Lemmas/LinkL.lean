/- One program behind another. -/
import Verif.Spec.Link
import Verif.Lemmas.FreshL
import Verif.Lemmas.LineL
import Verif.Props.AppendP

namespace Mips.Link
open Mips.Isa hiding conds
open Mips.Names hiding none
open Mips.Syntax Mips.Source Mips.Branch Mips.Operands
open Mips.Lang
open Mips.Fresh hiding Mentions

/-- the instruction mentions the text, other than as the symbol it jumps to -/
def Says [Unicode] (syms : List (BitVec 32 × Str)) (raw l : Str) : Prop := Mips.Fresh.Mentions raw l ∧ ¬ Calls syms raw l

/-- the texts that a step looks at -/
def Looks (st : List Step) (t : Str) : Prop :=
  (∃ x ∈ st, textOf x = some t) ∨ ∃ b s o, .offset b s ∈ st ∧ Offset s o ∧ t = offsetText b o

theorem looks_constant {st : List Step} {t : Str} (h : Constant st t) : Looks st t := by
  rcases h with ⟨r, h⟩ | ⟨b, s, o, h, ho, e⟩
  · exact .inl ⟨_, h, rfl⟩
  · exact .inr ⟨b, s, o, h, ho, e⟩

theorem float_texts [Unicode] {w : Str} {ops : List Str} {st : List Step} (h : floatPlan w ops = some st) :
    ∀ x ∈ st, textOf x = none := by
  unfold floatPlan at h
  have key : ∀ tl : List Step, (∀ x ∈ tl, textOf x = none) → ∀ x ∈ ops.map .fpr ++ tl, textOf x = none := by
    intro tl ht x hx
    rcases List.mem_append.1 hx with hx | hx
    · obtain ⟨y, _, rfl⟩ := List.mem_map.1 hx; rfl
    · exact ht x hx
  split at h
  · cases h; intro x hx; simp only [List.mem_singleton] at hx; subst hx; rfl
  · split at h
    · split at h
      · cases h; exact key _ (by intro x hx; simp only [List.mem_singleton] at hx; subst hx; rfl)
      · cases h
    · split at h
      · split at h
        · cases h; exact key _ (by intro x hx; simp only [List.mem_singleton] at hx; subst hx; rfl)
        · cases h
      · split at h
        · split at h
          · cases h
            refine key _ ?_
            intro x hx
            simp only [List.mem_cons, List.not_mem_nil, or_false] at hx
            rcases hx with rfl | rfl <;> rfl
          · cases h
        · cases h

theorem looks_mentions [Unicode] {raw : Str} (hc : kind raw = .code) {st : List Step} (hp : plan (body raw) = some st) {t : Str}
    (h : Looks st t) : Mips.Fresh.Mentions raw (trim t) := by
  have key : (∃ x ∈ st, textOf x = some t) ∨ ∃ s o, (∃ x ∈ st, textOf x = some s) ∧ Offset s o ∧ ∃ b, t = offsetText b o := by
    rcases h with h | ⟨b, s, o, h1, h2, h3⟩
    · exact .inl h
    · exact .inr ⟨s, o, ⟨_, h1, rfl⟩, h2, b, h3⟩
  have texts : ∀ x ∈ st, ∀ s, textOf x = some s → s ∈ operands (body raw) ∨ (s = operandText (body raw) ∧ ∃ r, st = [.number r s]) := by
    intro x hx s hs
    unfold plan at hp
    simp only at hp
    split at hp
    · cases hp
      simp only [List.mem_singleton] at hx; subst hx; cases hs
    · split at hp
      · cases hp
        simp only [List.mem_singleton] at hx; subst hx; cases hs
        exact .inr ⟨rfl, _, rfl⟩
      · split at hp
        · cases hf : intSignatures.find? fun e => e.1 == mnemonic (body raw) && e.2.length == (operands (body raw)).length with
          | none => rw [hf] at hp; cases hp
          | some e =>
            rw [hf] at hp
            cases hp
            exact .inl (steps_texts _ _ _ _ x hx s hs)
        · rw [float_texts hp x hx] at hs; cases hs
  rcases h with ⟨x, hx, hs⟩ | ⟨b, s, o, h1, h2, rfl⟩
  · rcases texts x hx t hs with h | ⟨rfl, _⟩
    · exact ⟨hc, .inr ⟨t, h, .inl rfl⟩⟩
    · exact ⟨hc, .inl rfl⟩
  · rcases texts _ h1 s rfl with h | ⟨_, r, e⟩
    · refine ⟨hc, .inr ⟨s, h, .inr ⟨o, h2, ?_⟩⟩⟩
      cases b with
      | true => exact .inr rfl
      | false => exact .inl rfl
    · rw [e] at h1; simp at h1

theorem looks_sub {st : List Step} {x : Step} (hx : x ∈ st) {t : Str} (h : Looks [x] t) : Looks st t := by
  rcases h with ⟨y, hy, h⟩ | ⟨b, s, u, hy, h⟩
  · simp only [List.mem_singleton] at hy; subst hy; exact .inl ⟨_, hx, h⟩
  · simp only [List.mem_singleton] at hy; subst hy; exact .inr ⟨b, s, u, hx, h⟩

theorem looks_says [Unicode] {raw : Str} (hc : kind raw = .code) {st : List Step} (hp : plan (body raw) = some st) {x : Step} (hx : x ∈ st) {t : Str}
    {syms : List (BitVec 32 × Str)} (h : Looks [x] t) (hn : ∀ s, x = .target s → symbol syms (trim s) = none) : Says syms raw (trim t) := by
  refine ⟨looks_mentions hc hp (looks_sub hx h), ?_⟩
  rintro ⟨⟨s, w, e⟩, hs⟩
  rw [hp] at e; cases e
  simp only [List.mem_cons, List.not_mem_nil, or_false] at hx
  rcases hx with rfl | rfl
  · rcases h with ⟨y, hy, h⟩ | ⟨b, s', o, hy, _⟩
    · simp only [List.mem_singleton] at hy; subst hy; cases h
      exact hs (hn _ rfl)
    · simp at hy
  · rcases h with ⟨y, hy, h⟩ | ⟨b, s', o, hy, _⟩
    · simp only [List.mem_singleton] at hy; subst hy; cases h
    · simp at hy

theorem constant_looks {st : List Step} {t : Str} (h : Constant st t) : ∃ x ∈ st, Looks [x] t ∧ ∀ s, x ≠ .target s := by
  rcases h with ⟨r, h⟩ | ⟨b, s, o, h, ho, e⟩
  · exact ⟨_, h, .inl ⟨_, List.mem_singleton.2 rfl, rfl⟩, by intro s e; cases e⟩
  · exact ⟨_, h, .inr ⟨b, s, o, List.mem_singleton.2 rfl, ho, e⟩, by intro s e; cases e⟩

/-- `f` is part of `g`, from line `o` on, behind `c` instructions. -/
structure Part [Unicode] (f g : File) (o c : Nat) : Prop where
  ovf : f.ovf = g.ovf
  syms : f.syms = g.syms
  base : f.base = g.base + BitVec.ofNat 32 (4 * c)
  line : ∀ (k : Nat), k < f.ls.length → g.ls[o + k]? = f.ls[k]?
  count : ∀ k, k ≤ f.ls.length → codeCount (g.ls.take (o + k)) = c + codeCount (f.ls.take k)
  refers : ∀ (k : Nat) raw t, f.ls[k]? = some raw → Says f.syms raw (trim t) → (RefersTo (f.place k) t ↔ RefersTo (g.place (o + k)) t)
  first : ∀ (k : Nat) raw t d, f.ls[k]? = some raw → Says f.syms raw (trim t) → FirstDef f.ls d (trim t) → FirstDef g.ls (o + d) (trim t)
  chosen : ∀ (k : Nat) raw t d, f.ls[k]? = some raw → Says f.syms raw (trim t) → isLocal (trim t) = true → Chosen f.ls k d (trim t) →
    Chosen g.ls (o + k) (o + d) (trim t)
  closed : HasClosedScope f.ls → HasClosedScope g.ls
  numbers : ∀ (k : Nat) raw st t v, f.ls[k]? = some raw → plan (body raw) = some st → .const Lang.addr t ∈ st → Numeral false (trim t) v → c = 0
  room : f.base.toNat + 4 * codeCount f.ls ≤ g.base.toNat + 4 * codeCount g.ls
  room' : g.base.toNat + 4 * codeCount g.ls < 2 ^ 32

section
variable [Unicode] {f g : File} {o c : Nat}

theorem Part.line' (h : Part f g o c) {k : Nat} {raw : Str} (hk : f.ls[k]? = some raw) : g.ls[o + k]? = some raw := by
  rw [h.line k (List.getElem?_eq_some_iff.1 hk).1]; exact hk

theorem Part.value (h : Part f g o c) (k k' : Nat) {r : Lang.Range} {s : Str} {v : Int} : Value (f.place k) r s v ↔ Value (g.place k') r s v :=
  ⟨Rename.value_place h.ovf h.syms, Rename.value_place h.ovf.symm h.syms.symm⟩

theorem Part.reads (h : Part f g o c) {k : Nat} {raw : Str} (hk : f.ls[k]? = some raw) {x : Step}
    (hx : ∀ t, Looks [x] t → (∀ s, x ≠ .target s) → Says f.syms raw (trim t)) : Lang.Reads (f.place k) x ↔ Lang.Reads (g.place (o + k)) x := by
  have ref : ∀ t, Looks [x] t → (∀ s, x ≠ .target s) → (RefersTo (f.place k) t ↔ RefersTo (g.place (o + k)) t) :=
    fun t ht hs => h.refers k raw t hk (hx t ht hs)
  have val := fun {r s v} => h.value k (o + k) (r := r) (s := s) (v := v)
  cases x with
  | gpr | fpr | c0 | shamt | name | fname | format | cond | short | base => exact Iff.rfl
  | offset b s =>
    show (∀ u, Offset s u → RefersTo (f.place k) (offsetText b u) ∨ ∃ v, Value (f.place k) simm (offsetText b u) v) ↔
      (∀ u, Offset s u → RefersTo (g.place (o + k)) (offsetText b u) ∨ ∃ v, Value (g.place (o + k)) simm (offsetText b u) v)
    have : ∀ u, Offset s u → (RefersTo (f.place k) (offsetText b u) ↔ RefersTo (g.place (o + k)) (offsetText b u)) :=
      fun u hu => ref _ (.inr ⟨b, s, u, by simp, hu, rfl⟩) (by intro s e; cases e)
    constructor
    · intro hh u hu
      rw [← this u hu]
      simp only [← val]
      exact hh u hu
    · intro hh u hu
      rw [this u hu]
      simp only [val]
      exact hh u hu
  | const r s =>
    have := ref s (.inl ⟨_, List.mem_singleton.2 rfl, rfl⟩) (by intro s e; cases e)
    simp only [Lang.Reads, this, val]
  | number r s =>
    have := ref s (.inl ⟨_, List.mem_singleton.2 rfl, rfl⟩) (by intro s e; cases e)
    simp only [Lang.Reads, this, val]
  | code s =>
    have := ref s (.inl ⟨_, List.mem_singleton.2 rfl, rfl⟩) (by intro s e; cases e)
    simp only [Lang.Reads, this, val]
  | word32 s =>
    have := ref s (.inl ⟨_, List.mem_singleton.2 rfl, rfl⟩) (by intro s e; cases e)
    simp only [Lang.Reads, this, val]
  | cop s =>
    have := ref s (.inl ⟨_, List.mem_singleton.2 rfl, rfl⟩) (by intro s e; cases e)
    simp only [Lang.Reads, this, val]
  | target s =>
    show ((∃ a, Address f.syms (trim s) a) ∨ LabelName f.syms (trim s)) ↔ ((∃ a, Address g.syms (trim s) a) ∨ LabelName g.syms (trim s))
    rw [h.syms]

theorem Part.allReads (h : Part f g o c) {k : Nat} {raw : Str} (hk : f.ls[k]? = some raw) (hc : kind raw = .code) {st : List Step}
    (hp : plan (body raw) = some st) : (∀ s ∈ st, Lang.Reads (f.place k) s) ↔ ∀ s ∈ st, Lang.Reads (g.place (o + k)) s := by
  have : ∀ s ∈ st, (Lang.Reads (f.place k) s ↔ Lang.Reads (g.place (o + k)) s) := fun s hs =>
    h.reads hk fun t ht hx => looks_says hc hp hs ht fun s e => absurd e (hx s)
  exact ⟨fun hh s hs => (this s hs).1 (hh s hs), fun hh s hs => (this s hs).2 (hh s hs)⟩

/-- instructions of the part -/
theorem Part.instr (h : Part f g o c) {k : Nat} (hk : k < f.ls.length) {st : List Step} : Instr f k st ↔ Instr g (o + k) st := by
  unfold Instr
  rw [h.line k hk]
  constructor
  · rintro ⟨raw, h1, h2, h3, h4⟩
    exact ⟨raw, h1, h2, h3, (h.allReads h1 h2 h3).1 h4⟩
  · rintro ⟨raw, h1, h2, h3, h4⟩
    exact ⟨raw, h1, h2, h3, (h.allReads h1 h2 h3).2 h4⟩

theorem Part.mentions {f : File} {k : Nat} {st : List Step} (hi : Instr f k st) {t : Str} (ht : Constant st t ∨ (.target t ∈ st ∧ LabelName f.syms (trim t))) :
    ∃ raw, f.ls[k]? = some raw ∧ plan (body raw) = some st ∧ Says f.syms raw (trim t) := by
  obtain ⟨raw, h1, h2, h3, h4⟩ := hi
  refine ⟨raw, h1, h3, ?_⟩
  rcases ht with ht | ⟨ht, hn⟩
  · obtain ⟨x, x1, x2, x3⟩ := constant_looks ht
    exact looks_says h2 h3 x1 x2 fun s e => absurd e (x3 s)
  · exact looks_says h2 h3 ht (.inl ⟨_, List.mem_singleton.2 rfl, rfl⟩) fun s e => by cases e; exact hn.1

theorem Part.number (h : Part f g o c) {k : Nat} {raw t : Str} {v : Nat} (hk : f.ls[k]? = some raw) (hm : Says f.syms raw (trim t)) :
    Number (f.place k) t v ↔ Number (g.place (o + k)) t v := by
  unfold Number; rw [h.refers k raw t hk hm]

theorem Part.distance (h : Part f g o c) {k d : Nat} (hk : k ≤ f.ls.length) (hd : d ≤ f.ls.length) : Lang.distance f k d = Lang.distance g (o + k) (o + d) := by
  unfold Lang.distance; rw [h.count k hk, h.count d hd]; omega

omit [Unicode] in
theorem defines_lt {ls : List Str} {d : Nat} {l : Str} (h : Defines ls d l) : d < ls.length := by
  obtain ⟨raw, hr, _⟩ := h; exact (List.getElem?_eq_some_iff.1 hr).1

theorem first_unique {ls : List Str} {d e : Nat} {l : Str} (h : FirstDef ls d l) (h' : FirstDef ls e l) : d = e := by
  rcases Nat.lt_trichotomy d e with hlt | rfl | hlt
  · exact absurd h.1 (h'.2.2 d hlt)
  · rfl
  · exact absurd h'.1 (h.2.2 e hlt)

theorem first_exists {ls : List Str} {d : Nat} {l : Str} (hd : Defines ls d l) (hg : Global l) : ∃ e, e ≤ d ∧ FirstDef ls e l := by
  induction d using Nat.strongRecOn with
  | _ d ih =>
    by_cases h : ∃ e < d, Defines ls e l
    · obtain ⟨e, h1, h2⟩ := h
      obtain ⟨e', k1, k2⟩ := ih e h1 h2
      exact ⟨e', by omega, k2⟩
    · exact ⟨d, Nat.le_refl _, hd, hg, fun e he h' => h ⟨e, he, h'⟩⟩

theorem Part.const (h : Part f g o c) {k : Nat} {raw : Str} (hk : f.ls[k]? = some raw) {st : List Step} (hp : plan (body raw) = some st)
    {r : Lang.Range} {t : Str} (hm : Says f.syms raw (trim t)) (hr : r = Lang.addr → .const r t ∈ st) {v : Int} (hv : Lang.Const f k r t v) :
    Lang.Const g (o + k) r t v := by
  have hkl := (List.getElem?_eq_some_iff.1 hk).1
  cases hv with
  | «local» d h1 h2 =>
    rw [h.distance (Nat.le_of_lt hkl) (Nat.le_of_lt (defines_lt h2.1))]
    exact .local (o + d) h1 (h.chosen k raw t d hk hm h1 h2)
  | label d h1 h2 =>
    rw [h.distance (Nat.le_of_lt hkl) (Nat.le_of_lt (defines_lt h2.1))]
    exact .label (o + d) (by omega) (h.first k raw t d hk hm h2)
  | value _ h1 h2 h3 => exact .value v h1 (fun k' => h2 ((h.refers k raw t hk hm).2 k')) ((h.value _ _).1 h3)
  | place v h1 h2 =>
    have hc : c = 0 := h.numbers k raw st t v hk hp (h1 ▸ hr h1) h2.2.2.1
    have := h.count k (Nat.le_of_lt hkl)
    rw [hc, Nat.zero_add] at this
    rw [← this]
    exact .place v h1 ((h.number hk hm).1 h2)
  | half m _ h1 h2 h3 h4 => exact .half m v h1 (fun k' => h2 ((h.refers k raw t hk hm).2 k')) h3 ((h.value _ _).1 h4)

theorem Part.yields (h : Part f g o c) {k : Nat} {raw : Str} (hk : f.ls[k]? = some raw) (hc : kind raw = .code) {st : List Step}
    (hp : plan (body raw) = some st) {x : Step} (hx : x ∈ st) {vs : List Val} (hy : Yields f k x vs) : Yields g (o + k) x vs := by
  have men : ∀ t, Looks [x] t → (∀ s, x = .target s → symbol f.syms (trim s) = none) → Says f.syms raw (trim t) := fun t ht hn =>
    looks_says hc hp hx ht hn
  cases hy with
  | gpr b s r h1 => exact .gpr b s r h1
  | fpr s r h1 => exact .fpr s r h1
  | c0 s r h1 => exact .c0 s r h1
  | base b s m r h1 h2 => exact .base b s m r h1 h2
  | offset b s u v h1 h2 =>
    exact .offset b s u v h1 (h.const hk hp (men _ (.inr ⟨b, s, u, by simp, h1, rfl⟩) (by intro s e; cases e)) (fun e => by cases e) h2)
  | noOffset b s h1 => exact .noOffset b s h1
  | const r s v h1 => exact .const r s v (h.const hk hp (men _ (.inl ⟨_, List.mem_singleton.2 rfl, rfl⟩) (by intro s e; cases e)) (fun _ => hx) h1)
  | number r s v h1 => exact .number r s v ((h.value _ _).1 h1)
  | code s v h1 h2 => exact .code s v h1 ((h.value _ _).1 h2)
  | noCode => exact .noCode
  | word32 s v h1 => exact .word32 s v ((h.value _ _).1 h1)
  | cop s v h1 => exact .cop s v ((h.value _ _).1 h1)
  | shamt s v h1 => exact .shamt s v h1
  | target s a h1 => exact .target s a (h.syms ▸ h1)
  | label s d h1 h2 =>
    have e : f.base + BitVec.ofNat 32 (4 * codeCount (f.ls.take d)) = g.base + BitVec.ofNat 32 (4 * codeCount (g.ls.take (o + d))) := by
      rw [h.count d (Nat.le_of_lt (defines_lt h2.1)), h.base, Nat.mul_add, BitVec.ofNat_add, BitVec.add_assoc]
    rw [e]
    exact .label s (o + d) (h.syms ▸ h1) (h.first k raw s d hk (men _ (.inl ⟨_, List.mem_singleton.2 rfl, rfl⟩) (by intro s e; cases e; exact h1.1)) h2)
  | name w => exact .name w
  | fname w => exact .fname w
  | format w => exact .format w
  | cond w => exact .cond w

theorem Part.values (h : Part f g o c) {k : Nat} {raw : Str} (hk : f.ls[k]? = some raw) (hc : kind raw = .code) {st : List Step}
    (hp : plan (body raw) = some st) {sub : List Step} (hs : ∀ x ∈ sub, x ∈ st) {vs : List Val} (hy : Values f k sub vs) :
    Values g (o + k) sub vs := by
  induction hy with
  | nil => exact .nil
  | cons s sub a vs h1 _ ih => exact .cons s sub a vs (h.yields hk hc hp (hs s (by simp)) h1) (ih fun x hx => hs x (by simp [hx]))

theorem Part.generates (h : Part f g o c) {pre : List (BitVec 32)} (h0 : Generates g o pre) {k : Nat} {ws : List (BitVec 32)} (hg : Generates f k ws) :
    Generates g (o + k) (pre ++ ws) := by
  induction hg with
  | none => simpa using h0
  | inst k raw ws out _ h1 h2 h3 ih =>
    obtain ⟨st, vs, g1, g2, g3⟩ := h3
    rw [← List.append_assoc]
    exact .inst (o + k) raw ws _ ih (h.line' h1) h2 ⟨st, vs, g1, h.values h1 h2 g1 (fun _ hx => hx) g2, g3⟩
  | other k raw out _ h1 h2 ih => exact .other (o + k) raw _ ih (h.line' h1) h2

theorem counted_le {f : File} {k n : Nat} (h : Counted f k n) : n ≤ codeCount (f.ls.take k) := by
  induction h with
  | none => exact Nat.zero_le _
  | inst k n st _ hi ih =>
    obtain ⟨raw, h1, h2, _⟩ := hi
    rw [List.take_add_one, h1, codeCount_append]
    have : codeCount (some raw).toList = 1 := by simp [codeCount, isCode, h2]
    omega
  | other k n _ _ _ ih => exact Nat.le_trans ih (codeCount_mono _ (Nat.le_succ k))

theorem not_overflows {g : File} (hr : g.base.toNat + 4 * codeCount g.ls < 2 ^ 32) : ¬ Overflows g := by
  have key : ∀ k n, Counted g k n → ¬ NoRoom g n := by
    intro k n hc hn
    have h1 := counted_le hc
    have h2 := codeCount_take_le g.ls k
    have h3 := Nat.mod_le n (2 ^ 32)
    unfold NoRoom at hn
    omega
  rintro ⟨_, k, st, t, _, (⟨_, _, n, h1, h2⟩ | ⟨_, _, d, n, _, h1, h2⟩)⟩
  · exact key _ _ h1 h2
  · exact key _ _ h1 h2

theorem Part.noBadPlace (h : Part f g o c) (hf : ¬ BadPlace f) {k : Nat} (hk : k < f.ls.length) {st : List Step} {t : Str} (hi : Instr g (o + k) st) :
    ¬ ((Constant st t ∧ isLocal (trim t) = true ∧ ¬ (HasClosedScope g.ls ∧ ∃ d, Chosen g.ls (o + k) d (trim t))) ∨
     (.target t ∈ st ∧ LabelName g.syms (trim t) ∧ ∀ d, ¬ FirstDef g.ls d (trim t)) ∨
     (.const addr t ∈ st ∧ ∃ v, Number (g.place (o + k)) t v ∧ (v < g.base.toNat ∨ (g.base.toNat + 4 * codeCount g.ls) % 2 ^ 32 < v))) := by
  have hi' := (h.instr hk).2 hi
  rintro (⟨h1, h2, h3⟩ | ⟨h1, h2, h3⟩ | ⟨h1, v, h2, h3⟩)
  · obtain ⟨raw, r1, _, r2⟩ := Part.mentions hi' (.inl h1)
    refine hf ⟨k, st, t, hi', .inl ⟨h1, h2, ?_⟩⟩
    rintro ⟨k1, d, k2⟩
    exact h3 ⟨h.closed k1, _, h.chosen k raw t d r1 r2 h2 k2⟩
  · obtain ⟨raw, r1, _, r2⟩ := Part.mentions hi' (t := t) (.inr ⟨h1, h.syms ▸ h2⟩)
    exact hf ⟨k, st, t, hi', .inr (.inl ⟨h1, h.syms ▸ h2, fun d hd => h3 _ (h.first k raw t d r1 r2 hd)⟩)⟩
  · obtain ⟨raw, r1, r3, r2⟩ := Part.mentions hi' (t := t) (.inl (.inl ⟨_, h1⟩))
    have hn := (h.number r1 r2).2 h2
    have hc : c = 0 := h.numbers k raw st t v r1 r3 h1 h2.2.2.1
    refine hf ⟨k, st, t, hi', .inr (.inr ⟨h1, v, hn, ?_⟩)⟩
    have hb : f.base = g.base := by rw [h.base, hc]; simp
    have e1 := h.room
    have e2 := h.room'
    rw [Nat.mod_eq_of_lt e2] at h3
    rw [hb] at e1 ⊢
    rw [Nat.mod_eq_of_lt (by omega)]
    rcases h3 with h3 | h3
    · exact .inl h3
    · exact .inr (by omega)

theorem Part.unDistance (h : Part f g o c) (hf : ¬ BadPlace f) {k : Nat} (hk : k < f.ls.length) {st : List Step} {t : Str} (hi : Instr f k st)
    (ht : .const addr t ∈ st) {v : Int} (hd : Distance g (o + k) t v) : Distance f k t v := by
  obtain ⟨raw, r1, r3, r2⟩ := Part.mentions hi (t := t) (.inl (.inl ⟨_, ht⟩))
  have cnt := h.count k (Nat.le_of_lt hk)
  have dst : ∀ d ≤ f.ls.length, (codeCount (g.ls.take (o + d)) : Int) - (codeCount (g.ls.take (o + k)) + 1) =
      (codeCount (f.ls.take d) : Int) - (codeCount (f.ls.take k) + 1) := by
    intro d hd
    rw [cnt, h.count d hd]; omega
  cases hd with
  | «local» d' h1 h2 =>
    by_cases hch : HasClosedScope f.ls ∧ ∃ d, Chosen f.ls k d (trim t)
    · obtain ⟨_, d, hd⟩ := hch
      obtain rfl := chosen_unique h2 (h.chosen k raw t d r1 r2 h1 hd)
      rw [dst d (Nat.le_of_lt (defines_lt hd.1))]
      exact .local d h1 hd
    · exact absurd ⟨k, st, t, hi, .inl ⟨.inl ⟨_, ht⟩, h1, hch⟩⟩ hf
  | label d' h1 h2 =>
    have hr := (h.refers k raw t r1 r2).2 (.inr ⟨h2.2.1, d', h1, h2.1⟩)
    rcases hr with hr | ⟨hg, d, hd1, hd2⟩
    · rw [h2.2.1.1] at hr; cases hr
    · obtain ⟨e, he1, he2⟩ := first_exists hd2 hg
      obtain rfl := first_unique h2 (h.first k raw t e r1 r2 he2)
      rw [dst e (by omega)]
      exact .label e (by omega) he2
  | number v h1 =>
    have hc : c = 0 := h.numbers k raw st t v r1 r3 ht h1.2.2.1
    rw [cnt, hc, Nat.zero_add]
    exact .number v ((h.number r1 r2).2 h1)
  | half m v h1 h2 h3 => exact .half m v (fun hh => h1 ((h.refers k raw t r1 r2).1 hh)) h2 ((h.value _ _).2 h3)

theorem Part.noNoCode (h : Part f g o c) (hb : ¬ BadPlace f) (hf : ¬ NoCode f) {k : Nat} {raw : Str} (hk : f.ls[k]? = some raw) (hc : kind raw = .code) :
    ¬ (mnemonic (body raw) = c!".word" ∨
     (g.ovf = true ∧ mnemonic (body raw) ∈ cmpBranchNames ∧ ∃ st t v, Instr g (o + k) st ∧ .const addr t ∈ st ∧ Distance g (o + k) t v ∧ v % 65536 = 0)) := by
  have hkl := (List.getElem?_eq_some_iff.1 hk).1
  rintro (h1 | ⟨h1, h2, st, t, v, h3, h4, h5, h6⟩)
  · exact hf ⟨k, raw, hk, hc, .inl h1⟩
  · have hi := (h.instr hkl).2 h3
    exact hf ⟨k, raw, hk, hc, .inr ⟨h.ovf ▸ h1, h2, st, t, v, hi, h4, h.unDistance hb hkl hi h4 h5, h6⟩⟩

end
end Mips.Link
