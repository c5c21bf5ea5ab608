/- C03: disassemble, then assemble. -/
import Verif.Spec.Back
import Verif.Lemmas.TextL
import Verif.Props.Dis
import Verif.Props.Native
import Verif.Props.Jumps

namespace Mips
open Isa Syntax Source Listing Branch

/-- Safe characters: neither white space nor special. -/
def SafeC (c : Char) : Prop := isWs c = false ∧ c ≠ ';' ∧ c ≠ '/' ∧ c ≠ ':'

instance (c : Char) : Decidable (SafeC c) := inferInstanceAs (Decidable (_ ∧ _))

/-- A non-empty string of safe characters. -/
def SafeS (s : Str) : Prop := s ≠ [] ∧ ∀ c ∈ s, SafeC c

instance (s : Str) : Decidable (SafeS s) := inferInstanceAs (Decidable (_ ∧ _))

theorem SafeS.append {a b : Str} (ha : SafeS a) (hb : SafeS b) : SafeS (a ++ b) :=
  ⟨by simp [ha.1], fun c hc => (List.mem_append.1 hc).elim (ha.2 c) (hb.2 c)⟩

theorem safe_hexText (n : Nat) : SafeS (hexText n) := by
  refine ⟨by simp [hexText], ?_⟩
  unfold hexText
  intro c hc
  have hc' := List.mem_append.1 hc
  clear hc
  rcases hc' with hc | hc
  · revert c; decide
  · rw [← hexLower_eq] at hc
    obtain ⟨k, hk, rfl⟩ := digitsAux_mem 16 _ _ _ (by omega) (by omega) c hc
    have : ∀ k : Fin 16, SafeC (hexChar k.val) := by decide
    exact this ⟨k, hk⟩

theorem safe_hexTextU (n : Nat) : SafeS (hexTextU n) := by
  refine ⟨by simp [hexTextU], ?_⟩
  unfold hexTextU
  intro c hc
  have hc' := List.mem_append.1 hc
  clear hc
  rcases hc' with hc | hc
  · revert c; decide
  · rw [← hexUpper_eq] at hc
    obtain ⟨k, hk, rfl⟩ := digitsAux_mem 16 _ _ _ (by omega) (by omega) c hc
    have : ∀ k : Fin 16, SafeC (hexCharU k.val) := by decide
    exact this ⟨k, hk⟩

theorem safe_intText (v : Int) : SafeS (intText v) := by
  unfold intText
  split
  · exact SafeS.append (by decide) (safe_hexText _)
  · exact safe_hexText _

theorem safe_gpr (r : BitVec 5) : SafeS (gprText r) := by revert r; decide
theorem safe_fpr (r : BitVec 5) : SafeS (fprText r) := by revert r; decide

theorem safe_arg {syms : List (Word × Str)} {base : Word} {a : Arg} (h : Readable syms base a) :
    SafeS (argText (fun a => syms.lookup a) base a) := by
  cases a with
  | gpr r => exact safe_gpr r
  | fpr r => exact safe_fpr r
  | c0 r =>
    have : ∀ r : BitVec 5, (c0Names.lookup r.toNat).isSome = true → SafeS ((c0Names.lookup r.toNat).getD []) := by decide
    exact this r h
  | sa v => exact safe_hexText _
  | simm v => exact safe_intText _
  | uimm v => exact safe_hexText _
  | off v => exact safe_intText _
  | mem v b =>
    exact (((safe_intText _).append (by decide)).append (safe_gpr b)).append (by decide)
  | cop v => exact safe_hexText _
  | code v => exact safe_hexText _
  | target t =>
    show SafeS (match syms.lookup (jumpAddr base t) with | some name => name | none => hexTextU (jumpAddr base t).toNat)
    cases hl : syms.lookup (jumpAddr base t) with
    | none => exact safe_hexTextU _
    | some n =>
      simp only [Readable, hl] at h
      exact ⟨h.2.1.1, fun c hc => ⟨(h.2.1.2 c hc).1, (h.2.1.2 c hc).2.1, (h.2.1.2 c hc).2.2.1, (h.2.1.2 c hc).2.2.2.1⟩⟩

/-- A line of safe words separated by single spaces. -/
theorem uncomment_id : ∀ (s : Str), (∀ c ∈ s, c ≠ ';' ∧ c ≠ '/') → uncomment s = s := by
  intro s
  induction s with
  | nil => intro _; rfl
  | cons c s ih =>
    intro h
    have := h c (by simp)
    unfold uncomment
    rw [if_neg (by simp [this.1, this.2]), ih (fun d hd => h d (by simp [hd]))]

/-- Text that stands for itself as a line. -/
def LineLike (s : Str) : Prop := Tight s ∧ ∀ c ∈ s, c ≠ ';' ∧ c ≠ '/' ∧ c ≠ ':' ∧ c ≠ '\n' ∧ c ≠ '\r'

theorem LineLike.body {s : Str} (h : LineLike s) : body s = s := by
  unfold Source.body
  rw [trim_tight s h.1, uncomment_id s (fun c hc => ⟨(h.2 c hc).1, (h.2 c hc).2.1⟩)]

theorem LineLike.kind {s : Str} (h : LineLike s) : kind s = .code := by
  unfold Source.kind
  rw [h.body, if_neg, if_neg]
  · simpa using h.1.1
  · unfold endsWith
    intro he
    simp at he
    exact (h.2 ':' (List.mem_of_getLast? he)).2.2.1 rfl

theorem safe_lineLike {s : Str} (h : SafeS s) : LineLike s := by
  refine ⟨⟨h.1, fun c hc => (h.2 c (List.mem_of_head? hc)).1, fun c hc => (h.2 c (List.mem_of_getLast? hc)).1⟩, ?_⟩
  intro c hc
  have := h.2 c hc
  refine ⟨this.2.1, this.2.2.1, this.2.2.2, ?_, ?_⟩
  · rintro rfl; exact absurd this.1 (by decide)
  · rintro rfl; exact absurd this.1 (by decide)

theorem lineLike_append {a b : Str} (ha : SafeS a) {sep : Str} (hs : ∀ c ∈ sep, c = ' ' ∨ c = ',') (hb : LineLike b) : LineLike (a ++ sep ++ b) := by
  have la := safe_lineLike ha
  refine ⟨⟨by simp [ha.1], ?_, ?_⟩, ?_⟩
  · intro c hc
    refine la.1.2.1 c ?_
    rw [List.append_assoc, List.head?_append] at hc
    cases hh : a.head? with
    | none => exact absurd (List.head?_eq_none_iff.1 hh) ha.1
    | some d => rw [hh] at hc; simpa using hc
  · intro c hc
    refine hb.1.2.2 c ?_
    rw [List.getLast?_append] at hc
    cases hh : b.getLast? with
    | none => exact absurd (List.getLast?_eq_none_iff.1 hh) hb.1.1
    | some d => rw [hh] at hc; simpa using hc
  · intro c hc
    rcases List.mem_append.1 hc with hc | hc
    · rcases List.mem_append.1 hc with hc | hc
      · exact la.2 c hc
      · rcases hs c hc with rfl | rfl <;> decide
    · exact hb.2 c hc

theorem inter_lineLike : ∀ (l : List Str), l ≠ [] → (∀ a ∈ l, SafeS a) → LineLike (c!", ".intercalate l) := by
  intro l
  induction l with
  | nil => intro h; exact absurd rfl h
  | cons a l ih =>
    intro _ h
    cases l with
    | nil =>
      have := safe_lineLike (h a (by simp))
      simpa [List.intercalate] using this
    | cons b l =>
      have := lineLike_append (h a (by simp)) (sep := c!", ") (by decide) (ih (by simp) (fun x hx => h x (by simp [hx])))
      simpa [List.intercalate, List.append_assoc] using this

theorem decoding_row {w : Word} {mn : Str} {args : List Arg} (h : decoding w = some (mn, args)) :
    ∃ r ∈ table, r.mn = mn ∧ args = argsOf w r.syn := by
  unfold decoding at h
  rw [Option.map_eq_some_iff] at h
  obtain ⟨r, h1, h2⟩ := h
  simp only [Prod.mk.injEq] at h2
  exact ⟨r, List.mem_of_find?_eq_some h1, h2.1, h2.2.symm⟩

theorem table_mn : ∀ r ∈ table, SafeS r.mn ∧ r.mn.map asciiLower = r.mn ∧ (r.syn = .code → r.mn = c!"break" ∨ r.mn = c!"syscall") ∧
    (r.syn = .target → r.mn ∈ jumpOps) := by decide +kernel

theorem shown_sub {mn : Str} {args : List Arg} : ∀ a ∈ shown mn args, a ∈ args := by
  intro a h
  unfold shown at h
  split at h
  · cases h
  · split at h
    · split at h
      · simp at h; simp [h]
      · exact h
    · exact h

/-- The printed text of a readable word is a line of its own. -/
theorem inst_lineLike {syms : List (Word × Str)} {base w : Word} {mn : Str} {args : List Arg} (hd : decoding w = some (mn, args))
    (hr : ∀ a ∈ args, Readable syms base a) : LineLike (instText (fun a => syms.lookup a) base mn args) := by
  obtain ⟨r, h1, rfl, _⟩ := decoding_row hd
  obtain ⟨h2, _⟩ := table_mn r h1
  unfold instText
  split
  · exact safe_lineLike h2
  · rename_i hs
    refine lineLike_append h2 (by decide) (inter_lineLike _ (by simpa using hs) ?_)
    intro t ht
    obtain ⟨a, ha, rfl⟩ := List.mem_map.1 ht
    exact safe_arg (hr a (shown_sub a ha))

theorem argsOf_target {w : Word} {s : Syn} {t : BitVec 26} (h : .target t ∈ argsOf w s) : s = .target ∧ argsOf w s = [.target t] := by
  cases s <;> simp [argsOf] at h ⊢
  exact h.symm

theorem argsOf_code {w : Word} {s : Syn} {v : BitVec 20} (h : argsOf w s = [.code v]) : s = .code := by
  cases s <;> simp [argsOf] at h ⊢

/-- The printed text of a readable word, other than a jump, is the instruction. -/
theorem inst_text {syms : List (Word × Str)} {base w : Word} {mn : Str} {args : List Arg} (hd : decoding w = some (mn, args))
    (hr : ∀ a ∈ args, Readable syms base a) (ht : ∀ t, .target t ∉ args) :
    InstrText (instText (fun a => syms.lookup a) base mn args) mn args := by
  obtain ⟨r, h1, rfl, ha⟩ := decoding_row hd
  obtain ⟨h2, hmn, hcode, _⟩ := table_mn r h1
  have hback : ∀ a ∈ args, argBack a = true := by
    intro a hm
    have := hr a hm
    cases a <;> simp_all [Readable, argBack]
  have hall : shown r.mn args = args → args ≠ [] → InstrText (instText (fun a => syms.lookup a) base r.mn args) r.mn args := by
    intro he hne
    unfold instText
    rw [he, if_neg hne]
    have := InstrText.args r.mn r.mn _ args hmn (fun _ => rfl) (args_spell (sym := fun a => syms.lookup a) (base := base) args hne hback (p := []) blank_nil)
    simpa using this
  by_cases hc0 : args = [.code 0]
  · subst hc0
    have hs : shown r.mn [Arg.code 0] = [] := by simp [shown]
    unfold instText
    rw [if_pos hs]
    exact .code0 r.mn r.mn hmn (hcode (argsOf_code ha.symm))
  by_cases hj : ∃ rs, args = [.gpr 31, .gpr rs] ∧ r.mn = c!"jalr"
  · obtain ⟨rs, rfl, hj⟩ := hj
    have hs : shown r.mn [.gpr 31, .gpr rs] = [.gpr rs] := by simp [shown, hj]
    unfold instText
    rw [hs, if_neg (by simp), hj]
    have := InstrText.jalr c!"jalr" (gprText rs) rs (by unfold SameName; decide) (by simpa using reg_gpr blank_nil rs)
    simpa [List.intercalate, argText] using this
  by_cases hne : args = []
  · subst hne
    have hs : shown r.mn [] = [] := by simp [shown]
    unfold instText
    rw [if_pos hs]
    exact .bare r.mn r.mn hmn
  · refine hall ?_ hne
    unfold shown
    rw [if_neg hc0]
    split
    · rename_i rs
      rw [if_neg]
      intro h; exact hj ⟨rs, rfl, h⟩
    · rfl

theorem index24_jump {base : Word} {t : BitVec 26} (h : t.toNat < 2 ^ 24) : index24 (jumpAddr base t) = t := by
  unfold index24 jumpAddr
  apply BitVec.eq_of_getLsbD_eq
  intro i hi
  simp only [BitVec.getLsbD_setWidth, BitVec.getLsbD_extractLsb', BitVec.getLsbD_append]
  by_cases h24 : i < 24
  · have h1 : ¬ (2 + i < 2) := by omega
    have h2 : 2 + i < 2 + 26 := by omega
    simp [hi, h24, h1, show 2 + i - 2 = i by omega, show i < 26 by omega]
  · have : t.getLsbD i = false := by
      rw [BitVec.getLsbD, Nat.testBit_lt_two_pow]
      exact Nat.lt_of_lt_of_le h (Nat.pow_le_pow_right (by omega) (by omega))
    simp [this, h24]

theorem findSym_unique {syms : List (Word × Str)} {a : Word} {l : Str} (h : (a, l) ∈ syms) (hu : ∀ e ∈ syms, e.2 = l → e.1 = a) : findSym syms l = some a := by
  unfold findSym
  cases hf : syms.find? fun e => e.2 == l with
  | none =>
    have := List.find?_eq_none.1 hf _ h
    simp at this
  | some e =>
    have h1 := List.mem_of_find?_eq_some hf
    have h2 := List.find?_some hf
    simp only [beq_iff_eq] at h2
    simp [hu e h1 h2]

/-- The printed text of a readable jump. -/
theorem jump_emits [Unicode] {syms : List (Word × Str)} {base w : Word} {mn : Str} {args : List Arg} {t : BitVec 26} (hd : decoding w = some (mn, args))
    (he : encoding mn args = some w) (hr : ∀ a ∈ args, Readable syms base a) (ht : .target t ∈ args) (x : Ctx) (hx : x.syms = syms) (ovf : Bool) :
    Emits x (instText (fun a => syms.lookup a) base mn args) ovf [w] := by
  obtain ⟨r, h1, rfl, ha⟩ := decoding_row hd
  subst ha
  obtain ⟨hsyn, hargs⟩ := argsOf_target ht
  rw [hargs] at he hr ⊢
  obtain ⟨_, hmn, _, hj⟩ := table_mn r h1
  have hm := hj hsyn
  have hread := hr (.target t) (by simp)
  have htext : instText (fun a => syms.lookup a) base r.mn [.target t] = r.mn ++ ' ' :: argText (fun a => syms.lookup a) base (.target t) := by
    simp [instText, shown, List.intercalate]
  have hsafe := safe_arg hread
  have htight := (safe_lineLike hsafe).1
  have hpt : parseTarget x (trim (argText (fun a => syms.lookup a) base (.target t))) = .ok (.address (jumpAddr base t)) ∧
      ',' ∉ argText (fun a => syms.lookup a) base (.target t) := by
    rw [trim_tight _ htight]
    show parseTarget x (match syms.lookup (jumpAddr base t) with | some name => name | none => hexTextU (jumpAddr base t).toNat) = _ ∧
      ',' ∉ (match syms.lookup (jumpAddr base t) with | some name => name | none => hexTextU (jumpAddr base t).toNat)
    cases hl : syms.lookup (jumpAddr base t) with
    | none =>
      simp only [Readable, hl] at hread
      refine ⟨?_, ?_⟩
      · dsimp only
        rw [parseTarget_num x (unum_hexTextU _) (jumpAddr base t).isLt (by rw [hx]; exact findSym_none hread.2), BitVec.ofNat_toNat, BitVec.setWidth_eq]
      · dsimp only
        intro hc
        cases unum_hexTextU (jumpAddr base t).toNat with
        | dec s n h =>
          have := (digits_chars_dec h).2 _ hc
          revert this; decide
        | hex s n h =>
          rcases List.mem_append.1 hc with hc | hc
          · revert hc; decide
          · have := (digits_chars_hex h).2 _ hc
            revert this; decide
    | some name =>
      simp only [Readable, hl] at hread
      refine ⟨?_, fun hc => (hread.2.1.2 _ hc).2.2.2.2 rfl⟩
      dsimp only
      unfold parseTarget
      rw [hx, findSym_unique (lookup_snd hl) hread.2.2]
  obtain ⟨w', w1, w2⟩ := jump_encode hm ovf (jumpAddr base t) []
  have hlow : t.toNat < 2 ^ 24 := by
    unfold Readable at hread; exact hread.1
  rw [index24_jump hlow] at w1
  have : w' = w := by rw [w1] at he; exact Option.some.inj he
  subst this
  refine ⟨.jump (jumpOp r.mn) (.address (jumpAddr base t)) [], ?_, rfl, w2⟩
  rw [htext, jump_parse x hm hmn hpt.2, hpt.1]
  rfl

/-- What is emitted for the printed text of a readable word. -/
theorem back_emits [Unicode] {syms : List (Word × Str)} {base w : Word} (h : Returns syms base w) :
    LineLike (lineText (fun a => syms.lookup a) base w) ∧
    ∀ x : Ctx, x.syms = syms → NoNumLabel x.labels → ∀ ovf, Emits x (body (lineText (fun a => syms.lookup a) base w)) ovf [w] := by
  obtain ⟨mn, args, hd, he, hr⟩ := h
  have ht : lineText (fun a => syms.lookup a) base w = instText (fun a => syms.lookup a) base mn args := by
    unfold lineText
    rw [hd]
    dsimp only
    cases hc : c0Arg args with
    | none => rfl
    | some r =>
      dsimp only
      rw [if_pos]
      have : .c0 r ∈ args := by
        unfold c0Arg at hc
        split at hc
        · cases hc; simp
        · cases hc
      exact hr _ this
  have hl := inst_lineLike hd hr
  rw [ht]
  refine ⟨hl, fun x hx hn ovf => ?_⟩
  rw [hl.body]
  by_cases hj : ∃ t, .target t ∈ args
  · obtain ⟨t, hj⟩ := hj
    exact jump_emits hd he hr hj x hx ovf
  · exact native_emits x hn (inst_text hd hr (fun t h => hj ⟨t, h⟩)) he ovf

theorem lines_single : ∀ {s : Str}, s ≠ [] → '\n' ∉ s → lines s = [s] := by
  intro s
  induction s with
  | nil => intro h; exact absurd rfl h
  | cons c s ih =>
    intro _ h
    cases s with
    | nil => simp [lines]; intro hc; exact absurd hc (by intro hc; exact h (by simp [hc]))
    | cons d s =>
      have := ih (by simp) (fun hm => h (by simp [hm]))
      rw [lines_cons2 c d s (by rintro rfl; exact h (by simp)) _ _ this, if_neg]
      rintro ⟨rfl, _⟩; exact h (by simp)

theorem lines_nl : ∀ {s : Str}, s ≠ [] → '\n' ∉ s → '\r' ∉ s → lines (s ++ ['\n']) = [s] := by
  intro s
  induction s with
  | nil => intro h; exact absurd rfl h
  | cons c s ih =>
    intro _ h hr
    have hc : c ≠ '\n' := by rintro rfl; exact h (by simp)
    have hc' : c ≠ '\r' := by rintro rfl; exact hr (by simp)
    cases s with
    | nil => simp [lines, hc, hc']
    | cons d s =>
      have := ih (by simp) (fun hm => h (by simp [hm])) (fun hm => hr (by simp [hm]))
      have e := lines_cons2 c d (s ++ ['\n']) hc _ _ this
      rw [if_neg (fun h => hc' h.2)] at e
      exact e

theorem lines_join : ∀ {l : List Str}, (∀ s ∈ l, LineLike s) → lines (['\n'].intercalate l) = l := by
  intro l
  induction l with
  | nil => intro _; rfl
  | cons a l ih =>
    intro h
    have ha := h a (by simp)
    have h1 : '\n' ∉ a := fun hm => (ha.2 _ hm).2.2.2.1 rfl
    have h2 : '\r' ∉ a := fun hm => (ha.2 _ hm).2.2.2.2 rfl
    cases l with
    | nil => simpa [List.intercalate] using lines_single ha.1.1 h1
    | cons b l =>
      have hi := ih (fun s hs => h s (by simp [hs]))
      have e : ['\n'].intercalate (a :: b :: l) = a ++ '\n' :: ['\n'].intercalate (b :: l) := by simp [List.intercalate]
      rw [e, lines_append, lines_nl ha.1.1 h1 h2, hi]
      rfl

/-- A program of lines each of which emits its words whatever the context. -/
theorem emits_prog [Unicode] {rt : Rt} {m : Mipsasm} {ls : List Str} {ws : List Word} {text : Str} (ht : lines text = ls) (hlen : ls.length = ws.length)
    (h : ∀ (k : Nat) s w, ls[k]? = some s → ws[k]? = some w → kind s = .code ∧
      ∀ x : Ctx, x.syms = m.syms → NoNumLabel x.labels → ∀ ovf, Emits x (body s) ovf [w]) :
    (assemble rt m text).words = some ws := by
  have hget : ∀ (k : Nat) s, ls[k]? = some s → ∃ w, ws[k]? = some w := by
    intro k s hk
    have := (List.getElem?_eq_some_iff.1 hk).1
    exact ⟨_, List.getElem?_eq_getElem (by omega)⟩
  have hcode : ∀ raw ∈ ls, kind raw = .code := by
    intro raw hr
    obtain ⟨k, hk⟩ := List.getElem?_of_mem hr
    obtain ⟨w, hw⟩ := hget k raw hk
    exact (h k raw w hk hw).1
  have hg : globals (lines text) = [] := globals_nil (by
    intro raw hr l hl
    rw [ht] at hr
    rw [hcode raw hr] at hl; cases hl)
  have hn : NoNumeralLabel (lines text) := by intro e he; rw [hg] at he; cases he
  obtain ⟨is, warns, ha⟩ := prog_ok (rt := rt) (m := m) (text := text) (by
      intro k raw l h1 h2
      rw [ht] at h1
      rw [hcode raw (List.mem_of_getElem? h1)] at h2; cases h2) (by
      intro k raw h1 h2 x hx
      rw [ht] at h1
      obtain ⟨w, hw⟩ := hget k raw h1
      exact ⟨[w], (h k raw w h1 hw).2 x hx.syms (hx.noNum hn) _⟩)
  rw [ha]
  have hcount : ∀ k, k ≤ ls.length → codeCount (ls.take k) = k := by
    intro k hk
    unfold codeCount
    rw [List.filter_eq_self.2 (fun r hr => by simp [isCode, hcode r (List.mem_of_mem_take hr)])]
    simp; omega
  have hlis : is.length = ls.length := by
    rw [is_length ha, ht]
    have := hcount ls.length (Nat.le_refl _)
    rwa [List.take_length] at this
  have hone : ∀ (k : Nat) w, ws[k]? = some w → (is[k]?).map Instruction.getBytes = some [w] := by
    intro k w hw
    have hk : k < ls.length := by rw [hlen]; exact (List.getElem?_eq_some_iff.1 hw).1
    have hs : ls[k]? = some ls[k] := List.getElem?_eq_getElem hk
    have := line_words ha (k := k) (raw := ls[k]) (by rw [ht]; exact hs) (hcode _ (List.getElem_mem hk))
      (ws := [w]) (fun x hx => (h k _ w hs hw).2 x hx.syms (hx.noNum hn) _)
    rw [ht, hcount k (by omega)] at this
    exact this
  refine congrArg some ?_
  clear h hget hcode hg hn ha hcount ht
  have : is.map Instruction.getBytes = ws.map fun w => [w] := by
    apply List.ext_getElem?
    intro k
    rw [List.getElem?_map, List.getElem?_map]
    cases hw : ws[k]? with
    | none =>
      rw [List.getElem?_eq_none_iff] at hw
      rw [List.getElem?_eq_none (by omega)]; rfl
    | some w => exact hone k w hw
  unfold getBytes
  rw [List.flatMap_def, this, ← List.flatMap_def]
  simp

/-- C03, for all words that the assembler's notation can express (see `Returns`): the debug disassembly of any list of such
words, one line each, assembles back to the same words. -/
theorem C03_round_trip_partial [Unicode] (rt rt' : Rt) (m m' : Mipsasm) (hm : m.debug = true) (hs : m'.syms = m.syms) (hp : PlainSyms m.syms)
    (ws : List Word) (h : ∀ w ∈ ws, Returns m.syms m.base w) :
    ∃ out, disassemble rt m ws = some out ∧ (assemble rt' m' (['\n'].intercalate out)).words = some ws := by
  obtain ⟨out, h1, h2, h3⟩ := C02_text_partial rt m hm hp ws
  have h3 : ∀ (k : Nat) w, ws[k]? = some w → out[k]? = some (lineText (fun a => m.syms.lookup a) m.base w) := by
    intro k w hk
    obtain ⟨mn, args, hd, he, hr⟩ := h w (List.mem_of_getElem? hk)
    refine h3 k w hk ?_ ?_
    · rintro ⟨mn', args', hd', a, ha, hta⟩
      rw [hd] at hd'; cases hd'
      have := hr a ha
      cases a <;> simp_all [topArg, Readable]
    · rintro ⟨_, _, hd', _⟩
      rw [hd] at hd'; cases hd'
  have hll : ∀ s ∈ out, LineLike s := by
    intro s hs
    obtain ⟨k, hk⟩ := List.getElem?_of_mem hs
    have hlt := (List.getElem?_eq_some_iff.1 hk).1
    have hw : ws[k]? = some (ws[k]'(by omega)) := List.getElem?_eq_getElem _
    rw [h3 k _ hw] at hk
    cases hk
    exact (back_emits (h _ (List.mem_of_getElem? hw))).1
  refine ⟨out, h1, emits_prog (lines_join hll) h2 ?_⟩
  intro k s w hk hw
  rw [h3 k w hw] at hk
  cases hk
  have := back_emits (h w (List.mem_of_getElem? hw))
  exact ⟨this.1.kind, fun x hx => this.2 x (hx.trans hs)⟩

/-- Disassemble and assemble again. -/
def thereAndBack (m : Mipsasm) (ws : List Word) : Option (List Word) :=
  (disassemble (idRt true) m ws).bind fun out => (@assemble asciiUnicode (idRt true) m (['\n'].intercalate out)).words

/-- C03 is false of the code for canonical words outside `Returns`: branches (the printed offset is read as an address, here
with a different word as the result), the signed operand 32767 (printed as -32767), jumps beyond the first 64 MB of the region;
`break` codes of more than 16 bits and unnamed coprocessor 0 registers do not assemble at all. -/
theorem C03_wrong :
    (Canonical 0x10000003#32 ∧ thereAndBack (Mipsasm.new.setDebug) [0x10000003#32] = some [0x10000000#32]) ∧
    (Canonical 0x20020000#32 ∧ Canonical 0x24427fff#32 ∧ thereAndBack (Mipsasm.new.setDebug) [0x24427fff#32] = some [0x24428001#32]) ∧
    (Canonical 0x09000000#32 ∧ thereAndBack (Mipsasm.new.setDebug) [0x09000000#32] = some [0x08000000#32]) ∧
    (Canonical 0x03ffffcd#32 ∧ thereAndBack (Mipsasm.new.setDebug) [0x03ffffcd#32] = none) ∧
    (Canonical 0x40023800#32 ∧ thereAndBack (Mipsasm.new.setDebug) [0x40023800#32] = none) := by
  have can : ∀ w : BitVec 32, ((decoding w).bind fun p => encoding p.1 p.2) = some w → Canonical w := by
    intro w h
    rw [Option.bind_eq_some_iff] at h
    obtain ⟨⟨mn, args⟩, h1, h2⟩ := h
    exact ⟨mn, args, h1, h2⟩
  refine ⟨⟨can _ ?_, ?_⟩, ⟨can _ ?_, can _ ?_, ?_⟩, ⟨can _ ?_, ?_⟩, ⟨can _ ?_, ?_⟩, ⟨can _ ?_, ?_⟩⟩ <;> decide +kernel

/-- Non-vacuity of `C03_round_trip_partial`: `addiu $sp, $sp, -0x18`, `c.eq.s`, `mtc0`, `break 5`, a jump to a symbol and one to
an address. -/
example : ∀ w ∈ [0x27bdffe8#32, 0x46041032#32, 0x40826000#32, 0x0000014d#32, 0x0c000010#32, 0x08000020#32],
    Returns [(0x40#32, c!"main")] 0#32 w := by
  simp only [List.forall_mem_cons]
  refine ⟨⟨c!"addiu", [.gpr 29, .gpr 29, .simm 0xffe8], ?_, ?_, ?_⟩, ⟨c!"c.eq.s", [.fpr 2, .fpr 4], ?_, ?_, ?_⟩, ⟨c!"mtc0", [.gpr 2, .c0 12], ?_, ?_, ?_⟩,
    ⟨c!"break", [.code 5], ?_, ?_, ?_⟩, ⟨c!"jal", [.target 16], ?_, ?_, ?_⟩, ⟨c!"j", [.target 32], ?_, ?_, ?_⟩, by simp⟩
  all_goals first
    | (decide +kernel; done)
    | skip
  · simp [Readable]
  · simp [Readable]
  · simp only [List.forall_mem_cons]; exact ⟨trivial, (by decide : (c0Names.lookup 12).isSome = true), by simp⟩
  · simp [Readable]
  · intro a ha
    simp only [List.mem_singleton] at ha
    subst ha
    have hl : ([(0x40#32, c!"main")] : List (Word × Str)).lookup (jumpAddr 0#32 16) = some c!"main" := by decide
    simp only [Readable, hl]
    refine ⟨by decide, ⟨by decide, by decide⟩, ?_⟩
    intro e he _
    simp only [List.mem_singleton] at he
    subst he
    decide
  · intro a ha
    simp only [List.mem_singleton] at ha
    subst ha
    have hl : ([(0x40#32, c!"main")] : List (Word × Str)).lookup (jumpAddr 0#32 32) = none := by decide
    simp only [Readable, hl]
    refine ⟨by decide, ?_⟩
    intro e he
    simp only [List.mem_singleton] at he
    subst he
    decide
end Mips
