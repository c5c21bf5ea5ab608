/-
**C66** — the printed listing, with its labels, assembles back to the words.
-/
import Verif.Props.RoundTrip
import Verif.Props.ListingP
import Verif.Props.FreshP
import Verif.Props.IoRun

namespace Mips
open Isa Syntax Source Listing

/-! ### Columns -/

theorem table_gap : ∀ r ∈ table, '\t' ∉ gap r.mn → ∃ n, n < 12 ∧ gap r.mn = List.replicate (n + 1) ' ' := by
  have h : ∀ r ∈ table, '\t' ∉ gap r.mn → (List.range 12).any fun n => decide (gap r.mn = List.replicate (n + 1) ' ') := by decide +kernel
  intro r hr ht
  have := h r hr ht
  rw [List.any_eq_true] at this
  obtain ⟨n, h1, h2⟩ := this
  exact ⟨n, List.mem_range.1 h1, by simpa using h2⟩

theorem gap_of {w : Word} {mn : Str} {args : List Arg} (hd : decoding w = some (mn, args)) (ht : ¬ Tabbed w) :
    ∃ p, gap mn = ' ' :: p ∧ Blank p ∧ ∀ c ∈ gap mn, c = ' ' ∨ c = ',' := by
  obtain ⟨r, h1, rfl, _⟩ := decoding_row hd
  obtain ⟨n, _, h2⟩ := table_gap r h1 fun h => ht ⟨_, _, hd, h⟩
  refine ⟨List.replicate n ' ', h2, ?_, ?_⟩
  · intro c hc
    rw [List.eq_of_mem_replicate hc]
    decide
  · intro c hc
    rw [h2] at hc
    exact .inl (List.eq_of_mem_replicate hc)

theorem col_arg {syms : List (Word × Str)} {base : Word} {a : Arg} (h : Readable syms base a) :
    argCol (fun a => syms.lookup a) base a = argText (fun a => syms.lookup a) base a := by
  cases a <;> simp_all [Readable, argCol, argText, offText]

theorem col_inst {syms : List (Word × Str)} {base w : Word} {mn : Str} {args : List Arg} (hr : ∀ a ∈ args, Readable syms base a) :
    colInst (fun a => syms.lookup a) base mn args =
      if shown mn args = [] then mn else mn ++ gap mn ++ c!", ".intercalate ((shown mn args).map (argText (fun a => syms.lookup a) base)) := by
  unfold colInst
  split
  · rfl
  · rw [List.map_congr_left fun a ha => col_arg (hr a (shown_sub a ha))]

theorem col_lineLike {syms : List (Word × Str)} {base w : Word} {mn : Str} {args : List Arg} (hd : decoding w = some (mn, args))
    (hr : ∀ a ∈ args, Readable syms base a) (ht : ¬ Tabbed w) : LineLike (colInst (fun a => syms.lookup a) base mn args) := by
  rw [col_inst (w := w) hr]
  obtain ⟨p, _, _, hg⟩ := gap_of hd ht
  obtain ⟨r, h1, rfl, _⟩ := decoding_row hd
  obtain ⟨h2, _⟩ := table_mn r h1
  split
  · exact safe_lineLike h2
  · rename_i hs
    refine lineLike_append h2 hg (inter_lineLike _ (by simpa using hs) ?_)
    intro t ht
    obtain ⟨a, ha, rfl⟩ := List.mem_map.1 ht
    exact safe_arg (hr a (shown_sub a ha))

/-- The printed text of a readable word, other than a jump, is the instruction. -/
theorem col_text {syms : List (Word × Str)} {base w : Word} {mn : Str} {args : List Arg} (hd : decoding w = some (mn, args))
    (hr : ∀ a ∈ args, Readable syms base a) (htab : ¬ Tabbed w) (ht : ∀ t, .target t ∉ args) :
    InstrText (colInst (fun a => syms.lookup a) base mn args) mn args := by
  rw [col_inst (w := w) hr]
  obtain ⟨p, hp, hbl, _⟩ := gap_of hd htab
  rw [hp]
  obtain ⟨r, h1, rfl, ha⟩ := decoding_row hd
  obtain ⟨h2, hmn, hcode, _⟩ := table_mn r h1
  have hback : ∀ a ∈ args, argBack a = true := by
    intro a hm
    have := hr a hm
    cases a <;> simp_all [Readable, argBack]
  by_cases hc0 : args = [.code 0]
  · subst hc0
    have hs : shown r.mn [Arg.code 0] = [] := by simp [shown]
    rw [if_pos hs]
    exact .code0 r.mn r.mn hmn (hcode (argsOf_code ha.symm))
  by_cases hj : ∃ rs, args = [.gpr 31, .gpr rs] ∧ r.mn = c!"jalr"
  · obtain ⟨rs, rfl, hj⟩ := hj
    have hs : shown r.mn [.gpr 31, .gpr rs] = [.gpr rs] := by simp [shown, hj]
    rw [hs, if_neg (by simp), hj]
    have := InstrText.jalr c!"jalr" (p ++ gprText rs) rs (by unfold SameName; decide) (by simpa using reg_gpr hbl rs)
    simpa [List.intercalate, argText] using this
  by_cases hne : args = []
  · subst hne
    have hs : shown r.mn [] = [] := by simp [shown]
    rw [if_pos hs]
    exact .bare r.mn r.mn hmn
  · have he : shown r.mn args = args := by
      unfold shown
      rw [if_neg hc0]
      split
      · rename_i rs
        rw [if_neg]
        intro h; exact hj ⟨rs, rfl, h⟩
      · rfl
    rw [he, if_neg hne]
    have := InstrText.args r.mn r.mn _ args hmn (fun _ => rfl) (args_spell (sym := fun a => syms.lookup a) (base := base) args hne hback (p := p) hbl)
    simpa using this

/-- The printed text of a readable jump. -/
theorem cols_jump [Unicode] {syms : List (Word × Str)} {base w : Word} {mn : Str} {args : List Arg} {t : BitVec 26} (hd : decoding w = some (mn, args))
    (he : encoding mn args = some w) (hr : ∀ a ∈ args, Readable syms base a) (htab : ¬ Tabbed w) (ht : .target t ∈ args) (x : Ctx) (hx : x.syms = syms)
    (ovf : Bool) : Emits x (colInst (fun a => syms.lookup a) base mn args) ovf [w] := by
  have hold := jump_emits hd he hr ht x hx ovf
  rw [col_inst (w := w) hr]
  obtain ⟨p, hp, hbl, _⟩ := gap_of hd htab
  rw [hp]
  obtain ⟨r, h1, rfl, ha⟩ := decoding_row hd
  subst ha
  obtain ⟨hsyn, hargs⟩ := argsOf_target ht
  rw [hargs] at hold hr ⊢
  obtain ⟨_, hmn, _, hj⟩ := table_mn r h1
  have hm := hj hsyn
  have hread := hr (.target t) (by simp)
  have htext : instText (fun a => syms.lookup a) base r.mn [.target t] = r.mn ++ ' ' :: argText (fun a => syms.lookup a) base (.target t) := by
    simp [instText, shown, List.intercalate]
  have hcol : (if shown r.mn [.target t] = [] then r.mn else
      r.mn ++ ' ' :: p ++ c!", ".intercalate ((shown r.mn [.target t]).map (argText (fun a => syms.lookup a) base))) =
      r.mn ++ ' ' :: (p ++ argText (fun a => syms.lookup a) base (.target t)) := by
    simp [shown, List.intercalate]
  rw [hcol]
  have hcomma : ',' ∉ argText (fun a => syms.lookup a) base (.target t) := by
    show ',' ∉ (match syms.lookup (jumpAddr base t) with | some name => name | none => hexTextU (jumpAddr base t).toNat)
    cases hl : syms.lookup (jumpAddr base t) with
    | none =>
      dsimp only
      intro hc
      cases unum_hexTextU (jumpAddr base t).toNat with
      | dec s n h =>
        have := (digits_chars_dec h).2 _ hc
        revert this; decide
      | hex s n h =>
        rcases List.mem_append.1 hc with hc | hc
        · revert hc; decide
        · have := (digits_chars_hex h).2 _ hc
          revert this; decide
    | some name =>
      simp only [Readable, hl] at hread
      exact fun hc => (hread.2.1.2 _ hc).2.2.2.2 rfl
  have hcomma' : ',' ∉ p ++ argText (fun a => syms.lookup a) base (.target t) := by
    intro hc
    rcases List.mem_append.1 hc with hc | hc
    · have := (hbl _ hc).1
      revert this; decide
    · exact hcomma hc
  have htrim : trim (p ++ argText (fun a => syms.lookup a) base (.target t)) = trim (argText (fun a => syms.lookup a) base (.target t)) := by
    unfold trim
    rw [trimStart_append_blank _ _ fun c h => (hbl c h).1]
  obtain ⟨a, e1, e2, e3⟩ := hold
  rw [htext, jump_parse x hm hmn hcomma] at e1
  exact ⟨a, by rw [jump_parse x hm hmn hcomma', htrim]; exact e1, e2, e3⟩

/-- What is emitted for the printed line of a readable word. -/
theorem col_emits [Unicode] {syms : List (Word × Str)} {base w : Word} (h : Returns syms base w) (htab : ¬ Tabbed w) :
    LineLike (colText (fun a => syms.lookup a) base w) ∧
    ∀ x : Ctx, x.syms = syms → NoNumLabel x.labels → ∀ ovf, Emits x (body (colText (fun a => syms.lookup a) base w)) ovf [w] := by
  obtain ⟨mn, args, hd, he, hr⟩ := h
  have ht : colText (fun a => syms.lookup a) base w = colInst (fun a => syms.lookup a) base mn args := by
    unfold colText
    rw [hd]
    dsimp only
    cases hc : c0Arg args with
    | none => rfl
    | some r =>
      dsimp only
      rw [if_pos]
      have : .c0 r ∈ args := by
        unfold c0Arg at hc
        split at hc
        · cases hc; simp
        · cases hc
      exact hr _ this
  have hl := col_lineLike hd hr htab
  rw [ht]
  refine ⟨hl, fun x hx hn ovf => ?_⟩
  rw [hl.body]
  by_cases hj : ∃ t, .target t ∈ args
  · obtain ⟨t, hj⟩ := hj
    exact cols_jump hd he hr htab hj x hx ovf
  · exact native_emits x hn (col_text hd hr htab (fun t h => hj ⟨t, h⟩)) he ovf

/-! ### Labels -/

theorem digitChar_inj : ∀ a b : BitVec 4, Nat.digitChar a.toNat = Nat.digitChar b.toNat → a = b := by decide

theorem funcName_inj {a b : Word} (h : funcName a = funcName b) : a = b := by
  unfold funcName at h
  have h := List.append_cancel_left h
  simp only [hex8] at h
  have h : (List.range 8).map (fun k => Nat.digitChar (a.extractLsb' (4 * (7 - k)) 4).toNat) =
      (List.range 8).map (fun k => Nat.digitChar (b.extractLsb' (4 * (7 - k)) 4).toNat) := h
  rw [List.map_inj_left] at h
  apply BitVec.eq_of_getLsbD_eq
  intro i hi
  have h1 := digitChar_inj _ _ (h (7 - i / 4) (List.mem_range.2 (by omega)))
  have h2 := congrArg (fun v : BitVec 4 => v.getLsbD (i % 4)) h1
  simp only [BitVec.getLsbD_extractLsb'] at h2
  have e : 4 * (7 - (7 - i / 4)) + i % 4 = i := by omega
  rw [e] at h2
  simpa [show i % 4 < 4 by omega] using h2

/-- the name of a label -/
def nameAt (syms : List (Word × Str)) (a : Word) : Str := (syms.lookup a).getD (funcName a)

theorem nameAt_inj {syms : List (Word × Str)} (hs : LabelSyms syms) {a b : Word} (h : nameAt syms a = nameAt syms b) : a = b := by
  unfold nameAt at h
  cases ha : syms.lookup a with
  | none =>
    cases hb : syms.lookup b with
    | none => rw [ha, hb] at h; exact funcName_inj h
    | some n => rw [ha, hb] at h; exact (hs.func _ (lookup_snd hb) a h.symm).symm
  | some n =>
    cases hb : syms.lookup b with
    | none => rw [ha, hb] at h; exact hs.func _ (lookup_snd ha) b h
    | some n' => rw [ha, hb] at h; exact hs.unique _ (lookup_snd ha) _ (lookup_snd hb) h

theorem funcName_chars (a : Word) : ∀ c ∈ funcName a, isWs c = false ∧ c ≠ ';' ∧ c ≠ '/' ∧ c ≠ ':' ∧ c ≠ ',' := by
  have hd : ∀ v : BitVec 4, let c := Nat.digitChar v.toNat; isWs c = false ∧ c ≠ ';' ∧ c ≠ '/' ∧ c ≠ ':' ∧ c ≠ ',' := by decide
  intro c hc
  unfold funcName at hc
  rcases List.mem_append.1 hc with hc | hc
  · have : ∀ c ∈ c!"func_", isWs c = false ∧ c ≠ ';' ∧ c ≠ '/' ∧ c ≠ ':' ∧ c ≠ ',' := by decide
    exact this c hc
  · have hc : c ∈ (List.range 8).map fun k => Nat.digitChar (a.extractLsb' (4 * (7 - k)) 4).toNat := hc
    obtain ⟨k, _, rfl⟩ := List.mem_map.1 hc
    exact hd _

theorem nameAt_plain {syms : List (Word × Str)} (hs : LabelSyms syms) (a : Word) :
    Listing.Plain (nameAt syms a) ∧ ∃ c t, nameAt syms a = c :: t ∧ isAscii c = true ∧ isDigit c = false ∧ c ≠ '+' ∧ c ≠ '-' := by
  unfold nameAt
  cases ha : syms.lookup a with
  | none =>
    refine ⟨⟨by simp [funcName], funcName_chars a⟩, 'f', _, rfl, by decide, by decide, by decide, by decide⟩
  | some n => exact ⟨hs.plain _ (lookup_snd ha), hs.head _ (lookup_snd ha)⟩

/-- a label line -/
theorem listed_label {n : Str} (h : Listing.Plain n) : kind (n ++ c!":") = .label n ∧ (∀ c ∈ n ++ c!":", c ≠ '\n' ∧ c ≠ '\r') := by
  have htight : Tight (n ++ c!":") := by
    refine ⟨by simp, ?_, ?_⟩
    · intro c hc
      cases n with
      | nil => exact absurd rfl h.1
      | cons d t =>
        simp at hc
        subst hc
        exact (h.2 d (by simp)).1
    · intro c hc
      simp at hc
      subst hc
      decide
  have hb : body (n ++ c!":") = n ++ c!":" := by
    unfold body
    rw [trim_tight _ htight]
    refine uncomment_id _ fun c hc => ?_
    rcases List.mem_append.1 hc with hc | hc
    · exact ⟨(h.2 c hc).2.1, (h.2 c hc).2.2.1⟩
    · simp at hc; subst hc; decide
  refine ⟨?_, ?_⟩
  · unfold kind
    rw [hb]
    have : endsWith ':' (n ++ c!":") = true := by simp [endsWith]
    rw [if_pos this]
    simp
  · intro c hc
    rcases List.mem_append.1 hc with hc | hc
    · have := (h.2 c hc).1
      constructor <;> (rintro rfl; revert this; decide)
    · simp at hc; subst hc; decide

/-! ### The lines of the listing -/

section
variable {syms : List (Word × Str)} {base : Word}

/-- what is required of the line of a word -/
def ColR (syms : List (Word × Str)) (base : Word) (raw : Str) (v : List Word) : Prop :=
  ∃ w, Returns syms base w ∧ ¬ Tabbed w ∧ raw = colText (fun a => syms.lookup a) base w ∧ v = [w]

theorem labelText_eq (a : Word) : labelText (fun a => syms.lookup a) a = nameAt syms a ++ c!":" := rfl

theorem render_prog [Unicode] (hs : LabelSyms syms) (brk : Nat → Bool) :
    ∀ (ws : List Word) (i : Nat), (∀ w ∈ ws, Returns syms base w ∧ ¬ Tabbed w) →
    ProgOf (ColR syms base) (render (fun k => labelText (fun a => syms.lookup a) (addrOf base k)) brk i (ws.map (colText (fun a => syms.lookup a) base))) ws := by
  intro ws
  induction ws with
  | nil => intro i _; exact .nil
  | cons w ws ih =>
    intro i h
    obtain ⟨h1, h2⟩ := h w (by simp)
    have rest := ih (i + 1) fun v hv => h v (by simp [hv])
    have hk := (col_emits h1 h2).1.kind
    simp only [List.map_cons, render]
    refine ProgOf.code _ _ [w] ws hk ⟨w, h1, h2, rfl, rfl⟩ ?_
    split
    · refine .skip _ _ _ (by decide) (.skip _ _ _ ?_ rest)
      rw [labelText_eq, (listed_label (nameAt_plain hs _).1).1]
      simp
    · exact rest

/-- the lines of a listing -/
inductive ColLine (syms : List (Word × Str)) (base : Word) (raw : Str) : Prop
  | blank : raw = [] → ColLine syms base raw
  | label (a : Word) : raw = nameAt syms a ++ c!":" → ColLine syms base raw
  | word (w : Word) : Returns syms base w → ¬ Tabbed w → raw = colText (fun a => syms.lookup a) base w → ColLine syms base raw

theorem render_lines (brk : Nat → Bool) : ∀ (ws : List Word) (i : Nat), (∀ w ∈ ws, Returns syms base w ∧ ¬ Tabbed w) →
    ∀ raw ∈ render (fun k => labelText (fun a => syms.lookup a) (addrOf base k)) brk i (ws.map (colText (fun a => syms.lookup a) base)), ColLine syms base raw := by
  intro ws
  induction ws with
  | nil => intro i _ raw h; cases h
  | cons w ws ih =>
    intro i h raw hr
    obtain ⟨h1, h2⟩ := h w (by simp)
    simp only [List.map_cons, render, List.mem_cons, List.mem_append] at hr
    rcases hr with rfl | hr | hr
    · exact .word w h1 h2 rfl
    · split at hr
      · simp only [List.mem_cons, List.not_mem_nil, or_false] at hr
        rcases hr with rfl | rfl
        · exact .blank rfl
        · exact .label _ rfl
      · cases hr
    · exact ih (i + 1) (fun v hv => h v (by simp [hv])) raw hr

theorem render_globals [Unicode] (hs : LabelSyms syms) (brk : Nat → Bool) : ∀ (ws : List Word) (i n : Nat), (∀ w ∈ ws, Returns syms base w ∧ ¬ Tabbed w) →
    i + ws.length < 2 ^ 30 →
    let g := globalsFrom n (render (fun k => labelText (fun a => syms.lookup a) (addrOf base k)) brk i (ws.map (colText (fun a => syms.lookup a) base)))
    (∀ e ∈ g, ∃ j, i < j ∧ j < 2 ^ 30 ∧ e.1 = nameAt syms (addrOf base j)) ∧ (g.map (·.1)).Nodup := by
  intro ws
  induction ws with
  | nil => intro i n _ _; exact ⟨by simp [render, globalsFrom], by simp [render, globalsFrom]⟩
  | cons w ws ih =>
    intro i n h hlen
    simp only [List.length_cons] at hlen
    obtain ⟨h1, h2⟩ := h w (by simp)
    have hk := (col_emits h1 h2).1.kind
    obtain ⟨r1, r2⟩ := ih (i + 1) (n + 1) (fun v hv => h v (by simp [hv])) (by omega)
    have r1' : ∀ e ∈ globalsFrom (n + 1) (render (fun k => labelText (fun a => syms.lookup a) (addrOf base k)) brk (i + 1) (ws.map (colText (fun a => syms.lookup a) base))),
        ∃ j, i < j ∧ j < 2 ^ 30 ∧ e.1 = nameAt syms (addrOf base j) := fun e he => by
      obtain ⟨j, a, b, c⟩ := r1 e he
      exact ⟨j, by omega, b, c⟩
    dsimp only
    simp only [List.map_cons, render, globalsFrom, hk]
    split
    · have hb : kind ([] : Str) = .blank := by decide
      simp only [List.cons_append, List.nil_append, globalsFrom, hb, labelText_eq, (listed_label (nameAt_plain hs _).1).1]
      split
      · exact ⟨r1', r2⟩
      · refine ⟨?_, ?_⟩
        · intro e he
          rcases List.mem_cons.1 he with rfl | he
          · exact ⟨i + 1, by omega, by omega, rfl⟩
          · exact r1' e he
        · rw [List.map_cons, List.nodup_cons]
          refine ⟨?_, r2⟩
          intro hm
          obtain ⟨e, he, hx⟩ := List.mem_map.1 hm
          obtain ⟨j, a, b, c⟩ := r1 e he
          have := nameAt_inj hs (hx.symm.trans c)
          have := congrArg BitVec.toNat this
          unfold addrOf at this
          simp only [BitVec.toNat_add, BitVec.toNat_ofNat] at this
          omega
    · exact ⟨r1', r2⟩

end

theorem globals_global {ls : List Str} {e : Str × Nat} (h : e ∈ globals ls) : isLocal e.1 = false := by
  have key : ∀ (ls : List Str) n, e ∈ globalsFrom n ls → isLocal e.1 = false := by
    intro ls
    induction ls with
    | nil => intro n h; cases h
    | cons r ls ih =>
      intro n h
      unfold globalsFrom at h
      split at h
      · exact ih _ h
      · exact ih _ h
      · split at h
        · exact ih _ h
        · rename_i hl
          rcases List.mem_cons.1 h with rfl | h
          · simpa using hl
          · exact ih _ h
  exact key ls 0 h

theorem labelOk_of_nodup [Unicode] {ls : List Str} (hnd : ((globals ls).map (·.1)).Nodup) {k : Nat} {raw l : Str} (h1 : ls[k]? = some raw) (h2 : kind raw = .label l)
    (hh : ∃ c t, l = c :: t ∧ Unicode.isNumeric c = false) : LabelOk l (globals (ls.take k)) := by
  refine ⟨hh, fun e he hc => ?_⟩
  cases hl : isLocal l with
  | true =>
    have := globals_global he
    rw [hc, hl] at this; cases this
  | false =>
  obtain ⟨r, hr⟩ := globals_split ls (k + 1)
  rw [globals_at h1 h2 hl] at hr
  rw [hr, List.append_assoc, List.map_append, List.nodup_append] at hnd
  exact hnd.2.2 e.1 (List.mem_map_of_mem he) l (by simp) hc

theorem listing_globals {ls : List Str} {n : Nat} {e : Str × Nat} (h : e ∈ globalsFrom n ls) : ∃ raw ∈ ls, kind raw = .label e.1 := by
  induction ls generalizing n with
  | nil => cases h
  | cons r ls ih =>
    unfold globalsFrom at h
    split at h
    · obtain ⟨raw, a, b⟩ := ih h; exact ⟨raw, by simp [a], b⟩
    · obtain ⟨raw, a, b⟩ := ih h; exact ⟨raw, by simp [a], b⟩
    · rename_i l hl
      split at h
      · obtain ⟨raw, a, b⟩ := ih h; exact ⟨raw, by simp [a], b⟩
      · rcases List.mem_cons.1 h with rfl | h
        · exact ⟨r, by simp, hl⟩
        · obtain ⟨raw, a, b⟩ := ih h; exact ⟨raw, by simp [a], b⟩

theorem num_head {s : Str} {v : Int} (h : Num s v) : ∃ c t, s = c :: t ∧ (isDigit c = true ∨ c = '+' ∨ c = '-') := by
  have hu : ∀ {s n}, UNum s n → ∃ c t, s = c :: t ∧ isDigit c = true := by
    intro s n h
    cases h with
    | dec s n h =>
      have hc := digits_chars_dec h
      cases s with
      | nil => exact absurd rfl hc.1
      | cons c t => exact ⟨c, t, rfl, by
        have := hc.2 c (by simp)
        simpa [isDigit, UInt32.le_iff_toNat_le] using this⟩
    | hex s n h => exact ⟨'0', _, rfl, by decide⟩
  cases h with
  | pos _ n h => obtain ⟨c, t, e, hd⟩ := hu h; exact ⟨c, t, e, .inl hd⟩
  | plus s n h => exact ⟨_, _, rfl, .inr (.inl rfl)⟩
  | neg s n h _ => exact ⟨_, _, rfl, .inr (.inr rfl)⟩

/-- The lines of the listing. -/
theorem listing_back [Unicode] (rt : Rt) (m : Mipsasm) (base : Word) (hl : LabelSyms m.syms) (ws : List Word) (hlen : ws.length < 2 ^ 30)
    (h : ∀ w ∈ ws, Returns m.syms base w ∧ ¬ Tabbed w) (text : Str) (ht : lines text = listing (fun a => m.syms.lookup a) base ws) :
    (assemble rt m text).words = some ws := by
  have hkind := fun a => (listed_label (nameAt_plain hl a).1).1
  have hcl : ∀ raw ∈ lines text, ColLine m.syms base raw := by
    intro raw hr
    rw [ht] at hr
    unfold listing at hr
    rcases List.mem_cons.1 hr with rfl | hr
    · exact .label base rfl
    · exact render_lines _ ws 0 h raw hr
  have hprog : ProgOf (ColR m.syms base) (lines text) ws := by
    rw [ht]
    unfold listing
    refine .skip _ _ _ ?_ (render_prog hl _ ws 0 h)
    rw [labelText_eq, hkind]
    simp
  have hnd : ((globals (lines text)).map (·.1)).Nodup := by
    obtain ⟨r1, r2⟩ := render_globals (base := base) hl (fun i => (trail base ws i).2) ws 0 0 h (by omega)
    rw [ht]
    unfold listing globals
    simp only [globalsFrom, labelText_eq, hkind]
    simp only [labelText_eq] at r1 r2
    split
    · exact r2
    · rw [List.map_cons, List.nodup_cons]
      refine ⟨fun hm => ?_, r2⟩
      obtain ⟨e, he, hx⟩ := List.mem_map.1 hm
      obtain ⟨j, a, b, c⟩ := r1 e he
      have := congrArg BitVec.toNat (nameAt_inj hl (hx.symm.trans c))
      unfold addrOf at this
      simp only [BitVec.toNat_add, BitVec.toNat_ofNat] at this
      have := base.isLt
      omega
  have hname : ∀ raw ∈ lines text, ∀ l, kind raw = .label l → ∃ a, l = nameAt m.syms a := by
    intro raw hr l hk
    rcases hcl raw hr with rfl | ⟨a, rfl⟩ | ⟨w, h1, h2, rfl⟩
    · rw [show kind [] = .blank by decide] at hk; cases hk
    · rw [hkind] at hk; cases hk; exact ⟨a, rfl⟩
    · rw [(col_emits h1 h2).1.kind] at hk; cases hk
  have hnum : NoNumeralLabel (lines text) := by
    intro e he v hv
    obtain ⟨raw, h1, h2⟩ := listing_globals he
    obtain ⟨a, ha⟩ := hname raw h1 _ h2
    obtain ⟨c, t, e1, hd⟩ := num_head hv
    obtain ⟨c', t', e2, _, k1, k2, k3⟩ := (nameAt_plain hl a).2
    rw [← ha, e1] at e2
    cases e2
    rcases hd with hd | hd | hd
    · rw [k1] at hd; cases hd
    · exact k2 hd
    · exact k3 hd
  obtain ⟨is, warns, ha⟩ := prog_ok (rt := rt) (m := m) (text := text) (by
      intro k raw l h1 h2
      refine labelOk_of_nodup hnd h1 h2 ?_
      obtain ⟨a, rfl⟩ := hname raw (List.mem_of_getElem? h1) l h2
      obtain ⟨c, t, e, k1, k2, _⟩ := (nameAt_plain hl a).2
      exact ⟨c, t, e, by rw [Unicode.isNumeric_ascii c k1]; exact k2⟩) (by
      intro k raw h1 h2 x hx
      rcases hcl raw (List.mem_of_getElem? h1) with rfl | ⟨a, rfl⟩ | ⟨w, k1, k2, rfl⟩
      · exact absurd h2 (by decide)
      · rw [hkind] at h2; cases h2
      · exact ⟨[w], (col_emits k1 k2).2 x hx.syms (hx.noNum hnum) _⟩)
  rw [ha]
  refine congrArg some (words_of_prog hprog (is_length ha) ?_)
  rintro k raw v h1 h2 ⟨w, k1, k2, rfl, rfl⟩
  exact line_words ha h1 h2 fun x hx => (col_emits k1 k2).2 x hx.syms (hx.noNum hnum) _

/-! ### Texts -/

theorem lines_line {s : Str} (h1 : '\n' ∉ s) (h2 : '\r' ∉ s) : lines (s ++ ['\n']) = [s] := by
  cases s with
  | nil => decide
  | cons c s => exact lines_nl (by simp) h1 h2

theorem lines_printed : ∀ {l : List Str}, (∀ s ∈ l, '\n' ∉ s ∧ '\r' ∉ s) → lines (l.flatMap (· ++ ['\n'])) = l
  | [], _ => rfl
  | s :: l, h => by
    have e : (s :: l).flatMap (· ++ ['\n']) = s ++ '\n' :: l.flatMap (· ++ ['\n']) := by simp
    rw [e, lines_append, lines_line (h s (by simp)).1 (h s (by simp)).2, lines_printed fun t ht => h t (by simp [ht])]
    rfl

theorem lines_joined : ∀ {l : List Str}, (∀ s ∈ l, '\n' ∉ s ∧ '\r' ∉ s) → l.getLast? ≠ some [] → lines (['\n'].intercalate l) = l
  | [], _, _ => rfl
  | [s], h, hl => by
    have : s ≠ [] := by rintro rfl; exact hl rfl
    have e : ['\n'].intercalate [s] = s := by simp [List.intercalate]
    rw [e, lines_single this (h s (by simp)).1]
  | s :: t :: l, h, hl => by
    have e : ['\n'].intercalate (s :: t :: l) = s ++ '\n' :: ['\n'].intercalate (t :: l) := by
      simp [List.intercalate, List.intersperse]
    rw [e, lines_append, lines_line (h s (by simp)).1 (h s (by simp)).2,
      lines_joined (fun x hx => h x (by simp at hx ⊢; exact .inr hx)) (by simpa using hl)]
    rfl

theorem render_last (label : Nat → Str) (brk : Nat → Bool) : ∀ (ts : List Str) (i : Nat), (render label brk i ts).getLast? = ts.getLast?
  | [], _ => rfl
  | [t], i => by simp [render]
  | t :: u :: ts, i => by
    have ih := render_last label brk (u :: ts) (i + 1)
    have hne : render label brk (i + 1) (u :: ts) ≠ [] := by simp [render]
    rw [render, List.getLast?_cons_cons (a := t) (b := u), ← ih]
    cases hr : render label brk (i + 1) (u :: ts) with
    | nil => exact absurd hr hne
    | cons a l =>
      split <;> simp

theorem listing_lines [Unicode] {syms : List (Word × Str)} {base : Word} (hl : LabelSyms syms) (ws : List Word)
    (h : ∀ w ∈ ws, Returns syms base w ∧ ¬ Tabbed w) {text : Str} (ht : AsText (listing (fun a => syms.lookup a) base ws) text) :
    lines text = listing (fun a => syms.lookup a) base ws := by
  have hn : ∀ s ∈ listing (fun a => syms.lookup a) base ws, '\n' ∉ s ∧ '\r' ∉ s := by
    intro s hs
    have hc : ColLine syms base s := by
      unfold listing at hs
      rcases List.mem_cons.1 hs with rfl | hr
      · exact .label base rfl
      · exact render_lines _ ws 0 h s hr
    rcases hc with rfl | ⟨a, rfl⟩ | ⟨w, h1, h2, rfl⟩
    · simp
    · have := (listed_label (nameAt_plain hl a).1).2
      exact ⟨fun hc => (this _ hc).1 rfl, fun hc => (this _ hc).2 rfl⟩
    · have := (col_emits h1 h2).1.2
      exact ⟨fun hc => (this _ hc).2.2.2.1 rfl, fun hc => (this _ hc).2.2.2.2 rfl⟩
  rcases ht with rfl | rfl
  · refine lines_joined hn ?_
    intro hc
    have hmem : ([] : Str) ∉ ws.map (colText (fun a => syms.lookup a) base) := by
      intro hm
      obtain ⟨w, hw, he⟩ := List.mem_map.1 hm
      obtain ⟨h1, h2⟩ := h w hw
      exact (col_emits h1 h2).1.1.1 he
    unfold listing at hc
    cases ws with
    | nil => simp [render, labelText] at hc
    | cons w ws =>
      have hne : render (fun k => labelText (fun a => syms.lookup a) (addrOf base k)) (fun i => (trail base (w :: ws) i).2) 0
          ((w :: ws).map (colText (fun a => syms.lookup a) base)) ≠ [] := by simp [render]
      rw [List.getLast?_cons_of_ne_nil hne, render_last] at hc
      exact hmem (List.mem_of_getLast? hc)
  · exact lines_printed hn

/-- **C66**.  The listing that is returned for any list of words that the assembler's notation can express (see `Returns`; no
floating-point comparisons, which are printed with a tab), function labels and all, assembles back to the same words. -/
theorem C66_listing_partial [Unicode] (rt rt' : Rt) (m m' : Mipsasm) (hm : m.debug = false) (hs : m'.syms = m.syms) (hl : LabelSyms m.syms)
    (ws : List Word) (hlen : ws.length < 2 ^ 30) (h : ∀ w ∈ ws, Returns m.syms m.base w ∧ ¬ Tabbed w) (out : List Str) (hd : disassemble rt m ws = some out)
    (text : Str) (ht : AsText out text) : (assemble rt' m' text).words = some ws := by
  have ho : out = listing (fun a => m.syms.lookup a) m.base ws := by
    by_cases hn : NoListing rt.ovf (fun a => m.syms.lookup a) m.base ws
    · rw [(C60_listing rt m hm ws).1.2 hn] at hd; cases hd
    · rw [(C60_listing rt m hm ws).2 hn] at hd; exact (Option.some.inj hd).symm
  subst ho
  have := listing_back rt' m' m.base (by rw [hs]; exact hl) ws hlen (by rw [hs]; exact h) text (by rw [hs]; exact listing_lines hl ws h ht)
  exact this

open Cli in
/-- **C66**, for the command-line tool.  The listing that `disasm` prints for such words, sent to a file and given to `asm` with the
same symbols and any base address, gives a file with the same bytes. -/
theorem C66_tool_partial [Unicode] (rt rt' : Rt) (L : Lib) (c c' : Cmd) (d d' : Disk) (syms : List (Word × Str)) (addr addr' : Word) (bytes : Bytes)
    (ws : List Word) (p : Str) (s : St) (hm : c.mode = .disasm) (ho : c.output = none) (hc : Configured L c d syms addr)
    (hb : d c.input = some bytes) (hw : Stored ws bytes) (hl : LabelSyms syms) (hlen : ws.length < 2 ^ 30)
    (h : ∀ w ∈ ws, Returns syms addr w ∧ ¬ Tabbed w) (hr : Reach true (start rt L c d) s) (hs : s.io = .exit 0)
    (hm' : c'.mode = .asm) (ho' : c'.output = some p) (hc' : Configured L c' d' syms addr') (hb' : d' c'.input = some s.out) :
    ∃ u, Reach true (start rt' L c' d') u ∧ u.io = .exit 0 ∧ u.disk = d'.set p bytes := by
  -- the end of the first run
  have hout : s.out = utf8 (onLines (listing (fun a => syms.lookup a) addr ws)) := by
    have hover : Over s := .inl ⟨0, hs⟩
    have hcl : clean (program rt L c) d [] [] = some s := reach_clean hr hover
    obtain ⟨x, hx⟩ := ends_exist (rt := rt) (.inr (by rw [hcl]; nofun))
    obtain ⟨u, hu, hux⟩ := ends_run hx
    rw [hcl] at hu; cases hu
    cases hx with
    | symbols p bs k1 k2 k3 => have := hux.1; rw [hs] at this; cases this
    | yaml t k1 k2 => have hux : s.io = .panic := hux; rw [hs] at hux; cases hux
    | base t y k1 k2 k3 => have := hux.1; rw [hs] at this; cases this
    | input _ _ bs k1 => rw [hm] at k1; cases k1
    | crash _ _ _ k1 => rw [hm] at k1; cases k1
    | code _ _ _ _ _ _ _ _ k1 => rw [hm] at k1; cases k1
    | errors _ _ _ _ _ _ _ k1 => rw [hm] at k1; cases k1
    | unquoted _ _ _ _ _ k1 => rw [hm] at k1; cases k1
    | words _ _ _ k1 => have hux : s.io = .panic := hux; rw [hs] at hux; cases hux
    | noListing _ _ _ _ k1 => have hux : s.io = .panic := hux; rw [hs] at hux; cases hux
    | listing syms' a' bytes' ws' _ k1 k2 k3 k4 k5 =>
      obtain ⟨rfl, rfl⟩ := configured_unique hc k1
      rw [hb] at k2; cases k2
      cases stored_words hw k4
      unfold success at hux
      rw [ho] at hux
      exact hux.2.2.1
  rw [hout] at hb'
  have hwords := listing_back rt' ((Mipsasm.new.setBase addr').setSymbols syms) addr hl ws hlen h (onLines (listing (fun a => syms.lookup a) addr ws))
    (listing_lines hl ws h (.inr rfl))
  have hend : ∃ err, Ends rt'.ovf L c' d' (.status 0 (d'.set p bytes) [] err) := by
    obtain ⟨g1, g2⟩ := (C57_program rt' ((Mipsasm.new.setBase addr').setSymbols syms) _ ws).1 hwords
    cases ha : assemble rt' ((Mipsasm.new.setBase addr').setSymbols syms) (onLines (listing (fun a => syms.lookup a) addr ws)) with
    | panic => rw [ha] at hwords; cases hwords
    | err es warns => rw [ha] at hwords; cases hwords
    | ok is warns =>
      obtain ⟨_, g3⟩ := (C59_warnings rt' ((Mipsasm.new.setBase addr').setSymbols syms) _ warns).1 (by rw [ha]; rfl)
      obtain ⟨ts, ht⟩ := messages_exist _ _ (assemble_warns_display rt' ((Mipsasm.new.setBase addr').setSymbols syms) _ warns (by rw [ha]; rfl))
      have := Ends.code (ovf := rt'.ovf) (L := L) (c := c') (d := d') syms addr' _ ws warns ts bytes _ hm' hc' hb' g1 g2 g3 ((messages_warn _ _).2 ht) hw
        ⟨_, hexWords_inter ws, rfl⟩
      unfold success at this
      rw [ho'] at this
      exact ⟨_, this⟩
  obtain ⟨err, hend⟩ := hend
  obtain ⟨u, h1, h2⟩ := (C62_run rt' L c' d' _).2 hend
  exact ⟨u, h1, h2.1, h2.2.1⟩

/-! ### Limits -/

/-- Disassemble in normal mode and assemble again. -/
def backAgain (m : Mipsasm) (ws : List Word) : Option (List Word) :=
  (disassemble (idRt true) m ws).bind fun out => (@assemble asciiUnicode (idRt true) m (['\n'].intercalate out)).words

/-- C66 is false of the code for canonical words outside `Returns` (branches, for example: C03_wrong); for floating-point
comparisons, because of the tab; for symbols whose names are no labels; and for a `j` to a symbol, which has no listing. -/
theorem C66_wrong :
    (Canonical 0x10000003#32 ∧ backAgain Mipsasm.new [0x10000003#32] = some [0x10000000#32]) ∧
    (Canonical 0x46041032#32 ∧ backAgain Mipsasm.new [0x46041032#32] = none ∧ backAgain (Mipsasm.new.setDebug) [0x46041032#32] = some [0x46041032#32]) ∧
    (backAgain { Mipsasm.new with syms := [(0#32, c!"my main")] } [0x24020001#32] = some [0x24020001#32] ∧
      backAgain { Mipsasm.new with syms := [(0#32, c!"0main")] } [0x24020001#32] = none ∧
      backAgain { Mipsasm.new with syms := [(0#32, c!"a;b")] } [0x24020001#32] = none) ∧
    (Canonical 0x08000010#32 ∧ backAgain { Mipsasm.new with syms := [(0x40#32, c!"main")] } [0x08000010#32] = none) := by
  have can : ∀ w : BitVec 32, ((decoding w).bind fun p => encoding p.1 p.2) = some w → Canonical w := by
    intro w h
    rw [Option.bind_eq_some_iff] at h
    obtain ⟨⟨mn, args⟩, h1, h2⟩ := h
    exact ⟨mn, args, h1, h2⟩
  refine ⟨⟨can _ ?_, ?_⟩, ⟨can _ ?_, ?_, ?_⟩, ⟨?_, ?_, ?_⟩, ⟨can _ ?_, ?_⟩⟩ <;> decide +kernel

/-- The file that `disasm -o` writes cannot be assembled: it has no line ends. -/
theorem C66_file_wrong :
    ((disassemble (idRt true) Mipsasm.new [0x24020001#32]).map fun out => (@assemble asciiUnicode (idRt true) Mipsasm.new out.flatten).words) = some none := by
  decide +kernel

/-! ### Example -/

/-- Two functions, one of them with a symbol: `addiu`, a call of `main`, `jr $ra`, `nop` and `lw`, `break 5`, a jump to an address, `mtc0`. -/
def exWords : List Word := [0x27bdffe8#32, 0x0c000010#32, 0x03e00008#32, 0#32, 0x8fa40010#32, 0x0000014d#32, 0x08000020#32, 0x40826000#32]

def exSyms : List (Word × Str) := [(0x40#32, c!"main"), (0x10#32, c!"next")]

theorem returns_untabbed {syms : List (Word × Str)} {base w : Word} (mn : Str) (args : List Arg) (h1 : decoding w = some (mn, args))
    (h2 : encoding mn args = some w) (h3 : ∀ a ∈ args, Readable syms base a) (h4 : '\t' ∉ gap mn) : Returns syms base w ∧ ¬ Tabbed w := by
  refine ⟨⟨mn, args, h1, h2, h3⟩, ?_⟩
  rintro ⟨_, _, k1, k2⟩
  rw [h1] at k1
  cases k1
  exact h4 k2

/-- The hypotheses of `C66_listing_partial` are met, and there are labels. -/
example : LabelSyms exSyms ∧ (∀ w ∈ exWords, Returns exSyms 0#32 w ∧ ¬ Tabbed w) ∧
    ((disassemble (idRt true) { Mipsasm.new with syms := exSyms } exWords).map fun out => out.contains c!"next:" && out.contains c!"func_00000000:") = some true := by
  refine ⟨⟨?_, ?_, ?_, ?_⟩, ?_, ?_⟩
  · have : ∀ e ∈ exSyms, e.2 ≠ [] ∧ ∀ c ∈ e.2, isWs c = false ∧ c ≠ ';' ∧ c ≠ '/' ∧ c ≠ ':' ∧ c ≠ ',' := by decide
    exact this
  · intro e he
    simp only [exSyms, List.mem_cons, List.not_mem_nil, or_false] at he
    rcases he with rfl | rfl
    · exact ⟨'m', _, rfl, by decide, by decide, by decide, by decide⟩
    · exact ⟨'n', _, rfl, by decide, by decide, by decide, by decide⟩
  · decide
  · intro e he a ha
    have : ∀ e ∈ exSyms, e.2.head? ≠ some 'f' := by decide
    exact absurd (by rw [ha]; simp [funcName]) (this e he)
  · unfold exWords
    simp only [List.forall_mem_cons]
    refine ⟨returns_untabbed c!"addiu" [.gpr 29, .gpr 29, .simm 0xffe8] ?_ ?_ ?_ ?_, returns_untabbed c!"jal" [.target 16] ?_ ?_ ?_ ?_,
      returns_untabbed c!"jr" [.gpr 31] ?_ ?_ ?_ ?_, returns_untabbed c!"sll" [.gpr 0, .gpr 0, .sa 0] ?_ ?_ ?_ ?_,
      returns_untabbed c!"lw" [.gpr 4, .mem 16 29] ?_ ?_ ?_ ?_, returns_untabbed c!"break" [.code 5] ?_ ?_ ?_ ?_,
      returns_untabbed c!"j" [.target 32] ?_ ?_ ?_ ?_, returns_untabbed c!"mtc0" [.gpr 2, .c0 12] ?_ ?_ ?_ ?_, by simp⟩
    all_goals first
      | (decide +kernel; done)
      | skip
    · simp [Readable]
    · intro a ha
      simp only [List.mem_singleton] at ha
      subst ha
      have hl : exSyms.lookup (jumpAddr 0#32 16) = some c!"main" := by decide
      simp only [Readable, hl]
      refine ⟨by decide, ⟨by decide, by decide⟩, ?_⟩
      decide +kernel
    · simp [Readable]
    · simp [Readable]
    · simp [Readable]
    · simp [Readable]
    · intro a ha
      simp only [List.mem_singleton] at ha
      subst ha
      have hl : exSyms.lookup (jumpAddr 0#32 32) = none := by decide
      simp only [Readable, hl]
      refine ⟨by decide, ?_⟩
      decide +kernel
    · simp only [List.forall_mem_cons]; exact ⟨trivial, (by decide : (c0Names.lookup 12).isSome = true), by simp⟩
  · decide +kernel

open Cli in
/-- The hypotheses of `C66_tool_partial` are met by a run on the words `jr $ra`, `sll $zero, $zero, 0` and `lw $a0, 16($sp)`. -/
example : letI := asciiUnicode
    ∃ (d d' : Disk) (s : St), Configured noYaml ⟨.disasm, none, none, c!"i", c!"0"⟩ d [] 0#32 ∧
      d c!"i" = some [3, 0xe0, 0, 8, 0, 0, 0, 0, 0x8f, 0xa4, 0, 0x10] ∧ Stored [0x03e00008#32, 0#32, 0x8fa40010#32] [3, 0xe0, 0, 8, 0, 0, 0, 0, 0x8f, 0xa4, 0, 0x10] ∧
      LabelSyms [] ∧ (∀ w ∈ [0x03e00008#32, 0#32, 0x8fa40010#32], Returns [] 0#32 w ∧ ¬ Tabbed w) ∧
      Reach true (start (idRt true) noYaml ⟨.disasm, none, none, c!"i", c!"0"⟩ d) s ∧ s.io = .exit 0 ∧
      Configured noYaml ⟨.asm, some c!"o", none, c!"j", c!"80000000"⟩ d' [] 0x80000000#32 ∧ d' c!"j" = some s.out := by
  letI := asciiUnicode
  have hcfg : ∀ (c : Cmd) (d : Disk) (a : Word), c.syms = none → parseBase c.base = some a → Configured noYaml c d [] a := by
    intro c d a h1 h2
    exact ⟨[], none, by unfold SymText; rw [h1], rfl, rfl, (C39_accepted_only _ _).1 h2⟩
  have hst : Stored [0x03e00008#32, 0#32, 0x8fa40010#32] [3, 0xe0, 0, 8, 0, 0, 0, 0, 0x8f, 0xa4, 0, 0x10] := by
    have := C38_written_bytes [0x03e00008#32, 0#32, 0x8fa40010#32]
    exact this
  have hret : ∀ w ∈ [0x03e00008#32, 0#32, 0x8fa40010#32], Returns [] 0#32 w ∧ ¬ Tabbed w := by
    simp only [List.forall_mem_cons]
    refine ⟨returns_untabbed c!"jr" [.gpr 31] ?_ ?_ ?_ ?_, returns_untabbed c!"sll" [.gpr 0, .gpr 0, .sa 0] ?_ ?_ ?_ ?_,
      returns_untabbed c!"lw" [.gpr 4, .mem 16 29] ?_ ?_ ?_ ?_, by simp⟩
    all_goals first
      | (decide +kernel; done)
      | simp [Readable]
  have hno : ¬ NoListing true (fun a => ([] : List (Word × Str)).lookup a) 0#32 [0x03e00008#32, 0#32, 0x8fa40010#32] := by
    intro h
    have := (C60_listing (idRt true) Mipsasm.new rfl [0x03e00008#32, 0#32, 0x8fa40010#32]).1.2 h
    have hs : (disassemble (idRt true) Mipsasm.new [0x03e00008#32, 0#32, 0x8fa40010#32]).isSome = true := by decide +kernel
    rw [this] at hs; cases hs
  have hend := Ends.listing (ovf := true) (L := noYaml) (c := ⟨.disasm, none, none, c!"i", c!"0"⟩)
    (d := fun p => if p = c!"i" then some [3, 0xe0, 0, 8, 0, 0, 0, 0, 0x8f, 0xa4, 0, 0x10] else none) [] 0#32 _ _ rfl
    (hcfg _ _ _ rfl (by decide +kernel)) (if_pos rfl) (by simp) hst hno
  obtain ⟨s, h1, h2⟩ := (C62_run (idRt true) _ _ _ _).2 hend
  exact ⟨_, fun p => if p = c!"j" then some s.out else none, s, hcfg _ _ _ rfl (by decide +kernel), if_pos rfl, hst,
    ⟨by simp, by simp, by simp, by simp⟩, hret, h1, h2.1, hcfg _ _ _ rfl (by decide +kernel), if_pos rfl⟩

end Mips
