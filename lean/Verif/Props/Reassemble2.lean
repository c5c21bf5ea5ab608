/-
**C66**, in full — what becomes of the printed listing, with its labels, of every list of words when it is assembled again.
-/
import Verif.Props.RoundTrip2

namespace Mips
open Isa Syntax Source Listing Branch

theorem jumpSyms_of {syms : List (Word × Str)} (h : LabelSyms syms) : JumpSyms syms := by
  refine ⟨h.plain, fun e he n hc => ?_, h.unique⟩
  obtain ⟨c, t, e1, _, h2, _⟩ := h.head e he
  rw [hc] at e1
  cases e1
  revert h2; decide

/-! ### The lines of words -/

theorem table_gap2 : ∀ r ∈ table, '\t' ∉ gap r.mn → ∃ n, gap r.mn = ' ' :: List.replicate n ' ' := by
  intro r hr ht
  obtain ⟨n, _, h⟩ := table_gap r hr ht
  exact ⟨n, h⟩

theorem col_pad {sym : Word → Option Str} {base : Word} {mn : Str} {n : Nat} (hg : gap mn = ' ' :: List.replicate n ' ') (args : List Arg) :
    colInst sym base mn args = padInst n sym base mn (args.map fixA) := by
  unfold colInst padInst
  rw [shown_fix]
  by_cases h : shown mn args = []
  · rw [if_pos h, if_pos (by rw [h]; rfl)]
  · rw [if_neg h, if_neg (by simpa using h), hg, List.map_map]
    simp only [List.append_assoc, List.cons_append]
    congr 4
    exact List.map_congr_left fun a _ => argCol_fix _ _ a

theorem tab_line {a b sep : Str} (ha : SafeS a) (hs : ∀ c ∈ sep, c = ' ' ∨ c = '\t') (hb : LineLike b) : LineLike (a ++ sep ++ b) := by
  have la := safe_lineLike ha
  refine ⟨⟨by simp [ha.1], ?_, ?_⟩, ?_⟩
  · intro c hc
    refine la.1.2.1 c ?_
    rw [List.append_assoc, List.head?_append] at hc
    cases hh : a.head? with
    | none => exact absurd (List.head?_eq_none_iff.1 hh) ha.1
    | some d => rw [hh] at hc; simpa using hc
  · intro c hc
    refine hb.1.2.2 c ?_
    rw [List.getLast?_append] at hc
    cases hh : b.getLast? with
    | none => exact absurd (List.getLast?_eq_none_iff.1 hh) hb.1.1
    | some d => rw [hh] at hc; simpa using hc
  · intro c hc
    rcases List.mem_append.1 hc with hc | hc
    · rcases List.mem_append.1 hc with hc | hc
      · exact la.2 c hc
      · rcases hs c hc with rfl | rfl <;> decide
    · exact hb.2 c hc

theorem colWord_word (w : Word) : colWord w = c!".word" ++ c!"      " ++ hex8 w := rfl

theorem colWord_line (w : Word) : LineLike (colWord w) ∧ firstWord (colWord w) = c!".word" := by
  refine ⟨?_, rfl⟩
  rw [colWord_word]
  exact lineLike_append (by decide) (by decide) (safe_lineLike (hex8_safe w))

theorem cp0_row : ∀ e ∈ cp0Map, ∃ r ∈ table, r.mn = e.1 ∧ r.syn = .none ∧ (place r.code r.syn []).isSome = true := by decide +kernel

theorem c0_gap : ∀ r ∈ table, r.syn = .rtC0 → ∀ c ∈ gap r.mn, c = ' ' ∨ c = ',' := by decide +kernel

/-- The line of a word that is not printed with a tab. -/
theorem col_cases {syms : List (Word × Str)} (hs : JumpSyms syms) (base : Word) {w : Word} (ht : ¬ Tabbed w) :
    Printed syms base w (colText (fun a => syms.lookup a) base w) := by
  cases hd : decoding w with
  | none =>
    by_cases hk : fOp w = copOp 0 ∧ fRs w < 16#5
    · cases hf : cp0Map.find? fun e => decide (e.2 = (fFn w).toNat) with
      | none =>
        have e : colText (fun a => syms.lookup a) base w = colWord w := by
          unfold colText; rw [hd]; dsimp only; rw [if_pos hk, hf]
        rw [e]
        refine .inl ⟨(colWord_line w).1, (colWord_line w).2, fun b n i => ?_⟩
        unfold comesBack; rw [hd]; dsimp only; rw [if_pos hk, hf]; rfl
      | some e =>
        obtain ⟨r, hr, h1, h2, h3⟩ := cp0_row e (List.mem_of_find?_eq_some hf)
        obtain ⟨v, hv⟩ := Option.isSome_iff_exists.1 h3
        refine .inr (.inl ⟨r, hr, ?_, h2, safe_lineLike (table_mn r hr).1, v, hv, fun b n i => ?_⟩)
        · unfold colText; rw [hd]; dsimp only; rw [if_pos hk, hf, h1]
        · unfold comesBack; rw [hd]; dsimp only; rw [if_pos hk, hf, Option.bind_some, ← h1, encoding_table hr, hv]
    · have e : colText (fun a => syms.lookup a) base w = colWord w := by
        unfold colText; rw [hd]; dsimp only; rw [if_neg hk]
      rw [e]
      refine .inl ⟨(colWord_line w).1, (colWord_line w).2, fun b n i => ?_⟩
      unfold comesBack; rw [hd]; dsimp only; rw [if_neg hk]
  | some p =>
    obtain ⟨mn, args⟩ := p
    obtain ⟨r, hr, rfl, rfl⟩ := decoding_row hd
    have hcb : ∀ b n i, comesBack b n i w = ((argsOf w r.syn).mapM (reread b n i)).bind (place r.code r.syn) := by
      intro b n i
      unfold comesBack
      rw [hd]
      dsimp only
      congr 1
      funext args
      exact encoding_table hr args
    by_cases hc : ∀ q, .c0 q ∈ argsOf w r.syn → (c0Names.lookup q.toNat).isSome = true
    · have e : colText (fun a => syms.lookup a) base w = colInst (fun a => syms.lookup a) base r.mn (argsOf w r.syn) := by
        unfold colText
        rw [hd]
        dsimp only
        cases h : c0Arg (argsOf w r.syn) with
        | none => rfl
        | some q =>
          dsimp only
          rw [if_pos]
          refine hc q ?_
          unfold c0Arg at h
          split at h
          · rename_i heq; cases h; rw [heq]; simp
          · cases h
      obtain ⟨n, hn⟩ := table_gap2 r hr fun h => ht ⟨_, _, hd, h⟩
      rw [col_pad hn] at e
      exact .inr (.inr ⟨r, hr, n, hd, hc, e, by rw [e]; exact inst_lineLike2 hs hr n fun q hq => hc q (fixA_c0 hq), hcb⟩)
    · refine .inl ?_
      obtain ⟨q, hq⟩ := Classical.not_forall.1 hc
      obtain ⟨hq, hq'⟩ := Classical.not_imp.1 hq
      have hsyn : r.syn = .rtC0 ∧ q = fRd w := by
        revert hq
        cases r.syn <;> simp [argsOf]
      obtain ⟨hsyn, rfl⟩ := hsyn
      have hq' : (c0Names.lookup (fRd w).toNat).isSome = false := Bool.eq_false_iff.2 hq'
      rw [hsyn] at hd
      have hcn : ∀ b n i, comesBack b n i w = none := by
        intro b n i
        rw [hcb, hsyn]
        simp [argsOf, reread, hq', List.mapM_cons]
      have e : colText (fun a => syms.lookup a) base w = colWord w ++ c!"          # " ++ r.mn ++ gap r.mn ++ gprText (fRt w) ++ c!", 0x" ++
          [Nat.digitChar ((fRd w).toNat / 16), Nat.digitChar ((fRd w).toNat % 16)] := by
        unfold colText
        rw [hd]
        simp only [argsOf, c0Arg, hq', Bool.false_eq_true, if_false]
      have e2 : colWord w ++ c!"          # " ++ r.mn ++ gap r.mn ++ gprText (fRt w) ++ c!", 0x" ++
          [Nat.digitChar ((fRd w).toNat / 16), Nat.digitChar ((fRd w).toNat % 16)] =
          c!".word" ++ c!"      " ++ (hex8 w ++ c!"          " ++ (c!"#" ++ c!" " ++ (r.mn ++ gap r.mn ++ (gprText (fRt w) ++ c!", " ++
            (c!"0x" ++ [Nat.digitChar ((fRd w).toNat / 16), Nat.digitChar ((fRd w).toNat % 16)]))))) := by simp [colWord_word]
      rw [e, e2]
      refine ⟨?_, rfl, hcn⟩
      have hd5 : ∀ q : BitVec 5, SafeS (c!"0x" ++ [Nat.digitChar (q.toNat / 16), Nat.digitChar (q.toNat % 16)]) := by decide
      exact lineLike_append (by decide) (by decide) (lineLike_append (hex8_safe w) (by decide) (lineLike_append (by decide) (by decide)
        (lineLike_append (table_mn r hr).1 (c0_gap r hr hsyn) (lineLike_append (safe_gpr _) (by decide) (safe_lineLike (hd5 _))))))

/-! ### Comparisons -/

theorem tabs_ok : ∀ r ∈ table, '\t' ∈ gap r.mn → gap r.mn = c!"\t    " ∧ r.syn = .fsFt ∧ (∀ c ∈ r.mn ++ ['\t'], isAscii c = true) ∧
    ' ' ∉ r.mn ++ ['\t'] ∧ trim ((r.mn ++ ['\t']).map asciiLower) ∉ Names.none ∧ trim ((r.mn ++ ['\t']).map asciiLower) ≠ c!".word" ∧
    (Lang.intSignatures.any fun e => e.1 == trim ((r.mn ++ ['\t']).map asciiLower)) = false ∧
    ((r.mn ++ ['\t']).map asciiLower ∉ Operands.signatures.map (·.1)) := by decide +kernel

theorem tab_line_text {syms : List (Word × Str)} (hs : JumpSyms syms) (base : Word) {w : Word} (ht : Tabbed w) :
    ∃ r ∈ table, '\t' ∈ gap r.mn ∧ LineLike (colText (fun a => syms.lookup a) base w) ∧
      ∃ t, colText (fun a => syms.lookup a) base w = (r.mn ++ ['\t']) ++ ' ' :: t := by
  obtain ⟨mn, args, hd, hg⟩ := ht
  obtain ⟨r, hr, rfl, rfl⟩ := decoding_row hd
  obtain ⟨h1, h2, _⟩ := tabs_ok r hr hg
  have e : colText (fun a => syms.lookup a) base w = r.mn ++ gap r.mn ++ c!", ".intercalate [fprText (fRd w), fprText (fRt w)] := by
    unfold colText
    rw [hd, h2]
    simp [argsOf, c0Arg, colInst, shown, argCol, argText]
  refine ⟨r, hr, hg, ?_, ?_⟩
  · rw [e]
    refine tab_line (table_mn r hr).1 (by rw [h1]; decide) (inter_lineLike _ (by simp) ?_)
    intro t ht
    simp only [List.mem_cons, List.not_mem_nil, or_false] at ht
    rcases ht with rfl | rfl <;> exact safe_fpr _
  · exact ⟨c!"   " ++ c!", ".intercalate [fprText (fRd w), fprText (fRt w)], by rw [e, h1]; simp⟩

theorem tab_refused [Unicode] {rt : Rt} {m : Mipsasm} {text : Str} {k : Nat} {syms : List (Word × Str)} (hs : JumpSyms syms) (base : Word) {w : Word}
    (ht : Tabbed w) (hk : (lines text)[k]? = some (colText (fun a => syms.lookup a) base w)) : (assemble rt m text).words = none := by
  cases hw : (assemble rt m text).words with
  | none => rfl
  | some ws =>
    exfalso
    obtain ⟨r, hr, hg, hl, t, e⟩ := tab_line_text hs base ht
    obtain ⟨_, _, h3, h4, h5, h6, h7, h8⟩ := tabs_ok r hr hg
    have hacc := ((C57_program rt m text ws).1 hw).1.1 k _ hk
    unfold Lang.LineTaken at hacc
    rw [hl.kind, hl.body, e] at hacc
    obtain ⟨st, hp, hst⟩ := hacc
    obtain ⟨_, _, f1, f2⟩ := firstWord_bare (q := t) h4
    unfold Lang.plan at hp
    dsimp only at hp
    have hmn : mnemonic ((r.mn ++ ['\t']) ++ ' ' :: t) = trim ((r.mn ++ ['\t']).map asciiLower) := by
      unfold mnemonic
      rw [f1, Unicode.lower_ascii _ h3]
    rw [hmn, if_neg h5, if_neg h6, if_neg (by rw [h7]; simp), f1] at hp
    have hname : Lang.Step.fname (r.mn ++ ['\t']) ∉ st := by
      intro hm
      obtain ⟨sig, hsig⟩ := hst _ hm
      exact h8 (List.mem_map_of_mem hsig)
    have hform : Lang.Step.format (r.mn ++ ['\t']) ∉ st := by
      intro hm
      obtain ⟨c, hc, hf⟩ := hst _ hm
      simp at hc
      subst hc
      revert hf; decide
    have hshort : Lang.Step.short ∉ st := fun hm => hst _ hm
    unfold Lang.floatPlan at hp
    split at hp
    · cases hp; exact hshort (by simp)
    · split at hp
      · split at hp
        · cases hp; exact hname (by simp)
        · cases hp
      · split at hp
        · split at hp
          · cases hp; exact hname (by simp)
          · cases hp
        · split at hp
          · split at hp
            · cases hp; exact hform (by simp)
            · cases hp
          · cases hp

/-! ### The listing -/

theorem col_lineLike2 {syms : List (Word × Str)} (hs : JumpSyms syms) (base w : Word) : LineLike (colText (fun a => syms.lookup a) base w) := by
  by_cases ht : Tabbed w
  · obtain ⟨_, _, _, h, _⟩ := tab_line_text hs base ht; exact h
  · exact printed_lineLike (col_cases hs base ht)

/-- the lines of any listing -/
inductive AnyLine (syms : List (Word × Str)) (base : Word) (raw : Str) : Prop
  | blank : raw = [] → AnyLine syms base raw
  | label (a : Word) : raw = nameAt syms a ++ c!":" → AnyLine syms base raw
  | word (w : Word) : raw = colText (fun a => syms.lookup a) base w → AnyLine syms base raw

section
variable {syms : List (Word × Str)} {base : Word}

theorem render_any (brk : Nat → Bool) : ∀ (ws : List Word) (i : Nat),
    ∀ raw ∈ render (fun k => labelText (fun a => syms.lookup a) (addrOf base k)) brk i (ws.map (colText (fun a => syms.lookup a) base)), AnyLine syms base raw := by
  intro ws
  induction ws with
  | nil => intro i raw h; cases h
  | cons w ws ih =>
    intro i raw hr
    simp only [List.map_cons, render, List.mem_cons, List.mem_append] at hr
    rcases hr with rfl | hr | hr
    · exact .word w rfl
    · split at hr
      · simp only [List.mem_cons, List.not_mem_nil, or_false] at hr
        rcases hr with rfl | rfl
        · exact .blank rfl
        · exact .label _ rfl
      · cases hr
    · exact ih (i + 1) raw hr

theorem render_globals2 (hs : LabelSyms syms) (brk : Nat → Bool) : ∀ (ws : List Word) (i n : Nat), i + ws.length < 2 ^ 30 →
    let g := globalsFrom n (render (fun k => labelText (fun a => syms.lookup a) (addrOf base k)) brk i (ws.map (colText (fun a => syms.lookup a) base)))
    (∀ e ∈ g, ∃ j, i < j ∧ j < 2 ^ 30 ∧ e.1 = nameAt syms (addrOf base j)) ∧ (g.map (·.1)).Nodup := by
  intro ws
  induction ws with
  | nil => intro i n _; exact ⟨by simp [render, globalsFrom], by simp [render, globalsFrom]⟩
  | cons w ws ih =>
    intro i n hlen
    simp only [List.length_cons] at hlen
    have hk := (col_lineLike2 (jumpSyms_of hs) base w).kind
    obtain ⟨r1, r2⟩ := ih (i + 1) (n + 1) (by omega)
    have r1' : ∀ e ∈ globalsFrom (n + 1) (render (fun k => labelText (fun a => syms.lookup a) (addrOf base k)) brk (i + 1) (ws.map (colText (fun a => syms.lookup a) base))),
        ∃ j, i < j ∧ j < 2 ^ 30 ∧ e.1 = nameAt syms (addrOf base j) := fun e he => by
      obtain ⟨j, a, b, c⟩ := r1 e he
      exact ⟨j, by omega, b, c⟩
    dsimp only
    simp only [List.map_cons, render, globalsFrom, hk]
    split
    · have hb : kind ([] : Str) = .blank := by decide
      simp only [List.cons_append, List.nil_append, globalsFrom, hb, labelText_eq, (listed_label (nameAt_plain hs _).1).1]
      split
      · exact ⟨r1', r2⟩
      · refine ⟨?_, ?_⟩
        · intro e he
          rcases List.mem_cons.1 he with rfl | he
          · exact ⟨i + 1, by omega, by omega, rfl⟩
          · exact r1' e he
        · rw [List.map_cons, List.nodup_cons]
          refine ⟨?_, r2⟩
          intro hm
          obtain ⟨e, he, hx⟩ := List.mem_map.1 hm
          obtain ⟨j, a, b, c⟩ := r1 e he
          have := nameAt_inj hs (hx.symm.trans c)
          have := congrArg BitVec.toNat this
          unfold addrOf at this
          simp only [BitVec.toNat_add, BitVec.toNat_ofNat] at this
          omega
    · exact ⟨r1', r2⟩

/-- the lines of code of a listing are those of the words -/
theorem render_codes (hs : LabelSyms syms) (brk : Nat → Bool) : ∀ (ws : List Word) (i : Nat),
    (render (fun k => labelText (fun a => syms.lookup a) (addrOf base k)) brk i (ws.map (colText (fun a => syms.lookup a) base))).filter isCode =
      ws.map (colText (fun a => syms.lookup a) base) := by
  intro ws
  induction ws with
  | nil => intro i; rfl
  | cons w ws ih =>
    intro i
    have hk : isCode (colText (fun a => syms.lookup a) base w) = true := by
      simp [isCode, (col_lineLike2 (jumpSyms_of hs) base w).kind]
    simp only [List.map_cons, render, List.filter_cons, hk, if_true, List.filter_append, ih]
    congr 1
    split
    · have h1 : isCode [] = false := by decide
      have h2 : isCode (labelText (fun a => syms.lookup a) (addrOf base (i + 1))) = false := by
        rw [labelText_eq]
        simp [isCode, (listed_label (nameAt_plain hs _).1).1]
      simp [List.filter_cons, h1, h2]
    · rfl

end

theorem nth_code {ls : List Str} {k : Nat} {raw : Str} (h1 : ls[k]? = some raw) (h2 : kind raw = .code) :
    (ls.filter isCode)[codeCount (ls.take k)]? = some raw := by
  obtain ⟨h3, h4⟩ := List.getElem?_eq_some_iff.1 h1
  have e : ls.filter isCode = (ls.take k).filter isCode ++ (raw :: (ls.drop (k + 1)).filter isCode) := by
    conv => lhs; rw [← List.take_append_drop k ls, ← List.getElem_cons_drop h3, h4]
    rw [List.filter_append, List.filter_cons, if_pos (by simp [isCode, h2])]
  rw [e, show codeCount (ls.take k) = ((ls.take k).filter isCode).length from rfl, List.getElem?_append_right (Nat.le_refl _)]
  simp

theorem listing_lines2 {syms : List (Word × Str)} {base : Word} (hl : LabelSyms syms) (ws : List Word)
    {text : Str} (ht : AsText (listing (fun a => syms.lookup a) base ws) text) : lines text = listing (fun a => syms.lookup a) base ws := by
  have hn : ∀ s ∈ listing (fun a => syms.lookup a) base ws, '\n' ∉ s ∧ '\r' ∉ s := by
    intro s hs
    have hc : AnyLine syms base s := by
      unfold listing at hs
      rcases List.mem_cons.1 hs with rfl | hr
      · exact .label base rfl
      · exact render_any _ ws 0 s hr
    rcases hc with rfl | ⟨a, rfl⟩ | ⟨w, rfl⟩
    · simp
    · have := (listed_label (nameAt_plain hl a).1).2
      exact ⟨fun hc => (this _ hc).1 rfl, fun hc => (this _ hc).2 rfl⟩
    · have := (col_lineLike2 (jumpSyms_of hl) base w).2
      exact ⟨fun hc => (this _ hc).2.2.2.1 rfl, fun hc => (this _ hc).2.2.2.2 rfl⟩
  rcases ht with rfl | rfl
  · refine lines_joined hn ?_
    intro hc
    have hmem : ([] : Str) ∉ ws.map (colText (fun a => syms.lookup a) base) := by
      intro hm
      obtain ⟨w, hw, he⟩ := List.mem_map.1 hm
      exact (col_lineLike2 (jumpSyms_of hl) base w).1.1 he
    unfold listing at hc
    cases ws with
    | nil => simp [render, labelText] at hc
    | cons w ws =>
      have hne : render (fun k => labelText (fun a => syms.lookup a) (addrOf base k)) (fun i => (trail base (w :: ws) i).2) 0
          ((w :: ws).map (colText (fun a => syms.lookup a) base)) ≠ [] := by simp [render]
      rw [List.getLast?_cons_of_ne_nil hne, render_last] at hc
      exact hmem (List.mem_of_getLast? hc)
  · exact lines_printed hn

theorem allListed_range (base : Word) (ws : List Word) :
    allListed base ws = (List.range ws.length).mapM fun i => (ws[i]?).bind (listedBack base ws.length i) := by
  apply Option.ext
  intro r
  unfold allListed
  rw [mapM_some_iff, mapM_some_iff]
  simp only [List.length_zipIdx, List.length_range]
  refine and_congr_right fun hr => ⟨fun h k i hk => ?_, fun h k p hk => ?_⟩
  · obtain ⟨h1, h2⟩ := List.getElem?_eq_some_iff.1 hk
    rw [List.length_range] at h1
    rw [List.getElem_range] at h2
    subst h2
    obtain ⟨b, h3, h4⟩ := h k (ws[k], k) (by simp [h1])
    exact ⟨b, h3, by rw [List.getElem?_eq_getElem h1]; exact h4⟩
  · rw [List.getElem?_zipIdx] at hk
    obtain ⟨w, hw, rfl⟩ := Option.map_eq_some_iff.1 hk
    have hlt := (List.getElem?_eq_some_iff.1 hw).1
    obtain ⟨b, h3, h4⟩ := h k k (by simp [hlt])
    rw [hw] at h4
    exact ⟨b, h3, by simpa using h4⟩

theorem listedBack_tab {w : Word} (h : Tabbed w) (b : Word) (n i : Nat) : listedBack b n i w = none := by
  obtain ⟨mn, args, hd, hg⟩ := h
  unfold listedBack
  rw [hd]
  dsimp only
  rw [if_pos hg]

theorem listedBack_plain {w : Word} (h : ¬ Tabbed w) (b : Word) (n i : Nat) : listedBack b n i w = comesBack b n i w := by
  unfold listedBack
  cases hd : decoding w with
  | none => rfl
  | some p =>
    dsimp only
    rw [if_neg fun hg => h ⟨_, _, hd, hg⟩]

/-- The listing of any words, read again. -/
theorem listing_exact [Unicode] (rt : Rt) (m : Mipsasm) (base : Word) (hl : LabelSyms m.syms) (ws : List Word) (hlen : ws.length ≤ 2 ^ 29)
    (text : Str) (ht : lines text = listing (fun a => m.syms.lookup a) base ws) : (assemble rt m text).words = allListed m.base ws := by
  have hp := jumpSyms_of hl
  have hkind := fun a => (listed_label (nameAt_plain hl a).1).1
  have hcl : ∀ raw ∈ lines text, AnyLine m.syms base raw := by
    intro raw hr
    rw [ht] at hr
    unfold listing at hr
    rcases List.mem_cons.1 hr with rfl | hr
    · exact .label base rfl
    · exact render_any _ ws 0 raw hr
  have hcodes : (lines text).filter isCode = ws.map (colText (fun a => m.syms.lookup a) base) := by
    rw [ht]
    unfold listing
    rw [List.filter_cons, if_neg, render_codes hl]
    rw [labelText_eq]
    simp [isCode, hkind]
  have hN : codeCount (lines text) = ws.length := by
    show ((lines text).filter isCode).length = _
    rw [hcodes, List.length_map]
  have hnd : ((globals (lines text)).map (·.1)).Nodup := by
    obtain ⟨r1, r2⟩ := render_globals2 (base := base) hl (fun i => (trail base ws i).2) ws 0 0 (by omega)
    rw [ht]
    unfold listing globals
    simp only [globalsFrom, labelText_eq, hkind]
    simp only [labelText_eq] at r1 r2
    split
    · exact r2
    · rw [List.map_cons, List.nodup_cons]
      refine ⟨fun hm => ?_, r2⟩
      obtain ⟨e, he, hx⟩ := List.mem_map.1 hm
      obtain ⟨j, a, b, c⟩ := r1 e he
      have := congrArg BitVec.toNat (nameAt_inj hl (hx.symm.trans c))
      unfold addrOf at this
      simp only [BitVec.toNat_add, BitVec.toNat_ofNat] at this
      have := base.isLt
      omega
  have hname : ∀ raw ∈ lines text, ∀ l, kind raw = .label l → ∃ a, l = nameAt m.syms a := by
    intro raw hr l hk
    rcases hcl raw hr with rfl | ⟨a, rfl⟩ | ⟨w, rfl⟩
    · rw [show kind [] = .blank by decide] at hk; cases hk
    · rw [hkind] at hk; cases hk; exact ⟨a, rfl⟩
    · rw [(col_lineLike2 hp base w).kind] at hk; cases hk
  have hnum : NoNumeralLabel (lines text) := by
    intro e he v hv
    obtain ⟨raw, h1, h2⟩ := listing_globals he
    obtain ⟨a, ha⟩ := hname raw h1 _ h2
    obtain ⟨c, t, e1, hd⟩ := num_head hv
    obtain ⟨c', t', e2, _, k1, k2, k3⟩ := (nameAt_plain hl a).2
    rw [← ha, e1] at e2
    cases e2
    rcases hd with hd | hd | hd
    · rw [k1] at hd; cases hd
    · exact k2 hd
    · exact k3 hd
  have hget : ∀ {k : Nat} {raw : Str}, (lines text)[k]? = some raw → kind raw = .code →
      ∃ w, ws[codeCount ((lines text).take k)]? = some w ∧ raw = colText (fun a => m.syms.lookup a) base w := by
    intro k raw h1 h2
    have := nth_code h1 h2
    rw [hcodes, List.getElem?_map] at this
    obtain ⟨w, hw, rfl⟩ := Option.map_eq_some_iff.1 this
    exact ⟨w, hw, rfl⟩
  rw [allListed_range, ← hN]
  refine prog_exact _ ?_ ?_ ?_
  · intro k raw l h1 h2
    refine labelOk_of_nodup hnd h1 h2 ?_
    obtain ⟨a, rfl⟩ := hname raw (List.mem_of_getElem? h1) l h2
    obtain ⟨c, t, e, k1, k2, _⟩ := (nameAt_plain hl a).2
    exact ⟨c, t, e, by rw [Unicode.isNumeric_ascii c k1]; exact k2⟩
  · intro k raw h1 h2 w' hw x hx
    obtain ⟨w, h3, rfl⟩ := hget h1 h2
    rw [h3, Option.bind_some] at hw
    have htab : ¬ Tabbed w := fun h => by rw [listedBack_tab h] at hw; cases hw
    rw [listedBack_plain htab] at hw
    rw [(col_lineLike2 hp base w).body]
    exact printed_makes hp hx.syms (hx.noNum hnum) (by omega) base (col_cases hp base htab) hw
  · intro k raw h1 h2 hw
    obtain ⟨w, h3, rfl⟩ := hget h1 h2
    rw [h3, Option.bind_some] at hw
    by_cases htab : Tabbed w
    · exact tab_refused hp base htab h1
    · rw [listedBack_plain htab] at hw
      exact printed_refused hp hnum (by omega) base (col_cases hp base htab) h1 hw

/-- **C66**, in full: the listing, with its labels, of any words for which there is one, with line feeds between or behind its lines, assembled again
with the same symbols and any base address, gives exactly the words that `allListed` says, and none where it says so. -/
theorem C66_exact [Unicode] (rt rt' : Rt) (m m' : Mipsasm) (hm : m.debug = false) (hs : m'.syms = m.syms) (hl : LabelSyms m.syms) (ws : List Word)
    (hlen : ws.length ≤ 2 ^ 29) (out : List Str) (hd : disassemble rt m ws = some out) (text : Str) (ht : AsText out text) :
    (assemble rt' m' text).words = allListed m'.base ws := by
  have ho : out = listing (fun a => m.syms.lookup a) m.base ws := by
    by_cases hn : NoListing rt.ovf (fun a => m.syms.lookup a) m.base ws
    · rw [(C60_listing rt m hm ws).1.2 hn] at hd; cases hd
    · rw [(C60_listing rt m hm ws).2 hn] at hd; exact (Option.some.inj hd).symm
  subst ho
  exact listing_exact rt' m' m.base (by rw [hs]; exact hl) ws hlen text (by rw [hs]; exact listing_lines2 hl ws ht)

/-- **C66**: exactly which lists of words are unchanged: all of them are canonical encodings with operands that survive, and none is a comparison that
is printed with a tab. -/
theorem C66_same [Unicode] (rt rt' : Rt) (m m' : Mipsasm) (hm : m.debug = false) (hs : m'.syms = m.syms) (hl : LabelSyms m.syms) (ws : List Word)
    (hlen : ws.length ≤ 2 ^ 17) (out : List Str) (hd : disassemble rt m ws = some out) (text : Str) (ht : AsText out text) :
    (assemble rt' m' text).words = some ws ↔
      ∀ (i : Nat) w, ws[i]? = some w → ¬ Tabbed w ∧
        ∃ mn args, decoding w = some (mn, args) ∧ encoding mn args = some w ∧ ∀ a ∈ args, Kept m'.base i a := by
  rw [C66_exact rt rt' m m' hm hs hl ws (by omega) out hd text ht, allListed_range, mapM_some_iff]
  constructor
  · rintro ⟨_, h⟩ i w hw
    have hi := (List.getElem?_eq_some_iff.1 hw).1
    obtain ⟨b, h3, h4⟩ := h i i (by simp [hi])
    rw [hw] at h3 h4
    cases h3
    rw [Option.bind_some] at h4
    have htab : ¬ Tabbed w := fun h => by rw [listedBack_tab h] at h4; cases h4
    rw [listedBack_plain htab] at h4
    exact ⟨htab, (comesBack_same hlen hi w).1 h4⟩
  · intro h
    refine ⟨by simp, fun k i hk => ?_⟩
    obtain ⟨h3, h4⟩ := List.getElem?_eq_some_iff.1 hk
    rw [List.length_range] at h3
    rw [List.getElem_range] at h4
    subst h4
    obtain ⟨htab, h5⟩ := h k _ (List.getElem?_eq_getElem h3)
    refine ⟨ws[k], List.getElem?_eq_getElem h3, ?_⟩
    rw [List.getElem?_eq_getElem h3, Option.bind_some, listedBack_plain htab]
    exact (comesBack_same hlen h3 _).2 h5

/-! ### Examples -/

/-- The words of the example of `C03_exact`, with `jr` and `nop` between (so that the listing has two labels), through the program. -/
example : backAgain { Mipsasm.new with syms := [(0x40#32, c!"main")] }
      [0x10410000#32, 0x10410008#32, 0x24427fff#32, 0x0c000010#32, 0x03e00008#32, 0x00000000#32, 0x09000001#32, 0x40600008#32] =
    some [0x10410000#32, 0x10410001#32, 0x24428001#32, 0x0c000010#32, 0x03e00008#32, 0x00000000#32, 0x08000001#32, 0x42000008#32] ∧
    allListed 0 [0x10410000#32, 0x10410008#32, 0x24427fff#32, 0x0c000010#32, 0x03e00008#32, 0x00000000#32, 0x09000001#32, 0x40600008#32] =
    some [0x10410000#32, 0x10410001#32, 0x24428001#32, 0x0c000010#32, 0x03e00008#32, 0x00000000#32, 0x08000001#32, 0x42000008#32] := by
  refine ⟨?_, ?_⟩ <;> decide +kernel

/-- `c.eq.s` does not come back; `c.ngle.s`, which is printed without a tab, does. -/
example : backAgain Mipsasm.new [0x46041032#32] = none ∧ allListed 0 [0x46041032#32] = none ∧
    backAgain Mipsasm.new [0x46041039#32] = some [0x46041039#32] ∧ allListed 0 [0x46041039#32] = some [0x46041039#32] := by
  refine ⟨?_, ?_, ?_, ?_⟩ <;> decide +kernel

end Mips
