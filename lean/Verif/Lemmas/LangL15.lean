/- The file with the refused lines blanked (for C58). -/
import Verif.Lemmas.LangL14
import Verif.Props.ByLine

namespace Mips
open Source Syntax Branch Operands
open Mips.Isa hiding conds Code
open Mips.Names hiding none

/-! ### a text with given lines -/

/-- the text with the lines `ls` -/
def textOf (ls : List Str) : Str := ls.flatMap fun l => l ++ ['\r', '\n']

theorem lines_crlf (l : Str) (rest : Str) (h : '\n' ∉ l) : lines (l ++ '\r' :: '\n' :: rest) = l :: lines rest := by
  have h0 : lines ('\n' :: rest) = [] :: lines rest := by simp [lines]
  have h1 : lines ('\r' :: '\n' :: rest) = [] :: lines rest := by
    rw [lines_cons2 '\r' '\n' rest (by decide) _ _ h0]; simp
  induction l with
  | nil => exact h1
  | cons c l ih =>
    have hc : c ≠ '\n' := fun e => h (by simp [e])
    have ih := ih fun hm => h (by simp [hm])
    cases l with
    | nil =>
      show lines (c :: '\r' :: '\n' :: rest) = _
      rw [lines_cons2 c '\r' _ hc _ _ h1, if_neg (by simp)]
    | cons d l =>
      show lines (c :: d :: (l ++ '\r' :: '\n' :: rest)) = _
      have := lines_cons2 c d (l ++ '\r' :: '\n' :: rest) hc _ _ ih
      rw [this, if_neg]
      rintro ⟨rfl, _⟩
      exact h (by simp)

theorem lines_textOf (ls : List Str) (h : ∀ l ∈ ls, '\n' ∉ l) : lines (textOf ls) = ls := by
  induction ls with
  | nil => rfl
  | cons l ls ih =>
    have : textOf (l :: ls) = l ++ '\r' :: '\n' :: textOf ls := by simp [textOf]
    rw [this, lines_crlf l _ (h l (by simp)), ih fun l hl => h l (by simp [hl])]

/-! ### traces that differ in what is refused -/

/-- an outcome without warnings and errors -/
def Outcome.bare : Outcome → Outcome
  | .inst _ i => .inst [] i
  | .rejected _ _ => .blank
  | o => o

theorem bare_insts (k : Nat) (tr : List Outcome) : outInsts k (tr.map Outcome.bare) = outInsts k tr := by
  induction tr generalizing k with
  | nil => rfl
  | cons o tr ih => cases o <;> simp [outInsts, Outcome.bare, ih]

theorem bare_labels (n : Nat) (tr : List Outcome) : outLabels n (tr.map Outcome.bare) = outLabels n tr := by
  induction tr generalizing n with
  | nil => rfl
  | cons o tr ih => cases o <;> simp [outLabels, Outcome.bare, ih]

theorem bare_locs (tr : List Outcome) : outLocs (tr.map Outcome.bare) = outLocs tr := by
  unfold outLocs
  rw [List.foldl_map]
  congr 1
  funext a o
  cases o <;> rfl

theorem bare_final (tr : List Outcome) : finalLocs (tr.map Outcome.bare) = finalLocs tr := by
  unfold finalLocs; rw [bare_locs]

/-- the lines, the refused ones blanked -/
def keepLine (raw : Str) : Outcome → Str
  | .rejected _ _ => []
  | _ => raw
def cleanLs (ls : List Str) (tr : List Outcome) : List Str := List.zipWith keepLine ls tr

section
variable [Unicode] {rt : Rt} {m : Mipsasm} {text : Str} {tr : List Outcome}

omit [Unicode] in
theorem clean_get {ls : List Str} {tr : List Outcome} {k : Nat} {raw : Str} {o : Outcome} (h1 : ls[k]? = some raw) (h2 : tr[k]? = some o) :
    (cleanLs ls tr)[k]? = some (keepLine raw o) := by
  unfold cleanLs
  rw [List.getElem?_zipWith, h1, h2]

omit [Unicode] in
theorem clean_mem {ls : List Str} {tr : List Outcome} {l : Str} (h : l ∈ cleanLs ls tr) : l = [] ∨ l ∈ ls := by
  unfold cleanLs at h
  obtain ⟨k, hk⟩ := List.getElem?_of_mem h
  rw [List.getElem?_zipWith] at hk
  cases h1 : ls[k]? with
  | none => rw [h1] at hk; cases hk
  | some raw =>
    cases h2 : tr[k]? with
    | none => rw [h1, h2] at hk; cases hk
    | some o =>
      rw [h1, h2] at hk
      have := List.mem_of_getElem? h1
      cases o <;> simp only [Option.some.injEq, keepLine] at hk <;> first | exact .inl hk.symm | exact .inr (hk ▸ this)

/-- The trace of the file with the refused lines blanked. -/
theorem clean_trace (hT : IsTrace (envOf rt m text) (lines text) tr) :
    ∃ tr', IsTrace (envOf rt m (textOf (cleanLs (lines text) tr))) (cleanLs (lines text) tr) tr' ∧ tr'.map Outcome.bare = tr.map Outcome.bare ∧ outErrors tr' = [] := by
  have hlen : (cleanLs (lines text) tr).length = tr.length := by unfold cleanLs; simp [hT.1]
  have key : ∀ k ≤ tr.length, ∃ tr', IsTrace (envOf rt m (textOf (cleanLs (lines text) tr))) ((cleanLs (lines text) tr).take k) tr' ∧
      tr'.map Outcome.bare = (tr.take k).map Outcome.bare ∧ outErrors tr' = [] := by
    intro k
    induction k with
    | zero => intro _; exact ⟨[], ⟨rfl, fun k raw o h => by simp at h⟩, rfl, rfl⟩
    | succ k ih =>
      intro hk
      obtain ⟨tr', h1, h2, h3⟩ := ih (by omega)
      have hkt : tr[k]? = some tr[k] := List.getElem?_eq_getElem (by omega)
      obtain ⟨raw, hkl⟩ : ∃ raw, (lines text)[k]? = some raw := ⟨_, List.getElem?_eq_getElem (by rw [← hT.1]; omega)⟩
      have hraw := clean_get hkl hkt
      have hres := hT.2 k _ _ hkl hkt
      have hlab : outLabels 0 tr' = outLabels 0 (tr.take k) := by rw [← bare_labels, h2, bare_labels]
      obtain ⟨o', ho', hb, he⟩ : ∃ o', lineRes (envOf rt m (textOf (cleanLs (lines text) tr))) tr' ((cleanLs (lines text) tr)[k]'(by omega)) = some o' ∧
          o'.bare = tr[k].bare ∧ outErrors [o'] = [] := by
        have hg : (cleanLs (lines text) tr)[k]'(by omega) = keepLine raw tr[k] := by
          have := List.getElem?_eq_getElem (l := cleanLs (lines text) tr) (i := k) (by omega)
          rw [hraw] at this
          exact (Option.some.inj this).symm
        rw [hg]
        cases hc : tr[k] with
        | rejected ws e => exact ⟨.blank, rfl, rfl, rfl⟩
        | blank =>
          rw [hc] at hres
          show ∃ o', lineRes _ tr' raw = some o' ∧ _ ∧ _
          unfold lineRes at hres ⊢
          cases hkind : kind raw with
          | blank => exact ⟨.blank, rfl, rfl, rfl⟩
          | label l =>
            rw [hkind] at hres
            simp only [labelRes] at hres
            split at hres
            · cases hres
            · split at hres
              · cases hres
              · split at hres
                · split at hres <;> cases hres
                · simp only [Option.some.injEq] at hres
                  split at hres <;> cases hres
          | code =>
            rw [hkind] at hres
            simp only [instRes] at hres
            split at hres <;> cases hres
        | label l =>
          rw [hc] at hres
          show ∃ o', lineRes _ tr' raw = some o' ∧ _ ∧ _
          unfold lineRes at hres ⊢
          cases hkind : kind raw with
          | blank => rw [hkind] at hres; cases hres
          | label l' =>
            rw [hkind] at hres
            refine ⟨.label l, ?_, rfl, rfl⟩
            simp only at hres ⊢
            unfold labelRes at hres ⊢
            rw [hlab]
            split at hres
            · cases hres
            · split at hres
              · cases hres
              · rename_i hnum
                rw [if_neg hnum]
                split at hres
                · split at hres <;> cases hres
                · exact hres
          | code =>
            rw [hkind] at hres
            simp only [instRes] at hres
            split at hres <;> cases hres
        | loc l =>
          rw [hc] at hres
          show ∃ o', lineRes _ tr' raw = some o' ∧ _ ∧ _
          unfold lineRes at hres ⊢
          cases hkind : kind raw with
          | blank => rw [hkind] at hres; cases hres
          | label l' =>
            rw [hkind] at hres
            refine ⟨.loc l, ?_, rfl, rfl⟩
            simp only at hres ⊢
            unfold labelRes at hres ⊢
            rw [hlab]
            split at hres
            · cases hres
            · split at hres
              · cases hres
              · rename_i hnum
                rw [if_neg hnum]
                split at hres
                · split at hres <;> cases hres
                · exact hres
          | code =>
            rw [hkind] at hres
            simp only [instRes] at hres
            split at hres <;> cases hres
        | inst ws i =>
          rw [hc] at hres
          obtain ⟨hkind, hp⟩ := lineRes_inst hres
          have hok : (parseInst (ctxAt (envOf rt m (textOf (cleanLs (lines text) tr))) tr') (body raw)).res = .ok i := by
            refine parse_res (x := ctxAt (envOf rt m text) (tr.take k)) (y := ctxAt (envOf rt m (textOf (cleanLs (lines text) tr))) tr') rfl rfl hlab.symm ?_
            rw [hp]
          refine ⟨.inst (parseInst (ctxAt (envOf rt m (textOf (cleanLs (lines text) tr))) tr') (body raw)).warns i, ?_, rfl, rfl⟩
          show lineRes _ tr' raw = _
          unfold lineRes
          rw [hkind]
          simp only [instRes, hok]
      refine ⟨tr' ++ [o'], ?_, ?_, ?_⟩
      · rw [List.take_succ_eq_append_getElem (by omega)]
        exact isTrace_snoc h1 ho'
      · rw [List.map_append, h2, List.take_succ_eq_append_getElem (by omega), List.map_append]
        simp [hb]
      · rw [outErrors_append, h3, he]; rfl
  obtain ⟨tr', h1, h2, h3⟩ := key tr.length (Nat.le_refl _)
  refine ⟨tr', ?_, ?_, h3⟩
  · rw [List.take_of_length_le (by omega)] at h1; exact h1
  · rw [List.take_length] at h2; exact h2

end
end Mips
