/- C53: what a diagnostic looks like. -/
import Verif.Spec.Diag
import Verif.Props.Shown

namespace Mips
open Mips.Diag Mips.Shown

/-! ### Colours -/

theorem visibleFrom_clean {a : Str} (h : Char.ofNat 27 ∉ a) (s : Str) : visibleFrom false (a ++ s) = a ++ visibleFrom false s := by
  induction a with
  | nil => rfl
  | cons c a ih =>
    simp only [List.mem_cons, not_or] at h
    rw [List.cons_append, visibleFrom, if_neg (fun e => h.1 e.symm), ih h.2, List.cons_append]

theorem visible_blue (s : Str) : visibleFrom false (blue ++ s) = visibleFrom false s := rfl
theorem visible_red (s : Str) : visibleFrom false (red ++ s) = visibleFrom false s := rfl
theorem visible_reset (s : Str) : visibleFrom false (reset ++ s) = visibleFrom false s := rfl

theorem clean_replicate {n : Nat} {c : Char} (h : c ≠ Char.ofNat 27) : Char.ofNat 27 ∉ List.replicate n c := by
  rw [List.mem_replicate]; exact fun e => h e.2.symm

theorem clean_append {a b : Str} (ha : Char.ofNat 27 ∉ a) (hb : Char.ofNat 27 ∉ b) : Char.ofNat 27 ∉ a ++ b := by
  rw [List.mem_append]; exact fun e => e.elim ha hb

theorem hexChar_clean (k : Nat) : hexChar k ≠ Char.ofNat 27 := by
  unfold hexChar
  have key : ∀ n, 28 ≤ n → Char.ofNat n ≠ Char.ofNat 27 := by
    intro n hn e
    by_cases hv : n.isValidChar
    · have e := congrArg Char.toNat e
      rw [show (Char.ofNat n).toNat = n by unfold Char.ofNat; rw [dif_pos hv]; rfl] at e
      rw [show (Char.ofNat 27).toNat = 27 from rfl] at e
      omega
    · rw [show Char.ofNat n = '\x00' by unfold Char.ofNat; rw [dif_neg hv]; rfl] at e
      exact absurd e (by decide)
  split
  · exact key _ (by omega)
  · exact key _ (by omega)

theorem digitsAux_clean (b : Nat) : ∀ k n, Char.ofNat 27 ∉ digitsAux b hexChar k n := by
  intro k
  induction k with
  | zero => intro n; rw [digitsAux, List.mem_singleton]; exact fun e => hexChar_clean _ e.symm
  | succ k ih =>
    intro n
    unfold digitsAux
    split
    · rw [List.mem_singleton]; exact fun e => hexChar_clean _ e.symm
    · refine clean_append (ih _) ?_
      rw [List.mem_singleton]
      exact fun e => hexChar_clean _ e.symm

theorem decimal_clean (n : Nat) : Char.ofNat 27 ∉ decimal n := digitsAux_clean _ _ _
theorem hexLower_clean (n : Nat) : Char.ofNat 27 ∉ hexLower n := digitsAux_clean _ _ _
theorem zeroPad_clean {w : Nat} {s : Str} (h : Char.ofNat 27 ∉ s) : Char.ofNat 27 ∉ zeroPad w s := clean_append (clean_replicate (by decide)) h
theorem padLeft_clean {w : Nat} {s : Str} (h : Char.ofNat 27 ∉ s) : Char.ofNat 27 ∉ padLeft w s := clean_append (clean_replicate (by decide)) h

theorem findStr_spec {p s : Str} {n : Nat} (h : findStr p s = some n) :
    ∃ a b, s = a ++ p ++ b ∧ n = byteLen a ∧ ∀ a' b', s = a' ++ p ++ b' → a.length ≤ a'.length := by
  induction s generalizing n with
  | nil =>
    unfold findStr at h
    split at h
    · rename_i hp
      rw [isPrefixOf_iff', List.prefix_nil] at hp
      subst hp; cases h
      exact ⟨[], [], rfl, rfl, fun _ _ _ => Nat.zero_le _⟩
    · cases h
  | cons c s ih =>
    unfold findStr at h
    split at h
    · rename_i hp
      rw [isPrefixOf_iff'] at hp
      obtain ⟨b, hb⟩ := hp
      cases h
      exact ⟨[], b, hb.symm, rfl, fun _ _ _ => Nat.zero_le _⟩
    · rename_i hp
      rw [Option.map_eq_some_iff] at h
      obtain ⟨k, hk, rfl⟩ := h
      obtain ⟨a, b, h1, h2, h3⟩ := ih hk
      refine ⟨c :: a, b, by rw [h1]; rfl, by rw [h2]; rfl, ?_⟩
      intro a' b' e
      cases a' with
      | nil => exact absurd (isPrefixOf_iff' _ _ |>.2 ⟨b', e.symm⟩) hp
      | cons d a' =>
        rw [List.cons_append, List.cons_append] at e
        cases e
        exact Nat.succ_le_succ (h3 a' b' rfl)

/-- The marker of `fmtLine`. -/
def markOf (b : Bool) : Char := if b then '-' else '^'

/-- The visible part of `fmtLine`. -/
theorem fmtLine_visible {n : Nat} {content : Str} {m : Nat} {b : Bool} {msg : Str} {f : Bool} {u t : Str}
    (h : fmtLine n content m b msg f u = some t) (hc : Char.ofNat 27 ∉ content) (hm : Char.ofNat 27 ∉ msg) :
    ∃ a r, content = a ++ u ++ r ∧ (∀ a' b', content = a' ++ u ++ b' → a.length ≤ a'.length) ∧
      ∀ s, visibleFrom false (t ++ s) = (if f then List.replicate m ' ' ++ c!" |\n" else []) ++
        (padLeft m (decimal n) ++ c!" | " ++ content) ++ '\n' ::
        (List.replicate m ' ' ++ c!" | " ++ List.replicate (byteLen a) ' ' ++ List.replicate (byteLen u) (markOf b) ++ ' ' :: msg) ++ '\n' ::
        (List.replicate m ' ' ++ c!" |" ++ visibleFrom false s) := by
  unfold fmtLine at h
  split at h
  · cases h
  · rename_i k hk
    obtain ⟨a, r, h1, rfl, h3⟩ := findStr_spec hk
    refine ⟨a, r, h1, h3, ?_⟩
    intro s
    simp only [Option.some.injEq] at h
    subst h
    have hp : padLeft m [] = List.replicate m ' ' := by simp [padLeft]
    rw [hp]
    have c1 : ∀ k, Char.ofNat 27 ∉ List.replicate k ' ' := fun k => clean_replicate (by decide)
    have c2 : ∀ k, Char.ofNat 27 ∉ List.replicate k '-' := fun k => clean_replicate (by decide)
    have c3 : ∀ k, Char.ofNat 27 ∉ List.replicate k '^' := fun k => clean_replicate (by decide)
    have c4 : Char.ofNat 27 ∉ c!" |" := by decide
    have c5 : Char.ofNat 27 ∉ c!" | " := by decide
    have c6 : Char.ofNat 27 ∉ c!" " := by decide
    have c7 : Char.ofNat 27 ∉ ['\n'] := by decide
    cases f <;> cases b <;>
      simp only [Bool.false_eq_true, if_false, if_true, markOf, List.append_assoc, List.nil_append, visible_blue, visible_red, visible_reset,
        visibleFrom_clean (c1 _), visibleFrom_clean (c2 _), visibleFrom_clean (c3 _), visibleFrom_clean c4, visibleFrom_clean c5,
        visibleFrom_clean c6, visibleFrom_clean c7, visibleFrom_clean hc, visibleFrom_clean hm,
        visibleFrom_clean (padLeft_clean (decimal_clean n))] <;> simp

/-- A block with a wide enough margin marks the text. -/
theorem block_marked {n : Nat} {content : Str} {m : Nat} {b : Bool} {msg : Str} {f : Bool} {u t : Str}
    (h : fmtLine n content m b msg f u = some t) (hc : Simple content) (hm : Char.ofNat 27 ∉ msg) (hw : marginOf n ≤ m) (pre s : Str) :
    Marked (pre ++ '\n' :: visibleFrom false (t ++ s)) ⟨n, content⟩ u (markOf b) msg := by
  obtain ⟨a, r, h1, h2, h3⟩ := fmtLine_visible h (fun e => (hc _ e).2 rfl) hm
  have ha : byteLen a = a.length := byteLen_ascii _ fun c hx => (hc c (by rw [h1]; simp [hx])).1
  have hu : byteLen u = u.length := byteLen_ascii _ fun c hx => (hc c (by rw [h1]; simp [hx])).1
  refine ⟨pre ++ if f then '\n' :: List.replicate m ' ' ++ c!" |" else [], List.replicate m ' ' ++ c!" |" ++ visibleFrom false s, a, r,
    padLeft m (decimal n), List.replicate m ' ', ?_, h1, h2, ⟨_, rfl⟩, fun c hx => (List.mem_replicate.1 hx).2, ?_⟩
  · rw [h3 s, ha, hu]
    cases f <;> simp
  · unfold marginOf at hw
    simp only [padLeft, List.length_append, List.length_replicate]
    omega

theorem visible_headed {hd : Str} {body : Option Str} {s : Str} (h : headed hd body = some s) :
    ∃ t, body = some t ∧ s = hd ++ '\n' :: (t ++ ['\n']) := by
  unfold headed at h
  rw [Option.map_eq_some_iff] at h
  obtain ⟨t, ht, rfl⟩ := h
  exact ⟨t, ht, by simp⟩

theorem visible_headed2 {hd : Str} {x y : Option Str} {s : Str} (h : headed2 hd x y = some s) :
    ∃ t u, x = some t ∧ y = some u ∧ s = hd ++ '\n' :: (t ++ '\n' :: (blue ++ (c!"..." ++ (reset ++ ('\n' :: (u ++ ['\n'])))))) := by
  unfold headed2 at h
  split at h
  · rename_i t u
    simp only [Option.some.injEq] at h
    exact ⟨t, u, rfl, rfl, by rw [← h]; simp⟩
  · cases h

theorem visible_nl (s : Str) : visibleFrom false ('\n' :: s) = '\n' :: visibleFrom false s := by
  rw [visibleFrom, if_neg (by decide)]

/-- A diagnostic with one block. -/
theorem one_marked {hd l u msg s : Str} {n : Nat} {b f : Bool} {content : Str} (hl : ∀ x, visibleFrom false (hd ++ x) = l ++ visibleFrom false x)
    (h : headed hd (fmtLine n content (marginOf n) b msg f u) = some s) (hc : Simple content) (hm : Char.ofNat 27 ∉ msg) :
    l ++ ['\n'] <+: visible s ∧ Marked (visible s) ⟨n, content⟩ u (markOf b) msg := by
  obtain ⟨t, h1, rfl⟩ := visible_headed h
  unfold visible
  rw [hl, visible_nl]
  exact ⟨⟨_, by rw [List.append_assoc]; rfl⟩, block_marked h1 hc hm (Nat.le_refl _) l _⟩

/-- A diagnostic with two blocks. -/
theorem two_marked {hd l u u' msg msg' s : Str} {n n' m : Nat} {b b' f f' : Bool} {content content' : Str}
    (hl : ∀ x, visibleFrom false (hd ++ x) = l ++ visibleFrom false x)
    (h : headed2 hd (fmtLine n content m b msg f u) (fmtLine n' content' m b' msg' f' u') = some s) (hc : Simple content) (hc' : Simple content')
    (hm : Char.ofNat 27 ∉ msg) (hm' : Char.ofNat 27 ∉ msg') :
    l ++ ['\n'] <+: visible s ∧ (marginOf n ≤ m → Marked (visible s) ⟨n, content⟩ u (markOf b) msg) ∧
      (marginOf n' ≤ m → Marked (visible s) ⟨n', content'⟩ u' (markOf b') msg') := by
  obtain ⟨t, t', h1, h2, rfl⟩ := visible_headed2 h
  unfold visible
  rw [hl, visible_nl]
  refine ⟨⟨_, by rw [List.append_assoc]; rfl⟩, fun hw => block_marked h1 hc hm hw l _, fun hw => ?_⟩
  obtain ⟨a, r, _, _, h3⟩ := fmtLine_visible h1 (fun e => (hc _ e).2 rfl) hm
  rw [h3, visible_nl, visible_blue, visibleFrom_clean (by decide), visible_reset, visible_nl]
  have key := block_marked h2 hc' hm' hw (l ++ '\n' :: ((if f then List.replicate m ' ' ++ c!" |\n" else []) ++
        (padLeft m (decimal n) ++ c!" | " ++ content) ++ '\n' ::
        (List.replicate m ' ' ++ c!" | " ++ List.replicate (byteLen a) ' ' ++ List.replicate (byteLen u) (markOf b) ++ ' ' :: msg) ++ '\n' ::
        (List.replicate m ' ' ++ c!" |" ++ ('\n' :: c!"...")))) ['\n']
  have e : ∀ X : Str, (l ++ '\n' :: ((if f then List.replicate m ' ' ++ c!" |\n" else []) ++
        (padLeft m (decimal n) ++ c!" | " ++ content) ++ '\n' ::
        (List.replicate m ' ' ++ c!" | " ++ List.replicate (byteLen a) ' ' ++ List.replicate (byteLen u) (markOf b) ++ ' ' :: msg) ++ '\n' ::
        (List.replicate m ' ' ++ c!" |" ++ ('\n' :: c!"...")))) ++ '\n' :: X =
      l ++ '\n' :: ((if f then List.replicate m ' ' ++ c!" |\n" else []) ++
        (padLeft m (decimal n) ++ c!" | " ++ content) ++ '\n' ::
        (List.replicate m ' ' ++ c!" | " ++ List.replicate (byteLen a) ' ' ++ List.replicate (byteLen u) (markOf b) ++ ' ' :: msg) ++ '\n' ::
        (List.replicate m ' ' ++ c!" |" ++ ('\n' :: (c!"..." ++ '\n' :: X)))) := by
    intro X; simp
  rw [e] at key
  exact key

theorem visible_err {hd : Str} (h : Char.ofNat 27 ∉ hd) (x : Str) : visibleFrom false ((errHead ++ hd) ++ x) = (c!"error" ++ hd) ++ visibleFrom false x := by
  unfold errHead
  simp only [List.append_assoc]
  rw [visible_red, visibleFrom_clean (by decide), visible_reset, visibleFrom_clean h]

theorem clean_infix {u s : Str} (h : u <:+: s) (hs : Simple s) : Char.ofNat 27 ∉ u := fun e => (hs _ (h.subset e)).2 rfl

theorem clean_quote {a u b : Str} (ha : Char.ofNat 27 ∉ a) (hu : Char.ofNat 27 ∉ u) (hb : Char.ofNat 27 ∉ b) : Char.ofNat 27 ∉ a ++ u ++ b :=
  clean_append (clean_append ha hu) hb

/-- **C53**, errors.  A displayed error starts with its headline; each place it is about is quoted behind its line number, and the row
below marks exactly the text that is wrong (its first occurrence in the line), followed by the note.  The quoted lines are ASCII. -/
theorem C53_error (e : ParserError) (s : Str) (h : e.display = some s) (ha : ∀ m ∈ marks e, Simple m.2.content) :
    headline e ++ ['\n'] <+: visible s ∧ (marks e).length = (notes e).length ∧
      ∀ p ∈ (marks e).zip (notes e), Marked (visible s) p.1.2 p.1.1 p.2.1 p.2.2 := by
  have hi := (C28_exact e).1 ⟨s, h⟩
  have one : ∀ (l : Line) (hd u msg : Str), errLine l hd msg u = some s → Simple l.content → Char.ofNat 27 ∉ hd → Char.ofNat 27 ∉ msg →
      (c!"error" ++ hd) ++ ['\n'] <+: visible s ∧ Marked (visible s) l u '^' msg := by
    intro l hd u msg h hl h1 h2
    exact one_marked (visible_err h1) h hl h2
  cases e <;> simp only [ParserError.display] at h <;>
    simp only [marks, List.mem_cons, List.not_mem_nil, or_false, forall_eq_or_imp, forall_eq] at hi ha
  case multipleLabelDefinition l x f =>
    have hq : Char.ofNat 27 ∉ c!": label `" ++ x ++ c!"` defined multiple times" := clean_quote (by decide) (clean_infix hi.1 ha.1) (by decide)
    obtain ⟨h1, h2, h3⟩ := two_marked (visible_err hq) h ha.1 ha.2 (by decide) (by decide)
    refine ⟨h1, rfl, ?_⟩
    simp only [marks, notes, List.zip_cons_cons, List.zip_nil_left, List.mem_cons, List.not_mem_nil, or_false, forall_eq_or_imp, forall_eq]
    exact ⟨h2 (Nat.le_max_right _ _), h3 (Nat.le_max_left _ _)⟩
  all_goals
    have k := one _ _ _ _ h ha
    have hq := clean_infix (List.infix_refl _) ha
    have hu := clean_infix hi ha
    have k := k (clean_quote (by decide) (by first | exact hu | exact hq) (by decide))
    have k := k (by
      first
        | decide
        | exact clean_append (clean_quote (by decide) (decimal_clean _) (by decide)) (decimal_clean _)
        | exact clean_append (clean_quote (by decide) (zeroPad_clean (hexLower_clean _)) (by decide)) (zeroPad_clean (hexLower_clean _)))
    refine ⟨k.1, rfl, ?_⟩
    simp only [marks, notes, List.zip_cons_cons, List.zip_nil_left, List.mem_cons, List.not_mem_nil, or_false, forall_eq]
    exact k.2

/-- **C53**, warnings: the same, except that in a delay-slot warning the markers of the instruction stand below it only if its line
number has as many digits as the number of the line before. -/
theorem C53_warning_partial (w : ParserWarning) (s : Str) (h : w.display = some s) (ha : ∀ m ∈ warnMarks w, Simple m.2.1.content)
    (hd : ∀ l d, w = .invalidInstructionInDelaySlot l d → (decimal d.num).length ≤ (decimal l.num).length) :
    warnHeadline w ++ ['\n'] <+: visible s ∧ ∀ p ∈ warnMarks w, Marked (visible s) p.2.1 p.1 p.2.2.1 p.2.2.2 := by
  cases w <;> simp only [ParserWarning.display] at h <;>
    simp only [warnMarks, List.mem_cons, List.not_mem_nil, or_false, forall_eq_or_imp, forall_eq] at ha ⊢
  case invalidInstructionInDelaySlot l d =>
    have hq : Char.ofNat 27 ∉ warnHeadline (.invalidInstructionInDelaySlot l d) := clean_quote (by decide) (clean_infix (trim_infix _) ha.1) (by decide)
    obtain ⟨h1, h2, h3⟩ := two_marked (visibleFrom_clean hq) h ha.1 ha.2 (by decide) (by decide)
    exact ⟨h1, h2 (hd _ _ rfl), h3 (Nat.le_refl _)⟩
  case unalignedBranch l o =>
    have ho : o <:+: l.content := by
      have := Option.isSome_of_eq_some h
      rw [headed_isSome, fmtLine_isSome] at this; exact this
    have hq : Char.ofNat 27 ∉ warnHeadline (.unalignedBranch l o) := clean_quote (by decide) (clean_infix ho ha) (by decide)
    exact one_marked (visibleFrom_clean hq) h ha (by decide)
  case unalignedJump l o =>
    have ho : o <:+: l.content := by
      have := Option.isSome_of_eq_some h
      rw [headed_isSome, fmtLine_isSome] at this; exact this
    have hq : Char.ofNat 27 ∉ warnHeadline (.unalignedJump l o) := clean_quote (by decide) (clean_infix ho ha) (by decide)
    exact one_marked (visibleFrom_clean hq) h ha (by decide)

/-- Non-vacuity: a real error message. -/
example : (@assemble asciiUnicode (idRt true) Mipsasm.new c!"nop\n  addi $t0, $xyz, 5 ; no such register").errors =
      some [.invalidRegister ⟨2, c!"  addi $t0, $xyz, 5 ; no such register"⟩ c!" $xyz"] ∧
    (∀ m ∈ marks (.invalidRegister ⟨2, c!"  addi $t0, $xyz, 5 ; no such register"⟩ c!" $xyz"), Simple m.2.content) ∧
    (ParserError.invalidRegister ⟨2, c!"  addi $t0, $xyz, 5 ; no such register"⟩ c!" $xyz").display.map visible =
      some c!"error: invalid register ` $xyz`\n  |\n2 |   addi $t0, $xyz, 5 ; no such register\n  |            ^^^^^ \n  |\n" := by
  refine ⟨by decide +kernel, ?_, by decide +kernel⟩
  intro m hm
  simp only [marks, List.mem_singleton] at hm
  subst hm
  unfold Simple
  decide +kernel

/-- Non-vacuity: a real warning. -/
example : (@assemble asciiUnicode (idRt true) Mipsasm.new c!"nop\nj 0\njr $ra\nnop").warnings =
      some [.invalidInstructionInDelaySlot ⟨2, c!"j 0"⟩ ⟨3, c!"jr $ra"⟩] ∧
    (∀ m ∈ warnMarks (.invalidInstructionInDelaySlot ⟨2, c!"j 0"⟩ ⟨3, c!"jr $ra"⟩), Simple m.2.1.content) ∧
    (decimal 3).length ≤ (decimal 2).length ∧
    (ParserWarning.invalidInstructionInDelaySlot ⟨2, c!"j 0"⟩ ⟨3, c!"jr $ra"⟩).display.map visible =
      some (c!"warning: instruction `jr $ra` cannot be in a delay slot\n  |\n3 | jr $ra\n  | ^^^^^^ this instruction cannot be in a delay slot\n" ++
        c!"  |\n...\n2 | j 0\n  | --- delay slot occurs after this instruction\n  |\n") := by
  refine ⟨by decide +kernel, ?_, by decide, by decide +kernel⟩
  intro m hm
  simp only [warnMarks, List.mem_cons, List.not_mem_nil, or_false] at hm
  unfold Simple
  rcases hm with rfl | rfl <;> decide +kernel

theorem not_infix {p s : Str} (h : findStr p s = none) : ¬ p <:+: s := by
  rw [← findStr_isSome, h]; simp

/-- In a text that is marked, the character in front of the markers is a blank, and a blank follows them. -/
theorem marked_infix {shown : Str} {l : Line} {u : Str} {mark : Char} {note : Str} (h : Marked shown l u mark note) :
    ' ' :: (List.replicate u.length mark ++ [' ']) <:+: shown ∧
      decimal l.num ++ c!" | " ++ l.content ++ '\n' :: List.replicate ((decimal l.num).length + 1) ' ' <:+: shown := by
  obtain ⟨pre, post, a, b, number, gutter, h1, h2, h3, ⟨k, rfl⟩, h5, h6⟩ := h
  have hg : gutter = List.replicate k ' ' ++ List.replicate (decimal l.num).length ' ' := by
    rw [List.replicate_append_replicate, List.eq_replicate_iff]
    exact ⟨by simp [h6], h5⟩
  constructor
  · have e : ∃ p, c!" | " ++ List.replicate a.length ' ' = p ++ [' '] := by
      cases a.length with
      | zero => exact ⟨c!" |", rfl⟩
      | succ n => exact ⟨c!" | " ++ List.replicate n ' ', by rw [List.replicate_succ', List.append_assoc]⟩
    obtain ⟨p, hp⟩ := e
    refine ⟨pre ++ '\n' :: (List.replicate k ' ' ++ decimal l.num ++ c!" | " ++ l.content) ++ '\n' :: (gutter ++ p), note ++ '\n' :: post, ?_⟩
    rw [h1]
    have : gutter ++ c!" | " ++ List.replicate a.length ' ' = gutter ++ (p ++ [' ']) := by rw [List.append_assoc, hp]
    rw [this]
    simp
  · have e : gutter ++ c!" | " = List.replicate ((decimal l.num).length + 1) ' ' ++ (List.replicate k ' ' ++ c!"| ") := by
      rw [hg, List.replicate_append_replicate, ← List.append_assoc, List.replicate_append_replicate,
        show (decimal l.num).length + 1 + k = k + (decimal l.num).length + 1 by omega, List.replicate_succ', List.append_assoc]
      rfl
    refine ⟨pre ++ '\n' :: List.replicate k ' ', List.replicate k ' ' ++ c!"| " ++ List.replicate a.length ' ' ++ List.replicate u.length mark ++ ' ' :: note ++ '\n' :: post, ?_⟩
    rw [h1, e]
    simp

/-- **C53** is false of a delay-slot warning for lines 9 and 10, whose markers are one column off, and of text that is not ASCII, which
is marked by its length in bytes. -/
theorem C53_wrong :
    (∃ w s, (@assemble asciiUnicode (idRt true) Mipsasm.new c!"\n\n\n\n\n\n\n\nj 0\njr $ra\nnop").warnings = some [w] ∧ w.display = some s ∧
      (∀ m ∈ warnMarks w, Simple m.2.1.content) ∧ ∃ p ∈ warnMarks w, ¬ Marked (visible s) p.2.1 p.1 p.2.2.1 p.2.2.2) ∧
    (∃ e s, (@assemble asciiUnicode (idRt true) Mipsasm.new c!"addi $t0, $é, 5").errors = some [e] ∧ e.display = some s ∧
      ∃ p ∈ (marks e).zip (notes e), ¬ Marked (visible s) p.1.2 p.1.1 p.2.1 p.2.2) := by
  refine ⟨⟨.invalidInstructionInDelaySlot ⟨9, c!"j 0"⟩ ⟨10, c!"jr $ra"⟩, _, by decide +kernel, rfl, ?_, (c!"jr $ra", ⟨10, c!"jr $ra"⟩, '^', c!"this instruction cannot be in a delay slot"), by decide +kernel, ?_⟩,
    ⟨.invalidRegister ⟨1, c!"addi $t0, $é, 5"⟩ c!" $é", _, by decide +kernel, rfl, ((c!" $é", ⟨1, c!"addi $t0, $é, 5"⟩), ('^', [])), by decide +kernel, ?_⟩⟩
  · intro m hm
    simp only [warnMarks, List.mem_cons, List.not_mem_nil, or_false] at hm
    unfold Simple
    rcases hm with rfl | rfl <;> decide +kernel
  · intro h
    exact not_infix (by decide +kernel) (marked_infix h).2
  · intro h
    exact not_infix (by decide +kernel) (marked_infix h).1

end Mips
