/-
**C46** — a printed listing can be read line by line whenever no name of a symbol contains a line end.
-/
import Verif.Props.MainP
import Verif.Props.ListingP
import Verif.Props.ShowP

namespace Mips
open Isa Syntax Listing

/-- A text of one line. -/
def OneLine (s : Str) : Prop := '\n' ∉ s ∧ '\r' ∉ s
instance (s : Str) : Decidable (OneLine s) := inferInstanceAs (Decidable (_ ∧ _))

theorem OneLine.append {s t : Str} (h : OneLine s) (h' : OneLine t) : OneLine (s ++ t) := by
  refine ⟨fun hc => ?_, fun hc => ?_⟩ <;> rcases List.mem_append.1 hc with hc | hc
  · exact h.1 hc
  · exact h'.1 hc
  · exact h.2 hc
  · exact h'.2 hc

theorem oneLine_noWs {s : Str} (h : NoWs s) : OneLine s :=
  ⟨fun hc => by have := h _ hc; revert this; decide, fun hc => by have := h _ hc; revert this; decide⟩

theorem oneLine_inter : ∀ (l : List Str), (∀ t ∈ l, OneLine t) → OneLine (c!", ".intercalate l)
  | [], _ => by decide
  | [a], h => by simpa [List.intercalate] using h a (by simp)
  | a :: b :: l, h => by
    have e : c!", ".intercalate (a :: b :: l) = a ++ c!", " ++ c!", ".intercalate (b :: l) := by
      simp [List.intercalate, List.intersperse]
    rw [e]
    exact ((h a (by simp)).append (by decide)).append (oneLine_inter (b :: l) fun t ht => h t (by simp [ht]))

theorem oneLine_off (v : BitVec 16) : OneLine (offText v) := by
  unfold offText
  split
  · decide
  · exact oneLine_noWs (intText_noWs _)

theorem oneLine_arg {sym : BitVec 32 → Option Str} (hs : ∀ a n, sym a = some n → OneLine n) (base : Word) (a : Arg) : OneLine (argCol sym base a) := by
  cases a with
  | gpr r => exact oneLine_noWs (gprText_noWs r)
  | fpr r => exact oneLine_noWs (fprText_noWs r)
  | c0 r =>
    have : ∀ r : BitVec 5, ∀ c ∈ (c0Names.lookup r.toNat).getD [], isWs c = false := by decide
    exact oneLine_noWs (this r)
  | sa v => exact oneLine_noWs (hexText_noWs _)
  | simm v => exact oneLine_off v
  | uimm v => exact oneLine_noWs (hexText_noWs _)
  | off v => exact oneLine_off v
  | mem v b => exact (((oneLine_off v).append (by decide)).append (oneLine_noWs (gprText_noWs b))).append (by decide)
  | cop v => exact oneLine_noWs (hexText_noWs _)
  | code v => exact oneLine_noWs (hexText_noWs _)
  | target t =>
    show OneLine (match sym (jumpAddr base t) with | some name => name | none => hexTextU (jumpAddr base t).toNat)
    cases h : sym (jumpAddr base t) with
    | none => exact oneLine_noWs (hexTextU_noWs _)
    | some n => exact hs _ _ h

theorem table_oneLine : ∀ r ∈ table, OneLine r.mn ∧ OneLine (gap r.mn) := by unfold OneLine; decide +kernel

theorem oneLine_word (w : Word) : OneLine (colWord w) :=
  (OneLine.append (by decide) (by decide)).append (oneLine_noWs (hex8_noWs w))

theorem oneLine_col {sym : BitVec 32 → Option Str} (hs : ∀ a n, sym a = some n → OneLine n) (base w : Word) : OneLine (colText sym base w) := by
  have hinst : ∀ mn args, decoding w = some (mn, args) → OneLine (colInst sym base mn args) := by
    intro mn args hd
    obtain ⟨r, h1, rfl, _⟩ := decoding_row hd
    obtain ⟨h2, h3⟩ := table_oneLine r h1
    unfold colInst
    split
    · exact h2
    · refine (h2.append h3).append (oneLine_inter _ fun t ht => ?_)
      obtain ⟨a, _, rfl⟩ := List.mem_map.1 ht
      exact oneLine_arg hs base a
  unfold colText
  cases hd : decoding w with
  | none =>
    dsimp only
    split
    · split
      · rename_i mn n hf
        have hm := List.mem_of_find?_eq_some hf
        have : ∀ e ∈ cp0Map, OneLine e.1 := by unfold OneLine; decide
        exact this _ hm
      · exact oneLine_word w
    · exact oneLine_word w
  | some p =>
    obtain ⟨mn, args⟩ := p
    dsimp only
    split
    · rename_i r hc
      split
      · exact hinst _ _ hd
      · obtain ⟨r', h1, rfl, _⟩ := decoding_row hd
        obtain ⟨h2, h3⟩ := table_oneLine r' h1
        have hdig : ∀ r : BitVec 5, OneLine [Nat.digitChar (r.toNat / 16), Nat.digitChar (r.toNat % 16)] := by unfold OneLine; decide
        exact ((((((oneLine_word w).append (by decide)).append h2).append h3).append (oneLine_noWs (gprText_noWs _))).append (by decide)).append (hdig r)
    · exact hinst _ _ hd

theorem oneLine_label {sym : BitVec 32 → Option Str} (hs : ∀ a n, sym a = some n → OneLine n) (a : Word) : OneLine (labelText sym a) := by
  unfold labelText
  refine OneLine.append ?_ (by decide)
  cases h : sym a with
  | some n => exact hs _ _ h
  | none =>
    refine OneLine.append (by decide) (oneLine_noWs fun c hc => hex8_noWs a c (List.mem_of_mem_drop hc))

theorem oneLine_render {label : Nat → Str} {brk : Nat → Bool} (hl : ∀ k, OneLine (label k)) : ∀ (ts : List Str) (i : Nat), (∀ t ∈ ts, OneLine t) →
    ∀ t ∈ render label brk i ts, OneLine t
  | [], _, _, t, h => by simp [render] at h
  | a :: ts, i, ha, t, h => by
    simp only [render, List.mem_cons, List.mem_append] at h
    rcases h with rfl | h | h
    · exact ha _ (by simp)
    · split at h
      · simp only [List.mem_cons, List.not_mem_nil, or_false] at h
        rcases h with rfl | rfl
        · decide
        · exact hl _
      · simp at h
    · exact oneLine_render hl ts (i + 1) (fun t ht => ha t (by simp [ht])) t h

/-- The lines of a listing have no line ends in them. -/
theorem listing_oneLine (rt : Rt) (m : Mipsasm) (hm : m.debug = false) (hs : ∀ e ∈ m.syms, OneLine e.2) (ws : List Word) (ls : List Str)
    (h : disassemble rt m ws = some ls) : ∀ l ∈ ls, OneLine l := by
  obtain ⟨h1, h2⟩ := C60_listing rt m hm ws
  have hn : ¬ NoListing rt.ovf (fun a => m.syms.lookup a) m.base ws := fun hn => by rw [h1.2 hn] at h; cases h
  rw [h2 hn] at h
  cases h
  have hsym : ∀ a n, m.syms.lookup a = some n → OneLine n := fun a n ha => hs _ (lookup_snd ha)
  intro l hl
  unfold listing at hl
  rcases List.mem_cons.1 hl with rfl | hl
  · exact oneLine_label hsym _
  · refine oneLine_render (fun k => oneLine_label hsym _) _ _ ?_ l hl
    intro t ht
    obtain ⟨w, _, rfl⟩ := List.mem_map.1 ht
    exact oneLine_col hsym _ _

/-- **C46**, for all words: unless a symbol's name contains a line end, what `disasm` prints without `-o`, read line by line, is the listing. -/
theorem C46_printed [Unicode] (rt : Rt) (a : Cli.Args) (bytes : List (BitVec 8)) (hj : a.job = .disasm bytes) (hf : a.toFile = false) (addr : Word)
    (hb : Cli.parseBase a.base = some addr) (ws : List Word) (hw : Stored ws bytes) (h0 : bytes ≠ []) (ls : List Str)
    (h : disassemble rt (Cli.instance a addr) ws = some ls) (hs : ∀ e ∈ (Cli.instance a addr).syms, OneLine e.2) :
    ∃ out, Cli.main rt a = .exit 0 out [] none ∧ lines out = ls :=
  C46_stdout rt a bytes hj hf addr hb ws hw h0 ls h (listing_oneLine rt _ rfl hs ws ls h)

/-- The hypotheses are met by a file of two words, with a symbol. -/
example : Stored [0x03e00008#32, 0#32] [3, 0xe0, 0, 8, 0, 0, 0, 0] ∧ Cli.parseBase c!"0x80000000" = some 0x80000000#32 ∧
    (∃ ls, disassemble (idRt true) (Cli.instance ⟨.disasm [3, 0xe0, 0, 8, 0, 0, 0, 0], false, some [(.int 0x80000000, .str c!"main")], c!"0x80000000"⟩ 0x80000000#32)
      [0x03e00008#32, 0#32] = some ls ∧ ls.length = 3) ∧
    ∀ e ∈ (Cli.instance ⟨.disasm [3, 0xe0, 0, 8, 0, 0, 0, 0], false, some [(.int 0x80000000, .str c!"main")], c!"0x80000000"⟩ 0x80000000#32).syms, OneLine e.2 :=
  ⟨.cons _ _ _ _ _ _ _ (by unfold BigEndian; decide) (.cons _ _ _ _ _ _ _ (by unfold BigEndian; decide) .nil), by decide +kernel,
    ⟨_, rfl, by decide +kernel⟩, by decide +kernel⟩

/-- The condition on the names of symbols is needed: a name with a line feed in it makes two lines of one. -/
theorem C46_names_wrong : ∃ out, @Cli.main asciiUnicode (idRt true) ⟨.disasm [0, 0, 0, 0], false, some [(.int 0, .str c!"a\nb")], c!"0"⟩ =
      .exit 0 out [] none ∧ (lines out).length = 3 ∧
    (disassemble (idRt true) { Mipsasm.new with syms := [(0#32, c!"a\nb")] } [0#32]).map List.length = some 2 :=
  ⟨c!"a\nb:\nsll        $zero, $zero, 0x0\n", by decide +kernel, by decide +kernel, by decide +kernel⟩

end Mips
