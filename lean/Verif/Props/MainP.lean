/- C43-C46: the command-line tool: exit status and streams, printed words, symbol files, listings. -/
import Verif.Model.Main
import Verif.Props.CliP
import Verif.Props.Errors
import Verif.Lemmas.SqL
import Verif.Spec.Report
import Verif.Spec.Main
import Verif.Lemmas.TextL
import Verif.Props.RoundTrip

namespace Mips
open Cli Syntax

/-! ### C43: exit status and streams of `asm` -/

theorem mapM_some_of_all {α β} (f : α → Option β) : ∀ (l : List α), (∀ a ∈ l, (f a).isSome) →
    ∃ r, l.mapM f = some r ∧ r.map some = l.map f
  | [], _ => ⟨[], rfl, rfl⟩
  | a :: l, h => by
    obtain ⟨b, hb⟩ := Option.isSome_iff_exists.1 (h a List.mem_cons_self)
    obtain ⟨r, hr, hm⟩ := mapM_some_of_all f l (fun x hx => h x (List.mem_cons_of_mem _ hx))
    exact ⟨b :: r, by simp [List.mapM_cons, hb, hr], by simp [hb, hm]⟩

theorem assemble_warns_display [Unicode] (rt : Rt) (m : Mipsasm) (text : Str) (ws : List ParserWarning)
    (h : (assemble rt m text).warnings = some ws) : ∀ w ∈ ws, w.display.isSome := by
  unfold assemble at h
  split at h
  · cases h
  · rename_i out _
    split at h
    · rename_i hall
      rw [List.all_eq_true] at hall
      split at h
      · cases h; exact hall
      · split at h
        · cases h
        · cases h; exact hall
    · cases h

/-- The instance the command-line tool works with. -/
def Cli.instance (a : Args) (addr : Word) : Mipsasm := ⟨addr, loadSyms a.syms, false⟩

theorem main_asm [Unicode] (rt : Rt) (a : Args) (data : Str) (hj : a.job = .asm data) (addr : Word) (hb : parseBase a.base = some addr) :
    main rt a = (match assemble rt (Cli.instance a addr) data with
      | .panic => .panic
      | .err es ws =>
        match warnText ws, es.mapM ParserError.display with
        | some wt, some ts => .exit 1 [] (wt ++ linesOut ts) none
        | _, _ => .panic
      | .ok is ws =>
        match warnText ws with
        | none => .panic
        | some wt =>
          if a.toFile then .exit 0 [] wt (some (.bytes (outBytes (getBytes is))))
          else .exit 0 (hexList (getBytes is) ++ c!"\n") wt none) := by
  unfold main
  simp only [hb, hj]
  rfl

/-- C43, a valid program: status 0, only warnings on standard error; the words go to standard output as text, or, with
`-o`, to the file as bytes and nothing to standard output. -/
theorem C43_success [Unicode] (rt : Rt) (a : Args) (data : Str) (hj : a.job = .asm data) (addr : Word) (hb : parseBase a.base = some addr)
    (words : List Word) (warns : List ParserWarning) (h : (assemble rt (Cli.instance a addr) data).words = some words)
    (hw : (assemble rt (Cli.instance a addr) data).warnings = some warns) :
    ∃ texts, texts.map some = warns.map ParserWarning.display ∧
      main rt a = if a.toFile then .exit 0 [] (linesOut texts) (some (.bytes (outBytes words)))
        else .exit 0 (hexList words ++ c!"\n") (linesOut texts) none := by
  obtain ⟨ts, ht, ht'⟩ := mapM_some_of_all ParserWarning.display warns (assemble_warns_display rt _ data warns hw)
  refine ⟨ts, ht', ?_⟩
  rw [main_asm rt a data hj addr hb]
  cases ha : assemble rt (Cli.instance a addr) data with
  | panic => rw [ha] at h; cases h
  | err es ws => rw [ha] at h; cases h
  | ok is ws =>
    rw [ha] at h hw
    cases h; cases hw
    simp only [warnText, ht, Option.map_some]

/-- C43, an invalid program: if every error can be displayed, status 1, nothing on standard output, no output file, and standard
error consists of the warnings and the errors, in order. -/
theorem C43_failure [Unicode] (rt : Rt) (a : Args) (data : Str) (hj : a.job = .asm data) (addr : Word) (hb : parseBase a.base = some addr)
    (errs : List ParserError) (warns : List ParserWarning) (he : assemble rt (Cli.instance a addr) data = .err errs warns)
    (hd : ∀ e ∈ errs, e.display.isSome) :
    ∃ wt et, wt.map some = warns.map ParserWarning.display ∧ et.map some = errs.map ParserError.display ∧
      main rt a = .exit 1 [] (linesOut (wt ++ et)) none := by
  obtain ⟨ts, ht, ht'⟩ := mapM_some_of_all ParserWarning.display warns (assemble_warns_display rt _ data warns (by rw [he]; rfl))
  obtain ⟨es, hes, hes'⟩ := mapM_some_of_all ParserError.display errs hd
  refine ⟨ts, es, ht', hes', ?_⟩
  rw [main_asm rt a data hj addr hb]
  rw [he]
  simp only [warnText, ht, hes, Option.map_some, linesOut, List.flatMap_append]

/-- C43, an invalid base address: status 1, a message naming it, nothing else. -/
theorem C43_base [Unicode] (rt : Rt) (a : Args) (hb : parseBase a.base = none) :
    main rt a = .exit 1 [] (c!"Error: Invalid base address `" ++ a.base ++ c!"`\n") none := by
  unfold main
  simp only [hb]

/-- C43, the status: `asm` exits with 0 exactly for the programs that assemble; it writes the output file or prints words
only then. -/
theorem C43_status [Unicode] (rt : Rt) (a : Args) (data : Str) (hj : a.job = .asm data) (addr : Word) (hb : parseBase a.base = some addr) :
    ((∃ o e f, main rt a = .exit 0 o e f) ↔ (assemble rt (Cli.instance a addr) data).words.isSome) ∧
    (∀ n o e f, main rt a = .exit n o e f → n ≠ 0 → n = 1 ∧ o = [] ∧ f = none ∧ ∃ es ws, assemble rt (Cli.instance a addr) data = .err es ws) := by
  cases ha : assemble rt (Cli.instance a addr) data with
  | panic =>
    have : main rt a = .panic := by rw [main_asm rt a data hj addr hb, ha]
    rw [this]
    refine ⟨⟨?_, ?_⟩, ?_⟩
    · rintro ⟨_, _, _, h⟩; cases h
    · intro h; cases h
    · intro _ _ _ _ h; cases h
  | err es ws =>
    have : main rt a = .panic ∨ ∃ e, main rt a = .exit 1 [] e none := by
      rw [main_asm rt a data hj addr hb, ha]
      dsimp only
      split
      · exact .inr ⟨_, rfl⟩
      · exact .inl rfl
    rcases this with h | ⟨e, h⟩
    · rw [h]
      refine ⟨⟨?_, ?_⟩, ?_⟩
      · rintro ⟨_, _, _, h⟩; cases h
      · intro h; cases h
      · intro _ _ _ _ h; cases h
    · rw [h]
      refine ⟨⟨?_, ?_⟩, ?_⟩
      · rintro ⟨_, _, _, h⟩; cases h
      · intro h; cases h
      · intro _ _ _ _ h _; cases h; exact ⟨rfl, rfl, rfl, es, ws, rfl⟩
  | ok is ws =>
    obtain ⟨ts, _, h⟩ := C43_success rt a data hj addr hb (getBytes is) ws (by rw [ha]; rfl) (by rw [ha]; rfl)
    rw [h]
    refine ⟨⟨fun _ => rfl, fun _ => ?_⟩, ?_⟩
    · split <;> exact ⟨_, _, _, rfl⟩
    · intro n o e f h0 hn
      split at h0 <;> (cases h0; exact absurd rfl hn)

/-- Non-vacuity: a good program printed and written to a file, a bad one, a bad base address. -/
example : @main asciiUnicode (idRt true) ⟨.asm c!"nop\njal f", false, some [(.int 0x40, .str c!"f")], c!"0x80000000"⟩ =
    .exit 0 c!"[00000000, 0C000010]\n" [] none := by decide +kernel
example : @main asciiUnicode (idRt true) ⟨.asm c!"nop\njal f", true, some [(.int 0x40, .str c!"f")], c!"0x80000000"⟩ =
    .exit 0 [] [] (some (.bytes [0, 0, 0, 0, 0x0c, 0, 0, 0x10])) := by decide +kernel
example : ∃ e, @main asciiUnicode (idRt true) ⟨.asm c!"nop\nadd $a0, $a1", true, none, c!"0x80000000"⟩ = .exit 1 [] e none ∧
    e ≠ [] := ⟨_, rfl, by decide +kernel⟩
example : @main asciiUnicode (idRt true) ⟨.asm c!"nop", true, none, c!"80g"⟩ =
    .exit 1 [] c!"Error: Invalid base address `80g`\n" none := by decide +kernel

/-- C43: the premise of `C43_failure` is needed: an error that cannot be displayed makes the tool panic. -/
theorem C43_undisplayable : (@assemble asciiUnicode (idRt true) Mipsasm.new c!"addi $a0, $a0, -0x9000").errors.isSome ∧
    @main asciiUnicode (idRt true) ⟨.asm c!"addi $a0, $a0, -0x9000", true, none, c!"0"⟩ = .panic := by decide +kernel

/-! ### C44: the printed words -/

theorem zeroPad_map (k : Nat) (s : Str) : zeroPad k (s.map Char.toUpper) = (zeroPad k s).map Char.toUpper := by
  unfold zeroPad
  rw [List.map_append, List.length_map, List.map_replicate]
  rfl

theorem fixedHex_len (k n : Nat) : (fixedHex k n).length = k := by
  induction k generalizing n with
  | zero => rfl
  | succ k ih => simp [fixedHex, ih]

theorem fixedHex_upper (k n : Nat) : ∀ c ∈ (fixedHex k n).map Char.toUpper, c ∈ c!"0123456789ABCDEF" := by
  induction k generalizing n with
  | zero => intro c h; cases h
  | succ k ih =>
    intro c h
    rw [fixedHex, List.map_append, List.mem_append] at h
    rcases h with h | h
    · exact ih _ c h
    · have key : ∀ j : Fin 16, (Nat.digitChar j.val).toUpper ∈ c!"0123456789ABCDEF" := by decide +kernel
      simp only [List.map_cons, List.map_nil, List.mem_singleton] at h
      rw [h]; exact key ⟨n % 16, Nat.mod_lt _ (by omega)⟩

theorem fixedHex_digits (k n : Nat) (h : n < 16 ^ (k + 1)) : Digits hexDigits ((fixedHex (k + 1) n).map Char.toUpper) n := by
  induction k generalizing n with
  | zero =>
    have hn : n < 16 := by simpa using h
    have := (hexDigits_char ⟨n, hn⟩).2
    simp only [fixedHex, List.nil_append, List.map_cons, List.map_nil, Nat.mod_eq_of_lt hn]
    exact .one _ _ this
  | succ k ih =>
    have h1 := ih (n / 16) (by rw [Nat.pow_succ] at h; omega)
    have h2 := (hexDigits_char ⟨n % 16, Nat.mod_lt _ (by omega)⟩).2
    have := Digits.snoc _ _ _ _ h1 h2
    rw [fixedHex, List.map_append]
    have e : n / 16 * hexDigits.length + n % 16 = n := by
      have : hexDigits.length = 16 := rfl
      rw [this]; omega
    rw [e] at this
    exact this

theorem hex8_word (w : Word) : Hex8 (zeroPad 8 (hexUpper w.toNat)) w := by
  have hw : w.toNat < 16 ^ 8 := by have := w.isLt; omega
  rw [hexUpper_eq, zeroPad_map, ← hexLower_eq, zeroPad_hex 8 _ hw (by omega)]
  exact ⟨by simp [fixedHex_len], fixedHex_upper _ _, fixedHex_digits 7 _ hw⟩

theorem hexWords_inter : ∀ ws : List Word, HexWords (List.intercalate c!", " (ws.map fun w => zeroPad 8 (hexUpper w.toNat))) ws
  | [] => .nil
  | [w] => by
    have : List.intercalate c!", " ([w].map fun w => zeroPad 8 (hexUpper w.toNat)) = zeroPad 8 (hexUpper w.toNat) := by
      simp [List.intercalate]
    rw [this]; exact .one _ _ (hex8_word w)
  | w :: v :: ws => by
    have ih := hexWords_inter (v :: ws)
    have : List.intercalate c!", " ((w :: v :: ws).map fun w => zeroPad 8 (hexUpper w.toNat)) =
        zeroPad 8 (hexUpper w.toNat) ++ c!", " ++ List.intercalate c!", " ((v :: ws).map fun w => zeroPad 8 (hexUpper w.toNat)) := by
      simp [List.intercalate]
    rw [this]; exact .cons _ _ _ _ _ (hex8_word w) ih

theorem hex8_inj {s : Str} {w v : Word} (h : Hex8 s w) (h' : Hex8 s v) : w = v := by
  have h1 := parseDigits_hex h.2.2
  rw [parseDigits_hex h'.2.2] at h1
  exact BitVec.eq_of_toNat_eq (by simpa using h1.symm)

theorem hexWords_inj {s : Str} {ws vs : List Word} (h : HexWords s ws) (h' : HexWords s vs) : ws = vs := by
  induction h generalizing vs with
  | nil =>
    generalize hs : ([] : Str) = t at h'
    cases h' with
    | nil => rfl
    | one _ w h8 => have := h8.1; rw [← hs] at this; simp at this
    | cons s' t' w' v' ws' h9 _ => simp at hs
  | one s w h8 =>
    generalize hs : s = t at h'
    cases h' with
    | nil => have := h8.1; rw [hs] at this; simp at this
    | one _ v h9 => rw [hs] at h8; rw [hex8_inj h8 h9]
    | cons s' t' w' v' ws' h9 _ =>
      have := congrArg List.length hs
      simp only [h8.1, List.length_append, h9.1, List.length_cons] at this
      omega
  | cons s t w v ws h8 _ ih =>
    generalize hs : s ++ c!", " ++ t = u at h'
    cases h' with
    | nil => simp at hs
    | one _ x h9 =>
      have := congrArg List.length hs
      simp only [h8.1, List.length_append, h9.1, List.length_cons] at this
      omega
    | cons s' t' w' v' ws' h9 ht =>
      rw [List.append_assoc, List.append_assoc] at hs
      obtain ⟨e1, e2⟩ := List.append_inj hs (by rw [h8.1, h9.1])
      have e3 := List.append_cancel_left e2
      subst e1; subst e3
      rw [hex8_inj h8 h9, ih ht]

/-- C44: without `-o`, standard output is the bracketed list of the words, eight upper-case digits each. -/
theorem C44_printed [Unicode] (rt : Rt) (a : Args) (data : Str) (hj : a.job = .asm data) (hf : a.toFile = false) (addr : Word)
    (hb : parseBase a.base = some addr) (words : List Word) (h : (assemble rt (Cli.instance a addr) data).words = some words) :
    ∃ out err, main rt a = .exit 0 out err none ∧ PrintedWords out words := by
  cases ha : assemble rt (Cli.instance a addr) data with
  | panic => rw [ha] at h; cases h
  | err es ws => rw [ha] at h; cases h
  | ok is ws =>
    rw [ha] at h
    cases h
    obtain ⟨ts, _, h1⟩ := C43_success rt a data hj addr hb (getBytes is) ws (by rw [ha]; rfl) (by rw [ha]; rfl)
    rw [hf] at h1
    exact ⟨_, _, h1, _, hexWords_inter _, by simp [hexList]⟩

/-- C44: the words can be recovered from the printed text. -/
theorem C44_recover (t : Str) (ws vs : List Word) (h : PrintedWords t ws) (h' : PrintedWords t vs) : ws = vs := by
  obtain ⟨s, h1, h2⟩ := h
  obtain ⟨u, h3, h4⟩ := h'
  rw [h2, List.append_assoc, List.append_assoc] at h4
  have := List.append_cancel_right (List.append_cancel_left h4)
  subst this
  exact hexWords_inj h1 h3

/-! ### C45: symbol files -/

theorem lookup_filter_ne (m : List (Word × Str)) (k a : Word) (h : a ≠ k) :
    (m.filter fun e => !(e.1 == k)).lookup a = m.lookup a := by
  induction m with
  | nil => rfl
  | cons e m ih =>
    obtain ⟨e1, e2⟩ := e
    by_cases he : e1 = k
    · rw [List.filter_cons_of_neg (by simp [he]), ih, List.lookup_cons]
      have : (a == e1) = false := by simp [he, h]
      rw [this]
    · rw [List.filter_cons_of_pos (by simp [he]), List.lookup_cons, List.lookup_cons, ih]

theorem lookup_snoc (m : List (Word × Str)) (k a : Word) (v : Str) :
    ((m.filter fun e => !(e.1 == k)) ++ [(k, v)]).lookup a = if k = a then some v else m.lookup a := by
  rw [List.lookup_append]
  by_cases h : k = a
  · subst h
    have : (m.filter fun e => !(e.1 == k)).lookup k = none := by
      rw [List.lookup_eq_none_iff]
      intro e he
      have := (List.mem_filter.1 he).2
      simp only [Bool.not_eq_true', beq_eq_false_iff_ne, ne_eq] at this
      simpa using fun h => this h.symm
    rw [this, if_pos rfl]
    simp
  · rw [if_neg h, lookup_filter_ne m k a (fun e => h e.symm)]
    have : (a == k) = false := by simpa using fun e => h e.symm
    simp [List.lookup, this]

theorem collect_nodup (kvs : List (Int × Str)) (m : List (Word × Str)) (hm : (m.map (·.1)).Nodup) :
    ((kvs.foldl (fun m kv => m.filter (fun e => !(e.1 == BitVec.ofInt 32 kv.1)) ++ [(BitVec.ofInt 32 kv.1, kv.2)]) m).map (·.1)).Nodup := by
  induction kvs generalizing m with
  | nil => exact hm
  | cons kv kvs ih =>
    apply ih
    rw [List.map_append, List.nodup_append]
    refine ⟨(List.Sublist.map _ List.filter_sublist).nodup hm, by simp, ?_⟩
    intro a ha b hb
    obtain ⟨e, he, rfl⟩ := List.mem_map.1 ha
    have := (List.mem_filter.1 he).2
    simp only [List.map_cons, List.map_nil, List.mem_singleton] at hb
    subst hb
    simpa using this

/-- C45: each address gets at most one name. -/
theorem C45_distinct (f : Option (List (Yaml × Yaml))) : ((loadSyms f).map (·.1)).Nodup := by
  cases f with
  | none => exact List.nodup_nil
  | some kvs => exact collect_nodup _ [] List.nodup_nil

/-- The entries of a symbol file as written: address (modulo 2^32, 0 if it is not an integer) and name (empty if it is not a
string). -/
def Cli.entry (kv : Yaml × Yaml) : Word × Str :=
  (match kv.1 with | .int v => BitVec.ofInt 32 v | _ => 0#32, match kv.2 with | .str s => s | _ => [])

theorem collect_lookup (kvs : List (Int × Str)) (m : List (Word × Str)) (a : Word) :
    (kvs.foldl (fun m kv => m.filter (fun e => !(e.1 == BitVec.ofInt 32 kv.1)) ++ [(BitVec.ofInt 32 kv.1, kv.2)]) m).lookup a =
      (((kvs.map fun kv => (BitVec.ofInt 32 kv.1, kv.2)).reverse.lookup a).or (m.lookup a)) := by
  induction kvs generalizing m with
  | nil => rfl
  | cons kv kvs ih =>
    rw [List.foldl_cons, ih, lookup_snoc, List.map_cons, List.reverse_cons, List.lookup_append]
    by_cases h : BitVec.ofInt 32 kv.1 = a
    · rw [if_pos h]
      have : [(BitVec.ofInt 32 kv.1, kv.2)].lookup a = some kv.2 := by simp [h]
      rw [this]
      simp
    · rw [if_neg h]
      have e : (a == BitVec.ofInt 32 kv.1) = false := by simpa using fun e => h e.symm
      have : [(BitVec.ofInt 32 kv.1, kv.2)].lookup a = none := by simp [List.lookup, e]
      rw [this]
      simp

/-- C45: the name of an address is the one of the last entry of the file with that address. -/
theorem C45_lookup (kvs : List (Yaml × Yaml)) (a : Word) : (loadSyms (some kvs)).lookup a = ((kvs.map Cli.entry).reverse).lookup a := by
  unfold loadSyms collectSyms
  rw [collect_lookup]
  have : (kvs.map fun kv => (kv.1.key, kv.2.val)).map (fun kv => (BitVec.ofInt 32 kv.1, kv.2)) = kvs.map Cli.entry := by
    rw [List.map_map]
    apply List.map_congr_left
    rintro ⟨k, v⟩ _
    cases k <;> cases v <;> rfl
  rw [this]
  simp

/-- C45: without a file, or with one that is no mapping, there are no symbols. -/
theorem C45_none : loadSyms none = [] := rfl

/-- C45: keys are not checked: addresses are truncated to 32 bits (so that entries can overwrite each other), and an entry with a
key or name of another type becomes address 0 or an empty name. -/
theorem C45_unchecked : loadSyms (some [(.int 4, .str c!"a"), (.int 0x100000004, .str c!"b"), (.str c!"x", .other)]) = [(4#32, c!"b"), (0#32, [])] := by
  decide +kernel

/-! ### C46: listings -/

theorem main_disasm [Unicode] (rt : Rt) (a : Args) (bytes : List (BitVec 8)) (hj : a.job = .disasm bytes) (addr : Word)
    (hb : parseBase a.base = some addr) (ws : List Word) (hw : Stored ws bytes) (h0 : bytes ≠ []) (ls : List Str)
    (h : disassemble rt (Cli.instance a addr) ws = some ls) :
    main rt a = if a.toFile then .exit 0 [] [] (some (.text ls.flatten)) else .exit 0 (linesOut ls) [] none := by
  have hr := (C38_read bytes ws).2 ⟨hw, h0⟩
  unfold main
  simp only [hb, hj, hr]
  change (match disassemble rt (Cli.instance a addr) ws with | none => _ | some ls => _) = _
  rw [h]

theorem lines_out (l : Str) (h1 : '\n' ∉ l) (h2 : '\r' ∉ l) (rest : Str) : lines (l ++ c!"\n" ++ rest) = l :: lines rest := by
  rw [List.append_assoc, List.singleton_append, lines_append]
  by_cases h : l = []
  · subst h; rfl
  · rw [lines_nl h h1 h2]; rfl

/-- C46 (`disasm`): without `-o` the listing is printed line by line: reading the lines of standard output gives back the listing. -/
theorem C46_stdout [Unicode] (rt : Rt) (a : Args) (bytes : List (BitVec 8)) (hj : a.job = .disasm bytes) (hf : a.toFile = false) (addr : Word)
    (hb : parseBase a.base = some addr) (ws : List Word) (hw : Stored ws bytes) (h0 : bytes ≠ []) (ls : List Str)
    (h : disassemble rt (Cli.instance a addr) ws = some ls) (hl : ∀ l ∈ ls, '\n' ∉ l ∧ '\r' ∉ l) :
    ∃ out, main rt a = .exit 0 out [] none ∧ lines out = ls := by
  have := main_disasm rt a bytes hj addr hb ws hw h0 ls h
  rw [hf] at this
  refine ⟨_, this, ?_⟩
  clear h this
  induction ls with
  | nil => rfl
  | cons l ls ih =>
    have hh := hl l List.mem_cons_self
    unfold linesOut at ih ⊢
    rw [List.flatMap_cons, lines_out l hh.1 hh.2, ih fun x hx => hl x (List.mem_cons_of_mem _ hx)]

/-- C46: with `-o` the file holds the lines of the listing one after the other, with nothing between them. -/
theorem C46_file_exact [Unicode] (rt : Rt) (a : Args) (bytes : List (BitVec 8)) (hj : a.job = .disasm bytes) (hf : a.toFile = true) (addr : Word)
    (hb : parseBase a.base = some addr) (ws : List Word) (hw : Stored ws bytes) (h0 : bytes ≠ []) (ls : List Str)
    (h : disassemble rt (Cli.instance a addr) ws = some ls) :
    main rt a = .exit 0 [] [] (some (.text ls.flatten)) := by
  have := main_disasm rt a bytes hj addr hb ws hw h0 ls h
  rw [hf] at this
  exact this

/-- C46 is false of the output file: the listing of `jr $ra; nop` is one line of text, and does not assemble. -/
theorem C46_file_wrong : ∃ t, @main asciiUnicode (idRt true) ⟨.disasm [3, 0xe0, 0, 8, 0, 0, 0, 0], true, none, c!"0"⟩ = .exit 0 [] [] (some (.text t)) ∧
    lines t = [c!"func_00000000:jr         $rasll        $zero, $zero, 0x0"] ∧
    (∃ ls, disassemble (idRt true) Mipsasm.new [0x03e00008#32, 0#32] = some ls ∧ ls.length = 3 ∧ lines (linesOut ls) = ls) := by
  refine ⟨c!"func_00000000:jr         $rasll        $zero, $zero, 0x0", by decide +kernel, by decide +kernel, _, rfl, by decide +kernel, by decide +kernel⟩

/-- Non-vacuity of C46. -/
example : Stored [0x03e00008#32, 0#32] [3, 0xe0, 0, 8, 0, 0, 0, 0] ∧ parseBase c!"0x80000000" = some 0x80000000#32 ∧
    ∃ ls, disassemble (idRt true) ⟨0x80000000#32, [], false⟩ [0x03e00008#32, 0#32] = some ls ∧ (∀ l ∈ ls, '\n' ∉ l ∧ '\r' ∉ l) :=
  ⟨.cons _ _ _ _ _ _ _ (by unfold BigEndian; decide) (.cons _ _ _ _ _ _ _ (by unfold BigEndian; decide) .nil), by decide +kernel, _, rfl, by decide +kernel⟩

end Mips
