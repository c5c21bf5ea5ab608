/- C19: compare-and-branch pseudo-instructions. -/
import Verif.Spec.CmpBranch
import Verif.Props.NumBranch
import Verif.Props.Local
import Verif.Props.Div

namespace Mips
open Isa Machine Syntax Source Branch Pseudo

/-- The two words. -/
def cmpWords (u likely inv swap : Bool) (r q : BitVec 5) (v : BitVec 16) : List W32 :=
  [rWord 0 (if swap then q else r) (if swap then r else q) 1 0 (if u then 43 else 42),
   iWord (if likely then (if inv then 20 else 21) else (if inv then 4 else 5)) 1 0 v]

theorem slt_cmp (s : Cpu) (u : Bool) (rd a b : BitVec 5) : ∃ mn, decoding (rWord 0 a b rd 0 (if u then 43 else 42)) = some (mn, [.gpr rd, .gpr a, .gpr b]) ∧
    exec s mn [.gpr rd, .gpr a, .gpr b] = .next (s.set rd (flag (if u then (s.get a).ult (s.get b) else (s.get a).slt (s.get b)))).next := by
  cases u
  · exact ⟨c!"slt", dec_slt _ _ _ _, rfl⟩
  · exact ⟨c!"sltu", dec_sltu _ _ _ _, rfl⟩

theorem br_cmp (s : Cpu) (likely inv : Bool) (v : BitVec 16) (c : Bool) (hc : s.get 1 = flag c) :
    ∃ mn, decoding (iWord (if likely then (if inv then 20 else 21) else (if inv then 4 else 5)) 1 0 v) = some (mn, [.gpr 1, .gpr 0, .off v]) ∧
    exec s mn [.gpr 1, .gpr 0, .off v] = s.branch likely (inv ^^ c) v := by
  have h0 : s.get 0 = 0 := rfl
  have e1 : (s.get 1 == s.get 0) = !c := by rw [hc, h0]; cases c <;> decide
  have e2 : (s.get 1 != s.get 0) = c := by rw [hc, h0]; cases c <;> decide
  cases likely <;> cases inv
  · refine ⟨c!"bne", dec_bne _ _ _, ?_⟩
    show s.branch false (s.get 1 != s.get 0) v = _
    rw [e2, Bool.false_xor]
  · refine ⟨c!"beq", dec_beq _ _ _, ?_⟩
    show s.branch false (s.get 1 == s.get 0) v = _
    rw [e1, Bool.true_xor]
  · refine ⟨c!"bnel", dec_bnel _ _ _, ?_⟩
    show s.branch true (s.get 1 != s.get 0) v = _
    rw [e2, Bool.false_xor]
  · refine ⟨c!"beql", dec_beql _ _ _, ?_⟩
    show s.branch true (s.get 1 == s.get 0) v = _
    rw [e1, Bool.true_xor]

/-- Executing the two words. -/
theorem cmp_exec (u likely inv swap : Bool) (r q : BitVec 5) (v : BitVec 16) (s : Cpu) (he : s.Entry) {taken : Bool}
    (ht : taken = (inv ^^ (if u then (s.get (if swap then q else r)).ult (s.get (if swap then r else q))
      else (s.get (if swap then q else r)).slt (s.get (if swap then r else q))))) :
    BranchesIf (cmpWords u likely inv swap r q v) s likely taken (2 + v.toInt) := by
  obtain ⟨mn1, d1, x1⟩ := slt_cmp s u 1 (if swap then q else r) (if swap then r else q)
  generalize hc : (if u then (s.get (if swap then q else r)).ult (s.get (if swap then r else q))
      else (s.get (if swap then q else r)).slt (s.get (if swap then r else q))) = c at *
  let s1 := (s.set 1 (flag c)).next
  obtain ⟨mn2, d2, x2⟩ := br_cmp s1 likely inv v c (get_set_self s _ (by decide))
  have p0 : s.pc = ((0 : Nat) : Int) := he.1
  have p1 : s1.pc = ((1 : Nat) : Int) := by show (s.set 1 (flag c)).npc = _; rw [set_npc, he.2]; rfl
  have p2 : s1.npc = 2 := by show (s.set 1 (flag c)).npc + 1 = _; rw [set_npc, he.2]; rfl
  have hk : ∀ r, r ∉ [(1 : BitVec 5)] → s1.get r = s.get r := fun r hr => (get_next _ _).trans (get_set_ne s _ (by simpa using hr))
  have hh : s1.hi = s.hi := set_hi _ _ _
  have hl : s1.lo = s.lo := set_lo _ _ _
  rw [← ht] at x2
  unfold Cpu.branch at x2
  have two : ((2 : Nat) : Int) = 2 := rfl
  cases taken with
  | true =>
    rw [if_pos rfl] at x2
    refine ⟨{ s1 with pc := s1.npc, npc := s1.pc + 1 + v.toInt }, ⟨3, ?_⟩, ?_, hk, hh, hl⟩
    · rw [run_next p0 rfl d1 x1, run_next p1 rfl d2 x2]
      exact run_end (k := 2) p2 (by simp [cmpWords])
    · rw [if_pos rfl]
      refine ⟨p2, ?_⟩
      show s1.pc + 1 + v.toInt = _
      rw [p1]; omega
  | false =>
    rw [if_neg (by decide)] at x2
    cases likely with
    | true =>
      rw [if_pos rfl] at x2
      refine ⟨{ s1 with pc := s1.npc + 1, npc := s1.npc + 2 }, ⟨3, ?_⟩, ?_, hk, hh, hl⟩
      · rw [run_next p0 rfl d1 x1, run_next p1 rfl d2 x2]
        exact run_end (k := 3) (by show s1.npc + 1 = _; rw [p2]; rfl) (by simp [cmpWords])
      · rw [if_neg (by decide), if_pos rfl]
        refine ⟨?_, ?_⟩
        · show s1.npc + 1 = 2 + 1; rw [p2]
        · show s1.npc + 2 = 2 + 2; rw [p2]
    | false =>
      rw [if_neg (by decide)] at x2
      refine ⟨s1.next, ⟨3, ?_⟩, ?_, hk, hh, hl⟩
      · rw [run_next p0 rfl d1 x1, run_next p1 rfl d2 x2]
        exact run_end (k := 2) p2 (by simp [cmpWords])
      · rw [if_neg (by decide), if_neg (by decide)]
        refine ⟨p2, ?_⟩
        show s1.npc + 1 = 2 + 1; rw [p2]

/-- mnemonic, operation, and the shape of the two words: unsigned, likely, branch on false, operands swapped -/
def cmpTable : List (Str × ITypeOp × Bool × Bool × Bool × Bool) :=
  [(c!"bge", .Bge, false, false, true, false), (c!"bgt", .Bgt, false, false, false, true),
   (c!"ble", .Ble, false, false, true, true), (c!"blt", .Blt, false, false, false, false),
   (c!"bgeu", .Bgeu, true, false, true, false), (c!"bgtu", .Bgtu, true, false, false, true),
   (c!"bleu", .Bleu, true, false, true, true), (c!"bltu", .Bltu, true, false, false, false),
   (c!"bgel", .Bgel, false, true, true, false), (c!"bgtl", .Bgtl, false, true, false, true),
   (c!"blel", .Blel, false, true, true, true), (c!"bltl", .Bltl, false, true, false, false),
   (c!"bgeul", .Bgeul, true, true, true, false), (c!"bgtul", .Bgtul, true, true, false, true),
   (c!"bleul", .Bleul, true, true, true, true), (c!"bltul", .Bltul, true, true, false, false)]

theorem subOne_short (ovf : Bool) {v : BitVec 16} (h : v ≠ 0) : subOne ovf (v.setWidth 32) = some ((v - 1).setWidth 32) := by
  have hv : v.toNat ≠ 0 := fun e => h (BitVec.eq_of_toNat_eq e)
  have hl := v.isLt
  unfold subOne
  rw [if_neg]
  · congr 1
    apply BitVec.eq_of_toNat_eq
    have h1 : (1 : BitVec 16).toNat = 1 := rfl
    simp only [BitVec.toNat_sub, BitVec.toNat_setWidth, BitVec.toNat_ofNat, h1]
    omega
  · rintro ⟨e, _⟩
    have := congrArg BitVec.toNat e
    simp at this; omega

theorem cmp_encode : ∀ e ∈ cmpTable, ∀ (ovf : Bool) (r q : BitVec 5) (v : BitVec 16) (b : List Word), v ≠ 0 →
    encode ovf (.imm e.2.1 (brRs [r, q]) (brRt [r, q]) (.short v) b) =
      some (cmpWords e.2.2.1 e.2.2.2.1 e.2.2.2.2.1 e.2.2.2.2.2 r q (v - 1)) := by
  simp only [cmpTable, List.forall_mem_cons]
  repeat' apply And.intro
  all_goals first
    | (intro ovf r q v b h
       simp [encode_imm, brRs, brRt, encI, num_toFin, subOne_short ovf h, cmpWords, rWord_or, iWord_or, BitVec.or_assoc]; done)
    | simp

theorem cmp_sem : ∀ e ∈ cmpTable, ∃ f, (e.1, e.2.2.2.1, f) ∈ cmpOps ∧ (∀ l' f', (e.1, l', f') ∈ cmpOps → l' = e.2.2.2.1 ∧ f' = f) ∧
    ∀ a b : W64, f a b = (e.2.2.2.2.1 ^^ (if e.2.2.1 then (if e.2.2.2.2.2 then b else a).ult (if e.2.2.2.2.2 then a else b)
      else (if e.2.2.2.2.2 then b else a).slt (if e.2.2.2.2.2 then a else b))) := by
  simp only [cmpTable, List.forall_mem_cons]
  repeat' apply And.intro
  all_goals first
    | (refine ⟨_, by simp [cmpOps]; rfl, by intro l' f' h; simp [cmpOps] at h; simp [h], ?_⟩
       intro a b
       simp [BitVec.slt, BitVec.ult, ← decide_not, Int.not_lt, Nat.not_lt]; done)
    | simp

/-- The operand of a branch, once labels and addresses are resolved, is a 16-bit offset. -/
theorem adjust_short {env : Env} {s : PState} {i : Nat} {p a : Instruction} {ln : Nat} {op : ITypeOp} {r q : Register} {im : Immediate}
    (hp : p = .imm op r q im []) (hn : startsWith c!"b" op.name = true) (hlong : ∀ v, im ≠ .long v)
    (h : adjust1 env s i (ln, p) = some (a, [])) : ∃ v, a = .imm op r q (.short v) [] := by
  subst hp
  cases im with
  | long v => exact absurd rfl (hlong v)
  | short v => simp only [adjust1, Option.some.injEq, Prod.mk.injEq, and_true] at h; exact ⟨v, h.symm⟩
  | label l =>
    simp only [adjust1, opt_bind, Option.bind_eq_some_iff, Option.some.injEq, Prod.mk.injEq, and_true] at h
    obtain ⟨_, _, h⟩ := h; exact ⟨_, h.symm⟩
  | localLabel l =>
    simp only [adjust1] at h
    split at h
    · simp [opt_bind, Option.bind_eq_some_iff] at h
    · simp only [opt_bind, Option.bind_eq_some_iff] at h
      obtain ⟨r', _, h⟩ := h
      cases r' with
      | some ad => simp only [Option.some.injEq, Prod.mk.injEq, and_true] at h; exact ⟨_, h.symm⟩
      | none => simp [Option.bind_eq_some_iff] at h
  | int ad =>
    simp only [adjust1, hn, opt_bind, Bool.not_true, Bool.false_eq_true, if_false, Option.bind_eq_some_iff, Option.some.injEq, Prod.mk.injEq] at h
    obtain ⟨_, _, _, _, _, _, h, _⟩ := h
    exact ⟨_, h.symm⟩

theorem parseImm_u32 {x : Ctx} {t : Str} {im : Immediate} (h : parseImm x .u32 t = .ok im) : ∀ v, im ≠ .long v := by
  intro v hv
  subst hv
  unfold parseImm at h
  dsimp only at h
  split at h
  · cases h
  · split at h
    · cases h
    · split at h
      · cases hb : parseTarget x (removeParens ‹_›) with
        | ok tg =>
          rw [hb] at h
          simp only [Res.bind] at h
          repeat' split at h
          all_goals cases h
        | err e => rw [hb] at h; cases h
        | panic => rw [hb] at h; cases h
      · rw [parseNum_eq] at h
        split at h
        · simp only [Immediate.new] at h; cases h
        · cases h

theorem cmp_ops {mn : Str} {likely : Bool} {f : W64 → W64 → Bool} (h : (mn, likely, f) ∈ cmpOps) :
    ∃ e ∈ cmpTable, e.1 = mn ∧ e.2.2.2.1 = likely ∧ (mn, e.2.1, 2) ∈ brOps ∧
    ∀ a b : W64, f a b = (e.2.2.2.2.1 ^^ (if e.2.2.1 then (if e.2.2.2.2.2 then b else a).ult (if e.2.2.2.2.2 then a else b)
      else (if e.2.2.2.2.2 then b else a).slt (if e.2.2.2.2.2 then a else b))) := by
  have key : ∃ e ∈ cmpTable, e.1 = mn := by
    have : cmpOps.map (·.1) = cmpTable.map (·.1) := by decide
    have hm := List.mem_map_of_mem (f := fun e => e.1) h
    rw [this] at hm
    obtain ⟨e, h1, h2⟩ := List.mem_map.1 hm
    exact ⟨e, h1, h2⟩
  obtain ⟨e, he, rfl⟩ := key
  obtain ⟨g, h1, h2, h3⟩ := cmp_sem e he
  obtain ⟨h4, rfl⟩ := h2 _ _ h
  have : ∀ e ∈ cmpTable, (e.1, e.2.1, 2) ∈ brOps := by decide
  exact ⟨e, he, rfl, h4.symm, this e he, h3⟩

/-- Everything about a compare-and-branch line of an accepted program. -/
theorem cmp_line [Unicode] {rt : Rt} {m : Mipsasm} {text : Str} {is : List Instruction} {warns : List ParserWarning}
    (h : assemble rt m text = .ok is warns) {k : Nat} {t mn : Str} {r q : BitVec 5} {likely : Bool} {f : W64 → W64 → Bool}
    (hb : BranchAt (lines text) k mn [r, q] t) (hf : (mn, likely, f) ∈ cmpOps) :
    ∃ (tr : List Outcome) (x : Ctx) (op : ITypeOp) (im : Immediate) (v : BitVec 16) (ws : List Word),
      IsTrace (envOf rt m text) (lines text) tr ∧ outErrors tr = [] ∧ AtLine rt m (lines text) k x ∧
      parseImm x .u32 t = .ok im ∧
      adjust1 (envOf rt m text) (canonF tr) (codeCount ((lines text).take k)) (k + 1, .imm op r.toFin q.toFin im []) =
        some (.imm op r.toFin q.toFin (.short v) [], []) ∧
      is[codeCount ((lines text).take k)]? = some (.imm op r.toFin q.toFin (.short v) ws) ∧ op.name = mn ∧
      (v ≠ 0 → ∀ s : Cpu, s.Entry → BranchesIf ws s likely (f (s.get r) (s.get q)) (2 + (v - 1).toInt) ∧ ws.length = 2) := by
  obtain ⟨raw, hk, hc, hb⟩ := hb
  obtain ⟨tr, x, ws, p, a, b, hT, he, hx, hat, ho, hp, ha, hb', hab, hi, hlen⟩ := line_done h hk hc
  obtain ⟨e, hem, rfl, rfl, hop, hsem⟩ := cmp_ops hf
  have hpar := br_parse x hb hop rfl
  rw [hp] at hpar
  cases him : parseImm x .u32 t with
  | err e => rw [him] at hpar; cases hpar
  | panic => rw [him] at hpar; cases hpar
  | ok im =>
    rw [him] at hpar
    simp only [Res.bind, Res.ok.injEq] at hpar
    subst hpar
    obtain ⟨v, rfl⟩ := adjust_short rfl (brOps_ok _ hop).2.2.1 (parseImm_u32 him) ha
    have hbi : b = .imm e.2.1 r.toFin q.toFin (.short v) b.getBytes := by
      simp only [assembleInst, hb', opt_bind, Option.bind_some, Instruction.pushBytes, List.nil_append, Option.some.injEq] at hab
      exact hab.symm
    have hname : ∀ e ∈ cmpTable, e.2.1.name = e.1 := by decide +kernel
    refine ⟨tr, x, e.2.1, im, v, b.getBytes, hT, he, hat, him, ha, ?_, hname e hem, ?_⟩
    · rw [hi]; exact congrArg some hbi
    · intro hv s hs
      have hw := cmp_encode e hem rt.ovf r q v [] hv
      rw [hw] at hb'
      rw [← Option.some.inj hb']
      refine ⟨cmp_exec _ _ _ _ r q (v - 1) s hs ?_, rfl⟩
      rw [hsem]
      cases e.2.2.2.2.2 <;> rfl

/-- C19: in an accepted program, a compare-and-branch line (with any kind of target) is stored with a 16-bit offset `v`; unless
`v` is 0 or -32768, executing the two words of the line branches exactly if the comparison holds, to the word `v` words after
the word that follows the comparison, with the word after the branch as delay slot; only `$at` changes. -/
theorem C19_branches_partial [Unicode] (rt : Rt) (m : Mipsasm) (text : Str) (is : List Instruction) (warns : List ParserWarning)
    (h : assemble rt m text = .ok is warns) (k : Nat) (t mn : Str) (r q : BitVec 5) (likely : Bool) (f : W64 → W64 → Bool)
    (hb : BranchAt (lines text) k mn [r, q] t) (hf : (mn, likely, f) ∈ cmpOps) :
    ∃ (op : ITypeOp) (v : BitVec 16) (ws : List Word),
      is[codeCount ((lines text).take k)]? = some (.imm op r.toFin q.toFin (.short v) ws) ∧ op.name = mn ∧
      (v ≠ 0 → v ≠ 0x8000 → ws.length = 2 ∧
        ∀ s : Cpu, s.Entry → BranchesIf ws s likely (f (s.get r) (s.get q)) (1 + v.toInt)) := by
  obtain ⟨tr, x, op, im, v, ws, _, _, _, _, _, h1, h2, h3⟩ := cmp_line h hb hf
  refine ⟨op, v, ws, h1, h2, fun h0 h8 => ?_⟩
  have hv : 2 + (v - 1).toInt = 1 + v.toInt := by
    have hv0 : v.toNat ≠ 0 := fun e => h0 (BitVec.eq_of_toNat_eq e)
    have hv8 : v.toNat ≠ 0x8000 := fun e => h8 (BitVec.eq_of_toNat_eq e)
    have hl := v.isLt
    have h1 : (1 : BitVec 16).toNat = 1 := rfl
    rw [BitVec.toInt_eq_toNat_cond, BitVec.toInt_eq_toNat_cond, BitVec.toNat_sub, h1]
    split <;> split <;> omega
  exact ⟨(h3 h0 ⟨fun _ => 0, none, none, 0, 1⟩ ⟨rfl, rfl⟩).2, fun s hs => hv ▸ (h3 h0 s hs).1⟩

/-- C19 for labels defined above the branch: if all instructions in between are one word long and the distance fits, the
branch, if taken, goes to the first word after the label. -/
theorem C19_label_partial [Unicode] (rt : Rt) (m : Mipsasm) (text : Str) (is : List Instruction) (warns : List ParserWarning)
    (h : assemble rt m text = .ok is warns) (d k : Nat) (l t mn : Str) (r q : BitVec 5) (likely : Bool) (f : W64 → W64 → Bool)
    (hb : BranchAt (lines text) k mn [r, q] t) (hf : (mn, likely, f) ∈ cmpOps) (hd : Defines (lines text) d l) (hdk : d < k)
    (hl : isLocal l = false) (ht : trim t = l)
    (hs : Single is (codeCount ((lines text).take d)) (codeCount ((lines text).take k)))
    (hfit : codeCount ((lines text).take k) < codeCount ((lines text).take d) + 32767) :
    ∃ (ws : List Word), (is[codeCount ((lines text).take k)]?).map Instruction.getBytes = some ws ∧
      ∀ s : Cpu, s.Entry → BranchesIf ws s likely (f (s.get r) (s.get q))
        ((wordIndex is (codeCount ((lines text).take d)) : Int) - wordIndex is (codeCount ((lines text).take k))) := by
  obtain ⟨tr, x, op, im, v, ws, hT, he, hat, h1, h2, h3, _, h4⟩ := cmp_line h hb hf
  have hm := defines_mem hd hl hdk
  rw [parseImm_label x .u32 (by rw [ht]; exact hl) (by
    rw [ht, hat.labels]
    simp only [hasLabel, List.any_eq_true]
    exact ⟨_, hm, by simp⟩), ht] at h1
  cases h1
  have hlk : (globals (lines text)).lookup l = some (codeCount ((lines text).take d)) :=
    lookup_of_nodup (C11_accepted rt m text is warns h).1 (globals_take_mem hm)
  have hlab : (canonF tr).labels = globals (lines text) := (trace_counts_all hT he).1
  simp only [adjust1, hlab, hlk, opt_bind, Option.bind_some, Option.some.injEq, Prod.mk.injEq, and_true, Instruction.imm.injEq,
    true_and, Immediate.short.injEq] at h2
  have hc := codeCount_mono (lines text) (Nat.le_of_lt hdk)
  have hc2 := codeCount_take_le (lines text) k
  have hi : v = BitVec.ofInt 16 ((codeCount ((lines text).take d) : Int) - (codeCount ((lines text).take k) + 1)) := h2.symm
  have hvi : v.toInt = (codeCount ((lines text).take d) : Int) - (codeCount ((lines text).take k) + 1) := by
    rw [hi]; exact toInt_ofInt16 (by omega) (by omega)
  have hv0 : v ≠ 0 := by rintro rfl; rw [show (0 : BitVec 16).toInt = 0 from rfl] at hvi; omega
  have hv8 : v ≠ 0x8000 := by rintro rfl; rw [show (0x8000 : BitVec 16).toInt = -32768 from by decide] at hvi; omega
  have hv : (v - 1).toInt = v.toInt - 1 := by
    have hv0 : v.toNat ≠ 0 := fun e => hv0 (BitVec.eq_of_toNat_eq e)
    have hv8 : v.toNat ≠ 0x8000 := fun e => hv8 (BitVec.eq_of_toNat_eq e)
    have hl := v.isLt
    have h1 : (1 : BitVec 16).toNat = 1 := rfl
    rw [BitVec.toInt_eq_toNat_cond, BitVec.toInt_eq_toNat_cond, BitVec.toNat_sub, h1]
    split <;> split <;> omega
  refine ⟨ws, by rw [h3]; rfl, fun s hs' => ?_⟩
  have := (h4 hv0 s hs').1
  have hw := wordIndex_single hc (by rw [is_length h]; exact hc2) hs
  rw [hv, hvi] at this
  rw [hw]
  generalize codeCount ((lines text).take k) = K at *
  generalize codeCount ((lines text).take d) = D at *
  rw [show ((wordIndex is D : Int) - ((wordIndex is D + (K - D) : Nat) : Int)) = 2 + ((D : Int) - (K + 1) - 1) by omega]
  exact this

theorem reg_name (n : Str) (r : BitVec 5) (h : gprNames[r.toNat]? = some n) (hs : SameName n n) : Reg GprCore ('$' :: n) r := by
  have := Reg.dollar (core := GprCore) [] n [] r (by simp [Blank]) (by simp [Blank]) (.name _ n _ h hs)
  simpa using this

/-- C19 fails for labels below the branch: the offset does not count the comparison.  In `a: blt $t0, $t1, @@x; nop; @@x: nop`
the label is word 3, but the branch, if taken, goes to word 2, its own delay slot. -/
theorem C19_forward_wrong : ∃ text is warns ws, @assemble asciiUnicode (idRt true) Mipsasm.new text = .ok is warns ∧
    BranchAt (lines text) 1 c!"blt" [8, 9] c!" @@x" ∧ Defines (lines text) 3 c!"@@x" ∧ wordIndex is (codeCount ((lines text).take 3)) = 3 ∧
    (is[0]?).map Instruction.getBytes = some ws ∧
    ∀ s : Cpu, s.Entry → BranchesIf ws s false (decide ((s.get 8).toInt < (s.get 9).toInt)) 2 := by
  let text := c!"a:\nblt $t0,$t1, @@x\nnop\n@@x:\nnop\nb:"
  obtain ⟨is, warns, h, hf⟩ := insts_ok (o := @assemble asciiUnicode (idRt true) Mipsasm.new text)
    (f := fun is => decide (wordIndex is 2 = 3 ∧ (is[0]?).map Instruction.getBytes = some (cmpWords false false false false 8 9 0))) (by decide +kernel)
  obtain ⟨h1, h2⟩ := of_decide_eq_true hf
  refine ⟨text, is, warns, _, h, ⟨c!"blt $t0,$t1, @@x", by decide +kernel, by decide +kernel, ?_⟩, ⟨c!"@@x:", by decide +kernel, by decide +kernel⟩, ?_, h2, ?_⟩
  · exact .r2 c!"blt" c!"blt" c!"$t0" c!"$t1" c!" @@x" 8 9 (by unfold SameName; decide) (reg_name c!"t0" 8 (by decide) (by unfold SameName; decide)) (reg_name c!"t1" 9 (by decide) (by unfold SameName; decide)) (by decide)
  · exact (show codeCount ((lines text).take 3) = 2 by decide +kernel) ▸ h1
  · intro s hs
    exact cmp_exec false false false false 8 9 0 s hs (by simp [BitVec.slt])

/-- C19 fails for a label directly below the branch: the assembler panics, or, without overflow checks, emits the word
0xFFFFFFFF in place of the branch. -/
theorem C19_next_wrong : @assemble asciiUnicode (idRt true) Mipsasm.new c!"a:\nblt $t0,$t1, @@x\n@@x:\nnop\nb:" = .panic ∧
    (@assemble asciiUnicode (idRt false) Mipsasm.new c!"a:\nblt $t0,$t1, @@x\n@@x:\nnop\nb:").words = some [0x0109082a#32, 0xffffffff#32, 0#32] :=
  ⟨by rfl, by decide +kernel⟩

/-- Non-vacuity of `C19_branches_partial` and `C19_label_partial`: a backward `bgeul`. -/
example : ∃ is warns, @assemble asciiUnicode (idRt true) Mipsasm.new c!"a:\nnop\nbgeul $t0,$t1,a\nnop" = .ok is warns ∧ Single is 0 1 ∧
    Defines (lines c!"a:\nnop\nbgeul $t0,$t1,a\nnop") 0 c!"a" ∧
    BranchAt (lines c!"a:\nnop\nbgeul $t0,$t1,a\nnop") 2 c!"bgeul" [8, 9] c!"a" ∧
    (c!"bgeul", true, fun a b : W64 => decide (b.toNat ≤ a.toNat)) ∈ cmpOps := by
  obtain ⟨is, warns, h, hf⟩ := insts_ok (o := @assemble asciiUnicode (idRt true) Mipsasm.new c!"a:\nnop\nbgeul $t0,$t1,a\nnop")
    (f := fun is => decide ((is[0]?).map Instruction.getBytes = some [0#32])) (by decide +kernel)
  have h1 := of_decide_eq_true hf
  refine ⟨is, warns, h, ?_, ⟨c!"a:", by decide +kernel, by decide +kernel⟩, ⟨c!"bgeul $t0,$t1,a", by decide +kernel, by decide +kernel, ?_⟩, by simp [cmpOps]⟩
  · intro j x ha hb hx
    have : j = 0 := by omega
    subst this
    rw [hx] at h1
    simp at h1
    simp [h1]
  · exact .r2 c!"bgeul" c!"bgeul" c!"$t0" c!"$t1" c!"a" 8 9 (by unfold SameName; decide) (reg_name c!"t0" 8 (by decide) (by unfold SameName; decide))
      (reg_name c!"t1" 9 (by decide) (by unfold SameName; decide)) (by decide)

end Mips
