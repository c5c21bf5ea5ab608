/- The words of a parsed instruction line (for C57): the instructions that the parser makes of a line encode to the words that the
specification gives for the line. -/
import Verif.Lemmas.LangL13
import Verif.Lemmas.CodeL1
import Verif.Lemmas.CodeL5

namespace Mips
open Source Syntax Branch Operands
open Mips.Isa hiding conds Code
open Mips.Names hiding none
open Mips.Lang (Val Values Yields Const code)

/-- the words of an instruction read in the given steps -/
def LW [Unicode] (f : Lang.File) (k : Nat) (st : List Lang.Step) (mn : Str) (ws : List Word) : Prop := ∃ vs, Values f k st vs ∧ code mn vs = some ws

/-- the immediate that stands for the value -/
def Resolved (ty : IntTy) (v : Int) (im : Immediate) : Prop :=
  if ty = .i64 then im.asU64 = some (BitVec.ofInt 64 v) ∧ ∃ u, im.asU32 = some u else im = .short (BitVec.ofInt 16 v)

/-- what a line is parsed to, in terms of the words -/
def CPost [Unicode] (f : Lang.File) (k : Nat) (x : Ctx) (mn : Str) (st : List Lang.Step) : Instruction → Prop
  | .reg o rs rt rd sa b => b = [] ∧ LW f k st mn (encR o rs.num rt.num rd.num sa)
  | .imm o rs rt i b => b = [] ∧
      ((∃ ty t, parseImm x ty t = .ok i ∧ '\n' ∉ t ∧ (ty ≠ .u32 → NotInt i) ∧
          (ty = .u32 → isBrCls (classify (iname o)) = true) ∧
          ∀ v, Const f k (rangeOf ty) t v → ∀ im, Resolved ty v im → ∀ ovf ws, encode ovf (.imm o rs rt im []) = some ws → LW f k st mn ws) ∨
       (Still i ∧ ∀ ovf ws, encode ovf (.imm o rs rt i []) = some ws → LW f k st mn ws))
  | .jump o q b => b = [] ∧ ∃ t, parseTarget x (trim t) = .ok q ∧ ∀ a, Yields f k (.target t) [.addr a] → LW f k st mn (encJ o a)
  | .bytes _ => True

section
variable [Unicode] {f : Lang.File} {k : Nat} {x : Ctx} {st : List Lang.Step} {vs : List Val}

/-! ### steps -/

theorem va_gpr {b : Bool} {s : Str} {r : BitVec 5} (h : Taken GprTaken s r) (hv : Values f k st vs) : Values f k (.gpr b s :: st) (.gpr r :: vs) :=
  .cons _ _ [_] _ (.gpr b s r h) hv
theorem va_fpr {s : Str} {r : BitVec 5} (h : Taken FprTaken s r) (hv : Values f k st vs) : Values f k (.fpr s :: st) (.fpr r :: vs) :=
  .cons _ _ [_] _ (.fpr s r h) hv
theorem va_c0 {s : Str} {r : BitVec 5} (h : Taken C0Taken s r) (hv : Values f k st vs) : Values f k (.c0 s :: st) (.c0 r :: vs) :=
  .cons _ _ [_] _ (.c0 s r h) hv
theorem va_name {w : Str} (hv : Values f k st vs) : Values f k (.name w :: st) vs := .cons _ _ [] _ (.name w) hv
theorem va_fname {w : Str} (hv : Values f k st vs) : Values f k (.fname w :: st) vs := .cons _ _ [] _ (.fname w) hv
theorem va_format {w : Str} (hv : Values f k st vs) : Values f k (.format w :: st) vs := .cons _ _ [] _ (.format w) hv
theorem va_cond {w : Str} (hv : Values f k st vs) : Values f k (.cond w :: st) vs := .cons _ _ [] _ (.cond w) hv
theorem va_const {r : Lang.Range} {s : Str} {v : Int} (h : Const f k r s v) (hv : Values f k st vs) : Values f k (.const r s :: st) (.num v :: vs) :=
  .cons _ _ [_] _ (.const r s v h) hv
theorem va_shamt {s : Str} {v : Int} (h : Lang.ShiftIs s v) (hv : Values f k st vs) : Values f k (.shamt s :: st) (.num v :: vs) :=
  .cons _ _ [_] _ (.shamt s v h) hv
theorem va_base {b : Bool} {s m : Str} {r : BitVec 5} (h : Lang.BaseGroup s m) (hr : Taken GprTaken (trim (Lang.bare m)) r) (hv : Values f k st vs) :
    Values f k (.base b s :: st) (.gpr r :: vs) := .cons _ _ [_] _ (.base b s m r h hr) hv
theorem va_offset {b : Bool} {s o : Str} {v : Int} (h : Lang.Offset s o) (hc : Const f k Lang.simm (Lang.offsetText b o) v) (hv : Values f k st vs) :
    Values f k (.offset b s :: st) (.num v :: vs) := .cons _ _ [_] _ (.offset b s o v h hc) hv
theorem va_noOffset {b : Bool} {s : Str} (h : ∀ o, ¬ Lang.Offset s o) (hv : Values f k st vs) :
    Values f k (.offset b s :: st) (.num 0 :: vs) := .cons _ _ [_] _ (.noOffset b s h) hv
theorem va_word32 {s : Str} {v : Int} (h : Lang.Value (f.place k) Lang.wide s v) (hv : Values f k st vs) :
    Values f k (.word32 s :: st) (.num v :: vs) := .cons _ _ [_] _ (.word32 s v h) hv
theorem va_cop {s : Str} {v : Int} (h : Lang.Value (f.place k) Lang.uimm s v) (hv : Values f k st vs) :
    Values f k (.cop s :: st) (.num v :: vs) := .cons _ _ [_] _ (.cop s v h) hv
theorem va_code {s : Str} {v : Int} (h0 : s ≠ []) (h : Lang.Value (f.place k) Lang.uimm s v) (hv : Values f k st vs) :
    Values f k (.code s :: st) (.num v :: vs) := .cons _ _ [_] _ (.code s v h0 h) hv
theorem va_noCode (hv : Values f k st vs) : Values f k (.code [] :: st) (.num 0 :: vs) := .cons _ _ [_] _ .noCode hv
theorem va_target {s : Str} {a : Word} (h : Yields f k (.target s) [.addr a]) (hv : Values f k st vs) : Values f k (.target s :: st) (.addr a :: vs) :=
  .cons _ _ [_] _ h hv

/-! ### registers -/

theorem gpr_back {s : Str} {r : Register} (h : Register.fromStr s = .ok r) : ∃ b : BitVec 5, Taken GprTaken s b ∧ r = b.toFin := by
  obtain ⟨b, hb⟩ := (isGpr_iff).1 ⟨r, h⟩
  have := gpr_reads hb
  rw [h] at this; cases this
  exact ⟨b, hb, rfl⟩

theorem rp_gpr {s : Str} : RPost (parseReg x s) (fun r => ∃ b : BitVec 5, Taken GprTaken s b ∧ r = b.toFin) := by
  intro r hr
  unfold parseReg at hr
  cases h : Register.fromStr s with
  | ok q => rw [h] at hr; cases hr; exact gpr_back h
  | err e => rw [h] at hr; cases hr
  | panic => rw [h] at hr; cases hr
theorem rp_gpr' {s : Str} :
    RPost (W.lift (Res.unwrap (Register.fromStr s)) : W Register) (fun r => ∃ b : BitVec 5, Taken GprTaken s b ∧ r = b.toFin) := by
  intro r hr
  cases h : Register.fromStr s with
  | ok q => rw [h] at hr; cases hr; exact gpr_back h
  | err e => rw [h] at hr; cases hr
  | panic => rw [h] at hr; cases hr
theorem rp_fpr {s : Str} : RPost (parseFReg x s) (fun r => ∃ b : BitVec 5, Taken FprTaken s b ∧ r = b.toFin) := by
  intro r hr
  unfold parseFReg at hr
  cases h : FloatRegister.fromStr s with
  | ok q =>
    rw [h] at hr; cases hr
    obtain ⟨b, hb⟩ := (isFpr_iff).1 ⟨_, h⟩
    have := fpr_reads hb
    rw [h] at this; cases this
    exact ⟨b, hb, rfl⟩
  | err e => rw [h] at hr; cases hr
  | panic => rw [h] at hr; cases hr
theorem rp_c0 {s : Str} : RPost (parseCReg x s) (fun r => ∃ b : BitVec 5, Taken C0Taken s b ∧ r = b.toFin) := by
  intro r hr
  unfold parseCReg at hr
  cases h : Cop0Register.fromStr s with
  | ok q =>
    rw [h] at hr; cases hr
    obtain ⟨b, hb⟩ := (isC0_iff).1 ⟨_, h⟩
    have := c0_reads hb
    rw [h] at this; cases this
    exact ⟨b, hb, rfl⟩
  | err e => rw [h] at hr; cases hr
  | panic => rw [h] at hr; cases hr

/-! ### mnemonics -/

theorem iname_of {w : Str} {o : ITypeOp} (h : ITypeOp.fromStr w = some o) : o ∈ ITypeOp.all ∧ iname o = mnOf w := by
  refine ⟨List.mem_of_find?_eq_some h, ?_⟩
  have h1 : eqIgnoreCase w o.name = true := by have := List.find?_some h; exact this
  have h2 := List.mem_of_find?_eq_some h
  have ht := same_noWs h1 (names_tight.1 o h2)
  rw [mnOf_ascii (same_ascii h1 (names_ascii.1 o h2))]
  unfold eqIgnoreCase at h1
  rw [beq_iff_eq] at h1
  unfold iname
  rw [ht, h1]
theorem rname_of {w : Str} {o : RTypeOp} (h : RTypeOp.fromStr w = some o) : o ∈ RTypeOp.all ∧ rname o = mnOf w := by
  refine ⟨List.mem_of_find?_eq_some h, ?_⟩
  have h1 : eqIgnoreCase w o.name = true := by have := List.find?_some h; exact this
  have h2 := List.mem_of_find?_eq_some h
  have ht := same_noWs h1 (names_tight.2.1 o h2)
  rw [mnOf_ascii (same_ascii h1 (names_ascii.2.1 o h2))]
  unfold eqIgnoreCase at h1
  rw [beq_iff_eq] at h1
  unfold rname
  rw [ht, h1]
theorem jname_of {w : Str} {o : JTypeOp} (h : JTypeOp.fromStr w = some o) : o ∈ JTypeOp.all ∧ jname o = mnOf w := by
  refine ⟨List.mem_of_find?_eq_some h, ?_⟩
  have h1 : eqIgnoreCase w o.name = true := by have := List.find?_some h; exact this
  have h2 := List.mem_of_find?_eq_some h
  have ht := same_noWs h1 (names_tight.2.2 o h2)
  rw [mnOf_ascii (same_ascii h1 (names_ascii.2.2 o h2))]
  unfold eqIgnoreCase at h1
  rw [beq_iff_eq] at h1
  unfold jname
  rw [ht, h1]

/-! ### leaves -/

variable {w : Str} {cls : Cls}

/-- an instruction of registers -/
theorem lfR {a b c : Register} (hcls : classify (mnOf w) = cls) {vs : List Val} (hv : Values f k st vs)
    (hc : ∀ o ∈ RTypeOp.all, classify (rname o) = cls → code (rname o) vs = some (encR o a.num b.num c.num 0#32)) :
    RPost (mkR w a b c) (CPost f k x (mnOf w) st) := by
  refine rpost_mkR fun o ho => ⟨rfl, vs, hv, ?_⟩
  obtain ⟨h1, h2⟩ := rname_of ho
  rw [← h2]
  exact hc o h1 (by rw [h2]; exact hcls)

/-- an immediate instruction whose constant may be a label -/
theorem lfI {a b : Register} {ty : IntTy} {s : Str} (hcls : classify (mnOf w) = cls) (hn : '\n' ∉ s) (hty : ty = .i16 ∨ ty = .u16 ∨ ty = .i64)
    (hc : ∀ o ∈ ITypeOp.all, iname o = mnOf w → classify (iname o) = cls → ∀ v, Const f k (rangeOf ty) s v → ∀ im, Resolved ty v im → ∀ ovf ws, encode ovf (.imm o a b im []) = some ws →
      LW f k st (iname o) ws) :
    RPost (mkI w a b (W.lift (parseImm x ty s))) (CPost f k x (mnOf w) st) := by
  refine rpost_mkI rpost_imm fun o i ho hi => ⟨rfl, .inl ⟨ty, s, hi, hn, fun _ => parseImm_notInt hi hty, ?_, ?_⟩⟩
  · intro e; subst e; rcases hty with h | h | h <;> cases h
  · obtain ⟨h1, h2⟩ := iname_of ho
    rw [← h2]
    exact hc o h1 h2 (by rw [h2]; exact hcls)

/-- a branch -/
theorem lfB {a b : Register} {s : Str} {i : Immediate} (hcls : classify (mnOf w) = cls) (hb : isBrCls cls = true) (hn : '\n' ∉ s)
    (hi : parseImm x .u32 s = .ok i)
    (hc : ∀ o ∈ ITypeOp.all, classify (iname o) = cls → ∀ v, Const f k Lang.addr s v → ∀ ovf ws, encode ovf (.imm o a b (.short (.ofInt 16 v)) []) = some ws →
      LW f k st (iname o) ws) :
    RPost (mkI w a b (pure i)) (CPost f k x (mnOf w) st) := by
  refine rpost_mkI (Q := (· = i)) (rpost_pure rfl) fun o i' ho hi' => ⟨rfl, .inl ⟨.u32, s, by rw [hi']; exact hi, hn, fun h => absurd rfl h, ?_, ?_⟩⟩
  · intro _; rw [(iname_of ho).2, hcls]; exact hb
  · obtain ⟨h1, h2⟩ := iname_of ho
    rw [← h2]
    intro v hv im hr ovf ws he
    have : im = .short (.ofInt 16 v) := hr
    subst this
    exact hc o h1 (by rw [h2]; exact hcls) v hv ovf ws he

/-- a constant -/
theorem lfS {a b : Register} {i : Immediate} (hcls : classify (mnOf w) = cls) (hi : Still i)
    (hc : ∀ o ∈ ITypeOp.all, classify (iname o) = cls → ∀ ovf ws, encode ovf (.imm o a b i []) = some ws → LW f k st (iname o) ws) :
    RPost (mkI w a b (pure i)) (CPost f k x (mnOf w) st) := by
  refine rpost_mkI (Q := (· = i)) (rpost_pure rfl) fun o i' ho hi' => ⟨rfl, .inr ⟨by rw [hi']; exact hi, ?_⟩⟩
  obtain ⟨h1, h2⟩ := iname_of ho
  rw [← h2, hi']
  exact hc o h1 (by rw [h2]; exact hcls)

theorem parse_zero (hx : Sees (f.place k) x) {i : Immediate} (hi : parseImm x .i16 c!"0" = .ok i) : i = .short 0#16 := by
  have hr : ¬ Lang.RefersTo (f.place k) c!"0" := by
    rintro (h | ⟨⟨_, c, t, e, h⟩, _⟩)
    · revert h; decide
    · have e0 : trim c!"0" = ['0'] := by decide
      rw [e0] at e; cases e; rw [Unicode.isNumeric_ascii _ (by decide)] at h; revert h; decide
  rw [hx.refers] at hr
  unfold parseImm at hi
  simp only [not_or] at hi hr
  rw [if_neg hr.1, if_neg hr.2] at hi
  have e1 : findImm (trim c!"0") = none := by decide
  have e2 : ∀ x : Ctx, parseNum x .i16 (trim c!"0") = .ok (.short 0#16) := by intro x; rfl
  rw [e1, e2] at hi
  cases hi; rfl

/-- an address without offset -/
theorem lfZ (hx : Sees (f.place k) x) {a b : Register} (hcls : classify (mnOf w) = cls)
    (hc : ∀ o ∈ ITypeOp.all, iname o = mnOf w → classify (iname o) = cls → ∀ ovf ws, encode ovf (.imm o a b (.short 0#16) []) = some ws → LW f k st (iname o) ws) :
    RPost (mkI w a b (W.lift (parseImm x .i16 c!"0"))) (CPost f k x (mnOf w) st) := by
  refine rpost_mkI rpost_imm fun o i ho hi => ⟨rfl, .inr ?_⟩
  have := parse_zero hx hi
  subst this
  obtain ⟨h1, h2⟩ := iname_of ho
  rw [← h2]
  exact ⟨trivial, hc o h1 h2 (by rw [h2]; exact hcls)⟩

end
end Mips
