/-
GENERATED by tools/gen_rows.py: the rows of the specification's instruction table grouped by operand
syntax, with the model operation each mnemonic names.  Every list is checked below.
-/
import Verif.Spec.Isa
import Verif.Model.Parser

namespace Mips
open Isa

/-- rows with syntax `target`, parser arm `jump` -/
def L_target_jump_main : List (Str × JTypeOp × BitVec 6) :=
  [(c!"j", .J, 0x02#6),
   (c!"jal", .Jal, 0x03#6)]

/-- rows with syntax `rsRtOff`, parser arm `br2` -/
def L_rsRtOff_br2_main : List (Str × ITypeOp × BitVec 6) :=
  [(c!"beq", .Beq, 0x04#6),
   (c!"bne", .Bne, 0x05#6),
   (c!"beql", .Beql, 0x14#6),
   (c!"bnel", .Bnel, 0x15#6)]

/-- rows with syntax `rsOff`, parser arm `br1` -/
def L_rsOff_br1_main : List (Str × ITypeOp × BitVec 6) :=
  [(c!"blez", .Blez, 0x06#6),
   (c!"bgtz", .Bgtz, 0x07#6),
   (c!"blezl", .Blezl, 0x16#6),
   (c!"bgtzl", .Bgtzl, 0x17#6)]

/-- rows with syntax `rtRsSimm`, parser arm `arith` -/
def L_rtRsSimm_arith_main : List (Str × ITypeOp × BitVec 6) :=
  [(c!"addi", .Addi, 0x08#6),
   (c!"addiu", .Addiu, 0x09#6),
   (c!"slti", .Slti, 0x0a#6),
   (c!"sltiu", .Sltiu, 0x0b#6),
   (c!"daddi", .Daddi, 0x18#6),
   (c!"daddiu", .Daddiu, 0x19#6)]

/-- rows with syntax `rtRsUimm`, parser arm `arith` -/
def L_rtRsUimm_arith_main : List (Str × ITypeOp × BitVec 6) :=
  [(c!"andi", .Andi, 0x0c#6),
   (c!"ori", .Ori, 0x0d#6),
   (c!"xori", .Xori, 0x0e#6)]

/-- rows with syntax `rtUimm`, parser arm `lui` -/
def L_rtUimm_lui_main : List (Str × ITypeOp × BitVec 6) :=
  [(c!"lui", .Lui, 0x0f#6)]

/-- rows with syntax `rtMem`, parser arm `mem` -/
def L_rtMem_mem_main : List (Str × ITypeOp × BitVec 6) :=
  [(c!"ldl", .Ldl, 0x1a#6),
   (c!"ldr", .Ldr, 0x1b#6),
   (c!"lb", .Lb, 0x20#6),
   (c!"lh", .Lh, 0x21#6),
   (c!"lwl", .Lwl, 0x22#6),
   (c!"lw", .Lw, 0x23#6),
   (c!"lbu", .Lbu, 0x24#6),
   (c!"lhu", .Lhu, 0x25#6),
   (c!"lwr", .Lwr, 0x26#6),
   (c!"lwu", .Lwu, 0x27#6),
   (c!"sb", .Sb, 0x28#6),
   (c!"sh", .Sh, 0x29#6),
   (c!"swl", .Swl, 0x2a#6),
   (c!"sw", .Sw, 0x2b#6),
   (c!"sdl", .Sdl, 0x2c#6),
   (c!"sdr", .Sdr, 0x2d#6),
   (c!"swr", .Swr, 0x2e#6),
   (c!"ll", .Ll, 0x30#6),
   (c!"lld", .Lld, 0x34#6),
   (c!"ld", .Ld, 0x37#6),
   (c!"sc", .Sc, 0x38#6),
   (c!"scd", .Scd, 0x3c#6),
   (c!"sd", .Sd, 0x3f#6)]

/-- rows with syntax `copMem`, parser arm `mem` -/
def L_copMem_mem_main : List (Str × ITypeOp × BitVec 6) :=
  [(c!"cache", .Cache, 0x2f#6)]

/-- rows with syntax `ftMem`, parser arm `fmem` -/
def L_ftMem_fmem_main : List (Str × ITypeOp × BitVec 6) :=
  [(c!"lwc1", .Lwc1, 0x31#6),
   (c!"ldc1", .Ldc1, 0x35#6),
   (c!"swc1", .Swc1, 0x39#6),
   (c!"sdc1", .Sdc1, 0x3d#6)]

/-- rows with syntax `rdRtSa`, parser arm `shift` -/
def L_rdRtSa_shift_special : List (Str × RTypeOp × BitVec 6) :=
  [(c!"sll", .Sll, 0x00#6),
   (c!"srl", .Srl, 0x02#6),
   (c!"sra", .Sra, 0x03#6),
   (c!"dsll", .Dsll, 0x38#6),
   (c!"dsrl", .Dsrl, 0x3a#6),
   (c!"dsra", .Dsra, 0x3b#6),
   (c!"dsll32", .Dsll32, 0x3c#6),
   (c!"dsrl32", .Dsrl32, 0x3e#6),
   (c!"dsra32", .Dsra32, 0x3f#6)]

/-- rows with syntax `rdRtRs`, parser arm `shiftv` -/
def L_rdRtRs_shiftv_special : List (Str × RTypeOp × BitVec 6) :=
  [(c!"sllv", .Sllv, 0x04#6),
   (c!"srlv", .Srlv, 0x06#6),
   (c!"srav", .Srav, 0x07#6),
   (c!"dsllv", .Dsllv, 0x14#6),
   (c!"dsrlv", .Dsrlv, 0x16#6),
   (c!"dsrav", .Dsrav, 0x17#6)]

/-- rows with syntax `rs`, parser arm `rs1` -/
def L_rs_rs1_special : List (Str × RTypeOp × BitVec 6) :=
  [(c!"jr", .Jr, 0x08#6),
   (c!"mthi", .Mthi, 0x11#6),
   (c!"mtlo", .Mtlo, 0x13#6)]

/-- rows with syntax `rdRs`, parser arm `jalr` -/
def L_rdRs_jalr_special : List (Str × RTypeOp × BitVec 6) :=
  [(c!"jalr", .Jalr, 0x09#6)]

/-- rows with syntax `code`, parser arm `code` -/
def L_code_code_special : List (Str × RTypeOp × BitVec 6) :=
  [(c!"syscall", .Syscall, 0x0c#6),
   (c!"break", .Break, 0x0d#6)]

/-- rows with syntax `none`, parser arm `bare` -/
def L_none_bare_special : List (Str × RTypeOp × BitVec 6) :=
  [(c!"sync", .Sync, 0x0f#6)]

/-- rows with syntax `rd`, parser arm `rd1` -/
def L_rd_rd1_special : List (Str × RTypeOp × BitVec 6) :=
  [(c!"mfhi", .Mfhi, 0x10#6),
   (c!"mflo", .Mflo, 0x12#6)]

/-- rows with syntax `rsRt`, parser arm `reg2` -/
def L_rsRt_reg2_special : List (Str × RTypeOp × BitVec 6) :=
  [(c!"mult", .Mult, 0x18#6),
   (c!"multu", .Multu, 0x19#6),
   (c!"dmult", .Dmult, 0x1c#6),
   (c!"dmultu", .Dmultu, 0x1d#6),
   (c!"tge", .Tge, 0x30#6),
   (c!"tgeu", .Tgeu, 0x31#6),
   (c!"tlt", .Tlt, 0x32#6),
   (c!"tltu", .Tltu, 0x33#6),
   (c!"teq", .Teq, 0x34#6),
   (c!"tne", .Tne, 0x36#6)]

/-- rows with syntax `rsRt`, parser arm `div` -/
def L_rsRt_div_special : List (Str × RTypeOp × BitVec 6) :=
  [(c!"div", .Div, 0x1a#6),
   (c!"divu", .Divu, 0x1b#6),
   (c!"ddiv", .Ddiv, 0x1e#6),
   (c!"ddivu", .Ddivu, 0x1f#6)]

/-- rows with syntax `rdRsRt`, parser arm `reg3` -/
def L_rdRsRt_reg3_special : List (Str × RTypeOp × BitVec 6) :=
  [(c!"add", .Add, 0x20#6),
   (c!"addu", .Addu, 0x21#6),
   (c!"sub", .Sub, 0x22#6),
   (c!"subu", .Subu, 0x23#6),
   (c!"and", .And, 0x24#6),
   (c!"or", .Or, 0x25#6),
   (c!"xor", .Xor, 0x26#6),
   (c!"nor", .Nor, 0x27#6),
   (c!"slt", .Slt, 0x2a#6),
   (c!"sltu", .Sltu, 0x2b#6),
   (c!"dadd", .Dadd, 0x2c#6),
   (c!"daddu", .Daddu, 0x2d#6),
   (c!"dsub", .Dsub, 0x2e#6),
   (c!"dsubu", .Dsubu, 0x2f#6)]

/-- rows with syntax `rsOff`, parser arm `br1` -/
def L_rsOff_br1_regimm : List (Str × ITypeOp × BitVec 5) :=
  [(c!"bltz", .Bltz, 0x00#5),
   (c!"bgez", .Bgez, 0x01#5),
   (c!"bltzl", .Bltzl, 0x02#5),
   (c!"bgezl", .Bgezl, 0x03#5),
   (c!"bltzal", .Bltzal, 0x10#5),
   (c!"bgezal", .Bgezal, 0x11#5),
   (c!"bltzall", .Bltzall, 0x12#5),
   (c!"bgezall", .Bgezall, 0x13#5)]

/-- rows with syntax `rsSimm`, parser arm `trapi` -/
def L_rsSimm_trapi_regimm : List (Str × ITypeOp × BitVec 5) :=
  [(c!"tgei", .Tgei, 0x08#5),
   (c!"tgeiu", .Tgeiu, 0x09#5),
   (c!"tlti", .Tlti, 0x0a#5),
   (c!"tltiu", .Tltiu, 0x0b#5),
   (c!"teqi", .Teqi, 0x0c#5),
   (c!"tnei", .Tnei, 0x0e#5)]

/-- rows with syntax `rtC0`, parser arm `cop0` -/
def L_rtC0_cop0_cop : List (Str × RTypeOp × BitVec 2 × BitVec 5) :=
  [(c!"mfc0", .Mfc0, 0x0#2, 0x00#5),
   (c!"dmfc0", .Dmfc0, 0x0#2, 0x01#5),
   (c!"cfc0", .Cfc0, 0x0#2, 0x02#5),
   (c!"mtc0", .Mtc0, 0x0#2, 0x04#5),
   (c!"dmtc0", .Dmtc0, 0x0#2, 0x05#5),
   (c!"ctc0", .Ctc0, 0x0#2, 0x06#5)]

/-- rows with syntax `rtFs`, parser arm `cop1` -/
def L_rtFs_cop1_cop : List (Str × RTypeOp × BitVec 2 × BitVec 5) :=
  [(c!"mfc1", .Mfc1, 0x1#2, 0x00#5),
   (c!"dmfc1", .Dmfc1, 0x1#2, 0x01#5),
   (c!"cfc1", .Cfc1, 0x1#2, 0x02#5),
   (c!"mtc1", .Mtc1, 0x1#2, 0x04#5),
   (c!"dmtc1", .Dmtc1, 0x1#2, 0x05#5),
   (c!"ctc1", .Ctc1, 0x1#2, 0x06#5)]

/-- rows with syntax `off`, parser arm `bc` -/
def L_off_bc_bc : List (Str × ITypeOp × BitVec 2 × BitVec 5) :=
  [(c!"bc0f", .Bc0f, 0x0#2, 0x00#5),
   (c!"bc0t", .Bc0t, 0x0#2, 0x01#5),
   (c!"bc0fl", .Bc0fl, 0x0#2, 0x02#5),
   (c!"bc0tl", .Bc0tl, 0x0#2, 0x03#5),
   (c!"bc1f", .Bc1f, 0x1#2, 0x00#5),
   (c!"bc1t", .Bc1t, 0x1#2, 0x01#5),
   (c!"bc1fl", .Bc1fl, 0x1#2, 0x02#5),
   (c!"bc1tl", .Bc1tl, 0x1#2, 0x03#5)]

/-- rows with syntax `none`, parser arm `tlb` -/
def L_none_tlb_co : List (Str × RTypeOp × BitVec 6) :=
  [(c!"tlbr", .Tlbr, 0x01#6),
   (c!"tlbwi", .Tlbwi, 0x02#6),
   (c!"tlbwr", .Tlbwr, 0x06#6),
   (c!"tlbp", .Tlbp, 0x08#6),
   (c!"eret", .Eret, 0x18#6)]

/-- rows with syntax `fdFsFt`, parser arm `other` -/
def L_fdFsFt_other_fp : List (Str × RTypeOp × BitVec 5 × BitVec 6) :=
  [(c!"add.s", .AddS, 0x10#5, 0x00#6),
   (c!"add.d", .AddD, 0x11#5, 0x00#6),
   (c!"sub.s", .SubS, 0x10#5, 0x01#6),
   (c!"sub.d", .SubD, 0x11#5, 0x01#6),
   (c!"mul.s", .MulS, 0x10#5, 0x02#6),
   (c!"mul.d", .MulD, 0x11#5, 0x02#6),
   (c!"div.s", .DivS, 0x10#5, 0x03#6),
   (c!"div.d", .DivD, 0x11#5, 0x03#6)]

/-- rows with syntax `fdFs`, parser arm `other` -/
def L_fdFs_other_fp : List (Str × RTypeOp × BitVec 5 × BitVec 6) :=
  [(c!"sqrt.s", .SqrtS, 0x10#5, 0x04#6),
   (c!"sqrt.d", .SqrtD, 0x11#5, 0x04#6),
   (c!"abs.s", .AbsS, 0x10#5, 0x05#6),
   (c!"abs.d", .AbsD, 0x11#5, 0x05#6),
   (c!"mov.s", .MovS, 0x10#5, 0x06#6),
   (c!"mov.d", .MovD, 0x11#5, 0x06#6),
   (c!"neg.s", .NegS, 0x10#5, 0x07#6),
   (c!"neg.d", .NegD, 0x11#5, 0x07#6),
   (c!"round.l.s", .RoundLS, 0x10#5, 0x08#6),
   (c!"round.l.d", .RoundLD, 0x11#5, 0x08#6),
   (c!"trunc.l.s", .TruncLS, 0x10#5, 0x09#6),
   (c!"trunc.l.d", .TruncLD, 0x11#5, 0x09#6),
   (c!"ceil.l.s", .CeilLS, 0x10#5, 0x0a#6),
   (c!"ceil.l.d", .CeilLD, 0x11#5, 0x0a#6),
   (c!"floor.l.s", .FloorLS, 0x10#5, 0x0b#6),
   (c!"floor.l.d", .FloorLD, 0x11#5, 0x0b#6),
   (c!"round.w.s", .RoundWS, 0x10#5, 0x0c#6),
   (c!"round.w.d", .RoundWD, 0x11#5, 0x0c#6),
   (c!"trunc.w.s", .TruncWS, 0x10#5, 0x0d#6),
   (c!"trunc.w.d", .TruncWD, 0x11#5, 0x0d#6),
   (c!"ceil.w.s", .CeilWS, 0x10#5, 0x0e#6),
   (c!"ceil.w.d", .CeilWD, 0x11#5, 0x0e#6),
   (c!"floor.w.s", .FloorWS, 0x10#5, 0x0f#6),
   (c!"floor.w.d", .FloorWD, 0x11#5, 0x0f#6),
   (c!"cvt.s.d", .CvtSD, 0x11#5, 0x20#6),
   (c!"cvt.s.w", .CvtSW, 0x14#5, 0x20#6),
   (c!"cvt.s.l", .CvtSL, 0x15#5, 0x20#6),
   (c!"cvt.d.s", .CvtDS, 0x10#5, 0x21#6),
   (c!"cvt.d.w", .CvtDW, 0x14#5, 0x21#6),
   (c!"cvt.d.l", .CvtDL, 0x15#5, 0x21#6),
   (c!"cvt.w.s", .CvtWS, 0x10#5, 0x24#6),
   (c!"cvt.w.d", .CvtWD, 0x11#5, 0x24#6),
   (c!"cvt.l.s", .CvtLS, 0x10#5, 0x25#6),
   (c!"cvt.l.d", .CvtLD, 0x11#5, 0x25#6)]

/-- rows with syntax `fsFt`, parser arm `other` -/
def L_fsFt_other_fp : List (Str × RTypeOp × BitVec 5 × BitVec 6) :=
  [(c!"c.f.s", .Cs, 0x10#5, 0x30#6),
   (c!"c.f.d", .Cd, 0x11#5, 0x30#6),
   (c!"c.un.s", .Cs, 0x10#5, 0x31#6),
   (c!"c.un.d", .Cd, 0x11#5, 0x31#6),
   (c!"c.eq.s", .Cs, 0x10#5, 0x32#6),
   (c!"c.eq.d", .Cd, 0x11#5, 0x32#6),
   (c!"c.ueq.s", .Cs, 0x10#5, 0x33#6),
   (c!"c.ueq.d", .Cd, 0x11#5, 0x33#6),
   (c!"c.olt.s", .Cs, 0x10#5, 0x34#6),
   (c!"c.olt.d", .Cd, 0x11#5, 0x34#6),
   (c!"c.ult.s", .Cs, 0x10#5, 0x35#6),
   (c!"c.ult.d", .Cd, 0x11#5, 0x35#6),
   (c!"c.ole.s", .Cs, 0x10#5, 0x36#6),
   (c!"c.ole.d", .Cd, 0x11#5, 0x36#6),
   (c!"c.ule.s", .Cs, 0x10#5, 0x37#6),
   (c!"c.ule.d", .Cd, 0x11#5, 0x37#6),
   (c!"c.sf.s", .Cs, 0x10#5, 0x38#6),
   (c!"c.sf.d", .Cd, 0x11#5, 0x38#6),
   (c!"c.ngle.s", .Cs, 0x10#5, 0x39#6),
   (c!"c.ngle.d", .Cd, 0x11#5, 0x39#6),
   (c!"c.seq.s", .Cs, 0x10#5, 0x3a#6),
   (c!"c.seq.d", .Cd, 0x11#5, 0x3a#6),
   (c!"c.ngl.s", .Cs, 0x10#5, 0x3b#6),
   (c!"c.ngl.d", .Cd, 0x11#5, 0x3b#6),
   (c!"c.lt.s", .Cs, 0x10#5, 0x3c#6),
   (c!"c.lt.d", .Cd, 0x11#5, 0x3c#6),
   (c!"c.nge.s", .Cs, 0x10#5, 0x3d#6),
   (c!"c.nge.d", .Cd, 0x11#5, 0x3d#6),
   (c!"c.le.s", .Cs, 0x10#5, 0x3e#6),
   (c!"c.le.d", .Cd, 0x11#5, 0x3e#6),
   (c!"c.ngt.s", .Cs, 0x10#5, 0x3f#6),
   (c!"c.ngt.d", .Cd, 0x11#5, 0x3f#6)]

/-- The kinds of rows. -/
inductive RowKind : Row → Prop
  | target_jump_main (m : Str) (o : JTypeOp) (f : BitVec 6) : (m, o, f) ∈ L_target_jump_main → RowKind ⟨m, .target, .main f⟩
  | rsRtOff_br2_main (m : Str) (o : ITypeOp) (f : BitVec 6) : (m, o, f) ∈ L_rsRtOff_br2_main → RowKind ⟨m, .rsRtOff, .main f⟩
  | rsOff_br1_main (m : Str) (o : ITypeOp) (f : BitVec 6) : (m, o, f) ∈ L_rsOff_br1_main → RowKind ⟨m, .rsOff, .main f⟩
  | rtRsSimm_arith_main (m : Str) (o : ITypeOp) (f : BitVec 6) : (m, o, f) ∈ L_rtRsSimm_arith_main → RowKind ⟨m, .rtRsSimm, .main f⟩
  | rtRsUimm_arith_main (m : Str) (o : ITypeOp) (f : BitVec 6) : (m, o, f) ∈ L_rtRsUimm_arith_main → RowKind ⟨m, .rtRsUimm, .main f⟩
  | rtUimm_lui_main (m : Str) (o : ITypeOp) (f : BitVec 6) : (m, o, f) ∈ L_rtUimm_lui_main → RowKind ⟨m, .rtUimm, .main f⟩
  | rtMem_mem_main (m : Str) (o : ITypeOp) (f : BitVec 6) : (m, o, f) ∈ L_rtMem_mem_main → RowKind ⟨m, .rtMem, .main f⟩
  | copMem_mem_main (m : Str) (o : ITypeOp) (f : BitVec 6) : (m, o, f) ∈ L_copMem_mem_main → RowKind ⟨m, .copMem, .main f⟩
  | ftMem_fmem_main (m : Str) (o : ITypeOp) (f : BitVec 6) : (m, o, f) ∈ L_ftMem_fmem_main → RowKind ⟨m, .ftMem, .main f⟩
  | rdRtSa_shift_special (m : Str) (o : RTypeOp) (f : BitVec 6) : (m, o, f) ∈ L_rdRtSa_shift_special → RowKind ⟨m, .rdRtSa, .special f⟩
  | rdRtRs_shiftv_special (m : Str) (o : RTypeOp) (f : BitVec 6) : (m, o, f) ∈ L_rdRtRs_shiftv_special → RowKind ⟨m, .rdRtRs, .special f⟩
  | rs_rs1_special (m : Str) (o : RTypeOp) (f : BitVec 6) : (m, o, f) ∈ L_rs_rs1_special → RowKind ⟨m, .rs, .special f⟩
  | rdRs_jalr_special (m : Str) (o : RTypeOp) (f : BitVec 6) : (m, o, f) ∈ L_rdRs_jalr_special → RowKind ⟨m, .rdRs, .special f⟩
  | code_code_special (m : Str) (o : RTypeOp) (f : BitVec 6) : (m, o, f) ∈ L_code_code_special → RowKind ⟨m, .code, .special f⟩
  | none_bare_special (m : Str) (o : RTypeOp) (f : BitVec 6) : (m, o, f) ∈ L_none_bare_special → RowKind ⟨m, .none, .special f⟩
  | rd_rd1_special (m : Str) (o : RTypeOp) (f : BitVec 6) : (m, o, f) ∈ L_rd_rd1_special → RowKind ⟨m, .rd, .special f⟩
  | rsRt_reg2_special (m : Str) (o : RTypeOp) (f : BitVec 6) : (m, o, f) ∈ L_rsRt_reg2_special → RowKind ⟨m, .rsRt, .special f⟩
  | rsRt_div_special (m : Str) (o : RTypeOp) (f : BitVec 6) : (m, o, f) ∈ L_rsRt_div_special → RowKind ⟨m, .rsRt, .special f⟩
  | rdRsRt_reg3_special (m : Str) (o : RTypeOp) (f : BitVec 6) : (m, o, f) ∈ L_rdRsRt_reg3_special → RowKind ⟨m, .rdRsRt, .special f⟩
  | rsOff_br1_regimm (m : Str) (o : ITypeOp) (f : BitVec 5) : (m, o, f) ∈ L_rsOff_br1_regimm → RowKind ⟨m, .rsOff, .regimm f⟩
  | rsSimm_trapi_regimm (m : Str) (o : ITypeOp) (f : BitVec 5) : (m, o, f) ∈ L_rsSimm_trapi_regimm → RowKind ⟨m, .rsSimm, .regimm f⟩
  | rtC0_cop0_cop (m : Str) (o : RTypeOp) (z : BitVec 2) (f : BitVec 5) : (m, o, z, f) ∈ L_rtC0_cop0_cop → RowKind ⟨m, .rtC0, .cop z f⟩
  | rtFs_cop1_cop (m : Str) (o : RTypeOp) (z : BitVec 2) (f : BitVec 5) : (m, o, z, f) ∈ L_rtFs_cop1_cop → RowKind ⟨m, .rtFs, .cop z f⟩
  | off_bc_bc (m : Str) (o : ITypeOp) (z : BitVec 2) (f : BitVec 5) : (m, o, z, f) ∈ L_off_bc_bc → RowKind ⟨m, .off, .bc z f⟩
  | none_tlb_co (m : Str) (o : RTypeOp) (f : BitVec 6) : (m, o, f) ∈ L_none_tlb_co → RowKind ⟨m, .none, .co f⟩
  | fdFsFt_other_fp (m : Str) (o : RTypeOp) (z : BitVec 5) (f : BitVec 6) : (m, o, z, f) ∈ L_fdFsFt_other_fp → RowKind ⟨m, .fdFsFt, .fp z f⟩
  | fdFs_other_fp (m : Str) (o : RTypeOp) (z : BitVec 5) (f : BitVec 6) : (m, o, z, f) ∈ L_fdFs_other_fp → RowKind ⟨m, .fdFs, .fp z f⟩
  | fsFt_other_fp (m : Str) (o : RTypeOp) (z : BitVec 5) (f : BitVec 6) : (m, o, z, f) ∈ L_fsFt_other_fp → RowKind ⟨m, .fsFt, .fp z f⟩

/-- All rows. -/
def rowsAll : List Row :=
  L_target_jump_main.map (fun e => ⟨e.1, .target, .main e.2.2⟩) ++
  L_rsRtOff_br2_main.map (fun e => ⟨e.1, .rsRtOff, .main e.2.2⟩) ++
  L_rsOff_br1_main.map (fun e => ⟨e.1, .rsOff, .main e.2.2⟩) ++
  L_rtRsSimm_arith_main.map (fun e => ⟨e.1, .rtRsSimm, .main e.2.2⟩) ++
  L_rtRsUimm_arith_main.map (fun e => ⟨e.1, .rtRsUimm, .main e.2.2⟩) ++
  L_rtUimm_lui_main.map (fun e => ⟨e.1, .rtUimm, .main e.2.2⟩) ++
  L_rtMem_mem_main.map (fun e => ⟨e.1, .rtMem, .main e.2.2⟩) ++
  L_copMem_mem_main.map (fun e => ⟨e.1, .copMem, .main e.2.2⟩) ++
  L_ftMem_fmem_main.map (fun e => ⟨e.1, .ftMem, .main e.2.2⟩) ++
  L_rdRtSa_shift_special.map (fun e => ⟨e.1, .rdRtSa, .special e.2.2⟩) ++
  L_rdRtRs_shiftv_special.map (fun e => ⟨e.1, .rdRtRs, .special e.2.2⟩) ++
  L_rs_rs1_special.map (fun e => ⟨e.1, .rs, .special e.2.2⟩) ++
  L_rdRs_jalr_special.map (fun e => ⟨e.1, .rdRs, .special e.2.2⟩) ++
  L_code_code_special.map (fun e => ⟨e.1, .code, .special e.2.2⟩) ++
  L_none_bare_special.map (fun e => ⟨e.1, .none, .special e.2.2⟩) ++
  L_rd_rd1_special.map (fun e => ⟨e.1, .rd, .special e.2.2⟩) ++
  L_rsRt_reg2_special.map (fun e => ⟨e.1, .rsRt, .special e.2.2⟩) ++
  L_rsRt_div_special.map (fun e => ⟨e.1, .rsRt, .special e.2.2⟩) ++
  L_rdRsRt_reg3_special.map (fun e => ⟨e.1, .rdRsRt, .special e.2.2⟩) ++
  L_rsOff_br1_regimm.map (fun e => ⟨e.1, .rsOff, .regimm e.2.2⟩) ++
  L_rsSimm_trapi_regimm.map (fun e => ⟨e.1, .rsSimm, .regimm e.2.2⟩) ++
  L_rtC0_cop0_cop.map (fun e => ⟨e.1, .rtC0, .cop e.2.2.1 e.2.2.2⟩) ++
  L_rtFs_cop1_cop.map (fun e => ⟨e.1, .rtFs, .cop e.2.2.1 e.2.2.2⟩) ++
  L_off_bc_bc.map (fun e => ⟨e.1, .off, .bc e.2.2.1 e.2.2.2⟩) ++
  L_none_tlb_co.map (fun e => ⟨e.1, .none, .co e.2.2⟩) ++
  L_fdFsFt_other_fp.map (fun e => ⟨e.1, .fdFsFt, .fp e.2.2.1 e.2.2.2⟩) ++
  L_fdFs_other_fp.map (fun e => ⟨e.1, .fdFs, .fp e.2.2.1 e.2.2.2⟩) ++
  L_fsFt_other_fp.map (fun e => ⟨e.1, .fsFt, .fp e.2.2.1 e.2.2.2⟩)

theorem table_sub : ∀ r ∈ table, r ∈ rowsAll := by decide +kernel

theorem rowKind (r : Row) (hr : r ∈ table) : RowKind r := by
  have := table_sub r hr
  unfold rowsAll at this
  simp only [List.mem_append, List.mem_map, Prod.exists] at this
  rcases this with ((((((((((((((((((((((((((h | h) | h) | h) | h) | h) | h) | h) | h) | h) | h) | h) | h) | h) | h) | h) | h) | h) | h) | h) | h) | h) | h) | h) | h) | h) | h) | h
  · obtain ⟨m, o, f, h, rfl⟩ := h; exact .target_jump_main m o f h
  · obtain ⟨m, o, f, h, rfl⟩ := h; exact .rsRtOff_br2_main m o f h
  · obtain ⟨m, o, f, h, rfl⟩ := h; exact .rsOff_br1_main m o f h
  · obtain ⟨m, o, f, h, rfl⟩ := h; exact .rtRsSimm_arith_main m o f h
  · obtain ⟨m, o, f, h, rfl⟩ := h; exact .rtRsUimm_arith_main m o f h
  · obtain ⟨m, o, f, h, rfl⟩ := h; exact .rtUimm_lui_main m o f h
  · obtain ⟨m, o, f, h, rfl⟩ := h; exact .rtMem_mem_main m o f h
  · obtain ⟨m, o, f, h, rfl⟩ := h; exact .copMem_mem_main m o f h
  · obtain ⟨m, o, f, h, rfl⟩ := h; exact .ftMem_fmem_main m o f h
  · obtain ⟨m, o, f, h, rfl⟩ := h; exact .rdRtSa_shift_special m o f h
  · obtain ⟨m, o, f, h, rfl⟩ := h; exact .rdRtRs_shiftv_special m o f h
  · obtain ⟨m, o, f, h, rfl⟩ := h; exact .rs_rs1_special m o f h
  · obtain ⟨m, o, f, h, rfl⟩ := h; exact .rdRs_jalr_special m o f h
  · obtain ⟨m, o, f, h, rfl⟩ := h; exact .code_code_special m o f h
  · obtain ⟨m, o, f, h, rfl⟩ := h; exact .none_bare_special m o f h
  · obtain ⟨m, o, f, h, rfl⟩ := h; exact .rd_rd1_special m o f h
  · obtain ⟨m, o, f, h, rfl⟩ := h; exact .rsRt_reg2_special m o f h
  · obtain ⟨m, o, f, h, rfl⟩ := h; exact .rsRt_div_special m o f h
  · obtain ⟨m, o, f, h, rfl⟩ := h; exact .rdRsRt_reg3_special m o f h
  · obtain ⟨m, o, f, h, rfl⟩ := h; exact .rsOff_br1_regimm m o f h
  · obtain ⟨m, o, f, h, rfl⟩ := h; exact .rsSimm_trapi_regimm m o f h
  · obtain ⟨m, o, z, f, h, rfl⟩ := h; exact .rtC0_cop0_cop m o z f h
  · obtain ⟨m, o, z, f, h, rfl⟩ := h; exact .rtFs_cop1_cop m o z f h
  · obtain ⟨m, o, z, f, h, rfl⟩ := h; exact .off_bc_bc m o z f h
  · obtain ⟨m, o, f, h, rfl⟩ := h; exact .none_tlb_co m o f h
  · obtain ⟨m, o, z, f, h, rfl⟩ := h; exact .fdFsFt_other_fp m o z f h
  · obtain ⟨m, o, z, f, h, rfl⟩ := h; exact .fdFs_other_fp m o z f h
  · obtain ⟨m, o, z, f, h, rfl⟩ := h; exact .fsFt_other_fp m o z f h

theorem L_target_jump_main_ok : ∀ e ∈ L_target_jump_main, e.1.map asciiLower = e.1 ∧ classify e.1 = .jump ∧ JTypeOp.fromStr e.1 = some e.2.1 := by decide +kernel
theorem L_rsRtOff_br2_main_ok : ∀ e ∈ L_rsRtOff_br2_main, e.1.map asciiLower = e.1 ∧ classify e.1 = .br2 ∧ ITypeOp.fromStr e.1 = some e.2.1 := by decide +kernel
theorem L_rsOff_br1_main_ok : ∀ e ∈ L_rsOff_br1_main, e.1.map asciiLower = e.1 ∧ classify e.1 = .br1 ∧ ITypeOp.fromStr e.1 = some e.2.1 := by decide +kernel
theorem L_rtRsSimm_arith_main_ok : ∀ e ∈ L_rtRsSimm_arith_main, e.1.map asciiLower = e.1 ∧ classify e.1 = .arith ∧ ITypeOp.fromStr e.1 = some e.2.1 := by decide +kernel
theorem L_rtRsUimm_arith_main_ok : ∀ e ∈ L_rtRsUimm_arith_main, e.1.map asciiLower = e.1 ∧ classify e.1 = .arith ∧ ITypeOp.fromStr e.1 = some e.2.1 := by decide +kernel
theorem L_rtUimm_lui_main_ok : ∀ e ∈ L_rtUimm_lui_main, e.1.map asciiLower = e.1 ∧ classify e.1 = .lui ∧ ITypeOp.fromStr e.1 = some e.2.1 := by decide +kernel
theorem L_rtMem_mem_main_ok : ∀ e ∈ L_rtMem_mem_main, e.1.map asciiLower = e.1 ∧ classify e.1 = .mem ∧ ITypeOp.fromStr e.1 = some e.2.1 := by decide +kernel
theorem L_copMem_mem_main_ok : ∀ e ∈ L_copMem_mem_main, e.1.map asciiLower = e.1 ∧ classify e.1 = .mem ∧ ITypeOp.fromStr e.1 = some e.2.1 := by decide +kernel
theorem L_ftMem_fmem_main_ok : ∀ e ∈ L_ftMem_fmem_main, e.1.map asciiLower = e.1 ∧ classify e.1 = .fmem ∧ ITypeOp.fromStr e.1 = some e.2.1 := by decide +kernel
theorem L_rdRtSa_shift_special_ok : ∀ e ∈ L_rdRtSa_shift_special, e.1.map asciiLower = e.1 ∧ classify e.1 = .shift ∧ RTypeOp.fromStr e.1 = some e.2.1 := by decide +kernel
theorem L_rdRtRs_shiftv_special_ok : ∀ e ∈ L_rdRtRs_shiftv_special, e.1.map asciiLower = e.1 ∧ classify e.1 = .shiftv ∧ RTypeOp.fromStr e.1 = some e.2.1 := by decide +kernel
theorem L_rs_rs1_special_ok : ∀ e ∈ L_rs_rs1_special, e.1.map asciiLower = e.1 ∧ classify e.1 = .rs1 ∧ RTypeOp.fromStr e.1 = some e.2.1 := by decide +kernel
theorem L_rdRs_jalr_special_ok : ∀ e ∈ L_rdRs_jalr_special, e.1.map asciiLower = e.1 ∧ classify e.1 = .jalr ∧ RTypeOp.fromStr e.1 = some e.2.1 := by decide +kernel
theorem L_code_code_special_ok : ∀ e ∈ L_code_code_special, e.1.map asciiLower = e.1 ∧ classify e.1 = .code ∧ RTypeOp.fromStr e.1 = some e.2.1 := by decide +kernel
theorem L_none_bare_special_ok : ∀ e ∈ L_none_bare_special, e.1.map asciiLower = e.1 ∧ classify e.1 = .bare ∧ RTypeOp.fromStr e.1 = some e.2.1 := by decide +kernel
theorem L_rd_rd1_special_ok : ∀ e ∈ L_rd_rd1_special, e.1.map asciiLower = e.1 ∧ classify e.1 = .rd1 ∧ RTypeOp.fromStr e.1 = some e.2.1 := by decide +kernel
theorem L_rsRt_reg2_special_ok : ∀ e ∈ L_rsRt_reg2_special, e.1.map asciiLower = e.1 ∧ classify e.1 = .reg2 ∧ RTypeOp.fromStr e.1 = some e.2.1 := by decide +kernel
theorem L_rsRt_div_special_ok : ∀ e ∈ L_rsRt_div_special, e.1.map asciiLower = e.1 ∧ classify e.1 = .div ∧ RTypeOp.fromStr e.1 = some e.2.1 := by decide +kernel
theorem L_rdRsRt_reg3_special_ok : ∀ e ∈ L_rdRsRt_reg3_special, e.1.map asciiLower = e.1 ∧ classify e.1 = .reg3 ∧ RTypeOp.fromStr e.1 = some e.2.1 := by decide +kernel
theorem L_rsOff_br1_regimm_ok : ∀ e ∈ L_rsOff_br1_regimm, e.1.map asciiLower = e.1 ∧ classify e.1 = .br1 ∧ ITypeOp.fromStr e.1 = some e.2.1 := by decide +kernel
theorem L_rsSimm_trapi_regimm_ok : ∀ e ∈ L_rsSimm_trapi_regimm, e.1.map asciiLower = e.1 ∧ classify e.1 = .trapi ∧ ITypeOp.fromStr e.1 = some e.2.1 := by decide +kernel
theorem L_rtC0_cop0_cop_ok : ∀ e ∈ L_rtC0_cop0_cop, e.1.map asciiLower = e.1 ∧ classify e.1 = .cop0 ∧ RTypeOp.fromStr e.1 = some e.2.1 := by decide +kernel
theorem L_rtFs_cop1_cop_ok : ∀ e ∈ L_rtFs_cop1_cop, e.1.map asciiLower = e.1 ∧ classify e.1 = .cop1 ∧ RTypeOp.fromStr e.1 = some e.2.1 := by decide +kernel
theorem L_off_bc_bc_ok : ∀ e ∈ L_off_bc_bc, e.1.map asciiLower = e.1 ∧ classify e.1 = .bc ∧ ITypeOp.fromStr e.1 = some e.2.1 := by decide +kernel
theorem L_none_tlb_co_ok : ∀ e ∈ L_none_tlb_co, e.1.map asciiLower = e.1 ∧ classify e.1 = .tlb ∧ RTypeOp.fromStr e.1 = some e.2.1 := by decide +kernel
theorem L_fdFsFt_other_fp_ok : ∀ e ∈ L_fdFsFt_other_fp, e.1.map asciiLower = e.1 ∧ classify e.1 = .other ∧ RTypeOp.fromStr e.1 = some e.2.1 := by decide +kernel
theorem L_fdFs_other_fp_ok : ∀ e ∈ L_fdFs_other_fp, e.1.map asciiLower = e.1 ∧ classify e.1 = .other ∧ RTypeOp.fromStr e.1 = some e.2.1 := by decide +kernel
theorem L_fsFt_other_fp_ok : ∀ e ∈ L_fsFt_other_fp, e.1.map asciiLower = e.1 ∧ classify e.1 = .other ∧ True := by decide +kernel

end Mips
