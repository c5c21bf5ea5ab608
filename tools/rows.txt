j JMips.JTypeOp.J Mips.Isa.Syn.target Mips.Cls.jump Mips.Isa.Code.main 0x02#6
jal JMips.JTypeOp.Jal Mips.Isa.Syn.target Mips.Cls.jump Mips.Isa.Code.main 0x03#6
beq IMips.ITypeOp.Beq Mips.Isa.Syn.rsRtOff Mips.Cls.br2 Mips.Isa.Code.main 0x04#6
bne IMips.ITypeOp.Bne Mips.Isa.Syn.rsRtOff Mips.Cls.br2 Mips.Isa.Code.main 0x05#6
blez IMips.ITypeOp.Blez Mips.Isa.Syn.rsOff Mips.Cls.br1 Mips.Isa.Code.main 0x06#6
bgtz IMips.ITypeOp.Bgtz Mips.Isa.Syn.rsOff Mips.Cls.br1 Mips.Isa.Code.main 0x07#6
addi IMips.ITypeOp.Addi Mips.Isa.Syn.rtRsSimm Mips.Cls.arith Mips.Isa.Code.main 0x08#6
addiu IMips.ITypeOp.Addiu Mips.Isa.Syn.rtRsSimm Mips.Cls.arith Mips.Isa.Code.main 0x09#6
slti IMips.ITypeOp.Slti Mips.Isa.Syn.rtRsSimm Mips.Cls.arith Mips.Isa.Code.main 0x0a#6
sltiu IMips.ITypeOp.Sltiu Mips.Isa.Syn.rtRsSimm Mips.Cls.arith Mips.Isa.Code.main 0x0b#6
andi IMips.ITypeOp.Andi Mips.Isa.Syn.rtRsUimm Mips.Cls.arith Mips.Isa.Code.main 0x0c#6
ori IMips.ITypeOp.Ori Mips.Isa.Syn.rtRsUimm Mips.Cls.arith Mips.Isa.Code.main 0x0d#6
xori IMips.ITypeOp.Xori Mips.Isa.Syn.rtRsUimm Mips.Cls.arith Mips.Isa.Code.main 0x0e#6
lui IMips.ITypeOp.Lui Mips.Isa.Syn.rtUimm Mips.Cls.lui Mips.Isa.Code.main 0x0f#6
beql IMips.ITypeOp.Beql Mips.Isa.Syn.rsRtOff Mips.Cls.br2 Mips.Isa.Code.main 0x14#6
bnel IMips.ITypeOp.Bnel Mips.Isa.Syn.rsRtOff Mips.Cls.br2 Mips.Isa.Code.main 0x15#6
blezl IMips.ITypeOp.Blezl Mips.Isa.Syn.rsOff Mips.Cls.br1 Mips.Isa.Code.main 0x16#6
bgtzl IMips.ITypeOp.Bgtzl Mips.Isa.Syn.rsOff Mips.Cls.br1 Mips.Isa.Code.main 0x17#6
daddi IMips.ITypeOp.Daddi Mips.Isa.Syn.rtRsSimm Mips.Cls.arith Mips.Isa.Code.main 0x18#6
daddiu IMips.ITypeOp.Daddiu Mips.Isa.Syn.rtRsSimm Mips.Cls.arith Mips.Isa.Code.main 0x19#6
ldl IMips.ITypeOp.Ldl Mips.Isa.Syn.rtMem Mips.Cls.mem Mips.Isa.Code.main 0x1a#6
ldr IMips.ITypeOp.Ldr Mips.Isa.Syn.rtMem Mips.Cls.mem Mips.Isa.Code.main 0x1b#6
lb IMips.ITypeOp.Lb Mips.Isa.Syn.rtMem Mips.Cls.mem Mips.Isa.Code.main 0x20#6
lh IMips.ITypeOp.Lh Mips.Isa.Syn.rtMem Mips.Cls.mem Mips.Isa.Code.main 0x21#6
lwl IMips.ITypeOp.Lwl Mips.Isa.Syn.rtMem Mips.Cls.mem Mips.Isa.Code.main 0x22#6
lw IMips.ITypeOp.Lw Mips.Isa.Syn.rtMem Mips.Cls.mem Mips.Isa.Code.main 0x23#6
lbu IMips.ITypeOp.Lbu Mips.Isa.Syn.rtMem Mips.Cls.mem Mips.Isa.Code.main 0x24#6
lhu IMips.ITypeOp.Lhu Mips.Isa.Syn.rtMem Mips.Cls.mem Mips.Isa.Code.main 0x25#6
lwr IMips.ITypeOp.Lwr Mips.Isa.Syn.rtMem Mips.Cls.mem Mips.Isa.Code.main 0x26#6
lwu IMips.ITypeOp.Lwu Mips.Isa.Syn.rtMem Mips.Cls.mem Mips.Isa.Code.main 0x27#6
sb IMips.ITypeOp.Sb Mips.Isa.Syn.rtMem Mips.Cls.mem Mips.Isa.Code.main 0x28#6
sh IMips.ITypeOp.Sh Mips.Isa.Syn.rtMem Mips.Cls.mem Mips.Isa.Code.main 0x29#6
swl IMips.ITypeOp.Swl Mips.Isa.Syn.rtMem Mips.Cls.mem Mips.Isa.Code.main 0x2a#6
sw IMips.ITypeOp.Sw Mips.Isa.Syn.rtMem Mips.Cls.mem Mips.Isa.Code.main 0x2b#6
sdl IMips.ITypeOp.Sdl Mips.Isa.Syn.rtMem Mips.Cls.mem Mips.Isa.Code.main 0x2c#6
sdr IMips.ITypeOp.Sdr Mips.Isa.Syn.rtMem Mips.Cls.mem Mips.Isa.Code.main 0x2d#6
swr IMips.ITypeOp.Swr Mips.Isa.Syn.rtMem Mips.Cls.mem Mips.Isa.Code.main 0x2e#6
cache IMips.ITypeOp.Cache Mips.Isa.Syn.copMem Mips.Cls.mem Mips.Isa.Code.main 0x2f#6
ll IMips.ITypeOp.Ll Mips.Isa.Syn.rtMem Mips.Cls.mem Mips.Isa.Code.main 0x30#6
lwc1 IMips.ITypeOp.Lwc1 Mips.Isa.Syn.ftMem Mips.Cls.fmem Mips.Isa.Code.main 0x31#6
lld IMips.ITypeOp.Lld Mips.Isa.Syn.rtMem Mips.Cls.mem Mips.Isa.Code.main 0x34#6
ldc1 IMips.ITypeOp.Ldc1 Mips.Isa.Syn.ftMem Mips.Cls.fmem Mips.Isa.Code.main 0x35#6
ld IMips.ITypeOp.Ld Mips.Isa.Syn.rtMem Mips.Cls.mem Mips.Isa.Code.main 0x37#6
sc IMips.ITypeOp.Sc Mips.Isa.Syn.rtMem Mips.Cls.mem Mips.Isa.Code.main 0x38#6
swc1 IMips.ITypeOp.Swc1 Mips.Isa.Syn.ftMem Mips.Cls.fmem Mips.Isa.Code.main 0x39#6
scd IMips.ITypeOp.Scd Mips.Isa.Syn.rtMem Mips.Cls.mem Mips.Isa.Code.main 0x3c#6
sdc1 IMips.ITypeOp.Sdc1 Mips.Isa.Syn.ftMem Mips.Cls.fmem Mips.Isa.Code.main 0x3d#6
sd IMips.ITypeOp.Sd Mips.Isa.Syn.rtMem Mips.Cls.mem Mips.Isa.Code.main 0x3f#6
sll RMips.RTypeOp.Sll Mips.Isa.Syn.rdRtSa Mips.Cls.shift Mips.Isa.Code.special 0x00#6
srl RMips.RTypeOp.Srl Mips.Isa.Syn.rdRtSa Mips.Cls.shift Mips.Isa.Code.special 0x02#6
sra RMips.RTypeOp.Sra Mips.Isa.Syn.rdRtSa Mips.Cls.shift Mips.Isa.Code.special 0x03#6
sllv RMips.RTypeOp.Sllv Mips.Isa.Syn.rdRtRs Mips.Cls.shiftv Mips.Isa.Code.special 0x04#6
srlv RMips.RTypeOp.Srlv Mips.Isa.Syn.rdRtRs Mips.Cls.shiftv Mips.Isa.Code.special 0x06#6
srav RMips.RTypeOp.Srav Mips.Isa.Syn.rdRtRs Mips.Cls.shiftv Mips.Isa.Code.special 0x07#6
jr RMips.RTypeOp.Jr Mips.Isa.Syn.rs Mips.Cls.rs1 Mips.Isa.Code.special 0x08#6
jalr RMips.RTypeOp.Jalr Mips.Isa.Syn.rdRs Mips.Cls.jalr Mips.Isa.Code.special 0x09#6
syscall RMips.RTypeOp.Syscall Mips.Isa.Syn.code Mips.Cls.code Mips.Isa.Code.special 0x0c#6
break RMips.RTypeOp.Break Mips.Isa.Syn.code Mips.Cls.code Mips.Isa.Code.special 0x0d#6
sync RMips.RTypeOp.Sync Mips.Isa.Syn.none Mips.Cls.bare Mips.Isa.Code.special 0x0f#6
mfhi RMips.RTypeOp.Mfhi Mips.Isa.Syn.rd Mips.Cls.rd1 Mips.Isa.Code.special 0x10#6
mthi RMips.RTypeOp.Mthi Mips.Isa.Syn.rs Mips.Cls.rs1 Mips.Isa.Code.special 0x11#6
mflo RMips.RTypeOp.Mflo Mips.Isa.Syn.rd Mips.Cls.rd1 Mips.Isa.Code.special 0x12#6
mtlo RMips.RTypeOp.Mtlo Mips.Isa.Syn.rs Mips.Cls.rs1 Mips.Isa.Code.special 0x13#6
dsllv RMips.RTypeOp.Dsllv Mips.Isa.Syn.rdRtRs Mips.Cls.shiftv Mips.Isa.Code.special 0x14#6
dsrlv RMips.RTypeOp.Dsrlv Mips.Isa.Syn.rdRtRs Mips.Cls.shiftv Mips.Isa.Code.special 0x16#6
dsrav RMips.RTypeOp.Dsrav Mips.Isa.Syn.rdRtRs Mips.Cls.shiftv Mips.Isa.Code.special 0x17#6
mult RMips.RTypeOp.Mult Mips.Isa.Syn.rsRt Mips.Cls.reg2 Mips.Isa.Code.special 0x18#6
multu RMips.RTypeOp.Multu Mips.Isa.Syn.rsRt Mips.Cls.reg2 Mips.Isa.Code.special 0x19#6
div RMips.RTypeOp.Div Mips.Isa.Syn.rsRt Mips.Cls.div Mips.Isa.Code.special 0x1a#6
divu RMips.RTypeOp.Divu Mips.Isa.Syn.rsRt Mips.Cls.div Mips.Isa.Code.special 0x1b#6
dmult RMips.RTypeOp.Dmult Mips.Isa.Syn.rsRt Mips.Cls.reg2 Mips.Isa.Code.special 0x1c#6
dmultu RMips.RTypeOp.Dmultu Mips.Isa.Syn.rsRt Mips.Cls.reg2 Mips.Isa.Code.special 0x1d#6
ddiv RMips.RTypeOp.Ddiv Mips.Isa.Syn.rsRt Mips.Cls.div Mips.Isa.Code.special 0x1e#6
ddivu RMips.RTypeOp.Ddivu Mips.Isa.Syn.rsRt Mips.Cls.div Mips.Isa.Code.special 0x1f#6
add RMips.RTypeOp.Add Mips.Isa.Syn.rdRsRt Mips.Cls.reg3 Mips.Isa.Code.special 0x20#6
addu RMips.RTypeOp.Addu Mips.Isa.Syn.rdRsRt Mips.Cls.reg3 Mips.Isa.Code.special 0x21#6
sub RMips.RTypeOp.Sub Mips.Isa.Syn.rdRsRt Mips.Cls.reg3 Mips.Isa.Code.special 0x22#6
subu RMips.RTypeOp.Subu Mips.Isa.Syn.rdRsRt Mips.Cls.reg3 Mips.Isa.Code.special 0x23#6
and RMips.RTypeOp.And Mips.Isa.Syn.rdRsRt Mips.Cls.reg3 Mips.Isa.Code.special 0x24#6
or RMips.RTypeOp.Or Mips.Isa.Syn.rdRsRt Mips.Cls.reg3 Mips.Isa.Code.special 0x25#6
xor RMips.RTypeOp.Xor Mips.Isa.Syn.rdRsRt Mips.Cls.reg3 Mips.Isa.Code.special 0x26#6
nor RMips.RTypeOp.Nor Mips.Isa.Syn.rdRsRt Mips.Cls.reg3 Mips.Isa.Code.special 0x27#6
slt RMips.RTypeOp.Slt Mips.Isa.Syn.rdRsRt Mips.Cls.reg3 Mips.Isa.Code.special 0x2a#6
sltu RMips.RTypeOp.Sltu Mips.Isa.Syn.rdRsRt Mips.Cls.reg3 Mips.Isa.Code.special 0x2b#6
dadd RMips.RTypeOp.Dadd Mips.Isa.Syn.rdRsRt Mips.Cls.reg3 Mips.Isa.Code.special 0x2c#6
daddu RMips.RTypeOp.Daddu Mips.Isa.Syn.rdRsRt Mips.Cls.reg3 Mips.Isa.Code.special 0x2d#6
dsub RMips.RTypeOp.Dsub Mips.Isa.Syn.rdRsRt Mips.Cls.reg3 Mips.Isa.Code.special 0x2e#6
dsubu RMips.RTypeOp.Dsubu Mips.Isa.Syn.rdRsRt Mips.Cls.reg3 Mips.Isa.Code.special 0x2f#6
tge RMips.RTypeOp.Tge Mips.Isa.Syn.rsRt Mips.Cls.reg2 Mips.Isa.Code.special 0x30#6
tgeu RMips.RTypeOp.Tgeu Mips.Isa.Syn.rsRt Mips.Cls.reg2 Mips.Isa.Code.special 0x31#6
tlt RMips.RTypeOp.Tlt Mips.Isa.Syn.rsRt Mips.Cls.reg2 Mips.Isa.Code.special 0x32#6
tltu RMips.RTypeOp.Tltu Mips.Isa.Syn.rsRt Mips.Cls.reg2 Mips.Isa.Code.special 0x33#6
teq RMips.RTypeOp.Teq Mips.Isa.Syn.rsRt Mips.Cls.reg2 Mips.Isa.Code.special 0x34#6
tne RMips.RTypeOp.Tne Mips.Isa.Syn.rsRt Mips.Cls.reg2 Mips.Isa.Code.special 0x36#6
dsll RMips.RTypeOp.Dsll Mips.Isa.Syn.rdRtSa Mips.Cls.shift Mips.Isa.Code.special 0x38#6
dsrl RMips.RTypeOp.Dsrl Mips.Isa.Syn.rdRtSa Mips.Cls.shift Mips.Isa.Code.special 0x3a#6
dsra RMips.RTypeOp.Dsra Mips.Isa.Syn.rdRtSa Mips.Cls.shift Mips.Isa.Code.special 0x3b#6
dsll32 RMips.RTypeOp.Dsll32 Mips.Isa.Syn.rdRtSa Mips.Cls.shift Mips.Isa.Code.special 0x3c#6
dsrl32 RMips.RTypeOp.Dsrl32 Mips.Isa.Syn.rdRtSa Mips.Cls.shift Mips.Isa.Code.special 0x3e#6
dsra32 RMips.RTypeOp.Dsra32 Mips.Isa.Syn.rdRtSa Mips.Cls.shift Mips.Isa.Code.special 0x3f#6
bltz IMips.ITypeOp.Bltz Mips.Isa.Syn.rsOff Mips.Cls.br1 Mips.Isa.Code.regimm 0x00#5
bgez IMips.ITypeOp.Bgez Mips.Isa.Syn.rsOff Mips.Cls.br1 Mips.Isa.Code.regimm 0x01#5
bltzl IMips.ITypeOp.Bltzl Mips.Isa.Syn.rsOff Mips.Cls.br1 Mips.Isa.Code.regimm 0x02#5
bgezl IMips.ITypeOp.Bgezl Mips.Isa.Syn.rsOff Mips.Cls.br1 Mips.Isa.Code.regimm 0x03#5
tgei IMips.ITypeOp.Tgei Mips.Isa.Syn.rsSimm Mips.Cls.trapi Mips.Isa.Code.regimm 0x08#5
tgeiu IMips.ITypeOp.Tgeiu Mips.Isa.Syn.rsSimm Mips.Cls.trapi Mips.Isa.Code.regimm 0x09#5
tlti IMips.ITypeOp.Tlti Mips.Isa.Syn.rsSimm Mips.Cls.trapi Mips.Isa.Code.regimm 0x0a#5
tltiu IMips.ITypeOp.Tltiu Mips.Isa.Syn.rsSimm Mips.Cls.trapi Mips.Isa.Code.regimm 0x0b#5
teqi IMips.ITypeOp.Teqi Mips.Isa.Syn.rsSimm Mips.Cls.trapi Mips.Isa.Code.regimm 0x0c#5
tnei IMips.ITypeOp.Tnei Mips.Isa.Syn.rsSimm Mips.Cls.trapi Mips.Isa.Code.regimm 0x0e#5
bltzal IMips.ITypeOp.Bltzal Mips.Isa.Syn.rsOff Mips.Cls.br1 Mips.Isa.Code.regimm 0x10#5
bgezal IMips.ITypeOp.Bgezal Mips.Isa.Syn.rsOff Mips.Cls.br1 Mips.Isa.Code.regimm 0x11#5
bltzall IMips.ITypeOp.Bltzall Mips.Isa.Syn.rsOff Mips.Cls.br1 Mips.Isa.Code.regimm 0x12#5
bgezall IMips.ITypeOp.Bgezall Mips.Isa.Syn.rsOff Mips.Cls.br1 Mips.Isa.Code.regimm 0x13#5
mfc0 RMips.RTypeOp.Mfc0 Mips.Isa.Syn.rtC0 Mips.Cls.cop0 Mips.Isa.Code.cop 0x0#2 0x00#5
dmfc0 RMips.RTypeOp.Dmfc0 Mips.Isa.Syn.rtC0 Mips.Cls.cop0 Mips.Isa.Code.cop 0x0#2 0x01#5
cfc0 RMips.RTypeOp.Cfc0 Mips.Isa.Syn.rtC0 Mips.Cls.cop0 Mips.Isa.Code.cop 0x0#2 0x02#5
mtc0 RMips.RTypeOp.Mtc0 Mips.Isa.Syn.rtC0 Mips.Cls.cop0 Mips.Isa.Code.cop 0x0#2 0x04#5
dmtc0 RMips.RTypeOp.Dmtc0 Mips.Isa.Syn.rtC0 Mips.Cls.cop0 Mips.Isa.Code.cop 0x0#2 0x05#5
ctc0 RMips.RTypeOp.Ctc0 Mips.Isa.Syn.rtC0 Mips.Cls.cop0 Mips.Isa.Code.cop 0x0#2 0x06#5
mfc1 RMips.RTypeOp.Mfc1 Mips.Isa.Syn.rtFs Mips.Cls.cop1 Mips.Isa.Code.cop 0x1#2 0x00#5
dmfc1 RMips.RTypeOp.Dmfc1 Mips.Isa.Syn.rtFs Mips.Cls.cop1 Mips.Isa.Code.cop 0x1#2 0x01#5
cfc1 RMips.RTypeOp.Cfc1 Mips.Isa.Syn.rtFs Mips.Cls.cop1 Mips.Isa.Code.cop 0x1#2 0x02#5
mtc1 RMips.RTypeOp.Mtc1 Mips.Isa.Syn.rtFs Mips.Cls.cop1 Mips.Isa.Code.cop 0x1#2 0x04#5
dmtc1 RMips.RTypeOp.Dmtc1 Mips.Isa.Syn.rtFs Mips.Cls.cop1 Mips.Isa.Code.cop 0x1#2 0x05#5
ctc1 RMips.RTypeOp.Ctc1 Mips.Isa.Syn.rtFs Mips.Cls.cop1 Mips.Isa.Code.cop 0x1#2 0x06#5
bc0f IMips.ITypeOp.Bc0f Mips.Isa.Syn.off Mips.Cls.bc Mips.Isa.Code.bc 0x0#2 0x00#5
bc0t IMips.ITypeOp.Bc0t Mips.Isa.Syn.off Mips.Cls.bc Mips.Isa.Code.bc 0x0#2 0x01#5
bc0fl IMips.ITypeOp.Bc0fl Mips.Isa.Syn.off Mips.Cls.bc Mips.Isa.Code.bc 0x0#2 0x02#5
bc0tl IMips.ITypeOp.Bc0tl Mips.Isa.Syn.off Mips.Cls.bc Mips.Isa.Code.bc 0x0#2 0x03#5
bc1f IMips.ITypeOp.Bc1f Mips.Isa.Syn.off Mips.Cls.bc Mips.Isa.Code.bc 0x1#2 0x00#5
bc1t IMips.ITypeOp.Bc1t Mips.Isa.Syn.off Mips.Cls.bc Mips.Isa.Code.bc 0x1#2 0x01#5
bc1fl IMips.ITypeOp.Bc1fl Mips.Isa.Syn.off Mips.Cls.bc Mips.Isa.Code.bc 0x1#2 0x02#5
bc1tl IMips.ITypeOp.Bc1tl Mips.Isa.Syn.off Mips.Cls.bc Mips.Isa.Code.bc 0x1#2 0x03#5
tlbr RMips.RTypeOp.Tlbr Mips.Isa.Syn.none Mips.Cls.tlb Mips.Isa.Code.co 0x01#6
tlbwi RMips.RTypeOp.Tlbwi Mips.Isa.Syn.none Mips.Cls.tlb Mips.Isa.Code.co 0x02#6
tlbwr RMips.RTypeOp.Tlbwr Mips.Isa.Syn.none Mips.Cls.tlb Mips.Isa.Code.co 0x06#6
tlbp RMips.RTypeOp.Tlbp Mips.Isa.Syn.none Mips.Cls.tlb Mips.Isa.Code.co 0x08#6
eret RMips.RTypeOp.Eret Mips.Isa.Syn.none Mips.Cls.tlb Mips.Isa.Code.co 0x18#6
add.s RMips.RTypeOp.AddS Mips.Isa.Syn.fdFsFt Mips.Cls.other Mips.Isa.Code.fp 0x10#5 0x00#6
add.d RMips.RTypeOp.AddD Mips.Isa.Syn.fdFsFt Mips.Cls.other Mips.Isa.Code.fp 0x11#5 0x00#6
sub.s RMips.RTypeOp.SubS Mips.Isa.Syn.fdFsFt Mips.Cls.other Mips.Isa.Code.fp 0x10#5 0x01#6
sub.d RMips.RTypeOp.SubD Mips.Isa.Syn.fdFsFt Mips.Cls.other Mips.Isa.Code.fp 0x11#5 0x01#6
mul.s RMips.RTypeOp.MulS Mips.Isa.Syn.fdFsFt Mips.Cls.other Mips.Isa.Code.fp 0x10#5 0x02#6
mul.d RMips.RTypeOp.MulD Mips.Isa.Syn.fdFsFt Mips.Cls.other Mips.Isa.Code.fp 0x11#5 0x02#6
div.s RMips.RTypeOp.DivS Mips.Isa.Syn.fdFsFt Mips.Cls.other Mips.Isa.Code.fp 0x10#5 0x03#6
div.d RMips.RTypeOp.DivD Mips.Isa.Syn.fdFsFt Mips.Cls.other Mips.Isa.Code.fp 0x11#5 0x03#6
sqrt.s RMips.RTypeOp.SqrtS Mips.Isa.Syn.fdFs Mips.Cls.other Mips.Isa.Code.fp 0x10#5 0x04#6
sqrt.d RMips.RTypeOp.SqrtD Mips.Isa.Syn.fdFs Mips.Cls.other Mips.Isa.Code.fp 0x11#5 0x04#6
abs.s RMips.RTypeOp.AbsS Mips.Isa.Syn.fdFs Mips.Cls.other Mips.Isa.Code.fp 0x10#5 0x05#6
abs.d RMips.RTypeOp.AbsD Mips.Isa.Syn.fdFs Mips.Cls.other Mips.Isa.Code.fp 0x11#5 0x05#6
mov.s RMips.RTypeOp.MovS Mips.Isa.Syn.fdFs Mips.Cls.other Mips.Isa.Code.fp 0x10#5 0x06#6
mov.d RMips.RTypeOp.MovD Mips.Isa.Syn.fdFs Mips.Cls.other Mips.Isa.Code.fp 0x11#5 0x06#6
neg.s RMips.RTypeOp.NegS Mips.Isa.Syn.fdFs Mips.Cls.other Mips.Isa.Code.fp 0x10#5 0x07#6
neg.d RMips.RTypeOp.NegD Mips.Isa.Syn.fdFs Mips.Cls.other Mips.Isa.Code.fp 0x11#5 0x07#6
round.l.s RMips.RTypeOp.RoundLS Mips.Isa.Syn.fdFs Mips.Cls.other Mips.Isa.Code.fp 0x10#5 0x08#6
round.l.d RMips.RTypeOp.RoundLD Mips.Isa.Syn.fdFs Mips.Cls.other Mips.Isa.Code.fp 0x11#5 0x08#6
trunc.l.s RMips.RTypeOp.TruncLS Mips.Isa.Syn.fdFs Mips.Cls.other Mips.Isa.Code.fp 0x10#5 0x09#6
trunc.l.d RMips.RTypeOp.TruncLD Mips.Isa.Syn.fdFs Mips.Cls.other Mips.Isa.Code.fp 0x11#5 0x09#6
ceil.l.s RMips.RTypeOp.CeilLS Mips.Isa.Syn.fdFs Mips.Cls.other Mips.Isa.Code.fp 0x10#5 0x0a#6
ceil.l.d RMips.RTypeOp.CeilLD Mips.Isa.Syn.fdFs Mips.Cls.other Mips.Isa.Code.fp 0x11#5 0x0a#6
floor.l.s RMips.RTypeOp.FloorLS Mips.Isa.Syn.fdFs Mips.Cls.other Mips.Isa.Code.fp 0x10#5 0x0b#6
floor.l.d RMips.RTypeOp.FloorLD Mips.Isa.Syn.fdFs Mips.Cls.other Mips.Isa.Code.fp 0x11#5 0x0b#6
round.w.s RMips.RTypeOp.RoundWS Mips.Isa.Syn.fdFs Mips.Cls.other Mips.Isa.Code.fp 0x10#5 0x0c#6
round.w.d RMips.RTypeOp.RoundWD Mips.Isa.Syn.fdFs Mips.Cls.other Mips.Isa.Code.fp 0x11#5 0x0c#6
trunc.w.s RMips.RTypeOp.TruncWS Mips.Isa.Syn.fdFs Mips.Cls.other Mips.Isa.Code.fp 0x10#5 0x0d#6
trunc.w.d RMips.RTypeOp.TruncWD Mips.Isa.Syn.fdFs Mips.Cls.other Mips.Isa.Code.fp 0x11#5 0x0d#6
ceil.w.s RMips.RTypeOp.CeilWS Mips.Isa.Syn.fdFs Mips.Cls.other Mips.Isa.Code.fp 0x10#5 0x0e#6
ceil.w.d RMips.RTypeOp.CeilWD Mips.Isa.Syn.fdFs Mips.Cls.other Mips.Isa.Code.fp 0x11#5 0x0e#6
floor.w.s RMips.RTypeOp.FloorWS Mips.Isa.Syn.fdFs Mips.Cls.other Mips.Isa.Code.fp 0x10#5 0x0f#6
floor.w.d RMips.RTypeOp.FloorWD Mips.Isa.Syn.fdFs Mips.Cls.other Mips.Isa.Code.fp 0x11#5 0x0f#6
cvt.s.d RMips.RTypeOp.CvtSD Mips.Isa.Syn.fdFs Mips.Cls.other Mips.Isa.Code.fp 0x11#5 0x20#6
cvt.s.w RMips.RTypeOp.CvtSW Mips.Isa.Syn.fdFs Mips.Cls.other Mips.Isa.Code.fp 0x14#5 0x20#6
cvt.s.l RMips.RTypeOp.CvtSL Mips.Isa.Syn.fdFs Mips.Cls.other Mips.Isa.Code.fp 0x15#5 0x20#6
cvt.d.s RMips.RTypeOp.CvtDS Mips.Isa.Syn.fdFs Mips.Cls.other Mips.Isa.Code.fp 0x10#5 0x21#6
cvt.d.w RMips.RTypeOp.CvtDW Mips.Isa.Syn.fdFs Mips.Cls.other Mips.Isa.Code.fp 0x14#5 0x21#6
cvt.d.l RMips.RTypeOp.CvtDL Mips.Isa.Syn.fdFs Mips.Cls.other Mips.Isa.Code.fp 0x15#5 0x21#6
cvt.w.s RMips.RTypeOp.CvtWS Mips.Isa.Syn.fdFs Mips.Cls.other Mips.Isa.Code.fp 0x10#5 0x24#6
cvt.w.d RMips.RTypeOp.CvtWD Mips.Isa.Syn.fdFs Mips.Cls.other Mips.Isa.Code.fp 0x11#5 0x24#6
cvt.l.s RMips.RTypeOp.CvtLS Mips.Isa.Syn.fdFs Mips.Cls.other Mips.Isa.Code.fp 0x10#5 0x25#6
cvt.l.d RMips.RTypeOp.CvtLD Mips.Isa.Syn.fdFs Mips.Cls.other Mips.Isa.Code.fp 0x11#5 0x25#6
c.f.s ? Mips.Isa.Syn.fsFt Mips.Cls.other Mips.Isa.Code.fp 0x10#5 0x30#6
c.f.d ? Mips.Isa.Syn.fsFt Mips.Cls.other Mips.Isa.Code.fp 0x11#5 0x30#6
c.un.s ? Mips.Isa.Syn.fsFt Mips.Cls.other Mips.Isa.Code.fp 0x10#5 0x31#6
c.un.d ? Mips.Isa.Syn.fsFt Mips.Cls.other Mips.Isa.Code.fp 0x11#5 0x31#6
c.eq.s ? Mips.Isa.Syn.fsFt Mips.Cls.other Mips.Isa.Code.fp 0x10#5 0x32#6
c.eq.d ? Mips.Isa.Syn.fsFt Mips.Cls.other Mips.Isa.Code.fp 0x11#5 0x32#6
c.ueq.s ? Mips.Isa.Syn.fsFt Mips.Cls.other Mips.Isa.Code.fp 0x10#5 0x33#6
c.ueq.d ? Mips.Isa.Syn.fsFt Mips.Cls.other Mips.Isa.Code.fp 0x11#5 0x33#6
c.olt.s ? Mips.Isa.Syn.fsFt Mips.Cls.other Mips.Isa.Code.fp 0x10#5 0x34#6
c.olt.d ? Mips.Isa.Syn.fsFt Mips.Cls.other Mips.Isa.Code.fp 0x11#5 0x34#6
c.ult.s ? Mips.Isa.Syn.fsFt Mips.Cls.other Mips.Isa.Code.fp 0x10#5 0x35#6
c.ult.d ? Mips.Isa.Syn.fsFt Mips.Cls.other Mips.Isa.Code.fp 0x11#5 0x35#6
c.ole.s ? Mips.Isa.Syn.fsFt Mips.Cls.other Mips.Isa.Code.fp 0x10#5 0x36#6
c.ole.d ? Mips.Isa.Syn.fsFt Mips.Cls.other Mips.Isa.Code.fp 0x11#5 0x36#6
c.ule.s ? Mips.Isa.Syn.fsFt Mips.Cls.other Mips.Isa.Code.fp 0x10#5 0x37#6
c.ule.d ? Mips.Isa.Syn.fsFt Mips.Cls.other Mips.Isa.Code.fp 0x11#5 0x37#6
c.sf.s ? Mips.Isa.Syn.fsFt Mips.Cls.other Mips.Isa.Code.fp 0x10#5 0x38#6
c.sf.d ? Mips.Isa.Syn.fsFt Mips.Cls.other Mips.Isa.Code.fp 0x11#5 0x38#6
c.ngle.s ? Mips.Isa.Syn.fsFt Mips.Cls.other Mips.Isa.Code.fp 0x10#5 0x39#6
c.ngle.d ? Mips.Isa.Syn.fsFt Mips.Cls.other Mips.Isa.Code.fp 0x11#5 0x39#6
c.seq.s ? Mips.Isa.Syn.fsFt Mips.Cls.other Mips.Isa.Code.fp 0x10#5 0x3a#6
c.seq.d ? Mips.Isa.Syn.fsFt Mips.Cls.other Mips.Isa.Code.fp 0x11#5 0x3a#6
c.ngl.s ? Mips.Isa.Syn.fsFt Mips.Cls.other Mips.Isa.Code.fp 0x10#5 0x3b#6
c.ngl.d ? Mips.Isa.Syn.fsFt Mips.Cls.other Mips.Isa.Code.fp 0x11#5 0x3b#6
c.lt.s ? Mips.Isa.Syn.fsFt Mips.Cls.other Mips.Isa.Code.fp 0x10#5 0x3c#6
c.lt.d ? Mips.Isa.Syn.fsFt Mips.Cls.other Mips.Isa.Code.fp 0x11#5 0x3c#6
c.nge.s ? Mips.Isa.Syn.fsFt Mips.Cls.other Mips.Isa.Code.fp 0x10#5 0x3d#6
c.nge.d ? Mips.Isa.Syn.fsFt Mips.Cls.other Mips.Isa.Code.fp 0x11#5 0x3d#6
c.le.s ? Mips.Isa.Syn.fsFt Mips.Cls.other Mips.Isa.Code.fp 0x10#5 0x3e#6
c.le.d ? Mips.Isa.Syn.fsFt Mips.Cls.other Mips.Isa.Code.fp 0x11#5 0x3e#6
c.ngt.s ? Mips.Isa.Syn.fsFt Mips.Cls.other Mips.Isa.Code.fp 0x10#5 0x3f#6
c.ngt.d ? Mips.Isa.Syn.fsFt Mips.Cls.other Mips.Isa.Code.fp 0x11#5 0x3f#6
