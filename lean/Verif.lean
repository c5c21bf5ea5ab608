import Verif.Model.Assembler
import Verif.Model.Ast
import Verif.Model.Cli
import Verif.Model.Disassembler
import Verif.Model.Display
import Verif.Model.Error
import Verif.Model.Io
import Verif.Model.Lib
import Verif.Model.Main
import Verif.Model.Num
import Verif.Model.Ops
import Verif.Model.Parser
import Verif.Model.Query
import Verif.Model.Regex
import Verif.Model.Str
import Verif.Spec.Again
import Verif.Spec.Anatomy
import Verif.Spec.AppendX
import Verif.Spec.Asked
import Verif.Spec.AtX
import Verif.Spec.Back
import Verif.Spec.Blanks
import Verif.Spec.Branch
import Verif.Spec.Case
import Verif.Spec.CaseX
import Verif.Spec.CmpBranch
import Verif.Spec.Code
import Verif.Spec.Columns
import Verif.Spec.Context
import Verif.Spec.Cut
import Verif.Spec.Decor
import Verif.Spec.Diag
import Verif.Spec.Edit
import Verif.Spec.Endings
import Verif.Spec.Equal
import Verif.Spec.Errors
import Verif.Spec.Exec
import Verif.Spec.Export
import Verif.Spec.Fresh
import Verif.Spec.HiLo
import Verif.Spec.Insert
import Verif.Spec.Io
import Verif.Spec.Isa
import Verif.Spec.Jump
import Verif.Spec.Language
import Verif.Spec.Layout
import Verif.Spec.Link
import Verif.Spec.Listing
import Verif.Spec.Machine
import Verif.Spec.Main
import Verif.Spec.Message
import Verif.Spec.Mnemonics
import Verif.Spec.Operands
import Verif.Spec.Parallel
import Verif.Spec.Parts
import Verif.Spec.Pipe
import Verif.Spec.Place
import Verif.Spec.Program
import Verif.Spec.Pseudo
import Verif.Spec.Range
import Verif.Spec.Recover
import Verif.Spec.Reloc
import Verif.Spec.Rename
import Verif.Spec.RenameMsg
import Verif.Spec.Report
import Verif.Spec.Reread
import Verif.Spec.Rerun
import Verif.Spec.Same
import Verif.Spec.Scope
import Verif.Spec.Seen
import Verif.Spec.Session
import Verif.Spec.Shift
import Verif.Spec.Shorthand
import Verif.Spec.Show
import Verif.Spec.Shown
import Verif.Spec.Size
import Verif.Spec.Source
import Verif.Spec.Syntax
import Verif.Spec.Tame
import Verif.Spec.TextFns
import Verif.Spec.Twice
import Verif.Spec.Unused
import Verif.Spec.Warn
import Verif.Spec.Warnings
import Verif.Spec.Words
import Verif.Lemmas.ArmL
import Verif.Lemmas.Bits
import Verif.Lemmas.BranchL
import Verif.Lemmas.CodeL1
import Verif.Lemmas.CodeL2
import Verif.Lemmas.CodeL3
import Verif.Lemmas.CodeL4
import Verif.Lemmas.CodeL5
import Verif.Lemmas.CodeL6
import Verif.Lemmas.CodeL7
import Verif.Lemmas.CodeL8
import Verif.Lemmas.CodeL9
import Verif.Lemmas.ContextL
import Verif.Lemmas.CtxL
import Verif.Lemmas.DecorL
import Verif.Lemmas.DisL
import Verif.Lemmas.DisT
import Verif.Lemmas.DisX
import Verif.Lemmas.EditL
import Verif.Lemmas.Enc
import Verif.Lemmas.ErrL
import Verif.Lemmas.ExecL
import Verif.Lemmas.ExportL
import Verif.Lemmas.FinalL
import Verif.Lemmas.FreshL
import Verif.Lemmas.InfixL
import Verif.Lemmas.InsertL
import Verif.Lemmas.InstL
import Verif.Lemmas.IsaL
import Verif.Lemmas.LangL
import Verif.Lemmas.LangL10
import Verif.Lemmas.LangL11
import Verif.Lemmas.LangL12
import Verif.Lemmas.LangL13
import Verif.Lemmas.LangL14
import Verif.Lemmas.LangL15
import Verif.Lemmas.LangL16
import Verif.Lemmas.LangL17
import Verif.Lemmas.LangL2
import Verif.Lemmas.LangL3
import Verif.Lemmas.LangL4
import Verif.Lemmas.LangL5
import Verif.Lemmas.LangL6
import Verif.Lemmas.LangL7
import Verif.Lemmas.LangL8
import Verif.Lemmas.LangL9
import Verif.Lemmas.LineL
import Verif.Lemmas.LinkL
import Verif.Lemmas.LocalL
import Verif.Lemmas.LoopL
import Verif.Lemmas.LoopL2
import Verif.Lemmas.NativeL
import Verif.Lemmas.NativeT
import Verif.Lemmas.NumInv
import Verif.Lemmas.NumL
import Verif.Lemmas.OperandL
import Verif.Lemmas.PlaceL
import Verif.Lemmas.ProgL
import Verif.Lemmas.PseudoL
import Verif.Lemmas.ReadL
import Verif.Lemmas.ReadL2
import Verif.Lemmas.RecoverL
import Verif.Lemmas.RegL
import Verif.Lemmas.RegexL
import Verif.Lemmas.RejectL
import Verif.Lemmas.RelocL
import Verif.Lemmas.RenameL
import Verif.Lemmas.RenameL2
import Verif.Lemmas.RenameL3
import Verif.Lemmas.Rows
import Verif.Lemmas.RunL
import Verif.Lemmas.ShowL
import Verif.Lemmas.ShownL
import Verif.Lemmas.SimL
import Verif.Lemmas.SqL
import Verif.Lemmas.StrL
import Verif.Lemmas.TakenL
import Verif.Lemmas.TextL
import Verif.Lemmas.TraceL
import Verif.Lemmas.WarnL
import Verif.Lemmas.WordL
import Verif.Props.Again
import Verif.Props.Align
import Verif.Props.AnatomyP
import Verif.Props.AppendP
import Verif.Props.AppendX
import Verif.Props.Arith
import Verif.Props.AskedP
import Verif.Props.AtX
import Verif.Props.Base
import Verif.Props.BlanksP
import Verif.Props.ByLine
import Verif.Props.CaseP
import Verif.Props.CaseX
import Verif.Props.CliP
import Verif.Props.CmpBranch
import Verif.Props.CmpX
import Verif.Props.CodeP
import Verif.Props.Config
import Verif.Props.Consts
import Verif.Props.ContextP
import Verif.Props.ContextW
import Verif.Props.Count
import Verif.Props.CutP
import Verif.Props.DiagP
import Verif.Props.Dis
import Verif.Props.Dis2
import Verif.Props.Div
import Verif.Props.EditP
import Verif.Props.EndingsP
import Verif.Props.EqualP
import Verif.Props.Errors
import Verif.Props.ExecP
import Verif.Props.ExportP
import Verif.Props.FreshP
import Verif.Props.HiLo
import Verif.Props.InsertP
import Verif.Props.IoP
import Verif.Props.IoRun
import Verif.Props.Jumps
import Verif.Props.Labels
import Verif.Props.LanguageP
import Verif.Props.Layout22
import Verif.Props.LayoutP
import Verif.Props.LinkP
import Verif.Props.ListingP
import Verif.Props.ListingX
import Verif.Props.Local
import Verif.Props.LocalX
import Verif.Props.MainP
import Verif.Props.MessageP
import Verif.Props.Modes
import Verif.Props.MulDiv
import Verif.Props.NamesP
import Verif.Props.Native
import Verif.Props.NumBranch
import Verif.Props.Opcode
import Verif.Props.Order
import Verif.Props.ParallelP
import Verif.Props.PartsP
import Verif.Props.PatchP
import Verif.Props.PipeP
import Verif.Props.PlaceP
import Verif.Props.PseudoX
import Verif.Props.PushP
import Verif.Props.QueryP
import Verif.Props.Range
import Verif.Props.ReachP
import Verif.Props.Reassemble
import Verif.Props.Reassemble2
import Verif.Props.Reassemble3
import Verif.Props.RecoverP
import Verif.Props.Regs
import Verif.Props.RelocP
import Verif.Props.RenameP
import Verif.Props.ReportP
import Verif.Props.RerunP
import Verif.Props.RoundTrip
import Verif.Props.RoundTrip2
import Verif.Props.SeenP
import Verif.Props.SessionP
import Verif.Props.SetOps
import Verif.Props.Shift
import Verif.Props.ShorthandP
import Verif.Props.ShowP
import Verif.Props.Shown
import Verif.Props.SizeP
import Verif.Props.SlotP
import Verif.Props.Tame
import Verif.Props.TextP
import Verif.Props.Twice
import Verif.Props.UndefP
import Verif.Props.Unused
import Verif.Props.Warn
import Verif.Props.WarningsP
import Verif.Tests.RepoTests
