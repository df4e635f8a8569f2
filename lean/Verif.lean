import Verif.Runtime.RegistryProps
import Verif.Runtime.ExecOwn
import Verif.Runtime.ExecScan
import Verif.Runtime.ExecCall
import Verif.Runtime.ExecProps
import Verif.Runtime.StackProps
import Verif.Runtime.StackTimes
import Verif.Runtime.TraceStartProps
import Verif.Runtime.VarTrapProps
import Verif.Runtime.BuildProps
import Verif.Runtime.CallValueProps
import Verif.Runtime.SliceProps
import Verif.Text.EditBufferProps
import Verif.Support.PatternProps
import Verif.Support.SemverProps
import Verif.Support.GoVersionProps
import Verif.Support.CoverageProps
import Verif.Instrument.OverlayProps
import Verif.Instrument.RulesProps
import Verif.Cmd.OptionsProps
import Verif.Instrument.FuncTrap
import Verif.Instrument.FuncTrapSpec
import Verif.Instrument.FuncTrapProps
import Verif.Instrument.FuncTrapNames
import Verif.Instrument.FuncTrapIdents
import Verif.Runtime.Tls
import Verif.Runtime.TlsSpec
import Verif.Runtime.TlsProps
import Verif.Runtime.Functab
import Verif.Runtime.FunctabSpec
import Verif.Runtime.FunctabProps
import Verif.Runtime.FunctabTabProps
import Verif.Text.Cut
import Verif.Instrument.PatchText
import Verif.Instrument.PatchSpec
import Verif.Instrument.PatchCleanProps
import Verif.Instrument.PatchUpdateProps
import Verif.Instrument.PatchApply
import Verif.Instrument.PatchApplySpec
import Verif.Instrument.PatchPlaceProps
import Verif.Instrument.PatchApplyProps
import Verif.Instrument.PatchTwiceProps
import Verif.Instrument.PatchParse
import Verif.Instrument.PatchParseSpec
import Verif.Instrument.PatchParseProps
import Verif.Support.LineEdit
import Verif.Support.LineEditSpec
import Verif.Support.LineEditProps
import Verif.Support.UnpatchProps
import Verif.Cmd.GitIgnore
import Verif.Instrument.Resolve
import Verif.Instrument.ResolveSpec
import Verif.Instrument.ResolveProps
import Verif.Instrument.ResolveComplete
import Verif.Instrument.ResolveAddr
import Verif.Support.FileCopyConcProps
import Verif.Instrument.UnifiedTestProps
import Verif.Support.SessionProps
import Verif.Cmd.TestExplorerProps
import Verif.Cmd.TestStatusProps
import Verif.Cmd.SetupProps
import Verif.Instrument.TargetMain
import Verif.Instrument.LoadMain
import Verif.Cmd.BlankImportProps
import Verif.Cmd.VendorBuild
import Verif.Cmd.RuntimeCopySample
import Verif.Instrument.CoverNotesMain
import Verif.Instrument.VarTypeCases
import Verif.Cmd.GoModMain
import Verif.Runtime.TraceJsonMain
import Verif.Runtime.TraceGo
import Verif.Runtime.TraceGoSpec
import Verif.Runtime.TraceGoHeap
import Verif.Runtime.TraceGoProps
import Verif.Runtime.TraceGoMain
import Verif.Runtime.TraceGoTheorems
import Verif.Runtime.TraceGoMore
import Verif.Cmd.TraceView
import Verif.Cmd.TraceViewSpec
import Verif.Cmd.TraceViewProps
import Verif.Cmd.TraceViewMain
import Verif.Cmd.TraceViewText
import Verif.Cmd.TraceViewTheorems
import Verif.Runtime.HooksMain
import Verif.Cmd.ShadowMain
import Verif.Cmd.GoXgoMain
import Verif.Support.ServePortMain
import Verif.Cmd.GorootDirMain
import Verif.Cmd.TestConfigMain
import Verif.Cmd.RunOutputMain
import Verif.Support.CmdLineMain
import Verif.Cmd.CovMergeMain
import Verif.Cmd.ToolExecFiles
import Verif.Instrument.RegCode
import Verif.Instrument.SourceLines
import Verif.Instrument.SourceLinesSpec
import Verif.Instrument.SourceLinesProps
import Verif.Instrument.SourceLinesMain
import Verif.Instrument.RegReadSpec
import Verif.Instrument.RegReadProps
import Verif.Instrument.RegReadMain
import Verif.Instrument.RegReadRun
import Verif.Instrument.RegReadTop
import Verif.Runtime.Defer
import Verif.Runtime.DeferSpec
import Verif.Runtime.DeferProps
import Verif.Runtime.DeferMain
import Verif.Runtime.DeferTop
import Verif.Instrument.InitOrder
import Verif.Instrument.InitOrderSpec
import Verif.Instrument.InitOrderProps
import Verif.Instrument.InitOrderMain
import Verif.Instrument.InitOrderTop
import Verif.Cmd.CovView
import Verif.Cmd.CovViewSpec
import Verif.Cmd.CovViewProps
import Verif.Cmd.CovViewMain
import Verif.Cmd.CovViewTop
import Verif.Instrument.GenFile
import Verif.Instrument.GenFileSpec
import Verif.Instrument.GenFileMain
import Verif.Support.GetGo
import Verif.Support.GetGoSpec
import Verif.Support.GetGoZip
import Verif.Support.GetGoMain
import Verif.Runtime.TestTrace
import Verif.Runtime.TestTraceSpec
import Verif.Runtime.TestTraceProps
import Verif.Runtime.TestTraceMain
import Verif.Runtime.TestTraceTop
import Verif.Cmd.Handoff
import Verif.Cmd.HandoffSpec
import Verif.Cmd.HandoffProps
import Verif.Cmd.HandoffMain
import Verif.Runtime.PatchTarget
import Verif.Runtime.PatchTargetMain
import Verif.Runtime.InitPhase
import Verif.Runtime.InitPhaseMain
import Verif.Runtime.LooseJson
import Verif.Runtime.LooseJsonSpec
import Verif.Runtime.LooseJsonMain
import Verif.Runtime.Mutex
import Verif.Runtime.MutexSpec
import Verif.Runtime.MutexMain
import Verif.Runtime.MutexTop
import Verif.Runtime.MutexProps
import Verif.Runtime.MutexEx
import Verif.Runtime.MutexHistory
import Verif.Support.HttpJson
import Verif.Support.HttpJsonProps
import Verif.Instrument.GoHooks
import Verif.Instrument.GoHooksProps
import Verif.Cmd.Tool
import Verif.Cmd.ToolSpec
import Verif.Cmd.ToolProps
import Verif.Cmd.ToolMain
import Verif.Instrument.GoCmd
import Verif.Instrument.GoCmdSpec
import Verif.Instrument.GoCmdText
import Verif.Instrument.GoCmdExec
import Verif.Instrument.GoCmdDone
import Verif.Instrument.GoCmdProps
import Verif.Instrument.GoComp
import Verif.Instrument.GoCompSpec
import Verif.Instrument.GoCompProps
import Verif.Instrument.GoCompMain
import Verif.Instrument.GoDebug
import Verif.Instrument.GoDebugSpec
import Verif.Instrument.GoDebugProps
import Verif.Instrument.GoDebugMain
import Verif.Cmd.Upgrade
import Verif.Cmd.UpgradeSpec
import Verif.Cmd.UpgradeProps
import Verif.Cmd.CovProfile
import Verif.Cmd.CovProfileSpec
import Verif.Cmd.CovProfileProps
import Verif.Cmd.ExplorerDebug
import Verif.Cmd.ExplorerDebugSpec
import Verif.Cmd.ExplorerDebugProps
import Verif.Cmd.ExplorerDebugMain
import Verif.Cmd.CaseTrace
import Verif.Cmd.CaseTraceSpec
import Verif.Cmd.CaseTraceProps
import Verif.Cmd.CaseTraceMain
import Verif.Cmd.CaseTraceRecords
