import Verif.Py.Dict
import Verif.Py.Val
import Verif.Model.RulesDict
import Verif.Spec.Rules
import Verif.Lemmas.Dict
import Verif.Lemmas.Lookup
import Verif.Lemmas.Merge
import Verif.Lemmas.Merge2
import Verif.Lemmas.Merge3
import Verif.Props.Lookup
import Verif.Props.Merge
import Verif.Lemmas.Verify
import Verif.Lemmas.Expand
import Verif.Props.Verify
import Verif.Props.Expand
import Verif.Spec.Compact
import Verif.Lemmas.Compact
import Verif.Lemmas.Compact2
import Verif.Lemmas.Compact3
import Verif.Props.Compact
import Verif.Props.ExpandMore
import Verif.Model.Database
import Verif.Spec.Database
import Verif.Lemmas.Database
import Verif.Props.Database
import Verif.Props.Cache
import Verif.Model.Sources
import Verif.Spec.Sources
import Verif.Props.Sources
import Verif.Props.Api
import Verif.Model.Text
import Verif.Spec.Text
import Verif.Lemmas.Text
import Verif.Props.Text
import Verif.Model.Resolve
import Verif.Spec.Resolve
import Verif.Props.Resolve
import Verif.Model.Install
import Verif.Spec.Install
import Verif.Lemmas.Install
import Verif.Lemmas.Install2
import Verif.Props.Install
import Verif.Props.InstallReturns
import Verif.Props.InstallExamples
import Verif.Props.InstallChecks
import Verif.Model.Config
import Verif.Spec.Config
import Verif.Lemmas.Config
import Verif.Lemmas.Config2
import Verif.Lemmas.Config3
import Verif.Lemmas.Config4
import Verif.Props.Config
import Verif.Props.ConfigFiles
import Verif.Props.ConfigNames
import Verif.Props.ConfigReread
import Verif.Model.Installers
import Verif.Spec.Installers
import Verif.Lemmas.PyEq
import Verif.Props.Installers
import Verif.Props.Plugins
import Verif.Lemmas.Replay
import Verif.Props.InstallTrace
import Verif.Props.Fake
import Verif.Model.OsSupport
import Verif.Props.OsSupport
import Verif.Model.Setup
import Verif.Props.Setup
import Verif.Props.SetupBuiltin
import Verif.Props.Opened
import Verif.Props.InstallRaises
import Verif.Props.Interrupt
import Verif.Model.Commands
import Verif.Lemmas.Commands
import Verif.Spec.Commands
import Verif.Props.Commands
import Verif.Props.CommandOutput
import Verif.Props.CommandMisc
import Verif.Lemmas.Order
import Verif.Props.Order
import Verif.Props.CompactFile
import Verif.Model.OsDetect
import Verif.Spec.OsDetect
import Verif.Props.OsDetect
import Verif.Props.ConfigValues
import Verif.Model.Heap
import Verif.Spec.Heap
import Verif.Lemmas.Heap
import Verif.Lemmas.HeapStep
import Verif.Lemmas.HeapExt
import Verif.Lemmas.HeapSim
import Verif.Lemmas.HeapSim2
import Verif.Props.Aliases
import Verif.Model.HeapCompact
import Verif.Lemmas.HeapCompact
import Verif.Lemmas.HeapCompact2
import Verif.Props.AliasesCompact
import Verif.Props.Defaults
import Verif.Props.CommandFlags
import Verif.Model.HeapMerge
import Verif.Lemmas.HeapOwn
import Verif.Lemmas.HeapMerge
import Verif.Lemmas.HeapLookup
import Verif.Props.HeapMerge
import Verif.Model.CommandLine
import Verif.Spec.CommandLine
import Verif.Lemmas.CommandLine
import Verif.Props.CommandLine
import Verif.Model.Startup
import Verif.Spec.Startup
import Verif.Lemmas.Startup
import Verif.Props.Startup
import Verif.Model.Paths
import Verif.Spec.Paths
import Verif.Lemmas.Paths
import Verif.Props.Paths
import Verif.Model.Program
import Verif.Spec.Program
import Verif.Lemmas.Program
import Verif.Props.Success
import Verif.Props.SuccessShipped
import Verif.Props.Program
import Verif.Props.ProgramDirs
import Verif.Props.ProgramExamples
import Verif.Props.Session
import Verif.Props.ResolveInstall
import Verif.Props.SessionExamples
import Verif.Model.HeapConfig
import Verif.Spec.HeapConfig
import Verif.Lemmas.HeapConfig
import Verif.Lemmas.HeapConfig2
import Verif.Lemmas.HeapConfig3
import Verif.Lemmas.HeapConfig4
import Verif.Lemmas.HeapConfig5
import Verif.Lemmas.HeapConfig6
import Verif.Lemmas.HeapCopy
import Verif.Props.HeapConfig
import Verif.Props.HeapConfigExamples
import Verif.Props.HeapCopy
import Verif.Model.Util
import Verif.Spec.Util
import Verif.Props.Util
import Verif.Model.Encoding
import Verif.Spec.Encoding
import Verif.Lemmas.Encoding
import Verif.Props.Encoding
import Verif.Props.Messages
import Verif.Model.LookupProgram
import Verif.Props.ShownInstalled
import Verif.Props.LookupProgram
import Verif.Props.LookupExamples
import Verif.Props.Detectors
import Verif.Props.MergeSucceeds
import Verif.Props.MergeMore
import Verif.Props.Disabled
import Verif.Props.DryRun
import Verif.Model.Reports
import Verif.Props.UpdateReport
import Verif.Props.OpenReport
import Verif.Props.InstallAgain
import Verif.Props.InstallAgainProgram
import Verif.Model.ProgramOutput
import Verif.Spec.ProgramOutput
import Verif.Lemmas.ProgramOutput
import Verif.Props.ProgramOutput
import Verif.Props.SetupMessages
import Verif.Props.ResolveMessages
import Verif.Props.ProgramOutputExamples
import Verif.Model.Help
import Verif.Spec.Help
import Verif.Lemmas.Help
import Verif.Props.Help
import Verif.Model.Calls
import Verif.Props.Calls
import Verif.Props.Announce
import Verif.Props.ConfigArgs
import Verif.Model.InstallOutput
import Verif.Props.InstallOutput
import Verif.Props.PmOutput
import Verif.Props.InstallOutputExamples
import Verif.Model.Hook
import Verif.Props.Hook
import Verif.Props.Concurrent
import Verif.Props.ReadPieces
import Verif.Props.XylemOptions
import Verif.Props.ArgvExamples
import Verif.Spec.HelpWords
import Verif.Props.HelpWords
import Verif.Spec.SaveLoad
import Verif.Props.SaveLoad
import Verif.Spec.Uninstalled
import Verif.Props.Uninstalled
import Verif.Spec.ConfigUsed
import Verif.Props.ConfigUsed
import Verif.Props.AskHelp
import Verif.Props.PluginOrder
import Verif.Props.PluginOrderBuiltin
import Verif.Props.ArgvCompact
import Verif.Props.ConfigMessages
import Verif.Props.ArgBytes
import Verif.Props.KeyBytes
import Verif.Props.PackageNames
import Verif.Props.Depends
