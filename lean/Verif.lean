import Verif.Schema.Props
import Verif.Path.Props
import Verif.Command.Props
import Verif.Target.CommandProps
import Verif.Target.Refute
import Verif.Target.Ignored
import Verif.Target.OrderProps
import Verif.Target.ExactProps
import Verif.Target.FixpointProps
import Verif.Target.Bytes
import Verif.Target.BytesProps
import Verif.Target.Progress
import Verif.Target.DetProps
import Verif.Generator.SoundProps
import Verif.Generator.FileProps
import Verif.Generator.TemplateExact
import Verif.Generator.Liveness
import Verif.Generator.DetProps
import Verif.Reg.Props
import Verif.Reg.Cost
import Verif.Reg.ScheduleProps
import Verif.Reg.CycleProps
import Verif.Reg.WorldSpec
import Verif.Reg.WorldInv
import Verif.Reg.Content
import Verif.Reg.OneScriptExamples
import Verif.Target.Shadow
import Verif.Env.StorageProps
import Verif.Env.UtilProps
import Verif.Target.SyncProps
import Verif.Target.SyncExact
import Verif.Target.ApiProps
import Verif.Toolchain.FindProps
import Verif.Toolchain.CreateProps
import Verif.Toolchain.CreateExact
import Verif.Generator.ApiProps
import Verif.Target.SpecialProps
import Verif.Target.PchExt
import Verif.Generator.FileApiProps
import Verif.Generator.EnumProps
import Verif.Plugin.Props
import Verif.Json.Lexer
import Verif.Plugin.Exact
import Verif.Reg.LifeProps
import Verif.Reg.TestsProps
import Verif.Toolchain.InfoProps
import Verif.Exe.Props
import Verif.Exe.Header
import Verif.Exe.Rebuild
import Verif.Target.ShippedProps
import Verif.Target.ArgvProps
import Verif.Command.WinArgs
import Verif.Target.WinArgvProps
import Verif.Command.Shell
import Verif.Generator.MsgpackGrammar
import Verif.Race.Model
import Verif.Race.Lemmas
import Verif.Race.Props
import Verif.Target.StartProps
import Verif.Reg.ProjectSpec
import Verif.Reg.ProjectLemmas
import Verif.Reg.ProjectProps
import Verif.Reg.ProjectExamples
import Verif.Boot.Model
import Verif.Boot.Inputs
import Verif.Boot.Includes
import Verif.Target.CrashPoints
import Verif.Reg.Written
import Verif.Boot.Paths
import Verif.Boot.Package
import Verif.Boot.Props
import Verif.Boot.Examples
import Verif.Exe.Script
import Verif.Exe.ScriptProps
import Verif.Exe.ScriptExamples
import Verif.Exe.Host
import Verif.Reg.MixedSpec
import Verif.Reg.MixedProps
import Verif.Reg.MixedExamples
import Verif.Exe.HostExamples
import Verif.Disk.Model
import Verif.Disk.Spec
import Verif.Disk.Lemmas
import Verif.Disk.PathLemmas
import Verif.Disk.MadeLemmas
import Verif.Disk.Props
import Verif.Cli.Model
import Verif.Cli.Props
import Verif.Cli.Examples
import Verif.Exe.Program
import Verif.Exe.ProgramProps
import Verif.Exe.ProgramExamples
import Verif.Target.Replay
import Verif.Generator.Shadow
import Verif.Generator.Rebuild
import Verif.Reg.RebuildSpec
import Verif.Reg.Rebuild
import Verif.Reg.RebuildInv
import Verif.Reg.RebuildProps
import Verif.Reg.RebuildExamples
import Verif.Generator.Bytes
import Verif.Generator.BytesProps
import Verif.Generator.Many
import Verif.Generator.ManySteps
import Verif.Generator.ManyProps
import Verif.Generator.ManyRefute
import Verif.Reg.Bytes
import Verif.Reg.BytesInv
import Verif.Reg.BytesValue
import Verif.Reg.BytesScript
import Verif.Reg.BytesProps
import Verif.Reg.BytesProject
import Verif.Reg.Scripts
import Verif.Reg.ScriptsProps
import Verif.Reg.Choices
import Verif.Reg.ScriptsExamples
import Verif.Reg.BytesVersions
import Verif.Reg.BytesVersionsProps
import Verif.Reg.BytesVersionsExamples
import Verif.Target.Many
import Verif.Target.ManyInv
import Verif.Target.ManySteps
import Verif.Target.ManyProps
import Verif.Target.ManyRefute
import Verif.Exe.ArgvProps
import Verif.Exe.WinArgvProps
import Verif.Conform.Target
import Verif.Conform.Generator
import Verif.Conform.Rest
import Verif.Sample.Model
import Verif.Sample.Spec
import Verif.Sample.Names
import Verif.Sample.Lemmas
import Verif.Sample.Props
import Verif.Sample.Registered
import Verif.Sample.Headers
import Verif.Sample.Below
import Verif.Sample.Hybrid
import Verif.Sample.HybridProps
import Verif.Sample.MixedModel
import Verif.Sample.MixedSpec
import Verif.Sample.MixedGens
import Verif.Sample.MixedText
import Verif.Sample.MixedProps
import Verif.Sample.MixedBuilt
import Verif.Sample.MixedExamples
import Verif.Sample.MultiModel
import Verif.Sample.MultiSpec
import Verif.Sample.MultiCalls
import Verif.Sample.MultiProps
import Verif.Sample.MultiExamples
import Verif.Sample.MultiChoices
import Verif.Sample.ChoiceExamples
import Verif.Reg.BytesChoices
import Verif.Sample.MultiBytes
import Verif.Sample.BytesExamples
import Verif.Sample.Edited
import Verif.Sample.EditedExamples
import Verif.Sample.MultiAgain
import Verif.Sample.AgainExamples
import Verif.Reg.OutcomeSpec
import Verif.Reg.Outcome
import Verif.Reg.OutcomeInv
import Verif.Reg.OutcomeProps
import Verif.Reg.OutcomeExamples
import Verif.Reg.AgreeSpec
import Verif.Reg.AgreeNeeds
import Verif.Reg.AgreeInv
import Verif.Reg.AgreeProps
import Verif.Reg.Dated
import Verif.Reg.AgreeMain
import Verif.Reg.AgreeExamples
import Verif.Reg.StoredData
import Verif.Sample.MultiOutcome
import Verif.Sample.OutcomeExamples
import Verif.Sample.MultiAgree
import Verif.Sample.AgreeExamples
import Verif.Path.Ids
import Verif.Path.Exact
import Verif.Path.Case
import Verif.WinPath.Targets
import Verif.Path.Generators
import Verif.WinPath.Generators
import Verif.Disk.Slash
import Verif.Target.Own
import Verif.Generator.TemplateBuild
import Verif.Generator.BlobExact
import Verif.Reg.Unnamed
import Verif.Reg.UnnamedProps
import Verif.Sample.MultiUnnamed
import Verif.Sample.UnnamedExamples
import Verif.WinPath.Model
import Verif.WinPath.Spec
import Verif.WinPath.Lemmas
import Verif.WinPath.Props
import Verif.Env.Host
import Verif.Boot.Host
import Verif.Target.ApiOrigin
import Verif.Life.Examples
