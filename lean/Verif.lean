import Verif.Model.Parse
import Verif.Model.Export
import Verif.Model.Tally
import Verif.Lib.Sort
import Verif.Lib.Dict
import Verif.Lib.Regex
import Verif.Lib.Lines
import Verif.Lib.Splitlines
import Verif.Lib.Prefs
import Verif.Lib.ParseFile
import Verif.Lib.ParseTop
import Verif.Props.Parse
import Verif.Props.ParseRated
import Verif.Props.Comments
import Verif.Props.Tally
import Verif.Lib.Parsed
import Verif.Props.ParsedTally
import Verif.Lib.Prefstr
import Verif.Lib.Quoted
import Verif.Props.Prefstr
import Verif.Model.Irv
import Verif.Spec.Irv
import Verif.Lib.Irv
import Verif.Lib.IrvRound
import Verif.Lib.IrvRun
import Verif.Lib.IrvElim
import Verif.Lib.IrvLock
import Verif.Lib.IrvStrict
import Verif.Props.Irv
import Verif.Props.IrvFinal
import Verif.Props.IrvExact
import Verif.Spec.Export
import Verif.Lib.StrLe
import Verif.Lib.Export
import Verif.Lib.ExportRead
import Verif.Lib.ExportFile
import Verif.Lib.ExportCands
import Verif.Lib.ParsedRatings
import Verif.Lib.ParsedExport
import Verif.Model.Util
import Verif.Props.Export
import Verif.Props.IrvResult
import Verif.Props.Consolidate
import Verif.Props.PyVal
import Verif.Props.Csv
import Verif.Props.Nameq
import Verif.Props.Token
import Verif.Props.Preflib
import Verif.Props.Debtally
import Verif.Props.Sftxt
import Verif.Props.Widj
import Verif.Props.Output
import Verif.Props.Log
import Verif.Model.Fetch
import Verif.Props.Fetch
import Verif.Props.Report
import Verif.Props.Cli
import Verif.Props.Html
import Verif.Py.JsonLoad
import Verif.Spec.Json
import Verif.Lib.JsonLoad
import Verif.Lib.JsonSound
import Verif.Model.JsonIo
import Verif.Lib.JsonIo
import Verif.Props.Json
import Verif.Model.FetchRun
import Verif.Props.FetchRun
import Verif.Props.IrvPairwise
import Verif.Props.Ranklist
import Verif.Props.RanklistExact
import Verif.Props.Meta
import Verif.Spec.Cli
import Verif.Props.CliTable
import Verif.Spec.Path
import Verif.Props.Path
import Verif.Props.DebtallyMeta
import Verif.Spec.ImportText
import Verif.Lib.ImpExport
import Verif.Props.ImportText
import Verif.Props.FetchEdge
import Verif.Props.FetchErrors
import Verif.Props.Merge
import Verif.Spec.Order
import Verif.Lib.IrvSim
import Verif.Props.Order
import Verif.Props.Neutral
import Verif.Props.CopelandTheory
import Verif.Model.SfMain
import Verif.Spec.SfMain
import Verif.Props.SfMain
import Verif.Props.StarSection
import Verif.Props.SfCands
import Verif.Props.Nota
import Verif.Props.Git
import Verif.Model.JsonOut
import Verif.Spec.JsonOut
import Verif.Lib.JsonOut
import Verif.Props.JsonOut
import Verif.Model.Configtool
import Verif.Spec.Configtool
import Verif.Props.Configtool
import Verif.Model.Copedot
import Verif.Props.Copedot
import Verif.Props.NameqImport
import Verif.Props.Preserve
import Verif.Lib.Settle
import Verif.Props.Settle
import Verif.Model.Scripts
import Verif.Props.Scripts
import Verif.Props.ScoreTheory
import Verif.Props.IrvLater
import Verif.Props.IrvSupport
import Verif.Spec.Outcome
import Verif.Props.Outcome
import Verif.Props.ScriptDocs
import Verif.Props.TokenExact
import Verif.Props.FetchSpec
import Verif.Props.IrvSpaced
import Verif.Props.TallyExact
import Verif.Props.OutcomeAny
import Verif.Props.SfOutcome
import Verif.Props.PreflibExact
import Verif.Props.Argv
import Verif.Props.Paper
import Verif.Py.Float
import Verif.Lib.Float
import Verif.Props.Scaled
import Verif.Model.IrvFloat
import Verif.Props.IrvFloat
import Verif.Model.Heap
import Verif.Spec.Heap
import Verif.Lib.Heap
import Verif.Lib.HeapCopy
import Verif.Lib.HeapIrv
import Verif.Lib.HeapElim
import Verif.Lib.HeapCount
import Verif.Lib.HeapTally
import Verif.Lib.HeapCons
import Verif.Lib.HeapRate
import Verif.Props.Heap
import Verif.Props.PaperText
import Verif.Model.IrvDeep
import Verif.Props.IrvDeep
import Verif.Spec.Pieces
import Verif.Lib.Pieces
import Verif.Props.Pieces
import Verif.Lib.Runoff
import Verif.Props.IrvClones
import Verif.Model.IntLimit
import Verif.Props.IntLimit
import Verif.Props.IntLimitItems
import Verif.Model.ScriptArgv
import Verif.Spec.ScriptArgv
import Verif.Props.ScriptArgv
import Verif.Model.CoreRun
import Verif.Props.ArgvForms
import Verif.Spec.ModelDoc
import Verif.Props.ModelDoc
import Verif.Props.Unclosed
import Verif.Lib.TokenShape
import Verif.Props.PlainText
import Verif.Spec.Spacing
import Verif.Props.Spacing
import Verif.Props.Refusals
import Verif.Spec.WholeNumber
import Verif.Lib.WholeNumber
import Verif.Props.WholeNumber
import Verif.Spec.LineEnds
import Verif.Props.LineEnds
import Verif.Props.Reversal
import Verif.Props.Bystanders
import Verif.Props.BystanderText
import Verif.Props.Agree
import Verif.Lib.IrvShift
import Verif.Props.Blank
import Verif.Model.IntWrite
import Verif.Props.IntWrite
import Verif.Spec.Borda
import Verif.Lib.Borda
import Verif.Props.Borda
import Verif.Spec.Line
import Verif.Props.Line
import Verif.Spec.Approval
import Verif.Props.Approval
import Verif.Spec.Multiple
import Verif.Props.Multiple
import Verif.Spec.Precincts
import Verif.Props.Precincts
import Verif.Spec.Withdraw
import Verif.Props.Withdraw
import Verif.Props.WithdrawText
import Verif.Props.ThirdParty
import Verif.Props.PaperJoin
import Verif.Props.Recount
import Verif.Props.AnyDuels
import Verif.Props.Nobody
import Verif.Props.RecountExact
import Verif.Props.RecountMajority
import Verif.Props.AnyOrder
