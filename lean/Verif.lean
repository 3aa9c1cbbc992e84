import Verif.Props.Utilities
import Verif.Props.Atomic
import Verif.Props.CorpusCheck
import Verif.Props.Store
import Verif.Props.Indexing
import Verif.Props.Scoring
import Verif.Props.Refine
import Verif.Props.Query
import Verif.Props.Export
import Verif.Props.Csv
import Verif.Props.SxRender
import Verif.Props.Html
import Verif.Props.Pivot
import Verif.Props.Positions
import Verif.Props.Migrate
import Verif.Props.Datetime
import Verif.Props.PlainText
import Verif.Props.StackExchange
import Verif.Props.Corpora
import Verif.Props.Server
import Verif.Props.Cli
import Verif.Props.CreateJson
import Verif.Props.Concurrent
import Verif.Props.ConcurrentOpen
import Verif.Props.WebActions
import Verif.Props.PipelineSample
import Verif.Props.Fields
import Verif.Props.Greedy
import Verif.Props.Tokens
import Verif.Props.TokensIndexed
import Verif.Props.Session
import Verif.Props.Requests
import Verif.Props.Links
import Verif.Props.Seeded
import Verif.Props.IndexSame
import Verif.Props.Pages
import Verif.Props.PageForms
import Verif.Props.OnlyTexts
import Verif.Props.InFlight
import Verif.Props.PipelineSx
import Verif.Props.ExportGraph
import Verif.Props.Serve
import Verif.Props.PipelineServe
import Verif.Props.Sites
import Verif.Props.PipelineSites
import Verif.Props.Updates
import Verif.Props.ExportLimit
import Verif.Props.WorkingDir
import Verif.Props.SxPage
import Verif.Props.TwPage
import Verif.Spec.Screen
import Verif.Props.Screen
import Verif.Props.PipelineLater
import Verif.Props.ScreenLater
import Verif.Props.Search
import Verif.Props.SearchAll
import Verif.Spec.SearchScreen
import Verif.Props.SearchScreen
import Verif.Spec.Details
import Verif.Props.Details
import Verif.Spec.Concordance
import Verif.Props.Concordance
import Verif.Props.TextPassages
import Verif.Props.Hansard
import Verif.Props.Trends
import Verif.Props.HansardPassages
