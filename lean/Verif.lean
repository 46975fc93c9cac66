import Verif.Props.JobQueue
import Verif.Props.WorkerSet
import Verif.Props.AllRuns
import Verif.Props.AllRunsJoin
import Verif.Props.AllRunsLife
import Verif.Props.AllRunsResults
import Verif.Props.AllRunsSeen
import Verif.Props.AllRunsOnce
import Verif.Props.Results
import Verif.Props.Names
import Verif.Props.ManifestStore
import Verif.Props.RunStateDoc
import Verif.Props.Retries
import Verif.Props.Fetcher
import Verif.Props.MessageBuffer
import Verif.Props.BufferedResults
import Verif.Props.Pipeline
import Verif.Props.Backoff
import Verif.Props.Liveness
import Verif.Props.Pool
import Verif.Props.PeriodicJob
import Verif.Props.Framing
import Verif.Props.Auth
import Verif.Props.Command
import Verif.Props.Flatten
import Verif.Props.Summary
import Verif.Props.Report
import Verif.Props.Config
import Verif.Props.Hosted
import Verif.Props.Signals
import Verif.Props.Capture
import Verif.Props.Attribution
import Verif.Props.RunnerEnd
import Verif.Props.EndToEnd
import Verif.Props.RunnerStart
import Verif.Props.RwxJson
import Verif.Props.WorkerReport
import Verif.Props.ReporterOptions
import Verif.Props.Replay
import Verif.Props.Attach
import Verif.Props.Terminal
import Verif.Props.Output
import Verif.Props.JUnit
import Verif.Props.Server
import Verif.Props.Timed
import Verif.Props.Protocol
import Verif.Props.Restart
import Verif.Props.Fetch
import Verif.Props.Recorded
import Verif.Props.RunView
import Verif.Props.JsonText
import Verif.Props.Messages
import Verif.Props.QueueAnswers
import Verif.Props.Green
import Verif.Props.OffloadJob
import Verif.Props.RemoteConfig
import Verif.Props.OpenFiles
import Verif.Props.Lifecycle
import Verif.Props.WorkerSignals
import Verif.Props.RunnerEnv
import Verif.Props.WorkerExit
import Verif.Props.RunEnds
import Verif.Props.Answers
import Verif.Props.Startup
import Verif.Props.Delivery
import Verif.Props.Whole
import Verif.Props.TestsConn
import Verif.Props.TestsRun
import Verif.Props.Isolation
import Verif.Props.Durations
import Verif.Props.NativeRunner
import Verif.Props.LostTests
import Verif.Props.Shutdown
import Verif.Props.FileLocks
import Verif.Props.Login
import Verif.Props.RwxDoc
import Verif.Props.Access
import Verif.Props.Journey
import Verif.Props.HostedText
import Verif.Props.RegistryLocks
import Verif.Props.JUnitText
import Verif.Props.Address
import Verif.Props.Options
import Verif.Props.ReplayHint
import Verif.Props.ErrorText
import Verif.Props.TokenGen
import Verif.Props.Colors
import Verif.Props.StripCodes
import Verif.Props.BatchSize
import Verif.Props.Checks
import Verif.Props.Ahead
import Verif.Props.Shared
import Verif.Props.Recording
import Verif.Props.WholeQueue
import Verif.Props.Workers
import Verif.Props.ResultsLive
import Verif.Props.Progress
import Verif.Props.ReportWait
import Verif.Props.StartWait
import Verif.Props.TestTime
import Verif.Props.RetryWait
import Verif.Props.ReportServed
import Verif.Props.SendTime
import Verif.Props.RetryOutage
import Verif.Props.StartOutage
import Verif.Props.Unsent
import Verif.Props.RestartFails
