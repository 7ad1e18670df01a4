import Verif.Lemmas.Cmdline
import Verif.Lemmas.Ending
import Verif.Lemmas.EnvFree
import Verif.Lemmas.EventLocals
import Verif.Lemmas.Executable
import Verif.Lemmas.ExecuteLocal
import Verif.Lemmas.Futures
import Verif.Lemmas.Grammar
import Verif.Lemmas.GrammarBuild
import Verif.Lemmas.GrammarRange
import Verif.Lemmas.GrammarWrite
import Verif.Lemmas.History
import Verif.Lemmas.Joint
import Verif.Lemmas.JointRun
import Verif.Lemmas.JointSim
import Verif.Lemmas.LaunchFile
import Verif.Lemmas.Legacy
import Verif.Lemmas.LogFormat
import Verif.Lemmas.NestedArgs
import Verif.Lemmas.Order
import Verif.Lemmas.Output
import Verif.Lemmas.Parse
import Verif.Lemmas.Run
import Verif.Lemmas.Scope
import Verif.Lemmas.Sees
import Verif.Lemmas.Service
import Verif.Lemmas.ShowArgs
import Verif.Lemmas.Shutdown
import Verif.Lemmas.Subst
import Verif.Lemmas.SubstOps
import Verif.Lemmas.TestBind
import Verif.Lemmas.TestWorker
import Verif.Lemmas.Timer
import Verif.Lemmas.Typed
import Verif.Lemmas.Utf8
import Verif.Lemmas.Visit
import Verif.Model.ArgTypes
import Verif.Model.Build
import Verif.Model.Coerce
import Verif.Model.Collect
import Verif.Model.Cond
import Verif.Model.ConfigDefault
import Verif.Model.Context
import Verif.Model.Entity
import Verif.Model.Event
import Verif.Model.Executable
import Verif.Model.ExecuteLocal
import Verif.Model.ExpectedFile
import Verif.Model.Expose
import Verif.Model.Frontend
import Verif.Model.Grammar
import Verif.Model.Handlers
import Verif.Model.Interrupts
import Verif.Model.Introspect
import Verif.Model.Joint
import Verif.Model.LaunchArgs
import Verif.Model.LaunchProcess
import Verif.Model.LaunchTest
import Verif.Model.Legacy
import Verif.Model.LegacyOutput
import Verif.Model.LogDir
import Verif.Model.LogFormat
import Verif.Model.Logging
import Verif.Model.Oracle
import Verif.Model.Output
import Verif.Model.Parse
import Verif.Model.ParseIf
import Verif.Model.ParserQueries
import Verif.Model.PerLogger
import Verif.Model.PostMarks
import Verif.Model.ProcLookup
import Verif.Model.PytestItem
import Verif.Model.PytestRun
import Verif.Model.PytestScope
import Verif.Model.PytestVersion
import Verif.Model.Ready
import Verif.Model.ReadyListener
import Verif.Model.Retry
import Verif.Model.SequentialText
import Verif.Model.Service
import Verif.Model.ShowArgs
import Verif.Model.Signal
import Verif.Model.Source
import Verif.Model.Subst
import Verif.Model.System
import Verif.Model.SystemEvents
import Verif.Model.Targeted
import Verif.Model.TestAction
import Verif.Model.TestArgs
import Verif.Model.TestBind
import Verif.Model.TestLoad
import Verif.Model.TestResult
import Verif.Model.TestWait
import Verif.Model.TestWorker
import Verif.Model.TextMatch
import Verif.Model.Timeouts
import Verif.Model.Timer
import Verif.Model.TimerService
import Verif.Model.Typed
import Verif.Model.Visit
import Verif.Model.Waits
import Verif.Props.Accept
import Verif.Props.AcceptErrors
import Verif.Props.Actions
import Verif.Props.ArgTypes
import Verif.Props.Args
import Verif.Props.Collect
import Verif.Props.ConfigDefault
import Verif.Props.Escalation
import Verif.Props.Events
import Verif.Props.Executable
import Verif.Props.ExecuteLocal
import Verif.Props.ExpectedFile
import Verif.Props.Expose
import Verif.Props.Frontend
import Verif.Props.FrontendMore
import Verif.Props.Grammar
import Verif.Props.Handlers
import Verif.Props.Interrupts
import Verif.Props.Introspect
import Verif.Props.Joint
import Verif.Props.LaunchFile
import Verif.Props.LaunchProcess
import Verif.Props.LaunchTest
import Verif.Props.Legacy
import Verif.Props.LegacyEarly
import Verif.Props.LegacyFile
import Verif.Props.LegacyOutput
import Verif.Props.LogConf
import Verif.Props.LogDir
import Verif.Props.LogFormat
import Verif.Props.Logging
import Verif.Props.Markup
import Verif.Props.Meaning
import Verif.Props.NestedArgs
import Verif.Props.Output
import Verif.Props.ParseIf
import Verif.Props.ParserQueries
import Verif.Props.PerLogger
import Verif.Props.PostMarks
import Verif.Props.ProcLookup
import Verif.Props.PytestItem
import Verif.Props.PytestRun
import Verif.Props.PytestScope
import Verif.Props.PytestVersion
import Verif.Props.Ready
import Verif.Props.ReadyListener
import Verif.Props.Required
import Verif.Props.Retry
import Verif.Props.Scope
import Verif.Props.ScopeMore
import Verif.Props.SequentialOutput
import Verif.Props.SequentialText
import Verif.Props.Service
import Verif.Props.Setting
import Verif.Props.ShowArgs
import Verif.Props.ShutdownEnds
import Verif.Props.ShutdownEvent
import Verif.Props.Signal
import Verif.Props.Source
import Verif.Props.Subst
import Verif.Props.SubstMore
import Verif.Props.System
import Verif.Props.SystemEvents
import Verif.Props.Targeted
import Verif.Props.TestAction
import Verif.Props.TestArgs
import Verif.Props.TestBind
import Verif.Props.TestLoad
import Verif.Props.TestReport
import Verif.Props.TestResult
import Verif.Props.TestWait
import Verif.Props.TestWaitUse
import Verif.Props.TestWorker
import Verif.Props.TextMatch
import Verif.Props.Timeouts
import Verif.Props.Timer
import Verif.Props.TimerService
import Verif.Props.Typed
import Verif.Props.Visit
import Verif.Props.Waits
import Verif.Py.Dict
import Verif.Py.Find
import Verif.Py.Path
import Verif.Py.Shlex
import Verif.Py.Utf8
import Verif.Py.Value
import Verif.Spec.Accept
import Verif.Spec.Actions
import Verif.Spec.ArgTypes
import Verif.Spec.Args
import Verif.Spec.EnvFree
import Verif.Spec.Escalation
import Verif.Spec.Executable
import Verif.Spec.ExecuteLocal
import Verif.Spec.ExpectedFile
import Verif.Spec.Expose
import Verif.Spec.Frontend
import Verif.Spec.Grammar
import Verif.Spec.Handlers
import Verif.Spec.Interrupts
import Verif.Spec.Introspect
import Verif.Spec.Joint
import Verif.Spec.LaunchFile
import Verif.Spec.LaunchProcess
import Verif.Spec.LaunchTest
import Verif.Spec.Legacy
import Verif.Spec.Lines
import Verif.Spec.LogDir
import Verif.Spec.LogFormat
import Verif.Spec.Logging
import Verif.Spec.Markup
import Verif.Spec.Meaning
import Verif.Spec.NestedArgs
import Verif.Spec.Output
import Verif.Spec.ParseIf
import Verif.Spec.ParserQueries
import Verif.Spec.PerLogger
import Verif.Spec.PostMarks
import Verif.Spec.PytestScope
import Verif.Spec.PytestVersion
import Verif.Spec.ReadyListener
import Verif.Spec.Required
import Verif.Spec.Scope
import Verif.Spec.Service
import Verif.Spec.Setting
import Verif.Spec.ShowArgs
import Verif.Spec.ShutdownEnds
import Verif.Spec.Signal
import Verif.Spec.Subst
import Verif.Spec.SubstMore
import Verif.Spec.System
import Verif.Spec.SystemEvents
import Verif.Spec.Targeted
import Verif.Spec.TestBind
import Verif.Spec.TestWait
import Verif.Spec.TestWorker
import Verif.Spec.Timeouts
import Verif.Spec.TimerService
import Verif.Spec.Trans
import Verif.Spec.Typed
import Verif.Spec.Visit
