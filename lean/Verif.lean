import Verif.Bytes
import Verif.Store
import Verif.World
import Verif.Tree
import Verif.Layout
import Verif.Raw
import Verif.TreeLemmas
import Verif.LayoutLemmas
import Verif.RawLemmas
import Verif.Exp
import Verif.Spec
import Verif.Wire
import Verif.Request
import Verif.WireLemmas
import Verif.Props.Wire
import Verif.RequestLemmas
import Verif.PlainLemmas
import Verif.SessionLemmas
import Verif.HealthLemmas
import Verif.SetupLemmas
import Verif.AnswerLemmas
import Verif.SafeLemmas
import Verif.Demo
import Verif.Props.Session
import Verif.Props.Store
import Verif.SockIO
import Verif.Ring
import Verif.RingLemmas
import Verif.Proxy
import Verif.Props.Stream
import Verif.Nego
import Verif.NegoSpec
import Verif.NegoLemmas
import Verif.NegoRel
import Verif.NegoHoare
import Verif.NegoServe
import Verif.NegoLoop
import Verif.NegoExact
import Verif.Props.Nego
import Verif.ErrText
import Verif.CliNego
import Verif.CliLemmas
import Verif.CliHoare
import Verif.Talk
import Verif.CliSafe
import Verif.Props.Client
import Verif.CliMain
import Verif.Props.CliMain
import Verif.Acl
import Verif.Props.Acl
import Verif.Config
import Verif.Props.Config
import Verif.Parent
import Verif.Props.Parent
import Verif.DurableLemmas
import Verif.Props.Durable
import Verif.FailLemmas
import Verif.Props.Errors
import Verif.CowLemmas
import Verif.CowView
import Verif.CowSession
import Verif.Props.Cow
import Verif.Props.CowFalse
import Verif.Props.CowConf
import Verif.Props.CowWhole
import Verif.Props.CowWrap
import Verif.CowAny
import Verif.Props.CowAny
import Verif.Wait
import Verif.WaitLemmas
import Verif.WaitRun
import Verif.WaitAny
import Verif.Props.Wait
import Verif.TrLog
import Verif.TrLogLemmas
import Verif.TrPlayLemmas
import Verif.Props.TrLog
import Verif.Sched
import Verif.SchedLemmas
import Verif.SchedRun
import Verif.SchedTurn
import Verif.Props.Sched
import Verif.SchedPlain
import Verif.SchedSeq
import Verif.LinearLemmas
import Verif.Props.Linear
import Verif.SchedSplice
import Verif.Props.SpliceLinear
import Verif.SchedSpliceKept
import Verif.Props.SpliceKept
import Verif.SchedLive
import Verif.SchedSafe
import Verif.Props.Live
import Verif.Names
import Verif.Startup
import Verif.Props.Names
import Verif.Props.Startup
import Verif.SchedCow
import Verif.SchedCowRun
import Verif.SchedCowKept
import Verif.SchedOne
import Verif.SchedAny
import Verif.Props.Par
import Verif.Props.Text
import Verif.Props.Served
import Verif.SchedDurable
import Verif.SchedKept
import Verif.Props.Kept
import Verif.SchedTree
import Verif.Props.TreeRace
import Verif.CliRun
import Verif.CliRunLemmas
import Verif.CliOpts
import Verif.CliConn
import Verif.Props.CliRun
import Verif.Loop
import Verif.LoopLemmas
import Verif.LoopFds
import Verif.Props.Loop
import Verif.Finish
import Verif.Props.Finish
import Verif.GrowLemmas
import Verif.Props.Whole
import Verif.Res
import Verif.ResLemmas
import Verif.Props.Res
import Verif.ResTasks
import Verif.ResTasksLemmas
import Verif.Props.ResTasks
import Verif.SchedHeld
import Verif.Props.Held
import Verif.Props.Many
import Verif.TrMain
import Verif.Props.TrMain
import Verif.Props.CliSafe
import Verif.Props.CliTable
import Verif.Props.Exact
import Verif.Tls
import Verif.Props.Tls
import Verif.GetStatus
import Verif.Props.GetStatus
import Verif.MkPath
import Verif.Props.MkPath
import Verif.Pipe
import Verif.PipeLemmas
import Verif.Props.Pipe
import Verif.Usr1
import Verif.Props.Usr1
import Verif.SchedTreeGood
import Verif.Props.TreeLinear
import Verif.SchedGuard
import Verif.SchedTreeRO
import Verif.Props.TreeReadOnly
import Verif.Props.TreeLive
import Verif.Alone
import Verif.Props.Alone
import Verif.TreeHealth
import Verif.Props.TreeWhole
import Verif.SafeAny
import Verif.Props.AnyLayout
import Verif.Props.FirstByte
import Verif.Props.FirstByteThreads
import Verif.Props.Accept
import Verif.Props.LogShared
import Verif.SafeCow
import Verif.Props.SafeCow
import Verif.SafeWait
import Verif.Props.SafeWait
import Verif.TrText
import Verif.Props.TrText
import Verif.Props.OneName
import Verif.Setup
import Verif.SetupFsLemmas
import Verif.Props.SetupFiles
import Verif.Props.Settings
import Verif.Ask
import Verif.Props.Ask
import Verif.SchedLog
import Verif.Props.SchedLog
import Verif.SchedNeat
import Verif.Props.SchedReplay
import Verif.SchedCrash
import Verif.Props.SchedCrash
import Verif.Props.SchedMain
import Verif.SchedSpliceSafe
import Verif.Props.ManySplice
import Verif.Props.SchedSafe
import Verif.SchedRO
import Verif.Props.SchedRO
import Verif.SchedFrame
import Verif.Props.SchedFrame
import Verif.SchedFrameTree
import Verif.Props.SchedFrameTree
import Verif.Props.CowFrame
