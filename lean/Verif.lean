import Verif.Props.Arith
import Verif.Props.Err
import Verif.Props.Addr
import Verif.Props.Rand
import Verif.Props.Aat
import Verif.Props.Maps
import Verif.Props.Sco
import Verif.Proof.RtFrame
import Verif.Proof.RtSched
import Verif.Proof.RtList3
import Verif.Proof.RtView
import Verif.Proof.RtSub
import Verif.Proof.RtChan2
import Verif.Proof.RtFlag2
import Verif.Proof.RtLog
import Verif.Proof.RtEvid7
import Verif.Spec.Rt
import Verif.Proof.RtLife
import Verif.Proof.RtFits
import Verif.Proof.RtQueue
import Verif.Props.RtEx
import Verif.Props.RtLife
import Verif.Props.RtWait
import Verif.Props.RtChan
import Verif.Proof.RtGen2
import Verif.Props.RtClose
import Verif.Props.RtBcast
import Verif.Props.RtSelect
import Verif.Props.RtTry
import Verif.Props.RtGen
import Verif.Props.RtLock
import Verif.Props.RtSync
import Verif.Spec.Cancel
import Verif.Proof.RtCancel
import Verif.Proof.RtCancel2
import Verif.Proof.RtCancel3
import Verif.Props.RtCancel
import Verif.Spec.Stats
import Verif.Proof.RtStats
import Verif.Props.RtStats
import Verif.Spec.Signal
import Verif.Proof.RtSig
import Verif.Proof.RtSig2
import Verif.Props.RtSig
import Verif.Proof.RtEv
import Verif.Props.RtDl
import Verif.Props.RtEv
import Verif.Proof.RtPool
import Verif.Props.RtPool
import Verif.Model.Stack
import Verif.Spec.Stack
import Verif.Proof.Stack
import Verif.Props.Stack
import Verif.Model.Colist
import Verif.Spec.Queue
import Verif.Proof.Colist
import Verif.Props.Colist
import Verif.Model.Worker
import Verif.Spec.Worker
import Verif.Proof.Worker
import Verif.Props.Worker
import Verif.Props.Mem
import Verif.Props.Out
import Verif.Props.RtLine
import Verif.Props.Text
import Verif.Model.Io
import Verif.Spec.Io
import Verif.Proof.Io
import Verif.Proof.Io2
import Verif.Proof.Stream
import Verif.Props.Io
import Verif.Props.Stream
import Verif.Model.Gai
import Verif.Spec.Gai
import Verif.Proof.Gai
import Verif.Props.Gai
import Verif.Model.Ref
import Verif.Spec.Ref
import Verif.Proof.Ref
import Verif.Props.Ref
import Verif.Model.Ring
import Verif.Spec.Ring
import Verif.Proof.Ring
import Verif.Props.Ring
import Verif.Proof.RtCase
import Verif.Proof.RtCase2
import Verif.Proof.RtCase3
import Verif.Props.RtCase
import Verif.Spec.RtTame
import Verif.Proof.RtTame
import Verif.Proof.RtTame2
import Verif.Proof.RtTame3
import Verif.Props.RtTame
import Verif.Model.Args
import Verif.Spec.Args
import Verif.Proof.Args
import Verif.Proof.Args2
import Verif.Proof.Args3
import Verif.Proof.Args4
import Verif.Props.Args
import Verif.Model.Net
import Verif.Spec.Net
import Verif.Proof.Net
import Verif.Proof.Net2
import Verif.Proof.Net3
import Verif.Proof.Net4
import Verif.Props.IoCancel
import Verif.Props.Net
import Verif.Props.NetCancel
import Verif.Model.Pipe
import Verif.Spec.Pipe
import Verif.Proof.Pipe
import Verif.Props.Pipe
import Verif.Spec.Owed
import Verif.Proof.RtOwed
import Verif.Proof.RtOwed2
import Verif.Props.RtOwed
import Verif.Model.Run
import Verif.Spec.Run
import Verif.Proof.Run
import Verif.Proof.Run2
import Verif.Proof.Run3
import Verif.Proof.Run4
import Verif.Proof.Run5
import Verif.Proof.Run6
import Verif.Proof.Run7
import Verif.Proof.Run8
import Verif.Proof.Run9
import Verif.Props.Run
import Verif.Props.Obj
import Verif.Spec.Turns
import Verif.Proof.RtTurn
import Verif.Proof.RtTurn2
import Verif.Proof.RtTurn3
import Verif.Props.RtTurn
import Verif.Spec.Legal
import Verif.Proof.RtRef
import Verif.Proof.RtRef2
import Verif.Proof.RtRef3
import Verif.Proof.RtRef4
import Verif.Props.RtLegal
import Verif.Spec.Quiet
import Verif.Proof.RtQuiet
import Verif.Proof.RtQuiet2
import Verif.Proof.RtQuiet3
import Verif.Props.RtQuiet
import Verif.Model.RtTime
import Verif.Proof.RtTime
import Verif.Props.RtTime
import Verif.Model.Sigq
import Verif.Spec.Sigq
import Verif.Props.Sigq
import Verif.Model.Conc
import Verif.Spec.Conc
import Verif.Proof.Conc
import Verif.Proof.Conc2
import Verif.Props.Conc
import Verif.Model.Llco
import Verif.Spec.Llco
import Verif.Proof.Llco
import Verif.Props.Llco
import Verif.Props.RtApart
import Verif.Model.Evq
import Verif.Spec.Evq
import Verif.Proof.Evq
import Verif.Props.Evq
import Verif.Model.Exit
import Verif.Spec.Exit
import Verif.Proof.Exit
import Verif.Props.Exit
import Verif.Model.Main
import Verif.Props.Main
import Verif.Model.Look
import Verif.Props.Look
import Verif.Model.Burst
import Verif.Props.Burst
import Verif.Props.IoEnds
import Verif.Props.NetEnds
import Verif.Props.IoEnds2
import Verif.Props.IoEnds3
import Verif.Props.DialEnds
