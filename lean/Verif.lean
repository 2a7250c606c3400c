import Verif.PropsCore
import Verif.PropsComb
import Verif.PropsLoop
import Verif.PropsUnit
import Verif.PropsLocal
import Verif.PropsFind
import Verif.PropsPolicy
import Verif.PropsCtorLoop
import Verif.PropsCtorComb
import Verif.PropsCtor
import Verif.PropsStorer
import Verif.PropsData
import Verif.PropsAlgebra
import Verif.PropsPrefix
import Verif.PropsRec
import Verif.PropsTerm
import Verif.PropsEscape
import Verif.PropsUtf8
import Verif.PropsCtorBase
import Verif.PropsJson
import Verif.PropsGuard
import Verif.PropsPng
import Verif.PropsPeg
import Verif.PropsClass
import Verif.PropsNum
import Verif.PropsMacro
import Verif.PropsSkip
import Verif.PropsAttr
import Verif.PropsEmail
import Verif.Api
import Verif.PropsApi
import Verif.RefactorSpec
import Verif.Refactor
import Verif.PropsRefactor
import Verif.Conform
import Verif.ConformDoc
import Verif.ConformLib
import Verif.ConformMore
import Verif.Locks
import Verif.LockRel
import Verif.LockStep
import Verif.LockSpec
import Verif.LockLemmas
import Verif.PropsLocks
import Verif.PropsSurface
import Verif.PropsStateful
import Verif.PropsLayers
import Verif.PropsWrap
import Verif.PropsColor
import Verif.PropsCircuit
import Verif.PropsParam
import Verif.PropsDepth
import Verif.PropsDepthJson
import Verif.PropsWork
import Verif.PropsCfg
import Verif.PropsSpace
import Verif.PropsLinear
import Verif.PropsLinearJson
import Verif.Cong
import Verif.Poison
import Verif.PoisonSpec
import Verif.PoisonRel
import Verif.PoisonLemmas
import Verif.PoisonSys
import Verif.PropsPoison
import Verif.MeansSpec
import Verif.MeansLemmas
import Verif.PropsMeans
import Verif.RewriteSpec
import Verif.RewriteLemmas
import Verif.PropsRewrite
import Verif.BlameSpec
import Verif.BlameLemmas
import Verif.BlameCtor
import Verif.Message
import Verif.PropsBlame
import Verif.PegCond
import Verif.PropsPegCond
import Verif.PropsRewriteIn
import Verif.PropsRewriteUnit
import Verif.BenchJson
import Verif.PropsBenchJson
import Verif.Utf8Ctor
import Verif.Machine
import Verif.MachineSpec
import Verif.MachineLemmas
import Verif.MachineCtor
import Verif.MachineMono
import Verif.MachineRelease
import Verif.PropsMachine
import Verif.PropsMachineJson
import Verif.Settled
import Verif.SettledLemmas
import Verif.SettledCtor
import Verif.PropsSettled
import Verif.SettledStop
import Verif.Told
import Verif.ToldLemmas
import Verif.PropsTold
import Verif.ValErase
import Verif.PropsMeansSpace
import Verif.PropsCondStart
import Verif.PropsSettledCtor
import Verif.FindTrace
import Verif.PropsFindTrace
import Verif.Calm
import Verif.PropsSkipFind
import Verif.PropsLines
import Verif.LocalityCtor
import Verif.PropsRecords
import Verif.Coarse
import Verif.PropsCoarse
import Verif.PropsPicture
import Verif.PngPlain
import Verif.PropsPngPlain
import Verif.MachineDebug
import Verif.MachineCalls
import Verif.PropsMachineDebug
import Verif.Log
import Verif.LogLemmas
import Verif.PropsLog
import Verif.PropsSepExact
import Verif.PropsMachineCalls
import Verif.PropsPolicyExact
import Verif.PropsLoopPanic
import Verif.PropsCut
import Verif.PropsCtorPanic
import Verif.ArrayDoc
import Verif.PropsArray
import Verif.PropsUnitFails
import Verif.PropsRadix
import Verif.PropsSeqPanic
import Verif.PropsLeftRec
import Verif.PropsSettledTimes
import Verif.PropsHang
import Verif.PropsQuadratic
import Verif.PropsHangBuild
import Verif.PropsHangLook
import Verif.PropsHangFind
import Verif.PropsFindUtf8
import Verif.PropsFindUtf8Text
import Verif.PropsSweep
import Verif.PropsAttempts
import Verif.PropsSweepSeq
import Verif.PropsOptNumber
import Verif.PropsSweepMore
import Verif.PropsSweepAny
import Verif.ChatLog
import Verif.ChatLemmas
import Verif.PropsChat
import Verif.PropsFused
import Verif.Tuple
import Verif.PropsTuple
