import Verif.Core
import Verif.Tensor.PropsShape
import Verif.Tensor.PropsMatmul
import Verif.Tensor.PropsFrame
import Verif.Tensor.PropsProgram
import Verif.NN.PropsAct
import Verif.NN.PropsMatop
import Verif.NN.PropsInit
import Verif.NN.PropsForward
import Verif.NN.PropsGrad
import Verif.NN.PropsUpdate
import Verif.NN.PropsBatch
import Verif.NN.PropsDecay
import Verif.NN.PropsCopy
import Verif.NN.PropsSpecial
import Verif.NN.PropsShare
import Verif.NN.PropsConvBack
import Verif.NN.PropsText
import Verif.NN.PropsPool
import Verif.NN.PropsParRace
import Verif.NN.PropsOrder
import Verif.NN.PropsBatchCost
import Verif.NN.Checker
import Verif.NN.PropsChecker
import Verif.NN.PropsAssign
import Verif.NN.PropsSetters
import Verif.NN.PropsResume
import Verif.NN.PropsPerfect
import Verif.NN.PropsIsolation
import Verif.NN.PropsSizes
import Verif.NN.PropsLinear
import Verif.NN.PropsDeterminate
import Verif.NN.PropsExamples
import Verif.NN.Demo
import Verif.NN.PropsDemo
import Verif.NN.Float
import Verif.NN.FloatSpec
import Verif.NN.FloatReal
import Verif.NN.FloatWitness
import Verif.NN.FloatLemmas
import Verif.NN.PropsFloatAct
import Verif.NN.PropsFloatNan
import Verif.NN.PropsFloatSoftmax
import Verif.NN.PropsFloatCost
import Verif.NN.PropsFloatSafe
import Verif.NN.Binary64
import Verif.NN.Binary64Lemmas
import Verif.NN.Binary64Ieee
import Verif.NN.RoundSpec
import Verif.NN.RoundLemmas
import Verif.NN.PropsRound
import Verif.NN.RoundAct
import Verif.NN.PropsRoundTanh
import Verif.NN.FloatFile
import Verif.NN.FloatFileLemmas
import Verif.NN.FloatFileLemmas2
import Verif.NN.PropsFloatFile
import Verif.NN.PropsSymmetry
import Verif.NN.Default
import Verif.NN.PropsDefault
import Verif.NN.Exn
import Verif.NN.ExnLemmas
import Verif.NN.PropsExn
import Verif.NN.PropsExn2
import Verif.NN.PropsExn3
import Verif.NN.PropsExn4
import Verif.Tensor.Witness
import Verif.NN.WitnessNet
import Verif.NN.PropsFeedCost
import Verif.NN.PropsHandFile
import Verif.NN.PropsLayout
import Verif.NN.WitnessTrain
import Verif.NN.WitnessMore
import Verif.NN.WitnessLayers
import Verif.NN.WitnessRest
import Verif.NN.WitnessFloat
import Verif.NN.PropsSameTrainer
import Verif.Tensor.PropsLeak
import Verif.Tensor.Tests
import Verif.Tensor.PropsTests
import Verif.Tensor.WitnessTests
import Verif.NN.PropsReload
import Verif.NN.UnitTests
import Verif.NN.PropsUnitTests
import Verif.NN.Convex
import Verif.NN.ConvexLoss
import Verif.NN.PropsConvex
import Verif.NN.PropsCtor
import Verif.NN.Kaczmarz
import Verif.NN.PropsEpoch
import Verif.NN.PropsSchedule
import Verif.NN.HeavyBall
import Verif.NN.PropsHeavyBall
import Verif.NN.PropsSlopes
import Verif.Tensor.Expr
import Verif.Tensor.PropsAlgebra
import Verif.NN.PropsRelabel
import Verif.NN.PropsDead
import Verif.NN.PropsFrozen
import Verif.NN.SpecialCopy
import Verif.NN.PropsLayerCopy
import Verif.NN.PropsMix
import Verif.NN.PropsTied
import Verif.NN.PropsDecayBound
import Verif.NN.PropsRest
import Verif.NN.PropsShift
import Verif.NN.PropsCollapse
import Verif.NN.PropsBalance
import Verif.NN.TestData
import Verif.NN.PropsTestData
import Verif.NN.ConvInt
import Verif.NN.PropsConvInt
import Verif.NN.NullNet
import Verif.NN.PropsNull
import Verif.NN.NetThread
import Verif.NN.NetThreadLemmas
import Verif.NN.PropsThread
import Verif.NN.PropsThreadEx
import Verif.NN.Omp
import Verif.NN.PropsOmp
import Verif.NN.PropsOmpEx
import Verif.NN.PropsOffset
import Verif.NN.PropsOffsetEx
import Verif.Tensor.Alloc
import Verif.Tensor.PropsAlloc
import Verif.NN.PropsUnseen
import Verif.NN.PropsUnseenEx
import Verif.NN.PropsTurn
import Verif.NN.PropsTurnEx
import Verif.NN.Experiment
import Verif.NN.PropsExperiment
import Verif.NN.PropsExperimentEx
import Verif.NN.PropsUnreadable
import Verif.NN.TestTrain
import Verif.NN.PropsTestTrain
import Verif.NN.PropsTrials
import Verif.NN.PropsTrials2
import Verif.Tensor.Threads
import Verif.Tensor.PropsThreads
import Verif.Tensor.PropsThreadsEx
import Verif.NN.PropsStable
import Verif.NN.PropsDirection
import Verif.NN.PropsUnits
import Verif.NN.PropsPrune
import Verif.NN.Photo
import Verif.NN.PropsPhoto
import Verif.NN.PropsNormNet
import Verif.NN.PropsSoftNet
import Verif.NN.PropsHead
import Verif.NN.PropsMixed
import Verif.NN.PropsPoison
