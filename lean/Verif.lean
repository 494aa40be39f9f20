import Verif.Examples.Demo
import Verif.Examples.DemoBoost
import Verif.Examples.DemoCentralProgram
import Verif.Examples.DemoClear
import Verif.Examples.DemoJoined
import Verif.Examples.DemoJoinedBoost
import Verif.Examples.DemoMoved
import Verif.Examples.DemoMovedBoost
import Verif.Examples.DemoNear
import Verif.Examples.DemoPaillier
import Verif.Examples.DemoProgram
import Verif.Examples.DemoRaw
import Verif.Examples.DemoReorder
import Verif.Examples.DemoRounded
import Verif.Examples.DemoStrict
import Verif.Examples.DemoTwins
import Verif.Lemmas.Alike
import Verif.Lemmas.BatchOk
import Verif.Lemmas.Binning
import Verif.Lemmas.Boost
import Verif.Lemmas.BoostImportance
import Verif.Lemmas.BoostRun
import Verif.Lemmas.BoostStop
import Verif.Lemmas.Breaks
import Verif.Lemmas.C09
import Verif.Lemmas.C10
import Verif.Lemmas.C10Draws
import Verif.Lemmas.C11
import Verif.Lemmas.C15
import Verif.Lemmas.C16
import Verif.Lemmas.C17
import Verif.Lemmas.C18
import Verif.Lemmas.CentralProgram
import Verif.Lemmas.Chooses
import Verif.Lemmas.Columns
import Verif.Lemmas.Completes
import Verif.Lemmas.Cosets
import Verif.Lemmas.DTable
import Verif.Lemmas.DTableM
import Verif.Lemmas.Data
import Verif.Lemmas.Detail
import Verif.Lemmas.Dialog
import Verif.Lemmas.Dict
import Verif.Lemmas.Discreet
import Verif.Lemmas.Division
import Verif.Lemmas.EncHist
import Verif.Lemmas.EncView
import Verif.Lemmas.Fit
import Verif.Lemmas.FixedPoint
import Verif.Lemmas.GmpyMath
import Verif.Lemmas.Greedy
import Verif.Lemmas.Grow
import Verif.Lemmas.Histogram
import Verif.Lemmas.HistogramAgg
import Verif.Lemmas.HistogramSim
import Verif.Lemmas.HistogramSum
import Verif.Lemmas.Importance
import Verif.Lemmas.KeyGen
import Verif.Lemmas.Labels
import Verif.Lemmas.LeafSite
import Verif.Lemmas.Levels
import Verif.Lemmas.Lockstep
import Verif.Lemmas.Longer
import Verif.Lemmas.Loss
import Verif.Lemmas.Lossless
import Verif.Lemmas.LosslessBoost
import Verif.Lemmas.LosslessRun
import Verif.Lemmas.Members
import Verif.Lemmas.Meta
import Verif.Lemmas.Moved
import Verif.Lemmas.MovedBoost
import Verif.Lemmas.MovedPredict
import Verif.Lemmas.NearGreedy
import Verif.Lemmas.Network
import Verif.Lemmas.Numpy
import Verif.Lemmas.OfferList
import Verif.Lemmas.OnSamples
import Verif.Lemmas.OrderPrepare
import Verif.Lemmas.OrderQuantile
import Verif.Lemmas.OrderRun
import Verif.Lemmas.OrderTree
import Verif.Lemmas.Paillier
import Verif.Lemmas.PaillierCipher
import Verif.Lemmas.PaillierGreedy
import Verif.Lemmas.PaillierRun
import Verif.Lemmas.Params
import Verif.Lemmas.Predict
import Verif.Lemmas.ProcessBreaks
import Verif.Lemmas.Program
import Verif.Lemmas.ProgramRun
import Verif.Lemmas.ProgramSetup
import Verif.Lemmas.ProtocolBoost
import Verif.Lemmas.ProtocolBreaks
import Verif.Lemmas.ProtocolBreaks2
import Verif.Lemmas.ProtocolBreaks3
import Verif.Lemmas.ProtocolDialog
import Verif.Lemmas.ProtocolFit
import Verif.Lemmas.ProtocolPartners
import Verif.Lemmas.ProtocolPredict
import Verif.Lemmas.Quantile
import Verif.Lemmas.RawRun
import Verif.Lemmas.RawWalk
import Verif.Lemmas.Redispatch
import Verif.Lemmas.RedispatchOk
import Verif.Lemmas.Rename
import Verif.Lemmas.RenameBoost
import Verif.Lemmas.Reorder
import Verif.Lemmas.RoundChoice
import Verif.Lemmas.RoundError
import Verif.Lemmas.RoundGain
import Verif.Lemmas.RoundGrow
import Verif.Lemmas.RoundHist
import Verif.Lemmas.RoundRun
import Verif.Lemmas.RoundSame
import Verif.Lemmas.RoundSteady
import Verif.Lemmas.Rules
import Verif.Lemmas.Run
import Verif.Lemmas.SameSide
import Verif.Lemmas.Save
import Verif.Lemmas.Selected
import Verif.Lemmas.Sides
import Verif.Lemmas.Sites
import Verif.Lemmas.Solo
import Verif.Lemmas.SplitChoice
import Verif.Lemmas.Splitter
import Verif.Lemmas.Statics
import Verif.Lemmas.StrictEncrypt
import Verif.Lemmas.StrictRun
import Verif.Lemmas.Tables
import Verif.Lemmas.Talk
import Verif.Lemmas.Track
import Verif.Lemmas.Transport
import Verif.Lemmas.TransportClosed
import Verif.Model.Activation
import Verif.Model.Affine
import Verif.Model.Alias
import Verif.Model.Binning
import Verif.Model.Boost
import Verif.Model.Central
import Verif.Model.CentralBoost
import Verif.Model.CentralProgram
import Verif.Model.Closing
import Verif.Model.Converge
import Verif.Model.DTable
import Verif.Model.DTableM
import Verif.Model.Data
import Verif.Model.Division
import Verif.Model.EncHistogram
import Verif.Model.EncryptMode
import Verif.Model.Encrypter
import Verif.Model.Evaluate
import Verif.Model.Fit
import Verif.Model.FixedPoint
import Verif.Model.GmpyMath
import Verif.Model.Grow
import Verif.Model.GuestEncrypt
import Verif.Model.Histogram
import Verif.Model.KeyGen
import Verif.Model.Labels
import Verif.Model.Loss
import Verif.Model.Meta
import Verif.Model.Network
import Verif.Model.Numpy
import Verif.Model.Operator
import Verif.Model.Paillier
import Verif.Model.ParamExtract
import Verif.Model.Params
import Verif.Model.Predict
import Verif.Model.Processes
import Verif.Model.Program
import Verif.Model.Protocol
import Verif.Model.Py
import Verif.Model.Quantile
import Verif.Model.Recursive
import Verif.Model.Rounding
import Verif.Model.Rsa
import Verif.Model.Run
import Verif.Model.Sampling
import Verif.Model.Save
import Verif.Model.Selected
import Verif.Model.SplitChoice
import Verif.Model.Splitter
import Verif.Model.Statics
import Verif.Model.Transport
import Verif.Model.Value
import Verif.Props.C01
import Verif.Props.C02
import Verif.Props.C03
import Verif.Props.C04
import Verif.Props.C05
import Verif.Props.C06
import Verif.Props.C07
import Verif.Props.C08
import Verif.Props.C09
import Verif.Props.C10
import Verif.Props.C11
import Verif.Props.C11Gap
import Verif.Props.C12
import Verif.Props.C13
import Verif.Props.C14
import Verif.Props.C15
import Verif.Props.C16
import Verif.Props.C17
import Verif.Props.C18
import Verif.Props.C19
import Verif.Props.C20
import Verif.Props.C21
import Verif.Props.C21Wide
import Verif.Props.C22
import Verif.Props.C23
import Verif.Props.C24
import Verif.Props.C25
import Verif.Props.C26
import Verif.Props.C27
import Verif.Props.C28
import Verif.Props.C29
import Verif.Props.C30
import Verif.Props.C31
import Verif.Props.C32
import Verif.Props.C33
import Verif.Props.C34
import Verif.Props.C35
import Verif.Props.C36
import Verif.Props.C37
import Verif.Props.C38
import Verif.Props.C39
import Verif.Props.C40
import Verif.Props.C41
import Verif.Props.C41Evaluate
import Verif.Props.C42
import Verif.Props.C43
import Verif.Props.C44
import Verif.Props.C45
import Verif.Props.C46
import Verif.Props.C47
import Verif.Props.C48
import Verif.Props.C49
import Verif.Props.C50
import Verif.Props.C51
import Verif.Props.C52
import Verif.Props.C53
import Verif.Props.C54
import Verif.Props.C55
import Verif.Props.C56
import Verif.Props.C57
import Verif.Props.C58
import Verif.Props.C59
import Verif.Props.C60
import Verif.Props.C61
import Verif.Props.C62
import Verif.Props.C63
import Verif.Props.C64
import Verif.Props.C65
import Verif.Props.C66
import Verif.Props.C67
import Verif.Props.C68
import Verif.Props.C69
import Verif.Props.C70
import Verif.Props.C71
import Verif.Props.C72
import Verif.Props.C73
import Verif.Props.C74
import Verif.Props.C75
import Verif.Props.C76
import Verif.Props.C77
import Verif.Props.C77Given
import Verif.Props.C78
import Verif.Props.C79
import Verif.Props.C80
import Verif.Props.C80Any
import Verif.Props.C81
import Verif.Props.C82
import Verif.Props.C83
import Verif.Props.C83Ignored
import Verif.Props.C84
import Verif.Spec.C09
import Verif.Spec.C10
import Verif.Spec.C11
import Verif.Spec.C14
import Verif.Spec.C15
import Verif.Spec.C16
import Verif.Spec.C17
import Verif.Spec.C20
import Verif.Spec.C22
import Verif.Spec.C23
import Verif.Spec.C24
import Verif.Spec.C25
import Verif.Spec.C26
import Verif.Spec.C28
import Verif.Spec.C29
import Verif.Spec.C30
import Verif.Spec.C31
import Verif.Spec.C32
import Verif.Spec.C33
import Verif.Spec.C34
import Verif.Spec.C35
import Verif.Spec.C38
import Verif.Spec.C39
import Verif.Spec.C40
import Verif.Spec.C41
import Verif.Spec.C45
import Verif.Spec.C48
import Verif.Spec.C51
import Verif.Spec.C52
import Verif.Spec.C53
import Verif.Spec.C54
import Verif.Spec.C55
import Verif.Spec.C56
import Verif.Spec.C58
import Verif.Spec.C60
import Verif.Spec.C61
import Verif.Spec.C62
import Verif.Spec.C68
import Verif.Spec.C69
import Verif.Spec.C70
import Verif.Spec.C71
import Verif.Spec.C72
import Verif.Spec.C73
import Verif.Spec.C74
import Verif.Spec.C75
import Verif.Spec.C76
import Verif.Spec.C77
import Verif.Spec.C78
import Verif.Spec.C79
import Verif.Spec.C80
import Verif.Spec.C81
import Verif.Spec.C82
import Verif.Spec.C83
import Verif.Spec.C84
