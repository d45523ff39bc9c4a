import Verif.Props.EmdLoop
import Verif.Props.EmdExact
import Verif.Props.Extrema
import Verif.Props.Spline
import Verif.Props.Points
import Verif.Props.NoRaise
import Verif.Props.Negation
import Verif.Props.Eemd
import Verif.Props.Ceemdan
import Verif.Props.Utils
import Verif.Props.Compact
import Verif.Props.Image2
import Verif.Props.Checks
import Verif.Props.Vis
import Verif.Props.Jit
import Verif.Props.Matlab
import Verif.Props.Parabol
import Verif.Props.Options
import Verif.Props.Affine
import Verif.Props.Ensemble
import Verif.Props.CeemdanStop
import Verif.Props.ImageUnits
import Verif.Props.Mirror
import Verif.Props.Reversal
import Verif.Props.Truncation
import Verif.Props.Truncation2
import Verif.Props.Compact2
import Verif.Props.Recursion
import Verif.Props.ImageEnvelope
import Verif.Props.ImageSymmetry
import Verif.Props.EemdTotal
import Verif.Props.ImageStop
import Verif.Props.Float
import Verif.Model.Scipy
import Verif.Spec.Scipy
import Verif.Lemmas.Scipy
import Verif.Lemmas.ScipySlopes
import Verif.Lemmas.ScipyRules
import Verif.Lemmas.ScipyContracts
import Verif.Lemmas.ScipyKnot
import Verif.Lemmas.ScipyQuad
import Verif.Props.Scipy
import Verif.Props.Natural
import Verif.Props.CeemdanTotal
import Verif.Props.Residue
import Verif.Lemmas.PointsTime
import Verif.Props.MatlabTotal
import Verif.Props.ScipyUse
import Verif.Spec.Wave
import Verif.Props.Wave
import Verif.Spec.Smooth
import Verif.Props.ImageSmooth
import Verif.Props.ImageTotal
import Verif.Spec.Missing
import Verif.Props.Missing
import Verif.Model.Types
import Verif.Model.MatlabInt
import Verif.Props.Types
import Verif.Props.MatlabInt
import Verif.Model.Memory
import Verif.Model.MemoryEemd
import Verif.Props.Memory
import Verif.Props.MemoryEemd
import Verif.Model.MemoryCeemdan
import Verif.Spec.MemoryCeemdan
import Verif.Lemmas.MemoryCeemdan
import Verif.Props.MemoryCeemdan
import Verif.Props.MemorySessions
import Verif.Model.Init
import Verif.Spec.Init
import Verif.Props.Init
import Verif.Model.Ieee
import Verif.Spec.Ieee
import Verif.Lemmas.Ieee
import Verif.Lemmas.IeeeExtrema
import Verif.Lemmas.IeeePoints
import Verif.Lemmas.IeeeMono
import Verif.Lemmas.IeeeSound
import Verif.Props.Ieee
import Verif.Props.IeeeParabol
import Verif.Spec.Symmetric
import Verif.Lemmas.Symmetric
import Verif.Lemmas.NegateExtrema
import Verif.Lemmas.IeeeSymmetric
import Verif.Props.IeeeNegation
import Verif.Model.External
import Verif.Lemmas.External
import Verif.Lemmas.JitTime
import Verif.Props.JitEnsemble
import Verif.Props.MatlabVsEmd
import Verif.Props.EemdAffine
import Verif.Props.LastRow
import Verif.Props.ImageFixe
import Verif.Props.IntSamples
import Verif.Props.FloatMore
import Verif.Model.MemoryMore
import Verif.Lemmas.MemoryMore
import Verif.Lemmas.MemoryMatlab
import Verif.Props.MemoryMore
import Verif.Lemmas.MatlabAffine
import Verif.Props.MatlabAffine
import Verif.Props.MatlabRecursion
import Verif.Props.EemdTruncation
import Verif.Props.JitSymmetry
import Verif.Props.MatlabNegation
import Verif.Props.ChecksPeaks
import Verif.Props.ChecksLocal
import Verif.Props.BemdExtrema
import Verif.Props.BemdNegation
import Verif.Props.BemdEnds
import Verif.Props.EemdNegation
import Verif.Props.CeemdanNegation
import Verif.Props.EnsembleTime
import Verif.Props.EemdNoNoise
import Verif.Props.EemdNoNoiseTrend
import Verif.Props.BemdSymmetry
import Verif.Model.Rbf
import Verif.Props.BemdRbf
import Verif.Props.EemdLimit
import Verif.Model.MemoryImage
import Verif.Props.MemoryImage
import Verif.Props.IeeeNoRaise
import Verif.Props.JitWave
import Verif.Model.Mixed
import Verif.Props.Mixed
import Verif.Props.EemdReversal
import Verif.Props.ImageNegation
import Verif.Props.InitImage
import Verif.Props.CeemdanReversal
import Verif.Props.MatlabReversal
import Verif.Props.MatlabWave
import Verif.Spec.ImageWave
import Verif.Props.ImageWave
import Verif.Spec.TurnsOnce
import Verif.Props.FewExtrema
import Verif.Props.OneTurn
