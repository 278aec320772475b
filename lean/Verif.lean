import Verif.Props.Unfold
import Verif.Props.Slice
import Verif.Props.Sample
import Verif.Props.InMemory
import Verif.Props.Chunked
import Verif.Props.Hdf5
import Verif.Props.Snapshotter
import Verif.Props.OnlineAverager
import Verif.Props.Augment
import Verif.Props.GroupNorm
import Verif.Props.Spectral
import Verif.Props.Whiten
import Verif.Props.WhitenFlat
import Verif.Props.WhitenModules
import Verif.Props.Fittable
import Verif.Props.Scaler
import Verif.Props.Pearson
import Verif.Props.Integrator
import Verif.Props.Snr
import Verif.Props.Geometry
import Verif.Props.Projector
import Verif.Props.Decimator
import Verif.Props.WaveformSampler
import Verif.Props.Heterodyne
import Verif.Props.Spectrogram
import Verif.Props.Autoencoder
import Verif.Props.AutoencoderNet
import Verif.Props.ResNet
import Verif.Props.S4D
import Verif.Lemmas.SchoenbergWhitney
import Verif.Props.Spline
import Verif.Props.Spline2D
import Verif.Props.QTile
import Verif.Props.QTransform
import Verif.Props.Resample
import Verif.Props.QInterp
import Verif.Props.QScan
import Verif.Props.QEnergy
import Verif.Props.Distributions
import Verif.Props.Volume
import Verif.Props.Conversion
import Verif.Props.CbcUtils
import Verif.Props.Generator
import Verif.Props.GeneratorOut
import Verif.Props.TaylorF2
import Verif.Props.Adhoc
import Verif.Props.PhenomD
import Verif.Props.PhenomPWave
import Verif.Props.PhenomPGeom
import Verif.Props.PhenomPOrbit
import Verif.Props.PhenomPAligned
import Verif.Props.PhenomPBounds
import Verif.Props.PhenomPRing
import Verif.Props.PhenomPForward
import Verif.Props.PhenomPvsD
import Verif.Props.PhenomPTime
import Verif.Props.PhenomPMinimal
import Verif.Props.CbcTime
import Verif.Props.QTileSmall
import Verif.Props.Constants
import Verif.Model.IIRFilter
import Verif.Model.Butter
import Verif.Spec.IIRFilter
import Verif.Props.IIRFilter
import Verif.Props.IIRSteady
import Verif.Props.Butter
import Verif.Props.GeneratorFilter
import Verif.Spec.Spa
import Verif.Props.SpaSeries
import Verif.Props.SpaPhenomD
import Verif.Props.SpaTaylorF2
import Verif.Spec.Batch
import Verif.Props.Batch
import Verif.Props.BatchGw
import Verif.Props.BatchNet
import Verif.Props.BatchQ
import Verif.Props.GeneratorBatch
import Verif.Props.BatchWave
import Verif.Lemmas.Circular
import Verif.Props.WhitenLocal
import Verif.Props.PhenomPTurn
import Verif.Props.Coherence
import Verif.Props.Hdf5Reach
import Verif.Props.SpectralNoise
import Verif.Props.SnrInvariance
import Verif.Props.SampleUniform
import Verif.Props.ChunkedDraws
import Verif.Props.WhitenNoise
import Verif.Props.QTileShift
import Verif.Props.QTileTone
import Verif.Props.ResNetInit
import Verif.Props.ResNetBatch
import Verif.Props.PhenomDModel
import Verif.Props.ResNetLayers
import Verif.Props.Cosmology
import Verif.Props.PhenomPPrecession
import Verif.Props.Balance
import Verif.Props.BalanceTaylorF2
import Verif.Props.BalancePhenomD
import Verif.Props.BalancePhenomP
import Verif.Props.CbcBalance
import Verif.Props.PhenomDExchange
import Verif.Props.ScaleFree
import Verif.Props.SourceTurn
