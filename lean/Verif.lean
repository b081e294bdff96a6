import Verif.Props.Access
import Verif.Props.AnCov
import Verif.Props.Antnums
import Verif.Props.ApproxCov
import Verif.Props.ArgParse
import Verif.Props.AutoNoise
import Verif.Props.AutoVar
import Verif.Props.Average
import Verif.Props.Average2
import Verif.Props.AvgArgs
import Verif.Props.AvgJoin
import Verif.Props.AvgScale
import Verif.Props.Beam
import Verif.Props.BlGroups
import Verif.Props.Blpairs
import Verif.Props.BootRun
import Verif.Props.Bootstrap
import Verif.Props.Cache
import Verif.Props.CalAdd
import Verif.Props.Check
import Verif.Props.Circular
import Verif.Props.Cli
import Verif.Props.Combine
import Verif.Props.CombineMap
import Verif.Props.CombineOpt
import Verif.Props.CombinePsc
import Verif.Props.ConfigBlps
import Verif.Props.Container
import Verif.Props.ContainerIO
import Verif.Props.Cosmo
import Verif.Props.Cosmo2
import Verif.Props.Cov
import Verif.Props.CovQ
import Verif.Props.Create
import Verif.Props.DelayAdj
import Verif.Props.DelayAxis
import Verif.Props.DelayBins
import Verif.Props.ExactNorm
import Verif.Props.ExactWin
import Verif.Props.FTBeam
import Verif.Props.FTGauss
import Verif.Props.FlagR
import Verif.Props.Flags
import Verif.Props.Fold
import Verif.Props.FoldAvg
import Verif.Props.FoldAvgScale
import Verif.Props.FoldBoot
import Verif.Props.FoldScale
import Verif.Props.FromData
import Verif.Props.GaussBeam
import Verif.Props.GetCov
import Verif.Props.GetSph
import Verif.Props.GroupBls
import Verif.Props.Hdf5
import Verif.Props.Interp
import Verif.Props.JobMonitor
import Verif.Props.JyMk
import Verif.Props.KBins
import Verif.Props.KeyForms
import Verif.Props.LabelArr
import Verif.Props.Labels
import Verif.Props.LensAngs
import Verif.Props.LoadCfg
import Verif.Props.Noise
import Verif.Props.NoiseErr
import Verif.Props.NoiseSim
import Verif.Props.Oqe
import Verif.Props.Oqe2
import Verif.Props.Oqe3
import Verif.Props.Oqe4
import Verif.Props.Oqe5
import Verif.Props.Oqe6
import Verif.Props.PlotFall
import Verif.Props.PlotSpec
import Verif.Props.PlotUvd
import Verif.Props.PlotWedge
import Verif.Props.Polpair
import Verif.Props.PspecCall
import Verif.Props.PspecHist
import Verif.Props.PspecLoop
import Verif.Props.PspecRun
import Verif.Props.PspecValue
import Verif.Props.Pstokes
import Verif.Props.RParams
import Verif.Props.Recursive
import Verif.Props.RedAvg
import Verif.Props.RedGroups
import Verif.Props.Rephase
import Verif.Props.Rescale
import Verif.Props.RunWrite
import Verif.Props.Scalar
import Verif.Props.SelAvg
import Verif.Props.SelState
import Verif.Props.SelectCombine
import Verif.Props.SelectCommon
import Verif.Props.Sensitivity
import Verif.Props.Seps
import Verif.Props.SetCosmo
import Verif.Props.Settings
import Verif.Props.SharedPrep
import Verif.Props.Sizes
import Verif.Props.SkyNoise
import Verif.Props.SphWf
import Verif.Props.Spherical
import Verif.Props.SplitMerge
import Verif.Props.SpwFreq
import Verif.Props.Stages
import Verif.Props.StokesRun
import Verif.Props.Subtract
import Verif.Props.SymmTaper
import Verif.Props.Symmetry
import Verif.Props.TimeDiff
import Verif.Props.Times
import Verif.Props.Transact
import Verif.Props.Tree
import Verif.Props.Tsys
import Verif.Props.UVP
import Verif.Props.UVPRead
import Verif.Props.UvpEq
import Verif.Props.Validate
import Verif.Props.Window
