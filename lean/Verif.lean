import Verif.Core.Arr
import Verif.Core.Buf
import Verif.Core.Fl
import Verif.Core.Ieee
import Verif.Core.Par
import Verif.Core.Rnd
import Verif.Lemmas.Assertions
import Verif.Lemmas.Binary
import Verif.Lemmas.Bind
import Verif.Lemmas.BindProject
import Verif.Lemmas.Config
import Verif.Lemmas.Converge
import Verif.Lemmas.Copies
import Verif.Lemmas.Cuda
import Verif.Lemmas.CudaArgs
import Verif.Lemmas.CudaRun
import Verif.Lemmas.CudaThreads
import Verif.Lemmas.CudaTrack
import Verif.Lemmas.Cupy
import Verif.Lemmas.FastSin
import Verif.Lemmas.Fit
import Verif.Lemmas.Input
import Verif.Lemmas.Int32
import Verif.Lemmas.Keywords
import Verif.Lemmas.Ledger
import Verif.Lemmas.Liouville
import Verif.Lemmas.Machine
import Verif.Lemmas.MachineObj
import Verif.Lemmas.Manual
import Verif.Lemmas.Multi
import Verif.Lemmas.MultiPy
import Verif.Lemmas.MultiRun
import Verif.Lemmas.Nan
import Verif.Lemmas.Newton
import Verif.Lemmas.NewtonResidual
import Verif.Lemmas.NewtonTotal
import Verif.Lemmas.Object
import Verif.Lemmas.ObjectLife
import Verif.Lemmas.Omp
import Verif.Lemmas.OmpNorm
import Verif.Lemmas.OmpOne
import Verif.Lemmas.Output
import Verif.Lemmas.OutputFile
import Verif.Lemmas.Par
import Verif.Lemmas.ParAtomic
import Verif.Lemmas.ParShuffle
import Verif.Lemmas.Particles
import Verif.Lemmas.PhaseSpace
import Verif.Lemmas.PhaseSpaceInfo
import Verif.Lemmas.PostProcess
import Verif.Lemmas.PreProcess
import Verif.Lemmas.Profiles
import Verif.Lemmas.Programs
import Verif.Lemmas.ProgramsArrays
import Verif.Lemmas.ProgramsObj
import Verif.Lemmas.Recon
import Verif.Lemmas.ReconBounds
import Verif.Lemmas.ReconPerm
import Verif.Lemmas.ReconRun
import Verif.Lemmas.ReconSym
import Verif.Lemmas.Rnd
import Verif.Lemmas.RndBins
import Verif.Lemmas.RndGpu
import Verif.Lemmas.RndIter
import Verif.Lemmas.RndNd
import Verif.Lemmas.RndNear
import Verif.Lemmas.RndQuant
import Verif.Lemmas.RndReach
import Verif.Lemmas.RndRun
import Verif.Lemmas.RndTotal
import Verif.Lemmas.RndTrack
import Verif.Lemmas.RndTurn
import Verif.Lemmas.Run
import Verif.Lemmas.RunFile
import Verif.Lemmas.RunGpu
import Verif.Lemmas.RunSelf
import Verif.Lemmas.Scan
import Verif.Lemmas.SelfField
import Verif.Lemmas.Sensitive
import Verif.Lemmas.StepTrack
import Verif.Lemmas.Tomographics
import Verif.Lemmas.TomographicsClip
import Verif.Lemmas.TomographicsContour
import Verif.Lemmas.TomographicsDensity
import Verif.Lemmas.Tomography
import Verif.Lemmas.TrackObj
import Verif.Lemmas.Tracking
import Verif.Lemmas.TrackingLaws
import Verif.Lemmas.TrackingPy
import Verif.Model.Assertions
import Verif.Model.Bind
import Verif.Model.BindCount
import Verif.Model.BindProject
import Verif.Model.Config
import Verif.Model.Cuda
import Verif.Model.CudaArgs
import Verif.Model.CudaRun
import Verif.Model.CudaTrack
import Verif.Model.FastSin
import Verif.Model.Fit
import Verif.Model.Input
import Verif.Model.Int32
import Verif.Model.Kernels
import Verif.Model.Keywords
import Verif.Model.Ledger
import Verif.Model.Machine
import Verif.Model.MachineObj
import Verif.Model.Manual
import Verif.Model.Memory
import Verif.Model.Multi
import Verif.Model.Newton
import Verif.Model.Object
import Verif.Model.Omp
import Verif.Model.Output
import Verif.Model.Particles
import Verif.Model.PhaseSpace
import Verif.Model.PhaseSpaceInfo
import Verif.Model.PostDispatch
import Verif.Model.PostProcess
import Verif.Model.PreProcess
import Verif.Model.Profiles
import Verif.Model.Programs
import Verif.Model.ProgramsObj
import Verif.Model.Reconstruct
import Verif.Model.Run
import Verif.Model.RunFile
import Verif.Model.RunGpu
import Verif.Model.RunSelf
import Verif.Model.RunUser
import Verif.Model.Scan
import Verif.Model.SelfField
import Verif.Model.Shortcuts
import Verif.Model.StepTrack
import Verif.Model.Tomographics
import Verif.Model.Tomography
import Verif.Model.TrackObj
import Verif.Model.Tracking
import Verif.Props.Area
import Verif.Props.Assertions
import Verif.Props.Axes
import Verif.Props.Bind
import Verif.Props.BindCount
import Verif.Props.BindProject
import Verif.Props.BunchOrder
import Verif.Props.Cases
import Verif.Props.Config
import Verif.Props.Converge
import Verif.Props.Copies
import Verif.Props.Cuda
import Verif.Props.CudaArgs
import Verif.Props.CudaTrack
import Verif.Props.Dark
import Verif.Props.DarkGpu
import Verif.Props.FastSin
import Verif.Props.Fit
import Verif.Props.Identical
import Verif.Props.IdenticalDiscr
import Verif.Props.Input
import Verif.Props.Int32
import Verif.Props.Kernels
import Verif.Props.Keywords
import Verif.Props.Ledger
import Verif.Props.Machine
import Verif.Props.MachineObj
import Verif.Props.Manual
import Verif.Props.Memory
import Verif.Props.Multi
import Verif.Props.MultiPy
import Verif.Props.Newton
import Verif.Props.NewtonResidual
import Verif.Props.Object
import Verif.Props.Omp
import Verif.Props.OmpOne
import Verif.Props.Output
import Verif.Props.Particles
import Verif.Props.PhaseSpace
import Verif.Props.Physics
import Verif.Props.PostDispatch
import Verif.Props.PostProcess
import Verif.Props.PreProcess
import Verif.Props.Profiles
import Verif.Props.Programs
import Verif.Props.ProgramsObj
import Verif.Props.Recon
import Verif.Props.ReconSym
import Verif.Props.Repeated
import Verif.Props.Rnd
import Verif.Props.RndBins
import Verif.Props.RndGpu
import Verif.Props.RndIter
import Verif.Props.RndNear
import Verif.Props.RndTotal
import Verif.Props.RndTurn
import Verif.Props.Run
import Verif.Props.RunFile
import Verif.Props.RunGpu
import Verif.Props.RunSelf
import Verif.Props.Scan
import Verif.Props.SelfField
import Verif.Props.Sensitive
import Verif.Props.Shortcuts
import Verif.Props.StepTrack
import Verif.Props.Tightened
import Verif.Props.Tightened2
import Verif.Props.Tightened3
import Verif.Props.Tightened4
import Verif.Props.Tightened5
import Verif.Props.Tightened6
import Verif.Props.Tomographics
import Verif.Props.TomographicsArea
import Verif.Props.TomographicsClip
import Verif.Props.TomographicsContour
import Verif.Props.TomographicsDensity
import Verif.Props.Tomography
import Verif.Props.TrackObj
import Verif.Props.Tracking
import Verif.Props.Union
import Verif.Props.UnionNoise
import Verif.Props.Wider
import Verif.Props.WiderGpu
import Verif.Spec.Bind
import Verif.Spec.BindProject
import Verif.Spec.Buffers
import Verif.Spec.Config
import Verif.Spec.Converge
import Verif.Spec.Copies
import Verif.Spec.CudaArgs
import Verif.Spec.Dark
import Verif.Spec.FastSin
import Verif.Spec.Fit
import Verif.Spec.Identical
import Verif.Spec.Input
import Verif.Spec.Keywords
import Verif.Spec.Ledger
import Verif.Spec.Machine
import Verif.Spec.MachineObj
import Verif.Spec.Manual
import Verif.Spec.Multi
import Verif.Spec.Newton
import Verif.Spec.Object
import Verif.Spec.Omp
import Verif.Spec.Output
import Verif.Spec.PostProcess
import Verif.Spec.PreProcess
import Verif.Spec.Programs
import Verif.Spec.ProgramsObj
import Verif.Spec.Recon
import Verif.Spec.Rnd
import Verif.Spec.RndBins
import Verif.Spec.RndIter
import Verif.Spec.RndNear
import Verif.Spec.RndTurn
import Verif.Spec.Run
import Verif.Spec.RunFile
import Verif.Spec.RunSelf
import Verif.Spec.Scan
import Verif.Spec.SelfField
import Verif.Spec.Sensitive
import Verif.Spec.StepTrack
import Verif.Spec.Tomographics
import Verif.Spec.TrackObj
import Verif.Spec.Tracking
import Verif.Spec.Union
import Verif.Spec.Wider
