import Verif.Base.Scalar
import Verif.Base.Errors
import Verif.Base.Mem
import Verif.Base.Par
import Verif.Model.Math
import Verif.Model.TV
import Verif.Proofs.MathK
import Verif.Proofs.Vcl
import Verif.Spec.Image
import Verif.Proofs.TVK
import Verif.Proofs.TVReal
import Verif.Base.Heap
import Verif.Model.Memory
import Verif.Spec.Memory
import Verif.Proofs.MemoryH
import Verif.Base.Vec
import Verif.Model.LineSearch
import Verif.Spec.LineSearch
import Verif.Model.CG
import Verif.Spec.CG
import Verif.Proofs.CGReal
import Verif.Proofs.CGDbl
import Verif.Model.Dct
import Verif.Spec.Dct
import Verif.Proofs.DctReal
import Verif.Proofs.DctK
import Verif.Proofs.DctSet
import Verif.Model.DctTV
import Verif.Spec.DctTV
import Verif.Proofs.TVVec
import Verif.Proofs.DctTVK
import Verif.Model.World
import Verif.Spec.World
import Verif.Proofs.WorldK
import Verif.Proofs.WorldInv
import Verif.Proofs.WorldCall
import Verif.Proofs.WorldHist
import Verif.Base.Cmd
import Verif.Model.Bregman
import Verif.Spec.Bregman
import Verif.Proofs.BregmanK
import Verif.Proofs.BregmanRun
import Verif.Proofs.CmdAlloc
import Verif.Proofs.BregmanMain
import Verif.Proofs.BregmanUB
import Verif.Proofs.BregmanReal
import Verif.Proofs.BregmanOpt
import Verif.Proofs.BregmanFin
import Verif.Proofs.BregmanGS
import Verif.Proofs.BregmanSaddle
import Verif.Proofs.BregmanConv
import Verif.Model.Nesta
import Verif.Spec.Nesta
import Verif.Proofs.NestaReal
import Verif.Proofs.NestaDbl
import Verif.Proofs.NestaFifo
import Verif.Proofs.NestaRun
import Verif.Proofs.NestaRes
import Verif.Proofs.NestaFin
import Verif.Model.Newton
import Verif.Spec.Newton
import Verif.Proofs.NewtonReal
import Verif.Proofs.NewtonDbl
import Verif.Proofs.NewtonStep
import Verif.Proofs.NewtonLoop
import Verif.Proofs.NewtonMem
import Verif.Proofs.NewtonRuns
import Verif.Proofs.NewtonFeas
import Verif.Proofs.NewtonStall
import Verif.Proofs.NewtonInit
import Verif.Proofs.NewtonSim
import Verif.Model.L1qcDct
import Verif.Spec.L1qcDct
import Verif.Proofs.L1qcDct
import Verif.Model.Logging
import Verif.Model.Json
import Verif.Spec.Logging
import Verif.Proofs.Json
import Verif.Model.Bindings
import Verif.Spec.Bindings
import Verif.Proofs.Bindings
import Verif.Model.BregBindings
import Verif.Spec.BregBindings
import Verif.Proofs.BregBindings
import Verif.Model.NestaBindings
import Verif.Spec.NestaBindings
import Verif.Proofs.NestaSet
import Verif.Proofs.NestaBindings
import Verif.Proofs.NestaOpt
import Verif.Spec.NewtonRate
import Verif.Proofs.NewtonRate
import Verif.Proofs.NewtonConv
import Verif.Proofs.NewtonCentre
import Verif.Proofs.NewtonTotal
import Verif.Proofs.NewtonInexact
import Verif.Base.Binary64
import Verif.Spec.Rounding
import Verif.Proofs.Rounding
import Verif.Proofs.Binary64
import Verif.Model.Example
import Verif.Proofs.Example
import Verif.Proofs.CGRate
import Verif.Model.Options
import Verif.Spec.Options
import Verif.Proofs.Options
import Verif.Model.PyTV
import Verif.Spec.NestaEnd
import Verif.Proofs.NestaSteps
import Verif.Spec.Nan
import Verif.Proofs.NestaSyn
import Verif.Proofs.NestaNan
import Verif.Spec.Session
import Verif.Proofs.Frame
import Verif.Proofs.NestaSim
import Verif.Proofs.Arguments
import Verif.Proofs.TvSym
import Verif.Spec.NestaSym
import Verif.Spec.TvShape
import Verif.Spec.TvRound
import Verif.Proofs.NestaSym
import Verif.Proofs.NestaMirror
import Verif.Proofs.NewtonSym
import Verif.Proofs.NewtonSymLoop
import Verif.Proofs.TvShape
import Verif.Proofs.TvMu
import Verif.Proofs.Binary64Order
import Verif.Proofs.TvRound
import Verif.Proofs.TvFloat
import Verif.Proofs.OddSolve
import Verif.Proofs.CgFloat
import Verif.Model.CGMem
import Verif.Spec.MemVec
import Verif.Proofs.MemVec
import Verif.Proofs.CGMem
import Verif.Model.NewtonMem
import Verif.Proofs.EnvMem
import Verif.Spec.NewtonMem
import Verif.Proofs.NewtonRam
import Verif.Proofs.AllocList
import Verif.Proofs.NewtonFull
import Verif.Model.NestaMem
import Verif.Spec.NestaMem
import Verif.Proofs.ArrMem
import Verif.Proofs.NestaRam
import Verif.Proofs.NestaFull
import Verif.Model.TransMem
import Verif.Spec.TransMem
import Verif.Proofs.TransMem
import Verif.Proofs.DctRam
import Verif.Proofs.MatRam
import Verif.Proofs.Planner
import Verif.Model.L1qcDctMem
import Verif.Spec.L1qcDctMem
import Verif.Proofs.L1qcDctMem
import Verif.Model.DctTvMem
import Verif.Spec.DctTvMem
import Verif.Proofs.DctTvMem
import Verif.Proofs.DctTvNear
import Verif.Model.NestaMexMem
import Verif.Spec.NestaMexMem
import Verif.Proofs.NestaMexMem
import Verif.Model.PyScript
import Verif.Spec.PyScript
import Verif.Proofs.PyScript
import Verif.Model.Concurrent
import Verif.Spec.Concurrent
import Verif.Proofs.Concurrent
import Verif.Proofs.ConcurrentLib
import Verif.Model.PyMem
import Verif.Spec.PyMem
import Verif.Proofs.PyMem
import Verif.Spec.Race
import Verif.Proofs.Race
import Verif.Model.MexMem
import Verif.Spec.MexMem
import Verif.Proofs.MexMem
import Verif.Spec.Align
import Verif.Proofs.Align
import Verif.Props.VecMath
import Verif.Props.TV
import Verif.Props.Memory
import Verif.Props.LineSearch
import Verif.Props.CG
import Verif.Props.Dct
import Verif.Props.DctTV
import Verif.Props.World
import Verif.Props.Bregman
import Verif.Props.Nesta
import Verif.Props.Newton
import Verif.Props.L1qcDct
import Verif.Props.Logging
import Verif.Props.Json
import Verif.Props.Bindings
import Verif.Props.BregBindings
import Verif.Props.WorldSizes
import Verif.Props.NestaBindings
import Verif.Props.NestaOpt
import Verif.Props.NewtonConv
import Verif.Props.L1qcOpt
import Verif.Props.Rounding
import Verif.Props.Example
import Verif.Props.BregmanConv
import Verif.Props.CGRate
import Verif.Props.Options
import Verif.Props.PyTV
import Verif.Props.EndToEnd
import Verif.Props.NestaEnd
import Verif.Props.NestaSyn
import Verif.Props.Arguments
import Verif.Props.Session
import Verif.Props.NestaSame
import Verif.Props.TvSym
import Verif.Props.NestaSym
import Verif.Props.L1qcSym
import Verif.Props.TvShape
import Verif.Props.TvMu
import Verif.Props.PyTvShape
import Verif.Props.TvRound
import Verif.Props.TvFloat
import Verif.Props.FloatSolve
import Verif.Props.CGMem
import Verif.Props.NewtonRam
import Verif.Props.NestaRam
import Verif.Props.TransRam
import Verif.Props.Planner
import Verif.Props.L1qcDctRam
import Verif.Props.DctTvRam
import Verif.Props.NestaMexRam
import Verif.Props.PyScript
import Verif.Props.Concurrent
import Verif.Props.PyRam
import Verif.Props.Race
import Verif.Props.MexRam
import Verif.Props.Align
import Verif.Props.SameImage
import Verif.Props.AlignBindings
import Verif.Props.ErrFloat
import Verif.Props.TvZero
import Verif.Props.TvBlack
import Verif.Props.AlignNesta
