import Verif.Lemmas.ArrayNewton
import Verif.Lemmas.ArrayPM
import Verif.Lemmas.ArraySecant
import Verif.Lemmas.ArraySigma
import Verif.Lemmas.CashKarp
import Verif.Lemmas.CharNet
import Verif.Lemmas.ChebCert
import Verif.Lemmas.ChebModes
import Verif.Lemmas.ChebReal
import Verif.Lemmas.ChebStable
import Verif.Lemmas.Cycle
import Verif.Lemmas.Degree
import Verif.Lemmas.DevMax
import Verif.Lemmas.Engine
import Verif.Lemmas.Euler1D
import Verif.Lemmas.EulerBC
import Verif.Lemmas.EulerCompute
import Verif.Lemmas.EulerHeap
import Verif.Lemmas.EulerModes
import Verif.Lemmas.EulerRH
import Verif.Lemmas.ExpansionFan
import Verif.Lemmas.FanSplit
import Verif.Lemmas.Interp
import Verif.Lemmas.Isentropic
import Verif.Lemmas.LinOperator
import Verif.Lemmas.ListPy
import Verif.Lemmas.Lits
import Verif.Lemmas.MassFlow
import Verif.Lemmas.MinAngle
import Verif.Lemmas.MinMesh
import Verif.Lemmas.MinRun
import Verif.Lemmas.ModeStable
import Verif.Lemmas.Model1D
import Verif.Lemmas.Nearest
import Verif.Lemmas.NewtonPM
import Verif.Lemmas.Nozzle
import Verif.Lemmas.NozzleObj
import Verif.Lemmas.NpArray
import Verif.Lemmas.NumSpectral
import Verif.Lemmas.Oblique
import Verif.Lemmas.OldPM
import Verif.Lemmas.OldPM2
import Verif.Lemmas.OrrSommerfeld
import Verif.Lemmas.PtSecant
import Verif.Lemmas.PtSlope
import Verif.Lemmas.RK4
import Verif.Lemmas.RKTrees
import Verif.Lemmas.Ramjet
import Verif.Lemmas.Riemann
import Verif.Lemmas.Rounding
import Verif.Lemmas.SecantConvex
import Verif.Lemmas.SecantDomain
import Verif.Lemmas.SecantPM
import Verif.Lemmas.SecantPM2
import Verif.Lemmas.SecantPM3
import Verif.Lemmas.SecantPM4
import Verif.Lemmas.SecantPoly
import Verif.Lemmas.SecantRiemann
import Verif.Lemmas.SecantSigma
import Verif.Lemmas.ShockCubic
import Verif.Lemmas.ShockWave
import Verif.Lemmas.TurbofanMap
import Verif.Lemmas.Unsteady1D
import Verif.Lemmas.WeakSearch
import Verif.Lemmas.WeakSearch2
import Verif.Lemmas.WeakSearch3
import Verif.Lemmas.WeakSearch4
import Verif.Lemmas.WeakSearch5
import Verif.Lemmas.WeakSearch6
import Verif.Lemmas.WeakSearch7
import Verif.Lemmas.Welfert
import Verif.Model.ArrayFns
import Verif.Model.ArrayNewton
import Verif.Model.Charts
import Verif.Model.ChebHeap
import Verif.Model.CompressibleFlow
import Verif.Model.CycleTurbofan
import Verif.Model.DefaultGas
import Verif.Model.Degree
import Verif.Model.Dicovar
import Verif.Model.Euler1D
import Verif.Model.ExpansionFan
import Verif.Model.Extendvar
import Verif.Model.Fanno
import Verif.Model.GasGenerator
import Verif.Model.GuideVane
import Verif.Model.Imports
import Verif.Model.Inflow
import Verif.Model.InletNotebook
import Verif.Model.Isentropic
import Verif.Model.IterativeSolve
import Verif.Model.LinOperator
import Verif.Model.MassFlow
import Verif.Model.MinNozzle
import Verif.Model.Model1D
import Verif.Model.Nozzle
import Verif.Model.NozzleRegimes
import Verif.Model.NozzleShort
import Verif.Model.NpArray
import Verif.Model.NumSpectral
import Verif.Model.Ode
import Verif.Model.OrrSommerfeld
import Verif.Model.Plot
import Verif.Model.PropuBE
import Verif.Model.PropuSweep
import Verif.Model.Propulsion
import Verif.Model.Py
import Verif.Model.PyclassNotebook
import Verif.Model.Ramjet
import Verif.Model.Rayleigh
import Verif.Model.ReflexionNotebook
import Verif.Model.RemoveOutput
import Verif.Model.Riemann
import Verif.Model.Rounded
import Verif.Model.ScipyNewton
import Verif.Model.ShockModel
import Verif.Model.ShockWave
import Verif.Model.Shocktube
import Verif.Model.SigmaApprox
import Verif.Model.SigmaPlot
import Verif.Model.SmoothWall
import Verif.Model.StateHeap
import Verif.Model.Supersonic
import Verif.Model.Thermo
import Verif.Model.Tube
import Verif.Model.TurbofanMap
import Verif.Model.Unsteady1D
import Verif.Model.WedgeNotebook
import Verif.Props.ArrayNewton
import Verif.Props.ArrayOne
import Verif.Props.ArraySearch
import Verif.Props.Arrays
import Verif.Props.Characteristics
import Verif.Props.Charts
import Verif.Props.ChebAccuracy
import Verif.Props.ChebAlgebra
import Verif.Props.ChebHeap
import Verif.Props.Conical
import Verif.Props.ConicalFlow
import Verif.Props.ConicalSearch
import Verif.Props.Copies
import Verif.Props.Cycle
import Verif.Props.CycleCalcule
import Verif.Props.CycleScale
import Verif.Props.CycleWitness
import Verif.Props.DefaultGas
import Verif.Props.Degree
import Verif.Props.Dicovar
import Verif.Props.DuctFlows
import Verif.Props.Eig
import Verif.Props.EngineMono
import Verif.Props.EnginePerf
import Verif.Props.EngineScale
import Verif.Props.Euler1D
import Verif.Props.EulerBC
import Verif.Props.EulerModes
import Verif.Props.EulerRH
import Verif.Props.EulerStable
import Verif.Props.ExpansionFan
import Verif.Props.Extendvar
import Verif.Props.Extra1
import Verif.Props.FanEnergy
import Verif.Props.FanMono
import Verif.Props.FanSplit
import Verif.Props.Fanno
import Verif.Props.GasGenerator
import Verif.Props.GuideVane
import Verif.Props.Hypersonic
import Verif.Props.Imports
import Verif.Props.Inflow
import Verif.Props.InflowWell
import Verif.Props.InletNotebook
import Verif.Props.Isentropic
import Verif.Props.Legacy
import Verif.Props.MassFlow
import Verif.Props.MassFlowArray
import Verif.Props.MinNozzle
import Verif.Props.MinNozzleNet
import Verif.Props.MinNozzleRun
import Verif.Props.Model1D
import Verif.Props.Modes
import Verif.Props.Nozzle
import Verif.Props.NozzleMass
import Verif.Props.NozzleObj
import Verif.Props.NozzleRegimes
import Verif.Props.NozzleRegimes2
import Verif.Props.NozzleShock
import Verif.Props.NozzleShockAccuracy
import Verif.Props.NozzleShort
import Verif.Props.NozzleShort2
import Verif.Props.NozzleWitness
import Verif.Props.NumSpectral
import Verif.Props.OSModes
import Verif.Props.Oblique
import Verif.Props.ObliqueDefault
import Verif.Props.ObliqueSearch
import Verif.Props.Ode
import Verif.Props.OrrSommerfeld
import Verif.Props.Plot
import Verif.Props.PlotIsentropic
import Verif.Props.PropuBE
import Verif.Props.PropuSweep
import Verif.Props.Propulsion
import Verif.Props.PyclassNotebook
import Verif.Props.RK4Order
import Verif.Props.RKF45Order
import Verif.Props.Ramjet
import Verif.Props.Rayleigh
import Verif.Props.ReflexionNotebook
import Verif.Props.RemoveOutput
import Verif.Props.Riemann
import Verif.Props.RiemannMono
import Verif.Props.RiemannScale
import Verif.Props.RiemannWeak
import Verif.Props.RoundGrid
import Verif.Props.RoundTrip
import Verif.Props.Rounding
import Verif.Props.ScipyNewton
import Verif.Props.ScipyPM
import Verif.Props.ScipyRiemann
import Verif.Props.Scripts
import Verif.Props.SecantBounds
import Verif.Props.SecantTwoSided
import Verif.Props.SecantUses
import Verif.Props.SecantUses2
import Verif.Props.SecantUses3
import Verif.Props.SecantUses4
import Verif.Props.SecantUses5
import Verif.Props.SecantUses6
import Verif.Props.ShockModel
import Verif.Props.ShockWave
import Verif.Props.Shocktube
import Verif.Props.Shocktube2
import Verif.Props.Shocktube3
import Verif.Props.Shocktube4
import Verif.Props.SigmaApprox
import Verif.Props.SigmaPlot
import Verif.Props.SmoothWall
import Verif.Props.SmoothWall2
import Verif.Props.SmoothWall3
import Verif.Props.SmoothWall4
import Verif.Props.Solve
import Verif.Props.Supersonic
import Verif.Props.TauOptimum
import Verif.Props.Thermo
import Verif.Props.ThrustSearch
import Verif.Props.TurbofanMap
import Verif.Props.Turbojet
import Verif.Props.Unsteady1D
import Verif.Props.WeakAir
import Verif.Props.WeakSearch
import Verif.Props.WeakWaves
import Verif.Props.WedgeNotebook
import Verif.Spec.Arrays
import Verif.Spec.Calculator
import Verif.Spec.Characteristics
import Verif.Spec.ConicalFlow
import Verif.Spec.Conservation
import Verif.Spec.Eig
import Verif.Spec.Engine
import Verif.Spec.Euler1D
import Verif.Spec.EulerModes
import Verif.Spec.Flow
import Verif.Spec.LinAlg
import Verif.Spec.MinNozzle
import Verif.Spec.MovingShock
import Verif.Spec.OSModes
import Verif.Spec.ObliqueShock
import Verif.Spec.OrrSommerfeld
import Verif.Spec.Polar
import Verif.Spec.Ramjet
import Verif.Spec.Registry
import Verif.Spec.Solver
