import Verif.Storage.Props
import Verif.Transport.Props
import Verif.Geometry.Props
import Verif.Input.Props
import Verif.Partition.Props
import Verif.Packet.Props
import Verif.Traverse.Props
import Verif.Traverse.Examples
import Verif.MeshFile.Props3
import Verif.TychoMesh.Link2
import Verif.Quadrature.Props
import Verif.Problem.Props
import Verif.Domain.Examples
import Verif.Source.Examples
import Verif.Priorities.Examples
import Verif.Schedule.Examples
import Verif.Schedule.SweepWitness
import Verif.Schedule.SweepMesh
import Verif.Source.Scheduled
import Verif.PsiFile.Mesh
import Verif.Refine.Examples
import Verif.Moab.Examples
import Verif.Traverse.Args
import Verif.Traverse.Fair
import Verif.Traverse.FairExample
import Verif.Schedule.SeekExamples
import Verif.Program.Files
import Verif.Program.Scheduled
import Verif.Program.Tolerance
import Verif.Program.Whole
import Verif.Program.Stopping
import Verif.Source.DecomposedExamples
import Verif.Program.Decomposed
import Verif.Source.Jacobi
import Verif.Source.Null
import Verif.Program.Jacobi
import Verif.Program.JacobiExample
import Verif.TychoMesh.Balance
import Verif.Program.Balance
import Verif.Source.Stability
import Verif.TychoMesh.Interp
import Verif.Program.Hat
import Verif.Program.Accuracy
import Verif.Program.AccuracyExample
import Verif.Program.Symmetry
import Verif.Program.SymmetryExample
import Verif.Floating.Model
import Verif.Floating.Spec
import Verif.Floating.Lemmas
import Verif.Floating.Lemmas2
import Verif.Floating.Props
import Verif.Floating.Start
import Verif.Floating.Example
import Verif.Rounding.Model
import Verif.Rounding.Spec
import Verif.Rounding.Lemmas
import Verif.Rounding.Props
import Verif.Rounding.Double
import Verif.Rounding.Accuracy
import Verif.Rounding.Bridge
import Verif.Rounding.Example
import Verif.Timing.Model
import Verif.Timing.Props
import Verif.Timing.Example
import Verif.Program.Refined
import Verif.Program.RefinedExample
import Verif.Wire.Model
import Verif.Wire.Sim
import Verif.Wire.Bound
import Verif.Wire.Steps
import Verif.Wire.Props
import Verif.Wire.Example
import Verif.Threads.Model
import Verif.Threads.Sim
import Verif.Threads.Steps
import Verif.Threads.Props
import Verif.Threads.Sweep
import Verif.Threads.Example
import Verif.Joint.Model
import Verif.Joint.Props
import Verif.Joint.Sweep
import Verif.Joint.Example
import Verif.Schedule.Core
import Verif.Schedule.SweepSolves
import Verif.Schedule.Timetable
import Verif.Floating.Planned
import Verif.Floating.PlannedProps
import Verif.Floating.PlannedExample
import Verif.Fine.Model
import Verif.Fine.Lemmas
import Verif.Fine.Sim
import Verif.Fine.Sim2
import Verif.Fine.Sim3
import Verif.Fine.Props
import Verif.Fine.Sweep
import Verif.Fine.Example
import Verif.Lifetime.Model
import Verif.Lifetime.Props
import Verif.Rounding.Solve
import Verif.Rounding.Gauss
import Verif.Rounding.Residual
import Verif.Rounding.Cell
import Verif.Rounding.Exact
import Verif.Rounding.Regular
import Verif.Rounding.SolveExample
import Verif.TychoMesh.Energy
import Verif.Rounding.Perturb
import Verif.Rounding.Nearly
import Verif.Rounding.Close
import Verif.Rounding.Machine
import Verif.Rounding.Iterate
import Verif.Rounding.Hat
import Verif.Rounding.MachineExample
import Verif.Rounding.Stop
import Verif.Rounding.StopExample
import Verif.Rounding.Krylov
import Verif.Rounding.KrylovExample
import Verif.Schedule.First
import Verif.Floating.JacobiProps
import Verif.Floating.JacobiExample
import Verif.Loops.Kernel
import Verif.Floating.BlocksExample
import Verif.Floating.OuterExample
import Verif.Floating.Settle
import Verif.Rounding.Blocks
import Verif.Rounding.BlocksExample
import Verif.Floating.Poison
import Verif.Rounding.Nan
import Verif.Rounding.NanFlow
import Verif.Rounding.NanExample
import Verif.Domain.SchurIndex
import Verif.TychoMesh.Requests
import Verif.Schedule.Silent
