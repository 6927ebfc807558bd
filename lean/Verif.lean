import Verif.Base64.Props
import Verif.Parallel.Props
import Verif.ScalarData.Props
import Verif.ModelData.Props
import Verif.Deps.Props
import Verif.Params.Props
import Verif.Equations.Registry
import Verif.Equations.Numbering
import Verif.Circuit.Props
import Verif.Circuit.Update
import Verif.Circuit.Elements
import Verif.Matrix.Props
import Verif.Matrix.Symbolic
import Verif.Assembly.Examples
import Verif.Assembly.Residual2
import Verif.Assembly.Rows
import Verif.Newton.Model
import Verif.Newton.Restore
import Verif.Newton.RestoreEx
import Verif.Newton.Converge
import Verif.Newton.Diverge
import Verif.Newton.History
import Verif.Newton.Integrate
import Verif.Newton.Update
import Verif.Newton.Transient
import Verif.Mesh.Model1d
import Verif.Mesh.Points
import Verif.Mesh.Layout
import Verif.Mesh.Complete
import Verif.Mesh.Mesh1d
import Verif.Mesh.Device
import Verif.Mesh.Example1d
import Verif.Sym.Expr
import Verif.Sym.Text
import Verif.Sym.Algebra
import Verif.Sym.Subst
import Verif.Sym.Refs
import Verif.Sym.Deriv
import Verif.Sym.Scan
import Verif.Sym.ScanLemmas
import Verif.Sym.Parse
import Verif.Sym.Print
import Verif.Sym.Fresh
import Verif.Sym.Format
import Verif.Sym.Examples
import Verif.Sym.Expand
import Verif.Sym.ExpandEx
import Verif.Sym.ExpandLoop
import Verif.Sym.Simplify
import Verif.Sym.Positive
import Verif.Sym.PosText
import Verif.Sym.SimpWF
import Verif.Sym.SimpCon
import Verif.Sym.SimpEval
import Verif.Sym.SimpThms
import Verif.Sym.SimpLimit
import Verif.Sym.SimpMeasure
import Verif.Sym.SimpTotal
import Verif.Sym.SimpReturns
import Verif.MeshIO.Lex
import Verif.MeshIO.LexLemmas
import Verif.MeshIO.SMap
import Verif.MeshIO.Load
import Verif.MeshIO.Parse
import Verif.MeshIO.Write
import Verif.MeshIO.Steps
import Verif.MeshIO.RoundTrip
import Verif.MeshIO.Exact
import Verif.MeshIO.Example
import Verif.MeshIO.Poison
import Verif.MeshIO.RestartWrite
import Verif.MeshIO.RestartSteps
import Verif.MeshIO.RestartParse
import Verif.MeshIO.RestartGeom
import Verif.MeshIO.RestartModels
import Verif.MeshIO.Restart
import Verif.MeshIO.RestartRun
import Verif.MeshIO.RestartFacts
import Verif.MeshIO.RestartExample
import Verif.Geom.Connect
import Verif.Geom.Slots
import Verif.Geom.Topo
import Verif.Geom.Finalize
import Verif.Geom.Vec
import Verif.Geom.Center
import Verif.Geom.Sums
import Verif.Geom.Volume
import Verif.Geom.Volume3
import Verif.Geom.Surface
import Verif.Geom.Nearest
import Verif.Geom.Examples
import Verif.Geom.Boxes
import Verif.Fields.Average
import Verif.Fields.Tri
import Verif.Fields.TriSpec
import Verif.Fields.Tet
import Verif.Fields.TetSpec
import Verif.Fields.Gradient
import Verif.Fields.Examples
import Verif.Eval.Model
import Verif.Eval.Spec
import Verif.Eval.Ops
import Verif.Eval.Ext
import Verif.Eval.Sound
import Verif.Eval.Total
import Verif.Eval.Props
import Verif.Eval.Examples
import Verif.MathFn.Float
import Verif.MathFn.Rel
import Verif.MathFn.BernSpec
import Verif.MathFn.Bern
import Verif.MathFn.BernIeee
import Verif.MathFn.Fermi
import Verif.MathFn.FermiLoop
import Verif.MathFn.Gauss
import Verif.MathFn.GaussDeriv
import Verif.MathFn.GaussInv
import Verif.MathFn.Kahan
import Verif.MathFn.Default
import Verif.MathFn.DefaultThm
import Verif.MathFn.DefaultEx
import Verif.SmallSignal.Model
import Verif.SmallSignal.Spec
import Verif.SmallSignal.System
import Verif.SmallSignal.AC
import Verif.SmallSignal.Steady
import Verif.SmallSignal.Noise
import Verif.SmallSignal.Backends
import Verif.SmallSignal.NoiseKeep
import Verif.SmallSignal.External
import Verif.PyArg.Model
import Verif.PyArg.Arrays
import Verif.PyArg.Options
import Verif.PyArg.Custom
import Verif.Mesh2d.Example
import Verif.Gmsh.Example
import Verif.Gmsh.FileExample
import Verif.Iter.GmresMore
import Verif.Iter.Block
import Verif.Vtk.Array
import Verif.Tec.Example
import Verif.Bnd.Example
import Verif.Cyl.Example
import Verif.Ifm.Examples
import Verif.Multi.Examples
import Verif.ExtSolver.Examples
import Verif.SetVals.Examples
import Verif.Solve.Examples
import Verif.EqCmd.Examples
import Verif.Ckt.Examples
import Verif.Mat.Examples
import Verif.Msh.Examples
import Verif.Disp.Examples
import Verif.Past.Examples
import Verif.Reg.Examples
import Verif.Vec.Examples
import Verif.Cont.Examples
