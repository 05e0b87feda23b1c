import Verif.Base
import Verif.Sparse.Model
import Verif.Sparse.Lemmas
import Verif.Sparse.Compress
import Verif.Sparse.Spec
import Verif.Sparse.History
import Verif.Sparse.Text
import Verif.Sparse.Prod
import Verif.Sparse.Props
import Verif.Block.Model
import Verif.Block.Spec
import Verif.Block.Lemmas
import Verif.Block.Inv
import Verif.Block.Props
import Verif.Flat
import Verif.Dof.Model
import Verif.Dof.Lemmas
import Verif.Dof.Props
import Verif.Labels.Model
import Verif.Labels.Props
import Verif.Storage.Model
import Verif.Storage.Sim
import Verif.Storage.Numbering
import Verif.Storage.Setup
import Verif.Storage.Sparsity
import Verif.Storage.Assemble
import Verif.Storage.Walk
import Verif.Storage.Session
import Verif.Storage.Props
import Verif.Storage.Rows
import Verif.Loop
import Verif.TimeCtl.Model
import Verif.TimeCtl.Props
import Verif.TimeCtl.Deltas
import Verif.Gauss.Model
import Verif.Gauss.Lemmas
import Verif.Gauss.Props
import Verif.Gauss.Near
import Verif.DVec.Model
import Verif.DVec.Lemmas
import Verif.DVec.Frame
import Verif.DVec.WF
import Verif.DVec.Props
import Verif.Solver.Model
import Verif.Solver.Blocks
import Verif.Solver.Constraints
import Verif.Solver.Vectors
import Verif.Solver.Setting
import Verif.Solver.Linear
import Verif.Solver.LinearProps
import Verif.Solver.Nonlinear
import Verif.Solver.NonlinearProps
import Verif.Solver.Follow
import Verif.Solver.Transient
import Verif.Solver.TransientProps
import Verif.Dense.Model
import Verif.Dense.Spec
import Verif.Dense.Lemmas
import Verif.Dense.Products
import Verif.Dense.Det
import Verif.Dense.Eigen
import Verif.Dense.Props
import Verif.Mesh.Model
import Verif.Mesh.Props
import Verif.Main.Model
import Verif.Main.Props
import Verif.Main.Report
import Verif.Prog.Answers
import Verif.Prog.Model
import Verif.Prog.Loop
import Verif.Prog.Spec
import Verif.Prog.FileSpec
import Verif.Prog.Asked
import Verif.Prog.Elements
import Verif.Prog.Setting
import Verif.Prog.Energy
import Verif.Prog.Step
import Verif.Prog.Path
import Verif.Prog.Regular
import Verif.Prog.Conditions
import Verif.Prog.Fail
import Verif.Prog.Show
import Verif.Prog.Props
import Verif.Prog.Files
import Verif.Prog.Example
import Verif.Prog.RenSpec
import Verif.Prog.Unique
import Verif.Prog.Renumber
import Verif.Prog.Same
import Verif.Prog.Rest
import Verif.Prog.Translate
import Verif.Prog.Moving
import Verif.Material.Model
import Verif.Material.Tensor
import Verif.Material.Stress
import Verif.Material.Loops
import Verif.Material.Props
import Verif.Iso.Model
import Verif.Iso.Lemmas
import Verif.Iso.Shape
import Verif.Iso.Props
import Verif.Iso.Quadrature
import Verif.Thermal.Model
import Verif.Thermal.Lemmas
import Verif.Thermal.Props
import Verif.Tetra.Model
import Verif.Tetra.Lemmas
import Verif.Tetra.Props
import Verif.Storage.Eigen
import Verif.Tri.Model
import Verif.Tri.Lemmas
import Verif.Tri.Props
import Verif.Bars.Model
import Verif.Bars.Lemmas
import Verif.Bars.Props
import Verif.Hyper.Model
import Verif.Hyper.Solid
import Verif.Hyper.Tangent
import Verif.Hyper.SolidLoops
import Verif.Hyper.Solid81
import Verif.Hyper.Plane41
import Verif.Hyper.Queries
import Verif.Hyper.Smooth
import Verif.Rigid.Model
import Verif.Rigid.Lemmas
import Verif.Rigid.Props
import Verif.Rigid.Angles
import Verif.Rigid.Bodies
import Verif.Rigid.Solve
import Verif.Rigid.Example
import Verif.Rigid.Small
import Verif.Rigid.Prescribed
import Verif.Text.Model
import Verif.Text.Props
import Verif.Cdb.Model
import Verif.Cdb.Num
import Verif.Cdb.Compress
import Verif.Cdb.Ce
import Verif.Cdb.Cm
import Verif.Cdb.Blocks
import Verif.Cdb.File
import Verif.Cdb.Damaged
import Verif.Cdb.Inv
import Verif.Post.Model
import Verif.Post.Reaction
import Verif.Post.Props
import Verif.Vtk.Model
import Verif.Vtk.Reader
import Verif.Vtk.Read
import Verif.Vtk.Props
import Verif.Vtk.SetUp
import Verif.Vtk.Files
import Verif.Cmd.Model
import Verif.Cmd.Props
import Verif.Dump.Model
import Verif.Dump.Props
import Verif.Mixed.Model
import Verif.Mixed.Fold
import Verif.Mixed.Props
import Verif.Newton.Model
import Verif.Newton.Group
import Verif.Newton.Lemmas
import Verif.Newton.Props
import Verif.Newton.Solve
import Verif.Newton.Local
import Verif.Newton.Converge
import Verif.Newton.Energy
import Verif.Newton.Potential
import Verif.Newton.Rest
import Verif.Newton.Path
import Verif.Newton.Firm
import Verif.Newton.Grow
import Verif.Struct.Model
import Verif.Struct.Lemmas
import Verif.Struct.Rows
import Verif.Struct.Props
import Verif.Struct.Unique
import Verif.Struct.Linearity
import Verif.Struct.Solids
import Verif.Struct.Physics
import Verif.Struct.Sample
import Verif.Struct.Heat
import Verif.Struct.Patch
import Verif.Struct.PatchSample
import Verif.Neu.Model
import Verif.Neu.Props
import Verif.Struct.Nonlinear
import Verif.Struct.NonlinearSample
import Verif.Struct.Plane
import Verif.Struct.PlaneSample
import Verif.Struct.Stable
import Verif.Struct.Units
import Verif.Trans.Model
import Verif.Trans.Rows
import Verif.Trans.Props
import Verif.Trans.Scheme
import Verif.Trans.Heat
import Verif.Trans.Decay
import Verif.Trans.Solved
import Verif.Trans.Sample
import Verif.Trans.Reaction
import Verif.Trans.Contraction
import Verif.Trans.Steady
import Verif.Trans.SteadySample
import Verif.Trans.Connected
import Verif.Trans.ConnectedSample
import Verif.Pardiso.Model
import Verif.Pardiso.Life
import Verif.Pardiso.Pattern
import Verif.Pardiso.Props
import Verif.Pardiso.Examples
import Verif.Pardiso.Runs
import Verif.Pardiso.RunsProps
import Verif.Pardiso.RunsExamples
import Verif.Calls.Model
import Verif.Calls.Props
import Verif.Truss.Model
import Verif.Truss.Spec
import Verif.Truss.Lemmas
import Verif.Truss.Run
import Verif.Truss.Shipped
import Verif.Query.Model
import Verif.Query.Props
import Verif.Query.Fields
import Verif.Bars.Triangle
import Verif.DMat.Model
import Verif.DMat.Props
import Verif.Solver.EnergyProps
import Verif.Text.Tokens
import Verif.Text.TokensProps
import Verif.Storage.Report
import Verif.Storage.ReportProps
import Verif.Storage.Lookup
import Verif.Storage.LookupProps
import Verif.Dense.Small
import Verif.Dense.SmallProps
import Verif.Dense.Blas
import Verif.Sparse.Shared
import Verif.Sparse.SharedProps
import Verif.Sparse.Print
import Verif.Sparse.PrintProps
import Verif.Bars.Inter0
import Verif.Material.Life
import Verif.Material.LifeProps
import Verif.Storage.Reset
import Verif.Storage.Owner
import Verif.Storage.OwnerProps
import Verif.Mesh.NodeText
import Verif.Solver.Views
import Verif.Solver.Balance
import Verif.Solver.Minimum
import Verif.Solver.Superpose
import Verif.Struct.Minimum
import Verif.Struct.Compliance
import Verif.Struct.HeatMinimum
