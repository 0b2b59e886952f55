import Verif.Model.Py
import Verif.Model.Containers
import Verif.Spec.Containers
import Verif.Lemmas.Py
import Verif.Lemmas.Containers
import Verif.Props.Containers
import Verif.Model.Num
import Verif.Model.Primitives
import Verif.Spec.Primitives
import Verif.Lemmas.Primitives
import Verif.Props.Primitives
import Verif.Model.Pack
import Verif.Lemmas.Pack
import Verif.Props.Pack
import Verif.Model.Shipped
import Verif.Spec.Constructions
import Verif.Spec.Geometry
import Verif.Props.Constructions
import Verif.Lemmas.ConstraintFlt
import Verif.Lemmas.Geometry
import Verif.Lemmas.Shapes
import Verif.Props.Geometry
import Verif.Props.Geometry2
import Verif.Lemmas.Grid
import Verif.Props.Grid
import Verif.Model.Drawing
import Verif.Model.Ui
import Verif.Spec.Drawing
import Verif.Lemmas.Drawing
import Verif.Spec.Shift
import Verif.Lemmas.Shift
import Verif.Props.Drawing
import Verif.Props.Shift
import Verif.Lemmas.DrawShift
import Verif.Props.Drawing2
import Verif.Spec.Ui
import Verif.Props.Ui
import Verif.Props.UiLabels
import Verif.Model.Layout
import Verif.Spec.Layout
import Verif.Lemmas.Layout
import Verif.Lemmas.LayoutResidual
import Verif.Lemmas.LayoutRefs
import Verif.Lemmas.ShippedFits
import Verif.Lemmas.Made
import Verif.Props.Layout
import Verif.Props.LayoutRefs
import Verif.Lemmas.LayoutUpdate
import Verif.Lemmas.LayoutUpdate2
import Verif.Props.LayoutUpdate
import Verif.Model.LayoutHeap
import Verif.Spec.LayoutHeap
import Verif.Props.LayoutHeap
import Verif.Model.Solver
import Verif.Spec.Solver
import Verif.Lemmas.Solver
import Verif.Lemmas.Rebuild
import Verif.Lemmas.ShippedAll
import Verif.Lemmas.Affine
import Verif.Lemmas.IdFree
import Verif.Lemmas.LayoutSolve
import Verif.Lemmas.Exact
import Verif.Lemmas.AffineSolve
import Verif.Lemmas.SolverRuns
import Verif.Lemmas.LeastSquares
import Verif.Props.Solver
import Verif.Spec.Sizes
import Verif.Lemmas.Sizes
import Verif.Props.Sizes
import Verif.Model.Program
import Verif.Spec.Program
import Verif.Lemmas.Program
import Verif.Lemmas.SolveKeeps
import Verif.Props.Program
import Verif.Lemmas.EndToEnd
import Verif.Props.EndToEnd
import Verif.Props.Accept
import Verif.Lemmas.Readme
import Verif.Props.Readme
import Verif.Props.LeastSquares
import Verif.Lemmas.Smooth
import Verif.Lemmas.SmoothLeaves
import Verif.Lemmas.SmoothSolve
import Verif.Lemmas.Stationary
import Verif.Props.Smooth
import Verif.Props.Operators
import Verif.Model.Pytree
import Verif.Lemmas.Pytree
import Verif.Props.Pytree
import Verif.Lemmas.Canonical
import Verif.Lemmas.ShiftSolve
import Verif.Props.Canonical
import Verif.Lemmas.Decouple
import Verif.Props.Decouple
import Verif.Props.Translate
import Verif.Props.Outcomes
import Verif.Spec.Refresh
import Verif.Lemmas.Refresh
import Verif.Props.Refresh
import Verif.Props.Tutorial
import Verif.Spec.Locality
import Verif.Lemmas.Untouched
import Verif.Props.Untouched
import Verif.Model.NodeHeap
import Verif.Spec.NodeHeap
import Verif.Lemmas.NodeHeap
import Verif.Lemmas.HeapProgram
import Verif.Props.NodeHeap
import Verif.Spec.Convergence
import Verif.Lemmas.SameRebuild
import Verif.Lemmas.NewtonLocal
import Verif.Lemmas.NewtonLayout
import Verif.Props.Convergence
import Verif.Spec.Restart
import Verif.Lemmas.Restart
import Verif.Props.Restart
import Verif.Lemmas.GridFigure
import Verif.Props.GridFigure
import Verif.Lemmas.Family
import Verif.Spec.Scale
import Verif.Lemmas.FamilyShipped
import Verif.Lemmas.ScaleLeaves
import Verif.Lemmas.ScaleFam
import Verif.Lemmas.ScaleSolve
import Verif.Lemmas.DrawScale
import Verif.Props.Scale
import Verif.Spec.Mix
import Verif.Lemmas.MixLinear
import Verif.Lemmas.Mix
import Verif.Props.Mix
import Verif.Spec.More
import Verif.Lemmas.Extra
import Verif.Props.MoreConstraints
import Verif.Model.Values
import Verif.Spec.Values
import Verif.Lemmas.Values
import Verif.Props.Values
import Verif.Props.Rounded
import Verif.Props.Rename
import Verif.Props.Vector
import Verif.Spec.Figure
import Verif.Lemmas.Figure
import Verif.Lemmas.FigureProgram
import Verif.Props.Figure
import Verif.Props.FigureExamples
import Verif.Props.FigureDrawing
import Verif.Model.ConsHeap
import Verif.Spec.ConsHeap
import Verif.Lemmas.ConsHeap
import Verif.Props.ConsHeap
import Verif.Model.Options
import Verif.Spec.Options
import Verif.Props.Options
import Verif.Model.Dual
import Verif.Spec.Jacfwd
import Verif.Lemmas.Rel
import Verif.Lemmas.RelArr
import Verif.Lemmas.RelLeaves
import Verif.Lemmas.RelCons
import Verif.Lemmas.RelLayout
import Verif.Lemmas.DualRel
import Verif.Lemmas.Jacfwd
import Verif.Props.Jacfwd
import Verif.Lemmas.SmoothNear
import Verif.Lemmas.FiniteTan
import Verif.Props.JacfwdNewton
import Verif.Props.Alone
import Verif.Lemmas.Gradient
import Verif.Props.Gradient
import Verif.Props.Truth
import Verif.Model.Repr
import Verif.Spec.Repr
import Verif.Props.Repr
import Verif.Model.Tape
import Verif.Lemmas.Tape
import Verif.Spec.SumShared
import Verif.Lemmas.SumShared
import Verif.Props.SumShared
import Verif.Props.GridIndex
import Verif.Model.Round
import Verif.Spec.Round
import Verif.Lemmas.Round
import Verif.Lemmas.Ieee
import Verif.Props.Round
import Verif.Props.Single
import Verif.Props.RoundSolve
import Verif.Lemmas.RoundGrid
import Verif.Props.RoundGrid
import Verif.Lemmas.Sqrt
import Verif.Props.RoundLength
import Verif.Model.Item
import Verif.Props.Item
import Verif.Spec.OneStep
import Verif.Lemmas.OneStep
import Verif.Lemmas.OneStepGrid
import Verif.Lemmas.OneStepDemand
import Verif.Lemmas.OneStepFam
import Verif.Lemmas.OneStepPlaced
import Verif.Lemmas.OneStepSolve
import Verif.Lemmas.OneStepFigure
import Verif.Lemmas.OneStepNewton
import Verif.Lemmas.OneStepSmooth
import Verif.Props.OneStep
import Verif.Props.OneStepGrid
import Verif.Props.Profile
import Verif.Spec.FirstStep
import Verif.Lemmas.FirstStep
import Verif.Props.FirstStep
import Verif.Spec.TwoStep
import Verif.Lemmas.TwoStep
import Verif.Lemmas.TwoStepFam
import Verif.Lemmas.TwoStepNewton
import Verif.Props.TwoStep
import Verif.Spec.Measured
import Verif.Lemmas.Measured
import Verif.Props.Measured
import Verif.Spec.AspectNewton
import Verif.Lemmas.AspectNewton
import Verif.Props.AspectNewton
