import Verif.Model.Base
import Verif.Model.F64
import Verif.Model.Layouts
import Verif.Model.Memory
import Verif.Model.Matrix
import Verif.Model.Constructors
import Verif.Model.MatMul
import Verif.Spec.Layout
import Verif.Spec.Matrix
import Verif.Spec.Array
import Verif.Spec.Views
import Verif.Lemmas.Out
import Verif.Lemmas.Layout
import Verif.Lemmas.F64
import Verif.Lemmas.Tri
import Verif.Lemmas.Memory
import Verif.Lemmas.Slices
import Verif.Lemmas.Construct
import Verif.Spec.Expr
import Verif.Lemmas.Views
import Verif.Lemmas.Expr
import Verif.Props.Layouts
import Verif.Props.Access
import Verif.Props.Constructors
import Verif.Props.Views
import Verif.Props.Expr
import Verif.Spec.MatMul
import Verif.Lemmas.MatMul
import Verif.Props.MatMul
import Verif.Spec.Histories
import Verif.Props.Histories
import Verif.Props.Modes
import Verif.Spec.Machine
import Verif.Lemmas.Machine
import Verif.Props.Machine
import Verif.Model.RefMut
import Verif.Spec.RefMut
import Verif.Props.RefMut
import Verif.Props.Tests
import Verif.Spec.Relational
import Verif.Lemmas.Relational
import Verif.Props.Relational
import Verif.Spec.Linear
import Verif.Props.Linear
import Verif.Props.Copies
import Verif.Spec.Rounding
import Verif.Props.Rounding
import Verif.Model.Borrow
import Verif.Spec.Borrow
import Verif.Lemmas.Borrow
import Verif.Lemmas.BorrowTree
import Verif.Props.Borrow
import Verif.Spec.Threads
import Verif.Props.Threads
import Verif.Spec.Mirror
import Verif.Props.Mirror
import Verif.Spec.Alloc
import Verif.Props.Alloc
import Verif.Spec.Triangle
import Verif.Spec.Binary64
import Verif.Lemmas.F64Big
import Verif.Lemmas.TriBig
import Verif.Lemmas.Binary64
import Verif.Props.Triangle
import Verif.Props.Binary64
import Verif.Props.Exact
import Verif.Props.Release
import Verif.Model.Traits
import Verif.Spec.Traits
import Verif.Lemmas.Traits
import Verif.Props.Traits
import Verif.Model.TraitsMul
import Verif.Spec.TraitsMul
import Verif.Props.TraitsMul
import Verif.Props.TraitsDot
import Verif.Spec.TraitsExact
import Verif.Lemmas.TraitsExact
import Verif.Props.TraitsExact
import Verif.Spec.TraitsMulExact
import Verif.Props.TraitsMulExact
import Verif.Spec.Lifetimes
import Verif.Lemmas.Frame
import Verif.Props.Lifetimes
import Verif.Spec.Exclusive
import Verif.Props.Exclusive
import Verif.Model.Unwind
import Verif.Spec.Unwind
import Verif.Props.Unwind
import Verif.Model.MacroArgs
import Verif.Props.MacroArgs
import Verif.Spec.Ieee
import Verif.Lemmas.Ieee
import Verif.Lemmas.Fp
import Verif.Props.Ieee
import Verif.Spec.Terms
import Verif.Lemmas.Terms
import Verif.Lemmas.CxLoop
import Verif.Lemmas.Orders
import Verif.Props.Complex
import Verif.Model.Trace
import Verif.Spec.Trace
import Verif.Lemmas.Trace
import Verif.Props.Trace
import Verif.Model.Scalar
import Verif.Props.Scalar
import Verif.Spec.Random
import Verif.Props.Random
import Verif.Spec.Culprit
import Verif.Lemmas.Culprit
import Verif.Props.Culprit
import Verif.Spec.Blame
import Verif.Props.Blame
import Verif.Model.Stateful
import Verif.Spec.Stateful
import Verif.Lemmas.Stateful
import Verif.Props.Stateful
import Verif.Props.StatefulDot
import Verif.Spec.StatefulExact
import Verif.Lemmas.StatefulExact
import Verif.Props.StatefulExact
import Verif.Spec.StatefulAny
import Verif.Props.StatefulAny
import Verif.Model.StatefulMemory
import Verif.Spec.StatefulMemory
import Verif.Props.StatefulMemory
import Verif.Model.Guards
import Verif.Spec.Guards
import Verif.Lemmas.Guards
import Verif.Lemmas.GuardsTree
import Verif.Props.Guards
import Verif.Props.GuardsStrict
import Verif.Model.GuardsSplit
import Verif.Lemmas.GuardsSplit
import Verif.Lemmas.GuardsSplitTree
import Verif.Props.GuardsSplit
import Verif.Model.GuardsMul
import Verif.Props.GuardsMul
import Verif.Lemmas.GuardsParts
import Verif.Props.GuardsParts
import Verif.Model.Steps
import Verif.Spec.Interleave
import Verif.Lemmas.Steps
import Verif.Lemmas.Alike
import Verif.Lemmas.Keeps
import Verif.Lemmas.Interleave
import Verif.Props.Interleave
import Verif.Props.OutOfMemory
import Verif.Spec.WeakMemory
import Verif.Lemmas.WeakMemory
import Verif.Props.WeakMemory
import Verif.Spec.ForkJoin
import Verif.Spec.Races
import Verif.Lemmas.ForkJoin
import Verif.Lemmas.Races
import Verif.Props.ForkJoin
import Verif.Props.Races
import Verif.Model.Inline
import Verif.Lemmas.Inline
import Verif.Lemmas.InlineTakes
import Verif.Lemmas.InlineSplit
import Verif.Props.Inline
import Verif.Model.InlineMul
import Verif.Props.InlineMul
import Verif.Props.InlineParts
import Verif.Spec.Special
import Verif.Lemmas.Special
import Verif.Props.Special
import Verif.Lemmas.RoundsUnique
import Verif.Spec.Laws
import Verif.Props.Laws
import Verif.Spec.SpecialComplex
import Verif.Props.SpecialComplex
import Verif.Spec.Signs
import Verif.Lemmas.Signs
import Verif.Props.Signs
import Verif.Spec.Monotone
import Verif.Lemmas.Monotone
import Verif.Props.Monotone
import Verif.Model.Messages
import Verif.Spec.Messages
import Verif.Lemmas.Messages
import Verif.Lemmas.Says
import Verif.Props.Messages
import Verif.Spec.Turned
import Verif.Lemmas.Turned
import Verif.Props.Turned
import Verif.Spec.Scaled
import Verif.Lemmas.Scaled
import Verif.Props.Scaled
import Verif.Spec.Local
import Verif.Props.Local
