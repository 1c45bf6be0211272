import Verif.Props.Wire
import Verif.Props.Datum
import Verif.Props.Fd
import Verif.Props.Param
import Verif.Props.Map
import Verif.Props.Object
import Verif.Props.Interval
import Verif.Props.Expr
import Verif.Props.ExprDefined
import Verif.Props.ExprWire
import Verif.Props.Joint
import Verif.Props.Space
import Verif.Props.SpaceConfig
import Verif.Props.Binding
import Verif.Props.Evaluation
import Verif.Props.Tuner
import Verif.Props.Tree
import Verif.Props.Roulette
import Verif.Props.TreeSpace
import Verif.Props.TreeWire
import Verif.Props.Distribution
import Verif.Props.DistWire
import Verif.Props.SpaceWire
import Verif.Props.RunWire
import Verif.Props.TreeRun
import Verif.Props.TreeRunWire
import Verif.Props.UserTuner
import Verif.Props.Own
import Verif.Props.OwnGradual
import Verif.Props.Channel
import Verif.Lemmas.Depth
import Verif.Lemmas.Grow
import Verif.Props.Cut
import Verif.Props.Fair
import Verif.Props.Default
import Verif.Props.Kokkos
import Verif.Props.KokkosRun
import Verif.Spec.KokkosTrial
import Verif.Lemmas.KokkosTrial
import Verif.Lemmas.KokkosBest
import Verif.Props.KokkosTrial
import Verif.Props.KokkosConverged
import Verif.Model.Getters
import Verif.Spec.Getters
import Verif.Props.Getters
import Verif.Model.Stacks
import Verif.Spec.Stacks
import Verif.Lemmas.Stacks
import Verif.Props.Stacks
import Verif.Model.Text
import Verif.Spec.Text
import Verif.Lemmas.Text
import Verif.Props.Text
import Verif.Spec.FloatDraw
import Verif.Spec.Rounded
import Verif.Lemmas.FloatRange
import Verif.Lemmas.Rounded
import Verif.Props.FloatUniform
import Verif.Props.FloatDefault
import Verif.Props.LogUniform
import Verif.Model.Api
import Verif.Spec.Api
import Verif.Lemmas.Api
import Verif.Props.Api
import Verif.Model.Registry
import Verif.Spec.Registry
import Verif.Props.Registry
import Verif.Model.Wrappers
import Verif.Spec.Wrappers
import Verif.Props.Wrappers
import Verif.Model.PyDatum
import Verif.Spec.PyDatum
import Verif.Props.PyDatum
import Verif.Model.RbDatum
import Verif.Model.PyErrors
import Verif.Spec.RbDatum
import Verif.Spec.PyErrors
import Verif.Lemmas.RbDatum
import Verif.Props.RbDatum
import Verif.Model.BoundValues
import Verif.Spec.BoundValues
import Verif.Props.BoundValues
import Verif.Props.PyErrors
import Verif.Model.Callbacks
import Verif.Spec.Callbacks
import Verif.Props.Callbacks
import Verif.Model.Strings
import Verif.Spec.Strings
import Verif.Lemmas.Strings
import Verif.Props.Strings
import Verif.Lemmas.Readable
import Verif.Lemmas.ReadableSpace
import Verif.Props.Readable
import Verif.Spec.Chance
import Verif.Lemmas.Near
import Verif.Lemmas.Chance
import Verif.Props.Chance
import Verif.Lemmas.Mix
import Verif.Props.Mix
import Verif.Props.Normal
import Verif.Model.BoundDraws
import Verif.Model.BoundExpr
import Verif.Model.BoundSerial
import Verif.Model.BoundSpace
import Verif.Spec.BoundDraws
import Verif.Spec.BoundExpr
import Verif.Spec.BoundSerial
import Verif.Spec.BoundSpace
import Verif.Props.BoundDraws
import Verif.Props.BoundExpr
import Verif.Props.BoundSerial
import Verif.Props.BoundSpace
import Verif.Model.Kinds
import Verif.Spec.Kinds
import Verif.Props.Kinds
import Verif.Model.BoundInterval
import Verif.Model.BoundOrder
import Verif.Spec.BoundInterval
import Verif.Spec.BoundOrder
import Verif.Props.BoundInterval
import Verif.Props.BoundOrder
import Verif.Model.BoundTree
import Verif.Spec.BoundTree
import Verif.Props.BoundTree
import Verif.Model.BoundEval
import Verif.Spec.BoundEval
import Verif.Props.BoundEval
import Verif.Model.BoundTuner
import Verif.Model.BoundParam
import Verif.Spec.BoundTuner
import Verif.Spec.BoundParam
import Verif.Props.BoundTuner
import Verif.Props.BoundParam
import Verif.Model.BoundDist
import Verif.Spec.BoundDist
import Verif.Props.BoundDist
import Verif.Model.Seeded
import Verif.Spec.Seeded
import Verif.Lemmas.Seeded
import Verif.Props.Seeded
import Verif.Model.BoundConfig
import Verif.Spec.BoundConfig
import Verif.Props.BoundConfig
import Verif.Lemmas.TreeGrowth
import Verif.Model.BoundTreeSpace
import Verif.Spec.BoundTreeSpace
import Verif.Props.BoundTreeSpace
import Verif.Lemmas.DynGrowth
import Verif.Model.BoundIdentity
import Verif.Spec.BoundIdentity
import Verif.Props.BoundIdentity
import Verif.Model.RbErrors
import Verif.Spec.RbErrors
import Verif.Props.RbErrors
import Verif.Spec.Resumed
import Verif.Spec.ResumedTuner
import Verif.Props.Resumed
import Verif.Props.ResumedTuner
