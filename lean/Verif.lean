import Verif.Outcome
import Verif.Manager.Model
import Verif.Manager.Lemmas
import Verif.Manager.OpLemmas
import Verif.Manager.History
import Verif.Manager.Spec
import Verif.Manager.OpLemmas2
import Verif.Manager.HistoryLemmas
import Verif.Manager.Props
import Verif.Manager.OutcomeProps
import Verif.KeyGen.Model
import Verif.KeyGen.Props
import Verif.KeyGen.Link
import Verif.Policy.Model
import Verif.Policy.Lemmas
import Verif.Policy.Props
import Verif.Spline.Model
import Verif.Spline.Lemmas
import Verif.Spline.Props
import Verif.Container.Model
import Verif.Container.Assembly
import Verif.Container.Solvable
import Verif.Container.Eval
import Verif.Container.Fit
import Verif.Container.Glue
import Verif.Container.FitProps
import Verif.Container.History
import Verif.Container.PlayProps
import Verif.Container.MoreProps
import Verif.Container.Unique
import Verif.Container.UniqueProps
import Verif.Container.LinearProps
import Verif.Container.ResidualLemmas
import Verif.Container.ResidualProps
import Verif.PolyCurve.Model
import Verif.PolyCurve.Lemmas
import Verif.PolyCurve.Props
import Verif.PolyCurve.MoreProps
import Verif.Manager.CurveLemmas
import Verif.Hermite.E3Model
import Verif.Hermite.E3Lemmas
import Verif.Hermite.E3Props
import Verif.Manager.EvalLemmas
import Verif.Manager.LocalLemmas
import Verif.Kindr.Model
import Verif.Kindr.Lemmas
import Verif.Hermite.SE3Model
import Verif.Hermite.SE3Lemmas
import Verif.Hermite.SE3Props
import Verif.Discrete.Model
import Verif.Discrete.Lemmas
import Verif.Discrete.SE2
import Verif.Discrete.Props
import Verif.Discrete.ExtendProps
import Verif.Discrete.RatioProps
import Verif.Discrete.LocalProps
import Verif.Composition.Model
import Verif.Composition.Lemmas
import Verif.Composition.Props
import Verif.Composition.EditProps
import Verif.Csv.Model
import Verif.Csv.Lemmas
import Verif.Csv.Props
import Verif.Ros.Model
import Verif.Ros.Props
import Verif.Ros.StampModel
import Verif.Ros.StampProps
import Verif.Hermite.WriteModel
import Verif.Hermite.WriteProps
import Verif.Pose2.Model
import Verif.Pose2.Lemmas
import Verif.Pose2.Charts
import Verif.Pose2.Props
import Verif.Hermite.SE3History
import Verif.Hermite.ExtendModel
import Verif.Hermite.ExtendLemmas
import Verif.Hermite.ExtendSteps
import Verif.Hermite.ExtendProps
import Verif.Hermite.EmptyProps
import Verif.Composition.CoverLemmas
import Verif.Composition.CoverProps
import Verif.Interface.Model
import Verif.Interface.Lemmas
import Verif.Interface.Props
import Verif.Composition.ThinLemmas
import Verif.Composition.ThinProps
import Verif.Manager.RetimeLemmas
import Verif.Hermite.EquivLemmas
import Verif.Hermite.EquivProps
import Verif.Hermite.LocalProps
import Verif.Hermite.SE3EquivLemmas
import Verif.Hermite.SE3EquivProps
import Verif.Hermite.WindowProps
import Verif.Rounding.Props
import Verif.Rounding.WriteProps
import Verif.Rounding.PolicyProps
import Verif.Decimal.Props
import Verif.Rounding.ErrorProps
import Verif.Rounding.FitProps
import Verif.PolyCurve.LengthProps
import Verif.Interface.MoreProps
import Verif.Energy.Props
import Verif.Energy.ContainerProps
import Verif.Energy.HermiteProps
import Verif.Accuracy.Props
import Verif.Accuracy.ContainerProps
import Verif.Rounding.SpecialModel
import Verif.Rounding.SpecialLemmas
import Verif.Rounding.SpecialProps
import Verif.Rounding.SplineProps
import Verif.Rounding.ContainerErrorProps
import Verif.Sensitivity.Lemmas
import Verif.Sensitivity.Props
import Verif.Sensitivity.HermiteProps
import Verif.Manager.ProcessProps
import Verif.Discrete.GeodesicProps
import Verif.Composition.RefineProps
import Verif.Manager.MapLemmas
import Verif.Hermite.TranslationProps
import Verif.Hermite.ShadowProps
import Verif.Kindr.ShortLemmas
import Verif.Hermite.TurnLemmas
import Verif.Hermite.TurnProps
import Verif.Kindr.AngleLemmas
import Verif.Hermite.SpeedLemmas
import Verif.Hermite.SpeedProps
import Verif.Discrete.SO3
import Verif.Discrete.SE3Maps
import Verif.Discrete.Distances
import Verif.Discrete.SpaceProps
import Verif.Discrete.AccuracyProps
import Verif.PolyCurve.ContainerOutcomeProps
import Verif.Discrete.OutcomeProps
import Verif.Hermite.OutcomeProps
import Verif.PolyCurve.OutcomeProps
import Verif.Composition.OutcomeProps
import Verif.PolyCurve.ThrowModel
import Verif.PolyCurve.ThrowProps
import Verif.Print.Model
import Verif.Print.Props
import Verif.Container.ReproduceProps
import Verif.Hermite.ParabolaProps
import Verif.Ros.PoseModel
import Verif.Ros.PoseProps
import Verif.Spline.FlagModel
import Verif.Spline.FlagProps
import Verif.Qr.Model
import Verif.Qr.Lemmas
import Verif.Qr.Superpose
import Verif.Qr.Props
import Verif.PolyCurve.MotionProps
import Verif.Qr.Basic
import Verif.Qr.OffsetProps
import Verif.Qr.Greedy
import Verif.Container.Rescale
import Verif.Qr.Tables
import Verif.Qr.UnitProps
import Verif.Manager.Consistency
import Verif.Manager.ConsistencyProps
import Verif.Discrete.Planar
import Verif.Discrete.PlanarProps
import Verif.Replay.Tests
import Verif.Csv.RaggedProps
import Verif.Rounding.LineModel
import Verif.Rounding.LineProps
import Verif.Container.Reverse
import Verif.Qr.MirrorTables
import Verif.Qr.ReverseProps
import Verif.Rounding.NanModel
import Verif.Rounding.NanProps
import Verif.Map.Model
import Verif.Map.Lemmas
import Verif.Map.Number
import Verif.Map.Props
import Verif.Rounding.NearestModel
import Verif.Rounding.NearestProps
import Verif.Map.ListModel
import Verif.Map.ListProps
import Verif.Rounding.SlerpModel
import Verif.Rounding.SlerpProps
import Verif.Rounding.EndModel
import Verif.Rounding.EndProps
import Verif.Map.EvalModel
import Verif.Map.EvalProps
import Verif.Rounding.InfModel
import Verif.Rounding.InfProps
import Verif.PolyCurve.ResidualProps
import Verif.Composition.HoldProps
import Verif.Rounding.AccelerationModel
import Verif.Rounding.AccelerationProps
import Verif.Rounding.IeeeModel
import Verif.Rounding.IeeeLemmas
import Verif.Rounding.GradualLemmas
import Verif.Rounding.IeeeProps
import Verif.Rounding.OverModel
import Verif.Rounding.OverLemmas
import Verif.Rounding.OverProps
import Verif.Rounding.PlayLemmas
import Verif.Rounding.PlayProps
import Verif.Composition.NearLemmas
import Verif.Composition.NearProps
import Verif.Rounding.PlayedLemmas
import Verif.Rounding.PlayedProps
import Verif.Container.LagLemmas
import Verif.Container.LagProps
import Verif.Hermite.RestProps
import Verif.PolyCurve.RestProps
import Verif.Hermite.RiseProps
import Verif.PolyCurve.RiseProps
import Verif.PolyCurve.ReachProps
import Verif.PolyCurve.PairProps
import Verif.PolyCurve.LimitProps
import Verif.PolyCurve.SmoothProps
import Verif.PolyCurve.SampleProps
import Verif.PolyCurve.VelocityProps
import Verif.PolyCurve.RefineProps
import Verif.PolyCurve.CutProps
import Verif.PolyCurve.AccelProps
import Verif.PolyCurve.UnevenProps
import Verif.PolyCurve.ConvexProps
import Verif.PolyCurve.BothConvexProps
import Verif.PolyCurve.BelowProps
