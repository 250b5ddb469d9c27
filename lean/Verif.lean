import Verif.Props.Verdict
import Verif.Props.VerdictOrder
import Verif.Props.VerdictText
import Verif.Props.Ring
import Verif.Props.RingConc
import Verif.Props.RingPeek
import Verif.Props.RingRefs
import Verif.Props.RingText
import Verif.Props.RingWeak
import Verif.Props.Alloc
import Verif.Props.AllocConc
import Verif.Props.AllocPass
import Verif.Props.Pass
import Verif.Props.Crud
import Verif.Props.CrudLate
import Verif.Props.CrudReport
import Verif.Props.Binary64
import Verif.Props.Display
import Verif.Props.Standard
import Verif.Props.Presentable
import Verif.Props.Measurer
import Verif.Props.Async
import Verif.Props.Features
import Verif.Props.Shipped
import Verif.Props.Report
import Verif.Props.DisplayShipped
import Verif.Props.EndToEnd
import Verif.Props.WholeTest
import Verif.Props.PassTime
import Verif.Props.PassPanic
import Verif.Props.CrudCalls
import Verif.Props.SpaceThreads
import Verif.Props.SpaceFine
import Verif.Props.RingWrap
import Verif.Props.Detection
import Verif.Props.OnModel
import Verif.Props.DryRun
import Verif.Props.GlobalAlloc
import Verif.Props.StatsText
import Verif.Props.Noise
import Verif.Props.NoiseTests
import Verif.Props.ReadBack
import Verif.Props.MeasureRead
import Verif.Props.Container
import Verif.Props.Conformance
import Verif.Props.Panics
import Verif.Props.Transcript
import Verif.Props.VerdictWindow
import Verif.Props.Output
import Verif.Props.AllocRing
import Verif.Props.NoMetrics
import Verif.Props.Local
import Verif.Props.MeteredWorld
import Verif.Props.Decided
import Verif.Props.LogThreshold
import Verif.Props.FrontVectors
import Verif.Props.LostReadings
import Verif.Props.ConformanceText
import Verif.Props.Smooth
import Verif.Props.RingLive
import Verif.Props.AllocLive
import Verif.Props.RingWeakLive
import Verif.Props.AllocWeak
import Verif.Props.SpaceWeak
import Verif.Model.MeteredThreads
import Verif.Spec.ThreadedTestSpec
import Verif.Props.QuietMoments
import Verif.Props.ThreadedPass
import Verif.Props.ThreadedTests
import Verif.Props.ThreadedWorld
import Verif.Model.ScaleHeap
import Verif.Spec.ScaleHeapSpec
import Verif.Props.ScaleHeap
import Verif.Props.ScaleRace
import Verif.Spec.Powers
import Verif.Props.Powers
import Verif.Spec.VectorSpec
import Verif.Props.Vectors
import Verif.Spec.BackgroundSpec
import Verif.Props.Background
import Verif.Spec.DisturbSpec
import Verif.Proofs.Disturb
import Verif.Props.Disturb
