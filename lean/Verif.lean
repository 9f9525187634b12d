import Verif.Schedule.PropsSearch
import Verif.Schedule.PropsSchedule
import Verif.Schedule.PropsTermination
import Verif.Schedule.PropsOperators
import Verif.Schedule.PropsSorts
import Verif.Schedule.PropsQuality
import Verif.Schedule.PropsWeights
import Verif.Schedule.PropsGreedy
import Verif.Schedule.PropsDominant
import Verif.Schedule.PropsSave
import Verif.Schedule.PropsAgain
import Verif.Windows.Props
import Verif.Windows.Saved
import Verif.Windows.PropsLighting
import Verif.Windows.PropsSamples
import Verif.Windows.Geometry
import Verif.Text.Props
import Verif.Text.PropsAngle
import Verif.Units.Props
import Verif.Units.PropsQuantity
import Verif.Units.PropsArrays
import Verif.Units.PropsUser
import Verif.Calendar.Props
import Verif.Calendar.PropsCentennial
import Verif.TimeScale.Props
import Verif.Frames.PropsRotation
import Verif.Frames.PropsGeo
import Verif.Frames.PropsAngles
import Verif.Frames.PropsContainers
import Verif.Frames.PropsReturn
import Verif.Frames.PropsTriangle
import Verif.Frames.PropsSatellite
import Verif.Frames.PropsAltitude
import Verif.TimeScale.PropsSidereal
import Verif.TimeScale.PropsBounds
import Verif.Frames.PropsOrientation
import Verif.Frames.Save
import Verif.Frames.PropsMemory
import Verif.Schedule.PropsRounded
import Verif.Units.PropsRounded
import Verif.Planning.Props
import Verif.Planning.PropsRounded
import Verif.Planning.PropsPipeline
import Verif.Calendar.PropsRounded
import Verif.TimeScale.PropsElements
import Verif.TimeScale.PropsSun
import Verif.TimeScale.PropsGast
import Verif.Windows.PropsBetween
import Verif.Planning.PropsBetween
import Verif.Frames.PropsRounded
import Verif.Windows.PropsRounded
import Verif.Frames.PropsRoundedAngles
import Verif.Windows.PropsPipeline
import Verif.Windows.PropsPasses
import Verif.Windows.PropsLook
import Verif.Frames.PropsPasses
import Verif.Frames.PropsHemispheres
import Verif.Frames.PropsRoundedAltitude
import Verif.Text.PropsCrash
import Verif.Text.PropsConcurrent
import Verif.Frames.PropsRoundedTime
import Verif.Units.PropsFractional
import Verif.Frames.RoundedAttitude
import Verif.Frames.LemmasRoundedAttitude
import Verif.Frames.PropsRoundedAttitude
import Verif.Schedule.PropsOverlap
import Verif.Schedule.PropsRoundedOverlap
import Verif.Schedule.PropsTriples
import Verif.Schedule.PropsRoundedTriples
import Verif.Frames.PropsTrack
import Verif.Frames.RoundedGeographic
import Verif.Frames.PropsRoundedGeographic
import Verif.Text.RoundedAngle
import Verif.Text.LemmasRoundedAngle
import Verif.Text.PropsRoundedAngle
import Verif.Frames.RoundedAzimuth
import Verif.Frames.PropsRoundedAzimuth
import Verif.Windows.PropsAzimuth
import Verif.Frames.LemmasVelocity
import Verif.Frames.PropsVelocity
import Verif.Units.PropsText
import Verif.Schedule.PropsSharper
import Verif.Frames.PropsCompanions
import Verif.Frames.Polar
import Verif.Frames.PropsPolar
import Verif.Frames.PropsReduction
import Verif.Frames.PropsObliquity
import Verif.Frames.PropsCompass
import Verif.Planning.PropsHorizon
import Verif.Planning.PropsStandard
import Verif.Planning.PropsPointing
import Verif.Frames.PropsMissing
import Verif.Schedule.PropsMissing
import Verif.Frames.PropsEquinoxes
import Verif.Windows.Gaps
import Verif.Planning.PropsBearing
import Verif.Windows.Shown
import Verif.Schedule.AlnsRounded
import Verif.Schedule.PropsAlnsRounded
import Verif.Schedule.PropsGenerateCold
