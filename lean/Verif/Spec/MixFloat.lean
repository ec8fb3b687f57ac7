import Verif.Spec.MixValues
import Verif.Spec.Float
/-! # Specification of the resolutions in MIX output as numbers -/

namespace Jpy.Spec

/-- The numerators and the denominator of the sampling frequencies in the children of a MIX element. -/
structure Frequencies (m : List Elem) (x y : Int) : Prop where
  xNumerator : textsAt ["mix:ImageAssessmentMetadata", "mix:SpatialMetrics", "mix:xSamplingFrequency", "mix:numerator"] m =
    [.str (toString x)]
  xDenominator : textsAt ["mix:ImageAssessmentMetadata", "mix:SpatialMetrics", "mix:xSamplingFrequency", "mix:denominator"] m =
    [.str "10000"]
  yNumerator : textsAt ["mix:ImageAssessmentMetadata", "mix:SpatialMetrics", "mix:ySamplingFrequency", "mix:numerator"] m =
    [.str (toString y)]
  yDenominator : textsAt ["mix:ImageAssessmentMetadata", "mix:SpatialMetrics", "mix:ySamplingFrequency", "mix:denominator"] m =
    [.str "10000"]

/-- The horizontal and vertical resolution that MIX has to repeat, as texts of the report: that of the first capture
resolution box or, if there is none, of the first display resolution box. -/
def ReportedResolution (props : List Elem) (x y : String) : Prop :=
  (∃ e, (elemsAt ["jp2HeaderBox", "resolutionBox", "captureResolutionBox"] props).head? = some e ∧
    PropertyIs e.children ["hRescInPixelsPerMeter"] x ∧ PropertyIs e.children ["vRescInPixelsPerMeter"] y) ∨
  (elemsAt ["jp2HeaderBox", "resolutionBox", "captureResolutionBox"] props = [] ∧
    ∃ e, (elemsAt ["jp2HeaderBox", "resolutionBox", "displayResolutionBox"] props).head? = some e ∧
    PropertyIs e.children ["hResdInPixelsPerMeter"] x ∧ PropertyIs e.children ["vResdInPixelsPerMeter"] y)

end Jpy.Spec
