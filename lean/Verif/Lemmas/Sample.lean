import Verif.Spec.Sample
/-! # The verdicts on the sample files -/

namespace Jpy.Sample
open Spec

theorem jp2b_report : saysValid (reportOf (opts .jp2) 0 jp2b) = true := by decide +kernel
theorem jph_report : saysValid (reportOf (opts .jph) 0 jph) = true := by decide +kernel
theorem cs2_report : saysValid (reportOf (opts .j2c) 0 cs2) = true := by decide +kernel
theorem csOffset_report : saysValid (reportOf (opts .j2c) 0 csOffset) = true := by decide +kernel

theorem jp2b_valid : ReportedValid env0 me0 (fs0 jp2b) 200 (opts .jp2) 0 [97] :=
  let ⟨rep, h, hv, _⟩ := saysValid_ok jp2b_report
  ⟨rep, h, hv⟩

end Jpy.Sample
