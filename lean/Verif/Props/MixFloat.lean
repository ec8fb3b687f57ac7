import Verif.Model.MixFloat
import Verif.Spec.MixFloat
import Verif.Props.Float
import Verif.Props.MixValues
import Verif.Props.Unknown
/-! # C74: the numbers of the MIX description are those of the report -/

namespace Jpy
open Jpy.Spec

theorem rne_of_close {z : Rat} {k : Int} (h : (z - k).abs < 1 / 2) : rne z = k := by
  have e := rne_err z
  have h' := abs_le_iff.1 (Rat.le_of_lt h)
  have hl : z - k < 1 / 2 ∧ -(z - k) < 1 / 2 := by
    have := abs_le_iff.1 (Rat.le_refl (a := (z - k).abs))
    constructor <;> grind
  have h1 : ((rne z : Int) : Rat) < ((k + 1 : Int) : Rat) := by
    rw [Rat.intCast_add, Rat.intCast_one]; grind
  have h2 : (k : Rat) < ((rne z + 1 : Int) : Rat) := by
    rw [Rat.intCast_add, Rat.intCast_one]; grind
  have h1 := cast_lt.1 h1
  have h2 := cast_lt.1 h2
  omega

theorem pyInt_int (k : Int) : pyInt k = k := by
  unfold pyInt
  rw [Rat.floor_intCast, Rat.ceil_intCast]
  split <;> rfl

/-- The double nearest to a number with two decimals, times 100, is the number without the point, almost. -/
theorem times_hundred {k : Int} (h0 : 0 ≤ k) (hk : k ≤ 2 ^ 50) :
    (pyMulInt (fl ((k : Rat) / (100 : Int))) 100 - k).abs ≤ 3 / 8 ∧
    (fl ((k : Rat) / (100 : Int)) - (k : Rat) / (100 : Int)).abs ≤ ((k : Rat) / (100 : Int)).abs * 2 ^ (-53 : Int) := by
  have hmin := quot_min (A := k) (B := 100) (by decide) (k := 7) (by decide) (by decide)
  have c1 : Close (2 ^ (-53 : Int)) (fl ((k : Rat) / (100 : Int))) ((k : Rat) / (100 : Int)) := by
    apply fl_rel
    rcases hmin with h | h
    · exact .inl h
    · exact .inr (Rat.le_trans (p2_le (by decide)) h)
  refine ⟨?_, c1⟩
  have c2 : Close 0 ((100 : Int) : Rat) ((100 : Int) : Rat) := by unfold Close; decide +kernel
  have c3 := c1.mul c2
  have e100 : (k : Rat) / (100 : Int) * (100 : Int) = k := Rat.div_mul_cancel (by decide +kernel)
  rw [e100] at c3
  have c4 := (c3.mono (s := 2 ^ (-53 : Int)) (by decide +kernel)).fl (by decide +kernel) (by
    by_cases hz : k = 0
    · left; subst hz; rfl
    · right; exact Rat.le_trans (by decide +kernel) (one_le_abs hz))
  have c5 := c4.mono (s := 3 * 2 ^ (-53 : Int)) (by decide +kernel)
  unfold pyMulInt
  rw [fl_int (n := 100) (by decide) (by decide)]
  refine Rat.le_trans c5 ?_
  have hA := int_abs_le (n := k) (b := 2 ^ 50) (by omega)
  refine Rat.le_trans (Rat.mul_le_mul_of_nonneg_right hA (by decide +kernel)) (by decide +kernel)

theorem mixRound_hundred {k : Int} (h0 : 0 ≤ k) (hk : k ≤ 2 ^ 50) : mixRound (fl ((k : Rat) / (100 : Int))) 100 = k := by
  unfold mixRound pyRound
  have h := (times_hundred h0 hk).1
  generalize pyMulInt (fl ((k : Rat) / (100 : Int))) 100 = z at *
  rw [show (10 : Rat) ^ 0 = 1 by decide +kernel, Rat.mul_one, Rat.div_def, show (1 : Rat)⁻¹ = 1 by decide +kernel, Rat.mul_one,
    rne_of_close (z := z) (k := k) (by grind), fl_int (by omega) (by omega), pyInt_int]

theorem mixTrunc_hundred {k : Int} (h0 : 0 ≤ k) (hk : k ≤ 2 ^ 50) :
    (mixTrunc (fl ((k : Rat) / (100 : Int))) 100 = k ∨ mixTrunc (fl ((k : Rat) / (100 : Int))) 100 = k - 1) ∧
    (25 ∣ k → mixTrunc (fl ((k : Rat) / (100 : Int))) 100 = k) := by
  constructor
  · have h := abs_le_iff.1 (times_hundred h0 hk).1
    unfold mixTrunc
    by_cases hz : k = 0
    · subst hz; left; decide +kernel
    have h1 : ((1 : Int) : Rat) ≤ k := cast_le.2 (by omega)
    rw [Rat.intCast_one] at h1
    generalize pyMulInt (fl ((k : Rat) / (100 : Int))) 100 = z at *
    unfold pyInt
    rw [if_pos (by grind)]
    have f1 := Rat.floor_le (a := z)
    have f2 := Rat.lt_floor_add_one (a := z)
    have g1 : ((z.floor : Int) : Rat) < ((k + 1 : Int) : Rat) := by
      rw [Rat.intCast_add, Rat.intCast_one]; grind
    have g2 : ((k - 1 : Int) : Rat) < ((z.floor + 1 : Int) : Rat) := by
      rw [Rat.intCast_add, Rat.intCast_sub, Rat.intCast_one]; grind
    have g1 := cast_lt.1 g1
    have g2 := cast_lt.1 g2
    omega
  · rintro ⟨c, rfl⟩
    have e : ((25 * c : Int) : Rat) / (100 : Int) = (c : Rat) * 2 ^ (-2 : Int) := by
      rw [Rat.intCast_mul, show ((25 : Int) : Rat) = 25 from rfl, show ((100 : Int) : Rat) = 100 from rfl,
        show (2 : Rat) ^ (-2 : Int) = 1 / 4 by decide +kernel]
      grind
    have hd : IsDouble ((c : Rat) * 2 ^ (-2 : Int)) := ⟨c, -2, rfl, by omega, by omega, by decide, by decide⟩
    unfold mixTrunc pyMulInt
    rw [e, fl_double hd, fl_int (n := 100) (by decide) (by decide)]
    have e2 : (c : Rat) * 2 ^ (-2 : Int) * (100 : Int) = ((25 * c : Int) : Rat) := by
      rw [Rat.intCast_mul, show ((25 : Int) : Rat) = 25 from rfl, show ((100 : Int) : Rat) = 100 from rfl,
        show (2 : Rat) ^ (-2 : Int) = 1 / 4 by decide +kernel]
      grind
    rw [e2, fl_int (by omega) (by omega), pyInt_int]

theorem mixRound_one {k : Int} (h0 : 0 ≤ k) (hk : k ≤ 2 ^ 50) :
    NearestDecimal 0 ((k : Rat) / (100 : Int)) (mixRound (fl ((k : Rat) / (100 : Int))) 1) := by
  have hclose := (times_hundred h0 hk).2
  have hd : IsDouble (fl ((k : Rat) / (100 : Int))) := by
    refine (fl_nearest ?_).1
    by_cases hz : k = 0
    · subst hz; decide +kernel
    · exact Rat.le_trans (quot_bounds (B := 100) hz (by decide)).2
        (Rat.le_trans (int_abs_le (b := 2 ^ 50) (by omega)) (by decide +kernel))
  have h := rounded_of_close (A := k) (B := 100) (g := 2) (d := 0) (by decide) (by decide) (by decide) (by decide)
    (y := fl ((k : Rat) / (100 : Int))) (by
      have m := Rat.mul_le_mul_of_nonneg_right hclose (c := 2 * 10 ^ 0 * ((100 : Int) : Rat)) (by decide +kernel)
      have e : ((k : Rat) / (100 : Int)).abs * ((100 : Int) : Rat) = (k : Rat).abs := by
        rw [← abs_mul_pos _ (by decide +kernel), Rat.div_mul_cancel (by decide +kernel)]
      have e2 : ((k : Rat) / (100 : Int)).abs * 2 ^ (-53 : Int) * (2 * 10 ^ 0 * ((100 : Int) : Rat)) =
          (k : Rat).abs * (2 * 2 ^ (-53 : Int)) := by
        rw [← e, show (2 : Rat) * 10 ^ 0 = 2 by decide +kernel]
        generalize (2 : Rat) ^ (-53 : Int) = u
        generalize ((k : Rat) / (100 : Int)).abs = q
        grind
      rw [e2] at m
      have m2 := Rat.mul_le_mul_of_nonneg_right (int_abs_le (n := k) (b := 2 ^ 50) (by omega)) (c := 2 * (2 : Rat) ^ (-53 : Int))
        (by decide +kernel)
      have c : ((2 ^ 50 : Nat) : Rat) * (2 * 2 ^ (-53 : Int)) < ((2 : Int) : Rat) := by decide +kernel
      exact Rat.not_le.1 fun hc => Rat.not_le.2 c (Rat.le_trans hc (Rat.le_trans m m2)))
  unfold mixRound pyMulInt
  rw [fl_int (n := 1) (by decide) (by decide), show ((1 : Int) : Rat) = 1 from rfl, Rat.mul_one, fl_double hd]
  generalize hy : fl ((k : Rat) / (100 : Int)) = y at *
  have hr : (rne (y * 10 ^ 0)).natAbs < 2 ^ 53 := by
    have hA := abs_le_iff.1 (int_abs_le (n := k) (b := 2 ^ 50) (by omega))
    have h' := abs_le_iff.1 h
    have hp : (0 : Rat) ≤ k := cast_le.2 h0
    have hc : ((2 ^ 50 : Nat) : Rat) = 1125899906842624 := by decide +kernel
    rw [hc] at hA
    generalize rne (y * 10 ^ 0) = r at *
    rw [show (10 : Rat) ^ 0 = 1 by decide +kernel, Rat.mul_one, show ((100 : Int) : Rat) = 100 from rfl] at h'
    have h1 : (r : Rat) < ((1125899906842624 + 1 : Int) : Rat) := by
      rw [Rat.intCast_add]
      have e1 : ((1125899906842624 : Int) : Rat) = 1125899906842624 := rfl
      have e2 : ((1 : Int) : Rat) = 1 := rfl
      rw [e1, e2]
      grind
    have h2 : ((-1 : Int) : Rat) < (r : Rat) := by
      have e2 : ((-1 : Int) : Rat) = -1 := rfl
      rw [e2]
      grind
    have h1 := cast_lt.1 h1
    have h2 := cast_lt.1 h2
    omega
  unfold pyRound
  rw [show ((rne (y * 10 ^ 0) : Rat) / 10 ^ 0) = rne (y * 10 ^ 0) by
    rw [show (10 : Rat) ^ 0 = 1 by decide +kernel]; grind, fl_int (by omega) (by omega), pyInt_int]
  exact nearestDecimal_of_half h

/-- The double that a text with two decimals, `k` hundredths, is read as. -/
def hundredths (k : Int) : Rat := fl ((k : Rat) / (100 : Int))

/-- C74 (ratio): in the report of a valid JP2 or JPH file made with MIX output, if the compression ratio of the report
is `k` hundredths, the numerator and denominator of the MIX 2.0 description are `k` and 100, and the number in the MIX
1.0 description is an integer nearest to it. -/
theorem C74_ratio {env : Env} {me : MixEnv} {float : String → Option Rat} (hf : ReadsFloats me float) {fs : FS} {fuel : Nat}
    {o : Options} {mix : Nat} {path : PyStr} (hfmt : o.format = .jp2 ∨ o.format = .jph) (hmix : mix ≠ 0) {rep : Elem}
    (h : checkOneFile env me fs fuel o mix path = .ok rep) (hv : verdict rep = some (.str "True")) {s : String} {k : Int}
    (hs : PropertyIs (contents rep "properties") ["compressionRatio"] s) (hr : float s = some (hundredths k)) (h0 : 0 ≤ k)
    (hk : k ≤ 2 ^ 50) :
    ∃ m, contents rep "propertiesExtension" = [m] ∧
      (mix ≠ 1 →
        textsAt ["mix:BasicDigitalObjectInformation", "mix:Compression", "mix:compressionRatio", "mix:numerator"] m.children =
          [.str (toString k)] ∧
        textsAt ["mix:BasicDigitalObjectInformation", "mix:Compression", "mix:compressionRatio", "mix:denominator"] m.children =
          [.str "100"]) ∧
      (mix = 1 → ∃ v : Int, NearestDecimal 0 ((k : Rat) / (100 : Int)) v ∧
        textsAt ["mix:BasicDigitalObjectInformation", "mix:Compression", "mix:compressionRatio"] m.children =
          [.str (toString v)]) := by
  obtain ⟨m, hm, -, -, ha⟩ := C55_report hfmt hmix h hv
  refine ⟨m, hm, fun h1 => ?_, fun h1 => ?_⟩
  · obtain ⟨v, e, hn, hd⟩ := ha.ratio2 h1 s hs
    rw [hf.round, hr, Option.map_some, hundredths, mixRound_hundred h0 hk, Option.some.injEq] at e
    exact ⟨e ▸ hn, hd⟩
  · obtain ⟨v, e, hn⟩ := ha.ratio1 h1 s hs
    rw [hf.round, hr, Option.map_some, hundredths, Option.some.injEq] at e
    exact ⟨v, e ▸ mixRound_one h0 hk, hn⟩

/-- C74 (resolution): if the resolutions of the report are `i` and `j` hundredths of a pixel per metre, the numerators
in the MIX description (over 10000, in pixels per centimetre) are `i` and `j` or less by one; they are `i` and `j` for
resolutions that are multiples of a quarter, in particular whole numbers. -/
theorem C74_resolution_partial {env : Env} {me : MixEnv} {float : String → Option Rat} (hf : ReadsFloats me float) {fs : FS}
    {fuel : Nat} {o : Options} {mix : Nat} {path : PyStr} (hfmt : o.format = .jp2 ∨ o.format = .jph) (hmix : mix ≠ 0) {rep : Elem}
    (h : checkOneFile env me fs fuel o mix path = .ok rep) (hv : verdict rep = some (.str "True")) {x y : String} {i j : Int}
    (hs : ReportedResolution (contents rep "properties") x y) (hx : float x = some (hundredths i)) (hy : float y = some (hundredths j))
    (hi0 : 0 ≤ i) (hi : i ≤ 2 ^ 50) (hj0 : 0 ≤ j) (hj : j ≤ 2 ^ 50) :
    ∃ m v w, contents rep "propertiesExtension" = [m] ∧ Frequencies m.children v w ∧
      (v = i ∨ v = i - 1) ∧ (w = j ∨ w = j - 1) ∧ (25 ∣ i → v = i) ∧ (25 ∣ j → w = j) := by
  obtain ⟨m, hm, -, -, ha⟩ := C55_report hfmt hmix h hv
  have hsamp : Sampling me mix m.children x y := by
    rcases hs with ⟨e, h1, h2, h3⟩ | ⟨h0, e, h1, h2, h3⟩
    · exact ha.capture e x y h1 h2 h3
    · exact ha.display h0 e x y h1 h2 h3
  obtain ⟨v, ev, nv, dv⟩ := hsamp.horizontal
  obtain ⟨w, ew, nw, dw⟩ := hsamp.vertical
  rw [hf.trunc, hx, Option.map_some, hundredths, Option.some.injEq] at ev
  rw [hf.trunc, hy, Option.map_some, hundredths, Option.some.injEq] at ew
  have tv := mixTrunc_hundred hi0 hi
  have tw := mixTrunc_hundred hj0 hj
  rw [ev] at tv
  rw [ew] at tw
  exact ⟨m, v, w, hm, ⟨nv, dv, nw, dw⟩, tv.1, tw.1, tv.2, tw.2⟩

/-! ## The resolution can be wrong -/

namespace Sample

/-- A JP2 file with a capture resolution of 60 pixels per inch: 60 / 254 * 10^4 pixels per metre. -/
def jp2Res : Bytes := fileWith (box "res " (box "resc" (be16 60 ++ be16 254 ++ be16 60 ++ be16 254 ++ [4, 4]))) []

/-- An environment that shows this resolution as Python does. -/
def envRes : Env := ⟨fun _ => none, fun c => c.toNat < 32, fun f => if f = resPerMeter 60 254 4 then "2362.2" else "1.0"⟩

/-- What `float` makes of the numbers in its report. -/
def floatRes (s : String) : Option Rat := if s = "2362.2" then some (hundredths 236220) else some 1

/-- The computations of `mix.py` with it. -/
def meRes : MixEnv := ⟨fun s k => (floatRes s).map (mixRound · k), fun s k => (floatRes s).map (mixTrunc · k), fun s => s⟩

end Sample

theorem readsFloats_res : ReadsFloats Sample.meRes Sample.floatRes := ⟨fun _ _ => rfl, fun _ _ => rfl⟩

/-- The text is the right one: 2362.2 is what Python shows. -/
theorem res_shown : pyRound 2 (perMeterFloat (fun e => fl ((10 : Rat) ^ e)) 60 254 4) = hundredths 236220 := by decide +kernel

/-- The resolutions shown in a report and the numerators of its MIX element. -/
def resOf (x : Outcome Elem) : Option (Option PyVal × List PyVal × List PyVal × List PyVal) :=
  match x with
  | .ok rep => some (verdict rep,
      textsAt ["jp2HeaderBox", "resolutionBox", "captureResolutionBox", "hRescInPixelsPerMeter"] (contents rep "properties"),
      textsAt ["mix:ImageAssessmentMetadata", "mix:SpatialMetrics", "mix:xSamplingFrequency", "mix:numerator"]
        ((contents rep "propertiesExtension").flatMap (·.children)),
      textsAt ["mix:ImageAssessmentMetadata", "mix:SpatialMetrics", "mix:xSamplingFrequency", "mix:denominator"]
        ((contents rep "propertiesExtension").flatMap (·.children)))
  | _ => none

/-- C74 is false: for a valid file with a resolution of 60 pixels per inch, the report has 2362.2 pixels per metre, but
its MIX element 236219 over 10000 pixels per centimetre, that is, 2362.19 pixels per metre, because 2362.2 * 100 is
236219.99999999997 in floating-point arithmetic and `int` cuts off the decimals. -/
theorem C74_false : resOf (checkOneFile Sample.envRes Sample.meRes (Sample.fs0 Sample.jp2Res) 200 (Sample.opts .jp2) 2 [97]) =
    some (some (.str "True"), [.str "2362.2"], [.str "236219"], [.str "10000"]) := by
  decide +kernel

/-- The report of the file meets the hypotheses of the theorems. -/
def resMeets (x : Outcome Elem) : Bool :=
  match x with
  | .ok rep => verdict rep == some (.str "True") &&
    ((textsAt ["compressionRatio"] (contents rep "properties")).head? == some (.str "1.0")) &&
    (match (elemsAt ["jp2HeaderBox", "resolutionBox", "captureResolutionBox"] (contents rep "properties")).head? with
      | some e => (textsAt ["hRescInPixelsPerMeter"] e.children).head? == some (.str "2362.2") &&
        (textsAt ["vRescInPixelsPerMeter"] e.children).head? == some (.str "2362.2")
      | none => false)
  | _ => false

example : ∃ rep, checkOneFile Sample.envRes Sample.meRes (Sample.fs0 Sample.jp2Res) 200 (Sample.opts .jp2) 2 [97] = .ok rep ∧
    verdict rep = some (.str "True") ∧ PropertyIs (contents rep "properties") ["compressionRatio"] "1.0" ∧
    Sample.floatRes "1.0" = some (hundredths 100) ∧
    ReportedResolution (contents rep "properties") "2362.2" "2362.2" ∧ Sample.floatRes "2362.2" = some (hundredths 236220) := by
  have key : resMeets (checkOneFile Sample.envRes Sample.meRes (Sample.fs0 Sample.jp2Res) 200 (Sample.opts .jp2) 2 [97]) = true := by
    decide +kernel
  generalize checkOneFile Sample.envRes Sample.meRes (Sample.fs0 Sample.jp2Res) 200 (Sample.opts .jp2) 2 [97] = r at *
  cases r with
  | ok rep =>
    simp only [resMeets, Bool.and_eq_true, beq_iff_eq] at key
    obtain ⟨⟨hv, hr⟩, hres⟩ := key
    refine ⟨rep, rfl, hv, hr, by decide +kernel, .inl ?_, by decide +kernel⟩
    split at hres
    next e he =>
      simp only [Bool.and_eq_true, beq_iff_eq] at hres
      exact ⟨e, he, hres.1, hres.2⟩
    next => cases hres
  | raised e => cases key
  | timeout => cases key

/-- Most resolutions are repeated correctly: 300 pixels per inch, and all whole numbers. -/
example : mixTrunc (hundredths 1181102) 100 = 1181102 ∧ mixTrunc (hundredths 1181100) 100 = 1181100 ∧
    mixTrunc (hundredths 413386) 100 = 413385 := by decide +kernel

end Jpy
