import Verif.Lemmas.FormatRel
import Verif.Lemmas.Sample
import Verif.Lemmas.Mix
import Verif.Props.Runs
/-!
# The format that is named selects rules, not values (C82)
-/

namespace Jpy
open Spec

section
variable {env : Env} {me : MixEnv} {fs : FS} {fuel : Nat} {o : Options} {f1 f2 : Format} {mix mix' : Nat} {path : PyStr}

/-- The reports on one file in the two formats for files, or in the two formats for codestreams, have the same
information about the file, the same status and the same warnings. Their properties are the same, but for the properties
of code-block styles and capabilities that are reported in one of the formats only. -/
theorem C82_properties (hp : FormatPair f1 f2) {rep1 rep2 : Elem}
    (h1 : checkOneFile env me fs fuel { o with format := f1 } mix path = .ok rep1)
    (h2 : checkOneFile env me fs fuel { o with format := f2 } mix' path = .ok rep2) :
    part rep1 "fileInfo" = part rep2 "fileInfo" ∧ part rep1 "statusInfo" = part rep2 "statusInfo" ∧
    part rep1 "warnings" = part rep2 "warnings" ∧
    SameButHTL (contents rep1 "properties") (contents rep2 "properties") := by
  obtain ⟨i1, a1, m1, hi1, ha1, -, rfl⟩ := checkOneFile_ok.1 h1
  obtain ⟨i2, a2, m2, hi2, ha2, -, rfl⟩ := checkOneFile_ok.1 h2
  rw [hi1] at hi2
  cases hi2
  obtain ⟨p1, p2, -, -, p3, p4, -⟩ := report_parts (o := { o with format := f1 }) (a := a1) (mix := mix) (m := m1)
    (fileInfo_tag hi1)
  obtain ⟨q1, q2, -, -, q3, q4, -⟩ := report_parts (o := { o with format := f2 }) (a := a2) (mix := mix') (m := m2)
    (fileInfo_tag hi1)
  have h := analyse_format (env := env) o hp fs fuel path
  rw [ha1, ha2] at h
  cases h with
  | ok h =>
    refine ⟨by rw [p1, q1], by rw [p2, q2, h.success, h.failure], by rw [p4, q4, h.warnings], ?_⟩
    unfold contents
    rw [p3, q3]
    exact h.props

/-- Both analyses end with a report, or neither does. -/
theorem C82_outcome (hp : FormatPair f1 f2) :
    (∃ rep, checkOneFile env me fs fuel { o with format := f1 } 0 path = .ok rep) ↔
    ∃ rep, checkOneFile env me fs fuel { o with format := f2 } 0 path = .ok rep := by
  have h := analyse_format (env := env) o hp fs fuel path
  have hm : ∀ a, mixOutput me 0 a = .ok [] := fun a => by unfold mixOutput; rw [if_neg (by simp)]
  have key : ∀ f, (∃ rep, checkOneFile env me fs fuel { o with format := f } 0 path = .ok rep) ↔
      ∃ i a, fileInfo fs path = .ok i ∧ analyse env fs { o with format := f } fuel path = .ok a := by
    intro f
    constructor
    · rintro ⟨rep, hr⟩
      obtain ⟨i, a, m, h1, h2, -⟩ := checkOneFile_ok.1 hr
      exact ⟨i, a, h1, h2⟩
    · rintro ⟨i, a, h1, h2⟩
      exact ⟨_, checkOneFile_ok.2 ⟨i, a, [], h1, h2, hm a, rfl⟩⟩
  rw [key, key]
  constructor <;> rintro ⟨i, a, hi, ha⟩ <;> rw [ha] at h
  · generalize analyse env fs { o with format := f2 } fuel path = y at h ⊢
    cases h
    exact ⟨i, _, hi, rfl⟩
  · generalize analyse env fs { o with format := f1 } fuel path = y at h ⊢
    cases h
    exact ⟨i, _, hi, rfl⟩

end

/-- The texts at any path in the properties agree, unless the path ends at or goes through one of the properties that
depend on the format. -/
theorem C82_values {env : Env} {me : MixEnv} {fs : FS} {fuel : Nat} {o : Options} {f1 f2 : Format} {mix mix' : Nat}
    {path : PyStr} (hp : FormatPair f1 f2) {rep1 rep2 : Elem}
    (h1 : checkOneFile env me fs fuel { o with format := f1 } mix path = .ok rep1)
    (h2 : checkOneFile env me fs fuel { o with format := f2 } mix' path = .ok rep2) (p : List String)
    (hn : ∀ t ∈ p, t ∉ styleNames ∧ t ∉ htNames) :
    (Elem.findall (contents rep1 "properties") p).map Elem.text =
      (Elem.findall (contents rep2 "properties") p).map Elem.text :=
  ht_texts p (C82_properties hp h1 h2).2.2.2 hn

/-- The results of the tests at any path agree, unless the path ends at one of the tests whose rules depend on the format:
passed and failed tests in verbose reports, failed tests in others. -/
theorem C82_tests {env : Env} {me : MixEnv} {fs : FS} {fuel : Nat} {o : Options} {f1 f2 : Format} {mix mix' : Nat}
    {path : PyStr} (hp : FormatPair f1 f2) {rep1 rep2 : Elem}
    (h1 : checkOneFile env me fs fuel { o with format := f1 } mix path = .ok rep1)
    (h2 : checkOneFile env me fs fuel { o with format := f2 } mix' path = .ok rep2) (p : List String)
    (hn : ∀ t ∈ p, t ∉ formatTests) :
    results (contents rep1 "tests") p = results (contents rep2 "tests") p := by
  obtain ⟨i1, a1, m1, hi1, ha1, -, rfl⟩ := checkOneFile_ok.1 h1
  obtain ⟨i2, a2, m2, hi2, ha2, -, rfl⟩ := checkOneFile_ok.1 h2
  rw [hi1] at hi2
  cases hi2
  obtain ⟨-, -, -, p1, -⟩ := report_parts (o := { o with format := f1 }) (a := a1) (mix := mix) (m := m1)
    (fileInfo_tag hi1)
  obtain ⟨-, -, -, q1, -⟩ := report_parts (o := { o with format := f2 }) (a := a2) (mix := mix') (m := m2)
    (fileInfo_tag hi1)
  have h := analyse_format (env := env) o hp fs fuel path
  rw [ha1, ha2] at h
  cases h with
  | ok h =>
    unfold contents
    rw [p1, q1]
    exact h.tests p hn

theorem within_findall : ∀ (p : List String) {es : List Elem} {e : Elem}, e ∈ Elem.findall es p →
    ∃ c ∈ es, Within e c
  | [], _, _, h => by cases h
  | [t], _, e, h => ⟨e, (List.mem_filter.1 h).1, .self e⟩
  | t :: u :: us, es, e, h => by
    simp only [Elem.findall, List.mem_flatMap] at h
    obtain ⟨c, hc, h⟩ := h
    obtain ⟨d, hd, hw⟩ := within_findall (u :: us) h
    exact ⟨c, (List.mem_filter.1 hc).1, .child hd hw⟩

/-- A file that is valid in one of two formats fails in the other only by tests whose rules depend on the format. -/
theorem C82_failures {env : Env} {me : MixEnv} {fs : FS} {fuel : Nat} {o : Options} {f1 f2 : Format} {mix mix' : Nat}
    {path : PyStr} (hp : FormatPair f1 f2 ∨ FormatPair f2 f1) {rep1 rep2 : Elem}
    (h1 : checkOneFile env me fs fuel { o with format := f1 } mix path = .ok rep1)
    (h2 : checkOneFile env me fs fuel { o with format := f2 } mix' path = .ok rep2)
    (hv : verdict rep1 = some (.str "True")) (p : List String)
    (hf : .str "False" ∈ Elem.findAllText (contents rep2 "tests") p) : ∃ t ∈ p, t ∈ formatTests := by
  have hs : status rep1 "success" = [.str "True"] := by
    rcases C02_consistent (rep := rep1) (h := h1) with h | h
    · exact h.1
    · rw [hv] at h; simp at h
  have hno := (C01_verdict (rep := rep1) (h := h1) (hs := hs)).2.1 hv
  by_cases hc : ∃ t ∈ p, t ∈ formatTests
  · exact hc
  have hn : ∀ t ∈ p, t ∉ formatTests := fun t ht hx => hc ⟨t, ht, hx⟩
  have e : results (contents rep1 "tests") p = results (contents rep2 "tests") p := by
    rcases hp with hp | hp
    · exact C82_tests hp h1 h2 p hn
    · exact (C82_tests hp h2 h1 p hn).symm
  have hm : .str "False" ∈ results (contents rep2 "tests") p := List.mem_filter.2 ⟨hf, by simp⟩
  rw [← e] at hm
  obtain ⟨x, hx, hxt⟩ := List.mem_map.1 (List.mem_filter.1 hm).1
  obtain ⟨c, hc, hw⟩ := within_findall p hx
  exact absurd hxt (hno c hc x hw)

open Sample in
/-- A valid JPH file, analysed as JP2, fails tests whose rules depend on the format, and no others. -/
example : ∃ rep1 rep2, reportOf (opts .jp2) 0 jph = .ok rep1 ∧ reportOf (opts .jph) 0 jph = .ok rep2 ∧
    verdict rep2 = some (.str "True") ∧ .str "False" ∈ Elem.findAllText (contents rep1 "tests") ["fileTypeBox", "brandIsValid"] ∧
    ∀ p, .str "False" ∈ Elem.findAllText (contents rep1 "tests") p → ∃ t ∈ p, t ∈ formatTests := by
  have k1 : (match reportOf (opts .jp2) 0 jph with
      | .ok rep => decide (.str "False" ∈ Elem.findAllText (contents rep "tests") ["fileTypeBox", "brandIsValid"])
      | _ => false) = true := by decide +kernel
  obtain ⟨rep2, h2, hv, -⟩ := saysValid_ok jph_report
  cases h1 : reportOf (opts .jp2) 0 jph with
  | ok rep1 =>
    rw [h1] at k1
    exact ⟨rep1, rep2, rfl, h2, hv, of_decide_eq_true k1,
      fun p hf => C82_failures (o := opts .jp2) (.inr (.inl ⟨rfl, rfl⟩)) h2 h1 hv p hf⟩
  | _ => rw [h1] at k1; cases k1

open Sample in
/-- One file in both formats: it is valid in one only, its width is the same in both, and the property
`htCodeBlocks` is in one report only. -/
example : ∃ rep1 rep2, reportOf (opts .jp2) 0 jph = .ok rep1 ∧ reportOf (opts .jph) 0 jph = .ok rep2 ∧
    verdict rep1 = some (.str "False") ∧ verdict rep2 = some (.str "True") ∧
    SameButHTL (contents rep1 "properties") (contents rep2 "properties") ∧
    (Elem.findall (contents rep1 "properties") ["jp2HeaderBox", "imageHeaderBox", "width"]).map Elem.text = [.str "1"] ∧
    (Elem.findall (contents rep2 "properties") ["jp2HeaderBox", "imageHeaderBox", "width"]).map Elem.text = [.str "1"] ∧
    (Elem.findall (contents rep1 "properties") ["contiguousCodestreamBox", "cap", "htCodeBlocks"]).length = 0 ∧
    (Elem.findall (contents rep2 "properties") ["contiguousCodestreamBox", "cap", "htCodeBlocks"]).length = 1 := by
  have k1 : (match reportOf (opts .jp2) 0 jph with
      | .ok rep => verdict rep == some (.str "False") &&
        (Elem.findall (contents rep "properties") ["jp2HeaderBox", "imageHeaderBox", "width"]).map Elem.text == [.str "1"] &&
        (Elem.findall (contents rep "properties") ["contiguousCodestreamBox", "cap", "htCodeBlocks"]).length == 0
      | _ => false) = true := by decide +kernel
  have k2 : (match reportOf (opts .jph) 0 jph with
      | .ok rep => verdict rep == some (.str "True") &&
        (Elem.findall (contents rep "properties") ["contiguousCodestreamBox", "cap", "htCodeBlocks"]).length == 1
      | _ => false) = true := by decide +kernel
  cases h1 : reportOf (opts .jp2) 0 jph with
  | ok rep1 =>
    cases h2 : reportOf (opts .jph) 0 jph with
    | ok rep2 =>
      rw [h1] at k1
      rw [h2] at k2
      simp only [Bool.and_eq_true, beq_iff_eq] at k1 k2
      have hw := C82_values (o := opts .jp2) (.inl ⟨rfl, rfl⟩) h1 h2 ["jp2HeaderBox", "imageHeaderBox", "width"] (by decide)
      exact ⟨rep1, rep2, rfl, rfl, k1.1.1, k2.1, (C82_properties (o := opts .jp2) (.inl ⟨rfl, rfl⟩) h1 h2).2.2.2, k1.1.2,
        hw ▸ k1.1.2, k1.2, k2.2⟩
    | _ => rw [h2] at k2; cases k2
  | _ => rw [h1] at k1; cases k1

open Sample in
/-- The same for codestreams. -/
example : ∃ rep, reportOf (opts .jhc) 0 cs2 = .ok rep :=
  (C82_outcome (o := opts .j2c) (.inr ⟨rfl, rfl⟩)).1
    (let ⟨rep, h, _⟩ := saysValid_ok cs2_report; ⟨rep, h⟩)

end Jpy
