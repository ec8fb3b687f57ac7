import Verif.Lemmas.Quiet
import Verif.Lemmas.Sample
/-! # Contents that cause an internal error: C41 -/

namespace Jpy
open Spec

/-- C41: the report of an analysis says that it was successful exactly when the file could be read and its
contents contain none of the features of `Crashes`: so the listed features are all that can cause an
internal error. Missing from the full property: files with such features (`C41_false`), and files whose
analysis does not end (`C11_false`). -/
theorem C41_partial (env : Env) (me : MixEnv) (fs : FS) (fuel : Nat) (o : Options) (mix : Nat)
    (path : PyStr) (rep : Elem) (h : checkOneFile env me fs fuel o mix path = .ok rep) :
    status rep "success" = [.str "True"] ↔
      (∀ e, fs.read path ≠ .error e) ∧ ¬ Crashes o.format (bytesRead (fs.read path)) := by
  obtain ⟨info, a, m, h1, h2, h3, rfl⟩ := checkOneFile_ok.1 h
  have hi := fileInfo_tag h1
  have hst : status (buildReport o info a (extensionOf o mix a m)) "success" = [.str (boolStr a.success)] := by
    unfold status
    rw [(report_parts hi).2.1]
    cases a.failure <;> rfl
  rw [hst]
  rcases analyse_cases h2 with ⟨b, fmm, n, h4, h5, rfl⟩ | ⟨e, h4, rfl⟩
  · have hb := fileToMemoryMap_bytes h4
    subst hb
    refine ⟨fun _ => ⟨fun e he => ?_, validateRoot_ok_safe h5⟩, fun _ => rfl⟩
    unfold fileToMemoryMap at h4
    rw [he] at h4
    cases h4
  · refine ⟨fun hs => ?_, fun ⟨hr, hc⟩ => ?_⟩
    · exact absurd hs (by show ¬ [PyVal.str (boolStr false)] = _; decide)
    · exfalso
      unfold analyseTry at h4
      have hq : Quiet (fileToMemoryMap fs path) := by
        unfold fileToMemoryMap
        split
        · rename_i e' he; exact absurd he (hr e')
        all_goals exact Quiet.ok _
      refine Quiet.bind hq (fun x hx => ?_) e h4
      obtain ⟨b, fmm⟩ := x
      have hb := fileToMemoryMap_bytes hx
      subst hb
      exact Quiet.bind (validateRoot_quiet hc) fun _ _ => Quiet.ok _

/-- The sample file has none of the features. -/
example : ¬ Crashes .jp2 Sample.jp2b := by
  obtain ⟨rep, h, -⟩ := Sample.jp2b_valid
  have hs : status rep "success" = [.str "True"] := by
    have : (match Sample.reportOf (Sample.opts .jp2) 0 Sample.jp2b with
      | .ok rep => decide (status rep "success" = [.str "True"]) | _ => false) = true := by decide +kernel
    unfold Sample.reportOf at this
    rw [h] at this
    simpa using this
  exact ((C41_partial _ _ _ _ _ _ _ _ h).1 hs).2

/-- A file consisting of a capture resolution box with vertical denominator zero. -/
def crashingFile : Bytes := [0, 0, 0, 18] ++ ascii "resc" ++ [1, 44, 0, 0, 1, 44, 0, 1, 2, 2]

theorem crashingFile_crashes : Crashes .jp2 crashingFile := by
  refine ⟨1, _, _, .top (x := ⟨0, ascii "resc", [1, 44, 0, 0, 1, 44, 0, 1, 2, 2]⟩)
    (bs := [⟨0, ascii "resc", [1, 44, 0, 0, 1, 44, 0, 1, 2, 2]⟩])
    (.step (by decide) (BoxAt.short (b := crashingFile) (off := 0) (L := 18) (by decide) (by decide))
      (.done (by decide))) (by simp), .inl ?_⟩
  exact .resolution (.inl rfl) (.inl ⟨0, by decide, rfl⟩)

/-- C41, negation: the analysis of this 18 byte file is always reported as failed, whatever the environment. -/
theorem C41_false (env : Env) (me : MixEnv) (fs : FS) (fuel : Nat) (o : Options) (mix : Nat)
    (path : PyStr) (rep : Elem) (hf : o.format = .jp2) (hb : fs.read path = .data crashingFile)
    (h : checkOneFile env me fs fuel o mix path = .ok rep) : status rep "success" ≠ [.str "True"] := by
  intro hs
  have := ((C41_partial env me fs fuel o mix path rep h).1 hs).2
  rw [hf, hb] at this
  exact this crashingFile_crashes

/-- The analysis of that file does end with a report. -/
example : (match Sample.reportOf (Sample.opts .jp2) 0 crashingFile with
    | .ok rep => decide (status rep "success" = [.str "False"]) | _ => false) = true := by decide +kernel

end Jpy
