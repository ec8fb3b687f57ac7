import Verif.Props.OutputExact
import Verif.Props.MixExact
import Verif.Props.Endless
import Verif.Props.Contents
/-! # C46: exactly which commands write a complete document, from the files alone -/

namespace Jpy
open Spec hiding reported
open Spec.Xml

variable {env : Env} {me : MixEnv} {fs : FS} {o : Options} {mix : Nat} {path : PyStr}

/-- More steps do not change a report. -/
theorem checkOneFile_more {fuel fuel' : Nat} (hf : fuel ≤ fuel') {rep : Elem}
    (h : checkOneFile env me fs fuel o mix path = .ok rep) : checkOneFile env me fs fuel' o mix path = .ok rep := by
  obtain ⟨info, a, m, h1, h2, h3, rfl⟩ := checkOneFile_ok.1 h
  exact checkOneFile_ok.2 ⟨info, a, m, h1, (analyse_le env fs o hf path).ok h2, h3, rfl⟩

/-- The outcomes of the analysis without MIX output of a file whose size and time are known. -/
theorem checkOneFile_plain {fuel : Nat} {s t} (hs : fs.getsize path = .ok s) (hm : fs.modified path = .ok t)
    (hne : checkOneFile env me fs fuel o 0 path ≠ .timeout) : ∃ rep, checkOneFile env me fs fuel o 0 path = .ok rep := by
  cases h : checkOneFile env me fs fuel o 0 path with
  | ok rep => exact ⟨rep, rfl⟩
  | timeout => exact absurd h hne
  | raised e =>
    exfalso
    unfold checkOneFile fileInfo at h
    rw [hs, hm] at h
    simp only [Outcome.bind_ok] at h
    cases ha : analyse env fs o fuel path with
    | ok a => rw [ha] at h; simp at h
    | timeout => rw [ha] at h; cases h
    | raised e' =>
      unfold analyse at ha
      split at ha <;> cases ha

theorem mixDescribable_iff (hsane : Sane env) (hf : FloatsReadable env me) (hmix : mix ≠ 0) {fuel : Nat}
    (hv : ReportedValid env me fs fuel o 0 path) :
    MixDescribable env o (bytesRead (fs.read path)) ↔ ReportedValid env me fs fuel o mix path := by
  have hfmt : (o.format = .jp2 ∨ o.format = .jph) ∨ (o.format = .j2c ∨ o.format = .jhc) := by
    obtain ⟨n, h, -⟩ := reportedValid_contents hv
    unfold validateRoot at h
    cases hf : o.format with
    | other s => rw [hf] at h; cases h
    | _ => simp
  rcases hfmt with hfmt | hfmt
  · obtain ⟨bs, hb⟩ := boxes_exists (bytesRead (fs.read path))
    obtain ⟨inXml, hx⟩ := storedDocs_exists env o xmlDoc bs
    obtain ⟨inUuid, hu⟩ := storedDocs_exists env o xmpDoc bs
    constructor
    · intro h
      exact (C48_exact hsane hfmt hmix hf hv hb hx hu).1.2 ⟨h.colour, h.xmp _ _ _ hb hx hu⟩
    · intro h
      refine ⟨hfmt, ((C48_exact hsane hfmt hmix hf hv hb hx hu).1.1 h).1, fun bs' x' u' hb' hx' hu' => ?_⟩
      exact ((C48_exact hsane hfmt hmix hf hv hb' hx' hu').1.1 h).2
  · constructor
    · intro h
      rcases h.boxes with h | h <;> rcases hfmt with h' | h' <;> rw [h'] at h <;> cases h
    · rintro ⟨rep, h, -⟩
      rw [C48_codestreams hfmt hmix hv] at h
      cases h

/-- A report can be made on a file if and only if it is `Reportable`. -/
theorem C46_report_exact (hsane : Sane env) (hf : FloatsReadable env me) :
    (∃ fuel rep, checkOneFile env me fs fuel o mix path = .ok rep) ↔ Reportable env me fs o mix path := by
  constructor
  · rintro ⟨fuel, rep, h⟩
    obtain ⟨info, a, m, h1, h2, h3, hrep⟩ := checkOneFile_ok.1 h
    have h1' := h1
    unfold fileInfo at h1'
    obtain ⟨s, hs, h1'⟩ := ok_of_bind h1'
    obtain ⟨t, ht, -⟩ := ok_of_bind h1'
    refine ⟨⟨s, hs⟩, ⟨t, ht⟩, ?_, ?_⟩
    · exact (C11_exact env me fs o mix path hs ht).1 ⟨fuel, by rw [h]; exact fun e => nomatch e⟩
    · intro hmix fuel' hv
      refine (mixDescribable_iff hsane hf hmix hv).2 ?_
      obtain ⟨rep', h', hv'⟩ := hv
      obtain ⟨info', a', m', h1', h2', h3', rfl⟩ := checkOneFile_ok.1 h'
      rw [h1] at h1'
      cases h1'
      have e1 := (analyse_le env fs o (Nat.le_max_left fuel fuel') path).ok h2
      have e2 := (analyse_le env fs o (Nat.le_max_right fuel fuel') path).ok h2'
      rw [e1] at e2
      cases e2
      refine ⟨_, checkOneFile_ok.2 ⟨info, a, m, h1, h2', h3, rfl⟩, ?_⟩
      have hi := fileInfo_tag h1
      rw [verdict_eq hi] at hv' ⊢
      exact hv'
  · intro h
    obtain ⟨s, hs⟩ := h.size
    obtain ⟨t, ht⟩ := h.time
    obtain ⟨fuel, hne⟩ := (C11_exact env me fs o 0 path hs ht).2 h.ends
    obtain ⟨rep, hr⟩ := checkOneFile_plain hs ht hne
    refine ⟨fuel, ?_⟩
    by_cases hmix : mix = 0
    · subst hmix
      exact ⟨rep, hr⟩
    · obtain ⟨info, a, m, h1, h2, h3, rfl⟩ := checkOneFile_ok.1 hr
      have hi := fileInfo_tag h1
      by_cases hv : a.isValid = true
      · have hval : ReportedValid env me fs fuel o 0 path := ⟨_, hr, by rw [verdict_eq hi, hv]; rfl⟩
        obtain ⟨rep', hr', -⟩ := (mixDescribable_iff hsane hf hmix hval).1 (h.mix hmix fuel hval)
        exact ⟨rep', hr'⟩
      · exact ⟨_, checkOneFile_ok.2 ⟨info, a, [], h1, h2, by unfold mixOutput; rw [if_neg fun h => hv h.2], rfl⟩⟩

/-- C46, from the files alone: a command writes a complete document, with a report for every selected file, if and only
if it selects a file, every selected file is `Reportable`, and, unless pretty-printing is switched off, the names,
paths and dates of the files have characters of XML only. -/
theorem C46_command_exact {tool : String} {cfg : Config} {recurse : Bool} {paths existing : List PyStr}
    (hsane : Sane env) (hf : FloatsReadable env me) (hx : ParsesXml env) (he : LegalEnv env) (hm : StripsOnly me)
    (ht : LegalStr tool) (hfmt : LegalStr cfg.format.name) :
    (∃ fuel, (checkFiles env me fs fuel tool cfg recurse paths existing).exit = .done) ↔
      existing ++ (findFiles fs recurse paths).1 ≠ [] ∧
      ∀ p ∈ existing ++ (findFiles fs recurse paths).1,
        Reportable env me fs cfg.options cfg.mix p ∧ (cfg.nopretty = true ∨ LegalFile fs p) := by
  constructor
  · rintro ⟨fuel, h⟩
    obtain ⟨h1, h2⟩ := (C46_exact hx he hm ht hfmt).1 h
    refine ⟨h1, fun p hp => ⟨?_, (h2 p hp).2⟩⟩
    exact (C46_report_exact hsane hf).1 ⟨fuel, (h2 p hp).1⟩
  · rintro ⟨h1, h2⟩
    have key : ∀ ps : List PyStr, (∀ p ∈ ps, Reportable env me fs cfg.options cfg.mix p) →
        ∃ fuel, ∀ p ∈ ps, ∃ rep, checkOneFile env me fs fuel cfg.options cfg.mix p = .ok rep := by
      intro ps
      induction ps with
      | nil => intro _; exact ⟨0, fun p hp => nomatch hp⟩
      | cons p ps ih =>
        intro h
        obtain ⟨f, rep, hr⟩ := (C46_report_exact hsane hf).2 (h p (by simp))
        obtain ⟨g, hg⟩ := ih fun q hq => h q (by simp [hq])
        refine ⟨max f g, fun q hq => ?_⟩
        rcases List.mem_cons.1 hq with rfl | hq
        · exact ⟨rep, checkOneFile_more (Nat.le_max_left f g) hr⟩
        · obtain ⟨rep', hr'⟩ := hg q hq
          exact ⟨rep', checkOneFile_more (Nat.le_max_right f g) hr'⟩
    obtain ⟨fuel, hall⟩ := key _ fun p hp => (h2 p hp).1
    exact ⟨fuel, (C46_exact hx he hm ht hfmt).2 ⟨h1, fun p hp => ⟨hall p hp, (h2 p hp).2⟩⟩⟩

/-! ## Cases -/

theorem sane51 : Sane env51 where
  ascii ch h1 h2 := by
    have : isChar ch = true := by
      unfold isChar
      simp only [Bool.or_eq_true, Bool.and_eq_true, decide_eq_true_eq, beq_iff_eq]
      omega
    show (!isChar ch) = false
    rw [this]
    rfl
  float _ ch h := by
    have : ∀ ch ∈ "1.0".toList, 32 ≤ ch.toNat ∧ ch.toNat ≤ 126 := by decide
    exact this ch h

/-- A file whose name contains markup is reportable with MIX output. -/
example : Reportable env51 Sample.me0 (fsNamed markup Sample.jp2Xml) (cfgOf .jp2 2 false).options 2 [97] := by
  have h := (C46_command_exact (fs := fsNamed markup Sample.jp2Xml) (tool := "jpylyzer.py") (cfg := cfgOf .jp2 2 false)
    (recurse := false) (paths := [[97]]) (existing := []) sane51 (fun _ _ => ⟨⟨1, rfl⟩, ⟨1, rfl⟩⟩) parses51 legal51
    (fun _ h => h) (by unfold LegalStr; decide) (by unfold LegalStr; decide)).1
    ⟨200, (by decide +kernel : (runOn markup Sample.jp2Xml (cfgOf .jp2 2 false)).exit = .done)⟩
  exact (h.2 [97] (by decide)).1

/-- A command with a file that is analysed for ever never writes the whole document. -/
example : (runOn markup Sample.endlessPlm (cfgOf .j2c 0 true)).exit ≠ .done ∧
    ¬ Reportable env51 Sample.me0 (fsNamed markup Sample.endlessPlm) (cfgOf .j2c 0 true).options 0 [97] := by
  have no : ¬ Reportable env51 Sample.me0 (fsNamed markup Sample.endlessPlm) (cfgOf .j2c 0 true).options 0 [97] := by
    intro h
    obtain ⟨f, rep, hr⟩ := (C46_report_exact sane51 (fun _ _ => ⟨⟨1, rfl⟩, ⟨1, rfl⟩⟩)).2 h
    rw [C11_false env51 Sample.me0 (fsNamed markup Sample.endlessPlm) (cfgOf .j2c 0 true).options 0 [97] (.inl rfl)
      rfl rfl rfl f] at hr
    cases hr
  refine ⟨fun h => no ?_, no⟩
  exact (((C46_command_exact (fs := fsNamed markup Sample.endlessPlm) (tool := "jpylyzer.py") (cfg := cfgOf .j2c 0 true)
    (recurse := false) (paths := [[97]]) (existing := []) sane51 (fun _ _ => ⟨⟨1, rfl⟩, ⟨1, rfl⟩⟩) parses51 legal51
    (fun _ h => h) (by unfold LegalStr; decide) (by unfold LegalStr; decide)).1 ⟨200, h⟩).2 [97] (by decide)).1

end Jpy
