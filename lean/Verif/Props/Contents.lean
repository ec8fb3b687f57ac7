import Verif.Props.Truncate
import Verif.Lemmas.Sample
/-!
# C60: the report depends on a file only through its contents
-/

namespace Jpy
open Spec

theorem analyse_le (env : Env) (fs : FS) (o : Options) {f g : Nat} (h : f ≤ g) (path : PyStr) :
    Le (analyse env fs o f path) (analyse env fs o g path) := by
  have : Le (analyseTry env fs o f path) (analyseTry env fs o g path) := by
    unfold analyseTry
    cases fileToMemoryMap fs path with
    | ok x =>
      simp only [Outcome.bind_ok]
      rcases validateRoot_le env o h x.1 with e | e
      · rw [e]; exact .inl rfl
      · rw [e]; exact .inr rfl
    | raised e => exact .inr rfl
    | timeout => exact .inr rfl
  unfold analyse
  rcases this with e | e
  · rw [e]; exact .inl rfl
  · rw [e]; exact .inr rfl

theorem analyse_eq {env : Env} {fs fs' : FS} {o : Options} {path path' : PyStr} {b : Bytes}
    (hr : fs.read path = .data b) (hr' : fs'.read path' = .data b) (hb : b ≠ []) (f : Nat) :
    analyse env fs o f path = analyse env fs' o f path' := by
  unfold analyse analyseTry fileToMemoryMap
  rw [hr, hr']
  cases b with
  | nil => exact absurd rfl hb
  | cons x xs => rfl

/-- Two completed analyses of the same bytes give the same. -/
theorem analyse_same {env : Env} {fs fs' : FS} {fuel fuel' : Nat} {o : Options} {path path' : PyStr} {b : Bytes}
    (hr : fs.read path = .data b) (hr' : fs'.read path' = .data b) (hb : b ≠ []) {a a'}
    (h : analyse env fs o fuel path = .ok a) (h' : analyse env fs' o fuel' path' = .ok a') : a = a' := by
  have h1 := (analyse_le env fs o (Nat.le_max_left fuel fuel') path).ok h
  have h2 := (analyse_le env fs' o (Nat.le_max_right fuel fuel') path').ok h'
  rw [analyse_eq hr hr' hb, h2] at h1
  exact (Outcome.ok.inj h1).symm

/-- **C60.** Two files with the same contents, wherever they are and whatever their names and dates: the reports are
the same after the file information, if the file is not empty. The bound on the number of steps plays no role. -/
theorem C60_contents {env : Env} {me : MixEnv} {fs fs' : FS} {fuel fuel' : Nat} {o : Options} {mix : Nat}
    {path path' : PyStr} {b : Bytes} (hr : fs.read path = .data b) (hr' : fs'.read path' = .data b) (hb : b ≠ [])
    {rep rep' : Elem} (h : checkOneFile env me fs fuel o mix path = .ok rep)
    (h' : checkOneFile env me fs' fuel' o mix path' = .ok rep') :
    ∃ info info' rest, rep = .node "file" (info :: rest) ∧ rep' = .node "file" (info' :: rest) ∧
      info.tag = "fileInfo" ∧ info'.tag = "fileInfo" := by
  obtain ⟨info, a, m, h1, h2, h3, rfl⟩ := checkOneFile_ok.1 h
  obtain ⟨info', a', m', h1', h2', h3', rfl⟩ := checkOneFile_ok.1 h'
  obtain rfl := analyse_same hr hr' hb h2 h2'
  rw [h3] at h3'
  cases h3'
  exact ⟨info, info', _, rfl, rfl, fileInfo_tag h1, fileInfo_tag h1'⟩

/-- C60 (empty and unreadable files): if the files cannot be read for the same reason, or are both empty, the reports
are still the same but for file information and warnings. -/
theorem C60_unreadable {env : Env} {me : MixEnv} {fs fs' : FS} {fuel fuel' : Nat} {o : Options} {mix : Nat}
    {path path' : PyStr} (hr : fs.read path = fs'.read path')
    {rep rep' : Elem} (h : checkOneFile env me fs fuel o mix path = .ok rep)
    (h' : checkOneFile env me fs' fuel' o mix path' = .ok rep') :
    ∃ info info' rest w w', rep = .node "file" (info :: rest ++ [w]) ∧ rep' = .node "file" (info' :: rest ++ [w']) ∧
      info.tag = "fileInfo" ∧ info'.tag = "fileInfo" ∧ w.tag = "warnings" ∧ w'.tag = "warnings" := by
  obtain ⟨info, a, m, h1, h2, h3, rfl⟩ := checkOneFile_ok.1 h
  obtain ⟨info', a', m', h1', h2', h3', rfl⟩ := checkOneFile_ok.1 h'
  have hk : ∃ w, a' = { a with warnings := w } := by
    have h2 := (analyse_le env fs o (Nat.le_max_left fuel fuel') path).ok h2
    have h2' := (analyse_le env fs' o (Nat.le_max_right fuel fuel') path').ok h2'
    revert h2 h2'
    generalize max fuel fuel' = f
    unfold analyse analyseTry fileToMemoryMap
    rw [hr]
    generalize fs'.read path' = d
    intro h2 h2'
    have key : ∀ (x : Bytes) (l l' : List String)
        (_ : (match (validateRoot env o f x >>= fun n => Outcome.ok (analysisOf env n l)) with
          | .ok a => Outcome.ok a | .timeout => .timeout | .raised e => .ok (analysisFailed e)) = .ok a)
        (_ : (match (validateRoot env o f x >>= fun n => Outcome.ok (analysisOf env n l')) with
          | .ok a => Outcome.ok a | .timeout => .timeout | .raised e => .ok (analysisFailed e)) = .ok a'),
        ∃ w, a' = { a with warnings := w } := by
      intro x l l' g g'
      cases hv : validateRoot env o f x with
      | ok n => rw [hv] at g g'; cases g; cases g'; exact ⟨_, rfl⟩
      | raised e => rw [hv] at g g'; cases g; cases g'; exact ⟨_, rfl⟩
      | timeout => rw [hv] at g; cases g
    cases d with
    | error e => cases h2; cases h2'; exact ⟨_, rfl⟩
    | tooLarge gb => exact key _ _ _ h2 h2'
    | data b =>
      cases b with
      | nil => exact key _ _ _ h2 h2'
      | cons x xs => exact key _ _ _ h2 h2'
  obtain ⟨w, rfl⟩ := hk
  have hm : mixOutput me mix { a with warnings := w } = mixOutput me mix a := rfl
  rw [hm, h3] at h3'
  cases h3'
  exact ⟨info, info', [Elem.node "statusInfo"
        (Elem.leaf "success" (.str (boolStr a.success))
          :: (match a.failure with
              | some m => [Elem.leaf "failureMessage" (.str m)]
              | none => [])),
       Elem.mk "isValid" [("format", o.format.name)] (.str (boolStr a.isValid)) [],
       .node "tests" a.tests, .node "properties" a.props] ++ extensionOf o mix a m,
    .node "warnings" a.warnings, .node "warnings" w, rfl, rfl, fileInfo_tag h1, fileInfo_tag h1', rfl, rfl⟩

/-- Both reports exist for a file found at two places under two bounds. -/
example : ∃ rep rep', checkOneFile Sample.env0 Sample.me0 (Sample.fs0 Sample.jp2b) 200 (Sample.opts .jp2) 0 [97] = .ok rep ∧
    checkOneFile Sample.env0 Sample.me0 { Sample.fs0 Sample.jp2b with modified := fun _ => .ok "yesterday" } 300
      (Sample.opts .jp2) 0 [98, 99] = .ok rep' ∧ verdict rep = some (.str "True") := by
  have h1 := Sample.jp2b_report
  unfold Sample.reportOf at h1
  cases h2 : checkOneFile Sample.env0 Sample.me0 (Sample.fs0 Sample.jp2b) 200 (Sample.opts .jp2) 0 [97] with
  | ok rep =>
    rw [h2] at h1
    obtain ⟨info, a, m, g1, g2, g3, rfl⟩ := checkOneFile_ok.1 h2
    have g2' := (analyse_le Sample.env0 (Sample.fs0 Sample.jp2b) (Sample.opts .jp2) (show 200 ≤ 300 by decide) [97]).ok g2
    have g1' : ∃ i, fileInfo { Sample.fs0 Sample.jp2b with modified := fun _ => .ok "yesterday" } [98, 99] = .ok i := by
      unfold fileInfo
      simp only [Sample.fs0, Outcome.bind_ok]
      exact ⟨_, rfl⟩
    obtain ⟨i, g1'⟩ := g1'
    refine ⟨_, _, rfl, checkOneFile_ok.2 ⟨i, a, m, g1', ?_, g3, rfl⟩, ?_⟩
    · rw [← g2']
      exact analyse_eq rfl rfl (by decide) 300
    have h1 : (verdict _ == some (.str "True") && _) = true := h1
    rw [Bool.and_eq_true] at h1
    exact eq_of_beq h1.1
  | raised e => rw [h2] at h1; cases h1
  | timeout => rw [h2] at h1; cases h1

end Jpy
