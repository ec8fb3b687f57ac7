import Verif.Props.Output
import Verif.Lemmas.Refused
import Verif.Lemmas.Serial
/-! # C46, C51: exactly which runs write a complete document, and which documents can be read -/

namespace Jpy
open Spec hiding reported
open Spec.Xml

variable {env : Env} {me : MixEnv} {fs : FS} {fuel : Nat} {tool : String} {cfg : Config} {recurse : Bool}
  {paths existing : List PyStr}

theorem fileInfo_legal {e : Elem} {p : PyStr} {o : Options} {mix : Nat} (h : checkOneFile env me fs fuel o mix p = .ok e)
    (hl : ∀ y ∈ e.iter, ∀ s, y.text = .str s → LegalStr s) : LegalFile fs p := by
  obtain ⟨info, a, mp, h1, h2, h3, rfl⟩ := checkOneFile_ok.1 h
  have hi : ∀ y ∈ info.iter, ∀ s, y.text = .str s → LegalStr s := by
    intro y hy
    apply hl
    unfold buildReport Elem.node
    rw [Elem.iter]
    exact List.mem_cons_of_mem _ (mem_iter_list.2 ⟨info, by simp, hy⟩)
  unfold fileInfo at h1
  obtain ⟨size, -, h1⟩ := ok_of_bind h1
  obtain ⟨d, hd, h1⟩ := ok_of_bind h1
  cases h1
  have leaf : ∀ t s, Elem.leaf t (.str s) ∈ (Elem.node "fileInfo"
      [ .leaf "fileName" (.str (PyStr.toText (stripSurrogatePairs (fs.basename p)))),
        .leaf "filePath" (.str (PyStr.toText (stripSurrogatePairs (fs.abspath p)))),
        .leaf "fileSizeInBytes" (.str (toString size)),
        .leaf "fileLastModified" (.str d) ]).children → LegalStr s := by
    intro t s hm
    refine hi (.leaf t (.str s)) ?_ s rfl
    unfold Elem.node
    rw [Elem.iter]
    refine List.mem_cons_of_mem _ (mem_iter_list.2 ⟨_, hm, ?_⟩)
    unfold Elem.leaf
    rw [Elem.iter]
    exact List.mem_cons_self ..
  refine ⟨leaf "fileName" _ (by simp [Elem.node, Elem.children]), leaf "filePath" _ (by simp [Elem.node, Elem.children]), ?_⟩
  intro s hs
  rw [hs] at hd
  cases hd
  exact leaf "fileLastModified" _ (by simp [Elem.node, Elem.children])

/-- C51, `--nopretty`, exactly when: what a run that ends normally writes can be read as an XML document if and only if
the names, paths and dates of all selected files have characters of XML only. -/
theorem C51_compact_exact (hx : ParsesXml env) (he : LegalEnv env) (hm : StripsOnly me) (ht : LegalStr tool)
    (hfmt : LegalStr cfg.format.name) (hp : cfg.nopretty = true)
    (h : (checkFiles env me fs fuel tool cfg recurse paths existing).exit = .done) :
    (∃ x, parse (outputText cfg.nopretty (checkFiles env me fs fuel tool cfg recurse paths existing).out) = some x) ↔
      ∀ p ∈ existing ++ (findFiles fs recurse paths).1, LegalFile fs p := by
  constructor
  · rintro ⟨x, hr⟩ p hpf
    obtain ⟨reps, h1, -, h3⟩ := C46_done h
    rw [hp, outputText_document h1] at hr
    obtain ⟨e, hem, hc⟩ := inTurn_mem h3 hpf
    exact fileInfo_legal hc fun y hy s hs => texts_legal hr (List.mem_cons_of_mem _ hem) hy hs
  · intro hf
    obtain ⟨reps, -, hr⟩ := C51_compact_partial (fuel := fuel) hx he hm ht hfmt hf hp h
    exact ⟨_, hr⟩

/-- A report can be written unless the output is pretty-printed and contains characters that are not of XML. -/
theorem write_report {o : Options} {mix : Nat} {p : PyStr} {rep : Elem} (h : checkOneFile env me fs fuel o mix p = .ok rep) (np : Bool) :
    writeElement np rep = .ok () ↔ (np = true ∨ LegalText rep) := by
  unfold writeElement
  rw [if_pos (List.all_eq_true.2 (serial_report h))]
  cases np with
  | true => simp
  | false =>
    rw [if_neg (by decide)]
    constructor
    · intro hw
      by_cases hall : rep.iter.all parseable = true
      · exact .inr (legal_of_parseable hall)
      · rw [if_neg hall] at hw; cases hw
    · rintro (hn | hl)
      · cases hn
      · rw [if_pos]
        refine List.all_eq_true.2 fun x hx => ?_
        unfold parseable
        have e1 : xmlChar = isChar := funext isChar_of_xmlChar
        rw [e1, Bool.and_eq_true, Bool.and_eq_true]
        refine ⟨⟨?_, List.all_eq_true.2 (hl x hx).2.1⟩, (hl x hx).2.2⟩
        split
        · rename_i s hs
          exact (hl x hx).1 s hs
        · rfl

theorem write_toolInfo (ht : LegalStr tool) (np : Bool) : writeElement np (toolInfo tool) = .ok () := by
  unfold writeElement
  have : ((toolInfo tool).iter.all fun x => serialisable x.text) = true := rfl
  rw [if_pos this]
  cases np with
  | true => rfl
  | false =>
    rw [if_neg (by decide), if_pos]
    have e1 : xmlChar = isChar := funext isChar_of_xmlChar
    unfold LegalStr at ht
    simp [toolInfo, Elem.node, Elem.leaf, Elem.iter, Elem.iterL, parseable, Elem.text, Elem.attrs, e1]
    exact ⟨by simpa using ht, by decide⟩

/-- C46, exactly when: a run writes a complete document, with a report for every selected file, if and only if a file is
selected, a report can be made on every selected file, and, unless pretty-printing is switched off, the names, paths
and dates of the files have characters of XML only. -/
theorem C46_exact (hx : ParsesXml env) (he : LegalEnv env) (hm : StripsOnly me) (ht : LegalStr tool)
    (hfmt : LegalStr cfg.format.name) :
    (checkFiles env me fs fuel tool cfg recurse paths existing).exit = .done ↔
      existing ++ (findFiles fs recurse paths).1 ≠ [] ∧
      ∀ p ∈ existing ++ (findFiles fs recurse paths).1,
        (∃ rep, checkOneFile env me fs fuel cfg.options cfg.mix p = .ok rep) ∧
        (cfg.nopretty = true ∨ LegalFile fs p) := by
  constructor
  · intro h
    refine ⟨?_, ?_⟩
    · intro hn
      unfold checkFiles at h
      simp only [hn, List.isEmpty_nil, if_true] at h
      cases h
    · obtain ⟨reps, h1, -, h3⟩ := C46_done h
      intro p hp
      obtain ⟨e, hem, hc⟩ := inTurn_mem h3 hp
      refine ⟨⟨e, hc⟩, ?_⟩
      have hw : writeElement cfg.nopretty e = .ok () := by
        apply checkFiles_written (env := env) (me := me) (fs := fs) (fuel := fuel) (tool := tool) (recurse := recurse)
          (paths := paths) (existing := existing)
        rw [h1]
        simp [hem]
      rcases (write_report hc cfg.nopretty).1 hw with hn | hl
      · exact .inl hn
      · exact .inr (fileInfo_legal hc fun y hy s hs => (hl y hy).1 s hs)
  · rintro ⟨hne, hall⟩
    obtain ⟨reps, -, h2, -⟩ := C46_document_partial (env := env) (me := me) (fs := fs) (fuel := fuel) (tool := tool)
      (cfg := cfg) (recurse := recurse) (paths := paths) (existing := existing) hne (write_toolInfo ht _) (by
        intro p hp
        obtain ⟨⟨rep, hr⟩, hl⟩ := hall p hp
        refine ⟨rep, hr, (write_report hr _).2 (hl.imp id fun hl => ?_)⟩
        exact legal_report hx he hm hl (show LegalStr cfg.options.format.name from hfmt) hr)
    exact h2

/-! ## Cases -/

/-- Both sides of `C46_exact` hold for an image whose name contains markup, pretty-printed and with MIX output. -/
example : [] ++ (findFiles (fsNamed markup Sample.jp2Xml) false [[97]]).1 ≠ [] ∧
    ∀ p ∈ [] ++ (findFiles (fsNamed markup Sample.jp2Xml) false [[97]]).1,
      (∃ rep, checkOneFile env51 Sample.me0 (fsNamed markup Sample.jp2Xml) 200 (cfgOf .jp2 2 false).options 2 p = .ok rep) ∧
      ((cfgOf .jp2 2 false).nopretty = true ∨ LegalFile (fsNamed markup Sample.jp2Xml) p) :=
  (C46_exact (fuel := 200) (tool := "jpylyzer.py") (cfg := cfgOf .jp2 2 false) parses51 legal51 (fun _ h => h)
    (by unfold LegalStr; decide) (by unfold LegalStr; decide)).1
    (by decide +kernel : (runOn markup Sample.jp2Xml (cfgOf .jp2 2 false)).exit = .done)

/-- A file whose name is a control character can be reported on without pretty-printing, but the document cannot be read;
with pretty-printing the run stops before the end. -/
example : (runOn [1] [] (cfgOf .jp2 0 true)).exit = .done ∧ (runOn [1] [] (cfgOf .jp2 0 false)).exit ≠ .done ∧
    ¬ LegalFile (fsNamed [1] []) [97] :=
  ⟨by decide +kernel, by decide +kernel, fun h => absurd h.1
    (by show ¬ LegalStr (PyStr.toText (stripSurrogatePairs [1])); unfold LegalStr; decide +kernel)⟩

/-- Both sides of `C51_compact_exact` hold for the name with markup. -/
example : ∃ x, parse (outputText true (runOn markup Sample.jp2Xml (cfgOf .jp2 1 true)).out) = some x :=
  (C51_compact_exact (fuel := 200) (tool := "jpylyzer.py") (cfg := cfgOf .jp2 1 true) parses51 legal51 (fun _ h => h)
    (by unfold LegalStr; decide) (by unfold LegalStr; decide) rfl
    (by decide +kernel : (runOn markup Sample.jp2Xml (cfgOf .jp2 1 true)).exit = .done)).2 fun p _ => legalMarkup _ p

end Jpy
