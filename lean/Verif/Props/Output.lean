import Verif.Lemmas.Legal
import Verif.Props.CommandLine
import Verif.Lemmas.Walk
/-! # C51: the output is XML and says what the reports say -/

namespace Jpy
open Spec hiding reported
open Spec.Xml

theorem isChar_of_xmlChar (c : Char) : xmlChar c = isChar c := by
  unfold xmlChar isChar
  have h := c.valid
  have : c.toNat = c.val.toNat := rfl
  simp only [UInt32.isValidChar, Nat.isValidChar] at h
  by_cases h1 : c = '\t'
  · simp [h1]
  by_cases h2 : c = '\n'
  · simp [h2]
  by_cases h3 : c = '\r'
  · simp [h3]
  rw [Bool.eq_iff_iff]
  simp only [Bool.or_eq_true, Bool.and_eq_true, beq_iff_eq, bne_iff_ne, decide_eq_true_eq, ne_eq, h1, h2, h3, false_or]
  omega

theorem legal_of_parseable {e : Elem} (h : e.iter.all parseable = true) : LegalText e := by
  intro x hx
  have := List.all_eq_true.1 h x hx
  unfold parseable at this
  rw [Bool.and_eq_true, Bool.and_eq_true] at this
  have e1 : xmlChar = isChar := funext isChar_of_xmlChar
  rw [e1] at this
  refine ⟨?_, ?_, this.2⟩
  · intro s hs
    have h1 := this.1.1
    rw [hs] at h1
    exact h1
  · intro a ha
    exact List.all_eq_true.1 this.1.2 a ha

theorem legal_of_written {e : Elem} (h : writeElement false e = .ok ()) : LegalText e := by
  unfold writeElement at h
  by_cases h1 : (e.iter.all fun x => serialisable x.text) = true
  · rw [if_pos h1, if_neg (by decide)] at h
    by_cases h2 : e.iter.all parseable = true
    · exact legal_of_parseable h2
    · rw [if_neg h2] at h; cases h
  · rw [if_neg h1] at h; cases h

theorem reportFiles_written {check : PyStr → Outcome Elem} {np : Bool} : ∀ {files : List PyStr} {out : List Chunk} {x},
    reportFiles check np files = (out, x) → ∀ e, .elem e ∈ out → writeElement np e = .ok ()
  | [], out, x, h => by cases h; exact fun _ h => nomatch h
  | p :: ps, out, x, h => by
    rw [reportFiles] at h
    split at h
    · rename_i e he
      split at h
      · rename_i u hw
        generalize hr : reportFiles check np ps = r at h
        obtain ⟨out', x'⟩ := r
        simp only [Prod.mk.injEq] at h
        obtain ⟨rfl, rfl⟩ := h
        intro e' he'
        rcases List.mem_cons.1 he' with h | h
        · cases h; exact hw
        · exact reportFiles_written hr e' h
      · cases h; exact fun _ h => nomatch h
      · cases h; exact fun _ h => nomatch h
    · cases h; exact fun _ h => nomatch h
    · cases h; exact fun _ h => nomatch h

/-- Every element in the output has been written without exception. -/
theorem checkFiles_written {env : Env} {me : MixEnv} {fs : FS} {fuel : Nat} {tool : String} {cfg : Config} {recurse : Bool}
    {paths existing : List PyStr} {e : Elem}
    (h : .elem e ∈ (checkFiles env me fs fuel tool cfg recurse paths existing).out) : writeElement cfg.nopretty e = .ok () := by
  unfold checkFiles at h
  simp only at h
  split at h
  · exact nomatch h
  · split at h
    · rename_i hw
      simp only [List.cons_append, List.nil_append, List.mem_cons, List.mem_append, reduceCtorEq, false_or, Chunk.elem.injEq] at h
      rcases h with rfl | h | h
      · exact hw
      · exact reportFiles_written (x := (reportFiles (checkOneFile env me fs fuel cfg.options cfg.mix) cfg.nopretty
          (existing ++ (findFiles fs recurse paths).1)).2) rfl e h
      · split at h
        · simp at h
        · exact nomatch h
    · simp at h
    · simp at h

theorem outputText_document {np : Bool} {out : List Chunk} {tool : Elem} {reps : List Elem} (h : Document out tool reps) :
    outputText np out = chunkText np .head ++ (tool :: reps).flatMap (elementText np) ++ "</jpylyzer>\n".toList := by
  unfold Document at h
  unfold outputText
  subst h
  have : ∀ l : List Elem, (l.map Chunk.elem).flatMap (chunkText np) = l.flatMap (elementText np) := by
    intro l
    induction l with
    | nil => rfl
    | cons e es ih => rw [List.map_cons, List.flatMap_cons, List.flatMap_cons, ih]; rfl
  simp only [List.flatMap_append, List.flatMap_cons, List.flatMap_nil, List.append_nil, this, List.append_assoc]
  rfl

variable {env : Env} {me : MixEnv} {fs : FS} {fuel : Nat} {tool : String} {cfg : Config} {recurse : Bool}
  {paths existing : List PyStr}

theorem writable_all (hx : ParsesXml env) {reps : List Elem} {files : List PyStr} {o : Options} {mix : Nat}
    (h : inTurn (checkOneFile env me fs fuel o mix) files = .ok reps)
    (hl : ∀ e ∈ toolInfo tool :: reps, LegalText e) : ∀ e ∈ toolInfo tool :: reps, Writable (mixSpace mix) e := by
  intro e he
  rcases List.mem_cons.1 he with rfl | hm
  · exact ⟨shape_fromXml _ (fromXml_toolInfo _), rfl, rfl, hl _ he⟩
  · obtain ⟨p, -, hp⟩ := inTurn_mem' h hm
    refine ⟨(shape_report hx hp).1, (shape_report hx hp).2, ?_, hl e he⟩
    obtain ⟨info, a, m, h1, h2, h3, rfl⟩ := checkOneFile_ok.1 hp
    rfl

theorem mixSpace_ne (v : Nat) : (mixSpace v).toList ≠ [] := by
  unfold mixSpace; split <;> decide

theorem mixSpace_norm (v : Nat) : spaced (lineEnds (mixSpace v).toList) = (mixSpace v).toList := by
  unfold mixSpace; split <;> decide +kernel

/-- C51, pretty-printed output: what a run that ends normally writes is one XML document, and a reader finds in
it, apart from layout, exactly the tool information and the reports of the selected files, with all text between the
elements of embedded XML. Missing: white space in attributes of embedded XML becomes spaces. -/
theorem C51_pretty_partial (hx : ParsesXml env) (hp : cfg.nopretty = false)
    (h : (checkFiles env me fs fuel tool cfg recurse paths existing).exit = .done) :
    ∃ reps x, inTurn (checkOneFile env me fs fuel cfg.options cfg.mix) (existing ++ (findFiles fs recurse paths).1) = .ok reps ∧
      parse (outputText cfg.nopretty (checkFiles env me fs fuel tool cfg recurse paths existing).out) = some x ∧
      layoutFree x = layoutFree (document [] (mixSpace cfg.mix).toList lineEnds (spaced ∘ lineEnds) (toolInfo tool :: reps)) := by
  obtain ⟨reps, h1, -, h3⟩ := C46_done h
  have hl : ∀ e ∈ toolInfo tool :: reps, LegalText e := by
    intro e he
    apply legal_of_written
    rw [← hp]
    apply checkFiles_written (env := env) (me := me) (fs := fs) (fuel := fuel) (tool := tool) (recurse := recurse)
      (paths := paths) (existing := existing)
    rw [h1]
    rcases List.mem_cons.1 he with rfl | he
    · simp
    · simp [he]
  obtain ⟨x, h4, h5⟩ := parse_pretty (List.cons_ne_nil _ _) (mixSpace_ne _) (mixSpace_norm _) (writable_all hx h3 hl)
  rw [hp, outputText_document h1]
  exact ⟨reps, x, h3, h4, h5⟩

/-- If the names of the selected files have characters of XML only, so has everything that is written. -/
theorem C51_legal (hx : ParsesXml env) (he : LegalEnv env) (hm : StripsOnly me) (ht : LegalStr tool)
    (hfmt : LegalStr cfg.format.name) (hf : ∀ p ∈ existing ++ (findFiles fs recurse paths).1, LegalFile fs p) {e : Elem}
    (h : Chunk.elem e ∈ (checkFiles env me fs fuel tool cfg recurse paths existing).out) : LegalText e := by
  have key : ∀ {files : List PyStr}, (∀ p ∈ files, LegalFile fs p) → Chunk.elem e ∈
      (reportFiles (checkOneFile env me fs fuel cfg.options cfg.mix) cfg.nopretty files).1 → LegalText e := by
    intro files
    induction files with
    | nil => exact fun _ h => nomatch h
    | cons p ps ih =>
      intro hf h
      rw [reportFiles] at h
      split at h
      · rename_i rep hrep
        split at h
        · rcases List.mem_cons.1 h with h | h
          · cases h
            exact legal_report hx he hm (hf p (List.mem_cons_self ..)) hfmt hrep
          · exact ih (fun q hq => hf q (List.mem_cons_of_mem _ hq)) h
        · exact nomatch h
        · exact nomatch h
      · exact nomatch h
      · exact nomatch h
  unfold checkFiles at h
  simp only at h
  split at h
  · exact nomatch h
  · split at h
    · simp only [List.cons_append, List.nil_append, List.mem_cons, List.mem_append, reduceCtorEq, false_or, Chunk.elem.injEq] at h
      rcases h with rfl | h | h
      · exact legal_node (forall_cons (legal_s ht) (forall_cons (legal_s (legalStr_lit (by decide))) forall_nil))
      · exact key hf h
      · split at h
        · simp at h
        · exact nomatch h
    · simp at h
    · simp at h

/-- C51, `--nopretty`: what a run that ends normally writes is one XML document, and a reader finds in it exactly
the tool information and the reports of the selected files, provided that the names of the files have characters
of XML only. Missing: other file names (`C51_false`). -/
theorem C51_compact_partial (hx : ParsesXml env) (he : LegalEnv env) (hm : StripsOnly me) (ht : LegalStr tool)
    (hfmt : LegalStr cfg.format.name) (hf : ∀ p ∈ existing ++ (findFiles fs recurse paths).1, LegalFile fs p)
    (hp : cfg.nopretty = true)
    (h : (checkFiles env me fs fuel tool cfg recurse paths existing).exit = .done) :
    ∃ reps, inTurn (checkOneFile env me fs fuel cfg.options cfg.mix) (existing ++ (findFiles fs recurse paths).1) = .ok reps ∧
      parse (outputText cfg.nopretty (checkFiles env me fs fuel tool cfg recurse paths existing).out) =
        some (document [.text ['\n']] (mixSpace cfg.mix).toList lineEnds id (toolInfo tool :: reps)) := by
  obtain ⟨reps, h1, -, h3⟩ := C46_done h
  have hl : ∀ e ∈ toolInfo tool :: reps, LegalText e := by
    intro e hm'
    apply C51_legal hx he hm ht hfmt hf (fuel := fuel)
    rw [h1]
    rcases List.mem_cons.1 hm' with rfl | hm'
    · simp
    · simp [hm']
  rw [hp, outputText_document h1]
  exact ⟨reps, h3, parse_compact (List.cons_ne_nil _ _) (mixSpace_ne _) (writable_all hx h3 hl)⟩

/-! ## Looking up verdicts -/

/-- Is this the element with this name? -/
def isNamed (t : String) : Xml → Bool
  | .elem n _ _ => n == clark reportSpace t.toList
  | .text _ => false

theorem childrenNamed_eq (t n as c) : childrenNamed t (.elem n as c) = c.filter (isNamed t) := by
  unfold childrenNamed
  congr 1

theorem isNamed_layoutFree (t x) : isNamed t (layoutFree x) = isNamed t x := by
  cases x <;> rfl

theorem filter_layoutFreeL (t) : ∀ c : List Xml, (layoutFreeL c).filter (isNamed t) = (c.filter (isNamed t)).map layoutFree
  | [] => rfl
  | .text s :: xs => by
    rw [layoutFreeL]
    split
    · rw [filter_layoutFreeL t xs]; rfl
    · rw [List.filter_cons, if_neg (by simp [isNamed]), filter_layoutFreeL t xs]; rfl
  | .elem n as c :: xs => by
    rw [layoutFreeL, List.filter_cons, List.filter_cons, isNamed_layoutFree, filter_layoutFreeL t xs]
    split <;> rfl

theorem filter_texts (t) : ∀ c : List Xml, c.any isElem = false → c.filter (isNamed t) = []
  | [], _ => rfl
  | .text s :: xs, h => by
    rw [List.filter_cons, if_neg (by simp [isNamed])]
    exact filter_texts t xs (by simpa [isElem] using h)
  | .elem n as c :: xs, h => by simp [isElem] at h

theorem childrenNamed_layoutFree (t x) : childrenNamed t (layoutFree x) = (childrenNamed t x).map layoutFree := by
  cases x with
  | text s => rfl
  | elem n as c =>
    rw [layoutFree, childrenNamed_eq, childrenNamed_eq]
    split
    · exact filter_layoutFreeL t c
    · rename_i h
      rw [filter_texts t c (by simpa using h)]
      rfl

theorem layoutFreeL_any : ∀ c : List Xml, (layoutFreeL c).any isElem = c.any isElem
  | [] => rfl
  | .text s :: xs => by
    rw [layoutFreeL]
    split
    · rw [layoutFreeL_any xs]; rfl
    · rw [List.any_cons, layoutFreeL_any xs]; rfl
  | .elem n as c :: xs => by
    rw [layoutFreeL, List.any_cons, layoutFreeL_any xs]; rfl

theorem layoutFree_text {x n as v} (h : layoutFree x = .elem n as [.text v]) : x = .elem n as [.text v] := by
  cases x with
  | text s => cases h
  | elem m bs c =>
    rw [layoutFree] at h
    split at h
    · rename_i hc
      rw [← layoutFreeL_any] at hc
      injection h with h1 h2 h3
      rw [h3] at hc
      cases hc
    · exact h

theorem filter_reportedL (t m f g) : ∀ es : List Elem, (reportedL m f g es).filter (isNamed t) =
    (es.filter fun e => nameOf m e.tag.toList == clark reportSpace t.toList).map (reported m f g)
  | [] => rfl
  | .mk s a x c l :: es => by
    have : isNamed t (reported m f g (.mk s a x c l)) = (nameOf m (Elem.mk s a x c l).tag.toList == clark reportSpace t.toList) := rfl
    have h2 : (textNode f (.str l)).filter (isNamed t) = [] := by
      rw [textNode_tail]
      split <;> rfl
    rw [reportedL, List.cons_append, List.filter_cons, List.filter_append, Elem.tail_mk, h2, List.nil_append, List.filter_cons, this,
      filter_reportedL t m f g es]
    split
    · rw [List.map_cons]
    · rfl

theorem named_eq (m) {s : String} (h : splitColon s.toList = none ∧ s.toList.head? ≠ some '{') (t : String) :
    (nameOf m s.toList == clark reportSpace t.toList) = (s == t) := by
  have e : nameOf m s.toList = clark reportSpace s.toList := by
    unfold nameOf
    split
    · rename_i h'; rw [h'] at h; exact absurd rfl h.2
    · rw [h.1]
  rw [e, Bool.eq_iff_iff, beq_iff_eq, beq_iff_eq]
  unfold clark
  constructor
  · intro h
    apply String.ext
    have := List.append_cancel_left (as := '{' :: reportSpace) h
    exact (List.cons.inj this).2
  · rintro rfl; rfl

/-- The element with the verdict. -/
theorem verdict_read {env : Env} {me : MixEnv} {fs : FS} {fuel : Nat} {o : Options} {mix : Nat} {path : PyStr} {rep : Elem}
    (h : checkOneFile env me fs fuel o mix path = .ok rep) (m : List Char) (g : List Char → List Char) :
    isNamed "file" (reported m lineEnds g rep) = true ∧
    ∃ (v : String) (n : _) (as : _), verdict rep = some (.str v) ∧
      childrenNamed "isValid" (reported m lineEnds g rep) = [.elem n as [.text v.toList]] := by
  obtain ⟨info, a, mp, h1, h2, h3, rfl⟩ := checkOneFile_ok.1 h
  have hi := fileInfo_tag h1
  refine ⟨?_, boolStr a.isValid, clark reportSpace "isValid".toList, [("format".toList, g o.format.name.toList)], ?_, ?_⟩
  · exact named_eq m (s := "file") (by decide) "file"
  · unfold verdict; rw [(report_parts hi).2.2.1]; rfl
  · unfold buildReport Elem.node
    have hn : ∀ s ∈ ["fileInfo", "statusInfo", "tests", "properties", "propertiesExtension", "warnings"],
        (nameOf m s.toList == clark reportSpace "isValid".toList) = false := by
      have : ∀ s ∈ ["fileInfo", "statusInfo", "tests", "properties", "propertiesExtension", "warnings"],
        (splitColon s.toList = none ∧ s.toList.head? ≠ some '{') ∧ (s == "isValid") = false := by decide
      intro s hs
      rw [named_eq m (this s hs).1]
      exact (this s hs).2
    have hv : (nameOf m "isValid".toList == clark reportSpace "isValid".toList) = true :=
      named_eq m (s := "isValid") (by decide) "isValid"
    have hext : (extensionOf o mix a mp).filter (fun e => nameOf m e.tag.toList == clark reportSpace "isValid".toList) = [] := by
      unfold extensionOf
      split
      · rw [List.filter_cons, if_neg]
        · rfl
        · rw [Bool.not_eq_true]; exact hn "propertiesExtension" (by decide)
      · rfl
    have h0 : ∀ (n as v c), childrenNamed "isValid" (reported m lineEnds g (.mk n as v c)) = (reportedL m lineEnds g c).filter (isNamed "isValid") := by
      intro n as v c
      rw [reported, childrenNamed_eq, List.filter_append]
      have : (textNode lineEnds v).filter (isNamed "isValid") = [] := by
        unfold textNode
        split
        · split
          · rfl
          · rfl
        · rfl
      rw [this, List.nil_append]
    rw [h0, filter_reportedL, List.filter_append, List.filter_append, hext]
    obtain ⟨t, ia, ix, ic⟩ := info
    have hi : t = "fileInfo" := hi
    subst hi
    simp only [List.filter_cons, Elem.tag, hv, hn "fileInfo" (by decide), hn "statusInfo" (by decide), hn "tests" (by decide),
      hn "properties" (by decide), hn "warnings" (by decide), if_true, List.filter_nil, List.append_nil]
    simp only [Bool.false_eq_true, if_false]
    rw [List.append_nil, List.map_cons, List.map_nil, reported, reportedL, show nameOf m "isValid".toList = clark reportSpace "isValid".toList from beq_iff_eq.1 hv]
    have e1 : textNode lineEnds (.str (boolStr a.isValid)) = [.text (boolStr a.isValid).toList] := by
      have e2 : lineEnds (boolStr a.isValid).toList = (boolStr a.isValid).toList := by
        cases a.isValid <;> decide
      show (if (boolStr a.isValid).toList = [] then [] else [Xml.text (lineEnds (boolStr a.isValid).toList)]) = _
      rw [if_neg (by cases a.isValid <;> decide), e2]
    have e3 : (declares "format".toList).isNone = true := by decide
    have e4 : attrNameOf "format".toList = "format".toList := by decide
    rw [e1, List.append_nil, List.filter_cons, if_pos e3, List.filter_nil, List.map_cons, List.map_nil, e4]

/-- A reader that looks up the verdicts in a document finds the verdicts of the reports, one for each file. -/
theorem verdicts_read {env : Env} {me : MixEnv} {fs : FS} {fuel : Nat} {o : Options} {mix : Nat} {files : List PyStr} {reps : List Elem}
    (h : inTurn (checkOneFile env me fs fuel o mix) files = .ok reps) (tool : String) (m : List Char) (g : List Char → List Char)
    (layout : List Xml) (hl : layout.any isElem = false) {x : Xml}
    (hx : layoutFree x = layoutFree (document layout m lineEnds g (toolInfo tool :: reps))) :
    ∃ vs : List String, reps.map verdict = vs.map (fun v => some (.str v)) ∧ verdicts x = vs.map fun v => [v.toList] := by
  have h1 : (childrenNamed "file" x).map layoutFree = (reps.map (reported m lineEnds g)).map layoutFree := by
    rw [← childrenNamed_layoutFree, hx, childrenNamed_layoutFree]
    unfold document
    rw [childrenNamed_eq, List.filter_append, filter_texts _ _ hl, List.nil_append, filter_reportedL, List.filter_cons, if_neg]
    · congr 2
      apply List.filter_eq_self.2
      intro e he
      obtain ⟨p, -, hp⟩ := inTurn_mem' h he
      have := (verdict_read hp m g).1
      obtain ⟨s, a, x, c, l⟩ := e
      exact this
    · show ¬ (nameOf m "toolInfo".toList == clark reportSpace "file".toList) = true
      rw [named_eq m (by decide)]
      decide
  have h2 : ∀ e ∈ reps, ∃ p, checkOneFile env me fs fuel o mix p = .ok e := fun e he => by
    obtain ⟨p, -, hp⟩ := inTurn_mem' h he
    exact ⟨p, hp⟩
  unfold verdicts
  generalize childrenNamed "file" x = fs' at h1
  clear h hx
  induction reps generalizing fs' with
  | nil =>
    cases fs' with
    | nil => exact ⟨[], rfl, rfl⟩
    | cons y ys => cases h1
  | cons e es ih =>
    rw [List.map_cons] at h1
    cases fs' with
    | nil => cases h1
    | cons y ys =>
      rw [List.map_cons, List.map_cons, List.cons.injEq] at h1
      obtain ⟨vs, g1, g2⟩ := ih (fun e he => h2 e (List.mem_cons_of_mem _ he)) ys h1.2
      obtain ⟨p, hp⟩ := h2 e (List.mem_cons_self ..)
      obtain ⟨-, v, n, as, g3, g4⟩ := verdict_read hp m g
      refine ⟨v :: vs, by rw [List.map_cons, List.map_cons, g1, g3], ?_⟩
      rw [List.map_cons, List.map_cons, g2]
      congr 1
      have : (childrenNamed "isValid" y).map layoutFree = [.elem n as [.text v.toList]] := by
        rw [← childrenNamed_layoutFree, h1.1, childrenNamed_layoutFree, g4]
        rfl
      generalize childrenNamed "isValid" y = ys at this
      cases ys with
      | nil => cases this
      | cons z zs =>
        rw [List.map_cons, List.cons.injEq] at this
        cases zs with
        | cons _ _ => cases this.2
        | nil =>
          rw [layoutFree_text this.1]
          simp [dataOf]

/-- C51: whoever looks up the verdicts in the written document finds those of the reports, one for each selected
file and in their order, whatever the file names, comments and embedded documents contain. -/
theorem C51_verdicts_pretty (hx : ParsesXml env) (hp : cfg.nopretty = false)
    (h : (checkFiles env me fs fuel tool cfg recurse paths existing).exit = .done) :
    ∃ reps x, ∃ vs : List String,
      inTurn (checkOneFile env me fs fuel cfg.options cfg.mix) (existing ++ (findFiles fs recurse paths).1) = .ok reps ∧
      parse (outputText cfg.nopretty (checkFiles env me fs fuel tool cfg recurse paths existing).out) = some x ∧
      reps.map verdict = vs.map (fun v => some (.str v)) ∧ verdicts x = vs.map fun v => [v.toList] := by
  obtain ⟨reps, x, h1, h2, h3⟩ := C51_pretty_partial hx hp h
  obtain ⟨vs, h4, h5⟩ := verdicts_read h1 tool _ _ [] rfl h3
  exact ⟨reps, x, vs, h1, h2, h4, h5⟩

/-- The same with `--nopretty` for file names of legal characters. -/
theorem C51_verdicts_compact (hx : ParsesXml env) (he : LegalEnv env) (hm : StripsOnly me) (ht : LegalStr tool)
    (hfmt : LegalStr cfg.format.name) (hf : ∀ p ∈ existing ++ (findFiles fs recurse paths).1, LegalFile fs p)
    (hp : cfg.nopretty = true)
    (h : (checkFiles env me fs fuel tool cfg recurse paths existing).exit = .done) :
    ∃ reps x, ∃ vs : List String,
      inTurn (checkOneFile env me fs fuel cfg.options cfg.mix) (existing ++ (findFiles fs recurse paths).1) = .ok reps ∧
      parse (outputText cfg.nopretty (checkFiles env me fs fuel tool cfg recurse paths existing).out) = some x ∧
      reps.map verdict = vs.map (fun v => some (.str v)) ∧ verdicts x = vs.map fun v => [v.toList] := by
  obtain ⟨reps, h1, h2⟩ := C51_compact_partial hx he hm ht hfmt hf hp h
  obtain ⟨vs, h4, h5⟩ := verdicts_read h1 tool _ _ [.text ['\n']] rfl rfl
  exact ⟨reps, _, vs, h1, h2, h4, h5⟩

/-! ## Cases -/

/-- A directory with one file, whose name is given. -/
def fsNamed (name : PyStr) (b : Bytes) : FS := { Sample.fs0 b with basename := fun _ => name, abspath := fun _ => name }

/-- A configuration. -/
def cfgOf (f : Format) (mix : Nat) (nopretty : Bool) : Config :=
  { format := f, verbose := false, packetmarkers := false, nullxml := false, mix := mix, nopretty := nopretty }

/-- Libraries: every XML box holds an element with a namespace, an attribute that needs escaping, and text before
and after a child element. -/
def env51 : Env := ⟨fun _ => some (.mk "{urn:x}a" [("k", "<v>")] (.str "t") [.mk "b" [] .none [] "u&v"]), fun c => !isChar c, fun _ => "1.0"⟩

/-- The run on that file. -/
def runOn (name : PyStr) (b : Bytes) (cfg : Config) : Run :=
  checkFiles env51 Sample.me0 (fsNamed name b) 200 "jpylyzer.py" cfg false [[97]] []

/-- A file name with markup. -/
def markup : PyStr := "</fileName><x a=\"&\">".toList.map Char.toNat

theorem parses51 : ParsesXml env51 := by
  intro b e h
  cases h
  refine fromXml_mk.2 ⟨⟨.inr ⟨"urn:x".toList, "a".toList, by decide, by decide, by decide, by decide⟩, by simp, ?_, rfl⟩, ?_⟩
  · exact forall_one ⟨.inl (by decide), by decide, by decide⟩
  · exact forall_one (fromXml_mk.2 ⟨⟨.inl (by decide), List.nodup_nil, forall_nil, by decide⟩, forall_nil⟩)

theorem legal51 : LegalEnv env51 := ⟨fun c h => by show (!isChar c) = true; rw [h]; rfl, fun _ => (by decide : "1.0".toList.all isChar = true)⟩

theorem legalMarkup (b : Bytes) (p : PyStr) : LegalFile (fsNamed markup b) p :=
  ⟨by show LegalStr (PyStr.toText (stripSurrogatePairs markup)); unfold LegalStr; decide +kernel,
    by show LegalStr (PyStr.toText (stripSurrogatePairs markup)); unfold LegalStr; decide +kernel,
    fun s h => by cases h; unfold LegalStr; decide +kernel⟩

/-- The assumptions hold for a valid image with an XML box whose name contains markup, with MIX output, with both
layouts. -/
example : ParsesXml env51 ∧ LegalEnv env51 ∧ StripsOnly Sample.me0 ∧ LegalStr "jpylyzer.py" ∧ LegalStr Format.jp2.name ∧
    (∀ p ∈ [] ++ (findFiles (fsNamed markup Sample.jp2Xml) false [[97]]).1, LegalFile (fsNamed markup Sample.jp2Xml) p) ∧
    (runOn markup Sample.jp2Xml (cfgOf .jp2 1 true)).exit = .done ∧
    (runOn markup Sample.jp2Xml (cfgOf .jp2 2 false)).exit = .done :=
  ⟨parses51, legal51, fun _ h => h, by unfold LegalStr; decide, by unfold LegalStr; decide, fun p _ => legalMarkup _ p,
    by decide +kernel, by decide +kernel⟩

/-- Text between elements: what the serialisers write for `<r><a>t<b/>u&amp;v<c>x</c></a><d/></r>`. -/
example : etText String.toList [] (.node "r" [.mk "a" [] (.str "t") [.mk "b" [] .none [] "u&v", .leaf "c" (.str "x")], .leaf "d" .none]) =
    "<r><a>t<b />u&amp;v<c>x</c></a><d /></r>".toList := by decide +kernel

example : prettyText String.toList [] []
      (.node "r" [.mk "a" [] (.str "t") [.mk "b" [] .none [] "u&v", .leaf "c" (.str "x")], .leaf "d" .none]) =
    ("<r>\n    <a>\n        t\n        <b/>\n        u&amp;v\n        <c>x</c>\n    </a>\n" ++
      "    <d/>\n</r>\n").toList := by decide +kernel

/-- What a reader finds for that image. -/
example : ((parse (outputText false (runOn markup Sample.jp2Xml (cfgOf .jp2 2 false)).out)).map verdicts) =
    some [["True".toList]] := by decide +kernel

/-- Fails for control characters in file names: with `--nopretty` they are written as they are, and no reader of
XML accepts the document. -/
theorem C51_false : ∃ name, (runOn name [] (cfgOf .jp2 0 true)).exit = .done ∧
    parse (outputText true (runOn name [] (cfgOf .jp2 0 true)).out) = none := by
  refine ⟨[1], by decide +kernel, ?_⟩
  have : (parse (outputText true (runOn [1] [] (cfgOf .jp2 0 true)).out)).isNone = true := by decide +kernel
  exact Option.isNone_iff_eq_none.1 this

end Jpy
