import Verif.Lemmas.XmlShape
/-! # The whole output document -/

namespace Jpy
open Spec.Xml

/-- An element that the output can hold at its top. -/
structure Writable (mix : String) (e : Elem) : Prop where
  shape : Shaped mix false e
  noAttrs : e.attrs = []
  noTail : e.tail = ""
  legal : LegalText e

theorem Writable.all {mix e} (h : Writable mix e) : AllExpressible (namesOf e).qname e := allExpressible_shape h.shape h.legal
theorem Writable.decls {mix e} (h : Writable mix e) : DeclsFine (namesOf e).qname (namesOf e).decls e := declsFine_shape h.shape h.noAttrs

/-- The attributes of the root element. -/
def headAttrs : List (String × String) :=
  [("xmlns", nsString), ("xmlns:xsi", xsiString), ("xsi:schemaLocation", locSchemaString)]

/-- The same as they are read. -/
def headRead : List (List Char × List Char) := headAttrs.map fun a => (a.1.toList, a.2.toList)

theorem head_text (b) : chunkText b .head = "<?xml version='1.0' encoding='UTF-8'?>".toList ++
    '\n' :: ('<' :: "jpylyzer".toList ++ attrText escData (attrsOf String.toList headAttrs) ++ ['>', '\n']) := by
  cases b <;> decide +kernel

theorem noCR_head (b) : '\r' ∉ chunkText b .head := by
  cases b <;> decide +kernel

theorem head_norm : normAttrs spaced ([] ++ attrsOf String.toList headAttrs) = headRead := by decide +kernel

theorem headElem_expressible : AllExpressible String.toList (.mk "jpylyzer" headAttrs .none []) := by
  intro x hx
  simp only [Elem.iter, Elem.iterL, List.mem_cons, List.not_mem_nil, or_false] at hx
  subst hx
  refine ⟨by decide +kernel, ?_, by decide +kernel, (fun s hs => nomatch hs), rfl⟩
  have : ∀ a ∈ headAttrs, isName a.1.toList = true ∧ a.2.toList.all isChar = true := by decide +kernel
  exact this

/-- What the reader has read after the fixed start of the output. -/
theorem run_head (ws : List Char) :
    run ⟨.content, [], [], []⟩ ('\n' :: ('<' :: "jpylyzer".toList ++ attrText escData (attrsOf String.toList headAttrs) ++ ['>', '\n']) ++ ws) =
      run ⟨.content, ['\n'], [], [("jpylyzer".toList, headRead, [.text ['\n']])]⟩ ws := by
  have h := run_start readsBack_escData headElem_expressible headElem_expressible.noDecls (w := '>') (.inr (.inl rfl)) ('\n' :: ws)
    ['\n'] [] []
  rw [head_norm, List.nil_append] at h
  rw [List.cons_append, run_cons (s' := ⟨.content, ['\n'], [], []⟩) (by simp only [step]; rfl), List.append_assoc]
  show run _ ('<' :: "jpylyzer".toList ++ attrText escData (attrsOf String.toList headAttrs) ++ ('>' :: '\n' :: ws)) = _
  rw [h, run_cons (s' := ⟨.content, [], [], [("jpylyzer".toList, headRead, [.text ['\n']])]⟩) (by simp only [step]; rfl),
    run_cons (s' := ⟨.content, ['\n'], [], [("jpylyzer".toList, headRead, [.text ['\n']])]⟩) (by simp only [step]; rfl)]

theorem afterDecl_head (ws) : afterDecl ("<?xml version='1.0' encoding='UTF-8'?>".toList ++ ws) = some ws := by
  rfl

/-- Reading a document that starts as the output does and ends with the end tag of the root. -/
theorem read_frame {b : Bool} {body : List Char} (hb : body.head? ≠ some '\n') {u here}
    (h : run ⟨.content, ['\n'], [], [("jpylyzer".toList, headRead, [.text ['\n']])]⟩ (lineEnds (body ++ "</jpylyzer>\n".toList)) =
      run ⟨.content, u, here, [("jpylyzer".toList, headRead, [.text ['\n']])]⟩ "</jpylyzer>\n".toList) :
    Spec.Xml.read (chunkText b .head ++ body ++ "</jpylyzer>\n".toList) =
      some (.elem "jpylyzer".toList headRead (withText u here).reverse) := by
  unfold Spec.Xml.read
  rw [List.append_assoc, lineEnds_noCR (noCR_head b), head_text]
  have hw : withoutDecl ("<?xml version='1.0' encoding='UTF-8'?>".toList ++
      '\n' :: ('<' :: "jpylyzer".toList ++ attrText escData (attrsOf String.toList headAttrs) ++ ['>', '\n']) ++
        lineEnds (body ++ "</jpylyzer>\n".toList)) =
      some ('\n' :: ('<' :: "jpylyzer".toList ++ attrText escData (attrsOf String.toList headAttrs) ++ ['>', '\n']) ++
        lineEnds (body ++ "</jpylyzer>\n".toList)) := by
    unfold withoutDecl
    rw [List.append_assoc, if_pos (by rfl), afterDecl_head]
  rw [hw]
  simp only [Option.bind_eq_bind, Option.bind_some]
  rw [run_head, h]
  have he := run_end (n := "jpylyzer".toList) (by decide +kernel) headRead u here [.text ['\n']] []
  rw [show ("</jpylyzer>\n".toList : List Char) = ("</".toList ++ "jpylyzer".toList ++ ['>']) ++ ['\n'] from rfl, run_then he,
    run_cons (s' := ⟨.content, ['\n'], [.elem "jpylyzer".toList headRead (withText u here).reverse, .text ['\n']], []⟩)
      (by simp only [step]; rfl), run_nil]
  rfl

/-! ## Without layout -/

theorem elementText_compact (e) : elementText true e = etText (namesOf e).qname (namesOf e).decls e := rfl

/-- An element as it is read without layout, names as written. -/
def readCompact (e : Elem) : Xml := docOf (namesOf e).qname lineEnds id (namesOf e).decls e

theorem lineEnds_compact {mix b} (hb : b.head? ≠ some '\n') : ∀ es : List Elem, (∀ e ∈ es, Writable mix e) →
    (es.flatMap (elementText true) ++ b).head? ≠ some '\n' ∧
    lineEnds (es.flatMap (elementText true) ++ b) =
      (es.flatMap fun e => etText (namesOf e).qname (namesOf e).decls (mapE lineEnds id e)) ++ lineEnds b
  | [], _ => ⟨hb, rfl⟩
  | e :: es, h => by
    have he := h e (List.mem_cons_self ..)
    have ih := lineEnds_compact hb es fun x hx => h x (List.mem_cons_of_mem _ hx)
    rw [List.flatMap_cons, List.append_assoc, elementText_compact]
    constructor
    · rw [List.head?_append, etText_head]; simp
    · rw [lineEnds_append ih.1, ih.2, lineEnds_etText _ _ e he.all he.decls, List.flatMap_cons, List.append_assoc]

theorem expressible_ends {mix e} (h : Writable mix e) : AllExpressible (namesOf e).qname (mapE lineEnds id e) :=
  h.all.mapE lineEnds_chars (fun _ h => h)

theorem Writable.tail {mix e} (h : Writable mix e) (f g) (hf : f [] = []) : (mapE f g e).tail = "" := by
  rw [tail_mapE, h.noTail]
  show String.ofList (f []) = ""
  rw [hf]

theorem run_compact {mix} : ∀ es : List Elem, (∀ e ∈ es, Writable mix e) → ∀ here st,
    run ⟨.content, [], here, st⟩ (es.flatMap fun e => etText (namesOf e).qname (namesOf e).decls (mapE lineEnds id e)) =
      some ⟨.content, [], (es.map readCompact).reverse ++ here, st⟩
  | [], _, _, _ => rfl
  | e :: es, h, here, st => by
    have he := h e (List.mem_cons_self ..)
    rw [List.flatMap_cons, run_then (run_etText _ _ _ (expressible_ends he) (by
        have := he.decls.norm (g := id) (fun _ h => h) lineEnds id
        rwa [normAttrs_id] at this) _ _ _ (.inr (he.tail _ _ rfl)))]
    rw [docOf_mapE lineEnds_nil_iff, he.tail _ _ rfl]
    show run ⟨.content, [], readCompact e :: here, st⟩ _ = _
    rw [run_compact es (fun x hx => h x (List.mem_cons_of_mem _ hx))]
    simp

theorem run_compact_first {mix} {es : List Elem} (hne : es ≠ []) (h : ∀ e ∈ es, Writable mix e) (u here st) :
    run ⟨.content, u, here, st⟩ (es.flatMap fun e => etText (namesOf e).qname (namesOf e).decls (mapE lineEnds id e)) =
      some ⟨.content, [], (es.map readCompact).reverse ++ withText u here, st⟩ := by
  match es with
  | [] => exact absurd rfl hne
  | e :: es =>
    have he := h e (List.mem_cons_self ..)
    rw [List.flatMap_cons, run_then (run_etText _ _ _ (expressible_ends he) (by
        have := he.decls.norm (g := id) (fun _ h => h) lineEnds id
        rwa [normAttrs_id] at this) _ _ _ (.inr (he.tail _ _ rfl)))]
    rw [docOf_mapE lineEnds_nil_iff, he.tail _ _ rfl]
    show run ⟨.content, [], readCompact e :: withText u here, st⟩ _ = _
    rw [run_compact es (fun x hx => h x (List.mem_cons_of_mem _ hx))]
    simp

theorem read_compact {mix} {es : List Elem} (hne : es ≠ []) (h : ∀ e ∈ es, Writable mix e) :
    Spec.Xml.read (chunkText true .head ++ es.flatMap (elementText true) ++ "</jpylyzer>\n".toList) =
      some (.elem "jpylyzer".toList headRead (.text ['\n'] :: es.map readCompact)) := by
  have hl := lineEnds_compact (b := "</jpylyzer>\n".toList) (by decide) es h
  have hh : (es.flatMap (elementText true)).head? ≠ some '\n' := by
    have := (lineEnds_compact (b := []) (by decide) es h).1
    rwa [List.append_nil] at this
  rw [read_frame (u := []) (here := (es.map readCompact).reverse ++ [.text ['\n']]) hh]
  · simp [withText]
  · rw [hl.2, run_then (run_compact_first hne h ..), lineEnds_same (by decide)]
    rfl

/-! ## Names -/

/-- The namespaces declared on the root element. -/
theorem declared_head : declared headRead = [([], reportSpace), ("xsi".toList, xsiSpace)] := by decide +kernel

theorem resolveL_docs {mix f g} (hg : Stable g mix) {sc} (hsc : sc.lookup [] = some reportSpace) :
    ∀ es : List Elem, (∀ e ∈ es, Writable mix e) →
    resolveL sc (es.map fun e => docOf (namesOf e).qname f g (namesOf e).decls e) = some (reportedL mix.toList f g es)
  | [], _ => rfl
  | e :: es, h => by
    have he := h e (List.mem_cons_self ..)
    rw [List.map_cons, resolveL, resolve_outermost hg he.shape he.noAttrs hsc,
      resolveL_docs hg hsc es fun x hx => h x (List.mem_cons_of_mem _ hx), reportedL, he.noTail]
    rfl

theorem resolve_document {mix f g} (hg : Stable g mix) {es : List Elem} (h : ∀ e ∈ es, Writable mix e) {layout : List Xml}
    (hl : ∀ sc, resolveL sc layout = some layout) :
    resolve [] (.elem "jpylyzer".toList headRead (layout ++ es.map fun e => docOf (namesOf e).qname f g (namesOf e).decls e)) =
      some (document layout mix.toList f g es) := by
  rw [resolve, declared_head, resolveL_append, hl, List.append_nil, resolveL_docs hg (by rfl) es h]
  have e1 : elemName [([], reportSpace), ("xsi".toList, xsiSpace)] "jpylyzer".toList = some (clark reportSpace "jpylyzer".toList) := by
    decide +kernel
  have e2 : resolveAttrs [([], reportSpace), ("xsi".toList, xsiSpace)] headRead = some
      [(clark xsiSpace "schemaLocation".toList,
      ("http://openpreservation.org/ns/jpylyzer/v2/ " ++
        "http://jpylyzer.openpreservation.org/jpylyzer-v-2-2.xsd").toList)] := by decide +kernel
  rw [e1, e2]
  rfl

theorem parse_compact {mix} {es : List Elem} (hne : es ≠ []) (hm : mix.toList ≠ []) (h : ∀ e ∈ es, Writable mix e) :
    parse (chunkText true .head ++ es.flatMap (elementText true) ++ "</jpylyzer>\n".toList) =
      some (document [.text ['\n']] mix.toList lineEnds id es) := by
  unfold parse
  rw [read_compact hne h]
  exact resolve_document (layout := [.text ['\n']]) (f := lineEnds) (g := id) ⟨rfl, rfl, hm⟩ h (fun _ => rfl)

/-! ## With layout -/

theorem elementText_pretty (e) : elementText false e = prettyText (namesOf e).qname (namesOf e).decls [] e := rfl

theorem lineEnds_pretty {mix b} (hb : b.head? ≠ some '\n') : ∀ es : List Elem, (∀ e ∈ es, Writable mix e) →
    (es.flatMap (elementText false) ++ b).head? ≠ some '\n' ∧
    lineEnds (es.flatMap (elementText false) ++ b) =
      (es.flatMap fun e => prettyText (namesOf e).qname (normAttrs lineEnds (namesOf e).decls) [] (mapE lineEnds lineEnds e)) ++ lineEnds b
  | [], _ => ⟨hb, rfl⟩
  | e :: es, h => by
    have he := h e (List.mem_cons_self ..)
    have ih := lineEnds_pretty hb es fun x hx => h x (List.mem_cons_of_mem _ hx)
    rw [List.flatMap_cons, List.append_assoc, elementText_pretty]
    constructor
    · have := pretty_head (ind := []) rfl (namesOf e).qname (namesOf e).decls e
      intro e'
      rw [List.head?_append] at e'
      cases hh : (prettyText (namesOf e).qname (namesOf e).decls [] e).head? with
      | none =>
        obtain ⟨t, a, x, c⟩ := e
        rw [prettyText.eq_def] at hh
        simp at hh
      | some y =>
        rw [hh] at e' this
        exact this e'
    · rw [lineEnds_prettyText _ _ rfl e he.all he.decls, ih.2, List.flatMap_cons, List.append_assoc]

/-- An element as it is read up to layout, names as written. -/
def readPretty (e : Elem) : Xml := docOf (namesOf e).qname lineEnds (spaced ∘ lineEnds) (namesOf e).decls e

theorem run_pretty {mix} : ∀ es : List Elem, (∀ e ∈ es, Writable mix e) → ∀ u here st, u.all isSpace = true →
    ∃ u' here', run ⟨.content, u, here, st⟩
        (es.flatMap fun e => prettyText (namesOf e).qname (normAttrs lineEnds (namesOf e).decls) [] (mapE lineEnds lineEnds e)) =
        some ⟨.content, u', here', st⟩ ∧ u'.all isSpace = true ∧
      layoutFreeL here'.reverse = layoutFreeL here.reverse ++ es.map (fun e => layoutFree (readPretty e)) ∧
      (es ≠ [] ∨ here.any isElem = true → here'.any isElem = true)
  | [], _, u, here, st, hu => ⟨u, here, rfl, hu, by simp, by simp⟩
  | e :: es, h, u, here, st, hu => by
    have he := h e (List.mem_cons_self ..)
    obtain ⟨X, w, w', h1, h2, h3, hw, hw'⟩ := run_prettyText (namesOf e).qname (normAttrs lineEnds (namesOf e).decls) (mapE lineEnds lineEnds e)
      (he.all.mapE lineEnds_chars lineEnds_chars) (he.decls.norm lineEnds_chars lineEnds lineEnds) (ind := []) rfl u here st (.inr (he.tail _ _ rfl))
    rw [he.tail _ _ rfl] at h1
    rw [decls_norm he.shape, docOf_mapE lineEnds_nil_iff] at h3
    have e1 : lineEnds ∘ lineEnds = lineEnds := funext lineEnds_idem
    rw [e1] at h3
    obtain ⟨u', here', g1, g2, g3, g4⟩ := run_pretty es (fun x hx => h x (List.mem_cons_of_mem _ hx))
      (w ++ lineEnds "".toList ++ w').reverse (X :: withText u here) st (by
        rw [List.all_reverse, List.all_append, List.all_append, hw, hw']; rfl)
    refine ⟨u', here', ?_, g2, ?_, fun _ => g4 (.inr (by rw [List.any_cons, h2]; rfl))⟩
    · rw [List.flatMap_cons, run_then h1]
      exact g1
    · rw [g3, List.reverse_cons, layoutFreeL_append, layoutFreeL_elem h2, layoutFreeL_blank hu, List.map_cons, h3]
      simp [readPretty, layoutFreeL]

theorem isElem_docOf (q f g d e) : isElem (docOf q f g d e) = true := by cases e; rfl

theorem layoutFreeL_elems {xs : List Xml} (h : ∀ x ∈ xs, isElem x = true) : layoutFreeL xs = xs.map layoutFree := by
  induction xs with
  | nil => rfl
  | cons x xs ih =>
    rw [layoutFreeL_elem (h x (List.mem_cons_self ..)), ih fun y hy => h y (List.mem_cons_of_mem _ hy)]; rfl

theorem parse_pretty {mix} {es : List Elem} (hne : es ≠ []) (hm : mix.toList ≠ []) (hg : spaced (lineEnds mix.toList) = mix.toList)
    (h : ∀ e ∈ es, Writable mix e) :
    ∃ x, parse (chunkText false .head ++ es.flatMap (elementText false) ++ "</jpylyzer>\n".toList) = some x ∧
      layoutFree x = layoutFree (document [] mix.toList lineEnds (spaced ∘ lineEnds) es) := by
  obtain ⟨u', here', g1, g2, g3, g4⟩ := run_pretty es h ['\n'] [] [("jpylyzer".toList, headRead, [.text ['\n']])] rfl
  have hl := lineEnds_pretty (b := "</jpylyzer>\n".toList) (by decide) es h
  have hh : (es.flatMap (elementText false)).head? ≠ some '\n' := by
    have := (lineEnds_pretty (b := []) (by decide) es h).1
    rwa [List.append_nil] at this
  unfold parse
  rw [read_frame (u := u') (here := here') hh (by rw [hl.2, run_then g1, lineEnds_same (by decide)])]
  have hlay : layoutFree (.elem "jpylyzer".toList headRead (withText u' here').reverse) =
      layoutFree (.elem "jpylyzer".toList headRead ([] ++ es.map readPretty)) := by
    have a1 : (withText u' here').reverse.any isElem = true := by
      rw [List.any_reverse]
      unfold withText
      split
      · exact g4 (.inl hne)
      · rw [List.any_cons, g4 (.inl hne), Bool.or_true]
    have a2 : ([] ++ es.map readPretty).any isElem = true := by
      cases es with
      | nil => exact absurd rfl hne
      | cons e es =>
        rw [List.nil_append, List.map_cons, List.any_cons, readPretty, isElem_docOf]; rfl
    rw [layoutFree_node a1, layoutFree_node a2, layoutFreeL_blank g2, g3, List.nil_append, layoutFreeL_elems (xs := es.map readPretty)]
    · rw [List.map_map]
      rfl
    · intro x hx
      obtain ⟨e, -, rfl⟩ := List.mem_map.1 hx
      exact isElem_docOf ..
  have hr := resolve_document (layout := []) (f := lineEnds) (g := spaced ∘ lineEnds) ⟨hg, by decide +kernel, hm⟩ h (fun _ => rfl)
  have key := resolve_layoutFree (.elem "jpylyzer".toList headRead (withText u' here').reverse) []
  rw [hlay, resolve_layoutFree] at key
  have : resolve [] (.elem "jpylyzer".toList headRead ([] ++ es.map readPretty)) =
    some (document [] mix.toList lineEnds (spaced ∘ lineEnds) es) := hr
  rw [this] at key
  cases hx : resolve [] (.elem "jpylyzer".toList headRead (withText u' here').reverse) with
  | none => rw [hx] at key; exact nomatch key
  | some x =>
    rw [hx] at key
    exact ⟨x, hx, (Option.some.inj key).symm⟩

end Jpy
