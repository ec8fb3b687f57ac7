import Verif.Lemmas.Xml
/-! # Line ends of the output document

Reading a document starts with the normalisation of line ends. Here it is moved from the whole document to
the texts and attribute values in it. -/

namespace Jpy
open Spec.Xml

theorem lineEnds_crlf (cs) : lineEnds ('\r' :: '\n' :: cs) = '\n' :: lineEnds cs := by rw [lineEnds]

theorem lineEnds_cr {cs : List Char} (h : cs.head? ≠ some '\n') : lineEnds ('\r' :: cs) = '\n' :: lineEnds cs := by
  cases cs with
  | nil => rfl
  | cons d ds => rw [lineEnds]; intro ds' e; cases e; exact h rfl

theorem lineEnds_append {b : List Char} (hb : b.head? ≠ some '\n') :
    ∀ a : List Char, lineEnds (a ++ b) = lineEnds a ++ lineEnds b
  | [] => rfl
  | c :: cs => by
    by_cases hc : c = '\r'
    · subst hc
      match cs with
      | [] =>
        rw [List.singleton_append, lineEnds_cr hb]; rfl
      | d :: ds =>
        by_cases hd : d = '\n'
        · subst hd
          rw [List.cons_append, List.cons_append, lineEnds_crlf, lineEnds_crlf, lineEnds_append hb ds]; rfl
        · rw [List.cons_append, lineEnds_cr (by simpa using hd), lineEnds_cr (by simpa using hd), lineEnds_append hb (d :: ds)]; rfl
    · rw [List.cons_append, lineEnds_cons hc, lineEnds_cons hc, lineEnds_append hb cs]; rfl

theorem lineEnds_noCR : ∀ {a : List Char}, '\r' ∉ a → ∀ b, lineEnds (a ++ b) = a ++ lineEnds b
  | [], _, _ => rfl
  | c :: cs, h, b => by
    rw [List.cons_append, lineEnds_cons (fun e => h (e ▸ List.mem_cons_self ..)),
      lineEnds_noCR (fun e => h (List.mem_cons_of_mem _ e))]; rfl

theorem lineEnds_same {a : List Char} (h : '\r' ∉ a) : lineEnds a = a := by
  have := lineEnds_noCR h []
  simpa [lineEnds] using this

theorem noCR_lineEnds : ∀ s : List Char, '\r' ∉ lineEnds s
  | [] => by simp [lineEnds]
  | c :: cs => by
    by_cases hc : c = '\r'
    · subst hc
      match cs with
      | [] => decide
      | d :: ds =>
        by_cases hd : d = '\n'
        · subst hd
          rw [lineEnds_crlf]
          have := noCR_lineEnds ds
          simp only [List.mem_cons, not_or]
          exact ⟨by decide, this⟩
        · rw [lineEnds_cr (by simpa using hd)]
          have := noCR_lineEnds (d :: ds)
          simp only [List.mem_cons, not_or]
          exact ⟨by decide, this⟩
    · rw [lineEnds_cons hc]
      have := noCR_lineEnds cs
      simp only [List.mem_cons, not_or]
      exact ⟨fun e => hc e.symm, this⟩

theorem lineEnds_idem (s : List Char) : lineEnds (lineEnds s) = lineEnds s := lineEnds_same (noCR_lineEnds s)

/-- Replacing characters one by one, line ends left alone. -/
theorem lineEnds_flatMap {esc : Char → List Char} (h1 : esc '\r' = ['\r']) (h2 : esc '\n' = ['\n'])
    (h3 : ∀ c, c ≠ '\r' → '\r' ∉ esc c) (h4 : ∀ c, c ≠ '\n' → (esc c).head? ≠ some '\n' ∧ esc c ≠ []) :
    ∀ s : List Char, lineEnds (s.flatMap esc) = (lineEnds s).flatMap esc
  | [] => rfl
  | c :: cs => by
    have hhead : ∀ d : Char, d ≠ '\n' → ∀ ds : List Char, ((d :: ds).flatMap esc).head? ≠ some '\n' := by
      intro d hd ds
      rw [List.flatMap_cons]
      obtain ⟨g1, g2⟩ := h4 d hd
      cases he : esc d with
      | nil => exact absurd he g2
      | cons x xs => rw [he] at g1; simpa using g1
    by_cases hc : c = '\r'
    · subst hc
      match cs with
      | [] => rw [List.flatMap_cons, h1]; simp [lineEnds, h2]
      | d :: ds =>
        by_cases hd : d = '\n'
        · subst hd
          rw [lineEnds_crlf, List.flatMap_cons, List.flatMap_cons, h1, h2, List.flatMap_cons, h2]
          simp only [List.singleton_append]
          rw [lineEnds_crlf, lineEnds_flatMap h1 h2 h3 h4 ds]
        · rw [lineEnds_cr (by simpa using hd), List.flatMap_cons (x := '\r'), h1, List.flatMap_cons (x := '\n'), h2]
          simp only [List.singleton_append]
          rw [lineEnds_cr (hhead d hd ds), lineEnds_flatMap h1 h2 h3 h4 (d :: ds)]
    · rw [lineEnds_cons hc, List.flatMap_cons, List.flatMap_cons, lineEnds_noCR (h3 c hc), lineEnds_flatMap h1 h2 h3 h4 cs]

theorem lineEnds_escText (s : List Char) : lineEnds (escText s) = escText (lineEnds s) := by
  refine lineEnds_flatMap (by decide) (by decide) ?_ ?_ s
  · intro c hc; repeat' split
    all_goals first | decide | simpa using fun e => hc e.symm
  · intro c hc; repeat' split
    all_goals first | decide | simpa using hc

theorem lineEnds_escData (s : List Char) : lineEnds (escData s) = escData (lineEnds s) := by
  refine lineEnds_flatMap (by decide) (by decide) ?_ ?_ s
  · intro c hc; repeat' split
    all_goals first | decide | simpa using fun e => hc e.symm
  · intro c hc; repeat' split
    all_goals first | decide | simpa using hc

theorem noCR_escAttr (s : List Char) : '\r' ∉ escAttr s := by
  unfold escAttr
  rw [List.mem_flatMap]
  rintro ⟨c, -, hc⟩
  revert hc
  repeat' split
  all_goals first | decide | (intro h; rw [List.mem_singleton] at h; exact absurd h.symm ‹_›)

/-! ## Changing the texts and attribute values of a tree -/

/-- Change a text. -/
def mapV (f : List Char → List Char) : PyVal → PyVal
  | .str s => .str (String.ofList (f s.toList))
  | v => v

mutual
/-- Change the texts and attribute values of an element and its descendants. -/
def mapE (f g : List Char → List Char) : Elem → Elem
  | .mk t a x c l => .mk t (a.map fun k => (k.1, String.ofList (g k.2.toList))) (mapV f x) (mapEL f g c)
      (String.ofList (f l.toList))
/-- The same for a list. -/
def mapEL (f g : List Char → List Char) : List Elem → List Elem
  | [] => []
  | e :: es => mapE f g e :: mapEL f g es
end

theorem tail_mapE (f g e) : (mapE f g e).tail = String.ofList (f e.tail.toList) := by cases e; rw [mapE]; rfl

theorem textOf_mapV {f : List Char → List Char} (h : f [] = []) (x : PyVal) : textOf (mapV f x) = f (textOf x) := by
  cases x <;> simp [mapV, textOf, h]

theorem attrsOf_map (q g a) : attrsOf q (a.map fun k => (k.1, String.ofList (g k.2.toList))) = normAttrs g (attrsOf q a) := by
  simp [attrsOf, normAttrs]

theorem mapEL_eq (f g es) : mapEL f g es = es.map (mapE f g) := by
  induction es with
  | nil => rfl
  | cons e es ih => rw [mapEL, ih]; rfl

mutual
theorem docOf_mapE {q f g f' g' d} (h : ∀ s, f s = [] ↔ s = []) :
    ∀ e : Elem, docOf q f' g' d (mapE f g e) = docOf q (f' ∘ f) (g' ∘ g) d e
  | .mk t a x c l => by
    rw [mapE, docOf, docOf, docsOf_mapEL h c]
    congr 2
    · simp
    · cases x <;> simp [mapV, textNode, h]
theorem docsOf_mapEL {q f g f' g'} (h : ∀ s, f s = [] ↔ s = []) :
    ∀ es : List Elem, docsOf q f' g' (mapEL f g es) = docsOf q (f' ∘ f) (g' ∘ g) es
  | [] => rfl
  | e :: es => by
    rw [mapEL, docsOf, docsOf, docOf_mapE h e, docsOf_mapEL h es, tail_mapE]
    simp [textNode, h]
end

mutual
theorem iter_mapE (f g) : ∀ e : Elem, (mapE f g e).iter = e.iter.map (mapE f g)
  | .mk t a x c l => by rw [mapE, Elem.iter, Elem.iter, iterL_mapEL f g c, List.map_cons, mapE]
theorem iterL_mapEL (f g) : ∀ es : List Elem, Elem.iterL (mapEL f g es) = (Elem.iterL es).map (mapE f g)
  | [] => rfl
  | e :: es => by rw [mapEL, Elem.iterL, Elem.iterL, iter_mapE f g e, iterL_mapEL f g es, List.map_append]
end

theorem AllExpressible.mapE {q f g e} (hf : ∀ s : List Char, s.all isChar = true → (f s).all isChar = true)
    (hg : ∀ s : List Char, s.all isChar = true → (g s).all isChar = true) (h : AllExpressible q e) :
    AllExpressible q (mapE f g e) := by
  intro x hx
  rw [iter_mapE, List.mem_map] at hx
  obtain ⟨y, hy, rfl⟩ := hx
  have := h y hy
  obtain ⟨t, a, v, c, l⟩ := y
  rw [Jpy.mapE]
  constructor
  · exact this.tag
  · intro b hb
    simp only [Elem.attrs_mk, List.mem_map] at hb
    obtain ⟨k, hk, rfl⟩ := hb
    refine ⟨(this.attrs k hk).1, ?_⟩
    simpa using hg _ (this.attrs k hk).2
  · have hd := this.distinct
    simpa [Function.comp_def] using hd
  · intro s hs
    cases v with
    | str v =>
      simp only [Elem.text_mk, mapV, PyVal.str.injEq] at hs
      subst hs
      simpa using hf _ (this.text v rfl)
    | _ => simp [mapV] at hs
  · simpa using hf _ this.tail

theorem DeclsFine.norm {q g d e} (hg : ∀ s : List Char, s.all isChar = true → (g s).all isChar = true)
    (h : DeclsFine q d e) (f g') : DeclsFine q (normAttrs g d) (Jpy.mapE f g' e) := by
  obtain ⟨t, a, x, c⟩ := e
  constructor
  · intro b hb
    simp only [normAttrs, List.mem_map] at hb
    obtain ⟨k, hk, rfl⟩ := hb
    exact ⟨(h.fine k hk).1, hg _ (h.fine k hk).2⟩
  · have := h.distinct
    simpa [normAttrs, Function.comp_def, Jpy.mapE] using this

theorem noCR_name {n : List Char} (h : isName n = true) : '\r' ∉ n := by
  intro hm
  cases n with
  | nil => exact nomatch hm
  | cons c cs =>
    rw [isName, Bool.and_eq_true] at h
    rcases List.mem_cons.1 hm with e | hm
    · rw [← e] at h; exact absurd h.1 (by decide)
    · exact absurd (List.all_eq_true.1 h.2 _ hm) (by decide)

theorem attrText_cons (esc b as) : attrText esc (b :: as) = ' ' :: b.1 ++ "=\"".toList ++ esc b.2 ++ ['"'] ++ attrText esc as := by
  rw [attrText, List.flatMap_cons]; rfl

theorem attrText_head (esc as) : (attrText esc as).head? ≠ some '\n' := by
  cases as with
  | nil => simp [attrText]
  | cons b as => rw [attrText_cons]; simp

theorem lineEnds_attrText {as : List (List Char × List Char)} (h : ∀ b ∈ as, isName b.1 = true) {b : List Char}
    : lineEnds (attrText escData as ++ b) = attrText escData (normAttrs lineEnds as) ++ lineEnds b := by
  induction as with
  | nil => rfl
  | cons k as ih =>
    have hk := noCR_name (h k (List.mem_cons_self ..))
    have hp : '\r' ∉ ' ' :: k.1 ++ "=\"".toList := by simp [hk]
    rw [attrText_cons, List.append_assoc, List.append_assoc, List.append_assoc, lineEnds_noCR hp,
      lineEnds_append (by simp), lineEnds_escData, List.singleton_append, lineEnds_cons (by decide), ih (fun b hb => h b (List.mem_cons_of_mem _ hb)),
      show normAttrs lineEnds (k :: as) = (k.1, lineEnds k.2) :: normAttrs lineEnds as from rfl, attrText_cons]
    simp

theorem noCR_attrText {as : List (List Char × List Char)} (h : ∀ b ∈ as, isName b.1 = true) : '\r' ∉ attrText escAttr as := by
  induction as with
  | nil => simp [attrText]
  | cons k as ih =>
    have hk := noCR_name (h k (List.mem_cons_self ..))
    have := ih (fun b hb => h b (List.mem_cons_of_mem _ hb))
    rw [attrText_cons]
    simp [hk, noCR_escAttr, this]

theorem attr_names {q d t a x c l} (h : AllExpressible q (.mk t a x c l)) (hd : DeclsFine q d (.mk t a x c l)) :
    ∀ b ∈ d ++ attrsOf q a, isName b.1 = true := by
  intro b hb
  rcases List.mem_append.1 hb with hb | hb
  · exact (hd.fine b hb).1
  · rw [attrsOf, List.mem_map] at hb
    obtain ⟨k, hk, rfl⟩ := hb
    exact ((h _ (iter_self _)).attrs k hk).1

theorem etText_head (q d e) : (etText q d e).head? = some '<' := by cases e; simp [etText]
theorem etTextL_head (q es) : (etTextL q es).head? ≠ some '\n' := by
  cases es with
  | nil => simp [etTextL]
  | cons e es => rw [etTextL, List.head?_append, etText_head]; simp

theorem mapEL_isEmpty (f g es) : (mapEL f g es).isEmpty = es.isEmpty := by cases es <;> rfl

theorem etText_last (q d t a x c) : ∃ P, etText q d (.mk t a x c) = P ++ ['>'] := by
  rw [etText, show escText "".toList = [] from rfl, List.append_nil]
  split
  · exact ⟨'<' :: q t ++ attrText escAttr (d ++ attrsOf q a) ++ [' ', '/'], by simp⟩
  · exact ⟨'<' :: q t ++ attrText escAttr (d ++ attrsOf q a) ++ ('>' :: escText (textOf x) ++ etTextL q c ++ "</".toList ++ q t),
      by simp⟩

theorem lineEnds_etTail (q d t a x c) (b : List Char) :
    lineEnds (etText q d (.mk t a x c) ++ b) = lineEnds (etText q d (.mk t a x c)) ++ lineEnds b := by
  obtain ⟨P, hP⟩ := etText_last q d t a x c
  rw [hP, List.append_assoc, List.singleton_append, lineEnds_append (by simp), lineEnds_append (by simp),
    lineEnds_cons (by decide), lineEnds_cons (by decide)]
  simp [lineEnds]

mutual
theorem lineEnds_etText (q d) : ∀ e : Elem, AllExpressible q e → DeclsFine q d e →
    lineEnds (etText q d e) = etText q d (mapE lineEnds id e)
  | .mk t a x c l, h, hd => by
    rw [etText_tail, lineEnds_etTail, lineEnds_escText, mapE, etText_tail (l := String.ofList (lineEnds l.toList)), String.toList_ofList]
    congr 1
    have hn := noCR_name (h _ (iter_self _)).tag
    have hp : '\r' ∉ '<' :: q t ++ attrText escAttr (d ++ attrsOf q a) := by
      have := noCR_attrText (attr_names h hd)
      simp only [List.mem_append, List.mem_cons, not_or]
      exact ⟨⟨by decide, hn⟩, this⟩
    rw [etText, etText, attrsOf_map, normAttrs_id, textOf_mapV (by rfl), mapEL_isEmpty, show escText "".toList = [] from rfl,
      List.append_nil, List.append_nil, lineEnds_noCR hp]
    congr 1
    by_cases hx : textOf x = []
    · rw [hx, show lineEnds [] = [] from rfl]
      split
      · decide
      · have hc : '\r' ∉ "</".toList ++ q t ++ ['>'] := by
          have : '\r' ∉ q t := hn
          simp [this]
        have := lineEnds_etTextL q c (fun e he => h.child he)
        rw [List.append_assoc, List.append_assoc, lineEnds_append (by simp), lineEnds_append (etTextL_head _ _), this,
          ← List.append_assoc (as := "</".toList), lineEnds_same hc]
        simp [escText, lineEnds]
    · have hx' : lineEnds (textOf x) ≠ [] := fun e => hx ((lineEnds_nil_iff _).1 e)
      rw [if_neg (fun e => hx e.1), if_neg (fun e => hx' e.1)]
      have hc : '\r' ∉ "</".toList ++ q t ++ ['>'] := by
        have : '\r' ∉ q t := hn
        simp [this]
      have := lineEnds_etTextL q c (fun e he => h.child he)
      rw [List.append_assoc, List.append_assoc, lineEnds_append (by simp), lineEnds_append (etTextL_head _ _), this,
        ← List.append_assoc (as := "</".toList), lineEnds_same hc, lineEnds_cons (by decide), lineEnds_escText]
      simp
theorem lineEnds_etTextL (q) : ∀ es : List Elem, (∀ e ∈ es, AllExpressible q e) →
    lineEnds (etTextL q es) = etTextL q (mapEL lineEnds id es)
  | [], _ => rfl
  | e :: es, h => by
    have he := h e (List.mem_cons_self ..)
    rw [mapEL, etTextL, etTextL, lineEnds_append (etTextL_head _ _), lineEnds_etText q [] e he he.noDecls,
      lineEnds_etTextL q es (fun e he => h e (List.mem_cons_of_mem _ he))]
end

theorem pretty_head {ind : List Char} (hi : ind.all (· == ' ') = true) (q d e) : (prettyText q d ind e).head? ≠ some '\n' := by
  cases e
  rw [prettyText.eq_def]
  simp only []
  cases ind with
  | nil => simp
  | cons c cs =>
    rw [List.all_cons, Bool.and_eq_true, beq_iff_eq] at hi
    rw [hi.1]; simp

theorem prettyL_head {ind : List Char} (hi : ind.all (· == ' ') = true) (q es b) (hb : b.head? ≠ some '\n') :
    (prettyTextL q ind es ++ b).head? ≠ some '\n' := by
  cases es with
  | nil => simpa [prettyTextL] using hb
  | cons e es =>
    rw [prettyTextL, List.append_assoc]
    have := pretty_head hi q [] e
    cases h : prettyText q [] ind e with
    | nil =>
      exfalso
      cases e
      rw [prettyText.eq_def] at h
      simp at h
    | cons c cs => rw [h] at this; simpa using this

theorem noCR_blank {ind : List Char} (hi : ind.all (· == ' ') = true) : '\r' ∉ ind := by
  intro h
  have := List.all_eq_true.1 hi _ h
  exact absurd this (by decide)

theorem assoc_tag (ind n A r b : List Char) : (ind ++ ('<' :: n ++ A ++ r)) ++ b = (ind ++ '<' :: n) ++ (A ++ (r ++ b)) := by simp

theorem noCR_prettyTail {ind : List Char} (hi : '\r' ∉ ind) (l) : '\r' ∉ prettyTail ind l := by
  unfold prettyTail
  split
  · simp
  · rw [← lineEnds_same (a := ind ++ lineEnds l.toList ++ ['\n']), ← lineEnds_escData]
    · exact noCR_lineEnds _
    · simp [hi, noCR_lineEnds]

theorem prettyTail_ends (ind l) : prettyTail ind (String.ofList (lineEnds l.toList)) = prettyTail ind l := by
  unfold prettyTail
  rw [String.toList_ofList, lineEnds_idem]

mutual
theorem lineEnds_prettyText (q d) {ind : List Char} (hi : ind.all (· == ' ') = true) : ∀ e : Elem, AllExpressible q e → DeclsFine q d e →
    ∀ b, lineEnds (prettyText q d ind e ++ b) = prettyText q (normAttrs lineEnds d) ind (mapE lineEnds lineEnds e) ++ lineEnds b
  | .mk t a x c l, h, hd, b0 => by
    rw [mapE, pretty_tail (l := String.ofList (lineEnds l.toList)), prettyTail_ends, pretty_tail, List.append_assoc, List.append_assoc,
      ← lineEnds_noCR (noCR_prettyTail (noCR_blank hi) l)]
    generalize prettyTail ind l ++ b0 = b
    have hn : '\r' ∉ q t := noCR_name (h _ (iter_self _)).tag
    have hi' := noCR_blank hi
    have hp : '\r' ∉ ind ++ '<' :: q t := by
      simp only [List.mem_append, List.mem_cons, not_or]
      exact ⟨hi', by decide, hn⟩
    have hat : normAttrs lineEnds (d ++ attrsOf q a) = normAttrs lineEnds d ++ attrsOf q (a.map fun k => (k.1, String.ofList (lineEnds k.2.toList))) := by
      rw [normAttrs_append, attrsOf_map]
    have hend : '\r' ∉ ("</".toList ++ q t ++ ['>']) ++ ['\n'] := by simp [hn]
    match hcc : c with
    | [] =>
      rw [mapEL]
      by_cases hx : textOf x = []
      · rw [pretty_empty hx, pretty_empty (by rw [textOf_mapV (by rfl), hx]; rfl), ← hat]
        rw [assoc_tag, lineEnds_noCR hp, lineEnds_attrText (attr_names h hd),
          lineEnds_noCR (by decide)]
        simp
      · rw [pretty_leaf hx, pretty_leaf (by rw [textOf_mapV (by rfl)]; exact fun e => hx ((lineEnds_nil_iff _).1 e)), ← hat,
          textOf_mapV (by rfl), lineEnds_idem]
        rw [assoc_tag, lineEnds_noCR hp, lineEnds_attrText (attr_names h hd),
          List.cons_append, lineEnds_cons (by decide), List.append_assoc (cs := b), lineEnds_append (by simp), lineEnds_escData, lineEnds_idem,
          lineEnds_noCR hend]
        simp
    | y :: ys =>
      have hi4 : (ind ++ "    ".toList).all (· == ' ') = true := by rw [List.all_append, hi]; decide
      have := lineEnds_prettyTextL q hi4 (y :: ys) (fun e he => h.child he)
      rw [pretty_node, mapEL, pretty_node, ← hat, textOf_mapV (by rfl), lineEnds_idem]
      rw [mapEL] at this
      have hind : (ind ++ ((("</".toList ++ q t ++ ['>']) ++ ['\n']) ++ b)).head? ≠ some '\n' := by
        cases ind with
        | nil => simp
        | cons c cs =>
          rw [List.all_cons, Bool.and_eq_true, beq_iff_eq] at hi
          rw [hi.1]; simp
      have htext : ∀ r : List Char, lineEnds ((if lineEnds (textOf x) = [] then []
          else escData (ind ++ "    ".toList ++ lineEnds (textOf x) ++ ['\n'])) ++ r) =
          (if lineEnds (textOf x) = [] then [] else escData (ind ++ "    ".toList ++ lineEnds (textOf x) ++ ['\n'])) ++ lineEnds r := by
        intro r
        split
        · rfl
        · refine lineEnds_noCR ?_ r
          rw [← lineEnds_same (a := ind ++ "    ".toList ++ lineEnds (textOf x) ++ ['\n']), ← lineEnds_escData]
          · exact noCR_lineEnds _
          · simp [hi', noCR_lineEnds]
      rw [assoc_tag, lineEnds_noCR hp, lineEnds_attrText (attr_names h hd),
        List.cons_append, lineEnds_cons (by decide), List.cons_append, lineEnds_cons (by decide), List.append_assoc (cs := b), htext,
        List.append_assoc (cs := b), this, List.append_assoc (cs := b), lineEnds_noCR hi', lineEnds_noCR hend]
      simp
theorem lineEnds_prettyTextL (q) {ind : List Char} (hi : ind.all (· == ' ') = true) : ∀ es : List Elem, (∀ e ∈ es, AllExpressible q e) →
    ∀ b, lineEnds (prettyTextL q ind es ++ b) = prettyTextL q ind (mapEL lineEnds lineEnds es) ++ lineEnds b
  | [], _, b => rfl
  | e :: es, h, b => by
    have he := h e (List.mem_cons_self ..)
    have h1 := lineEnds_prettyText q [] hi e he he.noDecls
    rw [mapEL, prettyTextL, prettyTextL, List.append_assoc, h1,
      lineEnds_prettyTextL q hi es (fun e he => h e (List.mem_cons_of_mem _ he)), List.append_assoc]
    rfl
end

end Jpy
