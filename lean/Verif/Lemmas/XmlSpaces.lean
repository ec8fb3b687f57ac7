import Verif.Lemmas.XmlNames
/-! # Namespaces: what a namespace-aware parser makes of the names in the output -/

namespace Jpy
open Spec.Xml

/-! ## The forms names are written in -/

theorem qname_written {n ts} (h : NamesOk n ts) {t : String} (ht : t ∈ ts) : ∃ w : String, n.qname t = w.toList ∧ WrittenAs n t w := by
  have := h.known t ht
  obtain ⟨w, hw⟩ := Option.isSome_iff_exists.1 this
  exact ⟨w, by rw [Names.qname, hw]; rfl, h.names t w (pair_of_lookup hw)⟩

theorem qname_plain {n ts} (h : NamesOk n ts) {t : String} (ht : t ∈ ts) (hs : splitName t = none) : n.qname t = t.toList := by
  obtain ⟨w, h1, h2⟩ := qname_written h ht
  unfold WrittenAs at h2; rw [hs] at h2
  rw [h1, h2]

/-- A scope that knows the namespaces of the dictionaries. -/
structure Scoped (n : Names) (sc : List (List Char × List Char)) : Prop where
  default : sc.lookup [] = some reportSpace
  known : ∀ u p, (u, p) ∈ n.spaces → sc.lookup p.toList = some u.toList

theorem NamesOk.prefix_fine {n ts} (h : NamesOk n ts) {u p} (hm : (u, p) ∈ n.spaces) :
    isNCName p.toList = true ∧ p ≠ "xmlns" ∧ p ≠ "mix" ∧ (p = "xsi" → u = "http://www.w3.org/2001/XMLSchema-instance") ∧ p ≠ "xml" := by
  obtain ⟨i, hi⟩ := List.getElem?_of_mem hm
  obtain ⟨h1, h2⟩ := h.prefixes _ _ _ hi
  have := prefixAt_fine u i
  rw [← h1] at this
  exact ⟨this.1, this.2.1, this.2.2.1, this.2.2.2, h2⟩

/-- A name in a namespace is written with a prefix that means this namespace. -/
theorem qname_clark {n ts} (h : NamesOk n ts) {t : String} (ht : t ∈ ts) {u l : List Char} (hc : t.toList = clark u l) (hu : u ≠ [])
    (hl : isNCName l = true) : ∃ p : List Char, n.qname t = p ++ ':' :: l ∧ isNCName p = true ∧ p ≠ "xmlns".toList ∧ 
      ∀ sc, Scoped n sc → prefixed sc p l = some t.toList := by
  obtain ⟨w, h1, h2⟩ := qname_written h ht
  unfold WrittenAs at h2
  rw [splitName_clark hc hl] at h2
  obtain ⟨p, hw, hp⟩ := h2
  refine ⟨p.toList, ?_, ?_⟩
  · rw [h1, hw]; simp
  rcases hp with hp | ⟨rfl, hx⟩
  · have hf := h.prefix_fine hp
    refine ⟨hf.1, fun e => hf.2.1 (String.ext e), ?_⟩
    intro sc hsc
    have := hsc.known _ _ hp
    rw [String.toList_ofList] at this
    unfold prefixed
    rw [hf.1, hl, if_pos (by rfl), if_neg (fun e => hf.2.2.2.2 (String.ext e)), this]
    cases u with
    | nil => exact absurd rfl hu
    | cons c cs => rw [hc]
  · refine ⟨by decide, by decide, ?_⟩
    intro sc _
    unfold prefixed
    rw [hl, show isNCName "xml".toList = true by decide, if_pos (by rfl), if_pos rfl, hc]
    have : u = xmlSpace := by
      have := congrArg String.toList hx
      rw [String.toList_ofList] at this
      exact this
    rw [this]

theorem nc_plain {s : String} (h : isNCName s.toList = true) : splitName s = none := splitName_plain (name_head (ncName_iff.1 h).1)

theorem nc_noColon {s : List Char} (h : isNCName s = true) : splitColon s = none := splitColon_none (ncName_iff.1 h).2

theorem nameOf_nc {mix s : List Char} (h : isNCName s = true) : nameOf mix s = clark reportSpace s := by
  have hh := name_head (ncName_iff.1 h).1
  unfold nameOf
  split
  · simp at hh
  · rw [nc_noColon h]

theorem nameOf_clark {mix u l : List Char} : nameOf mix (clark u l) = clark u l := rfl

theorem attrNameOf_nc {s : List Char} (h : isNCName s = true) : attrNameOf s = s := by
  have hh := name_head (ncName_iff.1 h).1
  unfold attrNameOf
  split
  · simp at hh
  · rw [nc_noColon h]

theorem attrNameOf_parsed {t : String} (h : ParsedName t) : attrNameOf t.toList = t.toList := by
  rcases h with h | ⟨u, l, h, -⟩
  · exact attrNameOf_nc h
  · rw [h]; rfl

theorem elemName_parsed {n ts} (h : NamesOk n ts) {t : String} (ht : t ∈ ts) (hp : ParsedName t) {sc} (hsc : Scoped n sc) (mix) :
    elemName sc (n.qname t) = some (nameOf mix t.toList) := by
  rcases hp with hp | ⟨u, l, hc, hu, hl, -⟩
  · rw [qname_plain h ht (nc_plain hp), nameOf_nc hp]
    unfold elemName
    rw [nc_noColon hp]
    simp only []
    rw [hsc.default]
    rfl
  · obtain ⟨p, h1, h2, -, h3⟩ := qname_clark h ht hc hu hl
    rw [h1]
    unfold elemName
    rw [splitColon_some (ncName_iff.1 h2).2]
    simp only []
    rw [h3 sc hsc, hc]; rfl

theorem attrName_parsed {n ts} (h : NamesOk n ts) {t : String} (ht : t ∈ ts) (hp : ParsedName t) {sc} (hsc : Scoped n sc) :
    attrName sc (n.qname t) = some t.toList := by
  rcases hp with hp | ⟨u, l, hc, hu, hl, -⟩
  · rw [qname_plain h ht (nc_plain hp)]
    unfold attrName
    rw [nc_noColon hp]
  · obtain ⟨p, h1, h2, -, h3⟩ := qname_clark h ht hc hu hl
    rw [h1]
    unfold attrName
    rw [splitColon_some (ncName_iff.1 h2).2]
    exact h3 sc hsc

theorem declares_parsed {n ts} (h : NamesOk n ts) {t : String} (ht : t ∈ ts) (hp : ParsedName t) (hx : t ≠ "xmlns") :
    declares (n.qname t) = none ∧ declares t.toList = none := by
  rcases hp with hp | ⟨u, l, hc, hu, hl, -⟩
  · rw [qname_plain h ht (nc_plain hp)]
    unfold declares
    rw [if_neg (fun e => hx (String.ext e)), nc_noColon hp]
    exact ⟨rfl, rfl⟩
  · obtain ⟨p, h1, h2, h3, -⟩ := qname_clark h ht hc hu hl
    constructor
    · rw [h1]
      unfold declares
      rw [splitColon_some (ncName_iff.1 h2).2, if_neg]
      · simp only []; rw [if_neg h3]
      · intro e
        have : ':' ∈ "xmlns".toList := e ▸ (by simp)
        exact absurd this (by decide)
    · rw [hc]
      unfold declares clark
      rw [if_neg]
      · rw [List.cons_append, splitColon, if_neg (by decide)]
        cases hs : splitColon (u ++ '}' :: l) with
        | none => rfl
        | some pl =>
          obtain ⟨a, b⟩ := pl
          simp only [Option.map_some]
          rw [if_neg]
          intro e
          have := congrArg List.head? e
          simp at this
      · intro e
        have := congrArg List.head? e
        simp at this

theorem isName_prefixed {p l : List Char} (hp : isNCName p = true) (hl : isNCName l = true) : isName (p ++ ':' :: l) = true := by
  have h1 := (ncName_iff.1 hp).1
  have h2 := (ncName_iff.1 hl).1
  cases p with
  | nil => exact nomatch h1
  | cons c cs =>
    cases l with
    | nil => exact nomatch h2
    | cons d ds =>
      rw [isName, Bool.and_eq_true] at h1 h2
      rw [List.cons_append, isName, h1.1, List.all_append, h1.2, List.all_cons, List.all_cons, nameStart_char h2.1, h2.2]
      decide

theorem isName_parsed {n ts} (h : NamesOk n ts) {t : String} (ht : t ∈ ts) (hp : ParsedName t) : isName (n.qname t) = true := by
  rcases hp with hp | ⟨u, l, hc, hu, hl, -⟩
  · rw [qname_plain h ht (nc_plain hp)]; exact (ncName_iff.1 hp).1
  · obtain ⟨p, h1, h2, -, h3⟩ := qname_clark h ht hc hu hl
    rw [h1]; exact isName_prefixed h2 hl

/-! ## The declarations -/

theorem declares_xmlns {p : List Char} : declares ("xmlns:".toList ++ p) = some p := by
  unfold declares
  rw [if_neg, show "xmlns:".toList ++ p = "xmlns".toList ++ ':' :: p by rfl, splitColon_some (by decide)]
  · rfl
  · intro e
    have := congrArg List.length e
    simp at this

theorem declared_decls (n : Names) : declared n.decls =
    (n.spaces.mergeSort fun a b => decide (a.2 ≤ b.2)).map fun x => (x.2.toList, x.1.toList) := by
  unfold declared Names.decls
  rw [List.filterMap_map]
  have : ((fun a : List Char × List Char => (declares a.1).map fun p => (p, a.2)) ∘ fun x : String × String =>
      match x with | (uri, p) => ("xmlns:".toList ++ p.toList, uri.toList)) = some ∘ fun x => (x.2.toList, x.1.toList) := by
    funext x
    obtain ⟨a, b⟩ := x
    simp only [Function.comp_apply]
    rw [declares_xmlns]; rfl
  rw [this]
  exact congrFun (List.filterMap_eq_map (f := fun x : String × String => (x.2.toList, x.1.toList))) _

theorem NamesOk.scoped {n ts} (h : NamesOk n ts) {sc} (hsc : sc.lookup [] = some reportSpace) :
    Scoped n (declared n.decls ++ sc) := by
  have hperm := List.mergeSort_perm n.spaces fun a b => decide (a.2 ≤ b.2)
  rw [declared_decls]
  constructor
  · rw [lookup_append_none, hsc]
    intro x hx e
    obtain ⟨y, hy, rfl⟩ := List.mem_map.1 hx
    have := (h.prefix_fine (hperm.mem_iff.1 hy)).1
    rw [show y.2.toList = [] from e] at this
    exact nomatch this
  · intro u p hm
    refine lookup_of_nodup (a := p.toList) (b := u.toList) ?_ (List.mem_map.2 ⟨(u, p), hperm.mem_iff.2 hm, rfl⟩) sc
    rw [List.map_map]
    have hn := h.prefixes_nodup
    have : ((n.spaces.mergeSort fun a b => decide (a.2 ≤ b.2)).map (·.2)).Nodup := (hperm.map _).nodup_iff.2 hn
    have e : ((fun x : List Char × List Char => x.1) ∘ fun x : String × String => (x.2.toList, x.1.toList)) = String.toList ∘ (·.2) := rfl
    rw [e, ← List.map_map]
    exact List.Pairwise.map String.toList (fun a b hab e => hab (String.ext e)) this

/-! ## Trees -/

/-- The names in a list of trees. -/
def treeNamesL (es : List Elem) : List String := (Elem.iterL es).flatMap fun x => x.tag :: x.attrs.map (·.1)

/- The trees in the output: elements as an XML parser returns them and, below an element that declares the
prefix, the elements of the MIX extension. -/
mutual
/-- One element; `b` says whether the prefix `mix` is declared around it. -/
def Shaped (mix : String) (b : Bool) : Elem → Prop
  | .mk t a _ c lt =>
    (ParsedName t ∧ (a.map (·.1)).Nodup ∧ (∀ k ∈ a, ParsedName k.1 ∧ k.1 ≠ "xmlns") ∧ ShapedL mix b c) ∨
    (t = "mix:mix" ∧ (∃ loc, a = [("xmlns:mix", mix), ("xmlns:xsi", xsiString), ("xsi:schemaLocation", loc)]) ∧
      ShapedL mix true c) ∨
    (b = true ∧ (∃ l : String, t = "mix:" ++ l ∧ isNCName l.toList = true) ∧ a = [] ∧ ShapedL mix true c)
/-- A list. -/
def ShapedL (mix : String) (b : Bool) : List Elem → Prop
  | [] => True
  | e :: es => Shaped mix b e ∧ ShapedL mix b es
end

theorem shapeL_iff {mix b es} : ShapedL mix b es ↔ ∀ e ∈ es, Shaped mix b e := by
  induction es with
  | nil => simp [ShapedL]
  | cons e es ih => rw [ShapedL, ih]; simp

theorem treeNames_tag {e x : Elem} (h : x ∈ e.iter) : x.tag ∈ treeNames e :=
  List.mem_flatMap.2 ⟨x, h, List.mem_cons_self ..⟩

theorem treeNames_attr {e x : Elem} (h : x ∈ e.iter) {a} (ha : a ∈ x.attrs) : a.1 ∈ treeNames e :=
  List.mem_flatMap.2 ⟨x, h, List.mem_cons_of_mem _ (List.mem_map.2 ⟨a, ha, rfl⟩)⟩

theorem resolveL_append (sc) : ∀ a b : List Xml, resolveL sc (a ++ b) = (resolveL sc a).bind fun a' => (resolveL sc b).map fun b' => a' ++ b'
  | [], b => by simp [resolveL]
  | x :: xs, b => by
    rw [List.cons_append, resolveL, resolveL, resolveL_append sc xs b]
    cases resolve sc x <;> cases resolveL sc xs <;> cases resolveL sc b <;> rfl

theorem resolveL_textNode (sc f v) : resolveL sc (textNode f v) = some (textNode f v) := by
  unfold textNode
  split
  · split <;> rfl
  · rfl

/-- The attributes of a parsed element. -/
theorem resolveAttrs_parsed {n ts} (h : NamesOk n ts) {sc} (hsc : Scoped n sc) {g : List Char → List Char} :
    ∀ {a : List (String × String)}, (∀ k ∈ a, k.1 ∈ ts) → (∀ k ∈ a, ParsedName k.1 ∧ k.1 ≠ "xmlns") → (a.map (·.1)).Nodup →
    resolveAttrs sc (a.map fun k => (n.qname k.1, g k.2.toList)) =
      some ((a.filter fun k => (declares k.1.toList).isNone).map fun k => (attrNameOf k.1.toList, g k.2.toList))
  | [], _, _, _ => rfl
  | k :: a, ht, hp, hn => by
    rw [List.map_cons, List.nodup_cons] at hn
    have hk := hp k (List.mem_cons_self ..)
    have hd := declares_parsed h (ht k (List.mem_cons_self ..)) hk.1 hk.2
    have ih := resolveAttrs_parsed h hsc (g := g) (fun k hk => ht k (List.mem_cons_of_mem _ hk)) (fun k hk => hp k (List.mem_cons_of_mem _ hk)) hn.2
    rw [List.map_cons, resolveAttrs, hd.1, attrName_parsed h (ht k (List.mem_cons_self ..)) hk.1 hsc, ih,
      List.filter_cons, hd.2]
    simp only [Option.isSome_none, Bool.false_eq_true, if_false, Option.bind_eq_bind, Option.bind_some, Option.isNone_none,
      if_true, List.map_cons]
    rw [attrNameOf_parsed hk.1, if_neg]
    intro hm
    simp only [List.map_map, List.mem_map, Function.comp_apply] at hm
    obtain ⟨k', hk', e⟩ := hm
    have hk'' := (List.mem_filter.1 hk').1
    rw [attrNameOf_parsed (hp k' (List.mem_cons_of_mem _ hk'')).1] at e
    exact hn.1 (List.mem_map.2 ⟨k', hk'', String.ext e⟩)

theorem declared_parsed {n ts} (h : NamesOk n ts) {g : List Char → List Char} {a : List (String × String)} (ht : ∀ k ∈ a, k.1 ∈ ts)
    (hp : ∀ k ∈ a, ParsedName k.1 ∧ k.1 ≠ "xmlns") : declared (a.map fun k => (n.qname k.1, g k.2.toList)) = [] := by
  unfold declared
  rw [List.filterMap_eq_nil_iff]
  intro x hx
  obtain ⟨k, hk, rfl⟩ := List.mem_map.1 hx
  rw [(declares_parsed h (ht k hk) (hp k hk).1 (hp k hk).2).1]; rfl

theorem qname_raw {n ts} (h : NamesOk n ts) {t : String} (ht : t ∈ ts) (hh : t.toList.head? ≠ some '{') : n.qname t = t.toList :=
  qname_plain h ht (splitName_plain hh)

theorem mem_treeNames {e x : Elem} {t a v c l} (h : x ∈ e.iter) (hx : x = .mk t a v c l) : t ∈ treeNames e ∧ ∀ k ∈ a, k.1 ∈ treeNames e := by
  subst hx
  exact ⟨treeNames_tag h, fun k hk => treeNames_attr h hk⟩

/-- Values that normalisation does not change. -/
structure Stable (g : List Char → List Char) (mix : String) : Prop where
  keeps : g mix.toList = mix.toList
  xsi : g xsiString.toList = xsiString.toList
  nonempty : mix.toList ≠ []

mutual
theorem resolve_shape {n ts mix} (h : NamesOk n ts) {f g} (hg : Stable g mix) : ∀ (e : Elem) {b sc}, Shaped mix b e →
    (∀ t ∈ treeNames e, t ∈ ts) → Scoped n sc → (b = true → sc.lookup "mix".toList = some mix.toList) →
    resolve sc (docOf n.qname f g [] e) = some (reported mix.toList f g e)
  | .mk t a x c lt, b, sc, hs, ht, hsc, hb => by
    have hmem := mem_treeNames (iter_self (.mk t a x c lt)) rfl
    have htag := ht _ hmem.1
    have hattr : ∀ k ∈ a, k.1 ∈ ts := fun k hk => ht _ (hmem.2 k hk)
    have hsub : ∀ t ∈ treeNamesL c, t ∈ ts := fun t' ht' => ht _ (by
      unfold treeNames
      rw [Elem.iter, List.flatMap_cons]
      exact List.mem_append_right _ ht')
    rw [docOf, List.nil_append, resolve, reported]
    rw [Shaped] at hs
    rcases hs with ⟨h1, h2, h3, h4⟩ | ⟨rfl, ⟨loc, rfl⟩, h4⟩ | ⟨rfl, ⟨l, rfl, hl⟩, rfl, h4⟩
    · have e : (a.map fun (k, v) => (n.qname k, g v.toList)) = a.map fun k => (n.qname k.1, g k.2.toList) := rfl
      rw [e, declared_parsed h hattr h3, List.nil_append, elemName_parsed h htag h1 hsc mix.toList,
        resolveAttrs_parsed h hsc hattr h3 h2, resolveL_append, resolveL_textNode, resolveL_shape h hg c h4 hsub hsc hb]
      rfl
    · have q1 : n.qname "mix:mix" = "mix:mix".toList := qname_raw h htag (by decide)
      have q2 : n.qname "xmlns:mix" = "xmlns:mix".toList := qname_raw h (hattr ("xmlns:mix", mix) (by simp)) (by decide)
      have q3 : n.qname "xmlns:xsi" = "xmlns:xsi".toList := qname_raw h (hattr ("xmlns:xsi", xsiString) (by simp)) (by decide)
      have q4 : n.qname "xsi:schemaLocation" = "xsi:schemaLocation".toList := qname_raw h (hattr ("xsi:schemaLocation", loc) (by simp)) (by decide)
      simp only [List.map_cons, List.map_nil, q1, q2, q3, q4]
      rw [hg.keeps, hg.xsi]
      have hd : declared [("xmlns:mix".toList, mix.toList), ("xmlns:xsi".toList, xsiString.toList), ("xsi:schemaLocation".toList, g loc.toList)] =
          [("mix".toList, mix.toList), ("xsi".toList, xsiString.toList)] := rfl
      rw [hd]
      have hsc' : Scoped n ([("mix".toList, mix.toList), ("xsi".toList, xsiString.toList)] ++ sc) := by
        constructor
        · exact hsc.default
        · intro u p hm
          have hf := h.prefix_fine hm
          rw [List.cons_append, List.lookup_cons, show (p.toList == "mix".toList) = false by simpa using fun e => hf.2.2.1 (String.ext e)]
          simp only []
          rw [List.cons_append, List.lookup_cons]
          by_cases hx : p = "xsi"
          · subst hx
            rw [hf.2.2.2.1 rfl]; rfl
          · rw [show (p.toList == "xsi".toList) = false by simpa using fun e => hx (String.ext e)]
            exact hsc.known u p hm
      obtain ⟨m, ms, hm⟩ : ∃ m ms, mix.toList = m :: ms := by
        cases hm : mix.toList with
        | nil => exact absurd hm hg.nonempty
        | cons m ms => exact ⟨m, ms, rfl⟩
      have hlook : ([("mix".toList, mix.toList), ("xsi".toList, xsiString.toList)] ++ sc).lookup "mix".toList = some mix.toList := rfl
      have hlook2 : ([("mix".toList, mix.toList), ("xsi".toList, xsiString.toList)] ++ sc).lookup "xsi".toList = some xsiString.toList := rfl
      rw [resolveL_append, resolveL_textNode, resolveL_shape h hg c h4 hsub hsc' (fun _ => hlook)]
      have he : elemName ([("mix".toList, mix.toList), ("xsi".toList, xsiString.toList)] ++ sc) "mix:mix".toList = some (nameOf mix.toList "mix:mix".toList) := by
        unfold elemName
        rw [show splitColon "mix:mix".toList = some ("mix".toList, "mix".toList) by decide]
        simp only []
        unfold prefixed
        rw [show isNCName "mix".toList = true by decide, if_pos (by rfl), if_neg (by decide), hlook, hm]
        rfl
      have ha : resolveAttrs ([("mix".toList, mix.toList), ("xsi".toList, xsiString.toList)] ++ sc)
          [("xmlns:mix".toList, mix.toList), ("xmlns:xsi".toList, xsiString.toList), ("xsi:schemaLocation".toList, g loc.toList)] =
          some [(clark xsiSpace "schemaLocation".toList, g loc.toList)] := by
        have e1 : declares "xmlns:mix".toList = some "mix".toList := by decide
        have e2 : declares "xmlns:xsi".toList = some "xsi".toList := by decide
        have e3 : declares "xsi:schemaLocation".toList = none := by decide
        rw [resolveAttrs, e1, Option.isSome_some, if_pos rfl, resolveAttrs, e2, Option.isSome_some, if_pos rfl, resolveAttrs, e3,
          Option.isSome_none, if_neg (by decide), resolveAttrs]
        unfold attrName
        rw [show splitColon "xsi:schemaLocation".toList = some ("xsi".toList, "schemaLocation".toList) by decide]
        simp only []
        unfold prefixed
        rw [show isNCName "xsi".toList = true by decide, show isNCName "schemaLocation".toList = true by decide,
          if_pos (by rfl), if_neg (by decide), hlook2]
        rfl
      rw [he, ha]
      have e1 : declares "xmlns:mix".toList = some "mix".toList := by decide
      have e2 : declares "xmlns:xsi".toList = some "xsi".toList := by decide
      have e3 : declares "xsi:schemaLocation".toList = none := by decide
      have e4 : attrNameOf "xsi:schemaLocation".toList = clark xsiSpace "schemaLocation".toList := by decide
      rw [List.filter_cons, e1, Option.isNone_some, if_neg (by decide), List.filter_cons, e2, Option.isNone_some, if_neg (by decide),
        List.filter_cons, e3, Option.isNone_none, if_pos rfl, List.filter_nil, List.map_cons, e4]
      rfl
    · have q1 : n.qname ("mix:" ++ l) = ("mix:" ++ l).toList := qname_raw h htag (by rw [String.toList_append]; exact fun e => nomatch e)
      rw [q1, List.map_nil, show declared [] = [] from rfl, List.nil_append,
        resolveL_append, resolveL_textNode, resolveL_shape h hg c h4 hsub hsc hb]
      obtain ⟨m, ms, hm⟩ : ∃ m ms, mix.toList = m :: ms := by
        cases hm : mix.toList with
        | nil => exact absurd hm hg.nonempty
        | cons m ms => exact ⟨m, ms, rfl⟩
      have hsp : splitColon ("mix:" ++ l).toList = some ("mix".toList, l.toList) := by
        rw [String.toList_append]
        exact splitColon_some (p := "mix".toList) (by decide) l.toList
      have he : elemName sc ("mix:" ++ l).toList = some (nameOf mix.toList ("mix:" ++ l).toList) := by
        have e2 : nameOf mix.toList ("mix:" ++ l).toList = clark mix.toList l.toList := by
          unfold nameOf
          rw [hsp]
          split
          · rename_i e
            rw [String.toList_append] at e
            exact nomatch (congrArg List.head? e)
          · rfl
        unfold elemName
        rw [e2, hsp]
        simp only []
        unfold prefixed
        rw [show isNCName "mix".toList = true by decide, hl, if_pos (by rfl), if_neg (by decide), hb rfl, hm]
      rw [he]
      rfl
theorem resolveL_shape {n ts mix} (h : NamesOk n ts) {f g} (hg : Stable g mix) : ∀ (es : List Elem) {b sc}, ShapedL mix b es →
    (∀ t ∈ treeNamesL es, t ∈ ts) → Scoped n sc → (b = true → sc.lookup "mix".toList = some mix.toList) →
    resolveL sc (docsOf n.qname f g es) = some (reportedL mix.toList f g es)
  | [], _, _, _, _, _, _ => rfl
  | e :: es, b, sc, hs, ht, hsc, hb => by
    rw [ShapedL] at hs
    have ht' : treeNamesL (e :: es) = treeNames e ++ treeNamesL es := by
      unfold treeNamesL treeNames
      rw [Elem.iterL, List.flatMap_append]
    rw [ht'] at ht
    rw [docsOf, List.cons_append, resolveL, reportedL, resolve_shape h hg e hs.1 (fun t h => ht t (List.mem_append_left _ h)) hsc hb,
      resolveL_append, resolveL_textNode, resolveL_shape h hg es hs.2 (fun t h => ht t (List.mem_append_right _ h)) hsc hb]
    rfl
end

end Jpy
