import Verif.Lemmas.XmlSpaces
/-! # Output trees: expressible, and layout apart from names -/

namespace Jpy
open Spec.Xml

mutual
theorem shape_mem {mix} : ∀ (e : Elem) {b}, Shaped mix b e → ∀ x ∈ e.iter, ∃ b', Shaped mix b' x
  | .mk t a v c lt, b, h, x, hx => by
    rw [Elem.iter, List.mem_cons] at hx
    rcases hx with rfl | hx
    · exact ⟨b, h⟩
    · rw [Shaped] at h
      rcases h with ⟨-, -, -, h⟩ | ⟨-, -, h⟩ | ⟨-, -, -, h⟩
      · exact shapeL_mem c h x hx
      · exact shapeL_mem c h x hx
      · exact shapeL_mem c h x hx
theorem shapeL_mem {mix} : ∀ (es : List Elem) {b}, ShapedL mix b es → ∀ x ∈ Elem.iterL es, ∃ b', Shaped mix b' x
  | [], _, _, _, hx => nomatch hx
  | e :: es, b, h, x, hx => by
    rw [Elem.iterL, List.mem_append] at hx
    rw [ShapedL] at h
    rcases hx with hx | hx
    · exact shape_mem e h.1 x hx
    · exact shapeL_mem es h.2 x hx
end

theorem nodup_mapOn {α β : Type} {f : α → β} : ∀ {l : List α}, l.Nodup → (∀ x ∈ l, ∀ y ∈ l, f x = f y → x = y) → (l.map f).Nodup
  | [], _, _ => List.nodup_nil
  | a :: l, h, hf => by
    rw [List.nodup_cons] at h
    rw [List.map_cons, List.nodup_cons]
    refine ⟨fun hm => ?_, nodup_mapOn h.2 fun x hx y hy => hf x (List.mem_cons_of_mem _ hx) y (List.mem_cons_of_mem _ hy)⟩
    obtain ⟨y, hy, e⟩ := List.mem_map.1 hm
    exact h.1 (hf y (List.mem_cons_of_mem _ hy) a (List.mem_cons_self ..) e ▸ hy)

theorem expressible_shape {n ts mix} (h : NamesOk n ts) {b} {x : Elem} (hs : Shaped mix b x) (ht : x.tag ∈ ts) (ha : ∀ k ∈ x.attrs, k.1 ∈ ts)
    (h1 : ∀ s, x.text = .str s → s.toList.all isChar = true) (h2 : ∀ a ∈ x.attrs, a.2.toList.all isChar = true)
    (h3 : x.tail.toList.all isChar = true) : Expressible n.qname x := by
  obtain ⟨t, a, v, c⟩ := x
  simp only [Elem.tag, Elem.attrs, Elem.text] at ht ha h1 h2
  rw [Shaped] at hs
  rcases hs with ⟨hp, hn, hk, -⟩ | ⟨rfl, ⟨loc, rfl⟩, -⟩ | ⟨-, ⟨l, rfl, hl⟩, rfl, -⟩
  · refine ⟨isName_parsed h ht hp, fun k hka => ⟨isName_parsed h (ha k hka) (hk k hka).1, h2 k hka⟩, ?_, h1, h3⟩
    have := nodup_mapOn (f := n.qname) hn (by
      intro x hx y hy e
      obtain ⟨k, hka, rfl⟩ := List.mem_map.1 hx
      obtain ⟨k', hka', rfl⟩ := List.mem_map.1 hy
      have hsc := h.scoped (sc := [([], reportSpace)]) rfl
      have e1 := attrName_parsed h (ha k hka) (hk k hka).1 hsc
      have e2 := attrName_parsed h (ha k' hka') (hk k' hka').1 hsc
      rw [e, e2] at e1
      exact String.ext (Option.some.inj e1).symm)
    rw [List.map_map] at this
    exact this
  · have q1 : n.qname "mix:mix" = "mix:mix".toList := qname_raw h ht (by decide)
    have q2 : n.qname "xmlns:mix" = "xmlns:mix".toList := qname_raw h (ha ("xmlns:mix", mix) (by simp)) (by decide)
    have q3 : n.qname "xmlns:xsi" = "xmlns:xsi".toList := qname_raw h (ha ("xmlns:xsi", xsiString) (by simp)) (by decide)
    have q4 : n.qname "xsi:schemaLocation" = "xsi:schemaLocation".toList := qname_raw h (ha ("xsi:schemaLocation", loc) (by simp)) (by decide)
    refine ⟨?_, ?_, ?_, h1, h3⟩
    · show isName (n.qname "mix:mix") = true
      rw [q1]; decide
    · intro k hk
      refine ⟨?_, h2 k hk⟩
      simp only [Elem.attrs, List.mem_cons, List.not_mem_nil, or_false] at hk
      rcases hk with rfl | rfl | rfl
      · show isName (n.qname "xmlns:mix") = true
        rw [q2]; decide
      · show isName (n.qname "xmlns:xsi") = true
        rw [q3]; decide
      · show isName (n.qname "xsi:schemaLocation") = true
        rw [q4]; decide
    · simp only [Elem.attrs, List.map_cons, List.map_nil, q2, q3, q4]
      decide
  · refine ⟨?_, (fun k hk => nomatch hk), List.nodup_nil, h1, h3⟩
    show isName (n.qname ("mix:" ++ l)) = true
    rw [qname_raw h ht (by rw [String.toList_append]; exact fun e => nomatch e), String.toList_append]
    exact isName_prefixed (p := "mix".toList) (by decide) hl

/-- A tree of the output with legal characters can be written. -/
theorem allExpressible_shape {mix b e} (hs : Shaped mix b e) (hl : LegalText e) : AllExpressible (namesOf e).qname e := by
  intro x hx
  obtain ⟨b', hb⟩ := shape_mem e hs x hx
  exact expressible_shape (namesOk e) hb (treeNames_tag hx) (fun k hk => treeNames_attr hx hk) (hl x hx).1 (hl x hx).2.1 (hl x hx).2.2

/-- Namespace names of the output are those of parsed names. -/
theorem shape_uri {mix b e} (hs : Shaped mix b e) {u p} (hm : (u, p) ∈ (namesOf e).spaces) :
    ∀ c ∈ u.toList, isChar c = true ∧ (isSpace c = true → c = ' ') := by
  obtain ⟨t, ht, l, hl⟩ := (namesOk e).source u p hm
  have key : ∀ t : String, ParsedName t → splitName t = some (u, l) → ∀ c ∈ u.toList, isChar c = true ∧ (isSpace c = true → c = ' ') := by
    intro t hp hl
    rcases hp with hp | ⟨u', l', hc, hu, hn, hch⟩
    · rw [nc_plain hp] at hl; exact nomatch hl
    · rw [splitName_clark hc hn] at hl
      injection hl with hl
      injection hl with e1 e2
      subst e1
      rw [String.toList_ofList]
      exact hch
  obtain ⟨x, hx, hmem⟩ := List.mem_flatMap.1 ht
  obtain ⟨b', hb⟩ := shape_mem e hs x hx
  obtain ⟨t', a, v, c⟩ := x
  rw [Shaped] at hb
  rcases hb with ⟨hp, hn, hk, -⟩ | ⟨rfl, ⟨loc, rfl⟩, -⟩ | ⟨-, ⟨l, rfl, hl'⟩, rfl, -⟩
  · rcases List.mem_cons.1 hmem with rfl | hmem
    · exact key _ hp hl
    · obtain ⟨k, hka, rfl⟩ := List.mem_map.1 hmem
      exact key _ (hk k hka).1 hl
  · exfalso
    simp only [Elem.tag, Elem.attrs, List.map_cons, List.map_nil, List.mem_cons, List.not_mem_nil, or_false] at hmem
    rcases hmem with rfl | rfl | rfl | rfl <;> rw [splitName_plain (by decide)] at hl <;> exact nomatch hl
  · exfalso
    simp only [Elem.tag, Elem.attrs, List.map_nil, List.mem_cons, List.not_mem_nil, or_false] at hmem
    subst hmem
    rw [splitName_plain (by rw [String.toList_append]; exact fun e => nomatch e)] at hl
    exact nomatch hl

theorem mem_decls {n : Names} {d} (h : d ∈ n.decls) : ∃ u p, (u, p) ∈ n.spaces ∧ d = ("xmlns:".toList ++ p.toList, u.toList) := by
  unfold Names.decls at h
  obtain ⟨x, hx, rfl⟩ := List.mem_map.1 h
  exact ⟨x.1, x.2, (List.mergeSort_perm _ _).mem_iff.1 hx, rfl⟩

/-- The declarations of an outermost element without attributes can be written. -/
theorem declsFine_shape {mix b e} (hs : Shaped mix b e) (ha : e.attrs = []) : DeclsFine (namesOf e).qname (namesOf e).decls e := by
  have h := namesOk e
  constructor
  · intro d hd
    obtain ⟨u, p, hm, rfl⟩ := mem_decls hd
    exact ⟨isName_prefixed (p := "xmlns".toList) (by decide) (h.prefix_fine hm).1,
      List.all_eq_true.2 fun c hc => (shape_uri hs hm c hc).1⟩
  · rw [ha, List.map_nil, List.append_nil]
    have hperm := List.mergeSort_perm (namesOf e).spaces fun a b => decide (a.2 ≤ b.2)
    have hn : (((namesOf e).spaces.mergeSort fun a b => decide (a.2 ≤ b.2)).map (·.2)).Nodup :=
      (hperm.map (·.2)).nodup_iff.2 h.prefixes_nodup
    have := nodup_mapOn (f := fun p : String => "xmlns:".toList ++ p.toList) hn
      (fun x _ y _ e => String.ext (List.append_cancel_left e))
    rw [List.map_map] at this
    unfold Names.decls
    rw [List.map_map]
    exact this

theorem spaced_same {s : List Char} (h : ∀ c ∈ s, isSpace c = true → c = ' ') : spaced s = s := by
  unfold spaced
  conv => rhs; rw [← List.map_id s]
  apply List.map_congr_left
  intro c hc
  split
  · rename_i hs; exact (h c hc hs).symm
  · rfl

/-- The declarations are read as they are written. -/
theorem decls_norm {mix b e} (hs : Shaped mix b e) :
    normAttrs spaced (normAttrs lineEnds (namesOf e).decls) = (namesOf e).decls := by
  unfold normAttrs
  rw [List.map_map]
  conv => rhs; rw [← List.map_id (namesOf e).decls]
  apply List.map_congr_left
  intro d hd
  obtain ⟨u, p, hm, rfl⟩ := mem_decls hd
  have hu := shape_uri hs hm
  have h1 : '\r' ∉ u.toList := fun hc => absurd ((hu _ hc).2 (by decide)) (by decide)
  simp only [Function.comp_apply, id]
  rw [lineEnds_same h1, spaced_same fun c hc => (hu c hc).2]

/-! ## Names of whole trees -/

theorem scoped_mono {n : Names} {sc} (h : Scoped n sc) : Scoped n ([] ++ sc) := h

theorem resolveAttrs_decls (n : Names) (sc) : resolveAttrs sc n.decls = some [] := by
  have : ∀ l : List (List Char × List Char), (∀ d ∈ l, (declares d.1).isSome = true) → resolveAttrs sc l = some [] := by
    intro l
    induction l with
    | nil => intro _; rfl
    | cons d l ih =>
      intro hd
      rw [resolveAttrs, if_pos (hd d (List.mem_cons_self ..))]
      exact ih fun x hx => hd x (List.mem_cons_of_mem _ hx)
  apply this
  intro d hd
  obtain ⟨u, p, hm, rfl⟩ := mem_decls hd
  show (declares ("xmlns:".toList ++ p.toList)).isSome = true
  rw [declares_xmlns]; rfl

/-- An outermost element, written with its declarations, is read with all names in their namespaces. -/
theorem resolve_outermost {mix e f g} (hg : Stable g mix) (hs : Shaped mix false e) (ha : e.attrs = []) {sc}
    (hsc : sc.lookup [] = some reportSpace) :
    resolve sc (docOf (namesOf e).qname f g (namesOf e).decls e) = some (reported mix.toList f g e) := by
  have h := namesOk e
  have hscope := h.scoped hsc
  have key := resolve_shape h (f := f) (g := g) hg e hs (fun t ht => ht) hscope (by simp)
  obtain ⟨t, a, x, c⟩ := e
  simp only [Elem.attrs] at ha
  subst ha
  rw [docOf] at key ⊢
  rw [resolve] at key ⊢
  rw [List.map_nil, List.append_nil] at *
  rw [show declared [] = [] from rfl, List.nil_append, resolveAttrs] at key
  rw [resolveAttrs_decls]
  exact key

/-! ## Names and layout -/

theorem resolve_isElem {sc x y} (h : resolve sc x = some y) : isElem y = isElem x := by
  cases x with
  | text s => rw [resolve] at h; injection h with h; subst h; rfl
  | elem n as c =>
    rw [resolve] at h
    simp only [Option.bind_eq_bind, Option.bind_eq_some_iff] at h
    obtain ⟨a, -, b, -, c', -, h⟩ := h
    injection h with h; subst h; rfl

theorem resolveL_any {sc} : ∀ {xs ys : List Xml}, resolveL sc xs = some ys → ys.any isElem = xs.any isElem
  | [], ys, h => by rw [resolveL] at h; injection h with h; subst h; rfl
  | x :: xs, ys, h => by
    rw [resolveL] at h
    simp only [Option.bind_eq_bind, Option.bind_eq_some_iff] at h
    obtain ⟨y, hy, zs, hz, h⟩ := h
    injection h with h; subst h
    rw [List.any_cons, List.any_cons, resolve_isElem hy, resolveL_any hz]

mutual
theorem resolve_layoutFree : ∀ (x : Xml) (sc), resolve sc (layoutFree x) = (resolve sc x).map layoutFree
  | .text s, sc => by rw [layoutFree, resolve]; rfl
  | .elem n as c, sc => by
    have ih := resolveL_layoutFree c (declared as ++ sc)
    rw [layoutFree, resolve, resolve]
    cases h1 : elemName (declared as ++ sc) n with
    | none => rfl
    | some n' =>
      cases h2 : resolveAttrs (declared as ++ sc) as with
      | none => rfl
      | some as' =>
        by_cases hc : c.any isElem = true
        · rw [if_pos hc, ih]
          cases h3 : resolveL (declared as ++ sc) c with
          | none => rfl
          | some c' =>
            have := resolveL_any h3
            simp only [Option.bind_eq_bind, Option.bind_some, Option.map_some]
            rw [layoutFree, this, if_pos hc]
        · rw [if_neg hc]
          cases h3 : resolveL (declared as ++ sc) c with
          | none => rfl
          | some c' =>
            have := resolveL_any h3
            simp only [Option.bind_eq_bind, Option.bind_some, Option.map_some]
            rw [layoutFree, this, if_neg hc]
theorem resolveL_layoutFree : ∀ (xs : List Xml) (sc), resolveL sc (layoutFreeL xs) = (resolveL sc xs).map layoutFreeL
  | [], sc => rfl
  | .text s :: xs, sc => by
    have ih := resolveL_layoutFree xs sc
    rw [layoutFreeL, resolveL, resolve]
    split
    · rename_i ht
      rw [ih]
      cases resolveL sc xs with
      | none => rfl
      | some ys =>
        simp only [Option.bind_eq_bind, Option.bind_some, Option.map_some]
        rw [layoutFreeL, if_pos ht]
    · rename_i ht
      rw [resolveL, resolve, ih]
      cases resolveL sc xs with
      | none => rfl
      | some ys =>
        simp only [Option.bind_eq_bind, Option.bind_some, Option.map_some]
        rw [layoutFreeL, if_neg ht]
  | .elem n as c :: xs, sc => by
    have ih1 := resolve_layoutFree (.elem n as c) sc
    have ih2 := resolveL_layoutFree xs sc
    rw [layoutFreeL, resolveL, resolveL, ih1, ih2]
    cases h1 : resolve sc (.elem n as c) with
    | none => rfl
    | some y =>
      have he := resolve_isElem h1
      cases resolveL sc xs with
      | none => rfl
      | some ys =>
        simp only [Option.bind_eq_bind, Option.bind_some, Option.map_some]
        rw [layoutFreeL_elem (by rw [he]; rfl)]
end

end Jpy
