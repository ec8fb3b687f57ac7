import Verif.Model.Write
import Verif.Spec.Output
/-! # The reader of `Spec/Xml.lean` on the output of the serialisers -/

namespace Jpy

open Spec.Xml

theorem run_append (s : State) (a b : List Char) : run s (a ++ b) = (run s a).bind fun t => run t b := by
  induction a generalizing s with
  | nil => rfl
  | cons c cs ih =>
    rw [List.cons_append, run, run]
    cases h : step s c with
    | none => rfl
    | some t => exact ih t

theorem run_nil (s : State) : run s [] = some s := rfl

/-- One more character. -/
theorem run_cons {s s' : State} {c : Char} (h : step s c = some s') (cs : List Char) : run s (c :: cs) = run s' cs := by
  rw [run, h]

theorem run_then {s s' : State} {a b : List Char} (h : run s a = some s') : run s (a ++ b) = run s' b := by
  rw [run_append, h]; rfl

/-! ## Names and characters -/

theorem nameStart_char {c : Char} (h : isNameStart c = true) : isNameChar c = true := by
  unfold isNameChar
  unfold isNameStart at h
  rw [h]; rfl

theorem nameChar_ne {c d : Char} (h : isNameChar c = true) (hd : isNameChar d = false) : c ≠ d := by
  rintro rfl; rw [h] at hd; cases hd

theorem isSpace_not_name {c : Char} (h : isNameChar c = true) : isSpace c = false := by
  have h1 := nameChar_ne h (d := ' ') (by decide)
  have h2 := nameChar_ne h (d := '\t') (by decide)
  have h3 := nameChar_ne h (d := '\n') (by decide)
  have h4 := nameChar_ne h (d := '\r') (by decide)
  simp [isSpace, h1, h2, h3, h4]

/-- A name after `<`. -/
theorem run_name {cs : List Char} (h : isName cs = true) (t here st) :
    run ⟨.lt, t, here, st⟩ cs = some ⟨.name cs.reverse, t, here, st⟩ := by
  have aux : ∀ (l acc : List Char), l.all isNameChar = true →
      run ⟨.name acc, t, here, st⟩ l = some ⟨.name (l.reverse ++ acc), t, here, st⟩ := by
    intro l
    induction l with
    | nil => intro acc _; rfl
    | cons c cs ih =>
      intro acc hl
      rw [List.all_cons, Bool.and_eq_true] at hl
      rw [run_cons (s' := ⟨.name (c :: acc), t, here, st⟩) (by simp only [step, if_pos hl.1]), ih _ hl.2]
      simp
  cases cs with
  | nil => cases h
  | cons c cs =>
    rw [isName, Bool.and_eq_true] at h
    have hne : c ≠ '/' := nameChar_ne (nameStart_char h.1) (by decide)
    rw [run_cons (s' := ⟨.name [c], t, here, st⟩) (by simp only [step, if_neg hne, if_pos h.1]), aux _ _ h.2]
    simp

/-- A name in an end tag. -/
theorem run_close {cs : List Char} (h : isName cs = true) (t here st) :
    run ⟨.close [], t, here, st⟩ cs = some ⟨.close cs.reverse, t, here, st⟩ := by
  have aux : ∀ (l acc : List Char), l.all isNameChar = true →
      run ⟨.close acc, t, here, st⟩ l = some ⟨.close (l.reverse ++ acc), t, here, st⟩ := by
    intro l
    induction l with
    | nil => intro acc _; rfl
    | cons c cs ih =>
      intro acc hl
      rw [List.all_cons, Bool.and_eq_true] at hl
      rw [run_cons (s' := ⟨.close (c :: acc), t, here, st⟩) (by simp only [step, if_pos hl.1]), ih _ hl.2]
      simp
  have : cs.all isNameChar = true := by
    cases cs with
    | nil => cases h
    | cons c cs =>
      rw [isName, Bool.and_eq_true] at h
      rw [List.all_cons, nameStart_char h.1, h.2]; rfl
  rw [aux _ _ this]; simp

/-- The name of an attribute. -/
theorem run_attr {cs : List Char} (h : isName cs = true) (n as t here st) :
    run ⟨.tag n as, t, here, st⟩ cs = some ⟨.attr n as cs.reverse, t, here, st⟩ := by
  have aux : ∀ (l acc : List Char), l.all isNameChar = true →
      run ⟨.attr n as acc, t, here, st⟩ l = some ⟨.attr n as (l.reverse ++ acc), t, here, st⟩ := by
    intro l
    induction l with
    | nil => intro acc _; rfl
    | cons c cs ih =>
      intro acc hl
      rw [List.all_cons, Bool.and_eq_true] at hl
      rw [run_cons (s' := ⟨.attr n as (c :: acc), t, here, st⟩) (by simp only [step, if_pos hl.1]), ih _ hl.2]
      simp
  cases cs with
  | nil => cases h
  | cons c cs =>
    rw [isName, Bool.and_eq_true] at h
    have hc := nameStart_char h.1
    have h1 : c ≠ '/' := nameChar_ne hc (by decide)
    have h2 : c ≠ '>' := nameChar_ne hc (by decide)
    have h3 := isSpace_not_name hc
    rw [run_cons (s' := ⟨.attr n as [c], t, here, st⟩) (by
      simp only [step, h3, if_neg h1, if_neg h2, if_pos h.1, Bool.false_eq_true, if_false]), aux _ _ h.2]
    simp

/-! ## Character data and attribute values -/

/-- References in character data. -/
theorem run_ref {x : Char} (r : List Char) (hr : ∀ c ∈ r, c ≠ ';') (hx : refChar r = some x) (t here st)
    (hst : st ≠ []) :
    run ⟨.content, t, here, st⟩ ('&' :: r ++ [';']) = some ⟨.content, x :: t, here, st⟩ := by
  have aux : ∀ (l acc : List Char), (∀ c ∈ l, c ≠ ';') →
      run ⟨.ref acc, t, here, st⟩ l = some ⟨.ref (l.reverse ++ acc), t, here, st⟩ := by
    intro l
    induction l with
    | nil => intro acc _; rfl
    | cons c cs ih =>
      intro acc hl
      rw [run_cons (s' := ⟨.ref (c :: acc), t, here, st⟩) (by
        simp only [step, if_neg (hl c (List.mem_cons_self ..))]), ih _ (fun d hd => hl d (List.mem_cons_of_mem _ hd))]
      simp
  rw [List.cons_append, run_cons (s' := ⟨.ref [], t, here, st⟩) (by
    simp only [step]; rw [if_neg (by decide), if_pos ⟨trivial, hst⟩]), run_then (aux r [] hr)]
  rw [run_cons (s' := ⟨.content, x :: t, here, st⟩) (by
    simp only [step, List.append_nil, List.reverse_reverse, hx, if_true, Option.map_some])]
  rfl

/-- References in attribute values. -/
theorem run_valueRef {x : Char} (r : List Char) (hr : ∀ c ∈ r, c ≠ ';') (hx : refChar r = some x) (n as a acc t here st) :
    run ⟨.value n as a '"' acc, t, here, st⟩ ('&' :: r ++ [';']) = some ⟨.value n as a '"' (x :: acc), t, here, st⟩ := by
  have aux : ∀ (l racc : List Char), (∀ c ∈ l, c ≠ ';') →
      run ⟨.valueRef n as a '"' acc racc, t, here, st⟩ l =
        some ⟨.valueRef n as a '"' acc (l.reverse ++ racc), t, here, st⟩ := by
    intro l
    induction l with
    | nil => intro _ _; rfl
    | cons c cs ih =>
      intro racc hl
      rw [run_cons (s' := ⟨.valueRef n as a '"' acc (c :: racc), t, here, st⟩) (by
        simp only [step, if_neg (hl c (List.mem_cons_self ..))]), ih _ (fun d hd => hl d (List.mem_cons_of_mem _ hd))]
      simp
  rw [List.cons_append, run_cons (s' := ⟨.valueRef n as a '"' acc [], t, here, st⟩) (by
    simp only [step]; rw [if_neg (by decide)]; rfl), run_then (aux r [] hr)]
  rw [run_cons (s' := ⟨.value n as a '"' (x :: acc), t, here, st⟩) (by
    simp only [step, List.append_nil, List.reverse_reverse, hx, if_true, Option.map_some])]
  rfl

theorem run_plain {c : Char} (h1 : c ≠ '<') (h2 : c ≠ '&') (h3 : c ≠ '>') (hc : isChar c = true) (t here st) :
    run ⟨.content, t, here, st⟩ [c] = some ⟨.content, c :: t, here, st⟩ := by
  rw [run_cons (s' := ⟨.content, c :: t, here, st⟩)]
  · rfl
  · simp only [step, if_neg h1]
    rw [if_neg (fun h => h2 h.1), if_pos ⟨h2, h3, hc⟩]

theorem run_escText (s : List Char) (hs : s.all isChar = true) (t here st) (hst : st ≠ []) :
    run ⟨.content, t, here, st⟩ (escText s) = some ⟨.content, s.reverse ++ t, here, st⟩ := by
  induction s generalizing t with
  | nil => rfl
  | cons c cs ih =>
    rw [List.all_cons, Bool.and_eq_true] at hs
    have key : run ⟨.content, t, here, st⟩ (escText [c]) = some ⟨.content, c :: t, here, st⟩ := by
      simp only [escText, List.flatMap_cons, List.flatMap_nil, List.append_nil]
      split
      · rename_i h; subst h; exact run_ref "amp".toList (by decide) (by decide +kernel) t here st hst
      split
      · rename_i h; subst h; exact run_ref "lt".toList (by decide) (by decide +kernel) t here st hst
      split
      · rename_i h; subst h; exact run_ref "gt".toList (by decide) (by decide +kernel) t here st hst
      · rename_i h1 h2 h3; exact run_plain h2 h1 h3 hs.1 t here st
    have e : escText (c :: cs) = escText [c] ++ escText cs := by simp [escText]
    rw [e, run_then key, ih hs.2]
    simp

theorem run_escData (s : List Char) (hs : s.all isChar = true) (t here st) (hst : st ≠ []) :
    run ⟨.content, t, here, st⟩ (escData s) = some ⟨.content, s.reverse ++ t, here, st⟩ := by
  induction s generalizing t with
  | nil => rfl
  | cons c cs ih =>
    rw [List.all_cons, Bool.and_eq_true] at hs
    have key : run ⟨.content, t, here, st⟩ (escData [c]) = some ⟨.content, c :: t, here, st⟩ := by
      simp only [escData, List.flatMap_cons, List.flatMap_nil, List.append_nil]
      split
      · rename_i h; subst h; exact run_ref "amp".toList (by decide) (by decide +kernel) t here st hst
      split
      · rename_i h; subst h; exact run_ref "lt".toList (by decide) (by decide +kernel) t here st hst
      split
      · rename_i h; subst h; exact run_ref "quot".toList (by decide) (by decide +kernel) t here st hst
      split
      · rename_i h; subst h; exact run_ref "gt".toList (by decide) (by decide +kernel) t here st hst
      · rename_i h1 h2 _ h3; exact run_plain h2 h1 h3 hs.1 t here st
    have e : escData (c :: cs) = escData [c] ++ escData cs := by simp [escData]
    rw [e, run_then key, ih hs.2]
    simp

theorem run_valueChar {c : Char} (h1 : c ≠ '"') (h2 : c ≠ '&') (h3 : c ≠ '<') (hc : isChar c = true)
    (n as a acc t here st) :
    run ⟨.value n as a '"' acc, t, here, st⟩ [c] =
      some ⟨.value n as a '"' ((if isSpace c then ' ' else c) :: acc), t, here, st⟩ := by
  by_cases hsp : isSpace c = true
  · rw [run_cons (s' := ⟨.value n as a '"' (' ' :: acc), t, here, st⟩), if_pos hsp]
    · rfl
    · simp only [step, if_neg h1, if_neg h2, if_neg h3, if_pos hsp]
  · rw [run_cons (s' := ⟨.value n as a '"' (c :: acc), t, here, st⟩), if_neg hsp]
    · rfl
    · simp only [step, if_neg h1, if_neg h2, if_neg h3, if_neg hsp, if_pos hc]

theorem run_value_escAttr (s : List Char) (hs : s.all isChar = true) (n as a acc t here st) :
    run ⟨.value n as a '"' acc, t, here, st⟩ (escAttr s) = some ⟨.value n as a '"' (s.reverse ++ acc), t, here, st⟩ := by
  induction s generalizing acc with
  | nil => rfl
  | cons c cs ih =>
    rw [List.all_cons, Bool.and_eq_true] at hs
    have key : run ⟨.value n as a '"' acc, t, here, st⟩ (escAttr [c]) = some ⟨.value n as a '"' (c :: acc), t, here, st⟩ := by
      simp only [escAttr, List.flatMap_cons, List.flatMap_nil, List.append_nil]
      split
      · rename_i h; subst h; exact run_valueRef "amp".toList (by decide) (by decide +kernel) ..
      split
      · rename_i h; subst h; exact run_valueRef "lt".toList (by decide) (by decide +kernel) ..
      split
      · rename_i h; subst h; exact run_valueRef "gt".toList (by decide) (by decide +kernel) ..
      split
      · rename_i h; subst h; exact run_valueRef "quot".toList (by decide) (by decide +kernel) ..
      split
      · rename_i h; subst h; exact run_valueRef "#13".toList (by decide) (by decide +kernel) ..
      split
      · rename_i h; subst h; exact run_valueRef "#10".toList (by decide) (by decide +kernel) ..
      split
      · rename_i h; subst h; exact run_valueRef "#09".toList (by decide) (by decide +kernel) ..
      · rename_i h1 h2 _ h4 h5 h6 h7
        rw [run_valueChar h4 h1 h2 hs.1]
        congr 3
        split
        · rename_i hsp
          simp only [isSpace, Bool.or_eq_true, beq_iff_eq, h5, h6, h7, or_false] at hsp
          rw [hsp]
        · rfl
    have e : escAttr (c :: cs) = escAttr [c] ++ escAttr cs := by simp [escAttr]
    rw [e, run_then key, ih hs.2]
    simp

theorem run_value_escData (s : List Char) (hs : s.all isChar = true) (n as a acc t here st) :
    run ⟨.value n as a '"' acc, t, here, st⟩ (escData s) =
      some ⟨.value n as a '"' ((spaced s).reverse ++ acc), t, here, st⟩ := by
  induction s generalizing acc with
  | nil => rfl
  | cons c cs ih =>
    rw [List.all_cons, Bool.and_eq_true] at hs
    have key : run ⟨.value n as a '"' acc, t, here, st⟩ (escData [c]) =
        some ⟨.value n as a '"' ((if isSpace c then ' ' else c) :: acc), t, here, st⟩ := by
      simp only [escData, List.flatMap_cons, List.flatMap_nil, List.append_nil]
      split
      · rename_i h; subst h; exact run_valueRef "amp".toList (by decide) (by decide +kernel) ..
      split
      · rename_i h; subst h; exact run_valueRef "lt".toList (by decide) (by decide +kernel) ..
      split
      · rename_i h; subst h; exact run_valueRef "quot".toList (by decide) (by decide +kernel) ..
      split
      · rename_i h; subst h; exact run_valueRef "gt".toList (by decide) (by decide +kernel) ..
      · rename_i h1 h2 h3 h4
        exact run_valueChar h3 h1 h2 hs.1 ..
    have e : escData (c :: cs) = escData [c] ++ escData cs := by simp [escData]
    rw [e, run_then key, ih hs.2]
    simp [spaced]

/-! ## Attributes -/

/-- How an escaped value is read back. -/
def ReadsBack (esc norm : List Char → List Char) : Prop :=
  ∀ (s : List Char), s.all isChar = true → ∀ n as a acc t here st,
    run ⟨.value n as a '"' acc, t, here, st⟩ (esc s) = some ⟨.value n as a '"' ((norm s).reverse ++ acc), t, here, st⟩

/-- The attributes with normalised values. -/
def normAttrs (norm : List Char → List Char) (as : List (List Char × List Char)) : List (List Char × List Char) :=
  as.map fun (k, v) => (k, norm v)

theorem run_attrs {esc norm : List Char → List Char} (he : ReadsBack esc norm)
    (bs : List (List Char × List Char)) (hn : ∀ b ∈ bs, isName b.1 = true ∧ b.2.all isChar = true)
    (as : List (List Char × List Char)) (hnd : (as.map (·.1) ++ bs.map (·.1)).Nodup) (n t here st) :
    run ⟨.next n as, t, here, st⟩ (attrText esc bs) = some ⟨.next n (as ++ normAttrs norm bs), t, here, st⟩ := by
  induction bs generalizing as with
  | nil => simp [attrText, normAttrs, run]
  | cons b bs ih =>
    obtain ⟨k, v⟩ := b
    obtain ⟨hk, hv⟩ := hn (k, v) (List.mem_cons_self ..)
    have e : attrText esc ((k, v) :: bs) = (' ' :: (k ++ ('=' :: '"' :: (esc v ++ ('"' :: attrText esc bs))))) := by
      simp [attrText]
    have hmem : k ∉ as.map (·.1) := fun hm => by
      have := (List.nodup_append.1 hnd).2.2 k hm k (by simp)
      exact this rfl
    rw [e, run_cons (s' := ⟨.tag n as, t, here, st⟩) (by simp only [step]; rfl), run_then (run_attr hk ..),
      run_cons (s' := ⟨.equal n as k, t, here, st⟩) (by
        simp only [step]; rw [if_neg (by decide), if_pos trivial, List.reverse_reverse]),
      run_cons (s' := ⟨.value n as k '"' [], t, here, st⟩) (by simp only [step]; rw [if_pos (.inl trivial)]),
      run_then (he v hv ..),
      run_cons (s' := ⟨.next n (as ++ [(k, norm v)]), t, here, st⟩) (by
        simp only [step]; rw [if_pos trivial, if_neg hmem, List.append_nil, List.reverse_reverse]),
      ih (fun b hb => hn b (List.mem_cons_of_mem _ hb))]
    · simp [normAttrs]
    · simpa using hnd

/-- After a name, what follows is read as after an attribute. -/
theorem run_name_next {c : Char} (hc : c = ' ' ∨ c = '>' ∨ c = '/') (acc cs t here st) :
    run ⟨.name acc, t, here, st⟩ (c :: cs) = run ⟨.next acc.reverse [], t, here, st⟩ (c :: cs) := by
  rcases hc with rfl | rfl | rfl <;> rfl

/-! ## Elements -/

/-- Every element of a tree is expressible. -/
def AllExpressible (q : String → List Char) (e : Elem) : Prop := ∀ x ∈ e.iter, Expressible q x

theorem iter_self (e : Elem) : e ∈ e.iter := by cases e; simp [Elem.iter]

theorem mem_iter_list {es : List Elem} {x : Elem} : x ∈ Elem.iterL es ↔ ∃ e ∈ es, x ∈ e.iter := by
  induction es with
  | nil => simp [Elem.iterL]
  | cons e es ih => simp [Elem.iterL, ih]

theorem AllExpressible.child {q t a x c l e} (h : AllExpressible q (.mk t a x c l)) (he : e ∈ c) : AllExpressible q e :=
  fun y hy => h y (by rw [Elem.iter]; exact List.mem_cons_of_mem _ (mem_iter_list.2 ⟨e, he, hy⟩))

/-- The namespace declarations and the attributes of the outermost element. -/
structure DeclsFine (q : String → List Char) (d : List (List Char × List Char)) (e : Elem) : Prop where
  fine : ∀ b ∈ d, isName b.1 = true ∧ b.2.all isChar = true
  distinct : (d.map (·.1) ++ e.attrs.map fun a => q a.1).Nodup

theorem AllExpressible.noDecls {q e} (h : AllExpressible q e) : DeclsFine q [] e :=
  ⟨by simp, by simpa using (h e (iter_self e)).distinct⟩

/-- Name and attributes of a start tag. -/
theorem run_start {esc norm} (he : ReadsBack esc norm) {q d t a x c l} (h : AllExpressible q (.mk t a x c l))
    (hd : DeclsFine q d (.mk t a x c l)) {w : Char} (hw : w = ' ' ∨ w = '>' ∨ w = '/') (ws u here st) :
    run ⟨.content, u, here, st⟩ ('<' :: q t ++ attrText esc (d ++ attrsOf q a) ++ w :: ws) =
      run ⟨.next (q t) (normAttrs norm (d ++ attrsOf q a)), [], withText u here, st⟩ (w :: ws) := by
  have hx := h _ (iter_self _)
  rw [List.append_assoc, List.cons_append, run_cons (s' := ⟨.lt, [], withText u here, st⟩) (by simp only [step]; rfl),
    run_then (run_name (cs := q t) hx.tag ..)]
  have hfine : ∀ b ∈ d ++ attrsOf q a, isName b.1 = true ∧ b.2.all isChar = true := by
    intro b hb
    rcases List.mem_append.1 hb with hb | hb
    · exact hd.fine b hb
    · obtain ⟨y, hy, rfl⟩ := List.mem_map.1 hb
      exact hx.attrs y hy
  have hnd : ((d ++ attrsOf q a).map (·.1)).Nodup := by
    have := hd.distinct
    rw [List.map_append]
    simpa [attrsOf, List.map_map, Function.comp_def] using this
  have key := run_attrs he (d ++ attrsOf q a) hfine [] (by simpa using hnd) (q t) [] (withText u here) st
  rw [List.nil_append] at key
  cases hds : d ++ attrsOf q a with
  | nil =>
    rw [show attrText esc [] = [] from rfl, List.nil_append, run_name_next hw, List.reverse_reverse]
    rfl
  | cons b bs =>
    rw [hds] at key
    obtain ⟨k, v⟩ := b
    have e : attrText esc ((k, v) :: bs) = ' ' :: (k ++ ('=' :: '"' :: (esc v ++ ('"' :: attrText esc bs)))) := by
      simp [attrText]
    rw [e] at key ⊢
    rw [List.cons_append, run_name_next (.inl rfl), List.reverse_reverse, ← List.cons_append, run_then key]

/-- An end tag. -/
theorem run_end {n : List Char} (h : isName n = true) (as u here outer st) :
    run ⟨.content, u, here, (n, as, outer) :: st⟩ ("</".toList ++ n ++ ['>']) =
      some ⟨.content, [], .elem n as (withText u here).reverse :: outer, st⟩ := by
  rw [show ("</".toList : List Char) = ['<', '/'] from rfl, List.append_assoc, List.cons_append,
    run_cons (s' := ⟨.lt, [], withText u here, (n, as, outer) :: st⟩) (by simp only [step]; rfl), List.cons_append,
    run_cons (s' := ⟨.close [], [], withText u here, (n, as, outer) :: st⟩) (by simp only [step]; rfl),
    List.nil_append, run_then (run_close h ..)]
  rw [run_cons (s' := ⟨.content, [], .elem n as (withText u here).reverse :: outer, st⟩) ?_]
  · rfl
  · simp only [step]
    rw [if_neg (by decide), if_neg (by decide), if_pos trivial, List.reverse_reverse, closeElem]
    simp

theorem readsBack_escAttr : ReadsBack escAttr id := fun s hs n as a acc t here st => run_value_escAttr s hs n as a acc t here st
theorem readsBack_escData : ReadsBack escData spaced := fun s hs n as a acc t here st => run_value_escData s hs n as a acc t here st

theorem textOf_chars {q t a x c l} (h : AllExpressible q (.mk t a x c l)) : (textOf x).all isChar = true := by
  have := (h _ (iter_self _)).text
  cases x with
  | str s => exact this s rfl
  | _ => rfl

theorem textNode_textOf (f : List Char → List Char) (x : PyVal) :
    textNode f x = if textOf x = [] then [] else [.text (f (textOf x))] := by
  cases x <;> simp [textNode, textOf]

theorem withText_reverse (u : List Char) : withText u.reverse [] = if u = [] then [] else [.text u] := by
  simp [withText]

theorem normAttrs_attrsOf (g q a) : normAttrs g (attrsOf q a) = a.map fun (k, v) => (q k, g v.toList) := by
  simp [normAttrs, attrsOf]

theorem normAttrs_append (g a b) : normAttrs g (a ++ b) = normAttrs g a ++ normAttrs g b := by simp [normAttrs]

theorem normAttrs_id (a) : normAttrs id a = a := by simp [normAttrs]

theorem docOf_tail (q f g d t a x c l) : docOf q f g d (.mk t a x c l) = docOf q f g d (.mk t a x c) := by
  rw [docOf, docOf]

theorem etText_tail (q d t a x c l) : etText q d (.mk t a x c l) = etText q d (.mk t a x c) ++ escText l.toList := by
  rw [etText, etText]; simp [escText]

theorem textNode_tail (f : List Char → List Char) (l : String) :
    textNode f (.str l) = if l.toList = [] then [] else [.text (f l.toList)] := rfl

theorem withText_tail (l : String) (xs : List Xml) : withText l.toList.reverse xs = (textNode id (.str l)).reverse ++ xs := by
  rw [textNode_tail]
  unfold withText
  by_cases h : l.toList = []
  · rw [if_pos h, if_pos (by simp [h])]; rfl
  · rw [if_neg h, if_neg (by simpa using h)]; simp

mutual
theorem run_etText (q : String → List Char) (d) (e : Elem) (h : AllExpressible q e) (hd : DeclsFine q d e) (u here st)
    (hst : st ≠ [] ∨ e.tail = "") :
    run ⟨.content, u, here, st⟩ (etText q d e) =
      some ⟨.content, e.tail.toList.reverse, docOf q id id d e :: withText u here, st⟩ := by
  obtain ⟨t, a, x, c, l⟩ := e
  have htail : run ⟨.content, [], docOf q id id d (.mk t a x c l) :: withText u here, st⟩ (escText l.toList) =
      some ⟨.content, l.toList.reverse, docOf q id id d (.mk t a x c l) :: withText u here, st⟩ := by
    rcases hst with hst | hst
    · rw [run_escText l.toList (h _ (iter_self _)).tail _ _ _ hst, List.append_nil]
    · have : l = "" := hst
      subst this; rfl
  rw [etText_tail]
  refine (run_then ?_).trans htail
  rw [etText, docOf]
  have hat : d ++ a.map (fun (k, v) => (q k, id v.toList)) = normAttrs id (d ++ attrsOf q a) := by
    rw [normAttrs_append, normAttrs_id, normAttrs_attrsOf]
  rw [show escText "".toList = [] from rfl, List.append_nil]
  by_cases hc : textOf x = [] ∧ c.isEmpty = true
  · rw [if_pos hc, show (" />".toList : List Char) = [' ', '/', '>'] from rfl,
      run_start readsBack_escAttr h hd (.inl rfl),
      run_cons (s' := ⟨.tag (q t) (normAttrs id (d ++ attrsOf q a)), [], withText u here, st⟩) (by simp only [step]; rfl),
      run_cons (s' := ⟨.slash (q t) (normAttrs id (d ++ attrsOf q a)), [], withText u here, st⟩) (by simp only [step]; rfl),
      run_cons (s' := ⟨.content, [], .elem (q t) (normAttrs id (d ++ attrsOf q a)) [] :: withText u here, st⟩)
        (by simp only [step]; rfl)]
    have hc' : c = [] := by cases c with | nil => rfl | cons => cases hc.2
    rw [hat, textNode_textOf, if_pos hc.1, hc']
    rfl
  · rw [if_neg hc]
    simp only [List.append_assoc, List.cons_append]
    rw [← List.cons_append, ← List.append_assoc, run_start readsBack_escAttr h hd (.inr (.inl rfl)),
      run_cons (s' := ⟨.content, [], [], (q t, normAttrs id (d ++ attrsOf q a), withText u here) :: st⟩)
        (by simp only [step]; rfl),
      run_then (run_escText _ (textOf_chars h) _ _ _ (by simp)), List.append_nil]
    obtain ⟨u', here', k1, k2⟩ := run_etTextL q c (fun e he => h.child he) (textOf x).reverse []
      ((q t, normAttrs id (d ++ attrsOf q a), withText u here) :: st) (by simp)
    rw [hat, run_then k1, ← List.append_assoc, run_end (n := q t) (h _ (iter_self _)).tag, k2, withText_reverse, textNode_textOf]
    split <;> simp
theorem run_etTextL (q : String → List Char) (es : List Elem) (h : ∀ e ∈ es, AllExpressible q e) (u here st)
    (hst : st ≠ []) :
    ∃ u' here', run ⟨.content, u, here, st⟩ (etTextL q es) = some ⟨.content, u', here', st⟩ ∧
      withText u' here' = (docsOf q id id es).reverse ++ withText u here := by
  match es with
  | [] => exact ⟨u, here, by rw [etTextL]; rfl, by rw [docsOf]; rfl⟩
  | e :: es =>
    have he := h e (List.mem_cons_self ..)
    obtain ⟨u', here', k1, k2⟩ := run_etTextL q es (fun e he => h e (List.mem_cons_of_mem _ he)) e.tail.toList.reverse
      (docOf q id id [] e :: withText u here) st hst
    refine ⟨u', here', ?_, ?_⟩
    · rw [etTextL, run_then (run_etText q [] e he he.noDecls u here st (.inl hst)), k1]
    · rw [k2, docsOf, withText_tail]
      simp
end

/-! ## Pretty-printed elements -/

theorem trim_space_left {w : List Char} (hw : w.all isSpace = true) (s) : trim (w ++ s) = trim s := by
  induction w with
  | nil => rfl
  | cons c w ih =>
    rw [List.all_cons, Bool.and_eq_true] at hw
    rw [← ih hw.2]
    simp [trim, hw.1]

theorem dropWhile_append_all {p : Char → Bool} {w : List Char} (hw : w.all p = true) (s) :
    (w ++ s).dropWhile p = s.dropWhile p := by
  induction w with
  | nil => rfl
  | cons c w ih =>
    rw [List.all_cons, Bool.and_eq_true] at hw
    simp [hw.1, ih hw.2]

theorem trim_space_right {w : List Char} (hw : w.all isSpace = true) (s) : trim (s ++ w) = trim s := by
  have hr : w.reverse.all isSpace = true := by simpa using hw
  induction s with
  | nil =>
    have := trim_space_left hw []
    simpa [trim] using this
  | cons c s ih =>
    by_cases hc : isSpace c = true
    · simpa [trim, hc] using ih
    · simp only [trim, List.cons_append, List.dropWhile_cons, hc, Bool.false_eq_true, if_false]
      rw [← List.cons_append, List.reverse_append, dropWhile_append_all hr]

theorem trim_blank {w : List Char} (hw : w.all isSpace = true) : trim w = [] := by
  have := trim_space_left hw []
  simpa [trim] using this

theorem layoutFreeL_append (a b : List Xml) : layoutFreeL (a ++ b) = layoutFreeL a ++ layoutFreeL b := by
  induction a with
  | nil => rfl
  | cons x a ih =>
    cases x with
    | text s => simp only [List.cons_append, layoutFreeL]; split <;> simp [ih]
    | elem n as c => simp [layoutFreeL, ih]

theorem layoutFreeL_blank {w : List Char} (hw : w.all isSpace = true) (here : List Xml) :
    layoutFreeL (withText w here).reverse = layoutFreeL here.reverse := by
  unfold withText
  split
  · rfl
  · rw [List.reverse_cons, layoutFreeL_append, layoutFreeL]
    have : w.reverse.all isSpace = true := by simpa using hw
    rw [if_pos (trim_blank this)]
    simp [layoutFreeL]

theorem docOf_isElem (q f g d e) : isElem (docOf q f g d e) = true := by cases e; rfl

theorem layoutFreeL_elem {x : Xml} (h : isElem x = true) (xs) : layoutFreeL (x :: xs) = layoutFree x :: layoutFreeL xs := by
  cases x with
  | text s => cases h
  | elem n as c => rw [layoutFreeL]

theorem any_isElem_docs {q f g es} (h : es ≠ []) : (docsOf q f g es).any isElem = true := by
  cases es with
  | nil => exact absurd rfl h
  | cons e es => simp [docsOf, docOf_isElem]

theorem run_blank {w : List Char} (hw : w.all isSpace = true) (u here st) :
    run ⟨.content, u, here, st⟩ w = some ⟨.content, w.reverse ++ u, here, st⟩ := by
  induction w generalizing u with
  | nil => rfl
  | cons c w ih =>
    rw [List.all_cons, Bool.and_eq_true] at hw
    have h : ∀ d, isSpace d = false → c ≠ d := by
      rintro d hd rfl; rw [hw.1] at hd; cases hd
    have hch : isChar c = true := by
      have := hw.1
      simp only [isSpace, Bool.or_eq_true, beq_iff_eq] at this
      rcases this with ((rfl | rfl) | rfl) | rfl <;> decide
    have := run_plain (h '<' (by decide)) (h '&' (by decide)) (h '>' (by decide)) hch u here st
    rw [show c :: w = [c] ++ w from rfl, run_then this, ih hw.2]
    simp

/-- Every text without carriage returns is left alone by `eol`. -/
theorem eol_eq : ∀ s : List Char, eol s = lineEnds s
  | [] => rfl
  | c :: cs => by
    by_cases hc : c = '\r'
    · subst hc
      cases cs with
      | nil => rfl
      | cons d ds =>
        by_cases hd : d = '\n'
        · subst hd; rw [eol, lineEnds, eol_eq ds]
        · rw [eol, lineEnds, eol_eq (d :: ds)] <;> (intro; simp_all)
    · rw [eol, lineEnds, eol_eq cs] <;> (intros; simp_all)

theorem lineEnds_cons {c : Char} (hc : c ≠ '\r') (cs) : lineEnds (c :: cs) = c :: lineEnds cs := by
  rw [lineEnds] <;> (intros; simp_all)

theorem lineEnds_nil_iff (s : List Char) : lineEnds s = [] ↔ s = [] := by
  cases s with
  | nil => simp [lineEnds]
  | cons c cs =>
    simp only [reduceCtorEq, iff_false]
    by_cases hc : c = '\r'
    · subst hc
      cases cs with
      | nil => simp [lineEnds]
      | cons d ds =>
        by_cases hd : d = '\n'
        · subst hd; simp [lineEnds]
        · rw [lineEnds] <;> (intros; simp_all)
    · rw [lineEnds_cons hc]; simp

theorem lineEnds_chars : ∀ s : List Char, s.all isChar = true → (lineEnds s).all isChar = true
  | [], _ => rfl
  | c :: cs, h => by
    rw [List.all_cons, Bool.and_eq_true] at h
    by_cases hc : c = '\r'
    · subst hc
      cases cs with
      | nil => decide
      | cons d ds =>
        have h2 := h.2
        rw [List.all_cons, Bool.and_eq_true] at h2
        by_cases hd : d = '\n'
        · subst hd; rw [lineEnds, List.all_cons, lineEnds_chars ds h2.2]; decide
        · rw [lineEnds, List.all_cons, lineEnds_chars (d :: ds) h.2]
          · decide
          · intro; simp_all
    · rw [lineEnds_cons hc, List.all_cons, h.1, lineEnds_chars cs h.2]; rfl

/-- The text after an element on a line of its own. -/
def prettyTail (ind : List Char) (l : String) : List Char :=
  if lineEnds l.toList = [] then [] else escData (ind ++ lineEnds l.toList ++ ['\n'])

theorem pretty_tail (q d ind t a x c l) :
    prettyText q d ind (.mk t a x c l) = prettyText q d ind (.mk t a x c) ++ prettyTail ind l := by
  rw [prettyText.eq_def, prettyText.eq_def]
  simp only [eol_eq, prettyTail]
  rw [if_pos (show lineEnds "".toList = [] from rfl), List.append_nil]
  rfl

theorem pretty_empty {q d ind t a x} (hx : textOf x = []) :
    prettyText q d ind (.mk t a x []) =
      ind ++ ('<' :: q t ++ attrText escData (d ++ attrsOf q a) ++ '/' :: ['>', '\n']) := by
  rw [prettyText.eq_def]
  simp only [hx, eol]
  rw [if_pos (show eol "".toList = [] from rfl)]
  simp

theorem pretty_leaf {q d ind t a x} (hx : textOf x ≠ []) :
    prettyText q d ind (.mk t a x []) =
      ind ++ ('<' :: q t ++ attrText escData (d ++ attrsOf q a) ++ '>' :: (escData (lineEnds (textOf x)) ++
        (("</".toList ++ q t ++ ['>']) ++ ['\n']))) := by
  cases h : lineEnds (textOf x) with
  | nil => exact absurd ((lineEnds_nil_iff _).1 h) hx
  | cons y ys =>
    have h' : eol (textOf x) = y :: ys := by rw [eol_eq]; exact h
    rw [prettyText.eq_def]
    simp only [h']
    rw [if_pos (show eol "".toList = [] from rfl)]
    simp

theorem pretty_node {q d ind t a x y ys} :
    prettyText q d ind (.mk t a x (y :: ys)) =
      ind ++ ('<' :: q t ++ attrText escData (d ++ attrsOf q a) ++ '>' :: ('\n' ::
        ((if lineEnds (textOf x) = [] then [] else escData (ind ++ "    ".toList ++ lineEnds (textOf x) ++ ['\n'])) ++
        (prettyTextL q (ind ++ "    ".toList) (y :: ys) ++ (ind ++ (("</".toList ++ q t ++ ['>']) ++ ['\n'])))))) := by
  rw [← eol_eq, prettyText.eq_def]
  simp only
  rw [if_pos (show eol "".toList = [] from rfl)]
  simp

theorem layoutFree_leaf {n as c} (h : c.any isElem = false) : layoutFree (.elem n as c) = .elem n as c := by
  rw [layoutFree, h]; rfl

theorem layoutFree_node {n as c} (h : c.any isElem = true) : layoutFree (.elem n as c) = .elem n as (layoutFreeL c) := by
  rw [layoutFree, h]; rfl

theorem space_chars {w : List Char} (hw : w.all isSpace = true) : w.all isChar = true := by
  rw [List.all_eq_true] at hw ⊢
  intro c hc
  have := hw c hc
  simp only [isSpace, Bool.or_eq_true, beq_iff_eq] at this
  rcases this with ((rfl | rfl) | rfl) | rfl <;> decide

/-- The layout and the text in front of the children. -/
theorem layoutFreeL_text {w w' s : List Char} (hw : w.all isSpace = true) (hw' : w'.all isSpace = true) :
    layoutFreeL (withText (w ++ s ++ w').reverse []) = layoutFreeL (if s = [] then [] else [.text s]) := by
  rw [withText_reverse]
  by_cases h : w ++ s ++ w' = []
  · have : s = [] := by simp_all
    rw [if_pos h, if_pos this]
  · rw [if_neg h, layoutFreeL, trim_space_right hw', trim_space_left hw]
    by_cases hs : s = []
    · subst hs; rfl
    · rw [if_neg hs]; simp [layoutFreeL]

theorem withText_append (u : List Char) (xs : List Xml) : withText u xs = withText u [] ++ xs := by
  unfold withText; split <;> rfl

theorem reverse_withText (u : List Char) : (withText u []).reverse = withText u [] := by
  unfold withText; split <;> rfl

/-- White space after character data is layout. -/
theorem layoutFreeL_more {w : List Char} (hw : w.all isSpace = true) (u here) :
    layoutFreeL (withText (w ++ u) here).reverse = layoutFreeL (withText u here).reverse := by
  rw [withText_append, withText_append u, List.reverse_append, List.reverse_append, layoutFreeL_append, layoutFreeL_append,
    reverse_withText, reverse_withText]
  congr 1
  have hr : w.reverse.all isSpace = true := by simpa using hw
  have h1 := layoutFreeL_text (w := []) (s := u.reverse) (w' := w.reverse) rfl hr
  have h2 := layoutFreeL_text (w := []) (s := u.reverse) (w' := []) rfl rfl
  simp only [List.nil_append, List.append_nil, List.reverse_append, List.reverse_reverse] at h1 h2
  rw [h1, h2]

theorem run_prettyTail {l : String} (hl : l.toList.all isChar = true) {ind : List Char} (hi : ind.all isSpace = true) (here st)
    (hst : st ≠ [] ∨ l = "") :
    ∃ w w' : List Char, w.all isSpace = true ∧ w'.all isSpace = true ∧
      run ⟨.content, ['\n'], here, st⟩ (prettyTail ind l) =
        some ⟨.content, (w ++ lineEnds l.toList ++ w').reverse, here, st⟩ := by
  unfold prettyTail
  split
  · rename_i hx
    exact ⟨['\n'], [], by decide, by decide, by rw [hx]; rfl⟩
  · rename_i hx
    have hst : st ≠ [] := by
      rcases hst with h | rfl
      · exact h
      · exact absurd rfl hx
    refine ⟨'\n' :: ind, ['\n'], by rw [List.all_cons, hi]; decide, by decide, ?_⟩
    rw [run_escData _ (by rw [List.all_append, List.all_append, lineEnds_chars _ hl, space_chars hi]; decide) _ _ _ hst]
    simp

theorem layoutFreeL_tail {w w' : List Char} {l : String} (hw : w.all isSpace = true) (hw' : w'.all isSpace = true) :
    layoutFreeL (withText (w ++ lineEnds l.toList ++ w').reverse []) = layoutFreeL (textNode lineEnds (.str l)) := by
  rw [layoutFreeL_text hw hw', textNode_tail]
  by_cases hx : l.toList = []
  · rw [if_pos hx, if_pos ((lineEnds_nil_iff _).2 hx)]
  · rw [if_neg hx, if_neg (fun h => hx ((lineEnds_nil_iff _).1 h))]

mutual
theorem run_prettyText (q : String → List Char) (d) (e : Elem) (h : AllExpressible q e) (hd : DeclsFine q d e)
    {ind : List Char} (hi : ind.all isSpace = true) (u here st) (hst : st ≠ [] ∨ e.tail = "") :
    ∃ X w w', run ⟨.content, u, here, st⟩ (prettyText q d ind e) =
        some ⟨.content, (w ++ lineEnds e.tail.toList ++ w').reverse, X :: withText (ind.reverse ++ u) here, st⟩ ∧
      isElem X = true ∧ layoutFree X = layoutFree (docOf q lineEnds spaced (normAttrs spaced d) e) ∧
      w.all isSpace = true ∧ w'.all isSpace = true := by
  obtain ⟨t, a, x, c, l⟩ := e
  suffices hs : ∃ X, run ⟨.content, u, here, st⟩ (prettyText q d ind (.mk t a x c)) =
        some ⟨.content, ['\n'], X :: withText (ind.reverse ++ u) here, st⟩ ∧ isElem X = true ∧
      layoutFree X = layoutFree (docOf q lineEnds spaced (normAttrs spaced d) (.mk t a x c l)) by
    obtain ⟨X, h1, h2, h3⟩ := hs
    obtain ⟨w, w', hw, hw', hr⟩ := run_prettyTail (l := l) (h _ (iter_self _)).tail hi (X :: withText (ind.reverse ++ u) here) st hst
    exact ⟨X, w, w', by rw [pretty_tail, run_then h1, hr]; rfl, h2, h3, hw, hw'⟩
  have hat : normAttrs spaced d ++ a.map (fun (k, v) => (q k, spaced v.toList)) = normAttrs spaced (d ++ attrsOf q a) := by
    rw [normAttrs_append, normAttrs_attrsOf]
  rw [docOf, hat, textNode_textOf]
  have hchars := lineEnds_chars _ (textOf_chars h)
  match hcc : c with
  | [] =>
    rw [docsOf, List.append_nil]
    by_cases hx : textOf x = []
    · rw [pretty_empty hx, run_then (run_blank hi ..), run_start readsBack_escData h hd (.inr (.inr rfl)),
        run_cons (s' := ⟨.slash (q t) (normAttrs spaced (d ++ attrsOf q a)), [], withText (ind.reverse ++ u) here, st⟩)
          (by simp only [step]; rfl),
        run_cons (s' := ⟨.content, [], .elem (q t) (normAttrs spaced (d ++ attrsOf q a)) [] :: withText (ind.reverse ++ u) here, st⟩)
          (by simp only [step]; rfl),
        run_blank (w := ['\n']) (by decide), if_pos hx]
      exact ⟨_, rfl, rfl, rfl⟩
    · rw [pretty_leaf hx, run_then (run_blank hi ..), run_start readsBack_escData h hd (.inr (.inl rfl)),
        run_cons (s' := ⟨.content, [], [], (q t, normAttrs spaced (d ++ attrsOf q a), withText (ind.reverse ++ u) here) :: st⟩)
          (by simp only [step]; rfl),
        run_then (run_escData _ hchars _ _ _ (by simp)), List.append_nil,
        run_then (run_end (n := q t) (h _ (iter_self _)).tag ..), run_blank (w := ['\n']) (by decide),
        withText_reverse, if_neg hx, if_neg (fun h => hx ((lineEnds_nil_iff _).1 h))]
      exact ⟨_, rfl, rfl, rfl⟩
  | y :: ys =>
    rw [pretty_node, run_then (run_blank hi ..), run_start readsBack_escData h hd (.inr (.inl rfl)),
      run_cons (s' := ⟨.content, [], [], (q t, normAttrs spaced (d ++ attrsOf q a), withText (ind.reverse ++ u) here) :: st⟩)
        (by simp only [step]; rfl),
      run_cons (s' := ⟨.content, ['\n'], [], (q t, normAttrs spaced (d ++ attrsOf q a), withText (ind.reverse ++ u) here) :: st⟩)
        (by simp only [step]; rfl)]
    generalize hS : (q t, normAttrs spaced (d ++ attrsOf q a), withText (ind.reverse ++ u) here) :: st = S
    have hS0 : S ≠ [] := by rw [← hS]; simp
    have hi4 : (ind ++ "    ".toList).all isSpace = true := by
      rw [List.all_append, hi]; decide
    -- the text
    obtain ⟨w, w', hw, hw', ht⟩ : ∃ w w' : List Char, w.all isSpace = true ∧ w'.all isSpace = true ∧
        run ⟨.content, ['\n'], [], S⟩ (if lineEnds (textOf x) = [] then []
          else escData (ind ++ "    ".toList ++ lineEnds (textOf x) ++ ['\n'])) =
        some ⟨.content, (w ++ lineEnds (textOf x) ++ w').reverse, [], S⟩ := by
      split
      · rename_i hx
        exact ⟨['\n'], [], by decide, by decide, by rw [hx]; rfl⟩
      · refine ⟨'\n' :: (ind ++ "    ".toList), ['\n'], by rw [List.all_cons, hi4]; decide, by decide, ?_⟩
        rw [run_escData _ (by
          rw [List.all_append, List.all_append, hchars, space_chars hi4]; decide) _ _ _ hS0]
        simp
    rw [run_then ht]
    obtain ⟨u', here', hrun, hlay, hel⟩ := run_prettyTextL q (y :: ys) (fun e he => h.child he) hi4
      (w ++ lineEnds (textOf x) ++ w').reverse [] S hS0
    rw [run_then hrun, run_then (run_blank hi ..), ← hS, run_then (run_end (n := q t) (h _ (iter_self _)).tag ..),
      run_blank (w := ['\n']) (by decide)]
    refine ⟨_, rfl, rfl, ?_⟩
    have hmem : (withText (ind.reverse ++ u') here').reverse.any isElem = true := by
      rw [List.any_reverse, withText_append, List.any_append, hel (.inl (by simp)), Bool.or_true]
    rw [layoutFree_node hmem, layoutFree_node (by
      rw [List.any_append, any_isElem_docs (by simp), Bool.or_true])]
    congr 1
    have hir : ind.reverse.all isSpace = true := by simpa using hi
    rw [layoutFreeL_more hir, hlay, layoutFreeL_append]
    congr 1
    rw [reverse_withText, layoutFreeL_text hw hw']
    by_cases hx : textOf x = []
    · rw [if_pos hx, if_pos ((lineEnds_nil_iff _).2 hx)]
    · rw [if_neg hx, if_neg (fun h => hx ((lineEnds_nil_iff _).1 h))]
theorem run_prettyTextL (q : String → List Char) (es : List Elem) (h : ∀ e ∈ es, AllExpressible q e)
    {ind : List Char} (hi : ind.all isSpace = true) (u here st) (hst : st ≠ []) :
    ∃ u' here', run ⟨.content, u, here, st⟩ (prettyTextL q ind es) = some ⟨.content, u', here', st⟩ ∧
      layoutFreeL (withText u' here').reverse =
        layoutFreeL (withText u here).reverse ++ layoutFreeL (docsOf q lineEnds spaced es) ∧
      (es ≠ [] ∨ here.any isElem = true → here'.any isElem = true) := by
  match es with
  | [] => exact ⟨u, here, by rw [prettyTextL]; rfl, by rw [docsOf, layoutFreeL, List.append_nil], by simp⟩
  | y :: ys =>
  have hy := h y (List.mem_cons_self ..)
  obtain ⟨X, w, w', h1, h2, h3, hw, hw'⟩ := run_prettyText q [] y hy hy.noDecls hi u here st (.inl hst)
  obtain ⟨u', here', g1, g2, g3⟩ := run_prettyTextL q ys (fun e he => h e (List.mem_cons_of_mem _ he)) hi
    (w ++ lineEnds y.tail.toList ++ w').reverse (X :: withText (ind.reverse ++ u) here) st hst
  refine ⟨u', here', by rw [prettyTextL, run_then h1, g1], ?_, fun _ => g3 (.inr (by rw [List.any_cons, h2]; rfl))⟩
  have hir : ind.reverse.all isSpace = true := by simpa using hi
  rw [g2, docsOf, List.cons_append, layoutFreeL_elem (docOf_isElem ..), layoutFreeL_append, withText_append, List.reverse_append,
    reverse_withText, List.reverse_cons, layoutFreeL_append, layoutFreeL_append, layoutFreeL_more hir, layoutFreeL_tail hw hw',
    layoutFreeL_elem h2, h3, layoutFreeL]
  simp [normAttrs]
end

end Jpy
