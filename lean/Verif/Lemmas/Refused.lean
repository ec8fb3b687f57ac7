import Verif.Lemmas.XmlDocument
/-! # Characters that are not of XML: no reader accepts a document with them -/

namespace Jpy
open Spec hiding reported
open Spec.Xml

theorem isChar_name {c : Char} (h : isNameChar c = true) : isChar c = true := by
  simp [isNameChar, inRanges, nameStartRanges, nameMoreRanges] at h
  simp [isChar]
  omega

theorem isChar_nameStart {c : Char} (h : isNameStart c = true) : isChar c = true :=
  isChar_name (by unfold isNameChar; rw [show inRanges nameStartRanges c = true from h]; rfl)

theorem isChar_space {c : Char} (h : isSpace c = true) : isChar c = true := by
  simp [isSpace] at h
  rcases h with ((rfl | rfl) | rfl) | rfl <;> decide

theorem isChar_decimal {c : Char} (h : c.isDigit = true) : isChar c = true := by
  have h1 : c.toNat = c.val.toNat := rfl
  simp only [Char.isDigit, Bool.and_eq_true, decide_eq_true_eq, ge_iff_le, UInt32.le_iff_toNat_le] at h
  have h2 : '0'.val.toNat = 48 := rfl
  have h3 : '9'.val.toNat = 57 := rfl
  simp [isChar]
  have := h.1
  have := h.2
  omega

theorem refChar_legal {r : List Char} {x : Char} (h : refChar r = some x) : ∀ c ∈ r, isChar c = true := by
  have lit : ∀ s : String, s.toList.all isChar = true → r = s.toList → ∀ c ∈ r, isChar c = true := by
    intro s hs e c hc
    exact List.all_eq_true.1 hs c (e ▸ hc)
  unfold refChar at h
  by_cases h1 : r = "amp".toList
  · exact lit _ (by decide) h1
  rw [if_neg h1] at h
  by_cases h2 : r = "lt".toList
  · exact lit _ (by decide) h2
  rw [if_neg h2] at h
  by_cases h3 : r = "gt".toList
  · exact lit _ (by decide) h3
  rw [if_neg h3] at h
  by_cases h4 : r = "quot".toList
  · exact lit _ (by decide) h4
  rw [if_neg h4] at h
  by_cases h5 : r = "apos".toList
  · exact lit _ (by decide) h5
  rw [if_neg h5] at h
  split at h
  · rename_i ds
    cases hd : decimal ds with
    | none => rw [hd] at h; cases h
    | some n =>
      unfold decimal at hd
      split at hd
      · rename_i hds
        intro c hc
        rcases List.mem_cons.1 hc with rfl | hc
        · decide
        · exact isChar_decimal (List.all_eq_true.1 hds.2 c hc)
      · cases hd
  · cases h

/-- The characters of a reference that is not complete. -/
def pending : Mode → List Char
  | .ref acc => acc
  | .valueRef _ _ _ _ _ racc => racc
  | _ => []

theorem closeElem_mode {s s' : State} {n} (h : closeElem s n = some s') : s'.mode = .content := by
  unfold closeElem at h
  split at h
  · split at h
    · cases h; rfl
    · cases h
  · cases h

/-- The quotation mark around the value is a character of XML. -/
def quoted : Mode → Prop
  | .value _ _ _ q _ => isChar q = true
  | .valueRef _ _ _ q _ _ => isChar q = true
  | _ => True

theorem step_quoted {s s' : State} {c : Char} (h : step s c = some s') (hq : quoted s.mode) : quoted s'.mode := by
  unfold step at h
  cases hm : s.mode with
  | valueRef n as a q acc racc =>
    rw [hm] at h hq
    simp only at h
    split at h
    · obtain ⟨x, -, rfl⟩ := Option.map_eq_some_iff.1 h
      exact hq
    · cases h; exact hq
  | value n as a q acc =>
    rw [hm] at h hq
    simp only at h
    repeat' (split at h)
    all_goals first
      | (cases h; done)
      | (cases h; exact hq)
      | (cases h; trivial)
  | equal n as a =>
    rw [hm] at h
    simp only at h
    split at h
    · rename_i hc
      cases h
      show isChar c = true
      rcases hc with rfl | rfl <;> decide
    · cases h
  | ref acc =>
    rw [hm] at h
    simp only at h
    split at h
    · obtain ⟨x, -, rfl⟩ := Option.map_eq_some_iff.1 h
      trivial
    · cases h; trivial
  | _ =>
    rw [hm] at h
    simp only at h
    repeat' (split at h)
    all_goals first
      | (cases h; done)
      | (rw [closeElem_mode h]; trivial)
      | (cases h; trivial)
      | (cases h; rw [hm]; trivial)

theorem step_legal {s s' : State} {c : Char} (h : step s c = some s') (hq : quoted s.mode) (hp : ∀ d ∈ pending s'.mode, isChar d = true) :
    ∀ d ∈ c :: pending s.mode, isChar d = true := by
  have one : isChar c = true → pending s.mode = [] → ∀ d ∈ c :: pending s.mode, isChar d = true := by
    intro hc he d hd
    rw [he] at hd
    rw [List.mem_singleton.1 hd]
    exact hc
  unfold step at h
  cases hm : s.mode with
  | ref acc =>
    rw [hm] at h
    simp only at h
    split at h
    · rename_i hc
      subst hc
      cases hr : refChar acc.reverse with
      | none => rw [hr] at h; cases h
      | some x =>
        intro d hd
        rcases List.mem_cons.1 hd with rfl | hd
        · decide
        · exact refChar_legal hr d (List.mem_reverse.2 hd)
    · cases h
      exact hp
  | valueRef n as a q acc racc =>
    rw [hm] at h
    simp only at h
    split at h
    · rename_i hc
      subst hc
      cases hr : refChar racc.reverse with
      | none => rw [hr] at h; cases h
      | some x =>
        intro d hd
        rcases List.mem_cons.1 hd with rfl | hd
        · decide
        · exact refChar_legal hr d (List.mem_reverse.2 hd)
    · cases h
      exact hp
  | value n as a q acc =>
    rw [hm] at h one hq
    refine one ?_ rfl
    simp only at h
    by_cases h1 : c = q
    · exact h1 ▸ hq
    rw [if_neg h1] at h
    by_cases h2 : c = '&'
    · subst h2; decide
    rw [if_neg h2] at h
    by_cases h3 : c = '<'
    · subst h3; decide
    rw [if_neg h3] at h
    by_cases h4 : isSpace c = true
    · exact isChar_space h4
    rw [if_neg h4] at h
    by_cases h5 : isChar c = true
    · exact h5
    · rw [if_neg h5] at h; cases h
  | _ =>
    rw [hm] at h one
    refine one ?_ rfl
    simp only at h
    repeat' (split at h)
    all_goals first
      | (cases h; done)
      | (rename_i hc; subst hc; decide)
      | (rename_i hc; exact isChar_space hc)
      | (rename_i hc; exact isChar_name hc)
      | (rename_i hc; exact isChar_nameStart hc)
      | (rename_i hc; rw [hc.1]; decide)
      | (rename_i hc; exact hc.2.2)
      | (rename_i hc; rcases hc with rfl | rfl <;> decide)
      | skip

theorem run_legal : ∀ (cs : List Char) {s s' : State}, run s cs = some s' → s'.mode = .content → quoted s.mode →
    ∀ d ∈ pending s.mode ++ cs, isChar d = true
  | [], s, s', h, hm, _ => by
    cases h
    rw [hm]
    exact fun _ h => nomatch h
  | c :: cs, s, s', h, hm, hq => by
    rw [run] at h
    cases h1 : step s c with
    | none => rw [h1] at h; cases h
    | some s1 =>
      rw [h1] at h
      have ih := run_legal cs h hm (step_quoted h1 hq)
      have h2 := step_legal h1 hq fun d hd => ih d (List.mem_append_left _ hd)
      intro d hd
      rcases List.mem_append.1 hd with hd | hd
      · exact h2 d (List.mem_cons_of_mem _ hd)
      · rcases List.mem_cons.1 hd with rfl | hd
        · exact h2 _ (List.mem_cons_self ..)
        · exact ih d (List.mem_append_right _ hd)

theorem lineEnds_keeps {d : Char} (hd : d ≠ '\r') : ∀ {s : List Char}, d ∈ s → d ∈ lineEnds s
  | [], h => nomatch h
  | c :: cs, h => by
    by_cases hc : c = '\r'
    · subst hc
      have h : d ∈ cs := (List.mem_cons.1 h).resolve_left hd
      match cs, h with
      | e :: es, h =>
        by_cases he : e = '\n'
        · subst he
          rw [lineEnds_crlf]
          rcases List.mem_cons.1 h with rfl | h
          · exact List.mem_cons_self ..
          · exact List.mem_cons_of_mem _ (lineEnds_keeps hd h)
        · rw [lineEnds_cr (by simpa using he)]
          exact List.mem_cons_of_mem _ (lineEnds_keeps hd h)
    · rw [lineEnds_cons hc]
      rcases List.mem_cons.1 h with rfl | h
      · exact List.mem_cons_self ..
      · exact List.mem_cons_of_mem _ (lineEnds_keeps hd h)

/-- A reader accepts only documents with characters of XML (after the declaration). -/
theorem parse_legal {doc : List Char} {x : Xml}
    (h : parse ("<?xml version='1.0' encoding='UTF-8'?>".toList ++ doc) = some x) : ∀ d ∈ doc, isChar d = true := by
  unfold parse at h
  cases hr : read ("<?xml version='1.0' encoding='UTF-8'?>".toList ++ doc) with
  | none => rw [hr] at h; cases h
  | some y =>
    unfold Xml.read at hr
    rw [lineEnds_noCR (by decide)] at hr
    have hw : withoutDecl ("<?xml version='1.0' encoding='UTF-8'?>".toList ++ lineEnds doc) = some (lineEnds doc) := by
      unfold withoutDecl
      rw [if_pos (by rfl), afterDecl_head]
    rw [hw] at hr
    cases hs : run { mode := .content, text := [], content := [], stack := [] } (lineEnds doc) with
    | none =>
      simp only [Option.bind_eq_bind, Option.bind_some, hs] at hr
      cases hr
    | some s =>
      simp only [Option.bind_eq_bind, Option.bind_some, hs] at hr
      have hm : s.mode = .content := by
        split at hr
        · assumption
        · cases hr
      intro d hd
      by_cases hc : d = '\r'
      · subst hc; decide
      · exact run_legal _ hs hm trivial d (List.mem_append_right _ (lineEnds_keeps hc hd))

theorem escText_keeps {d : Char} (hd : isChar d = false) {s : List Char} (h : d ∈ s) : d ∈ escText s := by
  unfold escText
  refine List.mem_flatMap.2 ⟨d, h, ?_⟩
  have n : ∀ c, isChar c = true → d ≠ c := by rintro c hc rfl; rw [hd] at hc; cases hc
  rw [if_neg (n _ (by decide)), if_neg (n _ (by decide)), if_neg (n _ (by decide))]
  exact List.mem_cons_self ..

mutual
theorem mem_etText {d : Char} (hd : isChar d = false) {s : String} (hs : d ∈ s.toList) (q : String → List Char)
    (decls : List (List Char × List Char)) : ∀ (e : Elem) {y : Elem}, y ∈ e.iter → y.text = .str s → d ∈ etText q decls e
  | .mk t a x c lt, y, hy, ht => by
    rw [Elem.iter] at hy
    rw [etText]
    rcases List.mem_cons.1 hy with rfl | hy
    · have hx : x = .str s := ht
      subst hx
      have : textOf (.str s) ≠ [] := by
        intro h
        rw [show s.toList = [] from h] at hs
        cases hs
      rw [if_neg (fun h => this h.1)]
      have := escText_keeps hd hs
      simp [textOf, this]
    · have := mem_etTextL hd hs q c hy ht
      have hc : ¬ (textOf x = [] ∧ c.isEmpty = true) := by
        rintro ⟨-, h⟩
        rw [List.isEmpty_iff.1 h] at hy
        cases hy
      rw [if_neg hc]
      simp [this]
theorem mem_etTextL {d : Char} (hd : isChar d = false) {s : String} (hs : d ∈ s.toList) (q : String → List Char) :
    ∀ (es : List Elem) {y : Elem}, y ∈ Elem.iterL es → y.text = .str s → d ∈ etTextL q es
  | [], y, hy, ht => by cases hy
  | e :: es, y, hy, ht => by
    rw [Elem.iterL] at hy
    rw [etTextL]
    rcases List.mem_append.1 hy with hy | hy
    · exact List.mem_append_left _ (mem_etText hd hs q [] e hy ht)
    · exact List.mem_append_right _ (mem_etTextL hd hs q es hy ht)
end

/-- The texts of elements in a document that a reader accepts have characters of XML only. -/
theorem texts_legal {es : List Elem} {x : Xml}
    (h : parse (chunkText true .head ++ es.flatMap (elementText true) ++ "</jpylyzer>\n".toList) = some x)
    {e y : Elem} {s : String} (he : e ∈ es) (hy : y ∈ e.iter) (ht : y.text = .str s) : LegalStr s := by
  have hh : chunkText true .head = "<?xml version='1.0' encoding='UTF-8'?>".toList ++ (chunkText true .head).drop 38 := by
    decide +kernel
  rw [hh, List.append_assoc, List.append_assoc] at h
  have := parse_legal h
  refine List.all_eq_true.2 fun d hd => ?_
  cases hc : isChar d with
  | true => rfl
  | false =>
    rw [← hc]
    apply this
    refine List.mem_append_right _ (List.mem_append_left _ (List.mem_flatMap.2 ⟨e, he, ?_⟩))
    unfold elementText
    rw [if_pos rfl]
    exact mem_etText hc hd _ _ e hy ht

end Jpy
