import Verif.Lemmas.XmlEnds
import Verif.Lemmas.Utf8
/-! # Initial parts of a document: when can they be read? -/

namespace Jpy
open Spec hiding reported
open Spec.Xml

/-! ## The reader cannot go on after the root element -/

/-- How many elements there are in a list. -/
def elems (l : List Xml) : Nat := l.countP isElem

/-- The content outside the outermost open element. -/
def outside : List Xml → List (List Char × List (List Char × List Char) × List Xml) → List Xml
  | c, [] => c
  | _, (_, _, o) :: rest => outside o rest

/-- How many elements outside all others have been started. -/
def roots (s : State) : Nat := elems (outside s.content s.stack) + (if s.stack = [] then 0 else 1)

theorem elems_elem (n as c l) : elems (.elem n as c :: l) = elems l + 1 := List.countP_cons_of_pos (p := isElem) rfl

theorem elems_text (s l) : elems (.text s :: l) = elems l := List.countP_cons_of_neg (p := isElem) (by simp [isElem])

theorem elems_withText (t c) : elems (withText t c) = elems c := by
  unfold withText
  split
  · rfl
  · exact elems_text ..

theorem elems_outside_withText (t c st) : elems (outside (withText t c) st) = elems (outside c st) := by
  cases st with
  | nil => exact elems_withText t c
  | cons x xs => rfl

theorem roots_open (s n as) : roots s ≤ roots (openElem s n as) := by
  unfold roots openElem
  cases h : s.stack <;> simp [outside]

theorem roots_close {s s' n} (h : closeElem s n = some s') : roots s ≤ roots s' := by
  unfold closeElem at h
  split at h
  · rename_i m as outer rest hs
    split at h
    · cases h
      unfold roots
      cases rest with
      | nil => simp [hs, outside, elems_elem]
      | cons x xs => simp [hs, outside]
    · cases h
  · cases h

theorem roots_slash (s : State) (n as) :
    roots s ≤ roots { s with mode := .content, text := [], content := .elem n as [] :: s.content } := by
  unfold roots
  cases h : s.stack with
  | nil => simp [outside, elems_elem]
  | cons x xs => simp [outside]

theorem roots_step {s s' : State} {c : Char} (h : step s c = some s') : roots s ≤ roots s' := by
  have same : ∀ (t : State), t.content = s.content → t.stack = s.stack → roots s ≤ roots t := by
    intro t h1 h2; unfold roots; rw [h1, h2]; exact Nat.le_refl _
  unfold step at h
  split at h
  · split at h
    · cases h; unfold roots; simp only [elems_outside_withText]; exact Nat.le_refl _
    · split at h
      · cases h; exact same _ rfl rfl
      · split at h
        · cases h; exact same _ rfl rfl
        · cases h
  · split at h
    · obtain ⟨x, -, rfl⟩ := Option.map_eq_some_iff.1 h; exact same _ rfl rfl
    · cases h; exact same _ rfl rfl
  · repeat' split at h
    all_goals first | (cases h; done) | (cases h; exact same _ rfl rfl)
  · repeat' split at h
    all_goals first | (cases h; done) | (cases h; exact roots_open ..) | (cases h; exact same _ rfl rfl)
  · repeat' split at h
    all_goals first | (cases h; done) | (cases h; exact roots_open ..) | (cases h; exact same _ rfl rfl)
  · repeat' split at h
    all_goals first | (cases h; done) | (cases h; exact same _ rfl rfl)
  · repeat' split at h
    all_goals first | (cases h; done) | (cases h; exact same _ rfl rfl)
  · repeat' split at h
    all_goals first | (cases h; done) | (cases h; exact same _ rfl rfl)
  · split at h
    · obtain ⟨x, -, rfl⟩ := Option.map_eq_some_iff.1 h; exact same _ rfl rfl
    · cases h; exact same _ rfl rfl
  · repeat' split at h
    all_goals first | (cases h; done) | (cases h; exact roots_open ..) | (cases h; exact same _ rfl rfl)
  · repeat' split at h
    all_goals first | (cases h; done) | (cases h; exact roots_slash ..)
  · repeat' split at h
    all_goals first | (cases h; done) | exact roots_close h | (cases h; exact same _ rfl rfl)
  · repeat' split at h
    all_goals first | (cases h; done) | exact roots_close h | (cases h; exact same _ rfl rfl)

/-- The reader is inside a tag. -/
def inTag : Mode → Bool
  | .content | .ref _ => false
  | _ => true

theorem open_more {s : State} (h : s.stack = []) (n as) : roots s + 1 ≤ roots (openElem s n as) := by
  unfold roots openElem; simp [h, outside]

theorem slash_more {s : State} (h : s.stack = []) (n as) :
    roots s + 1 ≤ roots { s with mode := .content, text := [], content := .elem n as [] :: s.content } := by
  unfold roots; simp [h, outside, elems_elem]

theorem close_none {s : State} (h : s.stack = []) (n) : closeElem s n = none := by
  unfold closeElem; rw [h]

/-- A tag outside all elements cannot be left without starting another element. -/
theorem inTag_step {s s' : State} {c : Char} (h0 : s.stack = []) (h1 : inTag s.mode = true) (h : step s c = some s') :
    (s'.stack = [] ∧ inTag s'.mode = true ∧ roots s' = roots s) ∨ roots s + 1 ≤ roots s' := by
  have same : ∀ (m : Mode), inTag m = true → (({s with mode := m} : State).stack = [] ∧ inTag ({s with mode := m} : State).mode = true ∧
      roots {s with mode := m} = roots s) := fun m hm => ⟨h0, hm, rfl⟩
  unfold step at h
  split at h
  · rename_i hm; rw [hm] at h1; cases h1
  · rename_i hm; rw [hm] at h1; cases h1
  · repeat' split at h
    all_goals first | (cases h; done) | (cases h; exact .inl (same _ rfl))
  · repeat' split at h
    all_goals first | (cases h; done) | (cases h; exact .inr (open_more h0 ..)) | (cases h; exact .inl (same _ rfl))
  · repeat' split at h
    all_goals first | (cases h; done) | (cases h; exact .inr (open_more h0 ..)) | (cases h; exact .inl (same _ rfl)) | (cases h; exact .inl ⟨h0, h1, rfl⟩)
  · repeat' split at h
    all_goals first | (cases h; done) | (cases h; exact .inl (same _ rfl))
  · repeat' split at h
    all_goals first | (cases h; done) | (cases h; exact .inl (same _ rfl))
  · repeat' split at h
    all_goals first | (cases h; done) | (cases h; exact .inl (same _ rfl))
  · split at h
    · obtain ⟨x, -, rfl⟩ := Option.map_eq_some_iff.1 h; exact .inl (same _ rfl)
    · cases h; exact .inl (same _ rfl)
  · repeat' split at h
    all_goals first | (cases h; done) | (cases h; exact .inr (open_more h0 ..)) | (cases h; exact .inl (same _ rfl))
  · repeat' split at h
    all_goals first | (cases h; done) | (cases h; exact .inr (slash_more h0 ..))
  · rw [close_none h0] at h
    repeat' split at h
    all_goals first | (cases h; done) | (cases h; exact .inl (same _ rfl))
  · rw [close_none h0] at h
    repeat' split at h
    all_goals first | (cases h; done) | (cases h; exact .inl ⟨h0, h1, rfl⟩)

/-- Too late for a single root element. -/
def Bad (s : State) : Prop := 2 ≤ roots s ∨ (s.stack = [] ∧ inTag s.mode = true ∧ 1 ≤ roots s)

theorem bad_step {s s' : State} {c : Char} (h : Bad s) (hs : step s c = some s') : Bad s' := by
  rcases h with h | ⟨h0, h1, h2⟩
  · exact .inl (Nat.le_trans h (roots_step hs))
  · rcases inTag_step h0 h1 hs with ⟨a, b, c⟩ | a
    · exact .inr ⟨a, b, by omega⟩
    · exact .inl (by omega)

theorem bad_run : ∀ {t : List Char} {s s' : State}, Bad s → run s t = some s' → Bad s'
  | [], s, s', h, hr => by cases hr; exact h
  | c :: cs, s, s', h, hr => by
    rw [run] at hr
    split at hr
    · rename_i s1 h1; exact bad_run (bad_step h h1) hr
    · cases hr

/-- The root element has been read. -/
def Over (s : State) : Prop := s.mode = .content ∧ s.stack = [] ∧ roots s = 1

theorem not_bad {s : State} (h : Over s) : ¬ Bad s := by
  rintro (h' | ⟨-, h', -⟩)
  · have := h.2.2; omega
  · rw [h.1] at h'; cases h'

/-- What follows the root element has no markup. -/
theorem over_run : ∀ {t : List Char} {s s' : State}, Over s → run s t = some s' → Over s' → '<' ∉ t ∧ '>' ∉ t
  | [], _, _, _, _, _ => ⟨nofun, nofun⟩
  | c :: cs, s, s', h, hr, h' => by
    rw [run] at hr
    split at hr
    · rename_i s1 h1
      unfold step at h1
      rw [h.1] at h1
      simp only at h1
      split at h1
      · cases h1
        have hb : Bad { s with mode := .lt, text := [], content := withText s.text s.content } := by
          refine .inr ⟨h.2.1, rfl, ?_⟩
          have := h.2.2
          unfold roots at this ⊢
          simp only [elems_outside_withText]
          omega
        exact absurd (bad_run hb hr) (not_bad h')
      · rename_i hc
        split at h1
        · rename_i h2; exact absurd h.2.1 h2.2
        · split at h1
          · rename_i h3
            cases h1
            obtain ⟨a, b⟩ := over_run (s := { s with text := c :: s.text }) ⟨h.1, h.2.1, h.2.2⟩ (by rw [h.1]; exact hr) h'
            exact ⟨fun hm => (List.mem_cons.1 hm).elim (fun e => hc e.symm) a,
              fun hm => (List.mem_cons.1 hm).elim (fun e => h3.2.1 e.symm) b⟩
          · cases h1
    · cases hr

/-- What `read` asks of the last state. -/
def accept (s : State) : Option Xml :=
  match s.mode, s.stack, (withText s.text s.content).reverse.filter fun x => !isBlank x with
  | .content, [], [.elem n as c] => some (.elem n as c)
  | _, _, _ => none

theorem elems_filter (l : List Xml) : elems (l.filter fun x => !isBlank x) = elems l := by
  induction l with
  | nil => rfl
  | cons x xs ih =>
    cases x with
    | text s =>
      rw [List.filter_cons, elems_text]
      split
      · rw [elems_text, ih]
      · exact ih
    | elem n as c =>
      rw [List.filter_cons, if_pos (by rfl), elems_elem, elems_elem, ih]

theorem accept_over {s : State} {x : Xml} (h : accept s = some x) : Over s := by
  unfold accept at h
  split at h
  · rename_i n as c h1 h2 h3
    refine ⟨h1, h2, ?_⟩
    have := elems_filter (withText s.text s.content).reverse
    rw [h3] at this
    unfold elems at this
    rw [List.countP_reverse] at this
    unfold roots
    rw [h2]
    have e := elems_withText s.text s.content
    unfold elems at e ⊢
    simp only [outside, if_true, Nat.add_zero]
    rw [← e, ← this]
    rfl
  · cases h

/-- The state the reader starts in. -/
def start : State := { mode := .content, text := [], content := [], stack := [] }

theorem read_eq (d : List Char) : Spec.Xml.read d = (withoutDecl (lineEnds d)).bind fun b => (run start b).bind accept := rfl

/-! ## The declaration and the line ends -/

theorem afterDecl_append : ∀ {s b : List Char}, afterDecl s = some b → ∀ t, afterDecl (s ++ t) = some (b ++ t)
  | [], _, h, _ => by cases h
  | c :: cs, b, h, t => by
    by_cases hq : ∃ ds, c = '?' ∧ cs = '>' :: ds
    · obtain ⟨ds, rfl, rfl⟩ := hq
      cases h; rfl
    · have e : ∀ l, (∀ ds, c :: l = '?' :: '>' :: ds → False) → afterDecl (c :: l) = afterDecl l := by
        intro l hl
        rw [afterDecl]
        intro ds e1 e2; exact hl ds (by rw [e1, e2])
      have e1 := e cs (by rintro ds ⟨⟩; exact hq ⟨ds, rfl, rfl⟩)
      rw [e1] at h
      rw [List.cons_append, e (cs ++ t), afterDecl_append h t]
      intro ds he
      injection he with a1 a2
      cases cs with
      | nil => cases h
      | cons d ds' =>
        injection a2 with a3 a4
        exact hq ⟨ds', a1, by rw [a3]⟩

/-- The line ends of a text in two parts. -/
theorem lineEnds_split (p t : List Char) :
    lineEnds (p ++ t) = lineEnds p ++ lineEnds t ∨ ∃ t', t = '\n' :: t' ∧ lineEnds (p ++ t) = lineEnds p ++ lineEnds t' := by
  by_cases ht : t.head? = some '\n'
  · cases t with
    | nil => cases ht
    | cons d t' =>
      cases ht
      induction p using lineEnds.induct with
      | case1 => exact .inl rfl
      | case2 cs ih =>
        rw [List.cons_append, List.cons_append, lineEnds_crlf, lineEnds_crlf]
        rcases ih with ih | ⟨t2, e, ih⟩
        · exact .inl (by rw [ih]; rfl)
        · exact .inr ⟨t2, e, by rw [ih]; rfl⟩
      | case3 cs hcs ih =>
        cases cs with
        | nil =>
          refine .inr ⟨t', rfl, ?_⟩
          show lineEnds ('\r' :: '\n' :: t') = _
          rw [lineEnds_crlf]; rfl
        | cons d ds =>
          have hd : d ≠ '\n' := fun e => hcs ds (by rw [e])
          have e1 : ∀ l, lineEnds ('\r' :: d :: l) = '\n' :: lineEnds (d :: l) := fun l =>
            lineEnds_cr (by simpa using hd)
          rw [List.cons_append, List.cons_append, e1, e1]
          rcases ih with ih | ⟨t2, e, ih⟩
          · exact .inl (by rw [← List.cons_append, ih]; rfl)
          · exact .inr ⟨t2, e, by rw [← List.cons_append, ih]; rfl⟩
      | case4 c cs h1 h2 ih =>
        have hc : c ≠ '\r' := h2
        rw [List.cons_append, lineEnds_cons hc, lineEnds_cons hc]
        rcases ih with ih | ⟨t2, e, ih⟩
        · exact .inl (by rw [ih]; rfl)
        · exact .inr ⟨t2, e, by rw [ih]; rfl⟩
  · exact .inl (lineEnds_append ht p)

theorem lineEnds_mem {d : Char} (hd : d ≠ '\r') {s : List Char} (h : d ∈ s) : d ∈ lineEnds s := by
  induction s using lineEnds.induct with
  | case1 => exact nomatch h
  | case2 cs ih =>
    rw [lineEnds_crlf]
    rcases List.mem_cons.1 h with e | h
    · exact absurd e hd
    · rcases List.mem_cons.1 h with e | h
      · rw [e]; exact List.mem_cons_self ..
      · exact List.mem_cons_of_mem _ (ih h)
  | case3 cs hcs ih =>
    rw [lineEnds_cr (by
      intro e
      cases cs with
      | nil => cases e
      | cons x xs => cases e; exact hcs xs rfl)]
    rcases List.mem_cons.1 h with e | h
    · exact absurd e hd
    · exact List.mem_cons_of_mem _ (ih h)
  | case4 c cs h1 h2 ih =>
    rw [lineEnds_cons h2]
    rcases List.mem_cons.1 h with e | h
    · rw [e]; exact List.mem_cons_self ..
    · exact List.mem_cons_of_mem _ (ih h)

theorem prefix_six {p d : List Char} (h : p <+: d) (hd : "<?xml ".toList <+: d) (hn : ¬ "<?xml ".toList <+: p) :
    p ∈ [[], ['<'], ['<', '?'], ['<', '?', 'x'], ['<', '?', 'x', 'm'], ['<', '?', 'x', 'm', 'l']] := by
  have h1 : p <+: "<?xml ".toList := (List.prefix_or_prefix_of_prefix h hd).resolve_right hn
  have h2 : p.length < 6 := by
    rcases Nat.lt_or_ge p.length 6 with h | h
    · exact h
    · exact absurd (List.IsPrefix.eq_of_length h1 (Nat.le_antisymm h1.length_le h) ▸ List.prefix_rfl) hn
  have h3 := List.prefix_iff_eq_take.1 h1
  have : p.length = 0 ∨ p.length = 1 ∨ p.length = 2 ∨ p.length = 3 ∨ p.length = 4 ∨ p.length = 5 := by omega
  rw [h3]
  rcases this with e | e | e | e | e | e <;> rw [e] <;> decide

/-- If a document that starts with a declaration can be read, an initial part of it can be read only if the rest has
no markup. -/
theorem read_prefix {p t : List Char} {x y : Xml} (hd : "<?xml ".toList <+: p ++ t)
    (hp : Spec.Xml.read p = some x) (hf : Spec.Xml.read (p ++ t) = some y) : '<' ∉ t ∧ '>' ∉ t := by
  by_cases hn : "<?xml ".toList <+: p
  · obtain ⟨r, hr⟩ := hn
    have hpre : ∀ u, withoutDecl (lineEnds ("<?xml ".toList ++ u)) = afterDecl (lineEnds ("<?xml ".toList ++ u)) := by
      intro u
      rw [lineEnds_noCR (by decide)]
      unfold withoutDecl
      rw [if_pos (by simp)]
    have key : ∃ w, lineEnds (p ++ t) = lineEnds p ++ w ∧ ('<' ∈ t → '<' ∈ w) ∧ ('>' ∈ t → '>' ∈ w) := by
      rcases lineEnds_split p t with h | ⟨t', rfl, h⟩
      · exact ⟨_, h, lineEnds_mem (by decide), lineEnds_mem (by decide)⟩
      · refine ⟨_, h, fun hm => lineEnds_mem (by decide) ?_, fun hm => lineEnds_mem (by decide) ?_⟩
        · exact (List.mem_cons.1 hm).resolve_left (by decide)
        · exact (List.mem_cons.1 hm).resolve_left (by decide)
    obtain ⟨w, hw, m1, m2⟩ := key
    rw [read_eq] at hp hf
    obtain ⟨b, b1, b2⟩ := Option.bind_eq_some_iff.1 hp
    obtain ⟨s, s1, s2⟩ := Option.bind_eq_some_iff.1 b2
    obtain ⟨b', b1', b2'⟩ := Option.bind_eq_some_iff.1 hf
    obtain ⟨s', s1', s2'⟩ := Option.bind_eq_some_iff.1 b2'
    have e1 : afterDecl (lineEnds p) = some b := by rw [← hr] at b1 ⊢; rw [← hpre]; exact b1
    have e2 : afterDecl (lineEnds (p ++ t)) = some b' := by
      rw [← hr, List.append_assoc] at b1' ⊢; rw [← hpre]; exact b1'
    rw [hw, afterDecl_append e1] at e2
    cases e2
    rw [run_append, s1] at s1'
    obtain ⟨a, b⟩ := over_run (accept_over s2) s1' (accept_over s2')
    exact ⟨fun h => a (m1 h), fun h => b (m2 h)⟩
  · exfalso
    have hm := prefix_six (List.prefix_append p t) hd hn
    have hall : ∀ q ∈ [[], ['<'], ['<', '?'], ['<', '?', 'x'], ['<', '?', 'x', 'm'], ['<', '?', 'x', 'm', 'l']],
      (Spec.Xml.read q).isNone = true := by decide +kernel
    have := hall p hm
    rw [hp] at this
    cases this

theorem filter_text_end {l : List Xml} {t : List Char} {n as c}
    (h : (l ++ [Xml.text t]).filter (fun x => !isBlank x) = [.elem n as c]) :
    t.all isSpace = true ∧ l.filter (fun x => !isBlank x) = [.elem n as c] := by
  rw [List.filter_append] at h
  by_cases ht : t.all isSpace = true
  · refine ⟨ht, ?_⟩
    rw [show ([Xml.text t].filter fun x => !isBlank x) = [] by
      rw [List.filter_cons, if_neg (by simp only [isBlank, ht]; decide)]; rfl, List.append_nil] at h
    exact h
  · exfalso
    rw [show ([Xml.text t].filter fun x => !isBlank x) = [.text t] by
      rw [List.filter_cons, if_pos (by simpa [isBlank] using ht)]; rfl] at h
    have := congrArg List.getLast? h
    simp at this

/-- Before a line feed at the end the document can be read as well. -/
theorem accept_newline {s s' : State} {x : Xml} (h : step s '\n' = some s') (hx : accept s' = some x) : accept s = some x := by
  have ho := (accept_over hx).1
  unfold step at h
  split at h
  · rename_i hm
    rw [if_neg (by decide), if_neg (by simp), if_pos (by decide)] at h
    cases h
    unfold accept at hx
    simp only at hx
    split at hx
    · rename_i n as c h1 h2 h3
      cases hx
      have e : withText ('\n' :: s.text) s.content = .text ('\n' :: s.text).reverse :: s.content := rfl
      rw [e, List.reverse_cons] at h3
      obtain ⟨g1, g2⟩ := filter_text_end h3
      have : (withText s.text s.content).reverse.filter (fun x => !isBlank x) = [.elem n as c] := by
        unfold withText
        split
        · exact g2
        · rw [List.reverse_cons, List.filter_append, g2, List.filter_cons, if_neg]
          · rfl
          · rw [List.reverse_cons, List.all_append, Bool.and_eq_true] at g1
            simp only [isBlank, g1.1]
            decide
      unfold accept
      rw [hm, h2, this]
    · cases hx
  all_goals
    try rw [show isNameChar '\n' = false by decide] at h
    try rw [show isNameStart '\n' = false by decide] at h
    try rw [show isSpace '\n' = true by decide] at h
    repeat' split at h
    all_goals first
      | (cases h; done)
      | (exact absurd ‹'\n' = '>'› (by decide))
      | (exact absurd ‹'\n' = ';'› (by decide))
      | (cases h; cases ho; done)
      | (cases h; simp_all; done)

theorem afterDecl_newline : ∀ {s b : List Char}, afterDecl (s ++ ['\n']) = some b →
    ∃ b0, afterDecl s = some b0 ∧ b = b0 ++ ['\n']
  | [], _, h => by cases h
  | c :: cs, b, h => by
    by_cases hq : ∃ ds, c = '?' ∧ cs = '>' :: ds
    · obtain ⟨ds, rfl, rfl⟩ := hq
      cases h; exact ⟨ds, rfl, rfl⟩
    · have e : ∀ l, (∀ ds, c :: l = '?' :: '>' :: ds → False) → afterDecl (c :: l) = afterDecl l := by
        intro l hl
        rw [afterDecl]
        intro ds e1 e2; exact hl ds (by rw [e1, e2])
      rw [List.cons_append, e] at h
      · obtain ⟨b0, h1, h2⟩ := afterDecl_newline h
        refine ⟨b0, ?_, h2⟩
        rw [e]
        · exact h1
        · rintro ds ⟨⟩; exact hq ⟨ds, rfl, rfl⟩
      · intro ds he
        injection he with a1 a2
        cases cs with
        | nil => cases a2
        | cons d ds' =>
          injection a2 with a3 a4
          exact hq ⟨ds', a1, by rw [a3]⟩

/-- A document that ends with a line feed can be read without it. -/
theorem read_newline {p : List Char} {x : Xml} (hd : "<?xml ".toList <+: p) (h : Spec.Xml.read (p ++ ['\n']) = some x) :
    Spec.Xml.read p = some x := by
  have hpre : ∀ u, withoutDecl (lineEnds ("<?xml ".toList ++ u)) = afterDecl (lineEnds ("<?xml ".toList ++ u)) := by
    intro u
    rw [lineEnds_noCR (by decide)]
    unfold withoutDecl
    rw [if_pos (by simp)]
  rw [read_eq] at h ⊢
  rcases lineEnds_split p ['\n'] with hs | ⟨t', ht, hs⟩
  · obtain ⟨r, rfl⟩ := hd
    rw [List.append_assoc, hpre, ← List.append_assoc, hs] at h
    rw [hpre]
    obtain ⟨b, b1, b2⟩ := Option.bind_eq_some_iff.1 h
    obtain ⟨s, s1, s2⟩ := Option.bind_eq_some_iff.1 b2
    obtain ⟨b0, h1, rfl⟩ := afterDecl_newline b1
    rw [h1]
    rw [run_append] at s1
    obtain ⟨s0, s3, s4⟩ := Option.bind_eq_some_iff.1 s1
    show (run start b0).bind accept = _
    rw [s3]
    rw [run] at s4
    split at s4
    · rename_i s5 h5
      cases s4
      exact accept_newline h5 s2
    · cases s4
  · cases ht
    rw [hs, show lineEnds [] = [] from rfl, List.append_nil] at h
    exact h

/-! ## Initial parts of UTF-8 -/

theorem utf8Of_ne (c : Char) : utf8Of c ≠ [] := by
  unfold utf8Of
  simp only
  repeat' split
  all_goals simp

/-- No encoded character is the beginning of another. -/
theorem utf8Of_head {c d : Char} {a b : List Nat} (h : utf8Of c ++ a = utf8Of d ++ b) : c = d := by
  have hc := char_valid c
  have hd := char_valid d
  have : c.toNat = d.toNat := by
    unfold utf8Of at h
    simp only at h
    repeat' split at h
    all_goals simp only [List.cons_append, List.nil_append, List.cons.injEq] at h
    all_goals omega
  rw [← ofNat_toNat c, this, ofNat_toNat]

theorem flatMap_utf8_prefix : ∀ {cs ds : List Char} {t : List Nat}, cs.flatMap utf8Of ++ t = ds.flatMap utf8Of →
    ∃ r, ds = cs ++ r
  | [], ds, _, _ => ⟨ds, rfl⟩
  | c :: cs, [], t, h => by
    rw [List.flatMap_cons, List.append_assoc, List.flatMap_nil, List.append_eq_nil_iff] at h
    exact absurd h.1 (utf8Of_ne c)
  | c :: cs, d :: ds, t, h => by
    rw [List.flatMap_cons, List.flatMap_cons, List.append_assoc] at h
    have e := utf8Of_head h
    subst e
    obtain ⟨r, hr⟩ := flatMap_utf8_prefix (List.append_cancel_left h)
    exact ⟨r, by rw [hr]; rfl⟩

/-- What an initial part of a text in UTF-8 encodes is an initial part of the text. -/
theorem utf8_prefix {b B : Bytes} {cs ds : List Char} (h : b <+: B) (hb : IsUtf8 b cs) (hB : IsUtf8 B ds) : cs <+: ds := by
  obtain ⟨t, rfl⟩ := h
  unfold IsUtf8 at hb hB
  rw [List.map_append, hb] at hB
  obtain ⟨r, hr⟩ := flatMap_utf8_prefix hB
  exact ⟨r, hr.symm⟩

end Jpy
