import Verif.Spec.Tree
/-! # Lemmas about directory trees -/

namespace Jpy
open Spec

mutual
/-- The names of all files of a tree, in the order of the walk. -/
def relsOf : Dir → List (List PyStr)
  | .mk f d => f.map (fun n => [n]) ++ relsDirs d
def relsDirs : List (PyStr × Dir) → List (List PyStr)
  | [] => []
  | (n, d) :: ds => (relsOf d).map (n :: ·) ++ relsDirs ds
end

theorem pathOf_cons (root n : PyStr) (rel : List PyStr) :
    pathOf root (n :: rel) = pathOf (root ++ slash :: n) rel := by
  simp [pathOf]

mutual
theorem walk_files (join : PyStr → PyStr → PyStr) (hj : ∀ a b, join a b = a ++ slash :: b) :
    ∀ (d : Dir) (root : PyStr),
    ((walkOf join root d).flatMap fun x => x.2.2.map (join x.1)) = (relsOf d).map (pathOf root)
  | .mk f d, root => by
    rw [walkOf, relsOf, List.flatMap_cons, List.map_append, walkDirs_files join hj d root]
    congr 1
    rw [List.map_map]
    apply List.map_congr_left
    intro n _
    simp [hj, pathOf]
theorem walkDirs_files (join : PyStr → PyStr → PyStr) (hj : ∀ a b, join a b = a ++ slash :: b) :
    ∀ (d : List (PyStr × Dir)) (root : PyStr),
    ((walkDirs join root d).flatMap fun x => x.2.2.map (join x.1)) = (relsDirs d).map (pathOf root)
  | [], root => by simp [walkDirs, relsDirs]
  | (n, d) :: ds, root => by
    rw [walkDirs, relsDirs, List.flatMap_append, List.map_append, walkDirs_files join hj ds root,
      walk_files join hj d (join root n), List.map_map]
    congr 1
    apply List.map_congr_left
    intro rel _
    rw [Function.comp, pathOf_cons, hj]
end

mutual
theorem relsOf_sound : ∀ (d : Dir) rel, rel ∈ relsOf d → FileBelow d rel
  | .mk f d, rel, h => by
    rw [relsOf, List.mem_append] at h
    rcases h with h | h
    · obtain ⟨n, hn, rfl⟩ := List.mem_map.1 h
      exact .here hn
    · obtain ⟨n, sub, r, rfl, h1, h2⟩ := relsDirs_sound d rel h
      exact .inside h1 h2
theorem relsDirs_sound : ∀ (d : List (PyStr × Dir)) rel, rel ∈ relsDirs d →
    ∃ n sub r, rel = n :: r ∧ (n, sub) ∈ d ∧ FileBelow sub r
  | [], rel, h => by simp [relsDirs] at h
  | (n, d) :: ds, rel, h => by
    rw [relsDirs, List.mem_append] at h
    rcases h with h | h
    · obtain ⟨r, hr, rfl⟩ := List.mem_map.1 h
      exact ⟨n, d, r, rfl, by simp, relsOf_sound d r hr⟩
    · obtain ⟨n', sub, r, h1, h2, h3⟩ := relsDirs_sound ds rel h
      exact ⟨n', sub, r, h1, by simp [h2], h3⟩
end

theorem relsDirs_mem {n : PyStr} {sub : Dir} {rel : List PyStr} : ∀ {d : List (PyStr × Dir)},
    (n, sub) ∈ d → rel ∈ relsOf sub → n :: rel ∈ relsDirs d
  | (m, e) :: ds, h, hr => by
    rw [relsDirs, List.mem_append]
    rcases List.mem_cons.1 h with h | h
    · cases h
      exact .inl (List.mem_map.2 ⟨rel, hr, rfl⟩)
    · exact .inr (relsDirs_mem h hr)

theorem relsOf_complete {d : Dir} {rel : List PyStr} (h : FileBelow d rel) : rel ∈ relsOf d := by
  induction h with
  | @here d f h =>
    cases d
    rw [relsOf, List.mem_append]
    exact .inl (List.mem_map.2 ⟨f, h, rfl⟩)
  | @inside d n sub rel h _ ih =>
    cases d
    rw [relsOf, List.mem_append]
    exact .inr (relsDirs_mem h ih)


theorem not_fileBelow_nil {d : Dir} : ¬ FileBelow d [] := by
  intro h; cases h

theorem nodup_map_on {α β : Type} {f : α → β} : ∀ {l : List α}, l.Nodup →
    (∀ a ∈ l, ∀ b ∈ l, f a = f b → a = b) → (l.map f).Nodup
  | [], _, _ => by simp
  | a :: l, h, hf => by
    rw [List.nodup_cons] at h
    rw [List.map_cons, List.nodup_cons]
    refine ⟨fun hm => ?_, nodup_map_on h.2 fun x hx y hy => hf x (by simp [hx]) y (by simp [hy])⟩
    obtain ⟨b, hb, e⟩ := List.mem_map.1 hm
    have := hf b (by simp [hb]) a (by simp) e
    exact h.1 (this ▸ hb)

mutual
theorem relsOf_nodup : ∀ d : Dir, WellNamed d → (relsOf d).Nodup
  | .mk f d, h => by
    obtain ⟨hf, hd, -, -, hs⟩ := h
    rw [relsOf, List.nodup_append]
    refine ⟨nodup_map_on hf fun a _ b _ e => by simpa using e, relsDirs_nodup d hd hs, ?_⟩
    intro a ha b hb e
    subst e
    obtain ⟨n, _, rfl⟩ := List.mem_map.1 ha
    obtain ⟨n', sub, r, e, _, h3⟩ := relsDirs_sound d _ hb
    cases e
    exact not_fileBelow_nil h3
theorem relsDirs_nodup : ∀ d : List (PyStr × Dir), (d.map (·.1)).Nodup → (∀ x ∈ d, WellNamed x.2) →
    (relsDirs d).Nodup
  | [], _, _ => by simp [relsDirs]
  | (n, d) :: ds, hn, hw => by
    rw [List.map_cons, List.nodup_cons] at hn
    rw [relsDirs, List.nodup_append]
    refine ⟨nodup_map_on (relsOf_nodup d (hw (n, d) (by simp))) fun a _ b _ e => by simpa using e,
      relsDirs_nodup ds hn.2 fun x hx => hw x (by simp [hx]), ?_⟩
    intro a ha b hb e
    subst e
    obtain ⟨r, _, rfl⟩ := List.mem_map.1 ha
    obtain ⟨n', sub, r', e, h2, _⟩ := relsDirs_sound ds _ hb
    cases e
    exact hn.1 (List.mem_map.2 ⟨_, h2, rfl⟩)
end

theorem fileBelow_noSlash {d : Dir} {rel : List PyStr} (h : FileBelow d rel) (hw : WellNamed d) :
    ∀ n ∈ rel, slash ∉ n := by
  induction h with
  | @here d f h =>
    obtain ⟨-, -, h3, -, -⟩ := hw
    intro n hn
    rw [List.mem_singleton] at hn
    subst hn
    exact h3 _ h
  | @inside d n sub rel h _ ih =>
    obtain ⟨-, -, -, h4, h5⟩ := hw
    intro m hm
    rcases List.mem_cons.1 hm with rfl | hm
    · exact h4 _ h
    · exact ih (h5 _ h) m hm

/-- A text without separators in front of the next separator or the end is determined. -/
theorem split_at_slash : ∀ {a b x y : PyStr}, slash ∉ a → slash ∉ b →
    (x = [] ∨ ∃ x', x = slash :: x') → (y = [] ∨ ∃ y', y = slash :: y') → a ++ x = b ++ y → a = b ∧ x = y
  | [], [], x, y, _, _, _, _, e => ⟨rfl, e⟩
  | [], c :: b, x, y, _, hb, hx, _, e => by
    rcases hx with rfl | ⟨x', rfl⟩
    · simp at e
    · simp at e
      exact absurd e.1 (by intro h; exact hb (by simp [h]))
  | c :: a, [], x, y, ha, _, _, hy, e => by
    rcases hy with rfl | ⟨y', rfl⟩
    · simp at e
    · simp at e
      exact absurd e.1 (by intro h; exact ha (by simp [h]))
  | c :: a, c' :: b, x, y, ha, hb, hx, hy, e => by
    simp only [List.cons_append, List.cons.injEq] at e
    obtain ⟨rfl, e⟩ := e
    obtain ⟨rfl, rfl⟩ := split_at_slash (fun h => ha (by simp [h])) (fun h => hb (by simp [h])) hx hy e
    exact ⟨rfl, rfl⟩

theorem joined_shape (rel : List PyStr) : (rel.flatMap fun n => slash :: n) = [] ∨
    ∃ x, (rel.flatMap fun n => slash :: n) = slash :: x := by
  cases rel with
  | nil => exact .inl rfl
  | cons n r => exact .inr ⟨_, by rw [List.flatMap_cons]; rfl⟩

theorem joined_inj : ∀ {a b : List PyStr}, (∀ n ∈ a, slash ∉ n) → (∀ n ∈ b, slash ∉ n) →
    (a.flatMap fun n => slash :: n) = (b.flatMap fun n => slash :: n) → a = b
  | [], [], _, _, _ => rfl
  | [], n :: b, _, _, e => by simp at e
  | n :: a, [], _, _, e => by simp at e
  | n :: a, m :: b, ha, hb, e => by
    simp only [List.flatMap_cons, List.cons_append, List.cons.injEq, true_and] at e
    obtain ⟨rfl, e'⟩ := split_at_slash (ha n (by simp)) (hb m (by simp)) (joined_shape a) (joined_shape b) e
    rw [joined_inj (fun n hn => ha n (by simp [hn])) (fun n hn => hb n (by simp [hn])) e']

theorem paths_nodup {d : Dir} (hw : WellNamed d) (root : PyStr) : ((relsOf d).map (pathOf root)).Nodup := by
  refine nodup_map_on (relsOf_nodup d hw) fun a ha b hb e => ?_
  refine joined_inj (fileBelow_noSlash (relsOf_sound d a ha) hw) (fileBelow_noSlash (relsOf_sound d b hb) hw) ?_
  exact List.append_cancel_left e

end Jpy
