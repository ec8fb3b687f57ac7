import Verif.Spec.Rules
import Verif.Lemmas.Leaf
import Verif.Lemmas.Box
import Verif.Lemmas.Uuid
/-! # Relating the tests of a validator to a table of rules -/

set_option linter.unusedSimpArgs false

namespace Jpy
open Spec

/-- The failed tests among these are exactly those whose rule is violated. -/
def Diag (ss : List Step) (rs : List Rule) : Prop :=
  ∀ name, (name, false) ∈ testsOf ss ↔ ∃ P, (name, P) ∈ rs ∧ ¬ P

theorem failed_run_aux (v : Bool) (name : String) : ∀ (ss : List Step) (n : Node),
    Failed (Node.run v n ss).tests name ↔ Failed n.tests name ∨ (name, false) ∈ testsOf ss
  | [], n => by simp [Node.run, testsOf]
  | s :: ss, n => by
    have ih := failed_run_aux v name ss (Node.step v n s)
    rw [show Node.run v n (s :: ss) = Node.run v (Node.step v n s) ss from rfl, ih]
    cases s with
    | test nm r =>
      simp only [Node.step, testsOf, List.mem_cons, Prod.mk.injEq]
      have : Failed (n.testFor v nm r).tests name ↔ Failed n.tests name ∨ (name = nm ∧ false = r) := by
        unfold Node.testFor Failed
        cases r with
        | true => cases v <;> simp [Elem.leaf]
        | false =>
          cases v <;> simp [Elem.leaf, or_and_right, exists_or] <;>
            exact ⟨fun h => h.imp id Eq.symm, fun h => h.imp id Eq.symm⟩
      rw [this, or_assoc]
    | char nm x => simp [Node.step, testsOf, Node.addChar]
    | warn m => simp [Node.step, testsOf, Node.addWarning]
    | elem e => simp [Node.step, testsOf]

theorem failed_run (v : Bool) (name : String) (ss : List Step) :
    Failed (Node.run v {} ss).tests name ↔ (name, false) ∈ testsOf ss := by
  rw [failed_run_aux]
  simp [Failed]

theorem diagnosed_run {v : Bool} {ss : List Step} {rs : List Rule} (h : Diag ss rs) :
    Diagnosed (Node.run v {} ss).tests rs := fun name => by rw [failed_run]; exact h name

theorem diag_nil : Diag [] [] := fun _ => by simp [testsOf]

theorem diag_char {n x ss rs} (h : Diag ss rs) : Diag (.char n x :: ss) rs := h
theorem diag_warn {m ss rs} (h : Diag ss rs) : Diag (.warn m :: ss) rs := h
theorem diag_elem {e ss rs} (h : Diag ss rs) : Diag (.elem e :: ss) rs := h

theorem diag_test {n : String} {b : Bool} {P : Prop} {ss rs} (hb : b = true ↔ P) (h : Diag ss rs) :
    Diag (.test n b :: ss) ((n, P) :: rs) := fun name => by
  simp only [testsOf, List.mem_cons, Prod.mk.injEq, h name]
  constructor
  · rintro (⟨rfl, hf⟩ | ⟨P', h1, h2⟩)
    · refine ⟨P, .inl ⟨rfl, rfl⟩, fun hp => ?_⟩
      rw [hb.2 hp] at hf; cases hf
    · exact ⟨P', .inr h1, h2⟩
  · rintro ⟨P', ⟨rfl, rfl⟩ | h1, h2⟩
    · refine .inl ⟨rfl, ?_⟩
      cases b with
      | false => rfl
      | true => exact absurd (hb.1 rfl) h2
    · exact .inr ⟨P', h1, h2⟩

/-- A rule without a test holds. -/
theorem diag_skip {n : String} {P : Prop} {ss rs} (hP : P) (h : Diag ss rs) :
    Diag ss ((n, P) :: rs) := fun name => by
  rw [h name]
  constructor
  · rintro ⟨P', h1, h2⟩; exact ⟨P', .tail _ h1, h2⟩
  · rintro ⟨P', h1, h2⟩
    rcases List.mem_cons.1 h1 with e | h1
    · cases e; exact absurd hP h2
    · exact ⟨P', h1, h2⟩

theorem diag_append {a b ra rb} (ha : Diag a ra) (hb : Diag b rb) : Diag (a ++ b) (ra ++ rb) := fun name => by
  rw [testsOf_append, List.mem_append, ha name, hb name]
  simp only [List.mem_append, or_and_right, exists_or]

theorem diag_none {ss : List Step} (h : testsOf ss = []) : Diag ss [] := fun name => by simp [h]

/-- Statements without tests in front. -/
theorem diag_quiet {a ss rs} (ha : testsOf a = []) (h : Diag ss rs) : Diag (a ++ ss) rs :=
  diag_append (diag_none ha) h

theorem testsOf_map_char {α} (l : List α) (n : String) (f : α → PyVal) :
    testsOf (l.map fun x => Step.char n (f x)) = [] := by
  induction l with
  | nil => rfl
  | cons x l ih => exact ih

theorem testsOf_flatMap_quiet {α} (l : List α) (f : α → List Step) (h : ∀ x, testsOf (f x) = []) :
    testsOf (l.flatMap f) = [] := by
  induction l with
  | nil => rfl
  | cons x l ih => rw [List.flatMap_cons, testsOf_append, h, ih]; rfl

/-- Equivalent rules with the same names. -/
def SameRules : List Rule → List Rule → Prop
  | [], [] => True
  | a :: l, b :: l' => a.1 = b.1 ∧ (a.2 ↔ b.2) ∧ SameRules l l'
  | _, _ => False

theorem diag_congr : ∀ {rs rs' : List Rule}, SameRules rs rs' → ∀ {ss}, Diag ss rs → Diag ss rs' := by
  have key : ∀ {rs rs' : List Rule}, SameRules rs rs' → ∀ name,
      (∃ P, (name, P) ∈ rs ∧ ¬ P) ↔ ∃ P, (name, P) ∈ rs' ∧ ¬ P := by
    intro rs
    induction rs with
    | nil =>
      intro rs' h
      cases rs' with
      | nil => intro name; exact Iff.rfl
      | cons => exact h.elim
    | cons a l ih =>
      intro rs' h
      cases rs' with
      | nil => exact h.elim
      | cons b l' =>
        intro name
        obtain ⟨n, P⟩ := a
        obtain ⟨n', P'⟩ := b
        obtain ⟨h1, h2, h3⟩ := h
        simp only at h1 h2
        subst h1
        have := ih h3 name
        simp only [List.mem_cons, Prod.mk.injEq, or_and_right, exists_or]
        rw [this]
        refine or_congr ?_ Iff.rfl
        constructor
        · rintro ⟨Q, ⟨h, rfl⟩, hq⟩; exact ⟨P', ⟨h, rfl⟩, fun h => hq (h2.2 h)⟩
        · rintro ⟨Q, ⟨h, rfl⟩, hq⟩; exact ⟨P, ⟨h, rfl⟩, fun h => hq (h2.1 h)⟩
  intro rs rs' h ss hd name
  rw [hd name, key h name]

theorem diag_loop {f : Nat → List Step} {n : Nat} (rs : List (String × (Nat → Prop)))
    (h : ∀ i < n, Diag (f i) (rs.map fun r => (r.1, r.2 i))) :
    Diag ((List.range n).flatMap f) (rs.map fun r => (r.1, ∀ i < n, r.2 i)) := fun name => by
  have e : ∀ l : List Nat, (name, false) ∈ testsOf (l.flatMap f) ↔ ∃ i ∈ l, (name, false) ∈ testsOf (f i) := by
    intro l
    induction l with
    | nil => simp [testsOf]
    | cons x l ih => rw [List.flatMap_cons, testsOf_append, List.mem_append, ih]; simp
  rw [e]
  constructor
  · rintro ⟨i, hi, hm⟩
    rw [List.mem_range] at hi
    obtain ⟨P, h1, h2⟩ := (h i hi name).1 hm
    obtain ⟨⟨n', Q⟩, hr, he⟩ := List.mem_map.1 h1
    cases he
    exact ⟨_, List.mem_map.2 ⟨_, hr, rfl⟩, fun hall => h2 (hall i hi)⟩
  · rintro ⟨P, h1, h2⟩
    obtain ⟨⟨n', Q⟩, hr, he⟩ := List.mem_map.1 h1
    cases he
    simp only [Classical.not_forall] at h2
    obtain ⟨i, hi, hq⟩ := h2
    exact ⟨i, List.mem_range.2 hi, (h i hi _).2 ⟨_, List.mem_map.2 ⟨_, hr, rfl⟩, hq⟩⟩

theorem diag_map {α} (l : List α) (nm : String) (b : α → Bool) (P : Prop)
    (h : (∀ x ∈ l, b x = true) ↔ P) : Diag (l.map fun x => .test nm (b x)) [(nm, P)] := fun name => by
  have e : (name, false) ∈ testsOf (l.map fun x => .test nm (b x)) ↔ name = nm ∧ ∃ x ∈ l, b x = false := by
    clear h
    induction l with
    | nil => simp [testsOf]
    | cons x l ih =>
      simp only [List.map_cons, testsOf, List.mem_cons, Prod.mk.injEq, ih]
      constructor
      · rintro (⟨h1, h2⟩ | ⟨h1, y, hy, h2⟩)
        · exact ⟨h1, x, .inl rfl, h2.symm⟩
        · exact ⟨h1, y, .inr hy, h2⟩
      · rintro ⟨h1, y, rfl | hy, h2⟩
        · exact .inl ⟨h1, h2.symm⟩
        · exact .inr ⟨h1, y, hy, h2⟩
  rw [e]
  simp only [List.mem_singleton, Prod.mk.injEq]
  constructor
  · rintro ⟨rfl, x, hx, hb⟩
    exact ⟨_, ⟨rfl, rfl⟩, fun hp => by have := h.2 hp x hx; rw [hb] at this; cases this⟩
  · rintro ⟨P', ⟨rfl, rfl⟩, hn⟩
    refine ⟨rfl, ?_⟩
    rw [← h] at hn
    simpa using hn

/-- Split a list of statements against a list of rules; leaves one goal for each test. -/
macro "diag" : tactic => `(tactic| repeat' (first
  | exact diag_nil | refine diag_char ?_ | refine diag_warn ?_ | refine diag_elem ?_
  | refine diag_test ?_ ?_))

/-- Decode the fields in a goal. -/
macro "decode" : tactic => `(tactic| simp (disch := omega) only [u8_slice, u16_slice, u32_slice,
  Int.reduceToNat, Int.toNat_natCast, Int.reduceAdd])

/-- A test of one field against its rule. -/
macro "fr" c:term:max off:term:max n:term:max : tactic => `(tactic| (
  try refine Iff.trans ⟨of_decide_eq_true, decide_eq_true⟩ ?_
  rcases h : uint $c $off $n with _ | v
  · simp [FieldIs, h, intOf, between_iff, low]
  · have := uint_lt h
    simp only [FieldIs, h, intOf, low_mod, between_iff, Option.some.injEq, exists_eq_left', exists_eq',
      decide_eq_true_eq, List.mem_cons, List.not_mem_nil, or_false, Bool.or_eq_true, Bool.and_eq_true,
      iff_true, Bool.not_eq_true', between_false_iff, true_implies, Nat.reducePow] <;> omega))

end Jpy
