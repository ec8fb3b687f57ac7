import Verif.Spec.Diagnosis
import Verif.Lemmas.File
import Verif.Lemmas.Rules
/-! # Tests added to those of the parts -/

set_option linter.unusedSimpArgs false
set_option linter.unusedVariables false

namespace Jpy
open Spec

/-- The tests of `m` are those of `n` and further ones that diagnose the rules. -/
def OwnTests (n m : Node) (rs : List Rule) : Prop := ∃ own, m.tests = n.tests ++ own ∧ Diagnosed own rs

theorem diagnosed_nil : Diagnosed [] [] := fun name => by simp [Failed]

theorem own_refl (n : Node) : OwnTests n n [] := ⟨[], by simp, diagnosed_nil⟩

theorem own_addChar {n m : Node} {rs : List Rule} {t v} (h : OwnTests n m rs) : OwnTests n (m.addChar t v) rs := h

theorem own_skip {n m : Node} {rs : List Rule} {nm : String} {P : Prop} (hP : P) (h : OwnTests n m rs) :
    OwnTests n m ((nm, P) :: rs) := by
  obtain ⟨own, h1, h2⟩ := h
  refine ⟨own, h1, fun name => ?_⟩
  rw [h2 name]
  constructor
  · rintro ⟨Q, h, hq⟩; exact ⟨Q, .tail _ h, hq⟩
  · rintro ⟨Q, h, hq⟩
    rcases List.mem_cons.1 h with e | h
    · cases e; exact absurd hP hq
    · exact ⟨Q, h, hq⟩

theorem failed_append {a b : List Elem} {name : String} :
    Failed (a ++ b) name ↔ Failed a name ∨ Failed b name := by
  unfold Failed
  simp only [List.mem_append, or_and_right, exists_or]

theorem failed_leaf {nm name : String} {b : Bool} :
    Failed [Elem.leaf nm (.bool b)] name ↔ name = nm ∧ b = false := by
  simp [Failed, Elem.leaf]
  exact fun _ => eq_comm

theorem own_test {n m : Node} {v : Bool} {rs : List Rule} {nm : String} {b : Bool} {P : Prop}
    (hb : b = true ↔ P) (h : OwnTests n m rs) : OwnTests n (m.testFor v nm b) ((nm, P) :: rs) := by
  by_cases hP : P
  · have hbt := hb.2 hP
    subst hbt
    refine own_skip hP ?_
    obtain ⟨own, h1, h2⟩ := h
    unfold Node.testFor
    cases v
    · exact ⟨own, h1, h2⟩
    · refine ⟨own ++ [.leaf nm (.bool true)], by simp [h1], fun name => ?_⟩
      rw [failed_append, failed_leaf, ← h2 name]
      simp
  · have hbf : b = false := by
      cases b with
      | false => rfl
      | true => exact absurd (hb.1 rfl) hP
    subst hbf
    obtain ⟨own, h1, h2⟩ := h
    refine ⟨own ++ [.leaf nm (.bool false)], ?_, fun name => ?_⟩
    · unfold Node.testFor; cases v <;> simp [h1]
    · rw [failed_append, failed_leaf, h2 name]
      constructor
      · rintro (⟨Q, h, hq⟩ | ⟨rfl, -⟩)
        · exact ⟨Q, .tail _ h, hq⟩
        · exact ⟨P, .head _, hP⟩
      · rintro ⟨Q, h, hq⟩
        rcases List.mem_cons.1 h with e | h
        · cases e; exact .inr ⟨rfl, rfl⟩
        · exact .inl ⟨Q, h, hq⟩

/-- A test that is made only on a condition. -/
theorem own_testIf {n m : Node} {v c : Bool} {rs : List Rule} {nm : String} {b : Bool} {P : Prop}
    (hb : c = true → (b = true ↔ P)) (hc : c = false → P) (h : OwnTests n m rs) :
    OwnTests n (m.testIf v c nm b) ((nm, P) :: rs) := by
  unfold Node.testIf
  cases c with
  | true => exact own_test (hb rfl) h
  | false => exact own_skip (hc rfl) h

theorem own_imp {n m : Node} {v c : Bool} {rs : List Rule} {nm : String} {b : Bool} {P : Prop}
    (hb : (!c || b) = true ↔ P) (h : OwnTests n m rs) : OwnTests n (m.testIf v c nm b) ((nm, P) :: rs) :=
  own_testIf (fun e => by rw [e] at hb; simpa using hb) (fun e => hb.1 (by rw [e]; rfl)) h

/-- Later tests first, as in the lists of the other lemmas. -/
theorem own_trans' {a b c : Node} {r1 r2 : List Rule} (h2 : OwnTests b c r2) (h1 : OwnTests a b r1) :
    OwnTests a c (r2 ++ r1) := by
  obtain ⟨o1, e1, d1⟩ := h1
  obtain ⟨o2, e2, d2⟩ := h2
  refine ⟨o1 ++ o2, by rw [e2, e1, List.append_assoc], fun name => ?_⟩
  rw [failed_append, d1 name, d2 name]
  simp only [List.mem_append, or_and_right, exists_or]
  exact Or.comm

theorem diagnosed_reverse {own : List Elem} {rs : List Rule} (h : Diagnosed own rs.reverse) :
    Diagnosed own rs := fun name => by
  rw [h name]
  simp only [List.mem_reverse]

theorem own_reverse {n m : Node} {rs : List Rule} (h : OwnTests n m rs.reverse) : OwnTests n m rs := by
  obtain ⟨own, h1, h2⟩ := h
  exact ⟨own, h1, diagnosed_reverse h2⟩

/-- The tests of a part are added as an entry. -/
theorem absorb_tests (n : Node) (r : BoxResult) : (n.absorb r).tests = n.tests ++ entry r.tag r.node.tests := by
  unfold Node.absorb Elem.appendIfNotEmpty BoxResult.testsElem
  simp only [Elem.node, Elem.children]
  cases r.node.tests <;> simp [entry, Elem.node]

theorem absorbQuiet_tests (n : Node) (r : BoxResult) :
    (n.absorbQuiet r).tests = n.tests ++ entry r.tag r.node.tests := by
  unfold Node.absorbQuiet Elem.appendIfNotEmpty BoxResult.testsElem
  simp only [Elem.node, Elem.children]
  cases r.node.tests <;> simp [entry, Elem.node]

theorem absorbPacket_tests (n : Node) (pm : Bool) (r : BoxResult) :
    (n.absorbPacket pm r).tests = n.tests ++ entry r.tag r.node.tests := by
  unfold Node.absorbPacket
  split
  · exact absorb_tests n r
  · exact absorbQuiet_tests n r

theorem foldl_absorb_tests (rs : List BoxResult) (n : Node) :
    (rs.foldl Node.absorb n).tests = n.tests ++ rs.flatMap fun r => entry r.tag r.node.tests := by
  induction rs generalizing n with
  | nil => simp
  | cons r rs ih => rw [List.foldl_cons, ih, absorb_tests]; simp

end Jpy
