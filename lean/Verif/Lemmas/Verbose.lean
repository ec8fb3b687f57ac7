import Verif.Lemmas.Report
/-! # The runs with and without `--verbose` -/

set_option linter.unusedSimpArgs false

namespace Jpy
open Spec

/- The shape of every tests tree: leaves hold a boolean, containers hold tests. -/
mutual
/-- One element. -/
def TT : Elem → Prop
  | .mk _ _ x cs _ => (∃ b, x = .bool b ∧ cs = []) ∨ (x = .none ∧ TTL cs)
/-- A list of elements. -/
def TTL : List Elem → Prop
  | [] => True
  | e :: es => TT e ∧ TTL es
end

/- Removal of passed tests before post-processing. -/
mutual
/-- One element. -/
def rawFailed : Elem → List Elem
  | .mk t a x cs lt =>
    if x = .bool true then []
    else if x = .bool false then [.mk t a x cs lt]
    else if rawFailedL cs = [] then []
    else [.mk t a x (rawFailedL cs) lt]
/-- A list of elements. -/
def rawFailedL : List Elem → List Elem
  | [] => []
  | e :: es => rawFailed e ++ rawFailedL es
end

theorem rawFailedL_append (a b : List Elem) : rawFailedL (a ++ b) = rawFailedL a ++ rawFailedL b := by
  induction a with
  | nil => simp [rawFailedL]
  | cons e es ih => simp [rawFailedL, ih]

theorem TTL_append (a b : List Elem) : TTL (a ++ b) ↔ TTL a ∧ TTL b := by
  induction a with
  | nil => simp [TTL]
  | cons e es ih => simp [TTL, ih, and_assoc]

mutual
theorem TT_rawFailed : ∀ e : Elem, TT e → TTL (rawFailed e)
  | .mk t a x cs lt => by
    intro h
    rw [TT] at h
    rw [rawFailed]
    rcases h with ⟨b, rfl, rfl⟩ | ⟨rfl, h⟩
    · cases b <;> simp [TTL, TT]
    · simp only [reduceCtorEq, if_false]
      split
      · trivial
      · simp only [TTL, TT, and_true]
        exact .inr ⟨trivial, TTL_rawFailed cs h⟩
theorem TTL_rawFailed : ∀ es : List Elem, TTL es → TTL (rawFailedL es)
  | [] => by simp [rawFailedL]
  | e :: es => by
    intro h
    rw [TTL] at h
    rw [rawFailedL, TTL_append]
    exact ⟨TT_rawFailed e h.1, TTL_rawFailed es h.2⟩
end

theorem readableText_nil (env : Env) (t : String) (v : PyVal) : readableText env [] t v = printable env v := rfl

theorem readableL_append (env : Env) (tbl) (a b : List Elem) : makeHumanReadableL env tbl (a ++ b) =
    makeHumanReadableL env tbl a ++ makeHumanReadableL env tbl b := by
  induction a with
  | nil => simp [makeHumanReadableL]
  | cons e es ih => simp [makeHumanReadableL, ih]

theorem readableL_eq_nil (env : Env) (tbl) (a : List Elem) : makeHumanReadableL env tbl a = [] ↔ a = [] := by
  cases a <;> simp [makeHumanReadableL]

mutual
theorem readable_rawFailed (env : Env) : ∀ e : Elem, TT e →
    makeHumanReadableL env [] (rawFailed e) = failedOnly (makeHumanReadable env [] e)
  | .mk t a x cs lt => by
    intro h
    rw [TT] at h
    rw [rawFailed, makeHumanReadable, failedOnly, readableText_nil]
    rcases h with ⟨b, rfl, rfl⟩ | ⟨rfl, h⟩
    · cases b <;> simp [printable, boolStr, makeHumanReadableL, makeHumanReadable, readableText_nil]
    · rw [← readable_rawFailedL env cs h]
      simp only [printable, reduceCtorEq, if_false, readableL_eq_nil]
      split
      · rfl
      · rfl
theorem readable_rawFailedL (env : Env) : ∀ es : List Elem, TTL es →
    makeHumanReadableL env [] (rawFailedL es) = failedOnlyL (makeHumanReadableL env [] es)
  | [] => by simp [rawFailedL, makeHumanReadableL, failedOnlyL]
  | e :: es => by
    intro h
    rw [TTL] at h
    rw [rawFailedL, readableL_append, makeHumanReadableL, failedOnlyL, readable_rawFailed env e h.1,
      readable_rawFailedL env es h.2]
end

/-- No printed `False` in a list of printed tests. -/
def PrintedOk (tests : List Elem) : Prop := ∀ e ∈ tests, ∀ d, Within d e → d.text ≠ .str "False"

mutual
theorem printedOk_one (env : Env) : ∀ e : Elem, TT e →
    ((∀ d, Within d (makeHumanReadable env [] e) → d.text ≠ .str "False") ↔
      ∀ d, Within d e → d.text ≠ .bool false)
  | .mk t a x cs lt => by
    intro h
    rw [TT] at h
    rw [makeHumanReadable, readableText_nil]
    simp only [within_mk]
    rcases h with ⟨b, rfl, rfl⟩ | ⟨rfl, h⟩
    · cases b <;> simp [printable, boolStr, makeHumanReadableL]
    · have := printedOk_list env cs h
      unfold PrintedOk at this
      constructor
      · rintro h1 d (rfl | ⟨c, hc, hd⟩)
        · simp
        · exact (this.1 fun e he d hd => h1 d (.inr ⟨e, he, hd⟩)) c hc d hd
      · rintro h1 d (rfl | ⟨c, hc, hd⟩)
        · simp [printable]
        · exact (this.2 fun e he d hd => h1 d (.inr ⟨e, he, hd⟩)) c hc d hd
theorem printedOk_list (env : Env) : ∀ es : List Elem, TTL es →
    (PrintedOk (makeHumanReadableL env [] es) ↔ NoFailure es)
  | [] => by simp [PrintedOk, NoFailure, makeHumanReadableL]
  | e :: es => by
    intro h
    rw [TTL] at h
    have h1 := printedOk_one env e h.1
    have h2 := printedOk_list env es h.2
    unfold PrintedOk NoFailure at *
    rw [makeHumanReadableL]
    simp only [List.mem_cons, forall_eq_or_imp]
    exact and_congr h1 h2
end

/-- What the two runs have in common. -/
def VR (n1 n2 : Node) : Prop :=
  n1.tests = rawFailedL n2.tests ∧ TTL n2.tests ∧ n1.chars = n2.chars ∧ n1.warnings = n2.warnings

theorem rawFailedL_testElems (ts : List (String × Bool)) :
    rawFailedL (testElems true ts) = testElems false ts := by
  induction ts with
  | nil => simp [testElems, rawFailedL]
  | cons t ts ih =>
    rw [testElems_cons, rawFailedL_append, ih, testElems_cons false]
    obtain ⟨n, b⟩ := t
    cases b <;> simp [testElems, rawFailedL, rawFailed, Elem.leaf]

theorem TTL_testElems (v : Bool) (ts : List (String × Bool)) : TTL (testElems v ts) := by
  induction ts with
  | nil => simp [testElems, TTL]
  | cons t ts ih =>
    rw [testElems_cons, TTL_append]
    refine ⟨?_, ih⟩
    obtain ⟨n, b⟩ := t
    cases v <;> cases b <;> simp [testElems, TTL, TT, Elem.leaf]

theorem VR_tests (tag : String) {t1 t2 s1 s2 : List Elem} (h : t1 = rawFailedL t2) (hs : s1 = rawFailedL s2)
    (ht : TTL t2) (hts : TTL s2) :
    Elem.appendIfNotEmpty t1 (.node tag s1) = rawFailedL (Elem.appendIfNotEmpty t2 (.node tag s2)) ∧
      TTL (Elem.appendIfNotEmpty t2 (.node tag s2)) := by
  subst h hs
  rw [appendIfNotEmpty_node, appendIfNotEmpty_node]
  by_cases e : s2 = []
  · subst e
    simp [rawFailedL, ht]
  · rw [if_neg e, rawFailedL_append, TTL_append]
    refine ⟨?_, ht, ?_⟩
    · simp only [rawFailedL, rawFailed, Elem.node, reduceCtorEq, if_false, List.append_nil]
      split <;> simp
    · simp only [Elem.node, TTL, TT, and_true]
      exact .inr ⟨trivial, hts⟩

theorem VR_absorb {n1 n2 : Node} {r1 r2 : BoxResult} (h : VR n1 n2) (ht : r1.tag = r2.tag)
    (hr : VR r1.node r2.node) : VR (n1.absorb r1) (n2.absorb r2) := by
  obtain ⟨h1, h2, h3, h4⟩ := h
  obtain ⟨g1, g2, g3, g4⟩ := hr
  unfold Node.absorb BoxResult.testsElem BoxResult.charsElem BoxResult.warningsElem
  have := VR_tests r2.tag h1 g1 h2 g2
  exact ⟨by rw [ht]; exact this.1, this.2, by rw [h3, g3, ht], by rw [h4, g4, ht]⟩

theorem VR_absorbQuiet {n1 n2 : Node} {r1 r2 : BoxResult} (h : VR n1 n2) (ht : r1.tag = r2.tag)
    (hr : VR r1.node r2.node) : VR (n1.absorbQuiet r1) (n2.absorbQuiet r2) := by
  obtain ⟨h1, h2, h3, h4⟩ := h
  obtain ⟨g1, g2, g3, g4⟩ := hr
  unfold Node.absorbQuiet BoxResult.testsElem BoxResult.warningsElem
  have := VR_tests r2.tag h1 g1 h2 g2
  exact ⟨by rw [ht]; exact this.1, this.2, h3, by rw [h4, g4, ht]⟩

theorem VR_run (ss : List Step) : VR (Node.run false {} ss) (Node.run true {} ss) := by
  refine ⟨?_, ?_, ?_, ?_⟩
  · rw [run_tests, run_tests]; simp [rawFailedL_testElems]
  · rw [run_tests]; simp [TTL_testElems]
  · rw [run_chars, run_chars]
  · rw [run_warnings, run_warnings]

/-- The relation between the run without `--verbose` and the run with it. -/
def verboseRel (env : Env) (o : Options) : NodeRel env { o with verbose := false } { o with verbose := true } where
  R _ n1 n2 := VR n1 n2
  L _ r1 r2 := r1.tag = r2.tag ∧ VR r1.node r2.node
  empty _ := ⟨rfl, trivial, rfl, rfl⟩
  test := by
    rintro k n1 n2 name r ⟨h1, h2, h3, h4⟩ -
    refine ⟨?_, ?_, by rw [testFor_chars, testFor_chars, h3],
      by rw [testFor_warnings, testFor_warnings, h4]⟩
    · rw [testFor_tests, testFor_tests, rawFailedL_append, h1, rawFailedL_testElems]
    · rw [testFor_tests, TTL_append]; exact ⟨h2, TTL_testElems _ _⟩
  char := by
    rintro k n1 n2 name v - ⟨h1, h2, h3, h4⟩
    exact ⟨h1, h2, by simp [Node.addChar, h3], h4⟩
  absorb h1 h2 _ := VR_absorb h1 h2.1 h2.2
  packet := by
    intro k n1 n2 r1 r2 h1 h2 _
    unfold Node.absorbPacket
    simp only
    split
    · exact VR_absorb h1 h2.1 h2.2
    · exact VR_absorbQuiet h1 h2.1 h2.2
  leaf := by
    intro k t fuel csiz bType c ss1 ss2 h1 h2 _ _
    have e := h1.symm.trans ((leaf_congr env rfl rfl fuel csiz t bType c).trans h2)
    cases e
    exact ⟨rfl, VR_run _⟩
  sot c := ⟨rfl, VR_run _⟩
  super tag _ h := ⟨rfl, h⟩
  code h := ⟨rfl, h⟩
  tile h := ⟨rfl, h⟩
  tiles h := ⟨rfl, h⟩
  look := by
    rintro k n1 n2 p ⟨h1, h2, h3, h4⟩ _
    rw [h3]

mutual
theorem rawFailed_ok : ∀ e : Elem, TT e →
    ((∀ x ∈ rawFailed e, ∀ d, Within d x → d.text ≠ .bool false) ↔ ∀ d, Within d e → d.text ≠ .bool false)
  | .mk t a x cs lt => by
    intro h
    rw [TT] at h
    rw [rawFailed]
    rcases h with ⟨b, rfl, rfl⟩ | ⟨rfl, h⟩
    · cases b <;> simp [within_mk]
    · have := rawFailedL_ok cs h
      unfold NoFailure at this
      simp only [reduceCtorEq, if_false]
      split
      · rename_i e
        rw [e] at this
        have := this.1 (by simp)
        refine ⟨fun _ => ?_, by simp⟩
        simp only [within_mk]
        rintro d (rfl | ⟨c, hc, hd⟩)
        · simp
        · exact this c hc d hd
      · simp only [List.mem_singleton, forall_eq, within_mk]
        constructor
        · rintro h1 d (rfl | ⟨c, hc, hd⟩)
          · simp
          · exact (this.1 fun e he d hd => h1 d (.inr ⟨e, he, hd⟩)) c hc d hd
        · rintro h1 d (rfl | ⟨c, hc, hd⟩)
          · simp
          · exact (this.2 fun e he d hd => h1 d (.inr ⟨e, he, hd⟩)) c hc d hd
theorem rawFailedL_ok : ∀ es : List Elem, TTL es → (NoFailure (rawFailedL es) ↔ NoFailure es)
  | [] => by simp [rawFailedL]
  | e :: es => by
    intro h
    rw [TTL] at h
    have h1 := rawFailed_ok e h.1
    have h2 := rawFailedL_ok es h.2
    unfold NoFailure at *
    rw [rawFailedL]
    simp only [List.mem_append, List.mem_cons, or_imp, forall_and, forall_eq]
    exact and_congr h1 h2
end

/-- The two runs have the same verdict. -/
theorem VR_isValid {n1 n2 : Node} (h : VR n1 n2) : n1.isValid = n2.isValid := by
  rw [Bool.eq_iff_iff, isValid_iff, isValid_iff, h.1]
  exact rawFailedL_ok _ h.2.1

theorem OutRel.left_ok {α β : Type} {R : α → β → Prop} {x : Outcome α} {y : Outcome β} {a : α}
    (h : OutRel R x y) (hx : x = .ok a) : ∃ b, y = .ok b ∧ R a b := by
  cases h with
  | ok h => cases hx; exact ⟨_, rfl, h⟩
  | raised => cases hx
  | timeout => cases hx

theorem OutRel.right_ok {α β : Type} {R : α → β → Prop} {x : Outcome α} {y : Outcome β} {b : β}
    (h : OutRel R x y) (hy : y = .ok b) : ∃ a, x = .ok a ∧ R a b := by
  cases h with
  | ok h => cases hy; exact ⟨_, rfl, h⟩
  | raised => cases hy
  | timeout => cases hy

/-- Every tests tree built by the validator has the expected shape. -/
theorem tests_shape {env : Env} {o : Options} {fuel : Nat} {b : Bytes} {n : Node}
    (h : validateRoot env o fuel b = .ok n) : TTL n.tests := by
  have hr : OutRel VR (validateRoot env { o with verbose := false } fuel b)
    (validateRoot env { o with verbose := true } fuel b) := validateRoot_rel (verboseRel env o) rfl fuel b
  cases hv : o.verbose with
  | false =>
    have e : ({ o with verbose := false } : Options) = o := by cases o; simp_all
    rw [e] at hr
    obtain ⟨m, -, hR⟩ := hr.left_ok h
    rw [hR.1]
    exact TTL_rawFailed _ hR.2.1
  | true =>
    have e : ({ o with verbose := true } : Options) = o := by cases o; simp_all
    rw [e] at hr
    obtain ⟨m, -, hR⟩ := hr.right_ok h
    exact hR.2.1

end Jpy
