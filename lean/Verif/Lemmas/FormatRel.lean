import Verif.Spec.FormatOnly
import Verif.Lemmas.Nullxml
import Verif.Lemmas.Warned
import Verif.Lemmas.Report
/-! # The runs in a format of part 1 and in one of part 15 -/

set_option linter.unusedSimpArgs false

namespace Jpy
open Spec

theorem htL_append {a b c d : List Elem} (h1 : SameButHTL a b) (h2 : SameButHTL c d) :
    SameButHTL (a ++ c) (b ++ d) := by
  match a, b, h1 with
  | _, _, .nil => exact h2
  | _, _, .cons h hs => exact .cons h (htL_append hs h2)

theorem ht_tag {e1 e2 : Elem} (h : SameButHT e1 e2) : e1.tag = e2.tag := by
  cases h <;> rfl

theorem ht_plain {t : String} {c1 c2 : List Elem} (h : SameButHT (.node t c1) (.node t c2))
    (h1 : t ∉ nestingNames) (h2 : t ∉ ["cod", "coc", "cap"]) : c1 = c2 := by
  unfold Elem.node at h
  generalize hx : Elem.mk t [] PyVal.none c1 = x at h
  generalize hy : Elem.mk t [] PyVal.none c2 = y at h
  cases h with
  | same => cases hx; cases hy; rfl
  | style h => cases hx; rcases h with rfl | rfl <;> simp at h2
  | cap => cases hx; simp at h2
  | part h => cases hx; exact absurd h h1

/-- Is a path read identically in the two runs? -/
def htFree : List String → Bool
  | [] => true
  | t :: ts =>
    t ≠ "cod" && t ≠ "coc" && t ≠ "cap" &&
    (if t ∈ nestingNames then !ts.isEmpty && htFree ts else true)

theorem ht_findall : ∀ (p : List String) {c1 c2 : List Elem}, SameButHTL c1 c2 → htFree p = true →
    Elem.findall c1 p = Elem.findall c2 p
  | [], _, _, _, _ => rfl
  | t :: ts, c1, c2, h, hp => by
    rw [htFree] at hp
    simp only [Bool.and_eq_true, decide_eq_true_eq] at hp
    obtain ⟨⟨⟨hx, hu⟩, hw⟩, hp⟩ := hp
    have key : ∀ {c1 c2 : List Elem}, SameButHTL c1 c2 →
        SameButHTL (c1.filter (·.tag == t)) (c2.filter (·.tag == t)) := by
      intro c1 c2 h
      induction c1 generalizing c2 with
      | nil => cases h; exact .nil
      | cons e c1 ih =>
        cases h with
        | cons h hs =>
          rename_i e2 l2
          simp only [List.filter_cons, ← ht_tag h]
          split
          · exact .cons h (ih hs)
          · exact ih hs
    have hf := key h
    have ht1 : ∀ e ∈ c1.filter (·.tag == t), e.tag = t := by
      intro e he; simpa using (List.mem_filter.1 he).2
    cases ts with
    | nil =>
      simp only [Elem.findall]
      have hns : ¬ (t ∈ nestingNames) := by
        intro hs; rw [if_pos hs] at hp; simp at hp
      generalize c1.filter (·.tag == t) = l1 at *
      generalize c2.filter (·.tag == t) = l2 at *
      clear h
      induction l1 generalizing l2 with
      | nil => cases hf; rfl
      | cons e l1 ih =>
        cases hf with
        | cons h hs =>
          have he := ht1 e (by simp)
          cases h with
          | same => rw [ih (fun e he => ht1 e (by simp [he])) _ hs]
          | style hh => simp at he; subst he; rcases hh with hh | hh <;> contradiction
          | cap => simp at he; exact absurd he.symm hw
          | part hh => simp at he; subst he; exact absurd hh hns
    | cons u us =>
      simp only [Elem.findall]
      generalize c1.filter (·.tag == t) = l1 at *
      generalize c2.filter (·.tag == t) = l2 at *
      clear h
      induction l1 generalizing l2 with
      | nil => cases hf; rfl
      | cons e l1 ih =>
        cases hf with
        | cons h hs =>
          have he := ht1 e (by simp)
          rw [List.flatMap_cons, List.flatMap_cons, ih (fun e he => ht1 e (by simp [he])) _ hs]
          congr 1
          cases h with
          | same => rfl
          | style hh => simp at he; subst he; rcases hh with hh | hh <;> contradiction
          | cap => simp at he; exact absurd he.symm hw
          | part hh hc =>
            simp at he; subst he
            rw [if_pos hh] at hp
            exact ht_findall (u :: us) hc (by simpa using hp)

theorem readableL_without (env : Env) (tbl : RemapTable) (names : List String) : ∀ l : List Elem,
    makeHumanReadableL env tbl (without names l) = without names (makeHumanReadableL env tbl l)
  | [] => rfl
  | .mk t a x c lt :: es => by
    have ih := readableL_without env tbl names es
    unfold without at ih ⊢
    simp only [makeHumanReadableL, makeHumanReadable, List.filter_cons]
    rw [← ih]
    by_cases h : t ∈ names
    · simp [Elem.tag, h]
    · simp [Elem.tag, h, makeHumanReadableL, makeHumanReadable]

mutual
theorem ht_readable (env : Env) (tbl : RemapTable) : ∀ {e1 e2 : Elem}, SameButHT e1 e2 →
    SameButHT (makeHumanReadable env tbl e1) (makeHumanReadable env tbl e2)
  | _, _, .same (e := .mk t a x c l) h => by
    rw [makeHumanReadable]; exact .same h
  | _, _, .style h => by
    rw [makeHumanReadable, makeHumanReadable, readableL_without]; exact .style h
  | _, _, .cap => by
    rw [makeHumanReadable, makeHumanReadable, readableL_without]; exact .cap
  | _, _, .part h hc => by
    rw [makeHumanReadable, makeHumanReadable]; exact .part h (htL_readable env tbl hc)
theorem htL_readable (env : Env) (tbl : RemapTable) : ∀ {l1 l2 : List Elem}, SameButHTL l1 l2 →
    SameButHTL (makeHumanReadableL env tbl l1) (makeHumanReadableL env tbl l2)
  | _, _, .nil => by rw [makeHumanReadableL]; exact .nil
  | _, _, .cons h hs => by
    rw [makeHumanReadableL, makeHumanReadableL]; exact .cons (ht_readable env tbl h) (htL_readable env tbl hs)
end

theorem findall_without {names : List String} {t : String} (ht : t ∉ names) (ts : List String) (c : List Elem) :
    Elem.findall (without names c) (t :: ts) = Elem.findall c (t :: ts) := by
  have e : (without names c).filter (·.tag == t) = c.filter (·.tag == t) := by
    unfold without
    rw [List.filter_filter]
    refine List.filter_congr fun x _ => ?_
    by_cases hx : x.tag = t
    · simp [hx, ht]
    · simp [hx]
  cases ts <;> simp only [Elem.findall, e]

theorem ht_texts : ∀ (p : List String) {c1 c2 : List Elem}, SameButHTL c1 c2 →
    (∀ t ∈ p, t ∉ styleNames ∧ t ∉ htNames) →
    (Elem.findall c1 p).map Elem.text = (Elem.findall c2 p).map Elem.text
  | [], _, _, _, _ => rfl
  | t :: ts, c1, c2, h, hp => by
    match c1, c2, h with
    | _, _, .nil => rfl
    | e1 :: l1, e2 :: l2, .cons he hs =>
      have ih := ht_texts (t :: ts) hs hp
      have htag := ht_tag he
      cases ts with
      | nil =>
        simp only [Elem.findall, List.filter_cons, ← htag] at ih ⊢
        split
        · simp only [List.map_cons, ih]
          congr 1
          cases he <;> rfl
        · exact ih
      | cons u us =>
        simp only [Elem.findall, List.filter_cons, ← htag] at ih ⊢
        split
        · simp only [List.flatMap_cons, List.map_append, ih]
          congr 1
          have hu : u ∉ styleNames ∧ u ∉ htNames := hp u (by simp)
          cases he with
          | same => rfl
          | style => simp only [Elem.children, findall_without hu.1]
          | cap => simp only [Elem.children, findall_without hu.2]
          | part _ hc => exact ht_texts (u :: us) hc fun x hx => hp x (by simp [hx])
        · exact ih
termination_by p c1 => (p.length, c1.length)

/-! ## Results of tests -/

/-- A path that has no test in it whose rules depend on the format. -/
def Shared (p : List String) : Prop := ∀ t ∈ p, t ∉ formatTests

theorem results_append (a b : List Elem) (p) : results (a ++ b) p = results a p ++ results b p := by
  unfold results Elem.findAllText
  rw [findall_append, List.map_append, List.filter_append]

theorem results_node (t : String) (c : List Elem) : ∀ p, results [.node t c] p =
    match p with
    | x :: y :: ys => if t = x then results c (y :: ys) else []
    | _ => []
  | [] => rfl
  | [x] => by
    unfold results Elem.findAllText
    simp only [Elem.findall, List.filter_cons, Elem.tag_node, List.filter_nil]
    by_cases h : t = x <;> simp [h]
  | x :: y :: ys => by
    unfold results Elem.findAllText
    simp only [Elem.findall, List.filter_cons, Elem.tag_node, List.filter_nil, beq_iff_eq]
    split
    · simp
    · simp

theorem results_nil (p) : results [] p = [] := by
  match p with
  | [] => rfl
  | [_] => rfl
  | _ :: _ :: _ => rfl

theorem results_add (a : List Elem) (t : String) (c : List Elem) (p) :
    results (Elem.appendIfNotEmpty a (.node t c)) p = results a p ++ results [.node t c] p := by
  unfold Elem.appendIfNotEmpty
  split
  · exact results_append _ _ _
  · rename_i h
    have hc : c = [] := by cases c <;> simp at h ⊢
    rw [hc, results_node]
    split
    · split <;> simp [results_nil]
    · simp

theorem results_leaf_other {t : String} {v : PyVal} {p : List String} (h : t ∉ p) : results [.leaf t v] p = [] := by
  match p with
  | [] => rfl
  | [x] =>
    have : t ≠ x := fun e => h (by simp [e])
    simp [results, Elem.findAllText, Elem.findall, this]
  | x :: y :: ys =>
    have : t ≠ x := fun e => h (by simp [e])
    simp [results, Elem.findAllText, Elem.findall, this]

theorem results_testElem_own {v : Bool} {a : String} {r : Bool} {p} (ha : a ∈ formatTests) (hp : Shared p) :
    results (testElems v [(a, r)]) p = [] := by
  unfold testElems
  cases h : (v || !r)
  · simp [h, results_nil]
  · simp only [List.filter_cons, h, if_true, List.filter_nil, List.map_cons, List.map_nil]
    exact results_leaf_other fun hx => hp a hx ha

/-- The tests whose rules do not depend on the format. -/
def shared (l : List (String × Bool)) : List (String × Bool) := l.filter fun t => decide (t.1 ∉ formatTests)

theorem testElems_append (v : Bool) (a b : List (String × Bool)) : testElems v (a ++ b) = testElems v a ++ testElems v b := by
  unfold testElems; rw [List.filter_append, List.map_append]

theorem results_shared (v : Bool) {p} (hp : Shared p) : ∀ l, results (testElems v l) p = results (testElems v (shared l)) p
  | [] => rfl
  | (a, r) :: l => by
    have e : (a, r) :: l = [(a, r)] ++ l := rfl
    rw [e, testElems_append, results_append, results_shared v hp l]
    unfold shared
    rw [List.filter_append]
    by_cases ha : a ∈ formatTests
    · rw [results_testElem_own ha hp]; simp [ha]
    · simp only [List.filter_cons, ha, not_false_eq_true, decide_true, if_true, List.filter_nil]
      rw [testElems_append, results_append]

/-- What the two runs have in common. -/
structure FR (n1 n2 : Node) : Prop where
  chars : SameButHTL n1.chars n2.chars
  warnings : n1.warnings = n2.warnings
  tests : ∀ p, Shared p → results n1.tests p = results n2.tests p

/-- The same for a sub-result. -/
structure FL (r1 r2 : BoxResult) : Prop where
  tag : r1.tag = r2.tag
  off : r1.returnOffset = r2.returnOffset
  warnings : r1.node.warnings = r2.node.warnings
  chars : SameButHT r1.charsElem r2.charsElem
  tests : ∀ p, Shared p → results r1.node.tests p = results r2.node.tests p

theorem FR.test {n1 n2} (h : FR n1 n2) (v : Bool) (a : String) (r : Bool) : FR (n1.testFor v a r) (n2.testFor v a r) :=
  ⟨by rw [testFor_chars, testFor_chars]; exact h.chars,
    by rw [testFor_warnings, testFor_warnings]; exact h.warnings,
    fun p hp => by rw [testFor_tests, testFor_tests, results_append, results_append, h.tests p hp]⟩

theorem FR.testIf {n1 n2} (h : FR n1 n2) (v c : Bool) (a : String) (r : Bool) :
    FR (n1.testIf v c a r) (n2.testIf v c a r) := by
  unfold Node.testIf
  split
  · exact h.test _ _ _
  · exact h

/-- Tests whose rules depend on the format do not matter. -/
theorem FR.left {n1 n2} (h : FR n1 n2) (v : Bool) {a : String} (r : Bool) (ha : a ∈ formatTests) :
    FR (n1.testFor v a r) n2 :=
  ⟨by rw [testFor_chars]; exact h.chars, by rw [testFor_warnings]; exact h.warnings,
    fun p hp => by rw [testFor_tests, results_append, results_testElem_own ha hp, List.append_nil, h.tests p hp]⟩

theorem FR.right {n1 n2} (h : FR n1 n2) (v c : Bool) {a : String} (r : Bool) (ha : a ∈ formatTests) :
    FR n1 (n2.testIf v c a r) := by
  unfold Node.testIf
  split
  · exact ⟨by rw [testFor_chars]; exact h.chars, by rw [testFor_warnings]; exact h.warnings,
      fun p hp => by rw [testFor_tests, results_append, results_testElem_own ha hp, List.append_nil, h.tests p hp]⟩
  · exact h

theorem FR.char {n1 n2} (h : FR n1 n2) (name : String) (v : PyVal)
    (hn : name ∉ "cap" :: nestingNames := by decide) : FR (n1.addChar name v) (n2.addChar name v) :=
  ⟨htL_append h.chars (.cons (.same hn) .nil), h.warnings, h.tests⟩

theorem FL.added {r1 r2} (hl : FL r1 r2) {p} (hp : Shared p) : results [r1.testsElem] p = results [r2.testsElem] p := by
  unfold BoxResult.testsElem
  rw [results_node, results_node, hl.tag]
  split
  · split
    · exact hl.tests _ fun t ht => hp t (by simp at ht ⊢; right; exact ht)
    · rfl
  · rfl

theorem FR.quiet {n1 n2 : Node} {r1 r2} (h : FR n1 n2) (hl : FL r1 r2) (p) (hp : Shared p) :
    results (Elem.appendIfNotEmpty n1.tests r1.testsElem) p = results (Elem.appendIfNotEmpty n2.tests r2.testsElem) p := by
  have := hl.added hp
  unfold BoxResult.testsElem at this ⊢
  rw [results_add, results_add, h.tests p hp, this]

theorem FR.absorb {n1 n2 r1 r2} (h : FR n1 n2) (hl : FL r1 r2) : FR (n1.absorb r1) (n2.absorb r2) :=
  ⟨htL_append h.chars (.cons hl.chars .nil), by
    simp only [Node.absorb, BoxResult.warningsElem, h.warnings, hl.warnings, hl.tag], h.quiet hl⟩

theorem FR.packet {n1 n2 r1 r2} (h : FR n1 n2) (hl : FL r1 r2) (pm : Bool) :
    FR (n1.absorbPacket pm r1) (n2.absorbPacket pm r2) := by
  cases pm
  · exact ⟨h.chars, by
      simp only [Node.absorbPacket, Node.absorbQuiet, BoxResult.warningsElem, h.warnings, hl.warnings, hl.tag]; rfl,
      h.quiet hl⟩
  · exact h.absorb hl

theorem FR.allText {n1 n2} (h : FR n1 n2) (p : List String)
    (hp : ∀ t ∈ p, t ∉ styleNames ∧ t ∉ htNames := by decide) :
    Elem.findAllText n1.chars p = Elem.findAllText n2.chars p := ht_texts p h.chars hp

theorem FR.has {n1 n2} (h : FR n1 n2) (t : String) (hp : t ∉ styleNames ∧ t ∉ htNames := by decide) :
    (Elem.findall n1.chars [t]).isEmpty = (Elem.findall n2.chars [t]).isEmpty := by
  have e := congrArg List.isEmpty (ht_texts [t] h.chars (by simpa using hp))
  simpa using e

theorem FR.look {n1 n2} (h : FR n1 n2) (p : List String) (hp : htFree p = true := by decide) :
    Elem.findall n1.chars p = Elem.findall n2.chars p := ht_findall p h.chars hp

theorem FR.find {n1 n2} (h : FR n1 n2) (p : List String) (hp : htFree p = true := by decide) :
    Elem.find n1.chars p = Elem.find n2.chars p := by simp only [Elem.find, h.look p hp]

theorem FR.text {n1 n2} (h : FR n1 n2) (p : List String) (hp : htFree p = true := by decide) :
    Elem.findElementText n1.chars p = Elem.findElementText n2.chars p := by simp only [Elem.findElementText, h.find p hp]

/-! ## Leaves -/

theorem charsOf_flatMap {α : Type} (f : α → List Step) : ∀ l : List α,
    charsOf (l.flatMap f) = l.flatMap fun x => charsOf (f x)
  | [] => rfl
  | x :: l => by rw [List.flatMap_cons, charsOf_append, charsOf_flatMap f l, List.flatMap_cons]

theorem charsOf_mapTest {α : Type} (n : String) (f : α → Bool) : ∀ l : List α,
    charsOf (l.map fun x => Step.test n (f x)) = []
  | [] => rfl
  | _ :: l => charsOf_mapTest n f l

/-- The characteristics of a leaf in the two formats. -/
def SameChars (t : BoxType) (ss1 ss2 : List Step) : Prop :=
  SameButHT (.node t.name (charsOf ss1)) (.node t.name (charsOf ss2))

theorem sameChars_of {t : BoxType} {ss1 ss2 : List Step} (h : charsOf ss1 = charsOf ss2)
    (ht : t.name ∉ "cap" :: nestingNames := by decide) : SameChars t ss1 ss2 := by
  unfold SameChars; rw [h]; exact .same ht

theorem without_append (ns : List String) (a b : List Elem) : without ns (a ++ b) = without ns a ++ without ns b :=
  List.filter_append ..

theorem without_precincts (c : Bytes) (o p l : Int) :
    without styleNames (charsOf (precinctSteps c o p l)) = charsOf (precinctSteps c o p l) := by
  refine List.filter_eq_self.2 fun e he => ?_
  have : e.tag = "precinctSizeX" ∨ e.tag = "precinctSizeY" := by
    unfold precinctSteps at he
    split at he
    all_goals
      rw [charsOf_flatMap] at he
      obtain ⟨i, -, he⟩ := List.mem_flatMap.1 he
      simp only [charsOf, List.mem_cons, List.not_mem_nil, or_false] at he
      rcases he with rfl | rfl <;> simp [Elem.leaf, Elem.tag]
  rcases this with h | h <;> simp [h, styleNames]

theorem codeBlock_format (f1 f2 : Format) (h1 : f1.isHT = false) (c : Bytes) (o : Int) :
    charsOf (codeBlockSteps f2 c o) = charsOf (codeBlockSteps f1 c o) ∨
    charsOf (codeBlockSteps f2 c o) = without styleNames (charsOf (codeBlockSteps f1 c o)) := by
  unfold codeBlockSteps
  simp only [h1]
  cases f2.isHT
  · left; rfl
  · simp only [if_true]
    cases decide (maskAt (bytesToUnsignedChar (slice c (o + 2) (o + 3))) 6 2 = 64)
    · left; rfl
    · right
      simp [charsOf, charsOf_append, without, styleNames, Elem.leaf, Elem.tag]

theorem style_sides {t : BoxType} (ht : t.name = "cod" ∨ t.name = "coc") {a b1 b2 d : List Step}
    (ha : without styleNames (charsOf a) = charsOf a) (hd : without styleNames (charsOf d) = charsOf d)
    (h : charsOf b2 = charsOf b1 ∨ charsOf b2 = without styleNames (charsOf b1)) :
    SameChars t (a ++ b1 ++ d) (a ++ b2 ++ d) := by
  rcases h with h | h
  · exact sameChars_of (by simp only [charsOf_append, h]) (by rcases ht with ht | ht <;> rw [ht] <;> decide)
  · have e : charsOf (a ++ b2 ++ d) = without styleNames (charsOf (a ++ b1 ++ d)) := by
      simp only [charsOf_append, without_append, ha, hd, h]
    unfold SameChars
    rw [e]
    exact .style ht

theorem cap_format (f1 f2 : Format) (h1 : f1.isHT = false) (h2 : f2.isHT = true) (c : Bytes) :
    SameChars .cap (cap f1 c) (cap f2 c) := by
  have e : charsOf (cap f1 c) = without htNames (charsOf (cap f2 c)) := by
    unfold cap
    simp only [h1, h2, if_true, Bool.false_eq_true, if_false]
    have hp : without htNames (charsOf ((capParts (bytesToUInt (slice c 2 6))).map fun (p : Nat) => Step.char "pcapPart" (.int p))) =
        charsOf ((capParts (bytesToUInt (slice c 2 6))).map fun (p : Nat) => Step.char "pcapPart" (.int p)) := by
      generalize capParts (bytesToUInt (slice c 2 6)) = l
      induction l with
      | nil => rfl
      | cons p l ih =>
        simp only [List.map_cons, charsOf]
        unfold without at ih ⊢
        rw [List.filter_cons, ih, if_pos (by simp [Elem.leaf, Elem.tag, htNames])]
    simp only [charsOf_append, without_append, hp]
    by_cases h15 : 15 ∈ capParts (bytesToUInt (slice c 2 6))
    · simp [h15, charsOf, without, htNames, Elem.leaf, Elem.tag]
    · simp [h15, charsOf, without, htNames, Elem.leaf, Elem.tag]
  unfold SameChars
  rw [e]
  exact .cap

theorem cpf_format (f1 f2 : Format) (c : Bytes) : charsOf (cpf f1 c) = charsOf (cpf f2 c) := by
  have hl : ∀ (nm : String) (b : Bool) (n : Nat) (st : Int), (profileLoop c nm b n st).1 = (profileLoop c nm false n st).1 ∧
      charsOf (profileLoop c nm b n st).2 = [] := by
    intro nm b n st
    have key : ∀ (l : List Nat) (acc acc' : Int × List Step), acc.1 = acc'.1 → charsOf acc.2 = [] →
        (l.foldl (fun (acc : Int × List Step) i => (acc.1 + bytesToUShortInt (slice c 2 4) * 2 ^ (16 * i),
          if i = n ∧ b then acc.2 ++ [.test nm (decide (bytesToUShortInt (slice c 2 4) ≠ 0))] else acc.2)) acc).1 =
        (l.foldl (fun (acc : Int × List Step) i => (acc.1 + bytesToUShortInt (slice c 2 4) * 2 ^ (16 * i),
          if i = n ∧ false then acc.2 ++ [.test nm (decide (bytesToUShortInt (slice c 2 4) ≠ 0))] else acc.2)) acc').1 ∧
        charsOf (l.foldl (fun (acc : Int × List Step) i => (acc.1 + bytesToUShortInt (slice c 2 4) * 2 ^ (16 * i),
          if i = n ∧ b then acc.2 ++ [.test nm (decide (bytesToUShortInt (slice c 2 4) ≠ 0))] else acc.2)) acc).2 = [] := by
      intro l
      induction l with
      | nil => intro acc acc' h1 h2; exact ⟨h1, h2⟩
      | cons i l ih =>
        intro acc acc' h1 h2
        rw [List.foldl_cons, List.foldl_cons]
        refine ih _ _ (by rw [h1]) ?_
        simp only
        split
        · rw [charsOf_append, h2]; rfl
        · exact h2
    exact key (List.range n) (st, []) (st, []) rfl rfl
  unfold cpf
  simp only [charsOf_append, (hl _ f1.isHT _ _).1, (hl _ f2.isHT _ _).1, (hl _ f1.isHT _ _).2, (hl _ f2.isHT _ _).2]
  cases f1.isHT <;> cases f2.isHT <;> rfl

theorem leaf_format (env : Env) (o : Options) {f1 f2 : Format} (hp : FormatPair f1 f2) (fuel csiz t bType c) :
    OutRel (SameChars t) (leaf env { o with format := f1 } fuel csiz t bType c)
      (leaf env { o with format := f2 } fuel csiz t bType c) := by
  have h1 : f1.isHT = false := by rcases hp with ⟨rfl, -⟩ | ⟨rfl, -⟩ <;> rfl
  have h2 : f2.isHT = true := by rcases hp with ⟨-, rfl⟩ | ⟨-, rfl⟩ <;> rfl
  cases t
  case fileTypeBox =>
    refine .ok (sameChars_of ?_)
    rcases hp with ⟨rfl, rfl⟩ | ⟨rfl, rfl⟩ <;> simp [fileTypeBox, charsOf, charsOf_append]
  case colourSpecificationBox =>
    refine .ok (sameChars_of ?_)
    unfold colourSpecificationBox
    rcases hp with ⟨rfl, rfl⟩ | ⟨rfl, rfl⟩ <;> simp [charsOf, charsOf_append, apply_ite charsOf]
  case channelDefinitionBox =>
    refine .ok (sameChars_of ?_)
    unfold channelDefinitionBox
    simp only [charsOf_append, charsOf_flatMap]
    rcases hp with ⟨rfl, rfl⟩ | ⟨rfl, rfl⟩
    · simp [charsOf, charsOf_append]
      exact charsOf_mapTest _ (fun (i : Nat) => decide (bytesToUShortInt (slice c (2 + 6 * i + 4) (2 + 6 * i + 6)) = 0)) _
    · simp [charsOf, charsOf_append]
  case cap => exact .ok (cap_format f1 f2 h1 h2 c)
  case siz =>
    simp only [leaf, siz]
    split
    · exact .raised _
    · refine .ok (sameChars_of ?_)
      simp only [charsOf_append, h1, h2]
      rcases hp with ⟨rfl, rfl⟩ | ⟨rfl, rfl⟩ <;> rfl
  case cod =>
    refine .ok (style_sides (.inl rfl) ?_ (without_precincts _ _ _ _) (codeBlock_format f1 f2 h1 _ _))
    simp [charsOf, without, styleNames, Elem.leaf, Elem.tag]
  case coc =>
    simp only [leaf, coc, withCsiz]
    cases csiz with
    | none => exact .raised _
    | some n =>
      refine .ok (style_sides (.inr rfl) ?_ (without_precincts _ _ _ _) (codeBlock_format f1 f2 h1 _ _))
      simp [charsOf, without, styleNames, Elem.leaf, Elem.tag]
  case rgn =>
    simp only [leaf, rgn, withCsiz]
    cases csiz with
    | none => exact .raised _
    | some n => exact .ok (sameChars_of rfl)
  case cpf => exact .ok (sameChars_of (cpf_format f1 f2 c))
  all_goals
    simp only [leaf]
    first
    | exact OutRel.refl (fun _ => sameChars_of rfl) _
    | exact .ok (.part (by decide) .nil)

theorem cpf_tests (f1 f2 : Format) (c : Bytes) : shared (testsOf (cpf f1 c)) = shared (testsOf (cpf f2 c)) := by
  have hl : ∀ (b : Bool) (n : Nat) (st : Int), shared (testsOf (profileLoop c "pcpfIsValid" b n st).2) = [] := by
    intro b n st
    unfold profileLoop
    have key : ∀ (l : List Nat) (acc : Int × List Step), shared (testsOf acc.2) = [] →
        shared (testsOf (l.foldl (fun (acc : Int × List Step) i => (acc.1 + bytesToUShortInt (slice c 2 4) * 2 ^ (16 * i),
          if i = n ∧ b then acc.2 ++ [.test "pcpfIsValid" (decide (bytesToUShortInt (slice c 2 4) ≠ 0))] else acc.2))
          acc).2) = [] := by
      intro l
      induction l with
      | nil => intro acc h; exact h
      | cons i l ih =>
        intro acc h
        rw [List.foldl_cons]
        refine ih _ ?_
        simp only
        split
        · rw [testsOf_append, shared, List.filter_append, ← shared, h]; rfl
        · exact h
    exact key _ _ rfl
  have e : ∀ f : Format, shared (testsOf (cpf f c)) = [] := by
    intro f
    unfold cpf
    simp only [testsOf_append]
    unfold shared
    simp only [List.filter_append]
    have := hl f.isHT (rangeLen (intDiv (bytesToUShortInt (slice c 0 2) - 2) 2)) (-1)
    unfold shared at this
    rw [this]
    cases f.isHT <;> rfl
  rw [e, e]

theorem testsOf_flatMap {α : Type} (f : α → List Step) : ∀ l : List α,
    testsOf (l.flatMap f) = l.flatMap fun x => testsOf (f x)
  | [] => rfl
  | x :: l => by rw [List.flatMap_cons, testsOf_append, testsOf_flatMap f l, List.flatMap_cons]

theorem shared_append (a b) : shared (a ++ b) = shared a ++ shared b := List.filter_append ..

theorem shared_flatMap {α : Type} (f : α → List (String × Bool)) : ∀ l : List α,
    shared (l.flatMap f) = l.flatMap fun x => shared (f x)
  | [] => rfl
  | x :: l => by rw [List.flatMap_cons, shared_append, shared_flatMap f l, List.flatMap_cons]

theorem shared_mapTest {α : Type} {n : String} (hn : n ∈ formatTests) (f : α → Bool) : ∀ l : List α,
    shared (testsOf (l.map fun x => Step.test n (f x))) = []
  | [] => rfl
  | x :: l => by
    have ih := shared_mapTest hn f l
    simp only [List.map_cons, testsOf]
    unfold shared at ih ⊢
    rw [List.filter_cons, ih]
    simp [hn]

theorem codeBlock_tests (f1 f2 : Format) (c : Bytes) (o : Int) :
    testsOf (codeBlockSteps f1 c o) = testsOf (codeBlockSteps f2 c o) := by
  unfold codeBlockSteps
  cases f1.isHT <;> cases f2.isHT <;> simp only [if_true, Bool.false_eq_true, if_false] <;>
    cases decide (maskAt (bytesToUnsignedChar (slice c (o + 2) (o + 3))) 6 2 = 64) <;> rfl

theorem leaf_tests (env : Env) (o : Options) {f1 f2 : Format} (hp : FormatPair f1 f2) (fuel csiz t bType c) :
    OutRel (fun a b => shared (testsOf a) = shared (testsOf b)) (leaf env { o with format := f1 } fuel csiz t bType c)
      (leaf env { o with format := f2 } fuel csiz t bType c) := by
  cases t
  case fileTypeBox =>
    refine .ok ?_
    simp only [fileTypeBox, testsOf_append, shared_append]
    rcases hp with ⟨rfl, rfl⟩ | ⟨rfl, rfl⟩ <;> rfl
  case colourSpecificationBox =>
    refine .ok ?_
    unfold colourSpecificationBox
    simp only [testsOf_append, shared_append]
    rcases hp with ⟨rfl, rfl⟩ | ⟨rfl, rfl⟩
    · congr 1
      repeat' first | rfl | split
    · congr 1
  case channelDefinitionBox =>
    refine .ok ?_
    unfold channelDefinitionBox
    simp only [testsOf_append, shared_append, testsOf_flatMap, shared_flatMap]
    rcases hp with ⟨rfl, rfl⟩ | ⟨rfl, rfl⟩
    · have h := shared_mapTest (n := "cAssocAlphaChannelIsZero") (by decide) (fun (a : Int) => decide (a = 0))
        (((List.range (rangeLen (bytesToUShortInt (slice c 0 2)))).filter
          fun (i : Nat) => decide (bytesToUShortInt (slice c (2 + 6 * i + 2) (2 + 6 * i + 4)) ∈ [1, 2])).map
          fun (i : Nat) => bytesToUShortInt (slice c (2 + 6 * i + 4) (2 + 6 * i + 6)))
      have hc : ∀ (r : Bool) (l : List (String × Bool)), shared (("noMoreThanOneAlphaChannel", r) :: l) = shared l :=
        fun r l => by unfold shared; rw [List.filter_cons]; simp [formatTests]
      have hd : ∀ (r : Bool) (l : List Step), shared (testsOf (Step.test "noMoreThanOneAlphaChannel" r :: l)) =
        shared (testsOf l) := fun r l => hc r _
      rw [if_pos rfl, if_neg (by decide), hd, h]
      rfl
    · rfl
  case cap =>
    refine .ok ?_
    simp only [cap, testsOf_append, shared_append]
    cases f1.isHT <;> cases f2.isHT <;> simp only [if_true, Bool.false_eq_true, if_false] <;>
      repeat' first | rfl | split
  case siz =>
    simp only [leaf, siz]
    split
    · exact .raised _
    · refine .ok ?_
      simp only [testsOf_append, shared_append]
      rcases hp with ⟨rfl, rfl⟩ | ⟨rfl, rfl⟩ <;> rfl
  case cod =>
    refine .ok ?_
    simp only [cod, testsOf_append, shared_append, codeBlock_tests f1 f2]
  case coc =>
    simp only [leaf, coc, withCsiz]
    cases csiz with
    | none => exact .raised _
    | some n =>
      refine .ok ?_
      simp only [testsOf_append, shared_append, codeBlock_tests f1 f2]
  case rgn =>
    simp only [leaf, rgn, withCsiz]
    cases csiz with
    | none => exact .raised _
    | some n => exact .ok rfl
  case cpf => exact .ok (cpf_tests f1 f2 c)
  all_goals
    simp only [leaf]
    exact OutRel.refl (R := fun a b => shared (testsOf a) = shared (testsOf b)) (fun _ => rfl) _

theorem OutRel.and {α : Type} {R S : α → α → Prop} {x y : Outcome α} (h1 : OutRel R x y) (h2 : OutRel S x y) :
    OutRel (fun a b => R a b ∧ S a b) x y := by
  cases h1 with
  | ok h => cases h2 with | ok h' => exact .ok ⟨h, h'⟩
  | raised e => exact .raised e
  | timeout => exact .timeout

theorem validateLeaf_format (env : Env) (o : Options) {f1 f2 : Format} (hp : FormatPair f1 f2) (fuel csiz bType c) :
    OutRel FL (validateLeaf env { o with format := f1 } fuel csiz bType c)
      (validateLeaf env { o with format := f2 } fuel csiz bType c) := by
  unfold validateLeaf
  refine ((leaf_format env o hp fuel csiz (boxTypeOf bType) bType c).and
    (leaf_tests env o hp fuel csiz (boxTypeOf bType) bType c)).bind ?_
  rintro a b ha hb ⟨h, ht⟩
  refine .ok ⟨rfl, rfl, ?_, ?_, fun p hp => by
    rw [run_tests, run_tests, results_append, results_append, results_shared _ hp, ht, ← results_shared _ hp]⟩
  · simp only [run_warnings]
    by_cases hu : boxTypeOf bType = .unknownBox
    · rw [hu] at ha hb
      simp only [leaf] at ha hb
      cases ha; cases hb; rfl
    · rw [warningsOf_calm (leaf_calm ha hu), warningsOf_calm (leaf_calm hb hu)]
  · unfold SameChars at h
    simpa only [BoxResult.charsElem, run_chars, List.nil_append] using h

/-! ## Codestreams -/

section
variable {env : Env} (o : Options) {f1 f2 : Format} (hp : FormatPair f1 f2)

/-- Related states of the tile-part header loop. -/
def TPF (s1 s2 : TPState) : Prop :=
  FR s1.node s2.node ∧ s1.pltCount = s2.pltCount ∧ s1.pptCount = s2.pptCount ∧
    s1.marker = s2.marker ∧ s1.offset = s2.offset ∧ s1.offsetNext = s2.offsetNext

include hp in
theorem tpLoop_format (lf csiz b) (fuel : Nat) {s1 s2 : TPState} (h : TPF s1 s2) :
    OutRel TPF
      (tpLoop (fun mk c cs => validateLeaf env { o with format := f1 } lf cs mk c) o.packetmarkers csiz b fuel s1)
      (tpLoop (fun mk c cs => validateLeaf env { o with format := f2 } lf cs mk c) o.packetmarkers csiz b fuel s2) := by
  induction fuel generalizing s1 s2 with
  | zero => exact .timeout
  | succ fuel ih =>
    unfold tpLoop
    have h3 := h.2.2.2.1
    have h5 := h.2.2.2.2.2
    rw [← h3, ← h5]
    split
    · refine OutRel.bind (R := TPF) ?_ fun _ _ _ _ hr => ih hr
      obtain ⟨hn, h1, h2, h3, h4, h5⟩ := h
      rw [tpStep_eq, tpStep_eq, ← h4]
      generalize getMarkerSegment b s1.offset = m
      simp only
      split
      · refine (validateLeaf_format env o hp lf _ m.marker m.contents).bind ?_
        rintro a b - - hL
        refine .ok ⟨?_, by simp only [h1], by simp only [h2], rfl, rfl, rfl⟩
        simp only
        split
        · exact hn.packet hL _
        · exact hn.absorb hL
      · exact .ok ⟨hn, h1, h2, rfl, rfl, rfl⟩
    · exact .ok h

theorem tpFinish_format (v : Bool) {s1 s2 : TPState} (h : TPF s1 s2) : FR (tpFinish v s1) (tpFinish v s2) := by
  obtain ⟨hn, h1, h2, h3, -, -⟩ := h
  unfold tpFinish
  simp only
  rw [← h1, ← h2, ← h3]
  have hA := ((hn.test v "foundSODMarker" (decide (s1.marker = mSOD))).char "pltCount" (.int s1.pltCount)).char
    "pptCount" (.int s1.pptCount)
  rw [hA.text ["sot", "tpsot"], hA.has "cod", hA.has "coc", hA.has "qcd", hA.has "qcc", hA.has "rgn",
    hA.allText ["coc", "ccoc"], hA.allText ["qcc", "cqcc"]]
  repeat refine FR.testIf ?_ _ _ _ _
  exact hA

/-- Related results of tile-parts. -/
def TPResF (r1 r2 : BoxResult) : Prop := FL r1 r2 ∧ FR r1.node r2.node

include hp in
theorem tilePart_format (fuel csiz start b) :
    OutRel TPResF (tilePart env { o with format := f1 } fuel csiz start b)
      (tilePart env { o with format := f2 } fuel csiz start b) := by
  unfold tilePart
  refine OutRel.bind (tpLoop_format o hp fuel csiz b fuel ?_) ?_
  · exact ⟨⟨.cons (.same (by simp [BoxResult.charsElem, Elem.node, Elem.tag, nestingNames])) .nil, rfl,
      fun _ _ => rfl⟩, rfl, rfl, rfl, rfl, rfl⟩
  · rintro s1 s2 - - h
    have := (tpFinish_format o.verbose h).testIf o.verbose
      (decide (bytesToUInt (slice (getMarkerSegment b start).contents 4 8) ≠ 0))
      "foundNextTilePartOrEOC" (decide (slice b
        (start + bytesToUInt (slice (getMarkerSegment b start).contents 4 8))
        (start + bytesToUInt (slice (getMarkerSegment b start).contents 4 8) + 2) ∈ [mSOT, mEOC]))
    exact .ok ⟨⟨rfl, rfl, this.warnings, .part (t := "tilePart") (by decide) this.chars, this.tests⟩, this⟩

/-- Related states of the main header loop. -/
def MainF (s1 s2 : MainState) : Prop :=
  FR s1.node s2.node ∧ s1.foundCOD = s2.foundCOD ∧ s1.foundQCD = s2.foundQCD ∧
    s1.foundCAP = s2.foundCAP ∧ s1.foundPRF = s2.foundPRF ∧ s1.foundCPF = s2.foundCPF ∧
    s1.plmCount = s2.plmCount ∧ s1.ppmCount = s2.ppmCount ∧
    s1.marker = s2.marker ∧ s1.offset = s2.offset ∧ s1.offsetNext = s2.offsetNext

include hp in
theorem mainLoop_format (lf csiz b) (fuel : Nat) {s1 s2 : MainState} (h : MainF s1 s2) :
    OutRel MainF
      (mainLoop (fun mk c cs => validateLeaf env { o with format := f1 } lf cs mk c) o.packetmarkers csiz b fuel s1)
      (mainLoop (fun mk c cs => validateLeaf env { o with format := f2 } lf cs mk c) o.packetmarkers csiz b fuel s2) := by
  induction fuel generalizing s1 s2 with
  | zero => exact .timeout
  | succ fuel ih =>
    unfold mainLoop
    have h8 := h.2.2.2.2.2.2.2.2.1
    have h10 := h.2.2.2.2.2.2.2.2.2.2
    rw [← h8, ← h10]
    split
    · refine OutRel.bind (R := MainF) ?_ fun _ _ _ _ hr => ih hr
      obtain ⟨hn, h1, h2, h3, h4, h5, h6, h7, h8, h9, h10⟩ := h
      rw [mainStep_eq, mainStep_eq, ← h9]
      generalize getMarkerSegment b s1.offset = m
      simp only
      split
      · refine (validateLeaf_format env o hp lf _ m.marker m.contents).bind ?_
        rintro a b - - hL
        refine .ok ⟨?_, by simp only [h1], by simp only [h2], by simp only [h3], by simp only [h4],
          by simp only [h5], by simp only [h6], by simp only [h7], rfl, rfl, rfl⟩
        simp only
        split
        · exact hn.packet hL _
        · exact hn.absorb hL
      · exact .ok ⟨hn, h1, h2, h3, h4, h5, h6, h7, rfl, by simp only [h9], rfl⟩
    · exact .ok h

/-- Related states of the tile-part loop. -/
def TileF (s1 s2 : TileState) : Prop :=
  FR s1.node s2.node ∧ s1.tileIndices = s2.tileIndices ∧ s1.expected = s2.expected ∧
    s1.found = s2.found ∧ s1.marker = s2.marker ∧ s1.offset = s2.offset

theorem tileLoop_format (tp1 tp2 : Int → Outcome BoxResult) (b)
    (htp : ∀ off, OutRel TPResF (tp1 off) (tp2 off)) (fuel : Nat) {s1 s2 : TileState}
    (h : TileF s1 s2) : OutRel TileF (tileLoop tp1 b fuel s1) (tileLoop tp2 b fuel s2) := by
  induction fuel generalizing s1 s2 with
  | zero => exact .timeout
  | succ fuel ih =>
    unfold tileLoop
    obtain ⟨h1, h2, h3, h4, h5, h6⟩ := h
    rw [← h5, ← h6]
    split
    · simp only
      split
      · refine (htp s1.offset).bind ?_
        rintro r1 r2 - - ⟨hL, hR⟩
        rw [hR.text ["sot", "isot"], hR.text ["sot", "tnsot"], ← hL.off, ← h2, ← h3, ← h4]
        refine OutRel.bind (R := Eq) (OutRel.refl (fun _ => rfl) _) ?_
        rintro isot _ - - rfl
        refine OutRel.bind (R := Eq) (OutRel.refl (fun _ => rfl) _) ?_
        rintro tnsot _ - - rfl
        have hN := h1.absorb hL
        split
        · split
          · exact ih ⟨hN, rfl, rfl, rfl, rfl, rfl⟩
          · exact .ok ⟨hN, rfl, rfl, rfl, rfl, rfl⟩
        · exact .ok ⟨hN, rfl, rfl, rfl, rfl, rfl⟩
      · exact .ok ⟨h1, h2, h3, h4, rfl, rfl⟩
    · exact .ok ⟨h1, h2, h3, h4, h5, h6⟩

include hp in
theorem codestreamFinish_format (b sizChars nTiles) {n1 n2 : Node} {t1 t2 : TileState}
    (hn : FR n1 n2) (ht : TileF t1 t2) :
    OutRel FR (codestreamFinish { o with format := f1 } b sizChars nTiles n1 t1)
      (codestreamFinish { o with format := f2 } b sizChars nTiles n2 t2) := by
  obtain ⟨h1, h2, h3, h4, -, -⟩ := ht
  unfold codestreamFinish
  simp only
  rw [← h2, ← h3, ← h4]
  have hA : FL { tag := "tileParts", node := t1.node } { tag := "tileParts", node := t2.node } :=
    ⟨rfl, rfl, h1.warnings, .part (t := "tileParts") (by decide) h1.chars, h1.tests⟩
  have hB := ((hn.test o.verbose "foundExpectedNumberOfTiles" (decide ((t1.tileIndices.length : Int) = nTiles))).testIf
    o.verbose (!t1.expected.isEmpty) "foundExpectedNumberOfTileParts" (dictEqFound t1.expected t1.found)).absorb hA
  rw [testIf_chars, testIf_chars, hB.allText ["coc", "ccoc"], hB.allText ["qcc", "cqcc"]]
  have hif : (f1 = .j2c ∨ f1 = .jhc) ↔ (f2 = .j2c ∨ f2 = .jhc) := by
    rcases hp with ⟨rfl, rfl⟩ | ⟨rfl, rfl⟩ <;> decide
  by_cases hc : f2 = .j2c ∨ f2 = .jhc
  · rw [if_pos (hif.2 hc), if_pos hc]
    refine OutRel.bind (R := Eq) (OutRel.refl (fun _ => rfl) _) ?_
    rintro a1 _ - - rfl
    refine OutRel.bind (R := Eq) (OutRel.refl (fun _ => rfl) _) ?_
    rintro a2 _ - - rfl
    refine OutRel.bind (R := Eq) (OutRel.refl (fun _ => rfl) _) ?_
    rintro a3 _ - - rfl
    refine OutRel.bind (R := Eq) (OutRel.refl (fun _ => rfl) _) ?_
    rintro a4 _ - - rfl
    refine OutRel.bind (R := Eq) (OutRel.refl (fun _ => rfl) _) ?_
    rintro a5 _ - - rfl
    exact .ok ((((hB.testIf _ _ _ _).testIf _ _ _ _).test _ _ _).char _ _)
  · rw [if_neg (fun h => hc (hif.1 h)), if_neg hc]
    exact .ok (((hB.testIf _ _ _ _).testIf _ _ _ _).test _ _ _)

include hp in
theorem codestream_format (fuel b) :
    OutRel FR (codestream env { o with format := f1 } fuel b) (codestream env { o with format := f2 } fuel b) := by
  unfold codestream
  simp only
  have h0 : ∀ r, FR ((({} : Node).testFor o.verbose "codestreamStartsWithSOCMarker"
      (decide ((getMarkerSegment b 0).marker = mSOC))).testFor o.verbose "foundSIZMarker" r)
      ((({} : Node).testFor o.verbose "codestreamStartsWithSOCMarker"
      (decide ((getMarkerSegment b 0).marker = mSOC))).testFor o.verbose "foundSIZMarker" r) := fun r =>
    ((⟨.nil, rfl, fun _ _ => rfl⟩ : FR {} {}).test _ _ _).test _ _ _
  split
  next hs =>
    rw [hs]
    have hsiz : OutRel (fun r1 r2 => FL r1 r2 ∧ r1.node.chars = r2.node.chars)
        (validateLeaf env { o with format := f1 } fuel none mSIZ
          (getMarkerSegment b (getMarkerSegment b 0).next).contents)
        (validateLeaf env { o with format := f2 } fuel none mSIZ
          (getMarkerSegment b (getMarkerSegment b 0).next).contents) := by
      have h := validateLeaf_format env o hp fuel none mSIZ (getMarkerSegment b (getMarkerSegment b 0).next).contents
      have hb : boxTypeOf mSIZ = .siz := by decide
      unfold validateLeaf at h ⊢
      rw [hb] at h ⊢
      generalize hx : leaf env { o with format := f1 } fuel none .siz mSIZ
        (getMarkerSegment b (getMarkerSegment b 0).next).contents = x at h ⊢
      generalize hy : leaf env { o with format := f2 } fuel none .siz mSIZ
        (getMarkerSegment b (getMarkerSegment b 0).next).contents = y at h ⊢
      cases x <;> cases y <;> cases h
      · rename_i a b hab
        refine .ok ⟨hab, ?_⟩
        exact ht_plain (t := "siz") hab.chars (by decide) (by decide)
      · exact .raised _
      · exact .timeout
    refine hsiz.bind ?_
    rintro r1 r2 - - ⟨hL, hC⟩
    rw [hC]
    refine OutRel.bind (R := Eq) (OutRel.refl (fun _ => rfl) _) ?_
    rintro csiz _ - - rfl
    refine OutRel.bind (mainLoop_format o hp fuel (some csiz) b fuel ?_) ?_
    · exact ⟨(h0 _).absorb hL, rfl, rfl, rfl, rfl, rfl, rfl, rfl, rfl, rfl, rfl⟩
    rintro s1 s2 - - ⟨hn, h1, h2, h3, h4, h5, h6, h7, h8, h9, h10⟩
    rw [← h1, ← h2, ← h3, ← h6, ← h7, ← h8, ← h9]
    have hA := (((hn.char "ppmCount" (.int s1.ppmCount)).char "plmCount" (.int s1.plmCount)).test o.verbose
      "foundCODMarker" s1.foundCOD).test o.verbose "foundQCDMarker" s1.foundQCD
    rw [hA.text ["siz", "rsiz"]]
    refine OutRel.bind (R := Eq) (OutRel.refl (fun _ => rfl) _) ?_
    rintro rsiz _ - - rfl
    have hB := hA.testIf o.verbose (decide (low (shr rsiz 14) 4 = 1)) "foundCAPMarker" s1.foundCAP
    rw [hB.text ["siz", "numberOfTiles"]]
    refine OutRel.bind (R := Eq) (OutRel.refl (fun _ => rfl) _) ?_
    rintro tiles _ - - rfl
    refine OutRel.bind (tileLoop_format _ _ b (fun off => tilePart_format o hp fuel (some csiz) off b) fuel ?_) ?_
    · exact ⟨⟨.nil, rfl, fun _ _ => rfl⟩, rfl, rfl, rfl, rfl, rfl⟩
    · rintro t1 t2 - - ht
      exact codestreamFinish_format o hp b _ _ hB ht
  next => exact .ok (h0 _)

/-! ## Boxes -/

theorem boxLoop_format (sub1 sub2 : Bytes → Bytes → Outcome BoxResult) (b)
    (hsub : ∀ t c, OutRel FL (sub1 t c) (sub2 t c)) (fuel : Nat) (start len : Int)
    {n1 n2 : Node} (types : List Bytes) (hn : FR n1 n2) :
    OutRel (fun a b => FR a.1 b.1 ∧ a.2 = b.2) (boxLoop sub1 b fuel start len n1 types)
      (boxLoop sub2 b fuel start len n2 types) := by
  induction fuel generalizing start len n1 n2 types with
  | zero => exact .timeout
  | succ fuel ih =>
    unfold boxLoop
    split
    · refine (hsub _ _).bind ?_
      rintro r1 r2 - - hL
      exact ih _ _ _ (hn.absorb hL)
    · exact .ok ⟨hn, rfl⟩

theorem walkBoxes_format (sub1 sub2 : Bytes → Bytes → Outcome BoxResult) (b)
    (hsub : ∀ t c, OutRel FL (sub1 t c) (sub2 t c)) (fuel : Nat) :
    OutRel (fun a b => FR a.1 b.1 ∧ a.2 = b.2) (walkBoxes sub1 b fuel) (walkBoxes sub2 b fuel) :=
  boxLoop_format sub1 sub2 b hsub fuel 0 10 [] ⟨.nil, rfl, fun _ _ => rfl⟩

/-- A superbox, from its nodes. -/
theorem FR.part {n1 n2 : Node} {t : String} (h : FR n1 n2) (ht : t ∈ nestingNames) :
    FL { tag := t, node := n1 } { tag := t, node := n2 } :=
  ⟨rfl, rfl, h.warnings, .part ht h.chars, h.tests⟩

include hp in
theorem jp2HeaderFinish_format {n1 n2 : Node} (types : List Bytes) (hn : FR n1 n2) :
    FR (jp2HeaderFinish { o with format := f1 } n1 types) (jp2HeaderFinish { o with format := f2 } n2 types) := by
  unfold jp2HeaderFinish
  have e2 := hn.text ["imageHeaderBox", "bPCSign"]
  have e3 := hn.text ["imageHeaderBox", "bPCDepth"]
  rcases hp with ⟨rfl, rfl⟩ | ⟨rfl, rfl⟩
  · simp only [testFor_chars, testIf_chars, e2, e3]
    repeat' first | exact hn | refine FR.left ?_ _ _ (by decide) | refine FR.right ?_ _ _ _ (by decide) | refine FR.test ?_ _ _ _ | refine FR.testIf ?_ _ _ _ _
  · simp only [testFor_chars, testIf_chars, e2, e3]
    repeat' first | exact hn | refine FR.test ?_ _ _ _ | refine FR.testIf ?_ _ _ _ _

include hp in
theorem validateBox_format (fuel : Nat) (bType c : Bytes) :
    OutRel FL (validateBox env { o with format := f1 } fuel bType c)
      (validateBox env { o with format := f2 } fuel bType c) := by
  induction fuel generalizing bType c with
  | zero => exact .timeout
  | succ fuel ih =>
    unfold validateBox
    split
    · refine (walkBoxes_format _ _ c ih fuel).bind ?_
      rintro ⟨a1, a2⟩ ⟨b1, b2⟩ - - ⟨h, rfl⟩
      exact .ok ((jp2HeaderFinish_format o hp a2 h).part (by decide))
    · refine (walkBoxes_format _ _ c ih fuel).bind ?_
      rintro ⟨a1, a2⟩ ⟨b1, b2⟩ - - ⟨h, rfl⟩
      exact .ok ((((h.test _ _ _).test _ _ _).test _ _ _).part (by decide))
    · refine (walkBoxes_format _ _ c ih fuel).bind ?_
      rintro ⟨a1, a2⟩ ⟨b1, b2⟩ - - ⟨h, rfl⟩
      exact .ok (((h.test _ _ _).test _ _ _).part (by decide))
    · refine (codestream_format o hp fuel c).bind ?_
      rintro a b - - h
      exact .ok (h.part (by decide))
    · exact .raised _
    · exact validateLeaf_format env o hp fuel none bType c

include hp in
theorem sizConsistency_format (noBytes : Int) {n1 n2 : Node} (ih sz : List Elem) (hn : FR n1 n2) :
    OutRel FR (sizConsistency { o with format := f1 } noBytes n1 ih sz)
      (sizConsistency { o with format := f2 } noBytes n2 ih sz) := by
  unfold sizConsistency bpcValues
  have e := hn.find ["jp2HeaderBox", "bitsPerComponentBox"]
  have hif : (f1 = .jp2 ∨ f1 = .jph) ↔ (f2 = .jp2 ∨ f2 = .jph) := by
    rcases hp with ⟨rfl, rfl⟩ | ⟨rfl, rfl⟩ <;> decide
  simp only [testFor_chars, e, hif]
  refine OutRel.bind (R := Eq) (OutRel.refl (fun _ => rfl) _) ?_
  rintro ysiz _ - - rfl
  refine OutRel.bind (R := Eq) (OutRel.refl (fun _ => rfl) _) ?_
  rintro yOsiz _ - - rfl
  refine OutRel.bind (R := Eq) (OutRel.refl (fun _ => rfl) _) ?_
  rintro xsiz _ - - rfl
  refine OutRel.bind (R := Eq) (OutRel.refl (fun _ => rfl) _) ?_
  rintro xOsiz _ - - rfl
  refine OutRel.bind (R := Eq) (OutRel.refl (fun _ => rfl) _) ?_
  rintro ⟨signs, depths⟩ _ - - rfl
  simp only
  have hN : ∀ (a1 a2 a3 a4 a5 : String) (r1 r2 r3 r4 r5 : Bool),
      FR (((((n1.testFor o.verbose a1 r1).testFor o.verbose a2 r2).testFor o.verbose a3 r3).testFor o.verbose a4 r4).testFor o.verbose a5 r5)
        (((((n2.testFor o.verbose a1 r1).testFor o.verbose a2 r2).testFor o.verbose a3 r3).testFor o.verbose a4 r4).testFor o.verbose a5 r5) :=
    fun _ _ _ _ _ _ _ _ _ _ =>
      ((((hn.test _ _ _).test _ _ _).test _ _ _).test _ _ _).test _ _ _
  split
  · refine OutRel.bind (R := Eq) (OutRel.refl (fun _ => rfl) _) ?_
    rintro a1 _ - - rfl
    refine OutRel.bind (R := Eq) (OutRel.refl (fun _ => rfl) _) ?_
    rintro a2 _ - - rfl
    refine OutRel.bind (R := Eq) (OutRel.refl (fun _ => rfl) _) ?_
    rintro a3 _ - - rfl
    exact .ok ((hN _ _ _ _ _ _ _ _ _ _).char _ _)
  · exact .ok (hN _ _ _ _ _ _ _ _ _ _)

include hp in
theorem jp2Finish_format (noBytes : Int) {n1 n2 : Node} (types : List Bytes) (hn : FR n1 n2) :
    OutRel FR (jp2Finish { o with format := f1 } noBytes n1 types) (jp2Finish { o with format := f2 } noBytes n2 types) := by
  unfold jp2Finish
  have e1 := hn.text ["jp2HeaderBox", "imageHeaderBox", "iPR"]
  have e2 := hn.find ["jp2HeaderBox", "imageHeaderBox"]
  have e3 := hn.find ["contiguousCodestreamBox", "siz"]
  simp only [testFor_chars, testIf_chars, e1, e2, e3]
  split
  · apply sizConsistency_format o hp
    repeat' first | exact hn | refine FR.test ?_ _ _ _ | refine FR.testIf ?_ _ _ _ _
  · apply OutRel.ok
    repeat' first | exact hn | refine FR.test ?_ _ _ _ | refine FR.testIf ?_ _ _ _ _

include hp in
theorem validateJP2_format (fuel : Nat) (b : Bytes) :
    OutRel FR (validateJP2 env { o with format := f1 } fuel b) (validateJP2 env { o with format := f2 } fuel b) := by
  unfold validateJP2
  refine (walkBoxes_format _ _ b (validateBox_format o hp fuel) fuel).bind ?_
  rintro ⟨a1, a2⟩ ⟨b1, b2⟩ - - ⟨h, rfl⟩
  exact jp2Finish_format o hp _ a2 h

include hp in
theorem validateRoot_format (fuel : Nat) (b : Bytes) :
    OutRel FR (validateRoot env { o with format := f1 } fuel b) (validateRoot env { o with format := f2 } fuel b) := by
  have hp' := hp
  rcases hp with ⟨rfl, rfl⟩ | ⟨rfl, rfl⟩
  · exact validateJP2_format o hp' fuel b
  · exact codestream_format o hp' fuel b

/-- Related analyses. -/
structure SameAnalysis (a1 a2 : Analysis) : Prop where
  success : a1.success = a2.success
  failure : a1.failure = a2.failure
  warnings : a1.warnings = a2.warnings
  props : SameButHTL a1.props a2.props
  tests : ∀ p, Shared p → results a1.tests p = results a2.tests p

theorem results_readable (env : Env) (es : List Elem) (p) :
    results (makeHumanReadableL env [] es) p = (results es p).map (printable env) := by
  unfold results Elem.findAllText
  rw [findall_readable]
  induction Elem.findall es p with
  | nil => rfl
  | cons e l ih =>
    cases e with
    | mk t a x c lt =>
      simp only [List.map_cons, List.filter_cons, makeHumanReadable, Elem.text] at ih ⊢
      rw [ih]
      cases x <;> simp [readableText, remapped, printable]

include hp in
theorem analyse_format (fs : FS) (fuel : Nat) (path : PyStr) :
    OutRel SameAnalysis (analyse env fs { o with format := f1 } fuel path)
      (analyse env fs { o with format := f2 } fuel path) := by
  have key : OutRel SameAnalysis (analyseTry env fs { o with format := f1 } fuel path)
      (analyseTry env fs { o with format := f2 } fuel path) := by
    unfold analyseTry
    refine OutRel.bind (R := Eq) (OutRel.refl (fun _ => rfl) _) ?_
    rintro ⟨b, fmm⟩ _ - - rfl
    refine (validateRoot_format o hp fuel b).bind ?_
    rintro n1 n2 - - h
    exact .ok ⟨rfl, rfl, by simp only [h.warnings], htL_readable env remapTable h.chars,
      fun p hp => by rw [results_readable, results_readable, h.tests p hp]⟩
  unfold analyse
  generalize analyseTry env fs { o with format := f1 } fuel path = x at key
  generalize analyseTry env fs { o with format := f2 } fuel path = y at key
  cases key with
  | ok h => exact .ok h
  | raised e => exact .ok ⟨rfl, rfl, rfl, .nil, fun _ _ => rfl⟩
  | timeout => exact .timeout

end

end Jpy
