import Verif.Lemmas.Verbose
import Verif.Lemmas.Uuid
/-! # The runs with and without `--nullxml` -/

set_option linter.unusedSimpArgs false

namespace Jpy
open Spec

theorem sameL_refl : ∀ l : List Elem, SameButXmlL l l
  | [] => .nil
  | e :: es => .cons (.same e) (sameL_refl es)

theorem sameL_append {a b c d : List Elem} (h1 : SameButXmlL a b) (h2 : SameButXmlL c d) :
    SameButXmlL (a ++ c) (b ++ d) := by
  match a, b, h1 with
  | _, _, .nil => exact h2
  | _, _, .cons h hs => exact .cons h (sameL_append hs h2)

theorem same_tag {e1 e2 : Elem} (h : SameButXml e1 e2) : e1.tag = e2.tag := by
  cases h <;> rfl

/-- Is a path read identically in the two runs? -/
def xmlFree : List String → Bool
  | [] => true
  | t :: ts =>
    t ≠ "xmlBox" && t ≠ "uuidBox" &&
    (if t = "jp2HeaderBox" ∨ t = "resolutionBox" ∨ t = "uuidInfoBox" then !ts.isEmpty && xmlFree ts else true)

theorem same_findall : ∀ (p : List String) {c1 c2 : List Elem}, SameButXmlL c1 c2 → xmlFree p = true →
    Elem.findall c1 p = Elem.findall c2 p
  | [], _, _, _, _ => rfl
  | t :: ts, c1, c2, h, hp => by
    rw [xmlFree] at hp
    simp only [Bool.and_eq_true, decide_eq_true_eq] at hp
    obtain ⟨⟨hx, hu⟩, hp⟩ := hp
    have key : ∀ {c1 c2 : List Elem}, SameButXmlL c1 c2 →
        SameButXmlL (c1.filter (·.tag == t)) (c2.filter (·.tag == t)) := by
      intro c1 c2 h
      induction c1 generalizing c2 with
      | nil => cases h; exact .nil
      | cons e c1 ih =>
        cases h with
        | cons h hs =>
          rename_i e2 l2
          simp only [List.filter_cons, ← same_tag h]
          split
          · exact .cons h (ih hs)
          · exact ih hs
    have hf := key h
    have ht1 : ∀ e ∈ c1.filter (·.tag == t), e.tag = t := by
      intro e he; simpa using (List.mem_filter.1 he).2
    cases ts with
    | nil =>
      simp only [Elem.findall]
      have hns : ¬ (t = "jp2HeaderBox" ∨ t = "resolutionBox" ∨ t = "uuidInfoBox") := by
        intro hs; rw [if_pos hs] at hp; simp at hp
      generalize c1.filter (·.tag == t) = l1 at *
      generalize c2.filter (·.tag == t) = l2 at *
      clear h
      induction l1 generalizing l2 with
      | nil => cases hf; rfl
      | cons e l1 ih =>
        cases hf with
        | cons h hs =>
          have he := ht1 e (by simp)
          cases h with
          | same => rw [ih (fun e he => ht1 e (by simp [he])) _ hs]
          | xml hh => simp at he; subst he; rcases hh with hh | hh <;> contradiction
          | super hh => simp at he; subst he; exact absurd hh hns
    | cons u us =>
      simp only [Elem.findall]
      generalize c1.filter (·.tag == t) = l1 at *
      generalize c2.filter (·.tag == t) = l2 at *
      clear h
      induction l1 generalizing l2 with
      | nil => cases hf; rfl
      | cons e l1 ih =>
        cases hf with
        | cons h hs =>
          have he := ht1 e (by simp)
          rw [List.flatMap_cons, List.flatMap_cons, ih (fun e he => ht1 e (by simp [he])) _ hs]
          congr 1
          cases h with
          | same => rfl
          | xml hh => simp at he; subst he; rcases hh with hh | hh <;> contradiction
          | super hh hc =>
            simp at he; subst he
            rw [if_pos hh] at hp
            exact same_findall (u :: us) hc (by simpa using hp)

mutual
theorem same_readable (env : Env) (tbl : RemapTable) : ∀ {e1 e2 : Elem}, SameButXml e1 e2 →
    SameButXml (makeHumanReadable env tbl e1) (makeHumanReadable env tbl e2)
  | _, _, .same e => .same _
  | _, _, .xml h => by rw [makeHumanReadable, makeHumanReadable]; exact .xml h
  | _, _, .super h hc => by
    rw [makeHumanReadable, makeHumanReadable]; exact .super h (sameL_readable env tbl hc)
theorem sameL_readable (env : Env) (tbl : RemapTable) : ∀ {l1 l2 : List Elem}, SameButXmlL l1 l2 →
    SameButXmlL (makeHumanReadableL env tbl l1) (makeHumanReadableL env tbl l2)
  | _, _, .nil => by rw [makeHumanReadableL]; exact .nil
  | _, _, .cons h hs => by
    rw [makeHumanReadableL, makeHumanReadableL]; exact .cons (same_readable env tbl h) (sameL_readable env tbl hs)
end

/-- What the two runs have in common. -/
structure XR (k : Ctx) (n1 n2 : Node) : Prop where
  tests : n1.tests = n2.tests
  warnings : n1.warnings = n2.warnings
  chars : SameButXmlL n1.chars n2.chars
  inner : k ≠ .box → n1.chars = n2.chars
  valid : n1.isValid = true → n1.chars = n2.chars

/-- The same for a sub-result. -/
structure XL (k : Ctx) (r1 r2 : BoxResult) : Prop where
  tag : r1.tag = r2.tag
  off : r1.returnOffset = r2.returnOffset
  tests : r1.node.tests = r2.node.tests
  warnings : r1.node.warnings = r2.node.warnings
  chars : SameButXml r1.charsElem r2.charsElem
  inner : k ≠ .box → r1.node.chars = r2.node.chars
  valid : r1.node.isValid = true → r1.node.chars = r2.node.chars

theorem XR_isValid {k n1 n2} (h : XR k n1 n2) : n1.isValid = n2.isValid := by
  unfold Node.isValid; rw [h.tests]

theorem XR_absorb {k n1 n2 r1 r2} (h : XR k n1 n2) (hl : XL k r1 r2) : XR k (n1.absorb r1) (n2.absorb r2) := by
  refine ⟨?_, ?_, ?_, ?_, ?_⟩
  · simp only [Node.absorb, BoxResult.testsElem, h.tests, hl.tests, hl.tag]
  · simp only [Node.absorb, BoxResult.warningsElem, h.warnings, hl.warnings, hl.tag]
  · exact sameL_append h.chars (.cons hl.chars .nil)
  · intro hk
    simp only [Node.absorb, BoxResult.charsElem, h.inner hk, hl.inner hk, hl.tag]
  · intro hv
    rw [isValid_absorb, Bool.and_eq_true] at hv
    simp only [Node.absorb, BoxResult.charsElem, h.valid hv.1, hl.valid hv.2, hl.tag]

theorem XR_absorbQuiet {k n1 n2 r1 r2} (h : XR k n1 n2) (hl : XL k r1 r2) :
    XR k (n1.absorbQuiet r1) (n2.absorbQuiet r2) := by
  refine ⟨?_, ?_, h.chars, h.inner, ?_⟩
  · simp only [Node.absorbQuiet, BoxResult.testsElem, h.tests, hl.tests, hl.tag]
  · simp only [Node.absorbQuiet, BoxResult.warningsElem, h.warnings, hl.warnings, hl.tag]
  · intro hv
    have : (n1.absorbPacket false r1).isValid = true := hv
    rw [isValid_absorbPacket, Bool.and_eq_true] at this
    exact h.valid this.1

theorem XL_same (k : Ctx) (r : BoxResult) : XL k r r :=
  ⟨rfl, rfl, rfl, rfl, .same _, fun _ => rfl, fun _ => rfl⟩

/-- The XML statements of the two runs. -/
theorem xmlSteps_rel (env : Env) (v nx1 nx2 : Bool) (d : Bytes) (pre : List Step) :
    (Node.run v {} (pre ++ xmlSteps env nx1 d)).tests = (Node.run v {} (pre ++ xmlSteps env nx2 d)).tests ∧
    (Node.run v {} (pre ++ xmlSteps env nx1 d)).warnings = (Node.run v {} (pre ++ xmlSteps env nx2 d)).warnings ∧
    ((Node.run v {} (pre ++ xmlSteps env nx1 d)).isValid = true →
      (Node.run v {} (pre ++ xmlSteps env nx1 d)).chars = (Node.run v {} (pre ++ xmlSteps env nx2 d)).chars) := by
  have ht : testsOf (xmlSteps env nx1 d) = testsOf (xmlSteps env nx2 d) := by
    unfold xmlSteps
    cases env.parseXml d with
    | some e => rfl
    | none => cases nx1 <;> cases nx2 <;> simp <;> split <;> simp [testsOf]
  have hw : warningsOf (xmlSteps env nx1 d) = warningsOf (xmlSteps env nx2 d) := by
    unfold xmlSteps
    cases env.parseXml d with
    | some e => rfl
    | none => cases nx1 <;> cases nx2 <;> simp <;> split <;> simp [warningsOf]
  refine ⟨?_, ?_, ?_⟩
  · rw [run_tests, run_tests, testsOf_append, testsOf_append, ht]
  · rw [run_warnings, run_warnings, warningsOf_append, warningsOf_append, hw]
  · intro h
    rw [isValid_run, testsOf_append, List.all_append, Bool.and_eq_true] at h
    have := h.2
    have hx : (env.parseXml d).isSome = true := by rw [← allTrue_xmlSteps env nx1 d]; exact this
    obtain ⟨e, he⟩ := Option.isSome_iff_exists.1 hx
    rw [run_chars, run_chars, charsOf_append, charsOf_append]
    congr 2
    unfold xmlSteps
    rw [he]

theorem XL_xml {k : Ctx} (hk : k = .box) {tag : String} (ht : tag = "xmlBox" ∨ tag = "uuidBox") {n1 n2 : Node}
    (h1 : n1.tests = n2.tests) (h2 : n1.warnings = n2.warnings) (h3 : n1.isValid = true → n1.chars = n2.chars) :
    XL k ⟨tag, n1, none⟩ ⟨tag, n2, none⟩ :=
  ⟨rfl, rfl, h1, h2, .xml ht, fun h => absurd hk h, h3⟩

theorem XL_leaf (env : Env) {o1 o2 : Options} (hf : o1.format = o2.format) (hv : o1.verbose = o2.verbose)
    {k : Ctx} {t : BoxType} {fuel csiz bType c ss1 ss2} (h1 : leaf env o1 fuel csiz t bType c = .ok ss1)
    (h2 : leaf env o2 fuel csiz t bType c = .ok ss2) (hk : Ctx.allows k t = true) :
    XL k ⟨t.name, Node.run o1.verbose {} ss1, none⟩ ⟨t.name, Node.run o2.verbose {} ss2, none⟩ := by
  by_cases hx : t = .xmlBox
  · subst hx
    have hk' : k = .box := by cases k <;> first | rfl | (exact absurd hk (by decide))
    simp only [leaf] at h1 h2
    cases h1; cases h2
    obtain ⟨e1, e2, e3⟩ := xmlSteps_rel env o1.verbose o1.nullxml o2.nullxml c []
    rw [← hv]
    exact XL_xml hk' (.inl rfl) e1 e2 e3
  by_cases hu : t = .uuidBox
  · subst hu
    have hk' : k = .box := by cases k <;> first | rfl | (exact absurd hk (by decide))
    simp only [leaf, uuidBox] at h1 h2
    obtain ⟨u, hu1, h1⟩ := Outcome.bind_eq_ok.1 h1
    obtain ⟨u', hu2, h2⟩ := Outcome.bind_eq_ok.1 h2
    rw [hu1] at hu2
    cases hu2
    cases h1; cases h2
    rw [← hv]
    split
    · obtain ⟨e1, e2, e3⟩ := xmlSteps_rel env o1.verbose o1.nullxml o2.nullxml (slice c 16 c.length)
        [.test "boxLengthIsValid" (decide (c.length > 16))]
      exact XL_xml hk' (.inr rfl) e1 e2 e3
    · exact XL_same _ _
  have e : leaf env o1 fuel csiz t bType c = leaf env o2 fuel csiz t bType c := by
    cases t <;> first | (simp only [leaf, hf]; done) | contradiction
  rw [h1, h2] at e
  cases e
  rw [hv]
  exact XL_same _ _

/-- The relation between the runs with different `nullxml`. -/
def nullxmlRel (env : Env) (o : Options) (x1 x2 : Bool) :
    NodeRel env { o with nullxml := x1 } { o with nullxml := x2 } where
  R := XR
  L := XL
  empty k := ⟨rfl, rfl, .nil, fun _ => rfl, fun _ => rfl⟩
  test := by
    intro k n1 n2 name r h _
    refine ⟨?_, ?_, ?_, ?_, ?_⟩
    · rw [testFor_tests, testFor_tests, h.tests]
    · rw [testFor_warnings, testFor_warnings, h.warnings]
    · rw [testFor_chars, testFor_chars]; exact h.chars
    · rw [testFor_chars, testFor_chars]; exact h.inner
    · rw [testFor_chars, testFor_chars, isValid_testFor, Bool.and_eq_true]
      exact fun hh => h.valid hh.1
  char := by
    intro k n1 n2 name v _ h
    refine ⟨h.tests, h.warnings, sameL_append h.chars (.cons (.same _) .nil), ?_, ?_⟩
    · intro hk; simp [Node.addChar, h.inner hk]
    · intro hv; simp [Node.addChar, h.valid hv]
  absorb h1 h2 _ := XR_absorb h1 h2
  packet := by
    intro k n1 n2 r1 r2 h1 h2 _
    unfold Node.absorbPacket
    simp only
    split
    · exact XR_absorb h1 h2
    · exact XR_absorbQuiet h1 h2
  leaf := fun h1 h2 hk _ => XL_leaf (o1 := { o with nullxml := x1 }) (o2 := { o with nullxml := x2 }) env rfl rfl h1 h2 hk
  sot c := XL_same _ _
  super := by
    intro n1 n2 tag ht h
    simp only [List.mem_cons, List.not_mem_nil, or_false] at ht
    exact ⟨rfl, rfl, h.tests, h.warnings, .super ht h.chars, fun hh => absurd rfl hh, h.valid⟩
  code := by
    intro n1 n2 h
    have e := h.inner (by decide)
    exact ⟨rfl, rfl, h.tests, h.warnings, by simp only [BoxResult.charsElem, e]; exact .same _,
      fun _ => e, fun _ => e⟩
  tile := by
    intro n1 n2 off h
    have e := h.inner (by decide)
    exact ⟨rfl, rfl, h.tests, h.warnings, by simp only [BoxResult.charsElem, e]; exact .same _,
      fun _ => e, fun _ => e⟩
  tiles := by
    intro n1 n2 h
    have e := h.inner (by decide)
    exact ⟨rfl, rfl, h.tests, h.warnings, by simp only [BoxResult.charsElem, e]; exact .same _,
      fun _ => e, fun _ => e⟩
  look := by
    intro k n1 n2 p h hp
    by_cases hk : k = .box
    · subst hk
      refine same_findall p h.chars ?_
      revert p
      decide
    · rw [h.inner hk]

end Jpy
