import Verif.Spec.Schema
import Verif.Model.Readable
import Verif.Lemmas.Leaf
import Verif.Lemmas.Rel
/-! # Lemmas about schema validity -/

set_option linter.unusedSimpArgs false
set_option linter.unusedVariables false

namespace Jpy
open Spec Xsd

theorem isDigit_repr {n : Nat} {c : Char} (h : c ∈ (Nat.repr n).toList) : c.isDigit = true := by
  rw [Nat.toList_repr] at h
  exact Nat.isDigit_of_mem_toDigits (by decide) (by decide) h

theorem digits_nat (n : Nat) : Digits (Nat.repr n).toList :=
  ⟨by rw [Nat.toList_repr]; exact Nat.toDigits_ne_nil, fun _ h => isDigit_repr h⟩

theorem isInteger_int (i : Int) : IsInteger (toString i) := by
  cases i with
  | ofNat n => exact ⟨[], (Nat.repr n).toList, rfl, .inl rfl, digits_nat n⟩
  | negSucc n =>
    refine ⟨['-'], (Nat.repr (n + 1)).toList, ?_, .inr (.inr rfl), digits_nat _⟩
    show (("-" : String) ++ Nat.repr (n + 1)).toList = _
    rw [String.toList_append]; rfl

theorem isDecimal_of_integer {s : String} (h : IsInteger s) : IsDecimal s := by
  obtain ⟨sg, ds, h1, h2, h3⟩ := h
  exact ⟨sg, ds, [], by simpa using h1, h2, h3, .inl rfl⟩

theorem isDouble_of_decimal {s : String} (h : IsDecimal s) : IsDouble s :=
  .inr ⟨s.toList, [], by simp, by simpa using h, .inl rfl⟩

theorem integerNames_ok : ∀ s : Bool, ∀ t ∈ integerNames,
    (schema s).lookup t = some (.text .integer) ∧ remapTable.lookup t = none := by
  decide +kernel

theorem stringNames_ok : ∀ s : Bool, ∀ t ∈ stringNames, (schema s).lookup t = some (.text .string) := by
  decide +kernel

theorem resolutionNames_ok : ∀ s : Bool, ∀ t ∈ resolutionNames,
    (schema s).lookup t = some (.text (if s then .decimal else .double)) ∧ remapTable.lookup t = none := by
  decide +kernel

theorem illuminantNames_ok : ∀ s : Bool, ∀ t ∈ illuminantNames,
    (schema s).lookup t = some (.text .decimal) ∧ remapTable.lookup t = none := by
  decide +kernel

/-- The elements made from the statements of a validator are valid for a content model. -/
def SM (env : Env) (s : Bool) (r : Re) (ss : List Step) : Prop :=
  Matches s r (makeHumanReadableL env remapTable (charsOf ss))

theorem sm_readableL_append (env tbl) (a b : List Elem) :
    makeHumanReadableL env tbl (a ++ b) = makeHumanReadableL env tbl a ++ makeHumanReadableL env tbl b := by
  induction a with
  | nil => rfl
  | cons e es ih => simp [makeHumanReadableL, ih]

variable {env : Env} {s : Bool}

theorem readable_string (tbl t) (v : PyVal) : Simple.string.Holds (readableText env tbl t v) := by
  unfold readableText
  cases remapped tbl t v <;> trivial

theorem readable_int {t : String} (h : remapTable.lookup t = none) (i : Int) :
    readableText env remapTable t (.int i) = .str (toString i) := by
  unfold readableText remapped
  rw [h]; rfl

theorem sm_readable_flt {t : String} (h : remapTable.lookup t = none) (f : PyFloat) :
    readableText env remapTable t (.flt f) = .str (env.floatStr f) := by
  unfold readableText remapped
  rw [h]; rfl

/-- A value that may be stored under a tag. -/
def LeafOk (env : Env) (s : Bool) (t : String) (v : PyVal) : Prop :=
  Conforms s (.leaf t (readableText env remapTable t v))

theorem leafOk_int {t : String} (h : t ∈ integerNames) (i : Int) : LeafOk env s t (.int i) := by
  have h := integerNames_ok s t h
  refine .text h.1 ?_
  rw [readable_int h.2]
  exact isInteger_int i

theorem leafOk_str {t : String} (h : t ∈ stringNames) (v : PyVal) : LeafOk env s t v :=
  .text (stringNames_ok s t h) (readable_string _ _ _)

theorem leafOk_res {t : String} (h : t ∈ resolutionNames) (hf : FloatText env) (f : PyFloat)
    (hs : s = true → f.num.natAbs < 10 ^ 15 * f.den.natAbs) : LeafOk env s t (.flt f) := by
  have h := resolutionNames_ok s t h
  refine .text h.1 ?_
  rw [sm_readable_flt h.2]
  cases s with
  | true => exact hf.decimal _ (hs rfl)
  | false => exact hf.double _

theorem leafOk_illuminant {t : String} (h : t ∈ illuminantNames) (hf : FloatText env) (f : PyFloat)
    (hs : f.num.natAbs < 10 ^ 15 * f.den.natAbs) : LeafOk env s t (.flt f) := by
  have h := illuminantNames_ok s t h
  refine .text h.1 ?_
  rw [sm_readable_flt h.2]
  exact hf.decimal _ hs

theorem sm_nil : SM env s (sequence []) [] := .empty
theorem sm_test {r n b ss} (h : SM env s r ss) : SM env s r (.test n b :: ss) := h
theorem sm_warn {r m ss} (h : SM env s r ss) : SM env s r (.warn m :: ss) := h

theorem sm_seq {a b xs ys} (h1 : SM env s a xs) (h2 : SM env s b ys) : SM env s (.seq a b) (xs ++ ys) := by
  unfold SM
  rw [charsOf_append, sm_readableL_append]
  exact .seq h1 h2

theorem sm_append {a l xs ys} (h1 : SM env s a xs) (h2 : SM env s (sequence l) ys) :
    SM env s (sequence (a :: l)) (xs ++ ys) := sm_seq h1 h2

theorem sm_one {t v} (h : LeafOk env s t v) : SM env s (el t) [.char t v] :=
  .oneOf (List.mem_singleton.2 rfl) h

theorem sm_char {l t v ss} (h : LeafOk env s t v) (h2 : SM env s (sequence l) ss) :
    SM env s (sequence (el t :: l)) (.char t v :: ss) := sm_append (sm_one h) h2

theorem sm_int {l t i ss} (h : t ∈ integerNames) (h2 : SM env s (sequence l) ss) :
    SM env s (sequence (el t :: l)) (.char t (.int i) :: ss) := sm_char (leafOk_int h i) h2

theorem sm_str {l t v ss} (h : t ∈ stringNames) (h2 : SM env s (sequence l) ss) :
    SM env s (sequence (el t :: l)) (.char t v :: ss) := sm_char (leafOk_str h v) h2

theorem sm_optInt {l t i ss} (h : t ∈ integerNames) (h2 : SM env s (sequence l) ss) :
    SM env s (sequence (opt (el t) :: l)) (.char t (.int i) :: ss) :=
  sm_append (a := opt (el t)) (xs := [.char t (.int i)]) (.left (sm_one (leafOk_int h i))) h2

theorem sm_optStr {l t v ss} (h : t ∈ stringNames) (h2 : SM env s (sequence l) ss) :
    SM env s (sequence (opt (el t) :: l)) (.char t v :: ss) :=
  sm_append (a := opt (el t)) (xs := [.char t v]) (.left (sm_one (leafOk_str h v))) h2

theorem sm_skip {l a ss} (h2 : SM env s (sequence l) ss) : SM env s (sequence (opt a :: l)) ss :=
  sm_append (a := opt a) (xs := []) (.right .empty) h2

/-- The last part of a sequence. -/
theorem sm_last {r ss} (h : SM env s r ss) : SM env s (sequence [r]) ss := by
  have := sm_append h (sm_nil (env := env) (s := s))
  rwa [List.append_nil] at this

/-- The last part of a sequence, followed by tests. -/
theorem sm_lastTests {r ss tl} (h : SM env s r ss) (htl : charsOf tl = []) :
    SM env s (sequence [r]) (ss ++ tl) :=
  sm_append h (show Matches _ _ _ by rw [htl]; exact .empty)

/-- Tests at the end do not matter. -/
theorem sm_tests {r ss tl} (h : SM env s r ss) (htl : charsOf tl = []) : SM env s r (ss ++ tl) := by
  unfold SM
  rw [charsOf_append, htl, List.append_nil]
  exact h

theorem sm_cat {l1 l2 : List Re} {a b : List Step} (h1 : SM env s (sequence l1) a)
    (h2 : SM env s (sequence l2) b) : SM env s (sequence (l1 ++ l2)) (a ++ b) := by
  unfold SM at *
  rw [charsOf_append, sm_readableL_append]
  generalize makeHumanReadableL env remapTable (charsOf a) = xs at h1
  generalize makeHumanReadableL env remapTable (charsOf b) = ys at h2
  induction l1 generalizing xs with
  | nil => cases h1; exact h2
  | cons r l1 ih =>
    cases h1 with
    | seq h3 h4 =>
      rw [List.append_assoc]
      exact .seq h3 (ih _ h4)

theorem sm_star {α} {r : Re} {f : α → List Step} (h : ∀ x, SM env s r (f x)) :
    ∀ l : List α, SM env s (.star r) (l.flatMap f)
  | [] => .nil
  | x :: l => by
    unfold SM
    rw [List.flatMap_cons, charsOf_append, sm_readableL_append]
    exact .cons (h x) (sm_star h l)

theorem sm_loop {α} {r : Re} {f : α → List Step} (h : ∀ x, SM env s r (f x)) {l : List α}
    (hl : s = true → l ≠ []) : SM env s (atLeastOnce s r) (l.flatMap f) := by
  unfold atLeastOnce
  cases s with
  | false => exact sm_star h l
  | true =>
    cases l with
    | nil => exact absurd rfl (hl rfl)
    | cons x l =>
      rw [List.flatMap_cons]
      exact sm_seq (h x) (sm_star h l)

theorem map_flatMap {α} (f : α → Step) (l : List α) : l.map f = l.flatMap fun x => [f x] := by
  induction l with
  | nil => rfl
  | cons x l ih => simp [ih]

theorem sm_starMap {α} {t : String} {f : α → PyVal} (h : ∀ x, LeafOk env s t (f x)) (l : List α) :
    SM env s (.star (el t)) (l.map fun x => .char t (f x)) := by
  rw [map_flatMap]
  exact sm_star (fun x => sm_one (h x)) l

theorem sm_loopMap {α} {t : String} {f : α → PyVal} (h : ∀ x, LeafOk env s t (f x)) {l : List α}
    (hl : s = true → l ≠ []) : SM env s (atLeastOnce s (el t)) (l.map fun x => .char t (f x)) := by
  rw [map_flatMap]
  exact sm_loop (fun x => sm_one (h x)) hl

theorem range_ne {n : Nat} (h : 0 < n) : List.range n ≠ [] := by
  intro e
  have := List.length_range (n := n)
  rw [e] at this
  simp at this
  omega

/-- Match the fixed part of a sequence. -/
macro "sm" : tactic => `(tactic| repeat' (first
  | with_reducible apply sm_test
  | with_reducible apply sm_warn
  | (with_reducible refine sm_int ?_ ?_; decide +kernel)
  | (with_reducible refine sm_str ?_ ?_; decide +kernel)
  | (with_reducible refine sm_optInt ?_ ?_; decide +kernel)
  | (with_reducible refine sm_optStr ?_ ?_; decide +kernel)
  | with_reducible exact sm_nil))

/-- Flatten a list of statements. -/
macro "flat" : tactic => `(tactic|
  simp only [List.append_assoc, List.cons_append, List.nil_append, List.append_nil])


theorem sm_ftyp (fmt c) (h : s = true → rangeLen (intDiv ((c.length : Int) - 8) 4) ≠ 0) :
    SM env s (sequence [el "br", el "minV", atLeastOnce s (el "cL")]) (fileTypeBox fmt c) := by
  unfold fileTypeBox
  simp only []
  have hl : s = true → ((List.range (rangeLen (intDiv ((c.length : Int) - 8) 4))).map fun (i : Nat) =>
    slice c (8 + 4 * i) (8 + 4 * i + 4)) ≠ [] := by
    intro hs e
    exact range_ne (by have := h hs; omega) (List.map_eq_nil_iff.1 e)
  flat
  sm
  have := sm_loopMap (env := env) (s := s) (t := "cL") (f := fun x : Bytes => .bytes x)
    (fun x => leafOk_str (by decide +kernel) _) hl
  split <;> flat <;> sm
  · exact sm_lastTests this rfl
  · exact sm_lastTests this rfl
  · exact sm_last this

theorem sm_ihdr (c) : SM env s (sequence
      [ el "height", el "width", el "nC", el "bPCSign", el "bPCDepth", el "c", el "unkC",
        el "iPR" ]) (imageHeaderBox c) := by
  unfold imageHeaderBox
  sm

theorem sm_bpcc (c) (h : s = true → c ≠ []) :
    SM env s (atLeastOnce s (sequence [el "bPCSign", el "bPCDepth"])) (bitsPerComponentBox c) := by
  unfold bitsPerComponentBox
  refine sm_loop (fun x => ?_) (fun hs => range_ne (List.length_pos_iff.2 (h hs)))
  sm

theorem doConv_abs (b : Bytes) (h : b.length ≤ 4) : (bytesToUInt b).natAbs < 10 ^ 15 := by
  unfold bytesToUInt doConv
  split
  · have := be_lt b
    rw [beNat_eq]
    have h2 : 256 ^ b.length ≤ 256 ^ 4 := Nat.pow_le_pow_right (by decide) h
    omega
  · decide

theorem leafOk_icc (hf : FloatText env) {t : String} (h : t ∈ illuminantNames) (b : Bytes) (hb : b.length ≤ 4) :
    LeafOk env s t (iccIlluminant b) := by
  refine leafOk_illuminant h hf _ ?_
  have := doConv_abs b hb
  show (bytesToUInt b).natAbs < _ * (65536 : Int).natAbs
  rw [show (65536 : Int).natAbs = 65536 from rfl]
  omega

theorem sm_icc (hf : FloatText env) (c) : SM env s (sequence
      [ el "profileSize", el "preferredCMMType", el "profileVersion", el "profileClass",
        el "colourSpace", el "profileConnectionSpace", el "dateTimeString", el "profileSignature",
        el "primaryPlatform", el "embeddedProfile", el "profileCannotBeUsedIndependently",
        el "deviceManufacturer", el "deviceModel", el "transparency", el "glossiness",
        el "polarity", el "colour", el "renderingIntent", el "connectionSpaceIlluminantX",
        el "connectionSpaceIlluminantY", el "connectionSpaceIlluminantZ", el "profileCreator",
        el "profileID", .star (el "tag"), el "description" ]) (icc c) := by
  have hl : ∀ i j : Int, 0 ≤ i → j = i + 4 → (slice c i j).length ≤ 4 := by
    intro i j hi hj
    rw [slice_eq c hi (by omega), length_sub]
    omega
  unfold icc
  simp only []
  flat
  sm
  refine sm_char (leafOk_icc hf (by decide +kernel) _ (hl _ _ (by decide) rfl)) ?_
  refine sm_char (leafOk_icc hf (by decide +kernel) _ (hl _ _ (by decide) rfl)) ?_
  refine sm_char (leafOk_icc hf (by decide +kernel) _ (hl _ _ (by decide) rfl)) ?_
  sm
  refine sm_append (sm_starMap (t := "tag") (f := fun t : Bytes × Int × Int => .bytes t.1)
    (fun x => leafOk_str (by decide +kernel) _) _) ?_
  sm

/-- The element of an embedded ICC profile. -/
theorem conforms_icc (hf : FloatText env) (c) :
    Conforms s (makeHumanReadable env remapTable (iccElem c)) := by
  have h := sm_icc (s := s) hf c
  unfold SM at h
  unfold iccElem
  rw [run_chars]
  exact .content (r := _) (by cases s <;> decide +kernel) h

theorem sm_elem {l n e ss} (ht : e.tag = n) (h : Conforms s (makeHumanReadable env remapTable e))
    (h2 : SM env s (sequence l) ss) : SM env s (sequence (opt (el n) :: l)) (.elem e :: ss) := by
  refine sm_append (a := opt (el n)) (xs := [.elem e]) (.left (.oneOf ?_ h)) h2
  cases e
  exact List.mem_singleton.2 ht

theorem sm_colr (hf : FloatText env) (fmt c)
    (h : s = true → bytesToUnsignedChar (slice c 0 1) ≠ 5) : SM env s (sequence
      [ el "meth", el "prec", el "approx", opt (el "enumCS"), opt (el "icc"), opt (el "colPrims"),
        opt (el "transfC"), opt (el "matCoeffs"), opt (el "vidFRng") ]) (colourSpecificationBox fmt c) := by
  have rest : SM env s (sequence
      [ opt (el "enumCS"), opt (el "icc"), opt (el "colPrims"),
        opt (el "transfC"), opt (el "matCoeffs"), opt (el "vidFRng") ])
      (if bytesToUnsignedChar (slice c 0 1) = 1 then
        let enumCS := bytesToUInt (slice c 3 c.length)
        [ .char "enumCS" (.int enumCS),
          .test "enumCSIsValid" (decide (enumCS ∈ [16, 17, 18])) ]
      else if bytesToUnsignedChar (slice c 0 1) = 2 then
        let profile := slice c 3 c.length
        let e := iccElem profile
        [ .elem e,
          .test "iccSizeIsValid"
            (decide (Elem.findElementText e.children ["profileSize"] = some (.int profile.length))),
          .test "iccPermittedProfileClass"
            (decide (Elem.findElementText e.children ["profileClass"]
              ∈ [some (.bytes classScnr), some (.bytes classMntr)])),
          .test "iccNoLUTBasedProfile"
            (decide (PyVal.bytes tagA2B0 ∉ Elem.findAllText e.children ["tag"])) ]
      else if bytesToUnsignedChar (slice c 0 1) = 3 then
        [ .elem (iccElem (slice c 3 c.length)) ]
      else if bytesToUnsignedChar (slice c 0 1) = 5 then
        let colPrims := bytesToUShortInt (slice c 3 5)
        let transfC := bytesToUShortInt (slice c 5 7)
        let matCoeffs := bytesToUShortInt (slice c 7 9)
        let vidFRngByte := bytesToUnsignedChar (slice c 9 10)
        [ .char "colPrims" (.int colPrims) ]
        ++ (if fmt = .jph then
              [ .test "colPrimsIsValid"
                  (decide (colPrims ∈ [1, 2, 4, 5, 6, 7, 8, 9, 10, 11, 12, 22])) ]
            else [])
        ++ [ .char "transfC" (.int transfC) ]
        ++ (if fmt = .jph then
              [ .test "transfCIsValid"
                  (decide (transfC ∈ [1, 2, 4, 5, 6, 7, 8, 9, 10, 11, 12, 13, 14, 15, 16, 17, 18])) ]
            else [])
        ++ [ .char "matCoeffs" (.int matCoeffs) ]
        ++ (if fmt = .jph then
              [ .test "matCoeffsIsValid"
                  (decide (matCoeffs ∈ [0, 1, 2, 4, 5, 6, 7, 8, 9, 10, 11, 12, 13, 14])) ]
            else [])
        ++ [ .char "vidFRng" (.int (getBitValue vidFRngByte 1)) ]
      else []) := by
    split
    · sm
      iterate 5 apply sm_skip
      sm
    · split
      · apply sm_skip
        refine sm_elem rfl (conforms_icc hf _) ?_
        sm
        iterate 4 apply sm_skip
        sm
      · split
        · apply sm_skip
          refine sm_elem rfl (conforms_icc hf _) ?_
          iterate 4 apply sm_skip
          sm
        · split
          · rename_i h5
            have hs : s = false := by
              cases s with
              | false => rfl
              | true => exact absurd h5 (h rfl)
            subst hs
            have hv : ∀ v, SM env false (sequence [opt (el "vidFRng")]) [.char "vidFRng" v] := fun v =>
              sm_last (.left (sm_one (.text (s := .string) (by decide +kernel) (readable_string _ _ _))))
            apply sm_skip
            apply sm_skip
            simp only []
            by_cases hj : fmt = .jph
            · simp only [if_pos hj]
              flat
              sm
              exact hv _
            · simp only [if_neg hj]
              flat
              sm
              exact hv _
          · iterate 6 apply sm_skip
            sm
  unfold colourSpecificationBox
  refine sm_cat (l1 := [el "meth", el "prec", el "approx"]) ?_ rest
  flat
  sm
  split <;> flat <;> sm

theorem sm_pclr (c) (h : s = true → rangeLen (bytesToUnsignedChar (slice c 2 3)) ≠ 0) : SM env s (sequence
      [ el "nE", el "nPC",
        atLeastOnce s (sequence [el "bSign", el "bDepth", .star (el "cP")]) ]) (paletteBox c) := by
  unfold paletteBox
  simp only []
  flat
  sm
  refine sm_last (sm_loop (fun x => ?_) (fun hs => range_ne (by have := h hs; omega)))
  sm
  exact sm_last (sm_starMap (t := "cP") (f := fun k : Nat => .int _) (fun x => leafOk_int (by decide +kernel) _) _)

theorem sm_cmap (c) (h : s = true → 4 ≤ c.length) :
    SM env s (atLeastOnce s (sequence [el "cMP", el "mTyp", el "pCol"])) (componentMappingBox c) := by
  unfold componentMappingBox
  refine sm_loop (fun x => ?_) (fun hs => range_ne (by have := h hs; omega))
  sm

theorem sm_cdef (fmt c) (h : s = true → rangeLen (bytesToUShortInt (slice c 0 2)) ≠ 0) : SM env s (sequence
      [ el "n", atLeastOnce s (sequence [el "cN", el "cTyp", el "cAssoc"]) ]) (channelDefinitionBox fmt c) := by
  have tl : ∀ (b : Bool) (l : List Int),
      charsOf (.test "noMoreThanOneAlphaChannel" b
        :: l.map (fun a => .test "cAssocAlphaChannelIsZero" (decide (a = 0)))) = [] := by
    intro b l
    induction l with
    | nil => rfl
    | cons x l ih => exact ih
  unfold channelDefinitionBox
  refine sm_tests ?_ (by split <;> first | exact tl _ _ | rfl)
  flat
  sm
  refine sm_last (sm_loop (fun x => ?_) (fun hs => range_ne (by have := h hs; omega)))
  sm
  split <;> flat <;> sm

theorem sm_ulst {c ss} (h : uuidListBox c = .ok ss) (hs : s = true → rangeLen (bytesToUShortInt (slice c 0 2)) ≠ 0) :
    SM env s (sequence [el "nU", atLeastOnce s (el "uuid")]) ss := by
  have loop : ∀ n off ss, uuidListLoop c n off = .ok ss →
      ∃ l : List String, ss = l.map (fun u => Step.char "uuid" (.str u)) ∧ l.length = n := by
    intro n
    induction n with
    | zero => intro off ss h; cases h; exact ⟨[], rfl, rfl⟩
    | succ n ih =>
      intro off ss h
      unfold uuidListLoop at h
      obtain ⟨u, h1, h⟩ := Outcome.bind_eq_ok.1 h
      obtain ⟨rest, h2, h⟩ := Outcome.bind_eq_ok.1 h
      cases h
      obtain ⟨l, rfl, hl⟩ := ih _ _ h2
      exact ⟨u :: l, rfl, by simp [hl]⟩
  unfold uuidListBox at h
  obtain ⟨rest, h2, h⟩ := Outcome.bind_eq_ok.1 h
  cases h
  obtain ⟨l, rfl, hl⟩ := loop _ _ _ h2
  flat
  sm
  refine sm_last (sm_loopMap (f := fun u => .str u) (fun x => leafOk_str (by decide +kernel) _) fun e he => ?_)
  subst he
  exact hs e hl.symm

theorem sm_url (c) : SM env s (sequence [el "version", el "loc"]) (urlBox c) := by
  unfold urlBox
  simp only []
  sm

theorem sm_unknown (t) : SM env s (sequence [el "boxType"]) (unknownBox env t) := by
  unfold unknownBox
  sm

end Jpy
