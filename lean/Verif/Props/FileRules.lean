import Verif.Props.SuperRules
import Verif.Props.CodestreamRules
/-! # The tests of boxes and files -/

set_option linter.unusedSimpArgs false
set_option linter.unusedVariables false

namespace Jpy
open Spec

/-! ## Boxes -/

theorem diagnoses_inTurn {wf catC fmt} {env o fuel} : ∀ {bs : List FoundBox} {rs},
    inTurn (fun x : FoundBox => validateBox env o fuel x.type x.payload) bs = .ok rs →
    (∀ x ∈ bs, ∀ r, validateBox env o fuel x.type x.payload = .ok r →
      DiagnosesBox wf catC fmt x.type x.payload r.node.tests) →
    DiagnosesBoxes wf catC fmt bs (rs.flatMap fun r => entry r.tag r.node.tests)
  | [], rs, h, _ => by cases h; exact .nil
  | x :: xs, rs, h, hx => by
    obtain ⟨y, hy, h⟩ := Outcome.bind_eq_ok.1 h
    obtain ⟨ys, hys, h⟩ := Outcome.bind_eq_ok.1 h
    cases h
    exact .cons (fun h4 => by rw [validateBox_tag hy, boxName_eq h4]) (hx x (by simp) y hy)
      (diagnoses_inTurn hys fun z hz => hx z (by simp [hz]))

/-- C56 (any box): the tests of a box, with those of the boxes inside it and of a codestream, name exactly
the violated rules. -/
theorem C56_tree (env : Env) (o : Options) : ∀ (fuel : Nat) (t p : Bytes) (r : BoxResult),
    validateBox env o fuel t p = .ok r → DiagnosesBox (parses env) env.catC o.format t p r.node.tests
  | 0, _, _, _, h => by cases h
  | fuel + 1, t, p, r, h => by
    by_cases h4 : t.length = 4
    · by_cases hs : t ∈ superboxTypes
      · obtain ⟨bs, hb⟩ := boxes_exists p
        have key : ∀ n types, walkBoxes (validateBox env o fuel) p fuel = .ok (n, types) →
            ∃ rs, inTurn (fun x : FoundBox => validateBox env o fuel x.type x.payload) bs = .ok rs ∧
              n.chars = rs.map (·.charsElem) ∧ types = bs.map (·.type) ∧
              DiagnosesBoxes (parses env) env.catC o.format bs n.tests := by
          intro n types hw
          obtain ⟨rs, hr, rfl, rfl⟩ := walkBoxes_ok hb hw
          refine ⟨rs, hr, ?_, rfl, ?_⟩
          · rw [chars_foldl_absorb]; rfl
          · rw [foldl_absorb_tests]
            exact diagnoses_inTurn hr fun x _ r hr => C56_tree env o fuel _ _ r hr
        unfold validateBox at h
        have ht := List.mem_cons.1 hs
        rcases superboxTypes_cases.1 hs with e | e | e <;> rw [e] at h <;> simp only at h
        · obtain ⟨⟨n, ts⟩, hw, h⟩ := Outcome.bind_eq_ok.1 h
          cases h
          obtain ⟨rs, hr, hc, rfl, hd⟩ := key n ts hw
          obtain ⟨own, h1, h2⟩ := own_header hr hc
          have et : t = ascii "jp2h" := (boxTypeOf_iff (k := tagJp2Header) rfl (by decide) t).1 e
          simp only
          rw [h1]
          refine .super hs hb hd ?_
          rw [superRules, if_pos et]
          exact h2
        · obtain ⟨⟨n, ts⟩, hw, h⟩ := Outcome.bind_eq_ok.1 h
          cases h
          obtain ⟨rs, hr, hc, rfl, hd⟩ := key n ts hw
          obtain ⟨own, h1, h2⟩ := own_resolution o.verbose n bs
          have et : t = ascii "res " := (boxTypeOf_iff (k := tagResolution) rfl (by decide) t).1 e
          simp only
          rw [h1]
          refine .super hs hb hd ?_
          rw [superRules, if_neg (by rw [et]; decide), if_pos et]
          exact h2
        · obtain ⟨⟨n, ts⟩, hw, h⟩ := Outcome.bind_eq_ok.1 h
          cases h
          obtain ⟨rs, hr, hc, rfl, hd⟩ := key n ts hw
          obtain ⟨own, h1, h2⟩ := own_uuidInfo o.verbose n bs
          have et : t = ascii "uinf" := (boxTypeOf_iff (k := tagUuidInfo) rfl (by decide) t).1 e
          simp only
          rw [h1]
          refine .super hs hb hd ?_
          rw [superRules, if_neg (by rw [et]; decide), if_neg (by rw [et]; decide), if_pos et]
          exact h2
      · by_cases hc : t = ascii "jp2c"
        · subst hc
          unfold validateBox at h
          rw [show boxTypeOf (ascii "jp2c") = .contiguousCodestreamBox from by decide] at h
          simp only at h
          obtain ⟨n, hn, h⟩ := Outcome.bind_eq_ok.1 h
          cases h
          exact .codestream rfl (C56_codestream _ _ _ _ _ hn)
        · exact .leaf hs hc (C56_box env o _ t p r h4 hs hc h)
    · exact .cut h4

/-! ## Lookups -/

/-- The boxes inside the JP2 header boxes as they are looked up. -/
theorem header_lookup {env o} : ∀ {fuel} {bs hs : List FoundBox} {rs}, HeaderContents bs hs →
    inTurn (fun x : FoundBox => validateBox env o fuel x.type x.payload) bs = .ok rs →
    ∃ hrs, inTurn (fun x : FoundBox => validateBox env o (fuel - 1) x.type x.payload) hs = .ok hrs ∧
      ∀ u us, Elem.findall (rs.map (·.charsElem)) ("jp2HeaderBox" :: u :: us) =
        Elem.findall (hrs.map (·.charsElem)) (u :: us) := by
  intro fuel bs hs rs hc
  induction hc generalizing rs with
  | nil =>
    intro h
    cases h
    refine ⟨[], rfl, fun u us => ?_⟩
    cases us <;> rfl
  | @skip x bs hs hx _ ih =>
    intro h
    obtain ⟨y, ys, rfl, hy, hys⟩ := inTurn_cons.1 h
    obtain ⟨hrs, h1, h2⟩ := ih hys
    refine ⟨hrs, h1, fun u us => ?_⟩
    have ht : (y.tag == "jp2HeaderBox") = false := by
      rw [← Bool.not_eq_true]
      intro e
      have := (validateBox_tag_iff hy (k := ascii "jp2h") (bt := .jp2HeaderBox) (by decide) (by decide))
      have e' : (y.tag == BoxType.name .jp2HeaderBox) = true := e
      rw [e'] at this
      exact hx (by simpa using this)
    rw [← h2, findall_results, findall_results, List.filter_cons, ht]
    rfl
  | @header x bs inner hs hx hb _ ih =>
    intro h
    obtain ⟨y, ys, rfl, hy, hys⟩ := inTurn_cons.1 h
    obtain ⟨hrs, h1, h2⟩ := ih hys
    have ht : (y.tag == "jp2HeaderBox") = true := by
      rw [validateBox_tag hy, hx]; decide
    rw [hx] at hy
    obtain ⟨irs, h3, h4⟩ : ∃ irs, inTurn (fun x : FoundBox => validateBox env o (fuel - 1) x.type x.payload)
        inner = .ok irs ∧ y.node.chars = irs.map (·.charsElem) := by
      cases fuel with
      | zero => cases hy
      | succ fuel =>
        unfold validateBox at hy
        rw [show boxTypeOf (ascii "jp2h") = .jp2HeaderBox from by decide] at hy
        obtain ⟨⟨n, types⟩, hw, hy⟩ := Outcome.bind_eq_ok.1 hy
        cases hy
        obtain ⟨irs, h5, rfl, rfl⟩ := walkBoxes_ok hb hw
        refine ⟨irs, h5, ?_⟩
        simp only [jp2HeaderFinish_chars, chars_foldl_absorb]
        rfl
    refine ⟨irs ++ hrs, by rw [inTurn_append, h3, h1]; rfl, fun u us => ?_⟩
    rw [List.map_append, findall_append, ← h2, ← h4, findall_results, findall_results, List.filter_cons, if_pos ht]
    rfl

theorem headerContents_exists : ∀ bs : List FoundBox, ∃ hs, HeaderContents bs hs
  | [] => ⟨[], .nil⟩
  | x :: bs => by
    obtain ⟨hs, h⟩ := headerContents_exists bs
    by_cases hx : x.type = ascii "jp2h"
    · obtain ⟨inner, hb⟩ := boxes_exists x.payload
      exact ⟨_, .header hx hb h⟩
    · exact ⟨_, .skip hx h⟩

/-! ## The sequence of boxes of a file -/

theorem location_rule {bs : List FoundBox} : locationJP2HeaderBoxIsValid (bs.map (·.type)) = true ↔
    ∃ a hd m cs z, bs = a ++ hd :: (m ++ cs :: z) ∧ 2 ≤ a.length ∧
      hd.type = ascii "jp2h" ∧ cs.type = ascii "jp2c" ∧
      ¬ Has a "jp2h" ∧ ¬ Has a "jp2c" ∧ ¬ Has m "jp2c" := by
  unfold locationJP2HeaderBoxIsValid
  simp only [Bool.and_eq_true, decide_eq_true_eq, mem_types (k := tagJp2Header) (s := "jp2h") rfl,
    mem_types (k := tagCodestream) (s := "jp2c") rfl]
  constructor
  · rintro ⟨⟨⟨hh, hc⟩, hlt⟩, hgt⟩
    obtain ⟨a, hd, z, rfl, ehd, na⟩ := split_first hh
    have hidx : ((a ++ hd :: z).map (·.type)).idxOf tagJp2Header = a.length :=
      idxOf_first (z := z) ehd na
    rw [hidx] at hlt hgt
    have nc : ¬ Has a "jp2c" := fun h => by
      have : ((a ++ hd :: z).map (·.type)).idxOf tagCodestream < a.length := idxOf_lt h
      omega
    have hcz : Has z "jp2c" := by
      rcases has_append.1 hc with h | h
      · exact absurd h nc
      · rcases has_cons.1 h with h | h
        · rw [ehd] at h; exact absurd h (by decide)
        · exact h
    obtain ⟨mid, cs, post, rfl, ecs, nm⟩ := split_first hcz
    exact ⟨a, hd, mid, cs, post, rfl, by omega, ehd, ecs, na, nc, nm⟩
  · rintro ⟨a, hd, m, cs, z, rfl, h2, ehd, ecs, na, nc, nm⟩
    have key2 : a ++ hd :: (m ++ cs :: z) = (a ++ hd :: m) ++ cs :: z := by simp
    have i1 : ((a ++ hd :: (m ++ cs :: z)).map (·.type)).idxOf tagJp2Header = a.length := idxOf_first ehd na
    have i2 : ((a ++ hd :: (m ++ cs :: z)).map (·.type)).idxOf tagCodestream = (a ++ hd :: m).length := by
      rw [key2]
      refine idxOf_first ecs fun h => ?_
      rcases has_append.1 h with h | h
      · exact nc h
      · rcases has_cons.1 h with h | h
        · rw [ehd] at h; exact absurd h (by decide)
        · exact nm h
    refine ⟨⟨⟨has_append.2 (.inr (has_cons.2 (.inl ehd))),
      has_append.2 (.inr (has_cons.2 (.inr (has_append.2 (.inr (has_cons.2 (.inl ecs)))))))⟩, ?_⟩, ?_⟩
    · rw [i1, i2]; simp
    · rw [i1]; omega

theorem iPR_cond {env o fuel} {hs : List FoundBox} {hrs}
    (h : inTurn (fun x : FoundBox => validateBox env o fuel x.type x.payload) hs = .ok hrs) :
    Elem.findElementText (hrs.map (·.charsElem)) ["imageHeaderBox", "iPR"] = some (.int 1) ↔
      ∃ ih, FirstBox hs "ihdr" ih ∧ FieldIs ih.payload 13 1 (· = 1) := by
  refine header_cond (Q := fun f => f "iPR" = some (.int 1)) (R := fun p => FieldIs p 13 1 (· = 1)) h
    (by simp) fun ih f hf => ?_
  rw [hf _ _ (ihdr_fields ih).2.1]
  simp only [Option.some.injEq, PyVal.int.injEq, intOf_eq (k := 1) (by omega), FieldIs, exists_eq_right]
  rfl

theorem own_file {env o fuel} {bs hs : List FoundBox} {rs} {n : Node}
    (h : inTurn (fun x : FoundBox => validateBox env o fuel x.type x.payload) bs = .ok rs)
    (hn : n.chars = rs.map (·.charsElem)) (hc : HeaderContents bs hs) :
    OwnTests n (jp2Mid o n (bs.map (·.type))) (fileRules bs hs) := by
  have m : ∀ {k : Bytes} {s : String}, ascii s = k →
      (decide (k ∈ bs.map (·.type)) = true ↔ Has bs s) := fun e => by
    rw [decide_eq_true_iff]; exact mem_types e
  have c : ∀ {k : Bytes} {s : String}, ascii s = k →
      (decide ((bs.map (·.type)).count k ≤ 1) = true ↔ number bs s ≤ 1) := fun e => by
    rw [decide_eq_true_iff, count_types e]
  obtain ⟨hrs, h1, h2⟩ := header_lookup hc h
  refine own_reverse ?_
  unfold jp2Mid
  simp only []
  refine own_test (c rfl) (own_test (c rfl) (own_test (c rfl) (own_test location_rule (own_test ?_ (own_test ?_
    (own_imp ?_ (own_test (m rfl) (own_test (m rfl) (own_test (m rfl) (own_test (m rfl) (own_refl n)))))))))))
  · rw [decide_eq_true_iff]
    match bs with
    | [] => simp
    | [x] => simp
    | w :: x :: z =>
      simp only [List.map_cons, List.getElem?_cons_succ, List.getElem?_cons_zero, Option.some.injEq,
        List.cons.injEq]
      constructor
      · exact fun e => ⟨w, x, z, ⟨rfl, rfl, rfl⟩, e⟩
      · rintro ⟨w', x', z', ⟨rfl, rfl, rfl⟩, e⟩; exact e
  · rw [decide_eq_true_iff]
    match bs with
    | [] => simp
    | x :: z =>
      simp only [List.map_cons, List.getElem?_cons_succ, List.getElem?_cons_zero, Option.some.injEq,
        List.cons.injEq]
      constructor
      · exact fun e => ⟨x, z, ⟨rfl, rfl⟩, e⟩
      · rintro ⟨x', z', ⟨rfl, rfl⟩, e⟩; exact e
  · have hi : Elem.findElementText n.chars ["jp2HeaderBox", "imageHeaderBox", "iPR"] =
        Elem.findElementText (hrs.map (·.charsElem)) ["imageHeaderBox", "iPR"] := by
      unfold Elem.findElementText Elem.find
      rw [hn, h2]
    simp only [testFor_chars, hi]
    have := iPR_cond h1
    have e := m (k := tagIntellectualProperty) (s := "jp2i") rfl
    by_cases hcond : Elem.findElementText (hrs.map (·.charsElem)) ["imageHeaderBox", "iPR"] = some (.int 1)
    · rw [decide_eq_true hcond]
      simp only [Bool.not_true, Bool.false_or]
      rw [e]
      obtain ⟨ih, hf, hv⟩ := this.1 hcond
      exact ⟨fun a _ _ _ => a, fun a => a ih hf hv⟩
    · rw [decide_eq_false hcond]
      simp only [Bool.not_false, Bool.true_or, true_iff]
      exact fun ih hf hv => absurd (this.2 ⟨ih, hf, hv⟩) hcond

/-! ## The image header and the SIZ segment -/

theorem sign_shown {c : Bytes} {k : Nat} : getBitValue (intOf (uint c k 1)) 1 = shownSign (uint c k 1) := by
  cases h : uint c k 1 with
  | none => decide
  | some v =>
    have := uint_lt h
    unfold getBitValue
    simp only [intOf, shownSign, shr_div, low_mod]
    omega

theorem depth_shown {c : Bytes} {k : Nat} : low (intOf (uint c k 1)) 7 + 1 = shownDepth (uint c k 1) := by
  cases h : uint c k 1 with
  | none => decide
  | some v =>
    have := uint_lt h
    simp only [intOf, shownDepth, low_mod]
    omega

theorem num_shown {u : Option Nat} : intOf u = shownNum u := by cases u <;> rfl

theorem byte255 {c : Bytes} {k : Nat} :
    (some (PyVal.int (getBitValue (intOf (uint c k 1)) 1)) = some (PyVal.int 1) ∧
      some (PyVal.int (low (intOf (uint c k 1)) 7 + 1)) = some (PyVal.int 128)) ↔ uint c k 1 = some 255 := by
  simp only [Option.some.injEq, PyVal.int.injEq]
  cases hu : uint c k 1 with
  | none => simp [intOf, low, getBitValue]
  | some v =>
    have := bpc255 hu
    rw [hu] at this
    rw [this]
    simp

/-- The tests of the image header against the SIZ segment. -/
theorem own_image {o : Options} {nb : Int} {n m : Node} {ihc szc : List Elem} {ih siz : Bytes}
    {hs : List FoundBox} {comps : List (Option Nat)}
    (h : sizConsistency o nb n ihc szc = .ok m)
    (hih : ∀ s v, repOf s (imageHeaderBox ih) = [v] → Elem.findElementText ihc [s] = some v)
    (z1 : Elem.findElementText szc ["xsiz"] = some (.int (intOf (uint siz 4 4))))
    (z2 : Elem.findElementText szc ["ysiz"] = some (.int (intOf (uint siz 8 4))))
    (z3 : Elem.findElementText szc ["xOsiz"] = some (.int (intOf (uint siz 12 4))))
    (z4 : Elem.findElementText szc ["yOsiz"] = some (.int (intOf (uint siz 16 4))))
    (z5 : Elem.findElementText szc ["csiz"] = some (.int (intOf (uint siz 36 2))))
    (z6 : Elem.findAllText szc ["ssizSign"] = (List.range (rangeLen (intOf (uint siz 36 2)))).map fun i =>
      .int (getBitValue (intOf (uint siz (38 + 3 * i) 1)) 1))
    (z7 : Elem.findAllText szc ["ssizDepth"] = (List.range (rangeLen (intOf (uint siz 36 2)))).map fun i =>
      .int (low (intOf (uint siz (38 + 3 * i) 1)) 7 + 1))
    (hb : ∀ x, FirstBox hs "bpcc" x → ∃ e, Elem.find n.chars ["jp2HeaderBox", "bitsPerComponentBox"] = some e ∧
      ∀ s, Elem.findAllText e.children [s] = repOf s (bitsPerComponentBox x.payload))
    (hnb : ¬ Has hs "bpcc" → Elem.find n.chars ["jp2HeaderBox", "bitsPerComponentBox"] = none)
    (hcomps : ComponentBytes hs ih comps) :
    OwnTests n m (imageRules ih siz comps) := by
  obtain ⟨-, -, f3, f4, f5, f6, f7⟩ := ihdr_fields ih
  have g3 := hih _ _ f3
  have g4 := hih _ _ f4
  have g5 := hih _ _ f5
  have g6 := hih _ _ f6
  have g7 := hih _ _ f7
  have hcv : bpcValues n.chars (some (.int (intOf (uint ih 8 2))))
      (some (.int (getBitValue (intOf (uint ih 10 1)) 1))) (some (.int (low (intOf (uint ih 10 1)) 7 + 1))) =
      .ok (comps.map fun v => PyVal.int (shownSign v), comps.map fun v => PyVal.int (shownDepth v)) := by
    unfold bpcValues
    cases hcomps with
    | same hne =>
      rw [if_neg (fun e => hne (byte255.1 e))]
      simp only [needInt, Outcome.bind_ok, Option.getD_some, sign_shown, depth_shown,
        List.map_replicate, rangeLen]
      rw [num_shown]
    | listed he hx =>
      obtain ⟨e, h1, h2⟩ := hb _ hx
      rw [if_pos (byte255.2 he), h1]
      simp only [h2, (bpcc_fields _).1, (bpcc_fields _).2, sign_shown, depth_shown, List.map_map]
      rfl
    | none he hx =>
      rw [if_pos (byte255.2 he), hnb hx]
      rfl
  unfold sizConsistency at h
  rw [g3, g4, g5, g6, g7, z1, z2, z3, z4, z5, z6, z7] at h
  simp only [needInt, Outcome.bind_ok, testFor_chars, hcv] at h
  refine own_reverse ?_
  have hsz : ∀ f : Option Nat → Int, (comps.map fun v => PyVal.int (f v)) =
      ((List.range (rangeLen (intOf (uint siz 36 2)))).map fun i => PyVal.int (f (uint siz (38 + 3 * i) 1))) ↔
      comps.map f = (sizBytes siz).map f := by
    intro f
    have e1 : (comps.map fun v => PyVal.int (f v)) = (comps.map f).map PyVal.int := by
      rw [List.map_map]; rfl
    have e2 : ((List.range (rangeLen (intOf (uint siz 36 2)))).map
        fun i => PyVal.int (f (uint siz (38 + 3 * i) 1))) = ((sizBytes siz).map f).map PyVal.int := by
      unfold sizBytes
      rw [List.map_map, List.map_map, num_shown]; rfl
    rw [e1, e2]
    exact ⟨fun e => List.map_inj_right (fun a b h => PyVal.int.inj h) |>.1 e, fun e => by rw [e]⟩
  have key : ∀ m', m'.tests = m.tests → OwnTests n m' (imageRules ih siz comps).reverse →
      OwnTests n m (imageRules ih siz comps).reverse := by
    rintro m' e ⟨own, a, b⟩
    exact ⟨own, by rw [← e]; exact a, b⟩
  refine key _ ?_ (own_test (v := o.verbose) (b := decide ((comps.map fun v => PyVal.int (shownDepth v)) =
      (List.range (rangeLen (intOf (uint siz 36 2)))).map fun i =>
        PyVal.int (low (intOf (uint siz (38 + 3 * i) 1)) 7 + 1))) ?_
    (own_test (v := o.verbose) (b := decide ((comps.map fun v => PyVal.int (shownSign v)) =
      (List.range (rangeLen (intOf (uint siz 36 2)))).map fun i =>
        PyVal.int (getBitValue (intOf (uint siz (38 + 3 * i) 1)) 1))) ?_
    (own_test (v := o.verbose) (b := decide (some (PyVal.int (intOf (uint ih 8 2))) =
      some (PyVal.int (intOf (uint siz 36 2))))) ?_
    (own_test (v := o.verbose) (b := decide (some (PyVal.int (intOf (uint ih 4 4))) =
      some (PyVal.int (intOf (uint siz 4 4) - intOf (uint siz 12 4))))) ?_
    (own_test (v := o.verbose) (b := decide (some (PyVal.int (intOf (uint ih 0 4))) =
      some (PyVal.int (intOf (uint siz 8 4) - intOf (uint siz 16 4))))) ?_ (own_refl n))))))
  · split at h
    · obtain ⟨ds, -, h⟩ := Outcome.bind_eq_ok.1 h
      cases h
      rfl
    · cases h
      rfl
  · rw [decide_eq_true_iff]
    simp only [depth_shown]
    exact hsz shownDepth
  · rw [decide_eq_true_iff]
    simp only [sign_shown]
    exact hsz shownSign
  · rw [decide_eq_true_iff]
    simp only [Option.some.injEq, PyVal.int.injEq, num_shown]
  · rw [decide_eq_true_iff]
    simp only [Option.some.injEq, PyVal.int.injEq, num_shown]
  · rw [decide_eq_true_iff]
    simp only [Option.some.injEq, PyVal.int.injEq, num_shown]

/-- The elements of a codestream with a SIZ segment start with that segment. -/
theorem codestream_starts {env o fuel b} {n : Node} (h : codestream env o fuel b = .ok n) {siz next}
    (hs : SecondIsSiz b siz next) :
    ∃ r rest, validateLeaf env o fuel none mSIZ siz = .ok r ∧ n.chars = r.charsElem :: rest := by
  obtain ⟨m0, c0, k, hs0, hs1⟩ := hs
  rw [codestream_eq hs0 rfl hs1] at h
  obtain ⟨r, h1, h⟩ := Outcome.bind_eq_ok.1 h
  obtain ⟨cs, h2, h⟩ := Outcome.bind_eq_ok.1 h
  obtain ⟨s, h3, h⟩ := Outcome.bind_eq_ok.1 h
  obtain ⟨rsiz, h4, h⟩ := Outcome.bind_eq_ok.1 h
  obtain ⟨tiles, h5, h⟩ := Outcome.bind_eq_ok.1 h
  obtain ⟨t, h6, hend⟩ := Outcome.bind_eq_ok.1 h
  cases next with
  | none =>
    exfalso
    have : siz = [] := by
      generalize SIZ = mm at hs1
      cases hs1; rfl
    subst this
    obtain ⟨ss, h8, rfl⟩ := (validateLeaf_ok (t := .siz) (by decide)).1 h1
    have : siz o.format [] = .raised .unboundLocal := by
      unfold siz
      simp only [show bytesToUShortInt (slice [] 2 4) = -9999 from by decide +kernel,
        sizCapability_missing]
    cases this.symm.trans h8
  | some first =>
    obtain ⟨main, sot, hse⟩ := segsTo_exists b mSOT _ first (Nat.le_refl _)
    have h3' := (mainLoop_le (seg1 := segV env o fuel) (fun _ _ _ => .refl _) o.packetmarkers
      (some cs) b _ (show fuel ≤ fuel + main.length + 2 by omega)).ok h3
    rw [mainLoop_eq hse (by omega) (show mSIZ ≠ mSOT by decide) (by simp [mainStart, intOf]) rfl] at h3'
    obtain ⟨rs, hrs, hs⟩ := Outcome.bind_eq_ok.1 h3'
    cases hs
    obtain ⟨rest, hch⟩ := mainNode_chars (o := o) (b := b) (ss := main) (e := sot) (rs := rs) (r := r)
      (next := intOf (some first)) rsiz
    obtain ⟨⟨rest', hr⟩, -⟩ := finish_spec hend
    exact ⟨r, rest ++ rest', h1, by rw [hr, hch]; rfl⟩

/-- A codestream without a SIZ segment has no elements. -/
theorem codestream_empty {env o fuel b} {n : Node} (h : codestream env o fuel b = .ok n)
    (hs : ¬ ∃ siz next, SecondIsSiz b siz next) : n.chars = [] := by
  have hne : (getMarkerSegment b (getMarkerSegment b 0).next).marker ≠ mSIZ := fun e => hs (second_siz.1 e)
  unfold codestream at h
  simp only [hne, if_false, decide_false] at h
  cases h
  simp only [testFor_chars]

theorem firstSiz_cons {x : FoundBox} {bs : List FoundBox} {siz : Bytes} : FirstSiz (x :: bs) siz ↔
    (x.type = ascii "jp2c" ∧ ∃ next, SecondIsSiz x.payload siz next) ∨
    (¬ (x.type = ascii "jp2c" ∧ ∃ s next, SecondIsSiz x.payload s next) ∧ FirstSiz bs siz) := by
  constructor
  · rintro ⟨a, y, z, h1, h2, h3, h4⟩
    cases a with
    | nil =>
      obtain ⟨rfl, rfl⟩ := List.cons.inj h1
      exact .inl ⟨h2, h3⟩
    | cons w a =>
      obtain ⟨rfl, rfl⟩ := List.cons.inj h1
      exact .inr ⟨fun h => h4 x (by simp) h.1 h.2, a, y, z, rfl, h2, h3, fun y hy => h4 y (by simp [hy])⟩
  · rintro (⟨h1, h2⟩ | ⟨h1, a, y, z, rfl, h2, h3, h4⟩)
    · exact ⟨[], x, bs, rfl, h1, h2, fun _ h => nomatch h⟩
    · refine ⟨x :: a, y, z, rfl, h2, h3, fun w hw ht => ?_⟩
      rcases List.mem_cons.1 hw with rfl | hw
      · exact fun h => h1 ⟨ht, h⟩
      · exact h4 w hw ht

/-- The SIZ segment as it is looked up. -/
theorem siz_element_lookup {env o fuel} : ∀ {bs : List FoundBox} {rs},
    inTurn (fun x : FoundBox => validateBox env o fuel x.type x.payload) bs = .ok rs →
    (∀ siz, FirstSiz bs siz → ∃ k r es, validateLeaf env o k none mSIZ siz = .ok r ∧
      Elem.findall (rs.map (·.charsElem)) ["contiguousCodestreamBox", "siz"] = r.charsElem :: es) ∧
    ((¬ ∃ siz, FirstSiz bs siz) →
      Elem.findall (rs.map (·.charsElem)) ["contiguousCodestreamBox", "siz"] = [])
  | [], rs, h => by
    cases h
    refine ⟨?_, fun _ => rfl⟩
    rintro siz ⟨a, x, z, h, -⟩
    cases a <;> cases h
  | x :: bs, rs, h => by
    obtain ⟨y, ys, rfl, hy, hys⟩ := inTurn_cons.1 h
    obtain ⟨ih1, ih2⟩ := siz_element_lookup hys
    by_cases hx : x.type = ascii "jp2c"
    · have ht : (y.tag == "contiguousCodestreamBox") = true := by rw [validateBox_tag hy, hx]; decide
      rw [hx] at hy
      obtain ⟨k, hk⟩ := jp2c_result hy
      have e : Elem.findall ((y :: ys).map (·.charsElem)) ["contiguousCodestreamBox", "siz"] =
          Elem.findall y.node.chars ["siz"] ++
            Elem.findall (ys.map (·.charsElem)) ["contiguousCodestreamBox", "siz"] := by
        rw [findall_results, findall_results, List.filter_cons, if_pos ht]
        rfl
      rw [e]
      have some' : ∀ siz next, SecondIsSiz x.payload siz next → ∃ k r es,
          validateLeaf env o k none mSIZ siz = .ok r ∧ Elem.findall y.node.chars ["siz"] = r.charsElem :: es := by
        intro siz next hs
        obtain ⟨r, rest, h1, h2⟩ := codestream_starts hk hs
        refine ⟨k, r, rest.filter (·.tag == "siz"), h1, ?_⟩
        rw [h2, Elem.findall, List.filter_cons, if_pos]
        have := (siz_text h1).1
        show (r.tag == "siz") = true
        rw [this]; rfl
      by_cases hs : ∃ s next, SecondIsSiz x.payload s next
      · refine ⟨?_, ?_⟩
        · intro siz hf
          rcases firstSiz_cons.1 hf with ⟨-, next, h1⟩ | ⟨h1, -⟩
          · obtain ⟨k, r, es, h2, h3⟩ := some' siz next h1
            exact ⟨k, r, _, h2, by rw [h3]; rfl⟩
          · exact absurd ⟨hx, hs⟩ h1
        · intro hno
          obtain ⟨s, next, hs⟩ := hs
          exact absurd ⟨s, firstSiz_cons.2 (.inl ⟨hx, next, hs⟩)⟩ hno
      · rw [codestream_empty hk hs]
        refine ⟨?_, ?_⟩
        · intro siz hf
          rcases firstSiz_cons.1 hf with ⟨-, next, h1⟩ | ⟨-, h1⟩
          · exact absurd ⟨siz, next, h1⟩ hs
          · exact ih1 siz h1
        · intro hno
          exact ih2 fun ⟨siz, h1⟩ => hno ⟨siz, firstSiz_cons.2 (.inr ⟨fun h => hs h.2, h1⟩)⟩
    · have ht : (y.tag == "contiguousCodestreamBox") = false := by
        have := (validateBox_tag_iff hy (k := ascii "jp2c") (bt := .contiguousCodestreamBox) (by decide) (by decide))
        refine Eq.trans this ?_
        simpa using hx
      have e : Elem.findall ((y :: ys).map (·.charsElem)) ["contiguousCodestreamBox", "siz"] =
          Elem.findall (ys.map (·.charsElem)) ["contiguousCodestreamBox", "siz"] := by
        rw [findall_results, findall_results, List.filter_cons, ht]
        rfl
      rw [e]
      refine ⟨?_, ?_⟩
      · intro siz hf
        rcases firstSiz_cons.1 hf with ⟨h1, -⟩ | ⟨-, h1⟩
        · exact absurd h1 hx
        · exact ih1 siz h1
      · intro hno
        exact ih2 fun ⟨siz, h1⟩ => hno ⟨siz, firstSiz_cons.2 (.inr ⟨fun h => hx h.1, h1⟩)⟩

/-- The element of the first box of a type. -/
theorem find_first {env o fuel} {hs : List FoundBox} {hrs}
    (h : inTurn (fun x : FoundBox => validateBox env o fuel x.type x.payload) hs = .ok hrs)
    {t : String} {x : FoundBox} (hx : FirstBox hs t x) {bt : BoxType}
    (hk : typeMap.lookup (ascii t) = some bt) (hbt : bt ≠ .unknownBox) :
    ∃ r, validateBox env o fuel (ascii t) x.payload = .ok r ∧
      Elem.find (hrs.map (·.charsElem)) [bt.name] = some r.charsElem := by
  obtain ⟨a, z, h1, h2, h3⟩ := hx
  obtain ⟨r, rs', h4, -, h5⟩ := lookup_first h h1 h2 h3 hk hbt
  exact ⟨r, h4, find_of_findall (by rw [findall_results1, h5]; rfl)⟩

theorem find_absent {env o fuel} {hs : List FoundBox} {hrs}
    (h : inTurn (fun x : FoundBox => validateBox env o fuel x.type x.payload) hs = .ok hrs)
    {t : String} (hx : ¬ Has hs t) {bt : BoxType}
    (hk : typeMap.lookup (ascii t) = some bt) (hbt : bt ≠ .unknownBox) :
    Elem.find (hrs.map (·.charsElem)) [bt.name] = none := by
  unfold Elem.find
  rw [findall_results1, lookup_absent h hx hk hbt]
  rfl

/-- C56 (files): the tests of a JP2 or JPH file name exactly the violated rules: those on each box, on each
superbox, on each codestream with its segments and tile-parts, on the sequence of boxes, and on the agreement
of the image header with the SIZ segment. -/
theorem C56_file (env : Env) (o : Options) (fuel : Nat) (b : Bytes) (n : Node)
    (h : validateJP2 env o fuel b = .ok n) : DiagnosesFile (parses env) env.catC o.format b n.tests := by
  obtain ⟨bs, hb⟩ := boxes_exists b
  obtain ⟨hs, hc⟩ := headerContents_exists bs
  obtain ⟨⟨n0, types⟩, hw, h⟩ := Outcome.bind_eq_ok.1 h
  obtain ⟨rs, hr, rfl, rfl⟩ := walkBoxes_ok hb hw
  simp only [jp2Finish_eq] at h
  have hch : (rs.foldl Node.absorb {}).chars = rs.map (·.charsElem) := by rw [chars_foldl_absorb]; rfl
  obtain ⟨own, h1, h2⟩ := own_file hr hch hc
  have hmid := jp2Mid_chars o (rs.foldl Node.absorb {}) (bs.map (·.type))
  have hkids : DiagnosesBoxes (parses env) env.catC o.format bs (rs.foldl Node.absorb {}).tests := by
    rw [foldl_absorb_tests]
    exact diagnoses_inTurn hr fun x _ r hr => C56_tree env o _ _ _ r hr
  obtain ⟨hrs, g1, g2⟩ := header_lookup hc hr
  have g3 : ∀ u, Elem.find (jp2Mid o (rs.foldl Node.absorb {}) (bs.map (·.type))).chars ["jp2HeaderBox", u] =
      Elem.find (hrs.map (·.charsElem)) [u] := by
    intro u
    unfold Elem.find
    rw [hmid, hch, g2]
  obtain ⟨s1, s2⟩ := siz_element_lookup hr
  rw [← hch, ← hmid] at s1 s2
  unfold jp2Last at h
  rw [g3] at h
  generalize hmd : jp2Mid o (rs.foldl Node.absorb {}) (bs.map (·.type)) = mid at *
  have img : ∀ ih siz comps, FirstBox hs "ihdr" ih → FirstSiz bs siz → ComponentBytes hs ih.payload comps →
      OwnTests mid n (imageRules ih.payload siz comps) := by
    intro ih siz0 comps hx hz hcomps
    obtain ⟨r, hv, hf⟩ := find_first g1 hx (bt := .imageHeaderBox) (by decide) (by decide)
    obtain ⟨k, rz, es, hz1, hz2⟩ := s1 siz0 hz
    have hf' : Elem.find (hrs.map (·.charsElem)) ["imageHeaderBox"] = some r.charsElem := hf
    rw [hf', find_of_findall hz2] at h
    simp only at h
    obtain ⟨-, -, z1, z2, z3, z4, z5, z6, z7⟩ := siz_text hz1
    have one : ∀ {s v}, reported rz.node s = [v] → Elem.findElementText rz.charsElem.children [s] = some v := by
      intro s v e
      rw [findElementText_eq]
      show ((reported rz.node s).head?) = some v
      rw [e]; rfl
    refine own_image h ?_ (one z1) (one z2) (one z3) (one z4) (one z5) z6 z7 ?_ ?_ hcomps
    · intro s v e
      rw [findElementText_eq]
      show (Elem.findAllText r.node.chars [s]).head? = some v
      rw [ihdr_result hv, e]; rfl
    · intro x hx
      obtain ⟨rb, hv, hf⟩ := find_first g1 hx (bt := .bitsPerComponentBox) (by decide) (by decide)
      exact ⟨rb.charsElem, (g3 _).trans hf, fun s => bpcc_result hv s⟩
    · intro hx
      exact (g3 _).trans (find_absent g1 hx (bt := .bitsPerComponentBox) (by decide) (by decide))
  by_cases hboth : Has hs "ihdr" ∧ ∃ siz, FirstSiz bs siz
  · obtain ⟨⟨x, hx⟩, siz0, hz⟩ : (∃ x, FirstBox hs "ihdr" x) ∧ ∃ siz, FirstSiz bs siz :=
      ⟨first_exists hboth.1, hboth.2⟩
    obtain ⟨comps, hcomps⟩ : ∃ comps, ComponentBytes hs x.payload comps := by
      by_cases e : uint x.payload 10 1 = some 255
      · by_cases hb : Has hs "bpcc"
        · obtain ⟨y, hy⟩ := first_exists hb
          exact ⟨_, .listed e hy⟩
        · exact ⟨_, .none e hb⟩
      · exact ⟨_, .same e⟩
    obtain ⟨image, hi, -⟩ := img x siz0 comps hx hz hcomps
    rw [hi, h1]
    refine .mk hb hkids hc h2 ?_ ?_
    · intro ih siz comps a b c
      obtain ⟨image', hi', hd⟩ := img ih siz comps a b c
      rw [hi] at hi'
      rw [List.append_cancel_left hi']
      exact hd
    · rintro (hn | hn)
      · exact absurd hboth.1 hn
      · exact absurd hboth.2 hn
  · have hn : n = mid := by
      by_cases hi : Has hs "ihdr"
      · have e : Elem.find mid.chars ["contiguousCodestreamBox", "siz"] = none := by
          unfold Elem.find
          rw [s2 fun hz => hboth ⟨hi, hz⟩]; rfl
        rw [e] at h
        split at h
        · contradiction
        · exact (Outcome.ok.inj h).symm
      · have e : Elem.find (hrs.map (·.charsElem)) ["imageHeaderBox"] = none :=
          find_absent g1 hi (bt := .imageHeaderBox) (by decide) (by decide)
        rw [e] at h
        split at h
        · contradiction
        · exact (Outcome.ok.inj h).symm
    rw [hn, h1, ← List.append_nil (_ ++ own)]
    refine .mk hb hkids hc h2 ?_ ?_
    · intro ih siz comps hf hz
      exact absurd ⟨has_of_first hf, siz, hz⟩ hboth
    · exact fun _ => rfl

/-! ## Reports -/

theorem rendered_tests (env : Env) (es : List Elem) : RenderedTests env es (makeHumanReadableL env [] es) := by
  rw [readableL_map]
  refine ⟨by simp, fun i h h' => ?_⟩
  rw [List.getElem_map]
  exact C40_tests env _

/-- The tests in the report of a successful analysis. -/
theorem report_tests {env : Env} {me : MixEnv} {fs : FS} {fuel : Nat} {o : Options} {mix : Nat} {path : PyStr}
    {rep : Elem} (h : checkOneFile env me fs fuel o mix path = .ok rep)
    (hs : status rep "success" = [.str "True"]) : ∃ n,
      validateRoot env o fuel (bytesRead (fs.read path)) = .ok n ∧
      RenderedTests env n.tests (contents rep "tests") := by
  obtain ⟨info, a, m, h1, h2, h3, rfl⟩ := checkOneFile_ok.1 h
  have hi := fileInfo_tag h1
  have hp : contents (buildReport o info a (extensionOf o mix a m)) "tests" = a.tests := by
    unfold contents; rw [(report_parts hi).2.2.2.1]; rfl
  rw [hp]
  rcases analyse_cases h2 with ⟨b, fmm, n, h4, h5, rfl⟩ | ⟨e, h4, rfl⟩
  · obtain ⟨rfl, -⟩ := fileToMemoryMap_ok h4
    exact ⟨n, h5, rendered_tests env _⟩
  · unfold status at hs
    rw [(report_parts hi).2.1] at hs
    simp [analysisFailed, Elem.node, Elem.leaf, boolStr, Elem.children] at hs

/-- C56 (reports on JP2 and JPH files): if the analysis succeeds, the tests in the report name exactly the
rules the file violates, box by box. -/
theorem C56_report {env : Env} {me : MixEnv} {fs : FS} {fuel : Nat} {o : Options} {mix : Nat} {path : PyStr}
    (hfmt : o.format = .jp2 ∨ o.format = .jph) {rep : Elem}
    (h : checkOneFile env me fs fuel o mix path = .ok rep) (hs : status rep "success" = [.str "True"]) :
    ∃ raw, RenderedTests env raw (contents rep "tests") ∧
      DiagnosesFile (parses env) env.catC o.format (bytesRead (fs.read path)) raw := by
  obtain ⟨n, h1, h2⟩ := report_tests h hs
  refine ⟨n.tests, h2, C56_file env o fuel _ n ?_⟩
  unfold validateRoot at h1
  rcases hfmt with hf | hf <;> rw [hf] at h1 <;> exact h1

/-- C56 (reports on bare codestreams): likewise for the formats j2c and jhc. -/
theorem C56_bare_report {env : Env} {me : MixEnv} {fs : FS} {fuel : Nat} {o : Options} {mix : Nat} {path : PyStr}
    (hfmt : o.format = .j2c ∨ o.format = .jhc) {rep : Elem}
    (h : checkOneFile env me fs fuel o mix path = .ok rep) (hs : status rep "success" = [.str "True"]) :
    ∃ raw, RenderedTests env raw (contents rep "tests") ∧
      DiagnosesCodestream env.catC o.format (bytesRead (fs.read path)) raw := by
  obtain ⟨n, h1, h2⟩ := report_tests h hs
  refine ⟨n.tests, h2, C56_codestream env o fuel _ n ?_⟩
  unfold validateRoot at h1
  rcases hfmt with hf | hf <;> rw [hf] at h1 <;> exact h1

/-! ## The hypotheses are met -/

/-- The sample JP2 file, with superboxes, an unknown box and a codestream, has such a report. -/
example : ∃ rep, checkOneFile Sample.env0 Sample.me0 (Sample.fs0 Sample.jp2b) 200 (Sample.opts .jp2) 0 [97] = .ok rep ∧
    status rep "success" = [.str "True"] := by
  obtain ⟨rep, h, -, hs⟩ := Sample.saysValid_ok Sample.jp2b_report
  exact ⟨rep, h, hs⟩

/-- So has that file without its first box, and its tests are not all passed. -/
example : (match checkOneFile Sample.env0 Sample.me0 (Sample.fs0 (Sample.jp2b.drop 12)) 200 (Sample.opts .jp2) 0 [97]
    with | .ok rep => decide (status rep "success" = [.str "True"]) && ! (contents rep "tests").isEmpty
         | _ => false) = true := by decide +kernel

/-- A sample codestream with two tile-parts has all the parts named by `DiagnosesCodestream`. -/
example : ∃ n main sot siz csiz ts, codestream Sample.env0 (Sample.opts .j2c) 200 Sample.csBroken = .ok n ∧
    SecondIsSiz Sample.csBroken siz (some 45) ∧ uint siz 36 2 = some csiz ∧
    SegsTo Sample.csBroken SOT 45 main (some sot) ∧ ExpectedTiles siz 2 ∧ Seen Sample.csBroken 2 sot ts ∧
    ts.length = 2 := by
  have h : Sample.okValid (codestream Sample.env0 (Sample.opts .j2c) 200 Sample.csBroken) = true := by
    decide +kernel
  cases hc : codestream Sample.env0 (Sample.opts .j2c) 200 Sample.csBroken with
  | ok n =>
    have g : ∀ start, sub Sample.csBroken start 2 = SOT → uint Sample.csBroken (start + 2) 2 = some 10 →
        SegAt Sample.csBroken start SOT (sub Sample.csBroken (start + 2) 10) (some (start + 12)) :=
      fun start h1 h2 => segAt_mk h1 (by decide) h2 rfl rfl
    obtain ⟨⟨first, hs, hm⟩, hcs⟩ := sample_main (b := Sample.csBroken) (by decide) (by decide) (by decide)
      (by decide) (by decide) (by decide) (by decide) (by decide) (by decide)
    have h45 : first = 45 := by
      have h45 : SegAt Sample.csBroken 2 SIZ (sub Sample.csBroken 4 41) (some 45) :=
        segAt_mk (by decide) (by decide) (by decide) rfl rfl
      have := (segAt_unique hs h45).2.2
      cases this; rfl
    subst h45
    refine ⟨n, _, _, _, _, [⟨⟨65, 0, 14, 0, 0⟩, sub Sample.csBroken 67 10, 77⟩,
      ⟨⟨79, 7, 14, 0, 0⟩, sub Sample.csBroken 81 10, 91⟩], rfl,
      ⟨_, _, 2, .alone (off := 0) (by decide), hs⟩, hcs, hm, ?_, ?_, rfl⟩
    · exact .tiles (n := 2) ⟨1, by decide, by decide⟩ ⟨1, by decide, by decide⟩
        ⟨2, 1, 1, 1, 0, 0, 2, 1, by decide, by decide, by decide, by decide, by decide, by decide,
          ⟨by decide, by decide⟩, ⟨by decide, by decide⟩, rfl⟩
    · refine .step (t := ⟨⟨65, 0, 14, 0, 0⟩, sub Sample.csBroken 67 10, 77⟩)
        ⟨g 65 (by decide) (by decide), by decide, by decide, by decide, by decide⟩ (by decide) (by decide) ?_
      exact .last (t := ⟨⟨79, 7, 14, 0, 0⟩, sub Sample.csBroken 81 10, 91⟩)
        ⟨g 79 (by decide) (by decide), by decide, by decide, by decide, by decide⟩ (.inl (by decide))
  | _ => rw [hc] at h; cases h

end Jpy
