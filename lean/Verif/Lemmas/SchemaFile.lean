import Verif.Lemmas.SchemaTree
/-! # Schema validity of reports -/

set_option linter.unusedSimpArgs false
set_option linter.unusedVariables false

namespace Jpy
open Spec Xsd

variable {env : Env} {s : Bool}

theorem plain_res {n d : Nat} {e : Int} (h : PlainResolution n d e) :
    SmallFloat (resPerMeter n d e) := by
  unfold PlainResolution at h
  unfold SmallFloat resPerMeter
  split
  · rename_i he
    rw [show (-e).toNat = 0 by omega, Nat.pow_zero, Nat.mul_one] at h
    simp only []
    rw [Int.natAbs_mul, Int.natAbs_pow]
    exact h
  · rename_i he
    rw [show e.toNat = 0 by omega, Nat.pow_zero, Nat.mul_one] at h
    simp only []
    rw [Int.natAbs_mul, Int.natAbs_pow]
    exact h

theorem signed_uint {c : Bytes} {i : Nat} {v : Nat} (h : uint c i 1 = some v) {x y : Int} (hx : x = i)
    (hy : y = i + 1) : bytesToSignedChar (slice c x y) = signedByte v := by
  have hl := uint_some_le h
  subst hx hy
  rw [signed_slice c i (by omega)]
  congr 1
  unfold uint at h
  rw [if_pos hl] at h
  have : sub c i 1 = [c[i]] := by
    unfold Spec.sub
    rw [List.drop_eq_getElem_cons (by omega)]; rfl
  rw [this] at h
  cases h
  simp [be]

theorem plain_leaf {fmt : Format} (hj : fmt = .jp2 ∨ fmt = .jph) {t p : Bytes} (h : PlainBox t p) :
    PlainLeaf fmt none (boxTypeOf t) p := by
  refine ⟨fun _ => hj, ?_, ?_, ?_, ?_, ?_, fun n hn => by cases hn⟩
  · intro e
    exact h.bpcc ((boxTypeOf_iff (k := tagBitsPerComponent) (by decide) (by decide) t).1 e)
  · intro e
    exact h.cmap ((boxTypeOf_iff (k := tagComponentMapping) (by decide) (by decide) t).1 e)
  · intro e
    have := h.ulst ((boxTypeOf_iff (k := tagUuidList) (by decide) (by decide) t).1 e)
    rw [u16_at p 0 (x := 0) (y := 2) rfl rfl]
    intro h0
    exact this ((intOf_eq (by decide)).1 h0)
  · intro e
    have := h.colr ((boxTypeOf_iff (k := tagColourSpecification) (by decide) (by decide) t).1 e)
    rw [u8_at p 0 (x := 0) (y := 1) rfl rfl]
    intro h0
    exact this ((intOf_eq (by decide)).1 h0)
  · intro e hl
    have ht : t = [0x72, 0x65, 0x73, 0x63] ∨ t = [0x72, 0x65, 0x73, 0x64] := by
      rcases e with e | e
      · exact .inl ((boxTypeOf_iff (k := tagCaptureResolution) (by decide) (by decide) t).1 e)
      · exact .inr ((boxTypeOf_iff (k := tagDisplayResolution) (by decide) (by decide) t).1 e)
    have ex : ∀ off n : Nat, off + n ≤ 10 → ∃ v, uint p off n = some v := by
      intro off n hle
      unfold uint
      rw [if_pos (by omega)]
      exact ⟨_, rfl⟩
    obtain ⟨vn, h1⟩ := ex 0 2 (by omega)
    obtain ⟨vd, h2⟩ := ex 2 2 (by omega)
    obtain ⟨hn, h3⟩ := ex 4 2 (by omega)
    obtain ⟨hd, h4⟩ := ex 6 2 (by omega)
    obtain ⟨ve, h5⟩ := ex 8 1 (by omega)
    obtain ⟨he, h6⟩ := ex 9 1 (by omega)
    have := h.resolution ht _ _ _ _ _ _ h1 h2 h3 h4 h5 h6
    rw [u16_at p 0 (x := 0) (y := 2) rfl rfl, u16_at p 2 (x := 2) (y := 4) rfl rfl,
      u16_at p 4 (x := 4) (y := 6) rfl rfl, u16_at p 6 (x := 6) (y := 8) rfl rfl,
      signed_uint h5 (x := 8) (y := 9) rfl rfl, signed_uint h6 (x := 9) (y := 10) rfl rfl, h1, h2, h3, h4]
    exact ⟨plain_res this.1, plain_res this.2⟩

theorem box_name {t : BoxType} (h : t ≠ .tilePart) (hp : s = true → t ≠ .plt ∧ t ≠ .ppt) :
    t.name ∈ allBoxNames s := by
  cases s with
  | false => cases t <;> first | (exact absurd rfl h) | decide +kernel
  | true =>
    cases t <;> first | (exact absurd rfl h) | (exact absurd rfl (hp rfl).1) | (exact absurd rfl (hp rfl).2) |
      decide +kernel

theorem superbox_types : ∀ t, boxTypeOf t = .jp2HeaderBox ∨ boxTypeOf t = .resolutionBox ∨ boxTypeOf t = .uuidInfoBox →
    t ∈ superboxTypes := by
  intro t h
  have e : superboxTypes = [tagJp2Header, tagResolution, tagUuidInfo] := by decide +kernel
  rw [e]
  rcases h with h | h | h
  · rw [(boxTypeOf_iff (k := tagJp2Header) (by decide) (by decide) t).1 h]; decide
  · rw [(boxTypeOf_iff (k := tagResolution) (by decide) (by decide) t).1 h]; decide
  · rw [(boxTypeOf_iff (k := tagUuidInfo) (by decide) (by decide) t).1 h]; decide

theorem jp2HeaderFinish_valid {o : Options} {n : Node} {types} (h : (jp2HeaderFinish o n types).isValid = true) :
    n.isValid = true := by
  unfold jp2HeaderFinish at h
  simp only [isValid_testFor, isValid_testIf] at h
  repeat' replace h := and_left h
  split at h <;> simp only [isValid_testFor, isValid_testIf] at h <;> repeat' replace h := and_left h
  all_goals exact h

/-- The elements of the boxes of a superbox or file, given those of the boxes. -/
theorem walk_fits {f : Bytes → Bytes → Outcome BoxResult} {p : Bytes} {bs} (hb : Boxes p bs) {fuel n types}
    (hw : walkBoxes f p fuel = .ok (n, types)) (hv : s = true → n.isValid = true)
    (hsub : ∀ x ∈ bs, ∀ r, f x.type x.payload = .ok r → (s = true → r.node.isValid = true) →
      r.tag ∈ allBoxNames s ∧ Conforms s (makeHumanReadable env remapTable r.charsElem)) :
    Fits env s (allBoxNames s) n.chars := by
  obtain ⟨rs, hr, rfl, -⟩ := walkBoxes_ok hb hw
  rw [chars_foldl_absorb]
  refine fits_append fits_nil ?_
  intro e he
  obtain ⟨r, hr1, rfl⟩ := List.mem_map.1 he
  obtain ⟨x, hx, hfx⟩ := inTurn_mem' hr hr1
  refine hsub x hx r hfx fun e => ?_
  have := hv e
  rw [isValid_foldl_absorb] at this
  exact List.all_eq_true.1 (and_right this) r hr1

theorem box_conforms (hf : FloatText env) {o : Options} (hj : o.format = .jp2 ∨ o.format = .jph) {b : Bytes}
    (hs : s = true → ∀ d t p, HasBox b d t p → PlainBox t p) : ∀ {fuel d t p r}, HasBox b d t p →
    validateBox env o fuel t p = .ok r → (s = true → r.node.isValid = true) →
    r.tag ∈ allBoxNames s ∧ Conforms s (makeHumanReadable env remapTable r.charsElem)
  | 0, _, _, _, _, _, h, _ => by cases h
  | fuel + 1, d, t, p, r, hx, h, hv => by
    have inner : ∀ {n types}, boxTypeOf t = .jp2HeaderBox ∨ boxTypeOf t = .resolutionBox ∨ boxTypeOf t = .uuidInfoBox →
        walkBoxes (validateBox env o fuel) p fuel = .ok (n, types) → (s = true → n.isValid = true) →
        Fits env s (allBoxNames s) n.chars := by
      intro n types ht hw hv
      obtain ⟨bs, hb⟩ := boxes_exists p
      refine walk_fits hb hw hv fun x hxb r hr hv => ?_
      exact box_conforms hf hj hs (.inside hx (superbox_types t ht) hb hxb) hr hv
    have tagOk : boxTypeOf t ≠ .tilePart → r.tag ∈ allBoxNames s := by
      intro hnt
      rw [validateBox_tag h]
      refine box_name hnt fun e => ?_
      have := (hs e d t p hx).type
      exact ⟨fun e => this.1 ((boxTypeOf_iff (k := mPLT) (by decide) (by decide) t).1 e),
        fun e => this.2 ((boxTypeOf_iff (k := mPPT) (by decide) (by decide) t).1 e)⟩
    have leafCase : boxTypeOf t ∉ [BoxType.jp2HeaderBox, .resolutionBox, .uuidInfoBox, .contiguousCodestreamBox, .tilePart] →
        validateLeaf env o fuel none t p = .ok r → Conforms s (makeHumanReadable env remapTable r.charsElem) :=
      fun ht h => conforms_leaf hf h ht fun e => ⟨hv e, plain_leaf hj (hs e d t p hx)⟩
    by_cases hnt : boxTypeOf t = .tilePart
    · unfold validateBox at h
      rw [hnt] at h
      cases h
    refine ⟨tagOk hnt, ?_⟩
    unfold validateBox at h
    by_cases h1 : boxTypeOf t = .jp2HeaderBox
    · rw [h1] at h
      obtain ⟨⟨n, types⟩, hw, h⟩ := Outcome.bind_eq_ok.1 h
      cases h
      refine conforms_star (t := "jp2HeaderBox") (names := allBoxNames s) (by cases s <;> decide +kernel) ?_
      simp only [jp2HeaderFinish_chars]
      exact inner (.inl h1) hw fun e => jp2HeaderFinish_valid (hv e)
    by_cases h2 : boxTypeOf t = .resolutionBox
    · rw [h2] at h
      obtain ⟨⟨n, types⟩, hw, h⟩ := Outcome.bind_eq_ok.1 h
      cases h
      refine conforms_star (t := "resolutionBox") (names := allBoxNames s) (by cases s <;> decide +kernel) ?_
      simp only [resolutionFinish, testFor_chars]
      refine inner (.inr (.inl h2)) hw fun e => ?_
      have := hv e
      simp only [resolutionFinish, isValid_testFor] at this
      exact and_left (and_left (and_left this))
    by_cases h3 : boxTypeOf t = .uuidInfoBox
    · rw [h3] at h
      obtain ⟨⟨n, types⟩, hw, h⟩ := Outcome.bind_eq_ok.1 h
      cases h
      refine conforms_star (t := "uuidInfoBox") (names := allBoxNames s) (by cases s <;> decide +kernel) ?_
      simp only [uuidInfoFinish, testFor_chars]
      refine inner (.inr (.inr h3)) hw fun e => ?_
      have := hv e
      simp only [uuidInfoFinish, isValid_testFor] at this
      exact and_left (and_left this)
    by_cases h4 : boxTypeOf t = .contiguousCodestreamBox
    · rw [h4] at h
      obtain ⟨n, hw, h⟩ := Outcome.bind_eq_ok.1 h
      cases h
      obtain ⟨es, more, hch, hfit, hm⟩ := codestream_fits (s := s) hf hw fun e =>
        ⟨hv e, (hs e d t p hx).jp2c ((boxTypeOf_iff (k := tagCodestream) (by decide) (by decide) t).1 h4)⟩
      refine conforms_star (t := "contiguousCodestreamBox") (names := codestreamNames) (by cases s <;> decide +kernel) ?_
      have : more = [] := by
        rcases hm with hm | ⟨hm, -⟩
        · exact hm
        · rcases hj with e | e <;> rw [e] at hm <;> rcases hm with hm | hm <;> cases hm
      show Fits env s codestreamNames n.chars
      rw [hch, this, List.append_nil]
      exact hfit
    refine leafCase ?_ ?_
    · simp only [List.mem_cons, List.not_mem_nil, or_false, not_or]
      exact ⟨h1, h2, h3, h4, hnt⟩
    · cases hb : boxTypeOf t <;> rw [hb] at h <;> first | (exact absurd hb ‹_›) | (simp only [] at h; exact h)

/-- The properties part of a report. -/
theorem root_matches (hf : FloatText env) {o : Options} {fuel b n}
    (hj : o.format = .jp2 ∨ o.format = .jph ∨ o.format = .j2c ∨ o.format = .jhc)
    (h : validateRoot env o fuel b = .ok n)
    (hs : s = true → n.isValid = true ∧
      ((o.format = .jp2 ∨ o.format = .jph) → ∀ d t p, HasBox b d t p → PlainBox t p) ∧
      ((o.format = .j2c ∨ o.format = .jhc) → FewComponents b)) :
    Matches s (sequence [allBoxes s, opt (el "compressionRatio")])
      (makeHumanReadableL env remapTable n.chars) := by
  have main : ∀ {es more}, n.chars = es ++ more → Fits env s (allBoxNames s) es →
      (more = [] ∨ ∃ v, more = [Elem.leaf "compressionRatio" v] ∧ LeafOk env s "compressionRatio" v) →
      Matches s (sequence [allBoxes s, opt (el "compressionRatio")])
        (makeHumanReadableL env remapTable n.chars) := by
    intro es more hch hfit hm
    rw [hch, sm_readableL_append]
    refine .seq (matches_star hfit) ?_
    have : makeHumanReadableL env remapTable more = makeHumanReadableL env remapTable more ++ [] := by simp
    rw [this]
    refine .seq ?_ .empty
    rcases hm with rfl | ⟨v, rfl, hv⟩
    · exact .right .empty
    · exact .left (.oneOf (List.mem_singleton.2 rfl) hv)
  have two : (o.format = .jp2 ∨ o.format = .jph) ∨ (o.format = .j2c ∨ o.format = .jhc) := by
    rcases hj with h | h | h | h <;> simp [h]
  rcases two with hj | hj
  · have h6 : validateJP2 env o fuel b = .ok n := by
      unfold validateRoot at h
      rcases hj with e | e <;> rw [e] at h <;> exact h
    obtain ⟨⟨n0, types⟩, hw, h6⟩ := Outcome.bind_eq_ok.1 h6
    obtain ⟨bs, hb⟩ := boxes_exists b
    have hlast : ∃ more : List Elem, n.chars = n0.chars ++ more ∧
        (more = [] ∨ ∃ v, more = [Elem.leaf "compressionRatio" v] ∧ LeafOk env s "compressionRatio" v) ∧
        (n.isValid = true → n0.isValid = true) := by
      simp only [] at h6
      rw [jp2Finish_eq] at h6
      have hmid : (jp2Mid o n0 types).isValid = true → n0.isValid = true := by
        intro hv
        simp only [jp2Mid, isValid_testFor, isValid_testIf] at hv
        repeat' replace hv := and_left hv
        exact hv
      unfold jp2Last at h6
      split at h6
      · unfold sizConsistency at h6
        obtain ⟨_, _, h6⟩ := Outcome.bind_eq_ok.1 h6
        obtain ⟨_, _, h6⟩ := Outcome.bind_eq_ok.1 h6
        obtain ⟨_, _, h6⟩ := Outcome.bind_eq_ok.1 h6
        obtain ⟨_, _, h6⟩ := Outcome.bind_eq_ok.1 h6
        obtain ⟨⟨_, _⟩, _, h6⟩ := Outcome.bind_eq_ok.1 h6
        simp only at h6
        rw [if_pos hj] at h6
        obtain ⟨ds, _, h6⟩ := Outcome.bind_eq_ok.1 h6
        obtain ⟨hh, _, h6⟩ := Outcome.bind_eq_ok.1 h6
        obtain ⟨ww, _, h6⟩ := Outcome.bind_eq_ok.1 h6
        cases h6
        refine ⟨[Elem.leaf "compressionRatio" (compressionRatio b.length ds hh ww)], ?_,
          .inr ⟨_, rfl, leafOk_ratio hf _ _ _ _⟩, ?_⟩
        · simp only [Node.addChar, testFor_chars, jp2Mid_chars]
        · intro hv
          simp only [isValid_addChar, isValid_testFor] at hv
          exact hmid (and_left (and_left (and_left (and_left (and_left hv)))))
      · cases h6
        exact ⟨[], by rw [jp2Mid_chars, List.append_nil], .inl rfl, hmid⟩
    obtain ⟨more, hch, hm, hv⟩ := hlast
    refine main hch (walk_fits hb hw (fun e => hv (hs e).1) fun x hx r hr hvr => ?_) hm
    exact box_conforms hf hj (fun e => (hs e).2.1 hj) (.top hb hx) hr hvr
  · have h6 : codestream env o fuel b = .ok n := by
      unfold validateRoot at h
      rcases hj with e | e <;> rw [e] at h <;> exact h
    obtain ⟨es, more, hch, hfit, hm⟩ := codestream_fits (s := s) hf h6 fun e => ⟨(hs e).1, (hs e).2.2 hj⟩
    refine main hch ?_ ?_
    · intro x hx
      have h1 := hfit x hx
      refine ⟨?_, h1.2⟩
      have hsub : ∀ y ∈ codestreamNames, y ∈ allBoxNames s := by cases s <;> decide +kernel
      exact hsub _ h1.1
    · rcases hm with hm | ⟨-, hm⟩
      · exact .inl hm
      · exact .inr hm

theorem matches_any : ∀ es : List Elem, Matches s (.star .any) es
  | [] => .nil
  | e :: es => Matches.cons (xs := [e]) .any (matches_any es)

theorem matches_el {n : String} {e : Elem} (ht : e.tag = n) (h : Conforms s e) : Matches s (el n) [e] :=
  .oneOf (List.mem_singleton.2 ht) h

theorem conforms_str {t : String} (h : t ∈ stringNames) (x : String) : Conforms s (.leaf t (.str x)) :=
  .text (stringNames_ok s t h) trivial

theorem matches_cons {n : String} {e : Elem} {l es} (ht : e.tag = n) (h : Conforms s e)
    (h2 : Matches s (sequence l) es) : Matches s (sequence (el n :: l)) (e :: es) :=
  Matches.seq (xs := [e]) (matches_el ht h) h2

theorem fileInfo_conforms {fs : FS} {path info} (h : fileInfo fs path = .ok info) : Conforms s info := by
  unfold fileInfo at h
  obtain ⟨sz, -, h⟩ := Outcome.bind_eq_ok.1 h
  obtain ⟨md, -, h⟩ := Outcome.bind_eq_ok.1 h
  cases h
  refine .content (r := sequence [el "fileName", el "filePath", el "fileSizeInBytes", el "fileLastModified"])
    (by cases s <;> decide +kernel) ?_
  refine matches_cons rfl (conforms_str (by decide +kernel) _) ?_
  refine matches_cons rfl (conforms_str (by decide +kernel) _) ?_
  refine matches_cons rfl (.text (integerNames_ok s _ (by decide +kernel)).1 ?_) ?_
  · exact isInteger_int (sz : Int)
  · exact matches_cons rfl (conforms_str (by decide +kernel) _) .empty

theorem boolStr_mem (b : Bool) : boolStr b ∈ ["True", "False"] := by cases b <;> decide

/-- A report whose properties are valid is valid. -/
theorem report_conforms {o : Options} {info : Elem} {a : Analysis} {mix m}
    (hj : o.format = .jp2 ∨ o.format = .jph ∨ o.format = .j2c ∨ o.format = .jhc)
    (hi : Conforms s info) (ht : info.tag = "fileInfo")
    (hp : Matches s (sequence [allBoxes s, opt (el "compressionRatio")]) a.props) :
    Conforms s (buildReport o info a (extensionOf o mix a m)) := by
  unfold buildReport
  refine .content (r := sequence [el "fileInfo", el "statusInfo", el "isValid", el "tests", el "properties",
    .star (el "propertiesExtension"), el "warnings"]) (by cases s <;> decide +kernel) ?_
  simp only [List.cons_append, List.nil_append]
  refine matches_cons ht hi ?_
  refine matches_cons rfl (.content (r := sequence [el "success", opt (el "failureMessage")])
    (by cases s <;> decide +kernel) ?_) ?_
  · refine matches_cons rfl (.text (s := .enum ["True", "False"]) (by cases s <;> decide +kernel) (boolStr_mem _)) ?_
    cases a.failure with
    | none => exact Matches.seq (xs := []) (ys := []) (.right .empty) .empty
    | some x =>
      exact Matches.seq (xs := [_]) (ys := []) (.left (matches_el rfl (conforms_str (by decide +kernel) _))) .empty
  refine matches_cons rfl (.textWith (s := .enum ["True", "False"]) (vs := ["jp2", "jph", "j2c", "jhc"])
    (by cases s <;> decide +kernel) (boolStr_mem _) ?_) ?_
  · rcases hj with e | e | e | e <;> rw [e] <;> decide +kernel
  refine matches_cons rfl (.content (r := .star .any) (by cases s <;> decide +kernel) (matches_any _)) ?_
  refine matches_cons rfl (.content (by cases s <;> decide +kernel) hp) ?_
  have hw : Matches s (sequence [el "warnings"]) [Elem.node "warnings" a.warnings] :=
    matches_cons rfl (.content (r := .star .any) (by cases s <;> decide +kernel) (matches_any _)) .empty
  refine .seq ?_ hw
  unfold extensionOf
  split
  · exact Matches.cons (xs := [_]) (ys := []) (matches_el rfl (.content (r := .star .any)
      (by cases s <;> decide +kernel) (matches_any _))) .nil
  · exact .nil

end Jpy
