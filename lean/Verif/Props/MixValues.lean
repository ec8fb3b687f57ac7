import Verif.Spec.MixValues
import Verif.Lemmas.Mix
import Verif.Lemmas.Sample
import Verif.Props.Shows
import Verif.Props.MixOutput
import Std.Data.String.ToNat
/-! # The values in MIX output: C55 -/

namespace Jpy
open Spec

theorem elemsAt_append : ∀ (p : List String) (xs ys : List Elem),
    elemsAt p (xs ++ ys) = elemsAt p xs ++ elemsAt p ys
  | [], _, _ => rfl
  | [t], xs, ys => by simp [elemsAt]
  | t :: u :: p, xs, ys => by
    simp only [elemsAt, List.filter_append, List.flatMap_append]
    exact elemsAt_append (u :: p) _ _

theorem elemsAt_flatMap (p : List String) (f : Elem → List Elem) : ∀ xs : List Elem,
    elemsAt p (xs.flatMap f) = xs.flatMap fun e => elemsAt p (f e)
  | [] => by
    simp only [List.flatMap_nil]
    induction p with
    | nil => rfl
    | cons t p ih => cases p with
      | nil => rfl
      | cons u p => exact ih
  | x :: xs => by
    rw [List.flatMap_cons, List.flatMap_cons, elemsAt_append, elemsAt_flatMap p f xs]

theorem elemsAt_eq : ∀ (p : List String) (es : List Elem), elemsAt p es = Elem.findall es p
  | [], _ => rfl
  | [t], es => rfl
  | t :: u :: p, es => by
    show elemsAt (u :: p) _ = (es.filter (·.tag == t)).flatMap fun e => Elem.findall e.children (u :: p)
    rw [elemsAt_flatMap]
    congr 1
    funext e
    exact elemsAt_eq (u :: p) _

theorem findText_propertyIs {props p v s} (h : findText props p = .ok v) (hp : PropertyIs props p s) :
    v = .str s := by
  unfold findText Elem.find at h
  unfold PropertyIs textsAt at hp
  rw [elemsAt_eq, List.head?_map] at hp
  split at h
  · rename_i e he
    rw [he] at hp
    cases h
    exact Option.some.inj hp
  · cases h

theorem strOf_propertyIs {props p v s} (h : findText props p = .ok v) (hp : PropertyIs props p s) :
    strOf v = s := by
  rw [findText_propertyIs h hp]; rfl

theorem find_head {props p} : (elemsAt p props).head? = Elem.find props p := by
  rw [elemsAt_eq]; rfl

theorem find_none {props p} (h : elemsAt p props = []) : Elem.find props p = none := by
  rw [← find_head, h]; rfl

theorem find_of_propertyIs {props p s} (h : PropertyIs props p s) : ∃ e, Elem.find props p = some e ∧ e.text = .str s := by
  unfold PropertyIs textsAt at h
  rw [List.head?_map, find_head] at h
  cases he : Elem.find props p with
  | none => rw [he] at h; cases h
  | some e => rw [he] at h; exact ⟨e, rfl, Option.some.inj h⟩

/-- Path lookup in a list of concrete elements. -/
theorem elemsAt_cons (t u : String) (p : List String) (e : Elem) (es : List Elem) :
    elemsAt (t :: u :: p) (e :: es) =
      (if e.tag == t then elemsAt (u :: p) e.children else []) ++ elemsAt (t :: u :: p) es := by
  have : e :: es = [e] ++ es := rfl
  rw [this, elemsAt_append]
  congr 1
  simp only [elemsAt]
  by_cases h : (e.tag == t) = true
  · rw [if_pos h, List.filter_cons_of_pos (p := fun e : Elem => e.tag == t) h]
    simp
  · rw [if_neg h, List.filter_cons_of_neg (p := fun e : Elem => e.tag == t) h]
    simp only [List.filter_nil, List.flatMap_nil]
    rw [show ([] : List Elem) = [].flatMap (fun e : Elem => e.children) from rfl, elemsAt_flatMap]
    rfl

theorem elemsAt_nil (p : List String) : elemsAt p [] = [] := by
  rw [show ([] : List Elem) = [].flatMap (fun e : Elem => e.children) from rfl, elemsAt_flatMap]
  rfl

theorem elemsAt_one (t : String) (e : Elem) (es : List Elem) :
    elemsAt [t] (e :: es) = (if e.tag == t then [e] else []) ++ elemsAt [t] es := by
  simp only [elemsAt]
  by_cases h : (e.tag == t) = true
  · rw [if_pos h, List.filter_cons_of_pos (p := fun e : Elem => e.tag == t) h]; rfl
  · rw [if_neg h, List.filter_cons_of_neg (p := fun e : Elem => e.tag == t) h]; rfl

/-- Nothing is found below elements with other tags. -/
theorem elemsAt_other {t : String} {p : List String} {es : List Elem} (h : ∀ e ∈ es, e.tag ≠ t) :
    elemsAt (t :: p) es = [] := by
  have hf : (es.filter fun e => e.tag == t) = [] := by
    rw [List.filter_eq_nil_iff]
    intro e he
    simpa using h e he
  cases p with
  | nil => exact hf
  | cons u p =>
    show elemsAt (u :: p) _ = []
    rw [hf]
    exact elemsAt_nil _

theorem textsAt_below {t u : String} {p : List String} {a x cs} :
    textsAt (t :: u :: p) [.mk t a x cs] = textsAt (u :: p) cs := by
  unfold textsAt
  rw [elemsAt_cons, elemsAt_nil]
  simp

/-! ## Parts -/

/-- The MIX element has four kinds of children. -/
theorem generateMix_parts {me flag props m} (h : generateMix me flag props = .ok m) :
    ∃ bdoi bio icm iam, mixBdoi me flag props = .ok bdoi ∧ mixBio me flag props = .ok bio ∧
      mixIcm me props = .ok icm ∧ mixIam me flag props = .ok iam ∧
      m.tag = "mix:mix" ∧ m.children = [bdoi, bio] ++ icm.toList ++ [iam] := by
  unfold generateMix at h
  obtain ⟨bdoi, h1, h⟩ := Outcome.bind_eq_ok.1 h
  obtain ⟨bio, h2, h⟩ := Outcome.bind_eq_ok.1 h
  obtain ⟨icm, h3, h⟩ := Outcome.bind_eq_ok.1 h
  obtain ⟨iam, h4, h⟩ := Outcome.bind_eq_ok.1 h
  cases h
  exact ⟨bdoi, bio, icm, iam, h1, h2, h3, h4, rfl, rfl⟩

theorem mixIcm_tag {me props icm} (h : mixIcm me props = .ok icm) :
    ∀ e ∈ icm.toList, e.tag = "mix:ImageCaptureMetadata" := by
  unfold mixIcm at h
  split at h
  · cases h; simp
  · obtain ⟨_, -, h⟩ := Outcome.bind_eq_ok.1 h
    obtain ⟨_, -, h⟩ := Outcome.bind_eq_ok.1 h
    obtain ⟨_, -, h⟩ := Outcome.bind_eq_ok.1 h
    obtain ⟨_, -, h⟩ := Outcome.bind_eq_ok.1 h
    obtain ⟨_, -, h⟩ := Outcome.bind_eq_ok.1 h
    obtain ⟨_, -, h⟩ := Outcome.bind_eq_ok.1 h
    simp only at h
    split at h
    · cases h; simp
    · obtain ⟨_, -, h⟩ := Outcome.bind_eq_ok.1 h
      split at h
      · cases h; simp
      · cases h; simp

theorem orValueError_ok {α : Type} {x : Option α} {v : α} (h : orValueError x = .ok v) : x = some v := by
  cases x with
  | none => cases h
  | some y => cases h; rfl

theorem asText_ok {v : PyVal} {s : String} (h : asText v = .ok s) : v = .str s := by
  cases v <;> first | cases h; rfl | cases h

theorem asStr_ok {v : PyVal} {s : String} (h : asStr v = .ok s) : v = .str s := by
  cases v <;> first | cases h; rfl | cases h

theorem outcome_assoc {α β γ : Type} (x : Outcome α) (f : α → Outcome β) (g : β → Outcome γ) :
    (x >>= f) >>= g = x >>= fun a => f a >>= g := by
  cases x <;> rfl

/-- The format name. -/
def formatNameOf (me : MixEnv) (props : List Elem) : Outcome String :=
  match Elem.find props ["fileTypeBox", "br"] with
  | none => .ok "image/jp2"
  | some br => asStr br.text >>= fun s => .ok ("image/" ++ me.strip s)

/-- The compression ratio. -/
def ratioOf (me : MixEnv) (flag : Nat) (ratio : String) : Outcome Elem :=
  if flag = 1 then orValueError (me.roundScaled ratio 1) >>= fun v =>
    .ok (sLeaf "mix:compressionRatio" (toString v))
  else orValueError (me.roundScaled ratio 100) >>= fun v =>
    .ok (Elem.node "mix:compressionRatio"
      [sLeaf "mix:numerator" (toString v), sLeaf "mix:denominator" "100"])

theorem mixBdoi_eq {me flag props} : mixBdoi me flag props =
    (formatNameOf me props >>= fun name =>
      findText props ["contiguousCodestreamBox", "cod", "transformation"] >>= fun compression =>
      findText props ["compressionRatio"] >>= fun ratioText => asText ratioText >>= fun ratio =>
      ratioOf me flag ratio >>= fun ratioElem =>
      .ok (.node "mix:BasicDigitalObjectInformation"
        [ .node "mix:FormatDesignation" [sLeaf "mix:formatName" name],
          sLeaf "mix:byteOrder" (if flag = 1 then "big_endian" else "big endian"),
          .node "mix:Compression" [sLeaf "mix:compressionScheme"
            (if compression = .str "5-3 reversible" then "JPEG 2000 Lossless" else "JPEG 2000 Lossy"),
            ratioElem] ])) := by
  unfold mixBdoi formatNameOf ratioOf
  by_cases hf : flag = 1
  · simp only [if_pos hf]
    cases Elem.find props ["fileTypeBox", "br"] with
    | none => simp only [outcome_assoc]
    | some br => simp only [outcome_assoc]
  · simp only [if_neg hf]
    cases Elem.find props ["fileTypeBox", "br"] with
    | none => simp only [outcome_assoc]
    | some br => simp only [outcome_assoc]

/-- `mixBdoi` spelled out. -/
theorem mixBdoi_ok {me flag props e} (h : mixBdoi me flag props = .ok e) :
    ∃ name compression ratio ratioElem,
      (∀ s, PropertyIs props ["fileTypeBox", "br"] s → name = "image/" ++ me.strip s) ∧
      findText props ["contiguousCodestreamBox", "cod", "transformation"] = .ok compression ∧
      findText props ["compressionRatio"] = .ok (.str ratio) ∧
      (if flag = 1 then ∃ v, me.roundScaled ratio 1 = some v ∧
          ratioElem = sLeaf "mix:compressionRatio" (toString v)
        else ∃ v, me.roundScaled ratio 100 = some v ∧
          ratioElem = Elem.node "mix:compressionRatio"
            [sLeaf "mix:numerator" (toString v), sLeaf "mix:denominator" "100"]) ∧
      e = .node "mix:BasicDigitalObjectInformation"
        [ .node "mix:FormatDesignation" [sLeaf "mix:formatName" name],
          sLeaf "mix:byteOrder" (if flag = 1 then "big_endian" else "big endian"),
          .node "mix:Compression" [sLeaf "mix:compressionScheme"
            (if compression = .str "5-3 reversible" then "JPEG 2000 Lossless" else "JPEG 2000 Lossy"),
            ratioElem] ] := by
  rw [mixBdoi_eq] at h
  obtain ⟨name, h1, h⟩ := Outcome.bind_eq_ok.1 h
  obtain ⟨compression, h2, h⟩ := Outcome.bind_eq_ok.1 h
  obtain ⟨ratioText, h3, h⟩ := Outcome.bind_eq_ok.1 h
  obtain ⟨ratio, h4, h⟩ := Outcome.bind_eq_ok.1 h
  obtain ⟨ratioElem, h5, h⟩ := Outcome.bind_eq_ok.1 h
  cases h
  cases asText_ok h4
  refine ⟨name, compression, ratio, ratioElem, ?_, h2, h3, ?_, rfl⟩
  · intro s hs
    obtain ⟨e, he, ht⟩ := find_of_propertyIs hs
    unfold formatNameOf at h1
    rw [he] at h1
    simp only [ht] at h1
    cases h1
    rfl
  · unfold ratioOf at h5
    by_cases hf : flag = 1
    · rw [if_pos hf] at h5
      rw [if_pos hf]
      obtain ⟨v, hv, h5⟩ := Outcome.bind_eq_ok.1 h5
      cases h5
      exact ⟨v, orValueError_ok hv, rfl⟩
    · rw [if_neg hf] at h5
      rw [if_neg hf]
      obtain ⟨v, hv, h5⟩ := Outcome.bind_eq_ok.1 h5
      cases h5
      exact ⟨v, orValueError_ok hv, rfl⟩

/-- `mixPhotometric` spelled out. -/
theorem mixPhotometric_ok {me props e} (h : mixPhotometric me props = .ok e) :
    ((∃ x cs d, Elem.find props ["jp2HeaderBox", "colourSpecificationBox", "icc"] = some x ∧ x.children ≠ [] ∧
        findText props ["jp2HeaderBox", "colourSpecificationBox", "icc", "colourSpace"] = .ok (.str cs) ∧
        findText props ["jp2HeaderBox", "colourSpecificationBox", "icc", "description"] = .ok d ∧
        e = .node "mix:PhotometricInterpretation" [ sLeaf "mix:colorSpace" (me.strip cs),
          .node "mix:ColorProfile" [.node "mix:IccProfile" [.leaf "mix:iccProfileName" d]] ]) ∨
     (∃ cs, (∀ x, Elem.find props ["jp2HeaderBox", "colourSpecificationBox", "icc"] = some x → x.children = []) ∧
        findText props ["jp2HeaderBox", "colourSpecificationBox", "enumCS"] = .ok (.str cs) ∧
        e = .node "mix:PhotometricInterpretation" [sLeaf "mix:colorSpace" (me.strip cs)])) := by
  unfold mixPhotometric at h
  split at h
  · rename_i he
    obtain ⟨cs, h1, h⟩ := Outcome.bind_eq_ok.1 h
    obtain ⟨s, h2, h⟩ := Outcome.bind_eq_ok.1 h
    obtain ⟨d, h3, h⟩ := Outcome.bind_eq_ok.1 h
    cases h
    cases asStr_ok h2
    exact .inl ⟨_, s, d, he, by simp, h1, h3, rfl⟩
  · rename_i he
    obtain ⟨cs, h1, h⟩ := Outcome.bind_eq_ok.1 h
    obtain ⟨s, h2, h⟩ := Outcome.bind_eq_ok.1 h
    cases h
    cases asStr_ok h2
    refine .inr ⟨s, ?_, h1, rfl⟩
    intro x hx
    obtain ⟨t, a, y, c⟩ := x
    cases c with
    | nil => rfl
    | cons c cs => exact absurd hx (he t a y c cs _)

/-- `mixBio` spelled out. -/
theorem mixBio_ok {me flag props e} (h : mixBio me flag props = .ok e) :
    ∃ width height pi codec x y layers levels,
      findText props ["jp2HeaderBox", "imageHeaderBox", "width"] = .ok width ∧
      findText props ["jp2HeaderBox", "imageHeaderBox", "height"] = .ok height ∧
      mixPhotometric me props = .ok pi ∧ mixCodec props = .ok codec ∧
      findText props ["contiguousCodestreamBox", "siz", "xTsiz"] = .ok x ∧
      findText props ["contiguousCodestreamBox", "siz", "yTsiz"] = .ok y ∧
      findText props ["contiguousCodestreamBox", "cod", "layers"] = .ok layers ∧
      findText props ["contiguousCodestreamBox", "cod", "levels"] = .ok levels ∧
      e = .node "mix:BasicImageInformation"
        [ .node "mix:BasicImageCharacteristics"
            [ sLeaf "mix:imageWidth" (strOf width), sLeaf "mix:imageHeight" (strOf height), pi ],
          .node "mix:SpecialFormatCharacteristics"
            [ .node "mix:JPEG2000" (codec ++ [.node "mix:EncodingOptions"
              ((if flag = 1 then sLeaf "mix:tiles" (strOf x ++ "x" ++ strOf y)
                else .node "mix:Tiles"
                  [sLeaf "mix:tileWidth" (strOf x), sLeaf "mix:tileHeight" (strOf y)]) ::
                ((if strOf layers ≠ "0" then [sLeaf "mix:qualityLayers" (strOf layers)] else []) ++
                 (if strOf levels ≠ "0" then [sLeaf "mix:resolutionLevels" (strOf levels)] else [])))]) ] ] := by
  unfold mixBio at h
  obtain ⟨width, h1, h⟩ := Outcome.bind_eq_ok.1 h
  obtain ⟨height, h2, h⟩ := Outcome.bind_eq_ok.1 h
  obtain ⟨pi, h3, h⟩ := Outcome.bind_eq_ok.1 h
  obtain ⟨codec, h4, h⟩ := Outcome.bind_eq_ok.1 h
  obtain ⟨x, h5, h⟩ := Outcome.bind_eq_ok.1 h
  obtain ⟨y, h6, h⟩ := Outcome.bind_eq_ok.1 h
  obtain ⟨layers, h7, h⟩ := Outcome.bind_eq_ok.1 h
  obtain ⟨levels, h8, h⟩ := Outcome.bind_eq_ok.1 h
  cases h
  exact ⟨width, height, pi, codec, x, y, layers, levels, h1, h2, h3, h4, h5, h6, h7, h8, rfl⟩

/-- The codec element is the only kind of element `mixCodec` returns. -/
theorem mixCodec_tag {props l} (h : mixCodec props = .ok l) : ∀ e ∈ l, e.tag = "mix:CodecCompliance" := by
  unfold mixCodec at h
  split at h
  · cases h; simp
  · obtain ⟨t, -, h⟩ := Outcome.bind_eq_ok.1 h
    split at h <;> cases h <;> simp

theorem splitLastDashV_none : ∀ {l : List Char}, NoDashV l → splitLastDashV l = none
  | [], _ => rfl
  | c :: cs, h => by
    have hcs : NoDashV cs := fun a b e => h (c :: a) b (by rw [e]; rfl)
    unfold splitLastDashV
    rw [splitLastDashV_none hcs]
    split
    · rename_i e; exact absurd e (by simp)
    · split
      · rename_i rest; exact absurd rfl (h [] rest)
      · rfl

theorem splitLastDashV_some : ∀ (p : List Char) {r : List Char}, NoDashV r →
    splitLastDashV (p ++ '-' :: 'v' :: r) = some (p, r)
  | [], r, h => by
    have hv : NoDashV ('v' :: r) := by
      intro a b e
      cases a with
      | nil => simp at e
      | cons x a => simp at e; exact h a b e.2
    show splitLastDashV ('-' :: 'v' :: r) = _
    unfold splitLastDashV
    rw [splitLastDashV_none hv]
    rfl
  | c :: p, r, h => by
    show splitLastDashV (c :: (p ++ '-' :: 'v' :: r)) = _
    unfold splitLastDashV
    rw [splitLastDashV_some p h]

/-- Every line of a text is a part of it, and the first line is its beginning. -/
theorem lines_infix : ∀ l : List Char,
    ∃ x xs, l.splitOn '\n' = x :: xs ∧ x <+: l ∧ ∀ y ∈ xs, y <:+: l
  | [] => ⟨[], [], rfl, List.prefix_refl _, by simp⟩
  | c :: cs => by
    obtain ⟨x, xs, h1, h2, h3⟩ := lines_infix cs
    rw [List.splitOn_cons_eq_if_modifyHead]
    split
    · refine ⟨[], _, rfl, List.nil_prefix, ?_⟩
      intro y hy
      rw [h1] at hy
      rcases List.mem_cons.1 hy with rfl | hy
      · exact h2.isInfix.trans (List.suffix_cons c cs).isInfix
      · exact (h3 y hy).trans (List.suffix_cons c cs).isInfix
    · rw [h1]
      refine ⟨c :: x, xs, rfl, (List.cons_prefix_cons).2 ⟨rfl, h2⟩, ?_⟩
      intro y hy
      exact (h3 y hy).trans (List.suffix_cons c cs).isInfix

theorem line_infix {l y : List Char} (h : y ∈ l.splitOn '\n') : y <:+: l := by
  obtain ⟨x, xs, h1, h2, h3⟩ := lines_infix l
  rw [h1] at h
  rcases List.mem_cons.1 h with rfl | h
  · exact h2.isInfix
  · exact h3 y h

theorem firstSome_none {α β : Type} {f : α → Option β} : ∀ {l : List α}, (∀ x ∈ l, f x = none) →
    firstSome f l = none
  | [], _ => rfl
  | x :: xs, h => by
    unfold firstSome
    rw [h x (by simp)]
    exact firstSome_none fun y hy => h y (by simp [hy])

theorem matchCodec_none {s : String} (h : NoDashV s.toList) : matchCodec s = none := by
  unfold matchCodec
  rw [firstSome_none]
  · rfl
  · intro y hy
    apply splitLastDashV_none
    intro a b e
    obtain ⟨u, v, huv⟩ := line_infix hy
    exact h (u ++ a) (b ++ v) (by rw [← huv, e]; simp)

theorem isVersionChar_iff {c : Char} : isVersionChar c = true ↔ c.isDigit = true ∨ c = '.' := by
  unfold isVersionChar Char.isDigit
  simp only [Bool.or_eq_true, Bool.and_eq_true, decide_eq_true_eq, beq_iff_eq]
  exact Iff.rfl

theorem takeWhile_version {version rest : List Char} (hv : ∀ c ∈ version, c.isDigit = true ∨ c = '.')
    (hr : ∀ c l, rest = c :: l → ¬ (c.isDigit = true ∨ c = '.')) :
    (version ++ rest).takeWhile isVersionChar = version := by
  induction version with
  | nil =>
    cases rest with
    | nil => rfl
    | cons c l =>
      have : isVersionChar c = false := by
        have := hr c l rfl
        rw [← isVersionChar_iff] at this
        simpa using this
      simp [this]
  | cons c l ih =>
    have : isVersionChar c = true := isVersionChar_iff.2 (hv c (by simp))
    rw [List.cons_append, List.takeWhile_cons, if_pos this, ih fun d hd => hv d (by simp [hd])]

theorem matchCodec_some {s : String} {codec version : List Char} (h : NamesCodec s codec version) :
    matchCodec s = some (String.ofList codec, String.ofList version) := by
  obtain ⟨rest, h1, h2, h3⟩ := h.split
  unfold matchCodec
  rw [List.splitOn_eq_singleton h.oneLine]
  unfold firstSome
  rw [h1, splitLastDashV_some codec h2]
  simp only [Option.map_some]
  rw [takeWhile_version h.digits h3]

/-- The spatial metrics for a resolution box. -/
def spatialOf (me : MixEnv) (flag : Nat) (t : String) (box : Elem) : Outcome (List Elem) :=
  findText box.children ["hRes" ++ t ++ "InPixelsPerMeter"] >>= fun h => asText h >>= fun h =>
  orValueError (me.truncScaled h 100) >>= fun numX =>
  findText box.children ["vRes" ++ t ++ "InPixelsPerMeter"] >>= fun v => asText v >>= fun v =>
  orValueError (me.truncScaled v 100) >>= fun numY =>
  .ok [Elem.node "mix:SpatialMetrics"
    [ sLeaf "mix:samplingFrequencyUnit" (if flag = 1 then "3" else "cm"),
      .node "mix:xSamplingFrequency"
        [sLeaf "mix:numerator" (toString numX), sLeaf "mix:denominator" "10000"],
      .node "mix:ySamplingFrequency"
        [sLeaf "mix:numerator" (toString numY), sLeaf "mix:denominator" "10000"] ]]

theorem mixSpatial_eq {me flag props} : mixSpatial me flag props =
    match Elem.find props ["jp2HeaderBox", "resolutionBox", "captureResolutionBox"] with
    | some box => spatialOf me flag "c" box
    | none =>
      match Elem.find props ["jp2HeaderBox", "resolutionBox", "displayResolutionBox"] with
      | some box => spatialOf me flag "d" box
      | none => .ok [] := rfl

theorem spatialOf_ok {me flag t e l} (h : spatialOf me flag t e = .ok l) :
    ∃ x y v w, findText e.children ["hRes" ++ t ++ "InPixelsPerMeter"] = .ok (.str x) ∧
      findText e.children ["vRes" ++ t ++ "InPixelsPerMeter"] = .ok (.str y) ∧
      me.truncScaled x 100 = some v ∧ me.truncScaled y 100 = some w ∧
      l = [Elem.node "mix:SpatialMetrics"
        [ sLeaf "mix:samplingFrequencyUnit" (if flag = 1 then "3" else "cm"),
          .node "mix:xSamplingFrequency"
            [sLeaf "mix:numerator" (toString v), sLeaf "mix:denominator" "10000"],
          .node "mix:ySamplingFrequency"
            [sLeaf "mix:numerator" (toString w), sLeaf "mix:denominator" "10000"] ]] := by
  obtain ⟨a, h1, h⟩ := Outcome.bind_eq_ok.1 h
  obtain ⟨x, h2, h⟩ := Outcome.bind_eq_ok.1 h
  obtain ⟨v, h3, h⟩ := Outcome.bind_eq_ok.1 h
  obtain ⟨b, h4, h⟩ := Outcome.bind_eq_ok.1 h
  obtain ⟨y, h5, h⟩ := Outcome.bind_eq_ok.1 h
  obtain ⟨w, h6, h⟩ := Outcome.bind_eq_ok.1 h
  cases h
  cases asText_ok h2
  cases asText_ok h5
  exact ⟨x, y, v, w, h1, h4, orValueError_ok h3, orValueError_ok h6, rfl⟩

/-- `mixSpatial` when a resolution box was found. -/
theorem mixSpatial_found {me flag props l} (h : mixSpatial me flag props = .ok l) {t : String} {e : Elem}
    (ht : (t = "c" ∧ Elem.find props ["jp2HeaderBox", "resolutionBox", "captureResolutionBox"] = some e) ∨
      (t = "d" ∧ Elem.find props ["jp2HeaderBox", "resolutionBox", "captureResolutionBox"] = none ∧
        Elem.find props ["jp2HeaderBox", "resolutionBox", "displayResolutionBox"] = some e)) :
    spatialOf me flag t e = .ok l := by
  rw [mixSpatial_eq] at h
  rcases ht with ⟨rfl, h1⟩ | ⟨rfl, h1, h2⟩
  · rw [h1] at h
    exact h
  · rw [h1, h2] at h
    exact h

theorem mixSpatial_none {me flag props l} (h : mixSpatial me flag props = .ok l)
    (h1 : Elem.find props ["jp2HeaderBox", "resolutionBox", "captureResolutionBox"] = none)
    (h2 : Elem.find props ["jp2HeaderBox", "resolutionBox", "displayResolutionBox"] = none) : l = [] := by
  rw [mixSpatial_eq, h1, h2] at h
  cases h
  rfl

theorem mixSpatial_tag {me flag props l} (h : mixSpatial me flag props = .ok l) :
    ∀ e ∈ l, e.tag = "mix:SpatialMetrics" := by
  rw [mixSpatial_eq] at h
  split at h
  · obtain ⟨_, _, _, _, -, -, -, -, rfl⟩ := spatialOf_ok h
    simp
  · split at h
    · obtain ⟨_, _, _, _, -, -, -, -, rfl⟩ := spatialOf_ok h
      simp
    · cases h; simp

theorem asTexts_map : ∀ {vs : List PyVal} {ss : List String}, asTexts vs = .ok ss → vs = ss.map PyVal.str
  | [], ss, h => by cases h; rfl
  | v :: vs, ss, h => by
    obtain ⟨s, h1, h⟩ := Outcome.bind_eq_ok.1 h
    obtain ⟨r, h2, h⟩ := Outcome.bind_eq_ok.1 h
    cases h
    rw [asText_ok h1, asTexts_map h2]
    rfl

/-- Bits per sample. -/
def bpsOf (flag : Nat) (values : List PyVal) : Outcome Elem :=
  if flag = 1 then asTexts values >>= fun ss =>
    .ok (Elem.node "mix:bitsPerSample"
      [ sLeaf "mix:bitsPerSampleValue" (String.intercalate "," ss), sLeaf "mix:bitsPerSampleUnit" "integer" ])
  else .ok (Elem.node "mix:BitsPerSample"
    (values.map (Elem.leaf "mix:bitsPerSampleValue") ++ [sLeaf "mix:bitsPerSampleUnit" "integer"]))

/-- `mixIam` spelled out. -/
theorem mixIam_ok {me flag props e} (h : mixIam me flag props = .ok e) :
    ∃ spatial size bps num, mixSpatial me flag props = .ok spatial ∧
      Elem.find props ["contiguousCodestreamBox", "siz"] = some size ∧
      bpsOf flag (valuesOf size.children "ssizDepth") = .ok bps ∧
      findText size.children ["csiz"] = .ok num ∧
      e = .node "mix:ImageAssessmentMetadata"
        (spatial ++ [.node "mix:ImageColorEncoding" [bps, .leaf "mix:samplesPerPixel" num]]) := by
  unfold mixIam at h
  obtain ⟨spatial, h1, h⟩ := Outcome.bind_eq_ok.1 h
  simp only at h
  cases hs : Elem.find props ["contiguousCodestreamBox", "siz"] with
  | none => rw [hs] at h; cases h
  | some size =>
    rw [hs] at h
    simp only at h
    have h' : (bpsOf flag (valuesOf size.children "ssizDepth") >>= fun bps =>
        findText size.children ["csiz"] >>= fun num => Outcome.ok (Elem.node "mix:ImageAssessmentMetadata"
        (spatial ++ [.node "mix:ImageColorEncoding" [bps, .leaf "mix:samplesPerPixel" num]]))) = .ok e := by
      rw [← h]
      unfold bpsOf
      by_cases hf : flag = 1
      · simp only [if_pos hf, outcome_assoc]; rfl
      · simp only [if_neg hf, outcome_assoc]; rfl
    obtain ⟨bps, h2, h'⟩ := Outcome.bind_eq_ok.1 h'
    obtain ⟨num, h3, h'⟩ := Outcome.bind_eq_ok.1 h'
    cases h'
    exact ⟨spatial, size, bps, num, h1, rfl, h2, h3, rfl⟩

/-! ## The table -/

section
variable {me : MixEnv} {flag : Nat} {props : List Elem} {bdoi bio iam : Elem} {icm : List Elem}

/-- Paths into the first part. -/
theorem at_bdoi {p : List String} {u : String} {cs : List Elem} (h2 : bio.tag = "mix:BasicImageInformation")
    (h3 : ∀ e ∈ icm, e.tag = "mix:ImageCaptureMetadata") (h4 : iam.tag = "mix:ImageAssessmentMetadata") :
    elemsAt ("mix:BasicDigitalObjectInformation" :: u :: p)
      ([.node "mix:BasicDigitalObjectInformation" cs, bio] ++ icm ++ [iam]) = elemsAt (u :: p) cs := by
  rw [elemsAt_append, elemsAt_append, elemsAt_other (es := icm) (by intro e he; rw [h3 e he]; decide)]
  rw [elemsAt_cons, elemsAt_cons, elemsAt_cons, elemsAt_nil, h2, h4]
  simp

/-- Paths into the second part. -/
theorem at_bio {p : List String} {u : String} {cs : List Elem}
    (h1 : bdoi.tag = "mix:BasicDigitalObjectInformation")
    (h3 : ∀ e ∈ icm, e.tag = "mix:ImageCaptureMetadata") (h4 : iam.tag = "mix:ImageAssessmentMetadata") :
    elemsAt ("mix:BasicImageInformation" :: u :: p)
      ([bdoi, .node "mix:BasicImageInformation" cs] ++ icm ++ [iam]) = elemsAt (u :: p) cs := by
  rw [elemsAt_append, elemsAt_append, elemsAt_other (es := icm) (by intro e he; rw [h3 e he]; decide)]
  rw [elemsAt_cons, elemsAt_cons, elemsAt_cons, elemsAt_nil, h1, h4]
  simp

/-- Paths into the last part. -/
theorem at_iam {p : List String} {u : String} {cs : List Elem}
    (h1 : bdoi.tag = "mix:BasicDigitalObjectInformation") (h2 : bio.tag = "mix:BasicImageInformation")
    (h3 : ∀ e ∈ icm, e.tag = "mix:ImageCaptureMetadata") :
    elemsAt ("mix:ImageAssessmentMetadata" :: u :: p)
      ([bdoi, bio] ++ icm ++ [.node "mix:ImageAssessmentMetadata" cs]) = elemsAt (u :: p) cs := by
  rw [elemsAt_append, elemsAt_append, elemsAt_other (es := icm) (by intro e he; rw [h3 e he]; decide)]
  rw [elemsAt_cons, elemsAt_cons, elemsAt_cons, elemsAt_nil, h1, h2]
  simp

end

theorem findall_snoc (t : String) : ∀ (p : List String) (cs : List Elem), p ≠ [] →
    Elem.findall cs (p ++ [t]) = (Elem.findall cs p).flatMap fun e => Elem.findall e.children [t]
  | [], _, h => absurd rfl h
  | [u], cs, _ => rfl
  | u :: v :: p, cs, _ => by
    show (cs.filter (·.tag == u)).flatMap (fun e => Elem.findall e.children ((v :: p) ++ [t])) = _
    rw [show Elem.findall cs (u :: v :: p) = (cs.filter (·.tag == u)).flatMap fun e =>
      Elem.findall e.children (v :: p) from rfl, List.flatMap_assoc]
    congr 1
    funext e
    exact findall_snoc t (v :: p) _ (by simp)

/-- A property below an element that is reported. -/
theorem propertyIs_parent {props : List Elem} {p : List String} {t s : String} (hp : p ≠ [])
    (h : PropertyIs props (p ++ [t]) s) : ∃ e, Elem.find props p = some e := by
  obtain ⟨e, he, -⟩ := find_of_propertyIs h
  unfold Elem.find at he ⊢
  rw [findall_snoc t p props hp] at he
  cases hl : Elem.findall props p with
  | nil => rw [hl] at he; cases he
  | cons a as => exact ⟨a, rfl⟩

theorem siz_csiz {props : List Elem} {size : Elem} {num : PyVal} {s : String}
    (h1 : Elem.find props ["contiguousCodestreamBox", "siz"] = some size)
    (h2 : findText size.children ["csiz"] = .ok num)
    (h3 : PropertyIs props ["contiguousCodestreamBox", "siz", "csiz"] s) : num = .str s := by
  obtain ⟨e, he, ht⟩ := find_of_propertyIs h3
  have hall := findall_snoc "csiz" ["contiguousCodestreamBox", "siz"] props (by simp)
  unfold Elem.find at h1 he
  rw [show (["contiguousCodestreamBox", "siz", "csiz"] : List String) =
    ["contiguousCodestreamBox", "siz"] ++ ["csiz"] from rfl, hall] at he
  cases hl : Elem.findall props ["contiguousCodestreamBox", "siz"] with
  | nil => rw [hl] at h1; cases h1
  | cons a as =>
    rw [hl] at h1 he
    cases Option.some.inj h1
    unfold findText Elem.find at h2
    cases hc : Elem.findall size.children ["csiz"] with
    | nil => rw [hc] at h2; cases h2
    | cons c cs =>
      rw [hc] at h2
      rw [List.flatMap_cons, hc] at he
      cases Option.some.inj he
      cases h2
      exact ht

/-- C55: the MIX description that is generated from the properties of a report agrees with them. -/
theorem C55_table {me : MixEnv} {flag : Nat} {props : List Elem} {m : Elem}
    (h : generateMix me flag props = .ok m) : MixAgrees me flag props m.children := by
  obtain ⟨bdoi, bio, icm, iam, h1, h2, h3, h4, -, hm⟩ := generateMix_parts h
  rw [hm]
  have hi := mixIcm_tag h3
  obtain ⟨name, compression, ratio, ratioElem, b1, b2, b3, b4, rfl⟩ := mixBdoi_ok h1
  obtain ⟨width, height, pi, codec, x, y, layers, levels, c1, c2, c3, c4, c5, c6, c7, c8, rfl⟩ := mixBio_ok h2
  obtain ⟨spatial, size, bps, num, d1, d2, d3, d4, rfl⟩ := mixIam_ok h4
  have hpi : pi.tag = "mix:PhotometricInterpretation" := by
    rcases mixPhotometric_ok c3 with ⟨_, _, _, -, -, -, -, rfl⟩ | ⟨_, -, -, rfl⟩ <;> rfl
  have hco := mixCodec_tag c4
  have hsp := mixSpatial_tag d1
  constructor
  case format =>
    intro s hs
    rw [textsAt, at_bdoi rfl hi rfl, b1 s hs]
    simp [elemsAt_cons, elemsAt_one, elemsAt_nil, sLeaf]
  case byteOrder =>
    rw [textsAt, at_bdoi rfl hi rfl]
    simp [elemsAt_cons, elemsAt_one, elemsAt_nil, sLeaf]
  case scheme =>
    intro s hs
    have hr : ratioElem.tag = "mix:compressionRatio" := by
      split at b4 <;> obtain ⟨_, -, rfl⟩ := b4 <;> rfl
    rw [textsAt, at_bdoi rfl hi rfl, findText_propertyIs b2 hs]
    simp [elemsAt_cons, elemsAt_one, elemsAt_nil, sLeaf, hr]
  case ratio1 =>
    intro hf s hs
    rw [if_pos hf] at b4
    obtain ⟨v, hv, rfl⟩ := b4
    have e : ratio = s := by simpa using findText_propertyIs b3 hs
    subst e
    refine ⟨v, hv, ?_⟩
    rw [textsAt, at_bdoi rfl hi rfl]
    simp [elemsAt_cons, elemsAt_one, elemsAt_nil, sLeaf]
  case ratio2 =>
    intro hf s hs
    rw [if_neg hf] at b4
    obtain ⟨v, hv, rfl⟩ := b4
    have e : ratio = s := by simpa using findText_propertyIs b3 hs
    subst e
    refine ⟨v, hv, ?_⟩
    rw [textsAt, textsAt, at_bdoi rfl hi rfl, at_bdoi rfl hi rfl]
    simp [elemsAt_cons, elemsAt_one, elemsAt_nil, sLeaf]
  case width =>
    intro s hs
    rw [textsAt, at_bio rfl hi rfl, strOf_propertyIs c1 hs]
    simp [elemsAt_cons, elemsAt_one, elemsAt_nil, sLeaf, hpi]
  case height =>
    intro s hs
    rw [textsAt, at_bio rfl hi rfl, strOf_propertyIs c2 hs]
    simp [elemsAt_cons, elemsAt_one, elemsAt_nil, sLeaf, hpi]
  case colourIcc =>
    intro s hs hne
    rw [textsAt, at_bio rfl hi rfl]
    rcases mixPhotometric_ok c3 with ⟨e, cs, d, -, -, e1, -, rfl⟩ | ⟨_, e1, -, -⟩
    · cases findText_propertyIs e1 hs
      simp [elemsAt_cons, elemsAt_one, elemsAt_nil, sLeaf]
    · obtain ⟨e, he⟩ := propertyIs_parent (p := ["jp2HeaderBox", "colourSpecificationBox", "icc"]) (by simp) hs
      exact absurd (e1 e he) (hne e (find_head.trans he))
  case profile =>
    intro s hs hne
    rw [textsAt, at_bio rfl hi rfl]
    rcases mixPhotometric_ok c3 with ⟨e, cs, d, -, -, -, e1, rfl⟩ | ⟨_, e1, -, -⟩
    · cases findText_propertyIs e1 hs
      simp [elemsAt_cons, elemsAt_one, elemsAt_nil, sLeaf]
    · obtain ⟨e, he⟩ := propertyIs_parent (p := ["jp2HeaderBox", "colourSpecificationBox", "icc"]) (by simp) hs
      exact absurd (e1 e he) (hne e (find_head.trans he))
  case colourEnum =>
    intro hno s hs
    rw [textsAt, at_bio rfl hi rfl, textsAt, at_bio rfl hi rfl]
    rcases mixPhotometric_ok c3 with ⟨e, cs, d, e1, -, -, -, -⟩ | ⟨_, -, e1, rfl⟩
    · rw [find_none hno] at e1
      cases e1
    · cases findText_propertyIs e1 hs
      simp [elemsAt_cons, elemsAt_one, elemsAt_nil, sLeaf]
  case codec =>
    intro s cod ver hs hn
    rw [textsAt, at_bio rfl hi rfl, textsAt, at_bio rfl hi rfl]
    obtain ⟨e, he, ht⟩ := find_of_propertyIs hs
    unfold mixCodec at c4
    rw [he] at c4
    simp only [ht] at c4
    obtain ⟨t, c4', c4⟩ := Outcome.bind_eq_ok.1 c4
    cases c4'
    rw [matchCodec_some hn] at c4
    cases c4
    simp [elemsAt_cons, elemsAt_one, elemsAt_nil, elemsAt_append, sLeaf]
  case noCodec =>
    intro hn
    rw [at_bio rfl hi rfl]
    have hc : codec = [] := by
      unfold mixCodec at c4
      rcases hn with hn | ⟨s, hs, hn⟩
      · rw [find_none hn] at c4
        cases c4; rfl
      · obtain ⟨e, he, ht⟩ := find_of_propertyIs hs
        rw [he] at c4
        simp only [ht] at c4
        obtain ⟨t, c4', c4⟩ := Outcome.bind_eq_ok.1 c4
        cases c4'
        rw [matchCodec_none hn] at c4
        cases c4; rfl
    subst hc
    simp [elemsAt_cons, elemsAt_one, elemsAt_nil, sLeaf]
  case tiles1 =>
    intro hf x' y' hx hy
    rw [textsAt, at_bio rfl hi rfl, strOf_propertyIs c5 hx, strOf_propertyIs c6 hy, if_pos hf]
    have := elemsAt_other (t := "mix:EncodingOptions") (p := ["mix:tiles"]) (es := codec)
      (by intro e he; rw [hco e he]; decide)
    simp [elemsAt_cons, elemsAt_one, elemsAt_nil, elemsAt_append, sLeaf, this]
    split <;> split <;> simp [elemsAt_one, elemsAt_nil]
  case tiles2 =>
    intro hf x' y' hx hy
    rw [textsAt, at_bio rfl hi rfl, textsAt, at_bio rfl hi rfl, strOf_propertyIs c5 hx,
      strOf_propertyIs c6 hy, if_neg hf]
    have := fun p => elemsAt_other (t := "mix:EncodingOptions") (p := p) (es := codec)
      (by intro e he; rw [hco e he]; decide)
    simp [elemsAt_cons, elemsAt_one, elemsAt_nil, elemsAt_append, sLeaf, this]
    split <;> split <;> simp [elemsAt_cons, elemsAt_nil]
  case layers =>
    intro s hs
    rw [textsAt, at_bio rfl hi rfl, strOf_propertyIs c7 hs]
    have := fun p => elemsAt_other (t := "mix:EncodingOptions") (p := p) (es := codec)
      (by intro e he; rw [hco e he]; decide)
    have ht : (if flag = 1 then sLeaf "mix:tiles" (strOf x ++ "x" ++ strOf y) else .node "mix:Tiles"
        [sLeaf "mix:tileWidth" (strOf x), sLeaf "mix:tileHeight" (strOf y)]).tag ≠ "mix:qualityLayers" := by
      split <;> simp [sLeaf]
    generalize (if flag = 1 then sLeaf "mix:tiles" (strOf x ++ "x" ++ strOf y) else .node "mix:Tiles"
        [sLeaf "mix:tileWidth" (strOf x), sLeaf "mix:tileHeight" (strOf y)]) = tiles at ht ⊢
    by_cases h0 : s = "0" <;> by_cases h1 : strOf levels = "0" <;>
      simp [elemsAt_cons, elemsAt_one, elemsAt_nil, elemsAt_append, sLeaf, this, ht, h0, h1]
  case levels =>
    intro s hs
    rw [textsAt, at_bio rfl hi rfl, strOf_propertyIs c8 hs]
    have := fun p => elemsAt_other (t := "mix:EncodingOptions") (p := p) (es := codec)
      (by intro e he; rw [hco e he]; decide)
    have ht : (if flag = 1 then sLeaf "mix:tiles" (strOf x ++ "x" ++ strOf y) else .node "mix:Tiles"
        [sLeaf "mix:tileWidth" (strOf x), sLeaf "mix:tileHeight" (strOf y)]).tag ≠ "mix:resolutionLevels" := by
      split <;> simp [sLeaf]
    generalize (if flag = 1 then sLeaf "mix:tiles" (strOf x ++ "x" ++ strOf y) else .node "mix:Tiles"
        [sLeaf "mix:tileWidth" (strOf x), sLeaf "mix:tileHeight" (strOf y)]) = tiles at ht ⊢
    by_cases h0 : s = "0" <;> by_cases h1 : strOf layers = "0" <;>
      simp [elemsAt_cons, elemsAt_one, elemsAt_nil, elemsAt_append, sLeaf, this, ht, h0, h1]
  case samples =>
    intro s hs
    rw [textsAt, at_iam rfl rfl hi, siz_csiz d2 d4 hs, elemsAt_append,
      elemsAt_other (es := spatial) (by intro e he; rw [hsp e he]; decide)]
    have hb : bps.tag ≠ "mix:samplesPerPixel" := by
      unfold bpsOf at d3
      split at d3
      · obtain ⟨_, -, d3⟩ := Outcome.bind_eq_ok.1 d3
        cases d3; simp
      · cases d3; simp
    simp [elemsAt_cons, elemsAt_one, elemsAt_nil, hb]
  case depths1 =>
    intro hf siz ss hsz hv
    rw [find_head, d2] at hsz
    cases hsz
    rw [bpsOf, if_pos hf] at d3
    obtain ⟨ss', d5, d3⟩ := Outcome.bind_eq_ok.1 d3
    cases d3
    have e : ss' = ss := by
      have := asTexts_map d5
      rw [hv] at this
      exact ((List.map_inj_right (fun a b h => by cases h; rfl)).1 this).symm
    subst e
    rw [textsAt, at_iam rfl rfl hi, elemsAt_append,
      elemsAt_other (es := spatial) (by intro e he; rw [hsp e he]; decide)]
    simp [elemsAt_cons, elemsAt_one, elemsAt_nil, sLeaf]
  case depths2 =>
    intro hf siz ss hsz hv
    rw [find_head, d2] at hsz
    cases hsz
    rw [bpsOf, if_neg hf] at d3
    cases d3
    rw [hv, textsAt, at_iam rfl rfl hi, elemsAt_append,
      elemsAt_other (es := spatial) (by intro e he; rw [hsp e he]; decide)]
    have hl : ∀ l : List PyVal, elemsAt ["mix:bitsPerSampleValue"] (l.map (Elem.leaf "mix:bitsPerSampleValue")) =
        l.map (Elem.leaf "mix:bitsPerSampleValue") := by
      intro l
      simp [elemsAt]
    simp [elemsAt_cons, elemsAt_one, elemsAt_nil, elemsAt_append, sLeaf, hl]
    rw [← List.map_map, hl]
    simp
  case capture =>
    intro e x y he hx hy
    rw [find_head] at he
    obtain ⟨x', y', v, w, f1, f2, f3, f4, rfl⟩ := spatialOf_ok (mixSpatial_found d1 (.inl ⟨rfl, he⟩))
    have e1 : x' = x := by simpa using findText_propertyIs f1 hx
    have e2 : y' = y := by simpa using findText_propertyIs f2 hy
    subst e1
    subst e2
    constructor
    · rw [textsAt, at_iam rfl rfl hi]
      simp [elemsAt_cons, elemsAt_one, elemsAt_nil, sLeaf]
    · refine ⟨v, f3, ?_⟩
      rw [textsAt, at_iam rfl rfl hi, textsAt, at_iam rfl rfl hi]
      simp [elemsAt_cons, elemsAt_one, elemsAt_nil, sLeaf]
    · refine ⟨w, f4, ?_⟩
      rw [textsAt, at_iam rfl rfl hi, textsAt, at_iam rfl rfl hi]
      simp [elemsAt_cons, elemsAt_one, elemsAt_nil, sLeaf]
  case display =>
    intro hno e x y he hx hy
    rw [find_head] at he
    obtain ⟨x', y', v, w, f1, f2, f3, f4, rfl⟩ :=
      spatialOf_ok (mixSpatial_found d1 (.inr ⟨rfl, find_none hno, he⟩))
    have e1 : x' = x := by simpa using findText_propertyIs f1 hx
    have e2 : y' = y := by simpa using findText_propertyIs f2 hy
    subst e1
    subst e2
    constructor
    · rw [textsAt, at_iam rfl rfl hi]
      simp [elemsAt_cons, elemsAt_one, elemsAt_nil, sLeaf]
    · refine ⟨v, f3, ?_⟩
      rw [textsAt, at_iam rfl rfl hi, textsAt, at_iam rfl rfl hi]
      simp [elemsAt_cons, elemsAt_one, elemsAt_nil, sLeaf]
    · refine ⟨w, f4, ?_⟩
      rw [textsAt, at_iam rfl rfl hi, textsAt, at_iam rfl rfl hi]
      simp [elemsAt_cons, elemsAt_one, elemsAt_nil, sLeaf]
  case noResolution =>
    intro h1 h2
    cases mixSpatial_none d1 (find_none h1) (find_none h2)
    rw [at_iam rfl rfl hi]
    simp [elemsAt_one, elemsAt_nil]

/-- C55 (report): a report of a valid JP2 or JPH file made with MIX output has one MIX element, in the
namespace of the version asked for, and its values are the properties of the same report. -/
theorem C55_report {env : Env} {me : MixEnv} {fs : FS} {fuel : Nat} {o : Options} {mix : Nat} {path : PyStr}
    (hfmt : o.format = .jp2 ∨ o.format = .jph) (hmix : mix ≠ 0) {rep : Elem}
    (h : checkOneFile env me fs fuel o mix path = .ok rep) (hv : verdict rep = some (.str "True")) :
    ∃ m, contents rep "propertiesExtension" = [m] ∧ m.tag = "mix:mix" ∧
      m.attrs.lookup "xmlns:mix" =
        some (if mix = 1 then "http://www.loc.gov/mix/v10" else "http://www.loc.gov/mix/v20") ∧
      MixAgrees me mix (contents rep "properties") m.children := by
  obtain ⟨info, a, m, h1, h2, h3, rfl⟩ := checkOneFile_ok.1 h
  have hi := fileInfo_tag h1
  rw [verdict_eq hi] at hv
  simp only [Option.some.injEq, PyVal.str.injEq, boolStr_true] at hv
  have hp : contents (buildReport o info a (extensionOf o mix a m)) "properties" = a.props := by
    unfold contents; rw [(report_parts hi).2.2.2.2.1]; rfl
  have he : contents (buildReport o info a (extensionOf o mix a m)) "propertiesExtension" = m := by
    unfold contents
    rw [(report_parts hi).2.2.2.2.2.2, extensionOf, if_pos hmix, if_pos ⟨hfmt, hv⟩]; rfl
  rw [hp, he]
  unfold mixOutput at h3
  rw [if_pos ⟨hmix, hv⟩] at h3
  obtain ⟨x, hx, h3⟩ := Outcome.bind_eq_ok.1 h3
  cases h3
  obtain ⟨-, -, -, -, -, -, -, -, ht, -⟩ := generateMix_parts hx
  refine ⟨x, rfl, ht, ?_, C55_table hx⟩
  unfold generateMix at hx
  obtain ⟨_, -, hx⟩ := Outcome.bind_eq_ok.1 hx
  obtain ⟨_, -, hx⟩ := Outcome.bind_eq_ok.1 hx
  obtain ⟨_, -, hx⟩ := Outcome.bind_eq_ok.1 hx
  obtain ⟨_, -, hx⟩ := Outcome.bind_eq_ok.1 hx
  cases hx
  rfl

/-! ## From the report to the file -/

theorem rendered_nil {env : Env} {out : List Elem} (h : RenderedList env [] out) : out = [] := by
  have := h.1
  cases out with
  | nil => rfl
  | cons _ _ => simp at this

theorem rendered_cons {env : Env} {e : Elem} {raw out : List Elem} (h : RenderedList env (e :: raw) out) :
    ∃ e' out', out = e' :: out' ∧ Rendered env descriptions e e' ∧ RenderedList env raw out' := by
  cases out with
  | nil => have := h.1; simp at this
  | cons e' out' =>
    refine ⟨e', out', rfl, h.2 0 (by simp) (by simp), by simpa using h.1, ?_⟩
    intro i h1 h2
    exact h.2 (i + 1) (by simpa using h1) (by simpa using h2)

theorem rendered_facts {env : Env} {e e' : Elem} (h : Rendered env descriptions e e') :
    e'.tag = e.tag ∧ ShownAs env descriptions e.tag e.text e'.text ∧ RenderedList env e.children e'.children := by
  cases h with
  | mk h1 h2 h3 => exact ⟨rfl, h1, h2, h3⟩

theorem rendered_find {env : Env} {t : String} : ∀ {raw out : List Elem} {e : Elem}, RenderedList env raw out →
    raw.find? (fun e => e.tag == t) = some e →
    ∃ e', out.find? (fun e => e.tag == t) = some e' ∧ Rendered env descriptions e e'
  | [], _, _, _, h => by cases h
  | x :: raw, out, e, hr, h => by
    obtain ⟨x', out', rfl, h1, h2⟩ := rendered_cons hr
    obtain ⟨ht, -, -⟩ := rendered_facts h1
    rw [List.find?_cons] at h ⊢
    rw [ht]
    cases hx : x.tag == t with
    | true => rw [hx] at h; cases h; exact ⟨x', rfl, h1⟩
    | false => rw [hx] at h; exact rendered_find h2 h

theorem shownAs_int {env : Env} {t : String} {i : Int} {v : PyVal} (hd : ∀ d ∈ descriptions, d.1 ≠ t)
    (h : ShownAs env descriptions t (.int i) v) : v = .str i.repr := by
  cases h with
  | described hm => exact absurd rfl (hd _ hm)
  | int _ => rfl

theorem rendered_values {env : Env} {t : String} : ∀ {raw out : List Elem} {is : List Int},
    RenderedList env raw out → (∀ d ∈ descriptions, d.1 ≠ t) → valuesOf raw t = is.map PyVal.int →
    valuesOf out t = is.map fun i => PyVal.str i.repr
  | [], out, is, hr, _, h => by
    rw [rendered_nil hr]
    cases is with
    | nil => rfl
    | cons _ _ => cases h
  | x :: raw, out, is, hr, hd, h => by
    obtain ⟨x', out', rfl, h1, h2⟩ := rendered_cons hr
    obtain ⟨ht, hs, -⟩ := rendered_facts h1
    unfold valuesOf at h ⊢
    rw [List.filter_cons] at h ⊢
    rw [ht]
    cases hx : x.tag == t with
    | false => rw [hx] at h; exact rendered_values h2 hd h
    | true =>
      rw [hx] at h
      simp only [if_true, List.map_cons] at h ⊢
      cases is with
      | nil => cases h
      | cons i is =>
        rw [List.map_cons] at h
        obtain ⟨e1, e2⟩ := List.cons.inj h
        rw [List.map_cons]
        congr 1
        · rw [e1] at hs
          have hxt : x.tag = t := by simpa using hx
          rw [hxt] at hs
          exact shownAs_int hd hs
        · exact rendered_values h2 hd e2

/-- The element that a path of tags leads to when the first element is taken at each step. -/
inductive FirstElem : List Elem → List String → Elem → Prop
  | one {es t e} : es.find? (fun e => e.tag == t) = some e → FirstElem es [t] e
  | step {es t e p e'} : es.find? (fun e => e.tag == t) = some e → FirstElem e.children p e' →
      FirstElem es (t :: p) e'

theorem FirstElem.rendered {env : Env} {raw p e} (h : FirstElem raw p e) : ∀ {out}, RenderedList env raw out →
    ∃ e', FirstElem out p e' ∧ Rendered env descriptions e e' := by
  induction h with
  | one h =>
    intro out hr
    obtain ⟨e', h1, h2⟩ := rendered_find hr h
    exact ⟨e', .one h1, h2⟩
  | step h _ ih =>
    intro out hr
    obtain ⟨e', h1, h2⟩ := rendered_find hr h
    obtain ⟨e'', h3, h4⟩ := ih (rendered_facts h2).2.2
    exact ⟨e'', .step h1 h3, h4⟩

theorem filter_of_find {t : String} : ∀ {es : List Elem} {e : Elem}, es.find? (fun e => e.tag == t) = some e →
    ∃ l, es.filter (fun e => e.tag == t) = e :: l
  | [], _, h => by cases h
  | x :: es, e, h => by
    rw [List.find?_cons] at h
    rw [List.filter_cons]
    cases hx : x.tag == t with
    | true => rw [hx] at h; cases h; exact ⟨_, rfl⟩
    | false => rw [hx] at h; exact filter_of_find h

theorem FirstElem.find {es p e} (h : FirstElem es p e) : Elem.find es p = some e := by
  induction h with
  | one h =>
    obtain ⟨l, hl⟩ := filter_of_find h
    show (List.filter _ _).head? = _
    rw [hl]; rfl
  | @step es t e p e' h h' ih =>
    obtain ⟨l, hl⟩ := filter_of_find h
    have : ∃ u q, p = u :: q := by cases h' <;> exact ⟨_, _, rfl⟩
    obtain ⟨u, q, rfl⟩ := this
    show ((List.filter (fun e => e.tag == t) es).flatMap _).head? = _
    rw [hl, List.flatMap_cons]
    unfold Elem.find at ih
    cases hf : Elem.findall e.children (u :: q) with
    | nil => rw [hf] at ih; cases ih
    | cons a as => rw [hf] at ih; exact ih

theorem FirstElem.propertyIs {es p e s} (h : FirstElem es p e) (ht : e.text = .str s) : PropertyIs es p s := by
  unfold PropertyIs textsAt
  rw [List.head?_map, find_head, h.find]
  exact congrArg some ht

theorem boxName_inj {t k : Bytes} {s : String} (hs : (k, s) ∈ [(ascii "jp2h", "jp2HeaderBox"),
    (ascii "ihdr", "imageHeaderBox"), (ascii "jp2c", "contiguousCodestreamBox"),
      (ascii "xml ", "xmlBox"), (ascii "uuid", "uuidBox")]) :
    boxName t = s ↔ t = k := by
  constructor
  · intro h
    by_cases hu : boxTypeOf t = .unknownBox
    · rw [boxName_unknown hu] at h
      subst h
      simp at hs
    · have h1 := boxTypeOf_mem rfl hu
      have hall : ∀ x ∈ typeMap, ∀ y ∈ [(ascii "jp2h", "jp2HeaderBox"),
          (ascii "ihdr", "imageHeaderBox"), (ascii "jp2c", "contiguousCodestreamBox"),
      (ascii "xml ", "xmlBox"), (ascii "uuid", "uuidBox")],
          boxName x.1 = y.2 → x.1 = y.1 := by decide +kernel
      exact hall _ h1 _ hs h
  · rintro rfl
    have hall : ∀ y ∈ [(ascii "jp2h", "jp2HeaderBox"),
      (ascii "ihdr", "imageHeaderBox"), (ascii "jp2c", "contiguousCodestreamBox"),
      (ascii "xml ", "xmlBox"), (ascii "uuid", "uuidBox")], boxName y.1 = y.2 := by
      decide +kernel
    exact hall _ hs

theorem showsBoxV_tag {o : Options} {t p : Bytes} {e : Elem} (h : ShowsBoxV env o t p e) {k : Bytes} {s : String}
    (hs : (k, s) ∈ [(ascii "jp2h", "jp2HeaderBox"), (ascii "ihdr", "imageHeaderBox"),
      (ascii "jp2c", "contiguousCodestreamBox"),
      (ascii "xml ", "xmlBox"), (ascii "uuid", "uuidBox")]) : e.tag = s ↔ t = k := by
  cases h with
  | leaf _ _ h _ =>
    rcases h with h | ⟨h2, h⟩
    · rw [h]; exact boxName_inj hs
    · have hall : ∀ x ∈ segNames, ∀ y ∈ [(ascii "jp2h", "jp2HeaderBox"),
        (ascii "ihdr", "imageHeaderBox"), (ascii "jp2c", "contiguousCodestreamBox"),
      (ascii "xml ", "xmlBox"), (ascii "uuid", "uuidBox")],
        x.2 ≠ y.2 ∧ y.1.length = 4 := by decide +kernel
      have := hall _ h _ hs
      exact ⟨fun e => absurd e this.1, fun e => by rw [e, this.2] at h2; cases h2⟩
  | codestream h1 h2 _ =>
    have := boxName_inj (t := t) hs
    rw [h2, ← this, h1, show boxName (ascii "jp2c") = "contiguousCodestreamBox" from by decide +kernel]
  | super _ h _ _ => rw [h]; exact boxName_inj hs

theorem shows_find {o : Options} {k : Bytes} {s : String} (hs : (k, s) ∈ [(ascii "jp2h", "jp2HeaderBox"),
    (ascii "ihdr", "imageHeaderBox"), (ascii "jp2c", "contiguousCodestreamBox"),
      (ascii "xml ", "xmlBox"), (ascii "uuid", "uuidBox")]) :
    ∀ {bs : List FoundBox} {es : List Elem} {x : FoundBox}, ShowsBoxesV env o bs es →
    bs.find? (fun x => x.type == k) = some x →
    ∃ e, es.find? (fun e => e.tag == s) = some e ∧ ShowsBoxV env o x.type x.payload e
  | [], _, _, _, h => by cases h
  | y :: bs, _, x, .cons (e := e) (es := es) h1 h2, h => by
    have ht := showsBoxV_tag h1 hs
    rw [List.find?_cons] at h ⊢
    by_cases hk : y.type = k
    · rw [beq_iff_eq.2 hk] at h
      rw [beq_iff_eq.2 (ht.2 hk)]
      cases h
      exact ⟨e, rfl, h1⟩
    · rw [beq_eq_false_iff_ne.2 hk] at h
      rw [beq_eq_false_iff_ne.2 fun e => hk (ht.1 e)]
      exact shows_find hs h2 h

theorem shows_cod {o : Options} {csiz : Nat} : ∀ {ss : List FoundSeg} {es : List Elem} {x : FoundSeg},
    ShowsSegs env o csiz mainSegments ss es → ss.find? (fun x => x.marker == COD) = some x →
    ∃ e, es.find? (fun e => e.tag == "cod") = some e ∧ SegValues env o.format csiz x.marker x.contents e.children
  | [], _, _, _, h => by cases h
  | y :: ss, _, x, .skip h1 h2, h => by
    rw [List.find?_cons] at h
    have hy : y.marker ≠ COD := by
      intro e
      rw [e] at h1
      rcases h1 with h1 | ⟨h1, -⟩
      · exact h1 (by decide)
      · exact absurd h1 (by decide)
    rw [beq_eq_false_iff_ne.2 hy] at h
    exact shows_cod h2 h
  | y :: ss, _, x, .show (e := e) h1 h2 h3 h4 h5, h => by
    have hn : ∀ z ∈ segNames, z.2 = "cod" ↔ z.1 = COD := by decide +kernel
    have ht := hn _ h3
    simp only at ht
    rw [List.find?_cons] at h ⊢
    by_cases hk : y.marker = COD
    · rw [beq_iff_eq.2 hk] at h
      rw [beq_iff_eq.2 (ht.2 hk)]
      cases h
      exact ⟨e, rfl, h4⟩
    · rw [beq_eq_false_iff_ne.2 hk] at h
      rw [beq_eq_false_iff_ne.2 fun e => hk (ht.1 e)]
      exact shows_cod h5 h

theorem find_of_values {es : List Elem} {t : String} {v : PyVal} (h : valuesOf es t = [v]) :
    ∃ e, es.find? (fun e => e.tag == t) = some e ∧ e.tag = t ∧ e.text = v := by
  unfold valuesOf at h
  cases hf : es.find? (fun e => e.tag == t) with
  | none =>
    rw [List.find?_eq_none] at hf
    rw [List.filter_eq_nil_iff.2 hf] at h
    cases h
  | some e =>
    obtain ⟨l, hl⟩ := filter_of_find hf
    rw [hl] at h
    refine ⟨e, rfl, ?_, (List.cons.inj h).1⟩
    simpa using List.find?_some hf

theorem FirstElem.snoc {es p e} (h : FirstElem es p e) {t : String} {e' : Elem}
    (h' : e.children.find? (fun e => e.tag == t) = some e') : FirstElem es (p ++ [t]) e' := by
  induction h with
  | one h => exact .step h (.one h')
  | step h _ ih => exact .step h (ih h')

/-- A number stored in a field of an element is the first property at the path. -/
theorem stored_number {env : Env} {raw out : List Elem} (hr : RenderedList env raw out) {p : List String}
    {e : Elem} (he : FirstElem raw p e) {c : Bytes} {t : String} {o w n : Nat}
    (hf : ShowsField e.children c ⟨t, .num o w⟩) (hn : uint c o w = some n)
    (hd : ∀ d ∈ descriptions, d.1 ≠ t) : PropertyIs out (p ++ [t]) (toString n) := by
  obtain ⟨v, h1, h2⟩ := hf
  have hv : v = .int n := by
    rcases h2 with ⟨x, hx, rfl⟩ | ⟨hx, -⟩
    · rw [hn] at hx; cases hx; rfl
    · rw [hn] at hx; cases hx
  subst hv
  obtain ⟨x, hx, hxt, htext⟩ := find_of_values h1
  obtain ⟨x', h3, h4⟩ := (he.snoc hx).rendered hr
  obtain ⟨-, h5, -⟩ := rendered_facts h4
  rw [hxt, htext] at h5
  exact h3.propertyIs (shownAs_int hd h5)

/-- The transformation is shown by its description. -/
theorem stored_transformation {env : Env} {raw out : List Elem} (hr : RenderedList env raw out)
    {p : List String} {e : Elem} (he : FirstElem raw p e) {c : Bytes} {n : Nat} {s : String}
    (hf : ShowsField e.children c ⟨"transformation", .num 11 1⟩) (hn : uint c 11 1 = some n)
    (hs : (n, s) ∈ [(0, "9-7 irreversible"), (1, "5-3 reversible")]) :
    PropertyIs out (p ++ ["transformation"]) s := by
  obtain ⟨v, h1, h2⟩ := hf
  have hv : v = .int n := by
    rcases h2 with ⟨x, hx, rfl⟩ | ⟨hx, -⟩
    · rw [hn] at hx; cases hx; rfl
    · rw [hn] at hx; cases hx
  subst hv
  obtain ⟨x, hx, hxt, htext⟩ := find_of_values h1
  obtain ⟨x', h3, h4⟩ := (he.snoc hx).rendered hr
  obtain ⟨-, h5, -⟩ := rendered_facts h4
  rw [hxt, htext] at h5
  refine h3.propertyIs ?_
  have hall : ∀ y ∈ [(0, "9-7 irreversible"), (1, "5-3 reversible")],
      ("transformation", PyVal.int (y.1 : Nat), y.2) ∈ descriptions ∧
      ∀ d ∈ descriptions, d.1 = "transformation" → d.2.1 = PyVal.int (y.1 : Nat) → d.2.2 = y.2 := by
    decide +kernel
  obtain ⟨k1, k2⟩ := hall _ hs
  generalize x'.text = w at h5 ⊢
  cases h5 with
  | described hm => exact congrArg PyVal.str (k2 _ hm rfl rfl)
  | int hno => exact absurd k1 (hno s)

theorem depths_ints {siz : Bytes} {csiz : Nat} {ds : List Nat} (h : Depths siz csiz ds) {vs : List PyVal}
    (h1 : vs.length = csiz)
    (h2 : ∀ i < csiz, ∃ v, vs[i]? = some v ∧ ((Reads.depth 38).shift (3 * i)).Gives siz v) :
    vs = (ds.map Int.ofNat).map PyVal.int := by
  apply List.ext_getElem?
  intro i
  by_cases hi : i < csiz
  · obtain ⟨v, e1, e2⟩ := h2 i hi
    obtain ⟨x, e3, e4⟩ := h.each i hi
    rw [e1, List.getElem?_map, List.getElem?_map, e4]
    have := e2 x e3
    rw [this]
    rfl
  · rw [List.getElem?_eq_none (by omega), List.getElem?_eq_none (by simp [h.number]; omega)]

theorem valid_success {env me fs fuel o mix path rep} (h : checkOneFile env me fs fuel o mix path = .ok rep)
    (hv : verdict rep = some (.str "True")) : status rep "success" = [.str "True"] := by
  obtain ⟨info, a, m, h1, h2, h3, rfl⟩ := checkOneFile_ok.1 h
  have hi := fileInfo_tag h1
  rw [verdict_eq hi] at hv
  simp only [Option.some.injEq, PyVal.str.injEq, boolStr_true] at hv
  rcases analyse_cases h2 with ⟨b, fmm, n, h4, h5, rfl⟩ | ⟨e, h4, rfl⟩
  · unfold status
    rw [(report_parts hi).2.1]
    simp [analysisOf, Elem.node, Elem.leaf, boolStr, Elem.children]
  · cases hv

theorem ite_toString_zero {α : Type} {x y : α} (n : Nat) :
    (if toString n = "0" then x else y) = if n = 0 then x else y := by
  by_cases h : n = 0
  · subst h; rfl
  · rw [if_neg h, if_neg]
    intro e
    exact h (Nat.repr_injective (show Nat.repr n = Nat.repr 0 from e))

theorem mix_stored {env : Env} (hsane : Sane env) {me : MixEnv} {fs : FS} {fuel : Nat} {o : Options}
    {mix : Nat} {path : PyStr} (hfmt : o.format = .jp2 ∨ o.format = .jph) (hmix : mix ≠ 0) {rep : Elem}
    (h : checkOneFile env me fs fuel o mix path = .ok rep) (hv : verdict rep = some (.str "True"))
    {bs hs : List FoundBox} {hd ih cs : FoundBox} (hb : Boxes (bytesRead (fs.read path)) bs)
    (hhd : bs.find? (fun x => x.type == ascii "jp2h") = some hd) (hhs : Boxes hd.payload hs)
    (hih : hs.find? (fun x => x.type == ascii "ihdr") = some ih)
    (hcs : bs.find? (fun x => x.type == ascii "jp2c") = some cs) (hsoc : sub cs.payload 0 2 = SOC)
    {siz csiz main sot} (hm : MainHeader cs.payload siz csiz main sot) {cod : FoundSeg}
    (hcod : main.find? (fun x => x.marker == COD) = some cod) :
    ∃ m, contents rep "propertiesExtension" = [m] ∧ m.tag = "mix:mix" ∧
      MixStored mix ih.payload siz cod.contents csiz m.children := by
  obtain ⟨m, h1, h2, -, h3⟩ := C55_report hfmt hmix h hv
  refine ⟨m, h1, h2, ?_⟩
  have hsucc := valid_success h hv
  obtain ⟨raw, more, hr, hshow, -, -⟩ := C54_file hsane hfmt h hsucc hb
  generalize contents rep "properties" = props at hr h3
  -- the image header
  obtain ⟨eh, f1, s1⟩ := shows_find (s := "jp2HeaderBox") (by simp) hshow hhd
  have t1 : hd.type = ascii "jp2h" := by simpa using List.find?_some hhd
  have s1' : ShowsBoxesV env o hs eh.children := by
    cases s1 with
    | leaf hn _ _ _ => rw [t1] at hn; exact absurd (by decide) hn
    | codestream hn _ _ => rw [t1] at hn; exact absurd hn (by decide)
    | super _ _ hb' hs' => rw [boxes_unique hhs hb']; exact hs'
  obtain ⟨ei, f2, s2⟩ := shows_find (s := "imageHeaderBox") (by simp) s1' hih
  have t2 : ih.type = ascii "ihdr" := by simpa using List.find?_some hih
  have v2 : ∀ f ∈ ihdrFields, ShowsField ei.children ih.payload f := by
    cases s2 with
    | leaf _ _ _ hv => exact hv.ihdr t2
    | codestream hn _ _ => rw [t2] at hn; exact absurd hn (by decide)
    | super hn _ _ _ => rw [t2] at hn; exact absurd hn (by decide)
  have hfind : ∀ {k : String} {e : Elem}, raw.find? (fun e => e.tag == k) = some e →
      (raw ++ more).find? (fun e => e.tag == k) = some e := by
    intro k e he
    rw [List.find?_append, he]; rfl
  have p2 : FirstElem (raw ++ more) ["jp2HeaderBox", "imageHeaderBox"] ei := .step (hfind f1) (.one f2)
  -- the codestream
  obtain ⟨ec, f3, s3⟩ := shows_find (s := "contiguousCodestreamBox") (by simp) hshow hcs
  have t3 : cs.type = ascii "jp2c" := by simpa using List.find?_some hcs
  have s3' : ShowsCodestream env o cs.payload siz csiz main sot ec.children := by
    cases s3 with
    | leaf _ hn _ _ => exact absurd t3 hn
    | codestream _ _ hh => exact hh _ _ _ _ hsoc hm
    | super hn _ _ _ => rw [t3] at hn; exact absurd hn (by decide)
  have hcsiz : uint siz 36 2 = some csiz := by
    cases hm; assumption
  have key : ∃ es ed, FirstElem (raw ++ more) ["contiguousCodestreamBox", "siz"] es ∧
      SegValues env o.format csiz SIZ siz es.children ∧
      FirstElem (raw ++ more) ["contiguousCodestreamBox", "cod"] ed ∧
      SegValues env o.format csiz COD cod.contents ed.children := by
    generalize hcc : ec.children = l at s3'
    cases s3' with
    | @mk s segs _ _ _ g1 g2 _ _ g5 _ _ _ _ =>
      obtain ⟨ed, k1, k2⟩ := shows_cod g5 hcod
      have t4 : cod.marker = COD := by simpa using List.find?_some hcod
      rw [t4] at k2
      refine ⟨s, ed, .step (hfind f3) (.one ?_), g2, .step (hfind f3) (.one ?_), k2⟩
      · rw [hcc, List.find?_cons, g1]; rfl
      · rw [hcc, List.find?_cons, g1, List.append_assoc, List.find?_append, k1]; rfl
  obtain ⟨es, ed, p3, v3, p4, v4⟩ := key
  have v3' := (v3.siz rfl).1
  have v4' := (v4.cod rfl).1
  have depths : ∀ ds : List Nat, Depths siz csiz ds → ∃ e',
      (elemsAt ["contiguousCodestreamBox", "siz"] props).head? = some e' ∧
      valuesOf e'.children "ssizDepth" = (ds.map toString).map PyVal.str := by
    intro ds hds
    have hsh := (v3.siz rfl).2 csiz hcsiz ⟨"ssizDepth", .depth 38⟩ (by simp [sizEntry])
    obtain ⟨e', q1, q2⟩ := p3.rendered hr
    obtain ⟨-, -, q3⟩ := rendered_facts q2
    refine ⟨e', find_head.trans q1.find, ?_⟩
    rw [rendered_values (t := "ssizDepth") q3 (by decide +kernel)
      (depths_ints hds hsh.number hsh.each), List.map_map, List.map_map]
    rfl
  constructor
  case height => exact fun n hn => h3.height _ (stored_number hr p2 (v2 _ (by simp [ihdrFields])) hn (by decide +kernel))
  case width => exact fun n hn => h3.width _ (stored_number hr p2 (v2 _ (by simp [ihdrFields])) hn (by decide +kernel))
  case samples => exact h3.samples _ (stored_number hr p3 (v3' _ (by simp [sizFields])) hcsiz (by decide +kernel))
  case tiles1 =>
    exact fun hf x y hx hy => h3.tiles1 hf _ _
      (stored_number hr p3 (v3' _ (by simp [sizFields])) hx (by decide +kernel))
      (stored_number hr p3 (v3' _ (by simp [sizFields])) hy (by decide +kernel))
  case tiles2 =>
    exact fun hf x y hx hy => h3.tiles2 hf _ _
      (stored_number hr p3 (v3' _ (by simp [sizFields])) hx (by decide +kernel))
      (stored_number hr p3 (v3' _ (by simp [sizFields])) hy (by decide +kernel))
  case layers =>
    intro n hn
    rw [h3.layers _ (stored_number hr p4 (v4' _ (by simp [codFields])) hn (by decide +kernel))]
    exact ite_toString_zero n
  case levels =>
    intro n hn
    rw [h3.levels _ (stored_number hr p4 (v4' _ (by simp [codFields])) hn (by decide +kernel))]
    exact ite_toString_zero n
  case lossless =>
    intro hn
    rw [h3.scheme _ (stored_transformation hr p4 (v4' _ (by simp [codFields, codeBlockFields])) hn
      (s := "5-3 reversible") (by simp))]
    rfl
  case lossy =>
    intro hn
    rw [h3.scheme _ (stored_transformation hr p4 (v4' _ (by simp [codFields, codeBlockFields])) hn
      (s := "9-7 irreversible") (by simp))]
    rfl
  case depths1 =>
    intro hf ds hds
    obtain ⟨e', q1, q2⟩ := depths ds hds
    exact h3.depths1 hf e' _ q1 q2
  case depths2 =>
    intro hf ds hds
    obtain ⟨e', q1, q2⟩ := depths ds hds
    have := h3.depths2 hf e' _ q1 q2
    rw [List.map_map] at this
    exact this

theorem firstBox_find {bs : List FoundBox} {t : String} {x : FoundBox} (h : FirstBox bs t x) :
    bs.find? (fun x => x.type == ascii t) = some x := by
  obtain ⟨a, z, rfl, ht, hn⟩ := h
  rw [List.find?_append, List.find?_eq_none.2, Option.none_or, List.find?_cons, beq_iff_eq.2 ht]
  intro y hy e
  exact hn ⟨y, hy, by simpa using e⟩

/-- C55 (file): in the report of a valid JP2 or JPH file made with MIX output, the image size, the number
of components, their bit depths, the tile size, the numbers of layers and levels and the kind of
compression given in the MIX element are those stored in the image header box, and in the SIZ and first
COD segments of the first codestream. -/
theorem C55_file {env : Env} (hsane : Sane env) {me : MixEnv} {fs : FS} {fuel : Nat} {o : Options}
    {mix : Nat} {path : PyStr} (hfmt : o.format = .jp2 ∨ o.format = .jph) (hmix : mix ≠ 0) {rep : Elem}
    (h : checkOneFile env me fs fuel o mix path = .ok rep) (hv : verdict rep = some (.str "True")) :
    ∃ hs ih cs siz csiz main sot cod m, HeaderOf (bytesRead (fs.read path)) hs ih ∧
      CodestreamOf (bytesRead (fs.read path)) cs ∧ MainHeader cs siz csiz main sot ∧
      main.find? (fun x => x.marker == COD) = some cod ∧
      contents rep "propertiesExtension" = [m] ∧ m.tag = "mix:mix" ∧
      MixStored mix ih siz cod.contents csiz m.children := by
  obtain ⟨ih, hrest, ⟨bs, hd, x, hb, f1, hhs, f2, -⟩, -⟩ := C18_file hfmt ⟨rep, h, hv⟩
  obtain ⟨-, -, cs, -, -, ⟨bs', c, hb', f3, rfl⟩, -⟩ := C20_same_image hfmt ⟨rep, h, hv⟩
  cases boxes_unique hb hb'
  have hc : c.type = ascii "jp2c" ∧ c ∈ bs := by
    obtain ⟨a, z, rfl, ht, -⟩ := f3
    exact ⟨ht, by simp⟩
  have hpass : CodestreamPasses env o c.payload := C23_reported ⟨rep, h, hv⟩ (by
    rcases hfmt with hf | hf <;> rw [hf] <;> exact ⟨bs, c, hb, hc.2, hc.1, rfl⟩)
  obtain ⟨siz, csiz, main, sot, hm, hsoc, ⟨y, hy, hym⟩, -⟩ := C23_framing hpass
  obtain ⟨cod, hcod⟩ : ∃ cod, main.find? (fun x => x.marker == COD) = some cod := by
    cases hf : main.find? (fun x => x.marker == COD) with
    | some cod => exact ⟨cod, rfl⟩
    | none => exact absurd (by simpa using hym) (List.find?_eq_none.1 hf y hy)
  obtain ⟨m, m1, m2, m3⟩ := mix_stored hsane hfmt hmix h hv hb (firstBox_find f1) hhs (firstBox_find f2)
    (firstBox_find f3) hsoc hm hcod
  exact ⟨_, _, _, siz, csiz, main, sot, cod, m, ⟨bs, hd, _, hb, f1, hhs, f2, rfl⟩, ⟨bs, c, hb, f3, rfl⟩, hm, hcod,
    m1, m2, m3⟩

/-- The sample file has a valid report with MIX output of either version. -/
example (mix : Nat) : ∃ rep, Sane Sample.env0 ∧
    checkOneFile Sample.env0 Sample.me0 (Sample.fs0 Sample.jp2b) 200 (Sample.opts .jp2) mix [97] = .ok rep ∧
    verdict rep = some (.str "True") := by
  obtain ⟨rep, h, hv⟩ := C48_jp2_partial Sample.env0 Sample.me0 (Sample.fs0 Sample.jp2b) 200 (Sample.opts .jp2) mix
    [97] rfl (fun _ _ => ⟨⟨1, rfl⟩, ⟨1, rfl⟩⟩)
    (fun _ ⟨_, _, _, _, h⟩ => (by rcases h with ⟨_, h⟩ | ⟨_, h⟩ <;> cases h)) Sample.jp2b_valid
  exact ⟨rep, sane_env0, h, hv⟩

end Jpy
