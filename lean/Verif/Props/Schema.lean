import Verif.Lemmas.SchemaFile
import Verif.Lemmas.Sample
import Verif.Lemmas.Listing
import Verif.Props.CommandLine
/-!
# C57: reports follow the published schema

`Conforms true` is validity for the schema as published, `Conforms false` for the relaxed one of
`Spec/Schema.lean`.
-/

namespace Jpy
open Spec Xsd

/-- The four formats of the command line. -/
def Spec.IsFormat (f : Format) : Prop := f = .jp2 ∨ f = .jph ∨ f = .j2c ∨ f = .jhc

variable {env : Env} {me : MixEnv} {fs : FS} {fuel : Nat} {o : Options} {mix : Nat} {path : PyStr}

/-- C57, relaxed: every report, on a valid or invalid image or on a failed analysis, follows the schema up to
the five relaxations listed in `Spec/Schema.lean`. Missing: the schema as published, which is not
followed (`C57_false` and following). -/
theorem C57_relaxed_partial (hf : FloatText env) (hfmt : IsFormat o.format) {rep : Elem}
    (h : checkOneFile env me fs fuel o mix path = .ok rep) : Conforms false rep := by
  obtain ⟨info, a, m, hi, ha, -, rfl⟩ := checkOneFile_ok.1 h
  refine report_conforms hfmt (fileInfo_conforms hi) (fileInfo_tag hi) ?_
  rcases analyse_cases ha with ⟨b, fmm, n, -, hr, rfl⟩ | ⟨e, -, rfl⟩
  · exact root_matches hf hfmt hr (fun e => by cases e)
  · exact Matches.seq (xs := []) (ys := []) .nil (Matches.seq (xs := []) (ys := []) (.right .empty) .empty)

/-- C57, as published: the report on a file reported valid follows the schema as published if its boxes
(down to any depth) meet the restrictions of `PlainBox`, or for a codestream if it has less than 257
components. Missing: the images ruled out, for each of which there is a report that does not follow the
schema (`C57_false` and following). -/
theorem C57_valid_partial (hf : FloatText env) (hfmt : IsFormat o.format) {rep : Elem}
    (h : checkOneFile env me fs fuel o mix path = .ok rep) (hv : verdict rep = some (.str "True"))
    (hbox : o.format = .jp2 ∨ o.format = .jph →
      ∀ d t p, HasBox (bytesRead (fs.read path)) d t p → PlainBox t p)
    (hcs : o.format = .j2c ∨ o.format = .jhc → FewComponents (bytesRead (fs.read path))) :
    Conforms true rep := by
  obtain ⟨info, a, m, hi, ha, -, rfl⟩ := checkOneFile_ok.1 h
  refine report_conforms hfmt (fileInfo_conforms hi) (fileInfo_tag hi) ?_
  have hval : a.isValid = true := by
    have h3 := (report_parts (o := o) (a := a) (mix := mix) (m := m) (fileInfo_tag hi)).2.2.1
    unfold verdict at hv
    rw [h3] at hv
    cases ha : a.isValid with
    | true => rfl
    | false =>
      rw [ha] at hv
      exact absurd (PyVal.str.inj (Option.some.inj hv)) (by decide)
  rcases analyse_cases ha with ⟨b, fmm, n, hb, hr, rfl⟩ | ⟨e, -, rfl⟩
  · have e := fileToMemoryMap_ok hb
    refine root_matches hf hfmt hr fun _ => ⟨hval, fun hj => ?_, fun hj => ?_⟩
    · rw [e.1]; exact hbox hj
    · rw [e.1]; exact hcs hj
  · cases hval

/-- The report on an image that could not be read follows the schema as published. -/
theorem C57_failed (hfmt : IsFormat o.format) {rep : Elem}
    (h : checkOneFile env me fs fuel o mix path = .ok rep) (hs : status rep "success" = [.str "False"]) :
    Conforms true rep := by
  obtain ⟨info, a, m, hi, ha, -, rfl⟩ := checkOneFile_ok.1 h
  refine report_conforms hfmt (fileInfo_conforms hi) (fileInfo_tag hi) ?_
  rcases analyse_cases ha with ⟨b, fmm, n, hb, hr, rfl⟩ | ⟨e, -, rfl⟩
  · exfalso
    have h3 := (report_parts (o := o) (a := analysisOf env n fmm) (mix := mix) (m := m) (fileInfo_tag hi)).2.1
    unfold status at hs
    rw [h3] at hs
    revert hs
    simp only [analysisOf]
    decide
  · exact Matches.seq (xs := []) (ys := []) .nil (Matches.seq (xs := []) (ys := []) (.right .empty) .empty)

/-- What a run that ends normally writes is a `jpylyzer` element that follows the schema if every report
does; in any case it follows the relaxed schema. Missing: reports that do not follow the schema as
published. -/
theorem C57_document_partial (hf : FloatText env) {cfg : Config} (hfmt : IsFormat cfg.options.format) {tool : String}
    {recurse : Bool} {paths existing : List PyStr}
    (h : (checkFiles env me fs fuel tool cfg recurse paths existing).exit = .done) :
    ∃ reps, Document (checkFiles env me fs fuel tool cfg recurse paths existing).out (toolInfo tool) reps ∧
      Conforms false (.node "jpylyzer" (toolInfo tool :: reps)) ∧
      ((∀ r ∈ reps, Conforms true r) → Conforms true (.node "jpylyzer" (toolInfo tool :: reps))) := by
  obtain ⟨reps, hd, hrep, hin⟩ := C46_done h
  have htag := inTurn_file hin
  have hne : reps ≠ [] := by
    rintro rfl
    have := inTurn_nil hin
    unfold checkFiles at h
    simp only [this, List.isEmpty_nil, if_true] at h
    cases h
  have gen : ∀ s : Bool, (∀ r ∈ reps, Conforms s r) → Conforms s (.node "jpylyzer" (toolInfo tool :: reps)) := by
    intro s hall
    have hstar : ∀ l : List Elem, (∀ r ∈ l, r.tag = "file" ∧ Conforms s r) → Matches s (.star (el "file")) l := by
      intro l
      induction l with
      | nil => exact fun _ => .nil
      | cons r l ih =>
        intro hl
        have h1 := hl r (List.mem_cons_self ..)
        exact Matches.cons (xs := [r]) (matches_el h1.1 h1.2) (ih fun x hx => hl x (List.mem_cons_of_mem _ hx))
    refine .content (r := sequence [el "toolInfo", .seq (el "file") (.star (el "file"))])
      (by cases s <;> decide +kernel) ?_
    refine matches_cons rfl (.content (r := sequence [el "toolName", el "toolVersion"])
      (by cases s <;> decide +kernel) ?_) ?_
    · exact matches_cons rfl (conforms_str (by decide +kernel) _)
        (matches_cons rfl (conforms_str (by decide +kernel) _) .empty)
    · cases reps with
      | nil => exact absurd rfl hne
      | cons r l =>
        have h2 : ∀ x ∈ r :: l, x.tag = "file" ∧ Conforms s x := fun x hx => ⟨htag x hx, hall x hx⟩
        have h1 := h2 r (List.mem_cons_self ..)
        have : r :: l = (r :: l) ++ [] := by simp
        rw [this]
        exact .seq (Matches.seq (xs := [r]) (matches_el h1.1 h1.2)
          (hstar l fun x hx => h2 x (List.mem_cons_of_mem _ hx))) .empty
  refine ⟨reps, hd, gen false fun r hr => ?_, gen true⟩
  obtain ⟨p, -, hp⟩ := inTurn_mem' hin hr
  exact C57_relaxed_partial hf hfmt hp

/-! ## Reports that do not follow the schema as published -/

/-- No place for arbitrary elements. -/
def closed : Re → Bool
  | .empty => true
  | .oneOf _ => true
  | .any => false
  | .seq a b => closed a && closed b
  | .alt a b => closed a && closed b
  | .star a => closed a

/-- The names that can occur. -/
def schemaNames : Re → List String
  | .empty => []
  | .oneOf ns => ns
  | .any => []
  | .seq a b => schemaNames a ++ schemaNames b
  | .alt a b => schemaNames a ++ schemaNames b
  | .star a => schemaNames a

/-- Names that must occur. -/
def required : Re → List String
  | .oneOf [n] => [n]
  | .seq a b => required a ++ required b
  | _ => []

mutual
/-- A sign that an element is not valid: a text that does not start as a number or has a letter or point, an
element that is not allowed or missing. -/
def violates : Elem → Bool
  | .mk n _ x cs lt =>
    match (schema true).lookup n with
    | some (.text .integer) => match x with
      | .str t => t.toList.any fun c => !(c.isDigit || c == '+' || c == '-')
      | _ => true
    | some (.text .decimal) => match x with
      | .str t => t.toList.any fun c => !(c.isDigit || c == '+' || c == '-' || c == '.')
      | _ => true
    | some (.content r) => closed r && (violatesL (schemaNames r) cs || (required r).any fun n => !(cs.any fun e => e.tag == n))
    | _ => false
/-- The same for the contents of an element. -/
def violatesL (names : List String) : List Elem → Bool
  | [] => false
  | e :: es => !(names.contains e.tag) || violates e || violatesL names es
end

theorem closed_mem {s : Bool} : ∀ {r es}, Matches s r es → closed r = true →
    ∀ e ∈ es, e.tag ∈ schemaNames r ∧ Conforms s e
  | _, _, .empty, _, e, he => by cases he
  | _, _, .oneOf ht hc, _, e, he => by
    cases List.mem_singleton.1 he
    exact ⟨ht, hc⟩
  | _, _, .any, h, _, _ => by cases h
  | .seq a b, _, .seq h1 h2, h, e, he => by
    simp only [closed, Bool.and_eq_true] at h
    simp only [schemaNames, List.mem_append]
    rcases List.mem_append.1 he with he | he
    · exact (closed_mem h1 h.1 e he).imp .inl id
    · exact (closed_mem h2 h.2 e he).imp .inr id
  | .alt a b, _, .left h1, h, e, he => by
    simp only [closed, Bool.and_eq_true] at h
    simp only [schemaNames, List.mem_append]
    exact (closed_mem h1 h.1 e he).imp .inl id
  | .alt a b, _, .right h1, h, e, he => by
    simp only [closed, Bool.and_eq_true] at h
    simp only [schemaNames, List.mem_append]
    exact (closed_mem h1 h.2 e he).imp .inr id
  | _, _, .nil, _, e, he => by cases he
  | .star a, _, .cons h1 h2, h, e, he => by
    rcases List.mem_append.1 he with he | he
    · exact closed_mem h1 h e he
    · exact closed_mem h2 h e he

theorem required_mem {s : Bool} {r es} (h : Matches s r es) : ∀ n ∈ required r, ∃ e ∈ es, e.tag = n := by
  induction r generalizing es with
  | oneOf ns =>
    cases h with
    | @oneOf _ e ht hc =>
      intro n hn
      unfold required at hn
      split at hn
      · rename_i heq
        cases heq
        exact ⟨e, List.mem_singleton.2 rfl, (List.mem_singleton.1 ht).trans (List.mem_singleton.1 hn).symm⟩
      · rename_i heq; cases heq
      · cases hn
  | seq a b iha ihb =>
    cases h with
    | seq h1 h2 =>
      intro n hn
      rcases List.mem_append.1 hn with hn | hn
      · obtain ⟨e, he, ht⟩ := iha h1 n hn
        exact ⟨e, List.mem_append_left _ he, ht⟩
      · obtain ⟨e, he, ht⟩ := ihb h2 n hn
        exact ⟨e, List.mem_append_right _ he, ht⟩
  | _ => intro n hn; cases hn

theorem sign_mem {cs : List Char} (h : Sign cs) : ∀ c ∈ cs, c = '+' ∨ c = '-' := by
  rcases h with rfl | rfl | rfl <;> simp

mutual
theorem violates_sound : ∀ e : Elem, violates e = true → ¬ Conforms true e
  | .mk n at_ x cs lt, h, hc => by
    unfold violates at h
    cases hc with
    | text hl hx =>
      rw [hl] at h
      rename_i s
      cases s with
      | integer =>
        cases x with
        | str t =>
          obtain ⟨sg, ds, ht, h1, h2⟩ := hx
          simp only [List.any_eq_true, ht] at h
          obtain ⟨c, hc, hb⟩ := h
          rcases List.mem_append.1 hc with hc | hc
          · rcases sign_mem h1 c hc with rfl | rfl <;> exact absurd hb (by decide)
          · rw [h2.2 c hc] at hb; cases hb
        | _ => cases hx
      | decimal =>
        cases x with
        | str t =>
          obtain ⟨sg, ds, fr, ht, h1, h2, h3⟩ := hx
          simp only [List.any_eq_true, ht] at h
          obtain ⟨c, hc, hb⟩ := h
          rcases List.mem_append.1 hc with hc | hc
          · rcases List.mem_append.1 hc with hc | hc
            · rcases sign_mem h1 c hc with rfl | rfl <;> exact absurd hb (by decide)
            · rw [h2.2 c hc] at hb; cases hb
          · rcases h3 with rfl | ⟨f, rfl, h4⟩
            · cases hc
            · rcases List.mem_cons.1 hc with rfl | hc
              · exact absurd hb (by decide)
              · rw [h4.2 c hc] at hb; cases hb
        | _ => cases hx
      | _ => cases h
    | textWith hl hx hv => rw [hl] at h; cases h
    | content hl hm =>
      rw [hl] at h
      simp only [Bool.and_eq_true, Bool.or_eq_true] at h
      obtain ⟨h1, h2 | h2⟩ := h
      · exact violatesL_sound _ cs h2 (closed_mem hm h1)
      · obtain ⟨n, hn, h3⟩ := List.any_eq_true.1 h2
        obtain ⟨e, he, ht⟩ := required_mem hm n hn
        have h4 : (cs.any fun e => e.tag == n) = true := List.any_eq_true.2 ⟨e, he, beq_iff_eq.2 ht⟩
        rw [h4] at h3
        cases h3
theorem violatesL_sound (names : List String) : ∀ es : List Elem, violatesL names es = true →
    ¬ ∀ e ∈ es, e.tag ∈ names ∧ Conforms true e
  | [], h, _ => by cases h
  | e :: es, h, hall => by
    unfold violatesL at h
    simp only [Bool.or_eq_true] at h
    have h1 := hall e (List.mem_cons_self ..)
    rcases h with (h | h) | h
    · rw [List.contains_iff_mem.2 h1.1] at h
      cases h
    · exact violates_sound e h h1.2
    · exact violatesL_sound names es h fun x hx => hall x (List.mem_cons_of_mem _ hx)
end

/-- The first element on a path of names through elements without place for arbitrary elements. -/
def descend : List String → Elem → Option Elem
  | [], e => some e
  | t :: ts, .mk n _ _ cs lt =>
    match (schema true).lookup n, cs.find? fun c => c.tag == t with
    | some (.content r), some c => if closed r = true then descend ts c else none
    | _, _ => none

theorem descend_conforms : ∀ {ts : List String} {e d : Elem}, descend ts e = some d → Conforms true e → Conforms true d
  | [], e, d, h, hc => by cases h; exact hc
  | t :: ts, .mk n at_ x cs lt, d, h, hc => by
    unfold descend at h
    split at h
    · rename_i r c hl hfind
      split at h
      · rename_i hr
        refine descend_conforms h ?_
        cases hc with
        | text hl' _ => rw [hl] at hl'; cases hl'
        | textWith hl' _ _ => rw [hl] at hl'; cases hl'
        | content hl' hm =>
          rw [hl] at hl'
          cases hl'
          exact (closed_mem hm hr c (List.mem_of_find?_eq_some hfind)).2
      · cases h
    · cases h

namespace Sample

/-- The image of `Sample.jp2` with further boxes in the header and at the end. -/
def jp2With (inHeader atEnd : Bytes) : Bytes :=
  sig ++ ftyp "jp2 " ++ box "jp2h" (ihdr 1 1 1 7 ++ colr 17 ++ inHeader) ++ box "jp2c" cs1 ++ atEnd

/-- JPH file with a parameterised colour space. -/
def jphParam : Bytes := sig ++ ftyp "jph " ++
  box "jp2h" (ihdr 1 1 1 7 ++ box "colr" ([5, 0, 0] ++ be16 1 ++ be16 1 ++ be16 1 ++ [0])) ++ box "jp2c" cs15

/-- Codestream that breaks off within the COD segment. -/
def csCod : Bytes := [0xff, 0x4f] ++ siz1 ++ [0xff, 0x52] ++ be16 12 ++ [0, 0, 0, 1, 0, 0]

/-- Environment in which large numbers are printed in scientific notation. -/
def envSci : Env := { env0 with floatStr := fun f => if f.num.natAbs < 10 ^ 16 * f.den.natAbs then "1.0" else "1e+16" }

theorem one_decimal : IsDecimal "1.0" :=
  ⟨[], ['1'], ['.', '0'], rfl, .inl rfl, ⟨by decide, by decide⟩, .inr ⟨['0'], rfl, by decide, by decide⟩⟩

theorem one_double : IsDouble "1.0" := .inr ⟨"1.0".toList, [], by decide, one_decimal, .inl rfl⟩

theorem sci_double : IsDouble "1e+16" :=
  .inr ⟨['1'], ['e', '+', '1', '6'], rfl,
    ⟨[], ['1'], [], rfl, .inl rfl, ⟨by decide, by decide⟩, .inl rfl⟩,
    .inr ⟨'e', ['+'], ['1', '6'], rfl, by decide, .inr (.inl rfl), by decide, by decide⟩⟩

theorem env0_float : FloatText env0 := ⟨fun _ => one_double, fun _ _ => one_decimal⟩

theorem envSci_float : FloatText envSci := by
  constructor
  · intro f
    show IsDouble (if _ then _ else _)
    split
    · exact one_double
    · exact sci_double
  · intro f h
    show IsDecimal (if _ then _ else _)
    rw [if_pos (by omega)]
    exact one_decimal

/-- The report of a file in an environment. -/
def reportIn (env : Env) (f : Format) (b : Bytes) : Outcome Elem :=
  checkOneFile env me0 (fs0 b) 400 (opts f) 0 [97]

/-- The report has this verdict and an element that is not valid. -/
def wrong (v : String) (ts : List String) (x : Outcome Elem) : Bool :=
  match x with
  | .ok rep => verdict rep == some (.str v) && (match descend ts rep with | some e => violates e | none => false)
  | _ => false

theorem wrong_ok {v : String} {ts : List String} {x : Outcome Elem} (h : wrong v ts x = true) :
    ∃ rep, x = .ok rep ∧ verdict rep = some (.str v) ∧ ¬ Conforms true rep := by
  unfold wrong at h
  split at h
  · rename_i rep
    rw [Bool.and_eq_true, beq_iff_eq] at h
    refine ⟨rep, rfl, h.1, fun hc => ?_⟩
    have h2 := h.2
    split at h2
    · rename_i e he
      exact violates_sound _ h2 (descend_conforms he hc)
    · cases h2
  · cases h

end Sample

/-- A file whose report has the verdict `v` and does not follow the published schema. -/
def Spec.WrongReport (v : String) (f : Format) (b : Bytes) : Prop :=
  ∃ env me fuel o path rep, FloatText env ∧ o.format = f ∧
    checkOneFile env me (Sample.fs0 b) fuel o 0 path = .ok rep ∧ verdict rep = some (.str v) ∧ ¬ Conforms true rep

theorem wrongReport {env v f b} (hf : FloatText env) (ts : List String)
    (h : Sample.wrong v ts (Sample.reportIn env f b) = true) :
    WrongReport v f b := by
  obtain ⟨rep, hr, hv, hn⟩ := Sample.wrong_ok h
  exact ⟨env, Sample.me0, 400, Sample.opts f, [97], rep, hf, rfl, hr, hv, hn⟩

open Sample in
/-- C57 does not hold: a valid JPH file with a parameterised colour space; the schema wants a number where
the report says `yes` or `no` (`boxvalidator.py`, `vidFRng`). -/
theorem C57_false : WrongReport "True" .jph jphParam := wrongReport env0_float ["properties", "jp2HeaderBox", "colourSpecificationBox"] (by decide +kernel)

open Sample in
/-- Valid JP2 files with empty lists, for which the schema wants at least one entry: a UUID list, a
component mapping, bits per component. -/
theorem C57_false_lists :
    WrongReport "True" .jp2
      (jp2With [] (box "uinf" (box "ulst" (be16 0) ++ box "url " ([0, 0, 0, 0] ++ ascii "http:" ++ [0])))) ∧
    WrongReport "True" .jp2 (jp2With (box "pclr" (be16 1 ++ [1, 7, 0]) ++ box "cmap" []) []) ∧
    WrongReport "True" .jp2 (jp2With [] (box "bpcc" [])) :=
  ⟨wrongReport env0_float ["properties", "uuidInfoBox"] (by decide +kernel), wrongReport env0_float ["properties", "jp2HeaderBox", "componentMappingBox"] (by decide +kernel),
    wrongReport env0_float ["properties", "bitsPerComponentBox"] (by decide +kernel)⟩

open Sample in
/-- A valid JP2 file that ends within a box header whose two bytes of type are the code of the PLT
marker. -/
theorem C57_false_type : WrongReport "True" .jp2 (jp2With [] [0, 0, 0, 0, 0xff, 0x58]) :=
  wrongReport env0_float ["properties"] (by decide +kernel)

open Sample in
/-- A valid JP2 file with a resolution of `300 * 10^20`. -/
theorem C57_false_resolution : WrongReport "True" .jp2
    (jp2With (box "res " (box "resc" (be16 300 ++ be16 1 ++ be16 300 ++ be16 1 ++ [20, 20]))) []) :=
  wrongReport envSci_float ["properties", "jp2HeaderBox", "resolutionBox"] (by decide +kernel)

open Sample in
/-- An invalid codestream: the code block sizes of a truncated COD segment are printed as a float. -/
theorem C57_false_invalid : WrongReport "False" .j2c csCod := wrongReport env0_float ["properties", "cod"] (by decide +kernel)

/-! ## Concrete cases -/

/-- Sufficient for `PlainBox`. -/
def plainB (t p : Bytes) : Bool :=
  decide (t ≠ [0xff, 0x58] ∧ t ≠ [0xff, 0x61]) &&
  decide (t = [0x62, 0x70, 0x63, 0x63] → p ≠ []) &&
  decide (t = [0x63, 0x6d, 0x61, 0x70] → 4 ≤ p.length) &&
  decide (t = [0x75, 0x6c, 0x73, 0x74] → uint p 0 2 ≠ some 0) &&
  decide (t = [0x63, 0x6f, 0x6c, 0x72] → uint p 0 1 ≠ some 5) &&
  decide (t = [0x72, 0x65, 0x73, 0x63] ∨ t = [0x72, 0x65, 0x73, 0x64] →
    (match uint p 0 2, uint p 2 2, uint p 4 2, uint p 6 2, uint p 8 1, uint p 9 1 with
    | some vn, some vd, some hn, some hd, some ve, some he =>
      decide (vn * 10 ^ (signedByte ve).toNat < 10 ^ 15 * (vd * 10 ^ (-(signedByte ve)).toNat) ∧
        hn * 10 ^ (signedByte he).toNat < 10 ^ 15 * (hd * 10 ^ (-(signedByte he)).toNat))
    | _, _, _, _, _, _ => false) = true) &&
  decide (t = [0x6a, 0x70, 0x32, 0x63] → (match uint p 40 2 with | some n => decide (n < 257) | none => true) = true)

theorem plainB_sound {t p : Bytes} (h : plainB t p = true) : PlainBox t p := by
  unfold plainB at h
  simp only [Bool.and_eq_true] at h
  obtain ⟨⟨⟨⟨⟨⟨h1, h2⟩, h3⟩, h4⟩, h5⟩, h6⟩, h7⟩ := h
  refine ⟨of_decide_eq_true h1, of_decide_eq_true h2, of_decide_eq_true h3, of_decide_eq_true h4, of_decide_eq_true h5,
    ?_, ?_⟩
  · intro ht vn vd hn hd ve he e1 e2 e3 e4 e5 e6
    have := of_decide_eq_true h6 ht
    rw [e1, e2, e3, e4, e5, e6] at this
    replace this := of_decide_eq_true this
    exact this
  · intro ht n e
    have := of_decide_eq_true h7 ht
    rw [e] at this
    exact of_decide_eq_true this

theorem jp2b_plain : ∀ d t p, HasBox Sample.jp2b d t p → PlainBox t p := by
  intro d t p h
  have h1 : closedUnder Sample.jp2b (deepBoxes 4 Sample.jp2b) = true := by decide +kernel
  have h2 : ((deepBoxes 4 Sample.jp2b).all fun x => plainB x.1 x.2) = true := by decide +kernel
  exact plainB_sound (List.all_eq_true.1 h2 (t, p) (closedUnder_mem h1 h))

/-- C57: the report on a JP2 file with varying depths, a resolution box, UUID info, an unknown box and a UUID box
follows the schema as published. -/
example : ∃ rep, Sample.reportOf (Sample.opts .jp2) 0 Sample.jp2b = .ok rep ∧ Conforms true rep := by
  obtain ⟨rep, h, hv⟩ := Sample.jp2b_valid
  exact ⟨rep, h, C57_valid_partial Sample.env0_float (.inl rfl) h hv (fun _ => jp2b_plain)
    (fun e => by rcases e with e | e <;> cases e)⟩

/-- C57: so does the report on a codestream with three components. -/
example : ∃ rep, Sample.reportOf (Sample.opts .j2c) 0 Sample.cs2 = .ok rep ∧ Conforms true rep := by
  obtain ⟨rep, h, hv, -⟩ := Sample.saysValid_ok Sample.cs2_report
  refine ⟨rep, h, C57_valid_partial Sample.env0_float (.inr (.inr (.inl rfl))) h hv
    (fun e => by rcases e with e | e <;> cases e) fun _ n hn => ?_⟩
  have e : uint Sample.cs2 40 2 = some 3 := by decide +kernel
  cases hn.symm.trans e
  decide

/-- C57: the report on a codestream that breaks off within the COD segment follows the relaxed
schema, though not the schema as published (`C57_false_invalid`). -/
example : ∃ rep, Sample.reportOf (Sample.opts .j2c) 0 Sample.csCod = .ok rep ∧ Conforms false rep := by
  have h : Sample.says "False" "True" (Sample.reportOf (Sample.opts .j2c) 0 Sample.csCod) = true := by decide +kernel
  obtain ⟨rep, h, -, -⟩ := Sample.says_ok h
  exact ⟨rep, h, C57_relaxed_partial Sample.env0_float (.inr (.inr (.inl rfl))) h⟩

end Jpy
