import Verif.Lemmas.DigitsWalk
import Verif.Props.Unknown
import Verif.Props.Runs
/-! # C68: Python's limit on the digits of printed integers -/

namespace Jpy
open Spec

set_option exponentiation.threshold 5000

/-! ## Printing -/

theorem remap_int {tag : String} {i j : Int} (h : remapped remapTable tag (.int i) = .int j) : i = j := by
  unfold remapped at h
  split at h
  · split at h
    · cases h
    · cases h; rfl
  · cases h; rfl

theorem remap_small : ∀ e ∈ remapTable, ∀ x ∈ e.2, ∀ i, x.1 = .int i → i.natAbs < 2 ^ 16 := by
  have : ∀ e ∈ remapTable, ∀ x ∈ e.2, (match x.1 with | .int i => decide (i.natAbs < 2 ^ 16) | _ => true) = true := by
    decide +kernel
  intro e he x hx i hi
  have := this e he x hx
  rw [hi] at this
  exact of_decide_eq_true this

theorem lookup_mem_digits {α β : Type} [BEq α] [LawfulBEq α] {l : List (α × β)} {a b} (h : l.lookup a = some b) : (a, b) ∈ l := by
  induction l with
  | nil => cases h
  | cons x l ih =>
    obtain ⟨x1, x2⟩ := x
    rw [List.lookup_cons] at h
    split at h
    · rename_i hx
      cases h
      rw [eq_of_beq hx]
      exact List.mem_cons_self ..
    · exact List.mem_cons_of_mem _ (ih h)

theorem remap_big {d : Nat} (hd : 640 ≤ d) {tag : String} {i : Int} (h : 10 ^ d ≤ i.natAbs) :
    remapped remapTable tag (.int i) = .int i := by
  unfold remapped
  split
  · rename_i m hm
    split
    · rename_i s hs
      exfalso
      have := remap_small _ (lookup_mem_digits hm) _ (lookup_mem_digits hs) i rfl
      exact small_notBig hd (small_of (Nat.lt_of_lt_of_le this (by decide))) (bigV_int.2 h)
    · rfl
  · rfl

theorem tooLong_iff {d : Nat} (hd : 640 ≤ d) {tbl} (ht : tbl = [] ∨ tbl = remapTable) {e : Elem} :
    tooLong d tbl e = true ↔ BigV d e.text := by
  unfold tooLong
  rcases ht with rfl | rfl
  · show (match e.text with | .int i => decide (d ≠ 0 ∧ 10 ^ d ≤ i.natAbs) | _ => false) = true ↔ _
    split
    · rename_i i hi
      rw [hi, bigV_int, decide_eq_true_eq]
      exact ⟨(·.2), fun h => ⟨by omega, h⟩⟩
    · rename_i hn
      refine ⟨fun h => (nomatch h), fun ⟨i, hi, _⟩ => absurd hi (hn i)⟩
  · split
    · rename_i i hi
      rw [decide_eq_true_eq]
      constructor
      · rintro ⟨-, h⟩
        cases hv : e.text with
        | int j =>
          rw [hv] at hi
          cases remap_int hi
          exact bigV_int.2 h
        | _ =>
          exfalso
          rw [hv] at hi
          unfold remapped at hi
          split at hi
          · split at hi <;> cases hi
          · cases hi
      · rintro ⟨j, hj, h⟩
        rw [hj, remap_big hd h] at hi
        cases hi
        exact ⟨by omega, h⟩
    · rename_i hn
      refine ⟨fun h => (nomatch h), fun ⟨i, hi, h⟩ => ?_⟩
      rw [hi] at hn
      exact absurd (remap_big hd h) (hn i)

theorem readableD_eq {env : Env} {d : Nat} (hd : 640 ≤ d) {tbl} (ht : tbl = [] ∨ tbl = remapTable) {es : List Elem} :
    (¬ BigL d es → makeHumanReadableD env d tbl es = .ok (makeHumanReadableL env tbl es)) ∧
    (BigL d es → makeHumanReadableD env d tbl es = .raised .valueError) := by
  have key : (Elem.iterL es).any (tooLong d tbl) = true ↔ BigL d es := by
    rw [List.any_eq_true]
    exact ⟨fun ⟨x, hx, h⟩ => ⟨x, hx, (tooLong_iff hd ht).1 h⟩, fun ⟨x, hx, h⟩ => ⟨x, hx, (tooLong_iff hd ht).2 h⟩⟩
  unfold makeHumanReadableD
  constructor
  · intro h
    rw [if_neg fun h' => h (key.1 h')]
  · intro h
    rw [if_pos (key.2 h)]

/-! ## Reports -/

section
variable {env : Env} {me : MixEnv} {fs : FS} {fuel : Nat} {o : Options} {mix : Nat} {path : PyStr} {limit : Nat}

theorem checkOneFileD_eq : checkOneFileD env me limit fs fuel o mix path = (do
      let info ← fileInfo fs path
      let a ← analyseD env limit fs o fuel path
      let m ← mixOutput me mix a
      .ok (buildReport o info a (extensionOf o mix a m))) := by
  unfold checkOneFileD
  congr 1; funext info
  congr 1; funext a
  unfold mixOutput
  by_cases h : mix ≠ 0 ∧ a.isValid = true
  · rw [if_pos h, if_pos h]
    cases generateMix me mix a.props <;> rfl
  · rw [if_neg h, if_neg h]
    rfl

theorem memoryMap_bytes {b : Bytes} {fmm} (h : fileToMemoryMap fs path = .ok (b, fmm)) : b = bytesRead (fs.read path) := by
  unfold fileToMemoryMap at h
  unfold bytesRead
  split at h <;> rename_i hr <;> cases h <;> rw [hr]

theorem warnings_mute {d : Nat} {n : Node} (h : Mute d n) (fmm : List String) :
    ¬ BigL d (n.warnings ++ fmm.map fun w => Elem.leaf "warning" (.str w)) := by
  rw [bigL_append]
  rintro (h' | h')
  · exact h.warnings h'
  · obtain ⟨e, he, x, hx, h'⟩ := bigL_iff.1 h'
    obtain ⟨w, -, rfl⟩ := List.mem_map.1 he
    exact bigV_str (bigL_leaf.1 (bigL_iff.2 ⟨_, List.mem_singleton.2 rfl, x, hx, h'⟩))

theorem analyseTryD_eq (hx : XmlTexts env) (hd : 640 ≤ limit) (hl : (bytesRead (fs.read path)).length < 10 ^ 639) :
    ((∃ p, FollowedIn o.format (bytesRead (fs.read path)) p ∧ LongNumber limit p) →
      ∀ a, analyseTryD env limit fs o fuel path ≠ .ok a) ∧
    ((¬ ∃ p, FollowedIn o.format (bytesRead (fs.read path)) p ∧ LongNumber limit p) →
      analyseTryD env limit fs o fuel path = analyseTry env fs o fuel path) := by
  unfold analyseTryD analyseTry
  cases hm : fileToMemoryMap fs path with
  | timeout => exact ⟨fun _ _ h => (nomatch h), fun _ => rfl⟩
  | raised e => exact ⟨fun _ _ h => (nomatch h), fun _ => rfl⟩
  | ok x =>
    obtain ⟨b, fmm⟩ := x
    have hb := memoryMap_bytes hm
    subst hb
    simp only [Outcome.bind_ok]
    cases hv : validateRoot env o fuel (bytesRead (fs.read path)) with
    | timeout => exact ⟨fun _ _ h => (nomatch h), fun _ => rfl⟩
    | raised e => exact ⟨fun _ _ h => (nomatch h), fun _ => rfl⟩
    | ok n =>
      have hmu := validateRoot_mute limit hv
      have hbig := validateRoot_big hx hd hl hv
      simp only [Outcome.bind_ok]
      rw [(readableD_eq hd (.inl rfl)).1 hmu.tests, (readableD_eq hd (.inl rfl)).1 (warnings_mute hmu fmm)]
      simp only [Outcome.bind_ok]
      constructor
      · intro h a ha
        rw [(readableD_eq hd (.inr rfl)).2 (hbig.2 h)] at ha
        cases ha
      · intro h
        rw [(readableD_eq hd (.inr rfl)).1 fun h' => h (hbig.1 h')]
        rfl

/-- C68: unless a codestream that is followed has a PRF or CPF segment with a number that is too long, what
is reported about a file does not depend on Python's limit on the digits of integers (which cannot be below
640). Missing from the full property: files with such a segment, see `C68_fails`. -/
theorem C68_same_partial (hx : XmlTexts env) (hd : 640 ≤ limit) (hl : (bytesRead (fs.read path)).length < 10 ^ 639)
    (h : ∀ p, FollowedIn o.format (bytesRead (fs.read path)) p → ¬ LongNumber limit p) :
    checkOneFileD env me limit fs fuel o mix path = checkOneFile env me fs fuel o mix path := by
  rw [checkOneFileD_eq, checkOneFile_eq]
  have e : analyseD env limit fs o fuel path = analyse env fs o fuel path := by
    unfold analyseD analyse
    rw [(analyseTryD_eq hx hd hl).2 fun ⟨p, h1, h2⟩ => h p h1 h2]
    rfl
  rw [e]

/-- C68: without a limit, the report is the one described by all other properties. -/
theorem C68_unlimited : checkOneFileD env me 0 fs fuel o mix path = checkOneFile env me fs fuel o mix path := by
  have key : ∀ tbl es, makeHumanReadableD env 0 tbl es = .ok (makeHumanReadableL env tbl es) := by
    intro tbl es
    unfold makeHumanReadableD
    rw [if_neg]
    rw [List.any_eq_true]
    rintro ⟨x, -, h⟩
    unfold tooLong at h
    split at h
    · simp at h
    · cases h
  rw [checkOneFileD_eq, checkOneFile_eq]
  have e : analyseD env 0 fs o fuel path = analyse env fs o fuel path := by
    unfold analyseD analyse analyseTryD analyseTry
    simp only [key, Outcome.bind_ok]
    rfl
  rw [e]

/-- C68: if a codestream that is followed has a PRF or CPF segment whose number is too long, the analysis
is reported as failed, with no tests and no properties. -/
theorem C68_fails (hx : XmlTexts env) (hd : 640 ≤ limit) (hl : (bytesRead (fs.read path)).length < 10 ^ 639)
    (h : ∃ p, FollowedIn o.format (bytesRead (fs.read path)) p ∧ LongNumber limit p) {rep : Elem}
    (hrep : checkOneFile env me fs fuel o mix path = .ok rep) :
    ∃ rep' msg, checkOneFileD env me limit fs fuel o mix path = .ok rep' ∧
      status rep' "success" = [.str "False"] ∧ verdict rep' = some (.str "False") ∧
      contents rep' "tests" = [] ∧ contents rep' "properties" = [] ∧
      status rep' "failureMessage" = [.str msg] ∧
      contents rep' "warnings" = [Elem.leaf "warning" (.str msg)] := by
  obtain ⟨info, a, m, hinfo, ha, -, -⟩ := checkOneFile_ok.1 hrep
  have hno := (analyseTryD_eq (fuel := fuel) hx hd hl).1 h
  have hra : ∃ e, analyseTryD env limit fs o fuel path = .raised e := by
    cases hv : analyseTryD env limit fs o fuel path with
    | ok a => exact absurd hv (hno a)
    | raised e => exact ⟨e, rfl⟩
    | timeout =>
      exfalso
      unfold analyseTryD at hv
      rcases analyse_cases ha with ⟨b, fmm, n, h1, h2, -⟩ | ⟨e, h1, -⟩
      · rw [h1] at hv
        simp only [Outcome.bind_ok, h2] at hv
        unfold makeHumanReadableD at hv
        split at hv
        · cases hv
        · simp only [Outcome.bind_ok] at hv
          split at hv
          · cases hv
          · simp only [Outcome.bind_ok] at hv
            split at hv <;> cases hv
      · unfold analyseTry at h1
        cases hf : fileToMemoryMap fs path with
        | timeout => rw [hf] at h1; cases h1
        | raised e => rw [hf] at hv; cases hv
        | ok x =>
          rw [hf] at h1 hv
          obtain ⟨b, fmm⟩ := x
          simp only [Outcome.bind_ok] at h1 hv
          cases hr : validateRoot env o fuel b with
          | ok n => rw [hr] at h1; cases h1
          | timeout => rw [hr] at h1; cases h1
          | raised e => rw [hr] at hv; cases hv
  obtain ⟨e, he⟩ := hra
  have ha : analyseD env limit fs o fuel path = .ok (analysisFailed e) := by
    unfold analyseD; rw [he]; rfl
  have hm : mixOutput me mix (analysisFailed e) = .ok [] := by
    unfold mixOutput; rw [if_neg]; simp [analysisFailed]
  refine ⟨buildReport o info (analysisFailed e) (extensionOf o mix (analysisFailed e) []), failureMessage e, ?_, ?_⟩
  · rw [checkOneFileD_eq, hinfo, Outcome.bind_ok, ha, Outcome.bind_ok, hm, Outcome.bind_ok]
  · have hi := fileInfo_tag hinfo
    obtain ⟨-, p2, p3, p4, p5, p6, -⟩ := report_parts (o := o) (a := analysisFailed e) (mix := mix) (m := []) hi
    unfold status verdict contents
    rw [p2, p3, p4, p5, p6]
    simp [analysisFailed, boolStr, Elem.node, Elem.leaf]
end

/-! ## Which segments are too long -/

theorem geometric : ∀ n, 65535 * ((List.range n).map fun i => 65536 ^ i).sum + 1 = 65536 ^ n
  | 0 => rfl
  | n + 1 => by
    rw [List.range_succ, List.map_append, List.sum_append, List.map_cons, List.map_nil, List.sum_cons, List.sum_nil,
      Nat.mul_add, Nat.add_right_comm, geometric n, Nat.pow_succ]
    omega

theorem firstEntry_le (c : Bytes) : (firstEntry c).natAbs ≤ 65535 := by
  unfold firstEntry
  cases h : uint c 2 2 with
  | none => decide
  | some p =>
    have := uint_lt h
    simp only [Int.natAbs_natCast]
    omega

theorem profileNumber_le {start : Int} (hs : start.natAbs ≤ 4095) {c : Bytes} {n : Nat}
    (hn : ((uint c 0 2).getD 0 - 2) / 2 ≤ n) : (profileNumber start c).natAbs < 65536 ^ n + 4095 := by
  unfold profileNumber
  generalize ((uint c 0 2).getD 0 - 2) / 2 = k at hn
  have hg := geometric k
  generalize ((List.range k).map fun i => 65536 ^ i).sum = S at hg
  have h1 := firstEntry_le c
  have h2 : (firstEntry c * (S : Int)).natAbs ≤ 65535 * S := by
    rw [Int.natAbs_mul, Int.natAbs_natCast]
    exact Nat.mul_le_mul_right _ h1
  have h3 : 65536 ^ k ≤ 65536 ^ n := Nat.pow_le_pow_right (by decide) hn
  have h4 := Int.natAbs_add_le start (firstEntry c * (S : Int))
  omega

/-- C68: with Python's default limit of 4300 digits, no number is too long if the length fields of the PRF and
CPF segments are at most 1787. -/
theorem C68_short {b : Bytes} (h : ∀ first main e, MainStart b first → SegsTo b SOT first main e →
    ∀ x ∈ main, x.marker = PRF ∨ x.marker = CPF → FieldIs x.contents 0 2 (· ≤ 1787)) : ¬ LongNumber 4300 b := by
  rintro ⟨first, main, e, h1, h2, x, hx, hb⟩
  have key : FieldIs x.contents 0 2 (· ≤ 1787) → ∀ start : Int, start.natAbs ≤ 4095 →
      ¬ 10 ^ 4300 ≤ (profileNumber start x.contents).natAbs := by
    rintro ⟨l, hl, hle⟩ start hs hb
    have := profileNumber_le hs (c := x.contents) (n := 892) (by rw [hl]; simp only [Option.getD_some]; omega)
    have : 65536 ^ 892 + 4095 ≤ 10 ^ 4300 := by decide +kernel
    omega
  rcases hb with ⟨hm, hb⟩ | ⟨hm, hb⟩
  · exact key (h _ _ _ h1 h2 x hx (.inl hm)) _ (by decide) hb
  · exact key (h _ _ _ h1 h2 x hx (.inr hm)) _ (by decide) hb

theorem longNumber_prf {d : Nat} {b m c siz p : Bytes} {k first n : Nat} (h0 : SegAt b 0 m c (some k))
    (h1 : SegAt b k SIZ siz (some first)) (h2 : SegAt b first PRF p (some n))
    (h : 10 ^ d ≤ (profileNumber 4095 p).natAbs) : LongNumber d b := by
  obtain ⟨ss, e, hs⟩ := segsTo_exists b SOT _ n (Nat.le_refl _)
  exact ⟨first, _, _, ⟨m, c, k, siz, h0, h1⟩, .step h2 (by decide) hs, _, List.mem_cons_self .., .inl ⟨rfl, h⟩⟩

namespace Sample

/-- Contents of a PRF segment of 2002 bytes. -/
def prfLong : Bytes := be16 2002 ++ be16 1 ++ List.replicate 1998 0

/-- The codestream `cs1` with that segment. -/
def csLong : Bytes := [0xff, 0x4f] ++ siz1 ++ ([0xff, 0x56] ++ prfLong) ++ codSeg ++ qcdSeg ++ tilePart 0 0 1 [] ++ [0xff, 0xd9]

end Sample

theorem csLong_long : LongNumber 4300 Sample.csLong := by
  have e0 : sub Sample.csLong 0 2 = SOC := by decide +kernel
  have e1 : sub Sample.csLong 2 2 = SIZ := by decide +kernel
  have e2 : sub Sample.csLong 45 2 = PRF := by decide +kernel
  have h0 : SegAt Sample.csLong 0 SOC [] (some 2) := e0 ▸ .alone (by rw [e0]; decide)
  have h1 : SegAt Sample.csLong 2 SIZ (sub Sample.csLong 4 41) (some 45) :=
    e1 ▸ .seg (L := 41) (by rw [e1]; decide) (by decide +kernel)
  have h2 : SegAt Sample.csLong 45 PRF (sub Sample.csLong 47 2002) (some 2049) :=
    e2 ▸ .seg (L := 2002) (by rw [e2]; decide) (by decide +kernel)
  exact longNumber_prf h0 h1 h2 (by decide +kernel)

theorem env0_texts : XmlTexts Sample.env0 := fun _ _ h => nomatch h

theorem csLong_valid : FileValid Sample.env0 (Sample.opts .j2c) Sample.csLong := fileValid_of 100 (by decide +kernel)

/-- C68, negation: there is a codestream that is reported valid without the limit and reported as a failed
analysis with Python's default limit. -/
theorem C68_false (me : MixEnv) :
    ∃ (env : Env) (o : Options) (b : Bytes) (fuel : Nat), XmlTexts env ∧
      ∀ (fs : FS) (path : PyStr) (size : Int) (modified : String),
      fs.read path = .data b → fs.getsize path = .ok size → fs.modified path = .ok modified →
      ∃ rep rep', checkOneFile env me fs fuel o 0 path = .ok rep ∧
        checkOneFileD env me 4300 fs fuel o 0 path = .ok rep' ∧
        verdict rep = some (.str "True") ∧ status rep "success" = [.str "True"] ∧
        verdict rep' = some (.str "False") ∧ status rep' "success" = [.str "False"] := by
  obtain ⟨fuel, nd, hn, hnf⟩ := csLong_valid
  refine ⟨Sample.env0, Sample.opts .j2c, Sample.csLong, fuel, env0_texts, fun fs path size modified hr hs hm => ?_⟩
  have hb : bytesRead (fs.read path) = Sample.csLong := by rw [hr]; rfl
  obtain ⟨info, hinfo⟩ : ∃ info, fileInfo fs path = .ok info := by
    unfold fileInfo; rw [hs, Outcome.bind_ok, hm, Outcome.bind_ok]; exact ⟨_, rfl⟩
  have hmap : fileToMemoryMap fs path = .ok (Sample.csLong, []) := by
    unfold fileToMemoryMap
    rw [hr]
    rfl
  have ha : analyse Sample.env0 fs (Sample.opts .j2c) fuel path = .ok (analysisOf Sample.env0 nd []) := by
    unfold analyse analyseTry
    rw [hmap]
    simp only [Outcome.bind_ok, hn]
    rfl
  have hrep := checkOneFile_ok.2 ⟨info, _, [], hinfo, ha, (rfl : mixOutput me 0 (analysisOf Sample.env0 nd []) = .ok []), rfl⟩
  obtain ⟨rep', msg, h1, h2, h3, -⟩ := C68_fails (o := Sample.opts .j2c) (path := path) (fs := fs) (limit := 4300) env0_texts (by decide)
    (by rw [hb]; exact Nat.lt_of_lt_of_le (by decide +kernel : Sample.csLong.length < 10 ^ 4) (Nat.pow_le_pow_right (by decide) (by decide)))
    ⟨Sample.csLong, hb.symm, csLong_long⟩ hrep
  refine ⟨_, rep', hrep, h1, ?_, ?_, h3, h2⟩
  all_goals
    obtain ⟨-, p2, p3, -⟩ := report_parts (o := Sample.opts .j2c) (a := analysisOf Sample.env0 nd []) (mix := 0) (m := [])
      (fileInfo_tag hinfo)
  · unfold verdict
    rw [p3, show (analysisOf Sample.env0 nd []).isValid = true from (isValid_iff nd).2 hnf]
    rfl
  · unfold status
    rw [p2]
    simp [analysisOf, boolStr, Elem.node, Elem.leaf]

/-- No number in the report of the codestream has more than 4300 digits. -/
def shortNumbers (b : Bytes) : Bool :=
  match codestream Sample.env0 (Sample.opts .j2c) 100 b with
  | .ok n => (Elem.iterL n.chars).all fun x => match x.text with
    | .int i => decide (i.natAbs < 10 ^ 4300)
    | _ => true
  | _ => false

theorem notLong_of_short {b : Bytes} (hl : b.length < 10 ^ 4) (h : shortNumbers b = true) : ¬ LongNumber 4300 b := by
  unfold shortNumbers at h
  split at h
  · rename_i n hn
    rw [← codestream_big env0_texts (by decide) (Nat.lt_of_lt_of_le hl (Nat.pow_le_pow_right (by decide) (by decide))) hn]
    rintro ⟨x, hx, i, hi, hb⟩
    have := List.all_eq_true.1 h x hx
    rw [hi] at this
    simp only [decide_eq_true_eq] at this
    exact absurd hb (Nat.not_le.2 this)
  · cases h

namespace Sample

/-- The codestream `cs1` with a PRF segment of six bytes. -/
def csPrf : Bytes := [0xff, 0x4f] ++ siz1 ++ ([0xff, 0x56] ++ (be16 6 ++ be16 1 ++ be16 0)) ++ codSeg ++ qcdSeg ++
  tilePart 0 0 1 [] ++ [0xff, 0xd9]

end Sample

/-- The hypotheses of `C68_same_partial` are met by a file with a short PRF segment. -/
example (me : MixEnv) (fs : FS) (path : PyStr) (h : fs.read path = .data Sample.csPrf) :
    checkOneFileD Sample.env0 me 4300 fs 100 (Sample.opts .j2c) 0 path =
      checkOneFile Sample.env0 me fs 100 (Sample.opts .j2c) 0 path := by
  have hb : bytesRead (fs.read path) = Sample.csPrf := by rw [h]; rfl
  refine C68_same_partial env0_texts (by decide) ?_ ?_
  · rw [hb]
    exact Nat.lt_of_lt_of_le (by decide +kernel : Sample.csPrf.length < 10 ^ 4) (Nat.pow_le_pow_right (by decide) (by decide))
  · rw [hb]
    rintro p rfl
    exact notLong_of_short (by decide +kernel) (by decide +kernel)

/-- Its number is `4095 + (1 + 65536)`, as the length field announces two entries. -/
example : profileNumber 4095 (sub Sample.csPrf 47 6) = 4095 + 65537 := by decide +kernel

/-- A main header whose only PRF segment is that one meets the hypothesis of `C68_short`. -/
example : FieldIs (sub Sample.csPrf 47 6) 0 2 (· ≤ 1787) := ⟨6, by decide +kernel, by decide⟩

end Jpy
