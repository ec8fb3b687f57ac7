import Verif.Lemmas.Unknown
import Verif.Props.Files
import Verif.Props.Walk
import Verif.Lemmas.Witness
import Verif.Lemmas.Listing
import Verif.Lemmas.Sample
/-!
# Unknown boxes in whole files (C42)
-/

set_option linter.unusedSimpArgs false

namespace Jpy
open Spec Sample

theorem validateRoot_more (env : Env) (o : Options) (hfmt : o.format = .jp2 ∨ o.format = .jph) {b b' : Bytes}
    (h : MoreFile b b') : ∃ K, ∀ k ≥ K, OutRel MoreFinal (validateRoot env o k b) (validateRoot env o k b') := by
  have hr : ∀ fuel b, validateRoot env o fuel b = validateJP2 env o fuel b := by
    intro fuel b; unfold validateRoot; rcases hfmt with h | h <;> rw [h]
  obtain ⟨K, hK⟩ := validateJP2_more env o h
  exact ⟨K, fun k hk => by rw [hr, hr]; exact hK k hk⟩

/-- Finished runs of both, with any fuels. -/
theorem validateRoot_more_ended {env : Env} {o : Options} (hfmt : o.format = .jp2 ∨ o.format = .jph) {b b' : Bytes}
    (h : MoreFile b b') {f f' : Nat} (h1 : validateRoot env o f b ≠ .timeout) (h2 : validateRoot env o f' b' ≠ .timeout) :
    OutRel MoreFinal (validateRoot env o f b) (validateRoot env o f' b') := by
  obtain ⟨K, hK⟩ := validateRoot_more env o hfmt h
  have := hK (K + f + f') (by omega)
  rcases validateRoot_le env o (f := f) (g := K + f + f') (by omega) b with e | e
  · exact absurd e h1
  rcases validateRoot_le env o (f := f') (g := K + f + f') (by omega) b' with e' | e'
  · exact absurd e' h2
  rw [e, e']; exact this

/-- C42: boxes of unknown type added to a JP2 or JPH file make it neither valid nor invalid. -/
theorem C42_file (env : Env) (o : Options) (hfmt : o.format = .jp2 ∨ o.format = .jph) {b b' : Bytes}
    (h : MoreFile b b') : FileValid env o b' ↔ FileValid env o b := by
  obtain ⟨K, hK⟩ := validateRoot_more env o hfmt h
  constructor
  · rintro ⟨f, n', hn, hv⟩
    have hg := hK (K + f) (by omega)
    rw [(validateRoot_le env o (f := f) (g := K + f) (by omega) b').ok hn] at hg
    generalize hx : validateRoot env o (K + f) b = x at hg
    cases hg with
    | ok hr => exact ⟨_, _, hx, by rw [← hr.tests]; exact hv⟩
  · rintro ⟨f, n, hn, hv⟩
    have hg := hK (K + f) (by omega)
    rw [(validateRoot_le env o (f := f) (g := K + f) (by omega) b).ok hn] at hg
    generalize hx : validateRoot env o (K + f) b' = x at hg
    cases hg with
    | ok hr => exact ⟨_, _, hx, by rw [hr.tests]; exact hv⟩

mutual
theorem readable_more (env : Env) (tbl) : ∀ {e e'}, MoreElem e e' →
    MoreElem (makeHumanReadable env tbl e) (makeHumanReadable env tbl e')
  | _, _, .same => .same
  | _, _, .super ht h => by
    simp only [makeHumanReadable]
    exact .super ht (readableL_more env tbl h)
theorem readableL_more (env : Env) (tbl) : ∀ {l l'}, MoreElems l l' →
    MoreElems (makeHumanReadableL env tbl l) (makeHumanReadableL env tbl l')
  | _, _, .nil => .nil
  | _, _, .keep h1 h2 => by
    simp only [makeHumanReadableL]
    exact .keep (readable_more env tbl h1) (readableL_more env tbl h2)
  | _, _, .add (u := u) h1 h2 => by
    simp only [makeHumanReadableL]
    refine .add ?_ (readableL_more env tbl h2)
    cases u; exact h1
end

theorem readableL_filter (env : Env) (tbl) (p : String → Bool) : ∀ l : List Elem,
    (makeHumanReadableL env tbl l).filter (fun e => p e.tag) = makeHumanReadableL env tbl (l.filter fun e => p e.tag)
  | [] => rfl
  | .mk t a x c lt :: es => by
    simp only [makeHumanReadableL, makeHumanReadable, List.filter_cons, readableL_filter env tbl p es]
    show (if p t = true then _ else _) = makeHumanReadableL env tbl (if p t = true then _ else _)
    split
    · simp only [makeHumanReadableL, makeHumanReadable]
    · rfl

theorem readableL_length' (env : Env) (tbl) : ∀ l : List Elem, (makeHumanReadableL env tbl l).length = l.length
  | [] => rfl
  | _ :: es => by simp only [makeHumanReadableL, List.length_cons, readableL_length' env tbl es]

theorem analyse_of_data {env fs o fuel path b a} (hb : fs.read path = .data b) (h : analyse env fs o fuel path = .ok a) :
    (∃ n w, validateRoot env o fuel b = .ok n ∧ a = analysisOf env n w) ∨
    (∃ e, validateRoot env o fuel b = .raised e ∧ a = analysisFailed e) := by
  rcases analyse_cases h with ⟨b', w, n, h1, h2, rfl⟩ | ⟨e, h1, rfl⟩
  · obtain ⟨rfl, -⟩ := fileToMemoryMap_ok h1
    rw [hb] at h2
    exact .inl ⟨n, w, h2, rfl⟩
  · obtain ⟨w, hw⟩ := fileToMemoryMap_data (fs := fs) (path := path) (by rw [hb]; intro e he; cases he)
    unfold analyseTry at h1
    rw [hw, hb] at h1
    simp only [Outcome.bind_ok] at h1
    rcases Outcome.bind_eq_raised.1 h1 with h1 | ⟨n, -, h1⟩
    · exact .inr ⟨e, h1, rfl⟩
    · cases h1

/-- C42: the reports on two JP2 or JPH files, one of them with further boxes of unknown type, have the
same status and failure message, the same verdict and the same tests, and the properties differ only
in unknown boxes and in the value of the compression ratio. -/
theorem C42_report (env : Env) (me : MixEnv) (fs : FS) (o : Options) (mix : Nat)
    (hfmt : o.format = .jp2 ∨ o.format = .jph) (fuel fuel' : Nat) (path path' : PyStr) (b b' : Bytes) (rep rep' : Elem)
    (hb : fs.read path = .data b) (hb' : fs.read path' = .data b') (hm : MoreFile b b')
    (h : checkOneFile env me fs fuel o mix path = .ok rep)
    (h' : checkOneFile env me fs fuel' o mix path' = .ok rep') :
    part rep' "statusInfo" = part rep "statusInfo" ∧ part rep' "isValid" = part rep "isValid" ∧
    part rep' "tests" = part rep "tests" ∧
    ∃ ps ps', part rep "properties" = some (.node "properties" ps) ∧
      part rep' "properties" = some (.node "properties" ps') ∧
      MoreElems (ps.filter fun e => e.tag != "compressionRatio") (ps'.filter fun e => e.tag != "compressionRatio") ∧
      (ps'.filter fun e => e.tag == "compressionRatio").length =
        (ps.filter fun e => e.tag == "compressionRatio").length := by
  obtain ⟨info, a, m, h1, h2, h3, rfl⟩ := checkOneFile_ok.1 h
  obtain ⟨info', a', m', h1', h2', h3', rfl⟩ := checkOneFile_ok.1 h'
  obtain ⟨-, p1, p2, p3, p4, -, -⟩ := report_parts (fileInfo_tag h1) (o := o) (a := a) (mix := mix) (m := m)
  obtain ⟨-, q1, q2, q3, q4, -, -⟩ := report_parts (fileInfo_tag h1') (o := o) (a := a') (mix := mix) (m := m')
  rw [p1, p2, p3, p4, q1, q2, q3, q4]
  have key := @validateRoot_more_ended env o hfmt b b' hm fuel fuel'
  rcases analyse_of_data hb h2 with ⟨n, w, hn, rfl⟩ | ⟨e, hn, rfl⟩ <;>
    rcases analyse_of_data hb' h2' with ⟨n', w', hn', rfl⟩ | ⟨e', hn', rfl⟩ <;>
    replace key := key (by rw [hn]; exact fun e => nomatch e) (by rw [hn']; exact fun e => nomatch e) <;>
    rw [hn, hn'] at key <;> cases key
  · rename_i hr
    have hv : n'.isValid = n.isValid := by unfold Node.isValid; rw [hr.tests]
    refine ⟨rfl, ?_, ?_, _, _, rfl, rfl, ?_, ?_⟩
    · simp only [analysisOf, hv]
    · simp only [analysisOf, hr.tests]
    · simp only [analysisOf]
      rw [readableL_filter env _ (fun t => t != "compressionRatio"), readableL_filter env _ (fun t => t != "compressionRatio")]
      exact readableL_more env _ hr.chars
    · simp only [analysisOf]
      rw [readableL_filter env _ (fun t => t == "compressionRatio"), readableL_filter env _ (fun t => t == "compressionRatio"),
        readableL_length', readableL_length']
      exact hr.ratio
  · exact ⟨rfl, rfl, rfl, _, _, rfl, rfl, moreElems_refl _, rfl⟩

/-! ## In terms of bytes -/

theorem boxAt_encodes {t p e : Bytes} (ht : t.length = 4) (he : EncodesBox t p e) (pre es : Bytes) :
    BoxAt (pre ++ (e ++ es)) pre.length t p (some (pre.length + e.length)) ∧ 0 < e.length := by
  cases he with
  | @short L hL hv =>
    have e1 : uint (pre ++ (L ++ t ++ p ++ es)) pre.length 4 = some (8 + p.length) := by
      rw [← hv]; exact uint_mid' (post := t ++ p ++ es) (by simp) rfl hL.symm
    have e2 : sub (pre ++ (L ++ t ++ p ++ es)) (pre.length + 4) 4 = t :=
      sub_mid' (pre := pre ++ L) (post := p ++ es) (by simp) (by simp [hL]) ht.symm
    have e3 : sub (pre ++ (L ++ t ++ p ++ es)) (pre.length + 8) (8 + p.length - 8) = p :=
      sub_mid' (pre := pre ++ L ++ t) (post := es) (by simp) (by simp [hL, ht]) (by omega)
    have hb := BoxAt.short e1 (by omega)
    rw [e2, e3] at hb
    have : (L ++ t ++ p).length = 8 + p.length := by simp [hL, ht]; omega
    rw [this]
    exact ⟨hb, by omega⟩
  | @long one x h1 hv1 hx hv =>
    have e0 : uint (pre ++ (one ++ t ++ x ++ p ++ es)) pre.length 4 = some 1 := by
      rw [← hv1]; exact uint_mid' (post := t ++ x ++ p ++ es) (by simp) rfl h1.symm
    have e1 : uint (pre ++ (one ++ t ++ x ++ p ++ es)) (pre.length + 8) 8 = some (16 + p.length) := by
      rw [← hv]
      exact uint_mid' (pre := pre ++ one ++ t) (post := p ++ es) (by simp) (by simp [h1, ht]) hx.symm
    have e2 : sub (pre ++ (one ++ t ++ x ++ p ++ es)) (pre.length + 4) 4 = t :=
      sub_mid' (pre := pre ++ one) (post := x ++ p ++ es) (by simp) (by simp [h1]) ht.symm
    have e3 : sub (pre ++ (one ++ t ++ x ++ p ++ es)) (pre.length + 16) (16 + p.length - 16) = p :=
      sub_mid' (pre := pre ++ one ++ t ++ x) (post := es) (by simp) (by simp [h1, ht, hx]) (by omega)
    have hb := BoxAt.long e0 e1 (by omega)
    rw [e2, e3] at hb
    have : (one ++ t ++ x ++ p).length = 16 + p.length := by simp [h1, ht, hx]; omega
    rw [this]
    exact ⟨hb, by omega⟩

theorem sub_shift (a post : Bytes) (i n : Nat) : sub (a ++ post) (a.length + i) n = sub post i n := by
  unfold sub; rw [List.drop_append, List.drop_eq_nil_of_le (by omega)]; simp

theorem uint_shift (a post : Bytes) (i n : Nat) : uint (a ++ post) (a.length + i) n = uint post i n := by
  unfold uint
  rw [sub_shift]
  by_cases h : i + n ≤ post.length
  · rw [if_pos h, if_pos (by simp; omega)]
  · rw [if_neg h, if_neg (by simp; omega)]

/-- Boxes do not depend on what comes before them. -/
theorem boxAt_shift {a post : Bytes} {i : Nat} {t p n} (h : BoxAt post i t p n) :
    BoxAt (a ++ post) (a.length + i) t p (n.map (a.length + ·)) := by
  have hd : ∀ k, (a ++ post).drop (a.length + i + k) = post.drop (i + k) := by
    intro k; rw [Nat.add_assoc, List.drop_append]; simp
  have hs : ∀ k n, sub (a ++ post) (a.length + i + k) n = sub post (i + k) n := by
    intro k n; rw [Nat.add_assoc, sub_shift]
  have hu : ∀ k n, uint (a ++ post) (a.length + i + k) n = uint post (i + k) n := by
    intro k n; rw [Nat.add_assoc, uint_shift]
  have h0 := uint_shift a post i 4
  cases h with
  | @short L h1 h2 =>
    have := BoxAt.short (h0.trans h1) h2
    rw [hs, hs] at this
    simpa [Nat.add_assoc] using this
  | @long X h1 h2 h3 =>
    have := BoxAt.long (h0.trans h1) ((hu 8 8).trans h2) h3
    rw [hs, hs] at this
    simpa [Nat.add_assoc] using this
  | toEnd h1 =>
    have := BoxAt.toEnd (h0.trans h1)
    rw [hs, hd] at this
    simpa using this
  | longToEnd h1 h2 =>
    have := BoxAt.longToEnd (h0.trans h1) ((hu 8 8).trans h2)
    rw [hs, hd] at this
    simpa using this
  | noLength h1 =>
    have := BoxAt.noLength (h0.trans h1)
    rw [hs] at this
    exact this
  | noLongLength h1 h2 =>
    have := BoxAt.noLongLength (h0.trans h1) ((hu 8 8).trans h2)
    rw [hs] at this
    exact this

theorem boxesFrom_shift {post : Bytes} {i : Nat} {bs} (h : BoxesFrom post i bs) (a : Bytes) :
    BoxesFrom (a ++ post) (a.length + i) (bs.map fun x => ⟨a.length + x.start, x.type, x.payload⟩) := by
  induction h with
  | done h => exact .done (by simp; omega)
  | step h1 h2 _ ih => exact .step (by simp; omega) (boxAt_shift h2) ih
  | last h1 h2 => exact .last (by simp; omega) (boxAt_shift h2)

theorem more_moved (bs : List FoundBox) (k i j : Nat) :
    More k (bs.map fun x => ⟨i + x.start, x.type, x.payload⟩) (bs.map fun x => ⟨j + x.start, x.type, x.payload⟩) := by
  induction bs generalizing k with
  | nil => exact .nil
  | cons x bs ih => exact .keep .same (ih _)

theorem more_insert {n : Nat} {pre : Bytes} (h : WholeBoxes n pre) {t p e : Bytes} (ht : t.length = 4)
    (hk : t ∉ knownBoxTypes) (he : EncodesBox t p e) (post : Bytes) : ∀ (a : Bytes) (k : Nat), k ≤ n →
    ∃ bs bs', BoxesFrom (a ++ (pre ++ post)) a.length bs ∧ BoxesFrom (a ++ (pre ++ (e ++ post))) a.length bs' ∧
      More k bs bs' := by
  induction h with
  | nil =>
    intro a k hk0
    obtain rfl : k = 0 := by omega
    obtain ⟨bs, hbs⟩ := boxes_exists post
    have h1 := boxesFrom_shift hbs a
    have h2 := boxesFrom_shift hbs (a ++ e)
    obtain ⟨h3, h4⟩ := boxAt_encodes ht he a post
    refine ⟨_, ⟨a.length, t, p⟩ :: _, by simpa using h1, .step (n := a.length + e.length) (by simp; omega) (by simpa using h3) ?_,
      .add ⟨hk, not_marker_of_length (t := t) (by omega)⟩ (more_moved bs 0 a.length (a ++ e).length)⟩
    simpa using h2
  | @cons t' p' e' n es ht' he' _ ih =>
    intro a k hk0
    obtain ⟨bs, bs', h1, h2, h3⟩ := ih (a ++ e') (k - 1) (by omega)
    obtain ⟨h4, h5⟩ := boxAt_encodes ht' he' a (es ++ post)
    obtain ⟨h6, -⟩ := boxAt_encodes ht' he' a (es ++ (e ++ post))
    refine ⟨⟨a.length, t', p'⟩ :: bs, ⟨a.length, t', p'⟩ :: bs', .step (n := a.length + e'.length) (by simp; omega) (by simpa using h4) ?_,
      .step (n := a.length + e'.length) (by simp; omega) (by simpa using h6) ?_, .keep .same h3⟩
    · simpa using h1
    · simpa using h2

/-- Inserting a box of unknown type between the boxes of a file, after at least two, gives a file with
more unknown boxes. What follows may be anything. -/
theorem moreFile_insert {n : Nat} {pre : Bytes} (h : WholeBoxes n pre) (hn : 2 ≤ n) {t p e : Bytes} (ht : t.length = 4)
    (hk : t ∉ knownBoxTypes) (he : EncodesBox t p e) (post : Bytes) : MoreFile (pre ++ post) (pre ++ e ++ post) := by
  obtain ⟨bs, bs', h1, h2, h3⟩ := more_insert h ht hk he post [] 2 hn
  exact ⟨bs, bs', by simpa [Boxes] using h1, by simpa [Boxes] using h2, h3⟩

/-- C42: inserting the bytes of a box of unknown type after two or more complete boxes of a JP2 or JPH
file, whatever follows, makes it neither valid nor invalid. -/
theorem C42_insert (env : Env) (o : Options) (hfmt : o.format = .jp2 ∨ o.format = .jph) {n : Nat} {pre : Bytes}
    (h : WholeBoxes n pre) (hn : 2 ≤ n) {t p e : Bytes} (ht : t.length = 4) (hk : t ∉ knownBoxTypes)
    (he : EncodesBox t p e) (post : Bytes) :
    FileValid env o (pre ++ e ++ post) ↔ FileValid env o (pre ++ post) :=
  C42_file env o hfmt (moreFile_insert h hn ht hk he post)

/-! ## Concrete cases -/

/-- A JP2 header of a 1 × 1 image with something between its two boxes. -/
def headerWith (x : Bytes) : Bytes := ihdr 1 1 1 7 ++ x ++ colr 17

/-- A JP2 file of a 1 × 1 image with something in its header and something after it. -/
def fileWith (x y : Bytes) : Bytes := sig ++ ftyp "jp2 " ++ box "jp2h" (headerWith x) ++ y ++ box "jp2c" cs1

/-- Boxes computed by the kernel. -/
theorem boxes_of {b : Bytes} {bs : List FoundBox} (fuel : Nat)
    (h : (listBoxes b fuel 0).map (·.map fun x => (x.start, x.type, x.payload)) =
      some (bs.map fun x => (x.start, x.type, x.payload))) : Boxes b bs := by
  obtain ⟨l, hl, e⟩ := Option.map_eq_some_iff.1 h
  have : l = bs := (List.map_inj_right (f := fun x : FoundBox => (x.start, x.type, x.payload))
    (fun x y h => by cases x; cases y; simp_all)).1 e
  exact this ▸ listBoxes_sound hl

/-- An unknown box in the header and one after the header. -/
theorem fileWith_more : MoreFile (fileWith [] []) (fileWith (box "abcd" [1, 2]) (box "free" [])) := by
  refine ⟨[⟨0, ascii "jP  ", [0x0d, 0x0a, 0x87, 0x0a]⟩, ⟨12, ascii "ftyp", ascii "jp2 " ++ be32 0 ++ ascii "jp2 "⟩,
      ⟨32, ascii "jp2h", headerWith []⟩, ⟨77, ascii "jp2c", cs1⟩],
    [⟨0, ascii "jP  ", [0x0d, 0x0a, 0x87, 0x0a]⟩, ⟨12, ascii "ftyp", ascii "jp2 " ++ be32 0 ++ ascii "jp2 "⟩,
      ⟨32, ascii "jp2h", headerWith (box "abcd" [1, 2])⟩, ⟨87, ascii "free", []⟩, ⟨95, ascii "jp2c", cs1⟩],
    boxes_of 10 (by decide +kernel), boxes_of 10 (by decide +kernel),
    .keep .same (.keep .same (.keep ?_ (.add ⟨by decide, by decide⟩ (.keep .same .nil))))⟩
  refine .header (hs := [⟨0, ascii "ihdr", be32 1 ++ be32 1 ++ be16 1 ++ [7, 7, 0, 0]⟩, ⟨22, ascii "colr", [1, 0, 0] ++ be32 17⟩])
    (hs' := [⟨0, ascii "ihdr", be32 1 ++ be32 1 ++ be16 1 ++ [7, 7, 0, 0]⟩, ⟨22, ascii "abcd", [1, 2]⟩,
      ⟨32, ascii "colr", [1, 0, 0] ++ be32 17⟩]) rfl
    (boxes_of 10 (by decide +kernel)) (boxes_of 10 (by decide +kernel))
    (.keep .same (.add ⟨by decide, by decide⟩ (.keep .same .nil))) fun _ => ?_
  refine ⟨[⟨0, ascii "ihdr", be32 1 ++ be32 1 ++ be16 1 ++ [7, 7, 0, 0]⟩, ⟨22, ascii "abcd", [1, 2]⟩],
    [⟨32, ascii "colr", [1, 0, 0] ++ be32 17⟩], [], rfl, ?_, ?_, ?_⟩
  · rintro ⟨x, hx, e⟩
    simp only [List.mem_cons, List.not_mem_nil, or_false] at hx
    rcases hx with rfl | rfl <;> exact absurd e (by decide)
  · intro x hx
    simp only [List.mem_cons, List.not_mem_nil, or_false] at hx
    subst hx; rfl
  · rintro ⟨x, hx, -⟩; cases hx

theorem fileValid_of {env o b} (fuel : Nat) (h : okValid (validateRoot env o fuel b) = true) : FileValid env o b := by
  unfold okValid at h
  split at h
  · rename_i n hn; exact ⟨fuel, n, hn, (isValid_iff n).1 h⟩
  · cases h

/-- Whether an analysis ends with a failed test. -/
def okInvalid (x : Outcome Node) : Bool := match x with | .ok n => !n.isValid | _ => false

theorem not_fileValid_of {env o b} (fuel : Nat) (h : okInvalid (validateRoot env o fuel b) = true) : ¬ FileValid env o b := by
  unfold okInvalid at h
  split at h
  · rename_i n hn
    rintro ⟨f, m, hm, hv⟩
    have h1 := (validateRoot_le env o (f := fuel) (g := fuel + f) (by omega) b).ok hn
    have h2 := (validateRoot_le env o (f := f) (g := fuel + f) (by omega) b).ok hm
    rw [h1] at h2
    cases h2
    rw [(isValid_iff n).2 hv] at h
    cases h
  · cases h

theorem fileWith_valid : FileValid env0 (opts .jp2) (fileWith [] []) := fileValid_of 100 (by decide +kernel)

/-- `C42_file` at work: a valid file stays valid with two more unknown boxes. -/
example : FileValid env0 (opts .jp2) (fileWith (box "abcd" [1, 2]) (box "free" [])) :=
  (C42_file env0 (opts .jp2) (.inl rfl) fileWith_more).2 fileWith_valid

/-- The same for an insertion of bytes between the second and the third box. -/
example : FileValid env0 (opts .jp2) (sig ++ ftyp "jp2 " ++ box "abcd" [1] ++ (box "jp2h" (headerWith []) ++ box "jp2c" cs1)) :=
  (C42_insert env0 (opts .jp2) (.inl rfl)
    (.cons (t := ascii "jP  ") rfl (.short (l := be32 12) rfl rfl)
      (.cons (t := ascii "ftyp") (e := ftyp "jp2 ") (es := []) rfl (.short (l := be32 20) rfl rfl) .nil))
    (Nat.le_refl 2) (t := ascii "abcd") rfl (by decide) (.short (l := be32 9) (p := [1]) rfl rfl) _).2 fileWith_valid

/-- Both reports of `C42_report` exist. -/
example : saysValid (reportOf (opts .jp2) 0 (fileWith [] [])) = true ∧
    saysValid (reportOf (opts .jp2) 0 (fileWith (box "abcd" [1, 2]) (box "free" []))) = true := by
  decide +kernel

/-- The position matters where a test is about positions: unknown boxes before the second box of a file,
before the image header, or between two colour specification boxes do make a valid file invalid. -/
theorem C42_positions :
    (FileValid env0 (opts .jp2) (fileWith [] []) ∧ FileValid env0 (opts .jp2) (fileWith (colr 17) [])) ∧
    ¬ FileValid env0 (opts .jp2) (fileWith (colr 17 ++ box "abcd" []) []) ∧
    ¬ FileValid env0 (opts .jp2) (sig ++ box "abcd" [] ++ ftyp "jp2 " ++ box "jp2h" (headerWith []) ++ box "jp2c" cs1) ∧
    ¬ FileValid env0 (opts .jp2) (sig ++ ftyp "jp2 " ++ box "jp2h" (box "abcd" [] ++ headerWith []) ++ box "jp2c" cs1) :=
  ⟨⟨fileWith_valid, fileValid_of 100 (by decide +kernel)⟩, not_fileValid_of 100 (by decide +kernel),
    not_fileValid_of 100 (by decide +kernel), not_fileValid_of 100 (by decide +kernel)⟩

end Jpy
