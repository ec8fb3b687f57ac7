import Verif.Spec.Metadata
import Verif.Props.Unknown
import Verif.Props.Uuid
import Verif.Props.Superboxes
/-!
# C65: metadata boxes do not influence each other or the verdict on the image
-/

namespace Jpy
open Spec Sample

theorem filter_first {α β : Type} {P : α → Bool} {f : α → β} {a : β} : ∀ {l : List α} {m : List β},
    (l.filter P).map f = a :: m → ∃ pre x post, l = pre ++ x :: post ∧ (∀ y ∈ pre, P y = false) ∧ P x = true ∧ f x = a ∧
      (post.filter P).map f = m
  | [], m, h => by simp at h
  | x :: xs, m, h => by
    rw [List.filter_cons] at h
    by_cases hx : P x = true
    · rw [if_pos hx, List.map_cons, List.cons.injEq] at h
      exact ⟨[], x, xs, rfl, by simp, hx, h.1, h.2⟩
    · rw [if_neg hx] at h
      obtain ⟨pre, y, post, rfl, h1, h2, h3, h4⟩ := filter_first h
      refine ⟨x :: pre, y, post, rfl, ?_, h2, h3, h4⟩
      intro z hz
      rcases List.mem_cons.1 hz with rfl | hz
      · simpa using hx
      · exact h1 z hz

theorem not_has_of_image {l : List FoundBox} (h : ∀ y ∈ l, decide (y.type ∈ imageTypes) = false) {t : String}
    (ht : ascii t ∈ imageTypes) : ¬ Has l t := by
  rintro ⟨x, hx, e⟩
  have := h x hx
  rw [e] at this
  simp [ht] at this

/-- Types of the image boxes of a list, for `Has`. -/
theorem has_imageBoxes {l : List FoundBox} {t : String} (ht : ascii t ∈ imageTypes) :
    Has l t ↔ ∃ p, (ascii t, p) ∈ imageBoxes l := by
  constructor
  · rintro ⟨x, hx, e⟩
    exact ⟨x.payload, List.mem_map.2 ⟨x, List.mem_filter.2 ⟨hx, by simp [e, ht]⟩, by rw [e]⟩⟩
  · rintro ⟨p, hp⟩
    obtain ⟨x, hx, e⟩ := List.mem_map.1 hp
    exact ⟨x, (List.mem_filter.1 hx).1, congrArg Prod.fst e⟩

theorem imageBoxes_append (l m : List FoundBox) : imageBoxes (l ++ m) = imageBoxes l ++ imageBoxes m := by
  simp [imageBoxes]

theorem imageBoxes_none {l : List FoundBox} (h : ∀ y ∈ l, decide (y.type ∈ imageTypes) = false) : imageBoxes l = [] := by
  unfold imageBoxes
  rw [List.filter_eq_nil_iff.2 (fun x hx => by rw [h x hx]; simp)]; rfl

/-- C65: if a JP2 or JPH file is valid then so is every file with the same image boxes whose other boxes
pass, wherever they stand after the first two boxes. -/
theorem C65_boxes (env : Env) (o : Options) (hfmt : o.format = .jp2 ∨ o.format = .jph) {b b' : Bytes}
    {bs bs' : List FoundBox} (hb : Boxes b bs) (hb' : Boxes b' bs') (hs : SameImageBoxes bs bs')
    (hp : ∀ x ∈ bs', x.type ∉ imageTypes → BoxPasses env o x.type x.payload)
    (h : FileValid env o b) : FileValid env o b' := by
  obtain ⟨l, hl⟩ := (C17_layout env o b hfmt).1 h
  cases boxes_unique hb hl.boxes
  have h0 := hs.start
  obtain ⟨sig', ft', rest', rfl⟩ : ∃ s f r, bs' = s :: f :: r := by
    rcases bs' with _ | ⟨s, _ | ⟨f, r⟩⟩
    · simp at h0
    · simp at h0
    · exact ⟨s, f, r, rfl⟩
  simp only [List.take_succ_cons, List.take_zero, List.map_cons, List.map_nil, List.cons.injEq, Prod.mk.injEq, and_true] at h0
  obtain ⟨⟨e1, e2⟩, e3, e4⟩ := h0
  have i1 : ascii "jP  " ∈ imageTypes := by decide
  have i2 : ascii "ftyp" ∈ imageTypes := by decide
  have i3 : ascii "jp2h" ∈ imageTypes := by decide
  have i4 : ascii "jp2c" ∈ imageTypes := by decide
  have hi : imageBoxes l.rest = imageBoxes rest' := by
    have := hs.image
    have s1 : ∀ (x : FoundBox) (r : List FoundBox), x.type ∈ imageTypes →
        imageBoxes (x :: r) = (x.type, x.payload) :: imageBoxes r := by
      intro x r hx; simp [imageBoxes, hx]
    rw [s1 _ _ (by rw [hl.sig]; exact i1), s1 _ _ (by rw [hl.ft]; exact i2),
      s1 _ _ (by rw [← e1, hl.sig]; exact i1), s1 _ _ (by rw [← e3, hl.ft]; exact i2)] at this
    exact (List.cons.inj (List.cons.inj this).2).2
  -- the image boxes of the first file
  have none : ∀ m : List FoundBox, (∀ x ∈ m, x ∈ l.rest) → ¬ Has m "jp2h" → ¬ Has m "jp2c" →
      ∀ y ∈ m, decide (y.type ∈ imageTypes) = false := by
    intro m hm h1 h2 y hy
    simp only [imageTypes, List.mem_cons, List.not_mem_nil, or_false, decide_eq_false_iff_not, not_or]
    exact ⟨fun e => hl.oneSig ⟨y, hm y hy, e⟩, fun e => hl.oneFt ⟨y, hm y hy, e⟩, fun e => h1 ⟨y, hy, e⟩,
      fun e => h2 ⟨y, hy, e⟩⟩
  have hmid : ¬ Has l.mid "jp2h" := fun ⟨x, hx, e⟩ => hl.oneHd.2 ⟨x, by simp [hx], e⟩
  have ie : imageBoxes l.rest = (ascii "jp2h", l.hd.payload) :: (ascii "jp2c", l.cs.payload) :: imageBoxes l.post := by
    have a1 := imageBoxes_none (none l.pre (by intro x hx; simp [Layout.rest, hx]) hl.oneHd.1 hl.firstCs.1)
    have a2 := imageBoxes_none (none l.mid (by intro x hx; simp [Layout.rest, hx]) hmid hl.firstCs.2)
    rw [Layout.rest, imageBoxes_append, a1, List.nil_append]
    have : imageBoxes (l.hd :: (l.mid ++ l.cs :: l.post)) =
        imageBoxes [l.hd] ++ (imageBoxes l.mid ++ (imageBoxes [l.cs] ++ imageBoxes l.post)) := by
      rw [← imageBoxes_append, ← imageBoxes_append, ← imageBoxes_append]; rfl
    rw [this, a2]
    simp only [imageBoxes, List.filter_cons, hl.hd, hl.cs, i3, i4, decide_true, if_true, List.filter_nil, List.map_cons,
      List.map_nil, List.nil_append, List.singleton_append]
  -- decompose the second file
  have q := hi.symm.trans ie
  obtain ⟨pre', hd', r1, rfl, p1, -, p3, p4⟩ := filter_first q
  obtain ⟨mid', cs', post', rfl, q1, -, q3, q4⟩ := filter_first p4
  simp only [Prod.mk.injEq] at p3 q3
  have hpost : ∀ t, ascii t ∈ imageTypes → ¬ Has l.post t → ¬ Has post' t := by
    intro t ht hn hh
    obtain ⟨p, hp⟩ := (has_imageBoxes ht).1 hh
    exact hn ((has_imageBoxes ht).2 ⟨p, by rw [← q4]; exact hp⟩)
  have hrest : ∀ t, ascii t ∈ imageTypes → ¬ Has l.rest t → ¬ Has (pre' ++ hd' :: (mid' ++ cs' :: post')) t := by
    intro t ht hn hh
    obtain ⟨p, hp⟩ := (has_imageBoxes ht).1 hh
    exact hn ((has_imageBoxes ht).2 ⟨p, by rw [hi]; exact hp⟩)
  refine (C17_layout env o b' hfmt).2 ⟨⟨sig', ft', pre', hd', mid', cs', post', l.ih, l.hrest, l.siz⟩, ?_⟩
  refine ⟨hb', ?_, e1 ▸ hl.sig, e3 ▸ hl.ft, p3.1, q3.1, hrest _ i1 hl.oneSig, hrest _ i2 hl.oneFt,
    ⟨not_has_of_image p1 i3, ?_⟩, ⟨not_has_of_image p1 i4, not_has_of_image q1 i4⟩, ?_, ?_, ?_, hl.image⟩
  · intro x hx
    by_cases hm : x.type ∈ imageTypes
    · have hx' : (x.type, x.payload) ∈ imageBoxes (l.sig :: l.ft :: l.rest) := by
        rw [hs.image]
        exact List.mem_map.2 ⟨x, List.mem_filter.2 ⟨hx, by simp [hm]⟩, rfl⟩
      obtain ⟨y, hy, e⟩ := List.mem_map.1 hx'
      have := hl.passes y (List.mem_filter.1 hy).1
      simp only [Prod.mk.injEq] at e
      rwa [e.1, e.2] at this
    · exact hp x hx hm
  · rintro ⟨x, hx, e⟩
    rcases List.mem_append.1 hx with hx | hx
    · exact not_has_of_image q1 i3 ⟨x, hx, e⟩
    · rcases List.mem_cons.1 hx with rfl | hx
      · rw [q3.1] at e; exact absurd e (by decide)
      · exact hpost "jp2h" i3 (fun ⟨y, hy, e⟩ => hl.oneHd.2 ⟨y, by simp [hy], e⟩) ⟨x, hx, e⟩
  · show Boxes hd'.payload _
    rw [p3.2]; exact hl.header
  · show ∃ n, SegAt cs'.payload 2 SIZ l.siz n
    rw [q3.2]; exact hl.siz
  · intro hf
    obtain ⟨x, hx, e⟩ := hl.ipr hf
    obtain ⟨y, hy, e'⟩ := hs.ipr.1 ⟨x, by simp [hx], e⟩
    rcases List.mem_cons.1 hy with rfl | hy
    · rw [← e1, hl.sig] at e'; exact absurd e' (by decide)
    · rcases List.mem_cons.1 hy with rfl | hy
      · rw [← e3, hl.ft] at e'; exact absurd e' (by decide)
      · exact ⟨y, hy, e'⟩

/-- Type and payload of a box. -/
def sh (x : FoundBox) : Bytes × Bytes := (x.type, x.payload)

/-- The boxes of a file that starts with whole boxes. -/
theorem boxes_whole {n : Nat} {pre : Bytes} (h : WholeBoxes n pre) : ∃ ps : List (Bytes × Bytes), ps.length = n ∧
    ∀ (a post : Bytes) (bs : List FoundBox), Boxes post bs →
      ∃ bs', BoxesFrom (a ++ (pre ++ post)) a.length bs' ∧ bs'.map sh = ps ++ bs.map sh := by
  induction h with
  | nil =>
    refine ⟨[], rfl, fun a post bs hb => ⟨_, by simpa using boxesFrom_shift hb a, ?_⟩⟩
    simp [sh, Function.comp_def]
  | @cons t p e n es ht he _ ih =>
    obtain ⟨ps, hl, ih⟩ := ih
    refine ⟨(t, p) :: ps, by simp [hl], fun a post bs hb => ?_⟩
    obtain ⟨bs', h1, h2⟩ := ih (a ++ e) post bs hb
    obtain ⟨h4, h5⟩ := boxAt_encodes ht he a (es ++ post)
    refine ⟨⟨a.length, t, p⟩ :: bs', .step (n := a.length + e.length) (by simp; omega) (by simpa using h4)
      (by simpa using h1), ?_⟩
    rw [List.map_cons, h2]; rfl

/-- One box that may be followed by others. -/
theorem wholeBoxes_one {t p e : Bytes} (ht : t.length = 4) (he : EncodesBox t p e) : WholeBoxes 1 e := by
  simpa using WholeBoxes.cons ht he .nil

theorem boxes_one {t p e : Bytes} (ht : t.length = 4) (he : EncodesBox t p e) (post : Bytes) {bs : List FoundBox}
    (hb : Boxes post bs) : ∃ bs', Boxes (e ++ post) bs' ∧ bs'.map sh = (t, p) :: bs.map sh := by
  obtain ⟨h4, h5⟩ := boxAt_encodes ht he [] post
  have := boxesFrom_shift hb e
  refine ⟨⟨0, t, p⟩ :: _, .step (n := 0 + e.length) (by simp; omega) h4 (by simpa using this), ?_⟩
  simp [sh, Function.comp_def]

theorem imageBoxes_sh {bs bs' : List FoundBox} (h : bs.map sh = bs'.map sh) : imageBoxes bs = imageBoxes bs' := by
  have : ∀ l : List FoundBox, imageBoxes l = (l.map sh).filter fun x => decide (x.1 ∈ imageTypes) := by
    intro l; rw [List.filter_map]; rfl
  rw [this, this, h]

theorem imageBoxes_eq (l : List FoundBox) : imageBoxes l = (l.map sh).filter fun x => decide (x.1 ∈ imageTypes) := by
  rw [List.filter_map]; rfl

theorem has_sh (l : List FoundBox) (t : String) : Has l t ↔ ∃ p, (ascii t, p) ∈ l.map sh := by
  constructor
  · rintro ⟨x, hx, e⟩; exact ⟨x.payload, List.mem_map.2 ⟨x, hx, by rw [sh, e]⟩⟩
  · rintro ⟨p, hp⟩
    obtain ⟨x, hx, e⟩ := List.mem_map.1 hp
    exact ⟨x, hx, congrArg Prod.fst e⟩

theorem take_sh (l : List FoundBox) (k : Nat) :
    (l.take k).map (fun x => (x.type, x.payload)) = (l.map sh).take k := by
  rw [← List.map_take]; rfl

/-- Every box of a valid file passes. -/
theorem fileValid_passes {env : Env} {o : Options} (hfmt : o.format = .jp2 ∨ o.format = .jph) {b : Bytes}
    (h : FileValid env o b) {bs : List FoundBox} (hb : Boxes b bs) {t p : Bytes} (hx : (t, p) ∈ bs.map sh) :
    BoxPasses env o t p := by
  obtain ⟨l, hl⟩ := (C17_layout env o b hfmt).1 h
  cases boxes_unique hb hl.boxes
  obtain ⟨x, hm, e⟩ := List.mem_map.1 hx
  cases e
  exact hl.passes x hm

/-- C65: inserting a box that is neither part of the image nor an intellectual property box after two or more
boxes of a JP2 or JPH file, whatever follows, gives a valid file exactly if the file was valid and the box
passes. -/
theorem C65_insert (env : Env) (o : Options) (hfmt : o.format = .jp2 ∨ o.format = .jph) {n : Nat} {pre : Bytes}
    (h : WholeBoxes n pre) (hn : 2 ≤ n) {t p e : Bytes} (ht : t.length = 4) (hi : t ∉ imageTypes)
    (hj : t ≠ ascii "jp2i") (he : EncodesBox t p e) (post : Bytes) :
    FileValid env o (pre ++ e ++ post) ↔ FileValid env o (pre ++ post) ∧ BoxPasses env o t p := by
  obtain ⟨ps, hl, hw⟩ := boxes_whole h
  obtain ⟨qs, hq⟩ := boxes_exists post
  obtain ⟨rs, hr, er⟩ := boxes_one ht he post hq
  obtain ⟨bs, h1, e1⟩ := hw [] post qs hq
  obtain ⟨bs', h2, e2⟩ := hw [] (e ++ post) rs hr
  have h1 : Boxes (pre ++ post) bs := by simpa [Boxes] using h1
  have h2 : Boxes (pre ++ e ++ post) bs' := by simpa [Boxes] using h2
  rw [er] at e2
  have hs : SameImageBoxes bs bs' := by
    refine ⟨?_, ?_, ?_⟩
    · rw [take_sh, take_sh, e1, e2, List.take_append_of_le_length (by omega), List.take_append_of_le_length (by omega)]
    · rw [imageBoxes_eq, imageBoxes_eq, e1, e2]
      simp [List.filter_append, hi]
    · rw [has_sh, has_sh, e1, e2]
      simp only [List.mem_append, List.mem_cons, Prod.mk.injEq]
      constructor
      · rintro ⟨p, h | h⟩ <;> exact ⟨p, by simp [h]⟩
      · rintro ⟨p, h | ⟨h, -⟩ | h⟩
        · exact ⟨p, .inl h⟩
        · exact absurd h.symm hj
        · exact ⟨p, .inr h⟩
  have hs' : SameImageBoxes bs' bs := ⟨hs.start.symm, hs.image.symm, hs.ipr.symm⟩
  constructor
  · intro hv
    refine ⟨C65_boxes env o hfmt h2 h1 hs' (fun x hx _ => fileValid_passes hfmt hv h2 ?_) hv,
      fileValid_passes hfmt hv h2 (by rw [e2]; simp)⟩
    have : sh x ∈ bs.map sh := List.mem_map_of_mem hx
    rw [e1] at this
    rw [e2]
    rcases List.mem_append.1 this with h | h <;> simp only [List.mem_append, List.mem_cons]
    · exact .inl h
    · exact .inr (.inr h)
  · rintro ⟨hv, hp⟩
    refine C65_boxes env o hfmt h1 h2 hs (fun x hx _ => ?_) hv
    have : sh x ∈ bs'.map sh := List.mem_map_of_mem hx
    rw [e2] at this
    rcases List.mem_append.1 this with h | h
    · exact fileValid_passes hfmt hv h1 (by rw [e1]; exact List.mem_append_left _ h)
    · rcases List.mem_cons.1 h with h | h
      · simp only [sh, Prod.mk.injEq] at h
        rw [h.1, h.2]; exact hp
      · exact fileValid_passes hfmt hv h1 (by rw [e1]; exact List.mem_append_right _ h)

/-- C65: two neighbouring boxes after the second box of a JP2 or JPH file may be exchanged if one of them is
not part of the image. -/
theorem C65_exchange (env : Env) (o : Options) (hfmt : o.format = .jp2 ∨ o.format = .jph) {n : Nat} {pre : Bytes}
    (h : WholeBoxes n pre) (hn : 2 ≤ n) {t p e t' p' e' : Bytes} (ht : t.length = 4) (ht' : t'.length = 4)
    (he : EncodesBox t p e) (he' : EncodesBox t' p' e') (hi : t ∉ imageTypes ∨ t' ∉ imageTypes) (post : Bytes) :
    FileValid env o (pre ++ e ++ e' ++ post) ↔ FileValid env o (pre ++ e' ++ e ++ post) := by
  suffices H : ∀ {t p e t' p' e' : Bytes}, t.length = 4 → t'.length = 4 → EncodesBox t p e → EncodesBox t' p' e' →
      (t ∉ imageTypes ∨ t' ∉ imageTypes) → FileValid env o (pre ++ e ++ e' ++ post) →
      FileValid env o (pre ++ e' ++ e ++ post) from
    ⟨H ht ht' he he' hi, H ht' ht he' he hi.symm⟩
  intro t p e t' p' e' ht ht' he he' hi hv
  obtain ⟨ps, hl, hw⟩ := boxes_whole h
  obtain ⟨qs, hq⟩ := boxes_exists post
  obtain ⟨r1, hr1, er1⟩ := boxes_one ht' he' post hq
  obtain ⟨r2, hr2, er2⟩ := boxes_one ht he (e' ++ post) hr1
  obtain ⟨s1, hs1, es1⟩ := boxes_one ht he post hq
  obtain ⟨s2, hs2, es2⟩ := boxes_one ht' he' (e ++ post) hs1
  obtain ⟨bs, h1, e1⟩ := hw [] _ r2 hr2
  obtain ⟨bs', h2, e2⟩ := hw [] _ s2 hs2
  have h1 : Boxes (pre ++ e ++ e' ++ post) bs := by simpa [Boxes] using h1
  have h2 : Boxes (pre ++ e' ++ e ++ post) bs' := by simpa [Boxes] using h2
  rw [er2, er1] at e1
  rw [es2, es1] at e2
  have mem : ∀ x, x ∈ bs'.map sh ↔ x ∈ bs.map sh := by
    intro x; rw [e1, e2]
    simp only [List.mem_append, List.mem_cons]
    constructor <;> rintro (h | h | h | h) <;> simp [h]
  refine C65_boxes env o hfmt h1 h2 ⟨?_, ?_, ?_⟩ (fun x hx _ => ?_) hv
  · rw [take_sh, take_sh, e1, e2, List.take_append_of_le_length (by omega), List.take_append_of_le_length (by omega)]
  · rw [imageBoxes_eq, imageBoxes_eq, e1, e2]
    rcases hi with hi | hi <;> simp [List.filter_append, List.filter_cons, hi]
  · rw [has_sh, has_sh]
    exact ⟨fun ⟨p, h⟩ => ⟨p, (mem _).2 h⟩, fun ⟨p, h⟩ => ⟨p, (mem _).1 h⟩⟩
  · exact fileValid_passes hfmt hv h1 ((mem _).1 (List.mem_map_of_mem hx))

/-- An XML box passes exactly when its payload is well-formed XML. -/
theorem C65_xml_box (env : Env) (o : Options) (p : Bytes) :
    BoxPasses env o (ascii "xml ") p ↔ (env.parseXml p).isSome = true := by
  have key : ∀ fuel, Accepted (validateBox env o (fuel + 1) (ascii "xml ") p) ↔ (env.parseXml p).isSome = true := by
    intro fuel
    rw [validateBox_leaf env o fuel _ p (t := .xmlBox) (by decide) rfl,
      accepted_leaf env o fuel none _ p (t := .xmlBox) (by decide)]
    simp only [leaf, xmlBox, Outcome.ok.injEq, exists_eq_left', allTrue_xmlSteps]
  exact ⟨fun ⟨f, h⟩ => (key f).1 (validateBox_accepted_mono (Nat.le_succ f) h), fun h => ⟨1, (key 0).2 h⟩⟩

/-- C65: adding an XML box leaves a JP2 or JPH file valid exactly if its contents are well-formed XML. -/
theorem C65_xml (env : Env) (o : Options) (hfmt : o.format = .jp2 ∨ o.format = .jph) {n : Nat} {pre : Bytes}
    (h : WholeBoxes n pre) (hn : 2 ≤ n) {p e : Bytes} (he : EncodesBox (ascii "xml ") p e) (post : Bytes) :
    FileValid env o (pre ++ e ++ post) ↔ FileValid env o (pre ++ post) ∧ (env.parseXml p).isSome = true := by
  rw [C65_insert env o hfmt h hn (by decide) (by decide) (by decide) he post, C65_xml_box]

/-- C65: adding a UUID box leaves a JP2 or JPH file valid exactly if there are data after the 16 bytes of the UUID and,
for XMP, they are well-formed XML. -/
theorem C65_uuid (env : Env) (o : Options) (hfmt : o.format = .jp2 ∨ o.format = .jph) {n : Nat} {pre : Bytes}
    (h : WholeBoxes n pre) (hn : 2 ≤ n) {p e : Bytes} (he : EncodesBox (ascii "uuid") p e) (post : Bytes) :
    FileValid env o (pre ++ e ++ post) ↔ FileValid env o (pre ++ post) ∧
      16 < p.length ∧ (p.take 16 = xmpUuid → (env.parseXml (p.drop 16)).isSome = true) := by
  rw [C65_insert env o hfmt h hn (by decide) (by decide) (by decide) he post]
  refine and_congr Iff.rfl ?_
  exact ⟨fun ⟨f, h⟩ => (C37_uuid env o f p).1 (validateBox_accepted_mono (Nat.le_succ f) h),
    fun h => ⟨1, (C37_uuid env o 0 p).2 h⟩⟩

/-! ## The JP2 header -/

theorem number_sh (l : List FoundBox) (t : String) : number l t = ((l.map sh).filter fun x => x.1 == ascii t).length := by
  unfold number; rw [List.filter_map, List.length_map]; rfl

/-- The rules on a JP2 header do not depend on the order of the boxes after the image header, except for the colour
specification boxes. -/
theorem headerOk_perm {fmt : Format} {ih ih' : FoundBox} {r r' : List FoundBox} (e : sh ih = sh ih')
    (hp : (r.map sh).Perm (r'.map sh)) (ht : Together (ih' :: r') "colr") (h : HeaderOk fmt ih r) : HeaderOk fmt ih' r' := by
  have hp' : ((ih :: r).map sh).Perm ((ih' :: r').map sh) := by
    rw [List.map_cons, List.map_cons, e]; exact hp.cons _
  have e1 : ih.type = ih'.type := congrArg Prod.fst e
  have e2 : ih.payload = ih'.payload := congrArg Prod.snd e
  have hn : ∀ t, number (ih' :: r') t = number (ih :: r) t := by
    intro t; rw [number_sh, number_sh]; exact ((hp'.filter _).length_eq).symm
  have hh : ∀ t, Has (ih' :: r') t ↔ Has (ih :: r) t := by
    intro t; rw [has_sh, has_sh]
    exact ⟨fun ⟨p, h⟩ => ⟨p, hp'.mem_iff.2 h⟩, fun ⟨p, h⟩ => ⟨p, hp'.mem_iff.1 h⟩⟩
  have hr : ∀ t, Has r' t ↔ Has r t := by
    intro t; rw [has_sh, has_sh]
    exact ⟨fun ⟨p, h⟩ => ⟨p, hp.mem_iff.2 h⟩, fun ⟨p, h⟩ => ⟨p, hp.mem_iff.1 h⟩⟩
  obtain ⟨a1, a2, a3, a4, a5, a6, a7, a8, a9, a10, a11, a12, a13⟩ := h
  refine ⟨e1 ▸ a1, fun h => a2 ((hr _).1 h), ?_, ?_, ?_, ?_, ?_, ?_, ht, ?_, ?_, ?_, ?_⟩
  · rw [hn]; exact a3
  · rw [hn]; exact a4
  · rw [hn]; exact a5
  · rw [hn]; exact a6
  · rw [hn]; exact a7
  · rw [hh, hh]; exact a8
  · rw [hh]; exact a10
  · rw [hh, ← e2]; exact a11
  · rw [hh]
    intro hf hc x hx htx
    obtain ⟨y, hy, ey⟩ := List.mem_map.1 (hp'.mem_iff.2 (List.mem_map_of_mem hx))
    have := a12 hf hc y hy ((congrArg Prod.fst ey).trans htx)
    rwa [show y.payload = x.payload from congrArg Prod.snd ey] at this
  · rw [hh, ← e2]; exact a13

/-- The same for the agreement of image header and codestream. -/
theorem sameImage_perm {hs hs' : List FoundBox} {ih siz : Bytes} (hp : (hs.map sh).Perm (hs'.map sh))
    (h : SameImage hs ih siz) : SameImage hs' ih siz := by
  obtain ⟨hh, w, nc, x, y, x0, y0, bpc, a1, a2, a3, a4, a5, a6, a7, a8, a9, a10, a11, a12, a13⟩ := h
  refine ⟨hh, w, nc, x, y, x0, y0, bpc, a1, a2, a3, a4, a5, a6, a7, a8, a9, a10, a11, a12, fun hb => ?_⟩
  obtain ⟨z, hz, c1, c2, c3⟩ := a13 hb
  obtain ⟨z', hz', ez⟩ := List.mem_map.1 (hp.mem_iff.1 (List.mem_map_of_mem hz))
  have e1 : z'.type = z.type := congrArg Prod.fst ez
  have e2 : z'.payload = z.payload := congrArg Prod.snd ez
  exact ⟨z', hz', e1.trans c1, e2 ▸ c2, e2 ▸ c3⟩

/-- A list splits in one way at an element that is the only one of its kind after some others. -/
theorem split_unique {α : Type} {P : α → Prop} : ∀ {A C B D : List α} {a c : α}, A ++ a :: B = C ++ c :: D → P a → P c →
    (∀ x ∈ C, ¬ P x) → (∀ x ∈ D, ¬ P x) → A = C ∧ a = c ∧ B = D
  | [], [], B, D, a, c, h, _, _, _, _ => by
    simp only [List.nil_append, List.cons.injEq] at h; exact ⟨rfl, h⟩
  | [], y :: C, B, D, a, c, h, ha, _, hC, _ => by
    simp only [List.nil_append, List.cons_append, List.cons.injEq] at h
    exact absurd (h.1 ▸ ha) (hC y (by simp))
  | x :: A, [], B, D, a, c, h, ha, _, _, hD => by
    simp only [List.nil_append, List.cons_append, List.cons.injEq] at h
    exact absurd ha (hD a (by rw [← h.2]; simp))
  | x :: A, y :: C, B, D, a, c, h, ha, hc, hC, hD => by
    simp only [List.cons_append, List.cons.injEq] at h
    obtain ⟨rfl, h⟩ := h
    obtain ⟨rfl, h2⟩ := split_unique h ha hc (fun z hz => hC z (by simp [hz])) hD
    exact ⟨rfl, h2⟩

theorem not_has_sh {l l' : List FoundBox} (e : l'.map sh = l.map sh) {t : String} (h : ¬ Has l t) : ¬ Has l' t := by
  rw [has_sh] at h ⊢; rw [e]; exact h

/-- C65 (JP2 header): the boxes of the JP2 header of a JP2 or JPH file may be put in any order in which the image
header is still the first and the colour specification boxes are next to each other. The length of the JP2
header box may be stored in either way. -/
theorem C65_header (env : Env) (o : Options) (hfmt : o.format = .jp2 ∨ o.format = .jph) {n : Nat} {pre : Bytes}
    (h : WholeBoxes n pre) (hn : 2 ≤ n) {p e p' e' : Bytes} (he : EncodesBox (ascii "jp2h") p e)
    (he' : EncodesBox (ascii "jp2h") p' e') {x x' : FoundBox} {hs hs' : List FoundBox} (hb : Boxes p (x :: hs))
    (hb' : Boxes p' (x' :: hs')) (hx : x'.type = x.type ∧ x'.payload = x.payload)
    (hp : (hs.map fun y => (y.type, y.payload)).Perm (hs'.map fun y => (y.type, y.payload)))
    (hc : Together (x' :: hs') "colr") (post : Bytes)
    (hv : FileValid env o (pre ++ e ++ post)) : FileValid env o (pre ++ e' ++ post) := by
  have ex : sh x = sh x' := by simp [sh, hx.1, hx.2]
  have hp' : ((x :: hs).map sh).Perm ((x' :: hs').map sh) := by
    rw [List.map_cons, List.map_cons, ex]; exact List.Perm.cons _ hp
  obtain ⟨ps, hlen, hw⟩ := boxes_whole h
  obtain ⟨qs, hq⟩ := boxes_exists post
  obtain ⟨r1, hr1, er1⟩ := boxes_one (by decide) he post hq
  obtain ⟨s1, hs1, es1⟩ := boxes_one (by decide) he' post hq
  obtain ⟨bs, h1, e1⟩ := hw [] _ r1 hr1
  obtain ⟨bs', h2, e2⟩ := hw [] _ s1 hs1
  have h1 : Boxes (pre ++ e ++ post) bs := by simpa [Boxes] using h1
  have h2 : Boxes (pre ++ e' ++ post) bs' := by simpa [Boxes] using h2
  rw [er1] at e1
  rw [es1] at e2
  obtain ⟨l, hl⟩ := (C17_layout env o _ hfmt).1 hv
  cases boxes_unique h1 hl.boxes
  -- the JP2 header is the box that is replaced
  have key := split_unique (P := fun y : Bytes × Bytes => y.1 = ascii "jp2h") (A := ps) (a := (ascii "jp2h", p))
    (C := sh l.sig :: sh l.ft :: l.pre.map sh) (c := sh l.hd) (B := qs.map sh)
    (D := (l.mid ++ l.cs :: l.post).map sh) (by rw [← e1]; simp [Layout.rest]) rfl hl.hd
    (by
      intro y hy hj
      rcases List.mem_cons.1 hy with rfl | hy
      · exact absurd (hl.sig.symm.trans hj) (by decide)
      · rcases List.mem_cons.1 hy with rfl | hy
        · exact absurd (hl.ft.symm.trans hj) (by decide)
        · obtain ⟨z, hz, rfl⟩ := List.mem_map.1 hy
          exact hl.oneHd.1 ⟨z, hz, hj⟩)
    (by
      intro y hy hj
      obtain ⟨z, hz, rfl⟩ := List.mem_map.1 hy
      exact hl.oneHd.2 ⟨z, hz, hj⟩)
  obtain ⟨rfl, k2, k3⟩ := key
  have k2 : p = l.hd.payload := congrArg Prod.snd k2
  rw [k3] at e2
  simp only [List.map_append, List.map_cons, List.cons_append] at e2
  obtain ⟨sig', r1, rfl, f1, e2⟩ := List.map_eq_cons_iff.1 e2
  obtain ⟨ft', r2, rfl, f2, e2⟩ := List.map_eq_cons_iff.1 e2
  obtain ⟨pre', r3, rfl, f3, e2⟩ := List.map_eq_append_iff.1 e2
  obtain ⟨hd', r4, rfl, f4, e2⟩ := List.map_eq_cons_iff.1 e2
  obtain ⟨mid', r5, rfl, f5, e2⟩ := List.map_eq_append_iff.1 e2
  obtain ⟨cs', post', rfl, f6, f7⟩ := List.map_eq_cons_iff.1 e2
  have t1 : sig'.type = l.sig.type := congrArg Prod.fst f1
  have t2 : ft'.type = l.ft.type := congrArg Prod.fst f2
  have t4 : hd'.type = ascii "jp2h" := congrArg Prod.fst f4
  have p4 : hd'.payload = p' := congrArg Prod.snd f4
  have t6 : cs'.type = l.cs.type := congrArg Prod.fst f6
  have p6 : cs'.payload = l.cs.payload := congrArg Prod.snd f6
  -- the header passes
  have hbx : x :: hs = l.ih :: l.hrest := boxes_unique (k2 ▸ hb) hl.header
  cases hbx
  have hdp : BoxPasses env o (ascii "jp2h") l.hd.payload := by
    have := hl.passes l.hd (by simp [Layout.rest])
    rwa [hl.hd] at this
  obtain ⟨i2, r2, g1, g2, g3⟩ := (C18_header env o _).1 hdp
  cases boxes_unique g1 hl.header
  have hdp' : BoxPasses env o (ascii "jp2h") p' := by
    refine (C18_header env o p').2 ⟨x', hs', hb', ?_, headerOk_perm ex hp hc g3⟩
    intro y hy
    obtain ⟨z, hz, ez⟩ := List.mem_map.1 (hp'.mem_iff.2 (List.mem_map_of_mem hy))
    have := g2 z hz
    rwa [show z.type = y.type from congrArg Prod.fst ez, show z.payload = y.payload from congrArg Prod.snd ez] at this
  have hrest : ∀ t, ascii t ≠ ascii "jp2h" → ¬ Has l.rest t → ¬ Has (pre' ++ hd' :: (mid' ++ cs' :: post')) t := by
    rintro t ht hn ⟨y, hy, e⟩
    have hm : sh y ∈ (pre' ++ hd' :: (mid' ++ cs' :: post')).map sh := List.mem_map_of_mem hy
    simp only [List.map_append, List.map_cons, f3, f4, f5, f6, f7, List.mem_append, List.mem_cons] at hm
    have sy : sh y = (ascii t, y.payload) := by rw [sh, e]
    rw [sy] at hm
    refine hn ((has_sh _ _).2 ⟨y.payload, ?_⟩)
    simp only [Layout.rest, List.map_append, List.map_cons, List.mem_append, List.mem_cons]
    rcases hm with h | h | h | h | h
    · exact .inl h
    · exact absurd (congrArg Prod.fst h) ht
    · exact .inr (.inr (.inl h))
    · exact .inr (.inr (.inr (.inl h)))
    · exact .inr (.inr (.inr (.inr h)))
  have hafter : (mid' ++ cs' :: post').map sh = (l.mid ++ l.cs :: l.post).map sh := by
    simp [f5, f6, f7]
  refine (C17_layout env o _ hfmt).2 ⟨⟨sig', ft', pre', hd', mid', cs', post', x', hs', l.siz⟩, ?_⟩
  refine ⟨h2, ?_, t1.trans hl.sig, t2.trans hl.ft, t4, t6.trans hl.cs, hrest _ (by decide) hl.oneSig,
    hrest _ (by decide) hl.oneFt, ⟨not_has_sh f3 hl.oneHd.1, not_has_sh hafter hl.oneHd.2⟩,
    ⟨not_has_sh f3 hl.firstCs.1, not_has_sh f5 hl.firstCs.2⟩, ?_, ?_, ?_, ?_⟩
  · intro y hy
    have hm : sh y ∈ (sig' :: ft' :: (pre' ++ hd' :: (mid' ++ cs' :: post'))).map sh := List.mem_map_of_mem hy
    have hold : sh y ∈ (l.sig :: l.ft :: l.rest).map sh → BoxPasses env o y.type y.payload :=
      fun h => fileValid_passes hfmt hv h1 h
    simp only [List.map_append, List.map_cons, f1, f2, f3, f4, f5, f6, f7, List.mem_append, List.mem_cons] at hm
    simp only [Layout.rest, List.map_append, List.map_cons, List.mem_append, List.mem_cons] at hold
    rcases hm with h | h | h | h | h | h | h
    · exact hold (.inl h)
    · exact hold (.inr (.inl h))
    · exact hold (.inr (.inr (.inl h)))
    · rw [show y.type = ascii "jp2h" from congrArg Prod.fst h, show y.payload = p' from congrArg Prod.snd h]
      exact hdp'
    · exact hold (.inr (.inr (.inr (.inr (.inl h)))))
    · exact hold (.inr (.inr (.inr (.inr (.inr (.inl h))))))
    · exact hold (.inr (.inr (.inr (.inr (.inr (.inr h))))))
  · show Boxes hd'.payload _
    rw [p4]; exact hb'
  · show ∃ n, SegAt cs'.payload 2 SIZ l.siz n
    rw [p6]; exact hl.siz
  · intro hf
    have := hl.ipr (by rw [show l.ih.payload = x'.payload from hx.2.symm]; exact hf)
    by_cases hh : Has (pre' ++ hd' :: (mid' ++ cs' :: post')) "jp2i"
    · exact hh
    · exfalso
      obtain ⟨q, hq⟩ := (has_sh _ _).1 this
      refine hh ((has_sh _ _).2 ⟨q, ?_⟩)
      simp only [Layout.rest, List.map_append, List.map_cons, List.mem_append, List.mem_cons] at hq
      simp only [List.map_append, List.map_cons, f3, f4, f5, f6, f7, List.mem_append, List.mem_cons]
      rcases hq with h | h | h | h | h
      · exact .inl h
      · exact absurd ((congrArg Prod.fst h).trans hl.hd) (show ascii "jp2i" ≠ ascii "jp2h" by decide)
      · exact .inr (.inr (.inl h))
      · exact .inr (.inr (.inr (.inl h)))
      · exact .inr (.inr (.inr (.inr h)))
  · show SameImage (x' :: hs') x'.payload l.siz
    rw [hx.2]
    exact sameImage_perm hp' hl.image

/-! ## The hypotheses can be met -/

/-- An environment in which everything is well-formed XML. -/
def envXml : Env := ⟨fun _ => some (.node "x" []), fun c => c.toNat < 32, fun _ => "1.0"⟩

theorem wholeStart : WholeBoxes 2 (sig ++ ftyp "jp2 ") :=
  .cons (t := ascii "jP  ") rfl (.short (l := be32 12) rfl rfl)
    (.cons (t := ascii "ftyp") (e := ftyp "jp2 ") (es := []) rfl (.short (l := be32 20) rfl rfl) .nil)

/-- An XML box before the JP2 header. -/
example : FileValid envXml (opts .jp2)
    (sig ++ ftyp "jp2 " ++ box "xml " (ascii "<x/>") ++ (box "jp2h" (headerWith []) ++ box "jp2c" cs1)) :=
  (C65_xml envXml (opts .jp2) (.inl rfl) wholeStart (Nat.le_refl 2) (p := ascii "<x/>")
    (.short (l := be32 12) rfl rfl) _).2 ⟨fileValid_of 100 (by decide +kernel), rfl⟩

/-- A box that does not pass makes the file invalid. -/
example (env : Env) : ¬ FileValid env (opts .jp2)
    (sig ++ ftyp "jp2 " ++ box "uuid" (List.replicate 16 9) ++ (box "jp2h" (headerWith []) ++ box "jp2c" cs1)) := by
  intro h
  have := ((C65_uuid env (opts .jp2) (.inl rfl) wholeStart (Nat.le_refl 2) (p := List.replicate 16 9)
    (.short (l := be32 24) rfl rfl) _).1 h).2.1
  exact absurd this (by decide)

theorem wholeHeader : WholeBoxes 3 (sig ++ ftyp "jp2 " ++ box "jp2h" (headerWith [])) := by
  have h1 : EncodesBox (ascii "jP  ") [0x0d, 0x0a, 0x87, 0x0a] sig := .short (l := be32 12) rfl rfl
  have h2 : EncodesBox (ascii "ftyp") (ascii "jp2 " ++ be32 0 ++ ascii "jp2 ") (ftyp "jp2 ") := .short (l := be32 20) rfl rfl
  have h3 : EncodesBox (ascii "jp2h") (headerWith []) (box "jp2h" (headerWith [])) :=
    .short (l := be32 (8 + (headerWith []).length)) rfl (by decide)
  have := WholeBoxes.cons rfl h1 (.cons rfl h2 (.cons rfl h3 .nil))
  rwa [List.append_nil, ← List.append_assoc] at this

theorem encodesXml : EncodesBox (ascii "xml ") (ascii "<x/>") (box "xml " (ascii "<x/>")) := .short (l := be32 12) rfl rfl

theorem encodesCs : EncodesBox (ascii "jp2c") cs1 (box "jp2c" cs1) :=
  .short (l := be32 (8 + cs1.length)) rfl (by decide +kernel)

/-- An XML box and a codestream box, exchanged. -/
example : FileValid envXml (opts .jp2)
    (sig ++ ftyp "jp2 " ++ box "jp2h" (headerWith []) ++ box "xml " (ascii "<x/>") ++ box "jp2c" cs1 ++ []) :=
  (C65_exchange envXml (opts .jp2) (.inl rfl) wholeHeader (by omega) rfl rfl encodesXml encodesCs (.inl (by decide)) []).2
    (fileValid_of 100 (by decide +kernel))

/-- A resolution box, for the example below. -/
def resBox : Bytes := box "res " (box "resc" (be16 300 ++ be16 1 ++ be16 300 ++ be16 1 ++ [2, 2]))

/-- A JP2 header with the resolution box after or before the colour specification. -/
example : FileValid env0 (opts .jp2) (sig ++ ftyp "jp2 " ++ box "jp2h" (ihdr 1 1 1 7 ++ resBox ++ colr 17) ++ box "jp2c" cs1) :=
  C65_header env0 (opts .jp2) (.inl rfl) wholeStart (Nat.le_refl 2)
    (p := ihdr 1 1 1 7 ++ colr 17 ++ resBox) (p' := ihdr 1 1 1 7 ++ resBox ++ colr 17)
    (e := box "jp2h" (ihdr 1 1 1 7 ++ colr 17 ++ resBox)) (e' := box "jp2h" (ihdr 1 1 1 7 ++ resBox ++ colr 17))
    (.short (l := be32 71) rfl rfl) (.short (l := be32 71) rfl rfl)
    (x := ⟨0, ascii "ihdr", be32 1 ++ be32 1 ++ be16 1 ++ [7, 7, 0, 0]⟩)
    (x' := ⟨0, ascii "ihdr", be32 1 ++ be32 1 ++ be16 1 ++ [7, 7, 0, 0]⟩)
    (hs := [⟨22, ascii "colr", [1, 0, 0] ++ be32 17⟩,
      ⟨37, ascii "res ", box "resc" (be16 300 ++ be16 1 ++ be16 300 ++ be16 1 ++ [2, 2])⟩])
    (hs' := [⟨22, ascii "res ", box "resc" (be16 300 ++ be16 1 ++ be16 300 ++ be16 1 ++ [2, 2])⟩,
      ⟨48, ascii "colr", [1, 0, 0] ++ be32 17⟩])
    (boxes_of 10 (by decide +kernel)) (boxes_of 10 (by decide +kernel)) ⟨rfl, rfl⟩ (List.Perm.swap _ _ _)
    ⟨[⟨0, ascii "ihdr", be32 1 ++ be32 1 ++ be16 1 ++ [7, 7, 0, 0]⟩,
        ⟨22, ascii "res ", box "resc" (be16 300 ++ be16 1 ++ be16 300 ++ be16 1 ++ [2, 2])⟩],
      [⟨48, ascii "colr", [1, 0, 0] ++ be32 17⟩], [], rfl, by simp [Has, ascii], by simp, by simp [Has]⟩ _
    (fileValid_of 100 (by decide +kernel))

/-- The position matters for the boxes that make up the image: a codestream box before the JP2 header. -/
theorem C65_positions :
    FileValid env0 (opts .jp2) (sig ++ ftyp "jp2 " ++ box "jp2h" (headerWith []) ++ box "jp2c" cs1) ∧
    ¬ FileValid env0 (opts .jp2) (sig ++ ftyp "jp2 " ++ box "jp2c" cs1 ++ box "jp2h" (headerWith [])) :=
  ⟨fileValid_of 100 (by decide +kernel), not_fileValid_of 100 (by decide +kernel)⟩

end Jpy
