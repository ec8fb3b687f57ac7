import Verif.Spec.Unknown
import Verif.Lemmas.Super
import Verif.Lemmas.File
import Verif.Props.Superboxes
/-! # Boxes of unknown type have no influence -/

set_option linter.unusedSimpArgs false

namespace Jpy
open Spec

/-! ## Types -/

/-- The types of boxes, with further types that are not known. -/
inductive MoreT : Nat → List Bytes → List Bytes → Prop
  | nil {k} : MoreT k [] []
  | keep {k t ts ts'} : MoreT (k - 1) ts ts' → MoreT k (t :: ts) (t :: ts')
  | add {u ts ts'} : u ∉ knownBoxTypes → MoreT 0 ts ts' → MoreT 0 ts (u :: ts')

theorem moreIn_type {x x' : FoundBox} (h : MoreIn x x') : x'.type = x.type := by
  cases h <;> rfl

theorem more_types : ∀ {k bs bs'}, More k bs bs' → MoreT k (bs.map (·.type)) (bs'.map (·.type))
  | _, _, _, .nil => .nil
  | _, _, _, .keep h1 h2 => by
    simp only [List.map_cons, moreIn_type h1]
    exact .keep (more_types h2)
  | _, _, _, .add h1 h2 => .add h1.1 (more_types h2)

theorem moreT_mem {k ts ts'} (h : MoreT k ts ts') {t : Bytes} (ht : t ∈ knownBoxTypes) : (t ∈ ts') = (t ∈ ts) := by
  induction h with
  | nil => rfl
  | keep _ ih => simp only [List.mem_cons, ih]
  | add hu _ ih =>
    rw [List.mem_cons, ih, eq_iff_iff]
    exact ⟨fun h => h.resolve_left fun e => hu (e ▸ ht), .inr⟩

theorem moreT_count {k ts ts'} (h : MoreT k ts ts') {t : Bytes} (ht : t ∈ knownBoxTypes) :
    ts'.count t = ts.count t := by
  induction h with
  | nil => rfl
  | keep _ ih => simp only [List.count_cons, ih]
  | add hu _ ih =>
    rw [List.count_cons, ih, if_neg]
    · rfl
    · intro e; exact hu (eq_of_beq e ▸ ht)

theorem moreT_get {k ts ts'} (h : MoreT k ts ts') : ∀ i < k, ts'[i]? = ts[i]? := by
  induction h with
  | nil => exact fun _ _ => rfl
  | keep _ ih =>
    intro i hi
    cases i with
    | zero => rfl
    | succ i => exact ih i (by omega)
  | add _ _ _ => intro i hi; omega

theorem moreT_idx_lt {k ts ts'} (h : MoreT k ts ts') {a b : Bytes} (ha : a ∈ knownBoxTypes) (hb : b ∈ knownBoxTypes) :
    (ts'.idxOf a < ts'.idxOf b) = (ts.idxOf a < ts.idxOf b) := by
  induction h with
  | nil => rfl
  | keep _ ih =>
    rename_i t _ _ _
    simp only [List.idxOf_cons]
    cases t == a <;> cases t == b <;> simp_all
  | add hu _ ih =>
    rename_i u ts ts' _
    have h1 : (u == a) = false := beq_false_of_ne fun e => hu (e ▸ ha)
    have h2 : (u == b) = false := beq_false_of_ne fun e => hu (e ▸ hb)
    simp only [List.idxOf_cons, h1, h2]
    simpa using ih

theorem moreT_idx_gt {k ts ts'} (h : MoreT k ts ts') {a : Bytes} (ha : a ∈ knownBoxTypes) :
    ∀ i < k, (i < ts'.idxOf a) = (i < ts.idxOf a) := by
  induction h with
  | nil => exact fun _ _ => rfl
  | keep _ ih =>
    intro i hi
    rename_i t _ _ _
    simp only [List.idxOf_cons]
    cases t == a
    · cases i with
      | zero => simp
      | succ i => simpa using ih i (by omega)
    · rfl
  | add _ _ _ => intro i hi; omega

theorem more_append : ∀ {a' z' : List FoundBox} {k bs}, More k bs (a' ++ z') →
    ∃ a z k', bs = a ++ z ∧ More k a a' ∧ More k' z z'
  | [], z', k, bs, h => ⟨[], bs, k, rfl, .nil, h⟩
  | y :: a', z', k, bs, h => by
    cases h with
    | keep h1 h2 =>
      obtain ⟨a, z, k', rfl, h3, h4⟩ := more_append h2
      exact ⟨_, z, k', rfl, .keep h1 h3, h4⟩
    | add h1 h2 =>
      obtain ⟨a, z, k', rfl, h3, h4⟩ := more_append h2
      exact ⟨a, z, k', rfl, .add h1 h3, h4⟩

theorem more_from : ∀ {k bs bs'}, More k bs bs' → ∀ x ∈ bs, ∃ x' ∈ bs', x'.type = x.type
  | _, _, _, .nil, x, hx => by cases hx
  | _, _, _, .keep h1 h2, x, hx => by
    rcases List.mem_cons.1 hx with rfl | hx
    · exact ⟨_, List.mem_cons_self .., moreIn_type h1⟩
    · obtain ⟨y, hy, ht⟩ := more_from h2 x hx
      exact ⟨y, List.mem_cons_of_mem _ hy, ht⟩
  | _, _, _, .add h1 h2, x, hx => by
    obtain ⟨y, hy, ht⟩ := more_from h2 x hx
    exact ⟨y, List.mem_cons_of_mem _ hy, ht⟩

/-- Removing unknown boxes leaves the other boxes next to each other. -/
theorem more_together {k bs bs'} (h : More k bs bs') {t : String} (ht : Together bs' t) : Together bs t := by
  obtain ⟨a', m', z', rfl, ha, hm, hz⟩ := ht
  obtain ⟨am, z, _, rfl, h1, h2⟩ := more_append h
  obtain ⟨a, m, _, rfl, h3, h4⟩ := more_append h1
  refine ⟨a, m, z, rfl, ?_, ?_, ?_⟩
  · rintro ⟨x, hx, e⟩
    obtain ⟨y, hy, e'⟩ := more_from h3 x hx
    exact ha ⟨y, hy, e'.trans e⟩
  · intro x hx
    obtain ⟨y, hy, e'⟩ := more_from h4 x hx
    exact e'.symm.trans (hm y hy)
  · rintro ⟨x, hx, e⟩
    obtain ⟨y, hy, e'⟩ := more_from h2 x hx
    exact hz ⟨y, hy, e'.trans e⟩

/-! ## Elements -/

theorem moreElem_tag {e e' : Elem} (h : MoreElem e e') : e'.tag = e.tag := by cases h <;> rfl

theorem moreElem_plain {e e' : Elem} (h : MoreElem e e') (ht : e.tag ∉ ["jp2HeaderBox", "resolutionBox", "uuidInfoBox"]) :
    e' = e := by
  cases h with
  | same => rfl
  | super h1 _ => exact absurd h1 ht

theorem moreElems_refl : ∀ l : List Elem, MoreElems l l
  | [] => .nil
  | _ :: es => .keep .same (moreElems_refl es)

theorem moreElems_append : ∀ {a a' b b' : List Elem}, MoreElems a a' → MoreElems b b' → MoreElems (a ++ b) (a' ++ b')
  | _, _, _, _, .nil, h => h
  | _, _, _, _, .keep h1 h2, h => .keep h1 (moreElems_append h2 h)
  | _, _, _, _, .add h1 h2, h => .add h1 (moreElems_append h2 h)

theorem moreElem_children {e e' : Elem} (h : MoreElem e e') : MoreElems e.children e'.children := by
  cases h with
  | same => exact moreElems_refl _
  | super _ h => exact h

/-- Paths that end at something else than a superbox find the same. -/
theorem more_findall : ∀ {ts : List String} {l l' : List Elem}, MoreElems l l' → (∀ t ∈ ts, t ≠ "unknownBox") →
    (∀ t, ts.getLast? = some t → t ∉ ["jp2HeaderBox", "resolutionBox", "uuidInfoBox"]) →
    Elem.findall l' ts = Elem.findall l ts
  | [], _, _, _, _, _ => rfl
  | [t], l, l', h, hu, hl => by
    have ht := hl t rfl
    have h0 := hu t (List.mem_singleton.2 rfl)
    unfold Elem.findall
    exact go h ht h0
  | t :: t2 :: ts, l, l', h, hu, hl => by
    have h0 := hu t (List.mem_cons_self ..)
    have ih : ∀ {l l'}, MoreElems l l' → Elem.findall l' (t2 :: ts) = Elem.findall l (t2 :: ts) := fun h =>
      more_findall h (fun x hx => hu x (List.mem_cons_of_mem _ hx)) (fun x hx => hl x (by rw [List.getLast?_cons_cons]; exact hx))
    unfold Elem.findall
    exact go2 h h0 ih
where
  go : ∀ {t : String} {l l' : List Elem}, MoreElems l l' → t ∉ ["jp2HeaderBox", "resolutionBox", "uuidInfoBox"] →
      t ≠ "unknownBox" → l'.filter (·.tag == t) = l.filter (·.tag == t)
    | _, _, _, .nil, _, _ => rfl
    | t, _, _, .keep (e := e) (e' := e') h1 h2, ht, h0 => by
      rw [List.filter_cons, List.filter_cons, go h2 ht h0, moreElem_tag h1]
      split
      · rename_i he
        rw [moreElem_plain h1 (by rw [eq_of_beq he]; exact ht)]
      · rfl
    | t, _, _, .add h1 h2, ht, h0 => by
      rw [List.filter_cons, go h2 ht h0, if_neg]
      rw [h1]
      intro e
      exact h0 (eq_of_beq e).symm
  go2 : ∀ {t t2 : String} {ts : List String} {l l' : List Elem}, MoreElems l l' → t ≠ "unknownBox" →
      (∀ {l l'}, MoreElems l l' → Elem.findall l' (t2 :: ts) = Elem.findall l (t2 :: ts)) →
      (l'.filter (·.tag == t)).flatMap (fun e => Elem.findall e.children (t2 :: ts)) =
      (l.filter (·.tag == t)).flatMap (fun e => Elem.findall e.children (t2 :: ts))
    | _, _, _, _, _, .nil, _, _ => rfl
    | t, _, _, _, _, .keep (e := e) (e' := e') h1 h2, h0, ih => by
      rw [List.filter_cons, List.filter_cons, moreElem_tag h1]
      split
      · rw [List.flatMap_cons, List.flatMap_cons, go2 h2 h0 ih, ih (moreElem_children h1)]
      · exact go2 h2 h0 ih
    | t, _, _, _, _, .add h1 h2, h0, ih => by
      rw [List.filter_cons, if_neg]
      · exact go2 h2 h0 ih
      · rw [h1]
        intro e
        exact h0 (eq_of_beq e).symm

/-! ## Nodes -/

/-- Same tests, and unknown boxes added to the properties. -/
structure MoreNode (n n' : Node) : Prop where
  tests : n'.tests = n.tests
  chars : MoreElems n.chars n'.chars

theorem MoreNode.find {n n' : Node} (h : MoreNode n n') (ts : List String) (h1 : ∀ t ∈ ts, t ≠ "unknownBox")
    (h2 : ∀ t, ts.getLast? = some t → t ∉ ["jp2HeaderBox", "resolutionBox", "uuidInfoBox"]) :
    Elem.find n'.chars ts = Elem.find n.chars ts := by
  unfold Elem.find; rw [more_findall h.chars h1 h2]

theorem MoreNode.text {n n' : Node} (h : MoreNode n n') (ts : List String) (h1 : ∀ t ∈ ts, t ≠ "unknownBox")
    (h2 : ∀ t, ts.getLast? = some t → t ∉ ["jp2HeaderBox", "resolutionBox", "uuidInfoBox"]) :
    Elem.findElementText n'.chars ts = Elem.findElementText n.chars ts := by
  unfold Elem.findElementText; rw [h.find ts h1 h2]

theorem MoreNode.texts {n n' : Node} (h : MoreNode n n') (ts : List String) (h1 : ∀ t ∈ ts, t ≠ "unknownBox")
    (h2 : ∀ t, ts.getLast? = some t → t ∉ ["jp2HeaderBox", "resolutionBox", "uuidInfoBox"]) :
    Elem.findAllText n'.chars ts = Elem.findAllText n.chars ts := by
  unfold Elem.findAllText; rw [more_findall h.chars h1 h2]

theorem MoreNode.testFor {n n' : Node} (h : MoreNode n n') (v name) {r r' : Bool} (hr : r' = r) :
    MoreNode (n.testFor v name r) (n'.testFor v name r') := by
  subst hr
  exact ⟨by rw [testFor_tests, testFor_tests, h.tests], by rw [testFor_chars, testFor_chars]; exact h.chars⟩

theorem MoreNode.testIf {n n' : Node} (h : MoreNode n n') (v name) {c c' r r' : Bool} (hc : c' = c) (hr : r' = r) :
    MoreNode (n.testIf v c name r) (n'.testIf v c' name r') := by
  subst hc
  unfold Node.testIf
  split
  · exact h.testFor v name hr
  · exact h

/-- Related results of a box. -/
def MoreRes (r r' : BoxResult) : Prop := r'.tag = r.tag ∧ MoreElem r.charsElem r'.charsElem ∧ r'.testsElem = r.testsElem

/-- Related results of a list of boxes. -/
inductive MoreRess : List BoxResult → List BoxResult → Prop
  | nil : MoreRess [] []
  | keep {r r' rs rs'} : MoreRes r r' → MoreRess rs rs' → MoreRess (r :: rs) (r' :: rs')
  | add {u rs rs'} : u.tag = "unknownBox" → u.node.tests = [] → MoreRess rs rs' → MoreRess rs (u :: rs')

theorem moreRess_absorb : ∀ {rs rs'}, MoreRess rs rs' → ∀ {n n'}, MoreNode n n' →
    MoreNode (rs.foldl Node.absorb n) (rs'.foldl Node.absorb n')
  | _, _, .nil, _, _, h => h
  | _, _, .keep h1 h2, n, n', h => by
    refine moreRess_absorb h2 ⟨?_, ?_⟩
    · show Elem.appendIfNotEmpty _ _ = Elem.appendIfNotEmpty _ _
      rw [h.tests, h1.2.2]
    · exact moreElems_append h.chars (.keep h1.2.1 .nil)
  | _, _, .add (u := u) h1 h2 h3, n, n', h => by
    refine moreRess_absorb h3 ⟨?_, ?_⟩
    · show Elem.appendIfNotEmpty n'.tests u.testsElem = n.tests
      unfold Elem.appendIfNotEmpty
      rw [if_neg]
      · exact h.tests
      · simp [BoxResult.testsElem, Elem.node, Elem.children, h2]
    · have : n.chars = n.chars ++ [] := by simp
      rw [this]
      exact moreElems_append h.chars (.add h1 .nil)

/-! ## Boxes -/


theorem headerFinish_more (o : Options) {n n' : Node} (h : MoreNode n n') {hs hs' : List FoundBox}
    (hm : More 1 hs hs') (hc : Together hs "colr" → Together hs' "colr") :
    MoreNode (jp2HeaderFinish o n (hs.map (·.type))) (jp2HeaderFinish o n' (hs'.map (·.type))) := by
  have ht := more_types hm
  have hg : listOccurrencesAreContiguous (hs'.map (·.type)) tagColourSpecification =
      listOccurrencesAreContiguous (hs.map (·.type)) tagColourSpecification := by
    rw [Bool.eq_iff_iff, together_iff (k := tagColourSpecification) (s := "colr") rfl, together_iff (k := tagColourSpecification) (s := "colr") rfl]
    exact ⟨more_together hm, hc⟩
  have hh : (hs'.map (·.type)).head? = (hs.map (·.type)).head? := by
    rw [List.head?_eq_getElem?, List.head?_eq_getElem?]; exact moreT_get ht 0 (by decide)
  have hmem : ∀ {t : Bytes}, t ∈ knownBoxTypes → decide (t ∈ hs'.map (·.type)) = decide (t ∈ hs.map (·.type)) := by
    intro t h; exact decide_eq_decide.2 (by rw [moreT_mem ht h])
  have hcnt : ∀ {t : Bytes}, t ∈ knownBoxTypes →
      decide ((hs'.map (·.type)).count t ≤ 1) = decide ((hs.map (·.type)).count t ≤ 1) := by
    intro t h; rw [moreT_count ht h]
  unfold jp2HeaderFinish
  simp only []
  refine MoreNode.testFor ?_ _ _ ?_
  · refine .testFor (.testFor (.testFor (.testFor (.testFor (.testFor (.testFor (.testFor ?_
      _ _ ?_) _ _ ?_) _ _ ?_) _ _ ?_) _ _ ?_) _ _ ?_) _ _ ?_) _ _ ?_
    · cases o.format with
      | jp2 =>
        simp only [testFor_chars]
        refine .testIf (.testFor (.testFor h _ _ (hmem (by decide))) _ _ (hmem (by decide))) _ _ ?_ (hmem (by decide))
        rw [h.text _ (by decide) (by simp), h.text _ (by decide) (by simp)]
      | jph =>
        simp only [testFor_chars, testIf_chars]
        refine .testIf (.testIf (.testIf (.testFor h _ _ (hmem (by decide))) _ _ ?_ (hmem (by decide))) _ _ ?_ ?_)
          _ _ ?_ (hmem (by decide))
        · rw [h.text _ (by decide) (by simp)]
        · rw [hmem (by decide)]
        · rw [h.texts _ (by decide) (by simp)]
        · rw [h.text _ (by decide) (by simp), h.text _ (by decide) (by simp)]
      | j2c | jhc | other _ =>
        simp only [testFor_chars]
        refine .testIf (.testFor h _ _ (hmem (by decide))) _ _ ?_ (hmem (by decide))
        rw [h.text _ (by decide) (by simp), h.text _ (by decide) (by simp)]
    · rw [hh]
    all_goals first | exact hg | exact hcnt (by decide)
  · simp only [moreT_mem ht (show tagPalette ∈ knownBoxTypes by decide),
      moreT_mem ht (show tagComponentMapping ∈ knownBoxTypes by decide)]

theorem resolutionFinish_more (v : Bool) {n n' : Node} (h : MoreNode n n') {ts ts'} (ht : MoreT 0 ts ts') :
    MoreNode (resolutionFinish v n ts) (resolutionFinish v n' ts') := by
  unfold resolutionFinish
  refine .testFor (.testFor (.testFor h _ _ ?_) _ _ ?_) _ _ ?_
  · simp only [moreT_mem ht (show tagCaptureResolution ∈ knownBoxTypes by decide),
      moreT_mem ht (show tagDisplayResolution ∈ knownBoxTypes by decide)]
  · rw [moreT_count ht (by decide)]
  · rw [moreT_count ht (by decide)]

theorem uuidInfoFinish_more (v : Bool) {n n' : Node} (h : MoreNode n n') {ts ts'} (ht : MoreT 0 ts ts') :
    MoreNode (uuidInfoFinish v n ts) (uuidInfoFinish v n' ts') := by
  unfold uuidInfoFinish
  refine .testFor (.testFor h _ _ ?_) _ _ ?_
  · rw [moreT_count ht (by decide)]
  · rw [moreT_count ht (by decide)]

theorem moreNode_empty : MoreNode {} {} := ⟨rfl, .nil⟩

theorem moreRes_refl (r : BoxResult) : MoreRes r r := ⟨rfl, .same, rfl⟩

theorem moreRes_super {t : String} (ht : t ∈ ["jp2HeaderBox", "resolutionBox", "uuidInfoBox"]) {n n' : Node}
    (h : MoreNode n n') : MoreRes { tag := t, node := n } { tag := t, node := n' } :=
  ⟨rfl, .super ht h.chars, by simp only [BoxResult.testsElem, h.tests]⟩

/-- A superbox from its boxes. -/
theorem super_more {sub : Bytes → Bytes → Outcome BoxResult} {fuel : Nat} {p p' : Bytes} {hs hs'}
    (h : Boxes p hs) (h' : Boxes p' hs') (hf : hs.length < fuel) (hf' : hs'.length < fuel)
    (ih : OutRel MoreRess (inTurn (fun x => sub x.type x.payload) hs) (inTurn (fun x => sub x.type x.payload) hs'))
    {α : Type} {S : α → α → Prop} {f g : Node × List Bytes → Outcome α}
    (hfin : ∀ n n', MoreNode n n' → OutRel S (f (n, hs.map (·.type))) (g (n', hs'.map (·.type)))) :
    OutRel S (walkBoxes sub p fuel >>= f) (walkBoxes sub p' fuel >>= g) := by
  rw [walkBoxes_eq h hf, walkBoxes_eq h' hf']
  refine OutRel.bind (R := fun a b => ∃ n n', MoreNode n n' ∧ a = (n, hs.map (·.type)) ∧ b = (n', hs'.map (·.type)))
    (OutRel.bind ih fun rs rs' _ _ hr => .ok ⟨_, _, moreRess_absorb hr moreNode_empty, rfl, rfl⟩) ?_
  rintro _ _ _ _ ⟨n, n', hn, rfl, rfl⟩
  exact hfin n n' hn

mutual
theorem validateBox_more (env : Env) (o : Options) : ∀ {x x'}, MoreIn x x' → ∃ K, ∀ k ≥ K,
    OutRel MoreRes (validateBox env o k x.type x.payload) (validateBox env o k x'.type x'.payload)
  | _, _, .same => ⟨0, fun _ _ => OutRel.refl moreRes_refl _⟩
  | _, _, .header (hs := hs) (hs' := hs') ht hb hb' hm hc => by
    obtain ⟨K, hK⟩ := boxes_more env o hm
    refine ⟨K + hs.length + hs'.length + 2, fun k hk => ?_⟩
    obtain ⟨k, rfl⟩ : ∃ j, k = j + 1 := ⟨k - 1, by omega⟩
    subst ht
    show OutRel _ (validateBox env o (k + 1) tagJp2Header _) (validateBox env o (k + 1) tagJp2Header _)
    rw [validateBox, validateBox, show boxTypeOf tagJp2Header = .jp2HeaderBox from by decide]
    exact super_more hb hb' (by omega) (by omega) (hK k (by omega)) fun n n' hn =>
      .ok (moreRes_super (by decide) (headerFinish_more o hn hm hc))
  | _, _, .super (hs := hs) (hs' := hs') ht hb hb' hm => by
    obtain ⟨K, hK⟩ := boxes_more env o hm
    refine ⟨K + hs.length + hs'.length + 2, fun k hk => ?_⟩
    obtain ⟨k, rfl⟩ : ∃ j, k = j + 1 := ⟨k - 1, by omega⟩
    rcases ht with rfl | rfl
    · show OutRel _ (validateBox env o (k + 1) tagResolution _) (validateBox env o (k + 1) tagResolution _)
      rw [validateBox, validateBox, show boxTypeOf tagResolution = .resolutionBox from by decide]
      exact super_more hb hb' (by omega) (by omega) (hK k (by omega)) fun n n' hn =>
        .ok (moreRes_super (by decide) (resolutionFinish_more _ hn (more_types hm)))
    · show OutRel _ (validateBox env o (k + 1) tagUuidInfo _) (validateBox env o (k + 1) tagUuidInfo _)
      rw [validateBox, validateBox, show boxTypeOf tagUuidInfo = .uuidInfoBox from by decide]
      exact super_more hb hb' (by omega) (by omega) (hK k (by omega)) fun n n' hn =>
        .ok (moreRes_super (by decide) (uuidInfoFinish_more _ hn (more_types hm)))
theorem boxes_more (env : Env) (o : Options) : ∀ {j bs bs'}, More j bs bs' → ∃ K, ∀ k ≥ K,
    OutRel MoreRess (inTurn (fun x => validateBox env o k x.type x.payload) bs)
      (inTurn (fun x => validateBox env o k x.type x.payload) bs')
  | _, _, _, .nil => ⟨0, fun _ _ => .ok .nil⟩
  | _, _, _, .keep h1 h2 => by
    obtain ⟨K1, hK1⟩ := validateBox_more env o h1
    obtain ⟨K2, hK2⟩ := boxes_more env o h2
    refine ⟨K1 + K2, fun k hk => ?_⟩
    exact OutRel.bind (hK1 k (by omega)) fun r r' _ _ hr =>
      OutRel.bind (hK2 k (by omega)) fun rs rs' _ _ hrs => .ok (.keep hr hrs)
  | _, _, _, .add (u := u) (bs := bs) (bs' := bs') h1 h2 => by
    obtain ⟨K2, hK2⟩ := boxes_more env o h2
    refine ⟨K2 + 1, fun k hk => ?_⟩
    obtain ⟨k, rfl⟩ : ∃ j, k = j + 1 := ⟨k - 1, by omega⟩
    obtain ⟨r, hr, ht, -, -⟩ := C42_unknown env o k u.type u.payload h1.1 h1.2
    have hg : r.tag = "unknownBox" := by
      rw [validateBox_tag hr, unknown_type h1.1 h1.2]; rfl
    rw [show inTurn (fun x => validateBox env o (k + 1) x.type x.payload) (u :: bs') =
      (inTurn (fun x => validateBox env o (k + 1) x.type x.payload) bs' >>= fun ys => .ok (r :: ys)) from by
        simp only [inTurn, hr, Outcome.bind_ok]]
    have := hK2 (k + 1) (by omega)
    cases hx : inTurn (fun x => validateBox env o (k + 1) x.type x.payload) bs <;>
      cases hy : inTurn (fun x => validateBox env o (k + 1) x.type x.payload) bs' <;>
      rw [hx, hy] at this <;> cases this
    · rename_i h; exact .ok (.add hg ht h)
    · exact .raised _
    · exact .timeout
end

/-! ## Files -/

theorem moreElems_filter (p : String → Bool) : ∀ {l l' : List Elem}, MoreElems l l' →
    MoreElems (l.filter fun e => p e.tag) (l'.filter fun e => p e.tag)
  | _, _, .nil => .nil
  | _, _, .keep h1 h2 => by
    rw [List.filter_cons, List.filter_cons, moreElem_tag h1]
    split
    · exact .keep h1 (moreElems_filter p h2)
    · exact moreElems_filter p h2
  | _, _, .add h1 h2 => by
    rw [List.filter_cons]
    split
    · exact .add h1 (moreElems_filter p h2)
    · exact moreElems_filter p h2

theorem jp2Mid_more (o : Options) {n n' : Node} (h : MoreNode n n') {ts ts'} (ht : MoreT 2 ts ts') :
    MoreNode (jp2Mid o n ts) (jp2Mid o n' ts') := by
  have hmem : ∀ {t : Bytes}, t ∈ knownBoxTypes → decide (t ∈ ts') = decide (t ∈ ts) := by
    intro t h; exact decide_eq_decide.2 (by rw [moreT_mem ht h])
  have hcnt : ∀ {t : Bytes}, t ∈ knownBoxTypes → decide (ts'.count t ≤ 1) = decide (ts.count t ≤ 1) := by
    intro t h; rw [moreT_count ht h]
  unfold jp2Mid
  simp only [testFor_chars]
  refine .testFor (.testFor (.testFor (.testFor (.testFor (.testFor (.testIf (.testFor (.testFor (.testFor (.testFor h
    _ _ (hmem (by decide))) _ _ (hmem (by decide))) _ _ (hmem (by decide))) _ _ (hmem (by decide)))
    _ _ ?_ (hmem (by decide))) _ _ ?_) _ _ ?_) _ _ ?_) _ _ (hcnt (by decide))) _ _ (hcnt (by decide)))
    _ _ (hcnt (by decide))
  · rw [h.text _ (by decide) (by simp)]
  · rw [moreT_get ht 0 (by decide)]
  · rw [moreT_get ht 1 (by decide)]
  · unfold locationJP2HeaderBoxIsValid
    rw [hmem (by decide), hmem (by decide),
      decide_eq_decide.2 (iff_of_eq (moreT_idx_lt ht (a := tagJp2Header) (b := tagCodestream) (by decide) (by decide))),
      decide_eq_decide.2 (iff_of_eq (moreT_idx_gt ht (a := tagJp2Header) (by decide) 1 (by decide)))]

/-- Same tests, and unknown boxes added to the properties other than the compression ratio. -/
structure MoreFinal (n n' : Node) : Prop where
  tests : n'.tests = n.tests
  chars : MoreElems (n.chars.filter fun e => e.tag != "compressionRatio")
    (n'.chars.filter fun e => e.tag != "compressionRatio")
  ratio : (n'.chars.filter fun e => e.tag == "compressionRatio").length =
    (n.chars.filter fun e => e.tag == "compressionRatio").length

theorem moreElems_count {t : String} (ht : t ≠ "unknownBox") : ∀ {l l' : List Elem}, MoreElems l l' →
    (l'.filter fun e => e.tag == t).length = (l.filter fun e => e.tag == t).length
  | _, _, .nil => rfl
  | _, _, .keep h1 h2 => by
    rw [List.filter_cons, List.filter_cons, moreElem_tag h1]
    split
    · simp [moreElems_count ht h2]
    · exact moreElems_count ht h2
  | _, _, .add h1 h2 => by
    rw [List.filter_cons, if_neg]
    · exact moreElems_count ht h2
    · rw [h1]; intro e; exact ht (eq_of_beq e).symm

theorem MoreNode.final {n n' : Node} (h : MoreNode n n') : MoreFinal n n' :=
  ⟨h.tests, moreElems_filter (fun t => t != "compressionRatio") h.chars, moreElems_count (by decide) h.chars⟩

theorem MoreNode.final_ratio {n n' : Node} (h : MoreNode n n') (v v' : PyVal) :
    MoreFinal (n.addChar "compressionRatio" v) (n'.addChar "compressionRatio" v') := by
  have h0 := h.final
  refine ⟨h0.tests, ?_, ?_⟩
  · simp only [Node.addChar, List.filter_append]
    exact moreElems_append h0.chars .nil
  · simp only [Node.addChar, List.filter_append, List.length_append]
    rw [h0.ratio]; rfl

theorem siz_more (o : Options) (nb nb' : Int) {n n' : Node} (h : MoreNode n n') (ih sz : List Elem) :
    OutRel MoreFinal (sizConsistency o nb n ih sz) (sizConsistency o nb' n' ih sz) := by
  unfold sizConsistency
  refine OutRel.bind (OutRel.refl (R := Eq) (fun _ => rfl) _) ?_
  rintro a _ _ _ rfl
  refine OutRel.bind (OutRel.refl (R := Eq) (fun _ => rfl) _) ?_
  rintro b _ _ _ rfl
  refine OutRel.bind (OutRel.refl (R := Eq) (fun _ => rfl) _) ?_
  rintro c _ _ _ rfl
  refine OutRel.bind (OutRel.refl (R := Eq) (fun _ => rfl) _) ?_
  rintro d _ _ _ rfl
  simp only [testFor_chars]
  have hb : ∀ x y z, bpcValues n'.chars x y z = bpcValues n.chars x y z := by
    intro x y z
    unfold bpcValues
    rw [h.find _ (by decide) (by simp)]
  rw [hb]
  refine OutRel.bind (OutRel.refl (R := Eq) (fun _ => rfl) _) ?_
  rintro ⟨e, f⟩ _ _ _ rfl
  have hn : ∀ (v : Bool) (r1 r2 r3 r4 r5 : Bool) (a b c d e : String), MoreNode
      (((((n.testFor v a r1).testFor v b r2).testFor v c r3).testFor v d r4).testFor v e r5)
      (((((n'.testFor v a r1).testFor v b r2).testFor v c r3).testFor v d r4).testFor v e r5) :=
    fun v r1 r2 r3 r4 r5 a b c d e =>
    .testFor (.testFor (.testFor (.testFor (.testFor h _ _ rfl) _ _ rfl) _ _ rfl) _ _ rfl) _ _ rfl
  simp only []
  split
  · refine OutRel.bind (OutRel.refl (R := Eq) (fun _ => rfl) _) ?_
    rintro g _ _ _ rfl
    refine OutRel.bind (OutRel.refl (R := Eq) (fun _ => rfl) _) ?_
    rintro i _ _ _ rfl
    refine OutRel.bind (OutRel.refl (R := Eq) (fun _ => rfl) _) ?_
    rintro j _ _ _ rfl
    exact .ok ((hn ..).final_ratio _ _)
  · exact .ok (hn ..).final

theorem jp2Last_more (o : Options) (nb nb' : Int) {n n' : Node} (h : MoreNode n n') :
    OutRel MoreFinal (jp2Last o nb n) (jp2Last o nb' n') := by
  unfold jp2Last
  rw [h.find _ (by decide) (by simp), h.find _ (by decide) (by simp)]
  split
  · exact siz_more o nb nb' h _ _
  · exact .ok h.final

theorem validateJP2_more (env : Env) (o : Options) {b b' : Bytes} (h : MoreFile b b') :
    ∃ K, ∀ k ≥ K, OutRel MoreFinal (validateJP2 env o k b) (validateJP2 env o k b') := by
  obtain ⟨bs, bs', hb, hb', hm⟩ := h
  obtain ⟨K, hK⟩ := boxes_more env o hm
  refine ⟨K + bs.length + bs'.length + 1, fun k hk => ?_⟩
  unfold validateJP2
  exact super_more hb hb' (by omega) (by omega) (hK k (by omega)) fun n n' hn =>
    jp2Last_more o _ _ (jp2Mid_more o hn (more_types hm))

end Jpy
