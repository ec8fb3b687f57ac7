import Verif.Spec.Damage
import Verif.Props.Valid
import Verif.Props.PacketData
import Verif.Props.Formats
import Verif.Props.Complete
/-!
# C77: damage to the frame of an image is noticed
-/

namespace Jpy
open Spec

/-! ## Fields and bytes -/

theorem be_inj : ∀ {a b : Bytes}, a.length = b.length → be a = be b → a = b
  | [], [], _, _ => rfl
  | x :: xs, y :: ys, hl, h => by
    have hl' : xs.length = ys.length := by simpa using hl
    rw [be, be, hl'] at h
    have h1 := be_lt xs
    have h2 := be_lt ys
    rw [hl'] at h1
    generalize hP : 256 ^ ys.length = P at h h1 h2
    have hx : x.toNat = y.toNat := by
      have e1 : (x.toNat * P + be xs) / P = x.toNat := by
        rw [Nat.mul_comm, Nat.mul_add_div (by omega), Nat.div_eq_of_lt h1, Nat.add_zero]
      have e2 : (y.toNat * P + be ys) / P = y.toNat := by
        rw [Nat.mul_comm, Nat.mul_add_div (by omega), Nat.div_eq_of_lt h2, Nat.add_zero]
      rw [← e1, ← e2, h]
    rw [hx] at h
    rw [UInt8.toNat_inj.1 hx, be_inj hl' (by omega)]

theorem sub_getElem {b b' : Bytes} {off n i : Nat} (h : sub b' off n = sub b off n) (h1 : off ≤ i) (h2 : i < off + n) :
    b'[i]? = b[i]? := by
  have e := congrArg (fun l : Bytes => l[i - off]?) h
  simp only [Spec.sub] at e
  rw [List.getElem?_take_of_lt (by omega), List.getElem?_take_of_lt (by omega), List.getElem?_drop,
    List.getElem?_drop] at e
  rwa [show off + (i - off) = i by omega] at e

theorem uint_getElem_eq {b b' : Bytes} {off n v i : Nat} (h : uint b off n = some v) (h' : uint b' off n = some v)
    (h1 : off ≤ i) (h2 : i < off + n) : b'[i]? = b[i]? := by
  have hl := uint_some_le h
  have hl' := uint_some_le h'
  refine sub_getElem (be_inj ?_ ((uint_be h').trans (uint_be h).symm)) h1 h2
  rw [length_sub, length_sub]; omega

theorem Spec.OtherByte.field {i : Nat} {b b' : Bytes} (h : OtherByte i b b') {off n : Nat} (hn : 0 < n)
    (hi : i < off ∨ off + n ≤ i) : uint b' off n = uint b off n :=
  uint_congr hn fun j h1 h2 => h.others j (by omega)

theorem Spec.OtherByte.lt {i : Nat} {b b' : Bytes} (h : OtherByte i b b') : i < b.length := by
  refine Nat.lt_of_not_le fun hl => h.changed ?_
  rw [List.getElem?_eq_none (by rw [h.length]; exact hl), List.getElem?_eq_none hl]

/-- Fields of a segment are fields of the codestream. -/
theorem uint_seg {b : Bytes} {off : Nat} {m c : Bytes} {n} (h : SegAt b off m c n) {k w v : Nat} (hw : 0 < w)
    (hv : uint c k w = some v) : uint b (off + 2 + k) w = some v := by
  have hl := uint_some_le hv
  cases h with
  | alone => simp at hl; omega
  | @seg L hd hL =>
    rw [length_sub] at hl
    rwa [uint_sub (by omega) hw] at hv
  | noLength => simp at hl; omega

/-! ## Codestreams -/

theorem segsTo_congr {b b' stop : Bytes} {off k : Nat} {ss} (h : SegsTo b stop off ss (some k))
    (hb : ∀ i, i < k + 2 → b'[i]? = b[i]?) : SegsTo b' stop off ss (some k) := by
  generalize hK : some k = K at h
  induction h with
  | @found off c n hs =>
    cases hK
    have hm := segAt_marker hs
    have hm' : sub b' k 2 = stop := by rw [hm]; exact sub_congr fun i _ h2 => hb i h2
    obtain ⟨c', n', h'⟩ := segAt_exists b' k
    rw [hm'] at h'
    exact .found h'
  | @step off m c n ss e hs hm ht ih =>
    subst hK
    have := (segsTo_end ht).1
    exact .step (segAt_congr hs fun i _ h2 => hb i (by omega)) hm (ih rfl)
  | broken => cases hK

theorem tp_eq {b : Bytes} {t u : TilePartInfo} (ht : t.At b) (hu : u.At b) (hs : u.start = t.start) : u = t := by
  obtain ⟨s, i, l, p, n⟩ := t
  obtain ⟨s', i', l', p', n'⟩ := u
  cases hs
  have h1 := hu.index.symm.trans ht.index
  have h2 := hu.length.symm.trans ht.length
  have h3 := hu.part.symm.trans ht.part
  have h4 := hu.parts.symm.trans ht.parts
  cases h1; cases h2; cases h3; cases h4; rfl

theorem at_congr {b b' : Bytes} {t : TilePartInfo} (ht : t.At b)
    (hb : ∀ i, t.start ≤ i → i < t.start + 12 → b'[i]? = b[i]?) : t.At b' where
  marker := by rw [← ht.marker]; exact sub_congr fun i h1 h2 => hb i h1 (by omega)
  segLength := by rw [← ht.segLength]; exact uint_congr (by omega) fun i h1 h2 => hb i (by omega) (by omega)
  index := by rw [← ht.index]; exact uint_congr (by omega) fun i h1 h2 => hb i (by omega) (by omega)
  length := by rw [← ht.length]; exact uint_congr (by omega) fun i h1 h2 => hb i (by omega) (by omega)
  part := by rw [← ht.part]; exact uint_congr (by omega) fun i h1 h2 => hb i (by omega) (by omega)
  parts := by rw [← ht.parts]; exact uint_congr (by omega) fun i h1 h2 => hb i (by omega) (by omega)

/-- A visit goes on after a tile-part whose index is that of a tile. -/
theorem visited_rest {b : Bytes} {n : Int} {ts} {t : TilePartInfo} (h : Visited b n t.start ts) (ht : t.At b)
    (hi : (t.index : Int) < n) (hl : t.length ≠ 0) : t ∈ ts ∧ ∃ ts', Visited b n (t.start + t.length) ts' ∧ ts' ⊆ ts := by
  generalize hs : t.start = s at h
  cases h with
  | done hd => rw [← hs] at hd; exact absurd ht.marker hd
  | @last u hu hl' =>
    have := tp_eq ht hu hs.symm
    subst this
    rcases hl' with h | h
    · omega
    · exact absurd h hl
  | @step u us hu _ _ hv =>
    have := tp_eq ht hu hs.symm
    subst this
    exact ⟨List.mem_cons_self, us, hv, List.subset_cons_self _ _⟩

/-- A tile-part that is reached in a codestream is also reached in the codestream with a changed byte after its
marker. -/
theorem reached_other {b b' : Bytes} {n : Int} {first off i : Nat} (h : Reached b n first off) (ho : OtherByte i b b')
    (hi : off + 2 ≤ i) {ts ts'} (hv : Visited b n first ts) (hl : ∀ t ∈ ts, t.length = 0 ∨ 14 ≤ t.length)
    (hv' : Visited b' n first ts') :
    (∃ us, Visited b n off us ∧ us ⊆ ts) ∧ ∃ us, Visited b' n off us ∧ us ⊆ ts' := by
  induction h with
  | first => exact ⟨⟨ts, hv, fun _ h => h⟩, ts', hv', fun _ h => h⟩
  | @next t hr ha hx h0 hs ih =>
    have hlen : 14 ≤ t.length := by
      by_cases hge : t.start + 2 ≤ i
      · obtain ⟨⟨us, hu, hsub⟩, -⟩ := ih hge
        rcases hl t (hsub (visited_rest hu ha hx h0).1) with h | h
        · exact absurd h h0
        · exact h
      · omega
    obtain ⟨⟨us, hu, hsub⟩, us', hu', hsub'⟩ := ih (by omega)
    obtain ⟨-, vs, hvs, hsubv⟩ := visited_rest hu ha hx h0
    have ha' : t.At b' := at_congr ha fun j h1 h2 => ho.others j (by omega)
    obtain ⟨-, vs', hvs', hsubv'⟩ := visited_rest hu' ha' hx h0
    exact ⟨⟨vs, hvs, fun _ h => hsub (hsubv h)⟩, vs', hvs', fun _ h => hsub' (hsubv' h)⟩

theorem visited_first {b : Bytes} {n : Int} {off : Nat} {ts} (h : Visited b n off ts) (hs : sub b off 2 = SOT) :
    ∃ t ∈ ts, t.start = off := by
  cases h with
  | done hd => exact absurd hs hd
  | @last u hu hl' => exact ⟨u, List.mem_cons_self, rfl⟩
  | @step u us hu _ _ hv => exact ⟨u, List.mem_cons_self, rfl⟩

/-- C77 (codestreams): a valid codestream with a changed byte in its frame is not valid. -/
theorem C77_codestream {catC : Char → Bool} {fmt : Format} {b b' : Bytes} {i : Nat} (h : CodestreamValid catC fmt b)
    (hi : FrameByte b i) (ho : OtherByte i b b') : ¬ CodestreamValid catC fmt b' := by
  obtain ⟨p, hp⟩ := h
  rintro ⟨p', hp'⟩
  have hc := ho.changed
  have m1 := segAt_marker hp.sizAt
  have m1' := segAt_marker hp'.sizAt
  -- the length of the SIZ segment and the number of components
  have lens : ∀ {q : CodestreamParts} {c : Bytes}, q.Valid catC fmt c → ∃ n, uint c 40 2 = some n ∧ uint c 4 2 = some (38 + 3 * n) := by
    intro q c hq
    obtain ⟨n, h1, -, -, ⟨l, h2, rfl⟩, -⟩ := hq.siz.1.2.2.2.2.2.2.2.2.2
    exact ⟨n, uint_seg hq.sizAt (by omega) h1, uint_seg hq.sizAt (by omega) h2⟩
  obtain ⟨n, n1, n2⟩ := lens hp
  obtain ⟨n', n1', n2'⟩ := lens hp'
  cases hi with
  | start h6 =>
    by_cases h2 : i < 2
    · exact hc (sub_getElem (hp'.soc.trans hp.soc.symm) (Nat.zero_le _) (by omega))
    by_cases h4 : i < 4
    · exact hc (sub_getElem (m1'.symm.trans m1) (by omega) (by omega))
    · rw [ho.field (by omega) (by omega), n1] at n1'
      cases n1'
      exact hc (uint_getElem_eq n2 n2' (by omega) (by omega))
  | components h40 =>
    rw [ho.field (by omega) (by omega), n2] at n2'
    have : n' = n := by simp at n2'; omega
    subst this
    exact hc (uint_getElem_eq n1 n1' (by omega) (by omega))
  | last hl =>
    have := ho.lt
    have e := hp'.eoc.2
    rw [ho.length] at e
    exact hc (sub_getElem (e.trans hp.eoc.2.symm) (by omega) (by have := hp.eoc.1; omega))
  | @sotLength siz csiz main sot n off hm ht hr h1 h2 =>
    obtain ⟨⟨first, hs, hss⟩, hcs⟩ := hm
    obtain ⟨-, hsz, hf⟩ := segAt_unique hp.sizAt hs
    cases hf; subst hsz
    obtain ⟨-, hst⟩ := segsTo_unique hp.mainAt hss
    have hoff : sot ≤ off := by
      clear h1 h2 ht
      induction hr with
      | first => exact Nat.le_refl _
      | next _ _ _ _ _ ih => omega
    have hb : ∀ j, j < sot + 2 → b'[j]? = b[j]? := fun j hj => ho.others j (by omega)
    have hfirst := (segsTo_end hss).1
    obtain ⟨-, hsz', hf'⟩ := segAt_unique hp'.sizAt (segAt_congr hs fun j _ hj => hb j (by omega))
    have hss' := segsTo_congr hss hb
    have hm' := hp'.mainAt
    have ht' := hp'.tiles
    have hv' := hp'.visited
    have hv := hp.visited
    rw [hsz'] at ht'
    have hn : p'.tiles = n := tileCount_unique hp.siz.1.2.2.2.2.2.1 hp.siz.1.2.2.2.2.2.2.1 ht' ht
    have hn0 : p.tiles = n := tileCount_unique hp.siz.1.2.2.2.2.2.1 hp.siz.1.2.2.2.2.2.2.1 hp.tiles ht
    rw [Option.some.inj hf'] at hm'
    obtain ⟨-, hst'⟩ := segsTo_unique hm' hss'
    rw [hst', hn] at hv'
    rw [hst, hn0] at hv
    obtain ⟨-, us, hu, hsub⟩ := reached_other hr ho h1 hv (fun t ht => (hp.tps t ht).length) hv'
    have hsot : sub b' off 2 = SOT := by
      have : sub b off 2 = SOT := by cases hr <;> assumption
      rw [← this]
      exact sub_congr fun j _ hj => ho.others j (by omega)
    obtain ⟨t, ht1, rfl⟩ := visited_first hu hsot
    have e' := (hp'.tps t (hsub ht1)).at_.segLength
    obtain ⟨⟨us2, hu2, hsub2⟩, -⟩ := reached_other hr ho h1 hv (fun t ht => (hp.tps t ht).length) hv'
    have hsot2 : sub b t.start 2 = SOT := by
      rw [← hsot]
      exact (sub_congr fun j _ hj => ho.others j (by omega)).symm
    obtain ⟨t2, ht2, hs2⟩ := visited_first hu2 hsot2
    have e := (hp.tps t2 (hsub2 ht2)).at_.segLength
    rw [hs2] at e
    exact hc (uint_getElem_eq e e' (by omega) (by omega))

/-! ## JP2 and JPH files -/

/-- What a valid file says about the list of its boxes. -/
theorem valid_boxes {wf : Bytes → Prop} {catC : Char → Bool} {fmt : Format} (hf : fmt = .jp2 ∨ fmt = .jph)
    {f : Bytes} (h : ValidFile wf catC fmt f) {l : List (Bytes × Bytes)} (he : EncodesBoxes l f) :
    (∀ x ∈ l, BoxValid wf catC fmt x.1 x.2) ∧
    (∀ t ∈ [ascii "jP  ", ascii "ftyp", ascii "jp2h"], l.countP (·.1 == t) = 1) ∧
    ∃ hp cs ih hrest siz n, l.find? (·.1 == ascii "jp2h") = some (ascii "jp2h", hp) ∧
      l.find? (·.1 == ascii "jp2c") = some (ascii "jp2c", cs) ∧ Boxes hp (ih :: hrest) ∧
      SegAt cs 2 SIZ siz n ∧ SameImage (ih :: hrest) ih.payload siz := by
  obtain ⟨L, hL⟩ : ∃ L : Layout, L.Ok (BoxValid wf catC fmt) f := by
    rcases hf with rfl | rfl <;> exact h
  obtain ⟨bs, hb, rfl⟩ := (C10_roundtrip he).1
  obtain rfl := boxes_unique hb hL.boxes
  have hno : ∀ {bs : List FoundBox} {t : String}, ¬ Has bs t → ∀ x ∈ bs, ¬ (x.type = ascii t) :=
    fun h x hx ht => h ⟨x, hx, ht⟩
  have count0 : ∀ {bs : List FoundBox} {t : String}, ¬ Has bs t →
      (bs.map fun x => (x.type, x.payload)).countP (·.1 == ascii t) = 0 := by
    intro bs t h
    rw [List.countP_eq_zero]
    simp only [List.mem_map, forall_exists_index, and_imp, forall_apply_eq_imp_iff₂]
    intro x hx; simpa using hno h x hx
  have find0 : ∀ {bs : List FoundBox} {t : String}, ¬ Has bs t →
      (bs.map fun x => (x.type, x.payload)).find? (·.1 == ascii t) = none := by
    intro bs t h
    rw [List.find?_eq_none]
    simp only [List.mem_map, forall_exists_index, and_imp, forall_apply_eq_imp_iff₂]
    intro x hx; simpa using hno h x hx
  have e1 := hL.sig; have e2 := hL.ft; have e3 := hL.hd; have e4 := hL.cs
  refine ⟨?_, ?_, ?_⟩
  · intro x hx
    obtain ⟨y, hy, rfl⟩ := List.mem_map.1 hx
    exact hL.passes y hy
  · intro t ht
    simp only [List.mem_cons, List.not_mem_nil, or_false] at ht
    rcases ht with rfl | rfl | rfl
    · rw [List.map_cons, List.map_cons, List.countP_cons, List.countP_cons, count0 hL.oneSig]
      simp only [e1, e2]; decide
    · rw [List.map_cons, List.map_cons, List.countP_cons, List.countP_cons, count0 hL.oneFt]
      simp only [e1, e2]; decide
    · rw [List.map_cons, List.map_cons, List.countP_cons, List.countP_cons, Layout.rest, List.map_append,
        List.countP_append, count0 hL.oneHd.1, List.map_cons, List.countP_cons, count0 hL.oneHd.2]
      simp only [e1, e2, e3]; decide
  · obtain ⟨n, hn⟩ := hL.siz
    refine ⟨L.hd.payload, L.cs.payload, L.ih, L.hrest, L.siz, n, ?_, ?_, hL.header, hn, hL.image⟩
    · rw [List.map_cons, List.map_cons, List.find?_cons_of_neg, List.find?_cons_of_neg, Layout.rest, List.map_append,
        List.find?_append, find0 hL.oneHd.1, List.map_cons, List.find?_cons_of_pos, e3]
      · rfl
      · simp [e3]
      · simp only [e2]; decide
      · simp only [e1]; decide
    · rw [List.map_cons, List.map_cons, List.find?_cons_of_neg, List.find?_cons_of_neg, Layout.rest, List.map_append,
        List.find?_append, find0 hL.firstCs.1, List.map_cons, List.find?_cons_of_neg, List.map_append,
        List.find?_append, find0 hL.firstCs.2, List.map_cons, List.find?_cons_of_pos, e4]
      · rfl
      · simp [e4]
      · simp only [e3]; decide
      · simp only [e2]; decide
      · simp only [e1]; decide

theorem leaf_of {wf : Bytes → Prop} {catC : Char → Bool} {fmt : Format} {t p : Bytes}
    (h : BoxValid wf catC fmt t p) (ht : t ∉ superboxTypes) (hc : t ≠ ascii "jp2c") : LeafOk wf fmt t p := by
  cases h with
  | leaf _ _ h => exact h
  | header => exact absurd (by decide) ht
  | resolution => exact absurd (by decide) ht
  | uuidInfo => exact absurd (by decide) ht
  | codestream => exact absurd rfl hc

theorem cs_of {wf : Bytes → Prop} {catC : Char → Bool} {fmt : Format} {p : Bytes}
    (h : BoxValid wf catC fmt (ascii "jp2c") p) : CodestreamValid catC fmt p := by
  generalize ht : ascii "jp2c" = t at h
  cases h with
  | leaf _ h => exact absurd ht.symm h
  | header => exact absurd ht (by decide)
  | resolution => exact absurd ht (by decide)
  | uuidInfo => exact absurd ht (by decide)
  | codestream h => exact h

theorem header_of {wf : Bytes → Prop} {catC : Char → Bool} {fmt : Format} {p : Bytes}
    (h : BoxValid wf catC fmt (ascii "jp2h") p) {l : List (Bytes × Bytes)} (he : EncodesBoxes l p) :
    (∀ x ∈ l, BoxValid wf catC fmt x.1 x.2) ∧ ∃ ih rest, Boxes p (ih :: rest) ∧
      l = (ih :: rest).map (fun x => (x.type, x.payload)) ∧ HeaderOk fmt ih rest := by
  generalize ht : ascii "jp2h" = t at h
  cases h with
  | leaf h => rw [← ht] at h; exact absurd (by decide) h
  | resolution => exact absurd ht (by decide)
  | uuidInfo => exact absurd ht (by decide)
  | codestream h => exact absurd ht (by decide)
  | @header _ ih rest hb hv hh =>
    obtain ⟨bs, hb', rfl⟩ := (C10_roundtrip he).1
    obtain rfl := boxes_unique hb hb'
    refine ⟨fun x hx => ?_, ih, rest, hb, rfl, hh⟩
    obtain ⟨y, hy, rfl⟩ := List.mem_map.1 hx
    exact hv y hy

theorem count_mid (l1 l2 : List (Bytes × Bytes)) (x : Bytes × Bytes) (t : Bytes) :
    (l1 ++ x :: l2).countP (·.1 == t) = (l1 ++ l2).countP (·.1 == t) + if x.1 == t then 1 else 0 := by
  rw [List.countP_append, List.countP_append, List.countP_cons]; omega

theorem find_mid {l1 l2 : List (Bytes × Bytes)} {x : Bytes × Bytes} {t : Bytes}
    (h : (l1 ++ l2).countP (·.1 == t) = 0) (hx : x.1 = t) : (l1 ++ x :: l2).find? (·.1 == t) = some x := by
  have h1 : l1.find? (·.1 == t) = none := by
    rw [List.find?_eq_none]
    rw [List.countP_eq_zero] at h
    exact fun y hy => h y (List.mem_append_left _ hy)
  rw [List.find?_append, h1, List.find?_cons_of_pos (by simpa using hx)]; rfl

theorem find_skip {l1 l2 : List (Bytes × Bytes)} {x y : Bytes × Bytes} {t : Bytes} (hx : x.1 ≠ t) (hy : y.1 ≠ t) :
    (l1 ++ x :: l2).find? (·.1 == t) = (l1 ++ y :: l2).find? (·.1 == t) := by
  rw [List.find?_append, List.find?_append, List.find?_cons_of_neg (by simpa using hx),
    List.find?_cons_of_neg (by simpa using hy)]

theorem number_one {bs : List FoundBox} {t : String} (h : number bs t ≤ 1) {x y : FoundBox} (hx : x ∈ bs)
    (hy : y ∈ bs) (tx : x.type = ascii t) (ty : y.type = ascii t) : x = y := by
  have m1 : x ∈ bs.filter fun x => x.type == ascii t := List.mem_filter.2 ⟨hx, by simpa using tx⟩
  have m2 : y ∈ bs.filter fun x => x.type == ascii t := List.mem_filter.2 ⟨hy, by simpa using ty⟩
  unfold number at h
  generalize bs.filter (fun x => x.type == ascii t) = l at h m1 m2
  match l, h with
  | [], _ => cases m1
  | [z], _ => rw [List.mem_singleton.1 m1, List.mem_singleton.1 m2]
  | _ :: _ :: _, h => simp at h

/-- The codestream fields of the image size and the depths are determined by the JP2 header and each other. -/
theorem image_byte {fmt : Format} {ih : FoundBox} {rest : List FoundBox} {cs cs' siz siz' : Bytes} {n n' i}
    (hh : HeaderOk fmt ih rest) (hs : SegAt cs 2 SIZ siz n) (hs' : SegAt cs' 2 SIZ siz' n')
    (hm : SameImage (ih :: rest) ih.payload siz) (hm' : SameImage (ih :: rest) ih.payload siz')
    (hi : ImageByte cs i) (ho : OtherByte i cs cs') : False := by
  obtain ⟨h, w, nc, x, y, x0, y0, bpc, a1, a2, a3, a4, a5, a6, a7, a8, rfl, rfl, a9, a10, a11⟩ := hm
  obtain ⟨h', w', nc', x', y', x0', y0', bpc', b1, b2, b3, b4, b5, b6, b7, b8, rfl, rfl, b9, b10, b11⟩ := hm'
  cases a1.symm.trans b1; cases a2.symm.trans b2; cases a3.symm.trans b3; cases a4.symm.trans b4
  have f := fun {k w v} => uint_seg hs (k := k) (w := w) (v := v)
  have f' := fun {k w v} => uint_seg hs' (k := k) (w := w) (v := v)
  have hc := ho.changed
  cases hi with
  | size h8 h24 =>
    replace a5 := f (by omega) a5; replace a6 := f (by omega) a6
    replace a7 := f (by omega) a7; replace a8 := f (by omega) a8
    replace b5 := f' (by omega) b5; replace b6 := f' (by omega) b6
    replace b7 := f' (by omega) b7; replace b8 := f' (by omega) b8
    by_cases hx : i < 12
    · rw [ho.field (by omega) (by omega), a7] at b7
      cases b7
      exact hc (uint_getElem_eq a5 b5 (by omega) (by omega))
    by_cases hy : i < 16
    · rw [ho.field (by omega) (by omega), a8] at b8
      cases b8
      exact hc (uint_getElem_eq a6 b6 (by omega) (by omega))
    by_cases hx0 : i < 20
    · rw [ho.field (by omega) (by omega), a5] at b5
      have : x0' = x0 := by simp at b5; omega
      subst this
      exact hc (uint_getElem_eq a7 b7 (by omega) (by omega))
    · rw [ho.field (by omega) (by omega), a6] at b6
      have : y0' = y0 := by simp at b6; omega
      subst this
      exact hc (uint_getElem_eq a8 b8 (by omega) (by omega))
  | @depth m k hmn hk hik =>
    cases (f (by omega) a9).symm.trans hmn
    have key : ∃ v, uint siz (38 + 3 * k) 1 = some v ∧ uint siz' (38 + 3 * k) 1 = some v := by
      by_cases hb : bpc = 255
      · obtain ⟨z, z1, z2, z3, z4⟩ := a11 hb
        obtain ⟨z', z1', z2', z3', z4'⟩ := b11 hb
        have := number_one hh.2.2.1 z1 z1' z2 z2'
        subst this
        refine ⟨z.payload[k].toNat, ?_, ?_⟩
        · rw [z4 k hk]; exact uint_getElem (by omega)
        · rw [z4' k hk]; exact uint_getElem (by omega)
      · exact ⟨bpc, a10 hb k hk, b10 hb k hk⟩
    obtain ⟨v, v1, v2⟩ := key
    exact hc (uint_getElem_eq (f (by omega) v1) (f' (by omega) v2) (by omega) (by omega))

theorem take_of_uint {p p' : Bytes} {k : Nat} (hl : p'.length = p.length) (h : ∀ i < k, p'[i]? = p[i]?) :
    p'.take k = p.take k := by
  apply List.ext_getElem?
  intro i
  rw [List.getElem?_take, List.getElem?_take]
  split
  · exact h i (by assumption)
  · rfl

/-- C77 (boxes): damage to the frame of one of the boxes of a valid file makes it invalid. -/
theorem C77_boxes {wf : Bytes → Prop} {catC : Char → Bool} {fmt : Format} (hf : fmt = .jp2 ∨ fmt = .jph)
    {f f' : Bytes} {l l' : List (Bytes × Bytes)} (he : EncodesBoxes l f) (he' : EncodesBoxes l' f')
    (hd : DamagedBoxes l l') (h : ValidFile wf catC fmt f) : ¬ ValidFile wf catC fmt f' := by
  intro h'
  obtain ⟨v, c, hp, cs, ih, hrest, siz, n, f1, f2, hb, hs, him⟩ := valid_boxes hf h he
  obtain ⟨v', c', hp', cs', ih', hrest', siz', n', f1', f2', hb', hs', him'⟩ := valid_boxes hf h' he'
  cases hd with
  | @type l1 l2 t t' p ht hne =>
    have c := c t (by simpa using ht)
    have c' := c' t (by simpa using ht)
    rw [count_mid] at c c'
    rw [if_pos (by simp)] at c
    rw [if_neg (by simpa using hne)] at c'
    omega
  | @codestreamType l1 l2 t' p hno hne =>
    rw [List.find?_append, List.find?_cons_of_neg (by simpa using hne), ← List.find?_append] at f2'
    have := List.mem_of_find?_eq_some f2'
    exact hno _ this rfl
  | @signature l1 l2 p p' hne =>
    have a := (leaf_of (t := ascii "jP  ") (p := p) (v (ascii "jP  ", p) (by simp)) (by decide) (by decide)).signature rfl
    have b := (leaf_of (t := ascii "jP  ") (p := p') (v' (ascii "jP  ", p') (by simp)) (by decide) (by decide)).signature rfl
    exact hne (b.trans a.symm)
  | @fileType l1 l2 p p' hne =>
    have a := (leaf_of (t := ascii "ftyp") (p := p) (v (ascii "ftyp", p) (by simp)) (by decide) (by decide)).fileType rfl
    have b := (leaf_of (t := ascii "ftyp") (p := p') (v' (ascii "ftyp", p') (by simp)) (by decide) (by decide)).fileType rfl
    obtain ⟨-, ⟨z, a1, rfl⟩, a2⟩ := a
    obtain ⟨-, ⟨z, b1, rfl⟩, b2⟩ := b
    obtain ⟨br, hbr⟩ : ∃ br, brandOf fmt = some br := by rcases hf with rfl | rfl <;> exact ⟨_, rfl⟩
    have a3 := (a2 br hbr).1
    have b3 := (b2 br hbr).1
    refine hne ?_
    apply List.ext_getElem?
    intro i
    rw [List.getElem?_take, List.getElem?_take]
    split
    · by_cases h4 : i < 4
      · exact sub_getElem (b3.trans a3.symm) (Nat.zero_le _) (by omega)
      · exact uint_getElem_eq a1 b1 (by omega) (by omega)
    · rfl
  | @imageHeader l1 l2 p p' ip ip' hl e e' hne =>
    have hc := c (ascii "jp2h") (by decide)
    have hc' := c' (ascii "jp2h") (by decide)
    rw [count_mid, if_pos (by simp)] at hc hc'
    rw [find_mid (x := (ascii "jp2h", p)) (t := ascii "jp2h") (by omega) rfl] at f1
    rw [find_mid (x := (ascii "jp2h", p')) (t := ascii "jp2h") (by omega) rfl] at f1'
    cases f1; cases f1'
    rw [find_skip (x := (ascii "jp2h", hp)) (y := (ascii "jp2h", hp')) (t := ascii "jp2c") (show ascii "jp2h" ≠ _ by decide)
      (show ascii "jp2h" ≠ _ by decide)] at f2
    cases f2.symm.trans f2'
    obtain ⟨u, jh, jrest, jb, jl, jo⟩ := header_of (v (ascii "jp2h", hp) (by simp)) e
    obtain ⟨u', jh', jrest', jb', jl', jo'⟩ := header_of (v' (ascii "jp2h", hp') (by simp)) e'
    cases boxes_unique hb jb
    cases boxes_unique hb' jb'
    obtain ⟨-, rfl, -⟩ := segAt_unique hs hs'
    have i1 := (leaf_of (t := ascii "ihdr") (p := ip) (u (ascii "ihdr", ip) (by simp)) (by decide) (by decide)).imageHeader rfl
    have i1' := (leaf_of (t := ascii "ihdr") (p := ip') (u' (ascii "ihdr", ip') (by simp)) (by decide) (by decide)).imageHeader rfl
    simp only [List.map_cons, List.cons.injEq, Prod.mk.injEq] at jl jl'
    rw [← jl.1.2] at him
    rw [← jl'.1.2] at him'
    obtain ⟨h, w, nc, x, y, x0, y0, bpc, a1, a2, a3, a4, a5, a6, a7, a8, rfl, rfl, a9, -⟩ := him
    obtain ⟨h', w', nc', x', y', x0', y0', bpc', b1, b2, b3, b4, b5, b6, b7, b8, hh, hw, b9, -⟩ := him'
    cases a5.symm.trans b5; cases a6.symm.trans b6; cases a7.symm.trans b7; cases a8.symm.trans b8
    cases a9.symm.trans b9
    obtain rfl : h' = h := by omega
    obtain rfl : w' = w := by omega
    rcases hne with hne | hne
    · refine hne (take_of_uint (i1'.1.trans i1.1.symm) fun i hi => ?_)
      by_cases h4 : i < 4
      · exact uint_getElem_eq a1 b1 (by omega) (by omega)
      by_cases h8 : i < 8
      · exact uint_getElem_eq a2 b2 (by omega) (by omega)
      · exact uint_getElem_eq a3 b3 (by omega) (by omega)
    · obtain ⟨-, -, -, -, ⟨_, j1, rfl⟩, -⟩ := i1
      obtain ⟨-, -, -, -, ⟨_, j2, rfl⟩, -⟩ := i1'
      exact hne (uint_getElem_eq j1 j2 (by omega) (by omega))
  | @imageHeaderType l1 l2 p p' ip hl t' e e' hne =>
    obtain ⟨-, jh', jrest', -, jl', jo'⟩ := header_of (v' (ascii "jp2h", p') (by simp)) e'
    simp only [List.map_cons, List.cons.injEq, Prod.mk.injEq] at jl'
    exact hne (jl'.1.1.trans jo'.1)
  | @frame l1 l2 ds ds' i hi ho =>
    exact C77_codestream (cs_of (v (ascii "jp2c", ds) (by simp))) hi ho (cs_of (v' (ascii "jp2c", ds') (by simp)))
  | @image l1 l2 ds ds' i hno hi ho =>
    have first : ∀ ds, (l1 ++ (ascii "jp2c", ds) :: l2).find? (·.1 == ascii "jp2c") = some (ascii "jp2c", ds) := by
      intro ds
      rw [List.find?_append, List.find?_eq_none.2 (fun x hx => by simpa using hno x hx),
        List.find?_cons_of_pos (by simp)]; rfl
    rw [first] at f2 f2'
    cases f2; cases f2'
    rw [find_skip (x := (ascii "jp2c", cs)) (y := (ascii "jp2c", cs')) (t := ascii "jp2h")
        (show ascii "jp2c" ≠ _ by decide) (show ascii "jp2c" ≠ _ by decide)] at f1
    cases f1.symm.trans f1'
    cases boxes_unique hb hb'
    have hv : BoxValid wf catC fmt (ascii "jp2h") hp := v (ascii "jp2h", hp) (List.mem_of_find?_eq_some (by
      rw [find_skip (x := (ascii "jp2c", cs)) (y := (ascii "jp2c", cs')) (t := ascii "jp2h")
        (show ascii "jp2c" ≠ _ by decide) (show ascii "jp2c" ≠ _ by decide)]; exact f1'))
    have hh : HeaderOk fmt ih hrest := by
      generalize ht : ascii "jp2h" = t at hv
      cases hv with
      | leaf h => rw [← ht] at h; exact absurd (by decide) h
      | resolution => exact absurd ht (by decide)
      | uuidInfo => exact absurd ht (by decide)
      | codestream h => exact absurd ht (by decide)
      | header hb2 _ hh => cases boxes_unique hb hb2; exact hh
    exact image_byte hh hs hs' him him' hi ho

/-! ## The first bytes -/

theorem take_parts (b : Bytes) (k n : Nat) : b.take (k + n) = b.take k ++ sub b k n := by
  unfold Spec.sub; rw [List.take_add]

/-- C77 (first bytes): a valid JP2 or JPH file starts with one of two byte strings. -/
theorem C77_start {wf : Bytes → Prop} {catC : Char → Bool} {fmt : Format} (hf : fmt = .jp2 ∨ fmt = .jph) {f : Bytes}
    (h : ValidFile wf catC fmt f) : ∃ s ∈ starts, s <+: f := by
  obtain ⟨L, hL⟩ : ∃ L : Layout, L.Ok (BoxValid wf catC fmt) f := by
    rcases hf with rfl | rfl <;> exact h
  have hs := hL.passes L.sig List.mem_cons_self
  rw [hL.sig] at hs
  have hp := (leaf_of hs (by decide) (by decide)).signature rfl
  have ht := hL.sig
  have hb := hL.boxes
  generalize L.sig = x at hp ht hb
  cases hb with
  | @step _ t p n bs h0 hx hn =>
    have hn := boxesFrom_ne hn
    simp only at ht hp
    unfold SignatureOk at hp
    have be4 : ∀ {k n v : Nat} {s : Bytes}, uint f k n = some v → s.length = n → be s = v → sub f k n = s := by
      intro k n v s hu hl hv
      have := uint_some_le hu
      exact be_inj (by rw [length_sub]; omega) ((uint_be hu).trans hv.symm)
    cases hx with
    | @short N h1 h2 =>
      have hl := congrArg List.length hp
      rw [length_sub] at hl
      obtain rfl : N = 12 := by simp at hl; omega
      refine ⟨_, List.mem_cons_self, ?_⟩
      rw [List.prefix_iff_eq_take]
      have e1 : f.take 4 = [0, 0, 0, 12] := be4 h1 rfl (by decide)
      show _ = f.take 12
      rw [take_parts f 8 4, take_parts f 4 4, e1, ht, hp]; decide
    | @long X h1 h2 h3 =>
      have hl := congrArg List.length hp
      rw [length_sub] at hl
      obtain rfl : X = 20 := by simp at hl; omega
      refine ⟨_, List.mem_cons_of_mem _ List.mem_cons_self, ?_⟩
      rw [List.prefix_iff_eq_take]
      have e1 : f.take 4 = [0, 0, 0, 1] := be4 h1 rfl (by decide)
      have e2 : sub f 8 8 = [0, 0, 0, 0, 0, 0, 0, 20] := be4 h2 rfl (by decide)
      show _ = f.take 20
      rw [take_parts f 16 4, take_parts f 8 8, take_parts f 4 4, e1, ht, e2, hp]; decide
    | toEnd => omega
    | longToEnd => omega

/-- **C77.** Damage to the frame of a valid file makes it invalid. -/
theorem C77_noticed {wf : Bytes → Prop} {catC : Char → Bool} {fmt : Format} {f f' : Bytes} (hd : Damaged fmt f f')
    (h : ValidFile wf catC fmt f) : ¬ ValidFile wf catC fmt f' := by
  cases hd with
  | @start i hf hi ho =>
    intro h'
    obtain ⟨s, hs, r, hr⟩ := C77_start hf h
    obtain ⟨s', hs', r', hr'⟩ := C77_start hf h'
    have key : ∀ {s r f : Bytes} {j}, s ∈ starts → s ++ r = f → j < 12 → f[j]? = s[j]? := by
      intro s r f j hs hr hj
      have : 12 ≤ s.length := by
        simp only [starts, List.mem_cons, List.not_mem_nil, or_false] at hs
        rcases hs with rfl | rfl <;> decide
      rw [← hr, List.getElem?_append_left (by omega)]
    have k1 := fun j hj => key (j := j) hs hr hj
    have k2 := fun j hj => key (j := j) hs' hr' hj
    have eq : ∀ j, j < 12 → j ≠ i → s'[j]? = s[j]? := fun j hj hne => by
      rw [← k1 j hj, ← k2 j hj]; exact ho.others j hne
    have same : s' = s := by
      have e3 : 3 ≠ i → s'[3]? = s[3]? := eq 3 (by omega)
      have e8 : 8 ≠ i → s'[8]? = s[8]? := eq 8 (by omega)
      have : 3 ≠ i ∨ 8 ≠ i := by omega
      simp only [starts, List.mem_cons, List.not_mem_nil, or_false] at hs hs'
      rcases hs with rfl | rfl <;> rcases hs' with rfl | rfl <;> first | rfl | skip
      all_goals
        rcases this with h | h
        · exact absurd (e3 h) (by decide)
        · exact absurd (e8 h) (by decide)
    subst same
    exact ho.changed (by rw [k1 i hi, k2 i hi])
  | boxes hf he he' hd => exact C77_boxes hf he he' hd h
  | codestream hf hi ho =>
    rcases hf with rfl | rfl <;> exact C77_codestream h hi ho

/-- C77 (reports): if the report on a file says that it is valid, no report on the file after damage to its frame
does. -/
theorem C77_report {env : Env} {me : MixEnv} {fs : FS} {fuel fuel' : Nat} {o : Options} {mix mix' : Nat}
    {path : PyStr} {f f' : Bytes} {rep rep' : Elem} (hr : fs.read path = .data f)
    (h : checkOneFile env me fs fuel o mix path = .ok rep) (hv : verdict rep = some (.str "True"))
    (hd : Damaged o.format f f') (h' : checkOneFile env me (fs.replace path f') fuel' o mix' path = .ok rep') :
    verdict rep' ≠ some (.str "True") := by
  have a := ((C76_verdict env me fs fuel o mix path rep h).1 hv).2
  rw [hr] at a
  intro hv'
  have b := ((C76_verdict env me _ fuel' o mix' path rep' h').1 hv').2
  refine C77_noticed hd a ?_
  have : bytesRead ((fs.replace path f').read path) = f' := by simp [FS.replace, bytesRead]
  rwa [this] at b

/-- A byte set to another value. -/
theorem otherByte_set {b : Bytes} {i : Nat} {x v : UInt8} (hx : b[i]? = some x) (hv : v ≠ x) :
    OtherByte i b (b.set i v) where
  length := List.length_set
  changed := by
    have : i < b.length := (List.getElem?_eq_some_iff.1 hx).1
    rw [List.getElem?_set_self this, hx]
    exact fun h => hv (Option.some.inj h)
  others := fun j hj => List.getElem?_set_ne (Ne.symm hj)

open Sample in
/-- Not all damage is noticed: in a JP2 file the UnkC field and the width of the tiles, and in a codestream that is a
file of its own the offset of the image, can change (in this example to an image of width zero). -/
theorem C77_false : (OtherByte 60 jp2 (jp2.set 60 1) ∧ FileValid env0 (opts .jp2) jp2 ∧
      FileValid env0 (opts .jp2) (jp2.set 60 1)) ∧
    (OtherByte 112 jp2 (jp2.set 112 2) ∧ FileValid env0 (opts .jp2) (jp2.set 112 2)) ∧
    OtherByte 19 cs1 (cs1.set 19 1) ∧ FileValid env0 (opts .j2c) cs1 ∧ FileValid env0 (opts .j2c) (cs1.set 19 1) := by
  refine ⟨⟨otherByte_set (x := 0) (by decide) (by decide), fileValid_of 100 (by decide +kernel),
    fileValid_of 100 (by decide +kernel)⟩, ⟨otherByte_set (x := 1) (by decide) (by decide),
    fileValid_of 100 (by decide +kernel)⟩, otherByte_set (x := 0) (by decide) (by decide),
    fileValid_of 100 (by decide +kernel), fileValid_of 100 (by decide +kernel)⟩

/-! ## Examples -/

open Sample in
/-- The boxes of the sample file, with other contents of the last two. -/
theorem jp2_encoded {h p : Bytes} (hh : be (be32 (8 + h.length)) = 8 + h.length)
    (hp : be (be32 (8 + p.length)) = 8 + p.length) :
    EncodesBoxes ([(ascii "jP  ", [0x0d, 0x0a, 0x87, 0x0a]), (ascii "ftyp", ascii "jp2 " ++ be32 0 ++ ascii "jp2 ")] ++
      [(ascii "jp2h", h), (ascii "jp2c", p)]) (sig ++ ftyp "jp2 " ++ box "jp2h" h ++ box "jp2c" p) := by
  have e : sig ++ ftyp "jp2 " ++ box "jp2h" h ++ box "jp2c" p =
      sig ++ (ftyp "jp2 " ++ (box "jp2h" h ++ (box "jp2c" p ++ []))) := by simp
  rw [e]
  exact .cons rfl (.short (l := be32 12) rfl rfl) (.cons rfl (.short (l := be32 20) rfl rfl)
    (.cons rfl (.short (l := be32 (8 + h.length)) rfl hh) (.cons rfl (.short (l := be32 (8 + p.length)) rfl hp) .nil)))

open Sample in
/-- `C77_noticed` at work: in the sample file a changed byte of the signature, another width in the image header, and
another width in the codestream. -/
example : ¬ FileValid env0 (opts .jp2) (jp2.set 9 11) ∧
    ¬ FileValid env0 (opts .jp2) (sig ++ ftyp "jp2 " ++ box "jp2h" (ihdr 1 2 1 7 ++ colr 17) ++ box "jp2c" cs1) ∧
    ¬ FileValid env0 (opts .jp2)
      (sig ++ ftyp "jp2 " ++ box "jp2h" (ihdr 1 1 1 7 ++ colr 17) ++ box "jp2c" (cs1.set 11 2)) := by
  have hv := (C76_file env0 (opts .jp2) jp2).1 (fileValid_of 100 (by decide +kernel))
  have e : ∀ w, EncodesBoxes [(ascii "ihdr", be32 1 ++ be32 w ++ be16 1 ++ [UInt8.ofNat 7, 7, 0, 0]),
      (ascii "colr", [1, 0, 0] ++ be32 17)] (ihdr 1 w 1 7 ++ colr 17) := by
    intro w
    rw [show ihdr 1 w 1 7 ++ colr 17 = ihdr 1 w 1 7 ++ (colr 17 ++ []) by simp]
    exact .cons rfl (.short (l := be32 22) rfl rfl) (.cons rfl (.short (l := be32 15) rfl rfl) .nil)
  refine ⟨fun h => C77_noticed (.start (.inl rfl) (i := 9) (by decide) (otherByte_set (x := 10) (by decide) (by decide))) hv
      ((C76_file _ _ _).1 h), fun h => ?_, fun h => ?_⟩
  · exact C77_noticed (.boxes (.inl rfl) (jp2_encoded (by decide) (by decide)) (jp2_encoded (by decide) (by decide))
      (.imageHeader (e 1) (e 2) (.inl (by decide)))) hv ((C76_file _ _ _).1 h)
  · refine C77_noticed (.boxes (.inl rfl) (jp2_encoded (by decide) (by decide)) (jp2_encoded (by decide) (by decide))
      ?_) hv ((C76_file _ _ _).1 h)
    exact .image (i := 11) (l1 := [(ascii "jP  ", [0x0d, 0x0a, 0x87, 0x0a]),
      (ascii "ftyp", ascii "jp2 " ++ be32 0 ++ ascii "jp2 "), (ascii "jp2h", ihdr 1 1 1 7 ++ colr 17)]) (l2 := [])
      (by simp only [List.mem_cons, List.not_mem_nil, or_false]; rintro x (rfl | rfl | rfl) <;> decide)
      (.size (by decide) (by decide)) (otherByte_set (x := 1) (by decide) (by decide))

open Sample in
/-- `C77_codestream` at work: a changed byte in the length of the SOT segment. -/
example : ¬ FileValid env0 (opts .j2c) (cs1.set 68 12) := by
  have hv := (C76_file env0 (opts .j2c) cs1).1 (fileValid_of 100 (by decide +kernel))
  obtain ⟨p, hp⟩ : CodestreamValid env0.catC .j2c cs1 := id hv
  have hs : p.sot = some 65 := by
    have h1 : SegAt cs1 2 SIZ (sub cs1 4 41) (some 45) := .seg (L := 41) (by decide) (by decide)
    have h2 : SegsTo cs1 SOT 45 [⟨45, COD, sub cs1 47 12⟩, ⟨59, QCD, sub cs1 61 4⟩] (some 65) :=
      .step (.seg (L := 12) (by decide) (by decide)) (by decide)
        (.step (.seg (L := 4) (by decide) (by decide)) (by decide) (.found (.seg (L := 10) (by decide) (by decide))))
    have e := (segAt_unique hp.sizAt h1).2.2
    have hm := hp.mainAt
    rw [Option.some.inj e] at hm
    exact (segsTo_unique hm h2).2
  have hm := hp.mainAt
  rw [hs] at hm
  intro h
  exact C77_noticed (.codestream (.inl rfl) (.sotLength ⟨⟨_, hp.sizAt, hm⟩, hp.csiz⟩ hp.tiles (.first (by decide))
    (by decide) (by decide)) (otherByte_set (x := 10) (by decide) (by decide))) hv ((C76_file _ _ _).1 h)

end Jpy
