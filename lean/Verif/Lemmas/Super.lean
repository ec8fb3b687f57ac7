import Verif.Lemmas.Walk
import Verif.Spec.Structure
/-! # Results of boxes inside superboxes -/

namespace Jpy
open Spec

/-! ## Box types and tags -/

theorem name_inj {a b : BoxType} (h : a.name = b.name) : a = b := by
  cases a <;> cases b <;> first | rfl | (exfalso; revert h; decide)

theorem lookup_mem {m : Bytes} {t : BoxType} : ∀ {l : List (Bytes × BoxType)}, l.lookup m = some t →
    (m, t) ∈ l
  | [], h => by cases h
  | (k, v) :: l, h => by
    rw [List.lookup_cons] at h
    split at h
    · rename_i hk
      cases h
      rw [beq_iff_eq] at hk
      subst hk; exact List.mem_cons_self
    · exact List.mem_cons_of_mem _ (lookup_mem h)

theorem boxTypeOf_mem {m : Bytes} {t : BoxType} (h : boxTypeOf m = t) (ht : t ≠ .unknownBox) :
    (m, t) ∈ typeMap := by
  unfold boxTypeOf at h
  cases hl : typeMap.lookup m with
  | none => rw [hl] at h; exact absurd h.symm ht
  | some t' =>
    rw [hl] at h
    cases h
    exact lookup_mem hl

/-- A known type belongs to one byte string only. -/
theorem boxTypeOf_iff {k : Bytes} {t : BoxType} (hk : typeMap.lookup k = some t) (ht : t ≠ .unknownBox)
    (m : Bytes) : boxTypeOf m = t ↔ m = k := by
  constructor
  · intro h
    have h1 := boxTypeOf_mem h ht
    have h2 := lookup_mem hk
    have hu : ∀ x ∈ typeMap, ∀ y ∈ typeMap, x.2 = y.2 → x.1 = y.1 := by decide
    exact hu _ h1 _ h2 rfl
  · rintro rfl
    exact boxTypeOf_marker hk

theorem validateBox_tag {env o fuel t p r} (h : validateBox env o fuel t p = .ok r) :
    r.tag = (boxTypeOf t).name := by
  cases fuel with
  | zero => cases h
  | succ fuel =>
    unfold validateBox at h
    cases hb : boxTypeOf t <;> rw [hb] at h <;> simp only at h
    case jp2HeaderBox => obtain ⟨⟨_, _⟩, _, h⟩ := Outcome.bind_eq_ok.1 h; cases h; rfl
    case resolutionBox => obtain ⟨⟨_, _⟩, _, h⟩ := Outcome.bind_eq_ok.1 h; cases h; rfl
    case uuidInfoBox => obtain ⟨⟨_, _⟩, _, h⟩ := Outcome.bind_eq_ok.1 h; cases h; rfl
    case contiguousCodestreamBox => obtain ⟨_, _, h⟩ := Outcome.bind_eq_ok.1 h; cases h; rfl
    case tilePart => cases h
    all_goals
      obtain ⟨ss, _, h⟩ := Outcome.bind_eq_ok.1 h
      cases h
      rw [hb]

theorem validateBox_tag_iff {env o fuel t p r} (h : validateBox env o fuel t p = .ok r) {k : Bytes}
    {bt : BoxType} (hk : typeMap.lookup k = some bt) (ht : bt ≠ .unknownBox) :
    (r.tag == bt.name) = (t == k) := by
  rw [validateBox_tag h, Bool.eq_iff_iff, beq_iff_eq, beq_iff_eq, ← boxTypeOf_iff hk ht]
  exact ⟨name_inj, fun h => by rw [h]⟩

theorem inTurn_filter {α β : Type} {f : α → Outcome β} {p : α → Bool} {q : β → Bool} :
    ∀ {xs : List α} {ys : List β}, inTurn f xs = .ok ys →
      (∀ x y, f x = .ok y → q y = p x) → inTurn f (xs.filter p) = .ok (ys.filter q)
  | [], ys, h, _ => by cases h; rfl
  | x :: xs, ys, h, hq => by
    obtain ⟨y, hy, h⟩ := Outcome.bind_eq_ok.1 h
    obtain ⟨zs, hz, h⟩ := Outcome.bind_eq_ok.1 h
    cases h
    have ih := inTurn_filter hz hq
    rw [List.filter_cons, List.filter_cons, hq x y hy]
    split
    · simp [inTurn, hy, ih]
    · exact ih

theorem inTurn_nil {α β : Type} {f : α → Outcome β} {xs : List α} (h : inTurn f xs = .ok []) :
    xs = [] := by
  have := (inTurn_ok.1 h).1
  exact List.eq_nil_of_length_eq_zero this.symm

theorem inTurn_cons {α β : Type} {f : α → Outcome β} {x : α} {xs : List α} {ys : List β} :
    inTurn f (x :: xs) = .ok ys ↔ ∃ y zs, ys = y :: zs ∧ f x = .ok y ∧ inTurn f xs = .ok zs := by
  constructor
  · intro h
    obtain ⟨y, hy, h⟩ := Outcome.bind_eq_ok.1 h
    obtain ⟨zs, hz, h⟩ := Outcome.bind_eq_ok.1 h
    cases h
    exact ⟨y, zs, rfl, hy, hz⟩
  · rintro ⟨y, zs, rfl, hy, hz⟩
    simp [inTurn, hy, hz]

/-! ## Lookups -/

theorem findElementText_eq (cs : List Elem) (p : List String) :
    Elem.findElementText cs p = (Elem.findAllText cs p).head? := by
  unfold Elem.findElementText Elem.find Elem.findAllText
  rw [List.head?_map]

theorem findall_cons2 (cs : List Elem) (t u : String) (ts : List String) :
    Elem.findall cs (t :: u :: ts) =
      (cs.filter (·.tag == t)).flatMap fun e => Elem.findall e.children (u :: ts) := rfl

theorem findall_results (rs : List BoxResult) (t u : String) (ts : List String) :
    Elem.findall (rs.map (·.charsElem)) (t :: u :: ts) =
      (rs.filter (·.tag == t)).flatMap fun r => Elem.findall r.node.chars (u :: ts) := by
  rw [findall_cons2, List.filter_map, List.flatMap_map]
  rfl

theorem findAllText_results (rs : List BoxResult) (t u : String) (ts : List String) :
    Elem.findAllText (rs.map (·.charsElem)) (t :: u :: ts) =
      (rs.filter (·.tag == t)).flatMap fun r => Elem.findAllText r.node.chars (u :: ts) := by
  unfold Elem.findAllText
  rw [findall_results, List.map_flatMap]

theorem findall_results1 (rs : List BoxResult) (t : String) :
    Elem.findall (rs.map (·.charsElem)) [t] = (rs.filter (·.tag == t)).map (·.charsElem) := by
  rw [Elem.findall, List.filter_map]; rfl

/-! ## Combining fuel -/

theorem accepted_mono {f : Nat → Outcome BoxResult} (hm : ∀ a b, a ≤ b → Le (f a) (f b)) {a b : Nat}
    (h : a ≤ b) (ha : Accepted (f a)) : Accepted (f b) := by
  obtain ⟨r, hr, hn⟩ := ha
  exact ⟨r, (hm a b h).ok hr, hn⟩

theorem validateBox_accepted_mono {env o t p} {a b : Nat} (h : a ≤ b)
    (ha : Accepted (validateBox env o a t p)) : Accepted (validateBox env o b t p) :=
  accepted_mono (f := fun k => validateBox env o k t p) (fun _ _ h => validateBox_le env o h t p) h ha

theorem fuel_forall {α : Type} {P : α → Nat → Prop} (hm : ∀ x a b, a ≤ b → P x a → P x b) :
    ∀ (l : List α), (∀ x ∈ l, ∃ k, P x k) → ∃ k, ∀ x ∈ l, P x k
  | [], _ => ⟨0, fun _ h => nomatch h⟩
  | x :: l, h => by
    obtain ⟨k, hk⟩ := h x (by simp)
    obtain ⟨k', hk'⟩ := fuel_forall hm l fun y hy => h y (by simp [hy])
    refine ⟨max k k', fun y hy => ?_⟩
    rcases List.mem_cons.1 hy with rfl | hy
    · exact hm _ _ _ (Nat.le_max_left ..) hk
    · exact hm _ _ _ (Nat.le_max_right ..) (hk' y hy)

theorem inTurn_exists {α β : Type} {f : α → Outcome β} : ∀ {xs : List α},
    (∀ x ∈ xs, ∃ y, f x = .ok y) → ∃ ys, inTurn f xs = .ok ys
  | [], _ => ⟨[], rfl⟩
  | x :: xs, h => by
    obtain ⟨y, hy⟩ := h x (by simp)
    obtain ⟨ys, hys⟩ := inTurn_exists (f := f) (xs := xs) fun z hz => h z (by simp [hz])
    exact ⟨y :: ys, by simp [inTurn, hy, hys]⟩

/-- A superbox whose validator runs the box loop and then `finish` passes exactly when all its boxes
pass and the results satisfy `finish`. -/
theorem super_passes {env : Env} {o : Options} {t p : Bytes} {tag : String}
    {finish : Node → List Bytes → Node} {bs : List FoundBox}
    (hv : ∀ fuel, validateBox env o (fuel + 1) t p =
      walkBoxes (validateBox env o fuel) p fuel >>= fun x => .ok ⟨tag, finish x.1 x.2, none⟩)
    (hb : Boxes p bs) {ok : List Elem → Bool}
    (hf : ∀ n types, types = bs.map (·.type) → (finish n types).isValid = (n.isValid && ok n.chars)) :
    BoxPasses env o t p ↔ ∃ fuel rs, inTurn (fun x => validateBox env o fuel x.type x.payload) bs = .ok rs ∧
      (∀ x ∈ bs, Accepted (validateBox env o fuel x.type x.payload)) ∧
      ok (rs.map (·.charsElem)) = true := by
  constructor
  · rintro ⟨fuel, r, hr, hn⟩
    cases fuel with
    | zero => cases hr
    | succ fuel =>
      rw [hv] at hr
      obtain ⟨⟨n, types⟩, hw, hr⟩ := Outcome.bind_eq_ok.1 hr
      cases hr
      obtain ⟨rs, h1, h2, h3⟩ := walkBoxes_ok hb hw
      rw [← isValid_iff, hf n types h3, Bool.and_eq_true] at hn
      obtain ⟨hv1, hv2⟩ := hn
      have hall := hv1
      rw [h2, isValid_foldl_absorb, isValid_empty, Bool.true_and] at hall
      refine ⟨fuel, rs, h1, (all_valid_iff h1).1 hall, ?_⟩
      rw [h2, chars_foldl_absorb] at hv2
      simpa using hv2
  · rintro ⟨fuel, rs, h1, h2, h3⟩
    refine ⟨fuel + bs.length + 1 + 1, ?_⟩
    rw [hv]
    have h1' : inTurn (fun x => validateBox env o (fuel + bs.length + 1) x.type x.payload) bs = .ok rs := by
      rw [inTurn_ok] at h1 ⊢
      refine ⟨h1.1, fun i h h' => ?_⟩
      exact (validateBox_le env o (show fuel ≤ fuel + bs.length + 1 by omega) _ _).ok (h1.2 i h h')
    have hw := walkBoxes_eq (sub := validateBox env o (fuel + bs.length + 1)) hb
      (fuel := fuel + bs.length + 1) (by omega)
    rw [h1'] at hw
    rw [hw]
    refine ⟨_, rfl, ?_⟩
    rw [← isValid_iff]
    simp only
    rw [hf _ _ rfl]
    have hall := (all_valid_iff h1).2 h2
    rw [isValid_foldl_absorb, isValid_empty, hall, chars_foldl_absorb]
    simpa using h3

/-- As `super_passes` when the final tests only concern the types. -/
theorem super_passes_types {env : Env} {o : Options} {t p : Bytes} {tag : String}
    {finish : Node → List Bytes → Node} {bs : List FoundBox}
    (hv : ∀ fuel, validateBox env o (fuel + 1) t p =
      walkBoxes (validateBox env o fuel) p fuel >>= fun x => .ok ⟨tag, finish x.1 x.2, none⟩)
    (hb : Boxes p bs) {ok : Bool}
    (hf : ∀ n types, types = bs.map (·.type) → (finish n types).isValid = (n.isValid && ok)) :
    BoxPasses env o t p ↔ (∀ x ∈ bs, BoxPasses env o x.type x.payload) ∧ ok = true := by
  rw [super_passes hv hb (ok := fun _ => ok) hf]
  constructor
  · rintro ⟨fuel, rs, _, h2, h3⟩
    exact ⟨fun x hx => ⟨fuel, h2 x hx⟩, h3⟩
  · rintro ⟨h1, h2⟩
    obtain ⟨k, hk⟩ := fuel_forall (P := fun (x : FoundBox) k => Accepted (validateBox env o k x.type x.payload))
      (fun _ _ _ h ha => validateBox_accepted_mono h ha) bs h1
    obtain ⟨rs, hrs⟩ := inTurn_exists (f := fun x => validateBox env o k x.type x.payload) (xs := bs)
      fun x hx => let ⟨r, hr, _⟩ := hk x hx; ⟨r, hr⟩
    exact ⟨k, rs, hrs, hk, h2⟩

theorem mem_types {bs : List FoundBox} {k : Bytes} {s : String} (h : ascii s = k) :
    k ∈ bs.map (·.type) ↔ Has bs s := by
  subst h
  simp only [List.mem_map, Has]

theorem count_types {bs : List FoundBox} {k : Bytes} {s : String} (h : ascii s = k) :
    (bs.map (·.type)).count k = number bs s := by
  subst h
  unfold number
  rw [List.count_eq_length_filter, List.filter_map, List.length_map]
  rfl

end Jpy
