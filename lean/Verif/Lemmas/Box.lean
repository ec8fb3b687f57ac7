import Verif.Lemmas.Leaf
import Verif.Lemmas.Utf8
/-! # Lemmas about leaf boxes -/

set_option linter.unusedSimpArgs false

namespace Jpy
open Spec

/-- A box type that is validated by a plain function. -/
def BoxType.isLeaf : BoxType → Bool
  | .jp2HeaderBox | .resolutionBox | .uuidInfoBox | .contiguousCodestreamBox | .tilePart => false
  | _ => true

theorem validateBox_leaf (env o fuel bType c) {t : BoxType} (ht : boxTypeOf bType = t)
    (hl : t.isLeaf = true) :
    validateBox env o (fuel + 1) bType c = validateLeaf env o fuel none bType c := by
  unfold validateBox
  rw [ht]
  cases t <;> first | rfl | cases hl

theorem accepted_box_ok (env o fuel bType c) {t : BoxType} (ht : boxTypeOf bType = t)
    (hl : t.isLeaf = true) {ss : List Step} (h : leaf env o fuel none t bType c = .ok ss) :
    Accepted (validateBox env o (fuel + 1) bType c) ↔ allTrue ss = true := by
  rw [validateBox_leaf env o fuel bType c ht hl, accepted_leaf_ok env o fuel none bType c ht h]

theorem validateBox_ok {env o fuel bType c r} {t : BoxType} (ht : boxTypeOf bType = t)
    (hl : t.isLeaf = true) :
    validateBox env o (fuel + 1) bType c = .ok r ↔
      ∃ ss, leaf env o fuel none t bType c = .ok ss ∧
        r = ⟨t.name, Node.run o.verbose {} ss, none⟩ := by
  rw [validateBox_leaf env o fuel bType c ht hl, validateLeaf_ok ht]

theorem slice_to_end (c : Bytes) (k : Nat) : slice c k c.length = c.drop k := by
  rw [slice_nat]
  unfold Spec.sub
  rw [List.take_of_length_le]
  simp

theorem sub_zero (c : Bytes) (n : Nat) : sub c 0 n = c.take n := rfl

theorem slice_at (b : Bytes) (i n : Nat) {x y : Int} (hx : x = i) (hy : y = x + n) :
    slice b x y = sub b i n := by
  subst hx
  have : y = ((i + n : Nat) : Int) := by omega
  rw [this, slice_nat]
  congr 1; omega

theorem uint_pos {b : Bytes} {off n : Nat} (h : off + n ≤ b.length) :
    uint b off n = some (be (sub b off n)) := if_pos h

theorem uint_getElem {b : Bytes} {i : Nat} (h : i < b.length) : uint b i 1 = some b[i].toNat := by
  rw [uint_pos (by omega)]
  have : sub b i 1 = [b[i]] := by
    unfold Spec.sub
    rw [List.drop_eq_getElem_cons h]; rfl
  rw [this]; simp [be]

theorem signed_slice (c : Bytes) (i : Nat) (h : i < c.length) :
    bytesToSignedChar (slice c (i : Int) ((i : Int) + 1)) = signedByte c[i].toNat := by
  rw [slice_at c i 1 (y := (i : Int) + 1) rfl rfl]
  have : sub c i 1 = [c[i]] := by
    unfold Spec.sub
    rw [List.drop_eq_getElem_cons h]; rfl
  rw [this]; rfl

theorem signed_range (c : Bytes) (i : Nat) (h : i < c.length) :
    -128 ≤ bytesToSignedChar (slice c (i : Int) ((i : Int) + 1)) ∧
      bytesToSignedChar (slice c (i : Int) ((i : Int) + 1)) ≤ 127 := by
  rw [signed_slice c i h]
  have := c[i].toNat_lt
  unfold signedByte
  split <;> omega

theorem findAllText_run (v : Bool) (ss : List Step) (t : String) :
    Elem.findAllText (Node.run v {} ss).chars [t] = repOf t ss := reported_run v ss t

theorem findElementText_run (v : Bool) (ss : List Step) (t : String) :
    Elem.findElementText (Node.run v {} ss).chars [t] = (repOf t ss).head? := by
  rw [← reported_run v ss t]
  unfold Elem.findElementText Elem.find Elem.findall reported
  rw [List.head?_map]

theorem repOf_icc_size (p : Bytes) : repOf "profileSize" (icc p) = [.int (bytesToUInt (slice p 0 4))] := by
  unfold icc; rep

theorem repOf_icc_class (p : Bytes) : repOf "profileClass" (icc p) = [.bytes (slice p 12 16)] := by
  unfold icc; rep

theorem repOf_icc_tags (p : Bytes) :
    repOf "tag" (icc p) = (iccTags p).map fun t => .bytes t.1 := by
  unfold icc; rep

theorem noLut_iff (p : Bytes) :
    PyVal.bytes tagA2B0 ∉ (iccTags p).map (fun t => PyVal.bytes t.1) ↔ NoLut 4096 p := by
  unfold iccTags NoLut
  rw [u32_at p 128 (x := 128) (y := 132) rfl rfl]
  simp only [List.map_map, List.mem_map, List.mem_range, Function.comp_apply, PyVal.bytes.injEq,
    not_exists, not_and]
  have key : ∀ i : Nat, slice p (132 + 12 * (i : Int)) (132 + 12 * (i : Int) + 4)
      = sub p (132 + 12 * i) 4 := fun i => slice_at p (132 + 12 * i) 4 (by omega) (by omega)
  simp only [key]
  rcases h : uint p 128 4 with _ | n
  · simp only [intOf, reduceCtorEq, false_implies, implies_true, iff_true, rangeLen]
    intro i hi; omega
  · simp only [intOf, Option.some.injEq, forall_eq', rangeLen]
    constructor
    · intro h i h1 h2; exact h i (by omega)
    · intro h i h1; exact h i (by omega) (by omega)

theorem resPerMeter_ratIs (n d : Nat) (e : Int) (hd : d ≠ 0) : RatIs (resPerMeter n d e) n d e 1 1 := by
  unfold RatIs resPerMeter
  split
  · have : (-e).toNat = 0 := by omega
    simp only [this]
    exact ⟨by omega, by simp⟩
  · have : e.toNat = 0 := by omega
    simp only [this]
    refine ⟨?_, by simp⟩
    have : (0 : Int) < 10 ^ (-e).toNat := Int.pow_pos (by decide)
    exact Int.mul_ne_zero (by omega) (by omega)

theorem resPerInch_ratIs {f : PyFloat} {n d : Nat} {e : Int} (h : RatIs f n d e 1 1) :
    RatIs (resPerInch f) n d e 254 10000 := by
  obtain ⟨h1, h2⟩ := h
  refine ⟨Int.mul_ne_zero h1 (by decide), ?_⟩
  simp only [resPerInch]
  simp only [Int.mul_one] at h2
  generalize (d : Int) * 10 ^ (-e).toNat = x at *
  generalize (n : Int) * 10 ^ e.toNat = y at *
  calc f.num * 254 * (x * 10000) = (f.num * x) * (254 * 10000) := by ac_rfl
    _ = (y * f.den) * (254 * 10000) := by rw [h2]
    _ = y * 254 * (f.den * 10000) := by ac_rfl

theorem filter_range_le_one (n : Nat) (p : Nat → Bool) :
    ((List.range n).filter p).length ≤ 1 ↔ ∀ i < n, ∀ j < n, p i = true → p j = true → i = j := by
  have hnd : ((List.range n).filter p).Nodup := (List.nodup_range).filter _
  have hm : ∀ i, i ∈ (List.range n).filter p ↔ i < n ∧ p i = true := by simp
  generalize (List.range n).filter p = l at hnd hm
  constructor
  · intro h i hi j hj h1 h2
    have a := (hm i).2 ⟨hi, h1⟩
    have b := (hm j).2 ⟨hj, h2⟩
    match l, h, a, b with
    | [x], _, a, b => simp at a b; omega
  · intro h
    match l, hnd, hm with
    | [], _, _ => simp
    | [x], _, _ => simp
    | x :: y :: l, hnd, hm =>
      have a := (hm x).1 (by simp)
      have b := (hm y).1 (by simp)
      have := h x a.1 y b.1 a.2 b.2
      simp [this] at hnd

end Jpy
