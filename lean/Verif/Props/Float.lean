import Verif.Props.FloatBasic
import Verif.Spec.RatioShown
/-!
# C73: floating-point arithmetic

Quotients decide about validity only through integer parts and comparisons with integers, and these are exact. The
decimal numbers of a report are correctly rounded, within limits that are stated.
-/

namespace Jpy
open Spec

/-! ## Quotients of integers -/

theorem cast_lt {a b : Int} : (a : Rat) < b ↔ a < b := Rat.intCast_lt_intCast
theorem cast_le {a b : Int} : (a : Rat) ≤ b ↔ a ≤ b := Rat.intCast_le_intCast

theorem isDouble_int {n : Int} (h1 : -(2 ^ 53) < n) (h2 : n < 2 ^ 53) : IsDouble n :=
  ⟨n, 0, by rw [Rat.zpow_zero, Rat.mul_one], h1, h2, by decide, by decide⟩

theorem fl_int {n : Int} (h1 : -(2 ^ 53) < n) (h2 : n < 2 ^ 53) : fl n = n := fl_double (isDouble_int h1 h2)

/-- The error of a quotient is less than one part of the denominator. -/
theorem div_err {a b : Int} (h1 : -(2 ^ 53) < a) (h2 : a < 2 ^ 53) (hb : 0 < b) (hb2 : b < 2 ^ 53) :
    (pyDiv a b - a / b).abs * b < 1 ∧ (pyDiv a b - a / b).abs ≤ ((a : Rat) / b).abs * 2 ^ (-53 : Int) := by
  have hbq : (0 : Rat) < b := Rat.intCast_pos.2 hb
  have hq : (a : Rat) / b * b = a := Rat.div_mul_cancel (Rat.ne_of_gt hbq)
  have hrel : (pyDiv a b - a / b).abs ≤ ((a : Rat) / b).abs * 2 ^ (-53 : Int) := by
    apply fl_rel
    by_cases h0 : a = 0
    · left; rw [h0]; simp [Rat.div_def]
    · right
      have hlow : (2 : Rat) ^ (-1022 : Int) * b ≤ 1 := by
        have : (b : Rat) ≤ ((2 ^ 53 : Int) : Rat) := cast_le.2 (by omega)
        have h3 := Rat.mul_le_mul_of_nonneg_left this (Rat.le_of_lt (p2_pos (-1022)))
        have h4 : (2 : Rat) ^ (-1022 : Int) * ((2 ^ 53 : Int) : Rat) ≤ 1 := by decide +kernel
        grind
      have hge : 1 ≤ ((a : Rat) / b).abs * b := by
        rcases (by omega : 1 ≤ a ∨ a ≤ -1) with h | h
        · have := cast_le.2 h
          rw [Rat.intCast_one] at this
          have hp : 0 ≤ (a : Rat) / b := by
            apply Rat.not_lt.1; intro hn
            have := Rat.mul_lt_mul_of_pos_right hn hbq
            grind
          rw [Rat.abs_of_nonneg hp, hq]; exact this
        · have := cast_le.2 h
          rw [Rat.intCast_neg, Rat.intCast_one] at this
          have hp : (a : Rat) / b ≤ 0 := by
            apply Rat.not_lt.1; intro hn
            have := Rat.mul_lt_mul_of_pos_right hn hbq
            grind
          rw [Rat.abs_of_nonpos hp]; grind
      apply Rat.not_lt.1; intro hn
      have := Rat.mul_lt_mul_of_pos_right hn hbq
      grind
  refine ⟨?_, hrel⟩
  have h3 := Rat.mul_le_mul_of_nonneg_right hrel (Rat.le_of_lt hbq)
  have ha : ((a : Rat) / b).abs * b < ((2 ^ 53 : Int) : Rat) := by
    have e1 : (a : Rat) < ((2 ^ 53 : Int) : Rat) := cast_lt.2 h2
    have e2 : ((-(2 ^ 53) : Int) : Rat) < (a : Rat) := cast_lt.2 h1
    rw [Rat.intCast_neg] at e2
    unfold Rat.abs
    split <;> grind
  have h4 : ((a : Rat) / b).abs * b * 2 ^ (-53 : Int) < ((2 ^ 53 : Int) : Rat) * 2 ^ (-53 : Int) :=
    Rat.mul_lt_mul_of_pos_right ha (p2_pos _)
  rw [show ((2 ^ 53 : Int) : Rat) * 2 ^ (-53 : Int) = 1 by decide +kernel] at h4
  grind

/-- C73 (comparisons): the floating-point quotient of two integers of up to 53 bits is on the same side of every
integer as the exact quotient. -/
theorem C73_compare {a b : Int} (h1 : -(2 ^ 53) < a) (h2 : a < 2 ^ 53) (hb : 0 < b) (hb2 : b < 2 ^ 53) (k : Int) :
    (pyDiv a b < k ↔ a < k * b) ∧ (pyDiv a b = k ↔ a = k * b) ∧ ((k : Rat) < pyDiv a b ↔ k * b < a) := by
  have hbq : (0 : Rat) < b := Rat.intCast_pos.2 hb
  have hq : (a : Rat) / b * b = a := Rat.div_mul_cancel (Rat.ne_of_gt hbq)
  obtain ⟨he, -⟩ := div_err h1 h2 hb hb2
  have he1 : (pyDiv a b - a / b) * b < 1 ∧ -((pyDiv a b - a / b) * b) < 1 := by
    generalize hd : pyDiv a b - a / b = d at *
    have hd' := abs_le_iff.1 (Rat.le_refl (a := d.abs))
    have e1 := Rat.mul_le_mul_of_nonneg_right hd'.1 (Rat.le_of_lt hbq)
    have e2 := Rat.mul_le_mul_of_nonneg_right hd'.2 (Rat.le_of_lt hbq)
    constructor <;> grind
  have lt : a < k * b → pyDiv a b < k := by
    intro h
    have h' : ((a + 1 : Int) : Rat) ≤ ((k * b : Int) : Rat) := cast_le.2 (by omega)
    rw [Rat.intCast_add, Rat.intCast_mul, Rat.intCast_one] at h'
    apply Rat.not_le.1; intro hn
    have := Rat.mul_le_mul_of_nonneg_right hn (Rat.le_of_lt hbq)
    grind
  have gt : k * b < a → (k : Rat) < pyDiv a b := by
    intro h
    have h' : ((k * b + 1 : Int) : Rat) ≤ (a : Rat) := cast_le.2 (by omega)
    rw [Rat.intCast_add, Rat.intCast_mul, Rat.intCast_one] at h'
    apply Rat.not_le.1; intro hn
    have := Rat.mul_le_mul_of_nonneg_right hn (Rat.le_of_lt hbq)
    grind
  have eq : a = k * b → pyDiv a b = k := by
    intro h
    have hk : (a : Rat) / b = k := by
      rw [h, Rat.intCast_mul]; exact Rat.mul_div_cancel (Rat.ne_of_gt hbq)
    have hk1 : -(2 ^ 53) < k ∧ k < 2 ^ 53 := by
      constructor
      · apply Int.not_le.1; intro hc
        have : k * b ≤ k * 1 := Int.mul_le_mul_of_nonpos_left (by omega) (by omega)
        omega
      · apply Int.not_le.1; intro hc
        have : k * 1 ≤ k * b := Int.mul_le_mul_of_nonneg_left (by omega) (by omega)
        omega
    rw [pyDiv, hk, fl_int hk1.1 hk1.2]
  rcases Int.lt_trichotomy a (k * b) with h | h | h
  · have := lt h
    exact ⟨⟨fun _ => h, fun _ => this⟩, ⟨fun e => by grind, fun e => by omega⟩, ⟨fun e => by grind, fun e => by omega⟩⟩
  · have := eq h
    exact ⟨⟨fun e => by grind, fun e => by omega⟩, ⟨fun _ => h, fun _ => this⟩, ⟨fun e => by grind, fun e => by omega⟩⟩
  · have := gt h
    exact ⟨⟨fun e => by grind, fun e => by omega⟩, ⟨fun e => by grind, fun e => by omega⟩, ⟨fun _ => h, fun _ => this⟩⟩

theorem pyDiv_neg (a b : Int) : pyDiv (-a) (-b) = pyDiv a b := by
  unfold pyDiv
  congr 1
  rw [Rat.intCast_neg, Rat.intCast_neg, Rat.div_def, Rat.div_def]
  by_cases h : (b : Rat) = 0
  · rw [h]; simp
  · have : (-(b : Rat))⁻¹ = -(b : Rat)⁻¹ := Rat.inv_eq_of_mul_eq_one (by
      have := Rat.mul_inv_cancel (b : Rat) h
      grind)
    rw [this]; grind

/-- C73 (rounding up): `math.ceil(a / b)` is the least integer that is not below the quotient. -/
theorem C73_ceil {a b : Int} (h1 : -(2 ^ 53) < a) (h2 : a < 2 ^ 53) (hb : 0 < b) (hb2 : b < 2 ^ 53) (n : Int) :
    pyCeil (pyDiv a b) = n ↔ (n - 1) * b < a ∧ a ≤ n * b := by
  have hc : ∀ k : Int, pyCeil (pyDiv a b) ≤ k ↔ a ≤ k * b := by
    intro k
    unfold pyCeil
    rw [Rat.ceil_le_iff, ← Rat.not_lt, (C73_compare h1 h2 hb hb2 k).2.2]
    omega
  constructor
  · rintro rfl
    have e1 := (hc (pyCeil (pyDiv a b))).1 (Int.le_refl _)
    have e2 := mt (hc (pyCeil (pyDiv a b) - 1)).2 (by omega)
    exact ⟨by omega, e1⟩
  · rintro ⟨e1, e2⟩
    have e3 := (hc n).2 e2
    have e4 := mt (hc (n - 1)).1 (by omega)
    omega

/-- C73 (rounding towards zero): `int(a / b)` is the integer part of the quotient. -/
theorem C73_int {a b : Int} (h1 : -(2 ^ 53) < a) (h2 : a < 2 ^ 53) (hb : 0 < b) (hb2 : b < 2 ^ 53) (n : Int) :
    pyInt (pyDiv a b) = n ↔ (0 ≤ a → n * b ≤ a ∧ a < (n + 1) * b) ∧ (a < 0 → (n - 1) * b < a ∧ a ≤ n * b) := by
  have h0 : 0 ≤ pyDiv a b ↔ 0 ≤ a := by
    have := (C73_compare h1 h2 hb hb2 0).1
    rw [Rat.intCast_zero] at this
    rw [← Rat.not_lt, this]; omega
  unfold pyInt
  by_cases ha : 0 ≤ a
  · rw [if_pos (h0.2 ha)]
    have hc : ∀ k : Int, k ≤ (pyDiv a b).floor ↔ k * b ≤ a := by
      intro k
      rw [Rat.le_floor_iff, ← Rat.not_lt, (C73_compare h1 h2 hb hb2 k).1]
      omega
    constructor
    · rintro rfl
      have e1 := (hc ((pyDiv a b).floor)).1 (Int.le_refl _)
      have e2 := mt (hc ((pyDiv a b).floor + 1)).2 (by omega)
      exact ⟨fun _ => ⟨e1, by omega⟩, fun h => by omega⟩
    · rintro ⟨h, -⟩
      obtain ⟨e1, e2⟩ := h ha
      have e3 := (hc n).2 e1
      have e4 := mt (hc (n + 1)).1 (by omega)
      omega
  · rw [if_neg (mt h0.1 ha)]
    have := C73_ceil h1 h2 hb hb2 n
    unfold pyCeil at this
    rw [this]
    exact ⟨fun h => ⟨fun h' => absurd h' ha, fun _ => h⟩, fun h => h.2 (by omega)⟩

theorem ceilDiv_spec {a b : Int} (hb : 0 < b) : (ceilDiv a b - 1) * b < a ∧ a ≤ ceilDiv a b * b := by
  unfold ceilDiv
  have h1 := Int.mul_fdiv_add_fmod (-a) b
  have h2 := Int.fmod_nonneg_of_pos (-a) hb
  have h3 := Int.fmod_lt_of_pos (-a) hb
  generalize (-a).fdiv b = q at *
  generalize (-a).fmod b = r at *
  have e : b * q = q * b := Int.mul_comm ..
  rw [Int.sub_mul, Int.neg_mul]
  omega

theorem tdiv_spec {a b : Int} (hb : 0 < b) : (0 ≤ a → intDiv a b * b ≤ a ∧ a < (intDiv a b + 1) * b) ∧
    (a < 0 → (intDiv a b - 1) * b < a ∧ a ≤ intDiv a b * b) := by
  unfold intDiv
  have h1 := Int.mul_tdiv_add_tmod a b
  have e : ∀ q, b * q = q * b := fun q => Int.mul_comm ..
  constructor
  · intro ha
    have h2 := Int.tmod_nonneg b ha
    have h3 := Int.tmod_lt_of_pos a hb
    rw [Int.add_mul]
    rw [e] at h1
    omega
  · intro ha
    have h2 : a.tmod b ≤ 0 := by
      have := Int.tmod_nonneg b (show 0 ≤ -a by omega)
      rw [Int.neg_tmod] at this; omega
    have h3 : -b < a.tmod b := by
      have := Int.tmod_lt_of_pos (-a) hb
      rw [Int.neg_tmod] at this; omega
    rw [Int.sub_mul]
    rw [e] at h1
    omega

/-- The exact division of the model is what the code computes with floats, for positive divisors. -/
theorem C73_model_pos {a b : Int} (h1 : -(2 ^ 53) < a) (h2 : a < 2 ^ 53) (hb : 0 < b) (hb2 : b < 2 ^ 53) :
    pyCeil (pyDiv a b) = ceilDiv a b ∧ pyInt (pyDiv a b) = intDiv a b :=
  ⟨(C73_ceil h1 h2 hb hb2 _).2 (ceilDiv_spec hb), (C73_int h1 h2 hb hb2 _).2 (tdiv_spec hb)⟩

/-- C73: the exact division of the model is what the code computes with floats. -/
theorem C73_model {a b : Int} (h1 : -(2 ^ 53) < a) (h2 : a < 2 ^ 53) (hb0 : b ≠ 0) (hb1 : -(2 ^ 53) < b) (hb2 : b < 2 ^ 53) :
    pyCeil (pyDiv a b) = ceilDiv a b ∧ pyInt (pyDiv a b) = intDiv a b := by
  rcases (by omega : 0 < b ∨ 0 < -b) with hb | hb
  · exact C73_model_pos h1 h2 hb hb2
  · have := C73_model_pos (a := -a) (b := -b) (by omega) (by omega) hb (by omega)
    rw [pyDiv_neg] at this
    rw [this.1, this.2]
    unfold ceilDiv intDiv
    refine ⟨?_, by rw [Int.tdiv_neg, Int.neg_tdiv, Int.neg_neg]⟩
    have := Int.neg_fdiv_neg (-a) b
    rw [Int.neg_neg] at this ⊢
    rw [this]

theorem beNat_bound (b : Bytes) : beNat b < 256 ^ b.length := by
  have : ∀ (b : Bytes) (acc : Nat), b.foldl (fun acc x => acc * 256 + x.toNat) acc < (acc + 1) * 256 ^ b.length := by
    intro b
    induction b with
    | nil => intro acc; simp
    | cons x b ih =>
      intro acc
      simp only [List.foldl_cons, List.length_cons]
      refine Nat.lt_of_lt_of_le (ih _) ?_
      have := x.toNat_lt
      rw [Nat.pow_succ, Nat.mul_comm (256 ^ b.length) 256, ← Nat.mul_assoc]
      exact Nat.mul_le_mul_right _ (by omega)
  simpa [beNat] using this b 0

theorem uint_bound (b : Bytes) : -9999 ≤ bytesToUInt b ∧ bytesToUInt b < 2 ^ 32 := by
  unfold bytesToUInt doConv
  split
  next h =>
    have := beNat_bound b
    rw [h] at this
    omega
  · decide

/-- C73 (tiles): the number of tiles in a direction, computed with floats from three fields of a SIZ segment, cut off
or not, is that of the model. -/
theorem C73_tiles (x o t : Bytes) (ht : bytesToUInt t ≠ 0) :
    pyCeil (pyDiv (bytesToUInt x - bytesToUInt o) (bytesToUInt t)) = ceilDiv (bytesToUInt x - bytesToUInt o) (bytesToUInt t) := by
  have h1 := uint_bound x
  have h2 := uint_bound o
  have h3 := uint_bound t
  exact (C73_model (by omega) (by omega) ht (by omega) (by omega)).1

/-- C73 (lengths): the tests and counts that divide the length `n` of a box or segment by a small number, computed with
floats, are exact, if the length is below 8 PiB: whether the quotient is an integer, whether it is a given one, and its
integer part. -/
theorem C73_lengths {n : Int} (h1 : -(2 ^ 53) < n) (h2 : n < 2 ^ 53) {d : Int} (hd : 0 < d) (hd2 : d < 2 ^ 53) :
    (pyDiv n d = pyInt (pyDiv n d) ↔ n % d = 0) ∧ (∀ k : Int, (k : Rat) = pyDiv n d ↔ n = k * d) ∧
    pyInt (pyDiv n d) = intDiv n d := by
  refine ⟨?_, fun k => ?_, (C73_model_pos h1 h2 hd hd2).2⟩
  · constructor
    · intro h
      have := (C73_compare h1 h2 hd hd2 _).2.1.1 h
      rw [this]; exact Int.mul_emod_left _ _
    · intro h
      have h3 : n = n / d * d := by
        have := Int.mul_ediv_add_emod n d
        rw [h, Int.mul_comm] at this
        omega
      have h4 := (C73_compare h1 h2 hd hd2 _).2.1.2 h3
      rw [h4]
      unfold pyInt
      rw [Rat.floor_intCast, Rat.ceil_intCast]
      split <;> rfl
  · rw [← (C73_compare h1 h2 hd hd2 k).2.1]
    exact eq_comm

/-! ## Decimal numbers -/

theorem ten_cast (d : Nat) : (10 : Rat) ^ d = ((10 ^ d : Nat) : Rat) := by rw [Rat.natCast_pow]; rfl
theorem ten_pos (d : Nat) : (0 : Rat) < (10 : Rat) ^ d := by
  rw [ten_cast]; exact Rat.natCast_pos.2 (Nat.pow_pos (by decide))

theorem abs_mul_pos (a : Rat) {b : Rat} (hb : 0 < b) : (a * b).abs = a.abs * b := by
  unfold Rat.abs
  by_cases h : 0 ≤ a
  · rw [if_pos h, if_pos (Rat.mul_nonneg h (Rat.le_of_lt hb))]
  · rw [if_neg h, if_neg (Rat.not_le.2 ((Rat.mul_neg_iff_of_pos_right hb).2 (Rat.not_le.1 h)))]; grind

/-- A number at most one half from the multiple `x` of a unit: no integer is closer. -/
theorem nearestDecimal_of_half {d : Nat} {x : Rat} {k : Int} (h : (x * 10 ^ d - k).abs ≤ 1 / 2) : NearestDecimal d x k := by
  intro j
  have hT := ten_pos d
  have key : ∀ i : Int, (x - i / 10 ^ d).abs * 10 ^ d = (x * 10 ^ d - i).abs := by
    intro i
    rw [← abs_mul_pos _ hT]
    have : (i : Rat) / 10 ^ d * 10 ^ d = i := Rat.div_mul_cancel (Rat.ne_of_gt hT)
    congr 1
    generalize (10 : Rat) ^ d = T at *
    grind
  apply Rat.le_of_mul_le_mul_right (c := 10 ^ d) _ hT
  rw [key, key]
  rcases (by omega : j = k ∨ j + 1 ≤ k ∨ k + 1 ≤ j) with e | e | e
  · rw [e]; exact Rat.le_refl
  · have := cast_le.2 e
    rw [Rat.intCast_add, Rat.intCast_one] at this
    have h' := abs_le_iff.1 h
    rw [Rat.abs_of_nonneg (x := x * 10 ^ d - j) (by grind)]
    grind
  · have := cast_le.2 e
    rw [Rat.intCast_add, Rat.intCast_one] at this
    have h' := abs_le_iff.1 h
    rw [Rat.abs_of_nonpos (x := x * 10 ^ d - j) (by grind)]
    grind

theorem close_aux {A B q y T k g e : Rat} (hq : q * B = A) (he : e * (2 * T * B) < g)
    (h1 : (y - q) * (2 * T * B) ≤ e * (2 * T * B)) (h2 : -(y - q) * (2 * T * B) ≤ e * (2 * T * B))
    (h3 : (k - y * T) * B ≤ 1 / 2 * B) (h4 : (y * T - k) * B ≤ 1 / 2 * B) :
    2 * T * A - (2 * k + 1) * B < g ∧ (2 * k - 1) * B - 2 * T * A < g := by
  subst hq
  have e1 : (y - q) * (2 * T * B) = 2 * (y * T * B) - 2 * (q * T * B) := by grind
  have e2 : -(y - q) * (2 * T * B) = 2 * (q * T * B) - 2 * (y * T * B) := by grind
  have e3 : (k - y * T) * B = k * B - y * T * B := by grind
  have e4 : (y * T - k) * B = y * T * B - k * B := by grind
  have e5 : 2 * T * (q * B) - (2 * k + 1) * B = 2 * (q * T * B) - 2 * (k * B) - B := by grind
  have e6 : (2 * k - 1) * B - 2 * T * (q * B) = 2 * (k * B) - B - 2 * (q * T * B) := by grind
  rw [e1] at h1
  rw [e2] at h2
  rw [e3] at h3
  rw [e4] at h4
  rw [e5, e6]
  generalize y * T * B = m1 at *
  generalize q * T * B = m2 at *
  generalize k * B = m3 at *
  generalize e * (2 * T * B) = m4 at *
  clear e1 e2 e3 e4 e5 e6
  constructor <;> grind

theorem close_aux2 {A B q T k : Rat} (hq : q * B = A) (c1 : 2 * T * A - (2 * k + 1) * B ≤ 0)
    (c2 : (2 * k - 1) * B - 2 * T * A ≤ 0) :
    (q * T - k) * B ≤ 1 / 2 * B ∧ -(q * T - k) * B ≤ 1 / 2 * B := by
  subst hq
  have e1 : (q * T - k) * B = q * T * B - k * B := by grind
  have e2 : -(q * T - k) * B = k * B - q * T * B := by grind
  have e5 : 2 * T * (q * B) - (2 * k + 1) * B = 2 * (q * T * B) - 2 * (k * B) - B := by grind
  have e6 : (2 * k - 1) * B - 2 * T * (q * B) = 2 * (k * B) - B - 2 * (q * T * B) := by grind
  rw [e5] at c1
  rw [e6] at c2
  rw [e1, e2]
  generalize q * T * B = m2 at *
  generalize k * B = m3 at *
  clear e1 e2 e5 e6
  constructor <;> grind

/-- If `y` is so close to a fraction that no tie is in between, rounding `y` to `d` decimals is rounding the
fraction. -/
theorem rounded_of_close {A B g : Int} (hB : 0 < B) {d : Nat} (hg : 0 < g) (hg1 : g ∣ 2 * 10 ^ d) (hg2 : g ∣ B) {y : Rat}
    (hy : (y - A / B).abs * (2 * 10 ^ d * B) < g) : ((A / B : Rat) * 10 ^ d - rne (y * 10 ^ d)).abs ≤ 1 / 2 := by
  have hBq : (0 : Rat) < B := Rat.intCast_pos.2 hB
  have hq : (A : Rat) / B * B = A := Rat.div_mul_cancel (Rat.ne_of_gt hBq)
  have hT := ten_pos d
  have hTi : (10 : Rat) ^ d = ((10 ^ d : Int) : Rat) := by
    rw [Rat.intCast_pow]; rfl
  have herr := rne_err (y * 10 ^ d)
  generalize hk : rne (y * 10 ^ d) = k at *
  have hTB : 0 < (2 * 10 ^ d : Rat) * B := Rat.mul_pos (by grind) hBq
  have hy' := abs_le_iff.1 (Rat.le_refl (a := (y - A / B).abs))
  have hy1 := Rat.mul_le_mul_of_nonneg_right hy'.1 (Rat.le_of_lt hTB)
  have hy2 := Rat.mul_le_mul_of_nonneg_right hy'.2 (Rat.le_of_lt hTB)
  have herr1 := Rat.mul_le_mul_of_nonneg_right herr.1 (Rat.le_of_lt hBq)
  have herr2 := Rat.mul_le_mul_of_nonneg_right herr.2 (Rat.le_of_lt hBq)
  rw [hTi] at hy hy1 hy2 herr1 herr2 ⊢
  have hI : ∀ z : Int, (z : Rat) < g → g ∣ z → z ≤ 0 := by
    intro z h1 ⟨c, hc⟩
    have h1 := cast_lt.1 h1
    apply Int.not_lt.1; intro h2
    have : 0 < c := by
      apply Int.not_le.1; intro hc0
      have : g * c ≤ 0 := Int.mul_nonpos_of_nonneg_of_nonpos (by omega) hc0
      omega
    have : g * 1 ≤ g * c := Int.mul_le_mul_of_nonneg_left (by omega) (by omega)
    omega
  have d1 : g ∣ 2 * 10 ^ d * A - (2 * k + 1) * B :=
    Int.dvd_sub (Int.dvd_mul_of_dvd_left hg1) (Int.dvd_mul_of_dvd_right hg2)
  have d2 : g ∣ (2 * k - 1) * B - 2 * 10 ^ d * A :=
    Int.dvd_sub (Int.dvd_mul_of_dvd_right hg2) (Int.dvd_mul_of_dvd_left hg1)
  have ca := close_aux hq hy hy1 hy2 herr1 herr2
  have b1 := hI _ (by
    simp only [Rat.intCast_sub, Rat.intCast_mul, Rat.intCast_add, Rat.intCast_one, Rat.intCast_ofNat]
    exact ca.1) d1
  have b2 := hI _ (by
    simp only [Rat.intCast_sub, Rat.intCast_mul, Rat.intCast_one, Rat.intCast_ofNat]
    exact ca.2) d2
  have c1 := cast_le.2 b1
  have c2 := cast_le.2 b2
  simp only [Rat.intCast_sub, Rat.intCast_mul, Rat.intCast_add, Rat.intCast_one, Rat.intCast_ofNat, Rat.intCast_zero] at c1 c2
  apply Rat.le_of_mul_le_mul_right (c := (B : Rat)) _ hBq
  rw [← abs_mul_pos _ hBq, abs_le_iff]
  have := close_aux2 hq c1 c2
  exact ⟨this.1, by rw [← Rat.neg_mul]; exact this.2⟩

theorem abs_mul' (a b : Rat) : (a * b).abs = a.abs * b.abs := by
  by_cases hb : 0 < b
  · rw [abs_mul_pos a hb, Rat.abs_of_nonneg (x := b) (Rat.le_of_lt hb)]
  · by_cases h0 : b = 0
    · subst h0; simp [Rat.abs_zero]
    · have : 0 < -b := by grind
      have h := abs_mul_pos a this
      rw [Rat.abs_of_nonpos (x := b) (by grind), ← h, Rat.mul_neg, Rat.abs_neg]

theorem abs_add' (a b : Rat) : (a + b).abs ≤ a.abs + b.abs := by
  have ha := abs_le_iff.1 (Rat.le_refl (a := a.abs))
  have hb := abs_le_iff.1 (Rat.le_refl (a := b.abs))
  rw [abs_le_iff]
  constructor <;> grind

/-- `y` is `x` with a relative error of at most `r`. -/
def Close (r y x : Rat) : Prop := (y - x).abs ≤ x.abs * r

theorem Close.mono {r s y x : Rat} (h : Close r y x) (hrs : r ≤ s) : Close s y x :=
  Rat.le_trans h (Rat.mul_le_mul_of_nonneg_left hrs Rat.abs_nonneg)

theorem Close.mul {r s a x b y : Rat} (h1 : Close r a x) (h2 : Close s b y) :
    Close (r + s + r * s) (a * b) (x * y) := by
  unfold Close at *
  have e : a * b - x * y = (a - x) * (b - y) + (a - x) * y + x * (b - y) := by grind
  have t1 := abs_add' ((a - x) * (b - y) + (a - x) * y) (x * (b - y))
  have t2 := abs_add' ((a - x) * (b - y)) ((a - x) * y)
  rw [e, abs_mul' x y]
  rw [abs_mul' x] at t1
  rw [abs_mul', abs_mul' _ y] at t2
  have hx := Rat.abs_nonneg (x := x)
  have hy := Rat.abs_nonneg (x := y)
  have ha := Rat.abs_nonneg (x := a - x)
  have hb := Rat.abs_nonneg (x := b - y)
  have m1 := Rat.mul_le_mul_of_nonneg_right h1 hb
  have m1' := Rat.mul_le_mul_of_nonneg_left h2 (Rat.le_trans ha h1)
  have m2 := Rat.mul_le_mul_of_nonneg_right h1 hy
  have m3 := Rat.mul_le_mul_of_nonneg_left h2 hx
  have e' : x.abs * y.abs * (r + s + r * s) = x.abs * r * (y.abs * s) + x.abs * r * y.abs + x.abs * (y.abs * s) := by grind
  rw [e']
  grind

theorem Close.fl {r y x : Rat} (h : Close r y x) (hr : r ≤ 1 / 2) (hx : x = 0 ∨ (2 : Rat) ^ (-1021 : Int) ≤ x.abs) :
    Close (r + 2 ^ (-53 : Int) + r * 2 ^ (-53 : Int)) (fl y) x := by
  have hy : y = 0 ∨ (2 : Rat) ^ (-1022 : Int) ≤ y.abs := by
    unfold Close at h
    rcases hx with rfl | hx
    · left
      rw [Rat.abs_zero, Rat.zero_mul] at h
      have := abs_le_iff.1 h
      grind
    · right
      have h1 := Rat.mul_le_mul_of_nonneg_left hr (Rat.abs_nonneg (x := x))
      have e : (2 : Rat) ^ (-1021 : Int) = 2 ^ (-1022 : Int) * 2 := by decide +kernel
      rw [e] at hx
      have t := abs_add' y (-(y - x))
      have e2 : y + -(y - x) = x := by grind
      rw [e2, Rat.abs_neg] at t
      generalize (2 : Rat) ^ (-1022 : Int) = z at *
      grind
  have h1 := fl_rel hy
  unfold Close at *
  have hu := Rat.le_of_lt (p2_pos (-53))
  generalize (2 : Rat) ^ (-53 : Int) = u at *
  have t := abs_add' (Jpy.fl y - y) (y - x)
  have t2 := abs_add' x (y - x)
  have e1 : Jpy.fl y - y + (y - x) = Jpy.fl y - x := by grind
  have e2 : x + (y - x) = y := by grind
  rw [e1] at t
  rw [e2] at t2
  have e3 : x.abs * (r + u + r * u) = x.abs * r + x.abs * u + x.abs * r * u := by grind
  rw [e3]
  have m := Rat.mul_le_mul_of_nonneg_right (Rat.le_trans t2 (Rat.add_le_add_left.2 h)) hu
  rw [Rat.add_mul] at m
  grind

/-- Where the float is close enough to the exact value, rounding it to `d` decimals gives the exact value rounded. -/
theorem rounded_of_abs {d : Nat} {x y : Rat} (hx : x.abs ≤ 2 ^ (1000 : Int))
    (h : (x * 10 ^ d - rne (y * 10 ^ d)).abs ≤ 1 / 2) : RoundedTo d x (pyRound d y) := by
  refine ⟨_, nearestDecimal_of_half h, fl_nearest ?_⟩
  have hT := ten_pos d
  have hT1 : (1 : Rat) ≤ 10 ^ d := by
    rw [ten_cast]
    have := Nat.pow_pos (n := d) (show 0 < 10 by decide)
    exact_mod_cast (Rat.natCast_le_natCast.2 this)
  generalize rne (y * 10 ^ d) = k at *
  have hb : ((k : Rat) / 10 ^ d).abs * 10 ^ d ≤ 2 ^ (1023 : Int) * 10 ^ d := by
    rw [← abs_mul_pos _ hT, Rat.div_mul_cancel (Rat.ne_of_gt hT)]
    have t := abs_add' (x * 10 ^ d) (-(x * 10 ^ d - k))
    have e : x * 10 ^ d + -(x * 10 ^ d - k) = k := by grind
    rw [e, Rat.abs_neg, abs_mul_pos _ hT] at t
    have m := Rat.mul_le_mul_of_nonneg_right hx (Rat.le_of_lt hT)
    have c : (2 : Rat) ^ (1000 : Int) + 1 ≤ 2 ^ (1023 : Int) := by decide +kernel
    have m2 := Rat.mul_le_mul_of_nonneg_right c (Rat.le_of_lt hT)
    rw [Rat.add_mul] at m2
    generalize (10 : Rat) ^ d = T at *
    generalize (2 : Rat) ^ (1000 : Int) * T = z at *
    generalize (2 : Rat) ^ (1023 : Int) * T = z' at *
    grind
  exact Rat.le_of_mul_le_mul_right hb hT

theorem rounded_of_rel {A B g : Int} (hB : 0 < B) {d : Nat} (hg : 0 < g) (hg1 : g ∣ 2 * 10 ^ d) (hg2 : g ∣ B)
    (hx : ((A : Rat) / B).abs ≤ 2 ^ (1000 : Int)) {r y : Rat} (hy : Close r y (A / B))
    (hr : (A : Rat).abs * r * (2 * 10 ^ d) < g) : RoundedTo d (A / B) (pyRound d y) := by
  apply rounded_of_abs hx
  apply rounded_of_close hB hg hg1 hg2
  have hBq : (0 : Rat) < B := Rat.intCast_pos.2 hB
  have hT : 0 < 2 * (10 : Rat) ^ d := by have := ten_pos d; grind
  have m := Rat.mul_le_mul_of_nonneg_right hy (Rat.le_of_lt (Rat.mul_pos hT hBq))
  refine Rat.not_le.1 fun hc => Rat.not_le.2 ?_ (Rat.le_trans hc m)
  have e : ((A : Rat) / B).abs * B = (A : Rat).abs := by
    rw [← abs_mul_pos _ hBq, Rat.div_mul_cancel (Rat.ne_of_gt hBq)]
  rw [← e] at hr
  generalize ((A : Rat) / B).abs = q at *
  generalize 2 * (10 : Rat) ^ d = T at *
  grind

theorem eighth_double {m : Int} (h1 : -(2 ^ 53) < m) (h2 : m < 2 ^ 53) : IsDouble ((m : Rat) / 8) :=
  ⟨m, -3, by rw [show (2 : Rat) ^ (-3 : Int) = 1 / 8 by decide +kernel]; grind, h1, h2, by decide, by decide⟩

theorem pyMulInt_zero (x : Rat) : pyMulInt x 0 = 0 := by
  unfold pyMulInt
  rw [show ((0 : Int) : Rat) = 0 from rfl, fl_zero, Rat.mul_zero, fl_zero]

theorem zero_pyMulInt (n : Int) : pyMulInt 0 n = 0 := by
  unfold pyMulInt
  rw [Rat.zero_mul, fl_zero]

theorem le_mul_abs {a b : Int} (hb : b ≠ 0) : a.natAbs ≤ (a * b).natAbs := by
  rw [Int.natAbs_mul]
  exact Nat.le_mul_of_pos_right _ (by omega)

/-- The uncompressed size is exact. -/
theorem ratio_size {bits h w : Int} (hN : (bits * h * w).natAbs ≤ 2 ^ 48) :
    pyMulInt (pyMulInt (pyDiv bits 8) h) w = ((bits * h * w : Int) : Rat) / 8 := by
  by_cases hw : w = 0
  · subst hw; rw [pyMulInt_zero, Int.mul_zero]; decide +kernel
  by_cases hh : h = 0
  · subst hh; rw [pyMulInt_zero, zero_pyMulInt, Int.mul_zero, Int.zero_mul]; decide +kernel
  by_cases hb : bits = 0
  · subst hb
    have : pyDiv 0 8 = 0 := by decide +kernel
    rw [this, zero_pyMulInt, zero_pyMulInt, Int.zero_mul, Int.zero_mul]; decide +kernel
  have l1 := le_mul_abs (a := bits * h) hw
  have l2 := le_mul_abs (a := bits) hh
  have l3 := le_mul_abs (a := h) hb
  have l4 := le_mul_abs (a := w) (b := bits * h) (Int.mul_ne_zero hb hh)
  rw [Int.mul_comm h bits] at l3
  rw [Int.mul_comm w] at l4
  have e1 : pyDiv bits 8 = (bits : Rat) / 8 := fl_double (eighth_double (by omega) (by omega))
  have e2 : pyMulInt ((bits : Rat) / 8) h = ((bits * h : Int) : Rat) / 8 := by
    unfold pyMulInt
    rw [fl_int (n := h) (by omega) (by omega), ← fl_double (eighth_double (m := bits * h) (by omega) (by omega)), Rat.intCast_mul]
    congr 1; grind
  have e3 : pyMulInt (((bits * h : Int) : Rat) / 8) w = ((bits * h * w : Int) : Rat) / 8 := by
    unfold pyMulInt
    rw [fl_int (n := w) (by omega) (by omega), ← fl_double (eighth_double (m := bits * h * w) (by omega) (by omega)),
      Rat.intCast_mul (bits * h)]
    congr 1; grind
  rw [e1, e2, e3]

theorem int_abs_le {n : Int} {b : Nat} (h : n.natAbs ≤ b) : (n : Rat).abs ≤ (b : Rat) := by
  rw [abs_le_iff, ← Rat.intCast_neg, show ((b : Nat) : Rat) = ((b : Int) : Rat) from rfl]
  exact ⟨cast_le.2 (by omega), cast_le.2 (by omega)⟩

theorem one_le_abs {n : Int} (h : n ≠ 0) : (1 : Rat) ≤ (n : Rat).abs := by
  by_cases hp : 0 < n
  · rw [Rat.abs_of_nonneg (Rat.le_of_lt (Rat.intCast_pos.2 hp))]
    exact cast_le.2 hp
  · have : n ≤ -1 := by omega
    have h2 := cast_le.2 this
    rw [Rat.intCast_neg] at h2
    have h3 : ((1 : Int) : Rat) = 1 := rfl
    rw [h3] at h2
    rw [Rat.abs_of_nonpos (by grind)]
    grind

/-- The magnitude of a quotient that is not zero. -/
theorem quot_bounds {A B : Int} (hA : A ≠ 0) (hB : 0 < B) :
    1 ≤ ((A : Rat) / B).abs * B ∧ ((A : Rat) / B).abs ≤ (A : Rat).abs := by
  have hBq : (0 : Rat) < B := Rat.intCast_pos.2 hB
  have e : ((A : Rat) / B).abs * B = (A : Rat).abs := by
    rw [← abs_mul_pos _ hBq, Rat.div_mul_cancel (Rat.ne_of_gt hBq)]
  refine ⟨by rw [e]; exact one_le_abs hA, ?_⟩
  rw [← e]
  have h1 : (1 : Rat) ≤ B := cast_le.2 hB
  have := Rat.mul_le_mul_of_nonneg_left h1 (Rat.abs_nonneg (x := (A : Rat) / B))
  rw [Rat.mul_one] at this
  exact this

theorem quot_min {A B : Int} (hB : 0 < B) {k : Nat} (hBk : B ≤ 2 ^ k) (hk : (k : Int) ≤ 1000) :
    (A : Rat) / B = 0 ∨ (2 : Rat) ^ (-1000 : Int) ≤ ((A : Rat) / B).abs := by
  by_cases hA : A = 0
  · left; subst hA; rw [show ((0 : Int) : Rat) = 0 from rfl]; grind
  · right
    have hBq : (0 : Rat) < B := Rat.intCast_pos.2 hB
    apply Rat.le_of_mul_le_mul_right (c := (B : Rat)) _ hBq
    refine Rat.le_trans ?_ (quot_bounds hA hB).1
    have h1 : (B : Rat) ≤ 2 ^ (k : Int) := by
      have := cast_le.2 hBk
      rw [p2_nat]
      exact_mod_cast this
    have h2 := Rat.le_trans h1 (p2_le hk)
    have := Rat.mul_le_mul_of_nonneg_left h2 (Rat.le_of_lt (p2_pos (-1000)))
    rw [← p2_add] at this
    exact Rat.le_trans this (by decide +kernel)

theorem div_eighth (a z : Rat) : a / 8 / z = a / (8 * z) := by grind

theorem divInt_eighth (N : Int) {size : Nat} (h0 : 0 < size) (hs : size < 2 ^ 53) :
    pyDivInt ((N : Rat) / 8) size = fl ((N : Rat) / ((8 * (size : Int) : Int) : Rat)) := by
  unfold pyDivInt
  rw [fl_int (n := (size : Int)) (by omega) (by omega), Rat.intCast_mul, div_eighth]
  rfl

/-- C73 (compression ratio): the compression ratio computed with floats is the exact ratio rounded to two decimals,
for images of up to 2^48 bits (32 TiB) without compression. -/
theorem C73_ratio {size : Nat} (h0 : 0 < size) (hs : size < 2 ^ 53) {depths : List Int} {height width : Int}
    (hN : (depths.sum * height * width).natAbs ≤ 2 ^ 48) {q : PyFloat} (hq : RatioFrom depths.sum height width size q) :
    RoundedTo 2 ((q.num : Rat) / q.den) (ratioFloat size depths height width) := by
  obtain ⟨hd, hq, -⟩ := hq
  have hBpos : 0 < 8 * (size : Int) := by omega
  have hBq : (0 : Rat) < ((8 * (size : Int) : Int) : Rat) := Rat.intCast_pos.2 hBpos
  have hdq : (0 : Rat) < (q.den : Rat) := Rat.intCast_pos.2 hd
  unfold ratioFloat
  simp only
  rw [ratio_size hN]
  generalize depths.sum * height * width = N at *
  have e : (q.num : Rat) / q.den = (N : Rat) / ((8 * (size : Int) : Int) : Rat) := by
    have : ((q.num * (8 * (size : Int)) : Int) : Rat) = ((N * q.den : Int) : Rat) := by rw [hq]
    rw [Rat.intCast_mul q.num, Rat.intCast_mul N] at this
    have i1 : (q.num : Rat) / q.den * q.den = q.num := Rat.div_mul_cancel (Rat.ne_of_gt hdq)
    have i2 := Rat.div_mul_cancel (a := (N : Rat)) (Rat.ne_of_gt hBq)
    generalize ((8 * (size : Int) : Int) : Rat) = B at *
    rw [← i1] at this
    rw [← i2] at this
    generalize (q.num : Rat) / q.den = a at *
    generalize (N : Rat) / B = b at *
    have h3 : a * (q.den * B) = b * (q.den * B) := by grind
    have hp := Rat.mul_pos hdq hBq
    apply Rat.le_antisymm
    · exact Rat.le_of_mul_le_mul_right (by rw [h3]; exact Rat.le_refl) hp
    · exact Rat.le_of_mul_le_mul_right (by rw [h3]; exact Rat.le_refl) hp
  rw [e]
  have hA := int_abs_le hN
  have hA2 : ((2 ^ 48 : Nat) : Rat) ≤ 2 ^ (1000 : Int) := by decide +kernel
  have hmin := quot_min (A := N) hBpos (k := 56) (by omega) (by decide)
  have hy := divInt_eighth N h0 hs
  rw [hy]
  refine rounded_of_rel (g := 8) hBpos (by decide) (by decide) ⟨size, rfl⟩ ?_ (r := 2 ^ (-53 : Int)) ?_ ?_
  · by_cases hz : N = 0
    · subst hz
      rw [show ((0 : Int) : Rat) = 0 from rfl, show (0 : Rat) / ((8 * (size : Int) : Int) : Rat) = 0 by grind, Rat.abs_zero]
      exact Rat.le_of_lt (p2_pos _)
    · exact Rat.le_trans (quot_bounds hz hBpos).2 (Rat.le_trans hA hA2)
  · apply fl_rel
    rcases hmin with h | h
    · exact .inl h
    · exact .inr (Rat.le_trans (p2_le (by decide)) h)
  · have m := Rat.mul_le_mul_of_nonneg_right hA (c := (2 : Rat) ^ (-53 : Int) * (2 * 10 ^ 2)) (by decide +kernel)
    rw [Rat.mul_assoc]
    have c : ((2 ^ 48 : Nat) : Rat) * ((2 : Rat) ^ (-53 : Int) * (2 * 10 ^ 2)) < ((8 : Int) : Rat) := by decide +kernel
    exact Rat.not_le.1 fun hc => Rat.not_le.2 c (Rat.le_trans hc m)

/-- C73 (illuminants): the illuminants of an ICC profile computed with floats are the exact ones rounded to four
decimals. -/
theorem C73_illuminant (b : Bytes) : RoundedTo 4 ((bytesToUInt b : Rat) / 65536) (illuminantFloat (bytesToUInt b)) := by
  have hb := uint_bound b
  generalize bytesToUInt b = v at *
  unfold illuminantFloat
  have e : pyDiv v 65536 = (v : Rat) / 65536 := by
    apply fl_double
    refine ⟨v, -16, ?_, by omega, by omega, by decide, by decide⟩
    rw [show (2 : Rat) ^ (-16 : Int) = 1 / 65536 by decide +kernel]; grind
  rw [e]
  apply rounded_of_abs
  · have h1 := int_abs_le (n := v) (b := 2 ^ 32) (by omega)
    by_cases hz : v = 0
    · subst hz; decide +kernel
    · exact Rat.le_trans (quot_bounds (B := 65536) hz (by decide)).2 (Rat.le_trans h1 (by decide +kernel))
  · have h := rne_err ((v : Rat) / 65536 * 10 ^ 4)
    rw [abs_le_iff]
    refine ⟨h.2, ?_⟩
    have := h.1
    grind

/-- The value of an exact number of the model. -/
def ratOf (f : PyFloat) : Rat := (f.num : Rat) / f.den

/-- The C function `pow` computes negative powers of ten with an error of at most one unit in the last place. -/
def GoodPow (pow : Int → Rat) : Prop :=
  ∀ e : Int, -128 ≤ e → e < 0 → (pow e - (10 : Rat) ^ e).abs ≤ (10 : Rat) ^ e * 2 ^ (-52 : Int)

theorem t10_pos (e : Int) : 0 < (10 : Rat) ^ e := Rat.zpow_pos (by decide +kernel)

theorem ten_nat (k : Nat) : (10 : Rat) ^ (k : Int) = ((10 ^ k : Int) : Rat) := by
  rw [Rat.zpow_natCast, Rat.intCast_pow]; rfl

theorem div_div' {a b c : Rat} (hb : b ≠ 0) (hc : c ≠ 0) : a / (b * c) = a / b * c⁻¹ := by
  grind

/-- The exact resolution is numerator over denominator times a power of ten. -/
theorem ratOf_perMeter {n d e : Int} (hd : d ≠ 0) : ratOf (resPerMeter n d e) = (n : Rat) / d * (10 : Rat) ^ e := by
  have hdq : (d : Rat) ≠ 0 := by
    intro h; exact hd (Rat.intCast_inj.1 h)
  unfold ratOf resPerMeter
  split
  next h =>
    simp only
    obtain ⟨k, rfl⟩ := Int.eq_ofNat_of_zero_le h
    rw [ten_nat, Int.toNat_natCast, Rat.intCast_mul]
    generalize ((10 ^ k : Int) : Rat) = t at *
    grind
  next h =>
    simp only
    obtain ⟨k, hk⟩ := Int.eq_ofNat_of_zero_le (show 0 ≤ -e by omega)
    have he : e = -(k : Int) := by omega
    subst he
    rw [Rat.zpow_neg, ten_nat, Int.neg_neg, Int.toNat_natCast, Rat.intCast_mul]
    refine div_div' hdq ?_
    rw [← ten_nat]
    exact Rat.ne_of_gt (t10_pos _)

theorem ratOf_perInch {f : PyFloat} (hf : f.den ≠ 0) : ratOf (resPerInch f) = ratOf f * (254 / 10000) := by
  have hdq : (f.den : Rat) ≠ 0 := by
    intro h; exact hf (Rat.intCast_inj.1 h)
  unfold ratOf resPerInch
  simp only
  rw [Rat.intCast_mul, Rat.intCast_mul, show ((254 : Int) : Rat) = 254 from rfl, show ((10000 : Int) : Rat) = 10000 from rfl]
  grind

/-- The size of the numbers. -/
theorem perMeter_range {n d e : Int} (hn : n.natAbs < 2 ^ 16) (hd : 0 < d) (hd2 : d < 2 ^ 16) (he : -128 ≤ e) (he2 : e ≤ 127) :
    0 < (resPerMeter n d e).den ∧ (resPerMeter n d e).den ≤ 2 ^ 528 ∧ (resPerMeter n d e).num.natAbs ≤ 2 ^ 528 ∧
    (e ≤ 8 → (resPerMeter n d e).num.natAbs < 2 ^ 16 * 10 ^ 8) := by
  unfold resPerMeter
  split
  next h =>
    simp only
    obtain ⟨k, rfl⟩ := Int.eq_ofNat_of_zero_le h
    rw [Int.toNat_natCast, Int.natAbs_mul, Int.natAbs_pow, show (10 : Int).natAbs = 10 from rfl]
    refine ⟨hd, Int.le_trans (by omega) (show (2 : Int) ^ 16 ≤ 2 ^ 528 by decide +kernel), ?_, fun h8 => ?_⟩
    · refine Nat.le_trans (Nat.mul_le_mul (Nat.le_of_lt hn) (Nat.pow_le_pow_right (by decide) (show k ≤ 127 by omega))) ?_
      decide +kernel
    · refine Nat.lt_of_lt_of_le (Nat.mul_lt_mul_of_pos_right hn (Nat.pow_pos (by decide))) ?_
      exact Nat.mul_le_mul_left _ (Nat.pow_le_pow_right (by decide) (by omega))
  next h =>
    simp only
    obtain ⟨k, hk⟩ := Int.eq_ofNat_of_zero_le (show 0 ≤ -e by omega)
    rw [hk, Int.toNat_natCast]
    have hp : (0 : Int) < 10 ^ k := Int.pow_pos (by decide)
    refine ⟨Int.mul_pos hd hp, ?_, Nat.le_trans (Nat.le_of_lt hn) (by decide +kernel), fun _ => Nat.lt_of_lt_of_le hn (by decide)⟩
    have h1 : (10 : Int) ^ k ≤ 10 ^ 128 := by
      exact_mod_cast Nat.pow_le_pow_right (show 0 < 10 by decide) (show k ≤ 128 by omega)
    refine Int.le_trans (Int.mul_le_mul (show d ≤ 2 ^ 16 by omega) h1 (by omega) (by decide)) ?_
    decide +kernel

theorem perMeter_close {pow : Int → Rat} (hpow : GoodPow pow) {n d e : Int} (hn : n.natAbs < 2 ^ 16) (hd : 0 < d)
    (hd2 : d < 2 ^ 16) (he : -128 ≤ e) (he2 : e ≤ 127) :
    Close (6 * 2 ^ (-53 : Int)) (perMeterFloat pow n d e) (ratOf (resPerMeter n d e)) := by
  have hr := perMeter_range hn hd hd2 he he2
  have c1 : Close (2 ^ (-53 : Int)) (pyDiv n d) ((n : Rat) / d) := by
    apply fl_rel
    rcases quot_min (A := n) hd (k := 16) (by omega) (by decide) with h | h
    · exact .inl h
    · exact .inr (Rat.le_trans (p2_le (by decide)) h)
  have c2 : Close (2 * 2 ^ (-53 : Int)) (pyTenPow pow e) ((10 : Rat) ^ e) := by
    have hp := t10_pos e
    unfold pyTenPow
    split
    next h =>
      obtain ⟨k, rfl⟩ := Int.eq_ofNat_of_zero_le h
      rw [Int.toNat_natCast, ← Rat.zpow_natCast]
      refine Close.mono (r := 2 ^ (-53 : Int)) (fl_rel (.inr ?_)) (by decide +kernel)
      rw [Rat.abs_of_nonneg (Rat.le_of_lt hp), ten_nat]
      have h1 : (0 : Int) < 10 ^ k := Int.pow_pos (by decide)
      have h2 : (1 : Rat) ≤ ((10 ^ k : Int) : Rat) := cast_le.2 h1
      exact Rat.le_trans (by decide +kernel) h2
    next h =>
      have := hpow e he (by omega)
      unfold Close
      rw [Rat.abs_of_nonneg (x := (10 : Rat) ^ e) (Rat.le_of_lt hp)]
      rw [show (2 : Rat) * 2 ^ (-53 : Int) = 2 ^ (-52 : Int) by decide +kernel]
      exact this
  have c3 := (c1.mul c2).mono (s := 4 * 2 ^ (-53 : Int)) (by decide +kernel)
  rw [← ratOf_perMeter (by omega)] at c3
  refine (c3.fl (by decide +kernel) ?_).mono (by decide +kernel)
  rcases quot_min (A := (resPerMeter n d e).num) hr.1 (k := 528) hr.2.1 (by decide) with h | h
  · exact .inl h
  · exact .inr (Rat.le_trans (p2_le (by decide)) h)

theorem perInch_eq (f : PyFloat) (hf : f.den ≠ 0) :
    ratOf (resPerInch f) = ((f.num * 127 : Int) : Rat) / ((f.den * 5000 : Int) : Rat) := by
  have hdq : (f.den : Rat) ≠ 0 := by
    intro h; exact hf (Rat.intCast_inj.1 h)
  unfold ratOf resPerInch
  simp only [Rat.intCast_mul]
  rw [show ((254 : Int) : Rat) = 254 from rfl, show ((10000 : Int) : Rat) = 10000 from rfl,
    show ((127 : Int) : Rat) = 127 from rfl, show ((5000 : Int) : Rat) = 5000 from rfl]
  grind

theorem perInch_close {pow : Int → Rat} (hpow : GoodPow pow) {n d e : Int} (hn : n.natAbs < 2 ^ 16) (hd : 0 < d)
    (hd2 : d < 2 ^ 16) (he : -128 ≤ e) (he2 : e ≤ 127) :
    Close (10 * 2 ^ (-53 : Int)) (perInchFloat pow n d e) (ratOf (resPerInch (resPerMeter n d e))) := by
  have hr := perMeter_range hn hd hd2 he he2
  have c1 := perMeter_close hpow hn hd hd2 he he2
  have c2 : Close (2 ^ (-53 : Int)) (fl (254 / 10000)) (254 / 10000) := by
    apply fl_rel
    right
    decide +kernel
  have c3 := (c1.mul c2).mono (s := 8 * 2 ^ (-53 : Int)) (by decide +kernel)
  rw [← ratOf_perInch (by omega)] at c3
  refine (c3.fl (by decide +kernel) ?_).mono (by decide +kernel)
  rw [perInch_eq _ (by omega)]
  generalize resPerMeter n d e = f at *
  have hB : f.den * 5000 ≤ 2 ^ 541 := by
    have := Int.mul_le_mul_of_nonneg_right hr.2.1 (show (0 : Int) ≤ 5000 by decide)
    exact Int.le_trans this (by decide +kernel)
  rcases quot_min (A := f.num * 127) (B := f.den * 5000) (by omega) (k := 541) hB (by decide) with h | h
  · exact .inl h
  · exact .inr (Rat.le_trans (p2_le (by decide)) h)

theorem perMeter_rounded {pow : Int → Rat} (hpow : GoodPow pow) {n d e : Int} (hn : n.natAbs < 2 ^ 16) (hd : 0 < d)
    (hd2 : d < 2 ^ 16) (he : -128 ≤ e) (he2 : e ≤ 8) :
    RoundedTo 2 (ratOf (resPerMeter n d e)) (pyRound 2 (perMeterFloat pow n d e)) ∧
    RoundedTo 2 (ratOf (resPerInch (resPerMeter n d e))) (pyRound 2 (perInchFloat pow n d e)) := by
  have hr := perMeter_range hn hd hd2 he (by omega)
  have hm := perMeter_close hpow hn hd hd2 he (by omega)
  have hi := perInch_close hpow hn hd hd2 he (by omega)
  rw [perInch_eq _ (by omega)] at hi ⊢
  generalize resPerMeter n d e = f at *
  have h8 := hr.2.2.2 he2
  have hA := int_abs_le (Nat.le_of_lt h8)
  have hA' : ((f.num * 127 : Int) : Rat).abs ≤ ((2 ^ 16 * 10 ^ 8 * 127 : Nat) : Rat) := int_abs_le (by omega)
  have big : ∀ {A B : Int} {b : Nat}, 0 < B → (A : Rat).abs ≤ (b : Rat) → (b : Rat) ≤ 2 ^ (1000 : Int) →
      ((A : Rat) / B).abs ≤ 2 ^ (1000 : Int) := by
    intro A B b hB h1 h2
    by_cases hz : A = 0
    · subst hz
      rw [show ((0 : Int) : Rat) = 0 from rfl, Rat.div_def, Rat.zero_mul, Rat.abs_zero]
      exact Rat.le_of_lt (p2_pos _)
    · exact Rat.le_trans (quot_bounds hz hB).2 (Rat.le_trans h1 h2)
  constructor
  · refine rounded_of_rel (g := 1) hr.1 (by decide) (by decide) ⟨_, (Int.one_mul _).symm⟩ (big hr.1 hA (by decide +kernel)) hm ?_
    have m := Rat.mul_le_mul_of_nonneg_right hA (c := 6 * (2 : Rat) ^ (-53 : Int) * (2 * 10 ^ 2)) (by decide +kernel)
    rw [Rat.mul_assoc]
    have c : ((2 ^ 16 * 10 ^ 8 : Nat) : Rat) * (6 * (2 : Rat) ^ (-53 : Int) * (2 * 10 ^ 2)) < ((1 : Int) : Rat) := by decide +kernel
    exact Rat.not_le.1 fun hc => Rat.not_le.2 c (Rat.le_trans hc m)
  · refine rounded_of_rel (g := 200) (by omega) (by decide) (by decide) ⟨f.den * 25, by omega⟩
      (big (by omega) hA' (by decide +kernel)) hi ?_
    have m := Rat.mul_le_mul_of_nonneg_right hA' (c := 10 * (2 : Rat) ^ (-53 : Int) * (2 * 10 ^ 2)) (by decide +kernel)
    rw [Rat.mul_assoc]
    have c : ((2 ^ 16 * 10 ^ 8 * 127 : Nat) : Rat) * (10 * (2 : Rat) ^ (-53 : Int) * (2 * 10 ^ 2)) < ((200 : Int) : Rat) := by
      decide +kernel
    exact Rat.not_le.1 fun hc => Rat.not_le.2 c (Rat.le_trans hc m)

theorem neg_div_neg' (n d : Int) : ((-n : Int) : Rat) / ((-d : Int) : Rat) = (n : Rat) / d := by
  rw [Rat.intCast_neg, Rat.intCast_neg]
  by_cases h : (d : Rat) = 0
  · rw [h, Rat.div_def, Rat.div_def, Rat.neg_zero, Rat.inv_zero, Rat.mul_zero, Rat.mul_zero]
  · grind

theorem perMeterFloat_neg (pow : Int → Rat) (n d e : Int) :
    perMeterFloat pow (-n) (-d) e = perMeterFloat pow n d e ∧ perInchFloat pow (-n) (-d) e = perInchFloat pow n d e := by
  unfold perInchFloat perMeterFloat pyDiv
  rw [neg_div_neg']
  exact ⟨rfl, rfl⟩

theorem perMeter_den {n d e : Int} (hd : d ≠ 0) : (resPerMeter n d e).den ≠ 0 := by
  unfold resPerMeter
  split
  · exact hd
  · exact Int.mul_ne_zero hd (Int.ne_of_gt (Int.pow_pos (by decide)))

/-- C73 (resolutions): the resolutions of a capture or display resolution box computed with floats are the exact ones
rounded to two decimals, for exponents up to 8. The numbers of the model are the exact ones. `n`, `d` and `e` are the
fields of the box, or -9999 and -128 where they are missing. -/
theorem C73_resolution {pow : Int → Rat} (hpow : GoodPow pow) {n d e : Int} (hn : n.natAbs < 2 ^ 16) (hd : d ≠ 0)
    (hd2 : d.natAbs < 2 ^ 16) (he : -128 ≤ e) (he2 : e ≤ 8) :
    ratOf (resPerMeter n d e) = (n : Rat) / d * (10 : Rat) ^ e ∧
    ratOf (resPerInch (resPerMeter n d e)) = (n : Rat) / d * (10 : Rat) ^ e * (254 / 10000) ∧
    RoundedTo 2 ((n : Rat) / d * (10 : Rat) ^ e) (pyRound 2 (perMeterFloat pow n d e)) ∧
    RoundedTo 2 ((n : Rat) / d * (10 : Rat) ^ e * (254 / 10000)) (pyRound 2 (perInchFloat pow n d e)) := by
  have e1 := ratOf_perMeter (n := n) (e := e) hd
  have e2 := ratOf_perInch (perMeter_den (n := n) (e := e) hd)
  rw [e1] at e2
  refine ⟨e1, e2, ?_⟩
  by_cases hp : 0 < d
  · have h := perMeter_rounded hpow hn hp (by omega) he he2
    rw [e2, e1] at h
    exact h
  · have h := perMeter_rounded hpow (n := -n) (d := -d) (by omega) (by omega) (by omega) he he2
    rw [(perMeterFloat_neg _ _ _ _).1, (perMeterFloat_neg _ _ _ _).2, ratOf_perInch (perMeter_den (by omega)),
      ratOf_perMeter (by omega), neg_div_neg'] at h
    exact h

/-- C73 (all exponents): the resolutions computed with floats, before they are rounded, have a relative error of at
most 2^-49, whatever the exponent. -/
theorem C73_resolution_error {pow : Int → Rat} (hpow : GoodPow pow) {n d e : Int} (hn : n.natAbs < 2 ^ 16) (hd : d ≠ 0)
    (hd2 : d.natAbs < 2 ^ 16) (he : -128 ≤ e) (he2 : e ≤ 127) :
    let x := (n : Rat) / d * (10 : Rat) ^ e
    (perMeterFloat pow n d e - x).abs ≤ x.abs * 2 ^ (-49 : Int) ∧
    (perInchFloat pow n d e - x * (254 / 10000)).abs ≤ (x * (254 / 10000)).abs * 2 ^ (-49 : Int) := by
  have c1 : (6 : Rat) * 2 ^ (-53 : Int) ≤ 2 ^ (-49 : Int) := by decide +kernel
  have c2 : (10 : Rat) * 2 ^ (-53 : Int) ≤ 2 ^ (-49 : Int) := by decide +kernel
  simp only
  by_cases hp : 0 < d
  · have h1 := (perMeter_close hpow hn hp (by omega) he he2).mono c1
    have h2 := (perInch_close hpow hn hp (by omega) he he2).mono c2
    rw [ratOf_perInch (perMeter_den hd), ratOf_perMeter hd] at h2
    rw [ratOf_perMeter hd] at h1
    exact ⟨h1, h2⟩
  · have h1 := (perMeter_close hpow (n := -n) (d := -d) (by omega) (by omega) (by omega) he he2).mono c1
    have h2 := (perInch_close hpow (n := -n) (d := -d) (by omega) (by omega) (by omega) he he2).mono c2
    rw [ratOf_perInch (perMeter_den (by omega)), ratOf_perMeter (by omega), neg_div_neg', (perMeterFloat_neg _ _ _ _).2] at h2
    rw [ratOf_perMeter (by omega), neg_div_neg', (perMeterFloat_neg _ _ _ _).1] at h1
    exact ⟨h1, h2⟩

/-- C73 is false for larger exponents: 45095 / 11 * 10^9 pixels per metre is 4099545454545.4545..., but the float before
rounding is 4099545454545.455, which becomes 4099545454545.46. -/
theorem C73_false (pow : Int → Rat) :
    ¬ RoundedTo 2 ((45095 : Int) / (11 : Int) * (10 : Rat) ^ (9 : Int)) (pyRound 2 (perMeterFloat pow 45095 11 9)) := by
  have e1 : perMeterFloat pow 45095 11 9 = perMeterFloat (fun _ => 0) 45095 11 9 := rfl
  rw [e1]
  rintro ⟨k, hk, hy⟩
  have hkj : k = 409954545454545 := by
    have h := hk 409954545454545
    rw [show (((45095 : Int) / (11 : Int) * (10 : Rat) ^ (9 : Int) - (409954545454545 : Int) / 10 ^ 2 : Rat)).abs = 1 / 220 by
      decide +kernel, abs_le_iff, show ((45095 : Int) / (11 : Int) * (10 : Rat) ^ (9 : Int) : Rat) = 45095000000000 / 11 by
      decide +kernel, show (10 : Rat) ^ 2 = 100 by decide +kernel] at h
    have h1 : (409954545454544 : Rat) < k := by grind
    have h2 : (k : Rat) < 409954545454546 := by grind
    have h1 := cast_lt.1 (show ((409954545454544 : Int) : Rat) < k from h1)
    have h2 := cast_lt.1 (show (k : Rat) < ((409954545454546 : Int) : Rat) from h2)
    omega
  subst hkj
  have := hy.2 (fl (409954545454545 / 100)) (fl_nearest (by decide +kernel)).1
  revert this
  decide +kernel

/-- C73 (ties): two boxes with the same exact resolution, in the middle between two decimals, can be shown with
different decimals (0.04 and 0.03). -/
theorem C73_ties : resPerMeter 7 200 0 = resPerMeter 7 20 (-1) ∧
    pyRound 2 (perMeterFloat (fun e => fl ((10 : Rat) ^ e)) 7 200 0) = fl (4 / 100) ∧
    pyRound 2 (perMeterFloat (fun e => fl ((10 : Rat) ^ e)) 7 20 (-1)) = fl (3 / 100) := by decide +kernel

/-! ## Witnesses -/

/-- The correctly rounded power is a good one. -/
theorem goodPow_fl : GoodPow fun e => fl ((10 : Rat) ^ e) := by
  intro e he he2
  obtain ⟨k, hk⟩ := Int.eq_ofNat_of_zero_le (show 0 ≤ -e by omega)
  have he' : e = -(k : Int) := by omega
  have hp := t10_pos e
  have hB : (10 : Int) ^ k ≤ 2 ^ 512 := by
    have : (10 : Int) ^ k ≤ 10 ^ 128 := by
      exact_mod_cast Nat.pow_le_pow_right (show 0 < 10 by decide) (show k ≤ 128 by omega)
    exact Int.le_trans this (by decide +kernel)
  have hq : ((1 : Int) : Rat) / ((10 ^ k : Int) : Rat) = (10 : Rat) ^ e := by
    rw [he', Rat.zpow_neg, ten_nat, Rat.div_def, show ((1 : Int) : Rat) = 1 from rfl, Rat.one_mul]
  have hm := quot_min (A := 1) (B := 10 ^ k) (Int.pow_pos (by decide)) (k := 512) hB (by decide)
  rw [hq] at hm
  have h := fl_rel (x := (10 : Rat) ^ e) (by
    rcases hm with h | h
    · exact .inl h
    · exact .inr (Rat.le_trans (p2_le (by decide)) h))
  rw [Rat.abs_of_nonneg (x := (10 : Rat) ^ e) (Rat.le_of_lt hp)] at h
  exact Rat.le_trans h (Rat.mul_le_mul_of_nonneg_left (by decide +kernel) (Rat.le_of_lt hp))

/-- Floats do round here: a third is not a double. -/
example : pyDiv 1 3 ≠ 1 / 3 ∧ pyDiv 1 3 = 6004799503160661 / 2 ^ 54 := by decide +kernel

/-- The bound 2^53 is needed: 2^53 + 1 is not a double, and the quotient by 1 has the wrong integer part. -/
example : pyInt (pyDiv (2 ^ 53 + 1) 1) = 2 ^ 53 ∧ intDiv (2 ^ 53 + 1) 1 = 2 ^ 53 + 1 := by decide +kernel

/-- 10000 pixels in tiles of 1024; and a negative quotient. -/
example : pyCeil (pyDiv 10000 1024) = 10 ∧ pyCeil (pyDiv (-9999) 1024) = -9 ∧ pyInt (pyDiv (-7) 3) = -2 := by decide +kernel

/-- An image of 3 components of 8 bits, 2000 by 3000, in 1234567 bytes has the ratio 14.58. -/
example : RatioFrom 24 2000 3000 1234567 ⟨24 * 2000 * 3000, 8 * 1234567, 2⟩ ∧
    ratioFloat 1234567 [8, 8, 8] 2000 3000 = fl (1458 / 100) ∧ (24 * 2000 * 3000 : Int).natAbs ≤ 2 ^ 48 := by
  refine ⟨⟨by decide, by decide, rfl⟩, by decide +kernel, by decide⟩

/-- 300 pixels per inch are 11811.02 pixels per metre. -/
example : RoundedTo 2 ((11811024 : Int) / (1000 : Int)) (fl (1181102 / 100)) := by
  refine ⟨1181102, nearestDecimal_of_half (by decide +kernel), fl_nearest (by decide +kernel)⟩

example : pyRound 2 (perMeterFloat (fun e => fl ((10 : Rat) ^ e)) 30000 254 2) = fl (1181102 / 100) ∧
    pyRound 2 (perInchFloat (fun e => fl ((10 : Rat) ^ e)) 30000 254 2) = 300 := by decide +kernel

/-- With a negative exponent. -/
example : pyRound 2 (perMeterFloat (fun e => fl ((10 : Rat) ^ e)) 65535 7 (-3)) = fl (936 / 100) := by decide +kernel

/-- The illuminant X of most profiles. -/
example : illuminantFloat 0xF6D6 = fl (9642 / 10000) := by decide +kernel

end Jpy
