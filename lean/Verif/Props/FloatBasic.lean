import Verif.Spec.Float
import Verif.Model.Float
/-! # Rounding to doubles: the function of the model is the rounding of the standard -/

namespace Jpy
open Spec

theorem two_ne : (2 : Rat) ≠ 0 := by decide +kernel
theorem p2_pos (e : Int) : 0 < (2 : Rat) ^ e := Rat.zpow_pos (by decide +kernel)
theorem p2_add (a b : Int) : (2 : Rat) ^ (a + b) = 2 ^ a * 2 ^ b := Rat.zpow_add two_ne a b

theorem p2_nat (n : Nat) : (2 : Rat) ^ (n : Int) = ((2 ^ n : Nat) : Rat) := by
  rw [Rat.zpow_natCast, Rat.natCast_pow]; rfl

theorem p2_le {a b : Int} (h : a ≤ b) : (2 : Rat) ^ a ≤ 2 ^ b := by
  obtain ⟨n, rfl⟩ : ∃ n : Nat, b = a + n := ⟨(b - a).toNat, by omega⟩
  rw [p2_add, p2_nat]
  have h1 : ((1 : Nat) : Rat) ≤ ((2 ^ n : Nat) : Rat) := Rat.natCast_le_natCast.2 Nat.one_le_two_pow
  have := Rat.mul_le_mul_of_nonneg_left h1 (Rat.le_of_lt (p2_pos a))
  simpa using this

theorem p2_lt {a b : Int} (h : (2 : Rat) ^ a < 2 ^ b) : a < b := by
  apply Int.not_le.1; intro hh
  exact absurd (p2_le hh) (Rat.not_le.2 h)

/-- Rounding to an integer: no integer is closer. -/
theorem rne_cases (x : Rat) : (rne x = x.floor ∧ x - x.floor ≤ 1 / 2) ∨ (rne x = x.floor + 1 ∧ 1 / 2 ≤ x - x.floor) := by
  unfold rne
  simp only
  split
  · left; exact ⟨rfl, by grind⟩
  · split
    · right; exact ⟨rfl, by grind⟩
    · split
      · left; exact ⟨rfl, by grind⟩
      · right; exact ⟨rfl, by grind⟩

theorem rne_err (x : Rat) : (rne x : Rat) - x ≤ 1 / 2 ∧ x - rne x ≤ 1 / 2 := by
  have h1 := Rat.floor_le x
  have h2 := Rat.lt_floor_add_one x
  rw [Rat.intCast_add] at h2
  rcases rne_cases x with ⟨e, h⟩ | ⟨e, h⟩ <;> rw [e] <;> simp only [Rat.intCast_add, Rat.intCast_one] at * <;> constructor <;> grind

theorem rne_int (n : Int) : rne n = n := by
  rcases rne_cases n with ⟨e, h⟩ | ⟨e, h⟩
  · rw [e, Rat.floor_intCast]
  · rw [Rat.floor_intCast] at h
    exact absurd h (by grind)

theorem rne_nearest (x : Rat) (n : Int) : (x - rne x).abs ≤ (x - n).abs := by
  have h1 := Rat.floor_le x
  have h2 := Rat.lt_floor_add_one x
  have hn : n ≤ x.floor ∨ x.floor + 1 ≤ n := by omega
  have hn' : (n : Rat) ≤ x.floor ∨ (x.floor : Rat) + 1 ≤ n := by
    rcases hn with h | h
    · left; exact Rat.intCast_le_intCast.2 h
    · right
      have := Rat.intCast_le_intCast.2 h
      rwa [Rat.intCast_add] at this
  rw [Rat.intCast_add] at h2
  simp only [Rat.abs]
  rcases rne_cases x with ⟨e, h⟩ | ⟨e, h⟩ <;> rw [e] <;> simp only [Rat.intCast_add, Rat.intCast_one] at * <;>
    split <;> split <;> rcases hn' with hn' | hn' <;> grind

theorem rat_pos_num {x : Rat} (h : 0 < x) : 0 < x.num := by
  have := (Rat.lt_iff 0 x).1 h
  simpa using this

/-- The exponent of a positive number. -/
theorem expo_spec {x : Rat} (h : 0 < x) : (2 : Rat) ^ expo x ≤ x ∧ x < (2 : Rat) ^ (expo x + 1) := by
  have hn := rat_pos_num h
  obtain ⟨p, hp⟩ : ∃ p : Nat, x.num = p := ⟨x.num.natAbs, by omega⟩
  have hp0 : p ≠ 0 := by omega
  have hd0 : x.den ≠ 0 := x.den_nz
  have hx : x = (p : Rat) / (x.den : Rat) := by
    have := Rat.mkRat_eq_div x.num x.den
    rw [Rat.mkRat_self] at this
    rw [hp] at this
    exact this
  have hdp : (0 : Rat) < (x.den : Rat) := Rat.natCast_pos.2 (by omega)
  have ha1 : ((2 ^ p.log2 : Nat) : Rat) ≤ p := Rat.natCast_le_natCast.2 (Nat.log2_self_le hp0)
  have ha2 : (p : Rat) < ((2 ^ (p.log2 + 1) : Nat) : Rat) := Rat.natCast_lt_natCast.2 Nat.lt_log2_self
  have hb1 : ((2 ^ x.den.log2 : Nat) : Rat) ≤ x.den := Rat.natCast_le_natCast.2 (Nat.log2_self_le hd0)
  have hb2 : (x.den : Rat) < ((2 ^ (x.den.log2 + 1) : Nat) : Rat) := Rat.natCast_lt_natCast.2 Nat.lt_log2_self
  rw [← p2_nat] at ha1 ha2 hb1 hb2
  have e1 : x.num.natAbs = p := by omega
  generalize hA : p.log2 = A at *
  generalize hB : x.den.log2 = B at *
  have hxd : x * x.den = p := by
    conv => lhs; lhs; rw [hx]
    exact Rat.div_mul_cancel (Rat.ne_of_gt hdp)
  -- 2^(A-B-1) ≤ x < 2^(A-B+1)
  have lo : (2 : Rat) ^ ((A : Int) - B - 1) ≤ x := by
    apply Rat.not_lt.1; intro hlt
    have h1 : x * x.den < 2 ^ ((A : Int) - B - 1) * x.den := Rat.mul_lt_mul_of_pos_right hlt hdp
    have h2 : (2 : Rat) ^ ((A : Int) - B - 1) * x.den < 2 ^ ((A : Int) - B - 1) * 2 ^ ((B + 1 : Nat) : Int) :=
      Rat.mul_lt_mul_of_pos_left hb2 (p2_pos _)
    rw [← p2_add, show (A : Int) - B - 1 + ((B + 1 : Nat) : Int) = A by omega] at h2
    grind
  have hi : x < (2 : Rat) ^ ((A : Int) - B + 1) := by
    apply Rat.not_le.1; intro hle
    have h1 : 2 ^ ((A : Int) - B + 1) * x.den ≤ x * x.den := Rat.mul_le_mul_of_nonneg_right hle (Rat.le_of_lt hdp)
    have h2 : (2 : Rat) ^ ((A : Int) - B + 1) * 2 ^ (B : Int) ≤ 2 ^ ((A : Int) - B + 1) * x.den :=
      Rat.mul_le_mul_of_nonneg_left hb1 (Rat.le_of_lt (p2_pos _))
    rw [← p2_add, show (A : Int) - B + 1 + (B : Int) = ((A + 1 : Nat) : Int) by omega] at h2
    grind
  unfold expo
  simp only [e1, hA, hB]
  split
  next hc => exact ⟨lo, by simpa using hc⟩
  next hc => exact ⟨Rat.not_lt.1 hc, hi⟩

/-- The unit in the last place of a positive number. -/
def ulpE (x : Rat) : Int := max (expo x - 52) (-1074)

theorem flPos_def (x : Rat) : flPos x = (rne (x / 2 ^ ulpE x) : Rat) * 2 ^ ulpE x := rfl

theorem flPos_err {x : Rat} : flPos x - x ≤ 1 / 2 * 2 ^ ulpE x ∧ x - flPos x ≤ 1 / 2 * 2 ^ ulpE x := by
  rw [flPos_def]
  have hp := p2_pos (ulpE x)
  obtain ⟨h1, h2⟩ := rne_err (x / 2 ^ ulpE x)
  have h3 := Rat.mul_le_mul_of_nonneg_right h1 (Rat.le_of_lt hp)
  have h4 := Rat.mul_le_mul_of_nonneg_right h2 (Rat.le_of_lt hp)
  have h5 : x / 2 ^ ulpE x * 2 ^ ulpE x = x := Rat.div_mul_cancel (Rat.ne_of_gt hp)
  generalize (2 : Rat) ^ ulpE x = U at *
  generalize x / U = q at *
  constructor <;> grind

/-- Any multiple of the unit in the last place is at least as far. -/
theorem flPos_nearest_mult (x : Rat) (n : Int) : (x - flPos x).abs ≤ (x - n * 2 ^ ulpE x).abs := by
  rw [flPos_def]
  have hp := p2_pos (ulpE x)
  have h := rne_nearest (x / 2 ^ ulpE x) n
  have h5 : x / 2 ^ ulpE x * 2 ^ ulpE x = x := Rat.div_mul_cancel (Rat.ne_of_gt hp)
  generalize (2 : Rat) ^ ulpE x = U at *
  generalize x / U = q at *
  have key : ∀ a : Rat, (x - a * U).abs = (q - a).abs * U := by
    intro a
    have : x - a * U = (q - a) * U := by grind
    rw [this]
    simp only [Rat.abs]
    by_cases hq : 0 ≤ q - a
    · rw [if_pos hq, if_pos (Rat.mul_nonneg hq (Rat.le_of_lt hp))]
    · rw [if_neg hq]
      have hq' : q - a < 0 := Rat.not_le.1 hq
      rw [if_neg (Rat.not_le.2 ((Rat.mul_neg_iff_of_pos_right hp).2 hq'))]
      grind
  rw [key, key]
  exact Rat.mul_le_mul_of_nonneg_right h (Rat.le_of_lt hp)

theorem flPos_rel {x : Rat} (h : (2 : Rat) ^ (-1022 : Int) ≤ x) :
    flPos x - x ≤ x * 2 ^ (-53 : Int) ∧ x - flPos x ≤ x * 2 ^ (-53 : Int) := by
  have hx : 0 < x := by have := p2_pos (-1022); grind
  obtain ⟨h1, h2⟩ := expo_spec hx
  have he : -1022 < expo x + 1 := p2_lt (by grind)
  have hu : ulpE x = expo x + -52 := by unfold ulpE; omega
  have e : (1 : Rat) / 2 * 2 ^ ulpE x ≤ x * 2 ^ (-53 : Int) := by
    rw [hu, p2_add, show (2 : Rat) ^ (-52 : Int) = 2 * 2 ^ (-53 : Int) by decide +kernel]
    have := Rat.mul_le_mul_of_nonneg_right h1 (Rat.le_of_lt (p2_pos (-53)))
    generalize (2 : Rat) ^ expo x = E at *
    grind
  have := flPos_err (x := x)
  constructor <;> grind

/-- Multiples of the unit in the last place are not changed. -/
theorem flPos_exact {x : Rat} {n : Int} (h : x = n * 2 ^ ulpE x) : flPos x = x := by
  rw [flPos_def]
  have hp := p2_pos (ulpE x)
  have : x / 2 ^ ulpE x = n := by
    conv => lhs; lhs; rw [h]
    exact Rat.mul_div_cancel (Rat.ne_of_gt hp)
  rw [this, rne_int]
  exact h.symm

/-- The number `m * 2 ^ e` is a multiple of `2 ^ u` if `u ≤ e`. -/
theorem mult_of_le {m e u : Int} (h : u ≤ e) : ∃ n : Int, (m : Rat) * 2 ^ e = n * 2 ^ u := by
  obtain ⟨k, rfl⟩ : ∃ k : Nat, e = k + u := ⟨(e - u).toNat, by omega⟩
  refine ⟨m * (2 ^ k : Nat), ?_⟩
  rw [p2_add, p2_nat, Rat.intCast_mul, Rat.intCast_natCast]
  grind

theorem ulp_le {x : Rat} {m e : Int} (hx : 0 < x) (h : x = m * 2 ^ e) (hm : m < 2 ^ 53) (he : -1074 ≤ e) : ulpE x ≤ e := by
  obtain ⟨h1, h2⟩ := expo_spec hx
  have hlt : (2 : Rat) ^ expo x < 2 ^ (53 + e) := by
    have hm' : (m : Rat) < ((2 ^ 53 : Int) : Rat) := Rat.intCast_lt_intCast.2 hm
    have := Rat.mul_lt_mul_of_pos_right hm' (p2_pos e)
    rw [p2_add, show (2 : Rat) ^ (53 : Int) = ((2 ^ 53 : Int) : Rat) by decide +kernel]
    generalize (2 : Rat) ^ expo x = E at *
    grind
  have := p2_lt hlt
  unfold ulpE; omega

theorem fl_pos {x : Rat} (h : 0 < x) : fl x = flPos x := by
  unfold fl
  rw [if_neg (Rat.ne_of_gt h), if_neg (by grind)]

theorem fl_neg (x : Rat) : fl (-x) = -fl x := by
  unfold fl
  by_cases h0 : x = 0
  · subst h0; simp
  · by_cases h : x < 0
    · rw [if_neg (by grind), if_neg (by grind), if_neg h0, if_pos h]; simp
    · rw [if_neg (by grind), if_pos (by grind), if_neg h0, if_neg h]; simp

theorem fl_zero : fl 0 = 0 := by simp [fl]

/-- Doubles are not changed by rounding. -/
theorem fl_double {x : Rat} (h : IsDouble x) : fl x = x := by
  obtain ⟨m, e, hx, h1, h2, h3, -⟩ := h
  rcases (by grind : x = 0 ∨ 0 < x ∨ 0 < -x) with h0 | h0 | h0
  · rw [h0, fl_zero]
  · rw [fl_pos h0]
    obtain ⟨n, hn⟩ := mult_of_le (m := m) (ulp_le h0 hx h2 h3)
    exact flPos_exact (hx.trans hn)
  · have hx' : -x = (-m : Int) * 2 ^ e := by rw [hx, Rat.intCast_neg]; grind
    obtain ⟨n, hn⟩ := mult_of_le (m := -m) (ulp_le h0 hx' (by omega) h3)
    have := flPos_exact (hx'.trans hn)
    rw [← fl_pos h0, fl_neg] at this
    grind

theorem abs_le_iff {a b : Rat} : a.abs ≤ b ↔ a ≤ b ∧ -a ≤ b := by
  unfold Rat.abs
  split <;> constructor <;> grind

/-- The relative error of rounding. -/
theorem fl_rel {x : Rat} (h : x = 0 ∨ (2 : Rat) ^ (-1022 : Int) ≤ x.abs) : (fl x - x).abs ≤ x.abs * 2 ^ (-53 : Int) := by
  have hp := p2_pos (-1022)
  rcases (by grind : x = 0 ∨ 0 < x ∨ 0 < -x) with h0 | h0 | h0
  · subst h0; decide +kernel
  · rcases h with h | h
    · grind
    rw [Rat.abs_of_nonneg (Rat.le_of_lt h0)] at h ⊢
    have := flPos_rel h
    rw [fl_pos h0, abs_le_iff]
    constructor <;> grind
  · rcases h with h | h
    · grind
    rw [Rat.abs_of_nonpos (x := x) (by grind)] at h ⊢
    have := flPos_rel h
    rw [← fl_pos h0, fl_neg] at this
    rw [abs_le_iff]
    constructor <;> grind

theorem flPos_isDouble {x : Rat} (h : 0 < x) (hx : x ≤ 2 ^ (1023 : Int)) : IsDouble (flPos x) := by
  obtain ⟨h1, h2⟩ := expo_spec h
  have hu : ulpE x ≤ 971 := by
    have : expo x < 1024 := p2_lt (by have := show (2 : Rat) ^ (1023 : Int) < 2 ^ (1024 : Int) by decide +kernel
                                      grind)
    unfold ulpE; omega
  have hl : -1074 ≤ ulpE x := by unfold ulpE; omega
  have hp := p2_pos (ulpE x)
  -- x / 2^u < 2^53
  have hq : x / 2 ^ ulpE x < ((2 ^ 53 : Int) : Rat) := by
    rw [Rat.div_lt_iff hp]
    have : (2 : Rat) ^ (expo x + 1) ≤ 2 ^ (53 + ulpE x) := p2_le (by unfold ulpE; omega)
    rw [p2_add 53, show (2 : Rat) ^ (53 : Int) = ((2 ^ 53 : Int) : Rat) by decide +kernel] at this
    grind
  have hq0 : 0 < x / 2 ^ ulpE x := by
    rw [Rat.lt_div_iff hp]; simpa using h
  have herr := rne_err (x / 2 ^ ulpE x)
  have hle : rne (x / 2 ^ ulpE x) ≤ 2 ^ 53 := by
    have : (rne (x / 2 ^ ulpE x) : Rat) < ((2 ^ 53 + 1 : Int) : Rat) := by
      rw [Rat.intCast_add]; grind
    have := Rat.intCast_lt_intCast.1 this
    omega
  have hge : 0 ≤ rne (x / 2 ^ ulpE x) := by
    have : ((-1 : Int) : Rat) < (rne (x / 2 ^ ulpE x) : Rat) := by grind
    have := Rat.intCast_lt_intCast.1 this
    omega
  rw [flPos_def]
  rcases Int.lt_or_eq_of_le hle with hlt | heq
  · exact ⟨_, _, rfl, by omega, hlt, hl, hu⟩
  · have hu2 : ulpE x ≤ 970 := by
      apply Int.not_lt.1; intro hcon
      have hue : ulpE x = 971 := by omega
      have : expo x = 1023 := by unfold ulpE at hue; omega
      rw [this] at h1
      have hx1 : x = 2 ^ (1023 : Int) := Rat.le_antisymm hx h1
      have : x / 2 ^ ulpE x = ((2 ^ 52 : Int) : Rat) := by rw [hue, hx1]; decide +kernel
      rw [this, rne_int] at heq
      omega
    refine ⟨2 ^ 52, 1 + ulpE x, ?_, by decide, by decide, by omega, by omega⟩
    rw [heq, p2_add, show (2 : Rat) ^ (1 : Int) = 2 by decide +kernel,
      show ((2 ^ 53 : Int) : Rat) = ((2 ^ 52 : Int) : Rat) * 2 by decide +kernel]
    grind

theorem flPos_nearest {x z : Rat} (h : 0 < x) (hz : IsDouble z) : (x - flPos x).abs ≤ (x - z).abs := by
  obtain ⟨m, e, hz, h1, h2, h3, -⟩ := hz
  obtain ⟨he1, he2⟩ := expo_spec h
  rcases Int.lt_or_le e (ulpE x) with hlt | hle
  · -- the exponent of `x` is in between
    have hu : ulpE x = expo x - 52 := by unfold ulpE at *; omega
    have hz2 : z ≤ 2 ^ expo x := by
      have hm' : (m : Rat) ≤ ((2 ^ 53 : Int) : Rat) := Rat.intCast_le_intCast.2 (by omega)
      have h4 := Rat.mul_le_mul_of_nonneg_right hm' (Rat.le_of_lt (p2_pos e))
      have h5 : (2 : Rat) ^ (53 + e) ≤ 2 ^ expo x := p2_le (by omega)
      rw [p2_add, show (2 : Rat) ^ (53 : Int) = ((2 ^ 53 : Int) : Rat) by decide +kernel] at h5
      grind
    obtain ⟨n, hn⟩ := mult_of_le (m := 1) (u := ulpE x) (e := expo x) (by omega)
    have h6 := flPos_nearest_mult x n
    rw [← hn, Rat.intCast_one, Rat.one_mul] at h6
    rw [Rat.abs_of_nonneg (x := x - 2 ^ expo x) (by grind)] at h6
    rw [Rat.abs_of_nonneg (x := x - z) (by grind)]
    grind
  · obtain ⟨n, hn⟩ := mult_of_le (m := m) hle
    rw [hz, hn]
    exact flPos_nearest_mult x n

theorem isDouble_neg {x : Rat} (h : IsDouble x) : IsDouble (-x) := by
  obtain ⟨m, e, hx, h1, h2, h3, h4⟩ := h
  exact ⟨-m, e, by rw [hx, Rat.intCast_neg]; grind, by omega, by omega, h3, h4⟩

theorem isDouble_zero : IsDouble 0 := ⟨0, 0, by decide +kernel, by decide, by decide, by decide, by decide⟩

/-- The function of the model is rounding to nearest. -/
theorem fl_nearest {x : Rat} (h : x.abs ≤ 2 ^ (1023 : Int)) : NearestDouble x (fl x) := by
  rcases (by grind : x = 0 ∨ 0 < x ∨ 0 < -x) with h0 | h0 | h0
  · subst h0
    rw [fl_zero]
    exact ⟨isDouble_zero, fun z _ => by
      rw [show (0 : Rat) - 0 = 0 by decide +kernel, Rat.abs_zero]; exact Rat.abs_nonneg⟩
  · rw [Rat.abs_of_nonneg (Rat.le_of_lt h0)] at h
    rw [fl_pos h0]
    exact ⟨flPos_isDouble h0 h, fun z hz => flPos_nearest h0 hz⟩
  · rw [Rat.abs_of_nonpos (by grind)] at h
    have e : fl x = -flPos (-x) := by rw [← fl_pos h0, fl_neg]; grind
    rw [e]
    refine ⟨isDouble_neg (flPos_isDouble h0 h), fun z hz => ?_⟩
    have := flPos_nearest h0 (isDouble_neg hz)
    rw [← Rat.abs_neg, ← Rat.abs_neg (x := x - z)]
    rw [show -(x - -flPos (-x)) = -x - flPos (-x) by grind, show -(x - z) = -x - -z by grind]
    exact this

end Jpy
