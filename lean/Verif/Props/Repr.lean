import Lean.Elab.Tactic.Basic
import Verif.Spec.Repr
import Verif.Model.Repr
import Verif.Props.MixFloat
import Verif.Props.RatioExact
/-! # C75: the decimal numbers of a report as text -/

namespace Jpy
open Jpy.Spec

/-! ## Decimal numbers of up to 15 digits are read as different doubles -/

theorem int_close {A B : Nat} (hA : A < 10 ^ 15) (h : ((A : Rat) - B).abs ≤ ((A : Rat) + B) * 2 ^ (-53 : Int)) : A = B := by
  have hA' : (A : Rat) < 1000000000000000 := by
    have := cast_lt.2 (show (A : Int) < (1000000000000000 : Int) by omega)
    have e : ((1000000000000000 : Int) : Rat) = 1000000000000000 := by decide +kernel
    rw [e] at this
    exact this
  have hu : (2 : Rat) ^ (-53 : Int) = 1 / 9007199254740992 := by decide +kernel
  rw [hu] at h
  have h' := abs_le_iff.1 h
  have hB : (0 : Rat) ≤ B := by exact_mod_cast cast_le.2 (show (0 : Int) ≤ (B : Int) by omega)
  have h1 : ((A : Int) : Rat) < (((B : Int) + 1 : Int) : Rat) := by
    rw [Rat.intCast_add, Rat.intCast_one]
    have e1 : ((A : Int) : Rat) = (A : Rat) := rfl
    have e2 : ((B : Int) : Rat) = (B : Rat) := rfl
    rw [e1, e2]
    grind
  have h2 : ((B : Int) : Rat) < (((A : Int) + 1 : Int) : Rat) := by
    rw [Rat.intCast_add, Rat.intCast_one]
    have e1 : ((A : Int) : Rat) = (A : Rat) := rfl
    have e2 : ((B : Int) : Rat) = (B : Rat) := rfl
    rw [e1, e2]
    grind
  have h1 := cast_lt.1 h1
  have h2 := cast_lt.1 h2
  omega

theorem fl_pos_le {x : Rat} (hx : 0 < x) : fl x ≤ 2 * x := by
  have h := flPos_nearest hx isDouble_zero
  rw [← fl_pos hx] at h
  have e : (x - 0).abs = x := by rw [Rat.abs_of_nonneg (by grind)]; grind
  rw [e] at h
  have := abs_le_iff.1 h
  grind

theorem t10_add (a b : Int) : (10 : Rat) ^ (a + b) = 10 ^ a * 10 ^ b := Rat.zpow_add (by decide +kernel) a b

/-- Two decimal numbers that are read as the same double, one of them a multiple of 10^-4 and not zero. -/
theorem same_double {k m d : Nat} {e : Int} (hk0 : 0 < k) (hk : k < 10 ^ 15) (hm : m < 10 ^ 15) (hd : d ≤ 4)
    (h : fl ((m : Rat) * (10 : Rat) ^ e) = fl ((k : Rat) * (10 : Rat) ^ (-(d : Int)))) :
    (m : Rat) * (10 : Rat) ^ e = (k : Rat) * (10 : Rat) ^ (-(d : Int)) := by
  have hkq : (1 : Rat) ≤ k := by exact_mod_cast cast_le.2 (show (1 : Int) ≤ (k : Int) by omega)
  have hb4 : (1 : Rat) / 10000 ≤ (k : Rat) * (10 : Rat) ^ (-(d : Int)) := by
    have h1 : (1 : Rat) / 10000 ≤ (10 : Rat) ^ (-(d : Int)) := by
      have : d = 0 ∨ d = 1 ∨ d = 2 ∨ d = 3 ∨ d = 4 := by omega
      rcases this with rfl | rfl | rfl | rfl | rfl <;> decide +kernel
    have := Rat.mul_le_mul_of_nonneg_right hkq (Rat.le_of_lt (t10_pos (-(d : Int))))
    grind
  have hb : 0 < (k : Rat) * (10 : Rat) ^ (-(d : Int)) := by grind
  have hu : (2 : Rat) ^ (-53 : Int) = 1 / 9007199254740992 := by decide +kernel
  have cb := fl_rel (x := (k : Rat) * (10 : Rat) ^ (-(d : Int))) (.inr (by
    rw [Rat.abs_of_nonneg (Rat.le_of_lt hb)]
    exact Rat.le_trans (by decide +kernel) hb4))
  rw [Rat.abs_of_nonneg (x := (k : Rat) * (10 : Rat) ^ (-(d : Int))) (Rat.le_of_lt hb)] at cb
  have hy : (1 : Rat) / 20000 ≤ fl ((k : Rat) * (10 : Rat) ^ (-(d : Int))) := by
    have := abs_le_iff.1 cb
    rw [hu] at this
    grind
  have hm0 : 0 < m := by
    apply Nat.pos_of_ne_zero
    rintro rfl
    rw [show ((0 : Nat) : Rat) = 0 from rfl, Rat.zero_mul, fl_zero] at h
    rw [← h] at hy
    revert hy
    decide +kernel
  have hmq : (1 : Rat) ≤ m := by exact_mod_cast cast_le.2 (show (1 : Int) ≤ (m : Int) by omega)
  have ha : 0 < (m : Rat) * (10 : Rat) ^ e := Rat.mul_pos (by grind) (t10_pos e)
  have ha4 : (1 : Rat) / 40000 ≤ (m : Rat) * (10 : Rat) ^ e := by
    have := fl_pos_le ha
    rw [h] at this
    grind
  have ca := fl_rel (x := (m : Rat) * (10 : Rat) ^ e) (.inr (by
    rw [Rat.abs_of_nonneg (Rat.le_of_lt ha)]
    exact Rat.le_trans (by decide +kernel) ha4))
  rw [Rat.abs_of_nonneg (x := (m : Rat) * (10 : Rat) ^ e) (Rat.le_of_lt ha), h] at ca
  have key : ((m : Rat) * (10 : Rat) ^ e - (k : Rat) * (10 : Rat) ^ (-(d : Int))).abs ≤
      ((m : Rat) * (10 : Rat) ^ e + (k : Rat) * (10 : Rat) ^ (-(d : Int))) * 2 ^ (-53 : Int) := by
    have ha' := abs_le_iff.1 ca
    have hb' := abs_le_iff.1 cb
    rw [abs_le_iff, Rat.add_mul]
    generalize (2 : Rat) ^ (-53 : Int) = u at *
    generalize (m : Rat) * (10 : Rat) ^ e = a at *
    generalize (k : Rat) * (10 : Rat) ^ (-(d : Int)) = b at *
    constructor <;> grind
  clear ca cb ha4 hb4 hy ha hb h
  by_cases he : -(d : Int) ≤ e
  · obtain ⟨j, hj⟩ := Int.eq_ofNat_of_zero_le (show 0 ≤ e + d by omega)
    have ee : e = (j : Int) + -(d : Int) := by omega
    have hp := t10_pos (-(d : Int))
    have em : (m : Rat) * (10 : Rat) ^ e = ((m * 10 ^ j : Nat) : Rat) * (10 : Rat) ^ (-(d : Int)) := by
      rw [ee, t10_add, Rat.zpow_natCast, Rat.natCast_mul, Rat.natCast_pow, Rat.mul_assoc]; rfl
    rw [em] at key ⊢
    generalize (10 : Rat) ^ (-(d : Int)) = t at *
    rw [show ((m * 10 ^ j : Nat) : Rat) * t - k * t = ((k : Rat) - (m * 10 ^ j : Nat)) * -t by grind, ← Rat.abs_neg,
      show -(((k : Rat) - (m * 10 ^ j : Nat)) * -t) = ((k : Rat) - (m * 10 ^ j : Nat)) * t by grind,
      abs_mul_pos _ hp,
      show (((m * 10 ^ j : Nat) : Rat) * t + k * t) * 2 ^ (-53 : Int) = ((k : Rat) + (m * 10 ^ j : Nat)) * 2 ^ (-53 : Int) * t by
        grind] at key
    have := int_close hk (Rat.le_of_mul_le_mul_right key hp)
    rw [← this]
  · obtain ⟨j, hj⟩ := Int.eq_ofNat_of_zero_le (show 0 ≤ -(d : Int) - e by omega)
    have ee : -(d : Int) = (j : Int) + e := by omega
    have hp := t10_pos e
    have em : (k : Rat) * (10 : Rat) ^ (-(d : Int)) = ((k * 10 ^ j : Nat) : Rat) * (10 : Rat) ^ e := by
      rw [ee, t10_add, Rat.zpow_natCast, Rat.natCast_mul, Rat.natCast_pow, Rat.mul_assoc]; rfl
    rw [em] at key ⊢
    generalize (10 : Rat) ^ e = t at *
    rw [show (m : Rat) * t - ((k * 10 ^ j : Nat) : Rat) * t = ((m : Rat) - (k * 10 ^ j : Nat)) * t by grind,
      abs_mul_pos _ hp,
      show ((m : Rat) * t + ((k * 10 ^ j : Nat) : Rat) * t) * 2 ^ (-53 : Int) = ((m : Rat) + (k * 10 ^ j : Nat)) * 2 ^ (-53 : Int) * t by
        grind] at key
    have := int_close hm (Rat.le_of_mul_le_mul_right key hp)
    rw [← this]

/-! ## Digits -/

theorem digits_snoc {m : Nat} (h : 10 ≤ m) : Nat.toDigits 10 m = Nat.toDigits 10 (m / 10) ++ [(m % 10).digitChar] := by
  rw [Nat.toDigits_eq_if (by decide), if_neg (by omega)]

theorem digit_ne_zero {n : Nat} (h0 : n ≠ 0) (h : n < 10) : n.digitChar ≠ '0' := by
  have : n = 1 ∨ n = 2 ∨ n = 3 ∨ n = 4 ∨ n = 5 ∨ n = 6 ∨ n = 7 ∨ n = 8 ∨ n = 9 := by omega
  rcases this with rfl | rfl | rfl | rfl | rfl | rfl | rfl | rfl | rfl <;> decide

theorem digits_last {m : Nat} (h : m % 10 ≠ 0) : (Nat.toDigits 10 m).getLast? ≠ some '0' := by
  by_cases hm : m < 10
  · rw [Nat.toDigits_of_lt_base hm]
    simpa using digit_ne_zero (by omega) hm
  · rw [digits_snoc (by omega)]
    simpa using digit_ne_zero h (by omega)

theorem digits_head {m : Nat} (h : 0 < m) : (Nat.toDigits 10 m).head? ≠ some '0' := by
  induction m using Nat.strongRecOn with
  | _ m ih =>
    by_cases hm : m < 10
    · rw [Nat.toDigits_of_lt_base hm]
      simpa using digit_ne_zero (by omega) hm
    · rw [digits_snoc (by omega), List.head?_append]
      have := ih (m / 10) (by omega) (by omega)
      have hne : Nat.toDigits 10 (m / 10) ≠ [] := Nat.toDigits_ne_nil
      cases hd : Nat.toDigits 10 (m / 10) with
      | nil => exact absurd hd hne
      | cons a l => rw [hd] at this; simpa using this

theorem digits_shift {m : Nat} (h : 0 < m) (j : Nat) :
    (Nat.toDigits 10 (m * 10 ^ j)).length = (Nat.toDigits 10 m).length + j := by
  induction j with
  | zero => simp
  | succ j ih =>
    have hp : 0 < m * 10 ^ j := Nat.mul_pos h (Nat.pow_pos (by decide))
    rw [Nat.pow_succ, ← Nat.mul_assoc, digits_snoc (by omega), Nat.mul_div_cancel _ (by decide)]
    simp [ih]; omega

theorem digits_lt_pow {m k : Nat} (hk : 0 < k) (h : m < 10 ^ k) : (Nat.toDigits 10 m).length ≤ k :=
  (Nat.length_toDigits_le_iff (by decide) hk).2 h

theorem digits_val (l : List Char) (m j : Nat) (h : Nat.ofDigitChars 10 l 0 = m) :
    Nat.ofDigitChars 10 (l ++ List.replicate j '0') 0 = m * 10 ^ j := by
  rw [Nat.ofDigitChars_append, h, Nat.ofDigitChars_replicate_zero, Nat.mul_comm]

theorem zeros_val (l : List Char) (m j : Nat) (h : Nat.ofDigitChars 10 l 0 = m) :
    Nat.ofDigitChars 10 (List.replicate j '0' ++ l) 0 = m := by
  rw [Nat.ofDigitChars_append, Nat.ofDigitChars_replicate_zero, Nat.mul_zero, h]

/-- The layout of a number whose point is near its digits is that of a decimal number. -/
theorem reprText_decimal {m : Nat} {e : Int} (hm : m % 10 ≠ 0) (h1 : -4 < ((Nat.toDigits 10 m).length : Int) + e)
    (h2 : ((Nat.toDigits 10 m).length : Int) + e ≤ 16) : DecimalText (reprText m e) ((m : Rat) * (10 : Rat) ^ e) := by
  have hdig : ∀ c ∈ Nat.toDigits 10 m, c.isDigit = true := fun c hc =>
    Nat.isDigit_of_mem_toDigits (by decide) (by decide) hc
  have hne : Nat.toDigits 10 m ≠ [] := Nat.toDigits_ne_nil
  have hval : Nat.ofDigitChars 10 (Nat.toDigits 10 m) 0 = m := Nat.ofDigitChars_ten_toDigits
  have hl := digits_last hm
  have hh := digits_head (m := m) (by omega)
  have neg : ∀ n : Nat, e = -(n : Int) → (m : Rat) * (10 : Rat) ^ e = (m : Rat) / 10 ^ n := by
    rintro n rfl
    rw [Rat.zpow_neg, Rat.zpow_natCast, Rat.div_def]
  unfold reprText
  simp only
  rw [if_neg (by omega)]
  generalize hD : Nat.toDigits 10 m = D at *
  have hlen : 0 < D.length := List.length_pos_iff.2 hne
  split
  · rename_i h3
    refine ⟨['0'], List.replicate (-(↑D.length + e)).toNat '0' ++ D, by simp, by simp, by simp [hne], ?_, .inl rfl, .inr ?_, ?_⟩
    · intro c hc
      simp only [List.mem_append, List.mem_singleton, List.mem_replicate] at hc
      rcases hc with rfl | ⟨-, rfl⟩ | hc
      · decide
      · decide
      · exact hdig c hc
    · rw [List.getLast?_append]
      cases hg : D.getLast? with
      | none => exact absurd (List.getLast?_eq_none_iff.1 hg) hne
      | some a => rw [hg] at hl; simpa using hl
    · rw [neg (List.replicate (-(↑D.length + e)).toNat '0' ++ D).length (by simp; omega)]
      have : Nat.ofDigitChars 10 (['0'] ++ (List.replicate (-(↑D.length + e)).toNat '0' ++ D)) 0 = m := by
        rw [← List.append_assoc]
        exact zeros_val D m ((-(↑D.length + e)).toNat + 1) hval
      rw [this]
  · split
    · rename_i h3 h4
      refine ⟨D ++ List.replicate e.toNat '0', ['0'], by simp, by simp [hne], by simp, ?_, .inr ?_, .inl rfl, ?_⟩
      · intro c hc
        simp only [List.mem_append, List.mem_singleton, List.mem_replicate] at hc
        rcases hc with (hc | ⟨-, rfl⟩) | rfl
        · exact hdig c hc
        · decide
        · decide
      · rw [List.head?_append]
        cases hg : D.head? with
        | none => exact absurd (List.head?_eq_none_iff.1 hg) hne
        | some a => rw [hg] at hh; simpa using hh
      · have : Nat.ofDigitChars 10 ((D ++ List.replicate e.toNat '0') ++ ['0']) 0 = m * 10 ^ (e.toNat + 1) := by
          rw [List.append_assoc, show List.replicate e.toNat '0' ++ ['0'] = List.replicate (e.toNat + 1) '0' by
            rw [List.replicate_succ']]
          exact digits_val D m _ hval
        rw [this]
        obtain ⟨n, rfl⟩ := Int.eq_ofNat_of_zero_le (show 0 ≤ e by omega)
        rw [Rat.natCast_mul, Rat.natCast_pow, Rat.zpow_natCast]
        have h10 : ((10 : Nat) : Rat) = 10 := rfl
        rw [h10, List.length_singleton, Int.toNat_natCast, Rat.pow_succ]
        grind
    · rename_i h3 h4
      refine ⟨D.take (↑D.length + e).toNat, D.drop (↑D.length + e).toNat, by simp, ?_, ?_, ?_, .inr ?_, .inr ?_, ?_⟩
      · intro h
        have := congrArg List.length h
        rw [List.length_take, List.length_nil] at this
        omega
      · intro h
        have := congrArg List.length h
        rw [List.length_drop, List.length_nil] at this
        omega
      · rw [List.take_append_drop]; exact hdig
      · rw [List.head?_take, if_neg (by omega)]; exact hh
      · rw [List.getLast?_drop, if_neg (by omega)]; exact hl
      · rw [List.take_append_drop, hval]
        exact neg _ (by simp; omega)

theorem cancel_right {a b t : Rat} (ht : 0 < t) (h : a * t = b * t) : a = b :=
  Rat.le_antisymm (Rat.le_of_mul_le_mul_right (by rw [h]; exact Rat.le_refl) ht)
    (Rat.le_of_mul_le_mul_right (by rw [h]; exact Rat.le_refl) ht)

/-- A decimal number of up to 15 digits with up to four decimals and its shortest form. -/
theorem shortest_decimal {k d m : Nat} {e : Int} (hk0 : 0 < k) (hk : k < 10 ^ 15) (hd : d ≤ 4)
    (h : Shortest (fl ((k : Rat) / 10 ^ d)) m e) :
    (m : Rat) * (10 : Rat) ^ e = (k : Rat) / 10 ^ d ∧ ∃ j : Nat, e = (j : Int) - d ∧ k = m * 10 ^ j := by
  have ek : (k : Rat) / 10 ^ d = (k : Rat) * (10 : Rat) ^ (-(d : Int)) := by
    rw [Rat.zpow_neg, Rat.zpow_natCast, Rat.div_def]
  rw [ek] at h ⊢
  have hl := h.minimal k (-(d : Int)) rfl
  have hk15 := digits_lt_pow (by decide) hk
  have hm : m < 10 ^ 15 := (Nat.length_toDigits_le_iff (by decide) (by decide)).1 (Nat.le_trans hl hk15)
  have heq := same_double hk0 hk hm hd h.reads
  refine ⟨heq, ?_⟩
  have hs := h.stripped
  by_cases he : -(d : Int) ≤ e
  · obtain ⟨j, hj⟩ := Int.eq_ofNat_of_zero_le (show 0 ≤ e + d by omega)
    refine ⟨j, by omega, ?_⟩
    have ee : e = (j : Int) + -(d : Int) := by omega
    rw [ee, t10_add, Rat.zpow_natCast, ← Rat.mul_assoc] at heq
    have := cancel_right (t10_pos (-(d : Int))) heq
    have h10 : ((10 : Nat) : Rat) = 10 := rfl
    rw [← h10, ← Rat.natCast_pow, ← Rat.natCast_mul] at this
    exact (Rat.natCast_inj.1 this).symm
  · obtain ⟨j, hj⟩ := Int.eq_ofNat_of_zero_le (show 0 ≤ -(d : Int) - e - 1 by omega)
    have ee : -(d : Int) = ((j + 1 : Nat) : Int) + e := by omega
    rw [ee, t10_add, Rat.zpow_natCast, ← Rat.mul_assoc] at heq
    have := cancel_right (t10_pos e) heq
    have h10 : ((10 : Nat) : Rat) = 10 := rfl
    rw [← h10, ← Rat.natCast_pow, ← Rat.natCast_mul] at this
    have := Rat.natCast_inj.1 this
    rw [Nat.pow_succ, ← Nat.mul_assoc] at this
    omega

theorem pos_of_rel {x y : Rat} (h0 : 0 < x) (h : (y - x).abs ≤ x * (1 / 9007199254740992)) : 0 < y := by
  have := abs_le_iff.1 h
  grind

theorem fl_nonneg_pos {x : Rat} (h0 : 0 < x) (hx : (2 : Rat) ^ (-1022 : Int) ≤ x) : 0 < fl x := by
  have h := fl_rel (x := x) (.inr (by rw [Rat.abs_of_nonneg (Rat.le_of_lt h0)]; exact hx))
  rw [Rat.abs_of_nonneg (x := x) (Rat.le_of_lt h0), show (2 : Rat) ^ (-53 : Int) = 1 / 9007199254740992 by decide +kernel] at h
  exact pos_of_rel h0 h

theorem decimal_min {k d : Nat} (hk0 : 0 < k) (hd : d ≤ 4) : (2 : Rat) ^ (-1022 : Int) ≤ (k : Rat) / 10 ^ d := by
  have hkq : (1 : Rat) ≤ k := by exact_mod_cast cast_le.2 (show (1 : Int) ≤ (k : Int) by omega)
  refine Rat.le_trans (b := 1 / 10000) (by decide +kernel) ?_
  have : d = 0 ∨ d = 1 ∨ d = 2 ∨ d = 3 ∨ d = 4 := by omega
  rcases this with rfl | rfl | rfl | rfl | rfl <;> grind

theorem decimal_pos {k d : Nat} (hk0 : 0 < k) : 0 < (k : Rat) / 10 ^ d := by
  have hkq : (0 : Rat) < k := by exact_mod_cast cast_lt.2 (show (0 : Int) < (k : Int) by omega)
  rw [Rat.div_def]
  exact Rat.mul_pos hkq (Rat.inv_pos.2 (ten_pos d))

/-- C75 (text): the text of the float nearest to a number with at most four decimals and 15 digits is that number
in decimal notation, without an exponent. -/
theorem C75_text {k d : Nat} (hk : k < 10 ^ 15) (hd : d ≤ 4) {s : String} (h : IsRepr (fl ((k : Rat) / 10 ^ d)) s) :
    DecimalText s ((k : Rat) / 10 ^ d) := by
  by_cases hk0 : k = 0
  · subst hk0
    have e0 : ((0 : Nat) : Rat) / 10 ^ d = 0 := by rw [show ((0 : Nat) : Rat) = 0 from rfl, Rat.div_def, Rat.zero_mul]
    rw [e0] at h ⊢
    rw [fl_zero] at h
    generalize hy : (0 : Rat) = y at h
    cases h with
    | zero => exact ⟨['0'], ['0'], by decide, by decide, by decide, by decide, by decide, by decide, by decide +kernel⟩
    | pos h1 => subst hy; exact absurd h1 (by decide +kernel)
    | neg h1 => subst hy; exact absurd h1 (by decide +kernel)
  · have hp := fl_nonneg_pos (decimal_pos (k := k) (d := d) (by omega)) (decimal_min (k := k) (by omega) hd)
    generalize hy : fl ((k : Rat) / 10 ^ d) = y at h
    cases h with
    | zero => rw [hy] at hp; exact absurd hp (by decide +kernel)
    | neg h1 => rw [hy] at hp; grind
    | @pos _ m e h1 hs =>
      rw [← hy] at hs
      obtain ⟨heq, j, rfl, hkm⟩ := shortest_decimal (by omega) hk hd hs
      rw [← heq]
      have hst := hs.stripped
      have hl := digits_shift (m := m) (by omega) j
      rw [← hkm] at hl
      have h15 := digits_lt_pow (by decide) hk
      have := Nat.length_toDigits_pos (b := 10) (n := k)
      exact reprText_decimal hst (by omega) (by omega)

theorem mantissa_unique {m m' j j' : Nat} (hm : m % 10 ≠ 0) (hm' : m' % 10 ≠ 0) (h : m * 10 ^ j = m' * 10 ^ j') :
    m = m' ∧ j = j' := by
  induction j generalizing j' with
  | zero =>
    cases j' with
    | zero => exact ⟨by simpa using h, rfl⟩
    | succ j' => rw [Nat.pow_succ, ← Nat.mul_assoc] at h; omega
  | succ j ih =>
    cases j' with
    | zero => rw [Nat.pow_succ, ← Nat.mul_assoc] at h; omega
    | succ j' =>
      rw [Nat.pow_succ, Nat.pow_succ, ← Nat.mul_assoc, ← Nat.mul_assoc] at h
      obtain ⟨h1, h2⟩ := ih (j' := j') (Nat.eq_of_mul_eq_mul_right (by decide) h)
      exact ⟨h1, by rw [h2]⟩

/-- C75 (one text): a number has at most one text. -/
theorem C75_unique {k d : Nat} (hk : k < 10 ^ 15) (hd : d ≤ 4) {s s' : String} (h : IsRepr (fl ((k : Rat) / 10 ^ d)) s)
    (h' : IsRepr (fl ((k : Rat) / 10 ^ d)) s') : s = s' := by
  by_cases hk0 : k = 0
  · subst hk0
    have e0 : ((0 : Nat) : Rat) / 10 ^ d = 0 := by rw [show ((0 : Nat) : Rat) = 0 from rfl, Rat.div_def, Rat.zero_mul]
    rw [e0, fl_zero] at h h'
    generalize hy : (0 : Rat) = y at h h'
    cases h with
    | zero =>
      cases h' with
      | zero => rfl
      | pos h1 => exact absurd h1 (by decide +kernel)
      | neg h1 => exact absurd h1 (by decide +kernel)
    | pos h1 => subst hy; exact absurd h1 (by decide +kernel)
    | neg h1 => subst hy; exact absurd h1 (by decide +kernel)
  · have hp := fl_nonneg_pos (decimal_pos (k := k) (d := d) (by omega)) (decimal_min (k := k) (by omega) hd)
    generalize hy : fl ((k : Rat) / 10 ^ d) = y at *
    cases h with
    | zero => exact absurd hp (by decide +kernel)
    | neg h1 => grind
    | pos h1 hs =>
      cases h' with
      | zero => exact absurd hp (by decide +kernel)
      | neg h1 => grind
      | pos h1 hs' =>
        rw [← hy] at hs hs'
        obtain ⟨-, j, rfl, hkm⟩ := shortest_decimal (by omega) hk hd hs
        obtain ⟨-, j', rfl, hkm'⟩ := shortest_decimal (by omega) hk hd hs'
        obtain ⟨rfl, rfl⟩ := mantissa_unique hs.stripped hs'.stripped (hkm.symm.trans hkm')
        rfl

/-- C75 (every number has a text): the hypothesis of `C75_text` is met by a text for each number. -/
theorem C75_exists {k d : Nat} (hk : k < 10 ^ 15) (hd : d ≤ 4) : ∃ s, IsRepr (fl ((k : Rat) / 10 ^ d)) s := by
  by_cases hk0 : k = 0
  · subst hk0
    have e0 : ((0 : Nat) : Rat) / 10 ^ d = 0 := by rw [show ((0 : Nat) : Rat) = 0 from rfl, Rat.div_def, Rat.zero_mul]
    rw [e0, fl_zero]
    exact ⟨_, .zero⟩
  · have hp := fl_nonneg_pos (decimal_pos (k := k) (d := d) (by omega)) (decimal_min (k := k) (by omega) hd)
    have strip : ∀ k : Nat, 0 < k → ∃ m j, k = m * 10 ^ j ∧ m % 10 ≠ 0 := by
      intro k
      induction k using Nat.strongRecOn with
      | _ k ih =>
        intro h0
        by_cases h : k % 10 = 0
        · obtain ⟨m, j, h1, h2⟩ := ih (k / 10) (by omega) (by omega)
          refine ⟨m, j + 1, ?_, h2⟩
          rw [Nat.pow_succ, ← Nat.mul_assoc, ← h1]; omega
        · exact ⟨k, 0, by simp, h⟩
    obtain ⟨m, j, hkm, hm⟩ := strip k (by omega)
    have em : (m : Rat) * (10 : Rat) ^ ((j : Int) - d) = (k : Rat) * (10 : Rat) ^ (-(d : Int)) := by
      rw [Int.sub_eq_add_neg, t10_add, Rat.zpow_natCast, hkm, Rat.natCast_mul, Rat.natCast_pow, Rat.mul_assoc]; rfl
    have ek : (k : Rat) / 10 ^ d = (k : Rat) * (10 : Rat) ^ (-(d : Int)) := by
      rw [Rat.zpow_neg, Rat.zpow_natCast, Rat.div_def]
    have hk15 := digits_lt_pow (by decide) hk
    have hl := digits_shift (m := m) (by omega) j
    rw [← hkm] at hl
    rw [ek] at hp ⊢
    have small : ∀ (m' : Nat) (e' : Int), fl ((m' : Rat) * (10 : Rat) ^ e') = fl ((k : Rat) * (10 : Rat) ^ (-(d : Int))) →
        (Nat.toDigits 10 m').length ≤ (Nat.toDigits 10 m).length →
        (m' : Rat) * (10 : Rat) ^ e' = (k : Rat) * (10 : Rat) ^ (-(d : Int)) := fun m' e' h h' =>
      same_double (by omega) hk ((Nat.length_toDigits_le_iff (by decide) (by decide)).1 (by omega)) hd h
    refine ⟨_, .pos (m := m) (e := (j : Int) - d) hp ⟨by rw [em], hm, ?_, ?_⟩⟩
    · intro m' e' h
      by_cases hc : (Nat.toDigits 10 m).length ≤ (Nat.toDigits 10 m').length
      · exact hc
      · have heq := small m' e' h (by omega)
        rw [← em] at heq
        exfalso
        by_cases he : e' ≤ (j : Int) - d
        · obtain ⟨i, hi⟩ := Int.eq_ofNat_of_zero_le (show 0 ≤ (j : Int) - d - e' by omega)
          have ee : (j : Int) - d = (i : Int) + e' := by omega
          rw [ee, t10_add, Rat.zpow_natCast, ← Rat.mul_assoc] at heq
          have := cancel_right (t10_pos e') heq
          have h10 : ((10 : Nat) : Rat) = 10 := rfl
          rw [← h10, ← Rat.natCast_pow, ← Rat.natCast_mul] at this
          have := Rat.natCast_inj.1 this
          have hl' := digits_shift (m := m) (by omega) i
          rw [← this] at hl'
          omega
        · obtain ⟨i, hi⟩ := Int.eq_ofNat_of_zero_le (show 0 ≤ e' - ((j : Int) - d) - 1 by omega)
          have ee : e' = ((i + 1 : Nat) : Int) + ((j : Int) - d) := by omega
          rw [ee, t10_add, Rat.zpow_natCast, ← Rat.mul_assoc] at heq
          have := cancel_right (t10_pos ((j : Int) - d)) heq
          have h10 : ((10 : Nat) : Rat) = 10 := rfl
          rw [← h10, ← Rat.natCast_pow, ← Rat.natCast_mul] at this
          have := Rat.natCast_inj.1 this
          rw [Nat.pow_succ, ← Nat.mul_assoc] at this
          omega
    · intro m' e' h h'
      rw [small m' e' h (by omega), em]
      exact Rat.le_refl

/-- A text denotes at most one number. -/
theorem DecimalText.unique {s : String} {x y : Rat} (h1 : DecimalText s x) (h2 : DecimalText s y) : x = y := by
  obtain ⟨a, f, hs, -, -, hd, -, -, hx⟩ := h1
  obtain ⟨a', f', hs', -, -, hd', -, -, hy⟩ := h2
  have hdot : ∀ l : List Char, (∀ c ∈ l, c.isDigit = true) → '.' ∉ l := fun l h hm => by
    have := h _ hm
    revert this
    decide
  rw [hs] at hs'
  have key : ∀ a a' f f' : List Char, '.' ∉ a → '.' ∉ a' → a ++ '.' :: f = a' ++ '.' :: f' → a = a' ∧ f = f' := by
    intro a
    induction a with
    | nil =>
      intro a' f f' h1 h2 h
      cases a' with
      | nil => simpa using h
      | cons c a' =>
        simp only [List.nil_append, List.cons_append, List.cons.injEq] at h
        exact absurd (h.1 ▸ List.mem_cons_self) h2
    | cons c a ih =>
      intro a' f f' h1 h2 h
      cases a' with
      | nil =>
        simp only [List.nil_append, List.cons_append, List.cons.injEq] at h
        exact absurd (h.1 ▸ List.mem_cons_self) h1
      | cons c' a' =>
        simp only [List.cons_append, List.cons.injEq] at h
        obtain ⟨e1, e2⟩ := ih a' f f' (fun hm => h1 (List.mem_cons_of_mem _ hm)) (fun hm => h2 (List.mem_cons_of_mem _ hm)) h.2
        exact ⟨by rw [h.1, e1], e2⟩
  obtain ⟨rfl, rfl⟩ := key a a' f f' (hdot _ fun c hc => hd c (List.mem_append_left _ hc))
    (hdot _ fun c hc => hd' c (List.mem_append_left _ hc)) hs'
  rw [hx, hy]

theorem scale_abs (d : Nat) (x y : Rat) : (x - y / 10 ^ d).abs * 10 ^ d = (x * 10 ^ d - y).abs := by
  have hT := ten_pos d
  rw [← abs_mul_pos _ hT]
  have : y / 10 ^ d * 10 ^ d = y := Rat.div_mul_cancel (Rat.ne_of_gt hT)
  congr 1
  generalize (10 : Rat) ^ d = T at *
  grind

/-- A number nearest to a number that is not negative is not negative and at most one unit more. -/
theorem nearest_bounds {d : Nat} {x : Rat} {k : Int} (hx : 0 ≤ x) (h : NearestDecimal d x k) :
    0 ≤ k ∧ (k : Rat) ≤ x * 10 ^ d + 1 := by
  have ht := ten_pos d
  have hfl := Rat.floor_le (a := x * 10 ^ d)
  have hfl2 := Rat.lt_floor_add_one (a := x * 10 ^ d)
  have key : ∀ j : Int, (x * 10 ^ d - k).abs ≤ (x * 10 ^ d - j).abs := fun j => by
    rw [← scale_abs, ← scale_abs]
    exact Rat.mul_le_mul_of_nonneg_right (h j) (Rat.le_of_lt ht)
  have hX : 0 ≤ x * 10 ^ d := Rat.mul_nonneg hx (Rat.le_of_lt ht)
  generalize x * 10 ^ d = X at *
  constructor
  · refine Int.not_lt.1 fun hc => ?_
    have h0 := key 0
    have hc' := cast_lt.2 hc
    rw [show ((0 : Int) : Rat) = 0 from rfl] at h0 hc'
    rw [Rat.abs_of_nonneg (x := X - k) (by grind), Rat.abs_of_nonneg (x := X - 0) (by grind)] at h0
    grind
  · have h1 := key X.floor
    rw [Rat.intCast_add, Rat.intCast_one] at hfl2
    rw [Rat.abs_of_nonneg (x := X - X.floor) (by grind)] at h1
    have := abs_le_iff.1 h1
    grind

theorem near_aux {a b y z u : Rat} (ra : (z - a).abs ≤ a.abs * u) (rb : (y - b).abs ≤ b.abs * u)
    (hn : (a - y).abs ≤ (a - z).abs) : (a - b).abs ≤ (a.abs + b.abs) * u := by
  have e : (a - z).abs = (z - a).abs := by rw [← Rat.abs_neg]; congr 1; grind
  rw [e] at hn
  have h1 := Rat.le_trans hn ra
  have h2 := abs_add' (a - y) (y - b)
  rw [show a - y + (y - b) = a - b by grind] at h2
  rw [Rat.add_mul]
  grind

theorem near_int {k K : Int} (hk0 : 0 ≤ k) (hk : k < 10 ^ 15)
    (h : ((k : Rat) - K).abs ≤ ((k : Rat).abs + (K : Rat).abs) * 2 ^ (-53 : Int)) : K = k := by
  have hkq : (0 : Rat) ≤ (k : Rat) := cast_le.2 hk0
  have hK : 0 ≤ K := Int.not_lt.1 fun hc => by
    have hc' : (K : Rat) < 0 := cast_lt.2 hc
    rw [Rat.abs_of_nonneg hkq, Rat.abs_of_nonpos (Rat.le_of_lt hc'), Rat.abs_of_nonneg (by grind),
      show (2 : Rat) ^ (-53 : Int) = 1 / 9007199254740992 by decide +kernel] at h
    grind
  have hKq : (0 : Rat) ≤ (K : Rat) := cast_le.2 hK
  rw [Rat.abs_of_nonneg hkq, Rat.abs_of_nonneg hKq] at h
  obtain ⟨a, rfl⟩ := Int.eq_ofNat_of_zero_le hk0
  obtain ⟨b, rfl⟩ := Int.eq_ofNat_of_zero_le hK
  have := int_close (A := a) (B := b) (by omega) h
  rw [this]

/-- Only one number with up to four decimals and 15 digits is nearest to a double. -/
theorem same_nearest {k K : Int} {d : Nat} (hk0 : 0 ≤ k) (hk : k < 10 ^ 15) (hd : d ≤ 4)
    (h : NearestDouble ((k : Rat) / 10 ^ d) (fl ((K : Rat) / 10 ^ d))) : K = k := by
  have ht := ten_pos d
  have hT : (10 : Rat) ^ d = ((10 ^ d : Int) : Rat) := by rw [Rat.intCast_pow]; rfl
  have h10 : (10 : Int) ^ d ≤ 2 ^ 14 := by
    have : d = 0 ∨ d = 1 ∨ d = 2 ∨ d = 3 ∨ d = 4 := by omega
    rcases this with rfl | rfl | rfl | rfl | rfl <;> decide
  have h10' : (0 : Int) < (10 : Int) ^ d := Int.pow_pos (by decide)
  have rel : ∀ z : Int, (fl ((z : Rat) / 10 ^ d) - (z : Rat) / 10 ^ d).abs ≤ ((z : Rat) / 10 ^ d).abs * 2 ^ (-53 : Int) := by
    intro z
    apply fl_rel
    rw [hT]
    rcases quot_min (A := z) h10' (k := 14) h10 (by decide) with h | h
    · exact .inl h
    · exact .inr (Rat.le_trans (by decide +kernel) h)
  have hbig : ((k : Rat) / 10 ^ d).abs ≤ 2 ^ (1023 : Int) := by
    by_cases hz : k = 0
    · subst hz
      rw [show ((0 : Int) : Rat) = 0 from rfl, Rat.div_def, Rat.zero_mul, Rat.abs_zero]
      exact Rat.le_of_lt (p2_pos _)
    · rw [hT]
      refine Rat.le_trans (quot_bounds hz h10').2 (Rat.le_trans (int_abs_le (n := k) (b := 10 ^ 15) (by omega)) ?_)
      decide +kernel
  have key := near_aux (rel k) (rel K) (h.2 _ (fl_nearest hbig).1)
  clear rel hbig h
  have key := Rat.mul_le_mul_of_nonneg_right key (Rat.le_of_lt ht)
  have e1 : (k : Rat) / 10 ^ d * 10 ^ d = k := Rat.div_mul_cancel (Rat.ne_of_gt ht)
  have e2 : (K : Rat) / 10 ^ d * 10 ^ d = K := Rat.div_mul_cancel (Rat.ne_of_gt ht)
  have a1 := abs_mul_pos ((k : Rat) / 10 ^ d) ht
  have a2 := abs_mul_pos ((K : Rat) / 10 ^ d) ht
  rw [e1] at a1
  rw [e2] at a2
  rw [← abs_mul_pos _ ht] at key
  apply near_int hk0 hk
  rw [a1, a2]
  have f1 : (k : Rat) - K = ((k : Rat) / 10 ^ d - (K : Rat) / 10 ^ d) * 10 ^ d := by grind
  rw [f1]
  generalize (2 : Rat) ^ (-53 : Int) = u at *
  generalize ((k : Rat) / 10 ^ d).abs = x at *
  generalize ((K : Rat) / 10 ^ d).abs = y at *
  rw [show (x * 10 ^ d + y * 10 ^ d) * u = (x + y) * u * 10 ^ d by grind]
  exact key

theorem rounded_decimal {d : Nat} (hd : d ≤ 4) {x y : Rat} (hx : 0 ≤ x) (hx2 : x * 10 ^ d + 1 < 10 ^ 15)
    (h : RoundedTo d x (pyRound d y)) :
    ∃ k : Nat, k < 10 ^ 15 ∧ NearestDecimal d x k ∧ pyRound d y = fl ((k : Rat) / 10 ^ d) := by
  obtain ⟨k, hn, hy⟩ := h
  obtain ⟨h0, h1⟩ := nearest_bounds hx hn
  have hk : k < 10 ^ 15 := by
    apply cast_lt.1
    refine Rat.not_le.1 fun hc => ?_
    have := Rat.le_trans hc h1
    rw [Rat.intCast_pow] at this
    exact Rat.not_le.2 hx2 this
  have hK := same_nearest h0 hk hd hy
  obtain ⟨n, rfl⟩ := Int.eq_ofNat_of_zero_le h0
  exact ⟨n, by omega, hn, by rw [show (n : Rat) = (((n : Nat) : Int) : Rat) from rfl, ← hK]; rfl⟩

/-- C75 (rounded numbers): the text of a number that was rounded to `d` decimals is the nearest number with `d`
decimals, in decimal notation. -/
theorem C75_rounded {d : Nat} (hd : d ≤ 4) {x y : Rat} (hx : 0 ≤ x) (hx2 : x * 10 ^ d + 1 < 10 ^ 15) (h : RoundedTo d x (pyRound d y))
    {s : String} (hs : IsRepr (pyRound d y) s) :
    ∃ k : Int, 0 ≤ k ∧ k < 10 ^ 15 ∧ NearestDecimal d x k ∧ pyRound d y = fl ((k : Rat) / 10 ^ d) ∧ DecimalText s ((k : Rat) / 10 ^ d) := by
  obtain ⟨k, h1, h2, h3⟩ := rounded_decimal hd hx hx2 h
  rw [h3] at hs
  exact ⟨k, by omega, by omega, h2, h3, C75_text h1 hd hs⟩

/-! ## The numbers of a report -/

theorem rat_le_of {N : Int} {size : Nat} (h0 : 0 < size) {q : PyFloat} (hd : 0 < q.den)
    (hq : q.num * (8 * size) = N * q.den) : ratOf q = (N : Rat) / ((8 * (size : Int) : Int) : Rat) := by
  have hBpos : 0 < 8 * (size : Int) := by omega
  have hBq : (0 : Rat) < ((8 * (size : Int) : Int) : Rat) := Rat.intCast_pos.2 hBpos
  have hdq : (0 : Rat) < (q.den : Rat) := Rat.intCast_pos.2 hd
  have : ((q.num * (8 * (size : Int)) : Int) : Rat) = ((N * q.den : Int) : Rat) := by rw [hq]
  rw [Rat.intCast_mul q.num, Rat.intCast_mul N] at this
  apply cancel_right (Rat.mul_pos hdq hBq)
  unfold ratOf
  have i1 : (q.num : Rat) / q.den * q.den = q.num := Rat.div_mul_cancel (Rat.ne_of_gt hdq)
  have i2 := Rat.div_mul_cancel (a := (N : Rat)) (Rat.ne_of_gt hBq)
  rw [← Rat.mul_assoc, i1, this, Rat.mul_comm (q.den : Rat), ← Rat.mul_assoc, i2]

theorem ratio_bounds {size : Nat} (h0 : 0 < size) {depths : List Int} {height width : Int}
    (hN0 : 0 ≤ depths.sum * height * width) (hN : depths.sum * height * width ≤ 2 ^ 46) {q : PyFloat}
    (hq : RatioFrom depths.sum height width size q) : 0 ≤ ratOf q ∧ ratOf q * 10 ^ 2 + 1 < 10 ^ 15 := by
  obtain ⟨hd, hq, -⟩ := hq
  have e := rat_le_of h0 hd hq
  have hBpos : 0 < 8 * (size : Int) := by omega
  have hx0 : 0 ≤ ratOf q := by
    rw [e, Rat.div_def]
    exact Rat.mul_nonneg (cast_le.2 hN0) (Rat.le_of_lt (Rat.inv_pos.2 (Rat.intCast_pos.2 hBpos)))
  have hx1 : ratOf q * 8 ≤ 70368744177664 := by
    have hBq : (0 : Rat) < ((8 * (size : Int) : Int) : Rat) := Rat.intCast_pos.2 hBpos
    have i2 := Rat.div_mul_cancel (a := ((depths.sum * height * width : Int) : Rat)) (Rat.ne_of_gt hBq)
    rw [← e] at i2
    have h8 : (8 : Rat) ≤ ((8 * (size : Int) : Int) : Rat) := cast_le.2 (show (8 : Int) ≤ 8 * (size : Int) by omega)
    have h9 := Rat.mul_le_mul_of_nonneg_left h8 hx0
    rw [i2] at h9
    exact Rat.le_trans h9 (cast_le.2 (show depths.sum * height * width ≤ (70368744177664 : Int) by omega))
  refine ⟨hx0, ?_⟩
  rw [show (10 : Rat) ^ 2 = 100 by decide +kernel, show (10 : Rat) ^ 15 = 1000000000000000 by decide +kernel]
  grind

/-- C75 (compression ratio): the text of the compression ratio that is computed with floats is the exact ratio rounded to
two decimals, in decimal notation, for images of up to 2^46 bits (8 TiB) without compression. -/
theorem C75_ratio {size : Nat} (h0 : 0 < size) (hs : size < 2 ^ 53) {depths : List Int} {height width : Int}
    (hN0 : 0 ≤ depths.sum * height * width) (hN : depths.sum * height * width ≤ 2 ^ 46) {q : PyFloat}
    (hq : RatioFrom depths.sum height width size q) {s : String} (hr : IsRepr (ratioFloat size depths height width) s) :
    ∃ k : Int, 0 ≤ k ∧ k < 10 ^ 15 ∧ NearestDecimal 2 (ratOf q) k ∧ ratioFloat size depths height width = hundredths k ∧
      DecimalText s ((k : Rat) / 100) := by
  obtain ⟨h1, h2⟩ := ratio_bounds h0 hN0 hN hq
  exact C75_rounded (by decide) h1 h2 (C73_ratio h0 hs (by omega) hq) hr

/-- C75 (illuminants): the texts of the illuminants of an ICC profile are the exact numbers rounded to four decimals, in
decimal notation. -/
theorem C75_illuminant {b : Bytes} (h0 : 0 ≤ bytesToUInt b) {s : String} (hr : IsRepr (illuminantFloat (bytesToUInt b)) s) :
    ∃ k : Int, 0 ≤ k ∧ k < 10 ^ 15 ∧ NearestDecimal 4 ((bytesToUInt b : Rat) / 65536) k ∧
      illuminantFloat (bytesToUInt b) = fl ((k : Rat) / 10 ^ 4) ∧ DecimalText s ((k : Rat) / 10 ^ 4) := by
  have hb := uint_bound b
  have hR := C73_illuminant b
  generalize bytesToUInt b = v at *
  have h1 : (v : Rat) ≤ (4294967296 : Int) := cast_le.2 (by omega)
  have h2 : (0 : Rat) ≤ (v : Rat) := cast_le.2 h0
  have e : ((4294967296 : Int) : Rat) = 4294967296 := rfl
  rw [e] at h1
  exact C75_rounded (by decide) (by grind) (by
    rw [show (10 : Rat) ^ 4 = 10000 by decide +kernel, show (10 : Rat) ^ 15 = 1000000000000000 by decide +kernel]
    grind) hR hr

/-- C75 (resolutions): the texts of the resolutions of a capture or display resolution box are the exact numbers rounded to
two decimals, in decimal notation, for exponents up to 8. Missing from the full property: larger exponents. -/
theorem C75_resolution_partial {pow : Int → Rat} (hpow : GoodPow pow) {n d e : Int} (hn0 : 0 ≤ n) (hn : n < 2 ^ 16) (hd : 0 < d)
    (hd2 : d < 2 ^ 16) (he : -128 ≤ e) (he2 : e ≤ 8) {s t : String} (hs : IsRepr (pyRound 2 (perMeterFloat pow n d e)) s)
    (ht : IsRepr (pyRound 2 (perInchFloat pow n d e)) t) :
    ∃ i j : Int, 0 ≤ i ∧ i < 10 ^ 15 ∧ NearestDecimal 2 ((n : Rat) / d * (10 : Rat) ^ e) i ∧
      pyRound 2 (perMeterFloat pow n d e) = hundredths i ∧ DecimalText s ((i : Rat) / 100) ∧
      0 ≤ j ∧ NearestDecimal 2 ((n : Rat) / d * (10 : Rat) ^ e * (254 / 10000)) j ∧ DecimalText t ((j : Rat) / 100) := by
  obtain ⟨-, -, h1, h2⟩ := C73_resolution hpow (by omega) (Int.ne_of_gt hd) (by omega) he he2 (n := n)
  have hdq : (1 : Rat) ≤ (d : Rat) := cast_le.2 hd
  have hnq : (0 : Rat) ≤ (n : Rat) := cast_le.2 hn0
  have hnq2 : (n : Rat) ≤ (65535 : Int) := cast_le.2 (by omega)
  rw [show ((65535 : Int) : Rat) = 65535 from rfl] at hnq2
  have hp8 : (10 : Rat) ^ e ≤ 100000000 := by
    obtain ⟨i, hi⟩ := Int.eq_ofNat_of_zero_le (show 0 ≤ 8 - e by omega)
    have h8 : (10 : Rat) ^ (8 : Int) = 10 ^ e * 10 ^ (i : Int) := by rw [← t10_add]; congr 1; omega
    have hi1 : (1 : Rat) ≤ 10 ^ (i : Int) := by
      rw [ten_nat]
      exact cast_le.2 (show (1 : Int) ≤ 10 ^ i from Int.add_one_le_of_lt (Int.pow_pos (by decide)))
    have := Rat.mul_le_mul_of_nonneg_left hi1 (Rat.le_of_lt (t10_pos e))
    rw [← h8, Rat.mul_one, show (10 : Rat) ^ (8 : Int) = 100000000 by decide +kernel] at this
    exact this
  have hpos := t10_pos e
  have hq0 : 0 ≤ (n : Rat) / d := by
    rw [Rat.div_def]
    exact Rat.mul_nonneg hnq (Rat.le_of_lt (Rat.inv_pos.2 (Rat.intCast_pos.2 hd)))
  have hq1 : (n : Rat) / d ≤ 65535 := by
    have h := Rat.div_mul_cancel (a := (n : Rat)) (Rat.ne_of_gt (Rat.intCast_pos.2 hd))
    have := Rat.mul_le_mul_of_nonneg_left hdq hq0
    grind
  have hx0 := Rat.mul_nonneg hq0 (Rat.le_of_lt hpos)
  have hx1 : (n : Rat) / d * (10 : Rat) ^ e ≤ 6553500000000 := by
    refine Rat.le_trans (Rat.mul_le_mul_of_nonneg_left hp8 hq0) ?_
    grind
  generalize (n : Rat) / d * (10 : Rat) ^ e = x at *
  have c2 : (10 : Rat) ^ 2 = 100 := by decide +kernel
  have c15 : (10 : Rat) ^ 15 = 1000000000000000 := by decide +kernel
  obtain ⟨i, a1, a2, a3, a4, a5⟩ := C75_rounded (by decide) hx0 (by rw [c2, c15]; grind) h1 hs
  obtain ⟨j, b1, -, b3, -, b5⟩ := C75_rounded (by decide) (by grind) (by rw [c2, c15]; grind) h2 ht
  exact ⟨i, j, a1, a2, a3, a4, a5, b1, b3, b5⟩

/-- The texts of the compression ratios are those that Python makes of the floats. -/
def PrintsRatios (env : Env) : Prop :=
  ∀ (size : Nat) (depths : List Int) (height width : Int) (q : PyFloat), 0 < size → size < 2 ^ 53 →
    RatioFrom depths.sum height width size q → 0 ≤ depths.sum * height * width → depths.sum * height * width ≤ 2 ^ 46 →
    IsRepr (ratioFloat size depths height width) (env.floatStr q)

/-- C75 (report): in the report of a valid JP2 or JPH file, the text of the compression ratio is the size of the image
without compression over the size of the file, rounded to two decimals, in decimal notation. -/
theorem C75_report {env : Env} (he : PrintsRatios env) {me : MixEnv} {fs : FS} {fuel : Nat} {o : Options} {mix : Nat} {path : PyStr}
    (hfmt : o.format = .jp2 ∨ o.format = .jph) {rep : Elem} (h : checkOneFile env me fs fuel o mix path = .ok rep)
    (hv : verdict rep = some (.str "True")) (hsize : (bytesRead (fs.read path)).length < 2 ^ 53) :
    ∃ cs siz q, CodestreamOf (bytesRead (fs.read path)) cs ∧ SizOf cs siz ∧ RatioOf siz (bytesRead (fs.read path)).length q ∧
      (0 ≤ q.num → q.num * (8 * (bytesRead (fs.read path)).length) ≤ 2 ^ 46 * q.den →
        ∃ (s : String) (k : Int), ratios rep = [.str s] ∧ 0 ≤ k ∧ k < 10 ^ 15 ∧ NearestDecimal 2 (ratOf q) k ∧
          DecimalText s ((k : Rat) / 100)) := by
  obtain ⟨cs, siz, q, h1, h2, h3, h4⟩ := C39_jp2 hfmt h hv
  refine ⟨cs, siz, q, h1, h2, h3, fun hq0 hq1 => ?_⟩
  obtain ⟨x, y, x0, y0, nc, ss, -, -, -, -, -, -, -, hden, hq, hdig⟩ := h3
  obtain ⟨bs, b, hb, ⟨a, z, rfl, -, -⟩, -⟩ := h1
  have hlen : 0 < (bytesRead (fs.read path)).length := by
    unfold Boxes at hb
    generalize hl : a ++ b :: z = l at hb
    cases hb with
    | done => cases a <;> cases hl
    | step h => exact h
    | last h => exact h
  have hsum : ((ss.map depth).sum : Int) = (ss.map fun n => (depth n : Int)).sum := by
    clear hq
    induction ss with
    | nil => rfl
    | cons n ss ih => simp only [List.map_cons, List.sum_cons, Int.natCast_add, ih]
  rw [hsum] at hq
  have hN0 : 0 ≤ (ss.map fun n => (depth n : Int)).sum * ((y : Int) - y0) * ((x : Int) - x0) := by
    apply Int.le_of_mul_le_mul_right _ hden
    rw [← hq, Int.zero_mul]
    exact Int.mul_nonneg hq0 (by omega)
  have hN1 : (ss.map fun n => (depth n : Int)).sum * ((y : Int) - y0) * ((x : Int) - x0) ≤ 2 ^ 46 := by
    apply Int.le_of_mul_le_mul_right _ hden
    rw [← hq]
    exact hq1
  have hr : RatioFrom (ss.map fun n => (depth n : Int)).sum ((y : Int) - y0) ((x : Int) - x0) (bytesRead (fs.read path)).length q :=
    ⟨hden, hq, hdig⟩
  have := he _ _ _ _ q hlen hsize hr hN0 hN1
  obtain ⟨k, k0, k1, k2, -, k4⟩ := C75_ratio hlen hsize hN0 hN1 hr this
  exact ⟨_, k, h4, k0, k1, k2, k4⟩

/-- C75 (MIX): if `float` reads decimal notation as the nearest float, the compression ratio in the MIX 2.0 description of a
valid JP2 or JPH file is the size of the image without compression over the size of the file in hundredths, rounded. -/
theorem C75_mix {env : Env} (he : PrintsRatios env) {me : MixEnv} {float : String → Option Rat} (hf : ReadsFloats me float)
    (hfl : ∀ s x, DecimalText s x → float s = some (fl x)) {fs : FS} {fuel : Nat} {o : Options} {mix : Nat} {path : PyStr}
    (hfmt : o.format = .jp2 ∨ o.format = .jph) (hmix : mix ≠ 0) (hmix1 : mix ≠ 1) {rep : Elem}
    (h : checkOneFile env me fs fuel o mix path = .ok rep) (hv : verdict rep = some (.str "True"))
    (hsize : (bytesRead (fs.read path)).length < 2 ^ 53) :
    ∃ cs siz q, CodestreamOf (bytesRead (fs.read path)) cs ∧ SizOf cs siz ∧ RatioOf siz (bytesRead (fs.read path)).length q ∧
      (0 ≤ q.num → q.num * (8 * (bytesRead (fs.read path)).length) ≤ 2 ^ 46 * q.den →
        ∃ (k : Int) (m : Elem), NearestDecimal 2 (ratOf q) k ∧ contents rep "propertiesExtension" = [m] ∧
          textsAt ["mix:BasicDigitalObjectInformation", "mix:Compression", "mix:compressionRatio", "mix:numerator"] m.children =
            [.str (toString k)] ∧
          textsAt ["mix:BasicDigitalObjectInformation", "mix:Compression", "mix:compressionRatio", "mix:denominator"] m.children =
            [.str "100"]) := by
  obtain ⟨cs, siz, q, h1, h2, h3, h4⟩ := C75_report he hfmt h hv hsize
  refine ⟨cs, siz, q, h1, h2, h3, fun hq0 hq1 => ?_⟩
  obtain ⟨s, k, hr, hk0, hk1, hk2, hk3⟩ := h4 hq0 hq1
  have hp : PropertyIs (contents rep "properties") ["compressionRatio"] s := by
    unfold PropertyIs textsAt elemsAt
    unfold ratios at hr
    rw [hr]; rfl
  obtain ⟨m, hm, hm2, -⟩ := C74_ratio hf hfmt hmix h hv hp (hfl s _ hk3) hk0 (by omega)
  exact ⟨k, m, hk2, hm, (hm2 hmix1).1, (hm2 hmix1).2⟩

/-- The hypothesis of `C75_report` and `C75_mix` can be met, with all other externals as given. -/
theorem printsRatios_exists (env : Env) : ∃ f, PrintsRatios { env with floatStr := f } := by
  classical
  refine ⟨fun q => if h : ∃ s, IsRepr (pyRound 2 (fl (ratOf q))) s then h.choose else "", ?_⟩
  intro size depths height width q h0 hs hq hN0 hN
  obtain ⟨h1, h2⟩ := ratio_bounds h0 hN0 hN hq
  have hR := C73_ratio h0 hs (by omega) hq
  have e : ratioFloat size depths height width = pyRound 2 (fl (ratOf q)) := by
    unfold ratioFloat
    simp only
    rw [ratio_size (by omega), divInt_eighth _ h0 hs, rat_le_of h0 hq.1 hq.2.1]
  rw [e] at hR ⊢
  obtain ⟨k, k1, -, k3⟩ := rounded_decimal (by decide) h1 h2 hR
  have hex : ∃ s, IsRepr (pyRound 2 (fl (ratOf q))) s := by
    rw [k3]
    exact C75_exists k1 (by decide)
  simp only
  rw [dif_pos hex]
  exact hex.choose_spec

/-- Whether a file is reported valid. -/
def validOf (x : Outcome Elem) : Bool :=
  match x with
  | .ok rep => verdict rep == some (.str "True")
  | _ => false

/-- A valid file, whatever the texts of the floats; the kernel computes the report. -/
theorem jp2_validOf (f : PyFloat → String) :
    validOf (checkOneFile { Sample.env0 with floatStr := f } Sample.me0 (Sample.fs0 Sample.jp2) 200 (Sample.opts .jp2) 0 [97]) =
      true := by
  run_tac do
    let g ← Lean.Elab.Tactic.getMainGoal
    g.assign (Lean.mkApp2 (.const ``Eq.refl [1]) (.const ``Bool []) (.const ``true []))

/-- The hypotheses of `C75_report` are met. -/
example : ∃ env rep, PrintsRatios env ∧
    checkOneFile env Sample.me0 (Sample.fs0 Sample.jp2) 200 (Sample.opts .jp2) 0 [97] = .ok rep ∧
    verdict rep = some (.str "True") := by
  obtain ⟨f, hf⟩ := printsRatios_exists Sample.env0
  have key := jp2_validOf f
  unfold validOf at key
  split at key
  · rename_i rep hr
    exact ⟨_, rep, hf, hr, by simpa using key⟩
  · cases key

/-- The texts of the sample file, 2362.2 and the like, are those of Python. -/
example : ∃ s, IsRepr (fl ((236220 : Nat) / 10 ^ 2)) s ∧ DecimalText s ((236220 : Nat) / 10 ^ 2) := by
  obtain ⟨s, h⟩ := C75_exists (k := 236220) (d := 2) (by decide) (by decide)
  exact ⟨s, h, C75_text (by decide) (by decide) h⟩

/-- C75 is false for large exponents: a resolution of 10^20 pixels per metre, which four bytes and an exponent can
express, is shown as `1e+20`. -/
theorem C75_false (pow : Int → Rat) {s : String} (hs : IsRepr (pyRound 2 (perMeterFloat pow 1 1 20)) s) :
    s = "1e+20" ∧ ∀ x, ¬ DecimalText s x := by
  have e : pyRound 2 (perMeterFloat pow 1 1 20) = (1 : Nat) * (10 : Rat) ^ (20 : Int) := by
    unfold perMeterFloat pyTenPow
    rw [if_pos (by decide)]
    decide +kernel
  have hf : fl (((1 : Nat) : Rat) * (10 : Rat) ^ (20 : Int)) = ((1 : Nat) : Rat) * (10 : Rat) ^ (20 : Int) := by decide +kernel
  have hpos : 0 < ((1 : Nat) : Rat) * (10 : Rat) ^ (20 : Int) := by decide +kernel
  rw [e] at hs
  have hs1 : s = "1e+20" := by
    generalize hy : ((1 : Nat) : Rat) * (10 : Rat) ^ (20 : Int) = y at *
    cases hs with
    | zero => exact absurd hpos (by decide +kernel)
    | neg h => grind
    | @pos _ m e' _ h =>
      have hl := h.minimal 1 20 (by rw [hy, hf])
      have hl' := Nat.length_toDigits_pos (b := 10) (n := m)
      rw [show (Nat.toDigits 10 1).length = 1 by decide] at hl
      have hc := h.closest 1 20 (by rw [hy, hf]) (by rw [show (Nat.toDigits 10 1).length = 1 by decide]; omega)
      rw [hy, Rat.sub_self, Rat.abs_zero] at hc
      have := abs_le_iff.1 hc
      have heq : (m : Rat) * (10 : Rat) ^ e' = y := by grind
      rw [← hy] at heq
      have hst := h.stripped
      have hkey : m = 1 ∧ e' = 20 := by
        by_cases he : e' ≤ 20
        · obtain ⟨i, hi⟩ := Int.eq_ofNat_of_zero_le (show 0 ≤ 20 - e' by omega)
          rw [show (20 : Int) = (i : Int) + e' by omega, t10_add, Rat.zpow_natCast, ← Rat.mul_assoc] at heq
          have := cancel_right (t10_pos e') heq
          have h10 : ((10 : Nat) : Rat) = 10 := rfl
          rw [← h10, ← Rat.natCast_pow, ← Rat.natCast_mul] at this
          have := Rat.natCast_inj.1 this
          have := mantissa_unique (m := m) (j := 0) (m' := 1) (j' := i) hst (by decide) (by simpa using this)
          omega
        · obtain ⟨i, hi⟩ := Int.eq_ofNat_of_zero_le (show 0 ≤ e' - 20 by omega)
          rw [show e' = (i : Int) + 20 by omega, t10_add, Rat.zpow_natCast, ← Rat.mul_assoc] at heq
          have := cancel_right (t10_pos 20) heq
          have h10 : ((10 : Nat) : Rat) = 10 := rfl
          rw [← h10, ← Rat.natCast_pow, ← Rat.natCast_mul] at this
          have := Rat.natCast_inj.1 this
          have := mantissa_unique (m := m) (j := i) (m' := 1) (j' := 0) hst (by decide) (by simpa using this)
          omega
      obtain ⟨rfl, rfl⟩ := hkey
      decide +kernel
  refine ⟨hs1, fun x hx => ?_⟩
  obtain ⟨a, f, h1, -⟩ := hx
  rw [hs1] at h1
  have : '.' ∈ "1e+20".toList := by rw [h1]; simp
  revert this
  decide

/-- The text of `C75_false` exists. -/
example : IsRepr (pyRound 2 (perMeterFloat (fun _ => 0) 1 1 20)) "1e+20" := by
  have e : pyRound 2 (perMeterFloat (fun _ => 0) 1 1 20) = (1 : Nat) * (10 : Rat) ^ (20 : Int) := by decide +kernel
  have hf : fl (((1 : Nat) : Rat) * (10 : Rat) ^ (20 : Int)) = ((1 : Nat) : Rat) * (10 : Rat) ^ (20 : Int) := by decide +kernel
  have hpos : 0 < ((1 : Nat) : Rat) * (10 : Rat) ^ (20 : Int) := by decide +kernel
  rw [e, show "1e+20" = reprText 1 20 by decide +kernel]
  refine .pos hpos ⟨hf, by decide, fun m' e' _ => ?_, fun m' e' _ _ => ?_⟩
  · rw [show (Nat.toDigits 10 1).length = 1 by decide]
    exact Nat.length_toDigits_pos
  · rw [Rat.sub_self, Rat.abs_zero]
    exact Rat.abs_nonneg

end Jpy
