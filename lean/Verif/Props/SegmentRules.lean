import Verif.Lemmas.Rules
import Verif.Props.SegmentValues
import Verif.Props.Fields
/-! # Every failed test of a marker segment names a violated rule: C56 -/

set_option linter.unusedSimpArgs false

namespace Jpy
open Spec

theorem diag_sot (c : Bytes) : Diag (sot c) (sotRules c) := by
  unfold sot sotRules
  simp only
  decode
  diag
  · fr c 0 2
  · fr c 2 2
  · rcases h : uint c 4 4 with _ | v
    · simp [intOf, between]
    · simp only [intOf, Bool.not_eq_true', between_false_iff, Option.some.injEq, forall_eq']; omega
  · fr c 8 1

theorem diag_codeBlocks (fmt : Format) (c : Bytes) (off : Nat) :
    Diag (codeBlockSteps fmt c (off : Int)) (codeBlockRules c off) := by
  unfold codeBlockSteps codeBlockRules
  simp only
  simp (disch := omega) only [u8_slice]
  have e1 : ((off : Int) + 1).toNat = off + 1 := by omega
  have e3 : ((off : Int) + 3).toNat = off + 3 := by omega
  simp only [e1, e3, Int.toNat_natCast]
  generalize (if fmt.isHT = true then _ else false) = b
  cases b <;> simp only [Bool.not_true, Bool.not_false, if_true, if_false, Bool.false_eq_true,
    List.append_assoc, List.cons_append, List.nil_append]
  all_goals
    diag
    · fr c off 1
    · fr c (off + 1) 1
    · refine Iff.trans ⟨of_decide_eq_true, decide_eq_true⟩ ?_
      rcases h0 : uint c off 1 with _ | v0
      · rcases h1 : uint c (off + 1) 1 with _ | v1
        · simp [intOf]
        · obtain ⟨w, hw⟩ := uint_exists (off' := off) (n' := 1) h1 (by omega)
          rw [h0] at hw; cases hw
      · rcases h1 : uint c (off + 1) 1 with _ | v1
        · have := uint_lt h0
          simp [intOf]; omega
        · simp only [intOf, Option.some.injEq]
          constructor
          · rintro h _ _ rfl rfl; omega
          · intro h; have := h _ _ rfl rfl; omega
    · fr c (off + 3) 1

theorem diag_precincts (c : Bytes) (st lv off : Nat) (hlt : st + 1 ≤ lv) :
    Diag (precinctSteps c (off : Int) (getBitValue (intOf (uint c st 1)) 8) (intOf (uint c lv 1)))
      (precinctRules c st lv off) := by
  unfold precinctSteps precinctRules
  rcases hn : uint c lv 1 with _ | n
  · have : rangeLen (intOf none + 1) = 0 := by decide
    rw [this]
    simp only [List.range_zero, List.flatMap_nil, ite_self]
    exact diag_skip (by simp) (diag_skip (by simp) diag_nil)
  obtain ⟨s, hs⟩ := uint_exists (off' := st) (n' := 1) hn (by omega)
  have hb : getBitValue (intOf (some s)) 8 = ((bit 0 s : Nat) : Int) := getBitValue_nat s 8 8
  have hr : rangeLen (intOf (some n) + 1) = n + 1 := by simp only [rangeLen, intOf]; omega
  rw [hs, hb, hr]
  have hf : FieldIs c st 1 (bit 0 · = 1) ↔ ((bit 0 s : Nat) : Int) = 1 := by
    simp only [FieldIs, hs, Option.some.injEq, exists_eq_left']; omega
  simp only [Option.some.injEq, forall_eq', hf]
  split
  · rename_i hp
    simp only [hp, true_implies]
    refine diag_congr (rs := [
        ("precinctSizeXIsValid", ∀ i < n + 1, i ≠ 0 → ∀ v, uint c (off + i) 1 = some v → 1 ≤ v % 16),
        ("precinctSizeYIsValid", ∀ i < n + 1, i ≠ 0 → ∀ v, uint c (off + i) 1 = some v → 1 ≤ v / 16)])
      ?_ ?_
    · exact ⟨rfl, ⟨fun h i h1 h2 => h i (by omega) (by omega), fun h i h1 h2 => h i (by omega) (by omega)⟩,
        rfl, ⟨fun h i h1 h2 => h i (by omega) (by omega), fun h i h1 h2 => h i (by omega) (by omega)⟩,
        trivial⟩
    refine diag_loop [
        ("precinctSizeXIsValid", fun i => i ≠ 0 → ∀ v, uint c (off + i) 1 = some v → 1 ≤ v % 16),
        ("precinctSizeYIsValid", fun i => i ≠ 0 → ∀ v, uint c (off + i) 1 = some v → 1 ≤ v / 16)] fun i _ => ?_
    simp only [List.map]
    rw [u8_at c (off + i) (by omega) (by omega)]
    by_cases h0 : i = 0
    · subst h0
      exact diag_char (diag_test (by simp) (diag_char (diag_test (by simp) diag_nil)))
    · simp only [if_pos h0]
      refine diag_char (diag_test ?_ (diag_char (diag_test ?_ diag_nil)))
      · refine Iff.trans ⟨of_decide_eq_true, decide_eq_true⟩ ?_
        rw [two_le_pow]
        unfold low
        rcases h : uint c (off + i) 1 with _ | v
        · simp [intOf, h0]
        · simp only [intOf, Option.some.injEq, forall_eq']; omega
      · refine Iff.trans ⟨of_decide_eq_true, decide_eq_true⟩ ?_
        rw [two_le_pow]
        unfold low shr
        rcases h : uint c (off + i) 1 with _ | v
        · simp [intOf, h0]
        · have := uint_lt h
          simp only [intOf, Option.some.injEq, forall_eq']; omega
  · rename_i hp
    refine diag_skip (fun h => absurd h hp) (diag_skip (fun h => absurd h hp) (diag_none ?_))
    exact testsOf_flatMap_quiet _ _ fun _ => rfl

/-- The declared length of COD and COC against the number of precincts. -/
theorem length_consistency (c : Bytes) (st lv k : Nat) (hst : 2 ≤ st) (hlv : st + 1 ≤ lv) (hk : k ≤ 100) :
    intOf (uint c 0 2) = (if getBitValue (intOf (uint c st 1)) 8 = 1 then
        ((k + 1 : Nat) : Int) + intOf (uint c lv 1) else (k : Int)) ↔
      FieldIs c 0 2 (fun l => FieldIs c st 1 (fun s =>
        (bit 0 s = 0 → l = k) ∧ (bit 0 s = 1 → FieldIs c lv 1 (fun n => l = k + 1 + n)))) := by
  rcases h0 : uint c 0 2 with _ | l
  · have h2 : uint c st 1 = none := by
      rcases h2 : uint c st 1 with _ | s
      · rfl
      · obtain ⟨w, hw⟩ := uint_exists (off' := 0) (n' := 2) h2 (by omega); rw [h0] at hw; cases hw
    have h7 : uint c lv 1 = none := by
      rcases h7 : uint c lv 1 with _ | s
      · rfl
      · obtain ⟨w, hw⟩ := uint_exists (off' := 0) (n' := 2) h7 (by omega); rw [h0] at hw; cases hw
    simp [FieldIs, h0, h2, h7, intOf, getBitValue, low, shr]
    omega
  rcases h2 : uint c st 1 with _ | s
  · have h7 : uint c lv 1 = none := by
      rcases h7 : uint c lv 1 with _ | s
      · rfl
      · obtain ⟨w, hw⟩ := uint_exists (off' := st) (n' := 1) h7 (by omega); rw [h2] at hw; cases hw
    simp [FieldIs, h0, h2, h7, intOf, getBitValue, low, shr]
    omega
  have hb : getBitValue (intOf (some s)) 8 = ((bit 0 s : Nat) : Int) := getBitValue_nat s 8 8
  have hlt : bit 0 s < 2 := Nat.mod_lt _ (by decide)
  rw [hb]
  simp only [FieldIs, h0, h2, Option.some.injEq, exists_eq_left']
  generalize bit 0 s = t at hlt ⊢
  obtain rfl | rfl : t = 0 ∨ t = 1 := by omega
  · simp [intOf]; omega
  · rcases h7 : uint c lv 1 with _ | n
    · simp [intOf]; omega
    · simp [intOf]; omega

theorem diag_cod (fmt : Format) (c : Bytes) : Diag (cod fmt c) (codRules c) := by
  unfold cod codRules
  simp only
  refine diag_append (diag_append ?_ (diag_codeBlocks fmt c 8)) ?_
  · have s0 : slice (slice c 3 7) 0 1 = slice c 3 4 := slice_slice c 3 7 0 1 (by decide)
    have s1 : slice (slice c 3 7) 1 3 = slice c 4 6 := slice_slice c 3 7 1 3 (by decide)
    have s3 : slice (slice c 3 7) 3 4 = slice c 6 7 := slice_slice c 3 7 3 4 (by decide)
    simp only [s0, s1, s3]
    decode
    diag
    · fr c 0 2
    · fr c 3 1
    · fr c 4 2
    · fr c 6 1
    · fr c 7 1
    · exact Iff.trans ⟨of_decide_eq_true, decide_eq_true⟩
        (length_consistency c 2 7 12 (by omega) (by omega) (by omega))
  · decode
    exact diag_precincts c 2 7 12 (by omega)

theorem diag_coc (fmt : Format) (csiz : Int) (c : Bytes) (ss : List Step)
    (h : coc fmt (some csiz) c = .ok ss) : Diag ss (cocRules csiz c) := by
  unfold coc withCsiz at h
  cases h
  unfold cocRules compIndex CompIndexOk compWidth
  by_cases hc : csiz < 257
  · have hge : ¬ (csiz ≥ 257) := by omega
    simp only [hc, hge, if_true, true_or, and_true, and_false, if_false]
    decode
    refine diag_append (diag_append ?_ (diag_codeBlocks fmt c 5)) (diag_precincts c 3 4 9 (by omega))
    diag
    · fr c 0 2
    · fr c 2 1
    · fr c 4 1
    · refine Iff.trans ⟨of_decide_eq_true, decide_eq_true⟩ ?_
      rw [← length_consistency c 3 4 9 (by omega) (by omega) (by omega)]
      split
      · exact Iff.rfl
      · rename_i hne
        rw [if_pos (show getBitValue (intOf (uint c 3 1)) 8 = 0 by
          unfold getBitValue low at hne ⊢; omega)]
        exact Iff.rfl
  · have hge : csiz ≥ 257 := by omega
    simp only [hc, hge, if_false, false_or, and_true, and_false]
    decode
    refine diag_append (diag_append ?_ (diag_codeBlocks fmt c 6)) (diag_precincts c 4 5 10 (by omega))
    diag
    · fr c 0 2
    · fr c 2 2
    · fr c 5 1
    · refine Iff.trans ⟨of_decide_eq_true, decide_eq_true⟩ ?_
      rw [← length_consistency c 4 5 10 (by omega) (by omega) (by omega)]
      split
      · exact Iff.rfl
      · exact Iff.rfl

theorem diag_rgn (fmt : Format) (csiz : Int) (c : Bytes) (ss : List Step)
    (h : rgn fmt (some csiz) c = .ok ss) : Diag ss (rgnRules fmt csiz c) := by
  unfold rgn withCsiz at h
  cases h
  unfold rgnRules compIndex CompIndexOk compWidth
  by_cases hc : csiz < 257
  · simp only [hc, if_true, true_or]
    decode
    diag
    · fr c 0 2
    · fr c 2 1
    · fr c 3 1
    · cases fmt.isHT <;> simp only [if_true, if_false, Bool.false_eq_true, false_implies, true_implies]
      · fr c 4 1
      · fr c 4 1
  · simp only [hc, if_false, false_or]
    decode
    diag
    · fr c 0 2
    · fr c 2 2
    · fr c 4 1
    · cases fmt.isHT <;> simp only [if_true, if_false, Bool.false_eq_true, false_implies, true_implies]
      · fr c 5 1
      · fr c 5 1

theorem testsOf_quantSteps (c q l o) : testsOf (quantSteps c q l o) = [] := by
  unfold quantSteps
  repeat' split
  · exact testsOf_map_char _ _ _
  · rfl
  · exact testsOf_flatMap_quiet _ _ fun _ => rfl
  · rfl

theorem diag_qcd (c : Bytes) : Diag (qcd c) (qcdRules c) := by
  unfold qcd qcdRules
  simp only
  refine diag_append (ra := [_, _]) (rb := []) ?_ (diag_none (testsOf_quantSteps _ _ _ _))
  decode
  diag
  · fr c 0 2
  · fr c 2 1

theorem diag_qcc (csiz : Int) (c : Bytes) (ss : List Step) (h : qcc (some csiz) c = .ok ss) :
    Diag ss (qccRules csiz c) := by
  unfold qcc withCsiz at h
  cases h
  unfold qccRules compWidth
  simp only
  refine diag_append (ra := [_, _]) (rb := []) ?_ (diag_none (testsOf_quantSteps _ _ _ _))
  by_cases hc : csiz < 257
  · simp only [hc, if_true, true_or]
    decode
    diag
    · fr c 0 2
    · fr c 3 1
  · simp only [hc, if_false, false_or]
    decode
    diag
    · fr c 0 2
    · fr c 4 1

theorem diag_crg (csiz : Int) (c : Bytes) (ss : List Step) (h : crg (some csiz) c = .ok ss) :
    Diag ss (crgRules csiz c) := by
  unfold crg withCsiz at h
  cases h
  unfold crgRules
  simp only
  refine diag_append (ra := [_]) ?_ ?_
  · decode
    diag
    fr c 0 2
  · refine diag_congr (rs := [
        ("xcrgIsValid", ∀ i < rangeLen csiz, FieldIs c (2 + 4 * i) 2 (fun _ => True)),
        ("ycrgIsValid", ∀ i < rangeLen csiz, FieldIs c (2 + 4 * i + 2) 2 (fun _ => True))])
      ?_ ?_
    · exact ⟨rfl,
        ⟨fun h i hi => h i (by unfold rangeLen; omega), fun h i hi => h i (by unfold rangeLen at hi; omega)⟩,
        rfl,
        ⟨fun h i hi => h i (by unfold rangeLen; omega), fun h i hi => h i (by unfold rangeLen at hi; omega)⟩,
        trivial⟩
    refine diag_loop [("xcrgIsValid", fun i => FieldIs c (2 + 4 * i) 2 (fun _ => True)),
        ("ycrgIsValid", fun i => FieldIs c (2 + 4 * i + 2) 2 (fun _ => True))] fun i _ => ?_
    simp only [List.map]
    rw [u16_at c (2 + 4 * i) (by omega) (by omega), u16_at c (2 + 4 * i + 2) (by omega) (by omega)]
    diag
    · fr c (2 + 4 * i) 2
    · fr c (2 + 4 * i + 2) 2

theorem two_fields (c : Bytes) {a n b m : Nat} (h : a + n ≤ b + m) :
    (∃ x y, uint c a n = some x ∧ uint c b m = some y) ∨ uint c b m = none := by
  rcases hb : uint c b m with _ | y
  · exact .inr rfl
  · obtain ⟨x, hx⟩ := uint_exists (off' := a) (n' := n) hb h
    exact .inl ⟨x, y, hx, rfl⟩

theorem repoc_iff (c : Bytes) (a b : Nat) (h : a ≤ b) :
    between (intOf (uint c a 1) + 1) (intOf (uint c b 1)) 33 = true ↔
      FieldIs c a 1 (fun rs => FieldIs c b 1 (fun re => rs < re ∧ re ≤ 33)) := by
  rw [between_iff]
  rcases two_fields c (a := a) (n := 1) (b := b) (m := 1) (by omega) with ⟨x, y, hx, hy⟩ | hn
  · simp only [FieldIs, hx, hy, intOf, Option.some.injEq, exists_eq_left']; omega
  · simp only [FieldIs, hn, intOf, reduceCtorEq, false_and, exists_false, and_false, iff_false]
    rcases hx : uint c a 1 with _ | x <;> simp <;> omega

theorem cepoc_iff (c : Bytes) (a b w : Nat) (M : Nat) (Q : Nat → Prop) (h : a ≤ b)
    (hQ : ∀ v, v < 256 ^ w → (v ≤ M ↔ Q v)) :
    (between (intOf (uint c a w) + 1) (intOf (uint c b w)) (M : Int) || decide (intOf (uint c b w) = 0)) = true ↔
      FieldIs c a w (fun cs => FieldIs c b w (fun ce => ce = 0 ∨ (cs < ce ∧ Q ce))) := by
  rw [Bool.or_eq_true, decide_eq_true_eq, between_iff]
  rcases two_fields c (a := a) (n := w) (b := b) (m := w) (by omega) with ⟨x, y, hx, hy⟩ | hn
  · have := hQ y (uint_lt hy)
    simp only [FieldIs, hx, hy, intOf, Option.some.injEq, exists_eq_left', ← this]; omega
  · simp only [FieldIs, hn, intOf, reduceCtorEq, false_and, exists_false, and_false, iff_false]
    rcases hx : uint c a w with _ | x <;> simp <;> omega

theorem diag_poc (csiz : Int) (c : Bytes) (ss : List Step) (h : poc (some csiz) c = .ok ss) :
    Diag ss (pocRules csiz c) := by
  unfold poc withCsiz at h
  cases h
  unfold pocRules
  simp only
  refine diag_append (ra := [_]) ?_ ?_
  · decode
    diag
    fr c 0 2
  rw [u16_at c 0 (x := 0) (y := 2) rfl rfl]
  rcases h0 : uint c 0 2 with _ | l
  · have : (if csiz < 257 then (7 : Int) else 9) = ((if csiz < 257 then 7 else 9 : Nat) : Int) := by
      split <;> rfl
    have hr : rangeLen (intDiv (intOf none - 2) (if csiz < 257 then (7 : Int) else 9)) = 0 := by
      split <;> decide
    rw [hr]
    simp only [reduceCtorEq, false_implies, implies_true]
    exact diag_skip trivial (diag_skip trivial (diag_skip trivial (diag_skip trivial (diag_skip trivial
      (diag_skip trivial diag_nil)))))
  · simp only [Option.some.injEq, forall_eq']
    by_cases hc : csiz < 257
    · simp only [hc, if_true, compWidth, CompIndexOk, true_or, Nat.reduceMul, Nat.reduceAdd]
      rw [show rangeLen (intDiv (intOf (some l) - 2) 7) = (l - 2) / 7 from rangeLen_intDiv l 2 7]
      refine diag_loop [
        ("rspocIsValid", fun i => FieldIs c (2 + 7 * i) 1 (· ≤ 32)),
        ("cspocIsValid", fun i => FieldIs c (2 + 7 * i + 1) 1 (fun _ => True)),
        ("lyepocIsValid", fun i => FieldIs c (2 + 7 * i + 1 + 1) 2 (1 ≤ ·)),
        ("repocIsValid", fun i => FieldIs c (2 + 7 * i) 1 (fun rs =>
          FieldIs c (2 + 7 * i + 3 + 1) 1 (fun re => rs < re ∧ re ≤ 33))),
        ("cepocIsValid", fun i => FieldIs c (2 + 7 * i + 1) 1 (fun cs =>
          FieldIs c (2 + 7 * i + 4 + 1) 1 (fun ce => ce = 0 ∨ (cs < ce ∧ True)))),
        ("orderIsValid", fun i => FieldIs c (2 + 7 * i + 4 + 2) 1 (· ≤ 4))] fun i _ => ?_
      simp only [List.map]
      generalize ho : 2 + 7 * i = off
      rw [show (2 + 7 * (i : Int)) = (off : Int) by omega]
      unfold pocEntry
      simp only [hc, if_true]
      rw [u8_at c off (by omega) (by omega), u8_at c (off + 1) (by omega) (by omega),
        u16_at c (off + 1 + 1) (by omega) (by omega), u8_at c (off + 3 + 1) (by omega) (by omega),
        u8_at c (off + 4 + 1) (by omega) (by omega), u8_at c (off + 4 + 2) (by omega) (by omega)]
      diag
      · fr c off 1
      · fr c (off + 1) 1
      · fr c (off + 1 + 1) 2
      · exact repoc_iff c off (off + 3 + 1) (by omega)
      · exact cepoc_iff c (off + 1) (off + 4 + 1) 1 255 (fun _ => True) (by omega) (fun v hv => by simp; omega)
      · fr c (off + 4 + 2) 1
    · simp only [hc, if_false, compWidth, CompIndexOk, false_or, Nat.reduceMul, Nat.reduceAdd]
      rw [show rangeLen (intDiv (intOf (some l) - 2) 9) = (l - 2) / 9 from rangeLen_intDiv l 2 9]
      refine diag_loop [
        ("rspocIsValid", fun i => FieldIs c (2 + 9 * i) 1 (· ≤ 32)),
        ("cspocIsValid", fun i => FieldIs c (2 + 9 * i + 1) 2 (fun v => v ≤ 16383)),
        ("lyepocIsValid", fun i => FieldIs c (2 + 9 * i + 1 + 2) 2 (1 ≤ ·)),
        ("repocIsValid", fun i => FieldIs c (2 + 9 * i) 1 (fun rs =>
          FieldIs c (2 + 9 * i + 3 + 2) 1 (fun re => rs < re ∧ re ≤ 33))),
        ("cepocIsValid", fun i => FieldIs c (2 + 9 * i + 1) 2 (fun cs =>
          FieldIs c (2 + 9 * i + 4 + 2) 2 (fun ce => ce = 0 ∨ (cs < ce ∧ ce ≤ 16384)))),
        ("orderIsValid", fun i => FieldIs c (2 + 9 * i + 4 + 4) 1 (· ≤ 4))] fun i _ => ?_
      simp only [List.map]
      generalize ho : 2 + 9 * i = off
      rw [show (2 + 9 * (i : Int)) = (off : Int) by omega]
      unfold pocEntry
      simp only [hc, if_false]
      rw [u8_at c off (by omega) (by omega), u16_at c (off + 1) (by omega) (by omega),
        u16_at c (off + 1 + 2) (by omega) (by omega), u8_at c (off + 3 + 2) (by omega) (by omega),
        u16_at c (off + 4 + 2) (by omega) (by omega), u8_at c (off + 4 + 4) (by omega) (by omega)]
      diag
      · fr c off 1
      · fr c (off + 1) 2
      · fr c (off + 1 + 2) 2
      · exact repoc_iff c off (off + 3 + 2) (by omega)
      · exact cepoc_iff c (off + 1) (off + 4 + 2) 2 16384 (fun ce => ce ≤ 16384) (by omega)
          (fun v hv => Iff.rfl)
      · fr c (off + 4 + 4) 1

theorem diag_com (env : Env) (c : Bytes) : Diag (com env c) (comRules env.catC c) := by
  unfold com comRules
  simp only
  rw [u16_at c 0 (x := 0) (y := 2) rfl rfl, u16_at c 2 (x := 2) (y := 4) rfl rfl]
  refine diag_append (rb := []) (ra := [_, _, _]) ?_ ?_
  · diag
    · fr c 0 2
    · fr c 2 2
    · rcases h2 : uint c 2 2 with _ | r
      · simp [FieldIs, h2, intOf]
      obtain ⟨l, h0⟩ := uint_exists (off' := 0) (n' := 2) h2 (by omega)
      simp only [FieldIs, h0, h2, Option.some.injEq, exists_eq_left']
      rw [show slice c 4 (intOf (some l)) = sub c 4 (l - 4) from slice_nat c 4 l]
      by_cases hr0 : r = 0
      · subst hr0; simp [intOf]
      by_cases hr1 : r = 1
      · subst hr1
        simp only [intOf, Int.natCast_one, Int.reduceEq, if_false, if_true, decide_eq_true_eq,
          removeControl_eq_self, List.mem_map, forall_exists_index, and_imp,
          forall_apply_eq_imp_iff₂, latin9_eq]
        simp
      · have a0 : ¬ ((r : Int) = 0) := by omega
        have a1 : ¬ ((r : Int) = 1) := by omega
        simp [hr0, hr1, intOf, a0, a1]
  · have hq : ∀ (b : Bool) v, testsOf (if b = true then [Step.char "comment" v] else []) = [] := by
      intro b v; cases b <;> rfl
    exact diag_none (hq _ _)

theorem diag_cap (fmt : Format) (c : Bytes) : Diag (cap fmt c) (capRules fmt c) := by
  unfold cap capRules
  rw [u16_at c 0 (x := 0) (y := 2) rfl rfl, u32_at c 2 (x := 2) (y := 6) rfl rfl]
  have hc : ∃ ps, capParts (intOf (uint c 2 4)) = ps ∧
      (∀ l : Nat, (2 * (ps.length : Int) = (l : Int) - 6 ↔
        (∀ pcap ps, uint c 2 4 = some pcap → IsCapParts pcap ps → l = 6 + 2 * ps.length) ∧
        (uint c 2 4 = none → l = 56))) ∧
      (15 ∈ ps ↔ ∀ pcap, uint c 2 4 = some pcap → bit 17 pcap = 1) := by
    refine ⟨_, rfl, ?_, ?_⟩
    · intro l
      cases h : uint c 2 4 with
      | none =>
        have e3 : (capParts (intOf none)).length = 25 := by decide
        rw [e3]
        simp
        omega
      | some p =>
        have hp := capParts_spec p
        have hu : (∀ ps, IsCapParts p ps → l = 6 + 2 * ps.length) ↔ l = 6 + 2 * (capParts p).length := by
          constructor
          · intro h; exact h _ hp
          · intro h ps hps
            rw [sorted_unique hps.1 hp.1 fun x => by rw [hps.2, hp.2]]; exact h
        have e : (∀ pcap ps, some p = some pcap → IsCapParts pcap ps → l = 6 + 2 * ps.length) ∧
            (some p = none → l = 56) ↔ l = 6 + 2 * (capParts p).length := by
          rw [← hu]
          constructor
          · intro h ps; exact h.1 p ps rfl
          · intro h; refine ⟨?_, fun h => nomatch h⟩
            rintro _ ps ⟨⟩; exact h ps
        rw [e]
        show 2 * ((capParts (p : Int)).length : Int) = _ ↔ _
        omega
    · cases h : uint c 2 4 with
      | none =>
        have e4 : 15 ∈ capParts (intOf none) := by decide
        simp [e4]
      | some p =>
        have hp := capParts_spec p
        have h15 : (15 : Nat) ∈ capParts (p : Int) ↔ bit 17 p = 1 := by rw [hp.2]; simp
        simp [intOf, h15]
  obtain ⟨ps, e, hl, h15⟩ := hc
  simp only [e, ← h15]
  simp only [List.append_assoc, List.cons_append, List.nil_append]
  refine diag_char (diag_quiet (testsOf_map_char _ _ _) (diag_test ?_ ?_))
  · refine Iff.trans ⟨of_decide_eq_true, decide_eq_true⟩ ?_
    simp only [← hl]
    cases h0 : uint c 0 2 with
    | none => simp [FieldIs, intOf, h0]; omega
    | some l => simp [FieldIs, intOf, h0]
  · split
    · rename_i hh
      refine diag_test ?_ ?_
      · simp [hh]
      · split <;> exact diag_none rfl
    · rename_i hh
      exact diag_skip (fun h => absurd h hh) diag_nil

theorem diag_prf (c : Bytes) : Diag (prf c) (prfRules c) := by
  unfold prf prfRules
  simp only [profileLoop_eq, List.append_assoc, List.cons_append, List.nil_append]
  rw [u16_at c 0 (x := 0) (y := 2) rfl rfl, u16_at c 2 (x := 2) (y := 4) rfl rfl]
  diag
  · fr c 0 2
  · refine Iff.trans ⟨of_decide_eq_true, decide_eq_true⟩ ?_
    rcases hl : uint c 0 2 with _ | l
    · have hr : rangeLen (intDiv (intOf none - 2) 2) = 0 := by decide
      rw [hr]
      simp [FieldIs, hl]
    have hr : rangeLen (intDiv (intOf (some l) - 2) 2) = (l - 2) / 2 := rangeLen_intDiv l 2 2
    rw [hr]
    by_cases h4 : 4 ≤ l
    · have hs := sum_pow_pos ((l - 2) / 2) (by omega)
      generalize ((List.range ((l - 2) / 2)).map fun i => 65536 ^ i).sum = S at hs ⊢
      rcases hp : uint c 2 2 with _ | p
      · simp [FieldIs, hp, intOf]; omega
      · have hpp : (0:Int) < p * S ↔ 1 ≤ p := by
          rw [← Int.natCast_mul]
          constructor
          · intro h; rcases Nat.eq_zero_or_pos p with h0 | h0
            · subst h0; simp at h
            · exact h0
          · intro h; have := Nat.mul_pos h hs; omega
        simp only [FieldIs, hl, hp, intOf, Option.some.injEq, exists_eq_left']
        omega
    · rw [show (l - 2) / 2 = 0 by omega]
      simp [FieldIs, hl, h4]

theorem diag_cpf (fmt : Format) (c : Bytes) : Diag (cpf fmt c) (cpfRules fmt c) := by
  unfold cpf cpfRules
  simp only [profileLoop_eq, List.append_assoc, List.cons_append, List.nil_append]
  rw [u16_at c 0 (x := 0) (y := 2) rfl rfl]
  cases fmt.isHT <;> simp only [if_true, if_false, Bool.false_eq_true, false_implies, true_implies,
    List.nil_append, List.cons_append]
  · exact diag_char (diag_char (diag_skip trivial diag_nil))
  · diag
    fr c 0 2

theorem diag_siz (fmt : Format) (c : Bytes) (ss : List Step) (h : siz fmt c = .ok ss) :
    Diag ss (sizRules fmt c) := by
  unfold siz at h
  simp only at h
  rw [u16_at c 2 (x := 2) (y := 4) rfl rfl] at h
  rcases h2 : uint c 2 2 with _ | r
  · rw [h2, show sizCapability (intOf none) = none from sizCapability_missing] at h
    cases h
  rw [h2] at h
  have hr : intOf (some r) = (r : Int) := rfl
  rw [hr] at h
  split at h
  · cases h
  cases h
  unfold sizRules
  have hlt := uint_lt h2
  refine diag_append (ra := [_, _, _, _, _, _, _, _, _, _, _, _]) ?_ ?_
  · decode
    refine diag_append (ra := [_, _]) (diag_append (ra := [_]) (rb := [_]) ?_ ?_) ?_
    · diag
      fr c 0 2
    · rw [getBitValue_nat, shr_div, low_mod, show 16 - 2 = 14 from rfl]
      cases fmt <;>
        simp only [Format.isPart1, Format.isHT, if_true, if_false, Bool.false_eq_true] <;>
        simp only [FieldIs, h2, Option.some.injEq, exists_eq_left', RsizOk]
      all_goals first
        | exact diag_skip trivial diag_nil
        | (refine diag_test (Iff.trans ⟨of_decide_eq_true, decide_eq_true⟩ ?_) diag_nil
           generalize bit 14 r = t
           omega)
    · diag
      · fr c 4 4
      · fr c 8 4
      · fr c 12 4
      · fr c 16 4
      · fr c 20 4
      · fr c 24 4
      · fr c 28 4
      · fr c 32 4
      · fr c 36 2
      · refine Iff.trans ⟨of_decide_eq_true, decide_eq_true⟩ ?_
        rcases h0 : uint c 0 2 with _ | l
        · rcases h36 : uint c 36 2 with _ | n <;> simp [FieldIs, h0, h36, intOf]
          omega
        · rcases h36 : uint c 36 2 with _ | n <;> simp [FieldIs, h0, h36, intOf] <;> omega
  · rw [u16_at c 36 (x := 36) (y := 38) rfl rfl]
    rcases h0 : uint c 36 2 with _ | n
    · exact diag_skip (by simp) (diag_skip (by simp) (diag_skip (by simp) diag_nil))
    · simp only [intOf, rangeLen, Int.toNat_natCast, Option.some.injEq, forall_eq']
      refine diag_loop [("ssizIsValid", fun i => FieldIs c (38 + 3 * i) 1 (fun s => s % 128 + 1 ≤ 38)),
        ("xRsizIsValid", fun i => FieldIs c (38 + 3 * i + 1) 1 (1 ≤ ·)),
        ("yRsizIsValid", fun i => FieldIs c (38 + 3 * i + 2) 1 (1 ≤ ·))] fun i _ => ?_
      simp only [List.map]
      rw [u8_at c (38 + 3 * i) (by omega) (by omega), u8_at c (38 + 3 * i + 1) (by omega) (by omega),
        u8_at c (38 + 3 * i + 2) (by omega) (by omega)]
      diag
      · fr c (38 + 3 * i) 1
      · fr c (38 + 3 * i + 1) 1
      · fr c (38 + 3 * i + 2) 1

end Jpy
