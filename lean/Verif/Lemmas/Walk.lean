import Verif.Lemmas.Fuel
import Verif.Lemmas.Box
import Verif.Spec.Walk
/-! # The box loop visits exactly the boxes of the specification -/

namespace Jpy
open Spec

theorem slice_clamp_nil (b : Bytes) {i j : Int} (hi : (b.length : Int) ≤ i) : slice b i j = [] := by
  unfold slice
  have : sliceIdx b.length i = b.length := by unfold sliceIdx; split <;> omega
  rw [this]; simp

theorem uint_none {b : Bytes} {off n : Nat} (h : uint b off n = none) : b.length < off + n := by
  unfold uint at h
  split at h
  · cases h
  · omega

theorem uint_some_le {b : Bytes} {off n v : Nat} (h : uint b off n = some v) : off + n ≤ b.length := by
  unfold uint at h
  split at h
  · assumption
  · cases h

theorem boxAt_unique {b : Bytes} {off : Nat} {t p n t' p' n'} (h : BoxAt b off t p n)
    (h' : BoxAt b off t' p' n') : t = t' ∧ p = p' ∧ n = n' := by
  cases h <;> cases h' <;> simp_all <;> omega

theorem boxAt_next {b : Bytes} {off n : Nat} {t p} (h : BoxAt b off t p (some n))
    (ho : off < b.length) : off < n := by
  cases h <;> omega

theorem boxAt_payload {b : Bytes} {off : Nat} {t p n} (h : BoxAt b off t p n)
    (ho : off < b.length) : off + p.length < b.length := by
  cases h <;> simp [length_sub] <;> omega

/-- `_getBox` finds the box of the specification. -/
theorem getBox_spec {b : Bytes} {off : Nat} (ho : off < b.length) :
    ∃ n, BoxAt b off (getBox b off).type (getBox b off).contents n ∧
      match n with
      | some k => (getBox b off).byteEnd = (k : Int) ∧ (getBox b off).length ≠ 0 ∧
          (getBox b off).length ≠ -9999
      | none => (getBox b off).length = -9999 := by
  unfold getBox
  simp only
  rw [u32_slice b (i := (off : Int)) (j := (off : Int) + 4) (by omega) rfl,
    slice_at b (off + 4) 4 (x := (off : Int) + 4) (y := (off : Int) + 8) (by omega) (by omega),
    u64_slice b (i := (off : Int) + 8) (j := (off : Int) + 16) (by omega) (by omega)]
  have e1 : ((off : Int)).toNat = off := by omega
  have e2 : ((off : Int) + 8).toNat = off + 8 := by omega
  rw [e1, e2]
  cases h : uint b off 4 with
  | none =>
    have hl := uint_none h
    refine ⟨none, ?_, ?_⟩
    · simp only [intOf]
      rw [slice_clamp_nil b (by simp; omega)]
      exact .noLength h
    · simp [intOf]
  | some L =>
    by_cases h1 : L = 1
    · subst h1
      simp only [intOf, Int.natCast_one, if_true]
      cases hx : uint b (off + 8) 8 with
      | none =>
        have hl := uint_none hx
        refine ⟨none, ?_, ?_⟩
        · rw [slice_clamp_nil b (by omega)]
          exact .noLongLength h hx
        · simp
      | some X =>
        have hxl := uint_some_le hx
        simp only
        by_cases h0 : X = 0
        · subst h0
          refine ⟨some b.length, ?_, ?_⟩
          · have : slice b ((off : Int) + 16) ((off : Int) + if ((0 : Nat) : Int) = 0 then (b.length : Int) - off else ((0 : Nat) : Int)) = b.drop (off + 16) := by
              have e : ((off : Int) + if ((0 : Nat) : Int) = 0 then (b.length : Int) - off else ((0 : Nat) : Int)) = (b.length : Int) := by simp; omega
              rw [e]
              exact_mod_cast slice_to_end b (off + 16)
            rw [this]
            exact .longToEnd h hx
          · simp only [Int.natCast_zero, if_true]; omega
        · have hne : (X : Int) ≠ 0 := by omega
          simp only [hne, if_false]
          refine ⟨some (off + X), ?_, ?_⟩
          · have : slice b ((off : Int) + 16) ((off : Int) + X) = sub b (off + 16) (X - 16) := by
              have := slice_nat b (off + 16) (off + X)
              rw [show off + X - (off + 16) = X - 16 by omega] at this
              simpa using this
            rw [this]
            exact .long h hx (by omega)
          · refine ⟨by simp, hne, by omega⟩
    · have h1' : (L : Int) ≠ 1 := by omega
      simp only [intOf, h1', if_false]
      by_cases h0 : L = 0
      · subst h0
        refine ⟨some b.length, ?_, ?_⟩
        · have : slice b ((off : Int) + 8) ((off : Int) + if ((0 : Nat) : Int) = 0 then (b.length : Int) - off else ((0 : Nat) : Int)) = b.drop (off + 8) := by
            have e : ((off : Int) + if ((0 : Nat) : Int) = 0 then (b.length : Int) - off else ((0 : Nat) : Int)) = (b.length : Int) := by simp; omega
            rw [e]
            exact_mod_cast slice_to_end b (off + 8)
          rw [this]
          exact .toEnd h
        · simp only [Int.natCast_zero, if_true]; omega
      · have hne : (L : Int) ≠ 0 := by omega
        simp only [hne, if_false]
        refine ⟨some (off + L), ?_, ?_⟩
        · have : slice b ((off : Int) + 8) ((off : Int) + L) = sub b (off + 8) (L - 8) := by
            have := slice_nat b (off + 8) (off + L)
            rw [show off + L - (off + 8) = L - 8 by omega] at this
            simpa using this
          rw [this]
          exact .short h (by omega)
        · refine ⟨by simp, hne, by omega⟩

theorem boxesFrom_unique {b : Bytes} {off : Nat} {bs bs'} (h : BoxesFrom b off bs)
    (h' : BoxesFrom b off bs') : bs = bs' := by
  induction h generalizing bs' with
  | done hl =>
    cases h' with
    | done => rfl
    | step hl' => omega
    | last hl' => omega
  | step hl hb _ ih =>
    cases h' with
    | done hl' => omega
    | step _ hb' h2 =>
      obtain ⟨rfl, rfl, hn⟩ := boxAt_unique hb hb'
      cases hn
      rw [ih h2]
    | last _ hb' => have := (boxAt_unique hb hb').2.2; cases this
  | last hl hb =>
    cases h' with
    | done hl' => omega
    | step _ hb' h2 => have := (boxAt_unique hb hb').2.2; cases this
    | last _ hb' =>
      obtain ⟨rfl, rfl, _⟩ := boxAt_unique hb hb'
      rfl

theorem boxes_unique {b : Bytes} {bs bs'} (h : Boxes b bs) (h' : Boxes b bs') : bs = bs' :=
  boxesFrom_unique h h'

theorem boxesFrom_exists (b : Bytes) : ∀ (k off : Nat), b.length - off ≤ k → ∃ bs, BoxesFrom b off bs
  | k, off, hk => by
    by_cases ho : off < b.length
    · obtain ⟨n, hb, _⟩ := getBox_spec ho
      cases n with
      | none => exact ⟨_, .last ho hb⟩
      | some n =>
        have := boxAt_next hb ho
        cases k with
        | zero => omega
        | succ k =>
          obtain ⟨bs, hbs⟩ := boxesFrom_exists b k n (by omega)
          exact ⟨_, .step ho hb hbs⟩
    · exact ⟨[], .done (by omega)⟩

theorem boxes_exists (b : Bytes) : ∃ bs, Boxes b bs := boxesFrom_exists b _ 0 (Nat.le_refl _)

theorem boxesFrom_mem {b : Bytes} {off : Nat} {bs} (h : BoxesFrom b off bs) {x : FoundBox}
    (hx : x ∈ bs) : off ≤ x.start ∧ x.start + x.payload.length < b.length ∧
      ∃ n, BoxAt b x.start x.type x.payload n := by
  induction h with
  | done => cases hx
  | step hl hb _ ih =>
    rcases List.mem_cons.1 hx with rfl | hx
    · exact ⟨Nat.le_refl _, boxAt_payload hb hl, _, hb⟩
    · have := boxAt_next hb hl
      have := ih hx
      exact ⟨by omega, this.2⟩
  | last hl hb =>
    rcases List.mem_cons.1 hx with rfl | hx
    · exact ⟨Nat.le_refl _, boxAt_payload hb hl, _, hb⟩
    · cases hx

theorem boxesFrom_length {b : Bytes} {off : Nat} {bs} (h : BoxesFrom b off bs) :
    bs.length ≤ b.length - off := by
  induction h with
  | done => simp
  | step hl hb _ ih =>
    have := boxAt_next hb hl
    simp only [List.length_cons]; omega
  | last hl hb => simp only [List.length_cons, List.length_nil]; omega

theorem boxesFrom_increasing {b : Bytes} {off : Nat} {bs} (h : BoxesFrom b off bs) :
    bs.Pairwise (fun x y => x.start < y.start) := by
  induction h with
  | done => exact .nil
  | step hl hb h2 ih =>
    refine .cons (fun y hy => ?_) ih
    have := boxAt_next hb hl
    have := (boxesFrom_mem h2 hy).1
    simp only; omega
  | last => exact .cons (fun _ h => nomatch h) .nil

theorem hasBox_small {b : Bytes} {d t p} (h : HasBox b d t p) : d + p.length ≤ b.length := by
  induction h with
  | top hb hx =>
    have := (boxesFrom_mem hb hx).2.1
    omega
  | inside _ _ hb hx ih =>
    have := (boxesFrom_mem hb hx).2.1
    omega

theorem inTurn_ok {α β : Type} {f : α → Outcome β} {xs : List α} {ys : List β} :
    inTurn f xs = .ok ys ↔ ys.length = xs.length ∧ ∀ i (h : i < xs.length) (h' : i < ys.length),
      f xs[i] = .ok ys[i] := by
  induction xs generalizing ys with
  | nil => cases ys <;> simp [inTurn]
  | cons x xs ih =>
    constructor
    · intro h
      obtain ⟨y, hy, h⟩ := Outcome.bind_eq_ok.1 h
      obtain ⟨zs, hz, h⟩ := Outcome.bind_eq_ok.1 h
      cases h
      obtain ⟨h1, h2⟩ := ih.1 hz
      refine ⟨by simp [h1], fun i h h' => ?_⟩
      cases i with
      | zero => exact hy
      | succ i => exact h2 i (by simpa using h) (by simpa using h')
    · rintro ⟨h1, h2⟩
      cases ys with
      | nil => simp at h1
      | cons y ys =>
        have hy : f x = .ok y := h2 0 (by simp) (by simp)
        have hz : inTurn f xs = .ok ys := ih.2 ⟨by simpa using h1, fun i h h' =>
          h2 (i + 1) (by simpa using h) (by simpa using h')⟩
        simp [inTurn, hy, hz]

theorem inTurn_mem {α β : Type} {f : α → Outcome β} {xs : List α} {ys : List β}
    (h : inTurn f xs = .ok ys) {x : α} (hx : x ∈ xs) : ∃ y ∈ ys, f x = .ok y := by
  induction xs generalizing ys with
  | nil => cases hx
  | cons a xs ih =>
    obtain ⟨y, hy, h⟩ := Outcome.bind_eq_ok.1 h
    obtain ⟨zs, hz, h⟩ := Outcome.bind_eq_ok.1 h
    cases h
    rcases List.mem_cons.1 hx with rfl | hx
    · exact ⟨y, by simp, hy⟩
    · obtain ⟨w, hw, e⟩ := ih hz hx
      exact ⟨w, by simp [hw], e⟩

theorem inTurn_mem' {α β : Type} {f : α → Outcome β} {xs : List α} {ys : List β}
    (h : inTurn f xs = .ok ys) {y : β} (hy : y ∈ ys) : ∃ x ∈ xs, f x = .ok y := by
  induction xs generalizing ys with
  | nil => cases h; cases hy
  | cons a xs ih =>
    obtain ⟨z, hz, h⟩ := Outcome.bind_eq_ok.1 h
    obtain ⟨zs, hzs, h⟩ := Outcome.bind_eq_ok.1 h
    cases h
    rcases List.mem_cons.1 hy with rfl | hy
    · exact ⟨a, by simp, hz⟩
    · obtain ⟨w, hw, e⟩ := ih hzs hy
      exact ⟨w, by simp [hw], e⟩

theorem inTurn_append {α β : Type} (f : α → Outcome β) (xs ys : List α) :
    inTurn f (xs ++ ys) = inTurn f xs >>= fun a => inTurn f ys >>= fun b => .ok (a ++ b) := by
  induction xs with
  | nil =>
    simp only [List.nil_append, inTurn, Outcome.bind_ok]
    cases inTurn f ys <;> rfl
  | cons x xs ih =>
    simp only [List.cons_append, inTurn, ih]
    cases f x with
    | ok y =>
      simp only [Outcome.bind_ok]
      cases inTurn f xs with
      | ok a =>
        simp only [Outcome.bind_ok]
        cases inTurn f ys <;> rfl
      | raised e => rfl
      | timeout => rfl
    | raised e => rfl
    | timeout => rfl

/-- The box loop is: validate every box in turn, adding its results. -/
theorem boxLoop_eq {sub : Bytes → Bytes → Outcome BoxResult} {b : Bytes} {off : Nat} {bs}
    (h : BoxesFrom b off bs) : ∀ {fuel : Nat} {l : Int} {node types}, bs.length < fuel → l ≠ 0 →
    l ≠ -9999 → boxLoop sub b fuel off l node types =
      inTurn (fun x => sub x.type x.payload) bs >>= fun rs =>
        .ok (rs.foldl Node.absorb node, types ++ bs.map (·.type)) := by
  induction h with
  | done hl =>
    intro fuel l node types hf _ _
    cases fuel with
    | zero => simp at hf
    | succ fuel =>
      unfold boxLoop
      rw [if_neg (by omega)]
      simp [inTurn]
  | @step off t p n bs hl hb h2 ih =>
    intro fuel l node types hf h0 h9
    cases fuel with
    | zero => simp at hf
    | succ fuel =>
      unfold boxLoop
      rw [if_pos ⟨by omega, h0, h9⟩]
      obtain ⟨n', hb', hm⟩ := getBox_spec (b := b) hl
      obtain ⟨ht, hp, hn⟩ := boxAt_unique hb hb'
      subst hn
      simp only at hm
      simp only [inTurn, hm.1, ← ht, ← hp]
      cases sub t p with
      | ok r =>
        simp only [Outcome.bind_ok]
        rw [ih (by simpa using hf) hm.2.1 hm.2.2]
        cases inTurn (fun x => sub x.type x.payload) bs <;> simp
      | raised e => rfl
      | timeout => rfl
  | @last off t p hl hb =>
    intro fuel l node types hf h0 h9
    cases fuel with
    | zero => simp at hf
    | succ fuel =>
      cases fuel with
      | zero => simp at hf
      | succ fuel =>
        unfold boxLoop
        rw [if_pos ⟨by omega, h0, h9⟩]
        obtain ⟨n', hb', hm⟩ := getBox_spec (b := b) hl
        obtain ⟨ht, hp, hn⟩ := boxAt_unique hb hb'
        subst hn
        simp only at hm
        simp only [inTurn, hm, ← ht, ← hp]
        cases sub t p with
        | ok r =>
          simp only [Outcome.bind_ok]
          unfold boxLoop
          rw [if_neg (by simp)]
          simp
        | raised e => rfl
        | timeout => rfl

theorem walkBoxes_eq {sub : Bytes → Bytes → Outcome BoxResult} {b : Bytes} {bs} (h : Boxes b bs)
    {fuel : Nat} (hf : bs.length < fuel) : walkBoxes sub b fuel =
      inTurn (fun x => sub x.type x.payload) bs >>= fun rs =>
        .ok (rs.foldl Node.absorb {}, bs.map (·.type)) := by
  have := boxLoop_eq (sub := sub) h (l := 10) (node := {}) (types := []) hf (by decide) (by decide)
  simpa [walkBoxes] using this

/-- A finished walk has visited every box, whatever the fuel. -/
theorem walkBoxes_ok {sub : Bytes → Bytes → Outcome BoxResult} {b : Bytes} {bs} (h : Boxes b bs)
    {fuel : Nat} {n types} (hw : walkBoxes sub b fuel = .ok (n, types)) :
    ∃ rs, inTurn (fun x => sub x.type x.payload) bs = .ok rs ∧ n = rs.foldl Node.absorb {} ∧
      types = bs.map (·.type) := by
  have hle := walkBoxes_le (sub1 := sub) (sub2 := sub) (fun _ _ => .refl _) b
    (show fuel ≤ fuel + bs.length + 1 by omega)
  have h2 := hle.ok hw
  rw [walkBoxes_eq h (by omega)] at h2
  obtain ⟨rs, h3, h4⟩ := Outcome.bind_eq_ok.1 h2
  cases h4
  exact ⟨rs, h3, rfl, rfl⟩

theorem isValid_foldl_absorb (rs : List BoxResult) (n : Node) :
    (rs.foldl Node.absorb n).isValid = (n.isValid && rs.all fun r => r.node.isValid) := by
  induction rs generalizing n with
  | nil => simp
  | cons r rs ih => rw [List.foldl_cons, ih, isValid_absorb, List.all_cons, Bool.and_assoc]

theorem chars_foldl_absorb (rs : List BoxResult) (n : Node) :
    (rs.foldl Node.absorb n).chars = n.chars ++ rs.map (·.charsElem) := by
  induction rs generalizing n with
  | nil => simp
  | cons r rs ih => rw [List.foldl_cons, ih]; simp [Node.absorb]

/-- All results of a list of validations are without failed tests. -/
theorem all_valid_iff {α : Type} {f : α → Outcome BoxResult} {xs : List α} {rs : List BoxResult}
    (h : inTurn f xs = .ok rs) :
    (rs.all fun r => r.node.isValid) = true ↔ ∀ x ∈ xs, Accepted (f x) := by
  rw [List.all_eq_true]
  constructor
  · intro hr x hx
    obtain ⟨y, hy, e⟩ := inTurn_mem h hx
    exact ⟨y, e, (isValid_iff _).1 (hr y hy)⟩
  · intro ha r hr
    obtain ⟨x, hx, e⟩ := inTurn_mem' h hr
    obtain ⟨r', e', hn⟩ := ha x hx
    rw [e] at e'; cases e'
    exact (isValid_iff _).2 hn

end Jpy
