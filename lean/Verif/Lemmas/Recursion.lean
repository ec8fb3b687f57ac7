import Verif.Spec.Recursion
import Verif.Lemmas.DigitsWalk
import Verif.Props.Endless
/-! # The limit on nested calls and the nesting of boxes -/

namespace Jpy
open Spec

theorem hasBox_at {b : Bytes} {x : FoundBox} {bs} (hb : Boxes b bs) (hx : x ∈ bs) (hs : x.type ∈ superboxTypes)
    {d t p} (h : HasBox x.payload d t p) : HasBox b (d + 1) t p := by
  induction h with
  | top h1 h2 => exact .inside (.top hb hx) hs h1 h2
  | inside _ h1 h2 h3 ih => exact .inside ih h1 h2 h3

theorem hasBox_pos {b : Bytes} {d t p} (h : HasBox b d t p) : 1 ≤ d := by cases h <;> omega

/-- A box of a file is one of its first level, or in a superbox of the first level. -/
theorem hasBox_first {b : Bytes} {d t p} (h : HasBox b d t p) {bs} (hb : Boxes b bs) :
    (d = 1 ∧ ∃ x ∈ bs, t = x.type ∧ p = x.payload) ∨
    ∃ x ∈ bs, x.type ∈ superboxTypes ∧ ∃ d', d = d' + 1 ∧ HasBox x.payload d' t p := by
  induction h with
  | top h1 h2 => cases boxes_unique hb h1; exact .inl ⟨rfl, _, h2, rfl, rfl⟩
  | inside h0 h1 h2 h3 ih =>
    rcases ih with ⟨rfl, x, hx, rfl, rfl⟩ | ⟨x, hx, hs, d', rfl, h⟩
    · exact .inr ⟨x, hx, h1, 1, rfl, .top h2 h3⟩
    · exact .inr ⟨x, hx, hs, _, rfl, .inside h h1 h2 h3⟩

/-- The box loop depends only on what is done with the boxes there are. -/
theorem boxLoop_congr {f g : Bytes → Bytes → Outcome BoxResult} {b : Bytes} {off : Nat} {bs}
    (h : BoxesFrom b off bs) : (∀ x ∈ bs, f x.type x.payload = g x.type x.payload) →
    ∀ {fuel : Nat} {l : Int} {node types}, boxLoop f b fuel off l node types = boxLoop g b fuel off l node types := by
  induction h with
  | done hl =>
    intro _ fuel l node types
    cases fuel with
    | zero => rfl
    | succ fuel => unfold boxLoop; rw [if_neg (by omega), if_neg (by omega)]
  | @step off t p n bs hl hb h2 ih =>
    intro hx fuel l node types
    cases fuel with
    | zero => rfl
    | succ fuel =>
      unfold boxLoop
      obtain ⟨n', hb', hm⟩ := getBox_spec (b := b) hl
      obtain ⟨ht, hp, hn⟩ := boxAt_unique hb hb'
      subst hn
      simp only at hm ⊢
      rw [← ht, ← hp, hx ⟨off, t, p⟩ (by simp)]
      simp only [hm.1]
      rw [funext fun r => ih (fun x hx' => hx x (by simp [hx'])) (fuel := fuel) (l := (getBox b off).length)
        (node := node.absorb r) (types := types ++ [t])]
  | @last off t p hl hb =>
    intro hx fuel l node types
    cases fuel with
    | zero => rfl
    | succ fuel =>
      unfold boxLoop
      obtain ⟨n', hb', hm⟩ := getBox_spec (b := b) hl
      obtain ⟨ht, hp, hn⟩ := boxAt_unique hb hb'
      subst hn
      simp only at hm ⊢
      rw [← ht, ← hp, hx ⟨off, t, p⟩ (by simp)]
      have : ∀ r, boxLoop f b fuel (getBox b off).byteEnd (getBox b off).length (node.absorb r) (types ++ [t]) =
          boxLoop g b fuel (getBox b off).byteEnd (getBox b off).length (node.absorb r) (types ++ [t]) := by
        intro r
        cases fuel with
        | zero => rfl
        | succ fuel => unfold boxLoop; simp [hm]
      rw [funext this]

theorem walkBoxes_congr {f g : Bytes → Bytes → Outcome BoxResult} {b : Bytes} {bs} (hb : Boxes b bs)
    (h : ∀ x ∈ bs, f x.type x.payload = g x.type x.payload) (fuel : Nat) : walkBoxes f b fuel = walkBoxes g b fuel :=
  boxLoop_congr hb h

section
variable {env : Env} {o : Options} {near : Bytes → Bytes → Outcome BoxResult}

/-- With enough room for the boxes inside, a box is validated as without a limit. -/
theorem validateBoxR_eq : ∀ {levels fuel : Nat} {t p : Bytes},
    (t ∈ superboxTypes → NestedIn levels p) → validateBoxR env o near (levels + 1) fuel t p = validateBox env o fuel t p
  | levels, 0, t, p, _ => by rw [validateBoxR, validateBox]
  | levels, fuel + 1, t, p, h => by
    have key : t ∈ superboxTypes → walkBoxes (validateBoxR env o near levels fuel) p fuel =
        walkBoxes (validateBox env o fuel) p fuel := by
      intro hs
      obtain ⟨bs, hb⟩ := boxes_exists p
      refine walkBoxes_congr hb (fun x hx => ?_) fuel
      have h1 := h hs _ _ _ (.top hb hx)
      obtain ⟨k, rfl⟩ : ∃ k, levels = k + 1 := ⟨levels - 1, by omega⟩
      exact validateBoxR_eq fun hs' d t' p' h' => by
        have := h hs _ _ _ (hasBox_at hb hx hs' h')
        omega
    unfold validateBoxR validateBox
    split
    · rename_i e; rw [key (superboxTypes_cases.2 (.inl e)), e]
    · rename_i e; rw [key (superboxTypes_cases.2 (.inr (.inl e))), e]
    · rename_i e; rw [key (superboxTypes_cases.2 (.inr (.inr e))), e]
    · rename_i e; rw [e]
    · rename_i e; rw [e]
    · split <;> first | rfl | contradiction

theorem validateJP2R_eq {levels fuel : Nat} {b : Bytes} (h : NestedIn levels b) :
    validateJP2R env o near levels fuel b = validateJP2 env o fuel b := by
  unfold validateJP2R validateJP2
  obtain ⟨bs, hb⟩ := boxes_exists b
  rw [walkBoxes_congr hb (fun x hx => ?_) fuel]
  have h1 := h _ _ _ (.top hb hx)
  obtain ⟨k, rfl⟩ : ∃ k, levels = k + 1 := ⟨levels - 1, by omega⟩
  exact validateBoxR_eq fun hs' d t' p' h' => by
    have := h _ _ _ (hasBox_at hb hx hs' h')
    omega

theorem inTurn_each {α β : Type} {f : α → Outcome β} : ∀ {l : List α} {ys : List β}, inTurn f l = .ok ys →
    ∀ x ∈ l, ∃ y, f x = .ok y
  | [], _, _, x, hx => by cases hx
  | a :: l, ys, h, x, hx => by
    obtain ⟨y, hy, h⟩ := Outcome.bind_eq_ok.1 h
    obtain ⟨ys', hys, -⟩ := Outcome.bind_eq_ok.1 h
    rcases List.mem_cons.1 hx with rfl | hx
    · exact ⟨y, hy⟩
    · exact inTurn_each hys x hx

/-- A superbox with boxes nested too deeply cannot be validated. -/
theorem validateBoxR_fails (hn : ∀ t p r, near t p ≠ .ok r) : ∀ {levels fuel : Nat} {t p : Bytes} {r},
    validateBoxR env o near levels fuel t p = .ok r → 1 ≤ levels ∧ (t ∈ superboxTypes → NestedIn (levels - 1) p)
  | 0, fuel, t, p, r, h => by rw [validateBoxR] at h; exact absurd h (hn t p r)
  | levels + 1, 0, t, p, r, h => by rw [validateBoxR] at h; cases h
  | levels + 1, fuel + 1, t, p, r, h => by
    refine ⟨by omega, fun hs d t' p' hb' => ?_⟩
    obtain ⟨bs, hb⟩ := boxes_exists p
    have key : ∀ n types, walkBoxes (validateBoxR env o near levels fuel) p fuel = .ok (n, types) → d ≤ levels := by
      intro n types hw
      obtain ⟨rs, hr, -, -⟩ := walkBoxes_ok hb hw
      rcases hasBox_first hb' hb with ⟨rfl, x, hx, rfl, rfl⟩ | ⟨x, hx, hsx, d', rfl, hd⟩
      · obtain ⟨y, hy⟩ := inTurn_each hr x hx
        exact (validateBoxR_fails hn hy).1
      · obtain ⟨y, hy⟩ := inTurn_each hr x hx
        have h1 := validateBoxR_fails hn hy
        have := h1.2 hsx _ _ _ hd
        omega
    unfold validateBoxR at h
    rcases superboxTypes_cases.1 hs with e | e | e <;> rw [e] at h <;> simp only at h <;>
      obtain ⟨⟨n, ts⟩, hw, -⟩ := Outcome.bind_eq_ok.1 h <;> exact key n ts hw

theorem validateJP2R_fails (hn : ∀ t p r, near t p ≠ .ok r) {levels fuel : Nat} {b : Bytes} {n}
    (h : validateJP2R env o near levels fuel b = .ok n) : NestedIn levels b := by
  intro d t p hd
  obtain ⟨bs, hb⟩ := boxes_exists b
  unfold validateJP2R at h
  obtain ⟨⟨n, ts⟩, hw, -⟩ := Outcome.bind_eq_ok.1 h
  obtain ⟨rs, hr, -, -⟩ := walkBoxes_ok hb hw
  rcases hasBox_first hd hb with ⟨rfl, x, hx, rfl, rfl⟩ | ⟨x, hx, hsx, d', rfl, hd'⟩
  · obtain ⟨y, hy⟩ := inTurn_each hr x hx
    exact (validateBoxR_fails hn hy).1
  · obtain ⟨y, hy⟩ := inTurn_each hr x hx
    have h1 := validateBoxR_fails hn hy
    have := h1.2 hsx _ _ _ hd'
    omega

theorem boxLoop_or {e : Exn} {f g : Bytes → Bytes → Outcome BoxResult} {b : Bytes}
    (h : ∀ t p r, g t p = .ok r → f t p = .ok r ∨ f t p = .raised e) : ∀ {fuel : Nat} {off l : Int} {node types y},
    boxLoop g b fuel off l node types = .ok y →
    boxLoop f b fuel off l node types = .ok y ∨ boxLoop f b fuel off l node types = .raised e
  | 0, off, l, node, types, y, hg => by cases hg
  | fuel + 1, off, l, node, types, y, hg => by
    unfold boxLoop at hg ⊢
    split at hg
    · rename_i hc
      rw [if_pos hc]
      obtain ⟨r, hr, hg⟩ := Outcome.bind_eq_ok.1 hg
      rcases h _ _ _ hr with h1 | h1
      · simp only [h1]
        exact boxLoop_or h hg
      · simp only [h1]
        exact .inr rfl
    · rename_i hc
      rw [if_neg hc]
      exact .inl hg

/-- If there is `RecursionError` whenever there is not enough room, a box is validated as without a limit, or
there is that exception. -/
theorem validateBoxR_or : ∀ {levels fuel : Nat} {t p : Bytes} {r}, validateBox env o fuel t p = .ok r →
    validateBoxR env o (fun _ _ => .raised .recursion) levels fuel t p = .ok r ∨
    validateBoxR env o (fun _ _ => .raised .recursion) levels fuel t p = .raised .recursion
  | 0, fuel, t, p, r, _ => by rw [validateBoxR]; exact .inr rfl
  | levels + 1, 0, t, p, r, h => by rw [validateBox] at h; cases h
  | levels + 1, fuel + 1, t, p, r, h => by
    have key : ∀ {y}, walkBoxes (validateBox env o fuel) p fuel = .ok y →
        walkBoxes (validateBoxR env o (fun _ _ => .raised .recursion) levels fuel) p fuel = .ok y ∨
        walkBoxes (validateBoxR env o (fun _ _ => .raised .recursion) levels fuel) p fuel = .raised .recursion :=
      fun hy => boxLoop_or (fun _ _ _ h => validateBoxR_or h) hy
    unfold validateBox at h
    unfold validateBoxR
    split at h
    · rename_i e
      rw [e]
      obtain ⟨y, hy, h⟩ := Outcome.bind_eq_ok.1 h
      rcases key hy with h1 | h1 <;> simp only [h1]
      · exact .inl h
      · exact .inr rfl
    · rename_i e
      rw [e]
      obtain ⟨y, hy, h⟩ := Outcome.bind_eq_ok.1 h
      rcases key hy with h1 | h1 <;> simp only [h1]
      · exact .inl h
      · exact .inr rfl
    · rename_i e
      rw [e]
      obtain ⟨y, hy, h⟩ := Outcome.bind_eq_ok.1 h
      rcases key hy with h1 | h1 <;> simp only [h1]
      · exact .inl h
      · exact .inr rfl
    · rename_i e; rw [e]; exact .inl h
    · cases h
    · refine .inl ?_
      rw [← h]
      split <;> first | rfl | contradiction

theorem validateJP2R_or {levels fuel : Nat} {b : Bytes} {n} (h : validateJP2 env o fuel b = .ok n) :
    validateJP2R env o (fun _ _ => .raised .recursion) levels fuel b = .ok n ∨
    validateJP2R env o (fun _ _ => .raised .recursion) levels fuel b = .raised .recursion := by
  unfold validateJP2 at h
  unfold validateJP2R
  obtain ⟨y, hy, h⟩ := Outcome.bind_eq_ok.1 h
  rcases boxLoop_or (f := validateBoxR env o (fun _ _ => .raised .recursion) levels fuel)
    (fun _ _ _ h => validateBoxR_or h) hy with h1 | h1
  · left
    show Outcome.bind (walkBoxes _ b fuel) _ = _
    unfold walkBoxes; rw [h1]; exact h
  · right
    show Outcome.bind (walkBoxes _ b fuel) _ = _
    unfold walkBoxes; rw [h1]; rfl
end

end Jpy
