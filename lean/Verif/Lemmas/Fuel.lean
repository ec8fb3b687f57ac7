import Verif.Lemmas.Rel
/-! # More fuel never changes a result

`Le x y`: `x` ran out of fuel, or it is `y`. Every fuelled function of the model is monotone for it. -/

namespace Jpy

/-- `x` has run out of fuel or equals `y`. -/
def Le {α : Type} (x y : Outcome α) : Prop := x = .timeout ∨ x = y

theorem Le.refl {α : Type} (x : Outcome α) : Le x x := .inr rfl
theorem Le.timeout {α : Type} (x : Outcome α) : Le .timeout x := .inl rfl

theorem Le.trans {α : Type} {x y z : Outcome α} (h1 : Le x y) (h2 : Le y z) : Le x z := by
  rcases h1 with h1 | h1
  · exact .inl h1
  · rcases h2 with h2 | h2
    · exact .inl (h1.trans h2)
    · exact .inr (h1.trans h2)

theorem Le.bind {α β : Type} {x y : Outcome α} {f g : α → Outcome β} (h : Le x y)
    (hf : ∀ a, Le (f a) (g a)) : Le (x >>= f) (y >>= g) := by
  rcases h with h | h
  · subst h; exact .inl rfl
  · subst h
    cases x with
    | ok a => exact hf a
    | raised e => exact .inr rfl
    | timeout => exact .inl rfl

theorem Le.ok {α : Type} {x y : Outcome α} {a : α} (h : Le x y) (hx : x = .ok a) : y = .ok a := by
  rcases h with h | h
  · rw [h] at hx; cases hx
  · rw [← h, hx]

theorem Le.raised {α : Type} {x y : Outcome α} {e : Exn} (h : Le x y) (hx : x = .raised e) :
    y = .raised e := by
  rcases h with h | h
  · rw [h] at hx; cases hx
  · rw [← h, hx]

theorem iplLen_le {c : Bytes} {i : Nat} : ∀ {f g : Nat} (k : Nat), f ≤ g →
    Le (iplLen c i f k) (iplLen c i g k)
  | 0, _, _, _ => .inl rfl
  | f + 1, 0, _, h => by omega
  | f + 1, g + 1, k, h => by
    unfold iplLen
    split
    · exact iplLen_le _ (by omega)
    · exact .refl _

theorem iplLoop_le {c : Bytes} {l : Int} : ∀ {f g : Nat} (i : Nat), f ≤ g →
    Le (iplLoop c l f i) (iplLoop c l g i)
  | 0, _, _, _ => .inl rfl
  | f + 1, 0, _, h => by omega
  | f + 1, g + 1, i, h => by
    unfold iplLoop
    split
    · exact .bind (iplLen_le _ (by omega)) fun a => .bind (iplLoop_le _ (by omega)) fun _ => .refl _
    · exact .refl _

theorem leaf_le (env : Env) (o : Options) {f g : Nat} (h : f ≤ g) (csiz t bType c) :
    Le (leaf env o f csiz t bType c) (leaf env o g csiz t bType c) := by
  cases t
  case plm => exact .bind (.bind (iplLoop_le _ h) fun _ => .refl _) fun _ => .refl _
  case plt => exact .bind (.bind (iplLoop_le _ h) fun _ => .refl _) fun _ => .refl _
  all_goals exact .refl _

theorem validateLeaf_le (env : Env) (o : Options) {f g : Nat} (h : f ≤ g) (csiz bType c) :
    Le (validateLeaf env o f csiz bType c) (validateLeaf env o g csiz bType c) :=
  .bind (leaf_le env o h ..) fun _ => .refl _

section
variable {seg1 seg2 : Bytes → Bytes → Option Int → Outcome BoxResult}

theorem tpStep_le (hs : ∀ m c k, Le (seg1 m c k) (seg2 m c k)) (pm csiz b s) :
    Le (tpStep seg1 pm csiz b s) (tpStep seg2 pm csiz b s) := by
  rw [tpStep_eq, tpStep_eq]
  simp only
  split
  · exact .bind (hs ..) fun _ => .refl _
  · exact .refl _

theorem mainStep_le (hs : ∀ m c k, Le (seg1 m c k) (seg2 m c k)) (pm csiz b s) :
    Le (mainStep seg1 pm csiz b s) (mainStep seg2 pm csiz b s) := by
  rw [mainStep_eq, mainStep_eq]
  simp only
  split
  · exact .bind (hs ..) fun _ => .refl _
  · exact .refl _

theorem tpLoop_le (hs : ∀ m c k, Le (seg1 m c k) (seg2 m c k)) (pm csiz b) : ∀ {f g : Nat} (s),
    f ≤ g → Le (tpLoop seg1 pm csiz b f s) (tpLoop seg2 pm csiz b g s)
  | 0, _, _, _ => .inl rfl
  | f + 1, 0, _, h => by omega
  | f + 1, g + 1, s, h => by
    unfold tpLoop
    split
    · exact .bind (tpStep_le hs ..) fun a => tpLoop_le hs pm csiz b a (by omega)
    · exact .refl _

theorem mainLoop_le (hs : ∀ m c k, Le (seg1 m c k) (seg2 m c k)) (pm csiz b) : ∀ {f g : Nat} (s),
    f ≤ g → Le (mainLoop seg1 pm csiz b f s) (mainLoop seg2 pm csiz b g s)
  | 0, _, _, _ => .inl rfl
  | f + 1, 0, _, h => by omega
  | f + 1, g + 1, s, h => by
    unfold mainLoop
    split
    · exact .bind (mainStep_le hs ..) fun a => mainLoop_le hs pm csiz b a (by omega)
    · exact .refl _
end

theorem tileLoop_le {tp1 tp2 : Int → Outcome BoxResult} (hs : ∀ i, Le (tp1 i) (tp2 i)) (b) :
    ∀ {f g : Nat} (s), f ≤ g → Le (tileLoop tp1 b f s) (tileLoop tp2 b g s)
  | 0, _, _, _ => .inl rfl
  | f + 1, 0, _, h => by omega
  | f + 1, g + 1, s, h => by
    unfold tileLoop
    split
    · simp only
      split
      · refine .bind (hs _) fun r => .bind (.refl _) fun _ => .bind (.refl _) fun _ => ?_
        split
        · split
          · exact tileLoop_le hs b _ (by omega)
          · exact .refl _
        · exact .refl _
      · exact .refl _
    · exact .refl _

theorem tilePart_le (env : Env) (o : Options) {f g : Nat} (h : f ≤ g) (csiz start b) :
    Le (tilePart env o f csiz start b) (tilePart env o g csiz start b) :=
  .bind (tpLoop_le (fun _ _ _ => validateLeaf_le env o h ..) _ _ _ _ h) fun _ => .refl _

theorem codestream_le (env : Env) (o : Options) {f g : Nat} (h : f ≤ g) (b) :
    Le (codestream env o f b) (codestream env o g b) := by
  unfold codestream
  simp only
  split
  · refine .bind (validateLeaf_le env o h ..) fun _ => .bind (.refl _) fun _ =>
      .bind (mainLoop_le (fun _ _ _ => validateLeaf_le env o h ..) _ _ _ _ h) fun _ =>
      .bind (.refl _) fun _ => .bind (.refl _) fun _ =>
      .bind (tileLoop_le (fun _ => tilePart_le env o h ..) _ _ h) fun _ => .refl _
  · exact .refl _

theorem boxLoop_le {sub1 sub2 : Bytes → Bytes → Outcome BoxResult}
    (hs : ∀ t c, Le (sub1 t c) (sub2 t c)) (b) : ∀ {f g : Nat} (i l n ts), f ≤ g →
    Le (boxLoop sub1 b f i l n ts) (boxLoop sub2 b g i l n ts)
  | 0, _, _, _, _, _, _ => .inl rfl
  | f + 1, 0, _, _, _, _, h => by omega
  | f + 1, g + 1, i, l, n, ts, h => by
    unfold boxLoop
    split
    · exact .bind (hs ..) fun r => boxLoop_le hs b _ _ _ _ (by omega)
    · exact .refl _

theorem walkBoxes_le {sub1 sub2 : Bytes → Bytes → Outcome BoxResult}
    (hs : ∀ t c, Le (sub1 t c) (sub2 t c)) (b) {f g : Nat} (h : f ≤ g) :
    Le (walkBoxes sub1 b f) (walkBoxes sub2 b g) := boxLoop_le hs b _ _ _ _ h

theorem validateBox_le (env : Env) (o : Options) : ∀ {f g : Nat}, f ≤ g → ∀ t c,
    Le (validateBox env o f t c) (validateBox env o g t c)
  | 0, _, _, _, _ => .inl rfl
  | f + 1, 0, h, _, _ => by omega
  | f + 1, g + 1, h, t, c => by
    have hs := fun t c => validateBox_le env o (f := f) (g := g) (by omega) t c
    unfold validateBox
    cases boxTypeOf t
    case jp2HeaderBox => exact .bind (walkBoxes_le hs c (by omega)) fun _ => .refl _
    case resolutionBox => exact .bind (walkBoxes_le hs c (by omega)) fun _ => .refl _
    case uuidInfoBox => exact .bind (walkBoxes_le hs c (by omega)) fun _ => .refl _
    case contiguousCodestreamBox => exact .bind (codestream_le env o (by omega) c) fun _ => .refl _
    case tilePart => exact .refl _
    all_goals exact validateLeaf_le env o (by omega) ..

theorem validateJP2_le (env : Env) (o : Options) {f g : Nat} (h : f ≤ g) (b) :
    Le (validateJP2 env o f b) (validateJP2 env o g b) :=
  .bind (walkBoxes_le (validateBox_le env o h) b h) fun _ => .refl _

theorem validateRoot_le (env : Env) (o : Options) {f g : Nat} (h : f ≤ g) (b) :
    Le (validateRoot env o f b) (validateRoot env o g b) := by
  unfold validateRoot
  split
  · exact validateJP2_le env o h b
  · exact validateJP2_le env o h b
  · exact codestream_le env o h b
  · exact codestream_le env o h b
  · exact .refl _

end Jpy
