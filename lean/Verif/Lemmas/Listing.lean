import Verif.Lemmas.Walk
/-! # Listing the boxes of a concrete file

For examples: a list of the boxes of a file, at all depths, that the kernel can compute. -/

namespace Jpy
open Spec

/-- Boxes with 32-bit lengths from `off`, the last one possibly without a complete length; fails on
anything else. -/
def listBoxes (b : Bytes) : Nat → Nat → Option (List FoundBox)
  | 0, _ => none
  | fuel + 1, off =>
    if b.length ≤ off then some []
    else match uint b off 4 with
      | some L => if 2 ≤ L then
          (listBoxes b fuel (off + L)).map (⟨off, sub b (off + 4) 4, sub b (off + 8) (L - 8)⟩ :: ·)
        else none
      | none => some [⟨off, sub b (off + 4) 4, []⟩]

theorem listBoxes_sound {b : Bytes} : ∀ {fuel off bs}, listBoxes b fuel off = some bs → BoxesFrom b off bs
  | 0, _, _, h => by cases h
  | fuel + 1, off, bs, h => by
    unfold listBoxes at h
    split at h
    · cases h; exact .done ‹_›
    · split at h
      · split at h
        · rename_i hlt _ L hL h2
          obtain ⟨l, hl, rfl⟩ := Option.map_eq_some_iff.1 h
          exact .step (Nat.lt_of_not_le hlt) (.short hL h2) (listBoxes_sound hl)
        · cases h
      · rename_i hlt _ hn
        cases h; exact .last (Nat.lt_of_not_le hlt) (.noLength hn)

/-- `l` has the boxes of `b` and the boxes in each of its superboxes. -/
def closedUnder (b : Bytes) (l : List (Bytes × Bytes)) : Bool :=
  (match listBoxes b 100 0 with
    | some bs => bs.all fun x => l.contains (x.type, x.payload)
    | none => false) &&
  l.all fun y => !(superboxTypes.contains y.1) ||
    match listBoxes y.2 100 0 with
    | some bs => bs.all fun x => l.contains (x.type, x.payload)
    | none => false

theorem closedUnder_mem {b : Bytes} {l} (h : closedUnder b l = true) {d t p} (hb : HasBox b d t p) : (t, p) ∈ l := by
  unfold closedUnder at h
  rw [Bool.and_eq_true] at h
  have step : ∀ {c : Bytes} {bs x}, (match listBoxes c 100 0 with
      | some bs => bs.all fun x => l.contains (x.type, x.payload)
      | none => false) = true → Boxes c bs → x ∈ bs → (x.type, x.payload) ∈ l := by
    intro c bs x h hb hx
    split at h
    · rename_i bs' hl
      rw [boxes_unique hb (listBoxes_sound hl)] at hx
      exact List.contains_iff_mem.1 (List.all_eq_true.1 h x hx)
    · cases h
  induction hb with
  | top hb hx => exact step h.1 hb hx
  | inside _ ht hb hx ih =>
    have := List.all_eq_true.1 h.2 _ ih
    rw [Bool.or_eq_true] at this
    rcases this with this | this
    · rw [List.contains_iff_mem.2 ht] at this; cases this
    · exact step this hb hx

/-- The boxes of a file and of the superboxes among them, to the given depth. -/
def deepBoxes : Nat → Bytes → List (Bytes × Bytes)
  | 0, _ => []
  | d + 1, b =>
    match listBoxes b 100 0 with
    | some bs => bs.flatMap fun x => (x.type, x.payload) ::
        if superboxTypes.contains x.type then deepBoxes d x.payload else []
    | none => []

end Jpy
