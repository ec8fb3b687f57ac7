import Verif.Model.ByteConv
import Verif.Spec.Boxes
/-! # The UTF-8 decoder, and stripping of trailing NULs -/

namespace Jpy
open Spec

theorem toNat_ofNat {n : Nat} (h : n.isValidChar) : (Char.ofNat n).toNat = n := by
  rw [Char.ofNat, dif_pos h]
  show (Char.ofNatAux n h).val.toNat = n
  unfold Char.ofNatAux
  simp [UInt32.toNat]

theorem ofNat_toNat (c : Char) : Char.ofNat c.toNat = c := Char.ofNat_toNat c

theorem isCont_iff (b : UInt8) : isCont b = true ↔ 0x80 ≤ b.toNat ∧ b.toNat < 0xC0 := by
  simp [isCont]

theorem char_valid (c : Char) : c.toNat < 0xD800 ∨ (0xDFFF < c.toNat ∧ c.toNat < 0x110000) := c.valid

theorem utf8Of_ofNat {v : Nat} (h : v < 0xD800 ∨ (0xDFFF < v ∧ v < 0x110000)) :
    utf8Of (Char.ofNat v) =
      if v < 0x80 then [v]
      else if v < 0x800 then [0xC0 + v / 64, 0x80 + v % 64]
      else if v < 0x10000 then [0xE0 + v / 4096, 0x80 + v / 64 % 64, 0x80 + v % 64]
      else [0xF0 + v / 262144, 0x80 + v / 4096 % 64, 0x80 + v / 64 % 64, 0x80 + v % 64] := by
  unfold utf8Of
  rw [toNat_ofNat h]

theorem utf8Decode_sound (n : Nat) : ∀ (b : Bytes) (cs : List Char), b.length ≤ n →
    utf8Decode b = some cs → IsUtf8 b cs := by
  induction n with
  | zero =>
    intro b cs hb h
    have : b = [] := List.length_eq_zero_iff.1 (by omega)
    subst this
    simp [utf8Decode] at h; subst h; rfl
  | succ n ih =>
    intro b cs hb h
    unfold IsUtf8 at ih ⊢
    cases b with
    | nil => simp [utf8Decode] at h; subst h; rfl
    | cons b0 r0 =>
      unfold utf8Decode at h
      split at h
      · rename_i h0
        obtain ⟨cs', h1, rfl⟩ := Option.map_eq_some_iff.1 h
        simp only [List.map_cons, List.flatMap_cons, ih r0 cs' (by simp at hb; omega) h1]
        rw [utf8Of_ofNat (.inl (by omega)), if_pos h0]
        rfl
      cases r0 with
      | nil => cases h
      | cons b1 r1 =>
      simp only at h
      split at h
      · rename_i h0
        split at h
        · rename_i hc
          rw [isCont_iff] at hc
          obtain ⟨cs', h1, rfl⟩ := Option.map_eq_some_iff.1 h
          simp only [List.map_cons, List.flatMap_cons, ih r1 cs' (by simp at hb; omega) h1]
          rw [utf8Of_ofNat (.inl (by omega)), if_neg (by omega), if_pos (by omega)]
          simp only [List.cons_append, List.nil_append, List.cons.injEq, and_true]
          omega
        · cases h
      cases r1 with
      | nil => cases h
      | cons b2 r2 =>
      simp only at h
      split at h
      · rename_i h0
        split at h
        · rename_i hc
          simp only [Bool.and_eq_true, isCont_iff, Bool.or_eq_true, bne_iff_ne, decide_eq_true_eq] at hc
          obtain ⟨cs', h1, rfl⟩ := Option.map_eq_some_iff.1 h
          simp only [List.map_cons, List.flatMap_cons, ih r2 cs' (by simp at hb; omega) h1]
          rw [utf8Of_ofNat (by omega), if_neg (by omega), if_neg (by omega), if_pos (by omega)]
          simp only [List.cons_append, List.nil_append, List.cons.injEq, and_true]
          omega
        · cases h
      cases r2 with
      | nil => cases h
      | cons b3 r3 =>
      simp only at h
      split at h
      · rename_i h0
        split at h
        · rename_i hc
          simp only [Bool.and_eq_true, isCont_iff, Bool.or_eq_true, bne_iff_ne, decide_eq_true_eq] at hc
          obtain ⟨cs', h1, rfl⟩ := Option.map_eq_some_iff.1 h
          simp only [List.map_cons, List.flatMap_cons, ih r3 cs' (by simp at hb; omega) h1]
          rw [utf8Of_ofNat (by omega), if_neg (by omega), if_neg (by omega), if_neg (by omega)]
          simp only [List.cons_append, List.nil_append, List.cons.injEq, and_true]
          omega
        · cases h
      · cases h

theorem utf8Decode_complete : ∀ (cs : List Char) (b : Bytes), IsUtf8 b cs → utf8Decode b = some cs := by
  intro cs
  induction cs with
  | nil =>
    intro b h
    unfold IsUtf8 at h
    have : b = [] := by simpa using h
    subst this; simp [utf8Decode]
  | cons ch cs ih =>
    intro b h
    unfold IsUtf8 at h ih
    rw [List.flatMap_cons] at h
    have hv := char_valid ch
    unfold utf8Of at h
    generalize hn : ch.toNat = v at h hv
    have hch : Char.ofNat v = ch := by rw [← hn]; exact ofNat_toNat ch
    simp only at h
    split at h
    · simp only [List.cons_append, List.nil_append] at h
      obtain ⟨b0, r0, rfl, h0, hr⟩ := List.map_eq_cons_iff.1 h
      unfold utf8Decode
      rw [if_pos (by omega), ih r0 hr, h0, hch]; rfl
    split at h
    · simp only [List.cons_append, List.nil_append] at h
      obtain ⟨b0, r0, rfl, h0, hr⟩ := List.map_eq_cons_iff.1 h
      obtain ⟨b1, r1, rfl, h1, hr⟩ := List.map_eq_cons_iff.1 hr
      unfold utf8Decode
      rw [if_neg (by omega)]
      simp only
      rw [if_pos (by omega), if_pos ((isCont_iff _).2 (by omega)), ih r1 hr]
      have : (b0.toNat - 0xC0) * 64 + (b1.toNat - 0x80) = v := by omega
      rw [this, hch]; rfl
    split at h
    · simp only [List.cons_append, List.nil_append] at h
      obtain ⟨b0, r0, rfl, h0, hr⟩ := List.map_eq_cons_iff.1 h
      obtain ⟨b1, r1, rfl, h1, hr⟩ := List.map_eq_cons_iff.1 hr
      obtain ⟨b2, r2, rfl, h2, hr⟩ := List.map_eq_cons_iff.1 hr
      unfold utf8Decode
      rw [if_neg (by omega)]
      simp only
      rw [if_neg (by omega), if_pos (by omega), if_pos, ih r2 hr]
      · have : (b0.toNat - 0xE0) * 4096 + (b1.toNat - 0x80) * 64 + (b2.toNat - 0x80) = v := by omega
        rw [this, hch]; rfl
      · simp only [Bool.and_eq_true, isCont_iff, Bool.or_eq_true, bne_iff_ne, decide_eq_true_eq]
        omega
    · simp only [List.cons_append, List.nil_append] at h
      obtain ⟨b0, r0, rfl, h0, hr⟩ := List.map_eq_cons_iff.1 h
      obtain ⟨b1, r1, rfl, h1, hr⟩ := List.map_eq_cons_iff.1 hr
      obtain ⟨b2, r2, rfl, h2, hr⟩ := List.map_eq_cons_iff.1 hr
      obtain ⟨b3, r3, rfl, h3, hr⟩ := List.map_eq_cons_iff.1 hr
      unfold utf8Decode
      rw [if_neg (by omega)]
      simp only
      rw [if_neg (by omega), if_neg (by omega), if_pos (by omega), if_pos, ih r3 hr]
      · have : (b0.toNat - 0xF0) * 262144 + (b1.toNat - 0x80) * 4096 + (b2.toNat - 0x80) * 64
            + (b3.toNat - 0x80) = v := by omega
        rw [this, hch]; rfl
      · simp only [Bool.and_eq_true, isCont_iff, Bool.or_eq_true, bne_iff_ne, decide_eq_true_eq]
        omega

/-- The decoder accepts exactly the UTF-8 encodings, and returns the encoded text. -/
theorem utf8Decode_iff (b : Bytes) (cs : List Char) : utf8Decode b = some cs ↔ IsUtf8 b cs :=
  ⟨utf8Decode_sound b.length b cs (Nat.le_refl _), utf8Decode_complete cs b⟩

theorem removeNullTerminator_append (s : Bytes) (n : Nat) (h : s.getLast? ≠ some 0) :
    removeNullTerminator (s ++ List.replicate n 0) = s := by
  unfold removeNullTerminator
  rw [List.reverse_append, List.reverse_replicate]
  have h1 : ∀ (l : Bytes), (List.replicate n (0 : UInt8) ++ l).dropWhile (· == 0) =
      l.dropWhile (· == 0) := by
    intro l
    induction n with
    | zero => rfl
    | succ n ih => simp
  rw [h1]
  have h2 : s.reverse.dropWhile (· == 0) = s.reverse := by
    cases hr : s.reverse with
    | nil => rfl
    | cons x l =>
      have : s.getLast? = some x := by
        rw [← List.reverse_reverse s, hr]; simp
      rw [this] at h
      have hx : (x == 0) = false := by simpa using h
      simp [hx]
  rw [h2, List.reverse_reverse]

theorem strip_decomp (l : Bytes) : ∃ n, l = removeNullTerminator l ++ List.replicate n 0 ∧
    (removeNullTerminator l).getLast? ≠ some 0 := by
  unfold removeNullTerminator
  suffices h : ∀ r : Bytes, ∃ n, r = List.replicate n 0 ++ r.dropWhile (· == 0) ∧
      (r.dropWhile (· == 0)).head? ≠ some 0 by
    obtain ⟨n, h1, h2⟩ := h l.reverse
    refine ⟨n, ?_, by simpa using h2⟩
    have := congrArg List.reverse h1
    rwa [List.reverse_reverse, List.reverse_append, List.reverse_replicate] at this
  intro r
  induction r with
  | nil => exact ⟨0, rfl, by simp⟩
  | cons x r ih =>
    by_cases hx : x = 0
    · subst hx
      obtain ⟨n, h1, h2⟩ := ih
      refine ⟨n + 1, ?_, by simpa using h2⟩
      rw [List.replicate_succ, List.cons_append]
      simpa using h1
    · have : (x == 0) = false := by simpa using hx
      refine ⟨0, by simp [this], by simp [this, hx]⟩

end Jpy
