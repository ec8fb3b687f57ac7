import Verif.Lemmas.Box
/-! # Lemmas about UUID text -/

set_option linter.unusedSimpArgs false

namespace Jpy
open Spec

theorem hexChar_get : ∀ n < 16, ("0123456789abcdef".toList)[n]? = some (hexChar n) := by decide

theorem hexChar_inj : ∀ m < 16, ∀ n < 16, hexChar m = hexChar n → m = n := by decide

theorem hexChars_nil : hexChars [] = [] := rfl
theorem hexChars_cons (x : UInt8) (b : Bytes) :
    hexChars (x :: b) = hexChar (x.toNat / 16) :: hexChar (x.toNat % 16) :: hexChars b := rfl

theorem hexChars_length (b : Bytes) : (hexChars b).length = 2 * b.length := by
  induction b with
  | nil => rfl
  | cons x b ih => rw [hexChars_cons]; simp [ih]; omega

theorem hexChars_isHexText (b : Bytes) : IsHexText b (hexChars b) := by
  refine ⟨hexChars_length b, ?_⟩
  induction b with
  | nil => simp
  | cons y b ih =>
    intro i x h
    rw [hexChars_cons]
    have hb := y.toNat_lt
    cases i with
    | zero =>
      simp at h; subst h
      exact ⟨by rw [hexChar_get _ (by omega)]; rfl, by rw [hexChar_get _ (by omega)]; rfl⟩
    | succ i =>
      simp only [List.getElem?_cons_succ] at h
      have := ih i x h
      rw [show 2 * (i + 1) = 2 * i + 1 + 1 by omega, show 2 * i + 1 + 1 + 1 = (2 * i + 1) + 1 + 1 by omega]
      simpa using this

theorem hexChars_inj : ∀ (a b : Bytes), hexChars a = hexChars b → a = b
  | [], [], _ => rfl
  | [], y :: b, h => by simp [hexChars_nil, hexChars_cons] at h
  | x :: a, [], h => by simp [hexChars_nil, hexChars_cons] at h
  | x :: a, y :: b, h => by
    simp only [hexChars_cons, List.cons.injEq] at h
    have hx := x.toNat_lt
    have hy := y.toNat_lt
    have h1 := hexChar_inj _ (by omega) _ (by omega) h.1
    have h2 := hexChar_inj _ (by omega) _ (by omega) h.2.1
    rw [hexChars_inj a b h.2.2, UInt8.toNat_inj.1 (show x.toNat = y.toNat by omega)]

/-- The text of a UUID of 16 bytes. -/
def uuidText (b : Bytes) : String :=
  String.ofList (hexChars (b.take 4) ++ '-' :: hexChars ((b.drop 4).take 2)
      ++ '-' :: hexChars ((b.drop 6).take 2) ++ '-' :: hexChars ((b.drop 8).take 2)
      ++ '-' :: hexChars (b.drop 10))

theorem uuidStr_ok {b : Bytes} (h : b.length = 16) : uuidStr b = .ok (uuidText b) := by
  unfold uuidStr; rw [if_pos h]; rfl

theorem uuidStr_raised {b : Bytes} (h : b.length ≠ 16) : uuidStr b = .raised .valueError := by
  unfold uuidStr; rw [if_neg h]

theorem uuidText_isUuidText {b : Bytes} (h : b.length = 16) : IsUuidText b (uuidText b) := by
  refine ⟨_, _, _, _, _, hexChars_isHexText _, hexChars_isHexText _, hexChars_isHexText _,
    hexChars_isHexText _, hexChars_isHexText _, ?_⟩
  unfold uuidText
  have : (b.drop 10).take 6 = b.drop 10 := List.take_of_length_le (by simp [h])
  simp [Spec.sub, this]

theorem uuidText_inj {a b : Bytes} (ha : a.length = 16) (hb : b.length = 16)
    (h : uuidText a = uuidText b) : a = b := by
  unfold uuidText at h
  have h := String.ofList_injective h
  simp only [List.append_assoc, List.cons_append] at h
  have e4 : ∀ (a : Bytes) (m : Nat), a.length = 16 → m ≤ 14 →
      (hexChars ((a.drop m).take 2)).length = 4 := by
    intro a m h1 h2; rw [hexChars_length]; simp [h1]; omega
  obtain ⟨h1, h⟩ := List.append_inj h (by simp [hexChars_length, ha, hb])
  simp only [List.cons.injEq, true_and] at h
  obtain ⟨h2, h⟩ := List.append_inj h (by rw [e4 a 4 ha (by omega), e4 b 4 hb (by omega)])
  simp only [List.cons.injEq, true_and] at h
  obtain ⟨h3, h⟩ := List.append_inj h (by rw [e4 a 6 ha (by omega), e4 b 6 hb (by omega)])
  simp only [List.cons.injEq, true_and] at h
  obtain ⟨h4, h⟩ := List.append_inj h (by rw [e4 a 8 ha (by omega), e4 b 8 hb (by omega)])
  simp only [List.cons.injEq, true_and] at h
  have h1 := hexChars_inj _ _ h1
  have h2 := hexChars_inj _ _ h2
  have h3 := hexChars_inj _ _ h3
  have h4 := hexChars_inj _ _ h4
  have h5 := hexChars_inj _ _ h
  have split : ∀ x : Bytes, x = x.take 4 ++ ((x.drop 4).take 2 ++ ((x.drop 6).take 2 ++
      ((x.drop 8).take 2 ++ x.drop 10))) := by
    intro x
    have e : ∀ m, x.drop m = (x.drop m).take 2 ++ x.drop (m + 2) := by
      intro m
      conv => lhs; rw [← List.take_append_drop 2 (x.drop m)]
      rw [List.drop_drop]
    rw [← e 8, ← e 6, ← e 4, List.take_append_drop]
  rw [split a, split b, h1, h2, h3, h4, h5]

theorem uuidText_xmp : uuidText xmpUuid = "be7acfcb-97a9-42e8-9c71-999491e3afac" := by decide +kernel

theorem uuidText_eq_xmp {b : Bytes} (h : b.length = 16) :
    uuidText b = "be7acfcb-97a9-42e8-9c71-999491e3afac" ↔ b = xmpUuid := by
  rw [← uuidText_xmp]
  exact ⟨fun e => uuidText_inj h rfl e, fun e => by rw [e]⟩

theorem allTrue_xmlSteps (env : Env) (nx : Bool) (d : Bytes) :
    allTrue (xmlSteps env nx d) = (env.parseXml d).isSome := by
  unfold xmlSteps
  cases h : env.parseXml d with
  | some e => simp [allTrue_elem, allTrue_test, allTrue_nil]
  | none =>
    simp only [allTrue_append, allTrue_test, Bool.false_and, Bool.and_false, Option.isSome_none]

/-- The loop over a UUID list. -/
theorem uuidListLoop_ok (c : Bytes) (n off : Nat) (h : off + 16 * n ≤ c.length) :
    uuidListLoop c n off = .ok ((List.range n).map fun i =>
      Step.char "uuid" (.str (uuidText (sub c (off + 16 * i) 16)))) := by
  induction n generalizing off with
  | zero => rfl
  | succ n ih =>
    unfold uuidListLoop
    rw [slice_at c off 16 (y := (off : Int) + 16) rfl rfl, uuidStr_ok (by rw [length_sub]; omega)]
    have := ih (off + 16) (by omega)
    rw [show ((off + 16 : Nat) : Int) = (off : Int) + 16 by omega] at this
    simp only [Outcome.bind_ok]
    rw [this]
    simp only [Outcome.bind_ok, List.range_succ_eq_map, List.map_cons, List.map_map]
    simp [Function.comp_def, Nat.mul_add, Nat.add_assoc, Nat.add_comm, Nat.add_left_comm]

theorem uuidListLoop_raised (c : Bytes) (n off : Nat) (h : c.length < off + 16 * n) (hn : 0 < n) :
    uuidListLoop c n off = .raised .valueError := by
  induction n generalizing off with
  | zero => omega
  | succ n ih =>
    unfold uuidListLoop
    rw [slice_at c off 16 (y := (off : Int) + 16) rfl rfl]
    by_cases hl : off + 16 ≤ c.length
    · rw [uuidStr_ok (by rw [length_sub]; omega)]
      have := ih (off + 16) (by omega) (by omega)
      rw [show ((off + 16 : Nat) : Int) = (off : Int) + 16 by omega] at this
      simp only [Outcome.bind_ok]
      rw [this]; rfl
    · rw [uuidStr_raised (by rw [length_sub]; omega)]; rfl

end Jpy
