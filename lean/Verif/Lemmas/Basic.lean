import Verif.Spec.Basic
import Verif.Lemmas.Rel
/-! # Lemmas about slices, fields and verdicts -/

namespace Jpy
open Spec

theorem beNat_go (b : Bytes) (acc : Nat) :
    b.foldl (fun acc x => acc * 256 + x.toNat) acc = acc * 256 ^ b.length + be b := by
  induction b generalizing acc with
  | nil => simp [be]
  | cons x xs ih =>
    rw [List.foldl_cons, ih, be, List.length_cons, Nat.pow_succ, Nat.add_mul, Nat.mul_assoc,
      Nat.mul_comm 256, Nat.add_assoc]

theorem beNat_eq (b : Bytes) : beNat b = be b := by
  rw [beNat, beNat_go]; simp

theorem be_lt (b : Bytes) : be b < 256 ^ b.length := by
  induction b with
  | nil => simp [be]
  | cons x xs ih =>
    rw [be, List.length_cons, Nat.pow_succ]
    have : x.toNat < 256 := x.toNat_lt
    calc x.toNat * 256 ^ xs.length + be xs
        < x.toNat * 256 ^ xs.length + 256 ^ xs.length := by omega
      _ = (x.toNat + 1) * 256 ^ xs.length := by rw [Nat.add_mul, Nat.one_mul]
      _ ≤ 256 * 256 ^ xs.length := Nat.mul_le_mul_right _ (by omega)
      _ = 256 ^ xs.length * 256 := Nat.mul_comm _ _

theorem sliceIdx_nat (len i : Nat) : sliceIdx len (i : Int) = min i len := by
  unfold sliceIdx; split
  · omega
  · simp

theorem slice_nat (b : Bytes) (i j : Nat) : slice b (i : Int) (j : Int) = sub b i (j - i) := by
  unfold slice Spec.sub
  rw [sliceIdx_nat, sliceIdx_nat]
  by_cases h : i ≤ b.length
  · rw [Nat.min_eq_left h]
    by_cases hj : j ≤ b.length
    · rw [Nat.min_eq_left hj]
    · rw [Nat.min_eq_right (by omega), List.take_of_length_le, List.take_of_length_le]
      · simp; omega
      · simp
  · rw [List.drop_of_length_le (by omega), List.drop_of_length_le (by omega)]; simp

/-- A slice with non-negative bounds. -/
theorem slice_eq (b : Bytes) {i j : Int} (hi : 0 ≤ i) (hj : 0 ≤ j) :
    slice b i j = sub b i.toNat (j.toNat - i.toNat) := by
  obtain ⟨i, rfl⟩ := Int.eq_ofNat_of_zero_le hi
  obtain ⟨j, rfl⟩ := Int.eq_ofNat_of_zero_le hj
  exact slice_nat b i j

theorem length_sub (b : Bytes) (off n : Nat) : (sub b off n).length = min n (b.length - off) := by
  simp [Spec.sub]

theorem doConv_eq (n : Nat) (b : Bytes) (off : Nat) (hn : 0 < n) :
    doConv n (sub b off n) = match uint b off n with
      | some v => (v : Int)
      | none => -9999 := by
  unfold doConv uint
  rw [length_sub]
  by_cases h : off + n ≤ b.length
  · rw [if_pos (by omega), if_pos h, beNat_eq]
  · rw [if_neg (by omega), if_neg h]

/-- Value of an optional field as the code sees it. -/
def intOf : Option Nat → Int
  | some v => (v : Int)
  | none => -9999

theorem uint_lt {b : Bytes} {off n v : Nat} (h : uint b off n = some v) : v < 256 ^ n := by
  unfold uint at h
  split at h
  · rename_i hl
    cases h
    have := be_lt (sub b off n)
    rwa [length_sub, Nat.min_eq_left (by omega)] at this
  · cases h

theorem doConv_slice (n : Nat) (b : Bytes) {i j : Int} (hi : 0 ≤ i) (hj : j = i + n) (hn : 0 < n) :
    doConv n (slice b i j) = intOf (uint b i.toNat n) := by
  subst hj
  rw [slice_eq b hi (by omega)]
  have : (i + (n : Int)).toNat - i.toNat = n := by omega
  rw [this, doConv_eq n b _ hn]
  cases uint b i.toNat n <;> rfl

theorem u8_slice (b : Bytes) {i j : Int} (hi : 0 ≤ i) (hj : j = i + 1) :
    bytesToUnsignedChar (slice b i j) = intOf (uint b i.toNat 1) := doConv_slice 1 b hi hj (by omega)
theorem u16_slice (b : Bytes) {i j : Int} (hi : 0 ≤ i) (hj : j = i + 2) :
    bytesToUShortInt (slice b i j) = intOf (uint b i.toNat 2) := doConv_slice 2 b hi hj (by omega)
theorem u32_slice (b : Bytes) {i j : Int} (hi : 0 ≤ i) (hj : j = i + 4) :
    bytesToUInt (slice b i j) = intOf (uint b i.toNat 4) := doConv_slice 4 b hi hj (by omega)
theorem u64_slice (b : Bytes) {i j : Int} (hi : 0 ≤ i) (hj : j = i + 8) :
    bytesToULongLong (slice b i j) = intOf (uint b i.toNat 8) := doConv_slice 8 b hi hj (by omega)

/-! ## Verdicts -/

theorem within_mk {d : Elem} {t a x cs} :
    Within d (.mk t a x cs l) ↔ d = .mk t a x cs l ∨ ∃ c ∈ cs, Within d c := by
  constructor
  · intro h
    cases h with
    | self => exact .inl rfl
    | child hc hw => exact .inr ⟨_, hc, hw⟩
  · rintro (h | ⟨c, hc, hw⟩)
    · subst h; exact .self _
    · exact .child (by exact hc) hw

mutual
theorem mem_iter (d : Elem) : ∀ e : Elem, d ∈ e.iter ↔ Within d e
  | .mk t a x cs l => by rw [Elem.iter, List.mem_cons, within_mk, mem_iterL d cs]
theorem mem_iterL (d : Elem) : ∀ cs : List Elem, d ∈ Elem.iterL cs ↔ ∃ c ∈ cs, Within d c
  | [] => by simp [Elem.iterL]
  | e :: es => by
    rw [Elem.iterL, List.mem_append, mem_iterL d es, mem_iter d e]; simp
end

theorem isValid_iff (n : Node) : n.isValid = true ↔ NoFailure n.tests := by
  simp only [Node.isValid, List.all_eq_true, mem_iterL, decide_eq_true_eq, NoFailure]
  constructor
  · intro h e he d hd; exact h d ⟨e, he, hd⟩
  · rintro h d ⟨e, he, hd⟩; exact h e he d hd

theorem iterL_append (a b : List Elem) : Elem.iterL (a ++ b) = Elem.iterL a ++ Elem.iterL b := by
  induction a with
  | nil => simp [Elem.iterL]
  | cons e es ih => simp [Elem.iterL, ih]

theorem isValid_empty : ({} : Node).isValid = true := rfl

theorem isValid_testFor (v n name r) :
    (Node.testFor v n name r).isValid = (n.isValid && r) := by
  unfold Node.isValid
  rw [testFor_tests, iterL_append, List.all_append]
  cases v <;> cases r <;> simp [testElems, Elem.iterL, Elem.iter, Elem.leaf]

theorem isValid_testIf (v n c name r) :
    (Node.testIf v n c name r).isValid = (n.isValid && (!c || r)) := by
  unfold Node.testIf
  split
  · rename_i h; rw [isValid_testFor, h]; simp
  · rename_i h; simp at h; simp [h]

theorem isValid_addChar (n name v) : (Node.addChar n name v).isValid = n.isValid := rfl

theorem appendIfNotEmpty_node (cs : List Elem) (t : String) (es : List Elem) :
    Elem.appendIfNotEmpty cs (.node t es) = if es = [] then cs else cs ++ [.node t es] := by
  unfold Elem.appendIfNotEmpty
  cases es with
  | nil => rfl
  | cons e es => rfl

theorem isValid_absorb (n : Node) (r : BoxResult) :
    (n.absorb r).isValid = (n.isValid && r.node.isValid) := by
  unfold Node.absorb Node.isValid
  simp only [BoxResult.testsElem, appendIfNotEmpty_node]
  split
  · rename_i h; simp [h, Elem.iterL]
  · rw [iterL_append, List.all_append]; simp [Elem.iterL, Elem.iter, Elem.node]

theorem isValid_absorbPacket (pm : Bool) (n : Node) (r : BoxResult) :
    (n.absorbPacket pm r).isValid = (n.isValid && r.node.isValid) := by
  unfold Node.absorbPacket
  split
  · exact isValid_absorb n r
  · rw [← isValid_absorb]; rfl

theorem isValid_testElems (v : Bool) (ts : List (String × Bool)) :
    (Elem.iterL (testElems v ts)).all (fun e => decide (e.text ≠ .bool false)) =
      ts.all (·.2) := by
  induction ts with
  | nil => simp [testElems, Elem.iterL]
  | cons t ts ih =>
    rw [testElems_cons, iterL_append, List.all_append, ih]
    obtain ⟨name, r⟩ := t
    cases v <;> cases r <;> simp [testElems, Elem.iterL, Elem.iter, Elem.leaf]

/-- A leaf is valid when all its tests are true. -/
theorem isValid_run (v : Bool) (ss : List Step) :
    (Node.run v {} ss).isValid = (testsOf ss).all (·.2) := by
  unfold Node.isValid
  rw [run_tests]
  simpa using isValid_testElems v (testsOf ss)

end Jpy
