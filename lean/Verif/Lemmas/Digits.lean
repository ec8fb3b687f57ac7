import Verif.Spec.Digits
import Verif.Lemmas.Named
import Verif.Props.SegmentValues
import Verif.Lemmas.Endless
/-! # The size of the integers in a report -/

namespace Jpy
open Spec

set_option exponentiation.threshold 2000

/-- An integer with more than `d` digits. -/
def BigV (d : Nat) (v : PyVal) : Prop := ∃ i, v = .int i ∧ 10 ^ d ≤ i.natAbs

/-- Some element of these trees has an integer with more than `d` digits. -/
def BigL (d : Nat) (es : List Elem) : Prop := ∃ x ∈ Elem.iterL es, BigV d x.text

theorem bigL_nil {d} : ¬ BigL d [] := by
  rintro ⟨x, hx, -⟩
  cases hx

theorem bigL_iff {d es} : BigL d es ↔ ∃ e ∈ es, ∃ x ∈ e.iter, BigV d x.text := by
  unfold BigL
  constructor
  · rintro ⟨x, hx, h⟩
    obtain ⟨e, he, hx⟩ := mem_iter_list.1 hx
    exact ⟨e, he, x, hx, h⟩
  · rintro ⟨e, he, x, hx, h⟩
    exact ⟨x, mem_iter_list.2 ⟨e, he, hx⟩, h⟩

theorem bigL_append {d a b} : BigL d (a ++ b) ↔ BigL d a ∨ BigL d b := by
  simp only [bigL_iff, List.mem_append]
  constructor
  · rintro ⟨e, he | he, h⟩
    · exact .inl ⟨e, he, h⟩
    · exact .inr ⟨e, he, h⟩
  · rintro (⟨e, he, h⟩ | ⟨e, he, h⟩)
    · exact ⟨e, .inl he, h⟩
    · exact ⟨e, .inr he, h⟩

theorem bigL_one {d t a v c l} : BigL d [.mk t a v c l] ↔ BigV d v ∨ BigL d c := by
  rw [bigL_iff]
  constructor
  · rintro ⟨e, he, x, hx, h⟩
    cases List.mem_singleton.1 he
    rw [Elem.iter] at hx
    rcases List.mem_cons.1 hx with rfl | hx
    · exact .inl h
    · exact .inr ⟨x, hx, h⟩
  · rintro (h | ⟨x, hx, h⟩)
    · exact ⟨_, List.mem_singleton.2 rfl, .mk t a v c l, by rw [Elem.iter]; exact List.mem_cons_self .., h⟩
    · exact ⟨_, List.mem_singleton.2 rfl, x, by rw [Elem.iter]; exact List.mem_cons_of_mem _ hx, h⟩

theorem bigL_leaf {d t v} : BigL d [.leaf t v] ↔ BigV d v := by
  show BigL d [.mk t [] v []] ↔ _
  rw [bigL_one]
  exact ⟨fun h => h.resolve_right bigL_nil, .inl⟩

theorem bigL_node {d t c} : BigL d [.node t c] ↔ BigL d c := by
  show BigL d [.mk t [] .none c] ↔ _
  rw [bigL_one]
  refine ⟨fun h => h.resolve_left ?_, .inr⟩
  rintro ⟨i, h, -⟩
  cases h

theorem bigL_cons {d e es} : BigL d (e :: es) ↔ BigL d [e] ∨ BigL d es := by
  rw [show e :: es = [e] ++ es from rfl, bigL_append]

/-! ## Small integers -/

/-- Not an integer, or one below 2^1024. -/
def Small : PyVal → Prop
  | .int i => i.natAbs < 2 ^ 1024
  | _ => True

theorem small_pow {d : Nat} (h : 640 ≤ d) : 2 ^ 1024 ≤ 10 ^ d :=
  Nat.le_trans (by decide +kernel : 2 ^ 1024 ≤ 10 ^ 640) (Nat.pow_le_pow_right (by decide) h)

theorem small_notBig {d v} (hd : 640 ≤ d) (h : Small v) : ¬ BigV d v := by
  rintro ⟨i, rfl, hi⟩
  have := small_pow hd
  simp only [Small] at h
  omega

/-- Every integer that a statement adds is small. -/
def StepSmall : Step → Prop
  | .char _ v => Small v
  | .elem e => ∀ x ∈ e.iter, Small x.text
  | _ => True

/-- The same for all statements of a list. -/
def Smalls (ss : List Step) : Prop := ∀ s ∈ ss, StepSmall s

theorem smalls_nil : Smalls [] := fun _ h => nomatch h
theorem smalls_cons {s ss} (h : StepSmall s) (hs : Smalls ss) : Smalls (s :: ss) := by
  intro x hx
  rcases List.mem_cons.1 hx with rfl | hx
  · exact h
  · exact hs x hx
theorem smalls_append {a b} (ha : Smalls a) (hb : Smalls b) : Smalls (a ++ b) := by
  intro x hx
  rcases List.mem_append.1 hx with hx | hx
  · exact ha x hx
  · exact hb x hx
theorem smalls_flatMap {α} {l : List α} {f : α → List Step} (h : ∀ x, Smalls (f x)) : Smalls (l.flatMap f) := by
  intro x hx
  obtain ⟨a, -, hx⟩ := List.mem_flatMap.1 hx
  exact h a x hx
theorem smalls_map {α} {l : List α} {f : α → Step} (h : ∀ x ∈ l, StepSmall (f x)) : Smalls (l.map f) := by
  intro x hx
  obtain ⟨a, ha, rfl⟩ := List.mem_map.1 hx
  exact h a ha
theorem smalls_test {n r ss} (hs : Smalls ss) : Smalls (.test n r :: ss) := smalls_cons trivial hs
theorem smalls_warn {n ss} (hs : Smalls ss) : Smalls (.warn n :: ss) := smalls_cons trivial hs
theorem smalls_char {n v ss} (h : Small v) (hs : Smalls ss) : Smalls (.char n v :: ss) := smalls_cons h hs
theorem stepSmall_char {n v} (h : Small v) : StepSmall (.char n v) := h
theorem stepSmall_test {n r} : StepSmall (.test n r) := trivial

theorem charsOf_small {d} (hd : 640 ≤ d) : ∀ {ss : List Step}, Smalls ss → ¬ BigL d (charsOf ss)
  | [], _ => bigL_nil
  | .char n v :: ss, h => by
    rw [charsOf, bigL_cons, bigL_leaf]
    rintro (hb | hb)
    · exact small_notBig hd (h (.char n v) (List.mem_cons_self ..)) hb
    · exact charsOf_small hd (fun s hs => h s (List.mem_cons_of_mem _ hs)) hb
  | .elem e :: ss, h => by
    rw [charsOf, bigL_cons]
    rintro (hb | hb)
    · obtain ⟨e', he, x, hx, hb⟩ := bigL_iff.1 hb
      cases List.mem_singleton.1 he
      exact small_notBig hd (h (.elem e) (List.mem_cons_self ..) x hx) hb
    · exact charsOf_small hd (fun s hs => h s (List.mem_cons_of_mem _ hs)) hb
  | .test _ _ :: ss, h => charsOf_small (ss := ss) hd (fun s hs => h s (List.mem_cons_of_mem _ hs))
  | .warn _ :: ss, h => charsOf_small (ss := ss) hd (fun s hs => h s (List.mem_cons_of_mem _ hs))

/-! ## The values -/

theorem beNat_lt : ∀ b : Bytes, beNat b < 256 ^ b.length := by
  have key : ∀ (b : Bytes) (a : Nat), b.foldl (fun acc x => acc * 256 + x.toNat) a < (a + 1) * 256 ^ b.length := by
    intro b
    induction b with
    | nil => intro a; simp
    | cons x b ih =>
      intro a
      rw [List.foldl_cons, List.length_cons, Nat.pow_succ]
      have hx := x.toNat_lt
      refine Nat.lt_of_lt_of_le (ih _) ?_
      rw [Nat.mul_comm (256 ^ b.length) 256, ← Nat.mul_assoc]
      refine Nat.mul_le_mul_right _ ?_
      omega
  intro b
  have := key b 0
  rw [Nat.zero_add, Nat.one_mul] at this
  exact this

/-- A number of this many bits, or a small constant. -/
theorem doConv_lt (w : Nat) (b : Bytes) : (doConv w b).natAbs < 256 ^ w + 10000 := by
  unfold doConv
  split
  · have := beNat_lt b
    rw [‹b.length = w›] at this
    omega
  · have : 0 < 256 ^ w := Nat.pow_pos (by decide)
    omega

theorem big_lit : (2 : Nat) ^ 128 ≤ 2 ^ 1024 := Nat.pow_le_pow_right (by decide) (by decide)

theorem small_of {i : Int} (h : i.natAbs < 2 ^ 128) : Small (.int i) := Nat.lt_of_lt_of_le h big_lit

theorem u8_lt (b) : (bytesToUnsignedChar b).natAbs < 2 ^ 16 := Nat.lt_of_lt_of_le (doConv_lt 1 b) (by decide)
theorem u16_lt (b) : (bytesToUShortInt b).natAbs < 2 ^ 17 := Nat.lt_of_lt_of_le (doConv_lt 2 b) (by decide)
theorem u32_lt (b) : (bytesToUInt b).natAbs < 2 ^ 33 := Nat.lt_of_lt_of_le (doConv_lt 4 b) (by decide)
theorem s8_lt (b) : (bytesToSignedChar b).natAbs < 2 ^ 16 := by
  unfold bytesToSignedChar
  split
  · rename_i x
    have := x.toNat_lt
    split <;> omega
  · decide

theorem low_lt (x : Int) (k : Nat) : (low x k).natAbs < 2 ^ k := by
  unfold low
  have hp : (0 : Int) < 2 ^ k := Int.pow_pos (by decide)
  have h1 := Int.emod_nonneg x (Int.ne_of_gt hp)
  have h2 := Int.emod_lt_of_pos x hp
  have : ((2 ^ k : Nat) : Int) = (2 : Int) ^ k := by simp
  omega

theorem small_u8 {b} : Small (.int (bytesToUnsignedChar b)) := small_of (Nat.lt_of_lt_of_le (u8_lt b) (by decide))
theorem small_u16 {b} : Small (.int (bytesToUShortInt b)) := small_of (Nat.lt_of_lt_of_le (u16_lt b) (by decide))
theorem small_u32 {b} : Small (.int (bytesToUInt b)) := small_of (Nat.lt_of_lt_of_le (u32_lt b) (by decide))
theorem small_s8 {b} : Small (.int (bytesToSignedChar b)) := small_of (Nat.lt_of_lt_of_le (s8_lt b) (by decide))
theorem small_low {x k} (h : k ≤ 128 := by decide) : Small (.int (low x k)) :=
  small_of (Nat.lt_of_lt_of_le (low_lt x k) (Nat.pow_le_pow_right (by decide) h))
theorem small_bit {x p w} : Small (.int (getBitValue x p w)) := small_low
theorem small_bytes {b} : Small (.bytes b) := trivial
theorem small_str {s} : Small (.str s) := trivial
theorem small_flt {f} : Small (.flt f) := trivial

theorem small_low1 {x k} (h : k ≤ 127 := by decide) : Small (.int (low x k + 1)) := by
  have h1 := low_lt x k
  have h2 : 2 ^ k ≤ 2 ^ 127 := Nat.pow_le_pow_right (by decide) h
  refine small_of (Nat.lt_of_le_of_lt (Int.natAbs_add_le _ _) ?_)
  have : (2 : Nat) ^ 127 + 1 < 2 ^ 128 := by decide
  simp only [Int.natAbs_one]
  omega

theorem small_mask {x k w} (h : w + k ≤ 128 := by decide) : Small (.int (maskAt x k w)) := by
  unfold maskAt
  refine small_of ?_
  rw [Int.natAbs_mul]
  have h1 := low_lt (shr x k) w
  have h2 : ((2 : Int) ^ k).natAbs = 2 ^ k := by rw [Int.natAbs_pow]; rfl
  rw [h2]
  calc _ < 2 ^ w * 2 ^ k := Nat.mul_lt_mul_of_pos_right h1 (Nat.pow_pos (by decide))
    _ = 2 ^ (w + k) := (Nat.pow_add ..).symm
    _ ≤ _ := Nat.pow_le_pow_right (by decide) h

theorem small_pow2 {b : Bytes} : Small (pow2 (bytesToUnsignedChar b + 2)) := by
  unfold pow2
  split
  · show ((2 : Int) ^ _).natAbs < _
    rw [Int.natAbs_pow]
    show 2 ^ _ < 2 ^ 1024
    refine Nat.pow_lt_pow_right (by decide) ?_
    have : (bytesToUnsignedChar b).natAbs < 256 ∨ bytesToUnsignedChar b = -9999 := by
      unfold bytesToUnsignedChar doConv
      split
      · left
        have := beNat_lt b
        rw [‹b.length = 1›] at this
        omega
      · exact .inr rfl
    omega
  · trivial

theorem small_precinct {x : Int} : Small (.int (2 ^ (low x 4).toNat)) := by
  show ((2 : Int) ^ _).natAbs < _
  rw [Int.natAbs_pow]
  show 2 ^ _ < 2 ^ 1024
  refine Nat.pow_lt_pow_right (by decide) ?_
  have := low_lt x 4
  omega

theorem small_precinct0 : Small (.int (2 ^ 15)) := small_of (by decide)

theorem fdiv_le_pos {x b : Int} (h : 0 < b) : (x.fdiv b).natAbs ≤ x.natAbs + 1 := by
  rw [Int.fdiv_eq_ediv_of_nonneg _ (Int.le_of_lt h)]
  have h3 := Int.mul_ediv_add_emod x b
  have h4 := Int.emod_nonneg x (Int.ne_of_gt h)
  have h5 := Int.emod_lt_of_pos x h
  generalize x / b = q at *
  generalize x % b = r at *
  rcases Int.lt_or_le q 0 with hq | hq
  · have : b * (q + 1) ≤ q + 1 := by
      have := Int.mul_le_mul_of_nonpos_right (show 1 ≤ b by omega) (show q + 1 ≤ 0 by omega)
      omega
    rw [Int.mul_add] at this
    omega
  · have : q ≤ b * q := by
      have := Int.mul_le_mul_of_nonneg_right (show 1 ≤ b by omega) hq
      omega
    omega

theorem ceilDiv_le {a b : Int} (hb : b ≠ 0) : (ceilDiv a b).natAbs ≤ a.natAbs + 1 := by
  unfold ceilDiv
  rw [Int.natAbs_neg]
  rcases Int.lt_or_gt_of_ne hb with h | h
  · have := fdiv_le_pos (x := a) (b := -b) (by omega)
    rw [← Int.neg_fdiv_neg, Int.neg_neg]
    exact this
  · have := fdiv_le_pos (x := -a) h
    rw [Int.natAbs_neg] at this
    exact this

theorem small_tiles {a b c d e f} : Small (.int (sizTiles (bytesToUInt a) (bytesToUInt b) (bytesToUInt c)
    (bytesToUInt d) (bytesToUInt e) (bytesToUInt f))) := by
  unfold sizTiles
  split
  · rename_i h
    refine small_of ?_
    rw [Int.natAbs_mul]
    have h1 := ceilDiv_le (a := bytesToUInt a - bytesToUInt e) h.1
    have h2 := ceilDiv_le (a := bytesToUInt b - bytesToUInt f) h.2
    have ha := u32_lt a
    have hb := u32_lt b
    have he := u32_lt e
    have hf := u32_lt f
    have h3 : (ceilDiv (bytesToUInt a - bytesToUInt e) (bytesToUInt c)).natAbs < 2 ^ 35 := by omega
    have h4 : (ceilDiv (bytesToUInt b - bytesToUInt f) (bytesToUInt d)).natAbs < 2 ^ 35 := by omega
    exact Nat.lt_of_lt_of_le (Nat.mul_lt_mul'' h3 h4) (by decide)
  · exact small_of (by decide)

theorem small_capHtB {x} : Small (.int (capHtB (low x 5))) := by
  have := low_lt x 5
  refine small_of (Nat.lt_of_lt_of_le (m := 2 ^ 10) ?_ (by decide))
  unfold capHtB
  repeat' split
  all_goals omega

theorem small_entry {c : Bytes} {o b : Int} :
    Small (.int (bytesToInteger (slice c o (o + ceilDiv (low b 7 + 1) 8)))) := by
  unfold bytesToInteger
  split
  · exact small_of (by decide)
  · show Int.natAbs (beNat _ : Int) < 2 ^ 1024
    rw [Int.natAbs_natCast]
    have h1 := low_lt b 7
    have h0 : 0 ≤ low b 7 := Int.emod_nonneg _ (by decide)
    have h3 : (slice c o (o + ceilDiv (low b 7 + 1) 8)).length ≤ 128 := by
      obtain ⟨k, hk, hk'⟩ : ∃ k : Nat, ceilDiv (low b 7 + 1) 8 = k ∧ k ≤ 128 := by
        unfold ceilDiv
        rw [Int.fdiv_eq_ediv_of_nonneg _ (by decide)]
        exact ⟨(-(-(low b 7 + 1) / 8)).toNat, by omega, by omega⟩
      rw [hk]
      exact Nat.le_trans (slice_le_of c k) hk'
    refine Nat.lt_of_lt_of_le (beNat_lt _) ?_
    calc _ ≤ 256 ^ 128 := Nat.pow_le_pow_right (by decide) h3
      _ = (2 ^ 8) ^ 128 := rfl
      _ = 2 ^ 1024 := (Nat.pow_mul ..).symm

theorem small_iccDescription {c} : Small (iccDescription c) := by
  unfold iccDescription; split <;> trivial

theorem small_illuminant {b} : Small (iccIlluminant b) := trivial

theorem small_index {c n} : Small (.int (compIndex c n).1) := by
  unfold compIndex
  split
  · exact small_u8
  · exact small_u16

theorem small_wide {n : Int} {a b} : Small (.int (if n < 257 then bytesToUnsignedChar a else bytesToUShortInt b)) := by
  split
  · exact small_u8
  · exact small_u16

/-! ## The leaves -/

/-- The value is of one of the kinds that leaves report. -/
macro "small_value" : tactic => `(tactic|
  with_reducible first
    | exact small_u8
    | exact small_u16
    | exact small_u32
    | exact small_s8
    | exact small_bytes
    | exact small_str
    | exact small_flt
    | exact small_bit
    | (refine small_low ?_; with_unfolding_all decide)
    | (refine small_low1 ?_; with_unfolding_all decide)
    | (refine small_mask ?_; with_unfolding_all decide)
    | exact small_pow2
    | exact small_precinct
    | exact small_precinct0
    | exact small_tiles
    | exact small_capHtB
    | exact small_entry
    | exact small_iccDescription
    | exact small_illuminant
    | exact small_index
    | exact small_wide)

/-- Walks through the statements of a leaf. -/
macro "small_steps" : tactic => `(tactic|
  repeat' first
    | exact smalls_nil
    | refine smalls_test ?_
    | refine smalls_warn ?_
    | refine smalls_char (by small_value) ?_
    | refine smalls_append ?_ ?_
    | refine smalls_flatMap fun _ => ?_
    | refine smalls_map fun _ _ => stepSmall_char (by small_value)
    | refine smalls_map fun _ _ => stepSmall_test
    | split)

theorem smalls_icc (c) : Smalls (icc c) := by unfold icc; simp only []; small_steps

theorem smalls_signature (c) : Smalls (signatureBox c) := by unfold signatureBox; small_steps
theorem smalls_fileType (f c) : Smalls (fileTypeBox f c) := by unfold fileTypeBox; simp only []; small_steps
theorem smalls_imageHeader (c) : Smalls (imageHeaderBox c) := by unfold imageHeaderBox; simp only []; small_steps
theorem smalls_bpcc (c) : Smalls (bitsPerComponentBox c) := by unfold bitsPerComponentBox; simp only []; small_steps
theorem smalls_palette (c) : Smalls (paletteBox c) := by unfold paletteBox; simp only []; small_steps
theorem smalls_cmap (c) : Smalls (componentMappingBox c) := by unfold componentMappingBox; simp only []; small_steps
theorem smalls_cdef (f c) : Smalls (channelDefinitionBox f c) := by unfold channelDefinitionBox; simp only []; small_steps
theorem smalls_url (c) : Smalls (urlBox c) := by unfold urlBox; simp only []; small_steps
theorem smalls_sot (c) : Smalls (sot c) := by unfold sot; simp only []; small_steps
theorem smalls_codeBlock (f c o) : Smalls (codeBlockSteps f c o) := by unfold codeBlockSteps; simp only []; small_steps
theorem smalls_precinct (c o p l) : Smalls (precinctSteps c o p l) := by unfold precinctSteps; simp only []; small_steps
theorem smalls_quant (c q l o) : Smalls (quantSteps c q l o) := by unfold quantSteps; simp only []; small_steps
theorem smalls_com (env c) : Smalls (com env c) := by unfold com; simp only []; small_steps
theorem smalls_cap (f c) : Smalls (cap f c) := by
  unfold cap
  simp only []
  refine smalls_append (smalls_append (smalls_append (by small_steps) (smalls_map fun x hx => ?_)) (by small_steps))
    (by small_steps)
  unfold capParts at hx
  obtain ⟨y, hy, rfl⟩ := List.mem_map.1 hx
  have := List.mem_range.1 (List.mem_filter.1 hy).1
  exact small_of (Nat.lt_of_lt_of_le (m := 40) (by omega) (by decide))
theorem smalls_pocEntry (n c o) : Smalls (pocEntry n c o) := by unfold pocEntry; simp only []; small_steps
theorem smalls_cod (f c) : Smalls (cod f c) :=
  smalls_append (smalls_append (by small_steps) (smalls_codeBlock _ _ _)) (smalls_precinct _ _ _ _)
theorem smalls_qcd (c) : Smalls (qcd c) := smalls_append (by small_steps) (smalls_quant _ _ _ _)
theorem smalls_unknown (env t) : Smalls (unknownBox env t) := smalls_char trivial (smalls_warn smalls_nil)

theorem smalls_xml {env : Env} (hx : XmlTexts env) (nx d) : Smalls (xmlSteps env nx d) := by
  have key : ∀ b e, env.parseXml b = some e → StepSmall (.elem e) := by
    intro b e he x hxe
    rcases hx b e he x hxe with h | ⟨s, h⟩
    all_goals rw [h]; trivial
  unfold xmlSteps
  split
  · rename_i e he
    exact smalls_cons (key _ _ he) (smalls_test smalls_nil)
  · refine smalls_append ?_ (smalls_test smalls_nil)
    split
    · split
      · rename_i e he; exact smalls_cons (key _ _ he) smalls_nil
      · exact smalls_nil
    · exact smalls_nil

theorem smalls_uuidList {c} : ∀ {n off ss}, uuidListLoop c n off = .ok ss → Smalls ss
  | 0, off, ss, h => by cases h; exact smalls_nil
  | n + 1, off, ss, h => by
    rw [uuidListLoop] at h
    obtain ⟨u, -, h⟩ := ok_of_bind h
    obtain ⟨r, hr, h⟩ := ok_of_bind h
    cases h
    exact smalls_char trivial (smalls_uuidList hr)

theorem smalls_withCsiz {cs f ss} (h : withCsiz cs f = .ok ss) (hf : ∀ n, Smalls (f n)) : Smalls ss := by
  unfold withCsiz at h
  split at h
  · cases h
  · cases h; exact hf _

theorem stepSmall_icc (c) : StepSmall (.elem (iccElem c)) := by
  intro x hx
  unfold iccElem at hx
  rcases List.mem_cons.1 (show x ∈ Elem.mk "icc" [] .none _ :: Elem.iterL _ from hx) with rfl | hx
  · trivial
  · rw [run_chars] at hx
    obtain ⟨e, he, hx⟩ := mem_iter_list.1 hx
    have : ∀ {ss : List Step}, Smalls ss → ∀ e ∈ charsOf ss, ∀ x ∈ e.iter, Small x.text := by
      intro ss
      induction ss with
      | nil => intro _ _ h; cases h
      | cons s ss ih =>
        intro hs e he x hx
        have hss : Smalls ss := fun t ht => hs t (List.mem_cons_of_mem _ ht)
        have h1 := hs s (List.mem_cons_self ..)
        cases s with
        | char n v =>
          rcases List.mem_cons.1 he with rfl | he
          · rcases List.mem_cons.1 (show x ∈ Elem.mk n [] v [] :: Elem.iterL [] from hx) with rfl | hx
            · exact h1
            · cases hx
          · exact ih hss e he x hx
        | elem e' =>
          rcases List.mem_cons.1 he with rfl | he
          · exact h1 x hx
          · exact ih hss e he x hx
        | test => exact ih hss e he x hx
        | warn => exact ih hss e he x hx
    rcases List.mem_append.1 he with he | he
    · cases he
    · exact this (smalls_icc c) e he x hx

theorem smalls_coc {f cs c ss} (h : coc f cs c = .ok ss) : Smalls ss :=
  smalls_withCsiz h fun n => smalls_append (smalls_append
    (smalls_char small_u16 (smalls_test (smalls_char small_index (smalls_test (smalls_char small_bit
      (smalls_char small_u8 (smalls_test (smalls_test smalls_nil)))))))) (smalls_codeBlock _ _ _))
      (smalls_precinct _ _ _ _)

theorem smalls_rgn {f cs c ss} (h : rgn f cs c = .ok ss) : Smalls ss :=
  smalls_withCsiz h fun n => smalls_char small_u16 (smalls_test (smalls_char small_index (smalls_test
    (smalls_char small_u8 (smalls_test (smalls_char small_u8 (smalls_test smalls_nil)))))))

theorem smalls_qcc {cs c ss} (h : qcc cs c = .ok ss) : Smalls ss :=
  smalls_withCsiz h fun n => smalls_append (smalls_char small_u16 (smalls_test (smalls_char small_wide
    (smalls_char (small_low (by decide)) (smalls_test (smalls_char (small_low (by decide)) smalls_nil))))))
    (smalls_quant _ _ _ _)

theorem smalls_poc {cs c ss} (h : poc cs c = .ok ss) : Smalls ss :=
  smalls_withCsiz h fun n => smalls_append (smalls_char small_u16 (smalls_test smalls_nil))
    (smalls_flatMap fun _ => smalls_pocEntry _ _ _)

theorem smalls_crg {cs c ss} (h : crg cs c = .ok ss) : Smalls ss :=
  smalls_withCsiz h fun n => by simp only []; small_steps

theorem smalls_siz {f c ss} (h : siz f c = .ok ss) : Smalls ss := by
  unfold siz at h
  simp only [] at h
  split at h
  · cases h
  · cases h
    small_steps

theorem smalls_resolution {x c ss} (h : resolutionLeaf x c = .ok ss) : Smalls ss := by
  unfold resolutionLeaf at h
  simp only [] at h
  split at h
  · cases h
  · split at h
    · cases h
    · cases h
      small_steps

/-- Only PRF and CPF segments report integers that are not small. -/
theorem leaf_small {env : Env} (hx : XmlTexts env) {o : Options} {fuel csiz t bType c ss}
    (h : leaf env o fuel csiz t bType c = .ok ss) (h1 : t ≠ .prf) (h2 : t ≠ .cpf) : Smalls ss := by
  cases t <;> simp only [leaf] at h
  case prf => exact absurd rfl h1
  case cpf => exact absurd rfl h2
  case xmlBox => cases h; exact smalls_xml hx _ _
  case uuidBox =>
    unfold Jpy.uuidBox at h
    obtain ⟨u, -, h⟩ := ok_of_bind h
    cases h
    refine smalls_test ?_
    split
    · exact smalls_xml hx _ _
    · exact smalls_char trivial smalls_nil
  case colourSpecificationBox =>
    cases h
    unfold colourSpecificationBox
    simp only []
    repeat' first
    | exact smalls_nil
    | refine smalls_test ?_
    | refine smalls_char (by small_value) ?_
    | refine smalls_cons (stepSmall_icc _) ?_
    | refine smalls_append ?_ ?_
    | split
  case uuidListBox =>
    unfold uuidListBox at h
    obtain ⟨r, hr, h⟩ := ok_of_bind h
    cases h
    exact smalls_append (by small_steps) (smalls_uuidList hr)
  case captureResolutionBox | displayResolutionBox => exact smalls_resolution h
  case siz => exact smalls_siz h
  case coc => exact smalls_coc h
  case rgn => exact smalls_rgn h
  case qcc => exact smalls_qcc h
  case poc => exact smalls_poc h
  case crg => exact smalls_crg h
  case cod => cases h; exact smalls_cod _ _
  case qcd => cases h; exact smalls_qcd _
  case plm =>
    unfold plm at h
    obtain ⟨r, hr, h⟩ := ok_of_bind h
    cases h
    small_steps
  case plt =>
    unfold plt at h
    obtain ⟨r, hr, h⟩ := ok_of_bind h
    cases h
    small_steps
  case unknownBox => cases h; exact smalls_unknown _ _
  case signatureBox => cases h; exact smalls_signature _
  case fileTypeBox => cases h; exact smalls_fileType _ _
  case imageHeaderBox => cases h; exact smalls_imageHeader _
  case bitsPerComponentBox => cases h; exact smalls_bpcc _
  case paletteBox => cases h; exact smalls_palette _
  case componentMappingBox => cases h; exact smalls_cmap _
  case channelDefinitionBox => cases h; exact smalls_cdef _ _
  case urlBox => cases h; exact smalls_url _
  case cap => cases h; exact smalls_cap _ _
  case com => cases h; exact smalls_com _ _
  all_goals
    cases h
    exact smalls_nil

theorem profile_count (c : Bytes) :
    rangeLen (intDiv (bytesToUShortInt (slice c 0 2) - 2) 2) = ((uint c 0 2).getD 0 - 2) / 2 := by
  rw [u16_at c 0 (x := 0) (y := 2) rfl rfl]
  cases h : uint c 0 2 with
  | none => decide
  | some l => exact rangeLen_intDiv l 2 2

theorem profile_first (c : Bytes) : bytesToUShortInt (slice c 2 4) = firstEntry c := by
  rw [u16_at c 2 (x := 2) (y := 4) rfl rfl]
  unfold firstEntry
  cases uint c 2 2 <;> rfl

theorem bigV_int {d i} : BigV d (.int i) ↔ 10 ^ d ≤ i.natAbs :=
  ⟨fun ⟨j, h, hj⟩ => by cases h; exact hj, fun h => ⟨i, rfl, h⟩⟩

/-- The numbers of PRF segments. -/
theorem prf_big {d c} (hd : 640 ≤ d) : BigL d (charsOf (prf c)) ↔ 10 ^ d ≤ (profileNumber 4095 c).natAbs := by
  unfold prf
  simp only [profileLoop_eq, profile_count, profile_first]
  show BigL d [.leaf "lprf" _, .leaf "PRFnum" _] ↔ _
  rw [bigL_cons, bigL_leaf, bigL_leaf, bigV_int (i := _ + _)]
  exact ⟨fun h => h.resolve_left (small_notBig hd small_u16), .inr⟩

/-- The numbers of CPF segments. -/
theorem cpf_big {d f c} (hd : 640 ≤ d) : BigL d (charsOf (cpf f c)) ↔ 10 ^ d ≤ (profileNumber (-1) c).natAbs := by
  have e : charsOf (cpf f c) = [.leaf "lcpf" (.int (bytesToUShortInt (slice c 0 2))),
      .leaf "CPFnum" (.int (profileNumber (-1) c))] := by
    unfold cpf
    simp only [profileLoop_eq, profile_count, profile_first]
    cases f.isHT <;> rfl
  rw [e, bigL_cons, bigL_leaf, bigL_leaf, bigV_int (i := profileNumber _ _)]
  exact ⟨fun h => h.resolve_left (small_notBig hd small_u16), .inr⟩

end Jpy
