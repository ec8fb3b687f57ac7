import Verif.Spec.Size
import Verif.Lemmas.Digits
import Verif.Lemmas.Endless
/-! # How many elements leaves add to a report -/

namespace Jpy
open Spec

theorem elementsL_append : ∀ a b : List Elem, elementsL (a ++ b) = elementsL a + elementsL b
  | [], b => by simp [elementsL]
  | x :: a, b => by rw [List.cons_append, elementsL, elementsL, elementsL_append a b]; omega

theorem elementsL_one (e : Elem) : elementsL [e] = elements e := by simp [elementsL]
theorem elements_leaf (t v) : elements (.leaf t v) = 1 := by simp [Elem.leaf, elements, elementsL]
theorem elements_node (t c) : elements (.node t c) = elementsL c + 1 := by simp [Elem.node, elements]

/-- The number of elements in all trees of a result. -/
def Node.size (n : Node) : Nat := elementsL n.tests + elementsL n.chars + elementsL n.warnings

/-- The number of elements that a statement adds at most. -/
def stepCost : Step → Nat
  | .elem e => elements e
  | _ => 1

/-- The number of elements that statements add at most. -/
def cost : List Step → Nat
  | [] => 0
  | s :: ss => stepCost s + cost ss

theorem size_testFor (v n name r) : (Node.testFor v n name r).size ≤ n.size + 1 := by
  unfold Node.testFor Node.size
  split
  · split
    · simp only [elementsL_append, elementsL_one, elements_leaf]; omega
    · omega
  · simp only [elementsL_append, elementsL_one, elements_leaf]; omega

theorem size_testIf (v n c name r) : (Node.testIf v n c name r).size ≤ n.size + 1 := by
  unfold Node.testIf
  split
  · exact size_testFor ..
  · omega

theorem size_addChar (n name v) : (Node.addChar n name v).size = n.size + 1 := by
  unfold Node.addChar Node.size
  simp only [elementsL_append, elementsL_one, elements_leaf]; omega

theorem size_step (v n) (s : Step) : (Node.step v n s).size ≤ n.size + stepCost s := by
  cases s with
  | test name r => exact size_testFor ..
  | char name x => exact Nat.le_of_eq (size_addChar ..)
  | warn m =>
    unfold Node.step Node.addWarning Node.size stepCost
    simp only [elementsL_append, elementsL_one, elements_leaf]; omega
  | elem e =>
    unfold Node.step Node.size stepCost
    simp only [elementsL_append, elementsL_one]; omega

theorem size_run (v) : ∀ (ss : List Step) (n : Node), (Node.run v n ss).size ≤ n.size + cost ss
  | [], n => by simp [Node.run, cost]
  | s :: ss, n => by
    have h1 := size_run v ss (Node.step v n s)
    have h2 := size_step v n s
    show (Node.run v (Node.step v n s) ss).size ≤ _
    rw [cost]
    omega

theorem size_appendIf (cs t c) : elementsL (Elem.appendIfNotEmpty cs (.node t c)) ≤ elementsL cs + elementsL c + 1 := by
  unfold Elem.appendIfNotEmpty
  split
  · rw [elementsL_append, elementsL_one, elements_node]; omega
  · omega

theorem size_absorb (n : Node) (r : BoxResult) : (n.absorb r).size ≤ n.size + r.node.size + 3 := by
  have h1 := size_appendIf n.tests r.tag r.node.tests
  have h2 := size_appendIf n.warnings r.tag r.node.warnings
  unfold Node.absorb Node.size BoxResult.testsElem BoxResult.charsElem BoxResult.warningsElem
  simp only [elementsL_append, elementsL_one, elements_node]
  omega

theorem size_quiet (n : Node) (r : BoxResult) : (n.absorbQuiet r).size ≤ n.size + r.node.size + 3 := by
  have h1 := size_appendIf n.tests r.tag r.node.tests
  have h2 := size_appendIf n.warnings r.tag r.node.warnings
  unfold Node.absorbQuiet Node.size BoxResult.testsElem BoxResult.warningsElem
  simp only
  omega

theorem size_empty : ({} : Node).size = 0 := rfl

/-! ## Statements -/

theorem cost_append : ∀ a b : List Step, cost (a ++ b) = cost a + cost b
  | [], b => by simp [cost]
  | x :: a, b => by rw [List.cons_append, cost, cost, cost_append a b]; omega

theorem cost_test (n r ss) : cost (.test n r :: ss) = cost ss + 1 := by rw [cost, stepCost, Nat.add_comm]; nofun
theorem cost_char (n r ss) : cost (.char n r :: ss) = cost ss + 1 := by rw [cost, stepCost, Nat.add_comm]; nofun
theorem cost_warn (n ss) : cost (.warn n :: ss) = cost ss + 1 := by rw [cost, stepCost, Nat.add_comm]; nofun
theorem cost_elem (e ss) : cost (.elem e :: ss) = cost ss + elements e := by rw [cost, stepCost, Nat.add_comm]
theorem cost_nil : cost [] = 0 := rfl

theorem cost_map {α} (l : List α) (f : α → Step) (h : ∀ x, stepCost (f x) = 1) : cost (l.map f) = l.length := by
  induction l with
  | nil => rfl
  | cons x l ih => rw [List.map_cons, cost, h, ih, List.length_cons, Nat.add_comm]

theorem cost_flatMap {α} (k : Nat) (f : α → List Step) (h : ∀ x, cost (f x) ≤ k) (l : List α) :
    cost (l.flatMap f) ≤ l.length * k := by
  induction l with
  | nil => simp [cost]
  | cons x l ih =>
    have := h x
    rw [List.flatMap_cons, cost_append, List.length_cons, Nat.add_mul]
    omega

theorem doConv_le (w : Nat) (b : Bytes) : doConv w b < ((256 ^ w : Nat) : Int) := by
  unfold doConv
  split
  · have := beNat_lt b
    rw [‹b.length = w›] at this
    omega
  · have : 0 < 256 ^ w := Nat.pow_pos (by decide)
    omega

theorem range_u8 (b) : rangeLen (bytesToUnsignedChar b) ≤ 255 := by
  have := doConv_le 1 b
  unfold rangeLen bytesToUnsignedChar
  omega

theorem range_u16 (b) : rangeLen (bytesToUShortInt b) ≤ 65535 := by
  have := doConv_le 2 b
  unfold rangeLen bytesToUShortInt
  omega

theorem u16_le (b) : bytesToUShortInt b ≤ 65535 := by
  have := doConv_le 2 b
  unfold bytesToUShortInt
  omega

theorem u8_le (b) : bytesToUnsignedChar b ≤ 255 := by
  have := doConv_le 1 b
  unfold bytesToUnsignedChar
  omega

theorem range_intDiv {a : Int} {k m : Nat} (h : a ≤ k) : rangeLen (intDiv a m) ≤ k := by
  unfold rangeLen intDiv
  by_cases ha : 0 ≤ a
  · rw [Int.tdiv_eq_ediv_of_nonneg ha]
    have := Int.ediv_le_self (m : Int) ha
    omega
  · obtain ⟨x, rfl⟩ : ∃ x : Nat, a = -x := ⟨a.natAbs, by omega⟩
    rw [Int.neg_tdiv, ← Int.ofNat_tdiv]
    generalize x / m = y
    omega

theorem cost_map_char {α} (l : List α) (g : α → String) (f : α → PyVal) :
    cost (l.map fun x => Step.char (g x) (f x)) = l.length := cost_map l _ fun _ => rfl
theorem cost_map_test {α} (l : List α) (g : α → String) (f : α → Bool) :
    cost (l.map fun x => Step.test (g x) (f x)) = l.length := cost_map l _ fun _ => rfl

/-- Adds up the costs of the statements of a leaf. -/
macro "add_costs" : tactic => `(tactic|
  simp only [cost_append, cost_test, cost_char, cost_warn, cost_elem, cost_nil, List.length_range, List.length_map,
    cost_map_char, cost_map_test])

theorem cost_unknown (env t) : cost (unknownBox env t) ≤ 2 := by unfold unknownBox; add_costs; omega
theorem cost_signature (c) : cost (signatureBox c) ≤ 2 := by unfold signatureBox; add_costs; omega
theorem cost_fileType (f c) : cost (fileTypeBox f c) ≤ c.length + 6 := by
  have h : rangeLen (intDiv ((c.length : Int) - 8) 4) ≤ c.length := range_intDiv (m := 4) (by omega)
  unfold fileTypeBox
  simp only []
  add_costs
  split <;> add_costs <;> omega
theorem cost_imageHeader (c) : cost (imageHeaderBox c) ≤ 16 := by unfold imageHeaderBox; add_costs; omega
theorem cost_bpcc (c) : cost (bitsPerComponentBox c) ≤ c.length * 3 := by
  unfold bitsPerComponentBox
  refine Nat.le_trans (cost_flatMap 3 _ (fun i => ?_) _) (by rw [List.length_range]; exact Nat.le_refl _)
  simp only []; add_costs; omega
theorem cost_icc (c) : cost (icc c) ≤ 4120 := by
  have : (iccTags c).length ≤ 4096 := by
    unfold iccTags
    rw [List.length_map, List.length_range]
    unfold rangeLen
    omega
  unfold icc
  simp only []
  add_costs
  omega
theorem size_iccElem (c) : elements (iccElem c) ≤ 4121 := by
  unfold iccElem
  rw [elements_node]
  have h1 := size_run true (icc c) {}
  have h2 := cost_icc c
  rw [size_empty] at h1
  unfold Node.size at h1
  omega
theorem cost_le_append {a b : List Step} {k m : Nat} (ha : cost a ≤ k) (hb : cost b ≤ m) : cost (a ++ b) ≤ k + m := by
  rw [cost_append]; omega
theorem cost_le_ite {p : Prop} [Decidable p] {a b : List Step} {k : Nat} (ha : cost a ≤ k) (hb : cost b ≤ k) :
    cost (if p then a else b) ≤ k := by
  split
  · exact ha
  · exact hb
theorem cost_colr (f c) : cost (colourSpecificationBox f c) ≤ 4200 := by
  have := size_iccElem (slice c 3 c.length)
  unfold colourSpecificationBox
  simp only []
  refine cost_le_append (k := 75) (m := 4125) (cost_le_append (k := 10) (m := 65) (cost_le_append (k := 1) (m := 9) ?_ ?_) ?_) ?_
  · exact Nat.le_refl 1
  · split <;> add_costs <;> omega
  · add_costs; omega
  · refine cost_le_ite (by add_costs; omega) (cost_le_ite (by add_costs; omega) (cost_le_ite (by add_costs; omega)
      (cost_le_ite ?_ (by add_costs; omega))))
    cases f <;> add_costs <;> simp [cost_nil, cost_test]
theorem cost_palette (c) : cost (paletteBox c) ≤ 2 ^ 24 - 1000 := by
  have h1 := range_u16 (slice c 0 2)
  have h2 := range_u8 (slice c 2 3)
  unfold paletteBox
  simp only []
  add_costs
  have h3 := cost_flatMap 65538 (fun (i : Nat) =>
      let b := bytesToUnsignedChar (slice c (3 + i) (4 + i))
      let bDepth := low b 7 + 1
      let bytesPadded := ceilDiv bDepth 8
      let offset := bytesToUnsignedChar (slice c 2 3) + 3 + i * (bytesToUShortInt (slice c 0 2) * bytesPadded)
      [ Step.char "bSign" (.int (getBitValue b 1)),
        .char "bDepth" (.int bDepth),
        .test "bDepthIsValid" (between 1 bDepth 38) ]
      ++ (List.range (rangeLen (bytesToUShortInt (slice c 0 2)))).map fun (k : Nat) =>
          let o := offset + k * bytesPadded
          Step.char "cP" (.int (bytesToInteger (slice c o (o + bytesPadded)))))
    (fun i => by simp only []; add_costs; omega) (List.range (rangeLen (bytesToUnsignedChar (slice c 2 3))))
  rw [List.length_range] at h3
  have h4 := Nat.mul_le_mul_right 65538 h2
  simp only [] at h3
  omega
theorem cost_cmap (c) : cost (componentMappingBox c) ≤ c.length * 6 := by
  unfold componentMappingBox
  refine Nat.le_trans (cost_flatMap 6 _ (fun i => ?_) _) ?_
  · simp only []; add_costs; omega
  · rw [List.length_range]; omega
theorem cost_cdef (f c) : cost (channelDefinitionBox f c) ≤ 2 ^ 20 := by
  have h1 := range_u16 (slice c 0 2)
  unfold channelDefinitionBox
  simp only []
  rw [cost_append, cost_append]
  have h2 : ∀ (g : Nat → List Step), (∀ i, cost (g i) ≤ 6) →
      cost ((List.range (rangeLen (bytesToUShortInt (slice c 0 2)))).flatMap g) ≤ 65535 * 6 := fun g hg =>
    Nat.le_trans (cost_flatMap 6 g hg _) (Nat.mul_le_mul_right _ (by rw [List.length_range]; exact h1))
  have h3 := h2 _ (fun (i : Nat) => show cost (
      [ Step.char "cN" (.int (bytesToUShortInt (slice c (2 + 6 * i) (2 + 6 * i + 2)))),
        .test "cNIsValid" (between 0 (bytesToUShortInt (slice c (2 + 6 * i) (2 + 6 * i + 2))) 65535),
        .char "cTyp" (.int (bytesToUShortInt (slice c (2 + 6 * i + 2) (2 + 6 * i + 4)))) ]
      ++ (match f with
          | .jp2 => [ Step.test "cTypIsValid" (decide (bytesToUShortInt (slice c (2 + 6 * i + 2) (2 + 6 * i + 4)) ∈ [0, 1, 2, 65535])) ]
          | .jph => [ .test "cTypIsValid" (decide (bytesToUShortInt (slice c (2 + 6 * i + 2) (2 + 6 * i + 4)) ∈ [0, 1, 2, 3, 65535])) ]
          | _ => [])
      ++ [ .char "cAssoc" (.int (bytesToUShortInt (slice c (2 + 6 * i + 4) (2 + 6 * i + 6)))),
           .test "cAssocIsValid" (between 0 (bytesToUShortInt (slice c (2 + 6 * i + 2) (2 + 6 * i + 4))) 65535) ]) ≤ 6 by
    add_costs; split <;> add_costs <;> omega)
  have h4 : cost (if f = .jph then
        Step.test "noMoreThanOneAlphaChannel" (decide ((((List.range (rangeLen (bytesToUShortInt (slice c 0 2)))).filter
          fun (i : Nat) => decide (bytesToUShortInt (slice c (2 + 6 * i + 2) (2 + 6 * i + 4)) ∈ [1, 2])).map
            (fun (i : Nat) => bytesToUShortInt (slice c (2 + 6 * i + 4) (2 + 6 * i + 6)))).length ≤ 1))
        :: (((List.range (rangeLen (bytesToUShortInt (slice c 0 2)))).filter
          fun (i : Nat) => decide (bytesToUShortInt (slice c (2 + 6 * i + 2) (2 + 6 * i + 4)) ∈ [1, 2])).map
            (fun (i : Nat) => bytesToUShortInt (slice c (2 + 6 * i + 4) (2 + 6 * i + 6)))).map
            (fun a => Step.test "cAssocAlphaChannelIsZero" (decide (a = 0)))
      else []) ≤ 65536 := by
    split
    · rw [cost_test, cost_map _ _ (fun _ => rfl), List.length_map]
      have := List.length_filter_le (fun (i : Nat) => decide (bytesToUShortInt (slice c (2 + 6 * i + 2) (2 + 6 * i + 4)) ∈ [1, 2]))
        (List.range (rangeLen (bytesToUShortInt (slice c 0 2))))
      rw [List.length_range] at this
      omega
    · decide
  refine Nat.le_trans (Nat.add_le_add (Nat.add_le_add (Nat.le_refl 3) h3) h4) (by decide)
theorem cost_url (c) : cost (urlBox c) ≤ 6 := by unfold urlBox; simp only []; add_costs; omega
theorem cost_sot (c) : cost (sot c) ≤ 9 := by unfold sot; simp only []; add_costs; omega
theorem cost_codeBlock (f c o) : cost (codeBlockSteps f c o) ≤ 13 := by
  unfold codeBlockSteps; simp only []; add_costs
  have : ∀ (b : Bool) (s : Step), stepCost s = 1 → cost (if b = true then [s] else []) ≤ 1 := by
    intro b s hs
    split
    · rw [cost, cost, hs]; omega
    · decide
  have h1 := this (!if f.isHT then decide (maskAt (bytesToUnsignedChar (slice c (o + 2) (o + 3))) 6 2 = 64) else false)
  have a1 := h1 (.char "resetOnBoundaries" (.int (getBitValue (bytesToUnsignedChar (slice c (o + 2) (o + 3))) 7))) rfl
  have a2 := h1 (.char "predTermination" (.int (getBitValue (bytesToUnsignedChar (slice c (o + 2) (o + 3))) 4))) rfl
  have a3 := h1 (.char "segmentationSymbols" (.int (getBitValue (bytesToUnsignedChar (slice c (o + 2) (o + 3))) 3))) rfl
  omega
theorem cost_precinct (c o p) {l : Int} (h : l ≤ 255) : cost (precinctSteps c o p l) ≤ 1024 := by
  have hr : rangeLen (l + 1) ≤ 256 := by unfold rangeLen; omega
  have key : ∀ g : Nat → List Step, (∀ i, cost (g i) ≤ 4) → cost ((List.range (rangeLen (l + 1))).flatMap g) ≤ 1024 := by
    intro g hg
    have := cost_flatMap 4 g hg (List.range (rangeLen (l + 1)))
    rw [List.length_range] at this
    omega
  unfold precinctSteps
  split
  · exact key _ fun i => by simp only []; add_costs; omega
  · exact key _ fun i => by add_costs; omega
theorem cost_quant (c q o) {l : Int} (h : l ≤ 65535) : cost (quantSteps c q l o) ≤ 131072 := by
  have hr : rangeLen l ≤ 65535 := by unfold rangeLen; omega
  unfold quantSteps
  split
  · add_costs; omega
  · split
    · simp only []; add_costs; omega
    · split
      · have := cost_flatMap 2 (fun (i : Nat) =>
          let sp := bytesToUShortInt (slice c (o + 2 * i) (o + 2 * i + 2))
          [ Step.char "mu" (.int (low sp 11)), Step.char "epsilon" (.int (low (shr sp 11) 5)) ])
          (fun i => by simp only []; add_costs; omega) (List.range (rangeLen l))
        rw [List.length_range] at this
        exact Nat.le_trans this (by omega)
      · decide
theorem cost_com (env c) : cost (com env c) ≤ 6 := by
  unfold com; simp only []
  refine cost_le_append (k := 5) (m := 1) (by add_costs; omega) (cost_le_ite ?_ ?_)
  · add_costs; omega
  · add_costs; omega
theorem cost_cap (f c) : cost (cap f c) ≤ 41 := by
  have h : (capParts (bytesToUInt (slice c 2 6))).length ≤ 32 := by
    unfold capParts
    rw [List.length_map]
    exact Nat.le_trans (List.length_filter_le ..) (by simp)
  unfold cap
  simp only []
  add_costs
  split
  · add_costs
    split <;> add_costs <;> omega
  · add_costs; omega
theorem cost_pocEntry (n c o) : cost (pocEntry n c o) ≤ 12 := by unfold pocEntry; simp only []; add_costs; omega
theorem cost_cod (f c) : cost (cod f c) ≤ 1100 := by
  have h1 := cost_codeBlock f c 8
  have h2 := cost_precinct c 12 (getBitValue (bytesToUnsignedChar (slice c 2 3)) 8) (u8_le (slice c 7 8))
  unfold cod; simp only []; add_costs; omega

theorem intDiv_le {a : Int} {k m : Nat} (h : a ≤ k) : intDiv a m ≤ k := by
  have := range_intDiv (m := m) h
  unfold rangeLen at this
  omega

theorem cost_qcd (c) : cost (qcd c) ≤ 131080 := by
  unfold qcd; simp only []; add_costs
  have hl : (if low (bytesToUnsignedChar (slice c 2 3)) 5 = 0 then intDiv (bytesToUShortInt (slice c 0 2) - 4) 3
    else intDiv (bytesToUShortInt (slice c 0 2) - 5) 6) ≤ 65535 := by
    have := u16_le (slice c 0 2)
    split
    · exact intDiv_le (m := 3) (k := 65535) (by omega)
    · exact intDiv_le (m := 6) (k := 65535) (by omega)
  have := cost_quant c (low (bytesToUnsignedChar (slice c 2 3)) 5) 3 hl
  omega

theorem cost_xml {env : Env} (hx : XmlSizes env) (nx d) : cost (xmlSteps env nx d) ≤ d.length + 1 := by
  unfold xmlSteps
  split
  · rename_i e he
    have := hx _ _ he
    add_costs; omega
  · add_costs
    split
    · split
      · rename_i e he
        have := hx _ _ he
        have h2 : (removeNullTerminator d).length ≤ d.length := by
          unfold removeNullTerminator
          have := (List.dropWhile_suffix (fun x : UInt8 => x == 0) (l := d.reverse)).length_le
          simp only [List.length_reverse] at this ⊢
          exact this
        add_costs; omega
      · add_costs; omega
    · add_costs; omega

theorem cost_uuidList {c} : ∀ {n off ss}, uuidListLoop c n off = .ok ss → cost ss ≤ n
  | 0, off, ss, h => by cases h; exact Nat.le_refl _
  | n + 1, off, ss, h => by
    rw [uuidListLoop] at h
    obtain ⟨u, -, h⟩ := ok_of_bind h
    obtain ⟨r, hr, h⟩ := ok_of_bind h
    cases h
    rw [cost_char]
    exact Nat.succ_le_succ (cost_uuidList hr)

theorem cost_resolution {x c ss} (h : resolutionLeaf x c = .ok ss) : cost ss ≤ 17 := by
  unfold resolutionLeaf at h
  simp only [] at h
  split at h
  · cases h
  · split at h
    · cases h
    · cases h
      add_costs; omega

theorem cost_siz {f c ss} (h : siz f c = .ok ss) : cost ss ≤ 2 ^ 19 := by
  unfold siz at h
  simp only [] at h
  split at h
  · cases h
  · cases h
    add_costs
    have h1 := cost_flatMap 7 (fun (i : Nat) =>
        let offset : Int := 38 + 3 * i
        let ssiz := bytesToUnsignedChar (slice c offset (offset + 1))
        let ssizDepth := low ssiz 7 + 1
        let xRsiz := bytesToUnsignedChar (slice c (offset + 1) (offset + 2))
        let yRsiz := bytesToUnsignedChar (slice c (offset + 2) (offset + 3))
        [ Step.char "ssizSign" (.int (getBitValue ssiz 1)),
          .char "ssizDepth" (.int ssizDepth),
          .test "ssizIsValid" (between 1 ssizDepth 38),
          .char "xRsiz" (.int xRsiz),
          .test "xRsizIsValid" (between 1 xRsiz 255),
          .char "yRsiz" (.int yRsiz),
          .test "yRsizIsValid" (between 1 yRsiz 255) ]) (fun i => by simp only []; add_costs; omega)
      (List.range (rangeLen (bytesToUShortInt (slice c 36 38))))
    have h2 := range_u16 (slice c 36 38)
    rw [List.length_range] at h1
    simp only [] at h1
    split
    · add_costs; omega
    · split <;> add_costs <;> omega

theorem cost_withCsiz {cs f ss k} (h : withCsiz cs f = .ok ss) (hcs : ∀ n, cs = some n → n ≤ 65535)
    (hf : ∀ n : Int, n ≤ 65535 → cost (f n) ≤ k) : cost ss ≤ k := by
  unfold withCsiz at h
  split at h
  · cases h
  · cases h; exact hf _ (hcs _ rfl)

theorem cost_profile (c name d n start) : cost (profileLoop c name d n start).2 = 0 := by
  unfold profileLoop
  have : ∀ (l : List Nat) (acc : Int × List Step), (∀ i ∈ l, i < n) → cost acc.2 = 0 →
      cost (l.foldl (fun (acc : Int × List Step) i =>
        let p := bytesToUShortInt (slice c 2 4)
        (acc.1 + p * 2 ^ (16 * i),
          if i = n ∧ d then acc.2 ++ [ .test name (decide (p ≠ 0)) ] else acc.2)) acc).2 = 0 := by
    intro l
    induction l with
    | nil => intro acc _ h; exact h
    | cons i l ih =>
      intro acc hl h
      rw [List.foldl_cons]
      refine ih _ (fun j hj => hl j (List.mem_cons_of_mem _ hj)) ?_
      have := hl i (List.mem_cons_self ..)
      simp only []
      rw [if_neg (by omega)]
      exact h
  exact this _ _ (fun i hi => List.mem_range.1 hi) rfl

/-- How many elements a marker segment adds at most. -/
theorem cost_seg {env : Env} {o : Options} {fuel csiz t bType c ss} (h : leaf env o fuel csiz t bType c = .ok ss)
    (ht : t ∈ [BoxType.cap, .siz, .prf, .cod, .qcd, .com, .coc, .rgn, .qcc, .poc, .tlm, .plm, .plt, .cpf, .ppm, .ppt, .crg])
    (hcs : ∀ n, csiz = some n → n ≤ 65535) : cost ss ≤ 2 ^ 19 := by
  have u := fun a b => u16_le (slice c a b)
  cases t <;> first | (exfalso; revert ht; decide) | skip
  all_goals simp only [leaf] at h
  case cap => cases h; exact Nat.le_trans (cost_cap ..) (by decide)
  case siz => exact cost_siz h
  case prf =>
    cases h
    unfold prf; simp only []; add_costs
    rw [cost_profile]; decide
  case cpf =>
    cases h
    unfold cpf; simp only []; add_costs
    rw [cost_profile]
    split <;> add_costs <;> decide
  case cod => cases h; exact Nat.le_trans (cost_cod ..) (by decide)
  case qcd => cases h; exact Nat.le_trans (cost_qcd ..) (by decide)
  case com => cases h; exact Nat.le_trans (cost_com ..) (by decide)
  case coc =>
    refine cost_withCsiz h hcs fun n hn => ?_
    simp only []
    rw [cost_append, cost_append]
    refine Nat.le_trans (Nat.add_le_add (Nat.add_le_add (Nat.le_refl 8) (cost_codeBlock ..)) (cost_precinct _ _ _ (u8_le _))) (by decide)
  case rgn => refine cost_withCsiz h hcs fun n hn => ?_; simp only []; add_costs; omega
  case qcc =>
    refine cost_withCsiz h hcs fun n hn => ?_
    simp only []
    add_costs
    generalize (if n < 257 then (3 : Int) else 4) = off
    have hl : ∀ q : Int, (if q = 0 ∧ n < 257 then intDiv (bytesToUShortInt (slice c 0 2) - 5) 3
      else if q = 2 ∧ n < 257 then intDiv (bytesToUShortInt (slice c 0 2) - 6) 6
      else if q = 0 ∧ n ≥ 257 then intDiv (bytesToUShortInt (slice c 0 2) - 6) 3
      else intDiv (bytesToUShortInt (slice c 0 2) - 7) 6) ≤ 65535 := by
      intro q
      have := u 0 2
      split
      · exact intDiv_le (m := 3) (k := 65535) (by omega)
      · split
        · exact intDiv_le (m := 6) (k := 65535) (by omega)
        · split
          · exact intDiv_le (m := 3) (k := 65535) (by omega)
          · exact intDiv_le (m := 6) (k := 65535) (by omega)
    have := cost_quant c (low (bytesToUnsignedChar (slice c off (off + 1))) 5) off
      (hl (low (bytesToUnsignedChar (slice c off (off + 1))) 5))
    omega
  case poc =>
    refine cost_withCsiz h hcs fun n hn => ?_
    simp only []
    add_costs
    have hr : rangeLen (intDiv (bytesToUShortInt (slice c 0 2) - 2) (if n < 257 then 7 else 9)) ≤ 9362 := by
      have := u 0 2
      unfold rangeLen intDiv
      generalize bytesToUShortInt (slice c 0 2) = x at this
      by_cases hx : 0 ≤ x - 2
      · rw [Int.tdiv_eq_ediv_of_nonneg hx]
        split <;> omega
      · split
        · have := Int.neg_tdiv (a := -(x - 2)) (b := 7)
          rw [Int.neg_neg, Int.tdiv_eq_ediv_of_nonneg (by omega : (0 : Int) ≤ -(x - 2))] at this
          rw [this]; omega
        · have := Int.neg_tdiv (a := -(x - 2)) (b := 9)
          rw [Int.neg_neg, Int.tdiv_eq_ediv_of_nonneg (by omega : (0 : Int) ≤ -(x - 2))] at this
          rw [this]; omega
    have := cost_flatMap 12 (fun (i : Nat) => pocEntry n c (2 + (if n < 257 then 7 else 9) * (i : Int)))
      (fun i => cost_pocEntry _ _ _) (List.range (rangeLen (intDiv (bytesToUShortInt (slice c 0 2) - 2) (if n < 257 then 7 else 9))))
    rw [List.length_range] at this
    omega
  case crg =>
    refine cost_withCsiz h hcs fun n hn => ?_
    simp only []
    add_costs
    have := cost_flatMap 4 (fun (i : Nat) =>
        let offset : Int := 2 + 4 * i
        let xcrg := bytesToUShortInt (slice c offset (offset + 2))
        let ycrg := bytesToUShortInt (slice c (offset + 2) (offset + 4))
        [ Step.char "xcrg" (.int xcrg),
          .test "xcrgIsValid" (between 0 xcrg 65535),
          .char "ycrg" (.int ycrg),
          .test "ycrgIsValid" (between 0 ycrg 65535) ]) (fun i => by simp only []; add_costs; omega)
      (List.range (rangeLen n))
    rw [List.length_range] at this
    have hn' : rangeLen n ≤ 65535 := by unfold rangeLen; omega
    simp only [] at this
    omega
  case tlm | ppm | ppt => cases h; decide
  case plm =>
    unfold plm at h
    obtain ⟨r, hr, h⟩ := ok_of_bind h
    cases h
    add_costs; decide
  case plt =>
    unfold plt at h
    obtain ⟨r, hr, h⟩ := ok_of_bind h
    cases h
    add_costs; decide

/-- How many elements a box that is no superbox adds at most, if it is reached without a number of components. -/
theorem cost_box {env : Env} (hx : XmlSizes env) {o : Options} {fuel t bType c ss}
    (h : leaf env o fuel none t bType c = .ok ss) : cost ss ≤ 2 ^ 24 - 10 + 6 * c.length := by
  by_cases ht : t ∈ [BoxType.cap, .siz, .prf, .cod, .qcd, .com, .coc, .rgn, .qcc, .poc, .tlm, .plm, .plt, .cpf, .ppm,
      .ppt, .crg]
  · have := cost_seg h ht (fun _ h => nomatch h)
    omega
  cases t <;> first | (exfalso; revert ht; decide) | skip
  all_goals simp only [leaf] at h
  case xmlBox => cases h; have := cost_xml hx o.nullxml c; unfold Jpy.xmlBox; omega
  case uuidBox =>
    unfold Jpy.uuidBox at h
    obtain ⟨u, -, h⟩ := ok_of_bind h
    cases h
    rw [cost_test]
    split
    · have := cost_xml hx o.nullxml (slice c 16 c.length)
      have h2 := slice_le c 16 c.length
      omega
    · add_costs; omega
  case signatureBox => cases h; have := cost_signature c; omega
  case fileTypeBox => cases h; have := cost_fileType o.format c; omega
  case imageHeaderBox => cases h; have := cost_imageHeader c; omega
  case bitsPerComponentBox => cases h; have := cost_bpcc c; omega
  case colourSpecificationBox => cases h; have := cost_colr o.format c; omega
  case paletteBox => cases h; have := cost_palette c; omega
  case componentMappingBox => cases h; have := cost_cmap c; omega
  case channelDefinitionBox => cases h; have := cost_cdef o.format c; omega
  case captureResolutionBox | displayResolutionBox => have := cost_resolution h; omega
  case uuidListBox =>
    unfold Jpy.uuidListBox at h
    obtain ⟨r, hr, h⟩ := ok_of_bind h
    cases h
    have := cost_uuidList hr
    have := range_u16 (slice c 0 2)
    add_costs; omega
  case urlBox => cases h; have := cost_url c; omega
  case unknownBox => cases h; have := cost_unknown env bType; omega
  all_goals cases h; simp only [cost_nil]; omega

end Jpy
