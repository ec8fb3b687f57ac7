import Verif.Lemmas.Cs
import Verif.Props.Segments
import Verif.Props.Superboxes
/-!
# JP2 and JPH files as a whole
-/

set_option linter.unusedSimpArgs false
set_option linter.unusedVariables false

namespace Jpy
open Spec

/-! ## Consistency with the codestream -/

/-- Sign bit and depth of a bit depth byte determine the byte. -/
theorem sign_depth_inj {a c : Nat} (ha : a < 256) (hc : c < 256) :
    getBitValue (a : Int) 1 = getBitValue (c : Int) 1 ∧ low (a : Int) 7 + 1 = low (c : Int) 7 + 1 ↔ a = c := by
  unfold getBitValue
  simp only [shr_div, low_mod]
  omega

theorem range_map_eq {α : Type} {n m : Nat} {f g : Nat → α} :
    (List.range n).map f = (List.range m).map g ↔ n = m ∧ ∀ i < n, f i = g i := by
  constructor
  · intro h
    have hl : n = m := by simpa using congrArg List.length h
    subst hl
    refine ⟨rfl, fun i hi => ?_⟩
    have := congrArg (fun l => l[i]?) h
    simpa [hi] using this
  · rintro ⟨rfl, h⟩
    exact List.map_congr_left fun i hi => h i (List.mem_range.1 hi)

/-- Lists of signs and depths agree exactly when the bytes do. -/
theorem depths_eq {n m : Nat} {f g : Nat → Nat} (hf : ∀ i < n, f i < 256) (hg : ∀ i < m, g i < 256) :
    ((List.range n).map (fun i => PyVal.int (getBitValue (f i : Int) 1)) =
        (List.range m).map (fun i => PyVal.int (getBitValue (g i : Int) 1)) ∧
      (List.range n).map (fun i => PyVal.int (low (f i : Int) 7 + 1)) =
        (List.range m).map (fun i => PyVal.int (low (g i : Int) 7 + 1))) ↔
    n = m ∧ ∀ i < n, f i = g i := by
  rw [range_map_eq, range_map_eq]
  constructor
  · rintro ⟨⟨rfl, h1⟩, -, h2⟩
    refine ⟨rfl, fun i hi => (sign_depth_inj (hf i hi) (hg i hi)).1 ⟨?_, ?_⟩⟩
    · simpa using h1 i hi
    · simpa using h2 i hi
  · rintro ⟨rfl, h⟩
    refine ⟨⟨rfl, fun i hi => ?_⟩, rfl, fun i hi => ?_⟩ <;> rw [h i hi]

theorem bpcc_fields (c : Bytes) :
    repOf "bPCSign" (bitsPerComponentBox c) = (List.range c.length).map (fun i =>
      .int (getBitValue (intOf (uint c i 1)) 1)) ∧
    repOf "bPCDepth" (bitsPerComponentBox c) = (List.range c.length).map (fun i =>
      .int (low (intOf (uint c i 1)) 7 + 1)) := by
  have e : ∀ i : Nat, bytesToUnsignedChar (slice c (i : Int) ((i : Int) + 1)) = intOf (uint c i 1) :=
    fun i => u8_at c i rfl rfl
  unfold bitsPerComponentBox
  simp only [e]
  constructor <;> rep

theorem bpcc_result {env o fuel c r} (h : validateBox env o fuel tagBitsPerComponent c = .ok r) (s : String) :
    Elem.findAllText r.node.chars [s] = repOf s (bitsPerComponentBox c) := by
  cases fuel with
  | zero => cases h
  | succ fuel =>
    obtain ⟨ss, h1, rfl⟩ := (validateBox_ok (t := .bitsPerComponentBox) (by decide) rfl).1 h
    cases h1
    exact findAllText_run ..

/-- The test of the image header against the SIZ segment. -/
theorem sizConsistency_spec {o : Options} {nb : Int} {n : Node} {ihc szc : List Elem} {ih siz : Bytes}
    {bp : Option Bytes} {h w nc bpc x y x0 y0 cs : Nat} {bytes : Nat → Nat}
    (hfmt : o.format = .jp2 ∨ o.format = .jph)
    (hih : ∀ s v, repOf s (imageHeaderBox ih) = [v] → Elem.findElementText ihc [s] = some v)
    (h1 : uint ih 0 4 = some h) (h2 : uint ih 4 4 = some w) (h3 : uint ih 8 2 = some nc)
    (h4 : uint ih 10 1 = some bpc)
    (z1 : Elem.findElementText szc ["xsiz"] = some (.int x))
    (z2 : Elem.findElementText szc ["ysiz"] = some (.int y))
    (z3 : Elem.findElementText szc ["xOsiz"] = some (.int x0))
    (z4 : Elem.findElementText szc ["yOsiz"] = some (.int y0))
    (z5 : Elem.findElementText szc ["csiz"] = some (.int cs))
    (z6 : Elem.findAllText szc ["ssizSign"] = (List.range cs).map fun i => .int (getBitValue (bytes i : Int) 1))
    (z7 : Elem.findAllText szc ["ssizDepth"] = (List.range cs).map fun i => .int (low (bytes i : Int) 7 + 1))
    (hbytes : ∀ i < cs, bytes i < 256)
    (hb : bpc = 255 → ∃ c e, bp = some c ∧ Elem.find n.chars ["jp2HeaderBox", "bitsPerComponentBox"] = some e ∧
      Elem.findAllText e.children ["bPCSign"] = repOf "bPCSign" (bitsPerComponentBox c) ∧
      Elem.findAllText e.children ["bPCDepth"] = repOf "bPCDepth" (bitsPerComponentBox c)) :
    ∃ m, sizConsistency o nb n ihc szc = .ok m ∧
      (m.isValid = true ↔ n.isValid = true ∧ h + y0 = y ∧ w + x0 = x ∧ cs = nc ∧
        (bpc ≠ 255 → ∀ i < nc, bytes i = bpc) ∧
        (bpc = 255 → ∃ c, bp = some c ∧ c.length = nc ∧ ∀ i < nc, uint c i 1 = some (bytes i))) ∧
      (m.isValid = true → m.chars = n.chars ++ [Elem.leaf "compressionRatio"
        (compressionRatio nb ((List.range cs).map fun i => low (bytes i : Int) 7 + 1) h w)]) := by
  obtain ⟨-, -, f3, f4, f5, f6, f7⟩ := ihdr_fields ih
  have g3 := hih _ _ f3
  have g4 := hih _ _ f4
  have g5 := hih _ _ f5
  have g6 := hih _ _ f6
  have g7 := hih _ _ f7
  have hlt := uint_lt h4
  have b255 := bpc255 h4
  rw [h1] at g3; rw [h2] at g4; rw [h3] at g5
  unfold sizConsistency
  rw [g3, g4, g5, g6, g7, z1, z2, z3, z4, z5, z6, z7]
  simp only [needInt, Outcome.bind_ok, testFor_chars]
  -- the two lists of depths
  obtain ⟨k, f, hbv, hf, hfe⟩ : ∃ (k : Nat) (f : Nat → Nat), bpcValues n.chars (some (PyVal.int (intOf (some nc))))
      (some (PyVal.int (getBitValue (intOf (uint ih 10 1)) 1)))
      (some (PyVal.int (low (intOf (uint ih 10 1)) 7 + 1))) =
      .ok ((List.range k).map (fun i => PyVal.int (getBitValue (f i : Int) 1)),
        (List.range k).map (fun i => PyVal.int (low (f i : Int) 7 + 1))) ∧ (∀ i < k, f i < 256) ∧
      ((k = cs ∧ ∀ i < k, f i = bytes i) ∧ cs = nc ↔ cs = nc ∧
        (bpc ≠ 255 → ∀ i < nc, bytes i = bpc) ∧
        (bpc = 255 → ∃ c, bp = some c ∧ c.length = nc ∧ ∀ i < nc, uint c i 1 = some (bytes i))) := by
    unfold bpcValues
    by_cases hv : bpc = 255
    · obtain ⟨c, e, rfl, he, e1, e2⟩ := hb hv
      have hc : (some (PyVal.int (getBitValue (intOf (uint ih 10 1)) 1)) = some (PyVal.int 1) ∧
          some (PyVal.int (low (intOf (uint ih 10 1)) 7 + 1)) = some (PyVal.int 128)) := by
        have := b255.2 hv
        exact ⟨by rw [this.1], by rw [this.2]⟩
      rw [if_pos hc, he]
      simp only [e1, e2, (bpcc_fields c).1, (bpcc_fields c).2]
      have hex : ∀ i < c.length, uint c i 1 = some ((uint c i 1).getD 0) := by
        intro i hi
        rw [uint_pos (by omega)]; rfl
      refine ⟨c.length, fun i => (uint c i 1).getD 0, ?_, ?_, ?_⟩
      · congr 2 <;>
        · apply List.map_congr_left
          intro i hi
          rw [List.mem_range] at hi
          rw [hex i hi]; rfl
      · intro i hi
        exact uint_lt (hex i hi)
      · constructor
        · rintro ⟨⟨rfl, h⟩, h5⟩
          refine ⟨h5, fun h => absurd hv h, fun _ => ⟨c, rfl, h5, fun i hi => ?_⟩⟩
          rw [← h i (by omega)]
          exact hex i (by omega)
        · rintro ⟨h5, -, h6⟩
          obtain ⟨c', e, h7, h8⟩ := h6 hv
          cases e
          refine ⟨⟨by omega, fun i hi => ?_⟩, h5⟩
          simp only [h8 i (by omega), Option.getD_some]
    · have hc : ¬ (some (PyVal.int (getBitValue (intOf (uint ih 10 1)) 1)) = some (PyVal.int 1) ∧
          some (PyVal.int (low (intOf (uint ih 10 1)) 7 + 1)) = some (PyVal.int 128)) := by
        simp only [Option.some.injEq, PyVal.int.injEq]
        rw [b255]; exact hv
      rw [if_neg hc]
      refine ⟨nc, fun _ => bpc, ?_, fun i _ => hlt, ?_⟩
      · simp only [needInt, Outcome.bind_ok, intOf, rangeLen, Int.toNat_natCast, Option.getD_some, h4]
        congr 2 <;>
        · symm
          rw [List.eq_replicate_iff]
          refine ⟨by simp, fun v hv => ?_⟩
          obtain ⟨i, -, rfl⟩ := List.mem_map.1 hv
          rfl
      · constructor
        · rintro ⟨⟨h5, h6⟩, h7⟩
          exact ⟨h7, fun _ i hi => (h6 i hi).symm, fun e => absurd e hv⟩
        · rintro ⟨rfl, h6, -⟩
          exact ⟨⟨rfl, fun i hi => (h6 hv i hi).symm⟩, rfl⟩
  rw [hbv]
  simp only [Outcome.bind_ok]
  rw [if_pos hfmt, needInts_map]
  simp only [Outcome.bind_ok]
  refine ⟨_, rfl, ?_⟩
  simp only [isValid_addChar, isValid_testFor, Bool.and_eq_true, decide_eq_true_eq, Option.some.injEq,
    PyVal.int.injEq, intOf, and_assoc]
  have hd := depths_eq (n := k) (m := cs) hf hbytes
  rw [hd]
  refine ⟨?_, ?_⟩
  rotate_left
  · rintro ⟨-, -, -, -, rfl, h6⟩
    simp only [Node.addChar, testFor_chars]
    congr 4
    apply List.map_congr_left
    intro i hi
    rw [h6 i (List.mem_range.1 hi)]
  constructor
  · rintro ⟨p1, p2, p3, p4, p5⟩
    refine ⟨p1, by omega, by omega, ?_⟩
    exact hfe.1 ⟨p5, by omega⟩
  · rintro ⟨p1, p2, p3, p4⟩
    obtain ⟨p5, p6⟩ := hfe.2 p4
    exact ⟨p1, by omega, by omega, by omega, p5⟩

/-- The consistency tests only add to the tests made before. -/
theorem sizConsistency_valid {o nb n ihc szc m} (h : sizConsistency o nb n ihc szc = .ok m)
    (hm : m.isValid = true) : n.isValid = true := by
  unfold sizConsistency at h
  simp only at h
  obtain ⟨_, -, h⟩ := Outcome.bind_eq_ok.1 h
  obtain ⟨_, -, h⟩ := Outcome.bind_eq_ok.1 h
  obtain ⟨_, -, h⟩ := Outcome.bind_eq_ok.1 h
  obtain ⟨_, -, h⟩ := Outcome.bind_eq_ok.1 h
  obtain ⟨⟨_, _⟩, -, h⟩ := Outcome.bind_eq_ok.1 h
  simp only at h
  split at h
  · obtain ⟨_, -, h⟩ := Outcome.bind_eq_ok.1 h
    obtain ⟨_, -, h⟩ := Outcome.bind_eq_ok.1 h
    obtain ⟨_, -, h⟩ := Outcome.bind_eq_ok.1 h
    cases h
    simp only [isValid_addChar, isValid_testFor, Bool.and_eq_true] at hm
    exact hm.1.1.1.1.1
  · cases h
    simp only [isValid_addChar, isValid_testFor, Bool.and_eq_true] at hm
    exact hm.1.1.1.1.1

/-! ## The tests on the sequence of boxes -/

/-- The node before the consistency tests. -/
def jp2Mid (o : Options) (node : Node) (types : List Bytes) : Node :=
  let v := o.verbose
  let n := node.testFor v "containsSignatureBox" (decide (tagSignature ∈ types))
  let n := n.testFor v "containsFileTypeBox" (decide (tagFileType ∈ types))
  let n := n.testFor v "containsJP2HeaderBox" (decide (tagJp2Header ∈ types))
  let n := n.testFor v "containsContiguousCodestreamBox" (decide (tagCodestream ∈ types))
  let iPR := Elem.findElementText n.chars ["jp2HeaderBox", "imageHeaderBox", "iPR"]
  let n := n.testIf v (decide (iPR = some (PyVal.int 1))) "containsIntellectualPropertyBox"
    (decide (tagIntellectualProperty ∈ types))
  let n := n.testFor v "firstBoxIsSignatureBox" (decide (types[0]? = some tagSignature))
  let n := n.testFor v "secondBoxIsFileTypeBox" (decide (types[1]? = some tagFileType))
  let n := n.testFor v "locationJP2HeaderBoxIsValid" (locationJP2HeaderBoxIsValid types)
  let n := n.testFor v "noMoreThanOneSignatureBox" (decide (types.count tagSignature ≤ 1))
  let n := n.testFor v "noMoreThanOneFileTypeBox" (decide (types.count tagFileType ≤ 1))
  n.testFor v "noMoreThanOneJP2HeaderBox" (decide (types.count tagJp2Header ≤ 1))

/-- The last step: the consistency tests if both headers are found. -/
def jp2Last (o : Options) (noBytes : Int) (n : Node) : Outcome Node :=
  match Elem.find n.chars ["jp2HeaderBox", "imageHeaderBox"],
        Elem.find n.chars ["contiguousCodestreamBox", "siz"] with
  | some ih, some sz => sizConsistency o noBytes n ih.children sz.children
  | _, _ => .ok n

theorem jp2Finish_eq (o : Options) (nb : Int) (node : Node) (types : List Bytes) :
    jp2Finish o nb node types = jp2Last o nb (jp2Mid o node types) := rfl

theorem jp2Mid_chars (o : Options) (node : Node) (types : List Bytes) :
    (jp2Mid o node types).chars = node.chars := by
  simp only [jp2Mid, testFor_chars, testIf_chars]

/-- The structural tests as one condition. -/
def shapeOk (types : List Bytes) : Bool :=
  decide (tagSignature ∈ types) && (decide (tagFileType ∈ types) && (decide (tagJp2Header ∈ types) &&
  (decide (tagCodestream ∈ types) &&
  (decide (types[0]? = some tagSignature) && (decide (types[1]? = some tagFileType) &&
  (locationJP2HeaderBoxIsValid types && (decide (types.count tagSignature ≤ 1) &&
  (decide (types.count tagFileType ≤ 1) && decide (types.count tagJp2Header ≤ 1)))))))))

theorem jp2Mid_valid (o : Options) (node : Node) (types : List Bytes) :
    (jp2Mid o node types).isValid = true ↔ node.isValid = true ∧ shapeOk types = true ∧
      (Elem.findElementText node.chars ["jp2HeaderBox", "imageHeaderBox", "iPR"] = some (PyVal.int 1) →
        tagIntellectualProperty ∈ types) := by
  simp only [jp2Mid, isValid_testFor, isValid_testIf, testFor_chars, testIf_chars, Bool.and_eq_true,
    Bool.or_eq_true, Bool.not_eq_true', shapeOk, decide_eq_true_eq, decide_eq_false_iff_not]
  constructor
  · rintro ⟨⟨⟨⟨⟨⟨⟨⟨⟨⟨⟨h1, h2⟩, h3⟩, h4⟩, h5⟩, h6⟩, h7⟩, h8⟩, h9⟩, h10⟩, h11⟩, h12⟩
    exact ⟨h1, ⟨h2, h3, h4, h5, h7, h8, h9, h10, h11, h12⟩, fun e => h6.resolve_left (fun h => h e)⟩
  · rintro ⟨h1, ⟨h2, h3, h4, h5, h7, h8, h9, h10, h11, h12⟩, h6⟩
    refine ⟨⟨⟨⟨⟨⟨⟨⟨⟨⟨⟨h1, h2⟩, h3⟩, h4⟩, h5⟩, ?_⟩, h7⟩, h8⟩, h9⟩, h10⟩, h11⟩, h12⟩
    by_cases e : Elem.findElementText node.chars ["jp2HeaderBox", "imageHeaderBox", "iPR"] = some (PyVal.int 1)
    · exact .inr (h6 e)
    · exact .inl e

/-- The sequence of boxes of a layout. -/
structure Shape (bs : List FoundBox) (l : Layout) : Prop where
  boxes : bs = l.sig :: l.ft :: l.rest
  sig : l.sig.type = ascii "jP  "
  ft : l.ft.type = ascii "ftyp"
  hd : l.hd.type = ascii "jp2h"
  cs : l.cs.type = ascii "jp2c"
  oneSig : ¬ Has l.rest "jP  "
  oneFt : ¬ Has l.rest "ftyp"
  oneHd : ¬ Has l.pre "jp2h" ∧ ¬ Has (l.mid ++ l.cs :: l.post) "jp2h"
  firstCs : ¬ Has l.pre "jp2c" ∧ ¬ Has l.mid "jp2c"

theorem number_zero {bs : List FoundBox} {t : String} : number bs t = 0 ↔ ¬ Has bs t := by
  unfold number Has
  rw [List.length_eq_zero_iff, List.filter_eq_nil_iff]
  constructor
  · rintro h ⟨x, hx, he⟩
    exact h x hx (by simpa using he)
  · intro h x hx he
    exact h ⟨x, hx, by simpa using he⟩

theorem number_append {a z : List FoundBox} {t : String} : number (a ++ z) t = number a t + number z t := by
  unfold number; rw [List.filter_append, List.length_append]

theorem number_cons_eq {x : FoundBox} {z : List FoundBox} {t : String} (h : x.type = ascii t) :
    number (x :: z) t = number z t + 1 := by
  unfold number; rw [List.filter_cons, if_pos (by simpa using h)]; rfl

theorem number_cons_ne {x : FoundBox} {z : List FoundBox} {t : String} (h : x.type ≠ ascii t) :
    number (x :: z) t = number z t := by
  unfold number; rw [List.filter_cons, if_neg (by simpa using h)]

theorem has_cons {x : FoundBox} {z : List FoundBox} {t : String} :
    Has (x :: z) t ↔ x.type = ascii t ∨ Has z t := by
  simp [Has]

theorem has_append {a z : List FoundBox} {t : String} : Has (a ++ z) t ↔ Has a t ∨ Has z t := by
  simp only [Has, List.mem_append]
  constructor
  · rintro ⟨x, h | h, e⟩
    · exact .inl ⟨x, h, e⟩
    · exact .inr ⟨x, h, e⟩
  · rintro (⟨x, h, e⟩ | ⟨x, h, e⟩)
    · exact ⟨x, .inl h, e⟩
    · exact ⟨x, .inr h, e⟩

/-- The first box of a type. -/
theorem split_first {t : String} : ∀ {bs : List FoundBox}, Has bs t →
    ∃ a x z, bs = a ++ x :: z ∧ x.type = ascii t ∧ ¬ Has a t
  | [], h => by obtain ⟨_, h, _⟩ := h; cases h
  | y :: bs, h => by
    by_cases hy : y.type = ascii t
    · exact ⟨[], y, bs, rfl, hy, fun ⟨_, h, _⟩ => nomatch h⟩
    · obtain ⟨a, x, z, rfl, h1, h2⟩ := split_first ((has_cons.1 h).resolve_left hy)
      exact ⟨y :: a, x, z, rfl, h1, fun h => h2 ((has_cons.1 h).resolve_left hy)⟩

theorem idxOf_first {t : String} {a z : List FoundBox} {x : FoundBox} (hx : x.type = ascii t)
    (ha : ¬ Has a t) : ((a ++ x :: z).map (·.type)).idxOf (ascii t) = a.length := by
  rw [List.map_append, List.idxOf_append]
  rw [if_neg (by rw [mem_types (s := t) rfl]; exact ha)]
  simp [hx, List.idxOf_cons_self]

theorem idxOf_lt {t : String} {a z : List FoundBox} (ha : Has a t) :
    ((a ++ z).map (·.type)).idxOf (ascii t) < a.length := by
  have hm : ascii t ∈ a.map (·.type) := (mem_types rfl).2 ha
  rw [List.map_append, List.idxOf_append, if_pos hm]
  have := List.idxOf_lt_length_of_mem hm
  simpa using this

theorem shapeOk_iff {bs : List FoundBox} {ih hrest siz} : shapeOk (bs.map (·.type)) = true ↔
    ∃ l : Layout, Shape bs l ∧ l.ih = ih ∧ l.hrest = hrest ∧ l.siz = siz := by
  unfold shapeOk locationJP2HeaderBoxIsValid
  simp only [Bool.and_eq_true, decide_eq_true_eq, mem_types (k := tagSignature) (s := "jP  ") rfl,
    mem_types (k := tagFileType) (s := "ftyp") rfl, mem_types (k := tagJp2Header) (s := "jp2h") rfl,
    mem_types (k := tagCodestream) (s := "jp2c") rfl, count_types (k := tagSignature) (s := "jP  ") rfl,
    count_types (k := tagFileType) (s := "ftyp") rfl, count_types (k := tagJp2Header) (s := "jp2h") rfl]
  constructor
  · rintro ⟨-, -, hh, hc, h0, h1, ⟨⟨-, hlt⟩, hgt⟩, n1, n2, n3⟩
    obtain ⟨a, hd, z, rfl, ehd, na⟩ := split_first hh
    have hidx : ((a ++ hd :: z).map (·.type)).idxOf tagJp2Header = a.length :=
      idxOf_first (z := z) ehd na
    rw [hidx] at hlt hgt
    have nc : ¬ Has a "jp2c" := fun h => by
      have : ((a ++ hd :: z).map (·.type)).idxOf tagCodestream < a.length := idxOf_lt h
      omega
    have hcz : Has z "jp2c" := by
      rcases has_append.1 hc with h | h
      · exact absurd h nc
      · rcases has_cons.1 h with h | h
        · rw [ehd] at h; exact absurd h (by decide)
        · exact h
    obtain ⟨mid, cs, post, rfl, ecs, nm⟩ := split_first hcz
    obtain ⟨sig, ft, pre, rfl⟩ : ∃ s f p, a = s :: f :: p := by
      match a, hgt with
      | s :: f :: p, _ => exact ⟨s, f, p, rfl⟩
    simp only [List.cons_append, List.map_cons, List.getElem?_cons_zero, List.getElem?_cons_succ,
      Option.some.injEq] at h0 h1
    have h0' : sig.type = ascii "jP  " := h0
    have h1' : ft.type = ascii "ftyp" := h1
    refine ⟨⟨sig, ft, pre, hd, mid, cs, post, ih, hrest, siz⟩, ⟨rfl, h0', h1', ehd, ecs, ?_, ?_, ?_, ?_⟩,
      rfl, rfl, rfl⟩
    · simp only [List.cons_append] at n1
      rw [number_cons_eq h0', number_cons_ne (by rw [h1']; decide)] at n1
      exact number_zero.1 (by simp only [Layout.rest]; omega)
    · simp only [List.cons_append] at n2
      rw [number_cons_ne (by rw [h0']; decide), number_cons_eq h1'] at n2
      exact number_zero.1 (by simp only [Layout.rest]; omega)
    · refine ⟨fun h => na (has_cons.2 (.inr (has_cons.2 (.inr h)))), ?_⟩
      rw [number_append, number_cons_eq ehd] at n3
      have : number (mid ++ cs :: post) "jp2h" = 0 := by omega
      exact number_zero.1 this
    · exact ⟨fun h => nc (has_cons.2 (.inr (has_cons.2 (.inr h)))), nm⟩
  · rintro ⟨⟨sig, ft, pre, hd, mid, cs, post, ih', hrest', siz'⟩, ⟨hbs, h0, h1, hhd, hcs, n1, n2, n3, n4⟩, -, -, -⟩
    simp only [Layout.rest] at *
    have hhd1 : Has (hd :: (mid ++ cs :: post)) "jp2h" := has_cons.2 (.inl hhd)
    have hcs1 : Has (hd :: (mid ++ cs :: post)) "jp2c" :=
      has_cons.2 (.inr (has_append.2 (.inr (has_cons.2 (.inl hcs)))))
    have key : bs = (sig :: ft :: pre) ++ hd :: (mid ++ cs :: post) := by rw [hbs]; rfl
    have key2 : bs = (sig :: ft :: pre ++ hd :: mid) ++ cs :: post := by rw [hbs]; simp
    have i1 : (bs.map (·.type)).idxOf tagJp2Header = (sig :: ft :: pre).length := by
      rw [key]
      refine idxOf_first hhd fun h => ?_
      rcases has_cons.1 h with h | h
      · rw [h0] at h; exact absurd h (by decide)
      · rcases has_cons.1 h with h | h
        · rw [h1] at h; exact absurd h (by decide)
        · exact n3.1 h
    have i2 : (bs.map (·.type)).idxOf tagCodestream = (sig :: ft :: pre ++ hd :: mid).length := by
      rw [key2]
      refine idxOf_first hcs fun h => ?_
      rcases has_append.1 h with h | h
      · rcases has_cons.1 h with h | h
        · rw [h0] at h; exact absurd h (by decide)
        · rcases has_cons.1 h with h | h
          · rw [h1] at h; exact absurd h (by decide)
          · exact n4.1 h
      · rcases has_cons.1 h with h | h
        · rw [hhd] at h; exact absurd h (by decide)
        · exact n4.2 h
    have c1 : Has bs "jP  " := by rw [hbs]; exact has_cons.2 (.inl h0)
    have c2 : Has bs "ftyp" := by rw [hbs]; exact has_cons.2 (.inr (has_cons.2 (.inl h1)))
    have c3 : Has bs "jp2h" := by rw [key]; exact has_append.2 (.inr hhd1)
    have c4 : Has bs "jp2c" := by rw [key]; exact has_append.2 (.inr hcs1)
    refine ⟨c1, c2, c3, c4, ?_, ?_, ⟨⟨⟨c3, c4⟩, ?_⟩, ?_⟩, ?_, ?_, ?_⟩
    · rw [hbs]; exact congrArg some h0
    · rw [hbs]; exact congrArg some h1
    · rw [i1, i2]; simp
    · rw [i1]; simp
    · rw [hbs, number_cons_eq h0, number_cons_ne (by rw [h1]; decide), number_zero.2 n1]; omega
    · rw [hbs, number_cons_ne (by rw [h0]; decide), number_cons_eq h1, number_zero.2 n2]; omega
    · rw [hbs, number_cons_ne (by rw [h0]; decide), number_cons_ne (by rw [h1]; decide), number_append,
        number_zero.2 n3.1, number_cons_eq hhd, number_zero.2 n3.2]; omega

/-! ## Looking up characteristics -/

/-- The results with a given tag start with that of the first box of the type. -/
theorem lookup_first {env o fuel} {bs : List FoundBox} {rs}
    (h : inTurn (fun x : FoundBox => validateBox env o fuel x.type x.payload) bs = .ok rs)
    {a x z} (hbs : bs = a ++ x :: z) {t : String} (hx : x.type = ascii t) (ha : ¬ Has a t)
    {bt : BoxType} (hk : typeMap.lookup (ascii t) = some bt) (hbt : bt ≠ .unknownBox) :
    ∃ r rs', validateBox env o fuel (ascii t) x.payload = .ok r ∧ r.tag = bt.name ∧
      rs.filter (·.tag == bt.name) = r :: rs' := by
  have hf := inTurn_filter (p := fun x : FoundBox => x.type == ascii t)
    (q := fun r => r.tag == bt.name) h (fun x y hxy => validateBox_tag_iff hxy hk hbt)
  have hnil : (a.filter fun x => x.type == ascii t) = [] := by
    rw [List.filter_eq_nil_iff]
    intro y hy e
    exact ha ⟨y, hy, by simpa using e⟩
  subst hbs
  rw [List.filter_append, hnil, List.nil_append, List.filter_cons, if_pos (by simpa using hx)] at hf
  obtain ⟨r, rs', hr, hv, -⟩ := inTurn_cons.1 hf
  rw [hx] at hv
  refine ⟨r, rs', hv, ?_, hr⟩
  have : r ∈ rs.filter (·.tag == bt.name) := by rw [hr]; simp
  simpa using (List.mem_filter.1 this).2

/-- The characteristics of a JP2 header box are those of its boxes. -/
theorem jp2h_result {env o fuel p r hs} (h : validateBox env o fuel (ascii "jp2h") p = .ok r)
    (hb : Boxes p hs) : ∃ k rs, inTurn (fun x : FoundBox => validateBox env o k x.type x.payload) hs = .ok rs ∧
      r.node.chars = rs.map (·.charsElem) := by
  cases fuel with
  | zero => cases h
  | succ fuel =>
    have hbt : boxTypeOf (ascii "jp2h") = .jp2HeaderBox := by decide
    unfold validateBox at h
    rw [hbt] at h
    obtain ⟨⟨n, types⟩, hw, h⟩ := Outcome.bind_eq_ok.1 h
    cases h
    obtain ⟨rs, h1, rfl, rfl⟩ := walkBoxes_ok hb hw
    refine ⟨fuel, rs, h1, ?_⟩
    have : ∀ (n : Node) types, (jp2HeaderFinish o n types).chars = n.chars := by
      intro n types
      unfold jp2HeaderFinish
      cases o.format <;> simp only [testFor_chars, testIf_chars]
    rw [this, chars_foldl_absorb]
    rfl

theorem jp2c_result {env o fuel p r} (h : validateBox env o fuel (ascii "jp2c") p = .ok r) :
    ∃ k, codestream env o k p = .ok r.node := by
  cases fuel with
  | zero => cases h
  | succ fuel =>
    have hbt : boxTypeOf (ascii "jp2c") = .contiguousCodestreamBox := by decide
    unfold validateBox at h
    rw [hbt] at h
    obtain ⟨n, hw, h⟩ := Outcome.bind_eq_ok.1 h
    cases h
    exact ⟨fuel, hw⟩

theorem find_of_findall {cs p e es} (h : Elem.findall cs p = e :: es) : Elem.find cs p = some e := by
  unfold Elem.find; rw [h]; rfl

/-- What the last step finds and decides, when the boxes have the right sequence and all pass. -/
theorem jp2_core {env : Env} {o : Options} {fuel : Nat} {bs : List FoundBox} {rs : List BoxResult}
    {l : Layout} {nb : Int} (hfmt : o.format = .jp2 ∨ o.format = .jph)
    (h : inTurn (fun x : FoundBox => validateBox env o fuel x.type x.payload) bs = .ok rs)
    (ha : ∀ x ∈ bs, Accepted (validateBox env o fuel x.type x.payload))
    (hs : Shape bs l) (hb : Boxes l.hd.payload (l.ih :: l.hrest))
    (hsiz : ∃ n, SegAt l.cs.payload 2 SIZ l.siz n) :
    (Elem.findElementText (rs.map (·.charsElem)) ["jp2HeaderBox", "imageHeaderBox", "iPR"] =
        some (PyVal.int 1) ↔ FieldIs l.ih.payload 13 1 (· = 1)) ∧
    ∀ mid : Node, mid.chars = rs.map (·.charsElem) → ∃ m, jp2Last o nb mid = .ok m ∧
      (m.isValid = true ↔ mid.isValid = true ∧ SameImage (l.ih :: l.hrest) l.ih.payload l.siz) ∧
      (m.isValid = true → ∃ h w nc, uint l.ih.payload 0 4 = some h ∧ uint l.ih.payload 4 4 = some w ∧
        uint l.siz 36 2 = some nc ∧ m.chars = mid.chars ++ [Elem.leaf "compressionRatio" (compressionRatio nb
          ((List.range nc).map fun i => low (((uint l.siz (38 + 3 * i) 1).getD 0 : Nat) : Int) 7 + 1) h w)]) := by
  -- the JP2 header
  have hmem : l.hd ∈ bs := by rw [hs.boxes]; simp [Layout.rest]
  have key : bs = (l.sig :: l.ft :: l.pre) ++ l.hd :: (l.mid ++ l.cs :: l.post) := by
    rw [hs.boxes]; rfl
  have nohd : ¬ Has (l.sig :: l.ft :: l.pre) "jp2h" := fun h => by
    rcases has_cons.1 h with h | h
    · rw [hs.sig] at h; exact absurd h (by decide)
    · rcases has_cons.1 h with h | h
      · rw [hs.ft] at h; exact absurd h (by decide)
      · exact hs.oneHd.1 h
  obtain ⟨rh, rhs, hrh, -, frh⟩ := lookup_first h key hs.hd nohd (bt := .jp2HeaderBox) (by decide) (by decide)
  obtain ⟨k, hrs, hin, hchars⟩ := jp2h_result hrh hb
  have hpass : BoxPasses env o (ascii "jp2h") l.hd.payload :=
    ⟨fuel, by have := ha _ hmem; rwa [hs.hd] at this⟩
  obtain ⟨ih', rest', hb', hp', hok⟩ := (C18_header env o l.hd.payload).1 hpass
  have e := boxes_unique hb hb'
  obtain ⟨rfl, rfl⟩ : l.ih = ih' ∧ l.hrest = rest' := by simpa using e
  have hih := hok.1
  -- the image header
  obtain ⟨ri, ris, hri, -, fri⟩ := lookup_first hin (a := []) rfl hih (fun ⟨_, h, _⟩ => nomatch h)
    (bt := .imageHeaderBox) (by decide) (by decide)
  have hI : IhdrOthersOk l.ih.payload := by
    obtain ⟨f, hacc⟩ := hp' l.ih (by simp)
    rw [hih] at hacc
    cases f with
    | zero => obtain ⟨r, hr, -⟩ := hacc; cases hr
    | succ f => exact (C19_ihdr_accepted env o f l.ih.payload).1 hacc
  obtain ⟨-, ⟨hh, h1, -⟩, ⟨w, h2, -⟩, ⟨nc, h3, -⟩, -, -, ⟨ip, h13, -⟩⟩ := hI
  obtain ⟨bpc, h4⟩ := uint_exists (off' := 10) (n' := 1) h13 (by omega)
  -- the codestream
  have hcsmem : l.cs ∈ bs := by rw [hs.boxes]; simp [Layout.rest]
  have key2 : bs = (l.sig :: l.ft :: l.pre ++ l.hd :: l.mid) ++ l.cs :: l.post := by
    rw [hs.boxes]; simp [Layout.rest]
  have nocs : ¬ Has (l.sig :: l.ft :: l.pre ++ l.hd :: l.mid) "jp2c" := fun h => by
    rcases has_append.1 h with h | h
    · rcases has_cons.1 h with h | h
      · rw [hs.sig] at h; exact absurd h (by decide)
      · rcases has_cons.1 h with h | h
        · rw [hs.ft] at h; exact absurd h (by decide)
        · exact hs.firstCs.1 h
    · rcases has_cons.1 h with h | h
      · rw [hs.hd] at h; exact absurd h (by decide)
      · exact hs.firstCs.2 h
  obtain ⟨rc, rcs, hrc, -, frc⟩ := lookup_first h key2 hs.cs nocs (bt := .contiguousCodestreamBox)
    (by decide) (by decide)
  have hcsv : rc.node.isValid = true := by
    obtain ⟨r, hr, hn⟩ := ha _ hcsmem
    rw [hs.cs, hrc] at hr
    cases hr
    exact (isValid_iff _).2 hn
  obtain ⟨kc, hcode⟩ := jp2c_result hrc
  obtain ⟨p, hpok, rz, rest, hrz, hrzn, hcchars⟩ := codestream_forward hcode hcsv
  obtain ⟨nn, hsz⟩ := hsiz
  obtain ⟨-, esiz, -⟩ := segAt_unique hsz hpok.sizAt
  rw [← esiz] at hrz
  obtain ⟨ztag, -, z1, z2, z3, z4, z5, z6, z7⟩ := siz_text hrz
  obtain ⟨⟨-, ⟨x, s1, -⟩, ⟨y, s2, -⟩, ⟨x0, s3, -⟩, ⟨y0, s4, -⟩, -, -, -, -, ⟨cs, s5, -, -, -, s6⟩⟩, -⟩ :=
    (C26_siz_partial env o kc none l.siz).1 ⟨rz, hrz, hrzn⟩
  have sbytes : ∀ i < cs, uint l.siz (38 + 3 * i) 1 = some ((uint l.siz (38 + 3 * i) 1).getD 0) := by
    intro i hi
    obtain ⟨⟨v, hv, -⟩, -⟩ := s6 i hi
    rw [hv]; rfl
  constructor
  · rw [findElementText_eq, findAllText_results]
    have : (rs.filter (·.tag == "jp2HeaderBox")) = rh :: rhs := frh
    rw [this, List.flatMap_cons, hchars, findAllText_results]
    have : (hrs.filter (·.tag == "imageHeaderBox")) = ri :: ris := fri
    rw [this, List.flatMap_cons, ihdr_result hri, (ihdr_fields _).2.1, h13]
    simp only [FieldIs, h13, intOf, List.cons_append, List.head?_cons, Option.some.injEq, PyVal.int.injEq]
    constructor
    · intro e; exact ⟨ip, rfl, by omega⟩
    · rintro ⟨_, rfl, e⟩; omega
  · intro mid hmid
    have F1 : Elem.find mid.chars ["jp2HeaderBox", "imageHeaderBox"] = some ri.charsElem := by
      refine find_of_findall (es := ?_) ?_
      rotate_left
      · rw [hmid, findall_results]
        have : (rs.filter (·.tag == "jp2HeaderBox")) = rh :: rhs := frh
        rw [this, List.flatMap_cons, hchars, findall_results1]
        have : (hrs.filter (·.tag == "imageHeaderBox")) = ri :: ris := fri
        rw [this]
        rfl
    have F2 : Elem.find mid.chars ["contiguousCodestreamBox", "siz"] = some rz.charsElem := by
      refine find_of_findall (es := ?_) ?_
      rotate_left
      · rw [hmid, findall_results]
        have : (rs.filter (·.tag == "contiguousCodestreamBox")) = rc :: rcs := frc
        rw [this, List.flatMap_cons, hcchars]
        have : Elem.findall (rz.charsElem :: rest) ["siz"] =
            rz.charsElem :: Elem.findall rest ["siz"] := by
          rw [Elem.findall, List.filter_cons, if_pos (show (rz.charsElem.tag == "siz") = true from beq_iff_eq.2 ztag)]
          rfl
        rw [this]
        rfl
    unfold jp2Last
    rw [F1, F2]
    simp only
    have c1 : ri.charsElem.children = ri.node.chars := rfl
    have c2 : rz.charsElem.children = rz.node.chars := rfl
    rw [c1, c2]
    rw [s1] at z1; rw [s2] at z2; rw [s3] at z3; rw [s4] at z4; rw [s5] at z5 z6 z7
    -- the bits per component box
    have hbp : bpc = 255 → ∃ c e, (∃ x ∈ l.ih :: l.hrest, x.type = ascii "bpcc" ∧ x.payload = c) ∧
        Elem.find mid.chars ["jp2HeaderBox", "bitsPerComponentBox"] = some e ∧
        Elem.findAllText e.children ["bPCSign"] = repOf "bPCSign" (bitsPerComponentBox c) ∧
        Elem.findAllText e.children ["bPCDepth"] = repOf "bPCDepth" (bitsPerComponentBox c) := by
      intro hv
      obtain ⟨-, -, -, -, -, -, -, -, -, -, -, -, hbpc⟩ := hok
      have hhas := hbpc ⟨bpc, h4, hv⟩
      obtain ⟨a, xb, z, hsplit, hxb, nab⟩ := split_first hhas
      obtain ⟨rb, rbs, hrb, -, frb⟩ := lookup_first hin hsplit hxb nab (bt := .bitsPerComponentBox)
        (by decide) (by decide)
      refine ⟨xb.payload, rb.charsElem, ⟨xb, by rw [hsplit]; simp, hxb, rfl⟩, ?_, bpcc_result hrb _,
        bpcc_result hrb _⟩
      refine find_of_findall (es := ?_) ?_
      rotate_left
      · rw [hmid, findall_results]
        have : (rs.filter (·.tag == "jp2HeaderBox")) = rh :: rhs := frh
        rw [this, List.flatMap_cons, hchars, findall_results1]
        have : (hrs.filter (·.tag == "bitsPerComponentBox")) = rb :: rbs := frb
        rw [this]
        rfl
    -- at most one such box
    have honly : ∀ x ∈ l.ih :: l.hrest, ∀ y ∈ l.ih :: l.hrest, x.type = ascii "bpcc" → y.type = ascii "bpcc" →
        x = y := by
      obtain ⟨-, -, hn, -⟩ := hok
      intro x hx y hy ex ey
      unfold number at hn
      have hx' : x ∈ (l.ih :: l.hrest).filter fun x => x.type == ascii "bpcc" :=
        List.mem_filter.2 ⟨hx, by simpa using ex⟩
      have hy' : y ∈ (l.ih :: l.hrest).filter fun x => x.type == ascii "bpcc" :=
        List.mem_filter.2 ⟨hy, by simpa using ey⟩
      generalize ((l.ih :: l.hrest).filter fun x => x.type == ascii "bpcc") = f at hn hx' hy'
      match f, hn with
      | [u], _ => simp at hx' hy'; rw [hx', hy']
      | [], _ => cases hx'
    obtain ⟨bp, hbp'⟩ : ∃ bp : Option Bytes, bpc = 255 → ∃ c e, bp = some c ∧
        (∃ x ∈ l.ih :: l.hrest, x.type = ascii "bpcc" ∧ x.payload = c) ∧
        Elem.find mid.chars ["jp2HeaderBox", "bitsPerComponentBox"] = some e ∧
        Elem.findAllText e.children ["bPCSign"] = repOf "bPCSign" (bitsPerComponentBox c) ∧
        Elem.findAllText e.children ["bPCDepth"] = repOf "bPCDepth" (bitsPerComponentBox c) := by
      by_cases hv : bpc = 255
      · obtain ⟨c, e, hx⟩ := hbp hv
        exact ⟨some c, fun _ => ⟨c, e, rfl, hx⟩⟩
      · exact ⟨none, fun e => absurd e hv⟩
    obtain ⟨m, hm, hmv, hmc⟩ := sizConsistency_spec (nb := nb) (n := mid) (ihc := ri.node.chars)
      (szc := rz.node.chars) (ih := l.ih.payload) (siz := l.siz) (bp := bp)
      (bytes := fun i => (uint l.siz (38 + 3 * i) 1).getD 0) hfmt
      (fun s v hsv => by rw [findElementText_eq, ihdr_result hri, hsv]; rfl)
      h1 h2 h3 h4 (reported_text z1) (reported_text z2) (reported_text z3) (reported_text z4)
      (reported_text z5)
      (by
        rw [reported_all z6]
        simp only [intOf, rangeLen, Int.toNat_natCast]
        apply List.map_congr_left
        intro i hi
        rw [sbytes i (List.mem_range.1 hi)]; rfl)
      (by
        rw [reported_all z7]
        simp only [intOf, rangeLen, Int.toNat_natCast]
        apply List.map_congr_left
        intro i hi
        rw [sbytes i (List.mem_range.1 hi)]; rfl)
      (fun i hi => uint_lt (sbytes i hi))
      (fun hv => by
        obtain ⟨c, e, hc, -, h5⟩ := hbp' hv
        exact ⟨c, e, hc, h5⟩)
    refine ⟨m, hm, ?_, fun hv => ⟨_, _, _, h1, h2, s5, hmc hv⟩⟩
    rw [hmv]
    constructor
    · rintro ⟨g1, g2, g3, g4, g5, g6⟩
      subst g4
      refine ⟨g1, hh, w, cs, x, y, x0, y0, bpc, h1, h2, h3, h4, s1, s2, s3, s4, g2, g3, s5, ?_, ?_⟩
      · intro hv i hi
        rw [sbytes i hi, g5 hv i hi]
      · intro hv
        obtain ⟨c, e1, e2, e3⟩ := g6 hv
        obtain ⟨c', -, e4, ⟨xb, hxb, ext, rfl⟩, -⟩ := hbp' hv
        rw [e1] at e4; cases e4
        exact ⟨xb, hxb, ext, e2, fun i hi => (sbytes i hi).trans (e3 i hi).symm⟩
    · rintro ⟨g1, hh', w', nc', x', y', x0', y0', bpc', k1, k2, k3, k4, k5, k6, k7, k8, k9, k10, k11, k12, k13⟩
      rw [h1] at k1; cases k1
      rw [h2] at k2; cases k2
      rw [h3] at k3; cases k3
      rw [h4] at k4; cases k4
      rw [s1] at k5; cases k5
      rw [s2] at k6; cases k6
      rw [s3] at k7; cases k7
      rw [s4] at k8; cases k8
      rw [s5] at k11; cases k11
      refine ⟨g1, k9, k10, rfl, fun hv i hi => ?_, fun hv => ?_⟩
      · have := k12 hv i hi
        simp only [this, Option.getD_some]
      · obtain ⟨xb, hxb, ext, e2, e3⟩ := k13 hv
        obtain ⟨c', -, e4, ⟨xb', hxb', ext', rfl⟩, -⟩ := hbp' hv
        have := honly _ hxb _ hxb' ext ext'
        subst this
        exact ⟨_, e4, e2, fun i hi => (e3 i hi).symm.trans (sbytes i hi)⟩

/-- The layout of a valid file and the results of its boxes. -/
theorem jp2_forward'' {env : Env} {o : Options} {fuel : Nat} {b : Bytes} {n : Node}
    (hfmt : o.format = .jp2 ∨ o.format = .jph)
    (h : validateJP2 env o fuel b = .ok n) (hv : n.isValid = true) :
    ∃ l : Layout, l.Ok (BoxPasses env o) b ∧ ∃ h w nc, ∃ rs : List BoxResult,
      inTurn (fun x : FoundBox => validateBox env o fuel x.type x.payload) (l.sig :: l.ft :: l.rest) = .ok rs ∧
      (∀ r ∈ rs, NoFailure r.node.tests) ∧
      (∀ r ∈ rs, r.tag ≠ "compressionRatio") ∧
      uint l.ih.payload 0 4 = some h ∧ uint l.ih.payload 4 4 = some w ∧
      uint l.siz 36 2 = some nc ∧ n.chars = rs.map (·.charsElem) ++ [Elem.leaf "compressionRatio"
        (compressionRatio b.length
          ((List.range nc).map fun i => low (((uint l.siz (38 + 3 * i) 1).getD 0 : Nat) : Int) 7 + 1) h w)] := by
  obtain ⟨bs, hb⟩ := boxes_exists b
  unfold validateJP2 at h
  obtain ⟨⟨nd, types⟩, hw, h⟩ := Outcome.bind_eq_ok.1 h
  obtain ⟨rs, hin, rfl, rfl⟩ := walkBoxes_ok hb hw
  simp only [jp2Finish_eq] at h
  have hmidv : (jp2Mid o (rs.foldl Node.absorb {}) (bs.map (·.type))).isValid = true := by
    generalize jp2Mid o (rs.foldl Node.absorb {}) (bs.map (·.type)) = mid at h
    unfold jp2Last at h
    split at h
    · exact sizConsistency_valid h hv
    · cases h; exact hv
  have hch : (rs.foldl Node.absorb {}).chars = rs.map (·.charsElem) := by
    rw [chars_foldl_absorb]; rfl
  obtain ⟨hnd, hshape, hipr⟩ := (jp2Mid_valid ..).1 hmidv
  rw [isValid_foldl_absorb, Bool.and_eq_true] at hnd
  have ha := (all_valid_iff hin).1 hnd.2
  have hpass : ∀ x ∈ bs, BoxPasses env o x.type x.payload := fun x hx => ⟨fuel, ha x hx⟩
  obtain ⟨l0, hs0, -⟩ := (shapeOk_iff (ih := ⟨0, [], []⟩) (hrest := []) (siz := [])).1 hshape
  obtain ⟨ih, hrest, hbh, -, hok⟩ := (C18_header env o l0.hd.payload).1 (by
    have := hpass l0.hd (by rw [hs0.boxes]; simp [Layout.rest])
    rwa [hs0.hd] at this)
  obtain ⟨p, hp⟩ : ∃ p : CodestreamParts, p.Ok env o l0.cs.payload := by
    obtain ⟨r, hr, hn⟩ := ha l0.cs (by rw [hs0.boxes]; simp [Layout.rest])
    rw [hs0.cs] at hr
    obtain ⟨kc, hcode⟩ := jp2c_result hr
    obtain ⟨p, hp, -⟩ := codestream_forward hcode ((isValid_iff _).2 hn)
    exact ⟨p, hp⟩
  have hs : Shape bs { l0 with ih := ih, hrest := hrest, siz := p.siz } :=
    ⟨hs0.boxes, hs0.sig, hs0.ft, hs0.hd, hs0.cs, hs0.oneSig, hs0.oneFt, hs0.oneHd, hs0.firstCs⟩
  obtain ⟨c1, c2⟩ := jp2_core (nb := b.length) hfmt hin ha hs hbh ⟨_, hp.sizAt⟩
  obtain ⟨m, hm, hmv, hmc⟩ := c2 _ ((jp2Mid_chars o _ (bs.map (·.type))).trans hch)
  rw [hm] at h
  cases h
  have himg := (hmv.1 hv).2
  obtain ⟨h, w, nc, q1, q2, q3, q4⟩ := hmc hv
  rw [jp2Mid_chars, hch] at q4
  refine ⟨_, ⟨?_, ?_, hs.sig, hs.ft, hs.hd, hs.cs, hs.oneSig, hs.oneFt, hs.oneHd, hs.firstCs, hbh,
    ⟨_, hp.sizAt⟩, ?_, himg⟩, h, w, nc, rs, ?_, ?_, ?_, q1, q2, q3, q4⟩
  rotate_right 3
  · exact hs.boxes ▸ hin
  · exact fun r hr => (isValid_iff _).1 (List.all_eq_true.1 hnd.2 r hr)
  · intro r hr
    obtain ⟨i, hi, rfl⟩ := List.mem_iff_getElem.1 hr
    obtain ⟨hlen, hall⟩ := inTurn_ok.1 hin
    rw [validateBox_tag (hall i (by omega) hi)]
    cases boxTypeOf (bs[i]'(by omega)).type <;> decide
  · exact hs.boxes ▸ hb
  · exact hs.boxes ▸ hpass
  · intro hf
    rw [hch] at hipr
    have := hipr (c1.2 hf)
    rw [mem_types (k := tagIntellectualProperty) (s := "jp2i") rfl, hs.boxes] at this
    rcases has_cons.1 this with e | e
    · rw [hs.sig] at e; exact absurd e (by decide)
    · rcases has_cons.1 e with e | e
      · rw [hs.ft] at e; exact absurd e (by decide)
      · exact e

/-- The layout of a valid file. -/
theorem jp2_forward' {env : Env} {o : Options} {fuel : Nat} {b : Bytes} {n : Node}
    (hfmt : o.format = .jp2 ∨ o.format = .jph)
    (h : validateJP2 env o fuel b = .ok n) (hv : n.isValid = true) :
    ∃ l : Layout, l.Ok (BoxPasses env o) b ∧ ∃ h w nc, ∃ rs : List BoxResult,
      (∀ r ∈ rs, r.tag ≠ "compressionRatio") ∧
      uint l.ih.payload 0 4 = some h ∧ uint l.ih.payload 4 4 = some w ∧
      uint l.siz 36 2 = some nc ∧ n.chars = rs.map (·.charsElem) ++ [Elem.leaf "compressionRatio"
        (compressionRatio b.length
          ((List.range nc).map fun i => low (((uint l.siz (38 + 3 * i) 1).getD 0 : Nat) : Int) 7 + 1) h w)] :=
  let ⟨l, hl, h, w, nc, rs, _, _, hrs⟩ := jp2_forward'' hfmt h hv
  ⟨l, hl, h, w, nc, rs, hrs⟩

theorem jp2_forward {env : Env} {o : Options} {fuel : Nat} {b : Bytes} {n : Node}
    (hfmt : o.format = .jp2 ∨ o.format = .jph)
    (h : validateJP2 env o fuel b = .ok n) (hv : n.isValid = true) :
    ∃ l : Layout, l.Ok (BoxPasses env o) b :=
  let ⟨l, hl, _⟩ := jp2_forward' hfmt h hv
  ⟨l, hl⟩

/-- A file with such a layout is valid. -/
theorem jp2_backward {env : Env} {o : Options} {b : Bytes} (hfmt : o.format = .jp2 ∨ o.format = .jph)
    {l : Layout} (hl : l.Ok (BoxPasses env o) b) :
    ∃ fuel n, validateJP2 env o fuel b = .ok n ∧ n.isValid = true := by
  obtain ⟨k0, hk⟩ := fuel_forall
    (P := fun (x : FoundBox) k => Accepted (validateBox env o k x.type x.payload))
    (fun _ _ _ h ha => validateBox_accepted_mono h ha) _ hl.passes
  generalize hbs : l.sig :: l.ft :: l.rest = bs at *
  obtain ⟨k, hk, hlen⟩ : ∃ k, (∀ x ∈ bs, Accepted (validateBox env o k x.type x.payload)) ∧ bs.length < k :=
    ⟨k0 + bs.length + 1, fun x hx => validateBox_accepted_mono (by omega) (hk x hx), by omega⟩
  obtain ⟨rs, hrs⟩ := inTurn_exists (f := fun x : FoundBox => validateBox env o k x.type x.payload)
    (xs := bs) fun x hx => let ⟨r, hr, _⟩ := hk x hx; ⟨r, hr⟩
  have hs : Shape bs l := ⟨hbs.symm, hl.sig, hl.ft, hl.hd, hl.cs, hl.oneSig, hl.oneFt, hl.oneHd, hl.firstCs⟩
  have hch : (rs.foldl Node.absorb {}).chars = rs.map (·.charsElem) := by
    rw [chars_foldl_absorb]; rfl
  obtain ⟨c1, c2⟩ := jp2_core (nb := b.length) hfmt hrs hk hs hl.header hl.siz
  obtain ⟨m, hm, hmv, hmc⟩ := c2 _ ((jp2Mid_chars o _ (bs.map (·.type))).trans hch)
  refine ⟨k, m, ?_, hmv.2 ⟨?_, hl.image⟩⟩
  · unfold validateJP2
    rw [walkBoxes_eq (hbs ▸ hl.boxes) hlen, hrs]
    simp only [Outcome.bind_ok, jp2Finish_eq]
    exact hm
  · rw [jp2Mid_valid]
    refine ⟨?_, (shapeOk_iff).2 ⟨l, hs, rfl, rfl, rfl⟩, fun e => ?_⟩
    · rw [isValid_foldl_absorb, (all_valid_iff hrs).2 hk]; rfl
    · rw [hch] at e
      obtain ⟨x, hx, ex⟩ := hl.ipr (c1.1 e)
      rw [mem_types (k := tagIntellectualProperty) (s := "jp2i") rfl]
      exact ⟨x, by rw [← hbs]; simp [hx], ex⟩

end Jpy
