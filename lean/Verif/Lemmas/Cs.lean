import Verif.Lemmas.TileLoop
/-!
# The codestream as a whole
-/

set_option linter.unusedSimpArgs false
set_option linter.unusedVariables false

namespace Jpy
open Spec

/-- The properties of a SIZ segment that are used later. -/
theorem siz_text {env o fuel csiz c r} (h : validateLeaf env o fuel csiz mSIZ c = .ok r) :
    r.tag = "siz" ∧
    reported r.node "rsiz" = [.int (intOf (uint c 2 2))] ∧
    reported r.node "xsiz" = [.int (intOf (uint c 4 4))] ∧
    reported r.node "ysiz" = [.int (intOf (uint c 8 4))] ∧
    reported r.node "xOsiz" = [.int (intOf (uint c 12 4))] ∧
    reported r.node "yOsiz" = [.int (intOf (uint c 16 4))] ∧
    reported r.node "csiz" = [.int (intOf (uint c 36 2))] ∧
    reported r.node "ssizSign" = (List.range (rangeLen (intOf (uint c 36 2)))).map (fun i =>
      .int (getBitValue (intOf (uint c (38 + 3 * i) 1)) 1)) ∧
    reported r.node "ssizDepth" = (List.range (rangeLen (intOf (uint c 36 2)))).map (fun i =>
      .int (low (intOf (uint c (38 + 3 * i) 1)) 7 + 1)) := by
  have ht : boxTypeOf mSIZ = .siz := by decide
  obtain ⟨ss, h1, rfl⟩ := (validateLeaf_ok ht).1 h
  simp only [leaf, siz] at h1
  split at h1
  · cases h1
  · cases h1
    have e : ∀ i : Nat, bytesToUnsignedChar (slice c (38 + 3 * (i : Int)) (38 + 3 * (i : Int) + 1)) =
        intOf (uint c (38 + 3 * i) 1) := by
      intro i; exact u8_at c (38 + 3 * i) (by omega) rfl
    refine ⟨rfl, ?_, ?_, ?_, ?_, ?_, ?_, ?_, ?_⟩ <;> rw [reported_run] <;> rep <;>
      simp only [ite_self, List.nil_append, e] <;> simp (disch := omega) only [u32_slice, u16_slice] <;>
      simp only [Int.reduceToNat]

theorem reported_text {n : Node} {t : String} {v : PyVal} {l : List PyVal} (h : reported n t = v :: l) :
    Elem.findElementText n.chars [t] = some v := by
  rw [findElementText_eq]
  have : Elem.findAllText n.chars [t] = reported n t := rfl
  rw [this, h]; rfl

theorem reported_all {n : Node} {t : String} {l : List PyVal} (h : reported n t = l) :
    Elem.findAllText n.chars [t] = l := h

theorem absorb_chars (n : Node) (r : BoxResult) : (n.absorb r).chars = n.chars ++ [r.charsElem] := rfl

theorem absorbSegs_chars (pm : Bool) (q : List Bytes) (rs : List (Bytes × BoxResult)) (n : Node) :
    ∃ rest, (absorbSegs pm q n rs).chars = n.chars ++ rest := by
  unfold absorbSegs
  induction rs generalizing n with
  | nil => exact ⟨[], by simp⟩
  | cons r rs ih =>
    rw [List.foldl_cons]
    obtain ⟨rest, h⟩ := ih (if r.1 ∈ q then n.absorbPacket pm r.2 else n.absorb r.2)
    rw [h]
    split
    · unfold Node.absorbPacket
      split
      · exact ⟨r.2.charsElem :: rest, by simp [Node.absorb]⟩
      · exact ⟨rest, rfl⟩
    · exact ⟨r.2.charsElem :: rest, by simp [Node.absorb]⟩

/-- A property of the first element. -/
theorem first_text {r : BoxResult} {rest : List Elem} {t u : String} {v : PyVal} {l : List PyVal}
    (ht : r.tag = t) (h : reported r.node u = v :: l) :
    Elem.findElementText (r.charsElem :: rest) [t, u] = some v := by
  rw [findElementText_eq]
  have e : r.charsElem :: rest = [r.charsElem] ++ rest := rfl
  rw [e, findAllText_append]
  have : Elem.findAllText [r.charsElem] [t, u] = reported r.node u := by
    have h1 := findAllText_results [r] t u []
    rw [List.map_cons, List.map_nil] at h1
    rw [h1, List.filter_cons]
    simp [ht]
    rfl
  rw [this, h]; rfl

theorem needInt_eq {v : Option PyVal} {i : Int} : needInt v = .ok i ↔ v = some (.int i) := by
  unfold needInt
  constructor
  · intro h
    split at h <;> cases h
    rfl
  · rintro rfl; rfl

theorem needInts_map {α : Type} (f : α → Int) : ∀ l : List α,
    needInts (l.map fun a => PyVal.int (f a)) = .ok (l.map f)
  | [] => rfl
  | a :: l => by
    rw [List.map_cons, needInts, needInts_map f l]
    rfl

/-- The element list of the finished codestream and the tests that decide. -/
theorem finish_spec {o : Options} {b : Bytes} {sizChars : List Elem} {nTiles : Int} {node : Node}
    {t : TileState} {n : Node} (h : codestreamFinish o b sizChars nTiles node t = .ok n) :
    (∃ rest, n.chars = node.chars ++ rest) ∧
    (n.isValid = true ↔ node.isValid = true ∧ (t.tileIndices.length : Int) = nTiles ∧
      (t.expected.isEmpty = false → dictEqFound t.expected t.found = true) ∧ t.node.isValid = true ∧
      (!(!(Elem.findAllText (node.chars ++ [({ tag := "tileParts", node := t.node } : BoxResult).charsElem])
        ["coc", "ccoc"]).isEmpty) ||
        decide (Elem.findAllText (node.chars ++ [({ tag := "tileParts", node := t.node } : BoxResult).charsElem])
        ["coc", "ccoc"]).Nodup) = true ∧
      (!(!(Elem.findAllText (node.chars ++ [({ tag := "tileParts", node := t.node } : BoxResult).charsElem])
        ["qcc", "cqcc"]).isEmpty) ||
        decide (Elem.findAllText (node.chars ++ [({ tag := "tileParts", node := t.node } : BoxResult).charsElem])
        ["qcc", "cqcc"]).Nodup) = true ∧
      slice b ((b.length : Int) - 2) b.length = mEOC) := by
  unfold codestreamFinish at h
  simp only at h
  split at h
  · obtain ⟨depths, h1, h⟩ := Outcome.bind_eq_ok.1 h
    obtain ⟨y, h2, h⟩ := Outcome.bind_eq_ok.1 h
    obtain ⟨y', h3, h⟩ := Outcome.bind_eq_ok.1 h
    obtain ⟨x, h4, h⟩ := Outcome.bind_eq_ok.1 h
    obtain ⟨x', h5, h⟩ := Outcome.bind_eq_ok.1 h
    cases h
    constructor
    · simp only [Node.addChar, testFor_chars, testIf_chars, Node.absorb, List.append_assoc]
      exact ⟨_, rfl⟩
    · simp only [isValid_addChar, isValid_testFor, isValid_testIf, isValid_absorb, Bool.and_eq_true,
        decide_eq_true_eq, testFor_chars, testIf_chars, absorb_chars, and_assoc]
      cases t.expected.isEmpty <;> simp
  · cases h
    constructor
    · simp only [Node.addChar, testFor_chars, testIf_chars, Node.absorb, List.append_assoc]
      exact ⟨_, rfl⟩
    · simp only [isValid_addChar, isValid_testFor, isValid_testIf, isValid_absorb, Bool.and_eq_true,
        decide_eq_true_eq, testFor_chars, testIf_chars, absorb_chars, and_assoc]
      cases t.expected.isEmpty <;> simp

/-- After an accepted SIZ segment the last step does not raise an exception. -/
theorem finish_ok (o : Options) (b : Bytes) {r : BoxResult} {c : Bytes} {env fuel csiz}
    (h : validateLeaf env o fuel csiz mSIZ c = .ok r) (nTiles : Int) (node : Node) (t : TileState) :
    ∃ n, codestreamFinish o b r.node.chars nTiles node t = .ok n := by
  obtain ⟨-, -, h1, h2, h3, -, -, -, h4⟩ := siz_text h
  unfold codestreamFinish
  simp only
  split
  · rw [reported_all h4, needInts_map, reported_text h1, reported_text h2, reported_text h3]
    simp only [needInt, Outcome.bind_ok]
    exact ⟨_, rfl⟩
  · exact ⟨_, rfl⟩

theorem cap_test {c : Bytes} {r : Nat} (h : uint c 2 2 = some r) :
    low (shr (r : Int) 14) 4 = 1 ↔ FieldIs c 2 2 (fun r => bit 14 r = 1 ∧ bit 15 r = 0) := by
  have hr := uint_lt h
  rw [shr_div, low_mod]
  simp only [FieldIs, h, Option.some.injEq, exists_eq_left', bit]
  omega

theorem eoc_test {b : Bytes} :
    slice b ((b.length : Int) - 2) b.length = mEOC ↔ 2 ≤ b.length ∧ sub b (b.length - 2) 2 = EOC := by
  by_cases h : 2 ≤ b.length
  · rw [slice_at b (b.length - 2) 2 (by omega) (by omega)]
    exact ⟨fun e => ⟨h, e⟩, fun e => e.2⟩
  · constructor
    · intro e
      exfalso
      have h2 : (slice b ((b.length : Int) - 2) b.length).length = 2 := by rw [e]; rfl
      unfold slice at h2
      simp at h2
      omega
    · exact fun e => absurd e.1 h

/-- The node after the main header. -/
def mainNode (o : Options) (s : MainState) (rsiz : Int) : Node :=
  ((((s.node.addChar "ppmCount" (.int s.ppmCount)).addChar "plmCount" (.int s.plmCount)).testFor o.verbose
    "foundCODMarker" s.foundCOD).testFor o.verbose "foundQCDMarker" s.foundQCD).testIf o.verbose
    (decide (low (shr rsiz 14) 4 = 1)) "foundCAPMarker" s.foundCAP

/-- The node before the main header. -/
def headNode (o : Options) (b : Bytes) (r : BoxResult) : Node :=
  ((({} : Node).testFor o.verbose "codestreamStartsWithSOCMarker" (decide (sub b 0 2 = mSOC))).testFor
    o.verbose "foundSIZMarker" true).absorb r

/-- State at the start of the main header loop. -/
def mainStart (o : Options) (b : Bytes) (r : BoxResult) (next : Int) : MainState :=
  { node := headNode o b r, foundCOD := false, foundQCD := false, foundCAP := false, foundPRF := false,
    foundCPF := false, plmCount := 0, ppmCount := 0, marker := mSIZ, offset := next, offsetNext := next }

/-- State at the start of the tile-part loop. -/
def tileStart (n : Int) (ss : List FoundSeg) (e : Option Nat) : TileState :=
  { node := {}, tileIndices := [], expected := [], found := List.replicate (rangeLen n) 0,
    marker := lastMarker mSOT ss e, offset := match e with | some k => (k : Int) | none => -9999 }

theorem tileLoop_stop {tp b fuel s} (h : s.marker ≠ mSOT) : tileLoop tp b (fuel + 1) s = .ok s := by
  rw [tileLoop, if_neg h]

/-- The codestream in the case that the second marker is SIZ. -/
theorem codestream_eq {env : Env} {o : Options} {fuel : Nat} {b c : Bytes} {n : Option Nat} {n0 : Option Nat}
    {m0 c0 : Bytes} (h0 : SegAt b 0 m0 c0 n0) {k : Nat} (hk : n0 = some k)
    (h : SegAt b k mSIZ c n) :
    codestream env o fuel b =
      validateLeaf env o fuel none mSIZ c >>= fun r =>
      needInt (Elem.findElementText r.node.chars ["csiz"]) >>= fun csiz =>
      mainLoop (segV env o fuel) o.packetmarkers (some csiz) b fuel (mainStart o b r (intOf n)) >>= fun s =>
      needInt (Elem.findElementText
        ((((s.node.addChar "ppmCount" (.int s.ppmCount)).addChar "plmCount" (.int s.plmCount)).testFor
          o.verbose "foundCODMarker" s.foundCOD).testFor o.verbose "foundQCDMarker" s.foundQCD).chars
        ["siz", "rsiz"]) >>= fun rsiz =>
      needInt (Elem.findElementText (mainNode o s rsiz).chars ["siz", "numberOfTiles"]) >>= fun tiles =>
      tileLoop (fun off => tilePart env o fuel (some csiz) off b) b fuel
        { node := {}, tileIndices := [], expected := [],
          found := List.replicate (rangeLen (min tiles 65535)) 0,
          marker := s.marker, offset := s.offset } >>= fun t =>
      codestreamFinish o b r.node.chars (min tiles 65535) (mainNode o s rsiz) t := by
  obtain ⟨n', hs', hn'⟩ := getMarkerSegment_spec b 0
  obtain ⟨e1, e2, e3⟩ := segAt_unique h0 hs'
  subst e3
  subst hk
  rw [show ((0 : Nat) : Int) = 0 from rfl] at hs' hn' e1 e2
  have em := segAt_marker h0
  obtain ⟨n'', hs'', hn''⟩ := getMarkerSegment_spec b k
  obtain ⟨f1, f2, f3⟩ := segAt_unique h hs''
  subst f3
  unfold codestream
  simp only [← e1, em]
  rw [hn']
  simp only [intOf]
  simp only [← f1, ← f2, hn'', decide_true, if_true]
  rfl

theorem hasSeg_any {ss : List FoundSeg} {m : Bytes} :
    (false || ss.any fun x => x.marker == m) = true ↔ HasSeg ss m := by
  simp [HasSeg]

theorem mainMarkers_eq : mainMarkers = mainSegments := rfl

theorem headNode_chars (o : Options) (b : Bytes) (r : BoxResult) : (headNode o b r).chars = [r.charsElem] := by
  unfold headNode
  rw [absorb_chars, testFor_chars, testFor_chars]; rfl

section
variable {env : Env} {o : Options} {fuel csiz : Nat} {b : Bytes} {ss : List FoundSeg}
  {e : Option Nat} {rs : List (Bytes × BoxResult)} {r : BoxResult} {next : Int}

theorem mainNode_chars (hrsiz : Int) : ∃ rest,
    (mainNode o (mainEnd b o.packetmarkers (mainStart o b r next) ss e rs) hrsiz).chars =
      r.charsElem :: rest := by
  obtain ⟨rest, h⟩ := absorbSegs_chars o.packetmarkers [mPLM, mPPM] rs (headNode o b r)
  rw [headNode_chars] at h
  unfold mainNode
  simp only [testIf_chars, testFor_chars, Node.addChar, mainEnd, mainStart, h, List.cons_append,
    List.append_assoc]
  exact ⟨_, rfl⟩

theorem mainNode_valid (hrsiz : Int) :
    (mainNode o (mainEnd b o.packetmarkers (mainStart o b r next) ss e rs) hrsiz).isValid = true ↔
      sub b 0 2 = mSOC ∧ r.node.isValid = true ∧ (rs.all fun r => r.2.node.isValid) = true ∧
      HasSeg ss COD ∧ HasSeg ss QCD ∧ (low (shr hrsiz 14) 4 = 1 → HasSeg ss CAP) := by
  unfold mainNode
  simp only [isValid_testIf, isValid_testFor, isValid_addChar, mainEnd, mainStart, isValid_absorbSegs,
    headNode, isValid_absorb, Bool.and_eq_true, hasSeg_any, decide_eq_true_eq]
  have h0 : ({} : Node).isValid = true := rfl
  have hc : (!decide (low (shr hrsiz 14) 4 = 1) || (false || ss.any fun x => x.marker == mCAP)) = true ↔
      (low (shr hrsiz 14) 4 = 1 → HasSeg ss CAP) := by
    by_cases h : low (shr hrsiz 14) 4 = 1
    · have : HasSeg ss CAP ↔ HasSeg ss mCAP := Iff.rfl
      simp only [h, decide_true, Bool.not_true, true_implies, this, ← hasSeg_any, Bool.false_or]
    · simp [h]
  rw [hc]
  have hcod : HasSeg ss COD ↔ HasSeg ss mCOD := Iff.rfl
  have hqcd : HasSeg ss QCD ↔ HasSeg ss mQCD := Iff.rfl
  simp only [h0, hcod, hqcd, true_and, and_true, and_assoc]

/-- COC and QCC of the main header as they are looked up. -/
theorem main_onePer
    (h : inTurn (segRun (segV env o fuel) (some (csiz : Int)))
      (ss.filter fun x => decide (x.marker ∈ mainMarkers)) = .ok rs)
    (hr : r.tag = "siz") (hrsiz : Int) (tn : Node) {k : Bytes} {bt : BoxType} {u : String}
    (hl : k ∈ mainMarkers) (hq : k ∉ [mPLM, mPPM]) (hk : typeMap.lookup k = some bt)
    (ht : bt ≠ .unknownBox)
    (hf : ∀ (x : FoundSeg) y, x.marker = k → validateLeaf env o fuel (some csiz) k x.contents = .ok y →
      Elem.findAllText y.node.chars [u] = [PyVal.int (intOf (uint x.contents 2 (compWidth csiz)))])
    (n1 : bt.name ≠ "siz") (n2 : "ppmCount" ≠ bt.name) (n3 : "plmCount" ≠ bt.name)
    (n4 : bt.name ≠ "tileParts") :
    Elem.findAllText ((mainNode o (mainEnd b o.packetmarkers (mainStart o b r next) ss e rs) hrsiz).chars ++
      [({ tag := "tileParts", node := tn } : BoxResult).charsElem]) [bt.name, u] =
      (ss.filter fun x => x.marker == k).map fun x =>
        PyVal.int (intOf (uint x.contents 2 (compWidth csiz))) := by
  have other : ∀ (x : BoxResult), bt.name ≠ x.tag → Elem.findAllText [x.charsElem] [bt.name, u] = [] := by
    intro x hx
    have h1 := findAllText_results [x] bt.name u []
    rw [List.map_cons, List.map_nil] at h1
    have : (x.tag == bt.name) = false := by simp; exact fun h => hx h.symm
    rw [h1, List.filter_cons]
    simp [this]
  have hv := header_values (q := [mPLM, mPPM]) h hl hq hk ht hf o.packetmarkers (headNode o b r)
  rw [headNode_chars, other r (by rw [hr]; exact n1), List.nil_append] at hv
  rw [findAllText_append, other _ n4, List.append_nil]
  unfold mainNode
  simp only [testIf_chars, testFor_chars, Node.addChar, mainEnd, mainStart]
  rw [findAllText_append, findAllText_append, hv]
  have l1 : ∀ {a : String} {v : PyVal}, a ≠ bt.name → Elem.findAllText [Elem.leaf a v] [bt.name, u] = [] := by
    intro a v ha
    unfold Elem.findAllText
    rw [findall_leaf ha]; rfl
  rw [l1 n2, l1 n3, List.append_nil, List.append_nil]

theorem main_coc
    (h : inTurn (segRun (segV env o fuel) (some (csiz : Int)))
      (ss.filter fun x => decide (x.marker ∈ mainMarkers)) = .ok rs)
    (hr : r.tag = "siz") (hrsiz : Int) (tn : Node) :
    Elem.findAllText ((mainNode o (mainEnd b o.packetmarkers (mainStart o b r next) ss e rs) hrsiz).chars ++
      [({ tag := "tileParts", node := tn } : BoxResult).charsElem]) ["coc", "ccoc"] =
      (ss.filter fun x => x.marker == mCOC).map fun x =>
        PyVal.int (intOf (uint x.contents 2 (compWidth csiz))) :=
  main_onePer (bt := .coc) h hr hrsiz tn (by decide) (by decide) (by decide) (by decide)
    (fun x y _ hy => coc_index hy) (by decide) (by decide) (by decide) (by decide)

theorem main_qcc
    (h : inTurn (segRun (segV env o fuel) (some (csiz : Int)))
      (ss.filter fun x => decide (x.marker ∈ mainMarkers)) = .ok rs)
    (hr : r.tag = "siz") (hrsiz : Int) (tn : Node) :
    Elem.findAllText ((mainNode o (mainEnd b o.packetmarkers (mainStart o b r next) ss e rs) hrsiz).chars ++
      [({ tag := "tileParts", node := tn } : BoxResult).charsElem]) ["qcc", "cqcc"] =
      (ss.filter fun x => x.marker == mQCC).map fun x =>
        PyVal.int (intOf (uint x.contents 2 (compWidth csiz))) :=
  main_onePer (bt := .qcc) h hr hrsiz tn (by decide) (by decide) (by decide) (by decide)
    (fun x y _ hy => qcc_index hy) (by decide) (by decide) (by decide) (by decide)
end

theorem isCeil_unique {a d q q' : Int} (hd : 0 < d) (h : IsCeil a d q) (h' : IsCeil a d q') : q = q' := by
  unfold IsCeil at h h'
  have h1 : d * (q - 1) < d * q' := by omega
  have h2 : d * (q' - 1) < d * q := by omega
  have h1 := Int.lt_of_mul_lt_mul_left h1 (by omega)
  have h2 := Int.lt_of_mul_lt_mul_left h2 (by omega)
  omega

theorem tileCount_unique {c : Bytes} {n m : Int} (hx : FieldIs c 20 4 (1 ≤ ·)) (hy : FieldIs c 24 4 (1 ≤ ·))
    (h : TileCount c n) (h' : TileCount c m) : n = m := by
  obtain ⟨x, hx, px⟩ := hx
  obtain ⟨y, hy, py⟩ := hy
  obtain ⟨a1, a2, a3, a4, a5, a6, q1, q2, h1, h2, h3, h4, h5, h6, h7, h8, rfl⟩ := h
  obtain ⟨b1, b2, b3, b4, b5, b6, p1, p2, g1, g2, g3, g4, g5, g6, g7, g8, rfl⟩ := h'
  rw [h1] at g1; rw [h2] at g2; rw [h3] at g3; rw [h4] at g4; rw [h5] at g5; rw [h6] at g6
  cases g1; cases g2; cases g3; cases g4; cases g5; cases g6
  rw [hx] at h3; rw [hy] at h4
  cases h3; cases h4
  rw [isCeil_unique (by omega) h7 g7, isCeil_unique (by omega) h8 g8]

theorem mainLoop_invalid {seg pm csiz b} : ∀ fuel s s',
    mainLoop seg pm csiz b fuel s = .ok s' → s.node.isValid = false → s'.node.isValid = true → False := by
  intro fuel
  induction fuel with
  | zero => intro s s' h; cases h
  | succ fuel ih =>
    intro s s' h hs hv
    rw [mainLoop] at h
    split at h
    · obtain ⟨s1, h1, h⟩ := Outcome.bind_eq_ok.1 h
      rw [mainStep_eq] at h1
      simp only at h1
      split at h1
      · obtain ⟨r, -, h1⟩ := Outcome.bind_eq_ok.1 h1
        cases h1
        refine ih _ _ h ?_ hv
        simp only
        split <;> simp [isValid_absorb, isValid_absorbPacket, hs]
      · cases h1
        exact ih _ _ h hs hv
    · cases h
      rw [hs] at hv; cases hv

/-- An accepted codestream has conforming parts. -/
theorem codestream_forward {env : Env} {o : Options} {fuel : Nat} {b : Bytes} {n : Node}
    (h : codestream env o fuel b = .ok n) (hv : n.isValid = true) :
    ∃ p : CodestreamParts, p.Ok env o b ∧ ∃ r rest,
      validateLeaf env o fuel none mSIZ p.siz = .ok r ∧ NoFailure r.node.tests ∧
      n.chars = r.charsElem :: rest := by
  -- the first two markers
  obtain ⟨n0, hs0, hn0⟩ := getMarkerSegment_spec b 0
  have hsiz : (getMarkerSegment b (getMarkerSegment b 0).next).marker = mSIZ := by
    refine Classical.byContradiction fun hne => ?_
    unfold codestream at h
    simp only [hne, if_false, decide_false] at h
    cases h
    simp [isValid_testFor] at hv
  have hsoc : sub b 0 2 = mSOC := by
    refine Classical.byContradiction fun hne => ?_
    unfold codestream at h
    simp only [hsiz, if_true, decide_true] at h
    obtain ⟨r, h1, h⟩ := Outcome.bind_eq_ok.1 h
    obtain ⟨csiz, h2, h⟩ := Outcome.bind_eq_ok.1 h
    obtain ⟨s, h3, h⟩ := Outcome.bind_eq_ok.1 h
    obtain ⟨rsiz, h4, h⟩ := Outcome.bind_eq_ok.1 h
    obtain ⟨tiles, h5, h⟩ := Outcome.bind_eq_ok.1 h
    obtain ⟨t, h6, h⟩ := Outcome.bind_eq_ok.1 h
    have hv' := ((finish_spec h).2.1 hv).1
    simp only [isValid_testIf, isValid_testFor, isValid_addChar, Bool.and_eq_true] at hv'
    have hv'' := hv'.1.1.1
    exact mainLoop_invalid _ _ _ h3 (by
      have em := segAt_marker hs0
      have : (getMarkerSegment b 0).marker ≠ mSOC := by
        rw [show (0 : Int) = ((0 : Nat) : Int) from rfl, em]; exact hne
      simp [isValid_absorb, isValid_testFor, this]) hv''
  have hn02 : n0 = some 2 := by
    have em := segAt_marker hs0
    rw [hsoc] at em
    rw [em] at hs0
    generalize hm : mSOC = mm at hs0
    generalize (getMarkerSegment b ((0 : Nat) : Int)).contents = cc at hs0
    cases hs0 with
    | alone => rfl
    | seg hd => exact absurd (show sub b 0 2 ∈ delimiters by rw [hsoc]; decide) hd
    | noLength hd => exact absurd (show sub b 0 2 ∈ delimiters by rw [hsoc]; decide) hd
  subst hn02
  rw [show ((0 : Nat) : Int) = 0 from rfl] at hn0
  rw [hn0] at hsiz
  obtain ⟨n1, hs1, hn1⟩ := getMarkerSegment_spec b 2
  rw [show ((2 : Nat) : Int) = 2 from rfl] at hs1
  rw [show (intOf (some 2) : Int) = 2 from rfl] at hsiz
  rw [hsiz] at hs1
  generalize (getMarkerSegment b 2).contents = c at hs1
  rw [codestream_eq hs0 rfl hs1] at h
  obtain ⟨r, h1, h⟩ := Outcome.bind_eq_ok.1 h
  obtain ⟨csiz, h2, h⟩ := Outcome.bind_eq_ok.1 h
  obtain ⟨s, h3, h⟩ := Outcome.bind_eq_ok.1 h
  obtain ⟨rsiz, h4, h⟩ := Outcome.bind_eq_ok.1 h
  obtain ⟨tiles, h5, h⟩ := Outcome.bind_eq_ok.1 h
  obtain ⟨t, h6, h⟩ := Outcome.bind_eq_ok.1 h
  obtain ⟨⟨rest, hrest⟩, hfin⟩ := finish_spec h
  obtain ⟨hmv, hidx, hdict, htv, hcoc, hqcc, heoc⟩ := hfin.1 hv
  have hrv : r.node.isValid = true := by
    cases hrv : r.node.isValid with
    | true => rfl
    | false =>
      exfalso
      refine mainLoop_invalid _ _ _ h3 (by simp [mainStart, headNode, isValid_absorb, hrv]) ?_
      unfold mainNode at hmv
      simp only [isValid_testIf, isValid_testFor, isValid_addChar, Bool.and_eq_true] at hmv
      exact hmv.1.1.1
  have hacc : Accepted (validateLeaf env o fuel none mSIZ c) := ⟨r, h1, (isValid_iff _).1 hrv⟩
  have hok := (C26_siz_partial env o fuel none c).1 hacc
  obtain ⟨⟨-, -, -, -, -, hxt, hyt, -, -, ⟨cs, hcs, -⟩⟩, ⟨rz, hrz, -⟩⟩ := hok
  obtain ⟨htag, trsiz, -, -, -, -, tcsiz, -⟩ := siz_text h1
  rw [reported_text tcsiz, hcs] at h2
  cases h2
  obtain ⟨first, rfl⟩ : ∃ f, n1 = some f := by
    cases n1 with
    | some f => exact ⟨f, rfl⟩
    | none =>
      exfalso
      have : c = [] := by generalize mSIZ = mm at hs1; cases hs1; rfl
      subst this
      simp [uint] at hcs
  -- the main header
  obtain ⟨ss, e, hse⟩ := segsTo_exists b mSOT _ first (Nat.le_refl _)
  have h3' := (mainLoop_le (seg1 := segV env o fuel) (fun _ _ _ => .refl _) o.packetmarkers
    (some (cs : Int)) b _ (show fuel ≤ fuel + ss.length + 2 by omega)).ok h3
  rw [mainLoop_eq hse (by omega) (show mSIZ ≠ mSOT by decide) (by simp [mainStart, intOf]) rfl] at h3'
  obtain ⟨rs, hrs, hs⟩ := Outcome.bind_eq_ok.1 h3'
  cases hs
  obtain ⟨rest', hch⟩ := mainNode_chars (o := o) (b := b) (ss := ss) (e := e) (rs := rs) (r := r)
    (next := intOf (some first)) rsiz
  have h4' : rsiz = (rz : Int) := by
    have : Elem.findElementText (mainNode o (mainEnd b o.packetmarkers (mainStart o b r
        (intOf (some first))) ss e rs) rsiz).chars ["siz", "rsiz"] = some (.int (rz : Int)) := by
      rw [hch, first_text htag trsiz, hrz]; rfl
    rw [show (mainNode o (mainEnd b o.packetmarkers (mainStart o b r
        (intOf (some first))) ss e rs) rsiz).chars = _ from testIf_chars ..] at this
    rw [this] at h4
    cases h4; rfl
  subst h4'
  obtain ⟨hSOC, -, hrsv, hcod, hqcd, hcap⟩ := (mainNode_valid _).1 hmv
  obtain ⟨a1, a2, a3, a4, a5, a6, q1, q2, g1, g2, g3, g4, g5, g6, g7, g8, g9⟩ :=
    C26_tiles env o fuel none c r h1 ((isValid_iff _).1 hrv)
  have htc : TileCount c tiles := by
    rw [hch, first_text htag g9] at h5
    cases h5
    exact ⟨a1, a2, a3, a4, a5, a6, q1, q2, g1, g2, g3, g4, g5, g6, g7, g8, rfl⟩
  -- the tile-parts
  obtain ⟨tps, hvis, htok, hrun⟩ : ∃ tps, (match e with
      | some k => Visited b (min tiles 65535) k tps
      | none => tps = []) ∧ (∀ t ∈ tps, t.Ok env o cs b) ∧
      TileRun (tileStart (min tiles 65535) ss e) t tps := by
    cases e with
    | none =>
      have hne : lastMarker mSOT ss none ≠ mSOT := by
        intro hh
        have := (lastMarker_eq hse).1 hh
        cases this
      cases fuel with
      | zero => cases h6
      | succ fuel =>
        have h6' := (tileLoop_stop (s := tileStart (min tiles 65535) ss none) hne).symm.trans h6
        cases h6'
        exact ⟨[], rfl, by simp, rfl, rfl, rfl⟩
    | some k =>
      have hm : lastMarker mSOT ss (some k) = mSOT := (lastMarker_eq hse).2 rfl
      obtain ⟨-, ts, hv1, hv2, hv3⟩ := tileLoop_forward (n := min tiles 65535) _ _ k _ h6 hm rfl
        (by simp [rangeLen]) htv
      exact ⟨ts, hv1, hv2, hv3⟩
  have e1 := hrun.indices
  have e2 := hrun.expected
  have e3 := hrun.found
  simp only [tileStart] at e1 e2 e3
  rw [e1] at hidx
  rw [e2, e3] at hdict
  refine ⟨⟨c, first, cs, ss, e, tiles, tps⟩,
    { soc := hSOC, sizAt := hs1
      sizPasses := ⟨fuel, hacc⟩
      csiz := hcs, mainAt := hse
      mainPasses := accepted_segs hrs hrsv
      cod := hcod, qcd := hqcd
      cap := fun hc => hcap ((cap_test hrz).2 hc)
      tiles := htc, visited := hvis, tpsOk := htok
      indices := (indices_spec tps _).1 hidx
      declared := fun hd => (dictEq_spec tps _).1 (hdict ((declared_any tps).2 hd))
      coc := (onePer_test (main_coc hrs htag _ _)).1 hcoc
      qcc := (onePer_test (main_qcc hrs htag _ _)).1 hqcc
      eoc := eoc_test.1 heoc }, r, rest' ++ rest, h1, (isValid_iff _).1 hrv, ?_⟩
  rw [hrest, hch]; rfl

/-- Conforming parts make an accepted codestream. -/
theorem codestream_backward {env : Env} {o : Options} {b : Bytes} {p : CodestreamParts}
    (hp : p.Ok env o b) : ∃ fuel n, codestream env o fuel b = .ok n ∧ n.isValid = true := by
  obtain ⟨f0, hf0⟩ := hp.sizPasses
  obtain ⟨f1, hf1⟩ := segs_accepted hp.mainPasses
  obtain ⟨f2, hf2⟩ : ∃ f0, ∀ fuel, f0 ≤ fuel → ∃ t, tileLoop
      (fun off => tilePart env o fuel (some (p.csiz : Int)) off b) b fuel
      (tileStart (min p.tiles 65535) p.main p.sot) = .ok t ∧
      t.node.isValid = true ∧ t.tileIndices = p.tps.foldl addIndex [] ∧
      t.expected = p.tps.foldl addDeclared [] ∧
      t.found = p.tps.foldl addFound (List.replicate (min p.tiles 65535).toNat 0) := by
    have hvis := hp.visited
    have hmain := hp.mainAt
    cases hsot : p.sot with
    | none =>
      rw [hsot] at hvis hmain
      simp only at hvis
      refine ⟨1, fun fuel hf => ?_⟩
      obtain ⟨fuel, rfl⟩ : ∃ k, fuel = k + 1 := ⟨fuel - 1, by omega⟩
      have hne : lastMarker mSOT p.main none ≠ mSOT := by
        intro hh
        have := (lastMarker_eq hmain).1 hh
        cases this
      rw [tileLoop_stop hne, hvis]
      exact ⟨_, rfl, rfl, rfl, rfl, rfl⟩
    | some k =>
      rw [hsot] at hvis hmain
      simp only at hvis
      obtain ⟨f2, hf2⟩ := tileLoop_backward hvis hp.tpsOk
      refine ⟨f2, fun fuel hf => ?_⟩
      have hm : lastMarker mSOT p.main (some k) = mSOT := (lastMarker_eq hmain).2 rfl
      obtain ⟨s', g1, g2, g3, g4, g5⟩ := hf2 fuel fuel
        (tileStart (min p.tiles 65535) p.main (some k)) hf hf hm rfl (by simp [rangeLen, tileStart])
      exact ⟨s', g1, g2, g3, g4, g5⟩
  obtain ⟨fuel, h0, h1, h2, h3⟩ : ∃ fuel, f0 ≤ fuel ∧ f1 ≤ fuel ∧ f2 ≤ fuel ∧ p.main.length + 1 < fuel :=
    ⟨f0 + f1 + f2 + p.main.length + 2, by omega, by omega, by omega, by omega⟩
  have hacc : Accepted (validateLeaf env o fuel none mSIZ p.siz) :=
    accepted_mono (f := fun k => validateLeaf env o k none mSIZ p.siz)
      (fun _ _ h => validateLeaf_le env o h ..) h0 hf0
  obtain ⟨r, hr, hrn⟩ := hacc
  have hrv := (isValid_iff _).2 hrn
  obtain ⟨rs, hrs, hrsv⟩ := hf1 fuel h1
  obtain ⟨t, ht, htv, hti, hte, htf⟩ := hf2 fuel h2
  have hs0 : SegAt b 0 mSOC [] (some 2) := by
    have := SegAt.alone (b := b) (off := 0) (by rw [hp.soc]; decide)
    rw [hp.soc] at this
    exact this
  obtain ⟨htag, trsiz, -, -, -, -, tcsiz, -⟩ := siz_text hr
  obtain ⟨⟨-, -, -, -, -, hxt, hyt, -, -, -⟩, ⟨rz, hrz, -⟩⟩ :=
    (C26_siz_partial env o fuel none p.siz).1 ⟨r, hr, hrn⟩
  obtain ⟨a1, a2, a3, a4, a5, a6, q1, q2, g1, g2, g3, g4, g5, g6, g7, g8, g9⟩ :=
    C26_tiles env o fuel none p.siz r hr hrn
  have htc : p.tiles = q1 * q2 := tileCount_unique hxt hyt hp.tiles
    ⟨a1, a2, a3, a4, a5, a6, q1, q2, g1, g2, g3, g4, g5, g6, g7, g8, rfl⟩
  have hmain := mainLoop_eq (seg := segV env o fuel) (pm := o.packetmarkers)
    (csiz := some (p.csiz : Int)) hp.mainAt (fuel := fuel)
    (s := mainStart o b r (intOf (some p.first))) h3 (show mSIZ ≠ mSOT by decide)
    (by simp [mainStart, intOf]) rfl
  have hrs' : inTurn (segRun (segV env o fuel) (some (p.csiz : Int)))
      (p.main.filter fun x => decide (x.marker ∈ mainMarkers)) = .ok rs := hrs
  rw [hrs', Outcome.bind_ok] at hmain
  obtain ⟨rest', hch⟩ := mainNode_chars (o := o) (b := b) (ss := p.main) (e := p.sot) (rs := rs) (r := r)
    (next := intOf (some p.first)) rz
  obtain ⟨n, hn⟩ := finish_ok o b hr (min p.tiles 65535) (mainNode o (mainEnd b o.packetmarkers
    (mainStart o b r (intOf (some p.first))) p.main p.sot rs) rz) t
  refine ⟨fuel, n, ?_, (finish_spec hn).2.2 ⟨?_, ?_, ?_, htv, ?_, ?_, ?_⟩⟩
  · rw [codestream_eq hs0 rfl hp.sizAt, hr, Outcome.bind_ok, reported_text tcsiz, hp.csiz]
    rw [show needInt (some (PyVal.int (intOf (some p.csiz)))) = .ok (p.csiz : Int) from rfl,
      Outcome.bind_ok, hmain, Outcome.bind_ok]
    have : Elem.findElementText (mainNode o (mainEnd b o.packetmarkers (mainStart o b r
        (intOf (some p.first))) p.main p.sot rs) rz).chars ["siz", "rsiz"] = some (.int (rz : Int)) := by
      rw [hch, first_text htag trsiz, hrz]; rfl
    rw [show (mainNode o (mainEnd b o.packetmarkers (mainStart o b r
        (intOf (some p.first))) p.main p.sot rs) rz).chars = _ from testIf_chars ..] at this
    rw [this, show needInt (some (PyVal.int (rz : Int))) = .ok (rz : Int) from rfl, Outcome.bind_ok, hch,
      first_text htag g9, show needInt (some (PyVal.int (q1 * q2))) = .ok (q1 * q2) from rfl,
      Outcome.bind_ok, ← htc]
    exact (congrArg (· >>= _) ht).trans hn
  · rw [mainNode_valid]
    exact ⟨hp.soc, hrv, hrsv, hp.cod, hp.qcd, fun hc => hp.cap ((cap_test hrz).1 hc)⟩
  · rw [hti]; exact (indices_spec p.tps _).2 hp.indices
  · rw [hte, htf]
    exact fun hd => (dictEq_spec p.tps _).2 (hp.declared ((declared_any p.tps).1 hd))
  · exact (onePer_test (main_coc hrs' htag _ _)).2 hp.coc
  · exact (onePer_test (main_qcc hrs' htag _ _)).2 hp.qcc
  · exact eoc_test.2 hp.eoc

end Jpy
