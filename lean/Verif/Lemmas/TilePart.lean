import Verif.Lemmas.Segs
import Verif.Spec.Codestream
import Verif.Props.Segments
/-! # Tile-parts -/

set_option linter.unusedSimpArgs false

namespace Jpy
open Spec

/-- `validateLeaf` with fuel, as the loops use it. -/
abbrev segV (env : Env) (o : Options) (fuel : Nat) : Bytes → Bytes → Option Int → Outcome BoxResult :=
  fun mk c cs => validateLeaf env o fuel cs mk c

/-- Only five kinds of segments depend on the number of components. -/
theorem validateLeaf_csiz {env o fuel m c} (h : m ∉ csizMarkers) (cs cs' : Option Int) :
    validateLeaf env o fuel cs m c = validateLeaf env o fuel cs' m c := by
  unfold validateLeaf
  have : leaf env o fuel cs (boxTypeOf m) m c = leaf env o fuel cs' (boxTypeOf m) m c := by
    cases hb : boxTypeOf m <;> try rfl
    · exact absurd ((boxTypeOf_iff (k := mCOC) rfl (by decide) m).1 hb ▸ by decide) h
    · exact absurd ((boxTypeOf_iff (k := mRGN) rfl (by decide) m).1 hb ▸ by decide) h
    · exact absurd ((boxTypeOf_iff (k := mQCC) rfl (by decide) m).1 hb ▸ by decide) h
    · exact absurd ((boxTypeOf_iff (k := mPOC) rfl (by decide) m).1 hb ▸ by decide) h
    · exact absurd ((boxTypeOf_iff (k := mCRG) rfl (by decide) m).1 hb ▸ by decide) h
  rw [this]

theorem segRun_ok {env o fuel} {csiz : Int} {x : FoundSeg} {y} :
    segRun (segV env o fuel) (some csiz) x = .ok y ↔
      y.1 = x.marker ∧ validateLeaf env o fuel (some csiz) x.marker x.contents = .ok y.2 := by
  unfold segRun segV
  have : validateLeaf env o fuel (if x.marker ∈ csizMarkers then some csiz else none) x.marker x.contents
      = validateLeaf env o fuel (some csiz) x.marker x.contents := by
    split
    · rfl
    · rename_i h; exact validateLeaf_csiz h _ _
  rw [this]
  constructor
  · intro h
    obtain ⟨r, hr, h⟩ := Outcome.bind_eq_ok.1 h
    cases h
    exact ⟨rfl, hr⟩
  · rintro ⟨h1, h2⟩
    rw [h2]
    obtain ⟨a, b⟩ := y
    cases h1; rfl

theorem validateLeaf_tag {env o fuel cs m c r} (h : validateLeaf env o fuel cs m c = .ok r) :
    r.tag = (boxTypeOf m).name := by
  obtain ⟨ss, -, h⟩ := Outcome.bind_eq_ok.1 h
  cases h; rfl

theorem segRun_tag {env o fuel} {csiz : Int} {x : FoundSeg} {y}
    (h : segRun (segV env o fuel) (some csiz) x = .ok y) {k : Bytes} {bt : BoxType}
    (hk : typeMap.lookup k = some bt) (ht : bt ≠ .unknownBox) :
    (y.2.tag == bt.name) = (x.marker == k) := by
  rw [validateLeaf_tag (segRun_ok.1 h).2, Bool.eq_iff_iff, beq_iff_eq, beq_iff_eq, ← boxTypeOf_iff hk ht]
  exact ⟨name_inj, fun h => by rw [h]⟩

theorem isValid_absorbSegs (pm : Bool) (q : List Bytes) (rs : List (Bytes × BoxResult)) (n : Node) :
    (absorbSegs pm q n rs).isValid = (n.isValid && rs.all fun r => r.2.node.isValid) := by
  unfold absorbSegs
  induction rs generalizing n with
  | nil => simp
  | cons r rs ih =>
    rw [List.foldl_cons, ih, List.all_cons]
    split
    · rw [isValid_absorbPacket, Bool.and_assoc]
    · rw [isValid_absorb, Bool.and_assoc]

/-- Lookup of direct properties with a tag that no quiet segment has. -/
theorem filter_absorbSegs (pm : Bool) (q : List Bytes) (t : String) (rs : List (Bytes × BoxResult))
    (n : Node) (h : ∀ r ∈ rs, r.1 ∈ q → r.2.tag ≠ t) :
    (absorbSegs pm q n rs).chars.filter (·.tag == t) =
      n.chars.filter (·.tag == t) ++ (rs.filter (·.2.tag == t)).map (·.2.charsElem) := by
  unfold absorbSegs
  induction rs generalizing n with
  | nil => simp
  | cons r rs ih =>
    rw [List.foldl_cons, ih _ fun x hx => h x (by simp [hx])]
    have hr := h r (by simp)
    split
    · rename_i hq
      have : (r.2.tag == t) = false := by simpa using hr hq
      rw [List.filter_cons, if_neg (by simp [this])]
      unfold Node.absorbPacket Node.absorbQuiet Node.absorb
      cases pm
      · rfl
      · simp [List.filter_append, BoxResult.charsElem, this]
    · unfold Node.absorb
      by_cases ht : r.2.tag = t <;> simp [List.filter_append, BoxResult.charsElem, ht]

theorem findall_tag {cs cs' : List Elem} {t u : String} {ts : List String}
    (h : cs.filter (·.tag == t) = cs'.filter (·.tag == t)) :
    Elem.findall cs (t :: u :: ts) = Elem.findall cs' (t :: u :: ts) := by
  rw [findall_cons2, findall_cons2, h]

/-! ## Component indices of COC and QCC -/

theorem coc_index {env o fuel} {csiz : Int} {c r}
    (h : validateLeaf env o fuel (some csiz) mCOC c = .ok r) :
    Elem.findAllText r.node.chars ["ccoc"] = [.int (intOf (uint c 2 (compWidth csiz)))] := by
  obtain ⟨ss, h1, rfl⟩ := (validateLeaf_ok (t := .coc) (by decide)).1 h
  simp only [leaf, coc, withCsiz, Outcome.ok.injEq] at h1
  subst h1
  rw [findAllText_run]
  have e1 : ∀ a, repOf "ccoc" (codeBlockSteps o.format c a) = [] := by
    intro a; unfold codeBlockSteps; rep; split <;> simp
  have e2 : ∀ a p l, repOf "ccoc" (precinctSteps c a p l) = [] := by
    intro a p l; unfold precinctSteps; rep; split <;> simp
  simp only [repOf_append, e1, e2]
  rep
  unfold compIndex compWidth
  split
  · rw [u8_at c 2 (x := 2) (y := 3) rfl rfl]
  · rw [u16_at c 2 (x := 2) (y := 4) rfl rfl]

theorem qcc_index {env o fuel} {csiz : Int} {c r}
    (h : validateLeaf env o fuel (some csiz) mQCC c = .ok r) :
    Elem.findAllText r.node.chars ["cqcc"] = [.int (intOf (uint c 2 (compWidth csiz)))] := by
  obtain ⟨ss, h1, rfl⟩ := (validateLeaf_ok (t := .qcc) (by decide)).1 h
  simp only [leaf, qcc, withCsiz, Outcome.ok.injEq] at h1
  subst h1
  rw [findAllText_run]
  have e1 : ∀ a p l, repOf "cqcc" (quantSteps c a p l) = [] := by
    intro a p l; unfold quantSteps; rep; split <;> simp <;> split <;> simp <;> split <;> simp
  simp only [repOf_append, e1]
  rep
  unfold compWidth
  split
  · rw [u8_at c 2 (x := 2) (y := 3) rfl rfl]
  · rw [u16_at c 2 (x := 2) (y := 4) rfl rfl]

theorem intOf_inj {a b : Option Nat} (h : intOf a = intOf b) : a = b := by
  cases a <;> cases b <;> simp [intOf] at h ⊢ <;> omega

/-! ## Lookups in headers -/

theorem filter_handled {ss : List FoundSeg} {l : List Bytes} {k : Bytes} (hk : k ∈ l) :
    (ss.filter fun x => decide (x.marker ∈ l)).filter (fun x => x.marker == k) =
      ss.filter fun x => x.marker == k := by
  rw [List.filter_filter]
  congr 1
  funext x
  by_cases h : x.marker = k <;> simp [h, hk]

/-- Values in the segments with marker `k` of a header. -/
theorem header_values {env o fuel} {csiz : Int} {ss : List FoundSeg} {l q : List Bytes} {rs}
    (h : inTurn (segRun (segV env o fuel) (some csiz)) (ss.filter fun x => decide (x.marker ∈ l)) = .ok rs)
    {k : Bytes} {bt : BoxType} (hl : k ∈ l) (hq : k ∉ q) (hk : typeMap.lookup k = some bt)
    (ht : bt ≠ .unknownBox) {u : String} {f : FoundSeg → PyVal}
    (hf : ∀ x r, x.marker = k → validateLeaf env o fuel (some csiz) k x.contents = .ok r →
      Elem.findAllText r.node.chars [u] = [f x]) (pm : Bool) (n : Node) :
    Elem.findAllText (absorbSegs pm q n rs).chars [bt.name, u] =
      Elem.findAllText n.chars [bt.name, u] ++ (ss.filter fun x => x.marker == k).map f := by
  have hfil : ∀ r ∈ rs, r.1 ∈ q → r.2.tag ≠ bt.name := by
    intro r hr hrq
    obtain ⟨x, -, hx⟩ := inTurn_mem' h hr
    have h1 := segRun_tag hx hk ht
    intro h2
    rw [h2, beq_self_eq_true] at h1
    have h3 := beq_iff_eq.1 h1.symm
    rw [(segRun_ok.1 hx).1, h3] at hrq
    exact hq hrq
  unfold Elem.findAllText
  rw [findall_cons2, findall_cons2, filter_absorbSegs pm q bt.name rs n hfil, List.flatMap_append,
    List.map_append]
  congr 1
  have h2 := inTurn_filter (p := fun x : FoundSeg => x.marker == k)
    (q := fun r : Bytes × BoxResult => r.2.tag == bt.name) h (fun x y hxy => segRun_tag hxy hk ht)
  rw [filter_handled hl] at h2
  have hall : ∀ x ∈ ss.filter (fun x => x.marker == k), x.marker = k := by
    intro x hx; rw [List.mem_filter, beq_iff_eq] at hx; exact hx.2
  revert hall h2
  generalize rs.filter _ = rs'
  generalize ss.filter _ = ss'
  intro h2 hall
  clear h hfil
  induction ss' generalizing rs' with
  | nil => cases h2; rfl
  | cons x ss' ih =>
    obtain ⟨y, ys, rfl, hy, hys⟩ := inTurn_cons.1 h2
    have hx := hall x (by simp)
    have hv := hf x y.2 hx (by have := (segRun_ok.1 hy).2; rwa [hx] at this)
    rw [List.map_cons, List.flatMap_cons, List.map_append, List.map_cons,
      ih ys hys fun z hz => hall z (by simp [hz])]
    have : (Elem.findall (y.2.charsElem).children [u]).map (·.text) = [f x] := hv
    rw [this]; rfl

/-- Presence of a segment with marker `k` in a header. -/
theorem header_has {env o fuel} {csiz : Int} {ss : List FoundSeg} {l q : List Bytes} {rs}
    (h : inTurn (segRun (segV env o fuel) (some csiz)) (ss.filter fun x => decide (x.marker ∈ l)) = .ok rs)
    {k : Bytes} {bt : BoxType} (hl : k ∈ l) (hq : k ∉ q) (hk : typeMap.lookup k = some bt)
    (ht : bt ≠ .unknownBox) (pm : Bool) {n : Node} (hn : n.chars.filter (·.tag == bt.name) = []) :
    (!(Elem.findall (absorbSegs pm q n rs).chars [bt.name]).isEmpty) = true ↔ HasSeg ss k := by
  have hfil : ∀ r ∈ rs, r.1 ∈ q → r.2.tag ≠ bt.name := by
    intro r hr hrq
    obtain ⟨x, -, hx⟩ := inTurn_mem' h hr
    have h1 := segRun_tag hx hk ht
    intro h2
    rw [h2, beq_self_eq_true] at h1
    have h3 := beq_iff_eq.1 h1.symm
    rw [(segRun_ok.1 hx).1, h3] at hrq
    exact hq hrq
  rw [Elem.findall, filter_absorbSegs pm q bt.name rs n hfil, hn, List.nil_append]
  have h2 := inTurn_filter (p := fun x : FoundSeg => x.marker == k)
    (q := fun r : Bytes × BoxResult => r.2.tag == bt.name) h (fun x y hxy => segRun_tag hxy hk ht)
  rw [filter_handled hl] at h2
  have hlen := (inTurn_ok.1 h2).1
  simp only [Bool.not_eq_true', List.isEmpty_eq_false_iff, ne_eq, List.map_eq_nil_iff]
  rw [← List.length_eq_zero_iff, hlen, List.length_eq_zero_iff, List.filter_eq_nil_iff]
  simp only [HasSeg, beq_iff_eq]
  constructor
  · intro hh
    exact Classical.byContradiction fun hc => hh fun x hx hm => hc ⟨x, hx, hm⟩
  · rintro ⟨x, hx, hm⟩ hh
    exact hh x hx hm

theorem nodup_map_inj {α β : Type} {f : α → β} (hf : ∀ a b, f a = f b → a = b) (l : List α) :
    (l.map f).Nodup ↔ l.Nodup := by
  unfold List.Nodup
  rw [List.pairwise_map]
  constructor
  · exact fun h => h.imp fun {a b} hab (e : a = b) => hab (by rw [e])
  · exact fun h => h.imp fun hab e => hab (hf _ _ e)

/-- The test on COC or QCC segments: `testIf (!v.isEmpty) .. (decide v.Nodup)`. -/
theorem onePer_test {csiz : Nat} {ss : List FoundSeg} {m : Bytes} {v : List PyVal}
    {inst : Decidable v.Nodup} (h : v = (ss.filter fun x => x.marker == m).map fun x =>
      PyVal.int (intOf (uint x.contents 2 (compWidth csiz)))) :
    (!(!v.isEmpty) || @decide v.Nodup inst) = true ↔ OnePerComponent csiz ss m := by
  have : v.Nodup ↔ OnePerComponent csiz ss m := by
    unfold OnePerComponent
    rw [← nodup_map_inj (f := fun a => PyVal.int (intOf a)) (fun a b e => by
      simp only [PyVal.int.injEq] at e; exact intOf_inj e), List.map_map, h]
    rfl
  rw [← this]
  cases v with
  | nil => simp
  | cons => simp

/-! ## Tile-parts -/

theorem findall_append (a b : List Elem) : ∀ (p : List String),
    Elem.findall (a ++ b) p = Elem.findall a p ++ Elem.findall b p
  | [] => rfl
  | [t] => by simp [Elem.findall]
  | t :: u :: ts => by rw [findall_cons2, findall_cons2, findall_cons2]; simp

theorem findAllText_append (a b : List Elem) (p : List String) :
    Elem.findAllText (a ++ b) p = Elem.findAllText a p ++ Elem.findAllText b p := by
  unfold Elem.findAllText; rw [findall_append, List.map_append]

/-- A property with another name does not matter. -/
theorem findall_leaf {a t : String} {v : PyVal} {ts : List String} (h : a ≠ t) :
    Elem.findall [Elem.leaf a v] (t :: ts) = [] := by
  have hb : (a == t) = false := by simpa using h
  cases ts with
  | nil => simp [Elem.findall, hb]
  | cons => rw [findall_cons2]; simp [hb]

theorem sot_fields (c : Bytes) :
    repOf "isot" (sot c) = [.int (intOf (uint c 2 2))] ∧
    repOf "psot" (sot c) = [.int (intOf (uint c 4 4))] ∧
    repOf "tpsot" (sot c) = [.int (intOf (uint c 8 1))] ∧
    repOf "tnsot" (sot c) = [.int (intOf (uint c 9 1))] := by
  unfold sot
  rw [u16_at c 0 (x := 0) (y := 2) rfl rfl, u16_at c 2 (x := 2) (y := 4) rfl rfl,
    u32_at c 4 (x := 4) (y := 8) rfl rfl, u8_at c 8 (x := 8) (y := 9) rfl rfl,
    u8_at c 9 (x := 9) (y := 10) rfl rfl]
  refine ⟨?_, ?_, ?_, ?_⟩ <;> rep

/-- The node of the SOT segment. -/
def sotNode (v : Bool) (c : Bytes) : Node :=
  ({} : Node).absorb { tag := "sot", node := Node.run v {} (sot c) }

theorem name_ne_sot (t : BoxType) : t.name ≠ "sot" := by cases t <;> decide

theorem sotNode_filter (v : Bool) (c : Bytes) (bt : BoxType) :
    (sotNode v c).chars.filter (·.tag == bt.name) = [] := by
  rw [List.filter_eq_nil_iff]
  intro e he
  simp only [sotNode, Node.absorb, BoxResult.charsElem, List.nil_append, List.mem_singleton] at he
  subst he
  simpa using (name_ne_sot bt).symm

/-- The SOT properties are found in the tile-part. -/
theorem sot_text {env o fuel} {csiz : Int} {ss : List FoundSeg} {q : List Bytes} {rs}
    (h : inTurn (segRun (segV env o fuel) (some csiz)) ss = .ok rs) (pm v : Bool) (c : Bytes)
    (tail : List Elem) (ht : ∀ e ∈ tail, e.tag ≠ "sot") {u : String} {x : PyVal}
    (hu : repOf u (sot c) = [x]) :
    Elem.findElementText ((absorbSegs pm q (sotNode v c) rs).chars ++ tail) ["sot", u] = some x := by
  have htag : ∀ r ∈ rs, r.2.tag ≠ "sot" := by
    intro r hr
    obtain ⟨y, -, hy⟩ := inTurn_mem' h hr
    rw [validateLeaf_tag (segRun_ok.1 hy).2]
    exact name_ne_sot _
  have h1 : (rs.filter (·.2.tag == "sot")) = [] := by
    rw [List.filter_eq_nil_iff]; intro r hr; simpa using htag r hr
  have h2 : tail.filter (·.tag == "sot") = [] := by
    rw [List.filter_eq_nil_iff]; intro r hr; simpa using ht r hr
  have h3 : (sotNode v c).chars.filter (·.tag == "sot") =
      [Elem.node "sot" (Node.run v {} (sot c)).chars] := by
    simp [sotNode, Node.absorb, BoxResult.charsElem]
  rw [findElementText_eq]
  unfold Elem.findAllText
  rw [findall_cons2, List.filter_append, filter_absorbSegs pm q "sot" rs _ fun r hr _ => htag r hr, h1,
    h2, h3]
  simp only [List.map_nil, List.append_nil, List.flatMap_cons, List.flatMap_nil, Elem.children_node]
  have := findAllText_run v (sot c) u
  unfold Elem.findAllText at this
  rw [this, hu]
  rfl

theorem segsTo_ne {b stop : Bytes} {off : Nat} {ss e} (h : SegsTo b stop off ss e) :
    ∀ x ∈ ss, x.marker ≠ stop := by
  induction h with
  | found => simp
  | step _ hm _ ih => intro x hx; rcases List.mem_cons.1 hx with rfl | hx; exact hm; exact ih x hx
  | broken _ hm => intro x hx; rw [List.mem_singleton] at hx; subst hx; exact hm

theorem lastMarker_eq {b stop : Bytes} {off : Nat} {ss e} (h : SegsTo b stop off ss e) :
    lastMarker stop ss e = stop ↔ e.isSome = true := by
  cases e with
  | some k => simp [lastMarker]
  | none =>
    have hne := segsTo_ne h
    have : ss ≠ [] := by rintro rfl; cases h
    obtain ⟨x, hx⟩ := Option.isSome_iff_exists.1 (by simpa using this : ss.getLast?.isSome = true)
    simp only [lastMarker, hx, Option.map_some, Option.getD_some, Option.isSome_none, iff_false,
      Bool.false_eq_true]
    exact hne x (List.mem_of_getLast? hx)

/-- Everything that makes the tile-part header valid. -/
theorem isValid_tpFinish {env : Env} {o : Options} {fuel csiz : Nat} {b : Bytes} {k : Nat}
    {ss : List FoundSeg} {e rs}
    (h : inTurn (segRun (segV env o fuel) (some (csiz : Int)))
      (ss.filter fun x => decide (x.marker ∈ tpMarkers)) = .ok rs)
    {s0 : TPState} {c : Bytes} {tp : Nat} (hs0 : s0.node = sotNode o.verbose c)
    (htp : uint c 8 1 = some tp) (hse : SegsTo b mSOD k ss e) :
    (tpFinish o.verbose (tpEnd o.packetmarkers s0 ss e rs)).isValid = true ↔
      (Node.run o.verbose {} (sot c)).isValid = true ∧ (rs.all fun r => r.2.node.isValid) = true ∧
      e.isSome = true ∧
      (∀ m ∈ [COD, COC, QCD, QCC, RGN], HasSeg ss m → tp = 0) ∧
      OnePerComponent csiz ss COC ∧ OnePerComponent csiz ss QCC := by
  unfold tpFinish
  simp only [isValid_testFor, isValid_testIf, isValid_addChar]
  have hch : ((((tpEnd o.packetmarkers s0 ss e rs).node.testFor o.verbose "foundSODMarker"
      (decide ((tpEnd o.packetmarkers s0 ss e rs).marker = mSOD))).addChar "pltCount"
      (.int (tpEnd o.packetmarkers s0 ss e rs).pltCount)).addChar "pptCount"
      (.int (tpEnd o.packetmarkers s0 ss e rs).pptCount)).chars =
      (absorbSegs o.packetmarkers [mPLT, mPPT] (sotNode o.verbose c) rs).chars ++
        [Elem.leaf "pltCount" (.int (tpEnd o.packetmarkers s0 ss e rs).pltCount),
         Elem.leaf "pptCount" (.int (tpEnd o.packetmarkers s0 ss e rs).pptCount)] := by
    simp [Node.addChar, testFor_chars, tpEnd, hs0]
  rw [hch]
  generalize hpl : Elem.leaf "pltCount" (.int (tpEnd o.packetmarkers s0 ss e rs).pltCount) = pl
  generalize hpp : Elem.leaf "pptCount" (.int (tpEnd o.packetmarkers s0 ss e rs).pptCount) = pp
  have htail : ∀ t ts, t ≠ "pltCount" → t ≠ "pptCount" → Elem.findall [pl, pp] (t :: ts) = [] := by
    intro t ts h1 h2
    subst hpl hpp
    rw [show ∀ a b : Elem, [a, b] = [a] ++ [b] from fun _ _ => rfl, findall_append,
      findall_leaf (Ne.symm h1), findall_leaf (Ne.symm h2)]
    rfl
  have hhas : ∀ {m : Bytes} {bt : BoxType}, m ∈ tpMarkers → m ∉ [mPLT, mPPT] →
      typeMap.lookup m = some bt → bt ≠ .unknownBox →
      ((!(Elem.findall ((absorbSegs o.packetmarkers [mPLT, mPPT] (sotNode o.verbose c) rs).chars ++
        [pl, pp]) [bt.name]).isEmpty) = true ↔ HasSeg ss m) := by
    intro m bt h1 h2 h3 h4
    rw [findall_append, htail _ _ (by cases bt <;> decide) (by cases bt <;> decide), List.append_nil]
    exact header_has h h1 h2 h3 h4 _ (sotNode_filter ..)
  have hsot0 : ∀ (bt : BoxType) u, Elem.findAllText (sotNode o.verbose c).chars [bt.name, u] = [] := by
    intro bt u
    unfold Elem.findAllText
    rw [findall_cons2, sotNode_filter]
    rfl
  have hidx : ∀ {m : Bytes} {bt : BoxType} {u : String}, m ∈ tpMarkers → m ∉ [mPLT, mPPT] →
      typeMap.lookup m = some bt → bt ≠ .unknownBox →
      (∀ cc r, validateLeaf env o fuel (some (csiz : Int)) m cc = .ok r →
        Elem.findAllText r.node.chars [u] = [.int (intOf (uint cc 2 (compWidth csiz)))]) →
      Elem.findAllText ((absorbSegs o.packetmarkers [mPLT, mPPT] (sotNode o.verbose c) rs).chars ++
        [pl, pp]) [bt.name, u] = (ss.filter fun x => x.marker == m).map fun x =>
          PyVal.int (intOf (uint x.contents 2 (compWidth csiz))) := by
    intro m bt u h1 h2 h3 h4 h5
    have h6 := header_values (q := [mPLT, mPPT]) h h1 h2 h3 h4 (u := u)
      (f := fun x => PyVal.int (intOf (uint x.contents 2 (compWidth csiz))))
      (fun x r hx hr => h5 _ _ hr) o.packetmarkers (sotNode o.verbose c)
    rw [hsot0, List.nil_append] at h6
    have h7 := htail bt.name [u] (by cases bt <;> decide) (by cases bt <;> decide)
    unfold Elem.findAllText at h6 ⊢
    rw [findall_append, h7, List.append_nil, h6]
  have htp0 := sot_text (q := [mPLT, mPPT]) h o.packetmarkers o.verbose c [pl, pp]
    (by subst hpl hpp; simp) (sot_fields c).2.2.1
  rw [htp0, htp]
  have g1 := hhas (m := mCOD) (bt := .cod) (by decide) (by decide) rfl (by decide)
  have g2 := hhas (m := mCOC) (bt := .coc) (by decide) (by decide) rfl (by decide)
  have g3 := hhas (m := mQCD) (bt := .qcd) (by decide) (by decide) rfl (by decide)
  have g4 := hhas (m := mQCC) (bt := .qcc) (by decide) (by decide) rfl (by decide)
  have g5 := hhas (m := mRGN) (bt := .rgn) (by decide) (by decide) rfl (by decide)
  have c1 := fun inst => onePer_test (inst := inst) (hidx (m := mCOC) (bt := .coc) (u := "ccoc") (by decide) (by decide) rfl
    (by decide) fun _ _ => coc_index)
  have c2 := fun inst => onePer_test (inst := inst) (hidx (m := mQCC) (bt := .qcc) (u := "cqcc") (by decide) (by decide) rfl
    (by decide) fun _ _ => qcc_index)
  have hmk : (decide ((tpEnd o.packetmarkers s0 ss e rs).marker = mSOD)) = e.isSome := by
    rw [Bool.eq_iff_iff, decide_eq_true_iff]
    exact lastMarker_eq hse
  have hnv : (tpEnd o.packetmarkers s0 ss e rs).node.isValid =
      ((Node.run o.verbose {} (sot c)).isValid && rs.all fun r => r.2.node.isValid) := by
    simp only [tpEnd]
    rw [isValid_absorbSegs, hs0, sotNode, isValid_absorb, isValid_empty, Bool.true_and]
  have h0 : decide (some (PyVal.int (intOf (some tp))) = some (PyVal.int 0)) = decide (tp = 0) := by
    simp [intOf]
  rw [hmk, hnv, h0]
  simp only [BoxType.name] at g1 g2 g3 g4 g5 c1 c2
  simp only [Bool.and_eq_true, and_assoc]
  rw [c1, c2]
  simp only [Bool.or_eq_true, Bool.not_eq_true', ← Bool.not_eq_true, g1, g2, g3, g4, g5, decide_eq_true_eq]
  have dm : ∀ p : Prop, (¬ p ∨ tp = 0) ↔ (p → tp = 0) := fun p =>
    ⟨fun h hp => h.resolve_left fun hn => hn hp, fun h => (Classical.em p).elim (fun hp => .inr (h hp)) .inl⟩
  simp only [dm]
  constructor
  · rintro ⟨a1, a2, a3, a4, a5, a6, a7, a8, a9, a10⟩
    refine ⟨a1, a2, a3, ?_, a9, a10⟩
    simp only [List.mem_cons, List.not_mem_nil, or_false]
    rintro m (rfl | rfl | rfl | rfl | rfl)
    · exact a4
    · exact a5
    · exact a6
    · exact a7
    · exact a8
  · rintro ⟨a1, a2, a3, a4, a9, a10⟩
    exact ⟨a1, a2, a3, a4 _ (by decide), a4 _ (by decide), a4 _ (by decide), a4 _ (by decide),
      a4 _ (by decide), a9, a10⟩

theorem accepted_segs {env : Env} {o : Options} {fuel csiz : Nat} {ss : List FoundSeg} {l : List Bytes} {rs}
    (h : inTurn (segRun (segV env o fuel) (some (csiz : Int)))
      (ss.filter fun x => decide (x.marker ∈ l)) = .ok rs)
    (hv : (rs.all fun r => r.2.node.isValid) = true) : SegsPass env o csiz l ss := by
  intro x hx hm
  obtain ⟨r, hr, hxr⟩ := inTurn_mem h (x := x) (List.mem_filter.2 ⟨hx, by simpa using hm⟩)
  refine ⟨fuel, r.2, (segRun_ok.1 hxr).2, ?_⟩
  rw [← isValid_iff]
  exact (List.all_eq_true.1 hv) r hr

theorem segs_accepted {env : Env} {o : Options} {csiz : Nat} {ss : List FoundSeg} {l : List Bytes}
    (h : SegsPass env o csiz l ss) : ∃ f0, ∀ fuel, f0 ≤ fuel → ∃ rs,
      inTurn (segRun (segV env o fuel) (some (csiz : Int)))
        (ss.filter fun x => decide (x.marker ∈ l)) = .ok rs ∧
      (rs.all fun r => r.2.node.isValid) = true := by
  obtain ⟨f0, hf0⟩ := fuel_forall (P := fun (x : FoundSeg) k =>
      Accepted (validateLeaf env o k (some csiz) x.marker x.contents))
    (fun x a b hab ha => accepted_mono (f := fun k => validateLeaf env o k (some csiz) x.marker x.contents)
      (fun _ _ h => validateLeaf_le env o h ..) hab ha)
    (ss.filter fun x => decide (x.marker ∈ l)) (fun x hx => by
      rw [List.mem_filter] at hx; exact h x hx.1 (by simpa using hx.2))
  refine ⟨f0, fun fuel hf => ?_⟩
  have hacc : ∀ x ∈ ss.filter (fun x => decide (x.marker ∈ l)),
      Accepted (validateLeaf env o fuel (some csiz) x.marker x.contents) := fun x hx =>
    accepted_mono (f := fun k => validateLeaf env o k (some csiz) x.marker x.contents)
      (fun _ _ h => validateLeaf_le env o h ..) hf (hf0 x hx)
  obtain ⟨rs, hrs⟩ := inTurn_exists (f := segRun (segV env o fuel) (some (csiz : Int)))
    (xs := ss.filter fun x => decide (x.marker ∈ l)) fun x hx => by
      obtain ⟨r, hr, -⟩ := hacc x hx
      exact ⟨(x.marker, r), segRun_ok.2 ⟨rfl, hr⟩⟩
  refine ⟨rs, hrs, ?_⟩
  rw [List.all_eq_true]
  intro r hr
  obtain ⟨x, hx, hxr⟩ := inTurn_mem' hrs hr
  obtain ⟨r', hr', hn⟩ := hacc x hx
  have := (segRun_ok.1 hxr).2
  rw [hr'] at this
  cases this
  exact (isValid_iff _).2 hn

theorem segAt_sot {b : Bytes} {off : Nat} (hm : sub b off 2 = mSOT) : ∃ c n, SegAt b off mSOT c n := by
  obtain ⟨n, h, -⟩ := getMarkerSegment_spec b off
  have := segAt_marker h
  rw [hm] at this
  rw [this] at h
  exact ⟨_, _, h⟩

/-- The tile-part starting with a complete SOT segment. -/
theorem tilePart_eq {env : Env} {o : Options} {b : Bytes} {off n csiz : Nat} {c ss e}
    (hs : SegAt b off mSOT c (some n)) (hse : SegsTo b mSOD n ss e) {fuel lf : Nat}
    (hf : ss.length + 1 < lf) : ∃ s0 : TPState, s0.node = sotNode o.verbose c ∧
      (tpLoop (segV env o fuel) o.packetmarkers (some (csiz : Int)) b lf
        { node := sotNode o.verbose c, pltCount := 0, pptCount := 0, marker := mSOT, offset := n,
          offsetNext := n }) =
      inTurn (segRun (segV env o fuel) (some (csiz : Int)))
        (ss.filter fun x => decide (x.marker ∈ tpMarkers)) >>= fun rs =>
          .ok (tpEnd o.packetmarkers s0 ss e rs) := by
  refine ⟨_, rfl, tpLoop_eq hse hf (by simp only; decide) (by simp only; omega) rfl⟩

/-- The result of a tile-part, given the loop state. -/
def tpResult (o : Options) (b : Bytes) (off : Nat) (psot : Int) (s : TPState) : BoxResult :=
  { tag := "tilePart"
    node := (tpFinish o.verbose s).testIf o.verbose (decide (psot ≠ 0)) "foundNextTilePartOrEOC"
      (decide (slice b (off + psot) (off + psot + 2) ∈ [mSOT, mEOC]))
    returnOffset := some (off + psot) }

theorem tilePart_unfold {env : Env} {o : Options} {b : Bytes} {off : Nat} {csiz : Option Int} {c n}
    (hs : SegAt b off mSOT c n) (fuel : Nat) :
    tilePart env o fuel csiz off b =
      tpLoop (segV env o fuel) o.packetmarkers csiz b fuel
        { node := sotNode o.verbose c, pltCount := 0, pptCount := 0, marker := mSOT, offset := intOf n,
          offsetNext := intOf n } >>= fun s =>
      .ok (tpResult o b off (intOf (uint c 4 4)) s) := by
  obtain ⟨n', hs', hn'⟩ := getMarkerSegment_spec b off
  obtain ⟨e1, e2, e3⟩ := segAt_unique hs hs'
  subst e3
  unfold tilePart
  simp only
  rw [← e1, ← e2, hn', u32_at c 4 (x := 4) (y := 8) rfl rfl]
  rfl

/-- Properties of the SOT segment are found in the result. -/
theorem tpResult_text {env o fuel csiz ss e rs s0 b off psot c}
    (h : inTurn (segRun (segV env o fuel) (some csiz))
      (ss.filter fun x => decide (x.marker ∈ tpMarkers)) = .ok rs)
    (hs0 : s0.node = sotNode o.verbose c) {u : String} {x : PyVal} (hu : repOf u (sot c) = [x]) :
    Elem.findElementText (tpResult o b off psot (tpEnd o.packetmarkers s0 ss e rs)).node.chars ["sot", u] =
      some x := by
  unfold tpResult tpFinish
  simp only [testIf_chars]
  simp only [Node.addChar, testFor_chars, tpEnd, hs0, List.append_assoc]
  refine sot_text h _ _ c _ ?_ hu
  simp

theorem tpMarkers_eq : tpMarkers = tilePartSegments := rfl

theorem next_test {b : Bytes} {off len : Nat} :
    (!decide (((len : Nat) : Int) ≠ 0) ||
      decide (slice b ((off : Int) + (len : Int)) ((off : Int) + (len : Int) + 2) ∈ [mSOT, mEOC])) = true ↔
    (len ≠ 0 → sub b (off + len) 2 = SOT ∨ sub b (off + len) 2 = EOC) := by
  rw [slice_at b (off + len) 2 (x := (off : Int) + (len : Int))
    (y := (off : Int) + (len : Int) + 2) (by omega) (by omega)]
  by_cases h : len = 0
  · simp [h]
  · have : ((len : Int) ≠ 0) := by omega
    simp only [this, h, ne_eq, not_false_eq_true, decide_true, Bool.not_true, Bool.false_or,
      decide_eq_true_eq, List.mem_cons, List.not_mem_nil, or_false, true_implies]
    exact Iff.rfl

/-- The SOT fields as offsets in the codestream. -/
theorem sot_at {b : Bytes} {off : Nat} {c n} (hs : SegAt b off mSOT c n) (hok : SotOk c) :
    n = some (off + 12) ∧ c = sub b (off + 2) 10 ∧ uint b (off + 2) 2 = some 10 ∧
    (∀ k m, k + m ≤ 10 → 0 < m → uint c k m = uint b (off + 2 + k) m) := by
  obtain ⟨⟨l, hl, h10⟩, -⟩ := hok
  generalize hm : mSOT = mm at hs
  cases hs with
  | alone hd => exact absurd hd (by rw [← hm]; decide)
  | noLength => simp [uint] at hl
  | @seg L hd hL =>
    have : 2 ≤ L := by
      have := uint_some_le hl
      rw [length_sub] at this
      omega
    rw [uint_sub (by omega) (by omega)] at hl
    rw [Nat.add_zero, hL] at hl
    cases hl
    subst h10
    exact ⟨rfl, rfl, hL, fun k m h1 h2 => uint_sub h1 h2⟩

/-- A valid result belongs to a conforming tile-part. -/
theorem tilePart_forward {env : Env} {o : Options} {fuel csiz off : Nat} {b : Bytes} {r}
    (hm : sub b off 2 = mSOT) (h : tilePart env o fuel (some (csiz : Int)) off b = .ok r)
    (hv : r.node.isValid = true) :
    ∃ t : TilePartInfo, t.start = off ∧ t.Ok env o csiz b ∧
      Elem.findElementText r.node.chars ["sot", "isot"] = some (.int t.index) ∧
      Elem.findElementText r.node.chars ["sot", "tnsot"] = some (.int t.parts) ∧
      r.returnOffset = some ((off : Int) + t.length) := by
  obtain ⟨c, n, hs⟩ := segAt_sot hm
  rw [tilePart_unfold hs] at h
  obtain ⟨s, hl, hr⟩ := Outcome.bind_eq_ok.1 h
  cases hr
  simp only [tpResult, isValid_testIf, Bool.and_eq_true] at hv
  obtain ⟨hv, hnext⟩ := hv
  cases n with
  | none =>
    exfalso
    cases fuel with
    | zero => cases hl
    | succ fuel =>
      rw [tpLoop_stop (by simp [intOf])] at hl
      cases hl
      have hc : c = [] := by
        generalize mSOT = mm at hs
        cases hs; rfl
      subst hc
      unfold tpFinish at hv
      simp only [isValid_testFor, isValid_testIf, isValid_addChar, Bool.and_eq_true] at hv
      have h1 := hv.1.1.1.1.1.1.1.1
      rw [sotNode, isValid_absorb, Bool.and_eq_true, isValid_iff, isValid_iff, C33_sot] at h1
      obtain ⟨⟨l, hl, -⟩, -⟩ := h1.2
      simp [uint] at hl
  | some n =>
    obtain ⟨ss, e, hse⟩ := segsTo_exists b mSOD _ n (Nat.le_refl _)
    obtain ⟨s0, hs0, heq⟩ := tilePart_eq (env := env) (o := o) (csiz := csiz) hs hse (fuel := fuel)
      (lf := fuel + ss.length + 2) (by omega)
    have hl' := (tpLoop_le (seg1 := segV env o fuel) (fun _ _ _ => .refl _) o.packetmarkers
      (some (csiz : Int)) b _ (show fuel ≤ fuel + ss.length + 2 by omega)).ok hl
    simp only [intOf] at hl'
    rw [heq] at hl'
    obtain ⟨rs, hrs, he⟩ := Outcome.bind_eq_ok.1 hl'
    cases he
    have hsok : SotOk c := by
      have h1 := hv
      unfold tpFinish at h1
      simp only [isValid_testFor, isValid_testIf, isValid_addChar, Bool.and_eq_true] at h1
      have h1 := h1.1.1.1.1.1.1.1.1
      simp only [tpEnd] at h1
      rw [isValid_absorbSegs, hs0, sotNode, isValid_absorb, Bool.and_eq_true, Bool.and_eq_true,
        isValid_iff, isValid_iff, C33_sot] at h1
      exact h1.1.2
    obtain ⟨hn, hc, hL, hfld⟩ := sot_at hs hsok
    have hsok' := hsok
    obtain ⟨-, ⟨idx, hidx, hidx'⟩, ⟨len, hlen, hlen'⟩, ⟨tp, htp, htp'⟩⟩ := hsok
    rw [isValid_tpFinish hrs hs0 htp hse] at hv
    obtain ⟨-, hvr, hsome, ha, hb1, hb2⟩ := hv
    obtain ⟨k, rfl⟩ := Option.isSome_iff_exists.1 hsome
    cases hn
    -- the last byte of the segment exists because a marker follows
    have hend := segsTo_end hse
    have hlenb : off + 12 + 2 ≤ b.length := by
      have h2 : (sub b k 2).length = 2 := by rw [hend.2]; rfl
      rw [length_sub] at h2
      omega
    obtain ⟨tn, htn⟩ : ∃ v, uint b (off + 11) 1 = some v := ⟨_, uint_pos (by omega)⟩
    rw [hlen] at hnext
    rw [hfld 2 2 (by omega) (by omega)] at hidx
    rw [hfld 4 4 (by omega) (by omega)] at hlen
    rw [hfld 8 1 (by omega) (by omega)] at htp
    have htn' : uint c 9 1 = some tn := by rw [hfld 9 1 (by omega) (by omega)]; exact htn
    refine ⟨⟨off, idx, len, tp, tn⟩, rfl,
      { at_ := ⟨hm, hL, hidx, hlen, htp, htn⟩
        index := hidx'
        length := hlen'
        part := htp'
        header := ⟨ss, k, hse, accepted_segs hrs hvr, ha, hb1, hb2⟩
        next := next_test.1 hnext }, ?_, ?_, ?_⟩
    · rw [tpResult_text hrs hs0 (sot_fields c).1, hfld 2 2 (by omega) (by omega), hidx]; rfl
    · rw [tpResult_text hrs hs0 (sot_fields c).2.2.2, htn']; rfl
    · simp only [tpResult]
      rw [hfld 4 4 (by omega) (by omega), hlen]; rfl

/-- A conforming tile-part has a valid result. -/
theorem tilePart_backward {env : Env} {o : Options} {csiz : Nat} {b : Bytes} {t : TilePartInfo}
    (ht : t.Ok env o csiz b) : ∃ f0, ∀ fuel, f0 ≤ fuel → ∃ r,
      tilePart env o fuel (some (csiz : Int)) t.start b = .ok r ∧ r.node.isValid = true ∧
      Elem.findElementText r.node.chars ["sot", "isot"] = some (.int t.index) ∧
      Elem.findElementText r.node.chars ["sot", "tnsot"] = some (.int t.parts) ∧
      r.returnOffset = some ((t.start : Int) + t.length) := by
  obtain ⟨c, n, hs⟩ := segAt_sot (b := b) (off := t.start) ht.at_.marker
  have hcn : n = some (t.start + 12) ∧ c = sub b (t.start + 2) 10 := by
    have hL := ht.at_.segLength
    generalize hm : mSOT = mm at hs
    cases hs with
    | alone hd => exact absurd hd (by rw [← hm]; decide)
    | noLength _ h => rw [hL] at h; cases h
    | seg _ h => rw [hL] at h; cases h; exact ⟨rfl, rfl⟩
  obtain ⟨rfl, hc⟩ := hcn
  have hfld : ∀ k m, k + m ≤ 10 → 0 < m → uint c k m = uint b (t.start + 2 + k) m := by
    intro k m h1 h2; rw [hc]; exact uint_sub h1 h2
  have hsok : SotOk c := by
    refine ⟨⟨10, ?_, rfl⟩, ⟨_, ?_, ht.index⟩, ⟨_, ?_, ht.length⟩, ⟨_, ?_, ht.part⟩⟩
    · rw [hfld _ _ (by omega) (by omega)]; exact ht.at_.segLength
    · rw [hfld _ _ (by omega) (by omega)]; exact ht.at_.index
    · rw [hfld _ _ (by omega) (by omega)]; exact ht.at_.length
    · rw [hfld _ _ (by omega) (by omega)]; exact ht.at_.part
  obtain ⟨ss, k, hse, hpass, ha, hb1, hb2⟩ := ht.header
  obtain ⟨f0, hf0⟩ := segs_accepted hpass
  refine ⟨f0 + ss.length + 2, fun fuel hf => ?_⟩
  obtain ⟨rs, hrs, hvr⟩ := hf0 fuel (by omega)
  obtain ⟨s0, hs0, heq⟩ := tilePart_eq (env := env) (o := o) (csiz := csiz) hs hse (fuel := fuel)
    (lf := fuel) (by omega)
  rw [tilePart_unfold hs]
  simp only [intOf]
  rw [heq]
  have hrs' : inTurn (segRun (segV env o fuel) (some (csiz : Int)))
      (ss.filter fun x => decide (x.marker ∈ tpMarkers)) = .ok rs := hrs
  rw [hrs']
  refine ⟨_, rfl, ?_, ?_, ?_, ?_⟩
  · simp only [tpResult, isValid_testIf, Bool.and_eq_true]
    have htp : uint c 8 1 = some t.part := by rw [hfld _ _ (by omega) (by omega)]; exact ht.at_.part
    have hlen : uint c 4 4 = some t.length := by rw [hfld _ _ (by omega) (by omega)]; exact ht.at_.length
    refine ⟨(isValid_tpFinish hrs' hs0 htp hse).2 ⟨?_, hvr, rfl, ha, hb1, hb2⟩, ?_⟩
    · rw [isValid_iff, C33_sot]; exact hsok
    · rw [hlen]; exact next_test.2 ht.next
  · rw [tpResult_text hrs' hs0 (sot_fields c).1, hfld 2 2 (by omega) (by omega), ht.at_.index]; rfl
  · rw [tpResult_text hrs' hs0 (sot_fields c).2.2.2, hfld 9 1 (by omega) (by omega), ht.at_.parts]; rfl
  · simp only [tpResult]
    rw [hfld 4 4 (by omega) (by omega), ht.at_.length]

end Jpy
