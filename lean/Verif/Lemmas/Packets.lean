import Verif.Lemmas.Verbose
/-! # The runs with and without `--packetmarkers` -/

set_option linter.unusedSimpArgs false

namespace Jpy
open Spec

/-- Removal of the packet segments, per context. -/
def stripped : Ctx → List Elem → List Elem
  | .box, cs => boxesWithoutPackets cs
  | .main, cs => codestreamWithoutPackets cs
  | .tiles, cs => cs.map tilePartWithoutPackets
  | .tp, cs => cs.filter fun e => e.tag ≠ "plt" && e.tag ≠ "ppt"

theorem boxesWithoutPackets_eq (cs : List Elem) : boxesWithoutPackets cs = cs.map boxWithoutPackets := by
  induction cs with
  | nil => rfl
  | cons e es ih => rw [boxesWithoutPackets, ih]; rfl

theorem stripped_append (k : Ctx) (a b : List Elem) : stripped k (a ++ b) = stripped k a ++ stripped k b := by
  cases k <;> simp [stripped, boxesWithoutPackets_eq, codestreamWithoutPackets]

theorem boxW_tag (e : Elem) : (boxWithoutPackets e).tag = e.tag := by
  cases e; rw [boxWithoutPackets]; repeat' split
  all_goals rfl

/-- Is a path read identically in the two runs? -/
def packetFree : List String → Bool
  | [] => true
  | t :: ts =>
    if t = "contiguousCodestreamBox" then
      match ts with
      | [] => false
      | u :: _ => u ≠ "plm" && u ≠ "ppm" && u ≠ "tileParts"
    else if t = "jp2HeaderBox" ∨ t = "resolutionBox" ∨ t = "uuidInfoBox" then !ts.isEmpty && packetFree ts
    else true

theorem filter_map_tag {f : Elem → Elem} (hf : ∀ e, (f e).tag = e.tag) (t : String) (cs : List Elem) :
    (cs.map f).filter (·.tag == t) = (cs.filter (·.tag == t)).map f := by
  rw [List.filter_map]
  congr 2
  funext e
  simp [hf]

theorem codestreamW_filter (t : String) (h1 : t ≠ "plm") (h2 : t ≠ "ppm") (h3 : t ≠ "tileParts")
    (cs : List Elem) : (codestreamWithoutPackets cs).filter (·.tag == t) = cs.filter (·.tag == t) := by
  induction cs with
  | nil => rfl
  | cons e es ih =>
    unfold codestreamWithoutPackets at *
    by_cases he : e.tag = t
    · rw [List.filter_cons, if_pos (by simp [he, h1, h2]), List.map_cons, if_neg (by rw [he]; exact h3),
        List.filter_cons, List.filter_cons, if_pos (by simpa using he), if_pos (by simpa using he), ih]
    · rw [List.filter_cons, List.filter_cons]
      rw [if_neg (c := (e.tag == t) = true) (by simpa using he)]
      split
      · rw [List.map_cons, List.filter_cons, if_neg, ih]
        split <;> simpa using he
      · exact ih

theorem findall_cons (t : String) (ts : List String) (c1 c2 : List Elem)
    (h : c1.filter (·.tag == t) = c2.filter (·.tag == t)) : Elem.findall c1 (t :: ts) = Elem.findall c2 (t :: ts) := by
  cases ts with
  | nil => simp only [Elem.findall, h]
  | cons u us => simp only [Elem.findall, h]

theorem boxW_plain {e : Elem} (h1 : e.tag ≠ "contiguousCodestreamBox")
    (h2 : ¬ (e.tag = "jp2HeaderBox" ∨ e.tag = "resolutionBox" ∨ e.tag = "uuidInfoBox")) :
    boxWithoutPackets e = e := by
  cases e
  rw [Elem.tag_mk] at h1 h2
  rw [boxWithoutPackets, if_neg h1, if_neg h2]

theorem boxesW_findall : ∀ (p : List String) (cs : List Elem), packetFree p = true →
    Elem.findall (boxesWithoutPackets cs) p = Elem.findall cs p
  | [], _, _ => rfl
  | t :: ts, cs, hp => by
    rw [packetFree.eq_def] at hp
    simp only at hp
    have hmem : ∀ e ∈ cs.filter (·.tag == t), e.tag = t := by
      intro e he; simpa using (List.mem_filter.1 he).2
    split at hp
    · rename_i ht
      cases ts with
      | nil => simp at hp
      | cons u us =>
        simp only [Bool.and_eq_true, decide_eq_true_eq] at hp
        simp only [Elem.findall]
        rw [boxesWithoutPackets_eq, filter_map_tag boxW_tag, List.flatMap_map]
        simp only [List.flatMap]
        congr 1
        apply List.map_congr_left
        intro e he
        obtain ⟨t', a, x, c⟩ := e
        have ht' := hmem _ he
        simp only [Elem.tag_mk] at ht'
        rw [boxWithoutPackets, if_pos (ht'.trans ht), Elem.children_mk, Elem.children_mk]
        exact findall_cons u us _ _ (codestreamW_filter u hp.1.1 hp.1.2 hp.2 c)
    · rename_i hn
      split at hp
      · rename_i hs
        cases ts with
        | nil => simp at hp
        | cons u us =>
          simp only [Elem.findall]
          rw [boxesWithoutPackets_eq, filter_map_tag boxW_tag, List.flatMap_map]
          simp only [List.flatMap]
          congr 1
          apply List.map_congr_left
          intro e he
          obtain ⟨t', a, x, c⟩ := e
          have ht' := hmem _ he
          simp only [Elem.tag_mk] at ht'
          rw [boxWithoutPackets, if_neg (by rw [ht']; exact hn), if_pos (by rw [ht']; exact hs),
            Elem.children_mk, Elem.children_mk]
          exact boxesW_findall (u :: us) c (by simpa using hp)
      · rename_i hns
        apply findall_cons
        rw [boxesWithoutPackets_eq, filter_map_tag boxW_tag]
        conv => rhs; rw [← List.map_id (cs.filter (·.tag == t))]
        apply List.map_congr_left
        intro e he
        exact boxW_plain (by rw [hmem e he]; exact hn) (by rw [hmem e he]; exact hns)

theorem codestreamW_findall (p : List String) (cs : List Elem)
    (h : ∀ t ts, p = t :: ts → t ≠ "plm" ∧ t ≠ "ppm" ∧ t ≠ "tileParts") :
    Elem.findall (codestreamWithoutPackets cs) p = Elem.findall cs p := by
  cases p with
  | nil => rfl
  | cons t ts =>
    obtain ⟨h1, h2, h3⟩ := h t ts rfl
    exact findall_cons t ts _ _ (codestreamW_filter t h1 h2 h3 cs)

/-! ## Post-processing commutes with the removal -/

theorem readable_tag (env tbl) (e : Elem) : (makeHumanReadable env tbl e).tag = e.tag := by
  cases e; rw [makeHumanReadable]; rfl
theorem readable_attrs (env tbl) (e : Elem) : (makeHumanReadable env tbl e).attrs = e.attrs := by
  cases e; rw [makeHumanReadable]; rfl
theorem readable_children (env tbl) (e : Elem) :
    (makeHumanReadable env tbl e).children = makeHumanReadableL env tbl e.children := by
  cases e; rw [makeHumanReadable]; rfl

theorem readableL_map (env : Env) (tbl) (cs : List Elem) :
    makeHumanReadableL env tbl cs = cs.map (makeHumanReadable env tbl) := by
  induction cs with
  | nil => rfl
  | cons e es ih => rw [makeHumanReadableL, ih]; rfl

theorem readable_filter (env : Env) (tbl) (f : String → Bool) (cs : List Elem) :
    makeHumanReadableL env tbl (cs.filter fun e => f e.tag) =
      (makeHumanReadableL env tbl cs).filter fun e => f e.tag := by
  rw [readableL_map, readableL_map, List.filter_map]
  congr 2
  funext e
  simp [readable_tag]

theorem readable_tilePart (env : Env) (tbl) (e : Elem) :
    makeHumanReadable env tbl (tilePartWithoutPackets e) = tilePartWithoutPackets (makeHumanReadable env tbl e) := by
  obtain ⟨t, a, x, cs⟩ := e
  rw [makeHumanReadable, tilePartWithoutPackets, tilePartWithoutPackets, makeHumanReadable]
  congr 1
  exact readable_filter env tbl (fun t => t ≠ "plt" && t ≠ "ppt") cs

theorem readable_codestream (env : Env) (tbl) (cs : List Elem) :
    makeHumanReadableL env tbl (codestreamWithoutPackets cs) =
      codestreamWithoutPackets (makeHumanReadableL env tbl cs) := by
  unfold codestreamWithoutPackets
  rw [← readable_filter env tbl (fun t => t ≠ "plm" && t ≠ "ppm") cs]
  rw [readableL_map, readableL_map, List.map_map, List.map_map]
  apply List.map_congr_left
  intro e _
  simp only [Function.comp_apply, readable_tag]
  split
  · obtain ⟨t, a, x, c⟩ := e
    simp only [makeHumanReadable, Elem.tag_mk, Elem.attrs_mk, Elem.text_mk, Elem.children_mk]
    congr 1
    rw [readableL_map, readableL_map, List.map_map, List.map_map]
    apply List.map_congr_left
    intro e _
    exact readable_tilePart env tbl e
  · rfl

mutual
theorem readable_box (env : Env) (tbl) : ∀ e : Elem,
    makeHumanReadable env tbl (boxWithoutPackets e) = boxWithoutPackets (makeHumanReadable env tbl e)
  | .mk t a x cs lt => by
    rw [makeHumanReadable, boxWithoutPackets, boxWithoutPackets]
    split
    · rw [makeHumanReadable, readable_codestream]
    · split
      · rw [makeHumanReadable, readable_boxes env tbl cs]
      · rw [makeHumanReadable]
theorem readable_boxes (env : Env) (tbl) : ∀ cs : List Elem,
    makeHumanReadableL env tbl (boxesWithoutPackets cs) = boxesWithoutPackets (makeHumanReadableL env tbl cs)
  | [] => rfl
  | e :: es => by
    rw [boxesWithoutPackets, makeHumanReadableL, makeHumanReadableL, boxesWithoutPackets, readable_box env tbl e,
      readable_boxes env tbl es]
end

/-! ## The relation -/

/-- What the two runs have in common. -/
structure PR (k : Ctx) (n1 n2 : Node) : Prop where
  tests : n1.tests = n2.tests
  warnings : n1.warnings = n2.warnings
  chars : n1.chars = stripped k n2.chars

/-- The same for a sub-result. -/
structure PL (k : Ctx) (r1 r2 : BoxResult) : Prop where
  tag : r1.tag = r2.tag
  off : r1.returnOffset = r2.returnOffset
  tests : r1.node.tests = r2.node.tests
  warnings : r1.node.warnings = r2.node.warnings
  chars : r1.tag ∉ k.packet → [r1.charsElem] = stripped k [r2.charsElem]

theorem stripped_packet {k : Ctx} {e : Elem} (h : e.tag ∈ k.packet) : stripped k [e] = [] := by
  cases k <;> simp [Ctx.packet] at h <;> rcases h with h | h <;> simp [stripped, codestreamWithoutPackets, h]

theorem stripped_other {k : Ctx} {e : Elem} (h : e.tag ∉ k.packet)
    (hs : match k with
      | .box => e.tag ∉ ["contiguousCodestreamBox", "jp2HeaderBox", "resolutionBox", "uuidInfoBox"]
      | .main => e.tag ≠ "tileParts"
      | .tp => True
      | .tiles => False) : stripped k [e] = [e] := by
  cases k with
  | box =>
    simp only [List.mem_cons, List.not_mem_nil, or_false, not_or] at hs
    simp only [stripped, boxesWithoutPackets]
    rw [boxW_plain hs.1 (by simp [hs.2])]
  | main =>
    simp [Ctx.packet] at h
    simp only [] at hs
    simp [stripped, codestreamWithoutPackets, h, hs]
  | tp => simp [Ctx.packet] at h; simp [stripped, h]
  | tiles => simp at hs

theorem leafName_plain : ∀ t : BoxType, (Ctx.allows .box t = true →
      t.name ∉ ["contiguousCodestreamBox", "jp2HeaderBox", "resolutionBox", "uuidInfoBox"]) ∧
    (Ctx.allows .main t = true → t.name ≠ "tileParts") := by
  intro t; cases t <;> decide

/-- The relation between the run without `--packetmarkers` and the run with it. -/
def packetRel (env : Env) (o : Options) :
    NodeRel env { o with packetmarkers := false } { o with packetmarkers := true } where
  R := PR
  L := PL
  empty k := ⟨rfl, rfl, by cases k <;> rfl⟩
  test := by
    intro k n1 n2 name r h _
    refine ⟨?_, ?_, ?_⟩
    · rw [testFor_tests, testFor_tests, h.tests]
    · rw [testFor_warnings, testFor_warnings, h.warnings]
    · rw [testFor_chars, testFor_chars]; exact h.chars
  char := by
    intro k n1 n2 name v hn h
    refine ⟨h.tests, h.warnings, ?_⟩
    simp only [Node.addChar]
    rw [stripped_append, h.chars]
    congr 1
    simp only [List.mem_cons, List.not_mem_nil, or_false] at hn
    cases k
    case tiles => rcases hn with h | h | h | h | h <;> subst h <;> simp [stripped, Elem.leaf, tilePartWithoutPackets]
    all_goals
      rcases hn with h | h | h | h | h <;> subst h <;>
        (refine (stripped_other ?_ ?_).symm <;> simp [Ctx.packet])
  absorb := by
    intro k n1 n2 r1 r2 h hl ht
    refine ⟨?_, ?_, ?_⟩
    · simp only [Node.absorb, BoxResult.testsElem, h.tests, hl.tests, hl.tag]
    · simp only [Node.absorb, BoxResult.warningsElem, h.warnings, hl.warnings, hl.tag]
    · simp only [Node.absorb]
      rw [stripped_append, h.chars, hl.chars ht]
  packet := by
    intro k n1 n2 r1 r2 h hl ht
    refine ⟨?_, ?_, ?_⟩
    · simp only [Node.absorbPacket, Node.absorbQuiet, Node.absorb, BoxResult.testsElem, h.tests, hl.tests, hl.tag,
        if_true, Bool.false_eq_true, if_false]
    · simp only [Node.absorbPacket, Node.absorbQuiet, Node.absorb, BoxResult.warningsElem, h.warnings,
        hl.warnings, hl.tag, if_true, Bool.false_eq_true, if_false]
    · simp only [Node.absorbPacket, Node.absorbQuiet, Node.absorb, if_true, Bool.false_eq_true, if_false]
      rw [stripped_append, stripped_packet (by rw [hl.tag] at ht; exact ht), h.chars, List.append_nil]
  leaf := by
    intro k t fuel csiz bType c ss1 ss2 h1 h2 hk _
    have e := h1.symm.trans ((leaf_congr env rfl rfl fuel csiz t bType c).trans h2)
    cases e
    refine ⟨rfl, rfl, rfl, rfl, fun ht => ?_⟩
    refine (stripped_other ht ?_).symm
    cases k with
    | box => exact (leafName_plain t).1 hk
    | main => exact (leafName_plain t).2 hk
    | tp => trivial
    | tiles => simp [Ctx.allows] at hk
  sot c := ⟨rfl, rfl, rfl, rfl, fun _ => by simp [stripped, BoxResult.charsElem]⟩
  super := by
    intro n1 n2 tag ht h
    refine ⟨rfl, rfl, h.tests, h.warnings, fun _ => ?_⟩
    simp only [List.mem_cons, List.not_mem_nil, or_false] at ht
    simp only [stripped, boxesWithoutPackets, BoxResult.charsElem, Elem.node, boxWithoutPackets]
    rw [if_neg (by rcases ht with h | h | h <;> subst h <;> decide), if_pos ht, h.chars]
    rfl
  code := by
    intro n1 n2 h
    refine ⟨rfl, rfl, h.tests, h.warnings, fun _ => ?_⟩
    simp only [stripped, boxesWithoutPackets, BoxResult.charsElem, Elem.node, boxWithoutPackets, if_true]
    rw [h.chars]
    rfl
  tile := by
    intro n1 n2 off h
    refine ⟨rfl, rfl, h.tests, h.warnings, fun _ => ?_⟩
    simp only [stripped, BoxResult.charsElem, Elem.node, List.map_cons, List.map_nil, tilePartWithoutPackets]
    rw [h.chars]
    rfl
  tiles := by
    intro n1 n2 h
    refine ⟨rfl, rfl, h.tests, h.warnings, fun _ => ?_⟩
    simp [stripped, BoxResult.charsElem, Elem.node, codestreamWithoutPackets, h.chars]
  look := by
    intro k n1 n2 p h hp
    rw [h.chars]
    cases k with
    | box => exact boxesW_findall p _ (by revert p; decide)
    | main =>
      refine codestreamW_findall p _ ?_
      rintro t ts rfl
      simp only [Ctx.paths, List.mem_cons, List.not_mem_nil, or_false, List.cons.injEq] at hp
      rcases hp with h | h | h | h <;> rw [h.1] <;> decide
    | tiles => simp [Ctx.paths] at hp
    | tp =>
      cases p with
      | nil => rfl
      | cons t ts =>
        apply findall_cons
        simp only [Ctx.paths, List.mem_cons, List.not_mem_nil, or_false, List.cons.injEq] at hp
        have : t ≠ "plt" ∧ t ≠ "ppt" := by
          rcases hp with h | h | h | h | h | h | h | h | h | h <;> rw [h.1] <;> decide
        simp only [stripped, List.filter_filter]
        congr 1
        funext e
        by_cases he : e.tag = t
        · simp [he, this]
        · simp [he]

end Jpy
