import Verif.Props.Diagnosis
import Verif.Lemmas.Diagnosis
import Verif.Props.Shows
/-! # The tests of segments in a header and of tile-parts -/

set_option linter.unusedSimpArgs false
set_option linter.unusedVariables false

namespace Jpy
open Spec

/-- The tests of the segments of a header. -/
theorem diagnoses_segs {env o fuel} {csiz : Int} {l q : List Bytes}
    (hl : ∀ m ∈ l, m ∈ mainSegments ∨ m ∈ tilePartSegments) : ∀ (ss : List FoundSeg) (rs) (n : Node),
    inTurn (segRun (segV env o fuel) (some csiz)) (ss.filter fun x => decide (x.marker ∈ l)) = .ok rs →
    ∃ es, (absorbSegs o.packetmarkers q n rs).tests = n.tests ++ es ∧
      DiagnosesSegs env.catC o.format csiz l ss es
  | [], rs, n, h => by
    cases h
    exact ⟨[], by simp [absorbSegs], .nil⟩
  | x :: ss, rs, n, h => by
    rw [List.filter_cons] at h
    by_cases hx : x.marker ∈ l
    · rw [if_pos (decide_eq_true hx)] at h
      obtain ⟨y, hy, h⟩ := Outcome.bind_eq_ok.1 h
      obtain ⟨ys, hys, h⟩ := Outcome.bind_eq_ok.1 h
      cases h
      obtain ⟨y1, y2⟩ := y
      obtain ⟨e1, hy⟩ := segRun_ok.1 hy
      simp only at e1
      subst e1
      have hn : (x.marker, y2.tag) ∈ segNames := by
        have := seg_name ((hl _ hx).imp_right Or.inl)
        rw [← validateLeaf_tag hy] at this
        exact this
      have hd := C56_segment env o fuel csiz x.marker x.contents y2 (by
        rcases hl _ hx with h | h
        · exact .tail _ (List.mem_append.2 (.inl h))
        · exact .tail _ (List.mem_append.2 (.inr h))) hy
      obtain ⟨es, h1, h2⟩ := diagnoses_segs (q := q) hl ss ys
        (if x.marker ∈ q then n.absorbPacket o.packetmarkers y2 else n.absorb y2) hys
      refine ⟨entry y2.tag y2.node.tests ++ es, ?_, .seg hx hn hd h2⟩
      show (absorbSegs o.packetmarkers q (if x.marker ∈ q then n.absorbPacket o.packetmarkers y2
        else n.absorb y2) ys).tests = _
      rw [h1, ← List.append_assoc]
      congr 1
      split
      · exact absorbPacket_tests ..
      · exact absorb_tests ..
    · rw [if_neg (by simpa using hx)] at h
      obtain ⟨es, h1, h2⟩ := diagnoses_segs (q := q) hl ss rs n h
      exact ⟨es, h1, .skip hx h2⟩

/-- The tests made at the end of a tile-part header. -/
theorem own_tpFinish {env : Env} {o : Options} {fuel csiz : Nat} {b : Bytes} {k : Nat}
    {ss : List FoundSeg} {e rs}
    (h : inTurn (segRun (segV env o fuel) (some (csiz : Int)))
      (ss.filter fun x => decide (x.marker ∈ tpMarkers)) = .ok rs)
    {s0 : TPState} {c : Bytes} (hs0 : s0.node = sotNode o.verbose c) (hse : SegsTo b mSOD k ss e) :
    OwnTests (tpEnd o.packetmarkers s0 ss e rs).node (tpFinish o.verbose (tpEnd o.packetmarkers s0 ss e rs))
      [ ("maxOneCqccPerComponentTP", OnePerComponent csiz ss QCC),
        ("maxOneCcocPerComponentTP", OnePerComponent csiz ss COC),
        ("RGNAllowed", HasSeg ss RGN → FieldIs c 8 1 (· = 0)),
        ("QCCAllowed", HasSeg ss QCC → FieldIs c 8 1 (· = 0)),
        ("QCDAllowed", HasSeg ss QCD → FieldIs c 8 1 (· = 0)),
        ("COCAllowed", HasSeg ss COC → FieldIs c 8 1 (· = 0)),
        ("CODAllowed", HasSeg ss COD → FieldIs c 8 1 (· = 0)),
        ("foundSODMarker", ∃ k, e = some k) ] := by
  unfold tpFinish
  simp only []
  have hch : ((((tpEnd o.packetmarkers s0 ss e rs).node.testFor o.verbose "foundSODMarker"
      (decide ((tpEnd o.packetmarkers s0 ss e rs).marker = mSOD))).addChar "pltCount"
      (.int (tpEnd o.packetmarkers s0 ss e rs).pltCount)).addChar "pptCount"
      (.int (tpEnd o.packetmarkers s0 ss e rs).pptCount)).chars =
      (absorbSegs o.packetmarkers [mPLT, mPPT] (sotNode o.verbose c) rs).chars ++
        [Elem.leaf "pltCount" (.int (tpEnd o.packetmarkers s0 ss e rs).pltCount),
         Elem.leaf "pptCount" (.int (tpEnd o.packetmarkers s0 ss e rs).pptCount)] := by
    simp [Node.addChar, testFor_chars, tpEnd, hs0]
  rw [hch]
  generalize hpl : Elem.leaf "pltCount" (.int (tpEnd o.packetmarkers s0 ss e rs).pltCount) = pl
  generalize hpp : Elem.leaf "pptCount" (.int (tpEnd o.packetmarkers s0 ss e rs).pptCount) = pp
  have htail : ∀ t ts, t ≠ "pltCount" → t ≠ "pptCount" → Elem.findall [pl, pp] (t :: ts) = [] := by
    intro t ts h1 h2
    subst hpl hpp
    rw [show ∀ a b : Elem, [a, b] = [a] ++ [b] from fun _ _ => rfl, findall_append,
      findall_leaf (Ne.symm h1), findall_leaf (Ne.symm h2)]
    rfl
  have hhas : ∀ {m : Bytes} {bt : BoxType}, m ∈ tpMarkers → m ∉ [mPLT, mPPT] →
      typeMap.lookup m = some bt → bt ≠ .unknownBox →
      ((!(Elem.findall ((absorbSegs o.packetmarkers [mPLT, mPPT] (sotNode o.verbose c) rs).chars ++
        [pl, pp]) [bt.name]).isEmpty) = true ↔ HasSeg ss m) := by
    intro m bt h1 h2 h3 h4
    rw [findall_append, htail _ _ (by cases bt <;> decide) (by cases bt <;> decide), List.append_nil]
    exact header_has h h1 h2 h3 h4 _ (sotNode_filter ..)
  have hsot0 : ∀ (bt : BoxType) u, Elem.findAllText (sotNode o.verbose c).chars [bt.name, u] = [] := by
    intro bt u
    unfold Elem.findAllText
    rw [findall_cons2, sotNode_filter]
    rfl
  have hidx : ∀ {m : Bytes} {bt : BoxType} {u : String}, m ∈ tpMarkers → m ∉ [mPLT, mPPT] →
      typeMap.lookup m = some bt → bt ≠ .unknownBox →
      (∀ cc r, validateLeaf env o fuel (some (csiz : Int)) m cc = .ok r →
        Elem.findAllText r.node.chars [u] = [.int (intOf (uint cc 2 (compWidth csiz)))]) →
      Elem.findAllText ((absorbSegs o.packetmarkers [mPLT, mPPT] (sotNode o.verbose c) rs).chars ++
        [pl, pp]) [bt.name, u] = (ss.filter fun x => x.marker == m).map fun x =>
          PyVal.int (intOf (uint x.contents 2 (compWidth csiz))) := by
    intro m bt u h1 h2 h3 h4 h5
    have h6 := header_values (q := [mPLT, mPPT]) h h1 h2 h3 h4 (u := u)
      (f := fun x => PyVal.int (intOf (uint x.contents 2 (compWidth csiz))))
      (fun x r hx hr => h5 _ _ hr) o.packetmarkers (sotNode o.verbose c)
    rw [hsot0, List.nil_append] at h6
    have h7 := htail bt.name [u] (by cases bt <;> decide) (by cases bt <;> decide)
    unfold Elem.findAllText at h6 ⊢
    rw [findall_append, h7, List.append_nil, h6]
  have htp0 := sot_text (q := [mPLT, mPPT]) h o.packetmarkers o.verbose c [pl, pp]
    (by subst hpl hpp; simp) (sot_fields c).2.2.1
  rw [htp0]
  have c1 := fun inst => onePer_test (inst := inst) (hidx (m := mCOC) (bt := .coc) (u := "ccoc") (by decide) (by decide) rfl
    (by decide) fun _ _ => coc_index)
  have c2 := fun inst => onePer_test (inst := inst) (hidx (m := mQCC) (bt := .qcc) (u := "cqcc") (by decide) (by decide) rfl
    (by decide) fun _ _ => qcc_index)
  have hmk : (decide ((tpEnd o.packetmarkers s0 ss e rs).marker = mSOD)) = true ↔ ∃ k, e = some k := by
    rw [decide_eq_true_iff, ← Option.isSome_iff_exists]
    exact lastMarker_eq hse
  have h0 : decide (some (PyVal.int (intOf (uint c 8 1))) = some (PyVal.int 0)) = true ↔
      FieldIs c 8 1 (· = 0) := by
    rw [decide_eq_true_iff]
    simp only [Option.some.injEq, PyVal.int.injEq, intOf_eq (k := 0) (by omega), FieldIs, exists_eq_right]
    rfl
  have imp : ∀ {a d : Bool} {P Q : Prop}, (a = true ↔ P) → (d = true ↔ Q) → ((!a || d) = true ↔ (P → Q)) := by
    intro a d P Q ha hd
    rw [← ha, ← hd]
    cases a <;> cases d <;> simp
  refine own_imp (c2 _) (own_imp (c1 _) (own_imp (imp (hhas (m := mRGN) (bt := .rgn) (by decide) (by decide) rfl
    (by decide)) h0) (own_imp (imp (hhas (m := mQCC) (bt := .qcc) (by decide) (by decide) rfl (by decide)) h0)
    (own_imp (imp (hhas (m := mQCD) (bt := .qcd) (by decide) (by decide) rfl (by decide)) h0)
    (own_imp (imp (hhas (m := mCOC) (bt := .coc) (by decide) (by decide) rfl (by decide)) h0)
    (own_imp (imp (hhas (m := mCOD) (bt := .cod) (by decide) (by decide) rfl (by decide)) h0) ?_))))))
  exact own_addChar (own_addChar (own_test hmk (own_refl _)))

/-- A run of the validation of a tile-part whose SOT segment has a length field. -/
theorem tilePart_run {env : Env} {o : Options} {fuel csiz : Nat} {b : Bytes} {start : Nat} {sot : Bytes}
    {next : Nat} {r : BoxResult} (hs : SegAt b start SOT sot (some next))
    (h : tilePart env o fuel (some (csiz : Int)) start b = .ok r) :
    ∃ ss e rs, SegsTo b mSOD next ss e ∧
      inTurn (segRun (segV env o fuel) (some (csiz : Int)))
        (ss.filter fun x => decide (x.marker ∈ tilePartSegments)) = .ok rs ∧
      r = tpResult o b start (intOf (uint sot 4 4))
        (tpEnd o.packetmarkers (tpStart o.verbose sot next) ss e rs) := by
  rw [tilePart_unfold hs] at h
  obtain ⟨s, hlp, hr⟩ := Outcome.bind_eq_ok.1 h
  cases hr
  obtain ⟨ss, e, hse⟩ := segsTo_exists b mSOD _ next (Nat.le_refl _)
  have hl' := (tpLoop_le (seg1 := segV env o fuel) (fun _ _ _ => .refl _) o.packetmarkers
    (some (csiz : Int)) b _ (show fuel ≤ fuel + ss.length + 2 by omega)).ok hlp
  simp only [intOf] at hl'
  have hl2 := tpLoop_eq (seg := segV env o fuel) (pm := o.packetmarkers) (csiz := some (csiz : Int)) hse
    (fuel := fuel + ss.length + 2) (s := tpStart o.verbose sot next) (by omega)
    (by simp only [tpStart]; decide) (by simp only [tpStart]; omega) rfl
  have hl' := hl2.symm.trans hl'
  obtain ⟨rs, hrs, he⟩ := Outcome.bind_eq_ok.1 hl'
  cases he
  exact ⟨ss, e, rs, hse, hrs, rfl⟩

/-- C56 (tile-part): the tests of a tile-part whose SOT segment has a length field name exactly the violated
rules: those on the SOT segment, on each segment of its header, and on the tile-part as a whole. -/
theorem C56_tilePart (env : Env) (o : Options) (fuel csiz : Nat) (b : Bytes) (start : Nat) (sot : Bytes)
    (next : Nat) (r : BoxResult) (hs : SegAt b start SOT sot (some next)) (l : Nat)
    (hl : uint sot 4 4 = some l) (h : tilePart env o fuel (some (csiz : Int)) start b = .ok r) :
    DiagnosesTilePart env.catC o.format csiz b start sot next r.node.tests := by
  obtain ⟨ss, e, rs, hse, hrs, rfl⟩ := tilePart_run hs h
  obtain ⟨es, h1, h2⟩ := diagnoses_segs (l := tilePartSegments) (q := [mPLT, mPPT]) (fun m hm => Or.inr hm)
    ss rs (sotNode o.verbose sot) hrs
  have h3 := own_tpFinish (s0 := tpStart o.verbose sot next) hrs rfl hse
  have h4 : OwnTests (tpEnd o.packetmarkers (tpStart o.verbose sot next) ss e rs).node
      (tpResult o b start (intOf (uint sot 4 4)) (tpEnd o.packetmarkers (tpStart o.verbose sot next) ss e rs)).node
      (tilePartRules csiz b start sot ss e).reverse := by
    refine own_imp ?_ h3
    rw [hl]
    refine Iff.trans next_test ?_
    simp
  obtain ⟨own, h5, h6⟩ := own_reverse h4
  rw [h5]
  have h7 : (tpEnd o.packetmarkers (tpStart o.verbose sot next) ss e rs).node.tests =
      entry "sot" (Node.run o.verbose {} (Jpy.sot sot)).tests ++ es := by
    show (absorbSegs o.packetmarkers [mPLT, mPPT] (sotNode o.verbose sot) rs).tests = _
    rw [h1]
    unfold sotNode
    rw [absorb_tests]
    rfl
  rw [h7]
  exact .mk (diagnosed_run (diag_sot sot)) hse h2 h6

/-- The tests of the tile-parts that are visited. -/
theorem diagnoses_tileParts {env o f} {csiz : Nat} {b : Bytes} {n : Int} {off ts} (hv : Seen b n off ts) :
    ∀ fuel s s', tileLoop (fun x => tilePart env o f (some (csiz : Int)) x b) b fuel s = .ok s' →
    s.marker = mSOT → s.offset = ((off : Nat) : Int) → s.found.length = n.toNat →
    TileRun s s' (ts.map (·.toTilePartInfo)) ∧
    ∃ es, s'.node.tests = s.node.tests ++ es ∧ DiagnosesTileParts env.catC o.format csiz b ts es := by
  have key : ∀ {t : SeenPart} {r}, t.At b → tilePart env o f (some (csiz : Int)) t.start b = .ok r →
      entry r.tag r.node.tests = entry "tilePart" r.node.tests ∧
      DiagnosesTilePart env.catC o.format csiz b t.start t.sot t.next r.node.tests ∧
      Elem.findElementText r.node.chars ["sot", "isot"] = some (.int t.index) ∧
      Elem.findElementText r.node.chars ["sot", "tnsot"] = some (.int t.parts) ∧
      r.returnOffset = some ((t.start : Int) + t.length) := by
    intro t r ht hr
    have hs := ht.seg
    have hidx := ht.index
    have hlen := ht.length
    have hprt := ht.parts
    have h1 := C56_tilePart env o f csiz b t.start _ _ r hs _ hlen hr
    obtain ⟨ss, e, rs, hse, hrs, rfl⟩ := tilePart_run hs hr
    refine ⟨rfl, h1, ?_, ?_, ?_⟩
    · rw [tpResult_text (s0 := tpStart o.verbose t.sot t.next)
        hrs rfl (sot_fields _).1, hidx]
      rfl
    · rw [tpResult_text (s0 := tpStart o.verbose t.sot t.next)
        hrs rfl (sot_fields _).2.2.2, hprt]
      rfl
    · rw [hlen]; rfl
  induction hv with
  | @done off hx =>
    intro fuel s s' h hm ho hn
    cases fuel with
    | zero => cases h
    | succ fuel =>
      rw [tileLoop, if_pos hm, ho, slice2] at h
      simp only [] at h
      rw [if_neg (show ¬ sub b off 2 = mSOT from hx)] at h
      cases h
      exact ⟨⟨rfl, rfl, rfl⟩, [], by simp, .nil⟩
  | @last t ht hlast =>
    intro fuel s s' h hm ho hn
    cases fuel with
    | zero => cases h
    | succ fuel =>
      rw [tileLoop, if_pos hm, ho, slice2] at h
      simp only [] at h
      rw [if_pos (show sub b t.start 2 = mSOT from (segAt_marker ht.seg).symm)] at h
      obtain ⟨r, hr, h⟩ := Outcome.bind_eq_ok.1 h
      obtain ⟨isot, hi, h⟩ := Outcome.bind_eq_ok.1 h
      obtain ⟨tnsot, htn, h⟩ := Outcome.bind_eq_ok.1 h
      obtain ⟨h0, h1, h2, h2', h3⟩ := key ht hr
      rw [h2] at hi
      rw [h2'] at htn
      cases hi
      cases htn
      rw [h3] at h
      by_cases hin : 0 ≤ (t.index : Int) ∧ (t.index : Int) < (s.found.length : Int)
      · rw [if_pos hin] at h
        have : t.length = 0 := by rcases hlast with h | h <;> omega
        rw [if_neg (by simp [this])] at h
        cases h
        refine ⟨⟨?_, ?_, ?_⟩, entry "tilePart" r.node.tests ++ [], by
          rw [absorb_tests, h0, List.append_nil], .cons h1 .nil⟩
        · simp only [List.map_cons, List.foldl_cons, List.map_nil, List.foldl_nil, addIndex]
        · simp only [List.map_cons, List.foldl_cons, List.map_nil, List.foldl_nil, addDeclared]
        · simp only [List.map_cons, List.foldl_cons, List.map_nil, List.foldl_nil, addFound]; rfl
      · rw [if_neg hin] at h
        cases h
        refine ⟨⟨?_, ?_, ?_⟩, entry "tilePart" r.node.tests ++ [], by
          rw [absorb_tests, h0, List.append_nil], .cons h1 .nil⟩
        · simp only [List.map_cons, List.foldl_cons, List.map_nil, List.foldl_nil, addIndex]
        · simp only [List.map_cons, List.foldl_cons, List.map_nil, List.foldl_nil, addDeclared]
        · simp only [List.map_cons, List.foldl_cons, List.map_nil, List.foldl_nil, addFound]
          rw [modify_out (by omega)]
  | @step t ts ht hlt hne _ ih =>
    intro fuel s s' h hm ho hn
    cases fuel with
    | zero => cases h
    | succ fuel =>
      rw [tileLoop, if_pos hm, ho, slice2] at h
      simp only [] at h
      rw [if_pos (show sub b t.start 2 = mSOT from (segAt_marker ht.seg).symm)] at h
      obtain ⟨r, hr, h⟩ := Outcome.bind_eq_ok.1 h
      obtain ⟨isot, hi, h⟩ := Outcome.bind_eq_ok.1 h
      obtain ⟨tnsot, htn, h⟩ := Outcome.bind_eq_ok.1 h
      obtain ⟨h0, h1, h2, h2', h3⟩ := key ht hr
      rw [h2] at hi
      rw [h2'] at htn
      cases hi
      cases htn
      rw [h3] at h
      rw [if_pos (by omega), if_pos (by simp only [Option.getD_some]; omega)] at h
      obtain ⟨hrun, es, h4, h5⟩ := ih _ _ _ h (segAt_marker ht.seg).symm (by simp) (by rw [List.length_modify]; exact hn)
      refine ⟨⟨?_, ?_, ?_⟩, entry "tilePart" r.node.tests ++ es, ?_, .cons h1 h5⟩
      · rw [hrun.indices, List.map_cons, List.foldl_cons, addIndex]
      · rw [hrun.expected, List.map_cons, List.foldl_cons, addDeclared]
      · rw [hrun.found, List.map_cons, List.foldl_cons, addFound]; rfl
      · rw [h4, absorb_tests, h0, List.append_assoc]

/-- The hypotheses of `C56_tilePart` can be met: the second tile-part of `csTwo`. -/
example : ∃ r, SegAt csTwo 79 SOT (sub csTwo 81 10) (some 91) ∧ uint (sub csTwo 81 10) 4 4 = some 14 ∧
    tilePart Sample.env0 (Sample.opts .j2c) 100 (some ((1 : Nat) : Int)) 79 csTwo = .ok r := by
  have : (match tilePart Sample.env0 (Sample.opts .j2c) 100 (some ((1 : Nat) : Int)) 79 csTwo with
    | .ok _ => true | _ => false) = true := by decide +kernel
  split at this
  · rename_i r hr
    exact ⟨r, segAt_mk (L := 10) (by decide +kernel) (by decide) (by decide +kernel) rfl rfl, by decide +kernel, hr⟩
  · cases this

end Jpy
