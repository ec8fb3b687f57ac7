import Verif.Lemmas.Depth
import Verif.Lemmas.Legal
/-! # How many levels of elements codestreams, files and MIX output add to a report -/

namespace Jpy
open Spec

theorem low_segment {env o fuel csiz m c r} (h : validateLeaf env o fuel csiz m c = .ok r)
    (hm : m ∈ mSIZ :: tpMarkers ++ mainMarkers) : Low 1 r.node := by
  unfold validateLeaf at h
  obtain ⟨ss, h1, h⟩ := Outcome.bind_eq_ok.1 h
  cases h
  have ht : boxTypeOf m ∈ [BoxType.cap, .siz, .prf, .cod, .qcd, .com, .coc, .rgn, .qcc, .poc, .tlm, .plm, .plt, .cpf,
      .ppm, .ppt, .crg] := by
    clear h1 h
    revert m; decide
  exact low_run (low_empty 1) (low_seg h1 ht)

theorem low_tpStep {env o f csiz b s s'}
    (h : tpStep (fun mk c cs => validateLeaf env o f cs mk c) o.packetmarkers csiz b s = .ok s') (hs : Low 2 s.node) :
    Low 2 s'.node := by
  rw [tpStep_eq] at h
  simp only at h
  split at h
  · rename_i hm
    obtain ⟨r, hr, h⟩ := Outcome.bind_eq_ok.1 h
    cases h
    have := low_segment hr (by simp only [List.cons_append, List.mem_cons, List.mem_append]; exact .inr (.inl hm))
    simp only
    split
    · exact low_packet hs this
    · exact low_absorb hs this
  · cases h
    exact hs

theorem low_mainStep {env o f csiz b s s'}
    (h : mainStep (fun mk c cs => validateLeaf env o f cs mk c) o.packetmarkers csiz b s = .ok s') (hs : Low 4 s.node) :
    Low 4 s'.node := by
  rw [mainStep_eq] at h
  simp only at h
  split at h
  · rename_i hm
    obtain ⟨r, hr, h⟩ := Outcome.bind_eq_ok.1 h
    cases h
    have := (low_segment hr (by simp only [List.cons_append, List.mem_cons, List.mem_append]; exact .inr (.inr hm))).mono
      (show 1 ≤ 3 by decide)
    simp only
    split
    · exact low_packet hs this
    · exact low_absorb hs this
  · cases h
    exact hs

theorem low_tpLoop {env o f csiz b} : ∀ (fuel : Nat) {s s' : TPState},
    tpLoop (fun mk c cs => validateLeaf env o f cs mk c) o.packetmarkers csiz b fuel s = .ok s' →
    Low 2 s.node → Low 2 s'.node
  | 0, _, _, h, _ => nomatch h
  | fuel + 1, s, s', h, hs => by
    unfold tpLoop at h
    split at h
    · obtain ⟨s1, h1, h⟩ := Outcome.bind_eq_ok.1 h
      exact low_tpLoop fuel h (low_tpStep h1 hs)
    · cases h; exact hs

theorem low_mainLoop {env o f csiz b} : ∀ (fuel : Nat) {s s' : MainState},
    mainLoop (fun mk c cs => validateLeaf env o f cs mk c) o.packetmarkers csiz b fuel s = .ok s' →
    Low 4 s.node → Low 4 s'.node
  | 0, _, _, h, _ => nomatch h
  | fuel + 1, s, s', h, hs => by
    unfold mainLoop at h
    split at h
    · obtain ⟨s1, h1, h⟩ := Outcome.bind_eq_ok.1 h
      exact low_mainLoop fuel h (low_mainStep h1 hs)
    · cases h; exact hs

/-- Leaves out the tests that follow each other. -/
macro "low_tests" : tactic => `(tactic|
  repeat (with_reducible first | apply low_testFor | apply low_testIf | apply low_addChar))

theorem low_tilePart {env o fuel csiz off b r} (h : tilePart env o fuel csiz off b = .ok r) : Low 2 r.node := by
  unfold tilePart at h
  obtain ⟨s, hs, h⟩ := Outcome.bind_eq_ok.1 h
  cases h
  have h1 := low_tpLoop fuel hs (low_absorb (low_empty 2) (low_run (low_empty 1) (low_sot _)))
  simp only
  unfold tpFinish
  simp only []
  low_tests
  exact h1

theorem low_tileLoop {tp : Int → Outcome BoxResult} {b : Bytes}
    (htp : ∀ off r, tp off = .ok r → Low 2 r.node) : ∀ (fuel : Nat) {s s' : TileState},
    tileLoop tp b fuel s = .ok s' → Low 3 s.node → Low 3 s'.node
  | 0, _, _, h, _ => nomatch h
  | fuel + 1, s, s', h, hs => by
    unfold tileLoop at h
    simp only at h
    split at h
    · split at h
      · obtain ⟨r, hr, h⟩ := Outcome.bind_eq_ok.1 h
        obtain ⟨i, -, h⟩ := Outcome.bind_eq_ok.1 h
        obtain ⟨j, -, h⟩ := Outcome.bind_eq_ok.1 h
        have h1 := low_absorb hs (htp _ _ hr)
        split at h
        · split at h
          · exact low_tileLoop htp fuel h h1
          · cases h; exact h1
        · cases h; exact h1
      · cases h; exact hs
    · cases h; exact hs

theorem low_csFinish {o b sz k} {n n' : Node} {t : TileState} (h : codestreamFinish o b sz k n t = .ok n')
    (hn : Low 4 n) (ht : Low 3 t.node) : Low 4 n' := by
  unfold codestreamFinish at h
  simp only at h
  split at h
  · obtain ⟨_, -, h⟩ := Outcome.bind_eq_ok.1 h
    obtain ⟨_, -, h⟩ := Outcome.bind_eq_ok.1 h
    obtain ⟨_, -, h⟩ := Outcome.bind_eq_ok.1 h
    obtain ⟨_, -, h⟩ := Outcome.bind_eq_ok.1 h
    obtain ⟨_, -, h⟩ := Outcome.bind_eq_ok.1 h
    cases h
    low_tests
    refine low_absorb ?_ ht
    low_tests
    exact hn
  · cases h
    low_tests
    refine low_absorb ?_ ht
    low_tests
    exact hn

/-- A codestream has four levels: tile-parts, tile-part, segment and value. -/
theorem low_codestream {env o fuel b n} (h : codestream env o fuel b = .ok n) : Low 4 n := by
  unfold codestream at h
  simp only at h
  split at h
  · rename_i hm
    rw [hm] at h
    obtain ⟨r, hr, h⟩ := Outcome.bind_eq_ok.1 h
    obtain ⟨k, hk, h⟩ := Outcome.bind_eq_ok.1 h
    obtain ⟨s, hs, h⟩ := Outcome.bind_eq_ok.1 h
    obtain ⟨rs, -, h⟩ := Outcome.bind_eq_ok.1 h
    obtain ⟨nt, -, h⟩ := Outcome.bind_eq_ok.1 h
    obtain ⟨t, ht, h⟩ := Outcome.bind_eq_ok.1 h
    have a1 := (low_segment hr (by decide)).mono (show 1 ≤ 3 by decide)
    have a2 := low_mainLoop fuel hs (low_absorb (by low_tests; exact low_empty _) a1)
    have a3 := low_tileLoop (fun off r hr => low_tilePart hr) fuel ht (low_empty _)
    refine low_csFinish h ?_ a3
    low_tests
    exact a2
  · cases h
    low_tests
    exact low_empty _

/-! ## Boxes -/

theorem low_jp2h {k} (o : Options) (n : Node) (types) (h : Low (k + 1) n) : Low (k + 1) (jp2HeaderFinish o n types) := by
  unfold jp2HeaderFinish
  simp only []
  cases o.format <;> simp only [] <;> low_tests <;> exact h

theorem low_walk {env : Env} {o : Options} {fuel f k : Nat} {c : Bytes} {n types}
    (hsub : ∀ bs, Boxes c bs → ∀ x ∈ bs, ∀ r, validateBox env o f x.type x.payload = .ok r → Low k r.node)
    (h : walkBoxes (validateBox env o f) c fuel = .ok (n, types)) : Low (k + 1) n := by
  obtain ⟨bs, hbs⟩ := boxes_exists c
  obtain ⟨rs, h1, rfl, -⟩ := walkBoxes_ok hbs h
  refine low_foldl (low_empty _) fun r hr => ?_
  have : ∀ {xs : List FoundBox} {rs}, inTurn (fun x => validateBox env o f x.type x.payload) xs = .ok rs → ∀ r ∈ rs,
      ∃ x ∈ xs, validateBox env o f x.type x.payload = .ok r := by
    intro xs
    induction xs with
    | nil => intro rs h r hr; cases h; cases hr
    | cons x xs ih =>
      intro rs h r hr
      obtain ⟨y, hy, h⟩ := Outcome.bind_eq_ok.1 h
      obtain ⟨ys, hys, h⟩ := Outcome.bind_eq_ok.1 h
      cases h
      rcases List.mem_cons.1 hr with rfl | hr
      · exact ⟨x, List.mem_cons_self .., hy⟩
      · obtain ⟨z, hz, h⟩ := ih hys r hr
        exact ⟨z, List.mem_cons_of_mem _ hz, h⟩
  obtain ⟨x, hx, hv⟩ := this h1 r hr
  exact hsub bs hbs x hx r hv

/-- The boxes inside of a box: levels of boxes and of XML documents. -/
theorem low_box {env : Env} {o : Options} {m : Nat} : ∀ (fuel n : Nat) (t p : Bytes) (r : BoxResult),
    (t ∈ superboxTypes → NestedIn n p ∧ DocsIn env m p) → DocBox env m t p → validateBox env o fuel t p = .ok r →
    Low (n + max 4 m) r.node
  | 0, _, _, _, _, _, _, h => nomatch h
  | fuel + 1, n, t, p, r, hn, hd, h => by
    have walk : t ∈ superboxTypes → ∀ q types, walkBoxes (validateBox env o fuel) p fuel = .ok (q, types) →
        Low (n + max 4 m) q := by
      intro ht q types hw
      obtain ⟨h1, h2⟩ := hn ht
      cases n with
      | zero =>
        obtain ⟨bs, hb⟩ := boxes_exists p
        obtain ⟨rs, h3, rfl, -⟩ := walkBoxes_ok hb hw
        cases bs with
        | nil => cases h3; exact low_empty _
        | cons x bs => exact absurd (h1 _ _ _ (.top hb (List.mem_cons_self ..))) (by decide)
      | succ n =>
        rw [Nat.add_right_comm]
        refine low_walk (fun bs hb x hx r hr => ?_) hw
        refine low_box fuel n _ _ r (fun hs => ⟨fun d t' p' h' => ?_, fun d t' p' h' => ?_⟩) ?_ hr
        · have := h1 _ _ _ (hasBox_at hb hx hs h')
          omega
        · exact h2 _ _ _ (hasBox_at hb hx hs h')
        · exact h2 _ _ _ (.top hb hx)
    obtain ⟨k, hk⟩ : ∃ k, n + max 4 m = k + 1 := ⟨n + max 4 m - 1, by omega⟩
    unfold validateBox at h
    split at h
    · rename_i e
      obtain ⟨⟨q, types⟩, h1, h⟩ := Outcome.bind_eq_ok.1 h
      cases h
      have h2 := walk (superboxTypes_cases.2 (.inl e)) _ _ h1
      rw [hk] at h2 ⊢
      exact low_jp2h _ _ _ h2
    · rename_i e
      obtain ⟨⟨q, types⟩, h1, h⟩ := Outcome.bind_eq_ok.1 h
      cases h
      have h2 := walk (superboxTypes_cases.2 (.inr (.inl e))) _ _ h1
      rw [hk] at h2 ⊢
      unfold resolutionFinish
      simp only []
      low_tests
      exact h2
    · rename_i e
      obtain ⟨⟨q, types⟩, h1, h⟩ := Outcome.bind_eq_ok.1 h
      cases h
      have h2 := walk (superboxTypes_cases.2 (.inr (.inr e))) _ _ h1
      rw [hk] at h2 ⊢
      unfold uuidInfoFinish
      simp only []
      low_tests
      exact h2
    · obtain ⟨q, h1, h⟩ := Outcome.bind_eq_ok.1 h
      cases h
      exact (low_codestream h1).mono (by omega)
    · cases h
    · exact (low_leafBox hd h).mono (by omega)

theorem low_sizConsistency {o k n ih sz n' d} (h : sizConsistency o k n ih sz = .ok n') (hn : Low (d + 1) n) : Low (d + 1) n' := by
  unfold sizConsistency at h
  obtain ⟨_, -, h⟩ := Outcome.bind_eq_ok.1 h
  obtain ⟨_, -, h⟩ := Outcome.bind_eq_ok.1 h
  obtain ⟨_, -, h⟩ := Outcome.bind_eq_ok.1 h
  obtain ⟨_, -, h⟩ := Outcome.bind_eq_ok.1 h
  obtain ⟨⟨signs, depths⟩, -, h⟩ := Outcome.bind_eq_ok.1 h
  simp only at h
  split at h
  · obtain ⟨_, -, h⟩ := Outcome.bind_eq_ok.1 h
    obtain ⟨_, -, h⟩ := Outcome.bind_eq_ok.1 h
    obtain ⟨_, -, h⟩ := Outcome.bind_eq_ok.1 h
    cases h
    low_tests
    exact hn
  · cases h
    low_tests
    exact hn

theorem low_jp2Finish {o k n types n' d} (h : jp2Finish o k n types = .ok n') (hn : Low (d + 1) n) : Low (d + 1) n' := by
  unfold jp2Finish at h
  simp only at h
  split at h
  · refine low_sizConsistency h ?_
    low_tests
    exact hn
  · cases h
    low_tests
    exact hn

/-- What the analysis of a file gives has as many levels as its boxes and documents. -/
theorem low_root {env : Env} {o : Options} {fuel b q n m} (hf : FileNested env o.format n m b)
    (h : validateRoot env o fuel b = .ok q) : Low (n + max 4 m) q := by
  have jp2 : o.format = .jp2 ∨ o.format = .jph → validateJP2 env o fuel b = .ok q → Low (n + max 4 m) q := by
    intro hfmt h
    obtain ⟨hn, hd⟩ := hf hfmt
    unfold validateJP2 at h
    obtain ⟨⟨w, types⟩, h1, h⟩ := Outcome.bind_eq_ok.1 h
    obtain ⟨k, hk⟩ : ∃ k, n + max 4 m = k + 1 := ⟨n + max 4 m - 1, by omega⟩
    rw [hk]
    refine low_jp2Finish h ?_
    rw [← hk]
    cases n with
    | zero =>
      obtain ⟨bs, hb⟩ := boxes_exists b
      obtain ⟨rs, h3, rfl, -⟩ := walkBoxes_ok hb h1
      cases bs with
      | nil => cases h3; exact low_empty _
      | cons x bs => exact absurd (hn _ _ _ (.top hb (List.mem_cons_self ..))) (by decide)
    | succ n =>
      rw [Nat.add_right_comm]
      refine low_walk (fun bs hb x hx r hr => ?_) h1
      refine low_box fuel n _ _ r (fun hs => ⟨fun d t' p' h' => ?_, fun d t' p' h' => ?_⟩) ?_ hr
      · have := hn _ _ _ (hasBox_at hb hx hs h')
        omega
      · exact hd _ _ _ (hasBox_at hb hx hs h')
      · exact hd _ _ _ (.top hb hx)
  unfold validateRoot at h
  split at h
  · rename_i e; exact jp2 (.inl e) h
  · rename_i e; exact jp2 (.inr e) h
  · exact (low_codestream h).mono (by omega)
  · exact (low_codestream h).mono (by omega)
  · cases h

/-! ## MIX -/

/-- The levels of an element that is built from others. -/
macro "levels" : tactic => `(tactic|
  simp only [depth_node, depthL_cons, depthL_append, depthL_nil, depth_leaf, sLeaf])

/-- Follows the statements of a function. -/
macro "binds" : tactic => `(tactic|
  repeat' (first
    | (with_reducible refine OkP.bind_ok ?_)
    | (with_reducible exact OkP.bind_raised)
    | (with_reducible refine OkP.ok ?_)
    | (with_reducible refine OkP.bind fun _ _ => ?_)
    | split))

theorem depth_bdoi {me flag props e} (h : mixBdoi me flag props = .ok e) : e.depth ≤ 4 := by
  revert e
  change OkP (fun e : Elem => e.depth ≤ 4) _
  unfold mixBdoi
  simp only []
  binds
  all_goals levels; decide

theorem depth_photometric {me props e} (h : mixPhotometric me props = .ok e) : e.depth ≤ 4 := by
  unfold mixPhotometric at h
  split at h
  · obtain ⟨_, -, h⟩ := ok_of_bind h
    obtain ⟨_, -, h⟩ := ok_of_bind h
    obtain ⟨_, -, h⟩ := ok_of_bind h
    cases h
    levels
    decide
  · obtain ⟨_, -, h⟩ := ok_of_bind h
    obtain ⟨_, -, h⟩ := ok_of_bind h
    cases h
    levels
    decide

theorem depth_codec {props es} (h : mixCodec props = .ok es) : Elem.depthL es ≤ 2 := by
  unfold mixCodec at h
  split at h
  · cases h; decide
  · obtain ⟨_, -, h⟩ := ok_of_bind h
    split at h <;> cases h <;> levels <;> decide

theorem depth_bio {me flag props e} (h : mixBio me flag props = .ok e) : e.depth ≤ 6 := by
  unfold mixBio at h
  obtain ⟨_, -, h⟩ := ok_of_bind h
  obtain ⟨_, -, h⟩ := ok_of_bind h
  obtain ⟨pi, hpi, h⟩ := ok_of_bind h
  obtain ⟨codec, hc, h⟩ := ok_of_bind h
  obtain ⟨tx, -, h⟩ := ok_of_bind h
  obtain ⟨ty, -, h⟩ := ok_of_bind h
  obtain ⟨ly, -, h⟩ := ok_of_bind h
  obtain ⟨lv, -, h⟩ := ok_of_bind h
  cases h
  have h1 := depth_photometric hpi
  have h2 := depth_codec hc
  have h3 : ∀ (p : Prop) [Decidable p] (a b : Elem), a.depth ≤ 2 → b.depth ≤ 2 → (if p then a else b).depth ≤ 2 := by
    intro p _ a b ha hb; split <;> assumption
  have h4 : ∀ (p : Prop) [Decidable p] (a : Elem), a.depth ≤ 2 → Elem.depthL (if p then [a] else []) ≤ 2 := by
    intro p _ a ha; split
    · rw [depthL_one]; exact ha
    · decide
  have a1 := h3 (flag = 1) (sLeaf "mix:tiles" (strOf tx ++ "x" ++ strOf ty)) (.node "mix:Tiles"
      [sLeaf "mix:tileWidth" (strOf tx), sLeaf "mix:tileHeight" (strOf ty)]) (by levels; decide) (by levels; decide)
  have a2 := h4 (strOf ly ≠ "0") (sLeaf "mix:qualityLayers" (strOf ly)) (by levels; decide)
  have a3 := h4 (strOf lv ≠ "0") (sLeaf "mix:resolutionLevels" (strOf lv)) (by levels; decide)
  simp only [depth_node, depthL_cons, depthL_append, depthL_nil]
  rw [show (sLeaf "mix:imageWidth" (strOf _)).depth = 1 from depth_leaf .., show (sLeaf "mix:imageHeight" (strOf _)).depth = 1 from depth_leaf ..]
  omega

theorem depth_addIfExist {me rdf ns tag dest es} (h : addIfExist me rdf ns tag dest = .ok es) : Elem.depthL es ≤ 1 := by
  unfold addIfExist at h
  obtain ⟨v, -, h⟩ := ok_of_bind h
  split at h
  · obtain ⟨s, -, h⟩ := ok_of_bind h
    cases h; levels; decide
  · cases h; decide

theorem depth_icm {me props e} (h : mixIcm me props = .ok e) : Elem.depthL e.toList ≤ 4 := by
  unfold mixIcm at h
  split at h
  · cases h; decide
  · obtain ⟨cr, h1, h⟩ := ok_of_bind h
    obtain ⟨ar, h2, h⟩ := ok_of_bind h
    obtain ⟨ma, h3, h⟩ := ok_of_bind h
    obtain ⟨mo, h4, h⟩ := ok_of_bind h
    obtain ⟨se, h5, h⟩ := ok_of_bind h
    obtain ⟨to, -, h⟩ := ok_of_bind h
    have h1 := depth_addIfExist h1
    have h2 := depth_addIfExist h2
    have h3 := depth_addIfExist h3
    have h4 := depth_addIfExist h4
    have h5 := depth_addIfExist h5
    have key : ∀ so : List Elem, Elem.depthL so ≤ 2 → Elem.depthL (some (Elem.node "mix:ImageCaptureMetadata"
        (Elem.node "mix:GeneralCaptureInformation" (cr ++ ar) ::
          if (ma ++ (if (mo ++ se).isEmpty = true then [] else [Elem.node "mix:ScannerModel" (mo ++ se)]) ++ so).isEmpty = true
            then [] else [Elem.node "mix:ScannerCapture"
              (ma ++ (if (mo ++ se).isEmpty = true then [] else [Elem.node "mix:ScannerModel" (mo ++ se)]) ++ so)]))).toList ≤ 4 := by
      intro so h6
      have h7 : Elem.depthL (if (mo ++ se).isEmpty = true then [] else [Elem.node "mix:ScannerModel" (mo ++ se)]) ≤ 2 := by
        split
        · decide
        · rw [depthL_one, depth_node, depthL_append]; omega
      generalize (if (mo ++ se).isEmpty = true then [] else [Elem.node "mix:ScannerModel" (mo ++ se)]) = x at *
      simp only [Option.toList, depthL_one]
      rw [depth_node, depthL_cons, depth_node, depthL_append]
      split
      · rw [depthL_nil]; omega
      · rw [depthL_one, depth_node, depthL_append, depthL_append]; omega
    revert h
    generalize e = e'
    revert e'
    change OkP (fun e : Option Elem => Elem.depthL e.toList ≤ 4) _
    simp only []
    split
    · with_reducible refine OkP.bind_ok ?_
      exact OkP.ok (key _ (by decide))
    · with_reducible refine OkP.bind fun _ _ => ?_
      split <;> with_reducible refine OkP.bind_ok ?_
      · exact OkP.ok (key _ (by levels; decide))
      · exact OkP.ok (key _ (by levels; decide))

theorem depth_spatial {me flag props es} (h : mixSpatial me flag props = .ok es) : Elem.depthL es ≤ 3 := by
  unfold mixSpatial at h
  simp only at h
  split at h
  · obtain ⟨_, -, h⟩ := ok_of_bind h
    obtain ⟨_, -, h⟩ := ok_of_bind h
    obtain ⟨_, -, h⟩ := ok_of_bind h
    obtain ⟨_, -, h⟩ := ok_of_bind h
    obtain ⟨_, -, h⟩ := ok_of_bind h
    obtain ⟨_, -, h⟩ := ok_of_bind h
    cases h
    levels
    decide
  · split at h
    · obtain ⟨_, -, h⟩ := ok_of_bind h
      obtain ⟨_, -, h⟩ := ok_of_bind h
      obtain ⟨_, -, h⟩ := ok_of_bind h
      obtain ⟨_, -, h⟩ := ok_of_bind h
      obtain ⟨_, -, h⟩ := ok_of_bind h
      obtain ⟨_, -, h⟩ := ok_of_bind h
      cases h
      levels
      decide
    · cases h; decide

theorem depth_iam {me flag props e} (h : mixIam me flag props = .ok e) : e.depth ≤ 4 := by
  unfold mixIam at h
  obtain ⟨sp, h1, h⟩ := ok_of_bind h
  have h1 := depth_spatial h1
  have key : ∀ (bps : Elem) (num : PyVal), bps.depth ≤ 2 → (Elem.node "mix:ImageAssessmentMetadata"
      (sp ++ [Elem.node "mix:ImageColorEncoding" [bps, Elem.leaf "mix:samplesPerPixel" num]])).depth ≤ 4 := by
    intro bps num hb
    levels
    omega
  revert h
  generalize e = e'
  revert e'
  change OkP (fun e : Elem => e.depth ≤ 4) _
  simp only []
  binds
  · exact key _ _ (by levels; decide)
  · refine key _ _ ?_
    rw [depth_node, depthL_append]
    have : ∀ vs : List PyVal, Elem.depthL (vs.map (Elem.leaf "mix:bitsPerSampleValue")) ≤ 1 := fun vs =>
      depthL_le fun e he => by
        obtain ⟨v, -, rfl⟩ := List.mem_map.1 he
        rw [depth_leaf]; exact Nat.le_refl _
    have := this (Elem.findAllText (Elem.children (by assumption)) ["ssizDepth"])
    levels
    omega

/-- MIX output has at most seven levels. -/
theorem depth_mix {me flag props e} (h : generateMix me flag props = .ok e) : e.depth ≤ 7 := by
  unfold generateMix at h
  obtain ⟨a, h1, h⟩ := ok_of_bind h
  obtain ⟨b, h2, h⟩ := ok_of_bind h
  obtain ⟨c, h3, h⟩ := ok_of_bind h
  obtain ⟨d, h4, h⟩ := ok_of_bind h
  cases h
  have h1 := depth_bdoi h1
  have h2 := depth_bio h2
  have h3 := depth_icm h3
  have h4 := depth_iam h4
  rw [Elem.depth, depthL_append, depthL_append, depthL_cons, depthL_one, depthL_one]
  omega

end Jpy
