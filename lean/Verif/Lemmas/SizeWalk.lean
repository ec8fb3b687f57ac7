import Verif.Lemmas.Size
import Verif.Lemmas.Cs
/-! # How many elements codestreams and files add to a report -/

namespace Jpy
open Spec

theorem size_packet (pm) (n : Node) (r : BoxResult) : (n.absorbPacket pm r).size ≤ n.size + r.node.size + 3 := by
  unfold Node.absorbPacket
  split
  · exact size_absorb ..
  · exact size_quiet ..

theorem size_seg {env o fuel csiz m c r} (h : validateLeaf env o fuel csiz m c = .ok r)
    (hm : m ∈ mSIZ :: tpMarkers ++ mainMarkers) (hcs : ∀ n, csiz = some n → n ≤ 65535) : r.node.size ≤ 2 ^ 19 := by
  unfold validateLeaf at h
  obtain ⟨ss, h1, h⟩ := Outcome.bind_eq_ok.1 h
  cases h
  have ht : boxTypeOf m ∈ [BoxType.cap, .siz, .prf, .cod, .qcd, .com, .coc, .rgn, .qcc, .poc, .tlm, .plm, .plt, .cpf,
      .ppm, .ppt, .crg] := by
    clear h1 h
    revert m; decide
  have h2 := cost_seg h1 ht hcs
  have h3 := size_run o.verbose ss {}
  rw [size_empty] at h3
  simp only
  omega

theorem csiz_none {csiz : Option Int} {p : Prop} [Decidable p] (hcs : ∀ n, csiz = some n → n ≤ 65535) :
    ∀ n, (if p then csiz else none) = some n → n ≤ 65535 := by
  intro n h
  split at h
  · exact hcs n h
  · cases h

theorem size_tpStep {env o f csiz b s s'} (hcs : ∀ n, csiz = some n → n ≤ 65535)
    (h : tpStep (fun mk c cs => validateLeaf env o f cs mk c) o.packetmarkers csiz b s = .ok s') :
    s'.node.size ≤ s.node.size + 2 ^ 20 := by
  rw [tpStep_eq] at h
  simp only at h
  split at h
  · rename_i hm
    obtain ⟨r, hr, h⟩ := Outcome.bind_eq_ok.1 h
    cases h
    have := size_seg hr (by simp only [List.cons_append, List.mem_cons, List.mem_append]; exact .inr (.inl hm)) (csiz_none hcs)
    have h1 := size_packet o.packetmarkers s.node r
    have h2 := size_absorb s.node r
    simp only
    split <;> omega
  · cases h
    simp only
    omega

theorem size_mainStep {env o f csiz b s s'} (hcs : ∀ n, csiz = some n → n ≤ 65535)
    (h : mainStep (fun mk c cs => validateLeaf env o f cs mk c) o.packetmarkers csiz b s = .ok s') :
    s'.node.size ≤ s.node.size + 2 ^ 20 := by
  rw [mainStep_eq] at h
  simp only at h
  split at h
  · rename_i hm
    obtain ⟨r, hr, h⟩ := Outcome.bind_eq_ok.1 h
    cases h
    have := size_seg hr (by simp only [List.cons_append, List.mem_cons, List.mem_append]; exact .inr (.inr hm)) (csiz_none hcs)
    have h1 := size_packet o.packetmarkers s.node r
    have h2 := size_absorb s.node r
    simp only
    split <;> omega
  · cases h
    simp only
    omega

theorem size_tpLoop {env o f csiz b} (hcs : ∀ n, csiz = some n → n ≤ 65535) : ∀ (fuel : Nat) {s s' : TPState},
    tpLoop (fun mk c cs => validateLeaf env o f cs mk c) o.packetmarkers csiz b fuel s = .ok s' →
    s'.node.size ≤ s.node.size + fuel * 2 ^ 20
  | 0, _, _, h => nomatch h
  | fuel + 1, s, s', h => by
    unfold tpLoop at h
    split at h
    · obtain ⟨s1, h1, h⟩ := Outcome.bind_eq_ok.1 h
      have a := size_tpStep hcs h1
      have c := size_tpLoop hcs fuel h
      omega
    · cases h; omega

theorem size_mainLoop {env o f csiz b} (hcs : ∀ n, csiz = some n → n ≤ 65535) : ∀ (fuel : Nat) {s s' : MainState},
    mainLoop (fun mk c cs => validateLeaf env o f cs mk c) o.packetmarkers csiz b fuel s = .ok s' →
    s'.node.size ≤ s.node.size + fuel * 2 ^ 20
  | 0, _, _, h => nomatch h
  | fuel + 1, s, s', h => by
    unfold mainLoop at h
    split at h
    · obtain ⟨s1, h1, h⟩ := Outcome.bind_eq_ok.1 h
      have a := size_mainStep hcs h1
      have c := size_mainLoop hcs fuel h
      omega
    · cases h; omega

theorem testFor_le {v n name r k a} (h : Node.size n + (a + 1) ≤ k) : (Node.testFor v n name r).size + a ≤ k := by
  have := size_testFor v n name r
  omega
theorem testIf_le {v n c name r k a} (h : Node.size n + (a + 1) ≤ k) : (Node.testIf v n c name r).size + a ≤ k := by
  have := size_testIf v n c name r
  omega
theorem addChar_le {n name x k a} (h : Node.size n + (a + 1) ≤ k) : (Node.addChar n name x).size + a ≤ k := by
  have := size_addChar n name x
  omega

theorem start_le {n k} (h : Node.size n + 0 ≤ k) : n.size ≤ k := h

/-- Bounds the tests that follow each other. -/
macro "add_tests" : tactic => `(tactic| (
  refine start_le ?_
  repeat (with_reducible first | apply testFor_le | apply testIf_le | apply addChar_le)
  omega))

theorem size_tpFinish (v) (s : TPState) : (tpFinish v s).size ≤ s.node.size + 10 := by
  unfold tpFinish
  simp only []
  add_tests

theorem size_tilePart {env o fuel csiz off b r} (hcs : ∀ n, csiz = some n → n ≤ 65535)
    (h : tilePart env o fuel csiz off b = .ok r) : r.node.size ≤ fuel * 2 ^ 20 + 23 := by
  unfold tilePart at h
  obtain ⟨s, hs, h⟩ := Outcome.bind_eq_ok.1 h
  cases h
  have h1 := size_tpLoop hcs fuel hs
  have h2 := size_absorb {} { tag := "sot", node := Node.run o.verbose {} (sot (getMarkerSegment b off).contents) }
  have h3 := size_run o.verbose (sot (getMarkerSegment b off).contents) {}
  have h4 := cost_sot (getMarkerSegment b off).contents
  have h5 := size_tpFinish o.verbose s
  rw [size_empty] at h2 h3
  simp only at h1 h2 ⊢
  refine Nat.le_trans (size_testIf ..) ?_
  omega

theorem size_tileLoop {tp : Int → Outcome BoxResult} {b : Bytes} {k : Nat}
    (htp : ∀ off r, tp off = .ok r → r.node.size ≤ k) : ∀ (fuel : Nat) {s s' : TileState},
    tileLoop tp b fuel s = .ok s' → s'.node.size ≤ s.node.size + fuel * (k + 3)
  | 0, _, _, h => nomatch h
  | fuel + 1, s, s', h => by
    unfold tileLoop at h
    simp only at h
    rw [Nat.add_mul]
    split at h
    · split at h
      · obtain ⟨r, hr, h⟩ := Outcome.bind_eq_ok.1 h
        obtain ⟨i, -, h⟩ := Outcome.bind_eq_ok.1 h
        obtain ⟨j, -, h⟩ := Outcome.bind_eq_ok.1 h
        have h1 := size_absorb s.node r
        have h2 := htp _ _ hr
        split at h
        · split at h
          · have := size_tileLoop htp fuel h
            simp only at this
            omega
          · cases h; simp only; omega
        · cases h; simp only; omega
      · cases h; simp only; omega
    · cases h; omega

theorem size_csFinish {o b sz k} {n n' : Node} {t : TileState} (h : codestreamFinish o b sz k n t = .ok n') :
    n'.size ≤ n.size + t.node.size + 9 := by
  have hm : ∀ (c d : Bool) (x y : Bool), ((((((n.testFor o.verbose "foundExpectedNumberOfTiles"
      (decide ((t.tileIndices.length : Int) = k))).testIf o.verbose (!t.expected.isEmpty) "foundExpectedNumberOfTileParts"
      (dictEqFound t.expected t.found)).absorb { tag := "tileParts", node := t.node }).testIf o.verbose c
      "maxOneCcocPerComponentMain" x).testIf o.verbose d "maxOneCqccPerComponentMain" y).testFor o.verbose "foundEOCMarker"
    (decide (slice b ((b.length : Int) - 2) b.length = mEOC))).size ≤ n.size + t.node.size + 8 := by
    intro c d x y
    refine Nat.le_trans (size_testFor ..) (Nat.add_le_add_right (m := n.size + t.node.size + 7) ?_ 1)
    refine Nat.le_trans (size_testIf ..) (Nat.add_le_add_right (m := n.size + t.node.size + 6) ?_ 1)
    refine Nat.le_trans (size_testIf ..) (Nat.add_le_add_right (m := n.size + t.node.size + 5) ?_ 1)
    refine Nat.le_trans (size_absorb ..) ?_
    have h1 := size_testIf o.verbose (n.testFor o.verbose "foundExpectedNumberOfTiles" (decide ((t.tileIndices.length : Int) = k)))
      (!t.expected.isEmpty) "foundExpectedNumberOfTileParts" (dictEqFound t.expected t.found)
    have h2 := size_testFor o.verbose n "foundExpectedNumberOfTiles" (decide ((t.tileIndices.length : Int) = k))
    simp only
    omega
  unfold codestreamFinish at h
  simp only at h
  split at h
  · obtain ⟨_, -, h⟩ := Outcome.bind_eq_ok.1 h
    obtain ⟨_, -, h⟩ := Outcome.bind_eq_ok.1 h
    obtain ⟨_, -, h⟩ := Outcome.bind_eq_ok.1 h
    obtain ⟨_, -, h⟩ := Outcome.bind_eq_ok.1 h
    obtain ⟨_, -, h⟩ := Outcome.bind_eq_ok.1 h
    cases h
    rw [size_addChar]
    exact Nat.succ_le_succ (hm _ _ _ _)
  · cases h
    exact Nat.le_succ_of_le (hm _ _ _ _)

theorem siz_csiz_le {env o fuel c r k} (h : validateLeaf env o fuel none mSIZ c = .ok r)
    (hk : needInt (Elem.findElementText r.node.chars ["csiz"]) = .ok k) : k ≤ 65535 := by
  obtain ⟨-, -, -, -, -, -, h7, -⟩ := siz_text h
  rw [reported_text h7] at hk
  cases hk
  cases hu : uint c 36 2 with
  | none => decide
  | some v =>
    have := uint_lt hu
    show (v : Int) ≤ 65535
    omega

theorem cs_sum {f r s h t n c m : Nat} (a1 : r ≤ 2 ^ 19) (a2 : m ≤ h + f * 2 ^ 20)
    (a3 : t ≤ 0 + f * (f * 2 ^ 20 + 23 + 3)) (a4 : n ≤ c + t + 9) (a5 : h ≤ s + r + 3) (a6 : s ≤ 2) (a7 : c ≤ m + 5) :
    n ≤ 2 ^ 20 * (f + 1) ^ 2 := by
  have e2 : f * (f * 2 ^ 20 + 23 + 3) = 2 ^ 20 * (f * f) + f * 26 := by
    rw [Nat.add_assoc, Nat.mul_add, ← Nat.mul_assoc, Nat.mul_comm (f * f)]
  have e : 2 ^ 20 * (f + 1) ^ 2 = 2 ^ 20 * (f * f) + 2 ^ 20 * f + 2 ^ 20 * f + 2 ^ 20 := by
    rw [Nat.pow_two, Nat.add_mul, Nat.mul_add f f 1, Nat.one_mul, Nat.mul_one]
    generalize f * f = x
    clear a3 e2
    omega
  rw [e2] at a3
  rw [e]
  generalize f * f = x at *
  omega

/-- How many elements a codestream adds at most, for the fuel used. -/
theorem size_codestream_fuel {env o fuel b n} (h : codestream env o fuel b = .ok n) :
    n.size ≤ 2 ^ 20 * (fuel + 1) ^ 2 := by
  have big : 2 ≤ 2 ^ 20 * (fuel + 1) ^ 2 :=
    Nat.le_trans (show 2 ≤ 2 ^ 20 * 1 by decide) (Nat.mul_le_mul_left _ (Nat.pow_pos (Nat.succ_pos _)))
  have h0 : ∀ a c, ((({} : Node).testFor o.verbose "codestreamStartsWithSOCMarker" a).testFor o.verbose "foundSIZMarker" c).size ≤ 2 := by
    intro a c
    refine Nat.le_trans (size_testFor ..) (Nat.add_le_add_right (m := 1) ?_ 1)
    exact Nat.le_trans (size_testFor ..) (Nat.add_le_add_right (m := 0) (Nat.le_of_eq size_empty) 1)
  unfold codestream at h
  simp only at h
  split at h
  · rename_i hm
    rw [hm] at h
    obtain ⟨r, hr, h⟩ := Outcome.bind_eq_ok.1 h
    obtain ⟨k, hk, h⟩ := Outcome.bind_eq_ok.1 h
    obtain ⟨s, hs, h⟩ := Outcome.bind_eq_ok.1 h
    obtain ⟨rs, -, h⟩ := Outcome.bind_eq_ok.1 h
    obtain ⟨nt, -, h⟩ := Outcome.bind_eq_ok.1 h
    obtain ⟨t, ht, h⟩ := Outcome.bind_eq_ok.1 h
    have hcs : ∀ n, some k = some n → n ≤ 65535 := by
      intro n hn; cases hn; exact siz_csiz_le hr hk
    have a1 := size_seg hr (by decide) (fun _ h => nomatch h)
    have a2 := size_mainLoop hcs fuel hs
    have a3 := size_tileLoop (fun off r hr => size_tilePart hcs hr) fuel ht
    have a4 := size_csFinish h
    simp only at a2 a3 a4
    rw [size_empty] at a3
    have a5 := size_absorb ((({} : Node).testFor o.verbose "codestreamStartsWithSOCMarker"
      (decide ((getMarkerSegment b 0).marker = mSOC))).testFor o.verbose "foundSIZMarker" (decide (mSIZ = mSIZ))) r
    have a6 := h0 (decide ((getMarkerSegment b 0).marker = mSOC)) (decide (mSIZ = mSIZ))
    have a7 : (((((s.node.addChar "ppmCount" (.int s.ppmCount)).addChar "plmCount" (.int s.plmCount)).testFor o.verbose
      "foundCODMarker" s.foundCOD).testFor o.verbose "foundQCDMarker" s.foundQCD).testIf o.verbose
      (decide (low (shr rs 14) 4 = 1)) "foundCAPMarker" s.foundCAP).size ≤ s.node.size + 5 := by
      refine Nat.le_trans (size_testIf ..) (Nat.add_le_add_right (m := s.node.size + 4) ?_ 1)
      refine Nat.le_trans (size_testFor ..) (Nat.add_le_add_right (m := s.node.size + 3) ?_ 1)
      refine Nat.le_trans (size_testFor ..) (Nat.add_le_add_right (m := s.node.size + 2) ?_ 1)
      rw [size_addChar, size_addChar]
      exact Nat.le_refl _
    exact Nat.le_trans (cs_sum a1 a2 a3 a4 a5 a6 a7) (Nat.le_refl _)
  · cases h
    exact Nat.le_trans (h0 _ _) big

/-! ## Boxes -/

theorem boxAt_room {b : Bytes} {off n : Nat} {t p} (h : BoxAt b off t p (some n)) (ho : off < b.length) :
    off + p.length + 1 ≤ n := by
  cases h <;> simp [length_sub] <;> omega

/-- The payloads of boxes that follow each other do not overlap. -/
theorem boxesFrom_room {b : Bytes} {off : Nat} {bs} (h : BoxesFrom b off bs) :
    off + (bs.map fun x => x.payload.length + 1).sum ≤ max b.length off := by
  induction h with
  | done => simp only [List.map_nil, List.sum_nil]; omega
  | @step off t p n bs hl hb hbs ih =>
    have h1 := boxAt_room hb hl
    have h2 := boxAt_payload hb hl
    rw [List.map_cons, List.sum_cons]
    by_cases hn : n ≤ b.length
    · simp only; omega
    · cases hbs with
      | done => simp only [List.map_nil, List.sum_nil]; omega
      | step hl' => omega
      | last hl' => omega
  | @last off t p hl hb =>
    have h2 := boxAt_payload hb hl
    simp only [List.map_cons, List.map_nil, List.sum_cons, List.sum_nil]; omega

theorem sq_add (k a c : Nat) : k * a ^ 2 + k * c ^ 2 ≤ k * (a + c) ^ 2 := by
  rw [← Nat.mul_add]
  refine Nat.mul_le_mul_left k ?_
  rw [Nat.pow_two, Nat.pow_two, Nat.pow_two, Nat.add_mul, Nat.mul_add, Nat.mul_add]
  omega

theorem size_absorbed {α} {f : α → Outcome BoxResult} {len : α → Nat} {K : Nat} : ∀ {xs : List α} {rs : List BoxResult},
    (∀ x ∈ xs, ∀ r, f x = .ok r → r.node.size + 3 ≤ K * len x ^ 2) → inTurn f xs = .ok rs → ∀ n : Node,
    (rs.foldl Node.absorb n).size ≤ n.size + K * (xs.map len).sum ^ 2
  | [], rs, _, h, n => by cases h; simp
  | x :: xs, rs, hf, h, n => by
    obtain ⟨r, hr, h⟩ := Outcome.bind_eq_ok.1 h
    obtain ⟨rs', hrs, h⟩ := Outcome.bind_eq_ok.1 h
    cases h
    have h1 := size_absorbed (fun y hy => hf y (List.mem_cons_of_mem _ hy)) hrs (n.absorb r)
    have h2 := hf x (List.mem_cons_self ..) r hr
    have h3 := size_absorb n r
    have h4 := sq_add K (len x) (xs.map len).sum
    rw [List.foldl_cons, List.map_cons, List.sum_cons]
    omega

/-- A codestream adds a bounded number of elements. -/
def CsSizes (env : Env) (o : Options) : Prop :=
  ∀ fuel c n, codestream env o fuel c = .ok n → n.size ≤ 2 ^ 22 * (c.length + 3) ^ 2

theorem sq_three (n : Nat) : (n + 3) ^ 2 ≤ 9 * (n + 1) ^ 2 := by
  have h1 : (n + 3) ^ 2 ≤ (3 * (n + 1)) ^ 2 := Nat.pow_le_pow_left (by omega) 2
  rw [Nat.mul_pow] at h1
  exact h1

theorem sq_ge (n : Nat) : n + 1 ≤ (n + 1) ^ 2 := by
  rw [Nat.pow_two]
  exact Nat.le_mul_of_pos_left _ (Nat.succ_pos n)

theorem size_walk {env : Env} {o : Options} {fuel k : Nat} {c : Bytes} {n types}
    (hsub : ∀ t p r, validateBox env o k t p = .ok r → r.node.size + 20 ≤ 2 ^ 26 * (p.length + 1) ^ 2)
    (h : walkBoxes (validateBox env o k) c fuel = .ok (n, types)) : n.size ≤ 2 ^ 26 * c.length ^ 2 := by
  obtain ⟨bs, hbs⟩ := boxes_exists c
  obtain ⟨rs, h1, rfl, -⟩ := walkBoxes_ok hbs h
  have h2 := size_absorbed (len := fun x => x.payload.length + 1) (K := 2 ^ 26)
    (fun x _ r hr => Nat.le_trans (by omega) (hsub _ _ r hr)) h1 {}
  have h3 := boxesFrom_room hbs
  rw [size_empty, Nat.zero_add] at h2
  exact Nat.le_trans h2 (Nat.mul_le_mul_left _ (Nat.pow_le_pow_left (by omega) 2))

theorem size_jp2h (o : Options) (n : Node) (types) : (jp2HeaderFinish o n types).size ≤ n.size + 20 := by
  unfold jp2HeaderFinish
  simp only []
  cases o.format <;> simp only [] <;> add_tests

theorem square_step (n k : Nat) (hk : k ≤ 40) : 2 ^ 26 * n ^ 2 + k ≤ 2 ^ 26 * (n + 1) ^ 2 := by
  have := sq_add (2 ^ 26) n 1
  omega

theorem size_box {env : Env} (hx : XmlSizes env) {o : Options} (hcs : CsSizes env o) : ∀ (fuel : Nat) (t p : Bytes) (r : BoxResult),
    validateBox env o fuel t p = .ok r → r.node.size + 20 ≤ 2 ^ 26 * (p.length + 1) ^ 2
  | 0, _, _, _, h => nomatch h
  | fuel + 1, t, p, r, h => by
    have ih := size_box hx hcs fuel
    have hs := square_step p.length 40 (by omega)
    have leafCase : validateLeaf env o fuel none t p = .ok r → r.node.size + 20 ≤ 2 ^ 26 * (p.length + 1) ^ 2 := by
      intro h
      obtain ⟨ss, h1, h⟩ := Outcome.bind_eq_ok.1 h
      cases h
      have h2 := cost_box hx h1
      have h3 := size_run o.verbose ss {}
      rw [size_empty] at h3
      have h4 : 2 ^ 26 * (p.length + 1) ≤ 2 ^ 26 * (p.length + 1) ^ 2 := Nat.mul_le_mul_left _ (sq_ge _)
      simp only
      omega
    unfold validateBox at h
    split at h
    · obtain ⟨⟨n, types⟩, h1, h⟩ := Outcome.bind_eq_ok.1 h
      cases h
      have h2 := size_walk ih h1
      have h3 := size_jp2h o n types
      simp only
      omega
    · obtain ⟨⟨n, types⟩, h1, h⟩ := Outcome.bind_eq_ok.1 h
      cases h
      have h2 := size_walk ih h1
      have h3 : (resolutionFinish o.verbose n types).size ≤ n.size + 3 := by
        unfold resolutionFinish
        simp only []
        add_tests
      simp only
      omega
    · obtain ⟨⟨n, types⟩, h1, h⟩ := Outcome.bind_eq_ok.1 h
      cases h
      have h2 := size_walk ih h1
      have h3 : (uuidInfoFinish o.verbose n types).size ≤ n.size + 2 := by
        unfold uuidInfoFinish
        simp only []
        add_tests
      simp only
      omega
    · obtain ⟨n, h1, h⟩ := Outcome.bind_eq_ok.1 h
      cases h
      have h2 := hcs _ _ _ h1
      have h3 := Nat.mul_le_mul_left (2 ^ 22) (sq_three p.length)
      have h4 : 1 ≤ (p.length + 1) ^ 2 := Nat.pow_pos (Nat.succ_pos _)
      simp only
      omega
    · cases h
    · exact leafCase h

theorem size_sizConsistency {o k n ih sz n'} (h : sizConsistency o k n ih sz = .ok n') : n'.size ≤ n.size + 6 := by
  unfold sizConsistency at h
  obtain ⟨_, -, h⟩ := Outcome.bind_eq_ok.1 h
  obtain ⟨_, -, h⟩ := Outcome.bind_eq_ok.1 h
  obtain ⟨_, -, h⟩ := Outcome.bind_eq_ok.1 h
  obtain ⟨_, -, h⟩ := Outcome.bind_eq_ok.1 h
  obtain ⟨⟨signs, depths⟩, -, h⟩ := Outcome.bind_eq_ok.1 h
  simp only at h
  split at h
  · obtain ⟨_, -, h⟩ := Outcome.bind_eq_ok.1 h
    obtain ⟨_, -, h⟩ := Outcome.bind_eq_ok.1 h
    obtain ⟨_, -, h⟩ := Outcome.bind_eq_ok.1 h
    cases h
    add_tests
  · cases h
    add_tests

theorem size_jp2Finish {o k n types n'} (h : jp2Finish o k n types = .ok n') : n'.size ≤ n.size + 17 := by
  unfold jp2Finish at h
  simp only at h
  split at h
  · refine Nat.le_trans (size_sizConsistency h) (Nat.add_le_add_right (m := n.size + 11) ?_ 6)
    add_tests
  · cases h
    add_tests

/-- How many elements a file adds at most. -/
theorem size_root {env : Env} (hx : XmlSizes env) {o : Options} (hcs : CsSizes env o) {fuel b n}
    (h : validateRoot env o fuel b = .ok n) : n.size ≤ 2 ^ 26 * (b.length + 1) ^ 2 := by
  have jp2 : validateJP2 env o fuel b = .ok n → n.size ≤ 2 ^ 26 * (b.length + 1) ^ 2 := by
    intro h
    unfold validateJP2 at h
    obtain ⟨⟨m, types⟩, h1, h⟩ := Outcome.bind_eq_ok.1 h
    have h2 := size_walk (size_box hx hcs fuel) h1
    have h3 := size_jp2Finish h
    have h4 := square_step b.length 40 (by omega)
    omega
  have cs : codestream env o fuel b = .ok n → n.size ≤ 2 ^ 26 * (b.length + 1) ^ 2 := by
    intro h
    have h2 := hcs _ _ _ h
    have h3 := Nat.mul_le_mul_left (2 ^ 22) (sq_three b.length)
    omega
  unfold validateRoot at h
  split at h
  · exact jp2 h
  · exact jp2 h
  · exact cs h
  · exact cs h
  · cases h

end Jpy
