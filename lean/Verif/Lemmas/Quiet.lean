import Verif.Lemmas.Ends
import Verif.Lemmas.File
import Verif.Lemmas.Report
import Verif.Spec.Crash
import Verif.Props.Segments
import Verif.Props.Uuid
import Verif.Props.Boxes
import Verif.Props.Termination
/-! # Computations that raise no exception -/

set_option linter.unusedSimpArgs false

namespace Jpy
open Spec

/-- The computation does not raise. -/
def Quiet {α : Type} (x : Outcome α) : Prop := ∀ e, x ≠ .raised e

theorem Quiet.ok {α : Type} (a : α) : Quiet (.ok a) := fun _ h => nomatch h
theorem Quiet.timeout {α : Type} : Quiet (.timeout : Outcome α) := fun _ h => nomatch h
theorem Quiet.bind {α β : Type} {x : Outcome α} {f : α → Outcome β} (h : Quiet x)
    (hf : ∀ a, x = .ok a → Quiet (f a)) : Quiet (x >>= f) := by
  cases x with
  | ok a => exact hf a rfl
  | raised e => exact absurd rfl (h e)
  | timeout => exact Quiet.timeout

theorem needInt_quiet {v : Option PyVal} {i : Int} (h : v = some (.int i)) : Quiet (needInt v) := by
  subst h; exact Quiet.ok _

theorem needInts_quiet {α : Type} (l : List α) (f : α → Int) : Quiet (needInts (l.map fun x => .int (f x))) := by
  rw [needInts_map]; exact Quiet.ok _

theorem withCsiz_quiet (n : Int) (f) : Quiet (withCsiz (some n) f) := Quiet.ok _

theorem iplLen_quiet (c : Bytes) (i : Nat) : ∀ fuel k, Quiet (iplLen c i fuel k) := by
  intro fuel
  induction fuel with
  | zero => intro k; exact Quiet.timeout
  | succ fuel ih =>
    intro k
    unfold iplLen
    repeat (first | exact Quiet.ok _ | exact Quiet.timeout | exact ih _ | split)

theorem iplLoop_quiet (c : Bytes) (l : Int) : ∀ fuel i, Quiet (iplLoop c l fuel i) := by
  intro fuel
  induction fuel with
  | zero => intro i; exact Quiet.timeout
  | succ fuel ih =>
    intro i
    unfold iplLoop
    split
    · exact Quiet.bind (iplLen_quiet _ _ _ _) fun _ _ => Quiet.bind (ih _) fun _ _ => Quiet.ok _
    · exact Quiet.ok _

theorem quiet_of_ok {α : Type} {x : Outcome α} {a : α} (h : x = .ok a) : Quiet x := by
  subst h; exact Quiet.ok _

/-- The marker segments of a codestream header. -/
theorem seg_quiet (env : Env) (o : Options) (fuel : Nat) (n : Int) {m : Bytes} (c : Bytes)
    (hm : m ∈ tpMarkers ∨ m ∈ mainMarkers) :
    Quiet (validateLeaf env o fuel (if m ∈ csizMarkers then some n else none) m c) := by
  refine Quiet.bind ?_ fun _ _ => Quiet.ok _
  have key : ∀ m ∈ tpMarkers ++ mainMarkers, Quiet (leaf env o fuel (if m ∈ csizMarkers then some n else none)
      (boxTypeOf m) m c) := by
    intro m hm
    simp only [tpMarkers, mainMarkers, List.mem_append, List.mem_cons, List.not_mem_nil, or_false] at hm
    have hp : Quiet (plm fuel c) := Quiet.bind (Quiet.bind (iplLoop_quiet _ _ _ _) fun _ _ => Quiet.ok _)
      fun _ _ => Quiet.ok _
    have hq : Quiet (plt fuel c) := Quiet.bind (Quiet.bind (iplLoop_quiet _ _ _ _) fun _ _ => Quiet.ok _)
      fun _ _ => Quiet.ok _
    rcases hm with (rfl | rfl | rfl | rfl | rfl | rfl | rfl | rfl | rfl) |
      rfl | rfl | rfl | rfl | rfl | rfl | rfl | rfl | rfl | rfl | rfl | rfl | rfl | rfl <;>
      first | exact Quiet.ok _ | exact hp | exact hq
  exact key m (List.mem_append.2 hm)

theorem siz_quiet (env : Env) (o : Options) (fuel : Nat) (csiz : Option Int) {c : Bytes}
    (h : FieldIs c 2 2 RsizDefined) : Quiet (validateLeaf env o fuel csiz mSIZ c) := by
  obtain ⟨r, hr⟩ := siz_ok (env := env) (o := o) (fuel := fuel) (csiz := csiz) h
  exact quiet_of_ok hr

/-- Properties added before stay in front. -/
def Extends (n m : Node) : Prop := ∃ rest, m.chars = n.chars ++ rest

theorem Extends.refl (n : Node) : Extends n n := ⟨[], by simp⟩
theorem Extends.trans {a b c : Node} (h : Extends a b) (h' : Extends b c) : Extends a c := by
  obtain ⟨x, hx⟩ := h
  obtain ⟨y, hy⟩ := h'
  exact ⟨x ++ y, by rw [hy, hx, List.append_assoc]⟩
theorem extends_absorb (n : Node) (r) : Extends n (n.absorb r) := ⟨_, rfl⟩
theorem extends_absorbPacket (pm : Bool) (n : Node) (r) : Extends n (n.absorbPacket pm r) := by
  unfold Node.absorbPacket
  cases pm
  · exact ⟨[], by simp [Node.absorbQuiet]⟩
  · exact extends_absorb n r

theorem tpStep_quiet (env : Env) (o : Options) (fuel : Nat) (n : Int) (pm : Bool) (b : Bytes) (s : TPState) :
    Quiet (tpStep (fun mk c cs => validateLeaf env o fuel cs mk c) pm (some n) b s) ∧
    ∀ s', tpStep (fun mk c cs => validateLeaf env o fuel cs mk c) pm (some n) b s = .ok s' →
      Extends s.node s'.node := by
  rw [tpStep_eq]
  simp only
  split
  case isTrue hm =>
    refine ⟨Quiet.bind (seg_quiet env o fuel n _ (.inl hm)) fun _ _ => Quiet.ok _, fun s' h => ?_⟩
    obtain ⟨r, -, h⟩ := Outcome.bind_eq_ok.1 h
    cases h
    simp only
    split
    · exact extends_absorbPacket _ _ _
    · exact extends_absorb _ _
  case isFalse =>
    refine ⟨Quiet.ok _, fun s' h => ?_⟩
    cases h
    exact Extends.refl _

theorem tpLoop_quiet (env : Env) (o : Options) (f : Nat) (n : Int) (pm : Bool) (b : Bytes) :
    ∀ (fuel : Nat) (s : TPState), Quiet (tpLoop (fun mk c cs => validateLeaf env o f cs mk c) pm (some n) b fuel s) ∧
    ∀ s', tpLoop (fun mk c cs => validateLeaf env o f cs mk c) pm (some n) b fuel s = .ok s' →
      Extends s.node s'.node := by
  intro fuel
  induction fuel with
  | zero => intro s; exact ⟨Quiet.timeout, fun s' h => nomatch h⟩
  | succ fuel ih =>
    intro s
    unfold tpLoop
    split
    · refine ⟨Quiet.bind (tpStep_quiet env o f n pm b s).1 fun s' _ => (ih s').1, fun s' h => ?_⟩
      obtain ⟨s1, h1, h2⟩ := Outcome.bind_eq_ok.1 h
      exact ((tpStep_quiet env o f n pm b s).2 s1 h1).trans ((ih s1).2 s' h2)
    · exact ⟨Quiet.ok _, fun s' h => by cases h; exact Extends.refl _⟩

theorem mainStep_quiet (env : Env) (o : Options) (fuel : Nat) (n : Int) (pm : Bool) (b : Bytes) (s : MainState) :
    Quiet (mainStep (segV env o fuel) pm (some n) b s) ∧
    ∀ s', mainStep (segV env o fuel) pm (some n) b s = .ok s' → Extends s.node s'.node := by
  rw [mainStep_eq]
  simp only
  split
  case isTrue hm =>
    refine ⟨Quiet.bind (seg_quiet env o fuel n _ (.inr hm)) fun _ _ => Quiet.ok _, fun s' h => ?_⟩
    obtain ⟨r, -, h⟩ := Outcome.bind_eq_ok.1 h
    cases h
    simp only
    split
    · exact extends_absorbPacket _ _ _
    · exact extends_absorb _ _
  case isFalse =>
    split
    · exact ⟨Quiet.ok _, fun s' h => by cases h; exact Extends.refl _⟩
    · exact ⟨Quiet.ok _, fun s' h => by cases h; exact Extends.refl _⟩

theorem mainLoop_quiet (env : Env) (o : Options) (f : Nat) (n : Int) (pm : Bool) (b : Bytes) :
    ∀ (fuel : Nat) (s : MainState), Quiet (mainLoop (segV env o f) pm (some n) b fuel s) ∧
    ∀ s', mainLoop (segV env o f) pm (some n) b fuel s = .ok s' → Extends s.node s'.node := by
  intro fuel
  induction fuel with
  | zero => intro s; exact ⟨Quiet.timeout, fun s' h => nomatch h⟩
  | succ fuel ih =>
    intro s
    unfold mainLoop
    split
    · refine ⟨Quiet.bind (mainStep_quiet env o f n pm b s).1 fun s' _ => (ih s').1, fun s' h => ?_⟩
      obtain ⟨s1, h1, h2⟩ := Outcome.bind_eq_ok.1 h
      exact ((mainStep_quiet env o f n pm b s).2 s1 h1).trans ((ih s1).2 s' h2)
    · exact ⟨Quiet.ok _, fun s' h => by cases h; exact Extends.refl _⟩

/-- Look up a property of the first element. -/
theorem extends_text {r : BoxResult} {n m : Node} (hn : n.chars = [r.charsElem]) (h : Extends n m)
    {t u : String} {v : PyVal} {l : List PyVal} (ht : r.tag = t) (hr : reported r.node u = v :: l) :
    Elem.findElementText m.chars [t, u] = some v := by
  obtain ⟨rest, hrest⟩ := h
  rw [hrest, hn]
  exact first_text ht hr

theorem tpFinish_extends (v : Bool) (s : TPState) : Extends s.node (tpFinish v s) := by
  unfold tpFinish
  simp only [testFor_chars, testIf_chars, Extends, Node.addChar]
  exact ⟨_, by rw [List.append_assoc]⟩

/-- A tile-part, at any offset. -/
theorem tilePart_quiet (env : Env) (o : Options) (fuel : Nat) (n start : Int) (b : Bytes) :
    Quiet (tilePart env o fuel (some n) start b) ∧
    ∀ r, tilePart env o fuel (some n) start b = .ok r → ∃ i t : Int,
      Elem.findElementText r.node.chars ["sot", "isot"] = some (.int i) ∧
      Elem.findElementText r.node.chars ["sot", "tnsot"] = some (.int t) := by
  unfold tilePart
  refine ⟨Quiet.bind (tpLoop_quiet env o fuel n o.packetmarkers b _ _).1 fun _ _ => Quiet.ok _, fun r h => ?_⟩
  obtain ⟨s, hs, h⟩ := Outcome.bind_eq_ok.1 h
  have hx := (tpLoop_quiet env o fuel n o.packetmarkers b _ _).2 s hs
  cases h
  simp only [testIf_chars]
  have hx := hx.trans (tpFinish_extends o.verbose s)
  obtain ⟨i, hi⟩ : ∃ i : Int, reported (Node.run o.verbose {} (sot (getMarkerSegment b start).contents)) "isot" =
      [.int i] := by rw [reported_run]; exact ⟨_, rfl⟩
  obtain ⟨t, ht⟩ : ∃ t : Int, reported (Node.run o.verbose {} (sot (getMarkerSegment b start).contents)) "tnsot" =
      [.int t] := by rw [reported_run]; exact ⟨_, rfl⟩
  exact ⟨i, t, extends_text (r := ⟨"sot", _, none⟩) rfl hx rfl hi,
    extends_text (r := ⟨"sot", _, none⟩) rfl hx rfl ht⟩

theorem tileLoop_quiet {tp : Int → Outcome BoxResult} {b : Bytes} (htp : ∀ off, Quiet (tp off) ∧
    ∀ r, tp off = .ok r → ∃ i t : Int, Elem.findElementText r.node.chars ["sot", "isot"] = some (.int i) ∧
      Elem.findElementText r.node.chars ["sot", "tnsot"] = some (.int t)) :
    ∀ fuel s, Quiet (tileLoop tp b fuel s) := by
  intro fuel
  induction fuel with
  | zero => intro s; exact Quiet.timeout
  | succ fuel ih =>
    intro s
    unfold tileLoop
    simp only
    split
    case isFalse => exact Quiet.ok _
    split
    case isFalse => exact Quiet.ok _
    refine Quiet.bind (htp _).1 fun r hr => ?_
    obtain ⟨i, t, h1, h2⟩ := (htp _).2 r hr
    rw [h1, h2]
    simp only [needInt, Outcome.bind_ok]
    split
    · split
      · exact ih _
      · exact Quiet.ok _
    · exact Quiet.ok _

theorem codestreamFinish_quiet {env o f csiz c} {r : BoxResult} (h : validateLeaf env o f csiz mSIZ c = .ok r)
    (o' b nt n t) : Quiet (codestreamFinish o' b r.node.chars nt n t) := by
  obtain ⟨-, -, h1, h2, h3, h4, -, -, h7⟩ := siz_text h
  unfold codestreamFinish
  simp only
  split
  · rw [reported_text h1, reported_text h2, reported_text h3, reported_all h7, needInts_map]
    simp only [needInt, Outcome.bind_ok]
    exact Quiet.ok _
  · exact Quiet.ok _

/-- The properties of a codestream start with its SIZ segment, if there is one. -/
theorem codestream_quiet {env : Env} {o : Options} {b : Bytes} (h : ¬ CrashCodestream b) (fuel : Nat) :
    Quiet (codestream env o fuel b) := by
  obtain ⟨n0, h0, hn0⟩ := getMarkerSegment_spec b 0
  by_cases hm : (getMarkerSegment b (getMarkerSegment b 0).next).marker = mSIZ
  case neg =>
    unfold codestream
    simp only
    rw [if_neg hm]
    exact Quiet.ok _
  cases n0 with
  | none =>
    have hlt : b.length < 4 := by
      generalize (getMarkerSegment b ((0 : Nat) : Int)).marker = m, (getMarkerSegment b ((0 : Nat) : Int)).contents = c at h0
      cases h0 with
      | noLength hd hl => exact Nat.lt_of_lt_of_le (uint_none hl) (by omega)
    exfalso
    rw [show (getMarkerSegment b 0).next = -9999 from hn0] at hm
    have : slice b (-9999) (-9999 + 2) = [] := by
      unfold slice sliceIdx
      rw [if_pos (by omega), if_pos (by omega), show (-9999 + (b.length : Int)).toNat = 0 by omega,
        show (-9999 + 2 + (b.length : Int)).toNat = 0 by omega]
      simp
    unfold getMarkerSegment at hm
    simp only [this] at hm
    exact absurd hm (by decide)
  | some k =>
    rw [show (getMarkerSegment b 0).next = k from hn0] at hm
    obtain ⟨n1, h1, hn1⟩ := getMarkerSegment_spec b k
    rw [hm] at h1
    rw [codestream_eq h0 rfl h1]
    have hdef : FieldIs (getMarkerSegment b k).contents 2 2 RsizDefined := by
      apply Classical.byContradiction
      intro hd
      exact h ⟨_, _, _, k, n1, h0, h1, hd⟩
    refine Quiet.bind (siz_quiet _ _ _ _ hdef) fun r hr => ?_
    obtain ⟨htag, hrsiz, -, -, -, -, hcsiz, -, -⟩ := siz_text hr
    have htiles := siz_tiles hr
    rw [reported_text hcsiz]
    simp only [needInt, Outcome.bind_ok]
    refine Quiet.bind (mainLoop_quiet _ _ _ _ _ _ _ _).1 fun s hs => ?_
    have hx := (mainLoop_quiet _ _ _ _ _ _ _ _).2 s hs
    have hc0 : (mainStart o b r (intOf n1)).node.chars = [r.charsElem] := headNode_chars _ _ _
    refine Quiet.bind (needInt_quiet (extends_text hc0 (hx.trans
      ⟨[.leaf "ppmCount" (.int s.ppmCount), .leaf "plmCount" (.int s.plmCount)], ?_⟩) htag hrsiz)) fun rsiz _ => ?_
    · simp only [testFor_chars, Node.addChar, List.append_assoc]; rfl
    refine Quiet.bind (needInt_quiet (extends_text hc0 (hx.trans
      ⟨[.leaf "ppmCount" (.int s.ppmCount), .leaf "plmCount" (.int s.plmCount)], ?_⟩) htag htiles)) fun tiles _ => ?_
    · simp only [mainNode, testIf_chars, testFor_chars, Node.addChar, List.append_assoc]; rfl
    exact Quiet.bind (tileLoop_quiet (fun off => tilePart_quiet _ _ _ _ _ _) _ _) fun t _ =>
      codestreamFinish_quiet hr _ _ _ _ _

/-! ## Boxes -/

theorem resolution_quiet {x : String} {c : Bytes} (h : ¬ (FieldIs c 2 2 (· = 0) ∨ FieldIs c 6 2 (· = 0))) :
    Quiet (resolutionLeaf x c) := by
  have e : ∀ k, FieldIs c k 2 (· = 0) ↔ intOf (uint c k 2) = 0 := by
    intro k
    rcases hu : uint c k 2 with _ | v
    · simp [FieldIs, hu, intOf]
    · simp [FieldIs, hu, intOf]
  rw [e, e] at h
  unfold resolutionLeaf
  simp only
  rw [u16_at c 2 (x := 2) (y := 4) rfl rfl, u16_at c 6 (x := 6) (y := 8) rfl rfl,
    if_neg (fun hz => h (.inl hz)), if_neg (fun hz => h (.inr hz))]
  exact Quiet.ok _

/-- Boxes that are not superboxes or codestreams. -/
theorem leafBox_quiet {env : Env} {o : Options} {fuel : Nat} {t p : Bytes} (h : ¬ CrashBox t p) :
    Quiet (validateLeaf env o fuel none t p) := by
  refine Quiet.bind ?_ fun _ _ => Quiet.ok _
  have mk : ∀ m bt, typeMap.lookup m = some bt → bt ≠ .unknownBox → m ∈ [SIZ, COC, QCC, RGN, POC, CRG, SOT] →
      boxTypeOf t = bt → False := by
    intro m bt h1 h2 h3 h4
    rw [(boxTypeOf_iff h1 h2 t).1 h4] at h
    exact h (.marker h3)
  cases ht : boxTypeOf t
  case uuidBox =>
    have := (boxTypeOf_iff (k := tagUuid) rfl (by decide) t).1 ht
    have hl : 16 ≤ p.length := by
      apply Nat.le_of_not_lt
      intro hl; exact h (.uuid this hl)
    simp only [leaf, uuidBox]
    rw [slice_at p 0 16 (x := 0) (y := 16) rfl rfl, sub_zero, uuidStr_ok (by simp; omega)]
    exact Quiet.ok _
  case captureResolutionBox =>
    have := (boxTypeOf_iff (k := tagCaptureResolution) rfl (by decide) t).1 ht
    exact resolution_quiet fun hz => h (.resolution (.inl this) hz)
  case displayResolutionBox =>
    have := (boxTypeOf_iff (k := tagDisplayResolution) rfl (by decide) t).1 ht
    exact resolution_quiet fun hz => h (.resolution (.inr this) hz)
  case uuidListBox =>
    have := (boxTypeOf_iff (k := tagUuidList) rfl (by decide) t).1 ht
    simp only [leaf, uuidListBox]
    rw [u16_at p 0 (x := 0) (y := 2) rfl rfl]
    rcases h0 : uint p 0 2 with _ | n
    · simp only [intOf, rangeLen]
      exact Quiet.ok _
    · simp only [intOf, rangeLen, Int.toNat_natCast]
      have hl : 2 + 16 * n ≤ p.length := by
        apply Nat.le_of_not_lt
        intro hl; exact h (.uuidList this ⟨n, h0, hl⟩)
      have := uuidListLoop_ok p n 2 hl
      rw [show ((2 : Nat) : Int) = 2 from rfl] at this
      rw [this]
      exact Quiet.ok _
  case siz => exact (mk mSIZ .siz (by decide) (by decide) (by decide) ht).elim
  case coc => exact (mk mCOC .coc (by decide) (by decide) (by decide) ht).elim
  case rgn => exact (mk mRGN .rgn (by decide) (by decide) (by decide) ht).elim
  case qcc => exact (mk mQCC .qcc (by decide) (by decide) (by decide) ht).elim
  case poc => exact (mk mPOC .poc (by decide) (by decide) (by decide) ht).elim
  case crg => exact (mk mCRG .crg (by decide) (by decide) (by decide) ht).elim
  case plm => exact Quiet.bind (Quiet.bind (iplLoop_quiet _ _ _ _) fun _ _ => Quiet.ok _) fun _ _ => Quiet.ok _
  case plt => exact Quiet.bind (Quiet.bind (iplLoop_quiet _ _ _ _) fun _ _ => Quiet.ok _) fun _ _ => Quiet.ok _
  all_goals exact Quiet.ok _

/-- A box of a file without crashing boxes. -/
def CrashFree (b : Bytes) : Prop :=
  ∀ d t p, HasBox b d t p → ¬ CrashBox t p ∧ (t = ascii "jp2c" → ¬ CrashCodestream p)

theorem inTurn_quiet {α β : Type} {f : α → Outcome β} : ∀ {xs : List α}, (∀ x ∈ xs, Quiet (f x)) →
    Quiet (inTurn f xs)
  | [], _ => Quiet.ok _
  | x :: xs, h => Quiet.bind (h x (by simp)) fun _ _ =>
      Quiet.bind (inTurn_quiet fun y hy => h y (by simp [hy])) fun _ _ => Quiet.ok _

theorem boxLoop_quiet {sub : Bytes → Bytes → Outcome BoxResult} {b : Bytes} {off : Nat} {bs}
    (h : BoxesFrom b off bs) (hq : ∀ x ∈ bs, Quiet (sub x.type x.payload)) :
    ∀ (fuel : Nat) (l : Int) (node : Node) (types : List Bytes), l ≠ 0 → l ≠ -9999 →
      Quiet (boxLoop sub b fuel off l node types) := by
  intro fuel l node types hl hl'
  have hle := boxLoop_le (sub1 := sub) (sub2 := sub) (fun _ _ => .refl _) b (off : Int) l node types
    (show fuel ≤ fuel + bs.length + 1 by omega)
  intro e he
  have := hle.raised he
  rw [boxLoop_eq h (by omega) hl hl'] at this
  exact (Quiet.bind (inTurn_quiet hq) fun _ _ => Quiet.ok _) e this

theorem walkBoxes_quiet {sub : Bytes → Bytes → Outcome BoxResult} {b : Bytes} (fuel : Nat)
    (hq : ∀ bs, Boxes b bs → ∀ x ∈ bs, Quiet (sub x.type x.payload)) : Quiet (walkBoxes sub b fuel) := by
  obtain ⟨bs, hb⟩ := boxes_exists b
  exact boxLoop_quiet hb (hq bs hb) fuel 10 {} [] (by decide) (by decide)

theorem validateBox_quiet {env : Env} {o : Options} {b : Bytes} (h : CrashFree b) :
    ∀ (fuel d : Nat) (t p : Bytes), HasBox b d t p → Quiet (validateBox env o fuel t p)
  | 0, _, _, _, _ => Quiet.timeout
  | fuel + 1, d, t, p, hb => by
    have hw : t ∈ superboxTypes → Quiet (walkBoxes (validateBox env o fuel) p fuel) := fun ht =>
      walkBoxes_quiet fuel fun bs hbs x hx => validateBox_quiet h fuel (d + 1) _ _ (.inside hb ht hbs hx)
    unfold validateBox
    cases ht : boxTypeOf t
    case jp2HeaderBox => exact Quiet.bind (hw (superbox_type (.inl ht))) fun _ _ => Quiet.ok _
    case resolutionBox => exact Quiet.bind (hw (superbox_type (.inr (.inl ht)))) fun _ _ => Quiet.ok _
    case uuidInfoBox => exact Quiet.bind (hw (superbox_type (.inr (.inr ht)))) fun _ _ => Quiet.ok _
    case contiguousCodestreamBox =>
      have := (boxTypeOf_iff (k := tagCodestream) rfl (by decide) t).1 ht
      subst this
      exact Quiet.bind (codestream_quiet ((h d _ p hb).2 rfl) _) fun _ _ => Quiet.ok _
    case tilePart =>
      have := (boxTypeOf_iff (k := mSOT) rfl (by decide) t).1 ht
      subst this
      exact ((h d _ p hb).1 (.marker (by decide))).elim
    all_goals exact leafBox_quiet (h d t p hb).1

/-! ## The last tests on a file -/

/-- The element found at a path of two tags is found in one of the results. -/
theorem find_two {rs : List BoxResult} {t u : String} {e : Elem}
    (h : Elem.find (rs.map (·.charsElem)) [t, u] = some e) :
    ∃ r ∈ rs, r.tag = t ∧ Elem.find r.node.chars [u] = some e := by
  unfold Elem.find at h
  rw [findall_results] at h
  induction rs with
  | nil => cases h
  | cons r rs ih =>
    rw [List.filter_cons] at h
    split at h
    · rename_i ht
      rw [List.flatMap_cons, List.head?_append] at h
      rcases hh : (Elem.findall r.node.chars [u]).head? with _ | e'
      · rw [hh] at h
        obtain ⟨r', h1, h2⟩ := ih h
        exact ⟨r', List.mem_cons_of_mem _ h1, h2⟩
      · rw [hh] at h
        cases h
        exact ⟨r, by simp, by simpa using ht, hh⟩
    · obtain ⟨r', h1, h2⟩ := ih h
      exact ⟨r', List.mem_cons_of_mem _ h1, h2⟩

theorem find_one {rs : List BoxResult} {u : String} {e : Elem}
    (h : Elem.find (rs.map (·.charsElem)) [u] = some e) : ∃ r ∈ rs, r.tag = u ∧ e = r.charsElem := by
  unfold Elem.find at h
  rw [findall_results1] at h
  have := List.mem_of_mem_head? h
  obtain ⟨r, hr, rfl⟩ := List.mem_map.1 this
  obtain ⟨h1, h2⟩ := List.mem_filter.1 hr
  exact ⟨r, h1, by simpa using h2, rfl⟩

/-- The box of a result with a given tag. -/
theorem box_of_tag {env o fuel} {bs : List FoundBox} {rs} {r : BoxResult}
    (h : inTurn (fun x : FoundBox => validateBox env o fuel x.type x.payload) bs = .ok rs) (hr : r ∈ rs)
    {k : Bytes} {bt : BoxType} (hk : typeMap.lookup k = some bt) (hbt : bt ≠ .unknownBox)
    (ht : r.tag = bt.name) : ∃ x ∈ bs, x.type = k ∧ validateBox env o fuel k x.payload = .ok r := by
  obtain ⟨x, hx, hv⟩ := inTurn_mem' h hr
  have := validateBox_tag_iff hv hk hbt
  rw [ht] at this
  have hxk : x.type = k := by simpa using this.symm
  exact ⟨x, hx, hxk, hxk ▸ hv⟩

/-- What a box in the JP2 header is looked up as. -/
theorem header_find {env o fuel} {bs : List FoundBox} {rs} {e : Elem}
    (h : inTurn (fun x : FoundBox => validateBox env o fuel x.type x.payload) bs = .ok rs)
    {k : Bytes} {bt : BoxType} (hk : typeMap.lookup k = some bt) (hbt : bt ≠ .unknownBox)
    (hf : Elem.find (rs.map (·.charsElem)) ["jp2HeaderBox", bt.name] = some e) :
    ∃ f p r, validateBox env o f k p = .ok r ∧ e = r.charsElem := by
  obtain ⟨r, hr, ht, hf⟩ := find_two hf
  obtain ⟨x, -, -, hv⟩ := box_of_tag h hr (k := ascii "jp2h") (bt := .jp2HeaderBox) (by decide) (by decide) ht
  obtain ⟨hs, hhs⟩ := boxes_exists x.payload
  obtain ⟨f, rs', h', hc⟩ := jp2h_result hv hhs
  rw [hc] at hf
  obtain ⟨r', hr', ht', rfl⟩ := find_one hf
  obtain ⟨x', -, -, hv'⟩ := box_of_tag h' hr' hk hbt ht'
  exact ⟨f, _, r', hv', rfl⟩

/-- The first SIZ element of a codestream is that of a SIZ segment. -/
theorem codestream_siz {env o fuel b n} {e : Elem} (h : codestream env o fuel b = .ok n)
    (hf : Elem.find n.chars ["siz"] = some e) :
    ∃ c r, validateLeaf env o fuel none mSIZ c = .ok r ∧ e = r.charsElem := by
  unfold codestream at h
  simp only at h
  split at h
  case isFalse =>
    cases h
    simp only [testFor_chars] at hf
    cases hf
  case isTrue hm =>
    obtain ⟨r, hr, h⟩ := Outcome.bind_eq_ok.1 h
    obtain ⟨csiz, -, h⟩ := Outcome.bind_eq_ok.1 h
    obtain ⟨s, hs, h⟩ := Outcome.bind_eq_ok.1 h
    obtain ⟨rsiz, -, h⟩ := Outcome.bind_eq_ok.1 h
    obtain ⟨tiles, -, h⟩ := Outcome.bind_eq_ok.1 h
    obtain ⟨t, -, h⟩ := Outcome.bind_eq_ok.1 h
    rw [hm] at hr
    refine ⟨_, r, hr, ?_⟩
    obtain ⟨rest, hx⟩ := (mainLoop_quiet _ _ _ _ _ _ _ _).2 s hs
    simp only [absorb_chars, testFor_chars, List.nil_append] at hx
    have hn : ∃ rest', n.chars = r.charsElem :: rest' := by
      unfold codestreamFinish at h
      simp only at h
      split at h
      · obtain ⟨_, -, h⟩ := Outcome.bind_eq_ok.1 h
        obtain ⟨_, -, h⟩ := Outcome.bind_eq_ok.1 h
        obtain ⟨_, -, h⟩ := Outcome.bind_eq_ok.1 h
        obtain ⟨_, -, h⟩ := Outcome.bind_eq_ok.1 h
        obtain ⟨_, -, h⟩ := Outcome.bind_eq_ok.1 h
        cases h
        simp only [Node.addChar, testIf_chars, testFor_chars, absorb_chars, hx]
        exact ⟨_, rfl⟩
      · cases h
        simp only [Node.addChar, testIf_chars, testFor_chars, absorb_chars, hx]
        exact ⟨_, rfl⟩
    obtain ⟨rest', hn⟩ := hn
    rw [hn] at hf
    have ht : r.tag = "siz" := (siz_text hr).1
    unfold Elem.find Elem.findall at hf
    rw [List.filter_cons, if_pos (by show (r.tag == "siz") = true; rw [ht]; decide)] at hf
    cases hf
    rfl

theorem bpcValues_ints {env o fuel} {bs : List FoundBox} {rs} {cs : List Elem}
    (h : inTurn (fun x : FoundBox => validateBox env o fuel x.type x.payload) bs = .ok rs)
    (hc : cs = rs.map (·.charsElem)) (n a d : Int) :
    ∃ s l, bpcValues cs (some (.int n)) (some (.int a)) (some (.int d)) = .ok (s, l) ∧ ∃ is, needInts l = .ok is := by
  unfold bpcValues
  split
  · cases hf : Elem.find cs ["jp2HeaderBox", "bitsPerComponentBox"] with
    | none => exact ⟨_, _, rfl, _, rfl⟩
    | some e =>
      rw [hc] at hf
      obtain ⟨f, p, r, hv, rfl⟩ := header_find h (k := tagBitsPerComponent) (bt := .bitsPerComponentBox)
        (by decide) (by decide) hf
      refine ⟨_, _, rfl, ?_⟩
      show ∃ is, needInts (Elem.findAllText r.node.chars ["bPCDepth"]) = .ok is
      rw [bpcc_result hv, (bpcc_fields p).2, needInts_map]
      exact ⟨_, rfl⟩
  · simp only [needInt, Outcome.bind_ok, Option.getD_some]
    refine ⟨_, _, rfl, ?_⟩
    have : List.replicate (rangeLen n) (PyVal.int d) = (List.replicate (rangeLen n) d).map fun x => .int x := by simp
    rw [this, needInts_map]
    exact ⟨_, rfl⟩

theorem jp2Last_quiet {env o fuel} {bs : List FoundBox} {rs} {nb : Int} {mid : Node}
    (h : inTurn (fun x : FoundBox => validateBox env o fuel x.type x.payload) bs = .ok rs)
    (hc : mid.chars = rs.map (·.charsElem)) : Quiet (jp2Last o nb mid) := by
  unfold jp2Last
  split
  case h_2 => exact Quiet.ok _
  rename_i ih sz hi hz
  rw [hc] at hi hz
  obtain ⟨f, p, r, hv, rfl⟩ := header_find h (k := tagImageHeader) (bt := .imageHeaderBox)
    (by decide) (by decide) hi
  obtain ⟨rc, hrc, htc, hz⟩ := find_two hz
  obtain ⟨x, -, -, hvc⟩ := box_of_tag h hrc (k := ascii "jp2c") (bt := .contiguousCodestreamBox)
    (by decide) (by decide) htc
  obtain ⟨k, hcode⟩ := jp2c_result hvc
  obtain ⟨c, rz, hrz, rfl⟩ := codestream_siz hcode hz
  obtain ⟨-, -, z1, z2, z3, z4, z5, z6, z7⟩ := siz_text hrz
  obtain ⟨-, -, f3, f4, f5, f6, f7⟩ := ihdr_fields p
  have hih : ∀ s v, repOf s (imageHeaderBox p) = [v] → Elem.findElementText r.node.chars [s] = some v := by
    intro s v hsv
    rw [findElementText_eq, ihdr_result hv, hsv]; rfl
  show Quiet (sizConsistency o nb mid r.node.chars rz.node.chars)
  unfold sizConsistency
  rw [hih _ _ f3, hih _ _ f4, hih _ _ f5, hih _ _ f6, hih _ _ f7, reported_text z1, reported_text z2,
    reported_text z3, reported_text z4]
  simp only [needInt, Outcome.bind_ok, testFor_chars]
  obtain ⟨s, l, e1, is, e2⟩ := bpcValues_ints h hc (intOf (uint p 8 2)) (getBitValue (intOf (uint p 10 1)) 1)
    (low (intOf (uint p 10 1)) 7 + 1)
  rw [e1]
  simp only [Outcome.bind_ok]
  split
  · rw [e2]
    exact Quiet.ok _
  · exact Quiet.ok _

theorem validateJP2_quiet {env : Env} {o : Options} {b : Bytes} (h : CrashFree b) (fuel : Nat) :
    Quiet (validateJP2 env o fuel b) := by
  refine Quiet.bind (walkBoxes_quiet fuel fun bs hb x hx => validateBox_quiet h fuel 1 _ _ (.top hb hx))
    fun x hx => ?_
  obtain ⟨n, types⟩ := x
  obtain ⟨bs, hb⟩ := boxes_exists b
  obtain ⟨rs, h1, rfl, rfl⟩ := walkBoxes_ok hb hx
  show Quiet (jp2Finish o b.length _ _)
  rw [jp2Finish_eq]
  refine jp2Last_quiet h1 ?_
  rw [jp2Mid_chars, chars_foldl_absorb]
  rfl

/-! ## What a successful analysis excludes -/

theorem codestream_ok_safe {env o fuel b n} (h : codestream env o fuel b = .ok n) : ¬ CrashCodestream b := by
  rintro ⟨m, c, siz, k, n', h0, h1, hd⟩
  rw [codestream_eq h0 rfl h1, C26_siz_crash env o fuel none siz hd] at h
  cases h

theorem leafBox_ok_safe {env o fuel t p r} (h : validateBox env o fuel t p = .ok r)
    (hs : t.length < 4 → p = []) : ¬ CrashBox t p := by
  cases fuel with
  | zero => cases h
  | succ fuel =>
    intro hc
    cases hc with
    | resolution ht hz =>
      have := (C34_res_crash env o fuel p t ht).2 hz
      rw [this] at h; cases h
    | uuid ht hl =>
      subst ht
      have := (C37_uuid_crash env o fuel p).2 hl
      rw [show ascii "uuid" = tagUuid from rfl, this] at h; cases h
    | uuidList ht hz =>
      subst ht
      obtain ⟨ss, h1, -⟩ := (validateBox_ok (t := .uuidListBox) (by decide) rfl).1 h
      obtain ⟨n, h0, hl⟩ := hz
      simp only [leaf, uuidListBox] at h1
      rw [u16_at p 0 (x := 0) (y := 2) rfl rfl, h0] at h1
      simp only [intOf, rangeLen, Int.toNat_natCast] at h1
      have := uuidListLoop_raised p n 2 hl (by
        have := uint_some_le h0
        omega)
      rw [show ((2 : Nat) : Int) = 2 from rfl] at this
      rw [this] at h1
      cases h1
    | marker ht =>
      have hshort : t.length < 4 := by
        have : ∀ x ∈ [SIZ, COC, QCC, RGN, POC, CRG, SOT], x.length < 4 := by decide
        exact this t ht
      have hp := hs hshort
      subst hp
      simp only [List.mem_cons, List.not_mem_nil, or_false] at ht
      rcases ht with rfl | rfl | rfl | rfl | rfl | rfl | rfl
      · rw [validateBox_leaf env o fuel SIZ [] (t := .siz) (by decide) rfl] at h
        rw [show SIZ = mSIZ from rfl, C26_siz_crash env o fuel none [] (by rintro ⟨v, hv, -⟩; cases hv)] at h
        cases h
      all_goals
        unfold validateBox at h
        simp only [show boxTypeOf COC = .coc by decide, show boxTypeOf QCC = .qcc by decide,
          show boxTypeOf RGN = .rgn by decide, show boxTypeOf POC = .poc by decide,
          show boxTypeOf CRG = .crg by decide, show boxTypeOf SOT = .tilePart by decide] at h
      · obtain ⟨ss, h1, -⟩ := (validateLeaf_ok (t := .coc) (by decide)).1 h; cases h1
      · obtain ⟨ss, h1, -⟩ := (validateLeaf_ok (t := .qcc) (by decide)).1 h; cases h1
      · obtain ⟨ss, h1, -⟩ := (validateLeaf_ok (t := .rgn) (by decide)).1 h; cases h1
      · obtain ⟨ss, h1, -⟩ := (validateLeaf_ok (t := .poc) (by decide)).1 h; cases h1
      · obtain ⟨ss, h1, -⟩ := (validateLeaf_ok (t := .crg) (by decide)).1 h; cases h1
      · cases h

/-- In a successful run every box was validated with success. -/
theorem hasBox_ok {env o fuel} {b : Bytes} {n} (h : validateJP2 env o fuel b = .ok n) {d t p}
    (hb : HasBox b d t p) : ∃ f r, validateBox env o f t p = .ok r := by
  induction hb with
  | top hbs hx =>
    obtain ⟨⟨n', types⟩, hw, -⟩ := Outcome.bind_eq_ok.1 h
    obtain ⟨rs, h1, -, -⟩ := walkBoxes_ok hbs hw
    obtain ⟨r, -, hr⟩ := inTurn_mem h1 hx
    exact ⟨fuel, r, hr⟩
  | @inside d t p bs y _ ht hbs hx ih =>
    obtain ⟨f, r, hr⟩ := ih
    cases f with
    | zero => cases hr
    | succ f =>
      have hw : ∃ x, walkBoxes (validateBox env o f) p f = .ok x := by
        unfold validateBox at hr
        simp only [superboxTypes, List.mem_cons, List.not_mem_nil, or_false] at ht
        rcases ht with rfl | rfl | rfl
        · simp only [show boxTypeOf (ascii "jp2h") = .jp2HeaderBox by decide] at hr
          obtain ⟨x, hx, -⟩ := Outcome.bind_eq_ok.1 hr; exact ⟨x, hx⟩
        · simp only [show boxTypeOf (ascii "res ") = .resolutionBox by decide] at hr
          obtain ⟨x, hx, -⟩ := Outcome.bind_eq_ok.1 hr; exact ⟨x, hx⟩
        · simp only [show boxTypeOf (ascii "uinf") = .uuidInfoBox by decide] at hr
          obtain ⟨x, hx, -⟩ := Outcome.bind_eq_ok.1 hr; exact ⟨x, hx⟩
      obtain ⟨⟨n', types⟩, hw⟩ := hw
      obtain ⟨rs, h1, -, -⟩ := walkBoxes_ok hbs hw
      obtain ⟨r', -, hr'⟩ := inTurn_mem h1 hx
      exact ⟨f, r', hr'⟩

theorem validateJP2_ok_safe {env o fuel} {b : Bytes} {n} (h : validateJP2 env o fuel b = .ok n) :
    CrashFree b := by
  intro d t p hb
  obtain ⟨f, r, hr⟩ := hasBox_ok h hb
  refine ⟨leafBox_ok_safe hr (hasBox_short_type hb), fun ht => ?_⟩
  subst ht
  obtain ⟨k, hk⟩ := jp2c_result hr
  exact codestream_ok_safe hk

/-- A run that ends raises an exception exactly on the contents of the specification. -/
theorem validateRoot_quiet {env o fuel} {b : Bytes} (h : ¬ Crashes o.format b) : Quiet (validateRoot env o fuel b) := by
  unfold validateRoot
  cases hf : o.format <;> rw [hf] at h <;> simp only
  · exact validateJP2_quiet (fun d t p hb => ⟨fun hc => h ⟨d, t, p, hb, .inl hc⟩, fun ht hc => h ⟨d, t, p, hb, .inr ⟨ht, hc⟩⟩⟩) _
  · exact validateJP2_quiet (fun d t p hb => ⟨fun hc => h ⟨d, t, p, hb, .inl hc⟩, fun ht hc => h ⟨d, t, p, hb, .inr ⟨ht, hc⟩⟩⟩) _
  · exact codestream_quiet h _
  · exact codestream_quiet h _
  · exact absurd trivial h

theorem validateRoot_ok_safe {env o fuel} {b : Bytes} {n} (h : validateRoot env o fuel b = .ok n) :
    ¬ Crashes o.format b := by
  have key : validateJP2 env o fuel b = .ok n →
      ¬ ∃ d t p, HasBox b d t p ∧ (CrashBox t p ∨ (t = ascii "jp2c" ∧ CrashCodestream p)) := by
    rintro hv ⟨d, t, p, hb, hc⟩
    have := validateJP2_ok_safe hv d t p hb
    rcases hc with hc | ⟨ht, hc⟩
    · exact this.1 hc
    · exact this.2 ht hc
  unfold validateRoot at h
  cases hf : o.format <;> rw [hf] at h <;> simp only at h
  · exact key h
  · exact key h
  · exact codestream_ok_safe h
  · exact codestream_ok_safe h
  · cases h

end Jpy
