import Verif.Lemmas.Recursion
import Verif.Lemmas.SizeWalk
/-! # How many levels of elements a report has -/

namespace Jpy
open Spec

theorem depthL_append : ∀ a b : List Elem, Elem.depthL (a ++ b) = max (Elem.depthL a) (Elem.depthL b)
  | [], b => by simp [Elem.depthL]
  | x :: a, b => by rw [List.cons_append, Elem.depthL, Elem.depthL, depthL_append a b, Nat.max_assoc]

theorem depthL_nil : Elem.depthL [] = 0 := rfl
theorem depthL_cons (e : Elem) (es) : Elem.depthL (e :: es) = max e.depth (Elem.depthL es) := rfl
theorem depthL_one (e : Elem) : Elem.depthL [e] = e.depth := by simp [Elem.depthL]
theorem depth_leaf (t v) : (Elem.leaf t v).depth = 1 := by simp [Elem.leaf, Elem.depth, Elem.depthL]
theorem depth_node (t c) : (Elem.node t c).depth = Elem.depthL c + 1 := by simp [Elem.node, Elem.depth]
theorem depth_children (e : Elem) : e.depth = Elem.depthL e.children + 1 := by cases e; rfl
theorem depth_mem {e : Elem} : ∀ {es : List Elem}, e ∈ es → e.depth ≤ Elem.depthL es
  | x :: es, h => by
    rw [depthL_cons]
    rcases List.mem_cons.1 h with rfl | h
    · omega
    · have := depth_mem h; omega

theorem depthL_le {k} : ∀ {es : List Elem}, (∀ e ∈ es, e.depth ≤ k) → Elem.depthL es ≤ k
  | [], _ => Nat.zero_le _
  | x :: es, h => by
    rw [depthL_cons]
    have h1 := h x (List.mem_cons_self ..)
    have h2 := depthL_le fun e he => h e (List.mem_cons_of_mem _ he)
    omega

mutual
theorem depth_readable (env : Env) (tbl : RemapTable) : ∀ e : Elem, (makeHumanReadable env tbl e).depth = e.depth
  | .mk _ _ _ c _ => by rw [makeHumanReadable, Elem.depth, Elem.depth, depthL_readable env tbl c]
theorem depthL_readable (env : Env) (tbl : RemapTable) : ∀ es : List Elem,
    Elem.depthL (makeHumanReadableL env tbl es) = Elem.depthL es
  | [] => by rw [makeHumanReadableL]
  | e :: es => by rw [makeHumanReadableL, Elem.depthL, Elem.depthL, depth_readable env tbl e, depthL_readable env tbl es]
end

/-- The trees of a result have at most `k` levels. -/
structure Low (k : Nat) (n : Node) : Prop where
  tests : Elem.depthL n.tests ≤ k
  chars : Elem.depthL n.chars ≤ k
  warnings : Elem.depthL n.warnings ≤ k

theorem Low.mono {k m n} (h : Low k n) (hk : k ≤ m) : Low m n :=
  ⟨Nat.le_trans h.tests hk, Nat.le_trans h.chars hk, Nat.le_trans h.warnings hk⟩

theorem low_empty (k) : Low k {} := ⟨Nat.zero_le _, Nat.zero_le _, Nat.zero_le _⟩

/-- The number of levels that a statement adds. -/
def stepDepth : Step → Nat
  | .elem e => e.depth
  | _ => 1

/-- Statements that add at most `k` levels. -/
def LowSteps (k : Nat) (ss : List Step) : Prop := ∀ s ∈ ss, stepDepth s ≤ k

theorem low_testFor {v k n name r} (h : Low (k + 1) n) : Low (k + 1) (Node.testFor v n name r) := by
  unfold Node.testFor
  have : Elem.depthL (n.tests ++ [Elem.leaf name (.bool r)]) ≤ k + 1 := by
    have := h.tests
    rw [depthL_append, depthL_one, depth_leaf]; omega
  split
  · split
    · exact ⟨this, h.chars, h.warnings⟩
    · exact h
  · exact ⟨this, h.chars, h.warnings⟩

theorem low_testIf {v k n c name r} (h : Low (k + 1) n) : Low (k + 1) (Node.testIf v n c name r) := by
  unfold Node.testIf
  split
  · exact low_testFor h
  · exact h

theorem low_addChar {k n name v} (h : Low (k + 1) n) : Low (k + 1) (Node.addChar n name v) := by
  refine ⟨h.tests, ?_, h.warnings⟩
  have := h.chars
  unfold Node.addChar
  simp only
  rw [depthL_append, depthL_one, depth_leaf]; omega

theorem low_step {v k n} {s : Step} (h : Low (k + 1) n) (hs : stepDepth s ≤ k + 1) : Low (k + 1) (Node.step v n s) := by
  cases s with
  | test name r => exact low_testFor h
  | char name x => exact low_addChar h
  | warn m =>
    refine ⟨h.tests, h.chars, ?_⟩
    have := h.warnings
    unfold Node.step Node.addWarning
    simp only
    rw [depthL_append, depthL_one, depth_leaf]; omega
  | elem e =>
    refine ⟨h.tests, ?_, h.warnings⟩
    have := h.chars
    unfold Node.step
    simp only
    rw [depthL_append, depthL_one]
    have : e.depth ≤ k + 1 := hs
    omega

theorem low_run {v k} : ∀ {ss : List Step} {n : Node}, Low (k + 1) n → LowSteps (k + 1) ss → Low (k + 1) (Node.run v n ss)
  | [], n, h, _ => h
  | s :: ss, n, h, hs => by
    show Low (k + 1) (Node.run v (Node.step v n s) ss)
    exact low_run (low_step h (hs s (List.mem_cons_self ..))) fun s' h' => hs s' (List.mem_cons_of_mem _ h')

theorem depth_appendIf {cs t c k} (h1 : Elem.depthL cs ≤ k + 1) (h2 : Elem.depthL c ≤ k) :
    Elem.depthL (Elem.appendIfNotEmpty cs (.node t c)) ≤ k + 1 := by
  unfold Elem.appendIfNotEmpty
  split
  · rw [depthL_append, depthL_one, depth_node]; omega
  · exact h1

theorem low_absorb {k} {n : Node} {r : BoxResult} (hn : Low (k + 1) n) (hr : Low k r.node) : Low (k + 1) (n.absorb r) := by
  refine ⟨depth_appendIf hn.tests hr.tests, ?_, depth_appendIf hn.warnings hr.warnings⟩
  have h1 := hn.chars
  have h2 := hr.chars
  unfold Node.absorb BoxResult.charsElem
  simp only
  rw [depthL_append, depthL_one, depth_node]; omega

theorem low_quiet {k} {n : Node} {r : BoxResult} (hn : Low (k + 1) n) (hr : Low k r.node) :
    Low (k + 1) (n.absorbQuiet r) :=
  ⟨depth_appendIf hn.tests hr.tests, hn.chars, depth_appendIf hn.warnings hr.warnings⟩

theorem low_packet {k pm} {n : Node} {r : BoxResult} (hn : Low (k + 1) n) (hr : Low k r.node) :
    Low (k + 1) (n.absorbPacket pm r) := by
  unfold Node.absorbPacket
  split
  · exact low_absorb hn hr
  · exact low_quiet hn hr

theorem low_foldl {k} : ∀ {rs : List BoxResult} {n : Node}, Low (k + 1) n → (∀ r ∈ rs, Low k r.node) →
    Low (k + 1) (rs.foldl Node.absorb n)
  | [], n, hn, _ => hn
  | r :: rs, n, hn, h => low_foldl (rs := rs) (n := n.absorb r) (low_absorb hn (h r (List.mem_cons_self ..))) fun r' h' => h r' (List.mem_cons_of_mem _ h')

/-! ## Statements -/

section
variable {k : Nat}
theorem lowSteps_append {a b : List Step} : LowSteps (k + 1) (a ++ b) ↔ LowSteps (k + 1) a ∧ LowSteps (k + 1) b := by
  unfold LowSteps
  simp only [List.mem_append]
  exact ⟨fun h => ⟨fun s hs => h s (.inl hs), fun s hs => h s (.inr hs)⟩, fun h s hs => hs.elim (h.1 s) (h.2 s)⟩
theorem lowSteps_nil : LowSteps (k + 1) [] ↔ True := ⟨fun _ => trivial, fun _ _ h => nomatch h⟩
theorem lowSteps_cons {s ss} : LowSteps (k + 1) (s :: ss) ↔ stepDepth s ≤ k + 1 ∧ LowSteps (k + 1) ss := by
  unfold LowSteps
  simp
theorem lowSteps_test {n r ss} : LowSteps (k + 1) (.test n r :: ss) ↔ LowSteps (k + 1) ss := by
  rw [lowSteps_cons]; simp [stepDepth]
theorem lowSteps_char {n r ss} : LowSteps (k + 1) (.char n r :: ss) ↔ LowSteps (k + 1) ss := by
  rw [lowSteps_cons]; simp [stepDepth]
theorem lowSteps_warn {n ss} : LowSteps (k + 1) (.warn n :: ss) ↔ LowSteps (k + 1) ss := by
  rw [lowSteps_cons]; simp [stepDepth]
theorem lowSteps_elem {e ss} : LowSteps (k + 1) (.elem e :: ss) ↔ e.depth ≤ k + 1 ∧ LowSteps (k + 1) ss := lowSteps_cons
theorem lowSteps_map {α} {l : List α} {f : α → Step} (h : ∀ x, stepDepth (f x) = 1) : LowSteps (k + 1) (l.map f) := by
  intro s hs
  obtain ⟨x, -, rfl⟩ := List.mem_map.1 hs
  rw [h]; omega
theorem lowSteps_map_char {α} {l : List α} {g : α → String} {f : α → PyVal} :
    LowSteps (k + 1) (l.map fun x => Step.char (g x) (f x)) ↔ True := ⟨fun _ => trivial, fun _ => lowSteps_map fun _ => rfl⟩
theorem lowSteps_map_test {α} {l : List α} {g : α → String} {f : α → Bool} :
    LowSteps (k + 1) (l.map fun x => Step.test (g x) (f x)) ↔ True := ⟨fun _ => trivial, fun _ => lowSteps_map fun _ => rfl⟩
theorem lowSteps_flatMap {α} {l : List α} {f : α → List Step} (h : ∀ x, LowSteps (k + 1) (f x)) :
    LowSteps (k + 1) (l.flatMap f) := by
  intro s hs
  obtain ⟨x, -, hx⟩ := List.mem_flatMap.1 hs
  exact h x s hx
theorem lowSteps_ite {p : Prop} [Decidable p] {a b : List Step} (ha : LowSteps (k + 1) a) (hb : LowSteps (k + 1) b) :
    LowSteps (k + 1) (if p then a else b) := by
  split
  · exact ha
  · exact hb
end

/-- Checks statements that add one level. -/
macro "low" : tactic => `(tactic|
  simp only [lowSteps_append, lowSteps_test, lowSteps_char, lowSteps_warn, lowSteps_elem, lowSteps_nil, lowSteps_map_char,
    lowSteps_map_test, and_true, true_and, and_self])

/-- The same with conditions. -/
macro "lows" : tactic => `(tactic|
  repeat' (first
    | exact lowSteps_nil.2 trivial
    | low
    | (refine lowSteps_append.2 ⟨?_, ?_⟩)
    | (refine lowSteps_ite ?_ ?_)
    | (refine lowSteps_flatMap fun _ => ?_)
    | split))

theorem low_icc (c) : LowSteps 1 (icc c) := by unfold icc; simp only []; lows
theorem depth_iccElem (c) : (iccElem c).depth ≤ 2 := by
  unfold iccElem
  rw [depth_node]
  have := (low_run (v := true) (k := 0) (low_empty 1) (low_icc c)).chars
  omega

theorem low_codeBlock (f c o) : LowSteps 1 (codeBlockSteps f c o) := by unfold codeBlockSteps; simp only []; lows
theorem low_precinct (c o p l) : LowSteps 1 (precinctSteps c o p l) := by unfold precinctSteps; simp only []; lows
theorem low_quant (c q l o) : LowSteps 1 (quantSteps c q l o) := by unfold quantSteps; simp only []; lows
theorem low_pocEntry (n c o) : LowSteps 1 (pocEntry n c o) := by unfold pocEntry; simp only []; lows
theorem low_sot (c) : LowSteps 1 (sot c) := by unfold sot; simp only []; lows

theorem low_uuidList {c} : ∀ {n off ss}, uuidListLoop c n off = .ok ss → LowSteps 1 ss
  | 0, off, ss, h => by cases h; exact fun _ h => nomatch h
  | n + 1, off, ss, h => by
    rw [uuidListLoop] at h
    obtain ⟨u, -, h⟩ := ok_of_bind h
    obtain ⟨r, hr, h⟩ := ok_of_bind h
    cases h
    rw [lowSteps_char (k := 0)]
    exact low_uuidList hr

theorem low_resolution {x c ss} (h : resolutionLeaf x c = .ok ss) : LowSteps 1 ss := by
  unfold resolutionLeaf at h
  simp only [] at h
  split at h
  · cases h
  · split at h
    · cases h
    · cases h
      lows

theorem low_withCsiz {cs f ss} (h : withCsiz cs f = .ok ss) (hf : ∀ n : Int, LowSteps 1 (f n)) : LowSteps 1 ss := by
  unfold withCsiz at h
  split at h
  · cases h
  · cases h; exact hf _

theorem lowSteps_of_cost {ss : List Step} (h : cost ss = 0) : LowSteps 1 ss := by
  cases ss with
  | nil => exact fun _ h => nomatch h
  | cons s ss =>
    rw [cost] at h
    exfalso
    have : 1 ≤ stepCost s := by
      cases s <;> first | (simp [stepCost]; done) | skip
      rename_i e
      cases e
      simp [stepCost, elements]
    omega

/-- A marker segment adds one level. -/
theorem low_seg {env : Env} {o : Options} {fuel csiz t bType c ss} (h : leaf env o fuel csiz t bType c = .ok ss)
    (ht : t ∈ [BoxType.cap, .siz, .prf, .cod, .qcd, .com, .coc, .rgn, .qcc, .poc, .tlm, .plm, .plt, .cpf, .ppm, .ppt, .crg]) :
    LowSteps 1 ss := by
  cases t <;> first | (exfalso; revert ht; decide) | skip
  all_goals simp only [leaf] at h
  case cap => cases h; unfold cap; simp only []; lows
  case siz =>
    unfold siz at h
    simp only [] at h
    split at h
    · cases h
    · cases h
      lows
  case prf =>
    cases h
    unfold prf; simp only []; lows
    exact lowSteps_of_cost (cost_profile ..)
  case cpf =>
    cases h
    unfold cpf; simp only []; lows
    all_goals exact lowSteps_of_cost (cost_profile ..)
  case cod =>
    cases h
    unfold cod; simp only []; lows
    exact ⟨low_codeBlock _ _ _, low_precinct _ _ _ _⟩
  case qcd => cases h; unfold qcd; simp only []; lows
  case com => cases h; unfold com; simp only []; lows
  case coc =>
    refine low_withCsiz h fun n => ?_
    simp only []
    lows
    exact ⟨low_codeBlock _ _ _, low_precinct _ _ _ _⟩
  case rgn => refine low_withCsiz h fun n => ?_; simp only []; lows
  case qcc => refine low_withCsiz h fun n => ?_; simp only []; lows
  case poc =>
    refine low_withCsiz h fun n => ?_
    simp only []
    low
    exact lowSteps_flatMap fun _ => low_pocEntry _ _ _
  case crg => refine low_withCsiz h fun n => ?_; simp only []; lows
  case tlm | ppm | ppt => cases h; lows
  case plm =>
    unfold plm at h
    obtain ⟨r, hr, h⟩ := ok_of_bind h
    cases h
    lows
  case plt =>
    unfold plt at h
    obtain ⟨r, hr, h⟩ := ok_of_bind h
    cases h
    lows

theorem low_xml {env : Env} {nx m d} (hd : DocIn env (m + 1) d) (hz : DocIn env (m + 1) (removeNullTerminator d)) :
    LowSteps (m + 1) (xmlSteps env nx d) := by
  unfold xmlSteps
  split
  · rename_i e he
    low
    exact hd e he
  · low
    split
    · split
      · rename_i e he
        low
        exact hz e he
      · low
    · low

theorem LowSteps.mono {k m ss} (h : LowSteps k ss) (hk : k ≤ m) : LowSteps m ss := fun s hs => Nat.le_trans (h s hs) hk

/-- The documents that a box may contain have at most `m` levels. -/
def DocBox (env : Env) (m : Nat) (t p : Bytes) : Prop :=
  (t = ascii "xml " → ∀ s n, p = s ++ List.replicate n 0 → DocIn env m s) ∧
  (t = ascii "uuid" → ∀ s n, p.drop 16 = s ++ List.replicate n 0 → DocIn env m s)

theorem removeNull_eq (d : Bytes) : ∃ n, d = removeNullTerminator d ++ List.replicate n 0 := by
  have key : ∀ l : Bytes, ∃ n, l = List.replicate n 0 ++ l.dropWhile (fun x => x == 0) := by
    intro l
    induction l with
    | nil => exact ⟨0, rfl⟩
    | cons a l ih =>
      by_cases ha : a = 0
      · obtain ⟨n, hn⟩ := ih
        subst ha
        refine ⟨n + 1, ?_⟩
        rw [List.dropWhile_cons_of_pos (by simp), List.replicate_succ, List.cons_append, ← hn]
      · exact ⟨0, by rw [List.dropWhile_cons_of_neg (by simpa using ha)]; rfl⟩
  obtain ⟨n, hn⟩ := key d.reverse
  refine ⟨n, ?_⟩
  have := congrArg List.reverse hn
  rw [List.reverse_reverse, List.reverse_append, List.reverse_replicate] at this
  exact this

theorem low_leafBox {env : Env} {o : Options} {fuel t c m r} (hd : DocBox env m t c)
    (h : validateLeaf env o fuel none t c = .ok r) : Low (max 4 m) r.node := by
  obtain ⟨ss, h1, h⟩ := Outcome.bind_eq_ok.1 h
  cases h
  obtain ⟨k, hk⟩ : ∃ k, max 4 m = k + 1 := ⟨max 4 m - 1, by omega⟩
  rw [hk]
  refine low_run (low_empty _) ?_
  have one : ∀ {ss : List Step}, LowSteps 1 ss → LowSteps (k + 1) ss := fun h => h.mono (by omega)
  have doc : ∀ {d : Bytes}, (∀ s n, d = s ++ List.replicate n 0 → DocIn env m s) → ∀ nx, LowSteps (k + 1) (xmlSteps env nx d) := by
    intro d hd nx
    obtain ⟨n, hn⟩ := removeNull_eq d
    refine low_xml (fun e he => ?_) (fun e he => ?_)
    · have := hd d 0 (by simp) e he; omega
    · have := hd _ n hn e he; omega
  generalize ht : boxTypeOf t = bt at h1
  by_cases hb : bt ∈ [BoxType.cap, .siz, .prf, .cod, .qcd, .com, .coc, .rgn, .qcc, .poc, .tlm, .plm, .plt, .cpf, .ppm,
      .ppt, .crg]
  · exact one (low_seg h1 hb)
  cases bt <;> first | (exfalso; revert hb; decide) | skip
  all_goals simp only [leaf] at h1
  case xmlBox =>
    cases h1
    exact doc (hd.1 ((boxTypeOf_iff (k := ascii "xml ") rfl (by decide) t).1 ht)) _
  case uuidBox =>
    unfold Jpy.uuidBox at h1
    obtain ⟨u, -, h1⟩ := ok_of_bind h1
    cases h1
    have := hd.2 ((boxTypeOf_iff (k := ascii "uuid") rfl (by decide) t).1 ht)
    low
    refine lowSteps_ite ?_ (by low)
    rw [show slice c 16 c.length = c.drop 16 from slice_to_end c 16]
    exact doc this _
  case signatureBox => cases h1; refine one ?_; unfold Jpy.signatureBox; lows
  case fileTypeBox => cases h1; refine one ?_; unfold Jpy.fileTypeBox; simp only []; lows
  case imageHeaderBox => cases h1; refine one ?_; unfold Jpy.imageHeaderBox; simp only []; lows
  case bitsPerComponentBox => cases h1; refine one ?_; unfold Jpy.bitsPerComponentBox; simp only []; lows
  case colourSpecificationBox =>
    cases h1
    have := depth_iccElem (slice c 3 c.length)
    refine LowSteps.mono (k := 2) ?_ (by omega)
    unfold Jpy.colourSpecificationBox; simp only []; lows
    all_goals exact this
  case paletteBox => cases h1; refine one ?_; unfold Jpy.paletteBox; simp only []; lows
  case componentMappingBox => cases h1; refine one ?_; unfold Jpy.componentMappingBox; simp only []; lows
  case channelDefinitionBox => cases h1; refine one ?_; unfold Jpy.channelDefinitionBox; simp only []; lows
  case captureResolutionBox | displayResolutionBox => exact one (low_resolution h1)
  case uuidListBox =>
    unfold Jpy.uuidListBox at h1
    obtain ⟨r, hr, h1⟩ := ok_of_bind h1
    cases h1
    refine one ?_
    lows
    exact low_uuidList hr
  case urlBox => cases h1; refine one ?_; unfold Jpy.urlBox; simp only []; lows
  case unknownBox => cases h1; refine one ?_; unfold Jpy.unknownBox; lows
  all_goals cases h1; exact fun _ h => nomatch h

end Jpy
