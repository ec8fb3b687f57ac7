import Verif.Spec.Warnings
import Verif.Lemmas.Named
import Verif.Lemmas.Walk
import Verif.Lemmas.Legal
/-! # Only unknown boxes are warned about -/

namespace Jpy
open Spec

/-! ## Leaves -/

/-- The statement is not a warning. -/
def Calm : Step → Prop
  | .warn _ => False
  | _ => True

/-- No statement of the list is a warning. -/
def CalmL (ss : List Step) : Prop := ∀ s ∈ ss, Calm s

theorem calm_nil : CalmL [] := fun _ h => nomatch h
theorem calm_cons {s ss} (h : Calm s) (hs : CalmL ss) : CalmL (s :: ss) := by
  intro x hx
  rcases List.mem_cons.1 hx with rfl | hx
  · exact h
  · exact hs x hx
theorem calm_append {a b} (ha : CalmL a) (hb : CalmL b) : CalmL (a ++ b) := by
  intro x hx
  rcases List.mem_append.1 hx with hx | hx
  · exact ha x hx
  · exact hb x hx
theorem calm_flatMap {α} {l : List α} {f : α → List Step} (h : ∀ x, CalmL (f x)) : CalmL (l.flatMap f) := by
  intro x hx
  obtain ⟨a, -, hx⟩ := List.mem_flatMap.1 hx
  exact h a x hx
theorem calm_map {α} {l : List α} {f : α → Step} (h : ∀ x, Calm (f x)) : CalmL (l.map f) := by
  intro x hx
  obtain ⟨a, -, rfl⟩ := List.mem_map.1 hx
  exact h a

/-- Walks through the statements of a leaf. -/
macro "calm_steps" : tactic => `(tactic|
  repeat' first
    | exact calm_nil
    | refine calm_cons (s := .test _ _) trivial ?_
    | refine calm_cons (s := .char _ _) trivial ?_
    | refine calm_cons (s := .elem _) trivial ?_
    | refine calm_append ?_ ?_
    | refine calm_flatMap fun _ => ?_
    | refine calm_map (f := fun _ => .char _ _) fun _ => trivial
    | refine calm_map (f := fun _ => .test _ _) fun _ => trivial
    | split)

theorem warningsOf_calm : ∀ {ss : List Step}, CalmL ss → warningsOf ss = []
  | [], _ => rfl
  | .test _ _ :: ss, h => warningsOf_calm (ss := ss) fun s hs => h s (List.mem_cons_of_mem _ hs)
  | .char _ _ :: ss, h => warningsOf_calm (ss := ss) fun s hs => h s (List.mem_cons_of_mem _ hs)
  | .elem _ :: ss, h => warningsOf_calm (ss := ss) fun s hs => h s (List.mem_cons_of_mem _ hs)
  | .warn _ :: _, h => (h _ (List.mem_cons_self ..)).elim

theorem calm_xml (env nx d) : CalmL (xmlSteps env nx d) := by
  unfold xmlSteps; calm_steps

theorem calm_profileLoop (c nm b n st) : CalmL (profileLoop c nm b n st).2 := by
  have h : ∀ (l : List Nat) (acc : Int × List Step), CalmL acc.2 →
      CalmL (l.foldl (fun (acc : Int × List Step) i =>
        let p := bytesToUShortInt (slice c 2 4)
        (acc.1 + p * 2 ^ (16 * i),
        if i = n ∧ b then acc.2 ++ [.test nm (decide (p ≠ 0))] else acc.2)) acc).2 := by
    intro l
    induction l with
    | nil => intro acc h; exact h
    | cons i l ih =>
      intro acc h
      rw [List.foldl_cons]
      refine ih _ ?_
      simp only []
      split
      · exact calm_append h (calm_cons trivial calm_nil)
      · exact h
  exact h _ _ calm_nil

theorem calm_uuidList {c} : ∀ {n off ss}, uuidListLoop c n off = .ok ss → CalmL ss
  | 0, off, ss, h => by cases h; exact calm_nil
  | n + 1, off, ss, h => by
    rw [uuidListLoop] at h
    obtain ⟨u, -, h⟩ := ok_of_bind h
    obtain ⟨r, hr, h⟩ := ok_of_bind h
    cases h
    exact calm_cons trivial (calm_uuidList hr)

theorem calm_withCsiz {cs f ss} (h : withCsiz cs f = .ok ss) (hf : ∀ n, CalmL (f n)) : CalmL ss := by
  unfold withCsiz at h
  split at h
  · cases h
  · cases h; exact hf _

theorem calm_signature (c) : CalmL (signatureBox c) := by unfold signatureBox; calm_steps
theorem calm_fileType (f c) : CalmL (fileTypeBox f c) := by unfold fileTypeBox; simp only []; calm_steps
theorem calm_imageHeader (c) : CalmL (imageHeaderBox c) := by unfold imageHeaderBox; simp only []; calm_steps
theorem calm_bpcc (c) : CalmL (bitsPerComponentBox c) := by unfold bitsPerComponentBox; simp only []; calm_steps
theorem calm_palette (c) : CalmL (paletteBox c) := by unfold paletteBox; simp only []; calm_steps
theorem calm_cmap (c) : CalmL (componentMappingBox c) := by unfold componentMappingBox; simp only []; calm_steps
theorem calm_cdef (f c) : CalmL (channelDefinitionBox f c) := by unfold channelDefinitionBox; simp only []; calm_steps
theorem calm_url (c) : CalmL (urlBox c) := by unfold urlBox; simp only []; calm_steps
theorem calm_cap (f c) : CalmL (cap f c) := by unfold cap; simp only []; calm_steps
theorem calm_com (env c) : CalmL (com env c) := by unfold com; simp only []; calm_steps
theorem calm_sot (c) : CalmL (sot c) := by unfold sot; simp only []; calm_steps
theorem calm_codeBlock (f c o) : CalmL (codeBlockSteps f c o) := by unfold codeBlockSteps; simp only []; calm_steps
theorem calm_precinct (c o p l) : CalmL (precinctSteps c o p l) := by unfold precinctSteps; simp only []; calm_steps
theorem calm_quant (c q l o) : CalmL (quantSteps c q l o) := by unfold quantSteps; simp only []; calm_steps
theorem calm_pocEntry (n c o) : CalmL (pocEntry n c o) := by unfold pocEntry; simp only []; calm_steps
theorem calm_cod (f c) : CalmL (cod f c) :=
  calm_append (calm_append (by calm_steps) (calm_codeBlock _ _ _)) (calm_precinct _ _ _ _)
theorem calm_qcd (c) : CalmL (qcd c) := calm_append (by calm_steps) (calm_quant _ _ _ _)

/-- No leaf but an unknown box issues a warning. -/
theorem leaf_calm {env : Env} {o : Options} {fuel csiz t bType c ss}
    (h : leaf env o fuel csiz t bType c = .ok ss) (ht : t ≠ .unknownBox) : CalmL ss := by
  cases t <;> simp only [leaf] at h
  case unknownBox => exact absurd rfl ht
  case xmlBox => cases h; exact calm_xml _ _ _
  case uuidBox =>
    unfold Jpy.uuidBox at h
    obtain ⟨u, -, h⟩ := ok_of_bind h
    cases h
    refine calm_cons trivial ?_
    split
    · exact calm_xml _ _ _
    · exact calm_cons trivial calm_nil
  case colourSpecificationBox =>
    cases h
    unfold colourSpecificationBox
    simp only []
    calm_steps
  case uuidListBox =>
    unfold uuidListBox at h
    obtain ⟨r, hr, h⟩ := ok_of_bind h
    cases h
    exact calm_append (by calm_steps) (calm_uuidList hr)
  case captureResolutionBox | displayResolutionBox =>
    unfold resolutionLeaf at h
    simp only [] at h
    split at h
    · cases h
    · split at h
      · cases h
      · cases h
        calm_steps
  case siz =>
    unfold siz at h
    simp only [] at h
    split at h
    · cases h
    · cases h
      calm_steps
  case prf =>
    cases h
    unfold prf
    have := calm_profileLoop c "pprfIsValid" true (rangeLen (intDiv (bytesToUShortInt (slice c 0 2) - 2) 2)) 4095
    exact calm_append (calm_append (by calm_steps) this) (by calm_steps)
  case cpf =>
    cases h
    unfold cpf
    have := calm_profileLoop c "pcpfIsValid" o.format.isHT (rangeLen (intDiv (bytesToUShortInt (slice c 0 2) - 2) 2)) (-1)
    exact calm_append (calm_append (by calm_steps) this) (by calm_steps)
  case coc =>
    exact calm_withCsiz h fun n => calm_append (calm_append (by calm_steps) (calm_codeBlock _ _ _)) (calm_precinct _ _ _ _)
  case rgn => exact calm_withCsiz h fun n => by simp only []; calm_steps
  case qcc => exact calm_withCsiz h fun n => calm_append (by calm_steps) (calm_quant _ _ _ _)
  case poc => exact calm_withCsiz h fun n => calm_append (by calm_steps) (calm_flatMap fun _ => calm_pocEntry _ _ _)
  case crg => exact calm_withCsiz h fun n => by simp only []; calm_steps
  case cod => cases h; exact calm_cod _ _
  case qcd => cases h; exact calm_qcd _
  case plm =>
    unfold plm at h
    obtain ⟨r, hr, h⟩ := ok_of_bind h
    cases h
    calm_steps
  case plt =>
    unfold plt at h
    obtain ⟨r, hr, h⟩ := ok_of_bind h
    cases h
    calm_steps
  case signatureBox => cases h; exact calm_signature _
  case fileTypeBox => cases h; exact calm_fileType _ _
  case imageHeaderBox => cases h; exact calm_imageHeader _
  case bitsPerComponentBox => cases h; exact calm_bpcc _
  case paletteBox => cases h; exact calm_palette _
  case componentMappingBox => cases h; exact calm_cmap _
  case channelDefinitionBox => cases h; exact calm_cdef _ _
  case urlBox => cases h; exact calm_url _
  case cap => cases h; exact calm_cap _ _
  case com => cases h; exact calm_com _ _
  all_goals
    cases h
    exact calm_nil

theorem run_calm {v ss} (h : CalmL ss) : (Node.run v {} ss).warnings = [] := by
  rw [run_warnings, warningsOf_calm h]; rfl

theorem validateLeaf_calm {env o fuel csiz bType c r} (h : validateLeaf env o fuel csiz bType c = .ok r)
    (ht : boxTypeOf bType ≠ .unknownBox) : r.node.warnings = [] := by
  unfold validateLeaf at h
  obtain ⟨ss, hs, h⟩ := ok_of_bind h
  cases h
  exact run_calm (leaf_calm hs ht)

/-! ## Codestreams -/

theorem absorb_warnings (n : Node) (r : BoxResult) : (n.absorb r).warnings =
    n.warnings ++ (if r.node.warnings = [] then [] else [.node r.tag r.node.warnings]) := by
  unfold Node.absorb BoxResult.warningsElem Elem.appendIfNotEmpty
  cases h : r.node.warnings <;> simp [Elem.node, Elem.children]

theorem absorb_calm {n : Node} {r : BoxResult} (hr : r.node.warnings = []) : (n.absorb r).warnings = n.warnings := by
  rw [absorb_warnings, if_pos hr, List.append_nil]

theorem absorbPacket_calm {n : Node} {r : BoxResult} (pm) (hr : r.node.warnings = []) :
    (n.absorbPacket pm r).warnings = n.warnings := by
  unfold Node.absorbPacket
  split
  · exact absorb_calm hr
  · have := absorb_calm (n := n) hr; exact this

/-- Nothing inside a codestream is warned about. -/
def calmRel (env : Env) (o : Options) : NodeRel env o o where
  R k n1 n2 := n1 = n2 ∧ (k ≠ .box → n1.warnings = [])
  L k r1 r2 := r1 = r2 ∧ (k ≠ .box → r1.node.warnings = [])
  empty _ := ⟨rfl, fun _ => rfl⟩
  test _ _ h _ := ⟨by rw [h.1], fun hk => by rw [testFor_warnings]; exact h.2 hk⟩
  char _ _ _ h := ⟨by rw [h.1], h.2⟩
  absorb h hr _ := ⟨by rw [h.1, hr.1], fun hk => by rw [absorb_calm (hr.2 hk)]; exact h.2 hk⟩
  packet h hr _ := ⟨by rw [h.1, hr.1], fun hk => by rw [absorbPacket_calm _ (hr.2 hk)]; exact h.2 hk⟩
  leaf {k _ _ _ _ _ _ _} h1 h2 ha _ := by
    rw [h1] at h2
    cases h2
    refine ⟨rfl, fun hk => run_calm (leaf_calm h1 ?_)⟩
    rintro rfl
    cases k
    · exact hk rfl
    all_goals simp [Ctx.allows] at ha
  sot c := ⟨rfl, fun _ => run_calm (calm_sot c)⟩
  super _ _ h := ⟨by rw [h.1], fun hk => absurd rfl hk⟩
  code h := ⟨by rw [h.1], fun hk => absurd rfl hk⟩
  tile h := ⟨by rw [h.1], fun _ => h.2 (fun h => nomatch h)⟩
  tiles h := ⟨by rw [h.1], fun _ => h.2 (fun h => nomatch h)⟩
  look h _ := by rw [h.1]

theorem codestream_calm {env o fuel b n} (h : codestream env o fuel b = .ok n) : n.warnings = [] := by
  have := codestream_rel (calmRel env o) rfl fuel b
  rw [h] at this
  cases this with
  | ok hr => exact hr.2 (fun h => nomatch h)

/-! ## Superboxes -/

theorem jp2HeaderFinish_warnings (o n types) : (jp2HeaderFinish o n types).warnings = n.warnings := by
  unfold jp2HeaderFinish
  simp only [testFor_warnings, testIf_warnings]
  cases o.format <;> simp only [testFor_warnings, testIf_warnings]

theorem resolutionFinish_warnings (v n types) : (resolutionFinish v n types).warnings = n.warnings := by
  unfold resolutionFinish; simp only [testFor_warnings]

theorem uuidInfoFinish_warnings (v n types) : (uuidInfoFinish v n types).warnings = n.warnings := by
  unfold uuidInfoFinish; simp only [testFor_warnings]

theorem sizConsistency_warnings {o k n ih sz m} (h : sizConsistency o k n ih sz = .ok m) : m.warnings = n.warnings := by
  unfold sizConsistency at h
  simp only [] at h
  obtain ⟨_, _, h⟩ := ok_of_bind h
  obtain ⟨_, _, h⟩ := ok_of_bind h
  obtain ⟨_, _, h⟩ := ok_of_bind h
  obtain ⟨_, _, h⟩ := ok_of_bind h
  obtain ⟨_, _, h⟩ := ok_of_bind h
  split at h
  · obtain ⟨_, _, h⟩ := ok_of_bind h
    obtain ⟨_, _, h⟩ := ok_of_bind h
    obtain ⟨_, _, h⟩ := ok_of_bind h
    cases h
    simp only [Node.addChar, testFor_warnings]
  · cases h
    simp only [testFor_warnings]

theorem jp2Finish_warnings {o k n types m} (h : jp2Finish o k n types = .ok m) : m.warnings = n.warnings := by
  unfold jp2Finish at h
  simp only [] at h
  split at h
  · rw [sizConsistency_warnings h]; simp only [testFor_warnings, testIf_warnings]
  · cases h; simp only [testFor_warnings, testIf_warnings]

/-- What a box adds to the warnings around it. -/
def entry (r : BoxResult) : List Elem := if r.node.warnings = [] then [] else [.node r.tag r.node.warnings]

theorem warnings_foldl_absorb (rs : List BoxResult) (n : Node) :
    (rs.foldl Node.absorb n).warnings = n.warnings ++ rs.flatMap entry := by
  induction rs generalizing n with
  | nil => simp
  | cons r rs ih => rw [List.foldl_cons, ih, absorb_warnings]; simp [entry]

/-! ## Types -/

theorem boxTypeOf_unknown {t : Bytes} : boxTypeOf t = .unknownBox ↔ t ∉ knownBoxTypes ∧ t ∉ knownMarkers := by
  constructor
  · intro h
    have key : ∀ t ∈ knownBoxTypes ++ knownMarkers, boxTypeOf t ≠ .unknownBox := by decide
    exact ⟨fun hk => key t (List.mem_append_left _ hk) h, fun hk => key t (List.mem_append_right _ hk) h⟩
  · rintro ⟨h1, h2⟩
    have key : ∀ p ∈ typeMap, p.1 ∈ knownBoxTypes ++ knownMarkers := by decide
    unfold boxTypeOf
    cases h : typeMap.lookup t with
    | none => rfl
    | some v =>
      obtain ⟨l1, l2, hl, -⟩ := List.lookup_eq_some_iff.1 h
      have := key (t, v) (by rw [hl]; simp)
      rcases List.mem_append.1 this with h | h
      · exact absurd h h1
      · exact absurd h h2

theorem boxTypeOf_super {t : Bytes} {n : String} : (t, n) ∈ superNames ↔
    boxTypeOf t ∈ [.jp2HeaderBox, .resolutionBox, .uuidInfoBox] ∧ n = (boxTypeOf t).name := by
  constructor
  · intro h
    have key : ∀ p ∈ superNames, boxTypeOf p.1 ∈ [.jp2HeaderBox, .resolutionBox, .uuidInfoBox] ∧ p.2 = (boxTypeOf p.1).name := by
      decide
    exact key _ h
  · rintro ⟨h, rfl⟩
    have key : ∀ p ∈ typeMap, p.2 ∈ [BoxType.jp2HeaderBox, .resolutionBox, .uuidInfoBox] → (p.1, p.2.name) ∈ superNames := by
      decide
    unfold boxTypeOf at h ⊢
    cases h' : typeMap.lookup t with
    | none => rw [h'] at h; exact absurd h (by decide)
    | some v =>
      obtain ⟨l1, l2, hl, -⟩ := List.lookup_eq_some_iff.1 h'
      rw [h'] at h
      exact key (t, v) (by rw [hl]; simp) h

end Jpy
