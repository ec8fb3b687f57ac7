import Verif.Spec.Wrap
import Verif.Lemmas.Quiet
/-! # A codestream in a file and by itself -/

set_option linter.unusedSimpArgs false

namespace Jpy
open Spec

theorem bare_kind {f f'} (h : BareFormat f f') : f'.isHT = f.isHT ∧ f'.isPart1 = f.isPart1 := by
  cases h <;> exact ⟨rfl, rfl⟩

/-- Validators of marker segments do not tell a file from a codestream. -/
theorem leaf_bare (env : Env) (o : Options) {f} (h : BareFormat o.format f) (fuel csiz) {t : BoxType}
    (ht : t ∉ [.fileTypeBox, .colourSpecificationBox, .channelDefinitionBox]) (bType c) :
    leaf env (withFormat o f) fuel csiz t bType c = leaf env o fuel csiz t bType c := by
  obtain ⟨h1, h2⟩ := bare_kind h
  cases t <;> first
    | rfl
    | exact absurd (by decide) ht
    | (simp only [leaf, withFormat, siz, cod, coc, rgn, cap, cpf, codeBlockSteps, h1, h2])

theorem validateLeaf_bare (env : Env) (o : Options) {f} (h : BareFormat o.format f) (fuel csiz) {m : Bytes}
    (hm : m = mSIZ ∨ m ∈ mainMarkers ∨ m ∈ tpMarkers) (c) :
    validateLeaf env (withFormat o f) fuel csiz m c = validateLeaf env o fuel csiz m c := by
  unfold validateLeaf
  have : boxTypeOf m ∉ [.fileTypeBox, .colourSpecificationBox, .channelDefinitionBox] := by
    have key : ∀ m ∈ mSIZ :: mainMarkers ++ tpMarkers,
        boxTypeOf m ∉ [.fileTypeBox, .colourSpecificationBox, .channelDefinitionBox] := by decide
    exact key m (by simpa using hm)
  rw [leaf_bare env o h fuel csiz this]
  rfl

theorem mainLoop_congr {s1 s2 : Bytes → Bytes → Option Int → Outcome BoxResult}
    (h : ∀ m ∈ mainMarkers, ∀ c cs, s1 m c cs = s2 m c cs) (pm csiz b) :
    ∀ fuel s, mainLoop s1 pm csiz b fuel s = mainLoop s2 pm csiz b fuel s
  | 0, _ => rfl
  | fuel + 1, s => by
    unfold mainLoop
    have : mainStep s1 pm csiz b s = mainStep s2 pm csiz b s := by
      rw [mainStep_eq, mainStep_eq]
      simp only
      split
      · rename_i hm; rw [h _ hm]
      · rfl
    rw [this]
    simp only [mainLoop_congr h pm csiz b fuel]

theorem tpLoop_congr {s1 s2 : Bytes → Bytes → Option Int → Outcome BoxResult}
    (h : ∀ m ∈ tpMarkers, ∀ c cs, s1 m c cs = s2 m c cs) (pm csiz b) :
    ∀ fuel s, tpLoop s1 pm csiz b fuel s = tpLoop s2 pm csiz b fuel s
  | 0, _ => rfl
  | fuel + 1, s => by
    unfold tpLoop
    have : tpStep s1 pm csiz b s = tpStep s2 pm csiz b s := by
      rw [tpStep_eq, tpStep_eq]
      simp only
      split
      · rename_i hm; rw [h _ hm]
      · rfl
    rw [this]
    simp only [tpLoop_congr h pm csiz b fuel]

theorem tilePart_bare (env : Env) (o : Options) {f} (h : BareFormat o.format f) (fuel csiz start b) :
    tilePart env (withFormat o f) fuel csiz start b = tilePart env o fuel csiz start b := by
  unfold tilePart
  simp only []
  rw [tpLoop_congr (s1 := fun mk c cs => validateLeaf env (withFormat o f) fuel cs mk c)
    (s2 := fun mk c cs => validateLeaf env o fuel cs mk c)
    (fun m hm c cs => validateLeaf_bare env o h fuel cs (.inr (.inr hm)) c)]
  rfl

/-- The analysis of a bare codestream adds the compression ratio at most. -/
structure SameCodestream (n n' : Node) : Prop where
  tests : n'.tests = n.tests
  warnings : n'.warnings = n.warnings
  chars : n'.chars = n.chars ∨ ∃ v, n'.chars = n.chars ++ [.leaf "compressionRatio" v]

theorem finish_bare {env : Env} {o : Options} {f} (h : BareFormat o.format f) {fu csiz c} {r : BoxResult}
    (hr : validateLeaf env o fu csiz mSIZ c = .ok r) (b nt n t) :
    OutRel SameCodestream (codestreamFinish o b r.node.chars nt n t)
      (codestreamFinish (withFormat o f) b r.node.chars nt n t) := by
  obtain ⟨-, -, h1, h2, h3, h4, -, -, h7⟩ := siz_text hr
  have h0 : ¬ (o.format = .j2c ∨ o.format = .jhc) := by
    generalize o.format = x at h; cases h <;> decide
  have h0' : (withFormat o f).format = .j2c ∨ (withFormat o f).format = .jhc := by
    show f = .j2c ∨ f = .jhc
    generalize o.format = x at h
    cases h <;> simp
  unfold codestreamFinish
  simp only
  rw [if_neg h0, if_pos h0', reported_text h1, reported_text h2, reported_text h3, reported_all h7, needInts_map]
  simp only [needInt, Outcome.bind_ok]
  exact .ok ⟨rfl, rfl, .inr ⟨_, rfl⟩⟩

theorem sameCodestream_refl (n : Node) : SameCodestream n n := ⟨rfl, rfl, .inl rfl⟩

theorem codestream_bare (env : Env) (o : Options) {f} (h : BareFormat o.format f) (fuel : Nat) (b : Bytes) :
    OutRel SameCodestream (codestream env o fuel b) (codestream env (withFormat o f) fuel b) := by
  unfold codestream
  simp only
  split
  · rename_i hm
    rw [validateLeaf_bare env o h fuel none (.inl hm)]
    refine OutRel.bind (OutRel.refl (R := Eq) (fun _ => rfl) _) ?_
    rintro r _ hr - rfl
    refine OutRel.bind (OutRel.refl (R := Eq) (fun _ => rfl) _) ?_
    rintro csiz _ - - rfl
    rw [mainLoop_congr (s1 := fun mk c cs => validateLeaf env (withFormat o f) fuel cs mk c)
      (s2 := fun mk c cs => validateLeaf env o fuel cs mk c)
      (fun m hm c cs => validateLeaf_bare env o h fuel cs (.inr (.inl hm)) c)]
    refine OutRel.bind (OutRel.refl (R := Eq) (fun _ => rfl) _) ?_
    rintro s _ - - rfl
    refine OutRel.bind (OutRel.refl (R := Eq) (fun _ => rfl) _) ?_
    rintro rsiz _ - - rfl
    refine OutRel.bind (OutRel.refl (R := Eq) (fun _ => rfl) _) ?_
    rintro tiles _ - - rfl
    simp only [tilePart_bare env o h]
    refine OutRel.bind (OutRel.refl (R := Eq) (fun _ => rfl) _) ?_
    rintro t _ - - rfl
    rw [hm] at hr
    exact finish_bare h hr ..
  · exact .ok (sameCodestream_refl _)

end Jpy
