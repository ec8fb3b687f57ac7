import Verif.Props.Schema
import Verif.Props.Generate
import Verif.Props.Shows
/-! # Valid codestreams of all sizes whose reports do not follow the published schema: C57 -/

set_option linter.unusedSimpArgs false

namespace Jpy
open Spec Xsd

namespace Spec

/-- The codestream of an image with a POC segment that has room for seven bytes only: with more than
256 components a progression order change takes nine. -/
def Image.shortPoc (i : Image) : GenCodestream :=
  { i.codestream with main := i.codestream.main ++ [(POC, [0, 9, 0, 0, 0, 0, 0, 0, 0])] }

end Spec

theorem shortPoc_conforms {i : Image} (h : i.Ok) (hc : 256 < i.comps) (catC : Char → Bool) :
    i.shortPoc.Conforms catC .j2c i.comps i.tiles := by
  have g := image_conforms h catC (.inr rfl : Format.j2c = .jp2 ∨ Format.j2c = .j2c)
  refine ⟨g.siz, g.sizLength, g.comps, g.tiles, ⟨?_, ?_, ?_⟩, ?_, ?_, ?_, g.tps, g.every, g.declared⟩
  · intro s hs
    rcases List.mem_append.1 hs with hs | hs
    · exact g.main.segs s hs
    · cases List.mem_singleton.1 hs
      refine ⟨by decide, .poc ?_, 9, by decide, by decide⟩
      refine ⟨9, by decide, by decide, fun k hk => ?_⟩
      have : compWidth i.comps = 2 := by unfold compWidth; rw [if_neg (by omega)]
      rw [this] at hk
      omega
  · exact List.nodup_nil
  · exact List.nodup_nil
  · obtain ⟨s, hs, e⟩ := g.cod; exact ⟨s, List.mem_append_left _ hs, e⟩
  · obtain ⟨s, hs, e⟩ := g.qcd; exact ⟨s, List.mem_append_left _ hs, e⟩
  · intro hf; obtain ⟨s, hs, e⟩ := g.cap hf; exact ⟨s, List.mem_append_left _ hs, e⟩

theorem child_conforms {s : Bool} {e : Elem} (hc : Conforms s e) {r : Re}
    (hl : (schema s).lookup e.tag = some (.content r)) (hr : closed r = true) :
    ∀ x ∈ e.children, Conforms s x := by
  intro x hx
  cases hc with
  | text hl' _ => cases hx
  | textWith hl' _ _ => cases hx
  | content hl' hm =>
    simp only [Elem.tag] at hl
    rw [hl] at hl'
    cases hl'
    exact (closed_mem hm hr x hx).2

/-- A POC element without progression order change does not follow the schema. -/
theorem poc_wrong {e : Elem} (ht : e.tag = "poc") (hn : ∀ x ∈ e.children, x.tag ≠ "rspoc") : ¬ Conforms true e := by
  intro hc
  obtain ⟨n, at_, x, cs⟩ := e
  simp only [Elem.tag] at ht
  subst ht
  have hs : (schema true).lookup "poc" = some (.content (sequence
      [ el "lpoc", atLeastOnce true (sequence
        [ el "rspoc", el "cspoc", el "lyepoc", el "repoc", el "cepoc", el "order" ]) ])) := by rfl
  cases hc with
  | text hl _ => rw [hs] at hl; cases hl
  | textWith hl _ _ => rw [hs] at hl; cases hl
  | content hl hm =>
    rw [hs] at hl
    cases hl
    obtain ⟨y, hy, e⟩ := required_mem hm "rspoc" (by decide)
    exact hn y hy e

/-- C57 does not hold for any image with more than 256 components: its codestream with a POC segment that is
too short for a progression order change is reported valid, in a report that does not follow the published
schema. -/
theorem C57_false_components {i : Image} (h : i.Ok) (hc : 256 < i.comps) {env : Env} (hsane : Sane env)
    {me : MixEnv} {fs : FS} {o : Options} (hf : o.format = .j2c) {path : PyStr}
    (hr : fs.read path = .data i.shortPoc.bytes) (hs : ∃ n, fs.getsize path = .ok n)
    (hm : ∃ t, fs.modified path = .ok t) :
    ∃ f0, ∀ fuel ≥ f0, ∃ rep, checkOneFile env me fs fuel o 0 path = .ok rep ∧
      verdict rep = some (.str "True") ∧ ¬ Conforms true rep := by
  have hg := shortPoc_conforms h hc env.catC
  rw [← hf] at hg
  obtain ⟨f0, hall⟩ := C50_reported (env := env) (me := me) hr hs hm (.inr ⟨.inl hf, _, hg, rfl⟩)
  refine ⟨f0, fun fuel hfu => ?_⟩
  obtain ⟨rep, hrep, hv⟩ := hall fuel hfu
  refine ⟨rep, hrep, hv, fun hconf => ?_⟩
  have hsucc : status rep "success" = [.str "True"] := by
    obtain ⟨info, a, m, h1, h2, h3, rfl⟩ := checkOneFile_ok.1 hrep
    have hi := fileInfo_tag h1
    rw [verdict_eq hi] at hv
    simp only [Option.some.injEq, PyVal.str.injEq, boolStr_true] at hv
    unfold status
    rw [(report_parts hi).2.1]
    rcases analyse_cases h2 with ⟨b, fmm, n, h4, h5, rfl⟩ | ⟨e, h4, rfl⟩
    · rfl
    · cases hv
  obtain ⟨ss, sot, hmh, hss, -⟩ := gen_mainHeader hg
  have hb : bytesRead (fs.read path) = i.shortPoc.bytes := by rw [hr]; rfl
  obtain ⟨raw, hraw, hshow⟩ := C54_bare hsane (.inl hf) hrep hsucc
    (by rw [hb]; exact sub_mid' (x := SOC) (pre := []) (by simp [GenCodestream.bytes]; rfl) rfl rfl)
    (hb ▸ hmh)
  -- the POC element
  have hpoc : ∃ e ∈ raw, e.tag = "poc" ∧ ∀ x ∈ e.children, x.tag ≠ "rspoc" := by
    cases hshow with
    | @mk s segs tps ratio n hstag hsv hnt htc hsegs htps hnone hr1 hr2 =>
      suffices ∃ e ∈ segs, e.tag = "poc" ∧ ∀ x ∈ e.children, x.tag ≠ "rspoc" by
        obtain ⟨e, he, h1⟩ := this
        exact ⟨e, by simp [he], h1⟩
      have hin : ∃ x ∈ ss, x.marker = POC ∧ x.contents = [0, 9, 0, 0, 0, 0, 0, 0, 0] := by
        have : (POC, ([0, 9, 0, 0, 0, 0, 0, 0, 0] : Bytes)) ∈ ss.map (fun x => (x.marker, x.contents)) := by
          rw [hss]; simp [Image.shortPoc]
        obtain ⟨x, hx, e⟩ := List.mem_map.1 this
        simp only [Prod.mk.injEq] at e
        exact ⟨x, hx, e⟩
      obtain ⟨x, hx, hx1, hx2⟩ := hin
      clear hss hmh hraw htps
      induction hsegs with
      | nil => cases hx
      | skip hskip _ ih =>
        rcases List.mem_cons.1 hx with rfl | hx
        · rw [hx1] at hskip
          rcases hskip with hk | hk
          · exact absurd (by decide) hk
          · exact absurd hk.1 (by decide)
        · exact ih hx
      | @«show» y ss e es hh hp ht hvals _ ih =>
        rcases List.mem_cons.1 hx with rfl | hx
        · refine ⟨e, List.mem_cons_self .., ?_, ?_⟩
          · rw [hx1] at ht
            revert ht
            generalize e.tag = t
            intro ht
            have hall : ∀ z ∈ segNames, z.1 = POC → z.2 = "poc" := by decide
            exact hall _ ht rfl
          · have hnum := ((hvals.poc hx1).2 9 (by rw [hx2]; decide) ⟨"rspoc", .num 2 1⟩
              (List.mem_cons_self ..)).number
            have : compWidth i.comps = 2 := by unfold compWidth; rw [if_neg (by omega)]
            rw [this] at hnum
            intro z hz hzt
            have hmem : z.text ∈ valuesOf e.children "rspoc" :=
              List.mem_map.2 ⟨z, List.mem_filter.2 ⟨hz, by rw [hzt]; rfl⟩, rfl⟩
            rw [List.length_eq_zero_iff.1 hnum] at hmem
            cases hmem
        · obtain ⟨e, he, h1⟩ := ih hx
          exact ⟨e, List.mem_cons_of_mem _ he, h1⟩
  obtain ⟨e, he, het, hen⟩ := hpoc
  -- the element in the report
  obtain ⟨k, hk, rfl⟩ := List.mem_iff_getElem.1 he
  have hk' : k < (contents rep "properties").length := hraw.1 ▸ hk
  have hren := hraw.2 k hk hk'
  obtain ⟨p, hp, hpt, hpc⟩ : ∃ p ∈ rep.children, p.tag = "properties" ∧ p.children = contents rep "properties" := by
    unfold contents at hk' ⊢
    cases hpart : part rep "properties" with
    | none => rw [hpart] at hk'; exact absurd hk' (Nat.not_lt_zero _)
    | some p =>
      exact ⟨p, List.mem_of_find?_eq_some hpart, beq_iff_eq.1 (List.find?_some hpart :), rfl⟩
  have hrept : rep.tag = "file" := by
    obtain ⟨info, a, m, h1, h2, h3, rfl⟩ := checkOneFile_ok.1 hrep
    rfl
  have c1 : Conforms true p := child_conforms hconf (by rw [hrept]; rfl) rfl p hp
  have c2 := child_conforms c1 (by rw [hpt]; rfl) rfl _ (by rw [hpc]; exact List.getElem_mem hk')
  generalize (contents rep "properties")[k] = e' at hren c2
  generalize raw[k] = e at hren het hen
  cases hren with
  | @mk t a x x' cs cs' z hx hl hcs =>
    refine poc_wrong (e := .mk t a x' cs' z) het (fun z hz hzt => ?_) c2
    obtain ⟨j, hj, rfl⟩ := List.mem_iff_getElem.1 hz
    have hj' : j < cs.length := hl ▸ hj
    have hr2 := hcs j hj' hj
    refine hen cs[j] (List.getElem_mem hj') ?_
    rw [← hzt]
    show cs[j].tag = cs'[j].tag
    generalize cs[j] = u at hr2
    generalize cs'[j] = w at hr2
    cases hr2 with
    | mk _ _ _ => rfl

/-- An image of 257 components: the hypotheses of `C57_false_components` are met. -/
def image257 : Image := ⟨1, 1, 1, 1, 257, 8, fun _ => []⟩

example : image257.Ok where
  width := by decide
  height := by decide
  tileWidth := by decide
  tileHeight := by decide
  comps := by decide
  depth := by decide
  tiles := by decide
  data := fun _ _ => (by decide : 0 < 2 ^ 32 - 14)

example : 256 < image257.comps := by decide

end Jpy
