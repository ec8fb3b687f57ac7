import Verif.Lemmas.Mix
import Verif.Lemmas.Report
import Verif.Lemmas.Sample
/-! # MIX output of valid files: C48 -/

namespace Jpy
open Spec Sample

/-- C48: a JP2 or JPH file that is reported valid without MIX output is also reported valid with MIX
output. Missing from the full property: files whose header does not name a colour space with method 1, 2
or 3 and files with XMP whose `rdf:RDF` element has children but no `rdf:Description` (`C48_false`,
`C48_false_rdf`). -/
theorem C48_partial (env : Env) (me : MixEnv) (fs : FS) (fuel : Nat) (o : Options) (mix : Nat)
    (path : PyStr) (hfmt : o.format = .jp2 ∨ o.format = .jph) (hf : FloatsReadable env me)
    (hcol : NamesColourSpace (bytesRead (fs.read path)))
    (hrdf : DescriptionsPresent env (bytesRead (fs.read path)))
    (h : ReportedValid env me fs fuel o 0 path) : ReportedValid env me fs fuel o mix path := by
  obtain ⟨rep, h, hv⟩ := h
  obtain ⟨info, a, m, h1, h2, -, rfl⟩ := checkOneFile_ok.1 h
  have hi := fileInfo_tag h1
  rw [verdict_eq hi] at hv
  have hout : ∃ m', mixOutput me mix a = .ok m' := by
    unfold mixOutput
    split
    · rename_i hm
      rcases analyse_cases h2 with ⟨b, fmm, n, h4, h5, rfl⟩ | ⟨e, h4, rfl⟩
      · obtain ⟨rfl, -⟩ := fileToMemoryMap_ok h4
        have hroot : validateRoot env o fuel (bytesRead (fs.read path)) =
            validateJP2 env o fuel (bytesRead (fs.read path)) := by
          unfold validateRoot
          rcases hfmt with hf | hf <;> rw [hf]
        rw [hroot] at h5
        obtain ⟨x, hx⟩ := generateMix_fine (flag := mix) (valid_ready hfmt h5 hm.2 hcol hrdf) hf
        exact ⟨[x], by
          show (do let m ← generateMix me mix (makeHumanReadableL env remapTable n.chars); Outcome.ok [m]) = _
          rw [hx]; rfl⟩
      · cases hm.2
    · exact ⟨_, rfl⟩
  obtain ⟨m', hm'⟩ := hout
  refine ⟨_, checkOneFile_ok.2 ⟨info, a, m', h1, h2, hm', rfl⟩, ?_⟩
  rw [verdict_eq hi]
  exact hv

/-- C48 for JP2 files, where a valid header always names a colour space. Missing from the full property:
files with XMP as in `C48_false_rdf`. -/
theorem C48_jp2_partial (env : Env) (me : MixEnv) (fs : FS) (fuel : Nat) (o : Options) (mix : Nat)
    (path : PyStr) (hfmt : o.format = .jp2) (hf : FloatsReadable env me)
    (hrdf : DescriptionsPresent env (bytesRead (fs.read path)))
    (h : ReportedValid env me fs fuel o 0 path) : ReportedValid env me fs fuel o mix path := by
  refine C48_partial env me fs fuel o mix path (.inl hfmt) hf ?_ hrdf h
  obtain ⟨n, h5, hv⟩ := reportedValid_contents h
  have hroot : validateRoot env o fuel (bytesRead (fs.read path)) =
      validateJP2 env o fuel (bytesRead (fs.read path)) := by
    unfold validateRoot
    rw [hfmt]
  rw [hroot] at h5
  obtain ⟨l, hl, -⟩ := jp2_forward'' (.inl hfmt) h5 hv
  obtain ⟨ih, rest, hb, hp, hok⟩ := (C18_header env o l.hd.payload).1 (by
    have := hl.passes l.hd (by simp [Layout.rest])
    rwa [hl.hd] at this)
  obtain ⟨x, hx, hxt⟩ := hok.2.2.2.2.2.2.2.2.2.1 hfmt
  obtain ⟨f, hacc⟩ := hp x hx
  have hpass : ∃ f, Accepted (validateBox env o (f + 1) (ascii "colr") x.payload) := by
    rw [hxt] at hacc
    cases f with
    | zero => obtain ⟨n, hn, -⟩ := hacc; cases hn
    | succ f => exact ⟨f, hacc⟩
  obtain ⟨f, hacc⟩ := hpass
  obtain ⟨-, -, m, hm, hmeth, -⟩ := (C35_colr_accepted env o f x.payload).1 hacc
  refine ⟨_, l.hd, _, x, hl.boxes, by simp [Layout.rest], hl.hd, hb, hx, hxt, m, hm, ?_⟩
  rw [hfmt] at hmeth
  rcases hmeth with h | h
  · exact .inl h
  · exact .inr (.inl h)

/-- The hypotheses of `C48_jp2_partial` are met by the sample file with two tiles. -/
example : (opts .jp2).format = .jp2 ∧ FloatsReadable env0 me0 ∧
    DescriptionsPresent env0 (bytesRead ((fs0 jp2b).read [97])) ∧
    ReportedValid env0 me0 (fs0 jp2b) 200 (opts .jp2) 0 [97] :=
  ⟨rfl, fun _ _ => ⟨⟨1, rfl⟩, ⟨1, rfl⟩⟩, fun _ ⟨_, _, _, _, h⟩ => (by rcases h with ⟨_, h⟩ | ⟨_, h⟩ <;> cases h),
    jp2b_valid⟩

/-- C48 fails: a JPH file with an unknown colour space and no colour specification box is reported valid,
but with MIX output the analysis of the file ends with an exception. -/
theorem C48_false : ∃ (env : Env) (me : MixEnv) (fs : FS) (fuel : Nat) (path : PyStr),
    FloatsReadable env me ∧ DescriptionsPresent env (bytesRead (fs.read path)) ∧
    ReportedValid env me fs fuel (opts .jph) 0 path ∧
    checkOneFile env me fs fuel (opts .jph) 1 path = .raised .attributeError := by
  refine ⟨env0, me0, fs0 jphNoColour, 200, [97], fun _ _ => ⟨⟨1, rfl⟩, ⟨1, rfl⟩⟩,
    fun _ ⟨_, _, _, _, h⟩ => (by rcases h with ⟨_, h⟩ | ⟨_, h⟩ <;> cases h), ?_, ?_⟩
  · obtain ⟨rep, h, hv, -⟩ := saysValid_ok (x := reportOf (opts .jph) 0 jphNoColour) (by decide +kernel)
    exact ⟨rep, h, hv⟩
  · exact raisesAttributeError_ok (by decide +kernel)

/-- C48 fails for JP2 files too: with XMP whose `rdf:RDF` element contains something other than a
`rdf:Description`, the analysis with MIX output ends with an exception. -/
theorem C48_false_rdf : ∃ (env : Env) (me : MixEnv) (fs : FS) (fuel : Nat) (path : PyStr),
    FloatsReadable env me ∧
    ReportedValid env me fs fuel (opts .jp2) 0 path ∧
    checkOneFile env me fs fuel (opts .jp2) 1 path = .raised .attributeError := by
  refine ⟨envRdf, me0, fs0 jp2Xml, 200, [97], fun _ _ => ⟨⟨1, rfl⟩, ⟨1, rfl⟩⟩, ?_, ?_⟩
  · obtain ⟨rep, h, hv, -⟩ := saysValid_ok
      (x := checkOneFile envRdf me0 (fs0 jp2Xml) 200 (opts .jp2) 0 [97]) (by decide +kernel)
    exact ⟨rep, h, hv⟩
  · exact raisesAttributeError_ok (by decide +kernel)

end Jpy
