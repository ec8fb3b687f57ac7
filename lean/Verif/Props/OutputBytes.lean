import Verif.Props.Output
import Verif.Props.Values
import Verif.Lemmas.Utf8
/-! # C51: the bytes of the output -/

namespace Jpy
open Spec hiding reported
open Spec.Xml

theorem utf8_char (c : Char) : (utf8EncodeNat c.toNat).map UInt8.toNat = utf8Of c := by
  have hv := c.valid
  have e : c.toNat = c.val.toNat := rfl
  simp only [UInt32.isValidChar, Nat.isValidChar] at hv
  have h := utf8EncodeNat_char c.toNat (by simp [isSurrogate]; omega) (by omega)
  rwa [Char.ofNat_toNat] at h

/-- C51: the bytes written are the UTF-8 encoding of the characters of the document, and of no other text. -/
theorem C51_utf8 (np : Bool) (out : List Chunk) (cs : List Char) :
    IsUtf8 (outputBytes np out) cs ↔ cs = outputText np out := by
  have key : IsUtf8 (outputBytes np out) (outputText np out) := by
    unfold IsUtf8 outputBytes outputText
    rw [List.flatMap_assoc, List.map_flatMap]
    congr 1
    funext c
    rw [List.map_flatMap]
    congr 1
    funext ch
    exact utf8_char ch
  constructor
  · intro h
    have h1 := (utf8Decode_iff _ _).2 h
    have h2 := (utf8Decode_iff _ _).2 key
    rw [h1] at h2
    exact Option.some.inj h2
  · rintro rfl; exact key

example : outputBytes true [.elem (.mk "fileName" [] (.str "é€😀") [])] =
    ascii "<fileName>" ++ [0xC3, 0xA9, 0xE2, 0x82, 0xAC, 0xF0, 0x9F, 0x98, 0x80] ++ ascii "</fileName>" := by
  decide +kernel

/-- Reading bytes as a UTF-8 document gives what reading the characters gives. -/
theorem readAs_iff (np : Bool) (out : List Chunk) (x : Xml) :
    ReadAs (outputBytes np out) x ↔ parse (outputText np out) = some x :=
  ⟨fun ⟨_, h1, h2⟩ => by rw [← (C51_utf8 np out _).1 h1]; exact h2, fun h => ⟨_, (C51_utf8 np out _).2 rfl, h⟩⟩

variable {env : Env} {me : MixEnv} {fs : FS} {fuel : Nat} {tool : String} {cfg : Config} {recurse : Bool}
  {paths existing : List PyStr}

/-- C51: the bytes that a run that ends normally writes can be read as a UTF-8 document in exactly one way, and the
verdicts in it are those of the reports, one for each selected file and in their order. With `--nopretty` the file
names must have characters of XML only. -/
theorem C51_bytes (hx : ParsesXml env) (hp : cfg.nopretty = false ∨ (LegalEnv env ∧ StripsOnly me ∧ LegalStr tool ∧
      LegalStr cfg.format.name ∧ ∀ p ∈ existing ++ (findFiles fs recurse paths).1, LegalFile fs p))
    (h : (checkFiles env me fs fuel tool cfg recurse paths existing).exit = .done) :
    ∃ reps, ∃ vs : List String,
      inTurn (checkOneFile env me fs fuel cfg.options cfg.mix) (existing ++ (findFiles fs recurse paths).1) = .ok reps ∧
      reps.map verdict = vs.map (fun v => some (.str v)) ∧
      (∃ x, ReadAs (outputBytes cfg.nopretty (checkFiles env me fs fuel tool cfg recurse paths existing).out) x) ∧
      ∀ x, ReadAs (outputBytes cfg.nopretty (checkFiles env me fs fuel tool cfg recurse paths existing).out) x →
        verdicts x = vs.map fun v => [v.toList] := by
  have key : ∃ reps x, ∃ vs : List String,
      inTurn (checkOneFile env me fs fuel cfg.options cfg.mix) (existing ++ (findFiles fs recurse paths).1) = .ok reps ∧
      parse (outputText cfg.nopretty (checkFiles env me fs fuel tool cfg recurse paths existing).out) = some x ∧
      reps.map verdict = vs.map (fun v => some (.str v)) ∧ verdicts x = vs.map fun v => [v.toList] := by
    cases hn : cfg.nopretty with
    | false => rw [← hn]; exact C51_verdicts_pretty hx hn h
    | true =>
      rcases hp with hp | ⟨he, hm, ht, hfmt, hf⟩
      · rw [hn] at hp; cases hp
      · rw [← hn]; exact C51_verdicts_compact hx he hm ht hfmt hf hn h
  obtain ⟨reps, x, vs, h1, h2, h3, h4⟩ := key
  refine ⟨reps, vs, h1, h3, ⟨x, (readAs_iff _ _ _).2 h2⟩, fun y hy => ?_⟩
  rw [readAs_iff, h2] at hy
  cases hy
  exact h4

/-- The hypotheses hold of a run on a file whose name has markup and which has an XML box, with either layout. -/
example : (runOn markup Sample.jp2Xml (cfgOf .jp2 2 false)).exit = .done ∧
    (runOn markup Sample.jp2Xml (cfgOf .jp2 2 true)).exit = .done := by decide +kernel

end Jpy
