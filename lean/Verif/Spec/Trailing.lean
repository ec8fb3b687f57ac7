import Verif.Spec.Codestream
/-!
# Specification of codestreams that say where they end
-/

namespace Jpy.Spec

/-- A codestream whose main header and tile-part headers are complete, whose tile-parts all declare their
lengths, and which goes on for at least two bytes (the EOC marker) after the last one. -/
def SelfDelimiting (b : Bytes) : Prop :=
  ∃ siz csiz main sot ts, sub b 0 2 = SOC ∧ MainHeader b siz csiz main (some sot) ∧ Chain b sot ts ∧
    ∀ t ∈ ts, t.length ≠ 0 ∧ t.start + t.length + 2 ≤ b.length ∧
      ∃ ss k, SegsTo b SOD (t.start + 12) ss (some k) ∧ k + 2 ≤ b.length

/-- The last two bytes are those of an EOC marker. -/
def EndsWithEOC (b : Bytes) : Prop := 2 ≤ b.length ∧ sub b (b.length - 2) 2 = EOC

/-- Two lists of elements are the same but for compression ratios at the end. -/
def SameButRatio (es es' : List Elem) : Prop :=
  ∃ common r r', es = common ++ r ∧ es' = common ++ r' ∧ r.length ≤ 1 ∧ r'.length ≤ 1 ∧
    ∀ e ∈ r ++ r', e.tag = "compressionRatio"

end Jpy.Spec
