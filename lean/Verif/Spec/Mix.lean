import Verif.Spec.File
import Verif.Spec.Walk
import Verif.Model.Mix
/-!
# When the MIX description of a valid file can be produced

Conditions on the bytes of a file and on the parsed XML it carries.
-/

namespace Jpy.Spec

/-- Some colour specification box of the JP2 header gives an enumerated colour space (method 1) or an ICC
profile (methods 2 and 3). -/
def NamesColourSpace (b : Bytes) : Prop :=
  ∃ bs hd hs x, Boxes b bs ∧ hd ∈ bs ∧ hd.type = ascii "jp2h" ∧ Boxes hd.payload hs ∧ x ∈ hs ∧
    x.type = ascii "colr" ∧ FieldIs x.payload 0 1 (fun m => m = 1 ∨ m = 2 ∨ m = 3)

/-- A document embedded in a top-level XML box, or in a top-level UUID box after the 16 bytes of the
UUID. -/
def EmbeddedDocument (env : Env) (b : Bytes) (doc : Elem) : Prop :=
  ∃ bs x, Boxes b bs ∧ x ∈ bs ∧
    ((x.type = ascii "xml " ∧ env.parseXml x.payload = some doc) ∨
     (x.type = ascii "uuid" ∧ env.parseXml (x.payload.drop 16) = some doc))

/-- Every non-empty `rdf:RDF` element of an embedded XMP document has a `rdf:Description` child. -/
def DescriptionsPresent (env : Env) (b : Bytes) : Prop :=
  ∀ doc, EmbeddedDocument env b doc → doc.tag = "{adobe:ns:meta/}xmpmeta" →
    ∀ r ∈ doc.children, r.tag = "{http://www.w3.org/1999/02/22-rdf-syntax-ns#}RDF" → r.children ≠ [] →
      ∃ d ∈ r.children, d.tag = "{http://www.w3.org/1999/02/22-rdf-syntax-ns#}Description"

/-- Numbers written with `str` can be read back with `float`, scaled and rounded. -/
def FloatsReadable (env : Env) (me : MixEnv) : Prop :=
  ∀ f k, (∃ i, me.roundScaled (env.floatStr f) k = some i) ∧ ∃ i, me.truncScaled (env.floatStr f) k = some i

end Jpy.Spec
