import Verif.Spec.Endless
import Verif.Spec.Mix
import Verif.Spec.MixCapture
import Verif.Spec.Report
/-!
# Files on which a report can be made

Conditions on what the operating system says about a file and on its bytes.
-/

namespace Jpy.Spec

/-- The XMP of a file, if there is any, has a `rdf:Description`: `inXml` are the documents in its XML boxes and
`inUuid` those in its UUID boxes for XMP. -/
def XmpDescribed (inXml inUuid : List Elem) : Prop :=
  ∀ rdf, XmpOf inXml inUuid rdf → ∃ d ∈ rdf, d.tag = rdfDescription

/-- The contents `b` of a file can be described with MIX: it is not a codestream, its header names a colour space, and
its XMP is described. -/
structure MixDescribable (env : Env) (o : Options) (b : Bytes) : Prop where
  boxes : o.format = .jp2 ∨ o.format = .jph
  colour : NamesColourSpace b
  xmp : ∀ bs inXml inUuid, Boxes b bs → StoredDocs env o xmlDoc bs inXml → StoredDocs env o xmpDoc bs inUuid →
    XmpDescribed inXml inUuid

/-- A report can be made on the file: the operating system tells its size and time; it cannot be read, or its contents
are not of the kind that is analysed for ever; and if it is reported valid, the description with MIX can be made if it
is asked for. -/
structure Reportable (env : Env) (me : MixEnv) (fs : FS) (o : Options) (mix : Nat) (path : PyStr) : Prop where
  size : ∃ n, fs.getsize path = .ok n
  time : ∃ t, fs.modified path = .ok t
  ends : (∃ e, fs.read path = .error e) ∨ ¬ NeverEnds o.format (bytesRead (fs.read path))
  mix : mix ≠ 0 → ∀ fuel, ReportedValid env me fs fuel o 0 path → MixDescribable env o (bytesRead (fs.read path))

end Jpy.Spec
