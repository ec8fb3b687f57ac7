import Verif.Model.Recursion
import Verif.Spec.Sample
import Verif.Spec.Walk
/-!
# Nesting

How deeply boxes and metadata are nested in a file, and files that are nested as deeply as one likes.
-/

namespace Jpy.Spec

/-- The boxes of a file are nested in at most `n` levels. The boxes that are not inside others are the first
level. -/
def NestedIn (n : Nat) (b : Bytes) : Prop := ∀ d t p, HasBox b d t p → d ≤ n

/-- An XML document has at most `m` levels of elements. -/
def DocIn (env : Env) (m : Nat) (b : Bytes) : Prop := ∀ e, env.parseXml b = some e → e.depth ≤ m

/-- All XML documents in XML and UUID boxes of a file have at most `m` levels of elements; also those before
trailing zero bytes, for `--nullxml`. -/
def DocsIn (env : Env) (m : Nat) (b : Bytes) : Prop := ∀ d t p, HasBox b d t p →
  (t = ascii "xml " → ∀ s n, p = s ++ List.replicate n 0 → DocIn env m s) ∧
  (t = ascii "uuid" → ∀ s n, p.drop 16 = s ++ List.replicate n 0 → DocIn env m s)

/-- The nesting of a file that is analysed as the given format: at most `n` levels of boxes, and of `m`
levels of elements in a document. A bare codestream has no boxes. -/
def FileNested (env : Env) (fmt : Format) (n m : Nat) (b : Bytes) : Prop :=
  fmt = .jp2 ∨ fmt = .jph → NestedIn n b ∧ DocsIn env m b

/-- A last box, with length field zero: it extends to the end of what it is in. -/
def lastBox (t : String) (p : Bytes) : Bytes := [0, 0, 0, 0] ++ ascii t ++ p

/-- The payload of a UUID info box: a list with no UUIDs, an empty URL, and `k` further UUID info boxes inside
each other. -/
def nestedInfo : Nat → Bytes
  | 0 => Sample.box "ulst" [0, 0] ++ Sample.box "url " [0, 0, 0, 0, 0]
  | k + 1 => Sample.box "ulst" [0, 0] ++ Sample.box "url " [0, 0, 0, 0, 0] ++ lastBox "uinf" (nestedInfo k)

/-- The XML document `<a><a>…</a></a>` with `k + 1` elements inside each other. -/
def nestedDoc : Nat → Bytes
  | 0 => ascii "<a>" ++ ascii "</a>"
  | k + 1 => ascii "<a>" ++ nestedDoc k ++ ascii "</a>"

/-- Its elements. -/
def nestedElem : Nat → Elem
  | 0 => .node "a" []
  | k + 1 => .node "a" [nestedElem k]

/-- The XML parser reads these documents. -/
def ReadsNested (env : Env) : Prop := ∀ k, env.parseXml (nestedDoc k) = some (nestedElem k)

end Jpy.Spec
