import Verif.Spec.Codestream
/-!
# Specification of codestreams in which a cut is noticed

A codestream whose tile-parts say where they end, with nothing after its EOC marker (ISO/IEC 15444-1 A.4).
-/

namespace Jpy.Spec

/-- A codestream with `n` tiles and tile-parts `ts` from the first SOT marker, each with the index of a tile, and
nothing after the EOC marker that follows the tile-parts. A last tile-part of undeclared length is allowed if
there is no EOC code within its packet data (packet data have no codes above FF8F, A.1.3 and B.10.1). -/
structure Framed (b siz : Bytes) (n : Int) (sot : Nat) (ts : List TilePartInfo) : Prop where
  header : ∃ csiz main, MainHeader b siz csiz main (some sot)
  tiles : TileCount siz n
  chain : Chain b sot ts
  index : ∀ t ∈ ts, (t.index : Int) < n
  /-- the EOC marker after a tile-part ends the codestream -/
  last : ∀ t ∈ ts, t.length ≠ 0 → sub b (t.start + t.length) 2 = EOC → t.start + t.length + 2 = b.length
  /-- a tile-part without declared length: no EOC code in the data after its header, except at the end -/
  open_ : ∀ t ∈ ts, t.length = 0 → ∀ ss sod, SegsTo b SOD (t.start + 12) ss (some sod) →
    ∀ j, sod + 2 ≤ j → j + 2 < b.length → sub b j 2 ≠ EOC

end Jpy.Spec
