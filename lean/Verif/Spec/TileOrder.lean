import Verif.Spec.MainHeader
/-!
# Specification: codestreams made of complete tile-parts

A codestream is written down as in `Spec/Generate.lean`: SIZ segment, segments of the main header, and
tile-parts of which each declares its length. Nothing else is assumed; the segments may be wrong.
-/

namespace Jpy.Spec

/-- The fields of the tile-part fit their places, and its header consists of marker segments, each
starting with its length. -/
structure GenTilePart.Framed (t : GenTilePart) : Prop where
  index : t.index < 65536
  part : t.part < 256
  parts : t.parts < 256
  length : t.length < 2 ^ 32
  segs : ∀ s ∈ t.segs, s.1.length = 2 ∧ s.1 ∉ delimiters ∧ FieldIs s.2 0 2 (· = s.2.length)

/-- A codestream with `csiz` components and `n` tiles, made of marker segments and of tile-parts of these tiles. -/
structure GenCodestream.Framed (csiz : Nat) (n : Int) (g : GenCodestream) : Prop where
  sizLength : FieldIs g.siz 0 2 (· = g.siz.length)
  comps : uint g.siz 36 2 = some csiz
  tiles : TileCount g.siz n
  main : ∀ s ∈ g.main, HeaderSeg s
  some : g.tps ≠ []
  tps : ∀ t ∈ g.tps, t.Framed
  index : ∀ t ∈ g.tps, (t.index : Int) < min n 65535

/-- What makes a tile-part valid: it has a number other than 255; its segments are valid; coding parameters
only in the first tile-part of a tile, and for each component once. -/
structure GenTilePart.Rules (env : Env) (o : Options) (csiz : Nat) (t : GenTilePart) : Prop where
  part : t.part ≤ 254
  segs : ∀ s ∈ t.segs, s.1 ∈ tilePartSegments → SegPasses env o (some csiz) s.1 s.2
  first : ∀ s ∈ t.segs, s.1 ∈ [COD, COC, QCD, QCC, RGN] → t.part = 0
  coc : EachComponentOnce csiz t.segs COC
  qcc : EachComponentOnce csiz t.segs QCC

/-- The tile-parts of tile `i`, in the order in which they are written. -/
def ofTile (i : Nat) (tps : List GenTilePart) : List GenTilePart := tps.filter fun t => t.index == i

/-- The number of tile-parts that the last tile-part with a declaration declares. -/
def lastDeclared (tps : List GenTilePart) : Option Nat := ((tps.filter fun t => t.parts != 0).getLast?).map (·.parts)

/-- What makes a codestream valid. -/
structure GenCodestream.Rules (env : Env) (o : Options) (csiz : Nat) (n : Int) (g : GenCodestream) : Prop where
  siz : SegPasses env o none SIZ g.siz
  main : ∀ s ∈ g.main, s.1 ∈ mainSegments → SegPasses env o (some csiz) s.1 s.2
  cod : ∃ s ∈ g.main, s.1 = COD
  qcd : ∃ s ∈ g.main, s.1 = QCD
  cap : FieldIs g.siz 2 2 (fun r => bit 14 r = 1 ∧ bit 15 r = 0) → ∃ s ∈ g.main, s.1 = CAP
  coc : EachComponentOnce csiz g.main COC
  qcc : EachComponentOnce csiz g.main QCC
  tps : ∀ t ∈ g.tps, t.Rules env o csiz
  /-- every tile has a tile-part -/
  every : ∀ i : Nat, (i : Int) < min n 65535 → ofTile i g.tps ≠ []
  /-- no tile-part declares a number of tile-parts, or for each tile the last declaration is right -/
  declared : (∀ t ∈ g.tps, t.parts = 0) ∨
    ∀ i : Nat, (i : Int) < min n 65535 → lastDeclared (ofTile i g.tps) = some (ofTile i g.tps).length

end Jpy.Spec
