import Verif.Spec.Structure
import Verif.Spec.Segments
/-!
# Specification of codestreams

What the validator requires of a codestream (ISO/IEC 15444-1 A.2-A.4): main header, tile-parts, framing.
-/

namespace Jpy.Spec

/-- Validation of this codestream ends without an exception and without a failed test. -/
def CodestreamPasses (env : Env) (o : Options) (b : Bytes) : Prop :=
  ∃ fuel n, codestream env o fuel b = .ok n ∧ NoFailure n.tests

/-- Validation of the tile-part at `off` ends without an exception and without a failed test. -/
def TilePartPasses (env : Env) (o : Options) (csiz : Nat) (b : Bytes) (off : Nat) : Prop :=
  ∃ fuel, Accepted (tilePart env o fuel (some csiz) off b)

/-- There is a segment with this marker. -/
def HasSeg (ss : List FoundSeg) (m : Bytes) : Prop := ∃ x ∈ ss, x.marker = m

/-- Every segment whose marker is in `handled` passes validation. -/
def SegsPass (env : Env) (o : Options) (csiz : Nat) (handled : List Bytes) (ss : List FoundSeg) : Prop :=
  ∀ x ∈ ss, x.marker ∈ handled → SegPasses env o (some csiz) x.marker x.contents

/-- No two segments with marker `m` (COC or QCC) are for the same component. -/
def OnePerComponent (csiz : Nat) (ss : List FoundSeg) (m : Bytes) : Prop :=
  ((ss.filter fun x => x.marker == m).map fun x => uint x.contents 2 (compWidth csiz)).Nodup

/-- The fields of a tile-part (SOT, table A.5): tile index, length, number of this tile-part and number
of tile-parts of the tile (zero: not declared). -/
structure TilePartInfo where
  start : Nat
  index : Nat
  length : Nat
  part : Nat
  parts : Nat

/-- There is a SOT segment with these fields. -/
structure TilePartInfo.At (b : Bytes) (t : TilePartInfo) : Prop where
  marker : sub b t.start 2 = SOT
  segLength : uint b (t.start + 2) 2 = some 10
  index : uint b (t.start + 4) 2 = some t.index
  length : uint b (t.start + 6) 4 = some t.length
  part : uint b (t.start + 10) 1 = some t.part
  parts : uint b (t.start + 11) 1 = some t.parts

/-- A conforming tile-part. -/
structure TilePartInfo.Ok (env : Env) (o : Options) (csiz : Nat) (b : Bytes) (t : TilePartInfo) : Prop where
  at_ : t.At b
  index : t.index ≤ 65534
  length : t.length = 0 ∨ 14 ≤ t.length
  part : t.part ≤ 254
  /-- the header consists of conforming segments and ends with SOD -/
  header : ∃ ss k, SegsTo b SOD (t.start + 12) ss (some k) ∧ SegsPass env o csiz tilePartSegments ss ∧
    (∀ m ∈ [COD, COC, QCD, QCC, RGN], HasSeg ss m → t.part = 0) ∧
    OnePerComponent csiz ss COC ∧ OnePerComponent csiz ss QCC
  /-- another tile-part or the end follows -/
  next : t.length ≠ 0 → sub b (t.start + t.length) 2 = SOT ∨ sub b (t.start + t.length) 2 = EOC

/-- The tile-parts visited from `off` when the image has `n` tiles: each one starts where the previous
one ends. The visit ends where there is no SOT marker, after a tile-part of length zero ("to the end of
the codestream") and after a tile-part whose index is not that of a tile. -/
inductive Visited (b : Bytes) (n : Int) : Nat → List TilePartInfo → Prop
  | done {off} : sub b off 2 ≠ SOT → Visited b n off []
  | last {t} : t.At b → n ≤ (t.index : Int) ∨ t.length = 0 → Visited b n t.start [t]
  | step {t ts} : t.At b → (t.index : Int) < n → t.length ≠ 0 → Visited b n (t.start + t.length) ts →
      Visited b n t.start (t :: ts)

/-- `n` is the number of tiles: the product of the numbers of tiles in both directions. -/
def TileCount (siz : Bytes) (n : Int) : Prop :=
  ∃ xsiz ysiz xt yt xto yto : Nat, ∃ q1 q2 : Int,
    uint siz 4 4 = some xsiz ∧ uint siz 8 4 = some ysiz ∧ uint siz 20 4 = some xt ∧
    uint siz 24 4 = some yt ∧ uint siz 28 4 = some xto ∧ uint siz 32 4 = some yto ∧
    IsCeil (xsiz - xto) xt q1 ∧ IsCeil (ysiz - yto) yt q2 ∧ n = q1 * q2

/-- The number of tile-parts of tile `i` declared last, if any tile-part of the tile declares it. -/
def declared (ts : List TilePartInfo) (i : Nat) : Option Nat :=
  ((ts.filter fun t => t.index == i && t.parts != 0).getLast?).map (·.parts)

/-- The number of tile-parts of tile `i`. -/
def partCount (ts : List TilePartInfo) (i : Nat) : Nat := (ts.filter fun t => t.index == i).length

/-- The parts of a codestream: SIZ segment, offset of what follows it, number of components, segments of
the main header, offset of the first SOT if there is one, number of tiles, tile-parts visited. -/
structure CodestreamParts where
  siz : Bytes
  first : Nat
  csiz : Nat
  main : List FoundSeg
  sot : Option Nat
  tiles : Int
  tps : List TilePartInfo

/-- What makes a codestream valid. `lim` is the number of tiles up to the maximum of 65535. -/
structure CodestreamParts.Ok (env : Env) (o : Options) (b : Bytes) (p : CodestreamParts) : Prop where
  soc : sub b 0 2 = SOC
  sizAt : SegAt b 2 SIZ p.siz (some p.first)
  sizPasses : SegPasses env o none SIZ p.siz
  csiz : uint p.siz 36 2 = some p.csiz
  mainAt : SegsTo b SOT p.first p.main p.sot
  mainPasses : SegsPass env o p.csiz mainSegments p.main
  cod : HasSeg p.main COD
  qcd : HasSeg p.main QCD
  /-- Rsiz bits 14-15 are 01: extended capabilities -/
  cap : FieldIs p.siz 2 2 (fun r => bit 14 r = 1 ∧ bit 15 r = 0) → HasSeg p.main CAP
  tiles : TileCount p.siz p.tiles
  visited : match p.sot with
    | some k => Visited b (min p.tiles 65535) k p.tps
    | none => p.tps = []
  tpsOk : ∀ t ∈ p.tps, t.Ok env o p.csiz b
  /-- as many different tile indices as there are tiles -/
  indices : ∃ l : List Nat, l.Nodup ∧ (∀ i, i ∈ l ↔ ∃ t ∈ p.tps, t.index = i) ∧
    (l.length : Int) = min p.tiles 65535
  /-- if a number of tile-parts is declared then for every tile, and it is the number found -/
  declared : (∃ t ∈ p.tps, t.parts ≠ 0) →
    (∀ i : Nat, (i : Int) < min p.tiles 65535 → declared p.tps i = some (partCount p.tps i)) ∧
    ∀ t ∈ p.tps, t.parts ≠ 0 → (t.index : Int) < min p.tiles 65535
  coc : OnePerComponent p.csiz p.main COC
  qcc : OnePerComponent p.csiz p.main QCC
  eoc : 2 ≤ b.length ∧ sub b (b.length - 2) 2 = EOC

/-! ## Tile-parts as they follow each other in the file -/

/-- The tile-parts from `off` in the codestream, each starting where the previous one ends, up to the
first place without SOT marker or a tile-part of length zero, which is the last one. -/
inductive Chain (b : Bytes) : Nat → List TilePartInfo → Prop
  | done {off} : sub b off 2 ≠ SOT → Chain b off []
  | last {t} : t.At b → t.length = 0 → Chain b t.start [t]
  | step {t ts} : t.At b → t.length ≠ 0 → Chain b (t.start + t.length) ts → Chain b t.start (t :: ts)

/-- The main header of a codestream: SIZ segment, its number of components, the segments after it and
the offset of the first SOT marker. -/
structure MainHeader (b siz : Bytes) (csiz : Nat) (main : List FoundSeg) (sot : Option Nat) : Prop where
  segs : ∃ first, SegAt b 2 SIZ siz (some first) ∧ SegsTo b SOT first main sot
  comps : uint siz 36 2 = some csiz

/-- Offsets of the tile-parts that the validator visits in an image with `n` tiles: the first SOT, and
the SOT after a visited tile-part whose index is that of a tile. -/
inductive Reached (b : Bytes) (n : Int) (first : Nat) : Nat → Prop
  | first : sub b first 2 = SOT → Reached b n first first
  | next {t : TilePartInfo} : Reached b n first t.start → t.At b → (t.index : Int) < n → t.length ≠ 0 →
      sub b (t.start + t.length) 2 = SOT → Reached b n first (t.start + t.length)

/-- The marker segments of a codestream that the validator visits, with the number of components for
those that depend on it. -/
inductive VisitedSeg (b : Bytes) : Option Int → Bytes → Bytes → Prop
  | siz {c n} : SegAt b 2 SIZ c n → VisitedSeg b none SIZ c
  | main {siz csiz main sot x} : MainHeader b siz csiz main sot → x ∈ main → x.marker ∈ mainSegments →
      VisitedSeg b (some csiz) x.marker x.contents
  | tilePart {siz csiz main sot n off ss e x} : MainHeader b siz csiz main (some sot) → TileCount siz n →
      Reached b (min n 65535) sot off → SegsTo b SOD (off + 12) ss e → x ∈ ss →
      x.marker ∈ tilePartSegments → VisitedSeg b (some csiz) x.marker x.contents

/-- The codestreams of a file: the file itself or the payloads of its codestream boxes. -/
def IsCodestream (fmt : Format) (b cs : Bytes) : Prop :=
  match fmt with
  | .j2c | .jhc => cs = b
  | _ => ∃ bs x, Boxes b bs ∧ x ∈ bs ∧ x.type = ascii "jp2c" ∧ cs = x.payload

end Jpy.Spec
