import Verif.Spec.Packets
/-!
# Specification of conforming codestreams and files by construction

How the bytes of a codestream and of a JP2 or JPH file are put together from conforming parts
(ISO/IEC 15444-1 Annex A and I). Independent of how they are validated.
-/

namespace Jpy.Spec

/-- The `w`-byte big-endian form of a number below `256 ^ w`. -/
def beBytes : Nat → Nat → Bytes
  | 0, _ => []
  | w + 1, v => UInt8.ofNat (v / 256 ^ w % 256) :: beBytes w v

/-! ## Codestreams -/

/-- A conforming marker segment: marker and contents (starting with the length field). -/
inductive ConformingSeg (catC : Char → Bool) (fmt : Format) (csiz : Nat) : Bytes → Bytes → Prop
  | cod {c} : CodOk c → ConformingSeg catC fmt csiz COD c
  | coc {c} : CocOk csiz c → ConformingSeg catC fmt csiz COC c
  | qcd {c} : QcdOk c → ConformingSeg catC fmt csiz QCD c
  | qcc {c} : QccOk csiz c → ConformingSeg catC fmt csiz QCC c
  | rgn {c} : RgnOk fmt csiz c → ConformingSeg catC fmt csiz RGN c
  | poc {c} : PocOk csiz c → ConformingSeg catC fmt csiz POC c
  | crg {c} : CrgOk csiz c → ConformingSeg catC fmt csiz CRG c
  | com {c} : ComOk catC c → ConformingSeg catC fmt csiz COM c
  | cap {c} : CapOk fmt c → ConformingSeg catC fmt csiz CAP c
  | prf {c} : FieldIs c 0 2 (fun l => 4 ≤ l ∧ l ≤ 65534) → FieldIs c 2 2 (1 ≤ ·) → ConformingSeg catC fmt csiz PRF c
  | tlm {c} : ConformingSeg catC fmt csiz TLM c
  | ppm {c} : ConformingSeg catC fmt csiz PPM c
  | ppt {c} : ConformingSeg catC fmt csiz PPT c
  | plm {len : Bytes} {z n : UInt8} {es : List Bytes} : len.length = 2 → be len = 4 + es.flatten.length →
      (∀ e ∈ es, PacketLength e) → ConformingSeg catC fmt csiz PLM (len ++ [z, n] ++ es.flatten)
  | plt {len : Bytes} {z : UInt8} {es : List Bytes} : len.length = 2 → be len = 3 + es.flatten.length →
      (∀ e ∈ es, PacketLength e) → ConformingSeg catC fmt csiz PLT (len ++ [z] ++ es.flatten)

/-- Marker segments one after the other. -/
def segBytes (l : List (Bytes × Bytes)) : Bytes := l.flatMap fun s => s.1 ++ s.2

/-- No two segments with marker `m` (COC or QCC) are for the same component. -/
def EachComponentOnce (csiz : Nat) (l : List (Bytes × Bytes)) (m : Bytes) : Prop :=
  ((l.filter fun s => s.1 == m).map fun s => uint s.2 2 (compWidth csiz)).Nodup

/-- Conforming segments of a header in which the markers `allowed` may occur; the length field of each
is its length. -/
structure ConformingHeader (catC : Char → Bool) (fmt : Format) (csiz : Nat) (allowed : List Bytes)
    (l : List (Bytes × Bytes)) : Prop where
  segs : ∀ s ∈ l, s.1 ∈ allowed ∧ ConformingSeg catC fmt csiz s.1 s.2 ∧ FieldIs s.2 0 2 (· = s.2.length)
  coc : EachComponentOnce csiz l COC
  qcc : EachComponentOnce csiz l QCC

/-- A tile-part to be written: tile index, number within the tile, declared number of tile-parts (zero
if not declared), header segments, packet data. -/
structure GenTilePart where
  index : Nat
  part : Nat
  parts : Nat
  segs : List (Bytes × Bytes)
  data : Bytes

/-- Length of a tile-part. -/
def GenTilePart.length (t : GenTilePart) : Nat := 14 + (segBytes t.segs).length + t.data.length

/-- Bytes of a tile-part: SOT segment, header segments, SOD, packet data. -/
def GenTilePart.bytes (t : GenTilePart) : Bytes :=
  SOT ++ beBytes 2 10 ++ beBytes 2 t.index ++ beBytes 4 t.length ++ beBytes 1 t.part ++ beBytes 1 t.parts ++
    segBytes t.segs ++ SOD ++ t.data

/-- A conforming tile-part of an image with `n` tiles. -/
structure GenTilePart.Conforms (catC : Char → Bool) (fmt : Format) (csiz n : Nat) (t : GenTilePart) : Prop where
  index : t.index < n
  part : t.part ≤ 254
  parts : t.parts ≤ 255
  length : t.length < 2 ^ 32
  header : ConformingHeader catC fmt csiz tilePartSegments t.segs
  /-- coding and quantization parameters only in the first tile-part of a tile -/
  first : ∀ s ∈ t.segs, s.1 ∈ [COD, COC, QCD, QCC, RGN] → t.part = 0

/-- A codestream to be written: SIZ segment, other segments of the main header, tile-parts. -/
structure GenCodestream where
  siz : Bytes
  main : List (Bytes × Bytes)
  tps : List GenTilePart

/-- Bytes of a codestream. -/
def GenCodestream.bytes (g : GenCodestream) : Bytes :=
  SOC ++ SIZ ++ g.siz ++ segBytes g.main ++ g.tps.flatMap GenTilePart.bytes ++ EOC

/-- A conforming codestream with `csiz` components and `n` tiles. -/
structure GenCodestream.Conforms (catC : Char → Bool) (fmt : Format) (csiz n : Nat) (g : GenCodestream) : Prop where
  siz : SizOk fmt g.siz ∧ FieldIs g.siz 2 2 RsizDefined
  sizLength : FieldIs g.siz 0 2 (· = g.siz.length)
  comps : uint g.siz 36 2 = some csiz
  tiles : TileCount g.siz n ∧ 1 ≤ n ∧ n ≤ 65535
  main : ConformingHeader catC fmt csiz mainSegments g.main
  cod : ∃ s ∈ g.main, s.1 = COD
  qcd : ∃ s ∈ g.main, s.1 = QCD
  cap : FieldIs g.siz 2 2 (fun r => bit 14 r = 1 ∧ bit 15 r = 0) → ∃ s ∈ g.main, s.1 = CAP
  tps : ∀ t ∈ g.tps, t.Conforms catC fmt csiz n
  /-- every tile has a tile-part -/
  every : ∀ i < n, ∃ t ∈ g.tps, t.index = i
  /-- the number of tile-parts of a tile is never declared, or always -/
  declared : (∀ t ∈ g.tps, t.parts = 0) ∨
    ∀ t ∈ g.tps, t.parts = (g.tps.filter fun u => u.index == t.index).length

/-! ## Files -/

/-- A conforming box: type and payload. -/
inductive ConformingBox (fmt : Format) (parses : Bytes → Prop) : Bytes → Bytes → Prop
  | ihdr {c} : IhdrOk c → ConformingBox fmt parses (ascii "ihdr") c
  | bpcc {c} : BpccOk c → ConformingBox fmt parses (ascii "bpcc") c
  | colr {c} : (∀ k, ColrOk k fmt c) → ConformingBox fmt parses (ascii "colr") c
  | pclr {c} : PaletteOk c → ConformingBox fmt parses (ascii "pclr") c
  | cmap {c} : CmapOk c → ConformingBox fmt parses (ascii "cmap") c
  | cdef {c} : CdefOk fmt c → ConformingBox fmt parses (ascii "cdef") c
  | resc {c} : ResOk c → ConformingBox fmt parses (ascii "resc") c
  | resd {c} : ResOk c → ConformingBox fmt parses (ascii "resd") c
  | res {l c} : EncodesBoxes l c → (∀ x ∈ l, (x.1 = ascii "resc" ∨ x.1 = ascii "resd") ∧ ResOk x.2) →
      l ≠ [] → (l.map (·.1)).Nodup → ConformingBox fmt parses (ascii "res ") c
  | jp2i {c} : ConformingBox fmt parses (ascii "jp2i") c
  | xml {c} : parses c → ConformingBox fmt parses (ascii "xml ") c
  | uuid {c} : 16 < c.length → (c.take 16 = xmpUuid → parses (c.drop 16)) → ConformingBox fmt parses (ascii "uuid") c
  | uinf {ulst url c} : EncodesBoxes [(ascii "ulst", ulst), (ascii "url ", url)] c →
      FieldIs ulst 0 2 (fun n => ulst.length = 2 + 16 * n) → UrlOk url →
      ConformingBox fmt parses (ascii "uinf") c
  | unknown {t c} : t.length = 4 → t ∉ knownBoxTypes → ConformingBox fmt parses t c

/-- A file to be written: file type box, other boxes, JP2 header (image header and the boxes after it),
other boxes, codestream, other boxes. -/
structure GenFile where
  ftyp : Bytes
  pre : List (Bytes × Bytes)
  ihdr : Bytes
  header : List (Bytes × Bytes)
  mid : List (Bytes × Bytes)
  cs : GenCodestream
  post : List (Bytes × Bytes)

/-- There is a box of this type. -/
def HasType (l : List (Bytes × Bytes)) (t : String) : Prop := ∃ x ∈ l, x.1 = ascii t

/-- `b` is an encoding of the file, with any permitted form of the box lengths. -/
def GenFile.Encodes (g : GenFile) (b : Bytes) : Prop :=
  ∃ hd, EncodesBoxes ((ascii "ihdr", g.ihdr) :: g.header) hd ∧
    EncodesBoxes ([(ascii "jP  ", [0x0d, 0x0a, 0x87, 0x0a]), (ascii "ftyp", g.ftyp)] ++ g.pre ++
      [(ascii "jp2h", hd)] ++ g.mid ++ [(ascii "jp2c", g.cs.bytes)] ++ g.post) b

/-- Types of the boxes of the JP2 header besides the image header that occur once at most. -/
def onceTypes : List String := ["bpcc", "pclr", "cmap", "cdef", "res "]

/-- A conforming JP2 or JPH file. -/
structure GenFile.Conforms (catC : Char → Bool) (fmt : Format) (parses : Bytes → Prop) (csiz n : Nat)
    (g : GenFile) : Prop where
  ftyp : FtypOk fmt g.ftyp
  ihdr : IhdrOk g.ihdr
  /-- the boxes outside the JP2 header are conforming and the mandatory ones occur once -/
  others : ∀ x ∈ g.pre ++ g.mid ++ g.post, ConformingBox fmt parses x.1 x.2
  header : ∀ x ∈ g.header, ConformingBox fmt parses x.1 x.2
  oneIhdr : ¬ HasType g.header "ihdr"
  once : ∀ t ∈ onceTypes, (g.header.filter fun x => x.1 == ascii t).length ≤ 1
  /-- palette and component mapping go together -/
  palette : HasType g.header "pclr" ↔ HasType g.header "cmap"
  /-- there is a colour specification box and they are all next to each other -/
  colour : ∃ a m z, g.header = a ++ m ++ z ∧ ¬ HasType a "colr" ∧ m ≠ [] ∧ (∀ x ∈ m, x.1 = ascii "colr") ∧
    ¬ HasType z "colr"
  /-- intellectual property is declared only if there is a box for it -/
  ipr : FieldIs g.ihdr 13 1 (· = 1) → HasType (g.pre ++ g.mid ++ g.post) "jp2i"
  cs : g.cs.Conforms catC fmt csiz n
  /-- image header and SIZ describe the same image -/
  height : ∃ h y y0, uint g.ihdr 0 4 = some h ∧ uint g.cs.siz 8 4 = some y ∧ uint g.cs.siz 16 4 = some y0 ∧ h + y0 = y
  width : ∃ w x x0, uint g.ihdr 4 4 = some w ∧ uint g.cs.siz 4 4 = some x ∧ uint g.cs.siz 12 4 = some x0 ∧ w + x0 = x
  comps : uint g.ihdr 8 2 = some csiz
  depths : FieldIs g.ihdr 10 1 (fun v => if v = 255
    then ∃ x ∈ g.header, x.1 = ascii "bpcc" ∧ x.2.length = csiz ∧
      ∀ i < csiz, uint g.cs.siz (38 + 3 * i) 1 = uint x.2 i 1
    else ∀ i < csiz, uint g.cs.siz (38 + 3 * i) 1 = some v)

/-! ## A family of images -/

/-- An image: size, tile size, number and depth of the components, packet data of each tile. -/
structure Image where
  width : Nat
  height : Nat
  tileWidth : Nat
  tileHeight : Nat
  comps : Nat
  depth : Nat
  data : Nat → Bytes

/-- Number of tiles. -/
def Image.tiles (i : Image) : Nat :=
  (i.width + i.tileWidth - 1) / i.tileWidth * ((i.height + i.tileHeight - 1) / i.tileHeight)

/-- The SIZ segment. -/
def Image.siz (i : Image) : Bytes :=
  beBytes 2 (38 + 3 * i.comps) ++ beBytes 2 0 ++ beBytes 4 i.width ++ beBytes 4 i.height ++ beBytes 4 0 ++
  beBytes 4 0 ++ beBytes 4 i.tileWidth ++ beBytes 4 i.tileHeight ++ beBytes 4 0 ++ beBytes 4 0 ++
  beBytes 2 i.comps ++ (List.replicate i.comps (beBytes 1 (i.depth - 1) ++ [1, 1])).flatten

/-- The codestream: default coding style, no quantization, one tile-part for each tile. -/
def Image.codestream (i : Image) : GenCodestream :=
  { siz := i.siz
    main := [(COD, [0, 12, 0, 0, 0, 1, 0, 5, 4, 4, 0, 1]), (QCD, [0, 4, 0x40, 0x48])]
    tps := (List.range i.tiles).map fun k => ⟨k, 0, 1, [], i.data k⟩ }

/-- The JP2 file: grey scale or sRGB. -/
def Image.file (i : Image) : GenFile :=
  { ftyp := ascii "jp2 " ++ [0, 0, 0, 0] ++ ascii "jp2 "
    pre := []
    ihdr := beBytes 4 i.height ++ beBytes 4 i.width ++ beBytes 2 i.comps ++ beBytes 1 (i.depth - 1) ++ [7, 0, 0]
    header := [(ascii "colr", [1, 0, 0, 0, 0, 0, if i.comps < 3 then 17 else 16])]
    mid := []
    cs := i.codestream
    post := [] }

/-- Images that can be written this way. -/
structure Image.Ok (i : Image) : Prop where
  width : 1 ≤ i.width ∧ i.width < 2 ^ 32
  height : 1 ≤ i.height ∧ i.height < 2 ^ 32
  tileWidth : 1 ≤ i.tileWidth ∧ i.tileWidth < 2 ^ 32
  tileHeight : 1 ≤ i.tileHeight ∧ i.tileHeight < 2 ^ 32
  comps : 1 ≤ i.comps ∧ i.comps ≤ 16384
  depth : 1 ≤ i.depth ∧ i.depth ≤ 38
  tiles : i.tiles ≤ 65535
  data : ∀ k < i.tiles, (i.data k).length < 2 ^ 32 - 14

end Jpy.Spec
