import Verif.Spec.Packets
/-!
# Which files are valid

The definition of a valid file in one place, from the bytes of the file alone: from the file over its boxes and the
boxes in them down to the marker segments of the codestreams and their fields. It has three parameters: `wf` says
which byte strings are well-formed XML, `catC` which characters are control characters (Unicode category C), and
`fmt` is the format asked for. Nothing here refers to the validator.

The definition is that of a file reported as valid. The rules of the standard from which it departs are the subject of
the properties on single boxes and segments.
-/

namespace Jpy.Spec

/-- A marker segment of a header of a codestream with `csiz` components. Segments with other markers, and among those
TLM, PPM and PPT, are valid with all contents. -/
structure SegOk (catC : Char → Bool) (fmt : Format) (csiz : Nat) (m c : Bytes) : Prop where
  cod : m = COD → CodOk c
  coc : m = COC → CocOk csiz c
  qcd : m = QCD → QcdOk c
  qcc : m = QCC → QccOk csiz c
  rgn : m = RGN → RgnOk fmt csiz c
  poc : m = POC → PocOk csiz c
  crg : m = CRG → CrgOk csiz c
  com : m = COM → ComOk catC c
  cap : m = CAP → CapOk fmt c ∨ (c.length < 6 ∧ uint c 0 2 = some 56)
  prf : m = PRF → FieldIs c 0 2 (fun l => 4 ≤ l ∧ l ≤ 65534) ∧ FieldIs c 2 2 (1 ≤ ·)
  cpf : m = CPF → fmt.isHT = true → FieldIs c 0 2 (fun l => 4 ≤ l ∧ l ≤ 65534)
  /-- the lists of packet lengths do not break off within a length -/
  plm : m = PLM → ¬ OpenEnded c 4
  plt : m = PLT → ¬ OpenEnded c 3

/-- The segments of a header; those with markers that are not in `handled` are not looked at. -/
def SegsOk (catC : Char → Bool) (fmt : Format) (csiz : Nat) (handled : List Bytes) (ss : List FoundSeg) : Prop :=
  ∀ x ∈ ss, x.marker ∈ handled → SegOk catC fmt csiz x.marker x.contents

/-- A tile-part (A.4.2). -/
structure TilePartInfo.Valid (catC : Char → Bool) (fmt : Format) (csiz : Nat) (b : Bytes) (t : TilePartInfo) :
    Prop where
  at_ : t.At b
  index : t.index ≤ 65534
  length : t.length = 0 ∨ 14 ≤ t.length
  part : t.part ≤ 254
  /-- the header consists of valid segments and ends with SOD -/
  header : ∃ ss k, SegsTo b SOD (t.start + 12) ss (some k) ∧ SegsOk catC fmt csiz tilePartSegments ss ∧
    (∀ m ∈ [COD, COC, QCD, QCC, RGN], HasSeg ss m → t.part = 0) ∧
    OnePerComponent csiz ss COC ∧ OnePerComponent csiz ss QCC
  /-- another tile-part or the end follows -/
  next : t.length ≠ 0 → sub b (t.start + t.length) 2 = SOT ∨ sub b (t.start + t.length) 2 = EOC

/-- A codestream with these parts (A.2, A.3). -/
structure CodestreamParts.Valid (catC : Char → Bool) (fmt : Format) (b : Bytes) (p : CodestreamParts) : Prop where
  soc : sub b 0 2 = SOC
  sizAt : SegAt b 2 SIZ p.siz (some p.first)
  siz : SizOk fmt p.siz ∧ FieldIs p.siz 2 2 RsizDefined
  csiz : uint p.siz 36 2 = some p.csiz
  mainAt : SegsTo b SOT p.first p.main p.sot
  main : SegsOk catC fmt p.csiz mainSegments p.main
  cod : HasSeg p.main COD
  qcd : HasSeg p.main QCD
  /-- Rsiz bits 14-15 are 01: extended capabilities -/
  cap : FieldIs p.siz 2 2 (fun r => bit 14 r = 1 ∧ bit 15 r = 0) → HasSeg p.main CAP
  tiles : TileCount p.siz p.tiles
  visited : match p.sot with
    | some k => Visited b (min p.tiles 65535) k p.tps
    | none => p.tps = []
  tps : ∀ t ∈ p.tps, t.Valid catC fmt p.csiz b
  /-- as many different tile indices as there are tiles -/
  indices : ∃ l : List Nat, l.Nodup ∧ (∀ i, i ∈ l ↔ ∃ t ∈ p.tps, t.index = i) ∧
    (l.length : Int) = min p.tiles 65535
  /-- if a number of tile-parts is declared then for every tile, and it is the number found -/
  declared : (∃ t ∈ p.tps, t.parts ≠ 0) →
    (∀ i : Nat, (i : Int) < min p.tiles 65535 → declared p.tps i = some (partCount p.tps i)) ∧
    ∀ t ∈ p.tps, t.parts ≠ 0 → (t.index : Int) < min p.tiles 65535
  coc : OnePerComponent p.csiz p.main COC
  qcc : OnePerComponent p.csiz p.main QCC
  eoc : 2 ≤ b.length ∧ sub b (b.length - 2) 2 = EOC

/-- A valid codestream. -/
def CodestreamValid (catC : Char → Bool) (fmt : Format) (b : Bytes) : Prop :=
  ∃ p : CodestreamParts, p.Valid catC fmt b

/-- A box that is neither a superbox nor a codestream. Boxes of other types, and jp2i boxes, are valid with all
contents. -/
structure LeafOk (wf : Bytes → Prop) (fmt : Format) (t p : Bytes) : Prop where
  signature : t = ascii "jP  " → SignatureOk p
  fileType : t = ascii "ftyp" → FtypOk fmt p
  imageHeader : t = ascii "ihdr" → IhdrOthersOk p
  bitsPerComponent : t = ascii "bpcc" → BpccOk p
  colour : t = ascii "colr" → ColrOk 4096 fmt p
  palette : t = ascii "pclr" → PaletteOk p
  componentMapping : t = ascii "cmap" → CmapOk p
  channels : t = ascii "cdef" → CdefOk fmt p
  resolution : t = ascii "resc" ∨ t = ascii "resd" → ResOk p
  xml : t = ascii "xml " → wf p
  uuid : t = ascii "uuid" → 16 < p.length ∧ (p.take 16 = xmpUuid → wf (p.drop 16))
  uuidList : t = ascii "ulst" → FieldIs p 0 2 (fun n => p.length = 2 + 16 * n)
  url : t = ascii "url " → UrlOk p
  /-- if the data end within the type of the box, it is not the code of a marker whose segment needs contents -/
  cutOff : t ∉ [SIZ, CAP, PRF, COD, COC, QCD, QCC, RGN, POC, CRG, COM, SOT] ∧ (t = CPF → fmt.isHT = false)

/-- A valid box, with the boxes in it. -/
inductive BoxValid (wf : Bytes → Prop) (catC : Char → Bool) (fmt : Format) : Bytes → Bytes → Prop
  | leaf {t p} : t ∉ superboxTypes → t ≠ ascii "jp2c" → LeafOk wf fmt t p → BoxValid wf catC fmt t p
  | header {p ih rest} : Boxes p (ih :: rest) → (∀ x ∈ ih :: rest, BoxValid wf catC fmt x.type x.payload) →
      HeaderOk fmt ih rest → BoxValid wf catC fmt (ascii "jp2h") p
  | resolution {p bs} : Boxes p bs → (∀ x ∈ bs, BoxValid wf catC fmt x.type x.payload) → ResolutionOk bs →
      BoxValid wf catC fmt (ascii "res ") p
  | uuidInfo {p bs} : Boxes p bs → (∀ x ∈ bs, BoxValid wf catC fmt x.type x.payload) → UuidInfoOk bs →
      BoxValid wf catC fmt (ascii "uinf") p
  | codestream {p} : CodestreamValid catC fmt p → BoxValid wf catC fmt (ascii "jp2c") p

/-- A valid file. -/
def ValidFile (wf : Bytes → Prop) (catC : Char → Bool) (fmt : Format) (b : Bytes) : Prop :=
  match fmt with
  | .jp2 | .jph => ∃ l : Layout, l.Ok (BoxValid wf catC fmt) b
  | .j2c | .jhc => CodestreamValid catC fmt b
  | .other _ => False

end Jpy.Spec
