import Verif.Spec.Report
/-!
# Specification of the structure of files and codestreams

Which boxes a file consists of (ISO/IEC 15444-1 I.4) and which marker segments a codestream header
consists of (A.1, A.2), as relations on byte strings. Corrupt input is covered too: the rules say how
far a damaged structure can still be followed.
-/

namespace Jpy.Spec

/-! ## Boxes -/

/-- There is a box at `off` with the given type, payload and offset of the next box. The next offset is
`none` if the length of the box cannot be read, so that nothing can follow. A payload ends at the end
of the data if the declared length says it is longer. -/
inductive BoxAt (b : Bytes) (off : Nat) : Bytes → Bytes → Option Nat → Prop
  /-- 32-bit length -/
  | short {L} : uint b off 4 = some L → 2 ≤ L →
      BoxAt b off (sub b (off + 4) 4) (sub b (off + 8) (L - 8)) (some (off + L))
  /-- length field 1: 64-bit length after the type -/
  | long {X} : uint b off 4 = some 1 → uint b (off + 8) 8 = some X → 1 ≤ X →
      BoxAt b off (sub b (off + 4) 4) (sub b (off + 16) (X - 16)) (some (off + X))
  /-- length field 0: the box extends to the end -/
  | toEnd : uint b off 4 = some 0 →
      BoxAt b off (sub b (off + 4) 4) (b.drop (off + 8)) (some b.length)
  /-- 64-bit length 0 -/
  | longToEnd : uint b off 4 = some 1 → uint b (off + 8) 8 = some 0 →
      BoxAt b off (sub b (off + 4) 4) (b.drop (off + 16)) (some b.length)
  /-- fewer than four bytes left -/
  | noLength : uint b off 4 = none → BoxAt b off (sub b (off + 4) 4) [] none
  /-- 64-bit length announced but incomplete -/
  | noLongLength : uint b off 4 = some 1 → uint b (off + 8) 8 = none →
      BoxAt b off (sub b (off + 4) 4) [] none

/-- A box found in a sequence of boxes. -/
structure FoundBox where
  start : Nat
  type : Bytes
  payload : Bytes

/-- The sequence of boxes from `off`: each box starts where the previous one ends. -/
inductive BoxesFrom (b : Bytes) : Nat → List FoundBox → Prop
  | done {off} : b.length ≤ off → BoxesFrom b off []
  | step {off t p n bs} : off < b.length → BoxAt b off t p (some n) → BoxesFrom b n bs →
      BoxesFrom b off (⟨off, t, p⟩ :: bs)
  | last {off t p} : off < b.length → BoxAt b off t p none → BoxesFrom b off [⟨off, t, p⟩]

/-- The boxes of a file or of the payload of a superbox. -/
def Boxes (b : Bytes) (bs : List FoundBox) : Prop := BoxesFrom b 0 bs

/-- The superboxes the validator looks into: JP2 header, resolution and UUID info. -/
def superboxTypes : List Bytes := [ascii "jp2h", ascii "res ", ascii "uinf"]

/-- `b` contains, at nesting depth `d`, a box with the given type and payload. -/
inductive HasBox (b : Bytes) : Nat → Bytes → Bytes → Prop
  | top {bs x} : Boxes b bs → x ∈ bs → HasBox b 1 x.type x.payload
  | inside {d t p bs x} : HasBox b d t p → t ∈ superboxTypes → Boxes p bs → x ∈ bs →
      HasBox b (d + 1) x.type x.payload

/-- The name under which a box is reported. -/
def boxName (t : Bytes) : String :=
  match [("jP  ", "signatureBox"), ("ftyp", "fileTypeBox"), ("jp2h", "jp2HeaderBox"),
      ("ihdr", "imageHeaderBox"), ("bpcc", "bitsPerComponentBox"), ("colr", "colourSpecificationBox"),
      ("pclr", "paletteBox"), ("cmap", "componentMappingBox"), ("cdef", "channelDefinitionBox"),
      ("res ", "resolutionBox"), ("resc", "captureResolutionBox"), ("resd", "displayResolutionBox"),
      ("jp2c", "contiguousCodestreamBox"), ("jp2i", "intellectualPropertyBox"), ("xml ", "xmlBox"),
      ("uuid", "uuidBox"), ("uinf", "uuidInfoBox"), ("ulst", "uuidListBox"),
      ("url ", "urlBox")].find? fun x => ascii x.1 == t with
  | some x => x.2
  | none => "unknownBox"

/- The properties reported for a box mirror the structure of the box. -/
mutual
/-- An element for a box: named after the box type (unless the file ends inside the type), and for a
superbox its children are elements for the boxes in the payload. -/
inductive ShowsBox : Bytes → Bytes → Elem → Prop
  | leaf {t p e} : t ∉ superboxTypes → (t.length = 4 → e.tag = boxName t) → ShowsBox t p e
  | super {t p e bs} : t ∈ superboxTypes → e.tag = boxName t → Boxes p bs → ShowsBoxes bs e.children →
      ShowsBox t p e
/-- Elements for a list of boxes, one for each, in order. -/
inductive ShowsBoxes : List FoundBox → List Elem → Prop
  | nil : ShowsBoxes [] []
  | cons {x e bs es} : ShowsBox x.type x.payload e → ShowsBoxes bs es → ShowsBoxes (x :: bs) (e :: es)
end

/-- Apply an operation to every element in turn; stop at the first exception. -/
def inTurn {α β : Type} (f : α → Outcome β) : List α → Outcome (List β)
  | [] => .ok []
  | x :: xs => f x >>= fun y => inTurn f xs >>= fun ys => .ok (y :: ys)

/-- `enc` is an encoding of a box that may be followed by others: big-endian length, type, payload. -/
inductive EncodesBox (t p : Bytes) : Bytes → Prop
  | short {l} : l.length = 4 → be l = 8 + p.length → EncodesBox t p (l ++ t ++ p)
  | long {one x} : one.length = 4 → be one = 1 → x.length = 8 → be x = 16 + p.length →
      EncodesBox t p (one ++ t ++ x ++ p)

/-- `enc` is an encoding of a list of boxes: each with its length, the last one possibly with length
field zero. -/
inductive EncodesBoxes : List (Bytes × Bytes) → Bytes → Prop
  | nil : EncodesBoxes [] []
  | cons {t p e rest es} : t.length = 4 → EncodesBox t p e → EncodesBoxes rest es →
      EncodesBoxes ((t, p) :: rest) (e ++ es)
  | toEnd {t p} : t.length = 4 → EncodesBoxes [(t, p)] ([0, 0, 0, 0] ++ t ++ p)

/-! ## Codestreams -/

/-- Marker codes (table A.2). -/
def SOC : Bytes := [0xff, 0x4f]
def CAP : Bytes := [0xff, 0x50]
def SIZ : Bytes := [0xff, 0x51]
def COD : Bytes := [0xff, 0x52]
def COC : Bytes := [0xff, 0x53]
def TLM : Bytes := [0xff, 0x55]
def PRF : Bytes := [0xff, 0x56]
def PLM : Bytes := [0xff, 0x57]
def PLT : Bytes := [0xff, 0x58]
def CPF : Bytes := [0xff, 0x59]
def QCD : Bytes := [0xff, 0x5c]
def QCC : Bytes := [0xff, 0x5d]
def RGN : Bytes := [0xff, 0x5e]
def POC : Bytes := [0xff, 0x5f]
def PPM : Bytes := [0xff, 0x60]
def PPT : Bytes := [0xff, 0x61]
def CRG : Bytes := [0xff, 0x63]
def COM : Bytes := [0xff, 0x64]
def SOT : Bytes := [0xff, 0x90]
def EPH : Bytes := [0xff, 0x92]
def SOD : Bytes := [0xff, 0x93]
def EOC : Bytes := [0xff, 0xd9]

/-- The markers that stand alone; every other marker is followed by a length. -/
def delimiters : List Bytes := [SOC, SOD, EOC, EPH]

/-- There is a marker at `off`, with its segment (starting with the length field) and the offset of the
next marker, which is `none` if the length cannot be read. -/
inductive SegAt (b : Bytes) (off : Nat) : Bytes → Bytes → Option Nat → Prop
  | alone : sub b off 2 ∈ delimiters → SegAt b off (sub b off 2) [] (some (off + 2))
  | seg {L} : sub b off 2 ∉ delimiters → uint b (off + 2) 2 = some L →
      SegAt b off (sub b off 2) (sub b (off + 2) L) (some (off + 2 + L))
  | noLength : sub b off 2 ∉ delimiters → uint b (off + 2) 2 = none → SegAt b off (sub b off 2) [] none

/-- A marker segment found in a header. -/
structure FoundSeg where
  start : Nat
  marker : Bytes
  contents : Bytes

/-- The marker segments from `off` up to the first `stop` marker, and the offset of that marker; `none`
if the header breaks off before. -/
inductive SegsTo (b stop : Bytes) : Nat → List FoundSeg → Option Nat → Prop
  | found {off c n} : SegAt b off stop c n → SegsTo b stop off [] (some off)
  | step {off m c n ss e} : SegAt b off m c (some n) → m ≠ stop → SegsTo b stop n ss e →
      SegsTo b stop off (⟨off, m, c⟩ :: ss) e
  | broken {off m c} : SegAt b off m c none → m ≠ stop → SegsTo b stop off [⟨off, m, c⟩] none

/-- Marker segments of the main header that are validated (A.2, table A.2). -/
def mainSegments : List Bytes :=
  [COD, COC, QCD, QCC, RGN, POC, CRG, COM, CAP, PRF, CPF, TLM, PLM, PPM]

/-- Marker segments of a tile-part header that are validated. -/
def tilePartSegments : List Bytes := [COD, COC, QCD, QCC, RGN, POC, COM, PLT, PPT]

end Jpy.Spec
