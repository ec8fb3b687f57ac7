import Verif.Spec.Segments
import Verif.Spec.Report
import Verif.Spec.Walk
/-!
# Specification of the reported fields

For each box and marker segment, the fields that are reported: the name of the property, and where and
how its value is stored (ISO/IEC 15444-1 Annex A and Annex I; ICC.1:2010 clause 7.2 for profiles).
-/

namespace Jpy.Spec

/-- The values of the elements with a given tag, in order. -/
def valuesOf (es : List Elem) (tag : String) : List PyVal := (es.filter fun e => e.tag == tag).map (·.text)

/-- How a value is stored, relative to the start of the box payload or marker segment. -/
inductive Reads where
  /-- unsigned big-endian number of `w` bytes -/
  | num (off w : Nat)
  /-- `k` bits of a `w`-byte number, the lowest having weight `2 ^ lo` -/
  | bits (off w lo k : Nat)
  /-- bit depth: the low seven bits of a byte plus one -/
  | depth (off : Nat)
  /-- a power of two, the exponent being two more than a byte -/
  | power (off : Nat)
  /-- a two's complement byte -/
  | signed (off : Nat)
  /-- `n` bytes as they are -/
  | raw (off n : Nat)
  /-- `n` bytes in hexadecimal -/
  | hex (off n : Nat)
  /-- 16 bits before and 16 bits after the binary point, to four decimals -/
  | fixed (off : Nat)

/-- The same field `k` bytes further on. -/
def Reads.shift (k : Nat) : Reads → Reads
  | .num o w => .num (o + k) w
  | .bits o w lo n => .bits (o + k) w lo n
  | .depth o => .depth (o + k)
  | .power o => .power (o + k)
  | .signed o => .signed (o + k)
  | .raw o n => .raw (o + k) n
  | .hex o n => .hex (o + k) n
  | .fixed o => .fixed (o + k)

/-- `v` is the value to be reported for a field. A number that cannot be read because the bytes are
missing is reported as -9999. -/
def Reads.Gives (r : Reads) (c : Bytes) (v : PyVal) : Prop := match r with
  | .num o w => (∃ x, uint c o w = some x ∧ v = .int x) ∨ (uint c o w = none ∧ v = .int (-9999))
  | .bits o w lo n => ∀ x, uint c o w = some x → v = .int ((x / 2 ^ lo % 2 ^ n : Nat) : Int)
  | .depth o => ∀ x, uint c o 1 = some x → v = .int ((x % 128 + 1 : Nat) : Int)
  | .power o => ∀ x, uint c o 1 = some x → v = .int ((2 ^ (x + 2) : Nat) : Int)
  | .signed o => ∀ x, uint c o 1 = some x → v = .int (if x < 128 then (x : Int) else (x : Int) - 256)
  | .raw o n => v = .bytes (sub c o n)
  | .hex o n => ∃ h, IsHex (sub c o n) h ∧ v = .bytes h
  | .fixed o => ∀ x, uint c o 4 = some x → v = .flt ⟨(x : Int), 65536, 4⟩

/-- A property and how its value is stored. -/
structure Field where
  tag : String
  reads : Reads

/-- The property is reported exactly once, with the value stored in `c`. -/
def ShowsField (es : List Elem) (c : Bytes) (f : Field) : Prop :=
  ∃ v, valuesOf es f.tag = [v] ∧ f.reads.Gives c v

/-- The property is reported exactly `count` times; the values are stored `stride` bytes apart. -/
structure ShowsEach (es : List Elem) (c : Bytes) (count stride : Nat) (f : Field) : Prop where
  number : (valuesOf es f.tag).length = count
  each : ∀ i < count, ∃ v, (valuesOf es f.tag)[i]? = some v ∧ (f.reads.shift (stride * i)).Gives c v

/-! ## Boxes -/

/-- File type box (I.5.2): brand, minor version; then the compatibility list. -/
def ftypFields : List Field := [⟨"br", .raw 0 4⟩, ⟨"minV", .num 4 4⟩]
def ftypEntry : List Field := [⟨"cL", .raw 8 4⟩]

/-- Image header box (I.5.3.1). -/
def ihdrFields : List Field :=
  [⟨"height", .num 0 4⟩, ⟨"width", .num 4 4⟩, ⟨"nC", .num 8 2⟩, ⟨"bPCSign", .bits 10 1 7 1⟩,
   ⟨"bPCDepth", .depth 10⟩, ⟨"c", .num 11 1⟩, ⟨"unkC", .num 12 1⟩, ⟨"iPR", .num 13 1⟩]

/-- Bits per component box (I.5.3.2): one byte per component. -/
def bpccEntry : List Field := [⟨"bPCSign", .bits 0 1 7 1⟩, ⟨"bPCDepth", .depth 0⟩]

/-- Colour specification box (I.5.3.3). -/
def colrFields : List Field := [⟨"meth", .num 0 1⟩, ⟨"prec", .num 1 1⟩, ⟨"approx", .num 2 1⟩]
/-- Parameterized colourspace (ISO/IEC 15444-15). -/
def colrParameterFields : List Field :=
  [⟨"colPrims", .num 3 2⟩, ⟨"transfC", .num 5 2⟩, ⟨"matCoeffs", .num 7 2⟩, ⟨"vidFRng", .bits 9 1 7 1⟩]

/-- ICC profile header. -/
def iccFields : List Field :=
  [⟨"profileSize", .num 0 4⟩, ⟨"preferredCMMType", .raw 4 4⟩, ⟨"profileClass", .raw 12 4⟩,
   ⟨"colourSpace", .raw 16 4⟩, ⟨"profileConnectionSpace", .raw 20 4⟩, ⟨"profileSignature", .raw 36 4⟩,
   ⟨"primaryPlatform", .raw 40 4⟩, ⟨"deviceManufacturer", .raw 48 4⟩, ⟨"deviceModel", .raw 52 4⟩,
   ⟨"renderingIntent", .num 66 2⟩, ⟨"connectionSpaceIlluminantX", .fixed 68⟩,
   ⟨"connectionSpaceIlluminantY", .fixed 72⟩, ⟨"connectionSpaceIlluminantZ", .fixed 76⟩,
   ⟨"profileCreator", .raw 80 4⟩, ⟨"profileID", .hex 84 16⟩]
/-- The flags of an ICC profile header: bit 0 is the least significant one of the field. -/
def iccFlagFields : List Field :=
  [⟨"embeddedProfile", .bits 44 4 0 1⟩, ⟨"profileCannotBeUsedIndependently", .bits 44 4 1 1⟩,
   ⟨"transparency", .bits 56 8 0 1⟩, ⟨"glossiness", .bits 56 8 1 1⟩, ⟨"polarity", .bits 56 8 2 1⟩,
   ⟨"colour", .bits 56 8 3 1⟩]
/-- Weaker than `iccFlagFields`: the flags counted from the most significant bit of the field, which is how
they are read. -/
def iccTopFlagFields : List Field :=
  [⟨"embeddedProfile", .bits 44 1 7 1⟩, ⟨"profileCannotBeUsedIndependently", .bits 44 1 6 1⟩,
   ⟨"transparency", .bits 56 1 7 1⟩, ⟨"glossiness", .bits 56 1 6 1⟩, ⟨"polarity", .bits 56 1 5 1⟩,
   ⟨"colour", .bits 56 1 4 1⟩]
/-- The version of an ICC profile as text: the major version is one byte, the minor version and the
bug-fix version are four bits each. -/
def iccVersion (major minor : Nat) : String :=
  toString major ++ "." ++ toString (minor / 16) ++ "." ++ toString (minor % 16)
/-- A number with at least two decimal digits. -/
def twoDigits (n : Nat) : String := (if n < 10 then "0" else "") ++ toString n
/-- Date and time of creation as text. -/
def iccDateTime (year month day hour minute second : Nat) : String :=
  toString year ++ "/" ++ twoDigits month ++ "/" ++ twoDigits day ++ ", " ++ twoDigits hour ++ ":"
    ++ twoDigits minute ++ ":" ++ twoDigits second
/-- The first tag `desc` in the tag table of the profile: entry number `i` of `n`, with the offset and the
size of its data. -/
structure FirstDesc (p : Bytes) (n i off size : Nat) : Prop where
  lt : i < n
  tag : sub p (132 + 12 * i) 4 = ascii "desc"
  first : ∀ j < i, sub p (132 + 12 * j) 4 ≠ ascii "desc"
  off : uint p (136 + 12 * i) 4 = some off
  size : uint p (140 + 12 * i) 4 = some size
/-- Tag table of an ICC profile. -/
def iccEntry : List Field := [⟨"tag", .raw 132 4⟩]

/-- Palette box (I.5.3.4). -/
def pclrFields : List Field := [⟨"nE", .num 0 2⟩, ⟨"nPC", .num 2 1⟩]
def pclrEntry : List Field := [⟨"bSign", .bits 3 1 7 1⟩, ⟨"bDepth", .depth 3⟩]

/-- Component mapping box (I.5.3.5): four bytes per channel. -/
def cmapEntry : List Field := [⟨"cMP", .num 0 2⟩, ⟨"mTyp", .num 2 1⟩, ⟨"pCol", .num 3 1⟩]

/-- Channel definition box (I.5.3.6): six bytes per description. -/
def cdefFields : List Field := [⟨"n", .num 0 2⟩]
def cdefEntry : List Field := [⟨"cN", .num 2 2⟩, ⟨"cTyp", .num 4 2⟩, ⟨"cAssoc", .num 6 2⟩]

/-- Capture resolution box (I.5.3.7.1). -/
def rescFields : List Field :=
  [⟨"vRcN", .num 0 2⟩, ⟨"vRcD", .num 2 2⟩, ⟨"hRcN", .num 4 2⟩, ⟨"hRcD", .num 6 2⟩, ⟨"vRcE", .signed 8⟩,
   ⟨"hRcE", .signed 9⟩]
/-- Default display resolution box (I.5.3.7.2). -/
def resdFields : List Field :=
  [⟨"vRdN", .num 0 2⟩, ⟨"vRdD", .num 2 2⟩, ⟨"hRdN", .num 4 2⟩, ⟨"hRdD", .num 6 2⟩, ⟨"vRdE", .signed 8⟩,
   ⟨"hRdE", .signed 9⟩]

/-- UUID list box (I.7.3.1). -/
def ulstFields : List Field := [⟨"nU", .num 0 2⟩]
/-- Data entry URL box (I.7.3.2). -/
def urlFields : List Field := [⟨"version", .num 0 1⟩]

/-! ## Marker segments; offset 0 is the length field -/

/-- The meaning of the capabilities field `Rsiz` of the SIZ segment (table A.10, with the amendments for
broadcast and IMF profiles), in the words of the report. -/
inductive CapabilityText : Nat → String → Prop
  | plain (k : Nat) (s : String) : (k, s) ∈ [(0, "ISO/IEC 15444-1"), (1, "Profile 0"), (2, "Profile 1"),
      (3, "2K digital cinema profile"), (4, "4K digital cinema profile"),
      (5, "Scalable 2K digital cinema profile"), (6, "Scalable 4K digital cinema profile"),
      (7, "Long-term storage profile")] → CapabilityText k s
  | broadcast (p level : Nat) (s : String) : level < 16 →
      (p, s) ∈ [(1, "Single Tile"), (2, "Multi-tile"), (3, "Multi-tile Reversible")] →
      CapabilityText (256 * p + level) ("Broadcast Contribution " ++ s ++ " Profile, Mainlevel " ++ toString level)
  | imf (p sub level : Nat) (s : String) : level < 16 → sub < 16 →
      (p, s) ∈ [(4, "2k IMF Single Tile Lossy"), (5, "4k IMF Single Tile Lossy"), (6, "8k IMF Single Tile Lossy"),
        (7, "2k IMF Single/Multi Tile Reversible"), (8, "4k IMF Single/Multi Tile Reversible"),
        (9, "8k IMF Single/Multi Tile Reversible")] →
      CapabilityText (256 * p + 16 * sub + level)
        (s ++ " Profile, Mainlevel " ++ toString level ++ "; Sublevel " ++ toString sub)
  | marker : CapabilityText 0x0fff "Profile signalled in Profile Marker"
  | cap (k : Nat) : k < 2 ^ 14 → CapabilityText (0x4000 + k) "CAP"
  | part2 (k : Nat) : k < 2 ^ 14 → CapabilityText (0x8000 + k) "ISO/IEC 15444-2"
  | both (k : Nat) : k < 2 ^ 14 → CapabilityText (0xc000 + k) "ISO/IEC 15444-2 + CAP"

/-- SIZ (A.5.1). -/
def sizFields : List Field :=
  [⟨"lsiz", .num 0 2⟩, ⟨"rsiz", .num 2 2⟩, ⟨"xsiz", .num 4 4⟩, ⟨"ysiz", .num 8 4⟩, ⟨"xOsiz", .num 12 4⟩,
   ⟨"yOsiz", .num 16 4⟩, ⟨"xTsiz", .num 20 4⟩, ⟨"yTsiz", .num 24 4⟩, ⟨"xTOsiz", .num 28 4⟩,
   ⟨"yTOsiz", .num 32 4⟩, ⟨"csiz", .num 36 2⟩]
/-- Per component: three bytes. -/
def sizEntry : List Field :=
  [⟨"ssizSign", .bits 38 1 7 1⟩, ⟨"ssizDepth", .depth 38⟩, ⟨"xRsiz", .num 39 1⟩, ⟨"yRsiz", .num 40 1⟩]

/-- The code block fields of COD and COC (tables A.15, A.18 to A.20). -/
def codeBlockFields (o : Nat) : List Field :=
  [⟨"codeBlockWidth", .power o⟩, ⟨"codeBlockHeight", .power (o + 1)⟩,
   ⟨"codingBypass", .bits (o + 2) 1 0 1⟩, ⟨"termOnEachPass", .bits (o + 2) 1 2 1⟩,
   ⟨"vertCausalContext", .bits (o + 2) 1 3 1⟩, ⟨"transformation", .num (o + 3) 1⟩]
/-- Code block style bits that are not reported for high-throughput code blocks. -/
def codeBlockMoreFields (o : Nat) : List Field :=
  [⟨"resetOnBoundaries", .bits (o + 2) 1 1 1⟩, ⟨"predTermination", .bits (o + 2) 1 4 1⟩,
   ⟨"segmentationSymbols", .bits (o + 2) 1 5 1⟩]

/-- COD (A.6.1). -/
def codFields : List Field :=
  [⟨"lcod", .num 0 2⟩, ⟨"precincts", .bits 2 1 0 1⟩, ⟨"sop", .bits 2 1 1 1⟩, ⟨"eph", .bits 2 1 2 1⟩,
   ⟨"order", .num 3 1⟩, ⟨"layers", .num 4 2⟩, ⟨"multipleComponentTransformation", .num 6 1⟩,
   ⟨"levels", .num 7 1⟩] ++ codeBlockFields 8

/-- COC (A.6.2); `w` is the width of a component index. -/
def cocFields (w : Nat) : List Field :=
  [⟨"lcoc", .num 0 2⟩, ⟨"ccoc", .num 2 w⟩, ⟨"precincts", .bits (2 + w) 1 0 1⟩, ⟨"levels", .num (3 + w) 1⟩]
  ++ codeBlockFields (4 + w)

/-- RGN (A.6.3). -/
def rgnFields (w : Nat) : List Field :=
  [⟨"lrgn", .num 0 2⟩, ⟨"crgn", .num 2 w⟩, ⟨"roiStyle", .num (2 + w) 1⟩, ⟨"roiShift", .num (3 + w) 1⟩]

/-- QCD (A.6.4). -/
def qcdFields : List Field :=
  [⟨"lqcd", .num 0 2⟩, ⟨"qStyle", .bits 2 1 0 5⟩, ⟨"guardBits", .bits 2 1 5 3⟩]
/-- QCC (A.6.5). -/
def qccFields (w : Nat) : List Field :=
  [⟨"lqcc", .num 0 2⟩, ⟨"cqcc", .num 2 w⟩, ⟨"qStyle", .bits (2 + w) 1 0 5⟩,
   ⟨"guardBits", .bits (2 + w) 1 5 3⟩]

/-- POC (A.6.6). -/
def pocFields : List Field := [⟨"lpoc", .num 0 2⟩]
/-- Per progression order change: `5 + 2 * w` bytes. -/
def pocFieldsEach (w : Nat) : List Field :=
  [⟨"rspoc", .num 2 1⟩, ⟨"cspoc", .num 3 w⟩, ⟨"lyepoc", .num (3 + w) 2⟩, ⟨"repoc", .num (5 + w) 1⟩,
   ⟨"cepoc", .num (6 + w) w⟩, ⟨"order", .num (6 + 2 * w) 1⟩]

/-- CRG (A.9.1): four bytes per component. -/
def crgFields : List Field := [⟨"lcrg", .num 0 2⟩]
def crgEntry : List Field := [⟨"xcrg", .num 2 2⟩, ⟨"ycrg", .num 4 2⟩]

/-- COM (A.9.2). -/
def comFields : List Field := [⟨"lcom", .num 0 2⟩, ⟨"rcom", .num 2 2⟩]

/-- SOT (A.4.2). -/
def sotFields : List Field :=
  [⟨"lsot", .num 0 2⟩, ⟨"isot", .num 2 2⟩, ⟨"psot", .num 4 4⟩, ⟨"tpsot", .num 8 1⟩, ⟨"tnsot", .num 9 1⟩]

/-- CAP, PRF, CPF, PLM and PLT: length fields and sequence numbers. -/
def capFields : List Field := [⟨"lcap", .num 0 2⟩]
def prfFields : List Field := [⟨"lprf", .num 0 2⟩]
def cpfFields : List Field := [⟨"lcpf", .num 0 2⟩]
def plmFields : List Field := [⟨"lplm", .num 0 2⟩, ⟨"zplm", .num 2 1⟩, ⟨"nplm", .num 3 1⟩]
def pltFields : List Field := [⟨"lplt", .num 0 2⟩, ⟨"zplt", .num 2 1⟩]

end Jpy.Spec
