import Verif.Spec.Segments
/-!
# Specification of the boxes (ISO/IEC 15444-1 Annex I, 15444-15 Annex D)

`c` is the payload of the box, without its length and type.
-/

namespace Jpy.Spec

/-- The 19 box types the validator knows, as four ASCII bytes (I.4, table I.2). -/
def knownBoxTypes : List Bytes :=
  [ [106, 112, 50, 105],  -- jp2i
    [120, 109, 108, 32],  -- xml
    [117, 117, 105, 100], -- uuid
    [117, 105, 110, 102], -- uinf
    [106, 80, 32, 32],    -- jP
    [102, 116, 121, 112], -- ftyp
    [106, 112, 50, 104],  -- jp2h
    [105, 104, 100, 114], -- ihdr
    [98, 112, 99, 99],    -- bpcc
    [99, 111, 108, 114],  -- colr
    [112, 99, 108, 114],  -- pclr
    [99, 109, 97, 112],   -- cmap
    [99, 100, 101, 102],  -- cdef
    [114, 101, 115, 32],  -- res
    [106, 112, 50, 99],   -- jp2c
    [114, 101, 115, 99],  -- resc
    [114, 101, 115, 100], -- resd
    [117, 108, 115, 116], -- ulst
    [117, 114, 108, 32] ] -- url

/-- The 18 marker codes the validator knows. A box header that ends after two bytes of the box type can
be taken for one of them. -/
def knownMarkers : List Bytes :=
  [ [0xff, 0x50], -- CAP
    [0xff, 0x51], -- SIZ
    [0xff, 0x52], -- COD
    [0xff, 0x53], -- COC
    [0xff, 0x55], -- TLM
    [0xff, 0x56], -- PRF
    [0xff, 0x57], -- PLM
    [0xff, 0x58], -- PLT
    [0xff, 0x59], -- CPF
    [0xff, 0x5c], -- QCD
    [0xff, 0x5d], -- QCC
    [0xff, 0x5e], -- RGN
    [0xff, 0x5f], -- POC
    [0xff, 0x60], -- PPM
    [0xff, 0x61], -- PPT
    [0xff, 0x63], -- CRG
    [0xff, 0x64], -- COM
    [0xff, 0x90] ] -- SOT

/-- JPEG 2000 signature box, I.5.1. -/
def SignatureOk (c : Bytes) : Prop := c = [0x0d, 0x0a, 0x87, 0x0a]

/-- The brand a format requires: `jp2\040` or `jph\040`. -/
def brandOf : Format → Option Bytes
  | .jp2 => some [106, 112, 50, 32]
  | .jph => some [106, 112, 104, 32]
  | _ => none

/-- File type box, I.5.2: brand, minor version 0, and a compatibility list containing the brand. -/
def FtypOk (fmt : Format) (c : Bytes) : Prop :=
  c.length % 4 = 0 ∧ FieldIs c 4 4 (· = 0) ∧
  ∀ br, brandOf fmt = some br → sub c 0 4 = br ∧ ∃ i, i < (c.length - 8) / 4 ∧ sub c (8 + 4 * i) 4 = br

/-- The image header conditions other than the bits-per-component byte, I.5.3.1. -/
def IhdrOthersOk (c : Bytes) : Prop :=
  c.length = 14 ∧ FieldIs c 0 4 (1 ≤ ·) ∧ FieldIs c 4 4 (1 ≤ ·) ∧
  FieldIs c 8 2 (fun n => 1 ≤ n ∧ n ≤ 16384) ∧ FieldIs c 11 1 (· = 7) ∧ FieldIs c 12 1 (· ≤ 1) ∧
  FieldIs c 13 1 (· ≤ 1)

/-- A bits-per-component byte of the image header: depth 1 to 38 in the low seven bits, or 255 for
varying depth. -/
def BpcByteOk (v : Nat) : Prop := v % 128 + 1 ≤ 38 ∨ v = 255

/-- Image header box, I.5.3.1. -/
def IhdrOk (c : Bytes) : Prop := IhdrOthersOk c ∧ FieldIs c 10 1 BpcByteOk

/-- Bits per component box, I.5.3.2. -/
def BpccOk (c : Bytes) : Prop := ∀ x ∈ c, x.toNat % 128 + 1 ≤ 38

/-- Resolution boxes, I.5.3.7: ten bytes with non-zero numerators and denominators. -/
def ResOk (c : Bytes) : Prop :=
  c.length = 10 ∧ FieldIs c 0 2 (1 ≤ ·) ∧ FieldIs c 2 2 (1 ≤ ·) ∧ FieldIs c 4 2 (1 ≤ ·) ∧
  FieldIs c 6 2 (1 ≤ ·)

/-- The signed value of a byte. -/
def signedByte (v : Nat) : Int := if v < 128 then (v : Int) else (v : Int) - 256

/-- The rational `f.num / f.den` equals `n / d * 10 ^ e * (p / q)`, by cross multiplication. -/
def RatIs (f : PyFloat) (n d : Nat) (e : Int) (p q : Int) : Prop :=
  f.den ≠ 0 ∧ f.num * (d * 10 ^ (-e).toNat * q) = n * 10 ^ e.toNat * p * f.den

/-- No entry of the tag table of an ICC profile is an AToB0 tag, looking at `k` entries at most. -/
def NoLut (k : Nat) (p : Bytes) : Prop :=
  ∀ n, uint p 128 4 = some n → ∀ i, i < n → i < k → sub p (132 + 12 * i) 4 ≠ [65, 50, 66, 48]

/-- A restricted ICC profile (I.5.3.3): its size field is its size, its class is `scnr` or `mntr`, it
has no AToB0 tag. -/
def RestrictedProfile (k : Nat) (p : Bytes) : Prop :=
  FieldIs p 0 4 (· = p.length) ∧
  (sub p 12 4 = [115, 99, 110, 114] ∨ sub p 12 4 = [109, 110, 116, 114]) ∧ NoLut k p

/-- Colour specification methods a format allows. -/
def methodsOf : Format → Nat → Prop
  | .jp2, m => m = 1 ∨ m = 2
  | .jph, m => m = 1 ∨ m = 2 ∨ m = 3 ∨ m = 5
  | _, _ => True

/-- Colour specification box, I.5.3.3 and 15444-15 D.4, looking at `k` ICC tags at most. -/
def ColrOk (k : Nat) (fmt : Format) (c : Bytes) : Prop :=
  FieldIs c 1 1 (· = 0) ∧ FieldIs c 2 1 (· = 0) ∧
  ∃ m, uint c 0 1 = some m ∧ methodsOf fmt m ∧
    (m = 1 → c.length = 7 ∧ FieldIs c 3 4 (fun e => e = 16 ∨ e = 17 ∨ e = 18)) ∧
    (m = 2 → RestrictedProfile k (c.drop 3)) ∧
    (m = 5 → fmt = .jph →
      FieldIs c 3 2 (fun v => v ∈ [1, 2, 4, 5, 6, 7, 8, 9, 10, 11, 12, 22]) ∧
      FieldIs c 5 2 (fun v => v = 1 ∨ v = 2 ∨ (4 ≤ v ∧ v ≤ 18)) ∧
      FieldIs c 7 2 (fun v => v ≤ 14 ∧ v ≠ 3))

/-- Palette box, I.5.3.4: number of entries, number of columns, depth of each column. -/
def PaletteOk (c : Bytes) : Prop :=
  FieldIs c 0 2 (fun n => 1 ≤ n ∧ n ≤ 1024) ∧
  FieldIs c 2 1 (fun k => 1 ≤ k ∧ ∀ i < k, FieldIs c (3 + i) 1 (fun b => b % 128 + 1 ≤ 38))

/-- Component mapping box, I.5.3.5: every complete four-byte entry. -/
def CmapOk (c : Bytes) : Prop :=
  ∀ i < c.length / 4, FieldIs c (4 * i) 2 (· ≤ 16384) ∧
    FieldIs c (4 * i + 2) 1 (fun t => t ≤ 1 ∧ (t = 0 → FieldIs c (4 * i + 3) 1 (· = 0)))

/-- Channel types a format allows. -/
def channelTypesOf : Format → Nat → Prop
  | .jp2, t => t ≤ 2 ∨ t = 65535
  | .jph, t => t ≤ 3 ∨ t = 65535
  | _, _ => True

/-- Channel `i` of a channel definition box is an opacity channel. -/
def IsAlpha (c : Bytes) (i : Nat) : Prop := FieldIs c (2 + 6 * i + 2) 2 (fun t => t = 1 ∨ t = 2)

/-- Channel definition box, I.5.3.6 and 15444-15 D.5: JPH allows one opacity channel at most, and it
must apply to the whole image. -/
def CdefOk (fmt : Format) (c : Bytes) : Prop :=
  FieldIs c 0 2 (fun n => 1 ≤ n ∧ c.length = 2 + 6 * n ∧
    (∀ i < n, FieldIs c (2 + 6 * i + 2) 2 (channelTypesOf fmt)) ∧
    (fmt = .jph → (∀ i < n, ∀ j < n, IsAlpha c i → IsAlpha c j → i = j) ∧
      ∀ i < n, IsAlpha c i → FieldIs c (2 + 6 * i + 4) 2 (· = 0)))

/-- The UUID that identifies XMP metadata. -/
def xmpUuid : Bytes :=
  [0xbe, 0x7a, 0xcf, 0xcb, 0x97, 0xa9, 0x42, 0xe8, 0x9c, 0x71, 0x99, 0x94, 0x91, 0xe3, 0xaf, 0xac]

/-- `t` is the lower-case hexadecimal text of `b`. -/
def IsHexText (b : Bytes) (t : List Char) : Prop :=
  t.length = 2 * b.length ∧ ∀ i (x : UInt8), b[i]? = some x →
    t[2 * i]? = ("0123456789abcdef".toList)[x.toNat / 16]? ∧
    t[2 * i + 1]? = ("0123456789abcdef".toList)[x.toNat % 16]?

/-- `s` is the canonical 8-4-4-4-12 text of the UUID `b` (RFC 4122). -/
def IsUuidText (b : Bytes) (s : String) : Prop :=
  ∃ t1 t2 t3 t4 t5, IsHexText (sub b 0 4) t1 ∧ IsHexText (sub b 4 2) t2 ∧ IsHexText (sub b 6 2) t3 ∧
    IsHexText (sub b 8 2) t4 ∧ IsHexText (sub b 10 6) t5 ∧
    s = String.ofList (t1 ++ ['-'] ++ t2 ++ ['-'] ++ t3 ++ ['-'] ++ t4 ++ ['-'] ++ t5)

/-- UTF-8 encoding of a character (RFC 3629, section 3). -/
def utf8Of (ch : Char) : List Nat :=
  let v := ch.toNat
  if v < 0x80 then [v]
  else if v < 0x800 then [0xC0 + v / 64, 0x80 + v % 64]
  else if v < 0x10000 then [0xE0 + v / 4096, 0x80 + v / 64 % 64, 0x80 + v % 64]
  else [0xF0 + v / 262144, 0x80 + v / 4096 % 64, 0x80 + v / 64 % 64, 0x80 + v % 64]

/-- `b` is the UTF-8 encoding of the text `cs`. -/
def IsUtf8 (b : Bytes) (cs : List Char) : Prop := b.map UInt8.toNat = cs.flatMap utf8Of

/-- Data entry URL box, I.7.3.2: version and flags zero, a NUL-terminated UTF-8 location. `s` is the
location without its trailing NULs. -/
def UrlOk (c : Bytes) : Prop :=
  FieldIs c 0 1 (· = 0) ∧ sub c 1 3 = [0, 0, 0] ∧
  ∃ s n cs, c.drop 4 = s ++ List.replicate (n + 1) 0 ∧ s.getLast? ≠ some 0 ∧ IsUtf8 s cs

end Jpy.Spec
