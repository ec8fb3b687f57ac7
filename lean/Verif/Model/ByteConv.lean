import Verif.Model.Py
/-! # Model of `jpylyzer/byteconv.py` -/

namespace Jpy

/-- Big-endian value of a byte string (what `struct.unpack(">...")` and `int(hexlify(..), 16)`
compute). -/
def beNat (b : Bytes) : Nat := b.foldl (fun acc x => acc * 256 + x.toNat) 0

/-- `_doConv` for an unsigned format character of the given width (`byteconv.py:22-34`):
`struct.unpack` raises unless the string has exactly that width, and the handler returns -9999. -/
def doConv (width : Nat) (b : Bytes) : Int :=
  if b.length = width then (beNat b : Int) else -9999

/-- `bytesToULongLong` (`byteconv.py:37-42`). -/
def bytesToULongLong (b : Bytes) : Int := doConv 8 b

/-- `bytesToUInt` (`byteconv.py:45-50`). -/
def bytesToUInt (b : Bytes) : Int := doConv 4 b

/-- `bytesToUShortInt` (`byteconv.py:53-58`). -/
def bytesToUShortInt (b : Bytes) : Int := doConv 2 b

/-- `bytesToUnsignedChar` (`byteconv.py:61-66`). -/
def bytesToUnsignedChar (b : Bytes) : Int := doConv 1 b

/-- `bytesToSignedChar` (`byteconv.py:69-74`), format `b`: two's complement of one byte. -/
def bytesToSignedChar (b : Bytes) : Int :=
  match b with
  | [x] => if x.toNat < 128 then (x.toNat : Int) else (x.toNat : Int) - 256
  | _ => -9999

/-- `bytesToInteger` (`byteconv.py:77-94`): `int(b'', 16)` raises, giving -9999 for the empty string. -/
def bytesToInteger (b : Bytes) : Int := if b = [] then -9999 else (beNat b : Int)

/-- `isctrl` (`byteconv.py:97-102`). -/
def isctrl (x : UInt8) : Bool := x.toNat < 32 || x.toNat == 127

/-- `containsControlCharacters` (`byteconv.py:110-115`). -/
def containsControlCharacters (b : Bytes) : Bool := b.any isctrl

/-- Lower-case hexadecimal digit as an ASCII byte. -/
def hexDigit (n : Nat) : UInt8 := if n < 10 then UInt8.ofNat (48 + n) else UInt8.ofNat (87 + n)

/-- `bytesToHex` = `binascii.hexlify` (`byteconv.py:105-107`): lower-case ASCII hex, as bytes. -/
def bytesToHex (b : Bytes) : Bytes :=
  b.flatMap fun x => [hexDigit (x.toNat / 16), hexDigit (x.toNat % 16)]

/-- `removeNullTerminator` = `rstrip(b'\x00')` (`byteconv.py:129-132`). -/
def removeNullTerminator (b : Bytes) : Bytes := (b.reverse.dropWhile (· == 0)).reverse


/-- `removeControlCharacters` (`byteconv.py:118-126`), on the list of code points. -/
def removeControlCharacters (catC : Char → Bool) (s : List Char) : List Char :=
  s.filter fun ch => !catC ch || ch == '\t' || ch == '\n' || ch == '\r'

/-- Is this byte a UTF-8 continuation byte? -/
def isCont (b : UInt8) : Bool := 0x80 ≤ b.toNat && b.toNat < 0xC0

/-- CPython's strict UTF-8 decoder (`bytes.decode("utf-8", "strict")`): `none` where it raises
`UnicodeDecodeError`. Rejects overlong forms, surrogates and values above U+10FFFF. -/
def utf8Decode : Bytes → Option (List Char)
  | [] => some []
  | b0 :: r0 =>
    if b0.toNat < 0x80 then
      (utf8Decode r0).map (Char.ofNat b0.toNat :: ·)
    else match r0 with
    | [] => none
    | b1 :: r1 =>
      if 0xC2 ≤ b0.toNat ∧ b0.toNat < 0xE0 then
        if isCont b1 then
          (utf8Decode r1).map (Char.ofNat ((b0.toNat - 0xC0) * 64 + (b1.toNat - 0x80)) :: ·)
        else none
      else match r1 with
      | [] => none
      | b2 :: r2 =>
        if 0xE0 ≤ b0.toNat ∧ b0.toNat < 0xF0 then
          if isCont b1 && isCont b2
              && (b0.toNat != 0xE0 || 0xA0 ≤ b1.toNat)
              && (b0.toNat != 0xED || b1.toNat < 0xA0) then
            (utf8Decode r2).map
              (Char.ofNat ((b0.toNat - 0xE0) * 4096 + (b1.toNat - 0x80) * 64
                + (b2.toNat - 0x80)) :: ·)
          else none
        else match r2 with
        | [] => none
        | b3 :: r3 =>
          if 0xF0 ≤ b0.toNat ∧ b0.toNat < 0xF5 then
            if isCont b1 && isCont b2 && isCont b3
                && (b0.toNat != 0xF0 || 0x90 ≤ b1.toNat)
                && (b0.toNat != 0xF4 || b1.toNat < 0x90) then
              (utf8Decode r3).map
                (Char.ofNat ((b0.toNat - 0xF0) * 262144 + (b1.toNat - 0x80) * 4096
                  + (b2.toNat - 0x80) * 64 + (b3.toNat - 0x80)) :: ·)
            else none
          else none

/-- `bytesToText` (`byteconv.py:135-152`): the empty string when the bytes are not UTF-8. -/
def bytesToText (catC : Char → Bool) (b : Bytes) : String :=
  match utf8Decode b with
  | some cs => String.ofList (removeControlCharacters catC cs)
  | none => ""

/-- `bytes.decode("iso-8859-15", "strict")`: total, differs from Latin-1 at eight positions. -/
def latin9 (b : UInt8) : Char :=
  match b.toNat with
  | 0xA4 => Char.ofNat 0x20AC
  | 0xA6 => Char.ofNat 0x160
  | 0xA8 => Char.ofNat 0x161
  | 0xB4 => Char.ofNat 0x17D
  | 0xB8 => Char.ofNat 0x17E
  | 0xBC => Char.ofNat 0x152
  | 0xBD => Char.ofNat 0x153
  | 0xBE => Char.ofNat 0x178
  | n => Char.ofNat n

end Jpy
