import Verif.Spec.Codestream
/-!
# Specification of damage to the frame of an image

Which bytes of a file are determined by the others, or by the format alone, so that a change of one of them can be
noticed without decoding the image.
-/

namespace Jpy.Spec

/-- `b'` is `b` with another value of the byte at position `i`. -/
structure OtherByte (i : Nat) (b b' : Bytes) : Prop where
  length : b'.length = b.length
  changed : b'[i]? ≠ b[i]?
  others : ∀ j, j ≠ i → b'[j]? = b[j]?

/-- The bytes of a codestream that belong to its frame: the SOC and SIZ markers and the length of the SIZ segment, the
number of components, the length of every SOT segment, and the EOC marker at the end. -/
inductive FrameByte (b : Bytes) (i : Nat) : Prop
  | start : i < 6 → FrameByte b i
  | components : i = 40 ∨ i = 41 → FrameByte b i
  | sotLength {siz csiz main sot n off} : MainHeader b siz csiz main (some sot) → TileCount siz n →
      Reached b (min n 65535) sot off → off + 2 ≤ i → i < off + 4 → FrameByte b i
  | last : b.length ≤ i + 2 → FrameByte b i

/-- The bytes of a codestream that hold what the JP2 header of a file repeats: size and offset of the image (Xsiz,
Ysiz, XOsiz, YOsiz) and the depth of every component (Ssiz). -/
inductive ImageByte (b : Bytes) (i : Nat) : Prop
  | size : 8 ≤ i → i < 24 → ImageByte b i
  | depth {n k} : uint b 40 2 = some n → k < n → i = 42 + 3 * k → ImageByte b i

/-- Damage to one of the boxes of a file. The list holds their types and payloads. -/
inductive DamagedBoxes : List (Bytes × Bytes) → List (Bytes × Bytes) → Prop
  /-- another type of a signature, file type or JP2 header box -/
  | type {l1 l2 t t' p} : t = ascii "jP  " ∨ t = ascii "ftyp" ∨ t = ascii "jp2h" → t' ≠ t →
      DamagedBoxes (l1 ++ (t, p) :: l2) (l1 ++ (t', p) :: l2)
  /-- another type of the only codestream box -/
  | codestreamType {l1 l2 t' p} : (∀ x ∈ l1 ++ l2, x.1 ≠ ascii "jp2c") → t' ≠ ascii "jp2c" →
      DamagedBoxes (l1 ++ (ascii "jp2c", p) :: l2) (l1 ++ (t', p) :: l2)
  /-- another signature -/
  | signature {l1 l2 p p'} : p' ≠ p → DamagedBoxes (l1 ++ (ascii "jP  ", p) :: l2) (l1 ++ (ascii "jP  ", p') :: l2)
  /-- another brand or minor version in the file type box -/
  | fileType {l1 l2 p p'} : p'.take 8 ≠ p.take 8 →
      DamagedBoxes (l1 ++ (ascii "ftyp", p) :: l2) (l1 ++ (ascii "ftyp", p') :: l2)
  /-- another height, width, number of components or compression type in the image header box -/
  | imageHeader {l1 l2 p p' ip ip' hl} : EncodesBoxes ((ascii "ihdr", ip) :: hl) p →
      EncodesBoxes ((ascii "ihdr", ip') :: hl) p' → ip'.take 10 ≠ ip.take 10 ∨ ip'[11]? ≠ ip[11]? →
      DamagedBoxes (l1 ++ (ascii "jp2h", p) :: l2) (l1 ++ (ascii "jp2h", p') :: l2)
  /-- another type of the image header box -/
  | imageHeaderType {l1 l2 p p' ip hl t'} : EncodesBoxes ((ascii "ihdr", ip) :: hl) p →
      EncodesBoxes ((t', ip) :: hl) p' → t' ≠ ascii "ihdr" →
      DamagedBoxes (l1 ++ (ascii "jp2h", p) :: l2) (l1 ++ (ascii "jp2h", p') :: l2)
  /-- a changed byte of the frame of a codestream -/
  | frame {l1 l2 cs cs' i} : FrameByte cs i → OtherByte i cs cs' →
      DamagedBoxes (l1 ++ (ascii "jp2c", cs) :: l2) (l1 ++ (ascii "jp2c", cs') :: l2)
  /-- a changed byte of the size or the depths in the first codestream -/
  | image {l1 l2 cs cs' i} : (∀ x ∈ l1, x.1 ≠ ascii "jp2c") → ImageByte cs i → OtherByte i cs cs' →
      DamagedBoxes (l1 ++ (ascii "jp2c", cs) :: l2) (l1 ++ (ascii "jp2c", cs') :: l2)

/-- Damage to the frame of a file. -/
inductive Damaged (fmt : Format) (f f' : Bytes) : Prop
  /-- one of the first twelve bytes -/
  | start {i} : fmt = .jp2 ∨ fmt = .jph → i < 12 → OtherByte i f f' → Damaged fmt f f'
  | boxes {l l'} : fmt = .jp2 ∨ fmt = .jph → EncodesBoxes l f → EncodesBoxes l' f' → DamagedBoxes l l' →
      Damaged fmt f f'
  | codestream {i} : fmt = .j2c ∨ fmt = .jhc → FrameByte f i → OtherByte i f f' → Damaged fmt f f'

/-- The first bytes of a JP2 or JPH file: the signature box, with a length of 32 or of 64 bits. -/
def starts : List Bytes :=
  [[0, 0, 0, 12, 106, 80, 32, 32, 0x0d, 0x0a, 0x87, 0x0a],
   [0, 0, 0, 1, 106, 80, 32, 32, 0, 0, 0, 0, 0, 0, 0, 20, 0x0d, 0x0a, 0x87, 0x0a]]

end Jpy.Spec
