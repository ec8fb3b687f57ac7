import Verif.Spec.Codestream
import Verif.Spec.Generate
/-!
# Specification of packet data

Which bytes of a codestream are packet data (ISO/IEC 15444-1 A.4 and figure A.4): in every tile-part, what follows
the SOD marker. Everything else is headers and markers.
-/

namespace Jpy.Spec

/-- Byte `i` of a codestream with tile-parts `ts`, the first of which starts at `sot`, belongs to a header or
marker. -/
inductive HeaderByte (b : Bytes) (sot : Nat) (ts : List TilePartInfo) (i : Nat) : Prop
  /-- main header -/
  | main : i < sot → HeaderByte b sot ts i
  /-- header of a tile-part, from its SOT marker to its SOD marker (to the end if there is none) -/
  | tilePart {t ss e} : t ∈ ts → SegsTo b SOD (t.start + 12) ss e → t.start ≤ i → (∀ k, e = some k → i < k + 2) →
      HeaderByte b sot ts i
  /-- the marker after a tile-part -/
  | next {t} : t ∈ ts → t.length ≠ 0 → t.start + t.length ≤ i → i < t.start + t.length + 2 → HeaderByte b sot ts i
  /-- the last marker -/
  | last : b.length ≤ i + 2 → HeaderByte b sot ts i

/-- `b'` is a codestream of the length of `b` with the headers and markers of `b`. -/
def SameHeaders (b b' : Bytes) : Prop :=
  ∃ siz csiz main sot ts, sub b 0 2 = SOC ∧ MainHeader b siz csiz main (some sot) ∧ Chain b sot ts ∧
    b'.length = b.length ∧ ∀ i, HeaderByte b sot ts i → b'[i]? = b[i]?

/-- Two lists of boxes (type and payload) are the same, but for what is not headers and markers in codestreams. -/
inductive SameHeadersBoxes : List (Bytes × Bytes) → List (Bytes × Bytes) → Prop
  | nil : SameHeadersBoxes [] []
  | same {x l l'} : SameHeadersBoxes l l' → SameHeadersBoxes (x :: l) (x :: l')
  | codestream {cs cs' l l'} : SameHeaders cs cs' → SameHeadersBoxes l l' →
      SameHeadersBoxes ((ascii "jp2c", cs) :: l) ((ascii "jp2c", cs') :: l')

/-- `f'` is a file of the length of `f` that differs from `f` only in what is not headers and markers in codestreams,
and perhaps in the form of box lengths. -/
def SameHeadersFile (fmt : Format) (f f' : Bytes) : Prop :=
  match fmt with
  | .j2c | .jhc => SameHeaders f f'
  | _ => f'.length = f.length ∧ ∃ bs bs', Boxes f bs ∧ Boxes f' bs' ∧
      SameHeadersBoxes (bs.map fun x => (x.type, x.payload)) (bs'.map fun x => (x.type, x.payload))

/-- The tile-parts of a codestream are well framed: each one has a header that ends with SOD, and the end of the
tile-part is not inside its header and leaves room for a marker. A tile-part of length zero extends to the EOC
marker at the end. -/
def WellFramed (b : Bytes) (ts : List TilePartInfo) : Prop :=
  ∀ t ∈ ts, ∃ ss k, SegsTo b SOD (t.start + 12) ss (some k) ∧
    (t.length ≠ 0 → k + 2 ≤ t.start + t.length ∧ t.start + t.length + 2 ≤ b.length)

/-- Byte `i` is packet data: it lies between the SOD marker of a tile-part and the end of that tile-part. -/
def PacketByte (b : Bytes) (ts : List TilePartInfo) (i : Nat) : Prop :=
  ∃ t ∈ ts, ∃ ss k, SegsTo b SOD (t.start + 12) ss (some k) ∧ k + 2 ≤ i ∧
    (t.length ≠ 0 → i < t.start + t.length) ∧ (t.length = 0 → i + 2 < b.length)

/-- `b'` is the codestream `b` with other packet data of the same length. -/
def OtherPacketData (b b' : Bytes) : Prop :=
  ∃ siz csiz main sot ts, sub b 0 2 = SOC ∧ MainHeader b siz csiz main (some sot) ∧ Chain b sot ts ∧
    WellFramed b ts ∧ b'.length = b.length ∧ ∀ i, ¬ PacketByte b ts i → b'[i]? = b[i]?

/-- The tile-parts of two codestreams to be written differ only in their packet data, which have the same length. -/
inductive SameButData : List GenTilePart → List GenTilePart → Prop
  | nil : SameButData [] []
  | cons {t ts ts' data} : data.length = t.data.length → SameButData ts ts' →
      SameButData (t :: ts) ({ t with data := data } :: ts')

end Jpy.Spec
