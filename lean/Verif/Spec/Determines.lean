import Verif.Spec.Shows
/-!
# Specification: two files with the same values in their headers

What two files must have in common if the properties in their reports are the same. Names and texts are
compared if they have no characters that a report leaves out. Numbers with a fraction and embedded documents are
not compared here.
-/

namespace Jpy.Spec

/-- The bits in which a number is stored; nothing if bytes are missing or the field is not a number. -/
def Reads.stored (c : Bytes) : Reads → Option Nat
  | .num o w => uint c o w
  | .bits o w lo n => (uint c o w).map fun x => x / 2 ^ lo % 2 ^ n
  | .depth o => (uint c o 1).map fun x => x % 128
  | .power o => uint c o 1
  | .signed o => uint c o 1
  | .raw _ _ => none
  | .hex _ _ => none
  | .fixed _ => none

/-- The same bits are stored, if both have the field. -/
def AlikeStored (c c' : Bytes) (r : Reads) : Prop :=
  ∀ x x', r.stored c = some x → r.stored c' = some x' → x = x'

/-- The same bits are stored in each of `count` entries that are `stride` bytes apart. -/
def AlikeEach (c c' : Bytes) (count stride : Nat) (r : Reads) : Prop :=
  ∀ i < count, AlikeStored c c' (r.shift (stride * i))

/-- Bytes that a report shows as they are: UTF-8 without control characters, except tab, newline and return. -/
def PlainText (env : Env) (b : Bytes) : Prop := ∃ cs, IsUtf8 b cs ∧ ∀ ch ∈ cs, TextChar env.catC ch

/-- The same text, if both are shown as they are. -/
def AlikeText (env : Env) (b b' : Bytes) : Prop := PlainText env b → PlainText env b' → b = b'

/-- The same name is stored: a text, or bytes that are shown in hexadecimal. -/
def AlikeNames (env : Env) (c c' : Bytes) : Reads → Prop
  | .raw o n => AlikeText env (sub c o n) (sub c' o n)
  | .hex o n => sub c o n = sub c' o n
  | _ => True

/-- The fields that a marker segment has once; `csiz` is the number of components. -/
def segFields (csiz : Nat) (m : Bytes) : List Field :=
  if m = SIZ then sizFields else if m = COD then codFields else if m = COC then cocFields (compWidth csiz)
  else if m = RGN then rgnFields (compWidth csiz) else if m = QCD then qcdFields
  else if m = QCC then qccFields (compWidth csiz) else if m = POC then pocFields else if m = CRG then crgFields
  else if m = COM then comFields else if m = CAP then capFields else if m = PRF then prfFields
  else if m = CPF then cpfFields else if m = PLM then plmFields else if m = PLT then pltFields else []

/-- Encoded packet lengths below 2^14. -/
def ShortPackets (ps : List Bytes) : Prop := ∀ e ∈ ps, PacketLength e ∧ base128 e < 2 ^ 14

/-- Two marker segments with marker `m` have the same numbers in them. -/
structure AlikeSeg (env : Env) (fmt : Format) (csiz : Nat) (m c c' : Bytes) : Prop where
  fields : ∀ f ∈ segFields csiz m, AlikeStored c c' f.reads
  /-- sign, depth and sampling of each component -/
  components : m = SIZ → ∀ n, uint c 36 2 = some n → ∀ f ∈ sizEntry, AlikeEach c c' n 3 f.reads
  /-- a SIZ segment of the length it must have is the same byte for byte -/
  siz : m = SIZ → ∀ n, uint c 36 2 = some n → c.length = 38 + 3 * n → c'.length = 38 + 3 * n → c = c'
  /-- the rest of the code block style -/
  codStyle : m = COD → fmt.isHT = false → ∀ f ∈ codeBlockMoreFields 8, AlikeStored c c' f.reads
  cocStyle : m = COC → fmt.isHT = false → ∀ f ∈ codeBlockMoreFields (4 + compWidth csiz), AlikeStored c c' f.reads
  /-- precinct sizes -/
  codPrecincts : m = COD → ∀ style levels, uint c 2 1 = some style → bit 0 style = 1 → uint c 7 1 = some levels →
    ∀ i ≤ levels, AlikeStored c c' (.num (12 + i) 1)
  cocPrecincts : m = COC → ∀ style levels, uint c (2 + compWidth csiz) 1 = some style → bit 0 style = 1 →
    uint c (3 + compWidth csiz) 1 = some levels → ∀ i ≤ levels, AlikeStored c c' (.num (8 + compWidth csiz + i) 1)
  /-- progression order changes -/
  changes : m = POC → ∀ l, uint c 0 2 = some l → ∀ f ∈ pocFieldsEach (compWidth csiz),
    AlikeEach c c' ((l - 2) / (5 + 2 * compWidth csiz)) (5 + 2 * compWidth csiz) f.reads
  /-- component registration -/
  registration : m = CRG → ∀ f ∈ crgEntry, AlikeEach c c' csiz 4 f.reads
  /-- quantization step sizes, as many of them as are reported -/
  steps : m = QCD → ∀ l s, uint c 0 2 = some l → uint c 2 1 = some s →
    (s % 32 = 0 → ∀ i < (l - 4) / 3, AlikeStored c c' (.bits (3 + i) 1 3 5)) ∧
    (s % 32 = 1 → AlikeStored c c' (.num 3 2)) ∧
    (s % 32 = 2 → ∀ i < (l - 5) / 6, AlikeStored c c' (.num (3 + 2 * i) 2))
  /-- those of a component, as many of them as are reported, with the style byte in front of them -/
  stepsComponent : m = QCC → ∀ l s, uint c 0 2 = some l → uint c (2 + compWidth csiz) 1 = some s →
    (s % 32 = 0 → ∀ i < (l - (4 + compWidth csiz)) / 3, AlikeStored c c' (.bits (2 + compWidth csiz + i) 1 3 5)) ∧
    (s % 32 = 1 → AlikeStored c c' (.num (2 + compWidth csiz) 2)) ∧
    (s % 32 = 2 → ∀ i < (l - (5 + compWidth csiz)) / 6, AlikeStored c c' (.num (2 + compWidth csiz + 2 * i) 2))
  /-- comments: all binary ones, and those of text without control characters -/
  comment : m = COM → ∀ l r, uint c 0 2 = some l → uint c 2 2 = some r →
    r = 0 ∨ (r = 1 ∧ ∀ x ∈ sub c 4 (l - 4), TextChar env.catC (iso885915 x)) → sub c 4 (l - 4) = sub c' 4 (l - 4)
  /-- the parts of the standard, and the first words of complete profile numbers -/
  parts : m = CAP → AlikeStored c c' (.num 2 4)
  profile : m = PRF → ∀ l (p p' : Nat → Nat), uint c 0 2 = some l → 4 ≤ l →
    (∀ i < (l - 2) / 2, uint c (2 + 2 * i) 2 = some (p i)) → (∀ i < (l - 2) / 2, uint c' (2 + 2 * i) 2 = some (p' i)) → p 0 = p' 0
  corresponding : m = CPF → ∀ l (p p' : Nat → Nat), uint c 0 2 = some l → 4 ≤ l →
    (∀ i < (l - 2) / 2, uint c (2 + 2 * i) 2 = some (p i)) → (∀ i < (l - 2) / 2, uint c' (2 + 2 * i) 2 = some (p' i)) → p 0 = p' 0
  /-- packet lengths below 2^14 -/
  packets : m = PLT → ∀ (len : Bytes) z ps (len' : Bytes) z' ps', c = len ++ [z] ++ ps.flatten → len.length = 2 →
    be len = 3 + ps.flatten.length → ShortPackets ps → c' = len' ++ [z'] ++ ps'.flatten → len'.length = 2 →
    be len' = 3 + ps'.flatten.length → ShortPackets ps' → ps = ps'
  packetsMain : m = PLM → ∀ (len : Bytes) z n ps (len' : Bytes) z' n' ps', c = len ++ [z, n] ++ ps.flatten → len.length = 2 →
    be len = 4 + ps.flatten.length → ShortPackets ps → c' = len' ++ [z', n'] ++ ps'.flatten → len'.length = 2 →
    be len' = 4 + ps'.flatten.length → ShortPackets ps' → ps = ps'

/-- The segments of a header that are reported. -/
def shownSegs (o : Options) (handled : List Bytes) (ss : List FoundSeg) : List FoundSeg :=
  ss.filter fun x => handled.contains x.marker && (o.packetmarkers || !packetSegments.contains x.marker)

/-- The reported segments of two headers are the same, one after the other. -/
inductive AlikeSegs (env : Env) (fmt : Format) (csiz : Nat) : List FoundSeg → List FoundSeg → Prop
  | nil : AlikeSegs env fmt csiz [] []
  | cons {x x' ss ss'} : x.marker = x'.marker → AlikeSeg env fmt csiz x.marker x.contents x'.contents →
      AlikeSegs env fmt csiz ss ss' → AlikeSegs env fmt csiz (x :: ss) (x' :: ss')

/-- Two tile-parts have the same SOT fields and the same reported segments. -/
structure AlikeTilePart (env : Env) (o : Options) (csiz : Nat) (b b' : Bytes) (t t' : TilePartInfo) : Prop where
  index : t.index = t'.index
  length : t.length = t'.length
  part : t.part = t'.part
  parts : t.parts = t'.parts
  segs : ∀ ss e ss' e', SegsTo b SOD (t.start + 12) ss e → SegsTo b' SOD (t'.start + 12) ss' e' →
    AlikeSegs env o.format csiz (shownSegs o tilePartSegments ss) (shownSegs o tilePartSegments ss')

/-- The same tile-parts in the same order. -/
inductive AlikeTileParts (env : Env) (o : Options) (csiz : Nat) (b b' : Bytes) : List TilePartInfo → List TilePartInfo → Prop
  | nil : AlikeTileParts env o csiz b b' [] []
  | cons {t t' ts ts'} : AlikeTilePart env o csiz b b' t t' → AlikeTileParts env o csiz b b' ts ts' →
      AlikeTileParts env o csiz b b' (t :: ts) (t' :: ts')

/-- The headers of two codestreams: the same SIZ segment, the same reported segments of the main header, and
the same tile-parts. -/
structure AlikeHeaders (env : Env) (o : Options) (b b' siz siz' : Bytes) (csiz csiz' : Nat) (main main' : List FoundSeg)
    (sot sot' : Option Nat) : Prop where
  components : csiz = csiz'
  size : AlikeSeg env o.format csiz SIZ siz siz'
  segs : AlikeSegs env o.format csiz (shownSegs o mainSegments main) (shownSegs o mainSegments main')
  tileParts : FieldIs siz 20 4 (1 ≤ ·) → FieldIs siz 24 4 (1 ≤ ·) → ∀ n k k' ts ts', TileCount siz n →
    sot = some k → sot' = some k' → Visited b (min n 65535) k ts → Visited b' (min n 65535) k' ts' →
    AlikeTileParts env o csiz b b' ts ts'

/-- The text that the first tag `desc` of an ICC profile refers to. -/
def DescriptionIs (c s : Bytes) : Prop := ∃ n i off size count, uint c 128 4 = some n ∧ n ≤ 4096 ∧
  FirstDesc c n i off size ∧ uint c (off + 8) 4 = some count ∧ 1 ≤ count ∧ 12 + count ≤ size ∧
  s = sub c (off + 12) (count - 1)

/-- Two ICC profiles have the same numbers and names in their headers, and the same tags. -/
structure AlikeProfile (env : Env) (c c' : Bytes) : Prop where
  fields : ∀ f ∈ iccFields ++ iccTopFlagFields, AlikeStored c c' f.reads ∧ AlikeNames env c c' f.reads
  tags : ∀ n n', uint c 128 4 = some n → uint c' 128 4 = some n' → min n 4096 = min n' 4096 ∧
    ∀ f ∈ iccEntry, ∀ i < min n 4096, AlikeNames env c c' (f.reads.shift (12 * i))
  version : 10 ≤ c.length → 10 ≤ c'.length → sub c 8 2 = sub c' 8 2
  /-- date and time, if month, day, hour, minute and second are below 256 -/
  date : (∀ i < 5, FieldIs c (26 + 2 * i) 2 (· < 256)) → (∀ i < 5, FieldIs c' (26 + 2 * i) 2 (· < 256)) →
    sub c 24 12 = sub c' 24 12
  description : ∀ s s', DescriptionIs c s → DescriptionIs c' s' → AlikeText env s s'

/-- Two payloads of boxes of type `t` have the same numbers and names in them. -/
structure AlikePayload (env : Env) (t p p' : Bytes) : Prop where
  ftyp : t = ascii "ftyp" → AlikeStored p p' (.num 4 4)
  ihdr : t = ascii "ihdr" → (∀ f ∈ ihdrFields, AlikeStored p p' f.reads) ∧
    (p.length = 14 → p'.length = 14 → p = p')
  bpcc : t = ascii "bpcc" → p = p'
  cmap : t = ascii "cmap" → p.length / 4 = p'.length / 4 ∧ ∀ f ∈ cmapEntry, AlikeEach p p' (p.length / 4) 4 f.reads
  cdef : t = ascii "cdef" → ∀ n, uint p 0 2 = some n → uint p' 0 2 = some n ∧
    ∀ f ∈ cdefEntry, AlikeEach p p' n 6 f.reads
  pclr : t = ascii "pclr" → AlikeStored p p' (.num 0 2) ∧ ∀ n, uint p 2 1 = some n → uint p' 2 1 = some n ∧
    ∀ f ∈ pclrEntry, AlikeEach p p' n 1 f.reads
  colr : t = ascii "colr" → (∀ f ∈ colrFields, AlikeStored p p' f.reads) ∧
    (uint p 0 1 = some 1 → p.length = 7 → p'.length = 7 → p = p') ∧
    (uint p 0 1 = some 5 → ∀ f ∈ colrParameterFields, AlikeStored p p' f.reads)
  resc : t = ascii "resc" → ∀ f ∈ rescFields, AlikeStored p p' f.reads
  resd : t = ascii "resd" → ∀ f ∈ resdFields, AlikeStored p p' f.reads
  url : t = ascii "url " → ∀ f ∈ urlFields, AlikeStored p p' f.reads
  /-- brand and compatibility list -/
  brands : t = ascii "ftyp" → (∀ f ∈ ftypFields, AlikeNames env p p' f.reads) ∧
    (p.length - 8) / 4 = (p'.length - 8) / 4 ∧
    ∀ f ∈ ftypEntry, ∀ i < (p.length - 8) / 4, AlikeNames env p p' (f.reads.shift (4 * i))
  profile : t = ascii "colr" → uint p 0 1 = some 2 ∨ uint p 0 1 = some 3 → AlikeProfile env (p.drop 3) (p'.drop 3)
  /-- the entries of two palettes, as far as they are there; if all columns have the same width, these are all entries -/
  entries : t = ascii "pclr" → ∀ (nE nPC : Nat) (w : Nat → Nat), uint p 0 2 = some nE → uint p 2 1 = some nPC →
    (∀ i < nPC, FieldIs p (3 + i) 1 (fun b => IsCeil (b % 128 + 1 : Nat) 8 (w i))) → 3 + nPC ≤ p'.length →
    ∀ i < nPC, ∀ k < nE, 3 + nPC + (i * nE + k) * w i + w i ≤ p.length → 3 + nPC + (i * nE + k) * w i + w i ≤ p'.length →
      sub p (3 + nPC + (i * nE + k) * w i) (w i) = sub p' (3 + nPC + (i * nE + k) * w i) (w i)
  uuid : t = ascii "uuid" → 16 ≤ p.length → 16 ≤ p'.length → p.take 16 ≠ xmpUuid → p'.take 16 ≠ xmpUuid →
    p.take 16 = p'.take 16
  uuids : t = ascii "ulst" → ∀ n n', uint p 0 2 = some n → uint p' 0 2 = some n' → n = n' ∧
    ∀ i < n, 2 + 16 * i + 16 ≤ p.length → 2 + 16 * i + 16 ≤ p'.length → sub p (2 + 16 * i) 16 = sub p' (2 + 16 * i) 16
  location : t = ascii "url " → ∀ s n s' n', p.drop 4 = s ++ List.replicate n 0 → s.getLast? ≠ some 0 →
    p'.drop 4 = s' ++ List.replicate n' 0 → s'.getLast? ≠ some 0 → AlikeText env s s'

/- The same boxes with the same numbers in them. -/
mutual
/-- Two boxes. -/
inductive AlikeBox (env : Env) (o : Options) : Bytes → Bytes → Bytes → Bytes → Prop
  | unknown {t p t' p'} : t ∉ knownBoxTypes → t' ∉ knownBoxTypes →
      (t.length = 4 → t'.length = 4 → AlikeText env t t') → AlikeBox env o t p t' p'
  | leaf {t p p'} : t ∈ knownBoxTypes → t ∉ superboxTypes → t ≠ ascii "jp2c" → AlikePayload env t p p' → AlikeBox env o t p t p'
  | codestream {t p p'} : t = ascii "jp2c" →
      (∀ siz csiz main sot siz' csiz' main' sot', sub p 0 2 = SOC → sub p' 0 2 = SOC →
        MainHeader p siz csiz main sot → MainHeader p' siz' csiz' main' sot' →
        AlikeHeaders env o p p' siz siz' csiz csiz' main main' sot sot') → AlikeBox env o t p t p'
  | super {t p p' bs bs'} : t ∈ superboxTypes → Boxes p bs → Boxes p' bs' → AlikeBoxes env o bs bs' → AlikeBox env o t p t p'
/-- Two lists of boxes. -/
inductive AlikeBoxes (env : Env) (o : Options) : List FoundBox → List FoundBox → Prop
  | nil : AlikeBoxes env o [] []
  | cons {x x' bs bs'} : AlikeBox env o x.type x.payload x'.type x'.payload → AlikeBoxes env o bs bs' →
      AlikeBoxes env o (x :: bs) (x' :: bs')
end

end Jpy.Spec
