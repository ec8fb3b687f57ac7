import Verif.Spec.Fields
import Verif.Spec.Codestream
import Verif.Spec.Packets
/-!
# Specification: the report mirrors the file, with its values

`Spec/Walk.lean` says which elements are reported for which boxes. Here the elements also carry the values
of `Spec/Fields.lean`, and the elements for a codestream are spelled out. These are the elements before
values are made printable; `Rendered` of `Spec/Report.lean` relates them to the text in the report.
-/

namespace Jpy.Spec

/-- What is reported for bytes that should be an XML document: the document; if there is none, and with
`--nullxml`, the document before trailing zero bytes; otherwise nothing. -/
def ShowsXml (env : Env) (o : Options) (b : Bytes) (es : List Elem) : Prop :=
  (∀ doc, env.parseXml b = some doc → es = [doc]) ∧
  (env.parseXml b = none → o.nullxml = false → es = []) ∧
  (env.parseXml b = none → o.nullxml = true → ∃ s n, b = s ++ List.replicate n 0 ∧ s.getLast? ≠ some 0 ∧
    es = (env.parseXml s).toList)

/-- The properties `es` of a box with type `t` and payload `p` are the values stored in it. -/
structure BoxValues (env : Env) (o : Options) (t p : Bytes) (es : List Elem) : Prop where
  ftyp : t = ascii "ftyp" → (∀ f ∈ ftypFields, ShowsField es p f) ∧
    ∀ f ∈ ftypEntry, ShowsEach es p ((p.length - 8) / 4) 4 f
  ihdr : t = ascii "ihdr" → ∀ f ∈ ihdrFields, ShowsField es p f
  bpcc : t = ascii "bpcc" → ∀ f ∈ bpccEntry, ShowsEach es p p.length 1 f
  cmap : t = ascii "cmap" → ∀ f ∈ cmapEntry, ShowsEach es p (p.length / 4) 4 f
  cdef : t = ascii "cdef" → (∀ f ∈ cdefFields, ShowsField es p f) ∧
    ∀ n, uint p 0 2 = some n → ∀ f ∈ cdefEntry, ShowsEach es p n 6 f
  pclr : t = ascii "pclr" → (∀ f ∈ pclrFields, ShowsField es p f) ∧
    ∀ n, uint p 2 1 = some n → ∀ f ∈ pclrEntry, ShowsEach es p n 1 f
  colr : t = ascii "colr" → (∀ f ∈ colrFields, ShowsField es p f) ∧
    (uint p 0 1 = some 1 → p.length = 7 → ShowsField es p ⟨"enumCS", .num 3 4⟩) ∧
    (uint p 0 1 = some 5 → ∀ f ∈ colrParameterFields, ShowsField es p f) ∧
    (uint p 0 1 = some 2 ∨ uint p 0 1 = some 3 → ∃ e, (es.filter fun e => e.tag == "icc") = [e] ∧
      (∀ f ∈ iccFields ++ iccTopFlagFields, ShowsField e.children (p.drop 3) f) ∧
      ∀ n, uint p 131 4 = some n → ∀ f ∈ iccEntry, ShowsEach e.children (p.drop 3) (min n 4096) 12 f)
  resc : t = ascii "resc" → ∀ f ∈ rescFields, ShowsField es p f
  resd : t = ascii "resd" → ∀ f ∈ resdFields, ShowsField es p f
  url : t = ascii "url " → ∀ f ∈ urlFields, ShowsField es p f
  /-- version, date and description of an ICC profile -/
  profile : t = ascii "colr" → uint p 0 1 = some 2 ∨ uint p 0 1 = some 3 →
    ∃ e, (es.filter fun e => e.tag == "icc") = [e] ∧
    (∀ major minor, uint (p.drop 3) 8 1 = some major → uint (p.drop 3) 9 1 = some minor →
      valuesOf e.children "profileVersion" = [.str (iccVersion major minor)]) ∧
    (∀ y mo d h mi s, uint (p.drop 3) 24 2 = some y → uint (p.drop 3) 26 2 = some mo →
      uint (p.drop 3) 28 2 = some d → uint (p.drop 3) 30 2 = some h → uint (p.drop 3) 32 2 = some mi →
      uint (p.drop 3) 34 2 = some s → mo < 256 → d < 256 → h < 256 → mi < 256 → s < 256 →
      valuesOf e.children "dateTimeString" = [.str (iccDateTime y mo d h mi s)]) ∧
    ∀ n i off size count, uint (p.drop 3) 128 4 = some n → n ≤ 4096 → FirstDesc (p.drop 3) n i off size →
      uint (p.drop 3) (off + 8) 4 = some count → 1 ≤ count → 12 + count ≤ size →
      valuesOf e.children "description" = [.bytes (sub (p.drop 3) (off + 12) (count - 1))]
  /-- the entries of a palette whose columns have the same width -/
  entries : t = ascii "pclr" → ∀ nE nPC w : Nat, uint p 0 2 = some nE → uint p 2 1 = some nPC →
    (∀ i < nPC, FieldIs p (3 + i) 1 (fun b => IsCeil (b % 128 + 1 : Nat) 8 w)) → 3 + nPC + nPC * nE * w ≤ p.length →
    valuesOf es "cP" = (List.range (nPC * nE)).map fun (j : Nat) => .int (be (sub p (3 + nPC + j * w) w))
  /-- the entries of any palette: those of a column are read as if all columns had its width (C36); -9999 stands for
  an entry of which no byte is there -/
  columns : t = ascii "pclr" → ∀ (nE nPC : Nat) (w : Nat → Nat), uint p 0 2 = some nE → uint p 2 1 = some nPC →
    (∀ i < nPC, FieldIs p (3 + i) 1 (fun b => IsCeil (b % 128 + 1 : Nat) 8 (w i))) →
    valuesOf es "cP" = (List.range nPC).flatMap fun i => (List.range nE).map fun k =>
      .int (if sub p (3 + nPC + (i * nE + k) * w i) (w i) = [] then -9999
        else be (sub p (3 + nPC + (i * nE + k) * w i) (w i)))
  /-- resolutions in pixels per metre and per inch -/
  resolution : ∀ x, t = ascii "resc" ∧ x = "c" ∨ t = ascii "resd" ∧ x = "d" → ResOk p →
    ∀ vN vD hN hD vE hE, uint p 0 2 = some vN → uint p 2 2 = some vD → uint p 4 2 = some hN →
    uint p 6 2 = some hD → uint p 8 1 = some vE → uint p 9 1 = some hE →
    (∃ f, valuesOf es ("vRes" ++ x ++ "InPixelsPerMeter") = [.flt f] ∧ RatIs f vN vD (signedByte vE) 1 1) ∧
    (∃ f, valuesOf es ("hRes" ++ x ++ "InPixelsPerMeter") = [.flt f] ∧ RatIs f hN hD (signedByte hE) 1 1) ∧
    (∃ f, valuesOf es ("vRes" ++ x ++ "InPixelsPerInch") = [.flt f] ∧ RatIs f vN vD (signedByte vE) 254 10000) ∧
    (∃ f, valuesOf es ("hRes" ++ x ++ "InPixelsPerInch") = [.flt f] ∧ RatIs f hN hD (signedByte hE) 254 10000)
  /-- an XML document: the parsed tree; with `--nullxml` also one that is followed by zero bytes -/
  xml : t = ascii "xml " → ShowsXml env o p es
  /-- a UUID, or the XML document of an XMP box -/
  uuid : t = ascii "uuid" → p.take 16 ≠ xmpUuid → ∃ s, IsUuidText (p.take 16) s ∧ es = [.leaf "uuid" (.str s)]
  xmp : t = ascii "uuid" → p.take 16 = xmpUuid → ShowsXml env o (p.drop 16) es
  uuids : t = ascii "ulst" → ∀ n, uint p 0 2 = some n → valuesOf es "nU" = [.int n] ∧ (valuesOf es "uuid").length = n ∧
    ∀ i < n, ∃ s, IsUuidText (sub p (2 + 16 * i) 16) s ∧ (valuesOf es "uuid")[i]? = some (.str s)
  /-- a location, without its trailing zero bytes -/
  location : t = ascii "url " → ∃ s n, p.drop 4 = s ++ List.replicate n 0 ∧ s.getLast? ≠ some 0 ∧
    valuesOf es "loc" = [.bytes s]
  /-- the type of an unknown box -/
  unknown : t.length = 4 → t ∉ knownBoxTypes → es = [.leaf "boxType" (.bytes t)]

/-- The properties `es` of a marker segment are the values stored in it; `fmt` is the format asked for and
`csiz` the number of components. -/
structure SegValues (env : Env) (fmt : Format) (csiz : Nat) (m c : Bytes) (es : List Elem) : Prop where
  siz : m = SIZ → (∀ f ∈ sizFields, ShowsField es c f) ∧
    ∀ n, uint c 36 2 = some n → ∀ f ∈ sizEntry, ShowsEach es c n 3 f
  cod : m = COD → (∀ f ∈ codFields, ShowsField es c f) ∧
    ∀ s, uint c 10 1 = some s → ∀ f ∈ codeBlockMoreFields 8,
      if fmt.isHT = true ∧ s / 64 = 1 then valuesOf es f.tag = [] else ShowsField es c f
  coc : m = COC → (∀ f ∈ cocFields (compWidth csiz), ShowsField es c f) ∧
    ∀ s, uint c (6 + compWidth csiz) 1 = some s → ∀ f ∈ codeBlockMoreFields (4 + compWidth csiz),
      if fmt.isHT = true ∧ s / 64 = 1 then valuesOf es f.tag = [] else ShowsField es c f
  rgn : m = RGN → ∀ f ∈ rgnFields (compWidth csiz), ShowsField es c f
  qcd : m = QCD → ∀ f ∈ qcdFields, ShowsField es c f
  qcc : m = QCC → ∀ f ∈ qccFields (compWidth csiz), ShowsField es c f
  poc : m = POC → (∀ f ∈ pocFields, ShowsField es c f) ∧
    ∀ l, uint c 0 2 = some l → ∀ f ∈ pocFieldsEach (compWidth csiz),
      ShowsEach es c ((l - 2) / (5 + 2 * compWidth csiz)) (5 + 2 * compWidth csiz) f
  crg : m = CRG → (∀ f ∈ crgFields, ShowsField es c f) ∧ ∀ f ∈ crgEntry, ShowsEach es c csiz 4 f
  com : m = COM → ∀ f ∈ comFields, ShowsField es c f
  cap : m = CAP → ∀ f ∈ capFields, ShowsField es c f
  prf : m = PRF → ∀ f ∈ prfFields, ShowsField es c f
  cpf : m = CPF → ∀ f ∈ cpfFields, ShowsField es c f
  plm : m = PLM → ∀ f ∈ plmFields, ShowsField es c f
  plt : m = PLT → ∀ f ∈ pltFields, ShowsField es c f
  /-- capabilities in words -/
  capability : m = SIZ → ∀ n s, uint c 2 2 = some n → CapabilityText n s → valuesOf es "capability" = [.str s]
  /-- parts of the standard, and the parameters of part 15 -/
  parts : m = CAP → ∀ p, uint c 2 4 = some p →
    ∃ ps, IsCapParts p ps ∧ valuesOf es "pcapPart" = ps.map (fun (k : Nat) => .int k) ∧
      ∀ ccap, fmt.isHT = true → bit 17 p = 1 → uint c (6 + 2 * (ps.filter (· < 15)).length) 2 = some ccap →
        valuesOf es "htCodeBlocks" = [.int ((ccap / 2 ^ 14 * 2 ^ 14 : Nat) : Int)] ∧
        valuesOf es "htSets" = [.int (bit 13 ccap : Nat)] ∧ valuesOf es "htRegion" = [.int (bit 12 ccap : Nat)] ∧
        valuesOf es "htHomogeneous" = [.int (bit 11 ccap : Nat)] ∧
        valuesOf es "htReversible" = [.int (bit 5 ccap : Nat)] ∧ valuesOf es "htB" = [.int (HtB (ccap % 32) : Nat)]
  /-- precinct sizes -/
  codPrecincts : m = COD → ∀ style levels, uint c 2 1 = some style → uint c 7 1 = some levels →
    PrecinctsReported c 12 style levels { chars := es }
  cocPrecincts : m = COC → ∀ style levels, uint c (2 + compWidth csiz) 1 = some style →
    uint c (3 + compWidth csiz) 1 = some levels → PrecinctsReported c (8 + compWidth csiz) style levels { chars := es }
  /-- quantization step sizes: the first ones only -/
  steps : m = QCD → ∀ l s, uint c 0 2 = some l → uint c 2 1 = some s →
    (s % 32 = 0 → StepSizesNone c 3 ((l - 4) / 3) { chars := es }) ∧
    (s % 32 = 1 → StepSizesScalar c 3 1 { chars := es }) ∧
    (s % 32 = 2 → StepSizesScalar c 3 ((l - 5) / 6) { chars := es })
  /-- quantization step sizes of a component: read from the style byte on, one byte too early (C28) -/
  stepsComponent : m = QCC → ∀ l s, uint c 0 2 = some l → uint c (2 + compWidth csiz) 1 = some s →
    (s % 32 = 0 → StepSizesNone c (2 + compWidth csiz) ((l - (4 + compWidth csiz)) / 3) { chars := es }) ∧
    (s % 32 = 1 → StepSizesScalar c (2 + compWidth csiz) 1 { chars := es }) ∧
    (s % 32 = 2 → StepSizesScalar c (2 + compWidth csiz) ((l - (5 + compWidth csiz)) / 6) { chars := es })
  /-- comments -/
  comment : m = COM → ∀ l r, uint c 0 2 = some l → uint c 2 2 = some r →
    (r = 0 → ∃ h, IsHex (sub c 4 (l - 4)) h ∧ valuesOf es "comment" = [.bytes h]) ∧
    (r = 1 → (∀ x ∈ sub c 4 (l - 4), TextChar env.catC (iso885915 x)) →
      valuesOf es "comment" = [.str (String.ofList ((sub c 4 (l - 4)).map iso885915))]) ∧
    (r = 1 → ¬ (∀ x ∈ sub c 4 (l - 4), TextChar env.catC (iso885915 x)) → valuesOf es "comment" = []) ∧
    (2 ≤ r → valuesOf es "comment" = [])
  /-- profile numbers: as if the first word were repeated (C32) -/
  prfNumber : m = PRF → ∀ l (p : Nat → Nat), uint c 0 2 = some l → (∀ i < (l - 2) / 2, uint c (2 + 2 * i) 2 = some (p i)) →
    valuesOf es "PRFnum" = [.int (4095 + (((List.range ((l - 2) / 2)).map fun i => p 0 * 65536 ^ i).sum : Nat))]
  cpfNumber : m = CPF → ∀ l (p : Nat → Nat), uint c 0 2 = some l → (∀ i < (l - 2) / 2, uint c (2 + 2 * i) 2 = some (p i)) →
    valuesOf es "CPFnum" = [.int (-1 + (((List.range ((l - 2) / 2)).map fun i => p 0 * 65536 ^ i).sum : Nat))]
  /-- packet lengths modulo 2^14 (C13) -/
  packets : m = PLT → ∀ (len : Bytes) z (ps : List Bytes), c = len ++ [z] ++ ps.flatten → len.length = 2 →
    be len = 3 + ps.flatten.length → (∀ e ∈ ps, PacketLength e) →
    valuesOf es "iplt" = [.str (hexList (ps.map fun e => (e.length, base128 e % 2 ^ 14)))]
  packetsMain : m = PLM → ∀ (len : Bytes) z n (ps : List Bytes), c = len ++ [z, n] ++ ps.flatten → len.length = 2 →
    be len = 4 + ps.flatten.length → (∀ e ∈ ps, PacketLength e) →
    valuesOf es "iplm" = [.str (hexList (ps.map fun e => (e.length, base128 e % 2 ^ 14)))]

/-- The names under which marker segments are reported. -/
def segNames : List (Bytes × String) :=
  [(SIZ, "siz"), (COD, "cod"), (COC, "coc"), (QCD, "qcd"), (QCC, "qcc"), (RGN, "rgn"), (POC, "poc"),
   (CRG, "crg"), (COM, "com"), (CAP, "cap"), (PRF, "prf"), (CPF, "cpf"), (TLM, "tlm"), (PLM, "plm"),
   (PPM, "ppm"), (PLT, "plt"), (PPT, "ppt")]

/-- The segments that are reported only on request. -/
def packetSegments : List Bytes := [PLM, PPM, PLT, PPT]

/-- One element for each segment of a header, in order. Segments whose marker is not in `handled` are
skipped, and packet segments are skipped unless `--packetmarkers` is given. -/
inductive ShowsSegs (env : Env) (o : Options) (csiz : Nat) (handled : List Bytes) : List FoundSeg → List Elem → Prop
  | nil : ShowsSegs env o csiz handled [] []
  | skip {x ss es} : x.marker ∉ handled ∨ (x.marker ∈ packetSegments ∧ o.packetmarkers = false) →
      ShowsSegs env o csiz handled ss es → ShowsSegs env o csiz handled (x :: ss) es
  | show {x ss e es} : x.marker ∈ handled → (x.marker ∈ packetSegments → o.packetmarkers = true) →
      (x.marker, e.tag) ∈ segNames → SegValues env o.format csiz x.marker x.contents e.children →
      ShowsSegs env o csiz handled ss es → ShowsSegs env o csiz handled (x :: ss) (e :: es)

/-- The number of segments with a marker. -/
def segNumber (m : Bytes) (ss : List FoundSeg) : Nat := (ss.filter fun x => x.marker == m).length

/-- The element for a tile-part: its SOT fields, its header segments, and two counts. -/
inductive ShowsTilePart (env : Env) (o : Options) (csiz : Nat) (b : Bytes) (t : TilePartInfo) : Elem → Prop
  | mk {sot : Elem} {ss e segs} : sot.tag = "sot" →
      (∀ f ∈ sotFields, ShowsField sot.children (sub b (t.start + 2) 10) f) →
      SegsTo b SOD (t.start + 12) ss e → ShowsSegs env o csiz tilePartSegments ss segs →
      ShowsTilePart env o csiz b t (.node "tilePart" (sot :: (segs ++
        [.leaf "pltCount" (.int (segNumber PLT ss)), .leaf "pptCount" (.int (segNumber PPT ss))])))

/-- One element for each tile-part, in order. -/
inductive ShowsTileParts (env : Env) (o : Options) (csiz : Nat) (b : Bytes) : List TilePartInfo → List Elem → Prop
  | nil : ShowsTileParts env o csiz b [] []
  | cons {t ts e es} : ShowsTilePart env o csiz b t e → ShowsTileParts env o csiz b ts es →
      ShowsTileParts env o csiz b (t :: ts) (e :: es)

/-- The properties of a codestream with the given main header: the SIZ segment, the other segments, two
counts, and the tile-parts; a bare codestream also has a compression ratio. `n` is the number of tiles
reported; it is the product of A.5.1 unless a tile has no extent. -/
inductive ShowsCodestream (env : Env) (o : Options) (b siz : Bytes) (csiz : Nat) (main : List FoundSeg) (sot : Option Nat) :
    List Elem → Prop
  | mk {s : Elem} {segs tps ratio : List Elem} {n : Int} : s.tag = "siz" →
      SegValues env o.format csiz SIZ siz s.children → valuesOf s.children "numberOfTiles" = [.int n] →
      (FieldIs siz 20 4 (1 ≤ ·) → FieldIs siz 24 4 (1 ≤ ·) → TileCount siz n) →
      ShowsSegs env o csiz mainSegments main segs →
      (∀ k ts, sot = some k → Visited b (min n 65535) k ts → ShowsTileParts env o csiz b ts tps) →
      (sot = none → tps = []) →
      (o.format = .jp2 ∨ o.format = .jph → ratio = []) →
      (o.format = .j2c ∨ o.format = .jhc → ∃ v, ratio = [.leaf "compressionRatio" v]) →
      ShowsCodestream env o b siz csiz main sot (s :: (segs ++
        [.leaf "ppmCount" (.int (segNumber PPM main)), .leaf "plmCount" (.int (segNumber PLM main)),
         .node "tileParts" tps] ++ ratio))

/- The elements for the boxes of a file, with their values. -/
mutual
/-- One box. When the file ends inside the type, what is left of it may be taken for a marker. -/
inductive ShowsBoxV (env : Env) (o : Options) : Bytes → Bytes → Elem → Prop
  | leaf {t p e} : t ∉ superboxTypes → t ≠ ascii "jp2c" →
      e.tag = boxName t ∨ (t.length = 2 ∧ (t, e.tag) ∈ segNames) →
      BoxValues env o t p e.children → ShowsBoxV env o t p e
  | codestream {t p e} : t = ascii "jp2c" → e.tag = "contiguousCodestreamBox" →
      (∀ siz csiz main sot, sub p 0 2 = SOC → MainHeader p siz csiz main sot →
        ShowsCodestream env o p siz csiz main sot e.children) →
      ShowsBoxV env o t p e
  | super {t p e bs} : t ∈ superboxTypes → e.tag = boxName t → Boxes p bs → ShowsBoxesV env o bs e.children →
      ShowsBoxV env o t p e
/-- A list of boxes, one element for each, in order. -/
inductive ShowsBoxesV (env : Env) (o : Options) : List FoundBox → List Elem → Prop
  | nil : ShowsBoxesV env o [] []
  | cons {x e bs es} : ShowsBoxV env o x.type x.payload e → ShowsBoxesV env o bs es → ShowsBoxesV env o (x :: bs) (e :: es)
end

/-- Two lists of elements, the second one being the first one made printable. -/
def RenderedList (env : Env) (raw out : List Elem) : Prop :=
  raw.length = out.length ∧ ∀ i (h : i < raw.length) (h' : i < out.length),
    Rendered env descriptions raw[i] out[i]

end Jpy.Spec
