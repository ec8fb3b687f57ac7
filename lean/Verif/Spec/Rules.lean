import Verif.Spec.Boxes
import Verif.Spec.Codestream
/-!
# Specification of the individual tests

For every box and marker segment: the names of the tests and the rule each of them stands for, in terms of
the bytes of the box or segment. `c` is the payload of the box, or the segment from its length field on.

The rules say what the tests stand for as the program performs them. Where that is less than the standard
requires, the comment "weaker" says so.
-/

namespace Jpy.Spec

/-- The name of a test and the rule it stands for. -/
abbrev Rule := String × Prop

/-- A test with this name is reported as failed. -/
def Failed (tests : List Elem) (name : String) : Prop :=
  ∃ e ∈ tests, e.tag = name ∧ e.text = .bool false

/-- The failed tests are exactly those whose rule is violated; no other names occur. -/
def Diagnosed (tests : List Elem) (rules : List Rule) : Prop :=
  ∀ name, Failed tests name ↔ ∃ P, (name, P) ∈ rules ∧ ¬ P

/-! ## Boxes -/

/-- Signature box. -/
def signatureRules (c : Bytes) : List Rule :=
  [ ("boxLengthIsValid", c.length = 4),
    ("signatureIsValid", sub c 0 4 = [0x0d, 0x0a, 0x87, 0x0a]) ]

/-- File type box. -/
def ftypRules (fmt : Format) (c : Bytes) : List Rule :=
  [ ("boxLengthIsValid", c.length % 4 = 0), -- weaker: lengths 0 and 4
    ("brandIsValid", ∀ br, brandOf fmt = some br → sub c 0 4 = br),
    ("minorVersionIsValid", FieldIs c 4 4 (· = 0)),
    ("compatibilityListIsValid", ∀ br, brandOf fmt = some br →
      ∃ i, i < (c.length - 8) / 4 ∧ sub c (8 + 4 * i) 4 = br) ]

/-- Image header box. -/
def ihdrRules (c : Bytes) : List Rule :=
  [ ("boxLengthIsValid", c.length = 14),
    ("heightIsValid", FieldIs c 0 4 (1 ≤ ·)),
    ("widthIsValid", FieldIs c 4 4 (1 ≤ ·)),
    ("nCIsValid", FieldIs c 8 2 (fun n => 1 ≤ n ∧ n ≤ 16384)),
    ("bPCIsValid", FieldIs c 10 1 (fun _ => True)), -- weaker: every value is accepted
    ("cIsValid", FieldIs c 11 1 (· = 7)),
    ("unkCIsValid", FieldIs c 12 1 (· ≤ 1)),
    ("iPRIsValid", FieldIs c 13 1 (· ≤ 1)) ]

/-- Bits per component box. -/
def bpccRules (c : Bytes) : List Rule :=
  [ ("bPCIsValid", ∀ i < c.length, FieldIs c i 1 (fun v => v % 128 + 1 ≤ 38)) ]

/-- Colour specification box. -/
def colrRules (fmt : Format) (c : Bytes) : List Rule :=
  [ ("methIsValid", fmt = .jp2 ∨ fmt = .jph → FieldIs c 0 1 (methodsOf fmt)),
    ("precIsValid", FieldIs c 1 1 (· = 0)),
    ("approxIsValid", FieldIs c 2 1 (· = 0)),
    ("enumCSIsValid", FieldIs c 0 1 (· = 1) →
      c.length = 7 ∧ FieldIs c 3 4 (fun e => e = 16 ∨ e = 17 ∨ e = 18)),
    ("iccSizeIsValid", FieldIs c 0 1 (· = 2) → FieldIs (c.drop 3) 0 4 (· = (c.drop 3).length)),
    ("iccPermittedProfileClass", FieldIs c 0 1 (· = 2) →
      sub (c.drop 3) 12 4 = [115, 99, 110, 114] ∨ sub (c.drop 3) 12 4 = [109, 110, 116, 114]),
    ("iccNoLUTBasedProfile", FieldIs c 0 1 (· = 2) → NoLut 4096 (c.drop 3)), -- weaker: 4096 tags
    ("colPrimsIsValid", FieldIs c 0 1 (· = 5) → fmt = .jph →
      FieldIs c 3 2 (fun v => v ∈ [1, 2, 4, 5, 6, 7, 8, 9, 10, 11, 12, 22])),
    ("transfCIsValid", FieldIs c 0 1 (· = 5) → fmt = .jph →
      FieldIs c 5 2 (fun v => v = 1 ∨ v = 2 ∨ (4 ≤ v ∧ v ≤ 18))),
    ("matCoeffsIsValid", FieldIs c 0 1 (· = 5) → fmt = .jph →
      FieldIs c 7 2 (fun v => v ≤ 14 ∧ v ≠ 3)) ]

/-- Palette box. -/
def paletteRules (c : Bytes) : List Rule :=
  [ ("nEIsValid", FieldIs c 0 2 (fun n => 1 ≤ n ∧ n ≤ 1024)),
    ("nPCIsValid", FieldIs c 2 1 (1 ≤ ·)),
    ("bDepthIsValid", ∀ n, uint c 2 1 = some n → ∀ i < n, FieldIs c (3 + i) 1 (fun b => b % 128 + 1 ≤ 38)) ]

/-- Component mapping box. -/
def cmapRules (c : Bytes) : List Rule :=
  [ ("cMPIsValid", ∀ i < c.length / 4, FieldIs c (4 * i) 2 (· ≤ 16384)),
    ("mTypIsValid", ∀ i < c.length / 4, FieldIs c (4 * i + 2) 1 (· ≤ 1)),
    ("pColIsValid", ∀ i < c.length / 4, FieldIs c (4 * i + 2) 1 (· = 0) → FieldIs c (4 * i + 3) 1 (· = 0)) ]

/-- Channel definition box. -/
def cdefRules (fmt : Format) (c : Bytes) : List Rule :=
  [ ("nIsValid", FieldIs c 0 2 (1 ≤ ·)),
    ("boxLengthIsValid", FieldIs c 0 2 (fun n => c.length = 2 + 6 * n)),
    ("cNIsValid", ∀ n, uint c 0 2 = some n → ∀ i < n, FieldIs c (2 + 6 * i) 2 (fun _ => True)),
    ("cTypIsValid", fmt = .jp2 ∨ fmt = .jph → ∀ n, uint c 0 2 = some n → ∀ i < n,
      FieldIs c (2 + 6 * i + 2) 2 (channelTypesOf fmt)),
    -- weaker: looks at the type again, so the association may be missing
    ("cAssocIsValid", ∀ n, uint c 0 2 = some n → ∀ i < n, FieldIs c (2 + 6 * i + 2) 2 (fun _ => True)),
    ("noMoreThanOneAlphaChannel", fmt = .jph → ∀ n, uint c 0 2 = some n →
      ∀ i < n, ∀ j < n, IsAlpha c i → IsAlpha c j → i = j),
    ("cAssocAlphaChannelIsZero", fmt = .jph → ∀ n, uint c 0 2 = some n →
      ∀ i < n, IsAlpha c i → FieldIs c (2 + 6 * i + 4) 2 (· = 0)) ]

/-- Capture (`x` = "c") and display (`x` = "d") resolution boxes. -/
def resRules (x : String) (c : Bytes) : List Rule :=
  [ ("boxLengthIsValid", c.length = 10),
    ("vR" ++ x ++ "NIsValid", FieldIs c 0 2 (1 ≤ ·)),
    ("vR" ++ x ++ "DIsValid", FieldIs c 2 2 (1 ≤ ·)),
    ("hR" ++ x ++ "NIsValid", FieldIs c 4 2 (1 ≤ ·)),
    ("hR" ++ x ++ "DIsValid", FieldIs c 6 2 (1 ≤ ·)),
    ("vR" ++ x ++ "EIsValid", FieldIs c 8 1 (fun _ => True)),
    ("hR" ++ x ++ "EIsValid", FieldIs c 9 1 (fun _ => True)) ]

/-- XML box; `wf` says which byte strings are well-formed XML. -/
def xmlRules (wf : Bytes → Prop) (c : Bytes) : List Rule :=
  [ ("containsWellformedXML", wf c) ]

/-- UUID box. -/
def uuidRules (wf : Bytes → Prop) (c : Bytes) : List Rule :=
  [ ("boxLengthIsValid", 16 < c.length),
    ("containsWellformedXML", sub c 0 16 = xmpUuid → wf (c.drop 16)) ]

/-- UUID list box. -/
def ulstRules (c : Bytes) : List Rule :=
  [ ("boxLengthIsValid", FieldIs c 0 2 (fun n => c.length = 2 + 16 * n)) ]

/-- URL box. -/
def urlRules (c : Bytes) : List Rule :=
  [ ("versionIsValid", FieldIs c 0 1 (· = 0)),
    ("flagIsValid", sub c 1 3 = [0, 0, 0]),
    ("locHasNullTerminator", (c.drop 4).getLast? = some 0),
    ("locIsUTF8", ∃ s n cs, c.drop 4 = s ++ List.replicate n 0 ∧ s.getLast? ≠ some 0 ∧ IsUtf8 s cs) ]

/-- The rules for a box that is not a superbox or a codestream. Boxes without tests have no rules. -/
def boxRules (wf : Bytes → Prop) (fmt : Format) (t c : Bytes) : List Rule :=
  if t = ascii "jP  " then signatureRules c
  else if t = ascii "ftyp" then ftypRules fmt c
  else if t = ascii "ihdr" then ihdrRules c
  else if t = ascii "bpcc" then bpccRules c
  else if t = ascii "colr" then colrRules fmt c
  else if t = ascii "pclr" then paletteRules c
  else if t = ascii "cmap" then cmapRules c
  else if t = ascii "cdef" then cdefRules fmt c
  else if t = ascii "resc" then resRules "c" c
  else if t = ascii "resd" then resRules "d" c
  else if t = ascii "xml " then xmlRules wf c
  else if t = ascii "uuid" then uuidRules wf c
  else if t = ascii "ulst" then ulstRules c
  else if t = ascii "url " then urlRules c
  else []

/-! ## Marker segments -/

/-- SIZ. -/
def sizRules (fmt : Format) (c : Bytes) : List Rule :=
  [ ("lsizIsValid", FieldIs c 0 2 (fun l => 41 ≤ l ∧ l ≤ 49190)),
    ("rsizIsValid", FieldIs c 2 2 (RsizOk fmt)),
    ("xsizIsValid", FieldIs c 4 4 (1 ≤ ·)),
    ("ysizIsValid", FieldIs c 8 4 (1 ≤ ·)),
    ("xOsizIsValid", FieldIs c 12 4 (· ≤ 2 ^ 32 - 2)),
    ("yOsizIsValid", FieldIs c 16 4 (· ≤ 2 ^ 32 - 2)),
    ("xTsizIsValid", FieldIs c 20 4 (1 ≤ ·)),
    ("yTsizIsValid", FieldIs c 24 4 (1 ≤ ·)),
    ("xTOsizIsValid", FieldIs c 28 4 (· ≤ 2 ^ 32 - 2)),
    ("yTOsizIsValid", FieldIs c 32 4 (· ≤ 2 ^ 32 - 2)),
    ("csizIsValid", FieldIs c 36 2 (fun n => 1 ≤ n ∧ n ≤ 16384)),
    ("lsizConsistentWithCsiz", FieldIs c 36 2 (fun n => FieldIs c 0 2 (· = 38 + 3 * n))),
    ("ssizIsValid", ∀ n, uint c 36 2 = some n → ∀ i < n, FieldIs c (38 + 3 * i) 1 (fun s => s % 128 + 1 ≤ 38)),
    ("xRsizIsValid", ∀ n, uint c 36 2 = some n → ∀ i < n, FieldIs c (38 + 3 * i + 1) 1 (1 ≤ ·)),
    ("yRsizIsValid", ∀ n, uint c 36 2 = some n → ∀ i < n, FieldIs c (38 + 3 * i + 2) 1 (1 ≤ ·)) ]

/-- Code blocks and transformation, from offset `off` on (in COD and COC). -/
def codeBlockRules (c : Bytes) (off : Nat) : List Rule :=
  [ ("codeBlockWidthExponentIsValid", FieldIs c off 1 (fun w => w + 2 ≤ 10)),
    ("codeBlockHeightExponentIsValid", FieldIs c (off + 1) 1 (fun h => h + 2 ≤ 10)),
    ("sumHeightWidthExponentIsValid", ∀ w h, uint c off 1 = some w → uint c (off + 1) 1 = some h →
      (w + 2) + (h + 2) ≤ 12),
    ("transformationIsValid", FieldIs c (off + 3) 1 (· ≤ 1)) ]

/-- Precinct sizes from offset `off` on, with the style byte at `st` and the number of decomposition
levels at `lv`: exponent zero is only for the lowest resolution. Weaker: missing bytes pass. -/
def precinctRules (c : Bytes) (st lv off : Nat) : List Rule :=
  [ ("precinctSizeXIsValid", FieldIs c st 1 (bit 0 · = 1) → ∀ n, uint c lv 1 = some n →
      ∀ i, 1 ≤ i → i ≤ n → ∀ v, uint c (off + i) 1 = some v → 1 ≤ v % 16),
    ("precinctSizeYIsValid", FieldIs c st 1 (bit 0 · = 1) → ∀ n, uint c lv 1 = some n →
      ∀ i, 1 ≤ i → i ≤ n → ∀ v, uint c (off + i) 1 = some v → 1 ≤ v / 16) ]

/-- COD. -/
def codRules (c : Bytes) : List Rule :=
  [ ("lcodIsValid", FieldIs c 0 2 (fun l => 12 ≤ l ∧ l ≤ 45)),
    ("orderIsValid", FieldIs c 3 1 (· ≤ 4)),
    ("layersIsValid", FieldIs c 4 2 (1 ≤ ·)),
    ("multipleComponentTransformationIsValid", FieldIs c 6 1 (· ≤ 1)),
    ("levelsIsValid", FieldIs c 7 1 (· ≤ 32)),
    ("lcodConsistencyCheck", FieldIs c 0 2 (fun l => FieldIs c 2 1 (fun s =>
      (bit 0 s = 0 → l = 12) ∧ (bit 0 s = 1 → FieldIs c 7 1 (fun n => l = 13 + n))))) ]
  ++ codeBlockRules c 8 ++ precinctRules c 2 7 12

/-- COC. -/
def cocRules (csiz : Int) (c : Bytes) : List Rule :=
  let o := 2 + compWidth csiz
  [ ("lcocIsValid", FieldIs c 0 2 (fun l => 9 ≤ l ∧ l ≤ 43)),
    ("ccocIsValid", CompIndexOk csiz c 2),
    ("levelsIsValid", FieldIs c (o + 1) 1 (· ≤ 32)),
    ("lcocConsistencyCheck", FieldIs c 0 2 (fun l => FieldIs c o 1 (fun s =>
      (bit 0 s = 0 → l = 8 + compWidth csiz) ∧
      (bit 0 s = 1 → FieldIs c (o + 1) 1 (fun n => l = 9 + compWidth csiz + n))))) ]
  ++ codeBlockRules c (o + 2) ++ precinctRules c o (o + 1) (o + 6)

/-- RGN. -/
def rgnRules (fmt : Format) (csiz : Int) (c : Bytes) : List Rule :=
  let o := 2 + compWidth csiz
  [ ("lrgnIsValid", FieldIs c 0 2 (fun l => 5 ≤ l ∧ l ≤ 6)),
    ("crgnIsValid", CompIndexOk csiz c 2),
    ("roiStyleIsValid", FieldIs c o 1 (· = 0)),
    ("roiShiftIsValid", FieldIs c (o + 1) 1 (fun s => fmt.isHT = true → s ≤ 37)) ]

/-- QCD. -/
def qcdRules (c : Bytes) : List Rule :=
  [ ("lqcdIsValid", FieldIs c 0 2 (fun l => 4 ≤ l ∧ l ≤ 197)),
    ("qStyleIsValid", FieldIs c 2 1 (fun s => s % 32 ≤ 2)) ]

/-- QCC. -/
def qccRules (csiz : Int) (c : Bytes) : List Rule :=
  [ ("lqccIsValid", FieldIs c 0 2 (fun l => 5 ≤ l ∧ l ≤ 199)),
    ("qStyleIsValid", FieldIs c (2 + compWidth csiz) 1 (fun s => s % 32 ≤ 2)) ]

/-- POC: every rule is for all entries that fit in the declared length. -/
def pocRules (csiz : Int) (c : Bytes) : List Rule :=
  let w := compWidth csiz
  let entries := fun (P : Nat → Prop) =>
    ∀ l, uint c 0 2 = some l → ∀ i < (l - 2) / (5 + 2 * w), P (2 + (5 + 2 * w) * i)
  [ ("lpocIsValid", FieldIs c 0 2 (9 ≤ ·)),
    ("rspocIsValid", entries fun off => FieldIs c off 1 (· ≤ 32)),
    ("cspocIsValid", entries fun off => CompIndexOk csiz c (off + 1)),
    ("lyepocIsValid", entries fun off => FieldIs c (off + 1 + w) 2 (1 ≤ ·)),
    ("repocIsValid", entries fun off => FieldIs c off 1 (fun rs =>
      FieldIs c (off + 3 + w) 1 (fun re => rs < re ∧ re ≤ 33))),
    ("cepocIsValid", entries fun off => FieldIs c (off + 1) w (fun cs =>
      FieldIs c (off + 4 + w) w (fun ce => ce = 0 ∨ (cs < ce ∧ (csiz < 257 ∨ ce ≤ 16384))))),
    ("orderIsValid", entries fun off => FieldIs c (off + 4 + 2 * w) 1 (· ≤ 4)) ]

/-- CRG. -/
def crgRules (csiz : Int) (c : Bytes) : List Rule :=
  [ ("lcrgIsValid", FieldIs c 0 2 (fun l => 6 ≤ l ∧ l ≤ 65534)),
    ("xcrgIsValid", ∀ i : Nat, (i : Int) < csiz → FieldIs c (2 + 4 * i) 2 (fun _ => True)),
    ("ycrgIsValid", ∀ i : Nat, (i : Int) < csiz → FieldIs c (2 + 4 * i + 2) 2 (fun _ => True)) ]

/-- COM. -/
def comRules (catC : Char → Bool) (c : Bytes) : List Rule :=
  [ ("lcomIsValid", FieldIs c 0 2 (5 ≤ ·)),
    ("rcomIsValid", FieldIs c 2 2 (· ≤ 1)),
    ("commentIsValid", FieldIs c 0 2 (fun l => FieldIs c 2 2 (fun r => r = 0 ∨
      (r = 1 ∧ ∀ x ∈ sub c 4 (l - 4), TextChar catC (iso885915 x))))) ]

/-- CAP. Weaker: if Pcap is missing, which happens when the codestream ends there, a declared length of 56
passes, and so does the second test. -/
def capRules (fmt : Format) (c : Bytes) : List Rule :=
  [ ("lcapIsValid", FieldIs c 0 2 (fun l =>
      (∀ pcap ps, uint c 2 4 = some pcap → IsCapParts pcap ps → l = 6 + 2 * ps.length) ∧
      (uint c 2 4 = none → l = 56))),
    ("pcap15IsValid", fmt.isHT = true → ∀ pcap, uint c 2 4 = some pcap → bit 17 pcap = 1) ]

/-- PRF. The first entry must not be zero (the standard says so about the last one). -/
def prfRules (c : Bytes) : List Rule :=
  [ ("lprfIsValid", FieldIs c 0 2 (fun l => 4 ≤ l ∧ l ≤ 65534)),
    ("PRFnumIsValid", FieldIs c 0 2 (4 ≤ ·) ∧ FieldIs c 2 2 (1 ≤ ·)) ]

/-- CPF; the name of its test is misspelt in the program. -/
def cpfRules (fmt : Format) (c : Bytes) : List Rule :=
  [ ("lcpIsValid", fmt.isHT = true → FieldIs c 0 2 (fun l => 4 ≤ l ∧ l ≤ 65534)) ]

/-- SOT. -/
def sotRules (c : Bytes) : List Rule :=
  [ ("lsotIsValid", FieldIs c 0 2 (· = 10)),
    ("isotIsValid", FieldIs c 2 2 (· ≤ 65534)),
    ("psotIsValid", ∀ p, uint c 4 4 = some p → p = 0 ∨ 14 ≤ p), -- weaker: may be missing
    ("tpsotIsValid", FieldIs c 8 1 (· ≤ 254)) ]

/-- The rules for a marker segment; `csiz` is the number of components. Segments without tests (TLM, PLM,
PLT, PPM, PPT) have no rules. -/
def segRules (catC : Char → Bool) (fmt : Format) (csiz : Int) (m c : Bytes) : List Rule :=
  if m = SIZ then sizRules fmt c
  else if m = COD then codRules c
  else if m = COC then cocRules csiz c
  else if m = RGN then rgnRules fmt csiz c
  else if m = QCD then qcdRules c
  else if m = QCC then qccRules csiz c
  else if m = POC then pocRules csiz c
  else if m = CRG then crgRules csiz c
  else if m = COM then comRules catC c
  else if m = CAP then capRules fmt c
  else if m = PRF then prfRules c
  else if m = CPF then cpfRules fmt c
  else []

end Jpy.Spec
