import Verif.Spec.Basic
import Verif.Model.Node
/-!
# Specification of the marker segments (ISO/IEC 15444-1 Annex A, 15444-15 Annex A)

`c` is the segment without its marker code: the two length bytes come first. All conditions are about
fields that must exist (`FieldIs`), in plain natural-number arithmetic.
-/

namespace Jpy.Spec

/-- The validator ran without error and none of its tests failed. -/
def Accepted (x : Outcome BoxResult) : Prop := ∃ r, x = .ok r ∧ NoFailure r.node.tests

/-- The values reported under a tag, in order, among the direct characteristics of a result. -/
def reported (n : Node) (tag : String) : List PyVal :=
  (n.chars.filter fun e => e.tag == tag).map (·.text)

/-- SOT, table A.5. -/
def SotOk (c : Bytes) : Prop :=
  FieldIs c 0 2 (· = 10) ∧ FieldIs c 2 2 (· ≤ 65534) ∧ FieldIs c 4 4 (fun p => p = 0 ∨ 14 ≤ p) ∧
  FieldIs c 8 1 (· ≤ 254)

/-- The Rsiz values for which the capability text is defined: extended capabilities are signalled
(bits 14-15), or the profile (bits 8-11) is neither 8 nor 0 with a level (bits 0-3) above 7. -/
def RsizDefined (r : Nat) : Prop :=
  16384 ≤ r ∨ (r / 256 % 16 ≠ 8 ∧ ¬ (r / 256 % 16 = 0 ∧ 8 ≤ r % 16))

/-- Rsiz per format: Part 1 formats forbid the four top bits, HT formats require bit 14. -/
def RsizOk (fmt : Format) (r : Nat) : Prop :=
  match fmt with
  | .jp2 | .j2c => r < 4096
  | .jph | .jhc => bit 14 r = 1
  | .other _ => True

/-- One component of SIZ at offset `off`: bit depth 1..38, non-zero separations. -/
def SizComponentOk (c : Bytes) (off : Nat) : Prop :=
  FieldIs c off 1 (fun s => s % 128 + 1 ≤ 38) ∧ FieldIs c (off + 1) 1 (1 ≤ ·) ∧
  FieldIs c (off + 2) 1 (1 ≤ ·)

/-- SIZ, table A.9. -/
def SizOk (fmt : Format) (c : Bytes) : Prop :=
  FieldIs c 2 2 (RsizOk fmt) ∧
  FieldIs c 4 4 (1 ≤ ·) ∧ FieldIs c 8 4 (1 ≤ ·) ∧
  FieldIs c 12 4 (· ≤ 2 ^ 32 - 2) ∧ FieldIs c 16 4 (· ≤ 2 ^ 32 - 2) ∧
  FieldIs c 20 4 (1 ≤ ·) ∧ FieldIs c 24 4 (1 ≤ ·) ∧
  FieldIs c 28 4 (· ≤ 2 ^ 32 - 2) ∧ FieldIs c 32 4 (· ≤ 2 ^ 32 - 2) ∧
  FieldIs c 36 2 (fun n => 1 ≤ n ∧ n ≤ 16384 ∧
    FieldIs c 0 2 (· = 38 + 3 * n) ∧ ∀ i < n, SizComponentOk c (38 + 3 * i))

/-- `q` is the ceiling of `a / b`. -/
def IsCeil (a b q : Int) : Prop := b * (q - 1) < a ∧ a ≤ b * q

/-- Code-block exponents and transformation at offset `off` (table A.18-A.20): stored exponents are
offset by two. -/
def CodeBlocksOk (c : Bytes) (off : Nat) : Prop :=
  FieldIs c off 1 (fun w => FieldIs c (off + 1) 1 (fun h => w + 2 ≤ 10 ∧ h + 2 ≤ 10 ∧
    (w + 2) + (h + 2) ≤ 12)) ∧
  FieldIs c (off + 3) 1 (· ≤ 1)

/-- User-defined precinct sizes starting at `off` (table A.21): only the lowest resolution may use
exponent zero. Bytes beyond the end of a truncated segment are not constrained. -/
def PrecinctsOk (c : Bytes) (off levels : Nat) : Prop :=
  ∀ i, 1 ≤ i → i ≤ levels → ∀ v, uint c (off + i) 1 = some v → 1 ≤ v % 16 ∧ 1 ≤ v / 16

/-- COD, A.6.1. -/
def CodOk (c : Bytes) : Prop :=
  FieldIs c 3 1 (· ≤ 4) ∧ FieldIs c 4 2 (1 ≤ ·) ∧ FieldIs c 6 1 (· ≤ 1) ∧
  FieldIs c 0 2 (fun l => 12 ≤ l ∧ l ≤ 45 ∧
    FieldIs c 2 1 (fun s => FieldIs c 7 1 (fun levels => levels ≤ 32 ∧
      l = (if bit 0 s = 1 then 13 + levels else 12) ∧
      (bit 0 s = 1 → PrecinctsOk c 12 levels)))) ∧
  CodeBlocksOk c 8

/-- Width in bytes of a component index: one below 257 components, otherwise two. -/
def compWidth (csiz : Int) : Nat := if csiz < 257 then 1 else 2

/-- A component index field: any byte, or a 16-bit value up to 16383. -/
def CompIndexOk (csiz : Int) (c : Bytes) (off : Nat) : Prop :=
  FieldIs c off (compWidth csiz) (fun v => csiz < 257 ∨ v ≤ 16383)

/-- COC, A.6.2. -/
def CocOk (csiz : Int) (c : Bytes) : Prop :=
  let o := 2 + compWidth csiz
  CompIndexOk csiz c 2 ∧
  FieldIs c 0 2 (fun l => 9 ≤ l ∧ l ≤ 43 ∧
    FieldIs c o 1 (fun s => FieldIs c (o + 1) 1 (fun levels => levels ≤ 32 ∧
      l = 8 + compWidth csiz + (if bit 0 s = 1 then 1 + levels else 0) ∧
      (bit 0 s = 1 → PrecinctsOk c (o + 6) levels)))) ∧
  CodeBlocksOk c (o + 2)

/-- RGN, A.6.3. -/
def RgnOk (fmt : Format) (csiz : Int) (c : Bytes) : Prop :=
  let o := 2 + compWidth csiz
  FieldIs c 0 2 (fun l => 5 ≤ l ∧ l ≤ 6) ∧ CompIndexOk csiz c 2 ∧ FieldIs c o 1 (· = 0) ∧
  FieldIs c (o + 1) 1 (fun s => fmt.isHT = true → s ≤ 37)

/-- QCD, A.6.4: length and style. -/
def QcdOk (c : Bytes) : Prop :=
  FieldIs c 0 2 (fun l => 4 ≤ l ∧ l ≤ 197) ∧ FieldIs c 2 1 (fun s => s % 32 ≤ 2)

/-- QCC, A.6.5: length and style. -/
def QccOk (csiz : Int) (c : Bytes) : Prop :=
  FieldIs c 0 2 (fun l => 5 ≤ l ∧ l ≤ 199) ∧
  FieldIs c (2 + compWidth csiz) 1 (fun s => s % 32 ≤ 2)

/-- One progression order change at `off` (table A.32): start and end resolution, component and layer
ranges are non-empty and within limits, the order is one of five. -/
def PocEntryOk (csiz : Int) (c : Bytes) (off : Nat) : Prop :=
  let w := compWidth csiz
  FieldIs c off 1 (fun rs => rs ≤ 32 ∧ FieldIs c (off + 3 + w) 1 (fun re => rs < re ∧ re ≤ 33)) ∧
  FieldIs c (off + 1) w (fun cs => (csiz < 257 ∨ cs ≤ 16383) ∧
    FieldIs c (off + 4 + w) w (fun ce => ce = 0 ∨ (cs < ce ∧ (csiz < 257 ∨ ce ≤ 16384)))) ∧
  FieldIs c (off + 1 + w) 2 (1 ≤ ·) ∧
  FieldIs c (off + 4 + 2 * w) 1 (· ≤ 4)

/-- POC, A.6.6: as many entries as fit in the declared length. -/
def PocOk (csiz : Int) (c : Bytes) : Prop :=
  FieldIs c 0 2 (fun l => 9 ≤ l ∧
    ∀ i, i < (l - 2) / (5 + 2 * compWidth csiz) →
      PocEntryOk csiz c (2 + (5 + 2 * compWidth csiz) * i))

/-- CRG, A.9.1: an offset pair for every component. -/
def CrgOk (csiz : Int) (c : Bytes) : Prop :=
  FieldIs c 0 2 (fun l => 6 ≤ l ∧ l ≤ 65534) ∧
  ∀ i : Nat, (i : Int) < csiz → FieldIs c (2 + 4 * i) 2 (fun _ => True) ∧
    FieldIs c (2 + 4 * i + 2) 2 (fun _ => True)

/-- ISO 8859-15: a byte is its own code point, except for the eight positions where it differs from
ISO 8859-1. -/
def iso885915 (x : UInt8) : Char :=
  match [(0xA4, 0x20AC), (0xA6, 0x160), (0xA8, 0x161), (0xB4, 0x17D), (0xB8, 0x17E), (0xBC, 0x152),
      (0xBD, 0x153), (0xBE, 0x178)].lookup x.toNat with
  | some n => Char.ofNat n
  | none => Char.ofNat x.toNat

/-- A character that may occur in reported text: not a control character (Unicode category C), except
tab, newline and return. -/
def TextChar (catC : Char → Bool) (ch : Char) : Prop :=
  catC ch = false ∨ ch = '\t' ∨ ch = '\n' ∨ ch = '\r'

/-- COM, A.9.2: binary data, or Latin text without control characters. -/
def ComOk (catC : Char → Bool) (c : Bytes) : Prop :=
  FieldIs c 0 2 (fun l => 5 ≤ l ∧ FieldIs c 2 2 (fun r => r = 0 ∨
    (r = 1 ∧ ∀ x ∈ sub c 4 (l - 4), TextChar catC (iso885915 x))))

/-- The parts of the standard signalled by Pcap (15444-1 A.5.2): part `p` has bit `32 - p`. -/
def IsCapParts (pcap : Nat) (ps : List Nat) : Prop :=
  ps.Pairwise (· < ·) ∧ ∀ p, p ∈ ps ↔ 1 ≤ p ∧ p ≤ 32 ∧ bit (32 - p) pcap = 1

/-- CAP, 15444-1 A.5.2: one 16-bit Ccap per part; HT formats need part 15. -/
def CapOk (fmt : Format) (c : Bytes) : Prop :=
  FieldIs c 0 2 (fun l => FieldIs c 2 4 (fun pcap =>
    (∀ ps, IsCapParts pcap ps → l = 6 + 2 * ps.length) ∧ (fmt.isHT = true → bit 17 pcap = 1)))

/-- The bound `B` on the magnitude of HT code blocks as a function of the low five bits of Ccap15
(15444-15 A.3.6, equation for MAGB). -/
def HtB (p : Nat) : Nat :=
  if p = 0 then 8 else if p < 20 then p + 8 else if p < 31 then 4 * (p - 19) + 27 else 74

/-- The precinct sizes reported by a COD or COC segment: one pair per resolution level, taken from the
bytes starting at `off` if user-defined, otherwise 2^15. -/
def PrecinctsReported (c : Bytes) (off style levels : Nat) (n : Node) : Prop :=
  (reported n "precinctSizeX").length = levels + 1 ∧
  (reported n "precinctSizeY").length = levels + 1 ∧
  ∀ i ≤ levels,
    (bit 0 style = 1 → ∀ v, uint c (off + i) 1 = some v →
      (reported n "precinctSizeX")[i]? = some (.int (2 ^ (v % 16))) ∧
      (reported n "precinctSizeY")[i]? = some (.int (2 ^ (v / 16)))) ∧
    (bit 0 style = 0 →
      (reported n "precinctSizeX")[i]? = some (.int 32768) ∧
      (reported n "precinctSizeY")[i]? = some (.int 32768))

/-- `v` is the profile number encoded by `n` 16-bit entries from offset 2, least significant entry
first, added to `start` (15444-1 A.5.3, 15444-15 A.6). -/
def ProfileNumberIs (c : Bytes) (start : Int) (n : Nat) (v : Int) : Prop :=
  ∃ p : Nat → Nat, (∀ i < n, uint c (2 + 2 * i) 2 = some (p i)) ∧
    v = start + (((List.range n).map fun i => p i * 65536 ^ i).sum : Nat)

/-- Reversible step sizes (table A.29): `n` bytes from `off`, the exponent in the top five bits. -/
def StepSizesNone (c : Bytes) (off n : Nat) (nd : Node) : Prop :=
  (reported nd "epsilon").length = n ∧ reported nd "mu" = [] ∧
  ∀ i < n, ∀ v, uint c (off + i) 1 = some v →
    (reported nd "epsilon")[i]? = some (.int ((v / 8 : Nat) : Int))

/-- Scalar step sizes (table A.30): `n` 16-bit values from `off`, exponent in the top five bits and
mantissa in the other eleven. -/
def StepSizesScalar (c : Bytes) (off n : Nat) (nd : Node) : Prop :=
  (reported nd "epsilon").length = n ∧ (reported nd "mu").length = n ∧
  ∀ i < n, ∀ v, uint c (off + 2 * i) 2 = some v →
    (reported nd "epsilon")[i]? = some (.int ((v / 2048 : Nat) : Int)) ∧
    (reported nd "mu")[i]? = some (.int ((v % 2048 : Nat) : Int))

end Jpy.Spec
