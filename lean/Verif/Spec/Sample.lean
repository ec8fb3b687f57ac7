import Verif.Spec.Report
import Verif.Spec.File
import Verif.Model.CheckFile
/-!
# Sample files

Small concrete files for showing that hypotheses of theorems can be met, and as counterexamples where a
property does not hold of the code. They are written out byte by byte, independently of the model.
-/

namespace Jpy.Sample
open Spec

/-- Two bytes, big-endian. -/
def be16 (n : Nat) : Bytes := [UInt8.ofNat (n / 256), UInt8.ofNat (n % 256)]

/-- Four bytes, big-endian. -/
def be32 (n : Nat) : Bytes := be16 (n / 65536) ++ be16 (n % 65536)

/-- A box with a 32-bit length. -/
def box (t : String) (c : Bytes) : Bytes := be32 (8 + c.length) ++ ascii t ++ c

/-- A SIZ segment with marker: image size, tile size, tile offset, components. -/
def sizSeg (x y xt yt xto yto : Nat) (comps : List Bytes) : Bytes :=
  [0xff, 0x51] ++ be16 (38 + 3 * comps.length) ++ be16 0 ++ be32 x ++ be32 y ++ be32 0 ++ be32 0 ++
  be32 xt ++ be32 yt ++ be32 xto ++ be32 yto ++ be16 comps.length ++ comps.flatten

/-- A COD segment: no precincts, one layer, no decomposition levels. -/
def codSeg : Bytes := [0xff, 0x52] ++ be16 12 ++ [0, 0, 0, 1, 0, 0, 4, 4, 0, 0]

/-- A QCD segment without quantization. -/
def qcdSeg : Bytes := [0xff, 0x5c] ++ be16 4 ++ [0x20, 8]

/-- A tile-part without data: tile index, number of the tile-part, number of tile-parts, segments. -/
def tilePart (i p n : Nat) (segs : Bytes) : Bytes :=
  [0xff, 0x90] ++ be16 10 ++ be16 i ++ be32 (14 + segs.length) ++
    [UInt8.ofNat p, UInt8.ofNat n] ++ segs ++ [0xff, 0x93]

/-- A codestream with the given SIZ segment, further main header segments and tile-parts. -/
def cs (siz segs tps : Bytes) : Bytes :=
  [0xff, 0x4f] ++ siz ++ codSeg ++ qcdSeg ++ segs ++ tps ++ [0xff, 0xd9]

/-- SIZ of a 1 × 1 image with one 8-bit component. -/
def siz1 : Bytes := sizSeg 1 1 1 1 0 0 [[7, 1, 1]]

/-- Codestream of a 1 × 1 image. -/
def cs1 : Bytes := cs siz1 [] (tilePart 0 0 1 [])

/-- SIZ of a 2 × 1 image with two tiles and three components. -/
def siz2 : Bytes := sizSeg 2 1 1 1 0 0 [[7, 1, 1], [7, 1, 1], [7, 1, 1]]

/-- Codestream of a 2 × 1 image with two tiles, the second in two tile-parts; comment, RGN, COC and QCC
segments; a COC in a tile-part. -/
def cs2 : Bytes := cs siz2
  ([0xff, 0x64] ++ be16 6 ++ be16 1 ++ [104, 105] ++
   [0xff, 0x5e] ++ be16 5 ++ [1, 0, 3] ++
   [0xff, 0x53] ++ be16 9 ++ [2, 0, 0, 4, 4, 0, 0] ++
   [0xff, 0x5d] ++ be16 5 ++ [1, 0x20, 8])
  (tilePart 0 0 1 [] ++ tilePart 1 0 2 ([0xff, 0x53] ++ be16 9 ++ [0, 0, 0, 4, 4, 0, 0]) ++ tilePart 1 1 2 [])

def sig : Bytes := box "jP  " [0x0d, 0x0a, 0x87, 0x0a]
def ftyp (brand : String) : Bytes := box "ftyp" (ascii brand ++ be32 0 ++ ascii brand)
def ihdr (h w n bpc : Nat) : Bytes :=
  box "ihdr" (be32 h ++ be32 w ++ be16 n ++ [UInt8.ofNat bpc, 7, 0, 0])
def colr (e : Nat) : Bytes := box "colr" ([1, 0, 0] ++ be32 e)

/-- JP2 file of a 1 × 1 image. -/
def jp2 : Bytes := sig ++ ftyp "jp2 " ++ box "jp2h" (ihdr 1 1 1 7 ++ colr 17) ++ box "jp2c" cs1

/-- JP2 file of a 1 × 2 image with varying depths, a resolution box, UUID info, an unknown box and a
UUID box. -/
def jp2b : Bytes := sig ++ ftyp "jp2 " ++ box "abcd" [1, 2, 3] ++
  box "jp2h" (ihdr 1 2 3 255 ++ box "bpcc" [7, 7, 7] ++ colr 16 ++
    box "res " (box "resc" (be16 300 ++ be16 1 ++ be16 300 ++ be16 1 ++ [2, 2]))) ++
  box "jp2c" cs2 ++
  box "uinf" (box "ulst" (be16 1 ++ List.replicate 16 5) ++ box "url " ([0, 0, 0, 0] ++ ascii "http:" ++ [0])) ++
  box "uuid" (List.replicate 20 9)

/-- JPH file of a 1 × 1 image: Rsiz and CAP announce part 15. -/
def cs15 : Bytes :=
  [0xff, 0x4f] ++ [0xff, 0x51] ++ be16 41 ++ be16 0x4000 ++ be32 1 ++ be32 1 ++ be32 0 ++ be32 0 ++
  be32 1 ++ be32 1 ++ be32 0 ++ be32 0 ++ be16 1 ++ [7, 1, 1] ++
  [0xff, 0x50] ++ be16 8 ++ be32 0x20000 ++ be16 0 ++
  codSeg ++ qcdSeg ++ tilePart 0 0 1 [] ++ [0xff, 0xd9]
def jph : Bytes := sig ++ ftyp "jph " ++ box "jp2h" (ihdr 1 1 1 7 ++ colr 17) ++ box "jp2c" cs15

/-- JPH file whose image header says that the colour space is unknown and that has no colour specification
box. -/
def jphNoColour : Bytes := sig ++ ftyp "jph " ++
  box "jp2h" (box "ihdr" (be32 1 ++ be32 1 ++ be16 1 ++ [7, 7, 1, 0])) ++ box "jp2c" cs15

/-- JP2 file of a 1 × 1 image with an XML box. -/
def jp2Xml : Bytes := jp2 ++ box "xml " (ascii "<x/>")

/-- A codestream of a 1 × 1 image whose only tile-part is for tile 5. -/
def csTile5 : Bytes := cs siz1 [] (tilePart 5 0 0 [])

/-- SIZ of a 2 × 1 image with two tiles and one component. -/
def siz2one : Bytes := sizSeg 2 1 1 1 0 0 [[7, 1, 1]]

/-- A tile-part whose header does not end with SOD: the marker is 0xff94 instead. -/
def noSod (i : Nat) : Bytes :=
  [0xff, 0x90] ++ be16 10 ++ be16 i ++ be32 14 ++ [0, 0] ++ [0xff, 0x94]

/-- A codestream with two tiles and tile-parts for tiles 0 and 7, followed by a tile-part for tile 1
without SOD. -/
def csBroken : Bytes := cs siz2one [] (tilePart 0 0 0 [] ++ tilePart 7 0 0 [] ++ noSod 1)

/-- A codestream without any tile-part: the tile offset equals the image width, so there are no tiles;
the main header breaks off at the EOC marker, where the length of a segment would be. -/
def csEmpty : Bytes := cs (sizSeg 1 1 1 1 1 0 [[7, 1, 1]]) [] [0xff, 0xaa]

/-- Options for a format. -/
def opts (f : Format) : Options := { format := f, verbose := false, nullxml := false, packetmarkers := false }

/-- An environment without well-formed XML in which the control characters are those below 32. -/
def env0 : Env := ⟨fun _ => none, fun c => c.toNat < 32, fun _ => "1.0"⟩

/-- An environment in which all contents are XMP whose `rdf:RDF` element has a child that is not a
`rdf:Description`. -/
def envRdf : Env := ⟨fun _ => some (.node "{adobe:ns:meta/}xmpmeta"
    [.node "{http://www.w3.org/1999/02/22-rdf-syntax-ns#}RDF" [.node "other" []]]),
  fun c => c.toNat < 32, fun _ => "1.0"⟩

/-- The analysis ends without failed test. -/
def okValid (x : Outcome Node) : Bool := match x with | .ok n => n.isValid | _ => false

/-- Codestream whose main header has a PLM segment that ends within a packet length. -/
def endlessPlm : Bytes := [0xff, 0x4f] ++ siz1 ++ [0xff, 0x57, 0, 5, 0, 1, 0x80]

/-- Everything before the second tile-part of `endlessChain`: a tile-part of 9999 bytes. -/
def chainHead : Bytes := [0xff, 0x4f] ++ siz1 ++ [0xff, 0x90, 0, 10, 0, 0, 0, 0, 0x27, 0x0f, 0, 1, 0xff, 0x93]

/-- The second tile-part of `endlessChain`: its SOT segment ends before the tile-part length. -/
def chainTail : Bytes := [0xff, 0x90, 0, 4, 0, 0, 0xff, 0x93]

/-- Codestream whose second tile-part lacks its length. -/
def endlessChain : Bytes := chainHead ++ List.replicate 9985 0 ++ chainTail

/-- Codestream of a 2 × 1 image whose vertical offset is 1 and horizontal offset 0. -/
def csOffset : Bytes := cs
  ([0xff, 0x51] ++ be16 41 ++ be16 0 ++ be32 2 ++ be32 2 ++ be32 0 ++ be32 1 ++ be32 2 ++ be32 2 ++
    be32 0 ++ be32 0 ++ be16 1 ++ [7, 1, 1]) [] (tilePart 0 0 1 [])

/-- Codestream whose image area is empty: the horizontal offset is the width. -/
def csNoArea : Bytes := cs
  ([0xff, 0x51] ++ be16 41 ++ be16 0 ++ be32 1 ++ be32 1 ++ be32 1 ++ be32 0 ++ be32 1 ++ be32 1 ++
    be32 0 ++ be32 0 ++ be16 1 ++ [7, 1, 1]) [] (tilePart 0 0 1 [])

/-- A file system in which every path is a file with the given contents. -/
def fs0 (b : Bytes) : FS where
  isfile _ := true
  isdir _ := false
  isabs _ := true
  abspath p := p
  basename p := p
  join a b := a ++ b
  split p := ([], p)
  splitext p := (p, [])
  glob p := [p]
  walk _ := []
  read _ := .data b
  getsize _ := .ok b.length
  modified _ := .ok "Mon Jan  1 00:00:00 2024"

/-- Externals of the MIX output for which every text is a number. -/
def me0 : MixEnv := ⟨fun _ _ => some 1, fun _ _ => some 1, fun s => s⟩

/-- The report of a file with the given contents. -/
def reportOf (o : Options) (mix : Nat) (b : Bytes) : Outcome Elem := checkOneFile env0 me0 (fs0 b) 200 o mix [97]

/-- The file with the given contents is reported valid. -/
def saysValid (x : Outcome Elem) : Bool :=
  match x with
  | .ok rep => verdict rep == some (.str "True") && status rep "success" == [.str "True"]
  | _ => false

/-- The exception is an `AttributeError`. -/
def raisesAttributeError (x : Outcome Elem) : Bool :=
  match x with
  | .raised .attributeError => true
  | _ => false

theorem raisesAttributeError_ok {x : Outcome Elem} (h : raisesAttributeError x = true) :
    x = .raised .attributeError := by
  unfold raisesAttributeError at h
  split at h
  · rfl
  · cases h

theorem saysValid_ok {x : Outcome Elem} (h : saysValid x = true) :
    ∃ rep, x = .ok rep ∧ verdict rep = some (.str "True") ∧ status rep "success" = [.str "True"] := by
  unfold saysValid at h
  split at h
  · rename_i rep
    rw [Bool.and_eq_true, beq_iff_eq, beq_iff_eq] at h
    exact ⟨rep, rfl, h.1, h.2⟩
  · cases h

/-- The report has this verdict and this value of `success`. -/
def says (v s : String) (x : Outcome Elem) : Bool :=
  match x with
  | .ok rep => verdict rep == some (.str v) && status rep "success" == [.str s]
  | _ => false

theorem says_ok {v s : String} {x : Outcome Elem} (h : says v s x = true) :
    ∃ rep, x = .ok rep ∧ verdict rep = some (.str v) ∧ status rep "success" = [.str s] := by
  unfold says at h
  split at h
  · rename_i rep
    rw [Bool.and_eq_true, beq_iff_eq, beq_iff_eq] at h
    exact ⟨rep, rfl, h.1, h.2⟩
  · cases h

/-- The report has this number of elements in its tests. -/
def testsCount (n : Nat) (x : Outcome Elem) : Bool :=
  match x with
  | .ok rep => (contents rep "tests").length == n
  | _ => false

theorem tests_ok {n : Nat} {x : Outcome Elem} (h : testsCount n x = true) :
    ∃ rep, x = .ok rep ∧ (contents rep "tests").length = n := by
  unfold testsCount at h
  split at h
  · rename_i rep
    exact ⟨rep, rfl, by simpa using h⟩
  · cases h

end Jpy.Sample
