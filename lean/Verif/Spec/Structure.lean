import Verif.Spec.Walk
import Verif.Spec.File
/-!
# Specification of superboxes and of JP2/JPH files

Fuel is an artefact of the model: the program runs without it. A run of the program that ends with a
result is a run with some amount of fuel.
-/

namespace Jpy.Spec

/-- Validation of this box ends without an exception and without a failed test. -/
def BoxPasses (env : Env) (o : Options) (t p : Bytes) : Prop :=
  ∃ fuel, Accepted (validateBox env o fuel t p)

/-- The same for a marker segment; `csiz` is the number of components for those segments that depend
on it. -/
def SegPasses (env : Env) (o : Options) (csiz : Option Int) (m c : Bytes) : Prop :=
  ∃ fuel, Accepted (validateLeaf env o fuel csiz m c)

/-- Analysis of this file contents ends without an exception and without a failed test. -/
def FileValid (env : Env) (o : Options) (b : Bytes) : Prop :=
  ∃ fuel n, validateRoot env o fuel b = .ok n ∧ NoFailure n.tests

/-- There is a box of this type. -/
def Has (bs : List FoundBox) (t : String) : Prop := ∃ x ∈ bs, x.type = ascii t

/-- The number of boxes of this type. -/
def number (bs : List FoundBox) (t : String) : Nat := (bs.filter fun x => x.type == ascii t).length

/-- All boxes of this type are next to each other. -/
def Together (bs : List FoundBox) (t : String) : Prop :=
  ∃ a m z, bs = a ++ m ++ z ∧ ¬ Has a t ∧ (∀ x ∈ m, x.type = ascii t) ∧ ¬ Has z t

/-- JP2 header box (I.5.3, 15444-15 D.3), as a list of boxes of which `ih` is the first. -/
def HeaderOk (fmt : Format) (ih : FoundBox) (rest : List FoundBox) : Prop :=
  let bs := ih :: rest
  ih.type = ascii "ihdr" ∧ ¬ Has rest "ihdr" ∧
  number bs "bpcc" ≤ 1 ∧ number bs "pclr" ≤ 1 ∧ number bs "cmap" ≤ 1 ∧ number bs "cdef" ≤ 1 ∧
  number bs "res " ≤ 1 ∧
  (Has bs "pclr" ↔ Has bs "cmap") ∧
  Together bs "colr" ∧
  (fmt = .jp2 → Has bs "colr") ∧
  -- JPH: a colour specification box unless the colourspace is declared unknown, and without one
  -- no channel may be a colour channel
  (fmt = .jph → FieldIs ih.payload 12 1 (· = 0) → Has bs "colr") ∧
  (fmt = .jph → ¬ Has bs "colr" → ∀ x ∈ bs, x.type = ascii "cdef" → ∀ n i,
    uint x.payload 0 2 = some n → i < n → uint x.payload (2 + 6 * i + 2) 2 ≠ some 0) ∧
  -- varying bit depths are listed in a bits per component box
  (FieldIs ih.payload 10 1 (· = 255) → Has bs "bpcc")

/-- Resolution superbox (I.5.3.7). -/
def ResolutionOk (bs : List FoundBox) : Prop :=
  (Has bs "resc" ∨ Has bs "resd") ∧ number bs "resc" ≤ 1 ∧ number bs "resd" ≤ 1

/-- UUID info superbox (I.7.3). -/
def UuidInfoOk (bs : List FoundBox) : Prop := number bs "ulst" = 1 ∧ number bs "url " = 1

/-- The image header `ih` (in a JP2 header with boxes `hs`) describes the same image as the SIZ segment
`siz`: same height, width, number of components, and sign and depth of every component. -/
def SameImage (hs : List FoundBox) (ih siz : Bytes) : Prop :=
  ∃ h w nc x y x0 y0 bpc, uint ih 0 4 = some h ∧ uint ih 4 4 = some w ∧ uint ih 8 2 = some nc ∧
    uint ih 10 1 = some bpc ∧
    uint siz 4 4 = some x ∧ uint siz 8 4 = some y ∧ uint siz 12 4 = some x0 ∧ uint siz 16 4 = some y0 ∧
    h + y0 = y ∧ w + x0 = x ∧ uint siz 36 2 = some nc ∧
    (bpc ≠ 255 → ∀ i < nc, uint siz (38 + 3 * i) 1 = some bpc) ∧
    (bpc = 255 → ∃ x ∈ hs, x.type = ascii "bpcc" ∧ x.payload.length = nc ∧
      ∀ i < nc, uint siz (38 + 3 * i) 1 = uint x.payload i 1)

/-- The parts of a JP2 or JPH file: signature, file type, other boxes, the JP2 header, other boxes, the
first codestream, other boxes; the image header and the other boxes in the JP2 header; the SIZ segment
of the first codestream. -/
structure Layout where
  sig : FoundBox
  ft : FoundBox
  pre : List FoundBox
  hd : FoundBox
  mid : List FoundBox
  cs : FoundBox
  post : List FoundBox
  ih : FoundBox
  hrest : List FoundBox
  siz : Bytes

/-- The boxes after the first two. -/
def Layout.rest (l : Layout) : List FoundBox := l.pre ++ l.hd :: (l.mid ++ l.cs :: l.post)

/-- What makes a file valid as JP2 or JPH, given what makes each of its boxes valid. -/
structure Layout.Ok (passes : Bytes → Bytes → Prop) (b : Bytes) (l : Layout) : Prop where
  boxes : Boxes b (l.sig :: l.ft :: l.rest)
  passes : ∀ x ∈ l.sig :: l.ft :: l.rest, passes x.type x.payload
  sig : l.sig.type = ascii "jP  "
  ft : l.ft.type = ascii "ftyp"
  hd : l.hd.type = ascii "jp2h"
  cs : l.cs.type = ascii "jp2c"
  oneSig : ¬ Has l.rest "jP  "
  oneFt : ¬ Has l.rest "ftyp"
  oneHd : ¬ Has l.pre "jp2h" ∧ ¬ Has (l.mid ++ l.cs :: l.post) "jp2h"
  firstCs : ¬ Has l.pre "jp2c" ∧ ¬ Has l.mid "jp2c"
  header : Boxes l.hd.payload (l.ih :: l.hrest)
  siz : ∃ n, SegAt l.cs.payload 2 SIZ l.siz n
  ipr : FieldIs l.ih.payload 13 1 (· = 1) → Has l.rest "jp2i"
  image : SameImage (l.ih :: l.hrest) l.ih.payload l.siz

/-- `x` is the first box of type `t`. -/
def FirstBox (bs : List FoundBox) (t : String) (x : FoundBox) : Prop :=
  ∃ a z, bs = a ++ x :: z ∧ x.type = ascii t ∧ ¬ Has a t

/-- `hs` are the boxes in the first JP2 header box of the file, `ih` the first image header among them. -/
def HeaderOf (b : Bytes) (hs : List FoundBox) (ih : Bytes) : Prop :=
  ∃ bs hd x, Boxes b bs ∧ FirstBox bs "jp2h" hd ∧ Boxes hd.payload hs ∧ FirstBox hs "ihdr" x ∧ ih = x.payload

/-- `cs` is the payload of the first codestream box of the file. -/
def CodestreamOf (b : Bytes) (cs : Bytes) : Prop :=
  ∃ bs x, Boxes b bs ∧ FirstBox bs "jp2c" x ∧ cs = x.payload

/-- `siz` is the SIZ segment that follows the SOC marker of a codestream. -/
def SizOf (cs siz : Bytes) : Prop := sub cs 0 2 = SOC ∧ ∃ n, SegAt cs 2 SIZ siz n

end Jpy.Spec
