import Verif.Spec.Generate
/-!
# Specification: a codestream in a file and by itself

The format of the bare codestreams of a file format, and the smallest file around a codestream.
-/

namespace Jpy.Spec

/-- The codestreams of the first format, as files, are in the second format. -/
inductive BareFormat : Format → Format → Prop
  | jp2 : BareFormat .jp2 .j2c
  | jph : BareFormat .jph .jhc

/-- The same options with another format. -/
def withFormat (o : Options) (f : Format) : Options := { o with format := f }

/-- The brand in the file type box. -/
def wrapBrand : Format → Bytes
  | .jph => ascii "jph "
  | _ => ascii "jp2 "

/-- `b` is a file around the codestream `cs` whose SIZ segment is `siz`: signature, file type, a JP2
header with image header (size from `siz`, varying depths), bits per component (copied from `siz`)
and greyscale colour specification, and the codestream. -/
def WrapsCodestream (fmt : Format) (siz cs b : Bytes) : Prop :=
  ∃ x y x0 y0 nc ihdr bpcc hd,
    uint siz 4 4 = some x ∧ uint siz 8 4 = some y ∧ uint siz 12 4 = some x0 ∧ uint siz 16 4 = some y0 ∧
    uint siz 36 2 = some nc ∧
    ihdr = beBytes 4 (y - y0) ++ beBytes 4 (x - x0) ++ beBytes 2 nc ++ [255, 7, 0, 0] ∧
    bpcc.length = nc ∧ (∀ i < nc, uint bpcc i 1 = uint siz (38 + 3 * i) 1) ∧
    EncodesBoxes [(ascii "ihdr", ihdr), (ascii "bpcc", bpcc), (ascii "colr", [1, 0, 0, 0, 0, 0, 17])] hd ∧
    EncodesBoxes [(ascii "jP  ", [0x0d, 0x0a, 0x87, 0x0a]),
      (ascii "ftyp", wrapBrand fmt ++ [0, 0, 0, 0] ++ wrapBrand fmt), (ascii "jp2h", hd), (ascii "jp2c", cs)] b

/-- The image area announced by the SIZ segment is not empty: each size is greater than the offset. -/
def ImageNotEmpty (siz : Bytes) : Prop :=
  ∃ x y x0 y0, uint siz 4 4 = some x ∧ uint siz 8 4 = some y ∧ uint siz 12 4 = some x0 ∧ uint siz 16 4 = some y0 ∧
    x0 < x ∧ y0 < y

/-- What the elements for codestream boxes contain. -/
def insideCodestreams (es : List Elem) : List Elem :=
  (es.filter fun e => e.tag == "contiguousCodestreamBox").flatMap fun e => e.children

end Jpy.Spec
