import Verif.Spec.Boxes
import Verif.Model.Node
/-!
# Specification of reported values

The enumerated fields of ISO/IEC 15444-1 and of the ICC specification with the descriptions of the
jpylyzer user manual (chapters 6 and 7), as a flat list.
-/

namespace Jpy.Spec

/-- Bytes of an ASCII text. -/
def ascii (s : String) : Bytes := s.toList.map fun ch => UInt8.ofNat ch.toNat

/-- The fields that answer a yes/no question. -/
def yesNoFields : List String :=
  ["unkC", "iPR", "embeddedProfile", "vidFRng", "profileCannotBeUsedIndependently", "sop", "eph",
   "multipleComponentTransformation", "codingBypass", "resetOnBoundaries", "termOnEachPass",
   "vertCausalContext", "predTermination", "segmentationSymbols"]

/-- The fields that hold a sign bit. -/
def signFields : List String := ["bSign", "bPCSign", "ssizSign"]

/-- All other numeric fields with descriptions: field, code, description. -/
def codeDescriptions : List (String × Nat × String) :=
  [ ("transparency", 0, "Reflective"), ("transparency", 1, "Transparent"),
    ("glossiness", 0, "Glossy"), ("glossiness", 1, "Matte"),
    ("polarity", 0, "Positive"), ("polarity", 1, "Negative"),
    ("colour", 0, "Colour"), ("colour", 1, "Black and white"),
    ("renderingIntent", 0, "Perceptual"), ("renderingIntent", 1, "Media-Relative Colorimetric"),
    ("renderingIntent", 2, "Saturation"), ("renderingIntent", 3, "ICC-Absolute Colorimetric"),
    ("mTyp", 0, "direct use"), ("mTyp", 1, "palette mapping"),
    ("precincts", 0, "default"), ("precincts", 1, "user defined"),
    ("c", 7, "jpeg2000"),
    ("meth", 1, "Enumerated"), ("meth", 2, "Restricted ICC"), ("meth", 3, "Any ICC"),
    ("meth", 4, "Vendor Colour"), ("meth", 5, "Parameterized Colourspace"),
    ("enumCS", 16, "sRGB"), ("enumCS", 17, "greyscale"), ("enumCS", 18, "sYCC"),
    ("cTyp", 0, "colour"), ("cTyp", 1, "opacity"), ("cTyp", 2, "premultiplied opacity"),
    ("cTyp", 3, "application-defined"), ("cTyp", 65535, "not specified"),
    ("cAssoc", 0, "all colours"), ("cAssoc", 65535, "no colours"),
    ("order", 0, "LRCP"), ("order", 1, "RLCP"), ("order", 2, "RPCL"), ("order", 3, "PCRL"),
    ("order", 4, "CPRL"),
    ("roiStyle", 0, "Implicit ROI (maximum shift)"),
    ("transformation", 0, "9-7 irreversible"), ("transformation", 1, "5-3 reversible"),
    ("qStyle", 0, "no quantization"), ("qStyle", 1, "scalar derived"),
    ("qStyle", 2, "scalar expounded"),
    ("rcom", 0, "binary"), ("rcom", 1, "ISO/IEC 8859-15 (Latin)"),
    ("htCodeBlocks", 0, "HTONLY"), ("htCodeBlocks", 32768, "HTDECLARED"),
    ("htCodeBlocks", 49152, "MIXED"),
    ("htSets", 0, "SINGLEHT"), ("htSets", 1, "MULTIHT"),
    ("htRegion", 0, "RGNFREE"), ("htRegion", 1, "RGN"),
    ("htHomogeneous", 0, "HOMOGENEOUS"), ("htHomogeneous", 1, "HETEROGENEOUS"),
    ("htReversible", 0, "HTREV"), ("htReversible", 1, "HTIRV") ]

/-- Fields holding a four-character code. The Silicon Graphics platform is listed with three
characters, as in the code; the ICC specification has a trailing space there. -/
def textDescriptions : List (String × String × String) :=
  [ ("profileClass", "scnr", "Input Device Profile"), ("profileClass", "mntr", "Display Device Profile"),
    ("profileClass", "prtr", "Output Device Profile"), ("profileClass", "link", "DeviceLink Profile"),
    ("profileClass", "spac", "ColorSpace Conversion Profile"), ("profileClass", "abst", "Abstract Profile"),
    ("profileClass", "nmcl", "Named Colour Profile"),
    ("primaryPlatform", "APPL", "Apple Computer, Inc."), ("primaryPlatform", "MSFT", "Microsoft Corporation"),
    ("primaryPlatform", "SGI", "Silicon Graphics, Inc."), ("primaryPlatform", "SUNW", "Sun Microsystems, Inc.") ]

/-- Every (field, value, description). -/
def descriptions : List (String × PyVal × String) :=
  yesNoFields.flatMap (fun f => [(f, .int 0, "no"), (f, .int 1, "yes")])
  ++ signFields.flatMap (fun f => [(f, .int 0, "unsigned"), (f, .int 1, "signed")])
  ++ codeDescriptions.map (fun (f, v, d) => (f, .int v, d))
  ++ textDescriptions.map (fun (f, v, d) => (f, .bytes (ascii v), d))

/-- Facts about the externals that hold of CPython: printable ASCII is not in Unicode category C, and
`str()` of a float is printable ASCII. -/
structure Sane (env : Env) : Prop where
  ascii : ∀ ch : Char, 32 ≤ ch.toNat → ch.toNat ≤ 126 → env.catC ch = false
  float : ∀ f, ∀ ch ∈ (env.floatStr f).toList, 32 ≤ ch.toNat ∧ ch.toNat ≤ 126

/-- The text has no control, format, surrogate, private-use or unassigned character other than tab,
line feed and carriage return. -/
def Printable (env : Env) (s : String) : Prop :=
  ∀ ch ∈ s.toList, env.catC ch = true → ch = '\t' ∨ ch = '\n' ∨ ch = '\r'

/-- Removal of the characters forbidden by `Printable`. -/
def shown (env : Env) (cs : List Char) : String :=
  String.ofList (cs.filter fun ch => !env.catC ch || ch == '\t' || ch == '\n' || ch == '\r')

/-- How a value of a field must be shown, given the descriptions in force. -/
inductive ShownAs (env : Env) (ds : List (String × PyVal × String)) (tag : String) : PyVal → PyVal → Prop
  /-- a described value is replaced by its description -/
  | described {v s} : (tag, v, s) ∈ ds → ShownAs env ds tag v (.str s)
  /-- absent text stays absent -/
  | absent : ShownAs env ds tag .none .none
  /-- numbers are shown in decimal -/
  | int {i : Int} : (∀ s, (tag, .int i, s) ∉ ds) → ShownAs env ds tag (.int i) (.str i.repr)
  | true : (∀ s, (tag, .bool true, s) ∉ ds) → ShownAs env ds tag (.bool true) (.str "True")
  | false : (∀ s, (tag, .bool false, s) ∉ ds) → ShownAs env ds tag (.bool false) (.str "False")
  | float {f} : (∀ s, (tag, .flt f, s) ∉ ds) → ShownAs env ds tag (.flt f) (.str (env.floatStr f))
  /-- text is kept up to unprintable characters -/
  | text {t : String} : (∀ s, (tag, .str t, s) ∉ ds) →
      ShownAs env ds tag (.str t) (.str (shown env t.toList))
  /-- bytes are decoded as UTF-8 -/
  | utf8 {b cs} : (∀ s, (tag, .bytes b, s) ∉ ds) → IsUtf8 b cs →
      ShownAs env ds tag (.bytes b) (.str (shown env cs))
  /-- bytes that are not UTF-8 are dropped -/
  | binary {b} : (∀ s, (tag, .bytes b, s) ∉ ds) → (∀ cs, ¬ IsUtf8 b cs) →
      ShownAs env ds tag (.bytes b) (.str "")

/-- `e'` is `e` with every value shown as it must be; structure, tags, attributes and the text between
elements are the same. -/
inductive Rendered (env : Env) (ds : List (String × PyVal × String)) : Elem → Elem → Prop
  | mk {t a x x' cs cs' l} : ShownAs env ds t x x' → cs.length = cs'.length →
      (∀ i (h : i < cs.length) (h' : i < cs'.length), Rendered env ds cs[i] cs'[i]) →
      Rendered env ds (.mk t a x cs l) (.mk t a x' cs' l)

end Jpy.Spec
