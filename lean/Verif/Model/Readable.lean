import Verif.Model.Elem
import Verif.Model.Node
/-! # Post-processing of reported values: `makeHumanReadable` and the remap table -/

namespace Jpy

/-- A remap table: tag name to (raw value, description) pairs. -/
abbrev RemapTable := List (String × List (PyVal × String))

/-- 0 = no, 1 = yes (`jpylyzer.py:89-91`). -/
def yesNoMap : List (PyVal × String) := [(.int 0, "no"), (.int 1, "yes")]
/-- Sign of component samples (`jpylyzer.py:95-97`). -/
def signMap : List (PyVal × String) := [(.int 0, "unsigned"), (.int 1, "signed")]

/-- `generatePropertiesRemapTable` (`jpylyzer.py:75-280`). -/
def remapTable : RemapTable :=
  [ ("unkC", yesNoMap),
    ("iPR", yesNoMap),
    ("profileClass",
      [ (.bytes [0x73, 0x63, 0x6e, 0x72], "Input Device Profile"),
        (.bytes [0x6d, 0x6e, 0x74, 0x72], "Display Device Profile"),
        (.bytes [0x70, 0x72, 0x74, 0x72], "Output Device Profile"),
        (.bytes [0x6c, 0x69, 0x6e, 0x6b], "DeviceLink Profile"),
        (.bytes [0x73, 0x70, 0x61, 0x63], "ColorSpace Conversion Profile"),
        (.bytes [0x61, 0x62, 0x73, 0x74], "Abstract Profile"),
        (.bytes [0x6e, 0x6d, 0x63, 0x6c], "Named Colour Profile") ]),
    ("primaryPlatform",
      [ (.bytes [0x41, 0x50, 0x50, 0x4c], "Apple Computer, Inc."),
        (.bytes [0x4d, 0x53, 0x46, 0x54], "Microsoft Corporation"),
        (.bytes [0x53, 0x47, 0x49], "Silicon Graphics, Inc."),
        (.bytes [0x53, 0x55, 0x4e, 0x57], "Sun Microsystems, Inc.") ]),
    ("embeddedProfile", yesNoMap),
    ("vidFRng", yesNoMap),
    ("profileCannotBeUsedIndependently", yesNoMap),
    ("transparency", [ (.int 0, "Reflective"), (.int 1, "Transparent") ]),
    ("glossiness", [ (.int 0, "Glossy"), (.int 1, "Matte") ]),
    ("polarity", [ (.int 0, "Positive"), (.int 1, "Negative") ]),
    ("colour", [ (.int 0, "Colour"), (.int 1, "Black and white") ]),
    ("renderingIntent",
      [ (.int 0, "Perceptual"), (.int 1, "Media-Relative Colorimetric"), (.int 2, "Saturation"),
        (.int 3, "ICC-Absolute Colorimetric") ]),
    ("bSign", signMap),
    ("mTyp", [ (.int 0, "direct use"), (.int 1, "palette mapping") ]),
    ("precincts", [ (.int 0, "default"), (.int 1, "user defined") ]),
    ("sop", yesNoMap),
    ("eph", yesNoMap),
    ("multipleComponentTransformation", yesNoMap),
    ("codingBypass", yesNoMap),
    ("resetOnBoundaries", yesNoMap),
    ("termOnEachPass", yesNoMap),
    ("vertCausalContext", yesNoMap),
    ("predTermination", yesNoMap),
    ("segmentationSymbols", yesNoMap),
    ("bPCSign", signMap),
    ("ssizSign", signMap),
    ("c", [ (.int 7, "jpeg2000") ]),
    ("meth",
      [ (.int 1, "Enumerated"), (.int 2, "Restricted ICC"), (.int 3, "Any ICC"),
        (.int 4, "Vendor Colour"), (.int 5, "Parameterized Colourspace") ]),
    ("enumCS", [ (.int 16, "sRGB"), (.int 17, "greyscale"), (.int 18, "sYCC") ]),
    ("cTyp",
      [ (.int 0, "colour"), (.int 1, "opacity"), (.int 2, "premultiplied opacity"),
        (.int 3, "application-defined"), (.int 65535, "not specified") ]),
    ("cAssoc", [ (.int 0, "all colours"), (.int 65535, "no colours") ]),
    ("order",
      [ (.int 0, "LRCP"), (.int 1, "RLCP"), (.int 2, "RPCL"), (.int 3, "PCRL"), (.int 4, "CPRL") ]),
    ("roiStyle", [ (.int 0, "Implicit ROI (maximum shift)") ]),
    ("transformation", [ (.int 0, "9-7 irreversible"), (.int 1, "5-3 reversible") ]),
    ("qStyle",
      [ (.int 0, "no quantization"), (.int 1, "scalar derived"), (.int 2, "scalar expounded") ]),
    ("rcom", [ (.int 0, "binary"), (.int 1, "ISO/IEC 8859-15 (Latin)") ]),
    ("htCodeBlocks", [ (.int 0, "HTONLY"), (.int 32768, "HTDECLARED"), (.int 49152, "MIXED") ]),
    ("htSets", [ (.int 0, "SINGLEHT"), (.int 1, "MULTIHT") ]),
    ("htRegion", [ (.int 0, "RGNFREE"), (.int 1, "RGN") ]),
    ("htHomogeneous", [ (.int 0, "HOMOGENEOUS"), (.int 1, "HETEROGENEOUS") ]),
    ("htReversible", [ (.int 0, "HTREV"), (.int 1, "HTIRV") ]) ]

/-- Step 1 of `makeHumanReadable` (`etpatch.py:94-109`): the two nested dictionary lookups with their
`KeyError` handlers. Simplification: Python also identifies `True`/`1.0` with the key `1`; no
boolean or float is ever stored under a tag of the table. -/
def remapped (tbl : RemapTable) (tag : String) (v : PyVal) : PyVal :=
  match tbl.lookup tag with
  | some m =>
    match m.lookup v with
    | some s => .str s
    | none => v
  | none => v

/-- Python `str(b)` on a boolean. -/
def boolStr (b : Bool) : String := if b then "True" else "False"

/-- Step 2 of `makeHumanReadable` (`etpatch.py:111-131`). -/
def printable (env : Env) : PyVal → PyVal
  | .none => .none
  | .bytes b => .str (bytesToText env.catC b)
  | .int i => .str (toString i)
  | .flt f => .str (env.floatStr f)
  | .bool b => .str (boolStr b)
  | .str s => .str (String.ofList (removeControlCharacters env.catC s.toList))

/-- The new text of an element (`etpatch.py:87-131`). -/
def readableText (env : Env) (tbl : RemapTable) (tag : String) (v : PyVal) : PyVal :=
  printable env (remapped tbl tag v)

/- `makeHumanReadable` (`etpatch.py:77-131`): every element of the tree, in place. -/
mutual
/-- `elt.makeHumanReadable(tbl)` -/
def makeHumanReadable (env : Env) (tbl : RemapTable) : Elem → Elem
  | .mk t a x c l => .mk t a (readableText env tbl t x) (makeHumanReadableL env tbl c) l
/-- The same for a list of children. -/
def makeHumanReadableL (env : Env) (tbl : RemapTable) : List Elem → List Elem
  | [] => []
  | e :: es => makeHumanReadable env tbl e :: makeHumanReadableL env tbl es
end

end Jpy
