import Verif.Spec.Walk
import Verif.Spec.Segments
/-!
# Files on which the validator raises an exception

Written from the byte layout only. A division by zero, a UUID that is cut off, and so on.
-/

namespace Jpy.Spec

/-- A box with a given type and payload that makes its validator raise an exception. -/
inductive CrashBox (t p : Bytes) : Prop
  /-- a resolution with denominator zero: division by zero -/
  | resolution : t = ascii "resc" ∨ t = ascii "resd" → FieldIs p 2 2 (· = 0) ∨ FieldIs p 6 2 (· = 0) →
      CrashBox t p
  /-- a UUID box that is too short for a UUID -/
  | uuid : t = ascii "uuid" → p.length < 16 → CrashBox t p
  /-- a UUID list box that is too short for the number of UUIDs it announces -/
  | uuidList : t = ascii "ulst" → FieldIs p 0 2 (fun n => p.length < 2 + 16 * n) → CrashBox t p
  /-- the file ends after two bytes of the box type, and these are the code of a codestream marker whose
  validator cannot be started outside a codestream -/
  | marker : t ∈ [SIZ, COC, QCC, RGN, POC, CRG, SOT] → CrashBox t p

/-- A codestream whose SIZ segment has an Rsiz field that is missing or not covered by the table of
capabilities. -/
def CrashCodestream (p : Bytes) : Prop :=
  ∃ (m c siz : Bytes) (k : Nat) (n : Option Nat), SegAt p 0 m c (some k) ∧ SegAt p k SIZ siz n ∧
    ¬ FieldIs siz 2 2 RsizDefined

/-- The contents of a file that make the analysis raise an exception: in a JP2 or JPH file one of its
boxes, at any depth, in a codestream the SIZ segment; any other format is not supported. -/
def Crashes : Format → Bytes → Prop
  | .jp2, b | .jph, b => ∃ d t p, HasBox b d t p ∧ (CrashBox t p ∨ (t = ascii "jp2c" ∧ CrashCodestream p))
  | .j2c, b | .jhc, b => CrashCodestream b
  | .other _, _ => True

end Jpy.Spec
