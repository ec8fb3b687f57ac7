import Verif.Spec.Packets
import Verif.Model.Digits
/-!
# Long profile numbers

The numbers that are reported for PRF and CPF segments are the only ones in a report that can have
hundreds of digits. Written from the byte layout only.
-/

namespace Jpy.Spec

/-- The first entry of a PRF or CPF segment; -9999 if the segment is cut off before it. -/
def firstEntry (c : Bytes) : Int :=
  match uint c 2 2 with
  | some p => p
  | none => -9999

/-- The number that is reported for a PRF segment (`start` 4095) or a CPF segment (`start` -1): its first
entry as every digit to the base 65536, as many digits as the length field says. -/
def profileNumber (start : Int) (c : Bytes) : Int :=
  start + firstEntry c * (((List.range (((uint c 0 2).getD 0 - 2) / 2)).map fun i => 65536 ^ i).sum : Nat)

/-- The main header of codestream `b` has a PRF or CPF segment whose number has more than `d` digits. -/
def LongNumber (d : Nat) (b : Bytes) : Prop :=
  ∃ first main e, MainStart b first ∧ SegsTo b SOT first main e ∧ ∃ x ∈ main,
    (x.marker = PRF ∧ 10 ^ d ≤ (profileNumber 4095 x.contents).natAbs) ∨
    (x.marker = CPF ∧ 10 ^ d ≤ (profileNumber (-1) x.contents).natAbs)

/-- The texts of parsed XML documents are text. -/
def XmlTexts (env : Env) : Prop :=
  ∀ b e, env.parseXml b = some e → ∀ x ∈ e.iter, x.text = .none ∨ ∃ s, x.text = .str s

end Jpy.Spec
