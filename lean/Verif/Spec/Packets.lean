import Verif.Spec.Codestream
/-!
# Specification of packet length lists and of endless analyses

Packet lengths in PLT and PLM segments (ISO/IEC 15444-1 A.7.2, A.7.3, table A.36), and the
circumstances under which following a codestream may not end.
-/

namespace Jpy.Spec

/-- Value of the seven low bits of every byte, most significant byte first. -/
def base128 : Bytes → Nat
  | [] => 0
  | x :: xs => x.toNat % 128 * 128 ^ xs.length + base128 xs

/-- The encoding of one packet length: every byte but the last has its high bit set. -/
def PacketLength (e : Bytes) : Prop :=
  ∃ init last, e = init ++ [last] ∧ (∀ x ∈ init, 128 ≤ x.toNat) ∧ last.toNat < 128

/-- Upper-case hexadecimal digits. -/
def upperHex (n : Nat) : Char :=
  ['0', '1', '2', '3', '4', '5', '6', '7', '8', '9', 'A', 'B', 'C', 'D', 'E', 'F'].getD n '?'

/-- The last `w` hexadecimal digits of a number. -/
def hexWord : Nat → Nat → List Char
  | 0, _ => []
  | w + 1, n => hexWord w (n / 16) ++ [upperHex (n % 16)]

/-- A list of numbers, each with its number of bytes, in hexadecimal and separated by commas. -/
def hexList (l : List (Nat × Nat)) : String :=
  String.intercalate "," (l.map fun x => String.ofList (hexWord (2 * x.1) x.2))

/-- The packet lengths from offset `off` of a segment break off within a length. -/
def OpenEnded (c : Bytes) (off : Nat) : Prop := off < c.length ∧ ∃ x, c.getLast? = some x ∧ 128 ≤ x.toNat

/-- Validation of this marker segment ends, with a result or an exception. -/
def SegEnds (env : Env) (o : Options) (csiz : Option Int) (m c : Bytes) : Prop :=
  ∃ fuel, validateLeaf env o fuel csiz m c ≠ .timeout

/-- The second marker of the codestream is SIZ, and `first` is the offset of what follows it. -/
def MainStart (b : Bytes) (first : Nat) : Prop :=
  ∃ m c k siz, SegAt b 0 m c (some k) ∧ SegAt b k SIZ siz (some first)

/-- The SOT markers reached from the one at `first` by following tile-part lengths. -/
inductive SotReached (b : Bytes) (first : Nat) : Nat → Prop
  | first : sub b first 2 = SOT → SotReached b first first
  | next {off len} : SotReached b first off → uint b (off + 6) 4 = some len → len ≠ 0 →
      sub b (off + len) 2 = SOT → SotReached b first (off + len)

/-- A codestream that can be followed to its end: no packet length list in a header breaks off within a
length, and every tile-part has its length. -/
structure Followable (b : Bytes) : Prop where
  plm : ∀ first main e, MainStart b first → SegsTo b SOT first main e →
    ∀ x ∈ main, x.marker = PLM → ¬ OpenEnded x.contents 4
  sot : ∀ first main k off, MainStart b first → SegsTo b SOT first main (some k) → SotReached b k off →
    ∃ c n, SegAt b off SOT c (some n) ∧ 8 ≤ c.length
  plt : ∀ first main k off c n ss e, MainStart b first → SegsTo b SOT first main (some k) →
    SotReached b k off → SegAt b off SOT c (some n) → SegsTo b SOD n ss e →
    ∀ x ∈ ss, x.marker = PLT → ¬ OpenEnded x.contents 3

/-- `p` is a codestream that is followed when `b` is analysed: the whole of `b`, or a codestream box at
any depth. -/
def FollowedIn (f : Format) (b p : Bytes) : Prop :=
  match f with
  | .jp2 | .jph => ∃ d, HasBox b d (ascii "jp2c") p
  | _ => p = b

end Jpy.Spec
