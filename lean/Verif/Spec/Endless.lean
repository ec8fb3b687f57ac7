import Verif.Spec.Packets
import Verif.Spec.Crash
/-!
# Codestreams that are followed for ever

Exactly which codestreams keep the analysis from ending. The validator follows tile-part lengths also where they
are cut off, in which case it reckons with the length -9999 and may come to positions before the start of the data.
Such positions count from the end of the data. All this is written down from the byte layout; nothing here refers to
the validator.
-/

namespace Jpy.Spec

/-- The bytes from position `i` up to position `j`. A position below zero counts from the end of the data; positions
outside of the data stand for its ends. -/
def pyBytes (b : Bytes) (i j : Int) : Bytes :=
  let pos : Int → Nat := fun x => if x < 0 then (x + b.length).toNat else min x.toNat b.length
  (b.drop (pos i)).take (pos j - pos i)

/-- There is a marker at position `i`, with its segment and the position of the next marker, which is `none` if the
length cannot be read. At positions from zero on this is `SegAt`. -/
inductive PySegAt (b : Bytes) (i : Int) : Bytes → Bytes → Option Int → Prop
  | alone : pyBytes b i (i + 2) ∈ delimiters → PySegAt b i (pyBytes b i (i + 2)) [] (some (i + 2))
  | seg {x y : UInt8} {L : Nat} : pyBytes b i (i + 2) ∉ delimiters → pyBytes b (i + 2) (i + 4) = [x, y] →
      L = 256 * x.toNat + y.toNat →
      PySegAt b i (pyBytes b i (i + 2)) (pyBytes b (i + 2) (i + 2 + L)) (some (i + 2 + L))
  | noLength : pyBytes b i (i + 2) ∉ delimiters → (pyBytes b (i + 2) (i + 4)).length < 2 →
      PySegAt b i (pyBytes b i (i + 2)) [] none

/-- A field, or -9999 if it is cut off. -/
def reckoned (c : Bytes) (off n : Nat) : Int :=
  match uint c off n with
  | some v => v
  | none => -9999

/-- `q` is `a / b` rounded up, for a divisor of any sign. -/
def IsCeilOf (a b q : Int) : Prop := (0 < b ∧ IsCeil a b q) ∨ (b < 0 ∧ IsCeil (-a) (-b) q)

/-- The number of tiles reckoned with: zero if a tile size is zero. At complete SIZ segments with tile sizes this is
`TileCount`. -/
def TilesReckoned (siz : Bytes) (n : Int) : Prop :=
  ((reckoned siz 20 4 = 0 ∨ reckoned siz 24 4 = 0) ∧ n = 0) ∨
  ∃ q1 q2, IsCeilOf (reckoned siz 4 4 - reckoned siz 28 4) (reckoned siz 20 4) q1 ∧
    IsCeilOf (reckoned siz 8 4 - reckoned siz 32 4) (reckoned siz 24 4) q2 ∧ n = q1 * q2

/-- The header of a tile-part is read from position `i`, and reading comes to position `j`. Position -9999 is taken
for the end. -/
inductive HeaderFrom (b : Bytes) : Int → Int → Prop
  | here {i} : i ≠ -9999 → HeaderFrom b i i
  | next {i m c n j} : i ≠ -9999 → PySegAt b i m c (some n) → m ≠ SOD → HeaderFrom b n j → HeaderFrom b i j

/-- The header of the tile-part at `i` has a list of packet lengths that breaks off within a length. -/
def OpenHeader (b : Bytes) (i : Int) : Prop :=
  ∃ c n j p e, PySegAt b i SOT c (some n) ∧ HeaderFrom b n j ∧ PySegAt b j PLT p e ∧ OpenEnded p 3

/-- After the tile-part at `i`, which is one of a tile of the image, the one at `j` is read. -/
def NextPart (b : Bytes) (tiles i j : Int) : Prop :=
  ∃ c n, PySegAt b i SOT c n ∧ FieldIs c 2 2 (fun t => (t : Int) < tiles) ∧ j = i + reckoned c 4 4 ∧ j ≠ i ∧
    pyBytes b j (j + 2) = SOT

/-- From the tile-part at `i` the validator comes to the one at `j`, in any number of steps. -/
inductive LeadsTo (b : Bytes) (tiles : Int) : Int → Int → Prop
  | here {i} : LeadsTo b tiles i i
  | step {i j k} : NextPart b tiles i j → LeadsTo b tiles j k → LeadsTo b tiles i k

/-- The tile-parts lead back to the one at `i`. -/
def Circular (b : Bytes) (tiles i : Int) : Prop := ∃ j, NextPart b tiles i j ∧ LeadsTo b tiles j i

/-- A codestream that is never followed to its end: the main header has a list of packet lengths that breaks off
within a length, or the validator comes to a tile-part whose header has one, or to one that is visited again and
again. -/
def Endless (b : Bytes) : Prop :=
  ∃ m c k siz first main e, SegAt b 0 m c (some k) ∧ SegAt b k SIZ siz (some first) ∧ SegsTo b SOT first main e ∧
    ((∃ x ∈ main, x.marker = PLM ∧ OpenEnded x.contents 4) ∨
      ∃ (sot : Nat) (tiles i : Int), e = some sot ∧ TilesReckoned siz tiles ∧ LeadsTo b (min tiles 65535) sot i ∧
        (OpenHeader b i ∨ Circular b (min tiles 65535) i))

/-- A box that makes the validation raise an exception, by itself or by a box inside of it. -/
def CrashIn (t p : Bytes) : Prop :=
  CrashBox t p ∨ (t = ascii "jp2c" ∧ CrashCodestream p) ∨
    (t ∈ superboxTypes ∧ ∃ d t' p', HasBox p d t' p' ∧ (CrashBox t' p' ∨ (t' = ascii "jp2c" ∧ CrashCodestream p')))

/-- A box whose validation never ends: an endless codestream, or a superbox with such a box in it, before which there
is nothing that raises an exception. -/
inductive Hangs : Bytes → Bytes → Prop
  | codestream {p} : ¬ CrashCodestream p → Endless p → Hangs (ascii "jp2c") p
  | inside {t p pre x post} : t ∈ superboxTypes → Boxes p (pre ++ x :: post) →
      (∀ y ∈ pre, ¬ CrashIn y.type y.payload) → Hangs x.type x.payload → Hangs t p

/-- Contents of a file whose analysis never ends. -/
def NeverEnds : Format → Bytes → Prop
  | .jp2, b | .jph, b => ∃ pre x post, Boxes b (pre ++ x :: post) ∧ (∀ y ∈ pre, ¬ CrashIn y.type y.payload) ∧
      Hangs x.type x.payload
  | .j2c, b | .jhc, b => ¬ CrashCodestream b ∧ Endless b
  | .other _, _ => False

end Jpy.Spec
