import Verif.Model.Boxes
/-! # Leaf marker segment validators of `jpylyzer/boxvalidator.py` -/

namespace Jpy

open Step

/-- The text of the `capability` characteristic (`boxvalidator.py:1774-1842`); `none` where the local
variable `capability` is never assigned (the branch for profile 8 assigns `rsiz` instead, and a main
level of 8 to 15 under profile 0 matches no branch). -/
def sizCapability (rsiz : Int) : Option String :=
  let ext := low (shr rsiz 14) 4
  let profile := low (shr rsiz 8) 4
  let subLevel := low (shr rsiz 4) 4
  let mainLevel := low rsiz 4
  let main := toString mainLevel
  let both := toString mainLevel ++ "; Sublevel " ++ toString subLevel
  if ext = 1 then some "CAP"
  else if ext = 2 then some "ISO/IEC 15444-2"
  else if ext = 3 then some "ISO/IEC 15444-2 + CAP"
  else if profile = 0 then
    if mainLevel = 0 then some "ISO/IEC 15444-1"
    else if mainLevel = 1 then some "Profile 0"
    else if mainLevel = 2 then some "Profile 1"
    else if mainLevel = 3 then some "2K digital cinema profile"
    else if mainLevel = 4 then some "4K digital cinema profile"
    else if mainLevel = 5 then some "Scalable 2K digital cinema profile"
    else if mainLevel = 6 then some "Scalable 4K digital cinema profile"
    else if mainLevel = 7 then some "Long-term storage profile"
    else none
  else if profile = 1 then some ("Broadcast Contribution Single Tile Profile, Mainlevel " ++ main)
  else if profile = 2 then some ("Broadcast Contribution Multi-tile Profile, Mainlevel " ++ main)
  else if profile = 3 then
    some ("Broadcast Contribution Multi-tile Reversible Profile, Mainlevel " ++ main)
  else if profile = 4 then some ("2k IMF Single Tile Lossy Profile, Mainlevel " ++ both)
  else if profile = 5 then some ("4k IMF Single Tile Lossy Profile, Mainlevel " ++ both)
  else if profile = 6 then some ("8k IMF Single Tile Lossy Profile, Mainlevel " ++ both)
  else if profile = 7 then
    some ("2k IMF Single/Multi Tile Reversible Profile, Mainlevel " ++ both)
  else if profile = 8 then none
  else if profile = 9 then
    some ("8k IMF Single/Multi Tile Reversible Profile, Mainlevel " ++ both)
  else if profile = 15 ∧ subLevel = 15 ∧ mainLevel = 15 then
    some "Profile signalled in Profile Marker"
  else some "Unknown (value not defined in ISO/IEC 15444-1)"

/-- Number of tiles computed by `validate_siz` (`boxvalidator.py:1902-1911`). -/
def sizTiles (xsiz ysiz xTsiz yTsiz xTOsiz yTOsiz : Int) : Int :=
  if xTsiz ≠ 0 ∧ yTsiz ≠ 0 then
    ceilDiv (xsiz - xTOsiz) xTsiz * ceilDiv (ysiz - yTOsiz) yTsiz
  else 0

/-- `validate_siz` (`boxvalidator.py:1747-1966`). -/
def siz (fmt : Format) (c : Bytes) : Outcome (List Step) :=
  let lsiz := bytesToUShortInt (slice c 0 2)
  let rsiz := bytesToUShortInt (slice c 2 4)
  let xsiz := bytesToUInt (slice c 4 8)
  let ysiz := bytesToUInt (slice c 8 12)
  let xOsiz := bytesToUInt (slice c 12 16)
  let yOsiz := bytesToUInt (slice c 16 20)
  let xTsiz := bytesToUInt (slice c 20 24)
  let yTsiz := bytesToUInt (slice c 24 28)
  let xTOsiz := bytesToUInt (slice c 28 32)
  let yTOsiz := bytesToUInt (slice c 32 36)
  let csiz := bytesToUShortInt (slice c 36 38)
  match sizCapability rsiz with
  | none => .raised .unboundLocal
  | some capability => .ok (
    [ char "lsiz" (.int lsiz),
      test "lsizIsValid" (between 41 lsiz 49190),
      char "rsiz" (.int rsiz) ]
    ++ (if fmt.isPart1 then [ test "rsizIsValid" (decide (low (shr rsiz 12) 4 = 0)) ]
        else if fmt.isHT then [ test "rsizIsValid" (decide (getBitValue rsiz 2 16 = 1)) ]
        else [])
    ++ [ char "capability" (.str capability),
         char "xsiz" (.int xsiz),
         test "xsizIsValid" (between 1 xsiz (2 ^ 32 - 1)),
         char "ysiz" (.int ysiz),
         test "ysizIsValid" (between 1 ysiz (2 ^ 32 - 1)),
         char "xOsiz" (.int xOsiz),
         test "xOsizIsValid" (between 0 xOsiz (2 ^ 32 - 2)),
         char "yOsiz" (.int yOsiz),
         test "yOsizIsValid" (between 0 yOsiz (2 ^ 32 - 2)),
         char "xTsiz" (.int xTsiz),
         test "xTsizIsValid" (between 1 xTsiz (2 ^ 32 - 1)),
         char "yTsiz" (.int yTsiz),
         test "yTsizIsValid" (between 1 yTsiz (2 ^ 32 - 1)),
         char "xTOsiz" (.int xTOsiz),
         test "xTOsizIsValid" (between 0 xTOsiz (2 ^ 32 - 2)),
         char "yTOsiz" (.int yTOsiz),
         test "yTOsizIsValid" (between 0 yTOsiz (2 ^ 32 - 2)),
         char "numberOfTiles" (.int (sizTiles xsiz ysiz xTsiz yTsiz xTOsiz yTOsiz)),
         char "csiz" (.int csiz),
         test "csizIsValid" (between 1 csiz 16384),
         test "lsizConsistentWithCsiz" (decide (lsiz = 38 + 3 * csiz)) ]
    ++ (List.range (rangeLen csiz)).flatMap fun (i : Nat) =>
        let offset : Int := 38 + 3 * i
        let ssiz := bytesToUnsignedChar (slice c offset (offset + 1))
        let ssizDepth := low ssiz 7 + 1
        let xRsiz := bytesToUnsignedChar (slice c (offset + 1) (offset + 2))
        let yRsiz := bytesToUnsignedChar (slice c (offset + 2) (offset + 3))
        [ char "ssizSign" (.int (getBitValue ssiz 1)),
          char "ssizDepth" (.int ssizDepth),
          test "ssizIsValid" (between 1 ssizDepth 38),
          char "xRsiz" (.int xRsiz),
          test "xRsizIsValid" (between 1 xRsiz 255),
          char "yRsiz" (.int yRsiz),
          test "yRsizIsValid" (between 1 yRsiz 255) ])

/-- `2 ** e`: an integer, or for the only negative exponent that occurs (-9997, from an undecodable
field) the float `0.0` to which it underflows. -/
def pow2 (e : Int) : PyVal := if 0 ≤ e then .int (2 ^ e.toNat) else .flt ⟨0, 1, 0⟩

/-- The precinct part of `validate_cod` (`boxvalidator.py:2129-2179`) and `validate_coc`
(`boxvalidator.py:2324-2376`), which are the same code with a different start `offset`. -/
def precinctSteps (c : Bytes) (offset precincts levels : Int) : List Step :=
  if precincts = 1 then
    (List.range (rangeLen (levels + 1))).flatMap fun (i : Nat) =>
      let precinctByte := bytesToUnsignedChar (slice c (offset + i) (offset + i + 1))
      let precinctSizeX : Int := 2 ^ (low precinctByte 4).toNat
      let precinctSizeY : Int := 2 ^ (low (shr precinctByte 4) 4).toNat
      [ char "precinctSizeX" (.int precinctSizeX),
        test "precinctSizeXIsValid" (if i ≠ 0 then decide (precinctSizeX ≥ 2) else true),
        char "precinctSizeY" (.int precinctSizeY),
        test "precinctSizeYIsValid" (if i ≠ 0 then decide (precinctSizeY ≥ 2) else true) ]
  else
    (List.range (rangeLen (levels + 1))).flatMap fun _ =>
      [ char "precinctSizeX" (.int (2 ^ 15)), char "precinctSizeY" (.int (2 ^ 15)) ]

/-- The code block part of `validate_cod` (`boxvalidator.py:2055-2127`, with `offset` 8) and
`validate_coc` (`boxvalidator.py:2240-2322`), which are the same code. -/
def codeBlockSteps (fmt : Format) (c : Bytes) (offset : Int) : List Step :=
  let w := bytesToUnsignedChar (slice c offset (offset + 1)) + 2
  let h := bytesToUnsignedChar (slice c (offset + 1) (offset + 2)) + 2
  let style := bytesToUnsignedChar (slice c (offset + 2) (offset + 3))
  let onlyHT := if fmt.isHT then decide (maskAt style 6 2 = 64) else false
  let transformation := bytesToUnsignedChar (slice c (offset + 3) (offset + 4))
  [ char "codeBlockWidth" (pow2 w),
    test "codeBlockWidthExponentIsValid" (between 2 w 10),
    char "codeBlockHeight" (pow2 h),
    test "codeBlockHeightExponentIsValid" (between 2 h 10),
    test "sumHeightWidthExponentIsValid" (decide (w + h ≤ 12)),
    char "codingBypass" (.int (getBitValue style 8)) ]
  ++ (if !onlyHT then [ char "resetOnBoundaries" (.int (getBitValue style 7)) ] else [])
  ++ [ char "termOnEachPass" (.int (getBitValue style 6)),
       char "vertCausalContext" (.int (getBitValue style 5)) ]
  ++ (if !onlyHT then [ char "predTermination" (.int (getBitValue style 4)) ] else [])
  ++ (if !onlyHT then [ char "segmentationSymbols" (.int (getBitValue style 3)) ] else [])
  ++ [ char "transformation" (.int transformation),
       test "transformationIsValid" (decide (transformation ∈ [0, 1])) ]

/-- `validate_cod` (`boxvalidator.py:1968-2179`). -/
def cod (fmt : Format) (c : Bytes) : List Step :=
  let lcod := bytesToUShortInt (slice c 0 2)
  let scod := bytesToUnsignedChar (slice c 2 3)
  let precincts := getBitValue scod 8
  let sGcod := slice c 3 7
  let order := bytesToUnsignedChar (slice sGcod 0 1)
  let layers := bytesToUShortInt (slice sGcod 1 3)
  let mct := bytesToUnsignedChar (slice sGcod 3 4)
  let levels := bytesToUnsignedChar (slice c 7 8)
  let lcodExpected := if precincts = 1 then 13 + levels else 12
  [ char "lcod" (.int lcod),
    test "lcodIsValid" (between 12 lcod 45),
    char "precincts" (.int precincts),
    char "sop" (.int (getBitValue scod 7)),
    char "eph" (.int (getBitValue scod 6)),
    char "order" (.int order),
    test "orderIsValid" (decide (order ∈ [0, 1, 2, 3, 4])),
    char "layers" (.int layers),
    test "layersIsValid" (between 1 layers 65535),
    char "multipleComponentTransformation" (.int mct),
    test "multipleComponentTransformationIsValid" (decide (mct ∈ [0, 1])),
    char "levels" (.int levels),
    test "levelsIsValid" (between 0 levels 32),
    test "lcodConsistencyCheck" (decide (lcod = lcodExpected)) ]
  ++ codeBlockSteps fmt c 8
  ++ precinctSteps c 12 precincts levels

/-- The component index field shared by COC and RGN (`boxvalidator.py:2192-2202`, `2389-2399`):
value, validity and offset of the next field. -/
def compIndex (c : Bytes) (csiz : Int) : Int × Bool × Int :=
  if csiz < 257 then
    let v := bytesToUnsignedChar (slice c 2 3)
    (v, between 0 v 255, 3)
  else
    let v := bytesToUShortInt (slice c 2 4)
    (v, between 0 v 16383, 4)

/-- Use of `self.csiz` in a comparison or in `range`: `TypeError` when it is `None`. -/
def withCsiz (csiz : Option Int) (f : Int → List Step) : Outcome (List Step) :=
  match csiz with
  | none => .raised .typeError
  | some n => .ok (f n)

/-- `validate_coc` (`boxvalidator.py:2181-2376`). -/
def coc (fmt : Format) (csiz? : Option Int) (c : Bytes) : Outcome (List Step) :=
  withCsiz csiz? fun csiz =>
    let lcoc := bytesToUShortInt (slice c 0 2)
    let ⟨ccoc, ccocIsValid, offset⟩ := compIndex c csiz
    let scoc := bytesToUnsignedChar (slice c offset (offset + 1))
    let precincts := getBitValue scoc 8
    let levels := bytesToUnsignedChar (slice c (offset + 1) (offset + 2))
    let lcocExpected :=
      if precincts = 1 ∧ csiz < 257 then 10 + levels
      else if precincts = 1 ∧ csiz ≥ 257 then 11 + levels
      else if precincts = 0 ∧ csiz < 257 then 9
      else 10
    [ char "lcoc" (.int lcoc),
      test "lcocIsValid" (between 9 lcoc 43),
      char "ccoc" (.int ccoc),
      test "ccocIsValid" ccocIsValid,
      char "precincts" (.int precincts),
      char "levels" (.int levels),
      test "levelsIsValid" (between 0 levels 32),
      test "lcocConsistencyCheck" (decide (lcoc = lcocExpected)) ]
    ++ codeBlockSteps fmt c (offset + 2)
    ++ precinctSteps c (offset + 6) precincts levels

/-- `validate_rgn` (`boxvalidator.py:2378-2422`). -/
def rgn (fmt : Format) (csiz? : Option Int) (c : Bytes) : Outcome (List Step) :=
  withCsiz csiz? fun csiz =>
    let lrgn := bytesToUShortInt (slice c 0 2)
    let ⟨crgn, crgnIsValid, offset⟩ := compIndex c csiz
    let roiStyle := bytesToUnsignedChar (slice c offset (offset + 1))
    let roiShift := bytesToUnsignedChar (slice c (offset + 1) (offset + 2))
    [ char "lrgn" (.int lrgn),
      test "lrgnIsValid" (between 5 lrgn 6),
      char "crgn" (.int crgn),
      test "crgnIsValid" crgnIsValid,
      char "roiStyle" (.int roiStyle),
      test "roiStyleIsValid" (decide (roiStyle = 0)),
      char "roiShift" (.int roiShift),
      test "roiShiftIsValid" (if fmt.isHT then between 0 roiShift 37 else between 0 roiShift 255) ]

/-- The step size part of `validate_qcd` (`boxvalidator.py:2460-2496`) and `validate_qcc`
(`boxvalidator.py:2558-2592`), which are the same code. -/
def quantSteps (c : Bytes) (qStyle levels offset : Int) : List Step :=
  if qStyle = 0 then
    (List.range (rangeLen levels)).map fun (i : Nat) =>
      char "epsilon" (.int (low (shr (bytesToUnsignedChar
        (slice c (offset + i) (offset + i + 1))) 3) 5))
  else if qStyle = 1 then
    let sp := bytesToUShortInt (slice c offset (offset + 2))
    [ char "mu" (.int (low sp 11)), char "epsilon" (.int (low (shr sp 11) 5)) ]
  else if qStyle = 2 then
    (List.range (rangeLen levels)).flatMap fun (i : Nat) =>
      let sp := bytesToUShortInt (slice c (offset + 2 * i) (offset + 2 * i + 2))
      [ char "mu" (.int (low sp 11)), char "epsilon" (.int (low (shr sp 11) 5)) ]
  else []

/-- `validate_qcd` (`boxvalidator.py:2424-2496`). `levels` is only read for styles 0 and 2. -/
def qcd (c : Bytes) : List Step :=
  let lqcd := bytesToUShortInt (slice c 0 2)
  let sqcd := bytesToUnsignedChar (slice c 2 3)
  let qStyle := low sqcd 5
  let levels := if qStyle = 0 then intDiv (lqcd - 4) 3 else intDiv (lqcd - 5) 6
  [ char "lqcd" (.int lqcd),
    test "lqcdIsValid" (between 4 lqcd 197),
    char "qStyle" (.int qStyle),
    test "qStyleIsValid" (decide (qStyle ∈ [0, 1, 2])),
    char "guardBits" (.int (low (shr sqcd 5) 3)) ]
  ++ quantSteps c qStyle levels 3

/-- `validate_qcc` (`boxvalidator.py:2501-2592`). The first assignment of `levels`
(`boxvalidator.py:2544-2547`) is always overwritten by the second and is omitted. As in the code,
`offset` is not advanced past `sqcc` before the step sizes are read. -/
def qcc (csiz? : Option Int) (c : Bytes) : Outcome (List Step) :=
  withCsiz csiz? fun csiz =>
    let lqcc := bytesToUShortInt (slice c 0 2)
    let offset : Int := if csiz < 257 then 3 else 4
    let cqcc := if csiz < 257 then bytesToUnsignedChar (slice c 2 3)
      else bytesToUShortInt (slice c 2 4)
    let sqcc := bytesToUnsignedChar (slice c offset (offset + 1))
    let qStyle := low sqcc 5
    let levels :=
      if qStyle = 0 ∧ csiz < 257 then intDiv (lqcc - 5) 3
      else if qStyle = 2 ∧ csiz < 257 then intDiv (lqcc - 6) 6
      else if qStyle = 0 ∧ csiz ≥ 257 then intDiv (lqcc - 6) 3
      else intDiv (lqcc - 7) 6
    [ char "lqcc" (.int lqcc),
      test "lqccIsValid" (between 5 lqcc 199),
      char "cqcc" (.int cqcc),
      char "qStyle" (.int qStyle),
      test "qStyleIsValid" (decide (qStyle ∈ [0, 1, 2])),
      char "guardBits" (.int (low (shr sqcc 5) 3)) ]
    ++ quantSteps c qStyle levels offset

/-- One progression order change of `validate_poc` (`boxvalidator.py:2617-2680`) starting at
`offset`. -/
def pocEntry (csiz : Int) (c : Bytes) (offset : Int) : List Step :=
  let w : Int := if csiz < 257 then 1 else 2
  let u := fun (o : Int) => if csiz < 257 then bytesToUnsignedChar (slice c o (o + 1))
    else bytesToUShortInt (slice c o (o + 2))
  let rspoc := bytesToUnsignedChar (slice c offset (offset + 1))
  let cspoc := u (offset + 1)
  let lyepoc := bytesToUShortInt (slice c (offset + 1 + w) (offset + 1 + w + 2))
  let repoc := bytesToUnsignedChar (slice c (offset + 3 + w) (offset + 3 + w + 1))
  let cepoc := u (offset + 4 + w)
  let order := bytesToUnsignedChar (slice c (offset + 4 + 2 * w) (offset + 4 + 2 * w + 1))
  [ char "rspoc" (.int rspoc),
    test "rspocIsValid" (between 0 rspoc 32),
    char "cspoc" (.int cspoc),
    test "cspocIsValid" (if csiz < 257 then between 0 cspoc 255 else between 0 cspoc 16383),
    char "lyepoc" (.int lyepoc),
    test "lyepocIsValid" (between 1 lyepoc 65535),
    char "repoc" (.int repoc),
    test "repocIsValid" (between (rspoc + 1) repoc 33),
    char "cepoc" (.int cepoc),
    test "cepocIsValid"
      ((if csiz < 257 then between (cspoc + 1) cepoc 255 else between (cspoc + 1) cepoc 16384)
        || decide (cepoc = 0)),
    char "order" (.int order),
    test "orderIsValid" (decide (order ∈ [0, 1, 2, 3, 4])) ]

/-- `validate_poc` (`boxvalidator.py:2597-2680`); each entry takes 7 or 9 bytes. -/
def poc (csiz? : Option Int) (c : Bytes) : Outcome (List Step) :=
  withCsiz csiz? fun csiz =>
    let lpoc := bytesToUShortInt (slice c 0 2)
    let size : Int := if csiz < 257 then 7 else 9
    [ char "lpoc" (.int lpoc),
      test "lpocIsValid" (between 9 lpoc 65535) ]
    ++ (List.range (rangeLen (intDiv (lpoc - 2) size))).flatMap fun (i : Nat) =>
        pocEntry csiz c (2 + size * i)

/-- `validate_crg` (`boxvalidator.py:2682-2706`). -/
def crg (csiz? : Option Int) (c : Bytes) : Outcome (List Step) :=
  withCsiz csiz? fun csiz =>
    let lcrg := bytesToUShortInt (slice c 0 2)
    [ char "lcrg" (.int lcrg),
      test "lcrgIsValid" (between 6 lcrg 65534) ]
    ++ (List.range (rangeLen csiz)).flatMap fun (i : Nat) =>
        let offset : Int := 2 + 4 * i
        let xcrg := bytesToUShortInt (slice c offset (offset + 2))
        let ycrg := bytesToUShortInt (slice c (offset + 2) (offset + 4))
        [ char "xcrg" (.int xcrg),
          test "xcrgIsValid" (between 0 xcrg 65535),
          char "ycrg" (.int ycrg),
          test "ycrgIsValid" (between 0 ycrg 65535) ]

/-- `validate_com` (`boxvalidator.py:2708-2764`). Decoding ISO 8859-15 never fails. -/
def com (env : Env) (c : Bytes) : List Step :=
  let lcom := bytesToUShortInt (slice c 0 2)
  let rcom := bytesToUShortInt (slice c 2 4)
  let comment := slice c 4 lcom
  let text := comment.map latin9
  let ⟨commentIsValid, value⟩ : Bool × PyVal :=
    if rcom = 0 then (true, .bytes (bytesToHex comment))
    else if rcom = 1 then
      (decide (removeControlCharacters env.catC text = text), .str (String.ofList text))
    else (false, .bytes comment)
  [ char "lcom" (.int lcom),
    test "lcomIsValid" (between 5 lcom 65535),
    char "rcom" (.int rcom),
    test "rcomIsValid" (between 0 rcom 1),
    test "commentIsValid" commentIsValid ]
  ++ (if commentIsValid then [ char "comment" value ] else [])

/-- The parts of ISO/IEC 15444 referenced by a pcap field (`boxvalidator.py:2776-2788`): bit `31-i`
set means part `i+1`. -/
def capParts (pcap : Int) : List Nat :=
  ((List.range 32).filter fun (i : Nat) => decide (low (shr pcap (31 - i)) 1 = 1)).map (· + 1)

/-- Value of `htB` as a function of the low five bits (`boxvalidator.py:2840-2848`). -/
def capHtB (p : Int) : Int :=
  if p = 0 then 8 else if p < 20 then p + 8 else if 20 ≤ p ∧ p < 31 then 4 * (p - 19) + 27 else 74

/-- `validate_cap` (`boxvalidator.py:2766-2850`). `noccaps == (lcap - 6) / 2` is exact. The `k`-th
ccap value is read at offset `6 + 2k`, and part 15 has position `idxOf 15` in the list. -/
def cap (fmt : Format) (c : Bytes) : List Step :=
  let lcap := bytesToUShortInt (slice c 0 2)
  let pcap := bytesToUInt (slice c 2 6)
  let parts := capParts pcap
  let ccapAt := fun (k : Nat) => bytesToUShortInt (slice c (6 + 2 * k) (6 + 2 * k + 2))
  [ char "lcap" (.int lcap) ]
  ++ parts.map (fun (p : Nat) => char "pcapPart" (.int p))
  ++ [ test "lcapIsValid" (decide (2 * (parts.length : Int) = lcap - 6)) ]
  ++ (if fmt.isHT then
        test "pcap15IsValid" (decide (15 ∈ parts))
        :: (if 15 ∈ parts then
              let ccap := ccapAt (parts.idxOf 15)
              [ char "htCodeBlocks" (.int (maskAt ccap 14 2)),
                char "htSets" (.int (getBitValue ccap 3 16)),
                char "htRegion" (.int (getBitValue ccap 4 16)),
                char "htHomogeneous" (.int (getBitValue ccap 5 16)),
                char "htReversible" (.int (getBitValue ccap 11 16)),
                char "htB" (.int (capHtB (low ccap 5))) ]
            else [])
      else [])

/-- The accumulation loop of `validate_prf` and `validate_cpf` (`boxvalidator.py:2869-2874`,
`2897-2903`): as in the code, `offset` stays 2, so every iteration reads the same field, and the test
inside the loop is guarded by `i == n`, which never holds for `i < n`. Result: final profile number
and the tests performed. -/
def profileLoop (c : Bytes) (testName : String) (doTest : Bool) (n : Nat) (start : Int) :
    Int × List Step :=
  (List.range n).foldl (fun (acc : Int × List Step) i =>
    let p := bytesToUShortInt (slice c 2 4)
    (acc.1 + p * 2 ^ (16 * i),
     if i = n ∧ doTest then acc.2 ++ [ test testName (decide (p ≠ 0)) ] else acc.2)) (start, [])

/-- `validate_prf` (`boxvalidator.py:2852-2877`). -/
def prf (c : Bytes) : List Step :=
  let lprf := bytesToUShortInt (slice c 0 2)
  let ⟨num, tests⟩ := profileLoop c "pprfIsValid" true (rangeLen (intDiv (lprf - 2) 2)) 4095
  [ char "lprf" (.int lprf),
    test "lprfIsValid" (between 4 lprf 65534) ]
  ++ tests
  ++ [ test "PRFnumIsValid" (decide (num > 4095)),
       char "PRFnum" (.int num) ]

/-- `validate_cpf` (`boxvalidator.py:2879-2905`). -/
def cpf (fmt : Format) (c : Bytes) : List Step :=
  let lcpf := bytesToUShortInt (slice c 0 2)
  let ⟨num, tests⟩ := profileLoop c "pcpfIsValid" fmt.isHT (rangeLen (intDiv (lcpf - 2) 2)) (-1)
  [ char "lcpf" (.int lcpf) ]
  ++ (if fmt.isHT then [ test "lcpIsValid" (between 4 lcpf 65534) ] else [])
  ++ tests
  ++ [ char "CPFnum" (.int num) ]

/-- `validate_sot` (`boxvalidator.py:2907-2950`). -/
def sot (c : Bytes) : List Step :=
  let lsot := bytesToUShortInt (slice c 0 2)
  let isot := bytesToUShortInt (slice c 2 4)
  let psot := bytesToUInt (slice c 4 8)
  let tpsot := bytesToUnsignedChar (slice c 8 9)
  let tnsot := bytesToUnsignedChar (slice c 9 10)
  [ char "lsot" (.int lsot),
    test "lsotIsValid" (decide (lsot = 10)),
    char "isot" (.int isot),
    test "isotIsValid" (between 0 isot 65534),
    char "psot" (.int psot),
    test "psotIsValid" (!between 1 psot 13),
    char "tpsot" (.int tpsot),
    test "tpsotIsValid" (between 0 tpsot 254),
    char "tnsot" (.int tnsot) ]

/-- Inner `while` of `_parse_ipl` (`boxvalidator.py:269-272`): length of the entry starting at `i`,
given that `k` bytes have been counted. An empty slice decodes to -9999, which has bit 7 set. -/
def iplLen (c : Bytes) (i : Nat) : Nat → Nat → Outcome Nat
  | 0, _ => .timeout
  | fuel + 1, k =>
    if low (shr (bytesToUnsignedChar (slice c (i + k - 1) (i + k))) 7) 1 ≠ 0 then
      iplLen c i fuel (k + 1)
    else .ok k

/-- The `for` of `_parse_ipl` (`boxvalidator.py:274-279`): value of the entry of `len` bytes at
`i`. The bytes exist, so the values are natural numbers. -/
def iplValue (c : Bytes) (i len : Nat) : Nat :=
  (List.range (len - 1)).foldl
    (fun acc k => ((acc % 128) * 128) ||| (c.getD (i + k + 1) 0).toNat) (c.getD i 0).toNat

/-- `'{:0wX}'.format(n)`: upper-case hexadecimal padded with zeros to width `w`. -/
def hexUpper (w n : Nat) : String :=
  let ds := (Nat.toDigits 16 n).map Char.toUpper
  String.ofList (List.replicate (w - ds.length) '0' ++ ds)

/-- Outer `while` of `_parse_ipl` (`boxvalidator.py:265-283`): list of entries (length, value) from
offset `i`. -/
def iplLoop (c : Bytes) (lpl : Int) : Nat → Nat → Outcome (List (Nat × Nat))
  | 0, _ => .timeout
  | fuel + 1, i =>
    if (i : Int) < lpl ∧ i < c.length then do
      let len ← iplLen c i fuel 1
      let rest ← iplLoop c lpl fuel (i + len)
      .ok ((len, iplValue c i len) :: rest)
    else .ok []

/-- `_parse_ipl` (`boxvalidator.py:248-283`): the entries joined by commas (the code appends a comma
to each entry and drops the last character). -/
def parseIpl (fuel : Nat) (c : Bytes) (lpl : Int) (offset : Nat) : Outcome String := do
  let es ← iplLoop c lpl fuel offset
  .ok (String.intercalate "," (es.map fun e => hexUpper (2 * e.1) e.2))

/-- `validate_plm` (`boxvalidator.py:2962-2981`). -/
def plm (fuel : Nat) (c : Bytes) : Outcome (List Step) := do
  let lplm := bytesToUShortInt (slice c 0 2)
  let iplm ← parseIpl fuel c lplm 4
  .ok [ char "lplm" (.int lplm),
        char "zplm" (.int (bytesToUnsignedChar (slice c 2 3))),
        char "nplm" (.int (bytesToUnsignedChar (slice c 3 4))),
        char "iplm" (.str iplm) ]

/-- `validate_plt` (`boxvalidator.py:2983-2998`). -/
def plt (fuel : Nat) (c : Bytes) : Outcome (List Step) := do
  let lplt := bytesToUShortInt (slice c 0 2)
  let iplt ← parseIpl fuel c lplt 3
  .ok [ char "lplt" (.int lplt),
        char "zplt" (.int (bytesToUnsignedChar (slice c 2 3))),
        char "iplt" (.str iplt) ]

end Jpy
