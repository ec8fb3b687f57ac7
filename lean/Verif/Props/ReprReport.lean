import Verif.Props.Repr
import Verif.Props.Context
import Verif.Props.Boxes
/-!
# C75: the texts of resolutions in a report
-/

namespace Jpy
open Spec Sample

/-- The element for a box among others. -/
theorem collects_get {C : Bytes → Bytes → Option Share} {bs : List FoundBox} {more ps ts ws : List Elem}
    (h : Collects C bs more ps ts ws) {i : Nat} {x : FoundBox} (hx : bs[i]? = some x) :
    ∃ s, C x.type x.payload = some s ∧ ps[i]? = some s.props := by
  obtain ⟨ss, own, ownW, e1, e2, -⟩ := h
  have h1 := congrArg (fun l => l[i]?) e1
  simp only [List.getElem?_map, hx, Option.map_some] at h1
  cases hq : ss[i]? with
  | none => rw [hq] at h1; cases h1
  | some s =>
    rw [hq] at h1
    refine ⟨s, Option.some.inj h1, ?_⟩
    have hlt : i < ss.length := by
      rcases Nat.lt_or_ge i ss.length with hl | hl
      · exact hl
      · rw [List.getElem?_eq_none hl] at hq; cases hq
    rw [e2, List.getElem?_append_left (by simpa using hlt), List.getElem?_map, hq]; rfl

/-- The texts of the two resolutions with numerator `n`, denominator `d` and exponent `e` are those that Python makes of
the floats it computes for them. -/
def PrintsResolution (env : Env) (pow : Int → Rat) (n d e : Int) : Prop :=
  IsRepr (pyRound 2 (perMeterFloat pow n d e)) (env.floatStr (resPerMeter n d e)) ∧
  IsRepr (pyRound 2 (perInchFloat pow n d e)) (env.floatStr (resPerInch (resPerMeter n d e)))

/-- `s` is the number `x` rounded to two decimals, in decimal notation. -/
def ShownRounded (x : Rat) (s : String) : Prop := ∃ k : Int, 0 ≤ k ∧ NearestDecimal 2 x k ∧ DecimalText s ((k : Rat) / 100)

/-- The value of an element that has no description. -/
theorem readable_values {env : Env} {es : List Elem} {tag : String} {f : PyFloat} (hl : remapTable.lookup tag = none)
    (h : valuesOf es tag = [.flt f]) : valuesOf (makeHumanReadableL env remapTable es) tag = [.str (env.floatStr f)] := by
  unfold valuesOf at h ⊢
  rw [readableL_filter env _ (fun t => t == tag), readableL_map, List.map_map]
  generalize hq : (es.filter fun e => e.tag == tag) = l at h
  match l, h with
  | _ :: _ :: _, h => simp at h
  | [e], h =>
    have ht : e.tag = tag := by
      have : e ∈ es.filter fun e => e.tag == tag := by rw [hq]; simp
      simpa using (List.mem_filter.1 this).2
    obtain ⟨t, a, x, c, tl⟩ := e
    simp only [List.map_cons, List.map_nil, List.cons.injEq, and_true] at h
    have h' : x = .flt f := h
    have ht' : t = tag := ht
    subst h' ht'
    simp only [List.map_cons, List.map_nil, Function.comp, makeHumanReadable]
    simp [Elem.text, readableText, remapped, hl, printable]

/-- The values of a capture or display resolution box. -/
theorem resolution_values {env : Env} {o : Options} {fuel : Nat} {c tag : Bytes} {x : String}
    (ht : tag = ascii "resc" ∧ x = "c" ∨ tag = ascii "resd" ∧ x = "d") {r : BoxResult}
    (h : validateBox env o fuel tag c = .ok r) {vN vD hN hD vE hE : Nat}
    (h0 : uint c 0 2 = some vN) (h2 : uint c 2 2 = some vD) (h4 : uint c 4 2 = some hN)
    (h6 : uint c 6 2 = some hD) (h8 : uint c 8 1 = some vE) (h9 : uint c 9 1 = some hE) :
    vD ≠ 0 ∧ hD ≠ 0 ∧
    valuesOf r.node.chars ("vRes" ++ x ++ "InPixelsPerMeter") = [.flt (resPerMeter vN vD (signedByte vE))] ∧
    valuesOf r.node.chars ("hRes" ++ x ++ "InPixelsPerMeter") = [.flt (resPerMeter hN hD (signedByte hE))] ∧
    valuesOf r.node.chars ("vRes" ++ x ++ "InPixelsPerInch") = [.flt (resPerInch (resPerMeter vN vD (signedByte vE)))] ∧
    valuesOf r.node.chars ("hRes" ++ x ++ "InPixelsPerInch") = [.flt (resPerInch (resPerMeter hN hD (signedByte hE)))] := by
  show vD ≠ 0 ∧ hD ≠ 0 ∧ Spec.reported r.node _ = _ ∧ Spec.reported r.node _ = _ ∧ Spec.reported r.node _ = _ ∧ Spec.reported r.node _ = _
  have hl : 10 ≤ c.length := uint_some_le h9
  rw [uint_getElem (by omega)] at h8 h9
  have s8 := signed_slice c 8 (by omega)
  have s9 := signed_slice c 9 (by omega)
  simp only [Int.cast_ofNat_Int, Int.reduceAdd] at s8 s9
  rw [Option.some.inj h8] at s8
  rw [Option.some.inj h9] at s9
  cases fuel with
  | zero => cases h
  | succ fuel =>
    rcases ht with ⟨rfl, rfl⟩ | ⟨rfl, rfl⟩
    · obtain ⟨ss, h1, rfl⟩ := (validateBox_ok (t := .captureResolutionBox) (by decide) rfl).1 h
      simp only [leaf, resolutionLeaf] at h1
      rw [u16_at c 0 (x := 0) (y := 2) rfl rfl, u16_at c 2 (x := 2) (y := 4) rfl rfl,
        u16_at c 4 (x := 4) (y := 6) rfl rfl, u16_at c 6 (x := 6) (y := 8) rfl rfl, h0, h2, h4, h6, s8, s9] at h1
      simp only [intOf] at h1
      by_cases z1 : (vD : Int) = 0
      · simp only [z1, if_true] at h1; cases h1
      simp only [z1, if_false] at h1
      by_cases z2 : (hD : Int) = 0
      · simp only [z2, if_true] at h1; cases h1
      simp only [z2, if_false] at h1
      cases h1
      refine ⟨by omega, by omega, ?_⟩
      simp only [reported_run, String.reduceAppend]
      rep
      refine ⟨?_, ?_, ?_, ?_⟩ <;> first | trivial | rfl
    · obtain ⟨ss, h1, rfl⟩ := (validateBox_ok (t := .displayResolutionBox) (by decide) rfl).1 h
      simp only [leaf, resolutionLeaf] at h1
      rw [u16_at c 0 (x := 0) (y := 2) rfl rfl, u16_at c 2 (x := 2) (y := 4) rfl rfl,
        u16_at c 4 (x := 4) (y := 6) rfl rfl, u16_at c 6 (x := 6) (y := 8) rfl rfl, h0, h2, h4, h6, s8, s9] at h1
      simp only [intOf] at h1
      by_cases z1 : (vD : Int) = 0
      · simp only [z1, if_true] at h1; cases h1
      simp only [z1, if_false] at h1
      by_cases z2 : (hD : Int) = 0
      · simp only [z2, if_true] at h1; cases h1
      simp only [z2, if_false] at h1
      cases h1
      refine ⟨by omega, by omega, ?_⟩
      simp only [reported_run, String.reduceAppend]
      rep
      refine ⟨?_, ?_, ?_, ?_⟩ <;> first | trivial | rfl

/-- C75 (resolutions in reports): in the report of any JP2 or JPH file whose analysis succeeds, the texts of the
resolutions of a capture or display resolution box, wherever the box is in the file, are the exact numbers of pixels per
metre and per inch rounded to two decimals, in decimal notation. `x` is the letter in the names. Missing from the full
property: exponents above 8. -/
theorem C75_resolution_report_partial {env : Env} {pow : Int → Rat} (hpow : GoodPow pow) {me : MixEnv} {fs : FS} {fuel : Nat}
    {o : Options} {mix : Nat} {path : PyStr} (hfmt : o.format = .jp2 ∨ o.format = .jph) {rep : Elem}
    (h : checkOneFile env me fs fuel o mix path = .ok rep) (hs : status rep "success" = [.str "True"])
    {bs hdr res : List FoundBox} {i j k : Nat} {b1 b2 b3 : FoundBox}
    (hb : Boxes (bytesRead (fs.read path)) bs) (hi : bs[i]? = some b1) (t1 : b1.type = ascii "jp2h")
    (hb1 : Boxes b1.payload hdr) (hj : hdr[j]? = some b2) (t2 : b2.type = ascii "res ")
    (hb2 : Boxes b2.payload res) (hk : res[k]? = some b3) {x : String}
    (t3 : b3.type = ascii "resc" ∧ x = "c" ∨ b3.type = ascii "resd" ∧ x = "d")
    {vN vD hN hD vE hE : Nat} (h0 : uint b3.payload 0 2 = some vN) (h2 : uint b3.payload 2 2 = some vD)
    (h4 : uint b3.payload 4 2 = some hN) (h6 : uint b3.payload 6 2 = some hD) (h8 : uint b3.payload 8 1 = some vE)
    (h9 : uint b3.payload 9 1 = some hE) (hv8 : signedByte vE ≤ 8) (hh8 : signedByte hE ≤ 8)
    (hp : PrintsResolution env pow vN vD (signedByte vE)) (hp' : PrintsResolution env pow hN hD (signedByte hE)) :
    ∃ e1 e2 e3 s1 s2 s3 s4, (contents rep "properties")[i]? = some e1 ∧ e1.children[j]? = some e2 ∧
      e2.children[k]? = some e3 ∧
      valuesOf e3.children ("vRes" ++ x ++ "InPixelsPerMeter") = [.str s1] ∧
      ShownRounded ((vN : Rat) / vD * (10 : Rat) ^ signedByte vE) s1 ∧
      valuesOf e3.children ("hRes" ++ x ++ "InPixelsPerMeter") = [.str s2] ∧
      ShownRounded ((hN : Rat) / hD * (10 : Rat) ^ signedByte hE) s2 ∧
      valuesOf e3.children ("vRes" ++ x ++ "InPixelsPerInch") = [.str s3] ∧
      ShownRounded ((vN : Rat) / vD * (10 : Rat) ^ signedByte vE * (254 / 10000)) s3 ∧
      valuesOf e3.children ("hRes" ++ x ++ "InPixelsPerInch") = [.str s4] ∧
      ShownRounded ((hN : Rat) / hD * (10 : Rat) ^ signedByte hE * (254 / 10000)) s4 := by
  obtain ⟨u1, c1, g1⟩ := props_share hfmt h hs hb hi
  obtain ⟨u2, c2, g2⟩ := collects_get (super_collects (by rw [t1]; decide) hb1 c1).1 hj
  obtain ⟨u3, c3, g3⟩ := collects_get (super_collects (by rw [t2]; decide) hb2 c2).1 hk
  obtain ⟨f, r, hr, rfl⟩ := contribution_some c3
  obtain ⟨zv, zh, v1, v2, v3, v4⟩ := resolution_values t3 hr h0 h2 h4 h6 h8 h9
  have hlk : ∀ t ∈ ["vRescInPixelsPerMeter", "hRescInPixelsPerMeter", "vRescInPixelsPerInch", "hRescInPixelsPerInch",
      "vResdInPixelsPerMeter", "hResdInPixelsPerMeter", "vResdInPixelsPerInch", "hResdInPixelsPerInch"],
      remapTable.lookup t = none := by decide
  have hx : x = "c" ∨ x = "d" := t3.imp (·.2) (·.2)
  have kids : (shareOf env r).props.children = makeHumanReadableL env remapTable r.node.chars :=
    readable_children env remapTable _
  have rng : ∀ {E : Nat}, E < 256 ^ 1 → -128 ≤ signedByte E := by
    intro E hE; unfold signedByte; split <;> omega
  have key : ∀ {N D E : Nat}, N < 256 ^ 2 → D < 256 ^ 2 → E < 256 ^ 1 → D ≠ 0 → signedByte E ≤ 8 →
      PrintsResolution env pow N D (signedByte E) →
      ShownRounded ((N : Rat) / D * (10 : Rat) ^ signedByte E) (env.floatStr (resPerMeter N D (signedByte E))) ∧
      ShownRounded ((N : Rat) / D * (10 : Rat) ^ signedByte E * (254 / 10000))
        (env.floatStr (resPerInch (resPerMeter N D (signedByte E)))) := by
    intro N D E hN hD hE hz he hp
    obtain ⟨i, j, a1, a2, a3, a4, a5, a6, a7, a8⟩ := C75_resolution_partial hpow (n := N) (d := D) (e := signedByte E) (by omega) (by omega)
      (by omega) (by omega) (rng hE) he hp.1 hp.2
    exact ⟨⟨i, a1, a3, a5⟩, ⟨j, a6, a7, a8⟩⟩
  obtain ⟨k1, k2⟩ := key (uint_lt h0) (uint_lt h2) (uint_lt h8) zv hv8 hp
  obtain ⟨k3, k4⟩ := key (uint_lt h4) (uint_lt h6) (uint_lt h9) zh hh8 hp'
  refine ⟨_, _, _, _, _, _, _, g1, g2, g3, ?_, k1, ?_, k3, ?_, k2, ?_, k4⟩ <;> rw [kids]
  · exact readable_values (by rcases hx with rfl | rfl <;> exact hlk _ (by decide)) v1
  · exact readable_values (by rcases hx with rfl | rfl <;> exact hlk _ (by decide)) v2
  · exact readable_values (by rcases hx with rfl | rfl <;> exact hlk _ (by decide)) v3
  · exact readable_values (by rcases hx with rfl | rfl <;> exact hlk _ (by decide)) v4

/-- A valid file with a resolution box, whatever the texts of the floats; the kernel computes the report. -/
theorem jp2b_saysValid (f : PyFloat → String) :
    saysValid (checkOneFile { env0 with floatStr := f } me0 (fs0 jp2b) 200 (opts .jp2) 0 [97]) = true := by
  run_tac do
    let g ← Lean.Elab.Tactic.getMainGoal
    g.assign (Lean.mkApp2 (.const ``Eq.refl [1]) (.const ``Bool []) (.const ``true []))

/-- `C75_resolution_report_partial` at work on the sample file, which has 300 × 10² pixels per metre in both directions:
the report has some text for it, and it stands for 30000. -/
example : ∃ env rep e1 e2 e3 s1, checkOneFile env me0 (fs0 jp2b) 200 (opts .jp2) 0 [97] = .ok rep ∧
    (contents rep "properties")[3]? = some e1 ∧ e1.children[3]? = some e2 ∧ e2.children[0]? = some e3 ∧
    valuesOf e3.children "vRescInPixelsPerMeter" = [.str s1] ∧ ShownRounded 30000 s1 := by
  classical
  obtain ⟨a, ha⟩ := C75_exists (k := 3000000) (d := 2) (by decide) (by decide)
  obtain ⟨b, hb⟩ := C75_exists (k := 76200) (d := 2) (by decide) (by decide)
  let pow : Int → Rat := fun e => fl ((10 : Rat) ^ e)
  have ea : pyRound 2 (perMeterFloat pow 300 1 2) = fl ((3000000 : Nat) / 10 ^ 2) := by decide +kernel
  have eb : pyRound 2 (perInchFloat pow 300 1 2) = fl ((76200 : Nat) / 10 ^ 2) := by decide +kernel
  let f : PyFloat → String := fun p => if p = resPerMeter 300 1 2 then a else b
  have hp : PrintsResolution { env0 with floatStr := f } pow 300 1 2 := by
    refine ⟨?_, ?_⟩
    · rw [ea]; simpa [f] using ha
    · rw [eb]
      have : resPerInch (resPerMeter 300 1 2) ≠ resPerMeter 300 1 2 := by simp [resPerInch, resPerMeter]
      simpa [f, this] using hb
  obtain ⟨rep, h, -, hs⟩ := saysValid_ok (jp2b_saysValid f)
  have hb0 : Boxes jp2b [⟨0, ascii "jP  ", [0x0d, 0x0a, 0x87, 0x0a]⟩,
      ⟨12, ascii "ftyp", ascii "jp2 " ++ be32 0 ++ ascii "jp2 "⟩, ⟨32, ascii "abcd", [1, 2, 3]⟩,
      ⟨43, ascii "jp2h", ihdr 1 2 3 255 ++ box "bpcc" [7, 7, 7] ++ colr 16 ++
        box "res " (box "resc" (be16 300 ++ be16 1 ++ be16 300 ++ be16 1 ++ [2, 2]))⟩,
      ⟨125, ascii "jp2c", cs2⟩,
      ⟨133 + cs2.length, ascii "uinf", box "ulst" (be16 1 ++ List.replicate 16 5) ++
        box "url " ([0, 0, 0, 0] ++ ascii "http:" ++ [0])⟩,
      ⟨185 + cs2.length, ascii "uuid", List.replicate 20 9⟩] := boxes_of 10 (by decide +kernel)
  obtain ⟨e1, e2, e3, s1, -, -, -, g1, g2, g3, v, sh, -⟩ := C75_resolution_report_partial goodPow_fl (.inl rfl) h hs hb0 (i := 3) rfl rfl
    (hdr := [⟨0, ascii "ihdr", be32 1 ++ be32 2 ++ be16 3 ++ [255, 7, 0, 0]⟩, ⟨22, ascii "bpcc", [7, 7, 7]⟩,
      ⟨33, ascii "colr", [1, 0, 0] ++ be32 16⟩,
      ⟨48, ascii "res ", box "resc" (be16 300 ++ be16 1 ++ be16 300 ++ be16 1 ++ [2, 2])⟩])
    (boxes_of 10 (by decide +kernel)) (j := 3) rfl rfl
    (res := [⟨0, ascii "resc", be16 300 ++ be16 1 ++ be16 300 ++ be16 1 ++ [2, 2]⟩])
    (boxes_of 10 (by decide +kernel)) (k := 0) rfl (.inl ⟨rfl, rfl⟩)
    (vN := 300) (vD := 1) (hN := 300) (hD := 1) (vE := 2) (hE := 2) (by decide) (by decide) (by decide) (by decide)
    (by decide) (by decide) (by decide) (by decide) hp hp
  refine ⟨_, rep, e1, e2, e3, s1, h, g1, g2, g3, v, ?_⟩
  have : ((300 : Nat) : Rat) / (1 : Nat) * (10 : Rat) ^ signedByte 2 = 30000 := by decide +kernel
  rwa [this] at sh

/-- The texts of the illuminants are those that Python makes of the floats it computes for them. -/
def PrintsIlluminants (env : Env) : Prop :=
  ∀ b : Bytes, 0 ≤ bytesToUInt b → IsRepr (illuminantFloat (bytesToUInt b)) (env.floatStr ⟨bytesToUInt b, 65536, 4⟩)

/-- The bytes at which the illuminants of an ICC profile are stored. -/
def illuminantAt : List (String × Nat) :=
  [("connectionSpaceIlluminantX", 68), ("connectionSpaceIlluminantY", 72), ("connectionSpaceIlluminantZ", 76)]

/-- C75 (illuminants in reports): in the report of any JP2 or JPH file whose analysis succeeds, the text of an illuminant
of an ICC profile embedded in a colour specification box is the stored number over 65536, rounded to four decimals, in
decimal notation. -/
theorem C75_illuminant_report {env : Env} (he : PrintsIlluminants env) {me : MixEnv} {fs : FS} {fuel : Nat}
    {o : Options} {mix : Nat} {path : PyStr} (hfmt : o.format = .jp2 ∨ o.format = .jph) {rep : Elem}
    (h : checkOneFile env me fs fuel o mix path = .ok rep) (hs : status rep "success" = [.str "True"])
    {bs hdr : List FoundBox} {i j : Nat} {b1 b2 : FoundBox}
    (hb : Boxes (bytesRead (fs.read path)) bs) (hi : bs[i]? = some b1) (t1 : b1.type = ascii "jp2h")
    (hb1 : Boxes b1.payload hdr) (hj : hdr[j]? = some b2) (t2 : b2.type = ascii "colr")
    (hm : uint b2.payload 0 1 = some 2 ∨ uint b2.payload 0 1 = some 3) :
    ∃ e1 e2 e3, (contents rep "properties")[i]? = some e1 ∧ e1.children[j]? = some e2 ∧
      (e2.children.filter fun e => e.tag == "icc") = [e3] ∧
      ∀ p ∈ illuminantAt, ∀ v, uint (b2.payload.drop 3) p.2 4 = some v →
        ∃ (s : String) (k : Int), valuesOf e3.children p.1 = [.str s] ∧ 0 ≤ k ∧ NearestDecimal 4 ((v : Rat) / 65536) k ∧
          DecimalText s ((k : Rat) / 10 ^ 4) := by
  obtain ⟨u1, c1, g1⟩ := props_share hfmt h hs hb hi
  obtain ⟨u2, c2, g2⟩ := collects_get (super_collects (by rw [t1]; decide) hb1 c1).1 hj
  obtain ⟨f, r, hr, rfl⟩ := contribution_some c2
  rw [t2] at hr
  cases f with
  | zero => cases hr
  | succ f =>
    obtain ⟨e, hf, hfields, -⟩ := (C53_colr env o f _ r hr).2.2.2 hm
    have kids : (shareOf env r).props.children = makeHumanReadableL env remapTable r.node.chars :=
      readable_children env remapTable _
    refine ⟨_, _, makeHumanReadable env remapTable e, g1, g2, ?_, fun p hp v hv => ?_⟩
    · rw [kids, readableL_filter env _ (fun t => t == "icc"), hf, readableL_map]; rfl
    · obtain ⟨x, hx, hg⟩ := hfields ⟨p.1, .fixed p.2⟩ (by
        simp only [illuminantAt, List.mem_cons, List.not_mem_nil, or_false] at hp
        rcases hp with rfl | rfl | rfl <;> simp [iccFields])
      have hx' := hg v hv
      subst hx'
      have hlk : remapTable.lookup p.1 = none := by
        simp only [illuminantAt, List.mem_cons, List.not_mem_nil, or_false] at hp
        rcases hp with rfl | rfl | rfl <;> decide
      have hval := readable_values (env := env) hlk hx
      rw [← readable_children] at hval
      have hb32 : bytesToUInt (slice (b2.payload.drop 3) p.2 (p.2 + 4)) = v := by
        rw [u32_at _ p.2 rfl rfl, hv]; rfl
      obtain ⟨k, k0, -, k2, -, k3⟩ := C75_illuminant (b := slice (b2.payload.drop 3) p.2 (p.2 + 4)) (by rw [hb32]; omega)
        (he _ (by rw [hb32]; omega))
      rw [hb32] at k2 k3
      exact ⟨_, k, hval, k0, k2, k3⟩

/-- Such texts exist. -/
theorem printsIlluminants_exists (env : Env) : ∃ f, PrintsIlluminants { env with floatStr := f } := by
  classical
  refine ⟨fun q => if h : ∃ s, IsRepr (illuminantFloat q.num) s then h.choose else "", ?_⟩
  intro b h0
  have hb := uint_bound b
  have hR := C73_illuminant b
  generalize bytesToUInt b = v at *
  have h1 : (v : Rat) ≤ (4294967296 : Int) := cast_le.2 (by omega)
  have h2 : (0 : Rat) ≤ (v : Rat) := cast_le.2 h0
  rw [show ((4294967296 : Int) : Rat) = 4294967296 from rfl] at h1
  obtain ⟨k, k1, -, k3⟩ := rounded_decimal (by decide) (by grind) (by
    rw [show (10 : Rat) ^ 4 = 10000 by decide +kernel, show (10 : Rat) ^ 15 = 1000000000000000 by decide +kernel]
    grind) hR
  have hex : ∃ s, IsRepr (illuminantFloat v) s := by
    rw [show illuminantFloat v = _ from k3]
    exact C75_exists k1 (by decide)
  simp only
  rw [dif_pos hex]
  exact hex.choose_spec

/-- An ICC profile without tags whose illuminant is that of D50: 0.9642, 1 and 0.8249. -/
def d50Profile : Bytes :=
  be32 132 ++ List.replicate 8 0 ++ ascii "mntr" ++ ascii "GRAY" ++ ascii "XYZ " ++ List.replicate 44 0 ++
    be32 63190 ++ be32 65536 ++ be32 54061 ++ List.replicate 52 0

/-- A file whose colour space is given by that profile. -/
def iccFile : Bytes := sig ++ ftyp "jp2 " ++ box "jp2h" (ihdr 1 1 1 7 ++ box "colr" ([2, 0, 0] ++ d50Profile)) ++ box "jp2c" cs1

/-- The file is valid, whatever the texts of the floats; the kernel computes the report. -/
theorem iccFile_saysValid (f : PyFloat → String) :
    saysValid (checkOneFile { env0 with floatStr := f } me0 (fs0 iccFile) 200 (opts .jp2) 0 [97]) = true := by
  run_tac do
    let g ← Lean.Elab.Tactic.getMainGoal
    g.assign (Lean.mkApp2 (.const ``Eq.refl [1]) (.const ``Bool []) (.const ``true []))

/-- `C75_illuminant_report` at work on that file: the report shows the nearest number with four decimals to 63190/65536. -/
example : ∃ env rep e1 e2 e3 s k, checkOneFile env me0 (fs0 iccFile) 200 (opts .jp2) 0 [97] = .ok rep ∧
    (contents rep "properties")[2]? = some e1 ∧ e1.children[1]? = some e2 ∧
    (e2.children.filter fun e => e.tag == "icc") = [e3] ∧
    valuesOf e3.children "connectionSpaceIlluminantX" = [.str s] ∧ NearestDecimal 4 (63190 / 65536) k ∧
    DecimalText s ((k : Rat) / 10 ^ 4) := by
  obtain ⟨f, hf⟩ := printsIlluminants_exists env0
  obtain ⟨rep, h, -, hs⟩ := saysValid_ok (iccFile_saysValid f)
  have hb : Boxes iccFile [⟨0, ascii "jP  ", [0x0d, 0x0a, 0x87, 0x0a]⟩,
      ⟨12, ascii "ftyp", ascii "jp2 " ++ be32 0 ++ ascii "jp2 "⟩,
      ⟨32, ascii "jp2h", ihdr 1 1 1 7 ++ box "colr" ([2, 0, 0] ++ d50Profile)⟩,
      ⟨205, ascii "jp2c", cs1⟩] := boxes_of 10 (by decide +kernel)
  obtain ⟨e1, e2, e3, g1, g2, g3, hv⟩ := C75_illuminant_report hf (.inl rfl) h hs hb (i := 2) rfl rfl
    (hdr := [⟨0, ascii "ihdr", be32 1 ++ be32 1 ++ be16 1 ++ [7, 7, 0, 0]⟩, ⟨22, ascii "colr", [2, 0, 0] ++ d50Profile⟩])
    (boxes_of 10 (by decide +kernel)) (j := 1) rfl rfl (.inl rfl)
  obtain ⟨s, k, v, -, n, t⟩ := hv _ (List.mem_cons_self ..) 63190 (by decide +kernel)
  exact ⟨_, rep, e1, e2, e3, s, k, h, g1, g2, g3, v, n, t⟩

end Jpy
