import Verif.Lemmas.Warned
import Verif.Props.Unknown
/-!
# The warnings of a report (C62)
-/

namespace Jpy
open Spec Sample

theorem typeText_exists (env : Env) (t : Bytes) : TypeText env t (bytesToText env.catC t) := by
  unfold bytesToText
  split
  · rename_i cs hd; exact .text ((utf8Decode_iff _ _).1 hd)
  · rename_i hd
    refine .binary fun cs hc => ?_
    rw [(utf8Decode_iff _ _).2 hc] at hd
    cases hd

theorem typeText_printable {env : Env} {t s} (h : TypeText env t s) : Printable env s := by
  cases h with
  | text => exact printable_shown env _
  | binary => intro ch h; simp at h

/-- The message survives post-processing. -/
theorem unknown_message {env : Env} (hs : Sane env) {s : String} (h : Printable env s) :
    printable env (.str ("ignoring unknown box '" ++ s ++ "'")) = .str ("ignoring unknown box '" ++ s ++ "'") := by
  have : Printable env ("ignoring unknown box '" ++ s ++ "'") := by
    intro ch hc hcat
    rw [String.toList_append, String.toList_append] at hc
    rcases List.mem_append.1 hc with hc | hc
    · rcases List.mem_append.1 hc with hc | hc
      · have key : ∀ ch ∈ "ignoring unknown box '".toList, 32 ≤ ch.toNat ∧ ch.toNat ≤ 126 := by decide
        rw [hs.ascii ch (key ch hc).1 (key ch hc).2] at hcat; cases hcat
      · exact h ch hc hcat
    · have key : ∀ ch ∈ "'".toList, 32 ≤ ch.toNat ∧ ch.toNat ≤ 126 := by decide
      rw [hs.ascii ch (key ch hc).1 (key ch hc).2] at hcat; cases hcat
  exact congrArg PyVal.str (shown_printable this)

theorem warned_inTurn {env : Env} {f : FoundBox → Outcome BoxResult} {xs : List FoundBox} : ∀ {rs : List BoxResult},
    inTurn f xs = .ok rs →
    (∀ x ∈ xs, ∀ r, f x = .ok r → ∀ bs ws, Warned env bs ws →
      Warned env (x :: bs) (makeHumanReadableL env [] (entry r) ++ ws)) →
    Warned env xs (makeHumanReadableL env [] (rs.flatMap entry)) := by
  induction xs with
  | nil => intro rs h _; cases h; exact .nil
  | cons x xs ih =>
    intro rs h hx
    obtain ⟨y, hy, h⟩ := Outcome.bind_eq_ok.1 h
    obtain ⟨ys, hys, h⟩ := Outcome.bind_eq_ok.1 h
    cases h
    rw [List.flatMap_cons, readableL_append]
    exact hx x (by simp) y hy _ _ (ih hys fun z hz => hx z (by simp [hz]))

theorem readableL_nil {env : Env} {tbl} {l : List Elem} : makeHumanReadableL env tbl l = [] ↔ l = [] := by
  cases l <;> simp [makeHumanReadableL]

/-- The warnings of one box. -/
theorem warned_box {env : Env} (hs : Sane env) (o : Options) : ∀ (fuel s : Nat) (t p : Bytes) (r : BoxResult),
    validateBox env o fuel t p = .ok r → ∀ bs ws, Warned env bs ws →
    Warned env (⟨s, t, p⟩ :: bs) (makeHumanReadableL env [] (entry r) ++ ws)
  | 0, _, _, _, _, h => by cases h
  | fuel + 1, s, t, p, r, h => by
    intro bs ws hw
    have tag := validateBox_tag h
    by_cases hsup : boxTypeOf t ∈ [BoxType.jp2HeaderBox, .resolutionBox, .uuidInfoBox]
    · obtain ⟨hs', hb⟩ := boxes_exists p
      have key : ∀ n types, walkBoxes (validateBox env o fuel) p fuel = .ok (n, types) →
          Warned env hs' (makeHumanReadableL env [] n.warnings) := by
        intro n types hw
        obtain ⟨rs, hr, rfl, -⟩ := walkBoxes_ok hb hw
        rw [warnings_foldl_absorb]
        exact warned_inTurn hr fun x _ r hr => warned_box hs o fuel x.start x.type x.payload r hr
      have hin : Warned env hs' (makeHumanReadableL env [] r.node.warnings) := by
        unfold validateBox at h
        simp only [List.mem_cons, List.not_mem_nil, or_false] at hsup
        rcases hsup with e | e | e <;> rw [e] at h <;> simp only at h <;>
          obtain ⟨⟨n, ts⟩, hw, h⟩ := Outcome.bind_eq_ok.1 h <;> cases h
        · simp only [jp2HeaderFinish_warnings]; exact key n ts hw
        · simp only [resolutionFinish_warnings]; exact key n ts hw
        · simp only [uuidInfoFinish_warnings]; exact key n ts hw
      have := Warned.super (s := s) (boxTypeOf_super.2 ⟨hsup, rfl⟩) hb hin hw
      refine Eq.mp (congrArg (Warned env _ <| · ++ ws) ?_) this
      unfold entry
      by_cases hr : r.node.warnings = []
      · rw [if_pos hr, if_pos (readableL_nil.2 hr)]; rfl
      · rw [if_neg hr, if_neg (fun e => hr (readableL_nil.1 e)), tag]
        rfl
    · by_cases hu : boxTypeOf t = .unknownBox
      · obtain ⟨h1, h2⟩ := boxTypeOf_unknown.1 hu
        unfold validateBox at h
        rw [hu] at h
        simp only [validateLeaf, hu, leaf] at h
        cases h
        have := Warned.unknown (s := s) (p := p) h1 h2 (typeText_exists env t) hw
        have e : makeHumanReadableL env [] (entry ⟨BoxType.unknownBox.name, Node.run o.verbose {} (unknownBox env t), none⟩) =
            [.node "unknownBox" [.leaf "warning" (.str ("ignoring unknown box '" ++ bytesToText env.catC t ++ "'"))]] := by
          show [Elem.mk _ _ _ [Elem.mk _ _ (printable env (.str _)) _]] = _
          rw [unknown_message hs (typeText_printable (typeText_exists env t))]
          rfl
        rw [e]
        exact this
      · have hc : r.node.warnings = [] := by
          unfold validateBox at h
          split at h
          · rename_i e; exact absurd (by rw [e]; simp) hsup
          · rename_i e; exact absurd (by rw [e]; simp) hsup
          · rename_i e; exact absurd (by rw [e]; simp) hsup
          · obtain ⟨n, hn, h⟩ := Outcome.bind_eq_ok.1 h
            cases h
            exact codestream_calm hn
          · cases h
          · exact validateLeaf_calm h hu
        have : entry r = [] := if_pos hc
        rw [this]
        refine .other ?_ ?_ hw
        · by_cases h1 : t ∈ knownBoxTypes
          · exact .inl h1
          · by_cases h2 : t ∈ knownMarkers
            · exact .inr h2
            · exact absurd (boxTypeOf_unknown.2 ⟨h1, h2⟩) hu
        · intro hm
          obtain ⟨⟨t', n⟩, hm', rfl⟩ := List.mem_map.1 hm
          exact hsup (boxTypeOf_super.1 hm').1

theorem warned_root {env : Env} (hs : Sane env) {o : Options} (hfmt : o.format = .jp2 ∨ o.format = .jph)
    {fuel b n bs} (hb : Boxes b bs) (h : validateRoot env o fuel b = .ok n) :
    Warned env bs (makeHumanReadableL env [] n.warnings) := by
  have hr : validateJP2 env o fuel b = .ok n := by
    unfold validateRoot at h; rcases hfmt with e | e <;> rw [e] at h <;> exact h
  obtain ⟨⟨m, ts⟩, hw, hf⟩ := Outcome.bind_eq_ok.1 hr
  rw [jp2Finish_warnings hf]
  obtain ⟨rs, hr, rfl, -⟩ := walkBoxes_ok hb hw
  rw [warnings_foldl_absorb]
  exact warned_inTurn hr fun x _ r hr => warned_box hs o fuel x.start x.type x.payload r hr

theorem typeText_unique {env : Env} {t s s'} (h : TypeText env t s) (h' : TypeText env t s') : s = s' := by
  cases h with
  | text h1 =>
    cases h' with
    | text h2 =>
      rw [← utf8Decode_iff] at h1 h2
      rw [h1] at h2
      cases h2; rfl
    | binary h2 => exact absurd h1 (h2 _)
  | binary h1 =>
    cases h' with
    | text h2 => exact absurd h2 (h1 _)
    | binary => rfl

/-- The specification leaves no choice. -/
theorem warned_unique {env : Env} {bs ws} (h : Warned env bs ws) : ∀ {ws'}, Warned env bs ws' → ws = ws' := by
  have sk : ∀ {t n}, (t, n) ∈ superNames → t ∈ knownBoxTypes := by
    have : ∀ p ∈ superNames, p.1 ∈ knownBoxTypes := by decide
    intro t n h; exact this _ h
  have su : ∀ {t n m}, (t, n) ∈ superNames → (t, m) ∈ superNames → n = m := by
    intro t n m h1 h2
    rw [(boxTypeOf_super.1 h1).2, (boxTypeOf_super.1 h2).2]
  induction h with
  | nil => intro ws' h'; cases h'; rfl
  | unknown h1 h2 h3 _ ih =>
    intro ws' h'
    cases h' with
    | unknown _ _ h3' h4 => rw [typeText_unique h3 h3', ih h4]
    | super h _ _ _ => exact absurd (sk h) h1
    | other h _ _ => exact absurd h (by simp [h1, h2])
  | super h1 h2 _ _ ih1 ih2 =>
    intro ws' h'
    cases h' with
    | unknown h _ _ _ => exact absurd (sk h1) h
    | super h1' h2' h3' h4' =>
      obtain rfl := boxes_unique h2 h2'
      rw [ih1 h3', ih2 h4', su h1 h1']
    | other _ h _ => exact absurd (List.mem_map.2 ⟨_, h1, rfl⟩) h
  | other h1 h2 _ ih =>
    intro ws' h'
    cases h' with
    | unknown h3 h4 _ _ => exact absurd h1 (by simp [h3, h4])
    | super h _ _ _ => exact absurd (List.mem_map.2 ⟨_, h, rfl⟩) h2
    | other _ _ h => exact ih h

theorem hasBox_inside {b : Bytes} {bs x} (hb : Boxes b bs) (hx : x ∈ bs) (ht : x.type ∈ superboxTypes) {d t p}
    (h : HasBox x.payload d t p) : HasBox b (d + 1) t p := by
  induction h with
  | top h1 h2 => exact .inside (.top hb hx) ht h1 h2
  | inside _ h1 h2 h3 ih => exact .inside ih h1 h2 h3

theorem hasBox_inv {b : Bytes} {bs} (hb : Boxes b bs) {d t p} (h : HasBox b d t p) :
    ∃ x ∈ bs, (x.type = t ∧ x.payload = p) ∨ (x.type ∈ superboxTypes ∧ ∃ d', HasBox x.payload d' t p) := by
  induction h with
  | top h1 h2 =>
    obtain rfl := boxes_unique hb h1
    exact ⟨_, h2, .inl ⟨rfl, rfl⟩⟩
  | inside _ h1 h2 h3 ih =>
    obtain ⟨x, hx, ⟨rfl, rfl⟩ | ⟨hs, d', h⟩⟩ := ih
    · exact ⟨x, hx, .inr ⟨h1, _, .top h2 h3⟩⟩
    · exact ⟨x, hx, .inr ⟨hs, _, .inside h h1 h2 h3⟩⟩

theorem superNames_iff {t : Bytes} : t ∈ superboxTypes ↔ t ∈ superNames.map (·.1) := by
  have h1 : ∀ t ∈ superboxTypes, t ∈ superNames.map (·.1) := by decide
  have h2 : ∀ t ∈ superNames.map (·.1), t ∈ superboxTypes := by decide
  exact ⟨h1 t, h2 t⟩

/-- No warnings if and only if every box, at any depth, is known. -/
theorem warned_nil {env : Env} {bs ws} (h : Warned env bs ws) :
    ws = [] ↔ ∀ x ∈ bs, (x.type ∈ knownBoxTypes ∨ x.type ∈ knownMarkers) ∧
      (x.type ∈ superboxTypes → ∀ d t p, HasBox x.payload d t p → t ∈ knownBoxTypes ∨ t ∈ knownMarkers) := by
  induction h with
  | nil => simp
  | unknown h1 h2 _ _ _ =>
    refine ⟨(fun h => nomatch h), fun h => ?_⟩
    have := (h _ (List.mem_cons_self ..)).1
    simp only [h1, h2, or_self] at this
  | @super s t name p hs inner bs ws h1 h2 _ _ ih1 ih2 =>
    have hsup : t ∈ superboxTypes := superNames_iff.2 (List.mem_map.2 ⟨_, h1, rfl⟩)
    have hk : t ∈ knownBoxTypes := by
      have : ∀ t ∈ superboxTypes, t ∈ knownBoxTypes := by decide
      exact this t hsup
    have hin : inner = [] ↔ ∀ d t' p', HasBox p d t' p' → t' ∈ knownBoxTypes ∨ t' ∈ knownMarkers := by
      rw [ih1]
      constructor
      · intro h d t' p' hb
        obtain ⟨x, hx, ⟨rfl, rfl⟩ | ⟨hs', d', hb'⟩⟩ := hasBox_inv h2 hb
        · exact (h x hx).1
        · exact (h x hx).2 hs' _ _ _ hb'
      · intro h x hx
        exact ⟨h _ _ _ (.top h2 hx), fun hs' d t' p' hb => h _ _ _ (hasBox_inside h2 hx hs' hb)⟩
    have : (if inner = [] then [] else [Elem.node name inner]) ++ ws = [] ↔ inner = [] ∧ ws = [] := by
      by_cases he : inner = []
      · simp [he]
      · rw [if_neg he]
        constructor
        · intro h; cases h
        · intro h; exact absurd h.1 he
    rw [this, hin, ih2]
    simp only [List.mem_cons, forall_eq_or_imp, hk, true_or, hsup, true_and, forall_const]
  | @other s t p bs ws h1 h2 _ ih =>
    have hn : t ∉ superboxTypes := fun h => h2 (superNames_iff.1 h)
    rw [ih]
    simp only [List.mem_cons, forall_eq_or_imp, h1, hn, true_and, false_implies]

/-- C62: the warnings of a successful report on a JP2 or JPH file with contents are exactly one for each
box of unknown type, inside or outside of superboxes, in the order of the file. -/
theorem C62_boxes (env : Env) (hs : Sane env) (me : MixEnv) (fs : FS) (o : Options) (mix fuel : Nat)
    (hfmt : o.format = .jp2 ∨ o.format = .jph) (path : PyStr) (b : Bytes) (rep : Elem)
    (hb : fs.read path = .data b) (hne : b ≠ []) (bs : List FoundBox) (hbs : Boxes b bs)
    (h : checkOneFile env me fs fuel o mix path = .ok rep) (hok : status rep "success" = [.str "True"]) :
    ∃ ws, Warned env bs ws ∧ (∀ ws', Warned env bs ws' → ws' = ws) ∧
      part rep "warnings" = some (.node "warnings" ws) := by
  obtain ⟨info, a, m, h1, h2, h3, rfl⟩ := checkOneFile_ok.1 h
  obtain ⟨-, p1, -, -, -, p5, -⟩ := report_parts (fileInfo_tag h1) (o := o) (a := a) (mix := mix) (m := m)
  rw [p5]
  rcases analyse_cases h2 with ⟨b', w, n, h4, h5, rfl⟩ | ⟨e, -, rfl⟩
  · unfold fileToMemoryMap at h4
    rw [hb] at h4
    cases b with
    | nil => exact absurd rfl hne
    | cons x xs =>
      cases h4
      have := warned_root hs hfmt hbs h5
      refine ⟨_, this, fun ws' h' => (warned_unique this h').symm, ?_⟩
      simp [analysisOf]
  · exfalso
    unfold status at hok
    rw [p1] at hok
    simp [analysisFailed, boolStr, Elem.node, Elem.leaf] at hok

/-- C62: such a report has no warning if and only if every box, at any depth, is of a known type. -/
theorem C62_silent (env : Env) (hs : Sane env) (me : MixEnv) (fs : FS) (o : Options) (mix fuel : Nat)
    (hfmt : o.format = .jp2 ∨ o.format = .jph) (path : PyStr) (b : Bytes) (rep : Elem)
    (hb : fs.read path = .data b) (hne : b ≠ [])
    (h : checkOneFile env me fs fuel o mix path = .ok rep) (hok : status rep "success" = [.str "True"]) :
    contents rep "warnings" = [] ↔ ∀ d t p, HasBox b d t p → t ∈ knownBoxTypes ∨ t ∈ knownMarkers := by
  obtain ⟨bs, hbs⟩ := boxes_exists b
  obtain ⟨ws, hw, -, hp⟩ := C62_boxes env hs me fs o mix fuel hfmt path b rep hb hne bs hbs h hok
  have : contents rep "warnings" = ws := by unfold contents; rw [hp]; rfl
  rw [this, warned_nil hw]
  constructor
  · intro h d t p hb
    obtain ⟨x, hx, ⟨rfl, rfl⟩ | ⟨hs', d', hb'⟩⟩ := hasBox_inv hbs hb
    · exact (h x hx).1
    · exact (h x hx).2 hs' _ _ _ hb'
  · intro h x hx
    exact ⟨h _ _ _ (.top hbs hx), fun hs' d t' p' hb => h _ _ _ (hasBox_inside hbs hx hs' hb)⟩

/-- C62: a report on an empty file, or on one that is too large to be opened, has one warning, which
says so. -/
theorem C62_empty (env : Env) (me : MixEnv) (fs : FS) (o : Options) (mix fuel : Nat) (path : PyStr) (rep : Elem)
    (msg : String) (hr : (fs.read path = .data [] ∧ msg = "empty file " ++ path.toText) ∨
      ∃ gb, fs.read path = .tooLarge gb ∧
        msg = "file " ++ path.toText ++ " too large to open (" ++ gb ++ " GB). Try using 64-bit Python.")
    (h : checkOneFile env me fs fuel o mix path = .ok rep) (hok : status rep "success" = [.str "True"]) :
    part rep "warnings" = some (.node "warnings" [.leaf "warning" (.str (shown env msg.toList))]) := by
  obtain ⟨info, a, m, h1, h2, h3, rfl⟩ := checkOneFile_ok.1 h
  obtain ⟨-, p1, -, -, -, p5, -⟩ := report_parts (fileInfo_tag h1) (o := o) (a := a) (mix := mix) (m := m)
  rw [p5]
  rcases analyse_cases h2 with ⟨b', w, n, h4, h5, rfl⟩ | ⟨e, -, rfl⟩
  · have hw : b' = [] ∧ w = [msg] := by
      unfold fileToMemoryMap at h4
      rcases hr with ⟨hr, rfl⟩ | ⟨gb, hr, rfl⟩ <;> rw [hr] at h4 <;> cases h4 <;> exact ⟨rfl, rfl⟩
    obtain ⟨rfl, rfl⟩ := hw
    have hn : n.warnings = [] := by
      unfold validateRoot at h5
      split at h5
      · obtain ⟨⟨m, ts⟩, hw, hf⟩ := Outcome.bind_eq_ok.1 h5
        obtain ⟨rs, hr, rfl, -⟩ := walkBoxes_ok (b := []) (bs := []) (.done (Nat.le_refl 0)) hw
        cases hr
        exact jp2Finish_warnings hf
      · obtain ⟨⟨m, ts⟩, hw, hf⟩ := Outcome.bind_eq_ok.1 h5
        obtain ⟨rs, hr, rfl, -⟩ := walkBoxes_ok (b := []) (bs := []) (.done (Nat.le_refl 0)) hw
        cases hr
        exact jp2Finish_warnings hf
      · exact codestream_calm h5
      · exact codestream_calm h5
      · cases h5
    simp only [analysisOf, hn]
    rfl
  · exfalso
    unfold status at hok
    rw [p1] at hok
    simp [analysisFailed, boolStr, Elem.node, Elem.leaf] at hok

/-- C62: a successful report on a codestream with contents has no warnings. -/
theorem C62_codestream (env : Env) (me : MixEnv) (fs : FS) (o : Options) (mix fuel : Nat)
    (hfmt : o.format = .j2c ∨ o.format = .jhc) (path : PyStr) (b : Bytes) (rep : Elem)
    (hb : fs.read path = .data b) (hne : b ≠ [])
    (h : checkOneFile env me fs fuel o mix path = .ok rep) (hok : status rep "success" = [.str "True"]) :
    part rep "warnings" = some (.node "warnings" []) := by
  obtain ⟨info, a, m, h1, h2, h3, rfl⟩ := checkOneFile_ok.1 h
  obtain ⟨-, p1, -, -, -, p5, -⟩ := report_parts (fileInfo_tag h1) (o := o) (a := a) (mix := mix) (m := m)
  rw [p5]
  rcases analyse_cases h2 with ⟨b', w, n, h4, h5, rfl⟩ | ⟨e, -, rfl⟩
  · unfold fileToMemoryMap at h4
    rw [hb] at h4
    cases b with
    | nil => exact absurd rfl hne
    | cons x xs =>
      cases h4
      have : codestream env o fuel (x :: xs) = .ok n := by
        unfold validateRoot at h5; rcases hfmt with e | e <;> rw [e] at h5 <;> exact h5
      simp [analysisOf, codestream_calm this, makeHumanReadableL]
  · exfalso
    unfold status at hok
    rw [p1] at hok
    simp [analysisFailed, boolStr, Elem.node, Elem.leaf] at hok

/-! ## Concrete cases -/

/-- The names and texts in the warnings of a report that says success. -/
def warningsShown (x : Outcome Elem) : Option (List (String × PyVal)) :=
  match x with
  | .ok rep => if status rep "success" = [.str "True"]
      then some ((Elem.iterL (contents rep "warnings")).map fun e => (e.tag, e.text)) else none
  | _ => none

/-- `C62_boxes` at work: an unknown box in the header and one after it. -/
example : warningsShown (reportOf (opts .jp2) 0 (fileWith (box "abcd" [1, 2]) (box "free" []))) =
    some [("jp2HeaderBox", .none), ("unknownBox", .none), ("warning", .str "ignoring unknown box 'abcd'"),
      ("unknownBox", .none), ("warning", .str "ignoring unknown box 'free'")] := by decide +kernel

/-- The hypotheses of `C62_codestream` and of `C62_empty` are met. -/
example : warningsShown (reportOf (opts .j2c) 0 cs2) = some [] ∧
    warningsShown (reportOf (opts .jp2) 0 []) = some [("warning", .str "empty file a")] := by decide +kernel

/-- C62: a box whose header is cut off after two bytes of the type, which look like a marker, is taken
for a marker segment without a warning; with other bytes there is a warning. -/
theorem C62_cut_header :
    warningsShown (reportOf (opts .jp2) 0 (jp2 ++ be32 8 ++ [0xff, 0x50])) = some [] ∧
    warningsShown (reportOf (opts .jp2) 0 (jp2 ++ be32 8 ++ [0x61, 0x62])) =
      some [("unknownBox", .none), ("warning", .str "ignoring unknown box 'ab'")] := by decide +kernel

end Jpy
