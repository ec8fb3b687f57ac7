import Verif.Lemmas.ReportNames
import Verif.Props.MixValues
/-! # The characters in reports -/

namespace Jpy
open Spec.Xml

/-- The same for a value that may be a string. -/
def LegalVal (v : PyVal) : Prop := ∀ s, v = .str s → LegalStr s

theorem legal_mk {t a x c l} : LegalText (.mk t a x c l) ↔
    (LegalVal x ∧ (∀ k ∈ a, LegalStr k.2) ∧ LegalStr l) ∧ ∀ e ∈ c, LegalText e := by
  unfold LegalText
  rw [Elem.iter]
  constructor
  · intro h
    refine ⟨h _ (List.mem_cons_self ..), fun e he x hx => h x (List.mem_cons_of_mem _ (mem_iter_list.2 ⟨e, he, hx⟩))⟩
  · rintro ⟨h1, h2⟩ x hx
    rcases List.mem_cons.1 hx with rfl | hx
    · exact h1
    · obtain ⟨e, he, hx⟩ := mem_iter_list.1 hx
      exact h2 e he x hx

theorem legal_leaf {t v} (h : LegalVal v) : LegalText (.leaf t v) := legal_mk.2 ⟨⟨h, forall_nil, rfl⟩, forall_nil⟩
theorem legalVal_none : LegalVal .none := fun _ h => nomatch h
theorem legalVal_str {s} (h : LegalStr s) : LegalVal (.str s) := fun _ h' => by cases h'; exact h
theorem legal_node {t c} (h : ∀ e ∈ c, LegalText e) : LegalText (.node t c) := legal_mk.2 ⟨⟨legalVal_none, forall_nil, rfl⟩, h⟩
theorem legal_s {t s} (h : LegalStr s) : LegalText (sLeaf t s) := legal_leaf (legalVal_str h)

theorem legalStr_append {a b : String} (ha : LegalStr a) (hb : LegalStr b) : LegalStr (a ++ b) := by
  unfold LegalStr at *
  rw [String.toList_append, List.all_append, ha, hb]; rfl

theorem legalStr_of {l : List Char} (h : ∀ c ∈ l, isChar c = true) : LegalStr (String.ofList l) := by
  unfold LegalStr
  rw [String.toList_ofList]
  exact List.all_eq_true.2 h

theorem isChar_digit {c : Char} (h : c.isDigit = true) : isChar c = true := by
  unfold Char.isDigit at h
  unfold isChar
  have h1 : (48 : UInt32) ≤ c.val ∧ c.val ≤ 57 := by simpa using h
  have h2 : 48 ≤ c.val.toNat ∧ c.val.toNat ≤ 57 := ⟨UInt32.le_iff_toNat_le.1 h1.1, UInt32.le_iff_toNat_le.1 h1.2⟩
  have : c.toNat = c.val.toNat := rfl
  simp only [Bool.or_eq_true, Bool.and_eq_true, decide_eq_true_eq]
  omega

theorem legalStr_nat (n : Nat) : LegalStr (Nat.repr n) := by
  unfold LegalStr
  refine List.all_eq_true.2 fun c hc => isChar_digit ?_
  exact isDigit_repr hc

theorem legalStr_int (i : Int) : LegalStr (toString i) := by
  cases i with
  | ofNat n => exact legalStr_nat n
  | negSucc n =>
    show LegalStr ("-" ++ Nat.repr (n + 1))
    exact legalStr_append (by unfold LegalStr; decide) (legalStr_nat _)

theorem legal_removed {env : Env} (h : LegalEnv env) (s : List Char) :
    LegalStr (String.ofList (removeControlCharacters env.catC s)) := by
  apply legalStr_of
  intro c hc
  unfold removeControlCharacters at hc
  have := (List.mem_filter.1 hc).2
  cases hic : isChar c with
  | true => rfl
  | false =>
    rw [h.dropped c hic] at this
    have hn : ¬ (c = '\t' ∨ c = '\n' ∨ c = '\r') := by
      rintro (rfl | rfl | rfl) <;> exact absurd hic (by decide)
    simp only [Bool.not_true, Bool.false_or, Bool.or_eq_true, beq_iff_eq] at this
    exact absurd (or_assoc.1 this) hn

theorem legal_printable {env : Env} (h : LegalEnv env) (v : PyVal) : LegalVal (printable env v) := by
  cases v with
  | none => exact legalVal_none
  | str s => exact legalVal_str (legal_removed h _)
  | bytes b =>
    refine legalVal_str ?_
    unfold bytesToText
    split
    · exact legal_removed h _
    · unfold LegalStr; decide
  | int i => exact legalVal_str (legalStr_int i)
  | flt f => exact legalVal_str (h.floats f)
  | bool b => exact legalVal_str (by cases b <;> (unfold LegalStr; decide))

mutual
theorem legal_readable {env : Env} (h : LegalEnv env) (tbl) : ∀ e : Elem, FromXml e → LegalText (makeHumanReadable env tbl e)
  | .mk t a x c lt, hx => by
    rw [fromXml_mk] at hx
    rw [makeHumanReadable, legal_mk]
    exact ⟨⟨legal_printable h _, fun k hk => (hx.1.2.2.1 k hk).2.2, hx.1.2.2.2⟩, legal_readableL h tbl c hx.2⟩
theorem legal_readableL {env : Env} (h : LegalEnv env) (tbl) : ∀ es : List Elem, (∀ e ∈ es, FromXml e) →
    ∀ e ∈ makeHumanReadableL env tbl es, LegalText e
  | [], _ => by rw [makeHumanReadableL]; exact fun _ h => nomatch h
  | e :: es, hx => by
    rw [makeHumanReadableL]
    exact forall_cons (legal_readable h tbl e (hx e (List.mem_cons_self ..)))
      (legal_readableL h tbl es fun e he => hx e (List.mem_cons_of_mem _ he))
end

theorem legal_failure (e : Exn) : LegalStr (failureMessage e) := by
  cases e <;> (unfold LegalStr; decide +kernel)

theorem analyse_legal {env : Env} (hl : LegalEnv env) (hx : ParsesXml env) {fs o fuel path a} (h : analyse env fs o fuel path = .ok a) :
    (∀ e ∈ a.tests, LegalText e) ∧ (∀ e ∈ a.props, LegalText e) ∧ (∀ e ∈ a.warnings, LegalText e) ∧
      ∀ m, a.failure = some m → LegalStr m := by
  rcases analyse_cases h with ⟨b, fmm, n, -, hn, rfl⟩ | ⟨e, -, rfl⟩
  · have hn := validateRoot_named hx hn
    refine ⟨legal_readableL hl _ _ hn.tests, legal_readableL hl _ _ hn.chars,
      legal_readableL hl _ _ (forall_append hn.warnings ?_), fun _ h => nomatch h⟩
    intro e he
    obtain ⟨w, -, rfl⟩ := List.mem_map.1 he
    exact fromXml_leaf (by decide) _
  · refine ⟨(fun _ h => nomatch h), (fun _ h => nomatch h), forall_one (legal_leaf (legalVal_str (legal_failure e))), ?_⟩
    intro m hm
    cases hm
    exact legal_failure e

/-! ## The extension -/

theorem legal_text {e : Elem} (h : LegalText e) : LegalVal e.text := by
  obtain ⟨t, a, x, c⟩ := e
  exact (legal_mk.1 h).1.1

theorem legal_children {e : Elem} (h : LegalText e) : ∀ x ∈ e.children, LegalText x := by
  obtain ⟨t, a, x, c⟩ := e
  exact (legal_mk.1 h).2

theorem legal_findall : ∀ (p : List String) (es : List Elem), (∀ e ∈ es, LegalText e) → ∀ e ∈ Elem.findall es p, LegalText e
  | [], _, _ => by rw [Elem.findall]; exact forall_nil
  | [t], es, h => by
    rw [Elem.findall]
    exact fun e he => h e (List.mem_filter.1 he).1
  | t :: u :: ts, es, h => by
    rw [Elem.findall]
    · intro e he
      obtain ⟨x, hx, he⟩ := List.mem_flatMap.1 he
      exact legal_findall (u :: ts) _ (legal_children (h x (List.mem_filter.1 hx).1)) e he
    · simp

theorem legal_find {p : List String} {es : List Elem} (h : ∀ e ∈ es, LegalText e) {e} (he : Elem.find es p = some e) : LegalText e :=
  legal_findall p es h e (List.mem_of_mem_head? he)

theorem legal_findText {p : List String} {es : List Elem} (h : ∀ e ∈ es, LegalText e) {v} (hv : findText es p = .ok v) : LegalVal v := by
  unfold findText at hv
  split at hv
  · rename_i e he
    cases hv
    exact legal_text (legal_find h he)
  · cases hv

theorem legal_asStr {v s} (h : LegalVal v) (hs : asStr v = .ok s) : LegalStr s := by
  cases v <;> cases hs
  exact h _ rfl

theorem legal_asText {v s} (h : LegalVal v) (hs : asText v = .ok s) : LegalStr s := by
  cases v <;> cases hs
  exact h _ rfl

theorem legal_strOf {v} (h : LegalVal v) : LegalStr (strOf v) := by
  cases v
  case str s => exact h _ rfl
  all_goals exact (by decide : "None".toList.all isChar = true)

theorem legal_sub {s : String} (h : LegalStr s) {l : List Char} (hl : ∀ c ∈ l, c ∈ s.toList) : LegalStr (String.ofList l) :=
  legalStr_of fun c hc => List.all_eq_true.1 h c (hl c hc)

theorem splitLastDashV_mem : ∀ {l p r : List Char}, splitLastDashV l = some (p, r) → (∀ c ∈ p, c ∈ l) ∧ ∀ c ∈ r, c ∈ l
  | [], _, _, h => by cases h
  | c :: cs, p, r, h => by
    unfold splitLastDashV at h
    split at h
    · rename_i p' s' hs
      cases h
      obtain ⟨h1, h2⟩ := splitLastDashV_mem hs
      exact ⟨forall_cons (List.mem_cons_self ..) fun x hx => List.mem_cons_of_mem _ (h1 x hx),
        fun x hx => List.mem_cons_of_mem _ (h2 x hx)⟩
    · split at h
      · cases h
        exact ⟨forall_nil, fun x hx => List.mem_cons_of_mem _ (List.mem_cons_of_mem _ hx)⟩
      · cases h

theorem firstSome_mem {α β : Type} {f : α → Option β} : ∀ {l : List α} {y}, firstSome f l = some y → ∃ x ∈ l, f x = some y
  | [], _, h => by cases h
  | x :: xs, y, h => by
    rw [firstSome] at h
    split at h
    · cases h
      rename_i hy
      exact ⟨x, List.mem_cons_self .., hy⟩
    · obtain ⟨z, h1, h2⟩ := firstSome_mem h
      exact ⟨z, List.mem_cons_of_mem _ h1, h2⟩

theorem legal_matchCodec {s g1 g2} (h : LegalStr s) (hm : matchCodec s = some (g1, g2)) : LegalStr g1 ∧ LegalStr g2 := by
  unfold matchCodec at hm
  obtain ⟨⟨p, r⟩, h1, h2⟩ := Option.map_eq_some_iff.1 hm
  cases h2
  obtain ⟨l, hl, h1⟩ := firstSome_mem h1
  have hl := line_infix hl
  obtain ⟨h3, h4⟩ := splitLastDashV_mem h1
  exact ⟨legal_sub h fun c hc => hl.mem (h3 c hc), legal_sub h fun c hc => hl.mem (h4 c ((List.takeWhile_sublist _).mem hc))⟩

theorem splitLastSpace_mem : ∀ {l p r : List Char}, splitLastSpace l = some (p, r) → (∀ c ∈ p, c ∈ l) ∧ ∀ c ∈ r, c ∈ l
  | [], _, _, h => by cases h
  | c :: cs, p, r, h => by
    rw [splitLastSpace] at h
    split at h
    · rename_i p' s' hs
      cases h
      obtain ⟨h1, h2⟩ := splitLastSpace_mem hs
      exact ⟨forall_cons (List.mem_cons_self ..) fun x hx => List.mem_cons_of_mem _ (h1 x hx),
        fun x hx => List.mem_cons_of_mem _ (h2 x hx)⟩
    · split at h
      · cases h
        exact ⟨forall_nil, fun x hx => List.mem_cons_of_mem _ hx⟩
      · cases h

theorem legal_matchTool {s g1 g2} (h : LegalStr s) (hm : matchTool s = some (g1, g2)) : LegalStr g1 ∧ LegalStr g2 := by
  unfold matchTool at hm
  simp only [] at hm
  have hsub : ∀ c ∈ (if s.toList.getLast? = some '\n' then s.toList.dropLast else s.toList), c ∈ s.toList := by
    intro c hc
    split at hc
    · exact (List.dropLast_sublist _).mem hc
    · exact hc
  generalize (if s.toList.getLast? = some '\n' then s.toList.dropLast else s.toList) = cs at hm hsub
  split at hm
  · cases hm
  · split at hm
    · rename_i p r hp
      split at hm
      · cases hm
        obtain ⟨h3, h4⟩ := splitLastSpace_mem hp
        exact ⟨legal_sub h fun c hc => hsub c (h3 c hc), legal_sub h fun c hc => hsub c (h4 c hc)⟩
      · cases hm
    · cases hm

theorem legal_rdf {rdf ns tag v} (h : ∀ e ∈ rdf, LegalText e) (hv : findValueInRDF rdf ns tag = .ok (some v)) : LegalVal v := by
  unfold findValueInRDF at hv
  split at hv
  · rename_i e he
    injection hv with hv
    split at hv
    · cases hv
    · cases hv; exact legal_text (legal_find h he)
  · split at hv
    · cases hv
    · rename_i d hd
      split at hv
      · rename_i x hx
        injection hv with hv
        split at hv
        · cases hv
        · cases hv
          have := legal_find h hd
          obtain ⟨t, a, y, c⟩ := d
          obtain ⟨l₁, l₂, hl, -⟩ := List.lookup_eq_some_iff.1 hx
          exact legalVal_str ((legal_mk.1 this).1.2.1 (ns ++ tag, x) (by
            show _ ∈ a
            have : a = l₁ ++ (ns ++ tag, x) :: l₂ := hl
            rw [this]; simp))
      · cases hv

theorem legal_addIf {me rdf ns tag dest es} (hm : StripsOnly me) (h : ∀ e ∈ rdf, LegalText e) (hv : addIfExist me rdf ns tag dest = .ok es) :
    ∀ e ∈ es, LegalText e := by
  unfold addIfExist at hv
  obtain ⟨v, h1, hv⟩ := ok_of_bind hv
  split at hv
  · obtain ⟨s, h2, hv⟩ := ok_of_bind hv
    cases hv
    exact forall_one (legal_s (hm _ (legal_asStr (legal_rdf h h1) h2)))
  · cases hv; exact forall_nil

theorem legalStr_lit {s : String} (h : s.toList.all isChar = true) : LegalStr s := h

/-- Walks through an element of the extension. -/
macro "mix_legal" : tactic => `(tactic|
  repeat' first
    | exact forall_nil
    | with_reducible assumption
    | with_reducible refine legal_s ?_
    | with_reducible refine legal_leaf ?_
    | with_reducible refine legal_node ?_
    | with_reducible refine forall_cons ?_ ?_
    | with_reducible refine forall_append ?_ ?_
    | with_reducible refine legalStr_append ?_ ?_
    | with_reducible refine legal_strOf ?_
    | with_reducible exact legalStr_int _
    | exact legalStr_lit (by decide)
    | split)

section
variable {me : MixEnv} {flag : Nat} {props : List Elem} (hm : StripsOnly me) (hp : ∀ e ∈ props, LegalText e)
include hp

theorem legal_find_op (p) : ∀ v, findText props p = .ok v → LegalVal v := fun _ h => legal_findText hp h

include hm in
theorem legal_bdoi {e} (h : mixBdoi me flag props = .ok e) : LegalText e := by
  have hff : ∀ f, LegalStr f → OkP LegalText (do
      let compression ← findText props ["contiguousCodestreamBox", "cod", "transformation"]
      let scheme := if compression = .str "5-3 reversible" then "JPEG 2000 Lossless" else "JPEG 2000 Lossy"
      let ratioText ← findText props ["compressionRatio"]
      let ratio ← asText ratioText
      let ratioElem ←
        if flag = 1 then do
          let v ← orValueError (me.roundScaled ratio 1)
          Outcome.ok (sLeaf "mix:compressionRatio" (toString v))
        else do
          let v ← orValueError (me.roundScaled ratio 100)
          Outcome.ok (Elem.node "mix:compressionRatio"
            [sLeaf "mix:numerator" (toString v), sLeaf "mix:denominator" "100"])
      .ok (.node "mix:BasicDigitalObjectInformation"
        [ .node "mix:FormatDesignation" [sLeaf "mix:formatName" f],
          sLeaf "mix:byteOrder" (if flag = 1 then "big_endian" else "big endian"),
          .node "mix:Compression" [sLeaf "mix:compressionScheme" scheme, ratioElem] ])) := by
    intro f hf
    simp only []
    ok_walk
    all_goals mix_legal
  unfold mixBdoi at h
  revert h
  generalize e = e'
  revert e'
  change OkP _ _
  simp only []
  split
  · with_reducible refine OkP.bind_ok ?_
    exact hff _ (legalStr_lit (by decide))
  · rename_i br hbr
    with_reducible refine OkP.bind fun s hs => ?_
    with_reducible refine OkP.bind_ok ?_
    exact hff _ (legalStr_append (legalStr_lit (by decide)) (hm _ (legal_asStr (legal_text (legal_find hp hbr)) hs)))

include hm in
theorem legal_photometric {e} (h : mixPhotometric me props = .ok e) : LegalText e := by
  unfold mixPhotometric at h
  split at h
  · obtain ⟨_, h1, h⟩ := ok_of_bind h
    obtain ⟨_, h2, h⟩ := ok_of_bind h
    obtain ⟨_, h3, h⟩ := ok_of_bind h
    cases h
    have := hm _ (legal_asStr (legal_findText hp h1) h2)
    have := legal_findText hp h3
    mix_legal
  · obtain ⟨_, h1, h⟩ := ok_of_bind h
    obtain ⟨_, h2, h⟩ := ok_of_bind h
    cases h
    have := hm _ (legal_asStr (legal_findText hp h1) h2)
    mix_legal

theorem legal_codec {es} (h : mixCodec props = .ok es) : ∀ e ∈ es, LegalText e := by
  unfold mixCodec at h
  split at h
  · cases h; exact forall_nil
  · rename_i c hc
    obtain ⟨t, h1, h⟩ := ok_of_bind h
    have ht := legal_asText (legal_text (legal_find hp hc)) h1
    split at h
    · rename_i g1 g2 hg
      cases h
      have := legal_matchCodec ht hg
      obtain ⟨_, _⟩ := this
      mix_legal
    · cases h; exact forall_nil

include hm in
theorem legal_bio {e} (h : mixBio me flag props = .ok e) : LegalText e := by
  unfold mixBio at h
  obtain ⟨_, h1, h⟩ := ok_of_bind h
  obtain ⟨_, h2, h⟩ := ok_of_bind h
  obtain ⟨pi, hpi, h⟩ := ok_of_bind h
  obtain ⟨codec, hco, h⟩ := ok_of_bind h
  obtain ⟨_, h3, h⟩ := ok_of_bind h
  obtain ⟨_, h4, h⟩ := ok_of_bind h
  obtain ⟨_, h5, h⟩ := ok_of_bind h
  obtain ⟨_, h6, h⟩ := ok_of_bind h
  cases h
  have := legal_photometric hm hp hpi
  have := legal_codec hp hco
  have := legal_findText hp h1
  have := legal_findText hp h2
  have := legal_findText hp h3
  have := legal_findText hp h4
  have := legal_findText hp h5
  have := legal_findText hp h6
  mix_legal

include hm in
theorem legal_icm {e} (h : mixIcm me props = .ok e) : ∀ x ∈ e.toList, LegalText x := by
  unfold mixIcm at h
  split at h
  · cases h; exact forall_nil
  · rename_i rdf hrdf
    have hr : ∀ e ∈ rdf, LegalText e := by
      unfold findRDF at hrdf
      split at hrdf
      · rename_i he
        cases hrdf
        exact legal_children (legal_find hp he)
      · split at hrdf
        · rename_i he
          cases hrdf
          exact legal_children (legal_find hp he)
        · cases hrdf
    obtain ⟨_, h1, h⟩ := ok_of_bind h
    obtain ⟨_, h2, h⟩ := ok_of_bind h
    obtain ⟨_, h3, h⟩ := ok_of_bind h
    obtain ⟨_, h4, h⟩ := ok_of_bind h
    obtain ⟨_, h5, h⟩ := ok_of_bind h
    obtain ⟨tv, h6, h⟩ := ok_of_bind h
    have := legal_addIf hm hr h1
    have := legal_addIf hm hr h2
    have := legal_addIf hm hr h3
    have := legal_addIf hm hr h4
    have := legal_addIf hm hr h5
    clear h1 h2 h3 h4 h5
    revert h
    generalize e = e'
    revert e'
    change OkP (fun e : Option Elem => ∀ x ∈ e.toList, LegalText x) _
    simp only []
    split
    · with_reducible refine OkP.bind_ok ?_
      refine OkP.ok (forall_one ?_)
      mix_legal
    · with_reducible refine OkP.bind fun s hs => ?_
      have ht := legal_asText (legal_rdf hr h6) hs
      split
      · rename_i hg
        obtain ⟨_, _⟩ := legal_matchTool ht hg
        with_reducible refine OkP.bind_ok ?_
        refine OkP.ok (forall_one ?_)
        mix_legal
      · with_reducible refine OkP.bind_ok ?_
        refine OkP.ok (forall_one ?_)
        mix_legal

omit hp in
theorem legal_spatial {es} (h : mixSpatial me flag props = .ok es) : ∀ e ∈ es, LegalText e := by
  unfold mixSpatial at h
  simp only [] at h
  split at h
  · obtain ⟨_, -, h⟩ := ok_of_bind h
    obtain ⟨_, -, h⟩ := ok_of_bind h
    obtain ⟨_, -, h⟩ := ok_of_bind h
    obtain ⟨_, -, h⟩ := ok_of_bind h
    obtain ⟨_, -, h⟩ := ok_of_bind h
    obtain ⟨_, -, h⟩ := ok_of_bind h
    cases h
    mix_legal
  · split at h
    · obtain ⟨_, -, h⟩ := ok_of_bind h
      obtain ⟨_, -, h⟩ := ok_of_bind h
      obtain ⟨_, -, h⟩ := ok_of_bind h
      obtain ⟨_, -, h⟩ := ok_of_bind h
      obtain ⟨_, -, h⟩ := ok_of_bind h
      obtain ⟨_, -, h⟩ := ok_of_bind h
      cases h
      mix_legal
    · cases h; exact forall_nil

omit hp in
theorem legal_asTexts : ∀ {vs ss}, (∀ v ∈ vs, LegalVal v) → asTexts vs = .ok ss → ∀ s ∈ ss, LegalStr s
  | [], ss, _, h => by cases h; exact forall_nil
  | v :: vs, ss, hv, h => by
    rw [asTexts] at h
    obtain ⟨s, h1, h⟩ := ok_of_bind h
    obtain ⟨r, h2, h⟩ := ok_of_bind h
    cases h
    exact forall_cons (legal_asText (hv v (List.mem_cons_self ..)) h1)
      (legal_asTexts (fun w hw => hv w (List.mem_cons_of_mem _ hw)) h2)

omit hp in
theorem legal_intercalate {sep : String} (hs : LegalStr sep) : ∀ {ss : List String}, (∀ s ∈ ss, LegalStr s) → LegalStr (String.intercalate sep ss) := by
  intro ss h
  unfold LegalStr
  rw [String.toList_intercalate]
  have : ∀ (l : List (List Char)) , (∀ x ∈ l, x.all isChar = true) → (sep.toList.intercalate l).all isChar = true := by
    intro l
    unfold List.intercalate
    induction l with
    | nil => intro _; rfl
    | cons a l ih =>
      intro h
      cases l with
      | nil => simpa using h
      | cons b l =>
        rw [List.intersperse_cons_cons, List.flatten_cons, List.flatten_cons, List.all_append, List.all_append,
          h a (List.mem_cons_self ..), hs, ih fun x hx => h x (List.mem_cons_of_mem _ hx)]
        rfl
  apply this
  intro x hx
  obtain ⟨s, h1, rfl⟩ := List.mem_map.1 hx
  exact h s h1

theorem legal_iam {e} (h : mixIam me flag props = .ok e) : LegalText e := by
  unfold mixIam at h
  obtain ⟨sp, hsp, h⟩ := ok_of_bind h
  have := legal_spatial hsp
  have key : ∀ size : List Elem, (∀ e ∈ size, LegalText e) → OkP LegalText (do
      let values := Elem.findAllText size ["ssizDepth"]
      let bps ←
        if flag = 1 then do
          let ss ← asTexts values
          Outcome.ok (Elem.node "mix:bitsPerSample"
            [ sLeaf "mix:bitsPerSampleValue" (String.intercalate "," ss),
              sLeaf "mix:bitsPerSampleUnit" "integer" ])
        else Outcome.ok (Elem.node "mix:BitsPerSample"
          (values.map (Elem.leaf "mix:bitsPerSampleValue") ++
            [sLeaf "mix:bitsPerSampleUnit" "integer"]))
      let num ← findText size ["csiz"]
      .ok (.node "mix:ImageAssessmentMetadata"
        (sp ++ [.node "mix:ImageColorEncoding" [bps, .leaf "mix:samplesPerPixel" num]]))) := by
    intro size hsize
    have hv : ∀ v ∈ Elem.findAllText size ["ssizDepth"], LegalVal v := by
      intro v hv
      obtain ⟨x, h1, rfl⟩ := List.mem_map.1 hv
      exact legal_text (legal_findall _ _ hsize x h1)
    simp only []
    split
    · with_reducible refine OkP.bind fun ss hss => ?_
      with_reducible refine OkP.bind_ok ?_
      refine OkP.bind fun num hnum => OkP.ok ?_
      have := legal_intercalate (sep := ",") (legalStr_lit (by decide)) (legal_asTexts hv hss)
      have := legal_findText hsize hnum
      mix_legal
    · with_reducible refine OkP.bind_ok ?_
      refine OkP.bind fun num hnum => OkP.ok ?_
      have := legal_findText hsize hnum
      have : ∀ x ∈ (Elem.findAllText size ["ssizDepth"]).map (Elem.leaf "mix:bitsPerSampleValue"), LegalText x := by
        intro e he
        obtain ⟨v, h1, rfl⟩ := List.mem_map.1 he
        exact legal_leaf (hv v h1)
      mix_legal
  revert h
  generalize e = e'
  revert e'
  change OkP _ _
  simp only []
  split
  · rename_i x hx
    with_reducible refine OkP.bind_ok ?_
    exact key _ (legal_children (legal_find hp hx))
  · exact OkP.bind_raised

include hm in
theorem legal_mix {m} (h : generateMix me flag props = .ok m) : LegalText m := by
  unfold generateMix at h
  obtain ⟨_, h1, h⟩ := ok_of_bind h
  obtain ⟨_, h2, h⟩ := ok_of_bind h
  obtain ⟨_, h3, h⟩ := ok_of_bind h
  obtain ⟨_, h4, h⟩ := ok_of_bind h
  cases h
  have := legal_bdoi hm hp h1
  have := legal_bio hm hp h2
  have := legal_icm hm hp h3
  have := legal_iam hp h4
  refine legal_mk.2 ⟨⟨legalVal_none, ?_, rfl⟩, by mix_legal⟩
  refine forall_cons ?_ (forall_cons (legalStr_lit (by decide)) (forall_cons ?_ forall_nil))
  · show LegalStr (if flag = 1 then _ else _)
    split <;> exact legalStr_lit (by decide +kernel)
  · show LegalStr (if flag = 1 then _ else _)
    split <;> exact legalStr_lit (by decide +kernel)

end

/-! ## The report -/

theorem legal_report {env : Env} {me : MixEnv} {fs : FS} {fuel : Nat} {o : Options} {mix : Nat} {path : PyStr} {rep : Elem}
    (hx : ParsesXml env) (hl : LegalEnv env) (hm : StripsOnly me) (hf : LegalFile fs path) (ho : LegalStr o.format.name)
    (h : checkOneFile env me fs fuel o mix path = .ok rep) : LegalText rep := by
  obtain ⟨info, a, mp, h1, h2, h3, rfl⟩ := checkOneFile_ok.1 h
  obtain ⟨ht, hp, hw, hfm⟩ := analyse_legal hl hx h2
  have hinfo : LegalText info := by
    unfold fileInfo at h1
    obtain ⟨size, -, h1⟩ := ok_of_bind h1
    obtain ⟨d, hd, h1⟩ := ok_of_bind h1
    cases h1
    have := hf.name
    have := hf.full
    have := hf.date d hd
    exact legal_node (forall_cons (legal_s hf.name) (forall_cons (legal_s hf.full) (forall_cons (legal_s (legalStr_int _))
      (forall_cons (legal_s (hf.date d hd)) forall_nil))))
  have hmp : ∀ e ∈ mp, LegalText e := by
    unfold mixOutput at h3
    split at h3
    · obtain ⟨m, hmm, h⟩ := ok_of_bind h3
      cases h
      exact forall_one (legal_mix hm hp hmm)
    · cases h3; exact forall_nil
  have hb : ∀ b, LegalStr (boolStr b) := fun b => by cases b <;> exact legalStr_lit (by decide)
  unfold buildReport extensionOf
  refine legal_node (forall_append (forall_append ?_ ?_) (forall_one (legal_node hw)))
  · refine forall_cons hinfo (forall_cons (legal_node (forall_cons (legal_s (hb _)) ?_)) (forall_cons ?_ (forall_cons (legal_node ht)
      (forall_cons (legal_node hp) forall_nil))))
    · split
      · rename_i m hmsg
        exact forall_one (legal_s (hfm m hmsg))
      · exact forall_nil
    · exact legal_mk.2 ⟨⟨legalVal_str (hb _), forall_one ho, rfl⟩, forall_nil⟩
  · split
    · refine forall_one (legal_node ?_)
      split
      · exact hmp
      · exact forall_nil
    · exact forall_nil

end Jpy
