import Verif.Lemmas.SameWords
import Verif.Props.MixCapture
import Verif.Props.Shows
import Verif.Props.Files
import Verif.Spec.Sample
/-!
# C79: what the report tells about the headers of a file
-/

set_option linter.unusedSimpArgs false

namespace Jpy
open Spec

/-! ## Marker segments -/

theorem reported_eq (es : List Elem) (t : String) : Spec.reported { chars := es } t = valuesOf es t := rfl

theorem Same.precincts {env : Env} {es es' : List Elem} (h : Same env es es') {c c' : Bytes} {off style style' levels : Nat}
    (h1 : PrecinctsReported c off style levels { chars := es }) (h2 : PrecinctsReported c' off style' levels { chars := es' })
    (hs : bit 0 style = 1) (hs' : bit 0 style' = 1) {i : Nat} (hi : i ≤ levels) : AlikeStored c c' (.num (off + i) 1) := by
  intro x x' hx hx'
  obtain ⟨e1, e2⟩ := (h1.2.2 i hi).1 hs x hx
  obtain ⟨e3, e4⟩ := (h2.2.2 i hi).1 hs' x' hx'
  have f1 := h.ints e1 e3
  have f2 := h.ints e2 e4
  have g1 := (Nat.pow_right_inj (a := 2) (by decide)).1 (Int.ofNat.inj (by simpa using f1))
  have g2 := (Nat.pow_right_inj (a := 2) (by decide)).1 (Int.ofNat.inj (by simpa using f2))
  omega

/-- A SIZ segment is the same byte for byte. -/
theorem siz_bytes {c c' : Bytes} {n : Nat} (hf : ∀ f ∈ sizFields, AlikeStored c c' f.reads)
    (he : ∀ f ∈ sizEntry, AlikeEach c c' n 3 f.reads) (h1 : c.length = 38 + 3 * n) (h2 : c'.length = 38 + 3 * n) :
    c = c' := by
  refine List.ext_getElem? fun i => ?_
  have num : ∀ {o w : Nat}, AlikeStored c c' (.num o w) → o + w ≤ 38 + 3 * n → o ≤ i → i < o + w → c[i]? = c'[i]? :=
    fun h hl a b => sameStored_bytes h (by omega) (by omega) a b
  have fld : ∀ {t o w}, (⟨t, .num o w⟩ : Field) ∈ sizFields → AlikeStored c c' (.num o w) := fun h => hf _ h
  rcases Nat.lt_or_ge i 38 with hi | hi
  · have : i < 2 ∨ (2 ≤ i ∧ i < 4) ∨ (4 ≤ i ∧ i < 8) ∨ (8 ≤ i ∧ i < 12) ∨ (12 ≤ i ∧ i < 16) ∨ (16 ≤ i ∧ i < 20) ∨
        (20 ≤ i ∧ i < 24) ∨ (24 ≤ i ∧ i < 28) ∨ (28 ≤ i ∧ i < 32) ∨ (32 ≤ i ∧ i < 36) ∨ 36 ≤ i := by omega
    rcases this with h | h | h | h | h | h | h | h | h | h | h
    · exact num (fld (t := "lsiz") (o := 0) (w := 2) (by simp [sizFields])) (by omega) (by omega) (by omega)
    · exact num (fld (t := "rsiz") (o := 2) (w := 2) (by simp [sizFields])) (by omega) (by omega) (by omega)
    · exact num (fld (t := "xsiz") (o := 4) (w := 4) (by simp [sizFields])) (by omega) (by omega) (by omega)
    · exact num (fld (t := "ysiz") (o := 8) (w := 4) (by simp [sizFields])) (by omega) (by omega) (by omega)
    · exact num (fld (t := "xOsiz") (o := 12) (w := 4) (by simp [sizFields])) (by omega) (by omega) (by omega)
    · exact num (fld (t := "yOsiz") (o := 16) (w := 4) (by simp [sizFields])) (by omega) (by omega) (by omega)
    · exact num (fld (t := "xTsiz") (o := 20) (w := 4) (by simp [sizFields])) (by omega) (by omega) (by omega)
    · exact num (fld (t := "yTsiz") (o := 24) (w := 4) (by simp [sizFields])) (by omega) (by omega) (by omega)
    · exact num (fld (t := "xTOsiz") (o := 28) (w := 4) (by simp [sizFields])) (by omega) (by omega) (by omega)
    · exact num (fld (t := "yTOsiz") (o := 32) (w := 4) (by simp [sizFields])) (by omega) (by omega) (by omega)
    · exact num (fld (t := "csiz") (o := 36) (w := 2) (by simp [sizFields])) (by omega) (by omega) (by omega)
  rcases Nat.lt_or_ge i (38 + 3 * n) with hi' | hi'
  · have hk : (i - 38) / 3 < n := by omega
    generalize hq : (i - 38) / 3 = k at hk
    have e1 := he ⟨"ssizSign", .bits 38 1 7 1⟩ (by simp [sizEntry]) k hk
    have e2 := he ⟨"ssizDepth", .depth 38⟩ (by simp [sizEntry]) k hk
    have e3 := he ⟨"xRsiz", .num 39 1⟩ (by simp [sizEntry]) k hk
    have e4 := he ⟨"yRsiz", .num 40 1⟩ (by simp [sizEntry]) k hk
    have : i = 38 + 3 * k ∨ i = 39 + 3 * k ∨ i = 40 + 3 * k := by omega
    rcases this with h | h | h
    · rw [h]; exact sameStored_depth e1 e2 (by omega) (by omega)
    · exact num e3 (by omega) (by omega) (by omega)
    · exact num e4 (by omega) (by omega) (by omega)
  · rw [List.getElem?_eq_none (by omega), List.getElem?_eq_none (by omega)]

theorem parts_inj {p p' : Nat} {ps : List Nat} (hp : p < 2 ^ 32) (hp' : p' < 2 ^ 32) (h : IsCapParts p ps)
    (h' : IsCapParts p' ps) : p = p' := by
  have key : ∀ i < 32, bit i p = bit i p' := by
    intro i hi
    have a := h.2 (32 - i)
    have b := h'.2 (32 - i)
    rw [show 32 - (32 - i) = i by omega] at a b
    have l1 : bit i p < 2 := Nat.mod_lt _ (by decide)
    have l2 : bit i p' < 2 := Nat.mod_lt _ (by decide)
    have : bit i p = 1 ↔ bit i p' = 1 :=
      ⟨fun k => (b.1 (a.2 ⟨by omega, by omega, k⟩)).2.2, fun k => (a.1 (b.2 ⟨by omega, by omega, k⟩)).2.2⟩
    omega
  refine Nat.eq_of_testBit_eq fun i => ?_
  rcases Nat.lt_or_ge i 32 with hi | hi
  · have := key i hi
    unfold bit at this
    rw [Nat.testBit_eq_decide_div_mod_eq, Nat.testBit_eq_decide_div_mod_eq, this]
  · have : 2 ^ 32 ≤ 2 ^ i := Nat.pow_le_pow_right (by decide) hi
    rw [Nat.testBit_lt_two_pow (by omega), Nat.testBit_lt_two_pow (by omega)]

theorem ints_ext {env : Env} {es es' : List Elem} (h : Same env es es') {t : String} {ps ps' : List Nat}
    (h1 : valuesOf es t = ps.map fun (k : Nat) => .int k) (h2 : valuesOf es' t = ps'.map fun (k : Nat) => .int k) : ps = ps' := by
  have hl : ps.length = ps'.length := by
    have := (h.values t).1
    rw [h1, h2, List.length_map, List.length_map] at this
    exact this
  refine List.ext_getElem hl fun i hi hi' => ?_
  have := h.ints (t := t) (i := i) (x := (ps[i] : Int)) (y := (ps'[i] : Int))
    (by rw [h1, List.getElem?_map, List.getElem?_eq_getElem hi]; rfl)
    (by rw [h2, List.getElem?_map, List.getElem?_eq_getElem hi']; rfl)
  omega

theorem comment_tag : ∀ d ∈ descriptions, d.1 ≠ "comment" := by decide +kernel

theorem Same.comment {env : Env} (hs : Sane env) {es es' : List Elem} (h : Same env es es') {fmt : Format} {csiz : Nat} {c c' : Bytes}
    (v : SegValues env fmt csiz COM c es) (v' : SegValues env fmt csiz COM c' es') {l r : Nat} (hl : uint c 0 2 = some l)
    (hr : uint c 2 2 = some r) (hc : r = 0 ∨ (r = 1 ∧ ∀ x ∈ sub c 4 (l - 4), TextChar env.catC (iso885915 x))) :
    sub c 4 (l - 4) = sub c' 4 (l - 4) := by
  have hl' : uint c' 0 2 = some l := by
    rw [← hl]
    exact (h.num (v.com rfl ⟨"lcom", .num 0 2⟩ (by simp [comFields])) (v'.com rfl _ (by simp [comFields]))).symm
  have hr' : uint c' 2 2 = some r := by
    rw [← hr]
    exact (h.num (v.com rfl ⟨"rcom", .num 2 2⟩ (by simp [comFields])) (v'.com rfl _ (by simp [comFields]))).symm
  have a := v.comment rfl l r hl hr
  have b := v'.comment rfl l r hl' hr'
  rcases hc with hc | ⟨hc, ht⟩
  · obtain ⟨x, x1, x2⟩ := a.1 hc
    obtain ⟨y, y1, y2⟩ := b.1 hc
    obtain ⟨z, z1, z2⟩ := h.text1 (t := "comment") (i := 0) (by rw [x2]; rfl) (by rw [y2]; rfl)
    have := shown_bytes_inj (.inl comment_tag) z1 z2 (ascii_plain hs (isHex_ascii x1)) (ascii_plain hs (isHex_ascii y1))
    subst this
    exact isHex_inj x1 y1
  · have a := a.2.1 hc ht
    by_cases ht' : ∀ x ∈ sub c' 4 (l - 4), TextChar env.catC (iso885915 x)
    · have b := b.2.1 hc ht'
      obtain ⟨z, z1, z2⟩ := h.text1 (t := "comment") (i := 0) (by rw [a]; rfl) (by rw [b]; rfl)
      have e := shown_text_inj comment_tag ?_ ?_ z1 z2
      · exact (List.map_inj_right iso885915_inj).1 (String.ofList_injective e)
      · intro ch hch
        rw [String.toList_ofList] at hch
        obtain ⟨x, hx, rfl⟩ := List.mem_map.1 hch
        exact ht x hx
      · intro ch hch
        rw [String.toList_ofList] at hch
        obtain ⟨x, hx, rfl⟩ := List.mem_map.1 hch
        exact ht' x hx
    · have b := b.2.2.1 hc ht'
      have := (h.values "comment").1
      rw [a, b] at this
      cases this

/-- A sum of multiples of a number determines it. -/
theorem sum_multiples (p : Nat) (f : Nat → Nat) (l : List Nat) : (l.map fun i => p * f i).sum = p * (l.map f).sum := by
  induction l with
  | nil => simp
  | cons a l ih => simp only [List.map_cons, List.sum_cons, ih, Nat.mul_add]

theorem repeated_inj {p p' n : Nat} (hn : 0 < n)
    (h : ((List.range n).map fun i => p * 65536 ^ i).sum = ((List.range n).map fun i => p' * 65536 ^ i).sum) : p = p' := by
  rw [sum_multiples, sum_multiples] at h
  refine Nat.eq_of_mul_eq_mul_right ?_ h
  obtain ⟨n, rfl⟩ : ∃ m, n = m + 1 := ⟨n - 1, by omega⟩
  rw [List.range_succ_eq_map]
  simp only [List.map_cons, List.sum_cons, Nat.pow_zero]
  omega

/-- Short packet lengths are not reduced. -/
theorem shortPackets_shown {ps : List Bytes} (h : ShortPackets ps) :
    (ps.map fun e => (e.length, base128 e % 2 ^ 14)) = ps.map fun e => (e.length, base128 e) :=
  List.map_congr_left fun e he => by rw [Nat.mod_eq_of_lt (h e he).2]

theorem flatMap_range_at {α : Type} {n m i k : Nat} (g : Nat → Nat → α) (hi : i < n) (hk : k < m) :
    ((List.range n).flatMap fun i => (List.range m).map (g i))[i * m + k]? = some (g i k) := by
  have e : ((List.range n).flatMap fun i => (List.range m).map (g i)) =
      (List.range (n * m)).map fun j => g (j / m) (j % m) := by
    rw [← flatMap_range_mul]
    congr 1
    funext i
    refine List.map_congr_left fun k hk => ?_
    have hk := List.mem_range.1 hk
    rw [Nat.mul_comm, Nat.mul_add_div (by omega), Nat.div_eq_of_lt hk, Nat.mul_add_mod, Nat.mod_eq_of_lt hk, Nat.add_zero]
  have hj : i * m + k < n * m := by
    have := Nat.mul_le_mul_right m (show i + 1 ≤ n from hi)
    rw [Nat.succ_mul] at this
    omega
  rw [e, List.getElem?_map, List.getElem?_range hj, Option.map_some, Nat.mul_comm, Nat.mul_add_div (by omega),
    Nat.div_eq_of_lt hk, Nat.mul_add_mod, Nat.mod_eq_of_lt hk, Nat.add_zero]

theorem Same.seg {env : Env} (hs : Sane env) {es es' : List Elem} (h : Same env es es') {fmt : Format} {csiz : Nat} {m c c' : Bytes}
    (v : SegValues env fmt csiz m c es) (v' : SegValues env fmt csiz m c' es') : AlikeSeg env fmt csiz m c c' := by
  have comps : m = SIZ → ∀ n, uint c 36 2 = some n → ∀ f ∈ sizEntry, AlikeEach c c' n 3 f.reads := by
    intro hm n hn f hf
    have hn' : uint c' 36 2 = some n := by
      rw [← hn]
      exact (h.num ((v.siz hm).1 ⟨"csiz", .num 36 2⟩ (by simp [sizFields])) ((v'.siz hm).1 _ (by simp [sizFields]))).symm
    exact (h.each ((v.siz hm).2 n hn f hf) ((v'.siz hm).2 n hn' f hf)).2
  have more : ∀ {o : Nat}, fmt.isHT = false →
      (∀ s, uint c (o + 2) 1 = some s → ∀ f ∈ codeBlockMoreFields o,
        if fmt.isHT = true ∧ s / 64 = 1 then valuesOf es f.tag = [] else ShowsField es c f) →
      (∀ s, uint c' (o + 2) 1 = some s → ∀ f ∈ codeBlockMoreFields o,
        if fmt.isHT = true ∧ s / 64 = 1 then valuesOf es' f.tag = [] else ShowsField es' c' f) →
      ∀ f ∈ codeBlockMoreFields o, AlikeStored c c' f.reads := by
    intro o hf k1 k2 f hm x x' hx hx'
    have has : ∀ {d : Bytes} {y : Nat}, f.reads.stored d = some y → ∃ s, uint d (o + 2) 1 = some s := by
      intro d y hy
      simp only [codeBlockMoreFields, List.mem_cons, List.not_mem_nil, or_false] at hm
      rcases hm with rfl | rfl | rfl <;>
        (obtain ⟨s, hs, -⟩ := Option.map_eq_some_iff.1 hy; exact ⟨s, hs⟩)
    obtain ⟨s, hs⟩ := has hx
    obtain ⟨s', hs'⟩ := has hx'
    have a := k1 s hs f hm
    have b := k2 s' hs' f hm
    rw [if_neg (fun hh => by rw [hf] at hh; cases hh.1)] at a b
    exact h.field a b x x' hx hx'
  refine { fields := ?_, components := comps, siz := ?_, codStyle := ?_, cocStyle := ?_, codPrecincts := ?_,
           cocPrecincts := ?_, changes := ?_, registration := ?_, steps := ?_, stepsComponent := ?_, comment := ?_, parts := ?_, profile := ?_,
           corresponding := ?_, packets := ?_, packetsMain := ?_ }
  · intro f hf
    unfold segFields at hf
    by_cases e : m = SIZ
    · rw [if_pos e] at hf; exact h.fields (v.siz e).1 (v'.siz e).1 f hf
    rw [if_neg e] at hf; clear e
    by_cases e : m = COD
    · rw [if_pos e] at hf; exact h.fields (v.cod e).1 (v'.cod e).1 f hf
    rw [if_neg e] at hf; clear e
    by_cases e : m = COC
    · rw [if_pos e] at hf; exact h.fields (v.coc e).1 (v'.coc e).1 f hf
    rw [if_neg e] at hf; clear e
    by_cases e : m = RGN
    · rw [if_pos e] at hf; exact h.fields (v.rgn e) (v'.rgn e) f hf
    rw [if_neg e] at hf; clear e
    by_cases e : m = QCD
    · rw [if_pos e] at hf; exact h.fields (v.qcd e) (v'.qcd e) f hf
    rw [if_neg e] at hf; clear e
    by_cases e : m = QCC
    · rw [if_pos e] at hf; exact h.fields (v.qcc e) (v'.qcc e) f hf
    rw [if_neg e] at hf; clear e
    by_cases e : m = POC
    · rw [if_pos e] at hf; exact h.fields (v.poc e).1 (v'.poc e).1 f hf
    rw [if_neg e] at hf; clear e
    by_cases e : m = CRG
    · rw [if_pos e] at hf; exact h.fields (v.crg e).1 (v'.crg e).1 f hf
    rw [if_neg e] at hf; clear e
    by_cases e : m = COM
    · rw [if_pos e] at hf; exact h.fields (v.com e) (v'.com e) f hf
    rw [if_neg e] at hf; clear e
    by_cases e : m = CAP
    · rw [if_pos e] at hf; exact h.fields (v.cap e) (v'.cap e) f hf
    rw [if_neg e] at hf; clear e
    by_cases e : m = PRF
    · rw [if_pos e] at hf; exact h.fields (v.prf e) (v'.prf e) f hf
    rw [if_neg e] at hf; clear e
    by_cases e : m = CPF
    · rw [if_pos e] at hf; exact h.fields (v.cpf e) (v'.cpf e) f hf
    rw [if_neg e] at hf; clear e
    by_cases e : m = PLM
    · rw [if_pos e] at hf; exact h.fields (v.plm e) (v'.plm e) f hf
    rw [if_neg e] at hf; clear e
    by_cases e : m = PLT
    · rw [if_pos e] at hf; exact h.fields (v.plt e) (v'.plt e) f hf
    rw [if_neg e] at hf; clear e
    cases hf
  · intro hm n hn h1 h2
    exact siz_bytes (h.fields (v.siz hm).1 (v'.siz hm).1) (comps hm n hn) h1 h2
  · intro hm hf
    exact more hf (v.cod hm).2 (v'.cod hm).2
  · intro hm hf
    refine more hf ?_ ?_
    · intro s hs; exact (v.coc hm).2 s (by rwa [show 6 + compWidth csiz = 4 + compWidth csiz + 2 by omega])
    · intro s hs; exact (v'.coc hm).2 s (by rwa [show 6 + compWidth csiz = 4 + compWidth csiz + 2 by omega])
  · intro hm style levels hs hb hl i hi x x' hx hx'
    have hlen := uint_some_le (show uint c' (12 + i) 1 = some x' from hx')
    obtain ⟨style', hs'⟩ : ∃ s, uint c' 2 1 = some s := ⟨_, uint_pos (by omega)⟩
    have hl' : uint c' 7 1 = some levels := by
      rw [← hl]
      exact (h.num ((v.cod hm).1 ⟨"levels", .num 7 1⟩ (by simp [codFields]))
        ((v'.cod hm).1 _ (by simp [codFields]))).symm
    have hb' : bit 0 style' = 1 := by
      have := h.field ((v.cod hm).1 ⟨"precincts", .bits 2 1 0 1⟩ (by simp [codFields]))
        ((v'.cod hm).1 _ (by simp [codFields])) _ _ (by rw [Reads.stored, hs]; rfl) (by rw [Reads.stored, hs']; rfl)
      have e : style / 2 ^ 0 % 2 ^ 1 = style' / 2 ^ 0 % 2 ^ 1 := this
      unfold bit at hb ⊢
      exact e.symm.trans hb
    exact h.precincts (v.codPrecincts hm style levels hs hl) (v'.codPrecincts hm style' levels hs' hl') hb hb' hi x x' hx hx'
  · intro hm style levels hs hb hl i hi x x' hx hx'
    have hlen := uint_some_le (show uint c' (8 + compWidth csiz + i) 1 = some x' from hx')
    obtain ⟨style', hs'⟩ : ∃ s, uint c' (2 + compWidth csiz) 1 = some s := ⟨_, uint_pos (by omega)⟩
    have hl' : uint c' (3 + compWidth csiz) 1 = some levels := by
      rw [← hl]
      exact (h.num ((v.coc hm).1 ⟨"levels", .num (3 + compWidth csiz) 1⟩ (by simp [cocFields]))
        ((v'.coc hm).1 _ (by simp [cocFields]))).symm
    have hb' : bit 0 style' = 1 := by
      have := h.field ((v.coc hm).1 ⟨"precincts", .bits (2 + compWidth csiz) 1 0 1⟩ (by simp [cocFields]))
        ((v'.coc hm).1 _ (by simp [cocFields])) _ _ (by rw [Reads.stored, hs]; rfl) (by rw [Reads.stored, hs']; rfl)
      have e : style / 2 ^ 0 % 2 ^ 1 = style' / 2 ^ 0 % 2 ^ 1 := this
      unfold bit at hb ⊢
      exact e.symm.trans hb
    exact h.precincts (v.cocPrecincts hm style levels hs hl) (v'.cocPrecincts hm style' levels hs' hl') hb hb' hi x x' hx hx'
  · intro hm l hl f hf
    have hl' : uint c' 0 2 = some l := by
      rw [← hl]
      exact (h.num ((v.poc hm).1 ⟨"lpoc", .num 0 2⟩ (by simp [pocFields])) ((v'.poc hm).1 _ (by simp [pocFields]))).symm
    exact (h.each ((v.poc hm).2 l hl f hf) ((v'.poc hm).2 l hl' f hf)).2
  · intro hm f hf
    exact (h.each ((v.crg hm).2 f hf) ((v'.crg hm).2 f hf)).2
  · intro hm l s hl hstyle
    have hl' : uint c' 0 2 = some l := by
      rw [← hl]
      exact (h.num (v.qcd hm ⟨"lqcd", .num 0 2⟩ (by simp [qcdFields])) (v'.qcd hm _ (by simp [qcdFields]))).symm
    have style : ∀ {o w x'}, 3 ≤ o → uint c' o w = some x' → ∃ s', uint c' 2 1 = some s' ∧ s' % 32 = s % 32 := by
      intro o w x' ho hx'
      have := uint_some_le hx'
      have hs' : uint c' 2 1 = some _ := uint_pos (by omega)
      refine ⟨_, hs', ?_⟩
      have := h.field (v.qcd hm ⟨"qStyle", .bits 2 1 0 5⟩ (by simp [qcdFields])) (v'.qcd hm _ (by simp [qcdFields]))
        _ _ (by rw [Reads.stored, hstyle]; rfl) (by rw [Reads.stored, hs']; rfl)
      have : s / 1 % 32 = _ / 1 % 32 := this
      rw [Nat.div_one, Nat.div_one] at this
      exact this.symm
    obtain ⟨a0, a1, a2⟩ := v.steps hm l s hl hstyle
    have scalar : ∀ {n}, StepSizesScalar c 3 n { chars := es } → StepSizesScalar c' 3 n { chars := es' } →
        ∀ i < n, AlikeStored c c' (.num (3 + 2 * i) 2) := by
      intro n k1 k2 i hi x x' hx hx'
      obtain ⟨e1, e2⟩ := k1.2.2 i hi x hx
      obtain ⟨e3, e4⟩ := k2.2.2 i hi x' hx'
      have f1 := h.ints e1 e3
      have f2 := h.ints e2 e4
      omega
    refine ⟨fun k i hi x x' hx hx' => ?_, fun k => ?_, fun k i hi x x' hx hx' => ?_⟩
    · obtain ⟨y, hy, e⟩ := Option.map_eq_some_iff.1 hx
      obtain ⟨y', hy', e'⟩ := Option.map_eq_some_iff.1 hx'
      obtain ⟨s', hs', es'⟩ := style (by omega) hy'
      have b := (v'.steps hm l s' hl' hs').1 (by omega)
      have f := h.ints ((a0 k).2.2 i hi y hy) (b.2.2 i hi y' hy')
      have l1 := uint_lt hy
      have l2 := uint_lt hy'
      simp only [Nat.reducePow] at e e' l1 l2
      omega
    · intro x x' hx hx'
      obtain ⟨s', hs', es'⟩ := style (Nat.le_refl _) hx'
      exact scalar (a1 k) ((v'.steps hm l s' hl' hs').2.1 (by omega)) 0 (by omega) x x' hx hx'
    · obtain ⟨s', hs', es'⟩ := style (by omega) hx'
      exact scalar (a2 k) ((v'.steps hm l s' hl' hs').2.2 (by omega)) i hi x x' hx hx'
  · intro hm l s hl hstyle
    have hl' : uint c' 0 2 = some l := by
      rw [← hl]
      exact (h.num (v.qcc hm ⟨"lqcc", .num 0 2⟩ (by simp [qccFields])) (v'.qcc hm _ (by simp [qccFields]))).symm
    have style : ∀ {o w x'}, 2 + compWidth csiz + 1 ≤ o + w → uint c' o w = some x' →
        ∃ s', uint c' (2 + compWidth csiz) 1 = some s' ∧ s' % 32 = s % 32 := by
      intro o w x' ho hx'
      have := uint_some_le hx'
      have hs' : uint c' (2 + compWidth csiz) 1 = some _ := uint_pos (by omega)
      refine ⟨_, hs', ?_⟩
      have := h.field (v.qcc hm ⟨"qStyle", .bits (2 + compWidth csiz) 1 0 5⟩ (by simp [qccFields]))
        (v'.qcc hm _ (by simp [qccFields])) _ _ (by rw [Reads.stored, hstyle]; rfl) (by rw [Reads.stored, hs']; rfl)
      have : s / 1 % 32 = _ / 1 % 32 := this
      rw [Nat.div_one, Nat.div_one] at this
      exact this.symm
    obtain ⟨a0, a1, a2⟩ := v.stepsComponent hm l s hl hstyle
    have scalar : ∀ {n}, StepSizesScalar c (2 + compWidth csiz) n { chars := es } →
        StepSizesScalar c' (2 + compWidth csiz) n { chars := es' } →
        ∀ i < n, AlikeStored c c' (.num (2 + compWidth csiz + 2 * i) 2) := by
      intro n k1 k2 i hi x x' hx hx'
      obtain ⟨e1, e2⟩ := k1.2.2 i hi x hx
      obtain ⟨e3, e4⟩ := k2.2.2 i hi x' hx'
      have f1 := h.ints e1 e3
      have f2 := h.ints e2 e4
      omega
    refine ⟨fun k i hi x x' hx hx' => ?_, fun k => ?_, fun k i hi x x' hx hx' => ?_⟩
    · obtain ⟨y, hy, e⟩ := Option.map_eq_some_iff.1 hx
      obtain ⟨y', hy', e'⟩ := Option.map_eq_some_iff.1 hx'
      obtain ⟨s', hs', es'⟩ := style (by omega) hy'
      have b := (v'.stepsComponent hm l s' hl' hs').1 (by omega)
      have f := h.ints ((a0 k).2.2 i hi y hy) (b.2.2 i hi y' hy')
      have l1 := uint_lt hy
      have l2 := uint_lt hy'
      simp only [Nat.reducePow] at e e' l1 l2
      omega
    · intro x x' hx hx'
      obtain ⟨s', hs', es'⟩ := style (by omega) hx'
      have := scalar (a1 k) ((v'.stepsComponent hm l s' hl' hs').2.1 (by omega)) 0 (by omega)
      rw [Nat.mul_zero, Nat.add_zero] at this
      exact this x x' hx hx'
    · obtain ⟨s', hs', es'⟩ := style (by omega) hx'
      exact scalar (a2 k) ((v'.stepsComponent hm l s' hl' hs').2.2 (by omega)) i hi x x' hx hx'
  · intro hm l r hl hr hc
    subst hm
    exact h.comment hs v v' hl hr hc
  · intro hm x x' hx hx'
    obtain ⟨ps, p1, p2, -⟩ := v.parts hm x hx
    obtain ⟨ps', p1', p2', -⟩ := v'.parts hm x' hx'
    have := ints_ext h p2 p2'
    subst this
    exact parts_inj (uint_lt hx) (uint_lt hx') p1 p1'
  · intro hm l q q' hl hl4 hx hx'
    have hl' : uint c' 0 2 = some l := by
      rw [← hl]
      exact (h.num (v.prf hm ⟨"lprf", .num 0 2⟩ (by simp [prfFields])) (v'.prf hm _ (by simp [prfFields]))).symm
    have := h.int (v.prfNumber hm l q hl hx) (v'.prfNumber hm l q' hl' hx')
    exact repeated_inj (n := (l - 2) / 2) (by omega) (by omega)
  · intro hm l q q' hl hl4 hx hx'
    have hl' : uint c' 0 2 = some l := by
      rw [← hl]
      exact (h.num (v.cpf hm ⟨"lcpf", .num 0 2⟩ (by simp [cpfFields])) (v'.cpf hm _ (by simp [cpfFields]))).symm
    have := h.int (v.cpfNumber hm l q hl hx) (v'.cpfNumber hm l q' hl' hx')
    exact repeated_inj (n := (l - 2) / 2) (by omega) (by omega)
  · intro hm len z ps len' z' ps' a1 a2 a3 a4 b1 b2 b3 b4
    exact hexList_inj (fun e he => (a4 e he).1) (fun e he => (b4 e he).1)
      (h.word (by decide +kernel) (join_plain hs _) (join_plain hs _) ((v.packets hm len z ps a1 a2 a3 fun e he => (a4 e he).1).trans (by rw [shortPackets_shown a4]))
        ((v'.packets hm len' z' ps' b1 b2 b3 fun e he => (b4 e he).1).trans (by rw [shortPackets_shown b4])))
  · intro hm len z n ps len' z' n' ps' a1 a2 a3 a4 b1 b2 b3 b4
    exact hexList_inj (fun e he => (a4 e he).1) (fun e he => (b4 e he).1)
      (h.word (by decide +kernel) (join_plain hs _) (join_plain hs _) ((v.packetsMain hm len z n ps a1 a2 a3 fun e he => (a4 e he).1).trans (by rw [shortPackets_shown a4]))
        ((v'.packetsMain hm len' z' n' ps' b1 b2 b3 fun e he => (b4 e he).1).trans (by rw [shortPackets_shown b4])))

/-- Elements paired with the segments they are made from. -/
inductive SegPairs (env : Env) (fmt : Format) (csiz : Nat) : List FoundSeg → List Elem → Prop
  | nil : SegPairs env fmt csiz [] []
  | cons {x e ss es} : (x.marker, e.tag) ∈ segNames → SegValues env fmt csiz x.marker x.contents e.children →
      SegPairs env fmt csiz ss es → SegPairs env fmt csiz (x :: ss) (e :: es)

theorem showsSegs_pairs {env : Env} {o : Options} {csiz : Nat} {handled : List Bytes} {ss : List FoundSeg}
    {es : List Elem} (h : ShowsSegs env o csiz handled ss es) :
    SegPairs env o.format csiz (shownSegs o handled ss) es := by
  induction h with
  | nil => exact .nil
  | @skip x ss es hs _ ih =>
    have : shownSegs o handled (x :: ss) = shownSegs o handled ss := by
      unfold shownSegs
      rw [List.filter_cons, if_neg]
      rcases hs with hs | ⟨h1, h2⟩
      · simp [hs]
      · simp [h1, h2]
    rw [this]; exact ih
  | @«show» x ss e es h1 h2 h3 h4 _ ih =>
    have : shownSegs o handled (x :: ss) = x :: shownSegs o handled ss := by
      unfold shownSegs
      rw [List.filter_cons, if_pos]
      cases hp : packetSegments.contains x.marker with
      | false => simp [h1]
      | true => simp [h1, h2 (by simpa using hp)]
    rw [this]; exact .cons h3 h4 ih

theorem segNames_marker {m m' : Bytes} {t : String} (h : (m, t) ∈ segNames) (h' : (m', t) ∈ segNames) : m = m' := by
  have key : ∀ x ∈ segNames, ∀ y ∈ segNames, x.2 = y.2 → x.1 = y.1 := by decide +kernel
  exact key _ h _ h' rfl

theorem SegPairs.same {env : Env} (hsane : Sane env) {fmt : Format} {csiz : Nat} {ss es} (h : SegPairs env fmt csiz ss es) :
    ∀ {ss' es'}, SegPairs env fmt csiz ss' es' → Same env es es' → AlikeSegs env fmt csiz ss ss' := by
  induction h with
  | nil =>
    intro ss' es' h' hs
    have := hs.nil_left
    subst this
    cases h'
    exact .nil
  | cons h1 h2 _ ih =>
    intro ss' es' h' hs
    obtain ⟨e', l, rfl, hs1, hs2⟩ := hs.cons_left
    cases h' with
    | cons h3 h4 h5 =>
      rw [← hs1.tag] at h3
      have hm := segNames_marker h1 h3
      rw [← hm] at h4
      exact .cons hm (hs1.children.seg hsane h2 h4) (ih h5 hs2)

theorem SegPairs.tag {env : Env} {fmt : Format} {csiz : Nat} {ss es} (h : SegPairs env fmt csiz ss es) {t : String}
    (ht : t ∉ segNames.map (·.2)) : ∀ e ∈ es, e.tag ≠ t := by
  induction h with
  | nil => intro e he; cases he
  | cons h1 _ _ ih =>
    intro e he
    rcases List.mem_cons.1 he with rfl | he
    · intro e2
      exact ht (List.mem_map.2 ⟨_, h1, e2⟩)
    · exact ih e he

/-! ## Where lists of elements are cut -/

theorem Same.split {env : Env} {t : String} {x x' : Elem} {r r' : List Elem} (hx : x.tag = t) (hx' : x'.tag = t) :
    ∀ {l l' : List Elem}, Same env (l ++ x :: r) (l' ++ x' :: r') → (∀ e ∈ l, e.tag ≠ t) → (∀ e ∈ l', e.tag ≠ t) →
    Same env l l' ∧ Same1 env x x' ∧ Same env r r'
  | [], [], h, _, _ => ⟨⟨[], ⟨rfl, fun i h => by simp at h⟩, rfl, fun i h => by simp at h⟩, h.cons⟩
  | [], e' :: l', h, _, h2 => by
    obtain ⟨h3, -⟩ := h.cons
    exact absurd (h3.tag.symm.trans hx) (h2 e' (by simp))
  | e :: l, [], h, h1, _ => by
    obtain ⟨h3, -⟩ := h.cons
    exact absurd (h3.tag.trans hx') (h1 e (by simp))
  | e :: l, e' :: l', h, h1, h2 => by
    obtain ⟨out, a, b⟩ := h
    obtain ⟨y, out', rfl, a1, a2⟩ := rendered_cons a
    obtain ⟨y', out'', e1, b1, b2⟩ := rendered_cons b
    cases e1
    obtain ⟨⟨o2, c1, c2⟩, h4⟩ := Same.split hx hx' ⟨out', a2, b2⟩ (fun z hz => h1 z (by simp [hz])) (fun z hz => h2 z (by simp [hz]))
    have cons : ∀ {u : Elem} {us : List Elem}, Rendered env descriptions u y → RenderedList env us o2 →
        RenderedList env (u :: us) (y :: o2) := by
      intro u us k1 k2
      refine ⟨by simpa using k2.1, ?_⟩
      intro i i1 i2
      cases i with
      | zero => exact k1
      | succ i => exact k2.2 i (by simpa using i1) (by simpa using i2)
    exact ⟨⟨y :: o2, cons a1 c1, cons b1 c2⟩, h4⟩

/-! ## Codestreams -/

theorem tilePart_same {env : Env} (hsane : Sane env) {o : Options} {csiz : Nat} {b b' : Bytes} {t t' : TilePartInfo} {e e' : Elem}
    (h : ShowsTilePart env o csiz b t e) (h' : ShowsTilePart env o csiz b' t' e') (hs : Same1 env e e')
    (ht : t.At b) (ht' : t'.At b') : AlikeTilePart env o csiz b b' t t' := by
  cases h with
  | @mk sot ss k segs h1 h2 h3 h4 =>
    cases h' with
    | @mk sot' ss' k' segs' h1' h2' h3' h4' =>
      have hc : Same env (sot :: (segs ++ [Elem.leaf "pltCount" (.int (segNumber PLT ss)), .leaf "pptCount" (.int (segNumber PPT ss))]))
        (sot' :: (segs' ++ [Elem.leaf "pltCount" (.int (segNumber PLT ss')), .leaf "pptCount" (.int (segNumber PPT ss'))])) := hs.children
      obtain ⟨hs1, hs2⟩ := hc.cons
      have p := showsSegs_pairs h4
      have p' := showsSegs_pairs h4'
      obtain ⟨hs3, -, -⟩ := Same.split (t := "pltCount") rfl rfl hs2 (p.tag (by decide +kernel)) (p'.tag (by decide +kernel))
      have num : ∀ {tag o w}, (⟨tag, .num o w⟩ : Field) ∈ sotFields → 0 < w → o + w ≤ 10 →
          uint b (t.start + 2 + o) w = uint b' (t'.start + 2 + o) w := by
        intro tag o w hm hw hl
        have := hs1.children.num (h2 _ hm) (h2' _ hm)
        rwa [uint_sub hl hw, uint_sub hl hw] at this
      refine ⟨?_, ?_, ?_, ?_, ?_⟩
      · have := num (tag := "isot") (o := 2) (w := 2) (by simp [sotFields]) (by decide) (by decide)
        rw [ht.index, ht'.index] at this
        exact Option.some.inj this
      · have := num (tag := "psot") (o := 4) (w := 4) (by simp [sotFields]) (by decide) (by decide)
        rw [ht.length, ht'.length] at this
        exact Option.some.inj this
      · have := num (tag := "tpsot") (o := 8) (w := 1) (by simp [sotFields]) (by decide) (by decide)
        rw [ht.part, ht'.part] at this
        exact Option.some.inj this
      · have := num (tag := "tnsot") (o := 9) (w := 1) (by simp [sotFields]) (by decide) (by decide)
        rw [ht.parts, ht'.parts] at this
        exact Option.some.inj this
      · intro ss1 e1 ss2 e2 g1 g2
        obtain ⟨rfl, -⟩ := segsTo_unique h3 g1
        obtain ⟨rfl, -⟩ := segsTo_unique h3' g2
        exact p.same hsane p' hs3

theorem tileParts_same {env : Env} (hsane : Sane env) {o : Options} {csiz : Nat} {b b' : Bytes} {ts : List TilePartInfo} {es : List Elem}
    (h : ShowsTileParts env o csiz b ts es) : ∀ {ts' es'}, ShowsTileParts env o csiz b' ts' es' → Same env es es' →
    (∀ t ∈ ts, t.At b) → (∀ t ∈ ts', t.At b') → AlikeTileParts env o csiz b b' ts ts' := by
  induction h with
  | nil =>
    intro ts' es' h' hs _ _
    have := hs.nil_left
    subst this
    cases h'
    exact .nil
  | cons h1 _ ih =>
    intro ts' es' h' hs ha ha'
    obtain ⟨e', l, rfl, hs1, hs2⟩ := hs.cons_left
    cases h' with
    | cons h3 h4 =>
      exact .cons (tilePart_same hsane h1 h3 hs1 (ha _ (by simp)) (ha' _ (by simp)))
        (ih h4 hs2 (fun t ht => ha t (by simp [ht])) fun t ht => ha' t (by simp [ht]))

theorem codestream_same {env : Env} (hsane : Sane env) {o : Options} {b b' siz siz' : Bytes} {csiz csiz' : Nat} {main main' : List FoundSeg}
    {sot sot' : Option Nat} {es es' : List Elem} (hc : uint siz 36 2 = some csiz) (hc' : uint siz' 36 2 = some csiz')
    (h : ShowsCodestream env o b siz csiz main sot es) (h' : ShowsCodestream env o b' siz' csiz' main' sot' es')
    (hs : Same env es es') : AlikeHeaders env o b b' siz siz' csiz csiz' main main' sot sot' := by
  cases h with
  | @mk s segs tps ratio n h1 h2 h3 h4 h5 h6 h7 h8 h9 =>
    cases h' with
    | @mk s' segs' tps' ratio' n' h1' h2' h3' h4' h5' h6' h7' h8' h9' =>
      obtain ⟨hs1, hs2⟩ := hs.cons
      rw [List.append_assoc, List.append_assoc] at hs2
      have p := showsSegs_pairs h5
      have p' := showsSegs_pairs h5'
      obtain ⟨hs3, -, hs4⟩ := Same.split (t := "ppmCount") rfl rfl hs2 (p.tag (by decide +kernel)) (p'.tag (by decide +kernel))
      obtain ⟨-, hs5⟩ := hs4.cons
      obtain ⟨hs6, -⟩ := hs5.cons
      have hcs : csiz = csiz' := by
        have := hs1.children.num ((h2.siz rfl).1 ⟨"csiz", .num 36 2⟩ (by simp [sizFields]))
          ((h2'.siz rfl).1 _ (by simp [sizFields]))
        rw [hc, hc'] at this
        exact Option.some.inj this
      subst hcs
      refine ⟨rfl, hs1.children.seg hsane h2 h2', p.same hsane p' hs3, ?_⟩
      intro hx hy m k k' ts ts' ht hk hk' hv hv'
      have hn : n = m := tileCount_unique hx hy (h4 hx hy) ht
      have hn' : n = n' := hs1.children.int h3 h3'
      subst hn
      subst hn'
      exact tileParts_same hsane (h6 k ts hk hv) (h6' k' ts' hk' hv') hs6.children (visited_at hv) (visited_at hv')

/-! ## Boxes -/

theorem boxName_other {t : Bytes} (h : t ∉ knownBoxTypes) : boxName t = "unknownBox" := by
  unfold boxName
  rw [List.find?_eq_none.2]
  intro x hx
  have key : ∀ x ∈ [("jP  ", "signatureBox"), ("ftyp", "fileTypeBox"), ("jp2h", "jp2HeaderBox"),
      ("ihdr", "imageHeaderBox"), ("bpcc", "bitsPerComponentBox"), ("colr", "colourSpecificationBox"),
      ("pclr", "paletteBox"), ("cmap", "componentMappingBox"), ("cdef", "channelDefinitionBox"),
      ("res ", "resolutionBox"), ("resc", "captureResolutionBox"), ("resd", "displayResolutionBox"),
      ("jp2c", "contiguousCodestreamBox"), ("jp2i", "intellectualPropertyBox"), ("xml ", "xmlBox"),
      ("uuid", "uuidBox"), ("uinf", "uuidInfoBox"), ("ulst", "uuidListBox"),
      ("url ", "urlBox")], ascii x.1 ∈ knownBoxTypes := by decide +kernel
  have := key x hx
  intro e
  have e' : ascii x.1 = t := by simpa using e
  exact h (e' ▸ this)

theorem boxName_known : ∀ t ∈ knownBoxTypes, boxName t ≠ "unknownBox" ∧ boxName t ≠ "compressionRatio" ∧
    ∀ s ∈ segNames, boxName t ≠ s.2 := by decide +kernel

theorem boxName_type : ∀ t ∈ knownBoxTypes, ∀ t' ∈ knownBoxTypes, boxName t = boxName t' → t = t' := by
  decide +kernel

theorem showsBoxV_name {env : Env} {o : Options} {t p : Bytes} {e : Elem} (h : ShowsBoxV env o t p e) :
    e.tag = boxName t ∨ (t.length = 2 ∧ (t, e.tag) ∈ segNames) := by
  cases h with
  | leaf _ _ h _ => exact h
  | codestream h1 h2 _ => rw [h1, h2]; exact .inl (by decide +kernel)
  | super _ h _ _ => exact .inl h

theorem box_type {env : Env} {o : Options} {t p t' p' : Bytes} {e e' : Elem} (h : ShowsBoxV env o t p e)
    (h' : ShowsBoxV env o t' p' e') (he : e.tag = e'.tag) :
    (t ∈ knownBoxTypes ∧ t = t') ∨ (t ∉ knownBoxTypes ∧ t' ∉ knownBoxTypes) := by
  have len : ∀ t ∈ knownBoxTypes, t.length = 4 := by decide +kernel
  have one : ∀ {t p t' p' : Bytes} {e e' : Elem}, ShowsBoxV env o t p e → ShowsBoxV env o t' p' e' → e.tag = e'.tag →
      t ∈ knownBoxTypes → t = t' := by
    intro t p t' p' e e' h h' he ht
    rcases showsBoxV_name h with h1 | ⟨h1, -⟩
    · obtain ⟨k1, -, k2⟩ := boxName_known t ht
      rcases showsBoxV_name h' with h2 | ⟨-, h2⟩
      · by_cases ht' : t' ∈ knownBoxTypes
        · exact boxName_type t ht t' ht' (h1.symm.trans (he.trans h2))
        · rw [boxName_other ht'] at h2
          exact absurd (h1.symm.trans (he.trans h2)) k1
      · exact absurd (h1.symm.trans he) (k2 _ h2)
    · rw [len t ht] at h1; cases h1
  by_cases ht : t ∈ knownBoxTypes
  · exact .inl ⟨ht, one h h' he ht⟩
  · refine .inr ⟨ht, fun ht' => ht ?_⟩
    rw [← one h' h he.symm ht']; exact ht'

theorem Same.filter {env : Env} (t : String) : ∀ {es es' : List Elem}, Same env es es' →
    Same env (es.filter fun e => e.tag == t) (es'.filter fun e => e.tag == t)
  | [], es', h => by rw [h.nil_left]; exact ⟨[], ⟨rfl, fun i h => by cases h⟩, ⟨rfl, fun i h => by cases h⟩⟩
  | e :: es, es', h => by
    obtain ⟨e', l, rfl, h1, h2⟩ := h.cons_left
    have ih := h2.filter t
    rw [List.filter_cons, List.filter_cons, ← h1.tag]
    split
    · obtain ⟨out, k1, k2⟩ := h
      cases out with
      | nil => have := k1.1; cases this
      | cons x out =>
        obtain ⟨out', m1, m2⟩ := ih
        have add : ∀ {a : Elem} {as bs : List Elem} {b : Elem} {bs'}, RenderedList env (a :: as) (b :: bs') →
            RenderedList env bs out' → RenderedList env (a :: bs) (b :: out') := by
          intro a as bs b bs' q1 q2
          refine ⟨by simp [q2.1], fun i hi hi' => ?_⟩
          cases i with
          | zero => exact q1.2 0 (by simp) (by simp)
          | succ i => exact q2.2 i (by simpa using hi) (by simpa using hi')
        exact ⟨x :: out', add k1 m1, add k2 m2⟩
    · exact ih

theorem Same.uuid {env : Env} (hs : Sane env) {es es' : List Elem} (h : Same env es es') {b b' : Bytes} (hb : b.length = 16)
    (hb' : b'.length = 16) {i : Nat} {s s' : String} (h1 : (valuesOf es "uuid")[i]? = some (.str s))
    (h2 : (valuesOf es' "uuid")[i]? = some (.str s')) (k : IsUuidText b s) (k' : IsUuidText b' s') : b = b' := by
  rw [isUuidText_eq hb k] at h1
  rw [isUuidText_eq hb' k'] at h2
  obtain ⟨x, s1, s2⟩ := h.text1 h1 h2
  exact uuidText_inj hb hb'
    (shown_text_inj (by decide +kernel) (uuidText_plain hs b) (uuidText_plain hs b') s1 s2)

theorem Same.profile {env : Env} (hs : Sane env) {es es' : List Elem} (h : Same env es es') {o : Options} {p p' : Bytes}
    (v : BoxValues env o (ascii "colr") p es) (v' : BoxValues env o (ascii "colr") p' es')
    (hm : uint p 0 1 = some 2 ∨ uint p 0 1 = some 3) (hm' : uint p' 0 1 = some 2 ∨ uint p' 0 1 = some 3) :
    AlikeProfile env (p.drop 3) (p'.drop 3) := by
  obtain ⟨e, e1, e2, e3⟩ := (v.colr rfl).2.2.2 hm
  obtain ⟨e', e1', e2', e3'⟩ := (v'.colr rfl).2.2.2 hm'
  have hf := h.filter "icc"
  rw [e1, e1'] at hf
  have hc := hf.cons.1.children
  have raw4 : ∀ f ∈ iccFields ++ iccTopFlagFields, (match f.reads with | .raw _ n => decide (n ≤ 4) | _ => true) = true := by
    decide +kernel
  have hex : ∀ f ∈ iccFields ++ iccTopFlagFields,
      (match f.reads with | .hex _ _ => decide (∀ d ∈ descriptions, d.1 ≠ f.tag) | _ => true) = true := by decide +kernel
  obtain ⟨q, q1, w1, w2, w3⟩ := v.profile rfl hm
  obtain ⟨q', q1', w1', w2', w3'⟩ := v'.profile rfl hm'
  have : q = e := by rw [e1] at q1; exact (List.cons.inj q1).1.symm
  subst this
  have : q' = e' := by rw [e1'] at q1'; exact (List.cons.inj q1').1.symm
  subst this
  refine ⟨fun f hf => ⟨hc.field (e2 f hf) (e2' f hf), hc.name hs (e2 f hf) (e2' f hf) ?_ ?_⟩, ?_, ?_, ?_, ?_⟩
  · intro o n he
    have := raw4 f hf
    rw [he] at this
    exact of_decide_eq_true this
  · intro o n he
    have := hex f hf
    rw [he] at this
    exact of_decide_eq_true this
  · intro n n' hn hn'
    have conv : ∀ {q : Bytes} {m : Nat}, uint (q.drop 3) 128 4 = some m → uint q 131 4 = some m := by
      intro q m hq
      have hl := uint_some_le hq
      rw [List.length_drop] at hl
      rw [← hq, uint_pos (by omega), uint_pos (by rw [List.length_drop]; omega)]
      unfold sub
      rw [List.drop_drop]
    have k1 := e3 n (conv hn) ⟨"tag", .raw 132 4⟩ (by simp [iccEntry])
    have k2 := e3' n' (conv hn') ⟨"tag", .raw 132 4⟩ (by simp [iccEntry])
    have hN : min n 4096 = min n' 4096 := by rw [← k1.number, ← k2.number]; exact (hc.values "tag").1
    refine ⟨hN, fun f hf i hi => ?_⟩
    simp only [iccEntry, List.mem_singleton] at hf
    subst hf
    obtain ⟨w, w1, w2⟩ := k1.each i hi
    obtain ⟨w', w1', w2'⟩ := k2.each i (by omega)
    refine hc.nameAt hs w1 w1' w2 w2' ?_ ?_
    · intro o n he; cases he; omega
    · intro o n he; cases he
  · intro l l'
    have e := hc.word (t := "profileVersion") (by decide +kernel) (iccVersion_plain hs _ _) (iccVersion_plain hs _ _)
      (w1 _ _ (uint_pos (by omega)) (uint_pos (by omega))) (w1' _ _ (uint_pos (by omega)) (uint_pos (by omega)))
    obtain ⟨f1, f2⟩ := iccVersion_inj e
    refine sub_ext fun i a b => ?_
    have s1 : AlikeStored (p.drop 3) (p'.drop 3) (.num 8 1) := by
      intro x x' hx hx'
      have hx : uint (p.drop 3) 8 1 = some x := hx
      have hx' : uint (p'.drop 3) 8 1 = some x' := hx'
      rw [uint_pos (by omega)] at hx hx'
      rw [← Option.some.inj hx, ← Option.some.inj hx', f1]
    have s2 : AlikeStored (p.drop 3) (p'.drop 3) (.num 9 1) := by
      intro x x' hx hx'
      have hx : uint (p.drop 3) 9 1 = some x := hx
      have hx' : uint (p'.drop 3) 9 1 = some x' := hx'
      rw [uint_pos (by omega)] at hx hx'
      rw [← Option.some.inj hx, ← Option.some.inj hx', f2]
    rcases Nat.lt_or_ge i 9 with hi | hi
    · exact sameStored_bytes s1 (by omega) (by omega) a (by omega)
    · exact sameStored_bytes s2 (by omega) (by omega) hi (by omega)
  · intro g g'
    obtain ⟨mo, m1, m2⟩ := g 0 (by omega)
    obtain ⟨d, d1, d2⟩ := g 1 (by omega)
    obtain ⟨ho, o1, o2⟩ := g 2 (by omega)
    obtain ⟨mi, i1, i2⟩ := g 3 (by omega)
    obtain ⟨se, c1, c2⟩ := g 4 (by omega)
    obtain ⟨mo', m1', m2'⟩ := g' 0 (by omega)
    obtain ⟨d', d1', d2'⟩ := g' 1 (by omega)
    obtain ⟨ho', o1', o2'⟩ := g' 2 (by omega)
    obtain ⟨mi', i1', i2'⟩ := g' 3 (by omega)
    obtain ⟨se', c1', c2'⟩ := g' 4 (by omega)
    have l := uint_some_le c1
    have l' := uint_some_le c1'
    have y1 := uint_pos (b := p.drop 3) (off := 24) (n := 2) (by omega)
    have y1' := uint_pos (b := p'.drop 3) (off := 24) (n := 2) (by omega)
    have e := hc.word (t := "dateTimeString") (by decide +kernel) (iccDateTime_plain hs _ _ _ _ _ _)
      (iccDateTime_plain hs _ _ _ _ _ _)
      (w2 _ _ _ _ _ _ y1 m1 d1 o1 i1 c1 m2 d2 o2 i2 c2) (w2' _ _ _ _ _ _ y1' m1' d1' o1' i1' c1' m2' d2' o2' i2' c2')
    obtain ⟨f1, f2, f3, f4, f5, f6⟩ := iccDateTime_inj m2 d2 o2 i2 c2 m2' d2' o2' i2' c2' e
    have st : ∀ {o : Nat} {x x' : Nat}, uint (p.drop 3) o 2 = some x → uint (p'.drop 3) o 2 = some x' → x = x' →
        AlikeStored (p.drop 3) (p'.drop 3) (.num o 2) := by
      intro o x x' k k' hk z z' hz hz'
      have hz : uint (p.drop 3) o 2 = some z := hz
      have hz' : uint (p'.drop 3) o 2 = some z' := hz'
      rw [k] at hz
      rw [k'] at hz'
      rw [← Option.some.inj hz, ← Option.some.inj hz', hk]
    refine sub_ext fun i a b => ?_
    have : i < 26 ∨ (26 ≤ i ∧ i < 28) ∨ (28 ≤ i ∧ i < 30) ∨ (30 ≤ i ∧ i < 32) ∨ (32 ≤ i ∧ i < 34) ∨ 34 ≤ i := by omega
    rcases this with hi | ⟨hi, hi'⟩ | ⟨hi, hi'⟩ | ⟨hi, hi'⟩ | ⟨hi, hi'⟩ | hi
    · exact sameStored_bytes (st y1 y1' f1) (by omega) (by omega) a (by omega)
    · exact sameStored_bytes (st m1 m1' f2) (by omega) (by omega) hi (by omega)
    · exact sameStored_bytes (st d1 d1' f3) (by omega) (by omega) hi (by omega)
    · exact sameStored_bytes (st o1 o1' f4) (by omega) (by omega) hi (by omega)
    · exact sameStored_bytes (st i1 i1' f5) (by omega) (by omega) hi (by omega)
    · exact sameStored_bytes (st c1 c1' f6) (by omega) (by omega) hi (by omega)
  · rintro s s' ⟨n, i, off, size, count, a1, a2, a3, a4, a5, a6, rfl⟩ ⟨n', i', off', size', count', b1, b2, b3, b4, b5, b6, rfl⟩
    have k := w3 n i off size count a1 a2 a3 a4 a5 a6
    have k' := w3' n' i' off' size' count' b1 b2 b3 b4 b5 b6
    obtain ⟨z, z1, z2⟩ := hc.text1 (t := "description") (i := 0) (by rw [k]; rfl) (by rw [k']; rfl)
    exact shown_bytes_inj (.inl (by decide +kernel)) z1 z2

theorem Same.payload {env : Env} (hs : Sane env) {es es' : List Elem} (h : Same env es es') {o : Options} {t p p' : Bytes}
    (v : BoxValues env o t p es) (v' : BoxValues env o t p' es') : AlikePayload env t p p' := by
  refine { ftyp := ?_, ihdr := ?_, bpcc := ?_, cmap := ?_, cdef := ?_, pclr := ?_, colr := ?_, resc := ?_, resd := ?_,
           url := ?_, brands := ?_, profile := ?_, entries := ?_, uuid := ?_, uuids := ?_, location := ?_ }
  · intro e
    exact h.field (f := ⟨"minV", .num 4 4⟩) ((v.ftyp e).1 _ (by simp [ftypFields])) ((v'.ftyp e).1 _ (by simp [ftypFields]))
  · intro e
    have hf := h.fields (v.ihdr e) (v'.ihdr e)
    refine ⟨hf, fun h1 h2 => ?_⟩
    refine List.ext_getElem? fun i => ?_
    have num : ∀ {tag o w}, (⟨tag, .num o w⟩ : Field) ∈ ihdrFields → o + w ≤ 14 → o ≤ i → i < o + w → p[i]? = p'[i]? :=
      fun hm hl a b => sameStored_bytes (hf _ hm) (by omega) (by omega) a b
    have : i < 4 ∨ (4 ≤ i ∧ i < 8) ∨ (8 ≤ i ∧ i < 10) ∨ i = 10 ∨ i = 11 ∨ i = 12 ∨ i = 13 ∨ 14 ≤ i := by omega
    rcases this with k | k | k | k | k | k | k | k
    · exact num (tag := "height") (o := 0) (w := 4) (by simp [ihdrFields]) (by omega) (by omega) (by omega)
    · exact num (tag := "width") (o := 4) (w := 4) (by simp [ihdrFields]) (by omega) (by omega) (by omega)
    · exact num (tag := "nC") (o := 8) (w := 2) (by simp [ihdrFields]) (by omega) (by omega) (by omega)
    · rw [k]
      exact sameStored_depth (hf ⟨"bPCSign", .bits 10 1 7 1⟩ (by simp [ihdrFields]))
        (hf ⟨"bPCDepth", .depth 10⟩ (by simp [ihdrFields])) (by omega) (by omega)
    · exact num (tag := "c") (o := 11) (w := 1) (by simp [ihdrFields]) (by omega) (by omega) (by omega)
    · exact num (tag := "unkC") (o := 12) (w := 1) (by simp [ihdrFields]) (by omega) (by omega) (by omega)
    · exact num (tag := "iPR") (o := 13) (w := 1) (by simp [ihdrFields]) (by omega) (by omega) (by omega)
    · rw [List.getElem?_eq_none (by omega), List.getElem?_eq_none (by omega)]
  · intro e
    have e1 := h.each (v.bpcc e ⟨"bPCSign", .bits 0 1 7 1⟩ (by simp [bpccEntry])) (v'.bpcc e _ (by simp [bpccEntry]))
    have e2 := h.each (v.bpcc e ⟨"bPCDepth", .depth 0⟩ (by simp [bpccEntry])) (v'.bpcc e _ (by simp [bpccEntry]))
    refine List.ext_getElem? fun i => ?_
    rcases Nat.lt_or_ge i p.length with hi | hi
    · have a := e1.2 i hi
      have b := e2.2 i hi
      simp only [Reads.shift, Nat.zero_add, Nat.one_mul] at a b
      exact sameStored_depth a b (by omega) (by omega)
    · rw [List.getElem?_eq_none (by omega), List.getElem?_eq_none (by omega)]
  · intro e
    exact ⟨(h.each (v.cmap e ⟨"cMP", .num 0 2⟩ (by simp [cmapEntry])) (v'.cmap e _ (by simp [cmapEntry]))).1,
      fun f hf => (h.each (v.cmap e f hf) (v'.cmap e f hf)).2⟩
  · intro e n hn
    have hn' : uint p' 0 2 = some n := by
      rw [← hn]
      exact (h.num ((v.cdef e).1 ⟨"n", .num 0 2⟩ (by simp [cdefFields])) ((v'.cdef e).1 _ (by simp [cdefFields]))).symm
    exact ⟨hn', fun f hf => (h.each ((v.cdef e).2 n hn f hf) ((v'.cdef e).2 n hn' f hf)).2⟩
  · intro e
    refine ⟨h.fields (v.pclr e).1 (v'.pclr e).1 ⟨"nE", .num 0 2⟩ (by simp [pclrFields]), fun n hn => ?_⟩
    have hn' : uint p' 2 1 = some n := by
      rw [← hn]
      exact (h.num ((v.pclr e).1 ⟨"nPC", .num 2 1⟩ (by simp [pclrFields])) ((v'.pclr e).1 _ (by simp [pclrFields]))).symm
    exact ⟨hn', fun f hf => (h.each ((v.pclr e).2 n hn f hf) ((v'.pclr e).2 n hn' f hf)).2⟩
  · intro e
    have hf := h.fields (v.colr e).1 (v'.colr e).1
    have hm : uint p 0 1 = uint p' 0 1 :=
      h.num ((v.colr e).1 ⟨"meth", .num 0 1⟩ (by simp [colrFields])) ((v'.colr e).1 _ (by simp [colrFields]))
    refine ⟨hf, ?_, ?_⟩
    · intro h1 h2 h3
      have hcs := h.field ((v.colr e).2.1 h1 h2) ((v'.colr e).2.1 (hm ▸ h1) h3)
      refine List.ext_getElem? fun i => ?_
      have num : ∀ {o w}, AlikeStored p p' (.num o w) → o + w ≤ 7 → o ≤ i → i < o + w → p[i]? = p'[i]? :=
        fun hh hl a b => sameStored_bytes hh (by omega) (by omega) a b
      have : i = 0 ∨ i = 1 ∨ i = 2 ∨ (3 ≤ i ∧ i < 7) ∨ 7 ≤ i := by omega
      rcases this with k | k | k | k | k
      · exact num (hf ⟨"meth", .num 0 1⟩ (by simp [colrFields])) (by omega) (by omega) (by omega)
      · exact num (hf ⟨"prec", .num 1 1⟩ (by simp [colrFields])) (by omega) (by omega) (by omega)
      · exact num (hf ⟨"approx", .num 2 1⟩ (by simp [colrFields])) (by omega) (by omega) (by omega)
      · exact num hcs (by omega) (by omega) (by omega)
      · rw [List.getElem?_eq_none (by omega), List.getElem?_eq_none (by omega)]
    · intro h1
      exact h.fields ((v.colr e).2.2.1 h1) ((v'.colr e).2.2.1 (hm ▸ h1))
  · intro e; exact h.fields (v.resc e) (v'.resc e)
  · intro e; exact h.fields (v.resd e) (v'.resd e)
  · intro e; exact h.fields (v.url e) (v'.url e)
  · intro e
    refine ⟨fun f hf => ?_, ?_, ?_⟩
    · refine h.name hs ((v.ftyp e).1 f hf) ((v'.ftyp e).1 f hf) ?_ ?_
      all_goals
        simp only [ftypFields, List.mem_cons, List.not_mem_nil, or_false] at hf
        intro o n he
        rcases hf with rfl | rfl <;> cases he
      omega
    · exact (h.each ((v.ftyp e).2 ⟨"cL", .raw 8 4⟩ (by simp [ftypEntry])) ((v'.ftyp e).2 _ (by simp [ftypEntry]))).1
    · intro f hf i hi
      have hN := (h.each ((v.ftyp e).2 f hf) ((v'.ftyp e).2 f hf)).1
      simp only [ftypEntry, List.mem_singleton] at hf
      subst hf
      obtain ⟨w, w1, w2⟩ := ((v.ftyp e).2 ⟨"cL", .raw 8 4⟩ (by simp [ftypEntry])).each i hi
      obtain ⟨w', w1', w2'⟩ := ((v'.ftyp e).2 ⟨"cL", .raw 8 4⟩ (by simp [ftypEntry])).each i (by omega)
      refine h.nameAt hs w1 w1' w2 w2' ?_ ?_
      · intro o n he; cases he; omega
      · intro o n he; cases he
  · intro e hm
    have hm2 : uint p 0 1 = uint p' 0 1 :=
      h.num ((v.colr e).1 ⟨"meth", .num 0 1⟩ (by simp [colrFields])) ((v'.colr e).1 _ (by simp [colrFields]))
    subst e
    exact h.profile hs v v' hm (hm2 ▸ hm)
  · intro e nE nPC w h1 h2 h3 h4 i hi k hk g1 g2
    have h1' : uint p' 0 2 = some nE := by
      rw [← h1]
      exact (h.num ((v.pclr e).1 ⟨"nE", .num 0 2⟩ (by simp [pclrFields])) ((v'.pclr e).1 _ (by simp [pclrFields]))).symm
    have h2' : uint p' 2 1 = some nPC := by
      rw [← h2]
      exact (h.num ((v.pclr e).1 ⟨"nPC", .num 2 1⟩ (by simp [pclrFields])) ((v'.pclr e).1 _ (by simp [pclrFields]))).symm
    have hd := (h.each ((v.pclr e).2 nPC h2 ⟨"bDepth", .depth 3⟩ (by simp [pclrEntry]))
      ((v'.pclr e).2 nPC h2' _ (by simp [pclrEntry]))).2
    have h3' : ∀ i < nPC, FieldIs p' (3 + i) 1 (fun b => IsCeil (b % 128 + 1 : Nat) 8 (w i)) := by
      intro i hi
      obtain ⟨x, hx, hx2⟩ := h3 i hi
      have u' : uint p' (3 + i) 1 = some _ := uint_pos (by omega)
      have := hd i hi _ _ (by rw [Reads.shift, Reads.stored, Nat.one_mul, hx]; rfl)
        (by rw [Reads.shift, Reads.stored, Nat.one_mul, u']; rfl)
      refine ⟨_, u', ?_⟩
      have this : x % 128 = be (sub p' (3 + i) 1) % 128 := this
      show IsCeil ((be (sub p' (3 + i) 1) % 128 + 1 : Nat) : Int) 8 (w i)
      rw [← this]
      exact hx2
    have hw : 1 ≤ w i := by
      obtain ⟨x, hx, hx2⟩ := h3 i hi
      unfold IsCeil at hx2
      omega
    have a := v.columns e nE nPC w h1 h2 h3
    have b := v'.columns e nE nPC w h1' h2' h3'
    have full : ∀ {q : Bytes} {o}, o + w i ≤ q.length → sub q o (w i) ≠ [] := by
      intro q o ho hn
      have := congrArg List.length hn
      rw [length_sub, List.length_nil] at this
      omega
    have f := h.ints (t := "cP") (i := i * nE + k) (by rw [a, flatMap_range_at _ hi hk]) (by rw [b, flatMap_range_at _ hi hk])
    rw [if_neg (full g1), if_neg (full g2)] at f
    refine be_inj ?_ (by omega)
    rw [length_sub, length_sub]; omega
  · intro e h1 h2 h3 h4
    obtain ⟨s, k1, k2⟩ := v.uuid e h3
    obtain ⟨s', k1', k2'⟩ := v'.uuid e h4
    refine h.uuid hs (i := 0) ?_ ?_ (by rw [k2]; rfl) (by rw [k2']; rfl) k1 k1' <;> (rw [List.length_take]; omega)
  · intro e n n' hn hn'
    obtain ⟨u, -, k⟩ := v.uuids e n hn
    obtain ⟨u', -, k'⟩ := v'.uuids e n' hn'
    have := h.int u u'
    have : n = n' := by omega
    subst this
    refine ⟨rfl, fun i hi h1 h2 => ?_⟩
    obtain ⟨s, a1, a2⟩ := k i hi
    obtain ⟨s', b1, b2⟩ := k' i hi
    refine h.uuid hs ?_ ?_ a2 b2 a1 b1 <;> (rw [length_sub]; omega)
  · intro e s n s' n' h1 h2 h3 h4
    obtain ⟨a, m, a1, a2, a3⟩ := v.location e
    obtain ⟨a', m', a1', a2', a3'⟩ := v'.location e
    rw [stripped_unique a1 a2 h1 h2] at a3
    rw [stripped_unique a1' a2' h3 h4] at a3'
    obtain ⟨x, s1, s2⟩ := h.text1 (t := "loc") (i := 0) (by rw [a3]; rfl) (by rw [a3']; rfl)
    exact shown_bytes_inj (.inl (by decide +kernel)) s1 s2

theorem codestream_not_super : ascii "jp2c" ∉ superboxTypes := by decide +kernel

theorem known_super : (∀ t ∈ superboxTypes, t ∈ knownBoxTypes) ∧ ascii "jp2c" ∈ knownBoxTypes := by decide +kernel

theorem unknown_same {env : Env} {o : Options} {t p t' p' : Bytes} {e e' : Elem} (hk : t ∉ knownBoxTypes)
    (hk' : t' ∉ knownBoxTypes) (h : ShowsBoxV env o t p e) (h' : ShowsBoxV env o t' p' e') (hs : Same1 env e e')
    (hl : t.length = 4) (hl' : t'.length = 4) : AlikeText env t t' := by
  have one : ∀ {t p e}, t ∉ knownBoxTypes → ShowsBoxV env o t p e → t.length = 4 →
      e.children = [.leaf "boxType" (.bytes t)] := by
    intro t p e hk h hl
    cases h with
    | leaf _ _ _ v => exact v.unknown hl hk
    | codestream h _ _ => rw [h] at hk; exact absurd known_super.2 hk
    | super h _ _ _ => exact absurd (known_super.1 _ h) hk
  have hc := hs.children
  rw [one hk h hl, one hk' h' hl'] at hc
  obtain ⟨x, s1, s2⟩ := hc.text1 (t := "boxType") (i := 0) (v := .bytes t) (v' := .bytes t') rfl rfl
  exact shown_bytes_inj (.inl (by decide +kernel)) s1 s2

mutual
theorem box_same {env : Env} (hsane : Sane env) {o : Options} {t p : Bytes} {e : Elem} : (h : ShowsBoxV env o t p e) →
    ∀ {t' p' e'}, ShowsBoxV env o t' p' e' → Same1 env e e' → AlikeBox env o t p t' p'
  | .leaf h1 h2 h3 h4, t', p', e', h', hs => by
    rcases box_type (.leaf h1 h2 h3 h4) h' hs.tag with ⟨hk, rfl⟩ | ⟨hk, hk'⟩
    · cases h' with
      | leaf _ _ _ h4' => exact .leaf hk h1 h2 (hs.children.payload hsane h4 h4')
      | codestream h _ _ => exact absurd h h2
      | super h _ _ _ => exact absurd h h1
    · exact .unknown hk hk' (unknown_same hk hk' (.leaf h1 h2 h3 h4) h' hs)
  | .codestream h1 h2 h3, t', p', e', h', hs => by
    rcases box_type (.codestream h1 h2 h3) h' hs.tag with ⟨hk, rfl⟩ | ⟨hk, hk'⟩
    · cases h' with
      | leaf _ h _ _ => exact absurd h1 h
      | codestream _ _ h3' =>
        refine .codestream h1 ?_
        intro siz csiz main sot siz' csiz' main' sot' k1 k2 k3 k4
        exact codestream_same hsane k3.comps k4.comps (h3 _ _ _ _ k1 k3) (h3' _ _ _ _ k2 k4) hs.children
      | super h _ _ _ => rw [h1] at h; exact absurd h codestream_not_super
    · exact .unknown hk hk' (unknown_same hk hk' (.codestream h1 h2 h3) h' hs)
  | .super h1 h2 h3 h4, t', p', e', h', hs => by
    rcases box_type (.super h1 h2 h3 h4) h' hs.tag with ⟨hk, rfl⟩ | ⟨hk, hk'⟩
    · cases h' with
      | leaf h _ _ _ => exact absurd h1 h
      | codestream h _ _ => rw [h] at h1; exact absurd h1 codestream_not_super
      | super _ _ h3' h4' => exact .super h1 h3 h3' (boxes_same hsane h4 h4' hs.children)
    · exact .unknown hk hk' (unknown_same hk hk' (.super h1 h2 h3 h4) h' hs)
theorem boxes_same {env : Env} (hsane : Sane env) {o : Options} {bs : List FoundBox} {es : List Elem} : (h : ShowsBoxesV env o bs es) →
    ∀ {bs' es'}, ShowsBoxesV env o bs' es' → Same env es es' → AlikeBoxes env o bs bs'
  | .nil, bs', es', h', hs => by
    have := hs.nil_left
    subst this
    cases h'
    exact .nil
  | .cons h1 h2, bs', es', h', hs => by
    obtain ⟨e', l, rfl, hs1, hs2⟩ := hs.cons_left
    cases h' with
    | cons h3 h4 => exact .cons (box_same hsane h1 h3 hs1) (boxes_same hsane h2 h4 hs2)
end

/-! ## Reports -/

theorem showsBoxesV_tag {env : Env} {o : Options} : ∀ {bs : List FoundBox} {es : List Elem}, ShowsBoxesV env o bs es →
    ∀ e ∈ es, e.tag ≠ "compressionRatio"
  | _, _, .nil, e, he => by cases he
  | _, _, .cons h1 h2, e, he => by
    rcases List.mem_cons.1 he with rfl | he
    · intro ht
      rcases showsBoxV_name h1 with h | ⟨-, h⟩
      · rw [ht] at h
        rename_i x _ _
        by_cases hk : x.type ∈ knownBoxTypes
        · exact (boxName_known _ hk).2.1 h.symm
        · rw [boxName_other hk] at h; revert h; decide
      · rw [ht] at h
        have key : "compressionRatio" ∉ segNames.map (·.2) := by decide +kernel
        exact key (List.mem_map.2 ⟨_, h, rfl⟩)
    · exact showsBoxesV_tag h2 e he

theorem Same.before {env : Env} {t : String} {r r' : List Elem} (hr : ∀ e ∈ r, e.tag = t) (hr' : ∀ e ∈ r', e.tag = t)
    {l l' : List Elem} (h : Same env (l ++ r) (l' ++ r')) (hl : ∀ e ∈ l, e.tag ≠ t) (hl' : ∀ e ∈ l', e.tag ≠ t) :
    Same env l l' := by
  cases r with
  | nil =>
    cases r' with
    | nil => simpa using h
    | cons x' r' =>
      exfalso
      obtain ⟨out, h1, h2⟩ := h
      rw [List.append_nil] at h1
      have hlen := h2.1
      have := h1.1
      rw [List.length_append, List.length_cons] at hlen
      have k1 := h2.2 l'.length (by simp) (by omega)
      have k2 := h1.2 l'.length (by omega) (by omega)
      have t1 := (rendered_facts k1).1
      have t2 := (rendered_facts k2).1
      rw [t1, List.getElem_append_right (Nat.le_refl _)] at t2
      simp only [Nat.sub_self, List.getElem_cons_zero] at t2
      exact hl _ (List.getElem_mem _) (t2.symm.trans (hr' x' (by simp)))
  | cons x r =>
    cases r' with
    | nil =>
      exfalso
      obtain ⟨out, h2, h1⟩ := h
      rw [List.append_nil] at h1
      have hlen := h2.1
      have := h1.1
      rw [List.length_append, List.length_cons] at hlen
      have k1 := h2.2 l.length (by simp) (by omega)
      have k2 := h1.2 l.length (by omega) (by omega)
      have t1 := (rendered_facts k1).1
      have t2 := (rendered_facts k2).1
      rw [t1, List.getElem_append_right (Nat.le_refl _)] at t2
      simp only [Nat.sub_self, List.getElem_cons_zero] at t2
      exact hl' _ (List.getElem_mem _) (t2.symm.trans (hr x (by simp)))
    | cons x' r' => exact (Same.split (hr x (by simp)) (hr' x' (by simp)) h hl hl').1

/-- C79 (JP2 and JPH files): if the analysis of two files succeeds and the properties in their reports are the
same, then the files have the same boxes in the same order, of the same type if the type is a known one, with the
same numbers and names in their fields, and codestreams with the same marker segments and tile-parts. -/
theorem C79_file {env : Env} (hsane : Sane env) {me me' : MixEnv} {fs fs' : FS} {fuel fuel' : Nat} {o : Options}
    {mix mix' : Nat} {path path' : PyStr} (hfmt : o.format = .jp2 ∨ o.format = .jph) {rep rep' : Elem}
    (h : checkOneFile env me fs fuel o mix path = .ok rep) (hs : status rep "success" = [.str "True"])
    (h' : checkOneFile env me' fs' fuel' o mix' path' = .ok rep') (hs' : status rep' "success" = [.str "True"])
    (he : contents rep "properties" = contents rep' "properties") {bs bs'}
    (hb : Boxes (bytesRead (fs.read path)) bs) (hb' : Boxes (bytesRead (fs'.read path')) bs') :
    AlikeBoxes env o bs bs' := by
  obtain ⟨raw, more, h1, h2, -, h3⟩ := C54_file hsane hfmt h hs hb
  obtain ⟨raw', more', h1', h2', -, h3'⟩ := C54_file hsane hfmt h' hs' hb'
  rw [← he] at h1'
  exact boxes_same hsane h2 h2' (Same.before h3 h3' ⟨_, h1, h1'⟩ (showsBoxesV_tag h2) (showsBoxesV_tag h2'))

/-- C79 (bare codestreams): the same for codestream files that start with SOC and SIZ. -/
theorem C79_bare {env : Env} (hsane : Sane env) {me me' : MixEnv} {fs fs' : FS} {fuel fuel' : Nat} {o : Options}
    {mix mix' : Nat} {path path' : PyStr} (hfmt : o.format = .j2c ∨ o.format = .jhc) {rep rep' : Elem}
    (h : checkOneFile env me fs fuel o mix path = .ok rep) (hs : status rep "success" = [.str "True"])
    (h' : checkOneFile env me' fs' fuel' o mix' path' = .ok rep') (hs' : status rep' "success" = [.str "True"])
    (he : contents rep "properties" = contents rep' "properties")
    (hsoc : sub (bytesRead (fs.read path)) 0 2 = SOC) {siz csiz main sot}
    (hm : MainHeader (bytesRead (fs.read path)) siz csiz main sot)
    (hsoc' : sub (bytesRead (fs'.read path')) 0 2 = SOC) {siz' csiz' main' sot'}
    (hm' : MainHeader (bytesRead (fs'.read path')) siz' csiz' main' sot') :
    AlikeHeaders env o (bytesRead (fs.read path)) (bytesRead (fs'.read path')) siz siz' csiz csiz' main main' sot sot' := by
  obtain ⟨raw, h1, h2⟩ := C54_bare hsane hfmt h hs hsoc hm
  obtain ⟨raw', h1', h2'⟩ := C54_bare hsane hfmt h' hs' hsoc' hm'
  rw [← he] at h1'
  exact codestream_same hsane hm.comps hm'.comps h2 h2' ⟨_, h1, h1'⟩

/-! ## Valid files -/

theorem alike_first {o : Options} {t : String} (ht : ascii t ∈ knownBoxTypes) {x x' : FoundBox} (hx : x.type = ascii t)
    (hx' : x'.type = ascii t) : ∀ {a a' z z' : List FoundBox}, AlikeBoxes env o (a ++ x :: z) (a' ++ x' :: z') → ¬ Has a t →
    ¬ Has a' t → AlikeBox env o x.type x.payload x'.type x'.payload
  | [], [], _, _, h, _, _ => by cases h with | cons h _ => exact h
  | [], y :: a', _, _, h, _, hn => by
    cases h with
    | cons h _ =>
      have : x.type ≠ y.type := fun e => hn ⟨y, by simp, e ▸ hx⟩
      generalize x.type = u at h hx this
      generalize y.type = w at h this
      cases h with
      | unknown h _ => rw [hx] at h; exact absurd ht h
      | leaf => exact absurd rfl this
      | codestream => exact absurd rfl this
      | super => exact absurd rfl this
  | y :: a, [], _, _, h, hn, _ => by
    cases h with
    | cons h _ =>
      have : y.type ≠ x'.type := fun e => hn ⟨y, by simp, e.trans hx'⟩
      generalize x'.type = u at h hx' this
      generalize y.type = w at h this
      cases h with
      | unknown _ h => rw [hx'] at h; exact absurd ht h
      | leaf => exact absurd rfl this
      | codestream => exact absurd rfl this
      | super => exact absurd rfl this
  | y :: a, y' :: a', _, _, h, hn, hn' => by
    cases h with
    | cons _ h =>
      exact alike_first ht hx hx' h (fun ⟨w, h1, h2⟩ => hn ⟨w, by simp [h1], h2⟩) (fun ⟨w, h1, h2⟩ => hn' ⟨w, by simp [h1], h2⟩)

theorem firstBox_alike {o : Options} {t : String} (ht : ascii t ∈ knownBoxTypes) {bs bs' : List FoundBox}
    {x x' : FoundBox} (h : AlikeBoxes env o bs bs') (hx : FirstBox bs t x) (hx' : FirstBox bs' t x') :
    AlikeBox env o (ascii t) x.payload (ascii t) x'.payload := by
  obtain ⟨a, z, rfl, h1, h2⟩ := hx
  obtain ⟨a', z', rfl, h1', h2'⟩ := hx'
  have := alike_first ht h1 h1' h h2 h2'
  rwa [h1, h1'] at this

/-- A valid SIZ segment has the length that belongs to its number of components. -/
theorem siz_length {fmt : Format} {b siz : Bytes} {k : Option Nat} {n : Nat} (h : SegAt b 2 SIZ siz k)
    (hs : SizOk fmt siz) (hn : uint siz 36 2 = some n) : siz.length = 38 + 3 * n := by
  obtain ⟨m, hm, h1, -, ⟨L, hL, hL'⟩, hc⟩ := hs.2.2.2.2.2.2.2.2.2
  rw [hn] at hm
  cases hm
  have lo : 38 + 3 * n ≤ siz.length := by
    obtain ⟨-, -, v, hv, -⟩ := hc (n - 1) (by omega)
    have := uint_some_le hv
    omega
  have hi : siz.length ≤ 38 + 3 * n := by
    generalize hsz : SIZ = m at h
    cases h with
    | alone => rw [uint] at hL; simp at hL
    | @seg M _ hM =>
      rw [uint_sub (by have := uint_some_le hL; rw [length_sub] at this; omega) (by decide)] at hL
      rw [show 2 + 2 + 0 = 2 + 2 from rfl, hM] at hL
      cases hL
      rw [length_sub]; omega
    | noLength => rw [uint] at hL; simp at hL
  omega

theorem parts_mainHeader {env : Env} {o : Options} {b : Bytes} {p : CodestreamParts} (h : p.Ok env o b) :
    MainHeader b p.siz p.csiz p.main p.sot := ⟨⟨p.first, h.sizAt, h.mainAt⟩, h.csiz⟩

theorem parts_length {env : Env} {o : Options} {b : Bytes} {p : CodestreamParts} (h : p.Ok env o b) :
    p.siz.length = 38 + 3 * p.csiz := by
  obtain ⟨k, hk⟩ := h.sizPasses
  exact siz_length h.sizAt ((C26_siz_partial env o k none p.siz).1 hk).1 h.csiz

theorem AlikeHeaders.siz_eq {o o' : Options} {env : Env} {b b' : Bytes} {p p' : CodestreamParts} (hp : p.Ok env o b)
    (hp' : p'.Ok env o b')
    (h : AlikeHeaders env o' b b' p.siz p'.siz p.csiz p'.csiz p.main p'.main p.sot p'.sot) : p.siz = p'.siz :=
  h.size.siz rfl p.csiz hp.csiz (parts_length hp) (by rw [h.components]; exact parts_length hp')

theorem success_of_verdict {env : Env} {me : MixEnv} {fs : FS} {fuel : Nat} {o : Options} {mix : Nat} {path : PyStr}
    {rep : Elem} (h : checkOneFile env me fs fuel o mix path = .ok rep) (hv : verdict rep = some (.str "True")) :
    status rep "success" = [.str "True"] := by
  obtain ⟨info, an, m, g1, g2, g3, rfl⟩ := checkOneFile_ok.1 h
  rw [verdict_eq (fileInfo_tag g1)] at hv
  rcases analyse_cases g2 with ⟨b, fmm, q, -, -, rfl⟩ | ⟨e, -, rfl⟩
  · unfold status
    rw [(report_parts (fileInfo_tag g1)).2.1]
    simp [analysisOf, Elem.node, Elem.leaf, boolStr, Elem.children, Elem.tag, Elem.text]
  · simp [analysisFailed, boolStr] at hv

/-- C79 (valid JP2 and JPH files): two files that are reported valid with the same properties have the same image
header box and the same SIZ segment, byte for byte: the same size, tiling, number of components, and for every component
the same sign, bit depth and sampling. -/
theorem C79_image {env : Env} (hsane : Sane env) {me me' : MixEnv} {fs fs' : FS} {fuel fuel' : Nat} {o : Options}
    {mix mix' : Nat} {path path' : PyStr} (hfmt : o.format = .jp2 ∨ o.format = .jph) {rep rep' : Elem}
    (h : checkOneFile env me fs fuel o mix path = .ok rep) (hv : verdict rep = some (.str "True"))
    (h' : checkOneFile env me' fs' fuel' o mix' path' = .ok rep') (hv' : verdict rep' = some (.str "True"))
    (he : contents rep "properties" = contents rep' "properties") :
    (∀ hs ih hs' ih', HeaderOf (bytesRead (fs.read path)) hs ih → HeaderOf (bytesRead (fs'.read path')) hs' ih' →
      ih = ih') ∧
    ∀ cs cs' siz siz', CodestreamOf (bytesRead (fs.read path)) cs → CodestreamOf (bytesRead (fs'.read path')) cs' →
      SizOf cs siz → SizOf cs' siz' → siz = siz' := by
  have valid := reported_fileValid ⟨rep, h, hv⟩
  have valid' := reported_fileValid ⟨rep', h', hv'⟩
  obtain ⟨l, hl⟩ := (C17_layout env o _ hfmt).1 valid
  obtain ⟨l', hl'⟩ := (C17_layout env o _ hfmt).1 valid'
  have alike := C79_file hsane hfmt h (success_of_verdict h hv) h' (success_of_verdict h' hv') he hl.boxes hl'.boxes
  have inBox : ∀ {t : String} {bs : List FoundBox} {x : FoundBox}, FirstBox bs t x → x ∈ bs ∧ x.type = ascii t := by
    rintro t bs x ⟨a, z, rfl, h1, -⟩
    exact ⟨by simp, h1⟩
  constructor
  · rintro hs ih hs' ih' ⟨bs, hd, x, hb, f1, b1, f2, rfl⟩ ⟨bs', hd', x', hb', f1', b1', f2', rfl⟩
    obtain rfl := boxes_unique hb hl.boxes
    obtain rfl := boxes_unique hb' hl'.boxes
    have a := firstBox_alike (by decide +kernel) alike f1 f1'
    have fourteen : ∀ {b : Bytes} {l : Layout} {hd x : FoundBox} {hs : List FoundBox}, l.Ok (BoxPasses env o) b →
        FirstBox (l.sig :: l.ft :: l.rest) "jp2h" hd → Boxes hd.payload hs → FirstBox hs "ihdr" x →
        x.payload.length = 14 := by
      intro b l hd x hs hl f1 b1 f2
      obtain ⟨k1, k2⟩ := inBox f1
      have hh := hl.passes hd k1
      rw [k2] at hh
      obtain ⟨i, r, hb, hp, -⟩ := (C18_header env o hd.payload).1 hh
      obtain rfl := boxes_unique hb b1
      obtain ⟨k3, k4⟩ := inBox f2
      have := hp x k3
      rw [k4] at this
      exact ((passes_of fun fuel => C19_ihdr_accepted env o fuel x.payload).1 this).1
    generalize hu : ascii "jp2h" = u at a
    cases a with
    | unknown h _ => rw [← hu] at h; exact absurd (by decide +kernel) h
    | leaf _ h _ _ => rw [← hu] at h; exact absurd (by decide +kernel) h
    | codestream h _ => rw [← hu] at h; exact absurd h (by decide +kernel)
    | super _ c1 c2 c3 =>
      obtain rfl := boxes_unique c1 b1
      obtain rfl := boxes_unique c2 b1'
      have a := firstBox_alike (t := "ihdr") (by decide +kernel) c3 f2 f2'
      generalize hw : ascii "ihdr" = w at a
      cases a with
      | unknown h _ => rw [← hw] at h; exact absurd (by decide +kernel) h
      | leaf _ _ _ h => exact (h.ihdr hw.symm).2 (fourteen hl f1 b1 f2) (fourteen hl' f1' b1' f2')
      | codestream h _ => rw [← hw] at h; exact absurd h (by decide +kernel)
      | super h _ _ _ => rw [← hw] at h; exact absurd h (by decide +kernel)
  · rintro cs cs' siz siz' ⟨bs, x, hb, f1, rfl⟩ ⟨bs', x', hb', f1', rfl⟩ ⟨s1, k, s2⟩ ⟨s1', k', s2'⟩
    obtain rfl := boxes_unique hb hl.boxes
    obtain rfl := boxes_unique hb' hl'.boxes
    have a := firstBox_alike (by decide +kernel) alike f1 f1'
    have parts : ∀ {b : Bytes} {l : Layout} {x : FoundBox}, l.Ok (BoxPasses env o) b →
        FirstBox (l.sig :: l.ft :: l.rest) "jp2c" x → ∃ p : CodestreamParts, p.Ok env o x.payload := by
      intro b l x hl f1
      obtain ⟨k1, k2⟩ := inBox f1
      have hc := hl.passes x k1
      rw [k2] at hc
      exact (C23_codestream env o x.payload).1 (passes_cs hc)
    obtain ⟨p, hp⟩ := parts hl f1
    obtain ⟨p', hp'⟩ := parts hl' f1'
    obtain ⟨-, rfl, -⟩ := segAt_unique hp.sizAt s2
    obtain ⟨-, rfl, -⟩ := segAt_unique hp'.sizAt s2'
    generalize hu : ascii "jp2c" = u at a
    cases a with
    | unknown h _ => rw [← hu] at h; exact absurd (by decide +kernel) h
    | leaf _ _ h _ => exact absurd hu.symm h
    | codestream _ h =>
      exact AlikeHeaders.siz_eq hp hp' (h _ _ _ _ _ _ _ _ s1 s1' (parts_mainHeader hp) (parts_mainHeader hp'))
    | super h _ _ _ => rw [← hu] at h; exact absurd h (by decide +kernel)

/-- C79 (valid codestream files): the same SIZ segment, and the same tile-parts in the same order. -/
theorem C79_codestream {env : Env} (hsane : Sane env) {me me' : MixEnv} {fs fs' : FS} {fuel fuel' : Nat} {o : Options}
    {mix mix' : Nat} {path path' : PyStr} (hfmt : o.format = .j2c ∨ o.format = .jhc) {rep rep' : Elem}
    (h : checkOneFile env me fs fuel o mix path = .ok rep) (hv : verdict rep = some (.str "True"))
    (h' : checkOneFile env me' fs' fuel' o mix' path' = .ok rep') (hv' : verdict rep' = some (.str "True"))
    (he : contents rep "properties" = contents rep' "properties") :
    ∃ p p' : CodestreamParts, p.Ok env o (bytesRead (fs.read path)) ∧ p'.Ok env o (bytesRead (fs'.read path')) ∧
      p.siz = p'.siz ∧
      AlikeSegs env o.format p.csiz (shownSegs o mainSegments p.main) (shownSegs o mainSegments p'.main) ∧
      (p.sot.isSome → p'.sot.isSome →
        AlikeTileParts env o p.csiz (bytesRead (fs.read path)) (bytesRead (fs'.read path')) p.tps p'.tps) := by
  obtain ⟨p, hp⟩ := (C23_codestream env o _).1 ((C23_file env o _ hfmt).1 (reported_fileValid ⟨rep, h, hv⟩))
  obtain ⟨p', hp'⟩ := (C23_codestream env o _).1 ((C23_file env o _ hfmt).1 (reported_fileValid ⟨rep', h', hv'⟩))
  have a := C79_bare hsane hfmt h (success_of_verdict h hv) h' (success_of_verdict h' hv') he hp.soc
    (parts_mainHeader hp) hp'.soc (parts_mainHeader hp')
  have es := AlikeHeaders.siz_eq hp hp' a
  refine ⟨p, p', hp, hp', es, a.segs, ?_⟩
  intro k k'
  have v := hp.visited
  have v' := hp'.visited
  obtain ⟨j, hj⟩ := Option.isSome_iff_exists.1 k
  obtain ⟨j', hj'⟩ := Option.isSome_iff_exists.1 k'
  rw [hj] at v
  rw [hj'] at v'
  simp only at v v'
  obtain ⟨q, hq⟩ := hp.sizPasses
  have sok := ((C26_siz_partial env o q none p.siz).1 hq).1
  have ht : p'.tiles = p.tiles := by
    have t' := hp'.tiles
    rw [← es] at t'
    exact tileCount_unique sok.2.2.2.2.2.1 sok.2.2.2.2.2.2.1 t' hp.tiles
  rw [ht] at v'
  exact a.tileParts sok.2.2.2.2.2.1 sok.2.2.2.2.2.2.1 _ _ _ _ _ hp.tiles hj hj' v v'

/-! ## Instances, and what the report does not tell -/

/- Equality of elements as a test. -/
mutual
/-- Two elements. -/
def equalElem : Elem → Elem → Bool
  | .mk t a x c l, .mk t' a' x' c' l' => t == t' && a == a' && x == x' && l == l' && equalElems c c'
/-- Two lists of elements. -/
def equalElems : List Elem → List Elem → Bool
  | [], [] => true
  | e :: es, e' :: es' => equalElem e e' && equalElems es es'
  | _, _ => false
end

mutual
theorem equalElem_eq : ∀ {e e' : Elem}, equalElem e e' = true → e = e'
  | .mk t a x c l, .mk t' a' x' c' l', h => by
    simp only [equalElem, Bool.and_eq_true, beq_iff_eq] at h
    obtain ⟨⟨⟨⟨rfl, rfl⟩, rfl⟩, rfl⟩, h⟩ := h
    rw [equalElems_eq h]
theorem equalElems_eq : ∀ {es es' : List Elem}, equalElems es es' = true → es = es'
  | [], [], _ => rfl
  | [], _ :: _, h => by cases h
  | _ :: _, [], h => by cases h
  | e :: es, e' :: es', h => by
    simp only [equalElems, Bool.and_eq_true] at h
    rw [equalElem_eq h.1, equalElems_eq h.2]
end

/-- Whether two analyses end with the verdict "valid" and the same properties. -/
def sameProperties (x y : Outcome Elem) : Bool :=
  match x, y with
  | .ok r, .ok r' => verdict r == some (.str "True") && verdict r' == some (.str "True") &&
      equalElems (contents r "properties") (contents r' "properties")
  | _, _ => false

theorem sameProperties_ok {x y : Outcome Elem} (h : sameProperties x y = true) : ∃ r r', x = .ok r ∧ y = .ok r' ∧
    verdict r = some (.str "True") ∧ verdict r' = some (.str "True") ∧
    contents r "properties" = contents r' "properties" := by
  unfold sameProperties at h
  split at h
  · simp only [Bool.and_eq_true, beq_iff_eq] at h
    exact ⟨_, _, rfl, rfl, h.1.1, h.1.2, equalElems_eq h.2⟩
  · cases h

/-- Codestreams of a 1 × 1 image that differ in bits of the COD segment: the top five bits of the coding style and the
top two bits of the code block style. -/
def csStyle (scod style : UInt8) : Bytes :=
  [0xff, 0x4f] ++ Sample.siz1 ++ [0xff, 0x52] ++ Sample.be16 12 ++ [scod, 0, 0, 1, 0, 0, 4, 4, style, 0] ++
    Sample.qcdSeg ++ Sample.tilePart 0 0 1 [] ++ [0xff, 0xd9]

/-- The hypotheses of `C79_image` can be met by two different files: they differ in the contents of a box of
unknown type. -/
example : ∃ rep rep', checkOneFile Sample.env0 Sample.me0 (Sample.fs0 (Sample.jp2 ++ Sample.box "abcd" [1]))
      200 (Sample.opts .jp2) 0 [97] = .ok rep ∧
    checkOneFile Sample.env0 Sample.me0 (Sample.fs0 (Sample.jp2 ++ Sample.box "abcd" [2])) 200 (Sample.opts .jp2) 0 [97] = .ok rep' ∧
    verdict rep = some (.str "True") ∧ verdict rep' = some (.str "True") ∧
    contents rep "properties" = contents rep' "properties" :=
  sameProperties_ok (by decide +kernel)

/-- Packet lengths of one and of two bytes. -/
example : ShortPackets [[0x85, 3], [7]] := by
  intro e he
  simp only [List.mem_cons, List.not_mem_nil, or_false] at he
  rcases he with rfl | rfl
  · exact ⟨⟨[0x85], 3, rfl, by decide, by decide⟩, by decide⟩
  · exact ⟨⟨[], 7, rfl, by decide, by decide⟩, by decide⟩

/-- The report does not tell everything that is stored in a header: two codestreams that are valid, with the same
properties, and that differ in reserved bits of their COD segments. -/
theorem C79_reserved : ∃ rep rep', csStyle 0 0 ≠ csStyle 0xf8 0xc0 ∧
    checkOneFile Sample.env0 Sample.me0 (Sample.fs0 (csStyle 0 0)) 200 (Sample.opts .j2c) 0 [97] = .ok rep ∧
    checkOneFile Sample.env0 Sample.me0 (Sample.fs0 (csStyle 0xf8 0xc0)) 200 (Sample.opts .j2c) 0 [97] = .ok rep' ∧
    verdict rep = some (.str "True") ∧ verdict rep' = some (.str "True") ∧
    contents rep "properties" = contents rep' "properties" := by
  obtain ⟨rep, rep', h⟩ := sameProperties_ok (x := checkOneFile Sample.env0 Sample.me0 (Sample.fs0 (csStyle 0 0)) 200 (Sample.opts .j2c) 0 [97])
    (y := checkOneFile Sample.env0 Sample.me0 (Sample.fs0 (csStyle 0xf8 0xc0)) 200 (Sample.opts .j2c) 0 [97]) (by decide +kernel)
  exact ⟨rep, rep', by decide +kernel, h⟩

end Jpy
