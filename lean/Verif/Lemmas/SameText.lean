import Verif.Lemmas.Same
import Verif.Lemmas.Uuid
import Verif.Props.Interrupted
/-! # Lemmas about texts that are shown in the same way -/

set_option linter.unusedSimpArgs false

namespace Jpy
open Spec

theorem shown_plain {env : Env} {cs : List Char} (h : ∀ ch ∈ cs, TextChar env.catC ch) : shown env cs = String.ofList cs := by
  unfold shown
  rw [List.filter_eq_self.2]
  intro ch hc
  rcases h ch hc with h | h | h | h <;> simp [h]

/-- A text can be read off from what is shown. -/
theorem shown_text_inj {env : Env} {t a b : String} {v : PyVal} (ht : ∀ d ∈ descriptions, d.1 ≠ t)
    (ha : ∀ ch ∈ a.toList, TextChar env.catC ch) (hb : ∀ ch ∈ b.toList, TextChar env.catC ch)
    (h : ShownAs env descriptions t (.str a) v) (h' : ShownAs env descriptions t (.str b) v) : a = b := by
  have one : ∀ {x : String}, (∀ ch ∈ x.toList, TextChar env.catC ch) → ShownAs env descriptions t (.str x) v → v = .str x := by
    intro x hx h
    generalize e : PyVal.str x = y at h
    cases h with
    | described hm => exact absurd rfl (ht _ hm)
    | text _ => cases e; rw [shown_plain hx, String.ofList_toList]
    | _ => cases e
  exact PyVal.str.inj ((one ha h).symm.trans (one hb h'))

/-- Descriptions of byte strings are longer than four characters. -/
theorem description_long : ∀ d ∈ descriptions, 4 < d.2.2.toList.length ∨ ∀ b, d.2.1 ≠ .bytes b := by
  have key : ∀ d ∈ descriptions, (decide (4 < d.2.2.toList.length) ||
      match d.2.1 with | .bytes _ => false | _ => true) = true := by decide +kernel
  intro d hd
  rcases Bool.or_eq_true_iff.1 (key d hd) with h | h
  · exact .inl (of_decide_eq_true h)
  · right
    intro b e
    rw [e] at h
    cases h

theorem utf8Of_ne_nil (ch : Char) : 1 ≤ (utf8Of ch).length := by
  unfold utf8Of
  dsimp only
  split <;> (try split) <;> (try split) <;> simp

theorem utf8_length {b : Bytes} {cs : List Char} (h : IsUtf8 b cs) : cs.length ≤ b.length := by
  unfold IsUtf8 at h
  rw [← List.length_map (f := UInt8.toNat) (as := b), h]
  clear h
  induction cs with
  | nil => simp
  | cons c cs ih =>
    rw [List.flatMap_cons, List.length_append, List.length_cons]
    have := utf8Of_ne_nil c
    omega

theorem utf8_fun {b : Bytes} {cs cs' : List Char} (h : IsUtf8 b cs) (h' : IsUtf8 b cs') : cs = cs' := by
  have := (utf8Decode_iff b cs).2 h
  rw [(utf8Decode_iff b cs').2 h'] at this
  exact (Option.some.inj this).symm

/-- Bytes that are text can be read off from what is shown. -/
theorem shown_bytes_inj {env : Env} {t : String} {a b : Bytes} {v : PyVal}
    (hl : (∀ d ∈ descriptions, d.1 ≠ t) ∨ (a.length ≤ 4 ∧ b.length ≤ 4))
    (h : ShownAs env descriptions t (.bytes a) v) (h' : ShownAs env descriptions t (.bytes b) v) : AlikeText env a b := by
  intro ⟨ca, ua, ta⟩ ⟨cb, ub, tb⟩
  have one : ∀ {x : Bytes} {cx : List Char}, IsUtf8 x cx → (∀ ch ∈ cx, TextChar env.catC ch) →
      ((∀ d ∈ descriptions, d.1 ≠ t) ∨ x.length ≤ 4) → ShownAs env descriptions t (.bytes x) v →
      (∃ s, v = .str s ∧ (t, .bytes x, s) ∈ descriptions ∧ 4 < s.toList.length) ∨
      (v = .str (String.ofList cx) ∧ ((∀ d ∈ descriptions, d.1 ≠ t) ∨ cx.length ≤ 4)) := by
    intro x cx ux tx lx h
    generalize e : PyVal.bytes x = y at h
    cases h with
    | described hm =>
      rcases description_long _ hm with k | k
      · exact .inl ⟨_, rfl, e ▸ hm, k⟩
      · exact absurd e.symm (k _)
    | utf8 _ u =>
      cases e
      right
      rw [utf8_fun u ux, shown_plain tx]
      refine ⟨rfl, ?_⟩
      rcases lx with lx | lx
      · exact .inl lx
      · exact .inr (Nat.le_trans (utf8_length ux) lx)
    | binary _ u => cases e; exact absurd ux (u _)
    | _ => cases e
  rcases one ua ta (hl.imp id (·.1)) h with ⟨s, e1, m1, k1⟩ | ⟨e1, k1⟩ <;>
    rcases one ub tb (hl.imp id (·.2)) h' with ⟨s', e2, m2, k2⟩ | ⟨e2, k2⟩
  · rw [e1] at e2
    cases PyVal.str.inj e2
    exact PyVal.bytes.inj (description_inj m1 m2)
  · rw [e1] at e2
    cases PyVal.str.inj e2
    rcases k2 with k2 | k2
    · exact absurd rfl (k2 _ m1)
    · rw [String.toList_ofList] at k1; omega
  · rw [e2] at e1
    cases PyVal.str.inj e1
    rcases k1 with k1 | k1
    · exact absurd rfl (k1 _ m2)
    · rw [String.toList_ofList] at k2; omega
  · rw [e1] at e2
    have := String.ofList_injective (PyVal.str.inj e2)
    subst this
    exact utf8_unique ua ub

/-! ## Hexadecimal -/

theorem sane_text {env : Env} (hs : Sane env) {ch : Char} (h1 : 32 ≤ ch.toNat) (h2 : ch.toNat ≤ 126) : TextChar env.catC ch :=
  .inl (hs.ascii ch h1 h2)

/-- Printable ASCII is text. -/
theorem ascii_plain {env : Env} (hs : Sane env) {b : Bytes} (h : ∀ x ∈ b, 32 ≤ x.toNat ∧ x.toNat ≤ 126) : PlainText env b := by
  refine ⟨b.map fun x => Char.ofNat x.toNat, ?_, ?_⟩
  · unfold IsUtf8
    induction b with
    | nil => rfl
    | cons x b ih =>
      rw [List.map_cons, List.map_cons, List.flatMap_cons, ih fun y hy => h y (List.mem_cons_of_mem _ hy)]
      have hx := h x (List.mem_cons_self ..)
      have e : (Char.ofNat x.toNat).toNat = x.toNat := toNat_ofNat (Or.inl (by omega))
      have : utf8Of (Char.ofNat x.toNat) = [x.toNat] := by
        unfold utf8Of
        rw [e]
        exact if_pos (by omega)
      rw [this]
      rfl
  · intro ch hc
    obtain ⟨x, hx, rfl⟩ := List.mem_map.1 hc
    have hx := h x hx
    have e : (Char.ofNat x.toNat).toNat = x.toNat := toNat_ofNat (Or.inl (by omega))
    exact sane_text hs (by omega) (by omega)

theorem hexDigits_inj : ∀ m < 16, ∀ n < 16, hexDigits[m]? = hexDigits[n]? → m = n := by decide +kernel

theorem isHex_unique {b h h' : Bytes} (h1 : IsHex b h) (h2 : IsHex b h') : h = h' := by
  refine List.ext_getElem? fun i => ?_
  rcases Nat.lt_or_ge (i / 2) b.length with hi | hi
  · obtain ⟨e1, e2⟩ := h1.2 (i / 2) _ (List.getElem?_eq_getElem hi)
    obtain ⟨e3, e4⟩ := h2.2 (i / 2) _ (List.getElem?_eq_getElem hi)
    have : i = 2 * (i / 2) ∨ i = 2 * (i / 2) + 1 := by omega
    rcases this with k | k <;> rw [k]
    · rw [e1, e3]
    · rw [e2, e4]
  · rw [List.getElem?_eq_none (by rw [h1.1]; omega), List.getElem?_eq_none (by rw [h2.1]; omega)]

theorem isHex_inj {b b' h : Bytes} (h1 : IsHex b h) (h2 : IsHex b' h) : b = b' := by
  have hl : b.length = b'.length := by have := h1.1; have := h2.1; omega
  refine List.ext_getElem hl fun i hi hi' => ?_
  obtain ⟨e1, e2⟩ := h1.2 i _ (List.getElem?_eq_getElem hi)
  obtain ⟨e3, e4⟩ := h2.2 i _ (List.getElem?_eq_getElem hi')
  have l1 := (b[i]).toNat_lt
  have l2 := (b'[i]).toNat_lt
  have f1 := hexDigits_inj _ (by omega) _ (by omega) (e1.symm.trans e3)
  have f2 := hexDigits_inj _ (by omega) _ (by omega) (e2.symm.trans e4)
  exact UInt8.toNat_inj.1 (by omega)

theorem isHex_ascii {b h : Bytes} (h1 : IsHex b h) : ∀ x ∈ h, 32 ≤ x.toNat ∧ x.toNat ≤ 126 := by
  have key : ∀ n < 16, ∃ d, hexDigits[n]? = some d ∧ 32 ≤ d.toNat ∧ d.toNat ≤ 126 := by
    have : ∀ n < 16, (match hexDigits[n]? with | some d => decide (32 ≤ d.toNat ∧ d.toNat ≤ 126) | none => false) = true := by
      decide +kernel
    intro n hn
    have := this n hn
    split at this
    · rename_i d hd; exact ⟨d, hd, of_decide_eq_true this⟩
    · cases this
  intro x hx
  obtain ⟨i, hi, rfl⟩ := List.mem_iff_getElem.1 hx
  have hb : i / 2 < b.length := by have := h1.1; omega
  obtain ⟨e1, e2⟩ := h1.2 (i / 2) _ (List.getElem?_eq_getElem hb)
  have l1 := (b[i / 2]).toNat_lt
  have : i = 2 * (i / 2) ∨ i = 2 * (i / 2) + 1 := by omega
  rcases this with k | k
  · rw [← k, List.getElem?_eq_getElem hi] at e1
    obtain ⟨d, hd, hd2⟩ := key (b[i / 2].toNat / 16) (by omega)
    rw [hd] at e1
    rw [Option.some.inj e1]; exact hd2
  · rw [← k, List.getElem?_eq_getElem hi] at e2
    obtain ⟨d, hd, hd2⟩ := key (b[i / 2].toNat % 16) (by omega)
    rw [hd] at e2
    rw [Option.some.inj e2]; exact hd2

theorem isHexText_unique {b : Bytes} {t t' : List Char} (h1 : IsHexText b t) (h2 : IsHexText b t') : t = t' := by
  refine List.ext_getElem? fun i => ?_
  rcases Nat.lt_or_ge (i / 2) b.length with hi | hi
  · obtain ⟨e1, e2⟩ := h1.2 (i / 2) _ (List.getElem?_eq_getElem hi)
    obtain ⟨e3, e4⟩ := h2.2 (i / 2) _ (List.getElem?_eq_getElem hi)
    have : i = 2 * (i / 2) ∨ i = 2 * (i / 2) + 1 := by omega
    rcases this with k | k <;> rw [k]
    · rw [e1, e3]
    · rw [e2, e4]
  · rw [List.getElem?_eq_none (by rw [h1.1]; omega), List.getElem?_eq_none (by rw [h2.1]; omega)]

theorem isUuidText_eq {b : Bytes} (hb : b.length = 16) {s : String} (h : IsUuidText b s) : s = uuidText b := by
  obtain ⟨a1, a2, a3, a4, a5, h1, h2, h3, h4, h5, rfl⟩ := h
  obtain ⟨b1, b2, b3, b4, b5, k1, k2, k3, k4, k5, e⟩ := uuidText_isUuidText hb
  rw [e, isHexText_unique h1 k1, isHexText_unique h2 k2, isHexText_unique h3 k3, isHexText_unique h4 k4,
    isHexText_unique h5 k5]

theorem hexChar_ascii : ∀ n < 16, 32 ≤ (hexChar n).toNat ∧ (hexChar n).toNat ≤ 126 := by decide +kernel

theorem hexChars_ascii : ∀ (b : Bytes), ∀ ch ∈ hexChars b, 32 ≤ ch.toNat ∧ ch.toNat ≤ 126
  | [], ch, h => by rw [hexChars_nil] at h; cases h
  | x :: b, ch, h => by
    rw [hexChars_cons] at h
    have l := x.toNat_lt
    simp only [List.mem_cons] at h
    rcases h with rfl | rfl | h
    · exact hexChar_ascii _ (by omega)
    · exact hexChar_ascii _ (by omega)
    · exact hexChars_ascii b ch h

theorem uuidText_plain {env : Env} (hs : Sane env) (b : Bytes) : ∀ ch ∈ (uuidText b).toList, TextChar env.catC ch := by
  intro ch hc
  unfold uuidText at hc
  rw [String.toList_ofList] at hc
  have : (32 ≤ ch.toNat ∧ ch.toNat ≤ 126) := by
    simp only [List.mem_append, List.mem_cons] at hc
    rcases hc with (((hc | hc) | hc) | hc) | hc
    all_goals first
      | exact hexChars_ascii _ _ hc
      | (rcases hc with rfl | hc
         · decide
         · exact hexChars_ascii _ _ hc)
  exact sane_text hs this.1 this.2

/-! ## Fields -/

theorem Same.text1 {env : Env} {es es' : List Elem} (h : Same env es es') {t : String} {i : Nat} {v v' : PyVal}
    (h1 : (valuesOf es t)[i]? = some v) (h2 : (valuesOf es' t)[i]? = some v') :
    ∃ x, ShownAs env descriptions t v x ∧ ShownAs env descriptions t v' x := (h.values t).2 i v v' h1 h2

theorem Same.nameAt {env : Env} (hs : Sane env) {es es' : List Elem} (h : Same env es es') {c c' : Bytes} {t : String}
    {r : Reads} {i : Nat} {v v' : PyVal} (h1 : (valuesOf es t)[i]? = some v) (h2 : (valuesOf es' t)[i]? = some v')
    (g1 : r.Gives c v) (g2 : r.Gives c' v') (hr : ∀ o n, r = .raw o n → n ≤ 4)
    (hh : ∀ o n, r = .hex o n → ∀ d ∈ descriptions, d.1 ≠ t) : AlikeNames env c c' r := by
  obtain ⟨x, s1, s2⟩ := h.text1 h1 h2
  cases r with
  | raw o n =>
    have hn := hr o n rfl
    have g1 : v = _ := g1
    have g2 : v' = _ := g2
    subst g1 g2
    refine shown_bytes_inj (.inr ⟨?_, ?_⟩) s1 s2 <;> (rw [length_sub]; omega)
  | hex o n =>
    obtain ⟨a, a1, rfl⟩ := g1
    obtain ⟨b, b1, rfl⟩ := g2
    have := shown_bytes_inj (.inl (hh o n rfl)) s1 s2 (ascii_plain hs (isHex_ascii a1)) (ascii_plain hs (isHex_ascii b1))
    subst this
    exact isHex_inj a1 b1
  | _ => trivial

theorem Same.name {env : Env} (hs : Sane env) {es es' : List Elem} (h : Same env es es') {c c' : Bytes} {f : Field}
    (h1 : ShowsField es c f) (h2 : ShowsField es' c' f) (hr : ∀ o n, f.reads = .raw o n → n ≤ 4)
    (hh : ∀ o n, f.reads = .hex o n → ∀ d ∈ descriptions, d.1 ≠ f.tag) : AlikeNames env c c' f.reads := by
  obtain ⟨v, e1, g1⟩ := h1
  obtain ⟨v', e2, g2⟩ := h2
  exact h.nameAt hs (i := 0) (by rw [e1]; rfl) (by rw [e2]; rfl) g1 g2 hr hh

theorem iso885915_inj : ∀ x y : UInt8, iso885915 x = iso885915 y → x = y := by
  have key : ∀ m : Fin 256, ∀ n : Fin 256, iso885915 (UInt8.ofNat m.val) = iso885915 (UInt8.ofNat n.val) → m = n := by
    decide +kernel
  intro x y h
  have := key ⟨x.toNat, x.toNat_lt⟩ ⟨y.toNat, y.toNat_lt⟩ (by
    simp only [UInt8.ofNat_toNat]; exact h)
  exact UInt8.toNat_inj.1 (Fin.mk.inj this)

end Jpy
