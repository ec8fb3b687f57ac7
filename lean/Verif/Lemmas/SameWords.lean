import Verif.Lemmas.SameText
import Verif.Spec.Packets
/-! # Lemmas about texts that are put together from numbers -/

set_option linter.unusedSimpArgs false

namespace Jpy
open Spec

theorem splitFirst_inj {α : Type} {x : α} : ∀ {a a' r r' : List α}, a ++ x :: r = a' ++ x :: r' → x ∉ a → x ∉ a' →
    a = a' ∧ r = r'
  | [], [], _, _, h, _, _ => ⟨rfl, (List.cons.inj h).2⟩
  | [], y :: a', _, _, h, _, h2 => by
    have := (List.cons.inj h).1
    exact absurd (this ▸ List.mem_cons_self ..) h2
  | y :: a, [], _, _, h, h1, _ => by
    have := (List.cons.inj h).1
    exact absurd (this ▸ List.mem_cons_self ..) h1
  | y :: a, y' :: a', _, _, h, h1, h2 => by
    obtain ⟨e, h⟩ := List.cons.inj h
    obtain ⟨e1, e2⟩ := splitFirst_inj h (fun hh => h1 (List.mem_cons_of_mem _ hh)) (fun hh => h2 (List.mem_cons_of_mem _ hh))
    exact ⟨by rw [e, e1], e2⟩

theorem join_cons {x : Char} (w v : List Char) (r : List (List Char)) :
    [x].intercalate (w :: v :: r) = w ++ x :: [x].intercalate (v :: r) := by
  simp [List.intercalate]

theorem join_one {x : Char} (w : List Char) : [x].intercalate [w] = w := by simp [List.intercalate]

/-- Words without the separator can be read off from the joined text. -/
theorem join_inj {x : Char} : ∀ {l l' : List (List Char)}, (∀ w ∈ l, x ∉ w ∧ w ≠ []) → (∀ w ∈ l', x ∉ w ∧ w ≠ []) →
    [x].intercalate l = [x].intercalate l' → l = l'
  | [], [], _, _, _ => rfl
  | [], [w], _, h', h => by
    rw [join_one] at h
    exact absurd h.symm (h' w (by simp)).2
  | [], w :: v :: r, _, _, h => by
    rw [join_cons] at h
    have := congrArg List.length h
    simp [List.intercalate] at this
  | [w], [], h0, _, h => by
    rw [join_one] at h
    exact absurd h (h0 w (by simp)).2
  | w :: v :: r, [], _, _, h => by
    rw [join_cons] at h
    have := congrArg List.length h
    simp [List.intercalate] at this
  | [w], [w'], _, _, h => by rw [join_one, join_one] at h; rw [h]
  | [w], w' :: v' :: r', h0, _, h => by
    rw [join_one, join_cons] at h
    exact absurd (by rw [h]; simp) (h0 w (by simp)).1
  | w :: v :: r, [w'], _, h', h => by
    rw [join_one, join_cons] at h
    exact absurd (by rw [← h]; simp) (h' w' (by simp)).1
  | w :: v :: r, w' :: v' :: r', h0, h', h => by
    rw [join_cons, join_cons] at h
    obtain ⟨e1, e2⟩ := splitFirst_inj h (h0 w (by simp)).1 (h' w' (by simp)).1
    rw [e1, join_inj (fun y hy => h0 y (List.mem_cons_of_mem _ hy)) (fun y hy => h' y (List.mem_cons_of_mem _ hy)) e2]

theorem upperHex_inj : ∀ m < 16, ∀ n < 16, upperHex m = upperHex n → m = n := by decide +kernel

theorem upperHex_ascii : ∀ n < 16, 32 ≤ (upperHex n).toNat ∧ (upperHex n).toNat ≤ 126 ∧ upperHex n ≠ ',' := by decide +kernel

theorem hexWord_length : ∀ w n, (hexWord w n).length = w
  | 0, _ => rfl
  | w + 1, n => by rw [hexWord, List.length_append, hexWord_length w]; rfl

theorem hexWord_inj : ∀ {w n n'}, n < 16 ^ w → n' < 16 ^ w → hexWord w n = hexWord w n' → n = n'
  | 0, n, n', h, h', _ => by simp at h h'; omega
  | w + 1, n, n', h, h', e => by
    rw [hexWord, hexWord] at e
    obtain ⟨e1, e2⟩ := List.append_inj' e rfl
    rw [Nat.pow_succ] at h h'
    have f1 := hexWord_inj (Nat.div_lt_of_lt_mul (by omega)) (Nat.div_lt_of_lt_mul (by omega)) e1
    have f2 := upperHex_inj _ (Nat.mod_lt _ (by decide)) _ (Nat.mod_lt _ (by decide)) (List.cons.inj e2).1
    omega

theorem hexWord_chars : ∀ w n, ∀ ch ∈ hexWord w n, 32 ≤ ch.toNat ∧ ch.toNat ≤ 126 ∧ ch ≠ ','
  | 0, _, ch, h => by cases h
  | w + 1, n, ch, h => by
    rw [hexWord] at h
    rcases List.mem_append.1 h with h | h
    · exact hexWord_chars w _ ch h
    · rw [List.mem_singleton] at h
      subst h
      exact upperHex_ascii _ (Nat.mod_lt _ (by decide))

theorem base128_lt : ∀ e : Bytes, base128 e < 128 ^ e.length
  | [] => by simp [base128]
  | x :: xs => by
    rw [base128, List.length_cons, Nat.pow_succ]
    have := base128_lt xs
    have h : x.toNat % 128 ≤ 127 := by omega
    have := Nat.mul_le_mul_right (128 ^ xs.length) h
    omega

theorem base128_digits : ∀ {e e' : Bytes}, e.length = e'.length → base128 e = base128 e' →
    ∀ i (h : i < e.length) (h' : i < e'.length), e[i].toNat % 128 = e'[i].toNat % 128
  | [], _, _, _, i, h, _ => by cases h
  | x :: xs, [], hl, _, _, _, _ => by cases hl
  | x :: xs, y :: ys, hl, hv, i, h, h' => by
    have hl : xs.length = ys.length := by simpa using hl
    rw [base128, base128, ← hl] at hv
    have l1 := base128_lt xs
    have l2 := base128_lt ys
    rw [← hl] at l2
    generalize hp : 128 ^ xs.length = P at hv l1 l2
    have hP : 0 < P := by rw [← hp]; exact Nat.pow_pos (by decide)
    have q1 : (x.toNat % 128 * P + base128 xs) / P = x.toNat % 128 := by
      rw [Nat.mul_comm, Nat.mul_add_div hP, Nat.div_eq_of_lt l1, Nat.add_zero]
    have q2 : (y.toNat % 128 * P + base128 ys) / P = y.toNat % 128 := by
      rw [Nat.mul_comm, Nat.mul_add_div hP, Nat.div_eq_of_lt l2, Nat.add_zero]
    have q : x.toNat % 128 = y.toNat % 128 := by rw [← q1, ← q2, hv]
    cases i with
    | zero => exact q
    | succ i =>
      rw [q] at hv
      exact base128_digits hl (by omega) i (by simpa using h) (by simpa using h')

/-- The encoding of a packet length is determined by its number of bytes and its value. -/
theorem packetLength_inj {e e' : Bytes} (he : PacketLength e) (he' : PacketLength e') (hl : e.length = e'.length)
    (hv : base128 e = base128 e') : e = e' := by
  have key := base128_digits hl hv
  obtain ⟨a, z, rfl, ha, hz⟩ := he
  obtain ⟨a', z', rfl, ha', hz'⟩ := he'
  have hla : a.length = a'.length := by simpa using hl
  refine List.ext_getElem hl fun i hi hi' => ?_
  have k := key i hi hi'
  refine UInt8.toNat_inj.1 ?_
  rcases Nat.lt_or_ge i a.length with h | h
  · rw [List.getElem_append_left h, List.getElem_append_left (by omega)] at k ⊢
    have k1 := ha _ (List.getElem_mem h)
    have k2 := ha' _ (List.getElem_mem (l := a') (n := i) (by omega))
    have := (a[i]).toNat_lt
    have := (a'[i]'(by omega)).toNat_lt
    omega
  · rw [List.getElem_append_right h, List.getElem_append_right (by omega)] at k ⊢
    simp only [List.getElem_singleton] at k ⊢
    omega

theorem hexList_toList (l : List (Nat × Nat)) :
    (hexList l).toList = [','].intercalate (l.map fun x => hexWord (2 * x.1) x.2) := by
  unfold hexList
  rw [String.toList_intercalate, List.map_map]
  have e : (String.toList ∘ fun x : Nat × Nat => String.ofList (hexWord (2 * x.1) x.2)) = fun x => hexWord (2 * x.1) x.2 := by
    funext x
    exact String.toList_ofList
  rw [e]
  rfl

/-- The packet lengths can be read off from the reported list. -/
theorem hexList_inj {ps ps' : List Bytes} (h : ∀ e ∈ ps, PacketLength e) (h' : ∀ e ∈ ps', PacketLength e)
    (he : hexList (ps.map fun e => (e.length, base128 e)) = hexList (ps'.map fun e => (e.length, base128 e))) : ps = ps' := by
  have e := congrArg String.toList he
  rw [hexList_toList, hexList_toList, List.map_map, List.map_map] at e
  have pos : ∀ {e : Bytes}, PacketLength e → 0 < e.length := by
    intro e ⟨a, z, h, _⟩; rw [h]; simp
  have words : ∀ {qs : List Bytes}, (∀ e ∈ qs, PacketLength e) →
      ∀ w ∈ qs.map ((fun x => hexWord (2 * x.1) x.2) ∘ fun e => (e.length, base128 e)), ',' ∉ w ∧ w ≠ [] := by
    intro qs hq w hw
    obtain ⟨q, hq1, rfl⟩ := List.mem_map.1 hw
    refine ⟨fun hc => (hexWord_chars _ _ _ hc).2.2 rfl, fun hc => ?_⟩
    have := congrArg List.length hc
    simp only [Function.comp, hexWord_length, List.length_nil] at this
    have := pos (hq q hq1)
    omega
  replace e := join_inj (words h) (words h') e
  clear he words
  induction ps generalizing ps' with
  | nil =>
    cases ps' with
    | nil => rfl
    | cons _ _ => cases e
  | cons q ps ih =>
    cases ps' with
    | nil => cases e
    | cons q' ps' =>
      obtain ⟨e1, e2⟩ := List.cons.inj e
      rw [ih (fun x hx => h x (List.mem_cons_of_mem _ hx)) (fun x hx => h' x (List.mem_cons_of_mem _ hx)) e2]
      have e1 : hexWord (2 * q.length) (base128 q) = hexWord (2 * q'.length) (base128 q') := e1
      have hl := congrArg List.length e1
      rw [hexWord_length, hexWord_length] at hl
      have hl : q.length = q'.length := by omega
      rw [← hl] at e1
      have bound : ∀ x : Bytes, base128 x < 16 ^ (2 * x.length) := by
        intro x
        refine Nat.lt_of_lt_of_le (base128_lt x) ?_
        rw [Nat.pow_mul]
        exact Nat.pow_le_pow_left (by decide) _
      have hv := hexWord_inj (bound q) (by have := bound q'; rwa [← hl] at this) e1
      rw [packetLength_inj (h q (by simp)) (h' q' (by simp)) hl hv]

theorem join_plain {env : Env} (hs : Sane env) (l : List (Nat × Nat)) : ∀ ch ∈ (hexList l).toList, TextChar env.catC ch := by
  have key : ∀ ws : List (List Char), (∀ w ∈ ws, ∀ ch ∈ w, TextChar env.catC ch) →
      ∀ ch ∈ [','].intercalate ws, TextChar env.catC ch := by
    intro ws
    induction ws with
    | nil => intro _ ch hc; simp [List.intercalate] at hc
    | cons w ws ih =>
      intro hw ch hc
      cases ws with
      | nil => rw [join_one] at hc; exact hw w (by simp) ch hc
      | cons v r =>
        rw [join_cons] at hc
        rcases List.mem_append.1 hc with hc | hc
        · exact hw w (by simp) ch hc
        · rcases List.mem_cons.1 hc with rfl | hc
          · exact sane_text hs (by decide) (by decide)
          · exact ih (fun y hy => hw y (List.mem_cons_of_mem _ hy)) ch hc
  rw [hexList_toList]
  refine key _ ?_
  intro w hw ch hc
  obtain ⟨x, -, rfl⟩ := List.mem_map.1 hw
  have := hexWord_chars _ _ ch hc
  exact sane_text hs this.1 this.2.1

/-! ## Versions and dates -/

theorem toString_no {n : Nat} {x : Char} (hx : x.isDigit = false) : x ∉ (toString n).toList := by
  intro h
  have := isDigit_repr (n := n) h
  rw [hx] at this
  cases this

theorem toString_nat_inj {m n : Nat} (h : (toString m).toList = (toString n).toList) : m = n :=
  Nat.repr_injective (String.toList_inj.1 h)

theorem iccVersion_inj {a b a' b' : Nat} (h : iccVersion a b = iccVersion a' b') : a = a' ∧ b = b' := by
  have e := congrArg String.toList h
  unfold iccVersion at e
  simp only [String.toList_append, List.append_assoc] at e
  have dot : (".".toList : List Char) = ['.'] := rfl
  rw [dot] at e
  simp only [List.singleton_append] at e
  obtain ⟨e1, e⟩ := splitFirst_inj e (toString_no rfl) (toString_no rfl)
  obtain ⟨e2, e3⟩ := splitFirst_inj e (toString_no rfl) (toString_no rfl)
  have f1 := toString_nat_inj e1
  have f2 := toString_nat_inj e2
  have f3 := toString_nat_inj e3
  omega

theorem twoDigits_chars {n : Nat} {ch : Char} (h : ch ∈ (twoDigits n).toList) : ch.isDigit = true := by
  unfold twoDigits at h
  rw [String.toList_append] at h
  rcases List.mem_append.1 h with h | h
  · split at h
    · have : ch = '0' := by simpa using h
      rw [this]; rfl
    · simp at h
  · exact isDigit_repr (n := n) h

theorem twoDigits_inj : ∀ {m n : Nat}, m < 256 → n < 256 → (twoDigits m).toList = (twoDigits n).toList → m = n := by
  have key : ∀ n : Fin 256, (twoDigits n.val).toList.foldl (fun a ch => 10 * a + (ch.toNat - 48)) 0 = n.val := by decide +kernel
  intro m n hm hn h
  have a := key ⟨m, hm⟩
  have b := key ⟨n, hn⟩
  simp only at a b
  rw [h] at a
  omega

theorem iccDateTime_inj {y mo d h mi s y' mo' d' h' mi' s' : Nat} (l1 : mo < 256) (l2 : d < 256) (l3 : h < 256) (l4 : mi < 256)
    (l5 : s < 256) (l1' : mo' < 256) (l2' : d' < 256) (l3' : h' < 256) (l4' : mi' < 256) (l5' : s' < 256)
    (e : iccDateTime y mo d h mi s = iccDateTime y' mo' d' h' mi' s') :
    y = y' ∧ mo = mo' ∧ d = d' ∧ h = h' ∧ mi = mi' ∧ s = s' := by
  have e := congrArg String.toList e
  unfold iccDateTime at e
  simp only [String.toList_append, List.append_assoc] at e
  have t1 : ("/".toList : List Char) = ['/'] := rfl
  have t2 : (":".toList : List Char) = [':'] := rfl
  have t3 : (", ".toList : List Char) = [',', ' '] := rfl
  rw [t1, t2, t3] at e
  simp only [List.singleton_append, List.cons_append, List.nil_append] at e
  have no : ∀ {n : Nat} {x : Char}, x.isDigit = false → x ∉ (twoDigits n).toList := by
    intro n x hx hh
    have := twoDigits_chars hh
    rw [hx] at this; cases this
  obtain ⟨e1, e⟩ := splitFirst_inj e (toString_no rfl) (toString_no rfl)
  obtain ⟨e2, e⟩ := splitFirst_inj e (no rfl) (no rfl)
  obtain ⟨e3, e⟩ := splitFirst_inj e (no rfl) (no rfl)
  obtain ⟨-, e⟩ := List.cons.inj e
  obtain ⟨e4, e⟩ := splitFirst_inj e (no rfl) (no rfl)
  obtain ⟨e5, e6⟩ := splitFirst_inj e (no rfl) (no rfl)
  exact ⟨toString_nat_inj e1, twoDigits_inj l1 l1' e2, twoDigits_inj l2 l2' e3, twoDigits_inj l3 l3' e4,
    twoDigits_inj l4 l4' e5, twoDigits_inj l5 l5' e6⟩

theorem toString_plain {env : Env} (hs : Sane env) {n : Nat} {ch : Char} (h : ch ∈ (toString n).toList) : TextChar env.catC ch :=
  have := digit_ascii (isDigit_repr (n := n) h)
  sane_text hs this.1 this.2

theorem iccVersion_plain {env : Env} (hs : Sane env) (a b : Nat) : ∀ ch ∈ (iccVersion a b).toList, TextChar env.catC ch := by
  intro ch h
  unfold iccVersion at h
  have dot : (".".toList : List Char) = ['.'] := rfl
  have t : TextChar env.catC '.' := sane_text hs (by decide) (by decide)
  simp only [String.toList_append, List.mem_append, dot, List.mem_singleton] at h
  rcases h with (((h | rfl) | h) | rfl) | h
  · exact toString_plain hs h
  · exact t
  · exact toString_plain hs h
  · exact t
  · exact toString_plain hs h

theorem iccDateTime_plain {env : Env} (hs : Sane env) (y mo d h mi s : Nat) :
    ∀ ch ∈ (iccDateTime y mo d h mi s).toList, TextChar env.catC ch := by
  intro ch hc
  unfold iccDateTime at hc
  have t1 : ("/".toList : List Char) = ['/'] := rfl
  have t2 : (":".toList : List Char) = [':'] := rfl
  have t3 : (", ".toList : List Char) = [',', ' '] := rfl
  have two : ∀ {n : Nat}, ch ∈ (twoDigits n).toList → TextChar env.catC ch := by
    intro n h
    have := digit_ascii (twoDigits_chars h)
    exact sane_text hs this.1 this.2
  have c1 : TextChar env.catC '/' := sane_text hs (by decide) (by decide)
  have c2 : TextChar env.catC ':' := sane_text hs (by decide) (by decide)
  have c3 : TextChar env.catC ',' := sane_text hs (by decide) (by decide)
  have c4 : TextChar env.catC ' ' := sane_text hs (by decide) (by decide)
  simp only [String.toList_append, List.mem_append, t1, t2, t3, List.mem_singleton, List.mem_cons, List.not_mem_nil, or_false] at hc
  rcases hc with (((((((((hc | rfl) | hc) | rfl) | hc) | rfl | rfl) | hc) | rfl) | hc) | rfl) | hc
  · exact toString_plain hs hc
  · exact c1
  · exact two hc
  · exact c1
  · exact two hc
  · exact c3
  · exact c4
  · exact two hc
  · exact c2
  · exact two hc
  · exact c2
  · exact two hc

/-- A reported text without control characters is the same. -/
theorem Same.word {env : Env} {es es' : List Elem} (h : Same env es es') {t a b : String} (ht : ∀ d ∈ descriptions, d.1 ≠ t)
    (ha : ∀ ch ∈ a.toList, TextChar env.catC ch) (hb : ∀ ch ∈ b.toList, TextChar env.catC ch)
    (h1 : valuesOf es t = [.str a]) (h2 : valuesOf es' t = [.str b]) : a = b := by
  obtain ⟨z, z1, z2⟩ := h.text1 (t := t) (i := 0) (by rw [h1]; rfl) (by rw [h2]; rfl)
  exact shown_text_inj ht ha hb z1 z2

/-- Fields that are the same make bytes that are the same. -/
theorem sub_ext {c c' : Bytes} {o n : Nat} (h : ∀ i, o ≤ i → i < o + n → c[i]? = c'[i]?) : sub c o n = sub c' o n := by
  refine List.ext_getElem? fun i => ?_
  unfold sub
  rw [List.getElem?_take, List.getElem?_take]
  split
  · rw [List.getElem?_drop, List.getElem?_drop]
    exact h _ (by omega) (by omega)
  · rfl

end Jpy
