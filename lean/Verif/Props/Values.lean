import Verif.Lemmas.Box
import Verif.Spec.Report
import Verif.Model.Readable
import Verif.Model.CheckFile
/-! # Properties of conversions and post-processing: C15, C40, C47, C49 -/

set_option linter.unusedSimpArgs false

namespace Jpy
open Spec

/-- C15: the 8-, 4-, 2- and 1-byte conversions give the big-endian value exactly when the width is
right, and -9999 otherwise. -/
theorem C15_unsigned (b : Bytes) :
    (bytesToULongLong b = if b.length = 8 then (be b : Int) else -9999) ∧
    (bytesToUInt b = if b.length = 4 then (be b : Int) else -9999) ∧
    (bytesToUShortInt b = if b.length = 2 then (be b : Int) else -9999) ∧
    (bytesToUnsignedChar b = if b.length = 1 then (be b : Int) else -9999) := by
  simp only [bytesToULongLong, bytesToUInt, bytesToUShortInt, bytesToUnsignedChar, doConv, beNat_eq]
  exact ⟨trivial, trivial, trivial, trivial⟩

/-- C15: the sentinel is returned exactly for wrong widths, and decoded values lie in the range of the
type. -/
theorem C15_sentinel (b : Bytes) :
    (bytesToULongLong b = -9999 ↔ b.length ≠ 8) ∧ (bytesToUInt b = -9999 ↔ b.length ≠ 4) ∧
    (bytesToUShortInt b = -9999 ↔ b.length ≠ 2) ∧ (bytesToUnsignedChar b = -9999 ↔ b.length ≠ 1) ∧
    (bytesToSignedChar b = -9999 ↔ b.length ≠ 1) ∧ (bytesToInteger b = -9999 ↔ b = []) := by
  obtain ⟨h1, h2, h3, h4⟩ := C15_unsigned b
  rw [h1, h2, h3, h4]
  refine ⟨?_, ?_, ?_, ?_, ?_, ?_⟩
  · split <;> omega
  · split <;> omega
  · split <;> omega
  · split <;> omega
  · match b with
    | [] => simp [bytesToSignedChar]
    | [x] => have := x.toNat_lt; simp only [bytesToSignedChar]; split <;> simp <;> omega
    | x :: y :: l => simp [bytesToSignedChar]
  · unfold bytesToInteger
    split
    · simp [*]
    · simp [*]

/-- C15: decoded values lie in the range of the type. -/
theorem C15_range (b : Bytes) :
    (b.length = 8 → 0 ≤ bytesToULongLong b ∧ bytesToULongLong b < 2 ^ 64) ∧
    (b.length = 4 → 0 ≤ bytesToUInt b ∧ bytesToUInt b < 2 ^ 32) ∧
    (b.length = 2 → 0 ≤ bytesToUShortInt b ∧ bytesToUShortInt b < 2 ^ 16) ∧
    (b.length = 1 → 0 ≤ bytesToUnsignedChar b ∧ bytesToUnsignedChar b < 2 ^ 8) := by
  obtain ⟨h1, h2, h3, h4⟩ := C15_unsigned b
  have := be_lt b
  rw [h1, h2, h3, h4]
  refine ⟨?_, ?_, ?_, ?_⟩ <;> intro h <;> rw [h] at this <;> rw [if_pos h] <;> omega

/-- C15: the signed conversion is two's complement of one byte. -/
theorem C15_signed (x : UInt8) :
    -128 ≤ bytesToSignedChar [x] ∧ bytesToSignedChar [x] ≤ 127 ∧
      (bytesToSignedChar [x] - x.toNat) % 256 = 0 := by
  have := x.toNat_lt
  simp only [bytesToSignedChar]
  split <;> omega

/-- C15: the arbitrary-width conversion gives the big-endian value of any non-empty string. -/
theorem C15_integer (b : Bytes) (h : b ≠ []) : bytesToInteger b = be b := by
  rw [bytesToInteger, if_neg h, beNat_eq]

example : bytesToUShortInt [0x27, 0x0f] = 9999 ∧ bytesToUShortInt [1] = -9999 := by decide

/-! ## C49 -/

theorem consecutive_iff : ∀ l : List Nat, consecutive l = true ↔
    ∀ i, i + 1 < l.length → l[i + 1]? = (l[i]?).map (· + 1)
  | [] => by simp [consecutive]
  | [_] => by simp [consecutive]
  | a :: b :: l => by
    unfold consecutive
    have ih := consecutive_iff (b :: l)
    constructor
    · intro h
      split at h
      · cases h
      · rename_i hab
        intro i hi
        cases i with
        | zero => simp; omega
        | succ i => simpa using ih.1 h i (by simpa using hi)
    · intro h
      have h0 := h 0 (by simp)
      simp at h0
      rw [if_neg (by omega)]
      exact ih.2 fun i hi => by simpa using h (i + 1) (by simp at hi ⊢; omega)

/-- A strictly increasing list with unit steps contains everything between two members. -/
theorem consecutive_between : ∀ l : List Nat, l.Pairwise (· < ·) →
    (consecutive l = true ↔ ∀ i j k, i ∈ l → k ∈ l → i < j → j < k → j ∈ l)
  | [], _ => by simp [consecutive]
  | [a], _ => by simp [consecutive]; intro _ _ _ h1 h2; omega
  | a :: b :: l, hp => by
    have hp' := (List.pairwise_cons.1 hp).2
    have hab : a < b := (List.pairwise_cons.1 hp).1 b (by simp)
    have hb : ∀ x ∈ l, b < x := fun x hx => (List.pairwise_cons.1 hp').1 x hx
    have ih := consecutive_between (b :: l) hp'
    unfold consecutive
    constructor
    · intro h
      split at h
      · cases h
      · rename_i hd
        intro i j k hi hk h1 h2
        rw [List.mem_cons] at hi hk
        have hk' : k ∈ b :: l := by
          rcases hk with rfl | hk
          · rcases hi with rfl | hi
            · omega
            · rcases List.mem_cons.1 hi with rfl | hi
              · omega
              · have := hb i hi; omega
          · exact hk
        rcases hi with rfl | hi
        · by_cases hj : j = b
          · simp [hj]
          · exact List.mem_cons_of_mem _ (ih.1 h b j k (by simp) hk' (by omega) h2)
        · exact List.mem_cons_of_mem _ (ih.1 h i j k hi hk' h1 h2)
    · intro h
      rw [if_neg]
      · refine ih.2 fun i j k hi hk h1 h2 => ?_
        have := h i j k (List.mem_cons_of_mem _ hi) (List.mem_cons_of_mem _ hk) h1 h2
        rcases List.mem_cons.1 this with rfl | hj
        · rcases List.mem_cons.1 hi with rfl | hi
          · omega
          · have := hb i hi; omega
        · exact hj
      · intro hd
        have := h a (a + 1) b (by simp) (by simp) (by omega) (by omega)
        rcases List.mem_cons.1 this with h | h
        · omega
        · rcases List.mem_cons.1 h with h | h
          · omega
          · have := hb _ h; omega

/-- C49: the contiguity check is true exactly when the list is other values, then a run of the value,
then other values. -/
theorem C49_contiguous {α : Type} [DecidableEq α] (l : List α) (v : α) :
    listOccurrencesAreContiguous l v = true ↔
      ∃ a n c, l = a ++ List.replicate n v ++ c ∧ v ∉ a ∧ v ∉ c := by
  unfold listOccurrencesAreContiguous
  rw [consecutive_between _ ((List.pairwise_lt_range).filter _)]
  simp only [List.mem_filter, List.mem_range, beq_iff_eq]
  constructor
  · intro h
    have h' : ∀ i j k : Nat, l[i]? = some v → l[k]? = some v → i < j → j < k → l[j]? = some v := by
      intro i j k hi hk h1 h2
      have hil : i < l.length := (List.getElem?_eq_some_iff.1 hi).1
      have hkl : k < l.length := (List.getElem?_eq_some_iff.1 hk).1
      exact (h i j k ⟨hil, hi⟩ ⟨hkl, hk⟩ h1 h2).2
    clear h
    induction l with
    | nil => exact ⟨[], 0, [], rfl, by simp, by simp⟩
    | cons x l ih =>
      obtain ⟨a, n, c, rfl, ha, hc⟩ := ih fun i j k hi hk h1 h2 => by
        have := h' (i + 1) (j + 1) (k + 1) (by simpa using hi) (by simpa using hk) (by omega) (by omega)
        simpa using this
      by_cases hx : x = v
      · subst hx
        cases n with
        | zero =>
          refine ⟨[], 1, a ++ c, by simp, by simp, by simp [ha, hc]⟩
        | succ n =>
          cases a with
          | nil => exact ⟨[], n + 2, c, by simp [List.replicate_succ], by simp, hc⟩
          | cons y a =>
            exfalso
            have := h' 0 1 (a.length + 2) (by simp)
              (by
                rw [List.cons_append, List.cons_append, List.getElem?_cons_succ,
                  List.getElem?_cons_succ, List.append_assoc, List.getElem?_append_right (by omega)]
                simp [List.replicate_succ]) (by omega) (by omega)
            simp at this
            simp [this] at ha
      · exact ⟨x :: a, n, c, by simp, by simp [ha, Ne.symm hx], hc⟩
  · rintro ⟨a, n, c, rfl, ha, hc⟩
    have hmem : ∀ i, (a ++ List.replicate n v ++ c)[i]? = some v ↔ a.length ≤ i ∧ i < a.length + n := by
      intro i
      rw [List.append_assoc]
      by_cases h1 : i < a.length
      · rw [List.getElem?_append_left h1]
        constructor
        · intro h; exact absurd (List.mem_of_getElem? h) ha
        · intro h; omega
      · rw [List.getElem?_append_right (by omega)]
        by_cases h2 : i - a.length < n
        · rw [List.getElem?_append_left (by simpa using h2), List.getElem?_replicate, if_pos h2]
          simp; omega
        · rw [List.getElem?_append_right (by simpa using Nat.le_of_not_lt h2)]
          constructor
          · intro h; exact absurd (List.mem_of_getElem? h) hc
          · intro h; omega
    intro i j k hi hk h1 h2
    rw [hmem] at hi hk ⊢
    simp at hi hk ⊢
    omega

example : listOccurrencesAreContiguous [1, 2, 2, 3] 2 = true ∧
    listOccurrencesAreContiguous [2, 1, 2] 2 = false := by decide

/-! ## C47 -/

theorem utf8EncodeNat_char (n : Nat) (h : isSurrogate n = false) (h2 : n < 0x110000) :
    (utf8EncodeNat n).map UInt8.toNat = utf8Of (Char.ofNat n) := by
  have hv : n < 0xD800 ∨ (0xDFFF < n ∧ n < 0x110000) := by
    simp [isSurrogate] at h; omega
  rw [utf8Of_ofNat hv]
  unfold utf8EncodeNat
  have e : ∀ m, m < 256 → (UInt8.ofNat m).toNat = m := fun m hm => by
    simp [Nat.mod_eq_of_lt hm]
  split
  · simp only [List.map_cons, List.map_nil]; rw [e _ (by omega)]
  · split
    · simp only [List.map_cons, List.map_nil]; rw [e _ (by omega), e _ (by omega)]
    · split
      · simp only [List.map_cons, List.map_nil]; rw [e _ (by omega), e _ (by omega), e _ (by omega)]
      · simp only [List.map_cons, List.map_nil]
        rw [e _ (by omega), e _ (by omega), e _ (by omega), e _ (by omega)]

/-- C47: every surrogate is replaced by a question mark and every other code point is kept. -/
theorem C47_strip (s : PyStr) (hs : ∀ n ∈ s, n < 0x110000) :
    stripSurrogatePairs s = s.map fun n => if 0xD800 ≤ n ∧ n ≤ 0xDFFF then 0x3F else n := by
  have hd : ∀ n, isSurrogate n = true ↔ (0xD800 ≤ n ∧ n ≤ 0xDFFF) := by
    intro n; simp [isSurrogate]; omega
  unfold stripSurrogatePairs encodeStrict
  by_cases h : s.any isSurrogate = true
  · rw [if_pos h]
    show decodeIgnore (encodeReplace s) = _
    have key : IsUtf8 (encodeReplace s)
        (s.map fun n => Char.ofNat (if 0xD800 ≤ n ∧ n ≤ 0xDFFF then 0x3F else n)) := by
      unfold IsUtf8 encodeReplace
      rw [List.map_flatMap, List.flatMap_map]
      simp only [List.flatMap]
      congr 1
      apply List.map_congr_left
      intro n hn
      by_cases hsu : isSurrogate n = true
      · rw [if_pos hsu, if_pos ((hd n).1 hsu)]; decide
      · rw [if_neg hsu, if_neg (fun h => hsu ((hd n).2 h)),
          utf8EncodeNat_char n (by simpa using hsu) (hs n hn)]
    unfold decodeIgnore
    rw [utf8Decode_complete _ _ key]
    simp only [List.map_map]
    apply List.map_congr_left
    intro n hn
    simp only [Function.comp]
    have := hs n hn
    apply toNat_ofNat
    unfold Nat.isValidChar
    split <;> omega
  · rw [if_neg h]
    show s = _
    have : ∀ n ∈ s, (if 0xD800 ≤ n ∧ n ≤ 0xDFFF then 0x3F else n) = n := by
      intro n hn
      rw [if_neg]
      intro hc
      exact h (List.any_eq_true.2 ⟨n, hn, (hd n).2 hc⟩)
    rw [List.map_congr_left this, List.map_id']

/-- C47: the result has no surrogates, so encoding it succeeds. -/
theorem C47_encodable (s : PyStr) (hs : ∀ n ∈ s, n < 0x110000) :
    (encodeStrict (stripSurrogatePairs s)).isSome = true := by
  rw [C47_strip s hs]
  unfold encodeStrict
  rw [if_neg]
  · rfl
  · simp [isSurrogate]
    intro n _
    split <;> omega

/-- C47: names without surrogates are untouched. -/
theorem C47_untouched (s : PyStr) (hs : ∀ n ∈ s, ¬ (0xD800 ≤ n ∧ n ≤ 0xDFFF)) :
    stripSurrogatePairs s = s := by
  unfold stripSurrogatePairs encodeStrict
  rw [if_neg]
  simp [isSurrogate]
  intro n hn h
  have := hs n hn
  omega

example : stripSurrogatePairs [0x61, 0xDC80, 0x20AC] = [0x61, 0x3F, 0x20AC] := by decide

/-! ## C40 -/

theorem digit_ascii {ch : Char} (h : ch.isDigit = true) : 32 ≤ ch.toNat ∧ ch.toNat ≤ 126 := by
  simp [Char.isDigit] at h
  have h1 := UInt32.le_iff_toNat_le.1 h.1
  have h2 := UInt32.le_iff_toNat_le.1 h.2
  simp at h1 h2
  omega

theorem natStr_ascii (n : Nat) : ∀ ch ∈ n.repr.toList, 32 ≤ ch.toNat ∧ ch.toNat ≤ 126 := by
  intro ch h
  rw [Nat.repr_eq_ofList_toDigits] at h
  simp at h
  exact digit_ascii (Nat.isDigit_of_mem_toDigits (by decide) (by decide) h)

theorem intStr_ascii (i : Int) : ∀ ch ∈ (toString i).toList, 32 ≤ ch.toNat ∧ ch.toNat ≤ 126 := by
  rw [Int.toString_eq_repr]
  cases i with
  | ofNat n => exact natStr_ascii n
  | negSucc n =>
    intro ch h
    unfold Int.repr at h
    simp only [String.toList_append, List.mem_append] at h
    rcases h with h | h
    · simp at h; subst h; decide
    · exact natStr_ascii _ ch h

theorem printable_ascii {env : Env} (hs : Sane env) {s : String}
    (h : ∀ ch ∈ s.toList, 32 ≤ ch.toNat ∧ ch.toNat ≤ 126) : Printable env s := by
  intro ch hch hc
  have := h ch hch
  rw [hs.ascii ch this.1 this.2] at hc
  cases hc

theorem shown_eq (env : Env) (cs : List Char) :
    String.ofList (removeControlCharacters env.catC cs) = shown env cs := rfl

theorem printable_shown (env : Env) (cs : List Char) : Printable env (shown env cs) := by
  intro ch h hc
  simp [shown, hc] at h
  rcases h.2 with (h | h) | h <;> simp [h]

theorem shown_printable {env : Env} {s : String} (h : Printable env s) : shown env s.toList = s := by
  have : (s.toList.filter fun ch => !env.catC ch || ch == '\t' || ch == '\n' || ch == '\r') = s.toList := by
    rw [List.filter_eq_self]
    intro ch hch
    cases hc : env.catC ch with
    | false => simp
    | true => rcases h ch hch hc with h | h | h <;> simp [h]
  rw [shown, this]
  simp

/-- What post-processing produces: nothing or printable text. -/
theorem printable_shape {env : Env} (hs : Sane env) (v : PyVal) :
    printable env v = .none ∨ ∃ s, printable env v = .str s ∧ Printable env s := by
  cases v with
  | none => exact .inl rfl
  | bool b => exact .inr ⟨_, rfl, printable_ascii hs (by cases b <;> decide)⟩
  | int i => exact .inr ⟨_, rfl, printable_ascii hs (intStr_ascii i)⟩
  | bytes b =>
    refine .inr ⟨_, rfl, ?_⟩
    unfold bytesToText
    split
    · exact printable_shown env _
    · intro ch h; simp at h
  | str s => exact .inr ⟨_, rfl, printable_shown env _⟩
  | flt f => exact .inr ⟨_, rfl, printable_ascii hs (hs.float f)⟩

mutual
theorem within_readable {env tbl} {d : Elem} : ∀ {e : Elem}, Within d (makeHumanReadable env tbl e) →
    ∃ t v, d.text = readableText env tbl t v
  | .mk t a x cs lt, h => by
    rw [makeHumanReadable, within_mk] at h
    rcases h with rfl | ⟨c, hc, h⟩
    · exact ⟨t, x, rfl⟩
    · exact within_readableL hc h
theorem within_readableL {env tbl} {d c : Elem} : ∀ {cs : List Elem}, c ∈ makeHumanReadableL env tbl cs →
    Within d c → ∃ t v, d.text = readableText env tbl t v
  | [], h, _ => by simp [makeHumanReadableL] at h
  | e :: es, h, hw => by
    rw [makeHumanReadableL, List.mem_cons] at h
    rcases h with rfl | h
    · exact within_readable hw
    · exact within_readableL h hw
end

/-- C40: after post-processing every text in the tree is absent or printable. -/
theorem C40_printable (env : Env) (hs : Sane env) (tbl : RemapTable) (e d : Elem)
    (h : Within d (makeHumanReadable env tbl e)) :
    d.text = .none ∨ ∃ s, d.text = .str s ∧ Printable env s := by
  obtain ⟨t, v, h⟩ := within_readable h
  rw [h]
  exact printable_shape hs _

theorem lookup_of_mem_ne_str {m : List (PyVal × String)} (h : ∀ p ∈ m, ∀ s, p.1 ≠ .str s) (s : String) :
    m.lookup (.str s) = none := by
  induction m with
  | nil => rfl
  | cons p m ih =>
    obtain ⟨k, d⟩ := p
    have : (PyVal.str s == k) = false := by
      simpa using fun e => h (k, d) (by simp) s e.symm
    rw [List.lookup_cons, this]
    exact ih fun q hq => h q (by simp [hq])

/-- The values described in the remap table are numbers or bytes, never text. -/
theorem remapTable_keys : ∀ p ∈ remapTable, ∀ q ∈ p.2, (match q.1 with | .int _ | .bytes _ => true | _ => false)
    = true := by decide +kernel

theorem remapped_str (tbl : RemapTable) (ht : tbl = [] ∨ tbl = remapTable) (t s : String) :
    remapped tbl t (.str s) = .str s := by
  rcases ht with rfl | rfl
  · rfl
  · unfold remapped
    cases h : remapTable.lookup t with
    | none => rfl
    | some m =>
      simp only
      rw [lookup_of_mem_ne_str]
      intro p hp s he
      have : (t, m) ∈ remapTable := by
        have := List.lookup_eq_some_iff.1 h
        obtain ⟨l1, l2, h1, -⟩ := this
        rw [h1]; simp
      have := remapTable_keys _ this _ hp
      rw [he] at this
      cases this

theorem remapped_none (tbl : RemapTable) (ht : tbl = [] ∨ tbl = remapTable) (t : String) :
    remapped tbl t .none = .none := by
  rcases ht with rfl | rfl
  · rfl
  · unfold remapped
    cases h : remapTable.lookup t with
    | none => rfl
    | some m =>
      simp only
      cases h2 : m.lookup PyVal.none with
      | none => rfl
      | some d =>
        obtain ⟨l1, l2, h1, -⟩ := List.lookup_eq_some_iff.1 h
        obtain ⟨l3, l4, h3, -⟩ := List.lookup_eq_some_iff.1 h2
        have := remapTable_keys (t, m) (by rw [h1]; simp) (PyVal.none, d) (by simp [h3])
        cases this

theorem readable_stable {env : Env} (hs : Sane env) {tbl : RemapTable} (ht : tbl = [] ∨ tbl = remapTable)
    (t : String) (v : PyVal) : readableText env tbl t (readableText env tbl t v) = readableText env tbl t v := by
  rcases printable_shape hs (remapped tbl t v) with h | ⟨s, h, hp⟩
  · unfold readableText
    rw [h, remapped_none tbl ht]; rfl
  · unfold readableText
    rw [h, remapped_str tbl ht]
    show PyVal.str (shown env s.toList) = _
    rw [shown_printable hp]

mutual
theorem stable_aux {env : Env} (hs : Sane env) {tbl : RemapTable} (ht : tbl = [] ∨ tbl = remapTable) :
    ∀ e : Elem, makeHumanReadable env tbl (makeHumanReadable env tbl e) = makeHumanReadable env tbl e
  | .mk t a x cs lt => by
    rw [makeHumanReadable, makeHumanReadable, readable_stable hs ht, stable_auxL hs ht cs]
theorem stable_auxL {env : Env} (hs : Sane env) {tbl : RemapTable} (ht : tbl = [] ∨ tbl = remapTable) :
    ∀ cs : List Elem, makeHumanReadableL env tbl (makeHumanReadableL env tbl cs) = makeHumanReadableL env tbl cs
  | [] => rfl
  | e :: es => by
    rw [makeHumanReadableL, makeHumanReadableL, stable_aux hs ht e, stable_auxL hs ht es]
end

/-- C40: post-processing again (with the table in use, or none) changes nothing. -/
theorem C40_stable (env : Env) (hs : Sane env) (tbl : RemapTable) (ht : tbl = [] ∨ tbl = remapTable)
    (e : Elem) :
    makeHumanReadable env tbl (makeHumanReadable env tbl e) = makeHumanReadable env tbl e :=
  stable_aux hs ht e

/-- The remap table as triples. -/
def tableTriples (tbl : RemapTable) : List (String × PyVal × String) :=
  tbl.flatMap fun p => p.2.map fun q => (p.1, q.1, q.2)

theorem triples_sub : ∀ x ∈ tableTriples remapTable, x ∈ descriptions := by decide +kernel
theorem triples_sup : ∀ x ∈ descriptions, x ∈ tableTriples remapTable := by decide +kernel
theorem remapTable_nodup : (remapTable.map (·.1)).Nodup := by decide +kernel
theorem remapTable_inner : ∀ p ∈ remapTable, (p.2.map (·.1)).Nodup := by decide +kernel

theorem lookup_iff {α β : Type} [BEq α] [LawfulBEq α] {l : List (α × β)} (h : (l.map (·.1)).Nodup) (a : α) (b : β) :
    l.lookup a = some b ↔ (a, b) ∈ l := by
  induction l with
  | nil => simp
  | cons p l ih =>
    obtain ⟨k, d⟩ := p
    simp only [List.map_cons, List.nodup_cons] at h
    rw [List.lookup_cons, List.mem_cons]
    by_cases hk : (a == k) = true
    · rw [hk]
      simp only [beq_iff_eq] at hk
      subst hk
      simp only [Option.some.injEq, Prod.mk.injEq, true_and]
      constructor
      · rintro rfl; exact .inl rfl
      · rintro (rfl | hm)
        · rfl
        · exact absurd (List.mem_map_of_mem (f := (·.1)) hm) h.1
    · simp only [Bool.not_eq_true] at hk
      rw [hk]
      simp only [beq_eq_false_iff_ne] at hk
      rw [ih h.2]
      simp [hk]

theorem remapped_desc (t : String) (v : PyVal) :
    (∃ s, (t, v, s) ∈ descriptions ∧ remapped remapTable t v = .str s) ∨
    ((∀ s, (t, v, s) ∉ descriptions) ∧ remapped remapTable t v = v) := by
  have hm : ∀ s, (t, v, s) ∈ descriptions ↔ ∃ m, (t, m) ∈ remapTable ∧ (v, s) ∈ m := by
    intro s
    have : (t, v, s) ∈ descriptions ↔ (t, v, s) ∈ tableTriples remapTable :=
      ⟨triples_sup _, triples_sub _⟩
    rw [this, tableTriples]
    simp only [List.mem_flatMap, List.mem_map, Prod.mk.injEq]
    constructor
    · rintro ⟨p, hp, q, hq, rfl, rfl, rfl⟩; exact ⟨p.2, hp, hq⟩
    · rintro ⟨m, h1, h2⟩; exact ⟨(t, m), h1, (v, s), h2, rfl, rfl, rfl⟩
  unfold remapped
  cases h : remapTable.lookup t with
  | none =>
    refine .inr ⟨fun s hs => ?_, rfl⟩
    obtain ⟨m, h1, -⟩ := (hm s).1 hs
    rw [(lookup_iff remapTable_nodup t m).2 h1] at h
    cases h
  | some m =>
    have h1 := (lookup_iff remapTable_nodup t m).1 h
    have hn := remapTable_inner _ h1
    simp only
    cases h2 : m.lookup v with
    | none =>
      refine .inr ⟨fun s hs => ?_, rfl⟩
      obtain ⟨m', h3, h4⟩ := (hm s).1 hs
      have := (lookup_iff remapTable_nodup t m').2 h3
      rw [h] at this
      cases this
      rw [(lookup_iff hn v s).2 h4] at h2
      cases h2
    | some s => exact .inl ⟨s, (hm s).2 ⟨m, h1, (lookup_iff hn v s).1 h2⟩, rfl⟩

theorem descriptions_ascii : ∀ x ∈ descriptions, ∀ ch ∈ x.2.2.toList, 32 ≤ ch.toNat ∧ ch.toNat ≤ 126 := by
  decide +kernel

theorem shownAs_plain {env : Env} {ds} {t : String} {v : PyVal} (h : ∀ s, (t, v, s) ∉ ds) :
    ShownAs env ds t v (printable env v) := by
  cases v with
  | none => exact .absent
  | bool b => cases b <;> first | exact .true h | exact .false h
  | int i => exact .int h
  | flt f => exact .float h
  | str s => exact .text h
  | bytes b =>
    show ShownAs env ds t (.bytes b) (.str (bytesToText env.catC b))
    unfold bytesToText
    split
    · rename_i cs hd; exact .utf8 h ((utf8Decode_iff _ _).1 hd)
    · rename_i hd
      refine .binary h fun cs hc => ?_
      rw [(utf8Decode_iff _ _).2 hc] at hd
      cases hd

theorem shownAs_props {env : Env} (hs : Sane env) (t : String) (v : PyVal) :
    ShownAs env descriptions t v (readableText env remapTable t v) := by
  unfold readableText
  rcases remapped_desc t v with ⟨s, h, e⟩ | ⟨h, e⟩
  · rw [e]
    have : printable env (.str s) = .str s := by
      show PyVal.str (shown env s.toList) = _
      rw [shown_printable (printable_ascii hs (descriptions_ascii _ h))]
    rw [this]
    exact .described h
  · rw [e]; exact shownAs_plain h

theorem readableL_eq (env tbl) (cs : List Elem) :
    makeHumanReadableL env tbl cs = cs.map (makeHumanReadable env tbl) := by
  induction cs with
  | nil => rfl
  | cons e es ih => rw [makeHumanReadableL, ih, List.map_cons]

theorem rendered_of {env ds tbl} (h : ∀ t v, ShownAs env ds t v (readableText env tbl t v)) :
    ∀ e : Elem, Rendered env ds e (makeHumanReadable env tbl e)
  | .mk t a x cs lt => by
    rw [makeHumanReadable, readableL_eq]
    refine .mk (h t x) (by simp) fun i hi hi' => ?_
    rw [List.getElem_map]
    have : cs[i] ∈ cs := List.getElem_mem hi
    have : sizeOf cs[i] < sizeOf cs := List.sizeOf_lt_of_mem this
    exact rendered_of h cs[i]
termination_by e => sizeOf e

/-- C40: in the properties every described value is replaced by its description, every other value is
shown unchanged, and the tree is otherwise the same. -/
theorem C40_properties (env : Env) (hs : Sane env) (e : Elem) :
    Rendered env descriptions e (makeHumanReadable env remapTable e) :=
  rendered_of (shownAs_props hs) e

/-- C40: in tests and warnings no description applies. -/
theorem C40_tests (env : Env) (e : Elem) : Rendered env [] e (makeHumanReadable env [] e) :=
  rendered_of (fun t v => shownAs_plain (v := remapped [] t v) (by simp)) e

/-- C40: a value has at most one description. -/
theorem C40_descriptions_unique (t : String) (v : PyVal) (s s' : String)
    (h : (t, v, s) ∈ descriptions) (h' : (t, v, s') ∈ descriptions) : s = s' := by
  have key : ∀ x ∈ descriptions, ∀ y ∈ descriptions, x.1 = y.1 → x.2.1 = y.2.1 → x.2.2 = y.2.2 := by
    decide +kernel
  exact key _ h _ h' rfl rfl

/-- The hypotheses on the externals are satisfiable. -/
example : Sane { parseXml := fun _ => none, catC := fun ch => ch.toNat < 32 || ch.toNat == 127,
                 floatStr := fun _ => "0.5" } :=
  ⟨fun ch h1 h2 => by simp; omega, fun _ => by show ∀ ch ∈ "0.5".toList, _; decide⟩

/-- C40 is about the texts of elements. Attributes of elements and texts between them, which only embedded XML has, are
shown as they are. -/
theorem C40_elsewhere (env : Env) (tbl : RemapTable) (e : Elem) :
    (makeHumanReadable env tbl e).attrs = e.attrs ∧ (makeHumanReadable env tbl e).tail = e.tail := by
  cases e; exact ⟨rfl, rfl⟩

/-- Control characters in attributes of embedded XML and between its elements stay: an element with the text, an
attribute and the following text `U+0085`, of which only the text is cleaned. -/
theorem C40_elsewhere_false : ∃ env, Sane env ∧ env.catC '\u0085' = true ∧
    makeHumanReadable env [] (.mk "a" [("k", "\u0085")] (.str "\u0085") [] "\u0085") =
      .mk "a" [("k", "\u0085")] (.str "") [] "\u0085" := by
  refine ⟨{ parseXml := fun _ => none, catC := fun ch => ch.toNat < 32 || ch.toNat == 127 || ch.toNat == 0x85,
            floatStr := fun _ => "0.5" }, ⟨fun ch h1 h2 => ?_, fun _ => ?_⟩, by decide, ?_⟩
  · simp; omega
  · show ∀ ch ∈ "0.5".toList, _; decide
  · rw [makeHumanReadable, makeHumanReadableL]
    congr 1

end Jpy
