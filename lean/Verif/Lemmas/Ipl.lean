import Verif.Spec.Packets
import Verif.Lemmas.Cs
/-! # Packet length lists -/

set_option linter.unusedSimpArgs false

namespace Jpy
open Spec

theorem msb_test {c : Bytes} {i k : Nat} (hk : 1 ≤ k) :
    low (shr (bytesToUnsignedChar (slice c ((i : Int) + (k : Int) - 1) ((i : Int) + (k : Int)))) 7) 1 ≠ 0 ↔
      ∀ x, c[i + k - 1]? = some x → 128 ≤ x.toNat := by
  rw [u8_at c (i + k - 1) (x := (i : Int) + (k : Int) - 1) (y := (i : Int) + (k : Int)) (by omega) (by omega)]
  by_cases h : i + k - 1 < c.length
  · rw [uint_getElem h, List.getElem?_eq_getElem h]
    have h2 := (c[i + k - 1]).toNat_lt
    simp only [intOf, shr_div, low_mod, Option.some.injEq, forall_eq']
    omega
  · rw [List.getElem?_eq_none (by omega)]
    have : uint c (i + k - 1) 1 = none := by unfold uint; rw [if_neg (by omega)]
    rw [this]
    simp only [reduceCtorEq, false_implies, implies_true, iff_true]
    decide

/-- The inner loop stops at the first byte with a clear high bit. -/
theorem iplLen_ok {c : Bytes} {i : Nat} : ∀ {fuel k len : Nat}, 1 ≤ k → iplLen c i fuel k = .ok len →
    k ≤ len ∧ (∃ x, c[i + len - 1]? = some x ∧ x.toNat < 128) ∧
    ∀ j, k ≤ j → j < len → ∀ x, c[i + j - 1]? = some x → 128 ≤ x.toNat
  | 0, _, _, _, h => by cases h
  | fuel + 1, k, len, hk, h => by
    unfold iplLen at h
    split at h
    · rename_i hm
      rw [msb_test hk] at hm
      obtain ⟨h1, h2, h3⟩ := iplLen_ok (by omega) h
      refine ⟨by omega, h2, fun j hj hl => ?_⟩
      by_cases e : j = k
      · subst e; exact hm
      · exact h3 j (by omega) hl
    · rename_i hm
      rw [Classical.not_not] at hm
      cases h
      refine ⟨Nat.le_refl _, ?_, fun j h1 h2 => by omega⟩
      have h2 : ¬ (low (shr (bytesToUnsignedChar (slice c ((i : Int) + (k : Int) - 1) ((i : Int) + (k : Int)))) 7) 1 ≠ 0) := by
        simpa using hm
      rw [msb_test hk] at h2
      simp only [Classical.not_forall] at h2
      obtain ⟨x, hx, h3⟩ := h2
      exact ⟨x, hx, by omega⟩

theorem iplLen_raised {c : Bytes} {i : Nat} {e : Exn} : ∀ {fuel k : Nat}, iplLen c i fuel k ≠ .raised e
  | 0, _ => by unfold iplLen; simp
  | fuel + 1, k => by
    unfold iplLen
    split
    · exact iplLen_raised
    · simp

/-- It stops if there is such a byte. -/
theorem iplLen_exists {c : Bytes} {i : Nat} : ∀ (d : Nat) {k : Nat}, 1 ≤ k →
    (∃ x, c[i + (k + d) - 1]? = some x ∧ x.toNat < 128) → ∀ {fuel}, d < fuel → ∃ len, iplLen c i fuel k = .ok len
  | d, k, hk, h, 0, hf => by omega
  | d, k, hk, h, fuel + 1, hf => by
    unfold iplLen
    split
    · rename_i hm
      rw [msb_test hk] at hm
      cases d with
      | zero =>
        obtain ⟨x, hx, hl⟩ := h
        have := hm x hx
        omega
      | succ d =>
        exact iplLen_exists d (k := k + 1) (by omega)
          (by rw [show i + (k + 1 + d) - 1 = i + (k + (d + 1)) - 1 by omega]; exact h) (by omega)
    · exact ⟨k, rfl⟩

/-- The bytes from `i` on start with an entry. -/
theorem getLast_entry {c : Bytes} {x : UInt8} (h : c.getLast? = some x) : c[c.length - 1]? = some x := by
  rw [← h, List.getLast?_eq_getElem?]

theorem iplLoop_ends {c : Bytes} {l : Int} {x : UInt8} (hx : c.getLast? = some x) (hl : x.toNat < 128) :
    ∀ (n i : Nat), c.length - i ≤ n → ∀ {fuel}, c.length < fuel + i → 0 < fuel →
      ∃ es, iplLoop c l fuel i = .ok es
  | n, i, hn, 0, _, hf => by omega
  | n, i, hn, fuel + 1, hc, _ => by
    unfold iplLoop
    split
    · rename_i h
      have hlast : ∃ x, c[i + (1 + (c.length - i - 1)) - 1]? = some x ∧ x.toNat < 128 :=
        ⟨x, by rw [show i + (1 + (c.length - i - 1)) - 1 = c.length - 1 by omega]; exact getLast_entry hx, hl⟩
      obtain ⟨len, hlen⟩ := iplLen_exists (c.length - i - 1) (Nat.le_refl 1) hlast (fuel := fuel) (by omega)
      obtain ⟨h1, ⟨y, hy, -⟩, -⟩ := iplLen_ok (Nat.le_refl 1) hlen
      have hb : i + len - 1 < c.length := (List.getElem?_eq_some_iff.1 hy).1
      cases n with
      | zero => omega
      | succ n =>
        obtain ⟨es, hes⟩ := iplLoop_ends hx hl n (i + len) (by omega) (fuel := fuel) (by omega) (by omega)
        rw [hlen, Outcome.bind_ok, hes]
        exact ⟨_, rfl⟩
    · exact ⟨_, rfl⟩

theorem iplLoop_hangs {c : Bytes} {l : Int} (hcl : (c.length : Int) ≤ l) {x : UInt8} (hx : c.getLast? = some x)
    (hl : 128 ≤ x.toNat) : ∀ (fuel i : Nat), i < c.length → iplLoop c l fuel i = .timeout
  | 0, _, _ => rfl
  | fuel + 1, i, hi => by
    unfold iplLoop
    rw [if_pos ⟨by omega, hi⟩]
    cases hlen : iplLen c i fuel 1 with
    | timeout => rfl
    | raised e => exact absurd hlen iplLen_raised
    | ok len =>
      obtain ⟨h1, ⟨y, hy, hyl⟩, -⟩ := iplLen_ok (Nat.le_refl 1) hlen
      have hb : i + len - 1 < c.length := (List.getElem?_eq_some_iff.1 hy).1
      have hne : i + len - 1 ≠ c.length - 1 := by
        intro e
        rw [e, getLast_entry hx] at hy
        cases hy; omega
      rw [Outcome.bind_ok, iplLoop_hangs hcl hx hl fuel (i + len) (by omega)]
      rfl

theorem iplLoop_short {c : Bytes} {l : Int} {fuel i : Nat} (h : c.length ≤ i) : iplLoop c l (fuel + 1) i = .ok [] := by
  unfold iplLoop
  rw [if_neg (by omega)]

/-! ## Decoding -/

theorem or_mul128 (a b : Nat) (hb : b < 128) : a * 128 ||| b = a * 128 + b := by
  rw [Nat.mul_comm, show (128 : Nat) = 2 ^ 7 from rfl]
  exact (Nat.two_pow_add_eq_or_of_lt (by simpa using hb) a).symm

theorem or_mod128 (a b : Nat) : (a * 128 ||| b) % 128 = b % 128 := by
  have : (128 : Nat) = 2 ^ 7 := rfl
  rw [this, Nat.or_mod_two_pow, Nat.mul_mod_left, Nat.zero_or]

/-- Value of an entry of two or more bytes: the last two bytes. -/
theorem iplValue_long (c : Bytes) (i n : Nat) (h : (c.getD (i + n + 1) 0).toNat < 128) :
    iplValue c i (n + 2) = (c.getD (i + n) 0).toNat % 128 * 128 + (c.getD (i + n + 1) 0).toNat := by
  unfold iplValue
  rw [show n + 2 - 1 = n + 1 from rfl, List.range_succ, List.foldl_append]
  simp only [List.foldl_cons, List.foldl_nil]
  have key : ∀ n, ((List.range n).foldl
      (fun acc k => ((acc % 128) * 128) ||| (c.getD (i + k + 1) 0).toNat) (c.getD i 0).toNat) % 128 =
      (c.getD (i + n) 0).toNat % 128 := by
    intro n
    cases n with
    | zero => rfl
    | succ n =>
      rw [List.range_succ, List.foldl_append]
      simp only [List.foldl_cons, List.foldl_nil]
      rw [or_mod128]; rfl
  rw [key, or_mul128 _ _ h]

theorem base128_append (a b : Bytes) : base128 (a ++ b) = base128 a * 128 ^ b.length + base128 b := by
  induction a with
  | nil => simp [base128]
  | cons x xs ih =>
    rw [List.cons_append, base128, base128, ih, List.length_append, Nat.pow_add, Nat.add_mul]
    rw [← Nat.mul_assoc, Nat.add_assoc]

theorem base128_mod (init : Bytes) (y z : UInt8) :
    base128 (init ++ [y, z]) % 16384 = y.toNat % 128 * 128 + z.toNat % 128 := by
  rw [base128_append]
  simp only [base128, List.length_cons, List.length_nil]
  omega

/-- The inner loop finds the end of the entry. -/
theorem iplLen_entry {c : Bytes} {i : Nat} {e : Bytes} (he : PacketLength e) {pre post : Bytes}
    (hc : c = pre ++ (e ++ post)) (hi : i = pre.length) {fuel : Nat} (hf : e.length ≤ fuel) :
    iplLen c i fuel 1 = .ok e.length := by
  obtain ⟨init, last, rfl, h1, h2⟩ := he
  have hlen : (init ++ [last]).length = init.length + 1 := by simp
  have hget : ∀ j, j < init.length + 1 → c[i + j]? = (init ++ [last])[j]? := by
    intro j hj
    rw [hc, hi, List.getElem?_append_right (by omega), Nat.add_sub_cancel_left,
      List.getElem?_append_left (by simp; omega)]
  have hl : c[i + (1 + init.length) - 1]? = some last := by
    rw [show i + (1 + init.length) - 1 = i + init.length by omega, hget _ (by omega),
      List.getElem?_append_right (Nat.le_refl _)]
    simp
  obtain ⟨len, hlen'⟩ := iplLen_exists (c := c) (i := i) init.length (Nat.le_refl 1) ⟨last, hl, h2⟩
    (fuel := fuel) (by omega)
  obtain ⟨a1, ⟨y, hy, hy2⟩, a3⟩ := iplLen_ok (Nat.le_refl 1) hlen'
  rw [hlen', hlen]
  congr 1
  by_cases hlt : len < init.length + 1
  · exfalso
    rw [show i + len - 1 = i + (len - 1) by omega, hget _ (by omega),
      List.getElem?_append_left (by omega)] at hy
    have := h1 y (List.mem_of_getElem? hy)
    omega
  · by_cases hgt : init.length + 1 < len
    · have := a3 (1 + init.length) (by omega) (by omega) last hl
      omega
    · omega

theorem iplValue_entry {c : Bytes} {i : Nat} {e : Bytes} (he : PacketLength e) {pre post : Bytes}
    (hc : c = pre ++ (e ++ post)) (hi : i = pre.length) : iplValue c i e.length = base128 e % 16384 := by
  obtain ⟨init, last, rfl, h1, h2⟩ := he
  have hget : ∀ j, j < init.length + 1 → c.getD (i + j) 0 = (init ++ [last]).getD j 0 := by
    intro j hj
    rw [List.getD_eq_getElem?_getD, List.getD_eq_getElem?_getD,
      hc, hi, List.getElem?_append_right (by omega), Nat.add_sub_cancel_left,
      List.getElem?_append_left (by simp; omega)]
  rcases List.eq_nil_or_concat init with rfl | ⟨init, y, rfl⟩
  · have := hget 0 (by simp)
    simp only [List.nil_append, List.length_singleton, iplValue, Nat.sub_self, List.range_zero, List.foldl_nil,
      base128, List.length_nil, Nat.pow_zero, Nat.mul_one, Nat.add_zero] at this ⊢
    rw [this]
    show last.toNat = _
    omega
  · have e1 : (init ++ [y] ++ [last]).length = init.length + 2 := by simp
    rw [List.concat_eq_append] at *
    have e2 := hget (init.length) (by simp; omega)
    have e3 := hget (init.length + 1) (by simp)
    have e4 : (init ++ [y] ++ [last]).getD init.length 0 = y := by
      rw [List.getD_eq_getElem?_getD, List.append_assoc, List.getElem?_append_right (Nat.le_refl _)]
      simp
    have e5 : (init ++ [y] ++ [last]).getD (init.length + 1) 0 = last := by
      rw [List.getD_eq_getElem?_getD, List.getElem?_append_right (by simp)]
      simp
    rw [e4] at e2
    rw [e5] at e3
    rw [e1, iplValue_long _ _ _ (by rw [Nat.add_assoc, e3]; exact h2), e2, Nat.add_assoc, e3,
      List.append_assoc, List.cons_append, List.nil_append, base128_mod]
    omega

theorem iplLoop_entries {l : Int} : ∀ {es : List Bytes} (_ : ∀ e ∈ es, PacketLength e) {c pre : Bytes} {i : Nat}
    (_ : c = pre ++ es.flatten) (_ : i = pre.length) (_ : (c.length : Int) ≤ l) {fuel : Nat},
    c.length < fuel + i → 0 < fuel →
    iplLoop c l fuel i = .ok (es.map fun e => (e.length, base128 e % 16384))
  | [], _, c, pre, i, hc, hi, hl, 0, _, hf => by omega
  | [], _, c, pre, i, hc, hi, hl, fuel + 1, _, hf => by
    rw [iplLoop_short (by rw [hc, hi]; simp)]; rfl
  | e :: es, hes, c, pre, i, hc, hi, hl, 0, _, hf => by omega
  | e :: es, hes, c, pre, i, hc, hi, hl, fuel + 1, h1, hf => by
    have he := hes e (by simp)
    rw [List.flatten_cons] at hc
    have hpos : 1 ≤ e.length := by obtain ⟨init, last, rfl, -⟩ := he; simp
    have hclen : c.length = i + e.length + es.flatten.length := by rw [hc, hi]; simp; omega
    unfold iplLoop
    rw [if_pos ⟨by omega, by omega⟩, iplLen_entry he hc hi (by omega), Outcome.bind_ok,
      iplLoop_entries (es := es) (fun x hx => hes x (by simp [hx])) (pre := pre ++ e)
        (by rw [hc]; simp) (by rw [hi]; simp) hl (by omega) (by omega), Outcome.bind_ok,
      iplValue_entry he hc hi]
    rfl

/-! ## Hexadecimal form -/

theorem upperHex_eq : ∀ n, n < 16 → (Nat.digitChar n).toUpper = upperHex n := by decide

theorem hexWord_pad : ∀ w k n, n < 16 ^ w → hexWord (k + w) n = List.replicate k '0' ++ hexWord w n := by
  intro w
  induction w with
  | zero =>
    intro k n hn
    have : n = 0 := by simpa using hn
    subst this
    induction k with
    | zero => rfl
    | succ k ih =>
      simp only [Nat.add_zero] at ih ⊢
      show hexWord k 0 ++ [upperHex 0] = _
      rw [ih]
      simp [hexWord, List.replicate_succ', upperHex]
  | succ w ih =>
    intro k n hn
    rw [← Nat.add_assoc, hexWord, hexWord, ih k (n / 16) (by rw [Nat.pow_succ] at hn; omega), List.append_assoc]

theorem hexWord_toDigits : ∀ w n, n < 16 ^ (w + 1) → ∃ k, k + ((Nat.toDigits 16 n).map Char.toUpper).length = w + 1 ∧
    hexWord (w + 1) n = List.replicate k '0' ++ (Nat.toDigits 16 n).map Char.toUpper := by
  intro w
  induction w with
  | zero =>
    intro n hn
    rw [Nat.toDigits_of_lt_base (by omega)]
    refine ⟨0, rfl, ?_⟩
    simp only [hexWord, List.nil_append, List.replicate_zero, List.map_cons, List.map_nil]
    rw [Nat.mod_eq_of_lt (by omega), upperHex_eq n (by omega)]
  | succ w ih =>
    intro n hn
    by_cases h : n < 16
    · rw [Nat.toDigits_of_lt_base h]
      refine ⟨w + 1, rfl, ?_⟩
      rw [hexWord_pad 1 (w + 1) n (by omega)]
      simp only [hexWord, List.nil_append, List.map_cons, List.map_nil]
      rw [Nat.mod_eq_of_lt h, upperHex_eq n h]
    · rw [Nat.toDigits_of_base_le (by omega) (by omega), List.map_append]
      obtain ⟨k, h1, h2⟩ := ih (n / 16) (by rw [Nat.pow_succ] at hn; omega)
      refine ⟨k, by simp only [List.length_append, List.map_cons, List.map_nil, List.length_singleton]; omega, ?_⟩
      rw [hexWord, h2, List.append_assoc]
      simp only [List.map_cons, List.map_nil]
      rw [upperHex_eq _ (Nat.mod_lt _ (by omega))]

theorem hexUpper_eq {w n : Nat} (hw : 0 < w) (h : n < 16 ^ w) : hexUpper w n = String.ofList (hexWord w n) := by
  obtain ⟨w, rfl⟩ : ∃ k, w = k + 1 := ⟨w - 1, by omega⟩
  obtain ⟨k, h1, h2⟩ := hexWord_toDigits w n h
  unfold hexUpper
  simp only
  rw [h2, show w + 1 - ((Nat.toDigits 16 n).map Char.toUpper).length = k by omega]

theorem hex_entry {e : Bytes} (he : PacketLength e) :
    hexUpper (2 * e.length) (base128 e % 16384) = String.ofList (hexWord (2 * e.length) (base128 e % 16384)) := by
  obtain ⟨init, last, rfl, h1, h2⟩ := he
  refine hexUpper_eq (by simp) ?_
  cases init with
  | nil =>
    simp only [List.nil_append, base128, List.length_nil, List.length_singleton, Nat.pow_zero, Nat.mul_one]
    omega
  | cons y ys =>
    have h4 : (16 : Nat) ^ 4 ≤ 16 ^ (2 * (y :: ys ++ [last]).length) :=
      Nat.pow_le_pow_right (by omega) (by simp; omega)
    omega

theorem parseIpl_entries {es : List Bytes} (hes : ∀ e ∈ es, PacketLength e) {c pre : Bytes} {l : Int}
    (hc : c = pre ++ es.flatten) (hl : (c.length : Int) ≤ l) {fuel : Nat} (hf : c.length < fuel) :
    parseIpl fuel c l pre.length = .ok (hexList (es.map fun e => (e.length, base128 e % 16384))) := by
  unfold parseIpl
  rw [iplLoop_entries hes hc rfl hl (by omega) (by omega), Outcome.bind_ok]
  unfold hexList
  rw [List.map_map, List.map_map]
  congr 2
  apply List.map_congr_left
  intro e he
  exact hex_entry (hes e he)

end Jpy
