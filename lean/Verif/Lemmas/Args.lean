import Verif.Spec.CommandLine
/-! # Lemmas about the command line: single words -/

namespace Jpy
open Spec

theorem mem_options (n : PyStr) (a : Act) : (n, a) ∈ optionStrings ↔ ∃ s ∈ names a, n = lit s := by
  cases a <;> simp [optionStrings, names, or_comm]

theorem options_keys : (optionStrings.map (·.1)).Nodup := by decide +kernel

theorem keys_unique {α β : Type} : ∀ {l : List (α × β)}, (l.map (·.1)).Nodup → ∀ {k x y},
    (k, x) ∈ l → (k, y) ∈ l → x = y
  | [], _, _, _, _, h, _ => nomatch h
  | (k', z) :: l, hn, k, x, y, h1, h2 => by
    rw [List.map_cons, List.nodup_cons] at hn
    rcases List.mem_cons.1 h1 with e1 | e1 <;> rcases List.mem_cons.1 h2 with e2 | e2
    · rw [Prod.mk.injEq] at e1 e2
      rw [e1.2, e2.2]
    · rw [Prod.mk.injEq] at e1
      exact absurd (List.mem_map_of_mem (f := (·.1)) e2) (by rw [e1.1]; exact hn.1)
    · rw [Prod.mk.injEq] at e2
      exact absurd (List.mem_map_of_mem (f := (·.1)) e1) (by rw [e2.1]; exact hn.1)
    · exact keys_unique hn.2 e1 e2

theorem findOption_some {n : PyStr} {a : Act} : findOption n = some a ↔ (n, a) ∈ optionStrings := by
  unfold findOption
  constructor
  · intro h
    rw [Option.map_eq_some_iff] at h
    obtain ⟨x, hx, rfl⟩ := h
    have h1 := List.find?_some hx
    have h2 := List.mem_of_find?_eq_some hx
    rw [show n = x.1 from (eq_of_beq h1).symm]
    exact h2
  · intro h
    cases hf : optionStrings.find? (fun x => x.1 == n) with
    | none =>
      rw [List.find?_eq_none] at hf
      exact absurd (hf _ h) (by simp)
    | some x =>
      have h0 : (x.1 == n) = true := List.find?_some (p := fun x : PyStr × Act => x.1 == n) hf
      have h1 := eq_of_beq h0
      have h2 := List.mem_of_find?_eq_some hf
      rw [Option.map_some]
      congr 1
      exact keys_unique options_keys (k := n) (by rw [← h1]; exact h2) h

theorem findOption_none {n : PyStr} : findOption n = none ↔ ∀ a, (n, a) ∉ optionStrings := by
  constructor
  · intro h a ha
    rw [findOption_some.2 ha] at h
    exact nomatch h
  · intro h
    cases hf : findOption n with
    | none => rfl
    | some a => exact absurd (findOption_some.1 hf) (h a)

/-- Facts about the table of options. -/
theorem options_shape : ∀ x ∈ optionStrings, 61 ∉ x.1 ∧ x.1.head? = some 45 ∧
    (x.1.length = 2 ∧ (x.1.drop 1).head? ≠ some 45 ∨ 2 < x.1.length ∧ x.1.take 2 = [45, 45]) := by
  decide +kernel

theorem partitionEq_none {w : PyStr} : 61 ∉ w → partitionEq w = (w, none) := by
  induction w with
  | nil => intro _; rfl
  | cons c s ih =>
    intro h
    rw [List.mem_cons, not_or] at h
    unfold partitionEq
    rw [if_neg (fun e => h.1 e.symm), ih h.2]

theorem partitionEq_some {w : PyStr} (v : PyStr) : 61 ∉ w → partitionEq (w ++ 61 :: v) = (w, some v) := by
  induction w with
  | nil => intro _; rfl
  | cons c s ih =>
    intro h
    rw [List.mem_cons, not_or] at h
    rw [List.cons_append]
    unfold partitionEq
    rw [if_neg (fun e => h.1 e.symm), ih h.2]

/-- The two cases of `partition`. -/
theorem partitionEq_cases (w : PyStr) : (61 ∉ w ∧ partitionEq w = (w, none)) ∨
    ∃ n v, w = n ++ 61 :: v ∧ 61 ∉ n ∧ partitionEq w = (n, some v) := by
  by_cases h : 61 ∈ w
  · right
    obtain ⟨n, v, e, hn⟩ := List.eq_append_cons_of_mem h
    exact ⟨n, v, e, hn, by rw [e]; exact partitionEq_some v hn⟩
  · exact Or.inl ⟨h, partitionEq_none h⟩

theorem beforeEq_eq (w : PyStr) : beforeEq w = (partitionEq w).1 := by
  induction w with
  | nil => rfl
  | cons c s ih =>
    unfold beforeEq partitionEq
    by_cases hc : c = 61
    · subst hc; rfl
    · rw [if_neg hc, List.takeWhile_cons, if_pos (show decide (c ≠ chr '=') = true from decide_eq_true hc)]
      simp only
      rw [← ih]; rfl

theorem names_iff {a : Act} {w : PyStr} : Names a w ↔ (w, a) ∈ optionStrings ∨
    [45, 45] <+: w ∧ (∃ n, (n, a) ∈ optionStrings ∧ w <+: n) ∧
      ∀ a' n, (n, a') ∈ optionStrings → w <+: n → a' = a := by
  have hl : lit "--" = [45, 45] := rfl
  unfold Names
  rw [hl]
  constructor
  · rintro (h | ⟨h1, ⟨s, h2, h3⟩, h4⟩)
    · exact Or.inl ((mem_options _ _).2 h)
    · refine Or.inr ⟨h1, ⟨_, (mem_options _ _).2 ⟨s, h2, rfl⟩, h3⟩, fun a' n hn hw => ?_⟩
      obtain ⟨s', hs', e⟩ := (mem_options _ _).1 hn
      exact h4 a' s' hs' (by rw [← e]; exact hw)
  · rintro (h | ⟨h1, ⟨n, h2, h3⟩, h4⟩)
    · exact Or.inl ((mem_options _ _).1 h)
    · obtain ⟨s, hs, e⟩ := (mem_options _ _).1 h2
      refine Or.inr ⟨h1, ⟨s, hs, by rw [← e]; exact h3⟩, fun a' s' hs' hw => ?_⟩
      exact h4 a' _ ((mem_options _ _).2 ⟨s', hs', rfl⟩) hw

theorem letter_iff {a : Act} {c : Nat} : Letter a c ↔ ([45, c], a) ∈ optionStrings := by
  unfold Letter
  rw [mem_options]; rfl

theorem names_no_eq {a : Act} {w : PyStr} (h : Names a w) : 61 ∉ w := by
  rcases names_iff.1 h with h | ⟨-, ⟨n, hn, hw⟩, -⟩
  · exact (options_shape _ h).1
  · exact fun hm => (options_shape _ hn).1 (hw.subset hm)

/-- The long options that start with `pre`. -/
theorem filter_single {α : Type} {p : α → Bool} : ∀ {l : List α}, l.Nodup → ∀ {x},
    l.filter p = [x] ↔ x ∈ l ∧ p x = true ∧ ∀ y ∈ l, p y = true → y = x
  | l, hn, x => by
    constructor
    · intro h
      have hx : x ∈ l.filter p := by rw [h]; exact List.mem_cons_self
      rw [List.mem_filter] at hx
      refine ⟨hx.1, hx.2, fun y hy hp => ?_⟩
      have : y ∈ l.filter p := List.mem_filter.2 ⟨hy, hp⟩
      rw [h] at this
      exact List.mem_singleton.1 this
    · rintro ⟨hx, hp, hu⟩
      have hnd : (l.filter p).Nodup := hn.filter p
      cases hf : l.filter p with
      | nil =>
        have : x ∈ l.filter p := List.mem_filter.2 ⟨hx, hp⟩
        rw [hf] at this
        exact nomatch this
      | cons y r =>
        have hy : y = x := by
          have : y ∈ l.filter p := by rw [hf]; exact List.mem_cons_self
          rw [List.mem_filter] at this
          exact hu y this.1 this.2
        subst hy
        cases r with
        | nil => rfl
        | cons z r =>
          have hz : z = y := by
            have : z ∈ l.filter p := by rw [hf]; exact List.mem_cons_of_mem _ List.mem_cons_self
            rw [List.mem_filter] at this
            exact hu z this.1 this.2
          rw [hf, hz] at hnd
          simp at hnd

theorem options_nodup : optionStrings.Nodup := by decide +kernel

/-- Each option has at most one long name. -/
theorem one_long : ∀ x ∈ optionStrings, ∀ y ∈ optionStrings, x.2 = y.2 → x.1.take 2 = [45, 45] →
    y.1.take 2 = [45, 45] → x = y := by decide +kernel

theorem take2_of_prefix {w n : PyStr} (h : [45, 45] <+: w) (hw : w <+: n) : n.take 2 = [45, 45] := by
  obtain ⟨r, e⟩ := h.trans hw
  rw [← e]; rfl

/-- The long options a word can be the beginning of: exactly one if the word names the option. -/
theorem long_single {w : PyStr} (h : [45, 45] <+: w) (a : Act) :
    Names a w ↔ (w, a) ∈ optionStrings ∨
      ∃ n, optionStrings.filter (fun x => w.isPrefixOf x.1) = [(n, a)] := by
  rw [names_iff]
  constructor
  · rintro (h1 | ⟨-, ⟨n, hn, hw⟩, hu⟩)
    · exact Or.inl h1
    · refine Or.inr ⟨n, (filter_single options_nodup).2 ⟨hn, List.isPrefixOf_iff_prefix.2 hw, fun y hy hp => ?_⟩⟩
      have hp := List.isPrefixOf_iff_prefix.1 hp
      exact one_long _ hy _ hn (hu y.2 y.1 hy hp) (take2_of_prefix h hp) (take2_of_prefix h hw)
  · rintro (h1 | ⟨n, hf⟩)
    · exact Or.inl h1
    · obtain ⟨hn, hp, hu⟩ := (filter_single options_nodup).1 hf
      refine Or.inr ⟨h, ⟨n, hn, List.isPrefixOf_iff_prefix.1 hp⟩, fun a' n' hn' hw' => ?_⟩
      exact congrArg Prod.snd (hu (n', a') hn' (List.isPrefixOf_iff_prefix.2 hw'))

/-- A word that starts with two dashes. -/
theorem long_word {w : PyStr} (h : [45, 45] <+: w) : ∃ r, w = 45 :: 45 :: r := by
  obtain ⟨r, e⟩ := h
  exact ⟨r, e.symm⟩

theorem optionTuples_long {w : PyStr} (h : [45, 45] <+: w) : optionTuples w =
    (optionStrings.filter fun x => (partitionEq w).1.isPrefixOf x.1).map fun x =>
      ⟨some x.2, x.1, (partitionEq w).2.map fun _ => [61], (partitionEq w).2⟩ := by
  obtain ⟨r, rfl⟩ := long_word h
  rfl

theorem optionTuples_short {w : PyStr} (h : ¬ [45, 45] <+: w) (hh : w.head? = some 45) : optionTuples w =
    optionStrings.filterMap fun x =>
      if x.1 = w.take 2 then some ⟨some x.2, x.1, some [], some (w.drop 2)⟩
      else if w.isPrefixOf x.1 then some ⟨some x.2, x.1, none, none⟩
      else none := by
  unfold optionTuples
  split
  · rename_i c r
    simp only [List.head?_cons, Option.some.injEq] at hh
    subst hh
    exact absurd ⟨r, rfl⟩ h
  · rfl

/-- The word `n`, without `=`, starts like a long option. -/
theorem partition_prefix {w : PyStr} (h : [45, 45] <+: w) : [45, 45] <+: (partitionEq w).1 := by
  obtain ⟨r, rfl⟩ := long_word h
  exact ⟨(partitionEq r).1, rfl⟩

theorem not_long_of_letter {w : PyStr} {c : Nat} (e : w.take 2 = [45, c]) (hc : c ≠ 45) : ¬ [45, 45] <+: w := by
  rintro ⟨r, rfl⟩
  simp only [List.cons_append, List.nil_append, List.take_succ_cons, List.take_zero, List.cons.injEq, and_true,
    true_and] at e
  exact hc e.symm

theorem filterMap_none {α β : Type} {f : α → Option β} : ∀ {l : List α}, (∀ x ∈ l, f x = none) → l.filterMap f = []
  | [], _ => rfl
  | x :: l, h => by
    rw [List.filterMap_cons, h x List.mem_cons_self]
    exact filterMap_none fun y hy => h y (List.mem_cons_of_mem _ hy)

theorem filterMap_single {α β : Type} {f : α → Option β} : ∀ {l : List α} {x y}, l.Nodup → x ∈ l → f x = some y →
    (∀ z ∈ l, z ≠ x → f z = none) → l.filterMap f = [y]
  | [], _, _, _, h, _, _ => nomatch h
  | z :: l, x, y, hn, hx, hf, hu => by
    rw [List.nodup_cons] at hn
    rcases List.mem_cons.1 hx with e | e
    · subst e
      rw [List.filterMap_cons, hf]
      simp only
      rw [filterMap_none fun z hz => hu z (List.mem_cons_of_mem _ hz) (fun e => hn.1 (e ▸ hz))]
    · rw [List.filterMap_cons, hu z List.mem_cons_self (fun e' => hn.1 (e' ▸ e))]
      exact filterMap_single hn.2 e hf fun z hz => hu z (List.mem_cons_of_mem _ hz)

/-- A word with one dash is no beginning of another option. -/
theorem short_no_prefix {w : PyStr} (hl : ¬ [45, 45] <+: w) (hh : w.head? = some 45) (h2 : 2 ≤ w.length)
    {x} (hx : x ∈ optionStrings) (hn : x.1 ≠ w.take 2) : ¬ w <+: x.1 := by
  intro hp
  obtain ⟨-, -, hs⟩ := options_shape x hx
  have hle := hp.length_le
  rcases hs with ⟨h, -⟩ | ⟨h, h'⟩
  · have : w = x.1 := hp.eq_of_length (by omega)
    rw [this, List.take_of_length_le (by omega)] at hn
    exact hn rfl
  · obtain ⟨r, e⟩ := hp
    match w, h2 with
    | a :: b :: w, _ =>
      rw [← e] at h'
      simp only [List.cons_append, List.take_succ_cons, List.take_zero, List.cons.injEq, and_true] at h'
      rw [h'.1, h'.2] at hl
      exact hl ⟨w, rfl⟩

theorem optionTuples_letter {w : PyStr} (hl : ¬ [45, 45] <+: w) (hh : w.head? = some 45) (h2 : 2 ≤ w.length) :
    optionTuples w = match findOption (w.take 2) with
      | some a => [⟨some a, w.take 2, some [], some (w.drop 2)⟩]
      | none => [] := by
  rw [optionTuples_short hl hh]
  cases hf : findOption (w.take 2) with
  | none =>
    refine filterMap_none fun x hx => ?_
    have hne : x.1 ≠ w.take 2 := fun e => findOption_none.1 hf x.2 (by rw [← e]; exact hx)
    rw [if_neg hne, if_neg]
    intro hp
    exact short_no_prefix hl hh h2 hx hne (List.isPrefixOf_iff_prefix.1 hp)
  | some a =>
    have hm := findOption_some.1 hf
    refine filterMap_single options_nodup hm (if_pos rfl) fun z hz hne => ?_
    have hne' : z.1 ≠ w.take 2 := by
      intro e
      refine hne (Prod.ext e (keys_unique options_keys (k := w.take 2) ?_ hm))
      rw [← e]; exact hz
    rw [if_neg hne', if_neg]
    intro hp
    exact short_no_prefix hl hh h2 hz hne' (List.isPrefixOf_iff_prefix.1 hp)

/-- What `_parse_optional` does with a word of at least two characters that starts with a dash and is
no name. -/
theorem parseOptional_rest (ae : ArgEnv) {w : PyStr} (hh : w.head? = some 45) (h2 : 2 ≤ w.length)
    (hf : findOption w = none) : parseOptional ae w =
      match (partitionEq w).2.bind fun e => (findOption (partitionEq w).1).map fun a => (a, e) with
      | some (a, e) => .ok (some ⟨some a, (partitionEq w).1, some [61], some e⟩)
      | none =>
        match optionTuples w with
        | [h] => .ok (some h)
        | _ :: _ :: _ => .error .usage
        | [] =>
          if ae.negativeNumber w then .ok none
          else if w.contains 32 then .ok none
          else .ok (some ⟨none, w, none, none⟩) := by
  match w, h2 with
  | a :: b :: r, _ =>
    simp only [List.head?_cons, Option.some.injEq] at hh
    subst hh
    unfold parseOptional
    simp only
    rw [if_neg (by decide : ¬ (45 : Nat) ≠ 45), hf]
    simp only
    rw [if_neg (List.cons_ne_nil b r)]
    rfl

theorem parseOptional_name (ae : ArgEnv) {w : PyStr} {a : Act} (h : (w, a) ∈ optionStrings) :
    parseOptional ae w = .ok (some ⟨some a, w, none, none⟩) := by
  have hs := (options_shape _ h).2.1
  match w, hs with
  | c :: r, hs =>
    simp only [List.head?_cons, Option.some.injEq] at hs
    subst hs
    unfold parseOptional
    simp only
    rw [if_neg (by decide : ¬ (45 : Nat) ≠ 45), findOption_some.2 h]

/-- An abbreviated long option. -/
theorem names_abbrev {a : Act} {w : PyStr} (h : Names a w) (hn : ∀ b, (w, b) ∉ optionStrings) :
    [45, 45] <+: w ∧ ∃ n, optionStrings.filter (fun x => w.isPrefixOf x.1) = [(n, a)] := by
  rcases names_iff.1 h with h' | ⟨hl, -⟩
  · exact absurd h' (hn a)
  · rcases (long_single hl a).1 h with h' | h'
    · exact absurd h' (hn a)
    · exact ⟨hl, h'⟩

theorem two_le_of_long {w : PyStr} (h : [45, 45] <+: w) : w.head? = some 45 ∧ 2 ≤ w.length := by
  obtain ⟨r, rfl⟩ := long_word h
  exact ⟨rfl, by simp only [List.length_cons]; omega⟩

theorem parseOptional_names (ae : ArgEnv) {w : PyStr} {a : Act} (h : Names a w) :
    ∃ n, parseOptional ae w = .ok (some ⟨some a, n, none, none⟩) := by
  cases hf : findOption w with
  | some b =>
    have hb := findOption_some.1 hf
    have : b = a := by
      rcases names_iff.1 h with h' | ⟨-, -, hu⟩
      · exact keys_unique options_keys hb h'
      · exact hu b w hb (List.prefix_refl w)
    subst this
    exact ⟨w, parseOptional_name ae hb⟩
  | none =>
    obtain ⟨hl, n, hn⟩ := names_abbrev h (findOption_none.1 hf)
    have hp := partitionEq_none (names_no_eq h)
    refine ⟨n, ?_⟩
    rw [parseOptional_rest ae (two_le_of_long hl).1 (two_le_of_long hl).2 hf, hp]
    simp only [Option.bind_none]
    rw [optionTuples_long hl, hp]
    simp only [hn, List.map_cons, List.map_nil, Option.map_none]

theorem findOption_eq_mem {n v : PyStr} : findOption (n ++ 61 :: v) = none := by
  refine findOption_none.2 fun a ha => ?_
  exact (options_shape _ ha).1 (List.mem_append_right _ List.mem_cons_self)

theorem names_head {a : Act} {w : PyStr} (h : Names a w) : w.head? = some 45 ∧ 2 ≤ w.length := by
  rcases names_iff.1 h with h' | ⟨hl, -⟩
  · obtain ⟨-, h1, h2⟩ := options_shape _ h'
    exact ⟨h1, by simp only at h2; omega⟩
  · exact two_le_of_long hl

theorem parseOptional_equals (ae : ArgEnv) {w v : PyStr} {a : Act} (h : Names a w) :
    ∃ n, parseOptional ae (w ++ 61 :: v) = .ok (some ⟨some a, n, some [61], some v⟩) := by
  have hne := names_no_eq h
  have hp := partitionEq_some v hne
  obtain ⟨hh, h2⟩ := names_head h
  have hh' : (w ++ 61 :: v).head? = some 45 := by
    match w, hh with
    | c :: r, hh => exact hh
  rw [parseOptional_rest ae hh' (by rw [List.length_append]; omega) findOption_eq_mem, hp]
  simp only [Option.bind_some]
  cases hf : findOption w with
  | some b =>
    have hb := findOption_some.1 hf
    have : b = a := by
      rcases names_iff.1 h with h' | ⟨-, -, hu⟩
      · exact keys_unique options_keys hb h'
      · exact hu b w hb (List.prefix_refl w)
    subst this
    exact ⟨w, rfl⟩
  | none =>
    obtain ⟨hl, n, hn⟩ := names_abbrev h (findOption_none.1 hf)
    refine ⟨n, ?_⟩
    simp only [Option.map_none]
    rw [optionTuples_long (hl.trans (List.prefix_append _ _)), hp]
    simp only [hn, List.map_cons, List.map_nil, Option.map_some]

theorem letter_ne {a : Act} {c : Nat} (h : ([45, c], a) ∈ optionStrings) : c ≠ 45 ∧ c ≠ 61 := by
  obtain ⟨h1, -, h2⟩ := options_shape _ h
  simp only [List.mem_cons, List.not_mem_nil, or_false, not_or, List.length_cons, List.length_nil,
    List.drop_succ_cons, List.drop_zero, List.head?_cons] at h1 h2
  refine ⟨?_, fun e => h1.2 e.symm⟩
  rintro rfl
  rcases h2 with ⟨-, h2⟩ | ⟨h2, -⟩
  · exact h2 rfl
  · omega

theorem findOption_long {c : Nat} {v : PyStr} (hc : c ≠ 45) (hv : v ≠ []) : findOption (45 :: c :: v) = none := by
  refine findOption_none.2 fun a ha => ?_
  obtain ⟨-, -, h2⟩ := options_shape _ ha
  match v, hv with
  | d :: v, _ =>
    rcases h2 with ⟨h2, -⟩ | ⟨-, h2⟩
    · simp only [List.length_cons] at h2; omega
    · simp only [List.take_succ_cons, List.take_zero, List.cons.injEq, and_true, true_and] at h2
      exact hc h2

/-- A word with one dash and several characters, of which the second is not `=`: the first letter
decides. -/
theorem parseOptional_short (ae : ArgEnv) {c : Nat} {v : PyStr} (hc : c ≠ 45) (hv : v ≠ [])
    (hv' : v.head? ≠ some 61) {a : Act} (h : ([45, c], a) ∈ optionStrings) :
    parseOptional ae (45 :: c :: v) = .ok (some ⟨some a, [45, c], some [], some v⟩) := by
  rw [parseOptional_rest ae rfl (by simp only [List.length_cons]; omega) (findOption_long hc hv)]
  have hl : ¬ [45, 45] <+: 45 :: c :: v := not_long_of_letter (c := c) rfl hc
  have ht : optionTuples (45 :: c :: v) = [⟨some a, [45, c], some [], some v⟩] := by
    rw [optionTuples_letter hl rfl (by simp only [List.length_cons]; omega)]
    simp only [List.take_succ_cons, List.take_zero, findOption_some.2 h, List.drop_succ_cons, List.drop_zero]
  have hc61 := (letter_ne h).2
  have hb : ((partitionEq (45 :: c :: v)).2.bind fun e =>
      (findOption (partitionEq (45 :: c :: v)).1).map fun a => (a, e)) = none := by
    match v, hv, hv' with
    | d :: v, _, hv' =>
      have hd : d ≠ 61 := fun e => hv' (by rw [e]; rfl)
      cases hp : (partitionEq (45 :: c :: d :: v)).2 with
      | none => rfl
      | some e =>
        rw [Option.bind_some]
        have : (partitionEq (45 :: c :: d :: v)).1 = 45 :: c :: d :: (partitionEq v).1 := by
          simp only [partitionEq, if_neg hc61, if_neg hd, if_neg (by decide : ¬ (45 : Nat) = 61)]
        rw [this, findOption_long hc (by intro e; cases e)]
        rfl
  rw [hb]
  simp only
  rw [ht]

theorem partition_fst_prefix (w : PyStr) : (partitionEq w).1 <+: w := by
  rcases partitionEq_cases w with ⟨-, e⟩ | ⟨n, v, e, -, e'⟩
  · rw [e]; exact List.prefix_refl w
  · rw [e', e]; exact List.prefix_append _ _

theorem take2_prefix {p w : PyStr} (h : p <+: w) (h2 : 2 ≤ p.length) : p.take 2 = w.take 2 := by
  obtain ⟨r, rfl⟩ := h
  rw [List.take_append_of_le_length h2]

/-- A word resembles no option. -/
def NoLike (w : PyStr) : Prop := ∀ x ∈ optionStrings,
  ¬ (2 ≤ (partitionEq w).1.length ∧ (partitionEq w).1 <+: x.1) ∧ ¬ (x.1.length = 2 ∧ x.1 <+: w)

theorem lit_length (n : String) : (lit n).length = n.length := by
  unfold lit
  rw [List.length_map, String.length_toList]

theorem noLike_iff (w : PyStr) : (∀ a, ∀ n ∈ names a, ¬ (2 ≤ (beforeEq w).length ∧ beforeEq w <+: lit n) ∧
      ¬ (n.length = 2 ∧ lit n <+: w)) ↔ NoLike w := by
  unfold NoLike
  rw [beforeEq_eq]
  constructor
  · rintro h ⟨n, a⟩ hx
    obtain ⟨s, hs, rfl⟩ := (mem_options _ _).1 hx
    have := h a s hs
    rw [← lit_length s] at this
    exact this
  · intro h a s hs
    have := h (lit s, a) ((mem_options _ _).2 ⟨s, hs, rfl⟩)
    rw [lit_length s] at this
    exact this

/-- A long option is never the beginning of a word with one dash, and conversely. -/
theorem noLike_rest {w : PyStr} (hh : w.head? = some 45) (h2 : 2 ≤ w.length) :
    NoLike w ↔ ((partitionEq w).2.bind fun e => (findOption (partitionEq w).1).map fun a => (a, e)) = none ∧
      optionTuples w = [] ∧ findOption w = none := by
  have hpw := partition_fst_prefix w
  by_cases hl : [45, 45] <+: w
  · have hlp := partition_prefix hl
    have h2p := (two_le_of_long hlp).2
    rw [optionTuples_long hl, List.map_eq_nil_iff, List.filter_eq_nil_iff]
    constructor
    · intro h
      refine ⟨?_, fun x hx hp => (h x hx).1 ⟨h2p, List.isPrefixOf_iff_prefix.1 hp⟩, ?_⟩
      · have : findOption (partitionEq w).1 = none :=
          findOption_none.2 fun a ha => (h _ ha).1 ⟨h2p, List.prefix_refl _⟩
        rw [this]
        cases (partitionEq w).2 <;> rfl
      · exact findOption_none.2 fun a ha => (h _ ha).1 ⟨h2p, hpw⟩
    · rintro ⟨-, h, -⟩ x hx
      refine ⟨fun hp => h x hx (List.isPrefixOf_iff_prefix.2 hp.2), fun hp => ?_⟩
      have ht := take2_prefix hp.2 (by omega)
      obtain ⟨r, rfl⟩ := long_word hl
      obtain ⟨-, -, hs⟩ := options_shape x hx
      rw [List.take_of_length_le (by omega)] at ht
      rw [ht] at hs
      rcases hs with ⟨-, hs⟩ | ⟨hs, -⟩
      · exact hs rfl
      · simp at hs
  · rw [optionTuples_letter hl hh h2]
    have key : ∀ x ∈ optionStrings, 2 ≤ (partitionEq w).1.length → (partitionEq w).1 <+: x.1 →
        x.1 = w.take 2 := by
      intro x hx hp2 hp
      have ht := take2_prefix hp hp2
      have ht' := take2_prefix hpw hp2
      obtain ⟨-, -, hs⟩ := options_shape x hx
      rcases hs with ⟨hs, -⟩ | ⟨-, hs⟩
      · rw [← ht', ht, List.take_of_length_le (by omega)]
      · refine absurd ?_ hl
        rw [hs, ht'] at ht
        refine ⟨w.drop 2, ?_⟩
        rw [← ht, List.take_append_drop]
    constructor
    · intro h
      have hft : findOption (w.take 2) = none := by
        refine findOption_none.2 fun a ha => (h _ ha).2 ⟨?_, List.take_prefix 2 w⟩
        rw [List.length_take]; omega
      rw [hft]
      refine ⟨?_, rfl, ?_⟩
      · have : findOption (partitionEq w).1 = none := by
          refine findOption_none.2 fun a ha => (h _ ha).1 ⟨?_, List.prefix_refl _⟩
          obtain ⟨-, -, hs⟩ := options_shape _ ha
          simp only at hs
          omega
        rw [this]
        cases (partitionEq w).2 <;> rfl
      · refine findOption_none.2 fun a ha => ?_
        have hne := (options_shape _ ha).1
        refine (h _ ha).1 ⟨?_, ?_⟩ <;> rw [partitionEq_none hne]
        · exact h2
        · exact List.prefix_refl _
    · rintro ⟨hb, ht, hf⟩ x hx
      have hft : findOption (w.take 2) = none := by
        cases hft : findOption (w.take 2) with
        | none => rfl
        | some a => rw [hft] at ht; exact nomatch ht
      have hno : x.1 ≠ w.take 2 := fun e => findOption_none.1 hft x.2 (by rw [← e]; exact hx)
      refine ⟨fun hp => hno (key x hx hp.1 hp.2), fun hp => hno ?_⟩
      rw [← take2_prefix hp.2 (by omega), List.take_of_length_le (by omega)]

/-- A word other than `--` is taken for an argument exactly if it is one. -/
theorem parseOptional_none (ae : ArgEnv) {w : PyStr} (hd : w ≠ lit "--") :
    parseOptional ae w = .ok none ↔ Argument ae w := by
  unfold Argument
  rw [noLike_iff]
  match w with
  | [] => exact ⟨fun _ => Or.inl (by simp), fun _ => rfl⟩
  | c :: r =>
    by_cases hc : c = 45
    · subst hc
      match r with
      | [] =>
        refine ⟨fun _ => Or.inr (Or.inl rfl), fun _ => ?_⟩
        have : findOption [45] = none := by decide +kernel
        unfold parseOptional
        simp only
        rw [if_neg (by decide : ¬ (45 : Nat) ≠ 45), this]
        rfl
      | b :: r =>
        have h2 : 2 ≤ (45 :: b :: r).length := by simp only [List.length_cons]; omega
        rw [noLike_rest rfl h2]
        have hsimp : ((45 :: b :: r).head? ≠ some (chr '-') ∨ (45 :: b :: r) = [chr '-'] ∨
            (45 :: b :: r) ≠ lit "--" ∧ (ae.negativeNumber (45 :: b :: r) = true ∨ chr ' ' ∈ 45 :: b :: r) ∧
            (((partitionEq (45 :: b :: r)).2.bind fun e =>
              (findOption (partitionEq (45 :: b :: r)).1).map fun a => (a, e)) = none ∧
              optionTuples (45 :: b :: r) = [] ∧ findOption (45 :: b :: r) = none)) ↔
            ((ae.negativeNumber (45 :: b :: r) = true ∨ chr ' ' ∈ 45 :: b :: r) ∧
            (((partitionEq (45 :: b :: r)).2.bind fun e =>
              (findOption (partitionEq (45 :: b :: r)).1).map fun a => (a, e)) = none ∧
              optionTuples (45 :: b :: r) = [] ∧ findOption (45 :: b :: r) = none)) := by
          constructor
          · rintro (h | h | h)
            · exact absurd rfl h
            · exact absurd h (by intro e; cases e)
            · exact h.2
          · exact fun h => Or.inr (Or.inr ⟨hd, h⟩)
        rw [hsimp]
        cases hf : findOption (45 :: b :: r) with
        | some a =>
          rw [parseOptional_name ae (findOption_some.1 hf)]
          exact ⟨(fun h => nomatch h), (fun h => nomatch h.2.2.2)⟩
        | none =>
          rw [parseOptional_rest ae rfl h2 hf]
          cases hb : ((partitionEq (45 :: b :: r)).2.bind fun e =>
              (findOption (partitionEq (45 :: b :: r)).1).map fun a => (a, e)) with
          | some x => exact ⟨(fun h => nomatch h), (fun h => nomatch h.2.1)⟩
          | none =>
            simp only
            cases ht : optionTuples (45 :: b :: r) with
            | nil =>
              simp only [true_and, and_true]
              by_cases hn : ae.negativeNumber (45 :: b :: r) = true
              · rw [if_pos hn]
                exact ⟨fun _ => Or.inl hn, fun _ => rfl⟩
              · rw [if_neg hn]
                by_cases hs : (45 :: b :: r).contains 32 = true
                · rw [if_pos hs]
                  exact ⟨fun _ => Or.inr (List.contains_iff_mem.1 hs), fun _ => rfl⟩
                · rw [if_neg hs]
                  refine ⟨(fun h => nomatch h), fun h => ?_⟩
                  rcases h with h | h
                  · exact absurd h hn
                  · exact absurd (List.contains_iff_mem.2 h) hs
            | cons x t =>
              cases t with
              | nil => exact ⟨(fun h => nomatch h), (fun h => nomatch h.2.2.1)⟩
              | cons y t => exact ⟨(fun h => nomatch h), (fun h => nomatch h.2.2.1)⟩
    · refine ⟨fun _ => Or.inl (fun e => hc (Option.some.inj e)), fun _ => ?_⟩
      unfold parseOptional
      simp only
      rw [if_pos hc]

/-- What the hit says about an option word. -/
inductive HitOf : PyStr → Act → Hit → Prop
  | name {w a n} : Names a w → HitOf w a ⟨some a, n, none, none⟩
  | equals {w a n v} : Names a w → (n = w ∨ [45, 45] <+: n) → HitOf (w ++ 61 :: v) a ⟨some a, n, some [61], some v⟩
  | letter {c a v} : ([45, c], a) ∈ optionStrings → v ≠ [] → v.head? ≠ some 61 →
      HitOf (45 :: c :: v) a ⟨some a, [45, c], some [], some v⟩

theorem hitOf (ae : ArgEnv) {w : PyStr} {h : Hit} {a : Act} (e : parseOptional ae w = .ok (some h))
    (ha : h.act = some a) : HitOf w a h := by
  match w with
  | [] => exact nomatch e
  | c :: r =>
    by_cases hc : c = 45
    · subst hc
      cases hf : findOption (45 :: r) with
      | some b =>
        rw [parseOptional_name ae (findOption_some.1 hf)] at e
        cases e
        cases ha
        exact .name (names_iff.2 (Or.inl (findOption_some.1 hf)))
      | none =>
        match r, hf with
        | [], hf =>
          unfold parseOptional at e
          simp only at e
          rw [if_neg (by decide : ¬ (45 : Nat) ≠ 45), hf] at e
          exact nomatch e
        | b :: r, hf =>
          have h2 : 2 ≤ (45 :: b :: r).length := by simp only [List.length_cons]; omega
          rw [parseOptional_rest ae rfl h2 hf] at e
          rcases partitionEq_cases (45 :: b :: r) with ⟨hne, hp⟩ | ⟨n, v, hw, hne, hp⟩
          · rw [hp] at e
            simp only [Option.bind_none] at e
            by_cases hl : [45, 45] <+: 45 :: b :: r
            · rw [optionTuples_long hl, hp] at e
              simp only [Option.map_none] at e
              cases hfl : optionStrings.filter (fun x => (45 :: b :: r).isPrefixOf x.1) with
              | nil =>
                rw [hfl] at e
                simp only [List.map_nil] at e
                split at e
                · exact nomatch e
                · split at e
                  · exact nomatch e
                  · cases e; exact nomatch ha
              | cons x t =>
                rw [hfl] at e
                cases t with
                | cons y t => exact nomatch e
                | nil =>
                  cases e
                  cases ha
                  exact .name ((long_single hl _).2 (Or.inr ⟨x.1, hfl⟩))
            · rw [optionTuples_letter hl rfl h2] at e
              have hb : b ≠ 45 := by
                rintro rfl
                exact hl ⟨r, rfl⟩
              cases hft : findOption ((45 :: b :: r).take 2) with
              | none =>
                rw [hft] at e
                simp only at e
                split at e
                · exact nomatch e
                · split at e
                  · exact nomatch e
                  · cases e; exact nomatch ha
              | some a' =>
                rw [hft] at e
                cases e
                cases ha
                have hr : r ≠ [] := by
                  rintro rfl
                  rw [show List.take 2 [45, b] = [45, b] from rfl, hf] at hft
                  exact nomatch hft
                refine .letter (findOption_some.1 hft) hr ?_
                intro e'
                match r, e' with
                | d :: r, e' =>
                  cases e'
                  exact hne (by simp)
          · rw [hp] at e
            simp only [Option.bind_some] at e
            cases hfn : findOption n with
            | some a' =>
              rw [hfn] at e
              cases e
              cases ha
              rw [hw]
              exact .equals (names_iff.2 (Or.inl (findOption_some.1 hfn))) (Or.inl rfl)
            | none =>
              rw [hfn] at e
              simp only [Option.map_none] at e
              by_cases hl : [45, 45] <+: 45 :: b :: r
              · have hln := partition_prefix hl
                rw [hp] at hln
                rw [optionTuples_long hl, hp] at e
                simp only [Option.map_some] at e
                cases hfl : optionStrings.filter (fun x => n.isPrefixOf x.1) with
                | nil =>
                  rw [hfl] at e
                  simp only [List.map_nil] at e
                  split at e
                  · exact nomatch e
                  · split at e
                    · exact nomatch e
                    · cases e; exact nomatch ha
                | cons x t =>
                  rw [hfl] at e
                  cases t with
                  | cons y t => exact nomatch e
                  | nil =>
                    cases e
                    cases ha
                    rw [hw]
                    refine .equals ((long_single hln _).2 (Or.inr ⟨x.1, hfl⟩)) (Or.inr ?_)
                    have := ((filter_single options_nodup).1 hfl).2.1
                    exact hln.trans (List.isPrefixOf_iff_prefix.1 this)
              · rw [optionTuples_letter hl rfl h2] at e
                have hb : b ≠ 45 := by
                  rintro rfl
                  exact hl ⟨r, rfl⟩
                cases hft : findOption ((45 :: b :: r).take 2) with
                | none =>
                  rw [hft] at e
                  simp only at e
                  split at e
                  · exact nomatch e
                  · split at e
                    · exact nomatch e
                    · cases e; exact nomatch ha
                | some a' =>
                  rw [hft] at e
                  cases e
                  cases ha
                  have hr : r ≠ [] := by
                    rintro rfl
                    rw [show List.take 2 [45, b] = [45, b] from rfl, hf] at hft
                    exact nomatch hft
                  refine .letter (findOption_some.1 hft) hr ?_
                  intro e'
                  match r, e' with
                  | d :: r, e' =>
                    cases e'
                    have hb61 := (letter_ne (findOption_some.1 hft)).2
                    have : (partitionEq (45 :: b :: 61 :: r)).1 = [45, b] := by
                      simp only [partitionEq, if_neg hb61, if_neg (by decide : ¬ (45 : Nat) = 61), if_true]
                    rw [hp] at this
                    simp only at this
                    rw [this, show findOption [45, b] = some _ from hft] at hfn
                    exact nomatch hfn
    · unfold parseOptional at e
      simp only at e
      rw [if_pos hc] at e
      exact nomatch e

end Jpy
