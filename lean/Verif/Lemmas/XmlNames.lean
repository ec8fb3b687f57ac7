import Verif.Lemmas.XmlEnds
import Verif.Lemmas.Schema
/-! # Names and namespaces of the output document -/

namespace Jpy
open Spec.Xml

/-! ## Splitting names -/

theorem splitColon_none {s : List Char} (h : ':' ∉ s) : splitColon s = none := by
  induction s with
  | nil => rfl
  | cons c cs ih =>
    simp only [List.mem_cons, not_or] at h
    rw [splitColon, if_neg (fun e => h.1 e.symm), ih h.2]; rfl

theorem splitColon_some {p : List Char} (h : ':' ∉ p) (l) : splitColon (p ++ ':' :: l) = some (p, l) := by
  induction p with
  | nil => simp [splitColon]
  | cons c cs ih =>
    simp only [List.mem_cons, not_or] at h
    rw [List.cons_append, splitColon, if_neg (fun e => h.1 e.symm), ih h.2]; rfl

theorem splitLast_none {x : Char} {l : List Char} (h : x ∉ l) : splitLast x l = none := by
  induction l with
  | nil => rfl
  | cons c cs ih =>
    simp only [List.mem_cons, not_or] at h
    rw [splitLast, ih h.2]
    simp only []
    rw [if_neg (fun e => h.1 e.symm)]

theorem splitLast_some {x : Char} {l : List Char} (h : x ∉ l) (u) : splitLast x (u ++ x :: l) = some (u, l) := by
  induction u with
  | nil =>
    rw [List.nil_append, splitLast, splitLast_none h]
    simp
  | cons c cs ih => rw [List.cons_append, splitLast, ih]

theorem ncName_iff {s : List Char} : isNCName s = true ↔ isName s = true ∧ ':' ∉ s := by
  simp [isNCName]

theorem name_noBrace {s : List Char} (h : isName s = true) (x : Char) (hx : isNameChar x = false) : x ∉ s := by
  intro hm
  cases s with
  | nil => exact nomatch hm
  | cons c cs =>
    rw [isName, Bool.and_eq_true] at h
    rcases List.mem_cons.1 hm with e | hm
    · have := nameStart_char (e ▸ h.1 : isNameStart x = true)
      rw [hx] at this; exact nomatch this
    · have := List.all_eq_true.1 h.2 _ hm
      rw [hx] at this; exact nomatch this

theorem splitName_plain {t : String} (h : t.toList.head? ≠ some '{') : splitName t = none := by
  unfold splitName
  split
  · rename_i r e; rw [e] at h; simp at h
  · rfl

theorem name_head {s : List Char} (h : isName s = true) : s.head? ≠ some '{' := by
  cases s with
  | nil => simp
  | cons c cs =>
    rw [isName, Bool.and_eq_true] at h
    intro e
    simp only [List.head?_cons, Option.some.injEq] at e
    rw [e] at h
    exact absurd h.1 (by decide)

theorem splitName_clark {t : String} {u l : List Char} (h : t.toList = clark u l) (hl : isNCName l = true) :
    splitName t = some (String.ofList u, String.ofList l) := by
  unfold splitName
  rw [h, clark]
  simp only [List.cons_append]
  rw [splitLast_some (name_noBrace (ncName_iff.1 hl).1 '}' (by decide))]
  rfl

/-! ## The dictionaries of the serialiser -/

theorem pair_of_lookup {α β : Type} [BEq α] [LawfulBEq α] {l : List (α × β)} {a : α} {b : β} (h : l.lookup a = some b) : (a, b) ∈ l := by
  induction l with
  | nil => simp at h
  | cons x xs ih =>
    obtain ⟨k, v⟩ := x
    rw [List.lookup_cons] at h
    by_cases e : a = k
    · subst e; simp at h; subst h; exact List.mem_cons_self ..
    · rw [show (a == k) = false by simpa using e] at h
      exact List.mem_cons_of_mem _ (ih h)

theorem lookup_of_nodup {α β : Type} [BEq α] [LawfulBEq α] {l : List (α × β)} {a : α} {b : β} (hn : (l.map (·.1)).Nodup) (h : (a, b) ∈ l) (r) :
    (l ++ r).lookup a = some b := by
  induction l with
  | nil => exact nomatch h
  | cons x xs ih =>
    obtain ⟨k, v⟩ := x
    rw [List.map_cons, List.nodup_cons] at hn
    rw [List.cons_append, List.lookup_cons]
    rcases List.mem_cons.1 h with e | h'
    · cases e; simp
    · have : a ≠ k := by
        rintro rfl
        exact hn.1 (List.mem_map.2 ⟨(a, b), h', rfl⟩)
      rw [show (a == k) = false by simpa using this]
      exact ih hn.2 h'

theorem lookup_append_none {α β : Type} [BEq α] [LawfulBEq α] {l : List (α × β)} {a : α} (h : ∀ x ∈ l, x.1 ≠ a) (r) :
    (l ++ r).lookup a = r.lookup a := by
  induction l with
  | nil => rfl
  | cons x xs ih =>
    rw [List.cons_append, List.lookup_cons, show (a == x.1) = false by simpa using fun e : a = x.1 => h x (List.mem_cons_self ..) e.symm]
    exact ih fun y hy => h y (List.mem_cons_of_mem _ hy)

/-- The prefix of the `i`-th namespace. -/
def prefixAt (u : String) (i : Nat) : String := (wellKnownSpaces.lookup u).getD ("ns" ++ toString i)

/-- How a name is written. -/
def WrittenAs (n : Names) (t w : String) : Prop :=
  match splitName t with
  | none => w = t
  | some (u, l) => ∃ p, w = p ++ ":" ++ l ∧ ((u, p) ∈ n.spaces ∨ p = "xml" ∧ u = "http://www.w3.org/XML/1998/namespace")

/-- What holds of the dictionaries after some names. -/
structure NamesOk (n : Names) (ts : List String) : Prop where
  prefixes : ∀ i u p, n.spaces[i]? = some (u, p) → p = prefixAt u i ∧ p ≠ "xml"
  uris : (n.spaces.map (·.1)).Nodup
  names : ∀ t w, (t, w) ∈ n.qnames → WrittenAs n t w
  known : ∀ t ∈ ts, (n.qnames.lookup t).isSome = true
  source : ∀ u p, (u, p) ∈ n.spaces → ∃ t ∈ ts, ∃ l, splitName t = some (u, l)

theorem lookup_append_isSome {α β : Type} [BEq α] {l r : List (α × β)} {a : α} (h : (l.lookup a).isSome = true) :
    ((l ++ r).lookup a).isSome = true := by
  induction l with
  | nil => simp at h
  | cons x xs ih =>
    rw [List.cons_append, List.lookup_cons]
    rw [List.lookup_cons] at h
    split at h <;> simp_all

theorem WrittenAs.mono {n m : Names} {t w} (h : WrittenAs n t w) (hs : ∀ x ∈ n.spaces, x ∈ m.spaces) : WrittenAs m t w := by
  unfold WrittenAs at h ⊢
  split <;> rename_i e <;> rw [e] at h <;> simp only [] at h ⊢
  · exact h
  · obtain ⟨p, h1, h2⟩ := h
    exact ⟨p, h1, h2.imp (hs _) id⟩

theorem lookup_last {α β : Type} [BEq α] [LawfulBEq α] (l : List (α × β)) (a : α) (b : β) : ((l ++ [(a, b)]).lookup a).isSome = true := by
  induction l with
  | nil => simp
  | cons x xs ih =>
    rw [List.cons_append, List.lookup_cons]
    split
    · rfl
    · exact ih

theorem NamesOk.add {n : Names} {ts} (h : NamesOk n ts) (t : String) : NamesOk (n.add t) (ts ++ [t]) := by
  unfold Names.add
  have hsrc : ∀ u p, (u, p) ∈ n.spaces → ∃ t' ∈ ts ++ [t], ∃ l, splitName t' = some (u, l) := by
    intro u p hm
    obtain ⟨t', ht, l, hl⟩ := h.source u p hm
    exact ⟨t', List.mem_append_left _ ht, l, hl⟩
  have hknown : ∀ x : String × String, x.1 = t → ∀ t' ∈ ts ++ [t], ((n.qnames ++ [x]).lookup t').isSome = true := by
    intro x hx t' ht'
    rcases List.mem_append.1 ht' with ht' | ht'
    · exact lookup_append_isSome (h.known t' ht')
    · rw [List.mem_singleton] at ht'
      subst ht'
      obtain ⟨a, b⟩ := x
      simp only [] at hx
      subst hx
      exact lookup_last ..
  split
  · rename_i hl
    refine ⟨h.prefixes, h.uris, h.names, ?_, hsrc⟩
    intro t' ht'
    rcases List.mem_append.1 ht' with ht' | ht'
    · exact h.known t' ht'
    · rw [List.mem_singleton] at ht'; rw [ht']; exact hl
  · split
    · rename_i hs
      refine ⟨h.prefixes, h.uris, ?_, hknown _ rfl, hsrc⟩
      intro a w hm
      rcases List.mem_append.1 hm with hm | hm
      · exact h.names a w hm
      · rw [List.mem_singleton] at hm
        cases hm
        unfold WrittenAs; rw [hs]
    · rename_i u l hs
      split
      · rename_i p hp
        refine ⟨h.prefixes, h.uris, ?_, hknown _ rfl, hsrc⟩
        intro a w hm
        rcases List.mem_append.1 hm with hm | hm
        · exact h.names a w hm
        · rw [List.mem_singleton] at hm
          cases hm
          unfold WrittenAs; rw [hs]
          exact ⟨p, rfl, .inl (pair_of_lookup hp)⟩
      · rename_i hp
        have hnew : u ∉ n.spaces.map (·.1) := by
          intro hm
          obtain ⟨x, hx, rfl⟩ := List.mem_map.1 hm
          have := List.lookup_eq_none_iff.1 hp x hx
          simp at this
        simp only []
        generalize hq : (wellKnownSpaces.lookup u).getD ("ns" ++ toString n.spaces.length) = p
        have hxml : p = "xml" → u = "http://www.w3.org/XML/1998/namespace" := by
          intro e
          cases hw : wellKnownSpaces.lookup u with
          | none =>
            rw [hw] at hq
            exfalso
            rw [e] at hq
            have := congrArg (fun s : String => s.toList.head?) hq
            simp at this
          | some q =>
            rw [hw, Option.getD_some] at hq
            have hm := pair_of_lookup hw
            rw [hq, e] at hm
            simp only [wellKnownSpaces, List.mem_cons, Prod.mk.injEq] at hm
            simp at hm
            exact hm
        by_cases hx : p = "xml"
        · rw [if_pos hx]
          refine ⟨h.prefixes, h.uris, ?_, hknown _ rfl, hsrc⟩
          intro a w hm
          rcases List.mem_append.1 hm with hm | hm
          · exact h.names a w hm
          · rw [List.mem_singleton] at hm
            cases hm
            unfold WrittenAs; rw [hs]
            exact ⟨p, rfl, .inr ⟨hx, hxml hx⟩⟩
        · rw [if_neg hx]
          refine ⟨?_, ?_, ?_, hknown _ rfl, ?_⟩
          · intro i u' p' hi
            simp only [] at hi
            rw [List.getElem?_append] at hi
            split at hi
            · exact h.prefixes i u' p' hi
            · rename_i hlt
              have hz : i - n.spaces.length = 0 := by
                rcases Nat.eq_zero_or_pos (i - n.spaces.length) with h0 | h0
                · exact h0
                · rw [List.getElem?_eq_none (by simp; omega)] at hi; exact nomatch hi
              have hil : i = n.spaces.length := by omega
              rw [hz] at hi
              simp only [List.getElem?_cons_zero, Option.some.injEq, Prod.mk.injEq] at hi
              rw [← hi.1, ← hi.2, hil]
              exact ⟨hq.symm, hx⟩
          · simp only [List.map_append, List.map_cons, List.map_nil]
            rw [List.nodup_append]
            refine ⟨h.uris, by simp, ?_⟩
            intro a ha b hb
            rw [List.mem_singleton] at hb
            rintro rfl
            exact hnew (hb ▸ ha)
          · intro a w hm
            rcases List.mem_append.1 hm with hm | hm
            · exact (h.names a w hm).mono fun x hx => List.mem_append_left _ hx
            · rw [List.mem_singleton] at hm
              cases hm
              unfold WrittenAs; rw [hs]
              exact ⟨p, rfl, .inl (List.mem_append_right _ (List.mem_singleton.2 rfl))⟩
          · intro u' p' hm
            rcases List.mem_append.1 hm with hm | hm
            · exact hsrc u' p' hm
            · rw [List.mem_singleton] at hm
              cases hm
              exact ⟨t, List.mem_append_right _ (List.mem_singleton.2 rfl), l, hs⟩

theorem NamesOk.fold {n : Names} {ts us} (h : NamesOk n us) : NamesOk (ts.foldl Names.add n) (us ++ ts) := by
  induction ts generalizing n us with
  | nil => simpa using h
  | cons t ts ih =>
    have := ih (h.add t)
    simpa using this

/-- The names in a tree. -/
def treeNames (e : Elem) : List String := e.iter.flatMap fun x => x.tag :: x.attrs.map (·.1)

theorem namesOk (e : Elem) : NamesOk (namesOf e) (treeNames e) := by
  have h0 : NamesOk {} [] := ⟨by simp, by simp, by simp, by simp, by simp⟩
  exact h0.fold

/-! ## Prefixes -/

theorem ns_prefix (i : Nat) : isNCName ("ns" ++ toString i).toList = true := by
  have hd : ∀ c ∈ (toString i).toList, c.isDigit = true := by
    intro c hc
    exact isDigit_repr hc
  have hc : ∀ c : Char, c.isDigit = true → isNameChar c = true ∧ c ≠ ':' := by
    intro c hc
    simp only [Char.isDigit, Bool.and_eq_true, decide_eq_true_eq, UInt32.le_iff_toNat_le] at hc
    constructor
    · have : inRanges nameMoreRanges c = true := by
        simp only [inRanges, nameMoreRanges, List.any_cons, Bool.or_eq_true, Bool.and_eq_true, decide_eq_true_eq]
        refine .inr (.inl ?_)
        exact ⟨hc.1, hc.2⟩
      simp [isNameChar, this]
    · rintro rfl
      exact absurd hc (by decide)
  rw [ncName_iff, String.toList_append, show "ns".toList = ['n', 's'] from rfl]
  constructor
  · simp only [List.cons_append, List.nil_append, isName, List.all_cons, Bool.and_eq_true, List.all_eq_true]
    exact ⟨by decide, by decide, fun c h => (hc c (hd c h)).1⟩
  · simp only [List.cons_append, List.nil_append, List.mem_cons, not_or]
    exact ⟨by decide, by decide, fun h => (hc _ (hd _ h)).2 rfl⟩

theorem wellKnown_prefix {u p : String} (h : (u, p) ∈ wellKnownSpaces) :
    isNCName p.toList = true ∧ p ≠ "xmlns" ∧ p ≠ "mix" ∧ (p = "xsi" → u = "http://www.w3.org/2001/XMLSchema-instance") ∧ p.toList.take 2 ≠ ['n', 's'] := by
  simp only [wellKnownSpaces, List.mem_cons, Prod.mk.injEq, List.not_mem_nil, or_false] at h
  rcases h with ⟨rfl, rfl⟩ | ⟨rfl, rfl⟩ | ⟨rfl, rfl⟩ | ⟨rfl, rfl⟩ | ⟨rfl, rfl⟩ | ⟨rfl, rfl⟩ | ⟨rfl, rfl⟩ <;> decide +kernel

theorem wellKnown_inj {u v p : String} (h1 : (u, p) ∈ wellKnownSpaces) (h2 : (v, p) ∈ wellKnownSpaces) : u = v := by
  simp only [wellKnownSpaces, List.mem_cons, Prod.mk.injEq, List.not_mem_nil, or_false] at h1 h2
  rcases h1 with ⟨rfl, rfl⟩ | ⟨rfl, rfl⟩ | ⟨rfl, rfl⟩ | ⟨rfl, rfl⟩ | ⟨rfl, rfl⟩ | ⟨rfl, rfl⟩ | ⟨rfl, rfl⟩ <;>
    (simp at h2; exact h2.symm)

theorem ns_take (i : Nat) : ("ns" ++ toString i).toList.take 2 = ['n', 's'] := by
  rw [String.toList_append]; rfl

theorem ns_ne {i : Nat} {p : String} (h : p.toList.take 2 ≠ ['n', 's']) : "ns" ++ toString i ≠ p := by
  rintro rfl; exact h (ns_take i)

theorem prefixAt_cases (u : String) (i : Nat) :
    (u, prefixAt u i) ∈ wellKnownSpaces ∨ (wellKnownSpaces.lookup u = none ∧ prefixAt u i = "ns" ++ toString i) := by
  unfold prefixAt
  cases h : wellKnownSpaces.lookup u with
  | none => exact .inr ⟨rfl, rfl⟩
  | some p => exact .inl (pair_of_lookup h)

theorem prefixAt_fine (u : String) (i : Nat) :
    isNCName (prefixAt u i).toList = true ∧ prefixAt u i ≠ "xmlns" ∧ prefixAt u i ≠ "mix" ∧
      (prefixAt u i = "xsi" → u = "http://www.w3.org/2001/XMLSchema-instance") := by
  rcases prefixAt_cases u i with h | ⟨-, h⟩
  · have := wellKnown_prefix h
    exact ⟨this.1, this.2.1, this.2.2.1, this.2.2.2.1⟩
  · rw [h]
    exact ⟨ns_prefix i, ns_ne (by decide), ns_ne (by decide), fun e => absurd e (ns_ne (by decide))⟩

theorem NamesOk.prefix_inj {n ts} (h : NamesOk n ts) {i j : Nat} {u v p : String} (hi : n.spaces[i]? = some (u, p)) (hj : n.spaces[j]? = some (v, p)) :
    i = j := by
  have h1 := (h.prefixes _ _ _ hi).1
  have h2 := (h.prefixes _ _ _ hj).1
  have huv : u = v → i = j := by
    rintro rfl
    have hu := h.uris
    refine (List.getElem?_inj (l := n.spaces.map (·.1)) (i := i) (j := j) ?_ hu).1 ?_
    · rw [List.length_map]; exact (List.getElem?_eq_some_iff.1 hi).1
    · simp [hi, hj]
  rcases prefixAt_cases u i with a | ⟨a, a'⟩ <;> rcases prefixAt_cases v j with b | ⟨b, b'⟩
  · exact huv (wellKnown_inj (p := p) (h1 ▸ a) (h2 ▸ b))
  · exfalso
    rw [← h1] at a
    exact ns_ne (wellKnown_prefix a).2.2.2.2 (b'.symm.trans h2.symm)
  · exfalso
    rw [← h2] at b
    exact ns_ne (wellKnown_prefix b).2.2.2.2 (a'.symm.trans h1.symm)
  · have e : "ns" ++ toString i = "ns" ++ toString j := by rw [← a', ← b', ← h1, ← h2]
    have e := String.append_right_inj _ |>.1 e
    have e : Nat.repr i = Nat.repr j := e
    rw [← Nat.ofDigitChars_toDigits (b := 10) (n := i) (by decide) (by decide), ← Nat.toList_repr, e, Nat.toList_repr, Nat.ofDigitChars_toDigits (by decide) (by decide)]

theorem NamesOk.prefixes_nodup {n ts} (h : NamesOk n ts) : (n.spaces.map (·.2)).Nodup := by
  rw [List.Nodup, List.pairwise_iff_getElem]
  intro i j hi hj hij e
  rw [List.length_map] at hi hj
  simp only [List.getElem_map] at e
  have h1 : n.spaces[i]? = some (n.spaces[i].1, n.spaces[j].2) := by rw [List.getElem?_eq_getElem hi, ← e]
  have h2 : n.spaces[j]? = some (n.spaces[j].1, n.spaces[j].2) := List.getElem?_eq_getElem hj
  exact absurd (h.prefix_inj h1 h2) (Nat.ne_of_lt hij)

end Jpy
