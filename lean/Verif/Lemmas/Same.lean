import Verif.Spec.Determines
import Verif.Lemmas.Schema
import Verif.Props.MixValues
import Verif.Props.Damage
/-! # Lemmas about elements that are shown in the same way -/

set_option linter.unusedSimpArgs false

namespace Jpy
open Spec

theorem intRepr_inj {i j : Int} (h : i.repr = j.repr) : i = j := by
  have neg : ∀ {n m : Nat}, (Int.ofNat n).repr ≠ (Int.negSucc m).repr := by
    intro n m e
    have e' : (Nat.repr n).toList = ("-" ++ Nat.repr (m + 1)).toList := congrArg String.toList e
    rw [String.toList_append] at e'
    have : '-' ∈ (Nat.repr n).toList := by rw [e']; exact List.mem_append_left _ (by simp)
    have := isDigit_repr this
    revert this; decide
  cases i with
  | ofNat n =>
    cases j with
    | ofNat m => rw [Nat.repr_injective (show Nat.repr n = Nat.repr m from h)]
    | negSucc m => exact absurd h neg
  | negSucc n =>
    cases j with
    | ofNat m => exact absurd h.symm neg
    | negSucc m =>
      have e' : ("-" ++ Nat.repr (n + 1)).toList = ("-" ++ Nat.repr (m + 1)).toList := congrArg String.toList h
      rw [String.toList_append, String.toList_append] at e'
      have := Nat.repr_injective (String.toList_inj.1 (List.append_cancel_left e'))
      rw [show n = m by omega]

/-- Every description has a character that is not part of a number. -/
theorem description_word : ∀ d ∈ descriptions, ∃ ch ∈ d.2.2.toList, ch.isDigit = false ∧ ch ≠ '-' := by
  have key : ∀ d ∈ descriptions, (d.2.2.toList.any fun ch => !ch.isDigit && ch != '-') = true := by decide +kernel
  intro d hd
  obtain ⟨ch, h1, h2⟩ := List.any_eq_true.1 (key d hd)
  exact ⟨ch, h1, by simpa using h2⟩

theorem intRepr_chars {i : Int} {ch : Char} (h : ch ∈ i.repr.toList) : ch.isDigit = true ∨ ch = '-' := by
  cases i with
  | ofNat n => exact .inl (isDigit_repr (n := n) h)
  | negSucc n =>
    have h' : ch ∈ ("-" ++ Nat.repr (n + 1)).toList := h
    rw [String.toList_append] at h'
    rcases List.mem_append.1 h' with h' | h'
    · right; simpa using h'
    · exact .inl (isDigit_repr h')

theorem description_inj {t : String} {v v' : PyVal} {s : String} (h : (t, v, s) ∈ descriptions)
    (h' : (t, v', s) ∈ descriptions) : v = v' := by
  have key : ∀ x ∈ descriptions, ∀ y ∈ descriptions, x.1 = y.1 → x.2.2 = y.2.2 → x.2.1 = y.2.1 := by
    decide +kernel
  exact key _ h _ h' rfl rfl

/-- A number can be read off from what is shown. -/
theorem shown_int_inj {env : Env} {t : String} {i j : Int} {v : PyVal} (h : ShownAs env descriptions t (.int i) v)
    (h' : ShownAs env descriptions t (.int j) v) : i = j := by
  have word : ∀ {s : String} {w : PyVal} {k : Int}, (t, w, s) ∈ descriptions → s = k.repr → False := by
    intro s w k hm e
    obtain ⟨ch, h1, h2, h3⟩ := description_word _ hm
    rcases intRepr_chars (i := k) (by rw [← e]; exact h1) with h | h
    · rw [h2] at h; cases h
    · exact h3 h
  generalize hx : PyVal.int i = x at h
  generalize hy : PyVal.int j = y at h'
  cases h with
  | described hm =>
    cases h' with
    | described hm' =>
      have e := description_inj hm hm'
      rw [← hx, ← hy] at e
      exact PyVal.int.inj e
    | int _ => exact (word hm rfl).elim
    | _ => cases hy
  | int _ =>
    cases hx
    generalize hs : PyVal.str i.repr = z at h'
    cases h' with
    | described hm' => exact (word hm' (PyVal.str.inj hs).symm).elim
    | int _ =>
      cases hy
      exact intRepr_inj (PyVal.str.inj hs)
    | _ => cases hy
  | _ => cases hx

/-- Two lists of elements that are shown in the same way. -/
def Same (env : Env) (es es' : List Elem) : Prop := ∃ out, RenderedList env es out ∧ RenderedList env es' out

/-- Two elements that are shown in the same way. -/
structure Same1 (env : Env) (e e' : Elem) : Prop where
  tag : e.tag = e'.tag
  text : ∃ v, ShownAs env descriptions e.tag e.text v ∧ ShownAs env descriptions e'.tag e'.text v
  children : Same env e.children e'.children

theorem Same.symm {env : Env} {es es'} (h : Same env es es') : Same env es' es :=
  let ⟨out, h1, h2⟩ := h; ⟨out, h2, h1⟩

theorem Same.nil_left {env : Env} {es'} (h : Same env [] es') : es' = [] := by
  obtain ⟨out, h1, h2⟩ := h
  rw [rendered_nil h1] at h2
  have := h2.1
  cases es' with
  | nil => rfl
  | cons _ _ => simp at this

theorem Same.cons_left {env : Env} {e es es'} (h : Same env (e :: es) es') :
    ∃ e' l, es' = e' :: l ∧ Same1 env e e' ∧ Same env es l := by
  obtain ⟨out, h1, h2⟩ := h
  obtain ⟨x, out', rfl, h3, h4⟩ := rendered_cons h1
  cases es' with
  | nil => have := rendered_nil h2; cases this
  | cons e' l =>
    obtain ⟨x', out'', h5, h6, h7⟩ := rendered_cons h2
    cases h5
    obtain ⟨t1, s1, c1⟩ := rendered_facts h3
    obtain ⟨t2, s2, c2⟩ := rendered_facts h6
    exact ⟨e', l, rfl, ⟨t1.symm.trans t2, ⟨_, s1, s2⟩, ⟨_, c1, c2⟩⟩, ⟨_, h4, h7⟩⟩

theorem Same.cons {env : Env} {e es e' l} (h : Same env (e :: es) (e' :: l)) : Same1 env e e' ∧ Same env es l := by
  obtain ⟨x, m, h1, h2, h3⟩ := h.cons_left
  cases h1
  exact ⟨h2, h3⟩

/-- The values under a name are shown in the same way. -/
theorem Same.values {env : Env} (t : String) : ∀ {es es' : List Elem}, Same env es es' →
    (valuesOf es t).length = (valuesOf es' t).length ∧
    ∀ (i : Nat) (v v' : PyVal), (valuesOf es t)[i]? = some v → (valuesOf es' t)[i]? = some v' →
      ∃ x, ShownAs env descriptions t v x ∧ ShownAs env descriptions t v' x
  | [], es', h => by
    rw [h.nil_left]
    exact ⟨rfl, fun i v v' h => by simp [valuesOf] at h⟩
  | e :: es, es', h => by
    obtain ⟨e', l, rfl, h1, h2⟩ := h.cons_left
    have ih := h2.values t
    have ht := h1.tag
    obtain ⟨x, hx1, hx2⟩ := h1.text
    unfold valuesOf at ih ⊢
    rw [List.filter_cons, List.filter_cons, ← ht]
    cases hc : e.tag == t with
    | false => exact ih
    | true =>
      simp only [if_true, List.map_cons]
      have et : e.tag = t := by simpa using hc
      refine ⟨by simpa using ih.1, ?_⟩
      intro i v v' hv hv'
      cases i with
      | zero =>
        cases hv
        cases hv'
        rw [← ht] at hx2
        rw [et] at hx1 hx2
        exact ⟨x, hx1, hx2⟩
      | succ i => exact ih.2 i v v' (by simpa using hv) (by simpa using hv')

theorem Same.ints {env : Env} {es es' : List Elem} (h : Same env es es') {t : String} {i : Nat} {x y : Int}
    (hx : (valuesOf es t)[i]? = some (.int x)) (hy : (valuesOf es' t)[i]? = some (.int y)) : x = y := by
  obtain ⟨v, h1, h2⟩ := (h.values t).2 i _ _ hx hy
  exact shown_int_inj h1 h2

theorem Same.int {env : Env} {es es' : List Elem} (h : Same env es es') {t : String} {x y : Int}
    (hx : valuesOf es t = [.int x]) (hy : valuesOf es' t = [.int y]) : x = y :=
  h.ints (i := 0) (by rw [hx]; rfl) (by rw [hy]; rfl)

/-- Equal reported numbers are stored in the same way. -/
theorem gives_int {r : Reads} {c : Bytes} {v : PyVal} {x : Nat} (h : r.Gives c v) (hx : r.stored c = some x) :
    ∃ i, v = .int i := by
  cases r with
  | num o w =>
    rcases h with ⟨y, -, rfl⟩ | ⟨-, rfl⟩ <;> exact ⟨_, rfl⟩
  | bits o w lo n =>
    obtain ⟨y, hy, -⟩ := Option.map_eq_some_iff.1 hx
    exact ⟨_, h y hy⟩
  | depth o =>
    obtain ⟨y, hy, -⟩ := Option.map_eq_some_iff.1 hx
    exact ⟨_, h y hy⟩
  | power o => exact ⟨_, h x hx⟩
  | signed o => exact ⟨_, h x hx⟩
  | raw o n => cases hx
  | hex o n => cases hx
  | fixed o => cases hx

theorem gives_stored {r : Reads} {c c' : Bytes} {i : Int} (h : r.Gives c (.int i)) (h' : r.Gives c' (.int i)) :
    AlikeStored c c' r := by
  intro x x' hx hx'
  cases r with
  | num o w =>
    have e1 : uint c o w = some x := hx
    have e2 : uint c' o w = some x' := hx'
    rcases h with ⟨y, h1, h2⟩ | ⟨h1, -⟩
    · rcases h' with ⟨y', h3, h4⟩ | ⟨h3, -⟩
      · rw [e1] at h1; rw [e2] at h3
        cases h1; cases h3
        have := PyVal.int.inj (h2.symm.trans h4)
        omega
      · rw [h3] at e2; cases e2
    · rw [h1] at e1; cases e1
  | bits o w lo n =>
    obtain ⟨y, hy, e1⟩ := Option.map_eq_some_iff.1 hx
    obtain ⟨y', hy', e2⟩ := Option.map_eq_some_iff.1 hx'
    have := PyVal.int.inj ((h y hy).symm.trans (h' y' hy'))
    rw [← e1, ← e2]
    exact Int.ofNat.inj this
  | depth o =>
    obtain ⟨y, hy, e1⟩ := Option.map_eq_some_iff.1 hx
    obtain ⟨y', hy', e2⟩ := Option.map_eq_some_iff.1 hx'
    have := Int.ofNat.inj (PyVal.int.inj ((h y hy).symm.trans (h' y' hy')))
    omega
  | power o =>
    have := Int.ofNat.inj (PyVal.int.inj ((h x hx).symm.trans (h' x' hx')))
    have := (Nat.pow_right_inj (by decide)).1 this
    omega
  | signed o =>
    have := PyVal.int.inj ((h x hx).symm.trans (h' x' hx'))
    have l1 := uint_lt (show uint c o 1 = some x from hx)
    have l2 := uint_lt (show uint c' o 1 = some x' from hx')
    split at this <;> split at this <;> omega
  | raw o n => cases hx
  | hex o n => cases hx
  | fixed o => cases hx

theorem Same.at {env : Env} {es es' : List Elem} (h : Same env es es') {c c' : Bytes} {t : String} {r : Reads} {i : Nat}
    {v v' : PyVal} (h1 : (valuesOf es t)[i]? = some v) (h2 : (valuesOf es' t)[i]? = some v') (g1 : r.Gives c v)
    (g2 : r.Gives c' v') : AlikeStored c c' r := by
  intro x x' hx hx'
  obtain ⟨a, rfl⟩ := gives_int g1 hx
  obtain ⟨b, rfl⟩ := gives_int g2 hx'
  have := h.ints h1 h2
  subst this
  exact gives_stored g1 g2 x x' hx hx'

theorem Same.field {env : Env} {es es' : List Elem} (h : Same env es es') {c c' : Bytes} {f : Field}
    (h1 : ShowsField es c f) (h2 : ShowsField es' c' f) : AlikeStored c c' f.reads := by
  obtain ⟨v, e1, g1⟩ := h1
  obtain ⟨v', e2, g2⟩ := h2
  exact h.at (i := 0) (by rw [e1]; rfl) (by rw [e2]; rfl) g1 g2

theorem Same.fields {env : Env} {es es' : List Elem} (h : Same env es es') {c c' : Bytes} {fs : List Field}
    (h1 : ∀ f ∈ fs, ShowsField es c f) (h2 : ∀ f ∈ fs, ShowsField es' c' f) : ∀ f ∈ fs, AlikeStored c c' f.reads :=
  fun f hf => h.field (h1 f hf) (h2 f hf)

/-- A number is also missing in both or in none. -/
theorem Same.num {env : Env} {es es' : List Elem} (h : Same env es es') {c c' : Bytes} {t : String} {o w : Nat}
    (h1 : ShowsField es c ⟨t, .num o w⟩) (h2 : ShowsField es' c' ⟨t, .num o w⟩) : uint c o w = uint c' o w := by
  obtain ⟨v, e1, g1⟩ := h1
  obtain ⟨v', e2, g2⟩ := h2
  rcases g1 with ⟨x, u1, rfl⟩ | ⟨u1, rfl⟩ <;> rcases g2 with ⟨x', u2, rfl⟩ | ⟨u2, rfl⟩ <;> rw [u1, u2]
  · have := h.int e1 e2
    rw [show x = x' by omega]
  · have := h.int e1 e2; omega
  · have := h.int e1 e2; omega

theorem Same.each {env : Env} {es es' : List Elem} (h : Same env es es') {c c' : Bytes} {n n' s : Nat} {f : Field}
    (h1 : ShowsEach es c n s f) (h2 : ShowsEach es' c' n' s f) : n = n' ∧ AlikeEach c c' n s f.reads := by
  have hn : n = n' := by rw [← h1.number, ← h2.number]; exact (h.values f.tag).1
  refine ⟨hn, fun i hi => ?_⟩
  obtain ⟨v, e1, g1⟩ := h1.each i hi
  obtain ⟨v', e2, g2⟩ := h2.each i (by omega)
  exact h.at e1 e2 g1 g2

theorem sameStored_bytes {c c' : Bytes} {o w i : Nat} (h : AlikeStored c c' (.num o w)) (hl : o + w ≤ c.length)
    (hl' : o + w ≤ c'.length) (h1 : o ≤ i) (h2 : i < o + w) : c[i]? = c'[i]? := by
  have e := h _ _ (uint_pos hl) (uint_pos hl')
  refine (uint_getElem_eq (uint_pos hl) ?_ h1 h2).symm
  rw [e]; exact uint_pos hl'

/-- A byte that holds a sign and a depth. -/
theorem sameStored_depth {c c' : Bytes} {o : Nat} (h1 : AlikeStored c c' (.bits o 1 7 1)) (h2 : AlikeStored c c' (.depth o))
    (hl : o + 1 ≤ c.length) (hl' : o + 1 ≤ c'.length) : c[o]? = c'[o]? := by
  have u := uint_pos hl
  have u' := uint_pos hl'
  have e1 := h1 _ _ (by rw [Reads.stored, u]; rfl) (by rw [Reads.stored, u']; rfl)
  have e2 := h2 _ _ (by rw [Reads.stored, u]; rfl) (by rw [Reads.stored, u']; rfl)
  have l := uint_lt u
  have l' := uint_lt u'
  generalize be (sub c o 1) = a at u e1 e2 l
  generalize be (sub c' o 1) = a' at u' e1 e2 l'
  simp only [Nat.reducePow] at e1 e2 l l'
  refine sameStored_bytes (w := 1) ?_ hl hl' (Nat.le_refl _) (by omega)
  intro x x' hx hx'
  have f1 := Option.some.inj (u.symm.trans hx)
  have f2 := Option.some.inj (u'.symm.trans hx')
  omega

end Jpy
