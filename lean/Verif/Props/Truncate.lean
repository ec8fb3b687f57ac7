import Verif.Props.Codestream
import Verif.Props.Files
import Verif.Props.Wrap
import Verif.Props.Generate
import Verif.Spec.Truncate
/-! # Cutting off a file: C52 -/

namespace Jpy
open Spec

theorem sub_take {b : Bytes} {k off n : Nat} (h : off + n ≤ k) : sub (b.take k) off n = sub b off n := by
  unfold sub
  rw [List.drop_take, List.take_take, Nat.min_eq_left (by omega)]

theorem sub_take_eq {b m : Bytes} {k off n : Nat} (hm : m.length = n) (hn : 0 < n) (h : sub (b.take k) off n = m) :
    sub b off n = m ∧ off + n ≤ k := by
  have hl : off + n ≤ k := by
    have := congrArg List.length h
    simp only [sub, List.length_take, List.length_drop] at this
    omega
  exact ⟨(sub_take hl).symm.trans h, hl⟩

theorem uint_take {b : Bytes} {k off n v : Nat} (h : uint (b.take k) off n = some v) :
    uint b off n = some v ∧ off + n ≤ k := by
  have hl := uint_some_le h
  rw [List.length_take] at hl
  have h2 : off + n ≤ k := by omega
  unfold uint at h ⊢
  rw [if_pos (by rw [List.length_take]; exact hl), sub_take h2] at h
  rw [if_pos (by omega)]
  exact ⟨h, h2⟩

theorem segAt_take {b m c : Bytes} {k off n : Nat} (h : SegAt (b.take k) off m c (some n)) (hn : n ≤ k) :
    SegAt b off m c (some n) := by
  cases h with
  | alone h =>
    rw [sub_take (by omega)] at h ⊢
    exact .alone h
  | seg h hl =>
    obtain ⟨hl, hk⟩ := uint_take hl
    rw [sub_take (by omega)] at h ⊢
    rw [sub_take (by omega)]
    exact .seg h hl

theorem segAt_exists (b : Bytes) (off : Nat) : ∃ c n, SegAt b off (sub b off 2) c n := by
  by_cases hd : sub b off 2 ∈ delimiters
  · exact ⟨_, _, .alone hd⟩
  · cases hu : uint b (off + 2) 2 with
    | none => exact ⟨_, _, .noLength hd hu⟩
    | some L => exact ⟨_, _, .seg hd hu⟩

theorem segsTo_stop {b stop : Bytes} {off e : Nat} {ss} (h : SegsTo b stop off ss (some e)) : sub b e 2 = stop := by
  generalize he : some e = e' at h
  induction h with
  | found h => cases he; exact (segAt_marker h).symm
  | step _ _ _ ih => exact ih he
  | broken => cases he

theorem segAt_take_marker {b m c : Bytes} {k off : Nat} {n} (hm : m.length = 2) (h : SegAt (b.take k) off m c n) :
    off + 2 ≤ k ∧ sub b off 2 = m := by
  have : sub (b.take k) off 2 = m := by cases h <;> rfl
  exact (sub_take_eq hm (by decide) this).symm

/-- A header that is complete in the beginning of the data. -/
theorem segsTo_take {b stop : Bytes} (hs : stop.length = 2) {k off e : Nat} {ss}
    (h : SegsTo (b.take k) stop off ss (some e)) : SegsTo b stop off ss (some e) ∧ off + 2 ≤ k ∧ e + 2 ≤ k := by
  generalize he : some e = e' at h
  induction h with
  | @found off c n h =>
    cases he
    obtain ⟨h1, h2⟩ := segAt_take_marker hs h
    refine ⟨?_, h1, h1⟩
    obtain ⟨c, n, h3⟩ := segAt_exists b e
    rw [h2] at h3
    exact .found h3
  | step h hne _ ih =>
    obtain ⟨h1, h2, h3⟩ := ih he
    have h4 := segAt_take h (by omega)
    refine ⟨.step h4 hne h1, ?_, h3⟩
    cases h with
    | alone _ => omega
    | seg _ _ => omega
  | broken h hne => cases he

theorem at_take {b : Bytes} {k : Nat} {t : TilePartInfo} (h : t.At (b.take k)) : t.At b where
  marker := (sub_take_eq (n := 2) rfl (by decide) h.marker).1
  segLength := (uint_take h.segLength).1
  index := (uint_take h.index).1
  length := (uint_take h.length).1
  part := (uint_take h.part).1
  parts := (uint_take h.parts).1

/-- The tile-parts that are visited in the beginning of the data are tile-parts of the whole; the last one has no
declared length or is followed by EOC. -/
theorem visited_take {env : Env} {o : Options} {csiz : Nat} {b : Bytes} {n : Int} {k off : Nat} {ts'}
    (h : Visited (b.take k) (min n 65535) off ts') (hok : ∀ t ∈ ts', t.Ok env o csiz (b.take k)) (hne : ts' ≠ [])
    {ts} (hc : Chain b off ts) (hi : ∀ t ∈ ts, (t.index : Int) < n) :
    ∃ t ∈ ts, t ∈ ts' ∧ (t.length = 0 ∨
      t.length ≠ 0 ∧ sub b (t.start + t.length) 2 = EOC ∧ t.start + t.length + 2 ≤ k) := by
  induction h generalizing ts with
  | done => exact absurd rfl hne
  | @last t hat hl =>
    have hb := at_take hat
    have hmem : t ∈ ts := by
      generalize he : t.start = off at hc
      cases hc with
      | done hn => exact absurd hb.marker (he ▸ hn)
      | last h1 _ => rw [at_unique hb h1 he]; simp
      | step h1 _ _ => rw [at_unique hb h1 he]; simp
    refine ⟨t, hmem, by simp, .inl ?_⟩
    rcases hl with hl | hl
    · have := hi t hmem
      have := (hok t (by simp)).index
      omega
    · exact hl
  | @step t rest hat hlt hl hv ih =>
    have hb := at_take hat
    obtain ⟨hmem, ts2, hc2, hsub⟩ : t ∈ ts ∧ ∃ ts2, Chain b (t.start + t.length) ts2 ∧ ∀ x ∈ ts2, x ∈ ts := by
      generalize he : t.start = off at hc
      cases hc with
      | done hn => exact absurd hb.marker (he ▸ hn)
      | last h1 h2 => rw [at_unique hb h1 he] at hl; exact absurd h2 hl
      | @step _ ts2 h1 _ h3 =>
        have := at_unique hb h1 he
        subst this
        exact ⟨by simp, ts2, he ▸ h3, fun x hx => by simp [hx]⟩
    by_cases hr : rest = []
    · refine ⟨t, hmem, by simp, .inr ⟨hl, ?_⟩⟩
      subst hr
      rcases (hok t (by simp)).next hl with h1 | h1
      · generalize t.start + t.length = off at hv h1
        cases hv with
        | done hn => exact absurd h1 hn
      · exact sub_take_eq (n := 2) rfl (by decide) h1
    · obtain ⟨x, h1, h2, h3⟩ := ih (fun x hx => hok x (by simp [hx])) hr hc2 fun x hx => hi x (hsub x hx)
      exact ⟨x, hsub x h1, by simp [h2], h3⟩

/-- C52 (codestream): no proper beginning of a codestream passes. -/
theorem C52_codestream (env : Env) (o : Options) {b siz : Bytes} {n : Int} {sot : Nat} {ts : List TilePartInfo}
    (h : Framed b siz n sot ts) {k : Nat} (hk : k < b.length) : ¬ CodestreamPasses env o (b.take k) := by
  intro hp
  obtain ⟨p, hp⟩ := (C23_codestream env o _).1 hp
  have hlen : (b.take k).length = k := by rw [List.length_take]; omega
  obtain ⟨csiz, main, hm⟩ := h.header
  obtain ⟨first, hsiz, hmain⟩ := hm.segs
  have hsot := segsTo_stop hmain
  obtain ⟨t0, ht0⟩ : ∃ t0, t0 ∈ ts := by
    have hc := h.chain
    cases hc with
    | done hn => exact absurd hsot hn
    | last => exact ⟨_, List.mem_singleton.2 rfl⟩
    | step => exact ⟨_, List.mem_cons_self ..⟩
  have hn1 : 1 ≤ n := by have := h.index t0 ht0; omega
  -- the same header
  obtain ⟨hfk, hsizEq⟩ : p.first ≤ k ∧ siz = p.siz := by
    obtain ⟨f, hf⟩ := hp.sizPasses
    obtain ⟨⟨-, -, -, -, -, -, -, -, -, nc, -, hnc, -, ⟨L, hL, eL⟩, hcomp⟩, -⟩ := (C26_siz_partial env o f none p.siz).1 hf
    have hle : 38 + 3 * nc ≤ p.siz.length := by
      cases nc with
      | zero => omega
      | succ m =>
        obtain ⟨-, -, v, hv, -⟩ := hcomp m (by omega)
        have := uint_some_le hv
        omega
    have hat := hp.sizAt
    have : p.first ≤ k := by
      generalize he : p.siz = c at hat
      generalize he2 : some p.first = f1 at hat
      generalize he3 : SIZ = m at hat
      cases hat with
      | alone hd => rw [← he3] at hd; exact absurd hd (by decide)
      | @seg L' hd hL' =>
        simp only [Option.some.injEq] at he2
        rw [he] at hL hle
        have hlen2 : (sub (b.take k) (2 + 2) L').length = min L' (k - (2 + 2)) := by
          simp only [sub, List.length_take, List.length_drop]; omega
        rw [hlen2] at hle
        rw [uint_sub (by omega) (by decide), Nat.add_zero, hL'] at hL
        cases hL
        omega
      | noLength => cases he2
    exact ⟨this, (segAt_unique hsiz (segAt_take hat this)).2.1⟩
  have hpv := hp.visited
  have hne : p.tps ≠ [] → ∃ s, p.sot = some s := by
    intro hne
    split at hpv
    · exact ⟨_, by assumption⟩
    · exact absurd hpv hne
  have hn : p.tps ≠ [] := by
    intro h0
    obtain ⟨l, -, h2, h3⟩ := hp.indices
    have hl : l = [] := by
      cases l with
      | nil => rfl
      | cons x xs =>
        obtain ⟨t, ht, -⟩ := (h2 x).1 (by simp)
        rw [h0] at ht
        cases ht
    rw [hl, ← tiles_unique hp (hsizEq ▸ h.tiles)] at h3
    simp only [List.length_nil] at h3
    omega
  obtain ⟨s, hs⟩ := hne hn
  rw [hs] at hpv
  obtain rfl : s = sot := by
    have h1 := hp.mainAt
    rw [hs] at h1
    obtain ⟨h2, -, -⟩ := segsTo_take rfl h1
    obtain ⟨-, -, -, e3⟩ := mainHeader_unique
      (⟨⟨_, segAt_take hp.sizAt hfk, h2⟩, hp.csiz⟩ : MainHeader b p.siz p.csiz p.main (some s)) hm
    cases e3
    rfl
  have htiles : n = p.tiles := tiles_unique hp (hsizEq ▸ h.tiles)
  rw [← htiles] at hpv
  obtain ⟨t, h1, h2, h3⟩ := visited_take hpv hp.tpsOk hn h.chain h.index
  rcases h3 with h3 | ⟨h3, h4, h5⟩
  · obtain ⟨ss, sod, h6, -⟩ := (hp.tpsOk t h2).header
    obtain ⟨h7, -, h8⟩ := segsTo_take rfl h6
    obtain ⟨h9, h10⟩ := hp.eoc
    rw [hlen] at h10
    obtain ⟨h11, -⟩ := sub_take_eq (n := 2) rfl (by decide) h10
    have h12 := segsTo_stop h7
    by_cases c1 : k - 2 = sod
    · rw [c1, h12] at h11; exact absurd h11 (by decide)
    · by_cases c2 : k - 2 = sod + 1
      · rw [c2] at h11
        have a1 := congrArg (fun l => l[1]?) h12
        have a2 := congrArg (fun l => l[0]?) h11
        simp only [sub, List.getElem?_take, List.getElem?_drop, if_pos (by decide : 1 < 2),
          if_pos (by decide : 0 < 2), Nat.add_zero] at a1 a2
        rw [a1] at a2
        exact absurd a2 (by decide)
      · exact h.open_ t h1 h3 ss sod h7 (k - 2) (by omega) (by omega) h11
  · have := h.last t h1 h3 h4
    omega

/-! ## Boxes -/

/-- A box that ends with the data, and the same box cut off. -/
theorem boxAt_cut {b t p : Bytes} {off k : Nat} (h : BoxAt b off t p (some b.length)) (hk : k < b.length)
    {t' p' n'} (h' : BoxAt (b.take k) off t' p' n') :
    (t'.length = 4 → t' = t) ∧ (∃ j, p' = p.take j ∧ (j < p.length ∨ p' = [])) ∧ ∀ m, n' = some m → k ≤ m := by
  have htype : (sub (b.take k) (off + 4) 4).length = 4 → sub (b.take k) (off + 4) 4 = sub b (off + 4) 4 := by
    intro ht
    have hl : off + 4 + 4 ≤ k := by
      simp only [sub, List.length_take, List.length_drop] at ht
      omega
    exact sub_take hl
  have hlen : (b.take k).length = k := by rw [List.length_take]; omega
  have hpay : ∀ s m, s + m = b.length ∨ b.length ≤ s → ∃ j, sub (b.take k) s m = (sub b s m).take j ∧
      (j < (sub b s m).length ∨ sub (b.take k) s m = []) := by
    intro s m hs
    refine ⟨k - s, ?_, ?_⟩
    · unfold sub
      rw [List.drop_take, List.take_take, List.take_take, Nat.min_comm]
    · simp only [sub, List.length_take, List.length_drop, List.drop_take, List.take_take]
      by_cases c : s < k
      · left; omega
      · right; rw [show k - s = 0 by omega]; simp
  have hend : ∀ s, ∃ j, (b.take k).drop s = (b.drop s).take j ∧ (j < (b.drop s).length ∨ (b.take k).drop s = []) := by
    intro s
    refine ⟨k - s, by rw [List.drop_take], ?_⟩
    by_cases c : s < k
    · left; rw [List.length_drop]; omega
    · right; rw [List.drop_take, show k - s = 0 by omega]; simp
  have hnil : ∀ q : Bytes, ∃ j, ([] : Bytes) = q.take j ∧ (j < q.length ∨ ([] : Bytes) = []) :=
    fun q => ⟨0, by simp, .inr rfl⟩
  generalize he : some b.length = n at h
  cases h' with
  | short hL hL2 =>
    obtain ⟨hL, -⟩ := uint_take hL
    cases h with
    | short hL' =>
      rw [hL] at hL'; cases hL'
      simp only [Option.some.injEq] at he
      refine ⟨htype, hpay _ _ (by omega), fun m hm => by cases hm; omega⟩
    | _ hL' => rw [hL] at hL'; cases hL' <;> omega
  | long hL hX hX1 =>
    obtain ⟨hL, -⟩ := uint_take hL
    obtain ⟨hX, -⟩ := uint_take hX
    cases h with
    | short hL' => rw [hL] at hL'; cases hL'; omega
    | long _ hX' =>
      rw [hX] at hX'; cases hX'
      simp only [Option.some.injEq] at he
      refine ⟨htype, hpay _ _ (by omega), fun m hm => by cases hm; omega⟩
    | toEnd hL' => rw [hL] at hL'; cases hL'
    | longToEnd _ hX' => rw [hX] at hX'; cases hX'; omega
    | noLength => cases he
    | noLongLength => cases he
  | toEnd hL =>
    obtain ⟨hL, -⟩ := uint_take hL
    cases h with
    | short hL' => rw [hL] at hL'; cases hL'; omega
    | long hL' => rw [hL] at hL'; cases hL'
    | toEnd _ => exact ⟨htype, hend _, fun m hm => by cases hm; omega⟩
    | longToEnd hL' => rw [hL] at hL'; cases hL'
    | noLength => cases he
    | noLongLength => cases he
  | longToEnd hL hX =>
    obtain ⟨hL, -⟩ := uint_take hL
    obtain ⟨hX, -⟩ := uint_take hX
    cases h with
    | short hL' => rw [hL] at hL'; cases hL'; omega
    | long _ hX' => rw [hX] at hX'; cases hX'; omega
    | toEnd hL' => rw [hL] at hL'; cases hL'
    | longToEnd _ _ => exact ⟨htype, hend _, fun m hm => by cases hm; omega⟩
    | noLength => cases he
    | noLongLength => cases he
  | noLength _ =>
    refine ⟨?_, hnil _, fun m hm => by cases hm⟩
    cases h <;> exact htype
  | noLongLength _ _ =>
    refine ⟨?_, hnil _, fun m hm => by cases hm⟩
    cases h <;> exact htype

/-- A box at its place, whatever follows. -/
theorem encodesBox_at {t p e : Bytes} (ht : t.length = 4) (he : EncodesBox t p e) (pre es : Bytes) :
    BoxAt (pre ++ (e ++ es)) pre.length t p (some (pre ++ e).length) := by
  cases he with
  | @short L hL hv =>
    have e1 : uint (pre ++ (L ++ t ++ p ++ es)) pre.length 4 = some (8 + p.length) := by
      rw [← hv]; exact uint_mid' (post := t ++ p ++ es) (by simp) rfl hL.symm
    have e2 : sub (pre ++ (L ++ t ++ p ++ es)) (pre.length + 4) 4 = t :=
      sub_mid' (pre := pre ++ L) (post := p ++ es) (by simp) (by simp [hL]) ht.symm
    have e3 : sub (pre ++ (L ++ t ++ p ++ es)) (pre.length + 8) (8 + p.length - 8) = p :=
      sub_mid' (pre := pre ++ L ++ t) (post := es) (by simp) (by simp [hL, ht]) (by omega)
    have hb := BoxAt.short e1 (by omega)
    rw [e2, e3] at hb
    have : (pre ++ (L ++ t ++ p)).length = pre.length + (8 + p.length) := by simp [hL, ht]; omega
    rw [this]
    exact hb
  | @long one x h1 hv1 hx hv =>
    have e0 : uint (pre ++ (one ++ t ++ x ++ p ++ es)) pre.length 4 = some 1 := by
      rw [← hv1]; exact uint_mid' (post := t ++ x ++ p ++ es) (by simp) rfl h1.symm
    have e1 : uint (pre ++ (one ++ t ++ x ++ p ++ es)) (pre.length + 8) 8 = some (16 + p.length) := by
      rw [← hv]
      exact uint_mid' (pre := pre ++ one ++ t) (post := p ++ es) (by simp) (by simp [h1, ht]) hx.symm
    have e2 : sub (pre ++ (one ++ t ++ x ++ p ++ es)) (pre.length + 4) 4 = t :=
      sub_mid' (pre := pre ++ one) (post := x ++ p ++ es) (by simp) (by simp [h1]) ht.symm
    have e3 : sub (pre ++ (one ++ t ++ x ++ p ++ es)) (pre.length + 16) (16 + p.length - 16) = p :=
      sub_mid' (pre := pre ++ one ++ t ++ x) (post := es) (by simp) (by simp [h1, ht, hx]) (by omega)
    have hb := BoxAt.long e0 e1 (by omega)
    rw [e2, e3] at hb
    have : (pre ++ (one ++ t ++ x ++ p)).length = pre.length + (16 + p.length) := by
      simp [h1, ht, hx]; omega
    rw [this]
    exact hb

theorem toEnd_at {t p : Bytes} (ht : t.length = 4) (pre : Bytes) :
    BoxAt (pre ++ ([0, 0, 0, 0] ++ t ++ p)) pre.length t p (some (pre ++ ([0, 0, 0, 0] ++ t ++ p)).length) := by
  have e1 : uint (pre ++ ([0, 0, 0, 0] ++ t ++ p)) pre.length 4 = some 0 := by
    exact uint_mid' (x := [0, 0, 0, 0]) (post := t ++ p) (by simp) rfl rfl
  have e2 : sub (pre ++ ([0, 0, 0, 0] ++ t ++ p)) (pre.length + 4) 4 = t :=
    sub_mid' (pre := pre ++ [0, 0, 0, 0]) (post := p) (by simp) (by simp) ht.symm
  have e3 : (pre ++ ([0, 0, 0, 0] ++ t ++ p)).drop (pre.length + 8) = p := by
    rw [← List.append_assoc, ← List.append_assoc]
    exact List.drop_left' (by simp [ht])
  have hb := BoxAt.toEnd e1
  rw [e2, e3] at hb
  exact hb

/-- The boxes of the beginning of a file: complete boxes other than the last one, and one that is cut off. -/
theorem encodes_cut {l : List (Bytes × Bytes)} {e : Bytes} (h : EncodesBoxes l e) :
    ∀ (pre : Bytes) (k : Nat) (bs : List FoundBox), k < e.length → BoxesFrom (pre ++ e.take k) pre.length bs →
      ∀ y ∈ bs, y.type.length = 4 → ∃ (i : Nat) (p : Bytes), l[i]? = some (y.type, p) ∧
        (i + 1 < l.length ∨ ∃ j, y.payload = p.take j ∧ (j < p.length ∨ y.payload = [])) := by
  -- a single box that is cut off
  have single : ∀ {t p e0 : Bytes} (pre : Bytes) (k : Nat) (bs : List FoundBox), k < e0.length →
      BoxAt (pre ++ e0) pre.length t p (some (pre ++ e0).length) →
      BoxesFrom (pre ++ e0.take k) pre.length bs → ∀ y ∈ bs, y.type.length = 4 →
      y.type = t ∧ ∃ j, y.payload = p.take j ∧ (j < p.length ∨ y.payload = []) := by
    intro t p e0 pre k bs hk hat hb y hy hyt
    have htk : pre ++ e0.take k = (pre ++ e0).take (pre.length + k) := by
      rw [List.take_length_add_append]
    rw [htk] at hb
    have hlen : ((pre ++ e0).take (pre.length + k)).length = pre.length + k := by simp; omega
    have hcut := fun {t' p' n'} => boxAt_cut (k := pre.length + k) hat (by simp; omega) (t' := t') (p' := p') (n' := n')
    generalize pre.length = off at hb hcut hlen
    cases hb with
    | done => cases hy
    | step hlt h1 h2 =>
      obtain ⟨c1, c2, c3⟩ := hcut h1
      rcases List.mem_cons.1 hy with rfl | hy
      · exact ⟨c1 hyt, c2⟩
      · have := c3 _ rfl
        cases h2 with
        | done => cases hy
        | step h3 => rw [hlen] at h3; omega
        | last h3 => rw [hlen] at h3; omega
    | last hlt h1 =>
      cases List.mem_singleton.1 hy
      obtain ⟨c1, c2, -⟩ := hcut h1
      exact ⟨c1 hyt, c2⟩
  induction h with
  | nil => intro pre k bs hk; exact absurd hk (Nat.not_lt_zero _)
  | @cons t p e0 rest es ht he hrest ih =>
    intro pre k bs hk hb y hy hyt
    by_cases hk0 : k < e0.length
    · rw [List.take_append_of_le_length (by omega)] at hb
      have hat := encodesBox_at ht he pre []
      rw [List.append_nil] at hat
      obtain ⟨h1, h2⟩ := single pre k bs hk0 hat hb y hy hyt
      exact ⟨0, p, by rw [h1]; rfl, .inr h2⟩
    · have htk : (e0 ++ es).take k = e0 ++ es.take (k - e0.length) := by
        rw [List.take_append, List.take_of_length_le (by omega)]
      rw [htk] at hb
      have hat := encodesBox_at ht he pre (es.take (k - e0.length))
      have hk1 : k - e0.length < es.length := by rw [List.length_append] at hk; omega
      have hne : 0 < rest.length := by
        cases hrest with
        | nil => exact absurd hk1 (Nat.not_lt_zero _)
        | cons => simp
        | toEnd => simp
      generalize hB : pre ++ (e0 ++ es.take (k - e0.length)) = B at hb hat
      have hB2 : pre ++ e0 ++ es.take (k - e0.length) = B := by rw [← hB, List.append_assoc]
      generalize pre.length = off at hb hat
      cases hb with
      | done => cases hy
      | step hlt h1 h2 =>
        obtain ⟨rfl, rfl, e3⟩ := boxAt_unique h1 hat
        cases e3
        rcases List.mem_cons.1 hy with rfl | hy
        · exact ⟨0, _, rfl, .inl (by simp; omega)⟩
        · obtain ⟨i, q, hi, hq⟩ := ih (pre ++ e0) _ _ hk1 (hB2 ▸ h2) y hy hyt
          exact ⟨i + 1, q, by simpa using hi, hq.imp (by simp) id⟩
      | last hlt h1 =>
        cases (boxAt_unique h1 hat).2.2
  | @toEnd t p ht =>
    intro pre k bs hk hb y hy hyt
    obtain ⟨h1, h2⟩ := single pre k bs hk (toEnd_at ht pre) hb y hy hyt
    exact ⟨0, p, by rw [h1]; rfl, .inr h2⟩

/-- C52 (file): the beginning of a JP2 or JPH file that ends before the end of its first codestream box is not
valid. -/
theorem C52_file (env : Env) (o : Options) (hfmt : o.format = .jp2 ∨ o.format = .jph) {l : List (Bytes × Bytes)}
    {cs e : Bytes} (he : EncodesBoxes (l ++ [(ascii "jp2c", cs)]) e) (hl : ¬ HasType l "jp2c")
    {siz : Bytes} {n : Int} {sot : Nat} {ts : List TilePartInfo} (h : Framed cs siz n sot ts)
    {k : Nat} (hk : k < e.length) : ¬ FileValid env o (e.take k) := by
  intro hv
  obtain ⟨lay, hlay⟩ := (C17_layout env o _ hfmt).1 hv
  have hmem : lay.cs ∈ lay.sig :: lay.ft :: lay.rest := by simp [Layout.rest]
  have hpass := hlay.passes _ hmem
  obtain ⟨i, p, hi, hp⟩ := encodes_cut he [] k _ hk hlay.boxes _ hmem (by rw [hlay.cs]; rfl)
  rw [hlay.cs] at hi hpass
  rw [jp2c_passes] at hpass
  have hil : i = l.length := by
    have hlt := (List.getElem?_eq_some_iff.1 hi).1
    by_cases c : i < l.length
    · rw [List.getElem?_append_left c] at hi
      exact absurd ⟨_, List.mem_of_getElem? hi, rfl⟩ hl
    · simp at hlt; omega
  subst hil
  rw [List.getElem?_append_right (Nat.le_refl _), Nat.sub_self] at hi
  cases hi
  rcases hp with hp | ⟨j, h1, h2⟩
  · simp at hp
  · rcases h2 with h2 | h2
    · rw [h1] at hpass
      exact C52_codestream env o h h2 hpass
    · rw [h2] at hpass
      obtain ⟨p, hp⟩ := (C23_codestream env o _).1 hpass
      exact absurd hp.soc (by decide)

/-! ## Reports -/

/-- C52: a file that is cut off before the end of its image data is never reported valid: a codestream
file anywhere, a JP2 or JPH file before the end of its first codestream box. -/
theorem C52_reported {env : Env} {me : MixEnv} {fs : FS} {fuel : Nat} {o : Options} {mix : Nat} {path : PyStr}
    {b cs siz : Bytes} {n : Int} {sot : Nat} {ts : List TilePartInfo} (h : Framed cs siz n sot ts)
    (hb : (o.format = .j2c ∨ o.format = .jhc) ∧ b = cs ∨
      (o.format = .jp2 ∨ o.format = .jph) ∧
        ∃ l, EncodesBoxes (l ++ [(ascii "jp2c", cs)]) b ∧ ¬ HasType l "jp2c")
    {k : Nat} (hk : k < b.length) (hr : fs.read path = .data (b.take k)) :
    ¬ ReportedValid env me fs fuel o mix path := by
  intro hv
  have hf := reported_fileValid hv
  rw [hr] at hf
  rcases hb with ⟨hfmt, rfl⟩ | ⟨hfmt, l, he, hl⟩
  · exact C52_codestream env o h hk ((C23_file env o _ hfmt).1 hf)
  · exact C52_file env o hfmt he hl h hk hf

/-! ## Every conforming codestream is of this kind -/

theorem chain_gen {catC fmt} {csiz n : Nat} (hn : n ≤ 65535) : ∀ (tps : List GenTilePart)
    {b pre : Bytes} (_ : b = pre ++ (tps.flatMap GenTilePart.bytes ++ EOC))
    (_ : ∀ t ∈ tps, t.Conforms catC fmt csiz n),
    (sub b pre.length 2 = if tps = [] then EOC else SOT) ∧
    ∃ ts, Chain b pre.length ts ∧ ∀ t ∈ ts, t.index < n ∧ t.length ≠ 0 ∧
      (sub b (t.start + t.length) 2 = EOC → t.start + t.length + 2 = b.length)
  | [], b, pre, hb, _ => by
    have : sub b pre.length 2 = EOC := sub_mid' (x := EOC) (post := []) (by rw [hb]; simp) rfl rfl
    refine ⟨by simp [this], [], .done ?_, by simp⟩
    rw [this]; decide
  | t :: tps, b, pre, hb, hc => by
    have ht := hc t (by simp)
    have hb1 : b = pre ++ (t.bytes ++ (tps.flatMap GenTilePart.bytes ++ EOC)) := by rw [hb]; simp
    have hat := tilePart_at ht hn hb1
    have e : (pre ++ t.bytes).length = pre.length + t.length := by rw [List.length_append, length_tilePart]
    obtain ⟨h1, ts, h2, h3⟩ := chain_gen hn tps (b := b) (pre := pre ++ t.bytes) (by rw [hb1]; simp)
      (fun x hx => hc x (by simp [hx]))
    rw [e] at h1 h2
    have hl : t.length ≠ 0 := by unfold GenTilePart.length; omega
    refine ⟨by rw [if_neg (by simp)]; exact hat.marker, foundAt pre.length t :: ts, .step hat hl h2, ?_⟩
    intro x hx
    rcases List.mem_cons.1 hx with rfl | hx
    · refine ⟨ht.index, hl, fun hx => ?_⟩
      have hx' : sub b (pre.length + t.length) 2 = EOC := hx
      rw [h1] at hx'
      split at hx'
      · rename_i h0
        subst h0
        show pre.length + t.length + 2 = b.length
        rw [← e, hb1]
        simp [EOC]
        omega
      · exact absurd hx' (by decide)
    · exact h3 x hx

/-- A codestream put together from conforming parts says where its parts end. -/
theorem gen_framed {env : Env} {o : Options} {csiz n : Nat} {g : GenCodestream}
    (h : g.Conforms env.catC o.format csiz n) : ∃ sot ts, Framed g.bytes g.siz n sot ts := by
  obtain ⟨htc, hn1, hn2⟩ := h.tiles
  obtain ⟨h1, ts, h2, h3⟩ := chain_gen hn2 g.tps (b := g.bytes)
    (pre := SOC ++ SIZ ++ g.siz ++ segBytes g.main) (by simp [GenCodestream.bytes]) h.tps
  obtain ⟨ss, sot, hm, hss, hsot⟩ := gen_mainHeader h
  cases hsot
  refine ⟨_, ts, ⟨csiz, ss, hm⟩, htc, h2, fun t ht => ?_, fun t ht _ he => (h3 t ht).2.2 he,
    fun t ht h0 => absurd h0 (h3 t ht).2.1⟩
  have := (h3 t ht).1
  omega

/-- C52 (conforming files): no proper beginning of a conforming codestream file, and no beginning of a conforming
JP2 or JPH file that ends before the end of its codestream, is reported valid. -/
theorem C52_conforming {env : Env} {me : MixEnv} {fs : FS} {fuel : Nat} {o : Options} {mix : Nat} {path : PyStr}
    {b : Bytes} {csiz n : Nat}
    (hb : (o.format = .j2c ∨ o.format = .jhc) ∧
        (∃ g : GenCodestream, g.Conforms env.catC o.format csiz n ∧ b = g.bytes) ∨
      (o.format = .jp2 ∨ o.format = .jph) ∧
        ∃ g : GenFile, g.Conforms env.catC o.format (fun d => (env.parseXml d).isSome = true) csiz n ∧
          ({ g with post := [] } : GenFile).Encodes b)
    {k : Nat} (hk : k < b.length) (hr : fs.read path = .data (b.take k)) :
    ¬ ReportedValid env me fs fuel o mix path := by
  rcases hb with ⟨hf, g, hg, rfl⟩ | ⟨hf, g, hg, hd, -, he⟩
  · obtain ⟨sot, ts, h⟩ := gen_framed hg
    exact C52_reported h (.inl ⟨hf, rfl⟩) hk hr
  · obtain ⟨sot, ts, h⟩ := gen_framed hg.cs
    have hty : ∀ x ∈ g.pre ++ g.mid, x.1 ≠ ascii "jp2c" := fun x hx =>
      (conforming_type (hg.others x (by rw [List.mem_append]; exact .inl hx))).2.2.2
    refine C52_reported h (.inr ⟨hf, [(ascii "jP  ", [0x0d, 0x0a, 0x87, 0x0a]), (ascii "ftyp", g.ftyp)] ++ g.pre ++
      [(ascii "jp2h", hd)] ++ g.mid, by simpa using he, ?_⟩) hk hr
    rintro ⟨x, hx, ht⟩
    simp only [List.mem_append, List.mem_cons, List.not_mem_nil, or_false] at hx
    rcases hx with (((rfl | rfl) | hx) | rfl) | hx
    · exact absurd ht (by decide)
    · exact absurd ht (by decide : ascii "ftyp" ≠ ascii "jp2c")
    · exact hty x (by simp [hx]) ht
    · exact absurd ht (by decide : ascii "jp2h" ≠ ascii "jp2c")
    · exact hty x (by simp [hx]) ht

/-! ## The conditions are needed -/

namespace Sample

/-- Codestream of a 1 × 1 image in one tile-part whose length is not declared. -/
def csOpen (data : Bytes) : Bytes :=
  [0xff, 0x4f] ++ siz1 ++ codSeg ++ qcdSeg ++ [0xff, 0x90] ++ be16 10 ++ be16 0 ++ be32 0 ++ [0, 1] ++ [0xff, 0x93] ++
    data ++ [0xff, 0xd9]

end Sample

/-- A valid codestream file, with a tile-part of undeclared length and an EOC code in its data, that remains valid
when it is cut off. -/
theorem C52_undeclared : ∃ env o b k, o.format = .j2c ∧ FileValid env o b ∧ k < b.length ∧
    FileValid env o (b.take k) :=
  ⟨Sample.env0, Sample.opts .j2c, Sample.csOpen [1, 0xff, 0xd9, 2, 3, 4], (Sample.csOpen [1, 0xff, 0xd9, 2, 3, 4]).length - 5,
    rfl, fileValid_of 200 (by decide +kernel), by decide, fileValid_of 200 (by decide +kernel)⟩

/-! ## The hypotheses are met -/

/-- By the codestream of every image, see `Image.Ok`. -/
example {i : Image} (h : i.Ok) : ∃ sot ts, Framed i.codestream.bytes i.siz i.tiles sot ts :=
  gen_framed (env := Sample.env0) (o := Sample.opts .j2c) (image_conforms h _ (.inr rfl))

/-- By a codestream with a tile-part of undeclared length. -/
theorem framed_open : Framed (Sample.csOpen [1, 2, 3, 4]) (sub (Sample.csOpen [1, 2, 3, 4]) 4 41) 1 65 [⟨65, 0, 0, 0, 1⟩] := by
  have e1 : SegAt (Sample.csOpen [1, 2, 3, 4]) 2 SIZ (sub (Sample.csOpen [1, 2, 3, 4]) 4 41) (some 45) := by
    have := SegAt.seg (b := Sample.csOpen [1, 2, 3, 4]) (off := 2) (L := 41) (by decide +kernel) (by decide +kernel)
    exact this
  have e2 : SegAt (Sample.csOpen [1, 2, 3, 4]) 45 COD (sub (Sample.csOpen [1, 2, 3, 4]) 47 12) (some 59) := by
    have := SegAt.seg (b := Sample.csOpen [1, 2, 3, 4]) (off := 45) (L := 12) (by decide +kernel) (by decide +kernel)
    exact this
  have e3 : SegAt (Sample.csOpen [1, 2, 3, 4]) 59 QCD (sub (Sample.csOpen [1, 2, 3, 4]) 61 4) (some 65) := by
    have := SegAt.seg (b := Sample.csOpen [1, 2, 3, 4]) (off := 59) (L := 4) (by decide +kernel) (by decide +kernel)
    exact this
  have e4 : SegAt (Sample.csOpen [1, 2, 3, 4]) 65 SOT (sub (Sample.csOpen [1, 2, 3, 4]) 67 10) (some 77) := by
    have := SegAt.seg (b := Sample.csOpen [1, 2, 3, 4]) (off := 65) (L := 10) (by decide +kernel) (by decide +kernel)
    exact this
  have e5 : SegAt (Sample.csOpen [1, 2, 3, 4]) 77 SOD [] (some 79) := by
    have := SegAt.alone (b := Sample.csOpen [1, 2, 3, 4]) (off := 77) (by decide +kernel)
    exact this
  have hat : (⟨65, 0, 0, 0, 1⟩ : TilePartInfo).At (Sample.csOpen [1, 2, 3, 4]) := by
    constructor <;> decide +kernel
  refine ⟨⟨1, _, ⟨_, e1, .step e2 (by decide) (.step e3 (by decide) (.found e4))⟩, by decide +kernel⟩, ?_, .last hat rfl, ?_, ?_, ?_⟩
  · refine ⟨1, 1, 1, 1, 0, 0, 1, 1, by decide +kernel, by decide +kernel, by decide +kernel, by decide +kernel, by decide +kernel,
      by decide +kernel, ?_, ?_, rfl⟩ <;> exact ⟨by decide, by decide⟩
  · intro t ht; cases List.mem_singleton.1 ht; decide
  · intro t ht h0; cases List.mem_singleton.1 ht; exact absurd rfl h0
  · intro t ht h0 ss sod hs j h1 h2
    cases List.mem_singleton.1 ht
    obtain ⟨-, e⟩ := segsTo_unique hs (.found e5)
    cases e
    have : ∀ j < 90, 79 ≤ j → j + 2 < (Sample.csOpen [1, 2, 3, 4]).length → sub (Sample.csOpen [1, 2, 3, 4]) j 2 ≠ EOC := by
      decide +kernel
    have hl : (Sample.csOpen [1, 2, 3, 4]).length = 85 := by decide +kernel
    exact this j (by omega) h1 h2

end Jpy
