import Verif.Spec.Complete
import Verif.Props.Unknown
import Verif.Props.Superboxes
import Verif.Props.Wrap
/-!
# Complete boxes (C63)
-/

namespace Jpy
open Spec Sample

theorem be_zero {l : Bytes} (h : l.length = 4) (hz : be l = 0) : l = [0, 0, 0, 0] := by
  match l, h with
  | [w, x, y, z], _ =>
    simp only [be, List.length_cons, List.length_nil] at hz
    have h1 : w = 0 := UInt8.toNat_inj.1 (by show w.toNat = 0; omega)
    have h2 : x = 0 := UInt8.toNat_inj.1 (by show x.toNat = 0; omega)
    have h3 : y = 0 := UInt8.toNat_inj.1 (by show y.toNat = 0; omega)
    have h4 : z = 0 := UInt8.toNat_inj.1 (by show z.toNat = 0; omega)
    rw [h1, h2, h3, h4]

theorem uint_be {b : Bytes} {i n v : Nat} (h : uint b i n = some v) : be (sub b i n) = v := by
  unfold uint at h
  split at h
  · simpa using h
  · cases h

theorem drop_split (b : Bytes) (i n : Nat) : b.drop i = sub b i n ++ b.drop (i + n) := by
  unfold sub
  rw [← List.drop_drop, List.take_append_drop]

theorem complete_encodes {b : Bytes} {off : Nat} {bs} (h : BoxesFrom b off bs) (hc : ∀ x ∈ bs, CompleteAt b x) :
    EncodesBoxes (bs.map fun x => (x.type, x.payload)) (b.drop off) := by
  induction h with
  | done h => rw [List.drop_eq_nil_of_le h]; exact .nil
  | @step off t p n bs hl hb h2 ih =>
    have ih := ih fun x hx => hc x (List.mem_cons_of_mem _ hx)
    obtain ⟨h4, h⟩ := hc _ (List.mem_cons_self ..)
    simp only at h4 h
    cases hb with
    | @short L h1 h3 =>
      rcases h with h | h | h
      · rw [h1] at h
        simp only [Option.some.injEq] at h
        have hlen := uint_some_le h1
        have hp : off + L ≤ b.length := by rw [length_sub] at h h4; omega
        have e : b.drop off = sub b off 4 ++ sub b (off + 4) 4 ++ sub b (off + 8) (L - 8) ++ b.drop (off + L) := by
          rw [drop_split b off 4, drop_split b (off + 4) 4, drop_split b (off + 4 + 4) (L - 8)]
          rw [show off + 4 + 4 + (L - 8) = off + L by omega]
          simp only [List.append_assoc]
        rw [e]
        refine .cons h4 (.short (by rw [length_sub]; omega) ?_) ih
        rw [uint_be h1]; exact h
      · rw [h1] at h; simp at h; omega
      · rw [h1] at h; simp at h; omega
    | @long X h1 h3 h5 =>
      rcases h with h | h | h
      · rw [h1] at h; simp at h; omega
      · obtain ⟨-, h⟩ := h
        rw [h3] at h
        simp only [Option.some.injEq] at h
        have hlen := uint_some_le h3
        have hp : off + X ≤ b.length := by rw [length_sub] at h; omega
        have e : b.drop off = sub b off 4 ++ sub b (off + 4) 4 ++ sub b (off + 8) 8 ++ sub b (off + 16) (X - 16) ++ b.drop (off + X) := by
          rw [drop_split b off 4, drop_split b (off + 4) 4, drop_split b (off + 4 + 4) 8,
            drop_split b (off + 4 + 4 + 8) (X - 16)]
          rw [show off + 4 + 4 + 8 + (X - 16) = off + X by omega]
          simp only [List.append_assoc]
        rw [e]
        refine .cons h4 (.long (by rw [length_sub]; omega) ?_ (by rw [length_sub]; omega) ?_) ih
        · exact uint_be h1
        · rw [uint_be h3]; exact h
      · rw [h1] at h; simp at h
    | toEnd h1 =>
      have hb : bs = [] := by
        cases h2 with
        | done => rfl
        | step h => omega
        | last h => omega
      subst hb
      have hlen := uint_some_le h1
      have e : b.drop off = [0, 0, 0, 0] ++ sub b (off + 4) 4 ++ b.drop (off + 8) := by
        rw [length_sub] at h4
        rw [drop_split b off 4, drop_split b (off + 4) 4]
        have : sub b off 4 = [0, 0, 0, 0] := by
          exact be_zero (by rw [length_sub]; omega) (uint_be h1)
        rw [this]; simp only [List.append_assoc]
      rw [e]
      exact .toEnd h4
    | longToEnd h1 h3 =>
      rcases h with h | h | h
      · rw [h1] at h; simp at h; omega
      · rw [h3] at h; simp only [Option.some.injEq] at h; omega
      · rw [h1] at h; simp at h
  | @last off t p hl hb =>
    obtain ⟨h4, h⟩ := hc _ (List.mem_cons_self ..)
    simp only at h4 h
    cases hb with
    | noLength h1 => rw [h1] at h; simp at h
    | noLongLength h1 h2 => rw [h1, h2] at h; simp at h

theorem encodes_complete {l : List (Bytes × Bytes)} {e : Bytes} (h : EncodesBoxes l e) : ∀ a : Bytes,
    ∃ bs, BoxesFrom (a ++ e) a.length bs ∧ ∀ x ∈ bs, CompleteAt (a ++ e) x := by
  induction h with
  | nil => intro a; exact ⟨[], .done (by simp), fun _ h => nomatch h⟩
  | @cons t p e rest es ht he _ ih =>
    intro a
    obtain ⟨bs, h1, h2⟩ := ih (a ++ e)
    obtain ⟨h3, h4⟩ := boxAt_encodes ht he a es
    rw [List.append_assoc, List.length_append] at h1
    rw [List.append_assoc] at h2
    refine ⟨⟨a.length, t, p⟩ :: bs, .step (by simp; omega) h3 h1, ?_⟩
    intro x hx
    rcases List.mem_cons.1 hx with rfl | hx
    · refine ⟨ht, ?_⟩
      cases he with
      | @short L hL hv =>
        left
        rw [← hv]; exact uint_mid' (post := t ++ p ++ es) (by simp) rfl hL.symm
      | @long one x ho hv1 hx hv =>
        right; left
        constructor
        · rw [← hv1]; exact uint_mid' (post := t ++ x ++ p ++ es) (by simp) rfl ho.symm
        · rw [← hv]
          exact uint_mid' (pre := a ++ one ++ t) (post := p ++ es) (by simp) (by simp [ho, ht]) hx.symm
    · exact h2 x hx
  | @toEnd t p ht =>
    intro a
    have e1 : uint (a ++ ([0, 0, 0, 0] ++ t ++ p)) a.length 4 = some 0 :=
      uint_mid' (x := [0, 0, 0, 0]) (post := t ++ p) (by simp) rfl rfl
    have e2 : sub (a ++ ([0, 0, 0, 0] ++ t ++ p)) (a.length + 4) 4 = t :=
      sub_mid' (pre := a ++ [0, 0, 0, 0]) (post := p) (by simp) (by simp) ht.symm
    have e3 : (a ++ ([0, 0, 0, 0] ++ t ++ p)).drop (a.length + 8) = p := by
      have : a ++ ([0, 0, 0, 0] ++ t ++ p) = (a ++ [0, 0, 0, 0] ++ t) ++ p := by simp
      rw [this, show a.length + 8 = (a ++ [0, 0, 0, 0] ++ t).length by simp [ht], List.drop_left]
    have hb := BoxAt.toEnd e1
    rw [e2, e3] at hb
    refine ⟨[⟨a.length, t, p⟩], .step (by simp) hb (.done (Nat.le_refl _)), ?_⟩
    intro x hx
    obtain rfl := List.mem_singleton.1 hx
    exact ⟨ht, .inr (.inr ⟨e1, by simp [ht]; omega⟩)⟩

/-- Complete boxes are the same as an encoding of boxes according to ISO/IEC 15444-1 I.4. -/
theorem allComplete_iff (b : Bytes) : AllComplete b ↔ ∃ l, EncodesBoxes l b := by
  constructor
  · intro h
    obtain ⟨bs, hb⟩ := boxes_exists b
    exact ⟨_, complete_encodes hb (h bs hb)⟩
  · rintro ⟨l, h⟩ bs hb
    obtain ⟨bs', h1, h2⟩ := encodes_complete h []
    obtain rfl := boxes_unique hb h1
    exact h2

/-- A box that is followed by another one is complete or has no payload. -/
theorem followed_complete {b : Bytes} {off : Nat} {bs} (h : BoxesFrom b off bs) : ∀ {pre x y post},
    bs = pre ++ x :: y :: post → CompleteAt b x ∨ x.payload = [] := by
  induction h with
  | done => intro pre x y post e; simp at e
  | last => intro pre x y post e; cases pre <;> simp at e
  | @step off t p n bs hl hb h2 ih =>
    intro pre x y post e
    cases pre with
    | cons z pre =>
      simp only [List.cons_append, List.cons.injEq] at e
      exact ih e.2
    | nil =>
      simp only [List.nil_append, List.cons.injEq] at e
      obtain ⟨rfl, rfl⟩ := e
      have hn : n < b.length := by
        cases h2 with
        | step h => exact h
        | last h => exact h
      cases hb with
      | @short L h1 h2 =>
        by_cases h8 : 8 ≤ L
        · left
          refine ⟨by simp only [length_sub]; omega, .inl ?_⟩
          simp only [length_sub]
          rw [h1]; congr 1; omega
        · right
          simp only []
          rw [show L - 8 = 0 by omega]
          simp [sub]
      | @long X h1 h3 h4 =>
        have := uint_some_le h3
        by_cases h8 : 16 ≤ X
        · left
          refine ⟨by simp only [length_sub]; omega, .inr (.inl ⟨h1, ?_⟩)⟩
          simp only [length_sub]
          rw [h3]; congr 1; omega
        · right
          simp only []
          rw [show X - 16 = 0 by omega]
          simp [sub]
      | toEnd => omega
      | longToEnd => omega

theorem more_weaken {k bs bs'} : More k bs bs' → ∀ j ≤ k, More j bs bs'
  | .nil, _, _ => .nil
  | .keep h1 h2, j, hj => .keep h1 (more_weaken h2 (j - 1) (by omega))
  | .add h1 h2, j, hj => by obtain rfl : j = 0 := by omega
                            exact .add h1 h2

/-- The same boxes in front of two lists of boxes. -/
theorem more_after {n : Nat} {pre : Bytes} (h : WholeBoxes n pre) {q q' : Bytes} {k : Nat}
    (hq : ∀ a : Bytes, ∃ bs bs', BoxesFrom (a ++ q) a.length bs ∧ BoxesFrom (a ++ q') a.length bs' ∧ More k bs bs') :
    ∀ a : Bytes, ∃ bs bs', BoxesFrom (a ++ (pre ++ q)) a.length bs ∧ BoxesFrom (a ++ (pre ++ q')) a.length bs' ∧
      More (k + n) bs bs' := by
  induction h with
  | nil => intro a; simpa using hq a
  | @cons t' p' e' n es ht' he' _ ih =>
    intro a
    obtain ⟨bs, bs', h1, h2, h3⟩ := ih (a ++ e')
    obtain ⟨h4, h5⟩ := boxAt_encodes ht' he' a (es ++ q)
    obtain ⟨h6, -⟩ := boxAt_encodes ht' he' a (es ++ q')
    refine ⟨⟨a.length, t', p'⟩ :: bs, ⟨a.length, t', p'⟩ :: bs', .step (n := a.length + e'.length) (by simp; omega) (by simpa using h4) ?_,
      .step (n := a.length + e'.length) (by simp; omega) (by simpa using h6) ?_, .keep .same (by simpa [Nat.add_assoc] using h3)⟩
    · simpa using h1
    · simpa using h2

/-- C63 (partial): in a valid JP2 or JPH file a signature, file type, JP2 header or codestream box that is
not the last box is complete. What is missing: the last box and boxes of other types. -/
theorem C63_partial (env : Env) (o : Options) (hfmt : o.format = .jp2 ∨ o.format = .jph) {b : Bytes}
    (h : FileValid env o b) {pre post : List FoundBox} {x y : FoundBox} (hb : Boxes b (pre ++ x :: y :: post))
    (ht : x.type ∈ [ascii "jP  ", ascii "ftyp", ascii "jp2h", ascii "jp2c"]) : CompleteAt b x := by
  rcases followed_complete hb rfl with hc | hp
  · exact hc
  have hpass := boxes_pass hfmt h (HasBox.top hb (x := x) (by simp))
  rw [hp] at hpass
  simp only [List.mem_cons, List.not_mem_nil, or_false] at ht
  rcases ht with ht | ht | ht | ht <;> rw [ht] at hpass
  · exact absurd ((passes_of fun f => C16_signature env o f []).1 hpass) (by unfold SignatureOk; decide)
  · obtain ⟨-, ⟨v, hv, -⟩, -⟩ := (passes_of fun f => C16_ftyp env o f []).1 hpass
    cases hv
  · obtain ⟨ih, rest, hbs, -⟩ := (C18_header env o []).1 hpass
    have := boxes_unique hbs (.done (Nat.le_refl 0))
    cases this
  · obtain ⟨p, hp⟩ := (C23_codestream env o []).1 ((jp2c_passes env o []).1 hpass)
    exact absurd hp.eoc.1 (by decide)

/-- C63: up to three bytes of any value after two or more complete boxes make a JP2 or JPH file neither
valid nor invalid. -/
theorem C63_trailing (env : Env) (o : Options) (hfmt : o.format = .jp2 ∨ o.format = .jph) {n : Nat} {pre : Bytes}
    (h : WholeBoxes n pre) (hn : 2 ≤ n) (tail : Bytes) (ht : tail.length ≤ 3) :
    FileValid env o (pre ++ tail) ↔ FileValid env o pre := by
  by_cases h0 : tail = []
  · rw [h0, List.append_nil]
  have hp : 0 < tail.length := List.length_pos_iff.2 h0
  obtain ⟨bs, bs', h1, h2, h3⟩ := more_after h (q := []) (q' := tail) (k := 0) (fun a => by
    refine ⟨[], [⟨a.length, [], []⟩], .done (by simp), .last (by simp; omega) ?_, .add ⟨(by decide : ([] : Bytes) ∉ knownBoxTypes), (by decide : ([] : Bytes) ∉ knownMarkers)⟩ .nil⟩
    have e : uint (a ++ tail) a.length 4 = none := by
      unfold uint; rw [if_neg (by simp; omega)]
    have := BoxAt.noLength e
    rwa [show sub (a ++ tail) (a.length + 4) 4 = [] from by
      unfold sub; rw [List.drop_eq_nil_of_le (by simp; omega)]; rfl] at this) []
  exact C42_file env o hfmt ⟨bs, bs', by simpa [Boxes] using h1, by simpa [Boxes] using h2, more_weaken h3 2 (by omega)⟩

theorem lastBox_from {t p e : Bytes} (ht : t.length = 4) (h : LastBox t p e) (a : Bytes) :
    BoxesFrom (a ++ e) a.length [⟨a.length, t, p⟩] := by
  cases h with
  | @short l hl hv =>
    have e1 : uint (a ++ (l ++ t ++ p)) a.length 4 = some (be l) := uint_mid' (post := t ++ p) (by simp) rfl hl.symm
    have e2 : sub (a ++ (l ++ t ++ p)) (a.length + 4) 4 = t :=
      sub_mid' (pre := a ++ l) (post := p) (by simp) (by simp [hl]) ht.symm
    have e3 : (a ++ (l ++ t ++ p)).drop (a.length + 8) = p := by
      have : a ++ (l ++ t ++ p) = (a ++ l ++ t) ++ p := by simp
      rw [this, show a.length + 8 = (a ++ l ++ t).length by simp [ht, hl], List.drop_left]
    rcases hv with hv | hv
    · have hb := BoxAt.toEnd (e1.trans (by rw [hv]))
      rw [e2, e3] at hb
      exact .step (by simp; omega) hb (.done (Nat.le_refl _))
    · have hb := BoxAt.short e1 (by omega)
      rw [e2, sub, e3, List.take_of_length_le (by omega)] at hb
      exact .step (by simp; omega) hb (.done (by simp; omega))
  | @long one x h1 hv1 hx hv =>
    have e0 : uint (a ++ (one ++ t ++ x ++ p)) a.length 4 = some 1 := by
      rw [← hv1]; exact uint_mid' (post := t ++ x ++ p) (by simp) rfl h1.symm
    have e1 : uint (a ++ (one ++ t ++ x ++ p)) (a.length + 8) 8 = some (be x) :=
      uint_mid' (pre := a ++ one ++ t) (post := p) (by simp) (by simp [h1, ht]) hx.symm
    have e2 : sub (a ++ (one ++ t ++ x ++ p)) (a.length + 4) 4 = t :=
      sub_mid' (pre := a ++ one) (post := x ++ p) (by simp) (by simp [h1]) ht.symm
    have e3 : (a ++ (one ++ t ++ x ++ p)).drop (a.length + 16) = p := by
      have : a ++ (one ++ t ++ x ++ p) = (a ++ one ++ t ++ x) ++ p := by simp
      rw [this, show a.length + 16 = (a ++ one ++ t ++ x).length by simp [ht, h1, hx], List.drop_left]
    rcases hv with hv | hv
    · have hb := BoxAt.longToEnd e0 (e1.trans (by rw [hv]))
      rw [e2, e3] at hb
      exact .step (by simp; omega) hb (.done (Nat.le_refl _))
    · have hb := BoxAt.long e0 e1 (by omega)
      rw [e2, sub, e3, List.take_of_length_le (by omega)] at hb
      exact .step (by simp; omega) hb (.done (by simp; omega))

/-- C63: the declared length of the last box does not matter, as long as it is zero or at least the actual
length. -/
theorem C63_overlong (env : Env) (o : Options) (hfmt : o.format = .jp2 ∨ o.format = .jph) {n : Nat} {pre : Bytes}
    (h : WholeBoxes n pre) {t p e e' : Bytes} (ht : t.length = 4) (he : LastBox t p e) (he' : LastBox t p e') :
    FileValid env o (pre ++ e) ↔ FileValid env o (pre ++ e') := by
  obtain ⟨bs, bs', h1, h2, h3⟩ := more_after h (q := e') (q' := e) (k := 2) (fun a =>
    ⟨_, _, lastBox_from ht he' a, lastBox_from ht he a, .keep .same .nil⟩) []
  exact C42_file env o hfmt ⟨bs, bs', by simpa [Boxes] using h1, by simpa [Boxes] using h2, more_weaken h3 2 (by omega)⟩

/-- The boxes of `jp2`. -/
def jp2Boxes : List FoundBox := [⟨0, ascii "jP  ", [0x0d, 0x0a, 0x87, 0x0a]⟩,
  ⟨12, ascii "ftyp", ascii "jp2 " ++ be32 0 ++ ascii "jp2 "⟩, ⟨32, ascii "jp2h", ihdr 1 1 1 7 ++ colr 17⟩,
  ⟨77, ascii "jp2c", cs1⟩]

/-- C63 is false as it stands: trailing bytes, a last box that declares more than there is, and a box
without complete header are all accepted. -/
theorem C63_false : (FileValid env0 (opts .jp2) (jp2 ++ [0x61, 0x62]) ∧ ¬ AllComplete (jp2 ++ [0x61, 0x62])) ∧
    (FileValid env0 (opts .jp2) (jp2 ++ be32 800 ++ ascii "abcd") ∧ ¬ AllComplete (jp2 ++ be32 800 ++ ascii "abcd")) ∧
    (FileValid env0 (opts .jp2) (jp2 ++ be32 8 ++ ascii "ab") ∧ ¬ AllComplete (jp2 ++ be32 8 ++ ascii "ab")) := by
  refine ⟨⟨fileValid_of 100 (by decide +kernel), fun h => ?_⟩, ⟨fileValid_of 100 (by decide +kernel), fun h => ?_⟩,
    fileValid_of 100 (by decide +kernel), fun h => ?_⟩
  · have := h (jp2Boxes ++ [⟨166, [], []⟩]) (boxes_of 10 (by decide +kernel)) _ (List.mem_append_right _ (List.mem_singleton.2 rfl))
    exact absurd this.1 (by decide)
  · have := h (jp2Boxes ++ [⟨166, ascii "abcd", []⟩]) (boxes_of 10 (by decide +kernel)) _ (List.mem_append_right _ (List.mem_singleton.2 rfl))
    have h0 : uint (jp2 ++ be32 800 ++ ascii "abcd") 166 4 = some 800 := by decide +kernel
    simp only [CompleteAt, h0] at this
    simp at this
  · have := h (jp2Boxes ++ [⟨166, ascii "ab", []⟩]) (boxes_of 10 (by decide +kernel)) _ (List.mem_append_right _ (List.mem_singleton.2 rfl))
    exact absurd this.1 (by decide)

/-- The first four boxes of `jp2` with something after them, as complete boxes. -/
theorem jp2_whole : WholeBoxes 4 jp2 := by
  have e : jp2 = sig ++ (ftyp "jp2 " ++ (box "jp2h" (ihdr 1 1 1 7 ++ colr 17) ++ (box "jp2c" cs1 ++ []))) := by
    simp [jp2]
  rw [e]
  exact .cons (t := ascii "jP  ") rfl (.short (l := be32 12) (p := [0x0d, 0x0a, 0x87, 0x0a]) rfl rfl)
    (.cons (t := ascii "ftyp") rfl (.short (l := be32 20) (p := ascii "jp2 " ++ be32 0 ++ ascii "jp2 ") rfl rfl)
      (.cons (t := ascii "jp2h") rfl (.short (l := be32 45) (p := ihdr 1 1 1 7 ++ colr 17) rfl rfl)
        (.cons (t := ascii "jp2c") rfl (.short (l := be32 89) (p := cs1) rfl rfl) .nil)))

theorem jp2_fileValid : FileValid env0 (opts .jp2) jp2 := fileValid_of 100 (by decide +kernel)

/-- `C63_partial` at work: the JP2 header box of a valid file. -/
example : CompleteAt jp2 ⟨32, ascii "jp2h", ihdr 1 1 1 7 ++ colr 17⟩ :=
  C63_partial env0 (opts .jp2) (.inl rfl) jp2_fileValid (b := jp2)
    (pre := [⟨0, ascii "jP  ", [0x0d, 0x0a, 0x87, 0x0a]⟩, ⟨12, ascii "ftyp", ascii "jp2 " ++ be32 0 ++ ascii "jp2 "⟩])
    (y := ⟨77, ascii "jp2c", cs1⟩) (post := []) (boxes_of 10 (by decide +kernel)) (by decide)

/-- `C63_trailing` at work. -/
example (x y z : UInt8) : FileValid env0 (opts .jp2) (jp2 ++ [x, y, z]) :=
  (C63_trailing env0 (opts .jp2) (.inl rfl) jp2_whole (by decide) [x, y, z] (Nat.le_refl 3)).2 jp2_fileValid

/-- `C63_overlong` at work: another box of length zero, or of any declared length. -/
example : FileValid env0 (opts .jp2) (jp2 ++ (be32 0 ++ ascii "abcd" ++ [1, 2])) ↔
    FileValid env0 (opts .jp2) (jp2 ++ (be32 1000 ++ ascii "abcd" ++ [1, 2])) :=
  C63_overlong env0 (opts .jp2) (.inl rfl) jp2_whole rfl (.short rfl (.inl rfl)) (.short rfl (.inr (by decide)))

end Jpy
