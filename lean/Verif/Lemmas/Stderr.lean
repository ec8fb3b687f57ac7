import Verif.Spec.Stderr
import Verif.Props.Warnings
/-! # Messages on standard error -/

namespace Jpy
open Spec

/-! ## Computations that print -/

theorem said_bind {α β : Type} (x : Said α) (f : α → Said β) : x >>= f = Said.bind x f := rfl

theorem result_bind {α β : Type} (x : Said α) (f : α → Said β) :
    (x >>= f).result = x.result >>= fun a => (f a).result := by
  rw [said_bind]; unfold Said.bind
  cases x.result <;> rfl

@[simp] theorem result_lift {α : Type} (x : Outcome α) : (Said.lift x).result = x := rfl
@[simp] theorem said_lift {α : Type} (x : Outcome α) : (Said.lift x).said = [] := rfl

/-- Messages are printed as listed, all of them if there is a result. -/
def Tells {α : Type} (s : Said α) (ms : List String) : Prop := s.said <+: ms ∧ ∀ a, s.result = .ok a → s.said = ms

theorem Tells.lift {α : Type} (x : Outcome α) : Tells (Said.lift x) [] := ⟨List.prefix_rfl, fun _ _ => rfl⟩

theorem Tells.timeout {α : Type} (ms : List String) : Tells (Said.lift (α := α) .timeout) ms :=
  ⟨List.nil_prefix, fun _ h => nomatch h⟩

theorem Tells.bind {α β : Type} {x : Said α} {f : α → Said β} {m1 m2 : List String} (h1 : Tells x m1)
    (h2 : ∀ a, x.result = .ok a → Tells (f a) m2) : Tells (x >>= f) (m1 ++ m2) := by
  obtain ⟨p1, e1⟩ := h1
  unfold Tells
  rw [said_bind]
  unfold Said.bind
  cases hx : x.result with
  | timeout => exact ⟨p1.trans (List.prefix_append ..), fun _ h => nomatch h⟩
  | raised e => exact ⟨p1.trans (List.prefix_append ..), fun _ h => nomatch h⟩
  | ok a =>
    obtain ⟨p2, e2⟩ := h2 a hx
    simp only
    rw [e1 a hx]
    exact ⟨(List.prefix_append_right_inj _).2 p2, fun c hc => by rw [e2 c hc]⟩

theorem Tells.bind0 {α β : Type} {x : Said α} {f : α → Said β} {m : List String} (h1 : Tells x m)
    (h2 : ∀ a, x.result = .ok a → Tells (f a) []) : Tells (x >>= f) m := by
  have := h1.bind h2; rwa [List.append_nil] at this

theorem Tells.print (msg : String) : Tells (printWarning msg) [msg] := ⟨List.prefix_rfl, fun _ _ => rfl⟩

/-! ## The results are those of the other model -/

theorem boxLoopS_result {subS : Bytes → Bytes → Said BoxResult} {sub : Bytes → Bytes → Outcome BoxResult} {b : Bytes}
    (h : ∀ t c, (subS t c).result = sub t c) : ∀ (fuel : Nat) (i l : Int) (n : Node) (ts : List Bytes),
    (boxLoopS subS b fuel i l n ts).result = boxLoop sub b fuel i l n ts
  | 0, _, _, _, _ => rfl
  | fuel + 1, i, l, n, ts => by
    unfold boxLoopS boxLoop
    split
    · simp only [result_bind, h, boxLoopS_result h fuel]
    · rfl

theorem validateBoxS_result (env : Env) (o : Options) : ∀ (fuel : Nat) (t c : Bytes),
    (validateBoxS env o fuel t c).result = validateBox env o fuel t c
  | 0, _, _ => rfl
  | fuel + 1, t, c => by
    have hw : (walkBoxesS (validateBoxS env o fuel) c fuel).result = walkBoxes (validateBox env o fuel) c fuel :=
      boxLoopS_result (validateBoxS_result env o fuel) fuel 0 10 {} []
    unfold validateBoxS validateBox
    cases boxTypeOf t <;> simp only [result_bind, hw, result_lift] <;> first
      | rfl
      | (cases validateLeaf env o fuel none t c <;> rfl)

theorem validateJP2S_result (env : Env) (o : Options) (fuel : Nat) (b : Bytes) :
    (validateJP2S env o fuel b).result = validateJP2 env o fuel b := by
  have hw : (walkBoxesS (validateBoxS env o fuel) b fuel).result = walkBoxes (validateBox env o fuel) b fuel :=
    boxLoopS_result (validateBoxS_result env o fuel) fuel 0 10 {} []
  unfold validateJP2S validateJP2
  simp only [result_bind, hw, result_lift]

theorem validateRootS_result (env : Env) (o : Options) (fuel : Nat) (b : Bytes) :
    (validateRootS env o fuel b).result = validateRoot env o fuel b := by
  unfold validateRootS validateRoot
  cases o.format <;> simp only [validateJP2S_result, result_lift]

theorem fileToMemoryMapS_result (fs : FS) (path : PyStr) :
    (fileToMemoryMapS fs path).result = fileToMemoryMap fs path := by
  unfold fileToMemoryMapS fileToMemoryMap
  cases fs.read path with
  | data b => cases b <;> rfl
  | error e => rfl
  | tooLarge gb => rfl

theorem analyseTryS_result (env : Env) (fs : FS) (o : Options) (fuel : Nat) (path : PyStr) :
    (analyseTryS env fs o fuel path).result = analyseTry env fs o fuel path := by
  unfold analyseTryS analyseTry
  simp only [result_bind, fileToMemoryMapS_result, validateRootS_result, result_lift]

theorem analyseS_result (env : Env) (fs : FS) (o : Options) (fuel : Nat) (path : PyStr) :
    (analyseS env fs o fuel path).result = analyse env fs o fuel path := by
  unfold analyseS analyse
  simp only [analyseTryS_result]
  cases analyseTry env fs o fuel path <;> rfl

theorem checkOneFileS_result (env : Env) (me : MixEnv) (fs : FS) (fuel : Nat) (o : Options) (mix : Nat)
    (path : PyStr) : (checkOneFileS env me fs fuel o mix path).result = checkOneFile env me fs fuel o mix path := by
  unfold checkOneFileS checkOneFile
  simp only [result_bind, analyseS_result, result_lift]
  congr 1; funext info
  congr 1; funext a
  by_cases h : mix ≠ 0 ∧ a.isValid = true
  · rw [if_pos h, if_pos h]
    cases generateMix me mix a.props <;> rfl
  · rw [if_neg h, if_neg h]
    rfl

/-! ## The messages about boxes -/

theorem told_cons {env : Env} {x bs ms} : Told env (x :: bs) ms ↔
    ∃ m1 m2, Told env [x] m1 ∧ Told env bs m2 ∧ ms = m1 ++ m2 := by
  constructor
  · intro h
    cases h with
    | unknown h1 h2 h3 h4 => exact ⟨[_], _, .unknown h1 h2 h3 .nil, h4, rfl⟩
    | ipr h4 => exact ⟨[_], _, .ipr .nil, h4, rfl⟩
    | super h1 h2 h3 h4 => exact ⟨_ ++ [], _, .super h1 h2 h3 .nil, h4, by simp⟩
    | other h1 h2 h3 h4 => exact ⟨[], _, .other h1 h2 h3 .nil, h4, rfl⟩
  · rintro ⟨m1, m2, h, h4, rfl⟩
    cases h with
    | unknown h1 h2 h3 h => cases h; exact .unknown h1 h2 h3 h4
    | ipr h => cases h; exact .ipr h4
    | super h1 h2 h3 h => cases h; rw [List.append_nil]; exact .super h1 h2 h3 h4
    | other h1 h2 h3 h => cases h; exact .other h1 h2 h3 h4

/-- Some messages for each list of boxes. -/
theorem told_all {env : Env} {bs : List FoundBox} (h : ∀ x ∈ bs, ∃ ms, Told env [x] ms) : ∃ ms, Told env bs ms := by
  induction bs with
  | nil => exact ⟨_, .nil⟩
  | cons x bs ih =>
    obtain ⟨m1, h1⟩ := h x (by simp)
    obtain ⟨m2, h2⟩ := ih fun y hy => h y (by simp [hy])
    exact ⟨_, told_cons.2 ⟨_, _, h1, h2, rfl⟩⟩

/-- There are messages for the boxes of any contents. -/
theorem told_exists (env : Env) : ∀ (n : Nat) (b : Bytes) (bs : List FoundBox), b.length ≤ n → Boxes b bs →
    ∃ ms, Told env bs ms
  | n, b, bs, hn, hb => told_all fun x hx => by
    have hl := (boxesFrom_mem hb hx).2.1
    obtain ⟨s, t, p⟩ := x
    simp only at hl
    by_cases h1 : t ∈ superboxTypes
    · obtain ⟨hs, hp⟩ := boxes_exists p
      cases n with
      | zero => omega
      | succ n =>
        obtain ⟨ms, hm⟩ := told_exists env n p hs (by omega) hp
        exact ⟨_, .super h1 hp hm .nil⟩
    · by_cases h2 : t = ascii "jp2i"
      · subst h2; exact ⟨_, .ipr .nil⟩
      · by_cases h3 : t ∈ knownBoxTypes
        · exact ⟨_, .other (.inl h3) h2 h1 .nil⟩
        · by_cases h4 : t ∈ knownMarkers
          · exact ⟨_, .other (.inr h4) h2 h1 .nil⟩
          · exact ⟨_, .unknown h3 h4 (typeText_exists env t) .nil⟩

theorem super_known : ∀ {t}, t ∈ superboxTypes → t ∈ knownBoxTypes ∧ t ≠ ascii "jp2i" := by
  have : ∀ t ∈ superboxTypes, t ∈ knownBoxTypes ∧ t ≠ ascii "jp2i" := by decide
  exact fun {t} h => this t h

theorem ipr_known : ascii "jp2i" ∈ knownBoxTypes := by decide

/-- The specification leaves no choice. -/
theorem told_unique {env : Env} {bs ms} (h : Told env bs ms) : ∀ {ms'}, Told env bs ms' → ms = ms' := by
  induction h with
  | nil => intro _ h'; cases h'; rfl
  | unknown h1 h2 h3 _ ih =>
    intro _ h'
    cases h' with
    | unknown _ _ h3' h4 => rw [typeText_unique h3 h3', ih h4]
    | ipr _ => exact absurd ipr_known h1
    | super h _ _ _ => exact absurd (super_known h).1 h1
    | other h _ _ _ => exact absurd h (by simp [h1, h2])
  | ipr _ ih =>
    intro _ h'
    cases h' with
    | unknown h1 _ _ _ => exact absurd ipr_known h1
    | ipr h => rw [ih h]
    | super h _ _ _ => exact absurd rfl (super_known h).2
    | other _ h _ _ => exact absurd rfl h
  | super h1 h2 _ _ ih1 ih2 =>
    intro _ h'
    cases h' with
    | unknown h _ _ _ => exact absurd (super_known h1).1 h
    | ipr _ => exact absurd rfl (super_known h1).2
    | super _ h2' h3' h4' =>
      obtain rfl := boxes_unique h2 h2'
      rw [ih1 h3', ih2 h4']
    | other _ _ h _ => exact absurd h1 h
  | other h1 h2 h3 _ ih =>
    intro _ h'
    cases h' with
    | unknown h4 h5 _ _ => exact absurd h1 (by simp [h4, h5])
    | ipr _ => exact absurd rfl h2
    | super h _ _ _ => exact absurd h h3
    | other _ _ _ h => exact ih h

theorem boxLoopS_tells {env : Env} {sub : Bytes → Bytes → Said BoxResult} {b : Bytes} {off : Nat} {bs}
    (h : BoxesFrom b off bs) : (∀ x ∈ bs, ∀ m, Told env [x] m → Tells (sub x.type x.payload) m) →
    ∀ {fuel : Nat} {l : Int} {node types ms}, Told env bs ms → l ≠ 0 → l ≠ -9999 →
      Tells (boxLoopS sub b fuel off l node types) ms := by
  induction h with
  | done hl =>
    intro _ fuel l node types ms hm _ _
    cases hm
    cases fuel with
    | zero => exact .lift _
    | succ fuel => unfold boxLoopS; rw [if_neg (by omega)]; exact .lift _
  | @step off t p n bs hl hb h2 ih =>
    intro hx fuel l node types ms hm h0 h9
    cases fuel with
    | zero => exact .timeout _
    | succ fuel =>
      unfold boxLoopS
      obtain ⟨n', hb', hn'⟩ := getBox_spec (b := b) hl
      obtain ⟨ht, hp, hn⟩ := boxAt_unique hb hb'
      subst hn
      simp only at hn' ⊢
      rw [if_pos ⟨by omega, h0, h9⟩, ← ht, ← hp]
      obtain ⟨m1, m2, e1, e2, rfl⟩ := told_cons.1 hm
      refine Tells.bind (hx _ (by simp) _ e1) fun r _ => ?_
      rw [hn'.1]
      exact ih (fun x hx' => hx x (by simp [hx'])) e2 hn'.2.1 hn'.2.2
  | @last off t p hl hb =>
    intro hx fuel l node types ms hm h0 h9
    cases fuel with
    | zero => exact .timeout _
    | succ fuel =>
      unfold boxLoopS
      obtain ⟨n', hb', hn'⟩ := getBox_spec (b := b) hl
      obtain ⟨ht, hp, hn⟩ := boxAt_unique hb hb'
      subst hn
      simp only at hn' ⊢
      rw [if_pos ⟨by omega, h0, h9⟩, ← ht, ← hp]
      refine Tells.bind0 (hx _ (by simp) _ hm) fun r _ => ?_
      cases fuel with
      | zero => exact .timeout _
      | succ fuel => unfold boxLoopS; rw [if_neg (by simp [hn'])]; exact .lift _

theorem walkBoxesS_tells {env : Env} {sub : Bytes → Bytes → Said BoxResult} {b : Bytes} {bs} (h : Boxes b bs)
    (hx : ∀ x ∈ bs, ∀ m, Told env [x] m → Tells (sub x.type x.payload) m) {fuel : Nat} {ms} (hm : Told env bs ms) :
    Tells (walkBoxesS sub b fuel) ms := boxLoopS_tells h hx hm (by decide) (by decide)

theorem boxTypeOf_ipr {t : Bytes} : boxTypeOf t = .intellectualPropertyBox ↔ t = ascii "jp2i" :=
  boxTypeOf_iff (k := ascii "jp2i") rfl (by decide) t

theorem validateBoxS_tells (env : Env) (o : Options) : ∀ (fuel : Nat) (x : FoundBox) (m : List String),
    Told env [x] m → Tells (validateBoxS env o fuel x.type x.payload) m
  | 0, _, _, _ => .timeout _
  | fuel + 1, ⟨s, t, p⟩, m, hm => by
    have walk : ∀ {hs inner}, Boxes p hs → Told env hs inner →
        Tells (walkBoxesS (validateBoxS env o fuel) p fuel) inner := fun hb hi =>
      walkBoxesS_tells hb (fun x _ m hm => validateBoxS_tells env o fuel x m hm) hi
    simp only
    cases hm with
    | unknown h1 h2 h3 h4 =>
      cases h4
      have hu := boxTypeOf_unknown.2 ⟨h1, h2⟩
      obtain rfl := typeText_unique h3 (typeText_exists env t)
      unfold validateBoxS
      rw [hu]
      simp only
      refine Tells.bind (m1 := []) (.lift _) fun r _ => ?_
      exact Tells.bind0 (.print _) fun _ _ => .lift _
    | ipr h4 =>
      cases h4
      unfold validateBoxS
      rw [boxTypeOf_ipr.2 rfl]
      simp only
      exact Tells.bind0 (.print _) fun _ _ => .lift _
    | @super _ _ _ hs inner _ _ h1 h2 h3 h4 =>
      cases h4
      rw [List.append_nil]
      unfold validateBoxS
      rcases superboxTypes_cases.1 h1 with e | e | e <;> rw [e] <;> simp only <;>
        exact Tells.bind0 (walk h2 h3) fun _ _ => .lift _
    | other h1 h2 h3 h4 =>
      cases h4
      unfold validateBoxS
      split
      · rename_i e; exact absurd (superboxTypes_cases.2 (.inl e)) h3
      · rename_i e; exact absurd (superboxTypes_cases.2 (.inr (.inl e))) h3
      · rename_i e; exact absurd (superboxTypes_cases.2 (.inr (.inr e))) h3
      · exact Tells.bind0 (.lift _) fun _ _ => .lift _
      · exact .lift _
      · rename_i e; exact absurd (boxTypeOf_ipr.1 e) h2
      · rename_i e; obtain ⟨g1, g2⟩ := boxTypeOf_unknown.1 e; exact absurd h1 (by simp [g1, g2])
      · exact .lift _

/-- The messages printed while the contents of a file are validated. -/
theorem validateRootS_tells {env : Env} {o : Options} {fuel : Nat} {b : Bytes} {bs ms} (hb : Boxes b bs)
    (hm : Told env bs ms) (hf : o.format = .jp2 ∨ o.format = .jph) : Tells (validateRootS env o fuel b) ms := by
  have : Tells (validateJP2S env o fuel b) ms := Tells.bind0
    (walkBoxesS_tells hb (fun x _ m hm => validateBoxS_tells env o fuel x m hm) hm) fun _ _ => .lift _
  unfold validateRootS
  rcases hf with e | e <;> rw [e] <;> exact this

theorem validateRootS_quiet {env : Env} {o : Options} {fuel : Nat} {b : Bytes}
    (hf : ¬ (o.format = .jp2 ∨ o.format = .jph)) : (validateRootS env o fuel b).said = [] := by
  unfold validateRootS
  cases h : o.format <;> simp_all

end Jpy
