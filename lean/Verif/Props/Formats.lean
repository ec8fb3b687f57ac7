import Verif.Props.Files
import Verif.Props.Segments
import Verif.Props.Unknown
/-!
# C64: a file is valid in at most one format
-/

namespace Jpy
open Spec Sample

/-- The bytes of a box that has a payload of four bytes and that others follow: its length field is 12
or 1. -/
theorem boxAt_four {b t p : Bytes} {off n : Nat} (h : BoxAt b off t p (some n)) (hp : p.length = 4) (hn : n < b.length) :
    uint b off 4 = some 12 ∨ uint b off 4 = some 1 := by
  cases h with
  | @short L h1 h2 =>
    left; rw [h1]
    have : (sub b (off + 8) (L - 8)).length = L - 8 := by
      unfold sub; rw [List.length_take, List.length_drop]; omega
    rw [this] at hp
    congr 1; omega
  | long h1 _ _ => exact .inr h1
  | toEnd _ => omega
  | longToEnd _ _ => omega

theorem boxesFrom_ne {b : Bytes} {off : Nat} {x : FoundBox} {bs} (h : BoxesFrom b off (x :: bs)) : off < b.length := by
  cases h <;> assumption

/-- A file with a signature box and further boxes does not start with an SOC marker. -/
theorem sig_not_soc {b : Bytes} {x y : FoundBox} {bs} (h : Boxes b (x :: y :: bs)) (hx : SignatureOk x.payload) :
    sub b 0 2 ≠ SOC := by
  have hp : x.payload.length = 4 := by rw [hx]; rfl
  intro hs
  have hu : uint b 0 4 = some 12 ∨ uint b 0 4 = some 1 := by
    cases h with
    | step h1 h2 h3 => exact boxAt_four h2 hp (boxesFrom_ne h3)
  have key : ∀ v, uint b 0 4 = some v → 65536 * 65359 ≤ v := by
    intro v hv
    unfold uint at hv
    split at hv
    · rename_i hl
      obtain ⟨a0, a1, a2, a3, r, rfl⟩ : ∃ a0 a1 a2 a3 r, b = a0 :: a1 :: a2 :: a3 :: r := by
        match b, hl with
        | a0 :: a1 :: a2 :: a3 :: r, _ => exact ⟨a0, a1, a2, a3, r, rfl⟩
      simp [sub, SOC] at hs
      obtain ⟨rfl, rfl⟩ := hs
      cases hv
      simp [sub, be]
      omega
    · cases hv
  rcases hu with hu | hu <;> have := key _ hu <;> omega

theorem ftyp_formats {f f' : Format} (hf : f = .jp2 ∨ f = .jph) (hf' : f' = .jp2 ∨ f' = .jph) {c : Bytes}
    (h : FtypOk f c) (h' : FtypOk f' c) : f = f' := by
  have a := h.2.2; have a' := h'.2.2
  rcases hf with rfl | rfl <;> rcases hf' with rfl | rfl <;> first | rfl | skip
  all_goals
    have := (a _ rfl).1.symm.trans (a' _ rfl).1
    exact absurd this (by decide)

theorem fileValid_ftyp {env : Env} {o : Options} {b : Bytes} (hfmt : o.format = .jp2 ∨ o.format = .jph)
    (h : FileValid env o b) : ∃ x y bs, Boxes b (x :: y :: bs) ∧ SignatureOk x.payload ∧ FtypOk o.format y.payload := by
  obtain ⟨l, hl⟩ := (C17_layout env o b hfmt).1 h
  refine ⟨l.sig, l.ft, l.rest, hl.boxes, ?_, ?_⟩
  · obtain ⟨f, hf⟩ := hl.passes l.sig (by simp)
    rw [hl.sig] at hf
    exact (C16_signature env o f _).1 (validateBox_accepted_mono (Nat.le_succ f) hf)
  · obtain ⟨f, hf⟩ := hl.passes l.ft (by simp)
    rw [hl.ft] at hf
    exact (C16_ftyp env o f _).1 (validateBox_accepted_mono (Nat.le_succ f) hf)

theorem fileValid_siz {env : Env} {o : Options} {b : Bytes} (hfmt : o.format = .j2c ∨ o.format = .jhc)
    (h : FileValid env o b) : sub b 0 2 = SOC ∧ ∃ c n, SegAt b 2 SIZ c n ∧ FieldIs c 2 2 (RsizOk o.format) := by
  obtain ⟨p, hp⟩ := (C23_codestream env o b).1 ((C23_file env o b hfmt).1 h)
  obtain ⟨f, hf⟩ := hp.sizPasses
  exact ⟨hp.soc, p.siz, _, hp.sizAt, ((C26_siz_partial env o f none p.siz).1 hf).1.1⟩

/-- C64: contents that are valid in two formats are valid in the same format, whatever the other
options. -/
theorem C64_contents (env env' : Env) (o o' : Options) (b : Bytes)
    (hf : o.format ∈ [.jp2, .jph, .j2c, .jhc]) (hf' : o'.format ∈ [.jp2, .jph, .j2c, .jhc])
    (h : FileValid env o b) (h' : FileValid env' o' b) : o.format = o'.format := by
  have two : ∀ {f : Format}, f ∈ [.jp2, .jph, .j2c, .jhc] → (f = .jp2 ∨ f = .jph) ∨ (f = .j2c ∨ f = .jhc) := by
    intro f hf
    simp only [List.mem_cons, List.not_mem_nil, or_false] at hf
    rcases hf with rfl | rfl | rfl | rfl <;> simp
  rcases two hf with g | g <;> rcases two hf' with g' | g'
  · obtain ⟨x, y, bs, h1, -, h3⟩ := fileValid_ftyp g h
    obtain ⟨x', y', bs', h1', -, h3'⟩ := fileValid_ftyp g' h'
    cases boxes_unique h1 h1'
    exact ftyp_formats g g' h3 h3'
  · obtain ⟨x, y, bs, h1, h2, -⟩ := fileValid_ftyp g h
    exact absurd (fileValid_siz g' h').1 (sig_not_soc h1 h2)
  · obtain ⟨x, y, bs, h1, h2, -⟩ := fileValid_ftyp g' h'
    exact absurd (fileValid_siz g h).1 (sig_not_soc h1 h2)
  · obtain ⟨-, c, n, h1, r, h2, h3⟩ := fileValid_siz g h
    obtain ⟨-, c', n', h1', r', h2', h3'⟩ := fileValid_siz g' h'
    obtain ⟨-, rfl, -⟩ := segAt_unique h1 h1'
    rw [h2] at h2'; cases h2'
    rcases g with g | g <;> rcases g' with g' | g' <;> rw [g] at h3 ⊢ <;> rw [g'] at h3' ⊢
    all_goals simp only [RsizOk, bit] at h3 h3'; omega

/-- C64: a file that is reported valid in two formats is reported valid in the same format: no file is
valid as two of JP2, JPH, JPEG 2000 codestream and HTJ2K codestream. -/
theorem C64_reported {env env' : Env} {me me' : MixEnv} {fs : FS} {fuel fuel' : Nat} {o o' : Options} {mix mix' : Nat}
    {path : PyStr} (hf : o.format ∈ [.jp2, .jph, .j2c, .jhc]) (hf' : o'.format ∈ [.jp2, .jph, .j2c, .jhc])
    (h : ReportedValid env me fs fuel o mix path) (h' : ReportedValid env' me' fs fuel' o' mix' path) :
    o.format = o'.format :=
  C64_contents env env' o o' _ hf hf' (reported_fileValid h) (reported_fileValid h')

/-- There are valid files of each format. -/
example : FileValid env0 (opts .jp2) jp2 ∧ FileValid env0 (opts .jph) jph ∧ FileValid env0 (opts .j2c) cs1 ∧
    FileValid env0 (opts .jhc) cs15 :=
  ⟨fileValid_of 200 (by decide +kernel), fileValid_of 200 (by decide +kernel), fileValid_of 200 (by decide +kernel),
    fileValid_of 200 (by decide +kernel)⟩

/-- So the JP2 file is not valid as JPH, for instance, and the codestream not as HTJ2K. -/
example (env : Env) : ¬ FileValid env (opts .jph) jp2 ∧ ¬ FileValid env (opts .jhc) cs1 :=
  ⟨fun h => absurd (C64_contents env0 env (opts .jp2) (opts .jph) jp2 (by simp [opts]) (by simp [opts])
      (fileValid_of 200 (by decide +kernel)) h) (by decide),
    fun h => absurd (C64_contents env0 env (opts .j2c) (opts .jhc) cs1 (by simp [opts]) (by simp [opts])
      (fileValid_of 200 (by decide +kernel)) h) (by decide)⟩

end Jpy
