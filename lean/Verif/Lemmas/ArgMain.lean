import Verif.Lemmas.ArgLoop
/-! # Lemmas about the command line: the whole line -/

namespace Jpy
open Spec

theorem any_opt_args (ps : List PyStr) (ts : List (PyStr × Tok)) :
    (asArgs ps ++ ts).any (fun t => t.2.isOpt) = ts.any (fun t => t.2.isOpt) := by
  unfold asArgs
  rw [List.any_append, List.any_map]
  rw [show (fun t : PyStr × Tok => t.2.isOpt) ∘ (fun w => (w, Tok.arg)) = fun _ => false from rfl]
  simp

theorem takeWhile_args (ps : List PyStr) (ts : List (PyStr × Tok)) :
    (asArgs ps ++ ts).takeWhile (fun t => !t.2.isOpt) = asArgs ps ++ ts.takeWhile (fun t => !t.2.isOpt) := by
  induction ps with
  | nil => rfl
  | cons p ps ih =>
    rw [show asArgs (p :: ps) ++ ts = (p, .arg) :: (asArgs ps ++ ts) from rfl, List.takeWhile_cons,
      if_pos (by rfl), ih]
    rfl

theorem asArgs_fst (ps : List PyStr) : (asArgs ps).map (·.1) = ps := by
  unfold asArgs
  rw [List.map_map]
  exact List.map_id' ps

theorem asArgs_any (ps : List PyStr) : (asArgs ps).any (fun t => t.2.isArg) = !ps.isEmpty := by
  cases ps <;> rfl

theorem erase_dashes {ae : ArgEnv} {ps qs : List PyStr} (h : ∀ p ∈ ps, Argument ae p) :
    (ps ++ lit "--" :: qs).erase (lit "--") = ps ++ qs := by
  rw [List.erase_append_right _ (fun hm => argument_ne (h _ hm) rfl), List.erase_cons_head]

theorem erase_none {ae : ArgEnv} {ps : List PyStr} (h : ∀ p ∈ ps, Argument ae p) : ps.erase (lit "--") = ps :=
  List.erase_of_not_mem fun hm => argument_ne (h _ hm) rfl

/-- The paths, when an option or the end follows. -/
theorem positionals_plain {ae : ArgEnv} {ps ts} (hp : ps ≠ []) (h : ∀ p ∈ ps, Argument ae p)
    (ht : ts = [] ∨ ∃ w h t, ts = (w, .opt h) :: t) :
    consumePositionals none (asArgs ps ++ ts) = (some ps, ts) := by
  have hw : ts.takeWhile (fun t => !t.2.isOpt) = [] := by
    rcases ht with rfl | ⟨w, h, t, rfl⟩
    · rfl
    · rw [List.takeWhile_cons, if_neg (by simp [Tok.isOpt])]
  unfold consumePositionals
  simp only
  rw [takeWhile_args, hw, List.append_nil, if_pos (by rw [asArgs_any]; cases ps <;> simp_all), asArgs_fst, erase_none h]
  rw [List.drop_left]

/-- The paths, when there is a `--`. -/
theorem positionals_dashes {ae : ArgEnv} {ps qs} (hp : ps ++ qs ≠ []) (h : ∀ p ∈ ps, Argument ae p) :
    consumePositionals none (asArgs ps ++ (lit "--", .dashes) :: asArgs qs) = (some (ps ++ qs), []) := by
  have hq : (asArgs qs).takeWhile (fun t => !t.2.isOpt) = asArgs qs := by
    have := takeWhile_args qs []
    rw [List.append_nil] at this
    rw [this, List.takeWhile_nil, List.append_nil]
  have hw : (asArgs ps ++ (lit "--", .dashes) :: asArgs qs).takeWhile (fun t => !t.2.isOpt) =
      asArgs ps ++ (lit "--", .dashes) :: asArgs qs := by
    rw [takeWhile_args, List.takeWhile_cons, if_pos (by rfl), hq]
  unfold consumePositionals
  simp only
  rw [hw]
  have ha : (asArgs ps ++ (lit "--", .dashes) :: asArgs qs).any (fun t => t.2.isArg) = true := by
    rw [List.any_append, List.any_cons, asArgs_any, asArgs_any]
    cases ps with
    | cons p ps => rfl
    | nil =>
      cases qs with
      | cons q qs => rfl
      | nil => exact absurd rfl hp
  rw [if_pos ha, List.map_append, List.map_cons, asArgs_fst, asArgs_fst, erase_dashes h, List.drop_length]

theorem commandLine_cons {ae : ArgEnv} {ws xs ws' xs' ps} (h : OptionWords ae ws xs)
    (hc : CommandLine ae ws' xs' ps) : CommandLine ae (ws ++ ws') (xs ++ xs') ps := by
  cases hc with
  | plain h1 h2 h3 h4 =>
    have := CommandLine.plain (.cons h h1) h2 h3 h4
    simpa only [List.append_assoc] using this
  | dashes h1 h2 h3 =>
    have := CommandLine.dashes (.cons h h1) h2 h3
    simpa only [List.append_assoc] using this

/-- What is understood is a command line of the specification. -/
theorem argLoop_sound {ae : ArgEnv} : ∀ (fuel : Nat) {ws ts s paths extras s' p},
    pattern ae ws = .ok ts → argLoop ae fuel ts s paths extras = .ok (s', some p, []) →
    extras = [] ∧ match paths with
      | some q => p = q ∧ ∃ xs, OptionList ae ws xs ∧ s' = applyAll xs s
      | none => ∃ xs, CommandLine ae ws xs p ∧ s' = applyAll xs s := by
  intro fuel
  induction fuel with
  | zero => intro ws ts s paths extras s' p _ h; exact nomatch h
  | succ fuel ih =>
    intro ws ts s paths extras s' p hp h
    unfold argLoop at h
    rcases pattern_split hp with ⟨ps, ws', ts', rfl, rfl, hps, hp', rfl | ⟨w, hit, t, rfl⟩⟩ | ⟨ps, qs, rfl, rfl, hps⟩
    · -- arguments only
      rw [if_neg (by rw [any_opt_args]; simp)] at h
      have hws' : ws' = [] := by
        cases ws' with
        | nil => rfl
        | cons u ws' =>
          rcases pattern_cons hp' with ⟨-, e⟩ | ⟨-, r, -, ⟨-, e⟩ | ⟨_, _, e⟩⟩ <;> exact nomatch e
      subst hws'
      cases paths with
      | some q =>
        simp only [consumePositionals, List.append_nil, asArgs_fst] at h
        injection h with h
        injection h with h1 h2
        injection h2 with h2 h3
        have := List.append_eq_nil_iff.1 h3
        injection h2 with h2
        subst h1 h2
        rw [this.2]
        exact ⟨this.1, rfl, [], .nil, rfl⟩
      | none =>
        by_cases hne : ps = []
        · subst hne
          exact nomatch h
        · rw [positionals_plain hne hps (Or.inl rfl)] at h
          simp only [List.map_nil, List.append_nil] at h
          injection h with h
          injection h with h1 h2
          injection h2 with h2 h3
          injection h2 with h2
          subst h1 h2 h3
          refine ⟨rfl, [], ?_, rfl⟩
          have := CommandLine.plain (.nil : OptionList ae [] []) hne hps .nil
          simpa using this
    · rw [if_pos (by rw [any_opt_args]; rfl)] at h
      cases ps with
      | nil =>
        -- an option
        simp only [asArgs, List.map_nil, List.nil_append] at h
        cases ws' with
        | nil => exact nomatch hp'
        | cons u ws' =>
          rcases pattern_cons hp' with ⟨-, e⟩ | ⟨hw, r, hr, ⟨-, e⟩ | ⟨hit', ho, e⟩⟩
          · exact nomatch e
          · exact nomatch e
          · cases e
            cases hc : consumeOptional ae w hit t s with
            | error e => rw [hc] at h; exact nomatch h
            | ok y =>
              obtain ⟨s1, x, r⟩ := y
              rw [hc] at h
              simp only [bind, Except.bind] at h
              have key : ∀ {r' : List (PyStr × Tok)} {ws1 : List PyStr}, pattern ae ws1 = .ok r' → r' = r →
                  extras ++ x = [] := by
                intro r' ws1 h1 h2
                subst h2
                exact (ih h1 h).1
              cases hx : x with
              | cons x1 x2 =>
                -- words that are not recognised stay in the list
                exfalso
                obtain ⟨ws1, hws1⟩ : ∃ ws1, pattern ae ws1 = .ok r := by
                  exact consume_pattern hr hc
                have := key hws1 rfl
                rw [hx] at this
                exact absurd (List.append_eq_nil_iff.1 this).2 (List.cons_ne_nil _ _)
              | nil =>
                subst hx
                obtain ⟨vs, ws1, xs, rfl, hp1, how, rfl⟩ := option_sound w.length (Nat.le_refl _) ho hr hc
                obtain ⟨e1, e2⟩ := ih hp1 h
                rw [List.append_nil] at e1
                refine ⟨e1, ?_⟩
                cases paths with
                | some q =>
                  obtain ⟨e2, ys, e3, rfl⟩ := e2
                  exact ⟨e2, xs ++ ys, OptionList.cons (ws := w :: vs) how e3, (applyAll_append _ _ _).symm⟩
                | none =>
                  obtain ⟨ys, e3, rfl⟩ := e2
                  exact ⟨xs ++ ys, commandLine_cons (ws := w :: vs) how e3, (applyAll_append _ _ _).symm⟩
      | cons q ps =>
        -- paths before an option
        have hq : asArgs (q :: ps) ++ (w, Tok.opt hit) :: t = (q, Tok.arg) :: (asArgs ps ++ (w, Tok.opt hit) :: t) := rfl
        rw [hq] at h
        simp only at h
        rw [← hq] at h
        cases paths with
        | some q' =>
          simp only [consumePositionals, Nat.lt_irrefl, if_false] at h
          rw [takeWhile_args] at h
          have hdw : ∃ ws2, pattern ae ws2 =
              .ok ((asArgs (q :: ps) ++ (w, Tok.opt hit) :: t).dropWhile fun t => !t.2.isOpt) := by
            refine ⟨ws', ?_⟩
            rw [hp']
            congr 1
            have := List.takeWhile_append_dropWhile (p := fun t : PyStr × Tok => !t.2.isOpt)
              (l := asArgs (q :: ps) ++ (w, Tok.opt hit) :: t)
            rw [takeWhile_args, List.takeWhile_cons, if_neg (by simp [Tok.isOpt]), List.append_nil] at this
            exact (List.append_cancel_left this).symm
          obtain ⟨ws2, hws2⟩ := hdw
          have := (ih hws2 h).1
          have := (List.append_eq_nil_iff.1 this).2
          exact nomatch this
        | none =>
          rw [positionals_plain (List.cons_ne_nil q ps) hps (Or.inr ⟨w, hit, t, rfl⟩)] at h
          simp only at h
          rw [if_pos (by rw [List.length_append]; simp [asArgs])] at h
          obtain ⟨e1, rfl, ys, e3, rfl⟩ := ih hp' h
          refine ⟨e1, ys, ?_, rfl⟩
          have := CommandLine.plain (.nil : OptionList ae [] []) (List.cons_ne_nil q ps) hps e3
          simpa using this
    · -- arguments and `--`
      have hno : (asArgs ps ++ (lit "--", Tok.dashes) :: asArgs qs).any (fun t => t.2.isOpt) = false := by
        rw [any_opt_args, List.any_cons]
        have := any_opt_args qs []
        rw [List.append_nil] at this
        rw [this]
        rfl
      rw [if_neg (by rw [hno]; exact Bool.false_ne_true)] at h
      cases paths with
      | some q =>
        simp only [consumePositionals] at h
        injection h with h
        injection h with h1 h2
        injection h2 with h2 h3
        have := (List.append_eq_nil_iff.1 h3).2
        rw [List.map_append, List.append_eq_nil_iff] at this
        exact nomatch this.2
      | none =>
        by_cases hne : ps ++ qs = []
        · obtain ⟨rfl, rfl⟩ := List.append_eq_nil_iff.1 hne
          exact nomatch h
        · rw [positionals_dashes hne hps] at h
          simp only [List.map_nil, List.append_nil] at h
          injection h with h
          injection h with h1 h2
          injection h2 with h2 h3
          injection h2 with h2
          subst h1 h2 h3
          refine ⟨rfl, [], ?_, rfl⟩
          have := CommandLine.dashes (.nil : OptionList ae [] []) hps hne
          simpa using this

/-- Options are understood one after the other, whatever follows. -/
theorem argLoop_options {ae : ArgEnv} {o xs} (h : OptionList ae o xs) {ws ts} (hp : pattern ae ws = .ok ts) :
    ∃ ts0, pattern ae (o ++ ws) = .ok ts0 ∧ ∀ fuel s paths extras, (o ++ ws).length < fuel → ∃ fuel', ws.length < fuel' ∧
      argLoop ae fuel ts0 s paths extras = argLoop ae fuel' ts (applyAll xs s) paths extras := by
  induction h with
  | nil => exact ⟨ts, hp, fun fuel s paths extras hf => ⟨fuel, hf, rfl⟩⟩
  | @cons w1 xs rest ys hw hl ih =>
    obtain ⟨ts1, hp1, hrun⟩ := ih
    obtain ⟨w, vs, hit, rfl, hne, hvs, ho, hc⟩ := option_complete hw
    refine ⟨(w, .opt hit) :: (asArgs vs ++ ts1), ?_, fun fuel s paths extras hf => ?_⟩
    · rw [List.append_assoc]
      exact pattern_opt hne ho (pattern_args hp1 hvs)
    · cases fuel with
      | zero => exact absurd hf (Nat.not_lt_zero _)
      | succ fuel =>
        obtain ⟨fuel', hf', e⟩ := hrun fuel (applyAll xs s) paths extras (by
          simp only [List.length_append, List.length_cons] at hf ⊢
          omega)
        refine ⟨fuel', hf', ?_⟩
        rw [applyAll_append, ← e]
        conv => lhs; unfold argLoop
        rw [if_pos (by rfl)]
        simp only [hc, bind, Except.bind, List.append_nil]

/-- Paths, followed by an option or the end. -/
theorem argLoop_paths {ae : ArgEnv} {ps ts} (hp : ps ≠ []) (h : ∀ p ∈ ps, Argument ae p)
    (ht : ts = [] ∨ ∃ w h t, ts = (w, .opt h) :: t) (fuel : Nat) (s : Space) (extras : List PyStr) :
    argLoop ae (fuel + 2) (asArgs ps ++ ts) s none extras = argLoop ae (fuel + 1) ts s (some ps) extras ∨
    ts = [] ∧ argLoop ae (fuel + 2) (asArgs ps ++ ts) s none extras = .ok (s, some ps, extras) := by
  rcases ht with rfl | ⟨w, hit, t, rfl⟩
  · right
    refine ⟨rfl, ?_⟩
    unfold argLoop
    rw [if_neg (by rw [any_opt_args]; simp), positionals_plain hp h (Or.inl rfl)]
    simp only [List.map_nil, List.append_nil]
  · left
    cases ps with
    | nil => exact absurd rfl hp
    | cons q ps =>
      conv => lhs; unfold argLoop
      rw [if_pos (by rw [any_opt_args]; rfl)]
      have hq : asArgs (q :: ps) ++ (w, Tok.opt hit) :: t = (q, Tok.arg) :: (asArgs ps ++ (w, Tok.opt hit) :: t) := rfl
      rw [hq]
      simp only
      rw [← hq, positionals_plain hp h (Or.inr ⟨w, hit, t, rfl⟩)]
      simp only
      rw [if_pos (by rw [List.length_append]; simp [asArgs])]

theorem optionList_head {ae : ArgEnv} {o xs} (h : OptionList ae o xs) : ∃ ts, pattern ae o = .ok ts ∧
    (ts = [] ∨ ∃ w h t, ts = (w, .opt h) :: t) := by
  cases h with
  | nil => exact ⟨[], rfl, Or.inl rfl⟩
  | @cons w1 xs rest ys hw hl =>
    obtain ⟨ts0, hp0, -⟩ := argLoop_options hl (ws := []) (ts := []) rfl
    rw [List.append_nil] at hp0
    obtain ⟨w, vs, hit, rfl, hne, hvs, ho, hc⟩ := option_complete hw
    exact ⟨_, pattern_opt hne ho (pattern_args hp0 hvs), Or.inr ⟨_, _, _, rfl⟩⟩

/-- A command line of the specification is understood. -/
theorem commandLine_complete {ae : ArgEnv} {ws xs p} (h : CommandLine ae ws xs p) : ∃ ts, pattern ae ws = .ok ts ∧
    ∀ s, argLoop ae (ws.length + 1) ts s none [] = .ok (applyAll xs s, some p, []) := by
  cases h with
  | @plain o₁ o₂ xs₁ xs₂ _ h1 hp ha h2 =>
    obtain ⟨t2, hp2, ht2⟩ := optionList_head h2
    have hpp := pattern_args hp2 ha
    obtain ⟨ts, hts, hrun⟩ := argLoop_options h1 hpp
    refine ⟨ts, by rw [List.append_assoc]; exact hts, fun s => ?_⟩
    obtain ⟨f', hf', e⟩ := hrun ((o₁ ++ p ++ o₂).length + 1) s none [] (by rw [List.append_assoc]; omega)
    rw [e]
    obtain ⟨f, rfl⟩ : ∃ f, f' = f + 2 := by
      refine ⟨f' - 2, ?_⟩
      have : 0 < p.length := List.length_pos_iff.2 hp
      rw [List.length_append] at hf'
      omega
    rcases argLoop_paths hp ha ht2 f (applyAll xs₁ s) [] with e' | ⟨e0, e'⟩
    · rw [e']
      obtain ⟨ts0, hp0, hrun0⟩ := argLoop_options h2 (ws := []) (ts := []) rfl
      rw [List.append_nil] at hp0
      rw [hp0] at hp2
      cases hp2
      obtain ⟨f2, hf2, e2⟩ := hrun0 (f + 1) (applyAll xs₁ s) (some p) [] (by
        have : 0 < p.length := List.length_pos_iff.2 hp
        rw [List.length_append] at hf'
        rw [List.append_nil]
        omega)
      rw [e2, ← applyAll_append]
      cases f2 with
      | zero => exact absurd hf2 (Nat.not_lt_zero _)
      | succ f2 => rfl
    · subst e0
      rw [e']
      have : o₂ = [] := by
        cases o₂ with
        | nil => rfl
        | cons u o₂ =>
          rcases pattern_cons hp2 with ⟨-, e⟩ | ⟨-, r, -, ⟨-, e⟩ | ⟨_, _, e⟩⟩ <;> exact nomatch e
      subst this
      have hx : xs₂ = [] := by
        generalize ho : ([] : List PyStr) = o at h2
        cases h2 with
        | nil => rfl
        | cons hw hl =>
          obtain ⟨w, vs, hit, rfl, -⟩ := option_complete hw
          exact nomatch ho
      rw [hx, List.append_nil]
  | @dashes o xs ps qs h1 ha hne =>
    have hpp := pattern_args (pattern_dashes ae qs) ha
    obtain ⟨ts, hts, hrun⟩ := argLoop_options h1 hpp
    refine ⟨ts, by rw [List.append_assoc]; exact hts, fun s => ?_⟩
    obtain ⟨f', hf', e⟩ := hrun ((o ++ ps ++ lit "--" :: qs).length + 1) s none [] (by rw [List.append_assoc]; omega)
    rw [e]
    cases f' with
    | zero => exact absurd hf' (Nat.not_lt_zero _)
    | succ f =>
      unfold argLoop
      have hno : (asArgs ps ++ (lit "--", Tok.dashes) :: asArgs qs).any (fun t => t.2.isOpt) = false := by
        rw [any_opt_args, List.any_cons]
        have := any_opt_args qs []
        rw [List.append_nil] at this
        rw [this]
        rfl
      rw [if_neg (by rw [hno]; exact Bool.false_ne_true), positionals_dashes hne ha]
      rfl

end Jpy
