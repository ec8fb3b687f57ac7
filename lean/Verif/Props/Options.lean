import Verif.Lemmas.ArgMain
/-!
# C61: the command line

`CommandLine` (`Spec/CommandLine.lean`) says which command lines there are and what they ask for.
-/

namespace Jpy
open Spec

theorem applyAll_fmt : ∀ (xs : List Setting) (s : Space), (applyAll xs s).fmt = (lastFormat xs).getD s.fmt
  | [], _ => rfl
  | x :: xs, s => by
    rw [show applyAll (x :: xs) s = applyAll xs (applySetting s x) from rfl, applyAll_fmt xs]
    unfold lastFormat
    cases x with
    | format v => rw [List.filterMap_cons]; simp only; rw [List.getLast?_cons]; rfl
    | mix n => rw [List.filterMap_cons_none rfl]; rfl
    | flag a => rw [List.filterMap_cons_none rfl]; cases a <;> rfl

theorem applyAll_mix : ∀ (xs : List Setting) (s : Space) (n : Nat), s.mix = n →
    (applyAll xs s).mix = (((lastMix xs).getD n : Nat) : Int)
  | [], _, _, h => h
  | x :: xs, s, n, h => by
    rw [show applyAll (x :: xs) s = applyAll xs (applySetting s x) from rfl]
    unfold lastMix
    cases x with
    | format v => rw [List.filterMap_cons_none rfl]; exact applyAll_mix xs _ n h
    | mix m => rw [List.filterMap_cons]; simp only; rw [List.getLast?_cons]; exact applyAll_mix xs _ m rfl
    | flag a => rw [List.filterMap_cons_none rfl]; exact applyAll_mix xs _ n (by cases a <;> exact h)

theorem applyAll_flag (get : Space → Bool) (a : Act)
    (hget : ∀ s x, get (applySetting s x) = true ↔ get s = true ∨ x = .flag a) :
    ∀ (xs : List Setting) (s : Space), get (applyAll xs s) = true ↔ get s = true ∨ .flag a ∈ xs
  | [], s => by simp [applyAll]
  | x :: xs, s => by
    rw [show applyAll (x :: xs) s = applyAll xs (applySetting s x) from rfl, applyAll_flag get a hget xs, hget,
      List.mem_cons, or_assoc]
    constructor
    · rintro (h | rfl | h)
      · exact Or.inl h
      · exact Or.inr (Or.inl rfl)
      · exact Or.inr (Or.inr h)
    · rintro (h | h | h)
      · exact Or.inl h
      · exact Or.inr (Or.inl h.symm)
      · exact Or.inr (Or.inr h)

/-- The arguments handed on. -/
def argsOf (s : Space) (p : List PyStr) : Args :=
  { fmt := formatText s.fmt, mixFlag := s.mix.toNat, nullxml := s.nullxml, recurse := s.recurse,
    packetmarkers := s.packetmarkers, verbose := s.verbose, nopretty := s.nopretty, paths := p }

theorem asked_argsOf (xs : List Setting) (p : List PyStr) : Asked xs p (argsOf (applyAll xs .default) p) where
  fmt := by
    show formatText _ = _
    rw [applyAll_fmt]; rfl
  mix := by
    show Int.toNat _ = _
    rw [applyAll_mix xs _ 0 rfl]
    exact Int.toNat_natCast _
  nopretty := (applyAll_flag Space.nopretty .nopretty (fun s x => by
    cases x with | flag a => cases a <;> simp [applySetting] | _ => simp [applySetting]) xs .default).trans (by simp [Space.default])
  nullxml := (applyAll_flag Space.nullxml .nullxml (fun s x => by
    cases x with | flag a => cases a <;> simp [applySetting] | _ => simp [applySetting]) xs .default).trans (by simp [Space.default])
  recurse := (applyAll_flag Space.recurse .recurse (fun s x => by
    cases x with | flag a => cases a <;> simp [applySetting] | _ => simp [applySetting]) xs .default).trans (by simp [Space.default])
  packetmarkers := (applyAll_flag Space.packetmarkers .packetmarkers (fun s x => by
    cases x with | flag a => cases a <;> simp [applySetting] | _ => simp [applySetting]) xs .default).trans (by simp [Space.default])
  verbose := (applyAll_flag Space.verbose .verbose (fun s x => by
    cases x with | flag a => cases a <;> simp [applySetting] | _ => simp [applySetting]) xs .default).trans (by simp [Space.default])
  paths := rfl

theorem asked_unique {xs ps a a'} (h : Asked xs ps a) (h' : Asked xs ps a') : a = a' := by
  have hb : ∀ {x y : Bool} {p : Prop}, (x = true ↔ p) → (y = true ↔ p) → x = y := by
    intro x y p h1 h2
    exact Bool.eq_iff_iff.2 (h1.trans h2.symm)
  cases a
  cases a'
  simp only [Args.mk.injEq]
  exact ⟨h.fmt.trans h'.fmt.symm, h.mix.trans h'.mix.symm, hb h.nullxml h'.nullxml, hb h.recurse h'.recurse,
    hb h.packetmarkers h'.packetmarkers, hb h.verbose h'.verbose, hb h.nopretty h'.nopretty,
    h.paths.trans h'.paths.symm⟩

theorem parseCommandLine_eq (ae : ArgEnv) {argv ts} (hp : pattern ae argv = .ok ts) : parseCommandLine ae argv =
    match argLoop ae (argv.length + 1) ts .default none [] with
    | .ok (s, some p, []) => .ok (argsOf s p)
    | .ok _ => .error .usage
    | .error e => .error e := by
  unfold parseCommandLine
  rw [hp]
  simp only [bind, Except.bind]
  cases argLoop ae (argv.length + 1) ts .default none [] with
  | error e => rfl
  | ok y =>
    obtain ⟨s, paths, extras⟩ := y
    cases paths with
    | none => rfl
    | some p => cases extras <;> rfl

/-- C61: the command line is accepted exactly if it is one of the specification, and then the program
works with what it asks for. -/
theorem C61_command_line (ae : ArgEnv) (argv : List PyStr) (a : Args) :
    parseCommandLine ae argv = .ok a ↔ ∃ xs ps, CommandLine ae argv xs ps ∧ Asked xs ps a := by
  constructor
  · intro h
    cases hp : pattern ae argv with
    | error e =>
      unfold parseCommandLine at h
      rw [hp] at h
      exact nomatch h
    | ok ts =>
      rw [parseCommandLine_eq ae hp] at h
      cases hr : argLoop ae (argv.length + 1) ts .default none [] with
      | error e => rw [hr] at h; exact nomatch h
      | ok y =>
        obtain ⟨s, paths, extras⟩ := y
        rw [hr] at h
        cases paths with
        | none => exact nomatch h
        | some p =>
          cases extras with
          | cons x y => exact nomatch h
          | nil =>
            cases h
            obtain ⟨-, xs, hc, rfl⟩ := argLoop_sound _ hp hr
            exact ⟨xs, p, hc, asked_argsOf xs p⟩
  · rintro ⟨xs, ps, hc, ha⟩
    obtain ⟨ts, hp, hr⟩ := commandLine_complete hc
    rw [parseCommandLine_eq ae hp, hr]
    simp only
    rw [asked_unique (asked_argsOf xs ps) ha]

variable (ae : ArgEnv) (env : Env) (me : MixEnv) (fs : FS) (fuel : Nat) (tool : String) (lower : String → String)

/-- C61: with an accepted command line the program does what `main` does with the settings asked for and
with the paths. -/
theorem C61_runs {argv xs ps a} (h : CommandLine ae argv xs ps) (ha : Asked xs ps a) :
    cli ae env me fs fuel tool lower argv = .ran (main env me fs fuel tool lower a) := by
  unfold cli
  rw [(C61_command_line ae argv a).2 ⟨xs, ps, h, ha⟩]

/-- C61: with any other command line the program stops without looking at a file or writing a report. -/
theorem C61_stops (argv : List PyStr) :
    (∃ e, cli ae env me fs fuel tool lower argv = .stopped e) ↔ ¬ ∃ xs ps, CommandLine ae argv xs ps := by
  unfold cli
  cases hp : parseCommandLine ae argv with
  | error e =>
    refine ⟨fun _ ⟨xs, ps, h⟩ => ?_, fun _ => ⟨e, rfl⟩⟩
    rw [(C61_command_line ae argv _).2 ⟨xs, ps, h, asked_argsOf xs ps⟩] at hp
    exact nomatch hp
  | ok a =>
    refine ⟨fun ⟨e, h⟩ => (nomatch h), fun h => ?_⟩
    obtain ⟨xs, ps, hc, -⟩ := (C61_command_line ae argv a).1 hp
    exact absurd ⟨xs, ps, hc⟩ h

theorem optionList_append {ae : ArgEnv} {o₁ xs₁ o₂ xs₂} (h1 : OptionList ae o₁ xs₁) (h2 : OptionList ae o₂ xs₂) :
    OptionList ae (o₁ ++ o₂) (xs₁ ++ xs₂) := by
  induction h1 with
  | nil => exact h2
  | cons hw _ ih => rw [List.append_assoc, List.append_assoc]; exact .cons hw ih

/-- C61: it makes no difference whether options are before or after the paths. -/
theorem C61_position {o₁ o₂ ps xs₁ xs₂} (h1 : OptionList ae o₁ xs₁) (h2 : OptionList ae o₂ xs₂)
    (hp : ps ≠ []) (ha : ∀ p ∈ ps, Argument ae p) :
    cli ae env me fs fuel tool lower (o₁ ++ ps ++ o₂) = cli ae env me fs fuel tool lower (o₁ ++ o₂ ++ ps) := by
  have c1 : CommandLine ae (o₁ ++ ps ++ o₂) (xs₁ ++ xs₂) ps := .plain h1 hp ha h2
  have c2 : CommandLine ae (o₁ ++ o₂ ++ ps) (xs₁ ++ xs₂) ps := by
    have := CommandLine.plain (optionList_append h1 h2) hp ha (.nil : OptionList ae [] [])
    simpa using this
  rw [C61_runs ae env me fs fuel tool lower c1 (asked_argsOf _ _),
    C61_runs ae env me fs fuel tool lower c2 (asked_argsOf _ _)]

/-- C61: two options in a row can be exchanged, unless both give a format or both a version of MIX. -/
theorem C61_order {o₁ o₂ w₁ w₂ ps xs₁ xs₂ ys₁ ys₂} (h1 : OptionList ae o₁ xs₁) (hw1 : OptionWords ae w₁ ys₁)
    (hw2 : OptionWords ae w₂ ys₂) (h2 : OptionList ae o₂ xs₂) (hp : ps ≠ []) (ha : ∀ p ∈ ps, Argument ae p)
    (hf : lastFormat ys₁ = none ∨ lastFormat ys₂ = none) (hm : lastMix ys₁ = none ∨ lastMix ys₂ = none) :
    cli ae env me fs fuel tool lower (o₁ ++ (w₁ ++ (w₂ ++ o₂)) ++ ps) =
      cli ae env me fs fuel tool lower (o₁ ++ (w₂ ++ (w₁ ++ o₂)) ++ ps) := by
  have c1 : CommandLine ae (o₁ ++ (w₁ ++ (w₂ ++ o₂)) ++ ps) (xs₁ ++ (ys₁ ++ (ys₂ ++ xs₂))) ps := by
    have := CommandLine.plain (optionList_append h1 (.cons hw1 (.cons hw2 h2))) hp ha (.nil : OptionList ae [] [])
    simpa using this
  have c2 : CommandLine ae (o₁ ++ (w₂ ++ (w₁ ++ o₂)) ++ ps) (xs₁ ++ (ys₂ ++ (ys₁ ++ xs₂))) ps := by
    have := CommandLine.plain (optionList_append h1 (.cons hw2 (.cons hw1 h2))) hp ha (.nil : OptionList ae [] [])
    simpa using this
  have hA := asked_argsOf (xs₁ ++ (ys₁ ++ (ys₂ ++ xs₂))) ps
  have last : ∀ {α : Type} (a b c d : List α), b = [] ∨ c = [] →
      (a ++ (b ++ (c ++ d))).getLast? = (a ++ (c ++ (b ++ d))).getLast? := by
    rintro α a b c d (rfl | rfl) <;> rfl
  have hmem : ∀ x, x ∈ xs₁ ++ (ys₁ ++ (ys₂ ++ xs₂)) ↔ x ∈ xs₁ ++ (ys₂ ++ (ys₁ ++ xs₂)) := by
    intro x
    simp only [List.mem_append]
    constructor
    · rintro (h | h | h | h)
      · exact Or.inl h
      · exact Or.inr (Or.inr (Or.inl h))
      · exact Or.inr (Or.inl h)
      · exact Or.inr (Or.inr (Or.inr h))
    · rintro (h | h | h | h)
      · exact Or.inl h
      · exact Or.inr (Or.inr (Or.inl h))
      · exact Or.inr (Or.inl h)
      · exact Or.inr (Or.inr (Or.inr h))
  have hA' : Asked (xs₁ ++ (ys₂ ++ (ys₁ ++ xs₂))) ps (argsOf (applyAll (xs₁ ++ (ys₁ ++ (ys₂ ++ xs₂))) .default) ps) :=
    { fmt := by
        rw [hA.fmt]
        unfold lastFormat at hf ⊢
        simp only [List.filterMap_append]
        rw [last _ _ _ _ (hf.imp List.getLast?_eq_none_iff.1 List.getLast?_eq_none_iff.1)]
      mix := by
        rw [hA.mix]
        unfold lastMix at hm ⊢
        simp only [List.filterMap_append]
        rw [last _ _ _ _ (hm.imp List.getLast?_eq_none_iff.1 List.getLast?_eq_none_iff.1)]
      nopretty := hA.nopretty.trans (hmem _)
      nullxml := hA.nullxml.trans (hmem _)
      recurse := hA.recurse.trans (hmem _)
      packetmarkers := hA.packetmarkers.trans (hmem _)
      verbose := hA.verbose.trans (hmem _)
      paths := rfl }
  rw [C61_runs ae env me fs fuel tool lower c1 hA, C61_runs ae env me fs fuel tool lower c2 hA']

/-- An error while looking at single words is an ambiguous abbreviation. -/
theorem parseOptional_error {ae : ArgEnv} {w : PyStr} {e} (h : parseOptional ae w = .error e) :
    w ≠ lit "--" → Ambiguous w := by
  intro hd
  match w with
  | [] => exact nomatch h
  | c :: r =>
    by_cases hc : c = 45
    · subst hc
      cases hf : findOption (45 :: r) with
      | some a => rw [parseOptional_name ae (findOption_some.1 hf)] at h; exact nomatch h
      | none =>
        match r, hf with
        | [], hf =>
          unfold parseOptional at h
          simp only at h
          rw [if_neg (by decide : ¬ (45 : Nat) ≠ 45), hf] at h
          exact nomatch h
        | b :: r, hf =>
          have h2 : 2 ≤ (45 :: b :: r).length := by simp only [List.length_cons]; omega
          rw [parseOptional_rest ae rfl h2 hf] at h
          split at h
          · exact nomatch h
          · rename_i hb
            by_cases hl : [45, 45] <+: 45 :: b :: r
            · have hlp := partition_prefix hl
              rw [optionTuples_long hl] at h
              cases hfl : optionStrings.filter (fun x => (partitionEq (45 :: b :: r)).1.isPrefixOf x.1) with
              | nil =>
                rw [hfl] at h
                simp only [List.map_nil] at h
                split at h
                · exact nomatch h
                · split at h <;> exact nomatch h
              | cons x t =>
                cases t with
                | nil => rw [hfl] at h; exact nomatch h
                | cons y t =>
                  refine ⟨hl, ?_, ?_⟩
                  · intro a ha
                    rw [beforeEq_eq] at ha
                    rcases (long_single hlp a).1 ha with hm | ⟨n, hn⟩
                    · rcases partitionEq_cases (45 :: b :: r) with ⟨-, e⟩ | ⟨n, v, -, -, e⟩
                      · rw [e] at hm
                        rw [findOption_some.2 hm] at hf
                        exact nomatch hf
                      · rw [e] at hb hm
                        simp only [Option.bind_some, findOption_some.2 hm] at hb
                        exact nomatch hb
                    · rw [hfl] at hn
                      exact nomatch hn
                  · have hx : x ∈ optionStrings.filter (fun x => (partitionEq (45 :: b :: r)).1.isPrefixOf x.1) := by
                      rw [hfl]; exact List.mem_cons_self
                    rw [List.mem_filter] at hx
                    obtain ⟨s, hs, e⟩ := (mem_options x.1 x.2).1 hx.1
                    refine ⟨x.2, s, hs, ?_⟩
                    rw [← e, beforeEq_eq]
                    exact List.isPrefixOf_iff_prefix.1 hx.2
            · rw [optionTuples_letter hl rfl h2] at h
              split at h
              · exact nomatch h
              · rename_i heq
                split at heq <;> exact nomatch heq
              · split at h
                · exact nomatch h
                · split at h <;> exact nomatch h
    · unfold parseOptional at h
      simp only at h
      rw [if_pos hc] at h
      exact nomatch h

theorem pattern_ok {ae : ArgEnv} : ∀ {ws : List PyStr}, (∀ w ∈ beforeDashes ws, ¬ Ambiguous w) →
    ∃ ts, pattern ae ws = .ok ts
  | [], _ => ⟨[], rfl⟩
  | w :: ws, h => by
    by_cases hd : w = lit "--"
    · subst hd
      exact ⟨_, pattern_dashes ae ws⟩
    · have hb : beforeDashes (w :: ws) = w :: beforeDashes ws := by
        unfold beforeDashes
        rw [List.takeWhile_cons, if_pos (by simpa using hd)]
      rw [hb] at h
      obtain ⟨ts, ht⟩ := pattern_ok (ae := ae) fun u hu => h u (List.mem_cons_of_mem _ hu)
      cases ho : parseOptional ae w with
      | error e => exact absurd (parseOptional_error ho hd) (h w List.mem_cons_self)
      | ok o =>
        cases o with
        | some hit => exact ⟨_, pattern_opt hd ho ht⟩
        | none =>
          refine ⟨(w, .arg) :: ts, ?_⟩
          have := pattern_args ht (ps := [w]) (fun p hp => by
            rw [List.mem_singleton.1 hp]; exact (parseOptional_none ae hd).1 ho)
          exact this

/-- What comes before an option that ends the program. -/
theorem argLoop_before {ae : ArgEnv} {o₁ xs₁ ps o₂ xs₂} (h1 : OptionList ae o₁ xs₁) (ha : ∀ p ∈ ps, Argument ae p)
    (h2 : OptionList ae o₂ xs₂) {w : PyStr} {rest ts hit} (hne : w ≠ lit "--")
    (ho : parseOptional ae w = .ok (some hit)) (hr : pattern ae rest = .ok ts) :
    ∃ ts0, pattern ae (o₁ ++ ps ++ o₂ ++ w :: rest) = .ok ts0 ∧ ∃ fuel s paths,
      argLoop ae ((o₁ ++ ps ++ o₂ ++ w :: rest).length + 1) ts0 .default none [] =
        argLoop ae (fuel + 1) ((w, .opt hit) :: ts) s paths [] := by
  have hw := pattern_opt hne ho hr
  obtain ⟨t2, hp2, run2⟩ := argLoop_options h2 hw
  have ht2 : ∃ w' h' t', t2 = (w', Tok.opt h') :: t' := by
    cases h2 with
    | nil => rw [List.nil_append, hw] at hp2; cases hp2; exact ⟨_, _, _, rfl⟩
    | cons hw' hl' =>
      obtain ⟨w', vs, hit', rfl, hne', hvs, ho', -⟩ := option_complete hw'
      obtain ⟨t3, hp3, -⟩ := argLoop_options hl' hw
      have := pattern_opt hne' ho' (pattern_args hp3 hvs)
      rw [List.append_assoc, List.cons_append] at hp2
      rw [this] at hp2
      cases hp2
      exact ⟨_, _, _, rfl⟩
  have hpp := pattern_args hp2 ha
  obtain ⟨t1, hp1, run1⟩ := argLoop_options h1 hpp
  refine ⟨t1, by simpa only [List.append_assoc] using hp1, ?_⟩
  obtain ⟨f1, hf1, e1⟩ := run1 ((o₁ ++ ps ++ o₂ ++ w :: rest).length + 1) .default none [] (by
    simp only [List.length_append]; omega)
  rw [e1]
  by_cases hps : ps = []
  · subst hps
    obtain ⟨f2, hf2, e2⟩ := run2 f1 (applyAll xs₁ .default) none [] hf1
    cases f2 with
    | zero => exact absurd hf2 (Nat.not_lt_zero _)
    | succ f2 => exact ⟨f2, _, _, e2⟩
  · have hpos : 0 < ps.length := List.length_pos_iff.2 hps
    obtain ⟨f, rfl⟩ : ∃ f, f1 = f + 2 := ⟨f1 - 2, by
      rw [List.length_append] at hf1
      omega⟩
    rcases argLoop_paths hps ha (Or.inr ht2) f (applyAll xs₁ .default) [] with e' | ⟨e0, -⟩
    · rw [e']
      obtain ⟨f2, hf2, e2⟩ := run2 (f + 1) (applyAll xs₁ .default) (some ps) [] (by
        rw [List.length_append] at hf1
        omega)
      cases f2 with
      | zero => exact absurd hf2 (Nat.not_lt_zero _)
      | succ f2 => exact ⟨f2, _, _, e2⟩
    · obtain ⟨w', h', t', rfl⟩ := ht2
      exact nomatch e0

theorem stops_at {ae : ArgEnv} {o₁ xs₁ ps o₂ xs₂} (h1 : OptionList ae o₁ xs₁) (ha : ∀ p ∈ ps, Argument ae p)
    (h2 : OptionList ae o₂ xs₂) {w : PyStr} {rest a e} (hn : Names a w)
    (hr : ∀ u ∈ beforeDashes rest, ¬ Ambiguous u) (hv : a.takesValue = false)
    (ht : ∀ s, takeAction ae a [] s = .error e) :
    parseCommandLine ae (o₁ ++ ps ++ o₂ ++ w :: rest) = .error e := by
  obtain ⟨n, ho⟩ := parseOptional_names ae hn
  obtain ⟨ts, hts⟩ := pattern_ok (ae := ae) hr
  obtain ⟨ts0, hp0, f, s, paths, hl⟩ := argLoop_before h1 ha h2 (names_ne hn) ho hts
  rw [parseCommandLine_eq ae hp0, hl]
  have : argLoop ae (f + 1) ((w, .opt ⟨some a, n, none, none⟩) :: ts) s paths [] = .error e := by
    unfold argLoop
    rw [if_pos (by rfl)]
    simp only
    rw [consumeOptional_eq ae _ _ rfl]
    unfold optionActs
    simp only
    rw [separate_flag hv]
    simp only
    rw [takeActions_one, ht]
    rfl
  rw [this]

/-- C61: `--help`, after options and paths that are accepted, shows the help text and nothing else,
whatever follows, unless that contains an ambiguous abbreviation. -/
theorem C61_help {o₁ xs₁ ps o₂ xs₂} (h1 : OptionList ae o₁ xs₁) (ha : ∀ p ∈ ps, Argument ae p)
    (h2 : OptionList ae o₂ xs₂) {w : PyStr} {rest} (hn : Names .help w)
    (hr : ∀ u ∈ beforeDashes rest, ¬ Ambiguous u) :
    cli ae env me fs fuel tool lower (o₁ ++ ps ++ o₂ ++ w :: rest) = .stopped .help := by
  unfold cli
  rw [stops_at h1 ha h2 hn hr rfl (fun _ => rfl)]

/-- C61: the same for `--version`. -/
theorem C61_version {o₁ xs₁ ps o₂ xs₂} (h1 : OptionList ae o₁ xs₁) (ha : ∀ p ∈ ps, Argument ae p)
    (h2 : OptionList ae o₂ xs₂) {w : PyStr} {rest} (hn : Names .version w)
    (hr : ∀ u ∈ beforeDashes rest, ¬ Ambiguous u) :
    cli ae env me fs fuel tool lower (o₁ ++ ps ++ o₂ ++ w :: rest) = .stopped .version := by
  unfold cli
  rw [stops_at h1 ha h2 hn hr rfl (fun _ => rfl)]

/-- Arguments after the paths have been found are not recognised. -/
theorem argLoop_extra {ae : ArgEnv} {qs ts} (hq : qs ≠ []) (ht : ts = [] ∨ ∃ w h t, ts = (w, .opt h) :: t) (fuel : Nat)
    (s : Space) (ps : List PyStr) (extras : List PyStr) :
    argLoop ae (fuel + 1) (asArgs qs ++ ts) s (some ps) extras =
      if ts = [] then .ok (s, some ps, extras ++ qs) else argLoop ae fuel ts s (some ps) (extras ++ qs) := by
  rcases ht with rfl | ⟨w, hit, t, rfl⟩
  · rw [if_pos rfl]
    unfold argLoop
    rw [if_neg (by rw [any_opt_args]; simp)]
    simp only [consumePositionals, List.append_nil, asArgs_fst]
  · rw [if_neg (List.cons_ne_nil _ _)]
    cases qs with
    | nil => exact absurd rfl hq
    | cons q qs =>
      conv => lhs; unfold argLoop
      rw [if_pos (by rw [any_opt_args]; rfl)]
      have hq' : asArgs (q :: qs) ++ (w, Tok.opt hit) :: t = (q, Tok.arg) :: (asArgs qs ++ (w, Tok.opt hit) :: t) := rfl
      rw [hq']
      simp only
      rw [← hq']
      simp only [consumePositionals, Nat.lt_irrefl, if_false]
      have htw : (asArgs (q :: qs) ++ (w, Tok.opt hit) :: t).takeWhile (fun t => !t.2.isOpt) = asArgs (q :: qs) := by
        rw [takeWhile_args, List.takeWhile_cons, if_neg (by simp [Tok.isOpt]), List.append_nil]
      have hdw : (asArgs (q :: qs) ++ (w, Tok.opt hit) :: t).dropWhile (fun t => !t.2.isOpt) = (w, Tok.opt hit) :: t := by
        have := List.takeWhile_append_dropWhile (p := fun t : PyStr × Tok => !t.2.isOpt)
          (l := asArgs (q :: qs) ++ (w, Tok.opt hit) :: t)
        rw [htw] at this
        exact List.append_cancel_left this
      rw [htw, hdw, asArgs_fst]

/-- C61: the paths have to be in one place: with an option between two paths the command line is
refused. -/
theorem C61_one_place {o₁ xs₁ ps w ys o₂ xs₂ qs o₃ xs₃} (h1 : OptionList ae o₁ xs₁) (hp : ps ≠ [])
    (ha : ∀ p ∈ ps, Argument ae p) (hw : OptionWords ae w ys) (h2 : OptionList ae o₂ xs₂) (hq : qs ≠ [])
    (hb : ∀ q ∈ qs, Argument ae q) (h3 : OptionList ae o₃ xs₃) :
    cli ae env me fs fuel tool lower (o₁ ++ ps ++ (w ++ o₂) ++ qs ++ o₃) = .stopped .usage := by
  have h23 : OptionList ae (w ++ o₂) (ys ++ xs₂) := .cons hw h2
  obtain ⟨t3, hp3, ht3⟩ := optionList_head h3
  have hpq := pattern_args hp3 hb
  obtain ⟨t2, hp2, run2⟩ := argLoop_options h23 hpq
  have ht2 : ∃ w' h' t', t2 = (w', Tok.opt h') :: t' := by
    obtain ⟨w', vs, hit', rfl, hne', hvs, ho', -⟩ := option_complete hw
    obtain ⟨t4, hp4, -⟩ := argLoop_options h2 hpq
    have := pattern_opt hne' ho' (pattern_args hp4 hvs)
    rw [List.append_assoc, List.cons_append] at hp2
    rw [this] at hp2
    cases hp2
    exact ⟨_, _, _, rfl⟩
  have hpp := pattern_args hp2 ha
  obtain ⟨t1, hp1, run1⟩ := argLoop_options h1 hpp
  have hpos : 0 < ps.length := List.length_pos_iff.2 hp
  have hposq : 0 < qs.length := List.length_pos_iff.2 hq
  have harg : o₁ ++ ps ++ (w ++ o₂) ++ qs ++ o₃ = o₁ ++ (ps ++ (w ++ o₂ ++ (qs ++ o₃))) := by
    simp only [List.append_assoc]
  unfold cli
  rw [harg, parseCommandLine_eq ae hp1]
  obtain ⟨f1, hf1, e1⟩ := run1 ((o₁ ++ (ps ++ (w ++ o₂ ++ (qs ++ o₃)))).length + 1) .default none [] (by omega)
  rw [e1]
  obtain ⟨f, rfl⟩ : ∃ f, f1 = f + 2 := ⟨f1 - 2, by
    rw [List.length_append] at hf1
    omega⟩
  rcases argLoop_paths hp ha (Or.inr ht2) f (applyAll xs₁ .default) [] with e' | ⟨e0, -⟩
  · rw [e']
    obtain ⟨f2, hf2, e2⟩ := run2 (f + 1) (applyAll xs₁ .default) (some ps) [] (by
      rw [List.length_append] at hf1
      omega)
    rw [e2]
    cases f2 with
    | zero => exact absurd hf2 (Nat.not_lt_zero _)
    | succ f2 =>
      rw [argLoop_extra hq ht3]
      by_cases h0 : t3 = []
      · rw [if_pos h0]
        cases qs with
        | nil => exact absurd rfl hq
        | cons q qs => rfl
      · rw [if_neg h0]
        obtain ⟨t0, hp0, run0⟩ := argLoop_options h3 (ws := []) (ts := []) rfl
        rw [List.append_nil, hp3] at hp0
        cases hp0
        obtain ⟨f3, hf3, e3⟩ := run0 f2 (applyAll (ys ++ xs₂) (applyAll xs₁ .default)) (some ps) ([] ++ qs) (by
          rw [List.length_append] at hf2
          rw [List.append_nil]
          omega)
        rw [e3]
        cases f3 with
        | zero => exact absurd hf3 (Nat.not_lt_zero _)
        | succ f3 =>
          cases qs with
          | nil => exact absurd rfl hq
          | cons q qs => rfl
  · obtain ⟨w', h', t', rfl⟩ := ht2
    exact nomatch e0

/-- The options of the model are those that the calls of `add_argument` declare. -/
theorem declared_options : declare addArgumentCalls parserAtImport = some optionStrings := by decide +kernel

/-- C44 for calls of the program itself: in one process only the first one does anything. All later ones
end with an internal error, whatever their command lines. -/
theorem C44_main_once (argv : List PyStr) (rest : List (List PyStr)) :
    mains ae env me fs fuel tool lower (argv :: rest) parserAtImport =
      some (cli ae env me fs fuel tool lower argv) :: rest.map fun _ => none := by
  have hd : declare addArgumentCalls optionStrings = none := by decide +kernel
  have hrest : ∀ rest : List (List PyStr),
      mains ae env me fs fuel tool lower rest optionStrings = rest.map fun _ => none := by
    intro rest
    induction rest with
    | nil => rfl
    | cons a rest ih =>
      unfold mains
      rw [hd]
      simp only [ih, List.map_cons]
  unfold mains
  rw [declared_options]
  simp only [hrest]

/-! ## Examples -/

/-- `int` of the digits 1 and 2, and no negative numbers. -/
def ae61 : ArgEnv where
  int v := if v = lit "1" then some 1 else if v = lit "2" then some 2 else none
  negativeNumber _ := false

theorem arg61 (s : String) (h : (lit s).head? ≠ some 45) : Argument ae61 (lit s) := Or.inl h

/-- `-rp --fo jph` -/
theorem opts61 : OptionList ae61 [lit "-rp", lit "--fo", lit "jph"]
    [.flag .recurse, .flag .packetmarkers, .format (lit "jph")] :=
  .cons (ws := [lit "-rp"]) (.cluster (c := 114) (d := 112) (r := []) ⟨"-r", by decide, rfl⟩ (by unfold IsFlag; decide)
      (by decide) (.flag (Or.inl ⟨"-p", by decide, rfl⟩) (by unfold IsFlag; decide)))
    (.cons (ws := [lit "--fo", lit "jph"])
      (.value (names_iff.2 (Or.inr ⟨⟨lit "fo", rfl⟩, ⟨lit "--format", by decide +kernel, ⟨lit "rmat", rfl⟩⟩,
        fun a' n hn hw => by
          have := (by decide +kernel : ∀ x ∈ optionStrings, (lit "--fo").isPrefixOf x.1 = true → x.2 = .format)
          exact this (n, a') hn (List.isPrefixOf_iff_prefix.2 hw)⟩)) .format (arg61 "jph" (by decide))) .nil)

/-- `--mix=2` -/
theorem mix61 : OptionWords ae61 [lit "--mix=2"] [.mix 2] :=
  .equals (w := lit "--mix") (v := lit "2") (Or.inl ⟨"--mix", by decide, rfl⟩) (.mix2 (by decide))

/-- C61_command_line, C61_runs, C61_position: `-rp --fo jph a.jph b.jph --mix=2`. -/
theorem line61 : CommandLine ae61 [lit "-rp", lit "--fo", lit "jph", lit "a.jph", lit "b.jph", lit "--mix=2"]
    [.flag .recurse, .flag .packetmarkers, .format (lit "jph"), .mix 2] [lit "a.jph", lit "b.jph"] :=
  .plain (o₁ := [lit "-rp", lit "--fo", lit "jph"]) (ps := [lit "a.jph", lit "b.jph"]) (o₂ := [lit "--mix=2"])
    opts61 (List.cons_ne_nil _ _)
    (fun p hp => by
      rcases List.mem_cons.1 hp with rfl | hp
      · exact arg61 "a.jph" (by decide)
      · rw [List.mem_singleton.1 hp]; exact arg61 "b.jph" (by decide))
    (.cons (ws := [lit "--mix=2"]) mix61 .nil)

example : ∃ a, parseCommandLine ae61 [lit "-rp", lit "--fo", lit "jph", lit "a.jph", lit "b.jph", lit "--mix=2"] = .ok a ∧
    a.fmt = "jph" ∧ a.mixFlag = 2 ∧ a.recurse = true ∧ a.verbose = false ∧ a.paths = [lit "a.jph", lit "b.jph"] := by
  refine ⟨_, (C61_command_line _ _ _).2 ⟨_, _, line61, asked_argsOf _ _⟩, ?_⟩
  decide +kernel

/-- With `--`, everything after it is a path. -/
example : CommandLine ae61 [lit "--", lit "--verbose"] [] [lit "--verbose"] :=
  .dashes (o := []) (ps := []) .nil (fun p hp => nomatch hp) (List.cons_ne_nil _ _)

/-- C61_stops: no paths. -/
example : ¬ ∃ xs ps, CommandLine ae61 [lit "-r"] xs ps := by
  rintro ⟨xs, ps, h⟩
  have h1 := (C61_command_line ae61 [lit "-r"] _).2 ⟨xs, ps, h, asked_argsOf xs ps⟩
  have h2 : (match parseCommandLine ae61 [lit "-r"] with | .ok _ => true | .error _ => false) = false := by
    decide +kernel
  rw [h1] at h2
  exact nomatch h2

/-- C61_order: `--mix=2` and `-r` can be exchanged, since `-r` gives no version of MIX. -/
example : lastFormat [.mix 2] = none ∧ lastMix [.flag .recurse] = none := ⟨rfl, rfl⟩

/-- C61_help, C61_version: the names, and words that are not ambiguous. -/
example : Names .help (lit "-h") ∧ Names .version (lit "--vers") ∧ ¬ Ambiguous (lit "x") := by
  refine ⟨Or.inl ⟨"-h", by decide, rfl⟩, names_iff.2 (Or.inr ⟨⟨lit "vers", rfl⟩,
    ⟨lit "--version", by decide +kernel, ⟨lit "ion", rfl⟩⟩, fun a' n hn hw => ?_⟩), fun h => ?_⟩
  · have := (by decide +kernel : ∀ x ∈ optionStrings, (lit "--vers").isPrefixOf x.1 = true → x.2 = .version)
    exact this (n, a') hn (List.isPrefixOf_iff_prefix.2 hw)
  · obtain ⟨⟨r, e⟩, -⟩ := h
    exact nomatch e

/-- C61_one_place: `a.jph -rp --fo jph b.jph`. -/
example (env : Env) (me : MixEnv) (fs : FS) (fuel : Nat) (tool : String) (lower : String → String) :
    cli ae61 env me fs fuel tool lower [lit "a.jph", lit "--mix=2", lit "b.jph"] = .stopped .usage :=
  C61_one_place (o₁ := []) (ps := [lit "a.jph"]) (w := [lit "--mix=2"]) (o₂ := []) (qs := [lit "b.jph"]) (o₃ := [])
    ae61 env me fs fuel tool lower .nil (List.cons_ne_nil _ _)
    (fun p hp => by rw [List.mem_singleton.1 hp]; exact arg61 "a.jph" (by decide)) mix61 .nil (List.cons_ne_nil _ _)
    (fun p hp => by rw [List.mem_singleton.1 hp]; exact arg61 "b.jph" (by decide)) .nil

end Jpy
