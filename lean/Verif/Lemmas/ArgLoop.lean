import Verif.Lemmas.Args
/-! # Lemmas about the command line: options and the main loop -/

namespace Jpy
open Spec

/-- The effect of one setting. -/
def applySetting (s : Space) : Setting → Space
  | .format v => { s with fmt := v }
  | .mix n => { s with mix := n }
  | .flag .nopretty => { s with nopretty := true }
  | .flag .nullxml => { s with nullxml := true }
  | .flag .recurse => { s with recurse := true }
  | .flag .packetmarkers => { s with packetmarkers := true }
  | .flag .verbose => { s with verbose := true }
  | .flag _ => s

/-- The effect of settings one after the other. -/
def applyAll (xs : List Setting) (s : Space) : Space := xs.foldl applySetting s

theorem applyAll_append (xs ys : List Setting) (s : Space) : applyAll (xs ++ ys) s = applyAll ys (applyAll xs s) :=
  List.foldl_append

theorem isFlag_iff {a : Act} : IsFlag a ↔ a = .nopretty ∨ a = .nullxml ∨ a = .recurse ∨ a = .packetmarkers ∨
    a = .verbose := by
  unfold IsFlag
  simp

theorem takeAction_flag (ae : ArgEnv) {a : Act} (h : IsFlag a) (args : List PyStr) (s : Space) :
    takeAction ae a args s = .ok (applySetting s (.flag a)) := by
  rcases isFlag_iff.1 h with rfl | rfl | rfl | rfl | rfl <;> rfl

theorem isFlag_noValue {a : Act} (h : IsFlag a) : a.takesValue = false := by
  rcases isFlag_iff.1 h with rfl | rfl | rfl | rfl | rfl <;> rfl

theorem takeAction_flag_inv (ae : ArgEnv) {a : Act} (hv : a.takesValue = false) {args : List PyStr} {s s' : Space}
    (h : takeAction ae a args s = .ok s') : IsFlag a ∧ s' = applySetting s (.flag a) := by
  cases a <;> first | (cases hv; done) | (cases h; done) | skip
  all_goals
    cases h
    exact ⟨isFlag_iff.2 (by simp), rfl⟩

theorem takeAction_value (ae : ArgEnv) {a : Act} {v : PyStr} {x : Setting} (h : Value ae a v x) (s : Space) :
    a.takesValue = true ∧ takeAction ae a [v] s = .ok (applySetting s x) := by
  cases h with
  | format => exact ⟨rfl, rfl⟩
  | mix1 h =>
    refine ⟨rfl, ?_⟩
    simp only [takeAction, h]
    rfl
  | mix2 h =>
    refine ⟨rfl, ?_⟩
    simp only [takeAction, h]
    rfl

theorem takeAction_value_inv (ae : ArgEnv) {a : Act} (hv : a.takesValue = true) {v : PyStr} {s s' : Space}
    (h : takeAction ae a [v] s = .ok s') : ∃ x, Value ae a v x ∧ s' = applySetting s x := by
  cases a <;> first | (cases hv; done) | skip
  · cases h; exact ⟨_, .format, rfl⟩
  · simp only [takeAction] at h
    cases hi : ae.int v with
    | none => rw [hi] at h; exact nomatch h
    | some i =>
      rw [hi] at h
      simp only at h
      by_cases h1 : i = 1
      · subst h1
        rw [if_pos (Or.inl rfl)] at h
        cases h
        exact ⟨_, .mix1 hi, rfl⟩
      · by_cases h2 : i = 2
        · subst h2
          rw [if_pos (Or.inr rfl)] at h
          cases h
          exact ⟨_, .mix2 hi, rfl⟩
        · rw [if_neg (fun e => e.elim h1 h2)] at h
          exact nomatch h

/-- The actions an option word stands for: `consume_optional` without the actions themselves. -/
def optionActs (h : Hit) (a : Act) (rest : List (PyStr × Tok)) :
    Except CmdExit (List (Act × List PyStr) × List PyStr × List (PyStr × Tok)) :=
  match h.explicit with
  | some e => attached h.name rest a (h.sep.getD []) e
  | none => match separate a rest with
    | .ok (as, r) => .ok (as, [], r)
    | .error e => .error e

theorem consumeOptional_eq (ae : ArgEnv) (w : PyStr) (h : Hit) {a : Act} (ha : h.act = some a)
    (rest : List (PyStr × Tok)) (s : Space) : consumeOptional ae w h rest s =
      match optionActs h a rest with
      | .ok (as, x, r) => match takeActions ae as s with
        | .ok s' => .ok (s', x, r)
        | .error e => .error e
      | .error e => .error e := by
  unfold consumeOptional optionActs
  rw [ha]
  simp only
  cases h.explicit with
  | some e =>
    simp only
    cases attached h.name rest a (h.sep.getD []) e with
    | error e => rfl
    | ok x =>
      obtain ⟨as, x, r⟩ := x
      simp only [bind, Except.bind]
      cases takeActions ae as s <;> rfl
  | none =>
    simp only
    cases separate a rest with
    | error e => rfl
    | ok x =>
      obtain ⟨as, r⟩ := x
      simp only [bind, Except.bind]
      cases takeActions ae as s <;> rfl

/-- What `_parse_optional` says about a dash, a letter and more. -/
def hitFor (a : Act) (d : Nat) (r : PyStr) : Hit :=
  match r with
  | [] => ⟨some a, [45, d], none, none⟩
  | 61 :: e => ⟨some a, [45, d], some [61], some e⟩
  | r => ⟨some a, [45, d], some [], some r⟩

theorem hitFor_act (a : Act) (d : Nat) (r : PyStr) : (hitFor a d r).act = some a := by
  unfold hitFor
  split <;> rfl

theorem parse_hitFor (ae : ArgEnv) {a : Act} {d : Nat} (h : ([45, d], a) ∈ optionStrings) (r : PyStr) :
    parseOptional ae (45 :: d :: r) = .ok (some (hitFor a d r)) := by
  unfold hitFor
  split
  · exact parseOptional_name ae h
  · rename_i e
    have hne := (options_shape _ h).1
    have hp := partitionEq_some e hne
    have hf : findOption ([45, d] ++ 61 :: e) = none := findOption_eq_mem
    rw [show 45 :: d :: 61 :: e = [45, d] ++ 61 :: e from rfl,
      parseOptional_rest ae rfl (by simp only [List.length_append, List.length_cons]; omega) hf, hp]
    simp only [Option.bind_some, findOption_some.2 h, Option.map_some]
  · rename_i h1 h2
    refine parseOptional_short ae (letter_ne h).1 h1 ?_ h
    intro e
    match r, e with
    | c :: r, e => cases e; exact h2 r rfl

/-- A cluster of short options is its first letter, followed by the rest. -/
theorem attached_step {a a' : Act} (hv : a.takesValue = false) {c d : Nat} (hc : c ≠ 45)
    (hd : ([45, d], a') ∈ optionStrings) (r : PyStr) (rest : List (PyStr × Tok)) :
    attached [45, c] rest a [] (d :: r) =
      match optionActs (hitFor a' d r) a' rest with
      | .ok (as, x, t) => .ok ((a, []) :: as, x, t)
      | .error e => .error e := by
  have hd45 := (letter_ne hd).1
  rw [attached.eq_def]
  rw [if_neg (by rw [hv]; exact Bool.false_ne_true)]
  simp only
  rw [if_neg (by simp [hc]), if_neg (by simp [hd45]), findOption_some.2 hd]
  simp only
  match r with
  | [] =>
    unfold hitFor optionActs
    simp only
    cases separate a' rest <;> rfl
  | c' :: e' =>
    by_cases h : c' = 61
    · subst h
      unfold hitFor optionActs
      simp only [Option.getD_some]
      cases attached [45, d] rest a' [61] e' <;> rfl
    · have hh : hitFor a' d (c' :: e') = ⟨some a', [45, d], some [], some (c' :: e')⟩ := by
        unfold hitFor
        split
        · rename_i heq; exact nomatch heq
        · rename_i heq; cases heq; exact absurd rfl h
        · rfl
      rw [hh]
      unfold optionActs
      simp only [Option.getD_some, bind, Except.bind]
      cases attached [45, d] rest a' [] (c' :: e') <;> rfl

theorem attached_sep {a : Act} (hv : a.takesValue = false) (n : PyStr) (rest : List (PyStr × Tok)) (v : PyStr) :
    attached n rest a [61] v = .error .usage := by
  rw [attached.eq_def, if_neg (by rw [hv]; exact Bool.false_ne_true)]
  cases v with
  | nil => rfl
  | cons c v =>
    simp only
    split
    · rfl
    · rw [if_pos (Or.inl (List.cons_ne_nil _ _))]

theorem takeActions_one (ae : ArgEnv) (a : Act) (args : List PyStr) (s : Space) :
    takeActions ae [(a, args)] s = takeAction ae a args s := by
  simp only [takeActions, bind, Except.bind]
  cases takeAction ae a args s <;> rfl

theorem takeActions_cons (ae : ArgEnv) (a : Act) (args : List PyStr) (as) (s : Space) :
    takeActions ae ((a, args) :: as) s = match takeAction ae a args s with
      | .ok s' => takeActions ae as s'
      | .error e => .error e := by
  simp only [takeActions, bind, Except.bind]
  cases takeAction ae a args s <;> rfl

theorem separate_value {a : Act} (h : a.takesValue = true) (v : PyStr) (rest : List (PyStr × Tok)) :
    separate a ((v, .arg) :: rest) = .ok ([(a, [v])], rest) := by
  unfold separate
  rw [if_pos h]

theorem separate_flag {a : Act} (h : a.takesValue = false) (rest : List (PyStr × Tok)) :
    separate a rest = .ok ([(a, [])], rest) := by
  unfold separate
  rw [if_neg (by rw [h]; exact Bool.false_ne_true)]

/-- Words as arguments. -/
def asArgs (ws : List PyStr) : List (PyStr × Tok) := ws.map fun w => (w, .arg)

theorem argument_ne {ae : ArgEnv} {w : PyStr} (h : Argument ae w) : w ≠ lit "--" := by
  rintro rfl
  rcases h with h | h | h
  · exact h rfl
  · exact absurd h (by decide)
  · exact h.1 rfl

theorem names_ne {a : Act} {w : PyStr} (h : Names a w) : w ≠ lit "--" := by
  rintro rfl
  rcases names_iff.1 h with h | ⟨-, -, hu⟩
  · exact findOption_none.1 (by decide +kernel : findOption (lit "--") = none) a h
  · have h1 := hu .help (lit "--help") (by decide +kernel) (by decide +kernel)
    have h2 := hu .mix (lit "--mix") (by decide +kernel) (by decide +kernel)
    rw [← h1] at h2
    exact nomatch h2

/-- The first word of an option, after a single dash, starts with a letter that is an option. -/
theorem optionWords_letter {ae : ArgEnv} {ws xs} (h : OptionWords ae ws xs) : ∀ {d r vs},
    ws = (45 :: d :: r) :: vs → d ≠ 45 → ∃ a, ([45, d], a) ∈ optionStrings := by
  have names_letter : ∀ {a : Act} {w : PyStr} {d r}, Names a w → w = 45 :: d :: r → d ≠ 45 → r = [] ∧
      ([45, d], a) ∈ optionStrings := by
    intro a w d r hn e hd
    rcases names_iff.1 hn with h | ⟨⟨t, h⟩, -⟩
    · subst e
      obtain ⟨-, -, hs⟩ := options_shape _ h
      rcases hs with ⟨hs, -⟩ | ⟨-, hs⟩
      · have : r = [] := by
          cases r with
          | nil => rfl
          | cons x r => simp only [List.length_cons] at hs; omega
        subst this
        exact ⟨rfl, h⟩
      · simp only [List.take_succ_cons, List.take_zero, List.cons.injEq, and_true, true_and] at hs
        exact absurd hs hd
    · rw [e] at h
      cases h
      exact absurd rfl hd
  cases h with
  | flag hn hf =>
    intro d r vs e hd
    cases e
    exact ⟨_, (names_letter hn rfl hd).2⟩
  | value hn hv ha =>
    intro d r vs e hd
    cases e
    exact ⟨_, (names_letter hn rfl hd).2⟩
  | @equals w a v x hn hv =>
    intro d r vs e hd
    obtain ⟨hh, h2⟩ := names_head hn
    match w, h2 with
    | b :: d' :: w', _ =>
      simp only [List.cons_append, List.cons.injEq] at e
      obtain ⟨⟨rfl, rfl, rfl⟩, rfl⟩ := e
      exact ⟨_, by have h := names_letter hn rfl hd; exact h.2⟩
  | attached hl hv _ _ =>
    intro d r vs e hd
    cases e
    exact ⟨_, letter_iff.1 hl⟩
  | cluster hl hf hd' hw =>
    intro d r vs e hd
    cases e
    exact ⟨_, letter_iff.1 hl⟩

/-- What happens at an option. -/
theorem option_complete {ae : ArgEnv} {ws xs} (h : OptionWords ae ws xs) : ∃ w vs hit,
    ws = w :: vs ∧ w ≠ lit "--" ∧ (∀ v ∈ vs, Argument ae v) ∧ parseOptional ae w = .ok (some hit) ∧
    ∀ rest s, consumeOptional ae w hit (asArgs vs ++ rest) s = .ok (applyAll xs s, [], rest) := by
  induction h with
  | @flag w a hn hf =>
    obtain ⟨n, hp⟩ := parseOptional_names ae hn
    refine ⟨w, [], _, rfl, names_ne hn, (fun v hv => nomatch hv), hp, fun rest s => ?_⟩
    rw [consumeOptional_eq ae w _ rfl]
    unfold optionActs
    simp only
    rw [separate_flag (isFlag_noValue hf)]
    simp only
    rw [takeActions_one, takeAction_flag ae hf]
    rfl
  | @value w a v x hn hv ha =>
    obtain ⟨n, hp⟩ := parseOptional_names ae hn
    refine ⟨w, [v], _, rfl, names_ne hn, (fun u hu => by rw [List.mem_singleton.1 hu]; exact ha), hp, fun rest s => ?_⟩
    rw [consumeOptional_eq ae w _ rfl]
    unfold optionActs asArgs
    simp only [List.map_cons, List.map_nil, List.cons_append, List.nil_append]
    rw [separate_value (takeAction_value ae hv s).1]
    simp only
    rw [takeActions_one, (takeAction_value ae hv s).2]
    rfl
  | @equals w a v x hn hv =>
    obtain ⟨n, hp⟩ := parseOptional_equals (v := v) ae hn
    refine ⟨_, [], _, rfl, ?_, (fun v hv => nomatch hv), hp, fun rest s => ?_⟩
    · intro e
      have : (61 : Nat) ∈ lit "--" := by
        rw [← e]
        exact List.mem_append_right _ List.mem_cons_self
      exact absurd this (by decide)
    rw [consumeOptional_eq ae _ _ rfl]
    unfold optionActs
    simp only
    rw [attached.eq_def, if_pos (takeAction_value ae hv s).1]
    simp only
    rw [takeActions_one, (takeAction_value ae hv s).2]
    rfl
  | @attached c a v x hl hv hne hne' =>
    have hm := letter_iff.1 hl
    refine ⟨_, [], _, rfl, ?_, (fun v hv => nomatch hv), parseOptional_short ae (letter_ne hm).1 hne hne' hm,
      fun rest s => ?_⟩
    · intro e
      cases e
      exact (letter_ne hm).1 rfl
    rw [consumeOptional_eq ae _ _ rfl]
    unfold optionActs
    simp only
    rw [attached.eq_def, if_pos (takeAction_value ae hv s).1]
    simp only
    rw [takeActions_one, (takeAction_value ae hv s).2]
    rfl
  | @cluster c a d r ws xs hl hf hd hw ih =>
    have hm := letter_iff.1 hl
    obtain ⟨w', vs, hit, e, -, hvs, hp, hc⟩ := ih
    cases e
    obtain ⟨a', ha'⟩ := optionWords_letter hw rfl hd
    rw [show chr '-' = 45 from rfl] at hp
    rw [parse_hitFor ae ha' r] at hp
    cases hp
    refine ⟨_, ws, _, rfl, ?_, hvs, parseOptional_short ae (letter_ne hm).1 (List.cons_ne_nil d r) ?_ hm,
      fun rest s => ?_⟩
    · intro e
      cases e
    · intro e
      cases e
      exact (letter_ne ha').2 rfl
    have h1 := hc rest (applySetting s (.flag a))
    rw [consumeOptional_eq ae _ _ (hitFor_act a' d r)] at h1
    rw [consumeOptional_eq ae _ _ rfl, show optionActs ⟨some a, [45, c], some [], some (d :: r)⟩ a
        (asArgs ws ++ rest) = attached [45, c] (asArgs ws ++ rest) a [] (d :: r) from rfl,
      attached_step (isFlag_noValue hf) (letter_ne hm).1 ha']
    cases ho : optionActs (hitFor a' d r) a' (asArgs ws ++ rest) with
    | error e => rw [ho] at h1; exact nomatch h1
    | ok y =>
      obtain ⟨as, x, t⟩ := y
      rw [ho] at h1
      simp only at h1 ⊢
      rw [takeActions_cons, takeAction_flag ae hf]
      exact h1

theorem pattern_cons {ae : ArgEnv} {w : PyStr} {ws ts} (h : pattern ae (w :: ws) = .ok ts) :
    (w = lit "--" ∧ ts = (w, .dashes) :: asArgs ws) ∨
    (w ≠ lit "--" ∧ ∃ rest, pattern ae ws = .ok rest ∧
      (parseOptional ae w = .ok none ∧ ts = (w, .arg) :: rest ∨
        ∃ hit, parseOptional ae w = .ok (some hit) ∧ ts = (w, .opt hit) :: rest)) := by
  unfold pattern at h
  by_cases hw : w = lit "--"
  · rw [if_pos hw] at h
    cases h
    exact Or.inl ⟨hw, rfl⟩
  · rw [if_neg hw] at h
    right
    refine ⟨hw, ?_⟩
    cases ho : parseOptional ae w with
    | error e => rw [ho] at h; exact nomatch h
    | ok o =>
      cases hr : pattern ae ws with
      | error e => rw [ho, hr] at h; exact nomatch h
      | ok rest =>
        rw [ho, hr] at h
        cases o with
        | none => cases h; exact ⟨rest, rfl, Or.inl ⟨rfl, rfl⟩⟩
        | some hit => cases h; exact ⟨rest, rfl, Or.inr ⟨hit, rfl, rfl⟩⟩

theorem pattern_opt {ae : ArgEnv} {w : PyStr} {ws ts hit} (hw : w ≠ lit "--") (ho : parseOptional ae w = .ok (some hit))
    (hr : pattern ae ws = .ok ts) : pattern ae (w :: ws) = .ok ((w, .opt hit) :: ts) := by
  rw [pattern.eq_def]
  simp only
  rw [if_neg hw, ho, hr]
  rfl

theorem pattern_args {ae : ArgEnv} {ws ts} (hr : pattern ae ws = .ok ts) : ∀ {ps : List PyStr},
    (∀ p ∈ ps, Argument ae p) → pattern ae (ps ++ ws) = .ok (asArgs ps ++ ts)
  | [], _ => hr
  | p :: ps, h => by
    have hp := h p List.mem_cons_self
    have ih := pattern_args hr fun q hq => h q (List.mem_cons_of_mem _ hq)
    rw [List.cons_append, pattern.eq_def]
    simp only
    rw [if_neg (argument_ne hp), (parseOptional_none ae (argument_ne hp)).2 hp, ih]
    rfl

theorem pattern_dashes (ae : ArgEnv) (qs : List PyStr) :
    pattern ae (lit "--" :: qs) = .ok ((lit "--", .dashes) :: asArgs qs) := by
  rw [pattern.eq_def]
  simp only
  rw [if_pos trivial]
  rfl

/-- The pattern up to the first option. -/
theorem pattern_split {ae : ArgEnv} : ∀ {ws ts}, pattern ae ws = .ok ts →
    (∃ ps ws' ts', ws = ps ++ ws' ∧ ts = asArgs ps ++ ts' ∧ (∀ p ∈ ps, Argument ae p) ∧ pattern ae ws' = .ok ts' ∧
      (ts' = [] ∨ ∃ w h t, ts' = (w, .opt h) :: t)) ∨
    (∃ ps qs, ws = ps ++ lit "--" :: qs ∧ ts = asArgs ps ++ (lit "--", .dashes) :: asArgs qs ∧
      ∀ p ∈ ps, Argument ae p)
  | [], ts, h => by
    cases h
    exact Or.inl ⟨[], [], [], rfl, rfl, (fun p hp => nomatch hp), rfl, Or.inl rfl⟩
  | w :: ws, ts, h => by
    rcases pattern_cons h with ⟨rfl, rfl⟩ | ⟨hw, rest, hr, ⟨ho, rfl⟩ | ⟨hit, ho, rfl⟩⟩
    · exact Or.inr ⟨[], ws, rfl, rfl, (fun p hp => nomatch hp)⟩
    · have ha := (parseOptional_none ae hw).1 ho
      have hall : ∀ {ps : List PyStr}, (∀ p ∈ ps, Argument ae p) → ∀ p ∈ w :: ps, Argument ae p := by
        intro ps hps p hp
        rcases List.mem_cons.1 hp with rfl | hp
        · exact ha
        · exact hps p hp
      rcases pattern_split hr with ⟨ps, ws', ts', rfl, rfl, hps, hp, he⟩ | ⟨ps, qs, rfl, rfl, hps⟩
      · exact Or.inl ⟨w :: ps, ws', ts', rfl, rfl, hall hps, hp, he⟩
      · exact Or.inr ⟨w :: ps, qs, rfl, rfl, hall hps⟩
    · exact Or.inl ⟨[], w :: ws, _, rfl, rfl, (fun p hp => nomatch hp), h, Or.inr ⟨w, hit, rest, rfl⟩⟩

/-- If an option is understood, it is one of the specification. -/
theorem option_sound {ae : ArgEnv} : ∀ (n : Nat) {w : PyStr} {hit ws rest r s s'}, w.length ≤ n →
    parseOptional ae w = .ok (some hit) → pattern ae ws = .ok rest →
    consumeOptional ae w hit rest s = .ok (s', [], r) →
    ∃ vs ws' xs, ws = vs ++ ws' ∧ pattern ae ws' = .ok r ∧ OptionWords ae (w :: vs) xs ∧ s' = applyAll xs s := by
  intro n
  induction n with
  | zero =>
    intro w hit ws rest r s s' hn hp
    have : w = [] := List.length_eq_zero_iff.1 (by omega)
    subst this
    exact nomatch hp
  | succ n ih =>
    intro w hit ws rest r s s' hn hp hr hc
    cases ha : hit.act with
    | none =>
      unfold consumeOptional at hc
      rw [ha] at hc
      cases hc
    | some a =>
      rw [consumeOptional_eq ae _ _ ha] at hc
      have hh := hitOf ae hp ha
      cases hh with
      | name hname =>
        unfold optionActs at hc
        simp only at hc
        cases hv : a.takesValue with
        | true =>
          unfold separate at hc
          rw [if_pos hv] at hc
          match rest, hc with
          | [], hc => exact nomatch hc
          | (v, .dashes) :: rest, hc => exact nomatch hc
          | (v, .opt h) :: rest, hc => exact nomatch hc
          | (v, .arg) :: rest, hc =>
            simp only [takeActions_one] at hc
            match ws, hr with
            | [], hr => exact nomatch hr
            | u :: ws, hr =>
              rcases pattern_cons hr with ⟨-, e⟩ | ⟨hw, rest', hr', ⟨ho, e⟩ | ⟨hit, ho, e⟩⟩
              · exact nomatch e
              · cases e
                cases ht : takeAction ae a [v] s with
                | error e => rw [ht] at hc; exact nomatch hc
                | ok s1 =>
                  rw [ht] at hc
                  cases hc
                  obtain ⟨x, hx, rfl⟩ := takeAction_value_inv ae hv ht
                  exact ⟨[v], ws, [x], rfl, hr', .value hname hx ((parseOptional_none ae hw).1 ho), rfl⟩
              · exact nomatch e
        | false =>
          rw [separate_flag hv] at hc
          simp only [takeActions_one] at hc
          cases ht : takeAction ae a [] s with
          | error e => rw [ht] at hc; exact nomatch hc
          | ok s1 =>
            rw [ht] at hc
            cases hc
            obtain ⟨hf, rfl⟩ := takeAction_flag_inv ae hv ht
            exact ⟨[], ws, _, rfl, hr, .flag hname hf, rfl⟩
      | @equals w _ nm v hname _ =>
        unfold optionActs at hc
        simp only at hc
        rw [attached.eq_def] at hc
        cases hv : a.takesValue with
        | true =>
          rw [if_pos hv] at hc
          simp only [takeActions_one] at hc
          cases ht : takeAction ae a [v] s with
          | error e => rw [ht] at hc; exact nomatch hc
          | ok s1 =>
            rw [ht] at hc
            cases hc
            obtain ⟨x, hx, rfl⟩ := takeAction_value_inv ae hv ht
            exact ⟨[], ws, [x], rfl, hr, .equals hname hx, rfl⟩
        | false =>
          rw [← attached.eq_def, Option.getD_some, attached_sep hv] at hc
          exact nomatch hc
      | @letter c _ v hm hne hne' =>
        rw [show optionActs ⟨some a, [45, c], some [], some v⟩ a rest = attached [45, c] rest a [] v from rfl] at hc
        cases hv : a.takesValue with
        | true =>
          rw [attached.eq_def, if_pos hv] at hc
          simp only [takeActions_one] at hc
          cases ht : takeAction ae a [v] s with
          | error e => rw [ht] at hc; exact nomatch hc
          | ok s1 =>
            rw [ht] at hc
            cases hc
            obtain ⟨x, hx, rfl⟩ := takeAction_value_inv ae hv ht
            exact ⟨[], ws, [x], rfl, hr, .attached (letter_iff.2 hm) hx hne hne', rfl⟩
        | false =>
          match v, hne with
          | d :: v, _ =>
            by_cases hd : d = 45
            · subst hd
              rw [attached.eq_def, if_neg (by rw [hv]; exact Bool.false_ne_true)] at hc
              simp only at hc
              rw [if_neg (by simp [(letter_ne hm).1]), if_pos (Or.inr trivial)] at hc
              exact nomatch hc
            · cases hf : findOption [45, d] with
              | none =>
                rw [attached.eq_def, if_neg (by rw [hv]; exact Bool.false_ne_true)] at hc
                simp only at hc
                rw [if_neg (by simp [(letter_ne hm).1]), if_neg (by simp [hd]), hf] at hc
                simp only at hc
                cases ht : takeActions ae [(a, [])] s with
                | error e => rw [ht] at hc; exact nomatch hc
                | ok s1 => rw [ht] at hc; exact nomatch hc
              | some a' =>
                have hm' := findOption_some.1 hf
                rw [attached_step hv (letter_ne hm).1 hm'] at hc
                cases ho : optionActs (hitFor a' d v) a' rest with
                | error e => rw [ho] at hc; exact nomatch hc
                | ok y =>
                  obtain ⟨as, x, t⟩ := y
                  rw [ho] at hc
                  simp only at hc
                  rw [takeActions_cons] at hc
                  cases ht : takeAction ae a [] s with
                  | error e => rw [ht] at hc; exact nomatch hc
                  | ok s1 =>
                    rw [ht] at hc
                    simp only at hc
                    obtain ⟨hfl, rfl⟩ := takeAction_flag_inv ae hv ht
                    have hc' : consumeOptional ae (45 :: d :: v) (hitFor a' d v) rest (applySetting s (.flag a)) =
                        .ok (s', [], r) := by
                      rw [consumeOptional_eq ae _ _ (hitFor_act a' d v), ho]
                      exact hc
                    obtain ⟨vs, ws', xs, e1, e2, e3, e4⟩ :=
                      ih (by simp only [List.length_cons] at hn ⊢; omega) (parse_hitFor ae hm' v) hr hc'
                    exact ⟨vs, ws', .flag a :: xs, e1, e2, .cluster (letter_iff.2 hm) hfl hd e3, e4⟩

theorem separate_pattern {ae : ArgEnv} {a : Act} {ws rest as r} (hr : pattern ae ws = .ok rest)
    (h : separate a rest = .ok (as, r)) : ∃ ws', pattern ae ws' = .ok r := by
  cases hv : a.takesValue with
  | false =>
    rw [separate_flag hv] at h
    cases h
    exact ⟨ws, hr⟩
  | true =>
    unfold separate at h
    rw [if_pos hv] at h
    match rest, h with
    | [], h => exact nomatch h
    | (v, .dashes) :: rest, h => exact nomatch h
    | (v, .opt x) :: rest, h => exact nomatch h
    | (v, .arg) :: rest, h =>
      cases h
      cases ws with
      | nil => exact nomatch hr
      | cons u ws =>
        rcases pattern_cons hr with ⟨-, e⟩ | ⟨-, r', hr', ⟨-, e⟩ | ⟨_, _, e⟩⟩
        · exact nomatch e
        · cases e; exact ⟨ws, hr'⟩
        · exact nomatch e

theorem attached_pattern {ae : ArgEnv} : ∀ (n : Nat) {name : PyStr} {a : Act} {sep e ws rest as x r}, e.length ≤ n →
    pattern ae ws = .ok rest → attached name rest a sep e = .ok (as, x, r) → ∃ ws', pattern ae ws' = .ok r := by
  intro n
  induction n with
  | zero =>
    intro name a sep e ws rest as x r hn hr h
    have : e = [] := List.length_eq_zero_iff.1 (by omega)
    subst this
    rw [attached.eq_def] at h
    split at h
    · cases h; exact ⟨ws, hr⟩
    · exact nomatch h
  | succ n ih =>
    intro name a sep e ws rest as x r hn hr h
    rw [attached.eq_def] at h
    split at h
    · cases h; exact ⟨ws, hr⟩
    · cases e with
      | nil => exact nomatch h
      | cons c e =>
        simp only at h
        split at h
        · exact nomatch h
        · split at h
          · exact nomatch h
          · split at h
            · cases h; exact ⟨ws, hr⟩
            · rename_i a' _
              split at h
              · cases hs : separate a' rest with
                | error e => rw [hs] at h; exact nomatch h
                | ok y =>
                  rw [hs] at h
                  cases h
                  exact separate_pattern hr hs
              · rename_i e'' 
                cases hs : attached [45, c] rest a' [61] e'' with
                | error e => rw [hs] at h; exact nomatch h
                | ok y =>
                  rw [hs] at h
                  cases h
                  exact ih (by simp only [List.length_cons] at hn; omega) hr hs
              · rename_i c' e'' _
                cases hs : attached [45, c] rest a' [] (c' :: e'') with
                | error e => rw [hs] at h; exact nomatch h
                | ok y =>
                  rw [hs] at h
                  cases h
                  exact ih (by simp only [List.length_cons] at hn ⊢; omega) hr hs

/-- What is left after an option is again the pattern of words. -/
theorem consume_pattern {ae : ArgEnv} {w : PyStr} {hit ws rest s s' x r} (hr : pattern ae ws = .ok rest)
    (h : consumeOptional ae w hit rest s = .ok (s', x, r)) : ∃ ws', pattern ae ws' = .ok r := by
  cases ha : hit.act with
  | none =>
    unfold consumeOptional at h
    rw [ha] at h
    cases h
    exact ⟨ws, hr⟩
  | some a =>
    rw [consumeOptional_eq ae _ _ ha] at h
    cases ho : optionActs hit a rest with
    | error e => rw [ho] at h; exact nomatch h
    | ok y =>
      obtain ⟨as, x', r'⟩ := y
      rw [ho] at h
      simp only at h
      have hr' : r' = r := by
        cases ht : takeActions ae as s with
        | error e => rw [ht] at h; exact nomatch h
        | ok s1 => rw [ht] at h; cases h; rfl
      subst hr'
      unfold optionActs at ho
      split at ho
      · exact attached_pattern _ (Nat.le_refl _) hr ho
      · cases hs : separate a rest with
        | error e => rw [hs] at ho; exact nomatch ho
        | ok y =>
          rw [hs] at ho
          cases ho
          exact separate_pattern hr hs

end Jpy
