import Verif.Spec.Interrupted
import Verif.Lemmas.Cut
import Verif.Props.OutputBytes
/-! # C78: interrupted runs -/

namespace Jpy
open Spec hiding reported
open Spec.Xml

theorem closing_eq (np : Bool) : closing = outputBytes np [.tail] := by
  cases np <;> decide +kernel

theorem outputBytes_append (np : Bool) (a b : List Chunk) : outputBytes np (a ++ b) = outputBytes np a ++ outputBytes np b :=
  List.flatMap_append

theorem outputText_append (np : Bool) (a b : List Chunk) : outputText np (a ++ b) = outputText np a ++ outputText np b :=
  List.flatMap_append

theorem inTurn_take {α β : Type} {f : α → Outcome β} : ∀ {xs : List α} {ys : List β}, inTurn f xs = .ok ys →
    ys.length = xs.length ∧ (∀ k, inTurn f (xs.take k) = .ok (ys.take k)) ∧
      ∀ (k : Nat) y, ys[k]? = some y → ∃ x, xs[k]? = some x ∧ f x = .ok y
  | [], ys, h => by
    cases h
    exact ⟨rfl, fun k => by simp [inTurn], fun k y h => by simp at h⟩
  | x :: xs, [], h => by
    exact absurd (inTurn_nil h) (by simp)
  | x :: xs, y :: ys, h => by
    obtain ⟨_, _, e, h1, h2⟩ := inTurn_cons.1 h
    cases e
    obtain ⟨a, b, c⟩ := inTurn_take h2
    refine ⟨by rw [List.length_cons, List.length_cons, a], fun k => ?_, fun k z hz => ?_⟩
    · cases k with
      | zero => rfl
      | succ k => rw [List.take_succ_cons, List.take_succ_cons]; exact inTurn_cons.2 ⟨_, _, rfl, h1, b k⟩
    · cases k with
      | zero => cases hz; exact ⟨x, rfl, h1⟩
      | succ k => exact c k z hz

theorem prefix_flatMap {α : Type} (f : α → Bytes) : ∀ {l : List α} {b : Bytes}, b <+: l.flatMap f →
    b = l.flatMap f ∨ ∃ k c q, l[k]? = some c ∧ b = (l.take k).flatMap f ++ q ∧ ProperPart q (f c)
  | [], b, h => .inl (List.prefix_nil.1 h)
  | c :: l, b, h => by
    rw [List.flatMap_cons] at h ⊢
    by_cases hc : f c <+: b
    · obtain ⟨r, rfl⟩ := hc
      rcases prefix_flatMap f ((List.prefix_append_right_inj _).1 h) with e | ⟨k, d, q, h1, h2, h3⟩
      · exact .inl (by rw [e])
      · exact .inr ⟨k + 1, d, q, h1, by rw [List.take_succ_cons, List.flatMap_cons, List.append_assoc, h2], h3⟩
    · refine .inr ⟨0, c, b, rfl, rfl, ?_, fun e => hc (e ▸ List.prefix_rfl)⟩
      exact (List.prefix_or_prefix_of_prefix h (List.prefix_append _ _)).resolve_right hc

variable {env : Env} {me : MixEnv} {fs : FS} {fuel : Nat} {tool : String} {cfg : Config} {recurse : Bool}
  {paths existing : List PyStr}

/-- What a run writes, whether it ends normally or not. -/
theorem run_shape : let r := checkFiles env me fs fuel tool cfg recurse paths existing
    let files := existing ++ (findFiles fs recurse paths).1
    (r.exit ≠ .done ∧ r.out <+: [.head]) ∨
    ∃ n reps, n ≤ files.length ∧ inTurn (checkOneFile env me fs fuel cfg.options cfg.mix) (files.take n) = .ok reps ∧
      ((r.exit = .done ∧ n = files.length ∧ r.out = .head :: .elem (toolInfo tool) :: reps.map .elem ++ [.tail]) ∨
       (r.exit ≠ .done ∧ n < files.length ∧ r.out = .head :: .elem (toolInfo tool) :: reps.map .elem)) := by
  intro r files
  by_cases hd : r.exit = .done
  · obtain ⟨reps, h1, -, h3⟩ := C46_done hd
    exact .inr ⟨files.length, reps, Nat.le_refl _, by rw [List.take_length]; exact h3, .inl ⟨hd, rfl, h1⟩⟩
  · by_cases hne : existing ++ (findFiles fs recurse paths).1 = []
    · refine .inl ⟨hd, ?_⟩
      show (checkFiles env me fs fuel tool cfg recurse paths existing).out <+: _
      unfold checkFiles
      simp only [hne]
      exact List.nil_prefix
    · by_cases hw : writeElement cfg.nopretty (toolInfo tool) = .ok ()
      · obtain ⟨pre, p, post, reps, h1, h2, h3, -⟩ := C46_stop hne hw hd
        refine .inr ⟨pre.length, reps, ?_, ?_, .inr ⟨hd, ?_, h3⟩⟩
        · show _ ≤ (existing ++ (findFiles fs recurse paths).1).length
          rw [h1]; simp
        · show inTurn _ (List.take _ (existing ++ (findFiles fs recurse paths).1)) = _
          rw [h1, List.take_left]; exact h2
        · show _ < (existing ++ (findFiles fs recurse paths).1).length
          rw [h1]; simp
      · refine .inl ⟨hd, ?_⟩
        show (checkFiles env me fs fuel tool cfg recurse paths existing).out <+: _
        unfold checkFiles
        simp only
        rw [if_neg (by simpa using hne)]
        cases h : writeElement cfg.nopretty (toolInfo tool) with
        | ok u => exact absurd h hw
        | raised e => exact List.prefix_rfl
        | timeout => exact List.prefix_rfl

/-- The conditions under which what is written is XML: with layout, the XML parser of the language is a parser; without, also
that there are no illegal characters in file names. -/
def XmlOutput (env : Env) (me : MixEnv) (fs : FS) (tool : String) (cfg : Config) (files : List PyStr) : Prop :=
  ParsesXml env ∧ (cfg.nopretty = false ∨ (LegalEnv env ∧ StripsOnly me ∧ LegalStr tool ∧ LegalStr cfg.format.name ∧
    ∀ p ∈ files, LegalFile fs p))

theorem legal_written (hx : XmlOutput env me fs tool cfg (existing ++ (findFiles fs recurse paths).1)) {e : Elem}
    (h : .elem e ∈ (checkFiles env me fs fuel tool cfg recurse paths existing).out) : LegalText e := by
  obtain ⟨hx, hp⟩ := hx
  cases hn : cfg.nopretty with
  | false => exact legal_of_written (by rw [← hn]; exact checkFiles_written h)
  | true =>
    rcases hp with hp | ⟨he, hm, ht, hfmt, hf⟩
    · rw [hn] at hp; cases hp
    · exact C51_legal hx he hm ht hfmt hf h

/-- With the closing tag after them, the reports written so far are a document. -/
theorem closed_read (hx : XmlOutput env me fs tool cfg (existing ++ (findFiles fs recurse paths).1)) {n : Nat} {reps : List Elem}
    (h : inTurn (checkOneFile env me fs fuel cfg.options cfg.mix) ((existing ++ (findFiles fs recurse paths).1).take n) = .ok reps)
    (hl : ∀ e ∈ toolInfo tool :: reps, LegalText e) :
    ∃ x, ∃ vs : List String, parse (outputText cfg.nopretty (.head :: .elem (toolInfo tool) :: reps.map .elem ++ [.tail])) = some x ∧
      reps.map verdict = vs.map (fun v => some (.str v)) ∧ verdicts x = vs.map fun v => [v.toList] := by
  have ed := outputText_document (np := cfg.nopretty) (out := Chunk.head :: .elem (toolInfo tool) :: reps.map .elem ++ [.tail])
    (tool := toolInfo tool) (reps := reps) (by unfold Document; rfl)
  rw [ed]
  have hw := writable_all (tool := tool) hx.1 h hl
  cases hn : cfg.nopretty with
  | false =>
    obtain ⟨x, h4, h5⟩ := parse_pretty (List.cons_ne_nil _ _) (mixSpace_ne _) (mixSpace_norm _) hw
    obtain ⟨vs, h6, h7⟩ := verdicts_read h tool _ _ [] rfl h5
    exact ⟨x, vs, h4, h6, h7⟩
  | true =>
    have h4 := parse_compact (List.cons_ne_nil _ _) (mixSpace_ne _) hw
    obtain ⟨vs, h6, h7⟩ := verdicts_read h tool _ _ [.text ['\n']] rfl rfl
    exact ⟨_, vs, h4, h6, h7⟩

theorem closed_head (np : Bool) : ∃ x, Spec.Xml.read (outputText np [.head] ++ outputText np [.tail]) = some x := by
  apply Option.isSome_iff_exists.1
  cases np <;> decide +kernel

theorem head_decl (np : Bool) (l : List Chunk) (t : List Char) : "<?xml ".toList <+: outputText np (.head :: l) ++ t := by
  have : "<?xml ".toList <+: chunkText np .head := by cases np <;> decide +kernel
  obtain ⟨r, hr⟩ := this
  refine ⟨r ++ (l.flatMap (chunkText np) ++ t), ?_⟩
  show _ = List.flatMap _ _ ++ _
  rw [List.flatMap_cons, ← hr]
  simp only [List.append_assoc]

theorem parse_read {d : List Char} {x : Xml} (h : parse d = some x) : ∃ y, Spec.Xml.read d = some y := by
  unfold parse at h
  cases hr : Spec.Xml.read d with
  | none => rw [hr] at h; cases h
  | some y => exact ⟨y, rfl⟩

theorem utf8_unique {b B : Bytes} {cs : List Char} (h : IsUtf8 b cs) (h' : IsUtf8 B cs) : b = B := by
  unfold IsUtf8 at h h'
  rw [← h'] at h
  exact (List.map_inj_right (fun _ _ => UInt8.toNat_inj.1)).1 h

theorem short_end {E cs r : List Char} (h : E ++ ['>', '\n'] = cs ++ r) (hr : '>' ∉ r) : r = [] ∨ r = ['\n'] := by
  rcases List.append_eq_append_iff.1 h with ⟨a, h1, h2⟩ | ⟨a, h1, h2⟩
  · match a, h2 with
    | [], h2 => rw [List.nil_append] at h2; rw [← h2] at hr; exact absurd (by simp) hr
    | [c], h2 => cases h2; exact .inr rfl
    | [c, d], h2 => cases h2; exact .inl rfl
    | c :: d :: e :: f, h2 => simp at h2
  · rw [h2] at hr
    exact absurd (by simp) hr

/-- C78: what is left of an interrupted run can be read as a document only if the run ended normally and everything was written,
except perhaps the line end at the very end. So a document that can be read has a report for every selected file. -/
theorem C78_complete (hx : XmlOutput env me fs tool cfg (existing ++ (findFiles fs recurse paths).1)) {b : Bytes}
    (hb : b <+: outputBytes cfg.nopretty (checkFiles env me fs fuel tool cfg recurse paths existing).out) :
    (∃ x, ReadAs b x) ↔ (checkFiles env me fs fuel tool cfg recurse paths existing).exit = .done ∧
      (b = outputBytes cfg.nopretty (checkFiles env me fs fuel tool cfg recurse paths existing).out ∨
       b ++ [10] = outputBytes cfg.nopretty (checkFiles env me fs fuel tool cfg recurse paths existing).out) := by
  have hL : ∀ e, .elem e ∈ (checkFiles env me fs fuel tool cfg recurse paths existing).out → LegalText e := fun e he => legal_written hx he
  have hs := run_shape (env := env) (me := me) (fs := fs) (fuel := fuel) (tool := tool) (cfg := cfg) (recurse := recurse)
    (paths := paths) (existing := existing)
  simp only at hs
  generalize hrun : checkFiles env me fs fuel tool cfg recurse paths existing = r at hb hL hs ⊢
  constructor
  · rintro ⟨x, cs, hu, hr⟩
    have hpre := utf8_prefix hb hu ((C51_utf8 _ _ _).2 rfl)
    obtain ⟨y, hy⟩ := parse_read hr
    -- a run that did not end normally
    have stop : ∀ l z, r.out = .head :: l → Spec.Xml.read (outputText cfg.nopretty r.out ++ outputText cfg.nopretty [.tail]) = some z → False := by
      intro l z hl hz
      obtain ⟨t, ht⟩ := hpre
      rw [← ht, List.append_assoc] at hz
      have hd := head_decl cfg.nopretty l (outputText cfg.nopretty [.tail])
      rw [← hl, ← ht, List.append_assoc] at hd
      exact (read_prefix hd hy hz).1 (List.mem_append_right _ (by cases cfg.nopretty <;> decide))
    rcases hs with ⟨hd, ho⟩ | ⟨n, reps, hn, h1, ⟨hd, hn', ho⟩ | ⟨hd, hn', ho⟩⟩
    · exfalso
      have : r.out = [] ∨ r.out = [.head] := by
        generalize r.out = l at ho
        match l, ho with
        | [], _ => exact .inl rfl
        | [c], h => obtain ⟨t, ht⟩ := h; cases ht; exact .inr rfl
        | c :: d :: e, h => exact absurd h.length_le (by simp)
      rcases this with ho | ho
      · rw [ho] at hpre
        have : cs = [] := List.prefix_nil.1 hpre
        subst this
        cases hy
      · obtain ⟨z, hz⟩ := closed_head cfg.nopretty
        exact stop [] z ho (by rw [ho]; exact hz)
    · refine ⟨hd, ?_⟩
      obtain ⟨z, vs, hz, -, -⟩ := closed_read hx h1 (tool := tool) fun e he => hL e (by
        rw [ho]
        rcases List.mem_cons.1 he with rfl | he
        · simp
        · simp [he])
      rw [← ho] at hz
      obtain ⟨z, hz⟩ := parse_read hz
      obtain ⟨t, ht⟩ := hpre
      have hdecl := head_decl cfg.nopretty (.elem (toolInfo tool) :: reps.map .elem ++ [.tail]) []
      have ho' : r.out = .head :: (.elem (toolInfo tool) :: reps.map .elem ++ [.tail]) := ho
      rw [← ho', List.append_nil, ← ht] at hdecl
      rw [← ht] at hz
      have hm := (read_prefix hdecl hy hz).2
      have he : outputText cfg.nopretty r.out = (outputText cfg.nopretty (.head :: .elem (toolInfo tool) :: reps.map .elem) ++
          "</jpylyzer".toList) ++ ['>', '\n'] := by
        rw [ho, outputText_append, List.append_assoc]; rfl
      rw [← ht] at he
      have hu' := (C51_utf8 cfg.nopretty r.out _).2 rfl
      rw [← ht] at hu'
      rcases short_end he.symm hm with rfl | rfl
      · rw [List.append_nil] at hu'
        exact .inl (utf8_unique hu hu')
      · refine .inr (utf8_unique (cs := cs ++ ['\n']) ?_ hu')
        unfold IsUtf8 at hu ⊢
        rw [List.map_append, hu, List.flatMap_append]
        rfl
    · exfalso
      obtain ⟨z, vs, hz, -, -⟩ := closed_read hx h1 (tool := tool) fun e he => hL e (by
        rw [ho]
        rcases List.mem_cons.1 he with rfl | he
        · simp
        · simp [he])
      obtain ⟨z, hz⟩ := parse_read hz
      rw [outputText_append, ← ho] at hz
      exact stop _ z ho hz
  · rintro ⟨hd, hb'⟩
    rcases hs with ⟨hd', -⟩ | ⟨n, reps, hn, h1, ⟨-, hn', ho⟩ | ⟨hd', -⟩⟩
    · exact absurd hd hd'
    · obtain ⟨z, vs, hz, -, -⟩ := closed_read hx h1 (tool := tool) fun e he => hL e (by
        rw [ho]
        rcases List.mem_cons.1 he with rfl | he
        · simp
        · simp [he])
      rw [← ho] at hz
      rcases hb' with rfl | hb'
      · exact ⟨z, (readAs_iff ..).2 hz⟩
      · have hu := (C51_utf8 cfg.nopretty r.out _).2 rfl
        have he : outputText cfg.nopretty r.out = (outputText cfg.nopretty (.head :: .elem (toolInfo tool) :: reps.map .elem) ++
            "</jpylyzer>".toList) ++ ['\n'] := by
          rw [ho, outputText_append, List.append_assoc]; rfl
        rw [he] at hz hu
        rw [← hb'] at hu
        refine ⟨z, outputText cfg.nopretty (.head :: .elem (toolInfo tool) :: reps.map .elem) ++ "</jpylyzer>".toList, ?_, ?_⟩
        · unfold IsUtf8 at hu ⊢
          rw [List.map_append, List.flatMap_append] at hu
          exact List.append_cancel_right (as := b.map _) (bs := [10]) hu
        · unfold parse at hz ⊢
          cases hr : Spec.Xml.read (outputText cfg.nopretty (.head :: .elem (toolInfo tool) :: reps.map .elem) ++ "</jpylyzer>".toList ++ ['\n']) with
          | none => rw [hr] at hz; cases hz
          | some y =>
            rw [hr] at hz
            rw [read_newline (head_decl _ _ _) hr]
            exact hz
    · exact absurd hd hd'

theorem legal_of_out (hx : XmlOutput env me fs tool cfg (existing ++ (findFiles fs recurse paths).1)) {reps : List Elem}
    (h : ∀ e ∈ toolInfo tool :: reps, .elem e ∈ (checkFiles env me fs fuel tool cfg recurse paths existing).out) :
    ∀ e ∈ toolInfo tool :: reps, LegalText e := fun e he => legal_written hx (h e he)

theorem chunkBytes (np : Bool) (c : Chunk) : ((chunkText np c).flatMap fun ch => utf8EncodeNat ch.toNat) = outputBytes np [c] := by
  unfold outputBytes
  rw [List.flatMap_cons, List.flatMap_nil, List.append_nil]

theorem proper_append {a b c : Bytes} (h : ProperPart b c) : ProperPart (a ++ b) (a ++ c) :=
  ⟨(List.prefix_append_right_inj _).2 h.1, fun e => h.2 (List.append_cancel_left e)⟩

theorem proper_shorter {a b : Bytes} (h : a <+: b) (c : Bytes) (hc : c ≠ []) : ProperPart a (b ++ c) :=
  ⟨h.trans (List.prefix_append _ _), fun e => by
    have := h.length_le
    rw [e, List.length_append] at this
    have := List.length_pos_iff.2 hc
    omega⟩

theorem toolBytes_ne (np : Bool) (tool : String) : outputBytes np [.elem (toolInfo tool)] ≠ [] := by
  rw [← chunkBytes]
  have h : ∀ e : Elem, elementText np e ≠ [] := by
    intro e he
    cases np
    · rw [elementText_pretty] at he
      obtain ⟨t, a, x, c⟩ := e
      rw [prettyText.eq_def] at he
      simp at he
    · rw [elementText_compact] at he
      have := etText_head (namesOf e).qname (namesOf e).decls e
      rw [he] at this
      cases this
  show List.flatMap _ (elementText np (toolInfo tool)) ≠ []
  intro e
  rw [List.flatMap_eq_nil_iff] at e
  cases hl : elementText np (toolInfo tool) with
  | nil => exact h _ hl
  | cons c cs =>
    have h1 := e c (by rw [hl]; exact List.mem_cons_self ..)
    have h2 := utf8_char c
    rw [h1] at h2
    exact utf8Of_ne c h2.symm

theorem reports_written {n : Nat} {reps : List Elem} (h : ∀ e ∈ toolInfo tool :: reps, writeElement cfg.nopretty e = .ok ())
    (h1 : inTurn (checkOneFile env me fs fuel cfg.options cfg.mix) ((existing ++ (findFiles fs recurse paths).1).take n) = .ok reps)
    (hn : (existing ++ (findFiles fs recurse paths).1).take n ≠ []) :
    (checkFiles env me fs fuel tool cfg false [] ((existing ++ (findFiles fs recurse paths).1).take n)).exit = .done ∧
    upTo cfg.nopretty tool reps ++ closing =
      outputBytes cfg.nopretty (checkFiles env me fs fuel tool cfg false [] ((existing ++ (findFiles fs recurse paths).1).take n)).out := by
  have e : (existing ++ (findFiles fs recurse paths).1).take n ++ (findFiles fs false []).1 =
    (existing ++ (findFiles fs recurse paths).1).take n := List.append_nil _
  obtain ⟨reps', a, b, c⟩ := C46_document_partial (env := env) (me := me) (fs := fs) (fuel := fuel) (tool := tool) (cfg := cfg)
    (recurse := false) (paths := []) (existing := (existing ++ (findFiles fs recurse paths).1).take n) (by rw [e]; exact hn)
    (h _ (List.mem_cons_self ..)) (by
      rw [e]
      intro p hp
      obtain ⟨rep, g1, g2⟩ := inTurn_mem h1 hp
      exact ⟨rep, g2, h rep (List.mem_cons_of_mem _ g1)⟩)
  rw [e, h1] at c
  cases c
  refine ⟨b, ?_⟩
  unfold Document at a
  rw [a, closing_eq cfg.nopretty]
  unfold upTo
  rw [← outputBytes_append]
  rfl

/-- C78: what is left of an interrupted run is less than the opening of the document, or the opening, the reports of the
first files, complete and in order, and a beginning of what follows: of the report of the next file, or of the closing
tag. With the closing tag after the complete reports it is a document whose verdicts are those of these reports: if there
is at least one, exactly what a run on the first files only would have written. -/
theorem C78_kept (hx : XmlOutput env me fs tool cfg (existing ++ (findFiles fs recurse paths).1)) {b : Bytes}
    (hb : b <+: outputBytes cfg.nopretty (checkFiles env me fs fuel tool cfg recurse paths existing).out) :
    ProperPart b (upTo cfg.nopretty tool []) ∨
    ∃ n reps q, n ≤ (existing ++ (findFiles fs recurse paths).1).length ∧
      inTurn (checkOneFile env me fs fuel cfg.options cfg.mix) ((existing ++ (findFiles fs recurse paths).1).take n) = .ok reps ∧
      b = upTo cfg.nopretty tool reps ++ q ∧
      (q = [] ∨
       (∃ p rep, (existing ++ (findFiles fs recurse paths).1)[n]? = some p ∧
          checkOneFile env me fs fuel cfg.options cfg.mix p = .ok rep ∧ ProperPart q (outputBytes cfg.nopretty [.elem rep])) ∨
       (n = (existing ++ (findFiles fs recurse paths).1).length ∧ q <+: closing)) ∧
      (n ≠ 0 → (checkFiles env me fs fuel tool cfg false [] ((existing ++ (findFiles fs recurse paths).1).take n)).exit = .done ∧
        upTo cfg.nopretty tool reps ++ closing = outputBytes cfg.nopretty
          (checkFiles env me fs fuel tool cfg false [] ((existing ++ (findFiles fs recurse paths).1).take n)).out) ∧
      ∃ x, ∃ vs : List String, ReadAs (upTo cfg.nopretty tool reps ++ closing) x ∧
        reps.map verdict = vs.map (fun v => some (.str v)) ∧ verdicts x = vs.map fun v => [v.toList] := by
  have hW : ∀ e, .elem e ∈ (checkFiles env me fs fuel tool cfg recurse paths existing).out → writeElement cfg.nopretty e = .ok () :=
    fun e he => checkFiles_written he
  have hL : ∀ e, .elem e ∈ (checkFiles env me fs fuel tool cfg recurse paths existing).out → LegalText e := fun e he => legal_written hx he
  have hs := run_shape (env := env) (me := me) (fs := fs) (fuel := fuel) (tool := tool) (cfg := cfg) (recurse := recurse)
    (paths := paths) (existing := existing)
  simp only at hs
  generalize hrun : checkFiles env me fs fuel tool cfg recurse paths existing = r at hb hL hW hs ⊢
  have hopen : upTo cfg.nopretty tool [] = outputBytes cfg.nopretty [.head] ++ outputBytes cfg.nopretty [.elem (toolInfo tool)] :=
    outputBytes_append _ [.head] _
  rcases hs with ⟨hd, ho⟩ | ⟨n, reps, hn, h1, hcase⟩
  · left
    obtain ⟨t, ht⟩ := ho
    rw [hopen]
    refine proper_shorter (hb.trans ⟨outputBytes cfg.nopretty t, ?_⟩) _ (toolBytes_ne _ _)
    rw [← outputBytes_append, ht]
  -- the complete part
  have hin : ∀ e ∈ toolInfo tool :: reps, .elem e ∈ r.out := by
    intro e he
    rcases hcase with ⟨-, -, ho⟩ | ⟨-, -, ho⟩
    all_goals
      rw [ho]
      rcases List.mem_cons.1 he with rfl | he
      · simp
      · simp [he]
  have good : ∀ k ≤ n, (k ≠ 0 → (checkFiles env me fs fuel tool cfg false [] ((existing ++ (findFiles fs recurse paths).1).take k)).exit = .done ∧
        upTo cfg.nopretty tool (reps.take k) ++ closing = outputBytes cfg.nopretty
          (checkFiles env me fs fuel tool cfg false [] ((existing ++ (findFiles fs recurse paths).1).take k)).out) ∧
      ∃ x, ∃ vs : List String, ReadAs (upTo cfg.nopretty tool (reps.take k) ++ closing) x ∧
        (reps.take k).map verdict = vs.map (fun v => some (.str v)) ∧ verdicts x = vs.map fun v => [v.toList] := by
    intro k hk
    have h2 := (inTurn_take h1).2.1 k
    rw [List.take_take, Nat.min_eq_left hk] at h2
    obtain ⟨x, vs, a, b, c⟩ := closed_read (tool := tool) hx h2 fun e he => hL e (hin e (by
      rcases List.mem_cons.1 he with rfl | he
      · exact List.mem_cons_self ..
      · exact List.mem_cons_of_mem _ (List.mem_of_mem_take he)))
    refine ⟨fun hk0 => reports_written (fun e he => hW e (hin e (by
      rcases List.mem_cons.1 he with rfl | he
      · exact List.mem_cons_self ..
      · exact List.mem_cons_of_mem _ (List.mem_of_mem_take he)))) h2 (fun e => ?_), x, vs, ?_, b, c⟩
    · rw [List.take_eq_nil_iff] at e
      rcases e with e | e
      · exact hk0 e
      · rw [e, List.length_nil] at hn; omega
    rw [closing_eq cfg.nopretty]
    unfold upTo
    rw [← outputBytes_append]
    exact (readAs_iff ..).2 a
  have hlen : reps.length = n := by rw [(inTurn_take h1).1, List.length_take, Nat.min_eq_left hn]
  have hpart : b <+: outputBytes cfg.nopretty (.head :: .elem (toolInfo tool) :: reps.map .elem) →
      ProperPart b (upTo cfg.nopretty tool []) ∨ b = upTo cfg.nopretty tool reps ∨
      ∃ k rep q, reps[k]? = some rep ∧ b = upTo cfg.nopretty tool (reps.take k) ++ q ∧ ProperPart q (outputBytes cfg.nopretty [.elem rep]) := by
    intro hb
    rcases prefix_flatMap _ hb with e | ⟨k, c, q, hk, hbq, hq⟩
    · exact .inr (.inl e)
    · rw [chunkBytes] at hq
      rcases k with _ | _ | k
      · obtain rfl := Option.some.inj hk
        left
        rw [hopen, hbq, List.take_zero, List.flatMap_nil, List.nil_append]
        exact proper_shorter hq.1 _ (toolBytes_ne _ _)
      · obtain rfl := Option.some.inj hk
        left
        have e : b = outputBytes cfg.nopretty [.head] ++ q := hbq
        rw [hopen, e]
        exact proper_append hq
      · right; right
        have hk : (reps.map Chunk.elem)[k]? = some c := hk
        rw [List.getElem?_map] at hk
        obtain ⟨rep, h3, rfl⟩ := Option.map_eq_some_iff.1 hk
        refine ⟨k, rep, q, h3, ?_, hq⟩
        rw [hbq]
        unfold upTo outputBytes
        rw [List.take_succ_cons, List.take_succ_cons, List.map_take]
  by_cases hb' : b <+: outputBytes cfg.nopretty (.head :: .elem (toolInfo tool) :: reps.map .elem)
  · rcases hpart hb' with h | h | ⟨k, rep, q, hk, hbq, hq⟩
    · exact .inl h
    · refine .inr ⟨n, reps, [], hn, h1, by rw [List.append_nil]; exact h, .inl rfl, ?_⟩
      have := good n (Nat.le_refl _)
      rwa [show reps.take n = reps by rw [← hlen, List.take_length]] at this
    · obtain ⟨p, h4, h5⟩ := (inTurn_take h1).2.2 k rep hk
      have hkn : k < n := by
        have := (List.getElem?_eq_some_iff.1 hk).1
        omega
      rw [List.getElem?_take_of_lt hkn] at h4
      have h2 := (inTurn_take h1).2.1 k
      rw [List.take_take, Nat.min_eq_left (Nat.le_of_lt hkn)] at h2
      exact .inr ⟨k, reps.take k, q, by omega, h2, hbq, .inr (.inl ⟨p, rep, h4, h5, hq⟩), good k (Nat.le_of_lt hkn)⟩
  · rcases hcase with ⟨hd, hn', ho⟩ | ⟨hd, hn', ho⟩
    · rw [ho, outputBytes_append] at hb
      obtain ⟨q, rfl⟩ := (List.prefix_or_prefix_of_prefix hb (List.prefix_append _ _)).resolve_left hb'
      refine .inr ⟨n, reps, q, hn, h1, rfl, .inr (.inr ⟨hn', ?_⟩), ?_⟩
      · rw [closing_eq cfg.nopretty]
        exact (List.prefix_append_right_inj _).1 hb
      · have := good n (Nat.le_refl _)
        rwa [show reps.take n = reps by rw [← hlen, List.take_length]] at this
    · rw [ho] at hb
      exact absurd hb hb'

/-! ## Cases -/

theorem xmlOutput51 (f : Format) : XmlOutput env51 Sample.me0 (fsNamed markup Sample.jp2Xml) "jpylyzer.py" (cfgOf f 2 false)
    ([] ++ (findFiles (fsNamed markup Sample.jp2Xml) false [[97]]).1) := ⟨parses51, .inl rfl⟩

/-- The conditions hold of a run on a file whose name has markup and which has an XML box; it ends normally and writes
a report, so its output has initial parts of every kind. -/
example : (runOn markup Sample.jp2Xml (cfgOf .jp2 2 false)).exit = .done ∧
    3 < (runOn markup Sample.jp2Xml (cfgOf .jp2 2 false)).out.length := by decide +kernel

/-- A run that a file keeps busy for ever (here: the analysis gets no steps at all) leaves the opening of a document. -/
example : let r := checkFiles env51 Sample.me0 (fsNamed markup Sample.jp2Xml) 0 "jpylyzer.py" (cfgOf .jp2 2 false) false [[97]] []
    r.exit = .hang ∧ r.out.length = 2 := by decide +kernel

end Jpy
