import Verif.Proof.Written
import Verif.Proof.Bar
import Verif.Props.Report
import Verif.Props.Bench
import Verif.Props.Fetch
import Verif.Props.New
/-
C87 to C90: what is on the terminal, and the exit status.
-/
namespace Stuart
open Spec

/-! ### C87 -/

variable (M : Machine) (times : Times) (c : Context) (s : Host)

theorem executing_verb (p : Path) : hasVerb str!"Executing" (executing p) = true := rfl

theorem filter_executing (l : List Path) : (l.map executing).filter (hasVerb str!"Executing") = l.map executing := by
  rw [List.filter_eq_self]
  intro x hx
  obtain ⟨p, _, rfl⟩ := List.mem_map.1 hx
  rfl

/-- C87. A build writes the lines of a successful build up to where it fails, and all of them if and only if it succeeds. -/
theorem C87_lines :
    buildSay M times c s <+: buildLines c (finishedMsg times) ∧
    ((c.build M s).2.2 = .ok () ↔ buildSay M times c s = buildLines c (finishedMsg times)) ∧
    ∀ m, (Say.log str!"Finished" m ∈ buildSay M times c s ↔ (c.build M s).2.2 = .ok () ∧ m = finishedMsg times) := by
  obtain ⟨pre, post, exp, fin, _, h2, h3 | h3, _⟩ := buildSay_cases (M := M) (c := c) (s := s) (times := times)
  · obtain ⟨k1, _, k3, k4, rfl, rfl⟩ := h3
    have hpre : pre.map (executing ∘ Run.script) = (pre.map Run.script).map executing := by simp
    rw [k3, hpre]
    have hno : ∀ m, Say.log str!"Finished" m ∉ (pre.map Run.script).map executing := by
      intro m hm
      obtain ⟨p, _, h⟩ := List.mem_map.1 hm
      unfold executing at h
      simp at h
    refine ⟨?_, ⟨fun h => absurd h k1, fun h => ?_⟩, fun m => ⟨fun h => absurd h (hno m), fun h => absurd h.1 k1⟩⟩
    · unfold buildLines
      simp only [List.append_assoc]
      exact (k4.map executing).trans (List.prefix_append _ _)
    · have := hno (finishedMsg times)
      rw [h] at this
      exact absurd (by simp [buildLines]) this
  · obtain ⟨_, k2, k3, k4, k5, k6, k7⟩ := h3
    have hpre : pre.map (executing ∘ Run.script) = c.pre.map executing := by rw [← k2]; simp
    have hpost : post.map (executing ∘ Run.script) = (post.map Run.script).map executing := by simp
    rw [hpre, hpost] at k4
    have hexec : ∀ m (l : List Path), Say.log str!"Finished" m ∉ l.map executing := by
      intro m l hm
      obtain ⟨p, _, h⟩ := List.mem_map.1 hm
      unfold executing at h
      simp at h
    have hmem : ∀ m, Say.log str!"Finished" m ∈ buildSay M times c s ↔ fin = true ∧ m = finishedMsg times := by
      intro m
      rw [k4]
      simp only [List.mem_append, hexec, false_or, or_false]
      cases exp <;> cases fin <;> simp [building, exporting]
    refine ⟨?_, ⟨fun h => ?_, fun h => ?_⟩, fun m => by rw [hmem, k3]⟩
    · rw [k4]
      unfold buildLines
      cases fin with
      | true =>
        rw [k6 rfl, k7 (.inl rfl)]
        exact List.prefix_refl _
      | false =>
        cases hp : post with
        | cons r rs =>
          rw [← hp, k7 (.inr (by rw [hp]; nofun))]
          simp only [Bool.false_eq_true, if_false, List.append_nil]
          rw [List.append_assoc _ (c.post.map executing)]
          exact List.prefix_append_right_inj _ |>.2 ((k5.map executing).trans (List.prefix_append _ _))
        | nil =>
          cases exp with
          | true =>
            rw [h2 rfl]
            simp only [List.append_assoc, List.map_nil, Bool.false_eq_true, if_false, List.append_nil, if_true]
            simp
          | false =>
            simp only [List.append_assoc, List.map_nil, Bool.false_eq_true, if_false, List.append_nil]
            simp
    · rw [k4, k3.2 h, k6 (k3.2 h), k7 (.inl (k3.2 h))]
      rfl
    · rw [← k3]
      refine ((hmem (finishedMsg times)).1 ?_).1
      rw [h]
      simp [buildLines]

/-- C87. The scripts that are named are those that are run, in this order; the content is named when the scripts before it
have succeeded, and the metadata when the site has been saved. -/
theorem C87_steps :
    (∃ rs, (c.build M s).2.1.runs = s.runs ++ rs ∧
      (buildSay M times c s).filter (hasVerb str!"Executing") = rs.map (executing ∘ Run.script)) ∧
    (building c ∈ buildSay M times c s ↔ (runScripts M c.env c.pre s).2 = .ok ()) ∧
    (exporting ∈ buildSay M times c s ↔ c.stuart.config.saveMetadata = true ∧ Saved M c s) := by
  obtain ⟨pre, post, exp, fin, h1, _, h3, h4⟩ := buildSay_cases (M := M) (c := c) (s := s) (times := times)
  have hex : ∀ l : List Run, (l.map (executing ∘ Run.script)).filter (hasVerb str!"Executing") = l.map (executing ∘ Run.script) := by
    intro l
    rw [show l.map (executing ∘ Run.script) = (l.map Run.script).map executing by simp, filter_executing]
  have hno : ∀ (v m : Str) (l : List Run), v ≠ str!"Executing" → Say.log v m ∉ l.map (executing ∘ Run.script) := by
    intro v m l hv hm
    obtain ⟨p, _, h⟩ := List.mem_map.1 hm
    simp only [executing, Function.comp_apply, Say.log.injEq] at h
    exact hv h.1.symm
  rw [← h4]
  rcases h3 with ⟨k1, k2, k3, k4, rfl, rfl⟩ | ⟨k1, k2, k3, k4, _⟩
  · refine ⟨⟨pre, by simpa using h1, by rw [k3, hex]⟩, ?_, ?_⟩
    · rw [k3]
      exact ⟨fun h => absurd h (hno _ _ _ (by decide)), fun h => absurd h k2⟩
    · rw [k3]
      exact ⟨fun h => absurd h (hno _ _ _ (by decide)), nofun⟩
  · refine ⟨⟨pre ++ post, h1, ?_⟩, ?_, ?_⟩
    · rw [k4]
      simp only [List.filter_append, hex, List.map_append]
      cases exp <;> cases fin <;> simp [building, exporting, hasVerb]
    · rw [k4]
      simp [k1]
    · rw [k4]
      simp only [List.mem_append, exporting, hno _ _ _ (show str!"Exporting" ≠ str!"Executing" by decide), false_or, or_false]
      cases exp <;> cases fin <;> simp [building]

theorem showTenths_spec (micros : Nat) : Tenths (micros / 100) (showTenths micros) := by
  unfold showTenths
  simp only [natToStr_eq]
  generalize micros / 100 = n
  split
  · rename_i h
    have := Tenths.whole (n / 10)
    rwa [show 10 * (n / 10) = n by omega] at this
  · rename_i h
    have := Tenths.part (n / 10) (n % 10) (by omega) (by omega)
    rw [show 10 * (n / 10) + n % 10 = n by omega] at this
    simpa using this

/-- C87. The times in the last line: each is rounded down to tenths of milliseconds, and the total is that of the three
parts, up to two tenths lost in rounding. -/
theorem C87_times : ∃ total build scripts files : Nat, ∃ t b sc f : Str,
    Tenths total t ∧ Tenths build b ∧ Tenths scripts sc ∧ Tenths files f ∧
    finishedMsg times = str!"build in " ++ t ++ str!"ms (" ++ b ++ str!"ms build, " ++ sc ++ str!"ms scripts, " ++ f ++
      str!"ms filesystem)" ∧
    100 * total ≤ times.pre + times.build + times.save + times.post ∧
    times.pre + times.build + times.save + times.post < 100 * (total + 1) ∧
    100 * build ≤ times.build ∧ times.build < 100 * (build + 1) ∧
    100 * scripts ≤ times.pre + times.post ∧ times.pre + times.post < 100 * (scripts + 1) ∧
    100 * files ≤ times.save ∧ times.save < 100 * (files + 1) ∧
    build + scripts + files ≤ total ∧ total ≤ build + scripts + files + 2 := by
  refine ⟨_, _, _, _, _, _, _, _, showTenths_spec _, showTenths_spec _, showTenths_spec _, showTenths_spec _, rfl, ?_⟩
  omega

/-! ### C88 -/

variable (S : Site) (X : Setting) (K : Clock) (cmd : Command)

/-- C88. The level changes nothing but what is written. -/
theorem C88_level (level level' : LogLevel) :
    (mainRun S X K level cmd s).1 = (mainRun S X K level' cmd s).1 ∧
    (mainRun S X K level cmd s).2.2 = (mainRun S X K level' cmd s).2.2 := by
  unfold mainRun
  simp only
  split
  · exact ⟨rfl, rfl⟩
  · exact ⟨rfl, rfl⟩
  · split <;> exact ⟨rfl, rfl⟩

/-- The end of the output: the blank line and the report. -/
theorem mainRun_loud (h : ∀ n, cmd ≠ .bench n) (level : LogLevel) (hl : level ≠ .quiet) :
    (mainRun S X K level cmd s).2.1.written = (cmd.say S K s).map lineOf ++
      match (cmd.run S s).2 with
      | .err e => (if (cmd.say S K s).any isLog then [(.out, str!"\n")] else []) ++
        match printCli X e with
        | .ok text => [(.err, text)]
        | _ => []
      | _ => [] := by
  unfold mainRun
  simp only
  rw [Term.says_loud (Command.say_plain h) (by exact hl) rfl]
  simp only [List.nil_append, Bool.false_or]
  split
  · rename_i hr; rw [hr]; simp
  · rename_i hr; rw [hr]; simp
  · rename_i hr; rw [hr]
    simp only
    split
    · rename_i text ht
      rw [ht]
      split <;> simp [Term.say]
    · rename_i ht
      split
      · simp [Term.say]
      · split
        · rename_i he; exact absurd he (ht _)
        · simp

theorem mainRun_quiet (h : ∀ n, cmd ≠ .bench n) :
    (mainRun S X K .quiet cmd s).2.1.written = ((cmd.say S K s).map lineOf).filter IsReport ++
      match (cmd.run S s).2 with
      | .err e =>
        match printCli X e with
        | .ok text => [(.err, text)]
        | _ => []
      | _ => [] := by
  unfold mainRun
  simp only
  rw [Term.says_quiet (Command.say_plain h) (by exact rfl)]
  simp only [List.nil_append, Bool.false_eq_true, if_false]
  split
  · rename_i hr; rw [hr]; simp
  · rename_i hr; rw [hr]; simp
  · rename_i hr; rw [hr]
    simp only
    split
    · rename_i text ht
      rw [ht]
      simp [Term.say]
    · rename_i ht
      split
      · rename_i he; exact absurd he (ht _)
      · simp

/-- C88, for all commands but benchmarks: with `--quiet` the reports of errors are written and nothing else. What is
missing is the benchmark, for which this is false, and the development server, for which it is false too. -/
theorem C88_quiet_partial (h : ∀ n, cmd ≠ .bench n) :
    (mainRun S X K .quiet cmd s).2.1.written = (mainRun S X K .normal cmd s).2.1.written.filter IsReport := by
  rw [mainRun_quiet s S X K cmd h, mainRun_loud s S X K cmd h .normal (by decide), List.filter_append]
  congr 1
  split
  · rw [List.filter_append]
    have hb : ([(Stream.out, str!"\n")] : List (Stream × Str)).filter IsReport = [] := by
      rw [filter_other blank_not_report]; rfl
    rw [show (if (cmd.say S K s).any isLog then [(Stream.out, str!"\n")] else ([] : List (Stream × Str))).filter IsReport = [] by
      split
      · exact hb
      · rfl]
    split
    · rename_i text ht
      rw [filter_report ⟨rfl, (C84_lines X _ _ ht).1⟩]; rfl
    · rfl
  · rfl

theorem Term.says_verbose (l : List Say) (t : Term) (h : t.level = .normal) :
    ({ t with level := .verbose } : Term).says l = { t.says l with level := .verbose } ∧ (t.says l).level = .normal := by
  induction l generalizing t with
  | nil => exact ⟨rfl, h⟩
  | cons x l ih =>
    rw [Term.says_cons, Term.says_cons]
    have e : ({ t with level := .verbose } : Term).say x = { t.say x with level := .verbose } ∧ (t.say x).level = .normal := by
      cases x <;> simp [Term.say, h]
      split <;> simp [h]
    rw [e.1]
    exact ih _ e.2

/-- C88. `--verbose` makes no difference. -/
theorem C88_verbose : (mainRun S X K .verbose cmd s).2.1.written = (mainRun S X K .normal cmd s).2.1.written := by
  unfold mainRun
  simp only
  have h := (Term.says_verbose (cmd.say S K s) { level := .normal } rfl).1
  simp only at h
  rw [h]
  simp only
  split
  · rfl
  · rfl
  · split <;> split <;> rfl

/-! ### C89 -/

/-- C89. The status is 0 if the command succeeds, 1 if it fails with an error that is reported, and 101 if the program
panics. The report is the last thing that is written. -/
theorem C89_status (level : LogLevel) :
    ((mainRun S X K level cmd s).2.2 = 0 ↔ (cmd.run S s).2 = .ok ()) ∧
    ((mainRun S X K level cmd s).2.2 = 1 ↔ ∃ e text, (cmd.run S s).2 = .err e ∧ printCli X e = .ok text) ∧
    ((mainRun S X K level cmd s).2.2 = 0 ∨ (mainRun S X K level cmd s).2.2 = 1 ∨ (mainRun S X K level cmd s).2.2 = 101) ∧
    (∀ e text, (cmd.run S s).2 = .err e → printCli X e = .ok text →
      ∃ w, (mainRun S X K level cmd s).2.1.written = w ++ [(.err, text)]) ∧
    (mainRun S X K level cmd s).1 = (cmd.run S s).1 := by
  unfold mainRun
  simp only
  cases hr : (cmd.run S s).2 with
  | ok u => cases u; exact ⟨by simp, by simp, .inl rfl, by nofun, rfl⟩
  | panic p => exact ⟨by simp, by simp, .inr (.inr rfl), by nofun, rfl⟩
  | err e =>
    simp only
    cases ht : printCli X e with
    | ok text =>
      refine ⟨by simp, ⟨fun _ => ⟨e, text, rfl, ht⟩, fun _ => rfl⟩, .inr (.inl rfl), ?_, rfl⟩
      intro e' text' h1 h2
      cases h1
      rw [ht] at h2
      cases h2
      exact ⟨_, rfl⟩
    | err u =>
      refine ⟨by simp, ⟨by simp, ?_⟩, .inr (.inr rfl), ?_, rfl⟩
      · rintro ⟨e', text, h1, h2⟩; cases h1; rw [ht] at h2; cases h2
      · intro e' text h1 h2; cases h1; rw [ht] at h2; cases h2
    | panic u =>
      refine ⟨by simp, ⟨by simp, ?_⟩, .inr (.inr rfl), ?_, rfl⟩
      · rintro ⟨e', text, h1, h2⟩; cases h1; rw [ht] at h2; cases h2
      · intro e' text h1 h2; cases h1; rw [ht] at h2; cases h2

/-- C89. Unless the program was built with overflow checks, every error ends in a report and the status 1. -/
theorem C89_error (level : LogLevel) (e : CliErr) (h : (cmd.run S s).2 = .err e) (hx : X.checks = false) :
    (mainRun S X K level cmd s).2.2 = 1 ∧
    ∃ text w, printCli X e = .ok text ∧ (mainRun S X K level cmd s).2.1.written = w ++ [(.err, text)] := by
  obtain ⟨text, ht, _⟩ := C84_reported X e hx
  obtain ⟨_, h1, _, h2, _⟩ := C89_status s S X K cmd level
  obtain ⟨w, hw⟩ := h2 e text h ht
  exact ⟨h1.2 ⟨e, text, h, ht⟩, text, w, ht, hw⟩

theorem flatten_ends {w : List (Stream × Str)} (h : ∀ x ∈ w, str!"\n" <:+ x.2) : AtLineStart w := by
  induction w with
  | nil => exact .inl rfl
  | cons x w ih =>
    right
    rw [List.map_cons, List.flatten_cons]
    rcases ih (fun y hy => h y (by simp [hy])) with h' | h'
    · rw [h', List.append_nil]; exact h x (by simp)
    · exact suffix_right h'

/-- C89, for all commands but benchmarks: every report begins on a line of its own. What is missing is the benchmark, for
which this is false. -/
theorem C89_line_partial (h : ∀ n, cmd ≠ .bench n) (level : LogLevel) (w w' : List (Stream × Str)) (x : Stream × Str)
    (hw : (mainRun S X K level cmd s).2.1.written = w ++ x :: w') : AtLineStart w := by
  have hend : ∀ y ∈ (mainRun S X K level cmd s).2.1.written, str!"\n" <:+ y.2 := by
    have hloud : ∀ level', level' ≠ .quiet → ∀ y ∈ (mainRun S X K level' cmd s).2.1.written, str!"\n" <:+ y.2 := by
      intro level' hl y hy
      rw [mainRun_loud s S X K cmd h level' hl] at hy
      rcases List.mem_append.1 hy with hy | hy
      · exact (Command.say_plain h).ends y hy
      · split at hy
        · rcases List.mem_append.1 hy with hy | hy
          · split at hy
            · rw [List.mem_singleton.1 hy]; exact List.suffix_rfl
            · cases hy
          · split at hy
            · rename_i text ht
              rw [List.mem_singleton.1 hy]; exact (C84_lines X _ _ ht).2
            · cases hy
        · cases hy
    by_cases hl : level = .quiet
    · subst hl
      rw [C88_quiet_partial s S X K cmd h]
      intro y hy
      exact hloud .normal (by decide) y (List.mem_filter.1 hy).1
    · exact hloud level hl
  exact flatten_ends fun y hy => hend y (by rw [hw]; simp [hy])

/-! ### C90 -/

/-- C90. How much of the bar is filled: the part that is done, within one of the fifty signs and rounded up. The bar is
empty at the start, full at the end, and never goes back. -/
theorem C90_bar (k n : Nat) (hk : k ≤ n) (hn : 0 < n) (hn' : n ≤ 2 ^ 46) :
    50 * k ≤ barLength k n * n ∧ barLength k n * n ≤ 50 * k + n ∧ barLength k n ≤ 50 ∧
    barLength 0 n = 0 ∧ barLength n n = 50 ∧ ∀ k', k' ≤ k → barLength k' n ≤ barLength k n := by
  have main : ∀ k, k ≤ n → 50 * k ≤ barLength k n * n ∧ barLength k n * n ≤ 50 * k + n ∧ barLength k n ≤ 50 := by
    intro k hk
    rcases Nat.eq_zero_or_pos k with rfl | hpos
    · rw [barLength_zero]; omega
    · refine ⟨?_, ?_, (barLength_bounds (m := 0) hpos hk hn').1⟩
      · apply Nat.le_of_not_lt
        intro h
        have := (barLength_bounds (m := barLength k n) hpos hk hn').2.2 h
        omega
      · apply Nat.le_of_not_lt
        intro h
        have hl : 0 < barLength k n := by
          apply Nat.pos_of_ne_zero
          intro h0
          rw [h0] at h
          omega
        obtain ⟨m, hm⟩ : ∃ m, barLength k n = m + 1 := ⟨barLength k n - 1, by omega⟩
        rw [hm, Nat.add_mul, Nat.one_mul] at h
        have := (barLength_bounds (m := m) hpos hk hn').2.1 (by omega)
        omega
  obtain ⟨h1, h2, h3⟩ := main k hk
  refine ⟨h1, h2, h3, barLength_zero, ?_, fun k' hk' => ?_⟩
  · obtain ⟨g1, _, g3⟩ := main n (Nat.le_refl _)
    have := Nat.le_of_mul_le_mul_right g1 hn
    omega
  · apply Nat.le_of_not_lt
    intro hlt
    obtain ⟨g1, g2, _⟩ := main k' (by omega)
    have h5 : (barLength k n + 1) * n ≤ barLength k' n * n := Nat.mul_le_mul_right _ hlt
    rw [Nat.succ_mul] at h5
    have : k = k' := by omega
    subst this
    omega

/-- C90. The text of the bar has the same width all the time, up to the digits of the number. -/
theorem C90_text (name : Str) (k n : Nat) (hk : k ≤ n) (hn' : n ≤ 2 ^ 46) :
    ∃ filled, filled ≤ 50 ∧ filled = barLength k n ∧
      barText name k n = str!"\r" ++ List.replicate (12 - name.length) ' ' ++ name ++ str!" [" ++ List.replicate filled '=' ++
        List.replicate (50 - filled) ' ' ++ str!"] " ++ Nat.toDigits 10 k ++ str!"/" ++ Nat.toDigits 10 n := by
  refine ⟨_, ?_, rfl, ?_⟩
  · rcases Nat.eq_zero_or_pos n with rfl | h
    · unfold barLength; simp
    · exact (C90_bar k n hk h hn').2.2.1
  · unfold barText padLeft padRight
    simp only [natToStr_eq, List.length_replicate, List.append_assoc]

theorem buildSay_progress : (buildSay M times c s).filterMap progress = [] := by
  rw [List.filterMap_eq_nil_iff]
  intro x hx
  rcases buildSay_plain x hx with ⟨v, m, rfl, _⟩ | ⟨t, rfl, _⟩ <;> rfl

theorem benchSay_progress (total n k : Nat) :
    ((benchLoop M n c s).2 = .ok () → (benchSay M K total n k c s).filterMap progress =
      (List.range' (k + 1) n).map fun i => (i, total)) ∧
    ∃ m, m ≤ n ∧ (benchSay M K total n k c s).filterMap progress = (List.range' (k + 1) m).map fun i => (i, total) := by
  induction n generalizing k c s with
  | zero => exact ⟨fun _ => rfl, 0, Nat.le_refl _, rfl⟩
  | succ n ih =>
    rw [benchLoop, benchSay, List.filterMap_append, buildSay_progress, List.nil_append]
    generalize c.build M s = r
    obtain ⟨c', s', r⟩ := r
    cases r with
    | ok u =>
      cases u
      obtain ⟨g1, m, g2, g3⟩ := ih (k := k + 1) (c := c') (s := s')
      have hb : (if k + 1 = total then [Say.blank] else []).filterMap progress = [] := by split <;> rfl
      simp only
      constructor
      · intro h
        rw [List.filterMap_cons, progress, List.filterMap_append, hb, List.nil_append]
        simp only
        rw [g1 h, List.range'_succ, List.map_cons]
      · refine ⟨m + 1, by omega, ?_⟩
        rw [List.filterMap_cons, progress, List.filterMap_append, hb, List.nil_append]
        simp only
        rw [g3, List.range'_succ, List.map_cons]
    | err e => exact ⟨nofun, 0, by omega, rfl⟩
    | panic e => exact ⟨nofun, 0, by omega, rfl⟩

/-- C90. A benchmark of `n` builds shows the progress from 0 to `n`, one by one, and stops only if a build fails. -/
theorem C90_progress (iterations : Option Str) (s' : Host) (n : Nat)
    (hi : Context.init (S.O.loader S.parseToml) S.cwd str!"stuart.toml" str!"dist" str!"benchmark" s = (s', .ok c))
    (hn : parseUsize (iterations.getD str!"10") = some n) :
    ∃ m, m ≤ n ∧ ((Command.bench iterations).say S K s).filterMap progress = (List.range (m + 1)).map (fun i => (i, n)) ∧
      (((Command.bench iterations).run S s).2 = .ok () → m = n) := by
  have hinit : (initSay K S.O S.parseToml S.cwd str!"stuart.toml" s).filterMap progress = [] := by
    rw [List.filterMap_eq_nil_iff]
    intro x hx
    rcases initSay_plain x hx with ⟨v, m, rfl, _⟩ | ⟨t, rfl, _⟩ <;> rfl
  have hmeans : (meansSay ((List.range n).map K.times)).filterMap progress = [] := by
    rw [List.filterMap_eq_nil_iff]
    intro x hx
    simp only [meansSay, List.mem_cons, List.not_mem_nil, or_false] at hx
    rcases hx with rfl | rfl | rfl | rfl <;> rfl
  obtain ⟨g1, m, g2, g3⟩ := benchSay_progress S.M c s' K n n 0
  have hsay : ((Command.bench iterations).say S K s).filterMap progress =
      (0, n) :: (benchSay S.M K n n 0 c s').filterMap progress := by
    rw [Command.say, hi, hn]
    simp only
    rw [List.filterMap_append, hinit, List.filterMap_append, List.filterMap_append]
    split
    · rw [List.filterMap_append, hmeans]; simp [progress, List.filterMap_cons]
    · simp [progress, List.filterMap_cons]
  rw [hsay]
  have hrun : (Command.bench iterations).run S s = benchLoop S.M n c s' := by
    rw [Command.run, cmdBench, hi]
    simp only
    rw [hn]
  rw [hrun]
  by_cases h : (benchLoop S.M n c s').2 = .ok ()
  · refine ⟨n, Nat.le_refl _, ?_, fun _ => rfl⟩
    rw [g1 h, List.range_eq_range', List.range'_succ]; rfl
  · refine ⟨m, g2, ?_, fun h' => absurd h' h⟩
    rw [g3, List.range_eq_range', List.range'_succ]; rfl

/-! ### Cases and counterexamples -/

/-- Times that give `12`, `0.4`, … -/
def someTimes : Times := ⟨150, 1234, 30, 100⟩

/-- Everything takes the same time. -/
def stillClock : Clock := ⟨0, fun _ => someTimes, fun _ => str!"cannot load"⟩

/-- The program in `/p`, where the manifest names no plugins. -/
def plainSite (M : Machine) : Site := ⟨M, plainOutside, fun _ => .ok ⟨str!"Blog", none, none, none⟩, plainGit, [], [str!"p"]⟩

/-- The same with a plugin that has two sources, of which only the second can be loaded. -/
def twoSourceSite : Site := { plainSite idleMachine with
  parseToml := fun _ => .ok ⟨str!"Blog", none, none, some [(str!"b", str!"a.so;b.so")]⟩ }

/-- A project with both sources. -/
def twoSourceDisk : Entry := .dir [(str!"p", .dir [(str!"stuart.toml", .file []), (str!"content", .dir [(str!"a.txt", .file [1])]),
  (str!"a.so", .file [1]), (str!"b.so", .file [2])])]

example : finishedMsg someTimes = str!"build in 1.5ms (1.2ms build, 0.2ms scripts, 0ms filesystem)" := by decide

/-- The whole terminal after a build with a script. -/
example :
    let r := mainRun (plainSite idleMachine) demoSetting stillClock .normal (.build none none) ⟨⟨tiredDisk, []⟩, []⟩
    r.2.2 = 0 ∧ r.2.1.written = [
      (.err, str!"   Executing script `onPreBuild`\n"),
      (.err, str!"    Building Blog (/p)\n"),
      (.err, str!"    Finished build in 1.5ms (1.2ms build, 0.2ms scripts, 0ms filesystem)\n")] := by
  refine ⟨?_, ?_⟩ <;> decide +kernel

/-- And after one whose script fails. -/
example :
    let r := mainRun (plainSite failingMachine) demoSetting stillClock .normal (.build none none) ⟨⟨tiredDisk, []⟩, []⟩
    r.2.2 = 1 ∧ r.2.1.written = [
      (.err, str!"   Executing script `onPreBuild`\n"), (.out, str!"\n"),
      (.err, str!"error: `onPreBuild` failed with exit code 1\n")] := by
  refine ⟨?_, ?_⟩ <;> decide +kernel

/-- C88 is false of benchmarks: with `--quiet` the progress bar is written all the same. -/
theorem C88_counterexample_bench :
    ∃ x ∈ (mainRun (plainSite idleMachine) demoSetting stillClock .quiet (.bench (some str!"1")) ⟨⟨tiredDisk, []⟩, []⟩).2.1.written,
      ¬ IsReport x := by
  refine ⟨(.err, barText str!"Processing" 0 1), ?_, ?_⟩ <;> decide +kernel

/-- C88 is false of the development server: with `--quiet` an empty line is written for every change, and no report. -/
theorem C88_counterexample_dev :
    ∃ t, Term.onEvent idleMachine demoSetting someTimes (some [str!"p", str!"content", str!"a.html"]) demoContext
        ⟨⟨tiredDisk, []⟩, []⟩ { level := .quiet } = .ok t ∧ t.written = [(.out, str!"\n")] := by
  refine ⟨{ level := .quiet, written := [(.out, str!"\n")] }, ?_, rfl⟩
  rfl

/-- C89 is false of benchmarks: the report of an error follows the progress bar on the same line. -/
theorem C89_counterexample_bench :
    let r := mainRun (plainSite failingMachine) demoSetting stillClock .normal (.bench (some str!"1")) ⟨⟨tiredDisk, []⟩, []⟩
    ∃ w x, r.2.1.written = w ++ [x] ∧ IsReport x ∧ ¬ AtLineStart w := by
  refine ⟨[(.err, barText str!"Processing" 0 1)], (.err, str!"error: `onPreBuild` failed with exit code 1\n"), ?_, ?_, ?_⟩
  · decide +kernel
  · decide +kernel
  · unfold AtLineStart
    decide +kernel

/-- C89. A report does not mean that the program has failed: here a source of a plugin is reported, and the next is used. -/
theorem C89_counterexample_source :
    let r := mainRun twoSourceSite demoSetting stillClock .normal (.build none none) ⟨⟨twoSourceDisk, []⟩, []⟩
    r.2.2 = 0 ∧ ∃ x ∈ r.2.1.written, IsReport x := by
  refine ⟨by decide +kernel, (.err, str!"error: cannot load\n"), ?_, ?_⟩ <;> decide +kernel

/-- C90. The bar may be one longer than what is done, rounded up: 7 of 50 shows 8 signs, since 7/50 is rounded upwards. -/
theorem C90_counterexample : barLength 7 50 = 8 := by decide +kernel

/-- For the ten builds of a benchmark it is exact. -/
theorem C90_ten : ∀ k, k ≤ 10 → barLength k 10 = 5 * k := by decide +kernel

example := C87_lines idleMachine someTimes scriptContext ⟨⟨scriptDisk, []⟩, []⟩
example := C87_steps failingMachine someTimes scriptContext ⟨⟨scriptDisk, []⟩, []⟩
example := C88_quiet_partial ⟨⟨twoSourceDisk, []⟩, []⟩ twoSourceSite demoSetting stillClock (.build none none) nofun
example := C88_level ⟨⟨twoSourceDisk, []⟩, []⟩ twoSourceSite demoSetting stillClock (.build none none) .quiet .verbose
example := C88_verbose ⟨⟨twoSourceDisk, []⟩, []⟩ twoSourceSite demoSetting stillClock (.bench none)
example := C89_error ⟨⟨tiredDisk, []⟩, []⟩ (plainSite failingMachine) { demoSetting with checks := false } stillClock (.build none none) .quiet
  (.scriptFailure str!"onPreBuild" 1 [] []) rfl rfl
example := C89_line_partial ⟨⟨tiredDisk, []⟩, []⟩ (plainSite failingMachine) demoSetting stillClock (.build none none) nofun .normal
  [(.err, str!"   Executing script `onPreBuild`\n"), (.out, str!"\n")] [] (.err, str!"error: `onPreBuild` failed with exit code 1\n")
  (by decide +kernel)
example := C90_bar 7 50 (by decide) (by decide) (by decide)
example := C90_progress benchContext ⟨⟨benchDisk, []⟩, []⟩ { plainSite idleMachine with parseToml := fun _ => .ok ⟨[], none, none, none⟩ }
  stillClock none ⟨⟨benchDisk, []⟩, []⟩ 10 rfl rfl

end Stuart
