import Verif.Spec.Bench
import Verif.Proof.Literal
import Verif.Props.Rebuild
/-
Property C77: what `stuart bench` does.
-/
namespace Stuart
open Spec

theorem parseUsize_iff {t : Str} {n : Nat} : parseUsize t = some n ↔ Count t n := by
  have key : ∀ ds, (parseDigits ds).bind (fun n => if n < 18446744073709551616 then some n else none) = some n ↔
      ds ≠ [] ∧ (∀ c ∈ ds, IsDigit c) ∧ n = decVal ds ∧ n < 2 ^ 64 := by
    intro ds
    constructor
    · intro h
      cases hp : parseDigits ds with
      | none => rw [hp] at h; cases h
      | some m =>
        rw [hp, Option.bind_some] at h
        split at h
        · rename_i hm
          cases h
          obtain ⟨a, b, c⟩ := parseDigits_some hp
          exact ⟨a, b, c, hm⟩
        · cases h
    · rintro ⟨a, b, rfl, c⟩
      rw [parseDigits_digits a b, Option.bind_some, if_pos (by simpa using c)]
  unfold Count
  by_cases hplus : ∃ ds, t = '+' :: ds
  · obtain ⟨ds, rfl⟩ := hplus
    show (parseDigits ds).bind _ = some n ↔ _
    rw [key]
    constructor
    · rintro ⟨a, b, rfl, c⟩; exact ⟨.plus ds a b, c, by simp⟩
    · rintro ⟨a, c, _⟩
      generalize ht : '+' :: ds = t at a
      generalize hi : (n : Int) = i at a
      cases a with
      | plain _ a b => subst ht; exact absurd (b '+' (.head _)) not_digit_plus
      | plus ds' a b => cases ht; exact ⟨a, b, by omega, c⟩
      | minus ds' a b => cases ht
  · have hu : parseUsize t = (parseDigits t).bind fun n => if n < 18446744073709551616 then some n else none := by
      unfold parseUsize
      split
      · rename_i ds; exact absurd ⟨ds, rfl⟩ hplus
      · rfl
    rw [hu, key]
    constructor
    · rintro ⟨a, b, rfl, c⟩
      refine ⟨.plain t a b, c, fun h => ?_⟩
      cases t with
      | nil => cases h
      | cons x t => cases h; exact not_digit_minus (b _ (.head _))
    · rintro ⟨a, c, e⟩
      generalize hi : (n : Int) = i at a
      cases a with
      | plain _ a b => exact ⟨a, b, by omega, c⟩
      | plus ds' a b => exact absurd ⟨_, rfl⟩ hplus
      | minus ds' a b => exact absurd rfl e

theorem benchLoop_ok {M : Machine} {n : Nat} {c : Context} {s s' : Host} :
    benchLoop M n c s = (s', .ok ()) ↔ ∃ c', BuildsRun M n c s c' s' := by
  induction n generalizing c s with
  | zero =>
    rw [benchLoop]
    constructor
    · intro h; cases h; exact ⟨c, .none⟩
    · rintro ⟨c', h⟩; cases h; rfl
  | succ n ih =>
    rw [benchLoop]
    constructor
    · intro h
      split at h
      · rename_i c1 s1 hb
        obtain ⟨c', k⟩ := ih.1 h
        exact ⟨c', .more hb k⟩
      · rename_i c1 s1 r hr hb
        cases h
        exact (hr rfl).elim
    · rintro ⟨c', h⟩
      cases h with
      | more hb h => rw [hb]; exact ih.2 ⟨c', h⟩

theorem benchLoop_bad {M : Machine} {n : Nat} {c : Context} {s s' : Host} {r : Res CliErr Unit} (hr : r ≠ .ok ()) :
    benchLoop M n c s = (s', r) ↔ ∃ k c1 s1 c2, k < n ∧ BuildsRun M k c s c1 s1 ∧ c1.build M s1 = (c2, s', r) := by
  induction n generalizing c s with
  | zero =>
    rw [benchLoop]
    constructor
    · intro h; cases h; exact absurd rfl hr
    · rintro ⟨k, _, _, _, hk, _⟩; cases hk
  | succ n ih =>
    rw [benchLoop]
    constructor
    · intro h
      split at h
      · rename_i c1 s1 hb
        obtain ⟨k, c2, s2, c3, hk, hB, hl⟩ := ih.1 h
        exact ⟨k + 1, c2, s2, c3, by omega, .more hb hB, hl⟩
      · rename_i c1 s1 r' hr' hb
        cases h
        exact ⟨0, c, s, c1, by omega, .none, hb⟩
    · rintro ⟨k, c1, s1, c2, hk, hB, hl⟩
      cases hB with
      | none =>
        rw [hl]
        cases r with
        | ok u => exact absurd rfl hr
        | err e => rfl
        | panic p => rfl
      | more hb hB => rw [hb]; exact ih.2 ⟨_, _, _, _, by omega, hB, hl⟩

/-- C77. `stuart bench` starts the project in benchmark mode with the output in `dist`, reads the number of iterations,
and builds that many times, stopping at the first build that fails, whose error (or panic) it reports. Each failure
leaves everything done before it in place. In particular it succeeds exactly if all the builds do, and with 0
iterations it does nothing. -/
theorem C77_bench (M : Machine) (L : Loader) (cwd : Path) (text : Str) (s s' : Host) (r : Res CliErr Unit) :
    cmdBench M L cwd text s = (s', r) ↔
      (∃ e, Context.init L cwd str!"stuart.toml" str!"dist" str!"benchmark" s = (s', .err e) ∧ r = .err e) ∨
      (∃ p, Context.init L cwd str!"stuart.toml" str!"dist" str!"benchmark" s = (s', .panic p) ∧ r = .panic p) ∨
      (∃ c, Context.init L cwd str!"stuart.toml" str!"dist" str!"benchmark" s = (s', .ok c) ∧ (∀ n, ¬ Count text n) ∧
        r = .err .invalidIterations) ∨
      ∃ s0 c n, Context.init L cwd str!"stuart.toml" str!"dist" str!"benchmark" s = (s0, .ok c) ∧ Count text n ∧
        ((r = .ok () ∧ ∃ c', BuildsRun M n c s0 c' s') ∨
         (r ≠ .ok () ∧ ∃ k c1 s1 c2, k < n ∧ BuildsRun M k c s0 c1 s1 ∧ c1.build M s1 = (c2, s', r))) := by
  unfold cmdBench
  cases hi : Context.init L cwd str!"stuart.toml" str!"dist" str!"benchmark" s with
  | mk s0 x =>
    cases x with
    | err e =>
      constructor
      · intro h; cases h; exact .inl ⟨e, rfl, rfl⟩
      · rintro (⟨e', h, rfl⟩ | ⟨p, h, rfl⟩ | ⟨c, h, _, rfl⟩ | ⟨_, c, n, h, _⟩) <;> cases h
        rfl
    | panic p =>
      constructor
      · intro h; cases h; exact .inr (.inl ⟨p, rfl, rfl⟩)
      · rintro (⟨e', h, rfl⟩ | ⟨p, h, rfl⟩ | ⟨c, h, _, rfl⟩ | ⟨_, c, n, h, _⟩) <;> cases h
        rfl
    | ok c =>
      simp only
      cases hp : parseUsize text with
      | none =>
        have hno : ∀ n, ¬ Count text n := fun n hn => by rw [parseUsize_iff.2 hn] at hp; cases hp
        constructor
        · intro h; cases h; exact .inr (.inr (.inl ⟨c, rfl, hno, rfl⟩))
        · rintro (⟨e', h, rfl⟩ | ⟨p, h, rfl⟩ | ⟨c, h, _, rfl⟩ | ⟨_, c, n, h, hn, _⟩)
          · cases h
          · cases h
          · cases h; rfl
          · exact absurd hn (hno n)
      | some n =>
        have hc := parseUsize_iff.1 hp
        have huniq : ∀ m, Count text m → m = n := fun m hm => by
          rw [parseUsize_iff.2 hm] at hp; exact Option.some.inj hp
        simp only
        constructor
        · intro h
          refine .inr (.inr (.inr ⟨s0, c, n, rfl, hc, ?_⟩))
          by_cases hr : r = .ok ()
          · subst hr; exact .inl ⟨rfl, benchLoop_ok.1 h⟩
          · exact .inr ⟨hr, (benchLoop_bad hr).1 h⟩
        · rintro (⟨e', h, rfl⟩ | ⟨p, h, rfl⟩ | ⟨c, h, hno, rfl⟩ | ⟨_, c, m, h, hm, hr⟩)
          · cases h
          · cases h
          · exact absurd hc (hno n)
          · cases h
            rw [huniq m hm] at hr
            rcases hr with ⟨rfl, h⟩ | ⟨hr, h⟩
            · exact benchLoop_ok.2 h
            · exact (benchLoop_bad hr).2 h

theorem plain_way {disk : Entry} (hd : ProperDisk disk) {p : Path} (h : look disk p ≠ none) : ∀ n ∈ p, PlainName n := by
  intro n hn
  obtain ⟨a, b, rfl⟩ := List.append_of_mem hn
  refine plain_of_look hd (p := a) (nm := n) ?_
  cases b with
  | nil => exact h
  | cons x b =>
    rw [show a ++ n :: x :: b = (a ++ [n]) ++ (x :: b) by simp] at h
    rw [look_above (by simp) h]; nofun

/-- A project as `init` makes it for a benchmark has its output apart from the inputs. -/
theorem bench_apart {L : Loader} {cwd : Path} {mode : Str} {s s' : Host} {c : Context}
    (h : Context.init L cwd str!"stuart.toml" str!"dist" mode s = (s', .ok c)) :
    OutputApart c ∧ c.dir = cwd ∧ c.outPath = cwd ++ [str!"dist"] ∧ c.stuart.dir = cwd ++ [str!"content"] := by
  have hj : ∀ n, PlainName n → joinPath cwd n = cwd ++ [n] := fun n hn => joinPath_plain hn
  have key : c.dir = cwd ∧ c.output = str!"dist" ∧ c.stuart.dir = cwd ++ [str!"content"] := by
    obtain ⟨path, b, text, raw, plugins, h1, h2, h3, h4, h5, rfl⟩ := Context.init_ok h
    have := canonicalize_plain (by decide) h1
    subst this
    simp only [List.dropLast_concat]
    exact ⟨trivial, trivial, trivial⟩
  obtain ⟨k1, k2, k3⟩ := key
  have k4 : c.outPath = cwd ++ [str!"dist"] := by
    show joinPath c.dir c.output = _
    rw [k1, k2]; exact hj _ (by decide)
  have hne : ∀ {a b : Str}, a ≠ b → ¬ cwd ++ [a] <+: cwd ++ [b] := fun hab k => (apart_names hab).1 k
  refine ⟨⟨?_, ?_, ?_, ?_, ?_, ?_⟩, k1, k4, k3⟩
  · rw [k4]; simp
  · rw [k1, k3]
  · rw [k1, k4]; exact apart_names (by decide)
  · rw [k1, k4]; exact apart_names (by decide)
  · rw [k1, k4]; exact hne (by decide)
  · rw [k4, Context.metaPath, k1]; exact hne (by decide)

/-- C77. A benchmark of any number of iterations, at least one, leaves the disk as a single build does, and succeeds if
that does. Partial: this is for projects without scripts, temporary files and mishaps, whose names are those that files
can have (see C41 for `...html`); scripts may do anything, and see a fresh state each time. -/
theorem C77_once_partial (M : Machine) (L : Loader) (cwd : Path) (text : Str) (n : Nat) (s s0 : Host) (c : Context)
    (hi : Context.init L cwd str!"stuart.toml" str!"dist" str!"benchmark" s = (s0, .ok c)) (ht : Count text n) (hpos : 1 ≤ n)
    (hs : c.pre = [] ∧ c.post = []) (hcalm : s0.world.Calm)
    (htemp : look s0.world.disk (cwd ++ [str!"temp"]) = none) (hd : ProperDisk s0.world.disk)
    (hn : ∀ name cs src, readBuild M.sys s0.world.disk c.mode c.stuart = .ok (.dir name cs src) → PlainNames c.stuart.config cs)
    (hdots : NoDots c.stuart.config s0.world.disk cwd)
    (h : (c.build M s0).2.2 = .ok ()) :
    (cmdBench M L cwd text s).2 = .ok () ∧
    ∀ q, look (cmdBench M L cwd text s).1.world.disk q = look (c.build M s0).2.1.world.disk q := by
  obtain ⟨ha, k1, k2, k3⟩ := bench_apart hi
  have hcwd : (∀ n ∈ c.dir, PlainName n) := by
    obtain ⟨s1, out, s2, h1, h2, _, _⟩ := Context.build_ok h
    rw [hs.1, runScripts] at h1
    cases h1
    have : look s0.world.disk (cwd ++ [str!"content"]) ≠ none := by
      unfold readBuild readTree at h2
      rw [k3] at h2
      intro k
      rw [at_none_iff.2 k] at h2
      cases h2
    intro n hn
    exact plain_way hd this n (by rw [← k1]; exact List.mem_append_left _ hn)
  have hout : ∀ n ∈ c.outPath, PlainName n := by
    intro n hn
    rw [k2, ← k1] at hn
    rcases List.mem_append.1 hn with k | k
    · exact hcwd n k
    · rw [List.mem_singleton.1 k]; decide
  have hloop : ∀ k (c1 : Context) (s1 : Host), c1.pre = [] ∧ c1.post = [] → OutputApart c1 → s1.world.Calm →
      look s1.world.disk (c1.dir ++ [str!"temp"]) = none → ProperDisk s1.world.disk →
      (∀ name cs src, readBuild M.sys s1.world.disk c1.mode c1.stuart = .ok (.dir name cs src) →
        PlainNames c1.stuart.config cs) →
      NoDots c1.stuart.config s1.world.disk c1.dir → (∀ n ∈ c1.dir, PlainName n) → (∀ n ∈ c1.outPath, PlainName n) →
      (c1.build M s1).2.2 = .ok () →
      (benchLoop M (k + 1) c1 s1).2 = .ok () ∧
      ∀ q, look (benchLoop M (k + 1) c1 s1).1.world.disk q = look (c1.build M s1).2.1.world.disk q := by
    intro k
    induction k with
    | zero =>
      intro c1 s1 _ _ _ _ _ _ _ _ _ hb
      rw [benchLoop]
      generalize c1.build M s1 = r at hb
      obtain ⟨c2, s2, x⟩ := r
      simp only at hb
      subst hb
      exact ⟨rfl, fun q => rfl⟩
    | succ k ih =>
      intro c1 s1 hs ha hcalm htemp hd hn hdots hpd hpo hb
      obtain ⟨⟨e1, e2⟩, e3, e4, e5, e6, e7, e8, e9⟩ := build_again c1 hs ha s1 hcalm htemp hd hn hdots hb
      rw [benchLoop]
      generalize c1.build M s1 = r at hb e1 e2 e3 e4 e5 e6 e7 e8 e9
      obtain ⟨c2, s2, x⟩ := r
      simp only at hb e1 e2 e3 e4 e5 e6 e7 e8 e9
      subst hb
      simp only
      have hop : c2.outPath = c1.outPath := by
        show joinPath c2.dir c2.output = joinPath c1.dir c1.output
        rw [e3.dir, e3.output]
      have hmp : c2.metaPath = c1.metaPath := by
        show c2.dir ++ _ = c1.dir ++ _
        rw [e3.dir]
      obtain ⟨f1, f2⟩ := ih c2 s2 ⟨e4.trans hs.1, e5.trans hs.2⟩
        ⟨by rw [hop]; exact ha.nonroot, by rw [← e3.content, ← e3.dir]; exact ha.layout,
          by rw [hop, ← e3.dir]; exact ha.content, by rw [hop, ← e3.dir]; exact ha.static,
          by rw [hop, ← e3.dir]; exact ha.temp, by rw [hop, hmp]; exact ha.metadata⟩
        e7 (by rw [← e3.dir]; exact e8) (e9 hpd hpo)
        (fun name cs src hr => by
          rw [← e3.config]
          refine hn name cs src ?_
          rw [← e6.readBuild (M := M) (c := c2) (c' := c1) ⟨e3.content.symm, e3.config.symm, e3.plugins.symm, e3.mode.symm,
            e3.dir.symm, e3.output.symm⟩]
          exact hr)
        (fun hst n hn ds => by
          have := hdots (by rw [e3.config]; exact hst) n hn ds
          rw [← e3.dir]
          rw [List.append_assoc (c1.dir ++ [n]), look, at_append] at this ⊢
          have hat : s2.world.disk.at (c1.dir ++ [n]) = s1.world.disk.at (c1.dir ++ [n]) := by
            rw [e3.dir]
            rcases List.mem_cons.1 hn with k | k
            · rw [k]; exact e6.2.1
            · rw [List.mem_singleton.1 k]; exact e6.2.2
          rw [hat]; exact this)
        (by rw [← e3.dir]; exact hpd) (by rw [hop]; exact hpo) e1
      exact ⟨f1, fun q => (f2 q).trans (e2 q)⟩
  obtain ⟨k, rfl⟩ : ∃ k, n = k + 1 := ⟨n - 1, by omega⟩
  unfold cmdBench
  rw [hi]
  simp only [parseUsize_iff.2 ht]
  exact hloop k c s0 hs ha hcalm (by rw [k1]; exact htemp) hd hn (by rw [k1]; exact hdots) hcwd hout h

/-! ### Cases -/

/-- A project with a page, a static file and an older site. -/
def benchDisk : Entry := .dir [(str!"p", .dir [(str!"stuart.toml", .file []), (str!"content", .dir [(str!"a.txt", .file [1])]),
  (str!"static", .dir [(str!"b.css", .file [2])]), (str!"dist", .dir [(str!"old", .file [3])])])]

/-- Its context. -/
def benchContext : Context := { demoContext with
  stuart := { dir := [str!"p", str!"content"], config := (RawConfig.mk [] none none none).toConfig }
  mode := str!"benchmark"
  env := [(str!"STUART_MANIFEST_PATH", str!"/p/stuart.toml"), (str!"STUART_MANIFEST_DIR", str!"/p"),
    (str!"STUART_TEMP_DIR", str!"/p/temp"), (str!"STUART_OUT_DIR", str!"/p/dist"), (str!"STUART_ENV", str!"benchmark")] }

theorem count_ten : Count str!"+10" 10 := ⟨.plus str!"10" (by decide) (by unfold IsDigit; decide), by decide, by decide⟩

theorem bench_init : Context.init emptyLoader [str!"p"] str!"stuart.toml" str!"dist" str!"benchmark" ⟨⟨benchDisk, []⟩, []⟩ =
    (⟨⟨benchDisk, []⟩, []⟩, .ok benchContext) := rfl

/-- `C77_once_partial` for ten iterations. -/
example :
    (cmdBench idleMachine emptyLoader [str!"p"] str!"+10" ⟨⟨benchDisk, []⟩, []⟩).2 = .ok () ∧
    ∀ q, look (cmdBench idleMachine emptyLoader [str!"p"] str!"+10" ⟨⟨benchDisk, []⟩, []⟩).1.world.disk q =
      look (benchContext.build idleMachine ⟨⟨benchDisk, []⟩, []⟩).2.1.world.disk q := by
  refine C77_once_partial idleMachine emptyLoader [str!"p"] _ 10 _ _ _ bench_init count_ten (by decide) ⟨rfl, rfl⟩ (by nofun) rfl
    (by unfold benchDisk; proper_disk) ?_ ?_ rfl
  · intro name cs src h
    cases h
    plain_names
  · refine noDots_of_lacks ?_
    simp only [List.mem_cons, List.not_mem_nil, or_false, forall_eq_or_imp, forall_eq]
    exact ⟨fun e h => by cases h; lacks_name, fun e h => by cases h⟩

/-- So the new file is there and the old one is gone. -/
example :
    let r := benchContext.build idleMachine ⟨⟨benchDisk, []⟩, []⟩
    r.2.2 = .ok () ∧ look r.2.1.world.disk [str!"p", str!"dist", str!"a.txt"] = some (.file [1]) ∧
    look r.2.1.world.disk [str!"p", str!"dist", str!"old"] = none := ⟨rfl, rfl, rfl⟩

/-- Two successful builds in a row. -/
example : ∃ c' s', BuildsRun idleMachine 2 benchContext ⟨⟨benchDisk, []⟩, []⟩ c' s' := ⟨_, _, .more rfl (.more rfl .none)⟩

/-- No iterations: the old site stays. -/
example : cmdBench idleMachine emptyLoader [str!"p"] str!"0" ⟨⟨benchDisk, []⟩, []⟩ = (⟨⟨benchDisk, []⟩, []⟩, .ok ()) :=
  (C77_bench _ _ _ _ _ _ _).2 (.inr (.inr (.inr ⟨_, _, 0, bench_init,
    ⟨.plain str!"0" (by decide) (by unfold IsDigit; decide), by decide, by decide⟩, .inl ⟨rfl, _, .none⟩⟩)))

/-- Not a number. -/
example : cmdBench idleMachine emptyLoader [str!"p"] str!"-1" ⟨⟨benchDisk, []⟩, []⟩ =
    (⟨⟨benchDisk, []⟩, []⟩, .err .invalidIterations) :=
  (C77_bench _ _ _ _ _ _ _).2 (.inr (.inr (.inl ⟨_, bench_init, fun _ h => h.2.2 rfl, rfl⟩)))

/-- A machine whose second script fails. -/
def tiredMachine : Machine := { idleMachine with
  shell := fun n _ _ d => (d, some ⟨some (if n = 1 then 1 else 0), [], []⟩) }

/-- The same project with a script before each build. -/
def tiredDisk : Entry := .dir [(str!"p", .dir [(str!"stuart.toml", .file []), (str!"content", .dir [(str!"a.txt", .file [1])]),
  (str!"scripts", .dir [(str!"onPreBuild", .file [])])])]

/-- A benchmark stops at the first build that fails, here the second, and keeps what the first has published. -/
example :
    let r := cmdBench tiredMachine emptyLoader [str!"p"] str!"3" ⟨⟨tiredDisk, []⟩, []⟩
    r.2 ≠ .ok () ∧ r.1.runs.length = 2 ∧ look r.1.world.disk [str!"p", str!"dist", str!"a.txt"] = some (.file [1]) :=
  ⟨nofun, rfl, rfl⟩

/-- The same project with a temporary file. -/
def leftoverDisk : Entry := .dir [(str!"p", .dir [(str!"stuart.toml", .file []), (str!"content", .dir [(str!"a.txt", .file [1])]),
  (str!"temp", .dir [(str!"t.txt", .file [2])])])]

/-- C77. With temporary files it is not as after a single build: the first build publishes and removes them, so that the
second build publishes the site without them. -/
theorem C77_counterexample_temp :
    (cmdBench idleMachine emptyLoader [str!"p"] str!"1" ⟨⟨leftoverDisk, []⟩, []⟩).2 = .ok () ∧
    look (cmdBench idleMachine emptyLoader [str!"p"] str!"1" ⟨⟨leftoverDisk, []⟩, []⟩).1.world.disk [str!"p", str!"dist", str!"t.txt"] = some (.file [2]) ∧
    (cmdBench idleMachine emptyLoader [str!"p"] str!"2" ⟨⟨leftoverDisk, []⟩, []⟩).2 = .ok () ∧
    look (cmdBench idleMachine emptyLoader [str!"p"] str!"2" ⟨⟨leftoverDisk, []⟩, []⟩).1.world.disk [str!"p", str!"dist", str!"t.txt"] = none := by
  decide +kernel

end Stuart
