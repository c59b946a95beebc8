import Verif.Props.Cli
import Verif.Model.Cli
import Verif.Proof.Disk
import Verif.Proof.Saved
import Verif.Props.Run
/-
Properties C50, C52 and C60: configuration, the environment seen by templates, and `clean`.
-/
namespace Stuart
open Spec

/-! ### C50 -/

/-- C50. The name and the author are those given. Each setting is as given, if it is; otherwise extensions are stripped,
and neither data files nor metadata are saved. -/
theorem C50_config (raw : RawConfig) :
    raw.toConfig.name = raw.name ∧ raw.toConfig.author = raw.author ∧
    (∀ set b, raw.settings = some set → set.stripExtensions = some b → raw.toConfig.stripExtensions = b) ∧
    (∀ set b, raw.settings = some set → set.saveDataFiles = some b → raw.toConfig.saveDataFiles = b) ∧
    (∀ set b, raw.settings = some set → set.saveMetadata = some b → raw.toConfig.saveMetadata = b) ∧
    ((∀ set, raw.settings = some set → set.stripExtensions = none) → raw.toConfig.stripExtensions = true) ∧
    ((∀ set, raw.settings = some set → set.saveDataFiles = none) → raw.toConfig.saveDataFiles = false) ∧
    ((∀ set, raw.settings = some set → set.saveMetadata = none) → raw.toConfig.saveMetadata = false) := by
  obtain ⟨n, a, st, d⟩ := raw
  refine ⟨rfl, rfl, ?_, ?_, ?_, ?_, ?_, ?_⟩
  · rintro set b rfl hb; simp [RawConfig.toConfig, hb]
  · rintro set b rfl hb; simp [RawConfig.toConfig, hb]
  · rintro set b rfl hb; simp [RawConfig.toConfig, hb]
  · intro h
    cases st with
    | none => rfl
    | some set => have := h set rfl; simp [RawConfig.toConfig, this, Config.default]
  · intro h
    cases st with
    | none => rfl
    | some set => have := h set rfl; simp [RawConfig.toConfig, this, Config.default]
  · intro h
    cases st with
    | none => rfl
    | some set => have := h set rfl; simp [RawConfig.toConfig, this, Config.default]

/-- C50. The program runs with the configuration of the manifest it was given, and with the plugins loaded. -/
theorem C50_used (L : Loader) (cwd : Path) (manifest output mode : Str) (s s' : Host) (c : Context)
    (h : Context.init L cwd manifest output mode s = (s', .ok c)) :
    ∃ p text raw plugins, Names s.world.disk cwd manifest p ∧ look s.world.disk p = some (.file (bytesOf text)) ∧
      L.parseToml text = .ok raw ∧ c.stuart.config = raw.toConfig ∧
      L.loadPlugins raw.dependencies p.dropLast s = (s', .ok plugins) ∧ c.stuart.plugins = plugins ∧
      c.dir = p.dropLast ∧ c.stuart.dir = c.dir ++ [str!"content"] ∧ c.mode = mode ∧ c.output = output := by
  obtain ⟨path, b, text, raw, plugins, h1, h2, h3, h4, h5, rfl⟩ := Context.init_ok h
  refine ⟨path, text, raw, plugins, canonicalize_names.1 h1, ?_, h4, rfl, h5, rfl, rfl, rfl, rfl, rfl⟩
  rw [look_of_at h2, ← fromUtf8_sound h3]; rfl

/-- One setting given, two not. -/
example : (RawConfig.mk str!"site" none (some ⟨none, some true, none⟩) none).toConfig =
    ⟨str!"site", none, true, true, false⟩ := rfl

/-! ### C52 -/

/-- The value of an environment variable that Stuart intends templates to see. -/
def envVar (vars : List (Str × Str)) (mode x : Str) : Option Str :=
  if x = str!"STUART_ENV" then some mode else vars.lookup x

theorem lookup_strs (l : List (Str × Str)) (x : Str) :
    List.lookup x (l.map fun e => (e.1, Value.str e.2)) = (l.lookup x).map Value.str := by
  induction l with
  | nil => rfl
  | cons e l ih =>
    rw [List.map_cons, List.lookup_cons, List.lookup_cons, ih]
    cases x == e.1 <;> rfl

/-- C52. `$env.X`, where no scope but the base defines `env`, is the intended value, if `X` is another variable, or the
process's environment does not have `STUART_ENV`. Not so when it does (`C52_counterexample`). -/
theorem C52_env_partial (cx : Ctx) (t : LTok) (rest : List LTok) (f : Frame) (fs : List Frame) (secs : Sections)
    (vars : List (Str × Str)) (mode x : Str) (inner : Scopes) (hx : '.' ∉ x) (ht : t.inner = .var (str!"env." ++ x))
    (hst : f.vars :: fs.map (·.vars) = inner ++ [(baseFrame vars mode).vars])
    (hin : ∀ sc ∈ inner, List.lookup str!"env" sc = none)
    (hvar : x = str!"STUART_ENV" → vars.lookup str!"STUART_ENV" = none) :
    (∀ s, envVar vars mode x = some s →
      runToks cx (t :: rest) ⟨f :: fs, secs⟩ = runToks cx rest ⟨{ f with out := f.out ++ bytesOf s } :: fs, secs⟩) ∧
    (envVar vars mode x = none →
      runToks cx (t :: rest) ⟨f :: fs, secs⟩ = .err (t.tb (.nullError (str!"env." ++ x)))) := by
  have hdl : Dotless str!"env" [x] := ⟨by decide, by simpa using hx⟩
  have hdot : str!"env." ++ x = dotted str!"env" [x] := by simp [dotted]
  rw [hdot] at ht ⊢
  obtain ⟨h1, h2, _, _⟩ := C20_variable cx t rest f fs secs str!"env" [x] hdl ht
  have hden : denoted str!"env" [x] (f.vars :: fs.map (·.vars)) = some (((envVar vars mode x).map Value.str).getD .null) := by
    rw [hst]
    clear hst h1 h2
    induction inner with
    | nil =>
      have hlk : List.lookup x (vars ++ [(str!"STUART_ENV", mode)]) = envVar vars mode x := by
        unfold envVar
        split
        · rename_i hq
          subst hq
          have := hvar rfl
          rw [List.lookup_append, this]
          rfl
        · rename_i hq
          rw [List.lookup_append]
          cases vars.lookup x with
          | some s => rfl
          | none =>
            have : (x == str!"STUART_ENV") = false := by simpa using hq
            simp only [List.lookup_cons, this, Option.none_or]; rfl
      have hb : (baseFrame vars mode).vars =
          [(str!"env", .obj ((vars ++ [(str!"STUART_ENV", mode)]).map fun e => (e.1, Value.str e.2)))] := rfl
      rw [List.nil_append, hb]
      simp only [denoted, bound, List.findSome?_cons, List.lookup_cons, beq_self_eq_true, Option.map_some, follow, child]
      rw [lookup_strs, hlk]
      cases envVar vars mode x <;> rfl
    | cons sc scs ih =>
      rw [List.cons_append, C20_coverage.2.2.2 _ _ _ _ (hin sc (.head _))]
      exact ih (fun sc hsc => hin sc (.tail _ hsc))
  constructor
  · intro s hs
    rw [hs] at hden
    exact h1 s hden
  · intro hs
    rw [hs] at hden
    exact h2 hden

/-- The base scope itself, in a process with one environment variable. -/
example : runToks demoCx [here.tok (.var str!"env.STUART_ENV"), here.tok (.var str!"env.HOME")]
      ⟨[baseFrame [(str!"HOME", str!"/root")] str!"production"], []⟩ =
    .ok ⟨[{ baseFrame [(str!"HOME", str!"/root")] str!"production" with out := bytesOf str!"production/root" }], []⟩ := rfl

/-- C52, whatever the environment: an inherited `STUART_ENV` hides the mode, which is seen only if there is none. -/
theorem C52_exact (cx : Ctx) (t : LTok) (rest : List LTok) (f : Frame) (fs : List Frame) (secs : Sections)
    (vars : List (Str × Str)) (mode x : Str) (inner : Scopes) (hx : '.' ∉ x) (ht : t.inner = .var (str!"env." ++ x))
    (hst : f.vars :: fs.map (·.vars) = inner ++ [(baseFrame vars mode).vars])
    (hin : ∀ sc ∈ inner, List.lookup str!"env" sc = none) :
    (∀ s, vars.lookup x = some s ∨ (vars.lookup x = none ∧ x = str!"STUART_ENV" ∧ s = mode) →
      runToks cx (t :: rest) ⟨f :: fs, secs⟩ = runToks cx rest ⟨{ f with out := f.out ++ bytesOf s } :: fs, secs⟩) ∧
    (vars.lookup x = none → x ≠ str!"STUART_ENV" →
      runToks cx (t :: rest) ⟨f :: fs, secs⟩ = .err (t.tb (.nullError (str!"env." ++ x)))) := by
  have hdl : Dotless str!"env" [x] := ⟨by decide, by simpa using hx⟩
  have hdot : str!"env." ++ x = dotted str!"env" [x] := by simp [dotted]
  rw [hdot] at ht ⊢
  obtain ⟨h1, h2, _, _⟩ := C20_variable cx t rest f fs secs str!"env" [x] hdl ht
  have hden : denoted str!"env" [x] (f.vars :: fs.map (·.vars)) =
      some (((List.lookup x (vars ++ [(str!"STUART_ENV", mode)])).map Value.str).getD .null) := by
    rw [hst]
    clear hst h1 h2
    induction inner with
    | nil =>
      have hb : (baseFrame vars mode).vars =
          [(str!"env", .obj ((vars ++ [(str!"STUART_ENV", mode)]).map fun e => (e.1, Value.str e.2)))] := rfl
      rw [List.nil_append, hb]
      simp only [denoted, bound, List.findSome?_cons, List.lookup_cons, beq_self_eq_true, Option.map_some, follow, child]
      rw [lookup_strs]
      cases List.lookup x (vars ++ [(str!"STUART_ENV", mode)]) <;> rfl
    | cons sc scs ih =>
      rw [List.cons_append, C20_coverage.2.2.2 _ _ _ _ (hin sc (.head _))]
      exact ih (fun sc hsc => hin sc (.tail _ hsc))
  rw [List.lookup_append] at hden
  constructor
  · rintro s (hs | ⟨hs, rfl, rfl⟩)
    · rw [hs] at hden
      exact h1 s hden
    · rw [hs] at hden
      exact h1 _ hden
  · intro hs hx'
    have : (x == str!"STUART_ENV") = false := by simpa using hx'
    rw [hs] at hden
    simp only [List.lookup_cons, this] at hden
    exact h2 hden

/-- C52. When the process's environment already has `STUART_ENV` the templates see that, not the mode. -/
theorem C52_counterexample :
    runToks demoCx [here.tok (.var str!"env.STUART_ENV")]
      ⟨[baseFrame [(str!"STUART_ENV", str!"staging")] str!"production"], []⟩ =
    .ok ⟨[{ baseFrame [(str!"STUART_ENV", str!"staging")] str!"production" with out := bytesOf str!"staging" }], []⟩ := rfl

/-! ### C60 -/

variable (cwd : Path) (w : World)

theorem look_below_none {d : Entry} {p q : Path} (h : look d p = none) (hq : p <+: q) : look d q = none := by
  obtain ⟨r, rfl⟩ := hq
  rw [look, at_append, at_none_iff.2 h]; rfl

theorem removed_look {d : Entry} {p : Path} (hp : p ≠ []) (h : look d p ≠ none) (q : Path) :
    look (d.put p none) q = if p <+: q then none else look d q := by
  split
  · rename_i hq
    obtain ⟨r, rfl⟩ := hq
    have := look_above (r := [p.getLast hp]) (d := d) (p := p.dropLast) (by simp) (by rwa [List.dropLast_concat_getLast])
    rw [look_put_inside hp r this]; rfl
  · rename_i hq; exact look_put_outside hq

theorem removeDir_ok {p : Path} (hp : p ≠ []) {w w' : World} (h : removeDir p w = (w', .ok ())) (q : Path) :
    look w'.disk q = if p <+: q then none else look w.disk q := by
  unfold removeDir at h
  split at h
  · rename_i he
    split at h
    · rename_i hd
      simp only [Prod.mk.injEq] at h
      obtain ⟨h1, h2⟩ := h
      have hs : (w.step (.clear p)).2 = true := by
        cases hk : (w.step (.clear p)).2 with
        | true => rfl
        | false => rw [hk] at h2; cases h2
      have ha := World.step_ok hs
      rw [h1] at ha
      unfold Entry.isDirAt at hd
      simp only [Op.apply] at ha
      split at ha
      · rw [if_neg hp] at ha
        injection ha with ha
        rw [← ha]
        exact removed_look hp (exists_iff.1 he) q
      · rename_i hno
        split at hd
        · rename_i l hl; exact absurd hl (hno l)
        · cases hd
    · cases h
  · rename_i he
    cases h
    split
    · rename_i hq
      refine look_below_none ?_ hq
      have : ¬ look w.disk p ≠ none := fun k => he (exists_iff.2 k)
      exact Classical.not_not.1 this
    · rfl

theorem removeFile_ok {p : Path} (hp : p ≠ []) {w w' : World} (h : removeFile p w = (w', .ok ())) (q : Path) :
    look w'.disk q = if p <+: q then none else look w.disk q := by
  unfold removeFile at h
  split at h
  · rename_i he
    simp only [Prod.mk.injEq] at h
    obtain ⟨h1, h2⟩ := h
    have hs : (w.step (.removeFile p)).2 = true := by
      cases hk : (w.step (.removeFile p)).2 with
      | true => rfl
      | false => rw [hk] at h2; cases h2
    have ha := World.step_ok hs
    rw [h1] at ha
    simp only [Op.apply] at ha
    split at ha
    · cases ha
    · injection ha with ha
      rw [← ha]
      exact removed_look hp (exists_iff.1 he) q
    · cases ha
  · rename_i he
    cases h
    split
    · rename_i hq
      refine look_below_none ?_ hq
      have : ¬ look w.disk p ≠ none := fun k => he (exists_iff.2 k)
      exact Classical.not_not.1 this
    · rfl

theorem removeDir_outside {p : Path} {w : World} {q : Path} (hq : ¬ p <+: q) :
    look (removeDir p w).1.disk q = look w.disk q := by
  unfold removeDir
  split
  · split
    · exact w.step_outside _ hq
    · rfl
  · rfl

theorem removeFile_outside {p : Path} {w : World} {q : Path} (hq : ¬ p <+: q) :
    look (removeFile p w).1.disk q = look w.disk q := by
  unfold removeFile
  split
  · exact w.step_outside _ hq
  · rfl

/-- C60. Where there is no manifest `clean` does nothing and says so. -/
theorem C60_not_a_project (h : look w.disk (cwd ++ [str!"stuart.toml"]) = none) :
    cmdClean cwd w = (w, .err .notAProject) := by
  unfold cmdClean
  have : w.disk.existsAt (cwd ++ [str!"stuart.toml"]) = false := by
    cases hk : w.disk.existsAt (cwd ++ [str!"stuart.toml"]) with
    | false => rfl
    | true => exact absurd h (exists_iff.1 hk)
  rw [this]; rfl

/-- What `clean` is for. -/
def Cleaned (cwd q : Path) : Prop :=
  cwd ++ [str!"dist"] <+: q ∨ cwd ++ [str!"_build"] <+: q ∨ cwd ++ [str!"metadata.json"] <+: q

/-- C60. After a successful `clean` there is nothing at `dist`, `_build` and `metadata.json`, and everything else is as it
was. -/
theorem C60_exact (w' : World) (h : cmdClean cwd w = (w', .ok ())) (q : Path) :
    (Cleaned cwd q → look w'.disk q = none) ∧ (¬ Cleaned cwd q → look w'.disk q = look w.disk q) := by
  unfold cmdClean at h
  split at h
  · cases h
  · split at h
    · rename_i w1 h1
      split at h
      · rename_i w2 h2
        have k1 := removeDir_ok (by simp) h1 q
        have k2 := removeDir_ok (by simp) h2 q
        have k3 := removeFile_ok (by simp) h q
        rw [k3, k2, k1]
        unfold Cleaned
        constructor
        · rintro (k | k | k) <;> simp only [k, if_true] <;> split <;> (try rfl) <;> split <;> rfl
        · intro k
          rw [if_neg (fun x => k (.inr (.inr x))), if_neg (fun x => k (.inr (.inl x))), if_neg (fun x => k (.inl x))]
      · rename_i hr
        exact absurd h (hr w')
    · rename_i hr
      exact absurd h (hr w')

/-- C60. However `clean` ends, whatever mishaps, nothing else changes. -/
theorem C60_nothing_else (q : Path) (hq : ¬ Cleaned cwd q) : look (cmdClean cwd w).1.disk q = look w.disk q := by
  unfold Cleaned at hq
  have q1 : ¬ cwd ++ [str!"dist"] <+: q := fun k => hq (.inl k)
  have q2 : ¬ cwd ++ [str!"_build"] <+: q := fun k => hq (.inr (.inl k))
  have q3 : ¬ cwd ++ [str!"metadata.json"] <+: q := fun k => hq (.inr (.inr k))
  have k1 := removeDir_outside (w := w) q1
  unfold cmdClean
  split
  · rfl
  · split
    · rename_i w1 h1
      rw [h1] at k1
      have k2 := removeDir_outside (w := w1) q2
      split
      · rename_i w2 h2
        rw [h2] at k2
        rw [removeFile_outside q3, k2, k1]
      · rw [k2, k1]
    · exact k1

theorem removeDir_succeeds {p : Path} (hp : p ≠ []) {w : World} (hc : w.Calm)
    (h : look w.disk p = none ∨ look w.disk p = some .dir) : ∃ w', removeDir p w = (w', .ok ()) ∧ w'.Calm := by
  unfold removeDir
  split
  · rename_i he
    have hd : look w.disk p = some .dir := by
      rcases h with h | h
      · exact absurd h (exists_iff.1 he)
      · exact h
    rw [if_pos (isDirAt_iff.2 hd)]
    have ha : ∃ d, (Op.clear p).apply w.disk = some d := by
      simp only [Op.apply]
      split
      · rw [if_neg hp]; exact ⟨_, rfl⟩
      · exact ⟨_, rfl⟩
    obtain ⟨d, ha⟩ := ha
    obtain ⟨x1, _, x3⟩ := World.calm_step hc ha
    exact ⟨_, by simp only [x1, if_true], x3⟩
  · exact ⟨w, rfl, hc⟩

/-- C60. In a project directory without mishaps `clean` succeeds, unless `dist` or `_build` is something other than a
directory or `metadata.json` is one. -/
theorem C60_succeeds (hc : w.Calm) (hm : look w.disk (cwd ++ [str!"stuart.toml"]) ≠ none)
    (h1 : look w.disk (cwd ++ [str!"dist"]) = none ∨ look w.disk (cwd ++ [str!"dist"]) = some .dir)
    (h2 : look w.disk (cwd ++ [str!"_build"]) = none ∨ look w.disk (cwd ++ [str!"_build"]) = some .dir)
    (h3 : look w.disk (cwd ++ [str!"metadata.json"]) ≠ some .dir) :
    ∃ w', cmdClean cwd w = (w', .ok ()) := by
  have hne : ∀ {a b : Str}, a ≠ b → ¬ cwd ++ [a] <+: cwd ++ [b] := by
    intro a b hab k
    have := k.eq_of_length (by simp)
    simp at this
    exact hab this
  obtain ⟨w1, e1, c1⟩ := removeDir_succeeds (by simp) hc h1
  have o1 : ∀ {q : Path}, ¬ cwd ++ [str!"dist"] <+: q → look w1.disk q = look w.disk q := by
    intro q hq
    have := removeDir_outside (w := w) hq
    rwa [e1] at this
  obtain ⟨w2, e2, c2⟩ := removeDir_succeeds (p := cwd ++ [str!"_build"]) (by simp) c1 (by rwa [o1 (hne (by decide))])
  have o2 : ∀ {q : Path}, ¬ cwd ++ [str!"_build"] <+: q → look w2.disk q = look w1.disk q := by
    intro q hq
    have := removeDir_outside (w := w1) hq
    rwa [e2] at this
  have l3 : look w2.disk (cwd ++ [str!"metadata.json"]) ≠ some .dir := by
    rwa [o2 (hne (by decide)), o1 (hne (by decide))]
  have e3 : ∃ w3, removeFile (cwd ++ [str!"metadata.json"]) w2 = (w3, .ok ()) := by
    unfold removeFile
    split
    · rename_i he
      have ha : ∃ d, (Op.removeFile (cwd ++ [str!"metadata.json"])).apply w2.disk = some d := by
        simp only [Op.apply]
        have hx := exists_iff.1 he
        cases hat : w2.disk.at (cwd ++ [str!"metadata.json"]) with
        | none => exact absurd (at_none_iff.1 hat) hx
        | some e =>
          rw [look_of_at hat] at l3
          cases e with
          | dir l => exact absurd rfl l3
          | file b => exact ⟨_, rfl⟩
          | special => exact ⟨_, rfl⟩
      obtain ⟨d, ha⟩ := ha
      obtain ⟨x1, _, _⟩ := World.calm_step c2 ha
      exact ⟨(w2.step (.removeFile (cwd ++ [str!"metadata.json"]))).1, by simp only [x1, if_true]⟩
    · exact ⟨w2, rfl⟩
  obtain ⟨w3, e3⟩ := e3
  refine ⟨w3, ?_⟩
  unfold cmdClean
  rw [exists_iff.2 hm, e1]
  simp only [e2, e3]
  rfl

/-- A project with output, build directory and metadata. -/
example :
    let disk := Entry.dir [(str!"p", .dir [(str!"stuart.toml", .file []), (str!"dist", .dir [(str!"a", .file [1])]),
      (str!"_build", .dir []), (str!"metadata.json", .file []), (str!"content", .dir [])])]
    let r := cmdClean [str!"p"] ⟨disk, []⟩
    r.2 = .ok () ∧ r.1.disk.at [str!"p"] = some (.dir [(str!"stuart.toml", .file []), (str!"content", .dir [])]) := ⟨rfl, rfl⟩

/-- A file named `dist` is not removed, and nothing else is. -/
example :
    let disk := Entry.dir [(str!"p", .dir [(str!"stuart.toml", .file []), (str!"dist", .file [1]), (str!"_build", .dir [])])]
    cmdClean [str!"p"] ⟨disk, []⟩ = (⟨disk, []⟩, .err (.cleanFailed [str!"p", str!"dist"])) := rfl

/-! ### Cases: each theorem applied to something that meets its hypotheses -/

example := C50_used emptyLoader [] str!"stuart.toml" str!"dist" str!"production" ⟨⟨manifestDisk, []⟩, []⟩ _ _ rfl

/-- The inherited value is shown, not the mode. -/
example := (C52_exact demoCx (here.tok (.var str!"env.STUART_ENV")) [] (baseFrame [(str!"STUART_ENV", str!"staging")] str!"production")
  [] [] [(str!"STUART_ENV", str!"staging")] str!"production" str!"STUART_ENV" [] (by decide) rfl rfl (by simp)).1 str!"staging" (.inl rfl)

example := C52_env_partial demoCx (here.tok (.var str!"env.STUART_ENV")) [] (baseFrame [(str!"HOME", str!"/h")] str!"production") [] []
  [(str!"HOME", str!"/h")] str!"production" str!"STUART_ENV" [] (by decide) rfl rfl (by simp) (fun _ => rfl)

/-- A project that has been built. -/
def builtDisk : Entry := .dir [(str!"stuart.toml", .file []), (str!"dist", .dir [(str!"a", .file [1])]),
  (str!"metadata.json", .file [2]), (str!"content", .dir [])]

example := C60_not_a_project [] ⟨.dir [(str!"dist", .dir [])], []⟩ rfl

example := C60_exact [] ⟨builtDisk, []⟩ _ rfl

example := C60_nothing_else [] ⟨builtDisk, []⟩ [str!"content"] (by unfold Cleaned; decide)

example := C60_succeeds [] ⟨builtDisk, []⟩ (by nofun) (by nofun) (.inr rfl) (.inl rfl) (by nofun)

end Stuart
