import Verif.Props.Startup
/-
Property C82: how a start of the program ends.
-/
namespace Stuart
open Spec

/-! ### C82 -/

/-- C82. However the program is started, the start ends in the way that the place the manifest path names, the text there
and the plugins determine; nothing is changed before the plugins are loaded. -/
theorem C82_start (L : Loader) (cwd : Path) (manifest output mode : Str) (s : Host) :
    Start L cwd manifest output mode s (Context.init L cwd manifest output mode s) := by
  generalize hr : Context.init L cwd manifest output mode s = r
  obtain ⟨s', r⟩ := r
  cases hc : canonicalize s.world.disk cwd manifest with
  | none =>
    simp only [Context.init, hc] at hr
    cases hr
    exact .nowhere (canonicalize_none.1 hc)
  | some p =>
    have hn := canonicalize_names.1 hc
    have notFile : (∀ t, look s.world.disk p ≠ some (.file (bytesOf t))) → (s', r) = (s, .err .manifestUnreadable) →
        Start L cwd manifest output mode s (s', r) := fun h1 h2 => h2 ▸ .notText hn h1
    cases ha : s.world.disk.at p with
    | none =>
      simp only [Context.init, hc, ha] at hr
      exact notFile (fun t => by rw [look, ha]; nofun) hr.symm
    | some e =>
      cases e with
      | dir l =>
        simp only [Context.init, hc, ha] at hr
        exact notFile (fun t => by rw [look, ha]; nofun) hr.symm
      | special =>
        simp only [Context.init, hc, ha] at hr
        exact notFile (fun t => by rw [look, ha]; nofun) hr.symm
      | file b =>
        cases hu : fromUtf8 b with
        | none =>
          simp only [Context.init, hc, ha, hu] at hr
          refine notFile (fun t h => ?_) hr.symm
          rw [look, ha] at h
          cases h
          rw [fromUtf8_bytesOf] at hu
          cases hu
        | some t =>
          have hb := fromUtf8_sound hu
          subst hb
          have hl : look s.world.disk p = some (.file (bytesOf t)) := by rw [look, ha]; rfl
          cases hp : L.parseToml t with
          | error e =>
            obtain ⟨pos, msg⟩ := e
            cases pos with
            | none =>
              simp only [Context.init, hc, ha, hu, hp] at hr
              cases hr
              exact .wrong hn hl hp
            | some lc =>
              obtain ⟨line, col⟩ := lc
              simp only [Context.init, hc, ha, hu, hp] at hr
              cases hr
              exact .wrongAt hn hl hp
          | ok raw =>
            cases hq : L.loadPlugins raw.dependencies p.dropLast s with
            | mk s1 q =>
              cases q with
              | err e =>
                simp only [Context.init, hc, ha, hu, hp, hq] at hr
                cases hr
                exact .noPlugins hn hl hp hq
              | panic e =>
                simp only [Context.init, hc, ha, hu, hp, hq] at hr
                cases hr
                exact .crash hn hl hp hq
              | ok plugins =>
                simp only [Context.init, hc, ha, hu, hp, hq] at hr
                cases hr
                exact .well hn hl hp hq ⟨rfl, rfl, rfl, rfl, ⟨rfl, rfl⟩, rfl, rfl, scriptsAre_found, scriptsAre_found⟩

/-- A text names at most one place. -/
theorem names_one {d : Entry} {cwd p q : Path} {t : Str} (h1 : Names d cwd t p) (h2 : Names d cwd t q) : p = q :=
  Option.some.inj ((canonicalize_names.2 h1).symm.trans (canonicalize_names.2 h2))

theorem at_file {d : Entry} {p : Path} {b : Bytes} (h : look d p = some (.file b)) : d.at p = some (.file b) := by
  rw [look] at h
  cases ha : d.at p with
  | none => rw [ha] at h; cases h
  | some e => rw [ha] at h; cases e <;> cases h; rfl

/-- A way in which a start can end is the way it ends. -/
theorem start_ends {L : Loader} {cwd : Path} {manifest output mode : Str} {s s' : Host} {r : Res CliErr Context}
    (h : Start L cwd manifest output mode s (s', r)) :
    ∃ r', Context.init L cwd manifest output mode s = (s', r') ∧
      ((∃ c c', r = .ok c ∧ r' = .ok c') ∨ (∃ e, r = .err e ∧ r' = .err e) ∨ ∃ p, r = .panic p ∧ r' = .panic p) := by
  cases h with
  | nowhere h => exact ⟨_, by simp only [Context.init, canonicalize_none.2 h], .inr (.inl ⟨_, rfl, rfl⟩)⟩
  | @notText p hn ht =>
    refine ⟨.err .manifestUnreadable, ?_, .inr (.inl ⟨_, rfl, rfl⟩)⟩
    simp only [Context.init, canonicalize_names.2 hn]
    cases ha : s.world.disk.at p with
    | none => rfl
    | some e =>
      cases e with
      | dir l => rfl
      | special => rfl
      | file b =>
        cases hu : fromUtf8 b with
        | none => simp only [hu]
        | some t => exact absurd (by rw [look, ha, fromUtf8_sound hu]; rfl) (ht t)
  | wrongAt hn hl hp =>
    exact ⟨_, by simp only [Context.init, canonicalize_names.2 hn, at_file hl, fromUtf8_bytesOf, hp], .inr (.inl ⟨_, rfl, rfl⟩)⟩
  | wrong hn hl hp =>
    exact ⟨_, by simp only [Context.init, canonicalize_names.2 hn, at_file hl, fromUtf8_bytesOf, hp], .inr (.inl ⟨_, rfl, rfl⟩)⟩
  | noPlugins hn hl hp hq =>
    exact ⟨_, by simp only [Context.init, canonicalize_names.2 hn, at_file hl, fromUtf8_bytesOf, hp, hq], .inr (.inl ⟨_, rfl, rfl⟩)⟩
  | crash hn hl hp hq =>
    exact ⟨_, by simp only [Context.init, canonicalize_names.2 hn, at_file hl, fromUtf8_bytesOf, hp, hq], .inr (.inr ⟨_, rfl, rfl⟩)⟩
  | well hn hl hp hq _ =>
    obtain ⟨c, hc⟩ : ∃ c, Context.init L cwd manifest output mode s = (s', .ok c) := by
      simp only [Context.init, canonicalize_names.2 hn, at_file hl, fromUtf8_bytesOf, hp, hq]
      exact ⟨_, rfl⟩
    exact ⟨_, hc, .inl ⟨_, _, rfl, rfl⟩⟩

/-- C82. A start cannot end in two of these ways: an error or panic that `Start` allows is the one there is. -/
theorem C82_one_way (L : Loader) (cwd : Path) (manifest output mode : Str) (s s1 : Host) (r1 : Res CliErr Context)
    (h : Start L cwd manifest output mode s (s1, r1)) :
    (Context.init L cwd manifest output mode s).1 = s1 ∧
    (∀ e, r1 = .err e ↔ (Context.init L cwd manifest output mode s).2 = .err e) ∧
    (∀ p, r1 = .panic p ↔ (Context.init L cwd manifest output mode s).2 = .panic p) := by
  obtain ⟨r', hi, hr⟩ := start_ends h
  rw [hi]
  rcases hr with ⟨c, c', rfl, rfl⟩ | ⟨e, rfl, rfl⟩ | ⟨p, rfl, rfl⟩
  · exact ⟨rfl, fun e => ⟨nofun, nofun⟩, fun e => ⟨nofun, nofun⟩⟩
  · exact ⟨rfl, fun e' => Iff.rfl, fun e => ⟨nofun, nofun⟩⟩
  · exact ⟨rfl, fun e => ⟨nofun, nofun⟩, fun e => Iff.rfl⟩

/-- C82. A start succeeds iff the manifest path names a file whose text is a manifest, and the plugins load. -/
theorem C82_succeeds (L : Loader) (cwd : Path) (manifest output mode : Str) (s s' : Host) :
    (∃ c, Context.init L cwd manifest output mode s = (s', .ok c)) ↔
      ∃ p t raw plugins, Names s.world.disk cwd manifest p ∧ look s.world.disk p = some (.file (bytesOf t)) ∧
        L.parseToml t = .ok raw ∧ L.loadPlugins raw.dependencies p.dropLast s = (s', .ok plugins) := by
  constructor
  · rintro ⟨c, h⟩
    obtain ⟨p, t, raw, plugins, h1, h2, h3, _, h4, _⟩ := C50_used L cwd manifest output mode s s' c h
    exact ⟨p, t, raw, plugins, h1, h2, h3, h4⟩
  · rintro ⟨p, t, raw, plugins, h1, h2, h3, h4⟩
    simp only [Context.init, canonicalize_names.2 h1, at_file h2, fromUtf8_bytesOf, h3, h4]
    exact ⟨_, rfl⟩

/-! ### Cases -/

/-- A disk with a project in `/p`, a file and an empty directory. -/
def startDisk : Entry := .dir [(str!"p", .dir [(str!"stuart.toml", .file (bytesOf str!"name")), (str!"sub", .dir []),
  (str!"odd", .file [255]), (str!"scripts", .dir [(str!"onPreBuild", .file []), (str!"onPostBuild", .dir [])])])]

/-- A reader of manifests that wants a nonempty text without `#`, and no plugins. -/
def shortLoader : Loader where
  parseToml t := if t = [] then .error ⟨none, str!"empty"⟩ else if '#' ∈ t then .error ⟨some (2, 4), str!"bad"⟩ else .ok ⟨t, none, none, none⟩
  loadPlugins _ _ s := (s, .ok [])

/-- The manifest is found by way of a directory that is there. -/
theorem names_there : Names startDisk [str!"p"] str!"sub/.././stuart.toml" [str!"p", str!"stuart.toml"] :=
  canonicalize_names.1 rfl

example := (C82_succeeds shortLoader [str!"p"] str!"sub/.././stuart.toml" str!"dist" str!"production" ⟨⟨startDisk, []⟩, []⟩
  ⟨⟨startDisk, []⟩, []⟩).2 ⟨_, str!"name", _, _, names_there, rfl, rfl, rfl⟩

/-- But not by way of one that is missing, nor as a directory. -/
example : (Context.init shortLoader [str!"p"] str!"gone/../stuart.toml" str!"dist" str!"production" ⟨⟨startDisk, []⟩, []⟩).2 =
      .err .invalidManifestPath ∧
    (Context.init shortLoader [str!"p"] str!"stuart.toml/" str!"dist" str!"production" ⟨⟨startDisk, []⟩, []⟩).2 =
      .err .invalidManifestPath ∧
    (Context.init shortLoader [str!"p"] str!"/p/sub" str!"dist" str!"production" ⟨⟨startDisk, []⟩, []⟩).2 =
      .err .manifestUnreadable ∧
    (Context.init shortLoader [str!"p"] str!"odd" str!"dist" str!"production" ⟨⟨startDisk, []⟩, []⟩).2 =
      .err .manifestUnreadable := ⟨rfl, rfl, rfl, rfl⟩

/-- An error in the manifest is placed counting from one. -/
example :
    let s : Host := ⟨⟨.dir [(str!"stuart.toml", .file (bytesOf str!"a#b"))], []⟩, []⟩
    Start shortLoader [] str!"stuart.toml" str!"dist" str!"production" s (s, .err (.manifestAt [str!"stuart.toml"] 3 5 str!"bad")) :=
  .wrongAt (t := str!"a#b") (canonicalize_names.1 rfl) rfl rfl

example :
    let s : Host := ⟨⟨.dir [(str!"stuart.toml", .file (bytesOf str!"a#b"))], []⟩, []⟩
    (Context.init shortLoader [] str!"stuart.toml" str!"dist" str!"production" s).2 =
      .err (.manifestAt [str!"stuart.toml"] 3 5 str!"bad") :=
  ((C82_one_way shortLoader [] str!"stuart.toml" str!"dist" str!"production" _ _ _
    (.wrongAt (t := str!"a#b") (canonicalize_names.1 rfl) rfl rfl)).2.1 _).1 rfl

end Stuart
