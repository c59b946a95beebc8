import Verif.Props.Terminal
/-
C91: what is written while plugins are loaded.
-/
namespace Stuart
open Spec

instance (O : Outside) (src : Str) : Decidable (Supported O src) := decidable_of_iff _ supported_iff.symm

section
variable (O : Outside) (root : Path) (name : Str) (unkept : LoadErr → Str)

/-- The text of a report. -/
def reportText : Say → Option Str
  | .report t => some t
  | _ => none

/-- The line about a source that is passed over. -/
def skipLine (src : Str) : Say :=
  .log str!"Skipping" (str!"plugin file `" ++ src ++ str!"`" ++
    if str!".dll" <:+ src then str!" (not supported on non-Windows platforms)" else str!" (JavaScript support is not enabled)")

theorem skipLine_eq (src : Str) :
    Say.log str!"Skipping" (str!"plugin file `" ++ src ++ str!"`" ++ skipReason src) = skipLine src := by
  unfold skipLine skipReason
  by_cases h : str!".dll" <:+ src
  · rw [if_pos h, if_pos (by rw [endsWith]; exact List.isSuffixOf_iff_suffix.2 h)]
  · rw [if_neg h, if_neg (by rw [endsWith, List.isSuffixOf_iff_suffix]; exact h)]

/-- Lines of the logger that are not about sources passed over. -/
def NoSkips (l : List Say) : Prop :=
  l.filterMap reportText = [] ∧ l.filter (hasVerb str!"Skipping") = []

theorem sourceSay_kind (src : Str) (s : LoadSt) : NoSkips (sourceSay O root name src s) := by
  unfold sourceSay NoSkips sourceLine
  simp only
  split
  · exact ⟨rfl, rfl⟩
  · split
    · exact ⟨rfl, rfl⟩
    · split
      · unfold gitSay sourceLine
        simp only
        split <;> (split <;> (first | exact ⟨rfl, rfl⟩ | (split <;> exact ⟨rfl, rfl⟩)))
      · split <;> exact ⟨rfl, rfl⟩

theorem sourcesSay_reports_failed (srcs : List Str) (s : LoadSt) :
    (sourcesSay unkept O root name true srcs s).filterMap reportText = [] := by
  induction srcs generalizing s with
  | nil => rfl
  | cons src srcs ih =>
    rw [sourcesSay]
    split
    · rw [List.filterMap_cons]; exact ih s
    · rw [List.filterMap_append, (sourceSay_kind O root name src s).1]
      split
      · simp only [if_true, List.nil_append]; exact ih _
      · rfl

/-- C91. Of the sources of a plugin only the first that is tried is reported, if it fails: not those that are passed over
before, nor those that fail later. -/
theorem C91_reports (before after : List Str) (src : Str) (s : LoadSt) (hb : ∀ x ∈ before, ¬ Supported O x) (hs : Supported O src) :
    (sourcesSay unkept O root name false (before ++ src :: after) s).filterMap reportText =
      match (loadFromSource O root name src s).2 with
      | .err e => [str!"error: " ++ loadMsg unkept name e ++ str!"\n"]
      | _ => [] := by
  induction before with
  | nil =>
    rw [List.nil_append, sourcesSay, if_neg (by rw [supported_iff.1 hs]; simp), List.filterMap_append,
      (sourceSay_kind O root name src s).1, List.nil_append]
    generalize loadFromSource O root name src s = r
    obtain ⟨s1, r⟩ := r
    cases r with
    | ok ps => rfl
    | panic p => rfl
    | err e =>
      simp only [Bool.false_eq_true, if_false, List.singleton_append, List.filterMap_cons, reportText]
      rw [sourcesSay_reports_failed]
  | cons x before ih =>
    have hx := hb x (by simp)
    rw [List.cons_append, sourcesSay, if_pos (by rw [supported_iff] at hx; simpa using hx), List.filterMap_cons]
    exact ih fun y hy => hb y (by simp [hy])

theorem C91_no_reports (srcs : List Str) (s : LoadSt) (hb : ∀ x ∈ srcs, ¬ Supported O x) :
    sourcesSay unkept O root name false srcs s = srcs.map skipLine := by
  induction srcs with
  | nil => rfl
  | cons x srcs ih =>
    have hx := hb x (by simp)
    rw [sourcesSay, if_pos (by rw [supported_iff] at hx; simpa using hx), skipLine_eq, ih fun y hy => hb y (by simp [hy])]
    rfl

theorem skipLine_verb (src : Str) : hasVerb str!"Skipping" (skipLine src) = true := rfl

theorem sourcesSay_fail {srcs : List Str} {s t : LoadSt} (h : AllFail O root name srcs s t) (failed : Bool) (after : List Str) :
    ∃ l f, sourcesSay unkept O root name failed (srcs ++ after) s = l ++ sourcesSay unkept O root name f after t ∧
      l.filter (hasVerb str!"Skipping") = (srcs.filter fun x => ¬ Supported O x).map skipLine := by
  induction h generalizing failed with
  | nil s => exact ⟨[], failed, rfl, rfl⟩
  | @skip src srcs s t hs _ ih =>
    obtain ⟨l, f, h1, h2⟩ := ih failed
    have hk : skipsSource O src = true := by rw [supported_iff] at hs; simpa using hs
    refine ⟨skipLine src :: l, f, ?_, ?_⟩
    · rw [List.cons_append, sourcesSay, if_pos hk, skipLine_eq, h1]; rfl
    · rw [List.filter_cons_of_pos (skipLine_verb src), List.filter_cons_of_pos (by simpa using hs), h2]; rfl
  | @fail src srcs s s1 t e hs hl _ ih =>
    obtain ⟨l, f, h1, h2⟩ := ih true
    have hk := supported_iff.1 hs
    refine ⟨sourceSay O root name src s ++ (if failed then [] else [.report (str!"error: " ++ loadMsg unkept name e ++ str!"\n")]) ++ l,
      f, ?_, ?_⟩
    · rw [List.cons_append, sourcesSay, if_neg (by rw [hk]; simp), hl]
      simp only [h1, List.append_assoc]
    · rw [List.filter_append, List.filter_append, (sourceSay_kind O root name src s).2, h2,
        List.filter_cons_of_neg (by simpa using hs)]
      cases failed <;> rfl

/-- C91. The sources that are passed over are named, in order, up to the one that is loaded. -/
theorem C91_skipped (before after : List Str) (src : Str) (s s1 t : LoadSt) (ps : List Plugin)
    (hb : AllFail O root name before s s1) (hs : Supported O src) (hl : loadFromSource O root name src s1 = (t, .ok ps)) :
    (sourcesSay unkept O root name false (before ++ src :: after) s).filter (hasVerb str!"Skipping") =
      (before.filter fun x => ¬ Supported O x).map skipLine ∧
    sourceSay O root name src s1 <:+ sourcesSay unkept O root name false (before ++ src :: after) s := by
  obtain ⟨l, f, h1, h2⟩ := sourcesSay_fail O root name unkept hb false (src :: after)
  have h3 : sourcesSay unkept O root name f (src :: after) s1 = sourceSay O root name src s1 := by
    rw [sourcesSay, if_neg (by rw [supported_iff.1 hs]; simp), hl]
    simp
  rw [h1, h3, List.filter_append, h2, (sourceSay_kind O root name src s1).2, List.append_nil]
  exact ⟨rfl, List.suffix_append _ _⟩

/-- C91. When no source loads, all that are passed over are named. -/
theorem C91_skipped_all (srcs : List Str) (s t : LoadSt) (h : AllFail O root name srcs s t) :
    (sourcesSay unkept O root name false srcs s).filter (hasVerb str!"Skipping") = (srcs.filter fun x => ¬ Supported O x).map skipLine := by
  obtain ⟨l, f, h1, h2⟩ := sourcesSay_fail O root name unkept h false []
  rw [List.append_nil] at h1
  rw [h1, sourcesSay, List.append_nil, h2]

end

/-! ### One source -/

section
variable {O : Outside} {root : Path} {name src : Str} {s : LoadSt}

/-- A line about the plugin and this source. -/
def fromLine (verb name src : Str) : Say := .log verb (str!"plugin `" ++ name ++ str!"` from `" ++ src ++ str!"`")

/-- C91. A file is loaded. -/
theorem C91_file (file : Str) (b : Bytes) (hf : EndsIn src file) (hb : look s.world.disk (joinPath root src) = some (.file b)) :
    sourceSay O root name src s = [fromLine str!"Loading" name src] := by
  unfold sourceSay
  simp only [(endsIn_piece hf).1, isFileAt_look hb, Bool.and_self, if_true]
  rfl

/-- C91. A project is compiled. -/
theorem C91_cargo (hf : ∀ b, look s.world.disk (joinPath root src) ≠ some (.file b))
    (hm : look s.world.disk (joinPath root src ++ [str!"Cargo.toml"]) ≠ none) :
    sourceSay O root name src s = [fromLine str!"Compiling" name src] := by
  have h1 : s.world.disk.isFileAt (joinPath root src) = false := by
    unfold Entry.isFileAt
    unfold look at hf
    split
    · rename_i b hb
      rw [hb] at hf
      exact absurd rfl (hf b)
    · rfl
  unfold sourceSay
  simp only [h1, exists_iff.2 hm, Bool.and_false, Bool.false_eq_true, if_false, if_true]
  rfl

theorem compile_errors (O : Outside) (project : Path) (s : LoadSt) (e : LoadErr)
    (h : (LoadSt.andThen (buildCargo O project s) fun path s => loadBinary O path s).2 = .err e) :
    e ≠ .write ∧ e ≠ .clone ∧ e ≠ .pull ∧ e ≠ .noProject := by
  have hc : ∀ e, (buildCargo O project s).2 = .err e → e ≠ .write ∧ e ≠ .clone ∧ e ≠ .pull ∧ e ≠ .noProject := by
    intro e h
    unfold buildCargo at h
    simp only at h
    repeat' split at h
    all_goals (cases h <;> simp)
  have hl : ∀ path s e, (loadBinary O path s).2 = .err e → e ≠ .write ∧ e ≠ .clone ∧ e ≠ .pull ∧ e ≠ .noProject := by
    intro path s e h
    unfold loadBinary at h
    simp only at h
    split at h <;> cases h
    simp
  generalize buildCargo O project s = r at h hc
  obtain ⟨s1, r⟩ := r
  cases r with
  | ok path => exact hl path s1 e h
  | err e' => cases h; exact hc e rfl
  | panic p => cases h

/-- C91. A repository is cloned if there is none yet and pulled otherwise, and compiled when it has been fetched and the
project has been found in it. -/
theorem C91_git (hn : PlainName name) (hs : NotLocal root src s.world.disk) (hg : O.gitExists s.tick src = true) :
    ∃ compiled, sourceSay O root name src s =
        fromLine (if look s.world.disk (keptIn root name) = none then str!"Cloning" else str!"Pulling") name src :: compiled ∧
      (compiled = [] ∧ (∃ e, (loadFromSource O root name src s).2 = .err e ∧ (e = .write ∨ e = .clone ∨ e = .pull ∨ e = .noProject)) ∨
       compiled = [.log str!"Compiling" (str!"plugin `" ++ name ++ str!"`")] ∧
        ∀ e, (loadFromSource O root name src s).2 = .err e → e ≠ .write ∧ e ≠ .clone ∧ e ≠ .pull ∧ e ≠ .noProject) := by
  have hdir : joinPath root (str!"_build/plugins/" ++ name) = keptIn root name := pluginDir_eq root hn
  rw [git_eq hs hg]
  unfold sourceSay
  simp only [(notLocal hs).1, (notLocal hs).2, hg, Bool.and_false, Bool.false_eq_true, if_false, if_true]
  unfold gitSay loadGit
  simp only [hdir]
  have hv : (if s.world.disk.existsAt (keptIn root name) then str!"Pulling" else str!"Cloning") =
      (if look s.world.disk (keptIn root name) = none then str!"Cloning" else str!"Pulling") := by
    by_cases h : look s.world.disk (keptIn root name) = none
    · rw [if_pos h, if_neg (by rw [exists_iff]; exact fun k => k h)]
    · rw [if_neg h, if_pos (exists_iff.2 h)]
  rw [hv]
  refine ⟨_, rfl, ?_⟩
  have he : ∀ e, (fetchRepo O root name src { s with tick := s.tick + 1 }).2 = .err e → e = .write ∨ e = .clone ∨ e = .pull := by
    intro e h
    unfold fetchRepo at h
    simp only at h
    split at h
    · split at h
      · simp only at h
        split at h <;> cases h
        exact .inr (.inl rfl)
      · cases h; exact .inl rfl
    · simp only at h
      split at h <;> cases h
      exact .inr (.inr rfl)
  have hp : ∀ p, (fetchRepo O root name src { s with tick := s.tick + 1 }).2 ≠ .panic p := by
    intro p h
    unfold fetchRepo at h
    simp only at h
    repeat' split at h
    all_goals cases h
  generalize fetchRepo O root name src { s with tick := s.tick + 1 } = r at he hp ⊢
  obtain ⟨s1, r⟩ := r
  cases r with
  | err e =>
    left
    refine ⟨rfl, e, rfl, ?_⟩
    rcases he e rfl with h | h | h <;> simp [h]
  | panic p => exact absurd rfl (hp p)
  | ok u =>
    simp only [LoadSt.andThen]
    cases (s1.world.disk.at (keptIn root name)).bind (findProject O name (keptIn root name)) with
    | none => exact .inl ⟨rfl, _, rfl, by simp⟩
    | some project =>
      right
      refine ⟨rfl, ?_⟩
      exact compile_errors _ _ _

/-- C91. Anything else is downloaded, and then no library is compiled, whatever the response. -/
theorem C91_download (hs : NotLocal root src s.world.disk) (hg : O.gitExists s.tick src = false) (response : Nat × Bytes)
    (hh : O.http (s.tick + 1) src = some response) :
    sourceSay O root name src s = [fromLine str!"Downloading" name src] := by
  unfold sourceSay downloadPlugin
  simp only [(notLocal hs).1, (notLocal hs).2, hg, hh, Bool.and_false, Bool.false_eq_true, if_false, Option.map_some]
  rfl

/-- C91. If there is no response, nothing is said but the report. -/
theorem C91_nothing (hs : NotLocal root src s.world.disk) (hg : O.gitExists s.tick src = false)
    (hh : O.http (s.tick + 1) src = none) : sourceSay O root name src s = [] := by
  unfold sourceSay downloadPlugin
  simp only [(notLocal hs).1, (notLocal hs).2, hg, hh, Bool.and_false, Bool.false_eq_true, if_false, Option.map_none]

end

/-- C91. The reports of each kind of failure that is told apart. -/
theorem C91_texts (unkept : LoadErr → Str) (name : Str) :
    loadMsg unkept name .write = str!"could not write to filesystem" ∧
    loadMsg unkept name .clone = str!"failed to clone Git repository for plugin `" ++ name ++ str!"`" ∧
    loadMsg unkept name .pull = str!"failed to pull Git repository for plugin `" ++ name ++ str!"`" ∧
    loadMsg unkept name .noProject = str!"failed to find plugin `" ++ name ++ str!"` in Git repository" ∧
    loadMsg unkept name .invalidSource = str!"invalid source for plugin `" ++ name ++ str!"`" ∧
    loadMsg unkept name .couldNotExecute = str!"could not execute `<build script>`" := ⟨rfl, rfl, rfl, rfl, rfl, rfl⟩

/-! ### All plugins -/

section
variable (O : Outside) (root : Path) (unkept : LoadErr → Str)

/-- C91. Each plugin has its lines in turn, those of its sources. -/
theorem C91_plugins (plugins : List (Str × Str)) (name src : Str) (pieces : List Str) (s s1 : LoadSt) (qs : List Plugin)
    (h : loadAll O root plugins s = (s1, .ok qs)) (hp : Separated src pieces) :
    pluginsSay unkept O root (plugins ++ [(name, src)]) s =
      pluginsSay unkept O root plugins s ++ sourcesSay unkept O root name false pieces s1 := by
  induction plugins generalizing s qs with
  | nil =>
    cases h
    rw [List.nil_append, pluginsSay, pluginsSay, (separated_iff.1 hp)]
    split <;> simp [pluginsSay]
  | cons x rest ih =>
    obtain ⟨n, c⟩ := x
    rw [loadAll] at h
    rw [List.cons_append, pluginsSay, pluginsSay]
    generalize loadSources O root n (splitOn ';' c) s = r at h ⊢
    obtain ⟨s2, r⟩ := r
    cases r with
    | ok ps =>
      simp only at h ⊢
      generalize hr : loadAll O root rest s2 = q at h
      obtain ⟨s3, q⟩ := q
      cases q with
      | ok qs' =>
        cases h
        rw [ih s2 qs' hr, List.append_assoc]
      | err e => cases h
      | panic p => cases h
    | err e => cases h
    | panic p => cases h

/-- C91. Nothing is said of the plugins after one that cannot be loaded. -/
theorem C91_stops (front rest : List (Str × Str)) (s : LoadSt) (h : ∀ t qs, loadAll O root front s ≠ (t, .ok qs)) :
    pluginsSay unkept O root (front ++ rest) s = pluginsSay unkept O root front s := by
  induction front generalizing s with
  | nil => exact absurd rfl (h s [])
  | cons x front ih =>
    obtain ⟨n, c⟩ := x
    rw [List.cons_append, pluginsSay, pluginsSay]
    have h' := h
    simp only [loadAll] at h'
    generalize loadSources O root n (splitOn ';' c) s = r at h' ⊢
    obtain ⟨s2, r⟩ := r
    cases r with
    | ok ps =>
      simp only at h' ⊢
      rw [ih]
      intro t qs k
      rw [k] at h'
      exact h' t _ rfl
    | err e => rfl
    | panic p => rfl

/-- C91. At the end there is one more line if there are plugins and all could be loaded. It has their number, and the time
rounded down to tenths of milliseconds. -/
theorem C91_loaded (micros : Nat) (plugins : List (Str × Str)) (s t : LoadSt) (qs : List Plugin)
    (h : loadAll O root plugins s = (t, .ok qs)) (hp : plugins ≠ []) :
    ∃ time, Tenths (micros / 100) time ∧ loadSay unkept micros O root plugins s = pluginsSay unkept O root plugins s ++
      [.log str!"Loaded" (Nat.toDigits 10 plugins.length ++ str!" plugin(s) in " ++ time ++ str!"ms\n")] := by
  have hc := C53_count plugins s t qs h
  refine ⟨_, showTenths_spec micros, ?_⟩
  unfold loadSay
  rw [h]
  cases qs with
  | nil => exact absurd (List.length_eq_zero_iff.1 hc.symm) hp
  | cons q qs => simp only [natToStr_eq, hc]

/-- C91. There is none otherwise. -/
theorem C91_unloaded (micros : Nat) (plugins : List (Str × Str)) (s : LoadSt)
    (h : plugins = [] ∨ ∀ t qs, loadAll O root plugins s ≠ (t, .ok qs)) :
    loadSay unkept micros O root plugins s = pluginsSay unkept O root plugins s := by
  unfold loadSay
  rcases h with rfl | h
  · rfl
  · generalize loadAll O root plugins s = r at h
    obtain ⟨t, r⟩ := r
    cases r with
    | ok qs => exact absurd rfl (h t qs)
    | err e => exact List.append_nil _
    | panic p => exact List.append_nil _

end

/-- C91 is false in one clause: of two sources that fail, for different reasons, only the first is reported. -/
theorem C91_counterexample :
    let s : LoadSt := ⟨⟨pluginDisk, []⟩, 0⟩
    (loadFromSource plainOutside [str!"p"] str!"b" str!"no.so" s).2 = .err .invalidSource ∧
    (loadFromSource plainOutside [str!"p"] str!"b" str!"a.txt" { s with world := ⟨.dir [(str!"p", .dir [(str!"a.txt", .file [])])], []⟩ }).2 =
      .err .library ∧
    (sourcesSay (fun _ => str!"cannot load") plainOutside [str!"p"] str!"b" false [str!"no.so", str!"a.txt"]
      ⟨⟨.dir [(str!"p", .dir [(str!"a.txt", .file [])])], []⟩, 0⟩).filterMap reportText =
        [str!"error: invalid source for plugin `b`\n"] := ⟨rfl, rfl, by decide +kernel⟩

/-! ### Cases: each theorem applied to something that meets its hypotheses -/

/-- A plugin with four sources: one for Windows, two that are not there, of which only the first is reported, and one that
is loaded. -/
example : loadSay (fun _ => str!"cannot load") 1234 plainOutside [str!"p"] [(str!"b", str!"b.dll;no.so;no2.so;b.so;b.js")]
    ⟨⟨pluginDisk, []⟩, 0⟩ = [
      .log str!"Skipping" str!"plugin file `b.dll` (not supported on non-Windows platforms)",
      .report str!"error: invalid source for plugin `b`\n",
      .log str!"Loading" str!"plugin `b` from `b.so`",
      .log str!"Loaded" str!"1 plugin(s) in 1.2ms\n"] := by decide +kernel

/-- A repository that is cloned. -/
example : loadSay (fun _ => str!"cannot load") 1000 gitOutside [str!"p"] [(str!"x", str!"https://h/x")] ⟨⟨bareDisk, []⟩, 0⟩ = [
      .log str!"Cloning" str!"plugin `x` from `https://h/x`",
      .log str!"Compiling" str!"plugin `x`",
      .log str!"Loaded" str!"1 plugin(s) in 1ms\n"] := by decide +kernel

example := C91_reports plainOutside [str!"p"] str!"b" (fun _ => str!"cannot load") [str!"b.dll"] [str!"no2.so"] str!"no.so"
  ⟨⟨pluginDisk, []⟩, 0⟩ (by decide) (by decide)

example := C91_no_reports plainOutside [str!"p"] str!"b" (fun _ => str!"cannot load") [str!"b.dll", str!"b.js"]
  ⟨⟨pluginDisk, []⟩, 0⟩ (by decide)

example := C91_skipped plainOutside [str!"p"] str!"b" (fun _ => str!"cannot load") [str!"b.dll", str!"no.so"] [] str!"b.so"
  ⟨⟨pluginDisk, []⟩, 0⟩ _ _ _ (.skip (by decide) (.fail (by decide) rfl (.nil _))) (by decide) rfl

example := C91_skipped_all plainOutside [str!"p"] str!"b" (fun _ => str!"cannot load") [str!"b.dll", str!"no.so"]
  ⟨⟨pluginDisk, []⟩, 0⟩ _ (.skip (by decide) (.fail (by decide) rfl (.nil _)))

example := C91_file (O := plainOutside) (root := [str!"p"]) (name := str!"b") (src := str!"b.so") (s := ⟨⟨pluginDisk, []⟩, 0⟩)
  str!"b.so" [2] ⟨[], rfl, .inl rfl, by decide⟩ rfl

example := C91_cargo (O := cargoOutside str!"plugin") (root := [str!"p"]) (name := str!"x") (src := str!"src")
  (s := ⟨⟨cargoDisk, []⟩, 0⟩) (fun b h => by cases h) (by decide)

example := C91_git (O := gitOutside) (root := [str!"p"]) (name := str!"x") (src := str!"https://h/x") (s := ⟨⟨clonedDisk, []⟩, 0⟩)
  (by decide) ⟨(fun b h => by cases h), rfl⟩ rfl

example := C91_download (O := webOutside) (root := [str!"p"]) (name := str!"y") (src := str!"https://h/y.so") (s := ⟨⟨webDisk, []⟩, 0⟩)
  ⟨(fun b h => by cases h), rfl⟩ rfl (404, bytesOf str!"gone") rfl

example := C91_nothing (O := plainOutside) (root := [str!"p"]) (name := str!"y") (src := str!"https://h/y.so")
  (s := ⟨⟨webDisk, []⟩, 0⟩) ⟨(fun b h => by cases h), rfl⟩ rfl rfl

example := C91_plugins plainOutside [str!"p"] (fun _ => str!"cannot load") [(str!"b", str!"b.dll;b.so")] str!"c" str!"c.dll;d.so"
  [str!"c.dll", str!"d.so"] ⟨⟨pluginDisk, []⟩, 0⟩ _ _ rfl (separated_iff.2 rfl)

example := C91_stops plainOutside [str!"p"] (fun _ => str!"cannot load") [(str!"b", str!"no.so")] [(str!"c", str!"b.so")]
  ⟨⟨pluginDisk, []⟩, 0⟩ (by intro t qs h; cases h)

example := C91_loaded plainOutside [str!"p"] (fun _ => str!"cannot load") 1234 [(str!"b", str!"b.dll;b.so")]
  ⟨⟨pluginDisk, []⟩, 0⟩ _ _ rfl (by decide)

example := C91_unloaded plainOutside [str!"p"] (fun _ => str!"cannot load") 1234 [(str!"b", str!"no.so")]
  ⟨⟨pluginDisk, []⟩, 0⟩ (.inr (by intro t qs h; cases h))

end Stuart
