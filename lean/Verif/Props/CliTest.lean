import Verif.Model.CliTest
import Verif.Props.New
import Verif.Props.Command
/-
Property C114: the tests of the command line program.
-/
namespace Stuart
open Spec

/-- A path written out leads there. -/
theorem way_pathStr {d : Entry} : ∀ (p q : Path) (n : Str), (∀ m ∈ n :: p, PlainName m) → look d (q ++ n :: p) ≠ none →
    Way d q (n ++ pathStr p) (q ++ n :: p)
  | [], q, n, hn, h => by
    obtain ⟨k1, k2, k3, k4⟩ := hn n (by simp)
    have e : n ++ pathStr [] = n := by simp [pathStr]
    rw [e]
    exact .last k4 (look_above (r := [n]) (by simp) h) (.down k1 k2 k3) h
  | m :: p, q, n, hn, h => by
    obtain ⟨k1, k2, k3, k4⟩ := hn n (by simp)
    have e : n ++ pathStr (m :: p) = n ++ '/' :: (m ++ pathStr p) := by simp [pathStr]
    have e' : q ++ n :: m :: p = (q ++ [n]) ++ m :: p := by simp
    rw [e, e']
    rw [e'] at h
    exact .more k4 (look_above (r := n :: m :: p) (by simp) (by rw [e']; exact h)) (.down k1 k2 k3)
      (way_pathStr p (q ++ [n]) m (fun x hx => hn x (by simp at hx ⊢; exact .inr hx)) h)

theorem names_pathStr {d : Entry} {cwd : Path} {p : Path} (hp : p ≠ []) (hn : ∀ m ∈ p, PlainName m) (h : look d p ≠ none) :
    Names d cwd (pathStr p) p := by
  cases p with
  | nil => exact absurd rfl hp
  | cons n p => exact .inl ⟨n ++ pathStr p, by simp [pathStr], by simpa using way_pathStr p [] n hn (by simpa using h)⟩

section
variable (M : Machine) (L : Loader) (cwd dir : Path) (check : Str → Bool) (s : Host)

/-- C114. A test passes exactly when the build succeeds, and leaves a page `index.html` in `dist` with a text that meets the check. -/
theorem C114_means : (cliTest M L cwd dir check s).2 = .passed ↔
    ∃ s' t, cmdBuild M L cwd (pathStr (dir ++ [str!"stuart.toml"])) str!"dist" s = (s', .ok ()) ∧
      look s'.world.disk (dir ++ [str!"dist", str!"index.html"]) = some (.file (bytesOf t)) ∧ check t = true := by
  unfold cliTest
  obtain ⟨s', r⟩ := cmdBuild M L cwd (pathStr (dir ++ [str!"stuart.toml"])) str!"dist" s
  cases r with
  | panic p => simp
  | err e => simp
  | ok u =>
    cases u
    simp only [Prod.mk.injEq, and_true]
    unfold look
    cases ha : s'.world.disk.at (dir ++ [str!"dist", str!"index.html"]) with
    | none =>
      constructor
      · intro h; cases h
      · rintro ⟨_, _, rfl, h, _⟩; rw [ha] at h; cases h
    | some e =>
      cases e with
      | dir l =>
        constructor
        · intro h; cases h
        · rintro ⟨_, _, rfl, h, _⟩; rw [ha] at h; cases h
      | special =>
        constructor
        · intro h; cases h
        · rintro ⟨_, _, rfl, h, _⟩; rw [ha] at h; cases h
      | file b =>
        simp only
        cases hf : fromUtf8 b with
        | none =>
          constructor
          · intro h; cases h
          · rintro ⟨_, t, rfl, h, _⟩
            rw [ha] at h
            have : b = bytesOf t := by simpa [kind] using h
            rw [this, fromUtf8_bytesOf] at hf; cases hf
        | some t =>
          have hb : b = bytesOf t := fromUtf8_sound hf
          simp only
          constructor
          · intro h
            refine ⟨s', t, rfl, by rw [ha, hb]; rfl, ?_⟩
            cases hc : check t with
            | true => rfl
            | false => rw [hc] at h; cases h
          · rintro ⟨_, t', rfl, h, hc⟩
            rw [ha] at h
            have : b = bytesOf t' := by simpa [kind] using h
            rw [this, fromUtf8_bytesOf] at hf
            cases hf
            rw [if_pos hc]

/-- C114. A test ends the whole process exactly when the build reports an error. -/
theorem C114_exits : (cliTest M L cwd dir check s).2 = .exited ↔
    ∃ s' e, cmdBuild M L cwd (pathStr (dir ++ [str!"stuart.toml"])) str!"dist" s = (s', .err e) := by
  unfold cliTest
  obtain ⟨s', r⟩ := cmdBuild M L cwd (pathStr (dir ++ [str!"stuart.toml"])) str!"dist" s
  cases r with
  | panic p => simp
  | err e => simp
  | ok u =>
    simp only [Prod.mk.injEq, reduceCtorEq, and_false, exists_false, iff_false]
    split
    · split
      · split <;> nofun
      · nofun
    · nofun

theorem cleanup_outside {w : World} {q : Path} (h1 : ¬ dir ++ [str!"dist"] <+: q) (h2 : ¬ dir ++ [str!"metadata.json"] <+: q) :
    look (testCleanup dir w).disk q = look w.disk q := by
  have hstep : ∀ (w : World) (o : Op), (o = .clear (dir ++ [str!"dist"]) ∨ o = .removeFile (dir ++ [str!"metadata.json"])) →
      look (w.step o).1.disk q = look w.disk q := by
    intro w o ho
    have hput : ∀ {p : Path} {d : Entry} {r : Option Entry}, (p = dir ++ [str!"dist"] ∨ p = dir ++ [str!"metadata.json"]) →
        look (d.put p r) q = look d q := by
      rintro p d r (rfl | rfl)
      · exact look_put_outside h1
      · exact look_put_outside h2
    unfold World.step
    split
    · rcases ho with rfl | rfl
      · exact hput (.inl rfl)
      · exact hput (.inr rfl)
    · split
      · rename_i d hd
        rcases ho with rfl | rfl
        · simp only [Op.apply] at hd
          split at hd
          · split at hd
            · cases hd
            · cases hd; exact hput (.inl rfl)
          · cases hd; rfl
        · simp only [Op.apply] at hd
          split at hd
          · cases hd
          · cases hd; exact hput (.inr rfl)
          · cases hd
      · rfl
  unfold testCleanup
  rw [hstep _ _ (.inr rfl), hstep _ _ (.inl rfl)]

/-- C114. Whatever becomes of the test, and whatever mishaps there are, outside `dist` and `metadata.json` everything is as the build leaves it. -/
theorem C114_frame (q : Path) (h1 : ¬ dir ++ [str!"dist"] <+: q) (h2 : ¬ dir ++ [str!"metadata.json"] <+: q) :
    look (cliTest M L cwd dir check s).1.world.disk q =
      look (cmdBuild M L cwd (pathStr (dir ++ [str!"stuart.toml"])) str!"dist" s).1.world.disk q := by
  unfold cliTest
  obtain ⟨s', r⟩ := cmdBuild M L cwd (pathStr (dir ++ [str!"stuart.toml"])) str!"dist" s
  cases r with
  | panic p => rfl
  | err e => exact cleanup_outside dir h1 h2
  | ok u =>
    simp only
    split
    · split
      · exact cleanup_outside dir h1 h2
      · rfl
    · rfl

/-- C114. A test that passes, or that ends the process, leaves neither a directory `dist` nor a file `metadata.json`, if no mishap is left to come: also if
they were there before. -/
theorem C114_lost (h : (cliTest M L cwd dir check s).2 ≠ .panicked) (s' : Host)
    (hb : (cmdBuild M L cwd (pathStr (dir ++ [str!"stuart.toml"])) str!"dist" s).1 = s') (hf : s'.world.faults = []) :
    look (cliTest M L cwd dir check s).1.world.disk (dir ++ [str!"dist"]) ≠ some .dir ∧
    ∀ b, look (cliTest M L cwd dir check s).1.world.disk (dir ++ [str!"metadata.json"]) ≠ some (.file b) := by
  have hclean : ∀ w : World, w.faults = [] → look (testCleanup dir w).disk (dir ++ [str!"dist"]) ≠ some .dir ∧
      ∀ b, look (testCleanup dir w).disk (dir ++ [str!"metadata.json"]) ≠ some (.file b) := by
    rintro ⟨d, fs⟩ rfl
    unfold testCleanup
    have n1 : ¬ dir ++ [str!"metadata.json"] <+: dir ++ [str!"dist"] := by
      intro h; exact absurd ((List.prefix_append_right_inj dir).1 h) (by decide)
    have n2 : ¬ dir ++ [str!"dist"] <+: dir ++ [str!"metadata.json"] := by
      intro h; exact absurd ((List.prefix_append_right_inj dir).1 h) (by decide)
    have hgone : ∀ (d : Entry) (n : Str), look d (dir ++ [n]) ≠ none → look (d.put (dir ++ [n]) none) (dir ++ [n]) = none := by
      intro d n hn
      have := look_put_inside (d := d) (p := dir ++ [n]) (by simp) [] (v := none) (by
        rw [List.dropLast_concat]; exact look_above (r := [n]) (by simp) hn)
      simpa using this
    have a1 : ∀ d : Entry, ∃ d', World.step ⟨d, []⟩ (.clear (dir ++ [str!"dist"])) = (⟨d', []⟩, true) ∧ look d' (dir ++ [str!"dist"]) ≠ some .dir := by
      intro d
      simp only [World.step, Op.apply]
      cases ha : d.at (dir ++ [str!"dist"]) with
      | none => exact ⟨d, rfl, by rw [look, ha]; nofun⟩
      | some e =>
        cases e with
        | file b => exact ⟨d, rfl, by rw [look, ha]; simp [kind]⟩
        | special => exact ⟨d, rfl, by rw [look, ha]; simp [kind]⟩
        | dir l =>
          refine ⟨d.put (dir ++ [str!"dist"]) none, ?_, ?_⟩
          · simp
          · rw [hgone d _ (by rw [look, ha]; nofun)]; nofun
    have a2 : ∀ d : Entry, (∀ b, look (World.step ⟨d, []⟩ (.removeFile (dir ++ [str!"metadata.json"]))).1.disk (dir ++ [str!"metadata.json"]) ≠ some (.file b)) ∧
        look (World.step ⟨d, []⟩ (.removeFile (dir ++ [str!"metadata.json"]))).1.disk (dir ++ [str!"dist"]) = look d (dir ++ [str!"dist"]) := by
      intro d
      simp only [World.step, Op.apply]
      cases ha : d.at (dir ++ [str!"metadata.json"]) with
      | none => exact ⟨fun b => by rw [show look d _ = none by rw [look, ha]; rfl]; nofun, rfl⟩
      | some e =>
        cases e with
        | dir l => exact ⟨fun b => by rw [show look d _ = some .dir by rw [look, ha]; rfl]; nofun, rfl⟩
        | file c =>
          refine ⟨fun b => ?_, look_put_outside n1⟩
          simp only
          rw [hgone d _ (by rw [look, ha]; nofun)]; nofun
        | special =>
          refine ⟨fun b => ?_, look_put_outside n1⟩
          simp only
          rw [hgone d _ (by rw [look, ha]; nofun)]; nofun
    obtain ⟨d', e1, e2⟩ := a1 d
    rw [e1]
    exact ⟨by rw [(a2 d').2]; exact e2, (a2 d').1⟩
  unfold cliTest at h ⊢
  generalize cmdBuild M L cwd (pathStr (dir ++ [str!"stuart.toml"])) str!"dist" s = x at hb h ⊢
  obtain ⟨s'', r⟩ := x
  simp only at hb
  subst hb
  cases r with
  | panic p => exact absurd rfl h
  | err e => exact hclean _ hf
  | ok u =>
    simp only at h ⊢
    split at h
    · split at h
      · exact hclean _ hf
      · exact absurd rfl h
    · exact absurd rfl h
end

/-- The directory that was made is removed again. -/
theorem cleaned_again {d : Entry} {dir : Path} (hd : look d dir = some .dir) (h1 : look d (dir ++ [str!"dist"]) = none)
    (h2 : look d (dir ++ [str!"metadata.json"]) = none) (l : List (Str × Entry)) (q : Path) :
    look (testCleanup dir ⟨d.put (dir ++ [str!"dist"]) (some (.dir l)), []⟩).disk q = look d q := by
  have hdd : d.isDirAt (dir ++ [str!"dist"]).dropLast = true := by rw [List.dropLast_concat]; exact isDirAt_iff.2 hd
  have e1 : World.step ⟨d.put (dir ++ [str!"dist"]) (some (.dir l)), []⟩ (.clear (dir ++ [str!"dist"])) =
      (⟨(d.put (dir ++ [str!"dist"]) (some (.dir l))).put (dir ++ [str!"dist"]) none, []⟩, true) := by
    have := at_put_below (d := d) (e := .dir l) (p := dir ++ [str!"dist"]) [] hdd (by simp)
    rw [List.append_nil] at this
    simp [World.step, Op.apply, this, Entry.at]
  have hp : ∀ {v : Option Entry} {d : Entry}, look (d.put (dir ++ [str!"dist"]) v) dir = look d dir := fun {_ _} =>
    look_put_outside (fun h => by have := h.length_le; simp at this; omega)
  have e2 : ((d.put (dir ++ [str!"dist"]) (some (.dir l))).put (dir ++ [str!"dist"]) none).at (dir ++ [str!"metadata.json"]) = none := by
    have hn : ¬ dir ++ [str!"dist"] <+: dir ++ [str!"metadata.json"] := fun h => absurd ((List.prefix_append_right_inj dir).1 h) (by decide)
    rw [at_none_iff, look_put_outside hn, look_put_outside hn]
    exact h2
  have e3 : (testCleanup dir ⟨d.put (dir ++ [str!"dist"]) (some (.dir l)), []⟩).disk =
      (d.put (dir ++ [str!"dist"]) (some (.dir l))).put (dir ++ [str!"dist"]) none := by
    unfold testCleanup
    rw [e1]
    simp only [World.step, Op.apply, e2]
  rw [e3]
  by_cases hq : dir ++ [str!"dist"] <+: q
  · obtain ⟨r, rfl⟩ := hq
    rw [look_put_inside (by simp) r (by rw [List.dropLast_concat, hp]; exact hd)]
    cases r with
    | nil => simpa using h1.symm
    | cons a r =>
      apply Classical.byContradiction
      intro hne
      rw [look_above (r := a :: r) (by simp) (fun e => hne (by rw [e]; rfl))] at h1
      cases h1
  · rw [look_put_outside hq, look_put_outside hq]

/-- The manifest of the test gives its name and author. -/
theorem defaultToml_reads : ManifestOf defaultToml str!"example" (some str!"William Henderson <william-henderson@outlook.com>") :=
  (manifest_iff str!"example" (some str!"William Henderson <william-henderson@outlook.com>")).2
    ⟨by unfold Ordinary TomlPlain; decide, fun a h => by cases h; unfold Ordinary TomlPlain; decide⟩

/-- C114. The test `basic` passes, wherever the project is and from wherever it is run, with whatever libraries, and leaves everything as it was. -/
theorem C114_basic (M : Machine) (O : Outside) (parse : Str → Except TomlErr RawConfig) (cwd dir : Path) (d : Entry) (png : Bytes)
    (hn : ∀ m ∈ dir, PlainName m) (hd : d.at dir = some (newSite (bytesOf defaultToml) png))
    (hp : ∀ t n a, ManifestOf t n a → parse t = .ok ⟨n, a, none, none⟩) :
    (cliTest M (O.loader parse) cwd dir (fun _ => true) ⟨⟨d, []⟩, []⟩).2 = .passed ∧
    ∀ q, look (cliTest M (O.loader parse) cwd dir (fun _ => true) ⟨⟨d, []⟩, []⟩).1.world.disk q = look d q := by
  have hat : ∀ r, d.at (dir ++ r) = (newSite (bytesOf defaultToml) png).at r := fun r => by rw [at_append, hd]; rfl
  have hm := hat [str!"stuart.toml"]
  have hc := hat [str!"content"]
  have hs := hat [str!"static"]
  have ht := hat [str!"temp"]
  have hi := hat [str!"dist"]
  have hk := hat [str!"scripts"]
  have hj := hat [str!"metadata.json"]
  have hparse := hp _ _ _ defaultToml_reads
  have hscr : ∀ ns, findScripts ns d (dir ++ [str!"scripts"]) = [] := by
    intro ns
    unfold findScripts
    rw [hk]; rfl
  have hm' : (newSite (bytesOf defaultToml) png).at [str!"stuart.toml"] = some (.file (bytesOf defaultToml)) := rfl
  have hinit : ∃ env, Context.init (O.loader parse) cwd (pathStr (dir ++ [str!"stuart.toml"])) str!"dist" str!"production" ⟨⟨d, []⟩, []⟩ =
      (⟨⟨d, []⟩, []⟩, .ok {
        stuart := { dir := dir ++ [str!"content"], config :=
          (RawConfig.mk str!"example" (some str!"William Henderson <william-henderson@outlook.com>") none none).toConfig }
        pre := [], post := [], env := env, mode := str!"production", dir := dir, output := str!"dist" }) := by
    have hcan : canonicalize d cwd (pathStr (dir ++ [str!"stuart.toml"])) = some (dir ++ [str!"stuart.toml"]) := by
      refine canonicalize_names.2 (names_pathStr (by simp) ?_ (by rw [look, hm]; nofun))
      intro m h
      rcases List.mem_append.1 h with h | h
      · exact hn m h
      · rw [List.mem_singleton.1 h]; unfold PlainName; decide
    have hl : (O.loader parse).loadPlugins none dir ⟨⟨d, []⟩, []⟩ = (⟨⟨d, []⟩, []⟩, .ok []) := rfl
    have hp' : (O.loader parse).parseToml defaultToml = .ok ⟨str!"example", some str!"William Henderson <william-henderson@outlook.com>", none, none⟩ := hparse
    unfold Context.init
    simp only [hcan, hm, hm', fromUtf8_bytesOf, hp', List.dropLast_concat, hl, hscr]
    exact ⟨_, rfl⟩
  obtain ⟨env, hinit⟩ := hinit
  have hb := new_build M (p := dir) (disk := d) (runs := []) (png := png)
    (c := {
        stuart := { dir := dir ++ [str!"content"], config :=
          (RawConfig.mk str!"example" (some str!"William Henderson <william-henderson@outlook.com>") none none).toConfig }
        pre := [], post := [], env := env, mode := str!"production", dir := dir, output := str!"dist" }) rfl rfl ⟨rfl, rfl⟩ rfl rfl hc hs ht hi
  have hdir : look d dir = some .dir := by rw [look, hd]; rfl
  have hcmd : cmdBuild M (O.loader parse) cwd (pathStr (dir ++ [str!"stuart.toml"])) str!"dist" ⟨⟨d, []⟩, []⟩ =
      (⟨⟨d.put (dir ++ [str!"dist"]) (some (newOutput png)), []⟩, []⟩, .ok ()) := by
    unfold cmdBuild
    rw [hinit]
    simp only [hb]
  have hin : ∀ r, look (d.put (dir ++ [str!"dist"]) (some (newOutput png))) (dir ++ [str!"dist"] ++ r) = look (newOutput png) r := fun r =>
    look_put_inside (by simp) r (by rw [List.dropLast_concat]; exact hdir)
  have hpass : (cliTest M (O.loader parse) cwd dir (fun _ => true) ⟨⟨d, []⟩, []⟩).2 = .passed := by
    refine (C114_means ..).2 ⟨_, newPage, hcmd, ?_, rfl⟩
    have := hin [str!"index.html"]
    simp only [List.append_assoc, List.cons_append, List.nil_append] at this
    exact this
  refine ⟨hpass, fun q => ?_⟩
  have hwhole : (cliTest M (O.loader parse) cwd dir (fun _ => true) ⟨⟨d, []⟩, []⟩).1.world =
      testCleanup dir ⟨d.put (dir ++ [str!"dist"]) (some (newOutput png)), []⟩ := by
    have hix : (d.put (dir ++ [str!"dist"]) (some (newOutput png))).at (dir ++ [str!"dist", str!"index.html"]) = some (.file (bytesOf newPage)) := by
      have := at_put_below (d := d) (e := newOutput png) (p := dir ++ [str!"dist"]) [str!"index.html"] (by
        rw [List.dropLast_concat]; exact isDirAt_iff.2 hdir) (by simp)
      rw [List.append_assoc] at this
      exact this
    unfold cliTest
    rw [hcmd]
    simp only [hix, fromUtf8_bytesOf]
  rw [hwhole]
  exact cleaned_again hdir (by rw [look, hi]; rfl) (by rw [look, hj]; rfl) _ q

/-! ### Cases -/

/-- The project of the test in `/w/tests/basic`. -/
def basicDisk : Entry := .dir [(str!"w", .dir [(str!"tests", .dir [(str!"basic", newSite (bytesOf defaultToml) [1, 2, 3])])])]

example (M : Machine) (O : Outside) := C114_basic M O readManifest [] [str!"w", str!"tests", str!"basic"] basicDisk [1, 2, 3]
  (by unfold PlainName; decide) rfl readManifest_reads

/-- A small project with this page and a file `metadata.json`. -/
def smallTest (page : Str) : Entry := .dir [(str!"p", .dir [
  (str!"stuart.toml", .file (bytesOf str!"name")),
  (str!"metadata.json", .file (bytesOf str!"{}")),
  (str!"content", .dir [(str!"root.html", .file (bytesOf str!"<{{ insert(\"b\") }}>")), (str!"index.html", .file (bytesOf page))])])]

def smallRun (page : Str) (check : Str → Bool) : Host × TestEnd :=
  cliTest idleMachine shortLoader [] [str!"p"] check ⟨⟨smallTest page, []⟩, []⟩

/-- C114. That a test leaves everything as it was is false in general: it removes a file `metadata.json` that it has not made. -/
theorem C114_counterexample_metadata : let r := smallRun str!"{{ begin(\"b\") }}x{{ end(\"b\") }}" (fun t => t == str!"<x>")
    r.2 = .passed ∧ look (smallTest str!"{{ begin(\"b\") }}x{{ end(\"b\") }}") [str!"p", str!"metadata.json"] = some (.file (bytesOf str!"{}")) ∧
      look r.1.world.disk [str!"p", str!"metadata.json"] = none := by decide +kernel

/-- A page that does not meet the check, and one that cannot be made. -/
example : (smallRun str!"{{ begin(\"b\") }}x{{ end(\"b\") }}" (fun t => t == str!"x")).2 = .panicked ∧
    (smallRun str!"{{ $x }}" (fun _ => true)).2 = .exited := by decide +kernel


end Stuart
