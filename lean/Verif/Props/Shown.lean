import Verif.Spec.Shown
import Verif.Props.Source
import Verif.Props.Serve
/-
Property C96: what the development server shows.
-/
namespace Stuart
open Spec

/-! ### The settings stay -/

theorem mergeDirs_settings {M : Machine} {disk : Entry} {dir : Path} {ns : List Str} {s : Project} :
    (mergeDirs M disk dir ns s).1.dir = s.dir ∧ (mergeDirs M disk dir ns s).1.plugins = s.plugins := by
  induction ns generalizing s with
  | nil => exact ⟨rfl, rfl⟩
  | cons n ns ih =>
    have hm : ∀ node, (s.mergeOutput node).1.dir = s.dir ∧ (s.mergeOutput node).1.plugins = s.plugins := by
      intro node
      unfold Project.mergeOutput
      split <;> exact ⟨rfl, rfl⟩
    rw [mergeDirs]
    split
    · split
      · exact ⟨rfl, rfl⟩
      · exact ⟨rfl, rfl⟩
      · rename_i node _
        have := hm node
        split
        · rename_i h; rw [h] at this; exact ⟨ih.1.trans this.1, ih.2.trans this.2⟩
        · rename_i h; rw [h] at this; exact this
        · rename_i h; rw [h] at this; exact this
    · exact ih

/-- The same settings. -/
structure SameSettings (c c' : Context) : Prop where
  project : SameProject c c'
  pre : c.pre = c'.pre
  post : c.post = c'.post
  env : c.env = c'.env

theorem SameSettings.trans {a b c : Context} (h : SameSettings a b) (h' : SameSettings b c) : SameSettings a c :=
  ⟨⟨h.project.content.trans h'.project.content, h.project.config.trans h'.project.config, h.project.plugins.trans h'.project.plugins,
    h.project.mode.trans h'.project.mode, h.project.dir.trans h'.project.dir, h.project.output.trans h'.project.output⟩,
    h.pre.trans h'.pre, h.post.trans h'.post, h.env.trans h'.env⟩

theorem SameSettings.refl (c : Context) : SameSettings c c := ⟨⟨rfl, rfl, rfl, rfl, rfl, rfl⟩, rfl, rfl, rfl⟩

theorem Project.build_settings (S : Sys) (disk : Entry) (mode : Str) (p : Project) :
    (p.build S disk mode).1.dir = p.dir ∧ (p.build S disk mode).1.config = p.config ∧ (p.build S disk mode).1.plugins = p.plugins := by
  unfold Project.build
  split
  · exact ⟨rfl, rfl, rfl⟩
  · exact ⟨rfl, rfl, rfl⟩
  · dsimp only
    split
    · exact ⟨rfl, rfl, rfl⟩
    · exact ⟨rfl, rfl, rfl⟩
    · split <;> exact ⟨rfl, rfl, rfl⟩

theorem Context.build_settings (M : Machine) (c : Context) (s : Host) : SameSettings (c.build M s).1 c := by
  unfold Context.build
  split
  · exact .refl c
  · exact .refl c
  · rename_i s1 _
    obtain ⟨b1, b2, b3⟩ := Project.build_settings M.sys s1.world.disk c.mode c.stuart
    have hb : SameSettings { c with stuart := (c.stuart.build M.sys s1.world.disk c.mode).1 } c :=
      ⟨⟨b1, b2, b3, rfl, rfl, rfl⟩, rfl, rfl, rfl⟩
    dsimp only
    split
    · exact hb
    · exact hb
    · have hk := (Context.publish_keeps (M := M) (c := { c with stuart := (c.stuart.build M.sys s1.world.disk c.mode).1 }) (s := s1)).1
      have hp : SameSettings (Context.publish M { c with stuart := (c.stuart.build M.sys s1.world.disk c.mode).1 } s1).1 c := by
        rw [hk]
        obtain ⟨m1, m2⟩ := mergeDirs_settings (M := M) (disk := s1.world.disk) (dir := c.dir) (ns := [str!"static", str!"temp"])
          (s := (c.stuart.build M.sys s1.world.disk c.mode).1)
        exact ⟨⟨m1.trans b1, mergeDirs_config.trans b2, m2.trans b3, rfl, rfl, rfl⟩, rfl, rfl, rfl⟩
      split <;> (rename_i h; rw [h] at hp; exact hp)

section
variable {α : Type} (M : Machine) (send : α → α × Bool)

/-- C96. The server goes on with the settings with which it started, whatever happens: the same project, mode, output
directory and scripts. -/
theorem C96_settings (c0 c : Context) (s : Host) (streams : List α) (h : Serving M send c0 c s streams) : SameSettings c c0 := by
  induction h with
  | start => exact .refl c0
  | meanwhile _ _ _ ih => exact ih
  | @event c c' s s' streams streams' path done h he ih =>
    refine SameSettings.trans ?_ ih
    unfold onEvent at he
    split at he
    · cases he
    · split at he
      · cases he; exact .refl _
      · cases he; exact .refl _
      · have := Context.build_settings M c s
        split at he <;> (rename_i hb; rw [hb] at this; cases he <;> exact this)

end

section
variable (M : Machine) (L : Loader) (cwd : Path) (manifest output : Str) (s : Host) (hroot : look s.world.disk [] = some .dir)
include hroot

/-- C96. The server starts exactly when the project can be loaded and the first build does not panic, whether or not it
succeeds; then what is served is the directory into which the site is built. -/
theorem C96_start (c : Context) (served : Path) (s' : Host) :
    startDev M L cwd manifest output s = (s', .ok (c, served)) ↔
      ∃ s1 c0, Context.init L cwd manifest output str!"development" s = (s1, .ok c0) ∧ (∀ p, (c0.build M s1).2.2 ≠ .panic p) ∧
        c = (c0.build M s1).1 ∧ s' = (c0.build M s1).2.1 ∧ served = c.outPath := by
  have hdir : ∀ s1 c0 x path, canonicalize s.world.disk cwd manifest = some (x :: path) →
      Context.init L cwd manifest output str!"development" s = (s1, .ok c0) →
      joinPath (x :: path).dropLast output = (c0.build M s1).1.outPath := by
    intro s1 c0 x path hc hi
    have hb := (Context.build_settings M c0 s1).project
    unfold Context.outPath
    rw [hb.dir, hb.output]
    simp only [Context.init, hc] at hi
    split at hi
    · split at hi
      · cases hi
      · split at hi
        · split at hi <;> cases hi
        · split at hi
          · cases hi
          · cases hi
          · cases hi; rfl
    · cases hi
  unfold startDev
  cases hc : canonicalize s.world.disk cwd manifest with
  | none =>
    simp only [Context.init, hc]
    constructor
    · nofun
    · rintro ⟨_, _, h, _⟩; cases h
  | some q =>
    cases q with
    | nil =>
      have : ∀ b, s.world.disk.at [] ≠ some (.file b) := by
        intro b k
        simp [look, k, kind] at hroot
      simp only [Context.init, hc]
      constructor
      · nofun
      · rintro ⟨_, _, h, _⟩
        cases h
    | cons x path =>
      dsimp only
      have hd := hdir
      generalize hi : Context.init L cwd manifest output str!"development" s = r at hd ⊢
      obtain ⟨s1, r⟩ := r
      cases r with
      | err e => exact ⟨nofun, by rintro ⟨_, _, h, _⟩; cases h⟩
      | panic e => exact ⟨nofun, by rintro ⟨_, _, h, _⟩; cases h⟩
      | ok c0 =>
        have hd := hd s1 c0 x path hc rfl
        dsimp only
        generalize hb : c0.build M s1 = r at hd ⊢
        obtain ⟨c1, s2, r⟩ := r
        cases r with
        | panic p =>
          constructor
          · nofun
          · rintro ⟨_, _, h, k, _⟩
            cases h
            rw [hb] at k
            exact absurd rfl (k p)
        | ok u =>
          constructor
          · intro h; cases h
            exact ⟨s1, c0, rfl, by rw [hb]; nofun, by rw [hb], by rw [hb], hd⟩
          · rintro ⟨_, _, h, k, rfl, rfl, rfl⟩
            cases h
            rw [hb, hd]
        | err e =>
          constructor
          · intro h; cases h
            exact ⟨s1, c0, rfl, by rw [hb]; nofun, by rw [hb], by rw [hb], hd⟩
          · rintro ⟨_, _, h, k, rfl, rfl, rfl⟩
            cases h
            rw [hb, hd]

end

/-! ### What is shown -/

section
variable {α : Type} (M : Machine) (send : α → α × Bool)

theorem reloading_served (js : Bytes) (locate : Str → Option Located) (mime : Str → Str) (disk : Entry) (uri : Str) (p : Path)
    (cfg : Config) (ds : List Str) (stem : Str) (hs : stem ≠ []) (b : Bytes)
    (hl : locate (dropSlash uri) = some (.file (p ++ placeOf cfg ds stem)))
    (hb : look disk (p ++ placeOf cfg ds stem) = some (.file b)) :
    (serveDir js locate mime disk uri).status = 200 ∧
    (serveDir js locate mime disk uri).contentType = some (mime str!"html") ∧
    Reloading js b (serveDir js locate mime disk uri).body := by
  obtain ⟨h1, h2, h3⟩ := C54_inject js locate mime disk uri _ b hl hb
  refine ⟨h1, ?_, ?_⟩
  · unfold placeOf at hl hb
    split at hl
    · rw [if_pos (by assumption)] at hb
      rw [show p ++ (ds ++ [stem, str!"index.html"]) = (p ++ ds ++ [stem]) ++ [str!"index.html"] by simp] at hl hb
      exact (C54_type js locate mime disk uri _ _ b hl hb).1 _ ⟨str!"index", by decide, rfl, by decide⟩
    · rw [if_neg (by assumption)] at hb
      rw [← List.append_assoc] at hl hb
      exact (C54_type js locate mime disk uri _ _ b hl hb).1 _ ⟨stem, hs, rfl, by decide⟩
  · rcases C54_cases b with h | ⟨pre, post, rfl, hm⟩
    · rw [h3 h]; exact .without h
    · rw [h2 pre post rfl hm]; exact .with_ hm

/-- C96. After the server has treated a change with a build that succeeded, a browser that asks for a page gets what the
texts, as they were when the pre-build scripts had run, mean in this project and mode, with the script before its first
`</body>`. -/
theorem C96_shown_partial (c0 c : Context) (s : Host) (streams : List α) (hs : Serving M send c0 c s streams) (rel : Path)
    (hrel : reaction rel = .rebuild) (hl : ∀ r, Leaves M (c0.outPath ++ r)) (hok : (c.build M s).2.2 = .ok ())
    (hout : c0.outPath ≠ []) (hp : FunctionsOnly c0.stuart.plugins) :
    let d := (runScripts M c0.env c0.pre s).1.world.disk
    let base := baseFrame M.sys.vars c0.mode
    let r := onEvent M send (some (c0.dir ++ rel)) c s streams
    ProperDisk d → Tame c0.stuart.config c0.stuart.plugins d c0.dir c0.stuart.dir →
    ∃ name cs ts, Content M.sys c0.stuart.plugins d c0.stuart.dir base name cs ts ∧
      ∀ ds stem b, stem ≠ [] → stem ≠ str!"root" → stem ≠ str!"md" →
      PageMeans M.sys c0.stuart.plugins d c0.stuart.dir base.vars (.dir name cs (pathStr c0.stuart.dir))
        (.dir name ts (pathStr c0.stuart.dir)) ds stem b →
      (look d (c0.stuart.dir ++ ds ++ [stem ++ str!".md"]) = none ∨ look d (c0.stuart.dir ++ ds ++ [stem ++ str!".html"]) = none) →
      PlaceFree c0.stuart.config d c0.dir c0.stuart.dir ds stem →
      ∀ js locate mime uri, locate (dropSlash uri) = some (.file (c0.outPath ++ placeOf c0.stuart.config ds stem)) →
        (serveDir js locate mime r.2.1.world.disk uri).status = 200 ∧
        (serveDir js locate mime r.2.1.world.disk uri).contentType = some (mime str!"html") ∧
        Reloading js b (serveDir js locate mime r.2.1.world.disk uri).body := by
  intro d base r hd ht
  obtain ⟨⟨e1, e2, e3, e4, e5, e6⟩, e7, e8, e9⟩ := C96_settings M send c0 c s streams hs
  have eo : c.outPath = c0.outPath := by unfold Context.outPath; rw [e5, e6]
  have hr : r.2.1 = (c.build M s).2.1 := by
    have := ((C71_event M send c s streams).2.1 rel hrel).2.1
    rw [e5] at this
    exact this
  have main := C95_build_partial M c s (by rw [eo]; exact hl) hok (by rw [eo]; exact hout) (by rw [e3]; exact hp)
  simp only [e1, e2, e3, e4, e5, e7, e9, eo] at main
  obtain ⟨name, cs, ts, k1, k2⟩ := main hd ht
  refine ⟨name, cs, ts, k1, fun ds stem b h1 h2 h3 h4 h5 h6 js locate mime uri hloc => ?_⟩
  rw [hr]
  exact reloading_served js locate mime _ uri c0.outPath c0.stuart.config ds stem h1 b hloc (k2 ds stem b h1 h2 h3 h4 h5 h6)

/-- C96. When something in the content cannot be made, and there are no pre-build scripts, everything a browser can ask
for stays as it was, and no browser is told to reload. -/
theorem C96_stays (c : Context) (s : Host) (streams : List α) (rel : Path) (hpre : c.pre = []) (hd : ProperDisk s.world.disk)
    (hno : ¬ ∃ name cs ts, Content M.sys c.stuart.plugins s.world.disk c.stuart.dir (baseFrame M.sys.vars c.mode) name cs ts ∧
      ∀ ds nm b, look s.world.disk (c.stuart.dir ++ ds ++ [nm]) = some (.file b) → ∃ nm' b', MadeInto M.sys c.stuart.plugins
        s.world.disk c.stuart.dir (baseFrame M.sys.vars c.mode) (.dir name cs (pathStr c.stuart.dir))
        (.dir name ts (pathStr c.stuart.dir)) ds nm nm' b') :
    (∀ js locate mime uri, serveDir js locate mime (onEvent M send (some (c.dir ++ rel)) c s streams).2.1.world.disk uri =
      serveDir js locate mime s.world.disk uri) ∧
    (onEvent M send (some (c.dir ++ rel)) c s streams).2.2.1 = streams := by
  have hno := fun out h => hno ((C93_content M.sys s.world.disk c.mode c.stuart hd).1 ⟨out, h⟩)
  have hb : (c.build M s).2.1 = s ∧ (c.build M s).2.2 ≠ .ok () := by
    rw [Context.build_mid (s1 := s) (by rw [hpre]; rfl)]
    cases h : readBuild M.sys s.world.disk c.mode c.stuart with
    | ok out => exact absurd h (hno out)
    | err e => exact ⟨rfl, nofun⟩
    | panic e => exact ⟨rfl, nofun⟩
  have key : (onEvent M send (some (c.dir ++ rel)) c s streams).2.1 = s ∧
      (onEvent M send (some (c.dir ++ rel)) c s streams).2.2.1 = streams := by
    unfold onEvent
    split
    · exact ⟨rfl, rfl⟩
    · split
      · exact ⟨rfl, rfl⟩
      · exact ⟨rfl, rfl⟩
      · split <;> (rename_i h; rw [h] at hb)
        · exact ⟨hb.1, rfl⟩
        · exact ⟨hb.1, rfl⟩
        · exact absurd rfl hb.2
  rw [key.1]
  exact ⟨fun _ _ _ _ => rfl, key.2⟩

end

section
variable {α : Type} (M : Machine) (send : α → α × Bool) (L : Loader) (cwd : Path) (manifest output : Str) (s0 s1 : Host) (p : Path)
  (raw : RawConfig) (plugins : List Plugin)

/-- After a successful build with the settings with which `stuart dev` starts in a simple project. -/
theorem simple_shown (h : Simple L cwd manifest s0 s1 p raw plugins) (ci : Context)
    (hi : Context.init L cwd manifest output str!"development" s0 = (s1, .ok ci)) (hout : joinPath p.dropLast output ≠ [])
    (c : Context) (s : Host) (hc : SameSettings c ci) (hok : (c.build M s).2.2 = .ok ()) :
    let d := s.world.disk
    let content := p.dropLast ++ [str!"content"]
    let base := baseFrame M.sys.vars str!"development"
    ProperDisk d → Tame raw.toConfig plugins d p.dropLast content →
    ∃ cs ts, Content M.sys plugins d content base str!"content" cs ts ∧
      ∀ ds stem b, stem ≠ [] → stem ≠ str!"root" → stem ≠ str!"md" →
      PageMeans M.sys plugins d content base.vars (.dir str!"content" cs (pathStr content))
        (.dir str!"content" ts (pathStr content)) ds stem b →
      (look d (content ++ ds ++ [stem ++ str!".md"]) = none ∨ look d (content ++ ds ++ [stem ++ str!".html"]) = none) →
      PlaceFree raw.toConfig d p.dropLast content ds stem →
      ∀ js locate mime uri, locate (dropSlash uri) = some (.file (ci.outPath ++ placeOf raw.toConfig ds stem)) →
        (serveDir js locate mime (c.build M s).2.1.world.disk uri).status = 200 ∧
        (serveDir js locate mime (c.build M s).2.1.world.disk uri).contentType = some (mime str!"html") ∧
        Reloading js b (serveDir js locate mime (c.build M s).2.1.world.disk uri).body := by
  intro d content base hd ht
  obtain ⟨c', g1, g2, g3, g4, g5, g6, g7, g8, g9⟩ := simple_start L cwd manifest output s0 h str!"development"
  rw [g1] at hi
  cases hi
  obtain ⟨⟨e1, e2, e3, e4, e5, e6⟩, e7, e8, -⟩ := hc
  have eo : c.outPath = ci.outPath := by unfold Context.outPath; rw [e5, e6]
  obtain ⟨_, out, s3, b1, b2, b3, b4⟩ := Context.build_ok hok
  rw [e7, g8] at b1
  cases b1
  rw [e8, g9] at b4
  have b5 : s3 = (c.build M s).2.1 := by injection b4
  obtain ⟨name, os, src, rfl⟩ := readBuild_dir b2
  obtain ⟨cs, ts, k1, k2⟩ := C95_site_partial M c s s3 name src os ⟨b2, b3⟩ hd (by rw [eo, g7]; exact hout)
    (by rw [e3, g3]; exact h.functions) (by rw [e1, e2, e3, e5, g2, g3, g4, g5]; exact ht)
  simp only [e1, e2, e3, e4, e5, g2, g3, g4, g5, g6, eo] at k1 k2
  have hn := k1.named
  simp only [List.getLast?_concat, Option.some.injEq] at hn
  subst hn
  refine ⟨cs, ts, k1, fun ds stem b h1 h2 h3 h4 h5 h6 js locate mime uri hloc => ?_⟩
  rw [← b5]
  exact reloading_served js locate mime _ uri ci.outPath raw.toConfig ds stem h1 b hloc (k2 ds stem b h1 h2 h3 h4 h5 h6)

/-- C96. `stuart dev` in a simple project: after any time, when the server has treated a change with a build that
succeeded, a browser that asks for a page gets what the texts, as they were then, mean in the mode `development`, with the
script before its first `</body>`. -/
theorem C96_dev_partial (h : Simple L cwd manifest s0 s1 p raw plugins) (s2 : Host) (c0 : Context) (served : Path)
    (hstart : startDev M L cwd manifest output s0 = (s2, .ok (c0, served))) (hroot : look s0.world.disk [] = some .dir)
    (hout : joinPath p.dropLast output ≠ [])
    (c : Context) (s : Host) (streams : List α) (hs : Serving M send c0 c s streams) (rel : Path)
    (hrel : reaction rel = .rebuild) (hok : (c.build M s).2.2 = .ok ()) :
    let d := s.world.disk
    let content := p.dropLast ++ [str!"content"]
    let base := baseFrame M.sys.vars str!"development"
    let r := onEvent M send (some (p.dropLast ++ rel)) c s streams
    ProperDisk d → Tame raw.toConfig plugins d p.dropLast content →
    ∃ cs ts, Content M.sys plugins d content base str!"content" cs ts ∧
      ∀ ds stem b, stem ≠ [] → stem ≠ str!"root" → stem ≠ str!"md" →
      PageMeans M.sys plugins d content base.vars (.dir str!"content" cs (pathStr content))
        (.dir str!"content" ts (pathStr content)) ds stem b →
      (look d (content ++ ds ++ [stem ++ str!".md"]) = none ∨ look d (content ++ ds ++ [stem ++ str!".html"]) = none) →
      PlaceFree raw.toConfig d p.dropLast content ds stem →
      ∀ js locate mime uri, locate (dropSlash uri) = some (.file (served ++ placeOf raw.toConfig ds stem)) →
        (serveDir js locate mime r.2.1.world.disk uri).status = 200 ∧
        (serveDir js locate mime r.2.1.world.disk uri).contentType = some (mime str!"html") ∧
        Reloading js b (serveDir js locate mime r.2.1.world.disk uri).body := by
  intro d content base r
  obtain ⟨t1, ci, h1, h2, rfl, -, hsv⟩ := (C96_start M L cwd manifest output s0 hroot _ _ _).1 hstart
  obtain ⟨c', g1, -, -, g4, -⟩ := simple_start L cwd manifest output s0 h str!"development"
  have g1' := g1
  rw [h1] at g1
  cases g1
  have hc := (C96_settings M send _ c s streams hs).trans (Context.build_settings M ci s1)
  have so : served = ci.outPath := by
    have k := Context.build_settings M ci s1
    rw [hsv]; unfold Context.outPath; rw [k.project.dir, k.project.output]
  have hr : r.2.1 = (c.build M s).2.1 := by
    have := ((C71_event M send c s streams).2.1 rel hrel).2.1
    rw [hc.project.dir, g4] at this
    exact this
  rw [so, hr]
  exact simple_shown M L cwd manifest output s0 s1 p raw plugins h ci h1 hout c s hc hok

/-- C96. And so it is from the start, if the first build has succeeded, of which the server makes nothing known but what it
prints. -/
theorem C96_first_partial (h : Simple L cwd manifest s0 s1 p raw plugins) (s2 : Host) (c0 ci : Context) (served : Path)
    (hstart : startDev M L cwd manifest output s0 = (s2, .ok (c0, served))) (hroot : look s0.world.disk [] = some .dir)
    (hout : joinPath p.dropLast output ≠ [])
    (hi : Context.init L cwd manifest output str!"development" s0 = (s1, .ok ci)) (hok : (ci.build M s1).2.2 = .ok ()) :
    let d := s1.world.disk
    let content := p.dropLast ++ [str!"content"]
    let base := baseFrame M.sys.vars str!"development"
    ProperDisk d → Tame raw.toConfig plugins d p.dropLast content →
    ∃ cs ts, Content M.sys plugins d content base str!"content" cs ts ∧
      ∀ ds stem b, stem ≠ [] → stem ≠ str!"root" → stem ≠ str!"md" →
      PageMeans M.sys plugins d content base.vars (.dir str!"content" cs (pathStr content))
        (.dir str!"content" ts (pathStr content)) ds stem b →
      (look d (content ++ ds ++ [stem ++ str!".md"]) = none ∨ look d (content ++ ds ++ [stem ++ str!".html"]) = none) →
      PlaceFree raw.toConfig d p.dropLast content ds stem →
      ∀ js locate mime uri, locate (dropSlash uri) = some (.file (served ++ placeOf raw.toConfig ds stem)) →
        (serveDir js locate mime s2.world.disk uri).status = 200 ∧
        (serveDir js locate mime s2.world.disk uri).contentType = some (mime str!"html") ∧
        Reloading js b (serveDir js locate mime s2.world.disk uri).body := by
  obtain ⟨t1, ci', h1, h2, rfl, rfl, hsv⟩ := (C96_start M L cwd manifest output s0 hroot _ _ _).1 hstart
  rw [hi] at h1
  cases h1
  have so : served = ci.outPath := by
    have k := Context.build_settings M ci s1
    rw [hsv]; unfold Context.outPath; rw [k.project.dir, k.project.output]
  rw [so]
  exact simple_shown M L cwd manifest output s0 s1 p raw plugins h ci hi hout ci s1 (.refl ci) hok

end

/-! ### Cases -/

/-- A project with one page, with this text in its body. -/
def devDisk (x : Str) : Entry := .dir [(str!"p", .dir [
  (str!"stuart.toml", .file (bytesOf str!"name")),
  (str!"content", .dir [
    (str!"root.html", .file (bytesOf str!"<body>{{ insert(\"b\") }}</body>")),
    (str!"a.html", .file (bytesOf (str!"{{ begin(\"b\") }}" ++ x ++ str!" in {{ $env.STUART_ENV }}{{ end(\"b\") }}")))])])]

def devHost (x : Str) : Host := ⟨⟨devDisk x, []⟩, []⟩

theorem devHost_simple (x : Str) :
    Simple shortLoader [str!"p"] str!"stuart.toml" (devHost x) (devHost x) [str!"p", str!"stuart.toml"]
      ⟨str!"name", none, none, none⟩ [] where
  found := canonicalize_names.1 rfl
  text := ⟨str!"name", rfl, rfl⟩
  loaded := rfl
  functions := nofun
  scripts := rfl

def devRoot : Tpl := .leaf ⟨str!"/p/content/root.html", 1, 1⟩ (.raw str!"<body>") <|
  .leaf ⟨str!"/p/content/root.html", 1, 9⟩ (.func (.insert str!"b")) <| .leaf ⟨str!"/p/content/root.html", 1, 23⟩ (.raw str!"</body>") .nil
def devPage (x : Str) : Tpl := .section_ ⟨str!"/p/content/a.html", 1, 3⟩ ⟨str!"/p/content/a.html", 1, 45⟩ str!"b"
  (.leaf ⟨str!"/p/content/a.html", 1, 16⟩ (.raw (x ++ str!" in ")) <|
    .leaf ⟨str!"/p/content/a.html", 1, 24⟩ (.var str!"env.STUART_ENV") .nil) .nil

theorem devRoot_spelt (x : Str) : FileSpells demoSys [] (devDisk x) [str!"p", str!"content"] [] str!"root.html" devRoot :=
  ⟨_, rfl, (C68_exact _ _ _ _ _).1 rfl, by simp [devRoot, Tpl.WF, Plain]⟩

/-- Its page, whatever the content is read as. -/
theorem dev_page (input tree : Node) :
    PageMeans demoSys [] (devDisk str!"B") [str!"p", str!"content"] (baseFrame [] str!"development").vars input tree [] str!"a"
      (bytesOf str!"<body>B in development</body>") := by
  refine .html (page := devPage str!"B") (root := devRoot)
    (r := ⟨[], bytesOf str!"B in development", [(str!"b", bytesOf str!"B in development")]⟩)
    (r' := ⟨[], bytesOf str!"<body>B in development</body>", []⟩)
    ⟨_, rfl, (C68_exact _ _ _ _ _).1 rfl, by simp [devPage, Tpl.WF, Plain]⟩
    ⟨[], ⟨List.nil_prefix, by nofun, fun q h _ => by rw [List.prefix_nil.1 h]; exact List.prefix_refl _⟩, devRoot_spelt _⟩
    ?_ rfl ?_ rfl
  · exact ⟨fun _ _ _ _ => trivial, fun _ _ => trivial⟩
  · exact fun _ _ _ _ _ _ => trivial

/-- What the server starts with: the first build has succeeded. -/
def devContext : Context :=
  { stuart := { dir := [str!"p", str!"content"], config := { name := str!"name", author := none, stripExtensions := true, saveDataFiles := false, saveMetadata := false } }
    pre := [], post := []
    env := [(str!"STUART_MANIFEST_PATH", str!"/p/stuart.toml"), (str!"STUART_MANIFEST_DIR", str!"/p"), (str!"STUART_TEMP_DIR", str!"/p/temp"),
      (str!"STUART_OUT_DIR", str!"/p/dist"), (str!"STUART_ENV", str!"development")]
    mode := str!"development", dir := [str!"p"], output := str!"dist" }

theorem devContext_init (x : Str) : Context.init shortLoader [str!"p"] str!"stuart.toml" str!"dist" str!"development" (devHost x) =
    (devHost x, .ok devContext) := rfl

def devStarted : Context := (devContext.build idleMachine (devHost str!"A")).1

theorem dev_start : startDev idleMachine shortLoader [str!"p"] str!"stuart.toml" str!"dist" (devHost str!"A") =
    ((devContext.build idleMachine (devHost str!"A")).2.1, .ok (devStarted, [str!"p", str!"dist"])) :=
  (C96_start idleMachine shortLoader _ _ _ _ rfl _ _ _).2
    ⟨_, _, devContext_init _, (by
      have : (devContext.build idleMachine (devHost str!"A")).2.2 = .ok () := by decide +kernel
      rw [this]; nofun), rfl, rfl, by
      have k := (Context.build_settings idleMachine devContext (devHost str!"A")).project
      unfold devStarted Context.outPath; rw [k.dir, k.output]; rfl⟩

/-- The page is changed, and the server is told: the browser is shown the new page, with the script. -/
example (js : Bytes) (locate : Str → Option Located) (mime : Str → Str)
    (hl : locate str!"a/" = some (.file [str!"p", str!"dist", str!"a", str!"index.html"])) :
    let s' := (onEvent idleMachine (fun n : Nat => (n, true)) (some ([str!"p", str!"stuart.toml"].dropLast ++ [str!"content", str!"a.html"]))
      devStarted (devHost str!"B") [1]).2.1
    Reloading js (bytesOf str!"<body>B in development</body>") (serveDir js locate mime s'.world.disk str!"/a/").body := by
  have hok : (devStarted.build idleMachine (devHost str!"B")).2.2 = .ok () := by decide +kernel
  have key := C96_dev_partial idleMachine (fun n : Nat => (n, true)) shortLoader [str!"p"] str!"stuart.toml" str!"dist" (devHost str!"A")
    _ _ _ _ (devHost_simple _) _ _ _ dev_start rfl (by decide) devStarted (devHost str!"B") [1]
    (.meanwhile (s := devHost str!"A") (streams := []) _ _ (.start _ _)) [str!"content", str!"a.html"]
    (by decide) hok (by unfold devHost devDisk; proper_disk) (tame_names (by decide +kernel) (by decide +kernel))
  revert key
  generalize (onEvent _ _ _ _ _ _).2.1 = s'
  rintro ⟨cs, ts, _, k⟩
  exact (k [] str!"a" _ (by decide) (by decide) (by decide) (dev_page _ _) (.inl rfl) ⟨by decide, by decide, rfl, by simp; exact ⟨rfl, rfl⟩⟩
    js locate mime str!"/a/" hl).2.2

end Stuart
