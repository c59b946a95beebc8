import Verif.Props.Succeeds
import Verif.Props.Start
import Verif.Spec.Command
/-
Property C94: `stuart build` from beginning to end.
-/
namespace Stuart
open Spec

section
variable (M : Machine) (L : Loader) (cwd : Path) (manifest output : Str) (s : Host)

theorem simple_start {s1 : Host} {p : Path} {raw : RawConfig} {plugins : List Plugin} (h : Simple L cwd manifest s s1 p raw plugins)
    (mode : Str) : ∃ c, Context.init L cwd manifest output mode s = (s1, .ok c) ∧ c.stuart.config = raw.toConfig ∧
      c.stuart.plugins = plugins ∧ c.dir = p.dropLast ∧ c.stuart.dir = p.dropLast ++ [str!"content"] ∧
      c.mode = mode ∧ c.outPath = joinPath p.dropLast output ∧ c.pre = [] ∧ c.post = [] := by
  obtain ⟨t, h1, h2⟩ := h.text
  simp only [Context.init, canonicalize_names.2 h.found, at_file h1, fromUtf8_bytesOf, h2, h.loaded]
  refine ⟨_, rfl, rfl, rfl, rfl, rfl, rfl, rfl, ?_, ?_⟩
  · simp only [findScripts, at_none_iff.2 h.scripts]
  · simp only [findScripts, at_none_iff.2 h.scripts]

variable (s1 : Host) (p : Path) (raw : RawConfig) (plugins : List Plugin)

/-- C94. `stuart build` for a project without scripts and without plugins for types of files, if nothing mishaps: it succeeds exactly when the
content can be read, its markdown converted, something made of every file, and the site published; and then every file
in the output directory belongs there, and there is one wherever one belongs. -/
theorem C94_build_partial (h : Simple L cwd manifest s s1 p raw plugins) (hcalm : s1.world.Calm) (hd : ProperDisk s1.world.disk)
    (hout : ¬ p.dropLast ++ [str!"temp"] <+: joinPath p.dropLast output)
    (hmeta : raw.toConfig.saveMetadata = true → ¬ joinPath p.dropLast output <+: p.dropLast ++ [str!"metadata.json"])
    (ht : Tame raw.toConfig plugins s1.world.disk p.dropLast (p.dropLast ++ [str!"content"])) :
    let d := s1.world.disk
    let content := p.dropLast ++ [str!"content"]
    let base := baseFrame M.sys.vars str!"production"
    let out := joinPath p.dropLast output
    let r := cmdBuild M L cwd manifest output s
    (∀ ds stem, look d (content ++ ds ++ [stem ++ str!".md"]) = none ∨ look d (content ++ ds ++ [stem ++ str!".html"]) = none) →
    (∀ which ∈ [str!"content", str!"static", str!"temp"], ∀ ds,
      look d (p.dropLast ++ [which] ++ ds ++ [str!"index.html"]) ≠ some .dir) →
    (r.2 = .ok () ↔ ∃ cs ts, Content M.sys plugins d content base str!"content" cs ts ∧
      (∀ ds nm b, look d (content ++ ds ++ [nm]) = some (.file b) →
        ∃ nm' b', MadeInto M.sys plugins d content base (.dir str!"content" cs (pathStr content))
          (.dir str!"content" ts (pathStr content)) ds nm nm' b') ∧
      Publishable M.sys plugins d p.dropLast content base (.dir str!"content" cs (pathStr content))
        (.dir str!"content" ts (pathStr content)) raw.toConfig out) ∧
    (r.2 = .ok () → ∀ cs ts, Content M.sys plugins d content base str!"content" cs ts → ∀ q,
      (∀ b, look r.1.world.disk (out ++ q) = some (.file b) →
        Belongs M.sys plugins raw.toConfig d p.dropLast content base (.dir str!"content" cs (pathStr content))
          (.dir str!"content" ts (pathStr content)) q b) ∧
      (∀ b, Belongs M.sys plugins raw.toConfig d p.dropLast content base (.dir str!"content" cs (pathStr content))
          (.dir str!"content" ts (pathStr content)) q b →
        ∃ b', look r.1.world.disk (out ++ q) = some (.file b'))) := by
  intro d content base out r hm hi
  obtain ⟨c, h1, h2, h3, h4, h5, h6, h7, h8, h9⟩ := simple_start L cwd manifest output s h str!"production"
  have hr : r = ((c.build M s1).2.1, (c.build M s1).2.2) := by
    simp only [r, cmdBuild, h1]
  have hpre : runScripts M c.env c.pre s1 = (s1, .ok ()) := by rw [h8]; rfl
  have hpost : ∀ s', runScripts M c.env c.post s' = (s', .ok ()) := by intro s'; rw [h9]; rfl
  have hname : ∀ {name cs ts}, Content M.sys plugins d content base name cs ts → name = str!"content" := by
    intro name cs ts hc
    have := hc.named
    simp only [content, List.getLast?_concat, Option.some.injEq] at this
    exact this.symm
  have main := C93_build_partial M c s1 (fun s' => by rw [hpost]) (by rw [h4, h7]; exact hout)
    (by rw [h2, h4, h7]; exact hmeta)
  simp only [hpre, h2, h3, h4, h5, h6, h7, true_and] at main
  have hb := main hcalm hd ht fun name cs ts _ => C93_apart M.sys plugins h.functions d p.dropLast content base _ _ hm (hi _ (by simp))
    (fun which hw ds => hi which (by simp at hw ⊢; exact .inr hw) ds)
  have first : r.2 = .ok () ↔ ∃ cs ts, Content M.sys plugins d content base str!"content" cs ts ∧
      (∀ ds nm b, look d (content ++ ds ++ [nm]) = some (.file b) →
        ∃ nm' b', MadeInto M.sys plugins d content base (.dir str!"content" cs (pathStr content))
          (.dir str!"content" ts (pathStr content)) ds nm nm' b') ∧
      Publishable M.sys plugins d p.dropLast content base (.dir str!"content" cs (pathStr content))
        (.dir str!"content" ts (pathStr content)) raw.toConfig out := by
    rw [hr]
    refine hb.trans ?_
    constructor
    · rintro ⟨name, cs, ts, k1, k2, k3⟩
      cases hname k1
      exact ⟨cs, ts, k1, k2, k3⟩
    · rintro ⟨cs, ts, k⟩
      exact ⟨_, cs, ts, k⟩
  refine ⟨first, fun hok cs ts k1 q => ?_⟩
  obtain ⟨_, _, _, _, k3⟩ := first.1 hok
  rw [hr] at hok ⊢
  obtain ⟨s1', o, s2, e1, e2, e3, e4⟩ := Context.build_ok hok
  rw [hpre] at e1
  cases e1
  obtain ⟨name, os, src, rfl⟩ := readBuild_dir e2
  have site := C83_site_partial s1 s2 name src os ⟨e2, e3⟩ hd (by rw [h7]; exact k3.proper) (by rw [h2, h3, h4, h5]; exact ht)
  simp only [h2, h3, h4, h5, h6, h7] at site
  obtain ⟨cs', ts', j1, j2⟩ := site
  cases hname j1
  obtain ⟨_, rfl, rfl⟩ := C93_one_content _ _ _ _ _ rfl _ _ _ _ _ _ k1 j1
  rw [hpost] at e4
  have e5 : s2 = (c.build M s1).2.1 := by injection e4
  rw [← e5]
  obtain ⟨g1, g2, _⟩ := j2 q fun hs k => hmeta hs ⟨q, k⟩
  exact ⟨g1, g2⟩

end

/-- With the loader of the program, a project without dependencies has no plugins. -/
theorem loader_none (O : Outside) (parseToml : Str → Except TomlErr RawConfig) (dir : Path) (s : Host) :
    (O.loader parseToml).loadPlugins none dir s = (s, .ok []) := rfl

/-! ### Cases -/

/-- The project of C83 with a manifest, and these static files. -/
def cmdDisk (static : List (Str × Entry)) : Entry := .dir [(str!"p", .dir [
  (str!"stuart.toml", .file (bytesOf str!"name")),
  (str!"content", .dir [
    (str!"root.html", .file (bytesOf str!"<{{ insert(\"b\") }}>")),
    (str!"a.html", .file (bytesOf str!"{{ begin(\"b\") }}A{{ end(\"b\") }}")),
    (str!"x.txt", .file [1])]),
  (str!"static", .dir static)])]

def cmdHost (static : List (Str × Entry)) : Host := ⟨⟨cmdDisk static, []⟩, []⟩

theorem cmdHost_simple (static : List (Str × Entry)) :
    Simple shortLoader [str!"p"] str!"stuart.toml" (cmdHost static) (cmdHost static) [str!"p", str!"stuart.toml"]
      ⟨str!"name", none, none, none⟩ [] where
  found := canonicalize_names.1 rfl
  text := ⟨str!"name", rfl, rfl⟩
  loaded := rfl
  functions := nofun
  scripts := rfl

/-- No markdown pages, and nothing called `index.html`. -/
theorem no_md {d : Entry} (h : ∀ n ∈ entryNames d, n.drop (n.length - 3) ≠ str!".md") (q : Path) (stem : Str) :
    look d (q ++ [stem ++ str!".md"]) = none := by
  refine Classical.byContradiction fun k => h _ (entryNames_look k) (by simp)

theorem no_name {d : Entry} {n : Str} (h : n ∉ entryNames d) (q : Path) : look d (q ++ [n]) = none :=
  Classical.byContradiction fun k => h (entryNames_look k)

theorem tame_names {d : Entry} {dir p : Path} {cfg : Config} (h1 : str!"...html" ∉ entryNames d) (h2 : str!"...md" ∉ entryNames d) :
    Tame cfg [] d dir p where
  content _ _ := ⟨no_name h1 _, no_name h2 _⟩
  copied _ _ _ _ := no_name h1 _
  renamed := nofun

/-- With a style sheet among the static files the build succeeds, so all that the theorem asks for holds, and the page is
where it belongs. -/
example : ∃ cs ts, Publishable demoSys [] (cmdDisk [(str!"s.css", .file [2])]) [str!"p"] [str!"p", str!"content"]
      (baseFrame [] str!"production") (.dir str!"content" cs str!"/p/content") (.dir str!"content" ts str!"/p/content")
      (RawConfig.toConfig ⟨str!"name", none, none, none⟩) [str!"p", str!"dist"] ∧
    Belongs demoSys [] (RawConfig.toConfig ⟨str!"name", none, none, none⟩) (cmdDisk [(str!"s.css", .file [2])]) [str!"p"] [str!"p", str!"content"]
      (baseFrame [] str!"production") (.dir str!"content" cs str!"/p/content") (.dir str!"content" ts str!"/p/content")
      [str!"a", str!"index.html"] (bytesOf str!"<A>") := by
  have hn : ∀ n ∈ entryNames (cmdDisk [(str!"s.css", .file [2])]), n.drop (n.length - 3) ≠ str!".md" := by decide
  have hb : (cmdBuild idleMachine shortLoader [str!"p"] str!"stuart.toml" str!"dist" (cmdHost [(str!"s.css", .file [2])])).2 = .ok () ∧
      look (cmdBuild idleMachine shortLoader [str!"p"] str!"stuart.toml" str!"dist" (cmdHost [(str!"s.css", .file [2])])).1.world.disk
        [str!"p", str!"dist", str!"a", str!"index.html"] = some (.file (bytesOf str!"<A>")) := by decide +kernel
  have all := C94_build_partial idleMachine shortLoader [str!"p"] str!"stuart.toml" str!"dist" _ _ _ _ _
    (cmdHost_simple [(str!"s.css", .file [2])]) nofun (by unfold cmdHost cmdDisk; proper_disk) (by decide) nofun
    (tame_names (by decide) (by decide)) (fun ds stem => .inl (no_md hn _ _))
    (fun which _ ds => by rw [no_name (d := (cmdHost [(str!"s.css", .file [2])]).world.disk) (by decide)]; nofun)
  obtain ⟨cs, ts, h1, _, h3⟩ := all.1.1 hb.1
  exact ⟨cs, ts, h3, (all.2 hb.1 cs ts h1 [str!"a", str!"index.html"]).1 _ hb.2⟩

/-- With a static file where the content has one, it does not: neither of the two files may win. -/
example : (cmdBuild idleMachine shortLoader [str!"p"] str!"stuart.toml" str!"dist" (cmdHost [(str!"x.txt", .file [2])])).2 ≠ .ok () := by
  intro h
  have hn : ∀ n ∈ entryNames (cmdDisk [(str!"x.txt", .file [2])]), n.drop (n.length - 3) ≠ str!".md" := by decide
  obtain ⟨cs, ts, _, h2, h3⟩ := (C94_build_partial idleMachine shortLoader [str!"p"] str!"stuart.toml" str!"dist" _ _ _ _ _
    (cmdHost_simple _) nofun (by unfold cmdHost cmdDisk; proper_disk) (by decide) nofun
    (tame_names (by decide) (by decide)) (fun ds stem => .inl (no_md hn _ _))
    (fun which _ ds => by rw [no_name (d := (cmdHost [(str!"x.txt", .file [2])]).world.disk) (by decide)]; nofun)).1.1 h
  obtain ⟨nm', b', k⟩ := h2 [] str!"x.txt" [1] rfl
  have hk : nm' = str!"x.txt" := by
    rcases (made_name (plugins := []) nofun k).2 with ⟨_, k⟩ | ⟨stem, k, _⟩
    · exact k.symm
    · exact absurd (congrArg (fun n => n.drop (n.length - 3)) k) (by simp)
  subst hk
  exact absurd (h3.contentStatic [] str!"x.txt" false false (.page k) (.copy (b := [2]) rfl)).1 (by decide)

end Stuart
