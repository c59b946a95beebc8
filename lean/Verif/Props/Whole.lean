import Verif.Proof.Content
import Verif.Props.Rebuild
/-
Property C83: what is in the output directory after a build, in terms of the files of the project.
-/
namespace Stuart
open Spec

section
variable {M : Machine} {c : Context}

theorem append_html {stem : Str} : stem ++ str!".html" ≠ str!"index.html" ↔ stem ≠ str!"index" := by
  constructor
  · rintro h rfl; exact h rfl
  · intro h k; exact h (List.append_cancel_right (bs := str!".html") k)

/-- The names in a built tree are plain. -/
theorem built_plain {S : Sys} {plugins : List Plugin} {cfg : Config} {d : Entry} {dir p : Path} {base : Frame}
    {input tree : Node} {os : List Node} (hd : ProperDisk d) (ht : Tame cfg plugins d dir p)
    (hdirs : ∀ ds nm, Shows os ds nm .dir ↔ look d (p ++ ds ++ [nm]) = some .dir)
    (hnone : ∀ ds nm b c m src, Holds os ds (.file nm b c m src) → c = .none)
    (hfiles : ∀ ds nm' b', (∃ m src, Holds os ds (.file nm' b' .none m src)) ↔ ∃ nm b c c',
        look d (p ++ ds ++ [nm]) = some (.file b) ∧ ReadAs S plugins nm (pathStr (p ++ ds ++ [nm])) b c ∧
        Converted S.ext ⟨input, S.dateFmt⟩ base c c' ∧ Made S plugins d p ⟨tree, S.dateFmt⟩ base ds nm b c' nm' b') :
    PlainNames cfg os := by
  intro ds n h
  have own : ∀ {nm}, look d (p ++ ds ++ [nm]) ≠ none → PlainName nm ∧ (cfg.stripExtensions = true → nm ≠ str!"...html") := by
    intro nm hl
    exact ⟨plain_of_look hd hl, fun hs k => hl (k ▸ (ht.content hs ds).1)⟩
  cases n with
  | dir x l src => exact own (nm := x) (by rw [(hdirs ds x).1 ⟨_, h, rfl, rfl⟩]; nofun)
  | file nm' b' c m src =>
    cases hnone _ _ _ _ _ _ h
    obtain ⟨nm, b, c, c', h1, h2, h3, h4⟩ := (hfiles ds nm' b').1 ⟨_, _, h⟩
    have hown := own (nm := nm) (by rw [h1]; nofun)
    cases h4 with
    | template => exact hown
    | page => exact hown
    | data => exact hown
    | other => exact hown
    | @custom k root md out _ _ _ _ hk =>
      simp only [Node.name]
      cases hn : out.newName with
      | none => exact hown
      | some n =>
        cases h3 with
        | same =>
          cases h2 with
          | custom _ _ _ _ hf hq =>
            obtain ⟨ps, pl, ps', qs, qs', rfl, e2, _⟩ := hf
            exact ht.renamed pl (by simp) _ (by rw [e2]; simp) _ _ _ _ _ _ n hq hk hn
    | @markdown md v stem toks root f g gs secs secs' hnm =>
      subst hnm
      obtain ⟨⟨_, _, _, hsl⟩, _⟩ := hown
      refine ⟨⟨by simp [Node.name], ?_, ?_, ?_⟩, fun hs k => ?_⟩
      · intro k; have := congrArg List.length k; simp [Node.name] at this
      · intro k; have := congrArg List.length k; simp [Node.name] at this
      · simpa [Node.name] using fun k => hsl (by simp [k])
      · have : stem = str!".." := List.append_cancel_right (bs := str!".html") k
        subst this
        have := (ht.content hs ds).2
        rw [show str!"...md" = str!".." ++ str!".md" from rfl, h1] at this
        cases this

section
variable {S : Sys} {plugins : List Plugin} {cfg : Config} {d : Entry} {dir p : Path} {base : Frame} {input tree : Node}
  {os ms : List Node}
  (hdirs : ∀ ds nm, Shows os ds nm .dir ↔ look d (p ++ ds ++ [nm]) = some .dir)
  (hnone : ∀ ds nm b c m src, Holds os ds (.file nm b c m src) → c = .none)
  (hfiles : ∀ ds nm' b', (∃ m src, Holds os ds (.file nm' b' .none m src)) ↔ ∃ nm b c c',
      look d (p ++ ds ++ [nm]) = some (.file b) ∧ ReadAs S plugins nm (pathStr (p ++ ds ++ [nm])) b c ∧
      Converted S.ext ⟨input, S.dateFmt⟩ base c c' ∧ Made S plugins d p ⟨tree, S.dateFmt⟩ base ds nm b c' nm' b')
  (k2 : ∀ ds nm t, Shows ms ds nm t ↔ Shows os ds nm t ∨ ∃ n ∈ [str!"static", str!"temp"], InDir d (dir ++ [n]) ds nm t)
include hnone hfiles k2

/-- What goes into the output directory when static and temporary files have been merged in. -/
theorem goes_belongs (r : Path) (b : Bytes) :
    Goes cfg ms r b ↔ Belongs S plugins cfg d dir p base input tree r b := by
  constructor
  · intro hg
    cases hg with
    | @plain ds nm _ pr m src l1 l2 l3 =>
      rcases (k2 _ _ _).1 (Shows_file.2 l1) with k | ⟨n, hw, k⟩
      · have hh := Shows_file.1 k
        cases hnone _ _ _ _ _ _ hh
        obtain ⟨a1, a2, a3, a4, a5, a6, a7, a8⟩ := (hfiles ds nm b).1 ⟨_, _, hh⟩
        refine .made ⟨a1, a2, a3, a4, a5, a6, a7, a8, l2⟩ fun hs => ?_
        by_cases hi : nm = str!"index.html"
        · exact .inl hi
        · exact .inr fun ⟨stem, e⟩ => l3 stem ⟨hs, e.symm, hi, nofun⟩
      · exact .copied hw k.1 l2
    | @page ds nm stem _ pr m src l1 l2 l3 =>
      rcases (k2 _ _ _).1 (Shows_file.2 l1) with k | ⟨n, hw, k⟩
      · have hh := Shows_file.1 k
        cases hnone _ _ _ _ _ _ hh
        obtain ⟨a1, a2, a3, a4, a5, a6, a7, a8⟩ := (hfiles ds nm b).1 ⟨_, _, hh⟩
        obtain ⟨b1, rfl, b3, _⟩ := l3
        exact .stripped ⟨a1, a2, a3, a4, a5, a6, a7, a8, l2⟩ b1 (append_html.1 b3)
      · exact absurd k.2.1 l3.2.2.2
  · intro hb
    cases hb with
    | made hy hs =>
      obtain ⟨a1, a2, a3, a4, a5, a6, a7, a8, l2⟩ := hy
      obtain ⟨m, src, hh⟩ := (hfiles _ _ _).2 ⟨a1, a2, a3, a4, a5, a6, a7, a8⟩
      refine .plain (Shows_file.1 ((k2 _ _ _).2 (.inl (Shows_file.2 hh)))) l2 ?_
      rintro stem ⟨b1, rfl, b3, _⟩
      rcases hs b1 with k | k
      · exact b3 k
      · exact k ⟨stem, rfl⟩
    | stripped hy hs hi =>
      obtain ⟨a1, a2, a3, a4, a5, a6, a7, a8, l2⟩ := hy
      obtain ⟨m, src, hh⟩ := (hfiles _ _ _).2 ⟨a1, a2, a3, a4, a5, a6, a7, a8⟩
      exact .page (Shows_file.1 ((k2 _ _ _).2 (.inl (Shows_file.2 hh)))) l2 ⟨hs, rfl, append_html.2 hi, nofun⟩
    | copied hw hl l2 =>
      exact .plain (Shows_file.1 ((k2 _ _ _).2 (.inr ⟨_, hw, hl, rfl, rfl, rfl⟩))) l2 fun stem h => h.2.2.2 rfl

include hdirs in
theorem goesDir_belongs (r : Path) :
    r = [] ∨ GoesDir cfg ms r ↔ BelongsDir S plugins cfg d dir p base input tree r := by
  have asDir : ∀ {ds x}, Shows ms ds x .dir ↔ look d (p ++ ds ++ [x]) = some .dir ∨
      ∃ n ∈ [str!"static", str!"temp"], look d (dir ++ [n] ++ ds ++ [x]) = some .dir := by
    intro ds x
    rw [k2, hdirs]; rfl
  constructor
  · rintro (rfl | hg)
    · exact .top
    cases hg with
    | @dir ds x l src hh =>
      rcases asDir.1 ⟨_, hh, rfl, rfl⟩ with k | ⟨n, hw, k⟩
      · exact .content (by simp) (by rw [← List.append_assoc]; exact k)
      · exact .copied hw (by simp) (by rw [← List.append_assoc]; exact k)
    | @page ds nm stem b pr m src l1 l2 l3 =>
      rcases (k2 _ _ _).1 (Shows_file.2 l1) with k | ⟨n, hw, k⟩
      · have hh := Shows_file.1 k
        cases hnone _ _ _ _ _ _ hh
        obtain ⟨a1, a2, a3, a4, a5, a6, a7, a8⟩ := (hfiles ds nm b).1 ⟨_, _, hh⟩
        obtain ⟨b1, rfl, b3, _⟩ := l3
        exact .stripped ⟨a1, a2, a3, a4, a5, a6, a7, a8, l2⟩ b1 (append_html.1 b3)
      · exact absurd k.2.1 l3.2.2.2
  · have up : ∀ {ds x}, Shows ms ds x .dir → GoesDir cfg ms (ds ++ [x]) := by
      rintro ds x ⟨n, i1, rfl, i3⟩
      cases n with
      | file => cases i3
      | dir => exact .dir i1
    intro hb
    cases hb with
    | top => exact .inl rfl
    | content hne hl =>
      rcases List.eq_nil_or_concat r with rfl | ⟨ds, x, rfl⟩
      · exact absurd rfl hne
      rw [List.concat_eq_append] at *
      exact .inr (up (asDir.2 (.inl (by rw [List.append_assoc]; exact hl))))
    | copied hw hne hl =>
      rcases List.eq_nil_or_concat r with rfl | ⟨ds, x, rfl⟩
      · exact absurd rfl hne
      rw [List.concat_eq_append] at *
      exact .inr (up (asDir.2 (.inr ⟨_, hw, by rw [List.append_assoc (dir ++ _)]; exact hl⟩)))
    | stripped hy hs hi =>
      obtain ⟨a1, a2, a3, a4, a5, a6, a7, a8, l2⟩ := hy
      obtain ⟨m, src, hh⟩ := (hfiles _ _ _).2 ⟨a1, a2, a3, a4, a5, a6, a7, a8⟩
      exact .inr (.page (Shows_file.1 ((k2 _ _ _).2 (.inl (Shows_file.2 hh)))) l2 ⟨hs, rfl, append_html.2 hi, nofun⟩)

end

/-- C83. What is in the output directory when the site is published: the files that belong there in terms of the
project's content, static and temporary directories, the directories that belong there, and nothing else. `cs` is the
content as read, in the order of the directory listings, `ts` the same with its markdown converted. -/
theorem C83_site_partial (s1 s2 : Host) (name src : Str) (os : List Node) (h : Publishes M c s1 s2 name src os)
    (hd : ProperDisk s1.world.disk) (hout : c.outPath ≠ [])
    (ht : Tame c.stuart.config c.stuart.plugins s1.world.disk c.dir c.stuart.dir) :
    ∃ cs ts, Content M.sys c.stuart.plugins s1.world.disk c.stuart.dir (baseFrame M.sys.vars c.mode) name cs ts ∧
      ∀ r, (c.stuart.config.saveMetadata = true → c.outPath ++ r ≠ c.dir ++ [str!"metadata.json"]) →
        let belongs := Belongs M.sys c.stuart.plugins c.stuart.config s1.world.disk c.dir c.stuart.dir
          (baseFrame M.sys.vars c.mode) (.dir name cs (pathStr c.stuart.dir)) (.dir name ts (pathStr c.stuart.dir))
        let belongsDir := BelongsDir M.sys c.stuart.plugins c.stuart.config s1.world.disk c.dir c.stuart.dir
          (baseFrame M.sys.vars c.mode) (.dir name cs (pathStr c.stuart.dir)) (.dir name ts (pathStr c.stuart.dir))
        (∀ b, look s2.world.disk (c.outPath ++ r) = some (.file b) → belongs r b) ∧
        (∀ b, belongs r b → ∃ b', look s2.world.disk (c.outPath ++ r) = some (.file b')) ∧
        (look s2.world.disk (c.outPath ++ r) = some .dir → belongsDir r) ∧
        (belongsDir r → look s2.world.disk (c.outPath ++ r) ≠ none) ∧
        look s2.world.disk (c.outPath ++ r) ≠ some .special := by
  obtain ⟨nm0, cs, ts, os', he, hrt, hr, hu, hdirs, hnone, hfiles⟩ := built_tree hd h.content
  cases he
  refine ⟨cs, ts, (content_iff rfl).2 hrt, fun r hmeta => ?_⟩
  intro belongs belongsDir
  have hn := built_plain hd ht hdirs hnone hfiles
  obtain ⟨p, nm', ms, src', w, h1, h2, h3, h4, h5⟩ := h.steps
  obtain ⟨ms', k1, k2⟩ := mergeDirs_shows hd (Context.built_output h.content).1 (by rw [h1])
  rw [h1, h2] at k1
  cases k1
  have hpl := merged_plain hd k2 hn ht.copied
  have hlook : look s2.world.disk (c.outPath ++ r) = look w.disk (c.outPath ++ r) := by
    rw [exportMeta_look (c := c.built M s1.world.disk) h2 h5, if_neg]
    rintro ⟨g1, g2⟩
    rw [h3] at g1
    exact hmeta g1 g2
  obtain ⟨g1, g2, g3, g4, g5⟩ := C40_saved_partial c.stuart.config c.outPath name (pathStr c.stuart.dir) ms _ hout hpl
    (by rw [h4]) r
  rw [h4] at g1 g2 g3 g4 g5
  simp only at g1 g2 g3 g4 g5
  have hgo := goes_belongs (cfg := c.stuart.config) hnone hfiles k2
  have hgd := goesDir_belongs (cfg := c.stuart.config) hdirs hnone hfiles k2 r
  rw [hlook]
  exact ⟨fun b hb => (hgo r b).1 (g1 b hb), fun b hb => g2 b ((hgo r b).2 hb), fun k => hgd.1 (g3 k), fun k => g4 (hgd.2 k), g5⟩

end

variable (M : Machine) (c : Context) (s : Host)

/-- C83. For whole builds, if the scripts leave the output directory alone: the files found belong there, and where no
two files belong in one place, they are exactly those that belong there in terms of the project's files as the pre-build scripts have left
them. Not covered: names that lead out of the output directory (see C41), and the metadata if it is asked for and its
place is in the output directory. -/
theorem C83_build_partial (hl : ∀ r, Leaves M (c.outPath ++ r)) (h : (c.build M s).2.2 = .ok ()) (hout : c.outPath ≠ []) :
    let d := (runScripts M c.env c.pre s).1.world.disk
    ProperDisk d → Tame c.stuart.config c.stuart.plugins d c.dir c.stuart.dir →
    ∃ name cs ts, Content M.sys c.stuart.plugins d c.stuart.dir (baseFrame M.sys.vars c.mode) name cs ts ∧
      ∀ r, (c.stuart.config.saveMetadata = true → c.outPath ++ r ≠ c.dir ++ [str!"metadata.json"]) →
        let belongs := Belongs M.sys c.stuart.plugins c.stuart.config d c.dir c.stuart.dir
          (baseFrame M.sys.vars c.mode) (.dir name cs (pathStr c.stuart.dir)) (.dir name ts (pathStr c.stuart.dir))
        (∀ b, look (c.build M s).2.1.world.disk (c.outPath ++ r) = some (.file b) → belongs r b) ∧
        ((∀ b b', belongs r b → belongs r b' → b = b') →
          ∀ b, look (c.build M s).2.1.world.disk (c.outPath ++ r) = some (.file b) ↔ belongs r b) := by
  intro d hd ht
  obtain ⟨s1, out, s2, h1, h2, h3, h4⟩ := Context.build_ok h
  obtain ⟨name, os, src, rfl⟩ := readBuild_dir h2
  have hs1 : (runScripts M c.env c.pre s).1 = s1 := by rw [h1]
  subst hs1
  obtain ⟨cs, ts, k1, k3⟩ := C83_site_partial _ s2 name src os ⟨h2, h3⟩ hd hout ht
  refine ⟨name, cs, ts, k1, fun r hm => ?_⟩
  obtain ⟨g1, g2, _⟩ := k3 r hm
  have hlook := runScripts_leaves (env := c.env) (ps := c.post) (s := s2) (hl r)
  rw [h4] at hlook
  rw [hlook]
  refine ⟨g1, fun hone b => ?_⟩
  constructor
  · exact g1 b
  · intro hb
    obtain ⟨b', hb'⟩ := g2 b hb
    rw [hb', hone b b' hb (g1 b' hb')]

/-! ### A case -/

/-- A project with two root templates, a page under each, a markdown page, and a static file. -/
def wholeDisk : Entry := .dir [(str!"p", .dir [
  (str!"content", .dir [
    (str!"root.html", .file (bytesOf str!"<{{ insert(\"b\") }}>")),
    (str!"a.html", .file (bytesOf str!"{{ begin(\"b\") }}A{{ end(\"b\") }}")),
    (str!"d", .dir [
      (str!"root.html", .file (bytesOf str!"[{{ insert(\"b\") }}]")),
      (str!"md.html", .file (bytesOf str!"{{ begin(\"b\") }}{{ $self.title }}{{ end(\"b\") }}")),
      (str!"c.md", .file (bytesOf str!"---\ntitle: \"T\"\n---\nbody"))]),
    (str!"x.txt", .file [1])]),
  (str!"static", .dir [(str!"s.css", .file [2])])])]

theorem wholeDisk_proper : ProperDisk wholeDisk := by unfold wholeDisk; proper_disk

theorem wholeDisk_tame : Tame .default [] wholeDisk [str!"p"] [str!"p", str!"content"] where
  content _ ds := by
    have h1 : Lacks str!"...html" wholeDisk := by unfold wholeDisk; lacks_name
    have h2 : Lacks str!"...md" wholeDisk := by unfold wholeDisk; lacks_name
    exact ⟨h1 (_ ++ ds), h2 (_ ++ ds)⟩
  copied _ which _ ds := by
    have h1 : Lacks str!"...html" wholeDisk := by unfold wholeDisk; lacks_name
    exact h1 (_ ++ ds)
  renamed := nofun

/-- The build succeeds, and its output is that of the nearest templates. -/
theorem whole_built :
    (demoContext.build idleMachine ⟨⟨wholeDisk, []⟩, []⟩).2.2 = .ok () ∧
    let d := (demoContext.build idleMachine ⟨⟨wholeDisk, []⟩, []⟩).2.1.world.disk
    look d [str!"p", str!"dist", str!"a", str!"index.html"] = some (.file (bytesOf str!"<A>")) ∧
    look d [str!"p", str!"dist", str!"d", str!"c", str!"index.html"] = some (.file (bytesOf str!"[T]")) ∧
    look d [str!"p", str!"dist", str!"x.txt"] = some (.file [1]) ∧ look d [str!"p", str!"dist", str!"s.css"] = some (.file [2]) ∧
    look d [str!"p", str!"dist", str!"root.html"] = none := by
  decide +kernel

/-- The theorem applies to it: the page that is found is one that belongs. -/
example : ∃ name cs ts, Belongs demoSys [] .default wholeDisk [str!"p"] [str!"p", str!"content"]
    (baseFrame [] str!"production") (.dir name cs str!"/p/content") (.dir name ts str!"/p/content")
    [str!"d", str!"c", str!"index.html"] (bytesOf str!"[T]") := by
  obtain ⟨name, cs, ts, _, k⟩ := C83_build_partial idleMachine demoContext ⟨⟨wholeDisk, []⟩, []⟩ (fun _ _ _ _ _ => rfl)
    whole_built.1 (by decide) wholeDisk_proper wholeDisk_tame
  exact ⟨name, cs, ts, (k [str!"d", str!"c", str!"index.html"] (by nofun)).1 _ whole_built.2.2.1⟩

end Stuart
