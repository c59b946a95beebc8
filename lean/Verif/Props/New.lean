import Verif.Proof.NewSite
import Verif.Props.Cli
/-
Properties C72 to C74: creating a site.
-/
namespace Stuart
open Spec

variable (G : GitTool) (png : Bytes) (cwd : Path) (name : Str)

/-! ### C72 -/

/-- C72. Where there is nothing yet, `stuart new` without Git makes the new site, with a manifest that gives its name and
author, and nothing else. -/
theorem C72_created (d : Entry) (hn : PlainName name) (h1 : look d cwd = some .dir) (h2 : look d (cwd ++ [name]) = none) :
    (cmdNew G png cwd name true ⟨d, []⟩).2 = .ok () ∧
    (∀ r, look (cmdNew G png cwd name true ⟨d, []⟩).1.disk (cwd ++ [name] ++ r) =
      look (newSite (bytesOf (manifestText name (authorOf G))) png) r) ∧
    ∀ q, ¬ (cwd ++ [name]) <+: q → look (cmdNew G png cwd name true ⟨d, []⟩).1.disk q = look d q := by
  obtain ⟨d', hr, _, he, _, _, ho⟩ := cmdNew_run G png hn h1 h2 true (fun h => by cases h)
  rw [hr]
  refine ⟨rfl, fun r => ?_, ho⟩
  rw [he rfl]
  exact look_put_inside (by simp) r (by rw [List.dropLast_concat]; exact h1)

/-- C72. With Git it makes the same, and besides the list of files Git shall ignore; what Git itself makes is below `.git`. -/
theorem C72_git (d : Entry) (hn : PlainName name) (h1 : look d cwd = some .dir) (h2 : look d (cwd ++ [name]) = none)
    (hg : GitKeeps G (cwd ++ [name])) :
    (cmdNew G png cwd name false ⟨d, []⟩).2 = .ok () ∧
    look (cmdNew G png cwd name false ⟨d, []⟩).1.disk (cwd ++ [name]) = some .dir ∧
    (∀ x r, x ≠ str!".git" → x ≠ str!".gitignore" →
      look (cmdNew G png cwd name false ⟨d, []⟩).1.disk (cwd ++ [name] ++ x :: r) =
        look (newSite (bytesOf (manifestText name (authorOf G))) png) (x :: r)) ∧
    (∀ r, look (cmdNew G png cwd name false ⟨d, []⟩).1.disk (cwd ++ [name] ++ str!".gitignore" :: r) =
      look (.file (bytesOf str!"dist/\n_build/\nmetadata.json\n")) r) ∧
    ∀ q, ¬ (cwd ++ [name]) <+: q → look (cmdNew G png cwd name false ⟨d, []⟩).1.disk q = look d q := by
  obtain ⟨d', hr, hx, _, hi, hd, ho⟩ := cmdNew_run G png hn h1 h2 false (fun _ => hg)
  rw [hr]
  exact ⟨rfl, hd, fun x r k1 k2 => by rw [look, hx x r k1 k2]; rfl, hi rfl, ho⟩

/-- C72. Where there is something already, or no directory to put the site in, it fails and changes nothing. -/
theorem C72_refused (noGit : Bool) (d : Entry) (hn : PlainName name)
    (h : look d (cwd ++ [name]) ≠ none ∨ look d cwd ≠ some .dir) :
    cmdNew G png cwd name noGit ⟨d, []⟩ = (⟨d, []⟩, .err (.core (.fs .write))) := by
  have hs : World.step ⟨d, []⟩ (.mkdir (cwd ++ [name])) = (⟨d, []⟩, false) := by
    simp only [World.step, Op.apply, List.dropLast_concat]
    cases ha : d.at (cwd ++ [name]) with
    | some e => rfl
    | none =>
      rcases h with h | h
      · exact absurd (at_none_iff.1 ha) h
      · have : d.isDirAt cwd = false := by
          cases hb : d.isDirAt cwd with
          | true => exact absurd (isDirAt_iff.1 hb) h
          | false => rfl
        rw [this]; rfl
  unfold cmdNew
  rw [joinPath_plain hn]
  simp only
  rw [newOps_under, runOps, hs]
  rfl

/-- C72. Whatever goes wrong on the way, only the directory of the new site is ever changed. -/
theorem C72_frame (noGit : Bool) (w : World) (hn : PlainName name) (hg : noGit = false → GitStays G (cwd ++ [name]))
    (q : Path) (hq : ¬ (cwd ++ [name]) <+: q) : look (cmdNew G png cwd name noGit w).1.disk q = look w.disk q := by
  unfold cmdNew
  rw [joinPath_plain hn, joinPath_dot hn]
  simp only
  have h1 : look (runOps (newOps G png (cwd ++ [name]) name) w).1.disk q = look w.disk q :=
    runOps_outside fun o ho hk => hq ((newOps_target G png _ name o ho).trans hk)
  generalize runOps (newOps G png (cwd ++ [name]) name) w = r at h1
  obtain ⟨w1, r⟩ := r
  cases r with
  | err e => exact h1
  | panic e => exact h1
  | ok u =>
    simp only
    cases noGit with
    | true => exact h1
    | false =>
      simp only [Bool.false_eq_true, if_false]
      rw [runOps_outside]
      · exact (hg rfl w1.disk q hq).trans h1
      · intro o ho hk
        rw [List.mem_singleton.1 ho] at hk
        exact hq ((List.prefix_append _ _).trans hk)

/-- Git that makes its directory, with the directories above if need be. -/
def makingGit : GitTool where
  userName := some str!"Ada"
  userEmail := some str!"ada@example.com"
  init p d := (createDirAll [] (p ++ [str!".git"]) ⟨d, []⟩).1.disk

/-- C72 fails for absolute paths: in `/w`, `stuart new /s` makes the site in `/s`, as it should, but the repository in
`/w/s`, outside the new site. -/
theorem C72_absolute :
    let d := Entry.dir [(str!"w", .dir [])]
    let w := cmdNew makingGit [] [str!"w"] str!"/s" false ⟨d, []⟩
    w.2 = .ok () ∧ look w.1.disk [str!"s", str!"stuart.toml"] ≠ none ∧ look w.1.disk [str!"s", str!".git"] = none ∧
      look d [str!"w", str!"s"] = none ∧ look w.1.disk [str!"w", str!"s", str!".git"] = some .dir :=
  ⟨rfl, by decide, rfl, rfl, rfl⟩

/-! ### C73 -/

/-- C73. The manifest gives the name and the author exactly if neither has a quote, a backslash or a control character. -/
theorem C73_exact (author : Option Str) :
    ManifestOf (manifestText name author) name author ↔ Ordinary name ∧ ∀ a, author = some a → Ordinary a :=
  manifest_iff name author

/-- C73, for the manifest that is written. What is missing to give every name: `stuart new` does not escape. -/
theorem C73_manifest_partial (d : Entry) (hn : PlainName name) (h1 : look d cwd = some .dir)
    (h2 : look d (cwd ++ [name]) = none) (ho : Ordinary name) (ha : ∀ a, authorOf G = some a → Ordinary a) :
    ∃ text, look (cmdNew G png cwd name true ⟨d, []⟩).1.disk (cwd ++ [name, str!"stuart.toml"]) = some (.file (bytesOf text)) ∧
      ManifestOf text name (authorOf G) := by
  refine ⟨manifestText name (authorOf G), ?_, (C73_exact name (authorOf G)).2 ⟨ho, ha⟩⟩
  have := (C72_created G png cwd name d hn h1 h2).2.1 [str!"stuart.toml"]
  rw [List.append_assoc] at this
  exact this

/-- C73 fails: a site whose name has a quote gets a manifest that does not give that name. -/
theorem C73_quote : PlainName str!"a\"b" ∧ ¬ ManifestOf (newManifest ⟨none, none, fun _ d => d⟩ str!"a\"b") str!"a\"b" none := by
  refine ⟨by unfold PlainName; decide, ?_⟩
  rw [newManifest_eq]
  intro h
  exact (((C73_exact _ none).1 h).1 '"' (by decide)).1 rfl

/-- C73 fails: a name can even bring its own author. -/
theorem C73_injected : PlainName str!"x\"\nauthor = \"y" ∧
    ManifestOf (newManifest ⟨none, none, fun _ d => d⟩ str!"x\"\nauthor = \"y") str!"x" (some str!"y") :=
  ⟨by unfold PlainName; decide,
    .author (a := str!"x") (b := str!"y") (.plain (by unfold TomlPlain; decide) .nil) (.plain (by unfold TomlPlain; decide) .nil)⟩

/-! ### C74 -/

/-- C74. A new site builds: with any reader of manifests that reads those that give a name and an author, `stuart new` and
then `stuart build` in the new directory succeed, and `dist` has the page, the style and the picture, and nothing else;
nothing else is changed, and no script is run. -/
theorem C74_builds (M : Machine) (O : Outside) (parse : Str → Except TomlErr RawConfig) (noGit : Bool) (d : Entry)
    (hn : PlainName name) (h1 : look d cwd = some .dir) (h2 : look d (cwd ++ [name]) = none)
    (hg : noGit = false → GitKeeps G (cwd ++ [name])) (ho : Ordinary name) (ha : ∀ a, authorOf G = some a → Ordinary a)
    (hp : ∀ t n a, ManifestOf t n a → parse t = .ok ⟨n, a, none, none⟩) :
    ∃ d', cmdNew G png cwd name noGit ⟨d, []⟩ = (⟨d', []⟩, .ok ()) ∧
      ∃ d'', cmdBuild M (O.loader parse) (cwd ++ [name]) str!"stuart.toml" str!"dist" ⟨⟨d', []⟩, []⟩ = (⟨⟨d'', []⟩, []⟩, .ok ()) ∧
        (∀ r, look d'' (cwd ++ [name, str!"dist"] ++ r) = look (newOutput png) r) ∧
        ∀ q, ¬ (cwd ++ [name, str!"dist"]) <+: q → look d'' q = look d' q := by
  obtain ⟨d', hr, hx, _, _, hd, _⟩ := cmdNew_run G png hn h1 h2 noGit hg
  refine ⟨d', hr, ?_⟩
  have hm := hx str!"stuart.toml" [] (by decide) (by decide)
  have hc := hx str!"content" [] (by decide) (by decide)
  have hs := hx str!"static" [] (by decide) (by decide)
  have ht := hx str!"temp" [] (by decide) (by decide)
  have hi := hx str!"dist" [] (by decide) (by decide)
  have hk := hx str!"scripts" [] (by decide) (by decide)
  generalize hpath : cwd ++ [name] = p at *
  have hparse := hp _ _ _ ((C73_exact name (authorOf G)).2 ⟨ho, ha⟩)
  have hscr : ∀ ns, findScripts ns d' (p ++ [str!"scripts"]) = [] := by
    intro ns
    unfold findScripts
    rw [hk]; rfl
  have hinit : Context.init (O.loader parse) p str!"stuart.toml" str!"dist" str!"production" ⟨⟨d', []⟩, []⟩ =
      (⟨⟨d', []⟩, []⟩, .ok {
        stuart := { dir := p ++ [str!"content"], config := (RawConfig.mk name (authorOf G) none none).toConfig }
        pre := [], post := []
        env := [(str!"STUART_MANIFEST_PATH", pathStr (p ++ [str!"stuart.toml"])), (str!"STUART_MANIFEST_DIR", dirStr p),
                (str!"STUART_TEMP_DIR", pathStr (p ++ [str!"temp"])), (str!"STUART_OUT_DIR", joinStr p str!"dist"),
                (str!"STUART_ENV", str!"production")]
        mode := str!"production", dir := p, output := str!"dist" }) := by
    have hj : canonicalize d' p str!"stuart.toml" = some (p ++ [str!"stuart.toml"]) := by
      have hat : look d' (p ++ [str!"stuart.toml"]) ≠ none := by rw [look, hm]; nofun
      exact canonicalize_there (by decide) (look_above (r := [str!"stuart.toml"]) (by simp) hat) hat
    have hm' : (newSite (bytesOf (manifestText name (authorOf G))) png).at [str!"stuart.toml"] =
        some (.file (bytesOf (manifestText name (authorOf G)))) := rfl
    have hl : (O.loader parse).loadPlugins none p ⟨⟨d', []⟩, []⟩ = (⟨⟨d', []⟩, []⟩, .ok []) := rfl
    have hp' : (O.loader parse).parseToml (manifestText name (authorOf G)) = .ok ⟨name, authorOf G, none, none⟩ := hparse
    unfold Context.init
    simp only [hj, hm, hm', fromUtf8_bytesOf, hp', List.dropLast_concat, hl, hscr]
  have hb := new_build M (p := p) (disk := d') (runs := []) (png := png)
    (c := {
        stuart := { dir := p ++ [str!"content"], config := (RawConfig.mk name (authorOf G) none none).toConfig }
        pre := [], post := []
        env := [(str!"STUART_MANIFEST_PATH", pathStr (p ++ [str!"stuart.toml"])), (str!"STUART_MANIFEST_DIR", dirStr p),
                (str!"STUART_TEMP_DIR", pathStr (p ++ [str!"temp"])), (str!"STUART_OUT_DIR", joinStr p str!"dist"),
                (str!"STUART_ENV", str!"production")]
        mode := str!"production", dir := p, output := str!"dist" }) rfl rfl ⟨rfl, rfl⟩ rfl rfl hc hs ht hi
  have hpd : cwd ++ [name, str!"dist"] = p ++ [str!"dist"] := by rw [← hpath]; simp
  refine ⟨d'.put (p ++ [str!"dist"]) (some (newOutput png)), ?_, fun r => ?_, fun q hq => ?_⟩
  · unfold cmdBuild
    rw [hinit]
    simp only [hb]
  · rw [hpd]
    exact look_put_inside (by simp) r (by rw [List.dropLast_concat]; exact hd)
  · rw [hpd] at hq
    exact look_put_outside hq

/-! ### Cases -/

/-- A disk with a directory `/w` and a file in it. -/
def workDisk : Entry := .dir [(str!"w", .dir [(str!"old", .file [1])])]

/-- Git that makes its directory in the given one. -/
def plainGit : GitTool where
  userName := some str!"Ada"
  userEmail := some str!"ada@example.com"
  init p d := d.put (p ++ [str!".git"]) (some (.dir [(str!"HEAD", .file [])]))

theorem plainGit_keeps (p : Path) : GitKeeps plainGit p := by
  intro d hd
  refine ⟨fun q h1 h2 => at_put_apart ⟨h1, fun h => ?_⟩, fun q hq => ?_⟩
  · rcases List.prefix_concat_iff.1 h with rfl | h
    · exact h1 List.prefix_rfl
    · exact h2 h
  · have hl : look (plainGit.init p d) q = look d q :=
      look_put_outside fun h => by have := h.length_le; have := hq.length_le; simp at *; omega
    rw [hl]
    obtain ⟨t, rfl⟩ := hq
    by_cases ht : t = []
    · subst ht; rw [List.append_nil] at hd; exact hd
    · exact look_above ht (by rw [hd]; nofun)

theorem plainGit_stays (p : Path) : GitStays plainGit p := fun _ _ hq =>
  look_put_outside fun h => hq ((List.prefix_append _ _).trans h)

theorem mysite_plain : PlainName str!"my site" := by unfold PlainName; decide

theorem mysite_ordinary : Ordinary str!"my site" := by unfold Ordinary TomlPlain; decide

theorem ada_ordinary : ∀ a, authorOf plainGit = some a → Ordinary a := by
  intro a h
  cases h
  unfold Ordinary TomlPlain
  decide

open Classical in
/-- A reader of manifests. -/
noncomputable def readManifest (t : Str) : Except TomlErr RawConfig :=
  if h : ∃ x : Str × Option Str, ManifestOf t x.1 x.2 then .ok ⟨h.choose.1, h.choose.2, none, none⟩
  else .error ⟨none, []⟩

theorem readManifest_reads (t n : Str) (a : Option Str) (h : ManifestOf t n a) : readManifest t = .ok ⟨n, a, none, none⟩ := by
  have hx : ∃ x : Str × Option Str, ManifestOf t x.1 x.2 := ⟨(n, a), h⟩
  obtain ⟨e1, e2⟩ := manifestOf_unique hx.choose_spec h
  unfold readManifest
  rw [dif_pos hx, e1, e2]

example := C72_created plainGit [7] [str!"w"] str!"my site" workDisk mysite_plain rfl rfl
example := C72_git plainGit [7] [str!"w"] str!"my site" workDisk mysite_plain rfl rfl (plainGit_keeps _)
example := C72_refused plainGit [7] [str!"w"] str!"old" false workDisk (by unfold PlainName; decide) (.inl (by decide))
example := C72_refused plainGit [7] [str!"v"] str!"new" false workDisk (by unfold PlainName; decide) (.inr (by decide))
/-- The disk is full after the first directories. -/
example := C72_frame plainGit [7] [str!"w"] str!"my site" false ⟨workDisk, [none, none, some (some (.dir []))]⟩ mysite_plain
  (fun _ => plainGit_stays _) [str!"w", str!"old"] (by decide)
example := C73_exact str!"my site" (some str!"Ada <ada@example.com>")
example := C73_manifest_partial plainGit [7] [str!"w"] str!"my site" workDisk mysite_plain rfl rfl mysite_ordinary ada_ordinary
example (O : Outside) := C74_builds plainGit [7] [str!"w"] str!"my site" idleMachine O readManifest false workDisk mysite_plain rfl rfl
  (fun _ => plainGit_keeps _) mysite_ordinary ada_ordinary readManifest_reads

end Stuart
