import Verif.Proof.Meta
import Verif.Proof.Project
import Verif.Props.Merge
import Verif.Props.Save
import Verif.Props.Read
/-
Properties C43, C48, C49: static files, metadata, and operations before a build.
-/
namespace Stuart
open Spec

/-! ### C43 -/

theorem Shows_file {cs : List Node} {ds : List Str} {nm : Str} {b : Bytes} {p : Parsed} {m : Option Value} {src : Str} :
    Shows cs ds nm (.file b p m src) ↔ Holds cs ds (.file nm b p m src) := by
  constructor
  · rintro ⟨n, h, h1, h2⟩
    cases n with
    | dir => cases h2
    | file name b' p' m' src' =>
      simp only [thing, Thing.file.injEq] at h2
      obtain ⟨rfl, rfl, rfl, rfl⟩ := h2
      cases h1; exact h
  · intro h; exact ⟨_, h, rfl, rfl⟩

/-- C43. Static files are read, merged into the built site and saved: a static file then is at its own path with its own
bytes, provided its name is published and no page of the site goes to the same place. Static files are never renamed,
not even pages. Missing from the claim: files named `root.html` and `md.html`, and `.json` files unless data files are
saved, are dropped, and pages can overwrite static files (the counterexamples). -/
theorem C43_verbatim_partial (S : Sys) (disk : Entry) (hd : ProperDisk disk) (sp : Path) (static : Node)
    (hs : readTree S false [] disk sp = .ok static)
    (cfg : Config) (name src : Str) (cs ms : List Node)
    (hm : mergeNode (.dir name cs src) static = (.dir name ms src, .ok ()))
    (path : Path) (w : World) (hp : path ≠ []) (hn : PlainNames cfg ms)
    (hw : (saveNode cfg path (.dir name ms src) w).2 = .ok ())
    (ds : List Str) (nm : Str) (b : Bytes) (hb : look disk (sp ++ ds ++ [nm]) = some (.file b))
    (hpub : Published cfg nm) (hfree : ∀ b', Goes cfg cs (ds ++ [nm]) b' → b' = b) :
    look (saveNode cfg path (.dir name ms src) w).1.disk (path ++ ds ++ [nm]) = some (.file b) := by
  obtain ⟨sn, os, rfl, _, hdist, _, hfile⟩ := C62_mirror S [] disk sp false hd static hs
  obtain ⟨ms', h1, hu⟩ := C38_union name src sn (pathStr sp) cs os (by rw [hm])
  rw [hm] at h1
  cases h1
  have hst : ∀ {ds nm b p m src}, Holds os ds (.file nm b p m src) → p = .ignored := by
    intro ds nm b p m src h
    rcases ((hfile ds nm b p m src).1 (Shows_file.2 h)).2.2.2 with h | h
    · cases h.1
    · exact h.2
  have hmem : Holds ms ds (.file nm b .ignored none (pathStr (sp ++ ds ++ [nm]))) :=
    Shows_file.1 ((hu _ _ _).2 (.inr ((hfile _ _ _ _ _ _).2 ⟨hb, rfl, rfl, .inr ⟨rfl, rfl⟩⟩)))
  obtain ⟨g1, g2, _⟩ := C40_saved_partial cfg path name src ms w hp hn hw (ds ++ [nm])
  obtain ⟨b', hb'⟩ := g2 b (.plain hmem hpub fun stem h => h.2.2.2 rfl)
  rw [List.append_assoc, hb']
  have hg := g1 b' hb'
  suffices b' = b by rw [this]
  generalize hr : ds ++ [nm] = r at hg
  cases hg with
  | plain k1 k2 k3 =>
    obtain ⟨rfl, h⟩ := List.append_inj' hr rfl
    simp only [List.cons.injEq, and_true] at h
    subst h
    rcases (hu _ _ _).1 (Shows_file.2 k1) with k | k
    · exact hfree _ (.plain (Shows_file.1 k) k2 k3)
    · have := ((hfile _ _ _ _ _ _).1 k).1
      rw [hb] at this; cases this; rfl
  | page k1 k2 k3 =>
    rcases (hu _ _ _).1 (Shows_file.2 k1) with k | k
    · exact hfree _ (hr ▸ .page (Shows_file.1 k) k2 k3)
    · exact absurd (hst (Shows_file.1 k)) k3.2.2.2

/-- C43. Static templates and data files are dropped without an error. -/
theorem C43_counterexample_dropped :
    let disk := Entry.dir [(str!"static", .dir [(str!"data.json", .file [1]), (str!"root.html", .file [2])])]
    ∃ static, readTree demoSys false [] disk [str!"static"] = .ok static ∧
      ∃ ms, mergeNode (.dir str!"content" [] []) static = (.dir str!"content" ms [], .ok ()) ∧
      let r := saveNode .default [str!"dist"] (.dir str!"content" ms []) ⟨disk, []⟩
      r.2 = .ok () ∧ look r.1.disk [str!"dist"] = some .dir ∧
      look r.1.disk [str!"dist", str!"data.json"] = none ∧ look r.1.disk [str!"dist", str!"root.html"] = none :=
  ⟨_, rfl, _, rfl, rfl, rfl, rfl, rfl⟩

/-- C43. The page `about.html` and the static file `about/index.html`: only the static file is saved, without an error;
and the other way round when the site has a directory `about` after the page. -/
theorem C43_counterexample_overwritten :
    let disk := Entry.dir [(str!"static", .dir [(str!"about", .dir [(str!"index.html", .file [1])])])]
    ∃ static, readTree demoSys false [] disk [str!"static"] = .ok static ∧
      ∃ ms, mergeNode (.dir str!"content" [.dir str!"about" [] [], .file str!"about.html" [2] .none none []] []) static =
        (.dir str!"content" ms [], .ok ()) ∧
      let r := saveNode .default [str!"dist"] (.dir str!"content" ms []) ⟨disk, []⟩
      r.2 = .ok () ∧ look r.1.disk [str!"dist", str!"about", str!"index.html"] = some (.file [2]) :=
  ⟨_, rfl, _, rfl, rfl, rfl⟩

/-- A static style sheet and a static page, which keeps its name, beside a built page. -/
example :
    let disk := Entry.dir [(str!"static", .dir [(str!"a.css", .file [1]), (str!"b.html", .file [3])])]
    ∃ static, readTree demoSys false [] disk [str!"static"] = .ok static ∧
      ∃ ms, mergeNode (.dir str!"content" [.file str!"about.html" [2] .none none []] []) static =
        (.dir str!"content" ms [], .ok ()) ∧
      let r := saveNode .default [str!"dist"] (.dir str!"content" ms []) ⟨disk, []⟩
      r.2 = .ok () ∧ look r.1.disk [str!"dist", str!"a.css"] = some (.file [1]) ∧
      look r.1.disk [str!"dist", str!"b.html"] = some (.file [3]) ∧
      look r.1.disk [str!"dist", str!"about", str!"index.html"] = some (.file [2]) :=
  ⟨_, rfl, _, rfl, rfl, rfl, rfl, rfl⟩

/-! ### C48 -/

/-- C48. The metadata of a tree: a list with one entry for each child of the root, and so on for the directories; the
entry of each node, at the node's position, says what it should. -/
theorem C48_mirror (name src : Str) (cs : List Node) (v : Value) (h : metaRoot (.dir name cs src) = .ok v) :
    (∃ vs, v = .arr vs ∧ vs.length = cs.length) ∧
    ∀ i is n, nodeAt (.dir name cs src) (i :: is) = some n → ∃ e, entryAt v (i :: is) = some e ∧ Describes n e := by
  rw [metaRoot] at h
  obtain ⟨vs, h1, h2⟩ := Res.bind_eq_ok.1 h
  cases h2
  refine ⟨⟨vs, rfl, (metaNodes_ok h1).1⟩, ?_⟩
  intro i is n hn
  rw [nodeAt] at hn
  cases hc : cs[i]? with
  | none => rw [hc] at hn; cases hn
  | some c =>
    rw [hc] at hn
    obtain ⟨e, he, hm⟩ := (metaNodes_ok h1).2 i c hc
    obtain ⟨e', he', hm'⟩ := metaNode_at is hm hn
    refine ⟨e', ?_, metaNode_describes hm'⟩
    rw [entryAt]
    show (vs[i]?).bind _ = _
    rw [he]; exact he'

/-- C48. The metadata come out whenever no file has metadata that are not an object. -/
theorem C48_exported (name src : Str) (cs : List Node)
    (h : ∀ pos nm b p x s, nodeAt (.dir name cs src) pos = some (.file nm b p (some x) s) → ∃ l, x = .obj l) :
    ∃ v, metaRoot (.dir name cs src) = .ok v := by
  have : ∃ v, metaNode (.dir name cs src) = .ok v := by
    cases hm : metaNode (.dir name cs src) with
    | ok v => exact ⟨v, rfl⟩
    | err e => exact absurd hm metaNode_no_err
    | panic p =>
      obtain ⟨_, pos, nm, b, q, x, s, h1, h2⟩ := metaNode_panic hm
      obtain ⟨l, rfl⟩ := h _ _ _ _ _ _ h1
      cases h2
  obtain ⟨v, hv⟩ := this
  rw [metaNode] at hv
  obtain ⟨vs, h1, _⟩ := Res.bind_eq_ok.1 hv
  exact ⟨_, by rw [metaRoot, h1]; rfl⟩

/-- C48. What a content file's metadata are in the built tree: for markdown its frontmatter, for JSON its value, what the
plugin says for files handled by one, otherwise nothing; and nothing at all unless metadata are enabled. -/
theorem C48_values (ext : Ext) (df : Str → Str → Option Str) (cfg : Config) (vars : List (Str × Str)) (mode : Str)
    (input out : Node) (h : buildTree ext df cfg vars mode input = .ok out) (pos : List Nat)
    (name : Str) (b : Bytes) (p : Parsed) (m : Option Value) (src : Str)
    (hn : nodeAt input pos = some (.file name b p m src)) :
    ∃ name' b' m', nodeAt out pos = some (.file name' b' .none m' src) ∧
      (cfg.saveMetadata = false → m' = none) ∧
      (cfg.saveMetadata = true →
        (∀ md, p = .markdown md → m' = some (.obj [(str!"type", .str str!"markdown"),
          (str!"value", .obj (md.frontmatter.map fun e => (e.1, .str e.2)))])) ∧
        (∀ v, p = .json v → m' = some (.obj [(str!"type", .str str!"json"), (str!"value", v)])) ∧
        (∀ c, p = .custom c → m' = some c.toJson) ∧
        ((∃ toks, p = .html toks) ∨ p = .none ∨ p = .ignored → m' = none)) := by
  obtain ⟨mid, h1, h2⟩ := buildTree_ok h
  have h3 := preNode_at pos h1
  have h4 := buildNode_at pos h2
  simp only [hn] at h3
  obtain ⟨p', hp', h3⟩ := h3
  simp only [h3] at h4
  obtain ⟨o, ho, h4⟩ := h4
  unfold processFile at ho
  obtain ⟨po, _, ho⟩ := Res.bind_eq_ok.1 ho
  cases ho
  refine ⟨_, _, _, h4, ?_, ?_⟩
  · intro hc; simp only [hc, Bool.false_eq_true, if_false]
  · intro hc
    simp only [hc, if_true]
    cases p with
    | markdown md =>
      rw [preFile] at hp'
      obtain ⟨md', k1, k2⟩ := Res.bind_eq_ok.1 hp'
      cases k2
      have hf : md'.frontmatter = md.frontmatter := by
        rw [Res.mapErr_eq_ok] at k1
        unfold preprocessMd at k1
        obtain ⟨st, _, k1⟩ := Res.bind_eq_ok.1 k1
        split at k1
        · cases k1
        · split at k1
          · split at k1
            · cases k1
            · cases k1; rfl
          · cases k1
      refine ⟨?_, nofun, nofun, ?_⟩
      · intro md0 h0
        cases h0
        rw [← hf]; rfl
      · rintro (⟨_, k⟩ | k | k) <;> cases k
    | json v =>
      cases hp'
      refine ⟨nofun, ?_, nofun, ?_⟩
      · intro v' h0; cases h0; rfl
      · rintro (⟨_, k⟩ | k | k) <;> cases k
    | custom c =>
      cases hp'
      refine ⟨nofun, nofun, ?_, ?_⟩
      · intro v' h0; cases h0; rfl
      · rintro (⟨_, k⟩ | k | k) <;> cases k
    | html t => cases hp'; exact ⟨nofun, nofun, nofun, fun _ => rfl⟩
    | none => cases hp'; exact ⟨nofun, nofun, nofun, fun _ => rfl⟩
    | ignored => cases hp'; exact ⟨nofun, nofun, nofun, fun _ => rfl⟩

/-- C48. What is written: the site's name and author and, under `data`, the metadata of the tree. -/
theorem C48_written (S : Sys) (path : Path) (s : Project) (w : World) (hp : path ≠ [])
    (h : (s.saveMetadata S path w).2 = .ok ()) :
    ∃ out v, s.output = some out ∧ metaRoot out = .ok v ∧
      look (s.saveMetadata S path w).1.disk path = some (.file (bytesOf (S.serialize
        (.obj [(str!"name", .str s.config.name), (str!"author", (s.config.author.map Value.str).getD .null),
          (str!"data", v)])))) ∧
      ∀ q, q ≠ path → look (s.saveMetadata S path w).1.disk q = look w.disk q := by
  unfold Project.saveMetadata at h ⊢
  split at h
  · cases h
  · rename_i hc
    rw [if_neg hc]
    cases ho : s.output with
    | none => simp only [ho] at h; cases h
    | some out =>
      simp only [ho] at h ⊢
      unfold saveMetaNode at h ⊢
      cases hm : metaRoot out with
      | err e => simp only [hm] at h; cases h
      | panic e => simp only [hm] at h; cases h
      | ok v =>
        simp only [hm] at h ⊢
        obtain ⟨k1, k2⟩ := runOps_cons_ok h
        have k3 := fun q => (adds_step (o := .write path _) hp (World.step_ok k1) q).1
        rw [k2]
        simp only [Op.seen] at k3
        refine ⟨out, v, rfl, hm, ?_, ?_⟩
        · have := k3 path
          rw [if_pos rfl] at this
          exact this
        · intro q hq
          have := k3 q
          rw [if_neg hq] at this
          exact this

/-- The metadata of a small site. -/
example : metaRoot (.dir str!"content" [.dir str!"d" [.file str!"a.html" [] .none
      (some (.obj [(str!"type", .str str!"markdown"), (str!"value", .obj [(str!"title", .str str!"T")])])) []] [],
      .file str!"b.html" [] .none none []] []) =
    .ok (.arr [.obj [(str!"type", .str str!"directory"), (str!"name", .str str!"d"), (str!"children", .arr
      [.obj [(str!"name", .str str!"a.html"), (str!"type", .str str!"markdown"),
        (str!"value", .obj [(str!"title", .str str!"T")])]])],
      .obj [(str!"name", .str str!"b.html"), (str!"type", .str str!"file")]]) := rfl

/-- A plugin whose metadata are not an object makes the export panic. -/
theorem C48_plugin_panic :
    metaRoot (.dir str!"content" [.file str!"a.x" [] .none (some (.str str!"meta")) []] []) = .panic .metadataNotObject := rfl

/-! ### C49 -/

/-- C49. Before a successful build, saving and merging and exporting metadata fail with their error, and neither the disk
nor the builder changes; exporting metadata fails with its own error at any time unless it is enabled. -/
theorem C49_not_built (S : Sys) (s : Project) (hs : s.output = none) (path : Path) (w : World) (n : Node) :
    s.save path w = (w, .err .notBuilt) ∧
    s.mergeOutput n = (s, .err .notBuilt) ∧
    (s.config.saveMetadata = true → s.saveMetadata S path w = (w, .err .notBuilt)) := by
  refine ⟨by rw [Project.save, hs], by rw [Project.mergeOutput, hs], ?_⟩
  intro h
  simp only [Project.saveMetadata, h, hs, Bool.not_true, Bool.false_eq_true, if_false]

/-- C49. Metadata that are not enabled. -/
theorem C49_not_enabled (S : Sys) (s : Project) (hs : s.config.saveMetadata = false) (path : Path) (w : World) :
    s.saveMetadata S path w = (w, .err .metadataNotEnabled) := by
  simp only [Project.saveMetadata, hs, Bool.not_false, if_true]

/-- C49. A build that fails does not make an output: a builder that had none has none, and one that had one keeps it. -/
theorem C49_failed_build (S : Sys) (disk : Entry) (mode : Str) (s : Project) (h : (s.build S disk mode).2 ≠ .ok ()) :
    (s.build S disk mode).1.output = s.output := by
  obtain ⟨h1, h2, _⟩ := Project.build_result S disk mode s
  rw [h1] at h
  rw [h2]
  cases hr : readBuild S disk mode s with
  | ok out => rw [hr] at h; exact absurd rfl h
  | err e => rfl
  | panic e => rfl

example : (Project.build demoSys readDisk str!"production" { dir := [str!"c"] }).2 =
    .err (.process ⟨str!"/c/a.html", 0, 0, .missingHtmlRoot⟩) := rfl

/-! ### Cases: each theorem applied to something that meets its hypotheses -/

/-- Static files: one of them a page. -/
def staticDisk : Entry := .dir [(str!"s", .dir [(str!"b.html", .file [2]), (str!"css", .dir [(str!"c.css", .file [3])])])]

example := C43_verbatim_partial demoSys staticDisk (by unfold staticDisk; proper_disk) [str!"s"] _ rfl .default [] [] onePage _ rfl
  caseDist ⟨demoDisk, []⟩ (by decide) (by plain_names) rfl [str!"css"] str!"c.css" [3] rfl
  ⟨by decide, by decide, .inr (by decide)⟩ (fun b' h => absurd (goes_one h).1 (by decide))

example := C48_mirror str!"content" [] [.dir str!"d" [.file str!"a" [] .none none []] []] _ rfl

example := C48_exported [] [] [.file str!"f" [] .none (some (.obj [(str!"k", .null)])) []] (by
  intro pos nm b p x s h
  rcases pos with _ | ⟨i, _ | ⟨j, pos⟩⟩
  · cases h
  · rcases i with _ | i
    · cases h; exact ⟨_, rfl⟩
    · simp [nodeAt] at h
  · rcases i with _ | i <;> simp [nodeAt] at h)

example := C48_values demoExt (fun _ _ => none) { Config.default with saveMetadata := true } [] str!"production" demoSite _ rfl [4, 0]
  _ _ _ _ _ rfl

example := C48_written demoSys [str!"p", str!"m"]
  { dir := [], output := some (.dir [] onePage []), config := { Config.default with saveMetadata := true } } ⟨demoDisk, []⟩
  (by decide) rfl

example := C49_not_built demoSys { dir := [] } rfl [str!"p"] ⟨demoDisk, []⟩ (.dir [] [] [])

example := C49_not_enabled demoSys { dir := [], output := some (.dir [] onePage []) } rfl [str!"p"] ⟨demoDisk, []⟩

example := C49_failed_build demoSys readDisk str!"production" { dir := [str!"c"], output := some (.dir [] onePage []) }
  (by intro h; cases h)

end Stuart
