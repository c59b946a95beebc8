import Verif.Proof.Fetch
import Verif.Props.Plugins
/-
Properties C69 and C70, and more on C65: plugins from Git repositories and from the network.
-/
namespace Stuart
open Spec

/-! ### C65 -/

theorem isProject_iff {O : Outside} {d : Entry} {p : Path} {name : Str} :
    projectName O d (p ++ [str!"Cargo.toml"]) = some name ↔ IsProject O d p name := by
  unfold projectName IsProject look
  cases h : d.at (p ++ [str!"Cargo.toml"]) with
  | none => simp
  | some e => cases e <;> simp [kind]

theorem builds_iff {O : Outside} {p : Path} {s : LoadSt} {q : Plugin} :
    (∃ t, LoadSt.andThen (buildCargo O p s) (fun path s => loadBinary O path s) = (t, .ok [q])) ↔
      Builds O s.tick s.world.disk p q := by
  constructor
  · rintro ⟨t, h⟩
    obtain ⟨s1, a, h1, h2⟩ := andThen_ok h
    unfold buildCargo at h1
    simp only at h1
    split at h1
    · cases h1
    · rename_i o ho
      split at h1
      · rename_i hc
        split at h1
        · cases h1
        · rename_i pkg hp
          cases h1
          unfold loadBinary at h2
          simp only at h2
          split at h2
          · rename_i p' hl
            simp only [Prod.mk.injEq, Res.ok.injEq, List.cons.injEq, and_true] at h2
            refine ⟨o, _, pkg, Prod.ext rfl ho, hc, isProject_iff.1 hp, ?_⟩
            rw [← h2.2]; exact hl
          · cases h2
      · cases h1
  · rintro ⟨o, d', pkg, h1, h2, h3, h4⟩
    refine ⟨⟨⟨d', s.world.faults⟩, s.tick + 2⟩, ?_⟩
    unfold buildCargo
    simp only [h1, h2, if_true, isProject_iff.2 h3, LoadSt.andThen, loadBinary, h4]

theorem notLocal {root : Path} {src : Str} {d : Entry} (h : NotLocal root src d) :
    d.isFileAt (joinPath root src) = false ∧ d.existsAt (joinPath root src ++ [str!"Cargo.toml"]) = false := by
  constructor
  · cases hk : d.isFileAt (joinPath root src) with
    | false => rfl
    | true =>
      unfold Entry.isFileAt at hk
      split at hk
      · rename_i b hb
        exact absurd (by rw [look_of_at hb]; rfl) (h.1 b)
      · cases hk
  · unfold Entry.existsAt
    rw [at_none_iff.2 h.2]; rfl

/-- C65. A source that is a Cargo project loads exactly when Cargo builds it and the library that comes from it opens. -/
theorem C65_exact {O : Outside} {root : Path} (name src : Str) (s : LoadSt) (q : Plugin)
    (hfile : ∀ b, look s.world.disk (joinPath root src) ≠ some (.file b))
    (hmanifest : look s.world.disk (joinPath root src ++ [str!"Cargo.toml"]) ≠ none) :
    (loadFromSource O root name src s).2 = .ok [q] ↔ Builds O s.tick s.world.disk (joinPath root src) q := by
  have h1 : s.world.disk.isFileAt (joinPath root src) = false := by
    cases hk : s.world.disk.isFileAt (joinPath root src) with
    | false => rfl
    | true =>
      unfold Entry.isFileAt at hk
      split at hk
      · rename_i b hb
        exact absurd (by rw [look_of_at hb]; rfl) (hfile b)
      · cases hk
  have h2 : s.world.disk.existsAt (joinPath root src ++ [str!"Cargo.toml"]) = true := exists_iff.2 hmanifest
  unfold loadFromSource
  simp only [h1, h2, Bool.and_false, Bool.false_eq_true, if_false, if_true]
  rw [← builds_iff]
  constructor
  · intro h
    exact ⟨_, Prod.ext rfl h⟩
  · rintro ⟨t, h⟩
    rw [h]

section
variable {O : Outside} {root : Path} {name src : Str} {s t : LoadSt} {q : Plugin}

/-! ### C69 -/

theorem git_eq (hs : NotLocal root src s.world.disk) (hg : O.gitExists s.tick src = true) :
    loadFromSource O root name src s = loadGit O root name src { s with tick := s.tick + 1 } := by
  unfold loadFromSource
  simp only [(notLocal hs).1, (notLocal hs).2, hg, Bool.and_false, Bool.false_eq_true, if_false, if_true]

/-- C69. A plugin whose source is a Git repository is kept in `_build/plugins`, under its own name. The first time it
is cloned to there: the directory above is made, nothing else is touched before. The plugin is the library which Cargo
builds of a project of that name somewhere in the repository. -/
theorem C69_first (hn : PlainName name) (hs : NotLocal root src s.world.disk) (hg : O.gitExists s.tick src = true)
    (hrepo : look s.world.disk (keptIn root name) = none)
    (h : loadFromSource O root name src s = (t, .ok [q])) :
    ∃ d1 d2 r, look d1 (root ++ [str!"_build", str!"plugins"]) = some .dir ∧
      (∀ p, ¬ p <+: root ++ [str!"_build", str!"plugins"] → look d1 p = look s.world.disk p) ∧
      O.gitClone (s.tick + 1) src (keptIn root name) d1 = (d2, true) ∧
      (ProperDisk d2 → IsProject O d2 (keptIn root name ++ r) name ∧ Builds O (s.tick + 2) d2 (keptIn root name ++ r) q) := by
  rw [git_eq hs hg] at h
  unfold loadGit fetchRepo at h
  have hdir := pluginDir_eq root hn
  rw [show joinPath root (str!"_build/plugins/" ++ name) = keptIn root name from hdir] at h
  have he : s.world.disk.existsAt (keptIn root name) = false := by
    unfold Entry.existsAt; rw [at_none_iff.2 hrepo]; rfl
  simp only [he, Bool.not_false, if_true] at h
  obtain ⟨s1, _, h1, h2⟩ := andThen_ok h
  split at h1
  · rename_i hm
    simp only [Prod.mk.injEq] at h1
    obtain ⟨rfl, h1⟩ := h1
    split at h1
    · rename_i hc
      have made := createDirAll_made hm
      simp only at h2
      split at h2
      · cases h2
      · rename_i project hp
        have hb := builds_iff.1 ⟨t, h2⟩
        obtain ⟨e, he2, hf⟩ := Option.bind_eq_some_iff.1 hp
        refine ⟨_, _, (project.drop (keptIn root name).length), ?_, ?_, Prod.ext rfl hc, ?_⟩
        · rw [made, if_pos ⟨_, List.prefix_refl _, by simp, by simp⟩]
        · intro p hp
          rw [made, if_neg]
          rintro ⟨r, k1, _, k3⟩
          exact hp (by rw [k3]; simpa using k1)
        · intro hd
          have hsub : ProperDisk e := by
            intro p l hl
            refine hd (keptIn root name ++ p) l ?_
            rw [at_append, he2]; exact hl
          obtain ⟨r, b, k1, k2, k3⟩ := (C66_found name _ e hsub).1 _ hf
          have hr : keptIn root name ++ project.drop (keptIn root name).length = project := by
            rw [k1, List.drop_left]
          rw [hr]
          refine ⟨⟨b, ?_, k3⟩, hb⟩
          rw [k1, List.append_assoc]
          unfold look at k2 ⊢
          rw [at_append, he2]; exact k2
    · cases h1
  · cases h1

/-- C69. Later on it is pulled, and nothing at all is touched before. -/
theorem C69_later (hn : PlainName name) (hs : NotLocal root src s.world.disk) (hg : O.gitExists s.tick src = true)
    (hrepo : look s.world.disk (keptIn root name) ≠ none)
    (h : loadFromSource O root name src s = (t, .ok [q])) :
    ∃ d2 r, O.gitPull (s.tick + 1) (keptIn root name) s.world.disk = (d2, true) ∧
      (ProperDisk d2 → IsProject O d2 (keptIn root name ++ r) name ∧ Builds O (s.tick + 2) d2 (keptIn root name ++ r) q) := by
  rw [git_eq hs hg] at h
  unfold loadGit fetchRepo at h
  have hdir := pluginDir_eq root hn
  rw [show joinPath root (str!"_build/plugins/" ++ name) = keptIn root name from hdir] at h
  have he : s.world.disk.existsAt (keptIn root name) = true := exists_iff.2 hrepo
  simp only [he, Bool.not_true, Bool.false_eq_true, if_false] at h
  obtain ⟨s1, _, h1, h2⟩ := andThen_ok h
  simp only [Prod.mk.injEq] at h1
  obtain ⟨rfl, h1⟩ := h1
  split at h1
  · rename_i hc
    simp only at h2
    split at h2
    · cases h2
    · rename_i project hp
      have hb := builds_iff.1 ⟨t, h2⟩
      obtain ⟨e, he2, hf⟩ := Option.bind_eq_some_iff.1 hp
      refine ⟨_, (project.drop (keptIn root name).length), Prod.ext rfl hc, ?_⟩
      intro hd
      have hsub : ProperDisk e := by
        intro p l hl
        refine hd (keptIn root name ++ p) l ?_
        rw [at_append, he2]; exact hl
      obtain ⟨r, b, k1, k2, k3⟩ := (C66_found name _ e hsub).1 _ hf
      have hr : keptIn root name ++ project.drop (keptIn root name).length = project := by
        rw [k1, List.drop_left]
      rw [hr]
      refine ⟨⟨b, ?_, k3⟩, hb⟩
      rw [k1, List.append_assoc]
      unfold look at k2 ⊢
      rw [at_append, he2]; exact k2
  · cases h1

/-- C69. It does load, if the repository can be pulled and has just one project of that name, which builds. -/
theorem C69_loads (hn : PlainName name) (hs : NotLocal root src s.world.disk) (hg : O.gitExists s.tick src = true)
    (hrepo : look s.world.disk (keptIn root name) ≠ none) (d2 : Entry) (hd : ProperDisk d2)
    (hpull : O.gitPull (s.tick + 1) (keptIn root name) s.world.disk = (d2, true)) (r : Path)
    (hp : IsProject O d2 (keptIn root name ++ r) name) (hone : ∀ r', IsProject O d2 (keptIn root name ++ r') name → r' = r)
    (hb : Builds O (s.tick + 2) d2 (keptIn root name ++ r) q) :
    (loadFromSource O root name src s).2 = .ok [q] := by
  rw [git_eq hs hg]
  unfold loadGit fetchRepo
  have hdir := pluginDir_eq root hn
  rw [show joinPath root (str!"_build/plugins/" ++ name) = keptIn root name from hdir]
  have he : s.world.disk.existsAt (keptIn root name) = true := exists_iff.2 hrepo
  simp only [he, Bool.not_true, Bool.false_eq_true, if_false, hpull, if_true]
  unfold LoadSt.andThen
  simp only
  obtain ⟨b, hb1, hb2⟩ := hp
  cases hat : d2.at (keptIn root name) with
  | none =>
    exfalso
    unfold look at hb1
    rw [List.append_assoc, at_append, hat] at hb1
    cases hb1
  | some e =>
    have hsub : ProperDisk e := by
      intro p l hl
      refine hd (keptIn root name ++ p) l ?_
      rw [at_append, hat]; exact hl
    have hlook : ∀ p, look d2 (keptIn root name ++ p) = look e p := by
      intro p
      unfold look
      rw [at_append, hat]; rfl
    have hf := C66_found (O := O) name (keptIn root name) e hsub
    cases hfp : findProject O name (keptIn root name) e with
    | none =>
      rw [List.append_assoc, hlook] at hb1
      exact absurd hb2 (hf.2 hfp r b hb1)
    | some project =>
      obtain ⟨r', b', k1, k2, k3⟩ := hf.1 project hfp
      have : r' = r := hone r' ⟨b', by rw [List.append_assoc, hlook]; exact k2, k3⟩
      subst this
      simp only [Option.bind_some, hfp]
      obtain ⟨t, ht⟩ := builds_iff (s := ⟨⟨d2, s.world.faults⟩, s.tick + 2⟩).2 hb
      rw [← k1] at ht
      unfold LoadSt.andThen at ht
      rw [ht]

/-! ### C70 -/

/-- C70. A source that is neither something local nor a Git repository is downloaded, to a file in the directory of the
plugin that is called as the last piece of the address; apart from that file and the directories to it nothing has
changed. It is loaded from there. -/
theorem C70_saved {ps : List Plugin} (hn : PlainName name) (file : Str) (hf : EndsIn src file)
    (hs : NotLocal root src s.world.disk) (hg : O.gitExists s.tick src = false) (status : Nat) (body : Bytes)
    (hh : O.http (s.tick + 1) src = some (status, body)) (h : loadFromSource O root name src s = (t, .ok ps)) :
    look t.world.disk (keptIn root name ++ [file]) = some (.file body) ∧
    (∀ p, ¬ p <+: keptIn root name ++ [file] → look t.world.disk p = look s.world.disk p) ∧
    (¬ HasExt file str!"js" → ¬ HasExt file str!"mjs" →
      ∃ q, ps = [q] ∧ O.openLibrary (s.tick + 2) (keptIn root name ++ [file]) t.world.disk = some (some q)) ∧
    (HasExt file str!"js" ∨ HasExt file str!"mjs" → O.js = true →
      ∃ q, ps = [q] ∧ O.openJs (s.tick + 2) (keptIn root name ++ [file]) t.world.disk = some q) := by
  unfold loadFromSource downloadPlugin at h
  simp only [(notLocal hs).1, (notLocal hs).2, hg, Bool.and_false, Bool.false_eq_true, if_false, hh, Option.map_some] at h
  unfold loadDownload at h
  have hdir := pluginDir_eq root hn
  have hlp := (endsIn_piece hf).2
  have hf : PlainName file := by obtain ⟨_, _, _, hf⟩ := hf; exact hf
  rw [show joinPath root (str!"_build/plugins/" ++ name) = keptIn root name from hdir, hlp] at h
  simp only [joinPath_plain hf] at h
  generalize hm : (if s.world.disk.existsAt (keptIn root name) = true then (s.world, true)
      else createDirAll [] (keptIn root name) s.world) = m at h
  split at h
  · rename_i hm2
    split at h
    · rename_i hw
      have hdisk : ∀ p, ¬ p <+: keptIn root name → look m.1.disk p = look s.world.disk p := by
        intro p hp
        split at hm
        · rw [← hm]
        · have made := createDirAll_made (by rw [hm]; exact hm2) p
          rw [hm, if_neg] at made
          · exact made
          · rintro ⟨r, k1, _, k3⟩
            exact hp (by rw [k3]; simpa using k1)
      have hwr := adds_step (o := .write (keptIn root name ++ [file]) body) (by simp [Op.Adds]) (World.step_ok hw)
      have hworld : t.world = (m.1.step (.write (keptIn root name ++ [file]) body)).1 := by
        have := managerLoad_world (O := O) (keptIn root name ++ [file]) file
          ⟨(m.1.step (.write (keptIn root name ++ [file]) body)).1, s.tick + 2⟩
        rw [h] at this
        exact this
      refine ⟨?_, ?_, ?_, ?_⟩
      · rw [hworld, (hwr _).1]; simp [Op.seen]
      · intro p hp
        rw [hworld, (hwr p).1]
        have : p ≠ keptIn root name ++ [file] := by rintro rfl; exact hp (List.prefix_refl _)
        simp only [Op.seen, if_neg this]
        exact hdisk p fun k => hp (k.trans (List.prefix_append _ _))
      · intro x1 x2
        rw [hworld]
        unfold managerLoad at h
        rw [if_neg (fun k => k.elim (fun k => x1 (extension_iff.1 k)) fun k => x2 (extension_iff.1 k))] at h
        unfold loadBinary at h
        simp only at h
        split at h
        · rename_i p hp
          cases h
          exact ⟨p, rfl, hp⟩
        · cases h
      · intro x hj
        rw [hworld]
        unfold managerLoad at h
        rw [if_pos (x.imp extension_iff.2 extension_iff.2), if_pos hj] at h
        simp only at h
        split at h
        · rename_i p hp
          cases h
          exact ⟨p, rfl, hp⟩
        · cases h
    · cases h
  · cases h

/-- C70. If there is no response either, the source is reported as invalid, and nothing has changed. -/
theorem C70_none (hs : NotLocal root src s.world.disk) (hg : O.gitExists s.tick src = false)
    (hh : O.http (s.tick + 1) src = none) :
    (loadFromSource O root name src s).2 = .err .invalidSource ∧ (loadFromSource O root name src s).1.world = s.world := by
  unfold loadFromSource downloadPlugin
  simp only [(notLocal hs).1, (notLocal hs).2, hg, Bool.and_false, Bool.false_eq_true, if_false, hh, Option.map_none]
  exact ⟨trivial, trivial⟩

end

/-- C70. Loading plugins, whatever comes of it, changes nothing in the project outside of `_build`, apart from what Git
and Cargo do; provided that the names of the plugins are names of files. -/
theorem C70_frame_partial {O : Outside} (root : Path) (plugins : List (Str × Str)) (hn : ∀ x ∈ plugins, PlainName x.1)
    (p : Path) (hp : ¬ (root ++ [str!"_build"]) <+: p) (h : Spares O p) (hr : Spares O root)
    (s : LoadSt) (hroot : look s.world.disk root = some .dir) :
    look (loadAll O root plugins s).1.world.disk p = look s.world.disk p := by
  have hrp : ¬ (root ++ [str!"_build"]) <+: root := by
    intro k
    have := k.length_le
    simp at this
    omega
  have sources : ∀ (name : Str), PlainName name → ∀ (srcs : List Str) (s : LoadSt), look s.world.disk root = some .dir →
      look (loadSources O root name srcs s).1.world.disk p = look s.world.disk p ∧
      look (loadSources O root name srcs s).1.world.disk root = some .dir := by
    intro name hname srcs
    induction srcs with
    | nil => intro s hs; exact ⟨rfl, hs⟩
    | cons src srcs ih =>
      intro s hs
      rw [loadSources]
      split
      · exact ih s hs
      · have k1 := loadFromSource_spares hname h hp src s hs
        have k2 := loadFromSource_spares hname hr hrp src s hs
        rw [hs] at k2
        split
        · rename_i e; rw [e] at k1 k2; exact ⟨k1, k2⟩
        · rename_i e
          rw [e] at k1 k2
          have := ih _ k2
          exact ⟨this.1.trans k1, this.2⟩
        · rename_i e; rw [e] at k1 k2; exact ⟨k1, k2⟩
  induction plugins generalizing s with
  | nil => rfl
  | cons x rest ih =>
    obtain ⟨name, src⟩ := x
    obtain ⟨k1, k2⟩ := sources name (hn _ (.head _)) (splitOn ';' src) s hroot
    rw [loadAll]
    split
    · rename_i e
      rw [e] at k1 k2
      have := ih (fun x hx => hn x (.tail _ hx)) _ k2
      split
      · rename_i e2; rw [e2] at this; exact this.trans k1
      · exact this.trans k1
    · exact k1

/-- A machine that downloads the text "gone" with status 404 from anywhere, and opens any library. -/
def webOutside : Outside :=
  { plainOutside with
    http := fun _ _ => some (404, bytesOf str!"gone")
    openLibrary := fun _ p d => if d.isFileAt p then some (some ⟨⟨str!"x", []⟩, []⟩) else none }

/-- A project with a page, and a plugin that was downloaded before. -/
def webDisk : Entry := .dir [(str!"p", .dir [(str!"content", .dir [(str!"a.md", .file [1])]),
  (str!"_build", .dir [(str!"plugins", .dir [(str!"x", .dir [(str!"x.so", .file [2])])])])])]

/-- C70 is false in general: a name with `..` in it leads out of `_build`, here to the content. -/
theorem C70_counterexample_name :
    look (loadAll webOutside [str!"p"] [(str!"../../content", str!"https://h/a.md")] ⟨⟨webDisk, []⟩, 0⟩).1.world.disk
      [str!"p", str!"content", str!"a.md"] = some (.file (bytesOf str!"gone")) := by decide

/-- C70 is false in general: the page with which a server says that there is no such file is taken for the plugin, and
replaces one that was there. -/
theorem C70_counterexample_status :
    look (loadAll webOutside [str!"p"] [(str!"x", str!"https://h/x.so")] ⟨⟨webDisk, []⟩, 0⟩).1.world.disk
      [str!"p", str!"_build", str!"plugins", str!"x", str!"x.so"] = some (.file (bytesOf str!"gone")) := by decide

/-! ### Cases: each theorem applied to something that meets its hypotheses -/

/-- The repository of a plugin `x`, as it is once fetched. -/
def repoEntry : Entry := .dir [(str!"crates", .dir [(str!"x", .dir [(str!"Cargo.toml", .file (bytesOf str!"x"))])])]

/-- A machine with Git, on which manifests consist of just the name. -/
def gitOutside : Outside :=
  { plainOutside with
    gitExists := fun _ _ => true
    gitClone := fun _ _ p d => (d.put p (some repoEntry), true)
    gitPull := fun _ p d => (d.put p (some repoEntry), true)
    packageName := some
    cargo := fun _ m d => (d.put (m.dropLast ++ [str!"target"]) (some (.dir [(str!"release", .dir [
      (str!"libx.so", .file [9])])])), some ⟨some 0, [], []⟩)
    openLibrary := fun _ p d => if d.isFileAt p then some (some ⟨⟨str!"x", []⟩, []⟩) else none }

/-- A project without plugins. -/
def bareDisk : Entry := .dir [(str!"p", .dir [(str!"stuart.toml", .file [])])]

/-- A project in which the repository was cloned, when it was empty. -/
def clonedDisk : Entry := .dir [(str!"p", .dir [(str!"_build", .dir [(str!"plugins", .dir [(str!"x", .dir [])])])])]

example := C69_first (O := gitOutside) (root := [str!"p"]) (name := str!"x") (src := str!"https://h/x") (s := ⟨⟨bareDisk, []⟩, 0⟩)
  (q := ⟨⟨str!"x", []⟩, []⟩) (by decide) ⟨(fun b h => by cases h), rfl⟩ rfl rfl rfl

example := C69_later (O := gitOutside) (root := [str!"p"]) (name := str!"x") (src := str!"https://h/x") (s := ⟨⟨clonedDisk, []⟩, 0⟩)
  (q := ⟨⟨str!"x", []⟩, []⟩) (by decide) ⟨(fun b h => by cases h), rfl⟩ rfl (by decide) rfl

/-- The project in the repository is the only one. -/
theorem clonedDisk_one (r : Path) (h : IsProject gitOutside (clonedDisk.put (keptIn [str!"p"] str!"x") (some repoEntry))
    (keptIn [str!"p"] str!"x" ++ r) str!"x") : r = [str!"crates", str!"x"] := by
  obtain ⟨b, h, _⟩ := h
  have hl : look (clonedDisk.put (keptIn [str!"p"] str!"x") (some repoEntry)) (keptIn [str!"p"] str!"x" ++ (r ++ [str!"Cargo.toml"])) =
      look repoEntry (r ++ [str!"Cargo.toml"]) := rfl
  rw [List.append_assoc, hl, repoEntry] at h
  rcases r with _ | ⟨n1, _ | ⟨n2, _ | ⟨n3, r⟩⟩⟩
  · cases h
  · rw [List.cons_append, look_dir_cons] at h
    by_cases k : str!"crates" = n1
    · subst k; cases h
    · simp [findEntry, k] at h
  · rw [List.cons_append, look_dir_cons] at h
    by_cases k : str!"crates" = n1
    · subst k
      simp only [findEntry, if_pos, Option.bind_some, List.cons_append] at h
      rw [look_dir_cons] at h
      by_cases k : str!"x" = n2
      · subst k; rfl
      · simp [findEntry, k] at h
    · simp [findEntry, k] at h
  · rw [List.cons_append, look_dir_cons] at h
    by_cases k : str!"crates" = n1
    · subst k
      simp only [findEntry, if_pos, Option.bind_some, List.cons_append] at h
      rw [look_dir_cons] at h
      by_cases k : str!"x" = n2
      · subst k
        simp only [findEntry, if_pos, Option.bind_some] at h
        rw [look_dir_cons] at h
        by_cases k : str!"Cargo.toml" = n3
        · subst k
          cases r <;> cases h
        · simp [findEntry, k] at h
      · simp [findEntry, k] at h
    · simp [findEntry, k] at h

example := C69_loads (O := gitOutside) (root := [str!"p"]) (name := str!"x") (src := str!"https://h/x") (s := ⟨⟨clonedDisk, []⟩, 0⟩)
  (q := ⟨⟨str!"x", []⟩, []⟩) (by decide) ⟨(fun b h => by cases h), rfl⟩ rfl (by decide) _
  (show ProperDisk (.dir [(str!"p", .dir [(str!"_build", .dir [(str!"plugins", .dir [(str!"x", .dir [(str!"crates",
    .dir [(str!"x", .dir [(str!"Cargo.toml", .file (bytesOf str!"x"))])])])])])])]) by proper_disk) rfl [str!"crates", str!"x"]
  ⟨_, rfl, rfl⟩ clonedDisk_one ⟨_, _, str!"x", rfl, rfl, ⟨_, rfl, rfl⟩, rfl⟩

example := C70_saved (O := webOutside) (root := [str!"p"]) (name := str!"y") (src := str!"https://h/y.so") (s := ⟨⟨webDisk, []⟩, 0⟩)
  (by decide) str!"y.so" ⟨str!"https://h/", rfl, .inr ⟨str!"https://h", rfl⟩, by decide⟩ ⟨(fun b h => by cases h), rfl⟩ rfl 404 _ rfl rfl

example := C65_exact (O := cargoOutside str!"plugin") (root := [str!"p"]) str!"x" str!"src" ⟨⟨cargoDisk, []⟩, 0⟩
  ⟨⟨str!"plugin", []⟩, []⟩ (fun b h => by cases h) (by decide)

example := C70_none (O := plainOutside) (root := [str!"p"]) (name := str!"y") (src := str!"https://h/y.so") (s := ⟨⟨webDisk, []⟩, 0⟩)
  ⟨(fun b h => by cases h), rfl⟩ rfl rfl

example := C70_frame_partial (O := webOutside) [str!"p"] [(str!"y", str!"no.so;https://h/y.so")] (by decide)
  [str!"p", str!"content", str!"a.md"] (by decide) ⟨fun _ _ _ _ => rfl, fun _ _ _ => rfl, fun _ _ _ => rfl⟩
  ⟨fun _ _ _ _ => rfl, fun _ _ _ => rfl, fun _ _ _ => rfl⟩ ⟨⟨webDisk, []⟩, 0⟩ rfl

end Stuart
