import Verif.Proof.Again
import Verif.Proof.Proper
import Verif.Props.Cli
/-
Properties C43, C46 and C47 for whole builds: static and temporary files, and building again.
-/
namespace Stuart
open Spec

variable (M : Machine) (c : Context) (s : Host)

/-- The part of a build between the scripts: `s1` is what the pre-build scripts left, the content builds to this tree,
and `s2` is what the post-build scripts find. (`C51_order` says that every successful build has such a part.) -/
structure Publishes (s1 s2 : Host) (name src : Str) (cs : List Node) : Prop where
  content : readBuild M.sys s1.world.disk c.mode c.stuart = .ok (.dir name cs src)
  done : ((c.built M s1.world.disk).publish M s1).2 = (s2, .ok ())

variable {M c}

theorem Publishes.steps {s1 s2 : Host} {name src : Str} {cs : List Node} (h : Publishes M c s1 s2 name src cs) :
    ∃ p nm ms src' w, mergeDirs M s1.world.disk c.dir [str!"static", str!"temp"] (c.built M s1.world.disk).stuart = (p, .ok ()) ∧
      p.output = some (.dir nm ms src') ∧ p.config = c.stuart.config ∧
      saveNode c.stuart.config c.outPath (.dir nm ms src') (s1.world.step (.clear (c.dir ++ [str!"temp"]))).1 = (w, .ok ()) ∧
      exportMeta M { c.built M s1.world.disk with stuart := p } w = (s2.world, .ok ()) := by
  obtain ⟨p, nm, ms, src', w, h1, h2, h3, h4, h5⟩ :=
    Context.publish_ok ⟨name, cs, src, (Context.built_output h.content).1⟩ h.done
  rw [(Context.built_output h.content).2] at h3 h4
  exact ⟨p, nm, ms, src', w, h1, h2, h3, h4, h5⟩

/-! ### C43, C46: static and temporary files -/

/-- C43, C46. A file that is in the `static` or the `temp` directory when the pre-build scripts are done is, when the
build has published the site, at the same place in the output directory with the same bytes: provided its name is
published, no page goes to the same place, and it is not in the way of the metadata. -/
theorem C46_files_partial (s1 s2 : Host) (name src : Str) (cs : List Node) (h : Publishes M c s1 s2 name src cs)
    (hd : ProperDisk s1.world.disk) (hout : c.outPath ≠ []) (hn : PlainNames c.stuart.config cs)
    (hdots : NoDots c.stuart.config s1.world.disk c.dir)
    (which : Str) (hw : which ∈ [str!"static", str!"temp"]) (ds : List Str) (nm : Str) (b : Bytes)
    (hb : look s1.world.disk (c.dir ++ [which] ++ ds ++ [nm]) = some (.file b))
    (hpub : Published c.stuart.config nm) (hfree : ∀ b', Goes c.stuart.config cs (ds ++ [nm]) b' → b' = b)
    (hother : ∀ n ∈ [str!"static", str!"temp"], ∀ b', look s1.world.disk (c.dir ++ [n] ++ ds ++ [nm]) = some (.file b') → b' = b)
    (hmeta : c.outPath ++ ds ++ [nm] ≠ c.dir ++ [str!"metadata.json"]) :
    look s2.world.disk (c.outPath ++ ds ++ [nm]) = some (.file b) := by
  obtain ⟨p, nm', ms, src', w, h1, h2, h3, h4, h5⟩ := h.steps
  obtain ⟨ms', k1, k2⟩ := mergeDirs_shows hd (Context.built_output h.content).1 (by rw [h1])
  rw [h1, h2] at k1
  cases k1
  have hpl := merged_plain hd k2 hn hdots
  rw [exportMeta_look (c := c.built M s1.world.disk) h2 h5, if_neg (fun k => hmeta k.2)]
  have hmem : Holds ms ds (.file nm b .ignored none (pathStr (c.dir ++ [which] ++ ds ++ [nm]))) :=
    Shows_file.1 ((k2 _ _ _).2 (.inr ⟨which, hw, hb, rfl, rfl, rfl⟩))
  obtain ⟨g1, g2, _⟩ := C40_saved_partial c.stuart.config c.outPath name src ms _ hout hpl
    (by rw [h4]) (ds ++ [nm])
  rw [h4] at g1 g2
  simp only at g1 g2
  obtain ⟨b', hb'⟩ := g2 b (.plain hmem hpub fun stem h => h.2.2.2 rfl)
  rw [List.append_assoc, hb']
  have hg := g1 b' hb'
  suffices b' = b by rw [this]
  generalize hr : ds ++ [nm] = r at hg
  cases hg with
  | plain l1 l2 l3 =>
    obtain ⟨rfl, he⟩ := List.append_inj' hr rfl
    simp only [List.cons.injEq, and_true] at he
    subst he
    rcases (k2 _ _ _).1 (Shows_file.2 l1) with k | ⟨n, hn, k⟩
    · exact hfree _ (.plain (Shows_file.1 k) l2 l3)
    · exact hother n hn _ k.1
  | page l1 l2 l3 =>
    rcases (k2 _ _ _).1 (Shows_file.2 l1) with k | ⟨n, hn, k⟩
    · exact hfree _ (hr ▸ .page (Shows_file.1 k) l2 l3)
    · exact absurd k.2.1 l3.2.2.2

/-- C46. When the site is published the temporary directory is gone, if its removal met with no mishap and it is not
within the output directory. Not so: when the removal fails (`C46_counterexample`). -/
theorem C46_gone_partial (s1 s2 : Host) (name src : Str) (cs : List Node) (h : Publishes M c s1 s2 name src cs)
    (hd : ProperDisk s1.world.disk) (hn : PlainNames c.stuart.config cs) (hdots : NoDots c.stuart.config s1.world.disk c.dir)
    (hout : ¬ c.outPath <+: c.dir ++ [str!"temp"]) (hsafe : ∀ r, s1.world.faults.head? ≠ some (some r)) :
    look s2.world.disk (c.dir ++ [str!"temp"]) = none := by
  obtain ⟨p, nm', ms, src', w, h1, h2, h3, h4, h5⟩ := h.steps
  obtain ⟨ms', k1, k2⟩ := mergeDirs_shows hd (Context.built_output h.content).1 (by rw [h1])
  rw [h1, h2] at k1
  cases k1
  have hpl := merged_plain hd k2 hn hdots
  rw [exportMeta_look (c := c.built M s1.world.disk) h2 h5, if_neg (by
    rintro ⟨_, k⟩
    have := (List.append_cancel_left (as := c.dir) k)
    revert this
    decide)]
  have := C41_outside_partial c.stuart.config c.outPath name src ms
    (s1.world.step (.clear (c.dir ++ [str!"temp"]))).1 hpl (c.dir ++ [str!"temp"]) hout
  rw [h4] at this
  rw [this]
  -- the temporary directory is a directory or absent, or else it could not have been merged
  have hcase : s1.world.disk.at (c.dir ++ [str!"temp"]) = none ∨ ∃ l, s1.world.disk.at (c.dir ++ [str!"temp"]) = some (.dir l) := by
    have key : ∀ q : Project, (mergeDirs M s1.world.disk c.dir [str!"temp"] q).2 = .ok () →
        s1.world.disk.at (c.dir ++ [str!"temp"]) = none ∨ ∃ l, s1.world.disk.at (c.dir ++ [str!"temp"]) = some (.dir l) := by
      intro q hq
      rcases mergeDirs_cons hq with ⟨k, _⟩ | ⟨node, _, k, _⟩
      · exact .inl k
      · unfold readTree at k
        split at k
        · rename_i l hl; exact .inr ⟨l, hl⟩
        · cases k
    have hm : (mergeDirs M s1.world.disk c.dir [str!"static", str!"temp"] (c.built M s1.world.disk).stuart).2 = .ok () := by
      rw [h1]
    rcases mergeDirs_cons hm with ⟨_, k⟩ | ⟨_, q, _, _, k⟩
    · rw [k] at hm; exact key _ hm
    · rw [k] at hm; exact key _ hm
  have hstep : (s1.world.step (.clear (c.dir ++ [str!"temp"]))).1.disk =
      ((Op.clear (c.dir ++ [str!"temp"])).apply s1.world.disk).getD s1.world.disk := by
    unfold World.step
    split
    · rename_i r fs hf; exact absurd (by rw [hf]; rfl) (hsafe r)
    · cases (Op.clear (c.dir ++ [str!"temp"])).apply s1.world.disk <;> rfl
  rw [hstep]
  rcases hcase with hc | ⟨l, hc⟩
  · simp only [Op.apply, hc, Option.getD_some]; exact at_none_iff.1 hc
  · simp only [Op.apply, hc]
    rw [if_neg (by simp), Option.getD_some]
    have := look_put_inside (d := s1.world.disk) (p := c.dir ++ [str!"temp"]) (by simp) [] (v := none)
      (by rw [List.dropLast_concat]; exact look_above (r := [str!"temp"]) (by simp) (by rw [look, hc]; nofun))
    rwa [List.append_nil] at this

variable (M c)

/-- C46. For whole builds, at a place that the scripts leave alone after that. -/
theorem C46_build (q : Path) (hq : Leaves M q) (h : (c.build M s).2.2 = .ok ()) :
    ∃ s2 name src cs, Publishes M c (runScripts M c.env c.pre s).1 s2 name src cs ∧
      look (c.build M s).2.1.world.disk q = look s2.world.disk q := by
  obtain ⟨s1, out, s2, h1, h2, h3, h4⟩ := Context.build_ok h
  obtain ⟨name, cs, src, rfl⟩ := readBuild_dir h2
  refine ⟨s2, name, src, cs, ?_, ?_⟩
  · rw [h1]; exact ⟨h2, h3⟩
  · have := runScripts_leaves (env := c.env) (ps := c.post) (s := s2) hq
    rw [h4] at this
    exact this

/-- A machine whose first script puts a file into the temporary directory. -/
def tempMachine : Machine where
  sys := demoSys
  shell n _ _ d := if n = 0 then (d.put [str!"p", str!"temp"] (some (.dir [(str!"t.css", .file [7])])), some ⟨some 0, [], []⟩)
    else (d, some ⟨some 0, [], []⟩)
  lossy _ := []

/-- The disk of a project without output. -/
def freshDisk : Entry := .dir [(str!"p", .dir [(str!"content", .dir [(str!"a.txt", .file [1])])])]

/-- A file put into the temporary directory by the pre-build script is in the output, and the directory is gone. -/
example :
    let c := { demoContext with pre := [[str!"p", str!"scripts", str!"onPreBuild"]] }
    let r := (c.build tempMachine ⟨⟨freshDisk, []⟩, []⟩).2
    r.2 = .ok () ∧ look r.1.world.disk [str!"p", str!"dist", str!"t.css"] = some (.file [7]) ∧
    look r.1.world.disk [str!"p", str!"dist", str!"a.txt"] = some (.file [1]) ∧
    look r.1.world.disk [str!"p", str!"temp"] = none := ⟨rfl, rfl, rfl, rfl⟩

/-- The disk of a project with static and temporary files and an older site. -/
def fullDisk : Entry := .dir [(str!"p", .dir [(str!"content", .dir [(str!"a.txt", .file [1])]),
  (str!"static", .dir [(str!"b.css", .file [2])]), (str!"temp", .dir [(str!"t.css", .file [7])]),
  (str!"dist", .dir [(str!"old", .file [3])])])]

theorem fullDisk_proper : ProperDisk fullDisk := by unfold fullDisk; proper_disk

theorem fullDisk_noDots (cfg : Config) : NoDots cfg fullDisk [str!"p"] := by
  refine noDots_of_lacks ?_
  simp only [List.mem_cons, List.not_mem_nil, or_false, forall_eq_or_imp, forall_eq]
  exact ⟨fun e h => by cases h; lacks_name, fun e h => by cases h; lacks_name⟩

/-- What its content builds to. -/
def fullTree : List Node := [.file str!"a.txt" [1] .none none str!"/p/content/a.txt"]

/-- The state once it is published. -/
def fullAfter (c : Context) : Host := ((c.built idleMachine fullDisk).publish idleMachine ⟨⟨fullDisk, []⟩, []⟩).2.1

theorem full_publishes : Publishes idleMachine demoContext ⟨⟨fullDisk, []⟩, []⟩ (fullAfter demoContext) str!"content"
    str!"/p/content" fullTree := ⟨rfl, rfl⟩

/-- `C46_files_partial` for the temporary file. -/
example : look (fullAfter demoContext).world.disk [str!"p", str!"dist", str!"t.css"] = some (.file [7]) := by
  refine C46_files_partial _ _ _ _ _ full_publishes fullDisk_proper (by decide) (by unfold fullTree; plain_names)
    (fullDisk_noDots _) str!"temp" (by simp) [] str!"t.css" [7] rfl ⟨by decide, by decide, .inr (by decide)⟩ ?_ ?_ (by decide)
  · intro b' h
    exact absurd (goes_one h).1 (by decide)
  · intro n hn b' h
    simp only [List.mem_cons, List.not_mem_nil, or_false] at hn
    rcases hn with rfl | rfl
    · cases h
    · cases h; rfl

/-- `C46_gone_partial` for it. -/
example : look (fullAfter demoContext).world.disk [str!"p", str!"temp"] = none :=
  C46_gone_partial _ _ _ _ _ full_publishes fullDisk_proper (by unfold fullTree; plain_names) (fullDisk_noDots _) (by decide)
    (by nofun)

/-- C46. If the temporary directory cannot be removed the build succeeds all the same, and it stays. -/
theorem C46_counterexample :
    let c := { demoContext with pre := [[str!"p", str!"scripts", str!"onPreBuild"]] }
    let r := (c.build tempMachine ⟨⟨freshDisk, [some (some (.dir [(str!"t.css", .file [7])]))]⟩, []⟩).2
    r.2 = .ok () ∧ look r.1.world.disk [str!"p", str!"temp", str!"t.css"] = some (.file [7]) := ⟨rfl, rfl⟩

/-! ### C47 -/

/-- The same project, mode and output directory. -/
structure SameProject (c c' : Context) : Prop where
  content : c.stuart.dir = c'.stuart.dir
  config : c.stuart.config = c'.stuart.config
  plugins : c.stuart.plugins = c'.stuart.plugins
  mode : c.mode = c'.mode
  dir : c.dir = c'.dir
  output : c.output = c'.output

/-- The disks have the same in the content, static and temporary directories. -/
def SameInputs (c : Context) (d d' : Entry) : Prop :=
  d.at c.stuart.dir = d'.at c.stuart.dir ∧ d.at (c.dir ++ [str!"static"]) = d'.at (c.dir ++ [str!"static"]) ∧
    d.at (c.dir ++ [str!"temp"]) = d'.at (c.dir ++ [str!"temp"])

variable {M c}

theorem SameInputs.readBuild {c' : Context} {d d' : Entry} (hc : SameProject c c') (h : SameInputs c d d') :
    readBuild M.sys d c.mode c.stuart = readBuild M.sys d' c'.mode c'.stuart := by
  unfold Stuart.readBuild readTree
  rw [h.1, hc.content, hc.plugins, hc.mode, hc.config]

theorem SameInputs.merge {d d' : Entry} {p p' : Project} (h : SameInputs c d d') (hp : p.output = p'.output) :
    (mergeDirs M d c.dir [str!"static", str!"temp"] p).1.output = (mergeDirs M d' c.dir [str!"static", str!"temp"] p').1.output ∧
    (mergeDirs M d c.dir [str!"static", str!"temp"] p).2 = (mergeDirs M d' c.dir [str!"static", str!"temp"] p').2 := by
  refine mergeDirs_congr (fun n hn => ?_) hp
  simp only [List.mem_cons, List.not_mem_nil, or_false] at hn
  rcases hn with rfl | rfl
  · exact h.2.1
  · exact h.2.2

/-- The metadata depends on the tree and the configuration only. -/
theorem exportMeta_same {c c' : Context} {p p' : Project} {w w' v v' : World} {out : Node} (ho : p.output = some out)
    (ho' : p'.output = some out) (hcfg : p.config = p'.config) (hdir : c.dir = c'.dir)
    (h : exportMeta M { c with stuart := p } w = (v, .ok ()))
    (h' : exportMeta M { c' with stuart := p' } w' = (v', .ok ())) (hm : p.config.saveMetadata = true) :
    look v.disk c.metaPath = look v'.disk c.metaPath := by
  rcases exportMeta_ok ho h with ⟨h1, _⟩ | ⟨x, _, h2, h3⟩
  · rw [h1] at hm; cases hm
  rcases exportMeta_ok ho' h' with ⟨h1, _⟩ | ⟨x', _, h2', h3'⟩
  · rw [← hcfg, hm] at h1; cases h1
  rw [h2] at h2'
  cases h2'
  obtain ⟨k1, k2⟩ := runOps_cons_ok (by rw [h3])
  obtain ⟨k1', k2'⟩ := runOps_cons_ok (by rw [h3'])
  rw [k2] at h3
  rw [k2'] at h3'
  cases h3
  cases h3'
  have hpath : c'.metaPath = c.metaPath := by unfold Context.metaPath; rw [hdir]
  rw [(adds_step (by simp [Op.Adds, Context.metaPath]) (World.step_ok k1) _).1,
    (adds_step (by simp [Op.Adds, Context.metaPath]) (World.step_ok k1') _).1]
  simp only [Op.seen, hpath, if_true, hcfg]

/-- C47. The site published is a function of the project and the contents of the content, static and temporary
directories: two builds for which these are the same publish the same, whatever else is on the disks. -/
theorem C47_same_partial (c c' : Context) (hc : SameProject c c') (s1 s2 s1' s2' : Host) (name src name' src' : Str)
    (cs cs' : List Node) (h : Publishes M c s1 s2 name src cs) (h' : Publishes M c' s1' s2' name' src' cs')
    (hin : SameInputs c s1.world.disk s1'.world.disk)
    (hd : ProperDisk s1.world.disk) (hout : c.outPath ≠ []) (hn : PlainNames c.stuart.config cs)
    (hdots : NoDots c.stuart.config s1.world.disk c.dir) :
    (∀ r, look s2.world.disk (c.outPath ++ r) = look s2'.world.disk (c.outPath ++ r)) ∧
    (c.stuart.config.saveMetadata = true → look s2.world.disk c.metaPath = look s2'.world.disk c.metaPath) := by
  have hcont := h.content
  rw [hin.readBuild hc, h'.content] at hcont
  cases hcont
  have hob := (Context.built_output h.content).1
  have hob' := (Context.built_output h'.content).1
  obtain ⟨p, nm, ms, src1, w, a1, a2, a3, a4, a5⟩ := h.steps
  obtain ⟨p', nm', ms', src2, w', b1, b2, b3, b4, b5⟩ := h'.steps
  obtain ⟨ms0, k1, k2⟩ := mergeDirs_shows hd hob (by rw [a1])
  rw [a1, a2] at k1
  cases k1
  have hpl := merged_plain hd k2 hn hdots
  have hm := (hin.merge (M := M) (hob.trans hob'.symm)).1
  rw [a1, hc.dir, b1] at hm
  simp only at hm
  rw [a2, b2] at hm
  cases hm
  have hcfg : p.config = p'.config := by rw [a3, b3, hc.config]
  have hmeta := exportMeta_same (c := c.built M s1.world.disk) (c' := c'.built M s1'.world.disk) a2 b2 hcfg hc.dir a5 b5
  have hpath : c'.outPath = c.outPath := by unfold Context.outPath; rw [hc.dir, hc.output]
  have hmp : (c'.built M s1'.world.disk).metaPath = (c.built M s1.world.disk).metaPath := by
    show c'.dir ++ _ = c.dir ++ _
    rw [hc.dir]
  constructor
  · intro r
    rw [exportMeta_look (c := c.built M s1.world.disk) a2 a5, exportMeta_look (c := c'.built M s1'.world.disk) b2 b5, hmp, hcfg]
    split
    · rename_i hq
      exact hmeta (by rw [hcfg]; exact hq.1)
    · rw [hpath, ← hc.config] at b4
      have := C41_stale_partial c.stuart.config c.outPath name src ms _ hout hpl
        (s1'.world.step (.clear (c'.dir ++ [str!"temp"]))).1 (by rw [a4]) (by rw [b4]) r
      rw [a4, b4] at this
      exact this
  · intro hs
    exact hmeta (by rw [a3]; exact hs)

/-- The output directory is apart from what a build reads, and does not hold or displace the metadata. -/
structure OutputApart (c : Context) : Prop where
  nonroot : c.outPath ≠ []
  layout : c.stuart.dir = c.dir ++ [str!"content"]
  content : Apart c.outPath (c.dir ++ [str!"content"])
  static : Apart c.outPath (c.dir ++ [str!"static"])
  temp : ¬ c.outPath <+: c.dir ++ [str!"temp"]
  metadata : ¬ c.outPath <+: c.metaPath

theorem apart_names {p : Path} {a b : Str} (h : a ≠ b) : Apart (p ++ [a]) (p ++ [b]) := by
  constructor <;> intro k <;> have := k.eq_of_length (by simp) <;> simp at this
  · exact h this
  · exact h this.symm

theorem Context.publish_eq {p : Project} {s : Host} {w : World}
    (h1 : mergeDirs M s.world.disk c.dir [str!"static", str!"temp"] c.stuart = (p, .ok ()))
    (h2 : p.save c.outPath (s.world.step (.clear (c.dir ++ [str!"temp"]))).1 = (w, .ok ())) :
    (c.publish M s).2 = ({ s with world := (exportMeta M { c with stuart := p } w).1 }, (exportMeta M { c with stuart := p } w).2) := by
  unfold Context.publish
  rw [h1]
  simp only
  rw [show joinPath c.dir c.output = c.outPath from rfl, h2]

/-- What `C47_again_partial` says, and what a build leaves as it was. -/
theorem build_again (c : Context) (hs : c.pre = [] ∧ c.post = []) (ha : OutputApart c) (s : Host) (hcalm : s.world.Calm)
    (htemp : look s.world.disk (c.dir ++ [str!"temp"]) = none) (hd : ProperDisk s.world.disk)
    (hn : ∀ name cs src, readBuild M.sys s.world.disk c.mode c.stuart = .ok (.dir name cs src) → PlainNames c.stuart.config cs)
    (hdots : NoDots c.stuart.config s.world.disk c.dir)
    (h : (c.build M s).2.2 = .ok ()) :
    (((c.build M s).1.build M (c.build M s).2.1).2.2 = .ok () ∧
      ∀ q, look ((c.build M s).1.build M (c.build M s).2.1).2.1.world.disk q = look (c.build M s).2.1.world.disk q) ∧
    SameProject c (c.build M s).1 ∧ (c.build M s).1.pre = c.pre ∧ (c.build M s).1.post = c.post ∧
    SameInputs (c.build M s).1 (c.build M s).2.1.world.disk s.world.disk ∧ (c.build M s).2.1.world.Calm ∧
    look (c.build M s).2.1.world.disk (c.dir ++ [str!"temp"]) = none ∧
    ((∀ n ∈ c.dir, PlainName n) → (∀ n ∈ c.outPath, PlainName n) → ProperDisk (c.build M s).2.1.world.disk) := by
  -- the first build
  obtain ⟨s1, out, s2, h1, h2, h3, h4⟩ := Context.build_ok h
  rw [hs.1, runScripts] at h1
  rw [hs.2, runScripts] at h4
  cases h1
  have h4 : s2 = (c.build M s).2.1 := by simp only [Prod.mk.injEq] at h4; exact h4.1
  obtain ⟨name, cs, src, rfl⟩ := readBuild_dir h2
  have hpub : Publishes M c s s2 name src cs := ⟨h2, h3⟩
  obtain ⟨p, nm, ms, src1, w, a1, a2, a3, a4, a5⟩ := hpub.steps
  have hob := (Context.built_output h2).1
  obtain ⟨ms0, k1, k2⟩ := mergeDirs_shows hd hob (by rw [a1])
  rw [a1, a2] at k1
  cases k1
  have hpl := merged_plain hd k2 (hn _ _ _ h2) hdots
  have hbuilt : (c.build M s).1 = { c with stuart := p } := by
    have e1 : runScripts M c.env c.pre s = (s, .ok ()) := by rw [hs.1]; rfl
    have e2 := (Context.publish_keeps (M := M) (c := c.built M s.world.disk) (s := s)).1
    rw [show (c.built M s.world.disk).dir = c.dir from rfl, a1] at e2
    rw [Context.build_mid e1, h2]
    simp only
    generalize (c.built M s.world.disk).publish M s = r at h3 e2
    obtain ⟨c2, r⟩ := r
    simp only at h3 e2
    subst h3
    exact e2
  -- the project part of the context is kept
  have hproj : p.dir = c.stuart.dir ∧ p.plugins = c.stuart.plugins := by
    have hk : ∀ ns (x : Project), (mergeDirs M s.world.disk c.dir ns x).1.dir = x.dir ∧
        (mergeDirs M s.world.disk c.dir ns x).1.plugins = x.plugins := by
      intro ns
      induction ns with
      | nil => intro x; exact ⟨rfl, rfl⟩
      | cons n ns ih =>
        intro x
        have hm : ∀ node, (x.mergeOutput node).1.dir = x.dir ∧ (x.mergeOutput node).1.plugins = x.plugins := by
          intro node
          unfold Project.mergeOutput
          split <;> exact ⟨rfl, rfl⟩
        rw [mergeDirs]
        split
        · split
          · exact ⟨rfl, rfl⟩
          · exact ⟨rfl, rfl⟩
          · rename_i node hn
            have := hm node
            split
            · rename_i s' hs; rw [hs] at this; rw [(ih s').1, (ih s').2]; exact this
            · rename_i s' e hs; rw [hs] at this; exact this
            · rename_i s' e hs; rw [hs] at this; exact this
        · exact ih x
    obtain ⟨x1, x2⟩ := hk [str!"static", str!"temp"] (c.built M s.world.disk).stuart
    rw [a1] at x1 x2
    obtain ⟨_, _, _, y1, y2⟩ := Project.build_result M.sys s.world.disk c.mode c.stuart
    exact ⟨x1.trans y1, x2.trans y2⟩
  have hsame : SameProject c { c with stuart := p } := ⟨hproj.1.symm, a3.symm, hproj.2.symm, rfl, rfl, rfl⟩
  -- the disk after the first build
  have hmp : (c.built M s.world.disk).metaPath = c.metaPath := rfl
  have hstep1 : (s.world.step (.clear (c.dir ++ [str!"temp"]))).1.disk = s.world.disk := by
    have : (Op.clear (c.dir ++ [str!"temp"])).apply s.world.disk = some s.world.disk := by
      simp only [Op.apply, at_none_iff.2 htemp]
    exact (World.calm_step hcalm this).2.1
  have hexp : ∀ q, Apart c.metaPath q → s2.world.disk.at q = w.disk.at q := by
    intro q hq
    rcases exportMeta_ok (c := c.built M s.world.disk) a2 a5 with ⟨_, e⟩ | ⟨v, _, _, e⟩
    · rw [e]
    · have := runOps_apart (w := w) (q := q) (os := [.write (c.built M s.world.disk).metaPath
        (bytesOf (M.sys.serialize ((Value.obj [(str!"name", .str p.config.name),
        (str!"author", (p.config.author.map Value.str).getD .null)]).setKey str!"data" v)))])
        (fun o ho => by rw [List.mem_singleton.1 ho]; exact hq)
      rw [e] at this; exact this
  have hsave : ∀ q, Apart c.outPath q → w.disk.at q = s.world.disk.at q := by
    intro q hq
    have := saveNode_apart (nm := name) (src := src) (w := (s.world.step (.clear (c.dir ++ [str!"temp"]))).1) hpl hq
    rw [a4, hstep1] at this
    exact this
  have htemp2 : look s2.world.disk (c.dir ++ [str!"temp"]) = none := by
    rw [look, hexp _ (apart_names (by decide))]
    have := C41_outside_partial c.stuart.config c.outPath name src ms
      (s.world.step (.clear (c.dir ++ [str!"temp"]))).1 hpl _ ha.temp
    rw [a4, hstep1, htemp] at this
    exact this
  have hin : SameInputs { c with stuart := p } s2.world.disk s.world.disk := by
    refine ⟨?_, ?_, ?_⟩
    · show s2.world.disk.at p.dir = s.world.disk.at p.dir
      rw [hproj.1, ha.layout, hexp _ (apart_names (by decide)), hsave _ ha.content]
    · show s2.world.disk.at (c.dir ++ _) = s.world.disk.at (c.dir ++ _)
      rw [hexp _ (apart_names (by decide)), hsave _ ha.static]
    · show s2.world.disk.at (c.dir ++ _) = s.world.disk.at (c.dir ++ _)
      rw [at_none_iff.2 htemp, at_none_iff.2 htemp2]
  have hcalm2 : s2.world.Calm := by
    have c1 := s.world.step_calm hcalm (.clear (c.dir ++ [str!"temp"]))
    have c2 : w.Calm := by
      have := runOps_calm (os := .clear c.outPath :: .mkdir c.outPath :: saveAll c.stuart.config c.outPath ms) c1
      rw [saveNode] at a4
      rw [a4] at this; exact this
    rcases exportMeta_ok (c := c.built M s.world.disk) a2 a5 with ⟨_, e⟩ | ⟨v, _, _, e⟩
    · rw [e]; exact c2
    · have := runOps_calm (w := w) (os := [.write (c.built M s.world.disk).metaPath
        (bytesOf (M.sys.serialize ((Value.obj [(str!"name", .str p.config.name),
        (str!"author", (p.config.author.map Value.str).getD .null)]).setKey str!"data" v)))]) c2
      rw [e] at this; exact this
  have houtdir : look s2.world.disk c.outPath = some .dir := by
    rw [exportMeta_look (c := c.built M s.world.disk) a2 a5, hmp,
      if_neg (by rintro ⟨_, k⟩; exact ha.metadata (by rw [k]; exact List.prefix_refl _))]
    have hw := a4
    rw [saveNode] at hw
    obtain ⟨v, e, l, _⟩ := clear_mkdir (os := saveAll c.stuart.config c.outPath ms) ha.nonroot (by rw [hw])
    rw [e] at hw
    have := (runOps_adds (os := saveAll c.stuart.config c.outPath ms) (w := v)
      (fun o ho => (saveAll_target hpl ho).2 ha.nonroot) (by rw [hw]) c.outPath).2.2.2.1
      (by have := l []; rwa [List.append_nil] at this)
    rw [hw] at this; exact this
  have hproper : (∀ n ∈ c.dir, PlainName n) → (∀ n ∈ c.outPath, PlainName n) → ProperDisk s2.world.disk := by
    intro pd po
    have d1 : ProperDisk w.disk := by
      have hw := a4
      rw [saveNode] at hw
      have := proper_runOps (w := (s.world.step (.clear (c.dir ++ [str!"temp"]))).1)
        (os := .clear c.outPath :: .mkdir c.outPath :: saveAll c.stuart.config c.outPath ms) (by rw [hstep1]; exact hd)
        (fun o ho => by
          rcases List.mem_cons.1 ho with k | k
          · subst k; exact po
          · rcases List.mem_cons.1 k with k | k
            · subst k; exact po
            · exact saveAll_plain po hpl k) (by rw [hw])
      rw [hw] at this; exact this
    rcases exportMeta_ok (c := c.built M s.world.disk) a2 a5 with ⟨_, e⟩ | ⟨v, _, _, e⟩
    · rw [e]; exact d1
    · have := proper_runOps (w := w) (os := [.write (c.built M s.world.disk).metaPath
        (bytesOf (M.sys.serialize ((Value.obj [(str!"name", .str p.config.name),
        (str!"author", (p.config.author.map Value.str).getD .null)]).setKey str!"data" v)))]) d1
        (fun o ho => by
          rw [List.mem_singleton.1 ho]
          intro n hn
          rcases List.mem_append.1 (show n ∈ c.dir ++ [str!"metadata.json"] from hn) with k | k
          · exact pd n k
          · rw [List.mem_singleton.1 k]; decide) (by rw [e])
      rw [e] at this; exact this
  -- the second build
  rw [← h4, hbuilt]
  refine ⟨?_, hsame, rfl, rfl, hin, hcalm2, htemp2, hproper⟩
  generalize hc' : ({ c with stuart := p } : Context) = c' at hsame hin
  have hcp : c'.dir = c.dir ∧ c'.outPath = c.outPath ∧ c'.metaPath = c.metaPath ∧ c'.stuart.config = c.stuart.config := by
    rw [← hc']; exact ⟨rfl, rfl, rfl, a3⟩
  have e1 : runScripts M c'.env c'.pre s2 = (s2, .ok ()) := by rw [← hc', hs.1]; rfl
  have r2 : readBuild M.sys s2.world.disk c'.mode c'.stuart = .ok (.dir name cs src) := by
    have := hin.readBuild (M := M) (c := c') (c' := c) ⟨hsame.content.symm, hsame.config.symm, hsame.plugins.symm,
      hsame.mode.symm, hsame.dir.symm, hsame.output.symm⟩
    rw [this]; exact h2
  obtain ⟨ob2, oc2⟩ := Context.built_output r2
  have hm := hin.merge (M := M) (p := (c'.built M s2.world.disk).stuart) (p' := (c.built M s.world.disk).stuart)
    (ob2.trans hob.symm)
  rw [hcp.1, a1] at hm
  simp only [a2] at hm
  have hmc := mergeDirs_config (M := M) (disk := s2.world.disk) (dir := c.dir) (ns := [str!"static", str!"temp"])
    (s := (c'.built M s2.world.disk).stuart)
  rw [oc2, hcp.2.2.2] at hmc
  generalize hg : mergeDirs M s2.world.disk c.dir [str!"static", str!"temp"] (c'.built M s2.world.disk).stuart = g at hm hmc
  obtain ⟨p2, r⟩ := g
  obtain ⟨hm1, hm2⟩ := hm
  simp only at hm1 hm2 hmc
  subst hm2
  have hstep2 : (s2.world.step (.clear (c.dir ++ [str!"temp"]))).1.disk = s2.world.disk ∧
      (s2.world.step (.clear (c.dir ++ [str!"temp"]))).1.Calm := by
    have : (Op.clear (c.dir ++ [str!"temp"])).apply s2.world.disk = some s2.world.disk := by
      simp only [Op.apply, at_none_iff.2 htemp2]
    exact (World.calm_step hcalm2 this).2
  have hpar : look s2.world.disk c.outPath.dropLast = some .dir := by
    refine look_above (r := [c.outPath.getLast ha.nonroot]) (by simp) ?_
    rw [List.dropLast_concat_getLast, houtdir]; nofun
  have sv2 : (saveNode c.stuart.config c.outPath (.dir name ms src) (s2.world.step (.clear (c.dir ++ [str!"temp"]))).1).2 = .ok () := by
    refine saveNode_again (w1 := (s.world.step (.clear (c.dir ++ [str!"temp"]))).1) ha.nonroot hpl (by rw [a4]) hstep2.2 ?_ ?_
    · rw [hstep2.1]; exact hpar
    · rw [hstep2.1]; exact .inr houtdir
  generalize hsv : saveNode c.stuart.config c.outPath (.dir name ms src) (s2.world.step (.clear (c.dir ++ [str!"temp"]))).1 = sv at sv2
  obtain ⟨w2, r⟩ := sv
  simp only at sv2
  subst sv2
  have hps : p2.save (c'.built M s2.world.disk).outPath (s2.world.step (.clear ((c'.built M s2.world.disk).dir ++ [str!"temp"]))).1 =
      (w2, .ok ()) := by
    unfold Project.save
    rw [hm1, hmc]
    show saveNode c.stuart.config c'.outPath _ (s2.world.step (.clear (c'.dir ++ _))).1 = _
    rw [hcp.2.1, hcp.1]; exact hsv
  have hpe := Context.publish_eq (M := M) (c := c'.built M s2.world.disk) (s := s2) (p := p2) (w := w2)
    (by show mergeDirs M s2.world.disk c'.dir _ _ = _; rw [hcp.1]; exact hg) hps
  have hw2out : ∀ q, ¬ c.outPath <+: q → look w2.disk q = look s2.world.disk q := by
    intro q hq
    have := C41_outside_partial c.stuart.config c.outPath name src ms
      (s2.world.step (.clear (c.dir ++ [str!"temp"]))).1 hpl q hq
    rw [hsv, hstep2.1] at this; exact this
  have hcalmw2 : w2.Calm := by
    have := runOps_calm (os := .clear c.outPath :: .mkdir c.outPath :: saveAll c.stuart.config c.outPath ms) hstep2.2
    rw [saveNode] at hsv
    rw [hsv] at this; exact this
  have hexp2 : ∃ v2, exportMeta M { c'.built M s2.world.disk with stuart := p2 } w2 = (v2, .ok ()) := by
    unfold exportMeta
    simp only
    split
    · rename_i hsm
      have hsm' : p.config.saveMetadata = true := by rw [a3, ← hmc]; exact hsm
      rcases exportMeta_ok (c := c.built M s.world.disk) a2 a5 with ⟨e, _⟩ | ⟨v, _, hv, e⟩
      · rw [e] at hsm'; cases hsm'
      · unfold Project.saveMetadata
        simp only [hsm, hm1, Bool.not_true, Bool.false_eq_true, if_false]
        unfold saveMetaNode
        rw [hv]
        simp only
        rw [show (c'.built M s2.world.disk).dir ++ [str!"metadata.json"] = c.metaPath from hcp.2.2.1]
        generalize bytesOf _ = bts
        have hlook : look w2.disk c.metaPath ≠ none ∧ look w2.disk c.metaPath ≠ some .dir ∧ look w2.disk c.metaPath ≠ some .special := by
          rw [hw2out _ ha.metadata]
          obtain ⟨x1, x2⟩ := runOps_cons_ok (by rw [e])
          rw [x2] at e
          have e : (w.step _).1 = s2.world := congrArg Prod.fst e
          rw [← e, (adds_step (by simp [Op.Adds, Context.metaPath]) (World.step_ok x1) _).1]
          simp only [Op.seen, hmp, if_true]
          exact ⟨by nofun, by nofun, by nofun⟩
        have hap : ∃ d, (Op.write c.metaPath bts).apply w2.disk = some d := by
          simp only [Op.apply]
          cases hat : w2.disk.at c.metaPath with
          | none => exact absurd (at_none_iff.1 hat) hlook.1
          | some x =>
            rw [look_of_at hat] at hlook
            cases x with
            | file _ => exact ⟨_, rfl⟩
            | dir _ => exact absurd rfl hlook.2.1
            | special => exact absurd rfl hlook.2.2
        obtain ⟨d, hap⟩ := hap
        refine ⟨(w2.step (.write c.metaPath bts)).1, ?_⟩
        rw [runOps, if_pos (World.calm_step hcalmw2 hap).1, runOps]
        rfl
    · exact ⟨_, rfl⟩
  obtain ⟨v2, hexp2⟩ := hexp2
  rw [hexp2] at hpe
  have hfinal : (c'.build M s2).2 = ({ s2 with world := v2 }, .ok ()) := by
    rw [(C51_stops M c' s2).2 s2 _ _ e1 r2 hpe, ← hc', hs.2]; rfl
  show (c'.build M s2).2.2 = _ ∧ ∀ q, look (c'.build M s2).2.1.world.disk q = _
  rw [hfinal]
  refine ⟨rfl, fun q => ?_⟩
  have hpub2 : Publishes M c' s2 { s2 with world := v2 } name src cs := ⟨r2, hpe⟩
  have hs' : SameProject c c' := hsame
  have hin' : SameInputs c s.world.disk s2.world.disk := by
    obtain ⟨i1, i2, i3⟩ := hin
    rw [← hsame.content] at i1
    rw [hcp.1] at i2 i3
    exact ⟨i1.symm, i2.symm, i3.symm⟩
  obtain ⟨f1, f2⟩ := C47_same_partial c c' hs' s s2 s2 { s2 with world := v2 } name src name src cs cs hpub hpub2 hin' hd
    ha.nonroot (hn _ _ _ h2) hdots
  by_cases hq : c.outPath <+: q
  · obtain ⟨r, rfl⟩ := hq
    exact (f1 r).symm
  · have hmp2 : (c'.built M s2.world.disk).metaPath = c.metaPath := hcp.2.2.1
    have hc2 : p2.config = c.stuart.config := hmc
    show look v2.disk q = _
    rw [exportMeta_look (c := c'.built M s2.world.disk) hm1 hexp2 q, hmp2, hc2]
    split
    · rename_i hqm
      rw [hqm.2]
      exact (f2 hqm.1).symm
    · exact hw2out q hq

/-- C47. Building again changes nothing: if a build without scripts and temporary files succeeds then, with no mishaps,
a second build right after it succeeds too, and the whole disk looks the same as after the first. This holds for output
directories apart from the inputs; otherwise not (`C47_counterexample`). -/
theorem C47_again_partial (c : Context) (hs : c.pre = [] ∧ c.post = []) (ha : OutputApart c) (s : Host) (hcalm : s.world.Calm)
    (htemp : look s.world.disk (c.dir ++ [str!"temp"]) = none) (hd : ProperDisk s.world.disk)
    (hn : ∀ name cs src, readBuild M.sys s.world.disk c.mode c.stuart = .ok (.dir name cs src) → PlainNames c.stuart.config cs)
    (hdots : NoDots c.stuart.config s.world.disk c.dir)
    (h : (c.build M s).2.2 = .ok ()) :
    let again := (c.build M s).1.build M (c.build M s).2.1
    again.2.2 = .ok () ∧ ∀ q, look again.2.1.world.disk q = look (c.build M s).2.1.world.disk q :=
  (build_again c hs ha s hcalm htemp hd hn hdots h).1

/-- A project with a page in the content, a static file, and metadata switched on. -/
def againContext : Context := { demoContext with
  stuart := { dir := [str!"p", str!"content"], config := { Config.default with saveMetadata := true } } }

/-- `C47_same_partial` for two disks with different old sites. -/
example :
    let disk' := Entry.put fullDisk [str!"p", str!"dist"] none
    ∀ s2', Publishes idleMachine demoContext ⟨⟨disk', []⟩, []⟩ s2' str!"content" str!"/p/content" fullTree →
    ∀ r, look (fullAfter demoContext).world.disk (demoContext.outPath ++ r) = look s2'.world.disk (demoContext.outPath ++ r) :=
  fun s2' h => (C47_same_partial _ _ ⟨rfl, rfl, rfl, rfl, rfl, rfl⟩ _ _ _ _ _ _ _ _ _ _ full_publishes h ⟨rfl, rfl, rfl⟩
    fullDisk_proper (by decide) (by unfold fullTree; plain_names) (fullDisk_noDots _)).1

example : Publishes idleMachine demoContext ⟨⟨Entry.put fullDisk [str!"p", str!"dist"] none, []⟩, []⟩
    ((demoContext.built idleMachine fullDisk).publish idleMachine
      ⟨⟨Entry.put fullDisk [str!"p", str!"dist"] none, []⟩, []⟩).2.1
    str!"content" str!"/p/content" fullTree := ⟨rfl, rfl⟩

/-- The output directory of the examples is apart from the rest. -/
theorem againContext_apart : OutputApart againContext where
  nonroot := by decide
  layout := rfl
  content := by constructor <;> decide
  static := by constructor <;> decide
  temp := by decide
  metadata := by decide

example :
    let disk := Entry.dir [(str!"p", .dir [(str!"content", .dir [(str!"a.txt", .file [1])]),
      (str!"static", .dir [(str!"b.css", .file [2])]), (str!"dist", .dir [(str!"old", .file [3])])])]
    let r1 := againContext.build idleMachine ⟨⟨disk, []⟩, []⟩
    let r2 := r1.1.build idleMachine r1.2.1
    r1.2.2 = .ok () ∧ r2.2.2 = .ok () ∧
    look r2.2.1.world.disk [str!"p", str!"dist", str!"b.css"] = some (.file [2]) ∧
    look r2.2.1.world.disk [str!"p", str!"dist", str!"old"] = none ∧
    look r1.2.1.world.disk [str!"p", str!"metadata.json"] ≠ none := ⟨rfl, rfl, rfl, rfl, by nofun⟩

/-- The disk of a project with a page, a static file and an older site. -/
def againDisk : Entry := .dir [(str!"p", .dir [(str!"content", .dir [(str!"a.txt", .file [1])]),
  (str!"static", .dir [(str!"b.css", .file [2])]), (str!"dist", .dir [(str!"old", .file [3])])])]

/-- `C47_again_partial` for it. -/
example :
    let r := againContext.build idleMachine ⟨⟨againDisk, []⟩, []⟩
    (r.1.build idleMachine r.2.1).2.2 = .ok () ∧
    ∀ q, look (r.1.build idleMachine r.2.1).2.1.world.disk q = look r.2.1.world.disk q := by
  refine C47_again_partial againContext ⟨rfl, rfl⟩ againContext_apart _ (by nofun) rfl (by unfold againDisk; proper_disk) ?_ ?_ rfl
  · intro name cs src h
    cases h
    plain_names
  · refine noDots_of_lacks ?_
    simp only [List.mem_cons, List.not_mem_nil, or_false, forall_eq_or_imp, forall_eq]
    exact ⟨fun e h => by cases h; lacks_name, fun e h => by cases h⟩

/-- C47. With the project directory itself as the output directory (`-o /p`) the first build succeeds, and removes the
content; the second fails. -/
theorem C47_counterexample :
    let c := { demoContext with output := str!"/p" }
    let r1 := c.build idleMachine ⟨⟨freshDisk, []⟩, []⟩
    r1.2.2 = .ok () ∧ look r1.2.1.world.disk [str!"p", str!"content"] = none ∧
    (r1.1.build idleMachine r1.2.1).2.2 = .err (.core (.fs (.notFound str!"/p/content"))) := ⟨rfl, rfl, rfl⟩

/-! ### Cases: each theorem applied to something that meets its hypotheses -/

example := C46_build idleMachine scriptContext ⟨⟨fullDisk, []⟩, []⟩ [str!"p", str!"dist", str!"t.css"] (fun _ _ _ _ => rfl) rfl

end Stuart
