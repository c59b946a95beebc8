import Verif.Model.Imgopt
import Verif.Proof.Blame
import Verif.Proof.PluginOrder
import Verif.Props.Rebuild
/-
Properties C79, C80, C81: plugins for types of files, the image optimiser, and the order of plugins.
-/
namespace Stuart
open Spec

variable (S : Sys) (disk : Entry) (mode : Str) (s : Project)

/-! ### C79 -/

/-- C79. A plugin without functions that is added to a project which builds with it changes nothing but the files it
handles: the project also builds without it, with the same directories, and every file whose original the plugin does
not handle is the same, in the same place. -/
theorem C79_frame (P : Plugin) (hf : P.fns.functions = []) (hd : ProperDisk disk) (nm src : Str) (os' : List Node)
    (h : readBuild S disk mode { s with plugins := s.plugins ++ [P] } = .ok (.dir nm os' src)) :
    ∃ os, readBuild S disk mode s = .ok (.dir nm os src) ∧
      (∀ ds n, Shows os ds n .dir ↔ Shows os' ds n .dir) ∧
      ∀ ds n b p m from' orig, LastName from' orig → ¬ Handles P orig →
        (Shows os ds n (.file b p m from') ↔ Shows os' ds n (.file b p m from')) := by
  obtain ⟨nm1, src1, os, os1, h1, h2, h3⟩ := readBuild_back hf hd h
  cases h1
  have dirs : ∀ {R : Node → Node → Prop} {as bs : List Node}, PairAll R as bs → ∀ ds n, Shows as ds n .dir → Shows bs ds n .dir := by
    rintro R as bs hp ds n ⟨x, k1, rfl, k2⟩
    cases x with
    | file => cases k2
    | dir nm xs s =>
      obtain ⟨xs', k3⟩ := hp.holds_dir k1
      exact ⟨_, k3, rfl, rfl⟩
  refine ⟨os, h2, fun ds n => ⟨dirs h3 ds n, dirs h3.flip ds n⟩, ?_⟩
  intro ds n b p m from' orig hl ho
  constructor
  · rintro ⟨x, k1, rfl, k2⟩
    cases x with
    | dir => cases k2
    | file x1 x2 x3 x4 x5 =>
      cases k2
      obtain ⟨y1, y2, y3, y4, y5, k3, k4⟩ := h3.holds_file k1
      cases k3 with
      | same => exact ⟨_, k4, rfl, rfl⟩
      | new _ _ _ d _ _ _ ht hs hk => exact absurd (lastName_pathStr hk (hs ▸ hl) ▸ ht.1) ho
  · rintro ⟨x, k1, rfl, k2⟩
    cases x with
    | dir => cases k2
    | file x1 x2 x3 x4 x5 =>
      cases k2
      obtain ⟨y1, y2, y3, y4, y5, k3, k4⟩ := h3.flip.holds_file k1
      cases k3 with
      | same => exact ⟨_, k4, rfl, rfl⟩
      | new _ _ _ d _ _ _ ht hs hk => exact absurd (lastName_pathStr hk (hs ▸ hl) ▸ ht.1) ho

/-- C79. The files of a type that is left to plugins are read by the first parser for it, and the results are in the
output: with the name and the contents the plugin chose or else the original ones, beside the other files of their
directory. -/
theorem C79_processed (hd : ProperDisk disk) (root : Str) (os : List Node) (src : Str)
    (h : readBuild S disk mode s = .ok (.dir root os src)) (ds : List Str) (nm e : Str) (b : Bytes) (q : NodeParser)
    (hb : look disk (s.dir ++ ds ++ [nm]) = some (.file b)) (he : HasExt nm e) (hk : ¬ Known e) (hq : FirstParser s.plugins e q) :
    ∃ c, q.parse b (pathStr (s.dir ++ ds ++ [nm])) = .ok c ∧
      (∃ nm' b' p' m', Shows os ds nm' (.file b' p' m' (pathStr (s.dir ++ ds ++ [nm])))) ∧
      ∀ nm' b' p' m', Shows os ds nm' (.file b' p' m' (pathStr (s.dir ++ ds ++ [nm]))) →
        ∃ r t out, c.process r t = .ok out ∧ nm' = out.newName.getD nm ∧ b' = out.newContents.getD b ∧ p' = .none ∧
          m' = if s.config.saveMetadata then some c.toJson else none := by
  obtain ⟨nm0, cs, ms, os1, cx, bu, h1, h2, h3, h4, h5⟩ := readBuild_steps h
  cases h5
  obtain ⟨nm2, cs2, k1, -, -, -, k3⟩ := C62_mirror S s.plugins disk s.dir true hd _ h1
  cases k1
  have hne : nm ≠ str!"root.html" ∧ nm ≠ str!"md.html" := by
    constructor
    · rintro rfl; exact hk (.inl (hasExt_unique he ⟨str!"root", by decide, rfl, by decide⟩))
    · rintro rfl; exact hk (.inl (hasExt_unique he ⟨str!"md", by decide, rfl, by decide⟩))
  -- what the file is read as
  have hread : ∃ c, q.parse b (pathStr (s.dir ++ ds ++ [nm])) = .ok c := by
    obtain ⟨c, hr⟩ := ((C63_succeeds S s.plugins disk s.dir hd).1 ⟨_, h1⟩).2.2.2 ds nm b hb
    cases hr with
    | html he' => exact absurd (.inl (hasExt_unique he he')) hk
    | markdown he' => exact absurd (.inr (.inl (hasExt_unique he he'))) hk
    | json he' => exact absurd (.inr (.inr (hasExt_unique he he'))) hk
    | custom he' _ _ _ hq' hp =>
      have e1 := hasExt_unique he he'
      subst e1
      have e2 := (findParser_some.2 hq).symm.trans (findParser_some.2 hq')
      cases e2
      exact ⟨_, hp⟩
    | other hu =>
      obtain ⟨ps, p, ps', qs, qs', e1, e2, e3, -⟩ := hq
      exact absurd e3 ((hu e he).2.2.2 p (by rw [e1]; simp) q (by rw [e2]; simp))
  obtain ⟨c, hc⟩ := hread
  have hr : ReadAs S s.plugins nm (pathStr (s.dir ++ ds ++ [nm])) b (.custom c) :=
    .custom he (fun h => hk (.inl h)) (fun h => hk (.inr (.inl h))) (fun h => hk (.inr (.inr h))) hq hc
  refine ⟨c, hc, ?_, ?_⟩
  · obtain ⟨x, l1, l2, l3⟩ := (k3 ds nm b (.custom c) none _).2 ⟨hb, rfl, rfl, .inl ⟨rfl, hr⟩⟩
    cases x with
    | dir => cases l3
    | file x1 =>
      cases l3
      obtain rfl : x1 = nm := l2
      obtain ⟨_, _, out, l4, l5⟩ := built_custom h3 h4 hne l1
      exact ⟨_, _, _, _, _, l5, rfl, rfl⟩
  · rintro nm' b' p' m' ⟨x, l1, rfl, l2⟩
    cases x with
    | dir => cases l2
    | file =>
      cases l2
      obtain ⟨n1, b1, p1, m1, l3, l4⟩ := built_from h3 h4 l1
      obtain ⟨l5, rfl, l6, l7⟩ := (k3 ds n1 b1 p1 m1 _).1 ⟨_, l3, rfl, rfl⟩
      have := pathStr_snoc l6
      subst this
      rw [hb] at l5
      cases l5
      rcases l7 with ⟨-, l7⟩ | ⟨l7, -⟩
      · have := (parseContents_ok.2 hr).symm.trans (parseContents_ok.2 l7)
        cases this
        rw [h2] at l4
        exact l4 c rfl hne.1 hne.2
      · cases l7

/-- C79. A project that builds also builds with such a plugin at the end of the list if the plugin can read and process
every file of the content directory that only it handles. -/
theorem C79_succeeds (P : Plugin) (hf : P.fns.functions = []) (hd : ProperDisk disk) (out : Node)
    (h : readBuild S disk mode s = .ok out)
    (hm : ∀ ds nm b, look disk (s.dir ++ ds ++ [nm]) = some (.file b) → Handles P nm → (∀ p ∈ s.plugins, ¬ Handles p nm) →
      ∀ q ∈ P.parsers, (∃ e ∈ q.extensions, HasExt nm e) →
        ∃ c, q.parse b (pathStr (s.dir ++ ds ++ [nm])) = .ok c ∧ ∀ r t, ∃ o, c.process r t = .ok o) :
    ∃ out', readBuild S disk mode { s with plugins := s.plugins ++ [P] } = .ok out' :=
  readBuild_forth hf hd (fun ds nm b hb ht q hq he => hm ds nm b (look_of_at hb) ht.1 ht.2 q hq he) h

/-- C79. A project that builds, but not with such a plugin: then the error, or the panic, is the plugin's own, made in
reading or processing a file of the content directory that only it handles. -/
theorem C79_fails (P : Plugin) (hf : P.fns.functions = []) (hd : ProperDisk disk) (out : Node)
    (h : readBuild S disk mode s = .ok out)
    (hn : ∀ out', readBuild S disk mode { s with plugins := s.plugins ++ [P] } ≠ .ok out') :
    ∃ ds nm b q, look disk (s.dir ++ ds ++ [nm]) = some (.file b) ∧ Handles P nm ∧ (∀ p ∈ s.plugins, ¬ Handles p nm) ∧
      q ∈ P.parsers ∧ (∃ e ∈ q.extensions, HasExt nm e) ∧
      ((∃ t, readBuild S disk mode { s with plugins := s.plugins ++ [P] } = .err (.plugin t) ∧
        (q.parse b (pathStr (s.dir ++ ds ++ [nm])) = .err t ∨
          ∃ c r m, q.parse b (pathStr (s.dir ++ ds ++ [nm])) = .ok c ∧ c.process r m = .err t)) ∨
       (∃ p, readBuild S disk mode { s with plugins := s.plugins ++ [P] } = .panic p ∧
        (q.parse b (pathStr (s.dir ++ ds ++ [nm])) = .panic p ∨
          ∃ c r m, q.parse b (pathStr (s.dir ++ ds ++ [nm])) = .ok c ∧ c.process r m = .panic p))) := by
  have key := readBuild_blame (S := S) (mode := mode) (s := s) (P := P)
    (Bad := fun v => ∃ ds nm b q, look disk (s.dir ++ ds ++ [nm]) = some (.file b) ∧ Handles P nm ∧ (∀ p ∈ s.plugins, ¬ Handles p nm) ∧
      q ∈ P.parsers ∧ (∃ e ∈ q.extensions, HasExt nm e) ∧
      ((∃ t, v = .err (.plugin t) ∧
        (q.parse b (pathStr (s.dir ++ ds ++ [nm])) = .err t ∨
          ∃ c r m, q.parse b (pathStr (s.dir ++ ds ++ [nm])) = .ok c ∧ c.process r m = .err t)) ∨
       (∃ p, v = .panic p ∧
        (q.parse b (pathStr (s.dir ++ ds ++ [nm])) = .panic p ∨
          ∃ c r m, q.parse b (pathStr (s.dir ++ ds ++ [nm])) = .ok c ∧ c.process r m = .panic p))))
    (by rintro ⟨_, _, _, _, _, _, _, _, _, ⟨_, h, _⟩ | ⟨_, h, _⟩⟩ <;> cases h) hf hd (by
      intro ds nm b hb ht q hq he
      cases hp : q.parse b (pathStr (s.dir ++ ds ++ [nm])) with
      | err t => exact .inr ⟨ds, nm, b, q, look_of_at hb, ht.1, ht.2, hq, he, .inl ⟨t, rfl, .inl hp⟩⟩
      | panic p => exact .inr ⟨ds, nm, b, q, look_of_at hb, ht.1, ht.2, hq, he, .inr ⟨p, rfl, .inl hp⟩⟩
      | ok c =>
        refine .inl ⟨c, rfl, fun r m => ?_⟩
        cases hc : c.process r m with
        | ok o => exact .inl ⟨o, rfl⟩
        | err t => exact .inr ⟨ds, nm, b, q, look_of_at hb, ht.1, ht.2, hq, he, .inl ⟨t, rfl, .inr ⟨c, r, m, hp, hc⟩⟩⟩
        | panic p => exact .inr ⟨ds, nm, b, q, look_of_at hb, ht.1, ht.2, hq, he, .inr ⟨p, rfl, .inr ⟨c, r, m, hp, hc⟩⟩⟩) h
  rcases key with ⟨out', k⟩ | ⟨ds, nm, b, q, k1, k2, k3, k4, k5, k6⟩
  · exact absurd k (hn out')
  · refine ⟨ds, nm, b, q, k1, k2, k3, k4, k5, ?_⟩
    rcases k6 with ⟨t, k, k'⟩ | ⟨p, k, k'⟩
    · exact .inl ⟨t, by rwa [verdict_err] at k, k'⟩
    · exact .inr ⟨p, by rwa [verdict_panic] at k, k'⟩

/-! ### C80 -/

/-- C80. With the image optimiser, if no other plugin is for PNG files, every PNG file of the content directory is in the
output under its own name, and its contents are what the optimiser makes of the original contents. -/
theorem C80_optimised (optimize : Bytes → Except Str Bytes) (hd : ProperDisk disk)
    (hp : ∀ p ∈ s.plugins, ∀ q ∈ p.parsers, str!"png" ∉ q.extensions) (root : Str) (os : List Node) (src : Str)
    (h : readBuild S disk mode { s with plugins := s.plugins ++ [imgopt optimize] } = .ok (.dir root os src))
    (ds : List Str) (nm : Str) (b : Bytes) (hb : look disk (s.dir ++ ds ++ [nm]) = some (.file b)) (he : HasExt nm str!"png") :
    ∃ o, optimize b = .ok o ∧ ∀ nm' b' p' m', Shows os ds nm' (.file b' p' m' (pathStr (s.dir ++ ds ++ [nm]))) ↔
      nm' = nm ∧ b' = o ∧ p' = .none ∧
        m' = if s.config.saveMetadata then some (.obj [(str!"type", .str str!"custom")]) else none := by
  obtain ⟨c, h1, ⟨n0, b0, p0, m0, h2⟩, h3⟩ := C79_processed S disk mode { s with plugins := s.plugins ++ [imgopt optimize] } hd root os src h ds nm
    str!"png" b (pngParser optimize) hb he (by unfold Known; decide)
    ⟨s.plugins, imgopt optimize, [], [], [], rfl, rfl, List.mem_singleton.2 rfl, fun q hq => (by cases hq), hp⟩
  obtain ⟨r, t, out, k1, k2, k3, k4, k5⟩ := h3 _ _ _ _ h2
  cases h1
  cases ho : optimize b with
  | error e => simp only [pngProcessor, ho] at k1; cases k1
  | ok o =>
    have key : ∀ nm' b' p' m', Shows os ds nm' (.file b' p' m' (pathStr (s.dir ++ ds ++ [nm]))) → nm' = nm ∧ b' = o ∧ p' = .none ∧
        m' = if s.config.saveMetadata then some (.obj [(str!"type", .str str!"custom")]) else none := by
      intro nm' b' p' m' hs
      obtain ⟨r, t, out, l1, l2, l3, l4, l5⟩ := h3 _ _ _ _ hs
      simp only [pngProcessor, ho] at l1
      cases l1
      exact ⟨l2, l3, l4, l5⟩
    refine ⟨o, rfl, fun nm' b' p' m' => ⟨key nm' b' p' m', ?_⟩⟩
    rintro ⟨rfl, rfl, rfl, rfl⟩
    obtain ⟨rfl, rfl, rfl, rfl⟩ := key _ _ _ _ h2
    exact h2

theorem handles_imgopt {optimize : Bytes → Except Str Bytes} {nm : Str} : Handles (imgopt optimize) nm ↔ HasExt nm str!"png" := by
  constructor
  · rintro ⟨e, h1, -, q, h2, h3⟩
    rw [List.mem_singleton.1 h2] at h3
    rwa [← List.mem_singleton.1 h3]
  · exact fun h => ⟨_, h, by unfold Known; decide, _, List.mem_singleton.2 rfl, List.mem_singleton.2 rfl⟩

/-- C80. All other files, and all directories, are as they are without the optimiser. -/
theorem C80_rest (optimize : Bytes → Except Str Bytes) (hd : ProperDisk disk) (nm src : Str) (os' : List Node)
    (h : readBuild S disk mode { s with plugins := s.plugins ++ [imgopt optimize] } = .ok (.dir nm os' src)) :
    ∃ os, readBuild S disk mode s = .ok (.dir nm os src) ∧
      (∀ ds n, Shows os ds n .dir ↔ Shows os' ds n .dir) ∧
      ∀ ds n b p m from' orig, LastName from' orig → ¬ HasExt orig str!"png" →
        (Shows os ds n (.file b p m from') ↔ Shows os' ds n (.file b p m from')) := by
  obtain ⟨os, h1, h2, h3⟩ := C79_frame S disk mode s (imgopt optimize) rfl hd nm src os' h
  exact ⟨os, h1, h2, fun ds n b p m f o hl ho => h3 ds n b p m f o hl (fun hh => ho (handles_imgopt.1 hh))⟩

/-- C80. The project builds with the optimiser iff it builds without it and all PNG files of the content directory can be
optimised: one broken picture stops the build. -/
theorem C80_succeeds (optimize : Bytes → Except Str Bytes) (hd : ProperDisk disk)
    (hp : ∀ p ∈ s.plugins, ∀ q ∈ p.parsers, str!"png" ∉ q.extensions) :
    (∃ out, readBuild S disk mode { s with plugins := s.plugins ++ [imgopt optimize] } = .ok out) ↔
      (∃ out, readBuild S disk mode s = .ok out) ∧
      ∀ ds nm b, look disk (s.dir ++ ds ++ [nm]) = some (.file b) → HasExt nm str!"png" → ∃ o, optimize b = .ok o := by
  constructor
  · rintro ⟨out, h⟩
    obtain ⟨nm, src, os, os', rfl, h1, -⟩ := readBuild_back rfl hd h
    refine ⟨⟨_, h1⟩, fun ds n b hb he => ?_⟩
    obtain ⟨o, ho, -⟩ := C80_optimised S disk mode s optimize hd hp nm os' src h ds n b hb he
    exact ⟨o, ho⟩
  · rintro ⟨⟨out, h⟩, hopt⟩
    refine C79_succeeds S disk mode s (imgopt optimize) rfl hd out h ?_
    intro ds nm b hb hh _ q hq _
    obtain ⟨o, ho⟩ := hopt ds nm b hb (handles_imgopt.1 hh)
    rw [List.mem_singleton.1 hq]
    exact ⟨_, rfl, fun _ _ => ⟨{ newContents := some o, newName := none }, by simp only [pngProcessor, ho]⟩⟩

/-- C80. If a project builds without the optimiser but not with it, the error is that of a picture that could not be
optimised, in these words. -/
theorem C80_error (optimize : Bytes → Except Str Bytes) (hd : ProperDisk disk) (out : Node)
    (h : readBuild S disk mode s = .ok out)
    (hn : ∀ out', readBuild S disk mode { s with plugins := s.plugins ++ [imgopt optimize] } ≠ .ok out') :
    ∃ ds nm b t, look disk (s.dir ++ ds ++ [nm]) = some (.file b) ∧ HasExt nm str!"png" ∧ optimize b = .error t ∧
      readBuild S disk mode { s with plugins := s.plugins ++ [imgopt optimize] } = .err (.plugin (str!"png optimization error: " ++ t)) := by
  obtain ⟨ds, nm, b, q, h1, h2, -, h4, -, h6⟩ := C79_fails S disk mode s (imgopt optimize) rfl hd out h hn
  rw [List.mem_singleton.1 h4] at h6
  have he := handles_imgopt.1 h2
  rcases h6 with ⟨t, k, k' | ⟨c, r, m, k1, k2⟩⟩ | ⟨t, k, k' | ⟨c, r, m, k1, k2⟩⟩
  · cases k'
  · cases k1
    simp only [pngProcessor] at k2
    split at k2
    · rename_i e ho
      cases k2
      exact ⟨ds, nm, b, e, h1, he, ho, k⟩
    · cases k2
  · cases k'
  · cases k1
    simp only [pngProcessor] at k2
    split at k2 <;> cases k2

/-! ### C81 -/

/-- C81. The order of the plugins does not matter to anything a build does, with its scripts and everything it writes, if
no name of a function and no type of files is for two of them. -/
theorem C81_order_partial (M : Machine) (c : Context) (host : Host) (ps : List Plugin) (hp : c.stuart.plugins.Perm ps)
    (ha : c.stuart.plugins.Pairwise Independent) :
    (({ c with stuart := { c.stuart with plugins := ps } } : Context).build M host).2 = (c.build M host).2 :=
  (congrArg Prod.snd (contextBuild_plugins (M := M) (c := c) (s := host) fun disk => readTree_perm hp ha true disk c.stuart.dir) :)

/-- A plugin with one function that puts this into the page. -/
def sayPlugin (name fn out : Str) : Plugin :=
  ⟨⟨name, [⟨fn, fun _ => .ok ⟨some fn, fun _ => .ok ([], bytesOf out)⟩⟩]⟩, []⟩

/-- A plugin that puts this in place of the contents of files with this extension. -/
def typePlugin (name ext : Str) (out : Bytes) : Plugin :=
  ⟨⟨name, []⟩, [⟨[ext], fun _ _ => .ok ⟨fun _ _ => .ok ⟨some out, none⟩, .obj [(str!"type", .str name)]⟩⟩]⟩

/-- A project whose one page calls `hi`. -/
def hiDisk : Entry := .dir [(str!"p", .dir [(str!"content", .dir [
  (str!"root.html", .file (bytesOf str!"{{ insert(\"c\") }}")),
  (str!"a.html", .file (bytesOf str!"{{ begin(\"c\") }}{{ hi() }}{{ end(\"c\") }}"))])])]

/-- A project with a style sheet and a picture. -/
def sheetDisk : Entry := .dir [(str!"p", .dir [(str!"content", .dir [(str!"x.css", .file [1]), (str!"i", .dir [(str!"y.png", .file [8])])])])]

/-- The example project with these plugins. -/
def pluginContext (ps : List Plugin) : Context := { demoContext with stuart := { demoContext.stuart with plugins := ps } }

/-- C81. The condition is needed: with two plugins that have a function of the same name, the page that calls it depends
on their order, which is that of a hash table. -/
theorem C81_counterexample :
    let built := fun ps => ((pluginContext ps).build idleMachine ⟨⟨hiDisk, []⟩, []⟩).2.1.world.disk
    let page := [str!"p", str!"dist", str!"a", str!"index.html"]
    look (built [sayPlugin str!"one" str!"hi" str!"1", sayPlugin str!"two" str!"hi" str!"2"]) page = some (.file (bytesOf str!"1")) ∧
    look (built [sayPlugin str!"two" str!"hi" str!"2", sayPlugin str!"one" str!"hi" str!"1"]) page = some (.file (bytesOf str!"2")) := by
  refine ⟨?_, ?_⟩
  · decide +kernel
  · decide +kernel

/-- C81. So does a file of a type that two plugins handle. -/
theorem C81_counterexample_type :
    let built := fun ps => ((pluginContext ps).build idleMachine ⟨⟨sheetDisk, []⟩, []⟩).2.1.world.disk
    let sheet := [str!"p", str!"dist", str!"x.css"]
    look (built [typePlugin str!"a" str!"css" [2], typePlugin str!"b" str!"css" [3]]) sheet = some (.file [2]) ∧
    look (built [typePlugin str!"b" str!"css" [3], typePlugin str!"a" str!"css" [2]]) sheet = some (.file [3]) := by
  refine ⟨?_, ?_⟩
  · rfl
  · rfl

/-! ### Cases: each theorem applied to something that meets its hypotheses -/

/-- The project of the examples. -/
def sheetProject : Project := { dir := [str!"p", str!"content"] }

theorem sheetDisk_proper : ProperDisk sheetDisk := by unfold sheetDisk; proper_disk

/-- What the project builds to, with a plugin for style sheets. -/
theorem sheet_built : readBuild demoSys sheetDisk [] { sheetProject with plugins := sheetProject.plugins ++ [typePlugin str!"a" str!"css" [2]] } =
    .ok (.dir str!"content" [.file str!"x.css" [2] .none none str!"/p/content/x.css",
      .dir str!"i" [.file str!"y.png" [8] .none none str!"/p/content/i/y.png"] str!"/p/content/i"] str!"/p/content") := rfl

example := C79_frame demoSys sheetDisk [] sheetProject (typePlugin str!"a" str!"css" [2]) rfl sheetDisk_proper _ _ _ sheet_built

/-- `C79_frame` is about the picture, but not about the style sheet. -/
example : LastName str!"/p/content/i/y.png" str!"y.png" ∧ ¬ Handles (typePlugin str!"a" str!"css" [2]) str!"y.png" ∧
    Handles (typePlugin str!"a" str!"css" [2]) str!"x.css" := by
  refine ⟨⟨by decide, str!"/p/content/i", rfl⟩, ?_, ⟨str!"css", ⟨str!"x", by decide, rfl, by decide⟩, by unfold Known; decide, _,
    List.mem_singleton.2 rfl, List.mem_singleton.2 rfl⟩⟩
  rintro ⟨e, he, -, q, hq, hm⟩
  have := hasExt_unique he (e' := str!"png") ⟨str!"y", by decide, rfl, by decide⟩
  rw [List.mem_singleton.1 hq, this] at hm
  exact absurd (List.mem_singleton.1 hm) (by decide)

example := C79_processed demoSys sheetDisk [] { sheetProject with plugins := sheetProject.plugins ++ [typePlugin str!"a" str!"css" [2]] }
  sheetDisk_proper _ _ _ sheet_built [] str!"x.css" str!"css" [1] _ rfl ⟨str!"x", by decide, rfl, by decide⟩ (by unfold Known; decide)
  ⟨[], _, [], [], [], rfl, rfl, List.mem_singleton.2 rfl, fun q hq => (by cases hq), fun p hp => (by cases hp)⟩

example := C79_succeeds demoSys sheetDisk [] sheetProject (typePlugin str!"a" str!"css" [2]) rfl sheetDisk_proper _ rfl
  (fun _ _ _ _ _ _ q hq _ => by rw [List.mem_singleton.1 hq]; exact ⟨_, rfl, fun _ _ => ⟨_, rfl⟩⟩)

/-- An optimiser that drops a last zero, and fails on nothing at all. -/
def demoOptimizer (b : Bytes) : Except Str Bytes := if b = [] then .error str!"empty" else .ok (if b.getLast? = some 0 then b.dropLast else b)

/-- A project with two pictures. -/
def pictureDisk (second : Bytes) : Entry := .dir [(str!"p", .dir [(str!"content", .dir [(str!"x.png", .file [7, 0]),
  (str!"i", .dir [(str!"y.png", .file second), (str!"z.gif", .file [5, 0])])])])]

theorem picture_built : readBuild demoSys (pictureDisk [8]) [] { sheetProject with plugins := sheetProject.plugins ++ [imgopt demoOptimizer] } =
    .ok (.dir str!"content" [.file str!"x.png" [7] .none none str!"/p/content/x.png",
      .dir str!"i" [.file str!"y.png" [8] .none none str!"/p/content/i/y.png",
        .file str!"z.gif" [5, 0] .none none str!"/p/content/i/z.gif"] str!"/p/content/i"] str!"/p/content") := rfl

/-- One picture that cannot be optimised stops the build. -/
example : readBuild demoSys (pictureDisk []) [] { sheetProject with plugins := sheetProject.plugins ++ [imgopt demoOptimizer] } =
    .err (.plugin str!"png optimization error: empty") := rfl

theorem brokenDisk_proper : ProperDisk (pictureDisk []) := by unfold pictureDisk; proper_disk

example := C79_fails demoSys (pictureDisk []) [] sheetProject (imgopt demoOptimizer) rfl brokenDisk_proper _ rfl
  (fun out' h => by cases h)
example := C80_error demoSys (pictureDisk []) [] sheetProject demoOptimizer brokenDisk_proper _ rfl (fun out' h => by cases h)

theorem pictureDisk_proper : ProperDisk (pictureDisk [8]) := by unfold pictureDisk; proper_disk

example := C80_optimised demoSys (pictureDisk [8]) [] sheetProject demoOptimizer pictureDisk_proper (fun p hp => by cases hp) _ _ _
  picture_built [] str!"x.png" [7, 0] rfl ⟨str!"x", by decide, rfl, by decide⟩
example := C80_rest demoSys (pictureDisk [8]) [] sheetProject demoOptimizer pictureDisk_proper _ _ _ picture_built
example := C80_succeeds demoSys (pictureDisk [8]) [] sheetProject demoOptimizer pictureDisk_proper (fun p hp => by cases hp)

/-- Two plugins that do not get into each other's way. -/
theorem say_imgopt (name fn out : Str) (optimize : Bytes → Except Str Bytes) : Independent (sayPlugin name fn out) (imgopt optimize) :=
  ⟨fun _ h => (by obtain ⟨_, f, hf, -⟩ := h; cases hf), fun _ h => (by obtain ⟨⟨_, _, _, q, hq, -⟩, _⟩ := h; cases hq)⟩

example := C81_order_partial idleMachine (pluginContext [sayPlugin str!"one" str!"hi" str!"1", imgopt demoOptimizer]) ⟨⟨hiDisk, []⟩, []⟩
  [imgopt demoOptimizer, sayPlugin str!"one" str!"hi" str!"1"] (.swap _ _ _)
  (.cons (fun q hq => by rw [List.mem_singleton.1 hq]; exact say_imgopt ..) (.cons (fun _ h => by cases h) .nil))

end Stuart
