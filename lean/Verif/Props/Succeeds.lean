import Verif.Proof.Succeeds
/-
C93: when a build succeeds.
-/
namespace Stuart
open Spec

/-! ### Saving -/

/-- No directory of the site is called `index.html`. -/
def NoIndexDir (cs : List Node) : Prop := ∀ ds cs' src, ¬ Holds cs ds (.dir str!"index.html" cs' src)

/-- C93. If nothing mishaps, saving succeeds exactly when the output directory is not that of the whole disk, the directory
it is in is there, what is in its place is a directory or nothing, and no file of the site goes where a directory of
the site goes. Not covered: directories called `index.html`, and the names that `C40_saved_partial` leaves out. -/
theorem C93_save_partial (cfg : Config) (path : Path) (name src : Str) (cs : List Node) (w : World) (hn : PlainNames cfg cs)
    (hd : Distinct cs) (hi : NoIndexDir cs) (hcalm : w.Calm) :
    (saveNode cfg path (.dir name cs src) w).2 = .ok () ↔
      path ≠ [] ∧ look w.disk path.dropLast = some .dir ∧ (look w.disk path = none ∨ look w.disk path = some .dir) ∧
      ∀ r b, Goes cfg cs r b → ¬ GoesDir cfg cs r := by
  constructor
  · intro h
    have h0 := h
    rw [saveNode] at h0
    obtain ⟨k1, e1⟩ := runOps_cons_ok h0
    rw [e1] at h0
    obtain ⟨k2, e2⟩ := runOps_cons_ok h0
    have a1 := World.step_ok k1
    have a2 := World.step_ok k2
    have hnone : look (w.step (.clear path)).1.disk path = none := by
      simp only [Op.apply] at a2
      split at a2
      · cases a2
      · rename_i hx; exact at_none_iff.1 hx
    have hp : path ≠ [] := by
      rintro rfl
      rw [look_nil] at hnone
      cases hnone
    obtain ⟨-, s2, s3, s4, -⟩ := C40_saved_partial cfg path name src cs w hp hn h []
    have below : ∀ r b n r', Goes cfg cs r b → ¬ ∃ b', Goes cfg cs (r ++ n :: r') b' := by
      rintro r b n r' hg ⟨b', hg'⟩
      obtain ⟨x, hx⟩ := (C40_saved_partial cfg path name src cs w hp hn h r).2.1 b hg
      obtain ⟨y, hy⟩ := (C40_saved_partial cfg path name src cs w hp hn h (r ++ n :: r')).2.1 b' hg'
      have := look_above (d := (saveNode cfg path (.dir name cs src) w).1.disk) (p := path ++ r) (r := n :: r') (by simp)
        (by rw [List.append_assoc, hy]; simp)
      rw [hx] at this
      cases this
    refine ⟨hp, ?_, ?_, ?_⟩
    · rw [saveNode] at h
      obtain ⟨_, _, _, h3⟩ := clear_mkdir hp h
      exact h3
    · simp only [Op.apply] at a1
      cases hx : w.disk.at path with
      | none => exact .inl (at_none_iff.1 hx)
      | some e =>
        rw [hx] at a1
        cases e with
        | dir l => exact .inr (look_of_at hx)
        | file b =>
          injection a1 with a1
          rw [← a1, look_of_at hx] at hnone
          cases hnone
        | special =>
          injection a1 with a1
          rw [← a1, look_of_at hx] at hnone
          cases hnone
    · intro r b hg hgd
      cases hgd with
      | page h1 h2 h3 => exact below _ _ _ _ hg ⟨_, .page h1 h2 h3⟩
      | @dir ds d cs' s' h1 =>
        generalize he : ds ++ [d] = r at hg
        cases hg with
        | plain g1 g2 g3 =>
          obtain ⟨rfl, h4⟩ := List.append_inj' he rfl
          have := holds_one hd h1 g1 (by simpa [Node.name] using h4)
          cases this
        | page g1 g2 g3 =>
          obtain ⟨rfl, h4⟩ := List.append_inj' he rfl
          cases h4
          exact hi _ _ _ h1
  · rintro ⟨hp, h1, h2, h3⟩
    refine C40_succeeds_partial cfg path name src cs w hp hn hcalm h1 h2 fun r b hg => ⟨?_, h3 r b hg⟩
    cases hg <;> simp

/-! ### The content -/

/-- C93. The content builds exactly when it can be read, its markdown can be converted, and something is made of every
file. -/
theorem C93_content (S : Sys) (d : Entry) (mode : Str) (pr : Project) (hd : ProperDisk d) :
    (∃ out, readBuild S d mode pr = .ok out) ↔
      ∃ name cs ts, Content S pr.plugins d pr.dir (baseFrame S.vars mode) name cs ts ∧
        ∀ ds nm b, look d (pr.dir ++ ds ++ [nm]) = some (.file b) → ∃ nm' b', MadeInto S pr.plugins d pr.dir
          (baseFrame S.vars mode) (.dir name cs (pathStr pr.dir)) (.dir name ts (pathStr pr.dir)) ds nm nm' b' := by
  constructor
  · rintro ⟨out, h⟩
    obtain ⟨name, cs, ts, os, rfl, hrt, hr, hu, -⟩ := built_tree hd h
    refine ⟨name, cs, ts, (content_iff rfl).2 hrt, fun ds nm b hl => ?_⟩
    obtain ⟨c0, hc0⟩ := hr.readable _ _ _ hl
    obtain ⟨c, hc⟩ := hu.convertible _ _ _ _ _ _ ((hr.files ds nm b c0 none _).2 ⟨hl, rfl, rfl, hc0⟩)
    have hh := (shown_file hr hu).2 ⟨hl, rfl, rfl, c0, hc0, hc⟩
    unfold readBuild at h
    rw [hrt.1] at h
    simp only [Res.bind_ok] at h
    unfold buildTree at h
    obtain ⟨mid, h3, h4⟩ := Res.bind_eq_ok.1 h
    obtain ⟨ts', h5, rfl⟩ := preNode_dir_ok.1 h3
    cases h5.symm.trans hrt.2
    obtain ⟨os', h6, _⟩ := buildNode_dir_ok.1 h4
    simp only [Node.children, Option.getD_some, updateEnv_twice] at h6
    obtain ⟨e, l, g1, g2⟩ := holds_under hh (updateEnv ⟨none, none⟩ ts)
    obtain ⟨o, g3, _⟩ := comes_to g1 g2 h6
    obtain ⟨nm', b', m', rfl⟩ := buildNode_file_ok g3
    rw [buildNode] at g3
    exact ⟨nm', b', b, c0, c, hl, hc0, hc, (used_made rfl hr hu g1 g2).2 ⟨m', g3⟩⟩
  · rintro ⟨name, cs, ts, hc, hm⟩
    obtain ⟨h1, h2⟩ := (content_iff rfl).1 hc
    obtain ⟨name', cs', k, hr⟩ := asRead hd h1
    cases k
    have hu := asUsed (base := baseFrame S.vars mode) rfl hr.distinct h2
    obtain ⟨os, ho⟩ := buildNodes_total (b := ⟨⟨.dir name ts (pathStr pr.dir), S.dateFmt⟩, baseFrame S.vars mode, pr.config⟩) ts
      (updateEnv ⟨none, none⟩ ts) fun ds e l x hun hx hf => by
        cases x with
        | dir => cases hf
        | file nm b c m src =>
          obtain ⟨i1, -, -, c0, i2, i3⟩ := (shown_file hr hu).1 (under_holds hun hx)
          obtain ⟨nm', b', b1, c1, c2, j1, j2, j3, hmd⟩ := hm ds nm b i1
          rw [i1] at j1
          cases j1
          cases C63_one_way S pr.plugins _ _ _ _ _ i2 j2
          have := (converted_iff (src := []) rfl).2 i3
          rw [(converted_iff rfl).2 j3] at this
          cases this
          obtain ⟨m', hp⟩ := (used_made (cfg := pr.config) rfl hr hu hun hx).1 hmd
          exact ⟨_, by rw [buildNode]; exact hp⟩
    refine ⟨.dir name os (pathStr pr.dir), ?_⟩
    unfold readBuild
    rw [h1]
    simp only [Res.bind_ok]
    unfold buildTree
    refine Res.bind_eq_ok.2 ⟨_, preNode_dir_ok.2 ⟨ts, h2, rfl⟩, ?_⟩
    refine buildNode_dir_ok.2 ⟨os, ?_, rfl⟩
    simp only [Node.children, Option.getD_some, updateEnv_twice]
    exact ho

/-- C93. There is one way to read the content and to convert its markdown. -/
theorem C93_one_content (S : Sys) (plugins : List Plugin) (d : Entry) (p : Path) (base : Frame) (hb : base.name = str!"base")
    (name name' : Str) (cs cs' ts ts' : List Node) (h : Content S plugins d p base name cs ts)
    (h' : Content S plugins d p base name' cs' ts') : name = name' ∧ cs = cs' ∧ ts = ts' := by
  obtain ⟨h1, h2⟩ := (content_iff hb).1 h
  obtain ⟨k1, k2⟩ := (content_iff hb).1 h'
  rw [h1] at k1
  cases k1
  rw [h2] at k2
  cases k2
  exact ⟨rfl, rfl, rfl⟩

/-! ### The whole build -/

section
variable {M : Machine} {c : Context}

theorem publish_iff {s1 : Host} (hd : ProperDisk s1.world.disk) (hcalm : s1.world.Calm)
    (ht : Tame c.stuart.config c.stuart.plugins s1.world.disk c.dir c.stuart.dir)
    (htemp : ¬ c.dir ++ [str!"temp"] <+: c.outPath)
    (hmeta : c.stuart.config.saveMetadata = true → ¬ c.outPath <+: c.dir ++ [str!"metadata.json"])
    {name : Str} {cs ts : List Node}
    (hc : Content M.sys c.stuart.plugins s1.world.disk c.stuart.dir (baseFrame M.sys.vars c.mode) name cs ts)
    (ha : NamesApart M.sys c.stuart.plugins s1.world.disk c.dir c.stuart.dir (baseFrame M.sys.vars c.mode)
      (.dir name cs (pathStr c.stuart.dir)) (.dir name ts (pathStr c.stuart.dir)))
    {out : Node} (hb : readBuild M.sys s1.world.disk c.mode c.stuart = .ok out) :
    ((c.built M s1.world.disk).publish M s1).2.2 = .ok () ↔
      Publishable M.sys c.stuart.plugins s1.world.disk c.dir c.stuart.dir (baseFrame M.sys.vars c.mode)
        (.dir name cs (pathStr c.stuart.dir)) (.dir name ts (pathStr c.stuart.dir)) c.stuart.config c.outPath := by
  obtain ⟨name', cs', ts', os, rfl, hrt, hr, hu, hdirs, hnone, hfiles⟩ := built_tree hd hb
  obtain ⟨rfl, rfl, rfl⟩ := C93_one_content _ _ _ _ _ rfl _ _ _ _ _ _ hc ((content_iff rfl).2 hrt)
  obtain ⟨_, hdis, hobj⟩ := built_more (dir := c.dir) hd hc hb
  obtain ⟨ho, hcfg⟩ := Context.built_output hb
  have hn := built_plain hd ht hdirs hnone hfiles
  obtain ⟨hm, hmd⟩ := mergeDirs_succeeds (M := M) (dir := c.dir) (ns := [str!"static", str!"temp"]) hd ho (hdis ha)
  have hcs : ∀ which, Compatible M.sys c.stuart.plugins s1.world.disk c.dir c.stuart.dir (baseFrame M.sys.vars c.mode)
      (.dir name cs (pathStr c.stuart.dir)) (.dir name ts (pathStr c.stuart.dir)) none (some which) ↔
      OnlyDirs (Shows os) (InDir s1.world.disk (c.dir ++ [which])) := fun which =>
    onlyDirs_supplied (supplied_content hdirs hnone hfiles) supplied_copy
  have hst : Compatible M.sys c.stuart.plugins s1.world.disk c.dir c.stuart.dir (baseFrame M.sys.vars c.mode)
      (.dir name cs (pathStr c.stuart.dir)) (.dir name ts (pathStr c.stuart.dir)) (some str!"static") (some str!"temp") ↔
      OnlyDirs (InDir s1.world.disk (c.dir ++ [str!"static"])) (InDir s1.world.disk (c.dir ++ [str!"temp"])) :=
    onlyDirs_supplied supplied_copy supplied_copy
  have hm' : (mergeDirs M s1.world.disk c.dir [str!"static", str!"temp"] (c.built M s1.world.disk).stuart).2 = .ok () ↔
      (Copyable s1.world.disk (c.dir ++ [str!"static"]) ∧ Copyable s1.world.disk (c.dir ++ [str!"temp"])) ∧
      (OnlyDirs (Shows os) (InDir s1.world.disk (c.dir ++ [str!"static"])) ∧
        OnlyDirs (Shows os) (InDir s1.world.disk (c.dir ++ [str!"temp"]))) ∧
      OnlyDirs (InDir s1.world.disk (c.dir ++ [str!"static"])) (InDir s1.world.disk (c.dir ++ [str!"temp"])) := by
    rw [hm]; simp
  -- what follows when the merge succeeds
  have key : (mergeDirs M s1.world.disk c.dir [str!"static", str!"temp"] (c.built M s1.world.disk).stuart).2 = .ok () →
      (((mergeDirs M s1.world.disk c.dir [str!"static", str!"temp"] (c.built M s1.world.disk).stuart).1.save c.outPath
        (s1.world.step (.clear (c.dir ++ [str!"temp"]))).1).2 = .ok () ∧
      (exportMeta M { c.built M s1.world.disk with
          stuart := (mergeDirs M s1.world.disk c.dir [str!"static", str!"temp"] (c.built M s1.world.disk).stuart).1 }
        ((mergeDirs M s1.world.disk c.dir [str!"static", str!"temp"] (c.built M s1.world.disk).stuart).1.save c.outPath
          (s1.world.step (.clear (c.dir ++ [str!"temp"]))).1).1).2 = .ok () ↔
      (c.outPath ≠ [] ∧ look s1.world.disk c.outPath.dropLast = some .dir ∧
        (look s1.world.disk c.outPath = none ∨ look s1.world.disk c.outPath = some .dir) ∧
        ∀ r b, Belongs M.sys c.stuart.plugins c.stuart.config s1.world.disk c.dir c.stuart.dir (baseFrame M.sys.vars c.mode)
            (.dir name cs (pathStr c.stuart.dir)) (.dir name ts (pathStr c.stuart.dir)) r b →
          ¬ BelongsDir M.sys c.stuart.plugins c.stuart.config s1.world.disk c.dir c.stuart.dir (baseFrame M.sys.vars c.mode)
            (.dir name cs (pathStr c.stuart.dir)) (.dir name ts (pathStr c.stuart.dir)) r) ∧
      (c.stuart.config.saveMetadata = true → AllObjects os ∧
        (look s1.world.disk (c.dir ++ [str!"metadata.json"]) = none ∧ look s1.world.disk c.dir = some .dir ∨
          ∃ b, look s1.world.disk (c.dir ++ [str!"metadata.json"]) = some (.file b)))) := by
    intro hok
    obtain ⟨ms, k1, hdm⟩ := hmd hok
    obtain ⟨ms', k1', k2⟩ := mergeDirs_shows hd ho hok
    rw [k1] at k1'
    cases k1'
    have hcfg' : (mergeDirs M s1.world.disk c.dir [str!"static", str!"temp"] (c.built M s1.world.disk).stuart).1.config =
        c.stuart.config := by rw [mergeDirs_config, hcfg]
    have hpl := merged_plain hd k2 hn ht.copied
    have hcalm1 := s1.world.step_calm hcalm (.clear (c.dir ++ [str!"temp"]))
    have hlook1 : ∀ q, ¬ c.dir ++ [str!"temp"] <+: q →
        look (s1.world.step (.clear (c.dir ++ [str!"temp"]))).1.disk q = look s1.world.disk q := fun q hq =>
      World.step_outside _ _ hq
    have hni : NoIndexDir ms := by
      intro ds cs' src hh
      rcases (k2 ds str!"index.html" .dir).1 ⟨_, hh, rfl, rfl⟩ with k | ⟨n, hn, k⟩
      · exact ha.index ds ((hdirs _ _).1 k)
      · exact ha.indexCopied n hn ds k
    have hsave : ∀ w, (mergeDirs M s1.world.disk c.dir [str!"static", str!"temp"] (c.built M s1.world.disk).stuart).1.save
        c.outPath w = saveNode c.stuart.config c.outPath (.dir name ms (pathStr c.stuart.dir)) w := by
      intro w; rw [Project.save, k1, hcfg']
    rw [hsave, C93_save_partial _ _ _ _ _ _ hpl hdm hni hcalm1]
    rw [exportMeta_succeeds (c := c.built M s1.world.disk) k1 (by rw [saveNode]; exact runOps_calm hcalm1), hcfg']
    have hgo := goes_belongs (cfg := c.stuart.config) hnone hfiles k2
    have hgd := goesDir_belongs (cfg := c.stuart.config) hdirs hnone hfiles k2
    refine and_congr ?_ (imp_congr_right fun hs => ?_)
    · rw [hlook1 _ htemp, hlook1 _ fun k => htemp (k.trans (List.dropLast_prefix _))]
      refine and_congr_right fun _ => and_congr_right fun _ => and_congr_right fun _ => ?_
      constructor
      · intro h r b hb hbd
        rcases (hgd r).2 hbd with rfl | k
        · have hne : ∀ {r b}, Goes c.stuart.config ms r b → r ≠ [] := by
            intro r b hg; cases hg <;> simp
          exact hne ((hgo _ _).2 hb) rfl
        · exact h r b ((hgo _ _).2 hb) k
      · intro h r b hb hbd
        exact h r b ((hgo _ _).1 hb) ((hgd r).1 (.inr hbd))
    · have hcd : (c.built M s1.world.disk).dir = c.dir := rfl
      have hlook2 : ∀ q, ¬ c.outPath <+: q → look (saveNode c.stuart.config c.outPath (.dir name ms (pathStr c.stuart.dir))
          (s1.world.step (.clear (c.dir ++ [str!"temp"]))).1).1.disk q =
          look (s1.world.step (.clear (c.dir ++ [str!"temp"]))).1.disk q := fun q hq =>
        C41_outside_partial _ _ _ _ _ _ hpl q hq
      have hout := hmeta hs
      rw [hcd, hlook2 _ hout, hlook2 _ fun k => hout (k.trans (List.prefix_append _ _)),
        hlook1 _ (by simp), hlook1 _ (by intro k; have := k.length_le; simp at this; omega)]
      refine and_congr ?_ Iff.rfl
      constructor
      · intro h ds nm b p x s hh
        exact h ds nm b p x s (Shows_file.1 ((k2 _ _ _).2 (.inl (Shows_file.2 hh))))
      · intro h ds nm b p x s hh
        rcases (k2 _ _ _).1 (Shows_file.2 hh) with k | ⟨_, _, _, _, k, _⟩
        · exact h ds nm b p x s (Shows_file.1 k)
        · cases k
  rw [publish_succeeds]
  have hop : (c.built M s1.world.disk).outPath = c.outPath := rfl
  have hdp : (c.built M s1.world.disk).dir = c.dir := rfl
  rw [hop, hdp]
  constructor
  · rintro ⟨h1, h2⟩
    obtain ⟨⟨a1, a2⟩, ⟨a3, a4⟩, a5⟩ := hm'.1 h1
    obtain ⟨⟨b1, b2, b3, b4⟩, b5⟩ := (key h1).1 h2
    refine ⟨a1, a2, (hcs _).2 a3, (hcs _).2 a4, hst.2 a5, b1, b2, b3, b4, fun hs => ?_, fun hs => ?_, fun hs => hobj.1 (b5 hs).1 hs⟩
    · rcases (b5 hs).2 with k | ⟨b, k⟩
      · exact k.2
      · exact look_above (r := [str!"metadata.json"]) (by simp) (by rw [k]; simp)
    · rcases (b5 hs).2 with k | k
      · exact .inl k.1
      · exact .inr k
  · intro h
    have h1 := hm'.2 ⟨⟨h.static, h.temp⟩, ⟨(hcs _).1 h.contentStatic, (hcs _).1 h.contentTemp⟩, hst.1 h.staticTemp⟩
    refine ⟨h1, (key h1).2 ⟨⟨h.proper, h.parent, h.place, h.apart⟩, fun hs => ⟨hobj.2 h.objects, ?_⟩⟩⟩
    rcases h.metaPlace hs with k | k
    · exact .inl ⟨k, h.project hs⟩
    · exact .inr k

end

/-- C93. When a build succeeds, if nothing mishaps and the post-build scripts do not fail: exactly when the pre-build
scripts succeed and, as they leave the files of the project, the content can be read, its markdown converted, something
made of every file, and the site published. Not covered: two things of one directory that get the same name, directories
called `index.html`, output below the temporary directory, metadata inside the output, and the names that
`C83_build_partial` leaves out. -/
theorem C93_build_partial (M : Machine) (c : Context) (s : Host) (hpost : ∀ s', (runScripts M c.env c.post s').2 = .ok ())
    (htemp : ¬ c.dir ++ [str!"temp"] <+: c.outPath)
    (hmeta : c.stuart.config.saveMetadata = true → ¬ c.outPath <+: c.dir ++ [str!"metadata.json"]) :
    let w := (runScripts M c.env c.pre s).1.world
    w.Calm → ProperDisk w.disk → Tame c.stuart.config c.stuart.plugins w.disk c.dir c.stuart.dir →
    (∀ name cs ts, Content M.sys c.stuart.plugins w.disk c.stuart.dir (baseFrame M.sys.vars c.mode) name cs ts →
      NamesApart M.sys c.stuart.plugins w.disk c.dir c.stuart.dir (baseFrame M.sys.vars c.mode)
        (.dir name cs (pathStr c.stuart.dir)) (.dir name ts (pathStr c.stuart.dir))) →
    ((c.build M s).2.2 = .ok () ↔ (runScripts M c.env c.pre s).2 = .ok () ∧
      ∃ name cs ts, Content M.sys c.stuart.plugins w.disk c.stuart.dir (baseFrame M.sys.vars c.mode) name cs ts ∧
        (∀ ds nm b, look w.disk (c.stuart.dir ++ ds ++ [nm]) = some (.file b) → ∃ nm' b', MadeInto M.sys c.stuart.plugins
          w.disk c.stuart.dir (baseFrame M.sys.vars c.mode) (.dir name cs (pathStr c.stuart.dir))
          (.dir name ts (pathStr c.stuart.dir)) ds nm nm' b') ∧
        Publishable M.sys c.stuart.plugins w.disk c.dir c.stuart.dir (baseFrame M.sys.vars c.mode)
          (.dir name cs (pathStr c.stuart.dir)) (.dir name ts (pathStr c.stuart.dir)) c.stuart.config c.outPath) := by
  intro w hcalm hd ht ha
  constructor
  · intro h
    obtain ⟨s1, out, s2, h1, h2, h3, h4⟩ := Context.build_ok h
    have hs1 : (runScripts M c.env c.pre s).1 = s1 := by rw [h1]
    subst hs1
    obtain ⟨name, cs, ts, k1, k2⟩ := (C93_content _ _ _ _ hd).1 ⟨out, h2⟩
    exact ⟨by rw [h1], name, cs, ts, k1, k2, (publish_iff hd hcalm ht htemp hmeta k1 (ha _ _ _ k1) h2).1 (by rw [h3])⟩
  · rintro ⟨h1, name, cs, ts, k1, k2, k3⟩
    obtain ⟨out, h2⟩ := (C93_content M.sys w.disk c.mode c.stuart hd).2 ⟨name, cs, ts, k1, k2⟩
    have hp := (publish_iff hd hcalm ht htemp hmeta k1 (ha _ _ _ k1) h2).2 k3
    rw [Context.build_mid (s1 := (runScripts M c.env c.pre s).1) (Prod.ext rfl h1), h2]
    simp only
    revert hp
    generalize hg : (c.built M _).publish M _ = r
    obtain ⟨c', s2, r⟩ := r
    intro hp
    cases hp
    have hk := (Context.publish_keeps (M := M) (c := c.built M (runScripts M c.env c.pre s).1.world.disk)
      (s := (runScripts M c.env c.pre s).1)).1
    rw [hg] at hk
    simp only at hk
    subst hk
    exact hpost s2

/-- Without plugins for types of files, a file keeps its name unless it is a markdown page. -/
theorem made_name {S : Sys} {plugins : List Plugin} (hp : FunctionsOnly plugins) {d : Entry} {p : Path} {base : Frame} {input tree : Node} {ds : List Str} {nm n : Str} {b : Bytes}
    (h : MadeInto S plugins d p base input tree ds nm n b) : look d (p ++ ds ++ [nm]) ≠ none ∧
      ((∃ b, look d (p ++ ds ++ [nm]) = some (.file b)) ∧ nm = n ∨ ∃ stem, nm = stem ++ str!".md" ∧ n = stem ++ str!".html") := by
  obtain ⟨b0, c, c', h1, h2, h3, h4⟩ := h
  refine ⟨by rw [h1]; nofun, ?_⟩
  cases h4 with
  | markdown h => exact .inr ⟨_, h, rfl⟩
  | custom h =>
    exfalso
    cases h3 with
    | same =>
      cases h2 with
      | custom _ _ _ _ hf =>
        obtain ⟨ps, q, ps', _, _, k, k', _⟩ := hf
        rw [hp q (by rw [k]; simp)] at k'
        simp at k'
  | _ => exact .inl ⟨⟨_, h1⟩, rfl⟩

/-- C93. Without plugins for types of files, the things of a directory of the content get different names if it has no markdown page beside
a page, or a directory, of the name that it gets. -/
theorem C93_apart (S : Sys) (plugins : List Plugin) (hp : FunctionsOnly plugins) (d : Entry) (dir p : Path) (base : Frame) (input tree : Node)
    (hm : ∀ ds stem, look d (p ++ ds ++ [stem ++ str!".md"]) = none ∨ look d (p ++ ds ++ [stem ++ str!".html"]) = none)
    (hi : ∀ ds, look d (p ++ ds ++ [str!"index.html"]) ≠ some .dir)
    (hc : ∀ which ∈ [str!"static", str!"temp"], ∀ ds, look d (dir ++ [which] ++ ds ++ [str!"index.html"]) ≠ some .dir) :
    NamesApart S plugins d dir p base input tree := by
  refine ⟨?_, ?_, hi, hc⟩
  · intro ds nm nm' n b b' h h'
    obtain ⟨l1, k⟩ := made_name hp h
    obtain ⟨l2, k'⟩ := made_name hp h'
    rcases k with ⟨_, rfl⟩ | ⟨stem, rfl, rfl⟩
    · rcases k' with ⟨_, rfl⟩ | ⟨stem, rfl, rfl⟩
      · rfl
      · rcases hm ds stem with k | k
        · exact absurd k l2
        · exact absurd k l1
    · rcases k' with ⟨_, rfl⟩ | ⟨stem', rfl, k⟩
      · rcases hm ds stem with k | k
        · exact absurd k l1
        · exact absurd k l2
      · rw [List.append_cancel_right k]
  · intro ds nm n b h hl
    obtain ⟨l1, k⟩ := made_name hp h
    rcases k with ⟨⟨_, k⟩, rfl⟩ | ⟨stem, rfl, rfl⟩
    · rw [k] at hl; cases hl
    · rcases hm ds stem with k | k
      · exact absurd k l1
      · rw [k] at hl; cases hl

/-! ### Cases -/

mutual
/-- The names in an entry. -/
def entryNames : Entry → List Str
  | .dir l => namesAll l
  | _ => []
def namesAll : List (Str × Entry) → List Str
  | [] => []
  | (n, e) :: l => n :: (entryNames e ++ namesAll l)
end

theorem namesAll_mem {l : List (Str × Entry)} {n : Str} {e : Entry} (h : (n, e) ∈ l) :
    n ∈ namesAll l ∧ ∀ m ∈ entryNames e, m ∈ namesAll l := by
  induction l with
  | nil => cases h
  | cons x l ih =>
    obtain ⟨n', e'⟩ := x
    rw [namesAll]
    rcases List.mem_cons.1 h with h | h
    · cases h; exact ⟨.head _, fun m hm => .tail _ (List.mem_append_left _ hm)⟩
    · exact ⟨.tail _ (List.mem_append_right _ (ih h).1), fun m hm => .tail _ (List.mem_append_right _ ((ih h).2 m hm))⟩

theorem entryNames_look : ∀ {q : Path} {d : Entry} {n : Str}, look d (q ++ [n]) ≠ none → n ∈ entryNames d := by
  intro q
  induction q with
  | nil =>
    intro d n h
    cases d with
    | dir l =>
      simp only [look, List.nil_append, Entry.at] at h
      split at h
      · rename_i e he; exact (namesAll_mem (findEntry_in he)).1
      · exact absurd rfl h
    | file b => exact absurd rfl h
    | special => exact absurd rfl h
  | cons m q ih =>
    intro d n h
    cases d with
    | dir l =>
      simp only [look, List.cons_append, Entry.at] at h
      split at h
      · rename_i e he; exact (namesAll_mem (findEntry_in he)).2 _ (ih h)
      · exact absurd rfl h
    | file b => exact absurd rfl h
    | special => exact absurd rfl h

/-- The names of the project of C83. -/
theorem wholeDisk_apart (S : Sys) (base : Frame) (input tree : Node) :
    NamesApart S [] wholeDisk [str!"p"] [str!"p", str!"content"] base input tree := by
  have h1 : Lacks str!"index.html" wholeDisk := by unfold wholeDisk; lacks_name
  have h2 : Lacks str!"c.html" wholeDisk := by unfold wholeDisk; lacks_name
  refine C93_apart S [] nofun _ _ _ _ _ _ (fun ds stem => ?_) (fun ds => by rw [h1 (_ ++ ds)]; nofun)
    (fun which _ ds => by rw [h1 (_ ++ ds)]; nofun)
  by_cases hs : stem = str!"c"
  · subst hs; exact .inr (h2 _)
  · refine .inl (Classical.byContradiction fun k => hs ?_)
    have hm := entryNames_look k
    have hall : ∀ n ∈ entryNames wholeDisk, n.drop (n.length - 3) = str!".md" → n = str!"c.md" := by decide
    exact List.append_cancel_right (bs := str!".md") (hall _ hm (by simp))

/-- The project of C83 can be built: what the theorem asks for holds. -/
example : ∃ name cs ts,
    Content demoSys [] wholeDisk [str!"p", str!"content"] (baseFrame [] str!"production") name cs ts ∧
    Publishable demoSys [] wholeDisk [str!"p"] [str!"p", str!"content"] (baseFrame [] str!"production")
      (.dir name cs str!"/p/content") (.dir name ts str!"/p/content") .default [str!"p", str!"dist"] := by
  obtain ⟨_, name, cs, ts, h1, _, h2⟩ := (C93_build_partial idleMachine demoContext ⟨⟨wholeDisk, []⟩, []⟩ (fun _ => rfl) (by decide)
    nofun nofun wholeDisk_proper wholeDisk_tame fun _ _ _ _ => wholeDisk_apart _ _ _ _).1 whole_built.1
  exact ⟨name, cs, ts, h1, h2⟩

/-- A site with a file `a` and a page `a.html`. -/
def clashSite : List Node := [.file str!"a" [1] .none none str!"/a", .file str!"a.html" [2] .none none str!"/a.html"]

theorem clashSite_flat {ds : List Str} {n : Node} (h : Holds clashSite ds n) : ds = [] ∧ n ∈ clashSite := by
  cases h with
  | here h => exact ⟨rfl, h⟩
  | down h => simp [clashSite] at h

/-- It cannot be saved if pages get directories: the file `a` would be where the directory `a` is. -/
example : (saveNode .default [str!"dist"] (.dir str!"content" clashSite str!"/content") ⟨.dir [], []⟩).2 ≠ .ok () := by
  intro h
  have k := (C93_save_partial .default [str!"dist"] str!"content" str!"/content" clashSite ⟨.dir [], []⟩
    (fun ds n hn => by
      obtain ⟨-, hn⟩ := clashSite_flat hn
      simp only [clashSite, List.mem_cons, List.not_mem_nil, or_false] at hn
      rcases hn with rfl | rfl <;> unfold PlainName <;> decide)
    ⟨by decide, fun ds d cs' src hn => by have := (clashSite_flat hn).2; simp [clashSite] at this⟩
    (fun ds cs' src hn => by have := (clashSite_flat hn).2; simp [clashSite] at this) nofun).1 h
  refine k.2.2.2 [str!"a"] [1] (.plain (ds := []) (.here (.head _)) (by unfold Published; decide) fun stem hs => ?_)
    (.page (ds := []) (stem := str!"a") (.here (.tail _ (.head _))) (by unfold Published; decide) ?_)
  · exact absurd (congrArg (fun n => n.drop (n.length - 5)) hs.2.1) (by simp)
  · exact ⟨rfl, rfl, by decide, nofun⟩

/-- Otherwise it can. -/
example : (saveNode { Config.default with stripExtensions := false } [str!"dist"] (.dir str!"content" clashSite str!"/content")
    ⟨.dir [], []⟩).2 = .ok () := by decide +kernel

end Stuart
