import Verif.Proof.MoveSave
import Verif.Proof.Start
import Verif.Proof.Cli
/-
Building a project that is elsewhere.
-/
namespace Stuart
open Spec

variable {old new : Path}

theorem pathStr_append (p q : Path) : pathStr (p ++ q) = pathStr p ++ pathStr q := List.flatMap_append

theorem movedPath_below (r : Path) : movedPath old new (pathStr (old ++ r)) = pathStr (new ++ r) := by
  unfold movedPath
  rw [pathStr_append, List.drop_left, pathStr_append]

theorem Res.both_mapErr {ε ε' α : Type} (f : ε → ε') (r : Res ε α) : r.both f id = r.mapErr f := by cases r <;> rfl

/-- Contexts of the same project at two places. -/
structure TwinCtx (old new : Path) (c c' : Context) : Prop where
  dir : c.dir = old
  dir' : c'.dir = new
  content : c.stuart.dir = old ++ [str!"content"]
  content' : c'.stuart.dir = new ++ [str!"content"]
  config : c'.stuart.config = c.stuart.config
  plugins : c'.stuart.plugins = c.stuart.plugins
  mode : c'.mode = c.mode
  output : c'.output = c.output
  env : c.env = scriptVars old c.output c.mode
  env' : c'.env = scriptVars new c.output c.mode
  pre : ∃ l : List Path, c.pre = l.map (old ++ ·) ∧ c'.pre = l.map (new ++ ·) ∧ [] ∉ l
  post : ∃ l : List Path, c.post = l.map (old ++ ·) ∧ c'.post = l.map (new ++ ·) ∧ [] ∉ l

theorem runScripts_moved {M : Machine} {out mode : Str} (hM : ScriptsFollow M old new out mode) {l : List Path} (hl : [] ∉ l) :
    ∀ {s s' : Host}, Twins old new s s' →
      Twins old new (runScripts M (scriptVars old out mode) (l.map (old ++ ·)) s).1 (runScripts M (scriptVars new out mode) (l.map (new ++ ·)) s').1 ∧
      (runScripts M (scriptVars new out mode) (l.map (new ++ ·)) s').2 =
        (runScripts M (scriptVars old out mode) (l.map (old ++ ·)) s).2.mapErr (movedCli old new) := by
  induction l with
  | nil => intro s s' h; exact ⟨h, rfl⟩
  | cons r l ih =>
    intro s s' h
    obtain ⟨h1, h2, h3⟩ := h
    have hr : r ≠ [] := fun k => hl (by rw [k]; exact .head _)
    have h4 := hM.files s.runs.length r _ _ h1
    have h5 := hM.output s.runs.length r _ _ h1
    simp only [List.map_cons, runScripts, h3, h5]
    have hl1 : (new ++ r).getLast? = (old ++ r).getLast? := by
      cases hg : r.getLast? with
      | none => exact absurd (List.getLast?_eq_none_iff.1 hg) hr
      | some x => simp [List.getLast?_append, hg]
    rw [hl1]
    have ht : Twins old new
        ⟨⟨(M.shell s.runs.length (old ++ r) (scriptVars old out mode) s.world.disk).1, s.world.faults⟩,
          s.runs ++ [⟨old ++ r, scriptVars old out mode, s.world.disk⟩]⟩
        ⟨⟨(M.shell s.runs.length (new ++ r) (scriptVars new out mode) s'.world.disk).1, s'.world.faults⟩,
          s'.runs ++ [⟨new ++ r, scriptVars new out mode, s'.world.disk⟩]⟩ := ⟨h4, h2, by simp [h3]⟩
    split
    · exact ⟨ht, rfl⟩
    · split
      · exact ih (fun k => hl (.tail _ k)) ht
      · exact ⟨ht, rfl⟩

theorem runScripts_proper {M : Machine} {out mode : Str} (hM : ScriptsFollow M old new out mode) (l : List Path) :
    ∀ {s : Host}, ProperDisk s.world.disk →
      ProperDisk (runScripts M (scriptVars old out mode) (l.map (old ++ ·)) s).1.world.disk := by
  induction l with
  | nil => intro s h; exact h
  | cons r l ih =>
    intro s h
    have h6 := hM.proper s.runs.length r _ h
    simp only [List.map_cons, runScripts]
    split
    · exact h6
    · split
      · exact ih h6
      · exact h6

/-! ### The content -/

/-- Projects whose output is the same but for the place. -/
structure TwinOut (old new : Path) (p p' : Project) : Prop where
  config : p'.config = p.config
  output : ∃ out, p.output = some out ∧ p'.output = some (movedNode (movedPath old new) out) ∧ PlainTree out

theorem plainContent : PlainName str!"content" := by unfold PlainName; decide
theorem plainStatic : PlainName str!"static" := by unfold PlainName; decide
theorem plainTemp : PlainName str!"temp" := by unfold PlainName; decide

theorem projectBuild_moved {S : Sys} {mode mode' : Str} (hmode : mode' = mode) {d d' : Entry} (h : d'.at new = d.at old) (hd : ProperDisk d) {p p' : Project}
    (hp : AllPlaceless p.plugins) (h1 : p.dir = old ++ [str!"content"]) (h2 : p'.dir = new ++ [str!"content"])
    (h3 : p'.config = p.config) (h4 : p'.plugins = p.plugins) :
    (p'.build S d' mode').2 = (p.build S d mode).2.mapErr (movedErr (movedPath old new)) ∧
    ((p.build S d mode).2 = .ok () → TwinOut old new (p.build S d mode).1 (p'.build S d' mode').1) := by
  subst hmode
  unfold Project.build
  rw [h1, h2, h4, readTree_moved (ρ := movedPath old new) movedPath_below S true hp h (by simp)]
  cases hr : readTree S true p.plugins d (old ++ [str!"content"]) with
  | err e => exact ⟨rfl, nofun⟩
  | panic e => exact ⟨rfl, nofun⟩
  | ok n =>
    have hu := readTree_unmoved (ρ := movedPath old new) S true hp hr
    have hpl := readTree_plainTree hd plainContent hr
    simp only [Res.both_ok]
    have hpre := preNode_moved (ρ := movedPath old new) S.ext ⟨n, S.dateFmt⟩ (baseFrame S.vars mode') n
    rw [show (⟨movedNode (movedPath old new) n, S.dateFmt⟩ : Ctx) = movedCtx (movedPath old new) ⟨n, S.dateFmt⟩ from rfl, hpre]
    cases hq : preNode S.ext ⟨n, S.dateFmt⟩ (baseFrame S.vars mode') n with
    | err e => exact ⟨rfl, nofun⟩
    | panic e => exact ⟨rfl, nofun⟩
    | ok n' =>
      have hu' := preNode_unmoved S.ext _ _ n n' hu hq
      have hpl' := preNode_plain n n' hpl hq
      have he : updateEnv ⟨none, none⟩ ((movedNode (movedPath old new) n').children.getD []) =
          movedEnv (movedPath old new) (updateEnv ⟨none, none⟩ (n'.children.getD [])) := by
        rw [← updateEnv_moved, movedNode_children]
        cases n'.children <;> rfl
      simp only [Res.both_ok]
      have hb := buildNode_moved (ρ := movedPath old new) ⟨⟨n', S.dateFmt⟩, baseFrame S.vars mode', p.config⟩ n'
        (updateEnv ⟨none, none⟩ (n'.children.getD [])) hu'
      rw [he, h3, show (⟨⟨movedNode (movedPath old new) n', S.dateFmt⟩, baseFrame S.vars mode', p.config⟩ : Builder) =
        movedBuilder (movedPath old new) ⟨⟨n', S.dateFmt⟩, baseFrame S.vars mode', p.config⟩ from rfl, hb]
      cases hx : buildNode ⟨⟨n', S.dateFmt⟩, baseFrame S.vars mode', p.config⟩ (updateEnv ⟨none, none⟩ (n'.children.getD [])) n' with
      | err e => exact ⟨rfl, nofun⟩
      | panic e => exact ⟨rfl, nofun⟩
      | ok out => exact ⟨rfl, fun _ => ⟨rfl, out, rfl, rfl, buildNode_plain n' _ out hu' hpl' hx⟩⟩

/-- A directory that is there can be replaced. -/
theorem isDirAt_above {d : Entry} {p : Path} {l : List (Str × Entry)} (h : d.at p = some (.dir l)) : d.isDirAt p.dropLast = true := by
  by_cases hp : p = []
  · subst hp
    unfold Entry.isDirAt
    show (match d.at [] with | some (.dir _) => true | _ => false) = true
    rw [h]
  · obtain ⟨q, x, rfl⟩ : ∃ q x, p = q ++ [x] := ⟨p.dropLast, p.getLast hp, (List.dropLast_concat_getLast hp).symm⟩
    rw [List.dropLast_concat]
    rw [at_append] at h
    unfold Entry.isDirAt
    cases hq : d.at q with
    | none => rw [hq] at h; cases h
    | some e =>
      rw [hq] at h
      cases e with
      | dir l => rfl
      | file b => cases h
      | special => cases h

theorem projectBuild_there {S : Sys} {mode : Str} {d : Entry} {p : Project} (h1 : p.dir = old ++ [str!"content"])
    (h : (p.build S d mode).2 = .ok ()) : ∃ l, d.at old = some (.dir l) := by
  unfold Project.build readTree at h
  rw [h1, at_append] at h
  cases ho : d.at old with
  | none => rw [ho] at h; cases h
  | some e =>
    cases e with
    | dir l => exact ⟨l, rfl⟩
    | file b => rw [ho] at h; cases h
    | special => rw [ho] at h; cases h

/-! ### Publishing -/

theorem mergeOutput_moved {p p' : Project} (h : TwinOut old new p p') {n : Node} (hn : PlainTree n) :
    TwinOut old new (p.mergeOutput n).1 (p'.mergeOutput (movedNode (movedPath old new) n)).1 ∧
    (p'.mergeOutput (movedNode (movedPath old new) n)).2 = (p.mergeOutput n).2.mapErr (movedErr (movedPath old new)) := by
  obtain ⟨h1, out, h2, h3, h4⟩ := h
  unfold Project.mergeOutput
  rw [h2, h3]
  simp only [mergeNode_moved]
  exact ⟨⟨h1, _, rfl, rfl, mergeNode_plain n out h4 hn⟩, by rw [Res.both_mapErr]⟩

theorem mergeDirs_moved {M : Machine} {d d' : Entry} (h : d'.at new = d.at old) (hd : ProperDisk d) {ns : List Str} (hns : ∀ n ∈ ns, PlainName n) :
    ∀ {p p' : Project}, TwinOut old new p p' →
      TwinOut old new (mergeDirs M d old ns p).1 (mergeDirs M d' new ns p').1 ∧
      (mergeDirs M d' new ns p').2 = (mergeDirs M d old ns p).2.mapErr (movedCli old new) := by
  induction ns with
  | nil => intro p p' ht; exact ⟨ht, rfl⟩
  | cons n ns ih =>
    intro p p' ht
    have ih := @ih fun x hx => hns x (.tail _ hx)
    unfold mergeDirs
    have hat : d'.existsAt (new ++ [n]) = d.existsAt (old ++ [n]) := by
      unfold Entry.existsAt
      rw [at_append, at_append, h]
    rw [hat, readTree_moved (ρ := movedPath old new) movedPath_below M.sys false (fun p hp => by cases hp) h (by simp)]
    split
    · cases hr : readTree M.sys false [] d (old ++ [n]) with
      | err e => exact ⟨ht, rfl⟩
      | panic e => exact ⟨ht, rfl⟩
      | ok node =>
        obtain ⟨k1, k2⟩ := mergeOutput_moved ht (readTree_plainTree hd (hns n (.head _)) hr)
        simp only [Res.both_ok]
        generalize hx : p.mergeOutput node = x at k1 k2 ⊢
        generalize hy : p'.mergeOutput (movedNode (movedPath old new) node) = y at k1 k2 ⊢
        obtain ⟨x1, x2⟩ := x
        obtain ⟨y1, y2⟩ := y
        simp only at k1 k2
        subst k2
        cases x2 with
        | ok u => exact ih k1
        | err e => exact ⟨k1, rfl⟩
        | panic e => exact ⟨k1, rfl⟩
    · exact ih ht

theorem saveNode_moved {cfg : Config} (ho : old ≠ []) (hn : new ≠ []) {q : Path} (hq : q ≠ []) {n : Node} (hp : PlainTree n) {w w' : World}
    (h : SameWorld old new w w') :
    SameWorld old new (saveNode cfg (old ++ q) n w).1 (saveNode cfg (new ++ q) (movedNode (movedPath old new) n) w').1 ∧
    (saveNode cfg (new ++ q) (movedNode (movedPath old new) n) w').2 = (saveNode cfg (old ++ q) n w).2 := by
  cases n with
  | dir name cs src =>
    rw [movedNode]
    simp only [saveNode]
    rw [saveAll_moved, saveAll_below cfg old cs q hq hp.2, saveAll_below cfg new cs q hq hp.2]
    exact h.runOps (os := .clear q :: .mkdir q :: saveAll cfg q cs) ho hn
  | file name b p m src =>
    rw [movedNode]
    simp only [saveNode]
    have hr := h.runOps (os := [.clear q]) ho hn
    simp only [List.map_cons, List.map_nil, Op.below] at hr
    obtain ⟨k1, k2⟩ := hr
    generalize runOps [.clear (old ++ q)] w = x at k1 k2 ⊢
    generalize runOps [.clear (new ++ q)] w' = y at k1 k2 ⊢
    obtain ⟨x1, x2⟩ := x
    obtain ⟨y1, y2⟩ := y
    simp only at k1 k2
    subst k2
    cases y2 <;> exact ⟨k1, rfl⟩

theorem runOps_mapErr (os : List Op) : ∀ w : World, (runOps os w).2.mapErr (movedErr (movedPath old new)) = (runOps os w).2 := by
  induction os with
  | nil => intro w; rfl
  | cons o os ih =>
    intro w
    rw [runOps]
    split
    · exact ih _
    · rfl

theorem saveNode_mapErr {cfg : Config} {q : Path} {n : Node} {w : World} :
    (saveNode cfg q n w).2.mapErr (movedErr (movedPath old new)) = (saveNode cfg q n w).2 := by
  cases n with
  | dir name cs src => exact runOps_mapErr _ _
  | file name b p m src =>
    simp only [saveNode]
    have := runOps_mapErr (old := old) (new := new) [.clear q] w
    split
    · rfl
    · exact this

theorem exportMeta_moved {M : Machine} (ho : old ≠ []) (hn : new ≠ []) {c c' : Context} (hc : TwinOut old new c.stuart c'.stuart)
    (h1 : c.dir = old) (h2 : c'.dir = new) {w w' : World} (h : SameWorld old new w w') :
    SameWorld old new (exportMeta M c w).1 (exportMeta M c' w').1 ∧
    (exportMeta M c' w').2 = (exportMeta M c w).2.mapErr (movedCli old new) := by
  obtain ⟨k1, out, k2, k3, _⟩ := hc
  unfold exportMeta Project.saveMetadata
  rw [k1, k2, k3, h1, h2]
  split
  · rename_i hm
    rw [hm]
    simp only [Bool.not_true, Bool.false_eq_true, if_false, saveMetaNode, metaRoot_moved]
    cases hr : metaRoot out with
    | err e => exact absurd hr metaRoot_no_err
    | panic p => exact ⟨h, rfl⟩
    | ok v =>
      simp only
      have hx := h.runOps (os := [.write [str!"metadata.json"] (bytesOf (M.sys.serialize
        ((Value.obj [(str!"name", .str c.stuart.config.name), (str!"author", (c.stuart.config.author.map Value.str).getD .null)]).setKey
          str!"data" v)))]) ho hn
      simp only [List.map_cons, List.map_nil, Op.below] at hx
      refine ⟨hx.1, ?_⟩
      rw [hx.2]
      generalize hb : bytesOf _ = b
      have hm := runOps_mapErr (old := old) (new := new) [.write (old ++ [str!"metadata.json"]) b] w
      cases hy : (runOps [.write (old ++ [str!"metadata.json"]) b] w).2 with
      | ok u => rfl
      | panic p => rfl
      | err e =>
        rw [hy] at hm
        simp only [Res.mapErr_err, Res.err.injEq] at hm ⊢
        rw [movedCli, hm]
  · exact ⟨h, rfl⟩

theorem Spec.Twins.world {s s' : Host} (h : Twins old new s s') {l : List (Str × Entry)} (hl : s.world.disk.at old = some (.dir l)) :
    SameWorld old new s.world s'.world :=
  ⟨⟨h.files, isDirAt_above hl, isDirAt_above (h.files.trans hl)⟩, h.faults⟩

theorem publish_moved {M : Machine} (ho : old ≠ []) (hn : new ≠ []) {c c' : Context} (hc : TwinOut old new c.stuart c'.stuart)
    (h1 : c.dir = old) (h2 : c'.dir = new) {q : Path} (hq : q ≠ []) (h3 : joinPath old c.output = old ++ q)
    (h4 : joinPath new c'.output = new ++ q) {s s' : Host} (h : Twins old new s s') (hw : SameWorld old new s.world s'.world)
    (hd : ProperDisk s.world.disk) :
    Twins old new (c.publish M s).2.1 (c'.publish M s').2.1 ∧
    (c'.publish M s').2.2 = (c.publish M s).2.2.mapErr (movedCli old new) := by
  unfold Context.publish
  rw [h1, h2]
  obtain ⟨k1, k2⟩ := mergeDirs_moved (M := M) (ns := [str!"static", str!"temp"]) hw.1.same hd
    (fun n hn => by rcases List.mem_cons.1 hn with rfl | hn; exact plainStatic; rw [List.mem_singleton.1 hn]; exact plainTemp) hc
  generalize mergeDirs M s.world.disk old [str!"static", str!"temp"] c.stuart = x at k1 k2 ⊢
  generalize mergeDirs M s'.world.disk new [str!"static", str!"temp"] c'.stuart = y at k1 k2 ⊢
  obtain ⟨x1, x2⟩ := x
  obtain ⟨y1, y2⟩ := y
  simp only at k1 k2
  subst k2
  cases x2 with
  | err e => exact ⟨h, rfl⟩
  | panic e => exact ⟨h, rfl⟩
  | ok u =>
    simp only [Res.mapErr_ok, h3, h4]
    obtain ⟨m1, out, m2, m3, m4⟩ := k1
    have hstep := (hw.step ho hn (.clear [str!"temp"])).1
    simp only [Op.below] at hstep
    obtain ⟨g1, g2⟩ := saveNode_moved (cfg := x1.config) ho hn hq m4 hstep
    have g3 := saveNode_mapErr (old := old) (new := new) (cfg := x1.config) (q := old ++ q) (n := out)
      (w := (s.world.step (.clear (old ++ [str!"temp"]))).1)
    simp only [Project.save, m1, m2, m3]
    generalize saveNode x1.config (old ++ q) out (s.world.step (.clear (old ++ [str!"temp"]))).1 = v at g1 g2 g3 ⊢
    generalize saveNode x1.config (new ++ q) (movedNode (movedPath old new) out) (s'.world.step (.clear (new ++ [str!"temp"]))).1 = v'
      at g1 g2 g3 ⊢
    obtain ⟨v1, v2⟩ := v
    obtain ⟨v1', v2'⟩ := v'
    simp only at g1 g2 g3
    subst g2
    cases v2' with
    | err e =>
      refine ⟨⟨g1.1.same, g1.2, h.runs⟩, ?_⟩
      simp only [Res.mapErr_err, Res.err.injEq] at g3 ⊢
      rw [movedCli, g3]
    | panic e => exact ⟨⟨g1.1.same, g1.2, h.runs⟩, rfl⟩
    | ok u =>
      simp only
      obtain ⟨e1, e2⟩ := exportMeta_moved (M := M) (c := { c with stuart := x1 }) (c' := { c' with stuart := y1 }) ho hn
        ⟨m1, out, m2, m3, m4⟩ h1 h2 g1
      simp only [h1, h2] at e1 e2
      exact ⟨⟨e1.1.same, e1.2, h.runs⟩, e2⟩

theorem publish_keeps (M : Machine) (c : Context) (s : Host) : (c.publish M s).1.env = c.env ∧ (c.publish M s).1.post = c.post := by
  unfold Context.publish
  simp only
  split
  · exact ⟨rfl, rfl⟩
  · exact ⟨rfl, rfl⟩
  · split <;> exact ⟨rfl, rfl⟩

theorem contextBuild_moved {M : Machine} (ho : old ≠ []) (hn : new ≠ []) {c c' : Context} (hc : TwinCtx old new c c')
    (hp : AllPlaceless c.stuart.plugins) (hM : ScriptsFollow M old new c.output c.mode)
    {q : Path} (hq : q ≠ []) (h3 : joinPath old c.output = old ++ q) (h4 : joinPath new c.output = new ++ q)
    {s s' : Host} (h : Twins old new s s') (hd : ProperDisk s.world.disk) :
    Twins old new (c.build M s).2.1 (c'.build M s').2.1 ∧
    (c'.build M s').2.2 = (c.build M s).2.2.mapErr (movedCli old new) := by
  obtain ⟨l, a1, a2, a3⟩ := hc.pre
  obtain ⟨l2, b1, b2, b3⟩ := hc.post
  unfold Context.build
  obtain ⟨k1, k2⟩ := runScripts_moved hM a3 h
  have k3 := runScripts_proper hM l hd
  rw [← a1, ← a2, ← hc.env, ← hc.env'] at k1 k2
  rw [← a1, ← hc.env] at k3
  generalize runScripts M c.env c.pre s = x at k1 k2 k3 ⊢
  generalize runScripts M c'.env c'.pre s' = y at k1 k2 ⊢
  obtain ⟨x1, x2⟩ := x
  obtain ⟨y1, y2⟩ := y
  simp only at k1 k2 k3
  subst k2
  cases x2 with
  | err e => exact ⟨k1, rfl⟩
  | panic e => exact ⟨k1, rfl⟩
  | ok u =>
    simp only [Res.mapErr_ok]
    obtain ⟨g1, g2⟩ := projectBuild_moved (S := M.sys) hc.mode k1.files k3 hp hc.content hc.content' hc.config hc.plugins
    have g3 : (c.stuart.build M.sys x1.world.disk c.mode).2 = .ok () → _ := projectBuild_there hc.content
    generalize c.stuart.build M.sys x1.world.disk c.mode = b at g1 g2 g3 ⊢
    generalize c'.stuart.build M.sys y1.world.disk c'.mode = b' at g1 g2 ⊢
    obtain ⟨p1, p2⟩ := b
    obtain ⟨p1', p2'⟩ := b'
    simp only at g1 g2 g3
    subst g1
    cases p2 with
    | err e => exact ⟨k1, rfl⟩
    | panic e => exact ⟨k1, rfl⟩
    | ok u =>
      obtain ⟨ls, hl⟩ := g3 rfl
      simp only [Res.mapErr_ok]
      obtain ⟨m1, m2⟩ := publish_moved (M := M) (c := { c with stuart := p1 }) (c' := { c' with stuart := p1' }) ho hn (g2 rfl) hc.dir hc.dir' hq
        h3 (by simp only [hc.output]; exact h4) k1 (k1.world hl) k3
      generalize hz : Context.publish M { c with stuart := p1 } x1 = z at m1 m2 ⊢
      generalize hz' : Context.publish M { c' with stuart := p1' } y1 = z' at m1 m2 ⊢
      have n1 := publish_keeps M { c with stuart := p1 } x1
      have n2 := publish_keeps M { c' with stuart := p1' } y1
      rw [hz] at n1
      rw [hz'] at n2
      obtain ⟨z1, z2, z3⟩ := z
      obtain ⟨z1', z2', z3'⟩ := z'
      simp only at m1 m2 n1 n2
      subst m2
      cases z3 with
      | err e => exact ⟨m1, rfl⟩
      | panic e => exact ⟨m1, rfl⟩
      | ok u =>
        simp only [Res.mapErr_ok, n1.1, n1.2, n2.1, n2.2, b1, b2, hc.env, hc.env']
        exact runScripts_moved hM b3 m1

/-! ### Starting -/

theorem findScripts_moved {names : List Str} {d d' : Entry} (h : d'.at new = d.at old) {r : Path} :
    ∃ l : List Path, findScripts names d (old ++ r) = l.map (old ++ ·) ∧ findScripts names d' (new ++ r) = l.map (new ++ ·) ∧ [] ∉ l := by
  unfold findScripts
  have hat : d'.at (new ++ r) = d.at (old ++ r) := by rw [at_append, at_append, h]
  rw [hat]
  split
  · rename_i l hl
    refine ⟨l.filterMap fun e => match e.2 with
      | .file _ => if names.contains e.1 then some (r ++ [e.1]) else none
      | _ => none, ?_, ?_, ?_⟩
    · rw [List.map_filterMap]
      congr 1
      funext e
      cases e.2 with
      | file b => simp only; split <;> simp
      | _ => rfl
    · rw [List.map_filterMap]
      congr 1
      funext e
      cases e.2 with
      | file b => simp only; split <;> simp
      | _ => rfl
    · intro k
      obtain ⟨e, _, h2⟩ := List.mem_filterMap.1 k
      split at h2
      · split at h2
        · simp at h2
        · cases h2
      · cases h2
  · exact ⟨[], rfl, rfl, by simp⟩

theorem plainManifest : PlainName str!"stuart.toml" := by unfold PlainName; decide

theorem canonicalize_manifest (d : Entry) (p : Path) : canonicalize d p str!"stuart.toml" =
    if d.isDirAt p then if d.existsAt (p ++ [str!"stuart.toml"]) then some (p ++ [str!"stuart.toml"]) else none else none := by
  unfold canonicalize
  rfl

theorem cmdBuild_moved {M : Machine} {L : Loader} (ho : old ≠ []) (hn : new ≠ []) (hL : LoaderFollows L old new) {out : Str}
    (hM : ScriptsFollow M old new out str!"production") (hrel : ∀ r, out ≠ '/' :: r)
    {q : Path} (hq : q ≠ []) (h3 : joinPath old out = old ++ q) (h4 : joinPath new out = new ++ q)
    {s s' : Host} (h : Twins old new s s') (hd : ProperDisk s.world.disk) :
    Twins old new (cmdBuild M L old str!"stuart.toml" out s).1 (cmdBuild M L new str!"stuart.toml" out s').1 ∧
    (cmdBuild M L new str!"stuart.toml" out s').2 = (cmdBuild M L old str!"stuart.toml" out s).2.mapErr (movedCli old new) := by
  have hat : ∀ r, s'.world.disk.at (new ++ r) = s.world.disk.at (old ++ r) := fun r => by rw [at_append, at_append, h.files]
  have hcan : canonicalize s'.world.disk new str!"stuart.toml" =
      (canonicalize s.world.disk old str!"stuart.toml").map fun _ => new ++ [str!"stuart.toml"] := by
    rw [canonicalize_manifest, canonicalize_manifest]
    unfold Entry.isDirAt Entry.existsAt
    rw [hat, h.files]
    repeat' split
    all_goals rfl
  have hcan2 : ∀ p, canonicalize s.world.disk old str!"stuart.toml" = some p → p = old ++ [str!"stuart.toml"] :=
    fun p hp => (canonicalize_plain plainManifest hp)
  have hstr : ∀ p : Path, joinStr p out = pathStr p ++ '/' :: out := by
    intro p
    unfold joinStr
    split
    · exact absurd rfl (hrel _)
    · rfl
  unfold cmdBuild Context.init
  rw [hcan]
  cases hc : canonicalize s.world.disk old str!"stuart.toml" with
  | none => exact ⟨h, rfl⟩
  | some path =>
    have := hcan2 path hc
    subst this
    simp only [Option.map_some, hat]
    cases hf : s.world.disk.at (old ++ [str!"stuart.toml"]) with
    | none => exact ⟨h, rfl⟩
    | some e =>
      cases e with
      | dir l => exact ⟨h, rfl⟩
      | special => exact ⟨h, rfl⟩
      | file b =>
        simp only
        cases ht : fromUtf8 b with
        | none => exact ⟨h, rfl⟩
        | some text =>
          simp only
          cases hr : L.parseToml text with
          | error e =>
            simp only
            cases e.pos with
            | none => exact ⟨h, rfl⟩
            | some lc =>
              refine ⟨h, ?_⟩
              simp [movedCli]
          | ok raw =>
            simp only [List.dropLast_concat]
            have l1 := hL.still raw.dependencies s
            have l2 := hL.still raw.dependencies s'
            have l3 := hL.same raw.dependencies s s'
            have l4 := hL.errors raw.dependencies s
            have l5 := hL.placeless raw.dependencies s
            generalize L.loadPlugins raw.dependencies old s = x at l1 l3 l4 l5 ⊢
            generalize L.loadPlugins raw.dependencies new s' = y at l2 l3 ⊢
            obtain ⟨x1, x2⟩ := x
            obtain ⟨y1, y2⟩ := y
            have e1 : x1 = s := l1.1
            have e2 : y1 = s' := l2.2
            simp only at l3 l4 l5
            subst e1 e2 l3
            cases y2 with
            | panic e => exact ⟨h, rfl⟩
            | err e =>
              refine ⟨h, ?_⟩
              simp only [Res.mapErr_err, l4 e rfl]
            | ok plugins =>
              simp only [hstr, dirStr, if_neg ho, if_neg hn]
              refine contextBuild_moved ho hn ?_ ?_ ?_ hq ?_ ?_ h hd
              · exact ⟨rfl, rfl, rfl, rfl, rfl, rfl, rfl, rfl, rfl, rfl, findScripts_moved h.files, findScripts_moved h.files⟩
              · exact l5 plugins rfl
              · exact hM
              · exact h3
              · exact h4

/-! ### Cleaning -/

theorem SameWorld.remove (ho : old ≠ []) (hn : new ≠ []) {w w' : World} (h : SameWorld old new w w') (n : Str) :
    (SameWorld old new (removeDir (old ++ [n]) w).1 (removeDir (new ++ [n]) w').1 ∧
      (removeDir (new ++ [n]) w').2 = (removeDir (old ++ [n]) w).2.mapErr (movedCli old new)) ∧
    (SameWorld old new (removeFile (old ++ [n]) w).1 (removeFile (new ++ [n]) w').1 ∧
      (removeFile (new ++ [n]) w').2 = (removeFile (old ++ [n]) w).2.mapErr (movedCli old new)) := by
  have h1 : w'.disk.existsAt (new ++ [n]) = w.disk.existsAt (old ++ [n]) := by unfold Entry.existsAt; rw [h.1.at]
  have h2 : w'.disk.isDirAt (new ++ [n]) = w.disk.isDirAt (old ++ [n]) := by unfold Entry.isDirAt; rw [h.1.at]
  have h3 := h.step ho hn (.clear [n])
  have h4 := h.step ho hn (.removeFile [n])
  simp only [Op.below] at h3 h4
  unfold removeDir removeFile
  rw [h1, h2]
  simp only [h3.2, h4.2]
  refine ⟨?_, ?_⟩
  · split
    · split
      · refine ⟨h3.1, ?_⟩
        simp only
        split <;> simp [movedCli]
      · exact ⟨h, by simp [movedCli]⟩
    · exact ⟨h, rfl⟩
  · split
    · refine ⟨h4.1, ?_⟩
      simp only
      split <;> simp [movedCli]
    · exact ⟨h, rfl⟩

theorem cmdClean_moved (ho : old ≠ []) (hn : new ≠ []) {w w' : World} (h1 : w'.disk.at new = w.disk.at old) (h2 : w'.faults = w.faults) :
    (cmdClean new w').1.disk.at new = (cmdClean old w).1.disk.at old ∧ (cmdClean new w').1.faults = (cmdClean old w).1.faults ∧
    (cmdClean new w').2 = (cmdClean old w).2.mapErr (movedCli old new) := by
  have hat : w'.disk.existsAt (new ++ [str!"stuart.toml"]) = w.disk.existsAt (old ++ [str!"stuart.toml"]) := by
    unfold Entry.existsAt; rw [at_append, at_append, h1]
  unfold cmdClean
  rw [hat]
  split
  · exact ⟨h1, h2, rfl⟩
  · rename_i hx
    have hl : ∃ l, w.disk.at old = some (.dir l) := by
      simp only [Bool.not_eq_true', Bool.not_eq_false] at hx
      unfold Entry.existsAt at hx
      rw [at_append] at hx
      cases ho : w.disk.at old with
      | none => rw [ho] at hx; cases hx
      | some e =>
        cases e with
        | dir l => exact ⟨l, rfl⟩
        | file b => rw [ho] at hx; cases hx
        | special => rw [ho] at hx; cases hx
    obtain ⟨l, hl⟩ := hl
    have h : SameWorld old new w w' := ⟨⟨h1, isDirAt_above hl, isDirAt_above (h1.trans hl)⟩, h2⟩
    obtain ⟨a1, a2⟩ := (h.remove ho hn str!"dist").1
    generalize removeDir (old ++ [str!"dist"]) w = x at a1 a2 ⊢
    generalize removeDir (new ++ [str!"dist"]) w' = y at a1 a2 ⊢
    obtain ⟨x1, x2⟩ := x
    obtain ⟨y1, y2⟩ := y
    simp only at a1 a2
    subst a2
    cases x2 with
    | err e => exact ⟨a1.1.same, a1.2, rfl⟩
    | panic e => exact ⟨a1.1.same, a1.2, rfl⟩
    | ok u =>
      simp only [Res.mapErr_ok]
      obtain ⟨b1, b2⟩ := (a1.remove ho hn str!"_build").1
      generalize removeDir (old ++ [str!"_build"]) x1 = x at b1 b2 ⊢
      generalize removeDir (new ++ [str!"_build"]) y1 = y at b1 b2 ⊢
      obtain ⟨x1, x2⟩ := x
      obtain ⟨y1, y2⟩ := y
      simp only at b1 b2
      subst b2
      cases x2 with
      | err e => exact ⟨b1.1.same, b1.2, rfl⟩
      | panic e => exact ⟨b1.1.same, b1.2, rfl⟩
      | ok u =>
        simp only [Res.mapErr_ok]
        obtain ⟨c1, c2⟩ := (b1.remove ho hn str!"metadata.json").2
        exact ⟨c1.1.same, c1.2, c2⟩

end Stuart
