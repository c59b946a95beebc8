import Verif.Proof.FileTypes
import Verif.Model.Cli
/-
Helpers for C81: the order of plugins that do not get into each other's way.
-/
namespace Stuart
open Spec

theorem findSome?_perm {α β : Type} {f : α → Option β} {l l' : List α} (hp : l.Perm l')
    (h : l.Pairwise fun a b => f a = none ∨ f b = none) : l.findSome? f = l'.findSome? f := by
  have symm : ∀ {a b}, (f a = none ∨ f b = none) → (f b = none ∨ f a = none) := fun h => h.symm
  induction hp with
  | nil => rfl
  | cons x _ ih => rw [List.findSome?_cons, List.findSome?_cons, ih (List.pairwise_cons.1 h).2]
  | swap x y l =>
    simp only [List.findSome?_cons]
    have hxy := (List.pairwise_cons.1 h).1 x (List.mem_cons_self ..)
    rcases hxy with hxy | hxy
    · rw [hxy]
    · rw [hxy]
  | trans h1 h2 i1 i2 => exact (i1 h).trans (i2 (h1.pairwise h symm))

theorem independent_symm {p q : Plugin} (h : Independent p q) : Independent q p :=
  ⟨fun n k => h.1 n k.symm, fun n k => h.2 n k.symm⟩

theorem answers_of_find {p : Plugin} {name : Str} {f : PluginFnParser} (h : p.fns.functions.find? (pluginMatches name p.fns) = some f) :
    Answers p name := by
  refine ⟨f, List.mem_of_find?_eq_some h, ?_⟩
  have := List.find?_some h
  simpa [pluginMatches] using this

theorem resolveFn_perm {ps ps' : List Plugin} (hp : ps.Perm ps') (h : ps.Pairwise Independent) (raw : RawFn) :
    resolveFn (ps.map fun p => p.fns) raw = resolveFn (ps'.map fun p => p.fns) raw := by
  have : findPlugin raw.name (ps.map fun p => p.fns) = findPlugin raw.name (ps'.map fun p => p.fns) := by
    unfold findPlugin
    refine findSome?_perm (hp.map _) ?_
    rw [List.pairwise_map]
    refine h.imp ?_
    intro p q hpq
    cases h1 : p.fns.functions.find? (pluginMatches raw.name p.fns) with
    | none => exact .inl rfl
    | some f =>
      cases h2 : q.fns.functions.find? (pluginMatches raw.name q.fns) with
      | none => exact .inr rfl
      | some g => exact absurd ⟨answers_of_find h1, answers_of_find h2⟩ (hpq.1 raw.name)
  unfold resolveFn
  rw [this]

theorem findParser_perm {ps ps' : List Plugin} (hp : ps.Perm ps') (h : ps.Pairwise Independent) {nm e : Str} (he : HasExt nm e)
    (hk : ¬ Known e) : findParser ps e = findParser ps' e := by
  unfold findParser
  rw [List.find?_flatMap, List.find?_flatMap]
  refine findSome?_perm hp (h.imp ?_)
  intro p q hpq
  have key : ∀ (p : Plugin) {x}, p.parsers.find? (fun q => q.extensions.contains e) = some x → Handles p nm := by
    intro p x hx
    refine ⟨e, he, hk, x, List.mem_of_find?_eq_some hx, ?_⟩
    have := List.find?_some hx
    simpa using this
  cases h1 : p.parsers.find? (fun q => q.extensions.contains e) with
  | none => exact .inl rfl
  | some f =>
    cases h2 : q.parsers.find? (fun q => q.extensions.contains e) with
    | none => exact .inr rfl
    | some g => exact absurd ⟨key p h1, key q h2⟩ (hpq.2 nm)

theorem readTree_perm {S : Sys} {ps ps' : List Plugin} (hp : ps.Perm ps') (h : ps.Pairwise Independent) (parse : Bool) (disk : Entry) (p : Path) :
    readTree S parse ps disk p = readTree S parse ps' disk p :=
  readTree_plugins (resolveFn_perm hp h) (fun _ _ he hk => findParser_perm hp h he hk) parse disk p

theorem projectBuild_plugins {S : Sys} {disk : Entry} {mode : Str} {s : Project} {ps' : List Plugin}
    (h : readTree S true s.plugins disk s.dir = readTree S true ps' disk s.dir) :
    ({ s with plugins := ps' } : Project).build S disk mode =
      ({ (s.build S disk mode).1 with plugins := ps' }, (s.build S disk mode).2) := by
  unfold Project.build
  rw [h]
  cases readTree S true ps' disk s.dir with
  | err => rfl
  | panic => rfl
  | ok input =>
    simp only
    cases preNode S.ext ⟨input, S.dateFmt⟩ (baseFrame S.vars mode) input with
    | err => rfl
    | panic => rfl
    | ok input' =>
      simp only
      cases buildNode ⟨⟨input', S.dateFmt⟩, baseFrame S.vars mode, s.config⟩ (updateEnv ⟨none, none⟩ (input'.children.getD [])) input' <;> rfl

theorem mergeDirs_plugins {M : Machine} {disk : Entry} {dir : Path} {ps' : List Plugin} : ∀ {ns : List Str} {s : Project},
    mergeDirs M disk dir ns { s with plugins := ps' } =
      ({ (mergeDirs M disk dir ns s).1 with plugins := ps' }, (mergeDirs M disk dir ns s).2)
  | [], s => rfl
  | n :: ns, ⟨d, i, o, cfg, qs⟩ => by
    unfold mergeDirs
    split
    · cases readTree M.sys false [] disk (dir ++ [n]) with
      | err => rfl
      | panic => rfl
      | ok node =>
        simp only [Project.mergeOutput]
        cases o with
        | none => rfl
        | some out =>
          simp only
          cases (mergeNode out node).2 with
          | err => rfl
          | panic => rfl
          | ok =>
            exact mergeDirs_plugins (M := M) (disk := disk) (dir := dir) (ps' := ps') (ns := ns)
              (s := ⟨d, i, some (mergeNode out node).1, cfg, qs⟩)
    · exact mergeDirs_plugins

/-- The same context with other plugins. -/
def Context.withPlugins (c : Context) (ps : List Plugin) : Context := { c with stuart := { c.stuart with plugins := ps } }

theorem publish_plugins {M : Machine} {c : Context} {s : Host} {ps' : List Plugin} :
    (c.withPlugins ps').publish M s = ((c.publish M s).1.withPlugins ps', (c.publish M s).2) := by
  unfold Context.publish Context.withPlugins
  simp only [mergeDirs_plugins]
  cases mergeDirs M s.world.disk c.dir [str!"static", str!"temp"] c.stuart with
  | mk s1 r =>
    obtain ⟨d, i, o, cfg, qs⟩ := s1
    cases r with
    | err => rfl
    | panic => rfl
    | ok =>
      cases o with
      | none => rfl
      | some out =>
        simp only [Project.save, exportMeta, Project.saveMetadata]
        cases saveNode cfg (joinPath c.dir c.output) out (s.world.step (.clear (c.dir ++ [str!"temp"]))).1 with
        | mk w r => cases r <;> rfl

theorem contextBuild_plugins {M : Machine} {c : Context} {s : Host} {ps' : List Plugin}
    (h : ∀ disk, readTree M.sys true c.stuart.plugins disk c.stuart.dir = readTree M.sys true ps' disk c.stuart.dir) :
    (c.withPlugins ps').build M s = ((c.build M s).1.withPlugins ps', (c.build M s).2) := by
  have e0 : (c.withPlugins ps').env = c.env := rfl
  have e1 : (c.withPlugins ps').pre = c.pre := rfl
  have e2 : (c.withPlugins ps').mode = c.mode := rfl
  have e3 : (c.withPlugins ps').stuart = { c.stuart with plugins := ps' } := rfl
  unfold Context.build
  rw [e0, e1, e2, e3]
  cases runScripts M c.env c.pre s with
  | mk s1 r =>
    cases r with
    | err => rfl
    | panic => rfl
    | ok =>
      simp only
      rw [projectBuild_plugins (h s1.world.disk)]
      simp only
      cases (c.stuart.build M.sys s1.world.disk c.mode).2 with
      | err => rfl
      | panic => rfl
      | ok =>
        simp only
        have := publish_plugins (M := M) (c := { c with stuart := (c.stuart.build M.sys s1.world.disk c.mode).1 }) (s := s1) (ps' := ps')
        simp only [Context.withPlugins] at this ⊢
        rw [this]
        cases ({ c with stuart := (c.stuart.build M.sys s1.world.disk c.mode).1 } : Context).publish M s1 with
        | mk c2 r2 =>
          cases r2 with
          | mk s2 r2 => cases r2 <;> rfl

end Stuart
