import Verif.Spec.Terms
import Verif.Proof.Cli
/-
The steps of a build of the command line program.
-/
namespace Stuart
open Spec

variable {M : Machine} {c : Context} {s : Host}

theorem Context.build_pre (h : ∀ s1, runScripts M c.env c.pre s ≠ (s1, .ok ())) :
    c.build M s = (c, runScripts M c.env c.pre s) := by
  unfold Context.build
  generalize runScripts M c.env c.pre s = r at h
  obtain ⟨s1, r⟩ := r
  cases r with
  | ok u => exact absurd rfl (h s1)
  | err e => rfl
  | panic e => rfl

/-- A build whose pre-build scripts succeed. -/
theorem Context.build_mid {s1 : Host} (h : runScripts M c.env c.pre s = (s1, .ok ())) :
    c.build M s =
      match readBuild M.sys s1.world.disk c.mode c.stuart with
      | .err e => (c.built M s1.world.disk, s1, .err (.core e))
      | .panic p => (c.built M s1.world.disk, s1, .panic p)
      | .ok _ =>
        match (c.built M s1.world.disk).publish M s1 with
        | (c, s2, .err e) => (c, s2, .err e)
        | (c, s2, .panic p) => (c, s2, .panic p)
        | (c, s2, .ok ()) => (c, runScripts M c.env c.post s2) := by
  unfold Context.build
  rw [h]
  simp only
  obtain ⟨h1, _⟩ := Project.build_result M.sys s1.world.disk c.mode c.stuart
  rw [h1]
  cases readBuild M.sys s1.world.disk c.mode c.stuart with
  | err e => rfl
  | panic p => rfl
  | ok out => rfl

theorem Context.built_output {disk : Entry} {out : Node} (h : readBuild M.sys disk c.mode c.stuart = .ok out) :
    (c.built M disk).stuart.output = some out ∧ (c.built M disk).stuart.config = c.stuart.config := by
  obtain ⟨_, h2, h3, _⟩ := Project.build_result M.sys disk c.mode c.stuart
  rw [h] at h2
  exact ⟨h2, h3⟩

theorem mergeDirs_err {disk : Entry} {dir : Path} {ns : List Str} {p p' : Project} {e : CliErr}
    (h : mergeDirs M disk dir ns p = (p', .err e)) : ∃ e', e = .core e' := by
  induction ns generalizing p with
  | nil => cases h
  | cons n ns ih =>
    rw [mergeDirs] at h
    split at h
    · split at h
      · cases h; exact ⟨_, rfl⟩
      · cases h
      · split at h
        · exact ih h
        · cases h; exact ⟨_, rfl⟩
        · cases h
    · exact ih h

/-- How publishing ends: either before anything is changed, or with the save. -/
theorem Context.publish_cases (h : HasDir c.stuart) :
    ((c.publish M s).2.1 = s ∧ (c.publish M s).2.2 ≠ .ok () ∧ (∀ e, (c.publish M s).2.2 = .err e → ∃ e', e = .core e')) ∨
    ((mergeDirs M s.world.disk c.dir [str!"static", str!"temp"] c.stuart).2 = .ok () ∧
      ((c.publish M s).2.2 = .ok () ∨ (c.publish M s).2.2 = .err (.core (.fs .write)) ∨
        (c.publish M s).2.2 = .panic .metadataNotObject)) := by
  have hd := mergeDirs_hasDir (M := M) (disk := s.world.disk) (dir := c.dir) (ns := [str!"static", str!"temp"]) h
  unfold Context.publish
  simp only
  generalize hm : mergeDirs M s.world.disk c.dir [str!"static", str!"temp"] c.stuart = m at hd
  obtain ⟨p, r⟩ := m
  cases r with
  | err e =>
    obtain ⟨e', rfl⟩ := mergeDirs_err hm
    exact .inl ⟨rfl, by nofun, fun _ k => by cases k; exact ⟨_, rfl⟩⟩
  | panic e => exact .inl ⟨rfl, by nofun, fun _ k => by cases k⟩
  | ok u =>
    refine .inr ⟨rfl, ?_⟩
    obtain ⟨nm, cs, src, ho⟩ := hd
    simp only at ho
    have hsv : ∀ w path, (p.save path w) = saveNode p.config path (.dir nm cs src) w := by
      intro w path; unfold Project.save; rw [ho]
    simp only [hsv]
    generalize hg : saveNode p.config (joinPath c.dir c.output) (.dir nm cs src) _ = sv
    obtain ⟨w, r⟩ := sv
    cases r with
    | err e => exact .inr (.inl (by rw [saveNode_err (e := e) (by rw [hg])]))
    | panic e => exact absurd (by rw [hg]) (saveNode_no_panic (p := e) (path := joinPath c.dir c.output) (cfg := p.config)
        (nm := nm) (cs := cs) (src := src) (w := (s.world.step (.clear (c.dir ++ [str!"temp"]))).1))
    | ok u =>
      simp only [exportMeta]
      split
      · rename_i hmeta
        unfold Project.saveMetadata
        simp only [hmeta, ho, Bool.not_true, Bool.false_eq_true, if_false]
        unfold saveMetaNode
        cases hr : metaRoot (.dir nm cs src) with
        | err e => exact absurd hr metaRoot_no_err
        | panic e =>
          right; right
          have : e = .metadataNotObject := by
            rw [metaRoot] at hr
            cases hk : metaNodes cs with
            | ok v => rw [hk] at hr; cases hr
            | err v => rw [hk] at hr; cases hr
            | panic v =>
              rw [hk] at hr
              cases hr
              have : metaNode (.dir nm cs src) = .panic e := by rw [metaNode, hk]; rfl
              exact (metaNode_panic this).1
          rw [this]; rfl
        | ok v =>
          simp only
          generalize hg : runOps _ _ = r
          obtain ⟨w', r⟩ := r
          cases r with
          | ok u => exact .inl rfl
          | err e => exact .inr (.inl (by rw [runOps_err (e := e) (by rw [hg])]; rfl))
          | panic e =>
            exfalso
            revert hg
            rw [runOps, runOps]
            split <;> nofun
      · exact .inl rfl

/-- Publishing changes nothing of the context but the tree, and runs no scripts. -/
theorem Context.publish_keeps :
    (c.publish M s).1 = { c with stuart := (mergeDirs M s.world.disk c.dir [str!"static", str!"temp"] c.stuart).1 } ∧
    (c.publish M s).2.1.runs = s.runs := by
  unfold Context.publish
  simp only
  split
  · exact ⟨rfl, rfl⟩
  · exact ⟨rfl, rfl⟩
  · split <;> exact ⟨rfl, rfl⟩

/-- The steps of a successful build. -/
theorem Context.build_ok (h : (c.build M s).2.2 = .ok ()) :
    ∃ s1 out s2, runScripts M c.env c.pre s = (s1, .ok ()) ∧
      readBuild M.sys s1.world.disk c.mode c.stuart = .ok out ∧
      ((c.built M s1.world.disk).publish M s1).2 = (s2, .ok ()) ∧
      runScripts M c.env c.post s2 = ((c.build M s).2.1, .ok ()) := by
  cases hr : runScripts M c.env c.pre s with
  | mk s1 r =>
    cases r with
    | err e => rw [Context.build_pre (by rw [hr]; nofun), hr] at h; cases h
    | panic e => rw [Context.build_pre (by rw [hr]; nofun), hr] at h; cases h
    | ok u =>
      rw [Context.build_mid hr] at h ⊢
      cases hb : readBuild M.sys s1.world.disk c.mode c.stuart with
      | err e => rw [hb] at h; cases h
      | panic e => rw [hb] at h; cases h
      | ok out =>
        rw [hb] at h
        simp only at h ⊢
        obtain ⟨k1, k2⟩ := Context.publish_keeps (M := M) (c := c.built M s1.world.disk) (s := s1)
        generalize hp : (c.built M s1.world.disk).publish M s1 = r at h k1 k2
        obtain ⟨c2, s2, r⟩ := r
        cases r with
        | err e => cases h
        | panic e => cases h
        | ok u =>
          simp only at h k1 ⊢
          subst k1
          refine ⟨s1, out, s2, rfl, hb, by rw [hp], ?_⟩
          rw [← h]; rfl

end Stuart
