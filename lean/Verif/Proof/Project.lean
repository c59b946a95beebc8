import Verif.Spec.Terms
import Verif.Model.Fs
import Verif.Proof.Interp
/-
The builder's `build` in terms of reading and building.
-/
namespace Stuart

theorem Project.build_result (S : Sys) (disk : Entry) (mode : Str) (s : Project) :
    (s.build S disk mode).2 = (readBuild S disk mode s).bind (fun _ => .ok ()) ∧
    (s.build S disk mode).1.output = (match readBuild S disk mode s with
      | .ok out => some out
      | _ => s.output) ∧
    (s.build S disk mode).1.config = s.config ∧ (s.build S disk mode).1.dir = s.dir ∧
    (s.build S disk mode).1.plugins = s.plugins := by
  unfold readBuild Project.build buildTree
  cases readTree S true s.plugins disk s.dir with
  | err e => exact ⟨rfl, rfl, rfl, rfl, rfl⟩
  | panic e => exact ⟨rfl, rfl, rfl, rfl, rfl⟩
  | ok input =>
    simp only [Res.bind_ok]
    cases preNode S.ext ⟨input, S.dateFmt⟩ (baseFrame S.vars mode) input with
    | err e => exact ⟨rfl, rfl, rfl, rfl, rfl⟩
    | panic e => exact ⟨rfl, rfl, rfl, rfl, rfl⟩
    | ok input' =>
      simp only [Res.bind_ok]
      cases buildNode ⟨⟨input', S.dateFmt⟩, baseFrame S.vars mode, s.config⟩
          (updateEnv ⟨none, none⟩ (input'.children.getD [])) input' with
      | err e => exact ⟨rfl, rfl, rfl, rfl, rfl⟩
      | panic e => exact ⟨rfl, rfl, rfl, rfl, rfl⟩
      | ok out => exact ⟨rfl, rfl, rfl, rfl, rfl⟩

theorem Project.build_ok {S : Sys} {disk : Entry} {mode : Str} {s : Project} (h : (s.build S disk mode).2 = .ok ()) :
    ∃ out, readBuild S disk mode s = .ok out ∧ (s.build S disk mode).1.output = some out := by
  obtain ⟨h1, h2, _⟩ := Project.build_result S disk mode s
  rw [h1] at h
  cases hr : readBuild S disk mode s with
  | ok out => rw [hr] at h2; exact ⟨out, rfl, h2⟩
  | err e => rw [hr] at h; cases h
  | panic e => rw [hr] at h; cases h

end Stuart
