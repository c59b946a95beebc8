import Verif.Proof.Publish
/-
Saving once more.
-/
namespace Stuart
open Spec

theorem World.step_calm {w : World} (h : w.Calm) (o : Op) : (w.step o).1.Calm := by
  unfold World.step
  split
  · rename_i r fs hf
    have := h (some r) (by rw [hf]; exact .head _)
    cases this
  · split <;> exact fun f hf => h f (List.mem_of_mem_tail hf)

theorem runOps_calm {os : List Op} {w : World} (h : w.Calm) : (runOps os w).1.Calm := by
  induction os generalizing w with
  | nil => exact h
  | cons o os ih =>
    rw [runOps]
    split
    · exact ih (w.step_calm h o)
    · exact w.step_calm h o

/-- Without mishaps, the start of a save succeeds. -/
theorem clear_mkdir_succeeds {path : Path} {os : List Op} {w : World} (hp : path ≠ []) (hcalm : w.Calm)
    (hpar : look w.disk path.dropLast = some .dir) (hout : look w.disk path = none ∨ look w.disk path = some .dir) :
    ∃ w', runOps (.clear path :: .mkdir path :: os) w = runOps os w' ∧ w'.Calm ∧
      ∀ r, look w'.disk (path ++ r) = if r = [] then some .dir else none := by
  have s1 : ∃ d1, (Op.clear path).apply w.disk = some d1 ∧ look d1 path = none ∧ look d1 path.dropLast = some .dir := by
    have hnp : ¬ path <+: path.dropLast := by
      intro hc
      have := hc.length_le
      simp only [List.length_dropLast] at this
      have : path.length ≠ 0 := by simpa using hp
      omega
    simp only [Op.apply]
    rcases hout with ho | ho
    · rw [at_none_iff.2 ho]; exact ⟨_, rfl, ho, hpar⟩
    · cases he : w.disk.at path with
      | none => rw [at_none_iff.1 he] at ho; cases ho
      | some e =>
        rw [look_of_at he] at ho
        cases e with
        | dir l =>
          refine ⟨_, by simp only [if_neg hp]; rfl, ?_, ?_⟩
          · have := look_put_inside (v := none) hp [] hpar
            rwa [List.append_nil] at this
          · rw [look_put_outside hnp]; exact hpar
        | file b => cases ho
        | special => cases ho
  obtain ⟨d1, ha1, hl1, hd1⟩ := s1
  obtain ⟨x1, x2, x3⟩ := World.calm_step hcalm ha1
  have s2 : (Op.mkdir path).apply (w.step (.clear path)).1.disk = some (d1.put path (some (.dir []))) := by
    rw [x2]
    simp only [Op.apply, at_none_iff.2 hl1, isDirAt_iff.2 hd1, if_true]
  obtain ⟨y1, y2, y3⟩ := World.calm_step x3 s2
  refine ⟨((w.step (.clear path)).1.step (.mkdir path)).1, by rw [runOps, if_pos x1, runOps, if_pos y1], y3, ?_⟩
  intro r
  rw [y2, look_put_inside hp r hd1]
  cases r <;> rfl

/-- Additions that succeeded once succeed again, below a path where the disks look the same. -/
theorem runOps_again {path : Path} {os : List Op} {w1 w2 : World} (ho : ∀ o ∈ os, o.Adds ∧ path <+: o.target)
    (h1 : (runOps os w1).2 = .ok ()) (hc : w2.Calm) (hd : look w1.disk path = some .dir)
    (h : ∀ r, look w1.disk (path ++ r) = look w2.disk (path ++ r)) : (runOps os w2).2 = .ok () := by
  induction os generalizing w1 w2 with
  | nil => rfl
  | cons o os ih =>
    obtain ⟨s1, e1⟩ := runOps_cons_ok h1
    rw [e1] at h1
    obtain ⟨ha, t, ht⟩ := ho o (.head _)
    have a1 := World.step_ok s1
    have hl : ∀ t : Path, t ≠ [] → (path ++ t).dropLast = path ++ t.dropLast := by
      intro t ht; rw [List.dropLast_append_of_ne_nil ht]
    have a2 : ∃ d2, o.apply w2.disk = some d2 := by
      cases o with
      | write p b =>
        simp only [Op.target] at ht
        subst ht
        obtain ⟨n1, n2, n3⟩ := (adds_step ha a1 []).2
        by_cases htn : t = []
        · subst htn
          rw [List.append_nil, hd] at n3
          rcases n3 with n3 | ⟨_, n3⟩ <;> cases n3
        · rw [hl t htn, h] at n2
          rw [h] at n3
          simp only [Op.apply]
          cases hat : w2.disk.at (path ++ t) with
          | none => exact ⟨_, by simp only [hl t htn, isDirAt_iff.2 n2, if_true]; rfl⟩
          | some e =>
            rw [look_of_at hat] at n3
            cases e with
            | file _ => exact ⟨_, rfl⟩
            | dir _ => rcases n3 with n3 | ⟨_, n3⟩ <;> cases n3
            | special => rcases n3 with n3 | ⟨_, n3⟩ <;> cases n3
      | mkdirTolerant p =>
        simp only [Op.target] at ht
        subst ht
        simp only [Op.apply] at a1 ⊢
        cases hat : w2.disk.at (path ++ t) with
        | some e => exact ⟨_, rfl⟩
        | none =>
          have hn1 : look w1.disk (path ++ t) = none := by rw [h]; exact at_none_iff.1 hat
          rw [at_none_iff.2 hn1] at a1
          simp only at a1
          split at a1
          · rename_i hdir
            have htn : t ≠ [] := by
              rintro rfl
              rw [List.append_nil, hd] at hn1; cases hn1
            rw [isDirAt_iff, hl t htn, h] at hdir
            exact ⟨_, by simp only [hl t htn, isDirAt_iff.2 hdir, if_true]; rfl⟩
          · cases a1
      | _ => exact ha.elim
    obtain ⟨d2, a2⟩ := a2
    obtain ⟨b1, b2, b3⟩ := World.calm_step hc a2
    have hsame : ∀ r, look (w1.step o).1.disk (path ++ r) = look (w2.step o).1.disk (path ++ r) := by
      intro r
      rw [(adds_step ha a1 _).1, b2, (adds_step ha a2 _).1]
      cases o with
      | write p b => simp only [Op.seen, h]
      | mkdirTolerant p =>
        simp only [Op.target] at ht
        simp only [Op.seen, ← ht, h]
      | _ => exact ha.elim
    have hdir : look (w1.step o).1.disk path = some .dir := by
      rw [(adds_step ha a1 _).1]
      cases o with
      | write p b =>
        have := (adds_step ha a1 []).2.2.2
        simp only [Op.seen]
        split
        · rename_i hp
          rw [← hp, hd] at this
          rcases this with n3 | ⟨_, n3⟩ <;> cases n3
        · exact hd
      | mkdirTolerant p =>
        simp only [Op.seen]
        split
        · rename_i hp; rw [← hp, hd]; simp
        · exact hd
      | _ => exact ha.elim
    rw [runOps, if_pos b1]
    exact ih (fun o h => ho o (.tail _ h)) h1 b3 hdir hsame

/-- A save that succeeded once succeeds again, wherever there is a directory or nothing in its place. -/
theorem saveNode_again {cfg : Config} {path : Path} {nm src : Str} {cs : List Node} {w1 w2 : World} (hp : path ≠ [])
    (hn : PlainNames cfg cs) (h1 : (saveNode cfg path (.dir nm cs src) w1).2 = .ok ()) (hc : w2.Calm)
    (hpar : look w2.disk path.dropLast = some .dir) (hout : look w2.disk path = none ∨ look w2.disk path = some .dir) :
    (saveNode cfg path (.dir nm cs src) w2).2 = .ok () := by
  rw [saveNode] at h1 ⊢
  obtain ⟨v1, e1, l1, _⟩ := clear_mkdir hp h1
  obtain ⟨v2, e2, c2, l2⟩ := clear_mkdir_succeeds (os := saveAll cfg path cs) hp hc hpar hout
  rw [e1] at h1
  rw [e2]
  refine runOps_again (fun o ho => ⟨(saveAll_target hn ho).2 hp, (saveAll_target hn ho).1⟩) h1 c2 ?_ ?_
  · have := l1 []; rwa [List.append_nil] at this
  · intro r; rw [l1, l2]

end Stuart
