import Verif.Spec.Terms
import Verif.Proof.Save
/-
When saving succeeds, and what it depends on.
-/
namespace Stuart
open Spec

theorem World.calm_step {w : World} (h : w.Calm) {o : Op} {d : Entry} (ho : o.apply w.disk = some d) :
    (w.step o).2 = true ∧ (w.step o).1.disk = d ∧ (w.step o).1.Calm := by
  unfold World.step
  split
  · rename_i r fs hf
    exact absurd (h _ (by rw [hf]; exact .head _)) (by nofun)
  · rw [ho]
    exact ⟨rfl, rfl, fun f hf => h f (List.mem_of_mem_tail hf)⟩

theorem runOps_append {os os' : List Op} {w : World} (h : (runOps os w).2 = .ok ()) :
    runOps (os ++ os') w = runOps os' (runOps os w).1 := by
  induction os generalizing w with
  | nil => rfl
  | cons o os ih =>
    obtain ⟨hs, he⟩ := runOps_cons_ok h
    rw [he] at h ⊢
    rw [List.cons_append, runOps, if_pos hs, ih h]

/-- The disk, with places for files and places for directories kept apart. -/
structure Tidy (F D : Path → Prop) (d : Entry) : Prop where
  file : ∀ q b, D q → look d q ≠ some (.file b)
  dir : ∀ q, F q → look d q ≠ some .dir
  special : ∀ q, F q ∨ D q → look d q ≠ some .special

theorem Tidy.write {F D : Path → Prop} (hFD : ∀ q, F q → ¬ D q) {w : World} (hc : w.Calm) (ht : Tidy F D w.disk)
    {p : Path} {b : Bytes} (hp : p ≠ []) (hF : F p) (hd : look w.disk p.dropLast = some .dir) :
    (w.step (.write p b)).2 = true ∧ (w.step (.write p b)).1.Calm ∧ Tidy F D (w.step (.write p b)).1.disk ∧
      ∀ q, look w.disk q = some .dir → look (w.step (.write p b)).1.disk q = some .dir := by
  have : ∃ d, (Op.write p b).apply w.disk = some d := by
    simp only [Op.apply]
    cases hl : w.disk.at p with
    | none => exact ⟨_, by simp only [isDirAt_iff.2 hd, if_true]; rfl⟩
    | some e =>
      cases e with
      | file b' => exact ⟨_, rfl⟩
      | dir l => exact absurd (look_of_at hl) (ht.dir p hF)
      | special => exact absurd (look_of_at hl) (ht.special p (.inl hF))
  obtain ⟨d, hd'⟩ := this
  obtain ⟨h1, h2, h3⟩ := World.calm_step hc hd'
  rw [h2]
  have hs := fun q => (adds_step (o := .write p b) hp hd' q).1
  simp only [Op.seen] at hs
  refine ⟨h1, h3, ⟨?_, ?_, ?_⟩, ?_⟩
  · intro q b' hq
    rw [hs q]
    split
    · rename_i he; subst he; exact absurd hq (hFD _ hF)
    · exact ht.file q b' hq
  · intro q hq
    rw [hs q]
    split
    · nofun
    · exact ht.dir q hq
  · intro q hq
    rw [hs q]
    split
    · nofun
    · exact ht.special q hq
  · intro q hq
    rw [hs q, if_neg]
    · exact hq
    · rintro rfl; exact ht.dir q hF hq

theorem Tidy.mkdir {F D : Path → Prop} (hFD : ∀ q, F q → ¬ D q) {w : World} (hc : w.Calm) (ht : Tidy F D w.disk)
    {p : Path} (hp : p ≠ []) (hD : D p) (hd : look w.disk p = some .dir ∨ look w.disk p.dropLast = some .dir) :
    (w.step (.mkdirTolerant p)).2 = true ∧ (w.step (.mkdirTolerant p)).1.Calm ∧
      Tidy F D (w.step (.mkdirTolerant p)).1.disk ∧ look (w.step (.mkdirTolerant p)).1.disk p = some .dir ∧
      ∀ q, look w.disk q = some .dir → look (w.step (.mkdirTolerant p)).1.disk q = some .dir := by
  have : ∃ d, (Op.mkdirTolerant p).apply w.disk = some d := by
    simp only [Op.apply]
    cases hl : w.disk.at p with
    | none =>
      rcases hd with hd | hd
      · rw [at_none_iff.1 hl] at hd; cases hd
      · exact ⟨_, by simp only [isDirAt_iff.2 hd, if_true]; rfl⟩
    | some e => exact ⟨_, rfl⟩
  obtain ⟨d, hd'⟩ := this
  obtain ⟨h1, h2, h3⟩ := World.calm_step hc hd'
  rw [h2]
  have hs := fun q => (adds_step (o := .mkdirTolerant p) hp hd' q).1
  simp only [Op.seen] at hs
  have hpd : look w.disk p = none ∨ look w.disk p = some .dir := by
    cases hl : look w.disk p with
    | none => exact .inl rfl
    | some k =>
      cases k with
      | dir => exact .inr rfl
      | file b => exact absurd hl (ht.file p b hD)
      | special => exact absurd hl (ht.special p (.inr hD))
  have hnew : look d p = some .dir := by
    rw [hs p, if_pos rfl]
    rcases hpd with h | h <;> simp [h]
  refine ⟨h1, h3, ⟨?_, ?_, ?_⟩, hnew, ?_⟩
  · intro q b' hq
    by_cases he : q = p
    · subst he; rw [hnew]; nofun
    · rw [hs q, if_neg he]; exact ht.file q b' hq
  · intro q hq
    by_cases he : q = p
    · subst he; exact absurd hD (hFD _ hq)
    · rw [hs q, if_neg he]; exact ht.dir q hq
  · intro q hq
    by_cases he : q = p
    · subst he; rw [hnew]; nofun
    · rw [hs q, if_neg he]; exact ht.special q hq
  · intro q hq
    by_cases he : q = p
    · subst he; exact hnew
    · rw [hs q, if_neg he]; exact hq

variable {cfg : Config}

mutual
/-- Saving a node succeeds when files and directories are kept apart. -/
theorem saveRec_succeeds {F D : Path → Prop} (hFD : ∀ q, F q → ¬ D q) {p : Path} (hp : p ≠ []) (n : Node)
    (h : PlainNames cfg [n]) (hF : ∀ r b, Goes cfg [n] r b → F (p ++ r)) (hD : ∀ r, GoesDir cfg [n] r → D (p ++ r))
    {w : World} (hc : w.Calm) (ht : Tidy F D w.disk) (hd : look w.disk p = some .dir) :
    (runOps (saveRec cfg p n) w).2 = .ok () ∧ (runOps (saveRec cfg p n) w).1.Calm ∧
      Tidy F D (runOps (saveRec cfg p n) w).1.disk ∧
      ∀ q, look w.disk q = some .dir → look (runOps (saveRec cfg p n) w).1.disk q = some .dir := by
  cases n with
  | dir d cs src =>
    have hpl : PlainName d := (h [] _ (.here (.head _))).1
    have hcs : PlainNames cfg cs := fun ds n hh => h (d :: ds) n (.down (.head _) hh)
    rw [saveRec, joinPath_plain hpl, runOps]
    obtain ⟨h1, h2, h3, h4, h5⟩ := Tidy.mkdir hFD hc ht (p := p ++ [d]) (by simp)
      (hD [d] (GoesDir_dir.2 (.inl rfl))) (.inr (by rw [List.dropLast_concat]; exact hd))
    rw [if_pos h1]
    obtain ⟨k1, k2, k3, k4⟩ := saveAll_succeeds hFD (p := p ++ [d]) (by simp) cs hcs
      (fun r b hr => by rw [List.append_assoc]; exact hF _ b (Goes_dir.2 ⟨r, rfl, hr⟩))
      (fun r hr => by rw [List.append_assoc]; exact hD _ (GoesDir_dir.2 (.inr ⟨r, rfl, hr⟩))) h2 h3 h4
    exact ⟨k1, k2, k3, fun q hq => k4 q (h5 q hq)⟩
  | file name b parsed m src =>
    have hn := h [] _ (.here (.head _))
    rcases saveFile_ops (p := p) (name := name) (b := b) (parsed := parsed) (m := m) (src := src) hn with
      ⟨he, hpb⟩ | ⟨hpb, ho, he⟩ | ⟨hpb, stem, ho, he⟩
    · rw [he]; exact ⟨rfl, hc, ht, fun _ h => h⟩
    · rw [he]
      obtain ⟨h1, h2, h3, h4⟩ := Tidy.write hFD hc ht (p := p ++ [name]) (b := b) (by simp)
        (hF [name] b (.plain (ds := []) (.here (.head _)) hpb ho)) (by rw [List.dropLast_concat]; exact hd)
      rw [runOps, if_pos h1, runOps]
      exact ⟨rfl, h2, h3, h4⟩
    · rw [he]
      obtain ⟨h1, h2, h3, h4, h5⟩ := Tidy.mkdir hFD hc ht (p := p ++ stemDir stem) (by simp [hp])
        (hD _ (.page (ds := []) (.here (.head _)) hpb ho)) (by
          unfold stemDir
          split
          · left; rw [List.append_nil]; exact hd
          · right; rw [List.dropLast_concat]; exact hd)
      obtain ⟨k1, k2, k3, k4⟩ := Tidy.write hFD h2 h3 (p := p ++ stemDir stem ++ [str!"index.html"]) (b := b) (by simp)
        (by rw [List.append_assoc]; exact hF _ b (.page (ds := []) (.here (.head _)) hpb ho))
        (by rw [List.dropLast_concat]; exact h4)
      rw [runOps, if_pos h1, runOps, if_pos k1, runOps]
      exact ⟨rfl, k2, k3, fun q hq => k4 q (h5 q hq)⟩
/-- The same for the children of a directory. -/
theorem saveAll_succeeds {F D : Path → Prop} (hFD : ∀ q, F q → ¬ D q) {p : Path} (hp : p ≠ []) (cs : List Node)
    (h : PlainNames cfg cs) (hF : ∀ r b, Goes cfg cs r b → F (p ++ r)) (hD : ∀ r, GoesDir cfg cs r → D (p ++ r))
    {w : World} (hc : w.Calm) (ht : Tidy F D w.disk) (hd : look w.disk p = some .dir) :
    (runOps (saveAll cfg p cs) w).2 = .ok () ∧ (runOps (saveAll cfg p cs) w).1.Calm ∧
      Tidy F D (runOps (saveAll cfg p cs) w).1.disk ∧
      ∀ q, look w.disk q = some .dir → look (runOps (saveAll cfg p cs) w).1.disk q = some .dir := by
  cases cs with
  | nil => rw [saveAll]; exact ⟨rfl, hc, ht, fun _ h => h⟩
  | cons c cs =>
    obtain ⟨h1, h2, h3, h4⟩ := saveRec_succeeds hFD hp c (fun ds n hh => h ds n (Holds_cons.2 (.inl hh)))
      (fun r b hr => hF r b (Goes_cons.2 (.inl hr))) (fun r hr => hD r (GoesDir_cons.2 (.inl hr))) hc ht hd
    obtain ⟨k1, k2, k3, k4⟩ := saveAll_succeeds hFD hp cs (fun ds n hh => h ds n (Holds_cons.2 (.inr hh)))
      (fun r b hr => hF r b (Goes_cons.2 (.inr hr))) (fun r hr => hD r (GoesDir_cons.2 (.inr hr))) h2 h3 (h4 p hd)
    rw [saveAll, runOps_append h1]
    exact ⟨k1, k2, k3, fun q hq => k4 q (h4 q hq)⟩
end

/-- Additions look the same wherever they start from, below a path where the disks look the same. -/
theorem runOps_agree {path : Path} {os : List Op} {w1 w2 : World} (ho : ∀ o ∈ os, o.Adds ∧ path <+: o.target)
    (h1 : (runOps os w1).2 = .ok ()) (h2 : (runOps os w2).2 = .ok ())
    (h : ∀ r, look w1.disk (path ++ r) = look w2.disk (path ++ r)) (r : Path) :
    look (runOps os w1).1.disk (path ++ r) = look (runOps os w2).1.disk (path ++ r) := by
  induction os generalizing w1 w2 with
  | nil => exact h r
  | cons o os ih =>
    obtain ⟨s1, e1⟩ := runOps_cons_ok h1
    obtain ⟨s2, e2⟩ := runOps_cons_ok h2
    rw [e1] at h1 ⊢
    rw [e2] at h2 ⊢
    obtain ⟨ha, hp⟩ := ho o (.head _)
    refine ih (fun o h => ho o (.tail _ h)) h1 h2 fun r' => ?_
    rw [(adds_step ha (World.step_ok s1) _).1, (adds_step ha (World.step_ok s2) _).1]
    obtain ⟨t, ht⟩ := hp
    cases o with
    | write p b => simp only [Op.seen, h]
    | mkdirTolerant p =>
      simp only [Op.target] at ht
      simp only [Op.seen, ← ht, h]
    | _ => exact ha.elim

end Stuart
