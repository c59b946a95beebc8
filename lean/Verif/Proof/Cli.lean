import Verif.Spec.Terms
import Verif.Model.Cli
import Verif.Proof.Saved
import Verif.Proof.Project
import Verif.Proof.Meta
import Verif.Proof.Data
/-
Running scripts and the steps of a build.
-/
namespace Stuart
open Spec

variable {M : Machine} {env : List (Str × Str)}

/-- What a run leaves: the disk after the n-th run. -/
theorem runScripts_ok {ps : List Path} {s s' : Host} (h : runScripts M env ps s = (s', .ok ())) :
    ∃ rs, s'.runs = s.runs ++ rs ∧ rs.map Run.script = ps ∧ (∀ r ∈ rs, r.env = env) ∧
      s'.world.faults = s.world.faults ∧
      (∀ i r, rs[i]? = some r → (if i = 0 then r.before = s.world.disk else True) ∧
        ∃ o, (M.shell (s.runs.length + i) r.script env r.before).2 = some o ∧ o.code = some 0 ∧
          (M.shell (s.runs.length + i) r.script env r.before).1 =
            match rs[i + 1]? with
            | some r' => r'.before
            | none => s'.world.disk) ∧
      (rs = [] → s'.world.disk = s.world.disk) := by
  induction ps generalizing s with
  | nil =>
    rw [runScripts] at h
    simp only [Prod.mk.injEq] at h
    obtain ⟨rfl, _⟩ := h
    exact ⟨[], by simp, rfl, by simp, rfl, by simp, fun _ => rfl⟩
  | cons p ps ih =>
    rw [runScripts] at h
    split at h
    · cases h
    · rename_i o ho
      split at h
      · rename_i hc
        obtain ⟨rs, h1, h2, h3, h4, h5, h6⟩ := ih h
        refine ⟨⟨p, env, s.world.disk⟩ :: rs, by simp [h1], by simp [h2], ?_, h4, ?_, by simp⟩
        · intro r hr
          rcases List.mem_cons.1 hr with rfl | hr
          · rfl
          · exact h3 r hr
        · intro i r hi
          cases i with
          | zero =>
            simp only [List.getElem?_cons_zero, Option.some.injEq] at hi
            subst hi
            refine ⟨by simp, o, by simpa using ho, hc, ?_⟩
            simp only [List.getElem?_cons_succ]
            cases rs with
            | nil => simpa using (h6 rfl).symm
            | cons r' rs =>
              have := (h5 0 r' rfl).1
              simp only [if_true] at this
              simpa using this.symm
          | succ i =>
            simp only [List.getElem?_cons_succ] at hi
            obtain ⟨_, o', k1, k2, k3⟩ := h5 i r hi
            refine ⟨by simp, o', ?_, k2, ?_⟩
            · have : s.runs.length + (i + 1) = (s.runs ++ [Run.mk p env s.world.disk]).length + i := by
                simp; omega
              rw [this]; exact k1
            · have : s.runs.length + (i + 1) = (s.runs ++ [Run.mk p env s.world.disk]).length + i := by
                simp; omega
              rw [this, List.getElem?_cons_succ]; exact k3
      · cases h

/-- A script that fails. -/
theorem runScripts_err {ps : List Path} {s s' : Host} {e : CliErr} (h : runScripts M env ps s = (s', .err e)) :
    ∃ ps1 p ps2 s1, ps = ps1 ++ p :: ps2 ∧ runScripts M env ps1 s = (s1, .ok ()) ∧
      s' = ⟨⟨(M.shell s1.runs.length p env s1.world.disk).1, s1.world.faults⟩, s1.runs ++ [⟨p, env, s1.world.disk⟩]⟩ ∧
      (((M.shell s1.runs.length p env s1.world.disk).2 = none ∧ e = .couldNotExecute (p.getLast?.getD [])) ∨
        ∃ o, (M.shell s1.runs.length p env s1.world.disk).2 = some o ∧ o.code ≠ some 0 ∧
          e = .scriptFailure (p.getLast?.getD []) (o.code.getD (-1)) (trim (M.lossy o.stdout)) (trim (M.lossy o.stderr))) := by
  induction ps generalizing s with
  | nil => rw [runScripts] at h; cases h
  | cons p ps ih =>
    rw [runScripts] at h
    split at h
    · rename_i ho
      simp only [Prod.mk.injEq, Res.err.injEq] at h
      exact ⟨[], p, ps, s, rfl, rfl, h.1.symm, .inl ⟨ho, h.2.symm⟩⟩
    · rename_i o ho
      split at h
      · rename_i hc
        obtain ⟨ps1, q, ps2, s1, h1, h2, h3, h4⟩ := ih h
        refine ⟨p :: ps1, q, ps2, s1, by rw [h1]; rfl, ?_, h3, h4⟩
        rw [runScripts]
        simp only [ho, if_pos hc]
        exact h2
      · rename_i hc
        simp only [Prod.mk.injEq, Res.err.injEq] at h
        exact ⟨[], p, ps, s, rfl, rfl, h.1.symm, .inr ⟨o, ho, hc, h.2.symm⟩⟩

theorem runScripts_no_panic {ps : List Path} {s : Host} {p : Panic} : (runScripts M env ps s).2 ≠ .panic p := by
  induction ps generalizing s with
  | nil => rw [runScripts]; nofun
  | cons q ps ih =>
    rw [runScripts]
    split
    · nofun
    · split
      · exact ih
      · nofun

theorem runScripts_leaves {ps : List Path} {s : Host} {q : Path} (hq : Leaves M q) :
    look (runScripts M env ps s).1.world.disk q = look s.world.disk q := by
  induction ps generalizing s with
  | nil => rfl
  | cons p ps ih =>
    rw [runScripts]
    split
    · exact hq _ _ _ _
    · split
      · rw [ih]; exact hq _ _ _ _
      · exact hq _ _ _ _

theorem mem_findScripts {names : List Str} {disk : Entry} {dir p : Path} :
    p ∈ findScripts names disk dir ↔ ∃ l n b, disk.at dir = some (.dir l) ∧ (n, Entry.file b) ∈ l ∧ n ∈ names ∧ p = dir ++ [n] := by
  unfold findScripts
  split
  · rename_i l hl
    rw [List.mem_filterMap]
    constructor
    · rintro ⟨⟨n, e⟩, h1, h2⟩
      cases e with
      | file b =>
        simp only at h2
        split at h2
        · rename_i hn
          cases h2
          exact ⟨l, n, b, hl, h1, by simpa using hn, rfl⟩
        · cases h2
      | dir l' => cases h2
      | special => cases h2
    · rintro ⟨l', n, b, h1, h2, h3, rfl⟩
      rw [hl] at h1
      cases h1
      exact ⟨(n, .file b), h2, by simp [h3]⟩
  · rename_i hl
    constructor
    · intro h; cases h
    · rintro ⟨l', n, b, h1, _⟩
      exact absurd h1 (hl l')

/-! ### Errors of the steps -/

theorem runOps_err {os : List Op} {w : World} {e : SErr} (h : (runOps os w).2 = .err e) : e = .fs .write := by
  induction os generalizing w with
  | nil => cases h
  | cons o os ih =>
    rw [runOps] at h
    split at h
    · exact ih h
    · cases h; rfl

theorem saveNode_err {cfg : Config} {path : Path} {n : Node} {w : World} {e : SErr} (h : (saveNode cfg path n w).2 = .err e) :
    e = .fs .write := by
  unfold saveNode at h
  split at h
  · exact runOps_err h
  · split at h
    · cases h
    · exact runOps_err h

theorem saveMetaNode_err {S : Sys} {base : Value} {path : Path} {n : Node} {w : World} {e : SErr}
    (hn : ∀ e, metaRoot n ≠ .err e)
    (h : (saveMetaNode S base path n w).2 = .err e) : e = .fs .write := by
  unfold saveMetaNode at h
  split at h
  · exact runOps_err h
  · rename_i e' he; exact absurd he (hn e')
  · cases h

/-! ### The output is a directory -/

theorem preNode_dir {ext : Ext} {cx : Ctx} {base : Frame} {n : Str} {cs : List Node} {src : Str} {out : Node}
    (h : preNode ext cx base (.dir n cs src) = .ok out) : ∃ cs', out = .dir n cs' src := by
  rw [preNode] at h
  obtain ⟨cs', _, h⟩ := Res.bind_eq_ok.1 h
  cases h; exact ⟨cs', rfl⟩

theorem buildNode_dir {b : Builder} {e : Env} {n : Str} {cs : List Node} {src : Str} {out : Node}
    (h : buildNode b e (.dir n cs src) = .ok out) : ∃ cs', out = .dir n cs' src := by
  rw [buildNode] at h
  obtain ⟨cs', _, h⟩ := Res.bind_eq_ok.1 h
  cases h; exact ⟨cs', rfl⟩

theorem readTree_dir {S : Sys} {parse : Bool} {plugins : List Plugin} {disk : Entry} {p : Path} {n : Node}
    (h : readTree S parse plugins disk p = .ok n) : ∃ nm cs src, n = .dir nm cs src := by
  unfold readTree at h
  split at h
  · obtain ⟨cs, _, h⟩ := Res.bind_eq_ok.1 h
    obtain ⟨nm, _, h⟩ := Res.bind_eq_ok.1 h
    cases h; exact ⟨_, _, _, rfl⟩
  · cases h

theorem readBuild_dir {S : Sys} {disk : Entry} {mode : Str} {s : Project} {out : Node}
    (h : readBuild S disk mode s = .ok out) : ∃ nm cs src, out = .dir nm cs src := by
  obtain ⟨input, h1, h2⟩ := Res.bind_eq_ok.1 h
  obtain ⟨nm, cs, src, rfl⟩ := readTree_dir h1
  obtain ⟨mid, h3, h4⟩ := buildTree_ok h2
  obtain ⟨cs', rfl⟩ := preNode_dir h3
  obtain ⟨cs'', rfl⟩ := buildNode_dir h4
  exact ⟨_, _, _, rfl⟩

/-- The builder holds a directory. -/
def HasDir (s : Project) : Prop := ∃ nm cs src, s.output = some (.dir nm cs src)

theorem mergeNode_dir {n s n' s' : Str} {cs os : List Node} :
    mergeNode (.dir n cs s) (.dir n' os s') = (.dir n (mergeAll cs os).1 s, (mergeAll cs os).2) := by
  rw [mergeNode]

theorem mergeOutput_hasDir {s : Project} {nm : Str} {os : List Node} {src : Str} (h : HasDir s) :
    HasDir (s.mergeOutput (.dir nm os src)).1 := by
  obtain ⟨n, cs, sr, h⟩ := h
  unfold Project.mergeOutput
  rw [h]
  exact ⟨n, (mergeAll cs os).1, sr, by simp only [mergeNode_dir]⟩

theorem mergeDirs_hasDir {disk : Entry} {dir : Path} {ns : List Str} {s : Project} (h : HasDir s) :
    HasDir (mergeDirs M disk dir ns s).1 := by
  induction ns generalizing s with
  | nil => exact h
  | cons n ns ih =>
    rw [mergeDirs]
    split
    · split
      · exact h
      · exact h
      · rename_i node hn
        obtain ⟨nm, cs, src, rfl⟩ := readTree_dir hn
        have := mergeOutput_hasDir (nm := nm) (os := cs) (src := src) h
        split
        · rename_i s' hs; rw [hs] at this; exact ih this
        · rename_i s' e hs; rw [hs] at this; exact this
        · rename_i s' e hs; rw [hs] at this; exact this
    · exact ih h

theorem mergeDirs_config {disk : Entry} {dir : Path} {ns : List Str} {s : Project} :
    (mergeDirs M disk dir ns s).1.config = s.config := by
  induction ns generalizing s with
  | nil => rfl
  | cons n ns ih =>
    have hm : ∀ node, (s.mergeOutput node).1.config = s.config := by
      intro node
      unfold Project.mergeOutput
      split <;> rfl
    rw [mergeDirs]
    split
    · split
      · rfl
      · rfl
      · rename_i node hn
        split
        · rename_i s' hs; rw [ih, ← hm node, hs]
        · rename_i s' e hs; rw [← hm node, hs]
        · rename_i s' e hs; rw [← hm node, hs]
    · exact ih

theorem metaRoot_no_err {n : Node} {e : SErr} : metaRoot n ≠ .err e := by
  intro h
  cases n with
  | file => exact metaNode_no_err h
  | dir d cs src =>
    rw [metaRoot] at h
    cases hm : metaNodes cs with
    | ok v => rw [hm] at h; cases h
    | panic p => rw [hm] at h; cases h
    | err e' =>
      have : metaNode (.dir d cs src) = .err e' := by rw [metaNode, hm]; rfl
      exact metaNode_no_err this

theorem saveNode_no_panic {cfg : Config} {path : Path} {nm : Str} {cs : List Node} {src : Str} {w : World} {p : Panic} :
    (saveNode cfg path (.dir nm cs src) w).2 ≠ .panic p := by
  rw [saveNode]
  generalize (Op.clear path :: Op.mkdir path :: saveAll cfg path cs) = os
  induction os generalizing w with
  | nil => rw [runOps]; nofun
  | cons o os ih =>
    rw [runOps]
    split
    · exact ih
    · nofun

end Stuart
