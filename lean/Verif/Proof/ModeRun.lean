import Verif.Proof.ModeText
import Verif.Proof.MoveRun
import Verif.Model.Serve
/-
Builds in other modes and environments.
-/
namespace Stuart
open Spec

/-- Hosts with the same disk and mishaps, after as many scripts. -/
structure SameHost (s s' : Host) : Prop where
  world : s'.world = s.world
  runs : s'.runs.length = s.runs.length

theorem runScripts_mode {M : Machine} {content : Path} (hM : ScriptsDeaf M content) (vars' : List (Str × Str)) (vs : List (Str × Str)) (m m' : Str) (l : List Path) :
    ∀ {s s' : Host}, SameHost s s' →
      SameHost (runScripts M (vs ++ [(str!"STUART_ENV", m)]) l s).1 (runScripts (withVars M vars') (vs ++ [(str!"STUART_ENV", m')]) l s').1 ∧
      (runScripts (withVars M vars') (vs ++ [(str!"STUART_ENV", m')]) l s').2 = (runScripts M (vs ++ [(str!"STUART_ENV", m)]) l s).2 := by
  induction l with
  | nil => intro s s' h; exact ⟨h, rfl⟩
  | cons p l ih =>
    intro s s' h
    have hs : (withVars M vars').shell = M.shell := rfl
    have hy : (withVars M vars').lossy = M.lossy := rfl
    simp only [runScripts, hs, hy, h.world, h.runs, hM.same _ _ vs m m']
    have ht : SameHost
        ⟨⟨(M.shell s.runs.length p (vs ++ [(str!"STUART_ENV", m)]) s.world.disk).1, s.world.faults⟩, s.runs ++ [⟨p, vs ++ [(str!"STUART_ENV", m)], s.world.disk⟩]⟩
        ⟨⟨(M.shell s.runs.length p (vs ++ [(str!"STUART_ENV", m)]) s.world.disk).1, s.world.faults⟩, s'.runs ++ [⟨p, vs ++ [(str!"STUART_ENV", m')], s.world.disk⟩]⟩ :=
      ⟨rfl, by simp [h.runs]⟩
    generalize M.shell s.runs.length p (vs ++ [(str!"STUART_ENV", m)]) s.world.disk = r at ht ⊢
    obtain ⟨d, o⟩ := r
    cases o with
    | none => exact ⟨ht, rfl⟩
    | some o =>
      simp only
      by_cases ho : o.code = some 0
      · simp only [if_pos ho]
        exact ih ht
      · simp only [if_neg ho]
        exact ⟨ht, trivial⟩

theorem runScripts_keep {M : Machine} {content : Path} (hM : ScriptsDeaf M content) (vs : List (Str × Str)) (l : List Path) :
    ∀ {s : Host}, ProperDisk s.world.disk → NoEnv s.world.disk content →
      ProperDisk (runScripts M vs l s).1.world.disk ∧ NoEnv (runScripts M vs l s).1.world.disk content := by
  induction l with
  | nil => intro s h1 h2; exact ⟨h1, h2⟩
  | cons p l ih =>
    intro s h1 h2
    have k1 := hM.proper s.runs.length p vs _ h1
    have k2 := hM.keep s.runs.length p vs _ h2
    simp only [runScripts]
    split
    · exact ⟨k1, k2⟩
    · split
      · exact ih k1 k2
      · exact ⟨k1, k2⟩

theorem mergeDirs_vars (M : Machine) (vars : List (Str × Str)) (d : Entry) (dir : Path) : ∀ (ns : List Str) (s : Project),
    mergeDirs (withVars M vars) d dir ns s = mergeDirs M d dir ns s
  | [], s => rfl
  | n :: ns, s => by
    have : readTree (withVars M vars).sys false [] d (dir ++ [n]) = readTree M.sys false [] d (dir ++ [n]) := readTree_vars _ _ _ _ _ _
    rw [mergeDirs, mergeDirs, this]
    split
    · split
      · rfl
      · rfl
      · split
        · exact mergeDirs_vars M vars d dir ns _
        · rfl
        · rfl
    · exact mergeDirs_vars M vars d dir ns s

/-- The context in another mode. -/
def Context.inMode (m : Str) (c : Context) : Context := { c with mode := m, env := c.env.dropLast ++ [(str!"STUART_ENV", m)] }

theorem publish_mode (M : Machine) (vars : List (Str × Str)) (m' : Str) (c : Context) {s s' : Host} (h : SameHost s s') :
    ((c.inMode m').publish (withVars M vars) s').1 = (c.publish M s).1.inMode m' ∧
    SameHost (c.publish M s).2.1 ((c.inMode m').publish (withVars M vars) s').2.1 ∧
    ((c.inMode m').publish (withVars M vars) s').2.2 = (c.publish M s).2.2 := by
  have hd : (c.inMode m').dir = c.dir := rfl
  have ho : (c.inMode m').output = c.output := rfl
  have hs : (c.inMode m').stuart = c.stuart := rfl
  unfold Context.publish
  simp only [mergeDirs_vars, hd, ho, hs, h.world]
  split
  · exact ⟨rfl, h, rfl⟩
  · exact ⟨rfl, h, rfl⟩
  · split
    · exact ⟨rfl, ⟨rfl, h.runs⟩, rfl⟩
    · exact ⟨rfl, ⟨rfl, h.runs⟩, rfl⟩
    · exact ⟨rfl, ⟨rfl, h.runs⟩, rfl⟩

theorem build_mode {M : Machine} (vars : List (Str × Str)) (m' : Str) {c : Context} {vs : List (Str × Str)} (hv : c.env = vs ++ [(str!"STUART_ENV", c.mode)])
    (hb : AllBlind c.stuart.plugins) (hM : ScriptsDeaf M c.stuart.dir) {s s' : Host} (h : SameHost s s') (hd : ProperDisk s.world.disk)
    (hn : NoEnv s.world.disk c.stuart.dir) :
    SameHost (c.build M s).2.1 ((c.inMode m').build (withVars M vars) s').2.1 ∧
    ((c.inMode m').build (withVars M vars) s').2.2 = (c.build M s).2.2 := by
  obtain ⟨st, pre, post, env, m, dir, out⟩ := c
  simp only at hv hb hM hn
  subst hv
  have hc : ∀ st, Context.inMode m' ⟨st, pre, post, vs ++ [(str!"STUART_ENV", m)], m, dir, out⟩ =
      ⟨st, pre, post, vs ++ [(str!"STUART_ENV", m')], m', dir, out⟩ := by
    intro st
    unfold Context.inMode
    simp only
    rw [List.dropLast_concat]
  rw [hc]
  unfold Context.build
  simp only
  obtain ⟨k1, k2⟩ := runScripts_mode hM vars vs m m' pre h
  obtain ⟨k3, k4⟩ := runScripts_keep hM (vs ++ [(str!"STUART_ENV", m)]) pre hd hn
  generalize runScripts M (vs ++ [(str!"STUART_ENV", m)]) pre s = x at k1 k2 k3 k4 ⊢
  generalize runScripts (withVars M vars) (vs ++ [(str!"STUART_ENV", m')]) pre s' = y at k1 k2 ⊢
  obtain ⟨x1, x2⟩ := x
  obtain ⟨y1, y2⟩ := y
  simp only at k1 k2 k3 k4
  subst k2
  cases y2 with
  | err e => exact ⟨k1, rfl⟩
  | panic e => exact ⟨k1, rfl⟩
  | ok u =>
    simp only
    have hp : st.build (withVars M vars).sys y1.world.disk m' = st.build M.sys x1.world.disk m := by
      rw [k1.world]
      exact projectBuild_unseen M.sys vars m m' hb k3 k4
    rw [hp]
    generalize st.build M.sys x1.world.disk m = b
    obtain ⟨p1, p2⟩ := b
    cases p2 with
    | err e => exact ⟨k1, rfl⟩
    | panic e => exact ⟨k1, rfl⟩
    | ok u =>
      simp only
      obtain ⟨m0, m1, m2⟩ := publish_mode M vars m' ⟨p1, pre, post, vs ++ [(str!"STUART_ENV", m)], m, dir, out⟩ k1
      have n1 := publish_keeps M ⟨p1, pre, post, vs ++ [(str!"STUART_ENV", m)], m, dir, out⟩ x1
      rw [hc] at m0 m1 m2
      generalize Context.publish M ⟨p1, pre, post, vs ++ [(str!"STUART_ENV", m)], m, dir, out⟩ x1 = z at m0 m1 m2 n1 ⊢
      generalize Context.publish (withVars M vars) ⟨p1, pre, post, vs ++ [(str!"STUART_ENV", m')], m', dir, out⟩ y1 = z' at m0 m1 m2 ⊢
      obtain ⟨z1, z2, z3⟩ := z
      obtain ⟨z1', z2', z3'⟩ := z'
      simp only at m0 m1 m2 n1
      subst m2
      subst m0
      cases z3' with
      | err e => exact ⟨m1, rfl⟩
      | panic e => exact ⟨m1, rfl⟩
      | ok u =>
        simp only
        have e2 : (z1.inMode m').env = vs ++ [(str!"STUART_ENV", m')] := by
          unfold Context.inMode
          simp only [n1.1]
          rw [List.dropLast_concat]
        have e3 : (z1.inMode m').post = post := n1.2
        rw [n1.1, e2, e3, n1.2]
        exact runScripts_mode hM vars vs m m' post m1

theorem init_mode (L : Loader) (cwd : Path) (man out m m' : Str) (s : Host) :
    Context.init L cwd man out m' s = ((Context.init L cwd man out m s).1, (Context.init L cwd man out m s).2.bind fun c => .ok (c.inMode m')) := by
  unfold Context.init
  simp only
  repeat' split
  all_goals rfl

/-- What the context has after starting in a directory. -/
theorem init_facts {L : Loader} (hL : LoaderBlind L) {cwd : Path} {out m : Str} {s s1 : Host} {c : Context}
    (h : Context.init L cwd str!"stuart.toml" out m s = (s1, .ok c)) :
    s1 = s ∧ c.stuart.dir = cwd ++ [str!"content"] ∧ AllBlind c.stuart.plugins ∧ c.mode = m ∧ ∃ vs, c.env = vs ++ [(str!"STUART_ENV", c.mode)] := by
  unfold Context.init at h
  split at h
  · cases h
  · rename_i path hp
    have := canonicalize_plain plainManifest hp
    subst this
    split at h
    · split at h
      · cases h
      · split at h
        · split at h <;> cases h
        · simp only at h
          split at h
          · cases h
          · cases h
          · rename_i _ raw _ _ s2 plugins hl
            have k1 := hL.still raw.dependencies (cwd ++ [str!"stuart.toml"]).dropLast s
            have k2 := hL.blind raw.dependencies (cwd ++ [str!"stuart.toml"]).dropLast s plugins
            rw [hl] at k1 k2
            cases h
            refine ⟨k1, ?_, k2 rfl, rfl, [_, _, _, _], rfl⟩
            simp only [List.dropLast_concat]
    · cases h

theorem init_still {L : Loader} (hL : LoaderBlind L) (cwd : Path) (man out m : Str) (s : Host) : (Context.init L cwd man out m s).1 = s := by
  unfold Context.init
  simp only
  repeat' split
  all_goals first
    | rfl
    | (rename_i h; exact ((congrArg Prod.fst h).symm.trans (hL.still _ _ s)))

/-- The host after the build of a context that started in a mode, and the result. -/
theorem start_mode {M : Machine} {L : Loader} (hL : LoaderBlind L) (vars : List (Str × Str)) {cwd : Path} {out m m' : Str} {s : Host}
    (hM : ScriptsDeaf M (cwd ++ [str!"content"])) (hd : ProperDisk s.world.disk) (hn : NoEnv s.world.disk (cwd ++ [str!"content"])) :
    (∃ c, Context.init L cwd str!"stuart.toml" out m s = (s, .ok c) ∧ Context.init L cwd str!"stuart.toml" out m' s = (s, .ok (c.inMode m')) ∧
      SameHost (c.build M s).2.1 ((c.inMode m').build (withVars M vars) s).2.1 ∧
      ((c.inMode m').build (withVars M vars) s).2.2 = (c.build M s).2.2) ∨
    (∃ r, (∀ c, r ≠ .ok c) ∧ Context.init L cwd str!"stuart.toml" out m s = (s, r) ∧ Context.init L cwd str!"stuart.toml" out m' s = (s, r)) := by
  rw [init_mode L cwd _ out m m' s]
  have hst := init_still hL cwd str!"stuart.toml" out m s
  cases hi : Context.init L cwd str!"stuart.toml" out m s with
  | mk s1 r =>
    rw [hi] at hst
    have hst : s1 = s := hst
    subst hst
    cases r with
    | err e => exact .inr ⟨.err e, nofun, rfl, rfl⟩
    | panic e => exact .inr ⟨.panic e, nofun, rfl, rfl⟩
    | ok c =>
      obtain ⟨_, h2, h3, h4, vs, h5⟩ := init_facts hL hi
      refine .inl ⟨c, rfl, rfl, ?_⟩
      rw [← h2] at hM hn
      exact build_mode vars m' h5 h3 hM ⟨rfl, rfl⟩ hd hn

end Stuart
