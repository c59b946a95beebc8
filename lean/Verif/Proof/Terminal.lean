import Verif.Spec.Terminal
import Verif.Proof.Steps
/-
The lines of a build.
-/
namespace Stuart
open Spec

variable {M : Machine} {env : List (Str × Str)}

/-- One script after the other. -/
theorem runScripts_cons {p : Path} {ps : List Path} {s : Host} :
    runScripts M env (p :: ps) s =
      match runScripts M env [p] s with
      | (s', .ok ()) => runScripts M env ps s'
      | r => r := by
  rw [runScripts, runScripts]
  cases h : (M.shell s.runs.length p env s.world.disk).2 with
  | none => rfl
  | some o =>
    simp only
    split
    · rw [runScripts]
    · rfl

/-- A single script is run once. -/
theorem runScripts_one {p : Path} {s : Host} :
    (runScripts M env [p] s).1.runs = s.runs ++ [⟨p, env, s.world.disk⟩] := by
  rw [runScripts]
  cases h : (M.shell s.runs.length p env s.world.disk).2 with
  | none => rfl
  | some o =>
    simp only
    split
    · rw [runScripts]
    · rfl

/-- The lines about scripts are those of the scripts that are run, and these come in the given order. -/
theorem scriptsSay_runs {ps : List Path} {s : Host} :
    ∃ rs, (runScripts M env ps s).1.runs = s.runs ++ rs ∧ scriptsSay M env ps s = rs.map (executing ∘ Run.script) ∧
      rs.map Run.script <+: ps ∧ ((runScripts M env ps s).2 = .ok () → rs.map Run.script = ps) ∧
      ((runScripts M env ps s).2 ≠ .ok () → rs ≠ []) := by
  induction ps generalizing s with
  | nil => exact ⟨[], by rw [runScripts]; simp, rfl, List.prefix_refl _, fun _ => rfl, fun h => absurd (by rw [runScripts]) h⟩
  | cons p ps ih =>
    rw [runScripts_cons, scriptsSay]
    have h1 := runScripts_one (M := M) (env := env) (p := p) (s := s)
    generalize runScripts M env [p] s = r at h1 ⊢
    obtain ⟨s', r⟩ := r
    simp only at h1
    have stop : ∀ r' : Res CliErr Unit, r' ≠ .ok () → ∃ rs, s'.runs = s.runs ++ rs ∧
        [Say.log str!"Executing" (str!"script `" ++ p.getLast?.getD [] ++ str!"`")] = rs.map (executing ∘ Run.script) ∧
        rs.map Run.script <+: p :: ps ∧ (r' = .ok () → rs.map Run.script = p :: ps) ∧ (r' ≠ .ok () → rs ≠ []) :=
      fun r' hr => ⟨[⟨p, env, s.world.disk⟩], h1, rfl, by simp, fun h => absurd h hr, by simp⟩
    cases r with
    | ok u =>
      obtain ⟨rs, k1, k2, k3, k4, k5⟩ := ih (s := s')
      refine ⟨⟨p, env, s.world.disk⟩ :: rs, ?_, ?_, ?_, ?_, by simp⟩
      · simp only [k1, h1, List.append_assoc, List.singleton_append]
      · simp only [k2, List.map_cons]; rfl
      · simpa using k3
      · intro h; simp only [List.map_cons, k4 h]
    | err e => exact stop _ (by nofun)
    | panic e => exact stop _ (by nofun)

variable {c : Context} {s : Host} {times : Times}

/-- The line about the metadata is written when the site has been saved, if there is to be metadata. -/
theorem publishSay_cases :
    ∃ exp : Bool, publishSay M c s = (if exp then [exporting] else []) ∧
      (exp = true ↔ c.stuart.config.saveMetadata = true ∧ ∃ p,
        mergeDirs M s.world.disk c.dir [str!"static", str!"temp"] c.stuart = (p, .ok ()) ∧
        (p.save (joinPath c.dir c.output) (s.world.step (.clear (c.dir ++ [str!"temp"]))).1).2 = .ok ()) ∧
      ((c.publish M s).2.2 = .ok () → exp = c.stuart.config.saveMetadata) := by
  unfold Context.publish publishSay
  simp only
  generalize mergeDirs M s.world.disk c.dir [str!"static", str!"temp"] c.stuart = m
  obtain ⟨p, r⟩ := m
  cases r with
  | err e => exact ⟨false, rfl, ⟨nofun, fun ⟨_, _, k, _⟩ => by cases k⟩, nofun⟩
  | panic e => exact ⟨false, rfl, ⟨nofun, fun ⟨_, _, k, _⟩ => by cases k⟩, nofun⟩
  | ok u =>
    cases u
    simp only
    generalize hg : p.save _ _ = sv
    obtain ⟨w, r⟩ := sv
    cases r with
    | err e => exact ⟨false, rfl, ⟨nofun, fun ⟨_, _, k, k'⟩ => by cases k; rw [hg] at k'; cases k'⟩, nofun⟩
    | panic e => exact ⟨false, rfl, ⟨nofun, fun ⟨_, _, k, k'⟩ => by cases k; rw [hg] at k'; cases k'⟩, nofun⟩
    | ok u =>
      cases u
      exact ⟨c.stuart.config.saveMetadata, rfl, ⟨fun h => ⟨h, _, rfl, by rw [hg]⟩, fun h => h.1⟩, fun _ => rfl⟩

/-- The parts of a build and what is written in each. -/
theorem buildSay_cases :
    ∃ pre post : List Run, ∃ exp fin : Bool,
      (c.build M s).2.1.runs = s.runs ++ (pre ++ post) ∧
      (exp = true → c.stuart.config.saveMetadata = true) ∧
      (((c.build M s).2.2 ≠ .ok () ∧ (runScripts M c.env c.pre s).2 ≠ .ok () ∧
          buildSay M times c s = pre.map (executing ∘ Run.script) ∧ pre.map Run.script <+: c.pre ∧ post = [] ∧ exp = false) ∨
        ((runScripts M c.env c.pre s).2 = .ok () ∧ pre.map Run.script = c.pre ∧
          (fin = true ↔ (c.build M s).2.2 = .ok ()) ∧
          buildSay M times c s = pre.map (executing ∘ Run.script) ++ [building c] ++ (if exp then [exporting] else []) ++
            post.map (executing ∘ Run.script) ++ (if fin then [.log str!"Finished" (finishedMsg times)] else []) ∧
          post.map Run.script <+: c.post ∧ (fin = true → post.map Run.script = c.post) ∧
          (fin = true ∨ post ≠ [] → exp = c.stuart.config.saveMetadata))) ∧
      (exp = true ↔ c.stuart.config.saveMetadata = true ∧ Saved M c s) := by
  obtain ⟨rs, h1, h2, h3, h4, _⟩ := scriptsSay_runs (M := M) (env := c.env) (ps := c.pre) (s := s)
  unfold buildSay
  rw [h2]
  cases hr : runScripts M c.env c.pre s with
  | mk s1 r =>
    rw [hr] at h1 h4
    simp only at h1 h4
    have fail : r ≠ .ok () → c.build M s = (c, s1, r) := by
      intro hne
      rw [Context.build_pre (by rw [hr]; intro s' h; cases h; exact hne rfl), hr]
    cases r with
    | err e =>
      rw [fail (by nofun)]
      exact ⟨rs, [], false, false, by simpa using h1, by nofun,
        .inl ⟨by nofun, by nofun, by simp, h3, rfl, rfl⟩, by nofun, fun ⟨_, s2, p, k, _⟩ => by rw [hr] at k; cases k⟩
    | panic e =>
      rw [fail (by nofun)]
      exact ⟨rs, [], false, false, by simpa using h1, by nofun,
        .inl ⟨by nofun, by nofun, by simp, h3, rfl, rfl⟩, by nofun, fun ⟨_, s2, p, k, _⟩ => by rw [hr] at k; cases k⟩
    | ok u =>
      cases u
      have h4 := h4 rfl
      have hb : c.build M s =
          (let b := c.stuart.build M.sys s1.world.disk c.mode
           let c := { c with stuart := b.1 }
           match b.2 with
            | .err e => (c, s1, .err (.core e))
            | .panic p => (c, s1, .panic p)
            | .ok () =>
              match c.publish M s1 with
              | (c, s2, .err e) => (c, s2, .err e)
              | (c, s2, .panic p) => (c, s2, .panic p)
              | (c, s2, .ok ()) =>
                let r := runScripts M c.env c.post s2
                (c, r.1, r.2)) := by
        unfold Context.build; rw [hr]; rfl
      have hS : Saved M c s ↔ (c.stuart.build M.sys s1.world.disk c.mode).2 = .ok () ∧ ∃ p,
          mergeDirs M s1.world.disk c.dir [str!"static", str!"temp"] (c.stuart.build M.sys s1.world.disk c.mode).1 = (p, .ok ()) ∧
          (p.save (joinPath c.dir c.output) (s1.world.step (.clear (c.dir ++ [str!"temp"]))).1).2 = .ok () := by
        constructor
        · rintro ⟨s2, p, k, k2, k3, k4⟩
          rw [hr] at k; cases k
          exact ⟨k2, p, k3, k4⟩
        · rintro ⟨k2, p, k3, k4⟩
          exact ⟨s1, p, hr, k2, k3, k4⟩
      rw [hb, hS]
      obtain ⟨_, _, hc, _⟩ := Project.build_result M.sys s1.world.disk c.mode c.stuart
      simp only
      generalize c.stuart.build M.sys s1.world.disk c.mode = b at hc ⊢
      obtain ⟨q, r⟩ := b
      simp only at hc
      cases r with
      | err e =>
        exact ⟨rs, [], false, false, by simpa using h1, by nofun,
          .inr ⟨trivial, h4, ⟨nofun, nofun⟩, by simp [building], List.nil_prefix, by nofun, by simp⟩, by nofun,
          fun ⟨_, k, _⟩ => by cases k⟩
      | panic e =>
        exact ⟨rs, [], false, false, by simpa using h1, by nofun,
          .inr ⟨trivial, h4, ⟨nofun, nofun⟩, by simp [building], List.nil_prefix, by nofun, by simp⟩, by nofun,
          fun ⟨_, k, _⟩ => by cases k⟩
      | ok u =>
        cases u
        simp only
        obtain ⟨exp, k1, k2, k3⟩ := publishSay_cases (M := M) (c := { c with stuart := q }) (s := s1)
        obtain ⟨k4, k5⟩ := Context.publish_keeps (M := M) (c := { c with stuart := q }) (s := s1)
        rw [k1]
        simp only [hc] at k2 k3
        generalize Context.publish M { c with stuart := q } s1 = pb at k3 k4 k5 ⊢
        obtain ⟨c2, s2, r⟩ := pb
        simp only at k3 k4 k5
        have hexp : exp = true → c.stuart.config.saveMetadata = true := fun h => (k2.1 h).1
        simp only [true_and]
        rw [← k2]
        cases r with
        | err e =>
          exact ⟨rs, [], exp, false, by simpa [k5] using h1, hexp,
            .inr ⟨h4, ⟨nofun, nofun⟩, by simp [building], List.nil_prefix, by nofun, by simp⟩, Iff.rfl⟩
        | panic e =>
          exact ⟨rs, [], exp, false, by simpa [k5] using h1, hexp,
            .inr ⟨h4, ⟨nofun, nofun⟩, by simp [building], List.nil_prefix, by nofun, by simp⟩, Iff.rfl⟩
        | ok u =>
          cases u
          have hp : c2.env = c.env ∧ c2.post = c.post := by rw [k4]; exact ⟨rfl, rfl⟩
          simp only [hp.1, hp.2]
          obtain ⟨rs2, m1, m2, m3, m4, m5⟩ := scriptsSay_runs (M := M) (env := c.env) (ps := c.post) (s := s2)
          rw [m2]
          generalize runScripts M c.env c.post s2 = r at m1 m4 m5 ⊢
          obtain ⟨s3, r⟩ := r
          simp only at m1 m4 m5
          have hruns : s3.runs = s.runs ++ (rs ++ rs2) := by rw [m1, k5, h1, List.append_assoc]
          have e := k3 rfl
          cases r with
          | err x =>
            exact ⟨rs, rs2, exp, false, hruns, hexp,
              .inr ⟨h4, ⟨nofun, nofun⟩, by simp [building], m3, by nofun, fun _ => e⟩, Iff.rfl⟩
          | panic x =>
            exact ⟨rs, rs2, exp, false, hruns, hexp,
              .inr ⟨h4, ⟨nofun, nofun⟩, by simp [building], m3, by nofun, fun _ => e⟩, Iff.rfl⟩
          | ok u =>
            exact ⟨rs, rs2, exp, true, hruns, hexp,
              .inr ⟨h4, ⟨fun _ => rfl, fun _ => rfl⟩, by simp [building], m3, fun _ => m4 rfl, fun _ => e⟩, Iff.rfl⟩

end Stuart
