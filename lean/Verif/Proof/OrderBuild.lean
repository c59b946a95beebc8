import Verif.Proof.Order
import Verif.Proof.Data
/-
Building trees that differ in the order of the children only.
-/
namespace Stuart
open Spec

/-! ### Rendering markdown -/

theorem preFile_same {ext : Ext} {cx cx' : Ctx} {base : Frame} {p : Parsed} {src : Str}
    (h : ∀ t ∈ programOf p, TokSame cx cx' t) : preFile ext cx base p src = preFile ext cx' base p src := by
  cases p with
  | markdown md =>
    rw [preFile, preFile, preprocessMd, preprocessMd, runToks_same md.markdown h]
  | _ => rfl

mutual
theorem preNode_same_like {ext : Ext} {cx cx' : Ctx} {base : Frame} : ∀ n : Node, ToksIn (TokSame cx cx') n →
    preNode ext cx base n = preNode ext cx' base n
  | .file .., h => by rw [ToksIn] at h; rw [preNode_file, preNode_file, preFile_same h]
  | .dir _ cs _, h => by rw [ToksIn] at h; rw [preNode, preNode, preNodes_same_like cs h]
theorem preNodes_same_like {ext : Ext} {cx cx' : Ctx} {base : Frame} : ∀ cs : List Node, ToksAll (TokSame cx cx') cs →
    preNodes ext cx base cs = preNodes ext cx' base cs
  | [], _ => rfl
  | n :: ns, h => by rw [ToksAll] at h; rw [preNodes, preNodes, preNode_same_like n h.1, preNodes_same_like ns h.2]
end

theorem preNodes_cons_ok {ext cx base} {n : Node} {ns os : List Node} : preNodes ext cx base (n :: ns) = .ok os ↔
    ∃ o os', preNode ext cx base n = .ok o ∧ preNodes ext cx base ns = .ok os' ∧ os = o :: os' := by
  rw [preNodes]
  constructor
  · intro h
    obtain ⟨o, h1, h2⟩ := Res.bind_eq_ok.1 h
    obtain ⟨os', h3, h4⟩ := Res.bind_eq_ok.1 h2
    cases h4
    exact ⟨o, os', h1, h3, rfl⟩
  · rintro ⟨o, os', h1, h2, rfl⟩
    rw [h1, h2]; rfl

theorem preNode_dir_ok {ext cx base} {n s : Str} {cs : List Node} {o : Node} : preNode ext cx base (.dir n cs s) = .ok o ↔
    ∃ os, preNodes ext cx base cs = .ok os ∧ o = .dir n os s := by
  rw [preNode]
  constructor
  · intro h
    obtain ⟨os, h1, h2⟩ := Res.bind_eq_ok.1 h
    cases h2
    exact ⟨os, h1, rfl⟩
  · rintro ⟨os, h1, rfl⟩
    rw [h1]; rfl

theorem preNode_file_ok {ext cx base} {n : Str} {c : Bytes} {p : Parsed} {m : Option Value} {s : Str} {o : Node} :
    preNode ext cx base (.file n c p m s) = .ok o ↔ ∃ p', preFile ext cx base p s = .ok p' ∧ o = .file n c p' m s := by
  rw [preNode_file]
  constructor
  · intro h
    obtain ⟨p', h1, h2⟩ := Res.bind_eq_ok.1 h
    cases h2
    exact ⟨p', h1, rfl⟩
  · rintro ⟨os, h1, rfl⟩
    rw [h1]; rfl

theorem preNodes_like {ext : Ext} {cx : Ctx} {base : Frame} {cs cs' : List Node} (h : LikeAll True cs cs') :
    ∀ {os}, preNodes ext cx base cs = .ok os → ∃ os', preNodes ext cx base cs' = .ok os' ∧ LikeAll True os os' := by
  induction h with
  | nil => intro os h; exact ⟨os, h, likeAll_refl _ _⟩
  | file n c p m s _ ih =>
    intro os h
    obtain ⟨o, os', h1, h2, rfl⟩ := preNodes_cons_ok.1 h
    obtain ⟨us, k1, k2⟩ := ih h2
    obtain ⟨p', _, rfl⟩ := preNode_file_ok.1 h1
    exact ⟨_, preNodes_cons_ok.2 ⟨_, _, h1, k1, rfl⟩, .file _ _ _ _ _ k2⟩
  | dir n s _ _ i1 i2 =>
    intro os h
    obtain ⟨o, os', h1, h2, rfl⟩ := preNodes_cons_ok.1 h
    obtain ⟨us, k1, k2⟩ := i2 h2
    obtain ⟨ws, h3, rfl⟩ := preNode_dir_ok.1 h1
    obtain ⟨xs, k3, k4⟩ := i1 h3
    exact ⟨_, preNodes_cons_ok.2 ⟨_, _, preNode_dir_ok.2 ⟨_, k3, rfl⟩, k1, rfl⟩, .dir _ _ k4 k2⟩
  | swap a b l hne =>
    intro os h
    obtain ⟨o, os', h1, h2, rfl⟩ := preNodes_cons_ok.1 h
    obtain ⟨u, us', h3, h4, rfl⟩ := preNodes_cons_ok.1 h2
    refine ⟨_, preNodes_cons_ok.2 ⟨_, _, h3, preNodes_cons_ok.2 ⟨_, _, h1, h4, rfl⟩, rfl⟩, .swap _ _ _ fun _ => ?_⟩
    rw [(preNode_same h1).1, (preNode_same h3).1]
    exact hne trivial
  | trans _ _ i1 i2 =>
    intro os h
    obtain ⟨us, h1, h2⟩ := i1 h
    obtain ⟨ws, h3, h4⟩ := i2 h1
    exact ⟨ws, h3, h2.trans h4⟩

theorem preFile_program {ext cx base} {p p' : Parsed} {s : Str} (h : preFile ext cx base p s = .ok p') :
    programOf p' = programOf p ∧ (∀ md, p = .markdown md → ∃ md', p' = .markdown md' ∧ md'.frontmatter = md.frontmatter) ∧
    ((∀ md, p ≠ .markdown md) → ∀ md, p' ≠ .markdown md) := by
  cases p with
  | markdown md =>
    obtain ⟨md', h1, h2⟩ := Res.bind_eq_ok.1 h
    cases h2
    have h1 := Res.mapErr_eq_ok.1 h1
    unfold preprocessMd at h1
    obtain ⟨st, _, h3⟩ := Res.bind_eq_ok.1 h1
    cases hs : st.stack with
    | nil => rw [hs] at h3; cases h3
    | cons f fs =>
      rw [hs] at h3
      simp only at h3
      split at h3
      · split at h3
        · cases h3
        · cases h3
          exact ⟨rfl, fun md h => by cases h; exact ⟨_, rfl, rfl⟩, fun h => absurd rfl (h md)⟩
      · cases h3
  | _ => cases h; exact ⟨rfl, nofun, fun _ => nofun⟩

mutual
theorem toksIn_pre {Q : LTok → Prop} {ext cx base} : ∀ {n o : Node}, preNode ext cx base n = .ok o → ToksIn Q n → ToksIn Q o
  | .file .., o, h, k => by
    obtain ⟨p', h1, rfl⟩ := preNode_file_ok.1 h
    rw [ToksIn] at k ⊢
    rwa [(preFile_program h1).1]
  | .dir _ cs _, o, h, k => by
    obtain ⟨os, h1, rfl⟩ := preNode_dir_ok.1 h
    rw [ToksIn] at k ⊢
    exact toksAll_pre h1 k
theorem toksAll_pre {Q : LTok → Prop} {ext cx base} : ∀ {cs os : List Node}, preNodes ext cx base cs = .ok os → ToksAll Q cs → ToksAll Q os
  | [], os, h, _ => by cases h; rw [ToksAll]; trivial
  | n :: ns, os, h, k => by
    obtain ⟨o, os', h1, h2, rfl⟩ := preNodes_cons_ok.1 h
    rw [ToksAll] at k ⊢
    exact ⟨toksIn_pre h1 k.1, toksAll_pre h2 k.2⟩
end

theorem frontmatters_pre {ext cx base} : ∀ {cs os : List Node}, preNodes ext cx base cs = .ok os → frontmatters os = frontmatters cs
  | [], os, h => by cases h; rfl
  | n :: ns, os, h => by
    obtain ⟨o, os', h1, h2, rfl⟩ := preNodes_cons_ok.1 h
    rw [frontmatters, frontmatters, frontmatters_pre h2]
    cases n with
    | dir =>
      obtain ⟨_, _, rfl⟩ := preNode_dir_ok.1 h1
      rfl
    | file nm c p m s =>
      obtain ⟨p', h3, rfl⟩ := preNode_file_ok.1 h1
      obtain ⟨_, k1, k2⟩ := preFile_program h3
      simp only [Node.parsed]
      cases p with
      | markdown md =>
        obtain ⟨md', rfl, e⟩ := k1 md rfl
        simp only [e]
      | _ =>
        have k2 := k2 nofun
        cases p' with
        | markdown md => exact absurd rfl (k2 md)
        | _ => rfl

theorem find_pre {ext cx base} (nm : Str) : ∀ {cs os : List Node}, preNodes ext cx base cs = .ok os → ∀ {o},
    os.find? (fun m => m.name == nm) = some o → ∃ n, cs.find? (fun m => m.name == nm) = some n ∧ preNode ext cx base n = .ok o
  | [], os, h, o, hf => by cases h; cases hf
  | n :: ns, os, h, o, hf => by
    obtain ⟨o', os', h1, h2, rfl⟩ := preNodes_cons_ok.1 h
    rw [List.find?_cons] at hf ⊢
    rw [(preNode_same h1).1] at hf
    cases hn : n.name == nm with
    | true =>
      rw [hn] at hf
      cases hf
      exact ⟨n, rfl, h1⟩
    | false =>
      rw [hn] at hf
      exact find_pre nm h2 hf

theorem getComps_pre {ext cx base} : ∀ (cs : List Comp) {n o : Node}, preNode ext cx base n = .ok o → ∀ {o'},
    getComps o cs = some o' → ∃ n', getComps n cs = some n' ∧ preNode ext cx base n' = .ok o'
  | [], n, o, h, o', k => by rw [getComps] at k; cases k; exact ⟨n, by rw [getComps], h⟩
  | .rootDir :: cs, n, o, _, o', k => by rw [getComps] at k; cases k; all_goals nofun
  | .parentDir :: cs, n, o, _, o', k => by rw [getComps] at k; cases k; all_goals nofun
  | .curDir :: cs, n, o, h, o', k => by rw [getComps] at k ⊢; exact getComps_pre cs h k
  | .normal c :: cs, n, o, h, o', k => by
    rw [getComps] at k ⊢
    cases n with
    | file =>
      obtain ⟨_, _, rfl⟩ := preNode_file_ok.1 h
      cases k
    | dir d l s =>
      obtain ⟨os, h1, rfl⟩ := preNode_dir_ok.1 h
      simp only [Node.children, Option.bind_some] at k ⊢
      cases hf : os.find? fun m => m.name == c with
      | none => rw [hf] at k; cases k
      | some m =>
        rw [hf] at k
        obtain ⟨n', e1, e2⟩ := find_pre c h1 hf
        rw [e1]
        exact getComps_pre cs e2 k

theorem loopOk_pre {ext cx base} {n o : Node} (h : preNode ext cx base n = .ok o) {t : LTok} (ht : LoopOk n t) : LoopOk o t := by
  intro f hf hk d ms s hg
  obtain ⟨n', h1, h2⟩ := getComps_pre _ h hg
  cases n' with
  | file => obtain ⟨_, _, e⟩ := preNode_file_ok.1 h2; cases e
  | dir d' l s' =>
    obtain ⟨os, h3, e⟩ := preNode_dir_ok.1 h2
    cases e
    have := ht f hf hk _ _ _ h1
    unfold Sorted at this ⊢
    rwa [frontmatters_pre h3]

/-! ### Templates -/

theorem updateEnv_like {cs cs' : List Node} (h : LikeAll True cs cs') : ∀ env, updateEnv env cs = updateEnv env cs' := by
  induction h with
  | nil => exact fun _ => rfl
  | file n c p m s _ ih => intro env; rw [updateEnv, updateEnv]; exact ih _
  | dir n s _ _ _ ih => intro env; rw [updateEnv, updateEnv]; exact ih _
  | swap a b l hne =>
    intro env
    have hne := hne trivial
    simp only [updateEnv, beq_iff_eq]
    congr 1
    by_cases a1 : a.name = str!"root.html" <;> by_cases a2 : a.name = str!"md.html" <;>
      by_cases b1 : b.name = str!"root.html" <;> by_cases b2 : b.name = str!"md.html" <;>
      first
        | exact absurd (a1.trans b1.symm) hne
        | exact absurd (a2.trans b2.symm) hne
        | exact absurd (a1.symm.trans a2) (by decide)
        | exact absurd (b1.symm.trans b2) (by decide)
        | simp only [a1, a2, b1, b2, if_true, if_false] <;> simp
  | trans _ _ i1 i2 => exact fun env => (i1 env).trans (i2 env)

/-- The tokens of the templates in force are like this. -/
def EnvOk (Q : LTok → Prop) (env : Env) : Prop :=
  (∀ toks, env.root = some toks → ∀ t ∈ toks, Q t) ∧ ∀ toks, env.md = some toks → ∀ t ∈ toks, Q t

theorem templateToks_program {p : Parsed} {toks : List LTok} (h : templateToks p = some toks) : programOf p = toks := by
  cases p with
  | html l => cases h; rfl
  | _ => cases h

theorem envOk_update {Q : LTok → Prop} : ∀ {cs : List Node} {env : Env}, EnvOk Q env → ToksAll Q cs → EnvOk Q (updateEnv env cs)
  | [], env, h, _ => h
  | c :: cs, env, h, k => by
    rw [ToksAll] at k
    rw [updateEnv]
    refine envOk_update ?_ k.2
    have hp := toksIn_program k.1
    split
    · exact ⟨fun toks e t ht => hp t (by rw [templateToks_program e]; exact ht), h.2⟩
    · split
      · exact ⟨h.1, fun toks e t ht => hp t (by rw [templateToks_program e]; exact ht)⟩
      · exact h

/-! ### Building -/

theorem renderOn_same {cx cx' : Ctx} {first base : Frame} {src : Str} {toks root : List LTok}
    (h1 : ∀ t ∈ toks, TokSame cx cx' t) (h2 : ∀ t ∈ root, TokSame cx cx' t) :
    renderOn cx first base src toks root = renderOn cx' first base src toks root := by
  unfold renderOn
  rw [runToks_same toks h1]
  congr 1
  funext st
  cases st.stack with
  | nil => rfl
  | cons f fs => simp only [runToks_same root h2]

theorem processParsed_same {cx cx' : Ctx} {base : Frame} {cfg : Config} {env : Env} {name src : Str} {p : Parsed}
    (he : EnvOk (TokSame cx cx') env) (hp : ∀ t ∈ programOf p, TokSame cx cx' t) :
    processParsed ⟨cx, base, cfg⟩ env name src p = processParsed ⟨cx', base, cfg⟩ env name src p := by
  unfold processParsed
  split
  · cases p with
    | html toks =>
      simp only [processHtml]
      cases hr : env.root with
      | none => rfl
      | some root =>
        have hp : ∀ t ∈ toks, TokSame cx cx' t := hp
        simp only [renderOn_same hp (he.1 root hr)]
    | markdown md =>
      simp only [processMd]
      cases hr : env.root with
      | none => rfl
      | some root =>
        cases hm : env.md with
        | none => rfl
        | some toks => simp only [renderOn_same (he.2 toks hm) (he.1 root hr)]
    | _ => rfl
  · rfl

mutual
theorem buildNode_same_like {cx cx' : Ctx} {base : Frame} {cfg : Config} : ∀ (n : Node) {env : Env}, EnvOk (TokSame cx cx') env →
    ToksIn (TokSame cx cx') n → buildNode ⟨cx, base, cfg⟩ env n = buildNode ⟨cx', base, cfg⟩ env n
  | .file .., env, he, h => by
    rw [ToksIn] at h
    rw [buildNode, buildNode, processFile, processFile, processParsed_same he h]
  | .dir _ cs _, env, he, h => by
    rw [ToksIn] at h
    rw [buildNode, buildNode, buildNodes_same_like cs (envOk_update he h) h]
theorem buildNodes_same_like {cx cx' : Ctx} {base : Frame} {cfg : Config} : ∀ (cs : List Node) {env : Env}, EnvOk (TokSame cx cx') env →
    ToksAll (TokSame cx cx') cs → buildNodes ⟨cx, base, cfg⟩ env cs = buildNodes ⟨cx', base, cfg⟩ env cs
  | [], env, _, _ => rfl
  | n :: ns, env, he, h => by
    rw [ToksAll] at h
    rw [buildNodes, buildNodes, buildNode_same_like n he h.1, buildNodes_same_like ns he h.2]
end

theorem buildNodes_cons_ok {b env} {n : Node} {ns os : List Node} : buildNodes b env (n :: ns) = .ok os ↔
    ∃ o os', buildNode b env n = .ok o ∧ buildNodes b env ns = .ok os' ∧ os = o :: os' := by
  rw [buildNodes]
  constructor
  · intro h
    obtain ⟨o, h1, h2⟩ := Res.bind_eq_ok.1 h
    obtain ⟨os', h3, h4⟩ := Res.bind_eq_ok.1 h2
    cases h4
    exact ⟨o, os', h1, h3, rfl⟩
  · rintro ⟨o, os', h1, h2, rfl⟩
    rw [h1, h2]; rfl

theorem buildNode_dir_ok {b env} {n s : Str} {cs : List Node} {o : Node} : buildNode b env (.dir n cs s) = .ok o ↔
    ∃ os, buildNodes b (updateEnv env cs) cs = .ok os ∧ o = .dir n os s := by
  rw [buildNode]
  constructor
  · intro h
    obtain ⟨os, h1, h2⟩ := Res.bind_eq_ok.1 h
    cases h2
    exact ⟨os, h1, rfl⟩
  · rintro ⟨os, h1, rfl⟩
    rw [h1]; rfl

theorem buildNodes_like {b : Builder} {cs cs' : List Node} (h : LikeAll True cs cs') :
    ∀ {env os}, buildNodes b env cs = .ok os → ∃ os', buildNodes b env cs' = .ok os' ∧ LikeAll False os os' := by
  induction h with
  | nil => intro env os h; exact ⟨os, h, likeAll_refl _ _⟩
  | file n c p m s _ ih =>
    intro env os h
    obtain ⟨o, os', h1, h2, rfl⟩ := buildNodes_cons_ok.1 h
    obtain ⟨us, k1, k2⟩ := ih h2
    exact ⟨_, buildNodes_cons_ok.2 ⟨_, _, h1, k1, rfl⟩, (like_refl _ o).cons k2⟩
  | dir n s hl _ i1 i2 =>
    intro env os h
    obtain ⟨o, os', h1, h2, rfl⟩ := buildNodes_cons_ok.1 h
    obtain ⟨us, k1, k2⟩ := i2 h2
    obtain ⟨ws, h3, rfl⟩ := buildNode_dir_ok.1 h1
    obtain ⟨xs, k3, k4⟩ := i1 h3
    rw [updateEnv_like hl] at k3
    exact ⟨_, buildNodes_cons_ok.2 ⟨_, _, buildNode_dir_ok.2 ⟨_, k3, rfl⟩, k1, rfl⟩, .dir _ _ k4 k2⟩
  | swap a b l hne =>
    intro env os h
    obtain ⟨o, os', h1, h2, rfl⟩ := buildNodes_cons_ok.1 h
    obtain ⟨u, us', h3, h4, rfl⟩ := buildNodes_cons_ok.1 h2
    exact ⟨_, buildNodes_cons_ok.2 ⟨_, _, h3, buildNodes_cons_ok.2 ⟨_, _, h1, h4, rfl⟩, rfl⟩, .swap _ _ _ fun h => h.elim⟩
  | trans _ _ i1 i2 =>
    intro env os h
    obtain ⟨us, h1, h2⟩ := i1 h
    obtain ⟨ws, h3, h4⟩ := i2 h1
    exact ⟨ws, h3, h2.trans h4⟩

/-- Building trees that differ in order only. -/
theorem build_like {ext : Ext} {df : Str → Str → Option Str} {base : Frame} {cfg : Config} {nm s : Str} {cs cs' : List Node}
    (h : LikeAll True cs cs') (hl : ToksAll (LoopOk (.dir nm cs s)) cs) {mid out : Node}
    (h1 : preNode ext ⟨.dir nm cs s, df⟩ base (.dir nm cs s) = .ok mid)
    (h2 : buildNode ⟨⟨mid, df⟩, base, cfg⟩ (updateEnv ⟨none, none⟩ (mid.children.getD [])) mid = .ok out) :
    ∃ mid' out', preNode ext ⟨.dir nm cs' s, df⟩ base (.dir nm cs' s) = .ok mid' ∧
      buildNode ⟨⟨mid', df⟩, base, cfg⟩ (updateEnv ⟨none, none⟩ (mid'.children.getD [])) mid' = .ok out' ∧ Like False out out' := by
  have hlike : Like True (.dir nm cs s) (.dir nm cs' s) := ⟨cs', rfl, h⟩
  obtain ⟨ms, hm, rfl⟩ := preNode_dir_ok.1 h1
  rw [preNodes_same_like cs (toksAll_mono (fun t ht => tokSame_like hlike ht df) cs hl)] at hm
  obtain ⟨ms', hm', hk⟩ := preNodes_like h hm
  have hpre' : preNode ext ⟨.dir nm cs' s, df⟩ base (.dir nm cs' s) = .ok (.dir nm ms' s) := preNode_dir_ok.2 ⟨_, hm', rfl⟩
  have hl' : ToksAll (LoopOk (.dir nm ms s)) ms :=
    toksAll_mono (fun t ht => loopOk_pre h1 ht) ms (toksAll_pre hm hl)
  have hlike' : Like True (.dir nm ms s) (.dir nm ms' s) := ⟨ms', rfl, hk⟩
  have hq := toksAll_mono (fun t ht => tokSame_like hlike' ht df) ms hl'
  obtain ⟨os, ho, rfl⟩ := buildNode_dir_ok.1 h2
  have h0 : EnvOk (TokSame ⟨.dir nm ms s, df⟩ ⟨.dir nm ms' s, df⟩) ⟨none, none⟩ :=
    ⟨fun _ h => (by cases h), fun _ h => (by cases h)⟩
  simp only [Node.children, Option.getD_some] at ho
  rw [buildNodes_same_like ms (envOk_update (envOk_update h0 hq) hq) hq] at ho
  obtain ⟨os', ho', hko⟩ := buildNodes_like hk ho
  refine ⟨_, .dir nm os' s, hpre', buildNode_dir_ok.2 ⟨os', ?_, rfl⟩, os', rfl, hko⟩
  simp only [Node.children, Option.getD_some]
  rwa [← updateEnv_like hk, ← updateEnv_like hk]

end Stuart
