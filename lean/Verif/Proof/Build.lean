import Verif.Spec.Terms
import Verif.Model.Build
import Verif.Spec.Site
import Verif.Proof.Errors
/-
Building a tree, position by position.
-/
namespace Stuart
open Spec

theorem templateToks_parsed (c : Node) : templateToks c.parsed = asTemplate c := by
  cases c with
  | dir => rfl
  | file n c p m s => cases p <;> rfl

theorem updateEnv_root : ∀ (cs : List Node) (env : Env), (updateEnv env cs).root =
    match cs.reverse.find? fun c => c.name = str!"root.html" with
    | some c => asTemplate c
    | none => env.root := by
  intro cs
  induction cs with
  | nil => intro env; rfl
  | cons c cs ih =>
    intro env
    rw [updateEnv, ih, List.reverse_cons, List.find?_append]
    cases h : cs.reverse.find? fun c => c.name = str!"root.html" with
    | some d => rfl
    | none =>
      simp only [Option.none_or, beq_iff_eq]
      by_cases h1 : c.name = str!"root.html"
      · simp [h1, templateToks_parsed]
      · by_cases h2 : c.name = str!"md.html" <;> simp [h1, h2]

theorem updateEnv_md : ∀ (cs : List Node) (env : Env), (updateEnv env cs).md =
    match cs.reverse.find? fun c => c.name = str!"md.html" with
    | some c => asTemplate c
    | none => env.md := by
  intro cs
  induction cs with
  | nil => intro env; rfl
  | cons c cs ih =>
    intro env
    rw [updateEnv, ih, List.reverse_cons, List.find?_append]
    cases h : cs.reverse.find? fun c => c.name = str!"md.html" with
    | some d => rfl
    | none =>
      simp only [Option.none_or, beq_iff_eq]
      by_cases h1 : c.name = str!"root.html"
      · simp [h1]
      · by_cases h2 : c.name = str!"md.html" <;> simp [h1, h2, templateToks_parsed]

/-- The templates in force at a position, below those of `env`. -/
def envAt (env : Env) (n : Node) (pos : List Nat) : Env where
  root := match nearest str!"root.html" (around n pos) with
    | some c => asTemplate c
    | none => env.root
  md := match nearest str!"md.html" (around n pos) with
    | some c => asTemplate c
    | none => env.md

theorem nearest_append (nm : Str) (a b : List (List Node)) :
    nearest nm (a ++ b) = (nearest nm a).or (nearest nm b) := by
  induction a with
  | nil => simp [nearest]
  | cons d ds ih =>
    rw [List.cons_append, nearest, nearest]
    split
    · rfl
    · exact ih

theorem envAt_nil (env : Env) (n : Node) : envAt env n [] = env := by
  cases n <;> simp [envAt, around, nearest]

theorem envAt_cons (env : Env) (d : Str) (cs : List Node) (src : Str) (i : Nat) (is : List Nat) (c : Node)
    (h : cs[i]? = some c) : envAt env (.dir d cs src) (i :: is) = envAt (updateEnv env cs) c is := by
  simp only [envAt, around, h, nearest_append, updateEnv_root, updateEnv_md]
  congr 1
  · cases nearest str!"root.html" (around c is) with
    | some c => rfl
    | none =>
      simp only [Option.none_or, nearest]
      cases cs.reverse.find? fun c => c.name = str!"root.html" <;> rfl
  · cases nearest str!"md.html" (around c is) with
    | some c => rfl
    | none =>
      simp only [Option.none_or, nearest]
      cases cs.reverse.find? fun c => c.name = str!"md.html" <;> rfl

/-- Updating twice is updating once. -/
theorem updateEnv_twice (env : Env) (cs : List Node) : updateEnv (updateEnv env cs) cs = updateEnv env cs := by
  have h1 := updateEnv_root cs (updateEnv env cs)
  have h2 := updateEnv_md cs (updateEnv env cs)
  have h3 := updateEnv_root cs env
  have h4 := updateEnv_md cs env
  generalize updateEnv (updateEnv env cs) cs = a at *
  generalize updateEnv env cs = b at *
  obtain ⟨a1, a2⟩ := a
  obtain ⟨b1, b2⟩ := b
  simp only at h1 h2 h3 h4
  subst h1 h2 h3 h4
  congr 1
  · cases cs.reverse.find? fun c => c.name = str!"root.html" <;> rfl
  · cases cs.reverse.find? fun c => c.name = str!"md.html" <;> rfl

theorem buildNodes_ok {b : Builder} {env : Env} : ∀ {ns outs : List Node}, buildNodes b env ns = .ok outs →
    outs.length = ns.length ∧ ∀ (i : Nat) (n : Node), ns[i]? = some n → ∃ o, outs[i]? = some o ∧ buildNode b env n = .ok o := by
  intro ns
  induction ns with
  | nil => intro outs h; rw [buildNodes] at h; cases h; simp
  | cons n ns ih =>
    intro outs h
    rw [buildNodes] at h
    obtain ⟨o, h1, h2⟩ := Res.bind_eq_ok.1 h
    obtain ⟨os, h3, h4⟩ := Res.bind_eq_ok.1 h2
    cases h4
    obtain ⟨hl, hi⟩ := ih h3
    refine ⟨by simp [hl], ?_⟩
    intro i m hm
    cases i with
    | zero => simp only [List.getElem?_cons_zero, Option.some.injEq] at hm ⊢; subst hm; exact ⟨o, rfl, h1⟩
    | succ i => simpa using hi i m (by simpa using hm)

/-- What a successful build has at a position. -/
theorem buildNode_at {b : Builder} : ∀ (pos : List Nat) {env : Env} {n out : Node}, buildNode b env n = .ok out →
    match nodeAt n pos with
    | none => nodeAt out pos = none
    | some (.dir d cs src) => ∃ cs', cs'.length = cs.length ∧ nodeAt out pos = some (.dir d cs' src)
    | some (.file name contents p _ src) =>
      ∃ o, processFile b (envAt env n pos) name contents p src = .ok o ∧ nodeAt out pos = some o := by
  intro pos
  induction pos with
  | nil =>
    intro env n out h
    cases n with
    | file name c p m src => rw [buildNode] at h; exact ⟨out, by rw [envAt_nil]; exact h, by simp [nodeAt]⟩
    | dir d cs src =>
      rw [buildNode] at h
      obtain ⟨cs', h1, h2⟩ := Res.bind_eq_ok.1 h
      cases h2
      exact ⟨cs', (buildNodes_ok h1).1, by simp [nodeAt]⟩
  | cons i is ih =>
    intro env n out h
    cases n with
    | file name c p m src =>
      rw [buildNode, processFile] at h
      obtain ⟨o, _, h2⟩ := Res.bind_eq_ok.1 h
      cases h2
      simp [nodeAt]
    | dir d cs src =>
      rw [buildNode] at h
      obtain ⟨cs', h1, h2⟩ := Res.bind_eq_ok.1 h
      cases h2
      obtain ⟨hl, hi⟩ := buildNodes_ok h1
      rw [nodeAt, nodeAt]
      cases hc : cs[i]? with
      | none =>
        have : cs'[i]? = none := by rw [List.getElem?_eq_none_iff] at hc ⊢; omega
        simp [this]
      | some c =>
        obtain ⟨o, ho, hb⟩ := hi i c hc
        have := ih hb
        simp only [ho]
        split at this
        · exact this
        · exact this
        · simp only [envAt_cons env d cs src i is c hc]; exact this

/-! ### Success and failure -/

/-- Whether a computation succeeds, and if not why. -/
def verdict {ε α : Type} (r : Res ε α) : Res ε Unit := r.bind fun _ => .ok ()

/-- The first failure of a sequence. -/
def allOk {ε : Type} : List (Res ε Unit) → Res ε Unit
  | [] => .ok ()
  | r :: rs => r.bind fun _ => allOk rs

theorem allOk_append {ε : Type} (a b : List (Res ε Unit)) : allOk (a ++ b) = (allOk a).bind fun _ => allOk b := by
  induction a with
  | nil => rfl
  | cons r rs ih =>
    rw [List.cons_append, allOk, allOk, ih]
    cases r <;> rfl

theorem verdict_bind {ε α β : Type} (r : Res ε α) (f : α → β) : verdict (r.bind fun x => .ok (f x)) = verdict r := by
  cases r <;> rfl

/-- The result at a position, with the templates in force there. -/
def resultAt (b : Builder) (env : Env) (n : Node) (pos : List Nat) : Res SErr Node := pageAt b (envAt env n pos) n pos

theorem resultAt_cons (b : Builder) (env : Env) (d : Str) (cs : List Node) (src : Str) (i : Nat) (is : List Nat)
    (c : Node) (h : cs[i]? = some c) :
    resultAt b env (.dir d cs src) (i :: is) = resultAt b (updateEnv env cs) c is := by
  unfold resultAt
  rw [envAt_cons env d cs src i is c h]
  simp only [pageAt, nodeAt, h]

mutual
theorem buildNode_verdict (b : Builder) : ∀ (n : Node) (env : Env),
    verdict (buildNode b env n) = allOk ((files n).map fun pos => verdict (resultAt b env n pos))
  | .file name c p m src, env => by
    simp only [buildNode, files, List.map_cons, List.map_nil, allOk, resultAt, envAt_nil, pageAt, nodeAt]
    cases processFile b env name c p src <;> rfl
  | .dir d cs src, env => by
    rw [buildNode, verdict_bind, files]
    exact buildNodes_verdict b cs (updateEnv env cs) 0 _ fun i c hi pos => by
      rw [resultAt_cons b env d cs src _ pos c (by simpa using hi)]
theorem buildNodes_verdict (b : Builder) : ∀ (ns : List Node) (env : Env) (k : Nat) (f : List Nat → Res SErr Node),
    (∀ i c, ns[i]? = some c → ∀ pos, f ((k + i) :: pos) = resultAt b env c pos) →
    verdict (buildNodes b env ns) = allOk ((filesFrom k ns).map fun pos => verdict (f pos))
  | [], env, k, f, _ => by simp [buildNodes, filesFrom, allOk, verdict]
  | n :: ns, env, k, f, h => by
    have h1 := buildNode_verdict b n env
    have h2 := buildNodes_verdict b ns env (k + 1) f fun i c hi pos => by
      rw [← h (i + 1) c (by simpa using hi) pos]; congr 2; omega
    rw [buildNodes, filesFrom, List.map_append, allOk_append, ← h2, List.map_map]
    have : (files n).map ((fun pos => verdict (f pos)) ∘ fun x => k :: x) =
        (files n).map fun pos => verdict (resultAt b env n pos) := by
      apply List.map_congr_left
      intro pos _
      have := h 0 n rfl pos
      simpa using congrArg verdict this
    rw [this, ← h1]
    cases buildNode b env n with
    | ok o => cases buildNodes b env ns <;> rfl
    | err e => rfl
    | panic p => rfl
end

theorem verdict_ok {ε α : Type} {r : Res ε α} : verdict r = .ok () ↔ ∃ a, r = .ok a := by
  cases r <;> simp [verdict]

theorem verdict_err {ε α : Type} {r : Res ε α} {e : ε} : verdict r = .err e ↔ r = .err e := by
  cases r <;> simp [verdict]

theorem verdict_panic {ε α : Type} {r : Res ε α} {p : Panic} : verdict r = .panic p ↔ r = .panic p := by
  cases r <;> simp [verdict]

theorem allOk_ok {ε ι : Type} (f : ι → Res ε Unit) (l : List ι) : allOk (l.map f) = .ok () ↔ ∀ x ∈ l, f x = .ok () := by
  induction l with
  | nil => simp [allOk]
  | cons x xs ih =>
    rw [List.map_cons, allOk, List.forall_mem_cons]
    cases h : f x with
    | ok u => simp [ih]
    | err e => simp
    | panic p => simp

theorem allOk_fail {ε ι : Type} (f : ι → Res ε Unit) (l : List ι) (r : Res ε Unit) (hr : r ≠ .ok ()) :
    allOk (l.map f) = r ↔ ∃ a x c, l = a ++ x :: c ∧ (∀ y ∈ a, f y = .ok ()) ∧ f x = r := by
  induction l with
  | nil =>
    simp only [List.map_nil, allOk]
    constructor
    · intro h; exact absurd h.symm hr
    · rintro ⟨a, x, c, h, _⟩; simp at h
  | cons x xs ih =>
    rw [List.map_cons, allOk]
    cases h : f x with
    | ok u =>
      simp only [Res.bind_ok, ih]
      constructor
      · rintro ⟨a, y, c, rfl, h1, h2⟩
        exact ⟨x :: a, y, c, rfl, by rw [List.forall_mem_cons]; exact ⟨h, h1⟩, h2⟩
      · rintro ⟨a, y, c, h0, h1, h2⟩
        cases a with
        | nil =>
          simp only [List.nil_append, List.cons.injEq] at h0
          rw [← h0.1, h] at h2; exact absurd h2.symm hr
        | cons z a =>
          simp only [List.cons_append, List.cons.injEq] at h0
          exact ⟨a, y, c, h0.2, fun w hw => h1 w (by simp [hw]), h2⟩
    | err e =>
      simp only [Res.bind_err]
      constructor
      · rintro rfl; exact ⟨[], x, xs, rfl, by simp, h⟩
      · rintro ⟨a, y, c, h0, h1, h2⟩
        cases a with
        | nil => simp only [List.nil_append, List.cons.injEq] at h0; rw [← h2, ← h0.1, h]
        | cons z a =>
          simp only [List.cons_append, List.cons.injEq] at h0
          have := h1 z (by simp)
          rw [← h0.1, h] at this; cases this
    | panic e =>
      simp only [Res.bind_panic]
      constructor
      · rintro rfl; exact ⟨[], x, xs, rfl, by simp, h⟩
      · rintro ⟨a, y, c, h0, h1, h2⟩
        cases a with
        | nil => simp only [List.nil_append, List.cons.injEq] at h0; rw [← h2, ← h0.1, h]
        | cons z a =>
          simp only [List.cons_append, List.cons.injEq] at h0
          have := h1 z (by simp)
          rw [← h0.1, h] at this; cases this

end Stuart
