import Verif.Model.JsState
/-
The interpreter with a state: without state it is the interpreter of Model/Process.lean, and two states that the calls
do not tell apart are not told apart by pages.
-/
namespace Stuart

variable {σ σ' ε α β : Type}

/-- Two outcomes with states that are related, the same result, and something known of it if there is one. -/
def SimR (Rl : σ → σ' → Prop) (Q : α → Prop) (x : σ × Res ε α) (y : σ' × Res ε α) : Prop :=
  Rl x.1 y.1 ∧ x.2 = y.2 ∧ ∀ a, x.2 = .ok a → Q a

theorem SimR.then {Rl : σ → σ' → Prop} {Q : α → Prop} {Q' : β → Prop} {x : σ × Res ε α} {y : σ' × Res ε α}
    {f : α → σ → σ × Res ε β} {g : α → σ' → σ' × Res ε β} (h : SimR Rl Q x y)
    (hf : ∀ a s s', Q a → Rl s s' → SimR Rl Q' (f a s) (g a s')) : SimR Rl Q' (thenS x f) (thenS y g) := by
  obtain ⟨s, r⟩ := x; obtain ⟨s', r'⟩ := y
  obtain ⟨h1, h2, h3⟩ := h
  simp only at h1 h2 h3
  subst h2
  cases r with
  | ok a => exact hf a s s' (h3 a rfl) h1
  | err e => exact ⟨h1, rfl, fun a ha => nomatch ha⟩
  | panic p => exact ⟨h1, rfl, fun a ha => nomatch ha⟩

theorem SimR.pure {Rl : σ → σ' → Prop} {Q : α → Prop} {s : σ} {s' : σ'} {r : Res ε α} (h : Rl s s')
    (hq : ∀ a, r = .ok a → Q a) : SimR Rl Q (s, r) (s', r) := ⟨h, rfl, hq⟩

/-- The tokens still to be read are all among some. -/
def Rest (P : LTok → Prop) (a : List LTok × St) : Prop := ∀ t ∈ a.1, P t

section
variable {Rl : σ → σ' → Prop} {P : LTok → Prop}

theorem bodyLoop_sim {ex : ExS σ} {ex' : ExS σ'}
    (hex : ∀ t ts st s s', P t → (∀ u ∈ ts, P u) → Rl s s' → SimR Rl (Rest P) (ex t ts st s) (ex' t ts st s'))
    (eof : PErr) (h k : Nat) (rest : List LTok) (st : St) (s : σ) (s' : σ') (hr : ∀ u ∈ rest, P u) (hs : Rl s s') :
    SimR Rl (Rest P) (bodyLoopS ex eof h k rest st s) (bodyLoopS ex' eof h k rest st s') := by
  induction k generalizing rest st s s' with
  | zero =>
    unfold bodyLoopS
    split
    · exact .pure hs fun a ha => by cases ha; exact hr
    · cases rest with
      | nil => exact .pure hs fun a ha => nomatch ha
      | cons t ts => exact .pure hs fun a ha => nomatch ha
  | succ k ih =>
    unfold bodyLoopS
    split
    · exact .pure hs fun a ha => by cases ha; exact hr
    · cases rest with
      | nil => exact .pure hs fun a ha => nomatch ha
      | cons t ts =>
        exact (hex t ts st s s' (hr t (by simp)) (fun u hu => hr u (by simp [hu])) hs).then
          fun a u u' ha hu => ih a.1 a.2 u u' ha hu

theorem ifLoop_sim {ex : ExS σ} {ex' : ExS σ'}
    (hex : ∀ t ts st s s', P t → (∀ u ∈ ts, P u) → Rl s s' → SimR Rl (Rest P) (ex t ts st s) (ex' t ts st s'))
    (eof : PErr) (h k : Nat) (c : Bool) (rest : List LTok) (st : St) (s : σ) (s' : σ') (hr : ∀ u ∈ rest, P u) (hs : Rl s s') :
    SimR Rl (Rest P) (ifLoopS ex eof h k c rest st s) (ifLoopS ex' eof h k c rest st s') := by
  induction k generalizing c rest st s s' with
  | zero =>
    unfold ifLoopS
    split
    · exact .pure hs fun a ha => by cases ha; exact hr
    · cases rest with
      | nil => exact .pure hs fun a ha => nomatch ha
      | cons t ts => exact .pure hs fun a ha => nomatch ha
  | succ k ih =>
    unfold ifLoopS
    split
    · exact .pure hs fun a ha => by cases ha; exact hr
    · cases rest with
      | nil => exact .pure hs fun a ha => nomatch ha
      | cons t ts =>
        have ht := hr t (by simp)
        have hts : ∀ u ∈ ts, P u := fun u hu => hr u (by simp [hu])
        refine (SimR.pure (Q := fun _ => True) hs (fun _ _ => trivial)).then fun name v v' _ hv => ?_
        split
        · exact (hex t ts st v v' ht hts hv).then fun a u u' ha hu => ih _ a.1 a.2 u u' ha hu
        · exact ih _ ts st v v' hts hv

theorem forIter_sim {ex : ExS σ} {ex' : ExS σ'}
    (hex : ∀ t ts st s s', P t → (∀ u ∈ ts, P u) → Rl s s' → SimR Rl (Rest P) (ex t ts st s) (ex' t ts st s'))
    (eof : PErr) (var : Str) (wp : List LTok) (hw : ∀ u ∈ wp, P u) (l : List Value) (rest : List LTok) (st : St) (s : σ) (s' : σ')
    (hr : ∀ u ∈ rest, P u) (hs : Rl s s') :
    SimR Rl (Rest P) (forIterS ex eof var wp l rest st s) (forIterS ex' eof var wp l rest st s') := by
  induction l generalizing rest st s s' with
  | nil => exact .pure hs fun a ha => by cases ha; exact hr
  | cons v vs ih =>
    unfold forIterS
    exact (bodyLoop_sim hex eof _ _ wp _ s s' hw hs).then fun a u u' ha hu => ih a.1 a.2 u u' ha hu

/-- A token that is no call, conditional or loop leaves the others to be read. -/
theorem execTok_rest {cx : Ctx} {n : Nat} {t : LTok} {rest : List LTok} {st : St} {a : List LTok × St}
    (h1 : ∀ f, t.inner ≠ .func (.for_ f)) (h2 : ∀ v, t.inner ≠ .func (.ifdefined v)) (h3 : ∀ o a b, t.inner ≠ .func (.cmp o a b))
    (h : execTok cx (n + 1) t rest st = .ok a) : a.1 = rest := by
  have hb : ∀ (r : Res PErr St), (r.bind fun st' => (.ok (rest, st') : R)) = .ok a → a.1 = rest := by
    intro r hr
    cases r with
    | ok x => cases hr; rfl
    | err e => cases hr
    | panic p => cases hr
  unfold execTok at h
  split at h
  · exact hb _ h
  · exact hb _ h
  · rename_i f hf; exact absurd hf (h1 f)
  · rename_i v hv; exact absurd hv (h2 v)
  · rename_i o a b ho; exact absurd ho (h3 o a b)
  · exact hb _ h

variable {call : LTok → Call σ} {call' : LTok → Call σ'}

/-- What is asked of the calls: with related states they do the same, and the states are related afterwards. -/
def CallsAlike (Rl : σ → σ' → Prop) (P : LTok → Prop) (call : LTok → Call σ) (call' : LTok → Call σ') : Prop :=
  ∀ t, P t → ∀ p, t.inner = .func (.plugin p) → ∀ s s' sc, Rl s s' →
    Rl (call t s sc).1 (call' t s' sc).1 ∧ (call t s sc).2 = (call' t s' sc).2

theorem execTok_sim (hc : CallsAlike Rl P call call') (cx : Ctx) (n : Nat) (t : LTok) (rest : List LTok) (st : St) (s : σ) (s' : σ')
    (ht : P t) (hr : ∀ u ∈ rest, P u) (hs : Rl s s') :
    SimR Rl (Rest P) (execTokS cx call n t rest st s) (execTokS cx call' n t rest st s') := by
  induction n generalizing t rest st s s' with
  | zero => exact .pure hs fun a ha => nomatch ha
  | succ n ih =>
    unfold execTokS
    split
    · rename_i p hp
      obtain ⟨h1, h2⟩ := hc t ht p hp s s' (st.stack.map (·.vars)) hs
      refine SimR.then (Q := fun _ => True) ⟨h1, ?_, fun _ _ => trivial⟩ fun a u u' _ hu => .pure hu fun a ha => by cases ha; exact hr
      simp only [execPluginS, h2]
    · exact (SimR.pure (Q := fun _ => True) hs (fun _ _ => trivial)).then fun items v v' _ hv =>
        forIter_sim ih _ _ rest hr _ rest st v v' hr hv
    · exact ifLoop_sim ih _ _ _ _ rest _ s s' hr hs
    · exact (SimR.pure (Q := fun _ => True) hs (fun _ _ => trivial)).then fun x v v' _ hv =>
        (SimR.pure (Q := fun _ => True) hv (fun _ _ => trivial)).then fun y w w' _ hw =>
          ifLoop_sim ih _ _ _ _ rest _ w w' hr hw
    · rename_i h0 h1 h2 h3
      exact .pure hs fun a ha => by
        have := execTok_rest (fun f hf => h1 f hf) (fun v hv => h2 v hv) (fun o a b ho => h3 o a b ho) ha
        unfold Rest; rw [this]; exact hr

theorem runGo_sim (hc : CallsAlike Rl P call call') (cx : Ctx) (k : Nat) (toks : List LTok) (st : St) (s : σ) (s' : σ')
    (hr : ∀ u ∈ toks, P u) (hs : Rl s s') :
    SimR Rl (fun _ => True) (runGoS cx call k toks st s) (runGoS cx call' k toks st s') := by
  induction k generalizing toks st s s' with
  | zero =>
    cases toks with
    | nil => exact .pure hs fun _ _ => trivial
    | cons t ts => exact .pure hs fun _ _ => trivial
  | succ k ih =>
    cases toks with
    | nil => exact .pure hs fun _ _ => trivial
    | cons t ts =>
      unfold runGoS
      exact (execTok_sim hc cx _ t ts st s s' (hr t (by simp)) (fun u hu => hr u (by simp [hu])) hs).then
        fun a u u' ha hu => ih a.1 a.2 u u' ha hu

theorem renderOn_sim (hc : CallsAlike Rl P call call') (cx : Ctx) (first base : Frame) (src : Str) (toks root : List LTok)
    (s : σ) (s' : σ') (ht : ∀ u ∈ toks, P u) (hr : ∀ u ∈ root, P u) (hs : Rl s s') :
    SimR Rl (fun _ => True) (renderOnS cx call first base src toks root s) (renderOnS cx call' first base src toks root s') := by
  unfold renderOnS
  refine (runGo_sim hc cx _ toks _ s s' ht hs).then fun st v v' _ hv => ?_
  split
  · exact .pure hv fun _ _ => trivial
  · split
    · refine (runGo_sim hc cx _ root _ v v' hr hv).then fun st' w w' _ hw => ?_
      split
      · exact .pure hw fun _ _ => trivial
      · exact .pure hw fun _ _ => trivial
    · exact .pure hv fun _ _ => trivial

end

/-- The calls as the interpreter without a state takes them. -/
def bareCall (t : LTok) : Call Unit := fun s sc =>
  (s, match t.inner with
    | .func (.plugin p) => p.exec sc
    | _ => .ok ([], []))

theorem thenS_bare (x : Unit × Res ε α) (f : α → Unit → Unit × Res ε β) : (thenS x f).2 = x.2.bind fun a => (f a ()).2 := by
  obtain ⟨⟨⟩, r⟩ := x
  cases r <;> rfl

section
variable {ex : ExS Unit} {ex0 : LTok → List LTok → St → R} (hex : ∀ t ts st, (ex t ts st ()).2 = ex0 t ts st)
include hex

theorem bodyLoop_bare (eof : PErr) (h k : Nat) (rest : List LTok) (st : St) :
    (bodyLoopS ex eof h k rest st ()).2 = bodyLoop ex0 eof h k rest st := by
  induction k generalizing rest st with
  | zero =>
    unfold bodyLoopS bodyLoop
    split
    · rfl
    · cases rest <;> rfl
  | succ k ih =>
    unfold bodyLoopS bodyLoop
    split
    · rfl
    · cases rest with
      | nil => rfl
      | cons t ts => simp only [thenS_bare, hex, ih]

theorem ifLoop_bare (eof : PErr) (h k : Nat) (c : Bool) (rest : List LTok) (st : St) :
    (ifLoopS ex eof h k c rest st ()).2 = ifLoop ex0 eof h k c rest st := by
  induction k generalizing c rest st with
  | zero =>
    unfold ifLoopS ifLoop
    split
    · rfl
    · cases rest <;> rfl
  | succ k ih =>
    unfold ifLoopS ifLoop
    split
    · rfl
    · cases rest with
      | nil => rfl
      | cons t ts =>
        simp only [thenS_bare]
        congr 1
        funext name
        split
        · simp only [thenS_bare, hex, ih]
        · exact ih _ _ _

theorem forIter_bare (eof : PErr) (var : Str) (wp : List LTok) (l : List Value) (rest : List LTok) (st : St) :
    (forIterS ex eof var wp l rest st ()).2 = forIter ex0 eof var wp l rest st := by
  induction l generalizing rest st with
  | nil => rfl
  | cons v vs ih =>
    unfold forIterS forIter
    simp only [thenS_bare, bodyLoop_bare hex, ih]

end

theorem execTok_bare (cx : Ctx) (n : Nat) (t : LTok) (rest : List LTok) (st : St) :
    (execTokS cx bareCall n t rest st ()).2 = execTok cx n t rest st := by
  induction n generalizing t rest st with
  | zero => rfl
  | succ n ih =>
    unfold execTokS
    split
    · rename_i p hp
      simp only [thenS_bare, execPluginS, bareCall, hp]
      rw [execTok]
      simp only [hp, execSimple, execPlugin]
    · rename_i f hf
      simp only [thenS_bare, forIter_bare ih]
      rw [execTok]
      simp only [hf]
    · rename_i v hv
      rw [execTok]
      simp only [hv]
      exact ifLoop_bare ih _ _ _ _ _ _
    · rename_i o a b ho
      simp only [thenS_bare]
      rw [execTok]
      simp only [ho]
      congr 1; funext x; congr 1; funext y
      exact ifLoop_bare ih _ _ _ _ _ _
    · rfl

theorem runGo_bare (cx : Ctx) (k : Nat) (toks : List LTok) (st : St) : (runGoS cx bareCall k toks st ()).2 = runGo cx k toks st := by
  induction k generalizing toks st with
  | zero => cases toks <;> rfl
  | succ k ih =>
    cases toks with
    | nil => rfl
    | cons t ts =>
      unfold runGoS runGo
      simp only [thenS_bare, execTok_bare, ih]

theorem renderOn_bare (cx : Ctx) (first base : Frame) (src : Str) (toks root : List LTok) :
    (renderOnS cx bareCall first base src toks root ()).2 = renderOn cx first base src toks root := by
  unfold renderOnS renderOn runToksS runToks
  simp only [thenS_bare, runGo_bare]
  congr 1; funext st
  obtain ⟨stack, sections⟩ := st
  cases stack with
  | nil => rfl
  | cons f fs =>
    simp only
    split
    · simp only [thenS_bare, runGo_bare]
      congr 1; funext st'
      obtain ⟨stack', sections'⟩ := st'
      cases stack' <;> rfl
    · rfl

/-! ### Whole builds -/

/-- The tokens of a file. -/
def parsedToks : Parsed → List LTok
  | .html l => l
  | .markdown md => md.markdown
  | _ => []

mutual
/-- The tokens of the files of a tree. -/
def nodeToks : Node → List LTok
  | .file _ _ p _ _ => parsedToks p
  | .dir _ cs _ => nodesToks cs
/-- The tokens of the files of trees. -/
def nodesToks : List Node → List LTok
  | [] => []
  | n :: ns => nodeToks n ++ nodesToks ns
end

theorem SimR.mapErr {Rl : σ → σ' → Prop} {Q : α → Prop} {ε' : Type} {f : ε → ε'} {x : σ × Res ε α} {y : σ' × Res ε α}
    (h : SimR Rl Q x y) : SimR Rl Q (mapErrS f x) (mapErrS f y) := by
  obtain ⟨s, r⟩ := x; obtain ⟨s', r'⟩ := y
  obtain ⟨h1, h2, h3⟩ := h
  simp only at h1 h2 h3
  subst h2
  refine ⟨h1, rfl, fun a ha => h3 a ?_⟩
  cases r with
  | ok b => cases ha; rfl
  | err e => cases ha
  | panic e => cases ha

/-- The tokens of the templates in force are all among some. -/
def EnvAll (P : LTok → Prop) (env : Env) : Prop :=
  (∀ l, env.root = some l → ∀ t ∈ l, P t) ∧ ∀ l, env.md = some l → ∀ t ∈ l, P t

theorem template_all {P : LTok → Prop} {c : Node} (h : ∀ t ∈ nodeToks c, P t) (l : List LTok) (hl : templateToks c.parsed = some l) :
    ∀ t ∈ l, P t := by
  cases c with
  | dir n cs s => cases hl
  | file n b p m s =>
    cases p with
    | html toks => cases hl; exact h
    | _ => cases hl

theorem updateEnv_all {P : LTok → Prop} (cs : List Node) (env : Env) (he : EnvAll P env) (h : ∀ t ∈ nodesToks cs, P t) :
    EnvAll P (updateEnv env cs) := by
  induction cs generalizing env with
  | nil => exact he
  | cons c cs ih =>
    have hc : ∀ t ∈ nodeToks c, P t := fun t ht => h t (by simp [nodesToks, ht])
    refine ih _ ?_ fun t ht => h t (by simp [nodesToks, ht])
    split
    · exact ⟨template_all hc, he.2⟩
    · split
      · exact ⟨he.1, template_all hc⟩
      · exact he

section
variable {Rl : σ → σ' → Prop} {P : LTok → Prop} {call : LTok → Call σ} {call' : LTok → Call σ'}

theorem processParsed_sim (hc : CallsAlike Rl P call call') (b : Builder) (env : Env) (name src : Str) (p : Parsed) (s : σ) (s' : σ') (he : EnvAll P env)
    (hp : ∀ t ∈ parsedToks p, P t) (hs : Rl s s') :
    SimR Rl (fun _ => True) (processParsedS call b env name src p s) (processParsedS call' b env name src p s') := by
  have done : ∀ {α ε : Type} (r : Res ε α) {u : σ} {u' : σ'}, Rl u u' → SimR Rl (fun _ => True) (u, r) (u', r) :=
    fun r _ _ h => .pure h fun _ _ => trivial
  unfold processParsedS
  split
  · cases p with
    | html toks =>
      refine SimR.mapErr ?_
      unfold processHtmlS
      cases hr : env.root with
      | none => exact done _ hs
      | some root => exact (renderOn_sim hc b.cx _ _ _ _ _ s s' hp (he.1 _ hr) hs).then fun o u u' _ hu => done _ hu
    | markdown md =>
      refine SimR.mapErr ?_
      unfold processMdS
      cases hr : env.root with
      | none => exact done _ hs
      | some root =>
        cases hm : env.md with
        | none => exact done _ hs
        | some mdToks =>
          exact (done _ hs).then fun v u u' _ hu =>
            (renderOn_sim hc b.cx _ _ _ _ _ u u' (he.2 _ hm) (he.1 _ hr) hu).then fun o w w' _ hw =>
              (done _ hw).then fun stem x x' _ hx => done _ hx
    | custom c => exact done _ hs
    | json v => exact done _ hs
    | none => exact done _ hs
    | ignored => exact done _ hs
  · exact done _ hs

mutual
theorem buildNode_sim (hc : CallsAlike Rl P call call') (b : Builder) (env : Env) (n : Node) (s : σ) (s' : σ') (he : EnvAll P env)
    (hp : ∀ t ∈ nodeToks n, P t) (hs : Rl s s') :
    SimR Rl (fun _ => True) (buildNodeS call b env n s) (buildNodeS call' b env n s') := by
  cases n with
  | file name contents p m src =>
    unfold buildNodeS processFileS
    exact (processParsed_sim hc b env name src p s s' he hp hs).then fun o u u' _ hu => .pure hu fun _ _ => trivial
  | dir name cs src =>
    unfold buildNodeS
    exact (buildNodes_sim hc b _ cs s s' (updateEnv_all cs env he hp) hp hs).then fun o u u' _ hu => .pure hu fun _ _ => trivial
termination_by structural n
theorem buildNodes_sim (hc : CallsAlike Rl P call call') (b : Builder) (env : Env) (ns : List Node) (s : σ) (s' : σ') (he : EnvAll P env)
    (hp : ∀ t ∈ nodesToks ns, P t) (hs : Rl s s') :
    SimR Rl (fun _ => True) (buildNodesS call b env ns s) (buildNodesS call' b env ns s') := by
  cases ns with
  | nil => unfold buildNodesS; exact .pure hs fun _ _ => trivial
  | cons n ns =>
    unfold buildNodesS
    exact (buildNode_sim hc b env n s s' he (fun t ht => hp t (by simp [nodesToks, ht])) hs).then fun o u u' _ hu =>
      (buildNodes_sim hc b env ns u u' he (fun t ht => hp t (by simp [nodesToks, ht])) hu).then fun o w w' _ hw =>
        .pure hw fun _ _ => trivial
termination_by structural ns
end

theorem preprocessMd_sim (hc : CallsAlike Rl P call call') (ext : Ext) (cx : Ctx) (base : Frame) (src : Str) (md : ParsedMd) (s : σ) (s' : σ')
    (hp : ∀ t ∈ md.markdown, P t) (hs : Rl s s') :
    SimR Rl (fun md' : ParsedMd => md'.markdown = md.markdown) (preprocessMdS call ext cx base src md s)
      (preprocessMdS call' ext cx base src md s') := by
  unfold preprocessMdS
  refine (runGo_sim hc cx _ md.markdown _ s s' hp hs).then fun st u u' _ hu => ?_
  split
  · exact .pure hu fun a ha => nomatch ha
  · split
    · split
      · exact .pure hu fun a ha => nomatch ha
      · exact .pure hu fun a ha => by cases ha; rfl
    · exact .pure hu fun a ha => nomatch ha

mutual
theorem preNode_sim (hc : CallsAlike Rl P call call') (ext : Ext) (cx : Ctx) (base : Frame) (n : Node) (s : σ) (s' : σ') (hp : ∀ t ∈ nodeToks n, P t) (hs : Rl s s') :
    SimR Rl (fun n' : Node => nodeToks n' = nodeToks n) (preNodeS call ext cx base n s) (preNodeS call' ext cx base n s') := by
  cases n with
  | file name contents p m src =>
    unfold preNodeS
    cases p with
    | markdown md =>
      exact (preprocessMd_sim hc ext cx base src md s s' hp hs).mapErr.then fun md' u u' hm hu =>
        .pure hu fun a ha => by cases ha; exact hm
    | html l => exact .pure hs fun a ha => by cases ha; rfl
    | json l => exact .pure hs fun a ha => by cases ha; rfl
    | custom l => exact .pure hs fun a ha => by cases ha; rfl
    | none => exact .pure hs fun a ha => by cases ha; rfl
    | ignored => exact .pure hs fun a ha => by cases ha; rfl
  | dir name cs src =>
    unfold preNodeS
    exact (preNodes_sim hc ext cx base cs s s' hp hs).then fun o u u' ho hu => .pure hu fun a ha => by cases ha; exact ho
termination_by structural n
theorem preNodes_sim (hc : CallsAlike Rl P call call') (ext : Ext) (cx : Ctx) (base : Frame) (ns : List Node) (s : σ) (s' : σ') (hp : ∀ t ∈ nodesToks ns, P t)
    (hs : Rl s s') :
    SimR Rl (fun ns' : List Node => nodesToks ns' = nodesToks ns) (preNodesS call ext cx base ns s)
      (preNodesS call' ext cx base ns s') := by
  cases ns with
  | nil => unfold preNodesS; exact .pure hs fun a ha => by cases ha; rfl
  | cons n ns =>
    unfold preNodesS
    exact (preNode_sim hc ext cx base n s s' (fun t ht => hp t (by simp [nodesToks, ht])) hs).then fun o u u' ho hu =>
      (preNodes_sim hc ext cx base ns u u' (fun t ht => hp t (by simp [nodesToks, ht])) hu).then fun o' w w' ho' hw =>
        .pure hw fun a ha => by cases ha; simp only [nodesToks, ho, ho']
termination_by structural ns
end

theorem buildTree_sim (hc : CallsAlike Rl P call call') (ext : Ext) (dateFmt : Str → Str → Option Str) (cfg : Config) (vars : List (Str × Str)) (mode : Str)
    (input : Node) (s : σ) (s' : σ') (hp : ∀ t ∈ nodeToks input, P t) (hs : Rl s s') :
    SimR Rl (fun _ => True) (buildTreeS call ext dateFmt cfg vars mode input s) (buildTreeS call' ext dateFmt cfg vars mode input s') := by
  unfold buildTreeS
  refine (preNode_sim hc ext _ _ input s s' hp hs).then fun n u u' hn hu => ?_
  have hn' : ∀ t ∈ nodeToks n, P t := by rw [hn]; exact hp
  refine buildNode_sim hc _ _ n u u' (updateEnv_all _ _ ⟨fun l h => (by cases h), fun l h => (by cases h)⟩ ?_) hn' hu
  cases n with
  | file name contents p m src => intro t ht; cases ht
  | dir name cs src => exact hn'

end

theorem mapErrS_bare {ε' : Type} (f : ε → ε') (x : Unit × Res ε α) : (mapErrS f x).2 = x.2.mapErr f := rfl

theorem processParsed_bare (b : Builder) (env : Env) (name src : Str) (p : Parsed) :
    (processParsedS bareCall b env name src p ()).2 = processParsed b env name src p := by
  unfold processParsedS processParsed
  split
  · cases p with
    | html toks =>
      simp only [mapErrS_bare]
      congr 1
      unfold processHtmlS processHtml
      cases env.root with
      | none => rfl
      | some root => simp only [thenS_bare, renderOn_bare]
    | markdown md =>
      simp only [mapErrS_bare]
      congr 1
      unfold processMdS processMd
      cases env.root with
      | none => rfl
      | some root =>
        cases env.md with
        | none => rfl
        | some mdToks => simp only [thenS_bare, renderOn_bare]
    | _ => rfl
  · rfl

mutual
theorem buildNode_bare (b : Builder) (env : Env) (n : Node) : (buildNodeS bareCall b env n ()).2 = buildNode b env n := by
  cases n with
  | file name contents p m src =>
    unfold buildNodeS processFileS buildNode processFile
    simp only [thenS_bare, processParsed_bare]
  | dir name cs src =>
    unfold buildNodeS buildNode
    simp only [thenS_bare, buildNodes_bare b _ cs]
termination_by structural n
theorem buildNodes_bare (b : Builder) (env : Env) (ns : List Node) : (buildNodesS bareCall b env ns ()).2 = buildNodes b env ns := by
  cases ns with
  | nil => unfold buildNodesS buildNodes; rfl
  | cons n ns =>
    unfold buildNodesS buildNodes
    simp only [thenS_bare, buildNode_bare b env n, buildNodes_bare b env ns]
termination_by structural ns
end

theorem preprocessMd_bare (ext : Ext) (cx : Ctx) (base : Frame) (src : Str) (md : ParsedMd) :
    (preprocessMdS bareCall ext cx base src md ()).2 = preprocessMd ext cx base src md := by
  unfold preprocessMdS preprocessMd runToksS runToks
  simp only [thenS_bare, runGo_bare]
  congr 1; funext st
  obtain ⟨stack, sections⟩ := st
  cases stack with
  | nil => rfl
  | cons f fs =>
    simp only
    split
    · cases fromUtf8 f.out <;> rfl
    · rfl

mutual
theorem preNode_bare (ext : Ext) (cx : Ctx) (base : Frame) (n : Node) : (preNodeS bareCall ext cx base n ()).2 = preNode ext cx base n := by
  cases n with
  | file name contents p m src =>
    unfold preNodeS preNode
    cases p with
    | markdown md => simp only [thenS_bare, mapErrS_bare, preprocessMd_bare]
    | _ => rfl
  | dir name cs src =>
    unfold preNodeS preNode
    simp only [thenS_bare, preNodes_bare ext cx base cs]
termination_by structural n
theorem preNodes_bare (ext : Ext) (cx : Ctx) (base : Frame) (ns : List Node) :
    (preNodesS bareCall ext cx base ns ()).2 = preNodes ext cx base ns := by
  cases ns with
  | nil => unfold preNodesS preNodes; rfl
  | cons n ns =>
    unfold preNodesS preNodes
    simp only [thenS_bare, preNode_bare ext cx base n, preNodes_bare ext cx base ns]
termination_by structural ns
end

theorem buildTree_bare (ext : Ext) (dateFmt : Str → Str → Option Str) (cfg : Config) (vars : List (Str × Str)) (mode : Str)
    (input : Node) : (buildTreeS bareCall ext dateFmt cfg vars mode input ()).2 = buildTree ext dateFmt cfg vars mode input := by
  unfold buildTreeS buildTree
  simp only [thenS_bare, preNode_bare, buildNode_bare]

end Stuart
