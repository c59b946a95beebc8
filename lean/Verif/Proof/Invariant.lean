import Verif.Proof.Step
/-
Two induction principles for the interpreter: where panics can come from, and state invariants.
-/
namespace Stuart

/-! ### Panics -/

/-- The only panics of a result are in `S`. -/
def OnlyPanics {ε α : Type} (S : Panic → Prop) (r : Res ε α) : Prop := ∀ p, r = .panic p → S p

namespace OnlyPanics
variable {ε ε' α β : Type} {S : Panic → Prop}

theorem ok (a : α) : OnlyPanics S (.ok a : Res ε α) := by intro p h; cases h
theorem err (e : ε) : OnlyPanics S (.err e : Res ε α) := by intro p h; cases h

theorem bind {x : Res ε α} {f : α → Res ε β} (hx : OnlyPanics S x) (hf : ∀ a, x = .ok a → OnlyPanics S (f a)) :
    OnlyPanics S (x.bind f) := by
  cases x with
  | ok a => exact hf a rfl
  | err e => exact err e
  | panic p => intro q h; cases h; exact hx _ rfl

theorem mapErr {g : ε → ε'} {x : Res ε α} (hx : OnlyPanics S x) : OnlyPanics S (x.mapErr g) := by
  cases x with
  | ok a => exact ok a
  | err e => exact err _
  | panic p => intro q h; cases h; exact hx _ rfl

theorem ofOption {e : ε} {o : Option α} : OnlyPanics S (Res.ofOption e o) := by
  cases o <;> first | exact ok _ | exact err _

end OnlyPanics

/-- What may go wrong in the code of a token: a plugin function without a usable name, or one that panics, or a loop
whose items cannot be read yet. -/
def TokMay (S : Panic → Prop) (cx : Ctx) (t : LTok) : Prop :=
  (∀ f, t.inner = .func (.plugin f) →
    (f.name = none → S .jsName) ∧ ((∃ s p, f.exec s = .panic p) → S .plugin)) ∧
  ∀ f stk, t.inner = .func (.for_ f) → OnlyPanics S (forItems cx f stk)

/-- `mdValues` can only panic on unrendered markdown. -/
theorem mdValues_panics {S : Panic → Prop} : ∀ cs : List Node,
    (∀ c ∈ cs, ∀ md, c.parsed = .markdown md → md.html = none → S .htmlNotReady) →
    OnlyPanics S (mdValues cs) := by
  intro cs
  induction cs with
  | nil => intro _; exact OnlyPanics.ok _
  | cons c cs ih =>
    intro h
    have ih := ih fun c' hc' => h c' (List.mem_cons_of_mem _ hc')
    unfold mdValues
    split
    · rename_i md hmd
      refine OnlyPanics.bind ?_ fun v _ => OnlyPanics.bind ih fun vs _ => OnlyPanics.ok _
      unfold ParsedMd.toValue
      split
      · rename_i hn
        intro p hp; cases hp; exact h c (List.mem_cons_self ..) md hmd hn
      · exact OnlyPanics.ok _
    · exact ih

/-- The directories a template can loop over have no unrendered markdown, or that panic is allowed. -/
def TreeMay (S : Panic → Prop) (cx : Ctx) : Prop :=
  ∀ path n cs, cx.input.getAtPath path = some n → n.children = some cs →
    ∀ c ∈ cs, ∀ md, c.parsed = .markdown md → md.html = none → S .htmlNotReady

theorem forItems_panics {S : Panic → Prop} {cx : Ctx} (h : TreeMay S cx) (f stk) :
    OnlyPanics S (forItems cx f stk) := by
  unfold forItems
  split
  · split
    · exact OnlyPanics.err _
    · rename_i n hn
      split
      · exact OnlyPanics.err _
      · rename_i cs hcs
        exact mdValues_panics cs (h _ _ _ hn hcs)
  · split
    · exact OnlyPanics.err _
    · split
      · exact OnlyPanics.err _
      · split
        · exact OnlyPanics.ofOption
        · exact OnlyPanics.err _
  · exact OnlyPanics.ofOption

theorem varSearch_panics {S : Panic → Prop} (v n is) : ∀ stk, OnlyPanics S (varSearch v n is stk) := by
  intro stk
  induction stk with
  | nil => exact OnlyPanics.ok _
  | cons f fs ih =>
    unfold varSearch
    split
    · split
      · exact OnlyPanics.ok _
      · exact OnlyPanics.err _
      · exact OnlyPanics.err _
    · exact ih

theorem output_isSome {st : St} (h : st.stack ≠ []) (b) : ∃ st', st.output b = some st' := by
  unfold St.output
  split
  · contradiction
  · exact ⟨_, rfl⟩

theorem unwrapOutput_panics {S : Panic → Prop} {st : St} (h : st.stack ≠ [] ∨ S .emptyStack) (b) :
    OnlyPanics S (Res.unwrap .emptyStack (st.output b) : Res PErr St) := by
  cases ho : st.output b with
  | some st' => exact OnlyPanics.ok _
  | none =>
    rcases h with h | h
    · obtain ⟨_, h⟩ := output_isSome h b; rw [h] at ho; cases ho
    · intro p hp; cases hp; exact h

theorem execVar_panics {S : Panic → Prop} {st : St} (h : st.stack ≠ [] ∨ S .emptyStack) (v) :
    OnlyPanics S (execVar v st) := by
  unfold execVar
  refine OnlyPanics.bind (varSearch_panics _ _ _ _) fun o _ => ?_
  cases o with
  | none => exact OnlyPanics.err _
  | some s =>
    show OnlyPanics S (Res.unwrap .emptyStack (st.output (bytesOf s)))
    cases ho : st.output (bytesOf s) with
    | some st' => exact OnlyPanics.ok _
    | none =>
      rcases h with h | h
      · obtain ⟨_, h⟩ := output_isSome h (bytesOf s); rw [h] at ho; cases ho
      · intro p hp; cases hp; exact h

theorem needString_panics {S : Panic → Prop} (v st) : OnlyPanics S (needString v st) := by
  unfold needString
  split
  · exact OnlyPanics.err _
  · split
    · exact OnlyPanics.err _
    · exact OnlyPanics.ok _

theorem execSimple_panics {S : Panic → Prop} {cx : Ctx} {f : Fn} {st : St}
    (hp : ∀ p, f = .plugin p → (∃ s q, p.exec s = .panic q) → S .plugin) :
    OnlyPanics S (execSimple cx f st) := by
  have hout : ∀ b, OnlyPanics S (outputOrErr b st) := fun b => OnlyPanics.ofOption
  cases f with
  | begin_ l c => exact OnlyPanics.ok _
  | end_ l c =>
    simp only [execSimple, execEnd]
    split
    · exact OnlyPanics.err _
    · split
      · split
        · exact OnlyPanics.bind OnlyPanics.ofOption fun _ _ => OnlyPanics.ok _
        · exact OnlyPanics.err _
      · split
        · exact OnlyPanics.ofOption
        · exact OnlyPanics.err _
  | else_ =>
    simp only [execSimple, execElse]
    split
    · exact OnlyPanics.err _
    · split
      · exact OnlyPanics.ok _
      · exact OnlyPanics.err _
  | excerpt v n => exact OnlyPanics.bind (needString_panics _ _) fun _ _ => hout _
  | for_ g => exact OnlyPanics.ok _
  | ifdefined v => exact OnlyPanics.ok _
  | import_ v file =>
    simp only [execSimple, execImport]
    split
    · exact OnlyPanics.err _
    · split
      · exact OnlyPanics.err _
      · split
        · split
          · exact OnlyPanics.err _
          · split
            · exact OnlyPanics.err _
            · exact OnlyPanics.ok _
        · exact OnlyPanics.err _
  | insert l =>
    simp only [execSimple, execInsert]
    split
    · exact OnlyPanics.err _
    · split
      · exact OnlyPanics.err _
      · exact OnlyPanics.ok _
  | timetoread v => exact OnlyPanics.bind (needString_panics _ _) fun _ _ => hout _
  | dateformat v fmt =>
    exact OnlyPanics.bind (needString_panics _ _) fun _ _ => OnlyPanics.bind OnlyPanics.ofOption fun _ _ => hout _
  | cmp op a b => exact OnlyPanics.ok _
  | plugin p =>
    simp only [execSimple, execPlugin]
    split
    · rename_i q hq
      intro q' hq'; cases hq'; exact hp p rfl ⟨_, _, hq⟩
    · exact OnlyPanics.err _
    · split
      · exact OnlyPanics.err _
      · exact OnlyPanics.ok _

theorem tokName_panics {S : Panic → Prop} {cx : Ctx} {t : LTok} (h : TokMay S cx t) : OnlyPanics S (tokName t) := by
  unfold tokName
  split
  · rename_i f hf
    split
    · exact OnlyPanics.ok _
    · rename_i hn
      intro p hp; cases hp
      cases f <;> simp [Fn.name] at hn
      rename_i pl
      exact (h.1 pl hf).1 hn
  · exact OnlyPanics.ok _

/-- A token processor's panics are in `S` for tokens of the given kind followed by fewer than `N` tokens. -/
def ExPanics (S : Panic → Prop) (cx : Ctx) (N : Nat) (ex : LTok → List LTok → St → R) : Prop :=
  ∀ t ts st, ts.length < N → TokMay S cx t → (∀ u ∈ ts, TokMay S cx u) → st.stack ≠ [] → OnlyPanics S (ex t ts st)

theorem bodyLoop_panics {S : Panic → Prop} {cx ex N} (hf : Forward ex) (hex : ExPanics S cx N ex) (eof h) :
    ∀ fuel rest st, rest.length ≤ fuel → rest.length ≤ N → (∀ u ∈ rest, TokMay S cx u) →
      OnlyPanics S (bodyLoop ex eof h fuel rest st) := by
  intro fuel
  induction fuel with
  | zero =>
    intro rest st hl _ _
    have : rest = [] := by cases rest with | nil => rfl | cons => simp at hl
    subst this
    unfold bodyLoop
    split
    · exact OnlyPanics.ok _
    · exact OnlyPanics.err _
  | succ k ih =>
    intro rest st hl hN hm
    unfold bodyLoop
    split
    · exact OnlyPanics.ok _
    · rename_i hh
      have hne : st.stack ≠ [] := by intro hn; rw [hn] at hh; simp at hh
      cases rest with
      | nil => exact OnlyPanics.err _
      | cons t ts =>
        simp only [List.length_cons] at hl hN
        refine OnlyPanics.bind (hex t ts st (by omega) (hm t (by simp)) (fun u hu => hm u (by simp [hu])) hne) ?_
        intro a ha
        obtain ⟨r, s⟩ := a
        have hs := hf _ _ _ _ _ ha
        have := hs.length_le
        exact ih r s (by omega) (by omega) fun u hu => hm u (List.mem_cons_of_mem _ (hs.subset hu))

theorem ifLoop_panics {S : Panic → Prop} {cx ex N} (hf : Forward ex) (hex : ExPanics S cx N ex) (eof h) :
    ∀ fuel c rest st, rest.length ≤ fuel → rest.length ≤ N → (∀ u ∈ rest, TokMay S cx u) →
      OnlyPanics S (ifLoop ex eof h fuel c rest st) := by
  intro fuel
  induction fuel with
  | zero =>
    intro c rest st hl _ _
    have : rest = [] := by cases rest with | nil => rfl | cons => simp at hl
    subst this
    unfold ifLoop
    split
    · exact OnlyPanics.ok _
    · exact OnlyPanics.err _
  | succ k ih =>
    intro c rest st hl hN hm
    unfold ifLoop
    split
    · exact OnlyPanics.ok _
    · rename_i hh
      have hne : st.stack ≠ [] := by intro hn; rw [hn] at hh; simp at hh
      cases rest with
      | nil => exact OnlyPanics.err _
      | cons t ts =>
        simp only [List.length_cons] at hl hN
        refine OnlyPanics.bind (tokName_panics (hm t (by simp))) fun nm _ => ?_
        have hm' : ∀ u ∈ ts, TokMay S cx u := fun u hu => hm u (by simp [hu])
        simp only
        split
        · refine OnlyPanics.bind (hex t ts st (by omega) (hm t (by simp)) hm' hne) ?_
          intro a ha
          obtain ⟨r, s⟩ := a
          have hs := hf _ _ _ _ _ ha
          have := hs.length_le
          exact ih _ r s (by omega) (by omega) fun u hu => hm' u (hs.subset hu)
        · exact ih _ ts st (by omega) (by omega) hm'

theorem forIter_panics {S : Panic → Prop} {cx ex} {wp : List LTok} (hf : Forward ex) (hex : ExPanics S cx wp.length ex)
    (eof var) (hm : ∀ u ∈ wp, TokMay S cx u) :
    ∀ items rest st, OnlyPanics S (forIter ex eof var wp items rest st) := by
  intro items
  induction items with
  | nil => intro rest st; exact OnlyPanics.ok _
  | cons v vs ih =>
    intro rest st
    unfold forIter
    exact OnlyPanics.bind (bodyLoop_panics hf hex _ _ _ _ _ (by omega) (by omega) hm) fun a _ => ih _ _

theorem execTok_panics {S : Panic → Prop} {cx : Ctx} :
    ∀ n t rest st, rest.length < n → TokMay S cx t → (∀ u ∈ rest, TokMay S cx u) →
      (st.stack ≠ [] ∨ S .emptyStack) → OnlyPanics S (execTok cx n t rest st) := by
  intro n
  induction n with
  | zero => intro t rest st h; omega
  | succ n ih =>
    intro t rest st hn ht hm hne
    have hex : ExPanics S cx rest.length (execTok cx n) :=
      fun t' ts' st' hl ht' hm' hne' => ih t' ts' st' (by omega) ht' hm' (.inl hne')
    have hf := execTok_forward cx n
    unfold execTok
    split
    · exact OnlyPanics.bind (unwrapOutput_panics hne _) fun _ _ => OnlyPanics.ok _
    · exact OnlyPanics.bind (OnlyPanics.mapErr (execVar_panics hne _)) fun _ _ => OnlyPanics.ok _
    · exact OnlyPanics.bind (OnlyPanics.mapErr (ht.2 _ _ (by assumption))) fun items _ =>
        forIter_panics hf hex _ _ hm _ _ _
    · exact ifLoop_panics hf hex _ _ _ _ _ _ (by omega) (by omega) hm
    · exact OnlyPanics.bind OnlyPanics.ofOption fun x _ => OnlyPanics.bind OnlyPanics.ofOption fun y _ =>
        ifLoop_panics hf hex _ _ _ _ _ _ (by omega) (by omega) hm
    · rename_i f h1 h2 h3 hf'
      exact OnlyPanics.bind (OnlyPanics.mapErr (execSimple_panics fun p hp hx => (ht.1 p (by rw [hf', hp])).2 hx))
        fun _ _ => OnlyPanics.ok _

theorem exec_panics {S : Panic → Prop} {cx : Ctx} {t rest st}
    (ht : TokMay S cx t) (hm : ∀ u ∈ rest, TokMay S cx u) (hne : st.stack ≠ [] ∨ S .emptyStack) :
    OnlyPanics S (exec cx t rest st) :=
  execTok_panics _ _ _ _ (by omega) ht hm hne

theorem runToks_panics {S : Panic → Prop} {cx : Ctx} :
    ∀ (k : Nat) toks st, toks.length ≤ k → (∀ u ∈ toks, TokMay S cx u) → (st.stack ≠ [] ∨ S .emptyStack) →
      OnlyPanics S (runToks cx toks st) := by
  intro k
  induction k with
  | zero =>
    intro toks st hk _ _
    have : toks = [] := by cases toks with | nil => rfl | cons => simp at hk
    subst this; exact OnlyPanics.ok _
  | succ k ih =>
    intro toks st hk hm hne
    cases toks with
    | nil => exact OnlyPanics.ok _
    | cons t ts =>
      rw [runToks_cons]
      simp only [List.length_cons] at hk
      have hm' : ∀ u ∈ ts, TokMay S cx u := fun u hu => hm u (by simp [hu])
      refine OnlyPanics.bind (exec_panics (hm t (by simp)) hm' hne) ?_
      intro a ha
      obtain ⟨r, s⟩ := a
      have hs := exec_forward cx _ _ _ _ _ ha
      have := hs.length_le
      refine ih r s (by omega) (fun u hu => hm' u (hs.subset hu)) ?_
      rcases hne with hne | hne
      · exact .inl (exec_steps cx _ _ _ _ _ hne ha).ne_nil
      · exact .inr hne

/-! ### State invariants -/

/-- `I` survives opening a frame without output. -/
def PushInv (I : St → Prop) : Prop :=
  ∀ f : Frame, ∀ st : St, f.out = [] → I st → I ⟨f :: st.stack, st.sections⟩

/-- A token processor keeps `I` on tokens satisfying `Q`. -/
def Keeps (Q : LTok → Prop) (I : St → Prop) (ex : LTok → List LTok → St → R) : Prop :=
  ∀ t ts st r st', Q t → (∀ u ∈ ts, Q u) → I st → ex t ts st = .ok (r, st') → I st'

theorem bodyLoop_keeps {Q I ex} (hf : Forward ex) (hex : Keeps Q I ex) (eof h) :
    ∀ fuel rest st r st', (∀ u ∈ rest, Q u) → I st → bodyLoop ex eof h fuel rest st = .ok (r, st') → I st' := by
  intro fuel
  induction fuel with
  | zero =>
    intro rest st r st' _ hi he
    unfold bodyLoop at he
    split at he
    · simp only [Res.ok.injEq, Prod.mk.injEq] at he; rw [← he.2]; exact hi
    · cases rest <;> simp at he
  | succ k ih =>
    intro rest st r st' hq hi he
    unfold bodyLoop at he
    split at he
    · simp only [Res.ok.injEq, Prod.mk.injEq] at he; rw [← he.2]; exact hi
    · cases rest with
      | nil => simp at he
      | cons t ts =>
        simp only at he
        obtain ⟨⟨r1, s1⟩, h1, h2⟩ := Res.bind_eq_ok.1 he
        have hq' : ∀ u ∈ ts, Q u := fun u hu => hq u (by simp [hu])
        exact ih _ _ _ _ (fun u hu => hq' u ((hf _ _ _ _ _ h1).subset hu))
          (hex _ _ _ _ _ (hq t (by simp)) hq' hi h1) h2

theorem ifLoop_keeps {Q I ex} (hf : Forward ex) (hex : Keeps Q I ex) (eof h) :
    ∀ fuel c rest st r st', (∀ u ∈ rest, Q u) → I st → ifLoop ex eof h fuel c rest st = .ok (r, st') → I st' := by
  intro fuel
  induction fuel with
  | zero =>
    intro c rest st r st' _ hi he
    unfold ifLoop at he
    split at he
    · simp only [Res.ok.injEq, Prod.mk.injEq] at he; rw [← he.2]; exact hi
    · cases rest <;> simp at he
  | succ k ih =>
    intro c rest st r st' hq hi he
    unfold ifLoop at he
    split at he
    · simp only [Res.ok.injEq, Prod.mk.injEq] at he; rw [← he.2]; exact hi
    · cases rest with
      | nil => simp at he
      | cons t ts =>
        simp only at he
        obtain ⟨nm, _, h1⟩ := Res.bind_eq_ok.1 he
        have hq' : ∀ u ∈ ts, Q u := fun u hu => hq u (by simp [hu])
        split at h1
        · obtain ⟨⟨r1, s1⟩, h1, h2⟩ := Res.bind_eq_ok.1 h1
          exact ih _ _ _ _ _ (fun u hu => hq' u ((hf _ _ _ _ _ h1).subset hu))
            (hex _ _ _ _ _ (hq t (by simp)) hq' hi h1) h2
        · exact ih _ _ _ _ _ hq' hi h1

theorem forIter_keeps {Q I ex} {wp : List LTok} (hf : Forward ex) (hex : Keeps Q I ex) (hpush : PushInv I)
    (eof var) (hq : ∀ u ∈ wp, Q u) :
    ∀ items rest st r st', I st → forIter ex eof var wp items rest st = .ok (r, st') → I st' := by
  intro items
  induction items with
  | nil =>
    intro rest st r st' hi he
    simp only [forIter, Res.ok.injEq, Prod.mk.injEq] at he; rw [← he.2]; exact hi
  | cons v vs ih =>
    intro rest st r st' hi he
    simp only [forIter] at he
    obtain ⟨⟨r1, s1⟩, h1, h2⟩ := Res.bind_eq_ok.1 he
    exact ih _ _ _ _ (bodyLoop_keeps hf hex _ _ _ _ _ _ _ hq (hpush _ st rfl hi) h1) h2

/-- An invariant kept by opening frames, by text, variables and the simple functions is kept by every token. -/
theorem execTok_keeps {Q : LTok → Prop} {I : St → Prop} {cx : Ctx} (hpush : PushInv I)
    (hraw : ∀ t s st st', Q t → t.inner = .raw s → I st → st.output (bytesOf s) = some st' → I st')
    (hvar : ∀ t v st st', Q t → t.inner = .var v → I st → execVar v st = .ok st' → I st')
    (hsimple : ∀ t f st st', Q t → t.inner = .func f → f.isBlock = false → I st →
      execSimple cx f st = .ok st' → I st') :
    ∀ n, Keeps Q I (execTok cx n) := by
  intro n
  induction n with
  | zero => intro t ts st r st' _ _ _ h; simp [execTok] at h
  | succ n ih =>
    intro t ts st r st' hq hqs hi h
    have hf := execTok_forward cx n
    cases ht : t.inner with
    | raw s =>
      unfold execTok at h; rw [ht] at h
      obtain ⟨s1, h1, h2⟩ := Res.bind_eq_ok.1 h
      simp only [Res.ok.injEq, Prod.mk.injEq] at h2
      rw [← h2.2]; exact hraw t s st s1 hq ht hi (Res.unwrap_eq_ok.1 h1)
    | var v =>
      unfold execTok at h; rw [ht] at h
      obtain ⟨s1, h1, h2⟩ := Res.bind_eq_ok.1 h
      simp only [Res.ok.injEq, Prod.mk.injEq] at h2
      rw [← h2.2]; exact hvar t v st s1 hq ht hi (Res.mapErr_eq_ok.1 h1)
    | func fn =>
      by_cases hb : fn.isBlock = true
      · unfold execTok at h; rw [ht] at h
        cases fn with
        | for_ g =>
          simp only at h
          obtain ⟨items, _, h2⟩ := Res.bind_eq_ok.1 h
          exact forIter_keeps hf ih hpush _ _ hqs _ _ _ _ _ hi h2
        | ifdefined v =>
          simp only at h
          exact ifLoop_keeps hf ih _ _ _ _ _ _ _ _ hqs (hpush _ st rfl hi) h
        | cmp op a b =>
          simp only at h
          obtain ⟨_, _, h2⟩ := Res.bind_eq_ok.1 h
          obtain ⟨_, _, h3⟩ := Res.bind_eq_ok.1 h2
          exact ifLoop_keeps hf ih _ _ _ _ _ _ _ _ hqs (hpush _ st rfl hi) h3
        | _ => simp [Fn.isBlock] at hb
      · have h' : ((execSimple cx fn st).mapErr t.tb).bind (fun st' => .ok (ts, st')) = .ok (r, st') := by
          unfold execTok at h; rw [ht] at h
          cases fn <;> first | exact h | simp [Fn.isBlock] at hb
        obtain ⟨s1, h1, h2⟩ := Res.bind_eq_ok.1 h'
        simp only [Res.ok.injEq, Prod.mk.injEq] at h2
        rw [← h2.2]
        exact hsimple t fn st s1 hq ht (by simpa using hb) hi (Res.mapErr_eq_ok.1 h1)

theorem runToks_keeps {Q : LTok → Prop} {I : St → Prop} {cx : Ctx} (hex : Keeps Q I (exec cx)) :
    ∀ (k : Nat) toks st st', toks.length ≤ k → (∀ u ∈ toks, Q u) → I st → runToks cx toks st = .ok st' → I st' := by
  intro k
  induction k with
  | zero =>
    intro toks st st' hk _ hi h
    have : toks = [] := by cases toks with | nil => rfl | cons => simp at hk
    subst this
    simp only [runToks_nil, Res.ok.injEq] at h; rw [← h]; exact hi
  | succ k ih =>
    intro toks st st' hk hq hi h
    cases toks with
    | nil => simp only [runToks_nil, Res.ok.injEq] at h; rw [← h]; exact hi
    | cons t ts =>
      rw [runToks_cons] at h
      simp only [List.length_cons] at hk
      have hq' : ∀ u ∈ ts, Q u := fun u hu => hq u (by simp [hu])
      obtain ⟨⟨r, s⟩, h1, h2⟩ := Res.bind_eq_ok.1 h
      have hs := exec_forward cx _ _ _ _ _ h1
      have := hs.length_le
      exact ih r s st' (by omega) (fun u hu => hq' u (hs.subset hu)) (hex _ _ _ _ _ (hq t (by simp)) hq' hi h1) h2

theorem exec_keeps {Q : LTok → Prop} {I : St → Prop} {cx : Ctx} (hpush : PushInv I)
    (hraw : ∀ t s st st', Q t → t.inner = .raw s → I st → st.output (bytesOf s) = some st' → I st')
    (hvar : ∀ t v st st', Q t → t.inner = .var v → I st → execVar v st = .ok st' → I st')
    (hsimple : ∀ t f st st', Q t → t.inner = .func f → f.isBlock = false → I st →
      execSimple cx f st = .ok st' → I st') : Keeps Q I (exec cx) :=
  fun t ts st r st' hq hqs hi h => execTok_keeps hpush hraw hvar hsimple (ts.length + 1) t ts st r st' hq hqs hi h

end Stuart
