import Verif.Proof.Invariant
/-
Where the errors of rendering come from.
-/
namespace Stuart

/-- An invariant of the states met during rendering. -/
structure Inv (I : St → Prop) : Prop where
  ne : ∀ s, I s → s.stack ≠ []
  step : ∀ s s', I s → Step s s' → I s'

/-- The errors a token can raise by itself, in a state satisfying `I`. -/
inductive Raises (I : St → Prop) (cx : Ctx) (t : LTok) : ProcErr → Prop
  | var (v st k) : t.inner = .var v → I st → execVar v st = .err k → Raises I cx t k
  | simple (f st k) : t.inner = .func f → f.isBlock = false → I st → execSimple cx f st = .err k → Raises I cx t k
  | items (f st k) : t.inner = .func (.for_ f) → I st → forItems cx f st.stack = .err k → Raises I cx t k
  | undefined (op a b x st) : t.inner = .func (.cmp op a b) → x = a ∨ x = b → I st → x.eval st = none →
      Raises I cx t (.undefinedVariable x.toStr)
  | eof (f) : t.inner = .func f → f.isBlock = true → Raises I cx t .unexpectedEndOfFile

/-- The error is that of a token satisfying `Q`. -/
def From (I : St → Prop) (Q : LTok → Prop) (cx : Ctx) (e : PErr) : Prop := ∃ t k, Q t ∧ e = t.tb k ∧ Raises I cx t k

theorem Res.bind_eq_err {ε α β : Type} {x : Res ε α} {f : α → Res ε β} {e : ε} :
    x.bind f = .err e ↔ x = .err e ∨ ∃ a, x = .ok a ∧ f a = .err e := by
  cases x <;> simp

theorem Res.mapErr_eq_err {ε ε' α : Type} {g : ε → ε'} {x : Res ε α} {e : ε'} :
    x.mapErr g = .err e ↔ ∃ d, x = .err d ∧ g d = e := by cases x <;> simp

theorem Res.ofOption_eq_err {ε α : Type} {d e : ε} {o : Option α} :
    (Res.ofOption d o : Res ε α) = .err e ↔ o = none ∧ d = e := by cases o <;> simp

/-- A token processor's errors come from the tokens it is given. -/
def ExErrs (I : St → Prop) (Q : LTok → Prop) (cx : Ctx) (ex : LTok → List LTok → St → R) : Prop :=
  ∀ t ts st e, Q t → (∀ u ∈ ts, Q u) → I st → ex t ts st = .err e → From I Q cx e

theorem bodyLoop_errs {I Q cx ex} (hI : Inv I) (hf : Forward ex) (hs : Steps ex) (hex : ExErrs I Q cx ex) {eof} (he : From I Q cx eof) (h) :
    ∀ fuel rest st e, (∀ u ∈ rest, Q u) → I st → bodyLoop ex eof h fuel rest st = .err e → From I Q cx e := by
  intro fuel
  induction fuel with
  | zero =>
    intro rest st e _ _ hr
    unfold bodyLoop at hr
    split at hr
    · cases hr
    · cases rest with
      | nil => cases hr; exact he
      | cons => cases hr
  | succ k ih =>
    intro rest st e hm hi hr
    unfold bodyLoop at hr
    split at hr
    · cases hr
    · cases rest with
      | nil => cases hr; exact he
      | cons t ts =>
        simp only at hr
        have hm' : ∀ u ∈ ts, Q u := fun u hu => hm u (by simp [hu])
        rcases Res.bind_eq_err.1 hr with h1 | ⟨⟨r, s⟩, h1, h2⟩
        · exact hex t ts st e (hm t (by simp)) hm' hi h1
        · exact ih r s e (fun u hu => hm' u ((hf _ _ _ _ _ h1).subset hu)) (hI.step _ _ hi (hs _ _ _ _ _ (hI.ne _ hi) h1)) h2

theorem tokName_no_err {t : LTok} {e : PErr} : tokName t ≠ .err e := by
  unfold tokName
  split
  · split <;> simp
  · simp

theorem ifLoop_errs {I Q cx ex} (hI : Inv I) (hf : Forward ex) (hs : Steps ex) (hex : ExErrs I Q cx ex) {eof} (he : From I Q cx eof) (h) :
    ∀ fuel c rest st e, (∀ u ∈ rest, Q u) → I st → ifLoop ex eof h fuel c rest st = .err e → From I Q cx e := by
  intro fuel
  induction fuel with
  | zero =>
    intro c rest st e _ _ hr
    unfold ifLoop at hr
    split at hr
    · cases hr
    · cases rest with
      | nil => cases hr; exact he
      | cons => cases hr
  | succ k ih =>
    intro c rest st e hm hi hr
    unfold ifLoop at hr
    split at hr
    · cases hr
    · cases rest with
      | nil => cases hr; exact he
      | cons t ts =>
        simp only at hr
        have hm' : ∀ u ∈ ts, Q u := fun u hu => hm u (by simp [hu])
        rcases Res.bind_eq_err.1 hr with h1 | ⟨nm, _, h2⟩
        · exact absurd h1 tokName_no_err
        · split at h2
          · rcases Res.bind_eq_err.1 h2 with h1 | ⟨⟨r, s⟩, h1, h3⟩
            · exact hex t ts st e (hm t (by simp)) hm' hi h1
            · exact ih _ r s e (fun u hu => hm' u ((hf _ _ _ _ _ h1).subset hu)) (hI.step _ _ hi (hs _ _ _ _ _ (hI.ne _ hi) h1)) h3
          · exact ih _ ts st e hm' hi h2

theorem forIter_errs {I Q cx ex} {wp : List LTok} (hI : Inv I) (hf : Forward ex) (hs : Steps ex)
    (hex : ExErrs I Q cx ex) {eof} (he : From I Q cx eof) (var) (hm : ∀ u ∈ wp, Q u) :
    ∀ items rest st e, I st → forIter ex eof var wp items rest st = .err e → From I Q cx e := by
  intro items
  induction items with
  | nil => intro rest st e _ h; cases h
  | cons v vs ih =>
    intro rest st e hi h
    have hne := hI.ne _ hi
    obtain ⟨stk, secs⟩ := st
    cases stk with
    | nil => exact absurd rfl hne
    | cons g gs =>
      have hi' : I ⟨((Frame.new (str!"for:" ++ var)).addVar var v) :: g :: gs, secs⟩ := by
        have h1 := hI.step _ _ hi (Step.push (str!"for:" ++ var) (g :: gs) secs
          ⟨.loop var, rfl⟩)
        have h2 := hI.step _ _ h1 (Step.grow _ _ _ [(var, v)] [])
        exact h2
      unfold forIter at h
      rcases Res.bind_eq_err.1 h with h1 | ⟨⟨r, s⟩, h1, h2⟩
      · exact bodyLoop_errs hI hf hs hex he _ _ _ _ _ hm hi' h1
      · refine ih _ _ _ ?_ h2
        obtain ⟨o, ss, rfl⟩ := bodyLoop_above hs eof g gs secs _ _ _ _ _
          ⟨[_], [], [], by simp only [Frame.emit_nil]; rfl, by simp⟩ h1
        exact hI.step _ _ hi (Step.block _ _ _ _ _)

theorem cmpFrameName_opened (op : CmpFn) (a b : Input) : Opened (cmpFrameName op a b) :=
  ⟨.compare op a b, by cases op <;> simp [cmpFrameName, Spec.Opener.scopeName, Spec.Opener.word, Spec.Opener.detail,
    Spec.wordOf, CmpFn.name]⟩

theorem execTok_errs {I Q cx} (hI : Inv I) : ∀ n, ExErrs I Q cx (execTok cx n) := by
  intro n
  induction n with
  | zero => intro t ts st e _ _ _ h; cases h
  | succ n ih =>
    intro t ts st e ht hm hi h
    have hf := execTok_forward cx n
    have hs := execTok_steps cx n
    have hif : ∀ nm, Opened nm → I ⟨Frame.new nm :: st.stack, st.sections⟩ := fun nm ho =>
      hI.step _ _ hi (Step.push nm _ _ ho)
    unfold execTok at h
    split at h
    · rcases Res.bind_eq_err.1 h with h1 | ⟨_, _, h2⟩
      · obtain ⟨s', hs⟩ := output_isSome (hI.ne _ hi) (bytesOf ‹Str›)
        rw [hs] at h1; cases h1
      · cases h2
    · rename_i v hv
      rcases Res.bind_eq_err.1 h with h1 | ⟨_, _, h2⟩
      · obtain ⟨k, hk, rfl⟩ := Res.mapErr_eq_err.1 h1
        exact ⟨t, k, ht, rfl, .var v st k hv hi hk⟩
      · cases h2
    · rename_i f hv
      rcases Res.bind_eq_err.1 h with h1 | ⟨items, _, h2⟩
      · obtain ⟨k, hk, rfl⟩ := Res.mapErr_eq_err.1 h1
        exact ⟨t, k, ht, rfl, .items f st k hv hi hk⟩
      · exact forIter_errs hI hf hs ih ⟨t, _, ht, rfl, .eof _ hv rfl⟩ _ hm _ _ _ _ hi h2
    · rename_i v hv
      exact ifLoop_errs hI hf hs ih ⟨t, _, ht, rfl, .eof _ hv rfl⟩ _ _ _ _ _ _ hm
        (hif _ ⟨.defined v, rfl⟩) h
    · rename_i op a b hv
      rcases Res.bind_eq_err.1 h with h1 | ⟨x, _, h2⟩
      · obtain ⟨hn, rfl⟩ := Res.ofOption_eq_err.1 h1
        exact ⟨t, _, ht, rfl, .undefined op a b a st hv (.inl rfl) hi hn⟩
      · rcases Res.bind_eq_err.1 h2 with h1 | ⟨y, _, h2⟩
        · obtain ⟨hn, rfl⟩ := Res.ofOption_eq_err.1 h1
          exact ⟨t, _, ht, rfl, .undefined op a b b st hv (.inr rfl) hi hn⟩
        · exact ifLoop_errs hI hf hs ih ⟨t, _, ht, rfl, .eof _ hv rfl⟩ _ _ _ _ _ _ hm
            (hif _ (cmpFrameName_opened op a b)) h2
    · rename_i f h1' h2' h3' hv
      rcases Res.bind_eq_err.1 h with h1 | ⟨_, _, h2⟩
      · obtain ⟨k, hk, rfl⟩ := Res.mapErr_eq_err.1 h1
        refine ⟨t, k, ht, rfl, .simple f st k hv ?_ hi hk⟩
        cases f with
        | for_ g => exact absurd rfl (h1' g)
        | ifdefined v => exact absurd rfl (h2' v)
        | cmp op a b => exact absurd rfl (h3' op a b)
        | _ => rfl
      · cases h2

/-- Every error of a run is raised by one of its tokens, and carries that token's position. -/
theorem runToks_errs {I Q cx} (hI : Inv I) : ∀ (k : Nat) toks st e, toks.length ≤ k → (∀ u ∈ toks, Q u) → I st →
    runToks cx toks st = .err e → From I Q cx e := by
  intro k
  induction k with
  | zero =>
    intro toks st e hl _ _ h
    have : toks = [] := by cases toks with | nil => rfl | cons => simp at hl
    subst this; cases h
  | succ k ih =>
    intro toks st e hl hm hi h
    cases toks with
    | nil => cases h
    | cons t ts =>
      rw [runToks_cons] at h
      simp only [List.length_cons] at hl
      have hm' : ∀ u ∈ ts, Q u := fun u hu => hm u (by simp [hu])
      rcases Res.bind_eq_err.1 h with h1 | ⟨⟨r, s⟩, h1, h2⟩
      · exact execTok_errs hI _ t ts st e (hm t (by simp)) hm' hi h1
      · have hs := exec_forward cx _ _ _ _ _ h1
        have := hs.length_le
        exact ih r s e (by omega) (fun u hu => hm' u (hs.subset hu))
          (hI.step _ _ hi (exec_steps cx _ _ _ _ _ (hI.ne _ hi) h1)) h2

theorem varSearch_err {v n is} : ∀ stk k, varSearch v n is stk = .err k → k = .nullError v ∨ k = .invalidDataType v := by
  intro stk
  induction stk with
  | nil => intro k h; cases h
  | cons f fs ih =>
    intro k h
    unfold varSearch at h
    split at h
    · split at h
      · cases h
      · cases h; exact .inl rfl
      · cases h; exact .inr rfl
    · exact ih k h

theorem execVar_err {v st k} (hne : st.stack ≠ []) (h : execVar v st = .err k) :
    k = .nullError v ∨ k = .invalidDataType v ∨ k = .undefinedVariable v := by
  unfold execVar at h
  rcases Res.bind_eq_err.1 h with h1 | ⟨o, _, h2⟩
  · rcases varSearch_err _ _ h1 with h | h
    · exact .inl h
    · exact .inr (.inl h)
  · cases o with
    | none => cases h2; exact .inr (.inr rfl)
    | some s =>
      obtain ⟨s', hs⟩ := output_isSome hne (bytesOf s)
      simp only [hs, Res.unwrap_some] at h2
      cases h2

theorem needString_err {v st k} (h : needString v st = .err k) : k = .undefinedVariable v ∨ k = .invalidDataType v := by
  unfold needString at h
  split at h
  · cases h; exact .inl rfl
  · split at h
    · cases h; exact .inr rfl
    · cases h

theorem outputOrErr_ok {b st} (hne : st.stack ≠ []) {k} : outputOrErr b st ≠ .err k := by
  obtain ⟨s', hs⟩ := output_isSome hne b
  unfold outputOrErr
  rw [hs]; simp

/-- No simple built-in function runs out of scopes when two scopes are open, or when it is not `end`. -/
theorem execSimple_stackError {cx : Ctx} {f : Fn} {st : St} (hne : st.stack ≠ [])
    (hp : ∀ p, f = .plugin p → ∀ scs, p.exec scs ≠ .err .stackError)
    (h : execSimple cx f st = .err .stackError) : ∃ l c g, f = .end_ l c ∧ st.stack = [g] ∧
      (if c then g.name = str!"begin:" ++ l else (l ++ [':']).isPrefixOf g.name = true) := by
  obtain ⟨stk, secs⟩ := st
  cases stk with
  | nil => exact absurd rfl hne
  | cons g gs =>
    cases f with
    | begin_ l c => cases h
    | end_ l c =>
      simp only [execSimple, execEnd] at h
      cases gs with
      | cons g' gs =>
        split at h
        · split at h
          · simp [outputOrErr, St.output] at h
          · cases h
        · split at h
          · simp [outputOrErr, St.output] at h
          · cases h
      | nil =>
        refine ⟨l, c, g, rfl, rfl, ?_⟩
        split at h
        · rename_i hc
          simp only [hc, if_true]
          split at h
          · rename_i hn; exact eq_of_beq hn
          · cases h
        · rename_i hc
          simp only [hc, Bool.false_eq_true, if_false]
          split at h
          · rename_i hn; exact hn
          · cases h
    | else_ =>
      simp only [execSimple, execElse] at h
      split at h <;> cases h
    | excerpt v n =>
      rcases Res.bind_eq_err.1 h with h1 | ⟨_, _, h2⟩
      · rcases needString_err h1 with h | h <;> cases h
      · exact absurd h2 (outputOrErr_ok hne)
    | for_ g => cases h
    | ifdefined v => cases h
    | import_ v file =>
      simp only [execSimple, execImport] at h
      split at h
      · cases h
      · split at h
        · cases h
        · split at h
          · split at h <;> cases h
          · cases h
    | insert l =>
      simp only [execSimple, execInsert] at h
      split at h <;> cases h
    | timetoread v =>
      rcases Res.bind_eq_err.1 h with h1 | ⟨_, _, h2⟩
      · rcases needString_err h1 with h | h <;> cases h
      · exact absurd h2 (outputOrErr_ok hne)
    | dateformat v fmt =>
      rcases Res.bind_eq_err.1 h with h1 | ⟨_, _, h2⟩
      · rcases needString_err h1 with h | h <;> cases h
      · rcases Res.bind_eq_err.1 h2 with h1 | ⟨_, _, h2⟩
        · have := (Res.ofOption_eq_err.1 h1).2; cases this
        · exact absurd h2 (outputOrErr_ok hne)
    | cmp op a b => cases h
    | plugin p =>
      simp only [execSimple, execPlugin] at h
      split at h
      · cases h
      · rename_i e he
        cases h
        exact absurd he (hp p rfl _)
      · cases h

/-- The states met while a page is rendered: the scopes above the bottom one were opened by template code, the bottom
one is the base scope. -/
def OnBase (st : St) : Prop := OpenedAbove st ∧ ∃ b, st.stack.getLast? = some b ∧ b.name = str!"base"

theorem OnBase.inv : Inv OnBase where
  ne s h := by
    obtain ⟨_, b, hb, _⟩ := h
    intro hn; rw [hn] at hb; cases hb
  step s s' h hs := by
    obtain ⟨ho, b, hb, hn⟩ := h
    have hne : s.stack ≠ [] := by intro hn; rw [hn] at hb; cases hb
    obtain ⟨b', vs, o, hb', rfl⟩ := hs.bottom b hb
    exact ⟨ho.step hne hs, _, hb', hn⟩

/-- On a base scope no token fails by running out of scopes. -/
theorem raises_stackError {cx : Ctx} {t : LTok}
    (hp : ∀ p, t.inner = .func (.plugin p) → ∀ scs, p.exec scs ≠ .err .stackError) :
    ¬ Raises OnBase cx t .stackError := by
  intro h
  generalize hk : ProcErr.stackError = k at h
  cases h with
  | var v st k hv hi he =>
    subst hk
    rcases execVar_err (OnBase.inv.ne _ hi) he with h | h | h <;> cases h
  | simple f st k hf hb hi he =>
    subst hk
    obtain ⟨l, c, g, rfl, hst, hg⟩ := execSimple_stackError (OnBase.inv.ne _ hi) (fun p hp' => hp p (by rw [hf, hp'])) he
    obtain ⟨_, b, hbl, hn⟩ := hi
    rw [hst] at hbl
    cases hbl
    have hn : g.name = str!"base" := hn
    rw [hn] at hg
    split at hg
    · cases hg
    · obtain ⟨r, hr⟩ := List.isPrefixOf_iff_prefix.1 hg
      have : ':' ∈ str!"base" := by rw [← hr]; simp
      exact absurd this (by decide)
  | items f st k hf hi he =>
    subst hk
    unfold forItems at he
    split at he
    · split at he
      · cases he
      · split at he
        · cases he
        · rename_i cs _
          have : ∀ cs k, mdValues cs ≠ .err k := by
            intro cs
            induction cs with
            | nil => intro k h; cases h
            | cons c cs ih =>
              intro k h
              unfold mdValues at h
              split at h
              · rcases Res.bind_eq_err.1 h with h1 | ⟨_, _, h2⟩
                · unfold ParsedMd.toValue at h1
                  split at h1 <;> cases h1
                · rcases Res.bind_eq_err.1 h2 with h1 | ⟨_, _, h2⟩
                  · exact ih _ h1
                  · cases h2
              · exact ih _ h
          exact this _ _ he
    · split at he
      · cases he
      · split at he
        · cases he
        · split at he
          · have := (Res.ofOption_eq_err.1 he).2; cases this
          · cases he
    · have := (Res.ofOption_eq_err.1 he).2; cases this
  | undefined op a b x st ht hx hi hn => cases hk
  | eof f hf hb => cases hk

end Stuart
