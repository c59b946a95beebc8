import Verif.Model.Process
/-
The interpreter without fuel: the read position only moves forward, enough fuel is always enough, and
`exec`/`loop`/`branch`/`iter`/`run` satisfy the equations one would write without fuel.
-/
namespace Stuart

theorem Res.bind_eq_ok {ε α β : Type} {x : Res ε α} {f : α → Res ε β} {b : β} :
    x.bind f = .ok b ↔ ∃ a, x = .ok a ∧ f a = .ok b := by
  cases x <;> simp

theorem Res.mapErr_eq_ok {ε ε' α : Type} {g : ε → ε'} {x : Res ε α} {a : α} :
    x.mapErr g = .ok a ↔ x = .ok a := by cases x <;> simp

theorem Res.unwrap_eq_ok {ε α : Type} {p : Panic} {o : Option α} {a : α} :
    (Res.unwrap p o : Res ε α) = .ok a ↔ o = some a := by cases o <;> simp

theorem Res.ofOption_eq_ok {ε α : Type} {e : ε} {o : Option α} {a : α} :
    (Res.ofOption e o : Res ε α) = .ok a ↔ o = some a := by cases o <;> simp

/-! ### The read position only moves forward -/

/-- Processing a token leaves a tail of what was left. -/
def Forward (ex : LTok → List LTok → St → R) : Prop :=
  ∀ t ts st r st', ex t ts st = .ok (r, st') → r <:+ ts

theorem bodyLoop_forward {ex} (hex : Forward ex) (eof h) :
    ∀ fuel rest st r st', bodyLoop ex eof h fuel rest st = .ok (r, st') → r <:+ rest := by
  intro fuel
  induction fuel with
  | zero =>
    intro rest st r st' he
    unfold bodyLoop at he
    split at he
    · simp only [Res.ok.injEq, Prod.mk.injEq] at he; rw [he.1]; exact List.suffix_refl _
    · cases rest <;> simp at he
  | succ k ih =>
    intro rest st r st' he
    unfold bodyLoop at he
    split at he
    · simp only [Res.ok.injEq, Prod.mk.injEq] at he; rw [he.1]; exact List.suffix_refl _
    · cases rest with
      | nil => simp at he
      | cons t ts =>
        simp only at he
        obtain ⟨⟨r1, s1⟩, h1, h2⟩ := Res.bind_eq_ok.1 he
        exact ((ih _ _ _ _ h2).trans (hex _ _ _ _ _ h1)).trans (List.suffix_cons t ts)

theorem ifLoop_forward {ex} (hex : Forward ex) (eof h) :
    ∀ fuel c rest st r st', ifLoop ex eof h fuel c rest st = .ok (r, st') → r <:+ rest := by
  intro fuel
  induction fuel with
  | zero =>
    intro c rest st r st' he
    unfold ifLoop at he
    split at he
    · simp only [Res.ok.injEq, Prod.mk.injEq] at he; rw [he.1]; exact List.suffix_refl _
    · cases rest <;> simp at he
  | succ k ih =>
    intro c rest st r st' he
    unfold ifLoop at he
    split at he
    · simp only [Res.ok.injEq, Prod.mk.injEq] at he; rw [he.1]; exact List.suffix_refl _
    · cases rest with
      | nil => simp at he
      | cons t ts =>
        simp only at he
        obtain ⟨nm, h0, h1⟩ := Res.bind_eq_ok.1 he
        split at h1
        · obtain ⟨⟨r1, s1⟩, h1, h2⟩ := Res.bind_eq_ok.1 h1
          exact ((ih _ _ _ _ _ h2).trans (hex _ _ _ _ _ h1)).trans (List.suffix_cons t ts)
        · exact (ih _ _ _ _ _ h1).trans (List.suffix_cons t ts)

theorem forIter_forward {ex} (hex : Forward ex) (eof var wp) :
    ∀ items rest st r st', rest <:+ wp → forIter ex eof var wp items rest st = .ok (r, st') → r <:+ wp := by
  intro items
  induction items with
  | nil =>
    intro rest st r st' hr he
    simp only [forIter, Res.ok.injEq, Prod.mk.injEq] at he; rw [← he.1]; exact hr
  | cons v vs ih =>
    intro rest st r st' hr he
    simp only [forIter] at he
    obtain ⟨⟨r1, s1⟩, h1, h2⟩ := Res.bind_eq_ok.1 he
    exact ih _ _ _ _ (bodyLoop_forward hex _ _ _ _ _ _ _ h1) h2

theorem execTok_forward (cx : Ctx) : ∀ n, Forward (execTok cx n) := by
  intro n
  induction n with
  | zero => intro t ts st r st' h; simp [execTok] at h
  | succ n ih =>
    intro t ts st r st' h
    unfold execTok at h
    split at h
    · obtain ⟨s1, _, h2⟩ := Res.bind_eq_ok.1 h
      simp only [Res.ok.injEq, Prod.mk.injEq] at h2; rw [h2.1]; exact List.suffix_refl _
    · obtain ⟨s1, _, h2⟩ := Res.bind_eq_ok.1 h
      simp only [Res.ok.injEq, Prod.mk.injEq] at h2; rw [h2.1]; exact List.suffix_refl _
    · obtain ⟨items, _, h2⟩ := Res.bind_eq_ok.1 h
      exact forIter_forward ih _ _ _ _ _ _ _ _ (List.suffix_refl _) h2
    · exact ifLoop_forward ih _ _ _ _ _ _ _ _ h
    · obtain ⟨_, _, h2⟩ := Res.bind_eq_ok.1 h
      obtain ⟨_, _, h3⟩ := Res.bind_eq_ok.1 h2
      exact ifLoop_forward ih _ _ _ _ _ _ _ _ h3
    · obtain ⟨s1, _, h2⟩ := Res.bind_eq_ok.1 h
      simp only [Res.ok.injEq, Prod.mk.injEq] at h2; rw [h2.1]; exact List.suffix_refl _

/-! ### Enough fuel is enough -/

/-- Two token processors agree on everything shorter than `N`. -/
def Agree (N : Nat) (ex ex' : LTok → List LTok → St → R) : Prop :=
  ∀ t ts st, ts.length < N → ex t ts st = ex' t ts st

theorem bodyLoop_agree {ex ex'} (hf : Forward ex) (eof h) :
    ∀ fuel fuel' rest st, Agree rest.length ex ex' → rest.length ≤ fuel → rest.length ≤ fuel' →
      bodyLoop ex eof h fuel rest st = bodyLoop ex' eof h fuel' rest st := by
  intro fuel
  induction fuel with
  | zero =>
    intro fuel' rest st ha h1 h2
    have : rest = [] := by cases rest with | nil => rfl | cons => simp at h1
    subst this
    unfold bodyLoop; rfl
  | succ k ih =>
    intro fuel' rest st ha h1 h2
    unfold bodyLoop
    split
    · rfl
    · cases rest with
      | nil => rfl
      | cons t ts =>
        cases fuel' with
        | zero => simp at h2
        | succ k' =>
          simp only [List.length_cons, Nat.add_le_add_iff_right] at h1 h2
          simp only
          rw [ha t ts st (by simp)]
          cases hx : ex' t ts st with
          | ok a =>
            obtain ⟨r, s⟩ := a
            have hs : r.length ≤ ts.length :=
              (hf _ _ _ _ _ ((ha t ts st (by simp)).trans hx)).length_le
            exact ih k' r s (fun t' ts' st' hl => ha _ _ _ (by simp; omega)) (by omega) (by omega)
          | err e => rfl
          | panic p => rfl

theorem ifLoop_agree {ex ex'} (hf : Forward ex) (eof h) :
    ∀ fuel fuel' c rest st, Agree rest.length ex ex' → rest.length ≤ fuel → rest.length ≤ fuel' →
      ifLoop ex eof h fuel c rest st = ifLoop ex' eof h fuel' c rest st := by
  intro fuel
  induction fuel with
  | zero =>
    intro fuel' c rest st ha h1 h2
    have : rest = [] := by cases rest with | nil => rfl | cons => simp at h1
    subst this
    unfold ifLoop; rfl
  | succ k ih =>
    intro fuel' c rest st ha h1 h2
    unfold ifLoop
    split
    · rfl
    · cases rest with
      | nil => rfl
      | cons t ts =>
        cases fuel' with
        | zero => simp at h2
        | succ k' =>
          simp only [List.length_cons, Nat.add_le_add_iff_right] at h1 h2
          simp only
          cases tokName t with
          | err e => rfl
          | panic p => rfl
          | ok nm =>
            simp only [Res.bind_ok]
            have hsh : Agree ts.length ex ex' := fun t' ts' st' hl => ha _ _ _ (by simp; omega)
            split
            · rw [ha t ts st (by simp)]
              cases hx : ex' t ts st with
              | ok a =>
                obtain ⟨r, s⟩ := a
                have hs : r.length ≤ ts.length :=
                  (hf _ _ _ _ _ ((ha t ts st (by simp)).trans hx)).length_le
                exact ih k' _ r s (fun t' ts' st' hl => ha _ _ _ (by simp; omega)) (by omega) (by omega)
              | err e => rfl
              | panic p => rfl
            · exact ih k' _ ts st hsh (by omega) (by omega)

theorem forIter_agree {ex ex'} (hf : Forward ex) (eof var) (wp : List LTok) (ha : Agree wp.length ex ex') :
    ∀ items rest st, forIter ex eof var wp items rest st = forIter ex' eof var wp items rest st := by
  intro items
  induction items with
  | nil => intro rest st; rfl
  | cons v vs ih =>
    intro rest st
    simp only [forIter]
    rw [bodyLoop_agree hf eof _ _ (wp.length + 1) wp _ ha (by omega) (by omega)]
    congr 1
    funext a
    exact ih _ _

theorem execTok_agree (cx : Ctx) : ∀ n m t rest st, rest.length < n → rest.length < m →
    execTok cx n t rest st = execTok cx m t rest st := by
  intro n
  induction n with
  | zero => intro m t rest st h; omega
  | succ n ih =>
    intro m t rest st hn hm
    cases m with
    | zero => omega
    | succ m =>
      have ha : Agree rest.length (execTok cx n) (execTok cx m) :=
        fun t' ts' st' hl => ih m t' ts' st' (by omega) (by omega)
      have hf := execTok_forward cx n
      unfold execTok
      cases t.inner with
      | raw s => rfl
      | var v => rfl
      | func f =>
        cases f with
        | for_ f =>
          simp only
          congr 1
          funext items
          exact forIter_agree hf _ _ _ ha _ _ _
        | ifdefined v =>
          simp only [enterIf]
          exact ifLoop_agree hf _ _ _ _ _ _ _ ha (by omega) (by omega)
        | cmp op a b =>
          simp only [enterIf]
          congr 1
          funext x
          congr 1
          funext y
          exact ifLoop_agree hf _ _ _ _ _ _ _ ha (by omega) (by omega)
        | _ => rfl

/-! ### Fuel-free reading -/

/-- Process one token. -/
def exec (cx : Ctx) (t : LTok) (rest : List LTok) (st : St) : R := execTok cx (rest.length + 1) t rest st

/-- Read until the stack is back at height `h`. -/
def loop (cx : Ctx) (eof : PErr) (h : Nat) (rest : List LTok) (st : St) : R :=
  bodyLoop (exec cx) eof h rest.length rest st

/-- Read a conditional until the stack is back at height `h`. -/
def branch (cx : Ctx) (eof : PErr) (h : Nat) (cond : Bool) (rest : List LTok) (st : St) : R :=
  ifLoop (exec cx) eof h rest.length cond rest st

/-- Iterate over items. -/
def iter (cx : Ctx) (eof : PErr) (var : Str) (wp : List LTok) (items : List Value) (rest : List LTok) (st : St) : R :=
  forIter (exec cx) eof var wp items rest st

theorem exec_forward (cx : Ctx) : Forward (exec cx) := fun _ _ _ _ _ h => execTok_forward cx _ _ _ _ _ _ h

theorem execTok_exec (cx : Ctx) (n) (N) (h : N ≤ n) : Agree N (execTok cx n) (exec cx) :=
  fun t ts st hl => execTok_agree cx _ _ t ts st (by omega) (by omega)

theorem loop_eq (cx eof h rest st) : loop cx eof h rest st =
    if st.stack.length ≤ h then .ok (rest, st)
    else match rest with
      | [] => .err eof
      | t :: ts => (exec cx t ts st).bind fun (r, s) => loop cx eof h r s := by
  unfold loop
  cases rest with
  | nil => unfold bodyLoop; rfl
  | cons t ts =>
    conv => lhs; unfold bodyLoop
    split
    · rfl
    · simp only [List.length_cons]
      cases hx : exec cx t ts st with
      | ok a =>
        obtain ⟨r, s⟩ := a
        have hs := (exec_forward cx _ _ _ _ _ hx).length_le
        exact bodyLoop_agree (exec_forward cx) _ _ _ _ _ _ (fun _ _ _ _ => rfl) hs (Nat.le_refl _)
      | err e => rfl
      | panic p => rfl

theorem branch_eq (cx eof h cond rest st) : branch cx eof h cond rest st =
    if st.stack.length ≤ h then .ok (rest, st)
    else match rest with
      | [] => .err eof
      | t :: ts => (tokName t).bind fun name =>
        let isElse := name == some str!"else"
        if cond || ((name == some str!"end" || isElse) && st.stack.length == h + 1) then
          (exec cx t ts st).bind fun (r, s) => branch cx eof h (if isElse then !cond else cond) r s
        else branch cx eof h cond ts st := by
  unfold branch
  cases rest with
  | nil => unfold ifLoop; rfl
  | cons t ts =>
    conv => lhs; unfold ifLoop
    split
    · rfl
    · simp only [List.length_cons]
      cases tokName t with
      | err e => rfl
      | panic p => rfl
      | ok nm =>
        simp only [Res.bind_ok]
        split
        · cases hx : exec cx t ts st with
          | ok a =>
            obtain ⟨r, s⟩ := a
            have hs := (exec_forward cx _ _ _ _ _ hx).length_le
            exact ifLoop_agree (exec_forward cx) _ _ _ _ _ _ _ (fun _ _ _ _ => rfl) hs (Nat.le_refl _)
          | err e => rfl
          | panic p => rfl
        · rfl

theorem iter_nil (cx eof var wp rest st) : iter cx eof var wp [] rest st = .ok (rest, st) := rfl

theorem iter_cons (cx eof var wp v vs rest st) : iter cx eof var wp (v :: vs) rest st =
    (loop cx eof st.stack.length wp
      { st with stack := ((Frame.new (str!"for:" ++ var)).addVar var v) :: st.stack }).bind
      fun (r, s) => iter cx eof var wp vs r s := by
  unfold iter loop
  conv => lhs; unfold forIter
  rw [bodyLoop_agree (exec_forward cx) _ _ _ wp.length wp _ (fun _ _ _ _ => rfl) (by omega) (by omega)]

theorem enterIf_branch (cx : Ctx) (eof name cond) (rest : List LTok) (st : St) :
    enterIf (execTok cx rest.length) eof name cond rest st =
      branch cx eof st.stack.length cond rest { st with stack := Frame.new name :: st.stack } := by
  unfold enterIf branch
  exact ifLoop_agree (execTok_forward cx _) _ _ _ _ _ _ _ (execTok_exec cx _ _ (Nat.le_refl _)) (by omega) (by omega)

/-- Is a function a block that reads its own tokens? -/
def Fn.isBlock : Fn → Bool
  | .for_ _ => true
  | .ifdefined _ => true
  | .cmp _ _ _ => true
  | _ => false

theorem exec_raw (cx : Ctx) (t rest st s) (h : t.inner = .raw s) : exec cx t rest st =
    (Res.unwrap .emptyStack (st.output (bytesOf s))).bind fun st' => .ok (rest, st') := by
  unfold exec execTok; rw [h]

theorem exec_var (cx : Ctx) (t rest st v) (h : t.inner = .var v) : exec cx t rest st =
    ((execVar v st).mapErr t.tb).bind fun st' => .ok (rest, st') := by
  unfold exec execTok; rw [h]

theorem exec_for (cx : Ctx) (t rest st f) (h : t.inner = .func (.for_ f)) : exec cx t rest st =
    ((forItems cx f st.stack).mapErr t.tb).bind fun items =>
      iter cx (t.tb .unexpectedEndOfFile) f.var rest (arrange f items) rest st := by
  unfold exec execTok; rw [h]
  simp only
  congr 1
  funext items
  exact forIter_agree (execTok_forward cx _) _ _ _ (execTok_exec cx _ _ (Nat.le_refl _)) _ _ _

theorem exec_ifdefined (cx : Ctx) (t rest st v) (h : t.inner = .func (.ifdefined v)) : exec cx t rest st =
    branch cx (t.tb .unexpectedEndOfFile) st.stack.length
      (match lookupVar v st.stack with | some .null => false | some _ => true | none => false) rest
      { st with stack := Frame.new (str!"ifdefined:" ++ v) :: st.stack } := by
  unfold exec execTok; rw [h]
  exact enterIf_branch _ _ _ _ _ _

theorem exec_cmp (cx : Ctx) (t rest st op a b) (h : t.inner = .func (.cmp op a b)) : exec cx t rest st =
    (Res.ofOption (t.tb (.undefinedVariable a.toStr)) (a.eval st)).bind fun x =>
    (Res.ofOption (t.tb (.undefinedVariable b.toStr)) (b.eval st)).bind fun y =>
      branch cx (t.tb .unexpectedEndOfFile) st.stack.length (op.holds x y) rest
        { st with stack := Frame.new (cmpFrameName op a b) :: st.stack } := by
  unfold exec execTok; rw [h]
  simp only [enterIf_branch]

theorem exec_simple (cx : Ctx) (t rest st f) (h : t.inner = .func f) (hb : f.isBlock = false) :
    exec cx t rest st = ((execSimple cx f st).mapErr t.tb).bind fun st' => .ok (rest, st') := by
  unfold exec execTok; rw [h]
  cases f <;> first | rfl | simp [Fn.isBlock] at hb

theorem runGo_fuel (cx : Ctx) : ∀ k k' toks st, toks.length ≤ k → toks.length ≤ k' →
    runGo cx k toks st = runGo cx k' toks st := by
  intro k
  induction k with
  | zero =>
    intro k' toks st h1 h2
    have : toks = [] := by cases toks with | nil => rfl | cons => simp at h1
    subst this; cases k' <;> rfl
  | succ k ih =>
    intro k' toks st h1 h2
    cases toks with
    | nil => cases k' <;> rfl
    | cons t ts =>
      cases k' with
      | zero => simp at h2
      | succ k' =>
        simp only [List.length_cons, Nat.add_le_add_iff_right] at h1 h2
        unfold runGo
        cases hx : execTok cx (ts.length + 1) t ts st with
        | ok a =>
          obtain ⟨r, s⟩ := a
          have hs := (execTok_forward cx _ _ _ _ _ _ hx).length_le
          exact ih k' r s (by omega) (by omega)
        | err e => rfl
        | panic p => rfl

theorem runToks_nil (cx : Ctx) (st) : runToks cx [] st = .ok st := rfl

theorem runToks_cons (cx : Ctx) (t ts st) : runToks cx (t :: ts) st =
    (exec cx t ts st).bind fun (r, s) => runToks cx r s := by
  unfold runToks exec
  rw [List.length_cons]
  conv => lhs; unfold runGo
  cases hx : execTok cx (ts.length + 1) t ts st with
  | ok a =>
    obtain ⟨r, s⟩ := a
    have hs := (execTok_forward cx _ _ _ _ _ _ hx).length_le
    exact runGo_fuel cx _ _ r s hs (Nat.le_refl _)
  | err e => rfl
  | panic p => rfl

end Stuart
