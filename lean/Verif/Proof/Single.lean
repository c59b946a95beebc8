import Verif.Proof.Block
import Verif.Proof.Step
import Verif.Spec.Single
/-
A template that renders, in which no loop stands within a loop, renders as it reads. For each `end` that is still to come there must be an
open block; once there are more of the former, because something that opens a block was passed over, this stays so, and rendering fails.
-/
namespace Stuart
open Spec

theorem Res.bind_bind {ε α β γ : Type} (x : Res ε α) (f : α → Res ε β) (g : β → Res ε γ) :
    (x.bind f).bind g = x.bind fun a => (f a).bind g := by cases x <;> rfl

/-- What closes a block. -/
inductive Closer where
  | sec (l : Str)
  | word (w : Str)

def Closer.token : Closer → Token
  | .sec l => .func (.end_ l true)
  | .word w => .func (.end_ w false)

/-- This closes the block with this name. -/
def Fits (nm : Str) : Closer → Prop
  | .sec l => nm = str!"begin:" ++ l
  | .word w => (w ++ [':']).isPrefixOf nm = true

/-- The token opens a block with this closer. -/
inductive OpensFor : Token → Closer → Prop
  | sec (l : Str) : OpensFor (.func (.begin_ l true)) (.sec l)
  | loop (f : ForFn) : OpensFor (.func (.for_ f)) (.word str!"for")
  | test (t : Test) : OpensFor (.func t.fn) (.word t.word)

/-- The tokens begin with the rest of blocks, which are closed in this order. None of the closers fits the name. -/
inductive Pending (n : Str) : List LTok → List Closer → Prop
  | any {ts} : Pending n ts []
  | leaf {t ts L} : Plain t.inner → Pending n ts L → Pending n (t :: ts) L
  | open_ {t c ts L} : OpensFor t.inner c → ¬ Fits n c → Pending n ts (c :: L) → Pending n (t :: ts) L
  | else_ {t ts L} : t.inner = .func .else_ → Pending n ts L → Pending n (t :: ts) L
  | close {t ts} {c : Closer} {L} : t.inner = c.token → Pending n ts L → Pending n (t :: ts) (c :: L)

/-- Closers for all of these blocks. -/
inductive AllFit : List Str → List Closer → Prop
  | nil : AllFit [] []
  | cons {nm c ns cs} : Fits nm c → AllFit ns cs → AllFit (nm :: ns) (c :: cs)

def St.names (st : St) : List Str := st.stack.map (·.name)

/-- More is still to be closed than there is open above the frame `n`. -/
def Short (n : Str) (ns : List Str) (rest : List LTok) (st : St) : Prop :=
  ∃ Ns Ls L, st.names = Ns ++ n :: ns ∧ AllFit Ns Ls ∧ Ls.Sublist L ∧ Ls.length < L.length ∧ Pending n rest L ∧ ∀ c ∈ L, ¬ Fits n c

section
variable {n : Str} {ns : List Str}

theorem Short.names {rest : List LTok} {st st' : St} (h : Short n ns rest st) (hn : st'.names = st.names) : Short n ns rest st' := by
  obtain ⟨Ns, Ls, L, h1, h2⟩ := h
  exact ⟨Ns, Ls, L, hn.trans h1, h2⟩

theorem Short.ne_nil {rest : List LTok} {st : St} (h : Short n ns rest st) : st.stack ≠ [] := by
  obtain ⟨Ns, Ls, L, h1, _⟩ := h
  intro k
  simp [St.names, k] at h1

/-- The names after a token that closes nothing and opens nothing that stays open. -/
theorem leaf_names {cx : Ctx} {t : LTok} {ts r : List LTok} {st st' : St} (hp : Plain t.inner) (hne : st.stack ≠ [])
    (h : exec cx t ts st = .ok (r, st')) : r = ts ∧ st'.names = st.names := by
  obtain ⟨stk, secs⟩ := st
  cases stk with
  | nil => exact absurd rfl hne
  | cons f fs =>
    rw [leaf_exec cx t hp] at h
    obtain ⟨o, h1, h2⟩ := Res.bind_eq_ok.1 h
    simp only [Res.ok.injEq, Prod.mk.injEq] at h2
    obtain ⟨rfl, rfl⟩ := h2
    exact ⟨rfl, rfl⟩

theorem else_names {cx : Ctx} {t : LTok} {ts r : List LTok} {st st' : St} (ht : t.inner = .func .else_)
    (h : exec cx t ts st = .ok (r, st')) : r = ts ∧ st' = st ∧ ∃ f fs, st.stack = f :: fs ∧ startsWith str!"if" f.name = true := by
  rw [exec_simple cx t ts st _ ht rfl] at h
  obtain ⟨s, h1, h2⟩ := Res.bind_eq_ok.1 h
  simp only [Res.ok.injEq, Prod.mk.injEq] at h2
  obtain ⟨rfl, rfl⟩ := h2
  have h1 := Res.mapErr_eq_ok.1 h1
  simp only [execSimple, execElse] at h1
  split at h1
  · cases h1
  · rename_i f fs hs
    split at h1
    · rename_i hi
      simp only [Res.ok.injEq] at h1
      exact ⟨rfl, h1.symm, f, fs, hs, hi⟩
    · cases h1

theorem close_names {cx : Ctx} {t : LTok} {c : Closer} {ts r : List LTok} {st st' : St} (ht : t.inner = c.token)
    (h : exec cx t ts st = .ok (r, st')) : r = ts ∧ ∃ nm, st.names = nm :: st'.names ∧ Fits nm c := by
  have key : ∀ l q, t.inner = .func (.end_ l q) → r = ts ∧ ∃ f g gs, st.stack = f :: g :: gs ∧
      (if q then f.name = str!"begin:" ++ l else (l ++ [':']).isPrefixOf f.name = true) ∧ st'.names = g.name :: gs.map (·.name) := by
    intro l q ht
    rw [exec_simple cx t ts st _ ht rfl] at h
    obtain ⟨s, h1, h2⟩ := Res.bind_eq_ok.1 h
    simp only [Res.ok.injEq, Prod.mk.injEq] at h2
    obtain ⟨rfl, rfl⟩ := h2
    obtain ⟨f, g, gs, k1, k2, k3⟩ := execEnd_ok (Res.mapErr_eq_ok.1 h1)
    exact ⟨rfl, f, g, gs, k1, k2, by rw [k3]; rfl⟩
  cases c with
  | sec l =>
    obtain ⟨h1, f, g, gs, h2, h3, h4⟩ := key l true ht
    exact ⟨h1, f.name, by rw [h4]; simp [St.names, h2], h3⟩
  | word w =>
    obtain ⟨h1, f, g, gs, h2, h3, h4⟩ := key w false ht
    exact ⟨h1, f.name, by rw [h4]; simp [St.names, h2], by simpa [Fits] using h3⟩

theorem begin_exec (cx : Ctx) {t : LTok} {l : Str} (ts : List LTok) (st : St) (ht : t.inner = .func (.begin_ l true)) :
    exec cx t ts st = .ok (ts, ⟨Frame.new (str!"begin:" ++ l) :: st.stack, st.sections⟩) := by
  rw [exec_simple cx t ts st _ ht rfl]
  rfl

theorem block_names {cx : Ctx} {t : LTok} {ts r : List LTok} {st st' : St} {fn : Fn} (ht : t.inner = .func fn) (hb : fn.isBlock = true)
    (hne : st.stack ≠ []) (h : exec cx t ts st = .ok (r, st')) : st'.names = st.names := by
  obtain ⟨f, fs, hst⟩ := List.exists_cons_of_ne_nil hne
  obtain ⟨o, ss, rfl⟩ := exec_block ht hb hst h
  simp [St.names, hst, Frame.emit]

/-- The token processor keeps it so, for this many tokens. -/
def KeepsShort (cx : Ctx) (n : Str) (ns : List Str) (k : Nat) : Prop :=
  ∀ t ts st r st', ts.length < k → Short n ns (t :: ts) st → exec cx t ts st = .ok (r, st') → Short n ns r st'

theorem pending_nil {L : List Closer} (h : Pending n [] L) : L = [] := by cases h; rfl

theorem loop_short {cx : Ctx} {k : Nat} (hk : KeepsShort cx n ns k) (eof : PErr) (h : Nat) : ∀ m rest st r st', rest.length ≤ m → rest.length ≤ k →
    Short n ns rest st → loop cx eof h rest st = .ok (r, st') → Short n ns r st' := by
  intro m
  induction m with
  | zero =>
    intro rest st r st' hm _ hs he
    cases rest with
    | cons => simp at hm
    | nil =>
      rw [loop_eq] at he
      split at he
      · simp only [Res.ok.injEq, Prod.mk.injEq] at he
        rw [← he.1, ← he.2]; exact hs
      · cases he
  | succ m ih =>
    intro rest st r st' hm hl hs he
    rw [loop_eq] at he
    split at he
    · simp only [Res.ok.injEq, Prod.mk.injEq] at he
      rw [← he.1, ← he.2]; exact hs
    · cases rest with
      | nil => cases he
      | cons t ts =>
        simp only [List.length_cons] at hm hl
        obtain ⟨⟨r1, s1⟩, h1, h2⟩ := Res.bind_eq_ok.1 he
        have hf := (exec_forward cx _ _ _ _ _ h1).length_le
        exact ih _ _ _ _ (by omega) (by omega) (hk _ _ _ _ _ (by omega) hs h1) h2

/-- The frames above the conditional that is read are sections, and there are none while nothing is rendered. -/
def InBranch (h : Nat) (cond : Bool) (st : St) : Prop :=
  ∃ bs us, st.names = bs ++ us ∧ us.length ≤ h + 1 ∧ (∀ b ∈ bs, str!"begin:" <+: b) ∧ (cond = false → bs = [])

theorem begin_not_if {b : Str} (h : str!"begin:" <+: b) : ¬ startsWith str!"if" b = true := by
  obtain ⟨t, rfl⟩ := h
  simp [startsWith, List.isPrefixOf]

theorem inBranch_tail {h : Nat} {nm : Str} {st st' : St} (hw : InBranch h true st) (hn : st.names = nm :: st'.names) : InBranch h true st' := by
  obtain ⟨bs, us, h1, h2, h3, h4⟩ := hw
  rw [hn] at h1
  cases bs with
  | nil =>
    refine ⟨[], st'.names, rfl, ?_, nofun, fun _ => rfl⟩
    rw [List.nil_append] at h1
    rw [← h1, List.length_cons] at h2
    omega
  | cons b bs =>
    obtain ⟨rfl, h1'⟩ := List.cons.inj h1
    exact ⟨bs, us, h1', h2, fun x hx => h3 x (.tail _ hx), nofun⟩

theorem inBranch_names {h : Nat} {c : Bool} {st st' : St} (hw : InBranch h c st) (hn : st'.names = st.names) : InBranch h c st' := by
  obtain ⟨bs, us, h1, h2⟩ := hw
  exact ⟨bs, us, hn.trans h1, h2⟩

theorem opens_block {t : Token} {c : Closer} (h : OpensFor t c) :
    (∃ l, t = .func (.begin_ l true) ∧ c = .sec l) ∨ ∃ fn, t = .func fn ∧ fn.isBlock = true := by
  cases h with
  | sec l => exact .inl ⟨l, rfl, rfl⟩
  | loop f => exact .inr ⟨_, rfl, rfl⟩
  | test t => cases t <;> exact .inr ⟨_, rfl, rfl⟩

theorem opens_name {t : LTok} {c : Closer} (h : OpensFor t.inner c) : ∃ m, tokName t = .ok m ∧ m ≠ some str!"else" ∧ m ≠ some str!"end" := by
  obtain ⟨i, p, l, k⟩ := t
  cases h with
  | sec l => exact ⟨_, rfl, by decide, by decide⟩
  | loop f => exact ⟨_, rfl, by decide, by decide⟩
  | test t =>
    cases t with
    | defined v => exact ⟨_, rfl, by decide, by decide⟩
    | cmp op a b => cases op <;> exact ⟨_, rfl, by decide, by decide⟩

/-- Passing over a token that is neither `end` nor `else`. -/
theorem short_pass {t : LTok} {ts : List LTok} {st : St} {m : Option Str} (hs : Short n ns (t :: ts) st) (hn : tokName t = .ok m)
    (h1 : m ≠ some str!"else") (h2 : m ≠ some str!"end") : Short n ns ts st := by
  obtain ⟨Ns, Ls, L, k1, k2, k3, k4, k5, k6⟩ := hs
  cases k5 with
  | any => simp at k4
  | leaf _ hp => exact ⟨Ns, Ls, L, k1, k2, k3, k4, hp, k6⟩
  | @open_ _ c _ _ _ hf hp =>
    refine ⟨Ns, Ls, c :: L, k1, k2, k3.cons c, by simp only [List.length_cons]; omega, hp, fun x hx => ?_⟩
    rcases List.mem_cons.1 hx with rfl | hx
    · exact hf
    · exact k6 x hx
  | else_ ht _ =>
    simp only [tokName, ht, Fn.name, Res.ok.injEq] at hn
    exact absurd hn.symm h1
  | @close _ _ c _ ht _ =>
    cases c <;> simp only [tokName, ht, Closer.token, Fn.name, Res.ok.injEq] at hn <;> exact absurd hn.symm h2

theorem branch_short {cx : Ctx} {k : Nat} (hk : KeepsShort cx n ns k) (eof : PErr) (h : Nat) : ∀ m cond rest st r st', rest.length ≤ m →
    rest.length ≤ k → InBranch h cond st → Short n ns rest st → branch cx eof h cond rest st = .ok (r, st') → Short n ns r st' := by
  intro m
  induction m with
  | zero =>
    intro cond rest st r st' hm _ _ hs he
    cases rest with
    | cons => simp at hm
    | nil =>
      rw [branch_eq] at he
      split at he
      · simp only [Res.ok.injEq, Prod.mk.injEq] at he
        rw [← he.1, ← he.2]; exact hs
      · cases he
  | succ m ih =>
    intro cond rest st r st' hm hl hw hs he
    rw [branch_eq] at he
    split at he
    · simp only [Res.ok.injEq, Prod.mk.injEq] at he
      rw [← he.1, ← he.2]; exact hs
    · rename_i hh
      cases rest with
      | nil => cases he
      | cons t ts =>
        simp only [List.length_cons] at hm hl
        obtain ⟨nm, h0, he⟩ := Res.bind_eq_ok.1 he
        simp only at he
        split at he
        · rename_i hc
          obtain ⟨⟨r1, s1⟩, h1, h2⟩ := Res.bind_eq_ok.1 he
          have hf := (exec_forward cx _ _ _ _ _ h1).length_le
          refine ih _ _ _ _ _ (by omega) (by omega) ?_ (hk _ _ _ _ _ (by omega) hs h1) h2
          have hne := hs.ne_nil
          obtain ⟨Ns, Ls, L, k1, k2, k3, k4, k5, k6⟩ := hs
          have noElse : nm ≠ some str!"else" → (if (nm == some str!"else") = true then !cond else cond) = cond := by
            intro hn
            rw [if_neg (by simpa using hn)]
          cases k5 with
          | any => simp at k4
          | leaf hp _ =>
            obtain ⟨n1, e1, e2, e3⟩ := plain_name hp
            rw [h0] at e1
            cases e1
            rw [noElse e2]
            exact inBranch_names hw (leaf_names hp hne h1).2
          | open_ ho _ _ =>
            obtain ⟨n1, e1, e2, e3⟩ := opens_name ho
            rw [h0] at e1
            cases e1
            rw [noElse e2]
            rcases opens_block ho with ⟨l, ht, _⟩ | ⟨fn, ht, hb⟩
            · rw [begin_exec cx ts st ht] at h1
              simp only [Res.ok.injEq, Prod.mk.injEq] at h1
              have hcond : cond = true := by
                cases cond with
                | true => rfl
                | false =>
                  have e2' : (nm == some str!"else") = false := by simpa using e2
                  have e3' : (nm == some str!"end") = false := by simpa using e3
                  simp [e2', e3'] at hc
              subst hcond
              obtain ⟨bs, us, w1, w2, w3, w4⟩ := hw
              rw [← h1.2]
              refine ⟨(str!"begin:" ++ l) :: bs, us, ?_, w2, fun b hb => ?_, nofun⟩
              · show _ :: st.stack.map (·.name) = _
                rw [show st.stack.map (·.name) = bs ++ us from w1]
                rfl
              · rcases List.mem_cons.1 hb with rfl | hb
                · exact List.prefix_append _ _
                · exact w3 b hb
            · exact inBranch_names hw (block_names ht hb hne h1)
          | else_ ht _ =>
            obtain ⟨rfl, rfl, f, fs, hst, hif⟩ := else_names ht h1
            simp only [tokName, ht, Fn.name, Res.ok.injEq] at h0
            subst h0
            obtain ⟨bs, us, w1, w2, w3, w4⟩ := hw
            have hbs : bs = [] := by
              cases bs with
              | nil => rfl
              | cons b bs =>
                have : f.name = b := by
                  simp only [St.names, hst, List.map_cons, List.cons_append, List.cons.injEq] at w1
                  exact w1.1
                exact absurd hif (this ▸ begin_not_if (w3 b (.head _)))
            exact ⟨bs, us, w1, w2, w3, fun _ => hbs⟩
          | @close _ _ c _ ht _ =>
            obtain ⟨rfl, nm', hn', _⟩ := close_names ht h1
            have hne' : nm ≠ some str!"else" := by
              intro e
              subst e
              cases c <;> simp [tokName, ht, Closer.token, Fn.name] at h0
            rw [noElse hne']
            cases cond with
            | true => exact inBranch_tail hw hn'
            | false =>
              obtain ⟨bs, us, w1, w2, w3, w4⟩ := hw
              have := w4 rfl
              subst this
              refine ⟨[], s1.names, rfl, ?_, nofun, fun _ => rfl⟩
              rw [List.nil_append] at w1
              rw [← w1, hn', List.length_cons] at w2
              omega
        · rename_i hc
          have hcond : cond = false := by
            cases cond with
            | false => rfl
            | true => simp at hc
          subst hcond
          refine ih _ _ _ _ _ (by omega) (by omega) hw (short_pass hs h0 ?_ ?_) he
          all_goals
            rintro rfl
            obtain ⟨bs, us, w1, w2, w3, w4⟩ := hw
            have := w4 rfl
            subst this
            have hlen : st.stack.length = h + 1 := by
              have : st.stack.length = us.length := by
                rw [← List.length_map (f := fun x : Frame => x.name)]
                exact congrArg List.length w1
              omega
            simp [hlen] at hc

theorem iter_short {cx : Ctx} {k : Nat} (hk : KeepsShort cx n ns k) (eof : PErr) (var : Str) (wp : List LTok) (hwp : wp.length ≤ k)
    (hfor : ¬ Fits n (.word str!"for")) {Ns : List Str} {Ls L : List Closer} (h2 : AllFit Ns Ls) (h3 : Ls.Sublist L)
    (h4 : Ls.length < L.length) (h5 : Pending n wp (.word str!"for" :: L)) (h6 : ∀ c ∈ L, ¬ Fits n c) :
    ∀ items rest st r st', st.names = Ns ++ n :: ns → Short n ns rest st → iter cx eof var wp items rest st = .ok (r, st') → Short n ns r st' := by
  intro items
  induction items with
  | nil =>
    intro rest st r st' _ hs he
    simp only [iter_nil, Res.ok.injEq, Prod.mk.injEq] at he
    rw [← he.1, ← he.2]; exact hs
  | cons v vs ih =>
    intro rest st r st' hn hs he
    rw [iter_cons] at he
    obtain ⟨⟨r1, s1⟩, k1, k2⟩ := Res.bind_eq_ok.1 he
    have hs1 := loop_short hk eof _ _ _ _ _ _ (Nat.le_refl _) hwp (by
      refine ⟨(str!"for:" ++ var) :: Ns, .word str!"for" :: Ls, .word str!"for" :: L, ?_, .cons (isPrefixOf_append_self str!"for:" var) h2,
        h3.cons_cons _, by simpa using h4, h5, fun c hc => ?_⟩
      · show _ :: st.stack.map (·.name) = _
        rw [show st.stack.map (·.name) = _ from hn]
        rfl
      · rcases List.mem_cons.1 hc with rfl | hc
        · exact hfor
        · exact h6 c hc) k1
    refine ih _ _ _ _ ?_ hs1 k2
    have hne := hs.ne_nil
    obtain ⟨stk, secs⟩ := st
    cases stk with
    | nil => exact absurd rfl hne
    | cons f fs =>
      obtain ⟨o, ss, rfl⟩ := bodyLoop_above (exec_steps cx) eof f fs secs _ _ _ _ _
        ⟨[(Frame.new (str!"for:" ++ var)).addVar var v], [], [], by simp [Frame.emit], by simp⟩ k1
      rw [← hn]
      simp [St.names, Frame.emit]

theorem exec_short (cx : Ctx) : ∀ k, KeepsShort cx n ns k := by
  intro k
  induction k with
  | zero => intro t ts st r st' h; simp at h
  | succ k ih =>
    intro t ts st r st' hl hs he
    have hne := hs.ne_nil
    have hs' := hs
    obtain ⟨Ns, Ls, L, h1, h2, h3, h4, h5, h6⟩ := hs
    cases h5 with
    | any => simp at h4
    | leaf hp hq =>
      obtain ⟨rfl, e⟩ := leaf_names hp hne he
      exact ⟨Ns, Ls, L, e.trans h1, h2, h3, h4, hq, h6⟩
    | else_ ht hq =>
      obtain ⟨rfl, rfl, _⟩ := else_names ht he
      exact ⟨Ns, Ls, L, h1, h2, h3, h4, hq, h6⟩
    | @close _ _ c L ht hq =>
      obtain ⟨rfl, nm, e, hf⟩ := close_names ht he
      cases h2 with
      | nil =>
        rw [e] at h1
        obtain ⟨rfl, _⟩ := List.cons.inj h1
        exact absurd hf (h6 c (.head _))
      | @cons nm' c' Ns Ls hf' h2 =>
        rw [e] at h1
        obtain ⟨rfl, h1'⟩ := List.cons.inj h1
        refine ⟨Ns, Ls, L, h1', h2, ?_, ?_, hq, fun x hx => h6 x (.tail _ hx)⟩
        · cases h3 with
          | cons _ h => exact (List.sublist_cons_self _ _).trans h
          | cons_cons _ h => exact h
        · simp only [List.length_cons] at h4
          omega
    | @open_ _ c _ _ ho hf hq =>
      have h6' : ∀ x ∈ c :: L, ¬ Fits n x := by
        intro x hx
        rcases List.mem_cons.1 hx with rfl | hx
        · exact hf
        · exact h6 x hx
      obtain ⟨inner, path, line, col⟩ := t
      cases ho with
      | sec l =>
        rw [begin_exec cx ts st rfl] at he
        simp only [Res.ok.injEq, Prod.mk.injEq] at he
        obtain ⟨rfl, rfl⟩ := he
        refine ⟨(str!"begin:" ++ l) :: Ns, .sec l :: Ls, .sec l :: L, ?_, .cons rfl h2, h3.cons_cons _, by simpa using h4, hq, h6'⟩
        show _ :: st.stack.map (·.name) = _
        rw [show st.stack.map (·.name) = _ from h1]
        rfl
      | loop f =>
        rw [exec_for cx _ ts st f rfl] at he
        obtain ⟨items, _, he⟩ := Res.bind_eq_ok.1 he
        exact iter_short ih _ _ ts (by omega) hf h2 h3 h4 hq h6 _ _ _ _ _ h1
          ⟨Ns, Ls, _, h1, h2, h3.cons _, by simp only [List.length_cons]; omega, hq, h6'⟩ he
      | test tt =>
        have he' : exec cx ((At.mk path line col).tok (.func tt.fn)) ts st = .ok (r, st') := he
        rw [exec_test] at he'
        obtain ⟨b, _, he'⟩ := Res.bind_eq_ok.1 he'
        refine branch_short ih _ _ _ _ _ _ _ _ (Nat.le_refl _) (by omega) ?_ ?_ he'
        · exact ⟨[], _, rfl, by simp [St.names], nofun, fun _ => rfl⟩
        · refine ⟨testFrame tt :: Ns, .word tt.word :: Ls, .word tt.word :: L, ?_, .cons (testFrame_word tt) h2, h3.cons_cons _,
            by simpa using h4, hq, h6'⟩
          show _ :: st.stack.map (·.name) = _
          rw [show st.stack.map (·.name) = _ from h1]
          rfl

/-- A whole run from there fails. -/
theorem runToks_short (cx : Ctx) : ∀ m rest st st', rest.length ≤ m → Short n ns rest st → runToks cx rest st ≠ .ok st' := by
  intro m
  induction m with
  | zero =>
    intro rest st st' hm hs
    cases rest with
    | cons => simp at hm
    | nil =>
      obtain ⟨Ns, Ls, L, _, _, _, h4, h5, _⟩ := hs
      rw [pending_nil h5] at h4
      simp at h4
  | succ m ih =>
    intro rest st st' hm hs he
    cases rest with
    | nil =>
      obtain ⟨Ns, Ls, L, _, _, _, h4, h5, _⟩ := hs
      rw [pending_nil h5] at h4
      simp at h4
    | cons t ts =>
      rw [runToks_cons] at he
      simp only [List.length_cons] at hm
      obtain ⟨⟨r1, s1⟩, h1, h2⟩ := Res.bind_eq_ok.1 he
      have hf := (exec_forward cx _ _ _ _ _ h1).length_le
      exact ih _ _ _ (by omega) (exec_short cx _ _ _ _ _ _ (Nat.lt_succ_self _) hs h1) h2

/-- So does a loop whose own frame is the one. -/
theorem loop_doomed (cx : Ctx) (eof : PErr) (rest : List LTok) (st : St) (hs : Short n ns rest st) (a : List LTok × St) :
    loop cx eof ns.length rest st ≠ .ok a := by
  intro he
  have hs1 := loop_short (exec_short cx _) eof _ _ _ _ _ _ (Nat.le_refl _) (Nat.le_refl _) hs he
  obtain ⟨Ns, Ls, L, h1, _⟩ := hs1
  have hl : ∀ m rest st r st', rest.length ≤ m → loop cx eof ns.length rest st = .ok (r, st') → st'.stack.length ≤ ns.length := by
    intro m
    induction m with
    | zero =>
      intro rest st r st' hm he
      rw [loop_eq] at he
      split at he
      · rename_i hh
        simp only [Res.ok.injEq, Prod.mk.injEq] at he
        rw [← he.2]; exact hh
      · cases rest with
        | nil => cases he
        | cons => simp at hm
    | succ m ih =>
      intro rest st r st' hm he
      rw [loop_eq] at he
      split at he
      · rename_i hh
        simp only [Res.ok.injEq, Prod.mk.injEq] at he
        rw [← he.2]; exact hh
      · cases rest with
        | nil => cases he
        | cons t ts =>
          simp only [List.length_cons] at hm
          obtain ⟨⟨r1, s1⟩, h1, h2⟩ := Res.bind_eq_ok.1 he
          have hf := (exec_forward cx _ _ _ _ _ h1).length_le
          exact ih _ _ _ _ (by omega) h2
  have hlen := hl _ _ _ _ _ (Nat.le_refl _) he
  have : a.2.stack.length = (Ns ++ n :: ns).length := by
    rw [← h1, St.names, List.length_map]
  simp only [List.length_append, List.length_cons] at this
  omega

end
end Stuart
