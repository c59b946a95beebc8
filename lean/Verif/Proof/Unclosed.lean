import Verif.Proof.Errors
/-
A block that is never closed.
-/
namespace Stuart

/-- Not an `end`. -/
def NotEnd (t : LTok) : Prop := ∀ l c, t.inner ≠ .func (.end_ l c)

/-- A token that opens a section, a conditional, or a loop that has items. -/
def Opens (cx : Ctx) (t : LTok) : Prop :=
  match t.inner with
  | .func (.begin_ _ _) => True
  | .func (.ifdefined _) => True
  | .func (.cmp _ _ _) => True
  | .func (.for_ f) => ∀ stk items, forItems cx f stk = .ok items → arrange f items ≠ []
  | _ => False

/-- At least `m` frames. -/
def Tall (m : Nat) (st : St) : Prop := m ≤ st.stack.length

theorem Tall.push (m : Nat) : PushInv (Tall m) := by
  intro f st _ h
  simp only [Tall, List.length_cons] at *
  omega

theorem output_length {st st' : St} {b : Bytes} (h : st.output b = some st') : st'.stack.length = st.stack.length := by
  obtain ⟨f, fs, h1, rfl⟩ := St.output_some h
  simp [h1]

theorem execSimple_length {cx : Ctx} {f : Fn} {st st' : St} (hf : ∀ l c, f ≠ .end_ l c)
    (h : execSimple cx f st = .ok st') : st.stack.length ≤ st'.stack.length := by
  have ho : ∀ {b : Bytes}, outputOrErr b st = .ok st' → st.stack.length ≤ st'.stack.length := by
    intro b h
    exact Nat.le_of_eq (output_length (Res.ofOption_eq_ok.1 h)).symm
  cases f with
  | begin_ l c => cases h; simp [execBegin]
  | end_ l c => exact absurd rfl (hf l c)
  | else_ =>
    simp only [execSimple, execElse] at h
    split at h
    · cases h
    · split at h
      · cases h; exact Nat.le_refl _
      · cases h
  | excerpt v n => obtain ⟨_, _, h2⟩ := Res.bind_eq_ok.1 h; exact ho h2
  | import_ v file =>
    simp only [execSimple, execImport] at h
    split at h
    · cases h
    · split at h
      · cases h
      · split at h
        · split at h
          · cases h
          · rename_i hst
            split at h
            · cases h
            · cases h; simp [hst]
        · cases h
  | insert l =>
    simp only [execSimple, execInsert] at h
    split at h
    · cases h
    · rename_i hst
      split at h
      · cases h
      · cases h; simp [hst]
  | timetoread v => obtain ⟨_, _, h2⟩ := Res.bind_eq_ok.1 h; exact ho h2
  | dateformat v fmt =>
    obtain ⟨_, _, h2⟩ := Res.bind_eq_ok.1 h
    obtain ⟨_, _, h3⟩ := Res.bind_eq_ok.1 h2
    exact ho h3
  | plugin p =>
    simp only [execSimple, execPlugin] at h
    split at h
    · cases h
    · cases h
    · split at h
      · cases h
      · rename_i hst
        cases h; simp [hst]
  | for_ f => cases h; exact Nat.le_refl _
  | ifdefined v => cases h; exact Nat.le_refl _
  | cmp op a b => cases h; exact Nat.le_refl _

theorem execVar_length {v : Str} {st st' : St} (h : execVar v st = .ok st') : st'.stack.length = st.stack.length := by
  unfold execVar at h
  obtain ⟨o, h1, h2⟩ := Res.bind_eq_ok.1 h
  cases o with
  | none => simp at h2
  | some s => exact output_length (Res.unwrap_eq_ok.1 h2)

/-- Without `end`, the stack does not shrink. -/
theorem execTok_tall (cx : Ctx) (m n : Nat) : Keeps NotEnd (Tall m) (execTok cx n) := by
  refine execTok_keeps (Tall.push m) ?_ ?_ ?_ n
  · intro t s st st' _ _ hi h
    unfold Tall at *
    rw [output_length h]; exact hi
  · intro t v st st' _ _ hi h
    unfold Tall at *
    rw [execVar_length h]; exact hi
  · intro t f st st' hq ht _ hi h
    unfold Tall at *
    exact Nat.le_trans hi (execSimple_length (fun l c he => hq l c (by rw [ht, he])) h)

theorem bodyLoop_low {ex : LTok → List LTok → St → R} {eof : PErr} {h : Nat} : ∀ fuel rest st r st',
    bodyLoop ex eof h fuel rest st = .ok (r, st') → st'.stack.length ≤ h := by
  intro fuel
  induction fuel with
  | zero =>
    intro rest st r st' he
    unfold bodyLoop at he
    split at he
    · rename_i hl; cases he; exact hl
    · cases rest <;> simp at he
  | succ k ih =>
    intro rest st r st' he
    unfold bodyLoop at he
    split at he
    · rename_i hl; cases he; exact hl
    · cases rest with
      | nil => simp at he
      | cons t ts =>
        simp only at he
        obtain ⟨⟨r1, s1⟩, h1, h2⟩ := Res.bind_eq_ok.1 he
        exact ih _ _ _ _ h2

theorem ifLoop_low {ex : LTok → List LTok → St → R} {eof : PErr} {h : Nat} : ∀ fuel c rest st r st',
    ifLoop ex eof h fuel c rest st = .ok (r, st') → st'.stack.length ≤ h := by
  intro fuel
  induction fuel with
  | zero =>
    intro c rest st r st' he
    unfold ifLoop at he
    split at he
    · rename_i hl; cases he; exact hl
    · cases rest <;> simp at he
  | succ k ih =>
    intro c rest st r st' he
    unfold ifLoop at he
    split at he
    · rename_i hl; cases he; exact hl
    · cases rest with
      | nil => simp at he
      | cons t ts =>
        simp only at he
        obtain ⟨nm, _, he⟩ := Res.bind_eq_ok.1 he
        split at he
        · obtain ⟨⟨r1, s1⟩, h1, h2⟩ := Res.bind_eq_ok.1 he
          exact ih _ _ _ _ _ h2
        · exact ih _ _ _ _ _ he

section
variable {cx : Ctx} {n : Nat} {eof : PErr} {h : Nat}

theorem bodyLoop_unclosed {fuel rest st r st'} (hne : ∀ u ∈ rest, NotEnd u) (hl : h < st.stack.length) :
    bodyLoop (execTok cx n) eof h fuel rest st ≠ .ok (r, st') := by
  intro he
  have h1 := bodyLoop_low _ _ _ _ _ he
  have h2 := bodyLoop_keeps (execTok_forward cx n) (execTok_tall cx (h + 1) n) _ _ _ _ _ _ _ hne hl he
  unfold Tall at h2
  omega

theorem ifLoop_unclosed {fuel c rest st r st'} (hne : ∀ u ∈ rest, NotEnd u) (hl : h < st.stack.length) :
    ifLoop (execTok cx n) eof h fuel c rest st ≠ .ok (r, st') := by
  intro he
  have h1 := ifLoop_low _ _ _ _ _ _ he
  have h2 := ifLoop_keeps (execTok_forward cx n) (execTok_tall cx (h + 1) n) _ _ _ _ _ _ _ _ hne hl he
  unfold Tall at h2
  omega
end

/-- Reading on from before `t`, one stays before `t` or ends up after it with a frame more. -/
def Crosses (t : LTok) (post : List LTok) (ex : LTok → List LTok → St → R) : Prop :=
  ∀ u us st r st', t :: post <:+ u :: us → ex u us st = .ok (r, st') →
    t :: post <:+ r ∨ (r <:+ post ∧ st.stack.length < st'.stack.length)

theorem suffix_cons {α : Type} {t u : α} {post us : List α} (h : t :: post <:+ u :: us) :
    (u = t ∧ us = post) ∨ t :: post <:+ us := by
  rcases List.suffix_cons_iff.1 h with h | h
  · simp only [List.cons.injEq] at h; exact .inl ⟨h.1.symm, h.2.symm⟩
  · exact .inr h

section
variable {cx : Ctx} {n : Nat} {eof : PErr} {h : Nat} {t : LTok} {post : List LTok}

theorem bodyLoop_crosses (hpost : ∀ u ∈ post, NotEnd u) (hex : Crosses t post (execTok cx n)) :
    ∀ fuel rest st r st', t :: post <:+ rest → bodyLoop (execTok cx n) eof h fuel rest st = .ok (r, st') →
      t :: post <:+ r := by
  intro fuel
  induction fuel with
  | zero =>
    intro rest st r st' hs he
    unfold bodyLoop at he
    split at he
    · cases he; exact hs
    · cases rest <;> simp at he
  | succ k ih =>
    intro rest st r st' hs he
    unfold bodyLoop at he
    split at he
    · cases he; exact hs
    · rename_i hl
      cases rest with
      | nil => simp at he
      | cons u us =>
        simp only at he
        obtain ⟨⟨r1, s1⟩, h1, h2⟩ := Res.bind_eq_ok.1 he
        rcases hex _ _ _ _ _ hs h1 with hc | ⟨hc, hlen⟩
        · exact ih _ _ _ _ hc h2
        · exact absurd h2 (bodyLoop_unclosed (fun u hu => hpost u (hc.subset hu)) (by dsimp only; omega))

theorem ifLoop_crosses (hpost : ∀ u ∈ post, NotEnd u) (hex : Crosses t post (execTok cx n)) :
    ∀ fuel c rest st r st', t :: post <:+ rest → ifLoop (execTok cx n) eof h fuel c rest st = .ok (r, st') →
      t :: post <:+ r := by
  intro fuel
  induction fuel with
  | zero =>
    intro c rest st r st' hs he
    unfold ifLoop at he
    split at he
    · cases he; exact hs
    · cases rest <;> simp at he
  | succ k ih =>
    intro c rest st r st' hs he
    unfold ifLoop at he
    split at he
    · cases he; exact hs
    · rename_i hl
      cases rest with
      | nil => simp at he
      | cons u us =>
        simp only at he
        obtain ⟨nm, _, he⟩ := Res.bind_eq_ok.1 he
        split at he
        · obtain ⟨⟨r1, s1⟩, h1, h2⟩ := Res.bind_eq_ok.1 he
          rcases hex _ _ _ _ _ hs h1 with hc | ⟨hc, hlen⟩
          · exact ih _ _ _ _ _ hc h2
          · exact absurd h2 (ifLoop_unclosed (fun u hu => hpost u (hc.subset hu)) (by dsimp only; omega))
        · rcases suffix_cons hs with ⟨_, rfl⟩ | hs
          · exact absurd he (ifLoop_unclosed hpost (by omega))
          · exact ih _ _ _ _ _ hs he

theorem forIter_crosses (hpost : ∀ u ∈ post, NotEnd u) (hex : Crosses t post (execTok cx n)) (var : Str)
    (wp : List LTok) (hwp : t :: post <:+ wp) :
    ∀ items rest st r st', t :: post <:+ rest → forIter (execTok cx n) eof var wp items rest st = .ok (r, st') →
      t :: post <:+ r := by
  intro items
  induction items with
  | nil => intro rest st r st' hs he; cases he; exact hs
  | cons v vs ih =>
    intro rest st r st' hs he
    unfold forIter at he
    obtain ⟨⟨r1, s1⟩, h1, h2⟩ := Res.bind_eq_ok.1 he
    exact ih _ _ _ _ (bodyLoop_crosses hpost hex _ _ _ _ _ hwp h1) h2
end

theorem execTok_crosses (cx : Ctx) (t : LTok) (post : List LTok) (ho : Opens cx t) (hpost : ∀ u ∈ post, NotEnd u) :
    ∀ n, Crosses t post (execTok cx n) := by
  intro n
  induction n with
  | zero => intro u us st r st' _ h; simp [execTok] at h
  | succ n ih =>
    intro u us st r st' hs h
    unfold execTok at h
    rcases suffix_cons hs with ⟨rfl, rfl⟩ | hs'
    · unfold Opens at ho
      cases ht : u.inner with
      | raw s => simp [ht] at ho
      | var v => simp [ht] at ho
      | func fn =>
        rw [ht] at h
        cases fn with
        | for_ g =>
          simp only [ht] at ho
          obtain ⟨items, h1, h2⟩ := Res.bind_eq_ok.1 h
          have := ho _ _ (Res.mapErr_eq_ok.1 h1)
          obtain ⟨v, vs, hv⟩ := List.exists_cons_of_ne_nil this
          rw [hv, forIter] at h2
          obtain ⟨⟨r1, s1⟩, h3, h4⟩ := Res.bind_eq_ok.1 h2
          exact absurd h3 (bodyLoop_unclosed hpost (by simp))
        | ifdefined v => exact absurd h (ifLoop_unclosed hpost (by simp))
        | cmp op a b =>
          obtain ⟨_, _, h2⟩ := Res.bind_eq_ok.1 h
          obtain ⟨_, _, h3⟩ := Res.bind_eq_ok.1 h2
          exact absurd h3 (ifLoop_unclosed hpost (by simp))
        | begin_ l c =>
          obtain ⟨s1, h1, h2⟩ := Res.bind_eq_ok.1 h
          cases h1; cases h2
          exact .inr ⟨List.suffix_refl _, by simp [execBegin]⟩
        | _ => simp [ht] at ho
    · left
      cases ht : u.inner with
      | raw s =>
        rw [ht] at h
        obtain ⟨s1, h1, h2⟩ := Res.bind_eq_ok.1 h
        cases h2; exact hs'
      | var v =>
        rw [ht] at h
        obtain ⟨s1, h1, h2⟩ := Res.bind_eq_ok.1 h
        cases h2; exact hs'
      | func fn =>
        rw [ht] at h
        cases fn with
        | for_ g =>
          obtain ⟨items, h1, h2⟩ := Res.bind_eq_ok.1 h
          exact forIter_crosses hpost ih _ _ hs' _ _ _ _ _ hs' h2
        | ifdefined v => exact ifLoop_crosses hpost ih _ _ _ _ _ _ hs' h
        | cmp op a b =>
          obtain ⟨_, _, h2⟩ := Res.bind_eq_ok.1 h
          obtain ⟨_, _, h3⟩ := Res.bind_eq_ok.1 h2
          exact ifLoop_crosses hpost ih _ _ _ _ _ _ hs' h3
        | _ =>
          obtain ⟨s1, h1, h2⟩ := Res.bind_eq_ok.1 h
          cases h2; exact hs'

/-- Whatever comes before it, an opening token after which there is no `end` leaves a frame behind. -/
theorem runToks_unclosed (cx : Ctx) (t : LTok) (post : List LTok) (ho : Opens cx t) (hpost : ∀ u ∈ post, NotEnd u) :
    ∀ (k : Nat) (toks : List LTok) (st st' : St), toks.length ≤ k → t :: post <:+ toks → st.stack ≠ [] →
      runToks cx toks st = .ok st' → 2 ≤ st'.stack.length := by
  intro k
  induction k with
  | zero =>
    intro toks st st' hk hs
    have := hs.length_le
    simp at this; omega
  | succ k ih =>
    intro toks st st' hk hs hne h
    cases toks with
    | nil => simp at hs
    | cons u us =>
      rw [runToks_cons] at h
      obtain ⟨⟨r, s⟩, h1, h2⟩ := Res.bind_eq_ok.1 h
      have hstep := exec_steps cx _ _ _ _ _ hne h1
      have hfw := (exec_forward cx _ _ _ _ _ h1).length_le
      simp only [List.length_cons] at hk
      rcases execTok_crosses cx t post ho hpost _ _ _ _ _ _ hs h1 with hc | ⟨hc, hlen⟩
      · exact ih r s st' (by omega) hc hstep.ne_nil h2
      · have hpos : 0 < st.stack.length := List.length_pos_iff.2 hne
        exact runToks_keeps (I := Tall 2) (Q := NotEnd)
          (fun t ts st r st' hq hqs hi h => execTok_tall cx 2 _ t ts st r st' hq hqs hi h) r.length r s st' (Nat.le_refl _)
          (fun u hu => hpost u (hc.subset hu)) (by unfold Tall; omega) h2

end Stuart
