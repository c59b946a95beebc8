import Verif.Proof.Interp
import Verif.Spec.Opener
/-
What processing a single token can do to the stack and the sections.
-/
namespace Stuart

/-- The name of a frame opened by template code. -/
def Opened (nm : Str) : Prop := ∃ o : Spec.Opener, nm = o.scopeName

/-- The effect of one token on a non-empty stack. -/
inductive Step : St → St → Prop where
  | grow (f : Frame) (fs secs vs b) :
      Step ⟨f :: fs, secs⟩ ⟨{ f with vars := f.vars ++ vs, out := f.out ++ b } :: fs, secs⟩
  | push (nm fs secs) (ho : Opened nm) : Step ⟨fs, secs⟩ ⟨Frame.new nm :: fs, secs⟩
  | pop (f g : Frame) (gs secs ss) : Step ⟨f :: g :: gs, secs⟩ ⟨g.emit f.out :: gs, secs ++ ss⟩
  | block (f : Frame) (fs secs o ss) : Step ⟨f :: fs, secs⟩ ⟨f.emit o :: fs, secs ++ ss⟩

theorem Frame.emit_emit (f : Frame) (a b : Bytes) : (f.emit a).emit b = f.emit (a ++ b) := by
  simp [Frame.emit, List.append_assoc]

theorem Frame.emit_nil (f : Frame) : f.emit [] = f := by simp [Frame.emit]

theorem St.output_some {st st' : St} {b : Bytes} (h : st.output b = some st') :
    ∃ f fs, st.stack = f :: fs ∧ st' = ⟨f.emit b :: fs, st.sections⟩ := by
  unfold St.output at h
  split at h
  · simp at h
  · rename_i f fs he
    simp only [Option.some.injEq] at h
    exact ⟨f, fs, he, h.symm⟩

theorem Step.ofOutput {st st' : St} {b : Bytes} (h : st.output b = some st') : Step st st' := by
  obtain ⟨f, fs, he, rfl⟩ := St.output_some h
  obtain ⟨stk, secs⟩ := st
  simp only at he; subst he
  have := Step.grow f fs secs [] b
  simpa [Frame.emit] using this

theorem outputOrErr_step {b : Bytes} {st st' : St} (h : outputOrErr b st = .ok st') : Step st st' :=
  Step.ofOutput (Res.ofOption_eq_ok.1 h)

theorem execVar_step {v st st'} (h : execVar v st = .ok st') : Step st st' := by
  unfold execVar at h
  obtain ⟨o, h1, h2⟩ := Res.bind_eq_ok.1 h
  cases o with
  | none => simp at h2
  | some s => exact Step.ofOutput (Res.unwrap_eq_ok.1 h2)

theorem execEnd_ok {l c st st'} (h : execEnd l c st = .ok st') :
    ∃ f g gs, st.stack = f :: g :: gs ∧
      (if c then f.name = str!"begin:" ++ l else (l ++ [':']).isPrefixOf f.name = true) ∧
      st' = ⟨g.emit f.out :: gs, st.sections ++ if c then [(l, f.out)] else []⟩ := by
  unfold execEnd at h
  split at h
  · simp at h
  · rename_i f fs he
    split at h
    · rename_i hc
      split at h
      · rename_i hn
        obtain ⟨s1, h1, h2⟩ := Res.bind_eq_ok.1 h
        obtain ⟨g, gs, hg, rfl⟩ := St.output_some (Res.ofOption_eq_ok.1 h1)
        simp only at hg; subst hg
        simp only [Res.ok.injEq] at h2
        exact ⟨f, g, gs, he, by simpa [hc] using hn, by simp [hc, ← h2]⟩
      · simp at h
    · rename_i hc
      split at h
      · rename_i hn
        obtain ⟨g, gs, hg, rfl⟩ := St.output_some (Res.ofOption_eq_ok.1 h)
        simp only at hg; subst hg
        exact ⟨f, g, gs, he, by simpa [hc, startsWith] using hn, by simp [hc]⟩
      · simp at h

theorem execSimple_step {cx f st st'} (hne : st.stack ≠ []) (h : execSimple cx f st = .ok st') :
    Step st st' := by
  have hid : Step st st := by
    obtain ⟨stk, secs⟩ := st
    cases stk with
    | nil => simp at hne
    | cons f fs => simpa using Step.grow f fs secs [] []
  cases f with
  | begin_ l c =>
    simp only [execSimple, Res.ok.injEq, execBegin] at h
    subst h; exact Step.push _ _ _ ⟨.section_ l, rfl⟩
  | end_ l c =>
    simp only [execSimple] at h
    obtain ⟨f, g, gs, he, _, rfl⟩ := execEnd_ok h
    obtain ⟨stk, secs⟩ := st
    simp only at he; subst he
    exact Step.pop f g gs secs _
  | else_ =>
    simp only [execSimple, execElse] at h
    split at h
    · simp at h
    · split at h
      · simp only [Res.ok.injEq] at h; subst h; exact hid
      · simp at h
  | excerpt v n =>
    simp only [execSimple] at h
    obtain ⟨_, _, h2⟩ := Res.bind_eq_ok.1 h
    exact outputOrErr_step h2
  | for_ f => simp only [execSimple, Res.ok.injEq] at h; subst h; exact hid
  | ifdefined v => simp only [execSimple, Res.ok.injEq] at h; subst h; exact hid
  | import_ v file =>
    simp only [execSimple, execImport] at h
    split at h
    · simp at h
    · split at h
      · simp at h
      · split at h
        · split at h
          · simp at h
          · rename_i f fs he
            split at h
            · simp at h
            · simp only [Res.ok.injEq] at h; subst h
              obtain ⟨stk, secs⟩ := st
              simp only at he; subst he
              rename_i j _ _ _
              simpa [Frame.addVar] using Step.grow f fs secs [(v, j)] []
        · simp at h
  | insert l =>
    simp only [execSimple, execInsert] at h
    split at h
    · simp at h
    · rename_i f fs he
      split at h
      · simp at h
      · simp only [Res.ok.injEq] at h; subst h
        obtain ⟨stk, secs⟩ := st
        simp only at he; subst he
        rename_i e _
        simpa [Frame.emit] using Step.grow f fs secs [] e.2
  | timetoread v =>
    simp only [execSimple] at h
    obtain ⟨_, _, h2⟩ := Res.bind_eq_ok.1 h
    exact outputOrErr_step h2
  | dateformat v fmt =>
    simp only [execSimple] at h
    obtain ⟨_, _, h2⟩ := Res.bind_eq_ok.1 h
    obtain ⟨_, _, h3⟩ := Res.bind_eq_ok.1 h2
    exact outputOrErr_step h3
  | cmp op a b => simp only [execSimple, Res.ok.injEq] at h; subst h; exact hid
  | plugin p =>
    simp only [execSimple, execPlugin] at h
    split at h
    · simp at h
    · simp at h
    · split at h
      · simp at h
      · rename_i g gs he
        simp only [Res.ok.injEq] at h; subst h
        obtain ⟨stk, secs⟩ := st
        simp only at he; subst he
        exact Step.grow g gs secs _ _

/-- The state inside a block opened on top of `f :: fs`: some open frames above, `f` only grown by output. -/
def Above (f : Frame) (fs : List Frame) (secs : List (Str × Bytes)) (st : St) : Prop :=
  ∃ up o ss, st.stack = up ++ f.emit o :: fs ∧ st.sections = secs ++ ss

theorem Above.length {f fs secs st} (h : Above f fs secs st) : fs.length + 1 ≤ st.stack.length := by
  obtain ⟨up, o, ss, h1, _⟩ := h
  rw [h1]; simp

theorem Above.ne_nil {f fs secs st} (h : Above f fs secs st) : st.stack ≠ [] := by
  have := h.length
  intro hn; rw [hn] at this; simp at this

theorem Above.step {f fs secs st st'} (h : Above f fs secs st) (hl : ¬ st.stack.length ≤ fs.length + 1)
    (hs : Step st st') : Above f fs secs st' := by
  obtain ⟨up, o, ss, h1, h2⟩ := h
  have hup : up ≠ [] := by
    intro hn; subst hn; rw [h1] at hl; simp at hl
  obtain ⟨u, up, rfl⟩ := List.exists_cons_of_ne_nil hup
  cases hs with
  | grow g gs secs' vs b =>
    simp only [List.cons_append, List.cons.injEq] at h1
    obtain ⟨rfl, rfl⟩ := h1
    exact ⟨_ :: up, o, ss, rfl, h2⟩
  | push nm gs secs' _ =>
    simp only at h1; subst h1
    exact ⟨_ :: u :: up, o, ss, rfl, h2⟩
  | pop g g' gs secs' ss' =>
    simp only [List.cons_append, List.cons.injEq] at h1
    obtain ⟨rfl, h1⟩ := h1
    simp only at h2; subst h2
    cases up with
    | nil =>
      simp only [List.nil_append, List.cons.injEq] at h1
      obtain ⟨rfl, rfl⟩ := h1
      exact ⟨[], o ++ g.out, ss ++ ss', by simp [Frame.emit_emit], by simp⟩
    | cons u' up =>
      simp only [List.cons_append, List.cons.injEq] at h1
      obtain ⟨rfl, rfl⟩ := h1
      exact ⟨_ :: up, o, ss ++ ss', rfl, by simp⟩
  | block g gs secs' o' ss' =>
    simp only [List.cons_append, List.cons.injEq] at h1
    obtain ⟨rfl, rfl⟩ := h1
    simp only at h2; subst h2
    exact ⟨_ :: up, o, ss ++ ss', rfl, by simp⟩

theorem Above.closed {f fs secs st} (h : Above f fs secs st) (hl : st.stack.length ≤ fs.length + 1) :
    ∃ o ss, st = ⟨f.emit o :: fs, secs ++ ss⟩ := by
  obtain ⟨up, o, ss, h1, h2⟩ := h
  have hup : up = [] := by
    cases up with
    | nil => rfl
    | cons => rw [h1] at hl; simp at hl; omega
  subst hup
  obtain ⟨stk, secs'⟩ := st
  simp only [List.nil_append] at h1 h2
  exact ⟨o, ss, by rw [h1, h2]⟩

/-- A token processor only makes steps. -/
def Steps (ex : LTok → List LTok → St → R) : Prop :=
  ∀ t ts st r st', st.stack ≠ [] → ex t ts st = .ok (r, st') → Step st st'

theorem bodyLoop_above {ex} (hex : Steps ex) (eof f fs secs) :
    ∀ fuel rest st r st', Above f fs secs st →
      bodyLoop ex eof (fs.length + 1) fuel rest st = .ok (r, st') →
      ∃ o ss, st' = ⟨f.emit o :: fs, secs ++ ss⟩ := by
  intro fuel
  induction fuel with
  | zero =>
    intro rest st r st' ha he
    unfold bodyLoop at he
    split at he
    · rename_i hl
      simp only [Res.ok.injEq, Prod.mk.injEq] at he; rw [← he.2]; exact ha.closed hl
    · cases rest <;> simp at he
  | succ k ih =>
    intro rest st r st' ha he
    unfold bodyLoop at he
    split at he
    · rename_i hl
      simp only [Res.ok.injEq, Prod.mk.injEq] at he; rw [← he.2]; exact ha.closed hl
    · rename_i hl
      cases rest with
      | nil => simp at he
      | cons t ts =>
        simp only at he
        obtain ⟨⟨r1, s1⟩, h1, h2⟩ := Res.bind_eq_ok.1 he
        exact ih _ _ _ _ (ha.step hl (hex _ _ _ _ _ ha.ne_nil h1)) h2

theorem ifLoop_above {ex} (hex : Steps ex) (eof f fs secs) :
    ∀ fuel c rest st r st', Above f fs secs st →
      ifLoop ex eof (fs.length + 1) fuel c rest st = .ok (r, st') →
      ∃ o ss, st' = ⟨f.emit o :: fs, secs ++ ss⟩ := by
  intro fuel
  induction fuel with
  | zero =>
    intro c rest st r st' ha he
    unfold ifLoop at he
    split at he
    · rename_i hl
      simp only [Res.ok.injEq, Prod.mk.injEq] at he; rw [← he.2]; exact ha.closed hl
    · cases rest <;> simp at he
  | succ k ih =>
    intro c rest st r st' ha he
    unfold ifLoop at he
    split at he
    · rename_i hl
      simp only [Res.ok.injEq, Prod.mk.injEq] at he; rw [← he.2]; exact ha.closed hl
    · rename_i hl
      cases rest with
      | nil => simp at he
      | cons t ts =>
        simp only at he
        obtain ⟨nm, h0, h1⟩ := Res.bind_eq_ok.1 he
        split at h1
        · obtain ⟨⟨r1, s1⟩, h1, h2⟩ := Res.bind_eq_ok.1 h1
          exact ih _ _ _ _ _ (ha.step hl (hex _ _ _ _ _ ha.ne_nil h1)) h2
        · exact ih _ _ _ _ _ ha h1

theorem forIter_block {ex} (hex : Steps ex) (eof var wp) (f : Frame) (fs) :
    ∀ items rest secs o r st', forIter ex eof var wp items rest ⟨f.emit o :: fs, secs⟩ = .ok (r, st') →
      ∃ o' ss, st' = ⟨f.emit o' :: fs, secs ++ ss⟩ := by
  intro items
  induction items with
  | nil =>
    intro rest secs o r st' he
    simp only [forIter, Res.ok.injEq, Prod.mk.injEq] at he
    exact ⟨o, [], by simp [← he.2]⟩
  | cons v vs ih =>
    intro rest secs o r st' he
    simp only [forIter] at he
    obtain ⟨⟨r1, s1⟩, h1, h2⟩ := Res.bind_eq_ok.1 he
    obtain ⟨o1, ss1, rfl⟩ := bodyLoop_above hex eof f fs secs _ _ _ _ _
      ⟨[_], o, [], rfl, by simp⟩ h1
    obtain ⟨o2, ss2, rfl⟩ := ih _ _ _ _ _ h2
    exact ⟨o2, ss1 ++ ss2, by simp⟩

/-- A block token changes only the output of the frame it is in, and adds sections. -/
theorem execTok_block {cx n} (hex : Steps (execTok cx n)) {t ts st r st' fn}
    (ht : t.inner = .func fn) (hb : fn.isBlock = true)
    {f fs} (hst : st.stack = f :: fs) (h : execTok cx (n + 1) t ts st = .ok (r, st')) :
    ∃ o ss, st' = ⟨f.emit o :: fs, st.sections ++ ss⟩ := by
  obtain ⟨stk, secs⟩ := st
  simp only at hst; subst hst
  unfold execTok at h
  rw [ht] at h
  cases fn with
  | for_ g =>
    simp only at h
    obtain ⟨items, _, h2⟩ := Res.bind_eq_ok.1 h
    have := forIter_block hex _ _ _ f fs _ _ secs [] _ _ (by rw [Frame.emit_nil]; exact h2)
    exact this
  | ifdefined v =>
    simp only at h
    exact ifLoop_above hex _ f fs secs _ _ _ _ _ _ ⟨[Frame.new _], [], [], by simp only [Frame.emit_nil]; rfl, by simp⟩ h
  | cmp op a b =>
    simp only at h
    obtain ⟨_, _, h2⟩ := Res.bind_eq_ok.1 h
    obtain ⟨_, _, h3⟩ := Res.bind_eq_ok.1 h2
    exact ifLoop_above hex _ f fs secs _ _ _ _ _ _ ⟨[Frame.new _], [], [], by simp only [Frame.emit_nil]; rfl, by simp⟩ h3
  | _ => simp [Fn.isBlock] at hb

theorem execTok_steps (cx : Ctx) : ∀ n, Steps (execTok cx n) := by
  intro n
  induction n with
  | zero => intro t ts st r st' _ h; simp [execTok] at h
  | succ n ih =>
    intro t ts st r st' hne h
    have hblk : ∀ fn, t.inner = .func fn → fn.isBlock = true → Step st st' := by
      intro fn ht hb
      obtain ⟨f, fs, hst⟩ := List.exists_cons_of_ne_nil hne
      obtain ⟨o, ss, rfl⟩ := execTok_block ih ht hb hst h
      obtain ⟨stk, secs⟩ := st
      simp only at hst; subst hst
      exact Step.block _ _ _ _ _
    cases ht : t.inner with
    | raw s =>
      unfold execTok at h; rw [ht] at h
      obtain ⟨s1, h1, h2⟩ := Res.bind_eq_ok.1 h
      simp only [Res.ok.injEq, Prod.mk.injEq] at h2
      rw [← h2.2]; exact Step.ofOutput (Res.unwrap_eq_ok.1 h1)
    | var v =>
      unfold execTok at h; rw [ht] at h
      obtain ⟨s1, h1, h2⟩ := Res.bind_eq_ok.1 h
      simp only [Res.ok.injEq, Prod.mk.injEq] at h2
      rw [← h2.2]; exact execVar_step (Res.mapErr_eq_ok.1 h1)
    | func fn =>
      by_cases hb : fn.isBlock = true
      · exact hblk fn ht hb
      · have h' : ((execSimple cx fn st).mapErr t.tb).bind (fun st' => .ok (ts, st')) = .ok (r, st') := by
          unfold execTok at h; rw [ht] at h
          cases fn <;> first | exact h | simp [Fn.isBlock] at hb
        obtain ⟨s1, h1, h2⟩ := Res.bind_eq_ok.1 h'
        simp only [Res.ok.injEq, Prod.mk.injEq] at h2
        rw [← h2.2]; exact execSimple_step hne (Res.mapErr_eq_ok.1 h1)

theorem exec_steps (cx : Ctx) : Steps (exec cx) := fun _ _ _ _ _ hne h => execTok_steps cx _ _ _ _ _ _ hne h

theorem exec_block {cx t ts st r st' fn} (ht : t.inner = .func fn) (hb : fn.isBlock = true)
    {f fs} (hst : st.stack = f :: fs) (h : exec cx t ts st = .ok (r, st')) :
    ∃ o ss, st' = ⟨f.emit o :: fs, st.sections ++ ss⟩ :=
  execTok_block (execTok_steps cx _) ht hb hst h

/-- What every step keeps, a whole run keeps. -/
theorem runToks_inv {cx : Ctx} {I : St → Prop} (hI : ∀ s s', s.stack ≠ [] → I s → Step s s' → I s') :
    ∀ (k : Nat) toks st st', toks.length ≤ k → st.stack ≠ [] → I st → runToks cx toks st = .ok st' →
      st'.stack ≠ [] ∧ I st' := by
  intro k
  induction k with
  | zero =>
    intro toks st st' hk hne hi h
    have : toks = [] := by cases toks with | nil => rfl | cons => simp at hk
    subst this
    simp only [runToks_nil, Res.ok.injEq] at h; rw [← h]; exact ⟨hne, hi⟩
  | succ k ih =>
    intro toks st st' hk hne hi h
    cases toks with
    | nil => simp only [runToks_nil, Res.ok.injEq] at h; rw [← h]; exact ⟨hne, hi⟩
    | cons t ts =>
      rw [runToks_cons] at h
      simp only [List.length_cons] at hk
      obtain ⟨⟨r, s⟩, h1, h2⟩ := Res.bind_eq_ok.1 h
      have hs := (exec_forward cx _ _ _ _ _ h1).length_le
      have hstep := exec_steps cx _ _ _ _ _ hne h1
      have hne' : s.stack ≠ [] := by cases hstep <;> simp
      exact ih r s st' (by omega) hne' (hI _ _ hne hi hstep) h2

/-- All frames above the bottom one were opened by template code. -/
def OpenedAbove (st : St) : Prop := ∀ f ∈ st.stack.dropLast, Opened f.name

theorem OpenedAbove.step {s s' : St} (hne : s.stack ≠ []) (h : OpenedAbove s) (hs : Step s s') : OpenedAbove s' := by
  unfold OpenedAbove at *
  cases hs with
  | grow f fs secs vs b =>
    cases fs with
    | nil => simp
    | cons g gs =>
      simp only [List.dropLast_cons_cons, List.mem_cons, forall_eq_or_imp] at h ⊢
      exact h
  | push nm fs secs ho =>
    cases fs with
    | nil => simp
    | cons g gs =>
      rw [List.dropLast_cons_cons]
      intro f hf
      rcases List.mem_cons.1 hf with rfl | hf
      · exact ho
      · exact h f hf
  | pop f g gs secs ss =>
    cases gs with
    | nil => simp
    | cons g' gs =>
      simp only [List.dropLast_cons_cons, List.mem_cons, forall_eq_or_imp] at h ⊢
      exact h.2
  | block f fs secs o ss =>
    cases fs with
    | nil => simp
    | cons g gs =>
      simp only [List.dropLast_cons_cons, List.mem_cons, forall_eq_or_imp] at h ⊢
      exact h

theorem Opened.colon {nm : Str} (h : Opened nm) : ':' ∈ nm := by
  obtain ⟨o, rfl⟩ := h
  simp [Spec.Opener.scopeName]

theorem Opened.ne_base {nm : Str} (h : Opened nm) : nm ≠ str!"base" := by
  rintro rfl
  exact absurd h.colon (by decide)

theorem Step.ne_nil {st st'} (h : Step st st') : st'.stack ≠ [] := by cases h <;> simp

/-- The bottom frame keeps its name, and its variables are only extended. -/
theorem Step.bottom {st st' : St} (h : Step st st') (b : Frame) (hb : st.stack.getLast? = some b) :
    ∃ b' vs o, st'.stack.getLast? = some b' ∧ b' = { b with vars := b.vars ++ vs, out := b.out ++ o } := by
  cases h with
  | grow f fs secs vs o =>
    cases fs with
    | nil =>
      simp only [List.getLast?_singleton, Option.some.injEq] at hb; subst hb
      exact ⟨_, vs, o, rfl, rfl⟩
    | cons g gs =>
      simp only [List.getLast?_cons_cons] at hb ⊢
      exact ⟨b, [], [], hb, by simp⟩
  | push nm fs secs _ =>
    cases fs with
    | nil => simp at hb
    | cons g gs => simp only [List.getLast?_cons_cons]; exact ⟨b, [], [], hb, by simp⟩
  | pop f g gs secs ss =>
    cases gs with
    | nil =>
      simp only [List.getLast?_cons_cons, List.getLast?_singleton, Option.some.injEq] at hb; subst hb
      exact ⟨_, [], f.out, rfl, by simp [Frame.emit]⟩
    | cons g' gs =>
      simp only [List.getLast?_cons_cons] at hb ⊢
      exact ⟨b, [], [], hb, by simp⟩
  | block f fs secs o ss =>
    cases fs with
    | nil =>
      simp only [List.getLast?_singleton, Option.some.injEq] at hb; subst hb
      exact ⟨_, [], o, rfl, by simp [Frame.emit]⟩
    | cons g gs =>
      simp only [List.getLast?_cons_cons] at hb ⊢
      exact ⟨b, [], [], hb, by simp⟩

end Stuart
