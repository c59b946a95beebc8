import Verif.Spec.Mode
import Verif.Model.Fs
import Verif.Proof.Interp
/-
Rendering without looking at `env`.
-/
namespace Stuart
open Spec

/-- Results that are the same up to a relation of what they have. -/
inductive Res.Like {ε α : Type} (R : α → α → Prop) : Res ε α → Res ε α → Prop
  | ok {a b : α} : R a b → Like R (.ok a) (.ok b)
  | err (e : ε) : Like R (.err e) (.err e)
  | panic (p : Panic) : Like R (.panic p) (.panic p)

theorem Res.Like.bind {ε α β : Type} {R : α → α → Prop} {Q : β → β → Prop} {r r' : Res ε α} (h : Res.Like R r r')
    {k k' : α → Res ε β} (hk : ∀ a b, R a b → Res.Like Q (k a) (k' b)) : Res.Like Q (r.bind k) (r'.bind k') := by
  cases h with
  | ok h => exact hk _ _ h
  | err e => exact .err e
  | panic p => exact .panic p

theorem Res.Like.mapErr {ε ε' α : Type} {R : α → α → Prop} {r r' : Res ε α} (h : Res.Like R r r') (f : ε → ε') :
    Res.Like R (r.mapErr f) (r'.mapErr f) := by
  cases h with
  | ok h => exact .ok h
  | err e => exact .err _
  | panic p => exact .panic p

theorem Res.Like.rfl {ε α : Type} {R : α → α → Prop} (hR : ∀ a, R a a) (r : Res ε α) : Res.Like R r r := by
  cases r with
  | ok a => exact .ok (hR a)
  | err e => exact .err e
  | panic p => exact .panic p

theorem Res.Like.eq {ε α : Type} {r r' : Res ε α} (h : Res.Like (· = ·) r r') : r' = r := by
  cases h with
  | ok h => rw [h]
  | err e => rfl
  | panic p => rfl

theorem Res.Like.of_eq {ε α : Type} {r r' : Res ε α} (h : r' = r) : Res.Like (· = ·) r r' := by
  subst h
  exact Res.Like.rfl (fun _ => Eq.refl _) _

/-- The frame without its variables called `env`. -/
def Frame.blank (f : Frame) : Frame := { f with vars := others f.vars }

theorem find_others {n : Str} (hn : n ≠ str!"env") : ∀ l : List (Str × Value), (others l).find? (fun e => e.1 == n) = l.find? fun e => e.1 == n
  | [] => rfl
  | e :: l => by
    have ih := find_others hn l
    unfold others at ih ⊢
    by_cases h : e.1 = str!"env"
    · rw [List.filter_cons_of_neg (by simp [h]), ih, List.find?_cons_of_neg]
      rw [h]
      simpa using fun k => hn k.symm
    · rw [List.filter_cons_of_pos (by simpa using h), List.find?_cons, List.find?_cons, ih]

theorem getVar_blank (f : Frame) {n : Str} (hn : n ≠ str!"env") : f.blank.getVar n = f.getVar n := by
  unfold Frame.getVar Frame.blank
  simp only [find_others hn]

theorem lookupFrames_blank {n : Str} (hn : n ≠ str!"env") (idx : List Str) : ∀ l : List Frame,
    lookupFrames n idx (l.map Frame.blank) = lookupFrames n idx l
  | [] => rfl
  | f :: fs => by rw [List.map_cons, lookupFrames, lookupFrames, getVar_blank f hn, lookupFrames_blank hn idx fs]

theorem varSearch_blank {n : Str} (hn : n ≠ str!"env") (v : Str) (idx : List Str) : ∀ l : List Frame,
    varSearch v n idx (l.map Frame.blank) = varSearch v n idx l
  | [] => rfl
  | f :: fs => by rw [List.map_cons, varSearch, varSearch, getVar_blank f hn, varSearch_blank hn v idx fs]

/-- States that differ in values of `env` only. -/
structure Unseen (st st' : St) : Prop where
  stack : st'.stack.map Frame.blank = st.stack.map Frame.blank
  sections : st'.sections = st.sections

theorem Unseen.cases {st st' : St} (h : Unseen st st') :
    (st.stack = [] ∧ st'.stack = []) ∨ ∃ f fs f' fs', st.stack = f :: fs ∧ st'.stack = f' :: fs' ∧ f'.blank = f.blank ∧
      fs'.map Frame.blank = fs.map Frame.blank := by
  have hs := h.stack
  cases h1 : st.stack with
  | nil =>
    rw [h1] at hs
    exact .inl ⟨rfl, List.map_eq_nil_iff.1 hs⟩
  | cons f fs =>
    cases h2 : st'.stack with
    | nil => rw [h1, h2] at hs; cases hs
    | cons f' fs' =>
      rw [h1, h2, List.map_cons, List.map_cons] at hs
      exact .inr ⟨f, fs, f', fs', rfl, rfl, (List.cons.inj hs).1, (List.cons.inj hs).2⟩

theorem Unseen.height {st st' : St} (h : Unseen st st') : st'.stack.length = st.stack.length := by
  simpa using congrArg List.length h.stack

theorem Unseen.push {st st' : St} (h : Unseen st st') (f : Frame) : Unseen { st with stack := f :: st.stack } { st' with stack := f :: st'.stack } :=
  ⟨by simp [h.stack], h.sections⟩

theorem blank_name {f f' : Frame} (h : f'.blank = f.blank) : f'.name = f.name := congrArg (fun f => f.name) h
theorem blank_out {f f' : Frame} (h : f'.blank = f.blank) : f'.out = f.out := congrArg (fun f => f.out) h

theorem blank_emit {f f' : Frame} (h : f'.blank = f.blank) (b : Bytes) : (f'.emit b).blank = (f.emit b).blank := by
  obtain ⟨n, v, o⟩ := f
  obtain ⟨n', v', o'⟩ := f'
  simp only [Frame.blank, Frame.mk.injEq] at h
  simp only [Frame.emit, Frame.blank, h]

theorem blank_add {f f' : Frame} (h : f'.blank = f.blank) (vs : List (Str × Value)) (b : Bytes) :
    ({ f' with vars := f'.vars ++ vs, out := f'.out ++ b } : Frame).blank = ({ f with vars := f.vars ++ vs, out := f.out ++ b } : Frame).blank := by
  obtain ⟨n, v, o⟩ := f
  obtain ⟨n', v', o'⟩ := f'
  simp only [Frame.blank, Frame.mk.injEq] at h
  simp only [Frame.blank, others, h, List.filter_append] at *
  simp [h]

theorem Unseen.output {st st' : St} (h : Unseen st st') (b : Bytes) :
    (st.output b = none ∧ st'.output b = none) ∨ ∃ x x', st.output b = some x ∧ st'.output b = some x' ∧ Unseen x x' := by
  unfold St.output
  rcases h.cases with ⟨h1, h2⟩ | ⟨f, fs, f', fs', h1, h2, h3, h4⟩
  · rw [h1, h2]; exact .inl ⟨rfl, rfl⟩
  · rw [h1, h2]
    refine .inr ⟨_, _, rfl, rfl, ?_, h.sections⟩
    simp [blank_emit h3, h4]

theorem outputOrErr_unseen {st st' : St} (h : Unseen st st') (b : Bytes) : Res.Like Unseen (outputOrErr b st) (outputOrErr b st') := by
  unfold outputOrErr
  rcases h.output b with ⟨h1, h2⟩ | ⟨x, x', h1, h2, h3⟩
  · rw [h1, h2]; exact .err _
  · rw [h1, h2]; exact .ok h3

theorem unwrap_unseen {ε : Type} {st st' : St} (h : Unseen st st') (b : Bytes) (p : Panic) :
    Res.Like (ε := ε) Unseen (Res.unwrap p (st.output b)) (Res.unwrap p (st'.output b)) := by
  rcases h.output b with ⟨h1, h2⟩ | ⟨x, x', h1, h2, h3⟩
  · rw [h1, h2]; exact .panic _
  · rw [h1, h2]; exact .ok h3

/-! ### Tokens -/

/-- The variable is not `env`, nor in it. -/
def NotEnv (v : Str) : Prop := (splitVar v).1 ≠ str!"env"

/-- The input of a comparison is not. -/
def Input.NotEnv : Input → Prop
  | .var v => Stuart.NotEnv v
  | _ => True

/-- A function that does not look at `env`. -/
def Fn.NoEnv : Fn → Prop
  | .excerpt v _ => NotEnv v
  | .ifdefined v => NotEnv v
  | .timetoread v => NotEnv v
  | .dateformat v _ => NotEnv v
  | .cmp _ a b => a.NotEnv ∧ b.NotEnv
  | .for_ f => f.kind = .jsonObj → NotEnv f.source
  | .import_ v _ => NotEnv v
  | .plugin g => Blind g
  | _ => True

/-- A token that does not. -/
def Token.NoEnv : Token → Prop
  | .var v => NotEnv v
  | .func f => f.NoEnv
  | .raw _ => True

theorem lookupVar_unseen {v : Str} (hv : NotEnv v) {l l' : List Frame} (h : l'.map Frame.blank = l.map Frame.blank) : lookupVar v l' = lookupVar v l := by
  unfold lookupVar
  simp only
  rw [← lookupFrames_blank hv, h, lookupFrames_blank hv]

theorem execVar_unseen {v : Str} (hv : NotEnv v) {st st' : St} (h : Unseen st st') : Res.Like Unseen (execVar v st) (execVar v st') := by
  unfold execVar
  simp only
  have : varSearch v (splitVar v).1 (splitVar v).2 st'.stack = varSearch v (splitVar v).1 (splitVar v).2 st.stack := by
    rw [← varSearch_blank hv, h.stack, varSearch_blank hv]
  rw [this]
  refine Res.Like.bind (Res.Like.of_eq rfl) fun a b hab => ?_
  subst hab
  cases a with
  | none => exact .err _
  | some s => exact unwrap_unseen h _ _

theorem needString_unseen {v : Str} (hv : NotEnv v) {st st' : St} (h : Unseen st st') : needString v st' = needString v st := by
  unfold needString
  rw [lookupVar_unseen hv h.stack]

theorem needString_bind {v : Str} (hv : NotEnv v) {st st' : St} (h : Unseen st st') {k k' : Str → Res ProcErr St}
    (hk : ∀ s, Res.Like Unseen (k s) (k' s)) : Res.Like Unseen ((needString v st).bind k) ((needString v st').bind k') :=
  Res.Like.bind (Res.Like.of_eq (needString_unseen hv h)) fun a b hab => by subst hab; exact hk a

theorem eval_unseen {i : Input} (hi : i.NotEnv) {st st' : St} (h : Unseen st st') : i.eval st' = i.eval st := by
  cases i with
  | var v => simp only [Input.eval, lookupVar_unseen (show NotEnv v from hi) h.stack]
  | _ => rfl

theorem execSimple_unseen (cx : Ctx) {f : Fn} (hf : f.NoEnv) {st st' : St} (h : Unseen st st') :
    Res.Like Unseen (execSimple cx f st) (execSimple cx f st') := by
  cases f with
  | begin_ l c => exact .ok (h.push _)
  | end_ l c =>
    simp only [execSimple, execEnd]
    rcases h.cases with ⟨h1, h2⟩ | ⟨g, gs, g', gs', h1, h2, h3, h4⟩
    · rw [h1, h2]; exact .err _
    · rw [h1, h2]
      simp only [blank_name h3, blank_out h3]
      have hp : Unseen { st with stack := gs } { st' with stack := gs' } := ⟨h4, h.sections⟩
      split
      · split
        · exact Res.Like.bind (outputOrErr_unseen hp _) fun a b hab => .ok ⟨hab.stack, by simp only [hab.sections]⟩
        · exact .err _
      · split
        · exact outputOrErr_unseen hp _
        · exact .err _
  | else_ =>
    simp only [execSimple, execElse]
    rcases h.cases with ⟨h1, h2⟩ | ⟨g, gs, g', gs', h1, h2, h3, h4⟩
    · rw [h1, h2]; exact .err _
    · rw [h1, h2]
      simp only [blank_name h3]
      split
      · exact .ok h
      · exact .err _
  | excerpt v n => exact needString_bind hf h fun s => outputOrErr_unseen h _
  | timetoread v => exact needString_bind hf h fun s => outputOrErr_unseen h _
  | dateformat v fmt =>
    refine needString_bind hf h fun s => Res.Like.bind (Res.Like.of_eq rfl) fun a b hab => ?_
    subst hab
    exact outputOrErr_unseen h _
  | insert l =>
    simp only [execSimple, execInsert, h.sections]
    rcases h.cases with ⟨h1, h2⟩ | ⟨g, gs, g', gs', h1, h2, h3, h4⟩
    · rw [h1, h2]; exact .err _
    · rw [h1, h2]
      simp only
      split
      · exact .err _
      · exact .ok ⟨by simp [blank_emit h3, h4], rfl⟩
  | import_ v file =>
    simp only [execSimple, execImport]
    split
    · exact .err _
    · split
      · exact .err _
      · split
        · rcases h.cases with ⟨h1, h2⟩ | ⟨g, gs, g', gs', h1, h2, h3, h4⟩
          · rw [h1, h2]; exact .err _
          · rw [h1, h2]
            simp only
            have hv : v ≠ str!"env" := by
              intro hv
              subst hv
              exact hf rfl
            rw [← getVar_blank g' hv, h3, getVar_blank g hv]
            split
            · exact .err _
            · refine .ok ⟨?_, h.sections⟩
              have := blank_add h3 [(v, ‹Value›)] []
              simp only [List.append_nil] at this
              simp [Frame.addVar, this, h4]
        · exact .err _
  | plugin p =>
    simp only [execSimple, execPlugin]
    have hx : p.exec (st'.stack.map (·.vars)) = p.exec (st.stack.map (·.vars)) := by
      refine hf _ _ ?_
      have := congrArg (List.map fun f : Frame => f.vars) h.stack
      simpa [List.map_map, Function.comp_def, Frame.blank] using this
    rw [hx]
    split
    · exact .panic _
    · exact .err _
    · rcases h.cases with ⟨h1, h2⟩ | ⟨g, gs, g', gs', h1, h2, h3, h4⟩
      · rw [h1, h2]; exact .err _
      · rw [h1, h2]
        exact .ok ⟨by simp [blank_add h3, h4], h.sections⟩
  | for_ f => exact .ok h
  | ifdefined v => exact .ok h
  | cmp op a b => exact .ok h

/-- Tokens to read that do not look at `env`, and states alike. -/
def UnseenR (a b : List LTok × St) : Prop := b.1 = a.1 ∧ (∀ t ∈ a.1, t.inner.NoEnv) ∧ Unseen a.2 b.2

/-- Steps that keep states alike. -/
def KeepsUnseen (ex : LTok → List LTok → St → R) : Prop :=
  ∀ t ts st st', t.inner.NoEnv → (∀ x ∈ ts, x.inner.NoEnv) → Unseen st st' → Res.Like UnseenR (ex t ts st) (ex t ts st')

theorem bodyLoop_unseen {ex : LTok → List LTok → St → R} (hex : KeepsUnseen ex) (eof : PErr) (h : Nat) : ∀ (fuel : Nat) (rest : List LTok) (st st' : St),
    (∀ t ∈ rest, t.inner.NoEnv) → Unseen st st' → Res.Like UnseenR (bodyLoop ex eof h fuel rest st) (bodyLoop ex eof h fuel rest st')
  | fuel, rest, st, st', hr, ha => by
    rw [bodyLoop.eq_def, bodyLoop.eq_def]
    simp only [ha.height]
    by_cases hh : st.stack.length ≤ h
    · simp only [if_pos hh]; exact .ok ⟨rfl, hr, ha⟩
    · simp only [if_neg hh]
      cases rest with
      | nil => exact .err _
      | cons t ts =>
        cases fuel with
        | zero => exact .panic _
        | succ k =>
          refine Res.Like.bind (hex t ts st st' (hr t (.head _)) (fun x hx => hr x (.tail _ hx)) ha) fun a b hab => ?_
          obtain ⟨h1, h2, h3⟩ := hab
          rw [h1]
          exact bodyLoop_unseen hex eof h k a.1 a.2 b.2 h2 h3

theorem ifLoop_unseen {ex : LTok → List LTok → St → R} (hex : KeepsUnseen ex) (eof : PErr) (h : Nat) : ∀ (fuel : Nat) (cond : Bool) (rest : List LTok) (st st' : St),
    (∀ t ∈ rest, t.inner.NoEnv) → Unseen st st' → Res.Like UnseenR (ifLoop ex eof h fuel cond rest st) (ifLoop ex eof h fuel cond rest st')
  | fuel, cond, rest, st, st', hr, ha => by
    rw [ifLoop.eq_def, ifLoop.eq_def]
    simp only [ha.height]
    by_cases hh : st.stack.length ≤ h
    · simp only [if_pos hh]; exact .ok ⟨rfl, hr, ha⟩
    · simp only [if_neg hh]
      cases rest with
      | nil => exact .err _
      | cons t ts =>
        cases fuel with
        | zero => exact .panic _
        | succ k =>
          refine Res.Like.bind (Res.Like.of_eq rfl) fun name name' hn => ?_
          subst hn
          split
          · refine Res.Like.bind (hex t ts st st' (hr t (.head _)) (fun x hx => hr x (.tail _ hx)) ha) fun a b hab => ?_
            obtain ⟨h1, h2, h3⟩ := hab
            rw [h1]
            exact ifLoop_unseen hex eof h k _ a.1 a.2 b.2 h2 h3
          · exact ifLoop_unseen hex eof h k cond ts st st' (fun x hx => hr x (.tail _ hx)) ha

theorem forIter_unseen {ex : LTok → List LTok → St → R} (hex : KeepsUnseen ex) (eof : PErr) (var : Str) (wp : List LTok) (hw : ∀ t ∈ wp, t.inner.NoEnv) :
    ∀ (vs : List Value) (rest : List LTok) (st st' : St), (∀ t ∈ rest, t.inner.NoEnv) → Unseen st st' →
      Res.Like UnseenR (forIter ex eof var wp vs rest st) (forIter ex eof var wp vs rest st')
  | [], rest, st, st', hr, ha => .ok ⟨rfl, hr, ha⟩
  | v :: vs, rest, st, st', hr, ha => by
    rw [forIter, forIter, ha.height]
    refine Res.Like.bind (bodyLoop_unseen hex eof _ _ wp _ _ hw (ha.push _)) fun a b hab => ?_
    obtain ⟨h1, h2, h3⟩ := hab
    obtain ⟨a1, a2⟩ := a
    obtain ⟨b1, b2⟩ := b
    cases h1
    exact forIter_unseen hex eof var wp hw vs _ a2 b2 h2 h3

theorem enterIf_unseen {ex : LTok → List LTok → St → R} (hex : KeepsUnseen ex) (eof : PErr) (name : Str) (cond : Bool) (rest : List LTok) (st st' : St)
    (hr : ∀ t ∈ rest, t.inner.NoEnv) (ha : Unseen st st') :
    Res.Like UnseenR (enterIf ex eof name cond rest st) (enterIf ex eof name cond rest st') := by
  unfold enterIf
  rw [ha.height]
  exact ifLoop_unseen hex eof _ _ cond rest _ _ hr (ha.push _)

theorem forItems_unseen (cx : Ctx) (f : ForFn) (hf : f.kind = .jsonObj → NotEnv f.source) {l l' : List Frame}
    (h : l'.map Frame.blank = l.map Frame.blank) : forItems cx f l' = forItems cx f l := by
  unfold forItems
  cases hk : f.kind with
  | jsonObj => simp only [lookupVar_unseen (hf hk) h]
  | _ => rfl

theorem execTok_unseen (cx : Ctx) : ∀ n : Nat, KeepsUnseen (execTok cx n)
  | 0 => fun _ _ _ _ _ _ _ => .panic _
  | n + 1 => by
    intro t rest st st' ht hr ha
    have hex := execTok_unseen cx n
    have hdone : ∀ {r r' : Res PErr St}, Res.Like Unseen r r' →
        Res.Like UnseenR (r.bind fun s => .ok (rest, s)) (r'.bind fun s => .ok (rest, s)) :=
      fun h => Res.Like.bind h fun a b hab => .ok ⟨rfl, hr, hab⟩
    rw [execTok, execTok]
    cases hi : t.inner with
    | raw s => exact hdone (unwrap_unseen ha _ _)
    | var v => exact hdone ((execVar_unseen (by rw [hi] at ht; exact ht) ha).mapErr _)
    | func f =>
      rw [hi] at ht
      have ht : f.NoEnv := ht
      cases f with
      | for_ f =>
        simp only
        rw [forItems_unseen cx f ht ha.stack]
        refine Res.Like.bind (Res.Like.of_eq rfl) fun items items' hit => ?_
        subst hit
        exact forIter_unseen hex _ _ rest hr _ rest st st' hr ha
      | ifdefined v =>
        simp only
        rw [lookupVar_unseen (show NotEnv v from ht) ha.stack]
        exact enterIf_unseen hex _ _ _ rest st st' hr ha
      | cmp op a b =>
        simp only
        rw [eval_unseen ht.1 ha, eval_unseen ht.2 ha]
        refine Res.Like.bind (Res.Like.of_eq rfl) fun x x' hx => ?_
        subst hx
        refine Res.Like.bind (Res.Like.of_eq rfl) fun y y' hy => ?_
        subst hy
        exact enterIf_unseen hex _ _ _ rest st st' hr ha
      | _ => exact hdone ((execSimple_unseen cx ht ha).mapErr _)

theorem runGo_unseen (cx : Ctx) : ∀ (k : Nat) (toks : List LTok) (st st' : St), (∀ t ∈ toks, t.inner.NoEnv) → Unseen st st' →
    Res.Like Unseen (runGo cx k toks st) (runGo cx k toks st')
  | _, [], st, st', _, ha => by rw [runGo.eq_1, runGo.eq_1]; exact .ok ha
  | 0, _ :: _, _, _, _, _ => .panic _
  | k + 1, t :: ts, st, st', ht, ha => by
    rw [runGo, runGo]
    refine Res.Like.bind (execTok_unseen cx _ t ts st st' (ht t (.head _)) (fun x hx => ht x (.tail _ hx)) ha) fun a b hab => ?_
    obtain ⟨h1, h2, h3⟩ := hab
    obtain ⟨a1, a2⟩ := a
    obtain ⟨b1, b2⟩ := b
    cases h1
    exact runGo_unseen cx k _ a2 b2 h2 h3

theorem runToks_unseen (cx : Ctx) {toks : List LTok} (ht : ∀ t ∈ toks, t.inner.NoEnv) {st st' : St} (ha : Unseen st st') :
    Res.Like Unseen (runToks cx toks st) (runToks cx toks st') := runGo_unseen cx _ toks st st' ht ha

/-! ### Pages -/

theorem renderOn_unseen (cx : Ctx) {first first' base base' : Frame} (hf : first'.blank = first.blank) (hb : base'.blank = base.blank) (src : Str)
    {toks root : List LTok} (ht : ∀ t ∈ toks, t.inner.NoEnv) (hr : ∀ t ∈ root, t.inner.NoEnv) :
    renderOn cx first' base' src toks root = renderOn cx first base src toks root := by
  refine Res.Like.eq ?_
  unfold renderOn
  refine Res.Like.bind (runToks_unseen cx ht (st := ⟨[first], []⟩) (st' := ⟨[first'], []⟩) ⟨by simp [hf], rfl⟩) fun st st' ha => ?_
  rcases ha.cases with ⟨h1, h2⟩ | ⟨f, fs, f', fs', h1, h2, h3, h4⟩
  · rw [h1, h2]; exact .err _
  · rw [h1, h2]
    simp only [blank_name h3]
    split
    · refine Res.Like.bind (runToks_unseen cx hr (st := ⟨base :: fs, st.sections⟩) (st' := ⟨base' :: fs', st'.sections⟩) ⟨by simp [hb, h4], ha.sections⟩) fun x x' hx => ?_
      rcases hx.cases with ⟨k1, k2⟩ | ⟨g, gs, g', gs', k1, k2, k3, k4⟩
      · rw [k1, k2]; exact .panic _
      · rw [k1, k2]
        simp only [blank_out k3]
        exact .ok rfl
    · exact .err _

/-- Contents that do not look at `env`. -/
def Parsed.NoEnv : Parsed → Prop
  | .html toks => ∀ t ∈ toks, t.inner.NoEnv
  | .markdown md => ∀ t ∈ md.markdown, t.inner.NoEnv
  | _ => True

mutual
/-- The same for trees. -/
def Node.NoEnv : Node → Prop
  | .file _ _ p _ _ => p.NoEnv
  | .dir _ cs _ => NodesNoEnv cs
def NodesNoEnv : List Node → Prop
  | [] => True
  | n :: ns => n.NoEnv ∧ NodesNoEnv ns
end

/-- Templates that do not. -/
def Env.NoEnv (e : Env) : Prop := (∀ l, e.root = some l → ∀ t ∈ l, t.inner.NoEnv) ∧ ∀ l, e.md = some l → ∀ t ∈ l, t.inner.NoEnv

theorem templateToks_noEnv {p : Parsed} (hp : p.NoEnv) (l : List LTok) (h : templateToks p = some l) : ∀ t ∈ l, t.inner.NoEnv := by
  cases p with
  | html toks => cases h; exact hp
  | _ => cases h

theorem node_noEnv_parsed {n : Node} (h : n.NoEnv) : n.parsed.NoEnv := by
  cases n with
  | file name b p m s => exact h
  | dir name cs s => trivial

theorem updateEnv_noEnv : ∀ (cs : List Node) (env : Env), env.NoEnv → NodesNoEnv cs → (updateEnv env cs).NoEnv
  | [], env, h, _ => h
  | c :: cs, env, h, hc => by
    rw [updateEnv]
    refine updateEnv_noEnv cs _ ?_ hc.2
    split
    · exact ⟨templateToks_noEnv (node_noEnv_parsed hc.1), h.2⟩
    · split
      · exact ⟨h.1, templateToks_noEnv (node_noEnv_parsed hc.1)⟩
      · exact h

theorem blank_self {base base' : Frame} (h : base'.blank = base.blank) (v : Value) :
    (base'.addVar str!"self" v).blank = (base.addVar str!"self" v).blank := by
  have := blank_add h [(str!"self", v)] []
  simpa [Frame.addVar] using this

theorem processFile_unseen {b b' : Builder} (h1 : b'.cx = b.cx) (h2 : b'.base.blank = b.base.blank) (h3 : b'.cfg = b.cfg) {env : Env} (he : env.NoEnv)
    (name : Str) (contents : Bytes) {p : Parsed} (hp : p.NoEnv) (src : Str) :
    processFile b' env name contents p src = processFile b env name contents p src := by
  have : processParsed b' env name src p = processParsed b env name src p := by
    unfold processParsed
    split
    · cases p with
      | html toks =>
        simp only
        congr 1
        unfold processHtml
        cases hr : env.root with
        | none => rfl
        | some root =>
          simp only
          rw [h1, renderOn_unseen b.cx h2 h2 src hp (he.1 root hr)]
      | markdown md =>
        simp only
        congr 1
        unfold processMd
        cases hr : env.root with
        | none => rfl
        | some root =>
          simp only
          cases hm : env.md with
          | none => rfl
          | some mdToks =>
            simp only
            congr 1
            funext v
            rw [h1, renderOn_unseen b.cx (blank_self h2 v) h2 src (he.2 mdToks hm) (he.1 root hr)]
      | _ => rfl
    · rfl
  unfold processFile
  rw [this, h3]

mutual
theorem buildNode_unseen {b b' : Builder} (h1 : b'.cx = b.cx) (h2 : b'.base.blank = b.base.blank) (h3 : b'.cfg = b.cfg) :
    ∀ (n : Node) (env : Env), n.NoEnv → env.NoEnv → buildNode b' env n = buildNode b env n
  | .file name c p m src, env, hn, he => by rw [buildNode, buildNode]; exact processFile_unseen h1 h2 h3 he name c hn src
  | .dir name cs src, env, hn, he => by
    rw [buildNode, buildNode, buildNodes_unseen h1 h2 h3 cs _ hn (updateEnv_noEnv cs env he hn)]
theorem buildNodes_unseen {b b' : Builder} (h1 : b'.cx = b.cx) (h2 : b'.base.blank = b.base.blank) (h3 : b'.cfg = b.cfg) :
    ∀ (cs : List Node) (env : Env), NodesNoEnv cs → env.NoEnv → buildNodes b' env cs = buildNodes b env cs
  | [], env, _, _ => by rw [buildNodes, buildNodes]
  | c :: cs, env, hn, he => by
    rw [buildNodes, buildNodes, buildNode_unseen h1 h2 h3 c env hn.1 he, buildNodes_unseen h1 h2 h3 cs env hn.2 he]
end

theorem preprocessMd_unseen (ext : Ext) (cx : Ctx) {base base' : Frame} (h : base'.blank = base.blank) (src : Str) {md : ParsedMd}
    (hm : ∀ t ∈ md.markdown, t.inner.NoEnv) : preprocessMd ext cx base' src md = preprocessMd ext cx base src md := by
  refine Res.Like.eq ?_
  unfold preprocessMd
  refine Res.Like.bind (runToks_unseen cx hm (st := ⟨[base], []⟩) (st' := ⟨[base'], []⟩) ⟨by simp [h], rfl⟩) fun st st' ha => ?_
  rcases ha.cases with ⟨h1, h2⟩ | ⟨f, fs, f', fs', h1, h2, h3, h4⟩
  · rw [h1, h2]; exact .err _
  · rw [h1, h2]
    simp only [blank_name h3, blank_out h3]
    exact Res.Like.of_eq rfl

mutual
theorem preNode_unseen (ext : Ext) (cx : Ctx) {base base' : Frame} (h : base'.blank = base.blank) :
    ∀ n : Node, n.NoEnv → preNode ext cx base' n = preNode ext cx base n
  | .file name c p m src, hn => by
    cases p with
    | markdown md => rw [preNode, preNode, preprocessMd_unseen ext cx h src hn]
    | _ => rw [preNode, preNode] <;> nofun
  | .dir name cs src, hn => by rw [preNode, preNode, preNodes_unseen ext cx h cs hn]
theorem preNodes_unseen (ext : Ext) (cx : Ctx) {base base' : Frame} (h : base'.blank = base.blank) :
    ∀ cs : List Node, NodesNoEnv cs → preNodes ext cx base' cs = preNodes ext cx base cs
  | [], _ => by rw [preNodes, preNodes]
  | c :: cs, hn => by rw [preNodes, preNodes, preNode_unseen ext cx h c hn.1, preNodes_unseen ext cx h cs hn.2]
end

mutual
theorem preNode_noEnv {ext : Ext} {cx : Ctx} {base : Frame} : ∀ (n n' : Node), n.NoEnv → preNode ext cx base n = .ok n' → n'.NoEnv
  | .file name c p m src, n', hn, h => by
    cases p with
    | markdown md =>
      rw [preNode] at h
      obtain ⟨md', h1, h2⟩ := Res.bind_eq_ok.1 h
      cases h2
      have : md'.markdown = md.markdown := by
        unfold preprocessMd at h1
        cases hr : runToks cx md.markdown ⟨[base], []⟩ with
        | err e => rw [hr] at h1; cases h1
        | panic e => rw [hr] at h1; cases h1
        | ok st =>
          rw [hr, Res.bind_ok] at h1
          split at h1
          · cases h1
          · split at h1
            · split at h1
              · cases h1
              · cases h1; rfl
            · cases h1
      show ∀ t ∈ md'.markdown, t.inner.NoEnv
      rw [this]
      exact hn
    | _ => rw [preNode] at h <;> first | (cases h; exact hn) | nofun
  | .dir name cs src, n', hn, h => by
    rw [preNode] at h
    obtain ⟨os, h1, h2⟩ := Res.bind_eq_ok.1 h
    cases h2
    exact preNodes_noEnv cs os hn h1
theorem preNodes_noEnv {ext : Ext} {cx : Ctx} {base : Frame} : ∀ (cs os : List Node), NodesNoEnv cs → preNodes ext cx base cs = .ok os → NodesNoEnv os
  | [], os, _, h => by rw [preNodes] at h; cases h; trivial
  | c :: cs, os, hn, h => by
    rw [preNodes] at h
    obtain ⟨c', h1, h2⟩ := Res.bind_eq_ok.1 h
    obtain ⟨os', h3, h4⟩ := Res.bind_eq_ok.1 h2
    cases h4
    exact ⟨preNode_noEnv c c' hn.1 h1, preNodes_noEnv cs os' hn.2 h3⟩
end

theorem baseFrame_blank (vars vars' : List (Str × Str)) (mode mode' : Str) : (baseFrame vars' mode').blank = (baseFrame vars mode).blank := rfl

end Stuart
