import Verif.Spec.Rename
import Verif.Proof.Scope
/-
Lemmas: rendering does not depend on the names of variables.
-/
namespace Stuart
open Spec

/-! ### What is found in the content -/

/-- What a path of the content shows to loops and imports. -/
inductive Seen where
  | nothing
  | dir (items : Res ProcErr (List Value))
  | data (v : Value)
  | text

/-- What something found shows. -/
def seen : Option Node → Seen
  | none => .nothing
  | some (.dir _ cs _) => .dir (mdValues cs)
  | some (.file _ _ (.json v) _ _) => .data v
  | some (.file _ _ _ _ _) => .text

/-- Contents that show the same. -/
structure CtxLike (cx cx' : Ctx) : Prop where
  dates : cx.dateFmt = cx'.dateFmt
  shows : ∀ path, seen (cx.input.getAtPath path) = seen (cx'.input.getAtPath path)

/-! ### Results -/

/-- Results that agree: values so related, errors so related, the same panics. -/
inductive ResLike {ε ε' α β : Type} (E : ε → ε' → Prop) (Q : α → β → Prop) : Res ε α → Res ε' β → Prop
  | ok {a : α} {b : β} : Q a b → ResLike E Q (.ok a) (.ok b)
  | err {e : ε} {e' : ε'} : E e e' → ResLike E Q (.err e) (.err e')
  | panic (p : Panic) : ResLike E Q (.panic p) (.panic p)

section
variable {ε ε' α α' β β' : Type} {E : ε → ε' → Prop} {P : α → α' → Prop} {Q : β → β' → Prop}

theorem ResLike.bind {r : Res ε α} {r' : Res ε' α'} {k : α → Res ε β} {k' : α' → Res ε' β'} (h : ResLike E P r r')
    (hk : ∀ a a', P a a' → ResLike E Q (k a) (k' a')) : ResLike E Q (r.bind k) (r'.bind k') := by
  cases h with
  | ok h => exact hk _ _ h
  | err h => exact .err h
  | panic p => exact .panic p

theorem ResLike.mapErr {δ δ' : Type} {D : δ → δ' → Prop} {f : ε → δ} {f' : ε' → δ'} (hf : ∀ e e', E e e' → D (f e) (f' e')) {r : Res ε α}
    {r' : Res ε' α'} (h : ResLike E P r r') : ResLike D P (r.mapErr f) (r'.mapErr f') := by
  cases h with
  | ok h => exact .ok h
  | err h => exact .err (hf _ _ h)
  | panic p => exact .panic p

theorem ResLike.ofOption {e : ε} {e' : ε'} (he : E e e') {o : Option α} {o' : Option α'} (h : (o = none ∧ o' = none) ∨ ∃ a a', o = some a ∧ o' = some a' ∧ P a a') :
    ResLike E P (Res.ofOption e o) (Res.ofOption e' o') := by
  rcases h with ⟨rfl, rfl⟩ | ⟨a, a', rfl, rfl, h⟩
  · exact .err he
  · exact .ok h

theorem ResLike.unwrap {p : Panic} {o : Option α} {o' : Option α'} (h : (o = none ∧ o' = none) ∨ ∃ a a', o = some a ∧ o' = some a' ∧ P a a') :
    ResLike E P (Res.unwrap p o) (Res.unwrap p o') := by
  rcases h with ⟨rfl, rfl⟩ | ⟨a, a', rfl, rfl, h⟩
  · exact .panic p
  · exact .ok h
end

/-! ### Variables -/

theorem sep_inj {c : Char} : ∀ {a a' k k' : Str}, c ∉ a → c ∉ a' → (a ++ c :: k = a' ++ c :: k' ↔ a = a' ∧ k = k')
  | [], [], k, k', _, _ => by simp
  | [], x :: a', k, k', _, h => by
    simp only [List.mem_cons, not_or] at h
    constructor
    · intro e; simp at e; exact absurd e.1 h.1
    · rintro ⟨e, _⟩; cases e
  | x :: a, [], k, k', h, _ => by
    simp only [List.mem_cons, not_or] at h
    constructor
    · intro e; simp at e; exact absurd e.1.symm h.1
    · rintro ⟨e, _⟩; cases e
  | x :: a, y :: a', k, k', h, h' => by
    simp only [List.mem_cons, not_or] at h h'
    have := sep_inj (k := k) (k' := k') h.2 h'.2
    simp only [List.cons_append, List.cons.injEq, this, and_assoc]

section
variable {N : Str → Str → Prop} (hR : Renames N)
include hR

theorem Spec.VarLike.one {a b a' b' : Str} (h : VarLike N a b) (h' : VarLike N a' b') : a = a' ↔ b = b' := by
  have dot : ∀ (x k : Str), '.' ∈ x ++ '.' :: k := fun x k => by simp
  cases h with
  | name h =>
    cases h' with
    | name h' => exact hR.one _ _ _ _ h h'
    | path h' =>
      constructor
      · rintro rfl; exact absurd (dot _ _) (hR.plain _ _ h).1
      · rintro rfl; exact absurd (dot _ _) (hR.plain _ _ h).2
  | path h =>
    cases h' with
    | name h' =>
      constructor
      · rintro rfl; exact absurd (dot _ _) (hR.plain _ _ h').1
      · rintro rfl; exact absurd (dot _ _) (hR.plain _ _ h').2
    | path h' =>
      rw [sep_inj (hR.plain _ _ h).1 (hR.plain _ _ h').1, sep_inj (hR.plain _ _ h).2 (hR.plain _ _ h').2, hR.one _ _ _ _ h h']

theorem Spec.VarLike.split {a b : Str} (h : VarLike N a b) : ∃ n n' is, splitVar a = (n, is) ∧ splitVar b = (n', is) ∧ VarLike N n n' ∧
    (splitOn '.' a).drop 1 = is ∧ (splitOn '.' b).drop 1 = is := by
  cases h with
  | name h =>
    refine ⟨a, b, [], ?_, ?_, .name h, ?_, ?_⟩ <;>
      simp [splitVar, splitOn_nodot _ _ (hR.plain _ _ h).1, splitOn_nodot _ _ (hR.plain _ _ h).2]
  | @path a b k h =>
    refine ⟨a, b, splitOn '.' k, ?_, ?_, .name h, ?_, ?_⟩ <;>
      simp [splitVar, splitOn_cons_sep _ _ _ (hR.plain _ _ h).1, splitOn_cons_sep _ _ _ (hR.plain _ _ h).2]
end

/-! ### Scopes -/

/-- What the frames of loops and conditionals are called after. -/
def openers : List Str := [str!"for", str!"ifdefined", str!"ifeq", str!"ifne", str!"ifgt", str!"ifge", str!"iflt", str!"ifle"]

/-- Names of frames: the same, or of the same function with other variables. -/
inductive NameLike : Str → Str → Prop
  | same (n : Str) : NameLike n n
  | opened {k : Str} (a b : Str) : k ∈ openers → NameLike (k ++ ':' :: a) (k ++ ':' :: b)

theorem opener_plain {k : Str} (h : k ∈ openers) : ':' ∉ k := by
  revert k
  unfold openers
  decide

theorem NameLike.custom {n n' : Str} (h : NameLike n n') (label : Str) : (n == str!"begin:" ++ label) = (n' == str!"begin:" ++ label) := by
  cases h with
  | same => rfl
  | @opened k a b h =>
    have : ∀ x, (k ++ ':' :: x == str!"begin:" ++ label) = false := by
      intro x
      rw [beq_eq_false_iff_ne]
      intro e
      have e : k ++ ':' :: x = str!"begin" ++ ':' :: label := e
      rw [sep_inj (opener_plain h) (by decide)] at e
      rw [e.1] at h
      exact absurd h (by decide)
    rw [this, this]

theorem startsWith_sep {l k a : Str} (hl : ':' ∉ l) (hk : ':' ∉ k) : startsWith (l ++ [':']) (k ++ ':' :: a) = (l == k) := by
  rw [Bool.eq_iff_iff, beq_iff_eq]
  unfold startsWith
  rw [List.isPrefixOf_iff_prefix]
  constructor
  · rintro ⟨r, h⟩
    have h : l ++ ':' :: r = k ++ ':' :: a := by simpa using h
    exact ((sep_inj hl hk).1 h).1
  · rintro rfl
    exact ⟨a, by simp⟩

theorem NameLike.starts {n n' : Str} (h : NameLike n n') {label : Str} (hl : ':' ∉ label) :
    startsWith (label ++ [':']) n = startsWith (label ++ [':']) n' := by
  cases h with
  | same => rfl
  | opened a b h => rw [startsWith_sep hl (opener_plain h), startsWith_sep hl (opener_plain h)]

theorem NameLike.isIf {n n' : Str} (h : NameLike n n') : startsWith str!"if" n = startsWith str!"if" n' := by
  cases h with
  | same => rfl
  | opened a b h =>
    simp only [openers, List.mem_cons, List.not_mem_nil, or_false] at h
    rcases h with rfl | rfl | rfl | rfl | rfl | rfl | rfl | rfl <;> rfl

theorem NameLike.base {n n' : Str} (h : NameLike n n') : (n == str!"base") = (n' == str!"base") := by
  cases h with
  | same => rfl
  | @opened k a b h =>
    have : ∀ x, (k ++ ':' :: x == str!"base") = false := by
      intro x
      rw [beq_eq_false_iff_ne]
      intro e
      have : ':' ∈ str!"base" := by rw [← e]; simp
      exact absurd this (by decide)
    rw [this, this]

/-- Variables with their values. -/
inductive VarsLike (N : Str → Str → Prop) : List (Str × Value) → List (Str × Value) → Prop
  | nil : VarsLike N [] []
  | cons {a b : Str} {v : Value} {l l' : List (Str × Value)} : VarLike N a b → VarsLike N l l' → VarsLike N ((a, v) :: l) ((b, v) :: l')

structure FrameLike (N : Str → Str → Prop) (f f' : Frame) : Prop where
  name : NameLike f.name f'.name
  vars : VarsLike N f.vars f'.vars
  out : f.out = f'.out

inductive StackLike (N : Str → Str → Prop) : List Frame → List Frame → Prop
  | nil : StackLike N [] []
  | cons {f f' : Frame} {fs fs' : List Frame} : FrameLike N f f' → StackLike N fs fs' → StackLike N (f :: fs) (f' :: fs')

structure StLike (N : Str → Str → Prop) (st st' : St) : Prop where
  stack : StackLike N st.stack st'.stack
  sections : st.sections = st'.sections

section
variable {N : Str → Str → Prop}

theorem StackLike.length {l l' : List Frame} (h : StackLike N l l') : l.length = l'.length := by
  induction h with
  | nil => rfl
  | cons _ _ ih => simp [ih]

theorem VarsLike.append {l l' m m' : List (Str × Value)} (h : VarsLike N l l') (h' : VarsLike N m m') : VarsLike N (l ++ m) (l' ++ m') := by
  induction h with
  | nil => exact h'
  | cons h _ ih => exact .cons h ih

theorem FrameLike.emit {f f' : Frame} (h : FrameLike N f f') (b : Bytes) : FrameLike N (f.emit b) (f'.emit b) :=
  ⟨h.name, h.vars, by simp [Frame.emit, h.out]⟩

theorem FrameLike.addVar {f f' : Frame} (h : FrameLike N f f') {a b : Str} (hv : VarLike N a b) (v : Value) : FrameLike N (f.addVar a v) (f'.addVar b v) :=
  ⟨h.name, h.vars.append (.cons hv .nil), h.out⟩

theorem output_like {st st' : St} (h : StLike N st st') (b : Bytes) :
    (st.output b = none ∧ st'.output b = none) ∨ ∃ a a', st.output b = some a ∧ st'.output b = some a' ∧ StLike N a a' := by
  obtain ⟨stk, secs⟩ := st
  obtain ⟨stk', secs'⟩ := st'
  obtain ⟨h1, h2⟩ := h
  cases h1 with
  | nil => exact .inl ⟨rfl, rfl⟩
  | cons hf hs => exact .inr ⟨_, _, rfl, rfl, .cons (hf.emit b) hs, h2⟩

variable (hR : Renames N)
include hR

theorem getVar_like {f f' : Frame} (h : FrameLike N f f') {a b : Str} (hv : VarLike N a b) : f.getVar a = f'.getVar b := by
  unfold Frame.getVar
  have := h.vars
  generalize f.vars = l at this
  generalize f'.vars = l' at this
  induction this with
  | nil => rfl
  | @cons x y v l l' hx _ ih =>
    have hiff := hx.one hR hv
    by_cases hxa : x = a
    · have hyb := hiff.1 hxa
      subst hxa
      subst hyb
      simp [List.find?]
    · have hyb : ¬ y = b := fun k => hxa (hiff.2 k)
      have e1 : (x == a) = false := beq_eq_false_iff_ne.2 hxa
      have e2 : (y == b) = false := beq_eq_false_iff_ne.2 hyb
      simp only [List.find?, e1, e2]
      exact ih

theorem lookupFrames_like {l l' : List Frame} (h : StackLike N l l') {a b : Str} (hv : VarLike N a b) (is : List Str) :
    lookupFrames a is l = lookupFrames b is l' := by
  induction h with
  | nil => rfl
  | cons hf _ ih => simp only [lookupFrames, getVar_like hR hf hv, ih]

theorem lookupVar_like {l l' : List Frame} (h : StackLike N l l') {a b : Str} (hv : VarLike N a b) : lookupVar a l = lookupVar b l' := by
  obtain ⟨n, n', is, h1, h2, h3, _⟩ := hv.split hR
  simp only [lookupVar, h1, h2]
  exact lookupFrames_like hR h h3 is

theorem varSearch_like {l l' : List Frame} (h : StackLike N l l') {v v' : Str} (hv : VarLike N v v') {a b : Str} (ha : VarLike N a b) (is : List Str) :
    ResLike (ErrLike N) Eq (varSearch v a is l) (varSearch v' b is l') := by
  induction h with
  | nil => exact .ok rfl
  | cons hf _ ih =>
    simp only [varSearch, getVar_like hR hf ha]
    split
    · split
      · exact .ok rfl
      · exact .err (.null hv)
      · exact .err (.type hv)
    · exact ih

theorem execVar_like {st st' : St} (h : StLike N st st') {v v' : Str} (hv : VarLike N v v') :
    ResLike (ErrLike N) (StLike N) (execVar v st) (execVar v' st') := by
  obtain ⟨n, n', is, h1, h2, h3, _⟩ := hv.split hR
  simp only [execVar, h1, h2]
  refine (varSearch_like hR h.stack hv h3 is).bind fun a a' e => ?_
  subst e
  cases a with
  | none => exact .err (.undefined hv)
  | some s => exact ResLike.unwrap (output_like h _)

theorem needString_like {st st' : St} (h : StLike N st st') {v v' : Str} (hv : VarLike N v v') :
    ResLike (ErrLike N) Eq (needString v st) (needString v' st') := by
  simp only [needString, lookupVar_like hR h.stack hv]
  split
  · exact .err (.undefined hv)
  · split
    · exact .err (.type hv)
    · exact .ok rfl

omit hR in
theorem outputOrErr_like {st st' : St} (h : StLike N st st') (b : Bytes) :
    ResLike (ErrLike N) (StLike N) (outputOrErr b st) (outputOrErr b st') := ResLike.ofOption (.same _) (output_like h b)

variable {cx cx' : Ctx} (hcx : CtxLike cx cx')
include hcx

theorem execImport_like {st st' : St} (h : StLike N st st') {v v' : Str} (hv : VarLike N v v') (file : Str) :
    ResLike (ErrLike N) (StLike N) (execImport cx v file st) (execImport cx' v' file st') := by
  have hs := hcx.shows file
  unfold execImport
  generalize cx.input.getAtPath file = o at hs
  generalize cx'.input.getAtPath file = o' at hs
  obtain ⟨stk, secs⟩ := st
  obtain ⟨stk', secs'⟩ := st'
  obtain ⟨h1, h2⟩ := h
  rcases o with _ | ⟨_, _, c, _, _⟩ | ⟨_, cs, _⟩ <;> rcases o' with _ | ⟨_, _, c', _, _⟩ | ⟨_, cs', _⟩ <;>
    first
    | exact .err (.same _)
    | (cases c <;> simp only [seen] at hs <;> cases hs; done)
    | (cases c' <;> simp only [seen] at hs <;> cases hs; done)
    | (simp only [seen] at hs; cases hs; done)
    | skip
  cases c <;> cases c' <;> simp only [seen] at hs <;> first | exact .err (.same _) | (cases hs; done) | skip
  cases hs
  cases h1 with
  | nil => exact .err (.same _)
  | @cons f f' fs fs' hf hfs =>
    simp only [getVar_like hR hf hv]
    by_cases hg : (f'.getVar v').isSome = true
    · simp only [hg, if_true]
      exact .err (.exists_ hv)
    · simp only [hg, Bool.false_eq_true, if_false]
      exact .ok ⟨.cons (hf.addVar hv _) hfs, h2⟩

theorem forItems_like {l l' : List Frame} (h : StackLike N l l') {f f' : ForFn} (hf : ForLike N f f') :
    ResLike (ErrLike N) Eq (forItems cx f l) (forItems cx' f' l') := by
  unfold forItems
  have hk := hf.kind
  rw [← hk]
  cases hkind : f.kind with
  | jsonObj =>
    simp only [lookupVar_like hR h (hf.list hkind)]
    cases (lookupVar f'.source l').bind Value.asArray with
    | none => exact .err (.same _)
    | some x => exact .ok rfl
  | mdDir =>
    have hs := hcx.shows f.source
    simp only [← hf.file (by rw [hkind]; simp)]
    generalize cx.input.getAtPath f.source = o at hs
    generalize cx'.input.getAtPath f.source = o' at hs
    rcases o with _ | ⟨_, _, c, _, _⟩ | ⟨_, cs, _⟩ <;> rcases o' with _ | ⟨_, _, c', _, _⟩ | ⟨_, cs', _⟩ <;>
      first
      | exact .err (.same _)
      | (cases c <;> simp only [seen] at hs <;> cases hs; done)
      | (cases c' <;> simp only [seen] at hs <;> cases hs; done)
      | (simp only [seen] at hs; cases hs; done)
      | skip
    simp only [seen, Seen.dir.injEq] at hs
    simp only [Node.children, hs]
    cases mdValues cs' with
    | ok x => exact .ok rfl
    | err e => exact .err (.same _)
    | panic p => exact .panic p
  | jsonFile =>
    have hs := hcx.shows f.source
    simp only [← hf.file (by rw [hkind]; simp)]
    generalize cx.input.getAtPath f.source = o at hs
    generalize cx'.input.getAtPath f.source = o' at hs
    rcases o with _ | ⟨_, _, c, _, _⟩ | ⟨_, cs, _⟩ <;> rcases o' with _ | ⟨_, _, c', _, _⟩ | ⟨_, cs', _⟩ <;>
      first
      | exact .err (.same _)
      | (cases c <;> simp only [seen] at hs <;> cases hs; done)
      | (cases c' <;> simp only [seen] at hs <;> cases hs; done)
      | (simp only [seen] at hs; cases hs; done)
      | skip
    cases c <;> cases c' <;> simp only [seen] at hs <;> first | exact .err (.same _) | (cases hs; done) | skip
    cases hs
    rename_i v
    simp only [Node.isDir, Node.parsed, Bool.false_eq_true, if_false]
    cases v.asArray with
    | none => exact .err (.same _)
    | some x => exact .ok rfl

omit hcx in
theorem arrange_named {f f' : ForFn} (hf : ForLike N f f') (l : List Value) : arrange f l = arrange f' l := by
  have hs : sortItems f.sortVar l = sortItems f'.sortVar l := by
    have := hf.sort
    generalize f.sortVar = o at this
    generalize f'.sortVar = o' at this
    cases this with
    | none => rfl
    | some h =>
      obtain ⟨_, _, is, _, _, _, h1, h2⟩ := h.split hR
      simp only [sortItems, sortKey, h1, h2]
  simp only [arrange, hs, hf.desc, hf.skip, hf.limit]

omit hcx in
theorem eval_like {st st' : St} (h : StLike N st st') {a b : Input} (hi : InputLike N a b) :
    a.eval st = b.eval st' := by
  cases hi with
  | var hv => simp only [Input.eval, lookupVar_like hR h.stack hv]
  | str => rfl
  | int => rfl

omit hcx hR in
theorem inputName_like {st : St} {a b : Input} (hi : InputLike N a b) (hn : a.eval st = none) : ErrLike N (.undefinedVariable a.toStr) (.undefinedVariable b.toStr) := by
  cases hi with
  | var hv => exact .undefined hv
  | str => cases hn
  | int => cases hn

theorem execSimple_like {st st' : St} (h : StLike N st st') {f f' : Fn} (hf : FnLike N f f') :
    ResLike (ErrLike N) (StLike N) (execSimple cx f st) (execSimple cx' f' st') := by
  cases hf with
  | begin_ l c => exact .ok ⟨.cons ⟨.same _, .nil, rfl⟩ h.stack, h.sections⟩
  | @end_ l c hc =>
    obtain ⟨stk, secs⟩ := st
    obtain ⟨stk', secs'⟩ := st'
    obtain ⟨h1, h2⟩ := h
    cases h1 with
    | nil => exact .err (.same _)
    | @cons f f' fs fs' hf hfs =>
      simp only [execSimple, execEnd]
      have hrest : StLike N ⟨fs, secs⟩ ⟨fs', secs'⟩ := ⟨hfs, h2⟩
      cases c with
      | true =>
        simp only [if_true, hf.name.custom l]
        split
        · rw [hf.out]
          refine (outputOrErr_like hrest f'.out).bind fun a a' k => .ok ⟨k.stack, by simp [k.sections]⟩
        · exact .err (.same _)
      | false =>
        simp only [Bool.false_eq_true, if_false, hf.name.starts (hc rfl)]
        split
        · rw [hf.out]; exact outputOrErr_like hrest f'.out
        · exact .err (.same _)
  | else_ =>
    obtain ⟨stk, secs⟩ := st
    obtain ⟨stk', secs'⟩ := st'
    obtain ⟨h1, h2⟩ := h
    cases h1 with
    | nil => exact .err (.same _)
    | @cons f f' fs fs' hf hfs =>
      simp only [execSimple, execElse, hf.name.isIf]
      split
      · exact .ok ⟨.cons hf hfs, h2⟩
      · exact .err (.same _)
  | excerpt n hv =>
    refine (needString_like hR h hv).bind fun a a' e => ?_
    subst e
    exact outputOrErr_like h _
  | for_ => exact .ok h
  | ifdefined => exact .ok h
  | import_ file hv => exact execImport_like hR hcx h hv file
  | insert l =>
    obtain ⟨stk, secs⟩ := st
    obtain ⟨stk', secs'⟩ := st'
    obtain ⟨h1, h2⟩ := h
    cases h1 with
    | nil => exact .err (.same _)
    | @cons f f' fs fs' hf hfs =>
      simp only at h2
      subst h2
      simp only [execSimple, execInsert]
      split
      · exact .err (.same _)
      · exact .ok ⟨.cons (hf.emit _) hfs, rfl⟩
  | timetoread hv =>
    refine (needString_like hR h hv).bind fun a a' e => ?_
    subst e
    exact outputOrErr_like h _
  | dateformat fmt hv =>
    refine (needString_like hR h hv).bind fun a a' e => ?_
    subst e
    simp only [hcx.dates]
    cases cx'.dateFmt a fmt with
    | none => exact .err (.same _)
    | some x => exact outputOrErr_like h _
  | cmp => exact .ok h
end

/-! ### Tokens -/

/-- Errors anywhere in the same file. -/
def PErrLike (N : Str → Str → Prop) (e e' : PErr) : Prop := e.path = e'.path ∧ ErrLike N e.kind e'.kind

/-- What is left to read, and the state. -/
def RLike (N : Str → Str → Prop) : R → R → Prop := ResLike (PErrLike N) fun x y => ToksLike N x.1 y.1 ∧ StLike N x.2 y.2

section
variable {N : Str → Str → Prop}

theorem Spec.ToksLike.length {l l' : List LTok} (h : ToksLike N l l') : l.length = l'.length := by
  induction h with
  | nil => rfl
  | cons _ _ _ ih => simp [ih]

theorem tokName_like {t t' : LTok} (h : TokLike N t.inner t'.inner) : tokName t = tokName t' := by
  unfold tokName
  revert h
  generalize t.inner = a
  generalize t'.inner = b
  intro h
  cases h with
  | raw => rfl
  | var => rfl
  | func h => cases h <;> rfl

variable {ex ex' : LTok → List LTok → St → R}
  (hex : ∀ t t' ts ts' st st', t.path = t'.path → TokLike N t.inner t'.inner → ToksLike N ts ts' → StLike N st st' → RLike N (ex t ts st) (ex' t' ts' st'))
include hex

theorem bodyLoop_like {e e' : PErr} (he : PErrLike N e e') (h : Nat) : ∀ (fuel : Nat) {l l' : List LTok} {st st' : St}, ToksLike N l l' → StLike N st st' →
    RLike N (bodyLoop ex e h fuel l st) (bodyLoop ex' e' h fuel l' st') := by
  intro fuel
  induction fuel with
  | zero =>
    intro l l' st st' hl hst
    unfold bodyLoop
    rw [← hst.stack.length]
    split
    · exact .ok ⟨hl, hst⟩
    · cases hl with
      | nil => exact .err he
      | cons => exact .panic _
  | succ k ih =>
    intro l l' st st' hl hst
    unfold bodyLoop
    rw [← hst.stack.length]
    split
    · exact .ok ⟨hl, hst⟩
    · cases hl with
      | nil => exact .err he
      | cons hp ht hts => exact (hex _ _ _ _ _ _ hp ht hts hst).bind fun a a' k => ih k.1 k.2

theorem ifLoop_like {e e' : PErr} (he : PErrLike N e e') (h : Nat) : ∀ (fuel : Nat) (c : Bool) {l l' : List LTok} {st st' : St}, ToksLike N l l' → StLike N st st' →
    RLike N (ifLoop ex e h fuel c l st) (ifLoop ex' e' h fuel c l' st') := by
  intro fuel
  induction fuel with
  | zero =>
    intro c l l' st st' hl hst
    unfold ifLoop
    rw [← hst.stack.length]
    split
    · exact .ok ⟨hl, hst⟩
    · cases hl with
      | nil => exact .err he
      | cons => exact .panic _
  | succ k ih =>
    intro c l l' st st' hl hst
    unfold ifLoop
    rw [← hst.stack.length]
    split
    · exact .ok ⟨hl, hst⟩
    · cases hl with
      | nil => exact .err he
      | @cons t t' ts ts' hp ht hts =>
        simp only [tokName_like ht]
        cases tokName t' with
        | err e => exact .err ⟨rfl, .same _⟩
        | panic p => exact .panic p
        | ok n =>
          simp only [Res.bind]
          split
          · exact (hex _ _ _ _ _ _ hp ht hts hst).bind fun a a' k => ih _ k.1 k.2
          · exact ih _ hts hst

theorem forIter_like {e e' : PErr} (he : PErrLike N e e') {v v' : Str} (hv : VarLike N v v') {wp wp' : List LTok} (hwp : ToksLike N wp wp') :
    ∀ (items : List Value) {l l' : List LTok} {st st' : St}, ToksLike N l l' → StLike N st st' →
    RLike N (forIter ex e v wp items l st) (forIter ex' e' v' wp' items l' st') := by
  intro items
  induction items with
  | nil => intro l l' st st' hl hst; exact .ok ⟨hl, hst⟩
  | cons x xs ih =>
    intro l l' st st' hl hst
    simp only [forIter]
    rw [← hwp.length, ← hst.stack.length]
    have hf : FrameLike N ((Frame.new (str!"for:" ++ v)).addVar v x) ((Frame.new (str!"for:" ++ v')).addVar v' x) :=
      FrameLike.addVar (f := Frame.new (str!"for:" ++ v)) (f' := Frame.new (str!"for:" ++ v'))
        ⟨.opened (k := str!"for") v v' (by decide), .nil, rfl⟩ hv x
    have hnew : StLike N { st with stack := ((Frame.new (str!"for:" ++ v)).addVar v x) :: st.stack }
        { st' with stack := ((Frame.new (str!"for:" ++ v')).addVar v' x) :: st'.stack } := ⟨.cons hf hst.stack, hst.sections⟩
    exact (bodyLoop_like hex he _ _ hwp hnew).bind fun a a' k => ih k.1 k.2

theorem enterIf_like {e e' : PErr} (he : PErrLike N e e') {n n' : Str} (hn : NameLike n n') (c : Bool) {l l' : List LTok} {st st' : St}
    (hl : ToksLike N l l') (hst : StLike N st st') : RLike N (enterIf ex e n c l st) (enterIf ex' e' n' c l' st') := by
  simp only [enterIf]
  rw [← hl.length, ← hst.stack.length]
  exact ifLoop_like hex he _ _ _ hl ⟨.cons ⟨hn, .nil, rfl⟩ hst.stack, hst.sections⟩
end

section
variable {N : Str → Str → Prop} (hR : Renames N) {cx cx' : Ctx} (hcx : CtxLike cx cx')
include hR hcx

theorem execTok_like : ∀ (n : Nat) (t t' : LTok) (ts ts' : List LTok) (st st' : St), t.path = t'.path → TokLike N t.inner t'.inner → ToksLike N ts ts' →
    StLike N st st' → RLike N (execTok cx n t ts st) (execTok cx' n t' ts' st') := by
  intro n
  induction n with
  | zero => intros; exact .panic _
  | succ n ih =>
    intro t t' ts ts' st st' hp ht hts hst
    have tb : ∀ {k k'}, ErrLike N k k' → PErrLike N (t.tb k) (t'.tb k') := fun h => ⟨hp, h⟩
    have simple : ∀ {f f' : Fn}, FnLike N f f' →
        RLike N (((execSimple cx f st).mapErr t.tb).bind fun st' => .ok (ts, st')) (((execSimple cx' f' st').mapErr t'.tb).bind fun st' => .ok (ts', st')) :=
      fun hf => ((execSimple_like hR hcx hst hf).mapErr (D := PErrLike N) (fun _ _ h => tb h)).bind fun a a' k => .ok ⟨hts, k⟩
    simp only [execTok]
    revert ht
    generalize t.inner = a
    generalize t'.inner = b
    intro ht
    cases ht with
    | raw s => exact (ResLike.unwrap (output_like hst _)).bind fun a a' k => .ok ⟨hts, k⟩
    | var hv => exact ((execVar_like hR hst hv).mapErr (D := PErrLike N) (fun _ _ h => tb h)).bind fun a a' k => .ok ⟨hts, k⟩
    | func hf =>
      cases hf with
      | for_ hf =>
        refine ((forItems_like hR hcx hst.stack hf).mapErr (D := PErrLike N) (fun _ _ h => tb h)).bind fun a a' e => ?_
        subst e
        rw [arrange_named hR hf]
        exact forIter_like ih (tb (.same _)) hf.var hts _ hts hst
      | ifdefined hv =>
        simp only [lookupVar_like hR hst.stack hv]
        exact enterIf_like ih (tb (.same _)) (.opened (k := str!"ifdefined") _ _ (by decide)) _ hts hst
      | @cmp a b a' b' op ha hb =>
        simp only [← eval_like hR hst ha, ← eval_like hR hst hb]
        cases hea : a.eval st with
        | none => exact .err (tb (inputName_like ha hea))
        | some x =>
          cases heb : b.eval st with
          | none => exact .err (tb (inputName_like hb heb))
          | some y =>
            simp only [Res.ofOption, Res.bind]
            refine enterIf_like ih (tb (.same _)) ?_ _ hts hst
            have : ∀ a b, cmpFrameName op a b = op.name ++ ':' :: (a.toStr ++ [':'] ++ b.toStr) := by intros; simp [cmpFrameName]
            rw [this, this]
            exact .opened _ _ (by cases op <;> decide)
      | begin_ l c => exact simple (.begin_ l c)
      | end_ h => exact simple (.end_ h)
      | else_ => exact simple .else_
      | excerpt n hv => exact simple (.excerpt n hv)
      | import_ file hv => exact simple (.import_ file hv)
      | insert l => exact simple (.insert l)
      | timetoread hv => exact simple (.timetoread hv)
      | dateformat fmt hv => exact simple (.dateformat fmt hv)

theorem runToks_like {l l' : List LTok} {st st' : St} (hl : ToksLike N l l') (hst : StLike N st st') :
    ResLike (PErrLike N) (StLike N) (runToks cx l st) (runToks cx' l' st') := by
  unfold runToks
  rw [← hl.length]
  generalize l.length = k
  induction k generalizing l l' st st' with
  | zero =>
    cases hl with
    | nil => exact .ok hst
    | cons => exact .panic _
  | succ k ih =>
    cases hl with
    | nil => exact .ok hst
    | cons hp ht hts =>
      simp only [runGo]
      rw [← hts.length]
      exact (execTok_like hR hcx _ _ _ _ _ _ _ hp ht hts hst).bind fun a a' k => ih k.1 k.2
end

end Stuart
