import Verif.Proof.Rename
import Verif.Spec.Fields
/-
Lemmas: rendering with values that no look-up of a template can tell apart.
-/
namespace Stuart
open Spec

/-! ### Values that are alike -/

/-- What there is to see of a value, but for what is in it. -/
inductive Sight where
  | null
  | thing
  | num (i : Int)
  | str (s : Str)
  | arr

/-- A value is seen so. -/
def sight : Value → Sight
  | .null => .null
  | .bool _ => .thing
  | .num n => .num n.toI32
  | .str s => .str s
  | .arr _ => .arr
  | .obj _ => .thing

/-- Lists, one by one. -/
inductive Rows (E : Value → Value → Prop) : List Value → List Value → Prop
  | nil : Rows E [] []
  | cons {v v' : Value} {l l' : List Value} : E v v' → Rows E l l' → Rows E (v :: l) (v' :: l')

/-- Values that cannot be told apart by look-ups with certain variables. -/
structure Tell where
  /-- alike -/
  E : Value → Value → Prop
  /-- the variables with their paths -/
  clear : Str → Prop
  refl : ∀ v, E v v
  path : ∀ {a : Str} {v v' : Value}, clear a → E v v' → E (getValue ((splitOn '.' a).drop 1) v) (getValue ((splitOn '.' a).drop 1) v')
  sight : ∀ {v v' : Value}, E v v' → Stuart.sight v = Stuart.sight v'
  rows : ∀ {l l' : List Value}, E (.arr l) (.arr l') → Rows E l l'

/-- The same for values that need not be there. -/
inductive Maybe (E : Value → Value → Prop) : Option Value → Option Value → Prop
  | none : Maybe E none none
  | some {v v' : Value} : E v v' → Maybe E (some v) (some v')

variable {T : Tell}

theorem may_cases {E : Value → Value → Prop} {o o' : Option Value} (h : Maybe E o o') :
    (o = none ∧ o' = none) ∨ ∃ v v', o = some v ∧ o' = some v' ∧ E v v' := by
  cases h with
  | none => exact .inl ⟨rfl, rfl⟩
  | some h => exact .inr ⟨_, _, rfl, rfl, h⟩

theorem Tell.str {v v' : Value} (h : T.E v v') : v.asStr = v'.asStr := by
  have := T.sight h
  cases v <;> cases v' <;> simp only [Stuart.sight] at this <;> first | (cases this; done) | (cases this; rfl) | rfl

theorem splitVar_path (a : Str) : (splitVar a).2 = (splitOn '.' a).drop 1 := by
  unfold splitVar
  generalize splitOn '.' a = l
  cases l <;> rfl

theorem Tell.path' {a : Str} {v v' : Value} (ha : T.clear a) (h : T.E v v') : T.E (getValue (splitVar a).2 v) (getValue (splitVar a).2 v') := by
  rw [splitVar_path]; exact T.path ha h

/-! ### Scopes -/

inductive VarsBut (T : Tell) : List (Str × Value) → List (Str × Value) → Prop
  | nil : VarsBut T [] []
  | cons (a : Str) {v v' : Value} {l l' : List (Str × Value)} : T.E v v' → VarsBut T l l' → VarsBut T ((a, v) :: l) ((a, v') :: l')

structure FrameBut (T : Tell) (f f' : Frame) : Prop where
  name : f.name = f'.name
  vars : VarsBut T f.vars f'.vars
  out : f.out = f'.out

inductive StackBut (T : Tell) : List Frame → List Frame → Prop
  | nil : StackBut T [] []
  | cons {f f' : Frame} {fs fs' : List Frame} : FrameBut T f f' → StackBut T fs fs' → StackBut T (f :: fs) (f' :: fs')

structure StBut (T : Tell) (st st' : St) : Prop where
  stack : StackBut T st.stack st'.stack
  sections : st.sections = st'.sections

theorem StackBut.length {l l' : List Frame} (h : StackBut T l l') : l.length = l'.length := by
  induction h with
  | nil => rfl
  | cons _ _ ih => simp [ih]

theorem VarsBut.append {l l' m m' : List (Str × Value)} (h : VarsBut T l l') (h' : VarsBut T m m') : VarsBut T (l ++ m) (l' ++ m') := by
  induction h with
  | nil => exact h'
  | cons a h _ ih => exact .cons a h ih

theorem VarsBut.refl : ∀ l : List (Str × Value), VarsBut T l l
  | [] => .nil
  | (a, v) :: l => .cons a (T.refl v) (VarsBut.refl l)

theorem FrameBut.refl (f : Frame) : FrameBut T f f := ⟨rfl, .refl _, rfl⟩

theorem FrameBut.emit {f f' : Frame} (h : FrameBut T f f') (b : Bytes) : FrameBut T (f.emit b) (f'.emit b) :=
  ⟨h.name, h.vars, by simp [Frame.emit, h.out]⟩

theorem FrameBut.addVar {f f' : Frame} (h : FrameBut T f f') (a : Str) {v v' : Value} (hv : T.E v v') : FrameBut T (f.addVar a v) (f'.addVar a v') :=
  ⟨h.name, h.vars.append (.cons a hv .nil), h.out⟩

theorem output_but {st st' : St} (h : StBut T st st') (b : Bytes) :
    (st.output b = none ∧ st'.output b = none) ∨ ∃ a a', st.output b = some a ∧ st'.output b = some a' ∧ StBut T a a' := by
  obtain ⟨stk, secs⟩ := st
  obtain ⟨stk', secs'⟩ := st'
  obtain ⟨h1, h2⟩ := h
  cases h1 with
  | nil => exact .inl ⟨rfl, rfl⟩
  | cons hf hs => exact .inr ⟨_, _, rfl, rfl, .cons (hf.emit b) hs, h2⟩

theorem getVar_but {f f' : Frame} (h : FrameBut T f f') (a : Str) : Maybe T.E (f.getVar a) (f'.getVar a) := by
  unfold Frame.getVar
  have := h.vars
  generalize f.vars = l at this
  generalize f'.vars = l' at this
  induction this with
  | nil => exact .none
  | @cons x v v' l l' hx _ ih =>
    simp only [List.find?]
    cases x == a with
    | true => exact .some hx
    | false => exact ih

theorem lookupVar_but {l l' : List Frame} (h : StackBut T l l') {a : Str} (ha : T.clear a) : Maybe T.E (lookupVar a l) (lookupVar a l') := by
  unfold lookupVar
  generalize hn : (splitVar a).1 = n
  simp only [hn]
  induction h with
  | nil => exact .none
  | cons hf _ ih =>
    simp only [lookupFrames]
    rcases may_cases (getVar_but hf n) with ⟨h1, h2⟩ | ⟨v, v', h1, h2, h3⟩
    · rw [h1, h2]; exact ih
    · rw [h1, h2]; exact .some (T.path' ha h3)

theorem varSearch_but {l l' : List Frame} (h : StackBut T l l') {v : Str} (a : Str) (hv : T.clear v) :
    varSearch v a (splitVar v).2 l = varSearch v a (splitVar v).2 l' := by
  induction h with
  | nil => rfl
  | cons hf _ ih =>
    simp only [varSearch]
    rcases may_cases (getVar_but hf a) with ⟨h1, h2⟩ | ⟨x, x', h1, h2, h3⟩
    · rw [h1, h2]; exact ih
    · rw [h1, h2]
      have := T.sight (T.path' hv h3)
      simp only
      generalize getValue (splitVar v).2 x = y at this
      generalize getValue (splitVar v).2 x' = y' at this
      cases y <;> cases y' <;> simp only [sight] at this <;> first | (cases this; done) | (cases this; rfl) | rfl

theorem execVar_but {st st' : St} (h : StBut T st st') {v : Str} (hv : T.clear v) : ResLike Eq (StBut T) (execVar v st) (execVar v st') := by
  simp only [execVar, varSearch_but h.stack (splitVar v).1 hv]
  cases varSearch v (splitVar v).1 (splitVar v).2 st'.stack with
  | err e => exact .err rfl
  | panic p => exact .panic p
  | ok o =>
    cases o with
    | none => exact .err rfl
    | some s => exact ResLike.unwrap (output_but h _)

theorem needString_but {st st' : St} (h : StBut T st st') {v : Str} (hv : T.clear v) : needString v st = needString v st' := by
  simp only [needString]
  rcases may_cases (lookupVar_but h.stack hv) with ⟨h1, h2⟩ | ⟨x, x', h1, h2, h3⟩
  · rw [h1, h2]
  · rw [h1, h2]; simp only [T.str h3]

theorem outputOrErr_but {st st' : St} (h : StBut T st st') (b : Bytes) : ResLike Eq (StBut T) (outputOrErr b st) (outputOrErr b st') :=
  ResLike.ofOption rfl (output_but h b)

theorem ofString_but {st st' : St} (h : StBut T st st') {v : Str} (hv : T.clear v) {k : Str → St → Res ProcErr St}
    (hk : ∀ s, ResLike Eq (StBut T) (k s st) (k s st')) :
    ResLike Eq (StBut T) ((needString v st).bind fun s => k s st) ((needString v st').bind fun s => k s st') := by
  rw [needString_but h hv]
  cases needString v st' with
  | err e => exact .err rfl
  | panic p => exact .panic p
  | ok s => exact hk s

/-! ### Content -/

/-- What paths show. -/
inductive SeenBut (T : Tell) : Seen → Seen → Prop
  | nothing : SeenBut T .nothing .nothing
  | dir {r r' : Res ProcErr (List Value)} : ResLike Eq (Rows T.E) r r' → SeenBut T (.dir r) (.dir r')
  | data {v v' : Value} : T.E v v' → SeenBut T (.data v) (.data v')
  | text : SeenBut T .text .text

structure CtxBut (T : Tell) (cx cx' : Ctx) : Prop where
  dates : cx.dateFmt = cx'.dateFmt
  shows : ∀ path, SeenBut T (seen (cx.input.getAtPath path)) (seen (cx'.input.getAtPath path))

section
variable {cx cx' : Ctx} (hcx : CtxBut T cx cx')
include hcx

theorem execImport_but {st st' : St} (h : StBut T st st') (v file : Str) :
    ResLike Eq (StBut T) (execImport cx v file st) (execImport cx' v file st') := by
  have hs := hcx.shows file
  unfold execImport
  generalize cx.input.getAtPath file = o at hs
  generalize cx'.input.getAtPath file = o' at hs
  obtain ⟨stk, secs⟩ := st
  obtain ⟨stk', secs'⟩ := st'
  obtain ⟨h1, h2⟩ := h
  rcases o with _ | ⟨_, _, c, _, _⟩ | ⟨_, cs, _⟩ <;> rcases o' with _ | ⟨_, _, c', _, _⟩ | ⟨_, cs', _⟩ <;>
    first
    | exact .err rfl
    | (cases c <;> simp only [seen] at hs <;> cases hs; done)
    | (cases c' <;> simp only [seen] at hs <;> cases hs; done)
    | (simp only [seen] at hs; cases hs; done)
    | skip
  cases c <;> cases c' <;> simp only [seen] at hs <;> first | exact .err rfl | (cases hs; done) | skip
  cases hs with
  | data hv =>
    cases h1 with
    | nil => exact .err rfl
    | @cons f f' fs fs' hf hfs =>
      simp only [Node.isDir, Node.parsed, Bool.false_eq_true, if_false]
      rcases may_cases (getVar_but hf v) with ⟨g1, g2⟩ | ⟨x, x', g1, g2, _⟩
      · simp only [g1, g2, Option.isSome_none, Bool.false_eq_true, if_false]
        exact .ok ⟨.cons (hf.addVar v hv) hfs, h2⟩
      · simp only [g1, g2, Option.isSome_some, if_true]
        exact .err rfl

omit hcx in
theorem asArray_but {v v' : Value} (h : T.E v v') :
    (v.asArray = none ∧ v'.asArray = none) ∨ ∃ l l', v.asArray = some l ∧ v'.asArray = some l' ∧ Rows T.E l l' := by
  have := T.sight h
  cases v <;> cases v' <;> simp only [sight] at this <;>
    first | (cases this; done) | exact .inl ⟨rfl, rfl⟩ | exact .inr ⟨_, _, rfl, rfl, T.rows h⟩

theorem forItems_but {l l' : List Frame} (h : StackBut T l l') {f : ForFn} (hf : f.kind = .jsonObj → T.clear f.source) :
    ResLike Eq (Rows T.E) (forItems cx f l) (forItems cx' f l') := by
  unfold forItems
  cases hkind : f.kind with
  | jsonObj =>
    simp only
    rcases may_cases (lookupVar_but h (hf hkind)) with ⟨h1, h2⟩ | ⟨v, v', h1, h2, h3⟩
    · rw [h1, h2]; exact .err rfl
    · rw [h1, h2]
      simp only [Option.bind_some]
      exact ResLike.ofOption rfl (asArray_but h3)
  | mdDir =>
    have hs := hcx.shows f.source
    simp only
    generalize cx.input.getAtPath f.source = o at hs
    generalize cx'.input.getAtPath f.source = o' at hs
    rcases o with _ | ⟨_, _, c, _, _⟩ | ⟨_, cs, _⟩ <;> rcases o' with _ | ⟨_, _, c', _, _⟩ | ⟨_, cs', _⟩ <;>
      first
      | exact .err rfl
      | (cases c <;> simp only [seen] at hs <;> cases hs; done)
      | (cases c' <;> simp only [seen] at hs <;> cases hs; done)
      | (simp only [seen] at hs; cases hs; done)
      | skip
    simp only [seen] at hs
    cases hs with
    | dir hs => exact hs
  | jsonFile =>
    have hs := hcx.shows f.source
    simp only
    generalize cx.input.getAtPath f.source = o at hs
    generalize cx'.input.getAtPath f.source = o' at hs
    rcases o with _ | ⟨_, _, c, _, _⟩ | ⟨_, cs, _⟩ <;> rcases o' with _ | ⟨_, _, c', _, _⟩ | ⟨_, cs', _⟩ <;>
      first
      | exact .err rfl
      | (cases c <;> simp only [seen] at hs <;> cases hs; done)
      | (cases c' <;> simp only [seen] at hs <;> cases hs; done)
      | (simp only [seen] at hs; cases hs; done)
      | skip
    cases c <;> cases c' <;> simp only [seen] at hs <;> first | exact .err rfl | (cases hs; done) | skip
    cases hs with
    | data hv =>
      simp only [Node.isDir, Node.parsed, Bool.false_eq_true, if_false]
      exact ResLike.ofOption rfl (asArray_but hv)

omit hcx in
theorem Rows.append {E : Value → Value → Prop} {a a' b b' : List Value} (h : Rows E a a') (k : Rows E b b') : Rows E (a ++ b) (a' ++ b') := by
  induction h with
  | nil => exact k
  | cons h _ ih => exact .cons h ih

omit hcx in
theorem Rows.reverse {E : Value → Value → Prop} {l l' : List Value} (h : Rows E l l') : Rows E l.reverse l'.reverse := by
  induction h with
  | nil => exact .nil
  | cons h _ ih => simp only [List.reverse_cons]; exact ih.append (.cons h .nil)

omit hcx in
theorem Rows.take {E : Value → Value → Prop} (n : Nat) {l l' : List Value} (h : Rows E l l') : Rows E (l.take n) (l'.take n) := by
  induction h generalizing n with
  | nil => simp only [List.take_nil]; exact .nil
  | cons h _ ih =>
    cases n with
    | zero => exact .nil
    | succ n => exact .cons h (ih n)

omit hcx in
theorem Rows.drop {E : Value → Value → Prop} (n : Nat) {l l' : List Value} (h : Rows E l l') : Rows E (l.drop n) (l'.drop n) := by
  induction h generalizing n with
  | nil => simp only [List.drop_nil]; exact .nil
  | cons h hs ih =>
    cases n with
    | zero => exact .cons h hs
    | succ n => exact ih n

omit hcx in
theorem insertLast_rows {E : Value → Value → Prop} {le : Value → Value → Bool} (hle : ∀ a a' b b', E a a' → E b b' → le a b = le a' b')
    {v v' : Value} (hv : E v v') {l l' : List Value} (h : Rows E l l') : Rows E (insertLast le v l) (insertLast le v' l') := by
  induction h with
  | nil => exact .cons hv .nil
  | cons h hs ih =>
    simp only [insertLast, hle _ _ _ _ h hv]
    split
    · exact .cons h ih
    · exact .cons hv (.cons h hs)

omit hcx in
theorem stableSort_rows {E : Value → Value → Prop} {le : Value → Value → Bool} (hle : ∀ a a' b b', E a a' → E b b' → le a b = le a' b')
    {l l' : List Value} (h : Rows E l l') : Rows E (stableSort le l) (stableSort le l') := by
  unfold stableSort
  suffices k : ∀ {acc acc'}, Rows E acc acc' → Rows E (l.foldl (fun acc v => insertLast le v acc) acc) (l'.foldl (fun acc v => insertLast le v acc) acc') from k .nil
  induction h with
  | nil => intro acc acc' k; exact k
  | cons h _ ih => intro acc acc' k; exact ih (insertLast_rows hle h k)

omit hcx in
theorem arrange_but {f : ForFn} (hf : ∀ k, f.sortVar = some k → T.clear k) {l l' : List Value} (h : Rows T.E l l') :
    Rows T.E (arrange f l) (arrange f l') := by
  have hs : Rows T.E (sortItems f.sortVar l) (sortItems f.sortVar l') := by
    cases hk : f.sortVar with
    | none => exact h
    | some k =>
      simp only [sortItems]
      refine stableSort_rows (fun a a' b b' h h' => ?_) h
      have : ∀ {a a'}, T.E a a' → sortKey k a = sortKey k a' := fun h => by simp only [sortKey, T.str (T.path (hf k hk) h)]
      simp only [this h, this h']
  unfold arrange
  cases f.desc <;> cases f.skip <;> cases f.limit <;> simp only [Bool.false_eq_true, if_false, if_true] <;>
    first | exact hs | exact hs.reverse | exact hs.take _ | exact hs.drop _ | exact hs.reverse.take _ | exact hs.reverse.drop _ |
      exact (hs.drop _).take _ | exact (hs.reverse.drop _).take _

omit hcx in
theorem eval_but {st st' : St} (h : StBut T st st') {a : Input} (ha : ∀ v ∈ inputVars a, T.clear v) : a.eval st = a.eval st' := by
  cases a with
  | str => rfl
  | int => rfl
  | var v =>
    simp only [Input.eval]
    rcases may_cases (lookupVar_but h.stack (ha v (.head _))) with ⟨h1, h2⟩ | ⟨x, x', h1, h2, h3⟩
    · rw [h1, h2]
    · rw [h1, h2]
      have h3 := T.sight h3
      cases x <;> cases x' <;> simp only [sight] at h3 <;> first | (cases h3; done) | (injection h3 with h3; simp only [h3]) | rfl

theorem execSimple_but {st st' : St} (h : StBut T st st') {f : Fn} (hp : ∀ g, f ≠ .plugin g) (hf : ∀ v ∈ readsOf (.func f), T.clear v) :
    ResLike Eq (StBut T) (execSimple cx f st) (execSimple cx' f st') := by
  cases f with
  | begin_ l c => exact .ok ⟨.cons ⟨rfl, .nil, rfl⟩ h.stack, h.sections⟩
  | end_ l c =>
    obtain ⟨stk, secs⟩ := st
    obtain ⟨stk', secs'⟩ := st'
    obtain ⟨h1, h2⟩ := h
    cases h1 with
    | nil => exact .err rfl
    | @cons f f' fs fs' hf hfs =>
      simp only [execSimple, execEnd, hf.name, hf.out]
      have hrest : StBut T ⟨fs, secs⟩ ⟨fs', secs'⟩ := ⟨hfs, h2⟩
      split
      · split
        · exact (outputOrErr_but hrest f'.out).bind fun a a' k => .ok ⟨k.stack, by simp [k.sections]⟩
        · exact .err rfl
      · split
        · exact outputOrErr_but hrest f'.out
        · exact .err rfl
  | else_ =>
    obtain ⟨stk, secs⟩ := st
    obtain ⟨stk', secs'⟩ := st'
    obtain ⟨h1, h2⟩ := h
    cases h1 with
    | nil => exact .err rfl
    | @cons f f' fs fs' hf hfs =>
      simp only [execSimple, execElse, hf.name]
      split
      · exact .ok ⟨.cons hf hfs, h2⟩
      · exact .err rfl
  | excerpt v n => exact ofString_but h (hf v (.head _)) fun s => outputOrErr_but h _
  | for_ => exact .ok h
  | ifdefined => exact .ok h
  | import_ v file => exact execImport_but hcx h v file
  | insert l =>
    obtain ⟨stk, secs⟩ := st
    obtain ⟨stk', secs'⟩ := st'
    obtain ⟨h1, h2⟩ := h
    cases h1 with
    | nil => exact .err rfl
    | @cons f f' fs fs' hf hfs =>
      simp only at h2
      subst h2
      simp only [execSimple, execInsert]
      split
      · exact .err rfl
      · exact .ok ⟨.cons (hf.emit _) hfs, rfl⟩
  | timetoread v => exact ofString_but h (hf v (.head _)) fun s => outputOrErr_but h _
  | dateformat v fmt =>
    simp only [execSimple, hcx.dates]
    refine ofString_but h (hf v (.head _)) (k := fun s st => (Res.ofOption .invalidDate (cx'.dateFmt s fmt)).bind fun d => outputOrErr (bytesOf d) st) fun s => ?_
    cases cx'.dateFmt s fmt with
    | none => exact .err rfl
    | some x => exact outputOrErr_but h _
  | cmp => exact .ok h
  | plugin g => exact absurd rfl (hp g)

/-! ### Tokens -/

/-- A token that says nothing of the keys. -/
def SilentTok (T : Tell) (t : LTok) : Prop := (∀ f, t.inner ≠ .func (.plugin f)) ∧ ∀ v ∈ readsOf t.inner, T.clear v

/-- What is left to read, and the state. -/
def RBut (T : Tell) : R → R → Prop := ResLike Eq fun x y => x.1 = y.1 ∧ (∀ t ∈ x.1, SilentTok T t) ∧ StBut T x.2 y.2

section
variable {ex ex' : LTok → List LTok → St → R}
  (hex : ∀ t ts st st', SilentTok T t → (∀ t ∈ ts, SilentTok T t) → StBut T st st' → RBut T (ex t ts st) (ex' t ts st'))
include hex
omit hcx

theorem bodyLoop_but (e : PErr) (h : Nat) : ∀ (fuel : Nat) {l : List LTok} {st st' : St}, (∀ t ∈ l, SilentTok T t) → StBut T st st' →
    RBut T (bodyLoop ex e h fuel l st) (bodyLoop ex' e h fuel l st') := by
  intro fuel
  induction fuel with
  | zero =>
    intro l st st' hl hst
    unfold bodyLoop
    rw [← hst.stack.length]
    split
    · exact .ok ⟨rfl, hl, hst⟩
    · cases l with
      | nil => exact .err rfl
      | cons => exact .panic _
  | succ k ih =>
    intro l st st' hl hst
    unfold bodyLoop
    rw [← hst.stack.length]
    split
    · exact .ok ⟨rfl, hl, hst⟩
    · cases l with
      | nil => exact .err rfl
      | cons t ts =>
        refine (hex t ts _ _ (hl t (.head _)) (fun u hu => hl u (.tail _ hu)) hst).bind fun a a' k => ?_
        obtain ⟨a1, a2⟩ := a
        obtain ⟨b1, b2⟩ := a'
        obtain ⟨k1, k2, k3⟩ := k
        simp only at k1 k2 k3
        subst k1
        exact ih k2 k3

theorem ifLoop_but (e : PErr) (h : Nat) : ∀ (fuel : Nat) (c : Bool) {l : List LTok} {st st' : St}, (∀ t ∈ l, SilentTok T t) → StBut T st st' →
    RBut T (ifLoop ex e h fuel c l st) (ifLoop ex' e h fuel c l st') := by
  intro fuel
  induction fuel with
  | zero =>
    intro c l st st' hl hst
    unfold ifLoop
    rw [← hst.stack.length]
    split
    · exact .ok ⟨rfl, hl, hst⟩
    · cases l with
      | nil => exact .err rfl
      | cons => exact .panic _
  | succ k ih =>
    intro c l st st' hl hst
    unfold ifLoop
    rw [← hst.stack.length]
    split
    · exact .ok ⟨rfl, hl, hst⟩
    · cases l with
      | nil => exact .err rfl
      | cons t ts =>
        have hts : ∀ u ∈ ts, SilentTok T u := fun u hu => hl u (.tail _ hu)
        simp only
        cases tokName t with
        | err e => exact .err rfl
        | panic p => exact .panic p
        | ok n =>
          simp only [Res.bind_ok]
          split
          · refine (hex t ts _ _ (hl t (.head _)) hts hst).bind fun a a' k => ?_
            obtain ⟨a1, a2⟩ := a
            obtain ⟨b1, b2⟩ := a'
            obtain ⟨k1, k2, k3⟩ := k
            simp only at k1 k2 k3
            subst k1
            exact ih _ k2 k3
          · exact ih _ hts hst

theorem forIter_but (e : PErr) (v : Str) {wp : List LTok} (hwp : ∀ t ∈ wp, SilentTok T t) :
    ∀ {items items' : List Value}, Rows T.E items items' → ∀ {l : List LTok} {st st' : St}, (∀ t ∈ l, SilentTok T t) → StBut T st st' →
    RBut T (forIter ex e v wp items l st) (forIter ex' e v wp items' l st')
  | _, _, .nil, l, st, st', hl, hst => .ok ⟨rfl, hl, hst⟩
  | _, _, .cons (v := x) (v' := y) h hs, l, st, st', hl, hst => by
    simp only [forIter]
    rw [← hst.stack.length]
    have hnew : StBut T { st with stack := ((Frame.new (str!"for:" ++ v)).addVar v x) :: st.stack }
        { st' with stack := ((Frame.new (str!"for:" ++ v)).addVar v y) :: st'.stack } :=
      ⟨.cons ((FrameBut.refl _).addVar v h) hst.stack, hst.sections⟩
    refine (bodyLoop_but hex e _ _ hwp hnew).bind fun a a' k => ?_
    obtain ⟨a1, a2⟩ := a
    obtain ⟨b1, b2⟩ := a'
    obtain ⟨k1, k2, k3⟩ := k
    simp only at k1 k2 k3
    subst k1
    exact forIter_but e v hwp hs k2 k3

theorem enterIf_but (e : PErr) (n : Str) (c : Bool) {l : List LTok} {st st' : St} (hl : ∀ t ∈ l, SilentTok T t) (hst : StBut T st st') :
    RBut T (enterIf ex e n c l st) (enterIf ex' e n c l st') := by
  simp only [enterIf]
  rw [← hst.stack.length]
  exact ifLoop_but hex e _ _ _ hl ⟨.cons (.refl _) hst.stack, hst.sections⟩
end

theorem execTok_but : ∀ (n : Nat) (t : LTok) (ts : List LTok) (st st' : St), SilentTok T t → (∀ t ∈ ts, SilentTok T t) → StBut T st st' →
    RBut T (execTok cx n t ts st) (execTok cx' n t ts st') := by
  intro n
  induction n with
  | zero => intros; exact .panic _
  | succ n ih =>
    intro t ts st st' ht hts hst
    obtain ⟨hp, hr⟩ := ht
    have simple : ∀ {f : Fn}, (∀ g, f ≠ .plugin g) → (∀ v ∈ readsOf (.func f), T.clear v) →
        RBut T (((execSimple cx f st).mapErr t.tb).bind fun st' => .ok (ts, st')) (((execSimple cx' f st').mapErr t.tb).bind fun st' => .ok (ts, st')) :=
      fun h1 h2 => ((execSimple_but hcx hst h1 h2).mapErr (D := Eq) (fun _ _ h => by rw [h])).bind fun a a' k => .ok ⟨rfl, hts, k⟩
    simp only [execTok]
    revert hp hr
    generalize t.inner = a
    intro hp hr
    cases a with
    | raw s => exact (ResLike.unwrap (output_but hst _)).bind fun a a' k => .ok ⟨rfl, hts, k⟩
    | var v => exact ((execVar_but hst (hr v (.head _))).mapErr (D := Eq) (fun _ _ h => by rw [h])).bind fun a a' k => .ok ⟨rfl, hts, k⟩
    | func f =>
      cases f with
      | for_ f =>
        have h1 : f.kind = .jsonObj → T.clear f.source := fun hk => hr _ (by simp [readsOf, hk])
        have h2 : ∀ k, f.sortVar = some k → T.clear k := fun k hk => hr _ (by simp [readsOf, hk])
        refine ((forItems_but hcx hst.stack h1).mapErr (D := Eq) (fun _ _ h => by rw [h])).bind fun a a' k => ?_
        exact forIter_but ih _ f.var hts (arrange_but h2 k) hts hst
      | ifdefined v =>
        rcases may_cases (lookupVar_but hst.stack (hr v (.head _))) with ⟨h1, h2⟩ | ⟨x, x', h1, h2, h3⟩
        · simp only [h1, h2]
          exact enterIf_but ih _ _ _ hts hst
        · simp only [h1, h2]
          have h3 := T.sight h3
          cases x <;> cases x' <;> simp only [sight] at h3 <;> first | (cases h3; done) | exact enterIf_but ih _ _ _ hts hst
      | cmp op a b =>
        have ha : ∀ v ∈ inputVars a, T.clear v := fun v hv => hr v (List.mem_append_left _ hv)
        have hb : ∀ v ∈ inputVars b, T.clear v := fun v hv => hr v (List.mem_append_right _ hv)
        simp only [eval_but hst ha, eval_but hst hb]
        cases a.eval st' with
        | none => exact .err rfl
        | some x =>
          cases b.eval st' with
          | none => exact .err rfl
          | some y => exact enterIf_but ih _ _ _ hts hst
      | begin_ l c => exact simple (by nofun) hr
      | end_ l c => exact simple (by nofun) hr
      | else_ => exact simple (by nofun) hr
      | excerpt v n => exact simple (by nofun) hr
      | import_ v file => exact simple (by nofun) hr
      | insert l => exact simple (by nofun) hr
      | timetoread v => exact simple (by nofun) hr
      | dateformat v fmt => exact simple (by nofun) hr
      | plugin g => exact absurd rfl (hp g)

theorem runToks_but {l : List LTok} (hl : ∀ t ∈ l, SilentTok T t) {st st' : St} (hst : StBut T st st') :
    ResLike Eq (StBut T) (runToks cx l st) (runToks cx' l st') := by
  unfold runToks
  generalize l.length = k
  induction k generalizing l st st' with
  | zero =>
    cases l with
    | nil => exact .ok hst
    | cons => exact .panic _
  | succ k ih =>
    cases l with
    | nil => exact .ok hst
    | cons t ts =>
      simp only [runGo]
      refine (execTok_but hcx _ t ts _ _ (hl t (.head _)) (fun u hu => hl u (.tail _ hu)) hst).bind fun a a' k => ?_
      obtain ⟨a1, a2⟩ := a
      obtain ⟨b1, b2⟩ := a'
      obtain ⟨k1, k2, k3⟩ := k
      simp only at k1 k2 k3
      subst k1
      exact ih k2 k3
end

end Stuart
