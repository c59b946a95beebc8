import Verif.Spec.Block
import Verif.Proof.Scope
import Verif.Proof.Step
import Verif.Proof.Tree
import Verif.Proof.Excerpt
/-
The interpreter renders properly nested templates as they read (under `Tame`).
-/
namespace Stuart
open Spec

/-! ### Leaves -/

/-- A frame after a leaf. -/
def grown (f : Frame) (vs : List (Str × Value)) (b : Bytes) : Frame :=
  { f with vars := f.vars ++ vs, out := f.out ++ b }

theorem emit_grown (f : Frame) (b : Bytes) : f.emit b = grown f [] b := by simp [Frame.emit, grown]

/-- `lookupVar` on scopes. -/
def lookupScopes (v : Str) (scs : Scopes) : Option Value := denoted (splitVar v).1 (splitVar v).2 scs

theorem lookupVar_scopes (v : Str) (stk : List Frame) : lookupVar v stk = lookupScopes v (stk.map (·.vars)) := by
  unfold lookupVar lookupScopes
  exact lookupFrames_bound _ _ _

theorem lookupScopes_meant (v : Str) (scs : Scopes) : lookupScopes v scs = meant v scs := by
  unfold lookupScopes splitVar meant
  cases hs : splitOn '.' v with
  | nil => exact absurd hs (splitOn_ne_nil _ _)
  | cons n path => rfl

theorem needString_meant (v : Str) (st : St) : needString v st = textMeant v (st.stack.map (·.vars)) := by
  unfold needString textMeant
  rw [lookupVar_scopes, lookupScopes_meant]
  cases meant v (st.stack.map (·.vars)) with
  | none => rfl
  | some x => cases x <;> rfl

theorem lookup_find (l : Str) (secs : Sections) : secs.lookup l = (secs.find? fun e => e.1 == l).map (·.2) := by
  induction secs with
  | nil => rfl
  | cons e es ih =>
    obtain ⟨a, b⟩ := e
    rw [List.lookup_cons, List.find?_cons]
    by_cases h : l = a
    · subst h; simp
    · have h1 : (l == a) = false := by simpa using h
      have h2 : (a == l) = false := by simpa using Ne.symm h
      rw [h1, h2]; exact ih

/-- A leaf does what it means, to the innermost frame. -/
theorem leaf_exec (cx : Ctx) (t : LTok) (h : Plain t.inner) (ts f fs secs) :
    exec cx t ts ⟨f :: fs, secs⟩ =
      ((yields cx (f.vars :: fs.map (·.vars)) secs t.inner).mapErr t.tb).bind fun r =>
        .ok (ts, ⟨grown f r.vars r.out :: fs, secs⟩) := by
  cases ht : t.inner with
  | raw s =>
    rw [exec_raw cx t ts _ s ht]
    simp [St.output, emit_grown, yields, says]
  | var v =>
    rw [exec_var cx t ts _ v ht]
    unfold execVar
    simp only [varSearch_denoted, List.map_cons, yields]
    rw [← lookupScopes_meant, lookupScopes]
    cases denoted (splitVar v).1 (splitVar v).2 (f.vars :: fs.map (·.vars)) with
    | none => rfl
    | some x => cases x <;> simp [St.output, emit_grown, says]
  | func fn =>
    rw [ht] at h
    cases fn with
    | begin_ l c => exact absurd h (by simp [Plain])
    | end_ l c => exact absurd h (by simp [Plain])
    | else_ => exact absurd h (by simp [Plain])
    | for_ f => exact absurd h (by simp [Plain])
    | ifdefined v => exact absurd h (by simp [Plain])
    | cmp op a b => exact absurd h (by simp [Plain])
    | excerpt v n =>
      rw [exec_simple cx t ts _ _ ht rfl]
      simp only [execSimple, needString_meant, yields, List.map_cons]
      cases textMeant v (f.vars :: fs.map (·.vars)) with
      | ok s => simp [outputOrErr, St.output, emit_grown, says, excerptOf_partRead]
      | err e => rfl
      | panic p => rfl
    | timetoread v =>
      rw [exec_simple cx t ts _ _ ht rfl]
      simp only [execSimple, needString_meant, yields, List.map_cons]
      cases textMeant v (f.vars :: fs.map (·.vars)) with
      | ok s => simp [outputOrErr, St.output, emit_grown, says, natToStr_toDigits, minutesOf, wordCount_words, Nat.max_comm]
      | err e => rfl
      | panic p => rfl
    | dateformat v fmt =>
      rw [exec_simple cx t ts _ _ ht rfl]
      simp only [execSimple, needString_meant, yields, List.map_cons]
      cases textMeant v (f.vars :: fs.map (·.vars)) with
      | ok s =>
        simp only [Res.bind_ok]
        cases cx.dateFmt s fmt <;> simp [outputOrErr, St.output, emit_grown, says, Res.ofOption]
      | err e => rfl
      | panic p => rfl
    | insert l =>
      rw [exec_simple cx t ts _ _ ht rfl]
      simp only [execSimple, execInsert, yields, lookup_find]
      cases secs.find? fun e => e.1 == l with
      | none => rfl
      | some e => simp [emit_grown]
    | import_ v file =>
      rw [exec_simple cx t ts _ _ ht rfl]
      simp only [execSimple, execImport, Frame.getVar_lookup, yields, written_getAtPath, List.headD_cons]
      cases cx.input.getAtPath file with
      | none => rfl
      | some n =>
        cases n with
        | dir => rfl
        | file nm b p m src =>
          cases p with
          | json j =>
            simp only [Node.isDir, Node.parsed]
            by_cases hv : (List.lookup v f.vars).isSome = true
            · simp [hv]
            · simp [hv, grown, Frame.addVar]
          | _ => rfl
    | plugin p =>
      rw [exec_simple cx t ts _ _ ht rfl]
      simp only [execSimple, execPlugin, List.map_cons, yields]
      cases p.exec (f.vars :: fs.map (·.vars)) <;> rfl

theorem leaf_secs {cx : Ctx} {t : Token} {scs secs r} (h : yields cx scs secs t = .ok r) : r.secs = [] := by
  unfold yields at h
  split at h
  all_goals first
    | (cases h; rfl)
    | (obtain ⟨s, _, h⟩ := Res.bind_eq_ok.1 h; first | (cases h; rfl) | (split at h <;> cases h; rfl))
    | (split at h <;> first | (cases h; rfl) | cases h | (split at h <;> cases h; rfl))

/-! ### Items and conditions -/

theorem setEntry_put (k : Str) (v : Value) : ∀ l : List (Str × Value), Value.setEntry k v l = put k v l
  | [] => rfl
  | e :: es => by
    have ih := setEntry_put k v es
    unfold Value.setEntry
    by_cases h : e.1 = k
    · subst h; simp [put]
    · have hb : (e.1 == k) = false := by simpa using h
      rw [hb, if_neg (by simp), ih]
      simp only [put, List.dropWhile_cons, List.takeWhile_cons, ne_eq, h, not_false_eq_true, decide_true, if_true]
      cases List.dropWhile (fun e : Str × Value => decide ¬ e.1 = k) es <;> rfl

theorem mdValues_mdItems : ∀ cs : List Node, mdValues cs = mdItems cs
  | [] => rfl
  | n :: ns => by
    have ih := mdValues_mdItems ns
    unfold mdValues
    cases n with
    | dir a b c => simp only [Node.parsed, mdItems, ih]
    | file nm ct p m src =>
      cases p with
      | markdown md =>
        simp only [Node.parsed, mdItems, ih, ParsedMd.toValue, ParsedMd.fmValue, Value.setKey, setEntry_put]
        cases md.html <;> rfl
      | _ => simp only [Node.parsed, mdItems, ih]

theorem forItems_source (cx : Ctx) (f : ForFn) (stk : List Frame) :
    forItems cx f stk = source cx f (stk.map (·.vars)) := by
  unfold forItems source
  cases f.kind with
  | mdDir =>
    simp only [written_getAtPath]
    cases cx.input.getAtPath f.source with
    | none => rfl
    | some n => cases n <;> simp [Node.children, mdValues_mdItems]
  | jsonFile =>
    simp only [written_getAtPath]
    cases cx.input.getAtPath f.source with
    | none => rfl
    | some n =>
      cases n with
      | dir a b c => simp [Node.isDir]
      | file nm ct p m src =>
        cases p with
        | json v => cases v <;> simp [Node.isDir, Node.parsed, Value.asArray]
        | _ => simp [Node.isDir, Node.parsed]
  | jsonObj =>
    simp only
    rw [lookupVar_scopes]
    unfold lookupScopes splitVar
    cases hs : splitOn '.' f.source with
    | nil => exact absurd hs (splitOn_ne_nil _ _)
    | cons n path =>
      simp only
      cases denoted n path (stk.map (·.vars)) with
      | none => rfl
      | some v => cases v <;> simp [Value.asArray]

theorem items_arrange (cx : Ctx) (f : ForFn) (stk : List Frame) :
    items cx f (stk.map (·.vars)) = (forItems cx f stk).bind fun l => .ok (arrange f l) := by
  unfold items
  rw [forItems_source]
  congr 1
  funext l
  rw [arrange_visited]
  congr 3
  funext k
  rw [List.drop_one]

/-- Operands as inputs. -/
def opInput : Operand → Input
  | .text s => .str s
  | .int i => .int i

theorem eval_operand (st : St) (a : Input) :
    (Res.ofOption (.undefinedVariable a.toStr) (a.eval st) : Res ProcErr Input) =
      (operand (st.stack.map (·.vars)) a).bind fun x => .ok (opInput x) := by
  cases a with
  | str s => rfl
  | int i => rfl
  | var v =>
    simp only [Input.eval, operand, Input.toStr]
    rw [lookupVar_scopes]
    unfold lookupScopes splitVar
    cases hs : splitOn '.' v with
    | nil => exact absurd hs (splitOn_ne_nil _ _)
    | cons n path =>
      simp only
      cases denoted n path (st.stack.map (·.vars)) with
      | none => rfl
      | some v => cases v <;> simp [opInput]

theorem Int.cmp_cases (a b : Int) :
    (a < b ∧ compare a b = .lt) ∨ (a = b ∧ compare a b = .eq) ∨ (a > b ∧ compare a b = .gt) := by
  simp only [compare, compareOfLessAndEq]
  by_cases h1 : a < b
  · simp [h1]
  · by_cases h2 : a = b
    · simp [h2]
    · simp [h1, h2]; omega

theorem operand_text_beq (s s' : Str) : (Operand.text s == Operand.text s') = (s == s') := by
  rw [Bool.eq_iff_iff]; simp

theorem operand_int_beq (i j : Int) : (Operand.int i == Operand.int j) = (i == j) := by
  rw [Bool.eq_iff_iff]; simp

theorem holds_compared (op : CmpFn) (x y : Operand) : op.holds (opInput x) (opInput y) = compared op x y := by
  cases x with
  | text s =>
    cases y with
    | text s' => cases op <;> simp [CmpFn.holds, opInput, compared, Input.eqv, Input.cmp, operand_text_beq, bne]
    | int j => cases op <;> simp [CmpFn.holds, opInput, compared, Input.eqv, Input.cmp]
  | int i =>
    cases y with
    | text s' => cases op <;> simp [CmpFn.holds, opInput, compared, Input.eqv, Input.cmp]
    | int j =>
      rcases Int.cmp_cases i j with ⟨h, hc⟩ | ⟨h, hc⟩ | ⟨h, hc⟩ <;> cases op <;>
        simp [CmpFn.holds, opInput, compared, Input.eqv, Input.cmp, hc, operand_int_beq, bne] <;> omega

/-- The name of a conditional's frame. -/
def testFrame : Test → Str
  | .defined v => str!"ifdefined:" ++ v
  | .cmp op a b => cmpFrameName op a b

theorem exec_test (cx : Ctx) (o : At) (test : Test) (rest : List LTok) (st : St) :
    exec cx (o.tok (.func test.fn)) rest st =
      ((test.eval (st.stack.map (·.vars))).mapErr o.err).bind fun b =>
        branch cx (o.err .unexpectedEndOfFile) st.stack.length b rest
          { st with stack := Frame.new (testFrame test) :: st.stack } := by
  cases test with
  | defined v =>
    rw [exec_ifdefined cx _ rest st v rfl]
    simp only [Test.eval]
    rw [lookupVar_scopes]
    unfold lookupScopes splitVar
    cases hs : splitOn '.' v with
    | nil => exact absurd hs (splitOn_ne_nil _ _)
    | cons n path =>
      simp only [Res.mapErr_ok, Res.bind_ok]
      cases denoted n path (st.stack.map (·.vars)) with
      | none => rfl
      | some x => cases x <;> rfl
  | cmp op a b =>
    rw [exec_cmp cx _ rest st op a b rfl]
    simp only [Test.eval]
    have h1 := eval_operand st a
    have h2 := eval_operand st b
    cases ha : operand (st.stack.map (·.vars)) a with
    | panic p => rw [ha] at h1; cases hx : a.eval st <;> rw [hx] at h1 <;> cases h1
    | err e =>
      rw [ha] at h1
      cases hx : a.eval st with
      | some x => rw [hx] at h1; cases h1
      | none => rw [hx] at h1; simp at h1; subst h1; rfl
    | ok x =>
      rw [ha] at h1
      cases hx : a.eval st with
      | none => rw [hx] at h1; cases h1
      | some x' =>
        rw [hx] at h1; simp at h1; subst h1
        simp only [Res.ofOption_some, Res.bind_ok]
        cases hb : operand (st.stack.map (·.vars)) b with
        | panic p => rw [hb] at h2; cases hy : b.eval st <;> rw [hy] at h2 <;> cases h2
        | err e =>
          rw [hb] at h2
          cases hy : b.eval st with
          | some y => rw [hy] at h2; cases h2
          | none => rw [hy] at h2; simp at h2; subst h2; rfl
        | ok y =>
          rw [hb] at h2
          cases hy : b.eval st with
          | none => rw [hy] at h2; cases h2
          | some y' =>
            rw [hy] at h2; simp at h2; subst h2
            simp only [Res.ofOption_some, Res.bind_ok, Res.mapErr_ok, holds_compared]
            rfl

theorem isPrefixOf_append_self (a b : Str) : a.isPrefixOf (a ++ b) = true :=
  List.isPrefixOf_iff_prefix.2 (List.prefix_append a b)

theorem testFrame_word (test : Test) : startsWith (test.word ++ [':']) (testFrame test) = true := by
  cases test with
  | defined v => exact isPrefixOf_append_self str!"ifdefined:" v
  | cmp op a b =>
    have : testFrame (.cmp op a b) = ((Test.cmp op a b).word ++ [':']) ++ (a.toStr ++ [':'] ++ b.toStr) := by
      cases op <;> simp [testFrame, cmpFrameName, CmpFn.name, Test.word]
    rw [this]; exact isPrefixOf_append_self _ _

theorem testFrame_if (test : Test) : startsWith str!"if" (testFrame test) = true := by
  cases test with
  | defined v => exact isPrefixOf_append_self str!"if" (str!"defined:" ++ v)
  | cmp op a b =>
    cases op <;> simp [testFrame, cmpFrameName, CmpFn.name, startsWith, List.isPrefixOf]

/-! ### Reading tokens one at a time -/

/-- A reader that processes each token as long as the stack is higher than `h`. -/
def Consumes (cx : Ctx) {α : Type} (h : Nat) (K : List LTok → St → Res PErr α) : Prop :=
  ∀ t ts st n, h < st.stack.length → tokName t = .ok n → n ≠ some str!"else" →
    K (t :: ts) st = (exec cx t ts st).bind fun r => K r.1 r.2

theorem runToks_consumes (cx : Ctx) : Consumes cx 0 (runToks cx) := by
  intro t ts st n _ _ _
  rw [runToks_cons]

theorem loop_consumes (cx : Ctx) (eof h) : Consumes cx h (loop cx eof h) := by
  intro t ts st n hh _ _
  rw [loop_eq, if_neg (by omega)]

theorem branch_consumes (cx : Ctx) (eof h) : Consumes cx h (branch cx eof h true) := by
  intro t ts st n hh hn hne
  rw [branch_eq, if_neg (by omega)]
  have : (n == some str!"else") = false := by simpa using hne
  simp only [hn, Res.bind_ok, Bool.true_or, if_true, this]
  rfl

theorem plain_name {t : LTok} (h : Plain t.inner) :
    ∃ n, tokName t = .ok n ∧ n ≠ some str!"else" ∧ n ≠ some str!"end" := by
  unfold tokName
  cases ht : t.inner with
  | raw s => exact ⟨none, rfl, by simp, by simp⟩
  | var v => exact ⟨none, rfl, by simp, by simp⟩
  | func f =>
    rw [ht] at h
    cases f with
    | plugin p =>
      obtain ⟨n, h1, h2, h3⟩ := h
      exact ⟨some n, by simp [Fn.name, h1], by simpa using h3, by simpa using h2⟩
    | _ => first
      | exact False.elim h
      | exact ⟨_, rfl, by simp, by simp⟩

theorem test_name (o : At) (test : Test) :
    ∃ n, tokName (o.tok (.func test.fn)) = .ok n ∧ n ≠ some str!"else" := by
  cases test with
  | defined v => exact ⟨_, rfl, by simp⟩
  | cmp op a b => cases op <;> exact ⟨_, rfl, by simp [CmpFn.name]⟩

/-- Skipping a flat branch. -/
theorem branch_skip (cx : Ctx) (eof h) : ∀ (tpl : Tpl), tpl.WF → tpl.Flat → ∀ rest (st : St), h < st.stack.length →
    branch cx eof h false (tpl.toks ++ rest) st = branch cx eof h false rest st
  | .nil, _, _, rest, st, _ => rfl
  | .leaf a t next, hw, hf, rest, st, hh => by
    obtain ⟨n, h1, h2, h3⟩ := plain_name (t := a.tok t) hw.1
    rw [Tpl.toks, List.cons_append, branch_eq, if_neg (by omega)]
    have e1 : (n == some str!"else") = false := by simpa using h2
    have e2 : (n == some str!"end") = false := by simpa using h3
    simp only [h1, Res.bind_ok, e1, e2, Bool.false_or, Bool.false_and, Bool.false_eq_true, if_false]
    exact branch_skip cx eof h next hw.2 hf rest st hh
  | .section_ .., _, hf, _, _, _ => absurd hf (by simp [Tpl.Flat])
  | .loop .., _, hf, _, _, _ => absurd hf (by simp [Tpl.Flat])
  | .if_ .., _, hf, _, _, _ => absurd hf (by simp [Tpl.Flat])
  | .ifElse .., _, hf, _, _, _ => absurd hf (by simp [Tpl.Flat])

theorem exec_end (cx : Ctx) (c : At) (w : Str) (ts : List LTok) (g f : Frame) (fs secs)
    (h : startsWith (w ++ [':']) g.name = true) :
    exec cx (c.tok (.func (.end_ w false))) ts ⟨g :: f :: fs, secs⟩ = .ok (ts, ⟨f.emit g.out :: fs, secs⟩) := by
  rw [exec_simple cx _ ts _ _ rfl rfl]
  simp [execSimple, execEnd, h, outputOrErr, St.output]

theorem exec_endSection (cx : Ctx) (c : At) (l : Str) (ts : List LTok) (g f : Frame) (fs secs)
    (h : g.name = str!"begin:" ++ l) :
    exec cx (c.tok (.func (.end_ l true))) ts ⟨g :: f :: fs, secs⟩ =
      .ok (ts, ⟨f.emit g.out :: fs, secs ++ [(l, g.out)]⟩) := by
  rw [exec_simple cx _ ts _ _ rfl rfl]
  simp [execSimple, execEnd, h, outputOrErr, St.output]

/-- The end of a conditional, whichever branch is being read. -/
theorem branch_end (cx : Ctx) (eof) (b : Bool) (c : At) (w : Str) (R : List LTok) (g f : Frame) (fs secs)
    (h : startsWith (w ++ [':']) g.name = true) :
    branch cx eof (fs.length + 1) b (c.tok (.func (.end_ w false)) :: R) ⟨g :: f :: fs, secs⟩ =
      .ok (R, ⟨f.emit g.out :: fs, secs⟩) := by
  rw [branch_eq, if_neg (by simp)]
  have hn : tokName (c.tok (.func (.end_ w false))) = .ok (some str!"end") := rfl
  simp only [hn, Res.bind_ok]
  rw [if_pos (by simp), exec_end cx c w R g f fs secs h]
  simp only [Res.bind_ok]
  rw [branch_eq, if_pos (by simp)]

/-- `else` swaps the branches. -/
theorem branch_else (cx : Ctx) (eof) (b : Bool) (m : At) (R : List LTok) (g f : Frame) (fs secs)
    (h : startsWith str!"if" g.name = true) :
    branch cx eof (fs.length + 1) b (m.tok (.func .else_) :: R) ⟨g :: f :: fs, secs⟩ =
      branch cx eof (fs.length + 1) (!b) R ⟨g :: f :: fs, secs⟩ := by
  rw [branch_eq, if_neg (by simp)]
  have hn : tokName (m.tok (.func .else_)) = .ok (some str!"else") := rfl
  simp only [hn, Res.bind_ok]
  rw [if_pos (by simp), exec_simple cx _ R _ _ rfl rfl]
  simp [execSimple, execElse, h]

/-! ### The main induction -/

/-- A template read by any reader does what it means. -/
def Means (cx : Ctx) (tpl : Tpl) : Prop :=
  ∀ (α : Type) (h : Nat) (K : List LTok → St → Res PErr α), Consumes cx h K →
    ∀ (f : Frame) fs secs rest, h ≤ fs.length → tpl.Tame cx (f.vars :: fs.map (·.vars)) secs →
      K (tpl.toks ++ rest) ⟨f :: fs, secs⟩ =
        (tpl.eval cx (f.vars :: fs.map (·.vars)) secs).bind fun r =>
          K rest ⟨grown f r.vars r.out :: fs, secs ++ r.secs⟩

theorem grown_nil (f : Frame) : grown f [] [] = f := by simp [grown]

theorem grown_grown (f : Frame) (vs vs' : List (Str × Value)) (b b' : Bytes) :
    grown (grown f vs b) vs' b' = grown f (vs ++ vs') (b ++ b') := by simp [grown]

/-- Continue with the rest of the template after a piece. -/
theorem means_next {cx : Ctx} {next : Tpl} (ih : Means cx next) {α : Type} {h : Nat}
    {K : List LTok → St → Res PErr α} (hK : Consumes cx h K) (f : Frame) (fs secs rest) (hl : h ≤ fs.length)
    (r : Out) (ht : next.Tame cx (extend r.vars (f.vars :: fs.map (·.vars))) (secs ++ r.secs)) :
    K (next.toks ++ rest) ⟨grown f r.vars r.out :: fs, secs ++ r.secs⟩ =
      (andThen r (next.eval cx) (f.vars :: fs.map (·.vars)) secs).bind fun r' =>
        K rest ⟨grown f r'.vars r'.out :: fs, secs ++ r'.secs⟩ := by
  rw [ih _ h K hK (grown f r.vars r.out) fs (secs ++ r.secs) rest hl ht]
  unfold andThen
  show (next.eval cx (extend r.vars (f.vars :: fs.map (·.vars))) (secs ++ r.secs)).bind _ = _
  cases next.eval cx (extend r.vars (f.vars :: fs.map (·.vars))) (secs ++ r.secs) with
  | ok r' => simp [grown_grown]
  | err e => rfl
  | panic p => rfl

theorem extend_nil (scs : Scopes) : extend [] scs = scs := by cases scs <;> simp [extend]

theorem iter_means {cx : Ctx} {body : Tpl} (ih : Means cx body) (eof : PErr) (c : At) (var : Str) (R : List LTok)
    (fs : List Frame) : ∀ (its : List Value) (f : Frame) (secs : Sections) (rest : List LTok),
      eachTame (body.eval cx) (body.Tame cx) var (f.vars :: fs.map (·.vars)) its secs →
      iter cx eof var (body.toks ++ c.tok (.func (.end_ str!"for" false)) :: R) its rest ⟨f :: fs, secs⟩ =
        (eachItem (body.eval cx) var (f.vars :: fs.map (·.vars)) its secs).bind fun r =>
          .ok (if its = [] then rest else R, ⟨grown f [] r.1 :: fs, secs ++ r.2⟩)
  | [], f, secs, rest, _ => by simp [iter_nil, eachItem, grown_nil]
  | v :: vs, f, secs, rest, ht => by
    rw [iter_cons]
    have hb := ih _ (fs.length + 1) _ (loop_consumes cx eof (fs.length + 1))
      ((Frame.new (str!"for:" ++ var)).addVar var v) (f :: fs) secs
      (c.tok (.func (.end_ str!"for" false)) :: R) (by simp) ht.1
    simp only [List.length_cons] at hb ⊢
    rw [hb]
    have hv : ((Frame.new (str!"for:" ++ var)).addVar var v).vars = [(var, v)] := rfl
    rw [hv, List.map_cons]
    unfold eachItem
    cases he : body.eval cx ([(var, v)] :: f.vars :: fs.map (·.vars)) secs with
    | err e => rfl
    | panic p => rfl
    | ok r =>
      simp only [Res.bind_ok]
      have hn : startsWith (str!"for" ++ [':'])
          (grown ((Frame.new (str!"for:" ++ var)).addVar var v) r.vars r.out).name = true :=
        isPrefixOf_append_self str!"for:" var
      rw [loop_eq, if_neg (by simp)]
      simp only
      rw [exec_end cx c _ R _ f fs _ hn]
      simp only [Res.bind_ok]
      rw [loop_eq, if_pos (by simp)]
      simp only [Res.bind_ok]
      have ho : (grown ((Frame.new (str!"for:" ++ var)).addVar var v) r.vars r.out).out = r.out := by
        simp [grown, Frame.addVar, Frame.new]
      rw [ho, emit_grown]
      have := iter_means ih eof c var R fs vs (grown f [] r.out) (secs ++ r.secs) R
        (by have := ht.2 r he; simpa [grown] using this)
      rw [this]
      have hgv : (grown f [] r.out).vars = f.vars := by simp [grown]
      rw [hgv]
      cases eachItem (body.eval cx) var (f.vars :: fs.map (·.vars)) vs (secs ++ r.secs) with
      | err e => rfl
      | panic p => rfl
      | ok r' => simp [grown_grown]

theorem tpl_means (cx : Ctx) : ∀ tpl : Tpl, tpl.WF → Means cx tpl
  | .nil, _ => by
    intro α h K hK f fs secs rest hl ht
    simp [Tpl.toks, Tpl.eval, grown_nil]
  | .leaf a t next, hw => by
    intro α h K hK f fs secs rest hl ht
    obtain ⟨n, h1, h2, _⟩ := plain_name (t := a.tok t) hw.1
    rw [Tpl.toks, List.cons_append, hK _ _ _ n (by simp; omega) h1 h2, leaf_exec cx _ hw.1, Tpl.eval]
    show (((yields cx (f.vars :: fs.map (·.vars)) secs t).mapErr a.err).bind _).bind _ = _
    cases ha : yields cx (f.vars :: fs.map (·.vars)) secs t with
    | err e => rfl
    | panic p => rfl
    | ok r =>
      have hs := leaf_secs ha
      have := means_next (tpl_means cx next hw.2) hK f fs secs rest hl r (ht r ha)
      rw [hs, List.append_nil] at this
      exact this
  | .section_ o c l body next, hw => by
    intro α h K hK f fs secs rest hl ht
    have e : (Tpl.section_ o c l body next).toks ++ rest = o.tok (.func (.begin_ l true)) ::
        (body.toks ++ (c.tok (.func (.end_ l true)) :: (next.toks ++ rest))) := by simp [Tpl.toks]
    rw [e, hK _ _ _ (some str!"begin") (by simp; omega) rfl (by simp), exec_simple cx _ _ _ _ rfl rfl, Tpl.eval]
    simp only [execSimple, Res.mapErr_ok, Res.bind_ok, execBegin]
    rw [tpl_means cx body hw.1 _ h K hK (Frame.new (str!"begin:" ++ l)) (f :: fs) secs _ (by simp; omega) ht.1]
    show (body.eval cx ([] :: f.vars :: fs.map (·.vars)) secs).bind _ = _
    cases hb : body.eval cx ([] :: f.vars :: fs.map (·.vars)) secs with
    | err e => rfl
    | panic p => rfl
    | ok r =>
      simp only [Res.bind_ok]
      rw [hK _ _ _ (some str!"end") (by simp; omega) rfl (by simp), exec_endSection cx c l _ _ f fs _ rfl]
      simp only [Res.bind_ok]
      have ho : (grown (Frame.new (str!"begin:" ++ l)) r.vars r.out).out = r.out := by simp [grown, Frame.new]
      rw [ho, emit_grown, List.append_assoc]
      exact means_next (tpl_means cx next hw.2) hK f fs secs rest hl ⟨[], r.out, r.secs ++ [(l, r.out)]⟩
        (by rw [extend_nil]; exact ht.2 r hb)
  | .loop o c fn body next, hw => by
    intro α h K hK f fs secs rest hl ht
    have e : (Tpl.loop o c fn body next).toks ++ rest = o.tok (.func (.for_ fn)) ::
        (body.toks ++ (c.tok (.func (.end_ str!"for" false)) :: (next.toks ++ rest))) := by simp [Tpl.toks]
    rw [e, hK _ _ _ (some str!"for") (by simp; omega) rfl (by simp), exec_for cx _ _ _ fn rfl, Tpl.eval]
    have hi := items_arrange cx fn (f :: fs)
    rw [List.map_cons] at hi
    simp only [Tpl.Tame] at ht
    rw [hi] at ht ⊢
    simp only
    cases hf : forItems cx fn (f :: fs) with
    | err e => rfl
    | panic p => rfl
    | ok l =>
      rw [hf] at ht
      simp only [Res.bind_ok, Res.mapErr_ok]
      obtain ⟨h1, h2, h3⟩ := ht _ rfl
      rw [iter_means (tpl_means cx body hw.1) _ c fn.var _ fs _ f secs _ h2]
      cases hb : eachItem (body.eval cx) fn.var (f.vars :: fs.map (·.vars)) (arrange fn l) secs with
      | err e => rfl
      | panic p => rfl
      | ok r =>
        simp only [Res.bind_ok, if_neg h1]
        exact means_next (tpl_means cx next hw.2) hK f fs secs rest hl ⟨[], r.1, r.2⟩
          (by rw [extend_nil]; exact h3 r hb)
  | .if_ o c test thn next, hw => by
    intro α h K hK f fs secs rest hl ht
    have e : (Tpl.if_ o c test thn next).toks ++ rest = o.tok (.func test.fn) ::
        (thn.toks ++ (c.tok (.func (.end_ test.word false)) :: (next.toks ++ rest))) := by simp [Tpl.toks]
    obtain ⟨n, hn1, hn2⟩ := test_name o test
    rw [e, hK _ _ _ n (by simp; omega) hn1 hn2, exec_test, Tpl.eval]
    simp only [List.map_cons, List.length_cons]
    simp only [Tpl.Tame] at ht
    cases hb : test.eval (f.vars :: fs.map (·.vars)) with
    | err e => rfl
    | panic p => rfl
    | ok b =>
      simp only [Res.bind_ok, Res.mapErr_ok]
      have hword := testFrame_word test
      cases b with
      | true =>
        obtain ⟨h1, h2⟩ := ht.1 hb
        rw [tpl_means cx thn hw.1 _ (fs.length + 1) _ (branch_consumes cx _ _) (Frame.new (testFrame test)) (f :: fs)
          secs _ (by simp) h1]
        show ((thn.eval cx ([] :: f.vars :: fs.map (·.vars)) secs).bind _).bind _ = _
        simp only [if_true]
        cases hx : thn.eval cx ([] :: f.vars :: fs.map (·.vars)) secs with
        | err e => rfl
        | panic p => rfl
        | ok r =>
          simp only [Res.bind_ok]
          rw [branch_end cx _ true c _ _ _ f fs _ (by exact hword)]
          simp only [Res.bind_ok]
          have ho : (grown (Frame.new (testFrame test)) r.vars r.out).out = r.out := by simp [grown, Frame.new]
          rw [ho, emit_grown]
          exact means_next (tpl_means cx next hw.2) hK f fs secs rest hl ⟨[], r.out, r.secs⟩
            (by rw [extend_nil]; exact h2 r hx)
      | false =>
        obtain ⟨h1, h2⟩ := ht.2 hb
        rw [branch_skip cx _ _ thn hw.1 h1 _ _ (by simp), branch_end cx _ false c _ _ _ f fs _ (by exact hword)]
        simp only [Res.bind_ok, Bool.false_eq_true, if_false]
        have := means_next (tpl_means cx next hw.2) hK f fs secs rest hl ⟨[], [], []⟩
            (by rw [extend_nil, List.append_nil]; exact h2)
        simpa [emit_grown, Frame.new, grown_nil] using this
  | .ifElse o m c test thn els next, hw => by
    intro α h K hK f fs secs rest hl ht
    have e : (Tpl.ifElse o m c test thn els next).toks ++ rest = o.tok (.func test.fn) ::
        (thn.toks ++ (m.tok (.func .else_) :: (els.toks ++
          (c.tok (.func (.end_ test.word false)) :: (next.toks ++ rest))))) := by simp [Tpl.toks]
    obtain ⟨n, hn1, hn2⟩ := test_name o test
    rw [e, hK _ _ _ n (by simp; omega) hn1 hn2, exec_test, Tpl.eval]
    simp only [List.map_cons, List.length_cons]
    simp only [Tpl.Tame] at ht
    cases hb : test.eval (f.vars :: fs.map (·.vars)) with
    | err e => rfl
    | panic p => rfl
    | ok b =>
      simp only [Res.bind_ok, Res.mapErr_ok]
      have hword := testFrame_word test
      have hif := testFrame_if test
      cases b with
      | true =>
        obtain ⟨h0, h1, h2⟩ := ht.1 hb
        rw [tpl_means cx thn hw.1 _ (fs.length + 1) _ (branch_consumes cx _ _) (Frame.new (testFrame test)) (f :: fs)
          secs _ (by simp) h1]
        show ((thn.eval cx ([] :: f.vars :: fs.map (·.vars)) secs).bind _).bind _ = _
        simp only [if_true]
        cases hx : thn.eval cx ([] :: f.vars :: fs.map (·.vars)) secs with
        | err e => rfl
        | panic p => rfl
        | ok r =>
          simp only [Res.bind_ok]
          rw [branch_else cx _ true m _ _ f fs _ (by exact hif), Bool.not_true,
            branch_skip cx _ _ els hw.2.1 h0 _ _ (by simp),
            branch_end cx _ false c _ _ _ f fs _ (by exact hword)]
          simp only [Res.bind_ok]
          have ho : (grown (Frame.new (testFrame test)) r.vars r.out).out = r.out := by simp [grown, Frame.new]
          rw [ho, emit_grown]
          exact means_next (tpl_means cx next hw.2.2) hK f fs secs rest hl ⟨[], r.out, r.secs⟩
            (by rw [extend_nil]; exact h2 r hx)
      | false =>
        obtain ⟨h0, h1, h2⟩ := ht.2 hb
        rw [branch_skip cx _ _ thn hw.1 h0 _ _ (by simp),
          branch_else cx _ false m _ _ f fs _ (by exact hif), Bool.not_false,
          tpl_means cx els hw.2.1 _ (fs.length + 1) _ (branch_consumes cx _ _) (Frame.new (testFrame test)) (f :: fs)
          secs _ (by simp) h1]
        show ((els.eval cx ([] :: f.vars :: fs.map (·.vars)) secs).bind _).bind _ = _
        simp only [Bool.false_eq_true, if_false]
        cases hx : els.eval cx ([] :: f.vars :: fs.map (·.vars)) secs with
        | err e => rfl
        | panic p => rfl
        | ok r =>
          simp only [Res.bind_ok]
          rw [branch_end cx _ true c _ _ _ f fs _ (by exact hword)]
          simp only [Res.bind_ok]
          have ho : (grown (Frame.new (testFrame test)) r.vars r.out).out = r.out := by simp [grown, Frame.new]
          rw [ho, emit_grown]
          exact means_next (tpl_means cx next hw.2.2) hK f fs secs rest hl ⟨[], r.out, r.secs⟩
            (by rw [extend_nil]; exact h2 r hx)

end Stuart
