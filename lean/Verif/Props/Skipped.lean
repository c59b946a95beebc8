import Verif.Props.Block
/-
Companions of C17 and C18: what an empty loop and a branch that is not taken do, for every sequence of tokens.
-/
namespace Stuart
open Spec

/-! ### C17 -/

/-- C17, what happens instead, in full: a loop over nothing is as if its `for` were not there. What follows it, its body
and its `end(for)` included, is processed in the enclosing scope. -/
theorem C17_exact (cx : Ctx) (t : LTok) (fn : ForFn) (rest : List LTok) (f : Frame) (fs : List Frame) (secs : Sections)
    (ht : t.inner = .func (.for_ fn)) (hi : items cx fn (f.vars :: fs.map (·.vars)) = .ok []) :
    runToks cx (t :: rest) ⟨f :: fs, secs⟩ = runToks cx rest ⟨f :: fs, secs⟩ := by
  rw [runToks_cons, exec_for cx _ _ _ fn ht]
  have ha := items_arrange cx fn (f :: fs)
  rw [List.map_cons, hi] at ha
  cases hf : forItems cx fn (f :: fs) with
  | err e => rw [hf] at ha; cases ha
  | panic p => rw [hf] at ha; cases ha
  | ok l =>
    rw [hf] at ha
    simp only [Res.bind_ok, Res.ok.injEq] at ha
    simp only [Res.mapErr_ok, Res.bind_ok, ← ha]
    rfl

/-- A loop over an empty array inside another loop. -/
example : items demoCx (demoFor str!"e.json") (([] : List (Str × Value)) :: [demoBase].map (·.vars)) = .ok [] := rfl

/-! ### C18 -/

/-- A token at which a branch that is not taken does not stop: anything but `end` and `else`. A plugin's function must
report its name. -/
def PassedOver (t : LTok) : Prop :=
  (∀ l c, t.inner ≠ .func (.end_ l c)) ∧ t.inner ≠ .func .else_ ∧
    ∀ g, t.inner = .func (.plugin g) → ∃ n, g.name = some n ∧ n ≠ str!"end" ∧ n ≠ str!"else"

theorem passedOver_name {t : LTok} (h : PassedOver t) :
    ∃ n, tokName t = .ok n ∧ n ≠ some str!"else" ∧ n ≠ some str!"end" := by
  obtain ⟨h1, h2, h3⟩ := h
  unfold tokName
  cases ht : t.inner with
  | raw s => exact ⟨none, rfl, by simp, by simp⟩
  | var v => exact ⟨none, rfl, by simp, by simp⟩
  | func f =>
    rw [ht] at h1 h2 h3
    cases f with
    | plugin p =>
      obtain ⟨n, e1, e2, e3⟩ := h3 p rfl
      exact ⟨some n, by simp [Fn.name, e1], by simpa using e3, by simpa using e2⟩
    | end_ l c => exact absurd rfl (h1 l c)
    | else_ => exact absurd rfl h2
    | cmp op a b => cases op <;> exact ⟨_, rfl, by simp [CmpFn.name], by simp [CmpFn.name]⟩
    | _ => exact ⟨_, rfl, by simp, by simp⟩

theorem branch_pass (cx : Ctx) (eof h) (rest : List LTok) (st : St) (hh : h < st.stack.length) :
    ∀ (l : List LTok), (∀ t ∈ l, PassedOver t) → branch cx eof h false (l ++ rest) st = branch cx eof h false rest st
  | [], _ => rfl
  | t :: l, hl => by
    obtain ⟨n, h1, h2, h3⟩ := passedOver_name (hl t (.head _))
    rw [List.cons_append, branch_eq, if_neg (by omega)]
    have e1 : (n == some str!"else") = false := by simpa using h2
    have e2 : (n == some str!"end") = false := by simpa using h3
    simp only [h1, Res.bind_ok, e1, e2, Bool.false_or, Bool.false_and, Bool.false_eq_true, if_false]
    exact branch_pass cx eof h rest st hh l (fun t ht => hl t (.tail _ ht))

variable (cx : Ctx) (o m c : At) (test : Test) (skipped rest : List LTok) (f : Frame) (fs : List Frame) (secs : Sections)

/-- C18, what happens in full. A test that fails looks for the first `end` or `else`, whatever blocks are opened before
it. If it is the `end` of the test, the page goes on after it. -/
theorem C18_first_end (hb : test.eval (f.vars :: fs.map (·.vars)) = .ok false) (hs : ∀ t ∈ skipped, PassedOver t) :
    runToks cx (o.tok (.func test.fn) :: (skipped ++ c.tok (.func (.end_ test.word false)) :: rest)) ⟨f :: fs, secs⟩ =
      runToks cx rest ⟨f :: fs, secs⟩ := by
  rw [runToks_cons, exec_test]
  simp only [List.map_cons, hb, Res.mapErr_ok, Res.bind_ok, List.length_cons]
  rw [branch_pass cx _ _ _ _ (by simp) _ hs, branch_end cx _ false c _ _ _ f fs _ (testFrame_word test)]
  simp [Frame.new, Frame.emit]

/-- If it is any other `end`, rendering fails there. -/
theorem C18_first_end_other (l : Str) (custom : Bool) (hl : custom = true ∨ l ≠ test.word ∧ ':' ∉ l)
    (hb : test.eval (f.vars :: fs.map (·.vars)) = .ok false) (hs : ∀ t ∈ skipped, PassedOver t) :
    runToks cx (o.tok (.func test.fn) :: (skipped ++ c.tok (.func (.end_ l custom)) :: rest)) ⟨f :: fs, secs⟩ =
      .err (c.err .endWithoutBegin) := by
  rw [runToks_cons, exec_test]
  simp only [List.map_cons, hb, Res.mapErr_ok, Res.bind_ok, List.length_cons]
  rw [branch_pass cx _ _ _ _ (by simp) _ hs, branch_eq, if_neg (by simp)]
  have hn : tokName (c.tok (.func (.end_ l custom))) = .ok (some str!"end") := rfl
  simp only [hn, Res.bind_ok]
  rw [if_pos (by simp), exec_simple cx _ rest _ _ rfl rfl]
  have hname : testFrame test = test.word ++ ':' :: (testFrame test).drop (test.word.length + 1) := by
    obtain ⟨r, hr⟩ := List.isPrefixOf_iff_prefix.1 (testFrame_word test)
    rw [← hr]; simp
  have hw : ':' ∉ test.word := by
    cases test with
    | defined v => simp [Test.word]
    | cmp op a b => cases op <;> simp [Test.word]
  have he : execEnd l custom ⟨Frame.new (testFrame test) :: f :: fs, secs⟩ = .err .endWithoutBegin := by
    unfold execEnd
    cases custom with
    | true =>
      have : (testFrame test == str!"begin:" ++ l) = false := by
        have hi := testFrame_if test
        generalize testFrame test = n at hi
        obtain ⟨r, rfl⟩ := List.isPrefixOf_iff_prefix.1 hi
        simp
      simp only [Frame.new, this]
      rfl
    | false =>
      obtain ⟨h1, h2⟩ : l ≠ test.word ∧ ':' ∉ l := by simpa using hl
      have : startsWith (l ++ [':']) (testFrame test) = false := by
        cases hp : startsWith (l ++ [':']) (testFrame test) with
        | false => rfl
        | true =>
          obtain ⟨r, hr⟩ := List.isPrefixOf_iff_prefix.1 hp
          rw [hname] at hr
          refine absurd ?_ h1
          have key : ∀ (a b r s : Str), ':' ∉ a → ':' ∉ b → a ++ ':' :: r = b ++ ':' :: s → a = b := by
            intro a
            induction a with
            | nil =>
              intro b r s _ hb h
              cases b with
              | nil => rfl
              | cons x b => cases h; simp at hb
            | cons y a ih =>
              intro b r s ha hb h
              cases b with
              | nil => cases h; simp at ha
              | cons x b =>
                simp only [List.cons_append, List.cons.injEq] at h
                rw [h.1, ih b r s (fun hm => ha (.tail _ hm)) (fun hm => hb (.tail _ hm)) h.2]
          exact key l test.word r _ h2 hw (by rw [← hr]; simp)
      simp only [Frame.new, this]
      rfl
  simp only [execSimple, he]
  rfl

/-- If it is an `else`, what follows up to the `end` of the test is rendered, even if the `else` belongs to a block opened
before it. -/
theorem C18_first_else (taken : Tpl) (hw : taken.WF) (ht : taken.Tame cx ([] :: f.vars :: fs.map (·.vars)) secs)
    (hb : test.eval (f.vars :: fs.map (·.vars)) = .ok false) (hs : ∀ t ∈ skipped, PassedOver t) :
    runToks cx (o.tok (.func test.fn) :: (skipped ++ m.tok (.func .else_) ::
        (taken.toks ++ c.tok (.func (.end_ test.word false)) :: rest))) ⟨f :: fs, secs⟩ =
      (taken.eval cx ([] :: f.vars :: fs.map (·.vars)) secs).bind fun r =>
        runToks cx rest ⟨{ f with out := f.out ++ r.out } :: fs, secs ++ r.secs⟩ := by
  rw [runToks_cons, exec_test]
  simp only [List.map_cons, hb, Res.mapErr_ok, Res.bind_ok, List.length_cons]
  rw [branch_pass cx _ _ _ _ (by simp) _ hs, branch_else cx _ false m _ _ f fs _ (testFrame_if test), Bool.not_false,
    tpl_means cx taken hw _ (fs.length + 1) _ (branch_consumes cx _ _) (Frame.new (testFrame test)) (f :: fs)
      secs _ (by simp) ht]
  show ((taken.eval cx ([] :: f.vars :: fs.map (·.vars)) secs).bind _).bind _ = _
  cases taken.eval cx ([] :: f.vars :: fs.map (·.vars)) secs with
  | err e => rfl
  | panic p => rfl
  | ok r =>
    simp only [Res.bind_ok]
    rw [branch_end cx _ true c _ _ _ f fs _ (testFrame_word test)]
    have ho : (grown (Frame.new (testFrame test)) r.vars r.out).out = r.out := by simp [grown, Frame.new]
    simp only [Res.bind_ok, ho, Frame.emit]

/-- If there is none, rendering fails at the test. -/
theorem C18_no_end (hb : test.eval (f.vars :: fs.map (·.vars)) = .ok false) (hs : ∀ t ∈ skipped, PassedOver t) :
    runToks cx (o.tok (.func test.fn) :: skipped) ⟨f :: fs, secs⟩ = .err (o.err .unexpectedEndOfFile) := by
  rw [runToks_cons, exec_test]
  simp only [List.map_cons, hb, Res.mapErr_ok, Res.bind_ok, List.length_cons]
  have := branch_pass cx (o.err .unexpectedEndOfFile) (fs.length + 1) [] ⟨Frame.new (testFrame test) :: f :: fs, secs⟩ (by simp) _ hs
  rw [List.append_nil] at this
  rw [this, branch_eq, if_neg (by simp)]
  rfl

/-- Blocks opened in the branch that is not taken do not count. -/
theorem openers_passed : ∀ t ∈ [here.tok (.func (.for_ (demoFor str!"a.json"))), here.tok (.func (Test.cmp .ifeq (.int 1) (.int 1)).fn),
    here.tok (.func (.begin_ str!"x" true)), here.tok (.raw str!"A")], PassedOver t := by
  intro t ht
  simp only [List.mem_cons, List.not_mem_nil, or_false] at ht
  rcases ht with rfl | rfl | rfl | rfl <;>
    exact ⟨(fun _ _ h => by cases h), (fun h => by cases h), (fun _ h => by cases h)⟩

example : runToks demoCx (here.tok (.func (Test.cmp .ifeq (.int 1) (.int 2)).fn) ::
    ([here.tok (.func (.for_ (demoFor str!"a.json"))), here.tok (.func (Test.cmp .ifeq (.int 1) (.int 1)).fn),
      here.tok (.func (.begin_ str!"x" true)), here.tok (.raw str!"A")] ++
      here.tok (.func .else_) :: ((demoText str!"B" .nil).toks ++ here.tok (.func (.end_ str!"ifeq" false)) :: []))) ⟨[demoBase], []⟩ =
    .ok ⟨[{ demoBase with out := bytesOf str!"B" }], []⟩ :=
  C18_first_else demoCx here here here (.cmp .ifeq (.int 1) (.int 2)) _ [] demoBase [] [] (demoText str!"B" .nil)
    (by simp [demoText, Tpl.WF, Plain]) (fun _ _ => trivial) rfl openers_passed

example := C18_first_end demoCx here here (.cmp .ifeq (.int 1) (.int 2)) _ [here.tok (.raw str!"B")] demoBase [] [] rfl openers_passed

example := C18_first_end_other demoCx here here (.cmp .ifeq (.int 1) (.int 2)) _ [here.tok (.raw str!"B")] demoBase [] [] str!"for" false
  (.inr ⟨by decide, by decide⟩) rfl openers_passed

example := C18_no_end demoCx here (.cmp .ifeq (.int 1) (.int 2)) _ demoBase [] [] rfl openers_passed

example := C17_exact demoCx (here.tok (.func (.for_ (demoFor str!"e.json")))) _ [here.tok (.raw str!"x"), here.tok (.func (.end_ str!"for" false))]
  ⟨str!"for:i", [], []⟩ [demoBase] [] rfl rfl

end Stuart
