import Verif.Proof.Block
import Verif.Spec.Select
/-
Properties C16–C19, C23–C25: blocks, loops and conditionals.
-/
namespace Stuart
open Spec

/-! ### Data for the examples -/

/-- A project with one JSON file and no dates. -/
def demoCx : Ctx where
  input := .dir [] [.file str!"a.json" [] (.json (.arr [.str str!"x", .str str!"y"])) none [],
    .file str!"e.json" [] (.json (.arr [])) none []] []
  dateFmt := fun _ _ => none

/-- A page scope. -/
def demoBase : Frame := ⟨str!"base", [(str!"s", .str str!"S"), (str!"n", .num (.fin 3))], []⟩

/-- A place. -/
def here : At := ⟨str!"p", 1, 1⟩

/-- A loop over a JSON file. -/
def demoFor (file : Str) : ForFn := ⟨str!"i", file, .jsonFile, none, none, none, false⟩

/-- `{{ $v }}` -/
def demoVar (v : Str) (next : Tpl) : Tpl := .leaf here (.var v) next

/-- A text. -/
def demoText (s : Str) (next : Tpl) : Tpl := .leaf here (.raw s) next

/-! ### C16

The full claim is the statement of `C16_blocks_partial` without `Tame`. It is false: see C17 and C18. -/

/-- C16, where no loop is empty and no branch that is not taken holds a block: a properly nested template renders as
it reads (`Tpl.eval`), for every template, every data and every enclosing scopes. Failures agree as well. -/
theorem C16_blocks_partial (cx : Ctx) (tpl : Tpl) (hw : tpl.WF) (f : Frame) (fs : List Frame) (secs : Sections)
    (ht : tpl.Tame cx (f.vars :: fs.map (·.vars)) secs) :
    runToks cx tpl.toks ⟨f :: fs, secs⟩ =
      (tpl.eval cx (f.vars :: fs.map (·.vars)) secs).bind fun r =>
        .ok ⟨{ f with vars := f.vars ++ r.vars, out := f.out ++ r.out } :: fs, secs ++ r.secs⟩ := by
  have := tpl_means cx tpl hw _ 0 _ (runToks_consumes cx) f fs secs [] (by omega) ht
  rw [List.append_nil] at this
  rw [this]
  cases tpl.eval cx (f.vars :: fs.map (·.vars)) secs with
  | ok r => simp [runToks_nil, grown]
  | err e => rfl
  | panic p => rfl

/-- A section holding a loop holding a conditional: the template of the example below. -/
def demoTpl : Tpl :=
  .section_ here here str!"main"
    (.loop here here (demoFor str!"a.json")
      (.ifElse here here here (.cmp .ifeq (.var str!"i") (.str str!"x"))
        (demoText str!"first " .nil) (demoVar str!"i" (demoVar str!"s" .nil)) .nil) .nil) .nil

theorem demoTpl_wf : demoTpl.WF := by simp [demoTpl, demoText, demoVar, Tpl.WF, Plain]

/-- It meets the hypotheses, and this is its meaning. -/
theorem demoTpl_case : demoTpl.Tame demoCx [demoBase.vars] [] ∧
    demoTpl.eval demoCx [demoBase.vars] [] =
      .ok ⟨[], bytesOf str!"first yS", [(str!"main", bytesOf str!"first yS")]⟩ := by
  have hi : items demoCx (demoFor str!"a.json") [[], demoBase.vars] = .ok [.str str!"x", .str str!"y"] := rfl
  refine ⟨⟨?_, fun r _ => trivial⟩, rfl⟩
  intro its hits
  rw [hi] at hits
  cases hits
  refine ⟨by simp, ⟨?_, fun r _ => ⟨?_, fun r _ => trivial⟩⟩, fun r _ => trivial⟩
  · refine ⟨fun _ => ⟨trivial, fun r _ => trivial, fun r _ => trivial⟩, fun h => ?_⟩
    have : (Test.cmp .ifeq (.var str!"i") (.str str!"x")).eval
        [[(str!"i", .str str!"x")], [], demoBase.vars] = .ok true := rfl
    exact absurd (h.symm.trans this) (by simp)
  · refine ⟨fun h => ?_, fun _ => ⟨trivial, fun r _ => fun r _ => trivial, fun r _ => trivial⟩⟩
    have : (Test.cmp .ifeq (.var str!"i") (.str str!"x")).eval
        [[(str!"i", .str str!"y")], [], demoBase.vars] = .ok false := rfl
    exact absurd (h.symm.trans this) (by simp)

/-! ### C17

The full claim is: if `items cx fn scs = .ok []` then the run of the loop followed by `next` is the run of `next`.
It is false. -/

/-- C17: an empty loop outside other loops never contributes output to a page, because rendering fails: its body is
run once as if it were not in a loop, and then its `end(for)` is an error. Missing: the template should go on. -/
theorem C17_empty_loop_partial (cx : Ctx) (o c : At) (fn : ForFn) (body next : Tpl) (f : Frame) (fs : List Frame)
    (secs : Sections) (hw : body.WF) (hi : items cx fn (f.vars :: fs.map (·.vars)) = .ok [])
    (ht : body.Tame cx (f.vars :: fs.map (·.vars)) secs) (hn : ¬ str!"for:" <+: f.name) :
    runToks cx (Tpl.loop o c fn body next).toks ⟨f :: fs, secs⟩ =
      (body.eval cx (f.vars :: fs.map (·.vars)) secs).bind fun _ => .err (c.err .endWithoutBegin) := by
  have e : (Tpl.loop o c fn body next).toks = o.tok (.func (.for_ fn)) ::
      (body.toks ++ (c.tok (.func (.end_ str!"for" false)) :: next.toks)) := by simp [Tpl.toks]
  rw [e, runToks_cons, exec_for cx _ _ _ fn rfl]
  have ha := items_arrange cx fn (f :: fs)
  rw [List.map_cons, hi] at ha
  cases hf : forItems cx fn (f :: fs) with
  | err e => rw [hf] at ha; cases ha
  | panic p => rw [hf] at ha; cases ha
  | ok l =>
    rw [hf] at ha
    simp only [Res.bind_ok, Res.ok.injEq] at ha
    simp only [Res.mapErr_ok, Res.bind_ok, ← ha, iter_nil]
    rw [tpl_means cx body hw _ 0 _ (runToks_consumes cx) f fs secs _ (by omega) ht]
    congr 1
    funext r
    rw [runToks_cons, exec_simple cx _ _ _ _ rfl rfl]
    have : startsWith (str!"for" ++ [':']) (grown f r.vars r.out).name = false := by
      rw [Bool.eq_false_iff]
      intro hh
      exact hn (List.isPrefixOf_iff_prefix.1 hh)
    simp only [execSimple, execEnd, this]
    rfl

/-- C17 fails: a page with a loop over an empty array does not render. -/
theorem C17_counterexample :
    runToks demoCx (Tpl.loop here here (demoFor str!"e.json") (demoText str!"A" .nil) (demoText str!"B" .nil)).toks
      ⟨[demoBase], []⟩ = .err (here.err .endWithoutBegin) := rfl

/-- C17 fails silently inside another loop: with the items `[]` and `["q"]`, the inner loop over nothing renders its
body `A` once and the `B` after it is left out. The output should be `BAB`. -/
theorem C17_counterexample_silent :
    runToks demoCx
      (Tpl.loop here here ⟨str!"i", str!"l", .jsonObj, none, none, none, false⟩
        (.loop here here ⟨str!"j", str!"i", .jsonObj, none, none, none, false⟩ (demoText str!"A" .nil)
          (demoText str!"B" .nil)) .nil).toks
      ⟨[⟨str!"base", [(str!"l", .arr [.arr [], .arr [.str str!"q"]])], []⟩], []⟩ =
    .ok ⟨[⟨str!"base", [(str!"l", .arr [.arr [], .arr [.str str!"q"]])], bytesOf str!"AAB"⟩], []⟩ := rfl

/-- The hypotheses of `C17_empty_loop_partial` are met by a page. -/
example : items demoCx (demoFor str!"e.json") [demoBase.vars] = .ok [] ∧ ¬ str!"for:" <+: demoBase.name :=
  ⟨rfl, by decide⟩

/-! ### C18

The full claim is `C18_not_taken_partial` without `Flat`. It is false. -/

/-- C18, for a branch without blocks: the conditional is its other branch (or nothing) followed by the rest, whatever
the branch that is not taken contains; that branch is not looked at by the right-hand side at all. -/
theorem C18_not_taken_partial (cx : Ctx) (o m c : At) (test : Test) (skipped taken : Tpl) (b : Bool)
    (f : Frame) (fs : List Frame) (secs : Sections) (hs : skipped.WF) (hw : taken.WF) (hf : skipped.Flat)
    (hb : test.eval (f.vars :: fs.map (·.vars)) = .ok b)
    (ht : taken.Tame cx ([] :: f.vars :: fs.map (·.vars)) secs) :
    runToks cx (Tpl.ifElse o m c test (if b then taken else skipped) (if b then skipped else taken) .nil).toks
      ⟨f :: fs, secs⟩ =
      (taken.eval cx ([] :: f.vars :: fs.map (·.vars)) secs).bind fun r =>
        .ok ⟨{ f with out := f.out ++ r.out } :: fs, secs ++ r.secs⟩ := by
  cases b with
  | true =>
    simp only [if_true]
    rw [C16_blocks_partial cx (.ifElse o m c test taken skipped .nil) ⟨hw, hs, trivial⟩ f fs secs
      ⟨fun _ => ⟨hf, ht, fun _ _ => trivial⟩, fun h => absurd (hb.symm.trans h) (by simp)⟩]
    simp only [Tpl.eval, if_true, hb, Res.mapErr_ok, Res.bind_ok]
    cases taken.eval cx ([] :: f.vars :: fs.map (·.vars)) secs <;> simp [andThen]
  | false =>
    simp only [Bool.false_eq_true, if_false]
    rw [C16_blocks_partial cx (.ifElse o m c test skipped taken .nil) ⟨hs, hw, trivial⟩ f fs secs
      ⟨fun h => absurd (hb.symm.trans h) (by simp), fun _ => ⟨hf, ht, fun _ _ => trivial⟩⟩]
    simp only [Tpl.eval, hb, Res.mapErr_ok, Res.bind_ok, Bool.false_eq_true, if_false]
    cases taken.eval cx ([] :: f.vars :: fs.map (·.vars)) secs <;> simp [andThen]

/-- The same without an `else`: the conditional vanishes. -/
theorem C18_no_else_partial (cx : Ctx) (o c : At) (test : Test) (skipped : Tpl)
    (f : Frame) (fs : List Frame) (secs : Sections) (hs : skipped.WF) (hf : skipped.Flat)
    (hb : test.eval (f.vars :: fs.map (·.vars)) = .ok false) :
    runToks cx (Tpl.if_ o c test skipped .nil).toks ⟨f :: fs, secs⟩ = .ok ⟨f :: fs, secs⟩ := by
  rw [C16_blocks_partial cx (.if_ o c test skipped .nil) ⟨hs, trivial⟩ f fs secs
    ⟨fun h => absurd (hb.symm.trans h) (by simp), fun _ => ⟨hf, trivial⟩⟩]
  simp [Tpl.eval, hb, andThen]

/-- C18 fails: a section inside a branch that is not taken makes the page fail. -/
theorem C18_counterexample :
    runToks demoCx (Tpl.if_ here here (.cmp .ifeq (.int 1) (.int 2))
      (.section_ here here str!"x" (demoText str!"A" .nil) .nil) .nil).toks ⟨[demoBase], []⟩ =
    .err (here.err .endWithoutBegin) := rfl

/-- C18 fails: text of a branch that is not taken is rendered. In `ifeq(1,2) ifeq(1,1) A else B end(ifeq) end(ifeq)`
the inner `else` is taken for the outer one, so `B` is output (before the final `end` fails). -/
theorem C18_counterexample_output :
    runToks demoCx ((Tpl.if_ here here (.cmp .ifeq (.int 1) (.int 2))
      (.ifElse here here here (.cmp .ifeq (.int 1) (.int 1)) (demoText str!"A" .nil) (demoText str!"B" .nil) .nil)
      .nil).toks.dropLast) ⟨[demoBase], []⟩ =
    .ok ⟨[{ demoBase with out := bytesOf str!"B" }], []⟩ := rfl

/-- A flat branch with a failing variable: not taken, it has no effect. -/
example : runToks demoCx (Tpl.ifElse here here here (.cmp .ifeq (.var str!"s") (.str str!"S"))
      (demoText str!"A" .nil) (demoVar str!"missing" .nil) .nil).toks ⟨[demoBase], []⟩ =
    .ok ⟨[{ demoBase with out := bytesOf str!"A" }], []⟩ := rfl

/-! ### C19 -/

/-- C19. A loop runs its body once for each of the items that `visited` makes of its source, in that order, with the
item bound to the loop variable; `sortBy` and the source are characterised below. (A loop that visits nothing is the
subject of C17.) -/
theorem C19_loop_order (cx : Ctx) (o c : At) (fn : ForFn) (body : Tpl) (src : List Value) (f : Frame)
    (fs : List Frame) (secs : Sections) (hw : body.WF)
    (hs : source cx fn (f.vars :: fs.map (·.vars)) = .ok src)
    (hne : visited (fn.sortVar.map fun k => (splitOn '.' k).tail) fn.desc fn.skip fn.limit src ≠ [])
    (ht : eachTame (body.eval cx) (body.Tame cx) fn.var (f.vars :: fs.map (·.vars))
      (visited (fn.sortVar.map fun k => (splitOn '.' k).tail) fn.desc fn.skip fn.limit src) secs) :
    runToks cx (Tpl.loop o c fn body .nil).toks ⟨f :: fs, secs⟩ =
      (eachItem (body.eval cx) fn.var (f.vars :: fs.map (·.vars))
        (visited (fn.sortVar.map fun k => (splitOn '.' k).tail) fn.desc fn.skip fn.limit src) secs).bind fun r =>
        .ok ⟨{ f with out := f.out ++ r.1 } :: fs, secs ++ r.2⟩ := by
  have hit : items cx fn (f.vars :: fs.map (·.vars)) =
      .ok (visited (fn.sortVar.map fun k => (splitOn '.' k).tail) fn.desc fn.skip fn.limit src) := by
    unfold items; rw [hs]; rfl
  rw [C16_blocks_partial cx (.loop o c fn body .nil) ⟨hw, trivial⟩ f fs secs ?_]
  · simp only [Tpl.eval, hit, Res.mapErr_ok, Res.bind_ok]
    cases eachItem (body.eval cx) fn.var (f.vars :: fs.map (·.vars))
      (visited (fn.sortVar.map fun k => (splitOn '.' k).tail) fn.desc fn.skip fn.limit src) secs <;>
      simp [andThen]
  · intro its h
    rw [hit] at h
    cases h
    exact ⟨hne, ht, fun _ _ => trivial⟩

theorem insertBy_perm (path : List Str) (v : Value) : ∀ l, (insertBy path v l).Perm (v :: l)
  | [] => List.Perm.refl _
  | w :: ws => by
    unfold insertBy
    split
    · exact List.Perm.refl _
    · exact ((insertBy_perm path v ws).cons w).trans (List.Perm.swap _ _ _)

/-- C19, sorting: the sorted items are the items, in order of their keys, and items with the same key stay in source
order. Items without a string at the key come first, as the empty string does. -/
theorem C19_sorting (path : List Str) (l : List Value) :
    (sortBy path l).Perm l ∧
    (sortBy path l).Pairwise (fun a b => bytesOf (keyOf path a) ≤ bytesOf (keyOf path b)) ∧
    (∀ k, (sortBy path l).filter (fun v => keyOf path v = k) = l.filter (fun v => keyOf path v = k)) ∧
    (∀ v, (∀ s, follow path v ≠ .str s) → keyOf path v = []) ∧
    (∀ b : Bytes, ([] : Bytes) ≤ b) := by
  refine ⟨?_, ?_, ?_, ?_, fun b => List.nil_le b⟩
  · induction l with
    | nil => exact List.Perm.refl _
    | cons v vs ih => exact (insertBy_perm path v _).trans (ih.cons v)
  · induction l with
    | nil => exact List.Pairwise.nil
    | cons v vs ih =>
      have key : ∀ l : List Value, l.Pairwise (fun a b => strLe (keyOf path a) (keyOf path b)) →
          (insertBy path v l).Pairwise (fun a b => strLe (keyOf path a) (keyOf path b)) := by
        intro l
        induction l with
        | nil => intro _; simp [insertBy]
        | cons w ws ihw =>
          intro h
          obtain ⟨h1, h2⟩ := List.pairwise_cons.1 h
          unfold insertBy
          split
          · rename_i hle
            refine List.pairwise_cons.2 ⟨?_, h⟩
            intro x hx
            rcases List.mem_cons.1 hx with rfl | hx
            · exact hle
            · exact strLe_trans hle (h1 x hx)
          · rename_i hle
            refine List.pairwise_cons.2 ⟨?_, ihw h2⟩
            intro x hx
            rcases List.mem_cons.1 ((insertBy_perm path v ws).mem_iff.1 hx) with rfl | hx
            · exact (strLe_total _ _).resolve_left hle
            · exact h1 x hx
      exact key _ ih
  · intro k
    induction l with
    | nil => rfl
    | cons v vs ih =>
      have key : ∀ l : List Value, (insertBy path v l).filter (fun x => keyOf path x = k) =
          (v :: l).filter (fun x => keyOf path x = k) := by
        intro l
        induction l with
        | nil => rfl
        | cons w ws ihw =>
          unfold insertBy
          split
          · rfl
          · rename_i hle
            rw [List.filter_cons, ihw]
            by_cases hw : keyOf path w = k
            · have hv : keyOf path v ≠ k := by
                intro hv
                apply hle
                rw [hv, hw]
                exact List.le_refl _
              simp [hw, hv]
            · simp [List.filter_cons, hw]
      rw [sortBy, key, List.filter_cons, List.filter_cons, ih]
  · intro v h
    unfold keyOf
    split
    · rename_i s hs; exact absurd hs (h s)
    · rfl

/-- Four items, sorted by `k` in descending order with the first dropped. -/
example : visited (some [str!"k"]) true (some 1) none
      [.obj [(str!"k", .str str!"b"), (str!"n", .str str!"1")], .obj [(str!"n", .str str!"2")],
       .obj [(str!"k", .str str!"b"), (str!"n", .str str!"3")], .obj [(str!"k", .str str!"c")]] =
    [.obj [(str!"k", .str str!"b"), (str!"n", .str str!"3")], .obj [(str!"k", .str str!"b"), (str!"n", .str str!"1")],
     .obj [(str!"n", .str str!"2")]] := rfl

example : source demoCx (demoFor str!"a.json") [demoBase.vars] = .ok [.str str!"x", .str str!"y"] := rfl

/-! ### C23–C25 -/

theorem selects_of_eval {cx : Ctx} {test : Test} {scs : Scopes} {b : Bool} (h : test.eval scs = .ok b) :
    Selects cx test scs b := by
  intro o m c yes no f fs secs hscs hy hn hf ht
  subst hscs
  exact C18_not_taken_partial cx o m c test no yes b f fs secs hn hy hf h ht

theorem toI32_int (i : Int) (h : Is32 i) : (Num.fin (i : Rat)).toI32 = i := by
  unfold Is32 at h
  have : (i : Rat).num.tdiv ((i : Rat).den : Int) = i := by simp
  unfold Num.toI32
  simp only [this]
  split
  · omega
  · split
    · omega
    · rfl

theorem operand_stands {scs : Scopes} {a : Input} {x : Operand} (h : Stands scs a x) : operand scs a = .ok x := by
  cases h with
  | int i => rfl
  | text s => rfl
  | varText n path s hd h =>
    unfold operand
    simp only [splitOn_dotted path n hd, h]
  | varInt n path i hd h h32 =>
    unfold operand
    simp only [splitOn_dotted path n hd, h, toI32_int i h32]

/-- C23 for all comparisons but `ifle`: between integers the first branch is selected exactly when the comparison the
function is named for holds. -/
theorem C23_integers_partial (cx : Ctx) (scs : Scopes) (op : CmpFn) (hop : op ≠ .ifle) (a b : Input) (i j : Int)
    (ha : Stands scs a (.int i)) (hb : Stands scs b (.int j)) :
    (CmpFn.rel op i j → Selects cx (.cmp op a b) scs true) ∧
    (¬ CmpFn.rel op i j → Selects cx (.cmp op a b) scs false) := by
  have he : (Test.cmp op a b).eval scs = .ok (compared op (.int i) (.int j)) := by
    simp [Test.eval, operand_stands ha, operand_stands hb]
  constructor
  · intro h
    refine selects_of_eval (he.trans ?_)
    cases op <;> simp_all [CmpFn.rel, compared]
  · intro h
    refine selects_of_eval (he.trans ?_)
    cases op <;> simp_all [CmpFn.rel, compared]

/-- C23, what `ifle` does instead: it is strict. -/
theorem C23_ifle_strict (cx : Ctx) (scs : Scopes) (a b : Input) (i j : Int)
    (ha : Stands scs a (.int i)) (hb : Stands scs b (.int j)) :
    (i < j → Selects cx (.cmp .ifle a b) scs true) ∧ (¬ i < j → Selects cx (.cmp .ifle a b) scs false) := by
  have he : (Test.cmp .ifle a b).eval scs = .ok (decide (i < j)) := by
    simp [Test.eval, operand_stands ha, operand_stands hb, compared]
  exact ⟨fun h => selects_of_eval (he.trans (by simp [h])), fun h => selects_of_eval (he.trans (by simp [h]))⟩

/-- C23 fails for `ifle` on equal integers: `ifle(1, 1)` renders its second branch. -/
theorem C23_counterexample :
    runToks demoCx (Tpl.ifElse here here here (.cmp .ifle (.int 1) (.int 1))
      (demoText str!"yes" .nil) (demoText str!"no" .nil) .nil).toks ⟨[demoBase], []⟩ =
    .ok ⟨[{ demoBase with out := bytesOf str!"no" }], []⟩ := rfl

/-- C23, strings: equality and inequality compare the texts. -/
theorem C23_texts (cx : Ctx) (scs : Scopes) (a b : Input) (s t : Str)
    (ha : Stands scs a (.text s)) (hb : Stands scs b (.text t)) :
    Selects cx (.cmp .ifeq a b) scs (decide (s = t)) ∧ Selects cx (.cmp .ifne a b) scs (decide (s ≠ t)) := by
  constructor
  · refine selects_of_eval ?_
    simp only [Test.eval, operand_stands ha, operand_stands hb, Res.bind_ok, compared, operand_text_beq]
    congr 1
    by_cases h : s = t <;> simp [h]
  · refine selects_of_eval ?_
    simp only [Test.eval, operand_stands ha, operand_stands hb, Res.bind_ok, compared, bne, operand_text_beq]
    congr 1
    by_cases h : s = t <;> simp [h]

/-- C23, a string and an integer are never equal (in either order). -/
theorem C23_mixed (cx : Ctx) (scs : Scopes) (a b : Input) (s : Str) (i : Int)
    (ha : Stands scs a (.text s)) (hb : Stands scs b (.int i)) :
    Selects cx (.cmp .ifeq a b) scs false ∧ Selects cx (.cmp .ifeq b a) scs false ∧
    Selects cx (.cmp .ifne a b) scs true ∧ Selects cx (.cmp .ifne b a) scs true := by
  refine ⟨selects_of_eval ?_, selects_of_eval ?_, selects_of_eval ?_, selects_of_eval ?_⟩ <;>
    simp [Test.eval, operand_stands ha, operand_stands hb, compared]

/-- The number 3 in a variable against a literal, and a variable's text against a literal. -/
theorem demo_stands : Stands [demoBase.vars] (.var str!"n") (.int 3) ∧ Stands [demoBase.vars] (.var str!"s") (.text str!"S") ∧
    CmpFn.rel .ifge 3 3 ∧ ¬ CmpFn.rel .ifgt 3 3 := by
  refine ⟨.varInt str!"n" [] 3 (by unfold Dotless; decide) rfl (by decide),
    .varText str!"s" [] str!"S" (by unfold Dotless; decide) rfl, ?_, ?_⟩ <;> simp [CmpFn.rel]

/-- C24, for numbers that are integers in the 32-bit range, wherever they come from: the outcome is that of comparing
the numbers. (This is `C23_integers_partial` with JSON numbers as operands; missing are fractions and numbers out of
range.) -/
theorem C24_numbers_partial (cx : Ctx) (scs : Scopes) (op : CmpFn) (hop : op ≠ .ifle) (n m : Str)
    (p q : List Str) (i j : Int) (hn : Dotless n p) (hm : Dotless m q)
    (hi : denoted n p scs = some (.num (.fin i))) (hj : denoted m q scs = some (.num (.fin j)))
    (hi32 : Is32 i) (hj32 : Is32 j) :
    (CmpFn.rel op i j → Selects cx (.cmp op (.var (dotted n p)) (.var (dotted m q))) scs true) ∧
    (¬ CmpFn.rel op i j → Selects cx (.cmp op (.var (dotted n p)) (.var (dotted m q))) scs false) :=
  C23_integers_partial cx scs op hop _ _ i j (.varInt n p i hn hi hi32) (.varInt m q j hm hj hj32)

/-- C24 fails: 1.9 equals 1. -/
theorem C24_counterexample :
    runToks demoCx (Tpl.ifElse here here here (.cmp .ifeq (.var str!"x") (.int 1))
      (demoText str!"yes" .nil) (demoText str!"no" .nil) .nil).toks
      ⟨[⟨str!"base", [(str!"x", .num (.fin (19/10)))], []⟩], []⟩ =
    .ok ⟨[⟨str!"base", [(str!"x", .num (.fin (19/10)))], bytesOf str!"yes"⟩], []⟩ := by
  with_unfolding_all rfl

/-- C24 fails: three thousand million equals two thousand million odd. -/
theorem C24_counterexample_range :
    (Test.cmp .ifeq (.var str!"x") (.int 2147483647)).eval [[(str!"x", .num (.fin 3000000000))]] = .ok true := by
  decide +kernel

/-- C25. `ifdefined($x)` selects its first branch exactly when the path denotes a value other than null. -/
theorem C25_ifdefined (cx : Ctx) (scs : Scopes) (n : Str) (path : List Str) (h : Dotless n path) :
    ((∃ v, denoted n path scs = some v ∧ v ≠ .null) → Selects cx (.defined (dotted n path)) scs true) ∧
    ((¬ ∃ v, denoted n path scs = some v ∧ v ≠ .null) → Selects cx (.defined (dotted n path)) scs false) := by
  constructor
  · rintro ⟨v, hv, hne⟩
    refine selects_of_eval ?_
    simp only [Test.eval, splitOn_dotted path n h, hv]
  · intro hno
    refine selects_of_eval ?_
    simp only [Test.eval, splitOn_dotted path n h]
    cases hd : denoted n path scs with
    | none => rfl
    | some v =>
      cases v with
      | null => rfl
      | _ => exact absurd ⟨_, hd, by simp⟩ hno

/-- A path into an object: one that is there and one that is not. -/
example : (∃ v, denoted str!"o" [str!"a", str!"1"] [[], [(str!"o", .obj [(str!"a", .arr [.null, .bool false])])]] =
      some v ∧ v ≠ .null) ∧
    ¬ ∃ v, denoted str!"o" [str!"a", str!"0"] [[], [(str!"o", .obj [(str!"a", .arr [.null, .bool false])])]] =
      some v ∧ v ≠ .null := by
  refine ⟨⟨.bool false, rfl, by simp⟩, ?_⟩
  rintro ⟨v, hv, hne⟩
  have : denoted str!"o" [str!"a", str!"0"] [[], [(str!"o", .obj [(str!"a", .arr [.null, .bool false])])]] =
    some .null := rfl
  rw [this] at hv
  cases hv
  exact hne rfl

/-! ### Cases: each theorem applied to something that meets its hypotheses -/

example := C16_blocks_partial demoCx demoTpl demoTpl_wf demoBase [] [] demoTpl_case.1

example := C17_empty_loop_partial demoCx here here (demoFor str!"e.json") (demoText str!"x" .nil) .nil demoBase [] []
  (by simp [demoText, Tpl.WF, Plain]) rfl (fun r _ => trivial) (by decide)

example := C18_not_taken_partial demoCx here here here (.cmp .ifeq (.int 1) (.int 2)) (demoText str!"A" .nil)
  (demoText str!"B" .nil) false demoBase [] [] (by simp [demoText, Tpl.WF, Plain]) (by simp [demoText, Tpl.WF, Plain])
  (by simp [demoText, Tpl.Flat]) rfl (fun r _ => trivial)

example := C18_no_else_partial demoCx here here (.cmp .ifeq (.int 1) (.int 2)) (demoText str!"A" .nil) demoBase [] []
  (by simp [demoText, Tpl.WF, Plain]) (by simp [demoText, Tpl.Flat]) rfl

example := C19_loop_order demoCx here here ⟨str!"i", str!"a.json", .jsonFile, some 1, some 1, none, false⟩
  (demoVar str!"i" .nil) [.str str!"x", .str str!"y"] demoBase [] [] (by simp [demoVar, Tpl.WF, Plain]) rfl (by simp [visited])
  ⟨fun r _ => trivial, fun r _ => trivial⟩

example := C23_integers_partial demoCx [demoBase.vars] .ifge (by simp) (.var str!"n") (.int 1) 3 1 demo_stands.1 (.int 1)

example := C23_ifle_strict demoCx [demoBase.vars] (.var str!"n") (.int 3) 3 3 demo_stands.1 (.int 3)

example := C23_texts demoCx [demoBase.vars] (.var str!"s") (.str str!"S") str!"S" str!"S" demo_stands.2.1 (.text _)

example := C23_mixed demoCx [demoBase.vars] (.var str!"s") (.int 1) str!"S" 1 demo_stands.2.1 (.int 1)

example := C24_numbers_partial demoCx [[(str!"x", .num (.fin (-1))), (str!"y", .num (.fin 0))]] .ifeq (by simp) str!"x" str!"y"
  [] [] (-1) 0 (by unfold Dotless; decide) (by unfold Dotless; decide) rfl rfl (by decide) (by decide)

example := C25_ifdefined demoCx [[(str!"x", .obj [])]] str!"x" [str!"y"] (by unfold Dotless; decide)

end Stuart
