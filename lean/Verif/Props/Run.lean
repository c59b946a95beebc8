import Verif.Proof.Errors
import Verif.Proof.Tree
import Verif.Proof.Utf8
import Verif.Props.Block
/-
Properties C13–C15, C20–C22, C28, C31–C33, C61: running a token sequence.
-/
namespace Stuart
open Spec

/-! ### C13 -/

/-- C13. A run never exhausts the step bounds of the model, whatever the tokens (balanced or not), the data and the
state: it ends in a state, an error or a panic of the program itself. -/
theorem C13_terminates (cx : Ctx) (toks : List LTok) (st : St) : runToks cx toks st ≠ .panic .fuel := by
  intro h
  have := runToks_panics (S := fun p => p ≠ .fuel) (cx := cx) toks.length toks st (Nat.le_refl _)
    (fun u _ => ⟨fun f _ => ⟨fun _ => by simp, fun _ => by simp⟩,
      fun f stk _ => forItems_panics (fun _ _ _ _ _ _ _ _ _ _ => by simp) f stk⟩)
    (.inr (by simp))
  exact this _ h rfl

/-- C13. The bounds are no part of the meaning: any larger ones give the same result, so there is a number of steps
after which the program has finished. -/
theorem C13_bounds_irrelevant (cx : Ctx) :
    (∀ toks st k, toks.length ≤ k → runGo cx k toks st = runToks cx toks st) ∧
    (∀ t rest st n, rest.length < n → execTok cx n t rest st = execTok cx (rest.length + 1) t rest st) :=
  ⟨fun toks st k h => runGo_fuel cx _ _ _ _ h (Nat.le_refl _), fun t rest st n h => execTok_agree cx _ _ _ _ _ h (by omega)⟩

/-- A loop that re-reads its body, closed by nothing: an error, not an endless run. -/
example : runToks demoCx [here.tok (.func (.for_ (demoFor str!"a.json"))), here.tok (.raw str!"x")] ⟨[demoBase], []⟩ =
    .err (here.err .unexpectedEndOfFile) := rfl

/-! ### C14 -/

theorem base_inv {cx : Ctx} {toks : List LTok} {b : Frame} {secs : Sections} {st : St}
    (h : runToks cx toks ⟨[b], secs⟩ = .ok st) :
    ∃ b' vs o, st.stack.getLast? = some b' ∧ b' = { b with vars := b.vars ++ vs, out := b.out ++ o } := by
  have := runToks_inv (cx := cx)
    (I := fun s => ∃ b' vs o, s.stack.getLast? = some b' ∧ b' = { b with vars := b.vars ++ vs, out := b.out ++ o })
    (by
      rintro s s' _ ⟨b', vs, o, hb, rfl⟩ hs
      obtain ⟨b'', vs', o', hb'', rfl⟩ := hs.bottom _ hb
      exact ⟨_, vs ++ vs', o ++ o', hb'', by simp⟩)
    toks.length toks _ _ (Nat.le_refl _) (by simp) ⟨b, [], [], rfl, by simp⟩ h
  exact this.2

/-- C14. After any token sequence that runs without error the base scope is still at the bottom, with its name and
its variables as they were at the start (perhaps with more added). -/
theorem C14_base_kept (cx : Ctx) (toks : List LTok) (b : Frame) (secs : Sections) (st : St)
    (h : runToks cx toks ⟨[b], secs⟩ = .ok st) :
    ∃ above vars out, st.stack = above ++ [⟨b.name, b.vars ++ vars, b.out ++ out⟩] := by
  obtain ⟨b', vs, o, hb, rfl⟩ := base_inv h
  obtain ⟨l, hl⟩ := List.getLast?_eq_some_iff.1 hb
  exact ⟨l, vs, o, hl⟩

/-- C14. Rendering never runs out of scopes: there is no panic over an empty stack, and, unless a plugin function
reports one, no stack error. -/
theorem C14_never_out_of_scopes (cx : Ctx) (toks : List LTok) (b : Frame) (secs : Sections)
    (hb : b.name = str!"base") :
    runToks cx toks ⟨[b], secs⟩ ≠ .panic .emptyStack ∧
    ((∀ t ∈ toks, ∀ p, t.inner = .func (.plugin p) → ∀ scs, p.exec scs ≠ .err .stackError) →
      ∀ e, runToks cx toks ⟨[b], secs⟩ = .err e → e.kind ≠ .stackError) := by
  constructor
  · intro h
    have := runToks_panics (S := fun p => p ≠ .emptyStack) (cx := cx) toks.length toks ⟨[b], secs⟩ (Nat.le_refl _)
      (fun u _ => ⟨fun f _ => ⟨fun _ => by simp, fun _ => by simp⟩,
        fun f stk _ => forItems_panics (fun _ _ _ _ _ _ _ _ _ _ => by simp) f stk⟩)
      (.inl (by simp))
    exact this _ h rfl
  · intro hp e he hk
    obtain ⟨t, k, ht, rfl, hr⟩ := runToks_errs (Q := (· ∈ toks)) OnBase.inv toks.length toks ⟨[b], secs⟩ e
      (Nat.le_refl _) (fun _ h => h) ⟨fun f hf => by simp at hf, b, rfl, hb⟩ he
    have : k = .stackError := hk
    subst this
    exact raises_stackError (hp t ht) hr

/-- C14. An `end` with only the base scope open is reported as such, at its own position. -/
theorem C14_end_without_begin (cx : Ctx) (t : LTok) (rest : List LTok) (l : Str) (c : Bool) (b : Frame)
    (secs : Sections) (ht : t.inner = .func (.end_ l c)) (hb : b.name = str!"base") :
    runToks cx (t :: rest) ⟨[b], secs⟩ = .err (t.tb .endWithoutBegin) := by
  rw [runToks_cons, exec_simple cx _ _ _ _ ht rfl]
  simp only [execSimple, execEnd]
  split
  · have : (b.name == str!"begin:" ++ l) = false := by rw [hb]; simp
    simp only [this]; rfl
  · have : startsWith (l ++ [':']) b.name = false := by
      rw [Bool.eq_false_iff]
      intro hh
      obtain ⟨r, hr⟩ := List.isPrefixOf_iff_prefix.1 hh
      have : ':' ∈ b.name := by rw [← hr]; simp
      rw [hb] at this
      exact absurd this (by decide)
    rw [if_neg (by simp [this])]; rfl

/-- Two sections closed, then one `end` too many. -/
example : runToks demoCx [here.tok (.func (.begin_ str!"x" false)), here.tok (.func (.end_ str!"x" true)),
    here.tok (.func (.end_ str!"for" false))] ⟨[demoBase], []⟩ = .err (here.err .endWithoutBegin) := rfl

/-! ### C61 -/

/-- C61. Every error of rendering a token sequence carries the file, line and column of one of its tokens. -/
theorem C61_error_positions (cx : Ctx) (toks : List LTok) (st : St) (hst : st.stack ≠ []) (e : PErr)
    (h : runToks cx toks st = .err e) : ∃ t ∈ toks, e.path = t.path ∧ e.line = t.line ∧ e.col = t.col := by
  obtain ⟨t, k, ht, rfl, _⟩ := runToks_errs (I := fun s => s.stack ≠ []) (Q := (· ∈ toks))
    ⟨fun _ h => h, fun _ _ _ hs => hs.ne_nil⟩ toks.length toks st e (Nat.le_refl _) (fun _ h => h) hst h
  exact ⟨t, ht, rfl, rfl, rfl⟩

/-- The second token is the one at fault. -/
example : runToks demoCx [here.tok (.raw str!"x"), ⟨.var str!"nope", str!"p", 7, 3⟩] ⟨[demoBase], []⟩ =
    .err ⟨str!"p", 7, 3, .undefinedVariable str!"nope"⟩ := rfl

/-! ### C15

The full claim is `C15_no_panic_partial` without its two hypotheses. It is false. -/

/-- C15, where plugin functions have names and do not panic themselves, and the markdown a template can loop over has
been rendered: no token sequence makes rendering panic. -/
theorem C15_no_panic_partial (cx : Ctx) (toks : List LTok) (st : St) (hst : st.stack ≠ [])
    (hp : ∀ t ∈ toks, ∀ p, t.inner = .func (.plugin p) → p.name ≠ none ∧ ∀ scs q, p.exec scs ≠ .panic q)
    (hm : ∀ d cs src, Within cx.input (.dir d cs src) → ∀ c ∈ cs, ∀ md, c.parsed = .markdown md → md.html ≠ none)
    (p : Panic) : runToks cx toks st ≠ .panic p := by
  intro h
  refine runToks_panics (S := fun _ => False) (cx := cx) toks.length toks st (Nat.le_refl _)
    (fun u hu => ⟨fun f hf => ⟨(hp u hu f hf).1, fun ⟨s, q, hx⟩ => (hp u hu f hf).2 s q hx⟩,
      fun f stk _ => forItems_panics ?_ f stk⟩) (.inl hst) _ h
  intro path n cs hn hcs c hc md hmd hno
  obtain ⟨a, as, hsl, rfl⟩ := exists_slashed path
  cases n with
  | file => cases hcs
  | dir d cs' src =>
    cases hcs
    exact hm d cs src ⟨_, ((getAtPath_reaches _ _ _ _ hsl).1 hn).2⟩ c hc md hmd hno

/-- C15 fails: a JavaScript plugin's function inside a conditional panics, because such functions have no name. -/
theorem C15_counterexample_plugin :
    runToks demoCx [here.tok (.func (.ifdefined str!"s")), here.tok (.func (.plugin ⟨none, fun _ => .ok ([], [])⟩)),
      here.tok (.func (.end_ str!"ifdefined" false))] ⟨[demoBase], []⟩ = .panic .jsName := rfl

/-- C15 fails: a loop over a markdown directory inside a markdown file panics, because the pages have not been
converted when the body is rendered. -/
theorem C15_counterexample_markdown :
    preNode ⟨id⟩
      ⟨.dir [] [.dir str!"posts" [.file str!"a.md" [] (.markdown ⟨[], [], [], none⟩) none []] []] [], fun _ _ => none⟩ demoBase
      (.file str!"index.md" []
        (.markdown ⟨[], [here.tok (.func (.for_ ⟨str!"p", str!"posts", .mdDir, none, none, none, false⟩))], [], none⟩)
        none []) = .panic .htmlNotReady := rfl

/-- The hypotheses hold of the demonstration project, and of a plugin that says hello. -/
theorem demo_within : (∀ d cs src, Within demoCx.input (.dir d cs src) → ∀ c ∈ cs, ∀ md, c.parsed = .markdown md →
    md.html ≠ none) ∧
    (let p : PluginFn := ⟨some str!"hello", fun _ => .ok ([], bytesOf str!"hi")⟩
     p.name ≠ none ∧ ∀ scs q, p.exec scs ≠ .panic q) := by
  refine ⟨?_, by simp, by simp⟩
  rintro d cs src ⟨names, h⟩ c hc md hmd
  generalize ht : demoCx.input = tree at h
  cases h with
  | here =>
    have : cs = [.file str!"a.json" [] (.json (.arr [.str str!"x", .str str!"y"])) none [],
      .file str!"e.json" [] (.json (.arr [])) none []] := by
      have := congrArg Node.children ht
      simpa [demoCx, Node.children] using this.symm
    subst this
    simp only [List.mem_cons, List.not_mem_nil, or_false] at hc
    rcases hc with rfl | rfl <;> cases hmd
  | down dir src' nm before after c' m names' h1 h2 h3 =>
    have hl := congrArg Node.children ht
    simp only [demoCx, Node.children, Option.some.injEq] at hl
    have hc' : c' ∈ before ++ c' :: after := by simp
    rw [← hl] at hc'
    simp only [List.mem_cons, List.not_mem_nil, or_false] at hc'
    rcases hc' with rfl | rfl <;> cases h3

/-! ### C20 -/

/-- C20. A variable tag outputs the string its path denotes in the scopes in force, and otherwise fails, by the kind
of thing found. -/
theorem C20_variable (cx : Ctx) (t : LTok) (rest : List LTok) (f : Frame) (fs : List Frame) (secs : Sections)
    (name : Str) (path : List Str) (h : Dotless name path) (ht : t.inner = .var (dotted name path)) :
    (∀ s, denoted name path (f.vars :: fs.map (·.vars)) = some (.str s) →
      runToks cx (t :: rest) ⟨f :: fs, secs⟩ = runToks cx rest ⟨{ f with out := f.out ++ bytesOf s } :: fs, secs⟩) ∧
    (denoted name path (f.vars :: fs.map (·.vars)) = some .null →
      runToks cx (t :: rest) ⟨f :: fs, secs⟩ = .err (t.tb (.nullError (dotted name path)))) ∧
    (∀ v, denoted name path (f.vars :: fs.map (·.vars)) = some v → (∀ s, v ≠ .str s) → v ≠ .null →
      runToks cx (t :: rest) ⟨f :: fs, secs⟩ = .err (t.tb (.invalidDataType (dotted name path)))) ∧
    (denoted name path (f.vars :: fs.map (·.vars)) = none →
      runToks cx (t :: rest) ⟨f :: fs, secs⟩ = .err (t.tb (.undefinedVariable (dotted name path)))) := by
  rw [runToks_cons, exec_var cx _ _ _ _ ht]
  have hv := varSearch_denoted (dotted name path) name path (f :: fs)
  rw [List.map_cons] at hv
  refine ⟨?_, ?_, ?_, ?_⟩
  · intro s hs
    rw [hs] at hv
    simp only [execVar, splitVar_dotted h, hv]
    rfl
  · intro hs
    rw [hs] at hv
    simp only [execVar, splitVar_dotted h, hv]
    rfl
  · intro v hs h1 h2
    rw [hs] at hv
    have : varSearch (dotted name path) name path (f :: fs) = .err (.invalidDataType (dotted name path)) := by
      rw [hv]
      cases v <;> first | rfl | exact absurd rfl (h1 _) | exact absurd rfl h2
    simp only [execVar, splitVar_dotted h, this]
    rfl
  · intro hs
    rw [hs] at hv
    simp only [execVar, splitVar_dotted h, hv]
    rfl

/-- C20. Every variable text is covered, and in one way; and when the innermost scope defines the name the outer ones
do not matter. -/
theorem C20_coverage :
    (∀ v : Str, ∃ name path, Dotless name path ∧ v = dotted name path) ∧
    (∀ name path name' path', Dotless name path → Dotless name' path' → dotted name path = dotted name' path' →
      name = name' ∧ path = path') ∧
    (∀ name path sc scs v, List.lookup name sc = some v → denoted name path (sc :: scs) = some (follow path v)) ∧
    (∀ name path sc scs, List.lookup name sc = none → denoted name path (sc :: scs) = denoted name path scs) := by
  refine ⟨exists_dotted, ?_, ?_, ?_⟩
  · intro n p n' p' h h' he
    have h1 := splitOn_dotted p n h
    rw [he, splitOn_dotted p' n' h'] at h1
    simp only [List.cons.injEq] at h1
    exact ⟨h1.1.symm, h1.2.symm⟩
  · intro n p sc scs v h
    simp [denoted, bound, h]
  · intro n p sc scs h
    simp [denoted, bound, h]

/-- An inner definition without the path hides an outer one with it. -/
example : runToks demoCx [here.tok (.var str!"o.0.k")]
      ⟨[⟨str!"for:o", [(str!"o", .arr [.obj [(str!"k", .str str!"v")]])], []⟩, demoBase], []⟩ =
        .ok ⟨[⟨str!"for:o", [(str!"o", .arr [.obj [(str!"k", .str str!"v")]])], bytesOf str!"v"⟩, demoBase], []⟩ ∧
    runToks demoCx [here.tok (.var str!"o.0.k")]
      ⟨[⟨str!"for:o", [(str!"o", .arr [])], []⟩,
        ⟨str!"base", [(str!"o", .arr [.obj [(str!"k", .str str!"v")]])], []⟩], []⟩ =
        .err (here.err (.nullError str!"o.0.k")) := ⟨rfl, rfl⟩

/-! ### C21 -/

/-- C21. When a template goes on after a loop or conditional, the enclosing scopes are as they were before it, but for
output appended to the immediate one and sections recorded. -/
theorem C21_block (cx : Ctx) (t : LTok) (ts : List LTok) (fn : Fn) (f : Frame) (fs : List Frame) (secs : Sections)
    (st : St) (ht : t.inner = .func fn)
    (hb : (∃ g, fn = .for_ g) ∨ (∃ v, fn = .ifdefined v) ∨ ∃ op a b, fn = .cmp op a b)
    (h : runToks cx (t :: ts) ⟨f :: fs, secs⟩ = .ok st) :
    ∃ rest out ss, rest <:+ ts ∧
      runToks cx rest ⟨{ f with out := f.out ++ out } :: fs, secs ++ ss⟩ = .ok st := by
  have hb : fn.isBlock = true := by
    rcases hb with ⟨_, rfl⟩ | ⟨_, rfl⟩ | ⟨_, _, _, rfl⟩ <;> rfl
  rw [runToks_cons] at h
  obtain ⟨⟨r, s⟩, h1, h2⟩ := Res.bind_eq_ok.1 h
  obtain ⟨o, ss, rfl⟩ := exec_block ht hb rfl h1
  exact ⟨r, o, ss, exec_forward cx _ _ _ _ _ h1, h2⟩

/-- C21. What one step of rendering can do: add variables and output to the innermost scope, open an empty scope, or
close the innermost scope, keeping of it only the output and sections. No other scope is touched, and no variable is
ever removed or changed while its scope is open. -/
theorem C21_step (cx : Ctx) (t : LTok) (ts rest : List LTok) (f : Frame) (fs : List Frame) (secs : Sections) (st : St)
    (h : execTok cx (ts.length + 1) t ts ⟨f :: fs, secs⟩ = .ok (rest, st)) :
    (∃ vars out ss, st = ⟨{ f with vars := f.vars ++ vars, out := f.out ++ out } :: fs, secs ++ ss⟩) ∨
    (∃ o : Opener, st = ⟨⟨o.scopeName, [], []⟩ :: f :: fs, secs⟩) ∨
    (∃ g gs ss, fs = g :: gs ∧ st = ⟨{ g with out := g.out ++ f.out } :: gs, secs ++ ss⟩) := by
  have hs := exec_steps cx t ts ⟨f :: fs, secs⟩ rest st (by simp) h
  generalize hst : (⟨f :: fs, secs⟩ : St) = s at hs
  cases hs with
  | grow f' fs' secs' vs b =>
    cases hst
    exact .inl ⟨vs, b, [], by simp⟩
  | push nm fs' secs' ho =>
    cases hst
    obtain ⟨o, rfl⟩ := ho
    exact .inr (.inl ⟨o, rfl⟩)
  | pop f' g gs secs' ss =>
    cases hst
    exact .inr (.inr ⟨g, gs, ss, rfl, rfl⟩)
  | block f' fs' secs' o ss =>
    cases hst
    exact .inl ⟨[], o, ss, by simp [Frame.emit]⟩

/-- C21. A variable of the base scope has the same value throughout the page. -/
theorem C21_unchanged (cx : Ctx) (toks : List LTok) (b : Frame) (secs : Sections) (st : St) (name : Str) (v : Value)
    (hv : b.vars.lookup name = some v) (h : runToks cx toks ⟨[b], secs⟩ = .ok st) :
    ∃ above b', st.stack = above ++ [b'] ∧ b'.vars.lookup name = some v := by
  obtain ⟨above, vars, out, hs⟩ := C14_base_kept cx toks b secs st h
  exact ⟨above, _, hs, by simp [List.lookup_append, hv]⟩

/-- An import made inside a loop is gone after it, and available inside it. -/
example :
    runToks demoCx [here.tok (.func (.for_ (demoFor str!"a.json"))), here.tok (.func (.import_ str!"d" str!"a.json")),
      here.tok (.var str!"d.1"), here.tok (.func (.end_ str!"for" false)), here.tok (.raw str!"!")]
      ⟨[demoBase], []⟩ = .ok ⟨[{ demoBase with out := bytesOf str!"yy!" }], []⟩ ∧
    runToks demoCx [here.tok (.func (.for_ (demoFor str!"a.json"))), here.tok (.func (.import_ str!"d" str!"a.json")),
      here.tok (.func (.end_ str!"for" false)), here.tok (.var str!"d.1")]
      ⟨[demoBase], []⟩ = .err (here.err (.undefinedVariable str!"d.1")) := ⟨rfl, rfl⟩

/-! ### C22 -/

/-- C22. Importing a JSON file under a fresh name of the innermost scope makes its value readable under that name;
under a name the scope already defines, from whatever path, it is an error. -/
theorem C22_import (cx : Ctx) (t : LTok) (rest : List LTok) (f : Frame) (fs : List Frame) (secs : Sections)
    (name p : Str) (ps : List Str) (hs : Slashless p ps) (ht : t.inner = .func (.import_ name (slashed p ps))) :
    (∀ n c j m src, f.vars.lookup name = none → ¬ Escapes p ps →
      Reaches cx.input (namesIn (p :: ps)) (.file n c (.json j) m src) →
      runToks cx (t :: rest) ⟨f :: fs, secs⟩ =
        runToks cx rest ⟨{ f with vars := f.vars ++ [(name, j)] } :: fs, secs⟩ ∧
      bound name ((f.vars ++ [(name, j)]) :: fs.map (·.vars)) = some j) ∧
    (∀ n c j m src, f.vars.lookup name ≠ none → ¬ Escapes p ps →
      Reaches cx.input (namesIn (p :: ps)) (.file n c (.json j) m src) →
      runToks cx (t :: rest) ⟨f :: fs, secs⟩ = .err (t.tb (.variableAlreadyExists name))) ∧
    (f.vars.lookup name ≠ none → ∃ k, runToks cx (t :: rest) ⟨f :: fs, secs⟩ = .err (t.tb k)) := by
  rw [runToks_cons, exec_simple cx _ _ _ _ ht rfl]
  have hget : ∀ n c j m src, ¬ Escapes p ps → Reaches cx.input (namesIn (p :: ps)) (.file n c (.json j) m src) →
      cx.input.getAtPath (slashed p ps) = some (.file n c (.json j) m src) :=
    fun n c j m src he hr => (getAtPath_reaches _ _ _ _ hs).2 ⟨he, hr⟩
  refine ⟨?_, ?_, ?_⟩
  · intro n c j m src hn he hr
    have hv : f.getVar name = none := by rw [Frame.getVar_lookup, hn]
    constructor
    · simp only [execSimple, execImport, hget n c j m src he hr, Node.isDir, Node.parsed, hv]
      rfl
    · simp [bound, List.lookup_append, hn]
  · intro n c j m src hn he hr
    have hv : (f.getVar name).isSome = true := by
      rw [Frame.getVar_lookup]; exact Option.isSome_iff_ne_none.2 hn
    simp only [execSimple, execImport, hget n c j m src he hr, Node.isDir, Node.parsed, hv]
    rfl
  · intro hn
    have hv : (f.getVar name).isSome = true := by
      rw [Frame.getVar_lookup]; exact Option.isSome_iff_ne_none.2 hn
    simp only [execSimple, execImport]
    split
    · exact ⟨_, rfl⟩
    · split
      · exact ⟨_, rfl⟩
      · split
        · exact ⟨_, rfl⟩
        · exact ⟨_, rfl⟩

/-- The demonstration project's file, by a path with noise in it; and the base scope defines `s` but not `d`. -/
example : Slashless str!"." [[], str!"a.json"] ∧ ¬ Escapes str!"." [[], str!"a.json"] ∧
    slashed str!"." [[], str!"a.json"] = str!".//a.json" ∧
    Reaches demoCx.input (namesIn [str!".", [], str!"a.json"])
      (.file str!"a.json" [] (.json (.arr [.str str!"x", .str str!"y"])) none []) ∧
    demoBase.vars.lookup str!"d" = none ∧ demoBase.vars.lookup str!"s" ≠ none := by
  refine ⟨⟨by decide, by decide⟩, ?_, rfl, ?_, rfl, by decide⟩
  · rintro (⟨h, _⟩ | h)
    · cases h
    · revert h; decide
  · exact .down [] [] _ [] _ _ _ [] rfl (by simp) (.here _)

/-! ### C28 -/

/-- C28. `insert("s")` outputs the bytes of the first section of that name recorded so far, or fails. -/
theorem C28_insert (cx : Ctx) (t : LTok) (rest : List LTok) (label : Str) (f : Frame) (fs : List Frame)
    (secs : Sections) (ht : t.inner = .func (.insert label)) :
    (∀ b, secs.lookup label = some b →
      runToks cx (t :: rest) ⟨f :: fs, secs⟩ = runToks cx rest ⟨{ f with out := f.out ++ b } :: fs, secs⟩) ∧
    (secs.lookup label = none →
      runToks cx (t :: rest) ⟨f :: fs, secs⟩ = .err (t.tb (.undefinedSection label))) := by
  rw [runToks_cons, exec_simple cx _ _ _ _ ht rfl]
  have hf := find_lookup label secs
  simp only [execSimple, execInsert]
  constructor
  · intro b hb
    rw [hb] at hf
    cases hs : secs.find? (fun e => e.1 == label) with
    | none => rw [hs] at hf; cases hf
    | some e =>
      rw [hs] at hf
      simp only [Option.map_some, Option.some.injEq] at hf
      subst hf
      rfl
  · intro hb
    rw [hb] at hf
    cases hs : secs.find? (fun e => e.1 == label) with
    | none => rfl
    | some e => rw [hs] at hf; cases hf

/-- C28. Sections are only ever added, at the end. -/
theorem C28_sections_grow (cx : Ctx) (toks : List LTok) (st st' : St) (hne : st.stack ≠ [])
    (h : runToks cx toks st = .ok st') : ∃ more, st'.sections = st.sections ++ more := by
  have := runToks_inv (cx := cx) (I := fun s => ∃ more, s.sections = st.sections ++ more)
    (by
      rintro s s' _ ⟨more, hm⟩ hs
      cases hs with
      | grow => exact ⟨more, hm⟩
      | push => exact ⟨more, hm⟩
      | pop f g gs secs ss => exact ⟨more ++ ss, by simp only at hm ⊢; rw [hm, List.append_assoc]⟩
      | block f fs secs o ss => exact ⟨more ++ ss, by simp only at hm ⊢; rw [hm, List.append_assoc]⟩)
    toks.length toks st st' (Nat.le_refl _) hne ⟨[], by simp⟩ h
  exact this.2

/-- Two sections of the same name: the first is the one inserted. -/
example : runToks demoCx [here.tok (.func (.begin_ str!"a" false)), here.tok (.raw str!"1"),
      here.tok (.func (.end_ str!"a" true)), here.tok (.func (.begin_ str!"a" false)), here.tok (.raw str!"2"),
      here.tok (.func (.end_ str!"a" true)), here.tok (.func (.insert str!"a"))] ⟨[demoBase], []⟩ =
    .ok ⟨[{ demoBase with out := bytesOf str!"121" }], [(str!"a", bytesOf str!"1"), (str!"a", bytesOf str!"2")]⟩ := rfl

/-! ### C31 -/

theorem Opener.word_colon (o : Opener) : ':' ∉ o.word := by
  cases o with
  | compare op a b => simp only [Opener.word]; cases op <;> decide
  | _ => simp only [Opener.word]; decide

theorem Opener.detail_inj {a b : Str} {x y : Str} (ha : ':' ∉ a) (hb : ':' ∉ b) (h : a ++ ':' :: x = b ++ ':' :: y) :
    a = b ∧ x = y := by
  induction a generalizing b with
  | nil =>
    cases b with
    | nil => simpa using h
    | cons c cs =>
      simp only [List.nil_append, List.cons_append, List.cons.injEq] at h
      exact absurd h.1 (fun he => hb (he ▸ List.mem_cons_self ..))
  | cons d ds ih =>
    cases b with
    | nil =>
      simp only [List.nil_append, List.cons_append, List.cons.injEq] at h
      exact absurd h.1 (fun he => ha (he ▸ List.mem_cons_self ..))
    | cons c cs =>
      simp only [List.cons_append, List.cons.injEq] at h
      obtain ⟨h1, h2⟩ := ih (fun hh => ha (by simp [hh])) (fun hh => hb (by simp [hh])) h.2
      exact ⟨by rw [h.1, h1], h2⟩

/-- C31. `end` closes the innermost block exactly if it names it; otherwise it fails. (An unquoted label is the word
of a built-in function, as the parser sees to, and so has no colon in it.) -/
theorem C31_end (cx : Ctx) (t : LTok) (rest : List LTok) (label : Str) (quoted : Bool) (o : Opener) (f g : Frame)
    (gs : List Frame) (secs : Sections) (ht : t.inner = .func (.end_ label quoted)) (hf : f.name = o.scopeName)
    (hl : quoted = false → ':' ∉ label) :
    (o.closedBy label quoted → runToks cx (t :: rest) ⟨f :: g :: gs, secs⟩ =
      runToks cx rest ⟨{ g with out := g.out ++ f.out } :: gs, secs ++ if quoted then [(label, f.out)] else []⟩) ∧
    (¬ o.closedBy label quoted → runToks cx (t :: rest) ⟨f :: g :: gs, secs⟩ = .err (t.tb .endWithoutBegin)) := by
  rw [runToks_cons, exec_simple cx _ _ _ _ ht rfl]
  simp only [execSimple, execEnd]
  cases quoted with
  | true =>
    have hiff : (f.name == str!"begin:" ++ label) = true ↔ o.closedBy label true := by
      rw [hf, beq_iff_eq]
      simp only [Opener.closedBy, if_true]
      constructor
      · intro h
        obtain ⟨h1, h2⟩ := Opener.detail_inj (b := str!"begin") (Opener.word_colon o) (by decide) h
        cases o with
        | section_ l => simp only [Opener.detail] at h2; rw [h2]; rfl
        | loop v => simp [Opener.word] at h1
        | defined v => simp [Opener.word] at h1
        | compare op a b => cases op <;> simp [Opener.word, wordOf] at h1
      · rintro rfl; rfl
    constructor
    · intro h
      simp only [if_true, hiff.2 h]
      rfl
    · intro h
      have : (f.name == str!"begin:" ++ label) = false := by
        rw [Bool.eq_false_iff]; exact fun hh => h (hiff.1 hh)
      simp only [if_true, this]
      rfl
  | false =>
    have hiff : startsWith (label ++ [':']) f.name = true ↔ o.closedBy label false := by
      simp only [Opener.closedBy, Bool.false_eq_true, if_false, startsWith]
      rw [hf, List.isPrefixOf_iff_prefix]
      constructor
      · rintro ⟨r, hr⟩
        simp only [List.append_assoc, List.singleton_append] at hr
        exact (Opener.detail_inj (hl rfl) (Opener.word_colon o) hr).1.symm
      · intro h
        exact ⟨o.detail, by rw [← h]; simp [Opener.scopeName]⟩
    constructor
    · intro h
      simp only [Bool.false_eq_true, if_false, hiff.2 h, if_true, List.append_nil]
      rfl
    · intro h
      have : startsWith (label ++ [':']) f.name = false := by
        rw [Bool.eq_false_iff]; exact fun hh => h (hiff.1 hh)
      simp only [Bool.false_eq_true, if_false, this]
      rfl

/-- C31. Every scope open above the base scope was opened by a block, so `C31_end` says what any `end` does. -/
theorem C31_open_scopes (cx : Ctx) (toks : List LTok) (b : Frame) (secs : Sections) (st : St)
    (h : runToks cx toks ⟨[b], secs⟩ = .ok st) : ∀ f ∈ st.stack.dropLast, ∃ o : Opener, f.name = o.scopeName := by
  have := runToks_inv (cx := cx) (I := OpenedAbove) (fun s s' hne hi hs => hi.step hne hs)
    toks.length toks ⟨[b], secs⟩ st (Nat.le_refl _) (by simp) (fun f hf => by simp at hf) h
  exact this.2

/-- A loop is closed by `end(for)`, not by `end("x")` nor by `end(ifeq)`. -/
example : (Opener.loop str!"x").closedBy str!"for" false ∧ ¬ (Opener.loop str!"x").closedBy str!"x" true ∧
    ¬ (Opener.loop str!"x").closedBy str!"ifeq" false ∧ ¬ (Opener.compare .ifeq (.int 1) (.int 2)).closedBy str!"ifne" false := by
  simp [Opener.closedBy, Opener.word, wordOf]

/-! ### C32 -/

/-- C32. Which node of the tree a path written in a template stands for: none if the path is absolute or has a parent
piece, otherwise the node reached by its names, going down from the top. -/
theorem C32_paths (tree n : Node) (p : Str) (ps : List Str) (h : Slashless p ps) :
    tree.getAtPath (slashed p ps) = some n ↔ ¬ Escapes p ps ∧ Reaches tree (namesIn (p :: ps)) n :=
  getAtPath_reaches tree n p ps h

/-- C32. Every path is covered. -/
theorem C32_coverage (path : Str) : ∃ p ps, Slashless p ps ∧ path = slashed p ps := exists_slashed path

/-- C32, `import`: an escaping path is never found; and whatever is imported is the value of a JSON file of the tree. -/
theorem C32_import (cx : Ctx) (t : LTok) (rest : List LTok) (st : St) (name p : Str) (ps : List Str)
    (h : Slashless p ps) (ht : t.inner = .func (.import_ name (slashed p ps))) :
    (Escapes p ps → runToks cx (t :: rest) st = .err (t.tb (.notFound (slashed p ps)))) ∧
    (∀ st', runToks cx (t :: rest) st = .ok st' →
      ∃ n c j m src f fs, Within cx.input (.file n c (.json j) m src) ∧ st.stack = f :: fs ∧
        runToks cx rest ⟨{ f with vars := f.vars ++ [(name, j)] } :: fs, st.sections⟩ = .ok st') := by
  rw [runToks_cons, exec_simple cx _ _ _ _ ht rfl]
  constructor
  · intro he
    have : cx.input.getAtPath (slashed p ps) = none := by
      cases hg : cx.input.getAtPath (slashed p ps) with
      | none => rfl
      | some n => exact absurd he ((getAtPath_reaches _ _ _ _ h).1 hg).1
    simp only [execSimple, execImport, this]
    rfl
  · intro st' hr
    obtain ⟨⟨r, s⟩, h1, h2⟩ := Res.bind_eq_ok.1 hr
    obtain ⟨s1, h3, h4⟩ := Res.bind_eq_ok.1 h1
    cases h4
    have h5 := Res.mapErr_eq_ok.1 h3
    simp only [execSimple, execImport] at h5
    split at h5
    · cases h5
    · rename_i n hn
      split at h5
      · cases h5
      · rename_i hd
        split at h5
        · rename_i j hj
          split at h5
          · cases h5
          · rename_i f fs hst
            split at h5
            · cases h5
            · cases n with
              | dir => simp [Node.isDir] at hd
              | file nm c pr m src =>
                simp only [Node.parsed] at hj
                subst hj
                simp only [Res.ok.injEq] at h5
                subst h5
                exact ⟨nm, c, j, m, src, f, fs, ⟨_, ((getAtPath_reaches _ _ _ _ h).1 hn).2⟩, hst, h2⟩
        · cases h5

/-- C32, `for`: an escaping path is never found; and the items of a loop over a file or a directory are those of a
JSON file or of the markdown files in a directory of the tree. -/
theorem C32_for (cx : Ctx) (t : LTok) (rest : List LTok) (st : St) (fn : ForFn) (p : Str) (ps : List Str)
    (h : Slashless p ps) (ht : t.inner = .func (.for_ fn)) (hsrc : fn.source = slashed p ps)
    (hk : fn.kind ≠ .jsonObj) :
    (Escapes p ps → runToks cx (t :: rest) st = .err (t.tb (.notFound (slashed p ps)))) ∧
    (∀ l, forItems cx fn st.stack = .ok l →
      (∃ n c m src, Within cx.input (.file n c (.json (.arr l)) m src)) ∨
      (∃ d cs src, Within cx.input (.dir d cs src) ∧ mdItems cs = .ok l)) := by
  constructor
  · intro he
    rw [runToks_cons, exec_for cx _ _ _ _ ht]
    have : cx.input.getAtPath fn.source = none := by
      rw [hsrc]
      cases hg : cx.input.getAtPath (slashed p ps) with
      | none => rfl
      | some n => exact absurd he ((getAtPath_reaches _ _ _ _ h).1 hg).1
    have hi : forItems cx fn st.stack = .err (.notFound (slashed p ps)) := by
      unfold forItems
      cases hkk : fn.kind with
      | jsonObj => exact absurd hkk hk
      | mdDir => simp only [this]; rw [hsrc]
      | jsonFile => simp only [this]; rw [hsrc]
    rw [hi]
    rfl
  · intro l hl
    unfold forItems at hl
    cases hkk : fn.kind with
    | jsonObj => exact absurd hkk hk
    | mdDir =>
      right
      simp only [hkk] at hl
      split at hl
      · cases hl
      · rename_i n hn
        split at hl
        · cases hl
        · rename_i cs hcs
          cases n with
          | file => cases hcs
          | dir d cs' src =>
            cases hcs
            rw [hsrc] at hn
            exact ⟨d, cs, src, ⟨_, ((getAtPath_reaches _ _ _ _ h).1 hn).2⟩, by rw [← mdValues_mdItems]; exact hl⟩
    | jsonFile =>
      left
      simp only [hkk] at hl
      split at hl
      · cases hl
      · rename_i n hn
        split at hl
        · cases hl
        · rename_i hd
          split at hl
          · rename_i v hv
            cases n with
            | dir => simp [Node.isDir] at hd
            | file nm c pr m src =>
              simp only [Node.parsed] at hv
              subst hv
              have ha := Res.ofOption_eq_ok.1 hl
              cases v with
              | arr l' =>
                simp only [Value.asArray, Option.some.injEq] at ha
                subst ha
                rw [hsrc] at hn
                exact ⟨nm, c, m, src, _, ((getAtPath_reaches _ _ _ _ h).1 hn).2⟩
              | _ => simp [Value.asArray] at ha
          · cases hl

/-- Escaping paths. -/
example : Escapes [] [str!"etc", str!"passwd"] ∧ slashed [] [str!"etc", str!"passwd"] = str!"/etc/passwd" ∧
    Escapes str!"a" [str!"..", str!"b"] ∧ ¬ Escapes str!"a" [str!"b.json"] := by
  refine ⟨.inl ⟨rfl, by simp⟩, rfl, .inr (by decide), ?_⟩
  rintro (⟨h, _⟩ | h)
  · cases h
  · revert h; decide

/-! ### C33 -/

/-- Text as bytes. -/
def IsText (b : Bytes) : Prop := ∃ s : Str, b = bytesOf s

theorem IsText.append {a b : Bytes} (ha : IsText a) (hb : IsText b) : IsText (a ++ b) := by
  obtain ⟨s, rfl⟩ := ha
  obtain ⟨t, rfl⟩ := hb
  exact ⟨s ++ t, (bytesOf_append s t).symm⟩

theorem IsText.nil : IsText [] := ⟨[], rfl⟩

/-- All output so far is text. -/
def AllText (st : St) : Prop := (∀ f ∈ st.stack, IsText f.out) ∧ ∀ e ∈ st.sections, IsText e.2

theorem AllText.output {st st' : St} {b : Bytes} (h : AllText st) (hb : IsText b) (ho : st.output b = some st') :
    AllText st' := by
  obtain ⟨f, fs, hst, rfl⟩ := St.output_some ho
  obtain ⟨h1, h2⟩ := h
  rw [hst] at h1
  refine ⟨?_, h2⟩
  intro g hg
  rcases List.mem_cons.1 hg with rfl | hg
  · exact (h1 f (by simp)).append hb
  · exact h1 g (by simp [hg])

theorem AllText.simple {cx : Ctx} {f : Fn} {st st' : St} (h : AllText st)
    (hp : ∀ p, f = .plugin p → ∀ scs vs b, p.exec scs = .ok (vs, b) → IsText b)
    (he : execSimple cx f st = .ok st') : AllText st' := by
  have hout : ∀ {b}, IsText b → outputOrErr b st = .ok st' → AllText st' := fun hb ho =>
    h.output hb (Res.ofOption_eq_ok.1 ho)
  cases f with
  | begin_ l c =>
    cases he
    refine ⟨?_, h.2⟩
    intro g hg
    rcases List.mem_cons.1 hg with rfl | hg
    · exact IsText.nil
    · exact h.1 g hg
  | end_ l c =>
    obtain ⟨f, g, gs, hst, _, rfl⟩ := execEnd_ok he
    obtain ⟨h1, h2⟩ := h
    rw [hst] at h1
    have hf := h1 f (by simp)
    refine ⟨?_, ?_⟩
    · intro k hk
      rcases List.mem_cons.1 hk with rfl | hk
      · exact (h1 g (by simp)).append hf
      · exact h1 k (by simp [hk])
    · intro e hme
      rcases List.mem_append.1 hme with hme | hme
      · exact h2 e hme
      · split at hme
        · simp only [List.mem_singleton] at hme; subst hme; exact hf
        · simp at hme
  | else_ =>
    simp only [execSimple, execElse] at he
    split at he
    · cases he
    · split at he
      · cases he; exact h
      · cases he
  | excerpt v n =>
    obtain ⟨s, _, h2⟩ := Res.bind_eq_ok.1 he
    exact hout ⟨_, rfl⟩ h2
  | for_ g => cases he; exact h
  | ifdefined v => cases he; exact h
  | import_ v file =>
    simp only [execSimple, execImport] at he
    split at he
    · cases he
    · split at he
      · cases he
      · split at he
        · split at he
          · cases he
          · rename_i f fs hst
            split at he
            · cases he
            · cases he
              obtain ⟨h1, h2⟩ := h
              rw [hst] at h1
              refine ⟨?_, h2⟩
              intro g hg
              rcases List.mem_cons.1 hg with rfl | hg
              · exact h1 f (by simp)
              · exact h1 g (by simp [hg])
        · cases he
  | insert l =>
    simp only [execSimple, execInsert] at he
    split at he
    · cases he
    · rename_i f fs hst
      split at he
      · cases he
      · rename_i e hme
        cases he
        have ho : st.output e.2 = some { st with stack := f.emit e.2 :: fs } := by unfold St.output; rw [hst]
        exact h.output (h.2 e (List.mem_of_find?_eq_some hme)) ho
  | timetoread v =>
    obtain ⟨s, _, h2⟩ := Res.bind_eq_ok.1 he
    exact hout ⟨_, rfl⟩ h2
  | dateformat v fmt =>
    obtain ⟨s, _, h2⟩ := Res.bind_eq_ok.1 he
    obtain ⟨d, _, h3⟩ := Res.bind_eq_ok.1 h2
    exact hout ⟨_, rfl⟩ h3
  | cmp op a b => cases he; exact h
  | plugin p =>
    simp only [execSimple, execPlugin] at he
    split at he
    · cases he
    · cases he
    · rename_i vs b hx
      split at he
      · cases he
      · rename_i g gs hst
        cases he
        obtain ⟨h1, h2⟩ := h
        rw [hst] at h1
        refine ⟨?_, h2⟩
        intro k hk
        rcases List.mem_cons.1 hk with rfl | hk
        · exact (h1 g (by simp)).append (hp p rfl _ _ _ hx)
        · exact h1 k (by simp [hk])

/-- C33. If the plugin functions of a template emit text only, then everything a run produces is text: the output of
every scope and every section. -/
theorem C33_text (cx : Ctx) (toks : List LTok) (st st' : St)
    (hp : ∀ t ∈ toks, ∀ p, t.inner = .func (.plugin p) → ∀ scs vs b, p.exec scs = .ok (vs, b) → IsText b)
    (hi : (∀ f ∈ st.stack, IsText f.out) ∧ ∀ e ∈ st.sections, IsText e.2) (h : runToks cx toks st = .ok st') :
    (∀ f ∈ st'.stack, IsText f.out) ∧ ∀ e ∈ st'.sections, IsText e.2 := by
  have hk : Keeps (· ∈ toks) AllText (exec cx) := by
    refine exec_keeps ?_ ?_ ?_ ?_
    · intro f s hf hs
      refine ⟨?_, hs.2⟩
      intro g hg
      rcases List.mem_cons.1 hg with rfl | hg
      · rw [hf]; exact IsText.nil
      · exact hs.1 g hg
    · intro t s st st' _ _ hs ho
      exact hs.output ⟨s, rfl⟩ ho
    · intro t v st st' _ _ hs ho
      unfold execVar at ho
      obtain ⟨o, _, h2⟩ := Res.bind_eq_ok.1 ho
      cases o with
      | none => cases h2
      | some s => exact hs.output ⟨s, rfl⟩ (Res.unwrap_eq_ok.1 h2)
    · intro t f st st' hq hf _ hs ho
      exact hs.simple (fun p hp' => hp t hq p (by rw [hf, hp'])) ho
  exact runToks_keeps hk toks.length toks st st' (Nat.le_refl _) (fun _ h => h) hi h

/-! ### Cases: each theorem applied to something that meets its hypotheses -/

/-- Tokens with a section in a loop. -/
def caseToks : List LTok := [here.tok (.raw str!"x"), here.tok (.func (.begin_ str!"m" true)), here.tok (.var str!"s"),
  here.tok (.func (.end_ str!"m" true)), here.tok (.func (.insert str!"m"))]

theorem noPlugins {toks : List LTok} (h : toks.all (fun t => match t.inner with | .func (.plugin _) => false | _ => true) = true) :
    ∀ t ∈ toks, ∀ p, t.inner ≠ .func (.plugin p) := by
  intro t ht p hp
  have := List.all_eq_true.1 h t ht
  rw [hp] at this
  cases this

example := C14_base_kept demoCx caseToks demoBase [] _ rfl

example := C14_never_out_of_scopes demoCx caseToks demoBase [] rfl

example := C14_end_without_begin demoCx (here.tok (.func (.end_ str!"for" false))) [] _ _ demoBase [] rfl rfl

example := C61_error_positions demoCx [here.tok (.raw str!"x"), ⟨.var str!"nope", str!"p", 7, 3⟩] ⟨[demoBase], []⟩ (by simp) _ rfl

example := C20_variable demoCx (here.tok (.var str!"o.k")) [] ⟨str!"base", [(str!"o", .obj [(str!"k", .str str!"v")])], []⟩ [] []
  str!"o" [str!"k"] (by unfold Dotless; decide) rfl

example := C21_block demoCx (here.tok (.func (.for_ (demoFor str!"a.json")))) [here.tok (.raw str!"x"),
  here.tok (.func (.end_ str!"for" false)), here.tok (.raw str!"y")] _ demoBase [] [] _ rfl (.inl ⟨_, rfl⟩) rfl

example := C21_step demoCx (here.tok (.func (.begin_ str!"m" true))) [here.tok (.raw str!"x")] _ demoBase [] [] _ rfl

example := C21_unchanged demoCx caseToks demoBase [] _ str!"s" (.str str!"S") rfl rfl

example := C22_import demoCx (here.tok (.func (.import_ str!"v" str!"a.json"))) [] demoBase [] []
  str!"v" str!"a.json" [] (by unfold Slashless; decide) rfl

example := C28_insert demoCx (here.tok (.func (.insert str!"m"))) [] str!"m" demoBase [] [(str!"m", [1])] rfl

example := C28_sections_grow demoCx caseToks ⟨[demoBase], [(str!"k", [1])]⟩ _ (by simp) rfl

example := C31_end demoCx (here.tok (.func (.end_ str!"x" true))) [] str!"x" true (.section_ str!"x") ⟨str!"begin:x", [], []⟩
  demoBase [] [] rfl rfl (by simp)

example := C31_open_scopes demoCx [here.tok (.func (.begin_ str!"m" true)), here.tok (.raw str!"x")] demoBase [] _ rfl

example := C32_paths demoCx.input demoCx.input str!"." [str!"a.json"] (by unfold Slashless; decide)

example := C32_import demoCx (here.tok (.func (.import_ str!"v" str!"../a.json"))) [] ⟨[demoBase], []⟩
  str!"v" str!".." [str!"a.json"] (by unfold Slashless; decide) rfl

example := C32_for demoCx (here.tok (.func (.for_ (demoFor str!"a.json")))) [] ⟨[demoBase], []⟩ (demoFor str!"a.json")
  str!"a.json" [] (by unfold Slashless; decide) rfl rfl (by simp [demoFor])

example := C33_text demoCx caseToks ⟨[demoBase], []⟩ _
  (fun t ht p hp => absurd hp (noPlugins rfl t ht p))
  ⟨by intro f hf; simp only [List.mem_singleton] at hf; subst hf; exact ⟨[], rfl⟩, by simp⟩ rfl

example := C15_no_panic_partial demoCx caseToks ⟨[demoBase], []⟩ (by simp)
  (fun t ht p hp => absurd hp (noPlugins rfl t ht p)) demo_within.1 .emptyStack

end Stuart
