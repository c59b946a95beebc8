import Verif.Model.JsCall
import Verif.Props.JsState
/-
C115: what a call of a function with a state does, and the test `js` of the command line program.
-/
namespace Stuart

variable {σ : Type}

/-- What Stuart notices of a call once the state is given. -/
def JsRunS.seen : JsRunS σ → JsRun
  | .ret _ out => .ret out
  | .throw _ => .throw
  | .set name v next => .set name v next.seen
  | .get name next => .get name fun v => (next v).seen

theorem runJsS_seen (scopes : List (List (Str × Value))) (s : σ) (r : JsRunS σ) : ∀ added,
    (runJsS scopes s r added).2 = runJs scopes r.seen added := by
  induction r with
  | ret s' out => intro added; rfl
  | throw s' => intro added; rfl
  | set name v next ih =>
    intro added
    rw [runJsS, JsRunS.seen, runJs]
    cases jsToJson v with
    | ok w =>
      cases w with
      | none => exact ih added
      | some w => cases scopes with
        | nil => rfl
        | cons a l => exact ih _
    | err e => rfl
    | panic p => rfl
  | get name next ih =>
    intro added
    rw [runJsS, JsRunS.seen, runJs]
    exact ih _ added

/-- C115. In a given state, a function of a JavaScript plugin shows what the same function without a state would show: the
variables it sets, its output, and its errors. -/
theorem C115_call (fn : Option (σ → List JsVal → JsRunS σ)) (args : List RawArg) (s : σ) (scopes : List (List (Str × Value))) :
    (jsCall fn args s scopes).2 = (jsFunction (fn.map fun f vs => (f s vs).seen) args).exec scopes := by
  simp only [jsCall, jsFunction, thenS]
  cases jsArgs scopes args with
  | ok vs => cases fn with
    | none => rfl
    | some f => exact runJsS_seen scopes s (f s vs) []
  | err e => rfl
  | panic p => rfl

/-- C115. A call whose arguments cannot be had does not reach the plugin, and neither does one of something that is no
function: the state stays. -/
theorem C115_call_unreached (fn : Option (σ → List JsVal → JsRunS σ)) (args : List RawArg) (s : σ) (scopes : List (List (Str × Value)))
    (h : fn = none ∨ ∀ vs, jsArgs scopes args ≠ .ok vs) : (jsCall fn args s scopes).1 = s := by
  simp only [jsCall, thenS]
  cases hr : jsArgs scopes args with
  | ok vs =>
    rcases h with h | h
    · subst h; rfl
    · exact absurd hr (h vs)
  | err e => rfl
  | panic p => rfl

/-- The states that a run can end in, whatever the variables are. -/
def JsRunS.Ends (P : σ → Prop) : JsRunS σ → Prop
  | .ret s _ => P s
  | .throw s => P s
  | .set _ _ next => next.Ends P
  | .get _ next => ∀ v, (next v).Ends P

/-- C115. What a function leaves behind when it returns, throws or panics: a state that it ends in, or the one before. -/
theorem C115_call_state (f : σ → List JsVal → JsRunS σ) (args : List RawArg) (s : σ) (scopes : List (List (Str × Value)))
    (P : σ → Prop) (hs : P s) (hf : ∀ vs, (f s vs).Ends P) : P (jsCall (some f) args s scopes).1 := by
  have key : ∀ (r : JsRunS σ), r.Ends P → ∀ added, P (runJsS scopes s r added).1 := by
    intro r
    induction r with
    | ret s' out => intro h added; exact h
    | throw s' => intro h added; exact h
    | set name v next ih =>
      intro h added
      rw [runJsS]
      cases jsToJson v with
      | ok w =>
        cases w with
        | none => exact ih h added
        | some w => cases scopes with
          | nil => exact hs
          | cons a l => exact ih h _
      | err e => exact hs
      | panic p => exact hs
    | get name next ih =>
      intro h added
      rw [runJsS]
      exact ih _ (h _) added
  simp only [jsCall, thenS]
  cases jsArgs scopes args with
  | ok vs => exact key _ (hf vs) []
  | err e => exact hs
  | panic p => exact hs

/-- The same run, which in place of its output gives away the state it ends in. -/
def JsRunS.tell (show' : σ → Str) : JsRunS σ → JsRun
  | .ret s _ => .ret (some (show' s))
  | .throw s => .ret (some (show' s))
  | .set name v next => .set name v (next.tell show')
  | .get name next => .get name fun v => (next v).tell show'

/-- C115. The state that a call leaves is the one that the function ends in, be it that it returns or that it throws, with
the variables that it reads. -/
theorem C115_call_leaves (f : σ → List JsVal → JsRunS σ) (args : List RawArg) (s : σ) (scopes : List (List (Str × Value)))
    (show' : σ → Str) (added : List (Str × Value)) (out : Bytes) (h : (jsCall (some f) args s scopes).2 = .ok (added, out)) :
    (jsFunction (some fun vs => (f s vs).tell show') args).exec scopes =
      .ok (added, bytesOf (show' (jsCall (some f) args s scopes).1)) := by
  have key : ∀ (r : JsRunS σ) (acc : List (Str × Value)), (runJsS scopes s r acc).2 = .ok (added, out) →
      runJs scopes (r.tell show') acc = .ok (added, bytesOf (show' (runJsS scopes s r acc).1)) := by
    intro r
    induction r with
    | ret s' o => intro acc h; simp only [runJsS, Res.ok.injEq, Prod.mk.injEq] at h; simp [JsRunS.tell, runJs, runJsS, h.1]
    | throw s' => intro acc h; simp only [runJsS, Res.ok.injEq, Prod.mk.injEq] at h; simp [JsRunS.tell, runJs, runJsS, h.1]
    | set name v next ih =>
      intro acc h
      rw [runJsS] at h
      rw [runJsS, JsRunS.tell, runJs]
      cases hv : jsToJson v with
      | ok w =>
        rw [hv] at h
        cases w with
        | none => exact ih acc h
        | some w => cases hsc : scopes with
          | nil => rw [hsc] at h; nomatch h
          | cons a l => subst hsc; exact ih _ h
      | err e => rw [hv] at h; nomatch h
      | panic p => rw [hv] at h; nomatch h
    | get name next ih =>
      intro acc h
      rw [runJsS] at h
      rw [runJsS, JsRunS.tell, runJs]
      exact ih _ acc h
  simp only [jsCall, jsFunction, thenS] at h ⊢
  cases ha : jsArgs scopes args with
  | ok vs => rw [ha] at h; exact key (f s vs) [] h
  | err e => rw [ha] at h; nomatch h
  | panic p => rw [ha] at h; nomatch h

/-! ### The builds of a development server -/

/-- C115. Of the builds of a development server, those of sites that call functions of some plugins are as if those of sites
that call functions of other plugins only had not been made, whether or not builds fail; and so are the states of the
former plugins in the end. -/
theorem C115_session {τ : Type} (ext : Ext) (dateFmt : Str → Str → Option Str) (cfg : Config) (vars : List (Str × Str)) (mode : Str)
    (owner : LTok → Str) (own : LTok → Call τ) (A : Str → Prop) (mine : Node → Bool) : ∀ (ns : List Node)
    (_ : ∀ n ∈ ns, mine n = true → TreeCallsOnly owner A n) (_ : ∀ n ∈ ns, mine n = false → TreeCallsOnly owner (fun a => ¬ A a) n)
    (s s' : Str → τ) (_ : ∀ a, A a → s a = s' a),
    let r := sessionS (inContext owner own) ext dateFmt cfg vars mode ns s
    let r' := sessionS (inContext owner own) ext dateFmt cfg vars mode (ns.filter mine) s'
    r'.2 = ((ns.zip r.2).filter fun x => mine x.1).map Prod.snd ∧ ∀ a, A a → r.1 a = r'.1 a
  | [], _, _, s, s', hs => ⟨rfl, hs⟩
  | n :: ns, h1, h2, s, s', hs => by
    have ih := C115_session ext dateFmt cfg vars mode owner own A mine ns (fun m hm => h1 m (List.mem_cons_of_mem _ hm))
      (fun m hm => h2 m (List.mem_cons_of_mem _ hm))
    cases hm : mine n with
    | true =>
      obtain ⟨k1, k2, _⟩ := C115_build ext dateFmt cfg vars mode n owner own A (h1 n List.mem_cons_self hm) s s' hs
      obtain ⟨i1, i2⟩ := ih _ _ k2
      simp only [List.filter_cons, hm, if_true, sessionS, List.zip_cons_cons, List.map_cons]
      exact ⟨by rw [i1, k1], i2⟩
    | false =>
      obtain ⟨_, _, k3⟩ := C115_build ext dateFmt cfg vars mode n owner own (fun a => ¬ A a) (h2 n List.mem_cons_self hm) s s (fun _ _ => rfl)
      obtain ⟨i1, i2⟩ := ih (buildTreeS (inContext owner own) ext dateFmt cfg vars mode n s).1 s'
        (fun a ha => (k3 a (fun h => h ha)).trans (hs a ha))
      simp only [List.filter_cons, hm, sessionS, List.zip_cons_cons]
      exact ⟨i1, i2⟩

/-- C115, so far as it holds of the builds of a development server: with functions whose states do not show, every site is
what a program that has just been started makes of the content. That it is with any functions is false
(C115_counterexample_rebuild). -/
theorem C115_session_partial {σ : Type} (ext : Ext) (dateFmt : Str → Str → Option Str) (cfg : Config) (vars : List (Str × Str)) (mode : Str)
    (call : LTok → Call σ) (kind : σ → Prop) (s₀ : σ) (h₀ : kind s₀) : ∀ (ns : List Node)
    (_ : ∀ n ∈ ns, ∀ t ∈ nodeToks n, ∀ f, t.inner = .func (.plugin f) → ∀ s s' sc, kind s → kind s' →
      kind (call t s sc).1 ∧ (call t s sc).2 = (call t s' sc).2) (s : σ) (_ : kind s),
    (sessionS call ext dateFmt cfg vars mode ns s).2 = ns.map fun n => (buildTreeS call ext dateFmt cfg vars mode n s₀).2
  | [], _, _, _ => rfl
  | n :: ns, h, s, hs => by
    have hk : kind (buildTreeS call ext dateFmt cfg vars mode n s).1 := by
      have hp := h n List.mem_cons_self
      exact (buildTree_sim (Rl := fun u u' : σ => kind u ∧ kind u') (P := fun t => t ∈ nodeToks n) (call := call) (call' := call)
        (fun t ht f hf u u' sc h => ⟨⟨(hp t ht f hf u u' sc h.1 h.2).1, (hp t ht f hf u' u sc h.2 h.1).1⟩, (hp t ht f hf u u' sc h.1 h.2).2⟩)
        ext dateFmt cfg vars mode n s s (fun t ht => ht) ⟨hs, hs⟩).1.1
    rw [sessionS, List.map_cons]
    exact congr (congrArg List.cons (C115_hidden_partial ext dateFmt cfg vars mode n call kind (h n List.mem_cons_self) s₀ s h₀ hs).1)
      (C115_session_partial ext dateFmt cfg vars mode call kind s₀ h₀ ns (fun m hm => h m (List.mem_cons_of_mem _ hm)) _ hk)

/-- C115. What a development server has made, it has made one build after another: the last one begins with the state that the
others left, successful or not, and leaves its own. -/
theorem C115_session_next {σ : Type} (ext : Ext) (dateFmt : Str → Str → Option Str) (cfg : Config) (vars : List (Str × Str)) (mode : Str)
    (call : LTok → Call σ) (n : Node) : ∀ (ns : List Node) (s : σ),
    let before := sessionS call ext dateFmt cfg vars mode ns s
    let last := buildTreeS call ext dateFmt cfg vars mode n before.1
    sessionS call ext dateFmt cfg vars mode (ns ++ [n]) s = (last.1, before.2 ++ [last.2])
  | [], _ => rfl
  | m :: ns, s => by
    have ih := C115_session_next ext dateFmt cfg vars mode call n ns (buildTreeS call ext dateFmt cfg vars mode m s).1
    simp only [List.cons_append, sessionS, ih]

/-- Sites that call the one plugin or the other; the last one fails after a call. -/
def callingTree (text : Str) : Node := listedTree [.file str!"a.html" [] (.html (toksOf text)) none str!"a.html"]

def sessionOf (l : List Str) : (Str → Nat) × List (List (Str × Bytes)) :=
  let r := sessionS (inContext namedOwner fun _ => incCall) ⟨id⟩ (fun _ _ => none) Config.default [] str!"production" (l.map callingTree) fun _ => 0
  (r.1, r.2.map fun x => pagesOf (fun _ => 0, x))

/-- C115. A case for C115_session: a build with `plugin2` and one that fails come between. What a build that failed has done to
the state of a plugin is kept. -/
theorem C115_session_case : (sessionOf [str!"{{ begin(\"body\") }}{{ plugin1::inc() }}{{ end(\"body\") }}", str!"{{ begin(\"body\") }}{{ plugin2::inc() }}{{ end(\"body\") }}",
      str!"{{ plugin1::inc() }}{{ $no }}", str!"{{ begin(\"body\") }}{{ plugin1::inc() }}{{ end(\"body\") }}"]).2 =
    [[(str!"a.html", bytesOf str!"0")], [(str!"a.html", bytesOf str!"0")], [], [(str!"a.html", bytesOf str!"2")]] := by decide +kernel

/-- A case for C115_session_partial: functions that count, and return the name of their plugin. -/
example : (sessionS shyCall ⟨id⟩ (fun _ _ => none) Config.default [] str!"production" [isolationTree, isolationTree, isolationTree] 4).2 =
    List.replicate 3 (buildTreeS shyCall ⟨id⟩ (fun _ _ => none) Config.default [] str!"production" isolationTree 0).2 :=
  C115_session_partial ⟨id⟩ (fun _ _ => none) Config.default [] str!"production" shyCall (fun _ => True) 0 trivial _
    (fun _ _ _ _ _ _ _ _ _ _ _ => ⟨trivial, rfl⟩) 4 trivial

/-! ### The test `js` (stuart/tests/js, stuart/src/test.rs). -/

/-- A number, of whole numbers from 0 on. -/
def wholeOf : JsVal → Nat
  | .num (.fin q) => q.floor.toNat
  | _ => 0

def sortedInsert (n : Nat) : List Nat → List Nat
  | [] => [n]
  | m :: l => if n ≤ m then n :: m :: l else m :: sortedInsert n l

def sortedNats : List Nat → List Nat
  | [] => []
  | n :: l => sortedInsert n (sortedNats l)

/-- How arrays become text: joined by commas. -/
def commaText : List Nat → Str
  | [] => []
  | [n] => natToStr n
  | n :: l => natToStr n ++ str!"," ++ commaText l

def wholeRoot (n : Nat) : Nat := ((List.range (n + 1)).filter fun k => k * k ≤ n).length - 1

/-- The functions of stuart/tests/js/plugin.mjs. -/
def testFn (name : Str) : Option (Nat → List JsVal → JsRunS Nat) :=
  if name = str!"add" then some fun s vs => .ret s (some (natToStr ((vs.map wholeOf).foldl (· + ·) 0)))
  else if name = str!"sort" then some fun s vs => .ret s (some (commaText (sortedNats (vs.map wholeOf))))
  else if name = str!"inc" then some fun s _ => .ret (s + 1) (some (natToStr s))
  else if name = str!"magnitude" then some fun s vs => match vs with
    | [.obj l] => .ret s (some (natToStr (wholeRoot (l.foldl (fun n e => n + wholeOf e.2 * wholeOf e.2) 0))))
    | _ => .throw s
  else if name = str!"set" then some fun s _ => .set str!"my_var" (.str str!"set by JavaScript!") (.ret s none)
  else if name = str!"get" then some fun s _ => .get str!"my_var" fun v => .ret s (match v with | .str t => some t | _ => none)
  else none

/-- The parser of a function keeps its name and arguments, in what stands for the function in the token. -/
def keptArg : RawArg → Value
  | .var n => .arr [.str n]
  | .str s => .str s
  | .int i => .num (.fin i)
  | .ident _ => .null

def argBack : Value → RawArg
  | .arr [.str n] => .var n
  | .str s => .str s
  | .num (.fin q) => .int q.floor
  | _ => .ident []

def keptParser (name : Str) : PluginFnParser :=
  ⟨name, fun raw => .ok ⟨none, fun _ => .ok (raw.pos.map fun a => ([], keptArg a), bytesOf name)⟩⟩

def jsTestPlugins : List PluginFns :=
  [⟨str!"my_js_plugin", [str!"add", str!"sort", str!"inc", str!"magnitude", str!"set", str!"get"].map keptParser⟩]

def jsTestToks (text : Str) : List LTok :=
  match parseHtml Unicode.asciiOnly str!"index.html" jsTestPlugins text with
  | .ok l => l
  | _ => []

def jsTestCall (t : LTok) : Call Nat :=
  match t.inner with
  | .func (.plugin p) => match p.exec [] with
    | .ok (args, name) =>
      jsCall (match [str!"add", str!"sort", str!"inc", str!"magnitude", str!"set", str!"get"].find? (fun n => bytesOf n == name) with
        | some n => testFn n
        | none => none) (args.map fun a => argBack a.2)
    | _ => fun s _ => (s, .panic .plugin)
  | _ => fun s _ => (s, .panic .plugin)

/-- stuart/tests/js/content/index.html -/
def jsTestIndex : Str := str!"{{ begin(\"body\") }}\n  {{ my_js_plugin::add(2, 3) }}\n  {{ my_js_plugin::sort(1, 5, 3, 6, 8, 4) }}\n  {{ my_js_plugin::inc() }} {{ my_js_plugin::inc() }} {{ my_js_plugin::inc() }}\n  {{ import($data, \"./data.json\") }} {{ my_js_plugin::magnitude($data) }}\n  {{ my_js_plugin::set() }} {{ $my_var }}\n  {{ my_js_plugin::get() }}\n{{ end(\"body\") }}"

/-- stuart/tests/js/content -/
def jsTestTree : Node := .dir str!"content" [
  .file str!"root.html" [] (.html (jsTestToks str!"{{ insert(\"body\") }}")) none str!"content/root.html",
  .file str!"data.json" [] (.json (.obj [(str!"x", .num (.fin 3)), (str!"y", .num (.fin 4))])) none str!"content/data.json",
  .file str!"index.html" [] (.html (jsTestToks jsTestIndex)) none str!"content/index.html"] str!"content"

def jsTestSite : Nat × Res SErr Node :=
  buildTreeS jsTestCall ⟨id⟩ (fun _ _ => none) Config.default [] str!"production" jsTestTree 0

/-- The page of the site. -/
def jsTestPage : Bytes :=
  match jsTestSite.2 with
  | .ok (.dir _ cs _) => (cs.filterMap fun c => match c with
    | .file n b _ _ _ => if n = str!"index.html" then some b else none
    | _ => none).flatten
  | _ => []

/-- C115. The test passes (stuart/src/test.rs:42 and 50-58). -/
theorem C115_js :
    jsTestPage = bytesOf str!"\n  5\n  1,3,4,5,6,8\n  0 1 2\n   5\n   set by JavaScript!\n  set by JavaScript!\n" ∧
    (lines (trim str!"\n  5\n  1,3,4,5,6,8\n  0 1 2\n   5\n   set by JavaScript!\n  set by JavaScript!\n")).map trim =
      [str!"5", str!"1,3,4,5,6,8", str!"0 1 2", str!"5", str!"set by JavaScript!", str!"set by JavaScript!"] ∧ jsTestSite.1 = 3 := by
  decide +kernel

/-- Cases for C115_call: a variable that was set is seen by what runs after it in the same call, and by later calls. -/
example : (jsCall (some fun s _ => .set str!"a" (.num (.fin 7)) (.get str!"a" fun v => .ret (s + wholeOf v) (some (natToStr (wholeOf v))))) []
      1 [[]]).1 = 8 := by decide +kernel

/-- A case for C115_call_unreached: an argument that is no variable. -/
example : (jsCall (testFn str!"inc") [.var str!"no"] 5 [[]]).1 = 5 :=
  C115_call_unreached _ _ _ _ (Or.inr (fun _ h => nomatch h))

example : (jsCall (testFn str!"inc") [.str str!"yes"] 5 [[]]).1 = 6 := by decide +kernel

/-- A case for C115_call_leaves: a function that throws after it has counted. -/
example : (jsCall (some fun (s : Nat) _ => .set str!"a" .null (.throw (s + 1))) [] 5 [[]]).1 = 6 ∧
    (match (jsCall (some fun (s : Nat) _ => .set str!"a" .null (.throw (s + 1))) [] 5 [[]]).2 with
      | .ok (l, b) => l.length == 1 && b.isEmpty
      | _ => false) = true := by decide +kernel

/-- A case for C115_call_state: `inc` only counts up. -/
example : 5 ≤ (jsCall (some fun (s : Nat) _ => .ret (s + 1) none) [.var str!"no"] 5 [[]]).1 :=
  C115_call_state _ _ _ _ (5 ≤ ·) (Nat.le_refl 5) fun _ => Nat.le_succ 5

end Stuart
