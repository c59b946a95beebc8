import Verif.Proof.Js
import Verif.Proof.Scope
/-
Properties C58, C59 and C67: JavaScript plugins.
-/
namespace Stuart
open Spec

/-! ### C58 -/

/-- C58. A value passed to JavaScript and handed back unchanged comes back as it was exactly when, at every depth, the
names in its objects are distinct, in the order JavaScript keeps them in, and not `__proto__`. -/
theorem C58_exact (v : Value) : jsToJson (jsonToJs v) = .ok (some v) ↔ JsSafe v := by
  constructor
  · intro h
    obtain ⟨w, h1, h2⟩ := roundtrip v
    rw [h] at h1
    cases h1
    exact h2
  · exact roundtrip_safe

/-- C58. Any value comes back as some value with the same contents: whatever is found under keys and indices, the last
value counting for a key that occurs several times. What differs is the order of keys, that such a key occurs only once,
and that `__proto__` is gone. -/
theorem C58_contents_partial (v : Value) :
    ∃ w, jsToJson (jsonToJs v) = .ok (some w) ∧ JsSafe w ∧
      ∀ ds : List Down, Down.key str!"__proto__" ∉ ds → shapeAt ds w = shapeAt ds v := by
  obtain ⟨w, h1, h2⟩ := roundtrip v
  refine ⟨w, h1, h2, fun ds => ?_⟩
  clear h2
  induction ds generalizing v w with
  | nil => intro _; rw [shapeAt, shapeAt, roundtrip_shape h1]
  | cons d ds ih =>
    intro hd
    simp only [List.mem_cons, not_or] at hd
    rw [shapeAt, shapeAt]
    rcases roundtrip_down h1 d (Ne.symm hd.1) with ⟨k1, k2⟩ | ⟨v', w', k1, k2, k3⟩
    · rw [k1, k2]
    · rw [k1, k2]
      exact ih v' w' k3 hd.2

/-- C58 is false in general: keys that are numbers come first, a key that occurs twice keeps its last value, `__proto__`
is lost. -/
theorem C58_counterexample :
    jsToJson (jsonToJs (.obj [(str!"b", .null), (str!"10", .bool true), (str!"9", .null), (str!"b", .str []), (str!"__proto__", .null)])) =
      .ok (some (.obj [(str!"9", .null), (str!"10", .bool true), (str!"b", .str [])])) := rfl

/-- C58. What is no JSON within an array makes the program panic. -/
theorem C58_panic : jsToJson (.arr [.null, .undefined]) = .panic .plugin ∧ jsToJson .undefined = .ok none := ⟨rfl, rfl⟩

example : JsSafe (.obj [(str!"7", .null), (str!"12", .arr [.obj [(str!"b", .null), (str!"a", .null)]]), (str!"012", .null)]) := by
  rw [← C58_exact]
  rfl

/-! ### C59 -/

variable (n : Str) (w : Value)

theorem lookup_new {top added more : List (Str × Value)} {rest : List (List (Str × Value))}
    (hn : '.' ∉ n) (hnew : n ∉ (top ++ added).map Prod.fst) :
    lookupVar n (jsFrames (added ++ (n, w) :: more) (top :: rest)) = some w := by
  unfold lookupVar splitVar
  rw [splitOn_nodot '.' n hn]
  simp only [jsFrames, lookupFrames, Frame.getVar]
  have : (top ++ (added ++ (n, w) :: more)).find? (fun e => e.1 == n) = some (n, w) := by
    rw [← List.append_assoc, List.find?_append]
    have : (top ++ added).find? (fun e => e.1 == n) = none := by
      rw [List.find?_eq_none]
      intro e he hk
      exact hnew (by rw [← beq_iff_eq.1 hk]; exact List.mem_map_of_mem he)
    rw [this]
    simp
  rw [this]
  simp [getValue]

/-- C59. A function that sets a variable that its scope does not have yet reads back the value it has set, whatever else
it sets afterwards (`more`): provided the name has no dot. What it reads is the value as JSON, see C58. -/
theorem C59_set_get_partial (top added more : List (Str × Value)) (rest : List (List (Str × Value))) (v : JsVal)
    (next : JsVal → JsRun) (hn : '.' ∉ n) (hnew : n ∉ (top ++ added).map Prod.fst) (hv : jsToJson v = .ok (some w)) :
    (∀ k, runJs (top :: rest) (.set n v k) added = runJs (top :: rest) k (added ++ [(n, w)])) ∧
    runJs (top :: rest) (.get n next) (added ++ (n, w) :: more) =
      runJs (top :: rest) (next (jsonToJs w)) (added ++ (n, w) :: more) := by
  constructor
  · intro k
    rw [runJs, hv]
    rfl
  · rw [runJs, lookup_new n w hn hnew]
    rfl

/-- C59. And after the function has run the template sees the variable with that value. -/
theorem C59_seen_partial (fn : Option (List JsVal → JsRun)) (args : List RawArg) (st st' : St) (f : Frame) (fs : List Frame)
    (before after : List (Str × Value)) (b : Bytes) (hst : st.stack = f :: fs)
    (hx : (jsFunction fn args).exec (st.stack.map (·.vars)) = .ok (before ++ (n, w) :: after, b))
    (hn : '.' ∉ n) (hnew : n ∉ (f.vars ++ before).map Prod.fst)
    (h : execPlugin (jsFunction fn args) st = .ok st') :
    lookupVar n st'.stack = some w := by
  unfold execPlugin at h
  rw [hx, hst] at h
  cases h
  have := lookup_new n w (rest := []) (more := after) hn hnew
  unfold lookupVar splitVar at this ⊢
  rw [splitOn_nodot '.' n hn] at this ⊢
  simp only [jsFrames, lookupFrames, Frame.getVar, List.map_nil] at this ⊢
  split at this
  · exact this
  · cases this

/-- C59 is false in general: of two values set, the first is read back. -/
theorem C59_counterexample :
    runJs [[]] (.set str!"x" (.str str!"old") (.set str!"x" (.str str!"new")
      (.get str!"x" fun v => match v with | .str s => .ret (some s) | _ => .throw))) [] =
      .ok ([(str!"x", .str str!"old"), (str!"x", .str str!"new")], bytesOf str!"old") := rfl

/-- C59. Nor is a variable found whose name has a dot. -/
theorem C59_counterexample_dot :
    runJs [[]] (.set str!"a.b" (.str str!"x")
      (.get str!"a.b" fun v => match v with | .undefined => .ret (some str!"undefined") | _ => .throw)) [] =
      .ok ([(str!"a.b", .str str!"x")], bytesOf str!"undefined") := rfl

/-- Setting `undefined` changes nothing. -/
theorem C59_undefined (scopes : List (List (Str × Value))) (added : List (Str × Value)) (k : JsRun) :
    runJs scopes (.set n .undefined k) added = runJs scopes k added := rfl

/-- A function setting two variables and reading one. -/
example : runJs [[(str!"a", .null)], []] (.set str!"x" (.arr [.num (.fin 1)]) (.set str!"y" .null
    (.get str!"x" fun v => match v with | .arr [.num _] => .ret (some str!"ok") | _ => .throw))) [] =
    .ok ([(str!"x", .arr [.num (.fin 1)]), (str!"y", .null)], bytesOf str!"ok") := rfl

/-! ### C67 -/

/-- The value of an argument: of a variable what is found, passed to JavaScript; strings and integers as they are. -/
inductive ArgIs (scopes : List (List (Str × Value))) : RawArg → JsVal → Prop
  | var {x : Str} {v : Value} : lookupVar x (scopes.map fun vs => ⟨[], vs, []⟩) = some v → ArgIs scopes (.var x) (jsonToJs v)
  | str (s : Str) : ArgIs scopes (.str s) (.str s)
  | int (i : Int) : ArgIs scopes (.int i) (.num (.fin i))

theorem jsFrames_nil (scopes : List (List (Str × Value))) : jsFrames [] scopes = scopes.map fun vs => ⟨[], vs, []⟩ := by
  cases scopes <;> simp [jsFrames]

theorem jsArg_iff {scopes : List (List (Str × Value))} {a : RawArg} {v : JsVal} :
    jsArg scopes a = .ok v ↔ ArgIs scopes a v := by
  cases a with
  | var x =>
    rw [jsArg, jsFrames_nil]
    constructor
    · intro h
      split at h
      · rename_i hv; cases h; exact .var hv
      · cases h
    · intro h
      cases h with
      | var h => rw [h]
  | str s => exact ⟨fun h => by cases h; exact .str s, fun h => by cases h; rfl⟩
  | int i => exact ⟨fun h => by cases h; exact .int i, fun h => by cases h; rfl⟩
  | ident s => exact ⟨fun h => (by cases h), fun h => (by cases h)⟩

/-- The values of the arguments, in order. -/
inductive ArgsAre (scopes : List (List (Str × Value))) : List RawArg → List JsVal → Prop
  | nil : ArgsAre scopes [] []
  | cons {a : RawArg} {as : List RawArg} {v : JsVal} {vs : List JsVal} : ArgIs scopes a v → ArgsAre scopes as vs →
      ArgsAre scopes (a :: as) (v :: vs)

theorem jsArgs_iff {scopes : List (List (Str × Value))} {as : List RawArg} {vs : List JsVal} :
    jsArgs scopes as = .ok vs ↔ ArgsAre scopes as vs := by
  induction as generalizing vs with
  | nil => exact ⟨fun h => by cases h; exact .nil, fun h => by cases h; rfl⟩
  | cons a as ih =>
    rw [jsArgs]
    constructor
    · intro h
      cases ha : jsArg scopes a with
      | err e => rw [ha] at h; cases h
      | panic p => rw [ha] at h; cases h
      | ok v =>
        rw [ha] at h
        simp only [Res.bind] at h
        cases hs : jsArgs scopes as with
        | err e => rw [hs] at h; cases h
        | panic p => rw [hs] at h; cases h
        | ok vs =>
          rw [hs] at h
          cases h
          exact .cons (jsArg_iff.1 ha) (ih.1 hs)
    · intro h
      cases h with
      | cons k1 k2 => rw [jsArg_iff.2 k1, ih.2 k2]; rfl

/-- C67. A JavaScript function is called with the values of its positional arguments, in order. -/
theorem C67_call (f : List JsVal → JsRun) (args : List RawArg) (scopes : List (List (Str × Value))) (vs : List JsVal)
    (h : ArgsAre scopes args vs) : (jsFunction (some f) args).exec scopes = runJs scopes (f vs) [] := by
  simp only [jsFunction, jsArgs_iff.2 h, Res.bind, Res.unwrap]

/-- C67. Otherwise it is not called at all, and the page fails: because of the first argument that is an undefined
variable or a bare word. -/
theorem C67_not_called (fn : Option (List JsVal → JsRun)) (args : List RawArg) (scopes : List (List (Str × Value)))
    (h : ∀ vs, ¬ ArgsAre scopes args vs) :
    ∃ before a after vs, args = before ++ a :: after ∧ ArgsAre scopes before vs ∧
      ((∃ x, a = .var x ∧ lookupVar x (scopes.map fun vs => ⟨[], vs, []⟩) = none ∧
          (jsFunction fn args).exec scopes = .err (.undefinedVariable x)) ∨
        (∃ x, a = .ident x ∧ (jsFunction fn args).exec scopes = .err .stackError)) := by
  suffices ∃ before a after vs, args = before ++ a :: after ∧ ArgsAre scopes before vs ∧
      ((∃ x, a = .var x ∧ lookupVar x (scopes.map fun vs => ⟨[], vs, []⟩) = none ∧
          jsArgs scopes args = .err (.undefinedVariable x)) ∨
        (∃ x, a = .ident x ∧ jsArgs scopes args = .err .stackError)) by
    obtain ⟨before, a, after, vs, h1, h2, h3⟩ := this
    refine ⟨before, a, after, vs, h1, h2, ?_⟩
    rcases h3 with ⟨x, k1, k2, k3⟩ | ⟨x, k1, k2⟩
    · exact .inl ⟨x, k1, k2, by simp only [jsFunction, k3, Res.bind]⟩
    · exact .inr ⟨x, k1, by simp only [jsFunction, k2, Res.bind]⟩
  induction args with
  | nil => exact absurd .nil (h [])
  | cons a as ih =>
    cases ha : jsArg scopes a with
    | ok v =>
      obtain ⟨before, b, after, vs, h1, h2, h3⟩ := ih fun vs hvs => h (v :: vs) (.cons (jsArg_iff.1 ha) hvs)
      refine ⟨a :: before, b, after, v :: vs, by rw [h1]; rfl, .cons (jsArg_iff.1 ha) h2, ?_⟩
      rcases h3 with ⟨x, k1, k2, k3⟩ | ⟨x, k1, k2⟩
      · exact .inl ⟨x, k1, k2, by rw [jsArgs, ha, k3]; rfl⟩
      · exact .inr ⟨x, k1, by rw [jsArgs, ha, k2]; rfl⟩
    | err e =>
      refine ⟨[], a, as, [], rfl, .nil, ?_⟩
      cases a with
      | var x =>
        left
        rw [jsArg, jsFrames_nil] at ha
        split at ha
        · cases ha
        · rename_i hv
          cases ha
          exact ⟨x, rfl, hv, by rw [jsArgs, jsArg, jsFrames_nil, hv]; rfl⟩
      | ident x => exact .inr ⟨x, rfl, rfl⟩
      | str s => cases ha
      | int i => cases ha
    | panic p =>
      cases a with
      | var x => rw [jsArg] at ha; split at ha <;> cases ha
      | ident x => cases ha
      | str s => cases ha
      | int i => cases ha

/-- C67. What it returns is added to the output, `undefined` adding nothing; if it throws, nothing is added either, and
the build goes on as if nothing had happened. -/
theorem C67_output (scopes : List (List (Str × Value))) (added : List (Str × Value)) :
    (∀ s, runJs scopes (.ret (some s)) added = .ok (added, bytesOf s)) ∧
    runJs scopes (.ret none) added = .ok (added, []) ∧
    runJs scopes .throw added = .ok (added, []) := ⟨fun _ => rfl, rfl, rfl⟩

/-- C67. The output and the variables go to the innermost frame. -/
theorem C67_effect (fn : Option (List JsVal → JsRun)) (args : List RawArg) (st : St) (f : Frame) (fs : List Frame)
    (vs : List (Str × Value)) (b : Bytes) (hst : st.stack = f :: fs)
    (hx : (jsFunction fn args).exec (st.stack.map (·.vars)) = .ok (vs, b)) :
    execPlugin (jsFunction fn args) st = .ok { st with stack := { f with vars := f.vars ++ vs, out := f.out ++ b } :: fs } := by
  unfold execPlugin
  rw [hx, hst]

example : (jsFunction (some fun vs => match vs with | [.str a, .num _, .obj _] => .ret (some a) | _ => .throw)
    [.str str!"hi", .int 3, .var str!"o"]).exec [[], [(str!"o", .obj [])]] = .ok ([], bytesOf str!"hi") := rfl

example : (jsFunction none [.str str!"hi", .var str!"o"]).exec [[]] = .err (.undefinedVariable str!"o") := rfl

/-- What is not a function makes the program panic when it is called. -/
theorem C67_counterexample : (jsFunction none []).exec [[]] = .panic .plugin := rfl

/-! ### Cases: each theorem applied to something that meets its hypotheses -/

example := C59_set_get_partial str!"x" (.arr [.num (.fin 1)]) [(str!"a", .null)] [(str!"b", .null)] [] [] (.arr [.num (.fin 1)])
  (fun _ => .throw) (by decide) (by decide) rfl

/-- A scope with a variable. -/
def caseFrame : Frame := ⟨str!"base", [(str!"s", .str str!"S")], []⟩

/-- A function that sets a variable and returns its argument. -/
def caseJs : List JsVal → JsRun := fun vs => match vs with
  | [.str a] => .set str!"x" .null (.ret (some a))
  | _ => .throw

example := C59_seen_partial str!"x" .null (some caseJs) [.str str!"hi"] ⟨[caseFrame], []⟩ _ caseFrame [] [] [] _ rfl rfl (by decide) (by decide) rfl

example := C67_call caseJs [.var str!"s"] [[(str!"s", .str str!"S")]] [.str str!"S"] (.cons (.var (v := .str str!"S") rfl) .nil)

example := C67_not_called (some caseJs) [.str str!"hi", .ident str!"for"] [[(str!"s", .str str!"S")]] (by
  intro vs h
  cases h with
  | cons _ h => cases h with
    | cons h _ => cases h)

example := C67_effect (some caseJs) [.str str!"hi"] ⟨[caseFrame], []⟩ caseFrame [] _ _ rfl rfl

end Stuart
