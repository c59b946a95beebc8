import Verif.Proof.Beside
import Verif.Model.Js
/-
C116: what the functions of plugins do has no influence on how files are read.
-/
namespace Stuart

variable {R : PluginFn → PluginFn → Prop}

/-- C116. Two lists of plugins with the same names, whose functions have the same names and take the same calls: a text that
can be read with the one can be read with the other, as the same texts, variables and functions at the same places, with
the functions of the one list where the other has its own; a text that cannot be read gives the same error at the same
place. -/
theorem C116_html (U : Unicode) (path : Str) (P Q : List PluginFns) (h : Beside (PluginBeside R) P Q) (text : Str) :
    Outcomes (Beside (TokBeside R)) (parseHtml U path P text) (parseHtml U path Q text) := parseHtml_beside U path h text

/-- C116, of markdown files: with the same frontmatter. -/
theorem C116_markdown (U : Unicode) (path : Str) (P Q : List PluginFns) (h : Beside (PluginBeside R) P Q) (text : Str) :
    Outcomes (MdBeside R) (parseMarkdown U path P text) (parseMarkdown U path Q text) := parseMarkdown_beside U path h text

/-- C116, of whole directories: the same files in the same order, that differ in the functions of their templates only; or the
same error. -/
theorem C116_tree (S : Sys) (parse : Bool) (P Q : List Plugin) (h : Beside (WholeBeside R) P Q) (disk : Entry) (p : Path) :
    Outcomes (NodeBeside R) (readTree S parse P disk p) (readTree S parse Q disk p) := by
  unfold readTree
  split
  · refine (readEntries_beside S parse h p _).bind fun _ _ k => ?_
    refine Outcomes.bind (R := Eq) (Outcomes.refl _ fun _ _ => rfl) ?_
    rintro n _ rfl
    exact .ok (.dir _ _ k)
  · exact .err _

/-- A JavaScript plugin: its name, and its functions. -/
def jsPluginOf (name : Str) (fns : List (Str × Option (List JsVal → JsRun))) : PluginFns :=
  ⟨name, fns.map fun f => jsParser f.1 f.2⟩

/-- C116, of JavaScript plugins. Whatever is changed in the bodies of its functions, a plugin with functions of the same names
is called by the same tags with the same arguments. -/
theorem C116_js (U : Unicode) (path name : Str) (names : List Str) (f g : Str → Option (List JsVal → JsRun)) (text : Str) :
    Outcomes (Beside (TokBeside fun p q => ∃ n ∈ names, ∃ args, p = jsFunction (f n) args ∧ q = jsFunction (g n) args))
      (parseHtml U path [jsPluginOf name (names.map fun n => (n, f n))] text)
      (parseHtml U path [jsPluginOf name (names.map fun n => (n, g n))] text) := by
  have key : ∀ l : List Str, (∀ n ∈ l, n ∈ names) →
      Beside (ParserBeside fun p q => ∃ n ∈ names, ∃ args, p = jsFunction (f n) args ∧ q = jsFunction (g n) args)
        ((l.map fun n => (n, f n)).map fun x => jsParser x.1 x.2) ((l.map fun n => (n, g n)).map fun x => jsParser x.1 x.2) := by
    intro l
    induction l with
    | nil => exact fun _ => .nil
    | cons n l ih =>
      exact fun hl => .cons ⟨rfl, fun raw => .ok ⟨n, hl n List.mem_cons_self, raw.pos, rfl, rfl⟩⟩ (ih fun m hm => hl m (List.mem_cons_of_mem _ hm))
  have hb := Beside.cons (R := PluginBeside fun p q => ∃ n ∈ names, ∃ args, p = jsFunction (f n) args ∧ q = jsFunction (g n) args)
    (a := jsPluginOf name (names.map fun n => (n, f n))) (b := jsPluginOf name (names.map fun n => (n, g n)))
    ⟨rfl, key names fun _ h => h⟩ .nil
  exact C116_html U path _ _ hb text

/-- The order of the functions matters where names are the same, and so do the names: a case in which the plugins are not
beside one another, and the tags call other functions. -/
def tellFn (name out : Str) : PluginFnParser := ⟨name, fun _ => .ok ⟨some name, fun _ => .ok ([], bytesOf out)⟩⟩

def tellPlugin (fns : List (Str × Str)) : List PluginFns := [⟨str!"p", fns.map fun x => tellFn x.1 x.2⟩]

/-- What the functions of a text would write. -/
def toldBy (plugins : List PluginFns) (text : Str) : Option (List (Nat × Nat × Bytes)) :=
  match parseHtml Unicode.asciiOnly str!"a.html" plugins text with
  | .ok l => some (l.filterMap fun t => match t.inner with
    | .func (.plugin f) => match f.exec [] with
      | .ok (_, b) => some (t.line, t.col, b)
      | _ => none
    | _ => none)
  | _ => none

/-- C116. A case: the places stay, what is called is of the one list or of the other; other names are other calls, and with
two functions of one name it is the first that is called. -/
theorem C116_case :
    toldBy (tellPlugin [(str!"a", str!"1"), (str!"b", str!"2")]) str!"x {{ a() }}\n{{ p::b(3) }}" = some [(1, 5, bytesOf str!"1"), (2, 2, bytesOf str!"2")] ∧
    toldBy (tellPlugin [(str!"a", str!"3"), (str!"b", str!"4")]) str!"x {{ a() }}\n{{ p::b(3) }}" = some [(1, 5, bytesOf str!"3"), (2, 2, bytesOf str!"4")] ∧
    toldBy (tellPlugin [(str!"a", str!"1"), (str!"c", str!"2")]) str!"x {{ a() }}\n{{ p::b(3) }}" = none ∧
    toldBy (tellPlugin [(str!"a", str!"1"), (str!"a", str!"2")]) str!"{{ a() }}" = some [(1, 3, bytesOf str!"1")] ∧
    toldBy (tellPlugin [(str!"end", str!"1")]) str!"{{ end(\"a\") }}{{ p::end() }}" = some [(1, 17, bytesOf str!"1")] := by
  refine ⟨?_, ?_, ?_, ?_, ?_⟩ <;> decide +kernel

/-- A case for C116_html and C116_tree: plugins that are beside one another. -/
example : Beside (PluginBeside fun p q => p.name = q.name) (tellPlugin [(str!"a", str!"1"), (str!"b", str!"2")])
    (tellPlugin [(str!"a", str!"3"), (str!"b", str!"4")]) :=
  .cons ⟨rfl, .cons ⟨rfl, fun _ => .ok rfl⟩ (.cons ⟨rfl, fun _ => .ok rfl⟩ .nil)⟩ .nil

end Stuart
