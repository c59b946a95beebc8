import Verif.Model.Demo
import Verif.Props.Parse
import Verif.Props.Block
import Verif.Props.Text
/-
Property C85: the demonstration plugin.
-/
namespace Stuart
open Spec

/-- What the function writes. -/
def demoLine : Str := str!"<p>This was written by the demo function!</p>"

theorem runToks_text {cx : Ctx} {toks : List LTok} {s : Str} (h : toks.map (fun t => t.inner) = textTok s) (rest : List LTok)
    (f : Frame) (fs : List Frame) (secs : Sections) :
    runToks cx (toks ++ rest) ⟨f :: fs, secs⟩ = runToks cx rest ⟨{ f with out := f.out ++ bytesOf s } :: fs, secs⟩ := by
  unfold textTok at h
  split at h
  · rename_i hs
    subst hs
    rw [List.map_eq_nil_iff] at h
    subst h
    simp [bytesOf]
  · cases toks with
    | nil => cases h
    | cons t ts =>
      rw [List.map_cons, List.cons.injEq, List.map_eq_nil_iff] at h
      obtain ⟨h1, rfl⟩ := h
      rw [List.singleton_append, runToks_cons, exec_raw cx _ _ _ s h1]
      rfl

/-- C85. A call of `demo`, or `demo::demo`, without arguments is replaced by the text, in whatever scope it stands; no
variable is defined, and no section. -/
theorem C85_call (U : Unicode) (path : Str) (plugins : List PluginFns) (t : Text) (ht : t.WF)
    (hg : Glue t) (w w' : Str) (hw : Blank w) (hw' : Blank w') (c : Call) (hc : c.WF U)
    (hn : c.name = str!"demo" ∨ c.name = str!"demo::demo") (ha : c.args = [])
    (hp : ∀ pl ∈ plugins, ∀ g ∈ pl.functions, c.name ≠ g.name ∧ c.name ≠ pl.name ++ str!"::" ++ g.name) :
    ∃ toks, parseHtml U path (plugins ++ [demoPlugin.fns]) (callFile t w c w') = .ok toks ∧
      ∀ (cx : Ctx) (rest : List LTok) (f : Frame) (fs : List Frame) (secs : Sections),
        runToks cx (toks ++ rest) ⟨f :: fs, secs⟩ =
          runToks cx rest ⟨{ f with out := f.out ++ bytesOf (t.val ++ demoLine) } :: fs, secs⟩ := by
  have hb : c.name ∉ builtinNames := by
    rcases hn with hn | hn <;> rw [hn] <;> decide
  have hf : FirstPlugin (plugins ++ [demoPlugin.fns]) c.name demoParser :=
    ⟨plugins, demoPlugin.fns, [], [], [], rfl, rfl, hn, hp, by simp⟩
  obtain ⟨toks, h1, h2⟩ := (C05_first_plugin U path _ t ht hg w w' hw hw' c hc hb _ hf).1 demoFunction (by
    simp [demoParser, Call.raw, ha])
  refine ⟨toks, h1, fun cx rest f fs secs => ?_⟩
  rw [List.map_eq_append_iff] at h2
  obtain ⟨l1, l2, rfl, h3, h4⟩ := h2
  rw [List.append_assoc, runToks_text h3]
  cases l2 with
  | nil => cases h4
  | cons u us =>
    rw [List.map_cons, List.cons.injEq, List.map_eq_nil_iff] at h4
    obtain ⟨h5, rfl⟩ := h4
    rw [List.singleton_append, runToks_cons, exec_simple cx _ _ _ _ h5 rfl]
    simp only [execSimple, execPlugin, demoFunction, List.append_nil, Res.mapErr_ok, Res.bind_ok, bytesOf_append,
      List.append_assoc, demoLine]

/-- C85. With arguments it is an error of the template. -/
theorem C85_arguments (U : Unicode) (path : Str) (plugins : List PluginFns) (t : Text) (ht : t.WF)
    (hg : Glue t) (w w' : Str) (hw : Blank w) (hw' : Blank w') (c : Call) (hc : c.WF U)
    (hn : c.name = str!"demo" ∨ c.name = str!"demo::demo") (ha : c.args ≠ [])
    (hp : ∀ pl ∈ plugins, ∀ g ∈ pl.functions, c.name ≠ g.name ∧ c.name ≠ pl.name ++ str!"::" ++ g.name) :
    ∃ tb, parseHtml U path (plugins ++ [demoPlugin.fns]) (callFile t w c w') = .err tb ∧ tb.kind = .assertion := by
  have hb : c.name ∉ builtinNames := by
    rcases hn with hn | hn <;> rw [hn] <;> decide
  have hf : FirstPlugin (plugins ++ [demoPlugin.fns]) c.name demoParser :=
    ⟨plugins, demoPlugin.fns, [], [], [], rfl, rfl, hn, hp, by simp⟩
  refine (C05_first_plugin U path _ t ht hg w w' hw hw' c hc hb _ hf).2 .assertion ?_
  have : (c.raw.pos.isEmpty && c.raw.named.isEmpty) = false := by
    cases hh : c.args with
    | nil => exact absurd hh ha
    | cons a as => cases hk : a.key <;> simp [Call.raw, hh, hk]
  simp only [demoParser, this, Bool.false_eq_true, if_false]

/-- With the plugin's prefix, after some text; and with an argument. -/
example : (parseHtml Unicode.asciiOnly str!"p" [demoPlugin.fns] str!"a {{ demo::demo() }}b").bind
      (fun toks => (runToks demoCx toks ⟨[demoBase], []⟩).mapErr fun e => ⟨e.path, e.line, e.col, .invalidArgument⟩) =
      .ok ⟨[{ demoBase with out := bytesOf str!"a <p>This was written by the demo function!</p>b" }], []⟩ ∧
    (parseHtml Unicode.asciiOnly str!"p" [demoPlugin.fns] str!"a {{ demo(1) }}b").bind (fun _ => .ok ()) =
      .err ⟨str!"p", 1, 13, .assertion⟩ := ⟨rfl, rfl⟩

end Stuart
