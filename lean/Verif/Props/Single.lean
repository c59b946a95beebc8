import Verif.Proof.Tamed
import Verif.Props.Skipped
import Verif.Props.Source
import Verif.Props.Shown
import Verif.Props.Sound
/-
Property C108: what renders, renders as it reads.
-/
namespace Stuart
open Spec

/-! ### Templates

The full claim is `C108_exact_partial` without `Single`. It is false: see the counterexamples. -/

/-- C108, where no loop stands within a loop: a properly nested template renders exactly when no loop in its run is empty, no branch that
is not taken holds a block, and it means something; and then it renders as it reads. So what an empty loop or such a branch does to
it is never but an error. `f` is not a block: the base frame of a page, in which everything is rendered. -/
theorem C108_exact_partial (cx : Ctx) (tpl : Tpl) (hw : tpl.WF) (hs : tpl.Single) (f : Frame) (fs : List Frame) (secs : Sections)
    (hf : ':' ∉ f.name) (st : St) :
    runToks cx tpl.toks ⟨f :: fs, secs⟩ = .ok st ↔ tpl.Tame cx (f.vars :: fs.map (·.vars)) secs ∧
      ∃ r, tpl.eval cx (f.vars :: fs.map (·.vars)) secs = .ok r ∧
        st = ⟨{ f with vars := f.vars ++ r.vars, out := f.out ++ r.out } :: fs, secs ++ r.secs⟩ := by
  constructor
  · intro h
    have hc : Consumes cx fs.length (runToks cx) := fun t ts st n hh => runToks_consumes cx t ts st n (by omega)
    have ht := tpl_tamed cx tpl hw hs f.name (fs.map (·.name)) (fun c _ => fits_colon hf c) _ fs.length _ hc ((f :: fs).map (·.name)) (by simp)
      (fun rest st a k _ => runToks_short cx _ rest st a (Nat.le_refl _) k) f fs secs [] [] [] st ⟨[], rfl, nofun⟩ rfl .nil .any nofun
      (by rw [List.append_nil]; exact h)
    refine ⟨ht, ?_⟩
    rw [C16_blocks_partial cx tpl hw f fs secs ht] at h
    obtain ⟨r, h1, h2⟩ := Res.bind_eq_ok.1 h
    exact ⟨r, h1, (by injection h2 with h2; exact h2.symm)⟩
  · rintro ⟨ht, r, h1, rfl⟩
    rw [C16_blocks_partial cx tpl hw f fs secs ht, h1, Res.bind_ok]

/-- C108, in short. -/
theorem C108_renders_partial (cx : Ctx) (tpl : Tpl) (hw : tpl.WF) (hs : tpl.Single) (f : Frame) (fs : List Frame) (secs : Sections)
    (hf : ':' ∉ f.name) (st : St) (h : runToks cx tpl.toks ⟨f :: fs, secs⟩ = .ok st) :
    ∃ r, tpl.eval cx (f.vars :: fs.map (·.vars)) secs = .ok r ∧
      st = ⟨{ f with vars := f.vars ++ r.vars, out := f.out ++ r.out } :: fs, secs ++ r.secs⟩ :=
  ((C108_exact_partial cx tpl hw hs f fs secs hf st).1 h).2

/-- The template of C16, a section holding a loop holding a conditional, is one. -/
example : demoTpl.Single ∧ ':' ∉ demoBase.name ∧ ∃ st, runToks demoCx demoTpl.toks ⟨[demoBase], []⟩ = .ok st :=
  ⟨⟨⟨⟨trivial, trivial, trivial⟩, trivial⟩, trivial⟩, by decide, _, rfl⟩

/-- A conditional that holds two loops, which hold conditionals. -/
def twoLoops : Tpl :=
  .ifElse here here here (.cmp .ifeq (.var str!"n") (.int 3))
    (.loop here here (demoFor str!"a.json") (.if_ here here (.cmp .ifeq (.var str!"i") (.str str!"x")) (demoText str!"A" .nil)
      (demoVar str!"i" .nil))
      (.loop here here (demoFor str!"a.json") (demoText str!"," (demoVar str!"i" .nil)) .nil))
    (demoText str!"no" .nil) (demoVar str!"s" .nil)

/-- It renders, and so it renders as it reads. -/
example : (∃ st, runToks demoCx twoLoops.toks ⟨[demoBase], []⟩ = .ok st) ∧
    twoLoops.eval demoCx [demoBase.vars] [] = .ok ⟨[], bytesOf str!"Axy,x,yS", []⟩ ∧ twoLoops.Single :=
  ⟨⟨_, rfl⟩, rfl, ⟨⟨⟨trivial, trivial⟩, trivial, trivial⟩, trivial, trivial⟩⟩

/-- C108 fails for loops within loops, with a loop over nothing: the template of `C17_counterexample_silent` renders `AAB`, and reads `BAB`. -/
theorem C108_counterexample_empty :
    let t := Tpl.loop here here ⟨str!"i", str!"l", .jsonObj, none, none, none, false⟩
        (.loop here here ⟨str!"j", str!"i", .jsonObj, none, none, none, false⟩ (demoText str!"A" .nil)
          (demoText str!"B" .nil)) .nil
    let vars := [(str!"l", Value.arr [.arr [], .arr [.str str!"q"]])]
    t.WF ∧ (∃ st, runToks demoCx t.toks ⟨[⟨str!"base", vars, []⟩], []⟩ = .ok st ∧ st.stack.map (·.out) = [bytesOf str!"AAB"]) ∧
    t.eval demoCx [vars] [] = .ok ⟨[], bytesOf str!"BAB", []⟩ :=
  ⟨by simp [demoText, Tpl.WF, Plain], ⟨_, rfl, rfl⟩, rfl⟩

/-- Its loops are over `["0", "1"]` and `["q"]`:
`for x { ifeq(x, "1") { for y { ifeq(y, "q") { a } b } c } d }`. -/
def crossed : Tpl :=
  .loop here here ⟨str!"x", str!"l", .jsonObj, none, none, none, false⟩
    (.if_ here here (.cmp .ifeq (.var str!"x") (.str str!"1"))
      (.loop here here ⟨str!"y", str!"m", .jsonObj, none, none, none, false⟩
        (.if_ here here (.cmp .ifeq (.var str!"y") (.str str!"q")) (demoText str!"a" .nil) (demoText str!"b" .nil))
        (demoText str!"c" .nil))
      (demoText str!"d" .nil)) .nil

def crossedVars : List (Str × Value) := [(str!"l", .arr [.str str!"0", .str str!"1"]), (str!"m", .arr [.str str!"q"])]

/-- C108 fails for loops within loops, though none is over nothing. For the `0`, the conditional that is not taken ends at the `end` of the
inner one; what comes after that, the `b`, is rendered; and the `end` of the inner loop ends the iteration. For the `1` all is well. -/
theorem C108_counterexample_skipped :
    crossed.WF ∧ (∃ st, runToks demoCx crossed.toks ⟨[⟨str!"base", crossedVars, []⟩], []⟩ = .ok st ∧
      st.stack.map (·.out) = [bytesOf str!"babcd"]) ∧
    crossed.eval demoCx [crossedVars] [] = .ok ⟨[], bytesOf str!"dabcd", []⟩ :=
  ⟨by simp [crossed, demoText, Tpl.WF, Plain], ⟨_, rfl, rfl⟩, rfl⟩

/-! ### Pages -/

section
variable (S : Sys) (plugins : List Plugin) (d : Entry) (p : Path) (ds : List Str) (base : Frame) (input tree : Node)

/-- C108. What is made of a page, if anything is, is what its text and that of the root template mean. -/
theorem C108_html_partial (hb : ':' ∉ base.name) (hv : base.out = []) (stem : Str) (page root : Tpl) (hn : stem ≠ []) (hr : stem ≠ str!"root")
    (hm : stem ≠ str!"md") (hp : FileSpells S plugins d p ds (stem ++ str!".html") page)
    (ht : TemplateSpells S plugins d p ds str!"root.html" root) (hsp : page.Single) (hsr : root.Single) (nm' : Str) (b' : Bytes)
    (h : MadeInto S plugins d p base input tree ds (stem ++ str!".html") nm' b') :
    nm' = stem ++ str!".html" ∧ PageMeans S plugins d p base.vars input tree ds stem b' := by
  have hpw : page.WF := by obtain ⟨_, _, k⟩ := hp; exact k.wf
  have hrw : root.WF := by obtain ⟨_, _, _, _, k⟩ := ht; exact k.wf
  have hx : HasExt (stem ++ str!".html") str!"html" := ⟨stem, hn, rfl, by decide⟩
  have nr : stem ++ str!".html" ≠ str!"root.html" := fun k =>
    hr (List.append_cancel_right (as := stem) (bs := str!".html") (cs := str!"root") k)
  have nm : stem ++ str!".html" ≠ str!"md.html" := fun k =>
    hm (List.append_cancel_right (as := stem) (bs := str!".html") (cs := str!"md") k)
  obtain ⟨b, c, c', h1, h2, h3, h4⟩ := h
  cases (fileSpells_read hx hp h1).1 h2
  cases h3 with
  | same =>
    cases h4 with
    | template h => exact absurd h (by simp [nr, nm])
    | page k1 k2 k3 k4 k5 =>
      cases (templateSpells_is hasExt_root ht).1 k3
      obtain ⟨t1, r, e1, e2⟩ := (C108_exact_partial _ page hpw hsp base [] [] hb _).1 k4
      cases e2
      obtain ⟨t2, r', e3, e4⟩ := (C108_exact_partial _ root hrw hsr base [] _ hb _).1 k5
      cases e4
      refine ⟨rfl, ?_⟩
      simp only [hv, List.nil_append]
      exact .html hp ht t1 e1 t2 e3

/-- C108. What is made of a markdown page, if anything is, is what the text of its body and those of the two templates mean. -/
theorem C108_markdown_partial (hb : ':' ∉ base.name) (hv : base.out = []) (stem : Str) (pairs : List (Str × Str)) (text : Str)
    (body page root : Tpl) (hn : stem ≠ []) (hp : MdFileSpells S plugins d p ds (stem ++ str!".md") pairs text body)
    (hm : TemplateSpells S plugins d p ds str!"md.html" page) (ht : TemplateSpells S plugins d p ds str!"root.html" root)
    (hsb : body.Single) (hsp : page.Single) (hsr : root.Single) (nm' : Str) (b' : Bytes)
    (h : MadeInto S plugins d p base input tree ds (stem ++ str!".md") nm' b') :
    nm' = stem ++ str!".html" ∧ PageMeans S plugins d p base.vars input tree ds stem b' := by
  have hx : HasExt (stem ++ str!".md") str!"md" := ⟨stem, hn, rfl, by decide⟩
  have hbw : body.WF := by obtain ⟨_, _, _, _, k⟩ := hp; exact k.wf
  have hpw : page.WF := by obtain ⟨_, _, _, _, k⟩ := hm; exact k.wf
  have hrw : root.WF := by obtain ⟨_, _, _, _, k⟩ := ht; exact k.wf
  have hself : ∀ h, (ParsedMd.toValue ⟨pairs, body.toks, text, some h⟩ : Res PErr Value) = .ok (selfValue pairs text h) := by
    intro h
    simp only [ParsedMd.toValue, ParsedMd.fmValue, Value.setKey, setEntry_put, selfValue]
  obtain ⟨b, c, c', h1, h2, h3, h4⟩ := h
  cases (mdFileSpells_read S plugins d p ds hx hp h1).1 h2
  cases h3 with
  | same h => exact absurd rfl (h _)
  | markdown k1 k2 =>
    obtain ⟨t0, r0, e0, e0'⟩ := (C108_exact_partial _ body hbw hsb base [] [] hb _).1 k1
    cases e0'
    have k2 := fromUtf8_sound k2
    simp only [hv, List.nil_append] at k2
    generalize hnm : stem ++ str!".md" = nm at h4
    cases h4 with
    | template h =>
      exfalso
      have := congrArg (fun l => l.drop (l.length - 3)) hnm
      rcases h with rfl | rfl <;> simp at this
    | markdown j1 j2 j3 j4 j5 j6 =>
      rw [← hnm] at j1
      cases List.append_cancel_right j1
      cases (templateSpells_is hasExt_root ht).1 j2
      cases (templateSpells_is hasExt_md hm).1 j3
      rw [hself] at j4
      cases j4
      obtain ⟨t1, r, e1, e2⟩ := (C108_exact_partial _ page hpw hsp _ [] [] (by exact hb) _).1 j5
      cases e2
      obtain ⟨t2, r', e3, e4⟩ := (C108_exact_partial _ root hrw hsr base [] _ hb _).1 j6
      cases e4
      refine ⟨rfl, ?_⟩
      simp only [hv, List.nil_append]
      exact .markdown hp hm ht t0 e0 k2 t1 e1 t2 e3

/-- C108. For either kind of page. -/
theorem C108_page_partial (hb : ':' ∉ base.name) (hv : base.out = []) (stem : Str) (hn : stem ≠ []) (hr : stem ≠ str!"root")
    (hm : stem ≠ str!"md") (hpg : SinglePage S plugins d p ds stem) :
    ∃ nm ∈ [stem ++ str!".html", stem ++ str!".md"], (∃ b, look d (p ++ ds ++ [nm]) = some (.file b)) ∧
      ∀ nm' b', MadeInto S plugins d p base input tree ds nm nm' b' →
        nm' = stem ++ str!".html" ∧ PageMeans S plugins d p base.vars input tree ds stem b' := by
  cases hpg with
  | html h1 h2 h3 h4 =>
    refine ⟨_, .head _, ?_, fun nm' b' k => C108_html_partial S plugins d p ds base input tree hb hv stem _ _ hn hr hm h1 h2 h3 h4 nm' b' k⟩
    obtain ⟨_, k, _⟩ := h1
    exact ⟨_, k⟩
  | markdown h1 h2 h3 h4 h5 h6 =>
    refine ⟨_, .tail _ (.head _), ?_,
      fun nm' b' k => C108_markdown_partial S plugins d p ds base input tree hb hv stem _ _ _ _ _ hn h1 h2 h3 h4 h5 h6 nm' b' k⟩
    obtain ⟨_, k, _⟩ := h1
    exact ⟨_, k⟩

end

/-! ### Sites -/

section
variable (M : Machine) (c : Context) (s : Host)

/-- A build that succeeds has made something of every file. -/
theorem build_made (h : (c.build M s).2.2 = .ok ()) (hd : ProperDisk (runScripts M c.env c.pre s).1.world.disk) {name : Str} {cs ts : List Node}
    (hc : Content M.sys c.stuart.plugins (runScripts M c.env c.pre s).1.world.disk c.stuart.dir (baseFrame M.sys.vars c.mode) name cs ts)
    {ds : List Str} {nm : Str} {b : Bytes} (hl : look (runScripts M c.env c.pre s).1.world.disk (c.stuart.dir ++ ds ++ [nm]) = some (.file b)) :
    ∃ nm' b', MadeInto M.sys c.stuart.plugins (runScripts M c.env c.pre s).1.world.disk c.stuart.dir (baseFrame M.sys.vars c.mode)
      (.dir name cs (pathStr c.stuart.dir)) (.dir name ts (pathStr c.stuart.dir)) ds nm nm' b' := by
  obtain ⟨s1, out, s2, h1, h2, h3, h4⟩ := Context.build_ok h
  have hs1 : (runScripts M c.env c.pre s).1 = s1 := by rw [h1]
  subst hs1
  obtain ⟨name', cs', ts', k1, k2⟩ := (C93_content M.sys _ c.mode c.stuart hd).1 ⟨out, h2⟩
  obtain ⟨rfl, rfl, rfl⟩ := C93_one_content _ _ _ _ _ rfl _ _ _ _ _ _ hc k1
  exact k2 _ _ _ hl

/-- C108. A build that succeeds, with scripts that leave the output directory alone: a page is published, and it is what the texts mean that
the pre-build scripts have left. -/
theorem C108_build_partial (hl : ∀ r, Leaves M (c.outPath ++ r)) (h : (c.build M s).2.2 = .ok ())
    (hout : c.outPath ≠ []) (hp : FunctionsOnly c.stuart.plugins) :
    let d := (runScripts M c.env c.pre s).1.world.disk
    ProperDisk d → Tame c.stuart.config c.stuart.plugins d c.dir c.stuart.dir →
    ∃ name cs ts, Content M.sys c.stuart.plugins d c.stuart.dir (baseFrame M.sys.vars c.mode) name cs ts ∧
      ∀ ds stem, stem ≠ [] → stem ≠ str!"root" → stem ≠ str!"md" → SinglePage M.sys c.stuart.plugins d c.stuart.dir ds stem →
      (look d (c.stuart.dir ++ ds ++ [stem ++ str!".md"]) = none ∨ look d (c.stuart.dir ++ ds ++ [stem ++ str!".html"]) = none) →
      PlaceFree c.stuart.config d c.dir c.stuart.dir ds stem →
      ∃ b, PageMeans M.sys c.stuart.plugins d c.stuart.dir (baseFrame M.sys.vars c.mode).vars
          (.dir name cs (pathStr c.stuart.dir)) (.dir name ts (pathStr c.stuart.dir)) ds stem b ∧
        look (c.build M s).2.1.world.disk (c.outPath ++ placeOf c.stuart.config ds stem) = some (.file b) := by
  intro d hd ht
  obtain ⟨name, cs, ts, k1, k2⟩ := C95_build_partial M c s hl h hout hp hd ht
  refine ⟨name, cs, ts, k1, fun ds stem e1 e2 e3 e4 e5 e6 => ?_⟩
  obtain ⟨nm, -, ⟨b, hb⟩, hmade⟩ := C108_page_partial M.sys c.stuart.plugins d c.stuart.dir ds (baseFrame M.sys.vars c.mode) _ _
    (by show ':' ∉ str!"base"; decide) rfl stem e1 e2 e3 e4
  obtain ⟨nm', b', hm⟩ := build_made M c s h hd k1 hb
  exact ⟨b', (hmade _ _ hm).2, k2 ds stem b' e1 e2 e3 (hmade _ _ hm).2 e5 e6⟩

end

section
variable (M : Machine) (L : Loader) (cwd : Path) (manifest output : Str) (s s1 : Host) (p : Path) (raw : RawConfig) (plugins : List Plugin)

/-- C108. After `stuart build` of a simple project has succeeded, there is a page at its place, and it is what its texts mean. Nothing has to be
known of loops and conditionals, but that no loop stands within a loop. -/
theorem C108_published_partial (h : Simple L cwd manifest s s1 p raw plugins) (hd : ProperDisk s1.world.disk)
    (hout : joinPath p.dropLast output ≠ [])
    (ht : Tame raw.toConfig plugins s1.world.disk p.dropLast (p.dropLast ++ [str!"content"]))
    (hok : (cmdBuild M L cwd manifest output s).2 = .ok ()) :
    let d := s1.world.disk
    let content := p.dropLast ++ [str!"content"]
    let base := baseFrame M.sys.vars str!"production"
    ∃ cs ts, Content M.sys plugins d content base str!"content" cs ts ∧ ∀ ds stem,
      stem ≠ [] → stem ≠ str!"root" → stem ≠ str!"md" → SinglePage M.sys plugins d content ds stem →
      (look d (content ++ ds ++ [stem ++ str!".md"]) = none ∨ look d (content ++ ds ++ [stem ++ str!".html"]) = none) →
      PlaceFree raw.toConfig d p.dropLast content ds stem →
      ∃ b, PageMeans M.sys plugins d content base.vars (.dir str!"content" cs (pathStr content)) (.dir str!"content" ts (pathStr content)) ds stem b ∧
        look (cmdBuild M L cwd manifest output s).1.world.disk (joinPath p.dropLast output ++ placeOf raw.toConfig ds stem) =
          some (.file b) := by
  intro d content base
  obtain ⟨cs, ts, k1, k2⟩ := C95_published_partial M L cwd manifest output s s1 p raw plugins h hd hout ht hok
  refine ⟨cs, ts, k1, fun ds stem e1 e2 e3 e4 e5 e6 => ?_⟩
  obtain ⟨c, h1, h2, h3, h4, h5, h6, h7, h8, h9⟩ := simple_start L cwd manifest output s h str!"production"
  have hok' : (c.build M s1).2.2 = .ok () := by simpa only [cmdBuild, h1] using hok
  have hpre : runScripts M c.env c.pre s1 = (s1, .ok ()) := by rw [h8]; rfl
  obtain ⟨nm, -, ⟨b, hb⟩, hmade⟩ := C108_page_partial M.sys plugins d content ds base (.dir str!"content" cs (pathStr content))
    (.dir str!"content" ts (pathStr content)) (by show ':' ∉ str!"base"; decide) rfl stem e1 e2 e3 e4
  have hbm := @build_made M c s1 hok'
  rw [hpre] at hbm
  simp only [h3, h5, h6] at hbm
  obtain ⟨nm', b', hm⟩ := hbm hd k1 hb
  exact ⟨b', (hmade _ _ hm).2, k2 ds stem b' e1 e2 e3 (hmade _ _ hm).2 e5 e6⟩

end

section
variable {α : Type} (M : Machine) (send : α → α × Bool) (L : Loader) (cwd : Path) (manifest output : Str) (s0 s1 : Host) (p : Path)
  (raw : RawConfig) (plugins : List Plugin)

/-- C108. `stuart dev` in a simple project, after any time: when the server has treated a change with a build that succeeded, a browser that
asks for a page gets what its texts mean, with the script before its first `</body>`. -/
theorem C108_dev_partial (h : Simple L cwd manifest s0 s1 p raw plugins) (s2 : Host) (c0 : Context) (served : Path)
    (hstart : startDev M L cwd manifest output s0 = (s2, .ok (c0, served))) (hroot : look s0.world.disk [] = some .dir)
    (hout : joinPath p.dropLast output ≠ [])
    (c : Context) (s : Host) (streams : List α) (hs : Serving M send c0 c s streams) (rel : Path)
    (hrel : reaction rel = .rebuild) (hok : (c.build M s).2.2 = .ok ()) :
    let d := s.world.disk
    let content := p.dropLast ++ [str!"content"]
    let base := baseFrame M.sys.vars str!"development"
    let r := onEvent M send (some (p.dropLast ++ rel)) c s streams
    ProperDisk d → Tame raw.toConfig plugins d p.dropLast content →
    ∃ cs ts, Content M.sys plugins d content base str!"content" cs ts ∧
      ∀ ds stem, stem ≠ [] → stem ≠ str!"root" → stem ≠ str!"md" → SinglePage M.sys plugins d content ds stem →
      (look d (content ++ ds ++ [stem ++ str!".md"]) = none ∨ look d (content ++ ds ++ [stem ++ str!".html"]) = none) →
      PlaceFree raw.toConfig d p.dropLast content ds stem →
      ∃ b, PageMeans M.sys plugins d content base.vars (.dir str!"content" cs (pathStr content))
          (.dir str!"content" ts (pathStr content)) ds stem b ∧
        ∀ js locate mime uri, locate (dropSlash uri) = some (.file (served ++ placeOf raw.toConfig ds stem)) →
          (serveDir js locate mime r.2.1.world.disk uri).status = 200 ∧
          (serveDir js locate mime r.2.1.world.disk uri).contentType = some (mime str!"html") ∧
          Reloading js b (serveDir js locate mime r.2.1.world.disk uri).body := by
  intro d content base r hd ht
  obtain ⟨cs, ts, k1, k2⟩ := C96_dev_partial M send L cwd manifest output s0 s1 p raw plugins h s2 c0 served hstart hroot hout c s streams hs
    rel hrel hok hd ht
  refine ⟨cs, ts, k1, fun ds stem e1 e2 e3 e4 e5 e6 => ?_⟩
  obtain ⟨ci, h1, h2, h3, h4, h5, h6, h7, h8, h9⟩ := simple_start L cwd manifest output s0 h str!"development"
  obtain ⟨_, ci', g1, g2, rfl, -, -⟩ := (C96_start M L cwd manifest output s0 hroot _ _ _).1 hstart
  rw [h1] at g1
  cases g1
  obtain ⟨⟨i1, i2, i3, i4, i5, i6⟩, i7, i8, -⟩ := (C96_settings M send _ c s streams hs).trans (Context.build_settings M ci s1)
  have hpre : runScripts M c.env c.pre s = (s, .ok ()) := by rw [i7, h8]; rfl
  obtain ⟨nm, -, ⟨b, hb⟩, hmade⟩ := C108_page_partial M.sys plugins d content ds base (.dir str!"content" cs (pathStr content))
    (.dir str!"content" ts (pathStr content)) (by show ':' ∉ str!"base"; decide) rfl stem e1 e2 e3 e4
  have hbm := @build_made M c s hok
  rw [hpre] at hbm
  have j3 : c.stuart.plugins = plugins := by rw [i3, h3]
  have j5 : c.stuart.dir = content := by rw [i1, h5]
  have j6 : c.mode = str!"development" := by rw [i4, h6]
  simp only [j3, j5, j6] at hbm
  obtain ⟨nm', b', hm⟩ := hbm hd k1 hb
  exact ⟨b', (hmade _ _ hm).2, k2 ds stem b' e1 e2 e3 (hmade _ _ hm).2 e5 e6⟩

end

/-! ### Cases -/

/-- The project of C95: `stuart build` succeeds, so its pages are what they mean. -/
theorem src_singlePages : SinglePage demoSys [] srcDisk [str!"p", str!"content"] [] str!"a" ∧ SinglePage demoSys [] srcDisk [str!"p", str!"content"] [str!"blog"] str!"x" := by
  constructor
  · exact .html (page := srcPage) (root := srcRoot) ⟨_, rfl, (C68_exact _ _ _ _ _).1 rfl, by simp [srcPage, Tpl.WF, Plain]⟩
      ⟨[], src_inForce (by nofun) (fun q h hq => absurd (List.prefix_nil.1 h) hq), srcRoot_spelt⟩ ⟨trivial, trivial⟩ trivial
  · refine .markdown (pairs := [(str!"title", str!"T")]) (text := str!"in {{ $env.STUART_ENV }}") (body := srcBody) (page := srcMd) (root := srcRoot)
      ⟨str!"in {{ $env.STUART_ENV }}\n", rfl, ?_, rfl, (C68_exact _ _ _ _ _).1 rfl, by simp [srcBody, Tpl.WF, Plain]⟩
      ⟨[], src_inForce (by nofun) (fun q h hq => by cases prefix_one h hq; rfl), srcMd_spelt⟩
      ⟨[], src_inForce (by nofun) (fun q h hq => by cases prefix_one h hq; rfl), srcRoot_spelt⟩ trivial ⟨trivial, trivial⟩ trivial
    simp only [List.mem_cons, List.not_mem_nil, or_false, forall_eq]
    constructor <;> first | decide | (unfold Dashes; decide)

end Stuart
