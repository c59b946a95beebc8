import Verif.Proof.Data
import Verif.Proof.Unclosed
import Verif.Props.Run
/-
Properties C29, C30, C34–C37, and C15 and C33 for whole builds.
-/
namespace Stuart
open Spec

/-! ### C29 -/

/-- A page records sections: the sections completed when its tokens have been processed from the base scope (for a
markdown page, those of the markdown template, with `$self`) and nothing is left open. -/
inductive Records (b : Builder) (env : Env) : Parsed → Sections → Prop
  | html (toks f secs) : runToks b.cx toks ⟨[b.base], []⟩ = .ok ⟨[f], secs⟩ → Records b env (.html toks) secs
  | markdown (md toks v f secs) : env.md = some toks → (md.toValue : Res PErr Value) = .ok v →
      runToks b.cx toks ⟨[{ b.base with vars := b.base.vars ++ [(str!"self", v)] }], []⟩ = .ok ⟨[f], secs⟩ →
      Records b env (.markdown md) secs

/-- A name for the page: not that of a template, and a markdown page's ends in `.md`. -/
def PageName (p : Parsed) (name : Str) : Prop :=
  name ≠ str!"root.html" ∧ name ≠ str!"md.html" ∧ ∀ md, p = .markdown md → ∃ stem, name = stem ++ str!".md"

theorem alone {cx : Ctx} {first : Frame} {toks : List LTok} {secs : Sections} {f : Frame} {fs : List Frame} {secs' : Sections}
    (h : runToks cx toks ⟨[first], secs⟩ = .ok ⟨f :: fs, secs'⟩) (hf : f.name = str!"base") : fs = [] := by
  have hop := (runToks_inv (cx := cx) (I := OpenedAbove) (fun s s' hne hi hs => hi.step hne hs) toks.length toks _ _
    (Nat.le_refl _) (by simp) (by intro g hg; simp at hg) h).2
  cases fs with
  | nil => rfl
  | cons g gs => exact absurd hf (hop f (by simp [List.dropLast])).ne_base

theorem renderOn_ok_iff {cx : Ctx} {first base : Frame} {src : Str} {toks root : List LTok} {o : Bytes}
    (hb : first.name = str!"base") : renderOn cx first base src toks root = .ok o ↔
    ∃ f secs g gs secs', runToks cx toks ⟨[first], []⟩ = .ok ⟨[f], secs⟩ ∧
      runToks cx root ⟨[base], secs⟩ = .ok ⟨g :: gs, secs'⟩ ∧ o = g.out := by
  unfold renderOn
  constructor
  · intro h
    obtain ⟨⟨stk, secs⟩, h1, h2⟩ := Res.bind_eq_ok.1 h
    cases stk with
    | nil => cases h2
    | cons f fs =>
      simp only [beq_iff_eq] at h2
      split at h2
      · rename_i hf
        have := alone h1 hf
        subst this
        obtain ⟨⟨stk', secs'⟩, h3, h4⟩ := Res.bind_eq_ok.1 h2
        cases stk' with
        | nil => cases h4
        | cons g gs => cases h4; exact ⟨f, secs, g, gs, secs', h1, h3, rfl⟩
      · cases h2
  · rintro ⟨f, secs, g, gs, secs', h1, h2, rfl⟩
    obtain ⟨b', vs, o, hl, hb'⟩ := base_inv h1
    simp only [List.getLast?_singleton, Option.some.injEq] at hl
    have hf : f.name = str!"base" := by rw [hl, hb', ← hb]
    rw [h1]
    simp only [Res.bind_ok, hf, beq_self_eq_true, if_true, h2]

/-- C29. The contents of a page are those of the root template, processed from the base scope with the sections the
page has recorded. -/
theorem C29_page (b : Builder) (env : Env) (name src : Str) (p : Parsed) (hb : b.base.name = str!"base")
    (hn : PageName p name) (hp : (∃ toks, p = .html toks) ∨ ∃ md, p = .markdown md) (o : Bytes) :
    (∃ out, processParsed b env name src p = .ok out ∧ out.newContents = some o) ↔
    ∃ secs root g gs secs', Records b env p secs ∧ env.root = some root ∧
      runToks b.cx root ⟨[b.base], secs⟩ = .ok ⟨g :: gs, secs'⟩ ∧ o = g.out := by
  obtain ⟨hn1, hn2, hn3⟩ := hn
  have hnn : (name != str!"root.html" && name != str!"md.html") = true := by simp [hn1, hn2]
  simp only [processParsed, hnn, if_true]
  rcases hp with ⟨toks, rfl⟩ | ⟨md, rfl⟩
  · simp only [processHtml]
    constructor
    · rintro ⟨out, h, ho⟩
      rw [Res.mapErr_eq_ok] at h
      cases hr : env.root with
      | none => rw [hr] at h; cases h
      | some root =>
        rw [hr] at h
        obtain ⟨o', h1, h2⟩ := Res.bind_eq_ok.1 h
        cases h2
        simp only [Option.some.injEq] at ho
        subst ho
        obtain ⟨f, secs, g, gs, secs', h3, h4, h5⟩ := (renderOn_ok_iff hb).1 h1
        exact ⟨secs, root, g, gs, secs', .html _ f _ h3, rfl, h4, h5⟩
    · rintro ⟨secs, root, g, gs, secs', hrec, hr, h1, rfl⟩
      cases hrec with
      | html _ f _ h2 =>
        rw [hr]
        have := (renderOn_ok_iff (src := src) hb).2 ⟨f, secs, g, gs, secs', h2, h1, rfl⟩
        refine ⟨{ newContents := some g.out }, ?_, rfl⟩
        simp only [this]; rfl
  · obtain ⟨stem, rfl⟩ := hn3 md rfl
    have hstem : stripSuffix str!".md" (stem ++ str!".md") = some stem := by
      simp [stripSuffix, stripPrefix]
    simp only [processMd, hstem, Res.unwrap_some]
    have hb' : ∀ v, (b.base.addVar str!"self" v).name = str!"base" := fun v => hb
    constructor
    · rintro ⟨out, h, ho⟩
      rw [Res.mapErr_eq_ok] at h
      cases hr : env.root with
      | none => rw [hr] at h; cases h
      | some root =>
        rw [hr] at h
        simp only at h
        cases hm : env.md with
        | none => rw [hm] at h; cases h
        | some toks =>
          rw [hm] at h
          obtain ⟨v, h1, h2⟩ := Res.bind_eq_ok.1 h
          obtain ⟨o', k2, h3⟩ := Res.bind_eq_ok.1 h2
          cases h3
          simp only [Option.some.injEq] at ho
          subst ho
          obtain ⟨f, secs, g, gs, secs', h3, h4, h5⟩ := (renderOn_ok_iff (hb' v)).1 k2
          exact ⟨secs, root, g, gs, secs', .markdown _ toks v f _ hm h1 h3, rfl, h4, h5⟩
    · rintro ⟨secs, root, g, gs, secs', hrec, hr, h1, rfl⟩
      cases hrec with
      | markdown _ toks v f _ hm hv h2 =>
        rw [hr, hm, hv]
        have := (renderOn_ok_iff (src := src) (hb' v)).2 ⟨f, secs, g, gs, secs', h2, h1, rfl⟩
        refine ⟨{ newContents := some g.out, newName := some (stem ++ str!".html") }, ?_, rfl⟩
        simp only [Res.bind_ok, this]; rfl

/-- C29. Two pages that record the same sections have the same contents, whatever else they output or import. -/
theorem C29_only_sections (b : Builder) (env : Env) (name₁ name₂ src₁ src₂ : Str) (p₁ p₂ : Parsed) (secs : Sections)
    (out₁ : ProcessOutput) (hb : b.base.name = str!"base") (hn₁ : PageName p₁ name₁) (hn₂ : PageName p₂ name₂)
    (h₁ : Records b env p₁ secs) (h₂ : Records b env p₂ secs)
    (h : processParsed b env name₁ src₁ p₁ = .ok out₁) :
    ∃ out₂, processParsed b env name₂ src₂ p₂ = .ok out₂ ∧ out₂.newContents = out₁.newContents ∧
      out₁.newContents ≠ none := by
  have kind : ∀ {p secs}, Records b env p secs → (∃ toks, p = .html toks) ∨ ∃ md, p = .markdown md := by
    intro p secs hr
    cases hr with
    | html toks => exact .inl ⟨_, rfl⟩
    | markdown md => exact .inr ⟨_, rfl⟩
  have fn : ∀ {p secs secs'}, Records b env p secs → Records b env p secs' → secs = secs' := by
    intro p s s' h h'
    cases h with
    | html toks f _ h =>
      cases h' with
      | html _ f' _ h' => rw [h] at h'; cases h'; rfl
    | markdown md toks v f _ hm hv h =>
      cases h' with
      | markdown _ toks' v' f' _ hm' hv' h' =>
        rw [hm] at hm'; cases hm'
        rw [hv] at hv'; cases hv'
        rw [h] at h'; cases h'; rfl
  have ho : ∃ o, out₁.newContents = some o := by
    have hnn : (name₁ != str!"root.html" && name₁ != str!"md.html") = true := by simp [hn₁.1, hn₁.2.1]
    simp only [processParsed, hnn, if_true] at h
    rcases kind h₁ with ⟨toks, rfl⟩ | ⟨md, rfl⟩
    · simp only [processHtml, Res.mapErr_eq_ok] at h
      split at h
      · cases h
      · obtain ⟨o', _, h2⟩ := Res.bind_eq_ok.1 h
        cases h2; exact ⟨_, rfl⟩
    · simp only [processMd, Res.mapErr_eq_ok] at h
      split at h
      · cases h
      · split at h
        · cases h
        · obtain ⟨_, _, h2⟩ := Res.bind_eq_ok.1 h
          obtain ⟨_, _, h3⟩ := Res.bind_eq_ok.1 h2
          obtain ⟨_, _, h4⟩ := Res.bind_eq_ok.1 h3
          cases h4; exact ⟨_, rfl⟩
  obtain ⟨o, ho⟩ := ho
  obtain ⟨secs', root, g, gs, s2, h3, h4, h5, h6⟩ := (C29_page b env name₁ src₁ p₁ hb hn₁ (kind h₁) o).1 ⟨out₁, h, ho⟩
  have := fn h₁ h3
  subst this
  obtain ⟨out₂, h7, h8⟩ := (C29_page b env name₂ src₂ p₂ hb hn₂ (kind h₂) o).2 ⟨secs, root, g, gs, s2, h₂, h4, h5, h6⟩
  exact ⟨out₂, h7, by rw [h8, ho], by simp [ho]⟩

/-- A root template that puts the section `a` in brackets. -/
def demoRoot : List LTok := [here.tok (.raw str!"["), here.tok (.func (.insert str!"a")), here.tok (.raw str!"]")]

/-- A page recording the section `a`, and some text outside of it. -/
def demoPage (outside : Str) : List LTok :=
  [here.tok (.raw outside), here.tok (.func (.begin_ str!"a" true)), here.tok (.raw str!"x"),
   here.tok (.func (.end_ str!"a" true))]

/-- A page with text outside its section. -/
example : Records ⟨demoCx, demoBase, .default⟩ ⟨some demoRoot, none⟩ (.html (demoPage str!"lost")) [(str!"a", bytesOf str!"x")] ∧
    processParsed ⟨demoCx, demoBase, .default⟩ ⟨some demoRoot, none⟩ str!"p.html" [] (.html (demoPage str!"lost")) =
      .ok { newContents := some (bytesOf str!"[x]") } := ⟨.html _ _ _ rfl, rfl⟩

/-! ### C30

The full claim is `C30_page` also for root templates. That is false. -/

/-- An opening of a section, a conditional, or a loop over the items of a JSON file that has some. -/
inductive OpensBlock (cx : Ctx) : LTok → Prop
  | section_ (t l q) : t.inner = .func (.begin_ l q) → OpensBlock cx t
  | defined (t v) : t.inner = .func (.ifdefined v) → OpensBlock cx t
  | compare (t op a b) : t.inner = .func (.cmp op a b) → OpensBlock cx t
  | loop (t) (fn : ForFn) (nm c m s v vs) : t.inner = .func (.for_ fn) → fn.kind = .jsonFile → fn.sortVar = none →
      fn.skip = none → fn.limit ≠ some 0 →
      cx.input.getAtPath fn.source = some (.file nm c (.json (.arr (v :: vs))) m s) → OpensBlock cx t

theorem OpensBlock.opens {cx : Ctx} {t : LTok} (h : OpensBlock cx t) : Opens cx t := by
  cases h with
  | section_ l q h => simp [Opens, h]
  | defined v h => simp [Opens, h]
  | compare op a b h => simp [Opens, h]
  | loop fn nm c m s v vs h hk hso hsk hl hp =>
    simp only [Opens, h]
    intro stk items hi
    have : items = v :: vs := by
      simp [forItems, hk, hp, Node.isDir, Node.parsed, Value.asArray] at hi
      exact hi.symm
    subst this
    simp only [arrange, sortItems, hso, hsk]
    have hne : (if fn.desc = true then (v :: vs).reverse else v :: vs) ≠ [] := by split <;> simp
    generalize (if fn.desc = true then (v :: vs).reverse else v :: vs) = l at hne
    cases hlim : fn.limit with
    | none => exact hne
    | some k =>
      cases k with
      | zero => exact absurd hlim hl
      | succ k =>
        cases l with
        | nil => exact absurd rfl hne
        | cons => simp

/-- C30. A template in which a section, conditional or loop is opened and no `end` comes after it never yields a
page: wherever the opening is, and whatever else the template contains. -/
theorem C30_page_partial (b : Builder) (env : Env) (name src : Str) (p : Parsed) (toks before after : List LTok) (t : LTok)
    (hb : b.base.name = str!"base") (hn : PageName p name)
    (hp : p = .html toks ∨ (∃ md, p = .markdown md ∧ env.md = some toks))
    (ht : toks = before ++ t :: after) (ho : OpensBlock b.cx t)
    (hne : ∀ u ∈ after, ∀ l q, u.inner ≠ .func (.end_ l q)) (out : ProcessOutput) :
    processParsed b env name src p ≠ .ok out := by
  have no : ∀ (first : Frame) (root o), first.name = str!"base" → renderOn b.cx first b.base src toks root ≠ .ok o := by
    intro first root o hf h
    obtain ⟨f, secs, g, gs, secs', h1, _⟩ := (renderOn_ok_iff hf).1 h
    have := runToks_unclosed b.cx t after ho.opens hne toks.length toks _ _ (Nat.le_refl _) (by rw [ht]; exact ⟨before, rfl⟩)
      (by simp) h1
    simp at this
  have hnn : (name != str!"root.html" && name != str!"md.html") = true := by simp [hn.1, hn.2.1]
  intro h
  simp only [processParsed, hnn, if_true] at h
  rcases hp with rfl | ⟨md, rfl, hm⟩
  · simp only [processHtml, Res.mapErr_eq_ok] at h
    split at h
    · cases h
    · obtain ⟨o', h1, _⟩ := Res.bind_eq_ok.1 h
      exact no _ _ _ hb h1
  · simp only [processMd, Res.mapErr_eq_ok, hm] at h
    split at h
    · cases h
    · obtain ⟨v, _, h2⟩ := Res.bind_eq_ok.1 h
      obtain ⟨o', h1, _⟩ := Res.bind_eq_ok.1 h2
      exact no (b.base.addVar str!"self" v) _ _ hb h1

/-- C30. More generally, a template that leaves any block open is a stack error of the page. -/
theorem C30_left_open (b : Builder) (env : Env) (name src : Str) (toks root : List LTok) (f g : Frame) (fs : List Frame)
    (secs : Sections) (hn : PageName (.html toks) name) (hr : env.root = some root)
    (h : runToks b.cx toks ⟨[b.base], []⟩ = .ok ⟨f :: g :: fs, secs⟩) :
    processParsed b env name src (.html toks) = .err (.process ⟨src, 0, 0, .stackError⟩) := by
  have hnn : (name != str!"root.html" && name != str!"md.html") = true := by simp [hn.1, hn.2.1]
  have hf : f.name ≠ str!"base" := fun hf => by simpa using alone h hf
  have : (f.name == str!"base") = false := by simp [hf]
  simp only [processParsed, hnn, if_true, processHtml, hr, renderOn, h, Res.bind_ok, this]
  rfl

/-- C30, root templates: the page is what was output since the innermost block left open was opened, whatever blocks are
open around it and whatever was output before it. -/
theorem C30_root (b : Builder) (env : Env) (name src : Str) (toks root : List LTok) (f g : Frame) (fs : List Frame)
    (secs secs' : Sections) (hb : b.base.name = str!"base") (hn : PageName (.html toks) name) (hr : env.root = some root)
    (hp : runToks b.cx toks ⟨[b.base], []⟩ = .ok ⟨[f], secs⟩)
    (h : runToks b.cx root ⟨[b.base], secs⟩ = .ok ⟨g :: fs, secs'⟩) :
    processParsed b env name src (.html toks) = .ok { newContents := some g.out } := by
  have hnn : (name != str!"root.html" && name != str!"md.html") = true := by simp [hn.1, hn.2.1]
  have := (renderOn_ok_iff (src := src) hb).2 ⟨f, secs, g, fs, secs', hp, h, rfl⟩
  simp only [processParsed, hnn, if_true, processHtml, hr, this, Res.bind_ok]
  rfl

/-- C30 fails for root templates: an open section is no error, and all that was output before it is lost. -/
theorem C30_counterexample_root :
    processParsed ⟨demoCx, demoBase, .default⟩
      ⟨some [here.tok (.raw str!"all of the page"), here.tok (.func (.begin_ str!"b" true)), here.tok (.raw str!"y")], none⟩
      str!"p.html" [] (.html (demoPage [])) = .ok { newContents := some (bytesOf str!"y") } := rfl

/-- Two sections are left open. -/
example := C30_root ⟨demoCx, demoBase, .default⟩
  ⟨some [here.tok (.raw str!"lost"), here.tok (.func (.begin_ str!"b" true)), here.tok (.raw str!"lost too"),
    here.tok (.func (.begin_ str!"c" true)), here.tok (.raw str!"z")], none⟩ str!"p.html" [] (demoPage []) _ _ _ _ _ _
  rfl ⟨by simp, by simp, by simp⟩ rfl rfl rfl

/-- The hypotheses are met by a section opened in a loop that is closed, and one opened after it. -/
example : OpensBlock demoCx (here.tok (.func (.begin_ str!"a" true))) ∧
    OpensBlock demoCx (here.tok (.func (.for_ (demoFor str!"a.json")))) ∧
    PageName (.html []) str!"p.html" ∧
    processParsed ⟨demoCx, demoBase, .default⟩ ⟨some demoRoot, none⟩ str!"p.html" str!"s"
      (.html [here.tok (.func (.begin_ str!"a" true)), here.tok (.raw str!"x")]) =
      .err (.process ⟨str!"s", 0, 0, .stackError⟩) := by
  refine ⟨.section_ _ _ _ rfl, .loop _ _ _ _ _ _ _ _ rfl rfl rfl rfl (by simp [demoFor]) rfl, ⟨by simp, by simp, by simp⟩, rfl⟩

/-! ### C33 -/

/-- C33. A markdown body whose plugins output only text, and which closes its blocks, is always converted: the rendered
body is the encoding of a text. -/
theorem C33_markdown (ext : Ext) (cx : Ctx) (base f : Frame) (src : Str) (md : ParsedMd) (secs : Sections)
    (hbase : base.name = str!"base") (hout : base.out = [])
    (hp : ∀ t ∈ md.markdown, ∀ p, t.inner = .func (.plugin p) → ∀ scs vs b, p.exec scs = .ok (vs, b) → IsText b)
    (h : runToks cx md.markdown ⟨[base], []⟩ = .ok ⟨[f], secs⟩) :
    ∃ text, f.out = bytesOf text ∧
      preprocessMd ext cx base src md = .ok { md with html := some (ext.mdToHtml text) } := by
  have : IsText f.out := by
    have := C33_text cx md.markdown ⟨[base], []⟩ ⟨[f], secs⟩ hp
      ⟨by intro g hg; simp only [List.mem_singleton] at hg; subst hg; rw [hout]; exact IsText.nil, by simp⟩ h
    exact this.1 f (by simp)
  obtain ⟨text, ht⟩ := this
  obtain ⟨b', vs, o, hl, hb'⟩ := base_inv h
  simp only [List.getLast?_singleton, Option.some.injEq] at hl
  have hf : f.name = str!"base" := by rw [hl, hb', ← hbase]
  refine ⟨text, ht, ?_⟩
  simp only [preprocessMd, h, Res.bind_ok, hf, beq_self_eq_true, if_true, ht, fromUtf8_bytesOf]

example : runToks demoCx [here.tok (.raw str!"é"), here.tok (.var str!"s")] ⟨[demoBase], []⟩ =
    .ok ⟨[{ demoBase with out := bytesOf str!"éS" }], []⟩ ∧ demoBase.out = [] := ⟨rfl, rfl⟩

/-! ### Cases: each theorem applied to something that meets its hypotheses -/

/-- The project, base and settings of the cases. -/
def caseBuilder : Builder := ⟨demoCx, demoBase, .default⟩

theorem casePage_name (toks : List LTok) : PageName (.html toks) str!"p.html" := ⟨by decide, by decide, by intro md h; cases h⟩

example := C29_page caseBuilder ⟨some demoRoot, none⟩ str!"p.html" str!"s" (.html (demoPage str!"lost")) rfl (casePage_name _)
  (.inl ⟨_, rfl⟩)

example := C29_only_sections caseBuilder ⟨some demoRoot, none⟩ str!"p.html" str!"p.html" str!"s" str!"t"
  (.html (demoPage str!"lost")) (.html (demoPage str!"other")) [(str!"a", bytesOf str!"x")] _ rfl (casePage_name _) (casePage_name _)
  (.html _ _ _ rfl) (.html _ _ _ rfl) rfl

example := C30_page_partial caseBuilder ⟨some demoRoot, none⟩ str!"p.html" str!"s"
  (.html [here.tok (.raw str!"x"), here.tok (.func (.for_ (demoFor str!"a.json"))), here.tok (.raw str!"y")]) _
  [here.tok (.raw str!"x")] [here.tok (.raw str!"y")] _ rfl (casePage_name _) (.inl rfl) rfl
  (.loop _ (demoFor str!"a.json") _ _ _ _ _ _ rfl rfl rfl rfl (by simp [demoFor]) rfl)
  (by simp only [List.mem_singleton, forall_eq]; intro l q h; cases h)

example := C30_left_open caseBuilder ⟨some demoRoot, none⟩ str!"p.html" str!"s" [here.tok (.func (.begin_ str!"b" true))] demoRoot
  _ _ _ _ (casePage_name _) rfl rfl

example := C33_markdown ⟨fun s => '<' :: s ++ ['>']⟩ demoCx demoBase _ [] ⟨[], [here.tok (.raw str!"é"), here.tok (.var str!"s")], [], none⟩ _ rfl rfl
  (fun t ht p hp => absurd hp (noPlugins rfl t ht p)) rfl

end Stuart
