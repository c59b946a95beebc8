import Verif.Proof.Position
import Verif.Props.Page
/-
Properties C34–C37, and C15 for whole builds.
-/
namespace Stuart
open Spec

variable (ext : Ext) (df : Str → Str → Option Str) (cfg : Config) (vars : List (Str × Str)) (mode : Str)

/-! ### C35 -/

/-- The name of a template file. -/
def TemplateName (name : Str) : Prop := name = str!"root.html" ∨ name = str!"md.html"

/-- What may become of a file: nothing, if it is a template or neither a page nor handled by a plugin; a page keeps
its name, except that `.md` becomes `.html`. -/
structure Becomes (name : Str) (contents : Bytes) (p : Parsed) (name' : Str) (contents' : Bytes) : Prop where
  template : TemplateName name → name' = name ∧ contents' = contents
  json : ∀ v, p = .json v → name' = name ∧ contents' = contents
  other : p = .none ∨ p = .ignored → name' = name ∧ contents' = contents
  html : ∀ toks, p = .html toks → name' = name
  markdown : ∀ md, p = .markdown md → ¬ TemplateName name → ∃ stem, name = stem ++ str!".md" ∧ name' = stem ++ str!".html"

theorem stripSuffix_some {suf s t : Str} (h : stripSuffix suf s = some t) : s = t ++ suf := by
  have aux : ∀ (p s t : Str), stripPrefix p s = some t → s = p ++ t := by
    intro p
    induction p with
    | nil => intro s t h; cases h; rfl
    | cons c p ih =>
      intro s t h
      cases s with
      | nil => cases h
      | cons d s =>
        rw [stripPrefix] at h
        split at h
        · rename_i hc; rw [ih s t h, hc]; rfl
        · cases h
  unfold stripSuffix at h
  rw [Option.map_eq_some_iff] at h
  obtain ⟨a, h1, rfl⟩ := h
  have := congrArg List.reverse (aux _ _ _ h1)
  simpa using this

theorem processFile_becomes {b : Builder} {env : Env} {name : Str} {contents : Bytes} {p : Parsed} {src : Str} {o : Node}
    (h : processFile b env name contents p src = .ok o) :
    ∃ name' contents' m', o = .file name' contents' .none m' src ∧ Becomes name contents p name' contents' := by
  unfold processFile at h
  obtain ⟨out, h1, h2⟩ := Res.bind_eq_ok.1 h
  cases h2
  refine ⟨_, _, _, rfl, ?_⟩
  unfold processParsed at h1
  by_cases hn : TemplateName name
  · have : (name != str!"root.html" && name != str!"md.html") = false := by
      rcases hn with rfl | rfl <;> rfl
    rw [this] at h1
    cases h1
    exact ⟨fun _ => ⟨rfl, rfl⟩, fun _ _ => ⟨rfl, rfl⟩, fun _ => ⟨rfl, rfl⟩, fun _ _ => rfl, fun _ _ h => absurd hn h⟩
  · have hnn : (name != str!"root.html" && name != str!"md.html") = true := by
      simp only [TemplateName, not_or] at hn
      simp [hn.1, hn.2]
    rw [hnn, if_pos rfl] at h1
    cases p with
    | html toks =>
      simp only [processHtml, Res.mapErr_eq_ok] at h1
      split at h1
      · cases h1
      · obtain ⟨o', _, h2⟩ := Res.bind_eq_ok.1 h1
        cases h2
        exact ⟨fun h => absurd h hn, fun _ h => (by cases h), fun h => (by rcases h with h | h <;> cases h),
          fun _ _ => rfl, fun _ h => (by cases h)⟩
    | markdown md =>
      simp only [processMd, Res.mapErr_eq_ok] at h1
      split at h1
      · cases h1
      · split at h1
        · cases h1
        · obtain ⟨_, _, h2⟩ := Res.bind_eq_ok.1 h1
          obtain ⟨_, _, h3⟩ := Res.bind_eq_ok.1 h2
          obtain ⟨stem, hs, h4⟩ := Res.bind_eq_ok.1 h3
          cases h4
          exact ⟨fun h => absurd h hn, fun _ h => (by cases h), fun h => (by rcases h with h | h <;> cases h),
            fun _ h => (by cases h), fun _ _ _ => ⟨stem, stripSuffix_some (Res.unwrap_eq_ok.1 hs), rfl⟩⟩
    | custom c =>
      exact ⟨fun h => absurd h hn, fun _ h => (by cases h), fun h => (by rcases h with h | h <;> cases h),
        fun _ h => (by cases h), fun _ h => (by cases h)⟩
    | json v =>
      cases h1
      exact ⟨fun h => absurd h hn, fun _ _ => ⟨rfl, rfl⟩, fun h => ⟨rfl, rfl⟩, fun _ _ => rfl, fun _ h => (by cases h)⟩
    | none =>
      cases h1
      exact ⟨fun h => absurd h hn, fun _ _ => ⟨rfl, rfl⟩, fun h => ⟨rfl, rfl⟩, fun _ _ => rfl, fun _ h => (by cases h)⟩
    | ignored =>
      cases h1
      exact ⟨fun h => absurd h hn, fun _ _ => ⟨rfl, rfl⟩, fun h => ⟨rfl, rfl⟩, fun _ _ => rfl, fun _ h => (by cases h)⟩

theorem Becomes.pre {cx : Ctx} {base : Frame} {name : Str} {contents : Bytes} {p p' : Parsed} {src name' : Str}
    {contents' : Bytes} (hp : preFile ext cx base p src = .ok p') (h : Becomes name contents p' name' contents') :
    Becomes name contents p name' contents' := by
  cases p with
  | markdown md =>
    obtain ⟨md', _, h2⟩ := Res.bind_eq_ok.1 hp
    cases h2
    exact ⟨h.template, fun _ h => (by cases h), fun h => (by rcases h with h | h <;> cases h), fun _ h => (by cases h),
      fun _ _ hn => h.markdown _ rfl hn⟩
  | _ => cases hp; exact h

/-- C35. A build has, position by position, what the content tree has: a directory of the same name with as many
children, or a file that has become what the content file may become. -/
theorem C35_same_tree (input out : Node) (h : buildTree ext df cfg vars mode input = .ok out) (pos : List Nat) :
    match nodeAt input pos with
    | none => nodeAt out pos = none
    | some (.dir d cs src) => ∃ cs', cs'.length = cs.length ∧ nodeAt out pos = some (.dir d cs' src)
    | some (.file name contents p _ src) =>
      ∃ name' contents' m', nodeAt out pos = some (.file name' contents' .none m' src) ∧
        Becomes name contents p name' contents' := by
  obtain ⟨mid, h1, h2⟩ := buildTree_ok h
  have h3 := preNode_at pos h1
  have h4 := buildNode_at pos h2
  cases hn : nodeAt input pos with
  | none => simp only [hn] at h3 ⊢; simp only [h3] at h4; exact h4
  | some n =>
    cases n with
    | dir d cs src =>
      simp only [hn] at h3 ⊢
      obtain ⟨cs', hl, h3⟩ := h3
      simp only [h3] at h4
      obtain ⟨cs'', hl', h4⟩ := h4
      exact ⟨cs'', by omega, h4⟩
    | file name contents p m src =>
      simp only [hn] at h3 ⊢
      obtain ⟨p', hp', h3⟩ := h3
      simp only [h3] at h4
      obtain ⟨o, ho, h4⟩ := h4
      obtain ⟨n', c', m', rfl, hb⟩ := processFile_becomes ho
      exact ⟨n', c', m', h4, hb.pre _ hp'⟩

/-- A site: a root template, a markdown template, a data file, a page and a directory with a markdown page. -/
def demoSite : Node :=
  .dir str!"content"
    [.file str!"root.html" (bytesOf str!"R") (.html demoRoot) none str!"content/root.html",
     .file str!"md.html" (bytesOf str!"M")
       (.html [here.tok (.func (.begin_ str!"a" true)), here.tok (.var str!"self.content"),
         here.tok (.func (.end_ str!"a" true))]) none str!"content/md.html",
     .file str!"d.json" (bytesOf str!"[]") (.json (.arr [])) none str!"content/d.json",
     .file str!"index.html" (bytesOf str!"P") (.html (demoPage str!"lost")) none str!"content/index.html",
     .dir str!"posts" [.file str!"p.md" (bytesOf str!"y") (.markdown ⟨[], [here.tok (.raw str!"y")], str!"y", none⟩) none
       str!"content/posts/p.md"] str!"content/posts"] str!"content"

/-- The site builds. -/
def demoOut : Node :=
  .dir str!"content"
    [.file str!"root.html" (bytesOf str!"R") .none none str!"content/root.html",
     .file str!"md.html" (bytesOf str!"M") .none none str!"content/md.html",
     .file str!"d.json" (bytesOf str!"[]") .none none str!"content/d.json",
     .file str!"index.html" (bytesOf str!"[x]") .none none str!"content/index.html",
     .dir str!"posts" [.file str!"p.html" (bytesOf str!"[<y>]") .none none str!"content/posts/p.md"]
       str!"content/posts"] str!"content"

/-- A markdown converter for the demonstration. -/
def demoExt : Ext := ⟨fun s => '<' :: s ++ ['>']⟩

theorem demo_builds : buildTree demoExt (fun _ _ => none) .default [] str!"production" demoSite = .ok demoOut := rfl

example : nodeAt demoSite [4, 0] ≠ none ∧ nodeAt demoOut [4, 0] =
    some (.file str!"p.html" (bytesOf str!"[<y>]") .none none str!"content/posts/p.md") := ⟨nofun, rfl⟩

/-! ### C36 -/

/-- C36. The page at a position is made with the root template in force there (and, a markdown page, the markdown
template in force there), which is that of the innermost directory that has one. `mid` is the content tree with the
markdown converted. -/
theorem C36_nearest (input out : Node) (h : buildTree ext df cfg vars mode input = .ok out) :
    ∃ mid, preNode ext ⟨input, df⟩ (baseFrame vars mode) input = .ok mid ∧
    ∀ (pos : List Nat) (name : Str) (contents : Bytes) (p : Parsed) (m : Option Value) (src : Str),
      nodeAt mid pos = some (.file name contents p m src) → ¬ TemplateName name →
      (∃ toks, p = .html toks) ∨ (∃ md, p = .markdown md) →
      ∃ root secs g gs secs' name' m', template str!"root.html" input pos = some root ∧
        Records ⟨⟨mid, df⟩, baseFrame vars mode, cfg⟩ ⟨some root, template str!"md.html" input pos⟩ p secs ∧
        runToks ⟨mid, df⟩ root ⟨[baseFrame vars mode], secs⟩ = .ok ⟨g :: gs, secs'⟩ ∧
        nodeAt out pos = some (.file name' g.out .none m' src) := by
  obtain ⟨mid, h1, h2⟩ := buildTree_ok h
  refine ⟨mid, h1, ?_⟩
  intro pos name contents p m src hn ht hp
  have h4 := buildNode_at pos h2
  simp only [hn] at h4
  obtain ⟨o, ho, h4⟩ := h4
  rw [envAt_template, template_pre h1, template_pre h1] at ho
  obtain ⟨name', c', m', rfl, hb⟩ := processFile_becomes ho
  have hpn : PageName p name := by
    simp only [TemplateName, not_or] at ht
    refine ⟨ht.1, ht.2, ?_⟩
    intro md hmd
    obtain ⟨stem, hs, _⟩ := hb.markdown md hmd (by simp only [TemplateName, not_or]; exact ht)
    exact ⟨stem, hs⟩
  unfold processFile at ho
  obtain ⟨out', ho1, ho2⟩ := Res.bind_eq_ok.1 ho
  have hc : ∃ c, out'.newContents = some c := by
    have hnn : (name != str!"root.html" && name != str!"md.html") = true := by simp [hpn.1, hpn.2.1]
    simp only [processParsed, hnn, if_true] at ho1
    rcases hp with ⟨toks, rfl⟩ | ⟨md, rfl⟩
    · simp only [processHtml, Res.mapErr_eq_ok] at ho1
      split at ho1
      · cases ho1
      · obtain ⟨o', _, h2⟩ := Res.bind_eq_ok.1 ho1
        cases h2; exact ⟨_, rfl⟩
    · simp only [processMd, Res.mapErr_eq_ok] at ho1
      split at ho1
      · cases ho1
      · split at ho1
        · cases ho1
        · obtain ⟨_, _, h2⟩ := Res.bind_eq_ok.1 ho1
          obtain ⟨_, _, h3⟩ := Res.bind_eq_ok.1 h2
          obtain ⟨_, _, h4⟩ := Res.bind_eq_ok.1 h3
          cases h4; exact ⟨_, rfl⟩
  obtain ⟨c, hc⟩ := hc
  obtain ⟨secs, root, g, gs, secs', hr, hroot, hrun, rfl⟩ :=
    (C29_page _ _ name src p rfl hpn hp c).1 ⟨out', ho1, hc⟩
  simp only at hroot
  rw [hc] at ho2
  simp only [Option.getD_some, Res.ok.injEq, Node.file.injEq] at ho2
  rw [← ho2.2.1] at h4
  exact ⟨root, secs, g, gs, secs', name', m', hroot, by rw [hroot] at hr; exact hr, hrun, h4⟩

/-- C36. Without a root template (for markdown: without either template) in force, a page is an error naming the
missing template, and there is no build of the site. -/
theorem C36_missing (input : Node) (pos : List Nat) (name : Str) (contents : Bytes) (p : Parsed) (m : Option Value) (src : Str)
    (hn : nodeAt input pos = some (.file name contents p m src)) (ht : ¬ TemplateName name)
    (hp : ((∃ toks, p = .html toks) ∧ template str!"root.html" input pos = none) ∨
      ((∃ md, p = .markdown md) ∧ (template str!"root.html" input pos = none ∨ template str!"md.html" input pos = none))) :
    (∀ out, buildTree ext df cfg vars mode input ≠ .ok out) ∧
    ∀ b : Builder, ∃ k, (k = .missingHtmlRoot ∧ template str!"root.html" input pos = none ∨
        k = .missingMarkdownRoot ∧ template str!"md.html" input pos = none) ∧
      processParsed b ⟨template str!"root.html" input pos, template str!"md.html" input pos⟩ name src p =
        .err (.process ⟨src, 0, 0, k⟩) := by
  constructor
  · intro out h
    obtain ⟨mid, h1, h2⟩ := C36_nearest ext df cfg vars mode input out h
    have h3 := preNode_at pos h1
    simp only [hn] at h3
    obtain ⟨p', hp', h3⟩ := h3
    have : (∃ toks, p' = .html toks) ∨ (∃ md, p' = .markdown md) := by
      rcases hp with ⟨⟨toks, rfl⟩, _⟩ | ⟨⟨md, rfl⟩, _⟩
      · cases hp'; exact .inl ⟨_, rfl⟩
      · obtain ⟨md', _, h2⟩ := Res.bind_eq_ok.1 hp'
        cases h2; exact .inr ⟨_, rfl⟩
    obtain ⟨root, secs, g, gs, secs', _, _, hr, hrec, _⟩ := h2 pos name contents p' m src h3 ht this
    rcases hp with ⟨_, hp⟩ | ⟨⟨md, rfl⟩, hp | hp⟩
    · rw [hp] at hr; cases hr
    · rw [hp] at hr; cases hr
    · obtain ⟨md', _, h2⟩ := Res.bind_eq_ok.1 hp'
      cases h2
      rw [hp] at hrec
      cases hrec with
      | markdown _ _ _ _ _ hm => cases hm
  · intro b
    have hnn : (name != str!"root.html" && name != str!"md.html") = true := by
      simp only [TemplateName, not_or] at ht
      simp [ht.1, ht.2]
    simp only [processParsed, hnn, if_true]
    rcases hp with ⟨⟨toks, rfl⟩, hp⟩ | ⟨⟨md, rfl⟩, hp⟩
    · exact ⟨.missingHtmlRoot, .inl ⟨rfl, hp⟩, by simp only [processHtml, hp]; rfl⟩
    · cases hr : template str!"root.html" input pos with
      | none => exact ⟨.missingHtmlRoot, .inl ⟨rfl, rfl⟩, by simp only [processMd]; rfl⟩
      | some root =>
        have hm : template str!"md.html" input pos = none := by
          rcases hp with hp | hp
          · rw [hr] at hp; cases hp
          · exact hp
        exact ⟨.missingMarkdownRoot, .inr ⟨rfl, hm⟩, by simp only [processMd, hm]; rfl⟩

/-- In the demonstration site the page in the subdirectory is made with the outer templates; a site without templates
does not build. -/
example : template str!"root.html" demoSite [4, 0] = some demoRoot ∧
    buildTree demoExt (fun _ _ => none) .default [] str!"production"
      (.dir [] [.file str!"index.html" [] (.html []) none str!"i"] []) =
      .err (.process ⟨str!"i", 0, 0, .missingHtmlRoot⟩) := ⟨rfl, rfl⟩

/-- A nearer template hides the outer one. -/
example : template str!"root.html"
    (.dir [] [.file str!"root.html" [] (.html []) none [],
      .dir str!"d" [.file str!"root.html" [] (.html demoRoot) none [], .file str!"x.html" [] (.html []) none []] []] [])
    [1, 1] = some demoRoot := rfl

/-! ### C37 -/

/-- The result of rendering the body of the file at a position, if it is markdown. -/
def bodyResult (input : Node) (pos : List Nat) : Res SErr Parsed :=
  bodyAt ext ⟨input, df⟩ (baseFrame vars mode) input pos

/-- The result of processing the file at a position, once the markdown has been converted. -/
def fileResult (input mid : Node) (pos : List Nat) : Res SErr Node :=
  pageAt ⟨⟨mid, df⟩, baseFrame vars mode, cfg⟩
    ⟨template str!"root.html" input pos, template str!"md.html" input pos⟩ mid pos

theorem buildTree_verdict (input : Node) : verdict (buildTree ext df cfg vars mode input) =
    (preNode ext ⟨input, df⟩ (baseFrame vars mode) input).bind fun mid =>
      allOk ((files input).map fun pos => verdict (fileResult df cfg vars mode input mid pos)) := by
  unfold buildTree
  cases h : preNode ext ⟨input, df⟩ (baseFrame vars mode) input with
  | err e => simp only [h]; rfl
  | panic p => simp only [h]; rfl
  | ok mid =>
    simp only [h, Res.bind_ok, buildTree_env, buildNode_verdict, preNode_files h]
    congr 1
    apply List.map_congr_left
    intro pos _
    simp only [fileResult, resultAt, envAt_template, template_pre h]

/-- C37. A build succeeds exactly when every markdown body renders and then every file is processed. -/
theorem C37_succeeds (input : Node) : (∃ out, buildTree ext df cfg vars mode input = .ok out) ↔
    (∀ pos ∈ files input, ∃ p, bodyResult ext df vars mode input pos = .ok p) ∧
    ∀ mid, preNode ext ⟨input, df⟩ (baseFrame vars mode) input = .ok mid →
      ∀ pos ∈ files input, ∃ o, fileResult df cfg vars mode input mid pos = .ok o := by
  rw [← verdict_ok, buildTree_verdict]
  have hv := preNode_verdict ext ⟨input, df⟩ (baseFrame vars mode) input
  have hbody : (∀ pos ∈ files input, ∃ p, bodyResult ext df vars mode input pos = .ok p) ↔
      ∃ mid, preNode ext ⟨input, df⟩ (baseFrame vars mode) input = .ok mid := by
    rw [← verdict_ok, hv, allOk_ok]
    simp only [verdict_ok, bodyResult]
  rw [hbody]
  constructor
  · intro h
    obtain ⟨mid, h1, h2⟩ := Res.bind_eq_ok.1 h
    refine ⟨⟨mid, h1⟩, ?_⟩
    intro mid' h1'
    rw [h1] at h1'; cases h1'
    rw [allOk_ok] at h2
    intro pos hp
    exact verdict_ok.1 (h2 pos hp)
  · rintro ⟨⟨mid, h1⟩, h2⟩
    rw [h1, Res.bind_ok, allOk_ok]
    intro pos hp
    exact verdict_ok.2 (h2 mid h1 pos hp)

/-- C37. A build fails with an error exactly when it is the error of the first failing body, or, if none fails, of the
first failing file. -/
theorem C37_first_error (input : Node) (e : SErr) : buildTree ext df cfg vars mode input = .err e ↔
    (∃ before pos after, files input = before ++ pos :: after ∧
      (∀ q ∈ before, ∃ p, bodyResult ext df vars mode input q = .ok p) ∧
      bodyResult ext df vars mode input pos = .err e) ∨
    ∃ mid, preNode ext ⟨input, df⟩ (baseFrame vars mode) input = .ok mid ∧
      ∃ before pos after, files input = before ++ pos :: after ∧
        (∀ q ∈ before, ∃ o, fileResult df cfg vars mode input mid q = .ok o) ∧
        fileResult df cfg vars mode input mid pos = .err e := by
  rw [← verdict_err, buildTree_verdict]
  have hv := preNode_verdict ext ⟨input, df⟩ (baseFrame vars mode) input
  have hbody : preNode ext ⟨input, df⟩ (baseFrame vars mode) input = .err e ↔
      ∃ before pos after, files input = before ++ pos :: after ∧
      (∀ q ∈ before, ∃ p, bodyResult ext df vars mode input q = .ok p) ∧
      bodyResult ext df vars mode input pos = .err e := by
    rw [← verdict_err, hv, allOk_fail _ _ (.err e) nofun]
    simp only [verdict_ok, verdict_err, bodyResult]
  rw [← hbody, Res.bind_eq_err]
  constructor
  · rintro (h | ⟨mid, h1, h2⟩)
    · exact .inl h
    · rw [allOk_fail _ _ (.err e) nofun] at h2
      simp only [verdict_ok, verdict_err] at h2
      exact .inr ⟨mid, h1, h2⟩
  · rintro (h | ⟨mid, h1, h2⟩)
    · exact .inl h
    · refine .inr ⟨mid, h1, ?_⟩
      rw [allOk_fail _ _ (.err e) nofun]
      simp only [verdict_ok, verdict_err]
      exact h2

/-- C37. The order is that of the positions, and every file is in it. -/
theorem C37_order (input : Node) : (files input).Pairwise (· < ·) ∧
    ∀ pos, pos ∈ files input ↔ ∃ name c p m src, nodeAt input pos = some (.file name c p m src) :=
  ⟨files_sorted input, mem_files input⟩

/-- The files of the demonstration site. -/
example : files demoSite = [[0], [1], [2], [3], [4, 0]] := rfl

/-- The first of two failing pages is reported. -/
example : buildTree demoExt (fun _ _ => none) .default [] str!"production"
    (.dir [] [.file str!"root.html" [] (.html []) none [],
      .file str!"x.html" [] (.html [⟨.var str!"a", str!"x", 1, 1⟩]) none [],
      .file str!"y.html" [] (.html [⟨.var str!"b", str!"y", 1, 1⟩]) none []] []) =
    .err (.process ⟨str!"x", 1, 1, .undefinedVariable str!"a"⟩) := rfl

/-! ### C34 -/

/-- C34. Two sites with the same names, JSON values and markdown, whatever the texts of their other pages and the bytes
of their files: a file that is the same in both, with the same templates in force, becomes the same. -/
theorem C34_independent (input₁ input₂ out₁ out₂ : Node) (hd : dataOf input₁ = dataOf input₂)
    (h₁ : buildTree ext df cfg vars mode input₁ = .ok out₁) (h₂ : buildTree ext df cfg vars mode input₂ = .ok out₂)
    (pos : List Nat) (name : Str) (contents : Bytes) (p : Parsed) (m : Option Value) (src : Str)
    (hn₁ : nodeAt input₁ pos = some (.file name contents p m src))
    (hn₂ : nodeAt input₂ pos = some (.file name contents p m src))
    (hr : template str!"root.html" input₁ pos = template str!"root.html" input₂ pos)
    (hm : template str!"md.html" input₁ pos = template str!"md.html" input₂ pos) :
    nodeAt out₁ pos = nodeAt out₂ pos ∧ nodeAt out₁ pos ≠ none := by
  obtain ⟨mid₁, a₁, b₁⟩ := buildTree_ok h₁
  obtain ⟨mid₂, a₂, b₂⟩ := buildTree_ok h₂
  have hpre : preNode ext ⟨input₁, df⟩ (baseFrame vars mode) input₂ = .ok mid₂ := by
    rw [preNode_same_data hd]; exact a₂
  have hmid : dataOf mid₁ = dataOf mid₂ := preNode_data hd a₁ hpre
  have c₁ := preNode_at pos a₁
  have c₂ := preNode_at pos hpre
  simp only [hn₁] at c₁
  simp only [hn₂] at c₂
  obtain ⟨p₁, hp₁, c₁⟩ := c₁
  obtain ⟨p₂, hp₂, c₂⟩ := c₂
  rw [hp₁] at hp₂; cases hp₂
  have d₁ := buildNode_at pos b₁
  have d₂ := buildNode_at pos b₂
  simp only [c₁] at d₁
  simp only [c₂] at d₂
  obtain ⟨o₁, e₁, d₁⟩ := d₁
  obtain ⟨o₂, e₂, d₂⟩ := d₂
  rw [envAt_template, template_pre a₁, template_pre a₁, hr, hm, processFile_same_data hmid] at e₁
  rw [envAt_template, template_pre hpre, template_pre hpre, e₁] at e₂
  cases e₂
  exact ⟨by rw [d₁, d₂], by rw [d₁]; nofun⟩

/-- The demonstration site with another page. -/
example :
    let other : Node := .dir str!"content" [.file str!"root.html" [] (.html demoRoot) none [],
      .file str!"a.html" [] (.html (demoPage str!"1")) none [], .file str!"b.html" [] (.html (demoPage [])) none []] []
    let one : Node := .dir str!"content" [.file str!"root.html" [] (.html demoRoot) none [],
      .file str!"a.html" (bytesOf str!"other") (.html (demoPage str!"2" ++ demoPage str!"3")) none [],
      .file str!"b.html" [] (.html (demoPage [])) none []] []
    dataOf one = dataOf other ∧ template str!"root.html" one [2] = template str!"root.html" other [2] := ⟨rfl, rfl⟩

/-! ### C15 -/

/-- The tokens of a file. -/
def tokensOf : Parsed → List LTok
  | .html toks => toks
  | .markdown md => md.markdown
  | _ => []

theorem preFile_rendered {cx : Ctx} {base : Frame} {p : Parsed} {src : Str} {md : ParsedMd}
    (h : preFile ext cx base p src = .ok (.markdown md)) : md.html ≠ none := by
  cases p with
  | markdown md' =>
    obtain ⟨x, h1, h2⟩ := Res.bind_eq_ok.1 h
    cases h2
    rw [Res.mapErr_eq_ok] at h1
    unfold preprocessMd at h1
    obtain ⟨st, _, h1⟩ := Res.bind_eq_ok.1 h1
    split at h1
    · cases h1
    · split at h1
      · split at h1
        · cases h1
        · cases h1; nofun
      · cases h1
  | _ => cases h

theorem renderOn_panics {cx : Ctx} {first base : Frame} {src : Str} {toks root : List LTok}
    (h1 : ∀ st p, st.stack ≠ [] → runToks cx toks st ≠ .panic p) (h2 : ∀ st p, st.stack ≠ [] → runToks cx root st ≠ .panic p)
    (p : Panic) : renderOn cx first base src toks root ≠ .panic p := by
  unfold renderOn
  cases h : runToks cx toks ⟨[first], []⟩ with
  | panic q => exact absurd h (h1 _ _ (by simp))
  | err e => simp
  | ok st =>
    simp only [Res.bind_ok]
    split
    · nofun
    · split
      · rename_i fs _ _
        cases h' : runToks cx root ⟨base :: fs, st.sections⟩ with
        | panic q => exact absurd h' (h2 _ _ (by simp))
        | err e => simp
        | ok st' =>
          have hne := (runToks_inv (cx := cx) (I := fun _ => True) (fun _ _ _ _ _ => trivial) root.length root _ _
            (Nat.le_refl _) (by simp) trivial h').1
          simp only [Res.bind_ok]
          split
          · contradiction
          · nofun
      · nofun

/-- C15 for whole builds: if the functions of plugins have names and do not panic, the files handled by plugins do not
panic, markdown files are named so, and no markdown body loops over a directory, then no build panics. -/
theorem C15_build_partial (input : Node)
    (hfn : ∀ pos name c p m src, nodeAt input pos = some (.file name c p m src) → ∀ t ∈ tokensOf p, ∀ f,
      t.inner = .func (.plugin f) → f.name ≠ none ∧ ∀ scs q, f.exec scs ≠ .panic q)
    (hcu : ∀ pos name c p m src, nodeAt input pos = some (.file name c (.custom p) m src) → ∀ r d q,
      p.process r d ≠ .panic q)
    (hmd : ∀ pos name c md m src, nodeAt input pos = some (.file name c (.markdown md) m src) →
      (∃ stem, name = stem ++ str!".md") ∧ ∀ t ∈ md.markdown, ∀ f, t.inner = .func (.for_ f) → f.kind ≠ .mdDir)
    (q : Panic) : buildTree ext df cfg vars mode input ≠ .panic q := by
  intro hq
  have hv : verdict (buildTree ext df cfg vars mode input) = .panic q := verdict_panic.2 hq
  rw [buildTree_verdict] at hv
  cases hpre : preNode ext ⟨input, df⟩ (baseFrame vars mode) input with
  | err e => rw [hpre] at hv; cases hv
  | panic p =>
    have hpv := preNode_verdict ext ⟨input, df⟩ (baseFrame vars mode) input
    rw [verdict_panic.2 hpre] at hpv
    obtain ⟨a, pos, c, hf, _, h2⟩ := (allOk_fail _ _ (.panic p) nofun).1 hpv.symm
    have hmem : pos ∈ files input := by rw [hf]; simp
    obtain ⟨name, b, p', m, src, hn⟩ := (mem_files input pos).1 hmem
    rw [verdict_panic, bodyAt] at h2
    simp only [hn] at h2
    cases p' with
    | markdown md =>
      have hrun : ∀ q, runToks ⟨input, df⟩ md.markdown ⟨[baseFrame vars mode], []⟩ ≠ .panic q := by
        intro q hq
        refine runToks_panics (S := fun _ => False) (cx := ⟨input, df⟩) md.markdown.length md.markdown _ (Nat.le_refl _)
          (fun u hu => ⟨fun f hf => ?_, fun f stk hf => ?_⟩) (.inl (by simp)) _ hq
        · have := hfn pos name b _ m src hn u hu f hf
          exact ⟨this.1, fun ⟨s, q, hx⟩ => this.2 s q hx⟩
        · have := (hmd pos name b md m src hn).2 u hu f hf
          unfold forItems
          cases hk : f.kind with
          | mdDir => exact absurd hk this
          | jsonFile =>
            simp only
            split
            · exact OnlyPanics.err _
            · split
              · exact OnlyPanics.err _
              · split
                · exact OnlyPanics.ofOption
                · exact OnlyPanics.err _
          | jsonObj => exact OnlyPanics.ofOption
      simp only [preFile, preprocessMd] at h2
      cases hr : runToks ⟨input, df⟩ md.markdown ⟨[baseFrame vars mode], []⟩ with
      | panic q => exact absurd hr (hrun q)
      | err e => rw [hr] at h2; cases h2
      | ok st =>
        rw [hr] at h2
        simp only [Res.bind_ok] at h2
        split at h2
        · cases h2
        · split at h2
          · split at h2 <;> cases h2
          · cases h2
    | _ => cases h2
  | ok mid =>
    rw [hpre] at hv
    obtain ⟨a, pos, c, hf, _, h2⟩ := (allOk_fail _ _ (.panic q) nofun).1 hv
    have hmem : pos ∈ files input := by rw [hf]; simp
    rw [← preNode_files hpre] at hmem
    obtain ⟨name, b, p', m, src, hn⟩ := (mem_files mid pos).1 hmem
    have origin : ∀ {pos name c p m src}, nodeAt mid pos = some (.file name c p m src) →
        ∃ p₀, nodeAt input pos = some (.file name c p₀ m src) ∧ preFile ext ⟨input, df⟩ (baseFrame vars mode) p₀ src = .ok p := by
      intro pos name c p m src h
      have := preNode_at pos hpre
      cases h0 : nodeAt input pos with
      | none => simp only [h0] at this; rw [this] at h; cases h
      | some n =>
        cases n with
        | dir => simp only [h0] at this; obtain ⟨_, _, h'⟩ := this; rw [h'] at h; cases h
        | file nm cc p₀ mm ss =>
          simp only [h0] at this
          obtain ⟨p', hp', h'⟩ := this
          rw [h'] at h; cases h
          exact ⟨p₀, rfl, hp'⟩
    have hrend : ∀ {pos name c md m src}, nodeAt mid pos = some (.file name c (.markdown md) m src) → md.html ≠ none := by
      intro pos name c md m src h
      obtain ⟨p₀, _, h2⟩ := origin h
      exact preFile_rendered ext h2
    have htree : TreeMay (fun _ => False) ⟨mid, df⟩ := by
      intro path n cs hn hcs c hc md hmd' hno
      obtain ⟨ps, hps⟩ := getComps_pos _ hn
      cases n with
      | file => cases hcs
      | dir d cs' s =>
        cases hcs
        obtain ⟨ps', hps'⟩ := child_pos hps hc
        cases c with
        | dir => cases hmd'
        | file nm b pc mm ss =>
          have : pc = .markdown md := hmd'
          subst this
          exact hrend hps' hno
    have hrun : ∀ {pos name c toks m src}, nodeAt input pos = some (.file name c (.html toks) m src) →
        ∀ (st : St) q, st.stack ≠ [] → runToks ⟨mid, df⟩ toks st ≠ .panic q := by
      intro pos name c toks m src hx st q hst hq
      refine runToks_panics (S := fun _ => False) (cx := ⟨mid, df⟩) toks.length toks _ (Nat.le_refl _)
        (fun u hu => ⟨fun f hf => ?_, fun f stk hf => forItems_panics htree f stk⟩) (.inl hst) _ hq
      have := hfn pos name c _ m src hx u hu f hf
      exact ⟨this.1, fun ⟨s, q, hx⟩ => this.2 s q hx⟩
    rw [verdict_panic, fileResult, pageAt] at h2
    simp only [hn, processFile] at h2
    have hpp : processParsed ⟨⟨mid, df⟩, baseFrame vars mode, cfg⟩
        ⟨template str!"root.html" input pos, template str!"md.html" input pos⟩ name src p' = .panic q := by
      generalize processParsed ⟨⟨mid, df⟩, baseFrame vars mode, cfg⟩
        ⟨template str!"root.html" input pos, template str!"md.html" input pos⟩ name src p' = x at h2
      cases x with
      | panic q' => simpa using h2
      | ok o => cases h2
      | err e => cases h2
    unfold processParsed at hpp
    split at hpp
    · cases p' with
      | html toks =>
        simp only [processHtml] at hpp
        obtain ⟨p₀, h3, h4⟩ := origin hn
        have : p₀ = .html toks := by
          cases p₀ with
          | markdown md => obtain ⟨x, _, h5⟩ := Res.bind_eq_ok.1 h4; cases h5
          | _ => first | (cases h4; rfl) | cases h4
        subst this
        cases hr : template str!"root.html" input pos with
        | none => rw [hr] at hpp; cases hpp
        | some root =>
          rw [hr] at hpp
          obtain ⟨_, _, _, _, _, h5⟩ := template_pos hr
          cases hx : renderOn ⟨mid, df⟩ (baseFrame vars mode) (baseFrame vars mode) src toks root with
          | panic q' => exact renderOn_panics (fun st p h => hrun h3 st p h) (fun st p h => hrun h5 st p h) _ hx
          | ok o => simp only [hx] at hpp; cases hpp
          | err e => simp only [hx] at hpp; cases hpp
      | markdown md =>
        simp only [processMd] at hpp
        obtain ⟨p₀, h3, h4⟩ := origin hn
        obtain ⟨stem, hstem⟩ : ∃ stem, name = stem ++ str!".md" := by
          cases p₀ with
          | markdown md' => exact (hmd pos name b md' m src h3).1
          | _ => cases h4
        have hss : stripSuffix str!".md" name = some stem := by rw [hstem, stripSuffix_append]
        cases hr : template str!"root.html" input pos with
        | none => rw [hr] at hpp; cases hpp
        | some root =>
          rw [hr] at hpp
          cases hm : template str!"md.html" input pos with
          | none => rw [hm] at hpp; cases hpp
          | some toks =>
            rw [hm] at hpp
            obtain ⟨_, _, _, _, _, h5⟩ := template_pos hr
            obtain ⟨_, _, _, _, _, h6⟩ := template_pos hm
            have hh := hrend hn
            obtain ⟨html, hhtml⟩ := Option.ne_none_iff_exists'.1 hh
            simp only [ParsedMd.toValue, hhtml, Res.bind_ok, hss, Res.unwrap_some] at hpp
            generalize hf : (baseFrame vars mode).addVar str!"self" _ = first at hpp
            cases hx : renderOn ⟨mid, df⟩ first (baseFrame vars mode) src toks root with
            | panic q' => exact renderOn_panics (fun st p h => hrun h6 st p h) (fun st p h => hrun h5 st p h) _ hx
            | ok o => simp only [hx] at hpp; cases hpp
            | err e => simp only [hx] at hpp; cases hpp
      | custom c =>
        obtain ⟨p₀, h3, h4⟩ := origin hn
        have : p₀ = .custom c := by
          cases p₀ with
          | markdown md => obtain ⟨x, _, h5⟩ := Res.bind_eq_ok.1 h4; cases h5
          | _ => first | (cases h4; rfl) | cases h4
        subst this
        simp only at hpp
        generalize hx : c.process (template str!"root.html" input pos) (template str!"md.html" input pos) = x at hpp
        cases x with
        | panic q' => exact hcu pos name b c m src h3 _ _ q' hx
        | ok o => cases hpp
        | err e => cases hpp
      | _ => cases hpp
    · cases hpp

/-- The hypotheses hold of the demonstration site. -/
theorem demoSite_hyps : (∀ pos name c p m src, nodeAt demoSite pos = some (.file name c p m src) → ∀ t ∈ tokensOf p, ∀ f,
      t.inner = .func (.plugin f) → f.name ≠ none ∧ ∀ scs q, f.exec scs ≠ .panic q) ∧
    (∀ pos name c p m src, nodeAt demoSite pos = some (.file name c (.custom p) m src) → ∀ r d q,
      p.process r d ≠ .panic q) ∧
    (∀ pos name c md m src, nodeAt demoSite pos = some (.file name c (.markdown md) m src) →
      (∃ stem, name = stem ++ str!".md") ∧ ∀ t ∈ md.markdown, ∀ f, t.inner = .func (.for_ f) → f.kind ≠ .mdDir) := by
  have key : ∀ pos name c p m src, nodeAt demoSite pos = some (.file name c p m src) →
      pos = [0] ∨ pos = [1] ∨ pos = [2] ∨ pos = [3] ∨ pos = [4, 0] := by
    intro pos name c p m src h
    have := (mem_files demoSite pos).2 ⟨_, _, _, _, _, h⟩
    simpa [show files demoSite = [[0], [1], [2], [3], [4, 0]] from rfl] using this
  refine ⟨?_, ?_, ?_⟩
  · intro pos name c p m src h t ht f hf
    rcases key _ _ _ _ _ _ h with rfl | rfl | rfl | rfl | rfl <;> cases h <;>
      simp [tokensOf, demoRoot, demoPage] at ht <;> (try rcases ht with ht | ht | ht | ht) <;> subst_vars <;> cases hf
  · intro pos name c p m src h
    rcases key _ _ _ _ _ _ h with rfl | rfl | rfl | rfl | rfl <;> cases h
  · intro pos name c md m src h
    rcases key _ _ _ _ _ _ h with rfl | rfl | rfl | rfl | rfl <;> cases h
    refine ⟨⟨str!"p", rfl⟩, ?_⟩
    intro t ht f hf
    simp at ht
    subst ht
    cases hf

/-! ### Cases: each theorem applied to something that meets its hypotheses -/

example := C35_same_tree demoExt (fun _ _ => none) .default [] str!"production" demoSite _ demo_builds [4, 0]

example := C36_nearest demoExt (fun _ _ => none) .default [] str!"production" demoSite _ demo_builds

example := C36_missing demoExt (fun _ _ => none) .default [] str!"production"
  (.dir [] [.file str!"root.html" [] (.html []) none [], .file str!"x.md" [] (.markdown ⟨[], [], [], none⟩) none []] []) [1]
  str!"x.md" [] (.markdown ⟨[], [], [], none⟩) none [] rfl (by unfold TemplateName; decide) (.inr ⟨⟨_, rfl⟩, .inr rfl⟩)

/-- A site with two pages, one of them given. -/
def caseSite (other : Str) : Node := .dir [] [
  .file str!"1.html" [] (.html [here.tok (.raw other), here.tok (.func (.begin_ str!"a" true)), here.tok (.raw other),
    here.tok (.func (.end_ str!"a" true))]) none [],
  .file str!"2.html" [] (.html [here.tok (.func (.begin_ str!"a" true)), here.tok (.raw str!"x"), here.tok (.func (.end_ str!"a" true))]) none [],
  .file str!"root.html" [] (.html [here.tok (.func (.insert str!"a"))]) none []] []

example := C34_independent demoExt (fun _ _ => none) .default [] str!"production" (caseSite str!"1") (caseSite str!"2") _ _ rfl rfl rfl [1]
  _ _ _ _ _ rfl rfl rfl rfl

example := C15_build_partial demoExt (fun _ _ => none) .default [] str!"production" demoSite demoSite_hyps.1 demoSite_hyps.2.1
  demoSite_hyps.2.2 .emptyStack

end Stuart
