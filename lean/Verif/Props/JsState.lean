import Verif.Proof.JsState
/-
C115: functions of JavaScript plugins that remember things. The contexts of plugins are apart, and they live as long as
the process: a page does not notice what other plugins do, but it does notice that a site is built again.
-/
namespace Stuart

variable {τ : Type}

/-- The page calls functions of these plugins only. -/
def CallsOnly (owner : LTok → Str) (A : Str → Prop) (p : PageS) : Prop :=
  ∀ t, t ∈ p.toks ∨ t ∈ p.root → ∀ f, t.inner = .func (.plugin f) → A (owner t)

/-- The states of the plugins after a page, and the page. -/
abbrev pageS {σ : Type} (cx : Ctx) (call : LTok → Call σ) (p : PageS) (s : σ) : σ × Res PErr Bytes :=
  renderOnS cx call p.first p.base p.src p.toks p.root s

theorem page_sim (cx : Ctx) (owner : LTok → Str) (own : LTok → Call τ) (A : Str → Prop) (p : PageS) (hp : CallsOnly owner A p)
    (s s' : Str → τ) (hs : ∀ a, A a → s a = s' a) :
    SimR (fun u u' : Str → τ => ∀ a, A a → u a = u' a) (fun _ => True) (pageS cx (inContext owner own) p s)
      (pageS cx (inContext owner own) p s') := by
  refine renderOn_sim (P := fun t => t ∈ p.toks ∨ t ∈ p.root) ?_ cx _ _ _ _ _ s s' (fun u hu => .inl hu) (fun u hu => .inr hu) hs
  intro t ht f hf u u' sc hu
  have := hu (owner t) (hp t ht f hf)
  unfold inContext
  simp only [this, and_true]
  intro a ha
  by_cases hao : a = owner t
  · simp [hao]
  · simp [hao, hu a ha]

/-- C115. What a page is, and what it does to the plugins whose functions it calls, depends on the states of these
plugins only. -/
theorem C115_own (cx : Ctx) (owner : LTok → Str) (own : LTok → Call τ) (A : Str → Prop) (p : PageS) (hp : CallsOnly owner A p)
    (s s' : Str → τ) (hs : ∀ a, A a → s a = s' a) :
    (pageS cx (inContext owner own) p s).2 = (pageS cx (inContext owner own) p s').2 ∧
    ∀ a, A a → (pageS cx (inContext owner own) p s).1 a = (pageS cx (inContext owner own) p s').1 a :=
  have h := page_sim cx owner own A p hp s s' hs
  ⟨h.2.1, h.1⟩

/-- C115. The other plugins are left as they were. -/
theorem C115_frame (cx : Ctx) (owner : LTok → Str) (own : LTok → Call τ) (A : Str → Prop) (p : PageS) (hp : CallsOnly owner A p)
    (s : Str → τ) (a : Str) (ha : ¬ A a) : (pageS cx (inContext owner own) p s).1 a = s a := by
  -- the run with itself, the second one told what the first one is
  have h := renderOn_sim (Rl := fun u u' : Str → τ => u = u' ∧ u a = s a) (P := fun t => t ∈ p.toks ∨ t ∈ p.root)
    (call := inContext owner own) (call' := inContext owner own) ?_ cx p.first p.base p.src p.toks p.root s s
    (fun u hu => .inl hu) (fun u hu => .inr hu) ⟨rfl, rfl⟩
  · exact h.1.2
  · rintro t ht f hf u _ sc ⟨rfl, hu⟩
    refine ⟨⟨rfl, ?_⟩, rfl⟩
    have hne : a ≠ owner t := fun h => ha (h ▸ hp t ht f hf)
    simp [inContext, hne, hu]

theorem pages_own (cx : Ctx) (owner : LTok → Str) (own : LTok → Call τ) (A : Str → Prop) (mine : PageS → Bool) (ps : List PageS)
    (h1 : ∀ p ∈ ps, mine p = true → CallsOnly owner A p) (h2 : ∀ p ∈ ps, mine p = false → CallsOnly owner (fun a => ¬ A a) p)
    (s s' : Str → τ) (hs : ∀ a, A a → s a = s' a) (bs : List Bytes) (hok : (pagesS cx (inContext owner own) ps s).2 = .ok bs) :
    (pagesS cx (inContext owner own) (ps.filter mine) s').2 = .ok (((ps.zip bs).filter fun x => mine x.1).map Prod.snd) := by
  induction ps generalizing s s' bs with
  | nil => simp [pagesS]
  | cons p ps ih =>
    unfold pagesS at hok
    have hfr := fun a ha => C115_frame cx owner own (fun a => ¬ A a) p
      (s := s) (a := a) (ha := ha)
    have hown := fun hp => C115_own cx owner own A p hp s s' hs
    unfold pageS at hfr hown
    generalize hr : renderOnS cx (inContext owner own) p.first p.base p.src p.toks p.root s = r at hok hfr hown
    obtain ⟨u, r⟩ := r
    cases r with
    | err e => simp [thenS] at hok
    | panic q => simp [thenS] at hok
    | ok b =>
      simp only [thenS] at hok
      generalize hr2 : pagesS cx (inContext owner own) ps u = r2 at hok
      obtain ⟨u2, r2⟩ := r2
      cases r2 with
      | err e => simp at hok
      | panic q => simp at hok
      | ok cs =>
        simp only [Res.ok.injEq] at hok
        subst hok
        have ih := fun s' hs => ih (fun q hq => h1 q (by simp [hq])) (fun q hq => h2 q (by simp [hq])) u s' hs cs (by rw [hr2])
        cases hm : mine p with
        | true =>
          obtain ⟨e1, e2⟩ := hown (h1 p (by simp) hm)
          generalize hr' : renderOnS cx (inContext owner own) p.first p.base p.src p.toks p.root s' = r' at e1 e2
          obtain ⟨u', r'⟩ := r'
          simp only at e1 e2
          subst e1
          have ih := ih u' e2
          simp only [List.filter_cons, hm, if_true, List.zip_cons_cons, List.map_cons]
          unfold pagesS
          rw [hr']
          simp only [thenS, ih]
        | false =>
          have hp := h2 p (by simp) hm
          have ih := ih s' fun a ha => (hfr a (fun h => h ha) hp).trans (hs a ha)
          simp only [List.filter_cons, hm, List.zip_cons_cons]
          simpa using ih

/-- C115. Of a site some of whose pages call functions of some plugins and the others functions of other plugins: the
former are as if the latter were not there. -/
theorem C115_site (cx : Ctx) (owner : LTok → Str) (own : LTok → Call τ) (A : Str → Prop) (mine : PageS → Bool) (ps : List PageS)
    (h1 : ∀ p ∈ ps, mine p = true → CallsOnly owner A p) (h2 : ∀ p ∈ ps, mine p = false → CallsOnly owner (fun a => ¬ A a) p)
    (s : Str → τ) (bs : List Bytes) (hok : (pagesS cx (inContext owner own) ps s).2 = .ok bs) :
    (pagesS cx (inContext owner own) (ps.filter mine) s).2 = .ok (((ps.zip bs).filter fun x => mine x.1).map Prod.snd) :=
  pages_own cx owner own A mine ps h1 h2 s s (fun _ _ => rfl) bs hok

/-- A function that remembers nothing: what it does is what the interpreter without a state takes it to do. -/
def Forgets {σ : Type} (call : LTok → Call σ) (p : PageS) : Prop :=
  ∀ t, t ∈ p.toks ∨ t ∈ p.root → ∀ f, t.inner = .func (.plugin f) → ∀ s sc, call t s sc = (s, f.exec sc)

/-- C115. Without functions that remember things, a page is what it is without a state, and the state stays: what is proved
of the other interpreter holds of this one. -/
theorem C115_forgets {σ : Type} (cx : Ctx) (call : LTok → Call σ) (p : PageS) (hp : Forgets call p) (s : σ) :
    pageS cx call p s = (s, renderOn cx p.first p.base p.src p.toks p.root) := by
  have h := renderOn_sim (Rl := fun u (_ : Unit) => u = s) (P := fun t => t ∈ p.toks ∨ t ∈ p.root) (call := call)
    (call' := bareCall) ?_ cx p.first p.base p.src p.toks p.root s () (fun u hu => .inl hu) (fun u hu => .inr hu) rfl
  · exact Prod.ext h.1 (h.2.1.trans (renderOn_bare cx _ _ _ _ _))
  · rintro t ht f hf u ⟨⟩ sc rfl
    rw [hp t ht f hf]
    simp [bareCall, hf]

/-- C115, so far as it holds. A site whose functions remember nothing is the same when it is built again. -/
theorem C115_again_partial {σ : Type} (cx : Ctx) (call : LTok → Call σ) (ps : List PageS) (hp : ∀ p ∈ ps, Forgets call p) (s : σ) :
    pagesS cx call ps (pagesS cx call ps s).1 = pagesS cx call ps s := by
  have : (pagesS cx call ps s).1 = s := by
    induction ps with
    | nil => rfl
    | cons p ps ih =>
      have h1 := C115_forgets cx call p (hp p (by simp)) s
      have h2 := ih fun q hq => hp q (by simp [hq])
      unfold pageS at h1
      unfold pagesS
      rw [h1]
      generalize renderOn cx p.first p.base p.src p.toks p.root = r
      cases r with
      | err e => rfl
      | panic e => rfl
      | ok b =>
        simp only [thenS]
        generalize pagesS cx call ps s = r at h2
        obtain ⟨u, r⟩ := r
        cases r <;> exact h2
  rw [this]

/-! ### Whole builds -/

/-- The files of a tree call functions of these plugins only. -/
def TreeCallsOnly (owner : LTok → Str) (A : Str → Prop) (n : Node) : Prop :=
  ∀ t ∈ nodeToks n, ∀ f, t.inner = .func (.plugin f) → A (owner t)

/-- C115, of whole builds. What a site is, and what building it does to the plugins whose functions it calls, depends on the
states of these plugins only, and the others are left as they were. -/
theorem C115_build (ext : Ext) (dateFmt : Str → Str → Option Str) (cfg : Config) (vars : List (Str × Str)) (mode : Str)
    (input : Node) (owner : LTok → Str) (own : LTok → Call τ) (A : Str → Prop) (hp : TreeCallsOnly owner A input)
    (s s' : Str → τ) (hs : ∀ a, A a → s a = s' a) :
    let r := buildTreeS (inContext owner own) ext dateFmt cfg vars mode input s
    let r' := buildTreeS (inContext owner own) ext dateFmt cfg vars mode input s'
    r.2 = r'.2 ∧ (∀ a, A a → r.1 a = r'.1 a) ∧ ∀ a, ¬ A a → r.1 a = s a := by
  intro r r'
  have h := buildTree_sim (Rl := fun u u' : Str → τ => (∀ a, A a → u a = u' a) ∧ ∀ a, ¬ A a → u a = s a)
    (P := fun t => t ∈ nodeToks input) (call := inContext owner own) (call' := inContext owner own) ?_ ext dateFmt cfg vars mode
    input s s' (fun t ht => ht) ⟨hs, fun a _ => rfl⟩
  · exact ⟨h.2.1, h.1.1, h.1.2⟩
  · rintro t ht f hf u u' sc ⟨hu, hk⟩
    have ho := hp t ht f hf
    have := hu (owner t) ho
    unfold inContext
    simp only [this, and_true]
    constructor
    · intro a ha
      by_cases hao : a = owner t
      · simp [hao]
      · simp [hao, hu a ha]
    · intro a ha
      have hao : a ≠ owner t := fun h => ha (h ▸ ho)
      simp [hao, hk a ha]

/-- C115, of whole builds without functions that remember things: the model of all other properties. -/
theorem C115_build_forgets {σ : Type} (ext : Ext) (dateFmt : Str → Str → Option Str) (cfg : Config) (vars : List (Str × Str)) (mode : Str)
    (input : Node) (call : LTok → Call σ)
    (hp : ∀ t ∈ nodeToks input, ∀ f, t.inner = .func (.plugin f) → ∀ s sc, call t s sc = (s, f.exec sc)) (s : σ) :
    buildTreeS call ext dateFmt cfg vars mode input s = (s, buildTree ext dateFmt cfg vars mode input) := by
  have h := buildTree_sim (Rl := fun u (_ : Unit) => u = s) (P := fun t => t ∈ nodeToks input) (call := call)
    (call' := bareCall) ?_ ext dateFmt cfg vars mode input s () (fun t ht => ht) rfl
  · exact Prod.ext h.1 (h.2.1.trans (buildTree_bare ext dateFmt cfg vars mode input))
  · rintro t ht f hf u ⟨⟩ sc rfl
    rw [hp t ht f hf]
    simp [bareCall, hf]

/-- C115, so far as it holds, of whole builds. A site whose functions remember nothing is the same when it is built again. -/
theorem C115_rebuild_partial {σ : Type} (ext : Ext) (dateFmt : Str → Str → Option Str) (cfg : Config) (vars : List (Str × Str)) (mode : Str)
    (input : Node) (call : LTok → Call σ)
    (hp : ∀ t ∈ nodeToks input, ∀ f, t.inner = .func (.plugin f) → ∀ s sc, call t s sc = (s, f.exec sc)) (s : σ) :
    buildTreeS call ext dateFmt cfg vars mode input (buildTreeS call ext dateFmt cfg vars mode input s).1 =
      buildTreeS call ext dateFmt cfg vars mode input s := by
  simp only [C115_build_forgets ext dateFmt cfg vars mode input call hp]

/-- C115, so far as it holds, of functions that remember things which do not show (what they have computed before, say): if in
all states of some kind the functions do the same, and leave such states, then a site is the same from each of them, and the
same when it is built again. -/
theorem C115_hidden_partial {σ : Type} (ext : Ext) (dateFmt : Str → Str → Option Str) (cfg : Config) (vars : List (Str × Str)) (mode : Str)
    (input : Node) (call : LTok → Call σ) (kind : σ → Prop)
    (hp : ∀ t ∈ nodeToks input, ∀ f, t.inner = .func (.plugin f) → ∀ s s' sc, kind s → kind s' →
      kind (call t s sc).1 ∧ (call t s sc).2 = (call t s' sc).2) (s s' : σ) (hs : kind s) (hs' : kind s') :
    (buildTreeS call ext dateFmt cfg vars mode input s').2 = (buildTreeS call ext dateFmt cfg vars mode input s).2 ∧
    (buildTreeS call ext dateFmt cfg vars mode input (buildTreeS call ext dateFmt cfg vars mode input s).1).2 =
      (buildTreeS call ext dateFmt cfg vars mode input s).2 := by
  have h : ∀ u u', kind u → kind u' → _ := fun u u' hu hu' =>
    buildTree_sim (Rl := fun u u' : σ => kind u ∧ kind u') (P := fun t => t ∈ nodeToks input) (call := call) (call' := call)
      (fun t ht f hf u u' sc h => ⟨⟨(hp t ht f hf u u' sc h.1 h.2).1, (hp t ht f hf u' u sc h.2 h.1).1⟩, (hp t ht f hf u u' sc h.1 h.2).2⟩)
      ext dateFmt cfg vars mode input u u' (fun t ht => ht) ⟨hu, hu'⟩
  exact ⟨(h s' s hs' hs).2.1, (h _ s (h s s hs hs).1.1 hs).2.1⟩

/-! ### The test `js_isolation` (stuart/src/test.rs:60-63) -/

/-- A function of a plugin that is known by its name only. -/
def namedFn (name : Str) : PluginFnParser := ⟨str!"inc", fun _ => .ok ⟨none, fun _ => .ok ([], bytesOf name)⟩⟩

/-- stuart/tests/js-isolation/plugin1.mjs and plugin2.mjs -/
def isolationPlugins : List PluginFns := [⟨str!"plugin1", [namedFn str!"plugin1"]⟩, ⟨str!"plugin2", [namedFn str!"plugin2"]⟩]

/-- stuart/tests/js-isolation/content/index.html -/
def isolationIndex : Str := str!"{{ begin(\"body\") }}\n  {{ plugin1::inc() }} {{ plugin1::inc() }} {{ plugin1::inc() }} {{ plugin2::inc() }} {{ plugin2::inc() }} {{ plugin1::inc() }}\n{{ end(\"body\") }}"

/-- stuart/tests/js-isolation/content/root.html -/
def isolationRoot : Str := str!"{{ insert(\"body\") }}"

/-- Which plugin a token calls. -/
def namedOwner (t : LTok) : Str :=
  match t.inner with
  | .func (.plugin p) =>
    match p.exec [] with
    | .ok (_, b) => (fromUtf8 b).getD []
    | _ => []
  | _ => []

/-- `return state++` -/
def incCall : Call Nat := fun n _ => (n + 1, .ok ([], bytesOf (natToStr n)))

def toksOf (text : Str) : List LTok :=
  match parseHtml Unicode.asciiOnly str!"index.html" isolationPlugins text with
  | .ok l => l
  | _ => []

def isolationPage : PageS :=
  ⟨baseFrame [] str!"production", baseFrame [] str!"production", str!"index.html", toksOf isolationIndex, toksOf isolationRoot⟩

def isolationCtx : Ctx := ⟨.dir str!"content" [] str!"content", fun _ _ => none⟩

def isolationBuild (s : Str → Nat) : (Str → Nat) × Res PErr (List Bytes) :=
  pagesS isolationCtx (inContext namedOwner fun _ => incCall) [isolationPage] s

def shownBy (r : (Str → Nat) × Res PErr (List Bytes)) : Option (List Bytes) :=
  match r.2 with
  | .ok l => some l
  | _ => none

/-- C115. The test passes: `0 1 2 0 1 3`. -/
theorem C115_isolation : shownBy (isolationBuild fun _ => 0) = some [bytesOf str!"\n  0 1 2 0 1 3\n"] ∧
    (isolationBuild fun _ => 0).1 str!"plugin1" = 4 ∧ (isolationBuild fun _ => 0).1 str!"plugin2" = 2 ∧
    (isolationBuild fun _ => 0).1 str!"plugin3" = 0 := by decide +kernel

/-- C115. That a site built again (by the development server or a benchmark, stuart/src/serve/mod.rs:58-64, 124 and
stuart/src/main.rs:156-175) is what it was is false: the contexts are kept. -/
theorem C115_counterexample_again :
    shownBy (isolationBuild (isolationBuild fun _ => 0).1) = some [bytesOf str!"\n  4 5 6 2 3 7\n"] ∧
    shownBy (isolationBuild (isolationBuild fun _ => 0).1) ≠ shownBy (isolationBuild fun _ => 0) := by decide +kernel

/-- The same with a whole build: the page, and a markdown file whose body calls a function too. It is rendered first. -/
def isolationTree : Node := .dir str!"content" [
  .file str!"root.html" [] (.html (toksOf isolationRoot)) none str!"content/root.html",
  .file str!"md.html" [] (.html (toksOf str!"{{ begin(\"body\") }}{{ $self.content }}{{ end(\"body\") }}")) none str!"content/md.html",
  .file str!"index.html" [] (.html (toksOf isolationIndex)) none str!"content/index.html",
  .file str!"post.md" [] (.markdown ⟨[], toksOf str!"{{ plugin1::inc() }}{{ plugin2::inc() }}", [], none⟩) none str!"content/post.md"] str!"content"

def isolationSite (s : Str → Nat) : (Str → Nat) × Res SErr Node :=
  buildTreeS (inContext namedOwner fun _ => incCall) ⟨id⟩ (fun _ _ => none) Config.default [] str!"production" isolationTree s

/-- The pages of a site. -/
def pagesOf (r : (Str → Nat) × Res SErr Node) : List (Str × Bytes) :=
  match r.2 with
  | .ok (.dir _ cs _) => cs.filterMap fun c => match c with
    | .file n b _ _ _ => if b = [] then none else some (n, b)
    | _ => none
  | _ => []

/-- C115. And of whole builds: the page differs when the site is built again. -/
theorem C115_counterexample_rebuild :
    pagesOf (isolationSite fun _ => 0) = [(str!"index.html", bytesOf str!"\n  1 2 3 1 2 4\n"), (str!"post.html", bytesOf str!"00")] ∧
    pagesOf (isolationSite (isolationSite fun _ => 0).1) =
      [(str!"index.html", bytesOf str!"\n  6 7 8 4 5 9\n"), (str!"post.html", bytesOf str!"53")] := by decide +kernel

/-- A site with its files in some order. -/
def listedTree (l : List Node) : Node := .dir str!"content" (.file str!"root.html" [] (.html (toksOf isolationRoot)) none [] :: l) str!"content"

def listedPage (name : Str) : Node :=
  .file name [] (.html (toksOf str!"{{ begin(\"body\") }}{{ plugin1::inc() }}{{ end(\"body\") }}")) none name

def listedSite (l : List Node) : (Str → Nat) × Res SErr Node :=
  buildTreeS (inContext namedOwner fun _ => incCall) ⟨id⟩ (fun _ _ => none) Config.default [] str!"production" (listedTree l) fun _ => 0

/-- C78. With functions that remember things the order in which the file system lists files shows, without any loop: pages
are made in that order (lib.rs:216-219). -/
theorem C78_counterexample_state :
    pagesOf (listedSite [listedPage str!"a.html", listedPage str!"b.html"]) = [(str!"a.html", bytesOf str!"0"), (str!"b.html", bytesOf str!"1")] ∧
    pagesOf (listedSite [listedPage str!"b.html", listedPage str!"a.html"]) = [(str!"b.html", bytesOf str!"0"), (str!"a.html", bytesOf str!"1")] := by
  decide +kernel

/-- Functions of a plugin whose functions have names, so that they can be called in conditionals (see C15). -/
def callLoopPlugins : List PluginFns := [⟨str!"n", [⟨str!"inc", fun _ => .ok ⟨some str!"inc", fun _ => .ok ([], bytesOf str!"n")⟩⟩]⟩]

def callLoopToks (text : Str) : List LTok :=
  match parseHtml Unicode.asciiOnly str!"index.html" callLoopPlugins text with
  | .ok l => l
  | _ => []

def callLoopPage (index root : Str) : PageS :=
  ⟨(baseFrame [] str!"production").addVar str!"l" (.arr [.str str!"a", .str str!"b", .str str!"c"]), baseFrame [] str!"production",
    str!"index.html", callLoopToks index, callLoopToks root⟩

/-- C115. The state goes through loops, conditionals and the root template, one call after another, and it is kept when a
page fails. -/
theorem C115_order :
    shownBy (pagesS isolationCtx (inContext namedOwner fun _ => incCall)
      [callLoopPage str!"{{ begin(\"b\") }}{{ n::inc() }}{{ for($x, $l) }}{{ $x }}{{ n::inc() }}{{ ifdefined($x) }}{{ n::inc() }}{{ else() }}{{ n::inc() }}{{ end(ifdefined) }} {{ end(for) }}{{ ifeq(\"1\", \"1\") }}{{ n::inc() }}{{ end(ifeq) }}{{ end(\"b\") }}"
        str!"{{ n::inc() }} {{ insert(\"b\") }} {{ n::inc() }}",
        callLoopPage str!"{{ n::inc() }}" str!"{{ n::inc() }}"] fun _ => 0) =
      some [bytesOf str!"8 0a12 b34 c56 7 9", bytesOf str!"11"] ∧
    (pageS isolationCtx (inContext namedOwner fun _ => incCall)
      (callLoopPage str!"{{ n::inc() }}{{ for($x, $l) }}{{ n::inc() }}{{ end(for) }}{{ $no }}" str!"") fun _ => 0).1 str!"n" = 4 := by
  decide +kernel

/-- A case for C115_own and C115_frame: the page calls functions of two plugins. -/
example : CallsOnly namedOwner (fun a => a = str!"plugin1" ∨ a = str!"plugin2") isolationPage := by
  intro t ht f hf
  have key : ∀ u ∈ isolationPage.toks ++ isolationPage.root,
      (match u.inner with | .func (.plugin _) => true | _ => false) = true → namedOwner u = str!"plugin1" ∨ namedOwner u = str!"plugin2" := by
    decide +kernel
  exact key t (List.mem_append.2 ht) (by rw [hf])

/-- A case for C115_build. -/
example : TreeCallsOnly namedOwner (fun a => a = str!"plugin1" ∨ a = str!"plugin2") isolationTree := by
  intro t ht f hf
  have key : ∀ u ∈ nodeToks isolationTree,
      (match u.inner with | .func (.plugin _) => true | _ => false) = true → namedOwner u = str!"plugin1" ∨ namedOwner u = str!"plugin2" := by
    decide +kernel
  exact key t ht (by rw [hf])

/-- A case for C115_forgets, C115_build_forgets, C115_again_partial and C115_rebuild_partial: the functions return their
plugin's name. -/
def forgetCall (t : LTok) : Call Nat := fun s sc =>
  (s, match t.inner with
    | .func (.plugin p) => p.exec sc
    | _ => .ok ([], []))

example : ∀ t ∈ nodeToks isolationTree, ∀ f, t.inner = .func (.plugin f) → ∀ s sc, forgetCall t s sc = (s, f.exec sc) := by
  intro t _ f hf s sc
  simp [forgetCall, hf]

example : pagesOf ((fun _ => 0), (buildTreeS forgetCall ⟨id⟩ (fun _ _ => none) Config.default [] str!"production" isolationTree 7).2) =
    [(str!"index.html", bytesOf str!"\n  plugin1 plugin1 plugin1 plugin2 plugin2 plugin1\n"),
      (str!"post.html", bytesOf str!"plugin1plugin2")] := by decide +kernel

/-- A case for C115_hidden_partial: a function that counts its calls and returns its plugin's name. -/
def shyCall (t : LTok) : Call Nat := fun s sc => (s + 1, (forgetCall t s sc).2)

example : let build := buildTreeS shyCall ⟨id⟩ (fun _ _ => none) Config.default [] str!"production" isolationTree
    (build (build 0).1).2 = (build 0).2 :=
  (C115_hidden_partial ⟨id⟩ (fun _ _ => none) Config.default [] str!"production" isolationTree shyCall (fun _ => True)
    (fun _ _ _ _ _ _ _ _ _ => ⟨trivial, rfl⟩) 0 0 trivial trivial).2

example : (buildTreeS shyCall ⟨id⟩ (fun _ _ => none) Config.default [] str!"production" isolationTree 0).1 = 8 := by decide +kernel

/-- Cases for C115_site: a page with `plugin2` between two with `plugin1`. -/
def callingPage (text : Str) : PageS := { isolationPage with toks := toksOf text }

def threePages : List PageS := [callingPage str!"{{ begin(\"body\") }}{{ plugin1::inc() }}{{ end(\"body\") }}",
  callingPage str!"{{ begin(\"body\") }}{{ plugin2::inc() }}{{ end(\"body\") }}",
  callingPage str!"{{ begin(\"body\") }}{{ plugin1::inc() }}{{ end(\"body\") }}"]

example : shownBy (pagesS isolationCtx (inContext namedOwner fun _ => incCall) threePages fun _ => 0) =
    some [bytesOf str!"0", bytesOf str!"0", bytesOf str!"1"] := by decide +kernel

example : ∀ p ∈ threePages, ∀ t ∈ p.toks ++ p.root, (match t.inner with | .func (.plugin _) => true | _ => false) = true →
    (decide (namedOwner t = str!"plugin1") = (p.toks.any fun u => namedOwner u == str!"plugin1")) := by decide +kernel

end Stuart
