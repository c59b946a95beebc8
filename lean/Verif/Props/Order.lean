import Verif.Spec.Order
import Verif.Proof.OrderRead
import Verif.Props.Rebuild
/-
Property C78: the site does not depend on the order in which the system lists directories, as far as that is true.
-/
namespace Stuart
open Spec

/-- C78. Content directories that look the same are built to trees that have the same files and directories at the same
places, in whatever order they are listed, if all loops over directories are orderly: what they go through has at most
one markdown file, or is sorted by a key in which no two agree. (Partial: without this it is not true, see
`C78_counterexample`.) -/
theorem C78_tree_partial (S : Sys) (d d' : Entry) (mode : Str) (s : Project) (hd : ProperDisk d) (hd' : ProperDisk d')
    (hs : SameBelow d d' s.dir) (nm src : Str) (cs os : List Node) (ht : readTree S true s.plugins d s.dir = .ok (.dir nm cs src))
    (ho : Orderly nm cs src) (h : readBuild S d mode s = .ok (.dir nm os src)) :
    ∃ os', readBuild S d' mode s = .ok (.dir nm os' src) ∧ ∀ ds n t, Shows os ds n t ↔ Shows os' ds n t := by
  obtain ⟨os', h1, h2⟩ := readBuild_like hd hd' hs ht ho h
  exact ⟨os', h1, fun ds n t => shows_like h2 ds n t⟩

/-- In the site with these pages and the static and temporary files, no two files with different contents go to the same
place. -/
def NoClashes (cfg : Config) (disk : Entry) (dir : Path) (cs : List Node) : Prop :=
  ∀ ms, (∀ ds nm t, Shows ms ds nm t ↔ Shows cs ds nm t ∨ ∃ n ∈ [str!"static", str!"temp"], InDir disk (dir ++ [n]) ds nm t) →
    NoClash cfg ms

variable {M : Machine}

/-- C78. Two builds of the same project on disks where the content, static and temporary directories look the same leave
output directories that look the same, whatever order the system lists these in, if loops are orderly and no two files
go to the same place. (Partial: without this it is not true, see `C78_counterexample` and `C78_counterexample_clash`;
and the metadata file, which lists the site in the order of the directories, is left out.) -/
theorem C78_site_partial (c c' : Context) (hc : SameProject c c') (s1 s2 s1' s2' : Host) (name src name' src' : Str)
    (cs cs' : List Node) (h : Publishes M c s1 s2 name src cs) (h' : Publishes M c' s1' s2' name' src' cs')
    (hd : ProperDisk s1.world.disk) (hd' : ProperDisk s1'.world.disk)
    (hcontent : SameBelow s1.world.disk s1'.world.disk c.stuart.dir)
    (hstatic : SameBelow s1.world.disk s1'.world.disk (c.dir ++ [str!"static"]))
    (htemp : SameBelow s1.world.disk s1'.world.disk (c.dir ++ [str!"temp"]))
    (hloops : ∀ nm src ts, readTree M.sys true c.stuart.plugins s1.world.disk c.stuart.dir = .ok (.dir nm ts src) → Orderly nm ts src)
    (hclash : NoClashes c.stuart.config s1.world.disk c.dir cs)
    (hout : c.outPath ≠ []) (hn : PlainNames c.stuart.config cs) (hdots : NoDots c.stuart.config s1.world.disk c.dir)
    (r : Path) (hmeta : c.outPath ++ r ≠ c.metaPath) :
    look s2.world.disk (c.outPath ++ r) = look s2'.world.disk (c.outPath ++ r) := by
  -- the pages
  have hpages : ∀ ds n t, Shows cs ds n t ↔ Shows cs' ds n t := by
    obtain ⟨tree, e1, e2⟩ := Res.bind_eq_ok.1 h.content
    obtain ⟨nm, ts, sr, rfl⟩ := readTree_dir e1
    obtain ⟨mid, e3, e4⟩ := buildTree_ok e2
    obtain ⟨cs1, rfl⟩ := preNode_dir e3
    obtain ⟨cs2, e5⟩ := buildNode_dir e4
    cases e5
    obtain ⟨os', k1, k2⟩ := C78_tree_partial M.sys _ _ c.mode c.stuart hd hd' hcontent _ _ ts cs e1 (hloops _ _ _ e1) h.content
    have k3 := h'.content
    have : readBuild M.sys s1'.world.disk c'.mode c'.stuart = readBuild M.sys s1'.world.disk c.mode c.stuart := by
      unfold readBuild
      rw [hc.content, hc.plugins, hc.mode, hc.config]
    rw [this, k1] at k3
    cases k3
    exact k2
  obtain ⟨p, nm, ms, src1, w, a1, a2, a3, a4, a5⟩ := h.steps
  obtain ⟨p', nm', ms', src2, w', b1, b2, b3, b4, b5⟩ := h'.steps
  obtain ⟨_, k1, k2⟩ := mergeDirs_shows hd (Context.built_output h.content).1 (by rw [a1])
  rw [a1, a2] at k1
  cases k1
  obtain ⟨_, j1, j2⟩ := mergeDirs_shows hd' (Context.built_output h'.content).1 (by rw [b1])
  rw [b1, b2] at j1
  cases j1
  -- the whole site
  have hin : ∀ n ∈ [str!"static", str!"temp"], ∀ ds nm t, InDir s1.world.disk (c.dir ++ [n]) ds nm t ↔ InDir s1'.world.disk (c'.dir ++ [n]) ds nm t := by
    intro n hn ds nm t
    have hl : look s1.world.disk (c.dir ++ [n] ++ ds ++ [nm]) = look s1'.world.disk (c.dir ++ [n] ++ ds ++ [nm]) := by
      simp only [List.mem_cons, List.not_mem_nil, or_false] at hn
      rcases hn with rfl | rfl
      · rw [List.append_assoc]; exact hstatic _
      · rw [List.append_assoc]; exact htemp _
    rw [← hc.dir]
    cases t with
    | dir => simp only [InDir, hl]
    | file => simp only [InDir, hl]
  have hall : ∀ ds n t, Shows ms ds n t ↔ Shows ms' ds n t := by
    intro ds n t
    rw [k2, j2, hpages]
    refine or_congr_right ⟨?_, ?_⟩
    · rintro ⟨m, hm, hi⟩; exact ⟨m, hm, (hin m hm _ _ _).1 hi⟩
    · rintro ⟨m, hm, hi⟩; exact ⟨m, hm, (hin m hm _ _ _).2 hi⟩
  have hpl := merged_plain hd k2 hn hdots
  have hpl' : PlainNames c.stuart.config ms' := by
    intro ds n hh
    obtain ⟨n', g1, g2, _⟩ := (hall ds n.name (thing n)).2 ⟨n, hh, rfl, rfl⟩
    rw [← g2]
    exact hpl ds n' g1
  have hpath : c'.outPath = c.outPath := by unfold Context.outPath; rw [hc.dir, hc.output]
  have hmp : c.outPath ++ r ≠ (c'.built M s1'.world.disk).metaPath := by
    show _ ≠ c'.dir ++ _
    rw [← hc.dir]
    exact hmeta
  rw [exportMeta_look (c := c.built M s1.world.disk) a2 a5, exportMeta_look (c := c'.built M s1'.world.disk) b2 b5,
    if_neg (fun k => hmeta k.2), if_neg (fun k => hmp k.2)]
  rw [hpath, ← hc.config] at b4
  obtain ⟨x1, x2, x3, x4, x5⟩ := C40_saved_partial c.stuart.config c.outPath _ _ ms _ hout hpl (by rw [a4]) r
  obtain ⟨y1, y2, y3, y4, y5⟩ := C40_saved_partial c.stuart.config c.outPath _ _ ms' _ hout hpl' (by rw [b4]) r
  rw [a4] at x1 x2 x3 x4 x5
  rw [b4] at y1 y2 y3 y4 y5
  simp only at x1 x2 x3 x4 x5 y1 y2 y3 y4 y5
  have to := fun ds n t => (hall ds n t).1
  have back := fun ds n t => (hall ds n t).2
  cases hx : look w.disk (c.outPath ++ r) with
  | none =>
    cases hy : look w'.disk (c.outPath ++ r) with
    | none => rfl
    | some k =>
      exfalso
      cases k with
      | file b => obtain ⟨b', e⟩ := x2 b (goes_shows back (y1 b hy)); rw [hx] at e; cases e
      | dir => exact x4 ((y3 hy).imp id (goesDir_shows back)) hx
      | special => exact y5 hy
  | some k =>
    cases k with
    | special => exact absurd hx x5
    | file b =>
      have hg := x1 b hx
      obtain ⟨b', e⟩ := y2 b (goes_shows to hg)
      rw [e, hclash ms k2 r b b' hg (goes_shows back (y1 b' e))]
    | dir =>
      have hg := y4 ((x3 hx).imp id (goesDir_shows to))
      cases hy : look w'.disk (c.outPath ++ r) with
      | none => exact absurd hy hg
      | some k =>
        cases k with
        | dir => rfl
        | special => exact absurd hy y5
        | file b => obtain ⟨b', e⟩ := x2 b (goes_shows back (y1 b hy)); rw [hx] at e; cases e

/-! ### Cases -/

theorem toksAll_held {Q : LTok → Prop} {cs : List Node} {ds : List Str} {n : Node} (hn : Holds cs ds n) (h : ToksAll Q cs) :
    ∀ t ∈ programOf n.parsed, Q t := by
  induction hn with
  | here hm => exact toksIn_program (toksAll_mem h _ hm)
  | down hm _ ih =>
    have := toksAll_mem h _ hm
    rw [ToksIn] at this
    exact ih this

theorem orderly_of_loops {nm src : Str} {cs : List Node} (h : ToksAll (LoopOk (.dir nm cs src)) cs) : Orderly nm cs src := by
  intro ds n t f hn ht hf hk p ps d ms s hsl hesc hsrc hr
  refine toksAll_held hn h t ht f hf hk d ms s ?_
  rw [hsrc, getAtPath_reaches _ _ _ _ hsl]
  exact ⟨hesc, hr⟩

/-- A site with two posts, and a root template that names them. The posts are listed in this order. -/
def postsDisk (root : Str) (posts : List (Str × Entry)) : Entry :=
  .dir [(str!"p", .dir [(str!"content", .dir [(str!"index.html", .file []), (str!"md.html", .file []),
    (str!"root.html", .file (bytesOf root)), (str!"q", .dir posts)])])]

def postA : Str × Entry := (str!"a.md", .file (bytesOf str!"---\nn: \"x\"\n---\n"))

def postB : Str × Entry := (str!"b.md", .file (bytesOf str!"---\nn: \"y\"\n---\n"))

theorem look_entry (n : Str) (e e' : Entry) (l l' : List (Str × Entry)) (he : ∀ q, look e q = look e' q) (q : Path) :
    look (.dir (l ++ (n, e) :: l')) q = look (.dir (l ++ (n, e') :: l')) q := by
  cases q with
  | nil => rfl
  | cons m q =>
    rw [look_dir_cons, look_dir_cons]
    induction l with
    | nil =>
      simp only [List.nil_append, findEntry]
      split
      · exact he q
      · rfl
    | cons z l ih =>
      obtain ⟨k, v⟩ := z
      simp only [List.cons_append, findEntry]
      split
      · rfl
      · exact ih

theorem look_last (n : Str) (e e' : Entry) (l : List (Str × Entry)) (he : ∀ q, look e q = look e' q) (q : Path) :
    look (.dir (l ++ [(n, e)])) q = look (.dir (l ++ [(n, e')])) q := look_entry n e e' l [] he q

theorem look_swap (l : List (Str × Entry)) (x y : Str × Entry) (h : x.1 ≠ y.1) (q : Path) :
    look (.dir (l ++ [x, y])) q = look (.dir (l ++ [y, x])) q := by
  cases q with
  | nil => rfl
  | cons m q =>
    obtain ⟨k, v⟩ := x
    obtain ⟨k', v'⟩ := y
    rw [look_dir_cons, look_dir_cons]
    induction l with
    | nil =>
      simp only [List.nil_append, findEntry]
      by_cases h1 : k = m
      · subst h1
        rw [if_pos rfl, if_neg (Ne.symm h), if_pos rfl]
      · simp only [if_neg h1]
    | cons z l ih =>
      obtain ⟨i, u⟩ := z
      simp only [List.cons_append, findEntry]
      split
      · rfl
      · exact ih

theorem postsDisk_look (root : Str) (x y : Str × Entry) (h : x.1 ≠ y.1) (q : Path) :
    look (postsDisk root [x, y]) q = look (postsDisk root [y, x]) q :=
  look_last str!"p" _ _ [] (look_last str!"content" _ _ [] (look_last str!"q" _ _ [_, _, _] (look_swap [] _ _ h))) q

/-- The loop as it stands. -/
def loosePosts : Str := str!"{{ for($v, \"q/\") }}{{ $v.n }}{{ end(for) }}"

/-- The loop, sorted. -/
def sortedPosts : Str := str!"{{ for($v, \"q/\", sortby=$v.n) }}{{ $v.n }}{{ end(for) }}"

def loopToks (sort : Option Str) (a b : Nat) : List LTok :=
  [⟨.func (.for_ ⟨str!"v", str!"q/", .mdDir, none, none, sort, false⟩), str!"/p/content/root.html", 1, 3⟩,
    ⟨.var str!"v.n", str!"/p/content/root.html", 1, a⟩, ⟨.func (.end_ str!"for" false), str!"/p/content/root.html", 1, b⟩]

def postNode (n v : Str) : Node :=
  .file (n ++ str!".md") (bytesOf (str!"---\nn: \"" ++ v ++ str!"\"\n---\n")) (.markdown ⟨[(str!"n", v)], [], [], none⟩) none
    (str!"/p/content/q/" ++ n ++ str!".md")

def readPosts (root : Str) (toks : List LTok) (posts : List (Str × Str)) : List Node :=
  [.file str!"index.html" [] (.html []) none str!"/p/content/index.html",
    .file str!"md.html" [] (.html []) none str!"/p/content/md.html",
    .file str!"root.html" (bytesOf root) (.html toks) none str!"/p/content/root.html",
    .dir str!"q" (posts.map fun e => postNode e.1 e.2) str!"/p/content/q"]

def builtPosts (root out : Str) (posts : List Str) : List Node :=
  [.file str!"index.html" (bytesOf out) .none none str!"/p/content/index.html",
    .file str!"md.html" [] .none none str!"/p/content/md.html",
    .file str!"root.html" (bytesOf root) .none none str!"/p/content/root.html",
    .dir str!"q" (posts.map fun n => .file (n ++ str!".html") (bytesOf out) .none none (str!"/p/content/q/" ++ n ++ str!".md"))
      str!"/p/content/q"]

theorem readPosts_loose : readTree demoSys true [] (postsDisk loosePosts [postA, postB]) [str!"p", str!"content"] =
   .ok (.dir str!"content" (readPosts loosePosts (loopToks none 22 32) [(str!"a", str!"x"), (str!"b", str!"y")]) str!"/p/content") := rfl

theorem readPosts_loose' : readTree demoSys true [] (postsDisk loosePosts [postB, postA]) [str!"p", str!"content"] =
   .ok (.dir str!"content" (readPosts loosePosts (loopToks none 22 32) [(str!"b", str!"y"), (str!"a", str!"x")]) str!"/p/content") := rfl

theorem readBuild_posts {root out : Str} {toks : List LTok} {posts l} (names : List Str)
    (h : readTree demoSys true [] (postsDisk root l) [str!"p", str!"content"] = .ok (.dir str!"content" (readPosts root toks posts) str!"/p/content"))
    (h' : buildTree demoSys.ext demoSys.dateFmt demoContext.stuart.config demoSys.vars str!"production"
      (.dir str!"content" (readPosts root toks posts) str!"/p/content") =
      .ok (.dir str!"content" (builtPosts root out names) str!"/p/content")) :
    readBuild demoSys (postsDisk root l) str!"production" demoContext.stuart =
      .ok (.dir str!"content" (builtPosts root out names) str!"/p/content") := by
  unfold readBuild
  rw [show demoContext.stuart.plugins = [] from rfl, show demoContext.stuart.dir = [str!"p", str!"content"] from rfl, h, Res.bind_ok]
  exact h'

/-- C78. A loop over a directory that is not sorted shows the posts in the order the system lists them. -/
theorem C78_counterexample :
    (∀ q, look (postsDisk loosePosts [postA, postB]) q = look (postsDisk loosePosts [postB, postA]) q) ∧
    readBuild demoSys (postsDisk loosePosts [postA, postB]) str!"production" demoContext.stuart =
      .ok (.dir str!"content" (builtPosts loosePosts str!"xy" [str!"a", str!"b"]) str!"/p/content") ∧
    readBuild demoSys (postsDisk loosePosts [postB, postA]) str!"production" demoContext.stuart =
      .ok (.dir str!"content" (builtPosts loosePosts str!"yx" [str!"b", str!"a"]) str!"/p/content") :=
  ⟨postsDisk_look _ _ _ (by decide), readBuild_posts _ readPosts_loose rfl, readBuild_posts _ readPosts_loose' rfl⟩

theorem readPosts_sorted : readTree demoSys true [] (postsDisk sortedPosts [postA, postB]) [str!"p", str!"content"] =
   .ok (.dir str!"content" (readPosts sortedPosts (loopToks (some str!"v.n") 35 45) [(str!"a", str!"x"), (str!"b", str!"y")]) str!"/p/content") := rfl

def midPosts (root : Str) (toks : List LTok) : Node :=
  .dir str!"content" [.file str!"index.html" [] (.html []) none str!"/p/content/index.html",
    .file str!"md.html" [] (.html []) none str!"/p/content/md.html",
    .file str!"root.html" (bytesOf root) (.html toks) none str!"/p/content/root.html",
    .dir str!"q" [
      .file str!"a.md" (bytesOf str!"---\nn: \"x\"\n---\n") (.markdown ⟨[(str!"n", str!"x")], [], [], some (demoExt.mdToHtml [])⟩) none str!"/p/content/q/a.md",
      .file str!"b.md" (bytesOf str!"---\nn: \"y\"\n---\n") (.markdown ⟨[(str!"n", str!"y")], [], [], some (demoExt.mdToHtml [])⟩) none str!"/p/content/q/b.md"]
      str!"/p/content/q"] str!"/p/content"

theorem sorted_pre : preNode demoSys.ext ⟨(.dir str!"content" (readPosts sortedPosts (loopToks (some str!"v.n") 35 45) [(str!"a", str!"x"), (str!"b", str!"y")]) str!"/p/content"), demoSys.dateFmt⟩
   (baseFrame [] str!"production") (.dir str!"content" (readPosts sortedPosts (loopToks (some str!"v.n") 35 45) [(str!"a", str!"x"), (str!"b", str!"y")]) str!"/p/content")
    = .ok (midPosts sortedPosts (loopToks (some str!"v.n") 35 45)) := rfl

def postValue (v : Str) : Value := .obj [(str!"n", .str v), (str!"content", .str (demoExt.mdToHtml [])), (str!"markdown", .str [])]

theorem sorted_arrange : arrange ⟨str!"v", str!"q/", .mdDir, none, none, some str!"v.n", false⟩ [postValue str!"x", postValue str!"y"] =
    [postValue str!"x", postValue str!"y"] := by
  rw [arrange_visited]
  rfl

theorem sorted_run : runToks ⟨midPosts sortedPosts (loopToks (some str!"v.n") 35 45), demoSys.dateFmt⟩ (loopToks (some str!"v.n") 35 45)
    ⟨[baseFrame [] str!"production"], []⟩ = .ok ⟨[{ baseFrame [] str!"production" with out := bytesOf str!"xy" }], []⟩ := by
  unfold runToks
  unfold loopToks
  rw [List.length_cons, runGo, execTok]
  have : forItems ⟨midPosts sortedPosts (loopToks (some str!"v.n") 35 45), demoSys.dateFmt⟩
    ⟨str!"v", str!"q/", .mdDir, none, none, some str!"v.n", false⟩ [baseFrame [] str!"production"] = .ok [postValue str!"x", postValue str!"y"] := rfl
  simp only
  unfold loopToks at this
  rw [this, Res.mapErr_ok, Res.bind_ok, sorted_arrange]
  rfl

theorem sorted_build : buildNode ⟨⟨midPosts sortedPosts (loopToks (some str!"v.n") 35 45), demoSys.dateFmt⟩, baseFrame [] str!"production", Config.default⟩
    (updateEnv ⟨none, none⟩ ((midPosts sortedPosts (loopToks (some str!"v.n") 35 45)).children.getD []))
    (midPosts sortedPosts (loopToks (some str!"v.n") 35 45)) =
    .ok (.dir str!"content" (builtPosts sortedPosts str!"xy" [str!"a", str!"b"]) str!"/p/content") := by
  have hrun := sorted_run
  have hr : ∀ first src, first.name = str!"base" → renderOn ⟨midPosts sortedPosts (loopToks (some str!"v.n") 35 45), demoSys.dateFmt⟩ first (baseFrame [] str!"production") src []
      (loopToks (some str!"v.n") 35 45) = .ok (bytesOf str!"xy") := by
    intro first src hf
    unfold renderOn
    rw [show runToks ⟨midPosts sortedPosts (loopToks (some str!"v.n") 35 45), demoSys.dateFmt⟩ [] ⟨[first], []⟩ = .ok ⟨[first], []⟩ from rfl]
    simp only [Res.bind_ok, hf, beq_self_eq_true, if_true]
    rw [hrun]
    rfl
  generalize hcx : (⟨midPosts sortedPosts (loopToks (some str!"v.n") 35 45), demoSys.dateFmt⟩ : Ctx) = cx at hr ⊢
  generalize htoks : loopToks (some str!"v.n") 35 45 = toks at hr ⊢
  have h1 := hr (baseFrame [] str!"production") str!"/p/content/index.html" rfl
  have h2 := hr ((baseFrame [] str!"production").addVar str!"self" (postValue str!"x")) str!"/p/content/q/a.md" rfl
  have h3 := hr ((baseFrame [] str!"production").addVar str!"self" (postValue str!"y")) str!"/p/content/q/b.md" rfl
  have k1 : buildNode ⟨cx, baseFrame [] str!"production", Config.default⟩ ⟨some toks, some []⟩
      (.file str!"index.html" [] (.html []) none str!"/p/content/index.html") =
      .ok (.file str!"index.html" (bytesOf str!"xy") .none none str!"/p/content/index.html") := by
    rw [buildNode, processFile, processParsed, if_pos (by decide)]
    simp only [processHtml, h1]
    rfl
  have k2 : buildNode ⟨cx, baseFrame [] str!"production", Config.default⟩ ⟨some toks, some []⟩
      (.file str!"a.md" (bytesOf str!"---\nn: \"x\"\n---\n") (.markdown ⟨[(str!"n", str!"x")], [], [], some (demoExt.mdToHtml [])⟩) none str!"/p/content/q/a.md") =
      .ok (.file str!"a.html" (bytesOf str!"xy") .none none str!"/p/content/q/a.md") := by
    rw [buildNode, processFile, processParsed, if_pos (by decide)]
    simp only [processMd]
    rw [show (ParsedMd.toValue ⟨[(str!"n", str!"x")], [], [], some (demoExt.mdToHtml [])⟩ : Res PErr Value) = .ok (postValue str!"x") from rfl, Res.bind_ok, h2]
    rfl
  have k3 : buildNode ⟨cx, baseFrame [] str!"production", Config.default⟩ ⟨some toks, some []⟩
      (.file str!"b.md" (bytesOf str!"---\nn: \"y\"\n---\n") (.markdown ⟨[(str!"n", str!"y")], [], [], some (demoExt.mdToHtml [])⟩) none str!"/p/content/q/b.md") =
      .ok (.file str!"b.html" (bytesOf str!"xy") .none none str!"/p/content/q/b.md") := by
    rw [buildNode, processFile, processParsed, if_pos (by decide)]
    simp only [processMd]
    rw [show (ParsedMd.toValue ⟨[(str!"n", str!"y")], [], [], some (demoExt.mdToHtml [])⟩ : Res PErr Value) = .ok (postValue str!"y") from rfl, Res.bind_ok, h3]
    rfl
  have hq : buildNode ⟨cx, baseFrame [] str!"production", Config.default⟩ ⟨some toks, some []⟩ (.dir str!"q" [
      .file str!"a.md" (bytesOf str!"---\nn: \"x\"\n---\n") (.markdown ⟨[(str!"n", str!"x")], [], [], some (demoExt.mdToHtml [])⟩) none str!"/p/content/q/a.md",
      .file str!"b.md" (bytesOf str!"---\nn: \"y\"\n---\n") (.markdown ⟨[(str!"n", str!"y")], [], [], some (demoExt.mdToHtml [])⟩) none str!"/p/content/q/b.md"]
      str!"/p/content/q") = .ok (.dir str!"q" [.file str!"a.html" (bytesOf str!"xy") .none none str!"/p/content/q/a.md",
        .file str!"b.html" (bytesOf str!"xy") .none none str!"/p/content/q/b.md"] str!"/p/content/q") :=
    buildNode_dir_ok.2 ⟨_, buildNodes_cons_ok.2 ⟨_, _, k2, buildNodes_cons_ok.2 ⟨_, _, k3, rfl, rfl⟩, rfl⟩, rfl⟩
  exact buildNode_dir_ok.2 ⟨_, buildNodes_cons_ok.2 ⟨_, _, k1, buildNodes_cons_ok.2 ⟨_, _, rfl, buildNodes_cons_ok.2 ⟨_, _, rfl,
    buildNodes_cons_ok.2 ⟨_, _, hq, rfl, rfl⟩, rfl⟩, rfl⟩, rfl⟩, rfl⟩

theorem sorted_readBuild : readBuild demoSys (postsDisk sortedPosts [postA, postB]) str!"production" demoContext.stuart =
    .ok (.dir str!"content" (builtPosts sortedPosts str!"xy" [str!"a", str!"b"]) str!"/p/content") := by
  unfold readBuild
  rw [show demoContext.stuart.plugins = [] from rfl, show demoContext.stuart.dir = [str!"p", str!"content"] from rfl, readPosts_sorted, Res.bind_ok, buildTree]
  exact Res.bind_eq_ok.2 ⟨_, sorted_pre, sorted_build⟩

theorem sorted_orderly : Orderly str!"content" (readPosts sortedPosts (loopToks (some str!"v.n") 35 45) [(str!"a", str!"x"), (str!"b", str!"y")])
    str!"/p/content" := by
  refine orderly_of_loops ?_
  simp only [readPosts, loopToks, postNode, List.map_cons, List.map_nil, ToksAll, ToksIn, programOf, List.mem_cons, List.not_mem_nil,
    or_false, forall_eq_or_imp, forall_eq, false_imp_iff, implies_true, and_true, true_and]
  refine ⟨?_, ?_, ?_⟩
  rotate_left
  · intro f hf; cases hf
  · intro f hf; cases hf
  intro f hf _ d ms s hg
  cases hf
  cases hg
  exact .inr ⟨str!"v", str!"n", ⟨by decide, by decide⟩, rfl, by decide, by decide, by decide⟩

/-- `C78_tree_partial` for the sorted loop: with the posts listed the other way round the same pages are built. -/
example : ∃ os', readBuild demoSys (postsDisk sortedPosts [postB, postA]) str!"production" demoContext.stuart =
      .ok (.dir str!"content" os' str!"/p/content") ∧
    Shows os' [] str!"index.html" (.file (bytesOf str!"xy") .none none str!"/p/content/index.html") := by
  have hp : ∀ x y : Str × Entry, x ∈ [postA, postB] → y ∈ [postA, postB] → x.1 ≠ y.1 → ProperDisk (postsDisk sortedPosts [x, y]) := by
    simp only [List.mem_cons, List.not_mem_nil, or_false]
    rintro x y (rfl | rfl) (rfl | rfl) hne
    · exact absurd rfl hne
    · unfold postsDisk postA postB; proper_disk
    · unfold postsDisk postA postB; proper_disk
    · exact absurd rfl hne
  obtain ⟨os', h1, h2⟩ := C78_tree_partial demoSys _ _ _ demoContext.stuart (hp postA postB (by simp) (by simp) (by decide))
    (hp postB postA (by simp) (by simp) (by decide)) (fun q => postsDisk_look _ _ _ (by decide) _) _ _ _ _ readPosts_sorted sorted_orderly
    sorted_readBuild
  exact ⟨os', h1, (h2 _ _ _).1 ⟨_, .here (.head _), rfl, rfl⟩⟩

/-- A site whose content directory has a root template that shows a section, and these. -/
def sectionDisk (l : List (Str × Entry)) : Entry :=
  .dir [(str!"p", .dir [(str!"content", .dir ((str!"root.html", .file (bytesOf str!"{{ insert(\"m\") }}")) :: l))])]

def sectionPage (n : Str) : Entry := .file (bytesOf (str!"{{ begin(\"m\") }}" ++ n ++ str!"{{ end(\"m\") }}"))

def clashPage : Str × Entry := (str!"a.html", sectionPage str!"1")

def clashDir : Str × Entry := (str!"a", .dir [(str!"index.html", sectionPage str!"2")])

/-- C78. When two pages go to the same place, the order decides which is seen. -/
theorem C78_counterexample_clash :
    (∀ q, look (sectionDisk [clashPage, clashDir]) q = look (sectionDisk [clashDir, clashPage]) q) ∧
    (let r := demoContext.build idleMachine ⟨⟨sectionDisk [clashPage, clashDir], []⟩, []⟩
     r.2.2 = .ok () ∧ look r.2.1.world.disk [str!"p", str!"dist", str!"a", str!"index.html"] = some (.file (bytesOf str!"2"))) ∧
    (let r := demoContext.build idleMachine ⟨⟨sectionDisk [clashDir, clashPage], []⟩, []⟩
     r.2.2 = .ok () ∧ look r.2.1.world.disk [str!"p", str!"dist", str!"a", str!"index.html"] = some (.file (bytesOf str!"1"))) := by
  refine ⟨?_, by decide +kernel, by decide +kernel⟩
  exact look_last str!"p" _ _ [] (look_last str!"content" _ _ [] (look_swap [_] _ _ (by decide)))

/-- A site with two pages and two static files, listed in this order. -/
def pairDisk (l l' : List (Str × Entry)) : Entry :=
  .dir [(str!"p", .dir [(str!"content", .dir l), (str!"static", .dir l')])]

def pairPages : List (Str × Entry) := [(str!"a.txt", .file [1]), (str!"b.txt", .file [2])]

def pairStatic : List (Str × Entry) := [(str!"s.css", .file [3]), (str!"t.css", .file [4])]

theorem pairDisk_look (q : Path) : look (pairDisk pairPages pairStatic) q = look (pairDisk pairPages.reverse pairStatic.reverse) q := by
  refine look_last str!"p" _ _ [] (fun q => ?_) q
  refine (look_last str!"static" _ (.dir pairStatic.reverse) [_] (look_swap [] _ _ (by decide)) q).trans ?_
  exact look_entry str!"content" _ _ [] [_] (look_swap [] _ _ (by decide)) q

def pairTree : List Node := [.file str!"a.txt" [1] .none none str!"/p/content/a.txt", .file str!"b.txt" [2] .none none str!"/p/content/b.txt"]

def pairAfter (l l' : List (Str × Entry)) : Host :=
  ((demoContext.built idleMachine (pairDisk l l')).publish idleMachine ⟨⟨pairDisk l l', []⟩, []⟩).2.1

theorem pair_publishes : Publishes idleMachine demoContext ⟨⟨pairDisk pairPages pairStatic, []⟩, []⟩ (pairAfter pairPages pairStatic)
    str!"content" str!"/p/content" pairTree := ⟨rfl, rfl⟩

theorem pair_publishes' : Publishes idleMachine demoContext ⟨⟨pairDisk pairPages.reverse pairStatic.reverse, []⟩, []⟩
    (pairAfter pairPages.reverse pairStatic.reverse) str!"content" str!"/p/content" pairTree.reverse := ⟨rfl, rfl⟩

/-- Its files. -/
theorem pair_shows {ms : List Node}
    (hm : ∀ ds nm t, Shows ms ds nm t ↔ Shows pairTree ds nm t ∨
      ∃ n ∈ [str!"static", str!"temp"], InDir (pairDisk pairPages pairStatic) ([str!"p"] ++ [n]) ds nm t)
    {ds : List Str} {nm : Str} {b : Bytes} {p : Parsed} {m : Option Value} {src : Str}
    (h : Holds ms ds (.file nm b p m src)) :
    ds = [] ∧ (nm, b) ∈ [(str!"a.txt", [1]), (str!"b.txt", [2]), (str!"s.css", [3]), (str!"t.css", [4])] := by
  rcases (hm ds nm _).1 ⟨_, h, rfl, rfl⟩ with ⟨n, h1, h2, h3⟩ | ⟨n, h1, h2⟩
  · cases h1 with
    | here hn =>
      refine ⟨rfl, ?_⟩
      simp only [pairTree, List.mem_cons, List.not_mem_nil, or_false] at hn
      rcases hn with rfl | rfl <;> cases h2 <;> cases h3 <;> decide
    | down hn _ =>
      simp only [pairTree, List.mem_cons, List.not_mem_nil, or_false] at hn
      rcases hn with h | h <;> cases h
  · have h2 := h2.1
    simp only [List.mem_cons, List.not_mem_nil, or_false] at h1
    rcases h1 with rfl | rfl
    · replace h2 : look (.dir pairStatic) (ds ++ [nm]) = some (.file b) := h2
      cases ds with
      | nil =>
        refine ⟨rfl, ?_⟩
        rw [List.nil_append, look_dir_cons] at h2
        simp only [pairStatic, findEntry] at h2
        split at h2
        · rename_i e
          cases h2; subst e; decide
        · split at h2
          · rename_i e
            cases h2; subst e; decide
          · cases h2
      | cons d ds =>
        rw [List.cons_append, look_dir_cons] at h2
        simp only [pairStatic, findEntry] at h2
        split at h2
        · cases ds <;> cases h2
        · split at h2
          · cases ds <;> cases h2
          · cases h2
    · cases h2

theorem pair_noClashes : NoClashes demoContext.stuart.config (pairDisk pairPages pairStatic) demoContext.dir pairTree := by
  intro ms hm
  have hg : ∀ r b, Goes demoContext.stuart.config ms r b →
      (r, b) ∈ [([str!"a.txt"], [1]), ([str!"b.txt"], [2]), ([str!"s.css"], [3]), ([str!"t.css"], ([4] : Bytes))] := by
    intro r b h
    cases h with
    | plain hh _ _ =>
      obtain ⟨rfl, hs⟩ := pair_shows hm hh
      simp only [List.mem_cons, List.not_mem_nil, or_false, Prod.mk.injEq] at hs
      rcases hs with ⟨rfl, rfl⟩ | ⟨rfl, rfl⟩ | ⟨rfl, rfl⟩ | ⟨rfl, rfl⟩ <;> decide
    | page hh _ ho =>
      obtain ⟨rfl, hs⟩ := pair_shows hm hh
      have hl := congrArg List.getLast? ho.2.1
      rw [List.getLast?_append] at hl
      simp only [List.mem_cons, List.not_mem_nil, or_false, Prod.mk.injEq] at hs
      rcases hs with ⟨rfl, rfl⟩ | ⟨rfl, rfl⟩ | ⟨rfl, rfl⟩ | ⟨rfl, rfl⟩ <;> cases hl
  intro r b b' h h'
  have h := hg r b h
  have h' := hg r b' h'
  simp only [List.mem_cons, List.not_mem_nil, or_false, Prod.mk.injEq] at h h'
  rcases h with ⟨rfl, rfl⟩ | ⟨rfl, rfl⟩ | ⟨rfl, rfl⟩ | ⟨rfl, rfl⟩ <;>
    rcases h' with ⟨h, rfl⟩ | ⟨h, rfl⟩ | ⟨h, rfl⟩ | ⟨h, rfl⟩ <;> first | rfl | cases h

/-- `C78_site_partial` for it. -/
example (r : Path) : look (pairAfter pairPages pairStatic).world.disk (demoContext.outPath ++ r) =
    look (pairAfter pairPages.reverse pairStatic.reverse).world.disk (demoContext.outPath ++ r) := by
  refine C78_site_partial demoContext demoContext ⟨rfl, rfl, rfl, rfl, rfl, rfl⟩ _ _ _ _ _ _ _ _ _ _ pair_publishes pair_publishes'
    (by unfold pairDisk pairPages pairStatic; proper_disk)
    (by
      show ProperDisk (pairDisk [(str!"b.txt", .file [2]), (str!"a.txt", .file [1])] [(str!"t.css", .file [4]), (str!"s.css", .file [3])])
      unfold pairDisk; proper_disk)
    (fun q => pairDisk_look _) (fun q => pairDisk_look _) (fun q => pairDisk_look _) ?_ ?_ (by decide) (by unfold pairTree; plain_names)
    ?_ r ?_
  · intro nm src ts h
    cases h
    refine orderly_of_loops ?_
    simp only [ToksAll, ToksIn, programOf, List.not_mem_nil, false_imp_iff, implies_true, and_self]
  · exact pair_noClashes
  · refine noDots_of_lacks ?_
    simp only [List.mem_cons, List.not_mem_nil, or_false, forall_eq_or_imp, forall_eq]
    refine ⟨fun e h => ?_, fun e h => by cases h⟩
    cases h
    unfold pairStatic
    lacks_name
  · intro h
    have := congrArg List.head? (List.append_cancel_left (as := [str!"p"]) (show [str!"p"] ++ (str!"dist" :: r) = [str!"p"] ++ _ from h))
    cases this

end Stuart
