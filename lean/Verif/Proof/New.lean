import Verif.Proof.Publish
import Verif.Proof.Template
import Verif.Proof.Utf8
import Verif.Spec.New
/-
Creating a site and building it.
-/
namespace Stuart
open Spec

/-! ### Changes below a place that has just been made -/

theorem at_put_below {d e : Entry} {p : Path} (q : Path) (h : d.isDirAt p.dropLast = true) (hp : p ≠ []) :
    (d.put p (some e)).at (p ++ q) = e.at q := by
  rw [isDirAt_iff] at h
  induction p generalizing d with
  | nil => exact absurd rfl hp
  | cons n p ih =>
    cases d with
    | dir l =>
      cases p with
      | nil => simp only [Entry.put, List.cons_append, List.nil_append, Entry.at, findEntry_set_same]
      | cons m p =>
        rw [List.dropLast_cons_cons, look_dir_cons] at h
        cases hf : findEntry n l with
        | none => rw [hf] at h; cases h
        | some x =>
          rw [hf] at h
          simp only [Entry.put, hf, List.cons_append, Entry.at, findEntry_set_same]
          exact ih h (by simp)
    | file b =>
      cases p with
      | nil => rw [show ([n] : Path).dropLast = [] from rfl, look_nil] at h; cases h
      | cons m p => rw [List.dropLast_cons_cons, look_file_cons] at h; cases h
    | special =>
      cases p with
      | nil => rw [show ([n] : Path).dropLast = [] from rfl, look_nil] at h; cases h
      | cons m p => rw [List.dropLast_cons_cons, look_special_cons] at h; cases h

theorem setEntryAt_twice (n : Str) (e : Entry) (v : Option Entry) (l : List (Str × Entry)) :
    setEntryAt n v (setEntryAt n (some e) l) = setEntryAt n v l := by
  induction l with
  | nil => cases v <;> simp [setEntryAt]
  | cons x l ih =>
    obtain ⟨m, x⟩ := x
    by_cases hm : m = n
    · subst hm; cases v <;> simp [setEntryAt]
    · simp only [setEntryAt, if_neg hm, ih]

theorem put_put_below {d e : Entry} {p q : Path} {v : Option Entry} (h : d.isDirAt p.dropLast = true) (hp : p ≠ []) (hq : q ≠ []) :
    (d.put p (some e)).put (p ++ q) v = d.put p (some (e.put q v)) := by
  rw [isDirAt_iff] at h
  induction p generalizing d with
  | nil => exact absurd rfl hp
  | cons n p ih =>
    cases d with
    | dir l =>
      cases p with
      | nil =>
        obtain ⟨k, q, rfl⟩ := List.exists_cons_of_ne_nil hq
        simp only [Entry.put, List.cons_append, List.nil_append, findEntry_set_same, setEntryAt_twice]
      | cons m p =>
        rw [List.dropLast_cons_cons, look_dir_cons] at h
        cases hf : findEntry n l with
        | none => rw [hf] at h; cases h
        | some x =>
          rw [hf] at h
          simp only [Entry.put, hf, List.cons_append, findEntry_set_same, setEntryAt_twice]
          rw [show (m :: (p ++ q)) = (m :: p) ++ q from rfl, ih h (by simp)]
    | file b =>
      cases p with
      | nil => rw [show ([n] : Path).dropLast = [] from rfl, look_nil] at h; cases h
      | cons m p => rw [List.dropLast_cons_cons, look_file_cons] at h; cases h
    | special =>
      cases p with
      | nil => rw [show ([n] : Path).dropLast = [] from rfl, look_nil] at h; cases h
      | cons m p => rw [List.dropLast_cons_cons, look_special_cons] at h; cases h

/-- The same change below a place. -/
def Op.under (p : Path) : Op → Op
  | .clear q => .clear (p ++ q)
  | .mkdir q => .mkdir (p ++ q)
  | .mkdirTolerant q => .mkdirTolerant (p ++ q)
  | .write q b => .write (p ++ q) b
  | .removeFile q => .removeFile (p ++ q)

theorem Op.under_target (p : Path) (o : Op) : (o.under p).target = p ++ o.target := by cases o <;> rfl

theorem isDirAt_put_below {d e : Entry} {p : Path} (q : Path) (h : d.isDirAt p.dropLast = true) (hp : p ≠ []) :
    (d.put p (some e)).isDirAt (p ++ q) = e.isDirAt q := by
  simp only [Entry.isDirAt, at_put_below q h hp]

theorem Op.under_apply {d e : Entry} {p : Path} {o : Op} (h : d.isDirAt p.dropLast = true) (hp : p ≠ []) (ho : o.target ≠ []) :
    (o.under p).apply (d.put p (some e)) = (o.apply e).map fun e' => d.put p (some e') := by
  cases o with
  | clear q =>
    simp only [Op.target] at ho
    simp only [Op.under, Op.apply, at_put_below q h hp, if_neg ho, put_put_below h hp ho]
    rw [if_neg (by simp [hp])]
    split <;> rfl
  | mkdir q =>
    simp only [Op.target] at ho
    simp only [Op.under, Op.apply, at_put_below q h hp, List.dropLast_append_of_ne_nil ho, isDirAt_put_below _ h hp,
      put_put_below h hp ho]
    split
    · rfl
    · split <;> rfl
  | mkdirTolerant q =>
    simp only [Op.target] at ho
    simp only [Op.under, Op.apply, at_put_below q h hp, List.dropLast_append_of_ne_nil ho, isDirAt_put_below _ h hp,
      put_put_below h hp ho]
    split
    · rfl
    · split <;> rfl
  | write q b =>
    simp only [Op.target] at ho
    simp only [Op.under, Op.apply, at_put_below q h hp, List.dropLast_append_of_ne_nil ho, isDirAt_put_below _ h hp,
      put_put_below h hp ho]
    split
    · rfl
    · rfl
    · split <;> rfl
  | removeFile q =>
    simp only [Op.target] at ho
    simp only [Op.under, Op.apply, at_put_below q h hp, put_put_below h hp ho]
    split <;> rfl

theorem runOps_under {d : Entry} {p : Path} (h : d.isDirAt p.dropLast = true) (hp : p ≠ []) {os : List Op}
    (ho : ∀ o ∈ os, o.target ≠ []) (e : Entry) (fs : List (Option (Option Entry))) :
    runOps (os.map (Op.under p)) ⟨d.put p (some e), fs⟩ =
      (⟨d.put p (some (runOps os ⟨e, fs⟩).1.disk), (runOps os ⟨e, fs⟩).1.faults⟩, (runOps os ⟨e, fs⟩).2) := by
  induction os generalizing e fs with
  | nil => rfl
  | cons o os ih =>
    have h1 := ho o (by simp)
    have h2 : ∀ o ∈ os, o.target ≠ [] := fun o hm => ho o (by simp [hm])
    have key : World.step ⟨d.put p (some e), fs⟩ (o.under p) =
        (⟨d.put p (some (World.step ⟨e, fs⟩ o).1.disk), (World.step ⟨e, fs⟩ o).1.faults⟩, (World.step ⟨e, fs⟩ o).2) := by
      have hn : ∀ fs', (match (o.under p).apply (d.put p (some e)) with
          | some d => ((⟨d, fs'⟩ : World), true) | none => (⟨d.put p (some e), fs'⟩, false)) =
          (⟨d.put p (some (match o.apply e with | some d => ((⟨d, fs'⟩ : World), true) | none => (⟨e, fs'⟩, false)).1.disk), fs'⟩,
            (match o.apply e with | some d => ((⟨d, fs'⟩ : World), true) | none => (⟨e, fs'⟩, false)).2) := by
        intro fs'
        rw [Op.under_apply h hp h1]
        cases o.apply e <;> rfl
      cases fs with
      | nil =>
        simp only [World.step, List.tail_nil]
        rw [Op.under_apply h hp h1]
        cases o.apply e <;> rfl
      | cons f fs =>
        cases f with
        | none =>
          simp only [World.step, List.tail_cons]
          rw [Op.under_apply h hp h1]
          cases o.apply e <;> rfl
        | some r =>
          simp only [World.step, Op.under_target, put_put_below h hp h1]
    simp only [List.map_cons, runOps, key]
    generalize World.step ⟨e, fs⟩ o = r
    obtain ⟨⟨e', fs'⟩, b⟩ := r
    cases b with
    | true => simp only [if_true]; exact ih h2 e' fs'
    | false => rfl

/-! ### A new site -/

theorem newOps_under (G : GitTool) (png : Bytes) (p : Path) (name : Str) :
    newOps G png p name = .mkdir p :: ([Op.mkdir [str!"content"], .mkdir [str!"static"],
      .write [str!"stuart.toml"] (bytesOf (newManifest G name)),
      .write [str!"content", str!"index.html"] (bytesOf defaultIndex),
      .write [str!"content", str!"root.html"] (bytesOf defaultRoot),
      .write [str!"static", str!"lightning.png"] png,
      .write [str!"static", str!"style.css"] (bytesOf defaultStyle)].map (Op.under p)) := by
  rfl

theorem newOps_run (G : GitTool) (png : Bytes) {p : Path} (name : Str) {d : Entry} (hp : p ≠ [])
    (h : look d p.dropLast = some .dir) (hn : look d p = none) :
    runOps (newOps G png p name) ⟨d, []⟩ =
      (⟨d.put p (some (newSite (bytesOf (newManifest G name)) png)), []⟩, .ok ()) := by
  have hd : d.isDirAt p.dropLast = true := isDirAt_iff.2 h
  rw [newOps_under, runOps]
  have hs : World.step ⟨d, []⟩ (.mkdir p) = (⟨d.put p (some (.dir [])), []⟩, true) := by
    simp only [World.step, Op.apply, at_none_iff.2 hn, hd, if_true, List.tail_nil]
  rw [hs]
  simp only [if_true]
  rw [runOps_under hd hp (by simp [Op.target])]
  rfl

theorem joinPath_dot {cwd : Path} {name : Str} (h : PlainName name) : joinPath cwd (str!"./" ++ name) = cwd ++ [name] := by
  obtain ⟨h1, h2, h3, h4⟩ := h
  have h2' : name ≠ ['.'] := h2
  have h3' : name ≠ ['.', '.'] := h3
  have hs : splitOn '/' (str!"./" ++ name) = [['.'], name] := by
    simp [splitOn, splitOn_none h4]
  unfold joinPath components
  rw [hs]
  simp [restComps, h1, h2', h3']

/-! ### The templates of a new site -/

theorem alnum_of_ascii (U : Unicode) {c : Char} (h : asciiAlnum c = true) : U.alnum c = true := by
  rw [U.ascii c, h]
  simp only [asciiAlnum, Bool.or_eq_true, Bool.and_eq_true, decide_eq_true_eq] at h
  omega

theorem blank_nil : Blank [] := by simp [Blank]
theorem blank_space : Blank str!" " := by unfold Blank; decide

/-- A call of a function with one string, as the default templates have it. -/
def plainCall (f s : Str) : Call := ⟨f, [], [⟨[], none, .str s, []⟩], []⟩

theorem plainCall_wf (U : Unicode) {f s : Str} (h : f ≠ [] ∧ ∀ c ∈ f, asciiAlnum c = true) (hs : '"' ∉ s) : (plainCall f s).WF U := by
  refine ⟨⟨h.1, fun c hc => .inl (alnum_of_ascii U (h.2 c hc))⟩, blank_nil, blank_nil, ?_, ?_⟩
  · intro a ha
    simp only [plainCall, List.mem_cons, List.not_mem_nil, or_false] at ha
    subst ha
    exact ⟨blank_nil, blank_nil, hs, by simp⟩
  · simp [PosFirst, plainCall]

def indexTemplate : Template :=
  { items :=
    [ (Text.plain [], ⟨str!" ", .call (plainCall str!"begin" str!"head") (.begin_ str!"head" true), str!" "⟩),
      (Text.plain str!"\n<title>Stuart</title>\n", ⟨str!" ", .call (plainCall str!"end" str!"head") (.end_ str!"head" true), str!" "⟩),
      (Text.plain str!"\n\n", ⟨str!" ", .call (plainCall str!"begin" str!"body") (.begin_ str!"body" true), str!" "⟩),
      (Text.plain str!"\n<img src=\"/lightning.png\" width=250>\n\n<h2>Welcome to Stuart!</h2>\n\n<p>\n  Edit <code>content/index.html</code> and save to reload.\n</p>\n",
        ⟨str!" ", .call (plainCall str!"end" str!"body") (.end_ str!"body" true), str!" "⟩) ]
    last := Text.plain [] }

def rootTemplate : Template :=
  { items :=
    [ (Text.plain str!"<html lang=\"en\">\n  \n<head>\n  <meta charset=\"UTF-8\">\n  <meta http-equiv=\"X-UA-Compatible\" content=\"IE=edge\">\n  <meta name=\"viewport\" content=\"width=device-width, initial-scale=1.0\">\n  <link rel=\"stylesheet\" href=\"style.css\">\n  \n  ",
        ⟨str!" ", .call (plainCall str!"insert" str!"head") (.insert str!"head"), str!" "⟩),
      (Text.plain str!"\n</head>\n\n<body>\n  <main>\n    ", ⟨str!" ", .call (plainCall str!"insert" str!"body") (.insert str!"body"), str!" "⟩) ]
    last := Text.plain str!"\n  </main>\n</body>\n\n</html>" }

theorem indexTemplate_src : indexTemplate.src = defaultIndex := by rfl
set_option maxRecDepth 10000 in
theorem rootTemplate_src : rootTemplate.src = defaultRoot := by rfl

theorem tag_wf (U : Unicode) (ps : List PluginFns) {f s : Str} {g : Fn} (h : f ≠ [] ∧ ∀ c ∈ f, asciiAlnum c = true) (hs : '"' ∉ s)
    (hd : BuiltinCall g ⟨f, [.str s], []⟩) : Tag.WF U ps ⟨str!" ", .call (plainCall f s) g, str!" "⟩ :=
  ⟨blank_space, blank_space, plainCall_wf U h hs, .builtin hd⟩

set_option maxRecDepth 20000 in
theorem indexTemplate_wf (U : Unicode) (ps : List PluginFns) : indexTemplate.WF U ps := by
  refine ⟨?_, ⟨by unfold NoOpen; decide, fun _ h => absurd h List.not_mem_nil⟩⟩
  intro i hi
  simp only [indexTemplate, List.mem_cons, List.not_mem_nil, or_false] at hi
  rcases hi with rfl | rfl | rfl | rfl
  · exact ⟨⟨by unfold NoOpen; decide, fun _ h => absurd h List.not_mem_nil⟩, by unfold Glue; decide, tag_wf U ps (by decide) (by decide) (.beginS _)⟩
  · exact ⟨⟨by unfold NoOpen; decide, fun _ h => absurd h List.not_mem_nil⟩, by unfold Glue; decide, tag_wf U ps (by decide) (by decide) (.endS _)⟩
  · exact ⟨⟨by unfold NoOpen; decide, fun _ h => absurd h List.not_mem_nil⟩, by unfold Glue; decide, tag_wf U ps (by decide) (by decide) (.beginS _)⟩
  · exact ⟨⟨by unfold NoOpen; decide, fun _ h => absurd h List.not_mem_nil⟩, by unfold Glue; decide, tag_wf U ps (by decide) (by decide) (.endS _)⟩

set_option maxRecDepth 20000 in
theorem rootTemplate_wf (U : Unicode) (ps : List PluginFns) : rootTemplate.WF U ps := by
  refine ⟨?_, ⟨by unfold NoOpen; decide, fun _ h => absurd h List.not_mem_nil⟩⟩
  intro i hi
  simp only [rootTemplate, List.mem_cons, List.not_mem_nil, or_false] at hi
  rcases hi with rfl | rfl
  · exact ⟨⟨by unfold NoOpen; decide, fun _ h => absurd h List.not_mem_nil⟩, by unfold Glue; decide, tag_wf U ps (by decide) (by decide) (.insert _)⟩
  · exact ⟨⟨by unfold NoOpen; decide, fun _ h => absurd h List.not_mem_nil⟩, by unfold Glue; decide, tag_wf U ps (by decide) (by decide) (.insert _)⟩

set_option maxRecDepth 20000 in
theorem parse_index (U : Unicode) (path : Str) (ps : List PluginFns) : ∃ a b c d e f g : Str × Nat × Nat,
    parseHtml U path ps defaultIndex = .ok [
      ⟨.func (.begin_ str!"head" true), a.1, a.2.1, a.2.2⟩,
      ⟨.raw str!"\n<title>Stuart</title>\n", b.1, b.2.1, b.2.2⟩,
      ⟨.func (.end_ str!"head" true), c.1, c.2.1, c.2.2⟩,
      ⟨.raw str!"\n\n", d.1, d.2.1, d.2.2⟩,
      ⟨.func (.begin_ str!"body" true), e.1, e.2.1, e.2.2⟩,
      ⟨.raw str!"\n<img src=\"/lightning.png\" width=250>\n\n<h2>Welcome to Stuart!</h2>\n\n<p>\n  Edit <code>content/index.html</code> and save to reload.\n</p>\n", f.1, f.2.1, f.2.2⟩,
      ⟨.func (.end_ str!"body" true), g.1, g.2.1, g.2.2⟩] := by
  obtain ⟨toks, h1, h2, _⟩ := parseHtml_src U path ps indexTemplate (indexTemplate_wf U ps)
  rw [indexTemplate_src] at h1
  rw [h1]
  rcases toks with _ | ⟨a, _ | ⟨b, _ | ⟨c, _ | ⟨d, _ | ⟨e, _ | ⟨f, _ | ⟨g, _ | ⟨x, toks⟩⟩⟩⟩⟩⟩⟩⟩
  case cons.cons.cons.cons.cons.cons.cons.nil =>
    refine ⟨(a.path, a.line, a.col), (b.path, b.line, b.col), (c.path, c.line, c.col), (d.path, d.line, d.col),
      (e.path, e.line, e.col), (f.path, f.line, f.col), (g.path, g.line, g.col), ?_⟩
    obtain ⟨a1, a2, a3, a4⟩ := a
    obtain ⟨b1, b2, b3, b4⟩ := b
    obtain ⟨c1, c2, c3, c4⟩ := c
    obtain ⟨d1, d2, d3, d4⟩ := d
    obtain ⟨e1, e2, e3, e4⟩ := e
    obtain ⟨f1, f2, f3, f4⟩ := f
    obtain ⟨g1, g2, g3, g4⟩ := g
    cases h2
    rfl
  all_goals exact absurd (show _ = 7 from congrArg List.length h2) (by simp)

set_option maxRecDepth 20000 in
theorem parse_root (U : Unicode) (path : Str) (ps : List PluginFns) : ∃ a b c d e : Str × Nat × Nat,
    parseHtml U path ps defaultRoot = .ok [
      ⟨.raw str!"<html lang=\"en\">\n  \n<head>\n  <meta charset=\"UTF-8\">\n  <meta http-equiv=\"X-UA-Compatible\" content=\"IE=edge\">\n  <meta name=\"viewport\" content=\"width=device-width, initial-scale=1.0\">\n  <link rel=\"stylesheet\" href=\"style.css\">\n  \n  ", a.1, a.2.1, a.2.2⟩,
      ⟨.func (.insert str!"head"), b.1, b.2.1, b.2.2⟩,
      ⟨.raw str!"\n</head>\n\n<body>\n  <main>\n    ", c.1, c.2.1, c.2.2⟩,
      ⟨.func (.insert str!"body"), d.1, d.2.1, d.2.2⟩,
      ⟨.raw str!"\n  </main>\n</body>\n\n</html>", e.1, e.2.1, e.2.2⟩] := by
  obtain ⟨toks, h1, h2, _⟩ := parseHtml_src U path ps rootTemplate (rootTemplate_wf U ps)
  rw [rootTemplate_src] at h1
  rw [h1]
  rcases toks with _ | ⟨a, _ | ⟨b, _ | ⟨c, _ | ⟨d, _ | ⟨e, _ | ⟨x, toks⟩⟩⟩⟩⟩⟩
  case cons.cons.cons.cons.cons.nil =>
    refine ⟨(a.path, a.line, a.col), (b.path, b.line, b.col), (c.path, c.line, c.col), (d.path, d.line, d.col),
      (e.path, e.line, e.col), ?_⟩
    obtain ⟨a1, a2, a3, a4⟩ := a
    obtain ⟨b1, b2, b3, b4⟩ := b
    obtain ⟨c1, c2, c3, c4⟩ := c
    obtain ⟨d1, d2, d3, d4⟩ := d
    obtain ⟨e1, e2, e3, e4⟩ := e
    cases h2
    rfl
  all_goals exact absurd (show _ = 5 from congrArg List.length h2) (by simp)

/-- The content of a new site. -/
def newContent : List (Str × Entry) :=
  [(str!"index.html", .file (bytesOf defaultIndex)), (str!"root.html", .file (bytesOf defaultRoot))]

theorem readFile_html (S : Sys) {p : Path} {name t : Str} {toks : List LTok} (hn : extension name = some str!"html")
    (h : parseHtml S.U (pathStr p) [] t = .ok toks) :
    readFile S true [] p name (bytesOf t) = .ok (.file name (bytesOf t) (.html toks) none (pathStr p)) := by
  simp only [readFile, if_true, parseContents, hn, fromUtf8_bytesOf, Res.ofOption, Res.bind, List.map_nil, h, Res.mapErr]

theorem readTree_two (S : Sys) {disk : Entry} {p : Path} {c n1 n2 : Str} {b1 b2 : Bytes} {x1 x2 : Node}
    (h : disk.at (p ++ [c]) = some (.dir [(n1, .file b1), (n2, .file b2)]))
    (h1 : readFile S true [] (p ++ [c] ++ [n1]) n1 b1 = .ok x1) (h2 : readFile S true [] (p ++ [c] ++ [n2]) n2 b2 = .ok x2) :
    readTree S true [] disk (p ++ [c]) = .ok (.dir c [x1, x2] (pathStr (p ++ [c]))) := by
  unfold readTree
  rw [h]
  simp only [readEntries, readEntry, h1, h2, Res.bind, List.getLast?_append, List.getLast?_singleton, Option.some_or, Res.unwrap]

theorem new_read (S : Sys) {disk : Entry} {p : Path} (h : disk.at (p ++ [str!"content"]) = some (.dir newContent)) :
    ∃ ti tr, readTree S true [] disk (p ++ [str!"content"]) = .ok (.dir str!"content"
      [.file str!"index.html" (bytesOf defaultIndex) (.html ti) none (pathStr (p ++ [str!"content"] ++ [str!"index.html"])),
       .file str!"root.html" (bytesOf defaultRoot) (.html tr) none (pathStr (p ++ [str!"content"] ++ [str!"root.html"]))]
      (pathStr (p ++ [str!"content"]))) ∧
    (∃ x, parseHtml S.U x [] defaultIndex = .ok ti) ∧ ∃ x, parseHtml S.U x [] defaultRoot = .ok tr := by
  obtain ⟨a1, a2, a3, a4, a5, a6, a7, ha⟩ := parse_index S.U (pathStr (p ++ [str!"content"] ++ [str!"index.html"])) []
  obtain ⟨b1, b2, b3, b4, b5, hb⟩ := parse_root S.U (pathStr (p ++ [str!"content"] ++ [str!"root.html"])) []
  exact ⟨_, _, readTree_two S h (readFile_html S rfl ha) (readFile_html S rfl hb), ⟨_, ha⟩, ⟨_, hb⟩⟩

set_option maxRecDepth 20000 in
theorem new_render (b : Builder) {U : Unicode} {x y src : Str} {ti tr : List LTok} {vars : List (Str × Str)} {mode : Str}
    (hb : b.base = baseFrame vars mode)
    (hi : parseHtml U x [] defaultIndex = .ok ti) (hr : parseHtml U y [] defaultRoot = .ok tr) (md : Option (List LTok)) :
    processHtml b ⟨some tr, md⟩ src ti = .ok { newContents := some (bytesOf newPage) } := by
  obtain ⟨a1, a2, a3, a4, a5, a6, a7, ha⟩ := parse_index U x []
  obtain ⟨b1, b2, b3, b4, b5, hb'⟩ := parse_root U y []
  rw [ha] at hi
  rw [hb'] at hr
  cases hi
  cases hr
  obtain ⟨cx, base, cfg⟩ := b
  simp only at hb
  subst hb
  have key : bytesOf newPage = ((((([] ++ bytesOf str!"<html lang=\"en\">\n  \n<head>\n  <meta charset=\"UTF-8\">\n  <meta http-equiv=\"X-UA-Compatible\" content=\"IE=edge\">\n  <meta name=\"viewport\" content=\"width=device-width, initial-scale=1.0\">\n  <link rel=\"stylesheet\" href=\"style.css\">\n  \n  ") ++
      ([] ++ bytesOf str!"\n<title>Stuart</title>\n")) ++ bytesOf str!"\n</head>\n\n<body>\n  <main>\n    ") ++
      ([] ++ bytesOf str!"\n<img src=\"/lightning.png\" width=250>\n\n<h2>Welcome to Stuart!</h2>\n\n<p>\n  Edit <code>content/index.html</code> and save to reload.\n</p>\n")) ++
      bytesOf str!"\n  </main>\n</body>\n\n</html>") := by
    simp only [List.nil_append, ← bytesOf_append]
    rfl
  rw [key]
  rfl

theorem new_project (S : Sys) {disk : Entry} {p : Path} (mode : Str) {cfg : Config} (hc : cfg.saveMetadata = false)
    (h : disk.at (p ++ [str!"content"]) = some (.dir newContent)) :
    ∃ i s1 s2 s3, Project.build S disk mode { dir := p ++ [str!"content"], config := cfg } =
      ({ dir := p ++ [str!"content"], config := cfg, input := some i, output := some (.dir str!"content"
        [.file str!"index.html" (bytesOf newPage) .none none s1, .file str!"root.html" (bytesOf defaultRoot) .none none s2] s3) },
       .ok ()) := by
  obtain ⟨ti, tr, h1, ⟨x, hi⟩, ⟨y, hr⟩⟩ := new_read S h
  generalize pathStr (p ++ [str!"content"] ++ [str!"index.html"]) = s1 at h1
  generalize pathStr (p ++ [str!"content"] ++ [str!"root.html"]) = s2 at h1
  generalize pathStr (p ++ [str!"content"]) = s3 at h1
  refine ⟨Node.dir str!"content" [.file str!"index.html" (bytesOf defaultIndex) (.html ti) none s1,
      .file str!"root.html" (bytesOf defaultRoot) (.html tr) none s2] s3, s1, s2, s3, ?_⟩
  have hp : ∀ cx base, preNode S.ext cx base (Node.dir str!"content" [.file str!"index.html" (bytesOf defaultIndex) (.html ti) none s1,
      .file str!"root.html" (bytesOf defaultRoot) (.html tr) none s2] s3) = .ok (Node.dir str!"content"
      [.file str!"index.html" (bytesOf defaultIndex) (.html ti) none s1,
      .file str!"root.html" (bytesOf defaultRoot) (.html tr) none s2] s3) := fun _ _ => rfl
  have hu : ∀ env, updateEnv env [Node.file str!"index.html" (bytesOf defaultIndex) (.html ti) none s1,
      .file str!"root.html" (bytesOf defaultRoot) (.html tr) none s2] = ⟨some tr, env.md⟩ := fun _ => rfl
  have hb : ∀ cx env, buildNode ⟨cx, baseFrame S.vars mode, cfg⟩ env (Node.dir str!"content"
      [.file str!"index.html" (bytesOf defaultIndex) (.html ti) none s1,
      .file str!"root.html" (bytesOf defaultRoot) (.html tr) none s2] s3) = .ok (.dir str!"content"
        [.file str!"index.html" (bytesOf newPage) .none none s1, .file str!"root.html" (bytesOf defaultRoot) .none none s2] s3) := by
    intro cx env
    have hr1 := new_render ⟨cx, baseFrame S.vars mode, cfg⟩ (src := s1) rfl hi hr env.md
    rw [buildNode, hu, buildNodes, buildNodes, buildNodes, buildNode, buildNode, processFile, processFile]
    rw [show processParsed ⟨cx, baseFrame S.vars mode, cfg⟩ ⟨some tr, env.md⟩ str!"index.html" s1 (.html ti) =
      (processHtml ⟨cx, baseFrame S.vars mode, cfg⟩ ⟨some tr, env.md⟩ s1 ti).mapErr .process from rfl, hr1,
      show processParsed ⟨cx, baseFrame S.vars mode, cfg⟩ ⟨some tr, env.md⟩ str!"root.html" s2 (.html tr) = .ok {} from rfl]
    simp only [Res.mapErr, Res.bind, hc, Option.getD_some, Option.getD_none]
    rfl
  unfold Project.build
  simp only [h1, hp, hb]

/-- The static files of a new site. -/
def newStatic (png : Bytes) : List (Str × Entry) :=
  [(str!"lightning.png", .file png), (str!"style.css", .file (bytesOf defaultStyle))]

/-- Building a new site in the directory `p`. -/
theorem new_build (M : Machine) {p : Path} {disk : Entry} {runs : List Run} {c : Context} {png : Bytes}
    (hc : c.stuart = { dir := p ++ [str!"content"], config := c.stuart.config }) (hm : c.stuart.config.saveMetadata = false)
    (hs : c.pre = [] ∧ c.post = []) (hdir : c.dir = p) (hout : c.output = str!"dist")
    (h1 : disk.at (p ++ [str!"content"]) = some (.dir newContent)) (h2 : disk.at (p ++ [str!"static"]) = some (.dir (newStatic png)))
    (h3 : disk.at (p ++ [str!"temp"]) = none) (h4 : disk.at (p ++ [str!"dist"]) = none) :
    (c.build M ⟨⟨disk, []⟩, runs⟩).2 = (⟨⟨disk.put (p ++ [str!"dist"]) (some (newOutput png)), []⟩, runs⟩, .ok ()) := by
  obtain ⟨stuart, pre, post, env, mode, dir, output⟩ := c
  simp only at hc hm hs hdir hout
  obtain ⟨rfl, rfl⟩ := hs
  subst hdir hout
  obtain ⟨inp, s1, s2, s3, hb⟩ := new_project M.sys mode hm h1
  rw [← hc] at hb
  unfold Context.build
  simp only [runScripts, hb]
  unfold Context.publish
  have e1 : disk.existsAt (dir ++ [str!"static"]) = true := by simp [Entry.existsAt, h2]
  have e2 : disk.existsAt (dir ++ [str!"temp"]) = false := by simp [Entry.existsAt, h3]
  have hr : readTree M.sys false [] disk (dir ++ [str!"static"]) = .ok (.dir str!"static"
      [.file str!"lightning.png" png .ignored none (pathStr (dir ++ [str!"static"] ++ [str!"lightning.png"])),
       .file str!"style.css" (bytesOf defaultStyle) .ignored none (pathStr (dir ++ [str!"static"] ++ [str!"style.css"]))]
       (pathStr (dir ++ [str!"static"]))) := by
    unfold readTree
    rw [h2]
    simp [newStatic, readEntries, readEntry, readFile, Res.bind, Res.unwrap]
  have hd : disk.isDirAt dir = true := by
    rw [isDirAt_iff]
    exact look_above (r := [str!"static"]) (by simp) (by rw [look, h2]; simp)
  have hj : joinPath dir str!"dist" = dir ++ [str!"dist"] := rfl
  generalize pathStr (dir ++ [str!"static"] ++ [str!"lightning.png"]) = t1 at hr
  generalize pathStr (dir ++ [str!"static"] ++ [str!"style.css"]) = t2 at hr
  have hmd : mergeDirs M disk dir [str!"static", str!"temp"]
      { dir := dir ++ [str!"content"], config := stuart.config, input := some inp,
        output := some (.dir str!"content" [.file str!"index.html" (bytesOf newPage) .none none s1,
          .file str!"root.html" (bytesOf defaultRoot) .none none s2] s3) } =
      ({ dir := dir ++ [str!"content"], config := stuart.config, input := some inp,
         output := some (.dir str!"content" [.file str!"index.html" (bytesOf newPage) .none none s1,
          .file str!"root.html" (bytesOf defaultRoot) .none none s2, .file str!"lightning.png" png .ignored none t1,
          .file str!"style.css" (bytesOf defaultStyle) .ignored none t2] s3) }, .ok ()) := by
    simp only [mergeDirs, e1, e2, if_true, hr, Project.mergeOutput]
    rfl
  have hclear : World.step ⟨disk, []⟩ (.clear (dir ++ [str!"temp"])) = (⟨disk, []⟩, true) := by
    simp only [World.step, Op.apply, h3, List.tail_nil]
  have hops : saveAll stuart.config (dir ++ [str!"dist"]) [.file str!"index.html" (bytesOf newPage) .none none s1,
          .file str!"root.html" (bytesOf defaultRoot) .none none s2, .file str!"lightning.png" png .ignored none t1,
          .file str!"style.css" (bytesOf defaultStyle) .ignored none t2] =
      [Op.write [str!"index.html"] (bytesOf newPage), .write [str!"lightning.png"] png,
        .write [str!"style.css"] (bytesOf defaultStyle)].map (Op.under (dir ++ [str!"dist"])) := by
    cases stuart.config with
    | mk a b c d e => cases c <;> cases d <;> rfl
  have hsave : runOps (.clear (dir ++ [str!"dist"]) :: .mkdir (dir ++ [str!"dist"]) ::
      saveAll stuart.config (dir ++ [str!"dist"]) [.file str!"index.html" (bytesOf newPage) .none none s1,
          .file str!"root.html" (bytesOf defaultRoot) .none none s2, .file str!"lightning.png" png .ignored none t1,
          .file str!"style.css" (bytesOf defaultStyle) .ignored none t2]) ⟨disk, []⟩ =
      (⟨disk.put (dir ++ [str!"dist"]) (some (newOutput png)), []⟩, .ok ()) := by
    have hd' : disk.isDirAt (dir ++ [str!"dist"]).dropLast = true := by rw [List.dropLast_concat]; exact hd
    have k1 : World.step ⟨disk, []⟩ (.clear (dir ++ [str!"dist"])) = (⟨disk, []⟩, true) := by
      simp only [World.step, Op.apply, h4, List.tail_nil]
    have k2 : World.step ⟨disk, []⟩ (.mkdir (dir ++ [str!"dist"])) = (⟨disk.put (dir ++ [str!"dist"]) (some (.dir [])), []⟩, true) := by
      simp only [World.step, Op.apply, h4, List.tail_nil, hd', if_true]
    rw [runOps, k1, if_pos rfl, runOps, k2, if_pos rfl, hops, runOps_under hd' (by simp) (by simp [Op.target])]
    rfl
  simp only [hmd, hclear, Project.save, saveNode, hj, hsave, exportMeta, hm]
  rfl

end Stuart
