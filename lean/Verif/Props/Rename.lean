import Verif.Proof.RenameRun
import Verif.Props.Refers
/-
Property C107: the names of variables do not matter.
-/
namespace Stuart
open Spec

/-! ### C107 -/

theorem look_but {top : Path} {d d' : Entry} (h : SameBut top [] d d') {q : Path} (hq : ¬ top <+: q) : look d q = look d' q := by
  have := at_but q h
  unfold look
  generalize d.at q = o at this
  generalize d'.at q = o' at this
  cases this with
  | none => rfl
  | some h =>
    cases h with
    | file h => rw [h.resolve_right hq]
    | dir => rfl
    | special => rfl

section
variable (cx : Ctx) (vars : List (Str × Str)) (mode : Str)

/-- C107. A template run under other names for its variables: the same output and the same sections, or an error about the same. -/
theorem C107_run (N : Str → Str → Prop) (hN : Renames N) (toks toks' : List LTok) (h : ToksLike N toks toks') (secs : List (Str × Bytes)) :
    (∀ f fs secs', runToks cx toks ⟨[baseFrame vars mode], secs⟩ = .ok ⟨f :: fs, secs'⟩ →
      ∃ f' fs', runToks cx toks' ⟨[baseFrame vars mode], secs⟩ = .ok ⟨f' :: fs', secs'⟩ ∧ f'.out = f.out ∧ fs'.length = fs.length) ∧
    (∀ e, runToks cx toks ⟨[baseFrame vars mode], secs⟩ = .err e →
      ∃ e', runToks cx toks' ⟨[baseFrame vars mode], secs⟩ = .err e' ∧ e'.path = e.path ∧ ErrLike N e.kind e'.kind) ∧
    ∀ p, runToks cx toks ⟨[baseFrame vars mode], secs⟩ = .panic p → runToks cx toks' ⟨[baseFrame vars mode], secs⟩ = .panic p := by
  have hr := runToks_like hN (cx := cx) (cx' := cx) ⟨rfl, fun _ => rfl⟩ h (st := ⟨[baseFrame vars mode], secs⟩)
    (st' := ⟨[baseFrame vars mode], secs⟩) ⟨.cons (base_like hN vars mode) .nil, rfl⟩
  generalize runToks cx toks ⟨[baseFrame vars mode], secs⟩ = r at hr ⊢
  generalize runToks cx toks' ⟨[baseFrame vars mode], secs⟩ = r' at hr ⊢
  cases hr with
  | err h =>
    refine ⟨nofun, fun e k => ?_, nofun⟩
    cases k
    exact ⟨_, rfl, h.1.symm, h.2⟩
  | panic p =>
    refine ⟨nofun, nofun, fun q k => ?_⟩
    cases k
    rfl
  | @ok st st' h =>
    refine ⟨fun f fs secs' k => ?_, nofun, nofun⟩
    cases k
    obtain ⟨stk, secs⟩ := st'
    obtain ⟨h1, h2⟩ := h
    simp only at h1 h2
    subst h2
    cases h1 with
    | cons hf hs => exact ⟨_, _, rfl, hf.out.symm, hs.length.symm⟩

/-- C107. A page and its template, each with names of its own, give the same bytes. -/
theorem C107_page (toks toks' root root' : List LTok) (ht : Reworded toks toks') (hr : Reworded root root') (src : Str) (b : Bytes) :
    renderOn cx (baseFrame vars mode) (baseFrame vars mode) src toks root = .ok b ↔
      renderOn cx (baseFrame vars mode) (baseFrame vars mode) src toks' root' = .ok b := by
  have h := renderOn_like (cx := cx) (cx' := cx) ⟨rfl, fun _ => rfl⟩ vars mode ht hr src fun N hN => base_like hN vars mode
  generalize renderOn cx _ _ src toks root = r at h ⊢
  generalize renderOn cx _ _ src toks' root' = r' at h ⊢
  cases h with
  | ok h => subst h; exact Iff.rfl
  | err => exact ⟨nofun, nofun⟩
  | panic => exact ⟨nofun, nofun⟩
end

section
variable (M : Machine) (L : Loader) (cwd : Path) (manifest output : Str) (s s1 s' s1' : Host) (p : Path) (raw : RawConfig) (plugins : List Plugin)

/-- C107. Two projects that are the same but for the names of variables in the files of the content: the pages and templates, each with
names of its own, and spaced differently in the tags. `stuart build` ends in the same way, with errors about the same, and leaves the
same everywhere but in the content; whatever mishaps there are. -/
theorem C107_build (h : Simple L cwd manifest s s1 p raw plugins) (h' : Simple L cwd manifest s' s1' p raw plugins)
    (hd : RetoldDisks M.sys plugins (p.dropLast ++ [str!"content"]) s1.world.disk s1'.world.disk)
    (hf : s1.world.faults = s1'.world.faults) :
    ResultLike (cmdBuild M L cwd manifest output s).2 (cmdBuild M L cwd manifest output s').2 ∧
    ∀ q, ¬ p.dropLast ++ [str!"content"] <+: q →
      look (cmdBuild M L cwd manifest output s).1.world.disk q = look (cmdBuild M L cwd manifest output s').1.world.disk q := by
  obtain ⟨c, h1, h2, h3, h4, h5, h6, h7, h8, h9⟩ := simple_start L cwd manifest output s h str!"production"
  obtain ⟨c', h1', h2', h3', h4', h5', h6', h7', h8', h9'⟩ := simple_start L cwd manifest output s' h' str!"production"
  have hcc : c = c' := simple_context L cwd manifest output s s1 s' s1' p raw plugins h h' h1 h1'
  subst hcc
  have hr : cmdBuild M L cwd manifest output s = ((c.build M s1).2.1, (c.build M s1).2.2) := by simp only [cmdBuild, h1]
  have hr' : cmdBuild M L cwd manifest output s' = ((c.build M s1').2.1, (c.build M s1').2.2) := by simp only [cmdBuild, h1']
  rw [hr, hr']
  obtain ⟨k1, k2⟩ := contextBuild_named (M := M) h8 h9 (by rw [h5, h4]) (s := s1) (s' := s1') (by rw [h3, h5]; exact hd) hf
  refine ⟨k2, fun q hq => look_but k1.disk ?_⟩
  rw [h5]
  exact hq

/-- C107. So the one can be built if and only if the other can, and then every page is the same. -/
theorem C107_pages (h : Simple L cwd manifest s s1 p raw plugins) (h' : Simple L cwd manifest s' s1' p raw plugins)
    (hd : RetoldDisks M.sys plugins (p.dropLast ++ [str!"content"]) s1.world.disk s1'.world.disk)
    (hf : s1.world.faults = s1'.world.faults) (hout : ∀ r, ¬ p.dropLast ++ [str!"content"] <+: joinPath p.dropLast output ++ r) :
    ((cmdBuild M L cwd manifest output s).2 = .ok () ↔ (cmdBuild M L cwd manifest output s').2 = .ok ()) ∧
    ∀ r, look (cmdBuild M L cwd manifest output s).1.world.disk (joinPath p.dropLast output ++ r) =
      look (cmdBuild M L cwd manifest output s').1.world.disk (joinPath p.dropLast output ++ r) := by
  obtain ⟨k1, k2⟩ := C107_build M L cwd manifest output s s1 s' s1' p raw plugins h h' hd hf
  refine ⟨?_, fun r => k2 _ (hout r)⟩
  generalize (cmdBuild M L cwd manifest output s).2 = a at k1 ⊢
  generalize (cmdBuild M L cwd manifest output s').2 = b at k1 ⊢
  cases k1 with
  | ok => exact Iff.rfl
  | err => exact ⟨nofun, nofun⟩
  | panic => exact ⟨nofun, nofun⟩
end

/-! ### Cases -/

/-- The renaming given by pairs of names. -/
def Pairs (l : List (Str × Str)) (a b : Str) : Prop := (a, b) ∈ l

/-- These pairs are a renaming. -/
def pairsOk (l : List (Str × Str)) : Bool :=
  (l.all fun x => l.all fun y => decide (x.1 = y.1) == decide (x.2 = y.2)) && (l.all fun x => decide ('.' ∉ x.1) && decide ('.' ∉ x.2)) &&
    l.contains (str!"self", str!"self") && l.contains (str!"env", str!"env")

theorem pairs_renames {l : List (Str × Str)} (h : pairsOk l = true) : Renames (Pairs l) := by
  simp only [pairsOk, Bool.and_eq_true, List.all_eq_true, beq_iff_eq, decide_eq_true_eq, List.contains_iff_mem] at h
  obtain ⟨⟨⟨h1, h2⟩, h3⟩, h4⟩ := h
  refine ⟨fun a b a' b' k k' => ?_, fun a b k => h2 _ k, h3, h4⟩
  have := h1 _ k _ k'
  exact decide_eq_decide.1 this

/-- Variables that are the same under the pairs. -/
def varCheck (l : List (Str × Str)) (a b : Str) : Bool :=
  l.any fun x => (decide (a = x.1) && decide (b = x.2)) ||
    match stripPrefix (x.1 ++ ['.']) a, stripPrefix (x.2 ++ ['.']) b with
    | some k, some k' => decide (k = k')
    | _, _ => false

theorem varCheck_like {l : List (Str × Str)} {a b : Str} (h : varCheck l a b = true) : VarLike (Pairs l) a b := by
  simp only [varCheck, List.any_eq_true, Bool.or_eq_true, Bool.and_eq_true, decide_eq_true_eq] at h
  obtain ⟨x, hx, h | h⟩ := h
  · obtain ⟨rfl, rfl⟩ := h
    exact .name hx
  · split at h
    · rename_i k k' h1 h2
      have h : k = k' := by simpa using h
      subst h
      rw [stripPrefix_eq h1, stripPrefix_eq h2, List.append_assoc, List.append_assoc]
      exact .path hx
    · cases h

def inputCheck (l : List (Str × Str)) : Input → Input → Bool
  | .var a, .var b => varCheck l a b
  | .str s, .str s' => decide (s = s')
  | .int i, .int i' => decide (i = i')
  | _, _ => false

theorem inputCheck_like {l : List (Str × Str)} {a b : Input} (h : inputCheck l a b = true) : InputLike (Pairs l) a b := by
  cases a <;> cases b <;> simp only [inputCheck, decide_eq_true_eq, Bool.false_eq_true] at h
  · exact .var (varCheck_like h)
  · subst h; exact .str _
  · subst h; exact .int _

def fnCheck (l : List (Str × Str)) : Fn → Fn → Bool
  | .begin_ a c, .begin_ a' c' => decide (a = a') && decide (c = c')
  | .end_ a c, .end_ a' c' => decide (a = a') && decide (c = c') && (c || decide (':' ∉ a))
  | .else_, .else_ => true
  | .excerpt a n, .excerpt b n' => varCheck l a b && decide (n = n')
  | .for_ f, .for_ f' => varCheck l f.var f'.var && decide (f.kind = f'.kind) &&
      (if f.kind = .jsonObj then varCheck l f.source f'.source else decide (f.source = f'.source)) && decide (f.skip = f'.skip) &&
      decide (f.limit = f'.limit) && decide (f.desc = f'.desc) &&
      match f.sortVar, f'.sortVar with
      | none, none => true
      | some a, some b => varCheck l a b
      | _, _ => false
  | .ifdefined a, .ifdefined b => varCheck l a b
  | .import_ a f, .import_ b f' => varCheck l a b && decide (f = f')
  | .insert a, .insert a' => decide (a = a')
  | .timetoread a, .timetoread b => varCheck l a b
  | .dateformat a f, .dateformat b f' => varCheck l a b && decide (f = f')
  | .cmp op a b, .cmp op' a' b' => decide (op = op') && inputCheck l a a' && inputCheck l b b'
  | _, _ => false

theorem fnCheck_like {l : List (Str × Str)} {f f' : Fn} (h : fnCheck l f f' = true) : FnLike (Pairs l) f f' := by
  unfold fnCheck at h
  split at h <;> (try simp only [Bool.and_eq_true, Bool.or_eq_true, decide_eq_true_eq, Bool.false_eq_true] at h)
  · obtain ⟨rfl, rfl⟩ := h; exact .begin_ _ _
  · obtain ⟨⟨rfl, rfl⟩, h⟩ := h
    exact .end_ fun k => h.resolve_left (by simp [k])
  · exact .else_
  · obtain ⟨h, rfl⟩ := h; exact .excerpt _ (varCheck_like h)
  · obtain ⟨⟨⟨⟨⟨⟨h1, h2⟩, h3⟩, h4⟩, h5⟩, h6⟩, h7⟩ := h
    refine .for_ ⟨varCheck_like h1, h2, fun k => ?_, fun k => ?_, h4, h5, ?_, h6⟩
    · rw [if_neg k] at h3; simpa using h3
    · rw [if_pos k] at h3; exact varCheck_like h3
    · split at h7
      · rename_i k1 k2; rw [k1, k2]; exact .none
      · rename_i k1 k2; rw [k1, k2]; exact .some (varCheck_like h7)
      · cases h7
  · exact .ifdefined (varCheck_like h)
  · obtain ⟨h, rfl⟩ := h; exact .import_ _ (varCheck_like h)
  · subst h; exact .insert _
  · exact .timetoread (varCheck_like h)
  · obtain ⟨h, rfl⟩ := h; exact .dateformat _ (varCheck_like h)
  · obtain ⟨⟨rfl, h1⟩, h2⟩ := h; exact .cmp _ (inputCheck_like h1) (inputCheck_like h2)

def tokCheck (l : List (Str × Str)) : Token → Token → Bool
  | .raw s, .raw s' => decide (s = s')
  | .var a, .var b => varCheck l a b
  | .func f, .func f' => fnCheck l f f'
  | _, _ => false

def toksCheck (l : List (Str × Str)) : List LTok → List LTok → Bool
  | [], [] => true
  | t :: ts, t' :: ts' => decide (t.path = t'.path) && tokCheck l t.inner t'.inner && toksCheck l ts ts'
  | _, _ => false

theorem toksCheck_like {l : List (Str × Str)} : ∀ {ts ts' : List LTok}, toksCheck l ts ts' = true → ToksLike (Pairs l) ts ts'
  | [], [], _ => .nil
  | [], _ :: _, h => by cases h
  | _ :: _, [], h => by cases h
  | t :: ts, t' :: ts', h => by
    simp only [toksCheck, Bool.and_eq_true, decide_eq_true_eq] at h
    obtain ⟨⟨h1, h2⟩, h3⟩ := h
    refine .cons h1 ?_ (toksCheck_like h3)
    revert h2
    generalize t.inner = a
    generalize t'.inner = b
    intro h2
    cases a <;> cases b <;> simp only [tokCheck, decide_eq_true_eq, Bool.false_eq_true] at h2
    · subst h2; exact .raw _
    · exact .func (fnCheck_like h2)
    · exact .var (varCheck_like h2)

/-- Two files that say the same under the pairs. -/
def fileCheck (S : Sys) (l : List (Str × Str)) (p : Path) (nm : Str) (b b' : Bytes) : Bool :=
  match parseContents S [] nm (pathStr (p ++ [nm])) b, parseContents S [] nm (pathStr (p ++ [nm])) b' with
  | .ok (.html ts), .ok (.html ts') => toksCheck l ts ts'
  | .ok (.markdown md), .ok (.markdown md') => decide (md.frontmatter = md'.frontmatter) && decide (md.markdownString = md'.markdownString) &&
      decide (md.html = md'.html) && toksCheck l md.markdown md'.markdown
  | .ok (.json _), .ok (.json _) => decide (b = b')
  | .ok .none, .ok .none => decide (b = b')
  | _, _ => false

theorem fileCheck_retold {S : Sys} {l : List (Str × Str)} {p : Path} {nm : Str} {b b' : Bytes} (hl : pairsOk l = true)
    (h : fileCheck S l p nm b b' = true) : Retold S [] p nm (.file b) (.file b') := by
  unfold fileCheck at h
  split at h
  · rename_i h1 h2
    exact .file (parseContents_ok.1 h1) (parseContents_ok.1 h2) (.html ⟨_, pairs_renames hl, toksCheck_like h⟩)
  · rename_i h1 h2
    simp only [Bool.and_eq_true, decide_eq_true_eq] at h
    obtain ⟨⟨⟨k1, k2⟩, k3⟩, k4⟩ := h
    exact .file (parseContents_ok.1 h1) (parseContents_ok.1 h2) (.markdown k1 k2 k3 ⟨_, pairs_renames hl, toksCheck_like k4⟩)
  · rename_i h1 h2
    simp only [decide_eq_true_eq] at h
    subst h
    rw [h1] at h2
    cases h2
    exact .file (parseContents_ok.1 h1) (parseContents_ok.1 h1) (.data _)
  · rename_i h1 h2
    simp only [decide_eq_true_eq] at h
    subst h
    exact .file (parseContents_ok.1 h1) (parseContents_ok.1 h2) .other
  · cases h

/-- A project with a page, a markdown file, its template and a data file. -/
def renDisk (root md page : Str) : Entry := .dir [(str!"p", .dir [
  (str!"stuart.toml", .file (bytesOf str!"name")),
  (str!"content", .dir [
    (str!"root.html", .file (bytesOf root)),
    (str!"md.html", .file (bytesOf md)),
    (str!"a.html", .file (bytesOf page)),
    (str!"d.json", .file (bytesOf str!"one")),
    (str!"posts", .dir [(str!"x.md", .file (bytesOf str!"---\ntitle: \"T\"\n---\nbody"))])])])]

def renHost (root md page : Str) : Host := ⟨⟨renDisk root md page, []⟩, []⟩

def renBuilt (root md page : Str) : Host × Res CliErr Unit :=
  cmdBuild refMachine shortLoader [str!"p"] str!"stuart.toml" str!"dist" (renHost root md page)

theorem renHost_simple (root md page : Str) :
    Simple shortLoader [str!"p"] str!"stuart.toml" (renHost root md page) (renHost root md page) [str!"p", str!"stuart.toml"]
      ⟨str!"name", none, none, none⟩ [] where
  found := canonicalize_names.1 rfl
  text := ⟨str!"name", rfl, rfl⟩
  loaded := rfl
  functions := nofun
  scripts := rfl

def renRoot (v : Str) : Str := str!"<{{ import($" ++ v ++ str!", \"d.json\") }}{{ $" ++ v ++ str!" }}:{{ insert(\"b\") }}>"
def renMd : Str := str!"{{ begin(\"b\") }}{{ $self.title }}{{ end(\"b\") }}"
/-- A page with an import, a loop over markdown and a conditional. -/
def renPage (v w : Str) : Str := str!"{{ begin(\"b\") }}{{ import($" ++ v ++ str!", \"d.json\") }}{{ for($" ++ w ++ str!", \"posts/\") }}{{ $" ++ w ++
  str!".title }}{{ ifeq($" ++ w ++ str!".title, \"T\") }}{{ $" ++ v ++ str!" }}{{ end(ifeq) }}{{ end(for) }}{{ end(\"b\") }}"
/-- The same with other names, in which there are more spaces. -/
def renPage' (v w : Str) : Str := str!"{{ begin(\"b\") }}{{import( $" ++ v ++ str!" ,\"d.json\" )}}{{for($" ++ w ++ str!",  \"posts/\")}}{{$" ++ w ++
  str!".title}}{{   ifeq($" ++ w ++ str!".title, \"T\")   }}{{ $" ++ v ++ str!" }}{{ end(ifeq) }}{{ end(for) }}{{ end(\"b\") }}"

theorem ren_disks {root md page root' md' page' : Str} (l : List (Str × Str)) (hl : pairsOk l = true)
    (h1 : fileCheck refMachine.sys l [str!"p", str!"content"] str!"root.html" (bytesOf root) (bytesOf root') = true)
    (h2 : fileCheck refMachine.sys l [str!"p", str!"content"] str!"md.html" (bytesOf md) (bytesOf md') = true)
    (h3 : fileCheck refMachine.sys l [str!"p", str!"content"] str!"a.html" (bytesOf page) (bytesOf page') = true)
    (h4 : fileCheck refMachine.sys l [str!"p", str!"content"] str!"d.json" (bytesOf str!"one") (bytesOf str!"one") = true)
    (h5 : fileCheck refMachine.sys l [str!"p", str!"content", str!"posts"] str!"x.md" (bytesOf str!"---\ntitle: \"T\"\n---\nbody")
      (bytesOf str!"---\ntitle: \"T\"\n---\nbody") = true) :
    RetoldDisks refMachine.sys [] [str!"p", str!"content"] (renDisk root md page) (renDisk root' md' page') where
  alike := .dir (.cons (.dir (.cons (.file (.inl rfl)) (.cons (.dir (.cons (.file (.inr (by decide)))
    (.cons (.file (.inr (by decide))) (.cons (.file (.inr (by decide))) (sameButList_refl _ _))))) .nil))) .nil)
  retold := ⟨_, _, rfl, rfl, .cons (fileCheck_retold hl h1) (.cons (fileCheck_retold hl h2) (.cons (fileCheck_retold hl h3)
    (.cons (fileCheck_retold hl h4) (.cons (.dir (.cons (fileCheck_retold hl h5) .nil)) .nil))))⟩

def renPairs : List (Str × Str) := [(str!"self", str!"self"), (str!"env", str!"env"), (str!"v", str!"data"), (str!"w", str!"post")]

theorem ren_twins : RetoldDisks refMachine.sys [] [str!"p", str!"content"] (renDisk (renRoot str!"v") renMd (renPage str!"v" str!"w"))
    (renDisk (renRoot str!"data") renMd (renPage' str!"data" str!"post")) :=
  ren_disks renPairs (by decide) (by decide +kernel) (by decide +kernel) (by decide +kernel) (by decide +kernel) (by decide +kernel)

theorem ren_same {root md page root' md' page' : Str}
    (h : RetoldDisks refMachine.sys [] [str!"p", str!"content"] (renDisk root md page) (renDisk root' md' page')) (q : Path)
    (hq : ¬ [str!"p", str!"content"] <+: q) :
    look (renBuilt root md page).1.world.disk q = look (renBuilt root' md' page').1.world.disk q :=
  (C107_build refMachine shortLoader [str!"p"] str!"stuart.toml" str!"dist" (renHost root md page) _ (renHost root' md' page') _ _ _ []
    (renHost_simple _ _ _) (renHost_simple _ _ _) h rfl).2 q hq

/-- A page with other names in it, -/
example : look (renBuilt (renRoot str!"v") renMd (renPage str!"v" str!"w")).1.world.disk [str!"p", str!"dist", str!"a", str!"index.html"] =
      some (.file (bytesOf str!"<one:Tone>")) ∧
    look (renBuilt (renRoot str!"data") renMd (renPage' str!"data" str!"post")).1.world.disk [str!"p", str!"dist", str!"a", str!"index.html"] =
      some (.file (bytesOf str!"<one:Tone>")) := by
  have h : look (renBuilt (renRoot str!"v") renMd (renPage str!"v" str!"w")).1.world.disk [str!"p", str!"dist", str!"a", str!"index.html"] =
      some (.file (bytesOf str!"<one:Tone>")) := by decide +kernel
  exact ⟨h, (ren_same ren_twins _ (by decide)).symm.trans h⟩

example := C107_pages refMachine shortLoader [str!"p"] str!"stuart.toml" str!"dist" _ _ _ _ _ _ [] (renHost_simple _ _ _) (renHost_simple _ _ _)
  ren_twins rfl (fun r => by
    intro k
    have := (List.cons_prefix_cons.1 (List.cons_prefix_cons.1 k).2).1
    exact absurd this (by decide))

/-- The build failed for a variable which is not there. -/
def wanted (r : Res CliErr Unit) : Option Str :=
  match r with
  | .err (.core (.process ⟨_, _, _, .undefinedVariable v⟩)) => some v
  | _ => none

/-- and one that fails, because a variable is not there, fails for the other name. -/
example : wanted (renBuilt str!"{{ $gone }}" renMd str!"").2 = some str!"gone" ∧
    wanted (renBuilt str!"{{   $lost }}" renMd str!"").2 = some str!"lost" := by
  decide +kernel

/-- Two names for one thing are not a renaming, -/
example : (renBuilt str!"{{ insert(\"b\") }}" renMd str!"{{ begin(\"b\") }}{{ import($a, \"d.json\") }}{{ import($b, \"d.json\") }}{{ end(\"b\") }}").2 = .ok () ∧
    (renBuilt str!"{{ insert(\"b\") }}" renMd str!"{{ begin(\"b\") }}{{ import($a, \"d.json\") }}{{ import($a, \"d.json\") }}{{ end(\"b\") }}").2 ≠ .ok () := by
  decide +kernel

/-- and the names of what is given stay. -/
example : (renBuilt str!"{{ insert(\"b\") }}" renMd str!"{{ begin(\"b\") }}{{ end(\"b\") }}").2 = .ok () ∧
    (renBuilt str!"{{ insert(\"b\") }}" str!"{{ begin(\"b\") }}{{ $page.title }}{{ end(\"b\") }}" str!"{{ begin(\"b\") }}{{ end(\"b\") }}").2 ≠ .ok () := by
  decide +kernel

/-- The names in the body of a markdown file can show, if its source is shown. -/
def sourceDisk (v : Str) : Entry := .dir [(str!"p", .dir [
  (str!"stuart.toml", .file (bytesOf str!"name")),
  (str!"content", .dir [
    (str!"root.html", .file (bytesOf str!"{{ insert(\"b\") }}")),
    (str!"md.html", .file (bytesOf str!"{{ begin(\"b\") }}{{ $self.markdown }}{{ end(\"b\") }}")),
    (str!"d.json", .file (bytesOf str!"one")),
    (str!"x.md", .file (bytesOf (str!"{{ import($" ++ v ++ str!", \"d.json\") }}")))])])]

theorem C107_counterexample_source :
    look (cmdBuild refMachine shortLoader [str!"p"] str!"stuart.toml" str!"dist" ⟨⟨sourceDisk str!"v", []⟩, []⟩).1.world.disk
      [str!"p", str!"dist", str!"x", str!"index.html"] ≠
    look (cmdBuild refMachine shortLoader [str!"p"] str!"stuart.toml" str!"dist" ⟨⟨sourceDisk str!"data", []⟩, []⟩).1.world.disk
      [str!"p", str!"dist", str!"x", str!"index.html"] := by decide +kernel

/-- Tokens, for the theorems about one template. -/
def renToks (v : Str) : List LTok := [⟨.func (.import_ v str!"d.json"), str!"a", 1, 1⟩, ⟨.var v, str!"a", 1, 9⟩]
def renTree : Node := .dir str!"c" [.file str!"d.json" [] (.json (.str str!"one")) none str!"/c/d.json"] str!"/c"

example : ∃ f', runToks ⟨renTree, fun _ _ => none⟩ (renToks str!"data") ⟨[baseFrame [] str!"m"], []⟩ = .ok ⟨[f'], []⟩ ∧ f'.out = bytesOf str!"one" := by
  obtain ⟨f', fs', h1, h2, h3⟩ := (C107_run ⟨renTree, fun _ _ => none⟩ [] str!"m" (Pairs renPairs) (pairs_renames (by decide)) (renToks str!"v") (renToks str!"data")
    (toksCheck_like (by decide)) []).1 _ _ _ rfl
  cases fs' with
  | nil => exact ⟨f', h1, h2⟩
  | cons => cases h3

example := C107_page ⟨renTree, fun _ _ => none⟩ [] str!"m" (renToks str!"v") (renToks str!"data") (renToks str!"w") (renToks str!"post")
  ⟨_, pairs_renames (l := renPairs) (by decide), toksCheck_like (by decide)⟩ ⟨_, pairs_renames (l := renPairs) (by decide), toksCheck_like (by decide)⟩
  str!"a" (bytesOf str!"one")

end Stuart
