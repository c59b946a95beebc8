import Verif.Proof.Fields
import Verif.Props.Rename
/-
Property C112: a field that no template mentions does not matter.
-/
namespace Stuart
open Spec

/-! ### C112 -/

section
variable (K : List Str) (cx : Ctx) (vars : List (Str × Str)) (mode : Str)

/-- C112. A template run with a variable, in whose value there are other fields that the template does not mention: the same output
and the same sections, or the same error. -/
theorem C112_run (toks : List LTok) (h : Silent K toks) (a : Str) (v v' : Value) (hv : ValueBut K v v') (secs : List (Str × Bytes)) :
    (∀ f fs secs', runToks cx toks ⟨[(baseFrame vars mode).addVar a v], secs⟩ = .ok ⟨f :: fs, secs'⟩ →
      ∃ f' fs', runToks cx toks ⟨[(baseFrame vars mode).addVar a v'], secs⟩ = .ok ⟨f' :: fs', secs'⟩ ∧ f'.out = f.out ∧ fs'.length = fs.length) ∧
    (∀ e, runToks cx toks ⟨[(baseFrame vars mode).addVar a v], secs⟩ = .err e → runToks cx toks ⟨[(baseFrame vars mode).addVar a v'], secs⟩ = .err e) ∧
    ∀ p, runToks cx toks ⟨[(baseFrame vars mode).addVar a v], secs⟩ = .panic p → runToks cx toks ⟨[(baseFrame vars mode).addVar a v'], secs⟩ = .panic p := by
  have hr := runToks_but (T := fieldTell K) (cx := cx) (cx' := cx) (ctx_refl _ cx) h (st := ⟨[(baseFrame vars mode).addVar a v], secs⟩)
    (st' := ⟨[(baseFrame vars mode).addVar a v'], secs⟩) ⟨.cons ((FrameBut.refl _).addVar a (show (fieldTell K).E v v' from hv.bare_eq)) .nil, rfl⟩
  generalize runToks cx toks ⟨[(baseFrame vars mode).addVar a v], secs⟩ = r at hr ⊢
  generalize runToks cx toks ⟨[(baseFrame vars mode).addVar a v'], secs⟩ = r' at hr ⊢
  cases hr with
  | err h =>
    refine ⟨nofun, fun e k => ?_, nofun⟩
    cases k
    rw [h]
  | panic p =>
    refine ⟨nofun, nofun, fun q k => ?_⟩
    cases k
    rfl
  | @ok st st' h =>
    refine ⟨fun f fs secs' k => ?_, nofun, nofun⟩
    cases k
    obtain ⟨stk, secs⟩ := st'
    obtain ⟨h1, h2⟩ := h
    simp only at h1 h2
    subst h2
    cases h1 with
    | cons hf hs => exact ⟨_, _, rfl, hf.out.symm, hs.length.symm⟩

/-- C112. The page of a markdown file of which fields differ that neither template mentions: the same, or the same error. -/
theorem C112_page (toks root : List LTok) (ht : Silent K toks) (hr : Silent K root) (src : Str) (v v' : Value) (hv : ValueBut K v v') :
    renderOn cx ((baseFrame vars mode).addVar str!"self" v) (baseFrame vars mode) src toks root =
      renderOn cx ((baseFrame vars mode).addVar str!"self" v') (baseFrame vars mode) src toks root :=
  renderOn_but (ctx_refl (fieldTell K) cx) vars mode ht hr src ((FrameBut.refl _).addVar _ (show (fieldTell K).E v v' from hv.bare_eq))
end

section
variable (K : List Str) (M : Machine) (L : Loader) (cwd : Path) (manifest output : Str) (s s1 s' s1' : Host) (p : Path) (raw : RawConfig)
  (plugins : List Plugin)

/-- C112. Two projects that are the same but for fields of some names in the data files and in the frontmatter of markdown files, which no template
mentions; data files and metadata are not published. `stuart build` ends in the same way, with the same error if there is one, and leaves
the same everywhere but in the content; whatever mishaps there are. -/
theorem C112_build (h : Simple L cwd manifest s s1 p raw plugins) (h' : Simple L cwd manifest s' s1' p raw plugins)
    (hm : raw.toConfig.saveMetadata = false) (hj : raw.toConfig.saveDataFiles = false)
    (hd : RefieldedDisks M.sys plugins K (p.dropLast ++ [str!"content"]) s1.world.disk s1'.world.disk)
    (hf : s1.world.faults = s1'.world.faults) :
    (cmdBuild M L cwd manifest output s).2 = (cmdBuild M L cwd manifest output s').2 ∧
    ∀ q, ¬ p.dropLast ++ [str!"content"] <+: q →
      look (cmdBuild M L cwd manifest output s).1.world.disk q = look (cmdBuild M L cwd manifest output s').1.world.disk q := by
  obtain ⟨c, h1, h2, h3, h4, h5, h6, h7, h8, h9⟩ := simple_start L cwd manifest output s h str!"production"
  obtain ⟨c', h1', h2', h3', h4', h5', h6', h7', h8', h9'⟩ := simple_start L cwd manifest output s' h' str!"production"
  have hcc : c = c' := simple_context L cwd manifest output s s1 s' s1' p raw plugins h h' h1 h1'
  subst hcc
  have hr : cmdBuild M L cwd manifest output s = ((c.build M s1).2.1, (c.build M s1).2.2) := by simp only [cmdBuild, h1]
  have hr' : cmdBuild M L cwd manifest output s' = ((c.build M s1').2.1, (c.build M s1').2.2) := by simp only [cmdBuild, h1']
  rw [hr, hr']
  obtain ⟨k1, k2⟩ := contextBuild_but (FileBut.tell (K := K)) (M := M) h8 h9 (by rw [h5, h4]) (by rw [h2]; exact hm) (by rw [h2]; exact hj)
    (s := s1) (s' := s1') (by rw [h3, h5]; exact hd) hf
  refine ⟨k2, fun q hq => look_but k1.disk ?_⟩
  rw [h5]
  exact hq
end

/-! ### Cases -/

/-- A sufficient test: the key does not occur after a dot. -/
def keyFree (v k : Str) : Bool := (List.range (v.length + 1)).all fun n => !('.' :: k).isPrefixOf (v.drop n)

theorem keyFree_clear {v k : Str} (h : keyFree v k = true) : ¬ KeyIn v k := by
  rintro ⟨a, c, rfl, _⟩
  simp only [keyFree, List.all_eq_true, List.mem_range] at h
  have := h a.length (by simp; omega)
  have hk : ('.' :: k).isPrefixOf (List.drop a.length (a ++ '.' :: k ++ c)) = true := by
    rw [List.isPrefixOf_iff_prefix]
    exact ⟨c, by simp⟩
  rw [hk] at this
  cases this

def silentCheck (K : List Str) (toks : List LTok) : Bool :=
  toks.all fun t => (match t.inner with | .func (.plugin _) => false | _ => true) && (readsOf t.inner).all fun v => K.all fun k => keyFree v k

theorem silentCheck_silent {K : List Str} {toks : List LTok} (h : silentCheck K toks = true) : Silent K toks := by
  simp only [silentCheck, List.all_eq_true, Bool.and_eq_true] at h
  intro t ht
  obtain ⟨h1, h2⟩ := h t ht
  refine ⟨fun f hf => ?_, fun v hv k hk => keyFree_clear (h2 v hv k hk)⟩
  rw [hf] at h1
  cases h1

def htmlOf : Res SErr Parsed → List LTok
  | .ok (.html ts) => ts
  | _ => []

def isHtml : Res SErr Parsed → Bool
  | .ok (.html _) => true
  | _ => false

def mdOf : Res SErr Parsed → ParsedMd
  | .ok (.markdown md) => md
  | _ => ⟨[], [], [], none⟩

def isMd : Res SErr Parsed → Bool
  | .ok (.markdown _) => true
  | _ => false

theorem mdOf_eq {r : Res SErr Parsed} (h : isMd r = true) : r = .ok (.markdown (mdOf r)) := by
  unfold isMd at h
  split at h
  · rfl
  · cases h

/-- A template read from two disks. -/
theorem silent_file {S : Sys} {K : List Str} {p : Path} {nm : Str} {b : Bytes}
    (h1 : isHtml (parseContents S [] nm (pathStr (p ++ [nm])) b) = true)
    (h2 : silentCheck K (htmlOf (parseContents S [] nm (pathStr (p ++ [nm])) b)) = true) : Changed S [] (FileBut K) p nm (.file b) (.file b) := by
  cases h : parseContents S [] nm (pathStr (p ++ [nm])) b with
  | ok c =>
    rw [h] at h1 h2
    cases c with
    | html toks => exact .file (parseContents_ok.1 h) (parseContents_ok.1 h) (.html (silentCheck_silent h2))
    | _ => cases h1
  | _ => rw [h] at h1; cases h1

/-- Two data files: a list of entries with a name and a rank; in one they have notes too, and the first has another. -/
def fieldData (n : Nat) : Value :=
  let extra := if n = 0 then [] else [(str!"note", Value.obj [(str!"name", .num (.fin 3))])]
  let extra' := if n = 0 then [(str!"note", Value.str str!"old")] else []
  .obj ([(str!"list", .arr [.obj ((str!"name", .str str!"x") :: extra ++ [(str!"rank", .str str!"2")]),
    .obj (extra' ++ [(str!"name", .str str!"y"), (str!"rank", .str str!"1")])])] ++ extra)

def fieldMachine : Machine :=
  { idleMachine with sys := { demoSys with parseJson := fun s => if s = str!"0" then some (fieldData 0) else if s = str!"1" then some (fieldData 1) else none } }

def fieldPage (t : Str) : Str := str!"{{ begin(\"b\") }}{{ import($d, \"d.json\") }}{{ for($e, $d.list, sortby=$e.rank) }}{{ $e.name }};{{ end(for) }}" ++
  t ++ str!"{{ end(\"b\") }}"

def fieldRoot : Str := str!"<{{ insert(\"b\") }}>"
def fieldMd : Str := str!"{{ begin(\"b\") }}{{ $self.title }}: {{ $self.content }}{{ end(\"b\") }}"
def fieldPost (front : Str) : Str := str!"---\ntitle: \"T\"\n" ++ front ++ str!"---\nbody"

/-- A project with this data file, this page and this frontmatter. -/
def fieldDisk (data page front : Str) : Entry := .dir [(str!"p", .dir [
  (str!"stuart.toml", .file (bytesOf str!"name")),
  (str!"content", .dir [
    (str!"d.json", .file (bytesOf data)),
    (str!"root.html", .file (bytesOf fieldRoot)),
    (str!"md.html", .file (bytesOf fieldMd)),
    (str!"a.html", .file (bytesOf (fieldPage page))),
    (str!"x.md", .file (bytesOf (fieldPost front)))])])]

def fieldHost (data page front : Str) : Host := ⟨⟨fieldDisk data page front, []⟩, []⟩

def fieldBuilt (data page front : Str) : Host × Res CliErr Unit :=
  cmdBuild fieldMachine shortLoader [str!"p"] str!"stuart.toml" str!"dist" (fieldHost data page front)

theorem fieldHost_simple (data page front : Str) :
    Simple shortLoader [str!"p"] str!"stuart.toml" (fieldHost data page front) (fieldHost data page front) [str!"p", str!"stuart.toml"]
      ⟨str!"name", none, none, none⟩ [] where
  found := canonicalize_names.1 rfl
  text := ⟨str!"name", rfl, rfl⟩
  loaded := rfl
  functions := nofun
  scripts := rfl

theorem fieldData_but : ValueBut [str!"note"] (fieldData 0) (fieldData 1) :=
  .obj (.same _ (.arr (.cons (.obj (.same _ (.str _) (.right _ (by decide) (.same _ (.str _) .nil))))
    (.cons (.obj (.left _ (by decide) (.same _ (.str _) (.same _ (.str _) .nil)))) .nil))) (.right _ (by decide) .nil))

def fieldParsed (nm : Str) (s : Str) : Res SErr Parsed :=
  parseContents fieldMachine.sys [] nm (pathStr [str!"p", str!"content", nm]) (bytesOf s)

theorem field_front : FrontBut [str!"note"] (mdOf (fieldParsed str!"x.md" (fieldPost []))).frontmatter
    (mdOf (fieldParsed str!"x.md" (fieldPost str!"note: \"n\"\n"))).frontmatter := by
  have h : (mdOf (fieldParsed str!"x.md" (fieldPost []))).frontmatter = [(str!"title", str!"T")] := by decide +kernel
  have h' : (mdOf (fieldParsed str!"x.md" (fieldPost str!"note: \"n\"\n"))).frontmatter = [(str!"title", str!"T"), (str!"note", str!"n")] := by
    decide +kernel
  rw [h, h']
  exact .same _ _ (.right _ (by decide) .nil)

theorem field_twins : RefieldedDisks fieldMachine.sys [] [str!"note"] [str!"p", str!"content"] (fieldDisk str!"0" [] [])
    (fieldDisk str!"1" [] str!"note: \"n\"\n") where
  alike := .dir (.cons (.dir (.cons (.file (.inl rfl)) (.cons (.dir (.cons (.file (.inr (by decide)))
    (.cons (.file (.inl rfl)) (.cons (.file (.inl rfl)) (.cons (.file (.inl rfl)) (.cons (.file (.inr (by decide))) .nil)))))) .nil))) .nil)
  content := ⟨_, _, rfl, rfl,
    .cons (.file (c := .json (fieldData 0)) (c' := .json (fieldData 1)) (parseContents_ok.1 rfl) (parseContents_ok.1 rfl)
      (.data fieldData_but)) (.cons (silent_file (by decide +kernel) (by decide +kernel))
    (.cons (silent_file (by decide +kernel) (by decide +kernel))
    (.cons (silent_file (by decide +kernel) (by decide +kernel))
    (.cons (.file (c := .markdown (mdOf (fieldParsed str!"x.md" (fieldPost []))))
      (c' := .markdown (mdOf (fieldParsed str!"x.md" (fieldPost str!"note: \"n\"\n"))))
      (parseContents_ok.1 (mdOf_eq (by decide +kernel))) (parseContents_ok.1 (mdOf_eq (by decide +kernel)))
      (.markdown field_front (by decide +kernel) (by decide +kernel) rfl (silentCheck_silent (by decide +kernel)))) .nil))))⟩

theorem field_same {K : List Str} {data page front data' page' front' : Str}
    (h : RefieldedDisks fieldMachine.sys [] K [str!"p", str!"content"] (fieldDisk data page front) (fieldDisk data' page' front'))
    (q : Path) (hq : ¬ [str!"p", str!"content"] <+: q) :
    look (fieldBuilt data page front).1.world.disk q = look (fieldBuilt data' page' front').1.world.disk q :=
  (C112_build K fieldMachine shortLoader [str!"p"] str!"stuart.toml" str!"dist" (fieldHost data page front) _
    (fieldHost data' page' front') _ _ _ [] (fieldHost_simple _ _ _) (fieldHost_simple _ _ _) rfl rfl h rfl).2 q hq

/-- The page with the loop, and the one of the markdown file, -/
example : look (fieldBuilt str!"1" [] str!"note: \"n\"\n").1.world.disk [str!"p", str!"dist", str!"a", str!"index.html"] =
      some (.file (bytesOf str!"<y;x;>")) ∧
    look (fieldBuilt str!"1" [] str!"note: \"n\"\n").1.world.disk [str!"p", str!"dist", str!"x", str!"index.html"] =
      some (.file (bytesOf str!"<T: <body>>")) :=
  ⟨(field_same field_twins _ (by decide)).symm.trans (by decide +kernel), (field_same field_twins _ (by decide)).symm.trans (by decide +kernel)⟩

/-- but a page that mentions the field is another one, -/
example : look (fieldBuilt str!"0" str!"{{ ifdefined($d.note) }}N{{ end(ifdefined) }}" []).1.world.disk [str!"p", str!"dist", str!"a", str!"index.html"] =
      some (.file (bytesOf str!"<y;x;>")) ∧
    look (fieldBuilt str!"1" str!"{{ ifdefined($d.note) }}N{{ end(ifdefined) }}" []).1.world.disk [str!"p", str!"dist", str!"a", str!"index.html"] =
      some (.file (bytesOf str!"<y;x;N>")) := by decide +kernel

/-- and a mention anywhere in the path is one. -/
example : KeyIn str!"d.note.name" str!"note" ∧ ¬ KeyIn str!"note.name" str!"note" ∧ ¬ KeyIn str!"d.notes" str!"note" := by
  refine ⟨⟨str!"d", str!".name", rfl, .inr ⟨_, rfl⟩⟩, keyFree_clear (by decide), ?_⟩
  rintro ⟨a, c, h, hc⟩
  have hl := congrArg List.length h
  simp at hl
  match a, h, hl with
  | [], h, _ => cases h
  | [x], h, _ =>
    simp at h
    rcases hc with k | ⟨r, k⟩
    · rw [k] at h; exact absurd h.2 (by decide)
    · rw [k] at h; exact absurd (List.cons.inj h.2).1 (by decide)
  | [x, y], h, _ => simp at h
  | _ :: _ :: _ :: _, _, hl => simp at hl; omega

/-- Tokens, for the theorems about one template. -/
def fieldToks : List LTok := [⟨.func (.for_ ⟨str!"e", str!"self.list", .jsonObj, none, none, some str!"e.rank", false⟩), str!"a", 1, 1⟩,
  ⟨.var str!"e.name", str!"a", 1, 9⟩, ⟨.func (.end_ str!"for" false), str!"a", 1, 20⟩]

example := (C112_run [str!"note"] ⟨.dir str!"c" [] str!"/c", fun _ _ => none⟩ [] str!"m" fieldToks (silentCheck_silent (by decide)) str!"self" _ _
  fieldData_but []).1 _ _ _ rfl

example := C112_page [str!"note"] ⟨.dir str!"c" [] str!"/c", fun _ _ => none⟩ [] str!"m" fieldToks fieldToks (silentCheck_silent (by decide))
  (silentCheck_silent (by decide)) str!"a" _ _ fieldData_but

end Stuart
