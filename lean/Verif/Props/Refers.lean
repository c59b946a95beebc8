import Verif.Proof.Refers
/-
Property C106: a page depends on nothing but what it refers to.
-/
namespace Stuart
open Spec

/-! ### C106 -/

section
variable (S : Sys) (plugins : List Plugin) (d d' : Entry) (p : Path) (base : Frame) (name name' : Str) (cs ts cs' ts' : List Node)

/-- C106. Two contents with the same file, the same templates for it, and the same at every place these refer to, directly or by
markdown found there: the same is made of the file. -/
theorem C106_page (h : Content S plugins d p base name cs ts) (h' : Content S plugins d' p base name' cs' ts') (hd : ProperDisk d)
    (hd' : ProperDisk d') (places : List Str → Prop) (ds : List Str) (nm : Str) (hs : SameFor S plugins d d' p places ds nm)
    (nm' : Str) (b : Bytes) :
    MadeInto S plugins d p base (.dir name cs (pathStr p)) (.dir name ts (pathStr p)) ds nm nm' b ↔
      MadeInto S plugins d' p base (.dir name' cs' (pathStr p)) (.dir name' ts' (pathStr p)) ds nm nm' b :=
  ⟨madeInto_go h h' hd hs, madeInto_go h' h hd' (sameFor_symm hs)⟩

/-- C106. If the contents differ at one place at most, which has nothing to do with templates, and no file elsewhere refers to it,
or to a directory above it, or to anything below it, then every file elsewhere depends on the same. -/
theorem C106_elsewhere (x : List Str) (h : DifferAt d d' p x) (hx : ∀ t ∈ [str!"root.html", str!"md.html"], t ∉ x)
    (hr : ∀ ds nm, Elsewhere x (ds ++ [nm]) → FileRefersTo S plugins d p (Elsewhere x) ds nm)
    (ds : List Str) (nm : Str) (hn : Elsewhere x (ds ++ [nm])) : SameFor S plugins d d' p (Elsewhere x) ds nm := by
  have hlook : ∀ names, Elsewhere x names → look d (p ++ names) = look d' (p ++ names) := fun names k => by
    rw [look, look, h names k.1 k.2]
  have ht : ∀ t ∈ [str!"root.html", str!"md.html"], ∀ q, q <+: ds → Elsewhere x (q ++ [t]) := by
    intro t ht q hq
    refine ⟨fun k => hx t ht (k.subset (by simp)), fun k => ?_⟩
    rcases List.prefix_concat_iff.1 k with k | k
    · exact hx t ht (by rw [k]; simp)
    · exact hn.2 ((k.trans hq).trans (List.prefix_append ..))
  refine ⟨by simpa using hlook _ hn, ?_, fun names k => h names k.1 k.2, hr ds nm hn, fun t h1 q hq => hr q t (ht t h1 q hq.1), ?_⟩
  · intro t h1 q b
    have e : ∀ q, q <+: ds → look d (p ++ q ++ [t]) = look d' (p ++ q ++ [t]) := fun q hq => by simpa using hlook _ (ht t h1 q hq)
    constructor
    · rintro ⟨⟨k1, k2, k3⟩, k4⟩
      rw [e q k1] at k2 k4
      exact ⟨⟨k1, k2, fun q' i1 i2 => k3 q' i1 (by rwa [e q' i1])⟩, k4⟩
    · rintro ⟨⟨k1, k2, k3⟩, k4⟩
      rw [← e q k1] at k2 k4
      exact ⟨⟨k1, k2, fun q' i1 i2 => k3 q' i1 (by rwa [← e q' i1])⟩, k4⟩
  · intro names k ds nm hp _
    refine hr ds nm ⟨fun i => k.1 (hp.trans i), fun i => ?_⟩
    rcases Nat.le_total x.length names.length with j | j
    · exact k.2 (List.prefix_of_prefix_length_le i hp j)
    · exact k.1 (List.prefix_of_prefix_length_le hp i j)
end

section
variable (M : Machine) (c : Context)

/-- C106. Two sites published in the same way: at the place of a page there is the same in both, if the page depends on the same and
nothing else gets there. -/
theorem C106_site (s1 s2 s1' s2' : Host) (name src name' src' : Str) (os os' : List Node) (h : Publishes M c s1 s2 name src os)
    (h' : Publishes M c s1' s2' name' src' os') (hd : ProperDisk s1.world.disk) (hd' : ProperDisk s1'.world.disk) (hout : c.outPath ≠ [])
    (hp : FunctionsOnly c.stuart.plugins) (ht : Tame c.stuart.config c.stuart.plugins s1.world.disk c.dir c.stuart.dir)
    (ht' : Tame c.stuart.config c.stuart.plugins s1'.world.disk c.dir c.stuart.dir) (places : List Str → Prop) (ds : List Str)
    (stem : Str) (hs : stem ≠ [])
    (hsame : ∀ nm ∈ [stem ++ str!".html", stem ++ str!".md"],
      SameFor M.sys c.stuart.plugins s1.world.disk s1'.world.disk c.stuart.dir places ds nm)
    (hone : look s1.world.disk (c.stuart.dir ++ ds ++ [stem ++ str!".md"]) = none ∨
      look s1.world.disk (c.stuart.dir ++ ds ++ [stem ++ str!".html"]) = none)
    (hf : PlaceFree c.stuart.config s1.world.disk c.dir c.stuart.dir ds stem)
    (hf' : PlaceFree c.stuart.config s1'.world.disk c.dir c.stuart.dir ds stem) (b : Bytes) :
    look s2.world.disk (c.outPath ++ placeOf c.stuart.config ds stem) = some (.file b) ↔
      look s2'.world.disk (c.outPath ++ placeOf c.stuart.config ds stem) = some (.file b) := by
  obtain ⟨cs, ts, h1, h2⟩ := C83_site_partial s1 s2 name src os h hd hout ht
  obtain ⟨cs', ts', h1', h2'⟩ := C83_site_partial s1' s2' name' src' os' h' hd' hout ht'
  have hne : c.outPath ++ placeOf c.stuart.config ds stem ≠ c.dir ++ [str!"metadata.json"] := by
    intro k
    unfold placeOf at k
    have k := congrArg List.getLast? k
    split at k
    · simp at k
    · simp only [← List.append_assoc, List.getLast?_concat, Option.some.injEq] at k
      have := congrArg List.getLast? k
      simp [List.getLast?_append] at this
  obtain ⟨g1, g2, _⟩ := h2 (placeOf c.stuart.config ds stem) fun _ => hne
  obtain ⟨g1', g2', _⟩ := h2' (placeOf c.stuart.config ds stem) fun _ => hne
  simp only [belongs_place _ _ _ _ _ _ _ _ _ ds stem hs hf] at g1 g2
  simp only [belongs_place _ _ _ _ _ _ _ _ _ ds stem hs hf'] at g1' g2'
  have hin : ∀ {d input tree nm b}, MadeInto M.sys c.stuart.plugins d c.stuart.dir (baseFrame M.sys.vars c.mode) input tree ds nm (stem ++ str!".html") b →
      nm ∈ [stem ++ str!".html", stem ++ str!".md"] := by
    intro d input tree nm b k
    rcases (made_name hp k).2 with ⟨_, rfl⟩ | ⟨st, rfl, e⟩
    · simp
    · cases List.append_cancel_right e
      simp
  have go : ∀ b, Yields M.sys c.stuart.plugins c.stuart.config s1.world.disk c.stuart.dir (baseFrame M.sys.vars c.mode)
        (.dir name cs (pathStr c.stuart.dir)) (.dir name ts (pathStr c.stuart.dir)) ds (stem ++ str!".html") b ↔
      Yields M.sys c.stuart.plugins c.stuart.config s1'.world.disk c.stuart.dir (baseFrame M.sys.vars c.mode)
        (.dir name' cs' (pathStr c.stuart.dir)) (.dir name' ts' (pathStr c.stuart.dir)) ds (stem ++ str!".html") b := by
    intro b
    constructor
    · rintro ⟨nm, b0, c0, c1, k1, k2, k3, k4, k5⟩
      have k : MadeInto .. := ⟨b0, c0, c1, k1, k2, k3, k4⟩
      obtain ⟨b0, c0, c1, j1, j2, j3, j4⟩ := madeInto_go h1 h1' hd (hsame nm (hin k)) k
      exact ⟨nm, b0, c0, c1, j1, j2, j3, j4, k5⟩
    · rintro ⟨nm, b0, c0, c1, k1, k2, k3, k4, k5⟩
      have k : MadeInto .. := ⟨b0, c0, c1, k1, k2, k3, k4⟩
      obtain ⟨b0, c0, c1, j1, j2, j3, j4⟩ := madeInto_go h1' h1 hd' (sameFor_symm (hsame nm (hin k))) k
      exact ⟨nm, b0, c0, c1, j1, j2, j3, j4, k5⟩
  have one : ∀ b b', Yields M.sys c.stuart.plugins c.stuart.config s1.world.disk c.stuart.dir (baseFrame M.sys.vars c.mode)
        (.dir name cs (pathStr c.stuart.dir)) (.dir name ts (pathStr c.stuart.dir)) ds (stem ++ str!".html") b →
      Yields M.sys c.stuart.plugins c.stuart.config s1.world.disk c.stuart.dir (baseFrame M.sys.vars c.mode)
        (.dir name cs (pathStr c.stuart.dir)) (.dir name ts (pathStr c.stuart.dir)) ds (stem ++ str!".html") b' → b = b' := by
    rintro b b' ⟨nm, b0, c0, c1, k1, k2, k3, k4, k5⟩ ⟨nm', b0', c0', c1', j1, j2, j3, j4, j5⟩
    have k : MadeInto .. := ⟨b0, c0, c1, k1, k2, k3, k4⟩
    have j : MadeInto .. := ⟨b0', c0', c1', j1, j2, j3, j4⟩
    have : nm = nm' := by
      have i1 := hin k
      have i2 := hin j
      simp only [List.mem_cons, List.not_mem_nil, or_false] at i1 i2
      rcases i1 with rfl | rfl <;> rcases i2 with rfl | rfl
      · rfl
      · rcases hone with i | i
        · rw [i] at j1; cases j1
        · rw [i] at k1; cases k1
      · rcases hone with i | i
        · rw [i] at k1; cases k1
        · rw [i] at j1; cases j1
      · rfl
    subst this
    exact (madeInto_one k j).2
  constructor
  · intro k
    have y := g1 b k
    obtain ⟨b', k'⟩ := g2' b ((go b).1 y)
    rw [k', one b b' y ((go b').2 (g1' b' k'))]
  · intro k
    have y := (go b).2 (g1' b k)
    obtain ⟨b', k'⟩ := g2 b y
    rw [k', one b b' y (g1 b' k')]

end

section
variable (M : Machine) (L : Loader) (cwd : Path) (manifest output : Str) (s s1 s' s1' : Host) (p : Path) (raw : RawConfig) (plugins : List Plugin)

theorem simple_context (h : Simple L cwd manifest s s1 p raw plugins) (h' : Simple L cwd manifest s' s1' p raw plugins) {mode : Str}
    {c c' : Context} (h1 : Context.init L cwd manifest output mode s = (s1, .ok c))
    (h1' : Context.init L cwd manifest output mode s' = (s1', .ok c')) : c = c' := by
  obtain ⟨t, k1, k2⟩ := h.text
  obtain ⟨t', k1', k2'⟩ := h'.text
  simp only [Context.init, canonicalize_names.2 h.found, at_file k1, fromUtf8_bytesOf, k2, h.loaded, findScripts,
    at_none_iff.2 h.scripts, Prod.mk.injEq, Res.ok.injEq] at h1
  simp only [Context.init, canonicalize_names.2 h'.found, at_file k1', fromUtf8_bytesOf, k2', h'.loaded, findScripts,
    at_none_iff.2 h'.scripts, Prod.mk.injEq, Res.ok.injEq] at h1'
  rw [← h1.2, ← h1'.2]

/-- C106. Two projects that `stuart build` has built, with the same manifest: at the place of a page there is the same in both, if the
page depends on the same and nothing else gets there. -/
theorem C106_published (h : Simple L cwd manifest s s1 p raw plugins) (h' : Simple L cwd manifest s' s1' p raw plugins)
    (hd : ProperDisk s1.world.disk) (hd' : ProperDisk s1'.world.disk) (hout : joinPath p.dropLast output ≠ [])
    (ht : Tame raw.toConfig plugins s1.world.disk p.dropLast (p.dropLast ++ [str!"content"]))
    (ht' : Tame raw.toConfig plugins s1'.world.disk p.dropLast (p.dropLast ++ [str!"content"]))
    (hok : (cmdBuild M L cwd manifest output s).2 = .ok ()) (hok' : (cmdBuild M L cwd manifest output s').2 = .ok ())
    (places : List Str → Prop) (ds : List Str) (stem : Str) (hs : stem ≠ [])
    (hsame : ∀ nm ∈ [stem ++ str!".html", stem ++ str!".md"],
      SameFor M.sys plugins s1.world.disk s1'.world.disk (p.dropLast ++ [str!"content"]) places ds nm)
    (hone : look s1.world.disk (p.dropLast ++ [str!"content"] ++ ds ++ [stem ++ str!".md"]) = none ∨
      look s1.world.disk (p.dropLast ++ [str!"content"] ++ ds ++ [stem ++ str!".html"]) = none)
    (hf : PlaceFree raw.toConfig s1.world.disk p.dropLast (p.dropLast ++ [str!"content"]) ds stem)
    (hf' : PlaceFree raw.toConfig s1'.world.disk p.dropLast (p.dropLast ++ [str!"content"]) ds stem) (b : Bytes) :
    look (cmdBuild M L cwd manifest output s).1.world.disk (joinPath p.dropLast output ++ placeOf raw.toConfig ds stem) = some (.file b) ↔
      look (cmdBuild M L cwd manifest output s').1.world.disk (joinPath p.dropLast output ++ placeOf raw.toConfig ds stem) = some (.file b) := by
  obtain ⟨c, h1, h2, h3, h4, h5, h6, h7, h8, h9⟩ := simple_start L cwd manifest output s h str!"production"
  obtain ⟨c', h1', h2', h3', h4', h5', h6', h7', h8', h9'⟩ := simple_start L cwd manifest output s' h' str!"production"
  have hcc : c = c' := simple_context L cwd manifest output s s1 s' s1' p raw plugins h h' h1 h1'
  subst hcc
  have hr : cmdBuild M L cwd manifest output s = ((c.build M s1).2.1, (c.build M s1).2.2) := by simp only [cmdBuild, h1]
  have hr' : cmdBuild M L cwd manifest output s' = ((c.build M s1').2.1, (c.build M s1').2.2) := by simp only [cmdBuild, h1']
  rw [hr] at hok ⊢
  rw [hr'] at hok' ⊢
  obtain ⟨s1, o, s2, e1, e2, e3, e4⟩ := Context.build_ok hok
  rw [h8] at e1
  cases e1
  rw [h9] at e4
  have e5 : s2 = (c.build M s1).2.1 := by injection e4
  obtain ⟨name, os, src, rfl⟩ := readBuild_dir e2
  obtain ⟨s1', o', s2', e1', e2', e3', e4'⟩ := Context.build_ok hok'
  rw [h8] at e1'
  cases e1'
  rw [h9] at e4'
  have e5' : s2' = (c.build M s1').2.1 := by injection e4'
  obtain ⟨name', os', src', rfl⟩ := readBuild_dir e2'
  have := C106_site M c s1 s2 s1' s2' name src name' src' os os' ⟨e2, e3⟩ ⟨e2', e3'⟩ hd hd' (by rw [h7]; exact hout)
    (by rw [h3]; exact h.functions) (by rw [h2, h3, h4, h5]; exact ht) (by rw [h2, h3, h4, h5]; exact ht') places ds stem hs
    (by rw [h3, h5]; exact hsame) (by rw [h5]; exact hone) (by rw [h2, h4, h5]; exact hf) (by rw [h2, h4, h5]; exact hf') b
  rw [h7, h2] at this
  rw [← e5, ← e5']
  exact this

/-- C106. A change at one place of the content that nothing else refers to changes no other page. -/
theorem C106_change (h : Simple L cwd manifest s s1 p raw plugins) (h' : Simple L cwd manifest s' s1' p raw plugins)
    (hd : ProperDisk s1.world.disk) (hd' : ProperDisk s1'.world.disk) (hout : joinPath p.dropLast output ≠ [])
    (ht : Tame raw.toConfig plugins s1.world.disk p.dropLast (p.dropLast ++ [str!"content"]))
    (ht' : Tame raw.toConfig plugins s1'.world.disk p.dropLast (p.dropLast ++ [str!"content"]))
    (hok : (cmdBuild M L cwd manifest output s).2 = .ok ()) (hok' : (cmdBuild M L cwd manifest output s').2 = .ok ())
    (x : List Str) (hx : ∀ t ∈ [str!"root.html", str!"md.html"], t ∉ x)
    (hdiff : DifferAt s1.world.disk s1'.world.disk (p.dropLast ++ [str!"content"]) x)
    (hr : ∀ ds nm, Elsewhere x (ds ++ [nm]) →
      FileRefersTo M.sys plugins s1.world.disk (p.dropLast ++ [str!"content"]) (Elsewhere x) ds nm)
    (ds : List Str) (stem : Str) (hs : stem ≠ [])
    (he : Elsewhere x (ds ++ [stem ++ str!".html"]) ∧ Elsewhere x (ds ++ [stem ++ str!".md"]))
    (hone : look s1.world.disk (p.dropLast ++ [str!"content"] ++ ds ++ [stem ++ str!".md"]) = none ∨
      look s1.world.disk (p.dropLast ++ [str!"content"] ++ ds ++ [stem ++ str!".html"]) = none)
    (hf : PlaceFree raw.toConfig s1.world.disk p.dropLast (p.dropLast ++ [str!"content"]) ds stem)
    (hf' : PlaceFree raw.toConfig s1'.world.disk p.dropLast (p.dropLast ++ [str!"content"]) ds stem) (b : Bytes) :
    look (cmdBuild M L cwd manifest output s).1.world.disk (joinPath p.dropLast output ++ placeOf raw.toConfig ds stem) = some (.file b) ↔
      look (cmdBuild M L cwd manifest output s').1.world.disk (joinPath p.dropLast output ++ placeOf raw.toConfig ds stem) = some (.file b) := by
  refine C106_published M L cwd manifest output s s1 s' s1' p raw plugins h h' hd hd' hout ht ht' hok hok' (Elsewhere x) ds stem hs
    (fun nm hn => ?_) hone hf hf' b
  simp only [List.mem_cons, List.not_mem_nil, or_false] at hn
  rcases hn with rfl | rfl
  · exact C106_elsewhere M.sys plugins _ _ _ x hdiff hx hr ds _ he.1
  · exact C106_elsewhere M.sys plugins _ _ _ x hdiff hx hr ds _ he.2

end

/-! ### Cases -/

/-- The files of a content without directories. -/
theorem flat_files {d : Entry} {p : Path} {l : List (Str × Entry)} (h : d.at p = some (.dir l)) (hl : ∀ e ∈ l, ∀ l', e.2 ≠ .dir l')
    {ds : List Str} {nm : Str} {b : Bytes} (hb : look d (p ++ ds ++ [nm]) = some (.file b)) : ds = [] ∧ (nm, .file b) ∈ l := by
  unfold look at hb
  rw [List.append_assoc, at_append, h] at hb
  cases ds with
  | nil =>
    simp only [Option.bind_some, List.nil_append, Entry.at] at hb
    cases hf : findEntry nm l with
    | none => simp [hf] at hb
    | some e =>
      cases e with
      | file b' =>
        simp only [hf, Option.map_some, kind, Option.some.injEq, Kind.file.injEq] at hb
        subst hb
        exact ⟨rfl, findEntry_in hf⟩
      | dir => simp [hf, kind] at hb
      | special => simp [hf, kind] at hb
  | cons y ds =>
    simp only [Option.bind_some, List.cons_append, Entry.at] at hb
    cases hf : findEntry y l with
    | none => simp [hf] at hb
    | some e =>
      cases e with
      | file b' => cases ds <;> simp [hf, Entry.at] at hb
      | dir l' => exact absurd rfl (hl _ (findEntry_in hf) l')
      | special => cases ds <;> simp [hf, Entry.at] at hb

/-- A path without slashes leads to one name. -/
theorem aims_name {path : Str} (h : '/' ∉ path) {names : List Str} (ha : Aims path names) : names = namesIn [path] := by
  obtain ⟨q, qs, _, rfl, _, rfl⟩ := ha
  cases qs with
  | nil => simp [slashed]
  | cons q1 qs => exact absurd (by simp [slashed]) h

/-- The paths in these tokens lead elsewhere. -/
def pathsAway (x : List Str) (toks : List LTok) : Bool :=
  toks.all fun t => (pathIn t.inner).all fun path => decide ('/' ∉ path) && decide (¬ namesIn [path] <+: x) && decide (¬ x <+: namesIn [path])

theorem pathsAway_refers {x : List Str} {toks : List LTok} (h : pathsAway x toks = true) : RefersTo (Elsewhere x) toks := by
  intro t ht path hp names ha
  have := List.all_eq_true.1 h t ht
  simp only [hp, Option.all_some, Bool.and_eq_true, decide_eq_true_eq] at this
  rw [aims_name this.1.1 ha]
  exact ⟨this.1.2, this.2⟩

/-- The same for what a file is read as. -/
def readAway (S : Sys) (x : List Str) (p : Path) (e : Str × Entry) : Bool :=
  match e.2 with
  | .file b => match parseContents S [] e.1 (pathStr (p ++ [e.1])) b with
    | .ok (.html toks) => pathsAway x toks
    | .ok (.markdown md) => pathsAway x md.markdown
    | _ => true
  | _ => true

theorem flat_refers {S : Sys} {d : Entry} {p : Path} {l : List (Str × Entry)} {x : List Str} (h : d.at p = some (.dir l))
    (hl : ∀ e ∈ l, ∀ l', e.2 ≠ .dir l') (hr : (l.filter fun e => decide ([e.1] ≠ x)).all (readAway S x p) = true) (ds : List Str) (nm : Str)
    (he : Elsewhere x (ds ++ [nm])) : FileRefersTo S [] d p (Elsewhere x) ds nm := by
  intro b hb
  obtain ⟨rfl, hm⟩ := flat_files h hl hb
  have hne : [nm] ≠ x := fun k => he.1 (by rw [← k]; exact List.prefix_refl _)
  have := List.all_eq_true.1 hr (nm, .file b) (List.mem_filter.2 ⟨hm, by simp [hne]⟩)
  simp only [readAway] at this
  constructor
  · intro toks k
    rw [List.append_nil] at k
    rw [parseContents_ok.2 k] at this
    exact pathsAway_refers this
  · intro md k
    rw [List.append_nil] at k
    rw [parseContents_ok.2 k] at this
    exact pathsAway_refers this

/-- A project with two pages, one of which shows what is in a data file. -/
def refDisk (data other : Str) : Entry := .dir [(str!"p", .dir [
  (str!"stuart.toml", .file (bytesOf str!"name")),
  (str!"content", .dir [
    (str!"root.html", .file (bytesOf str!"<{{ insert(\"b\") }}>")),
    (str!"a.html", .file (bytesOf str!"{{ begin(\"b\") }}{{ import($j, \"d.json\") }}{{ $j }}{{ end(\"b\") }}")),
    (str!"d.json", .file (bytesOf data)),
    (str!"e.html", .file (bytesOf other))])])]

def refHost (data other : Str) : Host := ⟨⟨refDisk data other, []⟩, []⟩

/-- Data files hold the string that is their text. -/
def refMachine : Machine := { idleMachine with sys := { demoSys with parseJson := fun s => some (.str s) } }

def refPage (t : Str) : Str := str!"{{ begin(\"b\") }}" ++ t ++ str!"{{ end(\"b\") }}"

/-- The disk after the build. -/
def refBuilt (data other : Str) : Entry :=
  (cmdBuild refMachine shortLoader [str!"p"] str!"stuart.toml" str!"dist" (refHost data (refPage other))).1.world.disk

theorem refHost_simple (data other : Str) :
    Simple shortLoader [str!"p"] str!"stuart.toml" (refHost data other) (refHost data other) [str!"p", str!"stuart.toml"]
      ⟨str!"name", none, none, none⟩ [] where
  found := canonicalize_names.1 rfl
  text := ⟨str!"name", rfl, rfl⟩
  loaded := rfl
  functions := nofun
  scripts := rfl

theorem ref_differ (data other other' : Str) :
    DifferAt (refDisk data other) (refDisk data other') [str!"p", str!"content"] [str!"e.html"] := by
  intro names h1 h2
  cases names with
  | nil => exact absurd List.nil_prefix h1
  | cons nm r =>
    have hne : nm ≠ str!"e.html" := by
      rintro rfl
      exact h2 (List.prefix_append [str!"e.html"] r)
    simp only [refDisk, List.cons_append, List.nil_append, Entry.at, findEntry]
    simp only [show (str!"stuart.toml" = str!"content") = False by simp, if_true, if_false, Entry.at, findEntry, if_neg (Ne.symm hne)]

theorem ref_shown (data : Str) (h : data = str!"one" ∨ data = str!"two") :
    look (refBuilt data str!"1") [str!"p", str!"dist", str!"a", str!"index.html"] = some (.file (bytesOf str!"<" ++ bytesOf data ++ bytesOf str!">")) := by
  rcases h with rfl | rfl <;> decide +kernel

/-- Another text of the data file changes the page that shows it; another text of the other page does not: so the theorem says. -/
example : look (refBuilt str!"one" str!"1") [str!"p", str!"dist", str!"a", str!"index.html"] = some (.file (bytesOf str!"<one>")) ∧
    look (refBuilt str!"one" str!"2") [str!"p", str!"dist", str!"a", str!"index.html"] = some (.file (bytesOf str!"<one>")) ∧
    look (refBuilt str!"two" str!"1") [str!"p", str!"dist", str!"a", str!"index.html"] = some (.file (bytesOf str!"<two>")) := by
  refine ⟨ref_shown _ (.inl rfl), ?_, ref_shown _ (.inr rfl)⟩
  exact (C106_change refMachine shortLoader [str!"p"] str!"stuart.toml" str!"dist" _ _ _ _ _ _ []
    (refHost_simple str!"one" (refPage str!"1")) (refHost_simple str!"one" (refPage str!"2"))
    (by unfold refHost refDisk; proper_disk) (by unfold refHost refDisk; proper_disk) (by decide)
    (tame_names (by decide +kernel) (by decide +kernel)) (tame_names (by decide +kernel) (by decide +kernel))
    (by decide +kernel) (by decide +kernel) [str!"e.html"] (by decide) (ref_differ _ _ _)
    (flat_refers (l := [_, _, _, _]) rfl (by simp) (by decide +kernel)) [] str!"a" (by decide)
    ⟨by unfold Elsewhere; decide, by unfold Elsewhere; decide⟩ (.inl rfl)
    ⟨by decide, by decide, rfl, by simp; exact ⟨rfl, rfl⟩⟩ ⟨by decide, by decide, rfl, by simp; exact ⟨rfl, rfl⟩⟩ _).1 (ref_shown _ (.inl rfl))

end Stuart
