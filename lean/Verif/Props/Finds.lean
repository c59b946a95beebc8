import Verif.Proof.Finds
import Verif.Props.Sheet
/-
Property C99: what loops and imports find.
-/
namespace Stuart
open Spec

theorem hasExt_one {nm x y : Str} (h : HasExt nm x) (h' : HasExt nm y) : x = y := by
  have := extension_iff.2 h
  rw [extension_iff.2 h'] at this
  cases this; rfl

section
variable {S : Sys} {plugins : List Plugin} {d : Entry} {p : Path} {base : Frame} {name : Str} {cs ts : List Node}

theorem content_read (h : Content S plugins d p base name cs ts) :
    ∃ l, d.at p = some (.dir l) ∧ ReadTo (ReadAs S plugins) p (.dir l) (.dir name cs (pathStr p)) := by
  obtain ⟨l, h1, h2⟩ := h.read
  exact ⟨l, h1, .dir h2⟩

/-- What the names lead to, in the content as read. -/
theorem content_reached (h : Content S plugins d p base name cs ts) (names : List Str) :
    (d.at (p ++ names) = none → reached (.dir name cs (pathStr p)) names = none) ∧
    ∀ e, d.at (p ++ names) = some e → ∃ n, reached (.dir name cs (pathStr p)) names = some n ∧ ReadTo (ReadAs S plugins) (p ++ names) e n := by
  obtain ⟨l, h1, h2⟩ := content_read h
  rw [at_append, h1, Option.bind_some]
  exact read_reached names h2

/-- What the names lead to, in the content with its markdown converted. -/
theorem content_reached_used (h : Content S plugins d p base name cs ts) (names : List Str) :
    (d.at (p ++ names) = none → reached (.dir name ts (pathStr p)) names = none) ∧
    ∀ e, d.at (p ++ names) = some e → ∃ n t, reached (.dir name ts (pathStr p)) names = some t ∧
      ReadTo (ReadAs S plugins) (p ++ names) e n ∧ UsedAs S.ext ⟨.dir name cs (pathStr p), S.dateFmt⟩ base n t := by
  have k1 := content_reached h names
  have k2 := used_reached names (UsedAs.dir (nm := name) (src := pathStr p) h.used)
  refine ⟨fun hn => k2.1 (k1.1 hn), fun e he => ?_⟩
  obtain ⟨n, j1, j2⟩ := k1.2 e he
  obtain ⟨t, j3, j4⟩ := k2.2 n j1
  exact ⟨n, t, j3, j2, j4⟩

/-- A reading as data, and nothing else, is that of a data file. -/
theorem read_data {nm src : Str} {b : Bytes} {v : Value} :
    ReadAs S plugins nm src b (.json v) ↔ HasExt nm str!"json" ∧ ∃ text, b = bytesOf text ∧ S.parseJson text = some v := by
  constructor
  · intro h
    cases h with
    | json h1 h2 h3 => exact ⟨h1, _, fromUtf8_sound h2, h3⟩
  · rintro ⟨h1, text, rfl, h3⟩
    exact .json h1 (fromUtf8_bytesOf _) h3


/-- What is at the end of a path, in the content as read or as used. -/
theorem tree_reached (h : Content S plugins d p base name cs ts) {tree : Node}
    (ht : tree ∈ [.dir name cs (pathStr p), .dir name ts (pathStr p)]) (names : List Str) :
    (look d (p ++ names) = none → reached tree names = none) ∧
    (look d (p ++ names) = some .dir → ∃ nm l src, reached tree names = some (.dir nm l src)) ∧
    ∀ b, look d (p ++ names) = some (.file b) → ∃ ds nm c c' m src, names = ds ++ [nm] ∧ reached tree names = some (.file nm b c' m src) ∧
      ReadAs S plugins nm (pathStr (p ++ names)) b c ∧ ∀ v, c = .json v ↔ c' = .json v := by
  have hnone : look d (p ++ names) = none ↔ d.at (p ++ names) = none := by simp [look]
  have hlast : ∀ b nm, look d (p ++ names) = some (.file b) → (p ++ names).getLast? = some nm → ∃ ds, names = ds ++ [nm] := by
    intro b nm hl hn
    rcases List.eq_nil_or_concat names with rfl | ⟨ds, x, rfl⟩
    · obtain ⟨l, k, _⟩ := h.read
      rw [List.append_nil, look, k] at hl
      cases hl
    · rw [List.concat_eq_append, ← List.append_assoc, List.getLast?_append] at hn
      simp at hn
      subst hn
      exact ⟨ds, by simp⟩
  simp only [List.mem_cons, List.not_mem_nil, or_false] at ht
  rcases ht with rfl | rfl
  · obtain ⟨k1, k2⟩ := content_reached h names
    refine ⟨fun hn => k1 (hnone.1 hn), fun hd => ?_, fun b hb => ?_⟩
    · obtain ⟨e, he, hk⟩ := Option.map_eq_some_iff.1 hd
      obtain ⟨n, j1, j2⟩ := k2 e he
      cases j2 with
      | file => cases hk
      | dir => exact ⟨_, _, _, j1⟩
    · obtain ⟨e, he, hk⟩ := Option.map_eq_some_iff.1 hb
      obtain ⟨n, j1, j2⟩ := k2 e he
      cases j2 with
      | dir => cases hk
      | file i1 i2 =>
        cases hk
        obtain ⟨ds, hds⟩ := hlast _ _ hb i1
        exact ⟨ds, _, _, _, _, _, hds, j1, i2, fun _ => Iff.rfl⟩
  · obtain ⟨k1, k2⟩ := content_reached_used h names
    refine ⟨fun hn => k1 (hnone.1 hn), fun hd => ?_, fun b hb => ?_⟩
    · obtain ⟨e, he, hk⟩ := Option.map_eq_some_iff.1 hd
      obtain ⟨n, t, j1, j2, j3⟩ := k2 e he
      cases j2 with
      | file => cases hk
      | dir => cases j3; exact ⟨_, _, _, j1⟩
    · obtain ⟨e, he, hk⟩ := Option.map_eq_some_iff.1 hb
      obtain ⟨n, t, j1, j2, j3⟩ := k2 e he
      cases j2 with
      | dir => cases hk
      | file i1 i2 =>
        cases hk
        obtain ⟨ds, hds⟩ := hlast _ _ hb i1
        cases j3 with
        | file i3 =>
          refine ⟨ds, _, _, _, _, _, hds, j1, i2, fun v => ?_⟩
          cases i3 with
          | same => exact Iff.rfl
          | markdown => exact ⟨nofun, nofun⟩

theorem tree_not_special (h : Content S plugins d p base name cs ts) (names : List Str) : look d (p ++ names) ≠ some .special := by
  intro hs
  obtain ⟨e, he, hk⟩ := Option.map_eq_some_iff.1 hs
  obtain ⟨n, j1, j2⟩ := (content_reached h names).2 e he
  cases j2 <;> cases hk

/-- Markdown that has just been read is not converted. -/
theorem early_items {q : Path} : ∀ {es : List (Str × Entry)} {cs : List Node}, ReadList (ReadAs S plugins) q es cs →
    ∀ {nm : Str} {b : Bytes}, (nm, .file b) ∈ es → HasExt nm str!"md" → mdItems cs = .panic .htmlNotReady
  | _, _, .cons (nm := m) (e := e) hr hrs, nm, b, hm, hx => by
    have ih : (nm, Entry.file b) ≠ (m, e) → _ := fun hne => early_items hrs ((List.mem_cons.1 hm).resolve_left hne) hx
    cases hr with
    | dir => simp only [mdItems]; exact ih nofun
    | file hr =>
      cases hr with
      | markdown h1 h2 h3 =>
        obtain ⟨⟨_, _⟩, _, h3⟩ := Res.bind_eq_ok.1 h3
        obtain ⟨_, _, h3⟩ := Res.bind_eq_ok.1 h3
        cases h3
        rfl
      | html k => simp only [mdItems]; exact ih fun he => by cases he; cases hasExt_one hx k
      | json k => simp only [mdItems]; exact ih fun he => by cases he; cases hasExt_one hx k
      | custom k1 k2 k3 => simp only [mdItems]; exact ih fun he => by cases he; exact k3 (hasExt_one k1 hx)
      | other k => simp only [mdItems]; exact ih fun he => by cases he; exact (k _ hx).2.1 rfl

variable (S plugins d p base name cs ts) (h : Content S plugins d p base name cs ts) (tree : Node)
  (ht : tree ∈ [.dir name cs (pathStr p), .dir name ts (pathStr p)])
include h ht

/-- Data is found where the file has it. -/
theorem tree_data (path : Str) (v : Value) :
    (∃ nm b m src, written tree path = some (.file nm b (.json v) m src)) ↔ ∃ names, Aims path names ∧ DataIs S d p names v := by
  constructor
  · rintro ⟨nm, b, m, src, hw⟩
    by_cases ha : ∃ names, Aims path names
    · obtain ⟨names, ha⟩ := ha
      rw [written_aims tree ha] at hw
      obtain ⟨k1, k2, k3⟩ := tree_reached h ht names
      refine ⟨names, ha, ?_⟩
      cases hl : look d (p ++ names) with
      | none => rw [k1 hl] at hw; cases hw
      | some k =>
        cases k with
        | dir => obtain ⟨_, _, _, k⟩ := k2 hl; rw [k] at hw; cases hw
        | special => exact absurd hl (tree_not_special h names)
        | file b =>
          obtain ⟨ds, nm', c, c', m', src', e1, e2, e3, e4⟩ := k3 b hl
          rw [e2] at hw
          cases hw
          cases (e4 v).2 rfl
          obtain ⟨i1, text, rfl, i2⟩ := read_data.1 e3
          exact ⟨ds, _, text, e1, i1, hl, i2⟩
    · rw [written_astray tree fun names hn => ha ⟨names, hn⟩] at hw
      cases hw
  · rintro ⟨names, ha, ds, nm, text, rfl, hx, hl, hj⟩
    rw [written_aims tree ha]
    obtain ⟨ds', nm', c, c', m', src', e1, e2, e3, e4⟩ := (tree_reached h ht _).2.2 _ hl
    obtain ⟨_, e1⟩ := List.append_inj' e1 rfl
    cases e1
    have := C63_one_way _ _ _ _ _ _ _ e3 (read_data.2 ⟨hx, text, rfl, hj⟩)
    cases (e4 v).1 this
    exact ⟨_, _, _, _, e2⟩

/-- C99. An import succeeds where the path leads to a data file of the content, and the innermost scope does not have the
variable yet; it defines the variable as the file's value. -/
theorem C99_import (scs : Scopes) (secs : Sections) (v path : Str) (r : Out) :
    yields ⟨tree, S.dateFmt⟩ scs secs (.func (.import_ v path)) = .ok r ↔
      ∃ names j, Aims path names ∧ DataIs S d p names j ∧ (scs.headD []).lookup v = none ∧ r = ⟨[(v, j)], [], []⟩ := by
  have key := tree_data S plugins d p base name cs ts h tree ht path
  simp only [yields]
  constructor
  · intro hr
    split at hr
    · rename_i nm b j m src hw
      obtain ⟨names, k1, k2⟩ := (key j).1 ⟨nm, b, m, src, hw⟩
      split at hr
      · cases hr
      · rename_i hv
        cases hr
        exact ⟨names, j, k1, k2, by rw [Bool.not_eq_true, Option.isSome_eq_false_iff] at hv; exact Option.isNone_iff_eq_none.1 hv, rfl⟩
    · cases hr
    · cases hr
  · rintro ⟨names, j, k1, k2, hv, rfl⟩
    obtain ⟨nm, b, m, src, hw⟩ := (key j).2 ⟨names, k1, k2⟩
    simp only [hw, hv, Option.isSome_none, Bool.false_eq_true, if_false]

/-- C99. A loop over a file visits the elements of the array in it, if the path leads to a data file of the content that has
one. -/
theorem C99_data (f : ForFn) (hf : f.kind = .jsonFile) (scs : Scopes) (l : List Value) :
    source ⟨tree, S.dateFmt⟩ f scs = .ok l ↔ ∃ names, Aims f.source names ∧ DataIs S d p names (.arr l) := by
  rw [← tree_data S plugins d p base name cs ts h tree ht]
  simp only [source, hf]
  constructor
  · intro hr
    split at hr
    · rename_i nm b l' m src hw
      cases hr
      exact ⟨nm, b, m, src, hw⟩
    · cases hr
    · cases hr
  · rintro ⟨nm, b, m, src, hw⟩
    simp [hw]

/-- C99. If the path does not lead to anything of the right kind, there is nothing to be found. -/
theorem C99_not_found (path : Str) :
    ((∀ names b, Aims path names → look d (p ++ names) ≠ some (.file b)) →
      (∀ v scs secs, yields ⟨tree, S.dateFmt⟩ scs secs (.func (.import_ v path)) = .err (.notFound path)) ∧
      ∀ f scs, f.kind = .jsonFile → f.source = path → source ⟨tree, S.dateFmt⟩ f scs = .err (.notFound path)) ∧
    ((∀ names, Aims path names → look d (p ++ names) ≠ some .dir) →
      ∀ f scs, f.kind = .mdDir → f.source = path → source ⟨tree, S.dateFmt⟩ f scs = .err (.notFound path)) := by
  have key : written tree path = none ∨ ∃ names, Aims path names ∧ written tree path = reached tree names := by
    by_cases ha : ∃ names, Aims path names
    · obtain ⟨names, ha⟩ := ha
      exact .inr ⟨names, ha, written_aims tree ha⟩
    · exact .inl (written_astray tree fun names hn => ha ⟨names, hn⟩)
  constructor
  · intro hn
    have hw : written tree path = none ∨ ∃ nm l src, written tree path = some (.dir nm l src) := by
      rcases key with k | ⟨names, ha, hw⟩
      · exact .inl k
      · obtain ⟨k1, k2, k3⟩ := tree_reached h ht names
        cases hl : look d (p ++ names) with
        | none => exact .inl (by rw [hw, k1 hl])
        | some k =>
          cases k with
          | dir => obtain ⟨a, b, c, k⟩ := k2 hl; exact .inr ⟨a, b, c, by rw [hw, k]⟩
          | special => exact absurd hl (tree_not_special h names)
          | file b => exact absurd hl (hn names b ha)
    refine ⟨fun v scs secs => ?_, fun f scs hf hs => ?_⟩
    · rcases hw with hw | ⟨_, _, _, hw⟩ <;> simp [yields, hw]
    · subst hs
      rcases hw with hw | ⟨_, _, _, hw⟩ <;> simp [source, hf, hw]
  · intro hn f scs hf hs
    subst hs
    have hw : written tree f.source = none ∨ ∃ nm b c m src, written tree f.source = some (.file nm b c m src) := by
      rcases key with k | ⟨names, ha, hw⟩
      · exact .inl k
      · obtain ⟨k1, k2, k3⟩ := tree_reached h ht names
        cases hl : look d (p ++ names) with
        | none => exact .inl (by rw [hw, k1 hl])
        | some k =>
          cases k with
          | dir => exact absurd hl (hn names ha)
          | special => exact absurd hl (tree_not_special h names)
          | file b =>
            obtain ⟨ds', nm', c, c', m', src', e1, e2, e3, e4⟩ := k3 b hl
            exact .inr ⟨_, _, _, _, _, by rw [hw, e2]⟩
    rcases hw with hw | ⟨_, _, _, _, _, hw⟩ <;> simp [source, hf, hw]

omit h ht

/-- The markdown of a file that can be rendered, and its value. -/
theorem post_converted (hv : base.out = []) {ds : List Str} {nm : Str} {b : Bytes} {v : Value} {input : Node} (hx : HasExt nm str!"md")
    (hl : look d (p ++ ds ++ [nm]) = some (.file b)) (hp : PostIs S plugins d p base.vars input ds nm v) {c c' : Parsed}
    (hr : ReadAs S plugins nm (pathStr (p ++ ds ++ [nm])) b c) (hc : Converted S.ext ⟨input, S.dateFmt⟩ base c c') :
    ∃ md x, c' = .markdown md ∧ md.html = some x ∧ v = .obj (put str!"markdown" (.str md.markdownString) (put str!"content" (.str x)
        (md.frontmatter.map fun e => (e.1, .str e.2)))) := by
  obtain ⟨pairs, text, t, r, shown, h1, h2, h3, h4, rfl⟩ := hp
  cases (mdFileSpells_read S plugins d p ds hx h1 hl).1 hr
  have hw : t.WF := by obtain ⟨_, _, _, _, k⟩ := h1; exact k.wf
  have e0 := C16_blocks_partial ⟨input, S.dateFmt⟩ t hw base [] [] h2
  simp only [List.map_nil, hv, List.nil_append, h3, Res.bind_ok] at e0
  cases hc with
  | same h => exact absurd rfl (h _)
  | markdown k1 k2 =>
    rw [e0] at k1
    cases k1
    simp only [h4, fromUtf8_bytesOf, Option.some.injEq] at k2
    subst k2
    exact ⟨_, _, rfl, rfl, rfl⟩

/-- The values of the markdown files of a directory. -/
theorem posts_items (hv : base.out = []) {ds : List Str} {input : Node} : ∀ {es : List (Str × Entry)} {cs ts : List Node} {vs : List Value},
    ReadList (ReadAs S plugins) (p ++ ds) es cs → UsedList S.ext ⟨input, S.dateFmt⟩ base cs ts →
    (∀ nm b, (nm, .file b) ∈ es → look d (p ++ ds ++ [nm]) = some (.file b)) →
    Posts (PostIs S plugins d p base.vars input ds) es vs → mdItems ts = .ok vs
  | _, _, _, _, .nil, .nil, _, .nil => rfl
  | _, _, _, _, .cons hr hrs, .cons hu hus, hl, .post hx hp hps => by
    have ih := posts_items hv hrs hus (fun nm b k => hl nm b (.tail _ k)) hps
    cases hr with
    | file hr =>
      cases hu with
      | file hc =>
        obtain ⟨md, x, rfl, e1, rfl⟩ := post_converted S plugins d p base hv hx (hl _ _ (.head _)) hp hr hc
        simp only [mdItems, e1, ih, Res.bind_ok]
  | _, _, _, _, .cons hr hrs, .cons hu hus, hl, .other hn hps => by
    have ih := posts_items hv hrs hus (fun nm b k => hl nm b (.tail _ k)) hps
    cases hr with
    | dir => cases hu; simp only [mdItems, ih]
    | file hr =>
      cases hu with
      | file hc =>
        cases hr with
        | markdown hx => exact absurd ⟨hx, _, rfl⟩ hn
        | html => cases hc; simp only [mdItems, ih]
        | json => cases hc; simp only [mdItems, ih]
        | custom => cases hc; simp only [mdItems, ih]
        | other => cases hc; simp only [mdItems, ih]

include h

/-- C99. A loop over a directory visits its markdown files in the order in which the directory lists them, if the path leads
to a directory of the content and their bodies can be rendered. -/
theorem C99_posts_partial (hd : ProperDisk d) (hv : base.out = []) (f : ForFn) (hf : f.kind = .mdDir) (scs : Scopes) (names : List Str)
    (es : List (Str × Entry)) (l : List Value) (ha : Aims f.source names) (he : d.at (p ++ names) = some (.dir es))
    (hp : Posts (PostIs S plugins d p base.vars (.dir name cs (pathStr p)) names) es l) :
    source ⟨.dir name ts (pathStr p), S.dateFmt⟩ f scs = .ok l := by
  obtain ⟨n, t, j1, j2, j3⟩ := (content_reached_used h names).2 _ he
  cases j2 with
  | dir hr =>
    cases j3 with
    | dir hu =>
      simp only [source, hf, written_aims _ ha, j1]
      refine posts_items S plugins d p base hv hr hu (fun nm b k => ?_) hp
      rw [look, at_append, he, Option.bind_some, Entry.at, (findEntry_mem (hd _ _ he).1).2 k]
      rfl

/-- C99. But not in the body of a markdown page: there, a loop over a directory with a markdown file in it is a crash. -/
theorem C99_early (f : ForFn) (hf : f.kind = .mdDir) (scs : Scopes) (names : List Str) (es : List (Str × Entry))
    (ha : Aims f.source names) (he : d.at (p ++ names) = some (.dir es)) (nm : Str) (b : Bytes) (hm : (nm, .file b) ∈ es)
    (hx : HasExt nm str!"md") :
    source ⟨.dir name cs (pathStr p), S.dateFmt⟩ f scs = .panic .htmlNotReady := by
  obtain ⟨n, j1, j2⟩ := (content_reached h names).2 _ he
  cases j2 with
  | dir hr =>
    simp only [source, hf, written_aims _ ha, j1]
    exact early_items hr hm hx

end

/-! ### Cases -/

/-- JSON with one text that means something. -/
def newsSys : Sys := { demoSys with parseJson := fun s => if s = str!"[v]" then some (.arr [.str str!"v"]) else none }

/-- A list of the posts in `blog`, and of the elements of `data.json`. -/
def newsList : Str := str!"{{ begin(\"b\") }}{{ import($d, \"data.json\") }}{{ for($p, \"blog/\", order=\"desc\") }}{{ $p.title }}{{ end(for) }}{{ for($x, $d) }}{{ $x }}{{ end(for) }}{{ end(\"b\") }}"

def newsDisk : Entry := .dir [(str!"p", .dir [
  (str!"stuart.toml", .file (bytesOf str!"name")),
  (str!"content", .dir [
    (str!"root.html", .file (bytesOf str!"<{{ insert(\"b\") }}>")),
    (str!"md.html", .file (bytesOf str!"{{ begin(\"b\") }}{{ $self.content }}{{ end(\"b\") }}")),
    (str!"list.html", .file (bytesOf newsList)),
    (str!"data.json", .file (bytesOf str!"[v]")),
    (str!"blog", .dir [
      (str!"y.md", .file (bytesOf (mdFile [(str!"title", str!"B")] str!"why\n"))),
      (str!"x.md", .file (bytesOf (mdFile [(str!"title", str!"A")] str!"in {{ $env.STUART_ENV }}\n")))])])])]

def newsAt (n : Nat) : At := ⟨str!"/p/content/list.html", 1, n⟩
def newsPosts : ForFn := ⟨str!"p", str!"blog/", .mdDir, none, none, none, true⟩
def newsPage : Tpl := .section_ (newsAt 3) (newsAt 151) str!"b"
  (.leaf (newsAt 19) (.func (.import_ str!"d" str!"data.json")) <|
    .loop (newsAt 48) (newsAt 98) newsPosts (.leaf (newsAt 84) (.var str!"p.title") .nil) <|
    .loop (newsAt 112) (newsAt 137) ⟨str!"x", str!"d", .jsonObj, none, none, none, false⟩ (.leaf (newsAt 129) (.var str!"x") .nil) .nil) .nil

set_option maxRecDepth 4000 in
theorem newsPage_spelt : FileSpells newsSys [] newsDisk [str!"p", str!"content"] [] str!"list.html" newsPage :=
  ⟨_, rfl, (C68_exact _ _ _ _ _).1 rfl, by simp [newsPage, Tpl.WF, Plain]⟩
theorem newsRoot_spelt : FileSpells newsSys [] newsDisk [str!"p", str!"content"] [] str!"root.html" srcRoot :=
  ⟨_, rfl, (C68_exact _ _ _ _ _).1 rfl, by simp [srcRoot, Tpl.WF, Plain]⟩

theorem news_aims : Aims str!"blog/" [str!"blog"] ∧ Aims str!"data.json" [str!"data.json"] := by
  refine ⟨⟨str!"blog", [[]], ?_, rfl, ?_, rfl⟩, ⟨str!"data.json", [], ?_, rfl, ?_, rfl⟩⟩ <;>
    first | (unfold Slashless; decide) | (unfold Escapes; decide)

section
variable {base : Frame} {cs ts : List Node}
  (h : Content newsSys [] newsDisk [str!"p", str!"content"] base str!"content" cs ts)
include h

theorem news_data (scs : Scopes) (secs : Sections) (hs : (scs.headD []).lookup str!"d" = none) :
    yields ⟨.dir str!"content" ts (pathStr [str!"p", str!"content"]), newsSys.dateFmt⟩ scs secs (.func (.import_ str!"d" str!"data.json")) =
      .ok ⟨[(str!"d", .arr [.str str!"v"])], [], []⟩ :=
  (C99_import newsSys [] newsDisk _ base _ cs ts h _ (by simp) scs secs _ _ _).2
    ⟨_, _, news_aims.2, ⟨[], str!"data.json", str!"[v]", rfl, extension_iff.1 rfl, rfl, rfl⟩, hs, rfl⟩

theorem news_posts (hb : base = baseFrame [] str!"production") (scs : Scopes) :
    source ⟨.dir str!"content" ts (pathStr [str!"p", str!"content"]), newsSys.dateFmt⟩ newsPosts scs = .ok
      [selfValue [(str!"title", str!"B")] str!"why" str!"<why>",
        selfValue [(str!"title", str!"A")] str!"in {{ $env.STUART_ENV }}" str!"<in production>"] := by
  subst hb
  refine C99_posts_partial newsSys [] newsDisk _ _ _ cs ts h (by unfold newsDisk; proper_disk) rfl newsPosts rfl scs [str!"blog"] _ _
    news_aims.1 rfl (.post (extension_iff.1 rfl) ?_ (.post (extension_iff.1 rfl) ?_ .nil))
  · refine ⟨_, _, .leaf ⟨str!"/p/content/blog/y.md", 1, 1⟩ (.raw str!"why") .nil, ⟨[], bytesOf str!"why", []⟩, str!"why",
      ⟨str!"why\n", rfl, ?_, rfl, (C68_exact _ _ _ _ _).1 rfl, trivial, trivial⟩, fun _ _ => trivial, rfl, rfl, rfl⟩
    simp only [List.mem_cons, List.not_mem_nil, or_false, forall_eq]
    constructor <;> first | decide | (unfold Dashes; decide)
  · refine ⟨_, _, srcBody, ⟨[], bytesOf str!"in production", []⟩, str!"in production",
      ⟨str!"in {{ $env.STUART_ENV }}\n", rfl, ?_, rfl, (C68_exact _ _ _ _ _).1 rfl, by simp [srcBody, Tpl.WF, Plain]⟩,
      fun _ _ _ _ => trivial, rfl, rfl, rfl⟩
    simp only [List.mem_cons, List.not_mem_nil, or_false, forall_eq]
    constructor <;> first | decide | (unfold Dashes; decide)

omit h in
theorem news_items (scs : Scopes) :
    items ⟨.dir str!"content" ts (pathStr [str!"p", str!"content"]), newsSys.dateFmt⟩
      ⟨str!"x", str!"d", .jsonObj, none, none, none, false⟩ ([(str!"d", .arr [.str str!"v"])] :: scs) = .ok [.str str!"v"] := rfl

/-- The page lists the posts in reverse, and then the data. -/
theorem news_page (hb : base = baseFrame [] str!"production") : PageMeans newsSys [] newsDisk [str!"p", str!"content"] base.vars
    (.dir str!"content" cs (pathStr [str!"p", str!"content"])) (.dir str!"content" ts (pathStr [str!"p", str!"content"])) [] str!"list"
    (bytesOf str!"<ABv>") := by
  have e1 := fun scs secs => news_data h ([] :: scs) secs rfl
  have e2 := news_posts h hb
  have e3 : ∀ scs, items ⟨.dir str!"content" ts (pathStr [str!"p", str!"content"]), newsSys.dateFmt⟩ newsPosts scs = .ok
      [selfValue [(str!"title", str!"A")] str!"in {{ $env.STUART_ENV }}" str!"<in production>",
        selfValue [(str!"title", str!"B")] str!"why" str!"<why>"] := by
    intro scs
    rw [items, e2, Res.bind_ok]
    rfl
  refine .html (page := newsPage) (root := srcRoot) (r := ⟨[], bytesOf str!"ABv", [(str!"b", bytesOf str!"ABv")]⟩)
    (r' := ⟨[], bytesOf str!"<ABv>", []⟩) newsPage_spelt
    ⟨[], ⟨List.nil_prefix, nofun, fun q h _ => by rw [List.prefix_nil.1 h]; exact List.nil_prefix⟩, newsRoot_spelt⟩ ?_ ?_ ?_ rfl
  · refine ⟨fun r k => ?_, fun _ _ => trivial⟩
    rw [e1] at k
    cases k
    refine fun its k => ?_
    rw [e3] at k
    cases k
    refine ⟨nofun, ⟨fun _ _ => trivial, fun r k => ⟨fun _ _ => trivial, fun _ _ => trivial⟩⟩, fun r k its k' => ?_⟩
    cases k'
    exact ⟨nofun, ⟨fun _ _ => trivial, fun _ _ => trivial⟩, fun _ _ => trivial⟩
  · simp only [newsPage, Tpl.eval, e1, Res.mapErr, Res.bind_ok, andThen, e3]
    rfl
  · exact fun _ _ _ _ _ _ => trivial

end

theorem newsHost_simple : Simple shortLoader [str!"p"] str!"stuart.toml" ⟨⟨newsDisk, []⟩, []⟩ ⟨⟨newsDisk, []⟩, []⟩ [str!"p", str!"stuart.toml"]
    ⟨str!"name", none, none, none⟩ [] where
  found := canonicalize_names.1 rfl
  text := ⟨str!"name", rfl, rfl⟩
  loaded := rfl
  functions := nofun
  scripts := rfl

/-- `stuart build` publishes the list. -/
example : look (cmdBuild { idleMachine with sys := newsSys } shortLoader [str!"p"] str!"stuart.toml" str!"dist" ⟨⟨newsDisk, []⟩, []⟩).1.world.disk
    [str!"p", str!"dist", str!"list", str!"index.html"] = some (.file (bytesOf str!"<ABv>")) := by
  obtain ⟨cs, ts, hc, h⟩ := C95_published_partial { idleMachine with sys := newsSys } shortLoader [str!"p"] str!"stuart.toml" str!"dist"
    ⟨⟨newsDisk, []⟩, []⟩ _ _ _ _ newsHost_simple (by unfold newsDisk; proper_disk) (by decide)
    (tame_names (by decide +kernel) (by decide +kernel)) (by decide +kernel)
  exact h [] str!"list" _ (by decide) (by decide) (by decide) (news_page hc rfl) (.inl rfl)
    ⟨by decide, by decide, rfl, by simp; exact ⟨rfl, rfl⟩⟩

/-- There is no `drafts`, and `blog` is no file. -/
example (cs ts : List Node) (base : Frame) (h : Content newsSys [] newsDisk [str!"p", str!"content"] base str!"content" cs ts) (scs : Scopes)
    (secs : Sections) (f : ForFn) (hf : f.kind = .mdDir) (hs : f.source = str!"drafts/") :
    source ⟨.dir str!"content" ts (pathStr [str!"p", str!"content"]), newsSys.dateFmt⟩ f scs = .err (.notFound str!"drafts/") ∧
    yields ⟨.dir str!"content" ts (pathStr [str!"p", str!"content"]), newsSys.dateFmt⟩ scs secs (.func (.import_ str!"d" str!"blog")) =
      .err (.notFound str!"blog") := by
  have one : ∀ path names q qs, Aims path names → Slashless q qs → path = slashed q qs → names = namesIn (q :: qs) := by
    rintro _ _ q qs ⟨q', qs', h1, rfl, _, rfl⟩ h2 h3
    have := splitOn_slashed qs' q' h1
    rw [h3, splitOn_slashed qs q h2] at this
    rw [this]
  constructor
  · refine (C99_not_found newsSys [] newsDisk _ base _ cs ts h _ (by simp) _).2 (fun names ha => ?_) f scs hf hs
    cases one _ _ str!"drafts" [[]] ha (by unfold Slashless; decide) rfl
    nofun
  · refine ((C99_not_found newsSys [] newsDisk _ base _ cs ts h _ (by simp) _).1 (fun names b ha => ?_)).1 _ _ _
    cases one _ _ str!"blog" [] ha (by unfold Slashless; decide) rfl
    nofun

/-- In the body of a markdown page the same loop is a crash. -/
example (cs ts : List Node) (base : Frame) (h : Content newsSys [] newsDisk [str!"p", str!"content"] base str!"content" cs ts) (scs : Scopes) :
    source ⟨.dir str!"content" cs (pathStr [str!"p", str!"content"]), newsSys.dateFmt⟩ newsPosts scs = .panic .htmlNotReady :=
  C99_early newsSys [] newsDisk _ base _ cs ts h newsPosts rfl scs [str!"blog"] _ news_aims.1 rfl str!"x.md" _ (.tail _ (.head _))
    (extension_iff.1 rfl)

end Stuart
