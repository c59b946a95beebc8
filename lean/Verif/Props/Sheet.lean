import Verif.Proof.Sheet
import Verif.Props.Sound
/-
Property C98: from simple texts to the text that is published.
-/
namespace Stuart
open Spec

section
variable {S : Sys} {plugins : List Plugin} {d : Entry} {p : Path} {ds : List Str}

theorem fileIs_spells {nm : Str} {t : Sheet} (h : FileIs S d p ds nm t) :
    FileSpells S plugins d p ds nm (sheetTpl (pathStr (p ++ ds ++ [nm])) t []) :=
  ⟨t.text, h.2, sheet_parses _ t h.1, sheetTpl_wf _ _ _⟩

theorem templateReads_spells {nm : Str} {t : Sheet} (h : TemplateReads S d p ds nm t) :
    ∃ path, TemplateSpells S plugins d p ds nm (sheetTpl path t []) := by
  obtain ⟨q, h1, h2⟩ := h
  exact ⟨_, q, h1, fileIs_spells h2⟩

theorem mdFileIs_spells {nm : Str} {pairs : List (Str × Str)} {t : Sheet} (h : MdFileIs S d p ds nm pairs t) :
    MdFileSpells S plugins d p ds nm pairs t.text (sheetTpl (pathStr (p ++ ds ++ [nm])) t []) := by
  obtain ⟨h1, h2, body, h3, h4⟩ := h
  exact ⟨body, h4, h2, h3, sheet_parses _ t h1, sheetTpl_wf _ _ _⟩

theorem sheet_fill {cx : Ctx} {path : Str} {vars : List (Str × Value)} {t : Sheet} {ss : List (Str × Str)} :
    (∀ r, t.fill vars ss = some r → (sheetTpl path t []).eval cx [vars] (secBytes ss) = .ok ⟨[], bytesOf r.1, secBytes r.2⟩) ∧
    (t.fill vars ss = none → ∃ e, (sheetTpl path t []).eval cx [vars] (secBytes ss) = .err e) :=
  sheet_eval cx path vars t [] [vars] ss fun _ => rfl

theorem sheet_ok {cx : Ctx} {path : Str} {vars : List (Str × Value)} {t : Sheet} {ss : List (Str × Str)} {o : Out}
    (h : (sheetTpl path t []).eval cx [vars] (secBytes ss) = .ok o) :
    ∃ r, t.fill vars ss = some r ∧ o = ⟨[], bytesOf r.1, secBytes r.2⟩ := by
  have key := sheet_fill (cx := cx) (path := path) (vars := vars) (t := t) (ss := ss)
  cases hf : t.fill vars ss with
  | none => obtain ⟨e, k⟩ := key.2 hf; rw [h] at k; cases k
  | some r => have k := key.1 r hf; rw [h] at k; cases k; exact ⟨r, rfl, rfl⟩

variable (S plugins d p ds) (base : Frame) (input tree : Node) (hv : base.out = [])
include hv

/-- C98. Of a page of simple texts, what it shows is made, whatever the rest of the site is; and nothing if it shows nothing. -/
theorem C98_html (nm : Str) (page root : Sheet) (hx : HasExt nm str!"html") (hr : nm ≠ str!"root.html") (hm : nm ≠ str!"md.html")
    (hp : FileIs S d p ds nm page) (ht : TemplateReads S d p ds str!"root.html" root) (nm' : Str) (b' : Bytes) :
    MadeInto S plugins d p base input tree ds nm nm' b' ↔
      nm' = nm ∧ ∃ s, framed base.vars base.vars page root = some s ∧ b' = bytesOf s := by
  obtain ⟨path, ht⟩ := templateReads_spells (plugins := plugins) ht
  rw [C95_html_partial S plugins d p ds base input tree hv nm _ _ hx hr hm (fileIs_spells hp) ht (sheet_tame _ _ _ _ _ _)
    (fun _ _ => sheet_tame _ _ _ _ _ _)]
  refine and_congr_right fun _ => ?_
  constructor
  · rintro ⟨r, r', h1, h2, rfl⟩
    obtain ⟨x, k1, rfl⟩ := sheet_ok (ss := []) h1
    obtain ⟨y, k2, rfl⟩ := sheet_ok h2
    exact ⟨y.1, by simp [framed, k1, k2], rfl⟩
  · rintro ⟨s, h, rfl⟩
    obtain ⟨x, k1, h⟩ := Option.bind_eq_some_iff.1 h
    obtain ⟨y, k2, rfl⟩ := Option.map_eq_some_iff.1 h
    exact ⟨_, _, sheet_fill.1 x k1, sheet_fill.1 y k2, rfl⟩

/-- C98, for markdown pages. -/
theorem C98_markdown (stem : Str) (pairs : List (Str × Str)) (body page root : Sheet) (hs : stem ≠ [])
    (hp : MdFileIs S d p ds (stem ++ str!".md") pairs body) (hm : TemplateReads S d p ds str!"md.html" page)
    (ht : TemplateReads S d p ds str!"root.html" root) (nm' : Str) (b' : Bytes) :
    MadeInto S plugins d p base input tree ds (stem ++ str!".md") nm' b' ↔
      nm' = stem ++ str!".html" ∧ ∃ r s, body.fill base.vars [] = some r ∧
        framed base.vars (base.vars ++ [(str!"self", selfValue pairs body.text (S.ext.mdToHtml r.1))]) page root = some s ∧
        b' = bytesOf s := by
  obtain ⟨path, ht⟩ := templateReads_spells (plugins := plugins) ht
  obtain ⟨path', hm⟩ := templateReads_spells (plugins := plugins) hm
  rw [C95_markdown_partial S plugins d p ds base input tree hv stem pairs body.text _ _ _ hs (mdFileIs_spells hp) hm ht (sheet_tame _ _ _ _ _ _)
    (fun _ _ _ _ => ⟨sheet_tame _ _ _ _ _ _, fun _ _ => sheet_tame _ _ _ _ _ _⟩)]
  refine and_congr_right fun _ => ?_
  constructor
  · rintro ⟨r0, shown, r, r', h0, he, h1, h2, rfl⟩
    obtain ⟨z, k0, rfl⟩ := sheet_ok (ss := []) h0
    obtain ⟨x, k1, rfl⟩ := sheet_ok (ss := []) h1
    obtain ⟨y, k2, rfl⟩ := sheet_ok h2
    cases bytesOf_inj he
    exact ⟨z, y.1, k0, by simp [framed, k1, k2], rfl⟩
  · rintro ⟨z, s, k0, h, rfl⟩
    obtain ⟨x, k1, h⟩ := Option.bind_eq_some_iff.1 h
    obtain ⟨y, k2, rfl⟩ := Option.map_eq_some_iff.1 h
    exact ⟨_, z.1, _, _, sheet_fill.1 z k0, rfl, sheet_fill.1 x k1, sheet_fill.1 y k2, rfl⟩

omit hv

/-- C98. What a page shows is what it means. -/
theorem C98_means (vars : List (Str × Value)) (stem s : Str) (h : Shown S d p vars ds stem (some s)) :
    PageMeans S plugins d p vars input tree ds stem (bytesOf s) := by
  generalize ho : some s = o at h
  cases h with
  | html h1 h2 =>
    obtain ⟨path, ht⟩ := templateReads_spells (plugins := plugins) h2
    obtain ⟨x, k1, h⟩ := Option.bind_eq_some_iff.1 ho.symm
    obtain ⟨y, k2, rfl⟩ := Option.map_eq_some_iff.1 h
    exact .html (fileIs_spells h1) ht (sheet_tame _ _ _ _ _ _) (sheet_fill.1 x k1) (sheet_tame _ _ _ _ _ _) (sheet_fill.1 y k2)
  | markdown h1 h2 h3 =>
    obtain ⟨path, ht⟩ := templateReads_spells (plugins := plugins) h3
    obtain ⟨path', hm⟩ := templateReads_spells (plugins := plugins) h2
    obtain ⟨z, k0, h⟩ := Option.bind_eq_some_iff.1 ho.symm
    obtain ⟨x, k1, h⟩ := Option.bind_eq_some_iff.1 h
    obtain ⟨y, k2, rfl⟩ := Option.map_eq_some_iff.1 h
    exact .markdown (mdFileIs_spells h1) hm ht (sheet_tame _ _ _ _ _ _) (sheet_fill.1 z k0) rfl (sheet_tame _ _ _ _ _ _)
      (sheet_fill.1 x k1) (sheet_tame _ _ _ _ _ _) (sheet_fill.1 y k2)

/-- C98. Simple texts are sound. -/
theorem C98_sound (vars : List (Str × Value)) (name : Str) (h : Sheets S d p plugins vars) : Sound S plugins d p vars name where
  directory := h.directory
  plain := h.plain
  files := by
    intro ds nm b hl
    cases h.files ds nm b hl with
    | html k1 k2 => exact .html k1 (fileIs_spells k2)
    | markdown k1 k2 _ => exact .markdown k1 (mdFileIs_spells k2)
    | json k1 k2 k3 => exact .json k1 k2 k3
    | other k => exact .other k
  bodies := by
    intro l cs _ _ ds nm b hx hl
    cases h.files ds nm b hl with
    | html k1 _ => exact absurd (extension_iff.2 hx) (by rw [extension_iff.2 k1]; decide)
    | @markdown pairs t r k1 k2 k3 => exact ⟨_, _, _, _, _, mdFileIs_spells k2, sheet_tame _ _ _ _ _ _, sheet_fill.1 r k3, rfl⟩
    | json k1 _ _ => exact absurd (extension_iff.2 hx) (by rw [extension_iff.2 k1]; decide)
    | other k => exact absurd rfl (k _ hx).2.1
  pages := by
    intro cs ts _ ds stem hpg
    obtain ⟨s, k⟩ := h.pages ds stem hpg
    exact ⟨_, C98_means S plugins d p ds _ _ vars stem s k⟩

end

/-! ### Whole builds -/

section
variable (M : Machine) (L : Loader) (cwd : Path) (manifest output : Str) (s s1 : Host) (p : Path) (raw : RawConfig) (plugins : List Plugin)

/-- C98. `stuart build` in a simple project with texts that are all simple and room for everything, if nothing mishaps: it
succeeds, and what is at the place of a page is what it shows, if nothing else gets there. -/
theorem C98_published_partial (h : Simple L cwd manifest s s1 p raw plugins) (hcalm : s1.world.Calm)
    (hplaced : Placed plugins raw.toConfig s1.world.disk p.dropLast (joinPath p.dropLast output))
    (hsheets : Sheets M.sys s1.world.disk (p.dropLast ++ [str!"content"]) plugins (baseFrame M.sys.vars str!"production").vars) :
    let d := s1.world.disk
    let content := p.dropLast ++ [str!"content"]
    let r := cmdBuild M L cwd manifest output s
    r.2 = .ok () ∧ ∀ ds stem t, stem ≠ [] → stem ≠ str!"root" → stem ≠ str!"md" →
      Shown M.sys d content (baseFrame M.sys.vars str!"production").vars ds stem (some t) →
      PlaceFree raw.toConfig d p.dropLast content ds stem →
      look r.1.world.disk (joinPath p.dropLast output ++ placeOf raw.toConfig ds stem) = some (.file (bytesOf t)) := by
  intro d content r
  have hready : Ready M.sys plugins raw.toConfig d p.dropLast (joinPath p.dropLast output) str!"production" :=
    ⟨hplaced, C98_sound M.sys plugins d content _ str!"content" hsheets⟩
  have hok := (C97_published_partial M L cwd manifest output s s1 p raw plugins h hcalm hready).1
  obtain ⟨cs, ts, _, k⟩ := C95_published_partial M L cwd manifest output s s1 p raw plugins h hplaced.proper hplaced.named hplaced.tame hok
  exact ⟨hok, fun ds stem t h1 h2 h3 h4 h5 =>
    k ds stem _ h1 h2 h3 (C98_means M.sys plugins d content ds _ _ _ stem t h4) (hplaced.roomy.pages ds stem) h5⟩

/-- C98. If a page of simple texts shows nothing then `stuart build` of a simple project fails. -/
theorem C98_fails (h : Simple L cwd manifest s s1 p raw plugins) (hd : ProperDisk s1.world.disk) (ds : List Str) (stem : Str)
    (hs : stem ≠ []) (hr : stem ≠ str!"root") (hm : stem ≠ str!"md")
    (hn : Shown M.sys s1.world.disk (p.dropLast ++ [str!"content"]) (baseFrame M.sys.vars str!"production").vars ds stem none) :
    (cmdBuild M L cwd manifest output s).2 ≠ .ok () := by
  intro hok
  obtain ⟨c, h1, h2, h3, h4, h5, h6, h7, h8, h9⟩ := simple_start L cwd manifest output s h str!"production"
  have hr' : cmdBuild M L cwd manifest output s = ((c.build M s1).2.1, (c.build M s1).2.2) := by
    simp only [cmdBuild, h1]
  rw [hr'] at hok
  obtain ⟨s1', o, s2, e1, e2, e3, e4⟩ := Context.build_ok hok
  rw [h8] at e1
  cases e1
  obtain ⟨name, cs, ts, _, made⟩ := (C93_content M.sys s1.world.disk c.mode c.stuart hd).1 ⟨_, e2⟩
  rw [h3, h5, h6] at made
  generalize ho : (none : Option Str) = t at hn
  cases hn with
  | html k1 k2 =>
    obtain ⟨nm', b', k⟩ := made ds (stem ++ str!".html") _ k1.2
    obtain ⟨_, t, k, _⟩ := (C98_html M.sys plugins _ _ ds _ _ _ rfl _ _ _ ⟨stem, hs, rfl, by decide⟩
      (fun k => hr (List.append_cancel_right (as := stem) (bs := str!".html") (cs := str!"root") k))
      (fun k => hm (List.append_cancel_right (as := stem) (bs := str!".html") (cs := str!"md") k)) k1 k2 nm' b').1 k
    rw [k] at ho
    cases ho
  | markdown k1 k2 k3 =>
    have k1' := k1
    obtain ⟨_, _, body, _, hl⟩ := k1'
    obtain ⟨nm', b', k⟩ := made ds (stem ++ str!".md") _ hl
    obtain ⟨_, r, t, e, k, _⟩ := (C98_markdown M.sys plugins _ _ ds _ _ _ rfl _ _ _ _ _ hs k1 k2 k3 nm' b').1 k
    rw [e, Option.bind_some, k] at ho
    cases ho

end

section
variable {α : Type} (M : Machine) (send : α → α × Bool) (L : Loader) (cwd : Path) (manifest output : Str) (s0 s1 : Host) (p : Path)
  (raw : RawConfig) (plugins : List Plugin)

/-- C98. `stuart dev` in a simple project, after any time: when the server is told of a change and the texts of the project
are then all simple, with room for everything, it builds the site, if nothing mishaps; and a browser that asks for a page
gets what the page shows, with the script before its first `</body>`. -/
theorem C98_dev_partial (h : Simple L cwd manifest s0 s1 p raw plugins) (s2 : Host) (c0 : Context) (served : Path)
    (hstart : startDev M L cwd manifest output s0 = (s2, .ok (c0, served))) (hroot : look s0.world.disk [] = some .dir)
    (c : Context) (s : Host) (streams : List α) (hs : Serving M send c0 c s streams) (rel : Path)
    (hrel : reaction rel = .rebuild) (hcalm : s.world.Calm)
    (hplaced : Placed plugins raw.toConfig s.world.disk p.dropLast (joinPath p.dropLast output))
    (hsheets : Sheets M.sys s.world.disk (p.dropLast ++ [str!"content"]) plugins (baseFrame M.sys.vars str!"development").vars) :
    let d := s.world.disk
    let content := p.dropLast ++ [str!"content"]
    let r := onEvent M send (some (p.dropLast ++ rel)) c s streams
    r.2.2.2 = .ok true ∧ ∀ ds stem t, stem ≠ [] → stem ≠ str!"root" → stem ≠ str!"md" →
      Shown M.sys d content (baseFrame M.sys.vars str!"development").vars ds stem (some t) →
      PlaceFree raw.toConfig d p.dropLast content ds stem →
      ∀ js locate mime uri, locate (dropSlash uri) = some (.file (served ++ placeOf raw.toConfig ds stem)) →
        (serveDir js locate mime r.2.1.world.disk uri).status = 200 ∧
        (serveDir js locate mime r.2.1.world.disk uri).contentType = some (mime str!"html") ∧
        Reloading js (bytesOf t) (serveDir js locate mime r.2.1.world.disk uri).body := by
  intro d content r
  have hready : Ready M.sys plugins raw.toConfig d p.dropLast (joinPath p.dropLast output) str!"development" :=
    ⟨hplaced, C98_sound M.sys plugins d content _ str!"content" hsheets⟩
  have hok := (dev_builds M send L cwd manifest output s0 s1 p raw plugins h s2 c0 served hstart hroot c s streams hs hcalm hready).1
  obtain ⟨cs, ts, _, k⟩ := C96_dev_partial M send L cwd manifest output s0 s1 p raw plugins h s2 _ served hstart hroot hplaced.named c s
    streams hs rel hrel hok hplaced.proper hplaced.tame
  refine ⟨(C97_dev_partial M send L cwd manifest output s0 s1 p raw plugins h s2 c0 served hstart hroot c s streams hs rel hrel
    hcalm hready).1, fun ds stem t h1 h2 h3 h4 h5 => ?_⟩
  exact k ds stem _ h1 h2 h3 (C98_means M.sys plugins d content ds _ _ _ stem t h4) (hplaced.roomy.pages ds stem) h5

end

/-! ### Cases -/

/-- The texts of the project of C95. -/
def sheetRoot : Sheet := .insert str!"<" str!"b" (.words str!">")
def sheetMd : Sheet := .section_ [] str!"b" (.var [] str!"self.title" (.var str!":" str!"self.content" (.words []))) (.words [])
def sheetPage : Sheet := .section_ [] str!"b" (.words str!"A") (.words [])
def sheetBody : Sheet := .var str!"in " str!"env.STUART_ENV" (.words [])

theorem words_of {w : Str} (h : '{' ∉ w) (h' : '\\' ∉ w) : Words w where
  clear := by
    rintro ⟨a, b, rfl⟩
    exact h (by simp)
  last := ⟨fun ⟨a, k⟩ => h (by simp [← k]), fun ⟨a, k⟩ => h' (by simp [← k])⟩

theorem sheet_chars (U : Unicode) {v : Str} (h : ∀ c ∈ v, c.toNat < 128 ∧ (asciiAlnum c = true ∨ c = '_' ∨ c = '.')) :
    ∀ c ∈ v, U.alnum c = true ∨ c = '_' ∨ c = '.' := by
  intro c hc
  obtain ⟨k1, k2⟩ := h c hc
  rwa [U.ascii c k1]

theorem sheetRoot_is : FileIs demoSys srcDisk [str!"p", str!"content"] [] str!"root.html" sheetRoot :=
  ⟨⟨words_of (by decide) (by decide), by decide, words_of (by decide) (by decide)⟩, rfl⟩
theorem sheetMd_is : FileIs demoSys srcDisk [str!"p", str!"content"] [] str!"md.html" sheetMd :=
  ⟨⟨words_of (by decide) (by decide), by decide, ⟨words_of (by decide) (by decide), by decide, sheet_chars _ (by decide),
    words_of (by decide) (by decide), by decide, sheet_chars _ (by decide), words_of (by decide) (by decide)⟩, words_of (by decide) (by decide)⟩, rfl⟩
theorem sheetPage_is : FileIs demoSys srcDisk [str!"p", str!"content"] [] str!"a.html" sheetPage :=
  ⟨⟨words_of (by decide) (by decide), by decide, words_of (by decide) (by decide), words_of (by decide) (by decide)⟩, rfl⟩
theorem sheetBody_is : MdFileIs demoSys srcDisk [str!"p", str!"content"] [str!"blog"] str!"x.md" [(str!"title", str!"T")] sheetBody := by
  refine ⟨⟨words_of (by decide) (by decide), by decide, sheet_chars _ (by decide), words_of (by decide) (by decide)⟩, ?_,
    str!"in {{ $env.STUART_ENV }}\n", rfl, rfl⟩
  obtain ⟨_, _, h, _⟩ := srcBody_spelt
  exact h

/-- What the two pages show. -/
theorem sheet_pages :
    Shown demoSys srcDisk [str!"p", str!"content"] (baseFrame [] str!"production").vars [] str!"a" (some str!"<A>") ∧
    Shown demoSys srcDisk [str!"p", str!"content"] (baseFrame [] str!"production").vars [str!"blog"] str!"x"
      (some str!"<T:<in production>>") := by
  constructor
  · have h := Shown.html (vars := (baseFrame [] str!"production").vars) (ds := []) (stem := str!"a") sheetPage_is
      ⟨[], src_inForce (by nofun) (fun q h hq => absurd (List.prefix_nil.1 h) hq), sheetRoot_is⟩
    exact h
  · have h := Shown.markdown (vars := (baseFrame [] str!"production").vars) (ds := [str!"blog"]) (stem := str!"x") sheetBody_is
      ⟨[], src_inForce (by nofun) (fun q h hq => by cases prefix_one h hq; rfl), sheetMd_is⟩
      ⟨[], src_inForce (by nofun) (fun q h hq => by cases prefix_one h hq; rfl), sheetRoot_is⟩
    exact h

theorem src_sheets : Sheets demoSys srcDisk [str!"p", str!"content"] [] (baseFrame [] str!"production").vars where
  directory := rfl
  plain := src_sound.plain
  files := by
    intro ds nm b h
    rcases src_files h with ⟨rfl, k⟩ | ⟨rfl, rfl⟩
    · simp only [List.mem_cons, List.not_mem_nil, or_false] at k
      rcases k with rfl | rfl | rfl
      · exact .html hasExt_root sheetRoot_is
      · exact .html hasExt_md sheetMd_is
      · exact .html (extension_iff.1 rfl) sheetPage_is
    · exact .markdown (extension_iff.1 rfl) sheetBody_is rfl
  pages := by
    intro ds stem ⟨_, h⟩
    rcases h with ⟨n1, n2, b, h⟩ | ⟨b, h⟩
    · rcases src_files h with ⟨rfl, k⟩ | ⟨rfl, k⟩
      · simp only [List.mem_cons, List.not_mem_nil, or_false] at k
        rcases k with k | k | k
        · exact absurd (List.append_cancel_right (cs := str!"root") k) n1
        · exact absurd (List.append_cancel_right (cs := str!"md") k) n2
        · cases List.append_cancel_right (cs := str!"a") k
          exact ⟨_, sheet_pages.1⟩
      · have := congrArg List.getLast? k
        simp at this
    · rcases src_files h with ⟨rfl, k⟩ | ⟨rfl, k⟩
      · simp only [List.mem_cons, List.not_mem_nil, or_false] at k
        rcases k with k | k | k <;> · have := congrArg List.getLast? k; simp at this
      · cases List.append_cancel_right (cs := str!"x") k
        exact ⟨_, sheet_pages.2⟩

/-- The project of C95 is built, and its markdown page is published, from the texts alone. -/
example : (cmdBuild idleMachine shortLoader [str!"p"] str!"stuart.toml" str!"dist" srcHost).2 = .ok () ∧
    look (cmdBuild idleMachine shortLoader [str!"p"] str!"stuart.toml" str!"dist" srcHost).1.world.disk
      [str!"p", str!"dist", str!"blog", str!"x", str!"index.html"] = some (.file (bytesOf str!"<T:<in production>>")) := by
  obtain ⟨h1, h2⟩ := C98_published_partial idleMachine shortLoader [str!"p"] str!"stuart.toml" str!"dist" srcHost _ _ _ _
    srcHost_simple nofun (src_ready _).toPlaced src_sheets
  exact ⟨h1, h2 [str!"blog"] str!"x" _ (by decide) (by decide) (by decide) sheet_pages.2
    ⟨by decide, by decide, rfl, by simp; exact ⟨rfl, rfl⟩⟩⟩

/-- A page without the section that the root template asks for. -/
def lackDisk : Entry := .dir [(str!"p", .dir [
  (str!"stuart.toml", .file (bytesOf str!"name")),
  (str!"content", .dir [
    (str!"root.html", .file (bytesOf str!"<{{ insert(\"b\") }}>")),
    (str!"a.html", .file (bytesOf str!"{{ begin(\"c\") }}A{{ end(\"c\") }}"))])])]

/-- It shows nothing, and the build fails. -/
example : (cmdBuild idleMachine shortLoader [str!"p"] str!"stuart.toml" str!"dist" ⟨⟨lackDisk, []⟩, []⟩).2 ≠ .ok () := by
  refine C98_fails idleMachine shortLoader [str!"p"] str!"stuart.toml" str!"dist" ⟨⟨lackDisk, []⟩, []⟩ ⟨⟨lackDisk, []⟩, []⟩
    [str!"p", str!"stuart.toml"] ⟨str!"name", none, none, none⟩ [] ⟨canonicalize_names.1 rfl, ⟨str!"name", rfl, rfl⟩, rfl, nofun, rfl⟩
    (by unfold lackDisk; proper_disk) [] str!"a" (by decide) (by decide) (by decide) ?_
  have hr : FileIs demoSys lackDisk [str!"p", str!"content"] [] str!"root.html" sheetRoot :=
    ⟨⟨words_of (by decide) (by decide), by decide, words_of (by decide) (by decide)⟩, rfl⟩
  refine .html (page := .section_ [] str!"c" (.words str!"A") (.words [])) (root := sheetRoot)
    ⟨⟨words_of (by decide) (by decide), by decide, words_of (by decide) (by decide), words_of (by decide) (by decide)⟩, rfl⟩
    ⟨[], ⟨List.nil_prefix, nofun, fun q h _ => by rw [List.prefix_nil.1 h]; exact List.nil_prefix⟩, hr⟩

/-- The texts of the changed project of C96. -/
def sheetDevRoot : Sheet := .insert str!"<body>" str!"b" (.words str!"</body>")
def sheetDevPage : Sheet := .section_ [] str!"b" (.var str!"B in " str!"env.STUART_ENV" (.words [])) (.words [])

theorem sheetDevRoot_is : FileIs demoSys (devDisk str!"B") [str!"p", str!"content"] [] str!"root.html" sheetDevRoot :=
  ⟨⟨words_of (by decide) (by decide), by decide, words_of (by decide) (by decide)⟩, rfl⟩
theorem sheetDevPage_is : FileIs demoSys (devDisk str!"B") [str!"p", str!"content"] [] str!"a.html" sheetDevPage :=
  ⟨⟨words_of (by decide) (by decide), by decide, ⟨words_of (by decide) (by decide), by decide, sheet_chars _ (by decide),
    words_of (by decide) (by decide)⟩, words_of (by decide) (by decide)⟩, rfl⟩

theorem sheetDev_page : Shown demoSys (devDisk str!"B") [str!"p", str!"content"] (baseFrame [] str!"development").vars [] str!"a"
    (some str!"<body>B in development</body>") := by
  have h := Shown.html (vars := (baseFrame [] str!"development").vars) (ds := []) (stem := str!"a") sheetDevPage_is
    ⟨[], ⟨List.nil_prefix, nofun, fun q h _ => by rw [List.prefix_nil.1 h]; exact List.nil_prefix⟩, sheetDevRoot_is⟩
  exact h

theorem devB_sheets : Sheets demoSys (devDisk str!"B") [str!"p", str!"content"] [] (baseFrame [] str!"development").vars where
  directory := rfl
  plain := (devB_ready .default).sound.plain
  files := by
    intro ds nm b h
    obtain ⟨rfl, k⟩ := devB_files h
    simp only [List.mem_cons, List.not_mem_nil, or_false] at k
    rcases k with rfl | rfl
    · exact .html hasExt_root sheetDevRoot_is
    · exact .html (extension_iff.1 rfl) sheetDevPage_is
  pages := by
    intro ds stem ⟨_, h⟩
    rcases h with ⟨n1, _, b, h⟩ | ⟨b, h⟩
    · obtain ⟨rfl, k⟩ := devB_files h
      simp only [List.mem_cons, List.not_mem_nil, or_false] at k
      rcases k with k | k
      · exact absurd (List.append_cancel_right (cs := str!"root") k) n1
      · cases List.append_cancel_right (cs := str!"a") k
        exact ⟨_, sheetDev_page⟩
    · obtain ⟨rfl, k⟩ := devB_files h
      simp only [List.mem_cons, List.not_mem_nil, or_false] at k
      rcases k with k | k <;> · have := congrArg List.getLast? k; simp at this

/-- The server of C96 is told of the change: the browser gets the page, by the texts alone. -/
example (js : Bytes) (locate : Str → Option Located) (mime : Str → Str)
    (hl : locate str!"a/" = some (.file [str!"p", str!"dist", str!"a", str!"index.html"])) :
    let s' := (onEvent idleMachine (fun n : Nat => (n, true)) (some ([str!"p", str!"stuart.toml"].dropLast ++ [str!"content", str!"a.html"]))
      devStarted (devHost str!"B") [1]).2.1
    Reloading js (bytesOf str!"<body>B in development</body>") (serveDir js locate mime s'.world.disk str!"/a/").body := by
  have key := C98_dev_partial idleMachine (fun n : Nat => (n, true)) shortLoader [str!"p"] str!"stuart.toml" str!"dist" (devHost str!"A")
    _ _ _ _ (devHost_simple _) _ _ _ dev_start rfl devStarted (devHost str!"B") [1]
    (.meanwhile (s := devHost str!"A") (streams := []) _ _ (.start _ _)) [str!"content", str!"a.html"] (by decide) nofun
    (devB_ready _).toPlaced devB_sheets
  revert key
  generalize onEvent _ _ _ _ _ _ = r
  rintro ⟨_, k⟩
  exact (k [] str!"a" _ (by decide) (by decide) (by decide) sheetDev_page ⟨by decide, by decide, rfl, by simp; exact ⟨rfl, rfl⟩⟩
    js locate mime str!"/a/" hl).2.2

end Stuart
