import Verif.Props.Single
/-
Property C109: of properly nested texts with no loop within a loop, exactly the sound ones can be built.
-/
namespace Stuart
open Spec

section
variable {S : Sys} {plugins : List Plugin} {d : Entry} {p : Path} {ds : List Str}

theorem templateIs_single (h : AllSingle S plugins d p) {nm : Str} (hx : HasExt nm str!"html") {toks : List LTok}
    (ht : TemplateIs S plugins d p nm ds toks) : ∃ t, TemplateSpells S plugins d p ds nm t ∧ t.Single := by
  obtain ⟨q, b, k1, k2, k3⟩ := ht
  obtain ⟨t, k4, k5⟩ := h.html q nm b hx k2
  exact ⟨t, ⟨q, k1, k4⟩, k5⟩

variable (S plugins d p)

/-- C109. If the content can be read, its markdown converted, and something made of every file, then its texts are sound. -/
theorem C109_sound_partial (hd : ProperDisk d) (hp : FunctionsOnly plugins) (h : AllSingle S plugins d p) (name : Str) (base : Frame)
    (hbase : base.name = str!"base") (hout : base.out = []) (cs ts : List Node) (hc : Content S plugins d p base name cs ts)
    (hm : ∀ ds nm b, look d (p ++ ds ++ [nm]) = some (.file b) →
      ∃ nm' b', MadeInto S plugins d p base (.dir name cs (pathStr p)) (.dir name ts (pathStr p)) ds nm nm' b') :
    Sound S plugins d p base.vars name := by
  obtain ⟨bn, vars, bo⟩ := base
  simp only at hbase hout
  subst hbase hout
  have hcol : ':' ∉ (⟨str!"base", vars, []⟩ : Frame).name := by show ':' ∉ str!"base"; decide
  obtain ⟨hread, _⟩ := (content_iff (base := ⟨str!"base", vars, []⟩) rfl).1 hc
  obtain ⟨g1, g2, g3, g4⟩ := (readTree_succeeds S true plugins d p hd).1 ⟨_, hread⟩
  refine ⟨g2, g3, fun ds nm b hl => ?_, fun l cs' e1 e2 ds nm b hx hl => ?_, fun cs' ts' hc' ds stem hpg => ?_⟩
  · obtain ⟨c, k⟩ := g4 ds nm b hl
    cases k with
    | html hx _ _ =>
      obtain ⟨t, k, _⟩ := h.html ds nm b hx hl
      exact .html hx k
    | markdown hx _ _ =>
      obtain ⟨pairs, text, t, k, _⟩ := h.markdown ds nm b hx hl
      exact .markdown hx k
    | json hx k1 k2 => exact .json hx (fromUtf8_sound k1) k2
    | custom _ _ _ _ hf =>
      obtain ⟨ps, q, ps', _, _, k, k', _⟩ := hf
      rw [hp q (by rw [k]; simp)] at k'
      simp at k'
    | other k => exact .other k
  · have hc2 : Content S plugins d p ⟨str!"base", vars, []⟩ name cs ts := hc
    obtain ⟨l', e3, e4⟩ := hc.read
    rw [e1] at e3
    cases e3
    have : cs' = cs := by
      have k := (readTree_iff (S := S) (parse := true) (plugins := plugins)).2 ⟨name, l, cs', hc.named, e1, e2, rfl⟩
      rw [hread] at k
      injection k with k
      injection k with _ k _
      exact k.symm
    subst this
    obtain ⟨pairs, text, t, k1, k2⟩ := h.markdown ds nm b hx hl
    have hw : t.WF := by obtain ⟨_, _, _, _, j⟩ := k1; exact j.wf
    obtain ⟨nm', b', b0, c, c', j1, j2, j3, j4⟩ := hm ds nm b hl
    cases (mdFileSpells_read S plugins d p ds hx k1 j1).1 j2
    cases j3 with
    | same k => exact absurd rfl (k _)
    | markdown i1 i2 =>
      obtain ⟨t0, r0, e0, e0'⟩ := (C108_exact_partial _ t hw k2 _ [] [] hcol _).1 i1
      cases e0'
      exact ⟨pairs, text, t, r0, _, k1, t0, e0, fromUtf8_sound i2⟩
  · obtain ⟨_, rfl, rfl⟩ := C93_one_content _ _ _ _ _ rfl _ _ _ _ _ _ hc hc'
    obtain ⟨hs, hpg⟩ := hpg
    rcases hpg with ⟨hr, hmd, b, hl⟩ | ⟨b, hl⟩
    · have hx : HasExt (stem ++ str!".html") str!"html" := ⟨stem, hs, rfl, by decide⟩
      obtain ⟨t, k1, k2⟩ := h.html ds _ b hx hl
      obtain ⟨nm', b', hmade⟩ := hm ds _ b hl
      have hmade' := hmade
      obtain ⟨b0, c, c', j1, j2, j3, j4⟩ := hmade
      cases (fileSpells_read hx k1 j1).1 j2
      cases j3 with
      | same =>
        have : ∃ root, TemplateSpells S plugins d p ds str!"root.html" root ∧ root.Single := by
          cases j4 with
          | template k =>
            rcases k with k | k
            · exact absurd (List.append_cancel_right (as := stem) (bs := str!".html") (cs := str!"root") k) hr
            · exact absurd (List.append_cancel_right (as := stem) (bs := str!".html") (cs := str!"md") k) hmd
          | page _ _ k _ _ => exact templateIs_single h hasExt_root k
        obtain ⟨root, k3, k4⟩ := this
        exact ⟨b', (C108_html_partial S plugins d p ds _ _ _ hcol rfl stem t root hs hr hmd k1 k3 k2 k4 nm' b' hmade').2⟩
    · have hx : HasExt (stem ++ str!".md") str!"md" := ⟨stem, hs, rfl, by decide⟩
      obtain ⟨pairs, text, t, k1, k2⟩ := h.markdown ds _ b hx hl
      obtain ⟨nm', b', hmade⟩ := hm ds _ b hl
      have hmade' := hmade
      obtain ⟨b0, c, c', j1, j2, j3, j4⟩ := hmade
      cases (mdFileSpells_read S plugins d p ds hx k1 j1).1 j2
      cases j3 with
      | same k => exact absurd rfl (k _)
      | markdown _ _ =>
        generalize hnm : stem ++ str!".md" = nm at j4
        have : (∃ root, TemplateSpells S plugins d p ds str!"root.html" root ∧ root.Single) ∧
            ∃ page, TemplateSpells S plugins d p ds str!"md.html" page ∧ page.Single := by
          cases j4 with
          | template k =>
            exfalso
            have := congrArg (fun l => l.drop (l.length - 3)) hnm
            rcases k with rfl | rfl <;> simp at this
          | markdown _ k k' _ _ _ => exact ⟨templateIs_single h hasExt_root k, templateIs_single h hasExt_md k'⟩
        obtain ⟨⟨root, k3, k4⟩, page, k5, k6⟩ := this
        exact ⟨b', (C108_markdown_partial S plugins d p ds _ _ _ hcol rfl stem pairs text t page root hs k1 k5 k3 k2 k6 k4 nm' b' hmade').2⟩

/-- C109. So the content can be read, its markdown converted, and something made of every file, exactly when its texts are sound. -/
theorem C109_iff_partial (hd : ProperDisk d) (hp : FunctionsOnly plugins) (h : AllSingle S plugins d p) (name : Str)
    (hname : p.getLast? = some name) (base : Frame) (hbase : base.name = str!"base") (hout : base.out = [])
    (hone : ∀ ds stem, look d (p ++ ds ++ [stem ++ str!".md"]) = none ∨ look d (p ++ ds ++ [stem ++ str!".html"]) = none) :
    (∃ cs ts, Content S plugins d p base name cs ts ∧ ∀ ds nm b, look d (p ++ ds ++ [nm]) = some (.file b) →
      ∃ nm' b', MadeInto S plugins d p base (.dir name cs (pathStr p)) (.dir name ts (pathStr p)) ds nm nm' b') ↔
    Sound S plugins d p base.vars name :=
  ⟨fun ⟨cs, ts, hc, hm⟩ => C109_sound_partial S plugins d p hd hp h name base hbase hout cs ts hc hm,
    fun hs => C97_sound S plugins d hd p name hname base hbase hout hone hs⟩

end

section
variable (M : Machine) (L : Loader) (cwd : Path) (manifest output : Str) (s s1 : Host) (p : Path) (raw : RawConfig) (plugins : List Plugin)

/-- C109. `stuart build` in a simple project with room for everything, if nothing mishaps: it succeeds exactly when the texts are sound. -/
theorem C109_builds_partial (h : Simple L cwd manifest s s1 p raw plugins) (hcalm : s1.world.Calm)
    (hplaced : Placed plugins raw.toConfig s1.world.disk p.dropLast (joinPath p.dropLast output))
    (hall : AllSingle M.sys plugins s1.world.disk (p.dropLast ++ [str!"content"])) :
    (cmdBuild M L cwd manifest output s).2 = .ok () ↔
      Sound M.sys plugins s1.world.disk (p.dropLast ++ [str!"content"]) (baseFrame M.sys.vars str!"production").vars str!"content" := by
  constructor
  · intro hok
    obtain ⟨cs, ts, k1, -⟩ := C95_published_partial M L cwd manifest output s s1 p raw plugins h hplaced.proper hplaced.named hplaced.tame hok
    obtain ⟨c, h1, h2, h3, h4, h5, h6, h7, h8, h9⟩ := simple_start L cwd manifest output s h str!"production"
    have hok' : (c.build M s1).2.2 = .ok () := by simpa only [cmdBuild, h1] using hok
    have hpre : runScripts M c.env c.pre s1 = (s1, .ok ()) := by rw [h8]; rfl
    have hbm := @build_made M c s1 hok'
    rw [hpre] at hbm
    simp only [h3, h5, h6] at hbm
    exact C109_sound_partial M.sys plugins _ _ hplaced.proper h.functions hall str!"content" (baseFrame M.sys.vars str!"production") rfl rfl cs ts k1
      fun ds nm b hl => hbm hplaced.proper k1 hl
  · intro hs
    exact (C97_published_partial M L cwd manifest output s s1 p raw plugins h hcalm ⟨hplaced, hs⟩).1

end

/-! ### Cases -/

theorem src_single : AllSingle demoSys [] srcDisk [str!"p", str!"content"] where
  html := by
    intro ds nm b hx h
    rcases src_files h with ⟨rfl, k⟩ | ⟨rfl, rfl⟩
    · simp only [List.mem_cons, List.not_mem_nil, or_false] at k
      rcases k with rfl | rfl | rfl
      · exact ⟨_, srcRoot_spelt, trivial⟩
      · exact ⟨_, srcMd_spelt, trivial, trivial⟩
      · exact ⟨_, srcPage_spelt, trivial, trivial⟩
    · exact absurd (extension_iff.2 hx) (by decide)
  markdown := by
    intro ds nm b hx h
    rcases src_files h with ⟨rfl, k⟩ | ⟨rfl, rfl⟩
    · simp only [List.mem_cons, List.not_mem_nil, or_false] at k
      rcases k with rfl | rfl | rfl <;> exact absurd (extension_iff.2 hx) (by decide)
    · exact ⟨_, _, _, srcBody_spelt, trivial⟩

/-- The project of C95: that it is built shows that its texts are sound. -/
example : Sound demoSys [] srcDisk [str!"p", str!"content"] (baseFrame [] str!"production").vars str!"content" :=
  (C109_builds_partial idleMachine shortLoader [str!"p"] str!"stuart.toml" str!"dist" srcHost _ _ _ _ srcHost_simple nofun
    (src_ready _).toPlaced src_single).1 (by decide +kernel)

/-- A page with a loop over a directory that holds nothing. -/
def hollowDisk : Entry := .dir [(str!"p", .dir [
  (str!"stuart.toml", .file (bytesOf str!"name")),
  (str!"content", .dir [
    (str!"root.html", .file (bytesOf str!"<{{ insert(\"b\") }}>")),
    (str!"a.html", .file (bytesOf str!"{{ begin(\"b\") }}{{ for($i, \"n/\") }}A{{ end(for) }}{{ end(\"b\") }}")),
    (str!"n", .dir [])])])]

def hollowHost : Host := ⟨⟨hollowDisk, []⟩, []⟩

def hollowPage : Tpl := .section_ ⟨str!"/p/content/a.html", 1, 3⟩ ⟨str!"/p/content/a.html", 1, 53⟩ str!"b"
  (.loop ⟨str!"/p/content/a.html", 1, 19⟩ ⟨str!"/p/content/a.html", 1, 39⟩ ⟨str!"i", str!"n/", .mdDir, none, none, none, false⟩
    (.leaf ⟨str!"/p/content/a.html", 1, 35⟩ (.raw str!"A") .nil) .nil) .nil

theorem hollow_files {ds : List Str} {nm : Str} {b : Bytes} (h : look hollowDisk ([str!"p", str!"content"] ++ ds ++ [nm]) = some (.file b)) :
    ds = [] ∧ nm ∈ [str!"root.html", str!"a.html"] := by
  have hm := entryAll_look h
  have key : ∀ x ∈ entryAll hollowDisk, x.2 = .dir ∨ x.1 = [str!"p", str!"stuart.toml"] ∨
      x.1 ∈ [str!"root.html", str!"a.html"].map (fun n => [str!"p", str!"content"] ++ [] ++ [n]) := by decide +kernel
  rcases key _ hm with k | k | k
  · cases k
  · simp at k
  · obtain ⟨n, hn, k⟩ := List.mem_map.1 k
    obtain ⟨e1, e2⟩ := List.append_inj' k rfl
    cases e2
    exact ⟨(List.append_cancel_left e1).symm, hn⟩

set_option maxRecDepth 8000 in
theorem hollow_single : AllSingle demoSys [] hollowDisk [str!"p", str!"content"] where
  html := by
    intro ds nm b hx h
    obtain ⟨rfl, k⟩ := hollow_files h
    simp only [List.mem_cons, List.not_mem_nil, or_false] at k
    rcases k with rfl | rfl
    · exact ⟨srcRoot, ⟨_, rfl, (C68_exact _ _ _ _ _).1 rfl, by simp [srcRoot, Tpl.WF, Plain]⟩, trivial⟩
    · exact ⟨hollowPage, ⟨_, rfl, (C68_exact _ _ _ _ _).1 rfl, by simp [hollowPage, Tpl.WF, Plain]⟩, ⟨trivial, trivial⟩, trivial⟩
  markdown := by
    intro ds nm b hx h
    obtain ⟨rfl, k⟩ := hollow_files h
    simp only [List.mem_cons, List.not_mem_nil, or_false] at k
    rcases k with rfl | rfl <;> exact absurd (extension_iff.2 hx) (by decide)

theorem hollow_placed (cfg : Config) : Placed [] cfg hollowDisk [str!"p"] [str!"p", str!"dist"] where
  proper := by unfold hollowDisk; proper_disk
  tame := tame_names (by decide +kernel) (by decide +kernel)
  roomy := by
    have hi : str!"index.html" ∉ entryNames hollowDisk := by decide +kernel
    have from_none : ∀ f ∈ [[str!"p"] ++ [str!"static"], [str!"p"] ++ [str!"temp"]], ∀ r, look hollowDisk (f ++ r) = none := by
      intro f hf r
      simp only [List.mem_cons, List.not_mem_nil, or_false] at hf
      rcases hf with rfl | rfl <;> rfl
    refine ⟨fun ds stem => ?_, fun f _ ds => ?_, fun f hf ds nm b _ => ?_, fun f hf r b _ => ?_, fun r => .inl (from_none _ (by simp) r),
      fun _ ds stem hs h => ?_⟩
    · exact .inl (no_md (by decide +kernel) _ _)
    · rw [no_name hi]; nofun
    · exact ⟨by rw [List.append_assoc]; exact from_none f hf _, fun stem _ => by rw [List.append_assoc]; exact from_none f hf _⟩
    · rw [from_none f hf]; nofun
    · have hst : stem ∈ [str!"root", str!"a"] := by
        obtain ⟨b, h | h⟩ := h
        · obtain ⟨_, k⟩ := hollow_files h
          simp only [List.mem_cons, List.not_mem_nil, or_false] at k
          rcases k with k | k
          · cases List.append_cancel_right (cs := str!"root") k; simp
          · cases List.append_cancel_right (cs := str!"a") k; simp
        · obtain ⟨_, k⟩ := hollow_files h
          simp only [List.mem_cons, List.not_mem_nil, or_false] at k
          rcases k with k | k <;> · have := congrArg List.getLast? k; simp at this
      have hno : ∀ n ∈ [str!"root", str!"a"], n ≠ str!"index.html" ∧ n ∉ entryNames hollowDisk := by decide +kernel
      obtain ⟨k1, k2⟩ := hno _ hst
      exact ⟨k1, fun f _ b => by rw [no_name k2]; nofun⟩
  copied := by
    intro which hw
    simp only [List.mem_cons, List.not_mem_nil, or_false] at hw
    rcases hw with rfl | rfl <;> exact .inl rfl
  apart := by decide +kernel
  named := by decide
  parent := rfl
  place := .inl rfl
  metadata := fun _ => ⟨by decide +kernel, .inl rfl⟩

/-- It cannot be built, and so its texts are not sound: the loop is not tame. -/
example : ¬ Sound demoSys [] hollowDisk [str!"p", str!"content"] (baseFrame [] str!"production").vars str!"content" :=
  fun h => absurd ((C109_builds_partial idleMachine shortLoader [str!"p"] str!"stuart.toml" str!"dist" hollowHost hollowHost
    [str!"p", str!"stuart.toml"] ⟨str!"name", none, none, none⟩ []
    ⟨canonicalize_names.1 rfl, ⟨str!"name", rfl, rfl⟩, rfl, nofun, rfl⟩ nofun (hollow_placed _) hollow_single).2 h) (by decide +kernel)

end Stuart
