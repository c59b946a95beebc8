import Verif.Spec.Sound
import Verif.Props.Source
import Verif.Props.Shown
/-
Property C97: a site of sound texts with room for everything is published.
-/
namespace Stuart
open Spec

/-! ### Texts -/

mutual
theorem usedAs_total {ext : Ext} {cx : Ctx} {base : Frame} : ∀ (n : Node),
    (∀ nm cs src, n = .dir nm cs src → ∀ ds nm b c m src, Holds cs ds (.file nm b c m src) → ∃ c', Converted ext cx base c c') →
    (∀ nm b c m src, n = .file nm b c m src → ∃ c', Converted ext cx base c c') → ∃ t, UsedAs ext cx base n t
  | .file nm b c m src, _, h => by
    obtain ⟨c', hc⟩ := h _ _ _ _ _ rfl
    exact ⟨_, .file hc⟩
  | .dir nm cs src, h, _ => by
    obtain ⟨ts, hts⟩ := usedList_total cs (h _ _ _ rfl)
    exact ⟨_, .dir hts⟩
theorem usedList_total {ext : Ext} {cx : Ctx} {base : Frame} : ∀ (cs : List Node),
    (∀ ds nm b c m src, Holds cs ds (.file nm b c m src) → ∃ c', Converted ext cx base c c') → ∃ ts, UsedList ext cx base cs ts
  | [], _ => ⟨[], .nil⟩
  | n :: cs, h => by
    obtain ⟨t, ht⟩ := usedAs_total n
      (fun nm l src hn ds nm' b c m src' hh => by subst hn; exact h (nm :: ds) nm' b c m src' (.down (.head _) hh))
      (fun nm b c m src hn => by subst hn; exact h [] nm b c m src (.here (.head _)))
    obtain ⟨ts, hts⟩ := usedList_total cs fun ds nm b c m src hh => by
      cases hh with
      | here k => exact h [] nm b c m src (.here (.tail _ k))
      | down k hh => exact h _ nm b c m src (.down (.tail _ k) hh)
    exact ⟨t :: ts, .cons ht hts⟩
end

section
variable {S : Sys} {plugins : List Plugin} {d : Entry} {p : Path} {ds : List Str} {base : Frame} {input tree : Node}

/-- Of a markdown page that means something, something is made. -/
theorem pageMeans_markdown (hv : base.out = []) {stem : Str} {b : Bytes} (hs : stem ≠ [])
    (hn : look d (p ++ ds ++ [stem ++ str!".html"]) = none) (h : PageMeans S plugins d p base.vars input tree ds stem b) :
    MadeInto S plugins d p base input tree ds (stem ++ str!".md") (stem ++ str!".html") b := by
  cases h with
  | html h1 => obtain ⟨_, k, _⟩ := h1; rw [hn] at k; cases k
  | @markdown pairs text shown body page root r0 r r' h1 h2 h3 h4 h5 h6 h7 h8 h9 h10 =>
    have one : ∀ s', r0.out = bytesOf s' → s' = shown := by
      intro s' k
      rw [h6] at k
      have := congrArg fromUtf8 k
      rw [fromUtf8_bytesOf, fromUtf8_bytesOf] at this
      cases this; rfl
    exact (C95_markdown_partial S plugins d p ds base input tree hv stem pairs text body page root hs h1 h2 h3 h4
        (fun r2 s' k k' => by
          rw [h5] at k; cases k
          cases one _ k'
          exact ⟨h7, fun r2 k => by rw [h8] at k; cases k; exact h9⟩) _ _).2 ⟨rfl, r0, shown, r, r', h5, h6, h8, h10, rfl⟩

theorem hasExt_stem {nm e : Str} (h : HasExt nm e) : ∃ stem, stem ≠ [] ∧ nm = stem ++ '.' :: e := by
  obtain ⟨stem, h1, h2, _⟩ := h; exact ⟨stem, h1, h2⟩

/-- C97. If the texts of the content are sound then it can be read, its markdown converted, and something made of every
file. -/
theorem C97_sound (S : Sys) (plugins : List Plugin) (d : Entry) (hd : ProperDisk d) (p : Path) (name : Str)
    (hname : p.getLast? = some name) (base : Frame) (hbase : base.name = str!"base") (hout : base.out = [])
    (hone : ∀ ds stem, look d (p ++ ds ++ [stem ++ str!".md"]) = none ∨ look d (p ++ ds ++ [stem ++ str!".html"]) = none)
    (h : Sound S plugins d p base.vars name) :
    ∃ cs ts, Content S plugins d p base name cs ts ∧ ∀ ds nm b, look d (p ++ ds ++ [nm]) = some (.file b) →
      ∃ nm' b', MadeInto S plugins d p base (.dir name cs (pathStr p)) (.dir name ts (pathStr p)) ds nm nm' b' := by
  obtain ⟨bn, vars, bo⟩ := base
  simp only at hbase hout h
  subst hbase hout
  have reads : ∀ ds nm b, look d (p ++ ds ++ [nm]) = some (.file b) → ∃ c, ReadAs S plugins nm (pathStr (p ++ ds ++ [nm])) b c := by
    intro ds nm b hl
    cases h.files ds nm b hl with
    | html hx k => exact ⟨_, (fileSpells_read hx k hl).2 rfl⟩
    | markdown hx k => exact ⟨_, (mdFileSpells_read S plugins d p ds hx k hl).2 rfl⟩
    | json hx e k => exact ⟨_, .json hx (by rw [e, fromUtf8_bytesOf]) k⟩
    | other k => exact ⟨_, .other k⟩
  have hne : p ≠ [] := by rintro rfl; cases hname
  obtain ⟨root, hroot⟩ := (readTree_succeeds S true plugins d p hd).2 ⟨hne, h.directory, h.plain, reads⟩
  obtain ⟨name', cs, rfl, hr⟩ := asRead hd hroot
  obtain ⟨name'', l, cs', e1, e2, e3, e4⟩ := readTree_iff.1 hroot
  cases e4
  rw [hname] at e1
  cases e1
  have conv : ∀ ds nm b c m src, Holds cs ds (.file nm b c m src) →
      ∃ c', Converted S.ext ⟨.dir name cs (pathStr p), S.dateFmt⟩ ⟨str!"base", vars, []⟩ c c' := by
    intro ds nm b c m src hh
    obtain ⟨k1, rfl, rfl, k2⟩ := (hr.files ds nm b c m src).1 (Shows_file.2 hh)
    cases h.files ds nm b k1 with
    | html hx k => cases (fileSpells_read hx k k1).1 k2; exact ⟨_, .same nofun⟩
    | json hx e k =>
      cases C63_one_way _ _ _ _ _ _ _ k2 (.json hx (by rw [e, fromUtf8_bytesOf]) k)
      exact ⟨_, .same nofun⟩
    | other k => cases C63_one_way _ _ _ _ _ _ _ k2 (.other k); exact ⟨_, .same nofun⟩
    | markdown hx _ =>
      obtain ⟨pairs, text, t, r, shown, k, g1, g2, g3⟩ := h.bodies l cs e2 e3 ds nm b hx k1
      cases (mdFileSpells_read S plugins d p ds hx k k1).1 k2
      have hw : t.WF := by obtain ⟨_, _, _, _, j⟩ := k; exact j.wf
      have e0 := C16_blocks_partial ⟨.dir name cs (pathStr p), S.dateFmt⟩ t hw ⟨str!"base", vars, []⟩ [] [] g1
      simp only [List.map_nil, List.nil_append] at e0
      rw [g2, Res.bind_ok] at e0
      exact ⟨_, .markdown e0 (by simp only; rw [g3]; exact fromUtf8_bytesOf shown)⟩
  obtain ⟨ts, hts⟩ := usedList_total cs conv
  have hc : Content S plugins d p ⟨str!"base", vars, []⟩ name cs ts := ⟨hname, ⟨l, e2, e3⟩, hts⟩
  refine ⟨cs, ts, hc, fun ds nm b hl => ?_⟩
  have page := h.pages cs ts hc ds
  cases h.files ds nm b hl with
  | json hx e k => exact ⟨nm, b, b, _, _, hl, .json hx (by rw [e, fromUtf8_bytesOf]) k, .same nofun, .data⟩
  | other k => exact ⟨nm, b, b, _, _, hl, .other k, .same nofun, .other⟩
  | html hx k =>
    by_cases ht : nm = str!"root.html" ∨ nm = str!"md.html"
    · exact ⟨nm, b, b, _, _, hl, (fileSpells_read hx k hl).2 rfl, .same nofun, .template ht⟩
    · obtain ⟨stem, hs, rfl⟩ := hasExt_stem hx
      have hsr : stem ≠ str!"root" := fun k => ht (.inl (by rw [k]; rfl))
      have hsm : stem ≠ str!"md" := fun k => ht (.inr (by rw [k]; rfl))
      obtain ⟨b', hb⟩ := page stem ⟨hs, .inl ⟨hsr, hsm, b, hl⟩⟩
      obtain ⟨nm2, hn, hl2, hm⟩ := C95_page_partial S plugins d p ds ⟨str!"base", vars, []⟩ _ _ rfl stem b' hs hsr hsm hb
      simp only [List.mem_cons, List.not_mem_nil, or_false] at hn
      rcases hn with rfl | rfl
      · exact ⟨_, _, (hm _ _).2 ⟨rfl, rfl⟩⟩
      · rcases hone ds stem with k | k
        · exact absurd k hl2
        · exact absurd (k.symm.trans hl) nofun
  | markdown hx k =>
    obtain ⟨stem, hs, rfl⟩ := hasExt_stem hx
    obtain ⟨b', hb⟩ := page stem ⟨hs, .inr ⟨b, hl⟩⟩
    refine ⟨_, _, pageMeans_markdown rfl hs ?_ hb⟩
    rcases hone ds stem with k | k
    · exact absurd (k.symm.trans hl) nofun
    · exact k

end

/-! ### Names -/

section
variable {S : Sys} {plugins : List Plugin} {d : Entry} {dir p : Path} {base : Frame} {input tree : Node} {cfg : Config}

theorem dirs_above {q r : Path} {x : Str} (h : look d (q ++ r ++ [x]) ≠ none) : look d (q ++ r) = some .dir :=
  look_above (by simp) h

theorem roomy_made (hp : FunctionsOnly plugins) (h : Roomy cfg d dir p) {ds : List Str} {nm n : Str} {b : Bytes}
    (hm : MadeInto S plugins d p base input tree ds nm n b) :
    (∀ from_ ∈ [dir ++ [str!"static"], dir ++ [str!"temp"]], look d (from_ ++ ds ++ [n]) = none) ∧
      look d (p ++ ds ++ [n]) ≠ some .dir := by
  have hf : ∃ b, look d (p ++ ds ++ [nm]) = some (.file b) := by obtain ⟨b, _, _, k, _⟩ := hm; exact ⟨b, k⟩
  obtain ⟨b0, hl⟩ := hf
  rcases (made_name hp hm).2 with ⟨_, rfl⟩ | ⟨stem, rfl, rfl⟩
  · exact ⟨fun f hfm => (h.files f hfm ds nm b0 hl).1, by rw [hl]; nofun⟩
  · refine ⟨fun f hfm => (h.files f hfm ds _ b0 hl).2 stem rfl, ?_⟩
    rcases h.pages ds stem with k | k
    · rw [hl] at k; cases k
    · rw [k]; nofun

theorem yields_made {ds : List Str} {n : Str} {b : Bytes} (h : Yields S plugins cfg d p base input tree ds n b) :
    ∃ nm, MadeInto S plugins d p base input tree ds nm n b := by
  obtain ⟨nm, b0, c, c', h1, h2, h3, h4, _⟩ := h
  exact ⟨nm, b0, c, c', h1, h2, h3, h4⟩

/-- The page that gets a directory of its own. -/
theorem yields_stem (hp : FunctionsOnly plugins) {ds : List Str} {stem : Str} {b : Bytes}
    (h : Yields S plugins cfg d p base input tree ds (stem ++ str!".html") b) :
    ∃ b, look d (p ++ ds ++ [stem ++ str!".html"]) = some (.file b) ∨ look d (p ++ ds ++ [stem ++ str!".md"]) = some (.file b) := by
  obtain ⟨nm, hm⟩ := yields_made h
  have hf : ∃ b, look d (p ++ ds ++ [nm]) = some (.file b) := by obtain ⟨b, _, _, k, _⟩ := hm; exact ⟨b, k⟩
  obtain ⟨b0, hl⟩ := hf
  rcases (made_name hp hm).2 with ⟨_, rfl⟩ | ⟨stem', rfl, k⟩
  · exact ⟨b0, .inl hl⟩
  · cases List.append_cancel_right k
    exact ⟨b0, .inr hl⟩

/-- The directories of a site, by the names. -/
theorem belongsDir_names (hp : FunctionsOnly plugins) {r : Path} (h : BelongsDir S plugins cfg d dir p base input tree r) :
    r = [] ∨ (∃ from_ ∈ [p, dir ++ [str!"static"], dir ++ [str!"temp"]], look d (from_ ++ r) = some .dir) ∨
    cfg.stripExtensions = true ∧ ∃ ds stem, r = ds ++ [stem] ∧ stem ≠ str!"index" ∧
      ∃ b, look d (p ++ ds ++ [stem ++ str!".html"]) = some (.file b) ∨ look d (p ++ ds ++ [stem ++ str!".md"]) = some (.file b) := by
  cases h with
  | top => exact .inl rfl
  | content _ h => exact .inr (.inl ⟨p, by simp, h⟩)
  | @copied which r hw _ h =>
    refine .inr (.inl ⟨dir ++ [which], ?_, h⟩)
    simp only [List.mem_cons, List.not_mem_nil, or_false] at hw ⊢
    rcases hw with rfl | rfl
    · exact .inr (.inl rfl)
    · exact .inr (.inr rfl)
  | @stripped ds stem b h1 h2 h3 =>
    have hs := yields_stem hp h1
    unfold stemDir
    split
    · rw [List.append_nil]
      refine .inr (.inl ⟨p, by simp, ?_⟩)
      obtain ⟨b0, k | k⟩ := hs
      · exact dirs_above (by rw [k]; nofun)
      · exact dirs_above (by rw [k]; nofun)
    · exact .inr (.inr ⟨h2, ds, stem, rfl, h3, hs⟩)

/-- C97. With room for everything nothing is in the way of anything, whatever is made of the files. -/
theorem C97_roomy (S : Sys) (plugins : List Plugin) (hp : FunctionsOnly plugins) (d : Entry) (dir p : Path) (base : Frame) (input tree : Node)
    (cfg : Config) (h : Roomy cfg d dir p) :
    Compatible S plugins d dir p base input tree none (some str!"static") ∧
    Compatible S plugins d dir p base input tree none (some str!"temp") ∧
    Compatible S plugins d dir p base input tree (some str!"static") (some str!"temp") ∧
    ∀ r b, Belongs S plugins cfg d dir p base input tree r b → ¬ BelongsDir S plugins cfg d dir p base input tree r := by
  have both : ∀ which ∈ [str!"static", str!"temp"], Compatible S plugins d dir p base input tree none (some which) := by
    intro which hw ds nm k k' h1 h2
    have hfr : dir ++ [which] ∈ [dir ++ [str!"static"], dir ++ [str!"temp"]] := by
      simp only [List.mem_cons, List.not_mem_nil, or_false] at hw ⊢
      rcases hw with rfl | rfl
      · exact .inl rfl
      · exact .inr rfl
    cases h1 with
    | page h1 =>
      have := (roomy_made hp h h1).1 _ hfr
      cases h2 with
      | copy h2 => rw [this] at h2; cases h2
      | copyDir h2 => rw [this] at h2; cases h2
    | dir h1 =>
      cases h2 with
      | copy h2 => exact absurd (by simpa using h2) (h.dirs _ hfr (ds ++ [nm]) _ (by simpa using h1))
      | copyDir h2 => exact ⟨rfl, rfl⟩
  refine ⟨both _ (by simp), both _ (by simp), ?_, ?_⟩
  · intro ds nm k k' h1 h2
    rcases h.copied (ds ++ [nm]) with e | e | ⟨e, e'⟩
    · cases h1 with
      | copy h1 => simp only [← List.append_assoc] at e; rw [e] at h1; cases h1
      | copyDir h1 => simp only [← List.append_assoc] at e; rw [e] at h1; cases h1
    · cases h2 with
      | copy h1 => simp only [← List.append_assoc] at e; rw [e] at h1; cases h1
      | copyDir h1 => simp only [← List.append_assoc] at e; rw [e] at h1; cases h1
    · simp only [← List.append_assoc] at e e'
      cases h1 with
      | copy h1 => rw [e] at h1; cases h1
      | copyDir _ =>
        cases h2 with
        | copy h1 => rw [e'] at h1; cases h1
        | copyDir _ => exact ⟨rfl, rfl⟩
  · intro r b hb hdir
    have sub : ∀ f ∈ [dir ++ [str!"static"], dir ++ [str!"temp"]], f ∈ [p, dir ++ [str!"static"], dir ++ [str!"temp"]] :=
      fun f hf => .tail _ hf
    have whichF : ∀ which ∈ [str!"static", str!"temp"], dir ++ [which] ∈ [dir ++ [str!"static"], dir ++ [str!"temp"]] := by
      intro which hw
      simp only [List.mem_cons, List.not_mem_nil, or_false] at hw ⊢
      rcases hw with rfl | rfl
      · exact .inl rfl
      · exact .inr rfl
    rcases belongsDir_names hp hdir with rfl | ⟨f, hf, hl⟩ | ⟨hstrip, ds, stem, rfl, hi, hpg⟩
    · generalize hq : ([] : Path) = q at hb
      cases hb <;> simp at hq
    · cases hb with
      | @made ds nm _ h1 h2 =>
        obtain ⟨nm0, hm⟩ := yields_made h1
        obtain ⟨k1, k2⟩ := roomy_made hp h hm
        rw [← List.append_assoc] at hl
        cases hf with
        | head => exact k2 hl
        | tail _ hf => rw [k1 f hf] at hl; cases hl
      | @stripped ds stem =>
        rw [← List.append_assoc] at hl
        exact h.index f hf _ hl
      | @copied which nm ds _ hw h1 _ =>
        rw [List.append_assoc] at h1
        cases hf with
        | head => exact h.dirs _ (whichF _ hw) _ _ hl h1
        | tail _ hf =>
          have hc := h.copied (ds ++ [nm])
          have hf : f ∈ [dir ++ [str!"static"], dir ++ [str!"temp"]] := hf
          simp only [List.mem_cons, List.not_mem_nil, or_false] at hf hw
          rcases hf with rfl | rfl <;> rcases hw with rfl | rfl
          · rw [hl] at h1; cases h1
          · rw [hl, h1] at hc
            rcases hc with hc | hc | ⟨_, hc⟩ <;> cases hc
          · rw [hl, h1] at hc
            rcases hc with hc | hc | ⟨hc, _⟩ <;> cases hc
          · rw [hl] at h1; cases h1
    · obtain ⟨n1, n2⟩ := h.stripped hstrip ds stem hi hpg
      generalize hq : ds ++ [stem] = q at hb
      cases hb with
      | @made ds' nm _ h1 h2 =>
        obtain ⟨rfl, e⟩ := List.append_inj' hq rfl
        cases e
        obtain ⟨nm0, hm⟩ := yields_made h1
        have hx : ¬ str!".html" <:+ stem := by
          rcases h2 hstrip with k | k
          · exact absurd k n1
          · exact k
        rcases (made_name hp hm).2 with ⟨⟨b0, hl⟩, rfl⟩ | ⟨stem', rfl, rfl⟩
        · exact n2 p (by simp) _ hl
        · exact hx ⟨stem', rfl⟩
      | @stripped ds' stem' =>
        obtain ⟨_, e⟩ := List.append_inj' hq rfl
        cases e
        exact n1 rfl
      | @copied which nm ds' _ hw h1 _ =>
        obtain ⟨rfl, e⟩ := List.append_inj' hq rfl
        cases e
        exact n2 _ (sub _ (whichF _ hw)) _ h1

end

/-! ### The whole build -/

/-- C97. A build in a project that, when the pre-build scripts have run, is ready: if nothing mishaps, it succeeds. -/
theorem C97_builds_partial (M : Machine) (c : Context) (s : Host) (hp : FunctionsOnly c.stuart.plugins)
    (hdir : c.stuart.dir = c.dir ++ [str!"content"]) (hpre : (runScripts M c.env c.pre s).2 = .ok ())
    (hpost : ∀ s', (runScripts M c.env c.post s').2 = .ok ()) (hcalm : (runScripts M c.env c.pre s).1.world.Calm)
    (hr : Ready M.sys c.stuart.plugins c.stuart.config (runScripts M c.env c.pre s).1.world.disk c.dir c.outPath c.mode) :
    (c.build M s).2.2 = .ok () := by
  have main := C93_build_partial M c s hpost hr.apart (fun k => (hr.metadata k).1)
  simp only [hdir] at main
  have hindex : ∀ which ∈ [str!"content", str!"static", str!"temp"], ∀ ds,
      look (runScripts M c.env c.pre s).1.world.disk (c.dir ++ [which] ++ ds ++ [str!"index.html"]) ≠ some .dir := by
    intro which hw ds
    refine hr.roomy.index _ ?_ ds
    simp only [List.mem_cons, List.not_mem_nil, or_false] at hw ⊢
    rcases hw with rfl | rfl | rfl
    · exact .inl rfl
    · exact .inr (.inl rfl)
    · exact .inr (.inr rfl)
  obtain ⟨cs, ts, k1, k2⟩ := C97_sound M.sys c.stuart.plugins (runScripts M c.env c.pre s).1.world.disk hr.proper
    (c.dir ++ [str!"content"]) str!"content" (by simp) (baseFrame M.sys.vars c.mode) rfl rfl hr.roomy.pages hr.sound
  obtain ⟨c1, c2, c3, c4⟩ := C97_roomy M.sys c.stuart.plugins hp (runScripts M c.env c.pre s).1.world.disk c.dir
    (c.dir ++ [str!"content"]) (baseFrame M.sys.vars c.mode) (.dir str!"content" cs (pathStr (c.dir ++ [str!"content"])))
    (.dir str!"content" ts (pathStr (c.dir ++ [str!"content"]))) c.stuart.config hr.roomy
  refine (main hcalm hr.proper hr.tame fun name cs ts _ => C93_apart M.sys c.stuart.plugins hp _ _ _ _ _ _ hr.roomy.pages
    (hindex _ (by simp)) (fun which hw ds => hindex which (by simp at hw ⊢; exact .inr hw) ds)).2 ⟨hpre, str!"content", cs, ts, k1, k2, ?_⟩
  refine ⟨hr.copied _ (by simp), hr.copied _ (by simp), c1, c2, c3, hr.named, hr.parent, hr.place, c4,
    fun _ => look_above (r := [str!"content"]) (by simp) (by rw [hr.sound.directory]; nofun), fun k => (hr.metadata k).2,
    fun _ ds nm b k _ hread => ?_⟩
  cases hread with
  | custom _ _ _ _ hf =>
    obtain ⟨ps, q, ps', _, _, k, k', _⟩ := hf
    rw [hp q (by rw [k]; simp)] at k'
    simp at k'

section
variable (M : Machine) (L : Loader) (cwd : Path) (manifest output : Str) (s s1 : Host) (p : Path) (raw : RawConfig) (plugins : List Plugin)

/-- C97. `stuart build` in a simple project that is ready, if nothing mishaps: it succeeds, and what is at the place of a
page is what its texts mean, if nothing else gets there. -/
theorem C97_published_partial (h : Simple L cwd manifest s s1 p raw plugins) (hcalm : s1.world.Calm)
    (hready : Ready M.sys plugins raw.toConfig s1.world.disk p.dropLast (joinPath p.dropLast output) str!"production") :
    let d := s1.world.disk
    let content := p.dropLast ++ [str!"content"]
    let base := baseFrame M.sys.vars str!"production"
    let r := cmdBuild M L cwd manifest output s
    r.2 = .ok () ∧ ∃ cs ts, Content M.sys plugins d content base str!"content" cs ts ∧
      ∀ ds stem, stem ≠ str!"root" → stem ≠ str!"md" → IsPage d content ds stem → ∃ b,
        PageMeans M.sys plugins d content base.vars (.dir str!"content" cs (pathStr content)) (.dir str!"content" ts (pathStr content)) ds stem b ∧
        (PlaceFree raw.toConfig d p.dropLast content ds stem →
          look r.1.world.disk (joinPath p.dropLast output ++ placeOf raw.toConfig ds stem) = some (.file b)) := by
  intro d content base r
  obtain ⟨c, h1, h2, h3, h4, h5, h6, h7, h8, h9⟩ := simple_start L cwd manifest output s h str!"production"
  have hok : r.2 = .ok () := by
    have hr : r = ((c.build M s1).2.1, (c.build M s1).2.2) := by
      simp only [r, cmdBuild, h1]
    rw [hr]
    have hpre : runScripts M c.env c.pre s1 = (s1, .ok ()) := by rw [h8]; rfl
    refine C97_builds_partial M c s1 (by rw [h3]; exact h.functions) (by rw [h4, h5]) (by rw [hpre]) (fun s' => by rw [h9]; rfl)
      (by rw [hpre]; exact hcalm) (by rw [hpre, h2, h3, h4, h6, h7]; exact hready)
  obtain ⟨cs, ts, k1, k2⟩ := C95_published_partial M L cwd manifest output s s1 p raw plugins h hready.proper hready.named hready.tame hok
  refine ⟨hok, cs, ts, k1, fun ds stem hr hm hpg => ?_⟩
  obtain ⟨b, hb⟩ := hready.sound.pages cs ts k1 ds stem hpg
  exact ⟨b, hb, fun hf => k2 ds stem b hpg.1 hr hm hb (hready.roomy.pages ds stem) hf⟩

end

section
variable {α : Type} (M : Machine) (send : α → α × Bool) (L : Loader) (cwd : Path) (manifest output : Str) (s0 s1 : Host) (p : Path)
  (raw : RawConfig) (plugins : List Plugin)

/-- A project that is ready is built when the server is told of a change. -/
theorem dev_builds (h : Simple L cwd manifest s0 s1 p raw plugins) (s2 : Host) (c0 : Context) (served : Path)
    (hstart : startDev M L cwd manifest output s0 = (s2, .ok (c0, served))) (hroot : look s0.world.disk [] = some .dir)
    (c : Context) (s : Host) (streams : List α) (hs : Serving M send c0 c s streams) (hcalm : s.world.Calm)
    (hready : Ready M.sys plugins raw.toConfig s.world.disk p.dropLast (joinPath p.dropLast output) str!"development") :
    (c.build M s).2.2 = .ok () ∧ c.dir = p.dropLast := by
  obtain ⟨ci, h1, h2, h3, h4, h5, h6, h7, h8, h9⟩ := simple_start L cwd manifest output s0 h str!"development"
  obtain ⟨_, ci', g1, g2, rfl, -, -⟩ := (C96_start M L cwd manifest output s0 hroot _ _ _).1 hstart
  rw [h1] at g1
  cases g1
  obtain ⟨⟨e1, e2, e3, e4, e5, e6⟩, e7, e8, -⟩ := (C96_settings M send _ c s streams hs).trans (Context.build_settings M ci s1)
  have eo : c.outPath = ci.outPath := by unfold Context.outPath; rw [e5, e6]
  have hpre : runScripts M c.env c.pre s = (s, .ok ()) := by rw [e7, h8]; rfl
  exact ⟨C97_builds_partial M c s (by rw [e3, h3]; exact h.functions) (by rw [e1, e5, h4, h5]) (by rw [hpre]) (fun s' => by rw [e8, h9]; rfl)
      (by rw [hpre]; exact hcalm) (by rw [hpre, eo, e2, e3, e4, e5, h2, h3, h4, h6, h7]; exact hready), by rw [e5, h4]⟩

/-- C97. `stuart dev` in a simple project, after any time: when the server is told of a change and the project is then
ready, it builds the site, if nothing mishaps; and a browser that asks for a page gets what its texts mean, with the script
before its first `</body>`. -/
theorem C97_dev_partial (h : Simple L cwd manifest s0 s1 p raw plugins) (s2 : Host) (c0 : Context) (served : Path)
    (hstart : startDev M L cwd manifest output s0 = (s2, .ok (c0, served))) (hroot : look s0.world.disk [] = some .dir)
    (c : Context) (s : Host) (streams : List α) (hs : Serving M send c0 c s streams) (rel : Path)
    (hrel : reaction rel = .rebuild) (hcalm : s.world.Calm)
    (hready : Ready M.sys plugins raw.toConfig s.world.disk p.dropLast (joinPath p.dropLast output) str!"development") :
    let d := s.world.disk
    let content := p.dropLast ++ [str!"content"]
    let base := baseFrame M.sys.vars str!"development"
    let r := onEvent M send (some (p.dropLast ++ rel)) c s streams
    r.2.2.2 = .ok true ∧ ∃ cs ts, Content M.sys plugins d content base str!"content" cs ts ∧
      ∀ ds stem, stem ≠ str!"root" → stem ≠ str!"md" → IsPage d content ds stem → ∃ b,
        PageMeans M.sys plugins d content base.vars (.dir str!"content" cs (pathStr content)) (.dir str!"content" ts (pathStr content)) ds stem b ∧
        (PlaceFree raw.toConfig d p.dropLast content ds stem →
          ∀ js locate mime uri, locate (dropSlash uri) = some (.file (served ++ placeOf raw.toConfig ds stem)) →
            (serveDir js locate mime r.2.1.world.disk uri).status = 200 ∧
            (serveDir js locate mime r.2.1.world.disk uri).contentType = some (mime str!"html") ∧
            Reloading js b (serveDir js locate mime r.2.1.world.disk uri).body) := by
  intro d content base r
  obtain ⟨hok, hdir⟩ := dev_builds M send L cwd manifest output s0 s1 p raw plugins h s2 c0 served hstart hroot c s streams hs hcalm hready
  have hev := ((C71_event M send c s streams).2.1 rel hrel).2.2 (by rw [hok]; nofun)
  rw [hdir] at hev
  obtain ⟨cs, ts, k1, k2⟩ := C96_dev_partial M send L cwd manifest output s0 s1 p raw plugins h s2 _ served hstart hroot hready.named c s
    streams hs rel hrel hok hready.proper hready.tame
  refine ⟨hev, cs, ts, k1, fun ds stem hr hm hpg => ?_⟩
  obtain ⟨b, hb⟩ := hready.sound.pages cs ts k1 ds stem hpg
  exact ⟨b, hb, fun hf => k2 ds stem b hpg.1 hr hm hb (hready.roomy.pages ds stem) hf⟩

end

/-! ### Cases -/

mutual
/-- What is in an entry, itself included. -/
def entryAll : Entry → List (Path × Kind)
  | .dir l => ([], .dir) :: kindsAll l
  | .file b => [([], .file b)]
  | .special => [([], .special)]
def kindsAll : List (Str × Entry) → List (Path × Kind)
  | [] => []
  | (n, e) :: l => (entryAll e).map (fun x => (n :: x.1, x.2)) ++ kindsAll l
end

theorem kindsAll_mem {l : List (Str × Entry)} {n : Str} {e : Entry} (h : (n, e) ∈ l) (q : Path) (k : Kind)
    (hq : (q, k) ∈ entryAll e) : (n :: q, k) ∈ kindsAll l := by
  induction l with
  | nil => cases h
  | cons x l ih =>
    obtain ⟨n', e'⟩ := x
    rw [kindsAll]
    rcases List.mem_cons.1 h with h | h
    · cases h; exact List.mem_append_left _ (List.mem_map.2 ⟨_, hq, rfl⟩)
    · exact List.mem_append_right _ (ih h)

theorem entryAll_look : ∀ {q : Path} {d : Entry} {k : Kind}, look d q = some k → (q, k) ∈ entryAll d := by
  intro q
  induction q with
  | nil =>
    intro d k h
    cases d <;> simp [look, Entry.at, kind] at h <;> subst h <;> simp [entryAll]
  | cons m q ih =>
    intro d k h
    cases d with
    | dir l =>
      simp only [look, Entry.at] at h
      split at h
      · rename_i e he; exact .tail _ (kindsAll_mem (findEntry_in he) _ _ (ih h))
      · cases h
    | file _ => cases h
    | special => cases h

/-- The files of the content of the project of C95. -/
theorem src_files {ds : List Str} {nm : Str} {b : Bytes} (h : look srcDisk ([str!"p", str!"content"] ++ ds ++ [nm]) = some (.file b)) :
    ds = [] ∧ nm ∈ [str!"root.html", str!"md.html", str!"a.html"] ∨ ds = [str!"blog"] ∧ nm = str!"x.md" := by
  have hm := entryAll_look h
  have key : ∀ x ∈ entryAll srcDisk, x.2 = .dir ∨ x.1 = [str!"p", str!"stuart.toml"] ∨
      x.1 ∈ [str!"root.html", str!"md.html", str!"a.html"].map (fun n => [str!"p", str!"content"] ++ [] ++ [n]) ∨
      x.1 = [str!"p", str!"content"] ++ [str!"blog"] ++ [str!"x.md"] := by decide +kernel
  rcases key _ hm with k | k | k | k
  · cases k
  · simp at k
  · obtain ⟨n, hn, k⟩ := List.mem_map.1 k
    obtain ⟨e1, e2⟩ := List.append_inj' k rfl
    cases e2
    exact .inl ⟨(List.append_cancel_left e1).symm, hn⟩
  · obtain ⟨e1, e2⟩ := List.append_inj' k rfl
    cases e2
    exact .inr ⟨List.append_cancel_left e1, rfl⟩

theorem srcPage_spelt : FileSpells demoSys [] srcDisk [str!"p", str!"content"] [] str!"a.html" srcPage :=
  ⟨_, rfl, (C68_exact _ _ _ _ _).1 rfl, by simp [srcPage, Tpl.WF, Plain]⟩

theorem srcBody_spelt : MdFileSpells demoSys [] srcDisk [str!"p", str!"content"] [str!"blog"] str!"x.md" [(str!"title", str!"T")]
    str!"in {{ $env.STUART_ENV }}" srcBody := by
  refine ⟨str!"in {{ $env.STUART_ENV }}\n", rfl, ?_, rfl, (C68_exact _ _ _ _ _).1 rfl, by simp [srcBody, Tpl.WF, Plain]⟩
  simp only [List.mem_cons, List.not_mem_nil, or_false, forall_eq]
  constructor <;> first | decide | (unfold Dashes; decide)

theorem src_sound : Sound demoSys [] srcDisk [str!"p", str!"content"] (baseFrame [] str!"production").vars str!"content" where
  directory := rfl
  plain := by
    have key : ∀ x ∈ entryAll srcDisk, x.2 ≠ .special := by decide +kernel
    exact fun r h => key _ (entryAll_look h) rfl
  files := by
    intro ds nm b h
    rcases src_files h with ⟨rfl, k⟩ | ⟨rfl, rfl⟩
    · simp only [List.mem_cons, List.not_mem_nil, or_false] at k
      rcases k with rfl | rfl | rfl
      · exact .html hasExt_root srcRoot_spelt
      · exact .html hasExt_md srcMd_spelt
      · exact .html (extension_iff.1 rfl) srcPage_spelt
    · exact .markdown (extension_iff.1 rfl) srcBody_spelt
  bodies := by
    intro l cs _ _ ds nm b hx h
    rcases src_files h with ⟨rfl, k⟩ | ⟨rfl, rfl⟩
    · simp only [List.mem_cons, List.not_mem_nil, or_false] at k
      rcases k with rfl | rfl | rfl <;> exact absurd (extension_iff.2 hx) (by decide)
    · exact ⟨_, _, _, ⟨[], bytesOf str!"in production", []⟩, str!"in production", srcBody_spelt, fun _ _ _ _ => trivial, rfl, rfl⟩
  pages := by
    intro cs ts _ ds stem ⟨_, h⟩
    rcases h with ⟨n1, n2, b, h⟩ | ⟨b, h⟩
    · rcases src_files h with ⟨rfl, k⟩ | ⟨rfl, k⟩
      · simp only [List.mem_cons, List.not_mem_nil, or_false] at k
        rcases k with k | k | k
        · exact absurd (List.append_cancel_right (cs := str!"root") k) n1
        · exact absurd (List.append_cancel_right (cs := str!"md") k) n2
        · cases List.append_cancel_right (cs := str!"a") k
          exact ⟨_, (src_pages _ _).1⟩
      · have := congrArg List.getLast? k
        simp at this
    · rcases src_files h with ⟨rfl, k⟩ | ⟨rfl, k⟩
      · simp only [List.mem_cons, List.not_mem_nil, or_false] at k
        rcases k with k | k | k <;> · have := congrArg List.getLast? k; simp at this
      · cases List.append_cancel_right (cs := str!"x") k
        exact ⟨_, (src_pages _ _).2⟩

theorem src_roomy (cfg : Config) : Roomy cfg srcDisk [str!"p"] [str!"p", str!"content"] := by
  have hi : str!"index.html" ∉ entryNames srcDisk := by decide +kernel
  have e1 : ∀ r, look srcDisk ([str!"p", str!"static"] ++ r) = none := fun r => rfl
  have e2 : ∀ r, look srcDisk ([str!"p", str!"temp"] ++ r) = none := fun r => rfl
  have from_none : ∀ f ∈ [[str!"p"] ++ [str!"static"], [str!"p"] ++ [str!"temp"]], ∀ r, look srcDisk (f ++ r) = none := by
    intro f hf r
    simp only [List.mem_cons, List.not_mem_nil, or_false] at hf
    rcases hf with rfl | rfl
    · exact e1 r
    · exact e2 r
  refine ⟨fun ds stem => ?_, fun f _ ds => ?_, fun f hf ds nm b _ => ?_, fun f hf r b _ => ?_, fun r => .inl (e1 r),
    fun _ ds stem hs h => ?_⟩
  · by_cases k : stem = str!"x"
    · subst k; exact .inr (no_name (by decide +kernel) _)
    · refine .inl (Classical.byContradiction fun h => k ?_)
      have hall : ∀ n ∈ entryNames srcDisk, n.drop (n.length - 3) = str!".md" → n = str!"x.md" := by decide +kernel
      exact List.append_cancel_right (bs := str!".md") (hall _ (entryNames_look h) (by simp))
  · rw [no_name hi]; nofun
  · exact ⟨by rw [List.append_assoc]; exact from_none f hf _, fun stem _ => by rw [List.append_assoc]; exact from_none f hf _⟩
  · rw [from_none f hf]; nofun
  · have hst : stem ∈ [str!"root", str!"md", str!"a", str!"x"] := by
      obtain ⟨b, h | h⟩ := h
      · rcases src_files h with ⟨_, k⟩ | ⟨_, k⟩
        · simp only [List.mem_cons, List.not_mem_nil, or_false] at k
          rcases k with k | k | k
          · cases List.append_cancel_right (cs := str!"root") k; simp
          · cases List.append_cancel_right (cs := str!"md") k; simp
          · cases List.append_cancel_right (cs := str!"a") k; simp
        · have := congrArg List.getLast? k; simp at this
      · rcases src_files h with ⟨_, k⟩ | ⟨_, k⟩
        · simp only [List.mem_cons, List.not_mem_nil, or_false] at k
          rcases k with k | k | k <;> · have := congrArg List.getLast? k; simp at this
        · cases List.append_cancel_right (cs := str!"x") k; simp
    have hno : ∀ n ∈ [str!"root", str!"md", str!"a", str!"x"], n ≠ str!"index.html" ∧ n ∉ entryNames srcDisk := by decide +kernel
    obtain ⟨k1, k2⟩ := hno _ hst
    exact ⟨k1, fun f _ b => by rw [no_name k2]; nofun⟩

theorem src_ready (cfg : Config) : Ready demoSys [] cfg srcDisk [str!"p"] [str!"p", str!"dist"] str!"production" where
  proper := by unfold srcDisk; proper_disk
  tame := tame_names (by decide +kernel) (by decide +kernel)
  sound := src_sound
  roomy := src_roomy cfg
  copied := by
    intro which hw
    simp only [List.mem_cons, List.not_mem_nil, or_false] at hw
    rcases hw with rfl | rfl <;> exact .inl rfl
  apart := by decide +kernel
  named := by decide
  parent := rfl
  place := .inl rfl
  metadata := fun _ => ⟨by decide +kernel, .inl rfl⟩

/-- The project of C95 is built, by its texts and names alone; and its pages are what their texts mean. -/
example : (cmdBuild idleMachine shortLoader [str!"p"] str!"stuart.toml" str!"dist" srcHost).2 = .ok () ∧
    ∃ b, look (cmdBuild idleMachine shortLoader [str!"p"] str!"stuart.toml" str!"dist" srcHost).1.world.disk
      [str!"p", str!"dist", str!"blog", str!"x", str!"index.html"] = some (.file b) := by
  obtain ⟨h1, cs, ts, _, h2⟩ := C97_published_partial idleMachine shortLoader [str!"p"] str!"stuart.toml" str!"dist" srcHost _ _ _ _
    srcHost_simple nofun (src_ready _)
  refine ⟨h1, ?_⟩
  obtain ⟨b, _, k⟩ := h2 [str!"blog"] str!"x" (by decide) (by decide) ⟨by decide, .inr ⟨_, rfl⟩⟩
  exact ⟨b, k ⟨by decide, by decide, rfl, by simp; exact ⟨rfl, rfl⟩⟩⟩

theorem devB_files {ds : List Str} {nm : Str} {b : Bytes} (h : look (devDisk str!"B") ([str!"p", str!"content"] ++ ds ++ [nm]) = some (.file b)) :
    ds = [] ∧ nm ∈ [str!"root.html", str!"a.html"] := by
  have hm := entryAll_look h
  have key : ∀ x ∈ entryAll (devDisk str!"B"), x.2 = .dir ∨ x.1 = [str!"p", str!"stuart.toml"] ∨
      x.1 ∈ [str!"root.html", str!"a.html"].map (fun n => [str!"p", str!"content"] ++ [] ++ [n]) := by decide +kernel
  rcases key _ hm with k | k | k
  · cases k
  · simp at k
  · obtain ⟨n, hn, k⟩ := List.mem_map.1 k
    obtain ⟨e1, e2⟩ := List.append_inj' k rfl
    cases e2
    exact ⟨(List.append_cancel_left e1).symm, hn⟩

/-- The changed project of C96 is ready. -/
theorem devB_ready (cfg : Config) : Ready demoSys [] cfg (devDisk str!"B") [str!"p"] [str!"p", str!"dist"] str!"development" where
  proper := by unfold devDisk; proper_disk
  tame := tame_names (by decide +kernel) (by decide +kernel)
  sound := by
    refine ⟨rfl, ?_, ?_, ?_, ?_⟩
    · have key : ∀ x ∈ entryAll (devDisk str!"B"), x.2 ≠ .special := by decide +kernel
      exact fun r h => key _ (entryAll_look h) rfl
    · intro ds nm b h
      obtain ⟨rfl, k⟩ := devB_files h
      simp only [List.mem_cons, List.not_mem_nil, or_false] at k
      rcases k with rfl | rfl
      · exact .html hasExt_root (devRoot_spelt _)
      · exact .html (t := devPage str!"B") (extension_iff.1 rfl) ⟨_, rfl, (C68_exact _ _ _ _ _).1 rfl, by simp [devPage, Tpl.WF, Plain]⟩
    · intro l cs _ _ ds nm b hx h
      obtain ⟨rfl, k⟩ := devB_files h
      simp only [List.mem_cons, List.not_mem_nil, or_false] at k
      rcases k with rfl | rfl <;> exact absurd (extension_iff.2 hx) (by decide)
    · intro cs ts _ ds stem ⟨_, h⟩
      rcases h with ⟨n1, _, b, h⟩ | ⟨b, h⟩
      · obtain ⟨rfl, k⟩ := devB_files h
        simp only [List.mem_cons, List.not_mem_nil, or_false] at k
        rcases k with k | k
        · exact absurd (List.append_cancel_right (cs := str!"root") k) n1
        · cases List.append_cancel_right (cs := str!"a") k
          exact ⟨_, dev_page _ _⟩
      · obtain ⟨rfl, k⟩ := devB_files h
        simp only [List.mem_cons, List.not_mem_nil, or_false] at k
        rcases k with k | k <;> · have := congrArg List.getLast? k; simp at this
  roomy := by
    have hi : str!"index.html" ∉ entryNames (devDisk str!"B") := by decide +kernel
    have from_none : ∀ f ∈ [[str!"p"] ++ [str!"static"], [str!"p"] ++ [str!"temp"]], ∀ r, look (devDisk str!"B") (f ++ r) = none := by
      intro f hf r
      simp only [List.mem_cons, List.not_mem_nil, or_false] at hf
      rcases hf with rfl | rfl <;> rfl
    refine ⟨fun ds stem => ?_, fun f _ ds => ?_, fun f hf ds nm b _ => ?_, fun f hf r b _ => ?_, fun r => .inl (from_none _ (by simp) r),
      fun _ ds stem hs h => ?_⟩
    · exact .inl (no_md (by decide +kernel) _ _)
    · rw [no_name hi]; nofun
    · exact ⟨by rw [List.append_assoc]; exact from_none f hf _, fun stem _ => by rw [List.append_assoc]; exact from_none f hf _⟩
    · rw [from_none f hf]; nofun
    · have hst : stem ∈ [str!"root", str!"a"] := by
        obtain ⟨b, h | h⟩ := h
        · obtain ⟨_, k⟩ := devB_files h
          simp only [List.mem_cons, List.not_mem_nil, or_false] at k
          rcases k with k | k
          · cases List.append_cancel_right (cs := str!"root") k; simp
          · cases List.append_cancel_right (cs := str!"a") k; simp
        · obtain ⟨_, k⟩ := devB_files h
          simp only [List.mem_cons, List.not_mem_nil, or_false] at k
          rcases k with k | k <;> · have := congrArg List.getLast? k; simp at this
      have hno : ∀ n ∈ [str!"root", str!"a"], n ≠ str!"index.html" ∧ n ∉ entryNames (devDisk str!"B") := by decide +kernel
      obtain ⟨k1, k2⟩ := hno _ hst
      exact ⟨k1, fun f _ b => by rw [no_name k2]; nofun⟩
  copied := by
    intro which hw
    simp only [List.mem_cons, List.not_mem_nil, or_false] at hw
    rcases hw with rfl | rfl <;> exact .inl rfl
  apart := by decide +kernel
  named := by decide
  parent := rfl
  place := .inl rfl
  metadata := fun _ => ⟨by decide +kernel, .inl rfl⟩

/-- The server of C96 is told of the change: it builds the site and the browser gets a page. -/
example (js : Bytes) (locate : Str → Option Located) (mime : Str → Str)
    (hl : locate str!"a/" = some (.file [str!"p", str!"dist", str!"a", str!"index.html"])) :
    let s' := (onEvent idleMachine (fun n : Nat => (n, true)) (some ([str!"p", str!"stuart.toml"].dropLast ++ [str!"content", str!"a.html"]))
      devStarted (devHost str!"B") [1]).2.1
    (serveDir js locate mime s'.world.disk str!"/a/").status = 200 := by
  have key := C97_dev_partial idleMachine (fun n : Nat => (n, true)) shortLoader [str!"p"] str!"stuart.toml" str!"dist" (devHost str!"A")
    _ _ _ _ (devHost_simple _) _ _ _ dev_start rfl devStarted (devHost str!"B") [1]
    (.meanwhile (s := devHost str!"A") (streams := []) _ _ (.start _ _)) [str!"content", str!"a.html"] (by decide) nofun (devB_ready _)
  revert key
  generalize onEvent _ _ _ _ _ _ = r
  rintro ⟨_, cs, ts, _, k⟩
  obtain ⟨b, _, k⟩ := k [] str!"a" (by decide) (by decide) ⟨by decide, .inl ⟨by decide, by decide, _, rfl⟩⟩
  exact (k ⟨by decide, by decide, rfl, by simp; exact ⟨rfl, rfl⟩⟩ js locate mime str!"/a/" hl).1

end Stuart
