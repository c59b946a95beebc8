import Verif.Spec.Source
import Verif.Props.Command
import Verif.Props.Block
import Verif.Props.Parse
import Verif.Props.Markdown
/-
Property C95: from the text of a page and of its template to what is published.
-/
namespace Stuart
open Spec

section
variable {S : Sys} {plugins : List Plugin} {d : Entry} {p : Path} {ds : List Str}

theorem inForce_unique {nm : Str} {q q' : List Str} (h : InForce d p nm ds q) (h' : InForce d p nm ds q') : q = q' := by
  have h1 := h.2.2 q' h'.1 h'.2.1
  have h2 := h'.2.2 q h.1 h.2.1
  exact h2.eq_of_length (Nat.le_antisymm h2.length_le h1.length_le)

/-- The readings of a file that spells a template. -/
theorem fileSpells_read {nm : Str} {t : Tpl} (hx : HasExt nm str!"html") (h : FileSpells S plugins d p ds nm t) {b : Bytes}
    (hl : look d (p ++ ds ++ [nm]) = some (.file b)) {c : Parsed} :
    ReadAs S plugins nm (pathStr (p ++ ds ++ [nm])) b c ↔ c = .html t.toks := by
  obtain ⟨text, h1, h2⟩ := h
  rw [h1] at hl
  cases hl
  have hr : ReadAs S plugins nm (pathStr (p ++ ds ++ [nm])) (bytesOf text) (.html t.toks) :=
    .html hx (fromUtf8_bytesOf text) ((C68_exact _ _ _ _ _).2 h2.parses)
  constructor
  · intro k; exact C63_one_way _ _ _ _ _ _ _ k hr
  · rintro rfl; exact hr

theorem templateSpells_is {nm : Str} {t : Tpl} (hx : HasExt nm str!"html") (h : TemplateSpells S plugins d p ds nm t)
    {toks : List LTok} : TemplateIs S plugins d p nm ds toks ↔ toks = t.toks := by
  obtain ⟨q, h1, h2⟩ := h
  constructor
  · rintro ⟨q', b, k1, k2, k3⟩
    cases inForce_unique k1 h1
    have := (fileSpells_read hx h2 k2).1 k3
    cases this; rfl
  · rintro rfl
    obtain ⟨text, h3, h4⟩ := h2
    exact ⟨q, _, h1, h3, (fileSpells_read hx ⟨text, h3, h4⟩ h3).2 rfl⟩

variable (S plugins d p ds) (base : Frame) (input tree : Node)

theorem hasExt_root : HasExt str!"root.html" str!"html" := ⟨str!"root", by decide, rfl, by decide⟩
theorem hasExt_md : HasExt str!"md.html" str!"html" := ⟨str!"md", by decide, rfl, by decide⟩

/-- C95. A page whose text is that of a template, under a root template whose text is that of a template: what is made of
it is what the two mean together. If either fails, nothing is. -/
theorem C95_html_partial (hv : base.out = []) (nm : Str) (page root : Tpl) (hx : HasExt nm str!"html")
    (hr : nm ≠ str!"root.html") (hm : nm ≠ str!"md.html") (hp : FileSpells S plugins d p ds nm page)
    (ht : TemplateSpells S plugins d p ds str!"root.html" root) (htp : page.Tame ⟨tree, S.dateFmt⟩ [base.vars] [])
    (htr : ∀ r, page.eval ⟨tree, S.dateFmt⟩ [base.vars] [] = .ok r → root.Tame ⟨tree, S.dateFmt⟩ [base.vars] r.secs)
    (nm' : Str) (b' : Bytes) :
    MadeInto S plugins d p base input tree ds nm nm' b' ↔
      nm' = nm ∧ ∃ r r', page.eval ⟨tree, S.dateFmt⟩ [base.vars] [] = .ok r ∧
        root.eval ⟨tree, S.dateFmt⟩ [base.vars] r.secs = .ok r' ∧ b' = r'.out := by
  have hpw : page.WF := by obtain ⟨_, _, k⟩ := hp; exact k.wf
  have hrw : root.WF := by obtain ⟨_, _, _, _, k⟩ := ht; exact k.wf
  have e1 := C16_blocks_partial ⟨tree, S.dateFmt⟩ page hpw base [] [] htp
  have e2 : ∀ r, page.eval ⟨tree, S.dateFmt⟩ [base.vars] [] = .ok r → _ := fun r hr =>
    C16_blocks_partial ⟨tree, S.dateFmt⟩ root hrw base [] r.secs (htr r hr)
  simp only [List.map_nil, hv, List.nil_append] at e1 e2
  constructor
  · rintro ⟨b, c, c', h1, h2, h3, h4⟩
    cases (fileSpells_read hx hp h1).1 h2
    cases h3 with
    | same =>
      cases h4 with
      | template h => exact absurd h (by simp [hr, hm])
      | page k1 k2 k3 k4 k5 =>
        cases (templateSpells_is hasExt_root ht).1 k3
        rw [e1] at k4
        obtain ⟨r, k6, k7⟩ := Res.bind_eq_ok.1 k4
        cases k7
        rw [e2 r k6] at k5
        obtain ⟨r', k8, k9⟩ := Res.bind_eq_ok.1 k5
        cases k9
        exact ⟨rfl, r, r', k6, k8, rfl⟩
  · rintro ⟨rfl, r, r', k6, k8, rfl⟩
    have hp' := hp
    obtain ⟨text, h1, h2⟩ := hp'
    refine ⟨_, _, _, h1, (fileSpells_read hx hp h1).2 rfl, .same nofun, ?_⟩
    have a1 := e1
    rw [k6, Res.bind_ok] at a1
    have a2 := e2 r k6
    rw [k8, Res.bind_ok] at a2
    exact Made.page hr hm ((templateSpells_is hasExt_root ht).2 rfl) a1 a2

/-- The readings of a markdown file that spells a template. -/
theorem mdFileSpells_read {nm : Str} {pairs : List (Str × Str)} {text : Str} {t : Tpl} (hx : HasExt nm str!"md")
    (h : MdFileSpells S plugins d p ds nm pairs text t) {b : Bytes}
    (hl : look d (p ++ ds ++ [nm]) = some (.file b)) {c : Parsed} :
    ReadAs S plugins nm (pathStr (p ++ ds ++ [nm])) b c ↔ c = .markdown ⟨pairs, t.toks, text, none⟩ := by
  obtain ⟨body, h1, h2, rfl, h3⟩ := h
  rw [h1] at hl
  cases hl
  have hr : ReadAs S plugins nm (pathStr (p ++ ds ++ [nm])) (bytesOf (mdFile pairs body))
      (.markdown ⟨pairs, t.toks, dropFinalNl (crlfToLf body), none⟩) :=
    .markdown hx (fromUtf8_bytesOf _) (C10_frontmatter_round_trip _ _ _ _ h2 _ _ ((C68_exact _ _ _ _ _).2 h3.parses))
  constructor
  · intro k; exact C63_one_way _ _ _ _ _ _ _ k hr
  · rintro rfl; exact hr

/-- C95. A markdown page, from its pairs and the text of its body, and the texts of the markdown template and the root
template: what is made of it is what these mean together. If any fails, nothing is. -/
theorem C95_markdown_partial (hv : base.out = []) (stem : Str) (pairs : List (Str × Str)) (text : Str) (body page root : Tpl)
    (hs : stem ≠ []) (hp : MdFileSpells S plugins d p ds (stem ++ str!".md") pairs text body)
    (hm : TemplateSpells S plugins d p ds str!"md.html" page) (ht : TemplateSpells S plugins d p ds str!"root.html" root)
    (htb : body.Tame ⟨input, S.dateFmt⟩ [base.vars] [])
    (htp : ∀ r0 shown, body.eval ⟨input, S.dateFmt⟩ [base.vars] [] = .ok r0 → r0.out = bytesOf shown →
      page.Tame ⟨tree, S.dateFmt⟩ [base.vars ++ [(str!"self", selfValue pairs text (S.ext.mdToHtml shown))]] [] ∧
      ∀ r, page.eval ⟨tree, S.dateFmt⟩ [base.vars ++ [(str!"self", selfValue pairs text (S.ext.mdToHtml shown))]] [] = .ok r →
        root.Tame ⟨tree, S.dateFmt⟩ [base.vars] r.secs)
    (nm' : Str) (b' : Bytes) :
    MadeInto S plugins d p base input tree ds (stem ++ str!".md") nm' b' ↔
      nm' = stem ++ str!".html" ∧ ∃ r0 shown r r', body.eval ⟨input, S.dateFmt⟩ [base.vars] [] = .ok r0 ∧ r0.out = bytesOf shown ∧
        page.eval ⟨tree, S.dateFmt⟩ [base.vars ++ [(str!"self", selfValue pairs text (S.ext.mdToHtml shown))]] [] = .ok r ∧
        root.eval ⟨tree, S.dateFmt⟩ [base.vars] r.secs = .ok r' ∧ b' = r'.out := by
  have hx : HasExt (stem ++ str!".md") str!"md" := ⟨stem, hs, rfl, by decide⟩
  have hbw : body.WF := by obtain ⟨_, _, _, _, k⟩ := hp; exact k.wf
  have hpw : page.WF := by obtain ⟨_, _, _, _, k⟩ := hm; exact k.wf
  have hrw : root.WF := by obtain ⟨_, _, _, _, k⟩ := ht; exact k.wf
  have e0 := C16_blocks_partial ⟨input, S.dateFmt⟩ body hbw base [] [] htb
  have e1 : ∀ r0 shown, body.eval ⟨input, S.dateFmt⟩ [base.vars] [] = .ok r0 → r0.out = bytesOf shown → _ := fun r0 shown k k' =>
    C16_blocks_partial ⟨tree, S.dateFmt⟩ page hpw
      { base with vars := base.vars ++ [(str!"self", selfValue pairs text (S.ext.mdToHtml shown))] } [] [] (htp r0 shown k k').1
  have e2 : ∀ r0 shown r, body.eval ⟨input, S.dateFmt⟩ [base.vars] [] = .ok r0 → r0.out = bytesOf shown →
      page.eval ⟨tree, S.dateFmt⟩ [base.vars ++ [(str!"self", selfValue pairs text (S.ext.mdToHtml shown))]] [] = .ok r → _ :=
    fun r0 shown r k k' k'' =>
    C16_blocks_partial ⟨tree, S.dateFmt⟩ root hrw base [] r.secs ((htp r0 shown k k').2 r k'')
  simp only [List.map_nil, hv, List.nil_append] at e0 e1 e2
  have hself : ∀ h, (ParsedMd.toValue ⟨pairs, body.toks, text, some h⟩ : Res PErr Value) = .ok (selfValue pairs text h) := by
    intro h
    simp only [ParsedMd.toValue, ParsedMd.fmValue, Value.setKey, setEntry_put, selfValue]
  constructor
  · rintro ⟨b, c, c', h1, h2, h3, h4⟩
    cases (mdFileSpells_read S plugins d p ds hx hp h1).1 h2
    cases h3 with
    | same h => exact absurd rfl (h _)
    | markdown k1 k2 =>
      rw [e0] at k1
      obtain ⟨r0, k3, k4⟩ := Res.bind_eq_ok.1 k1
      cases k4
      have k2 := fromUtf8_sound k2
      generalize hnm : stem ++ str!".md" = nm at h4
      cases h4 with
      | template h =>
        exfalso
        have := congrArg (fun l => l.drop (l.length - 3)) hnm
        rcases h with rfl | rfl <;> simp at this
      | markdown j1 j2 j3 j4 j5 j6 =>
        rw [← hnm] at j1
        cases List.append_cancel_right j1
        cases (templateSpells_is hasExt_root ht).1 j2
        cases (templateSpells_is hasExt_md hm).1 j3
        rw [hself] at j4
        cases j4
        simp only [hv] at j5
        rw [e1 r0 _ k3 k2] at j5
        obtain ⟨r, i1, i2⟩ := Res.bind_eq_ok.1 j5
        cases i2
        rw [e2 r0 _ r k3 k2 i1] at j6
        obtain ⟨r', i3, i4⟩ := Res.bind_eq_ok.1 j6
        cases i4
        exact ⟨rfl, r0, _, r, r', k3, k2, i1, i3, rfl⟩
  · rintro ⟨rfl, r0, shown, r, r', k3, k2, i1, i3, rfl⟩
    have hp' := hp
    obtain ⟨b, h1, h2⟩ := hp'
    have a0 := e0
    rw [k3, Res.bind_ok] at a0
    have a1 := e1 r0 _ k3 k2
    rw [i1, Res.bind_ok] at a1
    have a2 := e2 r0 _ r k3 k2 i1
    rw [i3, Res.bind_ok] at a2
    refine ⟨_, _, _, h1, (mdFileSpells_read S plugins d p ds hx hp h1).2 rfl,
      .markdown a0 (by simp only; rw [k2]; exact fromUtf8_bytesOf shown), ?_⟩
    exact Made.markdown rfl ((templateSpells_is hasExt_root ht).2 rfl) ((templateSpells_is hasExt_md hm).2 rfl) (hself _) (by simp only [hv]; exact a1) a2

/-- C95. In short: of the page, and of nothing else of this stem unless there are two files, what the texts mean is made. -/
theorem C95_page_partial (hv : base.out = []) (stem : Str) (b : Bytes) (hs : stem ≠ []) (hr : stem ≠ str!"root") (hm : stem ≠ str!"md")
    (h : PageMeans S plugins d p base.vars input tree ds stem b) :
    ∃ nm ∈ [stem ++ str!".html", stem ++ str!".md"], look d (p ++ ds ++ [nm]) ≠ none ∧ ∀ nm' b',
      MadeInto S plugins d p base input tree ds nm nm' b' ↔ nm' = stem ++ str!".html" ∧ b' = b := by
  cases h with
  | @html page root r r' h1 h2 h3 h4 h5 h6 =>
    refine ⟨stem ++ str!".html", by simp, ?_, fun nm' b' => ?_⟩
    · obtain ⟨_, k, _⟩ := h1; rw [k]; nofun
    · rw [C95_html_partial S plugins d p ds base input tree hv _ page root ⟨stem, hs, rfl, by decide⟩
        (fun k => hr (List.append_cancel_right (as := stem) (bs := str!".html") (cs := str!"root") k))
        (fun k => hm (List.append_cancel_right (as := stem) (bs := str!".html") (cs := str!"md") k))
        h1 h2 h3 (fun r2 k => by rw [h4] at k; cases k; exact h5)]
      simp only [h4, Res.ok.injEq]
      constructor
      · rintro ⟨rfl, _, _, rfl, k, rfl⟩
        rw [h6] at k; cases k
        exact ⟨rfl, rfl⟩
      · rintro ⟨rfl, rfl⟩
        exact ⟨rfl, r, r', rfl, h6, rfl⟩
  | @markdown pairs text shown body page root r0 r r' h1 h2 h3 h4 h5 h6 h7 h8 h9 h10 =>
    have one : ∀ s', r0.out = bytesOf s' → s' = shown := by
      intro s' k
      rw [h6] at k
      have := congrArg fromUtf8 k
      rw [fromUtf8_bytesOf, fromUtf8_bytesOf] at this
      cases this; rfl
    refine ⟨stem ++ str!".md", by simp, ?_, fun nm' b' => ?_⟩
    · obtain ⟨_, k, _⟩ := h1; rw [k]; nofun
    · rw [C95_markdown_partial S plugins d p ds base input tree hv stem pairs text body page root hs h1 h2 h3 h4
        (fun r2 s' k k' => by
          rw [h5] at k; cases k
          cases one _ k'
          exact ⟨h7, fun r2 k => by rw [h8] at k; cases k; exact h9⟩)]
      constructor
      · rintro ⟨rfl, _, s', _, _, k1, k2, k3, k4, rfl⟩
        rw [h5] at k1; cases k1
        cases one _ k2
        rw [h8] at k3; cases k3
        rw [h10] at k4; cases k4
        exact ⟨rfl, rfl⟩
      · rintro ⟨rfl, rfl⟩
        exact ⟨rfl, r0, shown, r, r', h5, h6, h8, h10, rfl⟩

end

section
variable (S : Sys) (plugins : List Plugin) (cfg : Config) (d : Entry) (dir p : Path) (base : Frame) (input tree : Node)

/-- What belongs at the place of a page is what a file of the content becomes, if nothing else gets there. -/
theorem belongs_place (ds : List Str) (stem : Str) (hs : stem ≠ []) (hf : PlaceFree cfg d dir p ds stem) (b' : Bytes) :
    Belongs S plugins cfg d dir p base input tree (placeOf cfg ds stem) b' ↔
      Yields S plugins cfg d p base input tree ds (stem ++ str!".html") b' := by
  unfold placeOf PlaceFree at *
  by_cases hstrip : cfg.stripExtensions = true
  · rw [if_pos hstrip] at hf ⊢
    obtain ⟨f1, f2, f3, f4⟩ := hf
    have hsd : stemDir stem = [stem] := by simp [stemDir, hs, f2]
    have below : ∀ nm', look d (p ++ (ds ++ [stem]) ++ [nm']) = none := by
      intro nm'
      refine Classical.byContradiction fun k => ?_
      have := look_above (p := p ++ ds ++ [stem]) (r := [nm']) (by simp) (by simpa using k)
      rw [f3] at this
      cases this
    constructor
    · intro hb
      rw [show ds ++ [stem, str!"index.html"] = ds ++ [stem] ++ [str!"index.html"] by simp] at hb
      generalize hq : ds ++ [stem] ++ [str!"index.html"] = q at hb
      cases hb with
      | @made ds' nm' _ hb _ =>
        obtain ⟨e1, e2⟩ := List.append_inj' hq rfl
        subst e1
        obtain ⟨nm2, b0, _, _, k, _⟩ := hb
        rw [below] at k
        cases k
      | @stripped ds' stem' _ hb _ hi =>
        obtain ⟨e1, e2⟩ := List.append_inj' hq rfl
        by_cases hs' : stem' = [] ∨ stem' = str!"."
        · rw [stemDir, if_pos hs', List.append_nil] at e1
          subst e1
          obtain ⟨nm2, b0, _, _, k, _⟩ := hb
          rw [below] at k
          cases k
        · rw [stemDir, if_neg hs'] at e1
          obtain ⟨rfl, e3⟩ := List.append_inj' e1 rfl
          cases e3
          exact hb
      | @copied which nm' ds' _ hw hb _ =>
        obtain ⟨e1, e2⟩ := List.append_inj' hq rfl
        subst e1
        have := look_above (d := d) (p := dir ++ [which] ++ ds ++ [stem]) (r := [nm']) (by simp) (by
          rw [List.append_assoc (dir ++ [which]), hb]; nofun)
        rw [f4 which hw] at this
        cases this
    · intro hb
      have := Belongs.stripped (dir := dir) hb hstrip f1
      rw [hsd] at this
      simpa using this
  · rw [if_neg hstrip] at hf ⊢
    constructor
    · intro hb
      generalize hq : ds ++ [stem ++ str!".html"] = q at hb
      cases hb with
      | made hb _ =>
        obtain ⟨rfl, e2⟩ := List.append_inj' hq rfl
        cases e2
        exact hb
      | stripped _ k _ => exact absurd k hstrip
      | @copied which nm' ds' _ hw hb _ =>
        obtain ⟨rfl, e2⟩ := List.append_inj' hq rfl
        cases e2
        rw [hf which hw] at hb
        cases hb
    · intro hb
      exact .made hb fun k => absurd k hstrip

theorem published_page {stem : Str} (hr : stem ≠ str!"root") (hm : stem ≠ str!"md") : Published cfg (stem ++ str!".html") := by
  refine ⟨fun k => hr (List.append_cancel_right (as := stem) (bs := str!".html") (cs := str!"root") k),
    fun k => hm (List.append_cancel_right (as := stem) (bs := str!".html") (cs := str!"md") k), .inr ?_⟩
  rintro ⟨t, k⟩
  have := congrArg List.getLast? k
  simp [List.getLast?_append] at this

/-- C95. Without plugins for types of files, what belongs at the place of a page is what its texts mean, if nothing else gets there. -/
theorem C95_belongs_partial (hp : FunctionsOnly plugins) (hv : base.out = []) (ds : List Str) (stem : Str) (b : Bytes)
    (hs : stem ≠ []) (hr : stem ≠ str!"root") (hm : stem ≠ str!"md")
    (h : PageMeans S plugins d p base.vars input tree ds stem b)
    (hone : look d (p ++ ds ++ [stem ++ str!".md"]) = none ∨ look d (p ++ ds ++ [stem ++ str!".html"]) = none)
    (hf : PlaceFree cfg d dir p ds stem) (b' : Bytes) :
    Belongs S plugins cfg d dir p base input tree (placeOf cfg ds stem) b' ↔ b' = b := by
  obtain ⟨nm, hn, hl, hmade⟩ := C95_page_partial S plugins d p ds base input tree hv stem b hs hr hm h
  have hpub : Published cfg (stem ++ str!".html") := published_page cfg hr hm
  have hy : ∀ b', Yields S plugins cfg d p base input tree ds (stem ++ str!".html") b' ↔ b' = b := by
    intro b'
    constructor
    · rintro ⟨nm2, b0, c, c', k1, k2, k3, k4, _⟩
      have hmade2 : MadeInto S plugins d p base input tree ds nm2 (stem ++ str!".html") b' := ⟨b0, c, c', k1, k2, k3, k4⟩
      have hin : nm2 ∈ [stem ++ str!".html", stem ++ str!".md"] := by
        rcases (made_name hp hmade2).2 with ⟨_, rfl⟩ | ⟨st, rfl, k⟩
        · simp
        · cases List.append_cancel_right k
          simp
      have : nm2 = nm := by
        simp only [List.mem_cons, List.not_mem_nil, or_false] at hin hn
        have hl2 : look d (p ++ ds ++ [nm2]) ≠ none := by rw [k1]; nofun
        rcases hin with rfl | rfl <;> rcases hn with rfl | rfl
        · rfl
        · rcases hone with k | k
          · exact absurd k hl
          · exact absurd k hl2
        · rcases hone with k | k
          · exact absurd k hl2
          · exact absurd k hl
        · rfl
      subst this
      exact ((hmade _ _).1 hmade2).2
    · rintro rfl
      obtain ⟨b0, c, c', k1, k2, k3, k4⟩ := (hmade _ _).2 ⟨rfl, rfl⟩
      exact ⟨nm, b0, c, c', k1, k2, k3, k4, hpub⟩
  rw [belongs_place S plugins cfg d dir p base input tree ds stem hs hf]
  exact hy b'

end

section
variable (M : Machine) (c : Context)

/-- C95. When the site is published, what is at the place of a page is what its texts mean, if nothing else gets there. -/
theorem C95_site_partial (s1 s2 : Host) (name src : Str) (os : List Node) (h : Publishes M c s1 s2 name src os)
    (hd : ProperDisk s1.world.disk) (hout : c.outPath ≠ []) (hp : FunctionsOnly c.stuart.plugins)
    (ht : Tame c.stuart.config c.stuart.plugins s1.world.disk c.dir c.stuart.dir) :
    ∃ cs ts, Content M.sys c.stuart.plugins s1.world.disk c.stuart.dir (baseFrame M.sys.vars c.mode) name cs ts ∧
      ∀ ds stem b, stem ≠ [] → stem ≠ str!"root" → stem ≠ str!"md" →
      PageMeans M.sys c.stuart.plugins s1.world.disk c.stuart.dir (baseFrame M.sys.vars c.mode).vars
        (.dir name cs (pathStr c.stuart.dir)) (.dir name ts (pathStr c.stuart.dir)) ds stem b →
      (look s1.world.disk (c.stuart.dir ++ ds ++ [stem ++ str!".md"]) = none ∨
        look s1.world.disk (c.stuart.dir ++ ds ++ [stem ++ str!".html"]) = none) →
      PlaceFree c.stuart.config s1.world.disk c.dir c.stuart.dir ds stem →
      look s2.world.disk (c.outPath ++ placeOf c.stuart.config ds stem) = some (.file b) := by
  obtain ⟨cs, ts, h1, h2⟩ := C83_site_partial s1 s2 name src os h hd hout ht
  refine ⟨cs, ts, h1, fun ds stem b hs hr hm hpg hone hf => ?_⟩
  have hne : c.outPath ++ placeOf c.stuart.config ds stem ≠ c.dir ++ [str!"metadata.json"] := by
    intro k
    unfold placeOf at k
    have k := congrArg List.getLast? k
    split at k
    · simp at k
    · simp only [← List.append_assoc, List.getLast?_concat, Option.some.injEq] at k
      have := congrArg List.getLast? k
      simp [List.getLast?_append] at this
  obtain ⟨g1, g2, _⟩ := h2 (placeOf c.stuart.config ds stem) fun _ => hne
  have iff := C95_belongs_partial M.sys c.stuart.plugins c.stuart.config s1.world.disk c.dir c.stuart.dir _ _ _ hp rfl ds stem b hs hr hm hpg hone hf
  obtain ⟨b', k⟩ := g2 b ((iff b).2 rfl)
  rw [k, (iff b').1 (g1 b' k)]

/-- C95. For whole builds with scripts that leave the output directory alone: the texts are those that the pre-build
scripts have left. -/
theorem C95_build_partial (s : Host) (hl : ∀ r, Leaves M (c.outPath ++ r)) (h : (c.build M s).2.2 = .ok ())
    (hout : c.outPath ≠ []) (hp : FunctionsOnly c.stuart.plugins) :
    let d := (runScripts M c.env c.pre s).1.world.disk
    ProperDisk d → Tame c.stuart.config c.stuart.plugins d c.dir c.stuart.dir →
    ∃ name cs ts, Content M.sys c.stuart.plugins d c.stuart.dir (baseFrame M.sys.vars c.mode) name cs ts ∧
      ∀ ds stem b, stem ≠ [] → stem ≠ str!"root" → stem ≠ str!"md" →
      PageMeans M.sys c.stuart.plugins d c.stuart.dir (baseFrame M.sys.vars c.mode).vars
        (.dir name cs (pathStr c.stuart.dir)) (.dir name ts (pathStr c.stuart.dir)) ds stem b →
      (look d (c.stuart.dir ++ ds ++ [stem ++ str!".md"]) = none ∨ look d (c.stuart.dir ++ ds ++ [stem ++ str!".html"]) = none) →
      PlaceFree c.stuart.config d c.dir c.stuart.dir ds stem →
      look (c.build M s).2.1.world.disk (c.outPath ++ placeOf c.stuart.config ds stem) = some (.file b) := by
  intro d hd ht
  obtain ⟨s1, out, s2, h1, h2, h3, h4⟩ := Context.build_ok h
  obtain ⟨name, os, src, rfl⟩ := readBuild_dir h2
  have hs1 : (runScripts M c.env c.pre s).1 = s1 := by rw [h1]
  subst hs1
  obtain ⟨cs, ts, k1, k2⟩ := C95_site_partial M c _ s2 name src os ⟨h2, h3⟩ hd hout hp ht
  refine ⟨name, cs, ts, k1, fun ds stem b e1 e2 e3 e4 e5 e6 => ?_⟩
  have hlook := runScripts_leaves (env := c.env) (ps := c.post) (s := s2) (hl (placeOf c.stuart.config ds stem))
  rw [h4] at hlook
  rw [hlook]
  exact k2 ds stem b e1 e2 e3 e4 e5 e6

end

section
variable (M : Machine) (L : Loader) (cwd : Path) (manifest output : Str) (s s1 : Host) (p : Path) (raw : RawConfig) (plugins : List Plugin)

/-- C95. After `stuart build` of a simple project has succeeded, what is at the place of a page is what its texts mean, if
nothing else gets there. -/
theorem C95_published_partial (h : Simple L cwd manifest s s1 p raw plugins) (hd : ProperDisk s1.world.disk)
    (hout : joinPath p.dropLast output ≠ [])
    (ht : Tame raw.toConfig plugins s1.world.disk p.dropLast (p.dropLast ++ [str!"content"]))
    (hok : (cmdBuild M L cwd manifest output s).2 = .ok ()) :
    let d := s1.world.disk
    let content := p.dropLast ++ [str!"content"]
    let base := baseFrame M.sys.vars str!"production"
    ∃ cs ts, Content M.sys plugins d content base str!"content" cs ts ∧ ∀ ds stem b,
      stem ≠ [] → stem ≠ str!"root" → stem ≠ str!"md" →
      PageMeans M.sys plugins d content base.vars (.dir str!"content" cs (pathStr content)) (.dir str!"content" ts (pathStr content)) ds stem b →
      (look d (content ++ ds ++ [stem ++ str!".md"]) = none ∨ look d (content ++ ds ++ [stem ++ str!".html"]) = none) →
      PlaceFree raw.toConfig d p.dropLast content ds stem →
      look (cmdBuild M L cwd manifest output s).1.world.disk (joinPath p.dropLast output ++ placeOf raw.toConfig ds stem) =
        some (.file b) := by
  intro d content base
  obtain ⟨c, h1, h2, h3, h4, h5, h6, h7, h8, h9⟩ := simple_start L cwd manifest output s h str!"production"
  have hr : cmdBuild M L cwd manifest output s = ((c.build M s1).2.1, (c.build M s1).2.2) := by
    simp only [cmdBuild, h1]
  rw [hr] at hok ⊢
  obtain ⟨s1', o, s2, e1, e2, e3, e4⟩ := Context.build_ok hok
  rw [h8] at e1
  cases e1
  rw [h9] at e4
  have e5 : s2 = (c.build M s1).2.1 := by injection e4
  obtain ⟨name, os, src, rfl⟩ := readBuild_dir e2
  obtain ⟨cs, ts, k1, k2⟩ := C95_site_partial M c s1 s2 name src os ⟨e2, e3⟩ hd (by rw [h7]; exact hout)
    (by rw [h3]; exact h.functions) (by rw [h2, h3, h4, h5]; exact ht)
  simp only [h2, h3, h4, h5, h6, h7] at k1 k2
  have hn := k1.named
  simp only [List.getLast?_concat, Option.some.injEq] at hn
  subst hn
  rw [← e5]
  exact ⟨cs, ts, k1, k2⟩

end

/-! ### Cases -/

/-- A project with a page, a markdown page in a directory, and the two templates. -/
def srcDisk : Entry := .dir [(str!"p", .dir [
  (str!"stuart.toml", .file (bytesOf str!"name")),
  (str!"content", .dir [
    (str!"root.html", .file (bytesOf str!"<{{ insert(\"b\") }}>")),
    (str!"md.html", .file (bytesOf str!"{{ begin(\"b\") }}{{ $self.title }}:{{ $self.content }}{{ end(\"b\") }}")),
    (str!"a.html", .file (bytesOf str!"{{ begin(\"b\") }}A{{ end(\"b\") }}")),
    (str!"blog", .dir [(str!"x.md", .file (bytesOf (mdFile [(str!"title", str!"T")] str!"in {{ $env.STUART_ENV }}\n")))])])])]

def srcHost : Host := ⟨⟨srcDisk, []⟩, []⟩

/-- The templates. -/
def srcRoot : Tpl := .leaf ⟨str!"/p/content/root.html", 1, 1⟩ (.raw str!"<") <|
  .leaf ⟨str!"/p/content/root.html", 1, 4⟩ (.func (.insert str!"b")) <| .leaf ⟨str!"/p/content/root.html", 1, 18⟩ (.raw str!">") .nil
def srcMd : Tpl := .section_ ⟨str!"/p/content/md.html", 1, 3⟩ ⟨str!"/p/content/md.html", 1, 56⟩ str!"b"
  (.leaf ⟨str!"/p/content/md.html", 1, 19⟩ (.var str!"self.title") <| .leaf ⟨str!"/p/content/md.html", 1, 33⟩ (.raw str!":") <|
    .leaf ⟨str!"/p/content/md.html", 1, 37⟩ (.var str!"self.content") .nil) .nil
def srcPage : Tpl := .section_ ⟨str!"/p/content/a.html", 1, 3⟩ ⟨str!"/p/content/a.html", 1, 20⟩ str!"b"
  (.leaf ⟨str!"/p/content/a.html", 1, 16⟩ (.raw str!"A") .nil) .nil
def srcBody : Tpl := .leaf ⟨str!"/p/content/blog/x.md", 1, 1⟩ (.raw str!"in ") <|
  .leaf ⟨str!"/p/content/blog/x.md", 1, 6⟩ (.var str!"env.STUART_ENV") .nil

theorem srcRoot_spelt : FileSpells demoSys [] srcDisk [str!"p", str!"content"] [] str!"root.html" srcRoot :=
  ⟨_, rfl, (C68_exact _ _ _ _ _).1 rfl, by simp [srcRoot, Tpl.WF, Plain]⟩
set_option maxRecDepth 2000 in
theorem srcMd_spelt : FileSpells demoSys [] srcDisk [str!"p", str!"content"] [] str!"md.html" srcMd :=
  ⟨_, rfl, (C68_exact _ _ _ _ _).1 rfl, by simp [srcMd, Tpl.WF, Plain]⟩

theorem src_inForce {nm : Str} {ds : List Str} (h : look srcDisk ([str!"p", str!"content"] ++ [] ++ [nm]) ≠ none)
    (hb : ∀ q, q <+: ds → q ≠ [] → look srcDisk ([str!"p", str!"content"] ++ q ++ [nm]) = none) :
    InForce srcDisk [str!"p", str!"content"] nm ds [] :=
  ⟨List.nil_prefix, h, fun q' h1 h2 => by
    by_cases k : q' = []
    · subst k; exact List.prefix_refl _
    · exact absurd (hb q' h1 k) h2⟩

theorem prefix_one {x : Str} {q : List Str} (h : q <+: [x]) (hq : q ≠ []) : q = [x] := by
  obtain ⟨t, h⟩ := h
  cases q with
  | nil => exact absurd rfl hq
  | cons y q => cases q <;> simp_all

/-- Both pages, whatever the content is read as. -/
theorem src_pages (input tree : Node) :
    PageMeans demoSys [] srcDisk [str!"p", str!"content"] (baseFrame [] str!"production").vars input tree [] str!"a" (bytesOf str!"<A>") ∧
    PageMeans demoSys [] srcDisk [str!"p", str!"content"] (baseFrame [] str!"production").vars input tree [str!"blog"] str!"x"
      (bytesOf str!"<T:<in production>>") := by
  constructor
  · refine .html (page := srcPage) (root := srcRoot) (r := ⟨[], bytesOf str!"A", [(str!"b", bytesOf str!"A")]⟩)
      (r' := ⟨[], bytesOf str!"<A>", []⟩)
      ⟨_, rfl, (C68_exact _ _ _ _ _).1 rfl, by simp [srcPage, Tpl.WF, Plain]⟩
      ⟨[], src_inForce (by nofun) (fun q h hq => absurd (List.prefix_nil.1 h) hq), srcRoot_spelt⟩
      ?_ rfl ?_ rfl
    · exact ⟨fun _ _ => trivial, fun _ _ => trivial⟩
    · exact fun _ _ _ _ _ _ => trivial
  · refine .markdown (pairs := [(str!"title", str!"T")]) (text := str!"in {{ $env.STUART_ENV }}") (shown := str!"in production")
      (body := srcBody) (page := srcMd) (root := srcRoot)
      (r0 := ⟨[], bytesOf str!"in production", []⟩)
      (r := ⟨[], bytesOf str!"T:<in production>", [(str!"b", bytesOf str!"T:<in production>")]⟩)
      (r' := ⟨[], bytesOf str!"<T:<in production>>", []⟩)
      ⟨str!"in {{ $env.STUART_ENV }}\n", rfl, ?_, rfl, (C68_exact _ _ _ _ _).1 rfl, by simp [srcBody, Tpl.WF, Plain]⟩
      ⟨[], src_inForce (by nofun) (fun q h hq => by cases prefix_one h hq; rfl), srcMd_spelt⟩
      ⟨[], src_inForce (by nofun) (fun q h hq => by cases prefix_one h hq; rfl), srcRoot_spelt⟩
      ?_ rfl rfl ?_ rfl ?_ rfl
    · simp only [List.mem_cons, List.not_mem_nil, or_false, forall_eq]
      constructor <;> first | decide | (unfold Dashes; decide)
    · exact fun _ _ _ _ => trivial
    · exact ⟨fun _ _ _ _ _ _ => trivial, fun _ _ => trivial⟩
    · exact fun _ _ _ _ _ _ => trivial

theorem srcHost_simple :
    Simple shortLoader [str!"p"] str!"stuart.toml" srcHost srcHost [str!"p", str!"stuart.toml"]
      ⟨str!"name", none, none, none⟩ [] where
  found := canonicalize_names.1 rfl
  text := ⟨str!"name", rfl, rfl⟩
  loaded := rfl
  functions := nofun
  scripts := rfl

/-- `stuart build` publishes the two pages: so the texts say. -/
example : look (cmdBuild idleMachine shortLoader [str!"p"] str!"stuart.toml" str!"dist" srcHost).1.world.disk
      [str!"p", str!"dist", str!"a", str!"index.html"] = some (.file (bytesOf str!"<A>")) ∧
    look (cmdBuild idleMachine shortLoader [str!"p"] str!"stuart.toml" str!"dist" srcHost).1.world.disk
      [str!"p", str!"dist", str!"blog", str!"x", str!"index.html"] = some (.file (bytesOf str!"<T:<in production>>")) := by
  obtain ⟨cs, ts, _, h⟩ := C95_published_partial idleMachine shortLoader [str!"p"] str!"stuart.toml" str!"dist" srcHost _ _ _ _
    srcHost_simple (by unfold srcHost srcDisk; proper_disk) (by decide)
    (tame_names (by decide +kernel) (by decide +kernel)) (by decide +kernel)
  refine ⟨h [] str!"a" _ (by decide) (by decide) (by decide) (src_pages _ _).1 (.inl rfl) ?_,
    h [str!"blog"] str!"x" _ (by decide) (by decide) (by decide) (src_pages _ _).2 (.inr rfl) ?_⟩
  · exact ⟨by decide, by decide, rfl, by simp; exact ⟨rfl, rfl⟩⟩
  · exact ⟨by decide, by decide, rfl, by simp; exact ⟨rfl, rfl⟩⟩

end Stuart
