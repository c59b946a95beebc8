import Verif.Spec.Refers
import Verif.Proof.OrderRead
import Verif.Props.Finds
import Verif.Props.Source
/-
Lemmas: rendering is the same for trees that agree where the tokens point.
-/
namespace Stuart
open Spec

/-! ### Tokens that find the same -/

/-- A token finds the same in both. -/
def Sees (cx cx' : Ctx) (t : LTok) : Prop :=
  (∀ v file, t.inner = .func (.import_ v file) → ∀ st, execImport cx v file st = execImport cx' v file st) ∧
  ∀ f, t.inner = .func (.for_ f) → ∀ stk, forItems cx f stk = forItems cx' f stk

section
variable {cx cx' : Ctx} (hd : cx.dateFmt = cx'.dateFmt)
include hd

theorem execSimple_sees {f : Fn} (h : ∀ v file, f = .import_ v file → ∀ st, execImport cx v file st = execImport cx' v file st) (st : St) :
    execSimple cx f st = execSimple cx' f st := by
  cases f with
  | import_ v file => exact h v file rfl st
  | dateformat v fmt => simp only [execSimple, hd]
  | _ => rfl

theorem execTok_sees : ∀ (n : Nat) (t : LTok) (ts : List LTok) (st : St), (∀ x ∈ t :: ts, Sees cx cx' x) →
    execTok cx n t ts st = execTok cx' n t ts st := by
  intro n
  induction n with
  | zero => intros; rfl
  | succ n ih =>
    intro t ts st hall
    have h := hall t (.head _)
    have hts : ∀ x ∈ ts, Sees cx cx' x := fun x hx => hall x (.tail _ hx)
    unfold execTok
    split
    · rfl
    · rfl
    · rename_i f hf
      rw [h.2 f hf]
      simp only [forIter_same (execTok_forward cx n) ih _ _ _ hts]
    · exact ifLoop_same (execTok_forward cx n) ih _ _ _ _ _ _ hts
    · simp only [enterIf, ifLoop_same (execTok_forward cx n) ih _ _ _ _ _ _ hts]
    · rename_i f _ _ _ hf
      rw [execSimple_sees hd fun v file k => h.1 v file (by rw [hf, k])]

theorem runToks_sees (toks : List LTok) (st : St) (h : ∀ t ∈ toks, Sees cx cx' t) : runToks cx toks st = runToks cx' toks st := by
  unfold runToks
  suffices ∀ k (toks : List LTok) (st : St), (∀ t ∈ toks, Sees cx cx' t) → runGo cx k toks st = runGo cx' k toks st from this _ _ _ h
  intro k
  induction k with
  | zero => intro toks st h; cases toks <;> rfl
  | succ k ih =>
    intro toks st h
    cases toks with
    | nil => rfl
    | cons t ts =>
      have hts : ∀ x ∈ ts, Sees cx cx' x := fun x hx => h x (.tail _ hx)
      simp only [runGo]
      rw [← execTok_sees hd _ t ts st h]
      cases hx : execTok cx (ts.length + 1) t ts st with
      | ok a => exact ih _ _ fun x hx' => hts x ((execTok_forward cx _ _ _ _ _ _ hx).subset hx')
      | err e => rfl
      | panic p => rfl

end

/-! ### Trees that have the same in them -/

/-- Two things found that are the same but for the names of directories. -/
inductive Match : Option Node → Option Node → Prop
  | none : Match none none
  | file {nm b c m src} : Match (some (.file nm b c m src)) (some (.file nm b c m src))
  | dir {nm nm' src src' cs} : Match (some (.dir nm cs src)) (some (.dir nm' cs src'))

/-- Trees in which tokens of this kind find the same. -/
theorem sees_of_match {n n' : Node} {df} {t : LTok}
    (h : ∀ path, pathIn t.inner = some path → Match (n.getAtPath path) (n'.getAtPath path)) : Sees ⟨n, df⟩ ⟨n', df⟩ t := by
  constructor
  · intro v file ht st
    have := h file (by rw [ht]; rfl)
    simp only [execImport]
    generalize n.getAtPath file = a at this
    generalize n'.getAtPath file = b at this
    cases this <;> rfl
  · intro f ht stk
    simp only [forItems]
    cases hk : f.kind with
    | jsonObj => rfl
    | mdDir =>
      have := h f.source (by rw [ht]; simp [pathIn, hk])
      simp only
      generalize n.getAtPath f.source = a at this
      generalize n'.getAtPath f.source = b at this
      cases this <;> rfl
    | jsonFile =>
      have := h f.source (by rw [ht]; simp [pathIn, hk])
      simp only
      generalize n.getAtPath f.source = a at this
      generalize n'.getAtPath f.source = b at this
      cases this <;> rfl

/-- Trees in which what these places have is the same. -/
def MatchAt (places : List Str → Prop) (n n' : Node) : Prop := ∀ names, places names → Match (reached n names) (reached n' names)

theorem run_match {n n' : Node} {df} {places : List Str → Prop} (h : MatchAt places n n') {toks : List LTok} (ht : RefersTo places toks)
    (st : St) : runToks ⟨n, df⟩ toks st = runToks ⟨n', df⟩ toks st := by
  refine runToks_sees (cx := ⟨n, df⟩) (cx' := ⟨n', df⟩) rfl toks st fun t hm => sees_of_match fun path hp => ?_
  rw [← written_getAtPath, ← written_getAtPath]
  by_cases ha : ∃ names, Aims path names
  · obtain ⟨names, ha⟩ := ha
    rw [written_aims _ ha, written_aims _ ha]
    exact h names (ht t hm path hp names ha)
  · rw [written_astray _ fun names k => ha ⟨names, k⟩, written_astray _ fun names k => ha ⟨names, k⟩]
    exact .none

/-! ### Reading and converting, from the same files -/

section
variable {S : Sys} {plugins : List Plugin}

mutual
theorem readNode_one {q : Path} {nm : Str} {e : Entry} {n n' : Node} (h : ReadNode (ReadAs S plugins) q nm e n)
    (h' : ReadNode (ReadAs S plugins) q nm e n') : n = n' := by
  cases h with
  | file h => cases h' with | file h' => rw [C63_one_way _ _ _ _ _ _ _ h h']
  | dir h => cases h' with | dir h' => rw [readList_one h h']
theorem readList_one {q : Path} {l : List (Str × Entry)} {cs cs' : List Node} (h : ReadList (ReadAs S plugins) q l cs)
    (h' : ReadList (ReadAs S plugins) q l cs') : cs = cs' := by
  cases h with
  | nil => cases h'; rfl
  | cons h hs => cases h' with | cons h' hs' => rw [readNode_one h h', readList_one hs hs']
end

theorem readTo_match {q : Path} {e : Entry} {n n' : Node} (h : ReadTo (ReadAs S plugins) q e n) (h' : ReadTo (ReadAs S plugins) q e n') :
    Match (some n) (some n') := by
  cases h with
  | file h1 h2 =>
    cases h' with
    | file h3 h4 =>
      rw [h1] at h3
      cases h3
      rw [C63_one_way _ _ _ _ _ _ _ h2 h4]
      exact .file
  | dir h => cases h' with | dir h' => rw [readList_one h h']; exact .dir

variable {ext : Ext} {cx cx' : Ctx} {base : Frame}

theorem converted_same {c a b : Parsed} (hr : ∀ md, c = .markdown md → ∀ st, runToks cx md.markdown st = runToks cx' md.markdown st)
    (h : Converted ext cx base c a) (h' : Converted ext cx' base c b) : a = b := by
  cases h with
  | markdown h1 h2 =>
    cases h' with
    | same h => exact absurd rfl (h _)
    | markdown h3 h4 =>
      rw [hr _ rfl, h3] at h1
      cases h1
      rw [h2] at h4
      cases h4
      rfl
  | same h =>
    cases h' with
    | same => rfl
    | markdown => exact absurd rfl (h _)

theorem converted_go {c a : Parsed} (hr : ∀ md, c = .markdown md → ∀ st, runToks cx md.markdown st = runToks cx' md.markdown st)
    (h : Converted ext cx base c a) : Converted ext cx' base c a := by
  cases h with
  | markdown h1 h2 => rw [hr _ rfl] at h1; exact .markdown h1 h2
  | same h => exact .same h

mutual
theorem usedAs_same {q : Path} {nm : Str} {e : Entry} {n t t' : Node} (hr : ReadNode (ReadAs S plugins) q nm e n)
    (hw : ∀ r b md, look e r = some (.file b) → ∀ nm', (nm :: r).getLast? = some nm' →
      ReadAs S plugins nm' (pathStr (q ++ nm :: r)) b (.markdown md) → ∀ st, runToks cx md.markdown st = runToks cx' md.markdown st)
    (hd : ProperDisk e) (h : UsedAs ext cx base n t) (h' : UsedAs ext cx' base n t') : t = t' := by
  cases hr with
  | @file _ _ b c hr =>
    cases h with
    | file h =>
      cases h' with
      | file h' =>
        rw [converted_same (fun md k st => hw [] b md rfl nm rfl (by subst k; simpa using hr) st) h h']
  | @dir _ _ l cs hr =>
    cases h with
    | dir h =>
      cases h' with
      | dir h' =>
        rw [usedList_same hr (fun nm1 e1 hm r b md hl nm' hn hra => hw (nm1 :: r) b md
          (by rw [look, Entry.at, (findEntry_mem (hd [] l rfl).1).2 hm]; exact hl) nm' (by simpa using hn) (by simpa using hra))
          (fun nm1 e1 hm => properDisk_entry hd hm) h h']
theorem usedList_same {q : Path} {l : List (Str × Entry)} {cs ts ts' : List Node} (hr : ReadList (ReadAs S plugins) q l cs)
    (hw : ∀ nm e, (nm, e) ∈ l → ∀ r b md, look e r = some (.file b) → ∀ nm', (nm :: r).getLast? = some nm' →
      ReadAs S plugins nm' (pathStr (q ++ nm :: r)) b (.markdown md) → ∀ st, runToks cx md.markdown st = runToks cx' md.markdown st)
    (hd : ∀ nm e, (nm, e) ∈ l → ProperDisk e) (h : UsedList ext cx base cs ts) (h' : UsedList ext cx' base cs ts') : ts = ts' := by
  cases hr with
  | nil => cases h; cases h'; rfl
  | cons hr hrs =>
    cases h with
    | cons h hs =>
      cases h' with
      | cons h' hs' =>
        rw [usedAs_same hr (hw _ _ (.head _)) (hd _ _ (.head _)) h h',
          usedList_same hrs (fun nm e k => hw nm e (.tail _ k)) (fun nm e k => hd nm e (.tail _ k)) hs hs']
end

theorem used_match {q : Path} {e : Entry} {n n' t t' : Node} (h : ReadTo (ReadAs S plugins) q e n) (h' : ReadTo (ReadAs S plugins) q e n')
    (hw : ∀ r b md nm', look e r = some (.file b) → (q ++ r).getLast? = some nm' →
      ReadAs S plugins nm' (pathStr (q ++ r)) b (.markdown md) → ∀ st, runToks cx md.markdown st = runToks cx' md.markdown st)
    (hd : ProperDisk e) (u : UsedAs ext cx base n t) (u' : UsedAs ext cx' base n' t') : Match (some t) (some t') := by
  cases h with
  | @file b nm c h1 h2 =>
    cases h' with
    | file h3 h4 =>
      rw [h1] at h3
      cases h3
      rw [← C63_one_way _ _ _ _ _ _ _ h2 h4] at u'
      cases u with
      | file u =>
        cases u' with
        | file u' =>
          rw [converted_same (fun md k st => hw [] b md nm rfl (by simpa using h1) (by subst k; simpa using h2) st) u u']
          exact .file
  | @dir l _ _ _ h =>
    cases h' with
    | dir h' =>
      rw [← readList_one h h'] at u'
      cases u with
      | dir u =>
        cases u' with
        | dir u' =>
          rw [usedList_same h (fun nm1 e1 hm r b md hl nm' hn hra => hw (nm1 :: r) b md nm'
            (by rw [look, Entry.at, (findEntry_mem (hd [] l rfl).1).2 hm]; exact hl)
            (by rw [List.getLast?_append, hn]; rfl) hra)
            (fun nm1 e1 hm => properDisk_entry hd hm) u u']
          exact .dir

/-! ### Content -/

variable {d d' : Entry} {p : Path} {name name' : Str} {cs ts cs' ts' : List Node} {places : List Str → Prop}

theorem match_read (h : Content S plugins d p base name cs ts) (h' : Content S plugins d' p base name' cs' ts')
    (hs : ∀ names, places names → d.at (p ++ names) = d'.at (p ++ names)) :
    MatchAt places (.dir name cs (pathStr p)) (.dir name' cs' (pathStr p)) := by
  intro names hn
  obtain ⟨k1, k2⟩ := content_reached h names
  obtain ⟨k1', k2'⟩ := content_reached h' names
  rw [← hs names hn] at k1' k2'
  cases he : d.at (p ++ names) with
  | none => rw [k1 he, k1' he]; exact .none
  | some e =>
    obtain ⟨n, j1, j2⟩ := k2 e he
    obtain ⟨n', j1', j2'⟩ := k2' e he
    rw [j1, j1']
    exact readTo_match j2 j2'

theorem match_used (h : Content S plugins d p base name cs ts) (h' : Content S plugins d' p base name' cs' ts') (hd : ProperDisk d)
    (hs : ∀ names, places names → d.at (p ++ names) = d'.at (p ++ names))
    (hr : ∀ names, places names → ∀ ds nm, names <+: ds ++ [nm] → HasExt nm str!"md" → FileRefersTo S plugins d p places ds nm) :
    MatchAt places (.dir name ts (pathStr p)) (.dir name' ts' (pathStr p)) := by
  intro names hn
  obtain ⟨k1, k2⟩ := content_reached_used h names
  obtain ⟨k1', k2'⟩ := content_reached_used h' names
  rw [← hs names hn] at k1' k2'
  cases he : d.at (p ++ names) with
  | none => rw [k1 he, k1' he]; exact .none
  | some e =>
    obtain ⟨n, t, j1, j2, j3⟩ := k2 e he
    obtain ⟨n', t', j1', j2', j3'⟩ := k2' e he
    rw [j1, j1']
    refine used_match j2 j2' (fun r b md nm' hl hlast hra st => ?_) (fun q l hq => ?_) j3 j3'
    · have hlook : look d (p ++ names ++ r) = some (.file b) := by
        rw [look, at_append, he]; exact hl
      rcases List.eq_nil_or_concat (names ++ r) with hnil | ⟨ds, x, hc⟩
      · obtain ⟨l, k, _⟩ := h.read
        rw [List.append_assoc, hnil, List.append_nil, look, k] at hlook
        cases hlook
      · rw [List.concat_eq_append] at hc
        rw [List.append_assoc, hc, ← List.append_assoc, List.getLast?_concat] at hlast
        cases hlast
        rw [List.append_assoc, hc, ← List.append_assoc] at hlook hra
        exact run_match (match_read h h' hs) ((hr names hn ds _ (by rw [← hc]; exact List.prefix_append ..)
          (by cases hra; assumption) b hlook).2 md hra) st
    · exact hd (p ++ names ++ q) l (by rw [at_append, he]; exact hq)

theorem templateIs_go {ds : List Str} (ht : SameTemplates d d' p ds) {nm : Str} (hn : nm ∈ [str!"root.html", str!"md.html"]) {toks : List LTok} :
    TemplateIs S plugins d p nm ds toks ↔ TemplateIs S plugins d' p nm ds toks := by
  constructor
  · rintro ⟨q, b, h1, h2, h3⟩
    obtain ⟨k1, k2⟩ := (ht nm hn q b).1 ⟨h1, h2⟩
    exact ⟨q, b, k1, k2, h3⟩
  · rintro ⟨q, b, h1, h2, h3⟩
    obtain ⟨k1, k2⟩ := (ht nm hn q b).2 ⟨h1, h2⟩
    exact ⟨q, b, k1, k2, h3⟩

theorem templates_go {ds : List Str} (ht : SameTemplates d d' p ds) {nm : Str} (hn : nm ∈ [str!"root.html", str!"md.html"])
    {o : Option (List LTok)} (h : Templates S plugins d p nm ds o) : Templates S plugins d' p nm ds o := by
  cases o with
  | none => exact fun toks k => h toks ((templateIs_go ht hn).2 k)
  | some toks => exact (templateIs_go ht hn).1 h

theorem made_go {df} {tree tree' : Node} (hm : MatchAt places tree tree') {ds : List Str} (ht : SameTemplates d d' p ds)
    (hr : ∀ t ∈ [str!"root.html", str!"md.html"], ∀ q, InForce d p t ds q → FileRefersTo S plugins d p places q t)
    {nm nm' : Str} {b b' : Bytes} {c : Parsed} (hc : ∀ toks, c = .html toks → RefersTo places toks)
    (h : Made S plugins d p ⟨tree, df⟩ base ds nm b c nm' b') : Made S plugins d' p ⟨tree', df⟩ base ds nm b c nm' b' := by
  have href : ∀ t ∈ [str!"root.html", str!"md.html"], ∀ toks, TemplateIs S plugins d p t ds toks → RefersTo places toks := by
    rintro t hm toks ⟨q, b, k1, k2, k3⟩
    exact (hr t hm q k1 b k2).1 toks k3
  have i1 : str!"root.html" ∈ [str!"root.html", str!"md.html"] := by simp
  have i2 : str!"md.html" ∈ [str!"root.html", str!"md.html"] := by simp
  cases h with
  | template h => exact .template h
  | page h1 h2 h3 h4 h5 =>
    rw [run_match hm (hc _ rfl)] at h4
    rw [run_match hm (href _ i1 _ h3)] at h5
    exact .page h1 h2 ((templateIs_go ht i1).1 h3) h4 h5
  | markdown h1 h2 h3 h4 h5 h6 =>
    rw [run_match hm (href _ i2 _ h3)] at h5
    rw [run_match hm (href _ i1 _ h2)] at h6
    exact .markdown h1 ((templateIs_go ht i1).1 h2) ((templateIs_go ht i2).1 h3) h4 h5 h6
  | custom h1 h2 h3 h4 h5 => exact .custom h1 h2 (templates_go ht i1 h3) (templates_go ht i2 h4) h5
  | data => exact .data
  | other => exact .other

theorem madeInto_go (h : Content S plugins d p base name cs ts) (h' : Content S plugins d' p base name' cs' ts') (hd : ProperDisk d)
    {ds : List Str} {nm : Str} (hs : SameFor S plugins d d' p places ds nm) {nm' : Str} {b' : Bytes}
    (hm : MadeInto S plugins d p base (.dir name cs (pathStr p)) (.dir name ts (pathStr p)) ds nm nm' b') :
    MadeInto S plugins d' p base (.dir name' cs' (pathStr p)) (.dir name' ts' (pathStr p)) ds nm nm' b' := by
  obtain ⟨b, c, c', k1, k2, k3, k4⟩ := hm
  have hfile := hs.fileRefers b k1
  refine ⟨b, c, c', hs.file ▸ k1, k2, converted_go (fun md hc st => ?_) k3,
    made_go (match_used h h' hd hs.same hs.placesRefer) hs.templates hs.templatesRefer (fun toks hc => ?_) k4⟩
  · subst hc
    exact run_match (match_read h h' hs.same) (hfile.2 md k2) st
  · subst hc
    cases k3 with
    | same => exact hfile.1 toks k2

/-! ### Only one thing is made -/

theorem templateIs_one {ds : List Str} {nm : Str} {toks toks' : List LTok} (h : TemplateIs S plugins d p nm ds toks)
    (h' : TemplateIs S plugins d p nm ds toks') : toks = toks' := by
  obtain ⟨q, b, k1, k2, k3⟩ := h
  obtain ⟨q', b', j1, j2, j3⟩ := h'
  cases inForce_unique k1 j1
  rw [k2] at j2
  cases j2
  cases C63_one_way _ _ _ _ _ _ _ k3 j3
  rfl

theorem templates_one {ds : List Str} {nm : Str} {o o' : Option (List LTok)} (h : Templates S plugins d p nm ds o)
    (h' : Templates S plugins d p nm ds o') : o = o' := by
  cases o with
  | none => cases o' with
    | none => rfl
    | some t => exact absurd h' (h t)
  | some t => cases o' with
    | none => exact absurd h (h' t)
    | some t' => rw [templateIs_one h h']

theorem made_one {tree : Node} {df} {ds : List Str} {nm n n' : Str} {b b1 b2 : Bytes} {c : Parsed}
    (h : Made S plugins d p ⟨tree, df⟩ base ds nm b c n b1) (h' : Made S plugins d p ⟨tree, df⟩ base ds nm b c n' b2) : n = n' ∧ b1 = b2 := by
  have hmd : ∀ stem, nm = stem ++ str!".md" → nm = str!"root.html" ∨ nm = str!"md.html" → False := by
    rintro stem rfl k
    rcases k with k | k
    · have := congrArg List.getLast? k
      simp [List.getLast?_append] at this
    · have := congrArg List.getLast? k
      simp [List.getLast?_append] at this
  have hno : ∀ {q : Prop}, nm ≠ str!"root.html" → nm ≠ str!"md.html" → nm = str!"root.html" ∨ nm = str!"md.html" → q :=
    fun k1 k2 k => (k.elim k1 k2).elim
  cases h with
  | template h =>
    cases h' with
    | template => exact ⟨rfl, rfl⟩
    | page k1 k2 => exact hno k1 k2 h
    | markdown k => exact (hmd _ k h).elim
    | custom k1 k2 => exact hno k1 k2 h
    | data => exact ⟨rfl, rfl⟩
    | other => exact ⟨rfl, rfl⟩
  | page h1 h2 h3 h4 h5 =>
    cases h' with
    | template k => exact hno h1 h2 k
    | page _ _ k3 k4 k5 =>
      rw [h4] at k4
      cases k4
      rw [← templateIs_one h3 k3, h5] at k5
      cases k5
      exact ⟨rfl, rfl⟩
  | markdown h1 h2 h3 h4 h5 h6 =>
    cases h' with
    | template k => exact (hmd _ h1 k).elim
    | markdown k1 k2 k3 k4 k5 k6 =>
      rw [h1] at k1
      cases List.append_cancel_right k1
      rw [h4] at k4
      cases k4
      rw [← templateIs_one h3 k3, h5] at k5
      cases k5
      rw [← templateIs_one h2 k2, h6] at k6
      cases k6
      exact ⟨rfl, rfl⟩
  | custom h1 h2 h3 h4 h5 =>
    cases h' with
    | template k => exact hno h1 h2 k
    | custom _ _ k3 k4 k5 =>
      rw [← templates_one h3 k3, ← templates_one h4 k4, h5] at k5
      cases k5
      exact ⟨rfl, rfl⟩
  | data => cases h' <;> exact ⟨rfl, rfl⟩
  | other => cases h' <;> exact ⟨rfl, rfl⟩

theorem madeInto_one {input tree : Node} {ds : List Str} {nm n n' : Str} {b b' : Bytes} (h : MadeInto S plugins d p base input tree ds nm n b)
    (h' : MadeInto S plugins d p base input tree ds nm n' b') : n = n' ∧ b = b' := by
  obtain ⟨b0, c, c1, k1, k2, k3, k4⟩ := h
  obtain ⟨b0', c', c1', j1, j2, j3, j4⟩ := h'
  rw [k1] at j1
  cases j1
  cases C63_one_way _ _ _ _ _ _ _ k2 j2
  cases converted_same (fun _ _ _ => rfl) k3 j3
  exact made_one k4 j4

/-- The other way round. -/
theorem sameFor_symm {ds : List Str} {nm : Str} (hs : SameFor S plugins d d' p places ds nm) : SameFor S plugins d' d p places ds nm where
  file := hs.file.symm
  templates := fun t ht q b => (hs.templates t ht q b).symm
  same := fun names hn => (hs.same names hn).symm
  fileRefers := fun b hb => hs.fileRefers b (hs.file ▸ hb)
  templatesRefer := fun t ht q hq b hb => by
    obtain ⟨k1, k2⟩ := (hs.templates t ht q b).2 ⟨hq, hb⟩
    exact hs.templatesRefer t ht q k1 b k2
  placesRefer := fun names hn ds nm hp hx b hb => by
    refine hs.placesRefer names hn ds nm hp hx b ?_
    obtain ⟨r, hr⟩ := hp
    rw [← hb, List.append_assoc, ← hr, look, look, ← List.append_assoc, at_append, at_append d', hs.same names hn]
end

end Stuart
