import Verif.Proof.Last
import Verif.Proof.Concrete
import Verif.Props.Site
/-
Properties C40, C41, C42 and C45: saving a site.
-/
namespace Stuart
open Spec

variable (cfg : Config) (path : Path) (name src : Str) (cs : List Node) (w : World)

/-! ### C40 -/

/-- C40. After a successful save the output directory holds files exactly where the site has them, each with the
contents of a file that belongs there, the directories of the site, and nothing else. Not covered: the name `...html`
with extensions stripped (see `C41_counterexample_dots`), and names with slashes or special meaning chosen by plugins.
When several files belong at one place only one can be there (see C42). -/
theorem C40_saved_partial (hp : path ≠ []) (hn : PlainNames cfg cs)
    (h : (saveNode cfg path (.dir name cs src) w).2 = .ok ()) (r : Path) :
    let d := (saveNode cfg path (.dir name cs src) w).1.disk
    (∀ b, look d (path ++ r) = some (.file b) → Goes cfg cs r b) ∧
    (∀ b, Goes cfg cs r b → ∃ b', look d (path ++ r) = some (.file b')) ∧
    (look d (path ++ r) = some .dir → r = [] ∨ GoesDir cfg cs r) ∧
    (r = [] ∨ GoesDir cfg cs r → look d (path ++ r) ≠ none) ∧
    look d (path ++ r) ≠ some .special := by
  rw [saveNode] at h ⊢
  obtain ⟨w', he, hf, _⟩ := clear_mkdir hp h
  rw [he] at h ⊢
  obtain ⟨a1, a2, a3, a4, a5, a6, a7⟩ := runOps_adds (fun o ho => (saveAll_target hn ho).2 hp) h (path ++ r)
  have hops := saveAll_ops path cs hn
  simp only
  refine ⟨?_, ?_, ?_, ?_, ?_⟩
  · intro b hb
    rcases a1 b hb with hb | hb
    · rw [hf] at hb; split at hb <;> cases hb
    · rcases (hops _).1 hb with ⟨r', b', he, hg⟩ | ⟨r', he, _⟩
      · injection he with he1 he2
        rw [List.append_cancel_left he1, he2]; exact hg
      · cases he
  · intro b hb
    exact a5 (.inr ⟨b, (hops _).2 (.inl ⟨r, b, rfl, hb⟩)⟩)
  · intro hd
    rcases a2 hd with hd | hd
    · rw [hf] at hd
      split at hd
      · left; assumption
      · cases hd
    · rcases (hops _).1 hd with ⟨r', b', he, hg⟩ | ⟨r', he, hg⟩
      · cases he
      · injection he with he
        rw [List.append_cancel_left he]; exact .inr hg
  · rintro (rfl | hd)
    · exact a7 (by rw [hf]; nofun)
    · exact a6 ((hops _).2 (.inr ⟨r, rfl, hd⟩))
  · intro hs
    have := a3 hs
    rw [hf] at this
    split at this <;> cases this

/-- No two different contents belong at one place. -/
def NoClash : Prop := ∀ r b b', Goes cfg cs r b → Goes cfg cs r b' → b = b'

/-- C40. Without clashes, the files found are exactly the files of the site with their contents. -/
theorem C40_exact_partial (hp : path ≠ []) (hn : PlainNames cfg cs) (hc : NoClash cfg cs)
    (h : (saveNode cfg path (.dir name cs src) w).2 = .ok ()) (r : Path) (b : Bytes) :
    look (saveNode cfg path (.dir name cs src) w).1.disk (path ++ r) = some (.file b) ↔ Goes cfg cs r b := by
  obtain ⟨a1, a2, _⟩ := C40_saved_partial cfg path name src cs w hp hn h r
  refine ⟨a1 b, fun hg => ?_⟩
  obtain ⟨b', hb'⟩ := a2 b hg
  rw [hb', hc r b b' hg (a1 b' hb')]

/-- C40. Saving succeeds when nothing mishaps, there is a directory to hold the output directory, what is in the place
of the output directory is a directory or nothing, and no file of the site belongs where a directory belongs. -/
theorem C40_succeeds_partial (hp : path ≠ []) (hn : PlainNames cfg cs) (hcalm : w.Calm)
    (hpar : look w.disk path.dropLast = some .dir) (hout : look w.disk path = none ∨ look w.disk path = some .dir)
    (hFD : ∀ r b, Goes cfg cs r b → r ≠ [] ∧ ¬ GoesDir cfg cs r) :
    (saveNode cfg path (.dir name cs src) w).2 = .ok () := by
  have s1 : ∃ d1, (Op.clear path).apply w.disk = some d1 ∧ look d1 path = none ∧ look d1 path.dropLast = some .dir := by
    have hnp : ¬ path <+: path.dropLast := by
      intro hc
      have := hc.length_le
      simp only [List.length_dropLast] at this
      have : path.length ≠ 0 := by simpa using hp
      omega
    simp only [Op.apply]
    rcases hout with ho | ho
    · rw [at_none_iff.2 ho]; exact ⟨_, rfl, ho, hpar⟩
    · cases he : w.disk.at path with
      | none => rw [at_none_iff.1 he] at ho; cases ho
      | some e =>
        rw [look_of_at he] at ho
        cases e with
        | dir l =>
          refine ⟨_, by simp only [if_neg hp]; rfl, ?_, ?_⟩
          · have := look_put_inside (v := none) hp [] hpar
            rwa [List.append_nil] at this
          · rw [look_put_outside hnp]; exact hpar
        | file b => cases ho
        | special => cases ho
  obtain ⟨d1, ha1, hl1, hd1⟩ := s1
  obtain ⟨x1, x2, x3⟩ := World.calm_step hcalm ha1
  have s2 : (Op.mkdir path).apply (w.step (.clear path)).1.disk = some (d1.put path (some (.dir []))) := by
    rw [x2]
    simp only [Op.apply, at_none_iff.2 hl1, isDirAt_iff.2 hd1, if_true]
  obtain ⟨y1, y2, y3⟩ := World.calm_step x3 s2
  rw [saveNode, runOps, if_pos x1, runOps, if_pos y1]
  have hf : ∀ r, look ((w.step (.clear path)).1.step (.mkdir path)).1.disk (path ++ r) =
      if r = [] then some .dir else none := by
    intro r
    rw [y2, look_put_inside hp r hd1]
    cases r <;> rfl
  refine (saveAll_succeeds (F := fun q => ∃ r b, q = path ++ r ∧ Goes cfg cs r b)
    (D := fun q => q = path ∨ ∃ r, q = path ++ r ∧ GoesDir cfg cs r) ?_ hp cs hn
    (fun r b hr => ⟨r, b, rfl, hr⟩) (fun r hr => .inr ⟨r, rfl, hr⟩) y3 ?_ ?_).1
  · rintro q ⟨r, b, rfl, hg⟩ (h | ⟨r', h, hd⟩)
    · exact (hFD r b hg).1 (by simpa using h)
    · rw [← List.append_cancel_left h] at hd
      exact (hFD r b hg).2 hd
  · refine ⟨?_, ?_, ?_⟩
    · rintro q b (rfl | ⟨r, rfl, _⟩)
      · have := hf []; rw [List.append_nil] at this; rw [this]; nofun
      · rw [hf]; split <;> nofun
    · rintro q ⟨r, b, rfl, hg⟩
      rw [hf, if_neg (hFD r b hg).1]; nofun
    · rintro q (⟨r, b, rfl, hg⟩ | rfl | ⟨r, rfl, _⟩)
      · rw [hf]; split <;> nofun
      · have := hf []; rw [List.append_nil] at this; rw [this]; nofun
      · rw [hf]; split <;> nofun
  · have := hf []; rw [List.append_nil] at this; exact this

/-- A disk with a project directory `p` whose old output holds a stale file. -/
def demoDisk : Entry :=
  .dir [(str!"p", .dir [(str!"dist", .dir [(str!"old.txt", .file [1])]), (str!"keep", .file [2])])]

/-- The site of C35, saved. -/
example : let r := saveNode .default [str!"p", str!"dist"] demoOut ⟨demoDisk, []⟩
    r.2 = .ok () ∧
    look r.1.disk [str!"p", str!"dist", str!"index.html"] = some (.file (bytesOf str!"[x]")) ∧
    look r.1.disk [str!"p", str!"dist", str!"posts", str!"p", str!"index.html"] = some (.file (bytesOf str!"[<y>]")) ∧
    look r.1.disk [str!"p", str!"dist", str!"d.json"] = none ∧
    look r.1.disk [str!"p", str!"dist", str!"root.html"] = none ∧
    look r.1.disk [str!"p", str!"dist", str!"old.txt"] = none ∧
    look r.1.disk [str!"p", str!"keep"] = some (.file [2]) := ⟨rfl, rfl, rfl, rfl, rfl, rfl, rfl⟩

example : Goes .default (demoOut.children.getD []) [str!"posts", str!"p", str!"index.html"] (bytesOf str!"[<y>]") :=
  .page (ds := [str!"posts"]) (stem := str!"p") (.down (List.mem_of_getElem? (i := 4) rfl) (.here (.head _)))
    ⟨by decide, by decide, .inr (by decide)⟩ ⟨rfl, rfl, by decide, by nofun⟩

example : PlainNames .default [.file str!"a.html" [] .none none [], .dir str!"b" [] []] := by
  intro ds n h
  rcases Holds_cons.1 h with h | h
  · rw [(Holds_file.1 h).2]; exact ⟨by refine ⟨?_, ?_, ?_, ?_⟩ <;> decide, fun _ => by decide⟩
  · rcases Holds_dir.1 h with ⟨_, h⟩ | ⟨_, _, h⟩
    · rw [h]; exact ⟨by refine ⟨?_, ?_, ?_, ?_⟩ <;> decide, fun _ => by decide⟩
    · exact (Holds_nil h).elim

/-! ### C41 -/

/-- C41. Whatever mishaps occur and however the save ends, nothing outside the output directory changes. -/
theorem C41_outside_partial (hn : PlainNames cfg cs) (q : Path) (hq : ¬ path <+: q) :
    look (saveNode cfg path (.dir name cs src) w).1.disk q = look w.disk q := by
  rw [saveNode]
  refine runOps_outside fun o ho => ?_
  simp only [List.mem_cons] at ho
  rcases ho with rfl | rfl | ho
  · exact hq
  · exact hq
  · intro hc
    exact hq ((saveAll_target hn ho).1.trans hc)

/-- C41. After a successful save, what is seen in the output directory does not depend on what was there before, or
anywhere else. -/
theorem C41_stale_partial (hp : path ≠ []) (hn : PlainNames cfg cs) (w' : World)
    (h : (saveNode cfg path (.dir name cs src) w).2 = .ok ()) (h' : (saveNode cfg path (.dir name cs src) w').2 = .ok ())
    (r : Path) :
    look (saveNode cfg path (.dir name cs src) w).1.disk (path ++ r) =
      look (saveNode cfg path (.dir name cs src) w').1.disk (path ++ r) := by
  rw [saveNode] at h h' ⊢
  rw [saveNode]
  obtain ⟨v, he, hf, _⟩ := clear_mkdir hp h
  obtain ⟨v', he', hf', _⟩ := clear_mkdir hp h'
  rw [he] at h ⊢
  rw [he'] at h' ⊢
  refine runOps_agree (fun o ho => ⟨(saveAll_target hn ho).2 hp, (saveAll_target hn ho).1⟩) h h' (fun r => ?_) r
  rw [hf, hf']

/-- C41. A page named `...html` is written next to the output directory, over whatever is there. -/
theorem C41_counterexample_dots :
    let site := Node.dir str!"content" [.file str!"...html" [7] .none none []] []
    let disk := Entry.dir [(str!"p", .dir [(str!"index.html", .file [2])])]
    let r := saveNode .default [str!"p", str!"dist"] site ⟨disk, []⟩
    r.2 = .ok () ∧ look disk [str!"p", str!"index.html"] = some (.file [2]) ∧
      look r.1.disk [str!"p", str!"index.html"] = some (.file [7]) := ⟨rfl, rfl, rfl⟩

/-! ### C42 -/

/-- C42. If in every directory of the built tree the names differ, no page `x.html` has a directory `x` with an
`index.html` beside it, and there are no pages with the names `.html` and `..html`, then nothing is overwritten. -/
theorem C42_distinct_partial
    (hd : ∀ ds n n', Holds cs ds n → Holds cs ds n' → n.name = n'.name → n = n')
    (hs : ∀ ds stem b p m src b' p' m' src', cfg.stripExtensions = true →
      Holds cs ds (.file (stem ++ str!".html") b p m src) →
      ¬ Holds cs (ds ++ [stem]) (.file str!"index.html" b' p' m' src'))
    (hdots : cfg.stripExtensions = true → ∀ ds n, Holds cs ds n → n.name ≠ str!".html" ∧ n.name ≠ str!"..html") :
    NoClash cfg cs := by
  have hstem : ∀ {ds : List Str} {name stem : Str} {b : Bytes} {p : Parsed} {m : Option Value} {src : Str},
      Holds cs ds (.file name b p m src) → OwnDir cfg name stem p → stemDir stem = [stem] := by
    intro ds name stem b p m src hh ho
    unfold stemDir
    rw [if_neg]
    rintro (rfl | rfl)
    · exact (hdots ho.1 ds _ hh).1 ho.2.1
    · exact (hdots ho.1 ds _ hh).2 ho.2.1
  intro r b b' h1 h2
  cases h1 with
  | plain k1 _ _ =>
    generalize hr : _ ++ [_] = r at h2
    cases h2 with
    | plain k2 _ _ =>
      obtain ⟨rfl, hnm⟩ := List.append_inj' hr rfl
      cases hd _ _ _ k1 k2 (by simpa [Node.name] using hnm)
      rfl
    | page k2 _ o2 =>
      rw [hstem k2 o2] at hr
      obtain ⟨rfl, hnm⟩ := List.append_inj' hr rfl
      simp only [List.cons.injEq, and_true] at hnm
      subst hnm
      exfalso
      rw [o2.2.1] at k2
      exact hs _ _ _ _ _ _ _ _ _ _ o2.1 k2 k1
  | page k1 _ o1 =>
    generalize hr : _ ++ _ ++ [_] = r at h2
    rw [hstem k1 o1] at hr
    cases h2 with
    | plain k2 _ _ =>
      obtain ⟨rfl, hnm⟩ := List.append_inj' hr rfl
      simp only [List.cons.injEq, and_true] at hnm
      subst hnm
      exfalso
      rw [o1.2.1] at k1
      exact hs _ _ _ _ _ _ _ _ _ _ o1.1 k1 k2
    | page k2 _ o2 =>
      rw [hstem k2 o2] at hr
      obtain ⟨hr, _⟩ := List.append_inj' hr rfl
      obtain ⟨rfl, hst⟩ := List.append_inj' hr rfl
      simp only [List.cons.injEq, and_true] at hst
      subst hst
      have hnm := o1.2.1.trans o2.2.1.symm
      cases hd _ _ _ k1 k2 (by simpa [Node.name] using hnm)
      rfl

/-- C42. A markdown page and an HTML page of the same stem: both are built, one is lost, and there is no error. -/
theorem C42_counterexample_md :
    let site := Node.dir str!"content"
      [.file str!"root.html" [] (.html demoRoot) none [],
       .file str!"md.html" [] (.html [here.tok (.func (.begin_ str!"a" true)), here.tok (.func (.end_ str!"a" true))]) none [],
       .file str!"x.html" [] (.html (demoPage str!"lost")) none str!"content/x.html",
       .file str!"x.md" [] (.markdown ⟨[], [], [], none⟩) none str!"content/x.md"] []
    ∃ out, buildTree demoExt (fun _ _ => none) .default [] str!"production" site = .ok out ∧
      nodeAt out [2] = some (.file str!"x.html" (bytesOf str!"[x]") .none none str!"content/x.html") ∧
      (saveNode .default [str!"p", str!"dist"] out ⟨demoDisk, []⟩).2 = .ok () ∧
      look (saveNode .default [str!"p", str!"dist"] out ⟨demoDisk, []⟩).1.disk
        [str!"p", str!"dist", str!"x", str!"index.html"] = some (.file (bytesOf str!"[]")) := ⟨_, rfl, rfl, rfl, rfl⟩

/-- C42. A page and the index of a directory of the same name: one is lost without an error. -/
theorem C42_counterexample_index :
    let site := Node.dir str!"content"
      [.dir str!"x" [.file str!"index.html" [1] .none none []] [], .file str!"x.html" [2] .none none []] []
    let r := saveNode .default [str!"p", str!"dist"] site ⟨demoDisk, []⟩
    r.2 = .ok () ∧ look r.1.disk [str!"p", str!"dist", str!"x", str!"index.html"] = some (.file [2]) := ⟨rfl, rfl⟩

/-- C42. What is found at a place after a successful save is exactly the last file, in the order of the site, that goes
there. Not covered: the names left out of `C40_saved_partial`. -/
theorem C42_last_partial (hp : path ≠ []) (hn : PlainNames cfg cs)
    (h : (saveNode cfg path (.dir name cs src) w).2 = .ok ()) (r : Path) (b : Bytes) :
    look (saveNode cfg path (.dir name cs src) w).1.disk (path ++ r) = some (.file b) ↔
      LandsLast cfg (listingAll [] cs) r b := by
  rw [saveNode] at h ⊢
  obtain ⟨w', he, hf, _⟩ := clear_mkdir hp h
  rw [he] at h ⊢
  rw [runOps_last (fun o ho => (saveAll_target hn ho).2 hp) h, hf]
  have := saveAll_last path [] cs hn r b
  rw [List.append_nil] at this
  rw [this]
  constructor
  · rintro (h | ⟨_, h⟩)
    · exact h
    · split at h <;> cases h
  · exact .inl

/-- The page after the directory is the one that stays. -/
example : LandsLast .default (listingAll [] [.dir str!"x" [.file str!"index.html" [1] .none none []] [],
    .file str!"x.html" [2] .none none []]) [str!"x", str!"index.html"] [2] :=
  ⟨[_], _, [], rfl, ⟨rfl, ⟨by decide, by decide, .inr (by decide)⟩, .inr ⟨str!"x", ⟨rfl, rfl, by decide, by nofun⟩, rfl⟩⟩,
    by simp⟩

/-! ### C45 -/

/-- C45. After a save that was interrupted or failed anywhere, with any damage, a later save that succeeds gives exactly
what an undisturbed save would have given. (An interruption is a mishap, after which a save makes no more changes.)
Not so: that the old or the new site is there meanwhile (`C45_counterexample`). -/
theorem C45_recovery_partial (hp : path ≠ []) (hn : PlainNames cfg cs) (mishaps : List (Option (Option Entry)))
    (h : (saveNode cfg path (.dir name cs src) w).2 = .ok ())
    (h' : (saveNode cfg path (.dir name cs src)
      ⟨(saveNode cfg path (.dir name cs src) ⟨w.disk, mishaps⟩).1.disk, []⟩).2 = .ok ()) (r : Path) :
    look (saveNode cfg path (.dir name cs src)
      ⟨(saveNode cfg path (.dir name cs src) ⟨w.disk, mishaps⟩).1.disk, []⟩).1.disk (path ++ r) =
    look (saveNode cfg path (.dir name cs src) w).1.disk (path ++ r) :=
  C41_stale_partial cfg path name src cs _ hp hn w h' h r

/-- C45. Until a step of the save proper has been reached nothing has happened to the old site: a save that fails with
no damage at its first step leaves everything as it was. -/
theorem C45_first_step_partial (fs : List (Option (Option Entry))) (hw : w.faults = some (w.disk.at path) :: fs)
    (q : Path) (hp : path ≠ []) (hpar : look w.disk path.dropLast = some .dir) :
    look (saveNode cfg path (.dir name cs src) w).1.disk q = look w.disk q := by
  have : (saveNode cfg path (.dir name cs src) w).1.disk = w.disk.put path (w.disk.at path) := by
    simp [saveNode, runOps, World.step, hw, Op.target]
  rw [this]
  by_cases hq : path <+: q
  · obtain ⟨r, rfl⟩ := hq
    rw [look_put_inside hp r hpar, look, at_append]
    cases w.disk.at path <;> rfl
  · exact look_put_outside hq

/-- C45. A site with two pages and an old version with one; the save fails at its fourth step. The old site is gone and
the new one incomplete. -/
theorem C45_counterexample :
    let site := Node.dir str!"content" [.file str!"a" [1] .none none [], .file str!"b" [2] .none none []] []
    let r := saveNode .default [str!"p", str!"dist"] site ⟨demoDisk, [none, none, none, some none]⟩
    r.2 = .err (.fs .write) ∧
    look demoDisk [str!"p", str!"dist", str!"old.txt"] = some (.file [1]) ∧
    look r.1.disk [str!"p", str!"dist", str!"old.txt"] = none ∧
    look r.1.disk [str!"p", str!"dist", str!"a"] = some (.file [1]) ∧
    look r.1.disk [str!"p", str!"dist", str!"b"] = none := ⟨rfl, rfl, rfl, rfl, rfl⟩

/-! ### Cases: each theorem applied to something that meets its hypotheses -/

/-- A site of one page. -/
def onePage : List Node := [.file str!"a.html" [9] .none none []]

theorem onePage_plain : PlainNames .default onePage := by unfold onePage; plain_names

theorem onePage_holds {ds : List Str} {n : Node} (h : Holds onePage ds n) : ds = [] ∧ n = .file str!"a.html" [9] .none none [] := by
  cases h with
  | here h => exact ⟨rfl, List.mem_singleton.1 h⟩
  | down h _ => cases List.mem_singleton.1 h

theorem onePage_clash : NoClash .default onePage := by
  intro r b b' h h'
  rw [(goes_one h).2, (goes_one h').2]

theorem onePage_goes {r : Path} {b : Bytes} (h : Goes .default onePage r b) : r = [str!"a", str!"index.html"] := by
  cases h with
  | plain hh _ hno =>
    obtain ⟨rfl, h⟩ := onePage_holds hh
    cases h
    exact absurd ⟨rfl, rfl, by decide, by nofun⟩ (hno str!"a")
  | page hh _ ho =>
    obtain ⟨rfl, h⟩ := onePage_holds hh
    cases h
    have := List.append_cancel_right (as := str!"a") ho.2.1
    rw [← this]; rfl

theorem onePage_files (r : Path) (b : Bytes) (h : Goes .default onePage r b) : r ≠ [] ∧ ¬ GoesDir .default onePage r := by
  cases onePage_goes h
  refine ⟨by simp, fun hd => ?_⟩
  generalize hr : [str!"a", str!"index.html"] = r at hd
  cases hd with
  | dir hh => cases (onePage_holds hh).2
  | page hh _ ho =>
    obtain ⟨rfl, _⟩ := onePage_holds hh
    simp only [stemDir] at hr
    split at hr <;> simp at hr

/-- Where it is saved. -/
def caseDist : Path := [str!"p", str!"dist"]

example := C40_saved_partial .default caseDist [] [] onePage ⟨demoDisk, []⟩ (by decide) onePage_plain rfl

example := C40_exact_partial .default caseDist [] [] onePage ⟨demoDisk, []⟩ (by decide) onePage_plain onePage_clash rfl

example := C40_succeeds_partial .default caseDist [] [] onePage ⟨demoDisk, []⟩ (by decide) onePage_plain (by nofun) rfl (.inr rfl) onePage_files

example := C41_outside_partial .default caseDist [] [] onePage ⟨demoDisk, []⟩ onePage_plain [str!"p", str!"keep"] (by decide)

example := C41_stale_partial .default caseDist [] [] onePage ⟨demoDisk, []⟩ (by decide) onePage_plain ⟨.dir [(str!"p", .dir [])], []⟩ rfl rfl

example := C42_distinct_partial .default onePage
  (fun ds n n' h h' _ => by rw [(onePage_holds h).2, (onePage_holds h').2])
  (fun ds stem b p m src b' p' m' src' _ _ h => by cases (onePage_holds h).2)
  (fun _ ds n h => by rw [(onePage_holds h).2]; exact ⟨by decide, by decide⟩)

example := C45_recovery_partial .default caseDist [] [] onePage ⟨demoDisk, []⟩ (by decide) onePage_plain
  [none, some (some (.dir [(str!"a", .file [])]))] rfl rfl

example := C45_first_step_partial .default caseDist [] [] onePage ⟨demoDisk, [some (demoDisk.at caseDist)]⟩ [] rfl
  [str!"p", str!"keep"] (by decide) rfl

end Stuart
