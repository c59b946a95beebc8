import Verif.Model.Memory
import Verif.Proof.ModeText
import Verif.Props.Site
import Verif.Props.Mode
import Verif.Props.Tables
/-
Property C105: a tree in memory renders as the site on disk does.
-/
namespace Stuart
open Spec

theorem memoryBase_blank (vars : List (Str × Str)) (mode : Str) : memoryBase.blank = (baseFrame vars mode).blank := rfl

theorem fromNode_ok {S : Sys} {n : Node} {m : Project} (h : Project.fromNode S n = .ok m) :
    ∃ mid, preNode S.ext ⟨n, S.dateFmt⟩ memoryBase n = .ok mid ∧ m = { dir := joinPath [] n.source, input := some mid } := by
  unfold Project.fromNode at h
  split at h
  · rename_i n' hn
    cases h
    exact ⟨n', hn, rfl⟩
  · cases h
  · cases h

/-- C105. The builder of a tree in memory that has been read from a disk without `$env` in its texts: if the project
builds, then the builder has the same tree, markdown rendered, and processing any file of it with the templates in force
gives the file that the build puts in that place. -/
theorem C105_same (S : Sys) (s : Project) (mode : Str) (d : Entry) (hd : ProperDisk d) (hb : AllBlind s.plugins) (hn : NoEnv d s.dir)
    (tree : Node) (ht : readTree S true s.plugins d s.dir = .ok tree) (hs : (s.build S d mode).2 = .ok ()) :
    ∃ m mid out, Project.fromNode S tree = .ok m ∧ m.input = some mid ∧ m.output = none ∧
      (s.build S d mode).1.input = some mid ∧ (s.build S d mode).1.output = some out ∧
      ∀ pos ∈ files tree, ∃ page made, nodeAt mid pos = some page ∧ nodeAt out pos = some made ∧
        processIn S memoryBase s.config mid ⟨template str!"root.html" tree pos, template str!"md.html" tree pos⟩ page = .ok made := by
  have hi := readTree_noEnv hb hd hn ht
  unfold Project.build at hs ⊢
  rw [ht] at hs ⊢
  simp only at hs ⊢
  have hpre := preNode_unseen S.ext ⟨tree, S.dateFmt⟩ (memoryBase_blank S.vars mode) tree hi
  cases hp : preNode S.ext ⟨tree, S.dateFmt⟩ (baseFrame S.vars mode) tree with
  | err e => rw [hp] at hs; cases hs
  | panic e => rw [hp] at hs; cases hs
  | ok mid =>
    rw [hp] at hs hpre
    simp only at hs ⊢
    have hi' := preNode_noEnv tree mid hi hp
    have he : (updateEnv ⟨none, none⟩ (mid.children.getD [])).NoEnv :=
      updateEnv_noEnv _ _ ⟨fun _ k => (by cases k), fun _ k => (by cases k)⟩ (children_noEnv hi')
    cases hbn : buildNode ⟨⟨mid, S.dateFmt⟩, baseFrame S.vars mode, s.config⟩ (updateEnv ⟨none, none⟩ (mid.children.getD [])) mid with
    | err e => rw [hbn] at hs; cases hs
    | panic e => rw [hbn] at hs; cases hs
    | ok out =>
      have hbn' := hbn
      rw [← buildNode_unseen (b := ⟨⟨mid, S.dateFmt⟩, baseFrame S.vars mode, s.config⟩) (b' := ⟨⟨mid, S.dateFmt⟩, memoryBase, s.config⟩)
        rfl (memoryBase_blank S.vars mode) rfl mid _ hi' he, buildTree_env] at hbn'
      refine ⟨_, mid, out, by unfold Project.fromNode; rw [hpre], rfl, rfl, rfl, rfl, ?_⟩
      intro pos hpos
      obtain ⟨name, c, p, mt, src, hf⟩ := (mem_files tree pos).1 hpos
      have h3 := preNode_at pos hp
      simp only [hf] at h3
      obtain ⟨p', _, h3⟩ := h3
      have h4 := buildNode_at pos hbn'
      simp only [h3] at h4
      obtain ⟨o, ho, h4⟩ := h4
      rw [envAt_template, template_pre hp, template_pre hp] at ho
      exact ⟨_, o, h3, h4, ho⟩

/-- C105. Making the builder crashes rather than report an error, and it does exactly when some markdown body does not
render, in a build of any mode. -/
theorem C105_crash (S : Sys) (s : Project) (mode : Str) (d : Entry) (hd : ProperDisk d) (hb : AllBlind s.plugins) (hn : NoEnv d s.dir)
    (tree : Node) (ht : readTree S true s.plugins d s.dir = .ok tree) :
    ((∃ m, Project.fromNode S tree = .ok m) ↔ ∀ pos ∈ files tree, ∃ p, bodyResult S.ext S.dateFmt S.vars mode tree pos = .ok p) ∧
    (∀ e, Project.fromNode S tree ≠ .err e) ∧
    ∀ e, preNode S.ext ⟨tree, S.dateFmt⟩ (baseFrame S.vars mode) tree = .err e → (s.build S d mode).2 = .err e ∧ Project.fromNode S tree = .panic .bodyFailed := by
  have hi := readTree_noEnv hb hd hn ht
  have hpre := preNode_unseen S.ext ⟨tree, S.dateFmt⟩ (memoryBase_blank S.vars mode) tree hi
  have hv := preNode_verdict S.ext ⟨tree, S.dateFmt⟩ (baseFrame S.vars mode) tree
  refine ⟨?_, ?_, ?_⟩
  · have hbody : (∀ pos ∈ files tree, ∃ p, bodyResult S.ext S.dateFmt S.vars mode tree pos = .ok p) ↔
        ∃ mid, preNode S.ext ⟨tree, S.dateFmt⟩ (baseFrame S.vars mode) tree = .ok mid := by
      rw [← verdict_ok, hv, allOk_ok]
      simp only [verdict_ok, bodyResult]
    rw [hbody]
    unfold Project.fromNode
    rw [hpre]
    constructor
    · rintro ⟨m, h⟩
      split at h
      · exact ⟨_, by assumption⟩
      · cases h
      · cases h
    · rintro ⟨mid, h⟩
      rw [h]
      exact ⟨_, rfl⟩
  · intro e h
    unfold Project.fromNode at h
    split at h <;> cases h
  · intro e he
    refine ⟨?_, by unfold Project.fromNode; rw [hpre, he]⟩
    unfold Project.build
    rw [ht]
    simp only
    rw [he]

theorem readTree_source {S : Sys} {parse : Bool} {plugins : List Plugin} {d : Entry} {p : Path} {n : Node}
    (h : readTree S parse plugins d p = .ok n) : n.source = pathStr p := by
  unfold readTree at h
  split at h
  · obtain ⟨cs, _, h2⟩ := Res.bind_eq_ok.1 h
    obtain ⟨nm, _, h4⟩ := Res.bind_eq_ok.1 h2
    cases h4
    rfl
  · cases h

theorem pathStr_slashed (n : Str) (ns : List Str) : pathStr (n :: ns) = '/' :: slashed n ns := rfl

theorem joinPath_pathStr {p : Path} (h : ∀ n ∈ p, PlainName n) : joinPath [] (pathStr p) = p := by
  cases p with
  | nil => rfl
  | cons n ns =>
    have h1 := joinPath_slashed (p := []) h
    rw [joinPath_rel _ (slashed_relative (h n (.head _)))] at h1
    rw [pathStr_slashed, joinPath_abs]
    exact h1

/-- C105. Building with such a builder is building from the disk: neither the tree it was made of nor what has happened
since matters, other than by where the tree came from. -/
theorem C105_from_disk (S : Sys) (plugins : List Plugin) (parse : Bool) (d d' : Entry) (dir : Path) (mode : Str) (hp : ∀ n ∈ dir, PlainName n)
    (tree : Node) (ht : readTree S parse plugins d dir = .ok tree) (m : Project) (hm : Project.fromNode S tree = .ok m) :
    (m.build S d' mode).2 = (Project.build S d' mode { dir := dir }).2 ∧
    (m.build S d' mode).1.output = (Project.build S d' mode { dir := dir }).1.output ∧
    ((m.build S d' mode).2 = .ok () → m.build S d' mode = Project.build S d' mode { dir := dir }) := by
  obtain ⟨mid, _, rfl⟩ := fromNode_ok hm
  rw [readTree_source ht, joinPath_pathStr hp]
  unfold Project.build
  cases readTree S true [] d' dir with
  | err e => simp
  | panic e => simp
  | ok input =>
    simp only
    cases preNode S.ext ⟨input, S.dateFmt⟩ (baseFrame S.vars mode) input with
    | err e => simp
    | panic e => simp
    | ok input' =>
      simp only
      cases buildNode ⟨⟨input', S.dateFmt⟩, baseFrame S.vars mode, Config.default⟩ (updateEnv ⟨none, none⟩ (input'.children.getD [])) input' with
      | err e => simp
      | panic e => simp
      | ok out => simp

/-! ### Examples -/

/-- Content with a page and an article. -/
def memoryDisk (page : Str) : Entry := .dir [(str!"c", .dir [(str!"root.html", .file (bytesOf str!"<{{ insert(\"a\") }}>")),
  (str!"md.html", .file (bytesOf str!"{{ begin(\"a\") }}{{ $self.content }}{{ end(\"a\") }}")),
  (str!"x.html", .file (bytesOf page)), (str!"y.md", .file (bytesOf str!"---\n---\nY"))])]

theorem memoryDisk_noEnv : NoEnv (memoryDisk str!"{{ begin(\"a\") }}A{{ end(\"a\") }}") [str!"c"] :=
  noEnv_flat rfl (by
    intro e he
    simp only [List.mem_cons, List.not_mem_nil, or_false] at he
    rcases he with h | h | h | h <;> subst h <;> exact ⟨nofun, by decide +kernel⟩)

example (tree : Node) (ht : readTree demoSys true [] (memoryDisk str!"{{ begin(\"a\") }}A{{ end(\"a\") }}") [str!"c"] = .ok tree) :=
  C105_same demoSys { dir := [str!"c"] } str!"production" (memoryDisk str!"{{ begin(\"a\") }}A{{ end(\"a\") }}") (by unfold memoryDisk; proper_disk) nofun
    memoryDisk_noEnv tree ht (by decide +kernel)
example (tree : Node) (ht : readTree demoSys true [] (memoryDisk str!"{{ begin(\"a\") }}A{{ end(\"a\") }}") [str!"c"] = .ok tree) :=
  C105_crash demoSys { dir := [str!"c"] } str!"production" (memoryDisk str!"{{ begin(\"a\") }}A{{ end(\"a\") }}") (by unfold memoryDisk; proper_disk) nofun
    memoryDisk_noEnv tree ht

/-- The article in memory, -/
example :
    let made := (readTree demoSys true [] (memoryDisk []) [str!"c"]).bind fun tree => (Project.fromNode demoSys tree).bind fun m =>
      processIn demoSys memoryBase .default (m.input.getD tree) ⟨template str!"root.html" tree [3], template str!"md.html" tree [3]⟩
        ((nodeAt (m.input.getD tree) [3]).getD tree)
    (made.bind fun n => .ok (n.name, n.contents)) = .ok (str!"y.html", some (bytesOf str!"<<Y>>")) := by decide +kernel

example (tree : Node) (ht : readTree demoSys true [] (memoryDisk []) [str!"c"] = .ok tree) (m : Project) (hm : Project.fromNode demoSys tree = .ok m) :=
  C105_from_disk demoSys [] true (memoryDisk []) (memoryDisk str!"new") [str!"c"] str!"production" (by decide) tree ht m hm

/-- while a page that asks for the mode can be built but not processed in memory. -/
theorem C105_env :
    (Project.build demoSys (memoryDisk str!"{{ begin(\"a\") }}{{ $env.STUART_ENV }}{{ end(\"a\") }}") str!"production" { dir := [str!"c"] }).2 = .ok () ∧
    ((readTree demoSys true [] (memoryDisk str!"{{ begin(\"a\") }}{{ $env.STUART_ENV }}{{ end(\"a\") }}") [str!"c"]).bind fun tree =>
      (Project.fromNode demoSys tree).bind fun m =>
      (processIn demoSys memoryBase .default (m.input.getD tree) ⟨template str!"root.html" tree [2], none⟩ ((nodeAt (m.input.getD tree) [2]).getD tree)).bind
        fun n => .ok n.contents) = .err (.process ⟨str!"/c/x.html", 1, 19, .undefinedVariable str!"env.STUART_ENV"⟩) := by decide +kernel

end Stuart
