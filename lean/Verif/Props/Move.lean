import Verif.Proof.MoveRun
import Verif.Proof.Tree
import Verif.Model.Imgopt
import Verif.Props.Cli
import Verif.Props.FileTypes
/-
Property C103: where a project lies does not matter.
-/
namespace Stuart
open Spec

theorem restComps_plain {ps : List Str} (h : ∀ n ∈ ps, PlainName n) : restComps ps = ps.map Comp.normal := by
  induction ps with
  | nil => rfl
  | cons p ps ih =>
    obtain ⟨h1, h2, h3, _⟩ := h p (.head _)
    rw [restComps, if_neg h1, if_neg h2, if_neg h3, ih fun n hn => h n (.tail _ hn)]
    rfl

theorem joinPath_slashed {p : Path} {n : Str} {ns : List Str} (h : ∀ m ∈ n :: ns, PlainName m) : joinPath p (slashed n ns) = p ++ n :: ns := by
  have hs : Slashless n ns := ⟨(h n (.head _)).2.2.2, fun q hq => (h q (.tail _ hq)).2.2.2⟩
  have hc : components (slashed n ns) = (n :: ns).map Comp.normal := by
    obtain ⟨h1, h2, _, _⟩ := h n (.head _)
    unfold components
    rw [splitOn_slashed ns n hs]
    cases ns with
    | nil => simp only [restComps_plain h]; rw [if_neg h2]
    | cons q qs => simp only [restComps_plain h]; rw [if_neg h1, if_neg h2]
  unfold joinPath
  rw [hc]
  generalize n :: ns = l
  clear h hs hc
  induction l generalizing p with
  | nil => simp
  | cons x l ih => simp only [List.map_cons, List.foldl_cons]; rw [ih]; simp

theorem slashed_relative {n : Str} {ns : List Str} (h : PlainName n) (r : Str) : slashed n ns ≠ '/' :: r := by
  obtain ⟨h1, _, _, h4⟩ := h
  cases n with
  | nil => exact absurd rfl h1
  | cons c n =>
    intro k
    have : c = '/' := by
      have := congrArg List.head? k
      simpa [slashed] using this
    subst this
    exact h4 (.head _)

/-- C103. The same project in two directories, in each of which `build` is run, with an output directory below the
project: afterwards the two directories are again the same, down to the order of the entries, whether or not the build
succeeds and whatever goes wrong on the way; and the results are the same, but that an error has the paths of the one
place instead of those of the other. Scripts have to do the same in both places. -/
theorem C103_build (M : Machine) (L : Loader) (old new : Path) (ho : old ≠ []) (hn : new ≠ []) (hL : LoaderFollows L old new)
    (n : Str) (ns : List Str) (hout : ∀ m ∈ n :: ns, PlainName m) (hM : ScriptsFollow M old new (slashed n ns) str!"production")
    (s s' : Host) (h : Twins old new s s') (hd : ProperDisk s.world.disk) :
    Twins old new (cmdBuild M L old str!"stuart.toml" (slashed n ns) s).1 (cmdBuild M L new str!"stuart.toml" (slashed n ns) s').1 ∧
    (cmdBuild M L new str!"stuart.toml" (slashed n ns) s').2 =
      (cmdBuild M L old str!"stuart.toml" (slashed n ns) s).2.mapErr (movedCli old new) :=
  cmdBuild_moved ho hn hL hM (slashed_relative (hout n (.head _))) (by simp) (joinPath_slashed hout) (joinPath_slashed hout) h hd

/-- C103. The same for `clean`. -/
theorem C103_clean (old new : Path) (ho : old ≠ []) (hn : new ≠ []) (w w' : World) (h1 : w'.disk.at new = w.disk.at old)
    (h2 : w'.faults = w.faults) :
    (cmdClean new w').1.disk.at new = (cmdClean old w).1.disk.at old ∧ (cmdClean new w').1.faults = (cmdClean old w).1.faults ∧
    (cmdClean new w').2 = (cmdClean old w).2.mapErr (movedCli old new) :=
  cmdClean_moved ho hn h1 h2

/-- C103. The image optimiser does not look at where files are, nor do plugins that have functions only. -/
theorem C103_plugins (optimize : Bytes → Except Str Bytes) (plugins : List Plugin)
    (h : ∀ p ∈ plugins, p.parsers = [] ∨ p = imgopt optimize) : AllPlaceless plugins := by
  intro p hp q hq
  rcases h p hp with k | k
  · rw [k] at hq
    cases hq
  · subst k
    rw [List.mem_singleton.1 (show q ∈ [pngParser optimize] from hq)]
    refine ⟨fun b s s' => rfl, fun b s c hc ρ root md => ?_, fun b s c hc root md out nm ho hm => ?_⟩
    · cases hc
      rfl
    · cases hc
      simp only [pngProcessor] at ho
      split at ho
      · cases ho
      · cases ho
        cases hm

/-- C103. The paths in errors: below the directory the same path, after the path of the other directory. -/
theorem C103_paths (old new r : Path) : movedPath old new (pathStr (old ++ r)) = pathStr (new ++ r) := movedPath_below r

/-! ### Examples -/

/-- A project. -/
def anyProject (page : Bytes) : Entry := .dir [(str!"stuart.toml", .file []),
  (str!"content", .dir [(str!"root.html", .file (bytesOf str!"<{{ insert(\"a\") }}>")), (str!"x.html", .file page)]),
  (str!"static", .dir [(str!"b.txt", .file [1])]), (str!"dist", .dir [(str!"old", .file [])])]

/-- Two disks with the project at different places. -/
def hereDisk (page : Bytes) : Entry := .dir [(str!"p", anyProject page)]
def thereDisk (page : Bytes) : Entry := .dir [(str!"etc", .dir []), (str!"home", .dir [(str!"me", .dir [(str!"site", anyProject page), (str!"z", .file [])])])]

theorem emptyLoader_follows (old new : Path) : LoaderFollows emptyLoader old new :=
  ⟨fun _ _ => ⟨rfl, rfl⟩, fun _ _ _ => rfl, fun _ _ _ h => (by cases h), fun _ _ _ h p hp => (by cases h; cases hp)⟩

theorem idle_follow (old new : Path) (out mode : Str) : ScriptsFollow idleMachine old new out mode :=
  ⟨fun _ _ _ _ h => h, fun _ _ _ _ _ => rfl, fun _ _ _ h => h⟩

example := C103_build idleMachine emptyLoader [str!"p"] [str!"home", str!"me", str!"site"] (by simp) (by simp)
  (emptyLoader_follows _ _) str!"dist" [] (by simp only [List.mem_singleton, forall_eq]; unfold PlainName; decide) (idle_follow _ _ _ _)
  ⟨⟨hereDisk [1], []⟩, []⟩ ⟨⟨thereDisk [1], []⟩, []⟩ ⟨rfl, rfl, rfl⟩ (by unfold hereDisk anyProject; proper_disk)

/-- The build succeeds and changes the directory, -/
example :
    let page := bytesOf str!"{{ begin(\"a\") }}A{{ end(\"a\") }}"
    let r := cmdBuild idleMachine emptyLoader [str!"home", str!"me", str!"site"] str!"stuart.toml" str!"dist" ⟨⟨thereDisk page, []⟩, []⟩
    r.2 = .ok () ∧ look r.1.world.disk [str!"home", str!"me", str!"site", str!"dist", str!"x", str!"index.html"] = some (.file (bytesOf str!"<A>")) ∧
    look r.1.world.disk [str!"home", str!"me", str!"site", str!"dist", str!"old"] = none := by decide +kernel

/-- or fails, with an error that has the path. -/
example :
    let page := bytesOf str!"{{ nothing() }}"
    (match (cmdBuild idleMachine emptyLoader [str!"p"] str!"stuart.toml" str!"dist" ⟨⟨hereDisk page, []⟩, []⟩).2 with
      | .err (.core e) => some e | _ => none) =
      some (.parse ⟨str!"/p/content/x.html", 1, 3, .nonexistentFunction str!"nothing"⟩) ∧
    (match (cmdBuild idleMachine emptyLoader [str!"home", str!"me", str!"site"] str!"stuart.toml" str!"dist" ⟨⟨thereDisk page, []⟩, []⟩).2 with
      | .err (.core e) => some e | _ => none) =
      some (.parse ⟨str!"/home/me/site/content/x.html", 1, 3, .nonexistentFunction str!"nothing"⟩) := by decide +kernel

/-- A copy next to the original, with a mishap while the site is written. -/
def copiesDisk : Entry := .dir [(str!"p", anyProject []), (str!"q", anyProject [])]

example := C103_build idleMachine emptyLoader [str!"p"] [str!"q"] (by simp) (by simp)
  (emptyLoader_follows _ _) str!"out" [str!"site"] (by simp only [List.mem_cons, List.not_mem_nil, or_false, forall_eq_or_imp, forall_eq]; unfold PlainName; decide)
  (idle_follow _ _ _ _) ⟨⟨copiesDisk, [none, none, none, some (some (.file []))]⟩, []⟩ ⟨⟨copiesDisk, [none, none, none, some (some (.file []))]⟩, []⟩ ⟨rfl, rfl, rfl⟩ (by unfold copiesDisk anyProject; proper_disk)

example (page : Bytes) := C103_clean [str!"p"] [str!"home", str!"me", str!"site"] (by simp) (by simp) ⟨hereDisk page, []⟩ ⟨thereDisk page, []⟩ rfl rfl

example := C103_plugins demoOptimizer [imgopt demoOptimizer] (fun _ hp => .inr (List.mem_singleton.1 hp))

example : movedPath [str!"p"] [str!"home", str!"me"] str!"/p/content/x.html" = str!"/home/me/content/x.html" := rfl

/-- A script that writes where it is makes a difference, of course. -/
example : ¬ ScriptsFollow { idleMachine with shell := fun _ p _ d => (d.put (p.dropLast ++ [str!"here"]) (some (.file (bytesOf (pathStr p)))), none) }
    [str!"p"] [str!"q"] [] [] := by
  intro h
  have := h.files 0 [str!"x"] copiesDisk copiesDisk rfl
  exact absurd (congrArg (fun e => (e.map fun e => look e [str!"here"])) this) (by decide +kernel)

end Stuart
