import Verif.Proof.ModeRun
import Verif.Props.Move
/-
Property C104: the mode and the environment show only where a text asks for them.
-/
namespace Stuart
open Spec

/-- C104. If `$env` is nowhere in the texts of the content, then `build` does the same whatever the environment variables
are: the same disk afterwards, and the same result, be it an error. The functions of plugins must not look at the variable
themselves, and the scripts must not write it into the content. -/
theorem C104_build (M : Machine) (L : Loader) (hL : LoaderBlind L) (cwd : Path) (out : Str) (vars : List (Str × Str)) (s : Host)
    (hM : ScriptsDeaf M (cwd ++ [str!"content"])) (hd : ProperDisk s.world.disk) (hn : NoEnv s.world.disk (cwd ++ [str!"content"])) :
    (cmdBuild (withVars M vars) L cwd str!"stuart.toml" out s).1.world = (cmdBuild M L cwd str!"stuart.toml" out s).1.world ∧
    (cmdBuild (withVars M vars) L cwd str!"stuart.toml" out s).2 = (cmdBuild M L cwd str!"stuart.toml" out s).2 := by
  unfold cmdBuild
  rcases start_mode (m := str!"production") (m' := str!"production") hL vars (out := out) hM hd hn with ⟨c, h1, h2, h3, h4⟩ | ⟨r, h0, h1, h2⟩
  · have h5 : c.inMode str!"production" = c := by
      rw [h1] at h2
      exact (Res.ok.inj (Prod.mk.inj h2).2).symm
    rw [h5] at h3 h4
    rw [h1]
    exact ⟨h3.world, h4⟩
  · rw [h1]
    cases r with
    | ok c => exact absurd rfl (h0 c)
    | err e => exact ⟨rfl, rfl⟩
    | panic e => exact ⟨rfl, rfl⟩

/-- C104. Nor does the mode show: under the same conditions one build of a benchmark leaves what `build` leaves, in
whatever environments the two are run. -/
theorem C104_bench (M : Machine) (L : Loader) (hL : LoaderBlind L) (cwd : Path) (vars : List (Str × Str)) (s : Host)
    (hM : ScriptsDeaf M (cwd ++ [str!"content"])) (hd : ProperDisk s.world.disk) (hn : NoEnv s.world.disk (cwd ++ [str!"content"])) :
    (cmdBench (withVars M vars) L cwd str!"1" s).1.world = (cmdBuild M L cwd str!"stuart.toml" str!"dist" s).1.world ∧
    (cmdBench (withVars M vars) L cwd str!"1" s).2 = (cmdBuild M L cwd str!"stuart.toml" str!"dist" s).2 := by
  unfold cmdBuild cmdBench
  rcases start_mode (m := str!"production") (m' := str!"benchmark") hL vars (out := str!"dist") hM hd hn with ⟨c, h1, h2, h3, h4⟩ | ⟨r, h0, h1, h2⟩
  · rw [h2, h1]
    have h5 : parseUsize str!"1" = some 1 := by decide
    simp only [h5, benchLoop]
    generalize Context.build (withVars M vars) (c.inMode str!"benchmark") s = x at h3 h4 ⊢
    obtain ⟨c', s', r⟩ := x
    cases r with
    | ok u => exact ⟨h3.world, h4⟩
    | err e => exact ⟨h3.world, h4⟩
    | panic e => exact ⟨h3.world, h4⟩
  · rw [h1, h2]
    cases r with
    | ok c => exact absurd rfl (h0 c)
    | err e => exact ⟨rfl, rfl⟩
    | panic e => exact ⟨rfl, rfl⟩

/-- C104. And so does the first build of the development server. -/
theorem C104_dev (M : Machine) (L : Loader) (hL : LoaderBlind L) (cwd : Path) (out : Str) (vars : List (Str × Str)) (s : Host)
    (hM : ScriptsDeaf M (cwd ++ [str!"content"])) (hd : ProperDisk s.world.disk) (hn : NoEnv s.world.disk (cwd ++ [str!"content"])) :
    (startDev (withVars M vars) L cwd str!"stuart.toml" out s).1.world = (cmdBuild M L cwd str!"stuart.toml" out s).1.world := by
  unfold cmdBuild startDev
  cases hc : canonicalize s.world.disk cwd str!"stuart.toml" with
  | none =>
    unfold Context.init
    rw [hc]
  | some p =>
    cases p with
    | nil => exact absurd (canonicalize_plain plainManifest hc) (by simp)
    | cons x path =>
      simp only
      rcases start_mode (m := str!"production") (m' := str!"development") hL vars (out := out) hM hd hn with ⟨c, h1, h2, h3, h4⟩ | ⟨r, h0, h1, h2⟩
      · rw [h2, h1]
        simp only
        generalize Context.build (withVars M vars) (c.inMode str!"development") s = x at h3 h4 ⊢
        obtain ⟨c', s', r⟩ := x
        cases r with
        | ok u => exact h3.world
        | err e => exact h3.world
        | panic e => exact h3.world
      · rw [h1, h2]
        cases r with
        | ok c => exact absurd rfl (h0 c)
        | err e => rfl
        | panic e => rfl

/-- C104. Plugins without functions are no matter, nor are functions that make nothing of the variables. -/
theorem C104_plugins (plugins : List Plugin)
    (h : ∀ p ∈ plugins, ∀ f ∈ p.fns.functions, ∀ raw g, f.parse raw = .ok g → ∃ r, ∀ vs, g.exec vs = r) : AllBlind plugins := by
  intro p hp f hf raw g hg vs vs' _
  obtain ⟨r, hr⟩ := h p hp f hf raw g hg
  rw [hr, hr]

/-! ### Examples -/

/-- A project with a page. -/
def modeDisk (page : Str) : Entry := .dir [(str!"p", .dir [(str!"stuart.toml", .file []),
  (str!"content", .dir [(str!"root.html", .file (bytesOf str!"<{{ insert(\"a\") }}>")), (str!"x.html", .file (bytesOf page))])])]

/-- A way to see that there is no `$env`. -/
def textsFree : Entry → Bool
  | .file b => match fromUtf8 b with
    | some t => !decide (str!"$env" <:+: t)
    | none => true
  | _ => true

theorem noEnv_flat {d : Entry} {content : Path} {l : List (Str × Entry)} (h : d.at content = some (.dir l))
    (hl : ∀ e ∈ l, (∀ l', e.2 ≠ .dir l') ∧ textsFree e.2 = true) : NoEnv d content := by
  intro ds name b text hb _ ht
  have hmem : ∀ n e, findEntry n l = some e → ∃ x ∈ l, x.2 = e := by
    intro n e he
    clear h hl
    induction l with
    | nil => cases he
    | cons x l ih =>
      rw [findEntry] at he
      split at he
      · cases he
        exact ⟨_, .head _, rfl⟩
      · obtain ⟨y, hy, k⟩ := ih he
        exact ⟨y, .tail _ hy, k⟩
  unfold look at hb
  rw [List.append_assoc, at_append, h] at hb
  cases ds with
  | nil =>
    simp only [Option.bind_some, List.nil_append, Entry.at] at hb
    cases hf : findEntry name l with
    | none => simp [hf] at hb
    | some e =>
      obtain ⟨x, hx, hxe⟩ := hmem name e hf
      have := (hl x hx).2
      rw [hxe] at this
      cases e with
      | file b' =>
        simp only [hf, Option.map_some, kind, Option.some.injEq, Kind.file.injEq] at hb
        subst hb
        simpa [textsFree, ht] using this
      | dir l' => simp [hf, kind] at hb
      | special => simp [hf, kind] at hb
  | cons c cs =>
    simp only [Option.bind_some, List.cons_append, Entry.at] at hb
    cases hf : findEntry c l with
    | none => simp [hf] at hb
    | some e =>
      obtain ⟨x, hx, hxe⟩ := hmem c e hf
      have := (hl x hx).1
      rw [hxe] at this
      cases e with
      | file b' => cases cs <;> simp [hf, Entry.at] at hb
      | dir l' => exact absurd rfl (this l')
      | special => cases cs <;> simp [hf, Entry.at] at hb

theorem emptyLoader_blind : LoaderBlind emptyLoader :=
  ⟨fun _ _ _ => rfl, fun _ _ _ _ h p hp => (by cases h; cases hp)⟩

theorem idle_deaf (content : Path) : ScriptsDeaf idleMachine content :=
  ⟨fun _ _ _ _ _ _ => rfl, fun _ _ _ _ h => h, fun _ _ _ _ h => h⟩

theorem modeDisk_noEnv : NoEnv (modeDisk str!"{{ begin(\"a\") }}A{{ end(\"a\") }}") [str!"p", str!"content"] :=
  noEnv_flat rfl (by
    intro e he
    simp only [List.mem_cons, List.not_mem_nil, or_false] at he
    rcases he with h | h <;> subst h <;> exact ⟨nofun, by decide +kernel⟩)

example (vars : List (Str × Str)) := C104_build idleMachine emptyLoader emptyLoader_blind [str!"p"] str!"dist" vars
  ⟨⟨modeDisk str!"{{ begin(\"a\") }}A{{ end(\"a\") }}", []⟩, []⟩ (idle_deaf _) (by unfold modeDisk; proper_disk) modeDisk_noEnv
example (vars : List (Str × Str)) := C104_bench idleMachine emptyLoader emptyLoader_blind [str!"p"] vars
  ⟨⟨modeDisk str!"{{ begin(\"a\") }}A{{ end(\"a\") }}", []⟩, []⟩ (idle_deaf _) (by unfold modeDisk; proper_disk) modeDisk_noEnv
example (vars : List (Str × Str)) := C104_dev idleMachine emptyLoader emptyLoader_blind [str!"p"] str!"dist" vars
  ⟨⟨modeDisk str!"{{ begin(\"a\") }}A{{ end(\"a\") }}", []⟩, []⟩ (idle_deaf _) (by unfold modeDisk; proper_disk) modeDisk_noEnv

/-- The page is published, -/
example :
    let r := cmdBench (withVars idleMachine [(str!"A", str!"1")]) emptyLoader [str!"p"] str!"1" ⟨⟨modeDisk str!"{{ begin(\"a\") }}A{{ end(\"a\") }}", []⟩, []⟩
    r.2 = .ok () ∧ look r.1.world.disk [str!"p", str!"dist", str!"x", str!"index.html"] = some (.file (bytesOf str!"<A>")) := by decide +kernel

/-- while a page that asks is different, -/
def askingPage : Str := str!"{{ begin(\"a\") }}{{ $env.STUART_ENV }}{{ end(\"a\") }}"

example :
    look (cmdBuild idleMachine emptyLoader [str!"p"] str!"stuart.toml" str!"dist" ⟨⟨modeDisk askingPage, []⟩, []⟩).1.world.disk
      [str!"p", str!"dist", str!"x", str!"index.html"] = some (.file (bytesOf str!"<production>")) ∧
    look (cmdBench idleMachine emptyLoader [str!"p"] str!"1" ⟨⟨modeDisk askingPage, []⟩, []⟩).1.world.disk
      [str!"p", str!"dist", str!"x", str!"index.html"] = some (.file (bytesOf str!"<benchmark>")) := by decide +kernel

/-- and one that asks for a variable that need not be there may fail. -/
def hopefulPage : Str := str!"{{ begin(\"a\") }}{{ $env.X }}{{ end(\"a\") }}"

example :
    let s : Host := ⟨⟨modeDisk hopefulPage, []⟩, []⟩
    (cmdBuild (withVars idleMachine [(str!"X", str!"1")]) emptyLoader [str!"p"] str!"stuart.toml" str!"dist" s).2 = .ok () ∧
    (cmdBuild idleMachine emptyLoader [str!"p"] str!"stuart.toml" str!"dist" s).2 ≠ .ok () := by decide +kernel

example := C104_plugins [⟨⟨str!"p", [⟨str!"f", fun _ => .ok ⟨str!"f", fun _ => .ok ([], [])⟩⟩]⟩, []⟩] (by
  intro p hp f hf raw g hg
  cases List.mem_singleton.1 hp
  cases List.mem_singleton.1 hf
  cases hg
  exact ⟨_, fun _ => rfl⟩)

end Stuart
