import Verif.Proof.Steps
import Verif.Proof.Start
import Verif.Props.Output
/-
Properties C44 and C51: failing builds, and scripts.
-/
namespace Stuart
open Spec

variable (M : Machine) (c : Context) (s : Host)

/-! ### C44 -/

/-- The build fails before anything is written: a pre-build script fails; or the content cannot be read, parsed or
rendered; or the static or temporary files cannot be read or merged. All that is left out are failures to write,
failures of post-build scripts, and the panic while exporting metadata. -/
inductive FailsEarly : Prop
  | script (e : CliErr) (h : (runScripts M c.env c.pre s).2 = .err e)
  | error (e : SErr) (h : (c.build M s).2.2 = .err (.core e)) (he : e ≠ .fs .write)
  | panic (p : Panic) (h : (c.build M s).2.2 = .panic p) (hp : p ≠ .metadataNotObject)

/-- C44. A build that fails early leaves everything as the pre-build scripts left it. -/
theorem C44_untouched (h : FailsEarly M c s) : (c.build M s).2.1 = (runScripts M c.env c.pre s).1 := by
  cases hr : runScripts M c.env c.pre s with
  | mk s1 r =>
    cases r with
    | err e => rw [Context.build_pre (by rw [hr]; nofun), hr]
    | panic e => rw [Context.build_pre (by rw [hr]; nofun), hr]
    | ok u =>
      have key : ((c.build M s).2.1 = s1) ∨ ((∀ e, (c.build M s).2.2 = .err (.core e) → e = .fs .write) ∧
          ∀ p, (c.build M s).2.2 = .panic p → p = .metadataNotObject) := by
        rw [Context.build_mid hr]
        cases hb : readBuild M.sys s1.world.disk c.mode c.stuart with
        | err e => exact .inl rfl
        | panic e => exact .inl rfl
        | ok out =>
          have hd : HasDir (c.built M s1.world.disk).stuart := by
            obtain ⟨nm, cs, src, rfl⟩ := readBuild_dir hb
            exact ⟨nm, cs, src, (Context.built_output hb).1⟩
          have hc := Context.publish_cases (M := M) (s := s1) hd
          simp only
          generalize (c.built M s1.world.disk).publish M s1 = r at hc
          obtain ⟨c2, s2, r⟩ := r
          simp only at hc
          cases r with
          | err e =>
            rcases hc with hc | ⟨_, hc | hc | hc⟩
            · exact .inl hc.1
            · cases hc
            · cases hc
              refine .inr ⟨fun e k => ?_, fun p k => by cases k⟩
              cases k; rfl
            · cases hc
          | panic e =>
            rcases hc with hc | ⟨_, hc | hc | hc⟩
            · exact .inl hc.1
            · cases hc
            · cases hc
            · cases hc
              refine .inr ⟨fun e k => (by cases k), fun p k => ?_⟩
              cases k; rfl
          | ok u =>
            right
            simp only
            constructor
            · intro e k
              obtain ⟨_, p, _, _, _, _, _, hk⟩ := runScripts_err (s' := (runScripts M c2.env c2.post s2).1) (e := .core e) (by rw [← k])
              rcases hk with ⟨_, hk⟩ | ⟨_, _, _, hk⟩ <;> cases hk
            · intro p k
              exact absurd k runScripts_no_panic
      rcases key with k | ⟨k1, k2⟩
      · exact k
      · cases h with
        | script e h => rw [hr] at h; cases h
        | error e h he => exact absurd (k1 e h) he
        | panic p h hp => exact absurd (k2 p h) hp

/-- C44. So whatever place the scripts leave alone - the output directory, the metadata - is as before the build. -/
theorem C44_kept (h : FailsEarly M c s) (q : Path) (hq : Leaves M q) :
    look (c.build M s).2.1.world.disk q = look s.world.disk q := by
  rw [C44_untouched M c s h, runScripts_leaves hq]

/-- A machine whose scripts do nothing, successfully. -/
def idleMachine : Machine where
  sys := demoSys
  shell _ _ _ d := (d, some ⟨some 0, [], []⟩)
  lossy _ := []

/-- A project in `/p` with this content, static files and old output. -/
def demoContext : Context where
  stuart := { dir := [str!"p", str!"content"] }
  pre := []
  post := []
  env := []
  mode := str!"production"
  dir := [str!"p"]
  output := str!"dist"

/-- A static file that clashes with a page: the build fails and the old site stays. -/
example :
    let disk := Entry.dir [(str!"p", .dir [
      (str!"content", .dir [(str!"a.txt", .file [1])]),
      (str!"static", .dir [(str!"a.txt", .file [2])]),
      (str!"dist", .dir [(str!"old", .file [3])])])]
    FailsEarly idleMachine demoContext ⟨⟨disk, []⟩, []⟩ ∧
      look (demoContext.build idleMachine ⟨⟨disk, []⟩, []⟩).2.1.world.disk [str!"p", str!"dist", str!"old"] = some (.file [3]) :=
  ⟨.error (.fs (.conflict str!"/p/content/a.txt" str!"/p/static/a.txt")) rfl (by nofun), rfl⟩

example (q : Path) : Leaves idleMachine q := fun _ _ _ _ => rfl

/-! ### C51 -/

/-- C51. The pre-build scripts are the files `onPreBuild` and `onPreBuild.sh` of the scripts directory, the post-build
scripts `onPostBuild` and `onPostBuild.sh`; each is there once. -/
theorem C51_found (names : List Str) (disk : Entry) (dir : Path) (hd : ProperDisk disk) :
    (∀ p, p ∈ findScripts names disk dir ↔ ∃ n b, n ∈ names ∧ p = dir ++ [n] ∧ look disk p = some (.file b)) ∧
    (findScripts names disk dir).Nodup := by
  constructor
  · intro p
    rw [mem_findScripts]
    constructor
    · rintro ⟨l, n, b, h1, h2, h3, rfl⟩
      refine ⟨n, b, h3, rfl, ?_⟩
      have : disk.at (dir ++ [n]) = some (.file b) := by
        rw [at_append, h1]
        simp only [Option.bind_some, Entry.at, (findEntry_mem (hd _ _ h1).1).2 h2]
      rw [look_of_at this]; rfl
    · rintro ⟨n, b, h1, rfl, h2⟩
      have : look disk dir = some .dir := look_above (r := [n]) (by simp) (by rw [h2]; nofun)
      cases ha : disk.at dir with
      | none => rw [at_none_iff.1 ha] at this; cases this
      | some e =>
        rw [look_of_at ha] at this
        cases e with
        | file _ => cases this
        | special => cases this
        | dir l =>
          refine ⟨l, n, b, rfl, ?_, h1, rfl⟩
          rw [look, at_append, ha] at h2
          simp only [Option.bind_some, Entry.at] at h2
          cases hf : findEntry n l with
          | none => rw [hf] at h2; cases h2
          | some e =>
            rw [hf] at h2
            cases e with
            | file b' => cases h2; exact (findEntry_mem (hd _ _ ha).1).1 hf
            | dir l' => cases h2
            | special => cases h2
  · unfold findScripts
    split
    · rename_i l hl
      have := (hd _ _ hl).1
      clear hl
      induction l with
      | nil => exact List.nodup_nil
      | cons x l ih =>
        obtain ⟨n, e⟩ := x
        simp only [List.map_cons, List.nodup_cons] at this
        rw [List.filterMap_cons]
        have ht := ih this.2
        cases e with
        | dir l' => exact ht
        | special => exact ht
        | file b =>
          simp only
          split
          · exact ht
          · rename_i q hq
            split at hq
            · cases hq
              rw [List.nodup_cons]
              refine ⟨?_, ht⟩
              rw [List.mem_filterMap]
              rintro ⟨⟨n', e'⟩, hm, hk⟩
              cases e' with
              | dir l' => cases hk
              | special => cases hk
              | file b' =>
                simp only at hk
                split at hk
                · simp only [Option.some.injEq, List.append_cancel_left_eq, List.cons.injEq, and_true] at hk
                  subst hk
                  exact this.1 (List.mem_map.2 ⟨_, hm, rfl⟩)
                · cases hk
            · cases hq
    · exact List.nodup_nil

theorem scriptsAre_found {d : Entry} {dir : Path} {a b : Str} (hd : ProperDisk d) :
    ScriptsAre d dir a b (findScripts [a, b] d (dir ++ [str!"scripts"])) := by
  obtain ⟨h1, h2⟩ := C51_found [a, b] d (dir ++ [str!"scripts"]) hd
  refine ⟨h2, fun q => ?_⟩
  rw [h1 q]
  constructor
  · rintro ⟨n, t, hn, rfl, ht⟩
    simp only [List.mem_cons, List.not_mem_nil, or_false] at hn
    exact ⟨by rcases hn with rfl | rfl <;> simp, t, ht⟩
  · rintro ⟨hq | hq, t, ht⟩
    · exact ⟨a, t, by simp, by simp [hq], ht⟩
    · exact ⟨b, t, by simp, by simp [hq], ht⟩

example : preNames = [str!"onPreBuild.sh", str!"onPreBuild"] ∧ postNames = [str!"onPostBuild.sh", str!"onPostBuild"] :=
  ⟨rfl, rfl⟩

/-- C51. In a successful build the pre-build scripts run, in order and each once, then the content is read from the disk
they left; then the site is published; then the post-build scripts run, the first on the disk with the published site;
all with the variables of the context, all exiting with code zero. -/
theorem C51_order (h : (c.build M s).2.2 = .ok ()) :
    ∃ rs1 s1 out s2 rs2,
      s1.runs = s.runs ++ rs1 ∧ rs1.map Run.script = c.pre ∧
      (∀ r, rs1.head? = some r → r.before = s.world.disk) ∧
      readBuild M.sys s1.world.disk c.mode c.stuart = .ok out ∧
      ((c.built M s1.world.disk).publish M s1).2 = (s2, .ok ()) ∧
      (c.build M s).2.1.runs = s.runs ++ rs1 ++ rs2 ∧ rs2.map Run.script = c.post ∧
      (∀ r, rs2.head? = some r → r.before = s2.world.disk) ∧
      (∀ r ∈ rs1 ++ rs2, r.env = c.env) ∧
      ∀ i r, (rs1 ++ rs2)[i]? = some r → ∃ o, (M.shell (s.runs.length + i) r.script r.env r.before).2 = some o ∧ o.code = some 0 := by
  obtain ⟨s1, out, s2, h1, h2, h3, h4⟩ := Context.build_ok h
  obtain ⟨rs1, a1, a2, a3, _, a5, _⟩ := runScripts_ok h1
  obtain ⟨rs2, b1, b2, b3, _, b5, _⟩ := runScripts_ok h4
  have hr : s2.runs = s1.runs := by
    have := (Context.publish_keeps (M := M) (c := c.built M s1.world.disk) (s := s1)).2
    rw [h3] at this; exact this
  refine ⟨rs1, s1, out, s2, rs2, a1, a2, ?_, h2, h3, ?_, b2, ?_, ?_, ?_⟩
  · intro r hr
    have := (a5 0 r (by rw [← hr, List.head?_eq_getElem?])).1
    simpa using this
  · rw [b1, hr, a1]
  · intro r hr
    have := (b5 0 r (by rw [← hr, List.head?_eq_getElem?])).1
    simpa using this
  · intro r hr
    rcases List.mem_append.1 hr with hr | hr
    · exact a3 r hr
    · exact b3 r hr
  · intro i r hi
    by_cases hlt : i < rs1.length
    · rw [List.getElem?_append_left hlt] at hi
      obtain ⟨_, o, k1, k2, _⟩ := a5 i r hi
      rw [a3 r (List.mem_of_getElem? hi)]
      exact ⟨o, k1, k2⟩
    · rw [List.getElem?_append_right (by omega)] at hi
      obtain ⟨_, o, k1, k2, _⟩ := b5 _ r hi
      rw [b3 r (List.mem_of_getElem? hi)]
      refine ⟨o, ?_, k2⟩
      rw [← k1, hr, a1, List.length_append]
      congr 2
      omega

/-- C51. Scripts that do not all succeed: the first that fails is the last that runs, and the error has its name, its
exit code (-1 if it was killed) and what it printed. -/
theorem C51_failure (env : List (Str × Str)) (ps : List Path) (s' : Host) (e : CliErr)
    (h : runScripts M env ps s = (s', .err e)) :
    ∃ ps1 p ps2 rs r, ps = ps1 ++ p :: ps2 ∧ s'.runs = s.runs ++ rs ++ [r] ∧ rs.map Run.script = ps1 ∧ r.script = p ∧
      (∀ x ∈ rs ++ [r], x.env = env) ∧
      (∀ i x, rs[i]? = some x → ∃ o, (M.shell (s.runs.length + i) x.script env x.before).2 = some o ∧ o.code = some 0) ∧
      (((M.shell (s.runs.length + rs.length) p env r.before).2 = none ∧ e = .couldNotExecute (p.getLast?.getD [])) ∨
        ∃ o, (M.shell (s.runs.length + rs.length) p env r.before).2 = some o ∧ o.code ≠ some 0 ∧
          e = .scriptFailure (p.getLast?.getD []) (o.code.getD (-1)) (trim (M.lossy o.stdout)) (trim (M.lossy o.stderr))) := by
  obtain ⟨ps1, p, ps2, s1, h1, h2, h3, h4⟩ := runScripts_err h
  obtain ⟨rs, a1, a2, a3, _, a5, _⟩ := runScripts_ok h2
  have hl : s1.runs.length = s.runs.length + rs.length := by rw [a1, List.length_append]
  refine ⟨ps1, p, ps2, rs, ⟨p, env, s1.world.disk⟩, h1, by rw [h3, a1], a2, rfl, ?_, ?_, ?_⟩
  · intro x hx
    rcases List.mem_append.1 hx with hx | hx
    · exact a3 x hx
    · cases List.mem_singleton.1 hx; rfl
  · intro i x hi
    obtain ⟨_, o, k1, k2, _⟩ := a5 i x hi
    exact ⟨o, k1, k2⟩
  · rw [hl] at h4; exact h4

/-- C51. If a pre-build script fails, that is the error of the build, and nothing else is done. If all goes well up to
the post-build scripts and one of them fails, that is the error of the build. -/
theorem C51_stops :
    (∀ s' e, runScripts M c.env c.pre s = (s', .err e) → c.build M s = (c, s', .err e)) ∧
    (∀ s1 out s2, runScripts M c.env c.pre s = (s1, .ok ()) → readBuild M.sys s1.world.disk c.mode c.stuart = .ok out →
      ((c.built M s1.world.disk).publish M s1).2 = (s2, .ok ()) →
      (c.build M s).2 = runScripts M c.env c.post s2) := by
  constructor
  · intro s' e h
    rw [Context.build_pre (by rw [h]; nofun), h]
  · intro s1 out s2 h1 h2 h3
    have k1 := (Context.publish_keeps (M := M) (c := c.built M s1.world.disk) (s := s1)).1
    rw [Context.build_mid h1, h2]
    simp only
    generalize (c.built M s1.world.disk).publish M s1 = r at h3 k1
    obtain ⟨c2, r⟩ := r
    simp only at h3 k1
    subst h3 k1
    rfl

/-- C51. The scripts and their variables are determined when the program starts (after the plugins are loaded). -/
theorem C51_context (L : Loader) (cwd : Path) (manifest output mode : Str) (s s' : Host) (c : Context)
    (h : Context.init L cwd manifest output mode s = (s', .ok c)) :
    ∃ p, Names s.world.disk cwd manifest p ∧ c.dir = p.dropLast ∧
    (ProperDisk s'.world.disk → ScriptsAre s'.world.disk c.dir str!"onPreBuild.sh" str!"onPreBuild" c.pre ∧
      ScriptsAre s'.world.disk c.dir str!"onPostBuild.sh" str!"onPostBuild" c.post) ∧
    c.env = [(str!"STUART_MANIFEST_PATH", pathStr p), (str!"STUART_MANIFEST_DIR", dirStr c.dir),
      (str!"STUART_TEMP_DIR", pathStr (c.dir ++ [str!"temp"])), (str!"STUART_OUT_DIR", joinStr c.dir output),
      (str!"STUART_ENV", mode)] := by
  obtain ⟨path, b, text, raw, plugins, h1, h2, h3, h4, h5, rfl⟩ := Context.init_ok h
  exact ⟨path, canonicalize_names.1 h1, rfl, fun hd => ⟨scriptsAre_found hd, scriptsAre_found hd⟩, rfl⟩

/-- A machine whose first script adds a file to the content, and whose second fails. -/
def busyMachine : Machine where
  sys := demoSys
  shell n _ _ d := if n = 0 then (d.put [str!"p", str!"content", str!"new"] (some (.file [5])), some ⟨some 0, [], []⟩)
    else (d, some ⟨some 3, [], []⟩)
  lossy _ := str!"oops"

/-- The file added by the pre-build script is published, and the post-build script's failure is reported. -/
example :
    let disk := Entry.dir [(str!"p", .dir [(str!"content", .dir []),
      (str!"scripts", .dir [(str!"onPreBuild", .file []), (str!"other", .file []), (str!"onPostBuild.sh", .file [])])])]
    let dir := [str!"p", str!"scripts"]
    let c := { demoContext with pre := findScripts preNames disk dir, post := findScripts postNames disk dir }
    let r := (c.build busyMachine ⟨⟨disk, []⟩, []⟩).2
    r.1.runs.map Run.script = [[str!"p", str!"scripts", str!"onPreBuild"], [str!"p", str!"scripts", str!"onPostBuild.sh"]] ∧
    r.2 = .err (.scriptFailure str!"onPostBuild.sh" 3 str!"oops" str!"oops") ∧
    look r.1.world.disk [str!"p", str!"dist", str!"new"] = some (.file [5]) := ⟨rfl, rfl, rfl⟩

/-! ### Cases: each theorem applied to something that meets its hypotheses -/

/-- A static file clashes with a page. -/
def clashDisk : Entry := .dir [(str!"p", .dir [(str!"content", .dir [(str!"a.txt", .file [1])]),
  (str!"static", .dir [(str!"a.txt", .file [2])]), (str!"temp", .dir []), (str!"dist", .dir [(str!"old", .file [3])])])]

theorem clash_fails : FailsEarly idleMachine demoContext ⟨⟨clashDisk, []⟩, []⟩ :=
  .error (.fs (.conflict str!"/p/content/a.txt" str!"/p/static/a.txt")) rfl (by nofun)

example := C44_untouched idleMachine demoContext ⟨⟨clashDisk, []⟩, []⟩ clash_fails

example := C44_kept idleMachine demoContext ⟨⟨clashDisk, []⟩, []⟩ clash_fails [str!"p", str!"dist", str!"old"] (fun _ _ _ _ => rfl)

example := C51_found preNames (.dir [(str!"scripts", .dir [(str!"onPreBuild", .file []), (str!"other", .file [])])])
  [str!"scripts"] (by proper_disk)

/-- A project with content, and a context with scripts. -/
def scriptDisk : Entry := .dir [(str!"p", .dir [(str!"content", .dir [(str!"a.txt", .file [1])])])]

def scriptContext : Context := { demoContext with pre := [[str!"x"]], post := [[str!"y"], [str!"z"]] }

/-- All scripts fail. -/
def failingMachine : Machine := { idleMachine with shell := fun _ _ _ d => (d, some ⟨some 1, [], []⟩) }

example := C51_order idleMachine scriptContext ⟨⟨scriptDisk, []⟩, []⟩ rfl

example := C51_failure failingMachine ⟨⟨scriptDisk, []⟩, []⟩ [] [[str!"a"], [str!"b"]] _ _ rfl

/-- A loader for an empty manifest. -/
def emptyLoader : Loader := ⟨fun _ => .ok ⟨[], none, none, none⟩, fun _ _ s => (s, .ok [])⟩

/-- A project with a manifest and a script. -/
def manifestDisk : Entry := .dir [(str!"stuart.toml", .file []), (str!"scripts", .dir [(str!"onPreBuild", .file [])])]

example := C51_context emptyLoader [] str!"stuart.toml" str!"dist" str!"production" ⟨⟨manifestDisk, []⟩, []⟩ _ _ rfl

end Stuart
