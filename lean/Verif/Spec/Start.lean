import Verif.Spec.Disk
import Verif.Model.Cli
/-
Starting the program, said without the code: where a path given on the command line leads, and how a start can end.
-/
namespace Stuart.Spec

/-- One piece of a path, taken at a directory: nothing and `.` stay, `..` goes up, a name goes down. -/
inductive Takes (q : Path) : Str → Path → Prop
  | nothing : Takes q [] q
  | dot : Takes q str!"." q
  | up : Takes q str!".." q.dropLast
  | down {n : Str} : n ≠ [] → n ≠ str!"." → n ≠ str!".." → Takes q n (q ++ [n])

/-- From a directory, this text leads to this place on the disk. Every place passed through is a directory that is there,
and so is what the text leads to there. -/
inductive Way (d : Entry) : Path → Str → Path → Prop
  | last {q p : Path} {n : Str} : '/' ∉ n → look d q = some .dir → Takes q n p → look d p ≠ none → Way d q n p
  | more {q q' p : Path} {n s : Str} : '/' ∉ n → look d q = some .dir → Takes q n q' → Way d q' s p → Way d q (n ++ '/' :: s) p

/-- In this working directory, this text names this place: from the root if it begins with a slash; no text names none. -/
def Names (d : Entry) (cwd : Path) (s : Str) (p : Path) : Prop :=
  (∃ r, s = '/' :: r ∧ Way d [] r p) ∨ (s ≠ [] ∧ (∀ r, s ≠ '/' :: r) ∧ Way d cwd s p)

/-- From a directory, this text leads there, whether anything is there or not. -/
inductive Leads : Path → Str → Path → Prop
  | last {q p : Path} {n : Str} : '/' ∉ n → Takes q n p → Leads q n p
  | more {q q' p : Path} {n s : Str} : '/' ∉ n → Takes q n q' → Leads q' s p → Leads q (n ++ '/' :: s) p

/-- Used as a path in this working directory, this text means this place. -/
def Locates (cwd : Path) (s : Str) (p : Path) : Prop :=
  (∃ r, s = '/' :: r ∧ Leads [] r p) ∨ ((∀ r, s ≠ '/' :: r) ∧ Leads cwd s p)

/-- These are the scripts with these two names in the `scripts` directory of a project: the files of those names, each
once. -/
def ScriptsAre (d : Entry) (dir : Path) (a b : Str) (l : List Path) : Prop :=
  l.Nodup ∧ ∀ q, q ∈ l ↔ (q = dir ++ [str!"scripts", a] ∨ q = dir ++ [str!"scripts", b]) ∧ ∃ t, look d q = some (.file t)

/-- What the program starts to work on when all is well, given the place of the manifest, what the manifest says, the
plugins and the disk. -/
structure WorksOn (p : Path) (raw : RawConfig) (plugins : List Plugin) (output mode : Str) (d : Entry) (c : Context) : Prop where
  dir : c.dir = p.dropLast
  output : c.output = output
  mode : c.mode = mode
  content : c.stuart.dir = c.dir ++ [str!"content"]
  unbuilt : c.stuart.input = none ∧ c.stuart.output = none
  config : c.stuart.config = raw.toConfig
  plugins : c.stuart.plugins = plugins
  pre : ProperDisk d → ScriptsAre d c.dir str!"onPreBuild.sh" str!"onPreBuild" c.pre
  post : ProperDisk d → ScriptsAre d c.dir str!"onPostBuild.sh" str!"onPostBuild" c.post

/-- How a start ends: the state left behind, and the error or what the program works on. Lines and columns, which the
TOML library counts from zero, are reported counted from one. -/
inductive Start (L : Loader) (cwd : Path) (manifest output mode : Str) (s : Host) : Host × Res CliErr Context → Prop
  | nowhere : (∀ p, ¬ Names s.world.disk cwd manifest p) → Start L cwd manifest output mode s (s, .err .invalidManifestPath)
  | notText {p : Path} : Names s.world.disk cwd manifest p → (∀ t, look s.world.disk p ≠ some (.file (bytesOf t))) →
      Start L cwd manifest output mode s (s, .err .manifestUnreadable)
  | wrongAt {p : Path} {t msg : Str} {line col : Nat} : Names s.world.disk cwd manifest p →
      look s.world.disk p = some (.file (bytesOf t)) → L.parseToml t = .error ⟨some (line, col), msg⟩ →
      Start L cwd manifest output mode s (s, .err (.manifestAt p (line + 1) (col + 1) msg))
  | wrong {p : Path} {t msg : Str} : Names s.world.disk cwd manifest p →
      look s.world.disk p = some (.file (bytesOf t)) → L.parseToml t = .error ⟨none, msg⟩ →
      Start L cwd manifest output mode s (s, .err (.manifestInvalid msg))
  | noPlugins {p : Path} {t : Str} {raw : RawConfig} {s' : Host} {e : CliErr} : Names s.world.disk cwd manifest p →
      look s.world.disk p = some (.file (bytesOf t)) → L.parseToml t = .ok raw →
      L.loadPlugins raw.dependencies p.dropLast s = (s', .err e) → Start L cwd manifest output mode s (s', .err e)
  | crash {p : Path} {t : Str} {raw : RawConfig} {s' : Host} {e : Panic} : Names s.world.disk cwd manifest p →
      look s.world.disk p = some (.file (bytesOf t)) → L.parseToml t = .ok raw →
      L.loadPlugins raw.dependencies p.dropLast s = (s', .panic e) → Start L cwd manifest output mode s (s', .panic e)
  | well {p : Path} {t : Str} {raw : RawConfig} {s' : Host} {plugins : List Plugin} {c : Context} :
      Names s.world.disk cwd manifest p → look s.world.disk p = some (.file (bytesOf t)) → L.parseToml t = .ok raw →
      L.loadPlugins raw.dependencies p.dropLast s = (s', .ok plugins) →
      WorksOn p raw plugins output mode s'.world.disk c → Start L cwd manifest output mode s (s', .ok c)

end Stuart.Spec
