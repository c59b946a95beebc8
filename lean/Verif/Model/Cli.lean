import Verif.Model.Fs
/-
The command line program's build: stuart/src/build.rs, scripts.rs, config/mod.rs, main.rs (`build`, `bench`, `clean`).
What is written to the terminal is in Model/Terminal.lean.
-/
namespace Stuart

/-- `std::process::Output` of a script: the exit code (none when killed by a signal) and what it printed. -/
structure ShellOut where
  code : Option Int
  stdout : Bytes
  stderr : Bytes

/-- The errors the command line program reports (`Box<dyn StuartError>`). -/
inductive CliErr where
  | core (e : SErr)
  /-- scripts.rs:38 `CouldNotExecute` -/
  | couldNotExecute (script : Str)
  /-- scripts.rs:40 `ScriptFailure` -/
  | scriptFailure (script : Str) (code : Int) (stdout stderr : Str)
  /-- build.rs:49 -/
  | invalidManifestPath
  /-- build.rs:52 -/
  | manifestUnreadable
  /-- build.rs:58-63 -/
  | manifestAt (path : Path) (line column : Nat) (msg : Str)
  /-- build.rs:64 -/
  | manifestInvalid (msg : Str)
  /-- plugins/mod.rs:107 "Plugins failed to load" -/
  | pluginsFailed
  /-- main.rs:162 -/
  | invalidIterations
  /-- main.rs:205 -/
  | notAProject
  /-- main.rs:209, 213, 217 -/
  | cleanFailed (path : Path)

/-- One run of a script: which, with which extra environment variables, and the disk it found. -/
structure Run where
  script : Path
  env : List (Str × Str)
  before : Entry

/-- What the program acts on: the file system with the mishaps to come, and the scripts run so far. -/
structure Host where
  world : World
  runs : List Run := []

/-- Everything outside the program. -/
structure Machine where
  sys : Sys
  /-- `Command::new("sh").arg(script).envs(env).output()`, the n-th time a script is run: what becomes of the disk, and
  the output unless `sh` could not be started. -/
  shell : Nat → Path → List (Str × Str) → Entry → Entry × Option ShellOut
  /-- `String::from_utf8_lossy` -/
  lossy : Bytes → Str

/-- scripts.rs:89-137 `execute` (the part for systems other than Windows). -/
def runScripts (M : Machine) (env : List (Str × Str)) : List Path → Host → Host × Res CliErr Unit
  | [], s => (s, .ok ())
  | p :: ps, s =>
    let r := M.shell s.runs.length p env s.world.disk
    let s' : Host := ⟨⟨r.1, s.world.faults⟩, s.runs ++ [⟨p, env, s.world.disk⟩]⟩
    match r.2 with
    | none => (s', .err (.couldNotExecute (p.getLast?.getD [])))
    | some o =>
      if o.code = some 0 then runScripts M env ps s'
      else (s', .err (.scriptFailure (p.getLast?.getD []) (o.code.getD (-1)) (trim (M.lossy o.stdout)) (trim (M.lossy o.stderr))))

/-- scripts.rs:21-22 -/
def preNames : List Str := [str!"onPreBuild.sh", str!"onPreBuild"]
/-- scripts.rs:23-24 -/
def postNames : List Str := [str!"onPostBuild.sh", str!"onPostBuild"]

/-- scripts.rs:56-81 `from_directory`: the files with these names, in directory order. -/
def findScripts (names : List Str) (disk : Entry) (dir : Path) : List Path :=
  match disk.at dir with
  | some (.dir l) => l.filterMap fun e => match e.2 with
    | .file _ => if names.contains e.1 then some (dir ++ [e.1]) else none
    | _ => none
  | _ => []

/-- build.rs:26-37 `StuartContext` with scripts.rs:28-35 `Scripts`. -/
structure Context where
  stuart : Project
  pre : List Path
  post : List Path
  env : List (Str × Str)
  mode : Str
  dir : Path
  output : Str

/-- build.rs:146-153: merge the static and temporary files, if there are any. -/
def mergeDirs (M : Machine) (disk : Entry) (dir : Path) : List Str → Project → Project × Res CliErr Unit
  | [], s => (s, .ok ())
  | n :: ns, s =>
    if disk.existsAt (dir ++ [n]) then
      match readTree M.sys false [] disk (dir ++ [n]) with
      | .err e => (s, .err (.core e))
      | .panic p => (s, .panic p)
      | .ok node =>
        match s.mergeOutput node with
        | (s', .ok ()) => mergeDirs M disk dir ns s'
        | (s', .err e) => (s', .err (.core e))
        | (s', .panic p) => (s', .panic p)
    else mergeDirs M disk dir ns s

/-- build.rs:169-174: export the metadata, if enabled. -/
def exportMeta (M : Machine) (c : Context) (w : World) : World × Res CliErr Unit :=
  if c.stuart.config.saveMetadata then
    let r := c.stuart.saveMetadata M.sys (c.dir ++ [str!"metadata.json"]) w
    (r.1, r.2.mapErr .core)
  else (w, .ok ())

/-- build.rs:139-167 after the content has been built: merge, remove the temporary directory whether or not that works,
save, export. -/
def Context.publish (M : Machine) (c : Context) (s : Host) : Context × Host × Res CliErr Unit :=
  let m := mergeDirs M s.world.disk c.dir [str!"static", str!"temp"] c.stuart
  let c := { c with stuart := m.1 }
  match m.2 with
  | .err e => (c, s, .err e)
  | .panic p => (c, s, .panic p)
  | .ok () =>
    let w := (s.world.step (.clear (c.dir ++ [str!"temp"]))).1
    let sv := c.stuart.save (joinPath c.dir c.output) w
    match sv.2 with
    | .err e => (c, { s with world := sv.1 }, .err (.core e))
    | .panic p => (c, { s with world := sv.1 }, .panic p)
    | .ok () =>
      let x := exportMeta M c sv.1
      (c, { s with world := x.1 }, x.2)

/-- build.rs:124-191 `StuartContext::build` -/
def Context.build (M : Machine) (c : Context) (s : Host) : Context × Host × Res CliErr Unit :=
  match runScripts M c.env c.pre s with
  | (s1, .err e) => (c, s1, .err e)
  | (s1, .panic p) => (c, s1, .panic p)
  | (s1, .ok ()) =>
    let b := c.stuart.build M.sys s1.world.disk c.mode
    let c := { c with stuart := b.1 }
    match b.2 with
    | .err e => (c, s1, .err (.core e))
    | .panic p => (c, s1, .panic p)
    | .ok () =>
      match c.publish M s1 with
      | (c, s2, .err e) => (c, s2, .err e)
      | (c, s2, .panic p) => (c, s2, .panic p)
      | (c, s2, .ok ()) =>
        let r := runScripts M c.env c.post s2
        (c, r.1, r.2)

/-! ### Starting up -/

/-- config/mod.rs:32-39 `Settings` -/
structure Settings where
  stripExtensions : Option Bool
  saveDataFiles : Option Bool
  saveMetadata : Option Bool

/-- config/mod.rs:12-29 `RawConfig`, `Site`. The table of dependencies is a hash map: its order is arbitrary. -/
structure RawConfig where
  name : Str
  author : Option Str
  settings : Option Settings
  dependencies : Option (List (Str × Str))

/-- config/mod.rs:46-71 -/
def RawConfig.toConfig (raw : RawConfig) : Config :=
  let default := Config.default
  { name := raw.name
    author := raw.author
    stripExtensions := (raw.settings.bind fun s => s.stripExtensions).getD default.stripExtensions
    saveDataFiles := (raw.settings.bind fun s => s.saveDataFiles).getD default.saveDataFiles
    saveMetadata := (raw.settings.bind fun s => s.saveMetadata).getD default.saveMetadata }

/-- `toml::de::Error`: where, if known, and what. -/
structure TomlErr where
  pos : Option (Nat × Nat)
  msg : Str

/-- What starting up needs of the outside: `toml::from_str`, and the plugin loader (modelled on its own), which may
change the disk. -/
structure Loader where
  parseToml : Str → Except TomlErr RawConfig
  loadPlugins : Option (List (Str × Str)) → Path → Host → Host × Res CliErr (List Plugin)

/-- The path of a directory as a string. -/
def dirStr (p : Path) : Str := if p = [] then str!"/" else pathStr p

/-- `Path::join` as a string. -/
def joinStr (p : Path) (s : Str) : Str :=
  match s with
  | '/' :: _ => s
  | _ => pathStr p ++ '/' :: s

/-- The way the operating system takes from a directory along the pieces of a path. -/
def walkPath (disk : Entry) : Path → List Str → Option Path
  | q, [] => if disk.existsAt q then some q else none
  | q, x :: xs =>
    if disk.isDirAt q then
      walkPath disk (if x = [] || x = str!"." then q else if x = str!".." then q.dropLast else q ++ [x]) xs
    else none

/-- `Path::canonicalize` (realpath(3)), used at build.rs:46-49: unlike `joinPath`, every directory on the way has to
exist. There are no symbolic links in the model. -/
def canonicalize (disk : Entry) (cwd : Path) (s : Str) : Option Path :=
  match s with
  | [] => none
  | '/' :: rest => walkPath disk [] (splitOn '/' rest)
  | _ => walkPath disk cwd (splitOn '/' s)

/-- build.rs:41-121 `StuartContext::init`. Paths that are not valid Unicode are not modelled. -/
def Context.init (L : Loader) (cwd : Path) (manifest output mode : Str) (s : Host) : Host × Res CliErr Context :=
  match canonicalize s.world.disk cwd manifest with
  | none => (s, .err .invalidManifestPath)
  | some path =>
    match s.world.disk.at path with
    | some (.file b) =>
      match fromUtf8 b with
      | none => (s, .err .manifestUnreadable)
      | some text =>
        match L.parseToml text with
        | .error e =>
          match e.pos with
          | some (line, col) => (s, .err (.manifestAt path (line + 1) (col + 1) e.msg))
          | none => (s, .err (.manifestInvalid e.msg))
        | .ok raw =>
          let dir := path.dropLast
          match L.loadPlugins raw.dependencies dir s with
          | (s, .err e) => (s, .err e)
          | (s, .panic p) => (s, .panic p)
          | (s, .ok plugins) =>
            (s, .ok {
              stuart := { dir := dir ++ [str!"content"], config := raw.toConfig, plugins := plugins }
              pre := findScripts preNames s.world.disk (dir ++ [str!"scripts"])
              post := findScripts postNames s.world.disk (dir ++ [str!"scripts"])
              env := [(str!"STUART_MANIFEST_PATH", pathStr path), (str!"STUART_MANIFEST_DIR", dirStr dir),
                (str!"STUART_TEMP_DIR", pathStr (dir ++ [str!"temp"])), (str!"STUART_OUT_DIR", joinStr dir output),
                (str!"STUART_ENV", mode)]
              mode := mode
              dir := dir
              output := output })
    | _ => (s, .err .manifestUnreadable)

/-! ### Commands -/

/-- main.rs:145-152 `build` -/
def cmdBuild (M : Machine) (L : Loader) (cwd : Path) (manifest output : Str) (s : Host) : Host × Res CliErr Unit :=
  match Context.init L cwd manifest output str!"production" s with
  | (s, .err e) => (s, .err e)
  | (s, .panic p) => (s, .panic p)
  | (s, .ok c) => ((c.build M s).2.1, (c.build M s).2.2)

/-- main.rs:174-183: the builds of a benchmark. -/
def benchLoop (M : Machine) : Nat → Context → Host → Host × Res CliErr Unit
  | 0, _, s => (s, .ok ())
  | n + 1, c, s =>
    match c.build M s with
    | (c, s, .ok ()) => benchLoop M n c s
    | (_, s, r) => (s, r)

/-- main.rs:155-200 `bench`; the number of iterations is parsed after the initialisation. -/
def cmdBench (M : Machine) (L : Loader) (cwd : Path) (iterations : Str) (s : Host) : Host × Res CliErr Unit :=
  match Context.init L cwd str!"stuart.toml" str!"dist" str!"benchmark" s with
  | (s, .err e) => (s, .err e)
  | (s, .panic p) => (s, .panic p)
  | (s, .ok c) =>
    match parseUsize iterations with
    | none => (s, .err .invalidIterations)
    | some n => benchLoop M n c s

/-- main.rs:208-214: `if exists { remove_dir_all? }`; on a file `remove_dir_all` fails. -/
def removeDir (p : Path) (w : World) : World × Res CliErr Unit :=
  if w.disk.existsAt p then
    if w.disk.isDirAt p then
      let r := w.step (.clear p)
      (r.1, if r.2 then .ok () else .err (.cleanFailed p))
    else (w, .err (.cleanFailed p))
  else (w, .ok ())

/-- main.rs:216-218 -/
def removeFile (p : Path) (w : World) : World × Res CliErr Unit :=
  if w.disk.existsAt p then
    let r := w.step (.removeFile p)
    (r.1, if r.2 then .ok () else .err (.cleanFailed p))
  else (w, .ok ())

/-- main.rs:203-221 `clean` -/
def cmdClean (cwd : Path) (w : World) : World × Res CliErr Unit :=
  if !w.disk.existsAt (cwd ++ [str!"stuart.toml"]) then (w, .err .notAProject)
  else
    match removeDir (cwd ++ [str!"dist"]) w with
    | (w, .ok ()) =>
      match removeDir (cwd ++ [str!"_build"]) w with
      | (w, .ok ()) => removeFile (cwd ++ [str!"metadata.json"]) w
      | r => r
    | r => r

end Stuart
