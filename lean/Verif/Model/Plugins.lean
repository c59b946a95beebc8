import Verif.Model.Cli
/-
The plugin loader: stuart/src/plugins/mod.rs and source.rs, on systems other than Windows. For what is printed see
`Terminal.lean`.
-/
namespace Stuart

/-- What the loader uses of the outside. Everything may depend on how many such things have happened before (the first
number); programs that are run may change the disk. -/
structure Outside where
  /-- whether the program is compiled with the feature `js` -/
  js : Bool
  /-- config/git.rs:46-52 `git ls-remote` -/
  gitExists : Nat → Str → Bool
  /-- config/git.rs:57-63 `git clone` -/
  gitClone : Nat → Str → Path → Entry → Entry × Bool
  /-- config/git.rs:68-74 `git pull` -/
  gitPull : Nat → Path → Entry → Entry × Bool
  /-- `cargo build --release --manifest-path`; `none` when it cannot be started -/
  cargo : Nat → Path → Entry → Entry × Option ShellOut
  /-- an HTTP request that follows redirects: the status and the body of the response, if there is one -/
  http : Nat → Str → Option (Nat × Bytes)
  /-- `Library::new`, then looking up and calling `_stuart_plugin_init`: whether there is such a library, and whether it
  has the function -/
  openLibrary : Nat → Path → Entry → Option (Option Plugin)
  /-- plugins/js/mod.rs:46-158 `load_js_plugin` -/
  openJs : Nat → Path → Entry → Option Plugin
  /-- `toml::from_str`, then `package.name` as a string -/
  packageName : Str → Option Str

/-- The state of the loader: the file system, and how much has happened. -/
structure LoadSt where
  world : World
  tick : Nat := 0

/-- Why a source did not load. -/
inductive LoadErr where
  | library | script | couldNotExecute | scriptFailure (code : Int) | write | clone | pull | noProject | invalidSource
deriving DecidableEq, Repr

/-- source.rs:72-80 `get_project_name` -/
def projectName (O : Outside) (disk : Entry) (manifest : Path) : Option Str :=
  match disk.at manifest with
  | some (.file b) => (fromUtf8 b).bind O.packageName
  | _ => none

mutual
/-- source.rs:12-31 `find_cargo_project` -/
def findProject (O : Outside) (name : Str) (p : Path) : Entry → Option Path
  | .dir l => findProjectIn O name p l
  | .file _ => none
  | .special => none
/-- source.rs:15-28 -/
def findProjectIn (O : Outside) (name : Str) (p : Path) : List (Str × Entry) → Option Path
  | [] => none
  | (n, .file b) :: l =>
    if n = str!"Cargo.toml" ∧ (fromUtf8 b).bind O.packageName = some name then some p else findProjectIn O name p l
  | (n, .dir es) :: l =>
    match findProject O name (p ++ [n]) (.dir es) with
    | some q => some q
    | none => findProjectIn O name p l
  | (_, .special) :: l => findProjectIn O name p l
end

/-- source.rs:36-69 `build_cargo_project` -/
def buildCargo (O : Outside) (root : Path) (s : LoadSt) : LoadSt × Res LoadErr Path :=
  let manifest := root ++ [str!"Cargo.toml"]
  let r := O.cargo s.tick manifest s.world.disk
  let s : LoadSt := ⟨⟨r.1, s.world.faults⟩, s.tick + 1⟩
  match r.2 with
  | none => (s, .err .couldNotExecute)
  | some o =>
    if o.code = some 0 then
      match projectName O s.world.disk manifest with
      | none => (s, .panic .noProjectName)
      | some n => (s, .ok (joinPath (root ++ [str!"target", str!"release"]) (str!"lib" ++ n ++ str!".so")))
    else (s, .err (.scriptFailure (o.code.getD (-1))))

/-- mod.rs:228-242 `load_binary`: the plugins added. -/
def loadBinary (O : Outside) (path : Path) (s : LoadSt) : LoadSt × Res LoadErr (List Plugin) :=
  let r := O.openLibrary s.tick path s.world.disk
  let s := { s with tick := s.tick + 1 }
  match r with
  | some (some p) => (s, .ok [p])
  | _ => (s, .err .library)

/-- mod.rs:210-221 `DynamicPluginManager::load`: the plugins added. `name` is the file name of the path. -/
def managerLoad (O : Outside) (path : Path) (name : Str) (s : LoadSt) : LoadSt × Res LoadErr (List Plugin) :=
  if extension name = some str!"js" ∨ extension name = some str!"mjs" then
    if O.js then
      let r := O.openJs s.tick path s.world.disk
      let s := { s with tick := s.tick + 1 }
      match r with
      | some p => (s, .ok [p])
      | none => (s, .err .script)
    else (s, .ok [])
  else loadBinary O path s

/-- `src.rsplit('/').next()` -/
def lastPiece (s : Str) : Str := (splitOn '/' s).getLast?.getD []

/-- Whether a path given by this string can be a file: not if it ends in a slash, `.` or `..`. -/
def namesFile (s : Str) : Bool := !([[], str!".", str!".."].contains (lastPiece s))

/-- `create_dir_all` of a path with this part left, the other part being there. -/
def createDirAll (done : Path) : Path → World → World × Bool
  | [], w => (w, true)
  | n :: p, w =>
    if w.disk.isDirAt (done ++ [n]) then createDirAll (done ++ [n]) p w
    else
      let r := w.step (.mkdir (done ++ [n]))
      if r.2 then createDirAll (done ++ [n]) p r.1 else (r.1, false)

/-- Sequencing of steps that may fail. -/
def LoadSt.andThen {α β : Type} (r : LoadSt × Res LoadErr α) (f : α → LoadSt → LoadSt × Res LoadErr β) :
    LoadSt × Res LoadErr β :=
  match r with
  | (s, .ok a) => f a s
  | (s, .err e) => (s, .err e)
  | (s, .panic p) => (s, .panic p)

/-- mod.rs:145-172: fetch a Git repository. -/
def fetchRepo (O : Outside) (root : Path) (name src : Str) (s : LoadSt) : LoadSt × Res LoadErr Unit :=
  let repo := joinPath root (str!"_build/plugins/" ++ name)
  if !s.world.disk.existsAt repo then
    let r := createDirAll [] (root ++ [str!"_build", str!"plugins"]) s.world
    if r.2 then
      let c := O.gitClone s.tick src repo r.1.disk
      (⟨⟨c.1, r.1.faults⟩, s.tick + 1⟩, if c.2 then .ok () else .err .clone)
    else (⟨r.1, s.tick⟩, .err .write)
  else
    let c := O.gitPull s.tick repo s.world.disk
    (⟨⟨c.1, s.world.faults⟩, s.tick + 1⟩, if c.2 then .ok () else .err .pull)

/-- mod.rs:144-180: a Git repository. -/
def loadGit (O : Outside) (root : Path) (name src : Str) (s : LoadSt) : LoadSt × Res LoadErr (List Plugin) :=
  let repo := joinPath root (str!"_build/plugins/" ++ name)
  LoadSt.andThen (fetchRepo O root name src s) fun _ s =>
    match (s.world.disk.at repo).bind (findProject O name repo) with
    | none => (s, .err .noProject)
    | some project => LoadSt.andThen (buildCargo O project s) fun path s => loadBinary O path s

/-- source.rs:83-88 `download_plugin`: the body, whatever the status. -/
def downloadPlugin (O : Outside) (tick : Nat) (url : Str) : Option Bytes := (O.http tick url).map fun r => r.2

/-- mod.rs:186-197: a downloaded file. -/
def loadDownload (O : Outside) (root : Path) (name src : Str) (body : Bytes) (s : LoadSt) :
    LoadSt × Res LoadErr (List Plugin) :=
  let dir := joinPath root (str!"_build/plugins/" ++ name)
  let path := joinPath dir (lastPiece src)
  let made := if s.world.disk.existsAt dir then (s.world, true) else createDirAll [] dir s.world
  if made.2 then
    let w := made.1.step (.write path body)
    if w.2 then managerLoad O path (lastPiece src) ⟨w.1, s.tick⟩ else (⟨w.1, s.tick⟩, .err .write)
  else (⟨made.1, s.tick⟩, .err .write)

/-- mod.rs:121-201 `load_from_source` -/
def loadFromSource (O : Outside) (root : Path) (name src : Str) (s : LoadSt) : LoadSt × Res LoadErr (List Plugin) :=
  let source := joinPath root src
  if namesFile src && s.world.disk.isFileAt source then managerLoad O source (lastPiece src) s
  else if s.world.disk.existsAt (source ++ [str!"Cargo.toml"]) then
    LoadSt.andThen (buildCargo O source s) fun path s => loadBinary O path s
  else if O.gitExists s.tick src then loadGit O root name src { s with tick := s.tick + 1 }
  else
    match downloadPlugin O (s.tick + 1) src with
    | some body => loadDownload O root name src body { s with tick := s.tick + 2 }
    | none => ({ s with tick := s.tick + 2 }, .err .invalidSource)

/-- mod.rs:72-90: whether a source is skipped. -/
def skipsSource (O : Outside) (src : Str) : Bool :=
  endsWith str!".dll" src || (!O.js && (endsWith str!".js" src || endsWith str!".mjs" src))

/-- mod.rs:61-102: the sources of one plugin. -/
def loadSources (O : Outside) (root : Path) (name : Str) : List Str → LoadSt → LoadSt × Res CliErr (List Plugin)
  | [], s => (s, .err .pluginsFailed)
  | src :: srcs, s =>
    if skipsSource O src then loadSources O root name srcs s
    else match loadFromSource O root name src s with
      | (s, .ok ps) => (s, .ok ps)
      | (s, .err _) => loadSources O root name srcs s
      | (s, .panic p) => (s, .panic p)

/-- mod.rs:58-104: all plugins, in the order in which the hash map yields them. -/
def loadAll (O : Outside) (root : Path) : List (Str × Str) → LoadSt → LoadSt × Res CliErr (List Plugin)
  | [], s => (s, .ok [])
  | (name, src) :: rest, s =>
    match loadSources O root name (splitOn ';' src) s with
    | (s, .ok ps) =>
      match loadAll O root rest s with
      | (s, .ok qs) => (s, .ok (ps ++ qs))
      | r => r
    | r => r

/-- mod.rs:49-118 `load`, as used in starting up. -/
def Outside.loader (O : Outside) (parseToml : Str → Except TomlErr RawConfig) : Loader where
  parseToml := parseToml
  loadPlugins deps dir s :=
    let r := loadAll O dir (deps.getD []) ⟨s.world, 0⟩
    ({ s with world := r.1.world }, r.2)

end Stuart
