import Verif.Model.Plugins
import Verif.Model.New
import Verif.Model.Report
import Verif.Model.Serve
/-
What the program writes to the terminal, and its exit status: stuart/src/main.rs, logger/mod.rs, logger/progress.rs, and the
calls of `log!`, `print` and `println!` in build.rs, scripts.rs, new.rs, plugins/mod.rs and serve/mod.rs. Colours and the
removal of `\\?\` are left out, as are warnings printed by JavaScript plugins. The functions here run beside those that they
are about: they give what is written while these run.
-/
namespace Stuart

/-! ### The logger -/

/-- logger/mod.rs:25-33 `LogLevel` -/
inductive LogLevel where
  | quiet | normal | verbose
deriving DecidableEq, Repr

/-- The two streams of the terminal. -/
inductive Stream where
  | out | err
deriving DecidableEq, Repr

/-- logger/mod.rs:13-22 `Logger`, and all that has been written so far. -/
structure Term where
  level : LogLevel
  enabled : Bool := true
  hasLogged : Bool := false
  written : List (Stream × Str) := []

/-- One thing that is written: a call of `log!`, of `println!()`, of `StuartError::print`, of `Progress::print`, or a change of
`enabled`. -/
inductive Say where
  | log (verb msg : Str)
  | blank
  | report (text : Str)
  | bar (name : Str) (current total : Nat)
  | enable (b : Bool)
deriving DecidableEq

/-- `{:>12}` -/
def padLeft (n : Nat) (s : Str) : Str := List.replicate (n - s.length) ' ' ++ s

/-- `{:<50}` -/
def padRight (n : Nat) (s : Str) : Str := s ++ List.replicate (n - s.length) ' '

/-! ### The progress bar -/

/-- The nearest integer to `a / b`, and the even one of two. -/
def roundDiv (a b : Nat) : Nat :=
  let q := a / b
  let r := a % b
  if 2 * r < b then q else if b < 2 * r then q + 1 else if q % 2 = 0 then q else q + 1

/-- For how many binary digits after the point a positive `a / b` below 2^53 has 53 digits: the least `s` from which
`2^52 ≤ a / b * 2^s`. -/
def scale (a b : Nat) : Nat → Nat
  | 0 => 0
  | fuel + 1 => if 2 ^ 52 * b ≤ a then 0 else scale (2 * a) b fuel + 1

/-- A fraction rounded to a 64-bit floating point number, as a fraction. The numbers of the progress bar are between 2^-53
and 2^53, or zero, and need at most 106 digits after the point. -/
def toFloat (a b : Nat) : Nat × Nat :=
  let s := scale a b 106
  (roundDiv (a * 2 ^ s) b, 2 ^ s)

/-- progress.rs:41 `((current as f64 / total as f64) * 50.0).ceil() as usize`, where `current` and `total` are below 2^53, so
that they are numbers of 64-bit floating point. With a total of 0 there is no number, and `as usize` makes it 0. -/
def barLength (current total : Nat) : Nat :=
  if total = 0 then 0
  else
    let x := toFloat current total
    let y := toFloat (x.1 * 50) x.2
    (y.1 + y.2 - 1) / y.2

/-- The sum of two numbers of 64-bit floating point, below 2^53 and multiples of 2^-106. -/
def addFloat (x y : Nat × Nat) : Nat × Nat := toFloat (x.1 * y.2 + y.1 * x.2) (x.2 * y.2)

/-- main.rs:164-167, 174-192 with build.rs:168-174: the mean of times given in microseconds, in milliseconds. Each is cut to
tenths (`(n / 100) as f64 / 10.0`) and they are added up one by one. Simplification: the sums are below 2^53 and all quotients
are zero or at least 2^-53. -/
def meanFloat (micros : List Nat) : Nat × Nat :=
  let total := micros.foldl (fun x m => addFloat x (toFloat (m / 100) 10)) (0, 1)
  toFloat total.1 (total.2 * micros.length)

/-- `{:.2}`: the nearest number with two digits after the point, the even one of two. -/
def showHundredths (x : Nat × Nat) : Str :=
  let q := roundDiv (x.1 * 100) x.2
  natToStr (q / 100) ++ str!"." ++ natToStr (q % 100 / 10) ++ natToStr (q % 10)

/-- main.rs:189-197: a mean as it is shown. Zero divided by zero is no number. -/
def meanText (micros : List Nat) : Str := if micros = [] then str!"NaN" else showHundredths (meanFloat micros)

/-- progress.rs:26-53 `print` -/
def barText (name : Str) (current total : Nat) : Str :=
  str!"\r" ++ padLeft 12 name ++ str!" [" ++ padRight 50 (List.replicate (barLength current total) '=') ++ str!"] " ++
    natToStr current ++ str!"/" ++ natToStr total

/-! ### Writing -/

/-- logger/mod.rs:60-86 `log!`, `println!()`, error.rs:38-52 `print`, progress.rs:26-53 `print` and main.rs:168,187. -/
def Term.say (t : Term) : Say → Term
  | .log verb msg =>
    if t.enabled && t.level != .quiet then
      { t with hasLogged := true, written := t.written ++ [(.err, padLeft 12 verb ++ str!" " ++ msg ++ str!"\n")] }
    else t
  | .blank => { t with written := t.written ++ [(.out, str!"\n")] }
  | .report text => { t with written := t.written ++ [(.err, text)] }
  | .bar name current total => { t with written := t.written ++ [(.err, barText name current total)] }
  | .enable b => { t with enabled := b }

/-- One after the other. -/
def Term.says (t : Term) (l : List Say) : Term := l.foldl Term.say t

/-! ### Building -/

/-- How long the parts of a build took, in microseconds. -/
structure Times where
  pre : Nat
  build : Nat
  save : Nat
  post : Nat

/-- `(n / 100) as f64 / 10.0` as it is shown: milliseconds, with tenths unless they are zero. This is how numbers with up to
15 digits are shown. -/
def showTenths (micros : Nat) : Str :=
  let n := micros / 100
  if n % 10 = 0 then natToStr (n / 10) else natToStr (n / 10) ++ str!"." ++ natToStr (n % 10)

/-- build.rs:166-183: the last line of a build. -/
def finishedMsg (t : Times) : Str :=
  str!"build in " ++ showTenths (t.pre + t.build + t.save + t.post) ++ str!"ms (" ++ showTenths t.build ++ str!"ms build, " ++
    showTenths (t.pre + t.post) ++ str!"ms scripts, " ++ showTenths t.save ++ str!"ms filesystem)"

/-- scripts.rs:96-102: a line for each script that is begun. -/
def scriptsSay (M : Machine) (env : List (Str × Str)) : List Path → Host → List Say
  | [], _ => []
  | p :: ps, s =>
    .log str!"Executing" (str!"script `" ++ p.getLast?.getD [] ++ str!"`") ::
      match runScripts M env [p] s with
      | (s', .ok ()) => scriptsSay M env ps s'
      | _ => []

/-- build.rs:139-161 after the content has been built: whether the export of the metadata is reached. -/
def publishSay (M : Machine) (c : Context) (s : Host) : List Say :=
  let m := mergeDirs M s.world.disk c.dir [str!"static", str!"temp"] c.stuart
  match m.2 with
  | .ok () =>
    let w := (s.world.step (.clear (c.dir ++ [str!"temp"]))).1
    match (m.1.save (joinPath c.dir c.output) w).2 with
    | .ok () => if c.stuart.config.saveMetadata then [.log str!"Exporting" str!"metadata to `metadata.json`"] else []
    | _ => []
  | _ => []

/-- build.rs:124-191 `StuartContext::build`: the lines of a build. -/
def buildSay (M : Machine) (times : Times) (c : Context) (s : Host) : List Say :=
  scriptsSay M c.env c.pre s ++
  match runScripts M c.env c.pre s with
  | (s1, .ok ()) =>
    .log str!"Building" (c.stuart.config.name ++ str!" (" ++ dirStr c.dir ++ str!")") ::
    let b := c.stuart.build M.sys s1.world.disk c.mode
    let c := { c with stuart := b.1 }
    match b.2 with
    | .ok () =>
      publishSay M c s1 ++
      match c.publish M s1 with
      | (c, s2, .ok ()) =>
        scriptsSay M c.env c.post s2 ++
        match runScripts M c.env c.post s2 with
        | (_, .ok ()) => [.log str!"Finished" (finishedMsg times)]
        | _ => []
      | _ => []
    | _ => []
  | _ => []

/-! ### Loading plugins -/

/-- The texts of `LoadErr`; those of libraries and of programs that fail are not kept. -/
def loadMsg (unkept : LoadErr → Str) (name : Str) : LoadErr → Str
  | .write => str!"could not write to filesystem"
  | .clone => str!"failed to clone Git repository for plugin `" ++ name ++ str!"`"
  | .pull => str!"failed to pull Git repository for plugin `" ++ name ++ str!"`"
  | .noProject => str!"failed to find plugin `" ++ name ++ str!"` in Git repository"
  | .invalidSource => str!"invalid source for plugin `" ++ name ++ str!"`"
  | .couldNotExecute => str!"could not execute `<build script>`"
  | e => unkept e

/-- A line about a plugin and one of its sources. -/
def sourceLine (verb name src : Str) : Say := .log verb (str!"plugin `" ++ name ++ str!"` from `" ++ src ++ str!"`")

/-- mod.rs:144-180 -/
def gitSay (O : Outside) (root : Path) (name src : Str) (s : LoadSt) : List Say :=
  let repo := joinPath root (str!"_build/plugins/" ++ name)
  sourceLine (if s.world.disk.existsAt repo then str!"Pulling" else str!"Cloning") name src ::
    match fetchRepo O root name src s with
    | (s, .ok ()) =>
      match (s.world.disk.at repo).bind (findProject O name repo) with
      | none => []
      | some _ => [.log str!"Compiling" (str!"plugin `" ++ name ++ str!"`")]
    | _ => []

/-- mod.rs:121-201 `load_from_source` -/
def sourceSay (O : Outside) (root : Path) (name src : Str) (s : LoadSt) : List Say :=
  let source := joinPath root src
  if namesFile src && s.world.disk.isFileAt source then [sourceLine str!"Loading" name src]
  else if s.world.disk.existsAt (source ++ [str!"Cargo.toml"]) then [sourceLine str!"Compiling" name src]
  else if O.gitExists s.tick src then gitSay O root name src { s with tick := s.tick + 1 }
  else
    match downloadPlugin O (s.tick + 1) src with
    | some _ => [sourceLine str!"Downloading" name src]
    | none => []

/-- mod.rs:72-90: why a source is skipped. -/
def skipReason (src : Str) : Str :=
  if endsWith str!".dll" src then str!" (not supported on non-Windows platforms)" else str!" (JavaScript support is not enabled)"

/-- mod.rs:61-102: the sources of one plugin; `failed` is whether one has failed before. Only the first error is shown. -/
def sourcesSay (unkept : LoadErr → Str) (O : Outside) (root : Path) (name : Str) : Bool → List Str → LoadSt → List Say
  | _, [], _ => []
  | failed, src :: srcs, s =>
    if skipsSource O src then
      .log str!"Skipping" (str!"plugin file `" ++ src ++ str!"`" ++ skipReason src) :: sourcesSay unkept O root name failed srcs s
    else
      sourceSay O root name src s ++
      match loadFromSource O root name src s with
      | (s, .err e) =>
        (if failed then [] else [.report (str!"error: " ++ loadMsg unkept name e ++ str!"\n")]) ++
          sourcesSay unkept O root name true srcs s
      | _ => []

/-- mod.rs:58-104 -/
def pluginsSay (unkept : LoadErr → Str) (O : Outside) (root : Path) : List (Str × Str) → LoadSt → List Say
  | [], _ => []
  | (name, src) :: rest, s =>
    sourcesSay unkept O root name false (splitOn ';' src) s ++
    match loadSources O root name (splitOn ';' src) s with
    | (s, .ok _) => pluginsSay unkept O root rest s
    | _ => []

/-- mod.rs:49-118 `load`. `micros` is how long it took. -/
def loadSay (unkept : LoadErr → Str) (micros : Nat) (O : Outside) (root : Path) (deps : List (Str × Str)) (s : LoadSt) : List Say :=
  pluginsSay unkept O root deps s ++
  match loadAll O root deps s with
  | (_, .ok []) => []
  | (_, .ok ps) => [.log str!"Loaded" (natToStr ps.length ++ str!" plugin(s) in " ++ showTenths micros ++ str!"ms\n")]
  | _ => []

/-! ### Commands -/

/-- What the texts depend on besides: the time that things took, and texts not kept. -/
structure Clock where
  load : Nat
  times : Nat → Times
  unkept : LoadErr → Str

/-- build.rs:41-121 `StuartContext::init`: only the loading of plugins writes anything. -/
def initSay (K : Clock) (O : Outside) (parseToml : Str → Except TomlErr RawConfig) (cwd : Path) (manifest : Str) (s : Host) :
    List Say :=
  match canonicalize s.world.disk cwd manifest with
  | none => []
  | some path =>
    match s.world.disk.at path with
    | some (.file b) =>
      match (fromUtf8 b).map parseToml with
      | some (.ok raw) => loadSay K.unkept K.load O path.dropLast (raw.dependencies.getD []) ⟨s.world, 0⟩
      | _ => []
    | _ => []

/-- main.rs:174-183: the builds of a benchmark. `k` builds have been made. -/
def benchSay (M : Machine) (K : Clock) (total : Nat) : Nat → Nat → Context → Host → List Say
  | 0, _, _, _ => []
  | n + 1, k, c, s =>
    buildSay M (K.times k) c s ++
    match c.build M s with
    | (c, s, .ok ()) =>
      .bar str!"Processing" (k + 1) total ::
        ((if k + 1 = total then [.blank] else []) ++ benchSay M K total n (k + 1) c s)
    | _ => []

/-- main.rs:189-197 after the builds that took these times. -/
def meansSay (l : List Times) : List Say :=
  [.log str!"Total:" (meanText (l.map fun t => t.pre + t.build + t.save + t.post) ++ str!"ms mean"),
   .log str!"Build:" (meanText (l.map fun t => t.build) ++ str!"ms mean"),
   .log str!"Scripts:" (meanText (l.map fun t => t.pre + t.post) ++ str!"ms mean"),
   .log str!"Filesystem:" (meanText (l.map fun t => t.save) ++ str!"ms mean")]

/-- The commands that end, with what main.rs:30-108 makes of the arguments. -/
inductive Command where
  | build (manifest output : Option Str)
  | new (name : Str) (noGit : Bool)
  | bench (iterations : Option Str)
  | clean
deriving DecidableEq

/-- All that the program uses of the outside. -/
structure Site where
  M : Machine
  O : Outside
  parseToml : Str → Except TomlErr RawConfig
  G : GitTool
  png : Bytes
  cwd : Path

/-- main.rs:124-132: run a command. -/
def Command.run (S : Site) : Command → Host → Host × Res CliErr Unit
  | .build manifest output, s =>
    cmdBuild S.M (S.O.loader S.parseToml) S.cwd (manifest.getD str!"stuart.toml") (output.getD str!"dist") s
  | .new name noGit, s =>
    let r := cmdNew S.G S.png S.cwd name noGit s.world
    ({ s with world := r.1 }, r.2)
  | .bench iterations, s => cmdBench S.M (S.O.loader S.parseToml) S.cwd (iterations.getD str!"10") s
  | .clean, s =>
    let r := cmdClean S.cwd s.world
    ({ s with world := r.1 }, r.2)

/-- What a command writes: main.rs:145-152 and 155-200, new.rs:48. -/
def Command.say (S : Site) (K : Clock) : Command → Host → List Say
  | .build manifest output, s =>
    initSay K S.O S.parseToml S.cwd (manifest.getD str!"stuart.toml") s ++
    match Context.init (S.O.loader S.parseToml) S.cwd (manifest.getD str!"stuart.toml") (output.getD str!"dist") str!"production" s with
    | (s, .ok c) => buildSay S.M (K.times 0) c s
    | _ => []
  | .new name noGit, s =>
    match (cmdNew S.G S.png S.cwd name noGit s.world).2 with
    | .ok () => [.log str!"Created" (str!"new Stuart website `" ++ name ++ str!"`")]
    | _ => []
  | .bench iterations, s =>
    initSay K S.O S.parseToml S.cwd str!"stuart.toml" s ++
    match Context.init (S.O.loader S.parseToml) S.cwd str!"stuart.toml" str!"dist" str!"benchmark" s with
    | (s, .ok c) =>
      match parseUsize (iterations.getD str!"10") with
      | none => []
      | some n =>
        [.enable false, .bar str!"Processing" 0 n] ++ benchSay S.M K n n 0 c s ++
        match benchLoop S.M n c s with
        | (_, .ok ()) => [.blank, .enable true] ++ meansSay ((List.range n).map K.times)
        | _ => []
    | _ => []
  | .clean, _ => []

/-- main.rs:110-142 `main`: the state of the outside, what is on the terminal, and the exit status. A panic ends the program
with the status 101 (and a message of the runtime, left out here). -/
def mainRun (S : Site) (X : Setting) (K : Clock) (level : LogLevel) (cmd : Command) (s : Host) : Host × Term × Nat :=
  let r := cmd.run S s
  let t := Term.says { level := level } (cmd.say S K s)
  match r.2 with
  | .ok () => (r.1, t, 0)
  | .panic _ => (r.1, t, 101)
  | .err e =>
    let t := if t.hasLogged then t.say .blank else t
    match printCli X e with
    | .ok text => (r.1, t.say (.report text), 1)
    | _ => (r.1, t, 101)

/-- serve/mod.rs:97-140: what the development server writes for one event, with 203-209 `error_handler`. -/
def Term.onEvent (M : Machine) (X : Setting) (times : Times) (path : Option Path) (c : Context) (s : Host) (t : Term) :
    Res Unit Term :=
  match path.bind (stripPath c.dir) with
  | none => .panic .watchPath
  | some rel =>
    match reaction rel with
    | .ignore => .ok t
    | .restart => .ok (t.says [.blank, .log str!"Detected" str!"configuration change, please restart the server"])
    | .rebuild =>
      let t := t.says ([.blank, .log str!"Detected" (str!"change at " ++ dirStr (path.getD []) ++ str!", rebuilding")] ++
        buildSay M times c s)
      match (c.build M s).2.2 with
      | .ok () => .ok t
      | .panic p => .panic p
      | .err e =>
        let t := if t.hasLogged then t.say .blank else t
        (printCli X e).bind fun text => .ok (t.say (.report text))

/-- serve/mod.rs:39-65: what `stuart dev` writes before it watches the project, up to the end of the first build. -/
def devSay (S : Site) (K : Clock) (manifest output : Str) (s : Host) : List Say :=
  match canonicalize s.world.disk S.cwd manifest with
  | none => []
  | some [] => []
  | some (_ :: _) =>
    initSay K S.O S.parseToml S.cwd manifest s ++
    match Context.init (S.O.loader S.parseToml) S.cwd manifest output str!"development" s with
    | (s, .ok c) =>
      .log str!"Started" str!"development server at http://localhost:6904\n" :: buildSay S.M (K.times 0) c s
    | _ => []

/-- main.rs:110-142 with serve/mod.rs:39-65: `stuart dev` until it watches the project, when the status is `none`; otherwise
the program has ended. An error of the first build is reported and does not end it. -/
def mainDev (S : Site) (X : Setting) (K : Clock) (level : LogLevel) (manifest output : Str) (s : Host) : Term × Option Nat :=
  let t := Term.says { level := level } (devSay S K manifest output s)
  let reported (e : CliErr) (status : Option Nat) : Term × Option Nat :=
    let t := if t.hasLogged then t.say .blank else t
    match printCli X e with
    | .ok text => (t.say (.report text), status)
    | _ => (t, some 101)
  match (startDev S.M (S.O.loader S.parseToml) S.cwd manifest output s).2 with
  | .panic _ => (t, some 101)
  | .err e => reported e (some 1)
  | .ok _ =>
    match Context.init (S.O.loader S.parseToml) S.cwd manifest output str!"development" s with
    | (s, .ok c) =>
      match (c.build S.M s).2.2 with
      | .err e => reported e none
      | _ => (t, none)
    | _ => (t, none)

end Stuart
