import Verif.Model.Cli
/-
The development server: stuart/src/serve/mod.rs. Starting the threads, logging and the HTTP library are left out.
-/
namespace Stuart

/-! ### Serving files -/

/-- `buf.windows(n).position(|w| w == pat)` for a pattern of length `n` (serve/mod.rs:173). -/
def findWindow (pat : Bytes) : Bytes → Option Nat
  | [] => if pat = [] then some 0 else none
  | b :: l => if pat.isPrefixOf (b :: l) then some 0 else (findWindow pat l).map (· + 1)

/-- serve/mod.rs:173-180: put the script (`<script>`, the contents of main.js, `</script>`) in front of the first
`</body>`. -/
def injectReload (js buf : Bytes) : Bytes :=
  match findWindow (bytesOf str!"</body>") buf with
  | some i => buf.take i ++ (bytesOf str!"<script>" ++ js ++ bytesOf str!"</script>") ++ buf.drop i
  | none => buf

/-- `humphrey::route::LocatedPath` -/
inductive Located where
  | directory
  | file (p : Path)

/-- The part of an HTTP response that matters here. -/
structure Response where
  status : Nat
  location : Option Str := none
  contentType : Option Str := none
  body : Bytes

/-- serve/mod.rs:160 `request.uri.strip_prefix('/').unwrap_or(&request.uri)` -/
def dropSlash : Str → Str
  | '/' :: u => u
  | u => u

/-- serve/mod.rs:159-199 `serve_dir`. `locate` is `humphrey::route::try_find_path` on the served directory, `mime` is
`MimeType::from_extension`. Only contents that are files can be read. -/
def serveDir (js : Bytes) (locate : Str → Option Located) (mime : Str → Str) (disk : Entry) (uri : Str) : Response :=
  match locate (dropSlash uri) with
  | none => { status := 404, body := bytesOf str!"Not Found" }
  | some .directory => { status := 301, location := some (uri ++ ['/']), body := [] }
  | some (.file p) =>
    match disk.at p with
    | some (.file b) =>
      { status := 200, contentType := (extension (p.getLast?.getD [])).map mime, body := injectReload js b }
    | _ => { status := 500, body := bytesOf str!"Internal Server Error" }

/-! ### Notifying browsers -/

/-- `Vec::swap_remove` (the index is in range in the only use). -/
def swapRemove {α : Type} (l : List α) (i : Nat) : List α :=
  match l.getLast? with
  | none => l
  | some x => (l.set i x).dropLast

/-- serve/mod.rs:131-135: send to every stream; the streams as they are left and the indices that failed, counting
from `i`. `send` is `WebsocketStream::send` of the message "reload". -/
def notifyAll {α : Type} (send : α → α × Bool) : Nat → List α → List α × List Nat
  | _, [] => ([], [])
  | i, x :: l =>
    let r := notifyAll send (i + 1) l
    ((send x).1 :: r.1, if (send x).2 then r.2 else i :: r.2)

/-- serve/mod.rs:127-139 -/
def notify {α : Type} (send : α → α × Bool) (streams : List α) : List α :=
  let r := notifyAll send 0 streams
  r.2.reverse.foldl swapRemove r.1

/-! ### Watching -/

/-- What the watcher does about a change. -/
inductive Reaction where
  | ignore
  | restart
  | rebuild
deriving DecidableEq, Repr

/-- serve/mod.rs:101-122, for a path relative to the project. `Path::starts_with` and `ends_with` compare whole
components. -/
def reaction (rel : Path) : Reaction :=
  if rel.head? = some str!"dist" || rel.head? = some str!"temp" then .ignore
  else if rel.getLast? = some str!"stuart.toml" then .restart
  else .rebuild

/-- `Path::strip_prefix` -/
def stripPath : Path → Path → Option Path
  | [], p => some p
  | _ :: _, [] => none
  | d :: ds, n :: p => if d = n then stripPath ds p else none

/-- serve/mod.rs:97-140: what the loop does with one event received, up to the emptying of the queue. An event without
a path, or with one outside the project, panics. -/
def onEvent {α : Type} (M : Machine) (send : α → α × Bool) (path : Option Path) (c : Context) (s : Host)
    (streams : List α) : Context × Host × List α × Res CliErr Bool :=
  match path.bind (stripPath c.dir) with
  | none => (c, s, streams, .panic .watchPath)
  | some rel =>
    match reaction rel with
    | .ignore => (c, s, streams, .ok false)
    | .restart => (c, s, streams, .ok false)
    | .rebuild =>
      match c.build M s with
      | (c, s, .panic p) => (c, s, streams, .panic p)
      | (c, s, .err _) => (c, s, streams, .ok true)
      | (c, s, .ok ()) => (c, s, notify send streams, .ok true)

/-- serve/mod.rs:39-65, 70: how `stuart dev` starts: the context after the first build, which may fail, and the directory
that is served. The watcher and the application are started next. -/
def startDev (M : Machine) (L : Loader) (cwd : Path) (manifest output : Str) (s : Host) : Host × Res CliErr (Context × Path) :=
  match canonicalize s.world.disk cwd manifest with
  | none => (s, .err .invalidManifestPath)
  | some [] => (s, .err .invalidManifestPath)
  | some (x :: path) =>
    match Context.init L cwd manifest output str!"development" s with
    | (s, .err e) => (s, .err e)
    | (s, .panic p) => (s, .panic p)
    | (s, .ok c) =>
      match c.build M s with
      | (_, s, .panic p) => (s, .panic p)
      | (c, s, _) => (s, .ok (c, joinPath (x :: path).dropLast output))

/-- Where the loop is: waiting for an event, building (the sources not read yet, or read as of some version), or about
to empty the queue. -/
inductive Phase where
  | idle
  | started
  | read (version : Nat)
  | published
deriving DecidableEq

/-- The development server over time. `version` counts the changes made to the project, `pending` are the events the
operating system has not delivered yet, `queue` those delivered and not received, `served` is the version that the
output shows, `builds` counts the builds begun. -/
structure Dev where
  version : Nat
  pending : List Path
  queue : List Path
  phase : Phase
  served : Nat
  builds : Nat

/-- One step of the development server and its surroundings (serve/mod.rs:97-145). `own` are the paths (relative to the
project) that a build itself changes. Simplifications: a build reads everything at one instant and publishes at
another; every build succeeds; only changes to which the watcher reacts with a build count as changes. -/
inductive Dev.Step (own : List Path) : Dev → Dev → Prop
  /-- someone changes something -/
  | edit (s : Dev) (p : Path) (h : reaction p = .rebuild) :
    Step own s { s with version := s.version + 1, pending := s.pending ++ [p] }
  /-- the operating system delivers an event -/
  | deliver (s : Dev) (p : Path) (ps : List Path) (h : s.pending = p :: ps) :
    Step own s { s with pending := ps, queue := s.queue ++ [p] }
  /-- serve/mod.rs:98-113: an event that leads to nothing -/
  | skip (s : Dev) (p : Path) (q : List Path) (hp : s.phase = .idle) (h : s.queue = p :: q)
    (hr : reaction p ≠ .rebuild) : Step own s { s with queue := q }
  /-- serve/mod.rs:124: a build begins -/
  | start (s : Dev) (p : Path) (q : List Path) (hp : s.phase = .idle) (h : s.queue = p :: q)
    (hr : reaction p = .rebuild) : Step own s { s with queue := q, phase := .started, builds := s.builds + 1 }
  /-- the build reads the project -/
  | read (s : Dev) (hp : s.phase = .started) : Step own s { s with phase := .read s.version }
  /-- the build publishes what it has read -/
  | publish (s : Dev) (v : Nat) (hp : s.phase = .read v) :
    Step own s { s with phase := .published, served := v, pending := s.pending ++ own }
  /-- serve/mod.rs:144: empty the queue -/
  | drain (s : Dev) (hp : s.phase = .published) : Step own s { s with phase := .idle, queue := [] }

/-- Any number of steps. -/
inductive Dev.Steps (own : List Path) : Dev → Dev → Prop
  | refl (s : Dev) : Steps own s s
  | tail {a b c : Dev} (h : Steps own a b) (hs : Dev.Step own b c) : Steps own a c

/-- serve/mod.rs:62-85: the state in which the loop begins, if nothing changed since the first build began. -/
def Dev.initial : Dev := ⟨0, [], [], .idle, 0, 0⟩

end Stuart
