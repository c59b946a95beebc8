import Verif.Model.Cli
/-
Creating a site: stuart/src/new.rs, config/git.rs:8-44, stuart/tests/basic.
-/
namespace Stuart

/-- What `stuart new` needs of Git. -/
structure GitTool where
  /-- git.rs:8-18 `get_user_name`: what Git has, trimmed; none when Git fails. -/
  userName : Option Str
  /-- git.rs:22-32 `get_user_email` -/
  userEmail : Option Str
  /-- git.rs:36-44 `init_repository`: what becomes of the disk. Whether it worked is not looked at (new.rs:43). -/
  init : Path → Entry → Entry

/-- new.rs:24-32: the manifest. -/
def newManifest (G : GitTool) (name : Str) : Str :=
  str!"[site]\nname = \"" ++ name ++ str!"\"" ++
  (match G.userName, G.userEmail with
    | some n, some e => str!"\nauthor = \"" ++ n ++ str!" <" ++ e ++ str!">\""
    | _, _ => []) ++ str!"\n"

mutual
/-- new.rs:57-64, for one entry of the embedded directory; `rel` is its path there. -/
def extractEntry (root rel : Path) : Entry → List Op
  | .dir l => extractOps root rel l
  | .file b => if rel.getLast? = some str!"stuart.toml" then [] else [.write (root ++ rel) b]
  | .special => []
/-- new.rs:55-68 `extract`: the changes it makes, in order. The directories are not made. -/
def extractOps (root rel : Path) : List (Str × Entry) → List Op
  | [] => []
  | (n, e) :: l => extractEntry root (rel ++ [n]) e ++ extractOps root rel l
end

/-- stuart/tests/basic/content/index.html -/
def defaultIndex : Str :=
  str!"{{ begin(\"head\") }}\n" ++
  str!"<title>Stuart</title>\n" ++
  str!"{{ end(\"head\") }}\n" ++
  str!"\n" ++
  str!"{{ begin(\"body\") }}\n" ++
  str!"<img src=\"/lightning.png\" width=250>\n" ++
  str!"\n" ++
  str!"<h2>Welcome to Stuart!</h2>\n" ++
  str!"\n" ++
  str!"<p>\n" ++
  str!"  Edit <code>content/index.html</code> and save to reload.\n" ++
  str!"</p>\n" ++
  str!"{{ end(\"body\") }}"

/-- stuart/tests/basic/content/root.html -/
def defaultRoot : Str :=
  str!"<html lang=\"en\">\n" ++
  str!"  \n" ++
  str!"<head>\n" ++
  str!"  <meta charset=\"UTF-8\">\n" ++
  str!"  <meta http-equiv=\"X-UA-Compatible\" content=\"IE=edge\">\n" ++
  str!"  <meta name=\"viewport\" content=\"width=device-width, initial-scale=1.0\">\n" ++
  str!"  <link rel=\"stylesheet\" href=\"style.css\">\n" ++
  str!"  \n" ++
  str!"  {{ insert(\"head\") }}\n" ++
  str!"</head>\n" ++
  str!"\n" ++
  str!"<body>\n" ++
  str!"  <main>\n" ++
  str!"    {{ insert(\"body\") }}\n" ++
  str!"  </main>\n" ++
  str!"</body>\n" ++
  str!"\n" ++
  str!"</html>"

/-- stuart/tests/basic/static/style.css -/
def defaultStyle : Str :=
  str!"body {\n" ++
  str!"  background-color: #222;\n" ++
  str!"  color: #fff;\n" ++
  str!"  font-family: Arial;\n" ++
  str!"  font-size: 1.25rem;\n" ++
  str!"  margin: 0;\n" ++
  str!"}\n" ++
  str!"\n" ++
  str!"main {\n" ++
  str!"  width: 100%;\n" ++
  str!"  margin: 128px auto 0 auto;\n" ++
  str!"  text-align: center;\n" ++
  str!"}\n" ++
  str!"\n" ++
  str!"img {\n" ++
  str!"  margin-bottom: 64px;\n" ++
  str!"  filter: drop-shadow(0 0 256px yellow);\n" ++
  str!"}\n" ++
  str!"\n" ++
  str!"code {\n" ++
  str!"  font-family: monospace;\n" ++
  str!"}"

/-- stuart/tests/basic/stuart.toml -/
def defaultToml : Str :=
  str!"[site]\n" ++
  str!"name = \"example\"\n" ++
  str!"author = \"William Henderson <william-henderson@outlook.com>\"\n"

/-- new.rs:16 `DEFAULT_PROJECT`: stuart/tests/basic, in alphabetical order. The picture static/lightning.png stays a
variable. -/
def defaultProject (png : Bytes) : List (Str × Entry) :=
  [(str!"content", .dir [(str!"index.html", .file (bytesOf defaultIndex)), (str!"root.html", .file (bytesOf defaultRoot))]),
   (str!"static", .dir [(str!"lightning.png", .file png), (str!"style.css", .file (bytesOf defaultStyle))]),
   (str!"stuart.toml", .file (bytesOf defaultToml))]

/-- new.rs:46 -/
def newGitignore : Str := str!"dist/\n_build/\nmetadata.json\n"

/-- new.rs:34-39: the changes before Git is called. -/
def newOps (G : GitTool) (png : Bytes) (p : Path) (name : Str) : List Op :=
  [.mkdir p, .mkdir (p ++ [str!"content"]), .mkdir (p ++ [str!"static"]),
   .write (p ++ [str!"stuart.toml"]) (bytesOf (newManifest G name))] ++ extractOps p [] (defaultProject png)

/-- new.rs:19-52 `new`, run in the directory `cwd`. Git is given the path `./<name>`. -/
def cmdNew (G : GitTool) (png : Bytes) (cwd : Path) (name : Str) (noGit : Bool) (w : World) : World × Res CliErr Unit :=
  let p := joinPath cwd name
  match runOps (newOps G png p name) w with
  | (w, .ok ()) =>
    if noGit then (w, .ok ())
    else
      let r := runOps [.write (p ++ [str!".gitignore"]) (bytesOf newGitignore)]
        ⟨G.init (joinPath cwd (str!"./" ++ name)) w.disk, w.faults⟩
      (r.1, r.2.mapErr .core)
  | (w, .err e) => (w, .err (.core e))
  | (w, .panic q) => (w, .panic q)

end Stuart
