import Verif.Model.Memory
/-
The test harness of the core library: stuart-core/src/tests/mod.rs.
-/
namespace Stuart

/-- tests/mod.rs:24-28 `Testcase` -/
structure Testcase where
  context : Node
  input : Node
  output : Node

/-- tests/mod.rs:40-41: `create_from_file` for a file of a directory. -/
def readAt (S : Sys) (parse : Bool) (disk : Entry) (p : Path) (name : Str) : Res SErr Node :=
  match disk.at (p ++ [name]) with
  | some (.file b) => readFile S parse [] (p ++ [name]) name b
  | _ => .err (.fs .read)

/-- tests/mod.rs:31-58 `Testcase::new`, for the directory `cases` of test cases (a constant in the code) on a disk. Errors,
which are unwrapped there, are returned. -/
def Testcase.new (S : Sys) (disk : Entry) (cases : Path) (name : Str) : Res SErr Testcase :=
  (readTree S true [] disk (cases ++ [str!"_base"])).bind fun base =>
  (readTree S true [] disk (cases ++ [name])).bind fun specific =>
  (mergeNode base specific).2.bind fun _ =>
  (readAt S true disk (cases ++ [name]) str!"in.html").bind fun input =>
  (readAt S false disk (cases ++ [name]) str!"out").bind fun output =>
  match (mergeNode base specific).1 with
  | .dir n cs src => .ok ⟨.dir n (cs ++ [input]) src, input, output⟩
  | .file .. => .panic .notADirectory

/-- tests/mod.rs:94-103: newlines and carriage returns are removed. -/
def withoutBreaks (s : Str) : Str := s.filter fun c => c != '\n' && c != '\r'

/-- tests/mod.rs:60-107 `run`, without the comparison: the contents of the file that is made, and those that are expected. -/
def Testcase.run (S : Sys) (t : Testcase) : Res SErr (Bytes × Bytes) :=
  (Project.fromNode S t.context).bind fun stuart =>
  match stuart.input, t.context.getAtPath str!"root.html", t.context.getAtPath str!"md.html" with
  | some tree, some root, some md =>
    (processIn S memoryBase .default tree ⟨templateToks root.parsed, templateToks md.parsed⟩ t.input).bind fun out =>
    match out, t.output with
    | .file _ c _ _ _, .file _ c' _ _ _ => .ok (c, c')
    | _, _ => .panic .notADirectory
  | _, _, _ => .panic .noContents

/-- A test case passes. -/
def passes (S : Sys) (disk : Entry) (cases : Path) (name : Str) : Bool :=
  match (Testcase.new S disk cases name).bind fun t => t.run S with
  | .ok (c, c') =>
    match fromUtf8 c, fromUtf8 c' with
    | some s, some s' => withoutBreaks s == withoutBreaks s'
    | _, _ => false
  | _ => false

end Stuart
