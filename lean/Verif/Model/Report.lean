import Verif.Model.Display
import Verif.Model.Cli
/-
The texts of error reports: stuart/src/error.rs:55-80, 169-393. Colours are left out.
-/
namespace Stuart

/-- Texts of errors that the model does not keep: what the assertion was (error.rs:235-237), the types of
`InvalidDataType` (error.rs:289-306), and the errors of the system when the manifest cannot be read (build.rs:52) and of
plugins. -/
structure Unkept where
  assertion : Str
  types : Str → Str
  plugin : Str → Str
  manifest : Str

/-- error.rs:215-239 `ParseError::display` -/
def parseMsg (T : Unkept) : ParseErr → Str
  | .unexpectedEOF => str!"unexpected end of file"
  | .expected s => str!"expected `" ++ s ++ str!"`"
  | .invalidVariableName s => str!"invalid variable name: `" ++ s ++ str!"`"
  | .invalidFunctionName s => str!"invalid function name: `" ++ s ++ str!"`"
  | .invalidArgument => str!"invalid argument"
  | .nonexistentFunction s => str!"function does not exist: `" ++ s ++ str!"`"
  | .genericSyntax => str!"syntax error"
  | .positionalAfterNamed => str!"positional argument after named argument"
  | .invalidFrontmatter => str!"invalid frontmatter"
  | .invalidJson => str!"invalid json"
  | .assertion => str!"assertion failed: `" ++ T.assertion ++ str!"`"

/-- error.rs:241-264 `ParseError::help` -/
def parseHelp : ParseErr → Option Str
  | .unexpectedEOF => some str!"are you missing a closing command?"
  | .expected s => some (str!"try adding `" ++ s ++ str!"`")
  | .invalidVariableName _ => some str!"variable names must not be empty and can only contain certain characters"
  | .invalidFunctionName _ => some str!"function names must not be empty and can only contain certain characters"
  | .positionalAfterNamed => some str!"place positional arguments before named arguments"
  | _ => none

/-- error.rs:268-308 `ProcessError::display`. `FeatureNotEnabled` does not occur (functions/parsers/dateformat.rs with its
feature). -/
def procMsg (T : Unkept) : ProcErr → Str
  | .missingHtmlRoot => str!"cannot find `root.html` template"
  | .missingMarkdownRoot => str!"cannot find `md.html` template"
  | .stackError => str!"stack error"
  | .endWithoutBegin => str!"no matching `begin` for `end`"
  | .elseWithoutIf => str!"no matching `if` for `else`"
  | .notJsonArray => str!"not a json array"
  | .invalidDate => str!"invalid date"
  | .unexpectedEndOfFile => str!"unexpected end of file"
  | .variableAlreadyExists s => str!"variable already exists: `" ++ s ++ str!"`"
  | .undefinedVariable s => str!"undefined variable: `" ++ s ++ str!"`"
  | .undefinedSection s => str!"undefined section: `" ++ s ++ str!"`"
  | .nullError s => str!"null error: `" ++ s ++ str!"`"
  | .notFound s => str!"not found: `" ++ s ++ str!"`"
  | .invalidDataType s => str!"type error in variable `" ++ s ++ str!"`: expected `" ++ T.types s ++ str!"`"
  | .pluginErr s => T.plugin s

/-- error.rs:310-346 `ProcessError::help`. Simplification: the errors of plugins have none. -/
def procHelp : ProcErr → Option Str
  | .missingHtmlRoot => some str!"ensure that your `root.html` template exists and is accessible"
  | .missingMarkdownRoot => some str!"ensure that your `md.html` template exists and is accessible"
  | .stackError => some str!"this shouldn't have happened, please open an issue!"
  | .notJsonArray => some str!"only arrays can be used in this context"
  | .invalidDate => some str!"ensure the date is valid and the format is correct"
  | .variableAlreadyExists _ => some str!"variables in Stuart are immutable (for the time being)"
  | .nullError _ => some str!"if the variable is sometimes null, consider using the `ifdefined` function"
  | _ => none

/-- error.rs:170-194 `FsError::display` -/
def fsMsg (cwd : Option Str) : FsErr → Str
  | .notFound s => str!"not found: " ++ s
  | .read => str!"could not read from filesystem"
  | .write => str!"could not write to filesystem"
  | .conflict a b =>
    str!"filename conflict between `" ++ shownPath cwd b ++ str!"` and `" ++ shownPath cwd a ++ str!"`"

/-- error.rs:196-211 `FsError::help`: what to do about it. -/
def fsHelp : FsErr → Option Str
  | .notFound _ => some str!"ensure that the file path is typed correctly"
  | .read => some str!"are any other processes using the file or directory, such as the terminal?"
  | .write => some str!"are any other processes using the file or directory, such as the terminal?"
  | .conflict _ _ => none

/-- error.rs:66-80 `Error::help`. The errors with a place have none of their own (the default of 34-36); their kinds do,
which 133-149 and 158-160 print. -/
def SErr.help : SErr → Option Str
  | .fs e => fsHelp e
  | .metadataNotEnabled => some str!"enable metadata by adding `save_metadata = true` to your `stuart.toml`"
  | _ => none

/-- What a report is made from: whether the program was built with overflow checks, the current directory, what the files
contain, and the unkept texts. -/
structure Setting where
  checks : Bool
  cwd : Option Str
  content : Str → Option Str
  texts : Unkept

/-- error.rs:38-52 `print` of a plain message. -/
def printPlain (msg : Str) : Res Unit Str := .ok (str!"error: " ++ msg ++ str!"\n")

/-- error.rs:38-52 `print`, for `Error` (55-64). `help` is not used. -/
def printCore (X : Setting) : SErr → Res Unit Str
  | .fs e => printPlain (fsMsg X.cwd e)
  | .parse e => printTB X.checks X.cwd (X.content e.path) (parseMsg X.texts) parseHelp e
  | .process e => printTB X.checks X.cwd (X.content e.path) (procMsg X.texts) procHelp e
  | .plugin s => printPlain s
  | .notBuilt => printPlain str!"not built"
  | .metadataNotEnabled => printPlain str!"metadata saving not enabled in configuration"

/-- error.rs:358-380: one of the outputs of a failed script, if there is any. -/
def scriptPart (title out : Str) : Str :=
  if out = [] then [] else str!"\n" ++ title ++ str!":\n" ++ out ++ str!"\n"

/-- error.rs:38-52 `print`, for all errors the program ends with. -/
def printCli (X : Setting) : CliErr → Res Unit Str
  | .core e => printCore X e
  | .couldNotExecute s => printPlain (str!"could not execute `" ++ s ++ str!"`")
  | .scriptFailure s code out err =>
    .ok (str!"error: `" ++ s ++ str!"` failed with exit code " ++ intToStr code ++ str!"\n" ++
      scriptPart str!"stdout" out ++ scriptPart str!"stderr" err)
  | .invalidManifestPath => printPlain str!"invalid manifest path"
  | .manifestUnreadable => printPlain (str!"failed to read manifest:\n  " ++ X.texts.manifest)
  | .manifestAt p line col msg =>
    printTB X.checks X.cwd (X.content (pathStr p)) (fun s => s) (fun _ => none) ⟨pathStr p, line, col, msg⟩
  | .manifestInvalid msg => printPlain (str!"failed to parse manifest:\n  " ++ msg)
  | .pluginsFailed => printPlain str!"Plugins failed to load"
  | .invalidIterations => printPlain str!"invalid value for iterations"
  | .notAProject => printPlain str!"current working directory is not a Stuart project"
  | .cleanFailed p =>
    printPlain (if p.getLast? = some str!"dist" then str!"failed to remove output directory"
      else if p.getLast? = some str!"_build" then str!"failed to remove build directory"
      else str!"failed to remove metadata file")

end Stuart
