import Verif.Model.Process
/-
Rendering pages and building the tree: stuart-core/src/process/mod.rs:52-271, lib.rs, config.rs.
-/
namespace Stuart

/-- The Unicode decoding of a byte string, a character of at most four bytes at a time; the number bounds the steps. -/
def decodeGo : Nat → Bytes → Option Str
  | _, [] => some []
  | 0, _ :: _ => none
  | f + 1, b :: bs =>
    match ByteArray.utf8DecodeChar? ((b :: bs).take 4).toByteArray 0 with
    | none => none
    | some c => (decodeGo f ((b :: bs).drop c.utf8Size)).map fun cs => c :: cs

/-- `String::from_utf8` / `std::str::from_utf8` (standard library). -/
def fromUtf8 (b : Bytes) : Option Str := decodeGo b.length b

/-- config.rs:5-16 `Config` -/
structure Config where
  name : Str
  author : Option Str
  stripExtensions : Bool
  saveDataFiles : Bool
  saveMetadata : Bool
deriving DecidableEq, Repr

/-- config.rs:18-28 -/
def Config.default : Config := ⟨[], none, true, false, false⟩

/-- error.rs:39-48 `FsError` -/
inductive FsErr where
  | notFound (s : Str)
  | read
  | write
  | conflict (a b : Str)
deriving DecidableEq, Repr

/-- error.rs:8-22 `Error` -/
inductive SErr where
  | fs (e : FsErr)
  | parse (e : TB ParseErr)
  | process (e : PErr)
  | plugin (s : Str)
  | notBuilt
  | metadataNotEnabled
deriving DecidableEq, Repr

/-- lib.rs:68-77 `Environment` (the variables live in the base frame). -/
structure Env where
  root : Option (List LTok)
  md : Option (List LTok)

/-- External functions: the markdown converter pulldown-cmark (process/mod.rs:255-257). -/
structure Ext where
  mdToHtml : Str → Str

/-- What stays fixed during a build: the data the interpreter reads, the base frame (lib.rs:63) and the
configuration. -/
structure Builder where
  cx : Ctx
  base : Frame
  cfg : Config

/-- process/mod.rs:94-99 and the like: an error without a position. -/
def noPos (src : Str) (e : ProcErr) : PErr := ⟨src, 0, 0, e⟩

/-- process/mod.rs:101-141, 165-214: run `toks` on the frame `first`, check that only it is left, then run the root
template on a fresh base frame with the sections recorded, and take its output. -/
def renderOn (cx : Ctx) (first base : Frame) (src : Str) (toks root : List LTok) : Res PErr Bytes :=
  (runToks cx toks ⟨[first], []⟩).bind fun st =>
    match st.stack with
    | [] => .err (noPos src .stackError)
    | f :: fs =>
      if f.name == str!"base" then
        (runToks cx root ⟨base :: fs, st.sections⟩).bind fun st' =>
          match st'.stack with
          | [] => .panic .emptyStack
          | g :: _ => .ok g.out
      else .err (noPos src .stackError)

/-- process/mod.rs:88-142 `process_html` -/
def processHtml (b : Builder) (env : Env) (src : Str) (toks : List LTok) : Res PErr ProcessOutput :=
  match env.root with
  | none => .err (noPos src .missingHtmlRoot)
  | some root => (renderOn b.cx b.base b.base src toks root).bind fun o => .ok { newContents := some o }

/-- process/mod.rs:145-215 `process_markdown` -/
def processMd (b : Builder) (env : Env) (name src : Str) (md : ParsedMd) : Res PErr ProcessOutput :=
  match env.root with
  | none => .err (noPos src .missingHtmlRoot)
  | some root =>
    match env.md with
    | none => .err (noPos src .missingMarkdownRoot)
    | some mdToks =>
      md.toValue.bind fun v =>
      (renderOn b.cx (b.base.addVar str!"self" v) b.base src mdToks root).bind fun o =>
      (Res.unwrap .notMd (stripSuffix str!".md" name)).bind fun stem =>
        .ok { newContents := some o, newName := some (stem ++ str!".html") }

/-- parse/contents.rs:52-70 `to_json` -/
def Parsed.toJson : Parsed → Option Value
  | .html _ => Option.none
  | .none => Option.none
  | .ignored => Option.none
  | .markdown md => some (.obj [(str!"type", .str str!"markdown"), (str!"value", md.fmValue)])
  | .json v => some (.obj [(str!"type", .str str!"json"), (str!"value", v)])
  | .custom c => some c.toJson

/-- process/mod.rs:55-70: the output of processing a file. -/
def processParsed (b : Builder) (env : Env) (name src : Str) (p : Parsed) : Res SErr ProcessOutput :=
  if name != str!"root.html" && name != str!"md.html" then
    match p with
    | .html toks => (processHtml b env src toks).mapErr .process
    | .markdown md => (processMd b env name src md).mapErr .process
    | .custom c => (c.process env.root env.md).mapErr .plugin
    | _ => .ok {}
  else .ok {}

/-- process/mod.rs:54-85 `Node::process` on a file. -/
def processFile (b : Builder) (env : Env) (name : Str) (contents : Bytes) (p : Parsed) (src : Str) : Res SErr Node :=
  (processParsed b env name src p).bind fun out =>
    .ok (.file (out.newName.getD name) (out.newContents.getD contents) .none
      (if b.cfg.saveMetadata then p.toJson else none) src)

/-- lib.rs:259-262: the tokens of a template file; anything else counts as no template. -/
def templateToks : Parsed → Option (List LTok)
  | .html toks => some toks
  | _ => none

/-- lib.rs:253-275 `update_from_children` -/
def updateEnv : Env → List Node → Env
  | env, [] => env
  | env, c :: cs =>
    updateEnv
      (if c.name == str!"root.html" then { env with root := templateToks c.parsed }
       else if c.name == str!"md.html" then { env with md := templateToks c.parsed }
       else env) cs

mutual
/-- lib.rs:208-229 `build_node` -/
def buildNode (b : Builder) (env : Env) : Node → Res SErr Node
  | .file name contents p _ src => processFile b env name contents p src
  | .dir name cs src => (buildNodes b (updateEnv env cs) cs).bind fun cs' => .ok (.dir name cs' src)
/-- lib.rs:216-219: the children, stopping at the first error. -/
def buildNodes (b : Builder) (env : Env) : List Node → Res SErr (List Node)
  | [] => .ok []
  | n :: ns => (buildNode b env n).bind fun n' => (buildNodes b env ns).bind fun ns' => .ok (n' :: ns')
end

/-- process/mod.rs:231-269: render the body of a markdown file to HTML. -/
def preprocessMd (ext : Ext) (cx : Ctx) (base : Frame) (src : Str) (md : ParsedMd) : Res PErr ParsedMd :=
  (runToks cx md.markdown ⟨[base], []⟩).bind fun st =>
    match st.stack with
    | [] => .err (noPos src .stackError)
    | f :: _ =>
      if f.name == str!"base" then
        match fromUtf8 f.out with
        | none => .err (noPos src .stackError)
        | some text => .ok { md with html := some (ext.mdToHtml text) }
      else .err (noPos src .stackError)

mutual
/-- lib.rs:233-248 `preprocess_markdown_node` -/
def preNode (ext : Ext) (cx : Ctx) (base : Frame) : Node → Res SErr Node
  | .file name contents p m src =>
    match p with
    | .markdown md =>
      ((preprocessMd ext cx base src md).mapErr .process).bind fun md' => .ok (.file name contents (.markdown md') m src)
    | p => .ok (.file name contents p m src)
  | .dir name cs src => (preNodes ext cx base cs).bind fun cs' => .ok (.dir name cs' src)
/-- lib.rs:236-238 -/
def preNodes (ext : Ext) (cx : Ctx) (base : Frame) : List Node → Res SErr (List Node)
  | [] => .ok []
  | n :: ns => (preNode ext cx base n).bind fun n' => (preNodes ext cx base ns).bind fun ns' => .ok (n' :: ns')
end

/-- lib.rs:138-153: the base frame. `vars` is the process environment; the mode is appended to it. -/
def baseFrame (vars : List (Str × Str)) (mode : Str) : Frame :=
  (Frame.new str!"base").addVar str!"env"
    (.obj ((vars ++ [(str!"STUART_ENV", mode)]).map fun e => (e.1, .str e.2)))

/-- lib.rs:126-168 `Stuart::build` after the input tree has been read: preprocess the markdown against the tree as
read, then build against the preprocessed tree. The environment is updated from the root's children twice
(lib.rs:163 and 215), which changes nothing. -/
def buildTree (ext : Ext) (dateFmt : Str → Str → Option Str) (cfg : Config) (vars : List (Str × Str)) (mode : Str)
    (input : Node) : Res SErr Node :=
  let base := baseFrame vars mode
  (preNode ext ⟨input, dateFmt⟩ base input).bind fun input' =>
    buildNode ⟨⟨input', dateFmt⟩, base, cfg⟩ (updateEnv ⟨none, none⟩ (input'.children.getD [])) input'

end Stuart
