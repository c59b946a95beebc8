import Verif.Model.Build
/-
JavaScript functions that remember things. Every JavaScript plugin has a context of its own (`v8::Context::new`,
stuart/src/plugins/js/mod.rs:58-60), which its functions keep (mod.rs:24-31 and 145-150) for as long as the plugin is
loaded; `load` runs once in a process (stuart/src/build.rs:69), and all pages are made on one thread.

The interpreter of Model/Process.lean takes what a function of a plugin does to be determined by the variables it sees.
Here is the same interpreter with a state that the functions read and change. `call` says what the function that a token
calls does. Simplification: it is given with the token, in place of being found by the name.
-/
namespace Stuart

/-- What a call of a function of a plugin does: from the state of the plugins and the variables of the scopes, the new
state, the variables it adds, and its output. -/
abbrev Call (σ : Type) := σ → List (List (Str × Value)) → σ × Res ProcErr (List (Str × Value) × Bytes)

/-- One thing after another. The state is kept when something fails. -/
def thenS {σ ε α β : Type} (r : σ × Res ε α) (f : α → σ → σ × Res ε β) : σ × Res ε β :=
  match r.2 with
  | .ok a => f a r.1
  | .err e => (r.1, .err e)
  | .panic p => (r.1, .panic p)

/-- `execPlugin` with a state (js/mod.rs:179-221). -/
def execPluginS {σ : Type} (c : Call σ) (s : σ) (st : St) : σ × Res ProcErr St :=
  let r := c s (st.stack.map (·.vars))
  (r.1, execPlugin ⟨none, fun _ => r.2⟩ st)

/-- What the processing of a token yields. -/
abbrev ExS (σ : Type) := LTok → List LTok → St → σ → σ × R

/-- `bodyLoop` with a state (for.rs:243-249). -/
def bodyLoopS {σ : Type} (ex : ExS σ) (eof : PErr) (h : Nat) : Nat → List LTok → St → σ → σ × R
  | fuel, rest, st, s =>
    if st.stack.length ≤ h then (s, .ok (rest, st))
    else match rest with
      | [] => (s, .err eof)
      | t :: ts => match fuel with
        | 0 => (s, .panic .fuel)
        | k + 1 => thenS (ex t ts st s) fun x s' => bodyLoopS ex eof h k x.1 x.2 s'

/-- `ifLoop` with a state (if.rs:69-88, ifdefined.rs:54-73). -/
def ifLoopS {σ : Type} (ex : ExS σ) (eof : PErr) (h : Nat) : Nat → Bool → List LTok → St → σ → σ × R
  | fuel, cond, rest, st, s =>
    if st.stack.length ≤ h then (s, .ok (rest, st))
    else match rest with
      | [] => (s, .err eof)
      | t :: ts => match fuel with
        | 0 => (s, .panic .fuel)
        | k + 1 => thenS (s, tokName t) fun name s =>
          if cond || ((name == some str!"end" || name == some str!"else") && st.stack.length == h + 1) then
            thenS (ex t ts st s) fun x s' =>
              ifLoopS ex eof h k (if name == some str!"else" then !cond else cond) x.1 x.2 s'
          else ifLoopS ex eof h k cond ts st s

/-- `forIter` with a state (for.rs:231-250). -/
def forIterS {σ : Type} (ex : ExS σ) (eof : PErr) (var : Str) (wp : List LTok) :
    List Value → List LTok → St → σ → σ × R
  | [], rest, st, s => (s, .ok (rest, st))
  | v :: vs, _, st, s =>
    thenS (bodyLoopS ex eof st.stack.length (wp.length + 1) wp
      { st with stack := ((Frame.new (str!"for:" ++ var)).addVar var v) :: st.stack } s) fun x s' =>
      forIterS ex eof var wp vs x.1 x.2 s'

/-- `enterIf` with a state (if.rs:59-91, ifdefined.rs:49-75). -/
def enterIfS {σ : Type} (ex : ExS σ) (eof : PErr) (name : Str) (cond : Bool) (rest : List LTok) (st : St) (s : σ) : σ × R :=
  ifLoopS ex eof st.stack.length (rest.length + 1) cond rest { st with stack := Frame.new name :: st.stack } s

/-- `execTok` with a state (process/mod.rs:275-338). -/
def execTokS {σ : Type} (cx : Ctx) (call : LTok → Call σ) : Nat → ExS σ
  | 0, _, _, _, s => (s, .panic .fuel)
  | n + 1, t, rest, st, s =>
    match t.inner with
    | .func (.plugin _) =>
      let r := execPluginS (call t) s st
      thenS (r.1, r.2.mapErr t.tb) fun st' s' => (s', .ok (rest, st'))
    | .func (.for_ f) =>
      thenS (s, (forItems cx f st.stack).mapErr t.tb) fun items s =>
        forIterS (execTokS cx call n) (t.tb .unexpectedEndOfFile) f.var rest (arrange f items) rest st s
    | .func (.ifdefined v) =>
      let defined := match lookupVar v st.stack with
        | some .null => false
        | some _ => true
        | none => false
      enterIfS (execTokS cx call n) (t.tb .unexpectedEndOfFile) (str!"ifdefined:" ++ v) defined rest st s
    | .func (.cmp op a b) =>
      thenS (s, Res.ofOption (t.tb (.undefinedVariable a.toStr)) (a.eval st)) fun x s =>
      thenS (s, Res.ofOption (t.tb (.undefinedVariable b.toStr)) (b.eval st)) fun y s =>
        enterIfS (execTokS cx call n) (t.tb .unexpectedEndOfFile) (cmpFrameName op a b) (op.holds x y) rest st s
    | _ => (s, execTok cx (n + 1) t rest st)

/-- `runGo` with a state (process/mod.rs:111-113). -/
def runGoS {σ : Type} (cx : Ctx) (call : LTok → Call σ) : Nat → List LTok → St → σ → σ × Res PErr St
  | _, [], st, s => (s, .ok st)
  | 0, _ :: _, _, s => (s, .panic .fuel)
  | k + 1, t :: ts, st, s =>
    thenS (execTokS cx call (ts.length + 1) t ts st s) fun x s' => runGoS cx call k x.1 x.2 s'

/-- `runToks` with a state. -/
def runToksS {σ : Type} (cx : Ctx) (call : LTok → Call σ) (toks : List LTok) (st : St) (s : σ) : σ × Res PErr St :=
  runGoS cx call toks.length toks st s

/-- `renderOn` with a state (process/mod.rs:88-142, 176-222). -/
def renderOnS {σ : Type} (cx : Ctx) (call : LTok → Call σ) (first base : Frame) (src : Str) (toks root : List LTok) (s : σ) :
    σ × Res PErr Bytes :=
  thenS (runToksS cx call toks ⟨[first], []⟩ s) fun st s =>
    match st.stack with
    | [] => (s, .err (noPos src .stackError))
    | f :: fs =>
      if f.name == str!"base" then
        thenS (runToksS cx call root ⟨base :: fs, st.sections⟩ s) fun st' s =>
          match st'.stack with
          | [] => (s, .panic .emptyStack)
          | g :: _ => (s, .ok g.out)
      else (s, .err (noPos src .stackError))

/-- js/mod.rs:58-60, 145-150 and 182-184: a call runs in the context of its plugin. `owner` says which plugin that is,
`own` what the function does with the context. -/
def inContext {τ : Type} (owner : LTok → Str) (own : LTok → Call τ) : LTok → Call (Str → τ) := fun t s sc =>
  let r := own t (s (owner t)) sc
  (fun a => if a = owner t then r.1 else s a, r.2)

/-- A page as the interpreter gets it. -/
structure PageS where
  first : Frame
  base : Frame
  src : Str
  toks : List LTok
  root : List LTok

/-- The pages of a build one after another (lib.rs:127-149, fs/mod.rs), up to the first error. Simplification: pages in
the order in which they are made, without what else a build does. -/
def pagesS {σ : Type} (cx : Ctx) (call : LTok → Call σ) : List PageS → σ → σ × Res PErr (List Bytes)
  | [], s => (s, .ok [])
  | p :: ps, s =>
    thenS (renderOnS cx call p.first p.base p.src p.toks p.root s) fun b s =>
    thenS (pagesS cx call ps s) fun bs s => (s, .ok (b :: bs))

/-! ### Whole builds -/

/-- `map_err`, which leaves the state alone. -/
def mapErrS {σ ε ε' α : Type} (f : ε → ε') (x : σ × Res ε α) : σ × Res ε' α := (x.1, x.2.mapErr f)

section
variable {σ : Type} (call : LTok → Call σ)

/-- `processHtml` with a state (process/mod.rs:88-142). -/
def processHtmlS (b : Builder) (env : Env) (src : Str) (toks : List LTok) (s : σ) : σ × Res PErr ProcessOutput :=
  match env.root with
  | none => (s, .err (noPos src .missingHtmlRoot))
  | some root => thenS (renderOnS b.cx call b.base b.base src toks root s) fun o s => (s, .ok { newContents := some o })

/-- `processMd` with a state (process/mod.rs:145-215). -/
def processMdS (b : Builder) (env : Env) (name src : Str) (md : ParsedMd) (s : σ) : σ × Res PErr ProcessOutput :=
  match env.root with
  | none => (s, .err (noPos src .missingHtmlRoot))
  | some root =>
    match env.md with
    | none => (s, .err (noPos src .missingMarkdownRoot))
    | some mdToks =>
      thenS (s, md.toValue) fun v s =>
      thenS (renderOnS b.cx call (b.base.addVar str!"self" v) b.base src mdToks root s) fun o s =>
      thenS (s, Res.unwrap .notMd (stripSuffix str!".md" name)) fun stem s =>
        (s, .ok { newContents := some o, newName := some (stem ++ str!".html") })

/-- `processParsed` with a state (process/mod.rs:55-70). -/
def processParsedS (b : Builder) (env : Env) (name src : Str) (p : Parsed) (s : σ) : σ × Res SErr ProcessOutput :=
  if name != str!"root.html" && name != str!"md.html" then
    match p with
    | .html toks => mapErrS .process (processHtmlS call b env src toks s)
    | .markdown md => mapErrS .process (processMdS call b env name src md s)
    | .custom c => (s, (c.process env.root env.md).mapErr .plugin)
    | _ => (s, .ok {})
  else (s, .ok {})

/-- `processFile` with a state (process/mod.rs:54-85). -/
def processFileS (b : Builder) (env : Env) (name : Str) (contents : Bytes) (p : Parsed) (src : Str) (s : σ) : σ × Res SErr Node :=
  thenS (processParsedS call b env name src p s) fun out s =>
    (s, .ok (.file (out.newName.getD name) (out.newContents.getD contents) .none
      (if b.cfg.saveMetadata then p.toJson else none) src))

mutual
/-- `buildNode` with a state (lib.rs:208-229). -/
def buildNodeS (b : Builder) (env : Env) : Node → σ → σ × Res SErr Node
  | .file name contents p _ src, s => processFileS call b env name contents p src s
  | .dir name cs src, s => thenS (buildNodesS b (updateEnv env cs) cs s) fun cs' s => (s, .ok (.dir name cs' src))
/-- `buildNodes` with a state (lib.rs:216-219). -/
def buildNodesS (b : Builder) (env : Env) : List Node → σ → σ × Res SErr (List Node)
  | [], s => (s, .ok [])
  | n :: ns, s => thenS (buildNodeS b env n s) fun n' s => thenS (buildNodesS b env ns s) fun ns' s => (s, .ok (n' :: ns'))
end

/-- `preprocessMd` with a state (process/mod.rs:231-269). -/
def preprocessMdS (ext : Ext) (cx : Ctx) (base : Frame) (src : Str) (md : ParsedMd) (s : σ) : σ × Res PErr ParsedMd :=
  thenS (runToksS cx call md.markdown ⟨[base], []⟩ s) fun st s =>
    match st.stack with
    | [] => (s, .err (noPos src .stackError))
    | f :: _ =>
      if f.name == str!"base" then
        match fromUtf8 f.out with
        | none => (s, .err (noPos src .stackError))
        | some text => (s, .ok { md with html := some (ext.mdToHtml text) })
      else (s, .err (noPos src .stackError))

mutual
/-- `preNode` with a state (lib.rs:233-248). -/
def preNodeS (ext : Ext) (cx : Ctx) (base : Frame) : Node → σ → σ × Res SErr Node
  | .file name contents p m src, s =>
    match p with
    | .markdown md =>
      thenS (mapErrS .process (preprocessMdS call ext cx base src md s)) fun md' s => (s, .ok (.file name contents (.markdown md') m src))
    | p => (s, .ok (.file name contents p m src))
  | .dir name cs src, s => thenS (preNodesS ext cx base cs s) fun cs' s => (s, .ok (.dir name cs' src))
/-- `preNodes` with a state (lib.rs:236-238). -/
def preNodesS (ext : Ext) (cx : Ctx) (base : Frame) : List Node → σ → σ × Res SErr (List Node)
  | [], s => (s, .ok [])
  | n :: ns, s =>
    thenS (preNodeS ext cx base n s) fun n' s => thenS (preNodesS ext cx base ns s) fun ns' s => (s, .ok (n' :: ns'))
end

/-- `buildTree` with a state (lib.rs:126-168). -/
def buildTreeS (ext : Ext) (dateFmt : Str → Str → Option Str) (cfg : Config) (vars : List (Str × Str)) (mode : Str)
    (input : Node) (s : σ) : σ × Res SErr Node :=
  let base := baseFrame vars mode
  thenS (preNodeS call ext ⟨input, dateFmt⟩ base input s) fun input' s =>
    buildNodeS call ⟨⟨input', dateFmt⟩, base, cfg⟩ (updateEnv ⟨none, none⟩ (input'.children.getD [])) input' s

end

end Stuart
