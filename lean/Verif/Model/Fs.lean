import Verif.Model.Disk
import Verif.Model.Build
/-
Reading, merging and saving trees, and the builder: stuart-core/src/fs/mod.rs:50-75, 165-423, lib.rs:78-205.
-/
namespace Stuart

/-- plugins/mod.rs:40-46 `NodeParser` -/
structure NodeParser where
  extensions : List Str
  parse : Bytes → Str → Res Str Custom

/-- plugins/mod.rs:25-37 `Plugin` (the version is not used by the code). -/
structure Plugin where
  fns : PluginFns
  parsers : List NodeParser

/-- Everything outside the program: character tables, libraries, and the environment of the process. -/
structure Sys where
  U : Unicode
  ext : Ext
  dateFmt : Str → Str → Option Str
  /-- `humphrey_json::from_str` -/
  parseJson : Str → Option Value
  /-- `Value::serialize` -/
  serialize : Value → Str
  /-- `std::env::vars()` -/
  vars : List (Str × Str)

/-- `Path::extension` of a file name: what follows the last dot, unless that dot is the first character. -/
def extension (name : Str) : Option Str :=
  match splitFirst '.' name.reverse with
  | (_, none) => none
  | (_, some []) => none
  | (r, some _) => some r.reverse

/-- fs/mod.rs:226-242: the first parser, plugin by plugin, that knows the extension. -/
def findParser (plugins : List Plugin) (ext : Str) : Option NodeParser :=
  (plugins.flatMap fun p => p.parsers).find? fun q => q.extensions.contains ext

/-- fs/mod.rs:204-247: parse the contents of a file. -/
def parseContents (S : Sys) (plugins : List Plugin) (name src : Str) (b : Bytes) : Res SErr Parsed :=
  match extension name with
  | none => .ok .none
  | some e =>
    if e = str!"html" then
      (Res.ofOption (.fs .read) (fromUtf8 b)).bind fun s =>
      ((parseHtml S.U src (plugins.map fun p => p.fns) s).mapErr .parse).bind fun toks => .ok (.html toks)
    else if e = str!"md" then
      (Res.ofOption (.fs .read) (fromUtf8 b)).bind fun s =>
      ((parseMarkdown S.U src (plugins.map fun p => p.fns) s).mapErr .parse).bind fun md => .ok (.markdown md)
    else if e = str!"json" then
      (Res.ofOption (.fs .read) (fromUtf8 b)).bind fun s =>
      (Res.ofOption (.parse ⟨src, 0, 0, .invalidJson⟩) (S.parseJson s)).bind fun v => .ok (.json v)
    else match findParser plugins e with
      | none => .ok .none
      | some q => ((q.parse b src).mapErr .plugin).bind fun c => .ok (.custom c)

/-- fs/mod.rs:195-258 `create_from_file` -/
def readFile (S : Sys) (parse : Bool) (plugins : List Plugin) (p : Path) (name : Str) (b : Bytes) : Res SErr Node :=
  (if parse then parseContents S plugins name (pathStr p) b else .ok .ignored).bind fun c =>
    .ok (.file name b c none (pathStr p))

mutual
/-- fs/mod.rs:176-184, for the entry of this name in a directory, now at path `p`. -/
def readEntry (S : Sys) (parse : Bool) (plugins : List Plugin) (p : Path) (name : Str) : Entry → Res SErr Node
  | .file b => readFile S parse plugins p name b
  | .dir l => (readEntries S parse plugins p l).bind fun cs => .ok (.dir name cs (pathStr p))
  | .special => .err (.fs .read)
/-- fs/mod.rs:174-186, stopping at the first error. -/
def readEntries (S : Sys) (parse : Bool) (plugins : List Plugin) (p : Path) : List (Str × Entry) → Res SErr (List Node)
  | [] => .ok []
  | (n, e) :: l =>
    (readEntry S parse plugins (p ++ [n]) n e).bind fun c =>
    (readEntries S parse plugins p l).bind fun cs => .ok (c :: cs)
end

/-- fs/mod.rs:50-75, 165-192: `Node::new`, `Node::new_with_plugins`, `create_from_dir`. -/
def readTree (S : Sys) (parse : Bool) (plugins : List Plugin) (disk : Entry) (p : Path) : Res SErr Node :=
  match disk.at p with
  | some (.dir l) =>
    (readEntries S parse plugins p l).bind fun cs =>
    (Res.unwrap .noFileName p.getLast?).bind fun name => .ok (.dir name cs (pathStr p))
  | _ => .err (.fs (.notFound (pathStr p)))

/-- The first child of this name, with what comes before and after it. -/
def splitAtName (n : Str) : List Node → Option (List Node × Node × List Node)
  | [] => none
  | c :: cs =>
    if c.name = n then some ([], c, cs)
    else (splitAtName n cs).map fun r => (c :: r.1, r.2)

mutual
/-- fs/mod.rs:294-329 `Node::merge`: the tree as it is left, and the result. -/
def mergeNode (self : Node) : Node → Node × Res SErr Unit
  | .dir _ os _ =>
    match self with
    | .dir n cs s => (.dir n (mergeAll cs os).1 s, (mergeAll cs os).2)
    | .file n c p m s => (.file n c p m s, .panic .notADirectory)
  | .file .. => (self, .panic .notADirectory)
/-- fs/mod.rs:303-325: the loop over the children of the other tree. -/
def mergeAll (cs : List Node) : List Node → List Node × Res SErr Unit
  | [] => (cs, .ok ())
  | o :: os =>
    match splitAtName o.name cs with
    | none => mergeAll (cs ++ [o]) os
    | some (before, c, after) =>
      if c.isDir && o.isDir then
        match (mergeNode c o).2 with
        | .ok () => mergeAll (before ++ (mergeNode c o).1 :: after) os
        | r => (before ++ (mergeNode c o).1 :: after, r)
      else (cs, .err (.fs (.conflict c.source o.source)))
end

/-- parse/contents.rs:47-49 `is_ignored` -/
def Parsed.isIgnored : Parsed → Bool
  | .ignored => true
  | _ => false

mutual
/-- fs/mod.rs:332-384 `save_recur`: the changes it makes, in order. -/
def saveRec (cfg : Config) (p : Path) : Node → List Op
  | .dir name cs _ => .mkdirTolerant (joinPath p name) :: saveAll cfg (joinPath p name) cs
  | .file name b parsed _ _ =>
    if name != str!"root.html" && name != str!"md.html" && (cfg.saveDataFiles || !endsWith str!".json" name) then
      if cfg.stripExtensions && endsWith str!".html" name && name != str!"index.html" && !parsed.isIgnored then
        let dir := joinPath p ((stripSuffix str!".html" name).getD [])
        [.mkdirTolerant dir, .write (joinPath dir str!"index.html") b]
      else [.write (joinPath p name) b]
    else []
/-- fs/mod.rs:272-274, 347-349 -/
def saveAll (cfg : Config) (p : Path) : List Node → List Op
  | [] => []
  | c :: cs => saveRec cfg p c ++ saveAll cfg p cs
end

/-- Make changes until one fails. -/
def runOps : List Op → World → World × Res SErr Unit
  | [], w => (w, .ok ())
  | o :: os, w => if (w.step o).2 then runOps os (w.step o).1 else ((w.step o).1, .err (.fs .write))

/-- fs/mod.rs:261-280 `Node::save`. On a file it removes the directory before it panics. -/
def saveNode (cfg : Config) (path : Path) (n : Node) (w : World) : World × Res SErr Unit :=
  match n with
  | .dir _ cs _ => runOps (.clear path :: .mkdir path :: saveAll cfg path cs) w
  | .file .. => match runOps [.clear path] w with
    | (w', .ok ()) => (w', .panic .notADirectory)
    | r => r

/-- fs/mod.rs:412-415: copy the entries of the metadata, one by one. -/
def setAll (v : Value) : List (Str × Value) → Value
  | [] => v
  | (k, x) :: l => setAll (v.setKey k x) l

mutual
/-- fs/mod.rs:387-423 `save_metadata_recur` below the root. -/
def metaNode : Node → Res SErr Value
  | .dir name cs _ => (metaNodes cs).bind fun vs =>
    .ok (.obj [(str!"type", .str str!"directory"), (str!"name", .str name), (str!"children", .arr vs)])
  | .file name _ _ m _ =>
    match m with
    | some v => (Res.unwrap .metadataNotObject v.asObject).bind fun l => .ok (setAll (.obj [(str!"name", .str name)]) l)
    | none => .ok ((Value.obj [(str!"name", .str name)]).setKey str!"type" (.str str!"file"))
/-- fs/mod.rs:390-393 -/
def metaNodes : List Node → Res SErr (List Value)
  | [] => .ok []
  | n :: ns => (metaNode n).bind fun v => (metaNodes ns).bind fun vs => .ok (v :: vs)
end

/-- fs/mod.rs:387-423 with `is_first`. -/
def metaRoot : Node → Res SErr Value
  | .dir _ cs _ => (metaNodes cs).bind fun vs => .ok (.arr vs)
  | n => metaNode n

/-- fs/mod.rs:284-290 `Node::save_metadata` -/
def saveMetaNode (S : Sys) (base : Value) (path : Path) (n : Node) (w : World) : World × Res SErr Unit :=
  match metaRoot n with
  | .ok v => runOps [.write path (bytesOf (S.serialize (base.setKey str!"data" v)))] w
  | .err e => (w, .err e)
  | .panic p => (w, .panic p)

/-- lib.rs:50-66 `Stuart`. -/
structure Project where
  dir : Path
  input : Option Node := none
  output : Option Node := none
  config : Config := .default
  plugins : List Plugin := []

/-- lib.rs:126-168 `Stuart::build`: the builder as it is left, and the result. -/
def Project.build (S : Sys) (disk : Entry) (mode : Str) (s : Project) : Project × Res SErr Unit :=
  match readTree S true s.plugins disk s.dir with
  | .err e => (s, .err e)
  | .panic p => (s, .panic p)
  | .ok input =>
    let base := baseFrame S.vars mode
    match preNode S.ext ⟨input, S.dateFmt⟩ base input with
    | .err e => ({ s with input := some input }, .err e)
    | .panic p => ({ s with input := some input }, .panic p)
    | .ok input' =>
      match buildNode ⟨⟨input', S.dateFmt⟩, base, s.config⟩ (updateEnv ⟨none, none⟩ (input'.children.getD [])) input' with
      | .err e => ({ s with input := some input' }, .err e)
      | .panic p => ({ s with input := some input' }, .panic p)
      | .ok out => ({ s with input := some input', output := some out }, .ok ())

/-- lib.rs:173-178 `merge_output` -/
def Project.mergeOutput (n : Node) (s : Project) : Project × Res SErr Unit :=
  match s.output with
  | none => (s, .err .notBuilt)
  | some out => ({ s with output := some (mergeNode out n).1 }, (mergeNode out n).2)

/-- lib.rs:181-187 `save` -/
def Project.save (path : Path) (s : Project) (w : World) : World × Res SErr Unit :=
  match s.output with
  | none => (w, .err .notBuilt)
  | some out => saveNode s.config path out w

/-- lib.rs:190-205 `save_metadata` -/
def Project.saveMetadata (S : Sys) (path : Path) (s : Project) (w : World) : World × Res SErr Unit :=
  if !s.config.saveMetadata then (w, .err .metadataNotEnabled)
  else match s.output with
    | none => (w, .err .notBuilt)
    | some out =>
      saveMetaNode S (.obj [(str!"name", .str s.config.name),
        (str!"author", (s.config.author.map Value.str).getD .null)]) path out w

end Stuart
