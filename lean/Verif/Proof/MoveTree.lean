import Verif.Proof.Move
/-
Reading, building and merging trees that are elsewhere.
-/
namespace Stuart
open Spec

variable {ρ : Str → Str}

theorem renderOn_moved (cx : Ctx) (first base : Frame) (src : Str) (toks root : List LTok) :
    renderOn (movedCtx ρ cx) first base (ρ src) (toks.map (movedTok ρ)) (root.map (movedTok ρ)) =
      (renderOn cx first base src toks root).both (movedTB ρ) id := by
  unfold renderOn
  refine Res.bind_both (runToks_moved cx toks _) fun st => ?_
  simp only [id]
  cases st.stack with
  | nil => rfl
  | cons f fs =>
    simp only
    split
    · refine Res.bind_both (runToks_moved cx root _) fun st' => ?_
      simp only [id]
      cases st'.stack <;> rfl
    · rfl

/-- Templates that are elsewhere. -/
def movedEnv (ρ : Str → Str) (env : Env) : Env := ⟨env.root.map (List.map (movedTok ρ)), env.md.map (List.map (movedTok ρ))⟩

/-- The input tree is elsewhere. -/
def movedBuilder (ρ : Str → Str) (b : Builder) : Builder := { b with cx := movedCtx ρ b.cx }

theorem processHtml_moved (b : Builder) (env : Env) (src : Str) (toks : List LTok) :
    processHtml (movedBuilder ρ b) (movedEnv ρ env) (ρ src) (toks.map (movedTok ρ)) =
      (processHtml b env src toks).both (movedTB ρ) id := by
  unfold processHtml movedEnv
  cases env.root with
  | none => rfl
  | some root => exact Res.bind_both (renderOn_moved b.cx _ _ src toks root) fun _ => rfl

theorem toValue_moved {ε : Type} (md : ParsedMd) : ((movedMd ρ md).toValue : Res ε Value) = md.toValue := rfl

theorem processMd_moved (b : Builder) (env : Env) (name src : Str) (md : ParsedMd) :
    processMd (movedBuilder ρ b) (movedEnv ρ env) name (ρ src) (movedMd ρ md) =
      (processMd b env name src md).both (movedTB ρ) id := by
  unfold processMd movedEnv
  cases env.root with
  | none => rfl
  | some root =>
    cases env.md with
    | none => rfl
    | some mdToks =>
      simp only [Option.map_some]
      refine Res.bind_both (g := id) ?_ fun v => Res.bind_both (renderOn_moved b.cx _ _ src mdToks root) fun o =>
        Res.bind_both (g := id) ?_ fun _ => rfl
      · rw [toValue_moved]
        unfold ParsedMd.toValue
        cases md.html <;> rfl
      · cases stripSuffix str!".md" name <;> rfl

/-- What a plugin made of a file does not look at paths, and gives plain names. -/
def Unmoved (ρ : Str → Str) : Parsed → Prop
  | .custom c => (∀ root md, c.process (root.map (List.map (movedTok ρ))) (md.map (List.map (movedTok ρ))) = c.process root md) ∧
      ∀ root md out n, c.process root md = .ok out → out.newName = some n → PlainName n
  | _ => True

theorem processParsed_moved (b : Builder) (env : Env) (name src : Str) (p : Parsed) (hp : Unmoved ρ p) :
    processParsed (movedBuilder ρ b) (movedEnv ρ env) name (ρ src) (movedParsed ρ p) =
      (processParsed b env name src p).both (movedErr ρ) id := by
  unfold processParsed
  split
  · cases p with
    | html toks =>
      simp only [movedParsed, processHtml_moved]
      cases processHtml b env src toks <;> rfl
    | markdown md =>
      simp only [movedParsed, processMd_moved]
      cases processMd b env name src md <;> rfl
    | custom c =>
      simp only [movedParsed, movedEnv]
      rw [hp.1 env.root env.md]
      cases c.process env.root env.md <;> rfl
    | json v => rfl
    | none => rfl
    | ignored => rfl
  · rfl

theorem processFile_moved (b : Builder) (env : Env) (name : Str) (contents : Bytes) (p : Parsed) (src : Str) (hp : Unmoved ρ p) :
    processFile (movedBuilder ρ b) (movedEnv ρ env) name contents (movedParsed ρ p) (ρ src) =
      (processFile b env name contents p src).both (movedErr ρ) (movedNode ρ) := by
  unfold processFile
  refine Res.bind_both (processParsed_moved b env name src p hp) fun out => ?_
  cases p <;> rfl

theorem updateEnv_moved : ∀ (cs : List Node) (env : Env),
    updateEnv (movedEnv ρ env) (cs.map (movedNode ρ)) = movedEnv ρ (updateEnv env cs)
  | [], env => rfl
  | c :: cs, env => by
    rw [List.map_cons, updateEnv, updateEnv, ← updateEnv_moved cs, movedNode_name, movedNode_parsed]
    have ht : templateToks (movedParsed ρ c.parsed) = (templateToks c.parsed).map (List.map (movedTok ρ)) := by
      cases c.parsed <;> rfl
    rw [ht]
    congr 1
    split
    · rfl
    · split <;> rfl

mutual
/-- No file of the tree has contents that look at paths. -/
def UnmovedNode (ρ : Str → Str) : Node → Prop
  | .file _ _ p _ _ => Unmoved ρ p
  | .dir _ cs _ => UnmovedNodes ρ cs
/-- The same for several. -/
def UnmovedNodes (ρ : Str → Str) : List Node → Prop
  | [] => True
  | n :: ns => UnmovedNode ρ n ∧ UnmovedNodes ρ ns
end

mutual
theorem buildNode_moved (b : Builder) : ∀ (n : Node) (env : Env), UnmovedNode ρ n →
    buildNode (movedBuilder ρ b) (movedEnv ρ env) (movedNode ρ n) = (buildNode b env n).both (movedErr ρ) (movedNode ρ)
  | .file name c p m src, env, h => processFile_moved b env name c p src h
  | .dir name cs src, env, h => by
    rw [movedNode, buildNode, buildNode, movedNodes_map, updateEnv_moved, ← movedNodes_map]
    refine Res.bind_both (buildNodes_moved b cs _ h) fun os => ?_
    rw [← movedNodes_map]
    rfl
theorem buildNodes_moved (b : Builder) : ∀ (cs : List Node) (env : Env), UnmovedNodes ρ cs →
    buildNodes (movedBuilder ρ b) (movedEnv ρ env) (movedNodes ρ cs) = (buildNodes b env cs).both (movedErr ρ) (List.map (movedNode ρ))
  | [], env, _ => rfl
  | c :: cs, env, h => by
    rw [movedNodes, buildNodes, buildNodes]
    exact Res.bind_both (buildNode_moved b c env h.1) fun _ => Res.bind_both (buildNodes_moved b cs env h.2) fun _ => rfl
end

theorem preprocessMd_moved (ext : Ext) (cx : Ctx) (base : Frame) (src : Str) (md : ParsedMd) :
    preprocessMd ext (movedCtx ρ cx) base (ρ src) (movedMd ρ md) = (preprocessMd ext cx base src md).both (movedTB ρ) (movedMd ρ) := by
  unfold preprocessMd
  refine Res.bind_both (runToks_moved cx md.markdown _) fun st => ?_
  simp only [id]
  cases st.stack with
  | nil => rfl
  | cons f fs =>
    simp only
    split
    · cases fromUtf8 f.out <;> rfl
    · rfl

mutual
theorem preNode_moved (ext : Ext) (cx : Ctx) (base : Frame) : ∀ n : Node,
    preNode ext (movedCtx ρ cx) base (movedNode ρ n) = (preNode ext cx base n).both (movedErr ρ) (movedNode ρ)
  | .file name c p m src => by
    cases p with
    | markdown md =>
      simp only [movedNode, movedParsed, preNode, preprocessMd_moved]
      cases preprocessMd ext cx base src md <;> rfl
    | _ => rfl
  | .dir name cs src => by
    rw [movedNode, preNode, preNode]
    refine Res.bind_both (preNodes_moved ext cx base cs) fun os => ?_
    rw [← movedNodes_map]
    rfl
theorem preNodes_moved (ext : Ext) (cx : Ctx) (base : Frame) : ∀ cs : List Node,
    preNodes ext (movedCtx ρ cx) base (movedNodes ρ cs) = (preNodes ext cx base cs).both (movedErr ρ) (List.map (movedNode ρ))
  | [] => rfl
  | c :: cs => by
    rw [movedNodes, preNodes, preNodes]
    exact Res.bind_both (preNode_moved ext cx base c) fun _ => Res.bind_both (preNodes_moved ext cx base cs) fun _ => rfl
end

mutual
theorem preNode_unmoved (ext : Ext) (cx : Ctx) (base : Frame) : ∀ (n n' : Node), UnmovedNode ρ n →
    preNode ext cx base n = .ok n' → UnmovedNode ρ n'
  | .file name c p m src, n', hn, h => by
    cases p with
    | markdown md =>
      rw [preNode] at h
      cases hm : preprocessMd ext cx base src md with
      | ok md' => simp only [hm, Res.mapErr_ok, Res.bind_ok] at h; cases h; trivial
      | err e => simp [hm] at h
      | panic p => simp [hm] at h
    | _ => rw [preNode] at h <;> first | (cases h; exact hn) | nofun
  | .dir name cs src, n', hn, h => by
    rw [preNode] at h
    cases hc : preNodes ext cx base cs with
    | ok cs' =>
      rw [hc] at h
      cases h
      exact preNodes_unmoved ext cx base cs cs' hn hc
    | err e => rw [hc] at h; cases h
    | panic p => rw [hc] at h; cases h
theorem preNodes_unmoved (ext : Ext) (cx : Ctx) (base : Frame) : ∀ (cs cs' : List Node), UnmovedNodes ρ cs →
    preNodes ext cx base cs = .ok cs' → UnmovedNodes ρ cs'
  | [], _, _, h => by cases h; trivial
  | c :: cs, cs', hn, h => by
    rw [preNodes] at h
    cases h1 : preNode ext cx base c with
    | ok c' =>
      rw [h1, Res.bind_ok] at h
      cases h2 : preNodes ext cx base cs with
      | ok os =>
        rw [h2] at h
        cases h
        exact ⟨preNode_unmoved ext cx base c c' hn.1 h1, preNodes_unmoved ext cx base cs os hn.2 h2⟩
      | err e => rw [h2] at h; cases h
      | panic p => rw [h2] at h; cases h
    | err e => rw [h1] at h; cases h
    | panic p => rw [h1] at h; cases h
end

theorem buildTree_moved (ext : Ext) (df : Str → Str → Option Str) (cfg : Config) (vars : List (Str × Str)) (mode : Str) (n : Node)
    (hn : UnmovedNode ρ n) :
    buildTree ext df cfg vars mode (movedNode ρ n) = (buildTree ext df cfg vars mode n).both (movedErr ρ) (movedNode ρ) := by
  unfold buildTree
  simp only
  have hp := preNode_moved (ρ := ρ) ext ⟨n, df⟩ (baseFrame vars mode) n
  have hb : ∀ n', UnmovedNode ρ n' → buildNode ⟨⟨movedNode ρ n', df⟩, baseFrame vars mode, cfg⟩
      (updateEnv ⟨none, none⟩ ((movedNode ρ n').children.getD [])) (movedNode ρ n') =
      (buildNode ⟨⟨n', df⟩, baseFrame vars mode, cfg⟩ (updateEnv ⟨none, none⟩ (n'.children.getD [])) n').both (movedErr ρ) (movedNode ρ) := by
    intro n' hn'
    have he : updateEnv ⟨none, none⟩ ((movedNode ρ n').children.getD []) =
        movedEnv ρ (updateEnv ⟨none, none⟩ (n'.children.getD [])) := by
      rw [← updateEnv_moved, movedNode_children]
      cases n'.children <;> rfl
    rw [he]
    exact buildNode_moved ⟨⟨n', df⟩, baseFrame vars mode, cfg⟩ n' _ hn'
  rw [show (⟨movedNode ρ n, df⟩ : Ctx) = movedCtx ρ ⟨n, df⟩ from rfl, hp]
  cases h : preNode ext ⟨n, df⟩ (baseFrame vars mode) n with
  | ok n' => exact hb n' (preNode_unmoved ext _ _ n n' hn h)
  | err e => rfl
  | panic p => rfl

/-! ### Reading -/

theorem findParser_placeless {plugins : List Plugin} (h : AllPlaceless plugins) {ext : Str} {q : NodeParser}
    (hq : findParser plugins ext = some q) : Placeless q := by
  have := List.mem_of_find?_eq_some hq
  obtain ⟨p, hp, hq⟩ := List.mem_flatMap.1 this
  exact h p hp q hq

theorem parseContents_moved (S : Sys) {plugins : List Plugin} (hp : AllPlaceless plugins) (name src : Str) (b : Bytes) :
    parseContents S plugins name (ρ src) b = (parseContents S plugins name src b).both (movedErr ρ) (movedParsed ρ) := by
  unfold parseContents
  split
  · rfl
  · rename_i e _
    split
    · refine Res.bind_both (g := id) (by cases fromUtf8 b <;> rfl) fun s => ?_
      simp only [id, parseHtml_moved]
      cases parseHtml S.U src (plugins.map fun p => p.fns) s <;> rfl
    · split
      · refine Res.bind_both (g := id) (by cases fromUtf8 b <;> rfl) fun s => ?_
        simp only [id, parseMarkdown_moved]
        cases parseMarkdown S.U src (plugins.map fun p => p.fns) s <;> rfl
      · split
        · refine Res.bind_both (g := id) (by cases fromUtf8 b <;> rfl) fun s => ?_
          simp only [id]
          cases S.parseJson s <;> rfl
        · cases hq : findParser plugins e with
          | none => rfl
          | some q =>
            simp only
            rw [(findParser_placeless hp hq).parse b (ρ src) src]
            cases q.parse b src <;> rfl

theorem parseContents_unmoved (S : Sys) {plugins : List Plugin} (hp : AllPlaceless plugins) (name src : Str) (b : Bytes) (c : Parsed)
    (h : parseContents S plugins name src b = .ok c) : Unmoved ρ c := by
  cases c with
  | custom c =>
    unfold parseContents at h
    split at h
    · cases h
    · rename_i e _
      split at h
      · cases h1 : fromUtf8 b with
        | none => rw [h1] at h; cases h
        | some s =>
          rw [h1] at h
          simp only [Res.ofOption_some, Res.bind_ok] at h
          cases h2 : parseHtml S.U src (plugins.map fun p => p.fns) s <;> rw [h2] at h <;> cases h
      · split at h
        · cases h1 : fromUtf8 b with
          | none => rw [h1] at h; cases h
          | some s =>
            rw [h1] at h
            simp only [Res.ofOption_some, Res.bind_ok] at h
            cases h2 : parseMarkdown S.U src (plugins.map fun p => p.fns) s <;> rw [h2] at h <;> cases h
        · split at h
          · cases h1 : fromUtf8 b with
            | none => rw [h1] at h; cases h
            | some s =>
              rw [h1] at h
              simp only [Res.ofOption_some, Res.bind_ok] at h
              cases h2 : S.parseJson s <;> rw [h2] at h <;> cases h
          · cases hq : findParser plugins e with
            | none => rw [hq] at h; cases h
            | some q =>
              simp only [hq] at h
              cases h2 : q.parse b src with
              | ok c' =>
                rw [h2] at h
                cases h
                exact ⟨(findParser_placeless hp hq).process b src _ h2 ρ, (findParser_placeless hp hq).names b src _ h2⟩
              | err e => rw [h2] at h; cases h
              | panic p => rw [h2] at h; cases h
  | _ => trivial

variable {old new : Path} (hρ : ∀ r, ρ (pathStr (old ++ r)) = pathStr (new ++ r))
include hρ

theorem readFile_moved (S : Sys) (parse : Bool) {plugins : List Plugin} (hp : AllPlaceless plugins) (r : Path) (name : Str) (b : Bytes) :
    readFile S parse plugins (new ++ r) name b = (readFile S parse plugins (old ++ r) name b).both (movedErr ρ) (movedNode ρ) := by
  unfold readFile
  rw [← hρ]
  refine Res.bind_both (g := movedParsed ρ) ?_ fun _ => rfl
  split
  · exact parseContents_moved S hp name _ b
  · rfl

set_option linter.unusedSectionVars false in
mutual
theorem readEntry_moved (S : Sys) (parse : Bool) {plugins : List Plugin} (hp : AllPlaceless plugins) (name : Str) : ∀ (e : Entry) (r : Path),
    readEntry S parse plugins (new ++ r) name e = (readEntry S parse plugins (old ++ r) name e).both (movedErr ρ) (movedNode ρ)
  | .file b, r => by rw [readEntry, readEntry]; exact readFile_moved hρ S parse hp r name b
  | .dir l, r => by
    rw [readEntry, readEntry]
    refine Res.bind_both (readEntries_moved S parse hp l r) fun cs => ?_
    rw [← hρ, ← movedNodes_map]
    rfl
  | .special, r => by rw [readEntry, readEntry]; rfl
theorem readEntries_moved (S : Sys) (parse : Bool) {plugins : List Plugin} (hp : AllPlaceless plugins) : ∀ (l : List (Str × Entry)) (r : Path),
    readEntries S parse plugins (new ++ r) l = (readEntries S parse plugins (old ++ r) l).both (movedErr ρ) (List.map (movedNode ρ))
  | [], r => by rw [readEntries, readEntries]; rfl
  | (n, e) :: l, r => by
    rw [readEntries, readEntries, List.append_assoc, List.append_assoc]
    exact Res.bind_both (readEntry_moved S parse hp n e (r ++ [n])) fun _ => Res.bind_both (readEntries_moved S parse hp l r) fun _ => rfl
end

theorem readTree_moved (S : Sys) (parse : Bool) {plugins : List Plugin} (hp : AllPlaceless plugins) {d d' : Entry}
    (h : d'.at new = d.at old) {r : Path} (hr : r ≠ []) :
    readTree S parse plugins d' (new ++ r) = (readTree S parse plugins d (old ++ r)).both (movedErr ρ) (movedNode ρ) := by
  unfold readTree
  have hat : d'.at (new ++ r) = d.at (old ++ r) := by rw [at_append, at_append, h]
  rw [hat]
  split
  · refine Res.bind_both (readEntries_moved hρ S parse hp _ r) fun cs => ?_
    have hl : (new ++ r).getLast? = (old ++ r).getLast? := by
      rw [List.getLast?_append, List.getLast?_append]
      cases hx : r.getLast? with
      | none => exact absurd (List.getLast?_eq_none_iff.1 hx) hr
      | some x => rfl
    rw [hl]
    refine Res.bind_both (g := id) (by cases (old ++ r).getLast? <;> rfl) fun name => ?_
    rw [← hρ, ← movedNodes_map]
    rfl
  · rw [← hρ]; rfl

omit hρ

mutual
theorem readEntry_unmoved (S : Sys) (parse : Bool) {plugins : List Plugin} (hp : AllPlaceless plugins) (name : Str) : ∀ (e : Entry) (p : Path) (n : Node),
    readEntry S parse plugins p name e = .ok n → UnmovedNode ρ n
  | .file b, p, n, h => by
    rw [readEntry, readFile] at h
    split at h
    · cases hc : parseContents S plugins name (pathStr p) b with
      | ok c => rw [hc] at h; cases h; exact parseContents_unmoved S hp name _ b c hc
      | err e => rw [hc] at h; cases h
      | panic e => rw [hc] at h; cases h
    · cases h; trivial
  | .dir l, p, n, h => by
    rw [readEntry] at h
    cases hc : readEntries S parse plugins p l with
    | ok cs => rw [hc] at h; cases h; exact readEntries_unmoved S parse hp l p cs hc
    | err e => rw [hc] at h; cases h
    | panic e => rw [hc] at h; cases h
  | .special, p, n, h => by rw [readEntry] at h; cases h
theorem readEntries_unmoved (S : Sys) (parse : Bool) {plugins : List Plugin} (hp : AllPlaceless plugins) : ∀ (l : List (Str × Entry)) (p : Path) (cs : List Node),
    readEntries S parse plugins p l = .ok cs → UnmovedNodes ρ cs
  | [], p, cs, h => by rw [readEntries] at h; cases h; trivial
  | (n, e) :: l, p, cs, h => by
    rw [readEntries] at h
    cases h1 : readEntry S parse plugins (p ++ [n]) n e with
    | ok c =>
      rw [h1, Res.bind_ok] at h
      cases h2 : readEntries S parse plugins p l with
      | ok os =>
        rw [h2] at h
        cases h
        exact ⟨readEntry_unmoved S parse hp n e _ c h1, readEntries_unmoved S parse hp l p os h2⟩
      | err e => rw [h2] at h; cases h
      | panic p => rw [h2] at h; cases h
    | err e => rw [h1] at h; cases h
    | panic p => rw [h1] at h; cases h
end

theorem readTree_unmoved (S : Sys) (parse : Bool) {plugins : List Plugin} (hp : AllPlaceless plugins) {d : Entry} {p : Path} {n : Node}
    (h : readTree S parse plugins d p = .ok n) : UnmovedNode ρ n := by
  unfold readTree at h
  split at h
  · rename_i l _
    cases hc : readEntries S parse plugins p l with
    | ok cs =>
      rw [hc, Res.bind_ok] at h
      cases hl : p.getLast? with
      | none => rw [hl] at h; cases h
      | some x => rw [hl] at h; cases h; exact readEntries_unmoved S parse hp l p cs hc
    | err e => rw [hc] at h; cases h
    | panic e => rw [hc] at h; cases h
  · cases h

end Stuart
