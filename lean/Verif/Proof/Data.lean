import Verif.Spec.Terms
import Verif.Proof.Build
/-
Rendering reads only the data of the content tree; rendering markdown bodies keeps the tree.
-/
namespace Stuart
open Spec

/-! ### Only the data matters -/

theorem dataOf_name (n : Node) : (dataOf n).name = n.name := by cases n <;> rfl

theorem dataOf_isDir (n : Node) : (dataOf n).isDir = n.isDir := by cases n <;> rfl

theorem datasOf_map (cs : List Node) : datasOf cs = cs.map dataOf := by
  induction cs with
  | nil => rfl
  | cons c cs ih => rw [datasOf, ih, List.map_cons]

theorem dataOf_children (n : Node) : (dataOf n).children = n.children.map fun cs => cs.map dataOf := by
  cases n with
  | file => rfl
  | dir d cs s => simp only [dataOf, Node.children, datasOf_map, Option.map_some]

theorem getComps_data : ∀ (cs : List Comp) (n : Node), getComps (dataOf n) cs = (getComps n cs).map dataOf := by
  intro cs
  induction cs with
  | nil => intro n; rfl
  | cons c cs ih =>
    intro n
    cases c with
    | rootDir => rfl
    | parentDir => rfl
    | curDir => exact ih n
    | normal s =>
      simp only [getComps, dataOf_children]
      cases hc : n.children with
      | none => rfl
      | some ch =>
        simp only [Option.map_some, Option.bind_some]
        rw [List.find?_map]
        have : ((fun m : Node => m.name == s) ∘ dataOf) = fun m => m.name == s := by
          funext m; simp [dataOf_name]
        rw [this]
        cases ch.find? fun m => m.name == s with
        | none => rfl
        | some m => exact ih m

theorem getAtPath_data (n : Node) (p : Str) : (dataOf n).getAtPath p = (n.getAtPath p).map dataOf := getComps_data _ _

theorem dataOf_json {n : Node} : ∀ {v : Value}, (dataOf n).parsed = .json v ↔ n.parsed = .json v := by
  intro v
  cases n with
  | dir => simp [dataOf, Node.parsed]
  | file a b p m s => cases p <;> simp [dataOf, Node.parsed]

theorem dataOf_md {n : Node} : ∀ {v : ParsedMd}, (dataOf n).parsed = .markdown v ↔ n.parsed = .markdown v := by
  intro v
  cases n with
  | dir => simp [dataOf, Node.parsed]
  | file a b p m s => cases p <;> simp [dataOf, Node.parsed]

theorem mdValues_data (cs : List Node) : mdValues (cs.map dataOf) = mdValues cs := by
  induction cs with
  | nil => rfl
  | cons c cs ih =>
    rw [List.map_cons]
    simp only [mdValues, ih]
    cases c with
    | dir => rfl
    | file a b p m s => cases p <;> rfl

theorem forItems_data (n : Node) (df) (f : ForFn) (stk : List Frame) :
    forItems ⟨dataOf n, df⟩ f stk = forItems ⟨n, df⟩ f stk := by
  unfold forItems
  cases f.kind with
  | jsonObj => rfl
  | mdDir =>
    simp only [getAtPath_data]
    cases n.getAtPath f.source with
    | none => rfl
    | some m =>
      simp only [Option.map_some, dataOf_children]
      cases m.children with
      | none => rfl
      | some cs => exact mdValues_data cs
  | jsonFile =>
    simp only [getAtPath_data]
    cases n.getAtPath f.source with
    | none => rfl
    | some m =>
      simp only [Option.map_some, dataOf_isDir]
      cases m with
      | dir => rfl
      | file a b p m s => cases p <;> rfl

theorem execImport_data (n : Node) (df) (v file : Str) (st : St) :
    execImport ⟨dataOf n, df⟩ v file st = execImport ⟨n, df⟩ v file st := by
  simp only [execImport, getAtPath_data]
  cases n.getAtPath file with
  | none => rfl
  | some m =>
    simp only [Option.map_some, dataOf_isDir]
    cases m with
    | dir => rfl
    | file a b p m s => cases p <;> rfl

theorem execSimple_data (n : Node) (df) (f : Fn) (st : St) :
    execSimple ⟨dataOf n, df⟩ f st = execSimple ⟨n, df⟩ f st := by
  cases f <;> first | rfl | exact execImport_data ..

theorem execTok_data (n : Node) (df) : ∀ k, execTok ⟨dataOf n, df⟩ k = execTok ⟨n, df⟩ k := by
  intro k
  induction k with
  | zero => rfl
  | succ k ih =>
    funext t rest st
    unfold execTok
    rw [ih]
    simp only [forItems_data, execSimple_data]

theorem runGo_data (n : Node) (df) : ∀ k toks st, runGo ⟨dataOf n, df⟩ k toks st = runGo ⟨n, df⟩ k toks st := by
  intro k
  induction k with
  | zero => intro toks st; cases toks <;> rfl
  | succ k ih =>
    intro toks st
    cases toks with
    | nil => rfl
    | cons t ts => simp only [runGo, execTok_data, ih]

theorem runToks_data (n : Node) (df) (toks : List LTok) (st : St) :
    runToks ⟨dataOf n, df⟩ toks st = runToks ⟨n, df⟩ toks st := runGo_data ..

theorem runToks_same_data {n m : Node} (h : dataOf n = dataOf m) (df) : runToks ⟨n, df⟩ = runToks ⟨m, df⟩ := by
  funext toks st
  rw [← runToks_data n, ← runToks_data m, h]

theorem renderOn_same_data {n m : Node} (h : dataOf n = dataOf m) (df first base src toks root) :
    renderOn ⟨n, df⟩ first base src toks root = renderOn ⟨m, df⟩ first base src toks root := by
  simp only [renderOn, runToks_same_data h]

theorem processFile_same_data {n m : Node} (h : dataOf n = dataOf m) (df base cfg env name contents p src) :
    processFile ⟨⟨n, df⟩, base, cfg⟩ env name contents p src = processFile ⟨⟨m, df⟩, base, cfg⟩ env name contents p src := by
  simp only [processFile, processParsed, processHtml, processMd, renderOn_same_data h]

/-! ### Rendering the markdown bodies -/

theorem preNode_file (ext cx base name contents p m src) : preNode ext cx base (.file name contents p m src) =
    (preFile ext cx base p src).bind fun p' => .ok (.file name contents p' m src) := by
  cases p with
  | markdown md =>
    rw [preNode, preFile]
    cases preprocessMd ext cx base src md <;> rfl
  | _ => rfl

theorem preNodes_ok {ext cx base} : ∀ {ns outs : List Node}, preNodes ext cx base ns = .ok outs →
    outs.length = ns.length ∧ ∀ (i : Nat) (n : Node), ns[i]? = some n → ∃ o, outs[i]? = some o ∧ preNode ext cx base n = .ok o := by
  intro ns
  induction ns with
  | nil => intro outs h; rw [preNodes] at h; cases h; simp
  | cons n ns ih =>
    intro outs h
    rw [preNodes] at h
    obtain ⟨o, h1, h2⟩ := Res.bind_eq_ok.1 h
    obtain ⟨os, h3, h4⟩ := Res.bind_eq_ok.1 h2
    cases h4
    obtain ⟨hl, hi⟩ := ih h3
    refine ⟨by simp [hl], ?_⟩
    intro i m hm
    cases i with
    | zero => simp only [List.getElem?_cons_zero, Option.some.injEq] at hm ⊢; subst hm; exact ⟨o, rfl, h1⟩
    | succ i => simpa using hi i m (by simpa using hm)

/-- What the tree with rendered markdown has at a position. -/
theorem preNode_at {ext cx base} : ∀ (pos : List Nat) {n out : Node}, preNode ext cx base n = .ok out →
    match nodeAt n pos with
    | none => nodeAt out pos = none
    | some (.dir d cs src) => ∃ cs', cs'.length = cs.length ∧ nodeAt out pos = some (.dir d cs' src)
    | some (.file name contents p m src) =>
      ∃ p', preFile ext cx base p src = .ok p' ∧ nodeAt out pos = some (.file name contents p' m src) := by
  intro pos
  induction pos with
  | nil =>
    intro n out h
    cases n with
    | file name c p m src =>
      rw [preNode_file] at h
      obtain ⟨p', h1, h2⟩ := Res.bind_eq_ok.1 h
      cases h2
      exact ⟨p', h1, by simp [nodeAt]⟩
    | dir d cs src =>
      rw [preNode] at h
      obtain ⟨cs', h1, h2⟩ := Res.bind_eq_ok.1 h
      cases h2
      exact ⟨cs', (preNodes_ok h1).1, by simp [nodeAt]⟩
  | cons i is ih =>
    intro n out h
    cases n with
    | file name c p m src =>
      rw [preNode_file] at h
      obtain ⟨o, _, h2⟩ := Res.bind_eq_ok.1 h
      cases h2
      simp [nodeAt]
    | dir d cs src =>
      rw [preNode] at h
      obtain ⟨cs', h1, h2⟩ := Res.bind_eq_ok.1 h
      cases h2
      obtain ⟨hl, hi⟩ := preNodes_ok h1
      rw [nodeAt, nodeAt]
      cases hc : cs[i]? with
      | none =>
        have : cs'[i]? = none := by rw [List.getElem?_eq_none_iff] at hc ⊢; omega
        simp [this]
      | some c =>
        obtain ⟨o, ho, hb⟩ := hi i c hc
        have := ih hb
        simp only [ho]
        exact this

/-- Names and templates survive. -/
theorem preNode_same {ext cx base} {n out : Node} (h : preNode ext cx base n = .ok out) :
    out.name = n.name ∧ asTemplate out = asTemplate n := by
  cases n with
  | dir d cs src =>
    rw [preNode] at h
    obtain ⟨cs', h1, h2⟩ := Res.bind_eq_ok.1 h
    cases h2
    exact ⟨rfl, rfl⟩
  | file name c p m src =>
    rw [preNode_file] at h
    obtain ⟨p', h1, h2⟩ := Res.bind_eq_ok.1 h
    cases h2
    refine ⟨rfl, ?_⟩
    cases p with
    | markdown md =>
      obtain ⟨md', _, h2⟩ := Res.bind_eq_ok.1 h1
      cases h2; rfl
    | _ => cases h1; rfl

/-- Same names and templates, child by child. -/
def Alike (cs cs' : List Node) : Prop :=
  cs'.map (fun c => (c.name, asTemplate c)) = cs.map fun c => (c.name, asTemplate c)

theorem preNodes_alike {ext cx base} : ∀ {ns outs : List Node}, preNodes ext cx base ns = .ok outs → Alike ns outs := by
  intro ns
  induction ns with
  | nil => intro outs h; rw [preNodes] at h; cases h; rfl
  | cons n ns ih =>
    intro outs h
    rw [preNodes] at h
    obtain ⟨o, h1, h2⟩ := Res.bind_eq_ok.1 h
    obtain ⟨os, h3, h4⟩ := Res.bind_eq_ok.1 h2
    cases h4
    have := ih h3
    obtain ⟨ha, hb⟩ := preNode_same h1
    unfold Alike at *
    rw [List.map_cons, List.map_cons, this, ha, hb]

theorem find_alike (nm : Str) : ∀ {cs cs' : List Node}, Alike cs cs' →
    (cs'.find? fun c => c.name = nm).map asTemplate = (cs.find? fun c => c.name = nm).map asTemplate := by
  intro cs
  induction cs with
  | nil => intro cs' h; simp only [Alike, List.map_nil, List.map_eq_nil_iff] at h; subst h; rfl
  | cons c cs ih =>
    intro cs' h
    cases cs' with
    | nil => simp [Alike] at h
    | cons c' cs' =>
      simp only [Alike, List.map_cons, List.cons.injEq, Prod.mk.injEq] at h
      rw [List.find?_cons, List.find?_cons, h.1.1]
      cases hd : decide (c.name = nm) with
      | true => simp [h.1.2]
      | false => exact ih h.2

theorem Alike.reverse {cs cs' : List Node} (h : Alike cs cs') : Alike cs.reverse cs'.reverse := by
  unfold Alike at *
  rw [List.map_reverse, List.map_reverse, h]

theorem around_alike {ext cx base} : ∀ (pos : List Nat) {n out : Node}, preNode ext cx base n = .ok out → ∀ nm : Str,
    (nearest nm (around out pos)).map asTemplate = (nearest nm (around n pos)).map asTemplate := by
  intro pos
  induction pos with
  | nil => intro n out h nm; cases n <;> cases out <;> rfl
  | cons i is ih =>
    intro n out h nm
    cases n with
    | file name c p m src =>
      rw [preNode_file] at h
      obtain ⟨p', h1, h2⟩ := Res.bind_eq_ok.1 h
      cases h2
      rfl
    | dir d cs src =>
      rw [preNode] at h
      obtain ⟨cs', h1, h2⟩ := Res.bind_eq_ok.1 h
      cases h2
      obtain ⟨hl, hi⟩ := preNodes_ok h1
      have hal := (preNodes_alike h1).reverse
      simp only [around]
      cases hc : cs[i]? with
      | none =>
        have : cs'[i]? = none := by rw [List.getElem?_eq_none_iff] at hc ⊢; omega
        simp [this]
      | some c =>
        obtain ⟨o, ho, hb⟩ := hi i c hc
        have h3 := ih hb nm
        have h4 := find_alike nm hal
        simp only [ho, nearest_append, nearest]
        cases ha : nearest nm (around o is) with
        | some x =>
          rw [ha] at h3
          cases hb : nearest nm (around c is) with
          | none => rw [hb] at h3; cases h3
          | some y => rw [hb] at h3; simpa using h3
        | none =>
          rw [ha] at h3
          cases hb : nearest nm (around c is) with
          | some y => rw [hb] at h3; cases h3
          | none =>
            simp only [Option.none_or]
            cases hx : cs'.reverse.find? fun c => c.name = nm with
            | some x =>
              rw [hx] at h4
              cases hy : cs.reverse.find? fun c => c.name = nm with
              | some y => rw [hy] at h4; exact h4
              | none => rw [hy] at h4; cases h4
            | none =>
              rw [hx] at h4
              cases hy : cs.reverse.find? fun c => c.name = nm with
              | some y => rw [hy] at h4; cases h4
              | none => rfl

theorem template_pre {ext cx base} {n out : Node} (h : preNode ext cx base n = .ok out) (nm : Str) (pos : List Nat) :
    template nm out pos = template nm n pos := by
  have := around_alike pos h nm
  unfold template
  cases ha : nearest nm (around out pos) with
  | some x =>
    cases hb : nearest nm (around n pos) with
    | some y => rw [ha, hb] at this; simpa using this
    | none => rw [ha, hb] at this; cases this
  | none =>
    cases hb : nearest nm (around n pos) with
    | some y => rw [ha, hb] at this; cases this
    | none => rfl

/-- With no templates outside, the environment at a position is the templates in force there. -/
theorem envAt_template (n : Node) (pos : List Nat) :
    envAt ⟨none, none⟩ n pos = ⟨template str!"root.html" n pos, template str!"md.html" n pos⟩ := by
  simp only [envAt, template]
  congr 1
  · cases nearest str!"root.html" (around n pos) <;> rfl
  · cases nearest str!"md.html" (around n pos) <;> rfl

mutual
theorem preNode_data {ext cx base} : ∀ {n m n' m' : Node}, dataOf n = dataOf m → preNode ext cx base n = .ok n' →
    preNode ext cx base m = .ok m' → dataOf n' = dataOf m'
  | .file a b p c s, m, n', m', hd, h1, h2 => by
    cases m with
    | dir => simp [dataOf] at hd
    | file a2 b2 p2 c2 s2 =>
      rw [preNode_file] at h1 h2
      obtain ⟨p', k1, h3⟩ := Res.bind_eq_ok.1 h1
      obtain ⟨p2', k2, h4⟩ := Res.bind_eq_ok.1 h2
      cases h3; cases h4
      clear h1 h2
      simp only [dataOf, Node.file.injEq, and_true, true_and] at hd ⊢
      refine ⟨hd.1, ?_⟩
      have hd := hd.2
      cases p with
      | markdown md =>
        cases p2 with
        | markdown md2 =>
          simp only [Parsed.markdown.injEq] at hd
          subst hd
          obtain ⟨x, h5, h6⟩ := Res.bind_eq_ok.1 k1
          obtain ⟨y, h7, h8⟩ := Res.bind_eq_ok.1 k2
          cases h6; cases h8
          rw [Res.mapErr_eq_ok] at h5 h7
          have : x = y := by
            unfold preprocessMd at h5 h7
            obtain ⟨st, h9, h10⟩ := Res.bind_eq_ok.1 h5
            obtain ⟨st', h11, h12⟩ := Res.bind_eq_ok.1 h7
            rw [h9] at h11; cases h11
            split at h10
            · cases h10
            · rename_i hst
              rw [hst] at h12
              simp only at h12
              split at h10
              · rename_i hb
                rw [if_pos hb] at h12
                split at h10
                · cases h10
                · rename_i hu
                  rw [hu] at h12
                  cases h10; cases h12; rfl
              · cases h10
          subst this
          rfl
        | _ => simp at hd
      | json v =>
        cases p2 with
        | json v2 => cases k1; cases k2; exact hd
        | _ => simp at hd
      | _ =>
        cases k1
        cases p2 with
        | json v2 => simp at hd
        | markdown md2 => simp at hd
        | _ => cases k2; rfl
  | .dir d cs s, m, n', m', hd, h1, h2 => by
    cases m with
    | file => simp [dataOf] at hd
    | dir d2 cs2 s2 =>
      rw [preNode] at h1 h2
      obtain ⟨x, k1, h3⟩ := Res.bind_eq_ok.1 h1
      obtain ⟨y, k2, h4⟩ := Res.bind_eq_ok.1 h2
      cases h3; cases h4
      simp only [dataOf, Node.dir.injEq, and_true] at hd ⊢
      exact ⟨hd.1, preNodes_data hd.2 k1 k2⟩
theorem preNodes_data {ext cx base} : ∀ {n m n' m' : List Node}, datasOf n = datasOf m → preNodes ext cx base n = .ok n' →
    preNodes ext cx base m = .ok m' → datasOf n' = datasOf m'
  | [], m, n', m', hd, h1, h2 => by
    cases m with
    | cons => simp [datasOf] at hd
    | nil => rw [preNodes] at h1 h2; cases h1; cases h2; rfl
  | c :: cs, m, n', m', hd, h1, h2 => by
    cases m with
    | nil => simp [datasOf] at hd
    | cons c2 cs2 =>
      rw [preNodes] at h1 h2
      obtain ⟨x, k1, h3⟩ := Res.bind_eq_ok.1 h1
      obtain ⟨xs, k3, h5⟩ := Res.bind_eq_ok.1 h3
      obtain ⟨y, k2, h4⟩ := Res.bind_eq_ok.1 h2
      obtain ⟨ys, k4, h6⟩ := Res.bind_eq_ok.1 h4
      cases h5; cases h6
      simp only [datasOf, List.cons.injEq] at hd ⊢
      exact ⟨preNode_data hd.1 k1 k2, preNodes_data hd.2 k3 k4⟩
end

/-- Only the data of the tree the markdown is rendered against matters. -/
theorem preFile_same_data {n m : Node} (h : dataOf n = dataOf m) (ext df base p src) :
    preFile ext ⟨n, df⟩ base p src = preFile ext ⟨m, df⟩ base p src := by
  simp only [preFile, preprocessMd, runToks_same_data h]

mutual
theorem preNode_same_data {n m : Node} (h : dataOf n = dataOf m) (ext df base) : ∀ t : Node,
    preNode ext ⟨n, df⟩ base t = preNode ext ⟨m, df⟩ base t
  | .file .. => by rw [preNode_file, preNode_file, preFile_same_data h]
  | .dir d cs s => by rw [preNode, preNode, preNodes_same_data h ext df base cs]
theorem preNodes_same_data {n m : Node} (h : dataOf n = dataOf m) (ext df base) : ∀ t : List Node,
    preNodes ext ⟨n, df⟩ base t = preNodes ext ⟨m, df⟩ base t
  | [] => by rw [preNodes, preNodes]
  | t :: ts => by rw [preNodes, preNodes, preNode_same_data h ext df base t, preNodes_same_data h ext df base ts]
end

/-! ### Which body fails first -/

mutual
theorem preNode_verdict (ext cx base) : ∀ (n : Node),
    verdict (preNode ext cx base n) = allOk ((files n).map fun pos => verdict (bodyAt ext cx base n pos))
  | .file name c p m src => by
    rw [preNode_file, verdict_bind]
    simp only [files, List.map_cons, List.map_nil, allOk, bodyAt, nodeAt]
    cases preFile ext cx base p src <;> rfl
  | .dir d cs src => by
    rw [preNode, verdict_bind, files]
    exact preNodes_verdict ext cx base cs 0 _ fun i c hi pos => by
      simp only [Nat.zero_add, bodyAt, nodeAt, hi]
theorem preNodes_verdict (ext cx base) : ∀ (ns : List Node) (k : Nat) (f : List Nat → Res SErr Parsed),
    (∀ i c, ns[i]? = some c → ∀ pos, f ((k + i) :: pos) = bodyAt ext cx base c pos) →
    verdict (preNodes ext cx base ns) = allOk ((filesFrom k ns).map fun pos => verdict (f pos))
  | [], k, f, _ => by simp [preNodes, filesFrom, allOk, verdict]
  | n :: ns, k, f, h => by
    have h1 := preNode_verdict ext cx base n
    have h2 := preNodes_verdict ext cx base ns (k + 1) f fun i c hi pos => by
      rw [← h (i + 1) c (by simpa using hi) pos]; congr 2; omega
    rw [preNodes, filesFrom, List.map_append, allOk_append, ← h2, List.map_map]
    have : (files n).map ((fun pos => verdict (f pos)) ∘ fun x => k :: x) =
        (files n).map fun pos => verdict (bodyAt ext cx base n pos) := by
      apply List.map_congr_left
      intro pos _
      have := h 0 n rfl pos
      simpa using congrArg verdict this
    rw [this, ← h1]
    cases preNode ext cx base n with
    | ok o => cases preNodes ext cx base ns <;> rfl
    | err e => rfl
    | panic p => rfl
end

mutual
/-- The files are where they were. -/
theorem preNode_files {ext cx base} : ∀ {n out : Node}, preNode ext cx base n = .ok out → files out = files n
  | .file .., out, h => by
    rw [preNode_file] at h
    obtain ⟨x, _, h2⟩ := Res.bind_eq_ok.1 h
    cases h2; rfl
  | .dir d cs s, out, h => by
    rw [preNode] at h
    obtain ⟨x, h1, h2⟩ := Res.bind_eq_ok.1 h
    cases h2
    simp only [files]
    exact preNodes_files h1 0
theorem preNodes_files {ext cx base} : ∀ {n out : List Node}, preNodes ext cx base n = .ok out → ∀ k,
    filesFrom k out = filesFrom k n
  | [], out, h, k => by rw [preNodes] at h; cases h; rfl
  | c :: cs, out, h, k => by
    rw [preNodes] at h
    obtain ⟨x, h1, h3⟩ := Res.bind_eq_ok.1 h
    obtain ⟨xs, k3, h5⟩ := Res.bind_eq_ok.1 h3
    cases h5
    simp only [filesFrom]
    rw [preNode_files h1, preNodes_files k3]
end

/-- The environment `build` starts from is superseded by that of the root directory. -/
theorem buildTree_env (b : Builder) (n : Node) :
    buildNode b (updateEnv ⟨none, none⟩ (n.children.getD [])) n = buildNode b ⟨none, none⟩ n := by
  cases n with
  | file => rfl
  | dir d cs s => simp only [buildNode, Node.children, Option.getD_some, updateEnv_twice]

theorem buildTree_ok {ext df cfg vars mode} {input out : Node} (h : buildTree ext df cfg vars mode input = .ok out) :
    ∃ mid, preNode ext ⟨input, df⟩ (baseFrame vars mode) input = .ok mid ∧
      buildNode ⟨⟨mid, df⟩, baseFrame vars mode, cfg⟩ ⟨none, none⟩ mid = .ok out := by
  unfold buildTree at h
  obtain ⟨mid, h1, h2⟩ := Res.bind_eq_ok.1 h
  rw [buildTree_env] at h2
  exact ⟨mid, h1, h2⟩

end Stuart
