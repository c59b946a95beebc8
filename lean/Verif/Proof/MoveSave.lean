import Verif.Proof.MoveTree
import Verif.Proof.Read
import Verif.Proof.Save
/-
Merging and saving trees that are elsewhere.
-/
namespace Stuart
open Spec

variable {ρ : Str → Str}

/-! ### Merging -/

theorem splitAtName_moved (n : Str) : ∀ cs : List Node, splitAtName n (cs.map (movedNode ρ)) =
    (splitAtName n cs).map fun r => (r.1.map (movedNode ρ), movedNode ρ r.2.1, r.2.2.map (movedNode ρ))
  | [] => rfl
  | c :: cs => by
    rw [List.map_cons, splitAtName, splitAtName, movedNode_name, splitAtName_moved n cs]
    split
    · rfl
    · cases splitAtName n cs <;> rfl

mutual
theorem mergeNode_moved : ∀ (o c : Node),
    mergeNode (movedNode ρ c) (movedNode ρ o) = (movedNode ρ (mergeNode c o).1, (mergeNode c o).2.both (movedErr ρ) id)
  | .dir d os src, c => by
    rw [movedNode]
    cases c with
    | file n b p m s => simp only [movedNode, mergeNode]; rfl
    | dir n cs s =>
      simp only [movedNode, mergeNode]
      rw [movedNodes_map, mergeAll_moved os cs, movedNodes_map]
  | .file n b p m s, c => by
    rw [movedNode, mergeNode, mergeNode]
    rfl
theorem mergeAll_moved : ∀ (os cs : List Node),
    mergeAll (cs.map (movedNode ρ)) (movedNodes ρ os) = ((mergeAll cs os).1.map (movedNode ρ), (mergeAll cs os).2.both (movedErr ρ) id)
  | [], cs => by rw [movedNodes, mergeAll, mergeAll]; rfl
  | o :: os, cs => by
    rw [movedNodes, mergeAll, mergeAll, movedNode_name, splitAtName_moved]
    cases splitAtName o.name cs with
    | none =>
      simp only [Option.map_none]
      rw [← mergeAll_moved os (cs ++ [o]), List.map_append]
      rfl
    | some r =>
      obtain ⟨before, c, after⟩ := r
      simp only [Option.map_some, movedNode_isDir, mergeNode_moved o c]
      split
      · cases hr : (mergeNode c o).2 with
        | ok u =>
          simp only [Res.both_ok, id]
          rw [← mergeAll_moved os, List.map_append, List.map_cons]
        | err e => simp
        | panic e => simp
      · simp [movedErr]
end

/-! ### Plain names -/

mutual
/-- All names in the tree are plain. -/
def PlainTree : Node → Prop
  | .file name _ _ _ _ => PlainName name
  | .dir name cs _ => PlainName name ∧ PlainTrees cs
/-- The same for several. -/
def PlainTrees : List Node → Prop
  | [] => True
  | n :: ns => PlainTree n ∧ PlainTrees ns
end

theorem plainTrees_iff {cs : List Node} : PlainTrees cs ↔ ∀ c ∈ cs, PlainTree c := by
  induction cs with
  | nil => simp [PlainTrees]
  | cons c cs ih => rw [PlainTrees, ih, List.forall_mem_cons]

mutual
theorem readEntry_plainTree (S : Sys) (parse : Bool) (plugins : List Plugin) (name : Str) (hn : PlainName name) :
    ∀ (e : Entry) (p : Path) (n : Node), ProperDisk e → readEntry S parse plugins p name e = .ok n → PlainTree n
  | .file b, p, n, _, h => by
    rw [readEntry, readFile] at h
    obtain ⟨c, _, h2⟩ := Res.bind_eq_ok.1 h
    cases h2
    exact hn
  | .dir l, p, n, hd, h => by
    rw [readEntry] at h
    obtain ⟨cs, h1, h2⟩ := Res.bind_eq_ok.1 h
    cases h2
    refine ⟨hn, readEntries_plainTree S parse plugins l p cs (fun n e hm => ⟨(hd [] l rfl).2 _ hm, fun q l' hq => hd (n :: q) l' ?_⟩) h1⟩
    simp only [Entry.at, (findEntry_mem (hd [] l rfl).1).2 hm, hq]
  | .special, p, n, _, h => by rw [readEntry] at h; cases h
theorem readEntries_plainTree (S : Sys) (parse : Bool) (plugins : List Plugin) :
    ∀ (l : List (Str × Entry)) (p : Path) (cs : List Node), (∀ n e, (n, e) ∈ l → PlainName n ∧ ProperDisk e) →
      readEntries S parse plugins p l = .ok cs → PlainTrees cs
  | [], p, cs, _, h => by rw [readEntries] at h; cases h; trivial
  | (n, e) :: l, p, cs, hd, h => by
    rw [readEntries] at h
    obtain ⟨c, h1, h2⟩ := Res.bind_eq_ok.1 h
    obtain ⟨cs', h3, h4⟩ := Res.bind_eq_ok.1 h2
    cases h4
    exact ⟨readEntry_plainTree S parse plugins n (hd n e (.head _)).1 e _ c (hd n e (.head _)).2 h1,
      readEntries_plainTree S parse plugins l p cs' (fun n e hm => hd n e (.tail _ hm)) h3⟩
end

theorem readTree_plainTree {S : Sys} {parse : Bool} {plugins : List Plugin} {d : Entry} (hd : ProperDisk d) {base : Path} {name : Str}
    (hn : PlainName name) {n : Node} (h : readTree S parse plugins d (base ++ [name]) = .ok n) : PlainTree n := by
  generalize hb : base ++ [name] = p at h
  unfold readTree at h
  split at h
  · rename_i l hl
    obtain ⟨cs', h1, h2⟩ := Res.bind_eq_ok.1 h
    obtain ⟨nm, h3, h4⟩ := Res.bind_eq_ok.1 h2
    cases h4
    subst hb
    rw [List.getLast?_concat] at h3
    cases h3
    refine ⟨hn, ?_⟩
    generalize hb : base ++ [name] = p at hl h1
    refine readEntries_plainTree S parse plugins l p _ (fun n e hm => ⟨(hd p l hl).2 _ hm, fun q l' hq => hd (p ++ n :: q) l' ?_⟩) h1
    rw [at_append, hl]
    simp only [Option.bind_some, Entry.at, (findEntry_mem (hd p l hl).1).2 hm, hq]
  · cases h

theorem stripPrefix_eq {p s t : Str} (h : stripPrefix p s = some t) : s = p ++ t := by
  induction p generalizing s with
  | nil => cases h; rfl
  | cons c p ih =>
    cases s with
    | nil => cases h
    | cons d s =>
      rw [stripPrefix] at h
      split at h
      · rename_i hc; subst hc; rw [ih h]; rfl
      · cases h

theorem stripSuffix_eq {p s t : Str} (h : stripSuffix p s = some t) : s = t ++ p := by
  unfold stripSuffix at h
  cases hp : stripPrefix p.reverse s.reverse with
  | none => rw [hp] at h; cases h
  | some u =>
    rw [hp] at h
    cases h
    have := congrArg List.reverse (stripPrefix_eq hp)
    simpa using this

theorem plain_html {stem : Str} (h : PlainName (stem ++ str!".md")) : PlainName (stem ++ str!".html") := by
  obtain ⟨_, _, _, h4⟩ := h
  refine ⟨by simp, fun k => ?_, fun k => ?_, ?_⟩
  · have := congrArg List.length k; simp at this
  · have := congrArg List.length k; simp at this
  · simp only [List.mem_append, not_or] at h4 ⊢
    exact ⟨h4.1, by decide⟩

theorem processFile_plain {b : Builder} {env : Env} {name : Str} {contents : Bytes} {p : Parsed} {src : Str} {n : Node}
    (hn : PlainName name) (hp : Unmoved ρ p) (h : processFile b env name contents p src = .ok n) : PlainTree n := by
  unfold processFile at h
  obtain ⟨out, h1, h2⟩ := Res.bind_eq_ok.1 h
  cases h2
  show PlainName (out.newName.getD name)
  cases ho : out.newName with
  | none => exact hn
  | some nm =>
    unfold processParsed at h1
    split at h1
    · cases p with
      | html toks =>
        simp only at h1
        unfold processHtml at h1
        cases hr : env.root with
        | none => rw [hr] at h1; cases h1
        | some root =>
          rw [hr] at h1
          simp only at h1
          cases hx : renderOn b.cx b.base b.base src toks root with
          | ok o => rw [hx] at h1; cases h1; cases ho
          | err e => rw [hx] at h1; cases h1
          | panic e => rw [hx] at h1; cases h1
      | markdown md =>
        simp only at h1
        unfold processMd at h1
        cases hr : env.root with
        | none => rw [hr] at h1; cases h1
        | some root =>
          rw [hr] at h1
          simp only at h1
          cases hm : env.md with
          | none => rw [hm] at h1; cases h1
          | some mdToks =>
            rw [hm] at h1
            simp only at h1
            cases hv : (md.toValue : Res PErr Value) with
            | ok v =>
              rw [hv, Res.bind_ok] at h1
              cases hx : renderOn b.cx (b.base.addVar str!"self" v) b.base src mdToks root with
              | ok o =>
                rw [hx, Res.bind_ok] at h1
                cases hs : stripSuffix str!".md" name with
                | none => rw [hs] at h1; cases h1
                | some stem =>
                  rw [hs] at h1
                  cases h1
                  cases ho
                  have := stripSuffix_eq hs
                  subst this
                  exact plain_html hn
              | err e => rw [hx] at h1; cases h1
              | panic e => rw [hx] at h1; cases h1
            | err e => rw [hv] at h1; cases h1
            | panic e => rw [hv] at h1; cases h1
      | custom c =>
        simp only at h1
        cases hx : c.process env.root env.md with
        | ok o =>
          rw [hx] at h1
          cases h1
          exact hp.2 env.root env.md _ nm hx ho
        | err e => rw [hx] at h1; cases h1
        | panic e => rw [hx] at h1; cases h1
      | json v => cases h1; cases ho
      | none => cases h1; cases ho
      | ignored => cases h1; cases ho
    · cases h1; cases ho

mutual
theorem buildNode_plain {b : Builder} : ∀ (n : Node) (env : Env) (n' : Node), UnmovedNode ρ n → PlainTree n →
    buildNode b env n = .ok n' → PlainTree n'
  | .file name c p m src, env, n', hu, hn, h => processFile_plain hn hu h
  | .dir name cs src, env, n', hu, hn, h => by
    rw [buildNode] at h
    obtain ⟨os, h1, h2⟩ := Res.bind_eq_ok.1 h
    cases h2
    exact ⟨hn.1, buildNodes_plain cs _ os hu hn.2 h1⟩
theorem buildNodes_plain {b : Builder} : ∀ (cs : List Node) (env : Env) (os : List Node), UnmovedNodes ρ cs → PlainTrees cs →
    buildNodes b env cs = .ok os → PlainTrees os
  | [], env, os, _, _, h => by rw [buildNodes] at h; cases h; trivial
  | c :: cs, env, os, hu, hn, h => by
    rw [buildNodes] at h
    obtain ⟨c', h1, h2⟩ := Res.bind_eq_ok.1 h
    obtain ⟨os', h3, h4⟩ := Res.bind_eq_ok.1 h2
    cases h4
    exact ⟨buildNode_plain c env c' hu.1 hn.1 h1, buildNodes_plain cs env os' hu.2 hn.2 h3⟩
end

mutual
theorem preNode_plain {ext : Ext} {cx : Ctx} {base : Frame} : ∀ (n n' : Node), PlainTree n → preNode ext cx base n = .ok n' → PlainTree n'
  | .file name c p m src, n', hn, h => by
    cases p with
    | markdown md =>
      rw [preNode] at h
      obtain ⟨_, _, h2⟩ := Res.bind_eq_ok.1 h
      cases h2
      exact hn
    | _ => rw [preNode] at h <;> first | (cases h; exact hn) | nofun
  | .dir name cs src, n', hn, h => by
    rw [preNode] at h
    obtain ⟨os, h1, h2⟩ := Res.bind_eq_ok.1 h
    cases h2
    exact ⟨hn.1, preNodes_plain cs os hn.2 h1⟩
theorem preNodes_plain {ext : Ext} {cx : Ctx} {base : Frame} : ∀ (cs os : List Node), PlainTrees cs → preNodes ext cx base cs = .ok os → PlainTrees os
  | [], os, _, h => by rw [preNodes] at h; cases h; trivial
  | c :: cs, os, hn, h => by
    rw [preNodes] at h
    obtain ⟨c', h1, h2⟩ := Res.bind_eq_ok.1 h
    obtain ⟨os', h3, h4⟩ := Res.bind_eq_ok.1 h2
    cases h4
    exact ⟨preNode_plain c c' hn.1 h1, preNodes_plain cs os' hn.2 h3⟩
end

theorem splitAtName_mem {n : Str} {cs before after : List Node} {c : Node} (h : splitAtName n cs = some (before, c, after)) :
    cs = before ++ c :: after := by
  induction cs generalizing before with
  | nil => cases h
  | cons x cs ih =>
    rw [splitAtName] at h
    split at h
    · cases h; rfl
    · cases hs : splitAtName n cs with
      | none => rw [hs] at h; cases h
      | some r =>
        obtain ⟨b, y, a⟩ := r
        rw [hs] at h
        cases h
        rw [ih hs]
        rfl

mutual
theorem mergeNode_plain : ∀ (o c : Node), PlainTree c → PlainTree o → PlainTree (mergeNode c o).1
  | .dir d os src, c, hc, ho => by
    cases c with
    | file n b p m s => simpa only [mergeNode] using hc
    | dir n cs s =>
      simp only [mergeNode]
      exact ⟨hc.1, mergeAll_plain os cs hc.2 ho.2⟩
  | .file n b p m s, c, hc, _ => by rw [mergeNode]; exact hc
theorem mergeAll_plain : ∀ (os cs : List Node), PlainTrees cs → PlainTrees os → PlainTrees (mergeAll cs os).1
  | [], cs, hc, _ => by rw [mergeAll]; exact hc
  | o :: os, cs, hc, ho => by
    rw [mergeAll]
    rw [plainTrees_iff] at hc
    cases hs : splitAtName o.name cs with
    | none =>
      refine mergeAll_plain os _ (plainTrees_iff.2 fun c hm => ?_) ho.2
      rcases List.mem_append.1 hm with h | h
      · exact hc c h
      · rw [List.mem_singleton.1 h]; exact ho.1
    | some r =>
      obtain ⟨before, c, after⟩ := r
      have he := splitAtName_mem hs
      subst he
      have hnew : PlainTrees (before ++ (mergeNode c o).1 :: after) := by
        rw [plainTrees_iff]
        intro x hx
        rcases List.mem_append.1 hx with h | h
        · exact hc x (by simp [h])
        · rcases List.mem_cons.1 h with rfl | h
          · exact mergeNode_plain o c (hc c (by simp)) ho.1
          · exact hc x (by simp [h])
      simp only
      split
      · split
        · exact mergeAll_plain os _ hnew ho.2
        · exact hnew
      · exact plainTrees_iff.2 hc
end

/-! ### Saving -/

/-- A change below a directory. -/
def Op.below (base : Path) : Op → Op
  | .clear p => .clear (base ++ p)
  | .mkdir p => .mkdir (base ++ p)
  | .mkdirTolerant p => .mkdirTolerant (base ++ p)
  | .write p b => .write (base ++ p) b
  | .removeFile p => .removeFile (base ++ p)

theorem joinPath_below {base q : Path} {s : Str} (hq : q ≠ []) (hs : '/' ∉ s) : joinPath (base ++ q) s = base ++ joinPath q s := by
  by_cases h : s = str!".."
  · subst h
    show (base ++ q).dropLast = base ++ q.dropLast
    exact List.dropLast_append_of_ne_nil hq
  · rw [joinPath_stem h hs, joinPath_stem h hs, List.append_assoc]

mutual
theorem saveRec_below (cfg : Config) (base : Path) : ∀ (n : Node) (q : Path), q ≠ [] → PlainTree n →
    saveRec cfg (base ++ q) n = (saveRec cfg q n).map (Op.below base)
  | .dir name cs src, q, hq, hn => by
    rw [saveRec, saveRec, joinPath_below hq hn.1.2.2.2, List.map_cons]
    rw [saveAll_below cfg base cs (joinPath q name) (by rw [joinPath_plain hn.1]; simp) hn.2]
    rfl
  | .file name b parsed m src, q, hq, hn => by
    rw [saveRec, saveRec]
    simp only
    split
    · split
      · rename_i h1 h2
        have hslash : '/' ∉ (stripSuffix str!".html" name).getD [] := by
          cases hs : stripSuffix str!".html" name with
          | none => simp
          | some stem =>
            have := stripSuffix_eq hs
            subst this
            intro k
            exact hn.2.2.2 (List.mem_append_left _ k)
        rw [joinPath_below hq hslash]
        simp only [joinPath_index, List.map_cons, List.map_nil, Op.below, List.append_assoc]
      · rw [joinPath_below hq hn.2.2.2]
        rfl
    · rfl
theorem saveAll_below (cfg : Config) (base : Path) : ∀ (cs : List Node) (q : Path), q ≠ [] → PlainTrees cs →
    saveAll cfg (base ++ q) cs = (saveAll cfg q cs).map (Op.below base)
  | [], q, _, _ => by rw [saveAll, saveAll]; rfl
  | c :: cs, q, hq, hn => by
    rw [saveAll, saveAll, saveRec_below cfg base c q hq hn.1, saveAll_below cfg base cs q hq hn.2, List.map_append]
end

mutual
theorem saveRec_moved (cfg : Config) : ∀ (n : Node) (q : Path), saveRec cfg q (movedNode ρ n) = saveRec cfg q n
  | .dir name cs src, q => by rw [movedNode, saveRec, saveRec, saveAll_moved cfg cs]
  | .file name b parsed m src, q => by
    rw [movedNode, saveRec, saveRec]
    have : (movedParsed ρ parsed).isIgnored = parsed.isIgnored := by cases parsed <;> rfl
    rw [this]
theorem saveAll_moved (cfg : Config) : ∀ (cs : List Node) (q : Path), saveAll cfg q (movedNodes ρ cs) = saveAll cfg q cs
  | [], q => rfl
  | c :: cs, q => by rw [movedNodes, saveAll, saveAll, saveRec_moved cfg c, saveAll_moved cfg cs]
end

mutual
theorem metaNode_moved : ∀ n : Node, metaNode (movedNode ρ n) = metaNode n
  | .dir name cs src => by rw [movedNode, metaNode, metaNode, metaNodes_moved cs]
  | .file name b p m src => by rw [movedNode]; cases m <;> rw [metaNode, metaNode]
theorem metaNodes_moved : ∀ cs : List Node, metaNodes (movedNodes ρ cs) = metaNodes cs
  | [] => rfl
  | c :: cs => by rw [movedNodes, metaNodes, metaNodes, metaNode_moved c, metaNodes_moved cs]
end

theorem metaRoot_moved (n : Node) : metaRoot (movedNode ρ n) = metaRoot n := by
  cases n with
  | dir name cs src => rw [movedNode, metaRoot, metaRoot, metaNodes_moved]
  | file name b p m src => rfl

/-! ### Disks -/

/-- What is in the two directories is the same, and they can be replaced. -/
structure SameDir (old new : Path) (d d' : Entry) : Prop where
  same : d'.at new = d.at old
  above : d.isDirAt old.dropLast = true
  above' : d'.isDirAt new.dropLast = true

theorem at_put_here {d : Entry} : ∀ {p : Path} (_ : p ≠ []) (v : Option Entry), d.isDirAt p.dropLast = true → (d.put p v).at p = v := by
  intro p
  induction p generalizing d with
  | nil => intro h; exact absurd rfl h
  | cons n p ih =>
    intro _ v h
    cases d with
    | file b => cases p <;> simp [Entry.isDirAt, Entry.at] at h
    | special => cases p <;> simp [Entry.isDirAt, Entry.at] at h
    | dir l =>
      cases p with
      | nil =>
        rw [Entry.put, Entry.at, findEntry_set_same]
        cases v <;> simp [Entry.at]
      | cons m p =>
        rw [List.dropLast_cons_cons] at h
        simp only [Entry.isDirAt, Entry.at] at h
        cases hf : findEntry n l with
        | none => rw [hf] at h; cases h
        | some e =>
          rw [hf] at h
          simp only [Entry.put, hf, Entry.at, findEntry_set_same]
          exact ih (by simp) v h

theorem at_put_in {d : Entry} : ∀ {p : Path} {r : Path} (_ : r ≠ []) (v : Option Entry),
    (d.put (p ++ r) v).at p = (d.at p).map fun e => e.put r v := by
  intro p
  induction p generalizing d with
  | nil => intro r hr v; cases d <;> simp [Entry.at]
  | cons n p ih =>
    intro r hr v
    cases d with
    | file b => simp [Entry.put, Entry.at]
    | special => simp [Entry.put, Entry.at]
    | dir l =>
      obtain ⟨m, q, hq⟩ : ∃ m q, p ++ r = m :: q := by
        cases hx : p ++ r with
        | nil => exact absurd (List.append_eq_nil_iff.1 hx).2 hr
        | cons m q => exact ⟨m, q, rfl⟩
      rw [List.cons_append, hq]
      simp only [Entry.put, Entry.at]
      cases hf : findEntry n l with
      | none => simp [Entry.at, hf]
      | some e =>
        simp only [Entry.at, findEntry_set_same]
        rw [← hq]
        exact ih hr v

variable {old new : Path}

theorem prefix_dropLast {p r : Path} (hp : p ≠ []) : ¬ (p ++ r) <+: p.dropLast := by
  intro h
  have := h.length_le
  have h2 : p.length ≠ 0 := by simpa using hp
  simp at this
  omega

theorem isDirAt_put {d : Entry} {p r : Path} (hp : p ≠ []) (v : Option Entry) (h : d.isDirAt p.dropLast = true) :
    (d.put (p ++ r) v).isDirAt p.dropLast = true := by
  rw [isDirAt_iff] at h ⊢
  rw [look_put_outside (prefix_dropLast hp), h]

theorem SameDir.put (ho : old ≠ []) (hn : new ≠ []) {d d' : Entry} (h : SameDir old new d d') (r : Path) (v : Option Entry) :
    SameDir old new (d.put (old ++ r) v) (d'.put (new ++ r) v) where
  same := by
    by_cases hr : r = []
    · subst hr
      rw [List.append_nil, List.append_nil, at_put_here ho v h.above, at_put_here hn v h.above']
    · rw [at_put_in hr, at_put_in hr, h.same]
  above := isDirAt_put ho v h.above
  above' := isDirAt_put hn v h.above'

theorem SameDir.at {d d' : Entry} (h : SameDir old new d d') (r : Path) : d'.at (new ++ r) = d.at (old ++ r) := by
  rw [at_append, at_append, h.same]

theorem SameDir.parent {d d' : Entry} (h : SameDir old new d d') (r : Path) :
    d'.isDirAt (new ++ r).dropLast = d.isDirAt (old ++ r).dropLast := by
  by_cases hr : r = []
  · subst hr
    rw [List.append_nil, List.append_nil, h.above, h.above']
  · rw [List.dropLast_append_of_ne_nil hr, List.dropLast_append_of_ne_nil hr]
    unfold Entry.isDirAt
    rw [h.at]

theorem SameDir.apply (ho : old ≠ []) (hn : new ≠ []) {d d' : Entry} (h : SameDir old new d d') (o : Op) :
    ((o.below old).apply d = none ∧ (o.below new).apply d' = none) ∨
    ∃ e e', (o.below old).apply d = some e ∧ (o.below new).apply d' = some e' ∧ SameDir old new e e' := by
  cases o with
  | clear p =>
    simp only [Op.below, Op.apply, h.at]
    have h1 : old ++ p ≠ [] := by simp [ho]
    have h2 : new ++ p ≠ [] := by simp [hn]
    rw [if_neg h1, if_neg h2]
    split
    · exact .inr ⟨_, _, rfl, rfl, h.put ho hn p _⟩
    · exact .inr ⟨_, _, rfl, rfl, h⟩
  | mkdir p =>
    simp only [Op.below, Op.apply, h.at, h.parent]
    split
    · exact .inl ⟨rfl, rfl⟩
    · split
      · exact .inr ⟨_, _, rfl, rfl, h.put ho hn p _⟩
      · exact .inl ⟨rfl, rfl⟩
  | mkdirTolerant p =>
    simp only [Op.below, Op.apply, h.at, h.parent]
    split
    · exact .inr ⟨_, _, rfl, rfl, h⟩
    · split
      · exact .inr ⟨_, _, rfl, rfl, h.put ho hn p _⟩
      · exact .inl ⟨rfl, rfl⟩
  | write p b =>
    simp only [Op.below, Op.apply, h.at, h.parent]
    split
    · exact .inr ⟨_, _, rfl, rfl, h.put ho hn p _⟩
    · exact .inl ⟨rfl, rfl⟩
    · split
      · exact .inr ⟨_, _, rfl, rfl, h.put ho hn p _⟩
      · exact .inl ⟨rfl, rfl⟩
  | removeFile p =>
    simp only [Op.below, Op.apply, h.at]
    split
    · exact .inl ⟨rfl, rfl⟩
    · exact .inr ⟨_, _, rfl, rfl, h.put ho hn p _⟩
    · exact .inl ⟨rfl, rfl⟩

/-- The same for worlds: with the same mishaps ahead. -/
def SameWorld (old new : Path) (w w' : World) : Prop := SameDir old new w.disk w'.disk ∧ w'.faults = w.faults

theorem below_target (base : Path) (o : Op) : (o.below base).target = base ++ o.target := by cases o <;> rfl

theorem SameWorld.step (ho : old ≠ []) (hn : new ≠ []) {w w' : World} (h : SameWorld old new w w') (o : Op) :
    SameWorld old new (w.step (o.below old)).1 (w'.step (o.below new)).1 ∧ (w'.step (o.below new)).2 = (w.step (o.below old)).2 := by
  obtain ⟨d, fs⟩ := w
  obtain ⟨d', fs'⟩ := w'
  obtain ⟨h1, h2⟩ := h
  simp only at h1 h2
  subst h2
  unfold World.step
  simp only [below_target]
  split
  · exact ⟨⟨h1.put ho hn _ _, rfl⟩, rfl⟩
  · rcases h1.apply ho hn o with ⟨k1, k2⟩ | ⟨e, e', k1, k2, k3⟩
    · rw [k1, k2]; exact ⟨⟨h1, rfl⟩, rfl⟩
    · rw [k1, k2]; exact ⟨⟨k3, rfl⟩, rfl⟩

theorem SameWorld.runOps (ho : old ≠ []) (hn : new ≠ []) {os : List Op} : ∀ {w w' : World}, SameWorld old new w w' →
    SameWorld old new (runOps (os.map (Op.below old)) w).1 (runOps (os.map (Op.below new)) w').1 ∧
    (Stuart.runOps (os.map (Op.below new)) w').2 = (Stuart.runOps (os.map (Op.below old)) w).2 := by
  induction os with
  | nil => intro w w' h; exact ⟨h, rfl⟩
  | cons o os ih =>
    intro w w' h
    obtain ⟨h1, h2⟩ := h.step ho hn o
    simp only [List.map_cons, Stuart.runOps, h2]
    split
    · exact ih h1
    · exact ⟨h1, rfl⟩

end Stuart
