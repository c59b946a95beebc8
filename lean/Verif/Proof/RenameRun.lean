import Verif.Proof.RenameTree
import Verif.Proof.MoveRun
/-
Lemmas: publishing what was made of content that says the same.
-/
namespace Stuart
open Spec

/-! ### Merging -/

section
variable {J : Prop}

theorem OutLike.name {n n' : Node} (h : OutLike J n n') : n.name = n'.name := by cases h <;> rfl
theorem OutLike.isDir {n n' : Node} (h : OutLike J n n') : n.isDir = n'.isDir := by cases h <;> rfl
theorem OutLike.source {n n' : Node} (h : OutLike J n n') : n.source = n'.source := by cases h <;> rfl

mutual
theorem OutLike.refl : ∀ n : Node, OutLike J n n
  | .file .. => .file ..
  | .dir _ cs _ => .dir _ _ (OutsLike.refl cs)
theorem OutsLike.refl : ∀ cs : List Node, OutsLike J cs cs
  | [] => .nil
  | c :: cs => .cons (OutLike.refl c) (OutsLike.refl cs)
end

theorem OutsLike.append {a a' b b' : List Node} (h : OutsLike J a a') (k : OutsLike J b b') : OutsLike J (a ++ b) (a' ++ b') := by
  induction a generalizing a' with
  | nil => cases h; exact k
  | cons x a ih => cases h with | cons h hs => exact .cons h (ih hs)

/-- What `splitAtName` finds in two trees. -/
inductive SplitLike (J : Prop) : Option (List Node × Node × List Node) → Option (List Node × Node × List Node) → Prop
  | none : SplitLike J none none
  | some {b b' a a' : List Node} {c c' : Node} : OutsLike J b b' → OutLike J c c' → OutsLike J a a' → SplitLike J (some (b, c, a)) (some (b', c', a'))

theorem splitAtName_named (n : Str) {cs cs' : List Node} (h : OutsLike J cs cs') : SplitLike J (splitAtName n cs) (splitAtName n cs') := by
  induction cs generalizing cs' with
  | nil => cases h; exact .none
  | cons c cs ih =>
    cases h with
    | cons h hs =>
      simp only [splitAtName, ← h.name]
      split
      · exact .some .nil h hs
      · have := ih hs
        generalize splitAtName n cs = o at this
        generalize splitAtName n _ = o' at this
        cases this with
        | none => exact .none
        | some h1 h2 h3 => exact .some (.cons h h1) h2 h3

mutual
theorem mergeNode_named : ∀ (o : Node) {c c' : Node}, OutLike J c c' → OutLike J (mergeNode c o).1 (mergeNode c' o).1 ∧ (mergeNode c o).2 = (mergeNode c' o).2
  | .dir _ os _, c, c', h => by
    cases h with
    | file => simp only [mergeNode]; exact ⟨.file .., trivial⟩
    | template _ _ _ _ _ h => simp only [mergeNode]; exact ⟨.template _ _ _ _ _ h, trivial⟩
    | data _ _ _ _ _ h h' => simp only [mergeNode]; exact ⟨.data _ _ _ _ _ h h', trivial⟩
    | dir nm src h =>
      simp only [mergeNode]
      exact ⟨.dir _ _ (mergeAll_named os h).1, (mergeAll_named os h).2⟩
  | .file .., c, c', h => by simp only [mergeNode]; exact ⟨h, trivial⟩
theorem mergeAll_named : ∀ (os : List Node) {cs cs' : List Node}, OutsLike J cs cs' →
    OutsLike J (mergeAll cs os).1 (mergeAll cs' os).1 ∧ (mergeAll cs os).2 = (mergeAll cs' os).2
  | [], cs, cs', h => by simp only [mergeAll]; exact ⟨h, trivial⟩
  | o :: os, cs, cs', h => by
    have hs := splitAtName_named o.name h
    simp only [mergeAll]
    generalize splitAtName o.name cs = x at hs
    generalize splitAtName o.name cs' = x' at hs
    cases hs with
    | none => exact mergeAll_named os (h.append (.cons (.refl o) .nil))
    | some h1 h2 h3 =>
      simp only [← h2.isDir, ← h2.source]
      split
      · obtain ⟨k1, k2⟩ := mergeNode_named o h2
        rw [← k2]
        have k3 := h1.append (.cons k1 h3)
        split
        · exact mergeAll_named os k3
        · exact ⟨k3, rfl⟩
      · exact ⟨h, rfl⟩
end

/-! ### Saving -/

mutual
theorem saveRec_named (cfg : Config) (hJ : J → cfg.saveDataFiles = false) : ∀ {n n' : Node}, OutLike J n n' → ∀ p, saveRec cfg p n = saveRec cfg p n'
  | _, _, .file .., _ => rfl
  | _, _, .template _ _ _ _ _ h, p => by rcases h with rfl | rfl <;> rfl
  | _, _, .data (nm := nm) _ _ _ _ _ h h', p => by
    have : endsWith str!".json" nm = true := List.isSuffixOf_iff_suffix.2 h'
    simp [saveRec, hJ h, this]
  | _, _, .dir _ _ h, p => by simp only [saveRec, saveAll_named cfg hJ h]
theorem saveAll_named (cfg : Config) (hJ : J → cfg.saveDataFiles = false) : ∀ {cs cs' : List Node}, OutsLike J cs cs' → ∀ p, saveAll cfg p cs = saveAll cfg p cs'
  | _, _, .nil, _ => rfl
  | _, _, .cons h hs, p => by simp only [saveAll, saveRec_named cfg hJ h, saveAll_named cfg hJ hs]
end

mutual
theorem metaNode_named : ∀ {n n' : Node}, OutLike J n n' → metaNode n = metaNode n'
  | _, _, .file .. => rfl
  | _, _, .template .. => rfl
  | _, _, .data .. => rfl
  | _, _, .dir _ _ h => by simp only [metaNode, metaNodes_named h]
theorem metaNodes_named : ∀ {cs cs' : List Node}, OutsLike J cs cs' → metaNodes cs = metaNodes cs'
  | _, _, .nil => rfl
  | _, _, .cons h hs => by simp only [metaNodes, metaNode_named h, metaNodes_named hs]
end

theorem metaRoot_named {n n' : Node} (h : OutLike J n n') : metaRoot n = metaRoot n' := by
  cases h with
  | file => rfl
  | template => rfl
  | data => rfl
  | dir _ _ h => simp only [metaRoot, metaNodes_named h]
end

/-! ### Disks -/

section
variable {top : Path}

mutual
theorem sameBut_refl : ∀ (e : Entry) (q : Path), SameBut top q e e
  | .file _, _ => .file (.inl rfl)
  | .dir l, q => .dir (sameButList_refl l q)
  | .special, _ => .special
theorem sameButList_refl : ∀ (l : List (Str × Entry)) (q : Path), SameButList top q l l
  | [], _ => .nil
  | (nm, e) :: l, q => .cons (sameBut_refl e _) (sameButList_refl l q)
end

mutual
/-- Elsewhere everything is the same. -/
theorem sameBut_away : ∀ {e e' : Entry} {q : Path}, SameBut top q e e' → ¬ q <+: top → ¬ top <+: q → e = e'
  | _, _, _, .file h, _, h2 => by rw [h.resolve_right h2]
  | _, _, _, .dir h, h1, h2 => by rw [sameButList_away h h1 h2]
  | _, _, _, .special, _, _ => rfl
theorem sameButList_away : ∀ {l l' : List (Str × Entry)} {q : Path}, SameButList top q l l' → ¬ q <+: top → ¬ top <+: q → l = l'
  | _, _, _, .nil, _, _ => rfl
  | _, _, q, @SameButList.cons _ _ nm _ _ _ _ h hs, h1, h2 => by
    rw [sameButList_away hs h1 h2, sameBut_away h (fun k => h1 ((List.prefix_append ..).trans k)) fun k => ?_]
    rcases List.prefix_concat_iff.1 k with k | k
    · exact h1 (by rw [k]; exact List.prefix_append ..)
    · exact h2 k
end

/-- What is found on two disks. -/
inductive AtLike (top : Path) : Path → Option Entry → Option Entry → Prop
  | none {q : Path} : AtLike top q none none
  | some {q : Path} {e e' : Entry} : SameBut top q e e' → AtLike top q (some e) (some e')

theorem findEntry_but {l l' : List (Str × Entry)} {q : Path} (n : Str) (h : SameButList top q l l') :
    AtLike top (q ++ [n]) (findEntry n l) (findEntry n l') := by
  induction l generalizing l' with
  | nil => cases h; exact .none
  | cons x l ih =>
    cases h with
    | cons h hs =>
      simp only [findEntry]
      split
      · rename_i k; subst k; exact .some h
      · exact ih hs

theorem at_but : ∀ (r : Path) {e e' : Entry} {q : Path}, SameBut top q e e' → AtLike top (q ++ r) (e.at r) (e'.at r)
  | [], e, e', q, h => by
    have h1 : ∀ e : Entry, e.at [] = some e := fun e => by cases e <;> rfl
    rw [h1, h1, List.append_nil]
    exact .some h
  | n :: r, e, e', q, h => by
    cases h with
    | file => exact .none
    | special => exact .none
    | dir h =>
      have := findEntry_but n h
      simp only [Entry.at]
      generalize findEntry n _ = o at this
      generalize findEntry n _ = o' at this
      cases this with
      | none => exact .none
      | some h =>
        have := at_but r h
        rwa [List.append_assoc] at this

theorem setEntry_but {l l' : List (Str × Entry)} {q : Path} (n : Str) {v v' : Option Entry} (hv : AtLike top (q ++ [n]) v v')
    (h : SameButList top q l l') : SameButList top q (setEntryAt n v l) (setEntryAt n v' l') := by
  induction l generalizing l' with
  | nil =>
    cases h
    cases hv with
    | none => exact .nil
    | some hv => exact .cons hv .nil
  | cons x l ih =>
    cases h with
    | cons h hs =>
      simp only [setEntryAt]
      split
      · rename_i k
        subst k
        cases hv with
        | none => exact ih hs
        | some hv => exact .cons hv hs
      · exact .cons h (ih hs)

theorem put_but : ∀ (r : Path) {e e' : Entry} {q : Path} {v v' : Option Entry}, AtLike top (q ++ r) v v' → SameBut top q e e' →
    SameBut top q (e.put r v) (e'.put r v')
  | [], e, e', q, v, v', hv, h => by
    rw [List.append_nil] at hv
    cases hv with
    | none => cases h <;> (simp only [Entry.put]; constructor <;> assumption)
    | some hv => cases h <;> (simp only [Entry.put]; exact hv)
  | [n], e, e', q, v, v', hv, h => by
    cases h with
    | file h => simp only [Entry.put]; exact .file h
    | special => simp only [Entry.put]; exact .special
    | dir h => simp only [Entry.put]; exact .dir (setEntry_but n hv h)
  | n :: m :: r, e, e', q, v, v', hv, h => by
    cases h with
    | file h => simp only [Entry.put]; exact .file h
    | special => simp only [Entry.put]; exact .special
    | @dir _ l l' h =>
      have := findEntry_but n h
      simp only [Entry.put]
      generalize hx : findEntry n l = o at this
      generalize hx' : findEntry n l' = o' at this
      cases this with
      | none => exact .dir h
      | some k => exact .dir (setEntry_but n (.some (put_but (m :: r) (by simpa using hv) k)) h)

theorem isDirAt_but {d d' : Entry} (h : SameBut top [] d d') (p : Path) : d.isDirAt p = d'.isDirAt p := by
  have := at_but p h
  unfold Entry.isDirAt
  generalize d.at p = o at this
  generalize d'.at p = o' at this
  cases this with
  | none => rfl
  | some h => cases h <;> rfl

theorem existsAt_but {d d' : Entry} (h : SameBut top [] d d') (p : Path) : d.existsAt p = d'.existsAt p := by
  have := at_but p h
  unfold Entry.existsAt
  generalize d.at p = o at this
  generalize d'.at p = o' at this
  cases this <;> rfl

/-- What two changes lead to. -/
inductive ApplyLike (top : Path) : Option Entry → Option Entry → Prop
  | none : ApplyLike top none none
  | some {d d' : Entry} : SameBut top [] d d' → ApplyLike top (some d) (some d')

theorem apply_but (o : Op) {d d' : Entry} (h : SameBut top [] d d') : ApplyLike top (o.apply d) (o.apply d') := by
  have hput : ∀ p (v : Option Entry), ApplyLike top (some (d.put p v)) (some (d'.put p v)) := by
    intro p v
    refine .some (put_but p ?_ h)
    cases v with
    | none => exact .none
    | some v => exact .some (sameBut_refl v _)
  cases o with
  | clear p =>
    have := at_but p h
    simp only [Op.apply]
    generalize d.at p = o at this
    generalize d'.at p = o' at this
    cases this with
    | none => exact .some h
    | some k =>
      cases k with
      | file => exact .some h
      | special => exact .some h
      | dir =>
        simp only
        split
        · exact .none
        · exact hput p _
  | mkdir p =>
    have := at_but p h
    simp only [Op.apply, isDirAt_but h]
    generalize d.at p = o at this
    generalize d'.at p = o' at this
    cases this with
    | none =>
      simp only
      split
      · exact hput p _
      · exact .none
    | some k => exact .none
  | mkdirTolerant p =>
    have := at_but p h
    simp only [Op.apply, isDirAt_but h]
    generalize d.at p = o at this
    generalize d'.at p = o' at this
    cases this with
    | none =>
      simp only
      split
      · exact hput p _
      · exact .none
    | some k => exact .some h
  | write p b =>
    have := at_but p h
    simp only [Op.apply, isDirAt_but h]
    generalize d.at p = o at this
    generalize d'.at p = o' at this
    cases this with
    | none =>
      simp only
      split
      · exact hput p _
      · exact .none
    | some k =>
      cases k with
      | file => exact hput p _
      | special => exact .none
      | dir => exact .none
  | removeFile p =>
    have := at_but p h
    simp only [Op.apply]
    generalize d.at p = o at this
    generalize d'.at p = o' at this
    cases this with
    | none => exact .none
    | some k =>
      cases k with
      | file => exact hput p _
      | special => exact hput p _
      | dir => exact .none

/-- Two worlds that are the same but for the content. -/
structure WorldBut (top : Path) (w w' : World) : Prop where
  disk : SameBut top [] w.disk w'.disk
  faults : w.faults = w'.faults

theorem step_but (o : Op) {w w' : World} (h : WorldBut top w w') : WorldBut top (w.step o).1 (w'.step o).1 ∧ (w.step o).2 = (w'.step o).2 := by
  obtain ⟨d, fs⟩ := w
  obtain ⟨d', fs'⟩ := w'
  obtain ⟨h1, h2⟩ := h
  simp only at h1 h2
  subst h2
  have ha := apply_but o h1
  have hput : ∀ v : Option Entry, SameBut top [] (d.put o.target v) (d'.put o.target v) := by
    intro v
    refine put_but _ ?_ h1
    cases v with
    | none => exact .none
    | some v => exact .some (sameBut_refl v _)
  unfold World.step
  simp only
  split
  · exact ⟨⟨hput _, rfl⟩, rfl⟩
  · generalize o.apply d = x at ha
    generalize o.apply d' = x' at ha
    cases ha with
    | none => exact ⟨⟨h1, rfl⟩, rfl⟩
    | some h => exact ⟨⟨h, rfl⟩, rfl⟩

theorem runOps_but (os : List Op) : ∀ {w w' : World}, WorldBut top w w' → WorldBut top (runOps os w).1 (runOps os w').1 ∧ (runOps os w).2 = (runOps os w').2 := by
  induction os with
  | nil => intro w w' h; exact ⟨h, rfl⟩
  | cons o os ih =>
    intro w w' h
    obtain ⟨k1, k2⟩ := step_but o h
    simp only [runOps, ← k2]
    split
    · exact ih k1
    · exact ⟨k1, rfl⟩

/-! ### A build -/

/-- Projects with outputs that are the same but for templates. -/
structure ProjectLike (J : Prop) (s s' : Project) : Prop where
  dir : s.dir = s'.dir
  config : s.config = s'.config
  output : (s.output = none ∧ s'.output = none) ∨ ∃ n n', s.output = some n ∧ s'.output = some n' ∧ OutLike J n n'

variable {J : Prop}

theorem mergeOutput_named (n : Node) {s s' : Project} (h : ProjectLike J s s') :
    ProjectLike J (s.mergeOutput n).1 (s'.mergeOutput n).1 ∧ (s.mergeOutput n).2 = (s'.mergeOutput n).2 := by
  unfold Project.mergeOutput
  rcases h.output with ⟨h1, h2⟩ | ⟨a, a', h1, h2, h3⟩
  · rw [h1, h2]; exact ⟨h, rfl⟩
  · rw [h1, h2]
    obtain ⟨k1, k2⟩ := mergeNode_named n h3
    exact ⟨⟨h.dir, h.config, .inr ⟨_, _, rfl, rfl, k1⟩⟩, k2⟩

theorem mergeDirs_named (M : Machine) {d d' : Entry} (hd : SameBut top [] d d') (dir : Path) : ∀ (ns : List Str),
    (∀ n ∈ ns, ¬ dir ++ [n] <+: top ∧ ¬ top <+: dir ++ [n]) → ∀ {s s' : Project}, ProjectLike J s s' →
    ProjectLike J (mergeDirs M d dir ns s).1 (mergeDirs M d' dir ns s').1 ∧ (mergeDirs M d dir ns s).2 = (mergeDirs M d' dir ns s').2
  | [], _, s, s', h => by simp only [mergeDirs]; exact ⟨h, trivial⟩
  | n :: ns, hn, s, s', h => by
    have hread : readTree M.sys false [] d (dir ++ [n]) = readTree M.sys false [] d' (dir ++ [n]) := by
      have := at_but (dir ++ [n]) hd
      unfold readTree
      generalize d.at (dir ++ [n]) = o at this
      generalize d'.at (dir ++ [n]) = o' at this
      cases this with
      | none => rfl
      | some k => rw [sameBut_away k (hn n (.head _)).1 (hn n (.head _)).2]
    have ih := fun {s s'} => mergeDirs_named M hd dir ns (fun m hm => hn m (.tail _ hm)) (s := s) (s' := s')
    simp only [mergeDirs, existsAt_but hd, hread]
    split
    · cases readTree M.sys false [] d' (dir ++ [n]) with
      | err e => exact ⟨h, rfl⟩
      | panic p => exact ⟨h, rfl⟩
      | ok node =>
        simp only
        obtain ⟨k1, k2⟩ := mergeOutput_named node h
        generalize s.mergeOutput node = x at k1 k2
        generalize s'.mergeOutput node = x' at k1 k2
        obtain ⟨x1, x2⟩ := x
        obtain ⟨y1, y2⟩ := x'
        simp only at k1 k2
        subst k2
        cases x2 with
        | ok u => exact ih k1
        | err e => exact ⟨k1, rfl⟩
        | panic p => exact ⟨k1, rfl⟩
    · exact ih h

theorem save_named (path : Path) {s s' : Project} (h : ProjectLike J s s') (hJ : J → s.config.saveDataFiles = false) {w w' : World} (hw : WorldBut top w w') :
    WorldBut top (s.save path w).1 (s'.save path w').1 ∧ (s.save path w).2 = (s'.save path w').2 := by
  unfold Project.save
  rcases h.output with ⟨h1, h2⟩ | ⟨a, a', h1, h2, h3⟩
  · rw [h1, h2]; exact ⟨hw, rfl⟩
  · rw [h1, h2]
    simp only [← h.config]
    have hfile : ∀ {nm b b' c m src}, WorldBut top (saveNode s.config path (.file nm b c m src) w).1 (saveNode s.config path (.file nm b' c m src) w').1 ∧
        (saveNode s.config path (.file nm b c m src) w).2 = (saveNode s.config path (.file nm b' c m src) w').2 := by
      intro nm b b' c m src
      simp only [saveNode]
      obtain ⟨k1, k2⟩ := runOps_but [.clear path] hw
      generalize runOps [.clear path] w = x at k1 k2
      generalize runOps [.clear path] w' = x' at k1 k2
      obtain ⟨x1, x2⟩ := x
      obtain ⟨y1, y2⟩ := x'
      simp only at k1 k2
      subst k2
      cases x2 with
      | ok u => exact ⟨k1, rfl⟩
      | err e => exact ⟨k1, rfl⟩
      | panic p => exact ⟨k1, rfl⟩
    cases h3 with
    | file => exact hfile
    | template => exact hfile
    | data => exact hfile
    | dir _ _ h =>
      simp only [saveNode, saveAll_named s.config hJ h]
      exact runOps_but _ hw

theorem saveMetadata_named (S : Sys) (path : Path) {s s' : Project} (h : ProjectLike J s s') {w w' : World} (hw : WorldBut top w w') :
    WorldBut top (s.saveMetadata S path w).1 (s'.saveMetadata S path w').1 ∧ (s.saveMetadata S path w).2 = (s'.saveMetadata S path w').2 := by
  unfold Project.saveMetadata
  rw [← h.config]
  split
  · exact ⟨hw, rfl⟩
  · rcases h.output with ⟨h1, h2⟩ | ⟨a, a', h1, h2, h3⟩
    · rw [h1, h2]; exact ⟨hw, rfl⟩
    · rw [h1, h2]
      simp only [saveMetaNode, metaRoot_named h3]
      split
      · exact runOps_but _ hw
      · exact ⟨hw, rfl⟩
      · exact ⟨hw, rfl⟩

theorem projectBuild_named {S : Sys} {d d' : Entry} {s : Project} (h : RetoldAt S s.plugins d d' s.dir) (mode : Str) :
    ((∃ s1 s1', s.build S d mode = (s1, .ok ()) ∧ s.build S d' mode = (s1', .ok ()) ∧ ProjectLike False s1 s1') ∨
      ∃ s1 s1' r r', s.build S d mode = (s1, r) ∧ s.build S d' mode = (s1', r') ∧ (∀ u, r ≠ .ok u) ∧ ResLike SErrLike Eq r r') := by
  have hr := readTree_named h
  unfold Project.build
  generalize readTree S true s.plugins d s.dir = x at hr
  generalize readTree S true s.plugins d' s.dir = x' at hr
  cases hr with
  | err e => subst e; exact .inr ⟨_, _, _, _, rfl, rfl, nofun, .err (.same _)⟩
  | panic p => exact .inr ⟨_, _, _, _, rfl, rfl, nofun, .panic _⟩
  | @ok n n' hn =>
    simp only
    have hp := preNode_named (ctx_like hn S.dateFmt) S.vars mode S.ext hn
    generalize preNode S.ext ⟨n, S.dateFmt⟩ _ n = y at hp
    generalize preNode S.ext ⟨n', S.dateFmt⟩ _ n' = y' at hp
    cases hp with
    | err e => exact .inr ⟨_, _, _, _, rfl, rfl, nofun, .err e⟩
    | panic p => exact .inr ⟨_, _, _, _, rfl, rfl, nofun, .panic _⟩
    | @ok m m' hm =>
      simp only
      have henv : EnvLike (updateEnv ⟨none, none⟩ (m.children.getD [])) (updateEnv ⟨none, none⟩ (m'.children.getD [])) := by
        cases hm with
        | file => exact ⟨.inl ⟨rfl, rfl⟩, .inl ⟨rfl, rfl⟩⟩
        | dir h => exact updateEnv_named ⟨.inl ⟨rfl, rfl⟩, .inl ⟨rfl, rfl⟩⟩ h
      have hb := buildNode_named (ctx_like hm S.dateFmt) S.vars mode (cfg := s.config) henv hm
      generalize buildNode _ _ m = z at hb
      generalize buildNode _ _ m' = z' at hb
      cases hb with
      | err e => exact .inr ⟨_, _, _, _, rfl, rfl, nofun, .err e⟩
      | panic p => exact .inr ⟨_, _, _, _, rfl, rfl, nofun, .panic _⟩
      | ok h => exact .inl ⟨_, _, rfl, rfl, rfl, rfl, .inr ⟨_, _, rfl, rfl, h⟩⟩

end

theorem SErrLike.fail {e e' : SErr} (h : SErrLike e e') : FailLike (.core e) (.core e') := by
  cases h with
  | same => exact .same _
  | process hN h => exact .rendering hN h.1 h.2

theorem resultLike_refl (r : Res CliErr Unit) : ResultLike r r := by
  cases r with
  | ok u => exact .ok
  | err e => exact .err (.same e)
  | panic p => exact .panic p

/-- An error of the core library, as the command line program has it. -/
def asCore : Res SErr Unit → Res CliErr Unit
  | .ok u => .ok u
  | .err e => .err (.core e)
  | .panic p => .panic p

/-- Publishing, and what a whole build does, for a context without scripts, if what is built is alike. -/
theorem contextBuild_alike {J : Prop} {M : Machine} {c : Context} (hpre : c.pre = []) (hpost : c.post = []) (hdir : c.stuart.dir = c.dir ++ [str!"content"])
    {s s' : Host} (hd : SameBut c.stuart.dir [] s.world.disk s'.world.disk) (hf : s.world.faults = s'.world.faults)
    {Q : Res CliErr Unit → Res CliErr Unit → Prop} (hQ : ∀ r, Q r r) (hJ : J → c.stuart.config.saveDataFiles = false)
    (hb : ((∃ s1 s1', c.stuart.build M.sys s.world.disk c.mode = (s1, .ok ()) ∧ c.stuart.build M.sys s'.world.disk c.mode = (s1', .ok ()) ∧
        s1.config = c.stuart.config ∧ ProjectLike J s1 s1') ∨
      ∃ s1 s1' r r', c.stuart.build M.sys s.world.disk c.mode = (s1, r) ∧ c.stuart.build M.sys s'.world.disk c.mode = (s1', r') ∧
        (∀ u, r ≠ .ok u) ∧ (∀ u, r' ≠ .ok u) ∧ Q (asCore r) (asCore r'))) :
    WorldBut c.stuart.dir (c.build M s).2.1.world (c.build M s').2.1.world ∧ Q (c.build M s).2.2 (c.build M s').2.2 := by
  have hw : WorldBut c.stuart.dir s.world s'.world := ⟨hd, hf⟩
  have haway : ∀ n ∈ [str!"static", str!"temp"], ¬ c.dir ++ [n] <+: c.stuart.dir ∧ ¬ c.stuart.dir <+: c.dir ++ [n] := by
    intro n hn
    rw [hdir]
    constructor
    · intro k
      have := List.IsPrefix.eq_of_length k (by simp)
      have := List.append_cancel_left this
      cases this
      exact absurd hn (by decide)
    · intro k
      have := List.IsPrefix.eq_of_length k (by simp)
      have := List.append_cancel_left this
      cases this
      exact absurd hn (by decide)
  obtain ⟨st, pre, post, env, mode, dir, out⟩ := c
  simp only at hpre hpost hdir hd hw haway hJ hb
  subst hpre
  subst hpost
  simp only [Context.build, runScripts]
  rcases hb with ⟨s1, s1', k1, k2, k0, k3⟩ | ⟨s1, s1', r, r', k1, k2, k3, k3', k4⟩
  · rw [k1, k2]
    simp only
    have hm := mergeDirs_named M hd dir [str!"static", str!"temp"] haway k3
    have hc := mergeDirs_config (M := M) (disk := s.world.disk) (dir := dir) (ns := [str!"static", str!"temp"]) (s := s1)
    simp only [Context.publish]
    generalize mergeDirs M s.world.disk dir [str!"static", str!"temp"] s1 = x at hm hc
    generalize mergeDirs M s'.world.disk dir [str!"static", str!"temp"] s1' = x' at hm
    obtain ⟨x1, x2⟩ := x
    obtain ⟨y1, y2⟩ := x'
    obtain ⟨m1, m2⟩ := hm
    simp only at m1 m2 hc
    subst m2
    cases x2 with
    | err e => exact ⟨hw, hQ _⟩
    | panic p => exact ⟨hw, hQ _⟩
    | ok u =>
      simp only
      have h1 := (step_but (.clear (dir ++ [str!"temp"])) hw).1
      have h2 := save_named (joinPath dir out) m1 (fun j => by rw [hc, k0]; exact hJ j) h1
      generalize x1.save (joinPath dir out) _ = z at h2
      generalize y1.save (joinPath dir out) _ = z' at h2
      obtain ⟨z1, z2⟩ := z
      obtain ⟨z1', z2'⟩ := z'
      obtain ⟨h2, h3⟩ := h2
      simp only at h2 h3
      subst h3
      cases z2 with
      | err e => exact ⟨h2, hQ _⟩
      | panic p => exact ⟨h2, hQ _⟩
      | ok u =>
        simp only [exportMeta, ← m1.config]
        have h4 := saveMetadata_named M.sys (dir ++ [str!"metadata.json"]) m1 h2
        by_cases hs : x1.config.saveMetadata = true
        · simp only [hs, if_true]
          generalize x1.saveMetadata M.sys (dir ++ [str!"metadata.json"]) z1 = v at h4
          generalize y1.saveMetadata M.sys (dir ++ [str!"metadata.json"]) z1' = v' at h4
          obtain ⟨v1, v2⟩ := v
          obtain ⟨v1', v2'⟩ := v'
          obtain ⟨h5, h6⟩ := h4
          simp only at h5 h6
          subst h6
          cases v2 with
          | ok u => exact ⟨h5, hQ _⟩
          | err e => exact ⟨h5, hQ _⟩
          | panic p => exact ⟨h5, hQ _⟩
        · simp only [hs, Bool.false_eq_true, if_false]
          exact ⟨h2, hQ _⟩
  · rw [k1, k2]
    cases r with
    | ok u => exact absurd rfl (k3 u)
    | err e =>
      cases r' with
      | ok u => exact absurd rfl (k3' u)
      | err e' => exact ⟨hw, k4⟩
      | panic p => exact ⟨hw, k4⟩
    | panic p =>
      cases r' with
      | ok u => exact absurd rfl (k3' u)
      | err e' => exact ⟨hw, k4⟩
      | panic p => exact ⟨hw, k4⟩

theorem projectBuild_config {S : Sys} {d : Entry} {s s1 : Project} {mode : Str} {r : Res SErr Unit} (h : s.build S d mode = (s1, r)) :
    s1.config = s.config := by
  have : (s.build S d mode).1.config = s.config := by
    unfold Project.build
    split
    · rfl
    · rfl
    · simp only
      split
      · rfl
      · rfl
      · split <;> rfl
  rw [h] at this
  exact this

/-- For content that says the same. -/
theorem contextBuild_named {M : Machine} {c : Context} (hpre : c.pre = []) (hpost : c.post = []) (hdir : c.stuart.dir = c.dir ++ [str!"content"])
    {s s' : Host} (hd : RetoldDisks M.sys c.stuart.plugins c.stuart.dir s.world.disk s'.world.disk) (hf : s.world.faults = s'.world.faults) :
    WorldBut c.stuart.dir (c.build M s).2.1.world (c.build M s').2.1.world ∧ ResultLike (c.build M s).2.2 (c.build M s').2.2 := by
  refine contextBuild_alike (J := False) hpre hpost hdir hd.alike hf resultLike_refl (fun h => h.elim) ?_
  rcases projectBuild_named hd.retold c.mode with ⟨s1, s1', k1, k2, k3⟩ | ⟨s1, s1', r, r', k1, k2, k3, k4⟩
  · exact .inl ⟨s1, s1', k1, k2, projectBuild_config k1, k3⟩
  · refine .inr ⟨s1, s1', r, r', k1, k2, k3, ?_, ?_⟩
    · rintro u rfl
      cases k4 with
      | ok h => exact k3 _ rfl
    · cases k4 with
      | ok h => exact absurd rfl (k3 _)
      | err h => exact .err h.fail
      | panic p => exact .panic p

end Stuart
