import Verif.Spec.Whole
import Verif.Proof.Project
import Verif.Proof.OrderBuild
import Verif.Props.Site
import Verif.Props.Read
import Verif.Props.Output
/-
Following a file through a whole build.
-/
namespace Stuart
open Spec

/-- The content as it is read: the files and directories of the disk, each file with its bytes and its
reading. Nothing is left out. -/
structure AsRead (S : Sys) (plugins : List Plugin) (d : Entry) (p : Path) (name : Str) (cs : List Node) : Prop where
  last : p.getLast? = some name
  distinct : Distinct cs
  dirs : ∀ ds nm, Shows cs ds nm .dir ↔ look d (p ++ ds ++ [nm]) = some .dir
  files : ∀ ds nm b c m src, Shows cs ds nm (.file b c m src) ↔
    look d (p ++ ds ++ [nm]) = some (.file b) ∧ m = none ∧ src = pathStr (p ++ ds ++ [nm]) ∧ ReadAs S plugins nm src b c
  plain : ∀ q, look d (p ++ q) ≠ some .special
  readable : ∀ ds nm b, look d (p ++ ds ++ [nm]) = some (.file b) → ∃ c, ReadAs S plugins nm (pathStr (p ++ ds ++ [nm])) b c

/-- The content as it is used while pages are made: as read, with the markdown converted. -/
structure AsUsed (S : Sys) (base : Frame) (input : Node) (cs ts : List Node) : Prop where
  distinct : Distinct ts
  dirs : ∀ ds nm, Shows ts ds nm .dir ↔ Shows cs ds nm .dir
  files : ∀ ds nm b c m src, Shows ts ds nm (.file b c m src) ↔
    ∃ c0, Shows cs ds nm (.file b c0 m src) ∧ Converted S.ext ⟨input, S.dateFmt⟩ base c0 c
  convertible : ∀ ds nm b c m src, Shows cs ds nm (.file b c m src) → ∃ c', Converted S.ext ⟨input, S.dateFmt⟩ base c c'

/-! ### Going down the tree with the templates -/

/-- The directory reached below `cs`, whose environment is `env`, and its environment. -/
inductive Under : Env → List Node → List Str → Env → List Node → Prop
  | here {env : Env} {cs : List Node} : Under env cs [] env cs
  | down {env e : Env} {cs cs' l : List Node} {d src : Str} {ds : List Str} : .dir d cs' src ∈ cs →
      Under (updateEnv env cs') cs' ds e l → Under env cs (d :: ds) e l

theorem holds_under {cs : List Node} {ds : List Str} {n : Node} (h : Holds cs ds n) :
    ∀ env, ∃ e l, Under env cs ds e l ∧ n ∈ l := by
  induction h with
  | here h => exact fun env => ⟨env, _, .here, h⟩
  | down h _ ih =>
    intro env
    obtain ⟨e, l, h1, h2⟩ := ih (updateEnv env _)
    exact ⟨e, l, .down h h1, h2⟩

theorem buildNodes_mem {b : Builder} {env : Env} : ∀ {cs os : List Node}, buildNodes b env cs = .ok os →
    (∀ o ∈ os, ∃ n ∈ cs, buildNode b env n = .ok o) ∧ ∀ n ∈ cs, ∃ o ∈ os, buildNode b env n = .ok o
  | [], os, h => by rw [buildNodes] at h; cases h; simp
  | c :: cs, os, h => by
    rw [buildNodes] at h
    obtain ⟨o, h1, h2⟩ := Res.bind_eq_ok.1 h
    obtain ⟨os', h3, h4⟩ := Res.bind_eq_ok.1 h2
    cases h4
    obtain ⟨i1, i2⟩ := buildNodes_mem h3
    constructor
    · intro x hx
      rcases List.mem_cons.1 hx with rfl | hx
      · exact ⟨c, .head _, h1⟩
      · obtain ⟨n, k1, k2⟩ := i1 x hx; exact ⟨n, .tail _ k1, k2⟩
    · intro x hx
      rcases List.mem_cons.1 hx with rfl | hx
      · exact ⟨o, .head _, h1⟩
      · obtain ⟨n, k1, k2⟩ := i2 x hx; exact ⟨n, .tail _ k1, k2⟩

theorem buildNode_file_ok {b : Builder} {env : Env} {nm src : Str} {c : Bytes} {p : Parsed} {m : Option Value} {o : Node}
    (h : buildNode b env (.file nm c p m src) = .ok o) : ∃ nm' c' m', o = .file nm' c' .none m' src := by
  rw [buildNode, processFile] at h
  obtain ⟨x, _, h2⟩ := Res.bind_eq_ok.1 h
  cases h2; exact ⟨_, _, _, rfl⟩

/-- Everything in the built tree comes from its place. -/
theorem comes_from {b : Builder} {ds : List Str} {os : List Node} {o : Node} (h : Holds os ds o) :
    ∀ {env : Env} {cs : List Node}, buildNodes b env cs = .ok os →
      ∃ e l n, Under env cs ds e l ∧ n ∈ l ∧ buildNode b e n = .ok o := by
  induction h with
  | here h =>
    intro env cs hb
    obtain ⟨n, h1, h2⟩ := (buildNodes_mem hb).1 _ h
    exact ⟨env, cs, n, .here, h1, h2⟩
  | down h _ ih =>
    intro env cs hb
    obtain ⟨n, h1, h2⟩ := (buildNodes_mem hb).1 _ h
    cases n with
    | file => obtain ⟨_, _, _, k⟩ := buildNode_file_ok h2; cases k
    | dir d cs' src =>
      obtain ⟨os', k1, k2⟩ := buildNode_dir_ok.1 h2
      cases k2
      obtain ⟨e, l, n, h3, h4, h5⟩ := ih k1
      exact ⟨e, l, n, .down h1 h3, h4, h5⟩

/-- Everything in the tree is built in its place. -/
theorem comes_to {b : Builder} {env e : Env} {cs l : List Node} {ds : List Str} {n : Node} (h : Under env cs ds e l)
    (hn : n ∈ l) : ∀ {os : List Node}, buildNodes b env cs = .ok os → ∃ o, buildNode b e n = .ok o ∧ Holds os ds o := by
  induction h with
  | here =>
    intro os hb
    obtain ⟨o, h1, h2⟩ := (buildNodes_mem hb).2 _ hn
    exact ⟨o, h2, .here h1⟩
  | down h _ ih =>
    intro os hb
    obtain ⟨o, h1, h2⟩ := (buildNodes_mem hb).2 _ h
    obtain ⟨os', k1, rfl⟩ := buildNode_dir_ok.1 h2
    obtain ⟨o, k3, k4⟩ := ih hn k1
    exact ⟨o, k3, .down h1 k4⟩

/-! ### Which template is in force -/

theorem under_holds {env e : Env} {cs l : List Node} {ds : List Str} (h : Under env cs ds e l) {n : Node} (hn : n ∈ l) :
    Holds cs ds n := by
  induction h with
  | here => exact .here hn
  | down h _ ih => exact .down h (ih hn)

theorem find_named {cs : List Node} (hd : Distinct cs) {n : Node} (hn : n ∈ cs) :
    cs.reverse.find? (fun c => c.name = n.name) = some n := by
  cases h : cs.reverse.find? fun c => c.name = n.name with
  | none => simp [List.find?_eq_none] at h; exact absurd rfl (h n hn)
  | some c =>
    have h1 := List.find?_some h
    have h2 := List.mem_reverse.1 (List.mem_of_find?_eq_some h)
    rw [Distinct_nodup hd h2 hn (by simpa using h1)]

theorem find_unnamed {cs : List Node} {nm : Str} (h : ∀ n ∈ cs, n.name ≠ nm) :
    cs.reverse.find? (fun c => c.name = nm) = none := by
  simpa [List.find?_eq_none] using h

theorem holds_via {cs cs' : List Node} (hd : Distinct cs) {d src : Str} (hc : .dir d cs' src ∈ cs) {q : List Str} {n : Node} :
    Holds cs (d :: q) n ↔ Holds cs' q n := by
  constructor
  · intro h
    cases h with
    | down h h' => cases Distinct_nodup hd h hc rfl; exact h'
  · exact .down hc

/-- There is one thing of a name at a place. -/
theorem holds_one {cs : List Node} {ds : List Str} {n n' : Node} (hd : Distinct cs) (h : Holds cs ds n) (h' : Holds cs ds n')
    (hn : n.name = n'.name) : n = n' := by
  induction h with
  | here h =>
    cases h' with
    | here h' => exact Distinct_nodup hd h h' hn
  | down h _ ih => exact ih (Distinct_child hd h) ((holds_via hd h).1 h') hn

/-- The innermost directory on the way, below the top, that has something of this name. -/
theorem under_template {nm : Str} {sel : Env → Option (List LTok)}
    (hsel : ∀ cs env, sel (updateEnv env cs) = match cs.reverse.find? (fun c => c.name = nm) with
      | some c => asTemplate c
      | none => sel env)
    {env e : Env} {cs l : List Node} {ds : List Str} (h : Under env cs ds e l) (hd : Distinct cs) :
    (∀ q n, q <+: ds → q ≠ [] → Holds cs q n → n.name = nm →
      (∀ q' n', q' <+: ds → q' ≠ [] → Holds cs q' n' → n'.name = nm → q' <+: q) → sel e = asTemplate n) ∧
    ((∀ q n, q <+: ds → q ≠ [] → Holds cs q n → n.name ≠ nm) → sel e = sel env) := by
  induction h with
  | here => exact ⟨fun q n h1 h2 => absurd (List.prefix_nil.1 h1) h2, fun _ => rfl⟩
  | @down env e cs cs' l d src ds hc _ ih =>
    obtain ⟨i1, i2⟩ := ih (Distinct_child hd hc)
    constructor
    · intro q n h1 h2 h3 h4 h5
      cases q with
      | nil => exact absurd rfl h2
      | cons x q =>
        obtain ⟨rfl, h1'⟩ := List.cons_prefix_cons.1 h1
        rw [holds_via hd hc] at h3
        have h5' : ∀ q' n', q' <+: ds → Holds cs' q' n' → n'.name = nm → q' <+: q := fun q' n' k1 k2 k3 =>
          (List.cons_prefix_cons.1 (h5 (x :: q') n' (List.cons_prefix_cons.2 ⟨rfl, k1⟩) (by simp)
            ((holds_via hd hc).2 k2) k3)).2
        cases q with
        | nil =>
          rw [i2 fun q' n' k1 k2 k3 k4 => k2 (List.prefix_nil.1 (h5' q' n' k1 k3 k4)), hsel]
          cases h3 with
          | here h3 => subst h4; rw [find_named (Distinct_child hd hc) h3]
        | cons y q => exact i1 _ n h1' (by simp) h3 h4 fun q' n' k1 _ k2 k3 => h5' q' n' k1 k2 k3
    · intro h1
      rw [i2 fun q n k1 _ k3 => h1 (d :: q) n (List.cons_prefix_cons.2 ⟨rfl, k1⟩) (by simp) (.down hc k3), hsel,
        find_unnamed fun n hn => h1 [d] n (List.cons_prefix_cons.2 ⟨rfl, List.nil_prefix⟩) (by simp) (.down hc (.here hn))]

/-- As above, from the top on. -/
theorem top_template {nm : Str} {sel : Env → Option (List LTok)}
    (hsel : ∀ cs env, sel (updateEnv env cs) = match cs.reverse.find? (fun c => c.name = nm) with
      | some c => asTemplate c
      | none => sel env)
    {env e : Env} {cs l : List Node} {ds : List Str} (h : Under (updateEnv env cs) cs ds e l) (hd : Distinct cs) :
    (∀ q n, q <+: ds → Holds cs q n → n.name = nm →
      (∀ q' n', q' <+: ds → Holds cs q' n' → n'.name = nm → q' <+: q) → sel e = asTemplate n) ∧
    ((∀ q n, q <+: ds → Holds cs q n → n.name ≠ nm) → sel e = sel env) := by
  obtain ⟨i1, i2⟩ := under_template hsel h hd
  constructor
  · intro q n h1 h2 h3 h4
    cases q with
    | cons x q => exact i1 _ n h1 (by simp) h2 h3 fun q' n' k1 _ k2 k3 => h4 q' n' k1 k2 k3
    | nil =>
      rw [i2 fun q' n' k1 k2 k3 k4 => k2 (List.prefix_nil.1 (h4 q' n' k1 k3 k4)), hsel]
      cases h2 with
      | here h2 => subst h3; rw [find_named hd h2]
  · intro h1
    rw [i2 fun q n k1 _ => h1 q n k1, hsel, find_unnamed fun n hn => h1 [] n List.nil_prefix (.here hn)]

theorem exists_longest {P : List Str → Prop} (k : Nat) : ∀ {ds q : List Str}, ds.length = k → q <+: ds → P q →
    ∃ q, q <+: ds ∧ P q ∧ ∀ q', q' <+: ds → P q' → q' <+: q := by
  induction k with
  | zero =>
    intro ds q hl h hq
    cases List.length_eq_zero_iff.1 hl
    exact ⟨q, h, hq, fun q' h' _ => by rw [List.prefix_nil.1 h']; exact List.nil_prefix⟩
  | succ k ih =>
    intro ds q hl h hq
    by_cases hP : P ds
    · exact ⟨ds, List.prefix_refl _, hP, fun _ h' _ => h'⟩
    rcases List.eq_nil_or_concat ds with rfl | ⟨ds', x, rfl⟩
    · cases hl
    rw [List.concat_eq_append] at *
    rcases List.prefix_concat_iff.1 h with rfl | h
    · exact absurd hq hP
    obtain ⟨q0, h1, h2, h3⟩ := ih (by simpa using hl) h hq
    refine ⟨q0, h1.trans (List.prefix_append _ _), h2, fun q' k1 k2 => ?_⟩
    rcases List.prefix_concat_iff.1 k1 with rfl | k1
    · exact absurd k2 hP
    · exact h3 q' k1 k2

/-! ### Converting the markdown -/

theorem preNodes_mem {ext : Ext} {cx : Ctx} {base : Frame} : ∀ {cs os : List Node}, preNodes ext cx base cs = .ok os →
    (∀ o ∈ os, ∃ n ∈ cs, preNode ext cx base n = .ok o) ∧ (∀ n ∈ cs, ∃ o ∈ os, preNode ext cx base n = .ok o) ∧
    os.map Node.name = cs.map Node.name
  | [], os, h => by rw [preNodes] at h; cases h; simp
  | c :: cs, os, h => by
    obtain ⟨o, os', h1, h3, rfl⟩ := preNodes_cons_ok.1 h
    obtain ⟨i1, i2, i3⟩ := preNodes_mem h3
    refine ⟨?_, ?_, ?_⟩
    · intro x hx
      rcases List.mem_cons.1 hx with rfl | hx
      · exact ⟨c, .head _, h1⟩
      · obtain ⟨n, k1, k2⟩ := i1 x hx; exact ⟨n, .tail _ k1, k2⟩
    · intro x hx
      rcases List.mem_cons.1 hx with rfl | hx
      · exact ⟨o, .head _, h1⟩
      · obtain ⟨n, k1, k2⟩ := i2 x hx; exact ⟨n, .tail _ k1, k2⟩
    · rw [List.map_cons, List.map_cons, i3, (preNode_same h1).1]

theorem pre_from {ext : Ext} {cx : Ctx} {base : Frame} {ds : List Str} {os : List Node} {o : Node} (h : Holds os ds o) :
    ∀ {cs : List Node}, preNodes ext cx base cs = .ok os → ∃ n, Holds cs ds n ∧ preNode ext cx base n = .ok o := by
  induction h with
  | here h =>
    intro cs hb
    obtain ⟨n, h1, h2⟩ := (preNodes_mem hb).1 _ h
    exact ⟨n, .here h1, h2⟩
  | down h _ ih =>
    intro cs hb
    obtain ⟨n, h1, h2⟩ := (preNodes_mem hb).1 _ h
    cases n with
    | file => obtain ⟨_, _, k⟩ := preNode_file_ok.1 h2; cases k
    | dir d cs' src =>
      obtain ⟨os', k1, k2⟩ := preNode_dir_ok.1 h2
      cases k2
      obtain ⟨n, h3, h4⟩ := ih k1
      exact ⟨n, .down h1 h3, h4⟩

theorem pre_to {ext : Ext} {cx : Ctx} {base : Frame} {ds : List Str} {cs : List Node} {n : Node} (h : Holds cs ds n) :
    ∀ {os : List Node}, preNodes ext cx base cs = .ok os → ∃ o, Holds os ds o ∧ preNode ext cx base n = .ok o := by
  induction h with
  | here h =>
    intro cs hb
    obtain ⟨n, h1, h2⟩ := (preNodes_mem hb).2.1 _ h
    exact ⟨n, .here h1, h2⟩
  | down h _ ih =>
    intro os hb
    obtain ⟨n, h1, h2⟩ := (preNodes_mem hb).2.1 _ h
    obtain ⟨os', k1, rfl⟩ := preNode_dir_ok.1 h2
    obtain ⟨n, h3, h4⟩ := ih k1
    exact ⟨n, .down h1 h3, h4⟩

theorem converted_iff {ext : Ext} {cx : Ctx} {base : Frame} (hb : base.name = str!"base") {c c' : Parsed} {src : Str} :
    preFile ext cx base c src = .ok c' ↔ Converted ext cx base c c' := by
  constructor
  · intro h
    cases c with
    | markdown md =>
      rw [preFile] at h
      obtain ⟨md', h1, h2⟩ := Res.bind_eq_ok.1 h
      cases h2
      cases h3 : preprocessMd ext cx base src md with
      | err e => rw [h3] at h1; cases h1
      | panic e => rw [h3] at h1; cases h1
      | ok x =>
        rw [h3] at h1
        cases h1
        unfold preprocessMd at h3
        obtain ⟨⟨stk, secs⟩, h4, h5⟩ := Res.bind_eq_ok.1 h3
        cases stk with
        | nil => cases h5
        | cons f fs =>
          simp only [beq_iff_eq] at h5
          split at h5
          · rename_i hf
            cases alone h4 hf
            split at h5
            · cases h5
            · rename_i text ht; cases h5; exact .markdown h4 ht
          · cases h5
    | _ => cases h; exact .same nofun
  · intro h
    cases h with
    | same h =>
      cases c with
      | markdown md => exact absurd rfl (h md)
      | _ => rfl
    | @markdown md f secs text h1 h2 =>
      obtain ⟨b', vs, o, hl, hb'⟩ := base_inv h1
      simp only [List.getLast?_singleton, Option.some.injEq] at hl
      have hf : f.name = str!"base" := by rw [hl, hb', ← hb]
      rw [preFile, preprocessMd, h1]
      simp only [Res.bind_ok, hf, beq_self_eq_true, if_true, h2]
      rfl

theorem asUsed {S : Sys} {base : Frame} (hb : base.name = str!"base") {input : Node} {cs ts : List Node} (hd : Distinct cs)
    (h : preNodes S.ext ⟨input, S.dateFmt⟩ base cs = .ok ts) : AsUsed S base input cs ts where
  distinct := by
    refine ⟨?_, fun ds d ts' src hh => ?_⟩
    · rw [(preNodes_mem h).2.2]; exact hd.1
    · obtain ⟨n, h1, h2⟩ := pre_from hh h
      cases n with
      | file => obtain ⟨_, _, k⟩ := preNode_file_ok.1 h2; cases k
      | dir d' cs' src' =>
        obtain ⟨os, k1, k2⟩ := preNode_dir_ok.1 h2
        cases k2
        rw [(preNodes_mem k1).2.2]
        exact hd.2 _ _ _ _ h1
  dirs := by
    intro ds nm
    constructor
    · rintro ⟨o, h1, h2, h3⟩
      obtain ⟨n, k1, k2⟩ := pre_from h1 h
      cases n with
      | file => obtain ⟨_, _, rfl⟩ := preNode_file_ok.1 k2; cases h3
      | dir d' cs' src' => exact ⟨_, k1, by rw [← (preNode_same k2).1, h2], rfl⟩
    · rintro ⟨o, h1, h2, h3⟩
      obtain ⟨n, k1, k2⟩ := pre_to h1 h
      cases o with
      | file => cases h3
      | dir d' cs' src' =>
        refine ⟨_, k1, by rw [(preNode_same k2).1, h2], ?_⟩
        obtain ⟨os, _, rfl⟩ := preNode_dir_ok.1 k2; rfl
  files := by
    intro ds nm b c m src
    simp only [Shows_file]
    constructor
    · intro h1
      obtain ⟨n, k1, k2⟩ := pre_from h1 h
      cases n with
      | dir => obtain ⟨_, _, k⟩ := preNode_dir_ok.1 k2; cases k
      | file =>
        obtain ⟨p', k3, k4⟩ := preNode_file_ok.1 k2
        cases k4
        exact ⟨_, k1, (converted_iff hb).1 k3⟩
    · rintro ⟨c0, h1, h2⟩
      obtain ⟨n, k1, k2⟩ := pre_to h1 h
      obtain ⟨p', k3, rfl⟩ := preNode_file_ok.1 k2
      rw [(converted_iff hb).2 h2] at k3
      cases k3
      exact k1
  convertible := by
    intro ds nm b c m src h1
    rw [Shows_file] at h1
    obtain ⟨n, k1, k2⟩ := pre_to h1 h
    obtain ⟨p', k3, rfl⟩ := preNode_file_ok.1 k2
    exact ⟨p', (converted_iff hb).1 k3⟩

/-! ### Templates, in terms of the disk -/

section
variable {S : Sys} {plugins : List Plugin} {d : Entry} {p : Path} {name : Str} {base : Frame} {input : Node}
  {cs ts : List Node}

theorem shown_look (hr : AsRead S plugins d p name cs) (hu : AsUsed S base input cs ts) {ds : List Str} {nm : Str} :
    (∃ n, Holds ts ds n ∧ n.name = nm) ↔ look d (p ++ ds ++ [nm]) ≠ none := by
  constructor
  · rintro ⟨n, h1, rfl⟩
    cases n with
    | dir x l src =>
      rw [(hr.dirs ds _).1 ((hu.dirs ds _).1 ⟨_, h1, rfl, rfl⟩)]; nofun
    | file x b c m src =>
      obtain ⟨c0, k, _⟩ := (hu.files ds _ b c m src).1 ⟨_, h1, rfl, rfl⟩
      rw [((hr.files ds _ b c0 m src).1 k).1]; nofun
  · intro h
    cases hl : look d (p ++ ds ++ [nm]) with
    | none => exact absurd hl h
    | some k =>
      cases k with
      | special => rw [List.append_assoc] at hl; exact absurd hl (hr.plain _)
      | dir =>
        obtain ⟨n, k1, k2, _⟩ := (hu.dirs ds nm).2 ((hr.dirs ds nm).2 hl)
        exact ⟨n, k1, k2⟩
      | file b =>
        obtain ⟨c, hc⟩ := hr.readable _ _ _ hl
        have h1 := (hr.files ds nm b c none _).2 ⟨hl, rfl, rfl, hc⟩
        obtain ⟨c', hc'⟩ := hu.convertible _ _ _ _ _ _ h1
        obtain ⟨n, k1, k2, _⟩ := (hu.files ds nm b c' none _).2 ⟨c, h1, hc'⟩
        exact ⟨n, k1, k2⟩

theorem shown_file (hr : AsRead S plugins d p name cs) (hu : AsUsed S base input cs ts) {ds : List Str} {nm : Str} {b : Bytes}
    {c : Parsed} {m : Option Value} {src : Str} : Holds ts ds (.file nm b c m src) ↔
    look d (p ++ ds ++ [nm]) = some (.file b) ∧ m = none ∧ src = pathStr (p ++ ds ++ [nm]) ∧
      ∃ c0, ReadAs S plugins nm (pathStr (p ++ ds ++ [nm])) b c0 ∧ Converted S.ext ⟨input, S.dateFmt⟩ base c0 c := by
  rw [← Shows_file, hu.files]
  constructor
  · rintro ⟨c0, h1, h2⟩
    obtain ⟨k1, k2, rfl, k4⟩ := (hr.files ds nm b c0 m src).1 h1
    exact ⟨k1, k2, rfl, c0, k4, h2⟩
  · rintro ⟨h1, h2, rfl, c0, h3, h4⟩
    exact ⟨c0, (hr.files ds nm b c0 m _).2 ⟨h1, h2, rfl, h3⟩, h4⟩

theorem template_iff (hr : AsRead S plugins d p name cs) (hu : AsUsed S base input cs ts) {nm : Str}
    {sel : Env → Option (List LTok)}
    (hsel : ∀ cs env, sel (updateEnv env cs) = match cs.reverse.find? (fun c => c.name = nm) with
      | some c => asTemplate c
      | none => sel env)
    {env e : Env} {l : List Node} {ds : List Str} (h : Under (updateEnv env ts) ts ds e l) (henv : sel env = none)
    (toks : List LTok) : sel e = some toks ↔ TemplateIs S plugins d p nm ds toks := by
  obtain ⟨t1, t2⟩ := top_template hsel h hu.distinct
  have key : ∀ q, InForce d p nm ds q → ∃ n, Holds ts q n ∧ n.name = nm ∧ sel e = asTemplate n := by
    rintro q ⟨h1, h2, h3⟩
    obtain ⟨n, k1, k2⟩ := (shown_look hr hu).2 h2
    exact ⟨n, k1, k2, t1 q n h1 k1 k2 fun q' n' g1 g2 g3 => h3 q' g1 ((shown_look hr hu).1 ⟨n', g2, g3⟩)⟩
  constructor
  · intro hs
    have hex : ∃ q n, q <+: ds ∧ Holds ts q n ∧ n.name = nm := by
      apply Classical.byContradiction
      intro hno
      rw [t2 fun q n g1 g2 g3 => hno ⟨q, n, g1, g2, g3⟩, henv] at hs
      cases hs
    obtain ⟨q, n, g1, g2, g3⟩ := hex
    obtain ⟨q, k1, k2, k3⟩ := exists_longest (P := fun q => look d (p ++ q ++ [nm]) ≠ none) _ rfl g1
      ((shown_look hr hu).1 ⟨n, g2, g3⟩)
    obtain ⟨n, j1, rfl, j3⟩ := key q ⟨k1, k2, k3⟩
    rw [hs] at j3
    cases n with
    | dir => cases j3
    | file x b c m src =>
      cases c with
      | html toks' =>
        cases j3
        obtain ⟨i1, _, _, c0, i2, i3⟩ := (shown_file hr hu).1 j1
        cases i3
        exact ⟨q, b, ⟨k1, k2, k3⟩, i1, i2⟩
      | _ => cases j3
  · rintro ⟨q, b, h1, h2, h3⟩
    obtain ⟨n, j1, rfl, j3⟩ := key q h1
    have : Holds ts q (.file n.name b (.html toks) none _) :=
      (shown_file hr hu).2 ⟨h2, rfl, rfl, _, h3, .same nofun⟩
    rw [j3, holds_one hu.distinct j1 this rfl]
    rfl

/-- What is made of a file, in terms of the templates in force. -/
theorem made_iff {cx : Ctx} {cfg : Config} {e : Env} (hb : base.name = str!"base") {ds : List Str} {nm : Str} {b : Bytes}
    {c : Parsed} {src : Str} (hc : c ≠ .ignored) (hmd : ∀ md, c = .markdown md → ∃ stem, nm = stem ++ str!".md")
    (hroot : ∀ toks, e.root = some toks ↔ TemplateIs S plugins d p str!"root.html" ds toks)
    (hmdt : ∀ toks, e.md = some toks ↔ TemplateIs S plugins d p str!"md.html" ds toks) {nm' : Str} {b' : Bytes} :
    Made S plugins d p cx base ds nm b c nm' b' ↔
      ∃ m, processFile ⟨cx, base, cfg⟩ e nm b c src = .ok (.file nm' b' .none m src) := by
  have templ : ∀ {x : Str} {o : Option (List LTok)}, (∀ toks, o = some toks ↔ TemplateIs S plugins d p x ds toks) →
      ∀ o', Templates S plugins d p x ds o' ↔ o' = o := by
    intro x o h o'
    cases o' with
    | none =>
      cases o with
      | none => exact ⟨fun _ => rfl, fun _ toks k => by cases (h toks).2 k⟩
      | some t => exact ⟨fun k => absurd ((h t).1 rfl) (k t), nofun⟩
    | some t => exact (h t).symm.trans eq_comm
  by_cases ht : nm = str!"root.html" ∨ nm = str!"md.html"
  · have hp : processFile ⟨cx, base, cfg⟩ e nm b c src =
        .ok (.file nm b .none (if cfg.saveMetadata then c.toJson else none) src) := by
      rcases ht with rfl | rfl <;> rfl
    rw [hp]
    constructor
    · intro h
      cases h with
      | template _ => exact ⟨_, rfl⟩
      | page h1 h2 => rcases ht with rfl | rfl <;> contradiction
      | custom h1 h2 => rcases ht with rfl | rfl <;> contradiction
      | markdown h1 =>
        have : str!".md" <:+ nm := ⟨_, h1.symm⟩
        rcases ht with rfl | rfl <;> exact absurd this (by decide)
      | data => exact ⟨_, rfl⟩
      | other => exact ⟨_, rfl⟩
    · rintro ⟨m, h⟩; cases h; exact .template ht
  · have ht1 : nm ≠ str!"root.html" := fun k => ht (.inl k)
    have ht2 : nm ≠ str!"md.html" := fun k => ht (.inr k)
    have hif : (nm != str!"root.html" && nm != str!"md.html") = true := by simp [ht1, ht2]
    unfold processFile processParsed
    rw [if_pos hif]
    cases c with
    | ignored => exact absurd rfl hc
    | none =>
      constructor
      · intro h
        cases h with
        | template h => exact absurd h ht
        | other => exact ⟨_, rfl⟩
      · rintro ⟨m, h⟩; cases h; exact .other
    | json v =>
      constructor
      · intro h
        cases h with
        | template h => exact absurd h ht
        | data => exact ⟨_, rfl⟩
      · rintro ⟨m, h⟩; cases h; exact .data
    | custom k =>
      simp only
      constructor
      · intro h
        cases h with
        | template h => exact absurd h ht
        | custom _ _ h1 h2 h3 =>
          rw [(templ hroot _).1 h1, (templ hmdt _).1 h2] at h3
          rw [h3]; exact ⟨_, rfl⟩
      · rintro ⟨m, h⟩
        cases hk : k.process e.root e.md with
        | ok out =>
          rw [hk] at h
          cases h
          exact .custom ht1 ht2 ((templ hroot _).2 rfl) ((templ hmdt _).2 rfl) hk
        | err x => rw [hk] at h; cases h
        | panic x => rw [hk] at h; cases h
    | html toks =>
      simp only
      constructor
      · intro h
        cases h with
        | template h => exact absurd h ht
        | @page _ root f g gs secs secs' _ _ h1 h2 h3 =>
          rw [processHtml, (hroot _).2 h1]
          simp only
          rw [(renderOn_ok_iff hb).2 ⟨f, secs, g, gs, secs', h2, h3, rfl⟩]
          exact ⟨_, rfl⟩
      · rintro ⟨m, h⟩
        rw [processHtml] at h
        cases he : e.root with
        | none => rw [he] at h; cases h
        | some root =>
          rw [he] at h
          simp only at h
          cases hr : renderOn cx base base src toks root with
          | err x => rw [hr] at h; cases h
          | panic x => rw [hr] at h; cases h
          | ok o =>
            rw [hr] at h
            cases h
            obtain ⟨f, secs, g, gs, secs', h2, h3, rfl⟩ := (renderOn_ok_iff hb).1 hr
            exact .page ht1 ht2 ((hroot _).1 he) h2 h3
    | markdown md =>
      simp only
      constructor
      · intro h
        cases h with
        | template h => exact absurd h ht
        | @markdown _ v stem toks root f g gs secs secs' h0 h1 h2 h3 h4 h5 =>
          subst h0
          rw [processMd, (hroot _).2 h1, (hmdt _).2 h2]
          simp only
          rw [h3, Res.bind_ok, Frame.addVar,
            (renderOn_ok_iff (first := { base with vars := base.vars ++ [(str!"self", v)] }) (by exact hb)).2
              ⟨f, secs, g, gs, secs', h4, h5, rfl⟩, Res.bind_ok, stripSuffix_append]
          exact ⟨_, rfl⟩
      · rintro ⟨m, h⟩
        obtain ⟨stem, rfl⟩ := hmd md rfl
        rw [processMd] at h
        cases he : e.root with
        | none => rw [he] at h; cases h
        | some root =>
          rw [he] at h
          simp only at h
          cases hm : e.md with
          | none => rw [hm] at h; cases h
          | some toks =>
            rw [hm] at h
            simp only at h
            cases hv : (md.toValue : Res PErr Value) with
            | err x => rw [hv] at h; cases h
            | panic x => rw [hv] at h; cases h
            | ok v =>
              rw [hv, Res.bind_ok] at h
              cases hr : renderOn cx (base.addVar str!"self" v) base src toks root with
              | err x => rw [hr] at h; cases h
              | panic x => rw [hr] at h; cases h
              | ok o =>
                rw [hr, Res.bind_ok, stripSuffix_append] at h
                cases h
                obtain ⟨f, secs, g, gs, secs', h2, h3, rfl⟩ := (renderOn_ok_iff (by exact hb)).1 hr
                exact .markdown rfl ((hroot _).1 he) ((hmdt _).1 hm) hv h2 h3

end

/-! ### The built tree -/

theorem readAs_not_ignored {S : Sys} {plugins : List Plugin} {nm src : Str} {b : Bytes} {c : Parsed}
    (h : ReadAs S plugins nm src b c) : c ≠ .ignored ∧ ∀ md, c = .markdown md → ∃ stem, stem ≠ [] ∧ nm = stem ++ str!".md" := by
  cases h with
  | markdown h =>
    obtain ⟨stem, h1, h2, _⟩ := h
    exact ⟨nofun, fun _ _ => ⟨stem, h1, h2⟩⟩
  | _ => exact ⟨nofun, nofun⟩

theorem converted_kind {ext : Ext} {cx : Ctx} {base : Frame} {c c' : Parsed} (h : Converted ext cx base c c') :
    (c' = .ignored → c = .ignored) ∧ ∀ md, c' = .markdown md → ∃ md', c = .markdown md' := by
  cases h with
  | markdown => exact ⟨nofun, fun _ _ => ⟨_, rfl⟩⟩
  | same h => exact ⟨id, fun md k => ⟨md, k⟩⟩

theorem asRead {S : Sys} {plugins : List Plugin} {d : Entry} {p : Path} (hd : ProperDisk d) {root : Node}
    (h : readTree S true plugins d p = .ok root) : ∃ name cs, root = .dir name cs (pathStr p) ∧ AsRead S plugins d p name cs := by
  obtain ⟨name, cs, rfl, h1, h2, h3, h4⟩ := C62_mirror S plugins d p true hd root h
  obtain ⟨_, _, h5, h6⟩ := (C63_succeeds S plugins d p hd).1 ⟨_, h⟩
  exact ⟨name, cs, rfl, h1, h2, h3, fun ds nm b c m src => by simpa using h4 ds nm b c m src, h5, h6⟩

/-- What the built tree has, in terms of the disk. -/
theorem built_tree {S : Sys} {d : Entry} {mode : Str} {pr : Project} (hd : ProperDisk d) {out : Node}
    (h : readBuild S d mode pr = .ok out) :
    ∃ name cs ts os, out = .dir name os (pathStr pr.dir) ∧
      (readTree S true pr.plugins d pr.dir = .ok (.dir name cs (pathStr pr.dir)) ∧
        preNodes S.ext ⟨.dir name cs (pathStr pr.dir), S.dateFmt⟩ (baseFrame S.vars mode) cs = .ok ts) ∧
      AsRead S pr.plugins d pr.dir name cs ∧ AsUsed S (baseFrame S.vars mode) (.dir name cs (pathStr pr.dir)) cs ts ∧
      (∀ ds nm, Shows os ds nm .dir ↔ look d (pr.dir ++ ds ++ [nm]) = some .dir) ∧
      (∀ ds nm b c m src, Holds os ds (.file nm b c m src) → c = .none) ∧
      ∀ ds nm' b', (∃ m src, Holds os ds (.file nm' b' .none m src)) ↔ ∃ nm b c c',
        look d (pr.dir ++ ds ++ [nm]) = some (.file b) ∧
        ReadAs S pr.plugins nm (pathStr (pr.dir ++ ds ++ [nm])) b c ∧
        Converted S.ext ⟨.dir name cs (pathStr pr.dir), S.dateFmt⟩ (baseFrame S.vars mode) c c' ∧
        Made S pr.plugins d pr.dir ⟨.dir name ts (pathStr pr.dir), S.dateFmt⟩ (baseFrame S.vars mode) ds nm b c' nm' b' := by
  unfold readBuild at h
  obtain ⟨input, h1, h2⟩ := Res.bind_eq_ok.1 h
  obtain ⟨name, cs, rfl, hr⟩ := asRead hd h1
  unfold buildTree at h2
  obtain ⟨mid, h3, h4⟩ := Res.bind_eq_ok.1 h2
  obtain ⟨ts, h5, rfl⟩ := preNode_dir_ok.1 h3
  obtain ⟨os, h6, rfl⟩ := buildNode_dir_ok.1 h4
  simp only [Node.children, Option.getD_some, updateEnv_twice] at h6
  have hu := asUsed (base := baseFrame S.vars mode) rfl hr.distinct h5
  refine ⟨name, cs, ts, os, rfl, ⟨h1, h5⟩, hr, hu, ?_, ?_, ?_⟩
  · intro ds nm
    rw [← hr.dirs, ← hu.dirs]
    constructor
    · rintro ⟨o, k1, k2, k3⟩
      obtain ⟨e, l, n, g1, g2, g3⟩ := comes_from k1 h6
      cases n with
      | file => obtain ⟨_, _, _, rfl⟩ := buildNode_file_ok g3; cases k3
      | dir x l' src' =>
        obtain ⟨_, _, rfl⟩ := buildNode_dir_ok.1 g3
        exact ⟨_, under_holds g1 g2, k2, rfl⟩
    · rintro ⟨n, k1, k2, k3⟩
      obtain ⟨e, l, g1, g2⟩ := holds_under k1 (updateEnv ⟨none, none⟩ ts)
      obtain ⟨o, g3, g4⟩ := comes_to g1 g2 h6
      cases n with
      | file => cases k3
      | dir x l' src' =>
        obtain ⟨_, _, rfl⟩ := buildNode_dir_ok.1 g3
        exact ⟨_, g4, k2, rfl⟩
  · intro ds nm b c m src k1
    obtain ⟨e, l, n, g1, g2, g3⟩ := comes_from k1 h6
    cases n with
    | file => obtain ⟨_, _, _, k⟩ := buildNode_file_ok g3; cases k; rfl
    | dir => obtain ⟨_, _, k⟩ := buildNode_dir_ok.1 g3; cases k
  · intro ds nm' b'
    have made := fun {e l} (hun : Under (updateEnv ⟨none, none⟩ ts) ts ds e l) {nm b c c0 src}
        (hc : ReadAs S pr.plugins nm (pathStr (pr.dir ++ ds ++ [nm])) b c0)
        (hcv : Converted S.ext ⟨.dir name cs (pathStr pr.dir), S.dateFmt⟩ (baseFrame S.vars mode) c0 c) =>
      made_iff (S := S) (plugins := pr.plugins) (d := d) (p := pr.dir) (base := baseFrame S.vars mode)
        (cx := ⟨.dir name ts (pathStr pr.dir), S.dateFmt⟩) (cfg := pr.config) (e := e) rfl (ds := ds) (nm := nm) (b := b)
        (c := c) (src := src) (fun k => (readAs_not_ignored hc).1 ((converted_kind hcv).1 k))
        (fun md k => by
          obtain ⟨md', k'⟩ := (converted_kind hcv).2 md k
          obtain ⟨stem, _, k⟩ := (readAs_not_ignored hc).2 md' k'
          exact ⟨stem, k⟩)
        (template_iff hr hu (sel := Env.root) updateEnv_root hun rfl)
        (template_iff hr hu (sel := Env.md) updateEnv_md hun rfl) (nm' := nm') (b' := b')
    constructor
    · rintro ⟨m, src, k1⟩
      obtain ⟨e, l, n, g1, g2, g3⟩ := comes_from k1 h6
      cases n with
      | dir => obtain ⟨_, _, k⟩ := buildNode_dir_ok.1 g3; cases k
      | file nm b c m' src' =>
        obtain ⟨i1, i2, i3, c0, i4, i5⟩ := (shown_file hr hu).1 (under_holds g1 g2)
        obtain ⟨_, _, _, k⟩ := buildNode_file_ok g3
        cases k
        rw [buildNode] at g3
        exact ⟨nm, b, c0, c, i1, i4, i5, (made g1 i4 i5).2 ⟨_, g3⟩⟩
    · rintro ⟨nm, b, c, c', k1, k2, k3, k4⟩
      have hh := (shown_file hr hu).2 ⟨k1, rfl, rfl, c, k2, k3⟩
      obtain ⟨e, l, g1, g2⟩ := holds_under hh (updateEnv ⟨none, none⟩ ts)
      obtain ⟨o, g3, g4⟩ := comes_to g1 g2 h6
      obtain ⟨m, g5⟩ := (made g1 k2 k3).1 k4
      rw [buildNode, g5] at g3
      cases g3
      exact ⟨_, _, g4⟩

end Stuart
