import Verif.Spec.Succeeds
import Verif.Proof.Content
import Verif.Props.Whole
import Verif.Proof.FileTypes
/-
When reading, merging and exporting succeed.
-/
namespace Stuart
open Spec

/-! ### Reading -/

theorem readTree_succeeds (S : Sys) (parse : Bool) (plugins : List Plugin) (disk : Entry) (p : Path) (hd : ProperDisk disk) :
    (∃ root, readTree S parse plugins disk p = .ok root) ↔
      p ≠ [] ∧ look disk p = some .dir ∧ (∀ q, look disk (p ++ q) ≠ some .special) ∧
      ∀ ds nm b, look disk (p ++ ds ++ [nm]) = some (.file b) →
        ∃ c, readsAs S parse plugins nm (pathStr (p ++ ds ++ [nm])) b c := by
  constructor
  · rintro ⟨root, h⟩
    have h' := h
    unfold readTree at h'
    split at h'
    · rename_i l hl
      obtain ⟨cs, h1, h2⟩ := Res.bind_eq_ok.1 h'
      obtain ⟨name, h3, h4⟩ := Res.bind_eq_ok.1 h2
      have hd' : ProperDisk (.dir l) := by
        intro q l' hq
        refine hd (p ++ q) l' ?_
        rw [at_append, hl]; exact hq
      have hat : ∀ q, disk.at (p ++ q) = (Entry.dir l).at q := by
        intro q; rw [at_append, hl]; rfl
      refine ⟨?_, look_of_at hl, ?_, ?_⟩
      · rintro rfl; cases h3
      · intro q hs
        rcases List.eq_nil_or_concat q with rfl | ⟨ds, nm, rfl⟩
        · rw [List.append_nil, look_of_at hl] at hs; cases hs
        · rw [List.concat_eq_append, look, hat] at hs
          cases he : (Entry.dir l).at (ds ++ [nm]) with
          | none => rw [he] at hs; cases hs
          | some e =>
            rw [he] at hs
            cases e with
            | special =>
              obtain ⟨n, hn⟩ := readEntries_at hd' h1 he
              rw [readEntry] at hn; cases hn
            | file b => cases hs
            | dir l' => cases hs
      · intro ds nm b hb
        rw [look, List.append_assoc, hat] at hb
        cases he : (Entry.dir l).at (ds ++ [nm]) with
        | none => rw [he] at hb; cases hb
        | some e =>
          rw [he] at hb
          cases e with
          | special => cases hb
          | file b' =>
            cases hb
            obtain ⟨n, hn⟩ := readEntries_at hd' h1 he
            rw [readEntry, readFile_iff] at hn
            obtain ⟨c, k1, _⟩ := hn
            exact ⟨c, k1⟩
          | dir l' => cases hb
    · cases h'
  · rintro ⟨hp, hl, hs, hf⟩
    cases he : disk.at p with
    | none => rw [look, he] at hl; cases hl
    | some e =>
      rw [look_of_at he] at hl
      cases e with
      | special => cases hl
      | file b => cases hl
      | dir l =>
        have hd' : ProperDisk (.dir l) := by
          intro q l' hq
          refine hd (p ++ q) l' ?_
          rw [at_append, he]; exact hq
        have hat : ∀ q, disk.at (p ++ q) = (Entry.dir l).at q := by
          intro q; rw [at_append, he]; rfl
        obtain ⟨name, hname⟩ : ∃ name, p.getLast? = some name := by
          cases hx : p.getLast? with
          | none => exact absurd (List.getLast?_eq_none_iff.1 hx) hp
          | some n => exact ⟨n, rfl⟩
        obtain ⟨n, hn⟩ := readEntry_total S parse plugins p name (.dir l) hd'
          (fun q => by have := hs q; rw [look, hat] at this; exact this)
          (fun q b hb => by
            rcases List.eq_nil_or_concat q with rfl | ⟨ds, nm, rfl⟩
            · cases hb
            · rw [List.concat_eq_append] at hb ⊢
              obtain ⟨c, hc⟩ := hf ds nm b (by rw [look, List.append_assoc, hat, hb]; rfl)
              have hlast : ∀ h, (name :: (ds ++ [nm])).getLast h = nm := fun h =>
                List.getLast_eq_iff_getLast?_eq_some h |>.2 (by rw [List.getLast?_cons, List.getLast?_concat]; rfl)
              rw [hlast, ← List.append_assoc]
              exact ⟨_, readFile_iff.2 ⟨c, hc, rfl⟩⟩)
        rw [readEntry] at hn
        obtain ⟨cs, h1, _⟩ := Res.bind_eq_ok.1 hn
        refine ⟨.dir name cs (pathStr p), ?_⟩
        unfold readTree
        rw [he]
        simp only [h1, Res.bind_ok, hname, Res.unwrap]

/-! ### Merging -/

/-- Two trees, given by what they show, have in common directories only. -/
def OnlyDirs (P Q : List Str → Str → Thing → Prop) : Prop :=
  ∀ ds nm t t', P ds nm t → Q ds nm t' → t = .dir ∧ t' = .dir

theorem no_conflict {cs os : List Node} : (∀ ds x y, ¬ Conflict cs os ds x y) ↔ OnlyDirs (Shows cs) (Shows os) := by
  have hdir : ∀ n : Node, thing n = .dir ↔ n.isDir = true := by
    intro n; cases n <;> simp [thing, Node.isDir]
  constructor
  · rintro h ds nm _ _ ⟨x, h1, rfl, rfl⟩ ⟨y, k1, k2, rfl⟩
    apply Classical.byContradiction
    intro hno
    rw [hdir, hdir] at hno
    exact h ds x y ⟨h1, k1, k2.symm, hno⟩
  · rintro h ds x y ⟨h1, h2, h3, h4⟩
    have := h ds x.name _ _ ⟨x, h1, rfl, rfl⟩ ⟨y, h2, h3.symm, rfl⟩
    rw [hdir, hdir] at this
    exact h4 this

variable {M : Machine}

theorem mergeDirs_succeeds {disk : Entry} (hd : ProperDisk disk) {dir : Path} {ns : List Str} {p : Project}
    {name src : Str} {cs : List Node} (ho : p.output = some (.dir name cs src)) (hdis : Distinct cs) :
    ((mergeDirs M disk dir ns p).2 = .ok () ↔ (∀ n ∈ ns, Copyable disk (dir ++ [n])) ∧
      (∀ n ∈ ns, OnlyDirs (Shows cs) (InDir disk (dir ++ [n]))) ∧
      ns.Pairwise fun n m => OnlyDirs (InDir disk (dir ++ [n])) (InDir disk (dir ++ [m]))) ∧
    ((mergeDirs M disk dir ns p).2 = .ok () → ∃ ms, (mergeDirs M disk dir ns p).1.output = some (.dir name ms src) ∧ Distinct ms) := by
  induction ns generalizing p cs with
  | nil => exact ⟨by simp [mergeDirs], fun _ => ⟨cs, ho, hdis⟩⟩
  | cons n ns ih =>
    cases hx : look disk (dir ++ [n]) with
    | none =>
      have hat : disk.existsAt (dir ++ [n]) = false := by
        rw [Entry.existsAt, at_none_iff.2 hx]; rfl
      rw [mergeDirs, hat, if_neg (by simp)]
      have hno : ∀ ds nm t, ¬ InDir disk (dir ++ [n]) ds nm t := by
        intro ds nm t
        have : look disk (dir ++ [n] ++ ds ++ [nm]) = none := by
          rw [look, List.append_assoc (dir ++ [n]), at_append, at_none_iff.2 hx]; rfl
        cases t with
        | dir => intro k; rw [InDir, this] at k; cases k
        | file b c m src => intro k; rw [InDir, this] at k; cases k.1
      obtain ⟨i1, i2⟩ := ih ho hdis
      refine ⟨i1.trans ?_, i2⟩
      rw [List.forall_mem_cons, List.forall_mem_cons, List.pairwise_cons]
      constructor
      · rintro ⟨a, b, c⟩
        exact ⟨⟨.inl hx, a⟩, ⟨fun ds nm t t' _ k => absurd k (hno _ _ _), b⟩, fun m _ ds nm t t' k => absurd k (hno _ _ _), c⟩
      · rintro ⟨⟨_, a⟩, ⟨_, b⟩, _, c⟩; exact ⟨a, b, c⟩
    | some k =>
      have hat : disk.existsAt (dir ++ [n]) = true := by
        rw [Entry.existsAt]
        cases he : disk.at (dir ++ [n]) with
        | none => rw [at_none_iff.1 he] at hx; cases hx
        | some e => rfl
      have hcopy : Copyable disk (dir ++ [n]) ↔ ∃ root, readTree M.sys false [] disk (dir ++ [n]) = .ok root := by
        rw [readTree_succeeds _ _ _ _ _ hd, Copyable, hx]
        constructor
        · rintro (h | ⟨h1, h2⟩)
          · cases h
          · exact ⟨by simp, h1, h2, fun _ _ _ _ => ⟨.ignored, rfl⟩⟩
        · rintro ⟨_, h1, h2, _⟩; exact .inr ⟨h1, h2⟩
      cases hr : readTree M.sys false [] disk (dir ++ [n]) with
      | err e =>
        refine ⟨⟨fun h => ?_, fun h => ?_⟩, fun h => ?_⟩
        · rw [mergeDirs, hat, if_pos rfl, hr] at h; cases h
        · obtain ⟨root, k⟩ := hcopy.1 (h.1 n (.head _)); rw [hr] at k; cases k
        · rw [mergeDirs, hat, if_pos rfl, hr] at h; cases h
      | panic e =>
        refine ⟨⟨fun h => ?_, fun h => ?_⟩, fun h => ?_⟩
        · rw [mergeDirs, hat, if_pos rfl, hr] at h; cases h
        · obtain ⟨root, k⟩ := hcopy.1 (h.1 n (.head _)); rw [hr] at k; cases k
        · rw [mergeDirs, hat, if_pos rfl, hr] at h; cases h
      | ok node =>
        obtain ⟨sn, os, rfl, _, hos, hdir, hfile⟩ := C62_mirror M.sys [] disk (dir ++ [n]) false hd node hr
        have hshow : ∀ ds nm t, Shows os ds nm t ↔ InDir disk (dir ++ [n]) ds nm t := by
          intro ds nm t
          cases t with
          | dir => exact hdir ds nm
          | file b c m src =>
            rw [hfile, InDir]
            constructor
            · rintro ⟨a, b, c, d⟩
              rcases d with d | d
              · cases d.1
              · exact ⟨a, d.2, b, c⟩
            · rintro ⟨a, d, b, c⟩; exact ⟨a, b, c, .inr ⟨rfl, d⟩⟩
        have hconf : OnlyDirs (Shows cs) (InDir disk (dir ++ [n])) ↔ ∀ ds x y, ¬ Conflict cs os ds x y := by
          rw [no_conflict]
          unfold OnlyDirs
          simp only [hshow]
        obtain ⟨m1, m2⟩ := C38_succeeds name src sn (pathStr (dir ++ [n])) cs os hdis hos
        have hcons : mergeDirs M disk dir (n :: ns) p =
            match p.mergeOutput (.dir sn os (pathStr (dir ++ [n]))) with
            | (s', .ok ()) => mergeDirs M disk dir ns s'
            | (s', .err e) => (s', .err (.core e))
            | (s', .panic p) => (s', .panic p) := by
          rw [mergeDirs, hat, if_pos rfl, hr]
          rfl
        have hmo : p.mergeOutput (.dir sn os (pathStr (dir ++ [n]))) =
            ({ p with output := some (mergeNode (.dir name cs src) (.dir sn os (pathStr (dir ++ [n])))).1 },
              (mergeNode (.dir name cs src) (.dir sn os (pathStr (dir ++ [n])))).2) := by
          rw [Project.mergeOutput, ho]
        rw [hcons, hmo]
        cases hres : (mergeNode (.dir name cs src) (.dir sn os (pathStr (dir ++ [n])))).2 with
        | err e =>
          have hnot : ¬ OnlyDirs (Shows cs) (InDir disk (dir ++ [n])) := by
            intro k; rw [m1.2 (hconf.1 k)] at hres; cases hres
          exact ⟨⟨nofun, fun h => absurd (h.2.1 n (.head _)) hnot⟩, nofun⟩
        | panic e =>
          have hnot : ¬ OnlyDirs (Shows cs) (InDir disk (dir ++ [n])) := by
            intro k; rw [m1.2 (hconf.1 k)] at hres; cases hres
          exact ⟨⟨nofun, fun h => absurd (h.2.1 n (.head _)) hnot⟩, nofun⟩
        | ok u =>
          have hyes := hconf.2 (m1.1 hres)
          have hm : mergeNode (.dir name cs src) (.dir sn os (pathStr (dir ++ [n]))) =
              (.dir name (mergeAll cs os).1 src, .ok ()) := by
            rw [← hres, mergeNode]
          obtain ⟨ms, hms, hun⟩ := C38_union name src sn (pathStr (dir ++ [n])) cs os hres
          rw [hm] at hms
          cases hms
          obtain ⟨i1, i2⟩ := ih (p := { p with output := some (.dir name (mergeAll cs os).1 src) }) rfl (m2 _ hm)
          rw [hm]
          refine ⟨i1.trans ?_, i2⟩
          rw [List.forall_mem_cons, List.forall_mem_cons, List.pairwise_cons]
          constructor
          · rintro ⟨a, b, c⟩
            exact ⟨⟨hcopy.2 ⟨_, hr⟩, a⟩, ⟨hyes, fun m hm ds nm t t' k => b m hm ds nm t t' ((hun _ _ _).2 (.inl k))⟩,
              fun m hm ds nm t t' k => b m hm ds nm t t' ((hun _ _ _).2 (.inr ((hshow _ _ _).2 k))), c⟩
          · rintro ⟨⟨_, a⟩, ⟨_, b⟩, b', c⟩
            refine ⟨a, fun m hm ds nm t t' k => ?_, c⟩
            rcases (hun _ _ _).1 k with k | k
            · exact b m hm ds nm t t' k
            · exact b' m hm ds nm t t' ((hshow _ _ _).1 k)

/-! ### Exporting metadata -/

/-- All metadata in these nodes are objects. -/
def AllObjects (cs : List Node) : Prop := ∀ ds nm b p x s, Holds cs ds (.file nm b p (some x) s) → ∃ l, x = .obj l

mutual
theorem metaNode_succeeds : ∀ n : Node, (∃ v, metaNode n = .ok v) ↔ AllObjects [n]
  | .file nm b p m s => by
    cases m with
    | none =>
      rw [metaNode]
      refine ⟨fun _ ds nm' b' p' x s' h => ?_, fun _ => ⟨_, rfl⟩⟩
      cases h with
      | here h => cases List.mem_singleton.1 h
      | down h => cases List.mem_singleton.1 h
    | some x =>
      rw [metaNode]
      constructor
      · rintro ⟨v, h⟩ ds nm' b' p' x' s' hh
        obtain ⟨l, h1, _⟩ := Res.bind_eq_ok.1 h
        cases hh with
        | here hh =>
          cases List.mem_singleton.1 hh
          cases x with
          | obj l => exact ⟨l, rfl⟩
          | _ => cases h1
        | down hh => cases List.mem_singleton.1 hh
      · intro h
        obtain ⟨l, rfl⟩ := h [] nm b p x s (.here (.head _))
        exact ⟨_, rfl⟩
  | .dir nm cs s => by
    rw [metaNode]
    have ih := metaNodes_succeeds cs
    have : AllObjects [.dir nm cs s] ↔ AllObjects cs := by
      constructor
      · intro h ds nm' b p x s' hh; exact h (nm :: ds) nm' b p x s' (.down (.head _) hh)
      · intro h ds nm' b p x s' hh
        cases hh with
        | here hh => cases List.mem_singleton.1 hh
        | down hh hh' => cases List.mem_singleton.1 hh; exact h _ _ _ _ _ _ hh'
    rw [this, ← ih]
    constructor
    · rintro ⟨v, h⟩
      obtain ⟨vs, h1, _⟩ := Res.bind_eq_ok.1 h
      exact ⟨vs, h1⟩
    · rintro ⟨vs, h⟩; exact ⟨_, by rw [h]; rfl⟩
theorem metaNodes_succeeds : ∀ cs : List Node, (∃ vs, metaNodes cs = .ok vs) ↔ AllObjects cs
  | [] => by
    rw [metaNodes]
    exact ⟨fun _ ds nm b p x s h => absurd h Holds_nil, fun _ => ⟨_, rfl⟩⟩
  | c :: cs => by
    rw [metaNodes]
    have i1 := metaNode_succeeds c
    have i2 := metaNodes_succeeds cs
    have : AllObjects (c :: cs) ↔ AllObjects [c] ∧ AllObjects cs := by
      have key : ∀ ds n, Holds (c :: cs) ds n ↔ Holds [c] ds n ∨ Holds cs ds n := by
        intro ds n
        constructor
        · intro h
          cases h with
          | here h =>
            rcases List.mem_cons.1 h with rfl | h
            · exact .inl (.here (.head _))
            · exact .inr (.here h)
          | down h h' =>
            rcases List.mem_cons.1 h with rfl | h
            · exact .inl (.down (.head _) h')
            · exact .inr (.down h h')
        · rintro (h | h)
          · cases h with
            | here h => cases List.mem_singleton.1 h; exact .here (.head _)
            | down h h' => cases List.mem_singleton.1 h; exact .down (.head _) h'
          · cases h with
            | here h => exact .here (.tail _ h)
            | down h h' => exact .down (.tail _ h) h'
      constructor
      · intro h
        exact ⟨fun ds nm b p x s k => h ds nm b p x s ((key _ _).2 (.inl k)), fun ds nm b p x s k => h ds nm b p x s ((key _ _).2 (.inr k))⟩
      · rintro ⟨h1, h2⟩ ds nm b p x s k
        rcases (key _ _).1 k with k | k
        · exact h1 _ _ _ _ _ _ k
        · exact h2 _ _ _ _ _ _ k
    rw [this, ← i1, ← i2]
    constructor
    · rintro ⟨v, h⟩
      obtain ⟨v, h1, h2⟩ := Res.bind_eq_ok.1 h
      obtain ⟨vs, h3, _⟩ := Res.bind_eq_ok.1 h2
      exact ⟨⟨v, h1⟩, vs, h3⟩
    · rintro ⟨⟨v, h1⟩, vs, h2⟩
      exact ⟨_, by rw [h1, Res.bind_ok, h2]; rfl⟩
end

theorem metaRoot_succeeds {name src : Str} {cs : List Node} : (∃ v, metaRoot (.dir name cs src) = .ok v) ↔ AllObjects cs := by
  rw [← metaNodes_succeeds, metaRoot]
  constructor
  · rintro ⟨v, h⟩
    obtain ⟨vs, h1, _⟩ := Res.bind_eq_ok.1 h
    exact ⟨vs, h1⟩
  · rintro ⟨vs, h⟩; exact ⟨_, by rw [h]; rfl⟩

/-! ### The built tree -/

theorem Under.snoc {env e : Env} {cs l l' : List Node} {ds : List Str} {d src : Str} (h : Under env cs ds e l)
    (hm : .dir d l' src ∈ l) : Under env cs (ds ++ [d]) (updateEnv e l') l' := by
  induction h with
  | here => exact .down hm .here
  | down h _ ih => exact .down h (ih hm)

theorem buildNodes_nodup {b : Builder} {env : Env} : ∀ {cs os : List Node}, buildNodes b env cs = .ok os → cs.Nodup →
    (∀ x ∈ cs, ∀ y ∈ cs, ∀ o o', buildNode b env x = .ok o → buildNode b env y = .ok o' → o.name = o'.name → x = y) →
    (os.map Node.name).Nodup
  | [], os, h, _, _ => by rw [buildNodes] at h; cases h; simp
  | c :: cs, os, h, hn, hi => by
    rw [buildNodes] at h
    obtain ⟨o, h1, h2⟩ := Res.bind_eq_ok.1 h
    obtain ⟨os', h3, h4⟩ := Res.bind_eq_ok.1 h2
    cases h4
    rw [List.nodup_cons] at hn
    rw [List.map_cons, List.nodup_cons]
    refine ⟨fun hm => ?_, buildNodes_nodup h3 hn.2 fun x hx y hy => hi x (.tail _ hx) y (.tail _ hy)⟩
    obtain ⟨o', k1, k2⟩ := List.mem_map.1 hm
    obtain ⟨y, k3, k4⟩ := (buildNodes_mem h3).1 o' k1
    exact hn.1 (hi c (.head _) y (.tail _ k3) o o' h1 k4 k2.symm ▸ k3)

theorem distinct_list {cs : List Node} (h : (cs.map Node.name).Nodup) : cs.Nodup := by
  induction cs with
  | nil => simp
  | cons c cs ih =>
    rw [List.map_cons, List.nodup_cons] at h
    exact List.nodup_cons.2 ⟨fun k => h.1 (List.mem_map.2 ⟨c, k, rfl⟩), ih h.2⟩

theorem under_nodup {env e : Env} {cs l : List Node} {ds : List Str} (h : Under env cs ds e l) (hd : Distinct cs) :
    (l.map Node.name).Nodup := by
  induction h with
  | here => exact hd.1
  | down h _ ih => exact ih (Distinct_child hd h)

theorem built_distinct {b : Builder} {env : Env} {ts os : List Node} (hd : Distinct ts) (h : buildNodes b env ts = .ok os)
    (hi : ∀ ds e l, Under env ts ds e l → ∀ x ∈ l, ∀ y ∈ l, ∀ o o', buildNode b e x = .ok o → buildNode b e y = .ok o' →
      o.name = o'.name → x = y) : Distinct os := by
  refine ⟨buildNodes_nodup h (distinct_list hd.1) (hi [] env ts .here), fun ds d os' src hh => ?_⟩
  obtain ⟨e, l, n, h1, h2, h3⟩ := comes_from hh h
  cases n with
  | file => obtain ⟨_, _, _, k⟩ := buildNode_file_ok h3; cases k
  | dir x l' src' =>
    obtain ⟨os'', k1, k2⟩ := buildNode_dir_ok.1 h3
    cases k2
    have hu := h1.snoc h2
    exact buildNodes_nodup k1 (distinct_list (under_nodup hu hd)) (hi _ _ _ hu)

/-- What the built tree has, with its metadata. -/
theorem built_more {S : Sys} {d : Entry} {mode : Str} {pr : Project} (hd : ProperDisk d) {dir : Path} {name : Str} {cs ts os : List Node}
    (hc : Content S pr.plugins d pr.dir (baseFrame S.vars mode) name cs ts) {nm0 src0 : Str}
    (h : readBuild S d mode pr = .ok (.dir nm0 os src0)) :
    nm0 = name ∧
    (NamesApart S pr.plugins d dir pr.dir (baseFrame S.vars mode) (.dir name cs (pathStr pr.dir)) (.dir name ts (pathStr pr.dir)) →
      Distinct os) ∧
    (AllObjects os ↔ (pr.config.saveMetadata = true → ∀ ds nm b k, look d (pr.dir ++ ds ++ [nm]) = some (.file b) →
      ReadAs S pr.plugins nm (pathStr (pr.dir ++ ds ++ [nm])) b (.custom k) → ∃ l, k.toJson = .obj l)) := by
  obtain ⟨h1, h5⟩ := (content_iff rfl).1 hc
  obtain ⟨name', cs', k, hr⟩ := asRead hd h1
  cases k
  have hu := asUsed (base := baseFrame S.vars mode) rfl hr.distinct h5
  unfold readBuild at h
  rw [h1] at h
  simp only [Res.bind_ok] at h
  unfold buildTree at h
  obtain ⟨mid, h3, h4⟩ := Res.bind_eq_ok.1 h
  obtain ⟨ts', h5', rfl⟩ := preNode_dir_ok.1 h3
  cases h5'.symm.trans h5
  obtain ⟨os', h6, k⟩ := buildNode_dir_ok.1 h4
  cases k
  simp only [Node.children, Option.getD_some, updateEnv_twice] at h6
  refine ⟨rfl, fun ha => ?_, ?_, ?_⟩
  · refine built_distinct hu.distinct h6 fun ds e l hun x hx y hy o o' ho ho' hn => ?_
    have into : ∀ {nm b c m src o}, .file nm b c m src ∈ l → buildNode ⟨⟨.dir name ts (pathStr pr.dir), S.dateFmt⟩, baseFrame S.vars mode, pr.config⟩ e (.file nm b c m src) = .ok o →
        ∃ b', MadeInto S pr.plugins d pr.dir (baseFrame S.vars mode) (.dir name cs (pathStr pr.dir)) (.dir name ts (pathStr pr.dir)) ds nm o.name b' := by
      intro nm b c m src o hm ho
      obtain ⟨nm', b', m', rfl⟩ := buildNode_file_ok ho
      obtain ⟨i1, _, _, c0, i4, i5⟩ := (shown_file hr hu).1 (under_holds hun hm)
      rw [buildNode] at ho
      exact ⟨b', b, c0, c, i1, i4, i5, (used_made rfl hr hu hun hm).2 ⟨m', ho⟩⟩
    have one : ∀ {x y : Node}, x ∈ l → y ∈ l → x.name = y.name → x = y := fun hx hy hn =>
      holds_one hu.distinct (under_holds hun hx) (under_holds hun hy) hn
    have isDir : ∀ {x l' src}, .dir x l' src ∈ l → look d (pr.dir ++ ds ++ [x]) = some .dir := fun hm =>
      (hr.dirs _ _).1 ((hu.dirs _ _).1 ⟨_, under_holds hun hm, rfl, rfl⟩)
    cases x with
    | dir xn xl xs =>
      obtain ⟨_, _, rfl⟩ := buildNode_dir_ok.1 ho
      cases y with
      | dir yn yl ys => obtain ⟨_, _, rfl⟩ := buildNode_dir_ok.1 ho'; exact one hx hy hn
      | file =>
        obtain ⟨b', k⟩ := into hy ho'
        rw [← show xn = o'.name from hn] at k
        exact absurd (isDir hx) (ha.dirs _ _ _ _ k)
    | file =>
      obtain ⟨b', k⟩ := into hx ho
      cases y with
      | dir yn yl ys =>
        obtain ⟨_, _, rfl⟩ := buildNode_dir_ok.1 ho'
        rw [← show yn = o.name from hn.symm] at k
        exact absurd (isDir hy) (ha.dirs _ _ _ _ k)
      | file =>
        obtain ⟨b'', k'⟩ := into hy ho'
        rw [← hn] at k'
        exact one hx hy (ha.files _ _ _ _ _ _ k k')
  · intro hall hs ds nm b k hl hk
    have hh := (shown_file hr hu).2 ⟨hl, rfl, rfl, _, hk, .same nofun⟩
    obtain ⟨e, l, g1, g2⟩ := holds_under hh (updateEnv ⟨none, none⟩ ts)
    obtain ⟨o, g3, g4⟩ := comes_to g1 g2 h6
    rw [buildNode, processFile_ok] at g3
    obtain ⟨out, _, rfl⟩ := g3
    simp only [hs, if_true, Parsed.toJson] at g4
    exact hall _ _ _ _ _ _ g4
  · intro hall ds nm b p x s hh
    obtain ⟨e, l, n, g1, g2, g3⟩ := comes_from hh h6
    cases n with
    | dir => obtain ⟨_, _, k⟩ := buildNode_dir_ok.1 g3; cases k
    | file nm b c m src =>
      obtain ⟨i1, _, _, c0, i4, i5⟩ := (shown_file hr hu).1 (under_holds g1 g2)
      rw [buildNode, processFile_ok] at g3
      obtain ⟨out, _, k⟩ := g3
      injection k with _ _ _ k
      split at k
      · rename_i hs
        cases c with
        | html => cases k
        | none => cases k
        | ignored => cases k
        | markdown => cases k; exact ⟨_, rfl⟩
        | json => cases k; exact ⟨_, rfl⟩
        | custom q =>
          cases k
          cases i5 with
          | same => exact hall hs _ _ _ _ i1 i4
      · cases k

/-! ### Publishing -/

theorem publish_succeeds {c : Context} {s : Host} : (c.publish M s).2.2 = .ok () ↔
    (mergeDirs M s.world.disk c.dir [str!"static", str!"temp"] c.stuart).2 = .ok () ∧
    ((mergeDirs M s.world.disk c.dir [str!"static", str!"temp"] c.stuart).1.save c.outPath
      (s.world.step (.clear (c.dir ++ [str!"temp"]))).1).2 = .ok () ∧
    (exportMeta M { c with stuart := (mergeDirs M s.world.disk c.dir [str!"static", str!"temp"] c.stuart).1 }
      ((mergeDirs M s.world.disk c.dir [str!"static", str!"temp"] c.stuart).1.save c.outPath
        (s.world.step (.clear (c.dir ++ [str!"temp"]))).1).1).2 = .ok () := by
  unfold Context.publish Context.outPath
  simp only
  generalize mergeDirs M s.world.disk c.dir [str!"static", str!"temp"] c.stuart = m
  obtain ⟨p, r⟩ := m
  cases r with
  | err e => simp
  | panic e => simp
  | ok u =>
    simp only [true_and]
    generalize p.save (joinPath c.dir c.output) (s.world.step (.clear (c.dir ++ [str!"temp"]))).1 = sv
    obtain ⟨w, r⟩ := sv
    cases r with
    | err e => simp
    | panic e => simp
    | ok u => simp

/-- Exporting the metadata, if nothing mishaps. -/
theorem exportMeta_succeeds {c : Context} {p : Project} {w : World} {name src : Str} {ms : List Node}
    (ho : p.output = some (.dir name ms src)) (hcalm : w.Calm) :
    (exportMeta M { c with stuart := p } w).2 = .ok () ↔ (p.config.saveMetadata = true → AllObjects ms ∧
      (look w.disk (c.dir ++ [str!"metadata.json"]) = none ∧ look w.disk c.dir = some .dir ∨
        ∃ b, look w.disk (c.dir ++ [str!"metadata.json"]) = some (.file b))) := by
  unfold exportMeta
  simp only
  split
  · rename_i hs
    unfold Project.saveMetadata
    simp only [hs, ho, Bool.not_true, Bool.false_eq_true, if_false, true_implies]
    unfold saveMetaNode
    cases hr : metaRoot (.dir name ms src) with
    | err e => exact absurd hr metaRoot_no_err
    | panic e =>
      constructor
      · nofun
      · rintro ⟨h, _⟩
        obtain ⟨v, k⟩ := metaRoot_succeeds (name := name) (src := src).2 h
        rw [hr] at k; cases k
    | ok v =>
      have hobj := metaRoot_succeeds.1 ⟨v, hr⟩
      simp only [hobj, true_and]
      have hrun : ∀ {b}, ((runOps [.write (c.dir ++ [str!"metadata.json"]) b] w).2.mapErr CliErr.core) = .ok () ↔
          ∃ d, (Op.write (c.dir ++ [str!"metadata.json"]) b).apply w.disk = some d := by
        intro b
        constructor
        · intro h
          have h' : (runOps [.write (c.dir ++ [str!"metadata.json"]) b] w).2 = .ok () := by
            revert h
            generalize (runOps [.write (c.dir ++ [str!"metadata.json"]) b] w).2 = r
            cases r <;> simp [Res.mapErr]
          exact ⟨_, World.step_ok (runOps_cons_ok h').1⟩
        · rintro ⟨d, h⟩
          obtain ⟨k, _⟩ := World.calm_step hcalm h
          rw [runOps, if_pos k]; rfl
      rw [hrun]
      simp only [Op.apply]
      cases hx : w.disk.at (c.dir ++ [str!"metadata.json"]) with
      | none =>
        rw [at_none_iff.1 hx]
        simp only [List.dropLast_concat, true_and, reduceCtorEq, exists_false, or_false]
        rw [← isDirAt_iff]
        by_cases h : w.disk.isDirAt c.dir = true <;> simp [h]
      | some e =>
        rw [look_of_at hx]
        cases e <;> simp [kind]
  · rename_i hs
    simp [hs]

theorem onlyDirs_supplied {S : Sys} {plugins : List Plugin} {d : Entry} {dir p : Path} {base : Frame} {input tree : Node}
    {x y : Option Str} {P Q : List Str → Str → Thing → Prop}
    (hP : ∀ ds nm k, Supplied S plugins d dir p base input tree x ds nm k ↔ ∃ t, P ds nm t ∧ (k = true ↔ t = .dir))
    (hQ : ∀ ds nm k, Supplied S plugins d dir p base input tree y ds nm k ↔ ∃ t, Q ds nm t ∧ (k = true ↔ t = .dir)) :
    Compatible S plugins d dir p base input tree x y ↔ OnlyDirs P Q := by
  have bool : ∀ t : Thing, ∃ k : Bool, k = true ↔ t = .dir := by
    intro t
    cases t with
    | dir => exact ⟨true, by simp⟩
    | file => exact ⟨false, by simp⟩
  constructor
  · intro h ds nm t t' ht ht'
    obtain ⟨k, hk⟩ := bool t
    obtain ⟨k', hk'⟩ := bool t'
    obtain ⟨e1, e2⟩ := h ds nm k k' ((hP _ _ _).2 ⟨t, ht, hk⟩) ((hQ _ _ _).2 ⟨t', ht', hk'⟩)
    exact ⟨hk.1 e1, hk'.1 e2⟩
  · intro h ds nm k k' hk hk'
    obtain ⟨t, ht, e⟩ := (hP _ _ _).1 hk
    obtain ⟨t', ht', e'⟩ := (hQ _ _ _).1 hk'
    obtain ⟨a, b⟩ := h ds nm t t' ht ht'
    exact ⟨e.2 a, e'.2 b⟩

theorem supplied_copy {S : Sys} {plugins : List Plugin} {d : Entry} {dir p : Path} {base : Frame} {input tree : Node}
    {which : Str} (ds : List Str) (nm : Str) (k : Bool) : Supplied S plugins d dir p base input tree (some which) ds nm k ↔
      ∃ t, InDir d (dir ++ [which]) ds nm t ∧ (k = true ↔ t = .dir) := by
  constructor
  · intro h
    cases h with
    | copy h => exact ⟨.file _ _ _ _, ⟨h, rfl, rfl, rfl⟩, by simp⟩
    | copyDir h => exact ⟨.dir, h, by simp⟩
  · rintro ⟨t, h, e⟩
    cases t with
    | dir => rw [e.2 rfl]; exact .copyDir h
    | file b c m src =>
      have : k = false := by cases k <;> simp at e ⊢
      rw [this]; exact .copy h.1

theorem supplied_content {S : Sys} {plugins : List Plugin} {d : Entry} {dir p : Path} {base : Frame} {input tree : Node}
    {os : List Node}
    (hdirs : ∀ ds nm, Shows os ds nm .dir ↔ look d (p ++ ds ++ [nm]) = some .dir)
    (hnone : ∀ ds nm b c m src, Holds os ds (.file nm b c m src) → c = .none)
    (hfiles : ∀ ds nm' b', (∃ m src, Holds os ds (.file nm' b' .none m src)) ↔ ∃ nm b c c',
        look d (p ++ ds ++ [nm]) = some (.file b) ∧ ReadAs S plugins nm (pathStr (p ++ ds ++ [nm])) b c ∧
        Converted S.ext ⟨input, S.dateFmt⟩ base c c' ∧ Made S plugins d p ⟨tree, S.dateFmt⟩ base ds nm b c' nm' b')
    (ds : List Str) (nm : Str) (k : Bool) : Supplied S plugins d dir p base input tree none ds nm k ↔
      ∃ t, Shows os ds nm t ∧ (k = true ↔ t = .dir) := by
  constructor
  · intro h
    cases h with
    | page h =>
      obtain ⟨m, src, h⟩ := (hfiles _ _ _).2 ⟨_, h⟩
      exact ⟨.file _ _ _ _, Shows_file.2 h, by simp⟩
    | dir h => exact ⟨.dir, (hdirs _ _).2 h, by simp⟩
  · rintro ⟨t, h, e⟩
    cases t with
    | dir => rw [e.2 rfl]; exact .dir ((hdirs _ _).1 h)
    | file b c m src =>
      have hk : k = false := by cases k <;> simp at e ⊢
      rw [Shows_file] at h
      cases hnone _ _ _ _ _ _ h
      obtain ⟨nm', h⟩ := (hfiles _ _ _).1 ⟨_, _, h⟩
      rw [hk]; exact .page h

end Stuart
