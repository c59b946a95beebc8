import Verif.Spec.Terms
import Verif.Proof.Steps
import Verif.Props.Output
/-
What publishing puts where, and what it depends on.
-/
namespace Stuart
open Spec

variable {M : Machine} {c : Context} {s : Host}

/-! ### Places apart from each other -/

theorem at_put_apart {d : Entry} {p q : Path} {v : Option Entry} (h : Apart p q) : (d.put p v).at q = d.at q := by
  induction p generalizing d q with
  | nil => exact absurd (List.nil_prefix) h.1
  | cons n p ih =>
    cases q with
    | nil => exact absurd (List.nil_prefix) h.2
    | cons k q =>
      cases d with
      | dir l =>
        by_cases hk : k = n
        · subst hk
          cases p with
          | nil => exact absurd (List.prefix_iff_eq_append.2 rfl) h.1
          | cons m p =>
            simp only [Entry.put]
            cases hf : findEntry k l with
            | none => rfl
            | some e =>
              simp only [Entry.at, findEntry_set_same, hf]
              exact ih ⟨fun hp => h.1 (by simpa using hp), fun hp => h.2 (by simpa using hp)⟩
        · cases p with
          | nil => simp only [Entry.put, Entry.at, findEntry_set_other hk]
          | cons m p =>
            simp only [Entry.put]
            cases hf : findEntry n l with
            | none => rfl
            | some e => simp only [Entry.at, findEntry_set_other hk]
      | file b => cases p <;> rfl
      | special => cases p <;> rfl

theorem apply_put {d d' : Entry} {o : Op} (h : o.apply d = some d') : d' = d ∨ ∃ v, d' = d.put o.target v := by
  cases o with
  | clear p =>
    simp only [Op.apply] at h
    split at h
    · split at h
      · cases h
      · cases h; exact .inr ⟨_, rfl⟩
    · cases h; exact .inl rfl
  | mkdir p =>
    simp only [Op.apply] at h
    split at h
    · cases h
    · split at h
      · cases h; exact .inr ⟨_, rfl⟩
      · cases h
  | mkdirTolerant p =>
    simp only [Op.apply] at h
    split at h
    · cases h; exact .inl rfl
    · split at h
      · cases h; exact .inr ⟨_, rfl⟩
      · cases h
  | write p b =>
    simp only [Op.apply] at h
    split at h
    · cases h; exact .inr ⟨_, rfl⟩
    · cases h
    · split at h
      · cases h; exact .inr ⟨_, rfl⟩
      · cases h
  | removeFile p =>
    simp only [Op.apply] at h
    split at h
    · cases h
    · cases h; exact .inr ⟨_, rfl⟩
    · cases h

theorem World.step_apart (w : World) (o : Op) {q : Path} (hq : Apart o.target q) : (w.step o).1.disk.at q = w.disk.at q := by
  unfold World.step
  split
  · exact at_put_apart hq
  · split
    · rename_i h
      rcases apply_put h with h | ⟨v, h⟩
      · rw [h]
      · rw [h]; exact at_put_apart hq
    · rfl

theorem runOps_apart {os : List Op} {w : World} {q : Path} (h : ∀ o ∈ os, Apart o.target q) :
    (runOps os w).1.disk.at q = w.disk.at q := by
  induction os generalizing w with
  | nil => rfl
  | cons o os ih =>
    rw [runOps]
    split
    · rw [ih fun o ho => h o (.tail _ ho)]
      exact w.step_apart o (h o (.head _))
    · exact w.step_apart o (h o (.head _))

theorem Apart.below {p q : Path} (h : Apart p q) {r : Path} (hr : p <+: r) : Apart r q := by
  refine ⟨fun k => h.1 (hr.trans k), fun k => ?_⟩
  rcases List.prefix_or_prefix_of_prefix hr k with k | k
  · exact h.1 k
  · exact h.2 k

theorem saveNode_apart {cfg : Config} {path : Path} {nm src : Str} {cs : List Node} {w : World} {q : Path}
    (hn : PlainNames cfg cs) (h : Apart path q) : (saveNode cfg path (.dir nm cs src) w).1.disk.at q = w.disk.at q := by
  rw [saveNode]
  refine runOps_apart fun o ho => ?_
  simp only [List.mem_cons] at ho
  rcases ho with rfl | rfl | ho
  · exact h
  · exact h
  · exact h.below (saveAll_target hn ho).1

/-! ### Merging the static and temporary files -/

theorem mergeDirs_cons {disk : Entry} {dir : Path} {n : Str} {ns : List Str} {p : Project}
    (h : (mergeDirs M disk dir (n :: ns) p).2 = .ok ()) :
    (disk.at (dir ++ [n]) = none ∧ mergeDirs M disk dir (n :: ns) p = mergeDirs M disk dir ns p) ∨
    ∃ node p', readTree M.sys false [] disk (dir ++ [n]) = .ok node ∧ p.mergeOutput node = (p', .ok ()) ∧
      mergeDirs M disk dir (n :: ns) p = mergeDirs M disk dir ns p' := by
  rw [mergeDirs] at h ⊢
  split at h
  · rename_i he
    right
    rw [if_pos he]
    split at h
    · cases h
    · cases h
    · rename_i node hn
      split at h
      · rename_i p' hp
        exact ⟨node, p', hn, hp, rfl⟩
      · cases h
      · cases h
  · rename_i he
    left
    rw [if_neg he]
    refine ⟨?_, rfl⟩
    unfold Entry.existsAt at he
    simpa using he

theorem mergeDirs_shows {disk : Entry} (hd : ProperDisk disk) {dir : Path} {ns : List Str} {p : Project}
    {name src : Str} {cs : List Node} (ho : p.output = some (.dir name cs src))
    (h : (mergeDirs M disk dir ns p).2 = .ok ()) :
    ∃ ms, (mergeDirs M disk dir ns p).1.output = some (.dir name ms src) ∧
      ∀ ds nm t, Shows ms ds nm t ↔ Shows cs ds nm t ∨ ∃ n ∈ ns, InDir disk (dir ++ [n]) ds nm t := by
  induction ns generalizing p cs with
  | nil => exact ⟨cs, ho, by simp⟩
  | cons n ns ih =>
    rcases mergeDirs_cons h with ⟨h1, h2⟩ | ⟨node, p', h1, h2, h3⟩
    · rw [h2] at h ⊢
      obtain ⟨ms, k1, k2⟩ := ih ho h
      refine ⟨ms, k1, fun ds nm t => (k2 ds nm t).trans (or_congr_right ?_)⟩
      have hno : ¬ InDir disk (dir ++ [n]) ds nm t := by
        have : look disk (dir ++ [n] ++ ds ++ [nm]) = none := by
          rw [look, List.append_assoc (dir ++ [n]), at_append, h1]; rfl
        cases t with
        | dir => intro k; rw [InDir, this] at k; cases k
        | file b c m src => intro k; rw [InDir, this] at k; cases k.1
      simp [hno]
    · obtain ⟨sn, os, rfl, _, _, hdir, hfile⟩ := C62_mirror M.sys [] disk (dir ++ [n]) false hd node h1
      unfold Project.mergeOutput at h2
      rw [ho] at h2
      simp only [Prod.mk.injEq] at h2
      obtain ⟨ms, k1, k2⟩ := C38_union name src sn (pathStr (dir ++ [n])) cs os h2.2
      rw [k1] at h2
      rw [h3] at h ⊢
      obtain ⟨ms', l1, l2⟩ := ih (p := p') (cs := ms) (by rw [← h2.1]) h
      refine ⟨ms', l1, fun ds nm t => (l2 ds nm t).trans ?_⟩
      rw [k2]
      have : Shows os ds nm t ↔ InDir disk (dir ++ [n]) ds nm t := by
        cases t with
        | dir => exact hdir ds nm
        | file b cc m src =>
          rw [hfile]
          simp only [InDir, Bool.false_eq_true, false_and, false_or, true_and]
          constructor
          · rintro ⟨a1, a2, a3, a4⟩; exact ⟨a1, a4, a2, a3⟩
          · rintro ⟨a1, a2, a3, a4⟩; exact ⟨a1, a3, a4, a2⟩
      rw [this]
      simp [or_assoc]

theorem mergeDirs_congr {disk disk' : Entry} {dir : Path} {ns : List Str} {p p' : Project}
    (hd : ∀ n ∈ ns, disk.at (dir ++ [n]) = disk'.at (dir ++ [n])) (ho : p.output = p'.output) :
    (mergeDirs M disk dir ns p).1.output = (mergeDirs M disk' dir ns p').1.output ∧
    (mergeDirs M disk dir ns p).2 = (mergeDirs M disk' dir ns p').2 := by
  induction ns generalizing p p' with
  | nil => exact ⟨ho, rfl⟩
  | cons n ns ih =>
    have h1 := hd n (.head _)
    have h2 : readTree M.sys false [] disk (dir ++ [n]) = readTree M.sys false [] disk' (dir ++ [n]) := by
      unfold readTree; rw [h1]
    have h3 : disk.existsAt (dir ++ [n]) = disk'.existsAt (dir ++ [n]) := by unfold Entry.existsAt; rw [h1]
    rw [mergeDirs, mergeDirs, h2, h3]
    split
    · split
      · exact ⟨ho, rfl⟩
      · exact ⟨ho, rfl⟩
      · rename_i node _
        have hm : (p.mergeOutput node).1.output = (p'.mergeOutput node).1.output ∧
            (p.mergeOutput node).2 = (p'.mergeOutput node).2 := by
          unfold Project.mergeOutput
          rw [ho]
          split
          · rename_i h; rw [ho, h]; exact ⟨rfl, rfl⟩
          · exact ⟨rfl, rfl⟩
        generalize p.mergeOutput node = x at hm
        generalize p'.mergeOutput node = y at hm
        obtain ⟨a, b⟩ := x
        obtain ⟨a', b'⟩ := y
        obtain ⟨k1, k2⟩ := hm
        simp only at k1 k2
        subst k2
        cases b with
        | ok u => exact ih (fun n hn => hd n (.tail _ hn)) k1
        | err e => exact ⟨k1, rfl⟩
        | panic e => exact ⟨k1, rfl⟩
    · exact ih (fun n hn => hd n (.tail _ hn)) ho

theorem plain_of_look {disk : Entry} (hd : ProperDisk disk) {p : Path} {nm : Str} (h : look disk (p ++ [nm]) ≠ none) :
    PlainName nm := by
  have hdir := look_above (by simp) h
  cases ha : disk.at p with
  | none => rw [at_none_iff.1 ha] at hdir; cases hdir
  | some e =>
    rw [look_of_at ha] at hdir
    cases e with
    | file _ => cases hdir
    | special => cases hdir
    | dir l =>
      rw [look, at_append, ha] at h
      simp only [Option.bind_some, Entry.at] at h
      cases hf : findEntry nm l with
      | none => rw [hf] at h; exact absurd rfl h
      | some e => exact (hd _ _ ha).2 _ ((findEntry_mem (hd _ _ ha).1).1 hf)

/-- No file of this name in the static and temporary directories. -/
theorem noDots_of_lacks {cfg : Config} {disk : Entry} {dir : Path}
    (h : ∀ n ∈ [str!"static", str!"temp"], ∀ e, disk.at (dir ++ [n]) = some e → Lacks str!"...html" e) :
    NoDots cfg disk dir := by
  intro _ n hn ds
  rw [List.append_assoc (dir ++ [n]), look, at_append]
  cases he : disk.at (dir ++ [n]) with
  | none => rfl
  | some e => exact h n hn e he ds

theorem merged_plain {disk : Entry} (hd : ProperDisk disk) {cfg : Config} {dir : Path} {cs ms : List Node}
    (hs : ∀ ds nm t, Shows ms ds nm t ↔ Shows cs ds nm t ∨ ∃ n ∈ [str!"static", str!"temp"], InDir disk (dir ++ [n]) ds nm t)
    (hn : PlainNames cfg cs) (hdots : NoDots cfg disk dir) : PlainNames cfg ms := by
  intro ds n h
  rcases (hs ds n.name (thing n)).1 ⟨n, h, rfl, rfl⟩ with ⟨n', h', h1, _⟩ | ⟨m, hm, hi⟩
  · rw [← h1]; exact hn _ _ h'
  · have hl : look disk (dir ++ [m] ++ ds ++ [n.name]) ≠ none := by
      cases n with
      | dir => simp only [thing, InDir] at hi; rw [hi]; nofun
      | file => simp only [thing, InDir] at hi; rw [hi.1]; nofun
    refine ⟨plain_of_look hd hl, fun hst heq => hl ?_⟩
    rw [heq]; exact hdots hst m hm ds

/-! ### Publishing -/

theorem exportMeta_ok {p : Project} {w w' : World} {out : Node} (ho : p.output = some out)
    (h : exportMeta M { c with stuart := p } w = (w', .ok ())) :
    (p.config.saveMetadata = false ∧ w' = w) ∨
    ∃ v, p.config.saveMetadata = true ∧ metaRoot out = .ok v ∧
      runOps [.write c.metaPath (bytesOf (M.sys.serialize ((Value.obj [(str!"name", .str p.config.name),
        (str!"author", (p.config.author.map Value.str).getD .null)]).setKey str!"data" v)))] w = (w', .ok ()) := by
  unfold exportMeta at h
  simp only at h
  split at h
  · rename_i hm
    right
    unfold Project.saveMetadata at h
    simp only [hm, ho, Bool.not_true, Bool.false_eq_true, if_false] at h
    unfold saveMetaNode at h
    cases hr : metaRoot out with
    | err e => exact absurd hr metaRoot_no_err
    | panic e => rw [hr] at h; cases h
    | ok v =>
      rw [hr] at h
      simp only at h
      refine ⟨v, hm, rfl, ?_⟩
      unfold Context.metaPath
      generalize runOps _ _ = r at h ⊢
      obtain ⟨a, b⟩ := r
      simp only [Prod.mk.injEq] at h ⊢
      refine ⟨h.1, ?_⟩
      cases b with
      | ok u => rfl
      | err e => cases h.2
      | panic e => cases h.2
  · rename_i hm
    simp only [Prod.mk.injEq] at h
    exact .inl ⟨by simpa using hm, h.1.symm⟩

/-- After the export, everything but the metadata is as before. -/
theorem exportMeta_look {p : Project} {w w' : World} {out : Node} (ho : p.output = some out)
    (h : exportMeta M { c with stuart := p } w = (w', .ok ())) (q : Path) :
    look w'.disk q = if p.config.saveMetadata = true ∧ q = c.metaPath then look w'.disk c.metaPath else look w.disk q := by
  rcases exportMeta_ok ho h with ⟨h1, h2⟩ | ⟨v, h1, _, h3⟩
  · rw [if_neg (by rw [h1]; simp), h2]
  · obtain ⟨k1, k2⟩ := runOps_cons_ok (by rw [h3])
    rw [k2] at h3
    cases h3
    have := (adds_step (show (Op.write c.metaPath _).Adds from by simp [Op.Adds, Context.metaPath]) (World.step_ok k1) q).1
    split
    · rename_i hq; rw [hq.2]
    · rename_i hq
      rw [this, Op.seen, if_neg (fun k => hq ⟨h1, k⟩)]

/-- The steps of publishing. -/
theorem Context.publish_ok {s2 : Host} (hd : HasDir c.stuart) (h : (c.publish M s).2 = (s2, .ok ())) :
    ∃ p nm ms src w, mergeDirs M s.world.disk c.dir [str!"static", str!"temp"] c.stuart = (p, .ok ()) ∧
      p.output = some (.dir nm ms src) ∧ p.config = c.stuart.config ∧
      saveNode c.stuart.config c.outPath (.dir nm ms src) (s.world.step (.clear (c.dir ++ [str!"temp"]))).1 = (w, .ok ()) ∧
      exportMeta M { c with stuart := p } w = (s2.world, .ok ()) := by
  have hd' := mergeDirs_hasDir (M := M) (disk := s.world.disk) (dir := c.dir) (ns := [str!"static", str!"temp"]) hd
  have hc := mergeDirs_config (M := M) (disk := s.world.disk) (dir := c.dir) (ns := [str!"static", str!"temp"]) (s := c.stuart)
  unfold Context.publish at h
  simp only at h
  generalize mergeDirs M s.world.disk c.dir [str!"static", str!"temp"] c.stuart = m at hd' hc h
  obtain ⟨p, r⟩ := m
  obtain ⟨nm, ms, src, ho⟩ := hd'
  simp only at hc ho h
  cases r with
  | err e => cases h
  | panic e => cases h
  | ok u =>
    simp only [Project.save, ho] at h
    rw [hc] at h
    refine ⟨p, nm, ms, src, (saveNode c.stuart.config c.outPath (.dir nm ms src)
      (s.world.step (.clear (c.dir ++ [str!"temp"]))).1).1, rfl, ho, hc, ?_, ?_⟩
    · unfold Context.outPath
      generalize saveNode c.stuart.config (joinPath c.dir c.output) (.dir nm ms src) _ = sv at h
      obtain ⟨w, r⟩ := sv
      cases r with
      | err e => cases h
      | panic e => cases h
      | ok u => rfl
    · unfold Context.outPath
      generalize saveNode c.stuart.config (joinPath c.dir c.output) (.dir nm ms src) _ = sv at h
      obtain ⟨w, r⟩ := sv
      cases r with
      | err e => cases h
      | panic e => cases h
      | ok u =>
        simp only at h ⊢
        generalize exportMeta M _ w = x at h ⊢
        obtain ⟨a, b⟩ := x
        simp only [Prod.mk.injEq] at h ⊢
        obtain ⟨h1, h2⟩ := h
        subst h1 h2
        exact ⟨rfl, rfl⟩

end Stuart
