import Verif.Proof.Save
import Verif.Spec.Merge
/-
Merging trees.
-/
namespace Stuart
open Spec

theorem splitAtName_none {n : Str} {cs : List Node} : splitAtName n cs = none ↔ ∀ c ∈ cs, c.name ≠ n := by
  induction cs with
  | nil => simp [splitAtName]
  | cons c cs ih =>
    rw [splitAtName]
    split
    · simp_all
    · rename_i h
      simp [ih, h]

theorem splitAtName_some {n : Str} {cs before after : List Node} {c : Node} (h : splitAtName n cs = some (before, c, after)) :
    cs = before ++ c :: after ∧ c.name = n := by
  induction cs generalizing before with
  | nil => cases h
  | cons x cs ih =>
    rw [splitAtName] at h
    split at h
    · cases h; exact ⟨rfl, by assumption⟩
    · rw [Option.map_eq_some_iff] at h
      obtain ⟨⟨b', c', a'⟩, h1, h2⟩ := h
      cases h2
      obtain ⟨rfl, h3⟩ := ih h1
      exact ⟨rfl, h3⟩

theorem Holds_append {a b : List Node} {ds : List Str} {n : Node} : Holds (a ++ b) ds n ↔ Holds a ds n ∨ Holds b ds n := by
  induction a with
  | nil => simp [Holds_nil]
  | cons c a ih => rw [List.cons_append, Holds_cons, ih, Holds_cons (c := c) (cs := a), or_assoc]

theorem Shows_append {a b : List Node} {ds : List Str} {nm : Str} {t : Thing} :
    Shows (a ++ b) ds nm t ↔ Shows a ds nm t ∨ Shows b ds nm t := by
  simp only [Shows, Holds_append]
  constructor
  · rintro ⟨n, h | h, h'⟩
    · exact .inl ⟨n, h, h'⟩
    · exact .inr ⟨n, h, h'⟩
  · rintro (⟨n, h, h'⟩ | ⟨n, h, h'⟩)
    · exact ⟨n, .inl h, h'⟩
    · exact ⟨n, .inr h, h'⟩

theorem Shows_cons {c : Node} {b : List Node} {ds : List Str} {nm : Str} {t : Thing} :
    Shows (c :: b) ds nm t ↔ Shows [c] ds nm t ∨ Shows b ds nm t := Shows_append (a := [c])

theorem Shows_dir {d src : Str} {cs : List Node} {ds : List Str} {nm : Str} {t : Thing} :
    Shows [.dir d cs src] ds nm t ↔ (ds = [] ∧ nm = d ∧ t = .dir) ∨ ∃ ds', ds = d :: ds' ∧ Shows cs ds' nm t := by
  simp only [Shows, Holds_dir]
  constructor
  · rintro ⟨n, ⟨rfl, rfl⟩ | ⟨ds', rfl, h⟩, rfl, rfl⟩
    · exact .inl ⟨rfl, rfl, rfl⟩
    · exact .inr ⟨ds', rfl, n, h, rfl, rfl⟩
  · rintro (⟨rfl, rfl, rfl⟩ | ⟨ds', rfl, n, h, rfl, rfl⟩)
    · exact ⟨_, .inl ⟨rfl, rfl⟩, rfl, rfl⟩
    · exact ⟨n, .inr ⟨ds', rfl, h⟩, rfl, rfl⟩

mutual
/-- A successful merge of two nodes. -/
theorem mergeNode_union (c o : Node) (hn : c.name = o.name) (h : (mergeNode c o).2 = .ok ())
    (ds : List Str) (nm : Str) (t : Thing) :
    Shows [(mergeNode c o).1] ds nm t ↔ Shows [c] ds nm t ∨ Shows [o] ds nm t := by
  cases o with
  | file => rw [mergeNode] at h; cases h
  | dir d os s =>
    cases c with
    | file => rw [mergeNode] at h; cases h
    | dir d' cs s' =>
      rw [mergeNode] at h ⊢
      simp only at h ⊢
      simp only [Node.name] at hn
      subst hn
      rw [Shows_dir, Shows_dir, Shows_dir]
      constructor
      · rintro (h' | ⟨ds', rfl, h'⟩)
        · exact .inl (.inl h')
        · rcases (mergeAll_union cs os h ds' nm t).1 h' with h' | h'
          · exact .inl (.inr ⟨ds', rfl, h'⟩)
          · exact .inr (.inr ⟨ds', rfl, h'⟩)
      · rintro ((h' | ⟨ds', rfl, h'⟩) | (h' | ⟨ds', rfl, h'⟩))
        · exact .inl h'
        · exact .inr ⟨ds', rfl, (mergeAll_union cs os h ds' nm t).2 (.inl h')⟩
        · exact .inl h'
        · exact .inr ⟨ds', rfl, (mergeAll_union cs os h ds' nm t).2 (.inr h')⟩
/-- A successful merge of the children of two directories. -/
theorem mergeAll_union (cs os : List Node) (h : (mergeAll cs os).2 = .ok ()) (ds : List Str) (nm : Str) (t : Thing) :
    Shows (mergeAll cs os).1 ds nm t ↔ Shows cs ds nm t ∨ Shows os ds nm t := by
  cases os with
  | nil => rw [mergeAll]; simp [Shows, Holds_nil]
  | cons o os =>
    rw [mergeAll] at h ⊢
    split at h
    · rw [mergeAll_union _ os h, Shows_append, Shows_cons (c := o) (b := os), or_assoc]
    · rename_i before c after hs
      obtain ⟨rfl, hn⟩ := splitAtName_some hs
      split at h
      · rename_i hd
        rw [if_pos hd]
        split at h
        · rename_i hok
          have hok' : (mergeNode c o).2 = .ok () := hok
          rw [mergeAll_union _ os h, Shows_append, Shows_cons (b := after), mergeNode_union c o hn hok',
            Shows_append, Shows_cons (c := c) (b := after), Shows_cons (c := o) (b := os)]
          constructor
          · rintro ((h | (h | h) | h) | h)
            · exact .inl (.inl h)
            · exact .inl (.inr (.inl h))
            · exact .inr (.inl h)
            · exact .inl (.inr (.inr h))
            · exact .inr (.inr h)
          · rintro ((h | h | h) | (h | h))
            · exact .inl (.inl h)
            · exact .inl (.inr (.inl (.inl h)))
            · exact .inl (.inr (.inr h))
            · exact .inl (.inr (.inl (.inr h)))
            · exact .inr h
        · rename_i hno
          exact absurd h hno
      · cases h
end

mutual
/-- However a merge of two nodes ends, nothing is lost and nothing comes from elsewhere. -/
theorem mergeNode_keeps (c o : Node) (hn : c.name = o.name) (ds : List Str) (nm : Str) (t : Thing) :
    (Shows [c] ds nm t → Shows [(mergeNode c o).1] ds nm t) ∧
    (Shows [(mergeNode c o).1] ds nm t → Shows [c] ds nm t ∨ Shows [o] ds nm t) := by
  cases o with
  | file => rw [mergeNode]; exact ⟨id, .inl⟩
  | dir d os s =>
    cases c with
    | file => rw [mergeNode]; exact ⟨id, .inl⟩
    | dir d' cs s' =>
      rw [mergeNode]
      simp only [Node.name] at hn
      subst hn
      simp only
      rw [Shows_dir, Shows_dir, Shows_dir]
      constructor
      · rintro (h' | ⟨ds', rfl, h'⟩)
        · exact .inl h'
        · exact .inr ⟨ds', rfl, (mergeAll_keeps cs os ds' nm t).1 h'⟩
      · rintro (h' | ⟨ds', rfl, h'⟩)
        · exact .inl (.inl h')
        · exact ((mergeAll_keeps cs os ds' nm t).2 h').imp (fun h => .inr ⟨ds', rfl, h⟩) (fun h => .inr ⟨ds', rfl, h⟩)
/-- The same of the children of two directories. -/
theorem mergeAll_keeps (cs os : List Node) (ds : List Str) (nm : Str) (t : Thing) :
    (Shows cs ds nm t → Shows (mergeAll cs os).1 ds nm t) ∧
    (Shows (mergeAll cs os).1 ds nm t → Shows cs ds nm t ∨ Shows os ds nm t) := by
  cases os with
  | nil => rw [mergeAll]; exact ⟨id, .inl⟩
  | cons o os =>
    rw [mergeAll]
    split
    · obtain ⟨h1, h2⟩ := mergeAll_keeps (cs ++ [o]) os ds nm t
      rw [Shows_append] at h1 h2
      rw [Shows_cons (c := o) (b := os)]
      refine ⟨fun h => h1 (.inl h), fun h => ?_⟩
      rcases h2 h with (h | h) | h
      · exact .inl h
      · exact .inr (.inl h)
      · exact .inr (.inr h)
    · rename_i before c after hs
      obtain ⟨rfl, hn⟩ := splitAtName_some hs
      obtain ⟨k1, k2⟩ := mergeNode_keeps c o hn ds nm t
      have h1 : Shows (before ++ c :: after) ds nm t → Shows (before ++ (mergeNode c o).1 :: after) ds nm t := by
        rw [Shows_append, Shows_cons (b := after), Shows_append, Shows_cons (b := after)]
        exact Or.imp id (Or.imp k1 id)
      have h2 : Shows (before ++ (mergeNode c o).1 :: after) ds nm t →
          Shows (before ++ c :: after) ds nm t ∨ Shows (o :: os) ds nm t := by
        rw [Shows_append, Shows_cons (b := after), Shows_append, Shows_cons (c := c) (b := after), Shows_cons (c := o) (b := os)]
        rintro (h | h | h)
        · exact .inl (.inl h)
        · exact (k2 h).imp (fun h => .inr (.inl h)) .inl
        · exact .inl (.inr (.inr h))
      split
      · split
        · obtain ⟨j1, j2⟩ := mergeAll_keeps (before ++ (mergeNode c o).1 :: after) os ds nm t
          refine ⟨fun h => j1 (h1 h), fun h => (j2 h).elim h2 fun h => .inr ?_⟩
          rw [Shows_cons]; exact .inr h
        · exact ⟨h1, h2⟩
      · exact ⟨id, .inl⟩
end

theorem Distinct_nodup {cs : List Node} (h : Distinct cs) {c c' : Node} (h1 : c ∈ cs) (h2 : c' ∈ cs)
    (hn : c.name = c'.name) : c = c' := by
  have := h.1
  generalize cs = l at *
  clear h
  induction l with
  | nil => cases h1
  | cons x l ih =>
    simp only [List.map_cons, List.nodup_cons, List.mem_map, not_exists, not_and] at this
    rcases List.mem_cons.1 h1 with rfl | h1'
    · rcases List.mem_cons.1 h2 with rfl | h2'
      · rfl
      · exact absurd hn.symm (this.1 _ h2')
    · rcases List.mem_cons.1 h2 with rfl | h2'
      · exact absurd hn (this.1 _ h1')
      · exact ih h1' h2' this.2

theorem Distinct_child {cs : List Node} (h : Distinct cs) {d src : Str} {cs' : List Node} (hc : .dir d cs' src ∈ cs) :
    Distinct cs' :=
  ⟨h.2 [] d cs' src (.here hc), fun ds d' cs'' src' hh => h.2 (d :: ds) d' cs'' src' (.down hc hh)⟩

theorem Distinct_iff {cs : List Node} :
    Distinct cs ↔ (cs.map Node.name).Nodup ∧ ∀ d cs' src, Node.dir d cs' src ∈ cs → Distinct cs' := by
  constructor
  · exact fun h => ⟨h.1, fun d cs' src hc => Distinct_child h hc⟩
  · rintro ⟨h1, h2⟩
    refine ⟨h1, fun ds d cs' src hh => ?_⟩
    cases hh with
    | here hc => exact (h2 _ _ _ hc).1
    | down hc hh => exact (h2 _ _ _ hc).2 _ _ _ _ hh

theorem Distinct_tail {c : Node} {cs : List Node} (h : Distinct (c :: cs)) : Distinct cs := by
  rw [Distinct_iff] at h ⊢
  exact ⟨(List.nodup_cons.1 h.1).2, fun d cs' src hc => h.2 d cs' src (.tail _ hc)⟩

/-- Conflicts begin at the top. -/
theorem Conflict_iff {cs os : List Node} {ds : List Str} {n o : Node} :
    Conflict cs os ds n o ↔
      (ds = [] ∧ n ∈ cs ∧ o ∈ os ∧ n.name = o.name ∧ ¬ (n.isDir = true ∧ o.isDir = true)) ∨
      ∃ d ds' cs' s os' s', ds = d :: ds' ∧ .dir d cs' s ∈ cs ∧ .dir d os' s' ∈ os ∧ Conflict cs' os' ds' n o := by
  constructor
  · rintro ⟨h1, h2, h3, h4⟩
    cases h1 with
    | here h1 =>
      cases h2 with
      | here h2 => exact .inl ⟨rfl, h1, h2, h3, h4⟩
    | down h1 h1' =>
      cases h2 with
      | down h2 h2' => exact .inr ⟨_, _, _, _, _, _, rfl, h1, h2, h1', h2', h3, h4⟩
  · rintro (⟨rfl, h1, h2, h3, h4⟩ | ⟨d, ds', cs', s, os', s', rfl, h1, h2, h3⟩)
    · exact ⟨.here h1, .here h2, h3, h4⟩
    · exact ⟨.down h1 h3.left, .down h2 h3.right, h3.name, h3.notDirs⟩

/-- What a merge says about conflicts. -/
def Tells (r : Res SErr Unit) (cs os : List Node) : Prop :=
  match r with
  | .ok () => ∀ ds n o, ¬ Conflict cs os ds n o
  | .err e => ∃ ds n o, Conflict cs os ds n o ∧ e = .fs (.conflict n.source o.source)
  | .panic _ => False

theorem mergeNode_name (c o : Node) : (mergeNode c o).1.name = c.name := by
  cases o with
  | file => rw [mergeNode]
  | dir =>
    cases c <;> rw [mergeNode] <;> rfl

mutual
/-- The outcome of merging two directories. -/
theorem mergeNode_tells (c o : Node) (hc : Distinct [c]) (ho : Distinct [o]) (hn : c.name = o.name)
    (hd : c.isDir = true ∧ o.isDir = true) :
    Tells (mergeNode c o).2 [c] [o] ∧ ((mergeNode c o).2 = .ok () → Distinct [(mergeNode c o).1]) := by
  cases o with
  | file => exact absurd hd.2 (by nofun)
  | dir d os s =>
    cases c with
    | file => exact absurd hd.1 (by nofun)
    | dir d' cs s' =>
      simp only [Node.name] at hn
      subst hn
      rw [mergeNode]
      simp only
      obtain ⟨h1, h2⟩ := mergeAll_tells cs os (Distinct_child hc (.head _)) (Distinct_child ho (.head _))
      constructor
      · revert h1
        cases (mergeAll cs os).2 with
        | ok u =>
          intro h1 ds n o hcf
          rcases Conflict_iff.1 hcf with ⟨_, k1, k2, _, k3⟩ | ⟨e, ds', cs', t, os', t', _, k1, k2, k3⟩
          · rw [List.mem_singleton.1 k1, List.mem_singleton.1 k2] at k3
            exact k3 ⟨rfl, rfl⟩
          · cases List.mem_singleton.1 k1
            cases List.mem_singleton.1 k2
            exact h1 _ _ _ k3
        | err e =>
          rintro ⟨ds, n, o, k1, k2⟩
          exact ⟨d' :: ds, n, o, Conflict_iff.2 (.inr ⟨d', ds, cs, s', os, s, rfl, .head _, .head _, k1⟩), k2⟩
        | panic p => exact fun h => h.elim
      · intro hok
        rw [Distinct_iff]
        refine ⟨by simp, ?_⟩
        intro d cs' src hm
        cases List.mem_singleton.1 hm
        exact h2 hok
/-- The outcome of merging the children. -/
theorem mergeAll_tells (cs os : List Node) (hc : Distinct cs) (ho : Distinct os) :
    Tells (mergeAll cs os).2 cs os ∧ ((mergeAll cs os).2 = .ok () → Distinct (mergeAll cs os).1) := by
  cases os with
  | nil =>
    rw [mergeAll]
    exact ⟨fun ds n o h => Holds_nil h.right, fun _ => hc⟩
  | cons o os =>
    have hos := Distinct_tail ho
    have ho1 : Distinct [o] := by
      rw [Distinct_iff]
      exact ⟨by simp, fun d cs' src hm => Distinct_child ho (by rw [List.mem_singleton.1 hm]; exact .head _)⟩
    have hfresh : ∀ o' ∈ os, o'.name ≠ o.name := by
      intro o' h' he
      have := ho.1
      simp only [List.map_cons, List.nodup_cons, List.mem_map, not_exists, not_and] at this
      exact this.1 o' h' he
    rw [mergeAll]
    split
    · -- a new name
      rename_i hs
      have hnew := splitAtName_none.1 hs
      have hc' : Distinct (cs ++ [o]) := by
        rw [Distinct_iff] at hc ⊢
        constructor
        · rw [List.map_append, List.nodup_append]
          refine ⟨hc.1, by simp, ?_⟩
          intro a ha b hb
          simp only [List.map_cons, List.map_nil, List.mem_singleton] at hb
          obtain ⟨c, hcm, rfl⟩ := List.mem_map.1 ha
          rw [hb]; exact hnew c hcm
        · intro d cs' src hm
          rcases List.mem_append.1 hm with hm | hm
          · exact hc.2 _ _ _ hm
          · exact Distinct_child ho1 hm
      obtain ⟨h1, h2⟩ := mergeAll_tells (cs ++ [o]) os hc' hos
      refine ⟨?_, h2⟩
      have key : ∀ ds n x, Conflict (cs ++ [o]) os ds n x ↔ Conflict cs (o :: os) ds n x := by
        intro ds n x
        rw [Conflict_iff, Conflict_iff]
        constructor
        · rintro (⟨rfl, k1, k2, k3, k4⟩ | ⟨d, ds', cs', s, os', s', rfl, k1, k2, k3⟩)
          · rcases List.mem_append.1 k1 with k1 | k1
            · exact .inl ⟨rfl, k1, .tail _ k2, k3, k4⟩
            · rw [List.mem_singleton.1 k1] at k3; exact absurd k3.symm (hfresh x k2)
          · rcases List.mem_append.1 k1 with k1 | k1
            · exact .inr ⟨d, ds', cs', s, os', s', rfl, k1, .tail _ k2, k3⟩
            · exact absurd (by rw [← List.mem_singleton.1 k1]; rfl) (hfresh _ k2)
        · rintro (⟨rfl, k1, k2, k3, k4⟩ | ⟨d, ds', cs', s, os', s', rfl, k1, k2, k3⟩)
          · rcases List.mem_cons.1 k2 with k2 | k2
            · subst k2; exact absurd k3 (hnew n k1)
            · exact .inl ⟨rfl, List.mem_append_left _ k1, k2, k3, k4⟩
          · rcases List.mem_cons.1 k2 with k2 | k2
            · subst k2; exact absurd rfl (hnew (.dir d cs' s) k1)
            · exact .inr ⟨d, ds', cs', s, os', s', rfl, List.mem_append_left _ k1, k2, k3⟩
      revert h1
      cases (mergeAll (cs ++ [o]) os).2 with
      | ok u => exact fun h1 ds n x hx => h1 ds n x ((key ds n x).2 hx)
      | err e => exact fun ⟨ds, n, x, k1, k2⟩ => ⟨ds, n, x, (key ds n x).1 k1, k2⟩
      | panic p => exact fun h => h
    · -- a name that is there
      rename_i before c after hs
      obtain ⟨hcs, hn⟩ := splitAtName_some hs
      have hcm : c ∈ cs := by rw [hcs]; simp
      have hcd : Distinct [c] := by
        rw [Distinct_iff]
        exact ⟨by simp, fun d cs' src hm => Distinct_child hc (by rw [List.mem_singleton.1 hm]; exact hcm)⟩
      split
      · rename_i hd
        rw [Bool.and_eq_true] at hd
        obtain ⟨m1, m2⟩ := mergeNode_tells c o hcd ho1 hn hd
        split
        · rename_i hok
          have hok' : (mergeNode c o).2 = .ok () := hok
          rw [hok'] at m1
          have hmd := m2 hok'
          have hmn := mergeNode_name c o
          generalize (mergeNode c o).1 = c' at *
          have hc' : Distinct (before ++ c' :: after) := by
            rw [hcs, Distinct_iff] at hc
            rw [Distinct_iff]
            constructor
            · simpa [hmn] using hc.1
            · intro d cs' src hm
              simp only [List.mem_append, List.mem_cons] at hm
              rcases hm with hm | hm | hm
              · exact hc.2 _ _ _ (List.mem_append_left _ hm)
              · exact Distinct_child hmd (by rw [hm]; exact .head _)
              · exact hc.2 _ _ _ (List.mem_append_right _ (.tail _ hm))
          obtain ⟨h1, h2⟩ := mergeAll_tells (before ++ c' :: after) os hc' hos
          refine ⟨?_, h2⟩
          have hsame : ∀ x : Node, x.name ≠ o.name → (x ∈ before ++ c' :: after ↔ x ∈ cs) := by
            intro x hx
            rw [hcs]
            simp only [List.mem_append, List.mem_cons]
            have e1 : x ≠ c' := fun h => hx (by rw [h, hmn, hn])
            have e2 : x ≠ c := fun h => hx (by rw [h, hn])
            simp [e1, e2]
          have key : ∀ ds n x, Conflict (before ++ c' :: after) os ds n x ↔ Conflict cs (o :: os) ds n x := by
            intro ds n x
            rw [Conflict_iff, Conflict_iff]
            constructor
            · rintro (⟨rfl, k1, k2, k3, k4⟩ | ⟨d, ds', cs', s, os', s', rfl, k1, k2, k3⟩)
              · exact .inl ⟨rfl, (hsame n (by rw [k3]; exact hfresh x k2)).1 k1, .tail _ k2, k3, k4⟩
              · exact .inr ⟨d, ds', cs', s, os', s', rfl, (hsame (.dir d cs' s) (hfresh (.dir d os' s') k2)).1 k1, .tail _ k2, k3⟩
            · rintro (⟨rfl, k1, k2, k3, k4⟩ | ⟨d, ds', cs', s, os', s', rfl, k1, k2, k3⟩)
              · rcases List.mem_cons.1 k2 with k2 | k2
                · subst k2
                  rw [Distinct_nodup hc k1 hcm (k3.trans hn.symm)] at k4
                  exact absurd hd k4
                · exact .inl ⟨rfl, (hsame n (by rw [k3]; exact hfresh x k2)).2 k1, k2, k3, k4⟩
              · rcases List.mem_cons.1 k2 with k2 | k2
                · subst k2
                  have hce := Distinct_nodup hc k1 hcm hn.symm
                  subst hce
                  exact absurd (Conflict_iff.2 (.inr ⟨d, ds', cs', s, os', s', rfl, .head _, .head _, k3⟩)) (m1 _ _ _)
                · exact .inr ⟨d, ds', cs', s, os', s', rfl, (hsame (.dir d cs' s) (hfresh (.dir d os' s') k2)).2 k1, k2, k3⟩
          revert h1
          cases (mergeAll (before ++ c' :: after) os).2 with
          | ok u => exact fun h1 ds n x hx => h1 ds n x ((key ds n x).2 hx)
          | err e => exact fun ⟨ds, n, x, k1, k2⟩ => ⟨ds, n, x, (key ds n x).1 k1, k2⟩
          | panic p => exact fun h => h
        · rename_i hno
          refine ⟨?_, fun h => absurd h hno⟩
          simp only
          revert m1 hno
          cases (mergeNode c o).2 with
          | ok u => exact fun _ h => absurd rfl h
          | err e =>
            rintro ⟨ds, n, x, k1, k2⟩ _
            refine ⟨ds, n, x, ?_, k2⟩
            rcases Conflict_iff.1 k1 with ⟨rfl, q1, q2, q3, q4⟩ | ⟨d, ds', cs', s, os', s', rfl, q1, q2, q3⟩
            · rw [List.mem_singleton.1 q1, List.mem_singleton.1 q2] at q4
              exact absurd hd q4
            · rw [List.mem_singleton] at q1 q2
              refine Conflict_iff.2 (.inr ⟨d, ds', cs', s, os', s', rfl, ?_, ?_, q3⟩)
              · rw [q1]; exact hcm
              · rw [q2]; exact .head _
          | panic p => exact fun h => h.elim
      · rename_i hd
        refine ⟨?_, nofun⟩
        refine ⟨[], c, o, ⟨.here hcm, .here (.head _), hn, ?_⟩, rfl⟩
        rwa [Bool.and_eq_true] at hd
end

mutual
/-- What a failed merge of two nodes reports, whatever the first is. -/
theorem mergeNode_err (c o : Node) (ho : Distinct [o]) (hn : c.name = o.name) (e : SErr) (h : (mergeNode c o).2 = .err e) :
    ∃ ds n x, Conflict [c] [o] ds n x ∧ e = .fs (.conflict n.source x.source) := by
  cases o with
  | file => rw [mergeNode] at h; cases h
  | dir d os s =>
    cases c with
    | file => rw [mergeNode] at h; cases h
    | dir d' cs s' =>
      rw [mergeNode] at h
      simp only [Node.name] at hn
      subst hn
      obtain ⟨ds, n, x, h1, h2⟩ := mergeAll_err cs os (Distinct_child ho (.head _)) e h
      exact ⟨d' :: ds, n, x, Conflict_iff.2 (.inr ⟨d', ds, cs, s', os, s, rfl, .head _, .head _, h1⟩), h2⟩
/-- The same for the children. -/
theorem mergeAll_err (cs os : List Node) (ho : Distinct os) (e : SErr) (h : (mergeAll cs os).2 = .err e) :
    ∃ ds n x, Conflict cs os ds n x ∧ e = .fs (.conflict n.source x.source) := by
  cases os with
  | nil => rw [mergeAll] at h; cases h
  | cons o os =>
    have hos := Distinct_tail ho
    have ho1 : Distinct [o] := by
      rw [Distinct_iff]
      exact ⟨by simp, fun d cs' src hm => Distinct_child ho (by rw [List.mem_singleton.1 hm]; exact .head _)⟩
    have hfresh : ∀ o' ∈ os, o'.name ≠ o.name := by
      intro o' h' he
      have := ho.1
      simp only [List.map_cons, List.nodup_cons, List.mem_map, not_exists, not_and] at this
      exact this.1 o' h' he
    have back : ∀ cs1 : List Node, (∀ x ∈ cs1, x.name ≠ o.name → x ∈ cs) → ∀ ds n x, Conflict cs1 os ds n x →
        Conflict cs (o :: os) ds n x := by
      intro cs1 hb ds n x hc
      rcases Conflict_iff.1 hc with ⟨rfl, k1, k2, k3, k4⟩ | ⟨d, ds', cs', s, os', s', rfl, k1, k2, k3⟩
      · exact Conflict_iff.2 (.inl ⟨rfl, hb n k1 (by rw [k3]; exact hfresh x k2), .tail _ k2, k3, k4⟩)
      · exact Conflict_iff.2 (.inr ⟨d, ds', cs', s, os', s', rfl, hb _ k1 (hfresh (.dir d os' s') k2), .tail _ k2, k3⟩)
    rw [mergeAll] at h
    split at h
    · obtain ⟨ds, n, x, h1, h2⟩ := mergeAll_err (cs ++ [o]) os hos e h
      refine ⟨ds, n, x, back _ ?_ ds n x h1, h2⟩
      intro y hy hyn
      rcases List.mem_append.1 hy with hy | hy
      · exact hy
      · rw [List.mem_singleton.1 hy] at hyn; exact absurd rfl hyn
    · rename_i before c after hs
      obtain ⟨hcs, hn⟩ := splitAtName_some hs
      have hcm : c ∈ cs := by rw [hcs]; simp
      split at h
      · rename_i hd
        split at h
        · obtain ⟨ds, n, x, h1, h2⟩ := mergeAll_err (before ++ (mergeNode c o).1 :: after) os hos e h
          refine ⟨ds, n, x, back _ ?_ ds n x h1, h2⟩
          intro y hy hyn
          rw [hcs]
          simp only [List.mem_append, List.mem_cons] at hy ⊢
          rcases hy with hy | hy | hy
          · exact .inl hy
          · rw [hy, mergeNode_name] at hyn; exact absurd hn hyn
          · exact .inr (.inr hy)
        · obtain ⟨ds, n, x, k1, k2⟩ := mergeNode_err c o ho1 hn e h
          refine ⟨ds, n, x, ?_, k2⟩
          refine ⟨?_, ?_, k1.name, k1.notDirs⟩
          · rw [hcs]; exact Holds_append.2 (.inr (Holds_cons.2 (.inl k1.left)))
          · exact Holds_cons.2 (.inl k1.right)
      · rename_i hd
        rw [Bool.and_eq_true] at hd
        cases h
        exact ⟨[], c, o, ⟨.here hcm, .here (.head _), hn, hd⟩, rfl⟩
end

mutual
/-- Directories merge without a panic. -/
theorem mergeNode_panic (c o : Node) (h : c.isDir = true ∧ o.isDir = true) (p : Panic) : (mergeNode c o).2 ≠ .panic p := by
  cases o with
  | file => exact absurd h.2 (by nofun)
  | dir d os s =>
    cases c with
    | file => exact absurd h.1 (by nofun)
    | dir d' cs s' => rw [mergeNode]; exact mergeAll_panic cs os p
/-- The same for the children. -/
theorem mergeAll_panic (cs os : List Node) (p : Panic) : (mergeAll cs os).2 ≠ .panic p := by
  cases os with
  | nil => rw [mergeAll]; nofun
  | cons o os =>
    rw [mergeAll]
    split
    · exact mergeAll_panic _ os p
    · rename_i before c after hs
      split
      · rename_i hd
        rw [Bool.and_eq_true] at hd
        split
        · exact mergeAll_panic _ os p
        · exact mergeNode_panic c o hd p
      · nofun
end

end Stuart
