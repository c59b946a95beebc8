import Verif.Proof.FileTypes
/-
Builds that fail because of a plugin.
-/
namespace Stuart
open Spec

variable {Bad : Res SErr Unit → Prop}

theorem bad_bind {α β : Type} {r : Res SErr α} {f : α → Res SErr β} (hB : ¬ Bad (.ok ())) (h : Bad (verdict r)) :
    Bad (verdict (r.bind f)) := by
  cases r with
  | ok a => exact absurd h hB
  | err e => exact h
  | panic p => exact h

theorem bad_verdict {α β : Type} {r : Res SErr α} {r' : Res SErr β} (hv : verdict r = verdict r') (h : Bad (verdict r)) :
    Bad (verdict r') := hv ▸ h

/-- What is known of a file that only the new plugin handles, if the plugin may fail. -/
def MayFail (Bad : Res SErr Unit → Prop) (K : Str → Custom → Prop) (ps : List Plugin) (P : Plugin) (p : Path) (nm : Str) (b : Bytes) : Prop :=
  Taken ps P nm → ∀ q ∈ P.parsers, (∃ e ∈ q.extensions, HasExt nm e) →
    (∃ c, q.parse b (pathStr p) = .ok c ∧ K nm c) ∨ Bad (verdict ((q.parse b (pathStr p)).mapErr .plugin))

variable {S : Sys} {ps : List Plugin} {P : Plugin}

mutual
theorem readEntry_blame {K : Str → Custom → Prop} (hB : ¬ Bad (.ok ())) (hf : P.fns.functions = []) {d : Path} {nm : Str} :
    ∀ {e : Entry} {c : Node},
    AllFiles (MayFail Bad K ps P) (d ++ [nm]) nm e → readEntry S true ps (d ++ [nm]) nm e = .ok c →
    (∃ c', readEntry S true (ps ++ [P]) (d ++ [nm]) nm e = .ok c' ∧ PairAll (ReadR K ps P) [c] [c']) ∨
    Bad (verdict (readEntry S true (ps ++ [P]) (d ++ [nm]) nm e))
  | .special, c', _, h => by rw [readEntry] at h; cases h
  | .file b, c', hm, h => by
    rw [readEntry, readFile, if_pos rfl] at h
    obtain ⟨x, h1, h2⟩ := Res.bind_eq_ok.1 h
    cases h2
    rw [AllFiles] at hm
    by_cases ht : Taken ps P nm
    · obtain ⟨k1, q, e, hq, he, _, hqe, _, k2⟩ := parseContents_taken (S := S) ht (pathStr (d ++ [nm])) b
      rw [k1] at h1
      cases h1
      rcases hm ht q hq ⟨e, hqe, he⟩ with ⟨c, hc, hk⟩ | hb
      · left
        refine ⟨.file nm b (.custom c) none (pathStr (d ++ [nm])), by rw [readEntry, readFile, if_pos rfl, k2, hc]; rfl, ?_⟩
        exact .file _ _ _ _ _ _ _ _ _ _ (.new _ _ _ d _ ht rfl hk) .nil
      · right
        rw [readEntry, readFile, if_pos rfl, k2]
        exact bad_bind hB (bad_bind hB hb)
    · rw [parseContents_left hf ht] at h1
      left
      refine ⟨.file nm b x none (pathStr (d ++ [nm])), by rw [readEntry, readFile, if_pos rfl, h1]; rfl, ?_⟩
      exact .file _ _ _ _ _ _ _ _ _ _ (.same _ _ _ _) .nil
  | .dir l, c', hm, h => by
    rw [readEntry] at h
    obtain ⟨x, h1, h2⟩ := Res.bind_eq_ok.1 h
    cases h2
    rw [AllFiles] at hm
    rcases readEntries_blame hB hf hm h1 with ⟨cs, k1, k2⟩ | hb
    · exact .inl ⟨.dir nm cs (pathStr (d ++ [nm])), by rw [readEntry, k1]; rfl, .dir _ _ k2 .nil⟩
    · exact .inr (by rw [readEntry]; exact bad_bind hB hb)
theorem readEntries_blame {K : Str → Custom → Prop} (hB : ¬ Bad (.ok ())) (hf : P.fns.functions = []) {p : Path} :
    ∀ {l : List (Str × Entry)} {cs : List Node},
    AllFilesIn (MayFail Bad K ps P) p l → readEntries S true ps p l = .ok cs →
    (∃ cs', readEntries S true (ps ++ [P]) p l = .ok cs' ∧ PairAll (ReadR K ps P) cs cs') ∨
    Bad (verdict (readEntries S true (ps ++ [P]) p l))
  | [], cs', _, h => by rw [readEntries] at h; cases h; exact .inl ⟨[], by rw [readEntries], .nil⟩
  | (n, e) :: l, cs', hm, h => by
    rw [AllFilesIn] at hm
    obtain ⟨c, cs1, h1, h2, rfl⟩ := readEntries_cons_ok.1 h
    rcases readEntry_blame hB hf hm.1 h1 with ⟨c0, k1, k2⟩ | hb
    · rcases readEntries_blame hB hf hm.2 h2 with ⟨cs0, k3, k4⟩ | hb
      · left
        refine ⟨c0 :: cs0, readEntries_cons_ok.2 ⟨_, _, k1, k3, rfl⟩, ?_⟩
        cases k2 with
        | file _ _ _ _ _ _ _ _ _ _ hr _ => exact .file _ _ _ _ _ _ _ _ _ _ hr k4
        | dir _ _ hr _ => exact .dir _ _ hr k4
      · right
        rw [readEntries, k1, Res.bind_ok]
        exact bad_bind hB hb
    · right
      rw [readEntries]
      exact bad_bind hB hb
end

theorem build_blame {R : Node → Node → Prop} {b : Builder} (hB : ¬ Bad (.ok ()))
    (hR : ∀ {nm c p m s nm' c' p' m' s'}, R (.file nm c p m s) (.file nm' c' p' m' s') → ∀ {env out}, processParsed b env nm s p = .ok out →
      (∃ out', processParsed b env nm' s' p' = .ok out') ∨ Bad (verdict (processParsed b env nm' s' p')))
    (hE : ∀ {cs cs' : List Node}, PairAll R cs cs' → ∀ env, updateEnv env cs = updateEnv env cs')
    {cs cs' : List Node} (h : PairAll R cs cs') :
    ∀ {env os}, buildNodes b env cs = .ok os → (∃ os', buildNodes b env cs' = .ok os') ∨ Bad (verdict (buildNodes b env cs')) := by
  induction h with
  | nil => intro env os h; exact .inl ⟨[], rfl⟩
  | file _ _ _ _ _ _ _ _ _ _ hr _ ih =>
    intro env os h
    obtain ⟨o, os1, h1, h2, rfl⟩ := buildNodes_cons_ok.1 h
    rw [buildNode] at h1
    obtain ⟨out, h3, rfl⟩ := processFile_ok.1 h1
    rw [buildNodes, buildNode, processFile]
    rcases hR hr h3 with ⟨out', k1⟩ | hb
    · rw [k1, Res.bind_ok, Res.bind_ok]
      rcases ih h2 with ⟨os', k3⟩ | hb
      · exact .inl ⟨_, by rw [k3]; rfl⟩
      · exact .inr (bad_bind hB hb)
    · exact .inr (bad_bind hB (bad_bind hB hb))
  | dir _ _ hd _ i1 i2 =>
    intro env os h
    obtain ⟨o, os1, h1, h2, rfl⟩ := buildNodes_cons_ok.1 h
    obtain ⟨x, h3, rfl⟩ := buildNode_dir_ok.1 h1
    rw [buildNodes, buildNode, ← hE hd]
    rcases i1 h3 with ⟨x', k1⟩ | hb
    · rw [k1, Res.bind_ok, Res.bind_ok]
      rcases i2 h2 with ⟨os', k3⟩ | hb
      · exact .inl ⟨_, by rw [k3]; rfl⟩
      · exact .inr (bad_bind hB hb)
    · exact .inr (bad_bind hB (bad_bind hB hb))

/-- A project that builds without the plugin, with the plugin. -/
theorem readBuild_blame (hB : ¬ Bad (.ok ())) (hf : P.fns.functions = []) {disk : Entry} {mode : Str} {s : Project} (hd : ProperDisk disk)
    {out : Node}
    (hm : ∀ ds nm b, disk.at (s.dir ++ ds ++ [nm]) = some (.file b) →
      MayFail Bad (fun _ c => ∀ root md, (∃ out, c.process root md = .ok out) ∨ Bad (verdict ((c.process root md).mapErr .plugin)))
        s.plugins P (s.dir ++ ds ++ [nm]) nm b)
    (h : readBuild S disk mode s = .ok out) :
    (∃ out', readBuild S disk mode { s with plugins := s.plugins ++ [P] } = .ok out') ∨
    Bad (verdict (readBuild S disk mode { s with plugins := s.plugins ++ [P] })) := by
  unfold readBuild at h ⊢
  obtain ⟨n, h1, h2⟩ := Res.bind_eq_ok.1 h
  obtain ⟨l, cs, nm, h3, h4, h5, rfl⟩ := readTree_dir_ok.1 h1
  have hd' : ProperDisk (.dir l) := by
    intro q l' hq
    refine hd (s.dir ++ q) l' ?_
    rw [at_append, h3]; exact hq
  have hall : AllFiles (MayFail Bad (fun _ c => ∀ root md, (∃ out, c.process root md = .ok out) ∨
      Bad (verdict ((c.process root md).mapErr .plugin))) s.plugins P) s.dir nm (.dir l) := by
    refine allFiles_of hd' (fun b hb => by cases hb) ?_
    intro ds n b hb
    refine hm ds n b ?_
    rw [List.append_assoc, at_append, h3]; exact hb
  rw [AllFiles] at hall
  rcases readEntries_blame (S := S) hB hf hall h4 with ⟨cs', k1, k2⟩ | hb
  · have hr : readTree S true (s.plugins ++ [P]) disk s.dir = .ok (.dir nm cs' (pathStr s.dir)) :=
      readTree_dir_ok.2 ⟨l, cs', nm, h3, k1, h5, rfl⟩
    simp only [hr, Res.bind_ok]
    obtain ⟨mid, g1, g2⟩ := buildTree_ok h2
    obtain ⟨ms, g3, rfl⟩ := preNode_dir_ok.1 g1
    have hdata : dataOf (.dir nm cs (pathStr s.dir)) = dataOf (.dir nm cs' (pathStr s.dir)) := by rw [dataOf, dataOf, pairs_data k2]
    obtain ⟨ms', j1, j2⟩ := pre_pairs (R := ReadR _ s.plugins P) (by
      intro nm b p m s nm' b' p' m' s' hr x hx
      cases hr with
      | same => exact ⟨x, hx, .same _ _ _ _⟩
      | new _ _ _ d c ht hs hk => cases hx; exact ⟨_, rfl, .new _ _ _ d _ ht hs hk⟩) k2 g3
    rw [preNodes_same_data hdata] at j1
    have hpre' : preNode S.ext ⟨.dir nm cs' (pathStr s.dir), S.dateFmt⟩ (baseFrame S.vars mode) (.dir nm cs' (pathStr s.dir)) =
        .ok (.dir nm ms' (pathStr s.dir)) := preNode_dir_ok.2 ⟨_, j1, rfl⟩
    obtain ⟨os, g4, rfl⟩ := buildNode_dir_ok.1 g2
    have hd' : dataOf (.dir nm ms (pathStr s.dir)) = dataOf (.dir nm ms' (pathStr s.dir)) := by rw [dataOf, dataOf, pairs_data j2]
    have key := build_blame (Bad := Bad) hB (by
      intro nm c p m s nm' c' p' m' s' hr env out ho
      cases hr with
      | same => exact .inl ⟨out, ho⟩
      | new _ _ _ d c ht hs hk =>
        unfold processParsed
        split
        · rcases hk env.root env.md with ⟨o, ho⟩ | hb
          · exact .inl ⟨o, by simp only [ho]; rfl⟩
          · exact .inr hb
        · exact .inl ⟨{}, rfl⟩) (fun h env => pairs_env h env) j2 g4
    rw [buildNodes_same_data hd'] at key
    unfold buildTree
    simp only [hpre', Res.bind_ok, buildTree_env]
    rw [buildNode, ← pairs_env j2]
    rcases key with ⟨os', k⟩ | hb
    · exact .inl ⟨_, by rw [k]; rfl⟩
    · exact .inr (bad_bind hB hb)
  · right
    refine bad_bind hB ?_
    unfold readTree
    simp only [h3]
    exact bad_bind hB hb

end Stuart
