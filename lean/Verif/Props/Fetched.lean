import Verif.Props.Fetch
import Verif.Proof.Saved
/-
C69 and C70: that fetching plugins succeeds.
-/
namespace Stuart
open Spec

/-- Directories can be made where there is nothing else in the way. -/
theorem createDirAll_calm {p : Path} : ∀ {done : Path} {w : World}, w.Calm → look w.disk done = some .dir →
    (∀ r, r <+: p → r ≠ [] → look w.disk (done ++ r) = none ∨ look w.disk (done ++ r) = some .dir) →
    (createDirAll done p w).2 = true ∧ (createDirAll done p w).1.Calm := by
  induction p with
  | nil => intro done w hc _ _; exact ⟨rfl, hc⟩
  | cons n p ih =>
    intro done w hc hd hp
    have hlast : ∀ r : Path, r <+: p → n :: r <+: n :: p := fun r h => List.cons_prefix_cons.2 ⟨rfl, h⟩
    rcases hp [n] (hlast [] List.nil_prefix) (by simp) with h | h
    · have happly : (Op.mkdir (done ++ [n])).apply w.disk = some (w.disk.put (done ++ [n]) (some (.dir []))) := by
        simp only [Op.apply, at_none_iff.2 h, List.dropLast_concat, isDirAt_iff.2 hd, if_true]
      obtain ⟨k1, k2, k3⟩ := World.calm_step hc happly
      have hnd : ¬ w.disk.isDirAt (done ++ [n]) = true := by rw [isDirAt_iff, h]; nofun
      rw [createDirAll, if_neg hnd]
      simp only [k1, if_true]
      have hl := mkdir_apply happly
      rw [← k2] at hl
      refine ih k3 (by rw [hl, if_pos rfl]) fun r hr hr0 => ?_
      rw [hl]
      split
      · exact .inr rfl
      · have := hp (n :: r) (hlast r hr) (by simp)
        simpa using this
    · rw [createDirAll, if_pos (isDirAt_iff.2 h)]
      refine ih hc h fun r hr hr0 => ?_
      have := hp (n :: r) (hlast r hr) (by simp)
      simpa using this

section
variable {O : Outside} {root : Path} {name src : Str} {s : LoadSt} {q : Plugin}

/-- The repository, once fetched, is built. -/
theorem fetched_loads {d2 : Entry} (hd : ProperDisk d2) {t : LoadSt} {repo : Path} (ht : t.world.disk = d2) {r : Path}
    (hp : IsProject O d2 (repo ++ r) name) (hone : ∀ r', IsProject O d2 (repo ++ r') name → r' = r)
    (hb : Builds O t.tick d2 (repo ++ r) q) :
    (match (t.world.disk.at repo).bind (findProject O name repo) with
      | none => (t, Res.err LoadErr.noProject)
      | some project => LoadSt.andThen (buildCargo O project t) fun path s => loadBinary O path s).2 = .ok [q] := by
  subst ht
  obtain ⟨b, hb1, hb2⟩ := hp
  cases hat : t.world.disk.at repo with
  | none =>
    exfalso
    unfold look at hb1
    rw [List.append_assoc, at_append, hat] at hb1
    cases hb1
  | some e =>
    have hsub : ProperDisk e := by
      intro p l hl
      refine hd (repo ++ p) l ?_
      rw [at_append, hat]; exact hl
    have hlook : ∀ p, look t.world.disk (repo ++ p) = look e p := by
      intro p
      unfold look
      rw [at_append, hat]; rfl
    have hf := C66_found (O := O) name repo e hsub
    cases hfp : findProject O name repo e with
    | none =>
      rw [List.append_assoc, hlook] at hb1
      exact absurd hb2 (hf.2 hfp r b hb1)
    | some project =>
      obtain ⟨r', b', k1, k2, k3⟩ := hf.1 project hfp
      have : r' = r := hone r' ⟨b', by rw [List.append_assoc, hlook]; exact k2, k3⟩
      subst this
      simp only [Option.bind_some, hfp]
      obtain ⟨t', ht'⟩ := (builds_iff (s := t)).2 hb
      rw [← k1] at ht'
      rw [ht']

/-- C69. The first time it loads, too: if nothing is in the way of the directories and nothing mishaps they are made, the
repository is cloned, and the plugin is the library that Cargo builds of the only project of that name in it. -/
theorem C69_clones (hn : PlainName name) (hs : NotLocal root src s.world.disk) (hg : O.gitExists s.tick src = true)
    (hrepo : look s.world.disk (keptIn root name) = none) (hcalm : s.world.Calm)
    (hroom : RoomFor s.world.disk (root ++ [str!"_build", str!"plugins"])) :
    ∃ d1, (∀ p, look d1 p = some .dir ∨ ¬ p <+: root ++ [str!"_build", str!"plugins"]) ∧
      (∀ p, ¬ p <+: root ++ [str!"_build", str!"plugins"] → look d1 p = look s.world.disk p) ∧
      ∀ d2, O.gitClone (s.tick + 1) src (keptIn root name) d1 = (d2, true) → ProperDisk d2 →
        ∀ r, IsProject O d2 (keptIn root name ++ r) name → (∀ r', IsProject O d2 (keptIn root name ++ r') name → r' = r) →
        Builds O (s.tick + 2) d2 (keptIn root name ++ r) q → (loadFromSource O root name src s).2 = .ok [q] := by
  obtain ⟨hok, _⟩ := createDirAll_calm (p := root ++ [str!"_build", str!"plugins"]) (done := []) hcalm hroom.1
    fun r h _ => hroom.2 r h
  have made := createDirAll_made hok
  refine ⟨(createDirAll [] (root ++ [str!"_build", str!"plugins"]) s.world).1.disk, fun p => ?_, fun p hp => ?_,
    fun d2 hc hd r hp hone hb => ?_⟩
  · by_cases hp : p <+: root ++ [str!"_build", str!"plugins"]
    · left
      by_cases h0 : p = []
      · subst h0
        rw [made, if_neg, hroom.1]
        rintro ⟨r, _, k2, k3⟩
        exact k2 (by simpa using k3.symm)
      · rw [made, if_pos ⟨p, hp, h0, by simp⟩]
    · exact .inr hp
  · rw [made, if_neg]
    rintro ⟨r, k1, _, k3⟩
    exact hp (by rw [k3]; simpa using k1)
  · rw [git_eq hs hg]
    unfold loadGit fetchRepo
    have hdir := pluginDir_eq root hn
    rw [show joinPath root (str!"_build/plugins/" ++ name) = keptIn root name from hdir]
    have he : s.world.disk.existsAt (keptIn root name) = false := by
      unfold Entry.existsAt; rw [at_none_iff.2 hrepo]; rfl
    simp only [he, Bool.not_false, if_true, hok, hc]
    rw [LoadSt.andThen]
    exact fetched_loads hd rfl hp hone hb

/-- C70. A download succeeds: if nothing is in the way of the directory and the file and nothing mishaps, the body is written
to the file, apart from that and the directories to it nothing changes, and the plugin is what the file is loaded as. -/
theorem C70_loads (hn : PlainName name) (file : Str) (hf : EndsIn src file) (hs : NotLocal root src s.world.disk)
    (hg : O.gitExists s.tick src = false) (status : Nat) (body : Bytes) (hh : O.http (s.tick + 1) src = some (status, body))
    (hcalm : s.world.Calm) (hroom : RoomFor s.world.disk (keptIn root name))
    (hfree : look s.world.disk (keptIn root name ++ [file]) = none ∨ ∃ b, look s.world.disk (keptIn root name ++ [file]) = some (.file b)) :
    let r := loadFromSource O root name src s
    let d := r.1.world.disk
    look d (keptIn root name ++ [file]) = some (.file body) ∧ look d (keptIn root name) = some .dir ∧
    (∀ p, ¬ p <+: keptIn root name ++ [file] → look d p = look s.world.disk p) ∧
    (¬ HasExt file str!"js" → ¬ HasExt file str!"mjs" →
      r.2 = match O.openLibrary (s.tick + 2) (keptIn root name ++ [file]) d with
        | some (some q) => .ok [q]
        | _ => .err .library) ∧
    (HasExt file str!"js" ∨ HasExt file str!"mjs" →
      r.2 = if O.js then
          match O.openJs (s.tick + 2) (keptIn root name ++ [file]) d with
          | some q => .ok [q]
          | none => .err .script
        else .ok []) := by
  have hplain : PlainName file := by obtain ⟨_, _, _, hf⟩ := hf; exact hf
  -- the directory
  have hm : ∃ m : World, (if s.world.disk.existsAt (keptIn root name) = true then (s.world, true)
      else createDirAll [] (keptIn root name) s.world) = (m, true) ∧ m.Calm ∧
      ∀ p, look m.disk p = if p <+: keptIn root name then some .dir else look s.world.disk p := by
    split
    · rename_i he
      have hk : look s.world.disk (keptIn root name) = some .dir := by
        rcases hroom.2 _ (List.prefix_refl _) with h | h
        · exact absurd h (exists_iff.1 he)
        · exact h
      refine ⟨_, rfl, hcalm, fun p => ?_⟩
      split
      · rename_i hp
        obtain ⟨r, hr⟩ := hp
        cases r with
        | nil => rw [List.append_nil] at hr; rw [hr]; exact hk
        | cons x r => exact look_above (r := x :: r) (by simp) (by rw [hr, hk]; nofun)
      · rfl
    · obtain ⟨hok, hc⟩ := createDirAll_calm (p := keptIn root name) (done := []) hcalm hroom.1 fun r h _ => hroom.2 r h
      refine ⟨_, Prod.ext rfl hok, hc, fun p => ?_⟩
      rw [createDirAll_made hok]
      by_cases h0 : p = []
      · subst h0
        rw [if_neg, if_pos List.nil_prefix, hroom.1]
        rintro ⟨r, _, k2, k3⟩
        exact k2 (by simpa using k3.symm)
      · by_cases hp : p <+: keptIn root name
        · rw [if_pos hp, if_pos ⟨p, hp, h0, by simp⟩]
        · rw [if_neg hp, if_neg]
          rintro ⟨r, k1, _, k3⟩
          exact hp (by rw [k3]; simpa using k1)
  obtain ⟨m, hm, hc, hl⟩ := hm
  have hnot : ¬ keptIn root name ++ [file] <+: keptIn root name := by
    intro h
    have := h.length_le
    simp at this
    omega
  have hkdir : look m.disk (keptIn root name) = some .dir := by rw [hl, if_pos (List.prefix_refl _)]
  have hwrite : ∃ d', (Op.write (keptIn root name ++ [file]) body).apply m.disk = some d' := by
    have hl' := hl (keptIn root name ++ [file])
    rw [if_neg hnot] at hl'
    rcases hfree with h | ⟨b, h⟩
    · rw [h] at hl'
      simp only [Op.apply, at_none_iff.2 hl', List.dropLast_concat, isDirAt_iff.2 hkdir, if_true]
      exact ⟨_, rfl⟩
    · rw [h] at hl'
      obtain ⟨e, he, hk⟩ := Option.map_eq_some_iff.1 hl'
      cases e with
      | file b' => ?_
      | dir l => cases hk
      | special => cases hk
      simp only [Op.apply, he]
      exact ⟨_, rfl⟩
  obtain ⟨d', hw⟩ := hwrite
  obtain ⟨w1, w2, w3⟩ := World.calm_step hc hw
  have hwr := adds_step (o := .write (keptIn root name ++ [file]) body) (by simp [Op.Adds]) hw
  have hload : loadFromSource O root name src s = managerLoad O (keptIn root name ++ [file]) file
      ⟨(m.step (.write (keptIn root name ++ [file]) body)).1, s.tick + 2⟩ := by
    unfold loadFromSource downloadPlugin
    simp only [(notLocal hs).1, (notLocal hs).2, hg, Bool.and_false, Bool.false_eq_true, if_false, hh, Option.map_some]
    unfold loadDownload
    have hdir := pluginDir_eq root hn
    have hlp := (endsIn_piece hf).2
    rw [show joinPath root (str!"_build/plugins/" ++ name) = keptIn root name from hdir, hlp]
    simp only [joinPath_plain hplain, hm, w1, if_true]
  have hworld : (loadFromSource O root name src s).1.world = (m.step (.write (keptIn root name ++ [file]) body)).1 := by
    rw [hload]
    exact managerLoad_world _ _ _
  intro r d
  have hd : d = d' := by rw [← w2]; exact congrArg World.disk hworld
  refine ⟨?_, ?_, ?_, ?_, ?_⟩
  · rw [hd, (hwr _).1]; simp [Op.seen]
  · rw [hd, (hwr _).1]
    simp only [Op.seen]
    rw [if_neg]
    · exact hkdir
    · intro h
      exact hnot (h ▸ List.prefix_refl _)
  · intro p hp
    rw [hd, (hwr p).1]
    have : p ≠ keptIn root name ++ [file] := by rintro rfl; exact hp (List.prefix_refl _)
    simp only [Op.seen, if_neg this]
    rw [hl, if_neg fun k => hp (k.trans (List.prefix_append _ _))]
  · intro x1 x2
    show (loadFromSource O root name src s).2 = _
    rw [hload, managerLoad, if_neg (fun k => k.elim (fun k => x1 (extension_iff.1 k)) fun k => x2 (extension_iff.1 k)), loadBinary]
    simp only [w2, hd]
    split
    · rename_i p hp; rw [hp]
    · rename_i hp
      split
      · rename_i p hq; exact absurd hq (hp p)
      · rfl
  · intro x
    show (loadFromSource O root name src s).2 = _
    rw [hload, managerLoad, if_pos (x.imp extension_iff.2 extension_iff.2)]
    simp only [w2, hd]
    split
    · split
      · rename_i p hp; rw [hp]
      · rename_i hp; rw [hp]
    · rfl

end

/-- Only the directory of the project is there, of those on the way. -/
theorem bare_room (p : Path) (h : p <+: [str!"p", str!"_build", str!"plugins"]) :
    look bareDisk p = none ∨ look bareDisk p = some .dir := by
  match p, h with
  | [], _ => exact .inr rfl
  | [a], h => obtain ⟨r, h⟩ := h; cases h; exact .inr rfl
  | [a, b], h => obtain ⟨r, h⟩ := h; cases h; exact .inl rfl
  | [a, b, c], h => obtain ⟨r, h⟩ := h; cases h; exact .inl rfl
  | a :: b :: c :: d :: l, h => have := h.length_le; simp at this

example := C69_clones (O := gitOutside) (root := [str!"p"]) (name := str!"x") (src := str!"https://h/x") (s := ⟨⟨bareDisk, []⟩, 0⟩)
  (q := ⟨⟨str!"x", []⟩, []⟩) (by decide) ⟨(fun b h => by cases h), rfl⟩ rfl rfl (by intro b hb; cases hb) ⟨rfl, bare_room⟩

/-- The directory in which plugins are kept is there, with one in it. -/
theorem web_room (p : Path) (h : p <+: [str!"p", str!"_build", str!"plugins", str!"y"]) :
    look webDisk p = none ∨ look webDisk p = some .dir := by
  match p, h with
  | [], _ => exact .inr rfl
  | [a], h => obtain ⟨r, h⟩ := h; cases h; exact .inr rfl
  | [a, b], h => obtain ⟨r, h⟩ := h; cases h; exact .inr rfl
  | [a, b, c], h => obtain ⟨r, h⟩ := h; cases h; exact .inr rfl
  | [a, b, c, d], h => obtain ⟨r, h⟩ := h; cases h; exact .inl rfl
  | a :: b :: c :: d :: e :: l, h => have := h.length_le; simp at this

example := C70_loads (O := webOutside) (root := [str!"p"]) (name := str!"y") (src := str!"https://h/y.so") (s := ⟨⟨webDisk, []⟩, 0⟩)
  (by decide) str!"y.so" ⟨str!"https://h/", rfl, .inr ⟨str!"https://h", rfl⟩, by decide⟩ ⟨(fun b h => by cases h), rfl⟩ rfl 404 _ rfl
  (by intro b hb; cases hb) ⟨rfl, web_room⟩ (.inl rfl)

end Stuart
