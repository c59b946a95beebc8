import Verif.Proof.OrderBuild
import Verif.Proof.Read
import Verif.Proof.Merge
/-
Reading directories that are listed in different orders.
-/
namespace Stuart
open Spec

variable {S : Sys} {parse : Bool} {plugins : List Plugin}

theorem properDisk_entry {l : List (Str × Entry)} (h : ProperDisk (.dir l)) {n : Str} {e : Entry} (he : (n, e) ∈ l) : ProperDisk e := by
  intro p m hm
  refine h (n :: p) m ?_
  rw [Entry.at, (findEntry_mem (h [] l rfl).1).2 he]
  exact hm

theorem readEntries_cons_ok {p : Path} {n : Str} {e : Entry} {l : List (Str × Entry)} {cs : List Node} :
    readEntries S parse plugins p ((n, e) :: l) = .ok cs ↔ ∃ c cs', readEntry S parse plugins (p ++ [n]) n e = .ok c ∧
      readEntries S parse plugins p l = .ok cs' ∧ cs = c :: cs' := by
  rw [readEntries]
  constructor
  · intro h
    obtain ⟨o, h1, h2⟩ := Res.bind_eq_ok.1 h
    obtain ⟨os', h3, h4⟩ := Res.bind_eq_ok.1 h2
    cases h4
    exact ⟨o, os', h1, h3, rfl⟩
  · rintro ⟨o, os', h1, h2, rfl⟩
    rw [h1, h2]; rfl

theorem readEntries_append_ok {p : Path} {x y : List (Str × Entry)} : ∀ {cs : List Node},
    readEntries S parse plugins p (x ++ y) = .ok cs ↔ ∃ as bs, readEntries S parse plugins p x = .ok as ∧
      readEntries S parse plugins p y = .ok bs ∧ cs = as ++ bs := by
  induction x with
  | nil =>
    intro cs
    constructor
    · intro h; exact ⟨[], cs, rfl, h, rfl⟩
    · rintro ⟨as, bs, h1, h2, rfl⟩; cases h1; exact h2
  | cons e x ih =>
    obtain ⟨n, e⟩ := e
    intro cs
    rw [List.cons_append, readEntries_cons_ok]
    constructor
    · rintro ⟨c, cs', h1, h2, rfl⟩
      obtain ⟨as, bs, h3, h4, rfl⟩ := ih.1 h2
      exact ⟨c :: as, bs, readEntries_cons_ok.2 ⟨c, as, h1, h3, rfl⟩, h4, rfl⟩
    · rintro ⟨as, bs, h1, h2, rfl⟩
      obtain ⟨c, cs', h3, h4, rfl⟩ := readEntries_cons_ok.1 h1
      exact ⟨c, cs' ++ bs, h3, ih.2 ⟨_, _, h4, h2, rfl⟩, rfl⟩

theorem findEntry_none {l : List (Str × Entry)} {n : Str} : findEntry n l = none ↔ n ∉ l.map Prod.fst := by
  induction l with
  | nil => simp [findEntry]
  | cons x l ih =>
    obtain ⟨m, e⟩ := x
    rw [findEntry]
    split
    · rename_i h; simp [h]
    · rename_i h
      rw [ih]
      simp [Ne.symm h]

mutual
theorem readEntry_like {p : Path} {nm : Str} : ∀ {e e' : Entry} {c : Node}, ProperDisk e → ProperDisk e' →
    (∀ q, look e q = look e' q) → readEntry S parse plugins p nm e = .ok c →
    ∃ c', readEntry S parse plugins p nm e' = .ok c' ∧ Like True c c'
  | .special, e', c, _, _, _, h => by rw [readEntry] at h; cases h
  | .file b, e', c, _, _, hs, h => by
    have := hs []
    cases e' with
    | file b' => cases this; exact ⟨c, h, like_refl _ _⟩
    | dir l => cases this
    | special => cases this
  | .dir l, e', c, hd, hd', hs, h => by
    have h0 := hs []
    cases e' with
    | file b' => cases h0
    | special => cases h0
    | dir l' =>
      rw [readEntry] at h ⊢
      obtain ⟨cs, h1, h2⟩ := Res.bind_eq_ok.1 h
      cases h2
      obtain ⟨cs', h3, h4⟩ := readEntries_like (hd [] l rfl).1 (hd' [] l' rfl).1
        (fun n e he => properDisk_entry hd he) (fun n e he => properDisk_entry hd' he)
        (fun n q => by rw [← look_dir_cons, ← look_dir_cons]; exact hs _) h1
      rw [h3]
      exact ⟨_, rfl, cs', rfl, h4⟩
theorem readEntries_like {p : Path} : ∀ {l l' : List (Str × Entry)} {cs : List Node},
    (l.map Prod.fst).Nodup → (l'.map Prod.fst).Nodup → (∀ n e, (n, e) ∈ l → ProperDisk e) → (∀ n e, (n, e) ∈ l' → ProperDisk e) →
    (∀ n q, ((findEntry n l).bind fun e => look e q) = (findEntry n l').bind fun e => look e q) →
    readEntries S parse plugins p l = .ok cs →
    ∃ cs', readEntries S parse plugins p l' = .ok cs' ∧ LikeAll True cs cs'
  | [], l', cs, _, _, _, _, hs, h => by
    cases h
    cases l' with
    | nil => exact ⟨[], rfl, .nil⟩
    | cons x l' =>
      obtain ⟨n, e⟩ := x
      have := hs n []
      rw [findEntry, findEntry, if_pos rfl] at this
      cases this
  | (n, e) :: l, l', cs, hn, hn', hp, hp', hs, h => by
    obtain ⟨c, cs1, h1, h2, rfl⟩ := readEntries_cons_ok.1 h
    have hfe : findEntry n ((n, e) :: l) = some e := by rw [findEntry, if_pos rfl]
    cases hf : findEntry n l' with
    | none =>
      have := hs n []
      rw [hfe, hf] at this
      cases this
    | some e' =>
      have hm := (findEntry_mem hn').1 hf
      obtain ⟨x, y, rfl⟩ := List.append_of_mem hm
      obtain ⟨c', k1, k2⟩ := readEntry_like (hp n e (.head _)) (hp' n e' hm)
        (fun q => by have := hs n q; rw [hfe, hf] at this; exact this) h1
      have hnl : n ∉ l.map Prod.fst := (List.nodup_cons.1 hn).1
      rw [List.map_append, List.map_cons] at hn'
      have hperm : (n :: (x.map Prod.fst ++ y.map Prod.fst)).Nodup := (List.perm_middle.nodup_iff).1 hn'
      obtain ⟨hnx, hxy⟩ := List.nodup_cons.1 hperm
      rw [← List.map_append] at hxy hnx
      have hfind : ∀ m, m ≠ n → findEntry m (x ++ (n, e') :: y) = findEntry m (x ++ y) := by
        intro m hmn
        clear hxy hnx hperm hn' hp' hs hf hm
        induction x with
        | nil => rw [List.nil_append, findEntry, if_neg (Ne.symm hmn)]; rfl
        | cons z x ih =>
          obtain ⟨k, v⟩ := z
          simp only [List.cons_append, findEntry]
          rw [ih]
      obtain ⟨cs2, k3, k4⟩ := readEntries_like (List.nodup_cons.1 hn).2 hxy
        (fun m v hv => hp m v (.tail _ hv))
        (fun m v hv => hp' m v (by
          rcases List.mem_append.1 hv with hv | hv
          · exact List.mem_append_left _ hv
          · exact List.mem_append_right _ (.tail _ hv)))
        (fun m q => by
          by_cases hmn : m = n
          · rw [hmn, findEntry_none.2 hnl, findEntry_none.2 hnx]
          · have := hs m q
            rw [hfind m hmn, findEntry, if_neg (Ne.symm hmn)] at this
            exact this) h2
      obtain ⟨as, bs, k5, k6, rfl⟩ := readEntries_append_ok.1 k3
      refine ⟨as ++ c' :: bs, readEntries_append_ok.2 ⟨as, c' :: bs, k5, readEntries_cons_ok.2 ⟨c', bs, k1, k6, rfl⟩, rfl⟩,
        (k2.cons k4).trans (likeAll_middle fun _ a ha => ?_)⟩
      rw [readEntry_name k1]
      intro han
      have hmem : a.name ∈ as.map Node.name := List.mem_map_of_mem ha
      rw [(readEntries_ok k5).1, han] at hmem
      exact hnx (by rw [List.map_append]; exact List.mem_append_left _ hmem)
end

theorem readTree_like {d d' : Entry} {p : Path} (hd : ProperDisk d) (hd' : ProperDisk d') (hs : SameBelow d d' p) {n : Node}
    (h : readTree S parse plugins d p = .ok n) :
    ∃ nm s cs cs', n = .dir nm cs s ∧ readTree S parse plugins d' p = .ok (.dir nm cs' s) ∧ LikeAll True cs cs' := by
  unfold readTree at h ⊢
  have sub : ∀ {x e : Entry}, ProperDisk x → x.at p = some e → ProperDisk e := by
    intro x e hx he q m hm
    exact hx (p ++ q) m (by rw [at_append, he]; exact hm)
  cases he : d.at p with
  | none => rw [he] at h; cases h
  | some e =>
    cases e with
    | file b => rw [he] at h; cases h
    | special => rw [he] at h; cases h
    | dir l =>
      rw [he] at h
      simp only at h
      obtain ⟨cs, h1, h2⟩ := Res.bind_eq_ok.1 h
      obtain ⟨nm, h3, h4⟩ := Res.bind_eq_ok.1 h2
      cases h4
      cases he' : d'.at p with
      | none => have := hs []; rw [List.append_nil, look, look, he, he'] at this; cases this
      | some e' =>
        have hq : ∀ q, look (.dir l) q = look e' q := by
          intro q
          have := hs q
          unfold look at this ⊢
          rw [at_append, at_append, he, he'] at this
          exact this
        cases e' with
        | file b => have := hq []; cases this
        | special => have := hq []; cases this
        | dir l' =>
          have hp := sub hd he
          have hp' := sub hd' he'
          obtain ⟨cs', k1, k2⟩ := readEntries_like (hp [] l rfl).1 (hp' [] l' rfl).1
            (fun n e he => properDisk_entry hp he) (fun n e he => properDisk_entry hp' he)
            (fun n q => by rw [← look_dir_cons, ← look_dir_cons]; exact hq _) h1
          refine ⟨nm, _, cs, cs', rfl, ?_, k2⟩
          simp only [k1, h3, Res.bind_ok]

/-! ### What such trees have -/

theorem holds_like {D : Prop} {cs cs' : List Node} (h : LikeAll D cs cs') : ∀ {ds n}, Holds cs ds n → ∃ n', Holds cs' ds n' ∧ Like D n n' := by
  induction h with
  | nil => intro ds n h; exact absurd h Holds_nil
  | file nm c p m s _ ih =>
    intro ds n h
    rcases Holds_cons.1 h with h | h
    · exact ⟨n, Holds_cons.2 (.inl h), like_refl _ _⟩
    · obtain ⟨n', k1, k2⟩ := ih h
      exact ⟨n', Holds_cons.2 (.inr k1), k2⟩
  | dir nm s hl _ i1 i2 =>
    intro ds n h
    rcases Holds_cons.1 h with h | h
    · rcases Holds_dir.1 h with ⟨rfl, rfl⟩ | ⟨ds', rfl, k⟩
      · exact ⟨_, .here (.head _), _, rfl, hl⟩
      · obtain ⟨n', k1, k2⟩ := i1 k
        exact ⟨n', .down (.head _) k1, k2⟩
    · obtain ⟨n', k1, k2⟩ := i2 h
      exact ⟨n', Holds_cons.2 (.inr k1), k2⟩
  | swap a b l _ =>
    intro ds n h
    refine ⟨n, ?_, like_refl _ _⟩
    rcases Holds_cons.1 h with h | h
    · exact Holds_cons.2 (.inr (Holds_cons.2 (.inl h)))
    · rcases Holds_cons.1 h with h | h
      · exact Holds_cons.2 (.inl h)
      · exact Holds_cons.2 (.inr (Holds_cons.2 (.inr h)))
  | trans _ _ i1 i2 =>
    intro ds n h
    obtain ⟨m, k1, k2⟩ := i1 h
    obtain ⟨o, k3, k4⟩ := i2 k1
    exact ⟨o, k3, k2.trans k4⟩

theorem shows_like {D : Prop} {cs cs' : List Node} (h : LikeAll D cs cs') (ds : List Str) (nm : Str) (t : Thing) :
    Shows cs ds nm t ↔ Shows cs' ds nm t := by
  have one : ∀ {as bs : List Node}, LikeAll D as bs → Shows as ds nm t → Shows bs ds nm t := by
    rintro as bs h ⟨n, h1, h2, h3⟩
    obtain ⟨n', k1, k2⟩ := holds_like h h1
    refine ⟨n', k1, by rw [← k2.name]; exact h2, ?_⟩
    rw [← h3]
    cases n with
    | file => cases k2; rfl
    | dir => obtain ⟨_, rfl, _⟩ := k2; rfl
  exact ⟨one h, one h.symm⟩

theorem goes_shows {cfg : Config} {cs cs' : List Node} (h : ∀ ds nm t, Shows cs ds nm t → Shows cs' ds nm t) {r : Path} {b : Bytes}
    (hg : Goes cfg cs r b) : Goes cfg cs' r b := by
  have file : ∀ {ds nm b p m s}, Holds cs ds (.file nm b p m s) → Holds cs' ds (.file nm b p m s) := by
    intro ds nm b p m s hh
    obtain ⟨n, h1, h2, h3⟩ := h ds nm (.file b p m s) ⟨_, hh, rfl, rfl⟩
    cases n with
    | file => cases h2; cases h3; exact h1
    | dir => cases h3
  cases hg with
  | plain h1 h2 h3 => exact .plain (file h1) h2 h3
  | page h1 h2 h3 => exact .page (file h1) h2 h3

theorem goesDir_shows {cfg : Config} {cs cs' : List Node} (h : ∀ ds nm t, Shows cs ds nm t → Shows cs' ds nm t) {r : Path}
    (hg : GoesDir cfg cs r) : GoesDir cfg cs' r := by
  cases hg with
  | dir hh =>
    obtain ⟨n, h1, h2, h3⟩ := h _ _ .dir ⟨_, hh, rfl, rfl⟩
    cases n with
    | file => cases h3
    | dir => cases h2; exact .dir h1
  | page h1 h2 h3 =>
    obtain ⟨n, k1, k2, k3⟩ := h _ _ _ ⟨_, h1, rfl, rfl⟩
    cases n with
    | file => cases k2; cases k3; exact .page k1 h2 h3
    | dir => cases k3

/-- Reading and building disks that are listed in different orders. -/
theorem readBuild_like {d d' : Entry} {mode : Str} {s : Project} (hd : ProperDisk d) (hd' : ProperDisk d') (hs : SameBelow d d' s.dir)
    {nm src : Str} {cs os : List Node} (ht : readTree S true s.plugins d s.dir = .ok (.dir nm cs src)) (ho : Orderly nm cs src)
    (h : readBuild S d mode s = .ok (.dir nm os src)) :
    ∃ os', readBuild S d' mode s = .ok (.dir nm os' src) ∧ LikeAll False os os' := by
  obtain ⟨nm1, src1, cs1, cs', e, h1, h2⟩ := readTree_like hd hd' hs ht
  cases e
  unfold readBuild at h ⊢
  rw [ht] at h
  rw [h1]
  simp only [Res.bind_ok] at h ⊢
  obtain ⟨mid, k1, k2⟩ := Res.bind_eq_ok.1 h
  have hloops : ToksAll (LoopOk (.dir nm cs src)) cs := by
    refine toksAll_holds cs fun ds m t hm hmt f hf hk d' ms s' hg => ?_
    obtain ⟨p, ps, hsl, he⟩ := exists_slashed f.source
    rw [he, getAtPath_reaches _ _ _ _ hsl] at hg
    exact ho ds m t f hm hmt hf hk p ps d' ms s' hsl hg.1 he hg.2
  obtain ⟨mid', out', j1, j2, j3⟩ := build_like h2 hloops k1 k2
  obtain ⟨os', rfl, j4⟩ := j3
  exact ⟨os', Res.bind_eq_ok.2 ⟨mid', j1, j2⟩, j4⟩

end Stuart
