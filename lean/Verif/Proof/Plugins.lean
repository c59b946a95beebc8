import Verif.Model.Plugins
import Verif.Proof.Scope
import Verif.Proof.Kinds
/-
Lemmas on the plugin loader.
-/
namespace Stuart
open Spec

/-- A text put together from pieces. -/
def sepBy (d : Char) (p : Str) (ps : List Str) : Str := p ++ ps.flatMap fun q => d :: q

theorem splitOn_sepBy (d : Char) : ∀ (ps : List Str) (p : Str), d ∉ p → (∀ q ∈ ps, d ∉ q) →
    splitOn d (sepBy d p ps) = p :: ps
  | [], p, h, _ => by simp only [sepBy, List.flatMap_nil, List.append_nil]; exact splitOn_nodot _ _ h
  | q :: qs, p, h, hq => by
    have : sepBy d p (q :: qs) = p ++ d :: sepBy d q qs := by simp [sepBy]
    rw [this, splitOn_cons_sep _ _ _ h, splitOn_sepBy d qs q (hq q (by simp)) fun r hr => hq r (by simp [hr])]

theorem sepBy_splitOn (d : Char) (s : Str) {p : Str} {ps : List Str} (h : splitOn d s = p :: ps) : sepBy d p ps = s := by
  induction s generalizing p ps with
  | nil => cases h; rfl
  | cons c cs ih =>
    rw [splitOn] at h
    split at h
    · rename_i hc
      cases h
      cases hk : splitOn d cs with
      | nil => exact absurd hk (splitOn_ne_nil d cs)
      | cons q qs =>
        have := ih hk
        simp only [sepBy, List.nil_append, List.flatMap_cons, List.cons_append] at this ⊢
        rw [this, hc]
    · cases hk : splitOn d cs with
      | nil => exact absurd hk (splitOn_ne_nil d cs)
      | cons q qs =>
        rw [hk] at h
        cases h
        have := ih hk
        simp only [sepBy, List.cons_append] at this ⊢
        rw [this]

theorem lastPiece_suffix (s : Str) : lastPiece s <:+ s := by
  unfold lastPiece
  induction s with
  | nil => exact ⟨[], rfl⟩
  | cons c cs ih =>
    rw [splitOn]
    cases hk : splitOn '/' cs with
    | nil => exact absurd hk (splitOn_ne_nil '/' cs)
    | cons q qs =>
      rw [hk] at ih
      split
      · simp only [List.getLast?_cons_cons]
        exact ih.trans (List.suffix_cons c cs)
      · simp only
        cases qs with
        | nil =>
          simp only [List.getLast?_singleton, Option.getD_some] at ih ⊢
          have hs := sepBy_splitOn '/' cs hk
          simp only [sepBy, List.flatMap_nil, List.append_nil] at hs
          rw [hs]
          exact ⟨[], rfl⟩
        | cons r rs =>
          simp only [List.getLast?_cons_cons] at ih ⊢
          exact ih.trans (List.suffix_cons c cs)

theorem ext_suffix {name e : Str} (h : extension name = some e) : ('.' :: e) <:+ name := by
  unfold extension at h
  split at h
  · cases h
  · cases h
  · rename_i r v hv hs
    cases h
    have := splitFirst_some hs
    exact ⟨v.reverse, by
      have h2 := congrArg List.reverse this
      rw [List.reverse_reverse] at h2
      rw [h2]; simp⟩

theorem loadBinary_one {O : Outside} {p : Path} {s t : LoadSt} {ps : List Plugin}
    (h : loadBinary O p s = (t, .ok ps)) : ∃ q, ps = [q] := by
  unfold loadBinary at h
  simp only at h
  split at h
  · cases h; exact ⟨_, rfl⟩
  · cases h

theorem andThen_ok {α β : Type} {r : LoadSt × Res LoadErr α} {f : α → LoadSt → LoadSt × Res LoadErr β} {t : LoadSt} {b : β}
    (h : LoadSt.andThen r f = (t, .ok b)) : ∃ s a, r = (s, .ok a) ∧ f a s = (t, .ok b) := by
  obtain ⟨s, r⟩ := r
  cases r with
  | ok a => exact ⟨s, a, rfl, h⟩
  | err e => cases h
  | panic p => cases h

theorem managerLoad_one {O : Outside} {p : Path} {src : Str} {s t : LoadSt} {ps : List Plugin}
    (hs : skipsSource O src = false) (h : managerLoad O p (lastPiece src) s = (t, .ok ps)) : ∃ q, ps = [q] := by
  unfold managerLoad at h
  split at h
  · rename_i he
    cases hj : O.js with
    | true =>
      rw [hj] at h
      simp only [if_true] at h
      split at h
      · cases h; exact ⟨_, rfl⟩
      · cases h
    | false =>
      exfalso
      unfold skipsSource at hs
      simp only [hj, Bool.not_false, Bool.true_and, Bool.or_eq_false_iff] at hs
      rcases he with he | he
      · have := (ext_suffix he).trans (lastPiece_suffix src)
        simp only [endsWith] at hs
        rw [List.isSuffixOf_iff_suffix.2 this] at hs
        simp at hs
      · have := (ext_suffix he).trans (lastPiece_suffix src)
        simp only [endsWith] at hs
        rw [List.isSuffixOf_iff_suffix.2 this] at hs
        simp at hs
  · exact loadBinary_one h

/-- A source that loads adds one plugin. -/
theorem loadFromSource_one {O : Outside} {root : Path} {name src : Str} {s t : LoadSt} {ps : List Plugin}
    (hs : skipsSource O src = false) (h : loadFromSource O root name src s = (t, .ok ps)) : ∃ q, ps = [q] := by
  unfold loadFromSource at h
  simp only at h
  split at h
  · exact managerLoad_one hs h
  · split at h
    · obtain ⟨_, _, _, h⟩ := andThen_ok h
      exact loadBinary_one h
    · split at h
      · unfold loadGit fetchRepo at h
        obtain ⟨_, _, _, h⟩ := andThen_ok h
        split at h
        · cases h
        · obtain ⟨_, _, _, h⟩ := andThen_ok h
          exact loadBinary_one h
      · split at h
        · unfold loadDownload at h
          simp only at h
          repeat' split at h
          all_goals first | exact managerLoad_one hs h | cases h
        · cases h

end Stuart

namespace Stuart
open Spec

theorem findProjectIn_some {O : Outside} {name : Str} {p q : Path} {l : List (Str × Entry)}
    (h : findProjectIn O name p l = some q) :
    (∃ b, (str!"Cargo.toml", Entry.file b) ∈ l ∧ (fromUtf8 b).bind O.packageName = some name ∧ q = p) ∨
    ∃ n es, (n, Entry.dir es) ∈ l ∧ findProject O name (p ++ [n]) (.dir es) = some q := by
  induction l with
  | nil => rw [findProjectIn] at h; cases h
  | cons x l ih =>
    have up : ((∃ b, (str!"Cargo.toml", Entry.file b) ∈ l ∧ (fromUtf8 b).bind O.packageName = some name ∧ q = p) ∨
        ∃ n es, (n, Entry.dir es) ∈ l ∧ findProject O name (p ++ [n]) (.dir es) = some q) →
        ((∃ b, (str!"Cargo.toml", Entry.file b) ∈ x :: l ∧ (fromUtf8 b).bind O.packageName = some name ∧ q = p) ∨
        ∃ n es, (n, Entry.dir es) ∈ x :: l ∧ findProject O name (p ++ [n]) (.dir es) = some q) := by
      rintro (⟨b, k1, k2⟩ | ⟨n, es, k1, k2⟩)
      · exact .inl ⟨b, List.mem_cons_of_mem _ k1, k2⟩
      · exact .inr ⟨n, es, List.mem_cons_of_mem _ k1, k2⟩
    obtain ⟨n, e⟩ := x
    cases e with
    | file b =>
      rw [findProjectIn] at h
      split at h
      · rename_i hc
        cases h
        exact .inl ⟨b, by rw [hc.1]; exact List.mem_cons_self, hc.2, rfl⟩
      · exact up (ih h)
    | dir es =>
      rw [findProjectIn] at h
      split at h
      · rename_i q' hq
        cases h
        exact .inr ⟨n, es, List.mem_cons_self, hq⟩
      · exact up (ih h)
    | special => rw [findProjectIn] at h; exact up (ih h)

theorem findProjectIn_none {O : Outside} {name : Str} {p : Path} {l : List (Str × Entry)}
    (h : findProjectIn O name p l = none) :
    (∀ b, (str!"Cargo.toml", Entry.file b) ∈ l → (fromUtf8 b).bind O.packageName ≠ some name) ∧
    ∀ n es, (n, Entry.dir es) ∈ l → findProject O name (p ++ [n]) (.dir es) = none := by
  induction l with
  | nil => exact ⟨fun _ h => by simp at h, fun _ _ h => by simp at h⟩
  | cons x l ih =>
    obtain ⟨n, e⟩ := x
    cases e with
    | file b =>
      rw [findProjectIn] at h
      split at h
      · cases h
      · rename_i hc
        obtain ⟨k1, k2⟩ := ih h
        refine ⟨fun b' hb k => ?_, fun n' es hn => ?_⟩
        · rcases List.mem_cons.1 hb with hb | hb
          · cases hb; exact hc ⟨rfl, k⟩
          · exact k1 _ hb k
        · rcases List.mem_cons.1 hn with hn | hn
          · cases hn
          · exact k2 _ _ hn
    | dir es =>
      rw [findProjectIn] at h
      split at h
      · cases h
      · rename_i hc
        obtain ⟨k1, k2⟩ := ih h
        refine ⟨fun b' hb k => ?_, fun n' es' hn => ?_⟩
        · rcases List.mem_cons.1 hb with hb | hb
          · cases hb
          · exact k1 _ hb k
        · rcases List.mem_cons.1 hn with hn | hn
          · cases hn; exact hc
          · exact k2 _ _ hn
    | special =>
      rw [findProjectIn] at h
      obtain ⟨k1, k2⟩ := ih h
      refine ⟨fun b' hb k => ?_, fun n' es' hn => ?_⟩
      · rcases List.mem_cons.1 hb with hb | hb
        · cases hb
        · exact k1 _ hb k
      · rcases List.mem_cons.1 hn with hn | hn
        · cases hn
        · exact k2 _ _ hn

theorem properDisk_sub {l : List (Str × Entry)} (h : ProperDisk (.dir l)) {n : Str} {e : Entry} (he : (n, e) ∈ l) :
    ProperDisk e := by
  intro p l' hp
  have := (findEntry_mem (h [] l rfl).1).2 he
  exact h (n :: p) l' (by rw [Entry.at, this]; exact hp)

theorem findProject_some {O : Outside} {name : Str} {p q : Path} {e : Entry} (hd : ProperDisk e)
    (h : findProject O name p e = some q) :
    ∃ r b, q = p ++ r ∧ e.at (r ++ [str!"Cargo.toml"]) = some (.file b) ∧ (fromUtf8 b).bind O.packageName = some name := by
  cases e with
  | file b => rw [findProject] at h; cases h
  | special => rw [findProject] at h; cases h
  | dir l =>
    rw [findProject] at h
    rcases findProjectIn_some h with ⟨b, k1, k2, k3⟩ | ⟨n, es, k1, k2⟩
    · have := (findEntry_mem (hd [] l rfl).1).2 k1
      exact ⟨[], b, by simp [k3], by simp [Entry.at, this], k2⟩
    · have hlt := List.sizeOf_lt_of_mem k1
      have hf := (findEntry_mem (hd [] l rfl).1).2 k1
      obtain ⟨r, b, g1, g2, g3⟩ := findProject_some (properDisk_sub hd k1) k2
      exact ⟨n :: r, b, by rw [g1]; simp, by simp [Entry.at, hf, g2], g3⟩
termination_by sizeOf e
decreasing_by
  subst_vars
  simp only [Entry.dir.sizeOf_spec, Prod.mk.sizeOf_spec] at *
  omega

theorem findProject_none {O : Outside} {name : Str} {p : Path} {e : Entry} (hd : ProperDisk e)
    (h : findProject O name p e = none) (r : Path) (b : Bytes) (hb : e.at (r ++ [str!"Cargo.toml"]) = some (.file b)) :
    (fromUtf8 b).bind O.packageName ≠ some name := by
  induction r generalizing p e with
  | nil =>
    cases e with
    | file b => simp [Entry.at] at hb
    | special => simp [Entry.at] at hb
    | dir l =>
      rw [findProject] at h
      refine (findProjectIn_none h).1 b ((findEntry_mem (hd [] l rfl).1).1 ?_)
      simp only [List.nil_append, Entry.at] at hb
      split at hb
      · rename_i e' he
        cases hb; exact he
      · cases hb
  | cons n r ih =>
    cases e with
    | file b => simp [Entry.at] at hb
    | special => simp [Entry.at] at hb
    | dir l =>
      rw [findProject] at h
      simp only [List.cons_append, Entry.at] at hb
      split at hb
      · rename_i e' he
        have hm := (findEntry_mem (hd [] l rfl).1).1 he
        cases e' with
        | file c => cases r <;> simp [Entry.at] at hb
        | special => cases r <;> simp [Entry.at] at hb
        | dir es => exact ih (properDisk_sub hd hm) ((findProjectIn_none h).2 n es hm) hb
      · cases hb

end Stuart
