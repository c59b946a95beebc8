import Verif.Spec.ReadFail
import Verif.Proof.Kinds
import Verif.Proof.Build
import Verif.Proof.Errors
import Verif.Proof.OrderRead
/-
Reading as a sequence of readings of the files.
-/
namespace Stuart
open Spec

theorem Res.bind_eq_panic {ε α β : Type} {x : Res ε α} {f : α → Res ε β} {p : Panic} :
    x.bind f = .panic p ↔ x = .panic p ∨ ∃ a, x = .ok a ∧ f a = .panic p := by
  cases x <;> simp

theorem Res.mapErr_eq_panic {ε ε' α : Type} {g : ε → ε'} {x : Res ε α} {p : Panic} :
    x.mapErr g = .panic p ↔ x = .panic p := by cases x <;> simp

theorem Res.ofOption_ne_panic {ε α : Type} {e : ε} {o : Option α} {p : Panic} : (Res.ofOption e o : Res ε α) ≠ .panic p := by
  cases o <;> simp

variable {S : Sys} {plugins : List Plugin}

theorem parseContents_err {name src : Str} {b : Bytes} {x : SErr} :
    parseContents S plugins name src b = .err x ↔ ReadFails S plugins name src b x := by
  constructor
  · intro h
    unfold parseContents at h
    split at h
    · cases h
    · rename_i e he
      rw [extension_iff] at he
      have none_of : ∀ {y : SErr}, (Res.ofOption y (fromUtf8 b) : Res SErr Str) = .err x → (¬ ∃ s, fromUtf8 b = some s) ∧ y = x := by
        intro y h
        obtain ⟨h1, h2⟩ := Res.ofOption_eq_err.1 h
        exact ⟨by rw [h1]; simp, h2⟩
      split at h
      · rename_i hh; subst hh
        rcases Res.bind_eq_err.1 h with h | ⟨s, h1, h⟩
        · obtain ⟨h1, rfl⟩ := none_of h; exact .text (.inl he) h1
        · rcases Res.bind_eq_err.1 h with h | ⟨_, _, h⟩
          · obtain ⟨d, h2, rfl⟩ := Res.mapErr_eq_err.1 h
            exact .html he (Res.ofOption_eq_ok.1 h1) h2
          · cases h
      · split at h
        · rename_i hh; subst hh
          rcases Res.bind_eq_err.1 h with h | ⟨s, h1, h⟩
          · obtain ⟨h1, rfl⟩ := none_of h; exact .text (.inr (.inl he)) h1
          · rcases Res.bind_eq_err.1 h with h | ⟨_, _, h⟩
            · obtain ⟨d, h2, rfl⟩ := Res.mapErr_eq_err.1 h
              exact .markdown he (Res.ofOption_eq_ok.1 h1) h2
            · cases h
        · split at h
          · rename_i hh; subst hh
            rcases Res.bind_eq_err.1 h with h | ⟨s, h1, h⟩
            · obtain ⟨h1, rfl⟩ := none_of h; exact .text (.inr (.inr he)) h1
            · rcases Res.bind_eq_err.1 h with h | ⟨_, _, h⟩
              · obtain ⟨h2, rfl⟩ := Res.ofOption_eq_err.1 h
                exact .json he (Res.ofOption_eq_ok.1 h1) h2
              · cases h
          · rename_i n1 n2 n3
            split at h
            · cases h
            · rename_i q hf
              rcases Res.bind_eq_err.1 h with h | ⟨_, _, h⟩
              · obtain ⟨d, h2, rfl⟩ := Res.mapErr_eq_err.1 h
                exact .custom he n1 n2 n3 (findParser_some.1 hf) h2
              · cases h
  · intro h
    unfold parseContents
    cases h with
    | text he hn =>
      have hn : fromUtf8 b = none := by
        cases hx : fromUtf8 b with
        | none => rfl
        | some s => exact absurd ⟨s, hx⟩ hn
      rcases he with he | he | he
      · simp only [extension_iff.2 he, if_true, hn]; rfl
      · simp only [extension_iff.2 he]
        rw [if_neg (by decide)]; simp only [if_true, hn]; rfl
      · simp only [extension_iff.2 he]
        rw [if_neg (by decide), if_neg (by decide)]; simp only [if_true, hn]; rfl
    | html he h1 h2 =>
      simp only [extension_iff.2 he, if_true]
      rw [h1]; simp only [Res.ofOption, Res.bind_ok, Res.mapErr, h2, Res.bind_err]
    | markdown he h1 h2 =>
      simp only [extension_iff.2 he, if_true]
      rw [if_neg (by decide), h1]; simp only [Res.ofOption, Res.bind_ok, Res.mapErr, h2, Res.bind_err]
    | json he h1 h2 =>
      simp only [extension_iff.2 he, if_true]
      rw [if_neg (by decide), if_neg (by decide), h1]; simp only [Res.ofOption, Res.bind_ok, h2, Res.bind_err]
    | custom he n1 n2 n3 hf h1 =>
      simp only [extension_iff.2 he]
      rw [if_neg n1, if_neg n2, if_neg n3]
      simp only [findParser_some.2 hf, h1, Res.mapErr, Res.bind_err]

theorem parseContents_panic {name src : Str} {b : Bytes} {x : Panic} :
    parseContents S plugins name src b = .panic x ↔ ReadPanics S plugins name src b x := by
  constructor
  · intro h
    unfold parseContents at h
    split at h
    · cases h
    · rename_i e he
      rw [extension_iff] at he
      split at h
      · rename_i hh; subst hh
        rcases Res.bind_eq_panic.1 h with h | ⟨s, h1, h⟩
        · exact absurd h Res.ofOption_ne_panic
        · rcases Res.bind_eq_panic.1 h with h | ⟨_, _, h⟩
          · exact .html he (Res.ofOption_eq_ok.1 h1) (Res.mapErr_eq_panic.1 h)
          · cases h
      · split at h
        · rename_i hh; subst hh
          rcases Res.bind_eq_panic.1 h with h | ⟨s, h1, h⟩
          · exact absurd h Res.ofOption_ne_panic
          · rcases Res.bind_eq_panic.1 h with h | ⟨_, _, h⟩
            · exact .markdown he (Res.ofOption_eq_ok.1 h1) (Res.mapErr_eq_panic.1 h)
            · cases h
        · split at h
          · rename_i hh; subst hh
            rcases Res.bind_eq_panic.1 h with h | ⟨s, h1, h⟩
            · exact absurd h Res.ofOption_ne_panic
            · rcases Res.bind_eq_panic.1 h with h | ⟨_, _, h⟩
              · exact absurd h Res.ofOption_ne_panic
              · cases h
          · rename_i n1 n2 n3
            split at h
            · cases h
            · rename_i q hf
              rcases Res.bind_eq_panic.1 h with h | ⟨_, _, h⟩
              · exact .custom he n1 n2 n3 (findParser_some.1 hf) (Res.mapErr_eq_panic.1 h)
              · cases h
  · intro h
    unfold parseContents
    cases h with
    | html he h1 h2 =>
      simp only [extension_iff.2 he, if_true]
      rw [h1]; simp only [Res.ofOption, Res.bind_ok, Res.mapErr, h2, Res.bind_panic]
    | markdown he h1 h2 =>
      simp only [extension_iff.2 he, if_true]
      rw [if_neg (by decide), h1]; simp only [Res.ofOption, Res.bind_ok, Res.mapErr, h2, Res.bind_panic]
    | custom he n1 n2 n3 hf h1 =>
      simp only [extension_iff.2 he]
      rw [if_neg n1, if_neg n2, if_neg n3]
      simp only [findParser_some.2 hf, h1, Res.mapErr, Res.bind_panic]

/-- What comes of reading one leaf. -/
def leafVerdict (S : Sys) (plugins : List Plugin) (x : Path × Str × Entry) : Res SErr Unit :=
  match x.2.2 with
  | .file b => verdict (parseContents S plugins x.2.1 (pathStr (x.1 ++ [x.2.1])) b)
  | _ => .err (.fs .read)

mutual
theorem readEntry_verdict {d : Path} {n : Str} : ∀ (e : Entry),
    verdict (readEntry S true plugins (d ++ [n]) n e) = allOk ((leavesAt d n e).map (leafVerdict S plugins))
  | .file b => by
    rw [readEntry, readFile, if_pos rfl, verdict_bind, leavesAt]
    simp only [List.map_cons, List.map_nil, allOk, leafVerdict]
    cases parseContents S plugins n (pathStr (d ++ [n])) b <;> rfl
  | .special => rfl
  | .dir l => by rw [readEntry, verdict_bind, leavesAt, readEntries_verdict l]
theorem readEntries_verdict {d : Path} : ∀ (l : List (Str × Entry)),
    verdict (readEntries S true plugins d l) = allOk ((leavesIn d l).map (leafVerdict S plugins))
  | [] => rfl
  | (n, e) :: l => by
    rw [readEntries, leavesIn, List.map_append, allOk_append, ← readEntry_verdict e, ← readEntries_verdict l]
    cases readEntry S true plugins (d ++ [n]) n e with
    | ok c => cases readEntries S true plugins d l <;> rfl
    | err x => rfl
    | panic p => rfl
end

theorem leafVerdict_ok {x : Path × Str × Entry} (hx : ∀ l, x.2.2 ≠ .dir l) : leafVerdict S plugins x = .ok () ↔ LeafReads S plugins x := by
  obtain ⟨d, n, e⟩ := x
  unfold leafVerdict LeafReads
  cases e with
  | file b =>
    simp only [verdict_ok, parseContents_ok]
    constructor
    · rintro ⟨c, h⟩; exact ⟨b, c, rfl, h⟩
    · rintro ⟨b', c, h0, h⟩; cases h0; exact ⟨c, h⟩
  | dir l => exact absurd rfl (hx l)
  | special => simp

theorem leafVerdict_err {x : Path × Str × Entry} (hx : ∀ l, x.2.2 ≠ .dir l) {e : SErr} :
    leafVerdict S plugins x = .err e ↔ LeafFails S plugins x e := by
  obtain ⟨d, n, f⟩ := x
  unfold leafVerdict LeafFails
  cases f with
  | file b =>
    simp only [verdict_err, parseContents_err]
    constructor
    · intro h; exact .inr ⟨b, rfl, h⟩
    · rintro (⟨h, _⟩ | ⟨b', h0, h⟩)
      · cases h
      · cases h0; exact h
  | dir l => exact absurd rfl (hx l)
  | special =>
    simp only [true_and]
    constructor
    · intro h; cases h; exact .inl rfl
    · rintro (rfl | ⟨_, h, _⟩)
      · rfl
      · cases h

theorem leafVerdict_panic {x : Path × Str × Entry} {p : Panic} : leafVerdict S plugins x = .panic p ↔ LeafPanics S plugins x p := by
  obtain ⟨d, n, f⟩ := x
  unfold leafVerdict LeafPanics
  cases f with
  | file b =>
    simp only [verdict_panic, parseContents_panic]
    constructor
    · intro h; exact ⟨b, rfl, h⟩
    · rintro ⟨b', h0, h⟩; cases h0; exact h
  | dir l => simp
  | special => simp

mutual
theorem leavesAt_leaf {d : Path} {n : Str} : ∀ (e : Entry), ∀ x ∈ leavesAt d n e, ∀ l, x.2.2 ≠ .dir l
  | .file b => by intro x hx l; rw [leavesAt, List.mem_singleton] at hx; subst hx; simp
  | .special => by intro x hx l; rw [leavesAt, List.mem_singleton] at hx; subst hx; simp
  | .dir l => by rw [leavesAt]; exact leavesIn_leaf l
theorem leavesIn_leaf {d : Path} : ∀ (l : List (Str × Entry)), ∀ x ∈ leavesIn d l, ∀ l', x.2.2 ≠ .dir l'
  | [] => by intro x hx; rw [leavesIn] at hx; cases hx
  | (n, e) :: l => by
    intro x hx
    rw [leavesIn, List.mem_append] at hx
    exact hx.elim (leavesAt_leaf e x) (leavesIn_leaf l x)
end

mutual
/-- The leaves are what is on the disk. -/
theorem mem_leavesAt {d : Path} {n : Str} : ∀ (e : Entry), ProperDisk e → ∀ x, x ∈ leavesAt d n e ↔
    (∀ l, x.2.2 ≠ .dir l) ∧ ∃ q, e.at q = some x.2.2 ∧ d ++ [n] ++ q = x.1 ++ [x.2.1]
  | .file b, _, x => by
    obtain ⟨d', n', f⟩ := x
    rw [leavesAt, List.mem_singleton]
    constructor
    · intro h; cases h; exact ⟨by simp, [], rfl, by simp⟩
    · rintro ⟨_, q, h1, h2⟩
      cases q with
      | nil =>
        cases h1
        simp only [List.append_nil] at h2
        obtain ⟨rfl, h3⟩ := List.append_inj' h2 rfl
        cases h3; rfl
      | cons => cases h1
  | .special, _, x => by
    obtain ⟨d', n', f⟩ := x
    rw [leavesAt, List.mem_singleton]
    constructor
    · intro h; cases h; exact ⟨by simp, [], rfl, by simp⟩
    · rintro ⟨_, q, h1, h2⟩
      cases q with
      | nil =>
        cases h1
        simp only [List.append_nil] at h2
        obtain ⟨rfl, h3⟩ := List.append_inj' h2 rfl
        cases h3; rfl
      | cons => cases h1
  | .dir l, hd, x => by
    rw [leavesAt, mem_leavesIn l (fun n e he => properDisk_entry hd he)]
    constructor
    · rintro ⟨h1, m, e, q, h2, h3, h4⟩
      refine ⟨h1, m :: q, ?_, ?_⟩
      · rw [Entry.at, (findEntry_mem (hd [] l rfl).1).2 h2]; exact h3
      · rw [← h4]; simp
    · rintro ⟨h1, q, h2, h3⟩
      refine ⟨h1, ?_⟩
      cases q with
      | nil => exact absurd (Option.some.inj h2).symm (h1 l)
      | cons m q =>
        rw [Entry.at] at h2
        cases hf : findEntry m l with
        | none => rw [hf] at h2; cases h2
        | some e =>
          rw [hf] at h2
          exact ⟨m, e, q, (findEntry_mem (hd [] l rfl).1).1 hf, h2, by rw [← h3]; simp⟩
theorem mem_leavesIn {d : Path} : ∀ (l : List (Str × Entry)), (∀ n e, (n, e) ∈ l → ProperDisk e) → ∀ x, x ∈ leavesIn d l ↔
    (∀ l', x.2.2 ≠ .dir l') ∧ ∃ n e q, (n, e) ∈ l ∧ e.at q = some x.2.2 ∧ d ++ [n] ++ q = x.1 ++ [x.2.1]
  | [], _, x => by rw [leavesIn]; simp
  | (n, e) :: l, hd, x => by
    rw [leavesIn, List.mem_append, mem_leavesAt e (hd n e (.head _)), mem_leavesIn l (fun n e he => hd n e (.tail _ he))]
    constructor
    · rintro (⟨h1, q, h2, h3⟩ | ⟨h1, n', e', q, h0, h2, h3⟩)
      · exact ⟨h1, n, e, q, .head _, h2, h3⟩
      · exact ⟨h1, n', e', q, .tail _ h0, h2, h3⟩
    · rintro ⟨h1, n', e', q, h0, h2, h3⟩
      rcases List.mem_cons.1 h0 with h0 | h0
      · cases h0; exact .inl ⟨h1, q, h2, h3⟩
      · exact .inr ⟨h1, n', e', q, h0, h2, h3⟩
end

end Stuart
