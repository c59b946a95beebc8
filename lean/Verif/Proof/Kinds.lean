import Verif.Proof.Read
import Verif.Proof.Markdown
/-
What files are read as.
-/
namespace Stuart
open Spec

theorem extension_iff {name e : Str} : extension name = some e ↔ HasExt name e := by
  constructor
  · intro h
    unfold extension at h
    split at h
    · cases h
    · cases h
    · rename_i r rest hn hs
      cases h
      have h1 := splitFirst_some hs
      have h2 := splitFirst_fst (d := '.') name.reverse
      rw [hs] at h2
      refine ⟨rest.reverse, ?_, ?_, by simpa using h2⟩
      · intro hc
        rw [List.reverse_eq_nil_iff] at hc
        exact hn hc
      · have := congrArg List.reverse h1
        simpa using this
  · rintro ⟨stem, h1, rfl, h2⟩
    have hr : (stem ++ '.' :: e).reverse = e.reverse ++ '.' :: stem.reverse := by simp
    have hs : splitFirst '.' (stem ++ '.' :: e).reverse = (e.reverse, some stem.reverse) := by
      rw [hr]; exact splitFirst_append _ _ _ (by simpa using h2)
    unfold extension
    split
    · rename_i hc; rw [hs] at hc; cases hc
    · rename_i hc; rw [hs] at hc; simp at hc; exact absurd hc.2 h1
    · rename_i hc; rw [hs] at hc; simp at hc; rw [← hc.1]; simp

theorem HasExt_unique {name e e' : Str} (h : HasExt name e) (h' : HasExt name e') : e = e' := by
  have h1 := extension_iff.2 h
  rw [extension_iff.2 h'] at h1
  cases h1; rfl

theorem find?_flatMap {α β : Type} {f : α → List β} {p : β → Bool} {l : List α} {b : β} :
    (l.flatMap f).find? p = some b ↔ ∃ l1 a l2 c1 c2, l = l1 ++ a :: l2 ∧ f a = c1 ++ b :: c2 ∧ p b = true ∧
      (∀ b' ∈ c1, p b' = false) ∧ ∀ a' ∈ l1, ∀ b' ∈ f a', p b' = false := by
  induction l with
  | nil => simp
  | cons x l ih =>
    rw [List.flatMap_cons, List.find?_append]
    cases hx : (f x).find? p with
    | some b' =>
      simp only [Option.some_or, Option.some.injEq]
      constructor
      · rintro rfl
        rw [List.find?_eq_some_iff_append] at hx
        obtain ⟨h1, c1, c2, h2, h3⟩ := hx
        exact ⟨[], x, l, c1, c2, rfl, h2, h1, by simpa using h3, by simp⟩
      · rintro ⟨l1, a, l2, c1, c2, h1, h2, h3, h4, h5⟩
        cases l1 with
        | nil =>
          simp only [List.nil_append, List.cons.injEq] at h1
          obtain ⟨rfl, rfl⟩ := h1
          have := (List.find?_eq_some_iff_append (p := p) (xs := f x) (b := b)).2 ⟨h3, c1, c2, h2, by simpa using h4⟩
          rw [this] at hx; cases hx; rfl
        | cons y l1 =>
          simp only [List.cons_append, List.cons.injEq] at h1
          obtain ⟨rfl, rfl⟩ := h1
          have := h5 x (.head _) b' (List.mem_of_find?_eq_some hx)
          rw [List.find?_some hx] at this; cases this
    | none =>
      simp only [Option.none_or]
      rw [List.find?_eq_none] at hx
      rw [ih]
      constructor
      · rintro ⟨l1, a, l2, c1, c2, rfl, h2, h3, h4, h5⟩
        refine ⟨x :: l1, a, l2, c1, c2, rfl, h2, h3, h4, ?_⟩
        intro a' ha' b' hb'
        rcases List.mem_cons.1 ha' with rfl | ha'
        · simpa using hx b' hb'
        · exact h5 a' ha' b' hb'
      · rintro ⟨l1, a, l2, c1, c2, h1, h2, h3, h4, h5⟩
        cases l1 with
        | nil =>
          simp only [List.nil_append, List.cons.injEq] at h1
          obtain ⟨rfl, rfl⟩ := h1
          exact absurd h3 (hx b (by rw [h2]; simp))
        | cons y l1 =>
          simp only [List.cons_append, List.cons.injEq] at h1
          obtain ⟨rfl, rfl⟩ := h1
          exact ⟨l1, a, l2, c1, c2, rfl, h2, h3, h4, fun a' ha' => h5 a' (.tail _ ha')⟩

theorem findParser_some {plugins : List Plugin} {e : Str} {q : NodeParser} :
    findParser plugins e = some q ↔ FirstParser plugins e q := by
  rw [findParser, find?_flatMap]
  constructor
  · rintro ⟨l1, a, l2, c1, c2, h1, h2, h3, h4, h5⟩
    exact ⟨l1, a, l2, c1, c2, h1, h2, by simpa using h3, by simpa using h4, by simpa using h5⟩
  · rintro ⟨l1, a, l2, c1, c2, h1, h2, h3, h4, h5⟩
    exact ⟨l1, a, l2, c1, c2, h1, h2, by simpa using h3, by simpa using h4, by simpa using h5⟩

theorem findParser_none {plugins : List Plugin} {e : Str} :
    findParser plugins e = none ↔ ∀ p ∈ plugins, ∀ q ∈ p.parsers, e ∉ q.extensions := by
  rw [findParser, List.find?_eq_none]
  simp only [List.mem_flatMap, forall_exists_index, and_imp, List.contains_iff_mem]
  constructor
  · intro h p hp q hq; exact h q p hp hq
  · intro h q p hp hq; exact h p hp q hq

theorem parseContents_ok {S : Sys} {plugins : List Plugin} {name src : Str} {b : Bytes} {c : Parsed} :
    parseContents S plugins name src b = .ok c ↔ ReadAs S plugins name src b c := by
  constructor
  · intro h
    unfold parseContents at h
    split at h
    · rename_i he
      cases h
      refine .other fun e hx => ?_
      rw [extension_iff.2 hx] at he; cases he
    · rename_i e he
      rw [extension_iff] at he
      split at h
      · rename_i hh; subst hh
        obtain ⟨s, h1, h⟩ := Res.bind_eq_ok.1 h
        obtain ⟨t, h2, h⟩ := Res.bind_eq_ok.1 h
        cases h
        exact .html he (Res.ofOption_eq_ok.1 h1) (Res.mapErr_eq_ok.1 h2)
      · split at h
        · rename_i hh; subst hh
          obtain ⟨s, h1, h⟩ := Res.bind_eq_ok.1 h
          obtain ⟨t, h2, h⟩ := Res.bind_eq_ok.1 h
          cases h
          exact .markdown he (Res.ofOption_eq_ok.1 h1) (Res.mapErr_eq_ok.1 h2)
        · split at h
          · rename_i hh; subst hh
            obtain ⟨s, h1, h⟩ := Res.bind_eq_ok.1 h
            obtain ⟨t, h2, h⟩ := Res.bind_eq_ok.1 h
            cases h
            exact .json he (Res.ofOption_eq_ok.1 h1) (Res.ofOption_eq_ok.1 h2)
          · rename_i n1 n2 n3
            split at h
            · rename_i hf
              cases h
              refine .other fun e' hx => ?_
              cases HasExt_unique he hx
              exact ⟨n1, n2, n3, findParser_none.1 hf⟩
            · rename_i q hf
              obtain ⟨t, h2, h⟩ := Res.bind_eq_ok.1 h
              cases h
              exact .custom he n1 n2 n3 (findParser_some.1 hf) (Res.mapErr_eq_ok.1 h2)
  · intro h
    unfold parseContents
    cases h with
    | html he h1 h2 =>
      simp only [extension_iff.2 he, if_true]
      rw [h1]; simp only [Res.ofOption, Res.bind_ok, Res.mapErr, h2]
    | markdown he h1 h2 =>
      simp only [extension_iff.2 he, if_true]
      rw [if_neg (by decide), h1]; simp only [Res.ofOption, Res.bind_ok, Res.mapErr, h2]
    | json he h1 h2 =>
      simp only [extension_iff.2 he, if_true]
      rw [if_neg (by decide), if_neg (by decide), h1]; simp only [Res.ofOption, Res.bind_ok, h2]
    | custom he n1 n2 n3 hf h1 =>
      simp only [extension_iff.2 he]
      rw [if_neg n1, if_neg n2, if_neg n3]
      simp only [findParser_some.2 hf, h1, Res.mapErr, Res.bind_ok]
    | other hu =>
      cases he : extension name with
      | none => rfl
      | some e =>
        obtain ⟨n1, n2, n3, hf⟩ := hu e (extension_iff.1 he)
        simp only
        rw [if_neg n1, if_neg n2, if_neg n3]
        simp only [findParser_none.2 hf]

end Stuart
