import Verif.Spec.Nests
import Verif.Props.Sure
/-
Property C110: properly nested texts are read in one way.
-/
namespace Stuart
open Spec

/-- A tag that ends a body. -/
def Shuts (t : LTok) : Prop :=
  match t.inner with
  | .func (.end_ _ _) => True
  | .func .else_ => True
  | _ => False

/-- Where a body ends. -/
def Ends : List LTok → Prop
  | [] => True
  | t :: _ => Shuts t

theorem not_shuts_plain {a : At} {t : Token} (h : Plain t) : ¬ Shuts (a.tok t) := by
  intro k
  unfold Shuts At.tok at k
  split at k <;> simp_all [Plain]

theorem not_shuts_test {a : At} {t : Test} : ¬ Shuts (a.tok (.func t.fn)) := by
  cases t <;> exact id

theorem plain_test {t : Test} : ¬ Plain (.func t.fn) := by
  cases t <;> exact id

theorem test_fn_inj {t t' : Test} (h : t.fn = t'.fn) : t = t' := by
  cases t <;> cases t' <;> cases h <;> rfl

theorem at_tok_inj {a b : At} {t u : Token} (h : a.tok t = b.tok u) : a = b ∧ t = u := by
  cases a; cases b
  simp only [At.tok, LTok.mk.injEq] at h
  simp [h]

theorem test_word_fn {t t' : Test} (h : t = t') : t.word = t'.word := by rw [h]

/-- Two templates with the same tokens, each with something after it that begins with a closing tag. -/
theorem toks_same (t t' : Tpl) (hw : t.WF) (hw' : t'.WF) (rest rest' : List LTok) (hr : Ends rest) (hr' : Ends rest')
    (h : t.toks ++ rest = t'.toks ++ rest') : t = t' ∧ rest = rest' := by
  induction t generalizing t' rest rest' with
  | nil =>
    cases t' with
    | nil => exact ⟨rfl, h⟩
    | leaf a t next => subst h; exact absurd hr (not_shuts_plain hw'.1)
    | section_ => subst h; exact absurd hr id
    | loop => subst h; exact absurd hr id
    | if_ => subst h; exact absurd hr not_shuts_test
    | ifElse => subst h; exact absurd hr not_shuts_test
  | leaf a t next ih =>
    cases t' with
    | nil => subst h; exact absurd hr' (not_shuts_plain hw.1)
    | leaf a' t' next' =>
      obtain ⟨h1, h2⟩ := List.cons.inj h
      obtain ⟨rfl, rfl⟩ := at_tok_inj h1
      obtain ⟨rfl, rfl⟩ := ih next' hw.2 hw'.2 _ _ hr hr' h2
      exact ⟨rfl, rfl⟩
    | section_ => obtain ⟨rfl, rfl⟩ := at_tok_inj (List.cons.inj h).1; exact absurd hw.1 id
    | loop => obtain ⟨rfl, rfl⟩ := at_tok_inj (List.cons.inj h).1; exact absurd hw.1 id
    | if_ => obtain ⟨rfl, rfl⟩ := at_tok_inj (List.cons.inj h).1; exact absurd hw.1 plain_test
    | ifElse =>
      simp only [Tpl.toks, List.cons_append] at h
      obtain ⟨rfl, rfl⟩ := at_tok_inj (List.cons.inj h).1; exact absurd hw.1 plain_test
  | section_ o c l body next ih1 ih2 =>
    cases t' with
    | nil => subst h; exact absurd hr' id
    | leaf => obtain ⟨rfl, rfl⟩ := at_tok_inj (List.cons.inj h).1; exact absurd hw'.1 id
    | section_ o' c' l' body' next' =>
      simp only [Tpl.toks, List.cons_append, List.append_assoc] at h
      obtain ⟨h1, h2⟩ := List.cons.inj h
      obtain ⟨rfl, h1⟩ := at_tok_inj h1
      cases h1
      obtain ⟨rfl, h3⟩ := ih1 body' hw.1 hw'.1 _ _ (by exact trivial) (by exact trivial) h2
      obtain ⟨h4, h5⟩ := List.cons.inj h3
      obtain ⟨rfl, -⟩ := at_tok_inj h4
      obtain ⟨rfl, rfl⟩ := ih2 next' hw.2 hw'.2 _ _ hr hr' h5
      exact ⟨rfl, rfl⟩
    | loop => cases (at_tok_inj (List.cons.inj h).1).2
    | if_ _ _ test => cases test <;> cases (at_tok_inj (List.cons.inj h).1).2
    | ifElse _ _ _ test =>
      simp only [Tpl.toks, List.cons_append] at h
      cases test <;> cases (at_tok_inj (List.cons.inj h).1).2
  | loop o c f body next ih1 ih2 =>
    cases t' with
    | nil => subst h; exact absurd hr' id
    | leaf => obtain ⟨rfl, rfl⟩ := at_tok_inj (List.cons.inj h).1; exact absurd hw'.1 id
    | loop o' c' f' body' next' =>
      simp only [Tpl.toks, List.cons_append, List.append_assoc] at h
      obtain ⟨h1, h2⟩ := List.cons.inj h
      obtain ⟨rfl, h1⟩ := at_tok_inj h1
      cases h1
      obtain ⟨rfl, h3⟩ := ih1 body' hw.1 hw'.1 _ _ (by exact trivial) (by exact trivial) h2
      obtain ⟨h4, h5⟩ := List.cons.inj h3
      obtain ⟨rfl, -⟩ := at_tok_inj h4
      obtain ⟨rfl, rfl⟩ := ih2 next' hw.2 hw'.2 _ _ hr hr' h5
      exact ⟨rfl, rfl⟩
    | section_ => cases (at_tok_inj (List.cons.inj h).1).2
    | if_ _ _ test => cases test <;> cases (at_tok_inj (List.cons.inj h).1).2
    | ifElse _ _ _ test =>
      simp only [Tpl.toks, List.cons_append] at h
      cases test <;> cases (at_tok_inj (List.cons.inj h).1).2
  | if_ o c test thn next ih1 ih2 =>
    cases t' with
    | nil => subst h; exact absurd hr' not_shuts_test
    | leaf => obtain ⟨rfl, rfl⟩ := at_tok_inj (List.cons.inj h).1; exact absurd hw'.1 plain_test
    | section_ => cases test <;> cases (at_tok_inj (List.cons.inj h).1).2
    | loop => cases test <;> cases (at_tok_inj (List.cons.inj h).1).2
    | if_ o' c' test' thn' next' =>
      simp only [Tpl.toks, List.cons_append, List.append_assoc] at h
      obtain ⟨h1, h2⟩ := List.cons.inj h
      obtain ⟨rfl, h1'⟩ := at_tok_inj h1
      cases test_fn_inj (Token.func.inj h1')
      obtain ⟨rfl, h3⟩ := ih1 thn' hw.1 hw'.1 _ _ (by exact trivial) (by exact trivial) h2
      obtain ⟨h4, h5⟩ := List.cons.inj h3
      obtain ⟨rfl, -⟩ := at_tok_inj h4
      obtain ⟨rfl, rfl⟩ := ih2 next' hw.2 hw'.2 _ _ hr hr' h5
      exact ⟨rfl, rfl⟩
    | ifElse o' m' c' test' thn' els' next' =>
      simp only [Tpl.toks, List.cons_append, List.append_assoc] at h
      obtain ⟨-, h2⟩ := List.cons.inj h
      obtain ⟨rfl, h3⟩ := ih1 thn' hw.1 hw'.1 _ _ (by exact trivial) (by exact trivial) h2
      cases (at_tok_inj (List.cons.inj h3).1).2
  | ifElse o m c test thn els next ih1 ih2 ih3 =>
    simp only [Tpl.toks, List.cons_append, List.append_assoc] at h
    cases t' with
    | nil => subst h; exact absurd hr' not_shuts_test
    | leaf => obtain ⟨rfl, rfl⟩ := at_tok_inj (List.cons.inj h).1; exact absurd hw'.1 plain_test
    | section_ => cases test <;> cases (at_tok_inj (List.cons.inj h).1).2
    | loop => cases test <;> cases (at_tok_inj (List.cons.inj h).1).2
    | if_ o' c' test' thn' next' =>
      simp only [Tpl.toks, List.cons_append, List.append_assoc] at h
      obtain ⟨-, h2⟩ := List.cons.inj h
      obtain ⟨rfl, h3⟩ := ih1 thn' hw.1 hw'.1 _ _ (by exact trivial) (by exact trivial) h2
      cases (at_tok_inj (List.cons.inj h3).1).2
    | ifElse o' m' c' test' thn' els' next' =>
      simp only [Tpl.toks, List.cons_append, List.append_assoc] at h
      obtain ⟨h1, h2⟩ := List.cons.inj h
      obtain ⟨rfl, h1'⟩ := at_tok_inj h1
      cases test_fn_inj (Token.func.inj h1')
      obtain ⟨rfl, h3⟩ := ih1 thn' hw.1 hw'.1 _ _ (by exact trivial) (by exact trivial) h2
      obtain ⟨h4, h5⟩ := List.cons.inj h3
      obtain ⟨rfl, -⟩ := at_tok_inj h4
      obtain ⟨rfl, h6⟩ := ih2 els' hw.2.1 hw'.2.1 _ _ (by exact trivial) (by exact trivial) h5
      obtain ⟨h7, h8⟩ := List.cons.inj h6
      obtain ⟨rfl, -⟩ := at_tok_inj h7
      obtain ⟨rfl, rfl⟩ := ih3 next' hw.2.2 hw'.2.2 _ _ hr hr' h8
      exact ⟨rfl, rfl⟩

/-- C110. Tokens are those of one properly nested template at most. -/
theorem C110_unique (t t' : Tpl) (hw : t.WF) (hw' : t'.WF) (h : t.toks = t'.toks) : t = t' :=
  (toks_same t t' hw hw' [] [] trivial trivial (by rw [h])).1

/-- What may stand in these blocks. -/
def Fine (deep : Bool) (os : List OpenBlock) (t : Tpl) : Prop :=
  deep = true ∨ (if .loop ∈ os then t.NoLoops else t.Single)

theorem nests_test {deep : Bool} {os : List OpenBlock} {a : At} {test : Test} {ts : List LTok} :
    Nests deep os (a.tok (.func test.fn) :: ts) ↔ Nests deep (.cond test.word false :: os) ts := by
  cases test <;> rfl

theorem nests_plain {deep : Bool} {os : List OpenBlock} {t : LTok} {ts : List LTok} (h : Plain t.inner) :
    Nests deep os (t :: ts) ↔ Nests deep os ts := by
  obtain ⟨inner, _, _, _⟩ := t
  cases inner with
  | raw => simp [Nests, Plain]
  | var => simp [Nests, Plain]
  | func f => cases f <;> simp_all [Nests, Plain]

theorem fine_body {deep : Bool} {os : List OpenBlock} {o : OpenBlock} {t : Tpl} (h : o ≠ .loop) :
    Fine deep (o :: os) t ↔ Fine deep os t := by
  unfold Fine
  simp [Ne.symm h]

theorem nests_tpl (deep : Bool) (t : Tpl) (hw : t.WF) (os : List OpenBlock) (hf : Fine deep os t) (rest : List LTok) :
    Nests deep os (t.toks ++ rest) ↔ Nests deep os rest := by
  induction t generalizing os rest with
  | nil => rfl
  | leaf a t next ih =>
    refine (nests_plain (t := a.tok t) hw.1).trans (ih hw.2 os ?_ rest)
    unfold Fine at hf ⊢
    exact hf
  | section_ o c l body next ih1 ih2 =>
    have f1 : Fine deep (.section_ l :: os) body := by
      rw [fine_body (by simp)]; unfold Fine at hf ⊢; revert hf; split <;> exact Or.imp_right And.left
    have f2 : Fine deep os next := by
      unfold Fine at hf ⊢; revert hf; split <;> exact Or.imp_right And.right
    simp only [Tpl.toks, List.cons_append, List.append_assoc]
    refine (ih1 hw.1 (.section_ l :: os) f1 _).trans ?_
    simp only [Nests, At.tok, true_and]
    exact ih2 hw.2 os f2 rest
  | loop o c f body next ih1 ih2 =>
    simp only [Tpl.toks, List.cons_append, List.append_assoc, At.tok, Nests]
    have hno : deep = true ∨ .loop ∉ os := by
      unfold Fine at hf; revert hf; split
      · exact fun h => h.imp_right False.elim
      · exact fun h => .inr ‹_›
    have f1 : Fine deep (.loop :: os) body := by
      unfold Fine at hf ⊢; revert hf; split
      · exact fun h => h.imp_right False.elim
      · simp; exact fun h => h.imp_right And.left
    have f2 : Fine deep os next := by
      unfold Fine at hf ⊢; revert hf; split
      · exact fun h => h.imp_right False.elim
      · exact Or.imp_right And.right
    rw [ih1 hw.1 _ f1]
    simp only [Nests, true_and, hno]
    exact ih2 hw.2 os f2 rest
  | if_ o c test thn next ih1 ih2 =>
    have f1 : Fine deep (.cond test.word false :: os) thn := by
      rw [fine_body (by simp)]; unfold Fine at hf ⊢; revert hf; split <;> exact Or.imp_right And.left
    have f2 : Fine deep os next := by
      unfold Fine at hf ⊢; revert hf; split <;> exact Or.imp_right And.right
    simp only [Tpl.toks, List.cons_append, List.append_assoc]
    rw [nests_test, ih1 hw.1 _ f1]
    simp only [Nests, At.tok, true_and]
    exact ih2 hw.2 os f2 rest
  | ifElse o m c test thn els next ih1 ih2 ih3 =>
    have f1 : Fine deep (.cond test.word false :: os) thn := by
      rw [fine_body (by simp)]; unfold Fine at hf ⊢; revert hf; split <;> exact Or.imp_right And.left
    have f2 : Fine deep (.cond test.word true :: os) els := by
      rw [fine_body (by simp)]; unfold Fine at hf ⊢; revert hf; split <;> exact Or.imp_right fun h => h.2.1
    have f3 : Fine deep os next := by
      unfold Fine at hf ⊢; revert hf; split <;> exact Or.imp_right fun h => h.2.2
    simp only [Tpl.toks, List.cons_append, List.append_assoc]
    rw [nests_test, ih1 hw.1 _ f1]
    simp only [Nests, At.tok]
    rw [ih2 hw.2.1 _ f2]
    simp only [Nests, true_and]
    exact ih3 hw.2.2 os f3 rest

theorem fine_join {deep : Bool} {os : List OpenBlock} {t1 t2 t : Tpl} (h1 : Fine deep os t1) (h2 : Fine deep os t2)
    (hn : t1.NoLoops → t2.NoLoops → t.NoLoops) (hs : t1.Single → t2.Single → t.Single) : Fine deep os t := by
  unfold Fine at *
  revert h1 h2
  split
  · rintro (h1 | h1) (h2 | h2)
    · exact .inl h1
    · exact .inl h1
    · exact .inl h2
    · exact .inr (hn h1 h2)
  · rintro (h1 | h1) (h2 | h2)
    · exact .inl h1
    · exact .inl h1
    · exact .inl h2
    · exact .inr (hs h1 h2)

/-- Tokens that read on begin with a template, after which everything is closed or the innermost block is. -/
theorem nests_body (deep : Bool) : ∀ n (os : List OpenBlock) (ts : List LTok), ts.length ≤ n → Nests deep os ts →
    ∃ t rest, t.WF ∧ Fine deep os t ∧ ts = t.toks ++ rest ∧ Nests deep os rest ∧ (rest = [] ∨ ∃ c r, rest = c :: r ∧ Shuts c) := by
  have hnil : ∀ os : List OpenBlock, Fine deep os .nil := fun os => by unfold Fine; split <;> exact .inr trivial
  intro n
  induction n with
  | zero =>
    intro os ts hn h
    cases ts with
    | nil => exact ⟨.nil, [], trivial, hnil _, rfl, h, .inl rfl⟩
    | cons => simp at hn
  | succ n ih =>
    intro os ts hn h
    cases ts with
    | nil => exact ⟨.nil, [], trivial, hnil _, rfl, h, .inl rfl⟩
    | cons t ts =>
      have hn' : ts.length ≤ n := by simpa using hn
      obtain ⟨tok, path, line, col⟩ := t
      have hplain : Plain tok → ∃ t rest, t.WF ∧ Fine deep os t ∧ (⟨tok, path, line, col⟩ :: ts : List LTok) = t.toks ++ rest ∧
          Nests deep os rest ∧ (rest = [] ∨ ∃ c r, rest = c :: r ∧ Shuts c) := by
        intro hp
        obtain ⟨t, rest, k1, k2, k3, k4, k5⟩ := ih os ts hn' ((nests_plain (t := ⟨tok, path, line, col⟩) hp).1 h)
        refine ⟨.leaf ⟨path, line, col⟩ tok t, rest, ⟨hp, k1⟩, ?_, by rw [k3]; rfl, k4, k5⟩
        unfold Fine at k2 ⊢
        exact k2
      have hcond : ∀ test : Test, tok = .func test.fn → ∃ t rest, t.WF ∧ Fine deep os t ∧ (⟨tok, path, line, col⟩ :: ts : List LTok) = t.toks ++ rest ∧
          Nests deep os rest ∧ (rest = [] ∨ ∃ c r, rest = c :: r ∧ Shuts c) := by
        rintro test rfl
        have h := (nests_test (a := ⟨path, line, col⟩)).1 h
        obtain ⟨t1, r1, k1, k2, k3, k4, k5⟩ := ih _ ts hn' h
        rcases k5 with rfl | ⟨c, r, rfl, hc⟩
        · cases k4
        obtain ⟨ctok, cp, cl, cc⟩ := c
        cases ctok with
        | raw => exact absurd hc id
        | var => exact absurd hc id
        | func g =>
          cases g with
          | end_ l cu =>
            obtain ⟨rfl, rfl, k4⟩ := k4
            have hlen : r.length ≤ n := by rw [k3] at hn'; simp at hn'; omega
            obtain ⟨t2, r2, m1, m2, m3, m4, m5⟩ := ih os r hlen k4
            refine ⟨.if_ ⟨path, line, col⟩ ⟨cp, cl, cc⟩ test t1 t2, r2, ⟨k1, m1⟩,
              fine_join ((fine_body (by simp)).1 k2) m2 And.intro And.intro, ?_, m4, m5⟩
            rw [k3, m3]
            simp only [Tpl.toks, At.tok, List.cons_append, List.append_assoc]
          | else_ =>
            have k4 : Nests deep (.cond test.word true :: os) r := k4
            have hlen : r.length ≤ n := by rw [k3] at hn'; simp at hn'; omega
            obtain ⟨t2, r2, m1, m2, m3, m4, m5⟩ := ih _ r hlen k4
            rcases m5 with rfl | ⟨d, r', rfl, hd⟩
            · cases m4
            obtain ⟨dtok, dp, dl, dc⟩ := d
            cases dtok with
            | raw => exact absurd hd id
            | var => exact absurd hd id
            | func g =>
              cases g with
              | end_ l cu =>
                obtain ⟨rfl, rfl, m4⟩ := m4
                have hlen' : r'.length ≤ n := by rw [m3] at hlen; simp at hlen; omega
                obtain ⟨t3, r3, q1, q2, q3, q4, q5⟩ := ih os r' hlen' m4
                refine ⟨.ifElse ⟨path, line, col⟩ ⟨cp, cl, cc⟩ ⟨dp, dl, dc⟩ test t1 t2 t3, r3, ⟨k1, m1, q1⟩,
                  fine_join (t2 := .if_ ⟨path, line, col⟩ ⟨dp, dl, dc⟩ test t2 t3) ((fine_body (by simp)).1 k2)
                    (fine_join ((fine_body (by simp)).1 m2) q2 And.intro And.intro) And.intro And.intro, ?_, q4, q5⟩
                rw [k3, m3, q3]
                simp only [Tpl.toks, At.tok, List.cons_append, List.append_assoc]
              | else_ => exact absurd m4 id
              | _ => exact absurd hd id
          | _ => exact absurd hc id
      cases tok with
      | raw => exact hplain trivial
      | var => exact hplain trivial
      | func f =>
        cases f with
        | begin_ l custom =>
          cases custom with
          | false => exact absurd h.1 id
          | true =>
            have h : Nests deep (.section_ l :: os) ts := h
            obtain ⟨t1, r1, k1, k2, k3, k4, k5⟩ := ih _ ts hn' h
            rcases k5 with rfl | ⟨c, r, rfl, hc⟩
            · cases k4
            obtain ⟨ctok, cp, cl, cc⟩ := c
            cases ctok with
            | raw => exact absurd hc id
            | var => exact absurd hc id
            | func g =>
              cases g with
              | end_ l cu =>
                obtain ⟨rfl, rfl, k4⟩ := k4
                have hlen : r.length ≤ n := by rw [k3] at hn'; simp at hn'; omega
                obtain ⟨t2, r2, m1, m2, m3, m4, m5⟩ := ih os r hlen k4
                refine ⟨.section_ ⟨path, line, col⟩ ⟨cp, cl, cc⟩ l t1 t2, r2, ⟨k1, m1⟩,
                  fine_join ((fine_body (by simp)).1 k2) m2 And.intro And.intro, ?_, m4, m5⟩
                rw [k3, m3]
                simp only [Tpl.toks, At.tok, List.cons_append, List.append_assoc]
              | else_ => exact absurd k4 id
              | _ => exact absurd hc id
        | for_ f =>
          obtain ⟨hdeep, h⟩ : (deep = true ∨ OpenBlock.loop ∉ os) ∧ Nests deep (.loop :: os) ts := h
          obtain ⟨t1, r1, k1, k2, k3, k4, k5⟩ := ih _ ts hn' h
          rcases k5 with rfl | ⟨c, r, rfl, hc⟩
          · cases k4
          obtain ⟨ctok, cp, cl, cc⟩ := c
          cases ctok with
          | raw => exact absurd hc id
          | var => exact absurd hc id
          | func g =>
            cases g with
            | end_ l cu =>
              obtain ⟨rfl, rfl, k4⟩ := k4
              have hlen : r.length ≤ n := by rw [k3] at hn'; simp at hn'; omega
              obtain ⟨t2, r2, m1, m2, m3, m4, m5⟩ := ih os r hlen k4
              refine ⟨.loop ⟨path, line, col⟩ ⟨cp, cl, cc⟩ f t1 t2, r2, ⟨k1, m1⟩, ?_, ?_, m4, m5⟩
              · rcases hdeep with hdeep | hdeep
                · exact .inl hdeep
                · unfold Fine at k2 m2 ⊢
                  simp only [List.mem_cons, true_or, if_true, hdeep, if_false] at k2 m2 ⊢
                  rcases k2 with k2 | k2
                  · exact .inl k2
                  rcases m2 with m2 | m2
                  · exact .inl m2
                  exact .inr ⟨k2, m2⟩
              · rw [k3, m3]
                simp only [Tpl.toks, At.tok, List.cons_append, List.append_assoc]
            | else_ => exact absurd k4 id
            | _ => exact absurd hc id
        | ifdefined v => exact hcond (.defined v) rfl
        | cmp op a b => exact hcond (.cmp op a b) rfl
        | end_ l c => exact ⟨.nil, _, trivial, hnil _, rfl, h, .inr ⟨_, _, rfl, trivial⟩⟩
        | else_ => exact ⟨.nil, _, trivial, hnil _, rfl, h, .inr ⟨_, _, rfl, trivial⟩⟩
        | excerpt => exact hplain trivial
        | import_ => exact hplain trivial
        | insert => exact hplain trivial
        | timetoread => exact hplain trivial
        | dateformat => exact hplain trivial
        | plugin => exact hplain h.1

/-- C110. Tokens are those of a properly nested template if and only if they nest, read once from left to right. -/
theorem C110_nests (ts : List LTok) : (∃ t : Tpl, t.WF ∧ t.toks = ts) ↔ Nests true [] ts := by
  constructor
  · rintro ⟨t, h1, rfl⟩
    have := (nests_tpl true t h1 [] (.inl rfl) []).2 rfl
    rwa [List.append_nil] at this
  · intro h
    obtain ⟨t, rest, k1, -, rfl, k4, k5⟩ := nests_body true _ [] ts (Nat.le_refl _) h
    rcases k5 with rfl | ⟨⟨c, _, _, _⟩, r, rfl, hc⟩
    · exact ⟨t, k1, (List.append_nil _).symm⟩
    · cases c with
      | raw => exact absurd hc id
      | var => exact absurd hc id
      | func f => cases f <;> first | exact absurd hc id | exact absurd k4 id

/-- C110. So it is for those with no loop within a loop (C108). -/
theorem C110_single (ts : List LTok) : (∃ t : Tpl, t.WF ∧ t.Single ∧ t.toks = ts) ↔ Nests false [] ts := by
  constructor
  · rintro ⟨t, h1, h2, rfl⟩
    have := (nests_tpl false t h1 [] (.inr (by simpa using h2)) []).2 rfl
    rwa [List.append_nil] at this
  · intro h
    obtain ⟨t, rest, k1, k2, rfl, k4, k5⟩ := nests_body false _ [] ts (Nat.le_refl _) h
    have k2 : t.Single := by unfold Fine at k2; simpa using k2
    rcases k5 with rfl | ⟨⟨c, _, _, _⟩, r, rfl, hc⟩
    · exact ⟨t, k1, k2, (List.append_nil _).symm⟩
    · cases c with
      | raw => exact absurd hc id
      | var => exact absurd hc id
      | func f => cases f <;> first | exact absurd hc id | exact absurd k4 id

/-! ### Texts and pages -/

section
variable {S : Sys} {plugins : List Plugin} {d : Entry} {p : Path} {ds : List Str}

/-- C110. A text is that of one template at most. -/
theorem C110_text {src text : Str} {t t' : Tpl} (h : Spells S plugins src text t) (h' : Spells S plugins src text t') : t = t' :=
  C110_unique t t' h.wf h'.wf (C68_unambiguous _ _ _ _ _ _ h.parses h'.parses)

theorem fileSpells_unique {nm : Str} {t t' : Tpl} (h : FileSpells S plugins d p ds nm t) (h' : FileSpells S plugins d p ds nm t') : t = t' := by
  obtain ⟨x, h1, h2⟩ := h
  obtain ⟨x', h1', h2'⟩ := h'
  rw [h1] at h1'
  simp only [Option.some.injEq, Kind.file.injEq] at h1'
  cases bytesOf_inj h1'
  exact C110_text h2 h2'

theorem templateSpells_unique {nm : Str} {t t' : Tpl} (h : TemplateSpells S plugins d p ds nm t) (h' : TemplateSpells S plugins d p ds nm t') :
    t = t' := by
  obtain ⟨q, h1, h2⟩ := h
  obtain ⟨q', h1', h2'⟩ := h'
  cases inForce_unique h1 h1'
  exact fileSpells_unique h2 h2'

theorem mdFileSpells_unique {nm : Str} (hx : HasExt nm str!"md") {pairs pairs' : List (Str × Str)} {text text' : Str} {t t' : Tpl}
    (h : MdFileSpells S plugins d p ds nm pairs text t) (h' : MdFileSpells S plugins d p ds nm pairs' text' t') :
    pairs = pairs' ∧ text = text' ∧ t = t' := by
  have hl : ∃ b, look d (p ++ ds ++ [nm]) = some (.file b) := by obtain ⟨_, k, _⟩ := h; exact ⟨_, k⟩
  obtain ⟨b, hl⟩ := hl
  have k1 := (mdFileSpells_read S plugins d p ds hx h hl).2 rfl
  have k2 := (mdFileSpells_read S plugins d p ds hx h' hl).1 k1
  simp only [Parsed.markdown.injEq, ParsedMd.mk.injEq] at k2
  have w : t.WF := by obtain ⟨_, _, _, _, k⟩ := h; exact k.wf
  have w' : t'.WF := by obtain ⟨_, _, _, _, k⟩ := h'; exact k.wf
  exact ⟨k2.1, k2.2.2.1, C110_unique t t' w w' k2.2.1⟩

/-- C110. A page means one thing at most (if there is no second page of the same stem, of the other kind). -/
theorem C110_means {vars : List (Str × Value)} {input tree : Node} {stem : Str} (hn : stem ≠ [])
    (hone : look d (p ++ ds ++ [stem ++ str!".md"]) = none ∨ look d (p ++ ds ++ [stem ++ str!".html"]) = none) {b b' : Bytes}
    (h : PageMeans S plugins d p vars input tree ds stem b) (h' : PageMeans S plugins d p vars input tree ds stem b') : b = b' := by
  have hmd : HasExt (stem ++ str!".md") str!"md" := ⟨stem, hn, rfl, by decide⟩
  cases h with
  | html a1 a2 a3 a4 a5 a6 =>
    cases h' with
    | html b1 b2 b3 b4 b5 b6 =>
      cases fileSpells_unique a1 b1
      cases templateSpells_unique a2 b2
      rw [a4] at b4; cases b4
      rw [a6] at b6; cases b6
      rfl
    | markdown b1 =>
      obtain ⟨_, k1, _⟩ := a1
      obtain ⟨_, k2, _⟩ := b1
      rw [k1, k2] at hone
      rcases hone with h | h <;> cases h
  | markdown a1 a2 a3 a4 a5 a6 a7 a8 a9 a10 =>
    cases h' with
    | html b1 =>
      obtain ⟨_, k1, _⟩ := a1
      obtain ⟨_, k2, _⟩ := b1
      rw [k1, k2] at hone
      rcases hone with h | h <;> cases h
    | markdown b1 b2 b3 b4 b5 b6 b7 b8 b9 b10 =>
      obtain ⟨rfl, rfl, rfl⟩ := mdFileSpells_unique hmd a1 b1
      cases templateSpells_unique a2 b2
      cases templateSpells_unique a3 b3
      rw [a5] at b5; cases b5
      rw [a6] at b6; cases bytesOf_inj b6
      rw [a8] at b8; cases b8
      rw [a10] at b10; cases b10
      rfl

end

section
variable (M : Machine) (L : Loader) (cwd : Path) (manifest output : Str) (s s1 : Host) (p : Path) (raw : RawConfig) (plugins : List Plugin)

/-- C110, with C108. After `stuart build` of a simple project has succeeded, the file at the place of a page holds exactly the one thing that
its texts mean. -/
theorem C110_published (h : Simple L cwd manifest s s1 p raw plugins) (hd : ProperDisk s1.world.disk)
    (hout : joinPath p.dropLast output ≠ [])
    (ht : Tame raw.toConfig plugins s1.world.disk p.dropLast (p.dropLast ++ [str!"content"]))
    (hok : (cmdBuild M L cwd manifest output s).2 = .ok ()) :
    let d := s1.world.disk
    let content := p.dropLast ++ [str!"content"]
    let base := baseFrame M.sys.vars str!"production"
    ∃ cs ts, Content M.sys plugins d content base str!"content" cs ts ∧ ∀ ds stem,
      stem ≠ [] → stem ≠ str!"root" → stem ≠ str!"md" → SinglePage M.sys plugins d content ds stem →
      (look d (content ++ ds ++ [stem ++ str!".md"]) = none ∨ look d (content ++ ds ++ [stem ++ str!".html"]) = none) →
      PlaceFree raw.toConfig d p.dropLast content ds stem →
      ∀ b, look (cmdBuild M L cwd manifest output s).1.world.disk (joinPath p.dropLast output ++ placeOf raw.toConfig ds stem) =
          some (.file b) ↔
        PageMeans M.sys plugins d content base.vars (.dir str!"content" cs (pathStr content)) (.dir str!"content" ts (pathStr content)) ds stem b := by
  intro d content base
  obtain ⟨cs, ts, k1, k2⟩ := C108_published_partial M L cwd manifest output s s1 p raw plugins h hd hout ht hok
  refine ⟨cs, ts, k1, fun ds stem e1 e2 e3 e4 e5 e6 b => ?_⟩
  obtain ⟨b', m1, m2⟩ := k2 ds stem e1 e2 e3 e4 e5 e6
  rw [m2]
  constructor
  · intro h
    cases h
    exact m1
  · intro h
    rw [C110_means e1 e5 h m1]

end

/-! ### Cases -/

/-- The tokens of the template of C16 nest; of nothing else are they the tokens. -/
example : Nests true [] demoTpl.toks ∧ ∀ t : Tpl, t.WF → t.toks = demoTpl.toks → t = demoTpl :=
  ⟨(C110_nests _).1 ⟨_, demoTpl_wf, rfl⟩, fun t h k => C110_unique t _ h demoTpl_wf k⟩

/-- A loop and a conditional that cross do not nest. -/
def crossing : List LTok :=
  [here.tok (.func (.for_ (demoFor str!"a.json"))), here.tok (.func (.ifdefined str!"s")), here.tok (.func (.end_ str!"for" false)),
    here.tok (.func (.end_ str!"ifdefined" false))]

example : ¬ ∃ t : Tpl, t.WF ∧ t.toks = crossing := by
  rw [C110_nests]
  unfold crossing
  simp [Nests, At.tok]

/-- The template of `C108_counterexample_skipped` nests, but not without a loop within a loop. -/
example : Nests true [] crossed.toks ∧ ¬ Nests false [] crossed.toks :=
  ⟨(C110_nests _).1 ⟨_, C108_counterexample_skipped.1, rfl⟩, by simp [crossed, demoText, Nests, Tpl.toks, At.tok, Test.fn, Plain]⟩

/-- The pages of C95 mean one thing. -/
example (input tree : Node) (b : Bytes)
    (h : PageMeans demoSys [] srcDisk [str!"p", str!"content"] (baseFrame [] str!"production").vars input tree [] str!"a" b) : b = bytesOf str!"<A>" :=
  C110_means (by decide) (.inl rfl) h (src_pages input tree).1

/-- The published page of the project of C95 is what it means. -/
example : look (cmdBuild idleMachine shortLoader [str!"p"] str!"stuart.toml" str!"dist" srcHost).1.world.disk
    [str!"p", str!"dist", str!"a", str!"index.html"] = some (.file (bytesOf str!"<A>")) := by
  obtain ⟨cs, ts, -, h⟩ := C110_published idleMachine shortLoader [str!"p"] str!"stuart.toml" str!"dist" srcHost _ _ _ _
    srcHost_simple (by unfold srcHost srcDisk; proper_disk) (by decide) (tame_names (by decide +kernel) (by decide +kernel)) (by decide +kernel)
  refine (h [] str!"a" (by decide) (by decide) (by decide) ?_ (.inl rfl) ?_ (bytesOf str!"<A>")).2 (src_pages _ _).1
  · exact src_singlePages.1
  · exact ⟨by decide, by decide, rfl, by simp; exact ⟨rfl, rfl⟩⟩

end Stuart
