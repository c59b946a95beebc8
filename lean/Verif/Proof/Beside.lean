import Verif.Proof.Resolve
import Verif.Spec.Beside
/-
Reading templates with plugins that have the same names and functions that do different things: helper lemmas for C116.
-/
namespace Stuart

theorem Beside.append {α β : Type} {R : α → β → Prop} {l l' : List α} {m m' : List β} (h : Beside R l m) (h' : Beside R l' m') :
    Beside R (l ++ l') (m ++ m') := by
  induction h with
  | nil => exact h'
  | cons k _ ih => exact .cons k ih

theorem Outcomes.bind {ε α β α' β' : Type} {R : α → β → Prop} {R' : α' → β' → Prop} {r : Res ε α} {r' : Res ε β}
    {f : α → Res ε α'} {f' : β → Res ε β'} (h : Outcomes R r r') (hf : ∀ a b, R a b → Outcomes R' (f a) (f' b)) :
    Outcomes R' (r.bind f) (r'.bind f') := by
  cases h with
  | ok k => exact hf _ _ k
  | err e => exact .err e
  | panic p => exact .panic p

theorem Outcomes.mapErr {ε ε' α β : Type} {R : α → β → Prop} {r : Res ε α} {r' : Res ε β} (g : ε → ε') (h : Outcomes R r r') :
    Outcomes R (r.mapErr g) (r'.mapErr g) := by
  cases h with
  | ok k => exact .ok k
  | err e => exact .err _
  | panic p => exact .panic p

theorem Outcomes.refl {ε α : Type} {R : α → α → Prop} (r : Res ε α) (h : ∀ a, r = .ok a → R a a) : Outcomes R r r := by
  cases r with
  | ok a => exact .ok (h a rfl)
  | err e => exact .err e
  | panic p => exact .panic p

variable {R : PluginFn → PluginFn → Prop}

theorem rawTok_beside (path raw : Str) (line col : Nat) : Beside (TokBeside R) (rawTok path raw line col) (rawTok path raw line col) := by
  unfold rawTok
  split
  · exact .nil
  · exact .cons ⟨.raw _, rfl, rfl, rfl⟩ .nil

theorem find_beside (name : Str) {pl ql : PluginFns} (hn : pl.name = ql.name) {l m : List PluginFnParser} (h : Beside (ParserBeside R) l m) :
    (l.find? (pluginMatches name pl) = none ∧ m.find? (pluginMatches name ql) = none) ∨
    ∃ f g, l.find? (pluginMatches name pl) = some f ∧ m.find? (pluginMatches name ql) = some g ∧ ParserBeside R f g := by
  induction h with
  | nil => exact .inl ⟨rfl, rfl⟩
  | @cons a b l m k _ ih =>
    have hm : pluginMatches name pl a = pluginMatches name ql b := by simp only [pluginMatches, hn, k.1]
    rw [List.find?_cons, List.find?_cons, hm]
    cases pluginMatches name ql b with
    | true => exact .inr ⟨a, b, rfl, rfl, k⟩
    | false => exact ih

theorem findPlugin_beside (name : Str) {P Q : List PluginFns} (h : Beside (PluginBeside R) P Q) :
    (findPlugin name P = none ∧ findPlugin name Q = none) ∨
    ∃ f g, findPlugin name P = some f ∧ findPlugin name Q = some g ∧ ParserBeside R f g := by
  induction h with
  | nil => exact .inl ⟨rfl, rfl⟩
  | @cons a b l m k _ ih =>
    simp only [findPlugin, List.findSome?_cons]
    rcases find_beside name k.1 k.2 with ⟨h1, h2⟩ | ⟨f, g, h1, h2, h3⟩
    · rw [h1, h2]; exact ih
    · rw [h1, h2]; exact .inr ⟨f, g, rfl, rfl, h3⟩

theorem resolveFn_beside (raw : RawFn) {P Q : List PluginFns} (h : Beside (PluginBeside R) P Q) :
    (resolveFn P raw = none ∧ resolveFn Q raw = none) ∨
    ∃ r r', resolveFn P raw = some r ∧ resolveFn Q raw = some r' ∧ Outcomes (FnBeside R) r r' := by
  unfold resolveFn
  cases hb : findBuiltin raw.name with
  | some f =>
    refine .inr ⟨_, _, rfl, rfl, Outcomes.refl _ fun g hg => .same ?_⟩
    intro p hp
    subst hp
    simp only [findBuiltin, Option.map_eq_some_iff] at hb
    obtain ⟨e, he, rfl⟩ := hb
    have hn := List.find?_some he
    have := builtinParsers_denotes e (List.mem_of_find?_eq_some he) raw _ (by simpa using hn : e.1 = raw.name).symm hg
    nomatch this
  | none =>
    rcases findPlugin_beside raw.name h with ⟨h1, h2⟩ | ⟨f, g, h1, h2, h3⟩
    · rw [h1, h2]; exact .inl ⟨rfl, rfl⟩
    · rw [h1, h2]
      exact .inr ⟨_, _, rfl, rfl, (h3.2 raw).bind fun a b k => .ok (.plugin k)⟩

/-- What is read of a tag, with the same text left. -/
def TagBeside (R : PluginFn → PluginFn → Prop) (x y : Token × PSt) : Prop := TokenBeside R x.1 y.1 ∧ x.2 = y.2

theorem parseTag_beside (U : Unicode) (path : Str) {P Q : List PluginFns} (h : Beside (PluginBeside R) P Q) (p : PSt) :
    Outcomes (TagBeside R) (parseTag U path P p) (parseTag U path Q p) := by
  have hf : Outcomes (TagBeside R) (parseFunction U path P p) (parseFunction U path Q p) := by
    simp only [parseFunction]
    split
    · exact .err _
    · refine Outcomes.bind (R := Eq) (Outcomes.refl _ fun _ _ => rfl) ?_
      rintro a _ rfl
      refine Outcomes.bind (R := Eq) (Outcomes.refl _ fun _ _ => rfl) ?_
      rintro b _ rfl
      rcases resolveFn_beside ⟨(p.extractWhile (isFnChar U)).1, b.1.1, b.1.2⟩ h with ⟨h1, h2⟩ | ⟨r, r', h1, h2, h3⟩
      · simp only [h1, h2]; exact .err _
      · simp only [h1, h2]
        exact (h3.mapErr _).bind fun f g k => .ok ⟨.func k, rfl⟩
  unfold parseTag
  split
  · refine Outcomes.refl _ ?_
    intro a ha
    simp only [parseVariable] at ha
    refine ⟨?_, rfl⟩
    cases hx : p.expect path ['$'] with
    | ok x =>
      rw [hx] at ha
      simp only [Res.bind] at ha
      split at ha
      · nomatch ha
      · cases ha; exact .var _
    | err e => rw [hx] at ha; nomatch ha
    | panic e => rw [hx] at ha; nomatch ha
  · exact hf
  · exact .err _

theorem parseHtmlGo_beside (U : Unicode) (path : Str) {P Q : List PluginFns} (h : Beside (PluginBeside R) P Q) :
    ∀ (n : Nat) (toks toks' : List LTok) (line col : Nat) (p : PSt), Beside (TokBeside R) toks toks' →
    Outcomes (Beside (TokBeside R)) (parseHtmlGo U path P n toks line col p) (parseHtmlGo U path Q n toks' line col p)
  | 0, _, _, _, _, _, _ => .panic _
  | n + 1, toks, toks', line, col, p, ht => by
    simp only [parseHtmlGo]
    rcases p.extractUntil str!"{{" true with ⟨_ | raw, p'⟩
    · exact .ok (ht.append (rawTok_beside _ _ _ _))
    · refine (parseTag_beside U path h _).bind ?_
      rintro ⟨t, q⟩ ⟨t', q'⟩ ⟨k1, k2⟩
      simp only at k1 k2
      subst k2
      refine Outcomes.bind (R := Eq) (Outcomes.refl _ fun _ _ => rfl) ?_
      rintro b _ rfl
      exact parseHtmlGo_beside U path h n _ _ _ _ _
        ((ht.append (rawTok_beside _ _ _ _)).append (.cons ⟨k1, rfl, rfl, rfl⟩ .nil))

theorem parseHtml_beside (U : Unicode) (path : Str) {P Q : List PluginFns} (h : Beside (PluginBeside R) P Q) (text : Str) :
    Outcomes (Beside (TokBeside R)) (parseHtml U path P text) (parseHtml U path Q text) :=
  parseHtmlGo_beside U path h _ _ _ _ _ _ .nil

theorem parseMarkdown_beside (U : Unicode) (path : Str) {P Q : List PluginFns} (h : Beside (PluginBeside R) P Q) (text : Str) :
    Outcomes (MdBeside R) (parseMarkdown U path P text) (parseMarkdown U path Q text) := by
  unfold parseMarkdown
  refine Outcomes.bind (R := Eq) (Outcomes.refl _ fun _ _ => rfl) ?_
  rintro a _ rfl
  exact (parseHtml_beside U path h _).bind fun l m k => .ok ⟨k, rfl, rfl, rfl⟩

theorem fns_beside {P Q : List Plugin} (h : Beside (WholeBeside R) P Q) :
    Beside (PluginBeside R) (P.map fun p => p.fns) (Q.map fun p => p.fns) := by
  induction h with
  | nil => exact .nil
  | cons k _ ih => exact .cons k.1 ih

theorem parsers_beside {P Q : List Plugin} (h : Beside (WholeBeside R) P Q) : (P.flatMap fun p => p.parsers) = Q.flatMap fun p => p.parsers := by
  induction h with
  | nil => rfl
  | cons k _ ih => rw [List.flatMap_cons, List.flatMap_cons, k.2, ih]

theorem parseContents_beside (S : Sys) {P Q : List Plugin} (h : Beside (WholeBeside R) P Q) (name src : Str) (b : Bytes) :
    Outcomes (ParsedBeside R) (parseContents S P name src b) (parseContents S Q name src b) := by
  simp only [parseContents]
  split
  · exact .ok .none
  · split
    · refine Outcomes.bind (R := Eq) (Outcomes.refl _ fun _ _ => rfl) ?_
      rintro a _ rfl
      exact ((parseHtml_beside S.U src (fns_beside h) a).mapErr _).bind fun _ _ k => .ok (.html k)
    · split
      · refine Outcomes.bind (R := Eq) (Outcomes.refl _ fun _ _ => rfl) ?_
        rintro a _ rfl
        exact ((parseMarkdown_beside S.U src (fns_beside h) a).mapErr _).bind fun _ _ k => .ok (.markdown k)
      · split
        · refine Outcomes.bind (R := Eq) (Outcomes.refl _ fun _ _ => rfl) ?_
          rintro a _ rfl
          refine Outcomes.bind (R := Eq) (Outcomes.refl _ fun _ _ => rfl) ?_
          rintro v _ rfl
          exact .ok (.json v)
        · simp only [findParser, parsers_beside h]
          split
          · exact .ok .none
          · refine Outcomes.bind (R := Eq) (Outcomes.refl _ fun _ _ => rfl) ?_
            rintro c _ rfl
            exact .ok (.custom c)

mutual
theorem readEntry_beside (S : Sys) (parse : Bool) {P Q : List Plugin} (h : Beside (WholeBeside R) P Q) (p : Path) (name : Str) :
    ∀ e, Outcomes (NodeBeside R) (readEntry S parse P p name e) (readEntry S parse Q p name e)
  | .file b => by
    simp only [readEntry, readFile]
    refine Outcomes.bind (R := ParsedBeside R) ?_ fun _ _ k => .ok (.file _ _ _ _ k)
    cases parse with
    | true => exact parseContents_beside S h _ _ _
    | false => exact .ok .ignored
  | .dir l => by
    rw [readEntry, readEntry]
    exact (readEntries_beside S parse h p l).bind fun _ _ k => .ok (.dir _ _ k)
  | .special => .err _
theorem readEntries_beside (S : Sys) (parse : Bool) {P Q : List Plugin} (h : Beside (WholeBeside R) P Q) (p : Path) :
    ∀ l, Outcomes (NodesBeside R) (readEntries S parse P p l) (readEntries S parse Q p l)
  | [] => .ok .nil
  | (n, e) :: l => by
    rw [readEntries, readEntries]
    exact (readEntry_beside S parse h (p ++ [n]) n e).bind fun _ _ k => (readEntries_beside S parse h p l).bind fun _ _ k' => .ok (.cons k k')
end

end Stuart
