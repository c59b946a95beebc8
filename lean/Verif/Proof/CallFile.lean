import Verif.Proof.Template
import Verif.Proof.Literal
/-
Helper lemmas: files with one call.
-/
namespace Stuart
open Spec

theorem callFile_parse (U : Unicode) (path : Str) (plugins : List PluginFns) (t : Text) (ht : t.WF) (hg : Glue t)
    (w w' : Str) (hw : Blank w) (hw' : Blank w') (c : Call) (hc : c.WF U) :
    ∃ loc', parseHtml U path plugins (callFile t w c w') =
      match resolveFn plugins c.raw with
      | some (.ok f) => .ok (rawTok path t.val 1 1 ++ [⟨.func f, path,
          ((t.src ++ str!"{{" ++ w).foldl Loc.adv Loc.start).line,
          ((t.src ++ str!"{{" ++ w).foldl Loc.adv Loc.start).col⟩])
      | some (.err e) => .err (PSt.tb ⟨str!"}}", loc'⟩ path e)
      | some (.panic q) => .panic q
      | none => .err ⟨path, ((t.src ++ str!"{{" ++ w).foldl Loc.adv Loc.start).line,
          ((t.src ++ str!"{{" ++ w).foldl Loc.adv Loc.start).col, .nonexistentFunction c.name⟩ := by
  have hbr : ∀ c, (str!"}}" : Str).head? = some c → isWs c = false := by
    intro c hc; simp at hc; subst hc; decide
  obtain ⟨l, e⟩ := parseFunction_src U path plugins c hc w' str!"}}"
    ((t.src ++ str!"{{" ++ w).foldl Loc.adv Loc.start) hw' hbr
  refine ⟨l, ?_⟩
  unfold callFile
  rw [parseHtml_first_tag U path plugins t ht hg w _ hw (call_head U c hc _), parseTag_call U path plugins c hc, e]
  cases hr : resolveFn plugins c.raw with
  | none => rfl
  | some r =>
    cases r with
    | err e => rfl
    | panic q => rfl
    | ok f =>
      simp only [Res.mapErr_ok, Res.bind_ok]
      have e2 := ignoreWhile_all isWs [] str!"}}" l (by simp) hbr
      rw [List.nil_append] at e2
      have e3 := expect_ok path str!"}}" [] l
      rw [List.append_nil] at e3
      rw [e2]
      simp only [List.foldl_nil]
      rw [e3]
      simp only [Res.bind_ok]
      have hlen : ∃ k, (t.src ++ str!"{{" ++ w ++ (c.src ++ (w' ++ str!"}}"))).length = k + 1 :=
        ⟨(t.src ++ str!"{{" ++ w ++ (c.src ++ (w' ++ str!"}}"))).length - 1, by simp; omega⟩
      obtain ⟨k, hk⟩ := hlen
      rw [hk]
      simp [parseHtmlGo, PSt.extractUntil, extractUntilGo, PSt.extractRemaining, replaceAll, replaceGo, rawTok]

theorem callFile_shadows (U : Unicode) (path : Str) (plugins plugins' : List PluginFns) (t : Text) (ht : t.WF)
    (hg : Glue t) (w w' : Str) (hw : Blank w) (hw' : Blank w') (c : Call) (hc : c.WF U)
    (hn : c.name ∈ builtinNames) :
    parseHtml U path plugins (callFile t w c w') = parseHtml U path plugins' (callFile t w c w') := by
  have hbr : ∀ c, (str!"}}" : Str).head? = some c → isWs c = false := by
    intro c hc; simp at hc; subst hc; decide
  obtain ⟨g, hg'⟩ := findBuiltin_some hn
  have hr : ∀ pl, resolveFn pl c.raw = some (g c.raw) := by
    intro pl
    unfold resolveFn
    rw [show c.raw.name = c.name from rfl, hg']
  have hpf : parseFunction U path plugins
        ⟨c.src ++ (w' ++ str!"}}"), (t.src ++ str!"{{" ++ w).foldl Loc.adv Loc.start⟩ =
      parseFunction U path plugins'
        ⟨c.src ++ (w' ++ str!"}}"), (t.src ++ str!"{{" ++ w).foldl Loc.adv Loc.start⟩ := by
    unfold parseFunction
    have hnm : ∀ loc, PSt.extractWhile (isFnChar U) ⟨c.src ++ (w' ++ str!"}}"), loc⟩ =
        (c.name, ⟨c.gap ++ (['('] ++ ((if c.args = [] then c.blank else argsSrc c.args) ++
          ')' :: (w' ++ str!"}}"))), c.name.foldl Loc.adv loc⟩) := by
      intro loc
      have := extractWhile_all (isFnChar U) c.name (c.gap ++ (['('] ++
          ((if c.args = [] then c.blank else argsSrc c.args) ++ ')' :: (w' ++ str!"}}")))) loc
        (fun d hd => (isFnChar_iff U d).2 (hc.name.2 d hd)) (by
          intro d hd
          rcases head_blank_append hc.gap hd with hd | hd
          · exact isFnChar_false_of_ws U hd
          · simp at hd; subst hd
            rw [Bool.eq_false_iff]
            intro h2
            rcases (isFnChar_iff U _).1 h2 with h3 | h3 | h3
            · exact not_alnum U '(' (by decide) (by decide) h3
            · revert h3; decide
            · revert h3; decide)
      rw [← this]
      simp [Call.src]
    rw [hnm]
    have hall : ∀ pos named, resolveFn plugins ⟨c.name, pos, named⟩ = resolveFn plugins' ⟨c.name, pos, named⟩ := by
      intro pos named
      unfold resolveFn
      simp only [hg']
    simp only [hall]
  unfold callFile
  rw [parseHtml_first_tag U path plugins t ht hg w _ hw (call_head U c hc _),
    parseHtml_first_tag U path plugins' t ht hg w _ hw (call_head U c hc _),
    parseTag_call U path plugins c hc, parseTag_call U path plugins' c hc, ← hpf]
  obtain ⟨l, e⟩ := parseFunction_src U path plugins c hc w' str!"}}"
    ((t.src ++ str!"{{" ++ w).foldl Loc.adv Loc.start) hw' hbr
  rw [e, hr plugins]
  cases g c.raw with
  | err e => rfl
  | panic q => rfl
  | ok f =>
    simp only [Res.mapErr_ok, Res.bind_ok]
    have e2 := ignoreWhile_all isWs [] str!"}}" l (by simp) hbr
    rw [List.nil_append] at e2
    have e3 := expect_ok path str!"}}" [] l
    rw [List.append_nil] at e3
    rw [e2]
    simp only [List.foldl_nil]
    rw [e3]
    simp only [Res.bind_ok]
    have hlen : ∃ k, (t.src ++ str!"{{" ++ w ++ (c.src ++ (w' ++ str!"}}"))).length = k + 1 :=
      ⟨(t.src ++ str!"{{" ++ w ++ (c.src ++ (w' ++ str!"}}"))).length - 1, by simp; omega⟩
    obtain ⟨k, hk⟩ := hlen
    rw [hk]
    simp [parseHtmlGo, PSt.extractUntil, extractUntilGo]

end Stuart
