import Verif.Proof.Grammar
import Verif.Proof.Errors
/-
Where the parser reports errors.
-/
namespace Stuart
open Spec

/-- The error is reported at a place reached from `p` by reading on. -/
def Stops (path : Str) (p : PSt) (e : TB ParseErr) : Prop :=
  ∃ x p', Reads p x p' ∧ e.path = path ∧ e.line = p'.loc.line ∧ e.col = p'.loc.col

theorem Stops.here {path : Str} {p : PSt} (k : ParseErr) : Stops path p (p.tb path k) :=
  ⟨[], p, Reads.refl p, rfl, rfl, rfl⟩

theorem Stops.after {path : Str} {p q : PSt} {x : Str} {e : TB ParseErr} (h : Reads p x q) (hs : Stops path q e) :
    Stops path p e := by
  obtain ⟨y, p', hr, he⟩ := hs
  exact ⟨x ++ y, p', h.trans hr, he⟩

theorem next_reads {p p' : PSt} {c : Char} (h : p.next = some (c, p')) : Reads p [c] p' := by
  unfold PSt.next at h
  split at h
  · cases h
  · rename_i d cs hr
    cases h
    exact ⟨hr, rfl⟩

theorem expectGo_stops (path whole : Str) : ∀ (s : Str) (p : PSt) (e : TB ParseErr),
    PSt.expectGo path whole s p = .err e → Stops path p e
  | [], p, e, h => by simp [PSt.expectGo] at h
  | c :: s, p, e, h => by
    unfold PSt.expectGo at h
    split at h
    · cases h; exact .here _
    · rename_i c' p' hn
      have hr := next_reads hn
      split at h
      · exact .after hr (expectGo_stops path whole s p' e h)
      · cases h; exact .after hr (.here _)

theorem expect_stops {path s : Str} {p : PSt} {e : TB ParseErr} (h : p.expect path s = .err e) : Stops path p e :=
  expectGo_stops path s s p e h

theorem ignoreWs_reads' (p : PSt) : ∃ w, Reads p w (p.ignoreWhile isWs) :=
  let ⟨w, _, h⟩ := ignoreWs_reads p
  ⟨w, h⟩

theorem parseArgs_stops (U : Unicode) (path : Str) : ∀ (n : Nat) (pos : List RawArg) (named : List (Str × RawArg)) (p : PSt)
    (e : TB ParseErr), parseArgs U path n pos named p = .err e → Stops path p e
  | 0, _, _, _, _, h => by simp [parseArgs] at h
  | n + 1, pos, named, p, e, h => by
    unfold parseArgs at h
    obtain ⟨w, hw⟩ := ignoreWs_reads' p
    refine .after hw ?_
    simp only at h
    generalize p.ignoreWhile isWs = p1 at h
    have hr : Reads p1 (p1.extractWhileS argScan false).1 (p1.extractWhileS argScan false).2 := extractWhileGo_reads _ _ _ _
    refine .after hr ?_
    generalize p1.extractWhileS argScan false = x at h
    obtain ⟨txt, p2⟩ := x
    simp only at h ⊢
    rcases Res.bind_eq_err.1 h with h1 | ⟨⟨pos', named'⟩, h1, h2⟩
    · obtain ⟨k, _, rfl⟩ := Res.mapErr_eq_err.1 h1
      exact .here k
    · simp only at h2
      split at h2
      · cases h2; exact .here _
      · rename_i c p3 hn
        refine .after (next_reads hn) ?_
        split at h2
        · cases h2
        · split at h2
          · exact parseArgs_stops U path n _ _ p3 e h2
          · cases h2

theorem parseFunction_stops {U : Unicode} {path : Str} {plugins : List PluginFns} {p : PSt} {e : TB ParseErr}
    (h : parseFunction U path plugins p = .err e) : Stops path p e := by
  unfold parseFunction at h
  have hr := extractWhile_reads (isFnChar U) p
  generalize p.extractWhile (isFnChar U) = x at h hr
  obtain ⟨name, p1⟩ := x
  simp only at h hr
  split at h
  · cases h; exact .after hr (.here _)
  · obtain ⟨w, hw⟩ := ignoreWs_reads' p1
    generalize p1.ignoreWhile isWs = p2 at h hw
    have hr2 := hr.trans hw
    rcases Res.bind_eq_err.1 h with h1 | ⟨⟨u, p3⟩, h1, h2⟩
    · exact .after hr2 (expect_stops h1)
    · have hr3 := hr2.trans (expect_reads h1)
      rcases Res.bind_eq_err.1 h2 with h3 | ⟨⟨⟨pos, named⟩, p4⟩, h3, h4⟩
      · exact .after hr3 (parseArgs_stops U path _ _ _ _ _ h3)
      · obtain ⟨y, hy⟩ := parseArgs_reads U path _ _ _ _ _ _ h3
        have hr4 := hr3.trans hy
        simp only at h4
        obtain ⟨w', hw'⟩ := ignoreWs_reads' p4
        generalize p4.ignoreWhile isWs = p5 at h4 hw'
        have hr5 := hr4.trans hw'
        split at h4
        · rcases Res.bind_eq_err.1 h4 with h5 | ⟨f, _, h5⟩
          · obtain ⟨k, _, rfl⟩ := Res.mapErr_eq_err.1 h5
            exact .after hr5 (.here k)
          · cases h5
        · cases h4; exact .here _

theorem parseVariable_stops {U : Unicode} {path : Str} {p : PSt} {e : TB ParseErr}
    (h : parseVariable U path p = .err e) : Stops path p e := by
  unfold parseVariable at h
  rcases Res.bind_eq_err.1 h with h1 | ⟨⟨u, p1⟩, h1, h2⟩
  · exact expect_stops h1
  · have hr := expect_reads h1
    simp only at h2
    have hr2 := extractWhile_reads (isVarChar U) p1
    generalize p1.extractWhile (isVarChar U) = x at h2 hr2
    obtain ⟨name, p2⟩ := x
    simp only at h2
    split at h2
    · cases h2; exact .after (hr.trans hr2) (.here _)
    · cases h2

theorem parseTag_stops {U : Unicode} {path : Str} {plugins : List PluginFns} {p : PSt} {e : TB ParseErr}
    (h : parseTag U path plugins p = .err e) : Stops path p e := by
  unfold parseTag at h
  split at h
  · exact parseVariable_stops h
  · exact parseFunction_stops h
  · cases h; exact .here _

/-- There is no whole tag after an opener where the parser fails. -/
theorem not_tag {U : Unicode} {path : Str} {plugins : List PluginFns} {s : Str} {loc : Loc} {e : TB ParseErr} {ws body rest : Str} {t : Token}
    (hw : Blank ws) (ht : TagText U plugins t body) (hs : s = ws ++ body ++ str!"}}" ++ rest)
    (h : ((parseTag U path plugins (PSt.ignoreWhile isWs ⟨s, loc⟩)).bind fun x => (x.2.ignoreWhile isWs).expect path str!"}}") = .err e) : False := by
  have hsrc : s = ws ++ (body ++ (str!"}}" ++ rest)) := by rw [hs]; simp
  have e1 := ignoreWhile_all isWs ws (body ++ (str!"}}" ++ rest)) loc hw (tagText_head ht _)
  obtain ⟨p, x, w, e2, rfl, hw2, rfl⟩ := parseTag_text (path := path) ht rest (ws.foldl Loc.adv loc)
  have e3 := ignoreWhile_all isWs w (str!"}}" ++ rest) (x.foldl Loc.adv (ws.foldl Loc.adv loc)) hw2
    (by intro c hc; simp at hc; subst hc; decide)
  have e4 := expect_ok path str!"}}" rest (w.foldl Loc.adv (x.foldl Loc.adv (ws.foldl Loc.adv loc)))
  rw [hsrc, e1, e2] at h
  simp only [Res.bind_ok] at h
  rw [e3, e4] at h
  cases h

theorem parseHtmlGo_err (U : Unicode) (path : Str) (plugins : List PluginFns) : ∀ (n : Nat) (toks : List LTok) (line col : Nat)
    (pre : Str) (p : PSt) (e : TB ParseErr), p.loc = pre.foldl Loc.adv Loc.start → Tags U plugins pre →
    parseHtmlGo U path plugins n toks line col p = .err e →
    ∃ pre' txt part rest, Tags U plugins pre' ∧ OpensAfter txt ∧
      pre ++ p.rest = pre' ++ txt ++ str!"{{" ++ part ++ rest ∧
      (∀ ws body rest' t, Blank ws → TagText U plugins t body → part ++ rest ≠ ws ++ body ++ str!"}}" ++ rest') ∧
      e.path = path ∧ e.line = lineAt (pre' ++ txt ++ str!"{{" ++ part) ∧ e.col = colAt (pre' ++ txt ++ str!"{{" ++ part)
  | 0, _, _, _, _, _, _, _, _, h => by simp [parseHtmlGo] at h
  | n + 1, toks, line, col, pre, p, e, hloc, hpre, h => by
    unfold parseHtmlGo at h
    split at h
    · cases h
    · rename_i raw p1 h1
      obtain ⟨txt, ho, rfl, r1⟩ := extractUntil_some h1
      have hnot : ∀ d, ((parseTag U path plugins (p1.ignoreWhile isWs)).bind fun x => (x.2.ignoreWhile isWs).expect path str!"}}") = .err d →
          ∀ ws body rest' t, Blank ws → TagText U plugins t body → p1.rest ≠ ws ++ body ++ str!"}}" ++ rest' :=
        fun d hd ws body rest' t hw ht hs => not_tag (s := p1.rest) (loc := p1.loc) hw ht hs hd
      obtain ⟨ws, hws, r2⟩ := ignoreWs_reads p1
      simp only at h
      generalize p1.ignoreWhile isWs = p2 at h r2 hnot
      have close : ∀ {x : Str} {d : TB ParseErr} {p' : PSt}, Reads p1 x p' → d.path = path ∧ d.line = p'.loc.line ∧ d.col = p'.loc.col →
          (∀ ws body rest' t, Blank ws → TagText U plugins t body → p1.rest ≠ ws ++ body ++ str!"}}" ++ rest') →
          ∃ pre' txt part rest, Tags U plugins pre' ∧ OpensAfter txt ∧
            pre ++ p.rest = pre' ++ txt ++ str!"{{" ++ part ++ rest ∧
            (∀ ws body rest' t, Blank ws → TagText U plugins t body → part ++ rest ≠ ws ++ body ++ str!"}}" ++ rest') ∧
            d.path = path ∧ d.line = lineAt (pre' ++ txt ++ str!"{{" ++ part) ∧ d.col = colAt (pre' ++ txt ++ str!"{{" ++ part) := by
        intro x d p' hr hd hn
        have hl : p'.loc = (pre ++ txt ++ str!"{{" ++ x).foldl Loc.adv Loc.start := by
          rw [(r1.trans hr).2, hloc, ← List.foldl_append]; simp
        refine ⟨pre, txt, x, p'.rest, hpre, ho, by rw [(r1.trans hr).1]; simp, ?_, hd.1, ?_, ?_⟩
        · rw [← hr.1]; exact hn
        · rw [hd.2.1, hl, foldl_adv_line]
        · rw [hd.2.2, hl, foldl_adv_col]
      rcases Res.bind_eq_err.1 h with h3 | ⟨⟨tok, p3⟩, h3, h4⟩
      · obtain ⟨x, p', hr, hd⟩ := parseTag_stops h3
        exact close (r2.trans hr) hd (hnot e (by rw [h3]; rfl))
      · obtain ⟨body, hbody, r3⟩ := text_of_parseTag h3
        obtain ⟨w2, hw2, r4⟩ := ignoreWs_reads p3
        simp only at h4
        rw [h3] at hnot
        simp only [Res.bind_ok] at hnot
        generalize p3.ignoreWhile isWs = p4 at h4 r4 hnot
        rcases Res.bind_eq_err.1 h4 with h5 | ⟨⟨u, p5⟩, h5, h6⟩
        · obtain ⟨x, p', hr, hd⟩ := expect_stops h5
          exact close (((r2.trans r3).trans r4).trans hr) hd (hnot e h5)
        · have r5 := expect_reads h5
          have rr := ((((r1.trans r2).trans r3).trans r4).trans r5)
          have hloc5 : p5.loc = (pre ++ txt ++ str!"{{" ++ ws ++ (body ++ w2) ++ str!"}}").foldl Loc.adv Loc.start := by
            rw [rr.2, hloc, ← List.foldl_append]
            simp
          have hrest : pre ++ p.rest = pre ++ txt ++ str!"{{" ++ ws ++ (body ++ w2) ++ str!"}}" ++ p5.rest := by
            rw [rr.1]; simp
          rw [hrest]
          exact parseHtmlGo_err U path plugins n _ _ _ _ p5 e hloc5 (.tag hpre ho hws (tagText_append hbody hw2)) h6

theorem parseHtml_err {U : Unicode} {path : Str} {plugins : List PluginFns} {input : Str} {e : TB ParseErr}
    (h : parseHtml U path plugins input = .err e) :
    ∃ pre txt part rest, Tags U plugins pre ∧ OpensAfter txt ∧ input = pre ++ txt ++ str!"{{" ++ part ++ rest ∧
      (∀ ws body rest' t, Blank ws → TagText U plugins t body → part ++ rest ≠ ws ++ body ++ str!"}}" ++ rest') ∧
      e.path = path ∧ e.line = lineAt (pre ++ txt ++ str!"{{" ++ part) ∧ e.col = colAt (pre ++ txt ++ str!"{{" ++ part) :=
  parseHtmlGo_err U path plugins _ [] 1 1 [] (PSt.init input) e rfl .nil h

end Stuart
