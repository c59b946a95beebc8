import Verif.Proof.Mode
import Verif.Proof.Grammar
import Verif.Proof.Kinds
import Verif.Proof.Read
/-
A text without `$env` does not look at it.
-/
namespace Stuart
open Spec

theorem splitOn_prefix (d : Char) : ∀ s : Str, ∃ n is, splitOn d s = n :: is ∧ n <+: s
  | [] => ⟨[], [], rfl, List.nil_prefix⟩
  | c :: cs => by
    rw [splitOn]
    split
    · exact ⟨_, _, rfl, List.nil_prefix⟩
    · obtain ⟨n, is, h1, h2⟩ := splitOn_prefix d cs
      rw [h1]
      exact ⟨c :: n, is, rfl, List.prefix_cons_inj c |>.2 h2⟩

theorem notEnv_of {v text : Str} (h : ¬ str!"$env" <:+: text) (hv : '$' :: v <:+: text) : NotEnv v := by
  intro k
  refine h (List.IsInfix.trans (List.IsPrefix.isInfix ?_) hv)
  obtain ⟨n, is, h1, h2⟩ := splitOn_prefix '.' v
  unfold splitVar at k
  rw [h1] at k
  subst k
  exact (List.prefix_cons_inj '$').2 h2

theorem argVal_infix {U : Unicode} {s : Str} {a : RawArg} (h : ArgVal U s a) {v : Str} (ha : a = .var v) : '$' :: v <:+: s := by
  cases h with
  | var w _ => cases ha; exact List.infix_rfl
  | _ => cases ha

theorem slot_infix {U : Unicode} {s : Str} {l : List (Option Str × RawArg)} (h : Slot U s l) {k : Option Str} {v : Str} (hm : (k, RawArg.var v) ∈ l) :
    '$' :: v <:+: s := by
  cases h with
  | blank w _ => cases hm
  | pos w x w' a _ h2 _ =>
    cases List.mem_singleton.1 hm
    exact (argVal_infix h2 rfl).trans ⟨w, w', rfl⟩
  | named w n x w' a _ _ _ h2 _ =>
    cases List.mem_singleton.1 hm
    exact (argVal_infix h2 rfl).trans ⟨w ++ (n ++ ['=']), w', by simp⟩

theorem slots_infix {U : Unicode} {s : Str} {l : List (Option Str × RawArg)} (h : Slots U s l) {k : Option Str} {v : Str} (hm : (k, RawArg.var v) ∈ l) :
    '$' :: v <:+: s := by
  induction h with
  | last h => exact slot_infix h hm
  | @cons s r l l' h _ ih =>
    rcases List.mem_append.1 hm with hm | hm
    · exact (slot_infix h hm).trans ⟨[], ',' :: r, by simp⟩
    · exact (ih hm).trans ⟨s ++ [','], [], by simp⟩

theorem fn_noEnv {plugins : List PluginFns} (hb : ∀ p ∈ plugins, ∀ f ∈ p.functions, ∀ raw g, f.parse raw = .ok g → Blind g)
    {raw : RawFn} {f : Fn} (h : Denotes plugins raw f) (hv : ∀ v, RawArg.var v ∈ raw.pos → NotEnv v) : f.NoEnv := by
  cases h with
  | plugin _ h2 h3 =>
    obtain ⟨pre, pl, post, fpre, fpost, h4, h5, _⟩ := h2
    exact hb pl (by rw [h4]; simp) _ (by rw [h5]; simp) _ _ h3
  | builtin h =>
    cases h with
    | excerpt v n => exact hv v (by simp)
    | ifdefined v => exact hv v (by simp)
    | timetoread v => exact hv v (by simp)
    | dateformat v g => exact hv v (by simp)
    | import_ v f => exact hv v (by simp)
    | cmp op a b =>
      refine ⟨?_, ?_⟩
      · cases a with
        | var v => exact hv v (by simp [inp])
        | _ => trivial
      · cases b with
        | var v => exact hv v (by simp [inp])
        | _ => trivial
    | forVar v s _ => exact fun _ => hv s (by simp)
    | forJson v s _ => exact fun k => by cases k
    | forDir v s _ => exact fun k => by cases k
    | _ => trivial

theorem tag_noEnv {U : Unicode} {plugins : List PluginFns} (hb : ∀ p ∈ plugins, ∀ f ∈ p.functions, ∀ raw g, f.parse raw = .ok g → Blind g)
    {t : Token} {body : Str} (h : TagText U plugins t body) (hn : ¬ str!"$env" <:+: body) : t.NoEnv := by
  cases h with
  | var n w _ _ _ => exact notEnv_of hn ⟨[], w, by simp⟩
  | func f name gap args w pos named _ _ _ h4 _ h6 =>
    refine fn_noEnv hb h6 fun v hv => notEnv_of hn ?_
    refine (slots_infix h4 (k := none) (v := v) ?_).trans ⟨name ++ gap ++ ['('], ')' :: w, by simp⟩
    exact List.mem_append_left _ (List.mem_map.2 ⟨_, hv, rfl⟩)

theorem rawAt_noEnv (path pre s : Str) : ∀ t ∈ rawAt path pre s, t.inner.NoEnv := by
  unfold rawAt
  split
  · nofun
  · intro t ht
    cases List.mem_singleton.1 ht
    trivial

theorem parses_noEnv {U : Unicode} {path : Str} {plugins : List PluginFns}
    (hb : ∀ p ∈ plugins, ∀ f ∈ p.functions, ∀ raw g, f.parse raw = .ok g → Blind g)
    {pre rest : Str} {toks : List LTok} (h : Parses U path plugins pre rest toks) (hn : ¬ str!"$env" <:+: rest) : ∀ t ∈ toks, t.inner.NoEnv := by
  induction h with
  | last pre rest _ => exact rawAt_noEnv _ _ _
  | tag pre txt ws body rest toks t _ _ h3 _ ih =>
    intro x hx
    rcases List.mem_append.1 hx with hx | hx
    · exact rawAt_noEnv _ _ _ x hx
    · rcases List.mem_cons.1 hx with hx | hx
      · subst hx
        exact tag_noEnv hb h3 fun k => hn (k.trans ⟨txt ++ str!"{{" ++ ws, str!"}}" ++ rest, by simp⟩)
      · exact ih (fun k => hn (k.trans ⟨txt ++ str!"{{" ++ ws ++ body ++ str!"}}", [], by simp⟩)) x hx

theorem parseHtml_noEnv {U : Unicode} {path : Str} {plugins : List PluginFns}
    (hb : ∀ p ∈ plugins, ∀ f ∈ p.functions, ∀ raw g, f.parse raw = .ok g → Blind g)
    {input : Str} {toks : List LTok} (h : parseHtml U path plugins input = .ok toks) (hn : ¬ str!"$env" <:+: input) : ∀ t ∈ toks, t.inner.NoEnv :=
  parses_noEnv hb ((parseHtml_iff U path plugins input toks).1 h) hn

/-! ### Lines -/

theorem linesGo_infix : ∀ (s cur : Str), ∀ l ∈ linesGo cur s, l <:+: cur ++ s
  | [], cur, l, h => by
    rw [linesGo] at h
    split at h
    · cases h
    · cases List.mem_singleton.1 h
      rw [List.append_nil]
      exact List.infix_rfl
  | c :: cs, cur, l, h => by
    rw [linesGo] at h
    split at h
    · rcases List.mem_cons.1 h with h | h
      · subst h
        cases hs : stripSuffix ['\r'] cur with
        | none => exact ⟨[], c :: cs, by simp⟩
        | some t =>
          refine ⟨[], '\r' :: c :: cs, ?_⟩
          have : cur = t ++ ['\r'] := by
            unfold stripSuffix at hs
            cases hp : stripPrefix ['\r'].reverse cur.reverse with
            | none => rw [hp] at hs; cases hs
            | some u =>
              rw [hp] at hs
              cases hs
              cases hc : cur.reverse with
              | nil => rw [hc] at hp; cases hp
              | cons x xs =>
                rw [hc] at hp
                simp only [List.reverse_cons, List.reverse_nil, List.nil_append, stripPrefix] at hp
                split at hp
                · rename_i hx
                  subst hx
                  cases hp
                  have := congrArg List.reverse hc
                  simpa using this
                · cases hp
          simp [this]
      · exact (linesGo_infix cs [] l h).trans ⟨cur ++ [c], [], by simp⟩
    · have := linesGo_infix cs (cur ++ [c]) l h
      simpa using this

theorem infix_join {w : Str} (hw : '\n' ∉ w) : ∀ ls : List Str, w <:+: joinLines ls → w = [] ∨ ∃ l ∈ ls, w <:+: l
  | [], h => .inl (List.eq_nil_of_infix_nil h)
  | [l], h => .inr ⟨l, .head _, h⟩
  | l :: l2 :: ls, h => by
    rw [joinLines.eq_3 _ _ (by simp)] at h
    by_cases h0 : w = []
    · exact .inl h0
    obtain ⟨a, b, hab⟩ := h
    have : w <:+: l ∨ w <:+: joinLines (l2 :: ls) := by
      rw [List.append_assoc] at hab
      rcases List.append_eq_append_iff.1 hab with ⟨c, h1, h2⟩ | ⟨c, h1, h2⟩
      · rcases List.append_eq_append_iff.1 h2 with ⟨e, h3, h4⟩ | ⟨e, h3, h4⟩
        · exact .inl ⟨a, e, by rw [h1, h3]; simp⟩
        · cases e with
          | nil => exact .inl ⟨a, [], by rw [h1, h3]; simp⟩
          | cons x e =>
            cases (List.cons.inj h4).1
            exact absurd (by rw [h3]; simp) hw
      · cases c with
        | nil =>
          cases w with
          | nil => exact absurd rfl h0
          | cons x w => cases (List.cons.inj h2).1; exact absurd (.head _) hw
        | cons x c =>
          obtain ⟨_, h5⟩ := List.cons.inj h2
          exact .inr ⟨c, b, by rw [h5]; simp⟩
    rcases this with h | h
    · exact .inr ⟨l, .head _, h⟩
    · rcases infix_join hw _ h with h | ⟨x, hx, h⟩
      · exact .inl h
      · exact .inr ⟨x, .tail _ hx, h⟩

theorem parseMarkdown_noEnv {U : Unicode} {path : Str} {plugins : List PluginFns}
    (hb : ∀ p ∈ plugins, ∀ f ∈ p.functions, ∀ raw g, f.parse raw = .ok g → Blind g)
    {input : Str} {md : ParsedMd} (h : parseMarkdown U path plugins input = .ok md) (hn : ¬ str!"$env" <:+: input) : ∀ t ∈ md.markdown, t.inner.NoEnv := by
  unfold parseMarkdown at h
  obtain ⟨⟨skip, fm⟩, _, h2⟩ := Res.bind_eq_ok.1 h
  obtain ⟨toks, h3, h4⟩ := Res.bind_eq_ok.1 h2
  cases h4
  refine parseHtml_noEnv hb h3 fun k => ?_
  rcases infix_join (by decide) _ k with k | ⟨l, hl, k⟩
  · cases k
  · have := linesGo_infix input [] l (List.mem_of_mem_drop hl)
    exact hn (k.trans this)

/-! ### Trees -/

theorem parseContents_noEnv {S : Sys} {plugins : List Plugin} (hb : AllBlind plugins) {name src : Str} {b : Bytes} {p : Parsed}
    (h : parseContents S plugins name src b = .ok p)
    (ht : HasExt name str!"html" ∨ HasExt name str!"md" → ∀ text, fromUtf8 b = some text → ¬ str!"$env" <:+: text) : p.NoEnv := by
  have hb' : ∀ p ∈ plugins.map (fun p => p.fns), ∀ f ∈ p.functions, ∀ raw g, f.parse raw = .ok g → Blind g := by
    intro p hp
    obtain ⟨q, hq, rfl⟩ := List.mem_map.1 hp
    exact hb q hq
  unfold parseContents at h
  split at h
  · cases h; trivial
  · rename_i e he
    have he := extension_iff.1 he
    split at h
    · rename_i k
      subst k
      obtain ⟨s, h1, h2⟩ := Res.bind_eq_ok.1 h
      obtain ⟨toks, h3, h4⟩ := Res.bind_eq_ok.1 h2
      cases h4
      have h1 : fromUtf8 b = some s := by
        cases hf : fromUtf8 b with
        | none => rw [hf] at h1; cases h1
        | some x => rw [hf] at h1; cases h1; rfl
      cases hp : parseHtml S.U src (plugins.map fun p => p.fns) s with
      | err e => rw [hp] at h3; cases h3
      | panic e => rw [hp] at h3; cases h3
      | ok x => rw [hp] at h3; cases h3; exact parseHtml_noEnv hb' hp (ht (.inl he) s h1)
    · split at h
      · rename_i k
        subst k
        obtain ⟨s, h1, h2⟩ := Res.bind_eq_ok.1 h
        obtain ⟨md, h3, h4⟩ := Res.bind_eq_ok.1 h2
        cases h4
        have h1 : fromUtf8 b = some s := by
          cases hf : fromUtf8 b with
          | none => rw [hf] at h1; cases h1
          | some x => rw [hf] at h1; cases h1; rfl
        cases hp : parseMarkdown S.U src (plugins.map fun p => p.fns) s with
        | err e => rw [hp] at h3; cases h3
        | panic e => rw [hp] at h3; cases h3
        | ok x => rw [hp] at h3; cases h3; exact parseMarkdown_noEnv hb' hp (ht (.inr he) s h1)
      · split at h
        · obtain ⟨s, h1, h2⟩ := Res.bind_eq_ok.1 h
          obtain ⟨v, h3, h4⟩ := Res.bind_eq_ok.1 h2
          cases h4; trivial
        · split at h
          · cases h; trivial
          · obtain ⟨v, h3, h4⟩ := Res.bind_eq_ok.1 h
            cases h4; trivial

mutual
theorem readEntry_noEnv {S : Sys} {plugins : List Plugin} (hb : AllBlind plugins) {d : Entry} (hd : ProperDisk d) {content : Path} (hn : NoEnv d content)
    (ds : Path) (name : Str) : ∀ (e : Entry) (n : Node), d.at (content ++ ds ++ [name]) = some e →
      readEntry S true plugins (content ++ ds ++ [name]) name e = .ok n → n.NoEnv
  | .file b, n, hat, h => by
    rw [readEntry, readFile] at h
    obtain ⟨c, h1, h2⟩ := Res.bind_eq_ok.1 h
    cases h2
    refine parseContents_noEnv hb h1 fun hx text ht => hn ds name b text ?_ hx ht
    unfold look
    rw [hat]
    rfl
  | .dir l, n, hat, h => by
    rw [readEntry] at h
    obtain ⟨cs, h1, h2⟩ := Res.bind_eq_ok.1 h
    cases h2
    have hp := hd _ l hat
    have he : content ++ ds ++ [name] = content ++ (ds ++ [name]) := by simp
    rw [he] at h1 hat
    exact readEntries_noEnv hb hd hn (ds ++ [name]) l cs (fun n e hm => by
      rw [at_append, hat]
      simp only [Option.bind_some, Entry.at, (findEntry_mem hp.1).2 hm]) h1
  | .special, n, _, h => by rw [readEntry] at h; cases h
theorem readEntries_noEnv {S : Sys} {plugins : List Plugin} (hb : AllBlind plugins) {d : Entry} (hd : ProperDisk d) {content : Path} (hn : NoEnv d content)
    (ds : Path) : ∀ (l : List (Str × Entry)) (cs : List Node), (∀ n e, (n, e) ∈ l → d.at (content ++ ds ++ [n]) = some e) →
      readEntries S true plugins (content ++ ds) l = .ok cs → NodesNoEnv cs
  | [], cs, _, h => by rw [readEntries] at h; cases h; trivial
  | (n, e) :: l, cs, hm, h => by
    rw [readEntries] at h
    obtain ⟨c, h1, h2⟩ := Res.bind_eq_ok.1 h
    obtain ⟨cs', h3, h4⟩ := Res.bind_eq_ok.1 h2
    cases h4
    exact ⟨readEntry_noEnv hb hd hn ds n e c (hm n e (.head _)) h1, readEntries_noEnv hb hd hn ds l cs' (fun n e k => hm n e (.tail _ k)) h3⟩
end

theorem readTree_noEnv {S : Sys} {plugins : List Plugin} (hb : AllBlind plugins) {d : Entry} (hd : ProperDisk d) {content : Path} (hn : NoEnv d content)
    {n : Node} (h : readTree S true plugins d content = .ok n) : n.NoEnv := by
  unfold readTree at h
  split at h
  · rename_i l hl
    obtain ⟨cs', h1, h2⟩ := Res.bind_eq_ok.1 h
    obtain ⟨nm, h3, h4⟩ := Res.bind_eq_ok.1 h2
    cases h4
    have hp := hd _ l hl
    refine readEntries_noEnv hb hd hn [] l cs' (fun n e hm => ?_) (by rw [List.append_nil]; exact h1)
    rw [List.append_nil, at_append, hl]
    simp only [Option.bind_some, Entry.at, (findEntry_mem hp.1).2 hm]
  · cases h

mutual
theorem readEntry_vars (S : Sys) (vars : List (Str × Str)) (parse : Bool) (plugins : List Plugin) : ∀ (e : Entry) (p : Path) (name : Str),
    readEntry { S with vars := vars } parse plugins p name e = readEntry S parse plugins p name e
  | .file b, p, name => by rw [readEntry, readEntry]; rfl
  | .dir l, p, name => by rw [readEntry, readEntry, readEntries_vars S vars parse plugins l p]
  | .special, p, name => by rw [readEntry, readEntry]
theorem readEntries_vars (S : Sys) (vars : List (Str × Str)) (parse : Bool) (plugins : List Plugin) : ∀ (l : List (Str × Entry)) (p : Path),
    readEntries { S with vars := vars } parse plugins p l = readEntries S parse plugins p l
  | [], p => by rw [readEntries, readEntries]
  | (n, e) :: l, p => by rw [readEntries, readEntries, readEntry_vars S vars parse plugins e, readEntries_vars S vars parse plugins l]
end

theorem readTree_vars (S : Sys) (vars : List (Str × Str)) (parse : Bool) (plugins : List Plugin) (d : Entry) (p : Path) :
    readTree { S with vars := vars } parse plugins d p = readTree S parse plugins d p := by
  unfold readTree
  split
  · rw [readEntries_vars]
  · rfl

theorem children_noEnv {n : Node} (h : n.NoEnv) : NodesNoEnv (n.children.getD []) := by
  cases n with
  | file => trivial
  | dir => exact h

theorem projectBuild_unseen (S : Sys) (vars : List (Str × Str)) (mode mode' : Str) {s : Project} (hb : AllBlind s.plugins) {d : Entry} (hd : ProperDisk d)
    (hn : NoEnv d s.dir) : s.build { S with vars := vars } d mode' = s.build S d mode := by
  unfold Project.build
  rw [readTree_vars]
  cases ht : readTree S true s.plugins d s.dir with
  | err e => rfl
  | panic e => rfl
  | ok input =>
    have hi := readTree_noEnv hb hd hn ht
    have hbl := baseFrame_blank S.vars vars mode mode'
    simp only
    rw [preNode_unseen S.ext _ hbl input hi]
    cases hp : preNode S.ext ⟨input, S.dateFmt⟩ (baseFrame S.vars mode) input with
    | err e => rfl
    | panic e => rfl
    | ok input' =>
      have hi' := preNode_noEnv input input' hi hp
      simp only
      rw [buildNode_unseen (b := ⟨⟨input', S.dateFmt⟩, baseFrame S.vars mode, s.config⟩) (b' := ⟨⟨input', S.dateFmt⟩, baseFrame vars mode', s.config⟩)
        rfl hbl rfl input' _ hi' (updateEnv_noEnv _ _ ⟨fun _ k => (by cases k), fun _ k => (by cases k)⟩ (children_noEnv hi'))]

end Stuart
