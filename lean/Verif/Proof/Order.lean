import Verif.Spec.Order
import Verif.Proof.Scope
import Verif.Proof.Tree
import Verif.Proof.Utf8
import Verif.Proof.Read
import Verif.Proof.Concrete
import Verif.Proof.Plugins
import Verif.Proof.Project
import Verif.Props.Block
/-
Trees that differ in the order of the children only are built in the same way.
-/
namespace Stuart
open Spec

/-- Lists of nodes that differ in order only, at every level. With `D` only nodes of different names change places. -/
inductive LikeAll (D : Prop) : List Node → List Node → Prop
  | nil : LikeAll D [] []
  | file (n : Str) (c : Bytes) (p : Parsed) (m : Option Value) (s : Str) {as bs : List Node} : LikeAll D as bs →
      LikeAll D (.file n c p m s :: as) (.file n c p m s :: bs)
  | dir (n s : Str) {cs cs' as bs : List Node} : LikeAll D cs cs' → LikeAll D as bs →
      LikeAll D (.dir n cs s :: as) (.dir n cs' s :: bs)
  | swap (a b : Node) (l : List Node) : (D → a.name ≠ b.name) → LikeAll D (a :: b :: l) (b :: a :: l)
  | trans {as bs cs : List Node} : LikeAll D as bs → LikeAll D bs cs → LikeAll D as cs

/-- Nodes that differ in order only. -/
def Like (D : Prop) : Node → Node → Prop
  | .file n c p m s, b => b = .file n c p m s
  | .dir n cs s, b => ∃ cs', b = .dir n cs' s ∧ LikeAll D cs cs'

mutual
theorem like_refl (D : Prop) : ∀ n : Node, Like D n n
  | .file .. => rfl
  | .dir _ cs _ => ⟨cs, rfl, likeAll_refl D cs⟩
theorem likeAll_refl (D : Prop) : ∀ cs : List Node, LikeAll D cs cs
  | [] => .nil
  | .file n c p m s :: cs => .file n c p m s (likeAll_refl D cs)
  | .dir n cs' s :: cs => .dir n s (likeAll_refl D cs') (likeAll_refl D cs)
end

variable {D : Prop}

theorem Like.trans {a b c : Node} (h1 : Like D a b) (h2 : Like D b c) : Like D a c := by
  cases a with
  | file => cases h1; exact h2
  | dir n cs s =>
    obtain ⟨cs', rfl, k⟩ := h1
    obtain ⟨cs'', rfl, k'⟩ := h2
    exact ⟨cs'', rfl, k.trans k'⟩

theorem Like.cons {a b : Node} {as bs : List Node} (h : Like D a b) (hs : LikeAll D as bs) : LikeAll D (a :: as) (b :: bs) := by
  cases a with
  | file => cases h; exact .file _ _ _ _ _ hs
  | dir n cs s => obtain ⟨cs', rfl, k⟩ := h; exact .dir _ _ k hs

theorem Like.name {a b : Node} (h : Like D a b) : a.name = b.name := by
  cases a with
  | file => cases h; rfl
  | dir => obtain ⟨_, rfl, _⟩ := h; rfl

theorem Like.parsed {a b : Node} (h : Like D a b) : a.parsed = b.parsed := by
  cases a with
  | file => cases h; rfl
  | dir => obtain ⟨_, rfl, _⟩ := h; rfl

theorem Like.isDir {a b : Node} (h : Like D a b) : a.isDir = b.isDir := by
  cases a with
  | file => cases h; rfl
  | dir => obtain ⟨_, rfl, _⟩ := h; rfl

/-- Moving a node past others of different names. -/
theorem likeAll_middle {c : Node} {x y : List Node} (h : D → ∀ a ∈ x, a.name ≠ c.name) : LikeAll D (c :: (x ++ y)) (x ++ c :: y) := by
  induction x with
  | nil => exact likeAll_refl D _
  | cons a x ih =>
    refine .trans (.swap c a (x ++ y) (fun d => (h d a (.head _)).symm)) ?_
    exact (like_refl D a).cons (ih fun d b hb => h d b (.tail _ hb))

/-! ### Finding nodes -/

/-- Both absent, or both there and alike. -/
def LikeOpt (D : Prop) : Option Node → Option Node → Prop
  | none, none => True
  | some a, some b => Like D a b
  | _, _ => False

theorem LikeOpt.trans {a b c : Option Node} (h1 : LikeOpt D a b) (h2 : LikeOpt D b c) : LikeOpt D a c := by
  cases a <;> cases b <;> cases c <;> simp only [LikeOpt] at h1 h2 ⊢
  exact Like.trans h1 h2

theorem find_like {cs cs' : List Node} (h : LikeAll True cs cs') (nm : Str) :
    LikeOpt True (cs.find? fun m => m.name == nm) (cs'.find? fun m => m.name == nm) := by
  have refl : ∀ o : Option Node, LikeOpt True o o := fun o => by
    cases o with
    | none => trivial
    | some n => exact like_refl True n
  induction h with
  | nil => trivial
  | file n c p m s _ ih =>
    simp only [List.find?_cons]
    split
    · rfl
    · exact ih
  | dir n s hcs _ _ ih =>
    simp only [List.find?_cons, Node.name]
    split
    · exact ⟨_, rfl, hcs⟩
    · exact ih
  | swap a b l hne =>
    simp only [List.find?_cons]
    split
    · rename_i ha
      split
      · rename_i hb
        exact absurd ((beq_iff_eq.1 ha).trans (beq_iff_eq.1 hb).symm) (hne trivial)
      · exact refl _
    · split
      · exact refl _
      · exact refl _
  | trans _ _ i1 i2 => exact i1.trans i2

theorem getComps_like : ∀ (cs : List Comp) {a b : Node}, Like True a b → LikeOpt True (getComps a cs) (getComps b cs)
  | [], a, b, h => by rw [getComps, getComps]; exact h
  | .rootDir :: cs, a, b, _ => by rw [getComps, getComps]; trivial; all_goals nofun
  | .parentDir :: cs, a, b, _ => by rw [getComps, getComps]; trivial; all_goals nofun
  | .curDir :: cs, a, b, h => by rw [getComps, getComps]; exact getComps_like cs h
  | .normal c :: cs, a, b, h => by
    rw [getComps, getComps]
    cases a with
    | file => cases h; simp only [Node.children, Option.bind_none]; trivial
    | dir n l s =>
      obtain ⟨l', rfl, k⟩ := h
      simp only [Node.children, Option.bind_some]
      have := find_like k c
      cases h1 : l.find? fun m => m.name == c <;> cases h2 : l'.find? fun m => m.name == c <;> rw [h1, h2] at this
      · trivial
      · cases this
      · cases this
      · exact getComps_like cs this

theorem getAtPath_like {a b : Node} (h : Like True a b) (p : Str) : LikeOpt True (a.getAtPath p) (b.getAtPath p) :=
  getComps_like _ h

/-! ### Loops over directories -/

theorem mdValues_like {cs cs' : List Node} (h : LikeAll D cs cs') : ∀ {vs}, mdValues cs = .ok vs →
    ∃ vs', mdValues cs' = .ok vs' ∧ vs.Perm vs' := by
  induction h with
  | nil => intro vs h; exact ⟨vs, h, List.Perm.refl _⟩
  | file n c p m s hl ih =>
    intro vs h
    rw [mdValues] at h
    simp only [Node.parsed] at h
    cases p with
    | markdown md =>
      simp only at h
      obtain ⟨v, h1, h2⟩ := Res.bind_eq_ok.1 h
      obtain ⟨ws, h3, h4⟩ := Res.bind_eq_ok.1 h2
      cases h4
      obtain ⟨ws', k1, k2⟩ := ih h3
      refine ⟨v :: ws', ?_, k2.cons v⟩
      rw [mdValues]
      simp only [Node.parsed, h1, k1, Res.bind_ok]
    | _ =>
      obtain ⟨ws', k1, k2⟩ := ih h
      exact ⟨ws', by rw [mdValues]; exact k1, k2⟩
  | dir n s _ _ _ ih =>
    intro vs h
    rw [mdValues] at h
    obtain ⟨ws', k1, k2⟩ := ih h
    exact ⟨ws', by rw [mdValues]; exact k1, k2⟩
  | swap a b l _ =>
    intro vs h
    have two : ∀ (x : Node) (ms : List Node) (us : List Value), mdValues (x :: ms) = .ok us ↔
        ∃ us', mdValues ms = .ok us' ∧ ((∃ md v, x.parsed = .markdown md ∧ (md.toValue : Res ProcErr Value) = .ok v ∧ us = v :: us') ∨
          ((∀ md, x.parsed ≠ .markdown md) ∧ us = us')) := by
      intro x ms us
      rw [mdValues]
      cases hx : x.parsed with
      | markdown md =>
        simp only
        rw [Res.bind_eq_ok]
        constructor
        · rintro ⟨v, h1, h2⟩
          obtain ⟨us', h3, h4⟩ := Res.bind_eq_ok.1 h2
          cases h4
          exact ⟨us', h3, .inl ⟨md, v, rfl, h1, rfl⟩⟩
        · rintro ⟨us', h3, ⟨md', v, h1, h2, rfl⟩ | ⟨h1, _⟩⟩
          · cases h1
            exact ⟨v, h2, by rw [h3]; rfl⟩
          · exact absurd rfl (h1 md)
      | _ =>
        simp only
        constructor
        · intro h; exact ⟨us, h, .inr ⟨by nofun, rfl⟩⟩
        · rintro ⟨us', h3, ⟨md', v, h1, h2, rfl⟩ | ⟨h1, rfl⟩⟩
          · cases h1
          · exact h3
    obtain ⟨us, h1, ha⟩ := (two _ _ _).1 h
    obtain ⟨ws, h2, hb⟩ := (two _ _ _).1 h1
    rcases hb with ⟨md, v, e1, e2, rfl⟩ | ⟨e1, rfl⟩ <;> rcases ha with ⟨md', v', f1, f2, rfl⟩ | ⟨f1, rfl⟩
    · exact ⟨v :: v' :: ws, (two _ _ _).2 ⟨_, (two _ _ _).2 ⟨_, h2, .inl ⟨_, _, f1, f2, rfl⟩⟩, .inl ⟨_, _, e1, e2, rfl⟩⟩,
        List.Perm.swap _ _ _⟩
    · exact ⟨v :: ws, (two _ _ _).2 ⟨_, (two _ _ _).2 ⟨_, h2, .inr ⟨f1, rfl⟩⟩, .inl ⟨_, _, e1, e2, rfl⟩⟩, List.Perm.refl _⟩
    · exact ⟨v' :: us, (two _ _ _).2 ⟨_, (two _ _ _).2 ⟨_, h2, .inl ⟨_, _, f1, f2, rfl⟩⟩, .inr ⟨e1, rfl⟩⟩, List.Perm.refl _⟩
    · exact ⟨_, (two _ _ _).2 ⟨_, (two _ _ _).2 ⟨_, h2, .inr ⟨f1, rfl⟩⟩, .inr ⟨e1, rfl⟩⟩, List.Perm.refl _⟩
  | trans _ _ i1 i2 =>
    intro vs h
    obtain ⟨ws, k1, k2⟩ := i1 h
    obtain ⟨us, k3, k4⟩ := i2 k1
    exact ⟨us, k3, k2.trans k4⟩

theorem LikeAll.symm {cs cs' : List Node} (h : LikeAll D cs cs') : LikeAll D cs' cs := by
  induction h with
  | nil => exact .nil
  | file n c p m s _ ih => exact .file n c p m s ih
  | dir n s _ _ i1 i2 => exact .dir n s i1 i2
  | swap a b l h => exact .swap b a l fun d => (h d).symm
  | trans _ _ i1 i2 => exact i2.trans i1

theorem mdValues_cases : ∀ cs : List Node, (∃ vs, mdValues cs = .ok vs) ∨ mdValues cs = .panic .htmlNotReady
  | [] => .inl ⟨_, rfl⟩
  | n :: cs => by
    rw [mdValues]
    cases n.parsed with
    | markdown md =>
      simp only
      unfold ParsedMd.toValue
      cases md.html with
      | none => exact .inr rfl
      | some h =>
        rcases mdValues_cases cs with ⟨vs, k⟩ | k
        · rw [k]; exact .inl ⟨_, rfl⟩
        · rw [k]; exact .inr rfl
    | _ => exact mdValues_cases cs

/-! ### Sorting -/

theorem bytesOf_inj {a b : Str} (h : bytesOf a = bytesOf b) : a = b := by
  have := fromUtf8_bytesOf a
  rw [h, fromUtf8_bytesOf] at this
  exact (Option.some.inj this).symm

theorem lookup_setEntry_other {k k' : Str} (h : k' ≠ k) (x : Value) (l : List (Str × Value)) :
    (Value.setEntry k x l).lookup k' = l.lookup k' := by
  induction l with
  | nil =>
    have : (k' == k) = false := by simpa using h
    simp [Value.setEntry, List.lookup, this]
  | cons e es ih =>
    obtain ⟨m, v⟩ := e
    rw [Value.setEntry]
    split
    · rename_i hm
      have hm : m = k := beq_iff_eq.1 hm
      have : (k' == m) = false := by simpa [hm] using h
      simp [List.lookup, this]
    · simp only [List.lookup]
      rw [ih]

theorem lookup_map_str (key : Str) (fm : List (Str × Str)) :
    (fm.map fun e => (e.1, Value.str e.2)).lookup key = (fm.lookup key).map Value.str := by
  induction fm with
  | nil => rfl
  | cons e fm ih =>
    simp only [List.map_cons, List.lookup]
    split
    · rfl
    · exact ih

theorem keyOf_toValue {md : ParsedMd} {v : Value} {key : Str} (h : (md.toValue : Res ProcErr Value) = .ok v)
    (h1 : key ≠ str!"content") (h2 : key ≠ str!"markdown") : keyOf [key] v = (md.frontmatter.lookup key).getD [] := by
  unfold ParsedMd.toValue at h
  cases hh : md.html with
  | none => rw [hh] at h; cases h
  | some t =>
    rw [hh] at h
    cases h
    simp only [ParsedMd.fmValue, Value.setKey, keyOf, follow, child]
    rw [lookup_setEntry_other h2, lookup_setEntry_other h1, lookup_map_str]
    cases md.frontmatter.lookup key <;> rfl

theorem mdValues_keys {key : Str} (h1 : key ≠ str!"content") (h2 : key ≠ str!"markdown") : ∀ {cs : List Node} {vs : List Value},
    mdValues cs = .ok vs → vs.map (keyOf [key]) = (frontmatters cs).map fun fm => (fm.lookup key).getD []
  | [], vs, h => by cases h; rfl
  | n :: cs, vs, h => by
    rw [mdValues] at h
    rw [frontmatters]
    cases hn : n.parsed with
    | markdown md =>
      rw [hn] at h
      simp only at h
      obtain ⟨v, k1, k2⟩ := Res.bind_eq_ok.1 h
      obtain ⟨ws, k3, k4⟩ := Res.bind_eq_ok.1 k2
      cases k4
      simp only [List.map_cons, keyOf_toValue k1 h1 h2, mdValues_keys h1 h2 k3]
    | _ => rw [hn] at h; exact mdValues_keys h1 h2 h

theorem arrange_like {f : ForFn} {cs : List Node} {vs vs' : List Value} (hf : Sorted f cs) (h : mdValues cs = .ok vs)
    (hp : vs.Perm vs') : arrange f vs = arrange f vs' := by
  rcases hf with hf | ⟨v, key, hd, hs, h1, h2, hn⟩
  · have hl : vs.length = (frontmatters cs).length := by
      have := congrArg List.length (mdValues_keys (key := []) (by decide) (by decide) h)
      simpa using this
    have hl' := hp.length_eq
    match vs, vs', hl, hl', hp with
    | [], [], _, _, _ => rfl
    | [a], [b], _, _, hp => rw [List.singleton_perm_singleton.1 hp]
    | [], _ :: _, _, hl', _ => simp at hl'
    | [_], [], _, hl', _ => simp at hl'
    | [_], _ :: _ :: _, _, hl', _ => simp at hl'
    | _ :: _ :: _, _, hl, _, _ => simp at hl; omega
  · rw [arrange_visited, arrange_visited, hs]
    simp only [Option.map_some, splitOn_dotted _ _ hd, List.drop_one, List.tail_cons]
    have hsort : sortBy [key] vs = sortBy [key] vs' := by
      obtain ⟨a1, a2, _⟩ := C19_sorting [key] vs
      obtain ⟨b1, b2, _⟩ := C19_sorting [key] vs'
      refine List.Perm.eq_of_pairwise ?_ a2 b2 (a1.trans (hp.trans b1.symm))
      intro a b ha hb hab hba
      have hk : keyOf [key] a = keyOf [key] b := bytesOf_inj (List.le_antisymm hab hba)
      have hnod : (vs.map (keyOf [key])).Nodup := by rw [mdValues_keys h1 h2 h]; exact hn
      have ha' := a1.mem_iff.1 ha
      have hb' := hp.mem_iff.2 (b1.mem_iff.1 hb)
      by_cases hab' : a = b
      · exact hab'
      · exfalso
        have hpw := List.pairwise_map.1 (List.nodup_iff_pairwise_ne.1 hnod)
        rcases List.mem_iff_getElem.1 ha' with ⟨i, hi, ei⟩
        rcases List.mem_iff_getElem.1 hb' with ⟨j, hj, ej⟩
        have hij : i ≠ j := by rintro rfl; exact hab' (ei.symm.trans ej)
        rcases Nat.lt_or_gt_of_ne hij with hlt | hlt
        · exact List.pairwise_iff_getElem.1 hpw i j hi hj hlt (by rw [ei, ej]; exact hk)
        · exact List.pairwise_iff_getElem.1 hpw j i hj hi hlt (by rw [ei, ej]; exact hk.symm)
    simp only [visited, hsort]

/-! ### Running templates -/

/-- The token does the same in both contexts. -/
def TokSame (cx cx' : Ctx) (t : LTok) : Prop :=
  (∀ f stk, t.inner = .func (.for_ f) →
    ((forItems cx f stk).bind fun l => .ok (arrange f l)) = (forItems cx' f stk).bind fun l => .ok (arrange f l)) ∧
  ∀ f st, t.inner = .func f → execSimple cx f st = execSimple cx' f st

theorem bodyLoop_same {ex ex' : LTok → List LTok → St → R} (hf : Forward ex) {Q : LTok → Prop}
    (hex : ∀ t ts st, (∀ u ∈ t :: ts, Q u) → ex t ts st = ex' t ts st) (eof h) :
    ∀ fuel rest st, (∀ u ∈ rest, Q u) → bodyLoop ex eof h fuel rest st = bodyLoop ex' eof h fuel rest st := by
  intro fuel
  induction fuel with
  | zero =>
    intro rest st hQ
    unfold bodyLoop
    split
    · rfl
    · cases rest <;> rfl
  | succ k ih =>
    intro rest st hQ
    unfold bodyLoop
    split
    · rfl
    · cases rest with
      | nil => rfl
      | cons t ts =>
        simp only
        rw [← hex t ts st hQ]
        cases hx : ex t ts st with
        | ok a =>
          obtain ⟨r, s⟩ := a
          exact ih r s fun u hu => hQ u (.tail _ ((hf _ _ _ _ _ hx).subset hu))
        | err e => rfl
        | panic p => rfl

theorem ifLoop_same {ex ex' : LTok → List LTok → St → R} (hf : Forward ex) {Q : LTok → Prop}
    (hex : ∀ t ts st, (∀ u ∈ t :: ts, Q u) → ex t ts st = ex' t ts st) (eof h) :
    ∀ fuel c rest st, (∀ u ∈ rest, Q u) → ifLoop ex eof h fuel c rest st = ifLoop ex' eof h fuel c rest st := by
  intro fuel
  induction fuel with
  | zero =>
    intro c rest st hQ
    unfold ifLoop
    split
    · rfl
    · cases rest <;> rfl
  | succ k ih =>
    intro c rest st hQ
    unfold ifLoop
    split
    · rfl
    · cases rest with
      | nil => rfl
      | cons t ts =>
        simp only
        cases tokName t with
        | err e => rfl
        | panic p => rfl
        | ok nm =>
          simp only [Res.bind_ok]
          split
          · rw [← hex t ts st hQ]
            cases hx : ex t ts st with
            | ok a =>
              obtain ⟨r, s⟩ := a
              exact ih _ r s fun u hu => hQ u (.tail _ ((hf _ _ _ _ _ hx).subset hu))
            | err e => rfl
            | panic p => rfl
          · exact ih _ ts st fun u hu => hQ u (.tail _ hu)

theorem forIter_same {ex ex' : LTok → List LTok → St → R} (hf : Forward ex) {Q : LTok → Prop}
    (hex : ∀ t ts st, (∀ u ∈ t :: ts, Q u) → ex t ts st = ex' t ts st) (eof var) (wp : List LTok) (hw : ∀ u ∈ wp, Q u) :
    ∀ items rest st, forIter ex eof var wp items rest st = forIter ex' eof var wp items rest st := by
  intro items
  induction items with
  | nil => intro rest st; rfl
  | cons v vs ih =>
    intro rest st
    simp only [forIter]
    rw [bodyLoop_same hf hex eof _ _ wp _ hw]
    congr 1
    funext a
    exact ih _ _

theorem execTok_same {cx cx' : Ctx} : ∀ n t rest st, (∀ u ∈ t :: rest, TokSame cx cx' u) →
    execTok cx n t rest st = execTok cx' n t rest st := by
  intro n
  induction n with
  | zero => intro t rest st _; rfl
  | succ n ih =>
    intro t rest st hQ
    have hf := execTok_forward cx n
    obtain ⟨q1, q2⟩ := hQ t (.head _)
    have hrest : ∀ u ∈ rest, TokSame cx cx' u := fun u hu => hQ u (.tail _ hu)
    unfold execTok
    cases ht : t.inner with
    | raw s => rfl
    | var v => rfl
    | func f =>
      cases f with
      | for_ f =>
        simp only
        have := q1 f st.stack ht
        cases h1 : forItems cx f st.stack with
        | ok l =>
          cases h2 : forItems cx' f st.stack with
          | ok l' =>
            rw [h1, h2] at this
            have k := Res.ok.inj this
            simp only [Res.mapErr_ok, Res.bind_ok]
            rw [← k]
            exact forIter_same hf ih _ _ _ hrest _ _ _
          | err e => rw [h1, h2] at this; cases this
          | panic p => rw [h1, h2] at this; cases this
        | err e =>
          cases h2 : forItems cx' f st.stack with
          | ok l' => rw [h1, h2] at this; cases this
          | err e' => rw [h1, h2] at this; cases this; rfl
          | panic p => rw [h1, h2] at this; cases this
        | panic e =>
          cases h2 : forItems cx' f st.stack with
          | ok l' => rw [h1, h2] at this; cases this
          | err e' => rw [h1, h2] at this; cases this
          | panic p => rw [h1, h2] at this; cases this; rfl
      | ifdefined v =>
        simp only [enterIf]
        exact ifLoop_same hf ih _ _ _ _ _ _ hrest
      | cmp op a b =>
        simp only [enterIf]
        congr 1
        funext x
        congr 1
        funext y
        exact ifLoop_same hf ih _ _ _ _ _ _ hrest
      | _ => simp only [q2 _ st ht]

theorem runToks_same {cx cx' : Ctx} (toks : List LTok) (h : ∀ u ∈ toks, TokSame cx cx' u) (st : St) :
    runToks cx toks st = runToks cx' toks st := by
  have key : ∀ k toks st, (∀ u ∈ toks, TokSame cx cx' u) → runGo cx k toks st = runGo cx' k toks st := by
    intro k
    induction k with
    | zero => intro toks st _; cases toks <;> rfl
    | succ k ih =>
      intro toks st hQ
      cases toks with
      | nil => rfl
      | cons t ts =>
        rw [runGo, runGo, ← execTok_same _ _ _ _ hQ]
        cases hx : execTok cx (ts.length + 1) t ts st with
        | ok a =>
          obtain ⟨r, s⟩ := a
          exact ih r s fun u hu => hQ u (.tail _ ((execTok_forward cx _ _ _ _ _ _ hx).subset hu))
        | err e => rfl
        | panic p => rfl
  exact key _ _ _ h

/-! ### The tokens of a tree -/

mutual
/-- All tokens run for a file of the tree are like this. -/
def ToksIn (Q : LTok → Prop) : Node → Prop
  | .file _ _ p _ _ => ∀ t ∈ programOf p, Q t
  | .dir _ cs _ => ToksAll Q cs
def ToksAll (Q : LTok → Prop) : List Node → Prop
  | [] => True
  | n :: ns => ToksIn Q n ∧ ToksAll Q ns
end

theorem toksAll_like {Q : LTok → Prop} {cs cs' : List Node} (h : LikeAll D cs cs') : ToksAll Q cs → ToksAll Q cs' := by
  induction h with
  | nil => exact id
  | file n c p m s _ ih => intro h; rw [ToksAll] at h ⊢; exact ⟨h.1, ih h.2⟩
  | dir n s _ _ i1 i2 => intro h; rw [ToksAll, ToksIn] at h ⊢; exact ⟨i1 h.1, i2 h.2⟩
  | swap a b l _ => intro h; simp only [ToksAll] at h ⊢; exact ⟨h.2.1, h.1, h.2.2⟩
  | trans _ _ i1 i2 => exact i2 ∘ i1

theorem toksAll_mem {Q : LTok → Prop} : ∀ {cs : List Node}, ToksAll Q cs → ∀ n ∈ cs, ToksIn Q n
  | c :: cs, h, n, hn => by
    rw [ToksAll] at h
    rcases List.mem_cons.1 hn with rfl | hn
    · exact h.1
    · exact toksAll_mem h.2 n hn

theorem toksIn_program {Q : LTok → Prop} {n : Node} (h : ToksIn Q n) : ∀ t ∈ programOf n.parsed, Q t := by
  cases n with
  | file => rw [ToksIn] at h; exact h
  | dir => intro t ht; cases ht

mutual
theorem toksIn_mono {Q Q' : LTok → Prop} (h : ∀ t, Q t → Q' t) : ∀ n : Node, ToksIn Q n → ToksIn Q' n
  | .file .., k => by rw [ToksIn] at k ⊢; exact fun t ht => h t (k t ht)
  | .dir _ cs _, k => by rw [ToksIn] at k ⊢; exact toksAll_mono h cs k
theorem toksAll_mono {Q Q' : LTok → Prop} (h : ∀ t, Q t → Q' t) : ∀ cs : List Node, ToksAll Q cs → ToksAll Q' cs
  | [], _ => by rw [ToksAll]; trivial
  | n :: ns, k => by rw [ToksAll] at k ⊢; exact ⟨toksIn_mono h n k.1, toksAll_mono h ns k.2⟩
end

mutual
theorem toksIn_holds {Q : LTok → Prop} : ∀ n : Node, (∀ ds m t, Holds [n] ds m → t ∈ programOf m.parsed → Q t) → ToksIn Q n
  | .file .., h => by rw [ToksIn]; exact fun t ht => h [] _ t (.here (.head _)) ht
  | .dir _ cs _, h => by
    rw [ToksIn]
    exact toksAll_holds cs fun ds m t hm ht => h _ m t (.down (.head _) hm) ht
theorem toksAll_holds {Q : LTok → Prop} : ∀ cs : List Node, (∀ ds m t, Holds cs ds m → t ∈ programOf m.parsed → Q t) → ToksAll Q cs
  | [], _ => by rw [ToksAll]; trivial
  | n :: ns, h => by
    rw [ToksAll]
    exact ⟨toksIn_holds n fun ds m t hm ht => h ds m t (Holds_cons.2 (.inl hm)) ht,
      toksAll_holds ns fun ds m t hm ht => h ds m t (Holds_cons.2 (.inr hm)) ht⟩
end

/-! ### Loops in both trees -/

/-- If the token is a loop over a directory of the tree, it does not show in which order that is listed. -/
def LoopOk (tree : Node) (t : LTok) : Prop :=
  ∀ f, t.inner = .func (.for_ f) → f.kind = .mdDir → ∀ d ms s, tree.getAtPath f.source = some (.dir d ms s) → Sorted f ms

theorem likeOpt_cases {a b : Option Node} (h : LikeOpt D a b) :
    (a = none ∧ b = none) ∨ ∃ n m, a = some n ∧ b = some m ∧ Like D n m := by
  cases a <;> cases b <;> simp only [LikeOpt] at h
  · exact .inl ⟨rfl, rfl⟩
  · exact .inr ⟨_, _, rfl, rfl, h⟩

theorem tokSame_like {a b : Node} (h : Like True a b) {t : LTok} (ht : LoopOk a t) (df : Str → Str → Option Str) :
    TokSame ⟨a, df⟩ ⟨b, df⟩ t := by
  constructor
  · intro f stk hf
    have hl := getAtPath_like h f.source
    unfold forItems
    cases hk : f.kind with
    | jsonObj => rfl
    | jsonFile =>
      simp only
      rcases likeOpt_cases hl with ⟨h1, h2⟩ | ⟨n, m, h1, h2, hl⟩
      · rw [h1, h2]
      · simp only [h1, h2, Like.isDir hl, Like.parsed hl]
    | mdDir =>
      simp only
      cases h1 : a.getAtPath f.source with
      | none =>
        cases h2 : b.getAtPath f.source with
        | none => rfl
        | some n => rw [h1, h2] at hl; cases hl
      | some n =>
        cases h2 : b.getAtPath f.source with
        | none => rw [h1, h2] at hl; cases hl
        | some m =>
          rw [h1, h2] at hl
          cases n with
          | file => cases hl; rfl
          | dir nm l s =>
            obtain ⟨l', rfl, k⟩ := hl
            have hs := ht f hf hk _ _ _ h1
            simp only [Node.children]
            rcases mdValues_cases l with ⟨vs, hv⟩ | hv
            · obtain ⟨vs', hv', hp⟩ := mdValues_like k hv
              rw [hv, hv']
              simp only [Res.bind_ok]
              rw [arrange_like hs hv hp]
            · rcases mdValues_cases l' with ⟨vs, hv'⟩ | hv'
              · obtain ⟨us, hu, _⟩ := mdValues_like k.symm hv'
                rw [hu] at hv; cases hv
              · rw [hv, hv']
  · intro f st _
    cases f with
    | import_ v file =>
      simp only [execSimple, execImport]
      have hl := getAtPath_like h file
      rcases likeOpt_cases hl with ⟨h1, h2⟩ | ⟨n, m, h1, h2, hl⟩
      · rw [h1, h2]
      · simp only [h1, h2, Like.isDir hl, Like.parsed hl]
    | _ => rfl

end Stuart
