import Verif.Props.Block
import Verif.Spec.Cut
/-
Companions of C23 and C24: comparisons of any operands.
-/
namespace Stuart
open Spec

/-! ### Numbers -/

theorem tdiv_nonneg {q : Rat} (h : 0 ≤ q) : q.num.tdiv q.den = q.floor := by
  rw [Rat.floor_def, Int.tdiv_eq_ediv_of_nonneg (Rat.num_nonneg.2 h)]

theorem tdiv_nonpos {q : Rat} (h : q ≤ 0) : q.num.tdiv q.den = -(-q).floor := by
  have h' : 0 ≤ -q := by simpa using Rat.neg_le_neg h
  have := tdiv_nonneg h'
  rw [Rat.neg_num, Rat.neg_den, Int.neg_tdiv] at this
  omega

/-- What the code computes from the integer without its fraction. -/
theorem clamp {q : Rat} {t : Int} (h : q.num.tdiv q.den = t) : (Num.fin q).toI32 =
    if t < -2147483648 then -2147483648 else if t > 2147483647 then 2147483647 else t := by
  subst h; rfl

theorem cut_toI32 {x : Num} {i : Int} (h : Cut x i) : x.toI32 = i := by
  cases h with
  | down q _ h0 h1 h2 h3 =>
    rw [clamp (tdiv_nonneg h0)]
    have a := Rat.le_floor_iff.2 h1
    have b := Rat.floor_lt_iff.2 h2
    have c := Rat.le_floor_iff (x := 0) (a := q).2 h0
    split
    · omega
    · split <;> omega
  | up q _ h0 h1 h2 h3 =>
    rw [clamp (tdiv_nonpos h0)]
    have a := Rat.le_floor_iff (x := -i) (a := -q).2 (by rw [Rat.intCast_neg]; exact Rat.neg_le_neg h1)
    have b := Rat.floor_lt_iff (a := -q) (x := -(i - 1)).2 (by rw [Rat.intCast_neg]; exact Rat.neg_lt_neg h2)
    have c := Rat.le_floor_iff (x := 0) (a := -q).2 (by simpa using Rat.neg_le_neg h0)
    split
    · omega
    · split <;> omega
  | high q h1 =>
    have h0 : 0 ≤ q := Rat.le_trans (by decide) h1
    rw [clamp (tdiv_nonneg h0)]
    have a := Rat.le_floor_iff.2 h1
    split
    · omega
    · split <;> omega
  | low q h1 =>
    have h0 : q ≤ 0 := Rat.le_trans h1 (by decide)
    rw [clamp (tdiv_nonpos h0)]
    have a := Rat.le_floor_iff (x := 2147483648) (a := -q).2 (by simpa using Rat.neg_le_neg h1)
    split
    · omega
    · split <;> omega
  | infinite => rfl
  | minusInfinite => rfl
  | nan => rfl

theorem cut_self (x : Num) : Cut x x.toI32 := by
  cases x with
  | nan => exact .nan
  | inf b => cases b; exact .infinite; exact .minusInfinite
  | fin q =>
    rcases Rat.le_total (a := 0) (b := q) with h0 | h0
    · rw [clamp (tdiv_nonneg h0)]
      have c := Rat.le_floor_iff (x := 0) (a := q).2 h0
      rw [if_neg (by omega)]
      split
      · exact .high q (Rat.le_floor_iff.1 (by omega))
      · exact .down q _ h0 (Rat.floor_le q) (Rat.lt_floor_add_one q) (by omega)
    · rw [clamp (tdiv_nonpos h0)]
      have c := Rat.le_floor_iff (x := 0) (a := -q).2 (by simpa using Rat.neg_le_neg h0)
      split
      · refine .low q ?_
        have := Rat.le_floor_iff (x := 2147483648) (a := -q).1 (by omega)
        simpa using Rat.neg_le_neg this
      · rw [if_neg (by omega)]
        refine .up q _ h0 ?_ ?_ (by omega)
        · rw [Rat.intCast_neg]; simpa using Rat.neg_le_neg (Rat.floor_le (-q))
        · have := Rat.neg_lt_neg (Rat.lt_floor_add_one (-q))
          rw [← Rat.intCast_neg] at this
          rw [show -(-q).floor - 1 = -((-q).floor + 1) by omega]
          simpa using this

/-! ### C24 -/

theorem operand_counts {scs : Scopes} {a : Input} {i : Int} (h : Counts scs a i) : operand scs a = .ok (.int i) := by
  cases h with
  | int => rfl
  | var n path x _ hd hv hc =>
    unfold operand
    simp only [splitOn_dotted path n hd, hv, cut_toI32 hc]

/-- C24, what happens instead, in full: numbers are compared as the integers they count as. -/
theorem C24_exact (cx : Ctx) (scs : Scopes) (op : CmpFn) (a b : Input) (i j : Int) (ha : Counts scs a i) (hb : Counts scs b j) :
    (CmpFn.made op i j → Selects cx (.cmp op a b) scs true) ∧ (¬ CmpFn.made op i j → Selects cx (.cmp op a b) scs false) := by
  have he : (Test.cmp op a b).eval scs = .ok (compared op (.int i) (.int j)) := by
    simp [Test.eval, operand_counts ha, operand_counts hb]
  constructor
  · intro h
    refine selects_of_eval (he.trans ?_)
    cases op <;> simp_all [CmpFn.made, compared]
  · intro h
    refine selects_of_eval (he.trans ?_)
    cases op <;> simp_all [CmpFn.made, compared]

/-- Every number counts as one integer. -/
theorem C24_counts (x : Num) : ∃ i, Cut x i ∧ (∀ j, Cut x j → j = i) ∧ Is32 i := by
  refine ⟨x.toI32, cut_self x, fun j h => (cut_toI32 h).symm, ?_⟩
  unfold Is32
  cases x with
  | nan => simp [Num.toI32]
  | inf b => cases b <;> simp [Num.toI32]
  | fin q =>
    rw [clamp rfl]
    split
    · omega
    · split <;> omega

/-- `0.9` and `-0.9` both count as zero. -/
theorem small_counts : Counts [[(str!"x", .num (.fin (9/10))), (str!"y", .num (.fin (-9/10)))]] (.var str!"x") 0 ∧
    Counts [[(str!"x", .num (.fin (9/10))), (str!"y", .num (.fin (-9/10)))]] (.var str!"y") 0 :=
  ⟨.var str!"x" [] _ _ (by unfold Dotless; decide) rfl (.down _ _ (by decide +kernel) (by decide +kernel) (by decide +kernel) (by decide)),
    .var str!"y" [] _ _ (by unfold Dotless; decide) rfl (.up _ _ (by decide +kernel) (by decide +kernel) (by decide +kernel) (by decide))⟩

example : Selects demoCx (.cmp .ifeq (.var str!"x") (.var str!"y")) [[(str!"x", .num (.fin (9/10))), (str!"y", .num (.fin (-9/10)))]] true :=
  (C24_exact _ _ .ifeq _ _ _ _ small_counts.1 small_counts.2).1 rfl

example : Cut (.fin 3000000000) 2147483647 := .high _ (by decide +kernel)

/-! ### C23 -/

/-- C23, order: a text is neither before nor after anything, and not even in order with itself. -/
theorem C23_order (cx : Ctx) (scs : Scopes) (op : CmpFn) (a b : Input) (x y : Operand)
    (hop : op = .ifgt ∨ op = .ifge ∨ op = .iflt ∨ op = .ifle) (ha : Stands scs a x) (hb : Stands scs b y)
    (ht : (∃ s, x = .text s) ∨ ∃ s, y = .text s) : Selects cx (.cmp op a b) scs false := by
  refine selects_of_eval ?_
  simp only [Test.eval, operand_stands ha, operand_stands hb, Res.bind_ok]
  rcases hop with rfl | rfl | rfl | rfl <;> rcases ht with ⟨s, rfl⟩ | ⟨s, rfl⟩ <;> first | rfl | (cases x <;> rfl)

example := C23_order demoCx [demoBase.vars] .ifge (.var str!"s") (.str str!"S") _ _ (.inr (.inl rfl)) demo_stands.2.1 (.text _) (.inl ⟨_, rfl⟩)

/-- C23, operands: a variable that denotes neither a text nor a number is an error, reported at the test. The first
operand is looked at first. -/
theorem C23_no_operand (cx : Ctx) (o : At) (op : CmpFn) (a b : Input) (rest : List LTok) (f : Frame) (fs : List Frame) (secs : Sections)
    (n : Str) (path : List Str) (hd : Dotless n path)
    (hv : ∀ v, denoted n path (f.vars :: fs.map (·.vars)) = some v → (∀ s, v ≠ .str s) ∧ ∀ x, v ≠ .num x)
    (h : a = .var (dotted n path) ∨ b = .var (dotted n path) ∧ ∃ x, Stands (f.vars :: fs.map (·.vars)) a x) :
    runToks cx (o.tok (.func (.cmp op a b)) :: rest) ⟨f :: fs, secs⟩ = .err (o.err (.undefinedVariable (dotted n path))) := by
  have hno : operand (f.vars :: fs.map (·.vars)) (.var (dotted n path)) = .err (.undefinedVariable (dotted n path)) := by
    unfold operand
    simp only [splitOn_dotted path n hd]
    cases hx : denoted n path (f.vars :: fs.map (·.vars)) with
    | none => rfl
    | some v =>
      obtain ⟨h1, h2⟩ := hv v hx
      cases v with
      | str s => exact absurd rfl (h1 s)
      | num x => exact absurd rfl (h2 x)
      | _ => rfl
  have he : (Test.cmp op a b).eval (f.vars :: fs.map (·.vars)) = .err (.undefinedVariable (dotted n path)) := by
    rcases h with rfl | ⟨rfl, x, hx⟩
    · simp [Test.eval, hno]
    · simp [Test.eval, operand_stands hx, hno]
  have := exec_test cx o (.cmp op a b) rest ⟨f :: fs, secs⟩
  simp only [List.map_cons, he] at this
  rw [runToks_cons, show o.tok (.func (.cmp op a b)) = o.tok (.func (Test.cmp op a b).fn) from rfl, this]
  rfl

example : runToks demoCx [here.tok (.func (.cmp .ifne (.int 1) (.var str!"nope"))), here.tok (.func (.end_ str!"ifne" false))] ⟨[demoBase], []⟩ =
    .err (here.err (.undefinedVariable str!"nope")) :=
  C23_no_operand demoCx here .ifne (.int 1) _ _ demoBase [] [] str!"nope" [] (by unfold Dotless; decide) (fun v h => by cases h)
    (.inr ⟨rfl, _, .int 1⟩)

end Stuart
