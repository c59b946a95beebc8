import Verif.Proof.Bar
import Verif.Spec.Screen
/-
How far the means of a benchmark can be off.
-/
namespace Stuart
open Spec

variable {a b : Nat}

theorem scale_full {fuel : Nat} (h : a * 2 ^ fuel < 2 ^ 52 * b) : scale a b fuel = fuel := by
  induction fuel generalizing a with
  | zero => rfl
  | succ fuel ih =>
    rw [scale]
    have h1 : 1 ≤ 2 ^ (fuel + 1) := Nat.one_le_two_pow
    have h2 : a * 1 ≤ a * 2 ^ (fuel + 1) := Nat.mul_le_mul_left _ h1
    rw [if_neg (by omega), ih (by rw [Nat.pow_succ] at h; grind)]

/-- Numbers below 2^38 have at least 15 binary digits after the point. -/
theorem scale_low (h : a < 2 ^ 38 * b) : 2 ^ 15 ≤ 2 ^ scale a b 106 := by
  apply Nat.pow_le_pow_right (by decide)
  by_cases hb : 2 ^ 52 * b ≤ a * 2 ^ 106
  · have h1 := scale_spec hb
    refine Decidable.byContradiction fun hc => ?_
    have h2 : 2 ^ scale a b 106 ≤ 2 ^ 14 := Nat.pow_le_pow_right (by decide) (by omega)
    have h3 : a * 2 ^ scale a b 106 ≤ a * 2 ^ 14 := Nat.mul_le_mul_left _ h2
    omega
  · rw [scale_full (by omega)]
    decide

/-- Rounding to floating point is off by at most 2^-16. -/
theorem toFloat_err (hb : 0 < b) (h : a < 2 ^ 38 * b) :
    2 ^ 16 * ((toFloat a b).1 * b) ≤ 2 ^ 16 * (a * (toFloat a b).2) + b * (toFloat a b).2 ∧
    2 ^ 16 * (a * (toFloat a b).2) ≤ 2 ^ 16 * ((toFloat a b).1 * b) + b * (toFloat a b).2 := by
  have h1 := scale_low h
  unfold toFloat
  simp only
  generalize 2 ^ scale a b 106 = D at h1 ⊢
  obtain ⟨n1, n2⟩ := roundDiv_near (a := a * D) hb
  have h2 : b * 2 ^ 15 ≤ b * D := Nat.mul_le_mul_left _ h1
  generalize roundDiv (a * D) b * b = R at n1 n2 ⊢
  generalize a * D = A at n1 n2 ⊢
  generalize b * D = B at h2 ⊢
  omega

theorem toFloat_pos : 0 < (toFloat a b).2 := Nat.two_pow_pos _

/-- `x` is `S` tenths up to `E` times 2^-16. -/
def Close (x : Nat × Nat) (S E : Nat) : Prop :=
  0 < x.2 ∧ 2 ^ 16 * (10 * x.1) ≤ 2 ^ 16 * (S * x.2) + E * (10 * x.2) ∧
  2 ^ 16 * (S * x.2) ≤ 2 ^ 16 * (10 * x.1) + E * (10 * x.2)

theorem toFloat_tenths {m : Nat} (h : m < 2 ^ 40) : Close (toFloat m 10) m 1 := by
  obtain ⟨h1, h2⟩ := toFloat_err (a := m) (b := 10) (by decide) (by omega)
  exact ⟨toFloat_pos, by omega, by omega⟩

theorem Close.lt {x : Nat × Nat} {S E : Nat} (h : Close x S E) (hS : S < 2 ^ 40) (hE : E < 2 ^ 42) : x.1 < 2 ^ 37 * x.2 := by
  obtain ⟨h1, h2, _⟩ := h
  have h3 : S * x.2 ≤ 2 ^ 40 * x.2 := Nat.mul_le_mul_right _ (by omega)
  have h4 : E * (10 * x.2) ≤ 2 ^ 42 * (10 * x.2) := Nat.mul_le_mul_right _ (by omega)
  omega

theorem Close.add {x y : Nat × Nat} {S E m : Nat} (hx : Close x S E) (hy : Close y m 1) (hS : S < 2 ^ 40) (hE : E < 2 ^ 42)
    (hm : m < 2 ^ 40) : Close (addFloat x y) (S + m) (E + 2) := by
  have lx := hx.lt hS hE
  have ly := hy.lt hm (by omega)
  obtain ⟨x1, x2, x3⟩ := hx
  obtain ⟨y1, y2, y3⟩ := hy
  obtain ⟨X, D⟩ := x
  obtain ⟨Y, F⟩ := y
  simp only at *
  unfold addFloat
  simp only
  have hDF : 0 < D * F := Nat.mul_pos x1 y1
  have l1 : X * F < 2 ^ 37 * D * F := Nat.mul_lt_mul_of_pos_right lx y1
  have l2 : Y * D < 2 ^ 37 * F * D := Nat.mul_lt_mul_of_pos_right ly x1
  obtain ⟨z1, z2⟩ := toFloat_err (a := X * F + Y * D) (b := D * F) hDF (by grind)
  refine ⟨toFloat_pos, ?_, ?_⟩
  all_goals
    generalize (toFloat (X * F + Y * D) (D * F)).1 = Z at z1 z2 ⊢
    generalize (toFloat (X * F + Y * D) (D * F)).2 = G at z1 z2 ⊢
    apply Nat.le_of_mul_le_mul_right (c := D * F) _ hDF
    have a1 := Nat.mul_le_mul_right (F * G) x2
    have a2 := Nat.mul_le_mul_right (F * G) x3
    have a3 := Nat.mul_le_mul_right (D * G) y2
    have a4 := Nat.mul_le_mul_right (D * G) y3
    grind

theorem total_close (l : List Nat) (x : Nat × Nat) (S E : Nat) (hx : Close x S E)
    (hS : S + (l.map (· / 100)).sum < 2 ^ 40) (hE : E + 2 * l.length < 2 ^ 42) :
    Close (l.foldl (fun x m => addFloat x (toFloat (m / 100) 10)) x) (S + (l.map (· / 100)).sum) (E + 2 * l.length) := by
  induction l generalizing x S E with
  | nil => simpa using hx
  | cons m l ih =>
    simp only [List.map_cons, List.sum_cons, List.length_cons, List.foldl_cons] at hS hE ⊢
    have := ih (addFloat x (toFloat (m / 100) 10)) (S + m / 100) (E + 2)
      (hx.add (toFloat_tenths (by omega)) (by omega) (by omega) (by omega)) (by omega) (by omega)
    rw [show S + (m / 100 + (l.map (· / 100)).sum) = S + m / 100 + (l.map (· / 100)).sum by omega,
      show E + 2 * (l.length + 1) = E + 2 + 2 * l.length by omega]
    exact this

theorem meanFloat_isMean (l : List Nat) (hl : l ≠ []) (hn : l.length < 2 ^ 40) (hS : (l.map (· / 100)).sum < 2 ^ 40) :
    IsMean l (roundDiv ((meanFloat l).1 * 100) (meanFloat l).2) := by
  have hlen : 0 < l.length := List.length_pos_iff.2 hl
  have h := total_close l (0, 1) 0 0 ⟨by decide, by simp, by simp⟩ (by omega) (by omega)
  rw [Nat.zero_add, Nat.zero_add] at h
  unfold meanFloat IsMean
  simp only
  have hlt := h.lt hS (by omega)
  generalize l.foldl (fun x m => addFloat x (toFloat (m / 100) 10)) (0, 1) = x at h hlt ⊢
  generalize (l.map (· / 100)).sum = S at h hS ⊢
  generalize l.length = n at h hlen hn ⊢
  obtain ⟨X, D⟩ := x
  obtain ⟨h1, h2, h3⟩ := h
  simp only at *
  have hDn : 0 < D * n := Nat.mul_pos h1 hlen
  have hDle : D * 1 ≤ D * n := Nat.mul_le_mul_left _ hlen
  obtain ⟨z1, z2⟩ := toFloat_err (a := X) (b := D * n) hDn (by omega)
  have hG := toFloat_pos (a := X) (b := D * n)
  generalize (toFloat X (D * n)).1 = Z at z1 z2 ⊢
  generalize (toFloat X (D * n)).2 = G at z1 z2 hG ⊢
  obtain ⟨q1, q2⟩ := roundDiv_near (a := Z * 100) hG
  generalize roundDiv (Z * 100) G = q at q1 q2 ⊢
  have hDG : 0 < D * G := Nat.mul_pos h1 hG
  constructor
  all_goals
    apply Nat.le_of_mul_le_mul_right (c := D * G) _ hDG
    have a1 := Nat.mul_le_mul_right G h2
    have a2 := Nat.mul_le_mul_right G h3
    have a3 := Nat.mul_le_mul_right (D * n) q1
    have a4 := Nat.mul_le_mul_right (D * n) q2
    grind

end Stuart
