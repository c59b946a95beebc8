import Verif.Spec.Terminal
import Verif.Proof.Js
/-
Rounding, the length of the progress bar, and decimal digits.
-/
namespace Stuart

/-! ### Decimal digits -/

theorem digitChar_eq {n : Nat} (h : n < 10) : digitChar n = Nat.digitChar n := by
  have : ∀ n, n < 10 → digitChar n = Nat.digitChar n := by decide
  exact this n h

theorem natDigitsGo_eq {f n : Nat} {acc : Str} (h : n < f) : natDigitsGo f n acc = Nat.toDigits 10 n ++ acc := by
  induction f generalizing n acc with
  | zero => omega
  | succ f ih =>
    rw [natDigitsGo]
    split
    · rename_i hn
      rw [Nat.toDigits_of_lt_base hn, digitChar_eq hn]; rfl
    · rw [ih (by omega), Nat.toDigits_of_base_le (b := 10) (n := n) (by decide) (by omega), digitChar_eq (Nat.mod_lt _ (by decide))]
      simp

/-- A number is written in decimal digits. -/
theorem natToStr_eq (n : Nat) : natToStr n = Nat.toDigits 10 n := by
  unfold natToStr
  rw [natDigitsGo_eq (by omega), List.append_nil]

/-! ### Rounding -/

variable {a b c : Nat}

/-- Rounding does not cross an integer. -/
theorem roundDiv_le (hb : 0 < b) (h : a ≤ c * b) : roundDiv a b ≤ c := by
  have hq := Nat.div_add_mod a b
  have hr := Nat.mod_lt a hb
  have hqc : a / b ≤ c := Nat.div_le_of_le_mul (by rw [Nat.mul_comm]; exact h)
  have hlt : a / b = c → a % b = 0 := by
    intro he
    rw [he] at hq
    rw [Nat.mul_comm] at h
    omega
  unfold roundDiv
  simp only
  split
  · exact hqc
  · split
    · by_cases he : a / b = c
      · have := hlt he; omega
      · omega
    · split
      · exact hqc
      · by_cases he : a / b = c
        · have := hlt he; omega
        · omega

theorem le_roundDiv (hb : 0 < b) (h : c * b ≤ a) : c ≤ roundDiv a b := by
  have hqc : c ≤ a / b := (Nat.le_div_iff_mul_le hb).2 h
  unfold roundDiv
  simp only
  split
  · exact hqc
  · split
    · omega
    · split <;> omega

/-- The rounded number is within a half. -/
theorem roundDiv_near (hb : 0 < b) : 2 * (roundDiv a b * b) ≤ 2 * a + b ∧ 2 * a ≤ 2 * (roundDiv a b * b) + b := by
  have hq := Nat.div_add_mod a b
  have hr := Nat.mod_lt a hb
  have e1 : a / b * b = b * (a / b) := Nat.mul_comm _ _
  have e2 : (a / b + 1) * b = b * (a / b) + b := by rw [Nat.add_mul, e1, Nat.one_mul]
  unfold roundDiv
  simp only
  split
  · rw [e1]; omega
  · split
    · rw [e2]; omega
    · split
      · rw [e1]; omega
      · rw [e2]; omega

/-- The number of digits suffices, if there is enough fuel. -/
theorem scale_spec {fuel : Nat} (h : 2 ^ 52 * b ≤ a * 2 ^ fuel) : 2 ^ 52 * b ≤ a * 2 ^ scale a b fuel := by
  induction fuel generalizing a with
  | zero => exact h
  | succ fuel ih =>
    rw [scale]
    split
    · rename_i hk; simpa using hk
    · have e : ∀ n, a * 2 ^ (n + 1) = 2 * a * 2 ^ n := fun n => by rw [Nat.pow_succ, Nat.mul_comm 2 a, Nat.mul_assoc, Nat.mul_comm 2]
      rw [e] at h ⊢
      exact ih h

theorem scale_le {fuel : Nat} : scale a b fuel ≤ fuel := by
  induction fuel generalizing a with
  | zero => rw [scale]; exact Nat.le_refl _
  | succ fuel ih => rw [scale]; split <;> have := ih (a := 2 * a) <;> omega

theorem roundDiv_zero : roundDiv 0 b = 0 := by
  unfold roundDiv
  simp

/-- Dividing and rounding upwards. -/
theorem ceil_le {y B m : Nat} (hB : 0 < B) (h : y ≤ m * B) : (y + B - 1) / B ≤ m := by
  apply Nat.le_of_lt_succ
  rw [Nat.div_lt_iff_lt_mul hB, Nat.succ_mul]
  omega

theorem lt_ceil {y B m : Nat} (hB : 0 < B) (h : m * B + 1 ≤ y) : m + 1 ≤ (y + B - 1) / B := by
  rw [Nat.le_div_iff_mul_le hB, Nat.succ_mul]
  omega

/-! ### The bar -/

theorem barLength_zero {n : Nat} : barLength 0 n = 0 := by
  unfold barLength toFloat
  split
  · rfl
  · simp only [Nat.zero_mul, roundDiv_zero]
    have : 0 < 2 ^ scale 0 (2 ^ scale 0 n 106) 106 := Nat.two_pow_pos _
    exact Nat.le_zero.1 (ceil_le this (by omega))

/-- The length against integers. -/
theorem barLength_bounds {k n m : Nat} (hk : 0 < k) (hkn : k ≤ n) (hn : n ≤ 2 ^ 46) :
    barLength k n ≤ 50 ∧ (50 * k + 1 ≤ m * n → barLength k n ≤ m) ∧ (m * n + 1 ≤ 50 * k → m + 1 ≤ barLength k n) := by
  unfold barLength toFloat
  rw [if_neg (by omega)]
  simp only
  have hs := scale_spec (a := k) (b := n) (fuel := 106) (by
    have h1 : 2 ^ 52 * n ≤ 2 ^ 52 * 2 ^ 46 := Nat.mul_le_mul_left _ hn
    have h2 : 1 * 2 ^ 106 ≤ k * 2 ^ 106 := Nat.mul_le_mul_right _ hk
    exact Nat.le_trans h1 (Nat.le_trans (by decide) h2))
  have hA' : 2 ^ scale k n 106 ≤ 2 ^ 106 := Nat.pow_le_pow_right (by decide) scale_le
  have hApos : 0 < 2 ^ scale k n 106 := Nat.two_pow_pos _
  generalize 2 ^ scale k n 106 = A at hs hA' hApos ⊢
  have hnpos : 0 < n := by omega
  have hX52 : 2 ^ 52 ≤ roundDiv (k * A) n := le_roundDiv hnpos hs
  have hXA : roundDiv (k * A) n ≤ A := roundDiv_le hnpos (by rw [Nat.mul_comm A]; exact Nat.mul_le_mul_right _ hkn)
  obtain ⟨near1, near2⟩ := roundDiv_near (a := k * A) hnpos
  have hA : 2 ^ 52 ≤ A := Nat.le_trans hX52 hXA
  generalize roundDiv (k * A) n = X at hX52 hXA near1 near2 ⊢
  have ht := scale_spec (a := X * 50) (b := A) (fuel := 106) (by
    have h1 : 2 ^ 52 * A ≤ 2 ^ 52 * 2 ^ 106 := Nat.mul_le_mul_left _ hA'
    have h2 : 2 ^ 52 * 2 ^ 106 ≤ X * 50 * 2 ^ 106 := Nat.mul_le_mul_right _ (by omega)
    exact Nat.le_trans h1 h2)
  generalize hse : scale (X * 50) A 106 = t at ht ⊢
  have hB : 2 ^ 47 ≤ 2 ^ t := by
    apply Nat.pow_le_pow_right (by decide)
    have h1 : X * 50 * 2 ^ t ≤ A * 50 * 2 ^ t := Nat.mul_le_mul_right _ (Nat.mul_le_mul_right _ hXA)
    have h2 : 2 ^ 52 * A ≤ (50 * 2 ^ t) * A := by
      rw [show 50 * 2 ^ t * A = A * 50 * 2 ^ t by rw [Nat.mul_comm _ A, Nat.mul_assoc]]
      exact Nat.le_trans ht h1
    have h3 : 2 ^ 52 ≤ 50 * 2 ^ t := Nat.le_of_mul_le_mul_right h2 hApos
    rcases Nat.lt_or_ge t 47 with hlt | hge
    · have : 2 ^ t ≤ 2 ^ 46 := Nat.pow_le_pow_right (by decide) (by omega)
      omega
    · exact hge
  have hBpos : 0 < 2 ^ t := Nat.two_pow_pos _
  generalize 2 ^ t = B at ht hB hBpos ⊢
  have up : ∀ m, X * 50 ≤ m * A → (roundDiv (X * 50 * B) A + B - 1) / B ≤ m := by
    intro m h
    apply ceil_le hBpos
    apply roundDiv_le hApos
    rw [Nat.mul_right_comm m]
    exact Nat.mul_le_mul_right _ h
  refine ⟨up 50 (by rw [Nat.mul_comm]; exact Nat.mul_le_mul_left _ hXA), fun h => up m ?_, fun h => ?_⟩
  · apply Nat.le_of_not_lt
    intro hlt
    have h1 : (m * A + 1) * n ≤ X * 50 * n := Nat.mul_le_mul_right _ hlt
    have h2 : (50 * k + 1) * A ≤ m * n * A := Nat.mul_le_mul_right _ h
    rw [Nat.add_mul, Nat.mul_right_comm m, Nat.one_mul, Nat.mul_right_comm X] at h1
    rw [Nat.add_mul, Nat.one_mul, Nat.mul_assoc 50] at h2
    omega
  · apply lt_ceil hBpos
    apply le_roundDiv hApos
    have h1 : (m * n + 1) * A ≤ 50 * k * A := Nat.mul_le_mul_right _ h
    rw [Nat.add_mul, Nat.one_mul, Nat.mul_assoc 50, Nat.mul_right_comm m] at h1
    -- with D = 50 X - m A: 2 D n ≥ 2 A - 50 n
    have hD : m * A * n + A ≤ 50 * (X * n) + 25 * n := by omega
    have hmA : m * A ≤ X * 50 := by
      apply Nat.le_of_not_lt
      intro hlt
      have h3 : (X * 50 + 1) * n ≤ m * A * n := Nat.mul_le_mul_right _ hlt
      rw [Nat.add_mul, Nat.one_mul, Nat.mul_right_comm X] at h3
      omega
    obtain ⟨D, hD'⟩ := Nat.le.dest hmA
    have h4 : A ≤ D * n + 25 * n := by
      have : 50 * (X * n) = m * A * n + D * n := by
        rw [← Nat.add_mul, hD', Nat.mul_right_comm, Nat.mul_comm]
      omega
    have h5 : A ≤ D * 2 ^ 47 := by
      have h6 : D * n ≤ D * 2 ^ 46 := Nat.mul_le_mul_left _ hn
      omega
    have h7 : D * 2 ^ 47 ≤ D * B := Nat.mul_le_mul_left _ hB
    rw [← hD', Nat.add_mul (m * A), Nat.add_mul, Nat.one_mul, Nat.mul_right_comm m]
    omega

end Stuart
