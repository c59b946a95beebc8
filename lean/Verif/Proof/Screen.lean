import Verif.Spec.Screen
import Verif.Proof.Written
import Verif.Proof.Bar
/-
What is written, as texts.
-/
namespace Stuart
open Spec

variable {M : Machine} {c : Context} {s : Host} {times : Times} {t : Term}

theorem logLine_eq {v m : Str} : (Stream.err, logLine v m) = screenLine v m := rfl

/-- Lines and reports are written as they are shown. -/
theorem Plain.shown {l : List Say} (h : Plain l) : l.map lineOf = l.flatMap onScreen := by
  induction l with
  | nil => rfl
  | cons x l ih =>
    have hl : Plain l := fun y hy => h y (by simp [hy])
    rw [List.map_cons, List.flatMap_cons, ih hl]
    rcases h x (by simp) with ⟨v, m, rfl, _⟩ | ⟨r, rfl, _⟩ <;> rfl

/-- The lines of a build that succeeds. -/
theorem buildLines_shown : (buildLines c (finishedMsg times)).flatMap onScreen = buildShown c times := by
  have hs : ∀ l : List Path, (l.map executing).flatMap onScreen = l.map scriptShown := by
    intro l
    induction l with
    | nil => rfl
    | cons p l ih => rw [List.map_cons, List.flatMap_cons, ih]; rfl
  unfold buildLines buildShown
  simp only [List.flatMap_append, hs]
  congr 2
  · congr 1
    split <;> rfl

/-- Only lines of the logger are written by a build. -/
def Logs (l : List Say) : Prop := ∀ x ∈ l, isLog x = true

theorem buildLines_logs {last : Str} : Logs (buildLines c last) := by
  intro x hx
  unfold buildLines at hx
  simp only [List.mem_append, List.mem_map, List.mem_singleton] at hx
  rcases hx with (((⟨p, _, rfl⟩ | rfl) | hx) | ⟨p, _, rfl⟩) | rfl
  · rfl
  · rfl
  · split at hx
    · rw [List.mem_singleton.1 hx]; rfl
    · cases hx
  · rfl
  · rfl

theorem Logs.says_off {l : List Say} (h : Logs l) (he : t.enabled = false) : t.says l = t := by
  induction l with
  | nil => rfl
  | cons x l ih =>
    rw [Term.says_cons]
    have hx := h x (by simp)
    have e : t.say x = t := by
      cases x with
      | log v m => rw [Term.say, if_neg (by simp [he])]
      | _ => cases hx
    rw [e]
    exact ih fun y hy => h y (by simp [hy])

/-! ### Rounding -/

variable {a b : Nat}

theorem roundDiv_even (hb : 0 < b)
    (h : 2 * (roundDiv a b * b) = 2 * a + b ∨ 2 * a = 2 * (roundDiv a b * b) + b) : roundDiv a b % 2 = 0 := by
  have hq := Nat.div_add_mod a b
  have hr := Nat.mod_lt a hb
  have e1 : a / b * b = b * (a / b) := Nat.mul_comm _ _
  have e2 : (a / b + 1) * b = b * (a / b) + b := by rw [Nat.add_mul, e1, Nat.one_mul]
  revert h
  unfold roundDiv
  simp only
  split
  · rw [e1]; omega
  · split
    · rw [e2]; omega
    · split
      · omega
      · omega

/-- There are no more digits than needed. -/
theorem scale_least {fuel : Nat} (h : a < 2 ^ 52 * b) (hf : 0 < fuel) : a * 2 ^ scale a b fuel < 2 ^ 53 * b := by
  induction fuel generalizing a with
  | zero => omega
  | succ fuel ih =>
    rw [scale, if_neg (by omega)]
    have e : ∀ n, a * 2 ^ (n + 1) = 2 * a * 2 ^ n := fun n => by rw [Nat.pow_succ, Nat.mul_comm 2 a, Nat.mul_assoc, Nat.mul_comm 2]
    rw [e]
    by_cases h2 : 2 * a < 2 ^ 52 * b
    · by_cases hf2 : 0 < fuel
      · exact ih h2 hf2
      · have : fuel = 0 := by omega
        subst this
        rw [scale]
        omega
    · have : scale (2 * a) b fuel = 0 := by
        cases fuel with
        | zero => rfl
        | succ f => rw [scale, if_pos (by omega)]
      rw [this]
      omega

/-- The number is rounded to the nearest. -/
theorem toFloat_nearest (hb : 0 < b) (h : a < 2 ^ 52 * b) (hlow : 2 ^ 52 * b ≤ a * 2 ^ 106) :
    Nearest a b (toFloat a b).1 (scale a b 106) := by
  unfold toFloat
  simp only
  have hs := scale_spec hlow
  have hl := scale_least (fuel := 106) h (by decide)
  obtain ⟨n1, n2⟩ := roundDiv_near (a := a * 2 ^ scale a b 106) hb
  exact ⟨le_roundDiv hb hs, roundDiv_le hb (Nat.le_of_lt hl), n1, n2, roundDiv_even hb⟩

end Stuart
