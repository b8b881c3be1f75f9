import Verif.Model.Print
import Verif.Spec.Print

/-
The text of a float.
-/

set_option autoImplicit false

namespace Ladder.Print

open Spec

/-- The unit of the last place of a float with a magnitude in units of 2^-149. -/
theorem ulp_le (n : Nat) : 2 ^ (Nat.log2 n - 23) = 1 ∨ 2 ^ (Nat.log2 n - 23) * 2^23 ≤ n := by
  rcases Nat.lt_or_ge (Nat.log2 n) 24 with h | h
  · left; rw [show Nat.log2 n - 23 = 0 by omega]
  · right
    rw [← Nat.pow_add, show Nat.log2 n - 23 + 23 = Nat.log2 n by omega]
    exact Nat.log2_self_le (by rintro rfl; simp at h)

/-- Rounding is exact up to half a unit of the last place, one 2^24-th of the number at most. -/
theorem rnd_near (n : Nat) : 2^24 * rnd n ≤ (2^24 + 1) * n ∧ (2^24 - 1) * n ≤ 2^24 * rnd n := by
  unfold rnd
  have hu := ulp_le n
  have h0 : 0 < 2 ^ (Nat.log2 n - 23) := Nat.two_pow_pos _
  generalize 2 ^ (Nat.log2 n - 23) = u at hu h0 ⊢
  have hd := Nat.div_add_mod n u
  have hr := Nat.mod_lt n h0
  dsimp only
  have e1 : (n / u + 1) * u = u * (n / u) + u := by rw [Nat.add_mul, Nat.mul_comm, Nat.one_mul]
  have e2 : n / u * u = u * (n / u) := Nat.mul_comm _ _
  generalize u * (n / u) = w at *
  split
  · rw [e1]
    rename_i h
    rcases hu with rfl | hu
    · omega
    · omega
  · rw [e2]
    rename_i h
    rcases hu with rfl | hu
    · omega
    · omega

/-- Rounding leaves floats alone. -/
theorem rnd_exact {m : Nat} (h : m < 2^24) (k : Nat) : rnd (m * 2^k) = m * 2^k := by
  have hd : 2 ^ (Nat.log2 (m * 2^k) - 23) ∣ m * 2^k := by
    refine Nat.dvd_trans (Nat.pow_dvd_pow 2 (?_ : _ ≤ k)) (Nat.dvd_mul_left _ _)
    by_cases h0 : m * 2^k = 0
    · rw [h0]; simp
    · have : Nat.log2 (m * 2^k) < 24 + k := (Nat.log2_lt h0).2 (by rw [Nat.pow_add]; exact (Nat.mul_lt_mul_right (Nat.two_pow_pos k)).2 h)
      omega
  unfold rnd
  have h0 : 0 < 2 ^ (Nat.log2 (m * 2^k) - 23) := Nat.two_pow_pos _
  generalize 2 ^ (Nat.log2 (m * 2^k) - 23) = u at hd h0 ⊢
  dsimp only
  rw [Nat.mod_eq_zero_of_dvd hd, if_neg (by omega), Nat.div_mul_cancel hd]

theorem magnitude_form (x : W32) : ∃ m k, m < 2^24 ∧ magnitude x = m * 2^k := by
  unfold magnitude
  dsimp only
  split
  · exact ⟨x.toNat % 2^23, 0, by omega, by simp⟩
  · exact ⟨_, _, by omega, rfl⟩

theorem magnitude_eq (x : W32) : magnitude x = (units x).natAbs := by
  unfold magnitude units
  dsimp only
  rw [Int.natAbs_mul, show (if x.toNat / 2^31 = 0 then (1 : Int) else -1).natAbs = 1 by split <;> rfl, Nat.one_mul]
  split
  · rw [Int.natAbs_natCast]
  · rw [Int.natAbs_natCast, Nat.add_comm]

theorem negative_eq (x : W32) : negative x = true ↔ units x < 0 := by
  unfold negative
  have hm : x.msb = decide (x.toNat / 2^31 ≠ 0) := by
    rw [BitVec.msb_eq_decide]
    have := x.isLt
    simp only [decide_eq_decide]
    omega
  have := magnitude_eq x
  rw [Bool.and_eq_true, decide_eq_true_eq, this, hm, decide_eq_true_eq]
  have key : 0 ≤ units x ∨ x.toNat / 2^31 ≠ 0 := by
    unfold units
    by_cases h : x.toNat / 2^31 = 0
    · left; rw [if_pos h, Int.one_mul]; split <;> exact Int.natCast_nonneg _
    · exact .inr h
  have key' : units x ≤ 0 ∨ x.toNat / 2^31 = 0 := by
    unfold units
    by_cases h : x.toNat / 2^31 = 0
    · exact .inr h
    · left; rw [if_neg h]
      have : ∀ n : Nat, -1 * (n : Int) ≤ 0 := by intro n; omega
      split <;> exact this _
  omega

/-- The fraction of a float is a float. -/
theorem frac_exact {x : W32} (h : magnitude x ≤ 1000000 * oneF) :
    rnd (magnitude x - rnd (magnitude x / oneF * oneF)) = magnitude x % oneF := by
  have hF : magnitude x / oneF < 2^24 := by
    have : magnitude x / oneF ≤ 1000000 := Nat.div_le_of_le_mul (by rw [Nat.mul_comm]; exact h)
    omega
  rw [show rnd (magnitude x / oneF * oneF) = magnitude x / oneF * oneF from rnd_exact hF 149]
  have e : magnitude x - magnitude x / oneF * oneF = magnitude x % oneF := by
    have := Nat.div_add_mod (magnitude x) oneF
    rw [Nat.mul_comm] at this
    omega
  rw [e]
  obtain ⟨m, k, hm, hx⟩ := magnitude_form x
  rw [hx]
  rcases Nat.le_total k 149 with hk | hk
  · have : m * 2^k % oneF = m % 2^(149 - k) * 2^k := by
      rw [oneF, show (2:Nat)^149 = 2^(149-k) * 2^k by rw [← Nat.pow_add]; congr 1; omega, Nat.mul_mod_mul_right]
    rw [this]
    exact rnd_exact (Nat.lt_of_le_of_lt (Nat.mod_le _ _) hm) k
  · have : m * 2^k % oneF = 0 := by
      refine Nat.mod_eq_zero_of_dvd (Nat.dvd_trans ?_ (Nat.dvd_mul_left _ _))
      exact Nat.pow_dvd_pow 2 hk
    rw [this]; exact rnd_exact (m := 0) (by omega) 0

/-- The text of a float of magnitude up to one million: the hundredths are those of the magnitude, rounded. -/
theorem ftos_parts {x : W32} (hn : isNaN x = false) (h : magnitude x ≤ 1000000 * oneF) : ∃ a b, ftos x = .ok (fixed (negative x) a b) ∧
    b < 100 ∧ a ≤ 1000000 ∧ 100 * magnitude x ≤ (100 * a + b) * oneF + (2^148 + 2^133) ∧
      (100 * a + b) * oneF ≤ 100 * magnitude x + (2^148 + 2^133) := by
  have h0 : 0 < oneF := Nat.two_pow_pos 149
  have e1 : oneF = 65536 * 2^133 := rfl
  have e2 : 2^148 = 32768 * 2^133 := rfl
  unfold ftos
  rw [hn, if_neg Bool.false_ne_true, if_neg (by omega)]
  dsimp only
  unfold hundredths
  rw [frac_exact h, e2]
  have hdm := Nat.div_add_mod (magnitude x) oneF
  have hg : magnitude x % oneF < oneF := Nat.mod_lt _ (Nat.two_pow_pos 149)
  have hF : magnitude x / oneF ≤ 1000000 := Nat.div_le_of_le_mul (by rw [Nat.mul_comm]; exact h)
  have hF' : magnitude x % oneF = 0 ∨ magnitude x / oneF + 1 ≤ 1000000 := by
    rcases Nat.lt_or_ge (magnitude x / oneF) 1000000 with h' | h'
    · exact .inr h'
    · left
      have := Nat.mul_le_mul_left oneF h'
      omega
  generalize magnitude x / oneF = F at *
  generalize magnitude x % oneF = g at *
  generalize magnitude x = m at *
  have n1 := rnd_near (g * 100)
  generalize rnd (g * 100) = y1 at *
  have n2 := rnd_near (y1 + oneF / 2)
  generalize rnd (y1 + oneF / 2) = y2 at *
  have n3 := rnd_near (y2 - 100 * oneF)
  generalize rnd (y2 - 100 * oneF) = y3 at *
  generalize oneF = D at *
  generalize 2^133 = d at *
  obtain rfl := e1
  rw [show 65536 * d / 2 = 32768 * d by omega] at n2
  have hy : 100 * g + 32768 * d ≤ y2 + d ∧ y2 ≤ 100 * g + 32768 * d + d := by omega
  by_cases hc : y2 ≥ 100 * (65536 * d)
  · rw [if_pos hc]
    have : y3 / (65536 * d) = 0 := Nat.div_eq_of_lt (by omega)
    rw [this]
    have ez : (100 * (F + 1) + 0) * (65536 * d) = 100 * (65536 * d * F) + 100 * (65536 * d) := by
      rw [Nat.add_zero, Nat.mul_add, Nat.add_mul, Nat.mul_assoc, Nat.mul_comm F, Nat.mul_one]
    refine ⟨_, _, rfl, by omega, by omega, ?_, ?_⟩ <;> rw [ez] <;> omega
  · rw [if_neg hc]
    have e := Nat.div_add_mod y2 (65536 * d)
    have e' := Nat.mod_lt y2 h0
    generalize y2 / (65536 * d) = E at *
    generalize y2 % (65536 * d) = r at *
    have hE : E < 100 := by
      refine Nat.lt_of_mul_lt_mul_left (a := 65536 * d) ?_
      omega
    have ez : (100 * F + E) * (65536 * d) = 100 * (65536 * d * F) + 65536 * d * E := by
      rw [Nat.add_mul, Nat.mul_assoc, Nat.mul_comm F, Nat.mul_comm E]
    refine ⟨_, _, rfl, hE, by omega, ?_, ?_⟩ <;> rw [ez] <;> omega

end Ladder.Print
