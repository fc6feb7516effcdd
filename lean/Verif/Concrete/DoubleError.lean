import Verif.Concrete.DoubleRead
import Verif.Concrete.DoubleNearest

/-
How far serde_json's reader is from the number written (`f64_from_parts` of serde_json 1 without `float_roundtrip`): the digits
are rounded to a double, so is the power of ten, and so is their product or quotient.
-/

namespace Verif.Double
open Verif Spec

attribute [local irreducible] one

/-- Distance between neighbours, at the bottom and relative to the number. -/
theorem gapQ_large (k : Nat) : valQ (k + 1) ≤ 2 ^ 53 * (valQ (k + 1) - valQ k) := by
  have h := gap_large k
  have hle := (units_lt_succ k).le
  have := (Nat.cast_le (α := ℚ)).mpr h
  rw [Nat.cast_mul, Nat.cast_sub hle] at this
  push_cast at this
  unfold valQ
  rw [← sub_div, mul_div_assoc']
  exact div_le_div_of_nonneg_right this one_posQ.le

theorem gapQ_mono (k : Nat) : valQ (k + 1) - valQ k ≤ valQ (k + 2) - valQ (k + 1) := by
  have h := gap_mono k
  have h1 := (units_lt_succ k).le
  have h2 := (units_lt_succ (k + 1)).le
  have := (Nat.cast_le (α := ℚ)).mpr h
  rw [Nat.cast_sub h1, Nat.cast_sub h2] at this
  unfold valQ
  rw [← sub_div, ← sub_div]
  exact div_le_div_of_nonneg_right this one_posQ.le

theorem valQ_zero : valQ 0 = 0 := by unfold valQ; rw [units_zero]; simp

theorem valQ_nonneg (k : Nat) : 0 ≤ valQ k := by unfold valQ; positivity

theorem valQ_one : valQ 1 = 1 / 2 ^ 1074 := by
  unfold valQ; rw [one_eq]; norm_num [units]

/-- Every distance is at least the least one. -/
theorem gapQ_one (k : Nat) : 1 / 2 ^ 1074 ≤ valQ (k + 1) - valQ k := by
  induction k with
  | zero => rw [valQ_zero, valQ_one]; simp
  | succ k ih => exact le_trans ih (gapQ_mono k)

/-- What is rounded to a double lies between the midpoints to its neighbours. -/
theorem round_between {n d : Nat} (hd : 0 < d) : 2 * ((n : ℚ) / d) ≤ valQ (round n d) + valQ (round n d + 1) ∧
    ∀ k, round n d = k + 1 → valQ k + valQ (k + 1) ≤ 2 * ((n : ℚ) / d) := by
  obtain ⟨j, h1, h2, h3⟩ := round_charQ n hd
  have mono := valQ_strictMono
  have m1 := mono (show j < j + 1 by omega)
  have m2 := mono (show j + 1 < j + 2 by omega)
  generalize (n : ℚ) / d = q at *
  split at h3
  · rename_i hc
    rw [h3]
    refine ⟨hc.le, fun k hk => ?_⟩
    have := mono (show k < j by omega)
    subst hk
    linarith
  · rename_i hc
    split at h3
    · rename_i hc'
      rw [h3]
      refine ⟨by linarith, fun k hk => ?_⟩
      obtain rfl : k = j := by omega
      linarith
    · rename_i hc'
      have heq : valQ j + valQ (j + 1) = 2 * q := by linarith
      rcases Nat.mod_two_eq_zero_or_one j with hj | hj
      · rw [hj, Nat.add_zero] at h3
        rw [h3]
        refine ⟨heq.ge, fun k hk => ?_⟩
        have := mono (show k < j by omega)
        subst hk
        linarith
      · rw [hj] at h3
        rw [h3]
        refine ⟨by linarith, fun k hk => ?_⟩
        obtain rfl : k = j := by omega
        linarith

/-- The unit of the relative error. -/
def ulp : ℚ := 1 / 2 ^ 53

theorem valQ_normal : valQ (2 ^ 52) = 1 / 2 ^ 1022 := by
  have h : units (2 ^ 52) = 2 ^ 52 := by decide +kernel
  have e : (2 : ℚ) ^ 1074 = 2 ^ 52 * 2 ^ 1022 := pow_add 2 52 1022
  unfold valQ
  rw [h, one_eq, Nat.cast_pow, Nat.cast_pow, Nat.cast_ofNat, e]
  have : (2 : ℚ) ^ 1022 ≠ 0 := pow_ne_zero _ (by norm_num)
  generalize (2 : ℚ) ^ 1022 = x at *
  field_simp

theorem gapQ_bottom {k : Nat} (h : k < 2 ^ 52) : valQ (k + 1) - valQ k = 1 / 2 ^ 1074 := by
  have h1 : units k = k := if_pos (by omega)
  have h2 : units (k + 1) = k + 1 := if_pos (by omega)
  unfold valQ
  rw [h1, h2, one_eq, ← sub_div, Nat.cast_pow, Nat.cast_ofNat, Nat.cast_add, Nat.cast_one, add_sub_cancel_left]

/-- Which neighbour `round` takes. -/
theorem round_side (n : Nat) {d : Nat} (hd : 0 < d) : ∃ k, valQ k ≤ (n : ℚ) / d ∧ (n : ℚ) / d < valQ (k + 1) ∧
    (round n d = k ∧ 2 * ((n : ℚ) / d) ≤ valQ k + valQ (k + 1) ∨ round n d = k + 1 ∧ valQ k + valQ (k + 1) ≤ 2 * ((n : ℚ) / d)) := by
  obtain ⟨j, h1, h2, h3⟩ := round_charQ n hd
  refine ⟨j, h1, h2, ?_⟩
  split at h3
  · rename_i hc; exact .inl ⟨h3, hc.le⟩
  · rename_i hc
    split at h3
    · rename_i hc'; exact .inr ⟨h3, hc'.le⟩
    · rename_i hc'
      rcases Nat.mod_two_eq_zero_or_one j with hj | hj
      · rw [hj] at h3; exact .inl ⟨h3, not_lt.mp hc'⟩
      · rw [hj] at h3; exact .inr ⟨h3, not_lt.mp hc⟩

/-- The error of one rounding: relative for normal numbers, absolute for the others. -/
theorem round_error (n : Nat) {d : Nat} (hd : 0 < d) :
    ((1 : ℚ) / 2 ^ 1022 ≤ (n : ℚ) / d → (n : ℚ) / d ≤ valQ (round n d) * (1 + ulp) ∧
      valQ (round n d) * (1 + ulp) ≤ (n : ℚ) / d * (1 + 2 * ulp)) ∧
    ((n : ℚ) / d < 1 / 2 ^ 1022 → (n : ℚ) / d ≤ valQ (round n d) + 1 / 2 ^ 1075 ∧ valQ (round n d) ≤ (n : ℚ) / d + 1 / 2 ^ 1075) := by
  obtain ⟨j, h1, h2, h3⟩ := round_side n hd
  generalize (n : ℚ) / d = q at *
  have mono := valQ_strictMono
  constructor
  · intro hq
    have hj : 2 ^ 52 ≤ j := by
      by_contra hc
      have := mono.monotone (show j + 1 ≤ 2 ^ 52 by omega)
      rw [valQ_normal] at this
      exact absurd (lt_of_le_of_lt hq h2) (not_lt.mpr this)
    clear hq
    have hg := gap_small hj
    unfold ulp
    have hv := valQ_nonneg j
    rcases h3 with ⟨h3, h4⟩ | ⟨h3, h4⟩
    · rw [h3]
      constructor <;> norm_num at hg ⊢ <;> linarith
    · rw [h3]
      constructor <;> norm_num at hg ⊢ <;> linarith
  · intro hq
    have hj : j < 2 ^ 52 := by
      by_contra hc
      have := mono.monotone (show 2 ^ 52 ≤ j by omega)
      rw [valQ_normal] at this
      exact absurd (lt_of_le_of_lt h1 hq) (not_lt.mpr this)
    have hg := gapQ_bottom hj
    have e : (1 : ℚ) / 2 ^ 1074 = 2 * (1 / 2 ^ 1075) := by
      rw [pow_succ 2 1074]; field_simp
    rw [e] at hg
    generalize (1 : ℚ) / 2 ^ 1075 = η at *
    rcases h3 with ⟨h3, h4⟩ | ⟨h3, h4⟩
    · rw [h3]
      constructor <;> linarith
    · rw [h3]
      constructor <;> linarith

theorem ulp_pos : 0 < ulp := by unfold ulp; norm_num

theorem ulp_small : ulp < 1 / 1000 := by unfold ulp; norm_num

/-- Two or more doubles up: the rounded number is that far away. -/
theorem far_up {k m g : Nat} {v r : ℚ} (hv : 2 * v ≤ valQ k + valQ (k + 1)) (hr : ∀ j, g = j + 1 → valQ j + valQ (j + 1) ≤ 2 * r)
    (hg : k + m + 1 ≤ g) : v + m * (valQ (k + 1) - valQ k) ≤ r := by
  have mono := valQ_strictMono.monotone
  have h1 := hr (g - 1) (by omega)
  have h2 := mono (show k + m ≤ g - 1 by omega)
  have h3 := mono (show k + m + 1 ≤ g - 1 + 1 by omega)
  have key : ∀ m : Nat, valQ k + m * (valQ (k + 1) - valQ k) ≤ valQ (k + m) ∧ valQ (k + 1) + m * (valQ (k + 1) - valQ k) ≤ valQ (k + m + 1) := by
    intro m
    have step : ∀ i : Nat, valQ (k + 1) - valQ k ≤ valQ (k + i + 1) - valQ (k + i) := by
      intro i
      induction i with
      | zero => simp
      | succ i ih => exact le_trans ih (gapQ_mono (k + i))
    induction m with
    | zero => simp
    | succ m ih =>
      have s1 := step m
      have s2 := step (m + 1)
      push_cast
      constructor
      · have := ih.1
        have e : k + (m + 1) = k + m + 1 := by omega
        rw [e]; linarith
      · have := ih.2
        have e : k + (m + 1) = k + m + 1 := by omega
        rw [e] at s2 ⊢; linarith
  have := key m
  linarith

/-- One step of the reader for exponents up to 308, as exact numbers. -/
theorem mul_value (a b : Nat) : ((units a * units b : Nat) : ℚ) / ((one * one : Nat) : ℚ) = valQ a * valQ b := by
  unfold valQ
  push_cast
  rw [div_mul_div_comm]

theorem div_value (a b : Nat) : ((units a : Nat) : ℚ) / ((units b : Nat) : ℚ) = valQ a / valQ b := by
  unfold valQ
  have := one_posQ
  field_simp

/-- Numbers as near as two or three roundings are rounded to doubles near each other. `c` counts half roundings. -/
theorem near {k g m : Nat} {v r c η : ℚ} (hk : 2 * v ≤ valQ k + valQ (k + 1)) (hk' : ∀ j, k = j + 1 → valQ j + valQ (j + 1) ≤ 2 * v)
    (hg : 2 * r ≤ valQ g + valQ (g + 1)) (hg' : ∀ j, g = j + 1 → valQ j + valQ (j + 1) ≤ 2 * r) (hη : η * 2 ≤ 1 / 2 ^ 1074)
    (hc : (c = 2 + ulp ∧ m = 2 ∧ η = 0) ∨ (c = 5 / 2 ∧ m = 3))
    (hup : r ≤ v * (1 + c * ulp) + η) (hdown : v ≤ r * (1 + c * ulp) + η) : g ≤ k + m ∧ k ≤ g + m := by
  have key : ∀ {k g : Nat} {v r : ℚ}, 2 * v ≤ valQ k + valQ (k + 1) → (∀ j, g = j + 1 → valQ j + valQ (j + 1) ≤ 2 * r) →
      r ≤ v * (1 + c * ulp) + η → g ≤ k + m := by
    intro k g v r hk hg' hup
    by_contra hn
    have far := far_up (m := m) hk hg' (by omega)
    have g1 := gapQ_large k
    have g2 := gapQ_one k
    have lt := valQ_strictMono (show k < k + 1 by omega)
    have hvk : v < valQ (k + 1) := by linarith
    have hvk' : 2 * v ≤ 2 * valQ (k + 1) - (valQ (k + 1) - valQ k) := by linarith
    have hγ : 0 < valQ (k + 1) - valQ k := by linarith
    clear hk hk' hg
    generalize (1 : ℚ) / 2 ^ 1074 = δ at *
    generalize valQ (k + 1) - valQ k = γ at *
    have hu : v * ulp < γ := by
      unfold ulp
      norm_num at g1 ⊢
      linarith
    have hu' : v * ulp * (2 + ulp) < 2 * γ := by
      unfold ulp
      norm_num at g1 ⊢
      linarith
    rcases hc with ⟨rfl, rfl, rfl⟩ | ⟨rfl, rfl⟩
    · push_cast at far
      linarith
    · push_cast at far
      linarith
  exact ⟨key hk hg' hup, key hg hk' hdown⟩

theorem one_le_normal : (1 : ℚ) / 2 ^ 1022 ≤ 1 := by
  rw [div_le_one (by positivity)]
  exact one_le_pow₀ (by norm_num)

/-- Rounding of a whole number. -/
theorem round_whole {S : Nat} (hS : 0 < S) : (S : ℚ) ≤ valQ (round S 1) * (1 + ulp) ∧ valQ (round S 1) * (1 + ulp) ≤ S * (1 + 2 * ulp) := by
  have h := (round_error S (d := 1) (by omega)).1
  rw [Nat.cast_one, div_one] at h
  exact h (le_trans one_le_normal (by exact_mod_cast hS))

theorem ofDec_mid (S : Nat) (x : Int) : 2 * decQ S x ≤ valQ (ofDec S x) + valQ (ofDec S x + 1) ∧
    ∀ j, ofDec S x = j + 1 → valQ j + valQ (j + 1) ≤ 2 * decQ S x := by
  rw [decQ_eq]
  exact round_between (n := S * 10 ^ x.toNat) (d := 10 ^ (-x).toNat) (by positivity)

theorem mul_near {S e : Nat} (hS : 0 < S) : mul (round S 1) (round (10 ^ e) 1) ≤ ofDec S e + 2 ∧
    ofDec S e ≤ mul (round S 1) (round (10 ^ e) 1) + 2 := by
  obtain ⟨v1, v2⟩ := ofDec_mid S e
  obtain ⟨r1, r2⟩ := round_between (n := units (round S 1) * units (round (10 ^ e) 1)) (d := one * one) (Nat.mul_pos one_pos one_pos)
  rw [mul_value] at r1 r2
  obtain ⟨a1, a2⟩ := round_whole hS
  obtain ⟨t1, t2⟩ := round_whole (S := 10 ^ e) (by positivity)
  have hv : decQ S e = S * ((10 ^ e : Nat) : ℚ) := by unfold decQ; rw [ten_nat]
  rw [hv] at v1 v2
  have hs : (0 : ℚ) < S := by exact_mod_cast hS
  have ht : (0 : ℚ) < ((10 ^ e : Nat) : ℚ) := by positivity
  have a0 := valQ_nonneg (round S 1)
  have t0 := valQ_nonneg (round (10 ^ e) 1)
  have u0 := ulp_pos
  refine near (c := 2 + ulp) (η := 0) v1 v2 r1 r2 (by rw [zero_mul]; positivity) (.inl ⟨rfl, rfl, rfl⟩) ?_ ?_
  · generalize valQ (round S 1) = A at *
    generalize valQ (round (10 ^ e) 1) = T at *
    generalize ((10 ^ e : Nat) : ℚ) = P at *
    generalize (S : ℚ) = s at *
    generalize ulp = u at *
    have h1 : (A * (1 + u)) * (T * (1 + u)) ≤ (s * (1 + 2 * u)) * (P * (1 + 2 * u)) :=
      mul_le_mul a2 t2 (by positivity) (by positivity)
    have h2 : (s * (1 + 2 * u)) * (P * (1 + 2 * u)) ≤ s * P * (1 + (2 + u) * u) * ((1 + u) * (1 + u)) := by
      have : (1 + 2 * u) * (1 + 2 * u) ≤ (1 + (2 + u) * u) * ((1 + u) * (1 + u)) := by nlinarith [mul_pos u0 u0]
      calc (s * (1 + 2 * u)) * (P * (1 + 2 * u)) = s * P * ((1 + 2 * u) * (1 + 2 * u)) := by ring
        _ ≤ s * P * ((1 + (2 + u) * u) * ((1 + u) * (1 + u))) := mul_le_mul_of_nonneg_left this (by positivity)
        _ = _ := by ring
    have h3 : A * T * ((1 + u) * (1 + u)) ≤ s * P * (1 + (2 + u) * u) * ((1 + u) * (1 + u)) := by
      calc A * T * ((1 + u) * (1 + u)) = (A * (1 + u)) * (T * (1 + u)) := by ring
        _ ≤ _ := h1.trans h2
    rw [add_zero]
    exact le_of_mul_le_mul_right h3 (by positivity)
  · generalize valQ (round S 1) = A at *
    generalize valQ (round (10 ^ e) 1) = T at *
    generalize ((10 ^ e : Nat) : ℚ) = P at *
    generalize (S : ℚ) = s at *
    generalize ulp = u at *
    have h1 : s * P ≤ (A * (1 + u)) * (T * (1 + u)) := mul_le_mul a1 t1 ht.le (by positivity)
    rw [add_zero]
    calc s * P ≤ _ := h1
      _ = A * T * (1 + (2 + u) * u) := by ring

theorem decQ_neg (S e : Nat) : decQ S (-(e : Int)) = S / ((10 ^ e : Nat) : ℚ) := by
  unfold decQ
  rw [zpow_neg, ten_nat, div_eq_mul_inv]

theorem units_round_pos {S : Nat} (hS : 0 < S) : 0 < valQ (round S 1) ∧ 0 < units (round S 1) := by
  have h := (round_whole hS).1
  have hs : (0 : ℚ) < S := by exact_mod_cast hS
  have u0 := ulp_pos
  have hp : 0 < valQ (round S 1) := by
    by_contra hc
    have : valQ (round S 1) = 0 := le_antisymm (not_lt.mp hc) (valQ_nonneg _)
    rw [this] at h
    linarith
  refine ⟨hp, ?_⟩
  rcases Nat.eq_zero_or_pos (units (round S 1)) with h0 | h0
  · unfold valQ at hp; rw [h0] at hp; simp at hp
  · exact h0

theorem div_near {S e : Nat} (hS : 0 < S) : div (round S 1) (round (10 ^ e) 1) ≤ ofDec S (-(e : Int)) + 2 ∧
    ofDec S (-(e : Int)) ≤ div (round S 1) (round (10 ^ e) 1) + 2 := by
  obtain ⟨v1, v2⟩ := ofDec_mid S (-(e : Int))
  have tp := units_round_pos (S := 10 ^ e) (by positivity)
  obtain ⟨r1, r2⟩ := round_between (n := units (round S 1)) (d := units (round (10 ^ e) 1)) tp.2
  rw [div_value] at r1 r2
  obtain ⟨a1, a2⟩ := round_whole hS
  obtain ⟨t1, t2⟩ := round_whole (S := 10 ^ e) (by positivity)
  rw [decQ_neg] at v1 v2
  have hs : (0 : ℚ) < S := by exact_mod_cast hS
  have ht : (0 : ℚ) < ((10 ^ e : Nat) : ℚ) := by positivity
  have a0 := valQ_nonneg (round S 1)
  have t0 := tp.1
  have u0 := ulp_pos
  refine near (c := 2 + ulp) (η := 0) v1 v2 r1 r2 (by rw [zero_mul]; positivity) (.inl ⟨rfl, rfl, rfl⟩) ?_ ?_
  · generalize valQ (round S 1) = A at *
    generalize valQ (round (10 ^ e) 1) = T at *
    generalize ((10 ^ e : Nat) : ℚ) = P at *
    generalize (S : ℚ) = s at *
    generalize ulp = u at *
    rw [add_zero, div_mul_eq_mul_div, div_le_div_iff₀ t0 ht]
    have h1 : (A * (1 + u)) * P ≤ (s * (1 + 2 * u)) * (T * (1 + u)) := mul_le_mul a2 t1 ht.le (by positivity)
    have h2 : A * P ≤ s * (1 + 2 * u) * T := by
      refine le_of_mul_le_mul_right (a := 1 + u) ?_ (by positivity)
      calc A * P * (1 + u) = (A * (1 + u)) * P := by ring
        _ ≤ _ := h1
        _ = _ := by ring
    refine h2.trans (mul_le_mul_of_nonneg_right (mul_le_mul_of_nonneg_left ?_ hs.le) t0.le)
    nlinarith [mul_pos u0 u0]
  · generalize valQ (round S 1) = A at *
    generalize valQ (round (10 ^ e) 1) = T at *
    generalize ((10 ^ e : Nat) : ℚ) = P at *
    generalize (S : ℚ) = s at *
    generalize ulp = u at *
    rw [add_zero, div_mul_eq_mul_div, div_le_div_iff₀ ht t0]
    have h1 : s * (T * (1 + u)) ≤ (A * (1 + u)) * (P * (1 + 2 * u)) := mul_le_mul a1 t2 (by positivity) (by positivity)
    have h2 : s * T ≤ A * (1 + 2 * u) * P := by
      refine le_of_mul_le_mul_right (a := 1 + u) ?_ (by positivity)
      calc s * T * (1 + u) = s * (T * (1 + u)) := by ring
        _ ≤ _ := h1
        _ = _ := by ring
    refine h2.trans (mul_le_mul_of_nonneg_right (mul_le_mul_of_nonneg_left ?_ a0) ht.le)
    nlinarith [mul_pos u0 u0]

/-- The double `1e308` is close to the power of ten. -/
theorem ten308 : ((10 ^ 308 : Nat) : ℚ) ≤ valQ (round (10 ^ 308) 1) * (1 + ulp / 8) ∧
    valQ (round (10 ^ 308) 1) ≤ ((10 ^ 308 : Nat) : ℚ) * (1 + ulp / 8) := by
  have h1 : 10 ^ 308 * 2 ^ 1074 * 2 ^ 56 ≤ units (round (10 ^ 308) 1) * (2 ^ 56 + 1) := by
    decide +kernel
  have h2 : units (round (10 ^ 308) 1) * 2 ^ 56 ≤ 10 ^ 308 * 2 ^ 1074 * (2 ^ 56 + 1) := by
    decide +kernel
  rw [← one_eq] at h1 h2
  have e : 1 + ulp / 8 = (2 ^ 56 + 1) / 2 ^ 56 := by unfold ulp; norm_num
  have q1 := (Nat.cast_le (α := ℚ)).mpr h1
  have q2 := (Nat.cast_le (α := ℚ)).mpr h2
  rw [e]
  unfold valQ
  have hone := one_posQ
  generalize units (round (10 ^ 308) 1) = n at *
  generalize (10 : Nat) ^ 308 = P at *
  generalize one = o at *
  push_cast at q1 q2
  constructor
  · rw [div_mul_div_comm, le_div_iff₀ (by positivity)]
    linarith
  · rw [mul_div_assoc', div_le_div_iff₀ hone (by positivity)]
    linarith

theorem valQ_ten {e : Nat} (h : e ≤ 22) : valQ (round (10 ^ e) 1) = ((10 ^ e : Nat) : ℚ) := by
  unfold valQ
  rw [round_ten h, Nat.cast_mul]
  have := one_posQ
  field_simp

/-- One rounding with either kind of error. -/
theorem round_both (n : Nat) {d : Nat} (hd : 0 < d) : (n : ℚ) / d ≤ valQ (round n d) * (1 + ulp) + 1 / 2 ^ 1075 ∧
    valQ (round n d) * (1 + ulp) ≤ (n : ℚ) / d * (1 + 2 * ulp) + 1 / 2 ^ 1075 * (1 + ulp) := by
  obtain ⟨h1, h2⟩ := round_error n hd
  have u0 := ulp_pos
  have v0 := valQ_nonneg (round n d)
  have q0 : 0 ≤ (n : ℚ) / d := by positivity
  have e0 : (0 : ℚ) < 1 / 2 ^ 1075 := by positivity
  rcases le_or_gt ((1 : ℚ) / 2 ^ 1022) ((n : ℚ) / d) with h | h
  · obtain ⟨a, b⟩ := h1 h
    clear h1 h2 h
    generalize (1 : ℚ) / 2 ^ 1075 = η at *
    have := mul_pos e0 (show 0 < 1 + ulp by linarith)
    exact ⟨by linarith, by linarith⟩
  · obtain ⟨a, b⟩ := h2 h
    clear h1 h2 h
    generalize (1 : ℚ) / 2 ^ 1075 = η at *
    generalize valQ (round n d) = V at *
    generalize (n : ℚ) / d = q at *
    have := mul_nonneg v0 u0.le
    have := mul_nonneg q0 u0.le
    have := mul_le_mul_of_nonneg_right b (show 0 ≤ 1 + ulp by linarith)
    exact ⟨by linarith, by linarith⟩

theorem div2_near {S e : Nat} (hS : 0 < S) (h1 : 1 ≤ e) (h22 : e ≤ 22) :
    div (div (round S 1) (round (10 ^ 308) 1)) (round (10 ^ e) 1) ≤ ofDec S (-((308 + e : Nat) : Int)) + 3 ∧
    ofDec S (-((308 + e : Nat) : Int)) ≤ div (div (round S 1) (round (10 ^ 308) 1)) (round (10 ^ e) 1) + 3 := by
  obtain ⟨v1, v2⟩ := ofDec_mid S (-((308 + e : Nat) : Int))
  have tp := units_round_pos (S := 10 ^ 308) (by positivity)
  have ep := units_round_pos (S := 10 ^ e) (by positivity)
  obtain ⟨b1, b2⟩ := round_both (units (round S 1)) (d := units (round (10 ^ 308) 1)) tp.2
  obtain ⟨r1, r2⟩ := round_between (n := units (div (round S 1) (round (10 ^ 308) 1))) (d := units (round (10 ^ e) 1)) ep.2
  rw [div_value] at r1 r2 b1 b2
  rw [show round (units (round S 1)) (units (round (10 ^ 308) 1)) = div (round S 1) (round (10 ^ 308) 1) from rfl] at b1 b2
  rw [valQ_ten h22] at r1 r2
  obtain ⟨a1, a2⟩ := round_whole hS
  obtain ⟨t1, t2⟩ := ten308
  rw [decQ_neg, pow_add, Nat.cast_mul] at v1 v2
  have hs : (0 : ℚ) < S := by exact_mod_cast hS
  have hP : (0 : ℚ) < ((10 ^ 308 : Nat) : ℚ) := Nat.cast_pos.mpr (by positivity)
  have hQ : (10 : ℚ) ≤ ((10 ^ e : Nat) : ℚ) := by
    have : 10 ^ 1 ≤ 10 ^ e := Nat.pow_le_pow_right (by omega) h1
    exact_mod_cast this
  have a0 := valQ_nonneg (round S 1)
  have t0 := tp.1
  have u0 := ulp_pos
  have us := ulp_small
  have B0 := valQ_nonneg (div (round S 1) (round (10 ^ 308) 1))
  have e0 : (0 : ℚ) < 1 / 2 ^ 1075 := by positivity
  have ee : (1 : ℚ) / 2 ^ 1075 * 2 ≤ 1 / 2 ^ 1074 := by
    rw [pow_succ 2 1074]
    generalize (2 : ℚ) ^ 1074 = z
    apply le_of_eq
    field_simp
  refine near (c := 5 / 2) (η := 1 / 2 ^ 1075) v1 v2 r1 r2 ee (.inr ⟨rfl, rfl⟩) ?_ ?_
  all_goals
    clear v1 v2 r1 r2 ee tp ep h1 h22 hS
    generalize valQ (div (round S 1) (round (10 ^ 308) 1)) = B at *
    generalize valQ (round S 1) = A at *
    generalize valQ (round (10 ^ 308) 1) = T at *
    generalize ((10 ^ 308 : Nat) : ℚ) = P at *
    generalize ((10 ^ e : Nat) : ℚ) = Q at *
    generalize (S : ℚ) = s at *
    generalize ulp = u at *
    generalize (1 : ℚ) / 2 ^ 1075 = η at *
  · -- the exact quotient
    have q1 : A / T * (1 + u) ≤ s / P * ((1 + 2 * u) * (1 + u / 8)) := by
      rw [div_mul_eq_mul_div, div_mul_eq_mul_div, div_le_div_iff₀ t0 hP]
      calc A * (1 + u) * P ≤ (s * (1 + 2 * u)) * (T * (1 + u / 8)) := mul_le_mul a2 t1 hP.le (by positivity)
        _ = _ := by ring
    have q2 : B * ((1 + u) * (1 + u)) ≤ s / P * ((1 + 2 * u) * (1 + u / 8) * (1 + 2 * u)) + η * ((1 + u) * (1 + u)) := by
      have x1 := mul_le_mul_of_nonneg_right b2 (show 0 ≤ 1 + u by linarith)
      have x2 := mul_le_mul_of_nonneg_right q1 (show 0 ≤ 1 + 2 * u by linarith)
      linarith
    have q3 : (1 + 2 * u) * (1 + u / 8) * (1 + 2 * u) ≤ (1 + 5 / 2 * u) * ((1 + u) * (1 + u)) := by
      nlinarith [mul_pos u0 u0, mul_pos (mul_pos u0 u0) u0]
    have q4 : B ≤ s / P * (1 + 5 / 2 * u) + η := by
      refine le_of_mul_le_mul_right (a := (1 + u) * (1 + u)) ?_ (by positivity)
      have := mul_le_mul_of_nonneg_left q3 (show 0 ≤ s / P by positivity)
      linarith
    have hQ0 : 0 < Q := by linarith
    rw [div_le_iff₀ hQ0]
    have : s / (P * Q) * (1 + 5 / 2 * u) * Q = s / P * (1 + 5 / 2 * u) := by field_simp
    have : η ≤ η * Q := by nlinarith
    linarith
  · have q1 : s / P ≤ A / T * ((1 + u) * (1 + u / 8)) := by
      rw [div_mul_eq_mul_div, div_le_div_iff₀ hP t0]
      calc s * T ≤ (A * (1 + u)) * (P * (1 + u / 8)) := mul_le_mul a1 t2 t0.le (by positivity)
        _ = _ := by ring
    have q2 : s / P ≤ (B * (1 + u) + η) * ((1 + u) * (1 + u / 8)) :=
      q1.trans (mul_le_mul_of_nonneg_right b1 (by positivity))
    have q3 : (1 + u) * ((1 + u) * (1 + u / 8)) ≤ 1 + 5 / 2 * u := by
      nlinarith [mul_pos u0 u0, mul_pos (mul_pos u0 u0) u0]
    have q4 : (1 + u) * (1 + u / 8) ≤ 10 := by nlinarith
    have hQ0 : 0 < Q := by linarith
    have q5 : s / P ≤ B * (1 + 5 / 2 * u) + η * Q := by
      have x1 := mul_le_mul_of_nonneg_left q3 B0
      have x2 := mul_le_mul_of_nonneg_left (q4.trans hQ) e0.le
      linarith
    have e1 : s / (P * Q) = s / P / Q := by rw [div_div]
    rw [e1, div_le_iff₀ hQ0]
    have : (B / Q * (1 + 5 / 2 * u) + η) * Q = B * (1 + 5 / 2 * u) + η * Q := by field_simp
    linarith

end Verif.Double
