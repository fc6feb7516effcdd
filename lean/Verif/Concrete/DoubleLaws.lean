import Verif.Concrete.Double
import Mathlib.Tactic.Linarith
import Mathlib.Tactic.Ring
import Mathlib.Data.Nat.Log
import Mathlib.Tactic.FieldSimp
import Mathlib.Algebra.Order.Field.Rat
import Mathlib.Algebra.Order.Field.Power

/-
What rounding and the shortest digits of `Verif/Concrete/Double.lean` compute: `round` is the nearest double, the shortest
digits denote the double they are taken of.
-/

namespace Verif.Double

/-! ### Magnitudes -/

theorem units_index {s Q : Nat} (hQ : Q ≤ 2 ^ 53) (h : s = 0 ∨ 2 ^ 52 ≤ Q) : units (s * 2 ^ 52 + Q) = Q * 2 ^ s := by
  unfold units
  rcases Nat.lt_or_ge (s * 2 ^ 52 + Q) (2 ^ 53) with hk | hk
  · rw [if_pos hk]
    have : s = 0 := by
      rcases h with h | h
      · exact h
      · omega
    subst this
    simp
  · rw [if_neg (by omega)]
    rcases Nat.lt_or_ge Q (2 ^ 53) with hq | hq
    · have hQ2 : 2 ^ 52 ≤ Q := by
        rcases h with h | h
        · subst h; omega
        · exact h
      have h1 : (s * 2 ^ 52 + Q) / 2 ^ 52 = s + 1 := by omega
      have h2 : (s * 2 ^ 52 + Q) % 2 ^ 52 = Q - 2 ^ 52 := by omega
      rw [h1, h2, Nat.add_sub_cancel, Nat.add_sub_cancel' hQ2]
    · have hq' : Q = 2 ^ 53 := by omega
      have h1 : (s * 2 ^ 52 + Q) / 2 ^ 52 = s + 2 := by omega
      have h2 : (s * 2 ^ 52 + Q) % 2 ^ 52 = 0 := by omega
      rw [h1, h2, hq', show s + 2 - 1 = s + 1 by omega, pow_succ]
      ring

/-- Every magnitude is a mantissa times a power of two. -/
theorem index_split (k : Nat) : ∃ s Q, k = s * 2 ^ 52 + Q ∧ Q < 2 ^ 53 ∧ (s = 0 ∨ 2 ^ 52 ≤ Q) := by
  rcases Nat.lt_or_ge k (2 ^ 53) with h | h
  · exact ⟨0, k, by omega, h, .inl rfl⟩
  · exact ⟨k / 2 ^ 52 - 1, k - (k / 2 ^ 52 - 1) * 2 ^ 52, by omega, by omega, .inr (by omega)⟩

theorem units_succ (k : Nat) : ∃ s Q, k = s * 2 ^ 52 + Q ∧ Q < 2 ^ 53 ∧ (s = 0 ∨ 2 ^ 52 ≤ Q) ∧ units k = Q * 2 ^ s ∧
    units (k + 1) = Q * 2 ^ s + 2 ^ s := by
  obtain ⟨s, Q, h1, h2, h3⟩ := index_split k
  refine ⟨s, Q, h1, h2, h3, ?_, ?_⟩
  · rw [h1, units_index (by omega) h3]
  · rw [h1, show s * 2 ^ 52 + Q + 1 = s * 2 ^ 52 + (Q + 1) by omega, units_index (by omega) (by omega)]
    ring

theorem units_lt_succ (k : Nat) : units k < units (k + 1) := by
  obtain ⟨s, Q, -, -, -, h1, h2⟩ := units_succ k
  have : 0 < 2 ^ s := by positivity
  omega

theorem units_strictMono : StrictMono units := strictMono_nat_of_lt_succ units_lt_succ

theorem units_zero : units 0 = 0 := rfl

theorem units_pos {k : Nat} (h : 0 < k) : 0 < units k := by
  have := units_strictMono h
  omega

/-- The distance to the next magnitude never decreases. -/
theorem gap_mono (k : Nat) : units (k + 1) - units k ≤ units (k + 2) - units (k + 1) := by
  obtain ⟨s, Q, h1, h2, h3, h4, h5⟩ := units_succ k
  obtain ⟨s', Q', h1', h2', h3', h4', h5'⟩ := units_succ (k + 1)
  have hs : s ≤ s' := by
    by_contra hc
    have : (s' + 1) * 2 ^ 52 ≤ s * 2 ^ 52 := Nat.mul_le_mul_right _ (by omega)
    omega
  have hp : 2 ^ s ≤ 2 ^ s' := Nat.pow_le_pow_right (by omega) hs
  have e : units (k + 2) = Q' * 2 ^ s' + 2 ^ s' := h5'
  have e1 : units (k + 1) - units k = 2 ^ s := by rw [h4, h5, Nat.add_sub_cancel_left]
  have e2 : units (k + 2) - units (k + 1) = 2 ^ s' := by rw [h4', e, Nat.add_sub_cancel_left]
  rw [e1, e2]
  exact hp

/-- The distance to the previous magnitude is at least the magnitude divided by `2^53`. -/
theorem gap_large (k : Nat) : units (k + 1) ≤ 2 ^ 53 * (units (k + 1) - units k) := by
  obtain ⟨s, Q, h1, h2, h3, h4, h5⟩ := units_succ k
  rw [show units (k + 1) - units k = 2 ^ s by rw [h4, h5, Nat.add_sub_cancel_left], h5]
  have : Q * 2 ^ s + 2 ^ s = (Q + 1) * 2 ^ s := by ring
  rw [this]
  exact Nat.mul_le_mul_right _ (by omega)

theorem one_pos : 0 < one := by decide +kernel

attribute [local irreducible] one

/-! ### Rounding -/

theorem log2_bounds {n : Nat} (h : n ≠ 0) : 2 ^ Nat.log2 n ≤ n ∧ n < 2 ^ (Nat.log2 n + 1) :=
  ⟨Nat.log2_self_le h, Nat.lt_log2_self⟩

/-- The two neighbours of a number, and which of them `round` takes. -/
theorem round_char (n : Nat) {d : Nat} (hd : 0 < d) : ∃ k, units k * d ≤ n * one ∧ n * one < units (k + 1) * d ∧
    round n d = if 2 * (n * one) < (units k + units (k + 1)) * d then k
      else if (units k + units (k + 1)) * d < 2 * (n * one) then k + 1 else k + k % 2 := by
  unfold round
  simp only []
  generalize n * one = N
  generalize hs : Nat.log2 (N / d) - 52 = s
  have hdiv : N / (d * 2 ^ s) = N / d / 2 ^ s := (Nat.div_div_eq_div_mul N d (2 ^ s)).symm
  have h2s : 0 < 2 ^ s := by positivity
  have hQ : N / (d * 2 ^ s) < 2 ^ 53 := by
    rw [hdiv, Nat.div_lt_iff_lt_mul h2s]
    by_cases h0 : N / d = 0
    · rw [h0]; positivity
    · have := (log2_bounds h0).2
      refine this.trans_le ?_
      rw [← pow_add]
      exact Nat.pow_le_pow_right (by omega) (by omega)
  have hQ2 : s = 0 ∨ 2 ^ 52 ≤ N / (d * 2 ^ s) := by
    by_cases hs0 : s = 0
    · exact .inl hs0
    · right
      have h0 : N / d ≠ 0 := by
        intro h0
        rw [h0] at hs
        have : Nat.log2 0 = 0 := by decide
        omega
      rw [hdiv, Nat.le_div_iff_mul_le h2s, ← pow_add]
      refine le_trans ?_ (log2_bounds h0).1
      exact Nat.pow_le_pow_right (by omega) (by omega)
  have e1 : units (s * 2 ^ 52 + N / (d * 2 ^ s)) = N / (d * 2 ^ s) * 2 ^ s := units_index hQ.le hQ2
  have e2 : units (s * 2 ^ 52 + N / (d * 2 ^ s) + 1) = (N / (d * 2 ^ s) + 1) * 2 ^ s := by
    rw [Nat.add_assoc]
    exact units_index hQ (by omega)
  have hmod := Nat.div_add_mod N (d * 2 ^ s)
  have hlt := Nat.mod_lt N (show 0 < d * 2 ^ s by positivity)
  unfold roundHalf
  revert e1 e2 hmod hlt
  generalize N / (d * 2 ^ s) = Q
  generalize N % (d * 2 ^ s) = R
  intro e1 e2 hmod hlt
  refine ⟨s * 2 ^ 52 + Q, ?_, ?_, ?_⟩
  · rw [e1, ← hmod]
    nlinarith
  · rw [e2, ← hmod]
    nlinarith
  · rw [e1, e2]
    have hpar : (s * 2 ^ 52 + Q) % 2 = Q % 2 := by omega
    have key : (Q * 2 ^ s + (Q + 1) * 2 ^ s) * d = 2 * (d * 2 ^ s * Q) + d * 2 ^ s := by ring
    rw [key, ← hmod, hpar]
    have c1 : (2 * (d * 2 ^ s * Q + R) < 2 * (d * 2 ^ s * Q) + d * 2 ^ s) = (2 * R < d * 2 ^ s) := by
      rw [eq_iff_iff]; omega
    have c2 : (2 * (d * 2 ^ s * Q) + d * 2 ^ s < 2 * (d * 2 ^ s * Q + R)) = (d * 2 ^ s < 2 * R) := by
      rw [eq_iff_iff]; omega
    rw [if_congr (iff_of_eq c1) rfl (if_congr (iff_of_eq c2) rfl rfl)]
    split
    · rfl
    · split <;> omega

/-- A number strictly between the midpoints around a double rounds to it. -/
theorem round_eq {n d k : Nat} (hd : 0 < d)
    (hlo : k = 0 ∨ (units (k - 1) + units k) * d < 2 * (n * one))
    (hhi : 2 * (n * one) < (units k + units (k + 1)) * d) : round n d = k := by
  obtain ⟨j, h1, h2, h3⟩ := round_char n hd
  have mono := units_strictMono.monotone
  have hj : j ≤ k := by
    by_contra hc
    have a := mono (show k + 1 ≤ j by omega)
    have b := mono (show k ≤ j by omega)
    have := Nat.mul_le_mul_right d (Nat.add_le_add b a)
    rw [Nat.add_mul (units j)] at this
    omega
  have hj' : k ≤ j + 1 := by
    by_contra hc
    have hk : k ≠ 0 := by omega
    have hlo := hlo.resolve_left hk
    have a := mono (show j + 1 ≤ k - 1 by omega)
    have b := mono (show j + 1 ≤ k by omega)
    have := Nat.mul_le_mul_right d (Nat.add_le_add a b)
    rw [Nat.add_mul (units (j + 1))] at this
    omega
  rcases Nat.lt_or_ge j k with hjk | hjk
  · obtain rfl : k = j + 1 := by omega
    have hlo := hlo.resolve_left (by omega)
    rw [Nat.add_sub_cancel] at hlo
    rw [h3, if_neg (by omega), if_pos hlo]
  · obtain rfl : k = j := by omega
    rw [h3, if_pos hhi]

/-- Only the quotient matters. -/
theorem round_scale {c : Nat} (hc : 0 < c) (n d : Nat) : round (c * n) (c * d) = round n d := by
  unfold round roundHalf
  simp only []
  rw [Nat.mul_assoc c n, Nat.mul_div_mul_left _ _ hc]
  generalize Nat.log2 (n * one / d) - 52 = s
  rw [Nat.mul_assoc c d, Nat.mul_div_mul_left _ _ hc, Nat.mul_mod_mul_left]
  have e1 : 2 * (c * (n * one % (d * 2 ^ s))) < c * (d * 2 ^ s) ↔ 2 * (n * one % (d * 2 ^ s)) < d * 2 ^ s := by
    rw [Nat.mul_left_comm]
    exact Nat.mul_lt_mul_left hc
  have e2 : c * (d * 2 ^ s) < 2 * (c * (n * one % (d * 2 ^ s))) ↔ d * 2 ^ s < 2 * (n * one % (d * 2 ^ s)) := by
    rw [Nat.mul_left_comm 2]
    exact Nat.mul_lt_mul_left hc
  rw [if_congr e1 rfl (if_congr e2 rfl rfl)]

theorem round_exact {n d k : Nat} (hd : 0 < d) (h : n * one = units k * d) : round n d = k := by
  refine round_eq hd ?_ ?_
  · rw [h]
    rcases Nat.eq_zero_or_pos k with h0 | h0
    · exact .inl h0
    · right
      have := units_strictMono (show k - 1 < k by omega)
      nlinarith
  · rw [h]
    have := units_lt_succ k
    nlinarith

/-- A double rounds to itself. -/
theorem round_units (k : Nat) : round (units k) (one) = k :=
  round_exact one_pos rfl

/-! ### Decimals -/

theorem ofDec_zero (e : Int) : ofDec 0 e = 0 := by
  unfold ofDec
  rw [Nat.zero_mul]
  exact round_exact (by positivity) (by simp [units_zero])

theorem ofDec_shift (D z : Nat) (e : Int) : ofDec (D * 10 ^ z) e = ofDec D (e + z) := by
  unfold ofDec
  rcases lt_or_ge e 0 with he | he
  · rcases lt_or_ge (e + z) 0 with hz | hz
    · have h1 : e.toNat = 0 := by omega
      have h2 : (e + z).toNat = 0 := by omega
      have h3 : (-e).toNat = z + (-(e + z)).toNat := by omega
      rw [h1, h2, h3, pow_add, pow_zero, Nat.mul_one, Nat.mul_one, Nat.mul_comm D]
      exact round_scale (by positivity) _ _
    · have h1 : e.toNat = 0 := by omega
      have h2 : z = (-e).toNat + (e + z).toNat := by omega
      have h3 : (-(e + z)).toNat = 0 := by omega
      rw [h1, h3]
      have : D * 10 ^ z * 10 ^ 0 = 10 ^ (-e).toNat * (D * 10 ^ (e + z).toNat) := by
        conv_lhs => rw [h2, pow_add]
        ring
      rw [this]
      conv_lhs => rw [← Nat.mul_one (10 ^ (-e).toNat)]
      rw [Nat.mul_one]
      have := round_scale (c := 10 ^ (-e).toNat) (by positivity) (D * 10 ^ (e + z).toNat) 1
      rw [Nat.mul_one] at this
      rw [this, pow_zero]
  · have h1 : (e + z).toNat = z + e.toNat := by omega
    have h2 : (-e).toNat = 0 := by omega
    have h3 : (-(e + z)).toNat = 0 := by omega
    rw [h1, h2, h3, pow_add]
    congr 1
    ring

/-- `decade` counts the digits before the decimal point: with `n` digits, the quotient by the last place has `n` digits. -/
theorem decade_spec {k : Nat} (hk : 0 < k) {n : Nat} (hn : 0 < n) :
    one * 10 ^ (decade k - n).toNat * 10 ^ (n - 1) ≤ units k * 10 ^ (-(decade k - n)).toNat ∧
    units k * 10 ^ (-(decade k - n)).toNat < one * 10 ^ (decade k - n).toNat * 10 ^ n := by
  have hu := units_pos hk
  generalize hW : units k * 10 ^ 400 / one = W
  have hW0 : W ≠ 0 := by
    rw [← hW]
    have h : one ≤ 10 ^ 400 := by decide +kernel
    have : one ≤ units k * 10 ^ 400 := h.trans (Nat.le_mul_of_pos_left _ hu)
    exact (Nat.div_pos this one_pos).ne'
  generalize hL : (Nat.digits 10 W).length = L
  have hL1 : 10 ^ (L - 1) ≤ W := by
    rw [← hL]
    have := Nat.base_pow_length_digits_le 10 W (by omega) hW0
    have hpos : 0 < (Nat.digits 10 W).length := by
      rw [List.length_pos_iff]
      exact Nat.digits_ne_nil_iff_ne_zero.mpr hW0
    obtain ⟨m, hm⟩ : ∃ m, (Nat.digits 10 W).length = m + 1 := ⟨_, (Nat.sub_add_cancel hpos).symm⟩
    rw [hm, pow_succ] at this
    rw [hm, Nat.add_sub_cancel]
    omega
  have hL2 : W < 10 ^ L := by
    rw [← hL]
    exact Nat.lt_base_pow_length_digits (by omega)
  have hLpos : 0 < L := by
    by_contra hc
    obtain rfl : L = 0 := by omega
    simp at hL2
    omega
  have hd : decade k = (L : Int) - 400 := by
    unfold decade
    rw [hW, hL]
  have b1 : one * 10 ^ (L - 1) ≤ units k * 10 ^ 400 := by
    rw [Nat.mul_comm]
    exact (Nat.le_div_iff_mul_le one_pos).mp (hW ▸ hL1)
  have b2 : units k * 10 ^ 400 < one * 10 ^ L := by
    rw [Nat.mul_comm (one)]
    exact (Nat.div_lt_iff_lt_mul one_pos).mp (hW ▸ hL2)
  rw [hd]
  generalize hP : ((L : Int) - 400 - n).toNat = P
  generalize hM : (-((L : Int) - 400 - n)).toNat = M
  have hPM : P + 400 + n = M + L := by omega
  have key : (10 : Nat) ^ P * 10 ^ 400 * 10 ^ n = 10 ^ M * 10 ^ L := by
    rw [← pow_add, ← pow_add, ← pow_add, hPM]
  have key' : (10 : Nat) ^ P * 10 ^ 400 * 10 ^ (n - 1) = 10 ^ M * 10 ^ (L - 1) := by
    rw [← pow_add, ← pow_add, ← pow_add]
    congr 1
    omega
  constructor
  · refine Nat.le_of_mul_le_mul_right ?_ (Nat.pow_pos (by omega) : 0 < 10 ^ 400)
    calc one * 10 ^ P * 10 ^ (n - 1) * 10 ^ 400 = one * (10 ^ P * 10 ^ 400 * 10 ^ (n - 1)) := by ring
      _ = one * 10 ^ (L - 1) * 10 ^ M := by rw [key']; ring
      _ ≤ units k * 10 ^ 400 * 10 ^ M := Nat.mul_le_mul_right _ b1
      _ = units k * 10 ^ M * 10 ^ 400 := by ring
  · refine Nat.lt_of_mul_lt_mul_right (a := 10 ^ 400) ?_
    calc units k * 10 ^ M * 10 ^ 400 = units k * 10 ^ 400 * 10 ^ M := by ring
      _ < one * 10 ^ L * 10 ^ M := Nat.mul_lt_mul_of_pos_right b2 (by positivity)
      _ = one * (10 ^ P * 10 ^ 400 * 10 ^ n) := by rw [key]; ring
      _ = one * 10 ^ P * 10 ^ n * 10 ^ 400 := by ring

/-- Decimals of 17 digits denote every double. -/
theorem withDigits_17 {k : Nat} (hk : 0 < k) : (withDigits k 17).isSome := by
  obtain ⟨h1, -⟩ := decade_spec hk (n := 17) (by omega)
  unfold withDigits
  simp only []
  revert h1
  generalize he : decade k - ((17 : Nat) : Int) = e
  intro h1
  have hM : 0 < 10 ^ (-e).toNat := by positivity
  have hB : 0 < one * 10 ^ e.toNat := Nat.mul_pos one_pos (by positivity)
  -- a decimal within half a unit of the last place rounds to `k`
  have near : ∀ D, 2 * (D * (one * 10 ^ e.toNat)) ≤ 2 * (units k * 10 ^ (-e).toNat) + one * 10 ^ e.toNat →
      2 * (units k * 10 ^ (-e).toNat) ≤ 2 * (D * (one * 10 ^ e.toNat)) + one * 10 ^ e.toNat → ofDec D e = k := by
    intro D d1 d2
    unfold ofDec
    obtain ⟨j, rfl⟩ : ∃ j, k = j + 1 := ⟨k - 1, by omega⟩
    have g1 := gap_large j
    have g2 := gap_mono j
    have hlt1 := units_lt_succ j
    have hlt2 := units_lt_succ (j + 1)
    obtain ⟨g, hg⟩ : ∃ g, units (j + 1) = units j + g := ⟨units (j + 1) - units j, by omega⟩
    obtain ⟨g', hg'⟩ : ∃ g', units (j + 1 + 1) = units (j + 1) + g' := ⟨units (j + 1 + 1) - units (j + 1), by omega⟩
    have hgg : g ≤ g' := by
      rw [show j + 2 = j + 1 + 1 from rfl] at g2
      omega
    have hgl : units (j + 1) ≤ 2 ^ 53 * g := by
      rw [show units (j + 1) - units j = g by omega] at g1
      exact g1
    -- the last place is smaller than the gap
    have hsmall : one * 10 ^ e.toNat < g * 10 ^ (-e).toNat := by
      refine Nat.lt_of_mul_lt_mul_right (a := 10 ^ (17 - 1)) ?_
      calc one * 10 ^ e.toNat * 10 ^ (17 - 1) ≤ units (j + 1) * 10 ^ (-e).toNat := h1
        _ ≤ 2 ^ 53 * g * 10 ^ (-e).toNat := Nat.mul_le_mul_right _ hgl
        _ = 2 ^ 53 * (g * 10 ^ (-e).toNat) := by ring
        _ < 10 ^ (17 - 1) * (g * 10 ^ (-e).toNat) := by
          refine Nat.mul_lt_mul_of_pos_right (by norm_num) ?_
          exact Nat.mul_pos (by omega) hM
        _ = g * 10 ^ (-e).toNat * 10 ^ (17 - 1) := by ring
    have hD : D * 10 ^ e.toNat * one = D * (one * 10 ^ e.toNat) := by ring
    have hgM : g * 10 ^ (-e).toNat ≤ g' * 10 ^ (-e).toNat := Nat.mul_le_mul_right _ hgg
    refine round_eq hM (.inr ?_) ?_
    · rw [hD, Nat.add_sub_cancel]
      have : (units j + units (j + 1)) * 10 ^ (-e).toNat + g * 10 ^ (-e).toNat = 2 * (units (j + 1) * 10 ^ (-e).toNat) := by
        rw [hg]; ring
      omega
    · rw [hD, hg']
      have : (units (j + 1) + (units (j + 1) + g')) * 10 ^ (-e).toNat =
          2 * (units (j + 1) * 10 ^ (-e).toNat) + g' * 10 ^ (-e).toNat := by ring
      omega
  have hdm := Nat.div_add_mod (units k * 10 ^ (-e).toNat) (one * 10 ^ e.toNat)
  have hml := Nat.mod_lt (units k * 10 ^ (-e).toNat) hB
  revert near hdm hml
  generalize units k * 10 ^ (-e).toNat / (one * 10 ^ e.toNat) = q
  generalize units k * 10 ^ (-e).toNat % (one * 10 ^ e.toNat) = r
  generalize units k * 10 ^ (-e).toNat = a
  generalize one * 10 ^ e.toNat = b
  intro near hdm hml
  have hc : ofDec q e = k ∨ ofDec (q + 1) e = k := by
    rcases Nat.lt_or_ge (2 * r) b with hr | hr
    · refine .inl (near q ?_ ?_)
      · rw [← hdm]; nlinarith
      · rw [← hdm]; nlinarith
    · refine .inr (near (q + 1) ?_ ?_)
      · rw [← hdm]; nlinarith
      · rw [← hdm]; nlinarith
  rcases hc with hc | hc
  · rw [if_pos hc]; split <;> rfl
  · simp only [hc, if_true]
    split <;> rfl

theorem withDigits_cases {k n : Nat} {p : Nat × Int} (h : withDigits k n = some p) :
    p.2 = decade k - n ∧ ofDec p.1 p.2 = k ∧
    (p.1 = units k * 10 ^ (-(decade k - n)).toNat / (one * 10 ^ (decade k - n).toNat) ∨
      p.1 = units k * 10 ^ (-(decade k - n)).toNat / (one * 10 ^ (decade k - n).toNat) + 1) := by
  have hr : ∀ a b, roundHalf a b = a / b ∨ roundHalf a b = a / b + 1 := by
    intro a b
    unfold roundHalf
    split
    · exact .inl rfl
    · split
      · exact .inr rfl
      · omega
  unfold withDigits at h
  simp only [] at h
  revert h
  generalize decade k - n = e
  have hr := hr (units k * 10 ^ (-e).toNat) (one * 10 ^ e.toNat)
  revert hr
  generalize roundHalf (units k * 10 ^ (-e).toNat) (one * 10 ^ e.toNat) = r
  generalize units k * 10 ^ (-e).toNat / (one * 10 ^ e.toNat) = q
  generalize hf : (fun D => ofDec D e) = f
  have hf : ∀ D, ofDec D e = f D := fun D => congrFun hf D
  obtain ⟨D, x⟩ := p
  simp only [hf]
  intro hr h
  have key : D = q ∧ f q = k ∨ D = q + 1 ∧ f (q + 1) = k := by
    split at h
    · rename_i h1
      split at h
      · rename_i h2
        injection h with h
        injection h with h _
        rcases hr with hr | hr
        · exact .inl ⟨by omega, h1⟩
        · exact .inr ⟨by omega, h2⟩
      · injection h with h
        injection h with h _
        exact .inl ⟨h.symm, h1⟩
    · split at h
      · rename_i h2
        injection h with h
        injection h with h _
        exact .inr ⟨h.symm, h2⟩
      · cases h
  have hx : x = e := by
    split at h
    · split at h
      · injection h with h; injection h with _ h; exact h.symm
      · injection h with h; injection h with _ h; exact h.symm
    · split at h
      · injection h with h; injection h with _ h; exact h.symm
      · cases h
  subst hx
  refine ⟨rfl, ?_, ?_⟩
  · rw [hf]
    rcases key with ⟨h1, h2⟩ | ⟨h1, h2⟩ <;> rw [h1, h2]
  · rcases key with ⟨h1, _⟩ | ⟨h1, _⟩
    · exact .inl h1
    · exact .inr h1

theorem withDigits_spec {k n : Nat} {p : Nat × Int} (h : withDigits k n = some p) : ofDec p.1 p.2 = k :=
  (withDigits_cases h).2.1

theorem withDigits_bound {k n : Nat} (hk : 0 < k) (hn : 0 < n) {p : Nat × Int} (h : withDigits k n = some p) :
    p.1 ≤ 10 ^ n := by
  obtain ⟨-, h2⟩ := decade_spec hk hn
  have hB : 0 < one * 10 ^ (decade k - n).toNat := Nat.mul_pos one_pos (by positivity)
  have hq : units k * 10 ^ (-(decade k - n)).toNat / (one * 10 ^ (decade k - n).toNat) < 10 ^ n :=
    (Nat.div_lt_iff_lt_mul hB).mpr (by rw [Nat.mul_comm (10 ^ n)]; exact h2)
  rcases (withDigits_cases h).2.2 with h | h <;> omega

theorem strip_value (fuel : Nat) (p : Nat × Int) : ofDec (strip fuel p).1 (strip fuel p).2 = ofDec p.1 p.2 := by
  induction fuel generalizing p with
  | zero => rfl
  | succ f ih =>
    obtain ⟨D, e⟩ := p
    simp only [strip]
    split
    · rename_i h
      rw [ih]
      have := ofDec_shift (D / 10) 1 e
      rw [pow_one, Nat.div_mul_cancel (Nat.dvd_of_mod_eq_zero h)] at this
      exact this.symm
    · rfl

theorem strip_last (fuel : Nat) (p : Nat × Int) (h0 : 0 < p.1) (h : p.1 ≤ 10 ^ fuel) : (strip fuel p).1 % 10 ≠ 0 := by
  induction fuel generalizing p with
  | zero =>
    simp only [pow_zero] at h
    simp only [strip]
    omega
  | succ f ih =>
    obtain ⟨D, e⟩ := p
    simp only [strip]
    split
    · rename_i hm
      rw [pow_succ] at h
      simp only at h h0
      exact ih _ (by simp only; omega) (by simp only; omega)
    · simpa

theorem search_spec {f : Nat → Option (Nat × Int)} (n i : Nat) (h : ∃ j, i ≤ j ∧ j < i + n ∧ (f j).isSome) :
    ∃ j, i ≤ j ∧ j < i + n ∧ f j = some (search f n i) ∧ ∀ l, i ≤ l → l < j → f l = none := by
  induction n generalizing i with
  | zero =>
    obtain ⟨j, h1, h2, -⟩ := h
    omega
  | succ n ih =>
    obtain ⟨j, h1, h2, h3⟩ := h
    simp only [search]
    cases hw : f i with
    | some p => exact ⟨i, by omega, by omega, hw, fun l a b => by omega⟩
    | none =>
      have hj : i ≠ j := by
        rintro rfl
        rw [hw] at h3
        cases h3
      obtain ⟨j', a, b, c, d⟩ := ih (i + 1) ⟨j, by omega, by omega, h3⟩
      refine ⟨j', by omega, by omega, c, fun l h h' => ?_⟩
      rcases Nat.eq_or_lt_of_le h with rfl | h
      · exact hw
      · exact d l h h'

theorem firstDigits {k : Nat} (hk : 0 < k) : ∃ n p, 1 ≤ n ∧ n ≤ 17 ∧ withDigits k n = some p ∧ shortest k = strip 17 p ∧
    ∀ l, 1 ≤ l → l < n → withDigits k l = none := by
  have h17 := withDigits_17 hk
  unfold shortest
  revert h17
  generalize withDigits k = f
  intro h17
  obtain ⟨j, h1, h2, h3, h4⟩ := search_spec (f := f) 17 1 ⟨17, by omega, by omega, h17⟩
  exact ⟨j, _, h1, by omega, h3, rfl, h4⟩

/-- The shortest digits denote the double, and end with a digit that is not zero. -/
theorem shortest_spec {k : Nat} (hk : 0 < k) :
    ofDec (shortest k).1 (shortest k).2 = k ∧ (shortest k).1 % 10 ≠ 0 := by
  obtain ⟨n, p, h1, hi, hp, hs, -⟩ := firstDigits hk
  have hv := withDigits_spec hp
  have hb := withDigits_bound hk (by omega) hp
  have h0 : 0 < p.1 := by
    rcases Nat.eq_zero_or_pos p.1 with h | h
    · rw [h, ofDec_zero] at hv
      omega
    · exact h
  have hb' : p.1 ≤ 10 ^ 17 := Nat.le_trans hb (Nat.pow_le_pow_right (by omega) (by omega))
  rw [hs]
  exact ⟨(strip_value 17 p).trans hv, strip_last 17 p h0 hb'⟩

/-! ### Order -/

/-- The number `D * 10^e`. -/
def decQ (D : Nat) (e : Int) : ℚ := D * 10 ^ e

/-- The double with bits `k` as a number. -/
def valQ (k : Nat) : ℚ := units k / one

theorem one_posQ : (0 : ℚ) < one := by exact_mod_cast one_pos

theorem valQ_strictMono : StrictMono valQ := by
  intro a b h
  unfold valQ
  exact div_lt_div_of_pos_right (by exact_mod_cast units_strictMono h) one_posQ

theorem decQ_eq (D : Nat) (e : Int) : decQ D e = ((D * 10 ^ e.toNat : Nat) : ℚ) / ((10 ^ (-e).toNat : Nat) : ℚ) := by
  unfold decQ
  push_cast
  have h : e = (e.toNat : Int) - ((-e).toNat : Int) := by omega
  conv_lhs => rw [h]
  rw [zpow_sub₀ (by norm_num), zpow_natCast, zpow_natCast]
  ring

/-- `round` in terms of numbers: the two neighbours and which of them is taken. -/
theorem round_charQ (n : Nat) {d : Nat} (hd : 0 < d) : ∃ k, valQ k ≤ (n : ℚ) / d ∧ (n : ℚ) / d < valQ (k + 1) ∧
    round n d = if 2 * ((n : ℚ) / d) < valQ k + valQ (k + 1) then k
      else if valQ k + valQ (k + 1) < 2 * ((n : ℚ) / d) then k + 1 else k + k % 2 := by
  obtain ⟨k, h1, h2, h3⟩ := round_char n hd
  have hdq : (0 : ℚ) < d := by exact_mod_cast hd
  have hone := one_posQ
  have q1 : (units k : ℚ) * d ≤ n * one := by exact_mod_cast h1
  have q2 : (n : ℚ) * one < units (k + 1) * d := by exact_mod_cast h2
  have e : valQ k + valQ (k + 1) = ((units k : ℚ) + units (k + 1)) / one := by
    unfold valQ
    rw [add_div]
  have e2 : 2 * ((n : ℚ) / d) = (2 * n) / d := by ring
  refine ⟨k, ?_, ?_, ?_⟩
  · unfold valQ
    rw [div_le_div_iff₀ hone hdq]
    exact q1
  · unfold valQ
    rw [div_lt_div_iff₀ hdq hone]
    exact q2
  · rw [h3]
    have c1 : 2 * (n * one) < (units k + units (k + 1)) * d ↔ 2 * ((n : ℚ) / d) < valQ k + valQ (k + 1) := by
      rw [e, e2, div_lt_div_iff₀ hdq hone]
      have : (2 * (n * one) < (units k + units (k + 1)) * d) ↔
          ((2 * ((n : ℚ) * one)) < ((units k : ℚ) + units (k + 1)) * d) := by exact_mod_cast Iff.rfl
      rw [this, mul_assoc]
    have c2 : (units k + units (k + 1)) * d < 2 * (n * one) ↔ valQ k + valQ (k + 1) < 2 * ((n : ℚ) / d) := by
      rw [e, e2, div_lt_div_iff₀ hone hdq]
      have : ((units k + units (k + 1)) * d < 2 * (n * one)) ↔
          (((units k : ℚ) + units (k + 1)) * d < (2 * ((n : ℚ) * one))) := by exact_mod_cast Iff.rfl
      rw [this, mul_assoc 2]
    rw [if_congr c1 rfl (if_congr c2 rfl rfl)]

theorem round_mono {n d n' d' : Nat} (hd : 0 < d) (hd' : 0 < d') (h : (n : ℚ) / d ≤ (n' : ℚ) / d') :
    round n d ≤ round n' d' := by
  obtain ⟨k, h1, h2, h3⟩ := round_charQ n hd
  obtain ⟨k', h1', h2', h3'⟩ := round_charQ n' hd'
  have hk : k ≤ k' := by
    by_contra hc
    have := valQ_strictMono.monotone (show k' + 1 ≤ k by omega)
    linarith
  rcases Nat.eq_or_lt_of_le hk with rfl | hlt
  · rw [h3, h3']
    by_cases a : 2 * ((n : ℚ) / d) < valQ k + valQ (k + 1)
    · rw [if_pos a]
      split
      · exact le_refl _
      · split <;> omega
    · rw [if_neg a]
      have a' : ¬ 2 * ((n' : ℚ) / d') < valQ k + valQ (k + 1) := by linarith
      rw [if_neg a']
      by_cases b : valQ k + valQ (k + 1) < 2 * ((n : ℚ) / d)
      · rw [if_pos b, if_pos (by linarith)]
      · rw [if_neg b]
        split <;> omega
  · have : round n d ≤ k + 1 := by
      rw [h3]
      split
      · omega
      · split <;> omega
    have : k' ≤ round n' d' := by
      rw [h3']
      split
      · omega
      · split <;> omega
    omega

/-- `round` is the nearest double; at equal distance the one with even bits. -/
theorem round_nearest (n : Nat) {d : Nat} (hd : 0 < d) (j : Nat) :
    |valQ (round n d) - (n : ℚ) / d| ≤ |valQ j - (n : ℚ) / d| ∧
    (|valQ (round n d) - (n : ℚ) / d| = |valQ j - (n : ℚ) / d| → j = round n d ∨ round n d % 2 = 0) := by
  obtain ⟨k, h1, h2, h3⟩ := round_charQ n hd
  generalize (n : ℚ) / d = x at *
  have mono := valQ_strictMono
  have hkk := mono (Nat.lt_succ_self k)
  simp only [Nat.succ_eq_add_one] at hkk
  have dk : |valQ k - x| = x - valQ k := by rw [abs_sub_comm, abs_of_nonneg (by linarith)]
  have dk1 : |valQ (k + 1) - x| = valQ (k + 1) - x := abs_of_pos (by linarith)
  -- the distance of any double
  have far : (j < k → x - valQ k < |valQ j - x|) ∧ (k + 1 < j → valQ (k + 1) - x < |valQ j - x|) := by
    constructor
    · intro hj
      have := mono hj
      rw [abs_sub_comm, abs_of_nonneg (by linarith)]
      linarith
    · intro hj
      have := mono hj
      rw [abs_of_nonneg (by linarith)]
      linarith
  have cases4 : j < k ∨ j = k ∨ j = k + 1 ∨ k + 1 < j := by omega
  rw [h3]
  by_cases a : 2 * x < valQ k + valQ (k + 1)
  · simp only [if_pos a]
    rw [dk]
    rcases cases4 with hj | rfl | rfl | hj
    · have := far.1 hj
      exact ⟨this.le, fun he => absurd he this.ne⟩
    · rw [dk]
      exact ⟨le_refl _, fun _ => .inl rfl⟩
    · rw [dk1]
      exact ⟨by linarith, fun he => absurd he (by linarith)⟩
    · have := far.2 hj
      exact ⟨by linarith, fun he => absurd he (by linarith)⟩
  · simp only [if_neg a]
    by_cases b : valQ k + valQ (k + 1) < 2 * x
    · simp only [if_pos b]
      rw [dk1]
      rcases cases4 with hj | rfl | rfl | hj
      · have := far.1 hj
        exact ⟨by linarith, fun he => absurd he (by linarith)⟩
      · rw [dk]
        exact ⟨by linarith, fun he => absurd he (by linarith)⟩
      · rw [dk1]
        exact ⟨le_refl _, fun _ => .inl rfl⟩
      · have := far.2 hj
        exact ⟨this.le, fun he => absurd he this.ne⟩
    · simp only [if_neg b]
      have hmid : x - valQ k = valQ (k + 1) - x := by linarith
      have hd : |valQ (k + k % 2) - x| = x - valQ k := by
        rcases Nat.mod_two_eq_zero_or_one k with h | h
        · rw [h]; exact dk
        · rw [h, dk1, hmid]
      rw [hd]
      refine ⟨?_, fun _ => .inr (by omega)⟩
      rcases cases4 with hj | rfl | rfl | hj
      · exact (far.1 hj).le
      · rw [dk]
      · rw [dk1, hmid]
      · rw [hmid]; exact (far.2 hj).le

theorem ofDec_mono {D D' : Nat} {e e' : Int} (h : decQ D e ≤ decQ D' e') : ofDec D e ≤ ofDec D' e' := by
  rw [decQ_eq, decQ_eq] at h
  exact round_mono (by positivity) (by positivity) h

end Verif.Double
