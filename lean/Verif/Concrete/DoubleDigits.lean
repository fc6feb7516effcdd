import Verif.Concrete.DoubleLaws
import Mathlib.Data.Int.Log
import Mathlib.Data.Rat.Floor

/-
The shortest digits are the shortest ones, and decimals of at most 15 digits are the shortest digits of the double they denote.
-/

namespace Verif.Double

attribute [local irreducible] one

theorem ten_pos (e : Int) : (0 : ℚ) < 10 ^ e := zpow_pos (by norm_num) e

theorem ten_le {a b : Int} (h : a ≤ b) : (10 : ℚ) ^ a ≤ 10 ^ b := zpow_le_zpow_right₀ (by norm_num) h

theorem ten_lt_iff {a b : Int} : (10 : ℚ) ^ a < 10 ^ b ↔ a < b := zpow_lt_zpow_iff_right₀ (by norm_num)

theorem ten_add (a b : Int) : (10 : ℚ) ^ (a + b) = 10 ^ a * 10 ^ b := zpow_add₀ (by norm_num) a b

theorem ten_nat (n : Nat) : (10 : ℚ) ^ (n : Int) = ((10 ^ n : Nat) : ℚ) := by
  rw [zpow_natCast]; push_cast; rfl

/-- With `n` digits the quotient has `n` digits and is the floor. -/
theorem quotient_spec {k : Nat} (hk : 0 < k) {n : Nat} (hn : 0 < n) :
    let e := decade k - n
    let q := units k * 10 ^ (-e).toNat / (one * 10 ^ e.toNat)
    10 ^ (n - 1) ≤ q ∧ q < 10 ^ n ∧ decQ q e ≤ valQ k ∧ valQ k < decQ (q + 1) e := by
  simp only
  obtain ⟨h1, h2⟩ := decade_spec hk hn
  generalize decade k - n = e at *
  have hB : 0 < one * 10 ^ e.toNat := Nat.mul_pos one_pos (by positivity)
  have hM : 0 < 10 ^ (-e).toNat := by positivity
  have hdiv : units k * 10 ^ (-e).toNat / (one * 10 ^ e.toNat) * (one * 10 ^ e.toNat) ≤ units k * 10 ^ (-e).toNat :=
    Nat.div_mul_le_self _ _
  have hlt : units k * 10 ^ (-e).toNat < (units k * 10 ^ (-e).toNat / (one * 10 ^ e.toNat) + 1) * (one * 10 ^ e.toNat) := by
    rw [Nat.mul_comm (_ + 1)]
    exact Nat.lt_mul_div_succ _ hB
  refine ⟨?_, ?_, ?_, ?_⟩
  · rw [Nat.le_div_iff_mul_le hB, Nat.mul_comm (10 ^ (n - 1))]
    exact h1
  · rw [Nat.div_lt_iff_lt_mul hB, Nat.mul_comm (10 ^ n)]
    exact h2
  · rw [decQ_eq, valQ, div_le_div_iff₀ (by exact_mod_cast hM) one_posQ]
    have : units k * 10 ^ (-e).toNat / (one * 10 ^ e.toNat) * 10 ^ e.toNat * one ≤ units k * 10 ^ (-e).toNat := by
      refine le_trans (le_of_eq ?_) hdiv
      ring
    exact_mod_cast this
  · rw [decQ_eq, valQ, div_lt_div_iff₀ one_posQ (by exact_mod_cast hM)]
    have : units k * 10 ^ (-e).toNat <
        (units k * 10 ^ (-e).toNat / (one * 10 ^ e.toNat) + 1) * 10 ^ e.toNat * one := by
      refine lt_of_lt_of_eq hlt ?_
      ring
    exact_mod_cast this

/-- A double lies in its decade. -/
theorem decadeQ {k : Nat} (hk : 0 < k) : (10 : ℚ) ^ (decade k - 1) ≤ valQ k ∧ valQ k < 10 ^ decade k := by
  obtain ⟨h1, h2, h3, h4⟩ := quotient_spec hk (n := 1) (by omega)
  simp only [Nat.cast_one] at h1 h2 h3 h4
  generalize units k * 10 ^ (-(decade k - 1)).toNat / (one * 10 ^ (decade k - 1).toNat) = q at *
  have hp := ten_pos (decade k - 1)
  have e10 : (10 : ℚ) ^ decade k = 10 * 10 ^ (decade k - 1) := by
    have := ten_add 1 (decade k - 1)
    rw [show 1 + (decade k - 1) = decade k by omega] at this
    rw [this]; norm_num
  constructor
  · refine le_trans ?_ h3
    unfold decQ
    have : (1 : ℚ) ≤ q := by exact_mod_cast h1
    nlinarith
  · refine lt_of_lt_of_le h4 ?_
    unfold decQ
    rw [e10]
    have : ((q + 1 : Nat) : ℚ) ≤ 10 := by exact_mod_cast (show q + 1 ≤ 10 by omega)
    nlinarith

/-- A decimal with a finer last place is a multiple of a coarser one. -/
theorem decQ_regrid (D : Nat) {e γ : Int} (h : γ ≤ e) : decQ D e = decQ (D * 10 ^ (e - γ).toNat) γ := by
  unfold decQ
  push_cast
  have : e = ((e - γ).toNat : Int) + γ := by omega
  conv_lhs => rw [this, ten_add, zpow_natCast]
  ring

theorem decQ_le_iff {a b : Nat} {e : Int} : decQ a e ≤ decQ b e ↔ a ≤ b := by
  unfold decQ
  rw [mul_le_mul_iff_left₀ (ten_pos e)]
  exact_mod_cast Iff.rfl

theorem decQ_lt_iff {a b : Nat} {e : Int} : decQ a e < decQ b e ↔ a < b := by
  rw [← not_le, ← not_le, decQ_le_iff]

/-- A number of at most `m` digits that is at least `10^t` has its last place at `t + 1 - m` or higher. -/
theorem place_ge {D m : Nat} {e t : Int} (hD : D < 10 ^ m) (h : (10 : ℚ) ^ t ≤ decQ D e) : t + 1 - m ≤ e := by
  have h2 : decQ D e < 10 ^ (m + e) := by
    unfold decQ
    rw [ten_add, ten_nat]
    exact mul_lt_mul_of_pos_right (by exact_mod_cast hD) (ten_pos e)
  have := ten_lt_iff.mp (lt_of_le_of_lt h h2)
  omega

theorem valQ_round (k : Nat) : round (units k) one = k := round_units k

theorem ofDec_of_le {k q : Nat} {e : Int} (h : decQ q e ≤ valQ k) : ofDec q e ≤ k := by
  rw [decQ_eq] at h
  have := round_mono (by positivity) one_pos h
  rw [valQ_round] at this
  exact this

theorem ofDec_of_ge {k q : Nat} {e : Int} (h : valQ k ≤ decQ q e) : k ≤ ofDec q e := by
  rw [decQ_eq] at h
  have := round_mono one_pos (by positivity) h
  rw [valQ_round] at this
  exact this

/-- If some decimal of at most `m` digits denotes the double, the search with `m` digits succeeds. -/
theorem withDigits_complete {k m D : Nat} {e : Int} (hk : 0 < k) (hm : 0 < m) (hD : D < 10 ^ m) (h : ofDec D e = k) :
    (withDigits k m).isSome := by
  obtain ⟨q1, q2, q3, q4⟩ := quotient_spec hk hm
  obtain ⟨d1, d2⟩ := decadeQ hk
  have key : ofDec (units k * 10 ^ (-(decade k - m)).toNat / (one * 10 ^ (decade k - m).toNat)) (decade k - m) = k ∨
      ofDec (units k * 10 ^ (-(decade k - m)).toNat / (one * 10 ^ (decade k - m).toNat) + 1) (decade k - m) = k := by
    revert q1 q2 q3 q4
    generalize units k * 10 ^ (-(decade k - m)).toNat / (one * 10 ^ (decade k - m).toNat) = q
    intro q1 q2 q3 q4
    rcases le_or_gt (decQ D e) (valQ k) with hx | hx
    · left
      have hle : decQ D e ≤ decQ q (decade k - m) := by
        rcases le_or_gt ((10 : ℚ) ^ (decade k - 1)) (decQ D e) with hy | hy
        · have he := place_ge hD hy
          rw [decQ_regrid D (show decade k - m ≤ e by omega)] at hx ⊢
          have := lt_of_le_of_lt hx q4
          rw [decQ_lt_iff] at this
          rw [decQ_le_iff]
          omega
        · refine hy.le.trans ?_
          have : (10 : ℚ) ^ (decade k - 1) = decQ (10 ^ (m - 1)) (decade k - m) := by
            unfold decQ
            rw [← ten_nat, ← ten_add]
            congr 1
            omega
          rw [this, decQ_le_iff]
          exact q1
      have h1 := ofDec_mono hle
      have h2 := ofDec_of_le q3
      omega
    · right
      have hle : decQ (q + 1) (decade k - m) ≤ decQ D e := by
        rcases lt_or_ge (decQ D e) ((10 : ℚ) ^ decade k) with hy | hy
        · have he := place_ge hD (d1.trans hx.le)
          rw [decQ_regrid D (show decade k - m ≤ e by omega)] at hx ⊢
          have := lt_of_le_of_lt q3 hx
          rw [decQ_lt_iff] at this
          rw [decQ_le_iff]
          omega
        · refine le_trans ?_ hy
          have : (10 : ℚ) ^ decade k = decQ (10 ^ m) (decade k - m) := by
            unfold decQ
            rw [← ten_nat, ← ten_add]
            congr 1
            omega
          rw [this, decQ_le_iff]
          omega
      have h1 := ofDec_mono hle
      have h2 := ofDec_of_ge q4.le
      omega
  unfold withDigits
  simp only
  generalize decade k - m = x at *
  generalize ofDec (units k * 10 ^ (-x).toNat / (one * 10 ^ x.toNat)) x = r1 at *
  generalize ofDec (units k * 10 ^ (-x).toNat / (one * 10 ^ x.toNat) + 1) x = r2 at *
  rcases key with rfl | rfl
  · simp only [if_true]
    split <;> rfl
  · simp only [if_true]
    split <;> rfl

theorem strip_le (fuel : Nat) (p : Nat × Int) : (strip fuel p).1 ≤ p.1 := by
  induction fuel generalizing p with
  | zero => exact le_refl _
  | succ f ih =>
    obtain ⟨D, e⟩ := p
    simp only [strip]
    split
    · exact (ih _).trans (Nat.div_le_self _ _)
    · exact le_refl _

/-- No decimal with fewer digits denotes the double: the digits of `shortest` are at most as many as those of any decimal
that denotes it. -/
theorem shortest_least {k m D : Nat} {e : Int} (hk : 0 < k) (hm : 0 < m) (hD : D < 10 ^ m) (h : ofDec D e = k) :
    (shortest k).1 < 10 ^ m := by
  obtain ⟨n, p, h1, h2, h3, h4, h5⟩ := firstDigits hk
  have hn : n ≤ m := by
    by_contra hc
    have a := withDigits_complete hk hm hD h
    have b := h5 m hm (by omega)
    generalize withDigits k m = o at a b
    subst b
    cases a
  have hb := withDigits_bound hk h1 h3
  have hle : (shortest k).1 ≤ 10 ^ m := by
    rw [h4]
    exact (strip_le 17 p).trans (hb.trans (Nat.pow_le_pow_right (by omega) hn))
  have hlast := (shortest_spec hk).2
  have hne : (shortest k).1 ≠ 10 ^ m := by
    intro he
    apply hlast
    rw [he]
    obtain ⟨m', rfl⟩ : ∃ m', m = m' + 1 := ⟨m - 1, by omega⟩
    rw [pow_succ]
    omega
  omega

/-- What denotes a double lies between the midpoints to its neighbours. -/
theorem ofDec_between {k D : Nat} {e : Int} (h : ofDec D e = k + 1) :
    valQ k + valQ (k + 1) ≤ 2 * decQ D e ∧ 2 * decQ D e ≤ valQ (k + 1) + valQ (k + 2) := by
  obtain ⟨j, h1, h2, h3⟩ := round_charQ (D * 10 ^ e.toNat) (d := 10 ^ (-e).toNat) (by positivity)
  rw [← decQ_eq] at h1 h2 h3
  have h3 : k + 1 = _ := h.symm.trans h3
  have mono := valQ_strictMono
  split at h3
  · rename_i hc
    subst h3
    have := mono (Nat.lt_succ_self k)
    simp only [Nat.succ_eq_add_one] at this
    exact ⟨by linarith, hc.le⟩
  · rename_i hc
    split at h3
    · rename_i hc'
      obtain rfl : k = j := by omega
      have := mono (show k + 1 < k + 2 by omega)
      exact ⟨by linarith, by linarith⟩
    · rename_i hc'
      have heq : valQ j + valQ (j + 1) = 2 * decQ D e := by linarith
      rcases Nat.mod_two_eq_zero_or_one j with hj | hj
      · rw [hj] at h3
        obtain rfl : k + 1 = j := by omega
        have := mono (show k < k + 1 by omega)
        exact ⟨by linarith, heq.ge⟩
      · rw [hj] at h3
        obtain rfl : k = j := by omega
        have := mono (show k + 1 < k + 2 by omega)
        exact ⟨heq.le, by linarith⟩

/-- For normal doubles the distance to the next one is at most the number divided by `2^52`. -/
theorem gap_small {k : Nat} (hk : 2 ^ 52 ≤ k) : (2 ^ 52 : ℚ) * (valQ (k + 1) - valQ k) ≤ valQ k := by
  obtain ⟨s, Q, h1, h2, h3, h4, h5⟩ := units_succ k
  have hQ : 2 ^ 52 ≤ Q := by
    rcases h3 with rfl | h3
    · omega
    · exact h3
  have hn : 2 ^ 52 * (units (k + 1) - units k) ≤ units k := by
    rw [h5, h4, Nat.add_sub_cancel_left]
    exact Nat.mul_le_mul_right _ hQ
  have hle := (units_lt_succ k).le
  unfold valQ
  rw [← sub_div, mul_div_assoc']
  refine div_le_div_of_nonneg_right ?_ one_posQ.le
  have := (Nat.cast_le (α := ℚ)).mpr hn
  rw [Nat.cast_mul, Nat.cast_sub hle] at this
  push_cast at this
  exact this

/-- Two different decimals of at most 15 digits differ by at least one part in `10^15`. -/
theorem decimals_apart {a b : Nat} {α β : Int} (ha : a < 10 ^ 15) (hb : b < 10 ^ 15) (h : decQ a α < decQ b β) :
    decQ b β ≤ 10 ^ 15 * (decQ b β - decQ a α) := by
  have hA : 0 ≤ decQ a α := mul_nonneg (by positivity) (ten_pos α).le
  have hB : 0 < decQ b β := lt_of_le_of_lt hA h
  generalize hF : Int.log 10 (decQ b β) = F
  have f1 : (10 : ℚ) ^ F ≤ decQ b β := by
    rw [← hF]
    exact_mod_cast Int.zpow_log_le_self (b := 10) (by norm_num) hB
  have f2 : decQ b β < (10 : ℚ) ^ (F + 1) := by
    rw [← hF]
    exact_mod_cast Int.lt_zpow_succ_log_self (b := 10) (by norm_num) (decQ b β)
  have gridB := decQ_regrid b (show F - 14 ≤ β by have := place_ge hb f1; push_cast at this; omega)
  have e15 : (10 : ℚ) ^ (F + 1) = 10 ^ 15 * 10 ^ (F - 14) := by
    have := ten_add 15 (F - 14)
    rw [show 15 + (F - 14) = F + 1 by omega] at this
    rw [this]; norm_num
  have e14 : (10 : ℚ) ^ F = decQ (10 ^ 14) (F - 14) := by
    have := ten_add 14 (F - 14)
    rw [show 14 + (F - 14) = F by omega] at this
    rw [this, decQ]; norm_num
  -- at least one unit of the last place of `b`
  have step : ∀ c, decQ c (F - 14) < decQ b β → 10 ^ (F - 14) ≤ decQ b β - decQ c (F - 14) := by
    intro c hc
    rw [gridB, decQ_lt_iff] at hc
    rw [gridB]
    unfold decQ
    rw [← sub_mul]
    have : (1 : ℚ) ≤ ((b * 10 ^ (β - (F - 14)).toNat : Nat) : ℚ) - c := by
      have : ((c + 1 : Nat) : ℚ) ≤ ((b * 10 ^ (β - (F - 14)).toNat : Nat) : ℚ) := by exact_mod_cast hc
      push_cast at this ⊢
      linarith
    have hp := ten_pos (F - 14)
    nlinarith
  rcases le_or_gt ((10 : ℚ) ^ F) (decQ a α) with hy | hy
  · have hg := decQ_regrid a (show F - 14 ≤ α by have := place_ge ha hy; push_cast at this; omega)
    rw [hg] at h ⊢
    have := step _ h
    rw [e15] at f2
    linarith
  · rcases lt_or_eq_of_le f1 with hz | hz
    · rw [e14] at hz hy
      have := step _ hz
      rw [e15] at f2
      linarith
    · -- `b` is a power of ten
      rcases le_or_gt ((10 : ℚ) ^ (F - 1)) (decQ a α) with hw | hw
      · have hg := decQ_regrid a (show F - 15 ≤ α by have := place_ge ha hw; push_cast at this; omega)
        have e16 : (10 : ℚ) ^ F = decQ (10 ^ 15) (F - 15) := by
          have := ten_add 15 (F - 15)
          rw [show 15 + (F - 15) = F by omega] at this
          rw [this, decQ]; norm_num
        rw [← hz, e16, hg] at h ⊢
        rw [decQ_lt_iff] at h
        unfold decQ
        rw [← sub_mul]
        have : (1 : ℚ) ≤ ((10 ^ 15 : Nat) : ℚ) - ((a * 10 ^ (α - (F - 15)).toNat : Nat) : ℚ) := by
          have : ((a * 10 ^ (α - (F - 15)).toNat + 1 : Nat) : ℚ) ≤ ((10 ^ 15 : Nat) : ℚ) := by exact_mod_cast h
          push_cast at this ⊢
          linarith
        have hp := ten_pos (F - 15)
        have e : (((10 ^ 15 : Nat) : ℚ)) = 10 ^ 15 := by norm_num
        rw [e] at this ⊢
        nlinarith
      · have e9 : (10 : ℚ) ^ F = 10 * 10 ^ (F - 1) := by
          have := ten_add 1 (F - 1)
          rw [show 1 + (F - 1) = F by omega] at this
          rw [this]; norm_num
        rw [← hz]
        have := ten_pos F
        nlinarith

/-- Decimals of at most 15 digits that denote the same normal double are equal. -/
theorem decimals_unique {a b k : Nat} {α β : Int} (ha : a < 10 ^ 15) (hb : b < 10 ^ 15) (hk : 2 ^ 52 ≤ k)
    (h1 : ofDec a α = k) (h2 : ofDec b β = k) : ¬ decQ a α < decQ b β := by
  intro h
  have hap := decimals_apart ha hb h
  obtain ⟨j, rfl⟩ : ∃ j, k = j + 1 := ⟨k - 1, by omega⟩
  obtain ⟨l1, -⟩ := ofDec_between h1
  obtain ⟨-, u2⟩ := ofDec_between h2
  have hg := gap_small hk
  have hm : valQ (j + 1) - valQ j ≤ valQ (j + 2) - valQ (j + 1) := by
    have h0 := gap_mono j
    have a1 := (units_lt_succ j).le
    have a2 := (units_lt_succ (j + 1)).le
    unfold valQ
    rw [← sub_div, ← sub_div]
    refine div_le_div_of_nonneg_right ?_ one_posQ.le
    have := (Nat.cast_le (α := ℚ)).mpr h0
    rw [Nat.cast_sub a1, Nat.cast_sub (show units (j + 1) ≤ units (j + 2) from a2)] at this
    exact this
  rw [show j + 1 + 1 = j + 2 from rfl] at hg
  norm_num at hap hg
  linarith

theorem decQ_inj {a b : Nat} {α β : Int} (ha : a % 10 ≠ 0) (hb : b % 10 ≠ 0) (h : decQ a α = decQ b β) :
    a = b ∧ α = β := by
  have key : ∀ {a b : Nat} {α β : Int}, a % 10 ≠ 0 → decQ a α = decQ b β → α ≤ β → a = b ∧ α = β := by
    intro a b α β ha h hle
    rw [decQ_regrid b hle] at h
    have : a = b * 10 ^ (β - α).toNat := by
      apply le_antisymm
      · exact decQ_le_iff.mp h.le
      · exact decQ_le_iff.mp h.ge
    rcases Nat.eq_zero_or_pos (β - α).toNat with h0 | h0
    · rw [h0, pow_zero, Nat.mul_one] at this
      exact ⟨this, by omega⟩
    · exfalso
      obtain ⟨z, hz⟩ : ∃ z, (β - α).toNat = z + 1 := ⟨_, (Nat.sub_add_cancel h0).symm⟩
      rw [hz, pow_succ, ← Nat.mul_assoc] at this
      omega
  rcases le_total α β with hle | hle
  · exact key ha h hle
  · obtain ⟨h1, h2⟩ := key hb h.symm hle
    exact ⟨h1.symm, h2.symm⟩

/-- A decimal of at most 15 digits without trailing zero is the shortest decimal of the double it denotes. -/
theorem shortest_15 {D : Nat} {e : Int} (h0 : D % 10 ≠ 0) (hD : D < 10 ^ 15) (hk : 2 ^ 52 ≤ ofDec D e) :
    shortest (ofDec D e) = (D, e) := by
  have hpos : 0 < ofDec D e := by omega
  obtain ⟨s1, s2⟩ := shortest_spec hpos
  have hl := shortest_least hpos (m := 15) (by omega) hD rfl
  have a := decimals_unique hl hD hk s1 rfl
  have b := decimals_unique hD hl hk rfl s1
  obtain ⟨c, d⟩ := decQ_inj s2 h0 (le_antisymm (not_lt.mp b) (not_lt.mp a))
  exact Prod.ext c d

end Verif.Double
