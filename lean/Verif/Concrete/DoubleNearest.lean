import Verif.Concrete.DoubleRead

/-
Rounding to the nearest double, stated from the meaning of the bits (IEEE 754), and the closest of the shortest decimals.
-/

namespace Verif.Spec
open Verif

/-- The magnitude of a finite double with the 63 bits `k` (IEEE 754, binary64): eleven bits of exponent, 52 of fraction. -/
def ieee (k : Nat) : ℚ :=
  if k / 2 ^ 52 = 0 then (k % 2 ^ 52 : Nat) * 2 ^ (-1074 : Int)
  else (2 ^ 52 + (k % 2 ^ 52 : Nat)) * 2 ^ ((k / 2 ^ 52 : Nat) - 1075 : Int)

/-- `k` is the double nearest to `q`, the even one if two are equally near; `q` is not so large that it counts as
infinite. -/
def Nearest (k : Nat) (q : ℚ) : Prop :=
  q < 2 ^ 1024 - 2 ^ 970 ∧ ∀ j < 2047 * 2 ^ 52, |ieee k - q| ≤ |ieee j - q| ∧ (|ieee k - q| = |ieee j - q| → j = k ∨ k % 2 = 0)

end Verif.Spec

namespace Verif.Double
open Verif Spec

attribute [local irreducible] one

theorem ieee_eq (k : Nat) : ieee k = valQ k := by
  unfold ieee valQ units
  have h1 : ((one : Nat) : ℚ) = 2 ^ (1074 : Int) := by
    rw [one_eq, Nat.cast_pow, Nat.cast_ofNat]
    exact (zpow_natCast 2 1074).symm
  rw [h1, div_eq_mul_inv, ← zpow_neg]
  split
  · rename_i h
    rw [if_pos (by omega), Nat.mod_eq_of_lt (by omega)]
  · rename_i h
    split
    · rename_i h'
      have e : k / 2 ^ 52 = 1 := by omega
      rw [e]
      have e2 : k = 2 ^ 52 + k % 2 ^ 52 := by omega
      conv_rhs => rw [e2]
      rw [show ((1 : Nat) : Int) - 1075 = -1074 from rfl, Nat.cast_add, Nat.cast_pow, Nat.cast_ofNat]
    · rename_i h'
      rw [Nat.cast_mul, Nat.cast_add, Nat.cast_pow, Nat.cast_pow, Nat.cast_ofNat, mul_assoc]
      congr 1
      rw [← zpow_natCast, ← zpow_add₀ (by norm_num)]
      congr 1
      omega

theorem valQ_top : valQ top = 2 ^ 1024 := by
  have h : units top = 2 ^ 1024 * one := by decide +kernel
  unfold valQ
  rw [h, Nat.cast_mul, mul_div_assoc, div_self one_posQ.ne', mul_one, Nat.cast_pow, Nat.cast_ofNat]

theorem valQ_last : valQ (top - 1) = 2 ^ 1024 - 2 ^ 971 := by
  have h : units (top - 1) + 2 ^ 971 * one = 2 ^ 1024 * one := by decide +kernel
  have h' : ((units (top - 1) : Nat) : ℚ) + 2 ^ 971 * one = 2 ^ 1024 * one := by
    have := congrArg (Nat.cast (R := ℚ)) h
    rw [Nat.cast_add, Nat.cast_mul, Nat.cast_mul, Nat.cast_pow, Nat.cast_pow, Nat.cast_ofNat] at this
    exact this
  unfold valQ
  rw [div_eq_iff one_posQ.ne', sub_mul]
  linarith

theorem half_last : (2 : ℚ) * (2 ^ 1024 - 2 ^ 970) = valQ (top - 1) + valQ top := by
  rw [valQ_top, valQ_last, show (2 : ℚ) ^ 971 = 2 ^ 970 * 2 from pow_succ 2 970]
  generalize (2 : ℚ) ^ 1024 = a
  generalize (2 : ℚ) ^ 970 = b
  ring

theorem top_even : top % 2 = 0 := by decide +kernel

theorem top_pos : 2 < top := by decide +kernel

theorem nearest_of_round {n d : Nat} (hd : 0 < d) (hk : round n d < top) : Nearest (round n d) ((n : ℚ) / d) := by
  have hn := round_nearest n hd
  generalize (n : ℚ) / d = q at *
  generalize round n d = k at *
  refine ⟨?_, fun j _ => ?_⟩
  · by_contra hc
    have hc := not_lt.mp hc
    obtain ⟨h1, h2⟩ := hn top
    have hl := half_last
    generalize (2 : ℚ) ^ 1024 - 2 ^ 970 = T at *
    have ha : valQ k ≤ valQ (top - 1) := valQ_strictMono.monotone (by omega)
    have hb : valQ (top - 1) < valQ top := valQ_strictMono (by have := top_pos; omega)
    have hq : valQ (top - 1) < q := by linarith
    rw [abs_of_nonpos (by linarith : valQ k - q ≤ 0)] at h1 h2
    rcases le_total q (valQ top) with h | h
    · rw [abs_of_nonneg (by linarith : 0 ≤ valQ top - q)] at h1 h2
      have e : valQ k = valQ (top - 1) := by linarith
      have e' := valQ_strictMono.injective e
      rcases h2 (by linarith) with h | h
      · omega
      · have := top_even
        have := top_pos
        omega
    · rw [abs_of_nonpos (by linarith : valQ top - q ≤ 0)] at h1
      linarith
  · rw [ieee_eq, ieee_eq]
    exact hn j

theorem nearest_unique {k j : Nat} {q : ℚ} (hk : k < top) (hj : j < top) (h : Nearest k q) (h' : Nearest j q) : k = j := by
  have key : ∀ {k j : Nat}, k < top → j < top → Nearest k q → Nearest j q → ¬ k < j := by
    intro k j hk hj h h' hlt
    have a := h.2 j hj
    have b := h'.2 k hk
    have c := h.2 (k + 1) (by change k + 1 < top; omega)
    simp only [ieee_eq] at a b c
    have e : |valQ k - q| = |valQ j - q| := le_antisymm a.1 b.1
    have ek : k % 2 = 0 := (a.2 e).resolve_left (by omega)
    have ej : j % 2 = 0 := (b.2 e.symm).resolve_left (by omega)
    have h1 : valQ k < valQ (k + 1) := valQ_strictMono (by omega)
    have h2 : valQ (k + 1) < valQ j := valQ_strictMono (by omega)
    generalize valQ k = x at *
    generalize valQ j = y at *
    generalize valQ (k + 1) = w at *
    have hq : q = (x + y) / 2 := by
      rcases abs_eq_abs.mp e with h | h <;> linarith
    have hc := c.1
    rw [abs_of_nonpos (by linarith : x - q ≤ 0)] at hc
    rcases abs_cases (w - q) with ⟨h, _⟩ | ⟨h, _⟩ <;> rw [h] at hc <;> linarith
  rcases Nat.lt_trichotomy k j with h1 | h1 | h1
  · exact absurd h1 (key hk hj h h')
  · exact h1
  · exact absurd h1 (key hj hk h' h)

/-- The nearest double is what `round` computes. -/
theorem nearest_iff_round {n d k : Nat} (hd : 0 < d) (hk : k < top) : Nearest k ((n : ℚ) / d) ↔ round n d = k := by
  constructor
  · intro h
    have hr : round n d < top := by
      by_contra hc
      obtain ⟨h1, -⟩ := round_nearest n hd (top - 1)
      have hq := h.1
      have hl := half_last
      generalize (2 : ℚ) ^ 1024 - 2 ^ 970 = T at *
      generalize (n : ℚ) / d = q at *
      generalize round n d = r at *
      have ha : valQ top ≤ valQ r := valQ_strictMono.monotone (by omega)
      have hb : valQ (top - 1) < valQ top := valQ_strictMono (by have := top_pos; omega)
      rw [abs_of_nonneg (by linarith : 0 ≤ valQ r - q)] at h1
      rcases abs_cases (valQ (top - 1) - q) with ⟨h, _⟩ | ⟨h, _⟩ <;> rw [h] at h1 <;> linarith
    exact nearest_unique hr hk (nearest_of_round hd hr) h
  · rintro rfl
    exact nearest_of_round hd hk

theorem nearest_iff {S k : Nat} {x : Int} (hk : k < top) : Nearest k (S * 10 ^ x) ↔ ofDec S x = k := by
  have := decQ_eq S x
  unfold decQ at this
  rw [this, nearest_iff_round (by positivity) hk]
  rfl

/-! ### Closest -/

/-- Of the decimals of `n` digits that denote the double, the one chosen is closest to it. -/
theorem withDigits_closest {k n : Nat} (hk : 0 < k) (hn : 0 < n) {p : Nat × Int} (h : withDigits k n = some p)
    {S : Nat} {x : Int} (hS : S < 10 ^ n) (hx : ofDec S x = k) :
    |decQ p.1 p.2 - valQ k| ≤ |decQ S x - valQ k| := by
  obtain ⟨q1, q2, q3, q4⟩ := quotient_spec hk hn
  obtain ⟨d1, d2⟩ := decadeQ hk
  have hcase : ∀ e q, decade k - n = e → units k * 10 ^ (-e).toNat / (one * 10 ^ e.toNat) = q →
      p.2 = e ∧ (ofDec q e = k ∧ ofDec (q + 1) e = k ∧ p.1 = roundHalf (units k * 10 ^ (-e).toNat) (one * 10 ^ e.toNat) ∨
        ofDec q e = k ∧ ofDec (q + 1) e ≠ k ∧ p.1 = q ∨ ofDec q e ≠ k ∧ ofDec (q + 1) e = k ∧ p.1 = q + 1) := by
    intro e q he hq
    have h := h
    unfold withDigits at h
    simp only [he, hq] at h
    generalize ofDec q e = u at *
    generalize ofDec (q + 1) e = v at *
    generalize roundHalf (units k * 10 ^ (-e).toNat) (one * 10 ^ e.toNat) = w at *
    split at h
    · split at h
      · cases h; exact ⟨rfl, .inl ⟨by assumption, by assumption, rfl⟩⟩
      · cases h; exact ⟨rfl, .inr (.inl ⟨by assumption, by assumption, rfl⟩)⟩
    · split at h
      · cases h; exact ⟨rfl, .inr (.inr ⟨by assumption, by assumption, rfl⟩)⟩
      · cases h
  have hround : ∀ e q, decade k - n = e → units k * 10 ^ (-e).toNat / (one * 10 ^ e.toNat) = q →
      decQ q e ≤ valQ k → valQ k < decQ (q + 1) e →
      |decQ (roundHalf (units k * 10 ^ (-e).toNat) (one * 10 ^ e.toNat)) e - valQ k| ≤ |decQ q e - valQ k| ∧
      |decQ (roundHalf (units k * 10 ^ (-e).toNat) (one * 10 ^ e.toNat)) e - valQ k| ≤ |decQ (q + 1) e - valQ k| := by
    intro e q he hq a b
    have hv : valQ k * (one * 10 ^ e.toNat : Nat) = (units k * 10 ^ (-e).toNat : Nat) * 10 ^ e := by
      unfold valQ
      have h : (10 : ℚ) ^ e = 10 ^ e.toNat / 10 ^ (-e).toNat := by
        have h : e = (e.toNat : Int) - ((-e).toNat : Int) := by omega
        conv_lhs => rw [h]
        rw [zpow_sub₀ (by norm_num), zpow_natCast, zpow_natCast]
      have hone := one_posQ
      rw [h]
      push_cast
      field_simp
    have hm := Nat.div_add_mod (units k * 10 ^ (-e).toNat) (one * 10 ^ e.toNat)
    have hmod := Nat.mod_lt (units k * 10 ^ (-e).toNat) (show 0 < one * 10 ^ e.toNat from Nat.mul_pos one_pos (by positivity))
    unfold roundHalf
    rw [hq] at hm ⊢
    generalize hB : one * 10 ^ e.toNat = B at *
    generalize units k * 10 ^ (-e).toNat = A at *
    generalize hr : A % B = r at *
    have hp := ten_pos e
    have hB0 : (0 : ℚ) < B := by
      rw [← hB]; exact_mod_cast Nat.mul_pos one_pos (by positivity)
    have hA : (A : ℚ) = B * q + r := by exact_mod_cast hm.symm
    have hval : (valQ k - decQ q e) * B = r * 10 ^ e := by
      unfold decQ
      rw [sub_mul, hv, hA]
      ring
    have hval' : (decQ (q + 1) e - valQ k) * B = (B - r) * 10 ^ e := by
      unfold decQ
      rw [sub_mul, hv, hA]
      push_cast
      ring
    have hlt : ∀ {a b : ℚ}, a * B = b * 10 ^ e → ∀ {a' b' : ℚ}, a' * B = b' * 10 ^ e → b ≤ b' → a ≤ a' := by
      intro a b h1 a' b' h2 h3
      have : a * B ≤ a' * B := by rw [h1, h2]; exact mul_le_mul_of_nonneg_right h3 hp.le
      exact le_of_mul_le_mul_right this hB0
    rw [abs_of_nonpos (by linarith : decQ q e - valQ k ≤ 0), abs_of_nonneg (by linarith : 0 ≤ decQ (q + 1) e - valQ k)]
    have hlow : 2 * r ≤ B → |decQ q e - valQ k| ≤ -(decQ q e - valQ k) ∧ |decQ q e - valQ k| ≤ decQ (q + 1) e - valQ k := by
      intro h
      rw [abs_of_nonpos (by linarith : decQ q e - valQ k ≤ 0)]
      refine ⟨le_refl _, ?_⟩
      rw [neg_sub]
      refine hlt hval hval' ?_
      have : (2 : ℚ) * r ≤ B := by exact_mod_cast h
      linarith
    have hhigh : B ≤ 2 * r → |decQ (q + 1) e - valQ k| ≤ -(decQ q e - valQ k) ∧
        |decQ (q + 1) e - valQ k| ≤ decQ (q + 1) e - valQ k := by
      intro h
      rw [abs_of_nonneg (by linarith : 0 ≤ decQ (q + 1) e - valQ k)]
      refine ⟨?_, le_refl _⟩
      rw [neg_sub]
      refine hlt hval' hval ?_
      have : (B : ℚ) ≤ 2 * r := by exact_mod_cast h
      linarith
    split
    · exact hlow (by omega)
    · split
      · exact hhigh (by omega)
      · rcases Nat.mod_two_eq_zero_or_one q with h | h
        · rw [h, Nat.add_zero]; exact hlow (by omega)
        · rw [h]; exact hhigh (by omega)
  obtain ⟨hp2, hp1⟩ := hcase _ _ rfl rfl
  have hround := hround _ _ rfl rfl q3 q4
  generalize he : decade k - n = e at *
  generalize roundHalf (units k * 10 ^ (-e).toNat) (one * 10 ^ e.toNat) = w at *
  generalize units k * 10 ^ (-e).toNat / (one * 10 ^ e.toNat) = q at *
  rw [hp2]
  -- the other decimal is at most `q` or at least `q + 1` on the grid
  have hside : decQ S x ≤ decQ q e ∨ decQ (q + 1) e ≤ decQ S x := by
    rcases lt_or_ge (decQ S x) (10 ^ (decade k - 1)) with hs | hs
    · left
      have : (10 : ℚ) ^ (decade k - 1) ≤ decQ q e := by
        have e1 : decade k - 1 = ((n - 1 : Nat) : Int) + e := by omega
        unfold decQ
        rw [e1, ten_add, ten_nat]
        exact mul_le_mul_of_nonneg_right (by exact_mod_cast q1) (ten_pos e).le
      linarith
    · have hpl := place_ge hS hs
      rw [decQ_regrid S (show e ≤ x by omega), decQ_le_iff, decQ_le_iff]
      omega
  have hv : ofDec S x = k := hx
  rcases hp1 with ⟨h1, h2, h3⟩ | ⟨h1, h2, h3⟩ | ⟨h1, h2, h3⟩
  · rw [h3]
    rcases hside with hs | hs
    · refine hround.1.trans ?_
      rw [abs_of_nonpos (by linarith : decQ q e - valQ k ≤ 0), abs_of_nonpos (by linarith : decQ S x - valQ k ≤ 0)]
      linarith
    · refine hround.2.trans ?_
      rw [abs_of_nonneg (by linarith : 0 ≤ decQ (q + 1) e - valQ k), abs_of_nonneg (by linarith : 0 ≤ decQ S x - valQ k)]
      linarith
  · rw [h3]
    rcases hside with hs | hs
    · rw [abs_of_nonpos (by linarith : decQ q e - valQ k ≤ 0), abs_of_nonpos (by linarith : decQ S x - valQ k ≤ 0)]
      linarith
    · exfalso
      apply h2
      have a := ofDec_mono hs
      have b := ofDec_of_ge q4.le
      omega
  · rw [h3]
    rcases hside with hs | hs
    · exfalso
      apply h1
      have a := ofDec_mono hs
      have b := ofDec_of_le q3
      omega
    · rw [abs_of_nonneg (by linarith : 0 ≤ decQ (q + 1) e - valQ k), abs_of_nonneg (by linarith : 0 ≤ decQ S x - valQ k)]
      linarith

theorem strip_decQ (fuel : Nat) (p : Nat × Int) : decQ (strip fuel p).1 (strip fuel p).2 = decQ p.1 p.2 := by
  induction fuel generalizing p with
  | zero => rfl
  | succ f ih =>
    obtain ⟨D, e⟩ := p
    rw [strip]
    split
    · rename_i h
      rw [ih]
      simp only
      have e1 : D = D / 10 * 10 := by omega
      unfold decQ
      rw [ten_add]
      conv_rhs => rw [e1]
      push_cast
      ring
    · rfl

/-- Among the decimals with as few digits the shortest one is closest. -/
theorem shortest_closest {k : Nat} (hk : 0 < k) {m S : Nat} {x : Int} (hm : 10 ^ (m - 1) ≤ (shortest k).1)
    (hS : S < 10 ^ m) (hx : ofDec S x = k) :
    |decQ (shortest k).1 (shortest k).2 - valQ k| ≤ |decQ S x - valQ k| := by
  obtain ⟨n, p, h1, h2, h3, h4, h5⟩ := firstDigits hk
  have hlast := (shortest_spec hk).2
  have hb := withDigits_bound hk h1 h3
  have hle : (shortest k).1 ≤ 10 ^ n := by rw [h4]; exact (strip_le 17 p).trans hb
  have hmn : m ≤ n := by
    by_contra hc
    have h6 : 10 ^ n ≤ 10 ^ (m - 1) := Nat.pow_le_pow_right (by omega) (by omega)
    have h7 : (shortest k).1 = 10 ^ n := by omega
    rw [h7] at hlast
    obtain ⟨n', rfl⟩ : ∃ n', n = n' + 1 := ⟨n - 1, by omega⟩
    rw [pow_succ] at hlast
    omega
  have hS' : S < 10 ^ n := lt_of_lt_of_le hS (Nat.pow_le_pow_right (by omega) hmn)
  have := withDigits_closest hk h1 h3 hS' hx
  rw [h4, strip_decQ]
  exact this

end Verif.Double
