import Mathlib.AlgebraicGeometry.EllipticCurve.Affine.Point
import Mathlib.Tactic.LinearCombination
import Mathlib.Tactic.FieldSimp

/-
Twists of Montgomery curves: `δ v² = u³ + A u² + u`, written with `x = δ u` and `y = δ² v`. The formulas on u-coordinates
are the ones for the curve itself (`Verif/Concrete/Montgomery.lean`, which is the case `δ = 1`).
-/

namespace Verif.Spec

/-- `y² = x³ + δ A x² + δ² x`. -/
@[reducible] def twisted {F : Type} [Field F] (δ A : F) : WeierstrassCurve.Affine F := ⟨0, δ * A, 0, δ ^ 2, 0⟩

/-- The u-coordinate of a point of the twist, 0 for the point at infinity. -/
def twistU {F : Type} [Field F] {δ A : F} : (twisted δ A).Point → F
  | .zero => 0
  | .some x _ _ => x / δ

end Verif.Spec

namespace Verif.Twisted
open Spec WeierstrassCurve.Affine

variable {F : Type} [Field F] {δ A : F}

/-- `X / Z` is the u-coordinate of the point. -/
def Rep (X Z : F) : (twisted δ A).Point → Prop
  | .zero => Z = 0 ∧ X ≠ 0
  | .some x _ _ => Z ≠ 0 ∧ X = x / δ * Z

theorem negY_eq (x y : F) : (twisted δ A).negY x y = -y := by simp [WeierstrassCurve.Affine.negY]

theorem equation {x y : F} (h : (twisted δ A).Nonsingular x y) : y ^ 2 = x ^ 3 + δ * A * x ^ 2 + δ ^ 2 * x := by
  have := ((twisted δ A).equation_iff x y).mp h.1
  simpa using this

theorem twistU_neg (P : (twisted δ A).Point) : twistU (-P) = twistU P := by
  cases P with
  | zero => rfl
  | some x y h => rfl

theorem rep_one (P : (twisted δ A).Point) (h : P ≠ 0) : Rep (twistU P) 1 P := by
  cases P with
  | zero => exact absurd rfl h
  | some x y h => exact ⟨one_ne_zero, (mul_one _).symm⟩

theorem rep_div {X Z : F} {P : (twisted δ A).Point} (h : Rep X Z P) : X * Z⁻¹ = twistU P := by
  cases P with
  | zero => rw [h.1, inv_zero, mul_zero]; rfl
  | some x y hn => rw [h.2, mul_assoc, mul_inv_cancel₀ h.1, mul_one]; rfl

theorem rep_zero {X Z : F} {P : (twisted δ A).Point} (h : Rep X Z P) : P = 0 ↔ Z = 0 := by
  cases P with
  | zero => exact iff_of_true rfl h.1
  | some x y hn => exact iff_of_false (Point.some_ne_zero hn) h.1

variable [DecidableEq F]

/-- Doubling. -/
theorem double_x (h2 : (2 : F) ≠ 0) {x y : F} (hn : (twisted δ A).Nonsingular x y) (hy : y ≠ 0) :
    ∃ x' y', ∃ hn' : (twisted δ A).Nonsingular x' y', Point.some x y hn + Point.some x y hn = Point.some x' y' hn' ∧
      x' * (4 * y ^ 2) = (x ^ 2 - δ ^ 2) ^ 2 := by
  have he := equation hn
  have hne : y ≠ (twisted δ A).negY x y := by
    rw [negY_eq]
    intro e
    have : 2 * y = 0 := by linear_combination e
    rcases mul_eq_zero.mp this with e | e
    · exact h2 e
    · exact hy e
  rw [Point.add_self_of_Y_ne hne]
  refine ⟨_, _, _, rfl, ?_⟩
  rw [slope_of_Y_ne rfl hne, negY_eq, show y - -y = 2 * y by ring]
  have h4 : (2 * y : F) ≠ 0 := mul_ne_zero h2 hy
  simp only [addX]
  generalize hL : (3 * x ^ 2 + 2 * (δ * A) * x + δ ^ 2 - 0 * y) / (2 * y) = L
  have hL' : L * (2 * y) = 3 * x ^ 2 + 2 * (δ * A) * x + δ ^ 2 := by
    rw [← hL, div_mul_cancel₀ _ h4]
    ring
  linear_combination (L * (2 * y) + (3 * x ^ 2 + 2 * (δ * A) * x + δ ^ 2)) * hL' - 4 * (δ * A + 2 * x) * he

theorem rep_double (hδ : δ ≠ 0) (h2 : (2 : F) ≠ 0) (hA : A ^ 2 ≠ 4) {X Z : F} {Q : (twisted δ A).Point} (h : Rep X Z Q) :
    Rep ((X ^ 2 - Z ^ 2) ^ 2) (4 * X * Z * (X ^ 2 + A * X * Z + Z ^ 2)) (Q + Q) := by
  cases Q with
  | zero =>
    show Rep _ _ (0 + 0 : (twisted δ A).Point)
    rw [add_zero]
    obtain ⟨rfl, hX⟩ := h
    exact ⟨by ring, by simpa using hX⟩
  | some x y hn =>
    obtain ⟨hZ, hX⟩ := h
    have he := equation hn
    obtain ⟨u, rfl⟩ : ∃ u, x = δ * u := ⟨x / δ, (mul_div_cancel₀ x hδ).symm⟩
    rw [mul_div_cancel_left₀ u hδ] at hX
    subst hX
    have h4 : (4 : F) ≠ 0 := by
      have : (4 : F) = 2 * 2 := by norm_num
      rw [this]; exact mul_ne_zero h2 h2
    by_cases hv : y = 0
    · rw [Point.add_self_of_Y_eq (by rw [negY_eq, hv, neg_zero])]
      have he' : u ^ 3 + A * u ^ 2 + u = 0 := by
        rw [hv] at he
        have : δ ^ 3 * (u ^ 3 + A * u ^ 2 + u) = 0 := by linear_combination -he
        rcases mul_eq_zero.mp this with e | e
        · exact absurd (pow_eq_zero_iff (by norm_num) |>.mp e) hδ
        · exact e
      refine ⟨?_, ?_⟩
      · linear_combination (4 * Z ^ 4) * he'
      · intro e
        have e1 : Z ^ 4 * (u ^ 2 - 1) ^ 2 = 0 := by rw [← e]; ring
        have e2 : u ^ 2 = 1 := by
          rcases mul_eq_zero.mp e1 with e1 | e1
          · exact absurd (pow_eq_zero_iff (by norm_num) |>.mp e1) hZ
          · exact sub_eq_zero.mp (pow_eq_zero_iff (by norm_num) |>.mp e1)
        have e3 : A = -2 * u := by linear_combination he' - (u + A) * e2
        apply hA
        rw [e3]
        linear_combination 4 * e2
    · obtain ⟨x', y', hn', e, hx'⟩ := double_x h2 hn hv
      rw [e]
      have hf : u ^ 3 + A * u ^ 2 + u ≠ 0 := by
        intro h0
        apply hv
        have : y ^ 2 = 0 := by linear_combination he + δ ^ 3 * h0
        exact pow_eq_zero_iff (by norm_num) |>.mp this
      have hz : 4 * (u * Z) * Z * ((u * Z) ^ 2 + A * (u * Z) * Z + Z ^ 2) = 4 * (u ^ 3 + A * u ^ 2 + u) * Z ^ 4 := by ring
      refine ⟨?_, ?_⟩
      · rw [hz]
        exact mul_ne_zero (mul_ne_zero h4 hf) (pow_ne_zero _ hZ)
      · rw [hz]
        apply mul_left_cancel₀ (pow_ne_zero 4 hδ)
        have hd : δ * (x' / δ) = x' := mul_div_cancel₀ x' hδ
        have e1 : δ ^ 4 * (((u * Z) ^ 2 - Z ^ 2) ^ 2) = ((δ * u) ^ 2 - δ ^ 2) ^ 2 * Z ^ 4 := by ring
        rw [e1, ← hx', he]
        linear_combination (-(4 * δ ^ 3 * (u ^ 3 + A * u ^ 2 + u) * Z ^ 4)) * hd

/-- The sum and the difference of two points. -/
theorem sum_diff (hδ : δ ≠ 0) {x y x' y' : F} (hn : (twisted δ A).Nonsingular x y) (hn' : (twisted δ A).Nonsingular x' y')
    (hx : x ≠ x') :
    twistU (Point.some x y hn + Point.some x' y' hn') * twistU (Point.some x y hn - Point.some x' y' hn') *
      (x - x') ^ 2 * δ ^ 2 = (x * x' - δ ^ 2) ^ 2 := by
  have he := equation hn
  have he' := equation hn'
  have hs : x - x' ≠ 0 := sub_ne_zero.mpr hx
  rw [sub_eq_add_neg, Point.neg_some, Point.add_of_X_ne hx, Point.add_of_X_ne hx]
  simp only [twistU, addX, slope_of_X_ne hx, negY_eq]
  generalize hL : (y - y') / (x - x') = L
  generalize hM : (y - -y') / (x - x') = M
  have hL' : L * (x - x') = y - y' := by rw [← hL, div_mul_cancel₀ _ hs]
  have hM' : M * (x - x') = y + y' := by rw [← hM, div_mul_cancel₀ _ hs, sub_neg_eq_add]
  have hU : (L ^ 2 + 0 * L - δ * A - x - x') * (x - x') ^ 2 = (y - y') ^ 2 - (δ * A + x + x') * (x - x') ^ 2 := by
    rw [← hL']; ring
  have hV : (M ^ 2 + 0 * M - δ * A - x - x') * (x - x') ^ 2 = (y + y') ^ 2 - (δ * A + x + x') * (x - x') ^ 2 := by
    rw [← hM']; ring
  have hdiv : ∀ a b : F, a / δ * (b / δ) * (x - x') ^ 2 * δ ^ 2 = a * b * (x - x') ^ 2 := by
    intro a b
    field_simp
  rw [hdiv]
  apply mul_left_cancel₀ (pow_ne_zero 2 hs)
  generalize (L ^ 2 + 0 * L - δ * A - x - x') = U at hU ⊢
  generalize (M ^ 2 + 0 * M - δ * A - x - x') = V at hV ⊢
  have e : (x - x') ^ 2 * (U * V * (x - x') ^ 2) = (U * (x - x') ^ 2) * (V * (x - x') ^ 2) := by ring
  rw [e, hU, hV]
  linear_combination
    (y ^ 2 + (x ^ 3 + δ * A * x ^ 2 + δ ^ 2 * x) - 2 * y' ^ 2 - 2 * ((x - x') ^ 2 * (δ * A + x + x'))) * he +
    (y' ^ 2 + (x' ^ 3 + δ * A * x' ^ 2 + δ ^ 2 * x') - 2 * (x ^ 3 + δ * A * x ^ 2 + δ ^ 2 * x) -
      2 * ((x - x') ^ 2 * (δ * A + x + x'))) * he'

/-- Differential addition: `P` is the difference of `Q` and `R` up to sign. -/
theorem rep_add (hδ : δ ≠ 0) (h2 : (2 : F) ≠ 0) (hA : A ^ 2 ≠ 4) {X Z X' Z' : F} {P Q R : (twisted δ A).Point} (h : Rep X Z Q)
    (h' : Rep X' Z' R) (hu : twistU P ≠ 0) (hd : R - Q = P ∨ Q - R = P) :
    Rep (4 * (X * X' - Z * Z') ^ 2) (twistU P * (4 * (X' * Z - X * Z') ^ 2)) (Q + R) := by
  have h4 : (4 : F) ≠ 0 := by
    have : (4 : F) = 2 * 2 := by norm_num
    rw [this]; exact mul_ne_zero h2 h2
  have hP : P ≠ 0 := by rintro rfl; exact hu rfl
  have hd' : twistU (R - Q) = twistU P := by
    rcases hd with rfl | rfl
    · rfl
    · rw [← twistU_neg, neg_sub]
  have hne : R ≠ Q := by
    rintro rfl
    rw [sub_self] at hd
    rcases hd with e | e <;> exact hP e.symm
  cases Q with
  | zero =>
    obtain ⟨rfl, hX⟩ := h
    have e : R - Point.zero = R := sub_zero R
    rw [e] at hd'
    show Rep _ _ (0 + R)
    rw [zero_add]
    cases R with
    | zero => exact absurd rfl hne
    | some x y hn =>
      obtain ⟨hZ, rfl⟩ := h'
      have hd' : x / δ = twistU P := hd'
      rw [← hd'] at hu ⊢
      refine ⟨mul_ne_zero hu (mul_ne_zero h4 (pow_ne_zero _ ?_)), by ring⟩
      rw [mul_zero, zero_sub]
      exact neg_ne_zero.mpr (mul_ne_zero hX hZ)
  | some x y hn =>
    obtain ⟨hZ, rfl⟩ := h
    cases R with
    | zero =>
      obtain ⟨rfl, hX⟩ := h'
      show Rep _ _ (Point.some x y hn + 0)
      rw [add_zero]
      have hd' : x / δ = twistU P := by
        rw [← hd', show Point.zero - Point.some x y hn = -Point.some x y hn from zero_sub _, twistU_neg]
        rfl
      rw [← hd'] at hu ⊢
      refine ⟨mul_ne_zero hu (mul_ne_zero h4 (pow_ne_zero _ ?_)), by ring⟩
      rw [mul_zero, sub_zero]
      exact mul_ne_zero hX hZ
    | some x' y' hn' =>
      obtain ⟨hZ', rfl⟩ := h'
      by_cases e : x = x'
      · subst e
        rcases Y_eq_of_X_eq hn.1 hn'.1 rfl with e | e
        · subst e
          exact absurd rfl hne
        · rw [Point.add_of_Y_eq rfl e]
          refine ⟨by ring, ?_⟩
          have hv : y' = -y := by rw [negY_eq] at e; rw [e, neg_neg]
          subst hv
          have e2 : twistU (Point.some x y hn + Point.some x y hn) = twistU P := by
            have e1 : Point.some x (-y) hn' = -Point.some x y hn := by rw [Point.neg_some]; simp only [negY_eq]
            rw [← hd', ← twistU_neg, neg_add, e1, sub_eq_add_neg]
          have hr := rep_double hδ h2 hA (rep_one _ (Point.some_ne_zero hn))
          rw [show twistU (Point.some x y hn) = x / δ from rfl] at hr
          rw [← e2] at hu
          cases hq : Point.some x y hn + Point.some x y hn with
          | zero => rw [hq] at hu; exact absurd rfl hu
          | some a b hab =>
            rw [hq] at hr hu
            obtain ⟨hr1, hr2⟩ := hr
            have hx : ((x / δ) ^ 2 - 1 ^ 2) ^ 2 ≠ 0 := by
              rw [hr2]
              exact mul_ne_zero hu hr1
            rw [show x / δ * Z * (x / δ * Z') - Z * Z' = ((x / δ) ^ 2 - 1 ^ 2) * (Z * Z') by ring, mul_pow]
            exact mul_ne_zero h4 (mul_ne_zero hx (pow_ne_zero _ (mul_ne_zero hZ hZ')))
      · have hs := sum_diff hδ hn' hn (Ne.symm e)
        rw [add_comm, Point.add_of_X_ne e] at hs
        rw [Point.add_of_X_ne e]
        rw [show twistU (Point.some x' y' hn' - Point.some x y hn) = twistU P from hd'] at hs
        refine ⟨mul_ne_zero hu (mul_ne_zero h4 (pow_ne_zero _ ?_)), ?_⟩
        · rw [show x' / δ * Z' * Z - x / δ * Z * Z' = (x' - x) / δ * (Z * Z') by ring]
          exact mul_ne_zero (div_ne_zero (sub_ne_zero.mpr (Ne.symm e)) hδ) (mul_ne_zero hZ hZ')
        · simp only [twistU] at hs ⊢
          generalize (twisted δ A).addX x x' _ = w at hs ⊢
          obtain ⟨u, rfl⟩ : ∃ u, x = δ * u := ⟨x / δ, (mul_div_cancel₀ x hδ).symm⟩
          obtain ⟨u', rfl⟩ : ∃ u, x' = δ * u := ⟨x' / δ, (mul_div_cancel₀ x' hδ).symm⟩
          rw [mul_div_cancel_left₀ u hδ, mul_div_cancel_left₀ u' hδ]
          apply mul_left_cancel₀ (pow_ne_zero 4 hδ)
          linear_combination (-4 * Z ^ 2 * Z' ^ 2) * hs

end Verif.Twisted
