import Mathlib.AlgebraicGeometry.EllipticCurve.Affine.Point
import Mathlib.Tactic.LinearCombination
import Mathlib.Tactic.FieldSimp

/-
Montgomery curves: doubling and differential addition on u-coordinates (RFC 7748, section 5) compute the group law of the
curve. The group is the one of Mathlib.
-/

namespace Verif.Spec

/-- `v^2 = u^3 + A u^2 + u`. -/
@[reducible] def montgomery {F : Type} [Field F] (A : F) : WeierstrassCurve.Affine F := ⟨0, A, 0, 1, 0⟩

/-- The u-coordinate of a point, 0 for the point at infinity. -/
def uCoord {F : Type} [Field F] {A : F} : (montgomery A).Point → F
  | .zero => 0
  | .some u _ _ => u

end Verif.Spec

namespace Verif.Montgomery
open Spec WeierstrassCurve.Affine

variable {F : Type} [Field F] {A : F}

/-- `X / Z` is the u-coordinate of the point. -/
def Rep (X Z : F) : (montgomery A).Point → Prop
  | .zero => Z = 0 ∧ X ≠ 0
  | .some u _ _ => Z ≠ 0 ∧ X = u * Z

theorem negY_eq (u v : F) : (montgomery A).negY u v = -v := by simp [WeierstrassCurve.Affine.negY]

theorem equation {u v : F} (h : (montgomery A).Nonsingular u v) : v ^ 2 = u ^ 3 + A * u ^ 2 + u := by
  have := ((montgomery A).equation_iff u v).mp h.1
  simpa using this

theorem uCoord_neg (P : (montgomery A).Point) : uCoord (-P) = uCoord P := by
  cases P with
  | zero => rfl
  | some u v h => rfl

theorem rep_one (P : (montgomery A).Point) (h : P ≠ 0) : Rep (uCoord P) 1 P := by
  cases P with
  | zero => exact absurd rfl h
  | some u v h => exact ⟨one_ne_zero, (mul_one u).symm⟩

theorem rep_div {X Z : F} {P : (montgomery A).Point} (h : Rep X Z P) : X * Z⁻¹ = uCoord P := by
  cases P with
  | zero => rw [h.1, inv_zero, mul_zero]; rfl
  | some u v hn => rw [h.2, mul_assoc, mul_inv_cancel₀ h.1, mul_one]; rfl

theorem rep_zero {X Z : F} {P : (montgomery A).Point} (h : Rep X Z P) : P = 0 ↔ Z = 0 := by
  cases P with
  | zero => exact iff_of_true rfl h.1
  | some u v hn => exact iff_of_false (Point.some_ne_zero hn) h.1

theorem rep_neg {X Z : F} {P : (montgomery A).Point} (h : Rep X Z P) : Rep X Z (-P) := by
  cases P with
  | zero => exact h
  | some u v hn => exact h

variable [DecidableEq F]

/-- Doubling. -/
theorem rep_double (h2 : (2 : F) ≠ 0) (hA : A ^ 2 ≠ 4) {X Z : F} {Q : (montgomery A).Point} (h : Rep X Z Q) :
    Rep ((X ^ 2 - Z ^ 2) ^ 2) (4 * X * Z * (X ^ 2 + A * X * Z + Z ^ 2)) (Q + Q) := by
  cases Q with
  | zero =>
    show Rep _ _ (0 + 0 : (montgomery A).Point)
    rw [add_zero]
    obtain ⟨rfl, hX⟩ := h
    exact ⟨by ring, by simpa using hX⟩
  | some u v hn =>
    obtain ⟨hZ, rfl⟩ := h
    have he := equation hn
    by_cases hv : v = 0
    · rw [Point.add_self_of_Y_eq (by rw [negY_eq, hv, neg_zero])]
      rw [hv] at he
      refine ⟨?_, ?_⟩
      · linear_combination (-4 * Z ^ 4) * he
      · intro e
        have e1 : Z ^ 4 * (u ^ 2 - 1) ^ 2 = 0 := by rw [← e]; ring
        have e2 : u ^ 2 = 1 := by
          rcases mul_eq_zero.mp e1 with e1 | e1
          · exact absurd (pow_eq_zero_iff (by norm_num) |>.mp e1) hZ
          · exact sub_eq_zero.mp (pow_eq_zero_iff (by norm_num) |>.mp e1)
        have e3 : A = -2 * u := by linear_combination (-1) * he - (u + A) * e2
        apply hA
        rw [e3]
        linear_combination 4 * e2
    · have h4 : (4 : F) ≠ 0 := by
        have : (4 : F) = 2 * 2 := by norm_num
        rw [this]; exact mul_ne_zero h2 h2
      have hy : v ≠ (montgomery A).negY u v := by
        rw [negY_eq]
        intro e
        have : 2 * v = 0 := by linear_combination e
        rcases mul_eq_zero.mp this with e | e
        · exact h2 e
        · exact hv e
      rw [Point.add_self_of_Y_ne hy]
      have hz : 4 * (u * Z) * Z * ((u * Z) ^ 2 + A * (u * Z) * Z + Z ^ 2) = 4 * v ^ 2 * Z ^ 4 := by
        linear_combination (-4 * Z ^ 4) * he
      refine ⟨?_, ?_⟩
      · rw [hz]
        exact mul_ne_zero (mul_ne_zero h4 (pow_ne_zero _ hv)) (pow_ne_zero _ hZ)
      · rw [hz, slope_of_Y_ne rfl hy, negY_eq, show v - -v = 2 * v by ring]
        simp only [addX]
        field_simp
        linear_combination (16 * (A + 2 * u)) * he

/-- The sum and the difference of two points. -/
theorem sum_diff {u v u' v' : F} (hn : (montgomery A).Nonsingular u v) (hn' : (montgomery A).Nonsingular u' v') (hu : u ≠ u') :
    uCoord (Point.some u v hn + Point.some u' v' hn') * uCoord (Point.some u v hn - Point.some u' v' hn') * (u - u') ^ 2 =
      (u * u' - 1) ^ 2 := by
  have he := equation hn
  have he' := equation hn'
  have hs : u - u' ≠ 0 := sub_ne_zero.mpr hu
  rw [sub_eq_add_neg, Point.neg_some, Point.add_of_X_ne hu, Point.add_of_X_ne hu]
  simp only [uCoord, addX, slope_of_X_ne hu, negY_eq]
  field_simp
  linear_combination
    (v ^ 2 + (u ^ 3 + A * u ^ 2 + u) - 2 * v' ^ 2 - 2 * ((u - u') ^ 2 * (A + u + u'))) * he +
    (v' ^ 2 + (u' ^ 3 + A * u' ^ 2 + u') - 2 * (u ^ 3 + A * u ^ 2 + u) - 2 * ((u - u') ^ 2 * (A + u + u'))) * he'

/-- Differential addition: `P` is the difference of `Q` and `R` up to sign. -/
theorem rep_add (h2 : (2 : F) ≠ 0) (hA : A ^ 2 ≠ 4) {X Z X' Z' : F} {P Q R : (montgomery A).Point} (h : Rep X Z Q)
    (h' : Rep X' Z' R) (hu : uCoord P ≠ 0) (hd : R - Q = P ∨ Q - R = P) :
    Rep (4 * (X * X' - Z * Z') ^ 2) (uCoord P * (4 * (X' * Z - X * Z') ^ 2)) (Q + R) := by
  have h4 : (4 : F) ≠ 0 := by
    have : (4 : F) = 2 * 2 := by norm_num
    rw [this]; exact mul_ne_zero h2 h2
  have hP : P ≠ 0 := by rintro rfl; exact hu rfl
  have hd' : uCoord (R - Q) = uCoord P := by
    rcases hd with rfl | rfl
    · rfl
    · rw [← uCoord_neg, neg_sub]
  have hne : R ≠ Q := by
    rintro rfl
    rw [sub_self] at hd
    rcases hd with e | e <;> exact hP e.symm
  cases Q with
  | zero =>
    obtain ⟨rfl, hX⟩ := h
    have e : R - Point.zero = R := sub_zero R
    rw [e] at hd'
    show Rep _ _ (0 + R)
    rw [zero_add]
    cases R with
    | zero => exact absurd rfl hne
    | some u v hn =>
      obtain ⟨hZ, rfl⟩ := h'
      have hd' : u = uCoord P := hd'
      rw [← hd'] at hu ⊢
      refine ⟨mul_ne_zero hu (mul_ne_zero h4 (pow_ne_zero _ ?_)), by ring⟩
      rw [mul_zero, zero_sub]
      exact neg_ne_zero.mpr (mul_ne_zero hX hZ)
  | some u v hn =>
    obtain ⟨hZ, rfl⟩ := h
    cases R with
    | zero =>
      obtain ⟨rfl, hX⟩ := h'
      show Rep _ _ (Point.some u v hn + 0)
      rw [add_zero]
      have hd' : u = uCoord P := by
        rw [← hd', show Point.zero - Point.some u v hn = -Point.some u v hn from zero_sub _, uCoord_neg]
        rfl
      rw [← hd'] at hu ⊢
      refine ⟨mul_ne_zero hu (mul_ne_zero h4 (pow_ne_zero _ ?_)), by ring⟩
      rw [mul_zero, sub_zero]
      exact mul_ne_zero hX hZ
    | some u' v' hn' =>
      obtain ⟨hZ', rfl⟩ := h'
      by_cases e : u = u'
      · subst e
        rcases Y_eq_of_X_eq hn.1 hn'.1 rfl with e | e
        · subst e
          exact absurd rfl hne
        · rw [Point.add_of_Y_eq rfl e]
          refine ⟨by ring, ?_⟩
          have hv : v' = -v := by rw [negY_eq] at e; rw [e, neg_neg]
          subst hv
          have e2 : uCoord (Point.some u v hn + Point.some u v hn) = uCoord P := by
            have e1 : Point.some u (-v) hn' = -Point.some u v hn := by rw [Point.neg_some]; simp only [negY_eq]
            rw [← hd', ← uCoord_neg, neg_add, e1, sub_eq_add_neg]
          have hr := rep_double h2 hA (rep_one _ (Point.some_ne_zero hn))
          rw [show uCoord (Point.some u v hn) = u from rfl] at hr
          rw [← e2] at hu
          cases hq : Point.some u v hn + Point.some u v hn with
          | zero => rw [hq] at hu; exact absurd rfl hu
          | some a b hab =>
            rw [hq] at hr hu
            obtain ⟨hr1, hr2⟩ := hr
            have hx : (u ^ 2 - 1 ^ 2) ^ 2 ≠ 0 := by
              rw [hr2]
              exact mul_ne_zero hu hr1
            rw [show u * Z * (u * Z') - Z * Z' = (u ^ 2 - 1 ^ 2) * (Z * Z') by ring, mul_pow]
            exact mul_ne_zero h4 (mul_ne_zero hx (pow_ne_zero _ (mul_ne_zero hZ hZ')))
      · have hs := sum_diff hn' hn (Ne.symm e)
        rw [add_comm, Point.add_of_X_ne e] at hs
        rw [Point.add_of_X_ne e]
        rw [show uCoord (Point.some u' v' hn' - Point.some u v hn) = uCoord P from hd'] at hs
        refine ⟨mul_ne_zero hu (mul_ne_zero h4 (pow_ne_zero _ ?_)), ?_⟩
        · rw [show u' * Z' * Z - u * Z * Z' = (u' - u) * (Z * Z') by ring]
          exact mul_ne_zero (sub_ne_zero.mpr (Ne.symm e)) (mul_ne_zero hZ hZ')
        · simp only [uCoord] at hs ⊢
          linear_combination (-4 * Z ^ 2 * Z' ^ 2) * hs

end Verif.Montgomery
