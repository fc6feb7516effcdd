import Mathlib.Tactic.LinearCombination
import Mathlib.Tactic.FieldSimp
import Mathlib.Algebra.Field.Basic
import Mathlib.Tactic.Ring

/-
The group of a complete twisted Edwards curve `y² - x² = 1 + d x² y²` over a field in which -1 is a square and `d` is
not (RFC 8032, section 5.1; Bernstein and Lange, "Faster addition and doubling on elliptic curves"). Nothing here is
specific to the repository: it serves to prove the laws assumed of Ed25519.
-/

namespace Verif.Edwards

/-- The conditions under which the addition formulas have no exceptions. -/
class Complete {F : Type} [Field F] (d : F) : Prop where
  nonsq : ∀ s : F, s * s ≠ d
  neg_one : ∃ i : F, i * i = -1
  two : (2 : F) ≠ 0

/-- Points of the curve. -/
@[ext] structure Point {F : Type} [Field F] (d : F) where
  x : F
  y : F
  on : y ^ 2 - x ^ 2 = 1 + d * x ^ 2 * y ^ 2

variable {F : Type} [Field F] {d : F}

/-- The denominators of the addition formulas are not zero. -/
theorem denominators [Complete d] {x1 y1 x2 y2 : F} (e1 : y1 ^ 2 - x1 ^ 2 = 1 + d * x1 ^ 2 * y1 ^ 2)
    (e2 : y2 ^ 2 - x2 ^ 2 = 1 + d * x2 ^ 2 * y2 ^ 2) : (d * x1 * x2 * y1 * y2) ^ 2 ≠ 1 := by
  intro h
  obtain ⟨i, hi⟩ := Complete.neg_one (d := d)
  have hne : d * x1 * x2 * y1 * y2 ≠ 0 := by
    intro h0
    rw [h0] at h
    simp at h
  have hx1 : x1 ≠ 0 := by rintro rfl; simp at hne
  have hx2 : x2 ≠ 0 := by rintro rfl; simp at hne
  have hy1 : y1 ≠ 0 := by rintro rfl; simp at hne
  have key : ∀ j : F, j * j = -1 → y2 + j * x2 = 0 := by
    intro j hj
    by_contra hn
    refine Complete.nonsq (d := d) ((y1 + d * x1 * x2 * y1 * y2 * j * x1) / (x1 * y1 * (y2 + j * x2))) ?_
    have e : (y1 + d * x1 * x2 * y1 * y2 * j * x1) ^ 2 = d * (x1 * y1 * (y2 + j * x2)) ^ 2 := by
      linear_combination e1 - h - x1 ^ 2 * h - d * x1 ^ 2 * y1 ^ 2 * e2 +
        ((d * x1 * x2 * y1 * y2) ^ 2 * x1 ^ 2 - d * x1 ^ 2 * y1 ^ 2 * x2 ^ 2) * hj
    have hm : x1 * y1 * (y2 + j * x2) ≠ 0 := mul_ne_zero (mul_ne_zero hx1 hy1) hn
    rw [div_mul_div_comm, div_eq_iff (mul_ne_zero hm hm)]
    linear_combination e
  have k1 := key i hi
  have k2 := key (-i) (by linear_combination hi)
  have : 2 * (i * x2) = 0 := by linear_combination k1 - k2
  rcases mul_eq_zero.mp this with h2 | h2
  · exact Complete.two (d := d) h2
  rcases mul_eq_zero.mp h2 with h2 | h2
  · rw [h2] at hi
    simp at hi
  · exact hx2 h2

theorem plus [Complete d] (p q : Point d) : 1 + d * p.x * q.x * p.y * q.y ≠ 0 := fun h =>
  denominators p.on q.on (by linear_combination (d * p.x * q.x * p.y * q.y - 1) * h)

theorem minus [Complete d] (p q : Point d) : 1 - d * p.x * q.x * p.y * q.y ≠ 0 := fun h =>
  denominators p.on q.on (by linear_combination (-d * p.x * q.x * p.y * q.y - 1) * h)

/-- The polynomial identity behind closure. -/
theorem closure_identity {d x1 y1 x2 y2 : F} (e1 : y1 ^ 2 - x1 ^ 2 = 1 + d * x1 ^ 2 * y1 ^ 2)
    (e2 : y2 ^ 2 - x2 ^ 2 = 1 + d * x2 ^ 2 * y2 ^ 2) :
    (y1 * y2 + x1 * x2) ^ 2 * (1 + d * x1 * x2 * y1 * y2) ^ 2 - (x1 * y2 + y1 * x2) ^ 2 * (1 - d * x1 * x2 * y1 * y2) ^ 2 =
      (1 + d * x1 * x2 * y1 * y2) ^ 2 * (1 - d * x1 * x2 * y1 * y2) ^ 2 +
        d * (x1 * y2 + y1 * x2) ^ 2 * (y1 * y2 + x1 * x2) ^ 2 := by
  linear_combination (y2 ^ 4 - 4 * x2 ^ 2 * y2 ^ 2 + 2 * x2 ^ 2 * y2 ^ 4 + x2 ^ 4 - 2 * x2 ^ 4 * y2 ^ 2 - 2 * d * x2 ^ 2 * y2 ^ 2
      - 2 * d * x2 ^ 4 * y2 ^ 4 - d * y1 ^ 2 * x2 ^ 2 * y2 ^ 4 + d * y1 ^ 2 * x2 ^ 4 * y2 ^ 2 + d * x1 ^ 2 * x2 ^
      2 * y2 ^ 4 - d * x1 ^ 2 * x2 ^ 4 * y2 ^ 2 - d ^ 2 * x2 ^ 4 * y2 ^ 4 + d ^ 2 * y1 ^ 2 * x2 ^ 4 * y2 ^ 4 - d ^
      2 * x1 ^ 2 * x2 ^ 4 * y2 ^ 4 + d ^ 3 * x1 ^ 2 * y1 ^ 2 * x2 ^ 4 * y2 ^ 4) * e1 + ((1) + y2 ^ 2 - x2 ^ 2 + 2 * x2 ^ 2 * y2 ^ 2 - y1 ^ 2 * y2 ^ 2 + y1 ^ 2 * x2 ^ 2 - 2 * y1 ^ 2 * x2 ^ 2 * y2 ^
      2 + x1 ^ 2 * y2 ^ 2 - x1 ^ 2 * x2 ^ 2 + 2 * x1 ^ 2 * x2 ^ 2 * y2 ^ 2 + d * x2 ^ 2 * y2 ^ 2 - 2 * d * y1 ^ 2
      * x2 ^ 2 * y2 ^ 2 + d * y1 ^ 4 * x2 ^ 2 * y2 ^ 2 + 2 * d * x1 ^ 2 * x2 ^ 2 * y2 ^ 2 + d * x1 ^ 4 * x2 ^ 2 *
      y2 ^ 2) * e2

theorem on_quotient {d A B P M : F} (hP : P ≠ 0) (hM : M ≠ 0)
    (h : B ^ 2 * P ^ 2 - A ^ 2 * M ^ 2 = P ^ 2 * M ^ 2 + d * A ^ 2 * B ^ 2) :
    (B / M) ^ 2 - (A / P) ^ 2 = 1 + d * (A / P) ^ 2 * (B / M) ^ 2 := by
  field_simp
  linear_combination h

/-- The addition law, RFC 8032 section 5.1.4 in affine coordinates. -/
instance [Complete d] : Add (Point d) where
  add p q :=
    { x := (p.x * q.y + p.y * q.x) / (1 + d * p.x * q.x * p.y * q.y)
      y := (p.y * q.y + p.x * q.x) / (1 - d * p.x * q.x * p.y * q.y)
      on := on_quotient (plus p q) (minus p q) (closure_identity p.on q.on) }

instance : Zero (Point d) := ⟨⟨0, 1, by ring⟩⟩

instance : Neg (Point d) := ⟨fun p => ⟨-p.x, p.y, by linear_combination p.on⟩⟩

theorem add_x [Complete d] (p q : Point d) :
    (p + q).x = (p.x * q.y + p.y * q.x) / (1 + d * p.x * q.x * p.y * q.y) := rfl

theorem add_y [Complete d] (p q : Point d) :
    (p + q).y = (p.y * q.y + p.x * q.x) / (1 - d * p.x * q.x * p.y * q.y) := rfl

theorem zero_x : (0 : Point d).x = 0 := rfl
theorem zero_y : (0 : Point d).y = 1 := rfl
theorem neg_x (p : Point d) : (-p).x = -p.x := rfl
theorem neg_y (p : Point d) : (-p).y = p.y := rfl

/-- The polynomial identities behind associativity. -/
theorem assoc_x {d x1 y1 x2 y2 x3 y3 : F} (e1 : y1 ^ 2 - x1 ^ 2 = 1 + d * x1 ^ 2 * y1 ^ 2)
    (e2 : y2 ^ 2 - x2 ^ 2 = 1 + d * x2 ^ 2 * y2 ^ 2) (e3 : y3 ^ 2 - x3 ^ 2 = 1 + d * x3 ^ 2 * y3 ^ 2) :
    ((x1 * y2 + y1 * x2) * (1 - d * x1 * x2 * y1 * y2) * y3 + (y1 * y2 + x1 * x2) * (1 + d * x1 * x2 * y1 * y2) * x3) *
      ((1 + d * x2 * x3 * y2 * y3) * (1 - d * x2 * x3 * y2 * y3) + d * x1 * y1 * (x2 * y3 + y2 * x3) * (y2 * y3 + x2 * x3)) =
    (x1 * (y2 * y3 + x2 * x3) * (1 + d * x2 * x3 * y2 * y3) + y1 * (x2 * y3 + y2 * x3) * (1 - d * x2 * x3 * y2 * y3)) *
      ((1 + d * x1 * x2 * y1 * y2) * (1 - d * x1 * x2 * y1 * y2) +
        d * (x1 * y2 + y1 * x2) * (y1 * y2 + x1 * x2) * x3 * y3) := by
  linear_combination (-d * y1 * x2 * y2 ^ 4 * x3 ^ 2 * y3 - d * y1 * x2 ^ 2 * y2 ^ 3 * x3 - d * y1 * x2 ^ 2 * y2 ^ 3 * x3 ^ 3 - d
      * y1 * x2 ^ 3 * y2 ^ 2 * y3 + d * y1 * x2 ^ 3 * y2 ^ 2 * y3 ^ 3 + d * y1 * x2 ^ 4 * y2 * x3 * y3 ^ 2 + d *
      x1 * x2 * y2 ^ 4 * x3 * y3 ^ 2 - d * x1 * x2 ^ 2 * y2 ^ 3 * y3 + d * x1 * x2 ^ 2 * y2 ^ 3 * y3 ^ 3 - d * x1
      * x2 ^ 3 * y2 ^ 2 * x3 - d * x1 * x2 ^ 3 * y2 ^ 2 * x3 ^ 3 - d * x1 * x2 ^ 4 * y2 * x3 ^ 2 * y3 + d ^ 2 * y1
      * x2 ^ 3 * y2 ^ 4 * x3 ^ 2 * y3 + d ^ 2 * y1 * x2 ^ 4 * y2 ^ 3 * x3 * y3 ^ 2 - d ^ 2 * x1 * x2 ^ 3 * y2 ^ 4
      * x3 * y3 ^ 2 - d ^ 2 * x1 * x2 ^ 4 * y2 ^ 3 * x3 ^ 2 * y3) * e1 + (y1 * y2 * x3 - y1 * y2 * x3 * y3 ^ 2 + y1 * y2 * x3 ^ 3 + y1 * x2 * y3 - y1 * x2 * y3 ^ 3 + y1 * x2 * x3 ^ 2
      * y3 - y1 ^ 3 * y2 * x3 + y1 ^ 3 * y2 * x3 * y3 ^ 2 - y1 ^ 3 * y2 * x3 ^ 3 - y1 ^ 3 * x2 * y3 + y1 ^ 3 * x2
      * y3 ^ 3 - y1 ^ 3 * x2 * x3 ^ 2 * y3 + x1 * y2 * y3 - x1 * y2 * y3 ^ 3 + x1 * y2 * x3 ^ 2 * y3 + x1 * x2 *
      x3 - x1 * x2 * x3 * y3 ^ 2 + x1 * x2 * x3 ^ 3 - x1 * y1 ^ 2 * y2 * y3 + x1 * y1 ^ 2 * y2 * y3 ^ 3 - x1 * y1
      ^ 2 * y2 * x3 ^ 2 * y3 - x1 * y1 ^ 2 * x2 * x3 + x1 * y1 ^ 2 * x2 * x3 * y3 ^ 2 - x1 * y1 ^ 2 * x2 * x3 ^ 3
      + x1 ^ 2 * y1 * y2 * x3 - x1 ^ 2 * y1 * y2 * x3 * y3 ^ 2 + x1 ^ 2 * y1 * y2 * x3 ^ 3 + x1 ^ 2 * y1 * x2 * y3
      - x1 ^ 2 * y1 * x2 * y3 ^ 3 + x1 ^ 2 * y1 * x2 * x3 ^ 2 * y3 + x1 ^ 3 * y2 * y3 - x1 ^ 3 * y2 * y3 ^ 3 + x1
      ^ 3 * y2 * x3 ^ 2 * y3 + x1 ^ 3 * x2 * x3 - x1 ^ 3 * x2 * x3 * y3 ^ 2 + x1 ^ 3 * x2 * x3 ^ 3 + d * y1 * y2 *
      x3 ^ 3 * y3 ^ 2 + d * y1 * x2 * x3 ^ 2 * y3 ^ 3 - d * y1 * x2 * y2 ^ 2 * x3 ^ 2 * y3 - d * y1 * x2 ^ 2 * y2
      * x3 * y3 ^ 2 - d * y1 ^ 3 * y2 * x3 ^ 3 * y3 ^ 2 - d * y1 ^ 3 * x2 * x3 ^ 2 * y3 ^ 3 + d * y1 ^ 3 * x2 * y2
      ^ 2 * x3 ^ 2 * y3 + d * y1 ^ 3 * x2 ^ 2 * y2 * x3 * y3 ^ 2 + d * x1 * y2 * x3 ^ 2 * y3 ^ 3 + d * x1 * x2 *
      x3 ^ 3 * y3 ^ 2 + d * x1 * x2 * y2 ^ 2 * x3 * y3 ^ 2 + d * x1 * x2 ^ 2 * y2 * x3 ^ 2 * y3 - d * x1 * y1 ^ 2
      * y2 * x3 ^ 2 * y3 ^ 3 - d * x1 * y1 ^ 2 * x2 * x3 ^ 3 * y3 ^ 2 - d * x1 * y1 ^ 2 * x2 * y2 ^ 2 * x3 * y3 ^
      2 - d * x1 * y1 ^ 2 * x2 ^ 2 * y2 * x3 ^ 2 * y3 + d * x1 ^ 2 * y1 * y2 * x3 ^ 3 * y3 ^ 2 + d * x1 ^ 2 * y1 *
      x2 * x3 ^ 2 * y3 ^ 3 - d * x1 ^ 2 * y1 * x2 * y2 ^ 2 * x3 ^ 2 * y3 - d * x1 ^ 2 * y1 * x2 ^ 2 * y2 * x3 * y3
      ^ 2 + d * x1 ^ 3 * y2 * x3 ^ 2 * y3 ^ 3 + d * x1 ^ 3 * x2 * x3 ^ 3 * y3 ^ 2 + d * x1 ^ 3 * x2 * y2 ^ 2 * x3
      * y3 ^ 2 + d * x1 ^ 3 * x2 ^ 2 * y2 * x3 ^ 2 * y3 + d ^ 2 * x1 * y1 ^ 2 * x2 * y2 ^ 2 * x3 ^ 3 * y3 ^ 2 - d
      ^ 2 * x1 * y1 ^ 2 * x2 ^ 2 * y2 * x3 ^ 2 * y3 ^ 3 - d ^ 2 * x1 ^ 2 * y1 * x2 * y2 ^ 2 * x3 ^ 2 * y3 ^ 3 + d
      ^ 2 * x1 ^ 2 * y1 * x2 ^ 2 * y2 * x3 ^ 3 * y3 ^ 2) * e2 + (-y1 * y2 * x3 + y1 * y2 ^ 3 * x3 - y1 * x2 * y3 + y1 * x2 * y2 ^ 2 * y3 - y1 * x2 ^ 2 * y2 * x3 - y1 * x2 ^
      3 * y3 + y1 ^ 3 * y2 * x3 - y1 ^ 3 * y2 ^ 3 * x3 + y1 ^ 3 * x2 * y3 - y1 ^ 3 * x2 * y2 ^ 2 * y3 + y1 ^ 3 *
      x2 ^ 2 * y2 * x3 + y1 ^ 3 * x2 ^ 3 * y3 - x1 * y2 * y3 + x1 * y2 ^ 3 * y3 - x1 * x2 * x3 + x1 * x2 * y2 ^ 2
      * x3 - x1 * x2 ^ 2 * y2 * y3 - x1 * x2 ^ 3 * x3 + x1 * y1 ^ 2 * y2 * y3 - x1 * y1 ^ 2 * y2 ^ 3 * y3 + x1 *
      y1 ^ 2 * x2 * x3 - x1 * y1 ^ 2 * x2 * y2 ^ 2 * x3 + x1 * y1 ^ 2 * x2 ^ 2 * y2 * y3 + x1 * y1 ^ 2 * x2 ^ 3 *
      x3 - x1 ^ 2 * y1 * y2 * x3 + x1 ^ 2 * y1 * y2 ^ 3 * x3 - x1 ^ 2 * y1 * x2 * y3 + x1 ^ 2 * y1 * x2 * y2 ^ 2 *
      y3 - x1 ^ 2 * y1 * x2 ^ 2 * y2 * x3 - x1 ^ 2 * y1 * x2 ^ 3 * y3 - x1 ^ 3 * y2 * y3 + x1 ^ 3 * y2 ^ 3 * y3 -
      x1 ^ 3 * x2 * x3 + x1 ^ 3 * x2 * y2 ^ 2 * x3 - x1 ^ 3 * x2 ^ 2 * y2 * y3 - x1 ^ 3 * x2 ^ 3 * x3 - d * x1 *
      y1 ^ 2 * x2 * y2 ^ 2 * x3 + d * x1 * y1 ^ 2 * x2 ^ 2 * y2 * y3 + d * x1 ^ 2 * y1 * x2 * y2 ^ 2 * y3 - d * x1
      ^ 2 * y1 * x2 ^ 2 * y2 * x3) * e3

theorem assoc_y {d x1 y1 x2 y2 x3 y3 : F} (e1 : y1 ^ 2 - x1 ^ 2 = 1 + d * x1 ^ 2 * y1 ^ 2)
    (e2 : y2 ^ 2 - x2 ^ 2 = 1 + d * x2 ^ 2 * y2 ^ 2) (e3 : y3 ^ 2 - x3 ^ 2 = 1 + d * x3 ^ 2 * y3 ^ 2) :
    ((y1 * y2 + x1 * x2) * (1 + d * x1 * x2 * y1 * y2) * y3 + (x1 * y2 + y1 * x2) * (1 - d * x1 * x2 * y1 * y2) * x3) *
      ((1 + d * x2 * x3 * y2 * y3) * (1 - d * x2 * x3 * y2 * y3) - d * x1 * y1 * (x2 * y3 + y2 * x3) * (y2 * y3 + x2 * x3)) =
    (y1 * (y2 * y3 + x2 * x3) * (1 + d * x2 * x3 * y2 * y3) + x1 * (x2 * y3 + y2 * x3) * (1 - d * x2 * x3 * y2 * y3)) *
      ((1 + d * x1 * x2 * y1 * y2) * (1 - d * x1 * x2 * y1 * y2) -
        d * (x1 * y2 + y1 * x2) * (y1 * y2 + x1 * x2) * x3 * y3) := by
  linear_combination (d * y1 * x2 * y2 ^ 4 * x3 * y3 ^ 2 - d * y1 * x2 ^ 2 * y2 ^ 3 * y3 + d * y1 * x2 ^ 2 * y2 ^ 3 * y3 ^ 3 - d *
      y1 * x2 ^ 3 * y2 ^ 2 * x3 - d * y1 * x2 ^ 3 * y2 ^ 2 * x3 ^ 3 - d * y1 * x2 ^ 4 * y2 * x3 ^ 2 * y3 - d * x1
      * x2 * y2 ^ 4 * x3 ^ 2 * y3 - d * x1 * x2 ^ 2 * y2 ^ 3 * x3 - d * x1 * x2 ^ 2 * y2 ^ 3 * x3 ^ 3 - d * x1 *
      x2 ^ 3 * y2 ^ 2 * y3 + d * x1 * x2 ^ 3 * y2 ^ 2 * y3 ^ 3 + d * x1 * x2 ^ 4 * y2 * x3 * y3 ^ 2 - d ^ 2 * y1 *
      x2 ^ 3 * y2 ^ 4 * x3 * y3 ^ 2 - d ^ 2 * y1 * x2 ^ 4 * y2 ^ 3 * x3 ^ 2 * y3 + d ^ 2 * x1 * x2 ^ 3 * y2 ^ 4 *
      x3 ^ 2 * y3 + d ^ 2 * x1 * x2 ^ 4 * y2 ^ 3 * x3 * y3 ^ 2) * e1 + (y1 * y2 * y3 - y1 * y2 * y3 ^ 3 + y1 * y2 * x3 ^ 2 * y3 + y1 * x2 * x3 - y1 * x2 * x3 * y3 ^ 2 + y1 * x2 *
      x3 ^ 3 - y1 ^ 3 * y2 * y3 + y1 ^ 3 * y2 * y3 ^ 3 - y1 ^ 3 * y2 * x3 ^ 2 * y3 - y1 ^ 3 * x2 * x3 + y1 ^ 3 *
      x2 * x3 * y3 ^ 2 - y1 ^ 3 * x2 * x3 ^ 3 + x1 * y2 * x3 - x1 * y2 * x3 * y3 ^ 2 + x1 * y2 * x3 ^ 3 + x1 * x2
      * y3 - x1 * x2 * y3 ^ 3 + x1 * x2 * x3 ^ 2 * y3 - x1 * y1 ^ 2 * y2 * x3 + x1 * y1 ^ 2 * y2 * x3 * y3 ^ 2 -
      x1 * y1 ^ 2 * y2 * x3 ^ 3 - x1 * y1 ^ 2 * x2 * y3 + x1 * y1 ^ 2 * x2 * y3 ^ 3 - x1 * y1 ^ 2 * x2 * x3 ^ 2 *
      y3 + x1 ^ 2 * y1 * y2 * y3 - x1 ^ 2 * y1 * y2 * y3 ^ 3 + x1 ^ 2 * y1 * y2 * x3 ^ 2 * y3 + x1 ^ 2 * y1 * x2 *
      x3 - x1 ^ 2 * y1 * x2 * x3 * y3 ^ 2 + x1 ^ 2 * y1 * x2 * x3 ^ 3 + x1 ^ 3 * y2 * x3 - x1 ^ 3 * y2 * x3 * y3 ^
      2 + x1 ^ 3 * y2 * x3 ^ 3 + x1 ^ 3 * x2 * y3 - x1 ^ 3 * x2 * y3 ^ 3 + x1 ^ 3 * x2 * x3 ^ 2 * y3 + d * y1 * y2
      * x3 ^ 2 * y3 ^ 3 + d * y1 * x2 * x3 ^ 3 * y3 ^ 2 + d * y1 * x2 * y2 ^ 2 * x3 * y3 ^ 2 + d * y1 * x2 ^ 2 *
      y2 * x3 ^ 2 * y3 - d * y1 ^ 3 * y2 * x3 ^ 2 * y3 ^ 3 - d * y1 ^ 3 * x2 * x3 ^ 3 * y3 ^ 2 - d * y1 ^ 3 * x2 *
      y2 ^ 2 * x3 * y3 ^ 2 - d * y1 ^ 3 * x2 ^ 2 * y2 * x3 ^ 2 * y3 + d * x1 * y2 * x3 ^ 3 * y3 ^ 2 + d * x1 * x2
      * x3 ^ 2 * y3 ^ 3 - d * x1 * x2 * y2 ^ 2 * x3 ^ 2 * y3 - d * x1 * x2 ^ 2 * y2 * x3 * y3 ^ 2 - d * x1 * y1 ^
      2 * y2 * x3 ^ 3 * y3 ^ 2 - d * x1 * y1 ^ 2 * x2 * x3 ^ 2 * y3 ^ 3 + d * x1 * y1 ^ 2 * x2 * y2 ^ 2 * x3 ^ 2 *
      y3 + d * x1 * y1 ^ 2 * x2 ^ 2 * y2 * x3 * y3 ^ 2 + d * x1 ^ 2 * y1 * y2 * x3 ^ 2 * y3 ^ 3 + d * x1 ^ 2 * y1
      * x2 * x3 ^ 3 * y3 ^ 2 + d * x1 ^ 2 * y1 * x2 * y2 ^ 2 * x3 * y3 ^ 2 + d * x1 ^ 2 * y1 * x2 ^ 2 * y2 * x3 ^
      2 * y3 + d * x1 ^ 3 * y2 * x3 ^ 3 * y3 ^ 2 + d * x1 ^ 3 * x2 * x3 ^ 2 * y3 ^ 3 - d * x1 ^ 3 * x2 * y2 ^ 2 *
      x3 ^ 2 * y3 - d * x1 ^ 3 * x2 ^ 2 * y2 * x3 * y3 ^ 2 + d ^ 2 * x1 * y1 ^ 2 * x2 * y2 ^ 2 * x3 ^ 2 * y3 ^ 3 -
      d ^ 2 * x1 * y1 ^ 2 * x2 ^ 2 * y2 * x3 ^ 3 * y3 ^ 2 - d ^ 2 * x1 ^ 2 * y1 * x2 * y2 ^ 2 * x3 ^ 3 * y3 ^ 2 +
      d ^ 2 * x1 ^ 2 * y1 * x2 ^ 2 * y2 * x3 ^ 2 * y3 ^ 3) * e2 + (-y1 * y2 * y3 + y1 * y2 ^ 3 * y3 - y1 * x2 * x3 + y1 * x2 * y2 ^ 2 * x3 - y1 * x2 ^ 2 * y2 * y3 - y1 * x2 ^
      3 * x3 + y1 ^ 3 * y2 * y3 - y1 ^ 3 * y2 ^ 3 * y3 + y1 ^ 3 * x2 * x3 - y1 ^ 3 * x2 * y2 ^ 2 * x3 + y1 ^ 3 *
      x2 ^ 2 * y2 * y3 + y1 ^ 3 * x2 ^ 3 * x3 - x1 * y2 * x3 + x1 * y2 ^ 3 * x3 - x1 * x2 * y3 + x1 * x2 * y2 ^ 2
      * y3 - x1 * x2 ^ 2 * y2 * x3 - x1 * x2 ^ 3 * y3 + x1 * y1 ^ 2 * y2 * x3 - x1 * y1 ^ 2 * y2 ^ 3 * x3 + x1 *
      y1 ^ 2 * x2 * y3 - x1 * y1 ^ 2 * x2 * y2 ^ 2 * y3 + x1 * y1 ^ 2 * x2 ^ 2 * y2 * x3 + x1 * y1 ^ 2 * x2 ^ 3 *
      y3 - x1 ^ 2 * y1 * y2 * y3 + x1 ^ 2 * y1 * y2 ^ 3 * y3 - x1 ^ 2 * y1 * x2 * x3 + x1 ^ 2 * y1 * x2 * y2 ^ 2 *
      x3 - x1 ^ 2 * y1 * x2 ^ 2 * y2 * y3 - x1 ^ 2 * y1 * x2 ^ 3 * x3 - x1 ^ 3 * y2 * x3 + x1 ^ 3 * y2 ^ 3 * x3 -
      x1 ^ 3 * x2 * y3 + x1 ^ 3 * x2 * y2 ^ 2 * y3 - x1 ^ 3 * x2 ^ 2 * y2 * x3 - x1 ^ 3 * x2 ^ 3 * y3 - d * x1 *
      y1 ^ 2 * x2 * y2 ^ 2 * y3 + d * x1 * y1 ^ 2 * x2 ^ 2 * y2 * x3 + d * x1 ^ 2 * y1 * x2 * y2 ^ 2 * x3 - d * x1
      ^ 2 * y1 * x2 ^ 2 * y2 * y3) * e3

/-- A quotient of sums of quotients with the inner denominators cleared. -/
theorem clear_plus {d A B P M x y : F} (hP : P ≠ 0) (hM : M ≠ 0) :
    (A / P * y + B / M * x) / (1 + d * (A / P) * x * (B / M) * y) =
      (A * M * y + B * P * x) / (P * M + d * A * B * x * y) := by
  have h : P * M ≠ 0 := mul_ne_zero hP hM
  rw [← mul_div_mul_right (A / P * y + B / M * x) _ h]
  congr 1
  · field_simp
  · field_simp

theorem clear_minus {d A B P M x y : F} (hP : P ≠ 0) (hM : M ≠ 0) :
    (B / M * y + A / P * x) / (1 - d * (A / P) * x * (B / M) * y) =
      (B * P * y + A * M * x) / (P * M - d * A * B * x * y) := by
  have h : P * M ≠ 0 := mul_ne_zero hP hM
  rw [← mul_div_mul_right (B / M * y + A / P * x) _ h]
  congr 1
  · field_simp
  · field_simp

theorem clear_plus_ne {d A B P M x y : F} (hP : P ≠ 0) (hM : M ≠ 0)
    (h : 1 + d * (A / P) * x * (B / M) * y ≠ 0) : P * M + d * A * B * x * y ≠ 0 := by
  intro h0
  apply h
  field_simp
  linear_combination h0

theorem clear_minus_ne {d A B P M x y : F} (hP : P ≠ 0) (hM : M ≠ 0)
    (h : 1 - d * (A / P) * x * (B / M) * y ≠ 0) : P * M - d * A * B * x * y ≠ 0 := by
  intro h0
  apply h
  field_simp
  linear_combination h0

protected theorem add_comm [Complete d] (p q : Point d) : p + q = q + p := by
  apply Point.ext
  · rw [add_x, add_x]
    congr 1 <;> ring
  · rw [add_y, add_y]
    congr 1 <;> ring

protected theorem add_assoc [Complete d] (p q r : Point d) : p + q + r = p + (q + r) := by
  have hl1 := plus p q
  have hl2 := minus p q
  have hr1 := plus q r
  have hr2 := minus q r
  apply Point.ext
  · have n1 := plus (p + q) r
    have n2 := plus (q + r) p
    rw [Edwards.add_comm p (q + r)]
    rw [add_x (p + q) r, add_x (q + r) p]
    rw [add_x, add_y] at n1 n2
    rw [add_x p q, add_y p q, add_x q r, add_y q r]
    rw [clear_plus hl1 hl2, clear_plus hr1 hr2]
    rw [div_eq_div_iff (clear_plus_ne hl1 hl2 n1) (clear_plus_ne hr1 hr2 n2)]
    linear_combination assoc_x p.on q.on r.on
  · have n1 := minus (p + q) r
    have n2 := minus (q + r) p
    rw [Edwards.add_comm p (q + r)]
    rw [add_y (p + q) r, add_y (q + r) p]
    rw [add_x, add_y] at n1 n2
    rw [add_x p q, add_y p q, add_x q r, add_y q r]
    rw [clear_minus hl1 hl2, clear_minus hr1 hr2]
    rw [div_eq_div_iff (clear_minus_ne hl1 hl2 n1) (clear_minus_ne hr1 hr2 n2)]
    linear_combination assoc_y p.on q.on r.on

protected theorem zero_add [Complete d] (p : Point d) : 0 + p = p := by
  apply Point.ext
  · rw [add_x, zero_x, zero_y]; simp
  · rw [add_y, zero_x, zero_y]; simp

protected theorem neg_add_cancel [Complete d] (p : Point d) : -p + p = 0 := by
  apply Point.ext
  · rw [add_x, neg_x, neg_y, zero_x, div_eq_zero_iff]
    left
    ring
  · have h := minus (-p) p
    rw [add_y, neg_x, neg_y, zero_y]
    rw [neg_x, neg_y] at h
    rw [div_eq_one_iff_eq h]
    linear_combination p.on

/-- The points of the curve form a commutative group. -/
instance [Complete d] : AddCommGroup (Point d) where
  add_assoc := Edwards.add_assoc
  zero_add := Edwards.zero_add
  add_zero p := by rw [Edwards.add_comm, Edwards.zero_add]
  neg_add_cancel := Edwards.neg_add_cancel
  add_comm := Edwards.add_comm
  nsmul := nsmulRec
  zsmul := zsmulRec

end Verif.Edwards
