import Mathlib.Combinatorics.Additive.CauchyDavenport
import Mathlib.Algebra.Field.ZMod
import Mathlib.Algebra.BigOperators.Ring.Finset
import Mathlib.Data.ZMod.Basic
import Mathlib.Tactic.Ring
import Mathlib.Tactic.LinearCombination

/-
Pairs of numbers modulo a prime as sums of short multiples of given pairs: with fourteen pairs, no two of them parallel,
and factors up to about a quarter of the prime, every pair is such a sum. Used for two keys and one cipher text (C98).
-/

namespace Verif.Boxes
open Finset
open scoped Pointwise

variable {p : Nat} [Fact p.Prime]

theorem minOrder_pairs : (p : ℕ∞) ≤ AddMonoid.minOrder (ZMod p × ZMod p) := by
  rw [AddMonoid.le_minOrder]
  intro a ha _
  have h : p • a = 0 := by
    ext
    · simp
    · simp
  have hd := addOrderOf_dvd_of_nsmul_eq_zero h
  rcases (Nat.dvd_prime (Fact.out : p.Prime)).mp hd with h1 | h1
  · exact absurd (AddMonoid.addOrderOf_eq_one_iff.mp h1) ha
  · rw [h1]

theorem davenport_pairs {s t : Finset (ZMod p × ZMod p)} (hs : s.Nonempty) (ht : t.Nonempty) :
    min p (#s + #t - 1) ≤ #(s + t) := by
  have h := cauchy_davenport_minOrder_add hs ht
  have h2 : min (p : ℕ∞) ((#s + #t - 1 : Nat) : ℕ∞) ≤ (#(s + t) : ℕ∞) :=
    (min_le_min minOrder_pairs le_rfl).trans h
  simpa only [min_le_iff, Nat.cast_le] using h2

/-- Multiples of a number. -/
def steps (N : Nat) (a : ZMod p) : Finset (ZMod p) := (range N).image fun x : Nat => (x : ZMod p) * a

/-- Multiples of a pair. -/
def moves (N : Nat) (v : ZMod p × ZMod p) : Finset (ZMod p × ZMod p) := (range N).image fun x : Nat => ((x : ZMod p) * v.1, (x : ZMod p) * v.2)

/-- Twice the area between two pairs: zero iff they are parallel. -/
def det (u v : ZMod p × ZMod p) : ZMod p := u.1 * v.2 - u.2 * v.1

theorem det_add (u w v : ZMod p × ZMod p) : det (u + w) v = det u v + det w v := by
  simp only [det, Prod.fst_add, Prod.snd_add]; ring

theorem cast_injOn {N : Nat} (hN : N ≤ p) : Set.InjOn (fun x : Nat => (x : ZMod p)) (range N) := by
  intro x hx y hy e
  have hx' : x < p := lt_of_lt_of_le (mem_range.mp hx) hN
  have hy' : y < p := lt_of_lt_of_le (mem_range.mp hy) hN
  have := congrArg ZMod.val e
  simpa [ZMod.val_natCast_of_lt hx', ZMod.val_natCast_of_lt hy'] using this

theorem steps_card {N : Nat} (hN : N ≤ p) {a : ZMod p} (ha : a ≠ 0) : #(steps N a) = N := by
  unfold steps
  rw [card_image_of_injOn, card_range]
  intro x hx y hy e
  exact cast_injOn hN hx hy (mul_right_cancel₀ ha e)

theorem moves_card {N : Nat} (hN : N ≤ p) {v : ZMod p × ZMod p} (hv : v ≠ 0) : #(moves N v) = N := by
  unfold moves
  rw [card_image_of_injOn, card_range]
  intro x hx y hy e
  simp only [Prod.mk.injEq] at e
  by_cases h1 : v.1 = 0
  · have h2 : v.2 ≠ 0 := fun h2 => hv (Prod.ext h1 h2)
    exact cast_injOn hN hx hy (mul_right_cancel₀ h2 e.2)
  · exact cast_injOn hN hx hy (mul_right_cancel₀ h1 e.1)

theorem zero_mem_moves {N : Nat} (hN : 0 < N) (v : ZMod p × ZMod p) : (0 : ZMod p × ZMod p) ∈ moves N v :=
  mem_image.mpr ⟨0, mem_range.mpr hN, by ext <;> simp⟩

theorem steps_nonempty {N : Nat} (hN : 0 < N) (a : ZMod p) : (steps N a).Nonempty :=
  ⟨_, mem_image.mpr ⟨0, mem_range.mpr hN, rfl⟩⟩

/-- Four numbers other than zero: every number is a sum of short multiples. -/
theorem four_steps {N : Nat} (hN : 4 * (N - 1) = p + 1) {a b c d : ZMod p} (ha : a ≠ 0) (hb : b ≠ 0) (hc : c ≠ 0)
    (hd : d ≠ 0) : steps N a + steps N b + (steps N c + steps N d) = univ := by
  have hp := (Fact.out : p.Prime)
  have h2 := hp.two_le
  have hNp : N ≤ p := by omega
  have h0 : 0 < N := by omega
  have c1 := ZMod.cauchy_davenport hp (steps_nonempty h0 a) (steps_nonempty h0 b)
  have c2 := ZMod.cauchy_davenport hp (steps_nonempty h0 c) (steps_nonempty h0 d)
  rw [steps_card hNp ha, steps_card hNp hb] at c1
  rw [steps_card hNp hc, steps_card hNp hd] at c2
  have c3 := ZMod.cauchy_davenport hp ((steps_nonempty h0 a).add (steps_nonempty h0 b))
    ((steps_nonempty h0 c).add (steps_nonempty h0 d))
  rw [← card_eq_iff_eq_univ, ZMod.card]
  refine le_antisymm ?_ (le_trans ?_ c3)
  · exact (card_le_univ _).trans (ZMod.card p).le
  · omega

/-- The sums of short multiples of a list of pairs. -/
def sums (N : Nat) (vs : List (ZMod p × ZMod p)) : Finset (ZMod p × ZMod p) :=
  vs.foldr (fun v A => moves N v + A) {0}

/-- The set meets every line in the direction of `v`. -/
def Meets (A : Finset (ZMod p × ZMod p)) (v : ZMod p × ZMod p) : Prop := ∀ c, ∃ u ∈ A, det u v = c

theorem Meets.mono {A B : Finset (ZMod p × ZMod p)} {v : ZMod p × ZMod p} (h : Meets A v) (hs : A ⊆ B) : Meets B v := fun c => by
  obtain ⟨u, hu, e⟩ := h c
  exact ⟨u, hs hu, e⟩

theorem subset_moves_add {N : Nat} (hN : 0 < N) (v : ZMod p × ZMod p) (A : Finset (ZMod p × ZMod p)) : A ⊆ moves N v + A := by
  intro u hu
  exact mem_add.mpr ⟨0, zero_mem_moves hN v, u, hu, zero_add _⟩

theorem det_moves {N x : Nat} (hx : x < N) (v w : ZMod p × ZMod p) :
    ∃ u ∈ moves N v, det u w = (x : ZMod p) * det v w :=
  ⟨_, mem_image.mpr ⟨x, mem_range.mpr hx, rfl⟩, by simp only [det]; ring⟩

/-- Four pairs not parallel to `v`: their sums meet every line. -/
theorem four_meets {N : Nat} (hN : 4 * (N - 1) = p + 1) {a b c d v : ZMod p × ZMod p} (ha : det a v ≠ 0) (hb : det b v ≠ 0)
    (hc : det c v ≠ 0) (hd : det d v ≠ 0) : Meets (sums N [a, b, c, d]) v := by
  intro t
  have h := mem_univ t
  rw [← four_steps hN ha hb hc hd] at h
  obtain ⟨q1, hq1, q2, hq2, rfl⟩ := mem_add.mp h
  obtain ⟨x1, hx1, x2, hx2, rfl⟩ := mem_add.mp hq1
  obtain ⟨x3, hx3, x4, hx4, rfl⟩ := mem_add.mp hq2
  obtain ⟨n1, hn1, rfl⟩ := mem_image.mp hx1
  obtain ⟨n2, hn2, rfl⟩ := mem_image.mp hx2
  obtain ⟨n3, hn3, rfl⟩ := mem_image.mp hx3
  obtain ⟨n4, hn4, rfl⟩ := mem_image.mp hx4
  obtain ⟨u1, hu1, e1⟩ := det_moves (mem_range.mp hn1) a v
  obtain ⟨u2, hu2, e2⟩ := det_moves (mem_range.mp hn2) b v
  obtain ⟨u3, hu3, e3⟩ := det_moves (mem_range.mp hn3) c v
  obtain ⟨u4, hu4, e4⟩ := det_moves (mem_range.mp hn4) d v
  refine ⟨u1 + (u2 + (u3 + (u4 + 0))), ?_, ?_⟩
  · exact add_mem_add hu1 (add_mem_add hu2 (add_mem_add hu3 (add_mem_add hu4 (mem_singleton_self 0))))
  · rw [add_zero, det_add, det_add, det_add, e1, e2, e3, e4]; ring

/-- The points of a set on a line. -/
def fiber (A : Finset (ZMod p × ZMod p)) (v : ZMod p × ZMod p) (c : ZMod p) : Finset (ZMod p × ZMod p) :=
  A.filter fun u => det u v = c

theorem card_fibers (A : Finset (ZMod p × ZMod p)) (v : ZMod p × ZMod p) : #A = ∑ c : ZMod p, #(fiber A v c) :=
  card_eq_sum_card_fiberwise fun _ _ => mem_univ _

/-- A line has at most `p` points. -/
theorem fiber_le (A : Finset (ZMod p × ZMod p)) {v : ZMod p × ZMod p} (hv : v ≠ 0) (c : ZMod p) : #(fiber A v c) ≤ p := by
  by_cases h1 : v.1 = 0
  · have h2 : v.2 ≠ 0 := fun h2 => hv (Prod.ext h1 h2)
    have : #((fiber A v c).image Prod.snd) = #(fiber A v c) := by
      refine card_image_of_injOn fun u hu w hw e => ?_
      have hu' := (mem_filter.mp hu).2
      have hw' := (mem_filter.mp hw).2
      refine Prod.ext (mul_right_cancel₀ h2 ?_) e
      simp only [det] at hu' hw'
      have e' : u.2 = w.2 := e
      rw [e'] at hu'
      linear_combination hu' - hw'
    rw [← this]
    exact (card_le_univ _).trans (ZMod.card p).le
  · have : #((fiber A v c).image Prod.fst) = #(fiber A v c) := by
      refine card_image_of_injOn fun u hu w hw e => ?_
      have hu' := (mem_filter.mp hu).2
      have hw' := (mem_filter.mp hw).2
      refine Prod.ext e (mul_right_cancel₀ h1 ?_)
      simp only [det] at hu' hw'
      have e' : u.1 = w.1 := e
      rw [e'] at hu'
      linear_combination hw' - hu'
    rw [← this]
    exact (card_le_univ _).trans (ZMod.card p).le

/-- One more pair: a set that meets every line grows. -/
theorem grow {N : Nat} (hN : 4 * (N - 1) = p + 1) {A : Finset (ZMod p × ZMod p)} {v : ZMod p × ZMod p} (hv : v ≠ 0)
    (h : Meets A v) : 3 * #A + p * p ≤ 4 * #(moves N v + A) := by
  have hp := (Fact.out : p.Prime)
  have h2 := hp.two_le
  have hNp : N ≤ p := by omega
  have h0 : 0 < N := by omega
  have line : ∀ c, 3 * #(fiber A v c) + p ≤ 4 * #(fiber (moves N v + A) v c) := by
    intro c
    obtain ⟨u, hu, e⟩ := h c
    have hne : (fiber A v c).Nonempty := ⟨u, mem_filter.mpr ⟨hu, e⟩⟩
    have hsub : moves N v + fiber A v c ⊆ fiber (moves N v + A) v c := by
      intro w hw
      obtain ⟨m, hm, f, hf, rfl⟩ := mem_add.mp hw
      obtain ⟨x, -, rfl⟩ := mem_image.mp hm
      obtain ⟨hf1, hf2⟩ := mem_filter.mp hf
      refine mem_filter.mpr ⟨add_mem_add hm hf1, ?_⟩
      rw [det_add, hf2]
      simp only [det]
      ring
    have hd := davenport_pairs (p := p) ⟨_, zero_mem_moves h0 v⟩ hne
    rw [moves_card hNp hv] at hd
    have hle := card_le_card hsub
    have hf := fiber_le A hv c
    have hpos := hne.card_pos
    omega
  rw [card_fibers A v, card_fibers (moves N v + A) v, mul_sum, mul_sum]
  calc _ = ∑ c : ZMod p, (3 * #(fiber A v c) + p) := by
        rw [sum_add_distrib, sum_const, card_univ, ZMod.card, smul_eq_mul]
    _ ≤ _ := sum_le_sum fun c _ => line c

/-- Seven pairs, no two of them parallel: more than half of all pairs are sums. -/
theorem seven {N : Nat} (hN : 4 * (N - 1) = p + 1) {a b c d e f g : ZMod p × ZMod p}
    (h : [g, f, e, a, b, c, d].Pairwise fun u v => det u v ≠ 0) :
    p * p < 2 * #(sums N [g, f, e, a, b, c, d]) := by
  have anti : ∀ {u v : ZMod p × ZMod p}, det u v ≠ 0 → det v u ≠ 0 := by
    intro u v h e
    apply h
    simp only [det] at e ⊢
    linear_combination -e
  have ne : ∀ {u v : ZMod p × ZMod p}, det u v ≠ 0 → u ≠ 0 := by
    rintro u v h rfl
    exact h (by simp [det])
  simp only [List.pairwise_cons, List.mem_cons, List.not_mem_nil, or_false, forall_eq_or_imp, forall_eq] at h
  obtain ⟨⟨gf, ge, ga, gb, gc, gd⟩, ⟨fe, fa, fb, fc, fd⟩, ⟨ea, eb, ec, ed⟩, -⟩ := h
  have h0 : 0 < N := by omega
  have m5 : Meets (sums N [a, b, c, d]) e := four_meets hN (anti ea) (anti eb) (anti ec) (anti ed)
  have m6 : Meets (sums N [a, b, c, d]) f := four_meets hN (anti fa) (anti fb) (anti fc) (anti fd)
  have m7 : Meets (sums N [a, b, c, d]) g := four_meets hN (anti ga) (anti gb) (anti gc) (anti gd)
  have g5 := grow hN (ne ea) m5
  have g6 := grow hN (ne fa) (m6.mono (subset_moves_add h0 e _))
  have g7 := grow hN (ne ga) (m7.mono ((subset_moves_add h0 e _).trans (subset_moves_add h0 f _)))
  have hpp : 0 < p * p := Nat.mul_pos (Fact.out : p.Prime).pos (Fact.out : p.Prime).pos
  show p * p < 2 * #(moves N g + (moves N f + (moves N e + sums N [a, b, c, d])))
  omega

/-- Two sets that each hold more than half of all pairs: every pair is a sum. -/
theorem halves {A B : Finset (ZMod p × ZMod p)} (hA : p * p < 2 * #A) (hB : p * p < 2 * #B) : A + B = univ := by
  ext w
  simp only [mem_univ, iff_true]
  by_contra hw
  have hdis : Disjoint A (B.image fun b => w - b) := by
    rw [disjoint_left]
    intro a ha hb
    obtain ⟨b, hb2, rfl⟩ := mem_image.mp hb
    exact hw (mem_add.mpr ⟨_, ha, b, hb2, sub_add_cancel _ _⟩)
  have h1 := card_union_of_disjoint hdis
  have h2 : #(B.image fun b => w - b) = #B := card_image_of_injective _ fun x y e => sub_right_injective e
  have h3 : #(A ∪ B.image fun b => w - b) ≤ p * p := by
    refine (card_le_univ _).trans ?_
    rw [Fintype.card_prod, ZMod.card]
  omega

/-- Sum of multiples. -/
def comb : List Nat → List (ZMod p × ZMod p) → ZMod p × ZMod p
  | x :: xs, v :: vs => ((x : ZMod p) * v.1, (x : ZMod p) * v.2) + comb xs vs
  | _, _ => 0

theorem mem_sums {N : Nat} (vs : List (ZMod p × ZMod p)) (w : ZMod p × ZMod p) (h : w ∈ sums N vs) :
    ∃ xs : List Nat, xs.length = vs.length ∧ (∀ x ∈ xs, x < N) ∧ comb xs vs = w := by
  induction vs generalizing w with
  | nil => exact ⟨[], rfl, by simp, (mem_singleton.mp h).symm⟩
  | cons v vs ih =>
    obtain ⟨m, hm, u, hu, rfl⟩ := mem_add.mp h
    obtain ⟨x, hx, rfl⟩ := mem_image.mp hm
    obtain ⟨xs, h1, h2, rfl⟩ := ih u hu
    exact ⟨x :: xs, by simp [h1], by simpa [mem_range.mp hx] using h2, rfl⟩

theorem comb_append {xs : List Nat} {vs : List (ZMod p × ZMod p)} (h : xs.length = vs.length) (ys : List Nat)
    (us : List (ZMod p × ZMod p)) : comb (xs ++ ys) (vs ++ us) = comb xs vs + comb ys us := by
  induction xs generalizing vs with
  | nil =>
    rw [List.eq_nil_of_length_eq_zero (l := vs) (by simpa using h.symm)]
    simp [comb]
  | cons x xs ih =>
    cases vs with
    | nil => simp at h
    | cons v vs => simp only [List.cons_append, comb, ih (by simpa using h), add_assoc]

/-- Fourteen pairs, no two of them parallel: every pair is a sum of short multiples. -/
theorem fourteen {N : Nat} (hN : 4 * (N - 1) = p + 1) {vs : List (ZMod p × ZMod p)} (hl : vs.length = 14)
    (h : vs.Pairwise fun u v => det u v ≠ 0) (w : ZMod p × ZMod p) :
    ∃ xs : List Nat, xs.length = 14 ∧ (∀ x ∈ xs, x < N) ∧ comb xs vs = w := by
  obtain ⟨us, ws, rfl, hu, hw⟩ : ∃ us ws, vs = us ++ ws ∧ us.length = 7 ∧ ws.length = 7 :=
    ⟨vs.take 7, vs.drop 7, (List.take_append_drop 7 vs).symm, by rw [List.length_take]; omega, by rw [List.length_drop]; omega⟩
  have half : ∀ us : List (ZMod p × ZMod p), us.length = 7 → us.Pairwise (fun u v => det u v ≠ 0) → p * p < 2 * #(sums N us) := by
    intro us hu hp
    match us, hu with
    | [g, f, e, a, b, c, d], _ => exact seven hN hp
  obtain ⟨p1, p2, -⟩ := List.pairwise_append.mp h
  have hall := mem_univ w
  rw [← halves (half us hu p1) (half ws hw p2)] at hall
  obtain ⟨w1, h1, w2, h2, rfl⟩ := mem_add.mp hall
  obtain ⟨xs, x1, x2, rfl⟩ := mem_sums us w1 h1
  obtain ⟨ys, y1, y2, rfl⟩ := mem_sums ws w2 h2
  refine ⟨xs ++ ys, by rw [List.length_append]; omega, fun x hx => ?_, comb_append x1 ys ws⟩
  rcases List.mem_append.mp hx with hx | hx
  · exact x2 x hx
  · exact y2 x hx

end Verif.Boxes
