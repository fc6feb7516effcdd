import Verif.Concrete.Ed25519Laws
import Mathlib.GroupTheory.OrderOfElement
import Mathlib.GroupTheory.Index
import Mathlib.Algebra.Field.ZMod
import Mathlib.SetTheory.Cardinal.Finite

/-
The number of points of the curve of Ed25519: eight times the order of the base point. No point count is needed: a point
is given by `y` and the parity of `x`, so there are at most `2 p` points, fewer than sixteen times the order `q` of the
base point, and a point of order eight is written down below. Hence the group is cyclic, eight points are killed by
eight, and the order of every other point is a multiple of `q`.
-/

namespace Verif.Ed25519
open Blake3 (leVal leBytes leBytes_length)
open Edwards (Point Complete)

/-- A point is given by its second coordinate and the parity of the first. -/
theorem point_ext_parity {g h : Point D} (hy : g.y = h.y) (hx : g.x.val % 2 = h.x.val % 2) : g = h := by
  apply enc_injective
  unfold enc
  rw [hy, hx]

/-- Second coordinate and parity. -/
def sides (g : Point D) : F × Fin 2 := (g.y, ⟨g.x.val % 2, Nat.mod_lt _ (by decide)⟩)

theorem sides_injective : Function.Injective sides := by
  intro g h e
  unfold sides at e
  rw [Prod.mk.injEq, Fin.mk.injEq] at e
  exact point_ext_parity e.1 e.2

instance : NeZero p := ⟨p_prime.ne_zero⟩

instance : Finite (Point D) := Finite.of_injective sides sides_injective

theorem card_le : Nat.card (Point D) ≤ p * 2 := by
  have h := Nat.card_le_card_of_injective sides sides_injective
  rwa [Nat.card_prod, Nat.card_zmod, Nat.card_fin] at h

/-- The first coordinate of the point of order eight. -/
def eighthX : Nat := 14399317868200118260347934320527232580618823971194345261214217575416788799818
/-- The second. -/
def eighthY : Nat := 2707385501144840649318225287225658788936804267575313519463743609750303402022
/-- A point of order eight, in extended coordinates. -/
def eighthExt : Ext := ⟨eighthX, eighthY, 1, eighthX * eighthY % p⟩

/-- A point of order eight. -/
def eighth : Point D where
  x := (eighthX : F)
  y := (eighthY : F)
  on := by
    have : ((eighthY ^ 2 : Nat) : F) = ((1 + d * eighthX ^ 2 * eighthY ^ 2 + eighthX ^ 2 : Nat) : F) := by
      rw [cast_eq_iff]
      decide +kernel
    simp only [Nat.cast_add, Nat.cast_mul, Nat.cast_pow, Nat.cast_one] at this
    show _ = 1 + (d : F) * _ * _
    linear_combination this

theorem rep_eighth : Rep eighthExt eighth where
  z := by simp [eighthExt]
  x := by simp [eighth, eighthExt]
  y := by simp [eighth, eighthExt]
  t := by
    show ((eighthX * eighthY % p : Nat) : F) = (eighthX : F) * (eighthY : F) * ((1 : Nat) : F)
    rw [ZMod.natCast_mod, Nat.cast_mul, Nat.cast_one, mul_one]

theorem eight_eighth : 8 • eighth = 0 :=
  (pointEqual_iff (rep_mul (by decide) rep_eighth) rep_neutral).mp (by decide +kernel)

theorem four_eighth : 4 • eighth ≠ 0 := fun h =>
  absurd ((pointEqual_iff (rep_mul (by decide) rep_eighth) rep_neutral).mpr h) (by decide +kernel)

theorem order_eighth : addOrderOf eighth = 8 :=
  haveI : Fact (Nat.Prime 2) := ⟨Nat.prime_two⟩
  addOrderOf_eq_prime_pow (p := 2) (n := 2) four_eighth eight_eighth

theorem coprime_q_eight : Nat.Coprime q 8 := by decide +kernel

/-- A generator of the group. -/
theorem order_generator : addOrderOf (B + eighth) = q * 8 := by
  have h := (AddCommute.all B eighth).addOrderOf_add_eq_mul_addOrderOf_of_coprime
    (by rw [order_B, order_eighth]; exact coprime_q_eight)
  rwa [order_B, order_eighth] at h

/-- The curve has eight times as many points as the base point generates. -/
theorem card_points : Nat.card (Point D) = q * 8 := by
  have hd : q * 8 ∣ Nat.card (Point D) := order_generator ▸ addOrderOf_dvd_natCard _
  obtain ⟨k, hk⟩ := hd
  have hle := card_le
  have hlt : p * 2 < q * 8 * 2 := by decide +kernel
  have hpos : 0 < Nat.card (Point D) := Nat.card_pos
  have hq : 0 < q * 8 := by decide +kernel
  have : k = 1 := by
    rcases k with _ | _ | k
    · omega
    · rfl
    · exfalso
      rw [hk] at hle
      have : q * 8 * 2 ≤ q * 8 * (k + 1 + 1) := Nat.mul_le_mul_left _ (by omega)
      omega
  rw [hk, this, mul_one]

theorem order_dvd (g : Point D) : addOrderOf g ∣ q * 8 := card_points ▸ addOrderOf_dvd_natCard g

/-- A point that eight does not kill has an order divisible by that of the base point. -/
theorem q_dvd_order {g : Point D} (h : 8 • g ≠ 0) : q ∣ addOrderOf g := by
  by_contra hn
  have hc : Nat.Coprime (addOrderOf g) q := ((Nat.Prime.coprime_iff_not_dvd q_prime).mpr hn).symm
  exact h (addOrderOf_dvd_iff_nsmul_eq_zero.mp (hc.dvd_of_dvd_mul_left (order_dvd g)))

/-- Every point is a multiple of the generator. -/
theorem generated (g : Point D) : ∃ n : Nat, g = n • (B + eighth) := by
  have htop : AddSubgroup.zmultiples (B + eighth) = ⊤ := by
    apply AddSubgroup.eq_top_of_card_eq
    rw [Nat.card_zmultiples, order_generator, card_points]
  have hm : g ∈ AddSubgroup.zmultiples (B + eighth) := by rw [htop]; trivial
  rw [← mem_multiples_iff_mem_zmultiples] at hm
  obtain ⟨n, hn⟩ := AddSubmonoid.mem_multiples_iff _ _ |>.mp hm
  exact ⟨n, hn.symm⟩

/-- The points killed by eight are the multiples of one of them. -/
theorem small_iff (g : Point D) : 8 • g = 0 ↔ ∃ k, k < 8 ∧ g = k • eighth := by
  constructor
  · intro h
    obtain ⟨n, rfl⟩ := generated g
    have hd : q * 8 ∣ 8 * n := by
      rw [← order_generator]
      apply addOrderOf_dvd_of_nsmul_eq_zero
      rw [mul_nsmul']
      exact h
    have hq : q ∣ n := by
      have : q * 8 ∣ n * 8 := by rwa [mul_comm 8 n] at hd
      exact Nat.dvd_of_mul_dvd_mul_right (by decide) this
    obtain ⟨m, rfl⟩ := hq
    refine ⟨q * m % 8, Nat.mod_lt _ (by decide), ?_⟩
    have e : (q * m % 8) • eighth = (q * m) • eighth := by
      conv_lhs => rw [← order_eighth, mod_addOrderOf_nsmul]
    rw [e, nsmul_add, mul_comm q m, mul_nsmul', q_B, nsmul_zero, zero_add]
  · rintro ⟨k, -, rfl⟩
    rw [← mul_nsmul', mul_comm, mul_nsmul', eight_eighth, nsmul_zero]

/-- A signature accepted for two messages under a key that eight does not kill gives two equal hashes. -/
theorem verify_two_of {A : Point D} (hA : 8 • A ≠ 0) {m m' sig : Bytes} (h : verify (enc A) m sig = true)
    (h' : verify (enc A) m' sig = true) : challenge (enc A) m sig = challenge (enc A) m' sig := by
  rw [verify_iff] at h h'
  obtain ⟨A1, R, n, eA, hn, e1, e2⟩ := h
  obtain ⟨A2, R', n', eA', hn', e1', e2'⟩ := h'
  cases enc_injective eA
  cases enc_injective eA'
  have ht : sig.take 32 = enc R := by rw [e1]; exact List.take_left' (enc_length R)
  obtain ⟨eR, es⟩ := List.append_inj (e1.symm.trans e1') (by rw [enc_length, enc_length])
  cases enc_injective eR
  have hnn : n = n' := by
    have := congrArg leVal es
    rwa [leVal_leBytes (lt_trans hn (by decide +kernel)), leVal_leBytes (lt_trans hn' (by decide +kernel))] at this
  subst hnn
  have e := add_left_cancel (e2.symm.trans e2')
  have em : hashModQ (enc R ++ enc A ++ m) ≡ hashModQ (enc R ++ enc A ++ m') [MOD q] :=
    (nsmul_eq_nsmul_iff_modEq.mp e).of_dvd (q_dvd_order hA)
  unfold Nat.ModEq at em
  rw [Nat.mod_eq_of_lt (hashModQ_lt _), Nat.mod_eq_of_lt (hashModQ_lt _)] at em
  unfold challenge
  rw [ht]
  exact em

theorem smul_of_mod {A : Point D} (hA : 8 • A = 0) {a b : Nat} (h : a % 8 = b % 8) : a • A = b • A :=
  nsmul_eq_nsmul_iff_modEq.mpr (Nat.ModEq.of_dvd (addOrderOf_dvd_of_nsmul_eq_zero hA) h)

/-- Under a key that eight kills, a signature is accepted or not by the last three bits of the hash. -/
theorem verify_small {A : Point D} (hA : 8 • A = 0) {m m' sig : Bytes}
    (h : challenge (enc A) m sig % 8 = challenge (enc A) m' sig % 8) (hv : verify (enc A) m sig = true) :
    verify (enc A) m' sig = true := by
  rw [verify_iff] at hv ⊢
  obtain ⟨A1, R, n, eA, hn, e1, e2⟩ := hv
  cases enc_injective eA
  have ht : sig.take 32 = enc R := by rw [e1]; exact List.take_left' (enc_length R)
  refine ⟨A, R, n, rfl, hn, e1, ?_⟩
  unfold challenge at h
  rw [ht] at h
  rw [e2, smul_of_mod hA h]

/-- Under such a key, whoever picks a number `r` has a signature that is accepted if eight divides the hash. -/
theorem verify_made {A : Point D} (hA : 8 • A = 0) {r : Nat} (hr : r < q) (m : Bytes)
    (h : hashModQ (pointCompress (pointMul r base) ++ enc A ++ m) % 8 = 0) :
    verify (enc A) m (pointCompress (pointMul r base) ++ leBytes 32 r) = true := by
  rw [pointCompress_eq (rep_mul (lt_trans hr q_lt) rep_base)] at h ⊢
  rw [verify_iff]
  refine ⟨A, r • B, r, rfl, hr, rfl, ?_⟩
  rw [smul_of_mod hA (show _ % 8 = 0 % 8 from h), zero_nsmul, add_zero]

end Verif.Ed25519
