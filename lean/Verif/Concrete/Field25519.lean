import Mathlib.NumberTheory.LucasPrimality
import Mathlib.Tactic.NormNum.Prime
import Mathlib.FieldTheory.Finite.Basic

/-
The primes of Ed25519: 2^255 - 19 and the order of the base point (RFC 8032, section 5.1). Primality by certificates of Pratt: a generator and the factors of n - 1.
-/

namespace Verif.Ed25519

/-- `a ^ k mod n` by squaring; `fuel` bounds the bits of `k`. -/
def powMod (n : Nat) : Nat → Nat → Nat → Nat
  | 0, _, _ => 1 % n
  | fuel + 1, a, k =>
    if k = 0 then 1 % n
    else
      let r := powMod n fuel (a * a % n) (k / 2)
      if k % 2 = 1 then r * a % n else r

theorem powMod_eq {n : Nat} : ∀ {fuel a k : Nat}, k < 2 ^ fuel → powMod n fuel a k = a ^ k % n
  | 0, a, k, h => by
    have : k = 0 := by simpa using h
    rw [this]; rfl
  | fuel + 1, a, k, h => by
    unfold powMod
    by_cases h0 : k = 0
    · rw [if_pos h0, h0]; rfl
    rw [if_neg h0]
    have ih := powMod_eq (n := n) (fuel := fuel) (a := a * a % n) (k := k / 2) (by rw [Nat.pow_succ] at h; omega)
    have hs : (a * a % n) ^ (k / 2) % n = a ^ (2 * (k / 2)) % n := by
      rw [← Nat.pow_mod, ← pow_two, ← pow_mul]
    dsimp only
    rw [ih, hs]
    rcases Nat.mod_two_eq_zero_or_one k with hk | hk
    · rw [if_neg (by omega)]
      congr 2; omega
    · rw [if_pos hk]
      have : k = 2 * (k / 2) + 1 := by omega
      conv => rhs; rw [this, pow_succ]
      rw [Nat.mod_mul_mod]

/-- A certificate of primality, but for the primality of the factors. -/
def pratt (n g : Nat) (factors : List Nat) : Bool :=
  2 ≤ n && n < 2 ^ 256 && factors.prod = n - 1 && powMod n 256 g (n - 1) = 1 &&
    factors.all fun q => powMod n 256 g ((n - 1) / q) ≠ 1

theorem prime_of_pratt {n g : Nat} {factors : List Nat} (h : pratt n g factors = true)
    (hp : ∀ q ∈ factors, q.Prime) : n.Prime := by
  unfold pratt at h
  simp only [Bool.and_eq_true, decide_eq_true_eq, List.all_eq_true] at h
  obtain ⟨⟨⟨⟨h2, h256⟩, hprod⟩, h1⟩, hq⟩ := h
  have cast : ∀ k, k < 2 ^ 256 → ((g : ZMod n) ^ k = 1 ↔ powMod n 256 g k = 1) := by
    intro k hk
    rw [powMod_eq hk, ← Nat.cast_pow, ← Nat.cast_one, ZMod.natCast_eq_natCast_iff', Nat.mod_eq_of_lt (a := 1) (by omega)]
  apply lucas_primality n g
  · exact (cast _ (by omega)).mpr h1
  · intro q hqp hd e
    rw [cast _ (lt_of_le_of_lt (Nat.div_le_self _ _) (by omega))] at e
    rw [← hprod] at hd
    obtain ⟨r, hr, hqr⟩ := (Prime.dvd_prod_iff (Nat.prime_iff.mp hqp)).mp hd
    have : q = r := (Nat.prime_dvd_prime_iff_eq hqp (hp r hr)).mp hqr
    exact hq q (this ▸ hr) e

theorem prime1 : Nat.Prime 1923133 :=
  prime_of_pratt (g := 2) (factors := [2, 2, 3, 43, 3727]) (by decide +kernel) (by simp; norm_num)

theorem prime2 : Nat.Prime 31757755568855353 :=
  prime_of_pratt (g := 10) (factors := [2, 2, 2, 3, 31, 107, 223, 4153, 430751]) (by decide +kernel) (by simp; norm_num)

theorem prime3 : Nat.Prime 8574133 :=
  prime_of_pratt (g := 2) (factors := [2, 2, 3, 7, 103, 991]) (by decide +kernel) (by simp; norm_num)

theorem prime4 : Nat.Prime 1919519569386763 :=
  prime_of_pratt (g := 2) (factors := [2, 3, 7, 19, 47, 47, 127, 8574133]) (by decide +kernel)
    (by have := prime3; simp [this]; norm_num)

theorem prime5 : Nat.Prime 2773320623 :=
  prime_of_pratt (g := 5) (factors := [2, 2437, 569003]) (by decide +kernel) (by simp; norm_num)

theorem prime6 : Nat.Prime 72106336199 :=
  prime_of_pratt (g := 7) (factors := [2, 13, 2773320623]) (by decide +kernel) (by have := prime5; simp [this]; norm_num)

theorem prime7 : Nat.Prime 75445702479781427272750846543864801 :=
  prime_of_pratt (g := 7) (factors := [2, 2, 2, 2, 2, 3, 3, 5, 5, 75707, 72106336199, 1919519569386763]) (by decide +kernel)
    (by have := prime6; have := prime4; simp [*]; norm_num)

theorem prime8 : Nat.Prime 74058212732561358302231226437062788676166966415465897661863160754340907 :=
  prime_of_pratt (g := 2)
    (factors := [2, 3, 353, 57467, 132049, 1923133, 31757755568855353, 75445702479781427272750846543864801])
    (by decide +kernel) (by have := prime1; have := prime2; have := prime7; simp [*]; norm_num)

theorem prime9 : Nat.Prime 1224481 :=
  prime_of_pratt (g := 13) (factors := [2, 2, 2, 2, 2, 3, 5, 2551])
    (by decide +kernel) (by simp; norm_num)

theorem prime10 : Nat.Prime 1257559732178653 :=
  prime_of_pratt (g := 2) (factors := [2, 2, 3, 7, 23, 531581, 1224481])
    (by decide +kernel) (by have := prime9; simp [*]; norm_num)

theorem prime11 : Nat.Prime 4434155615661930479 :=
  prime_of_pratt (g := 17) (factors := [2, 41, 43, 1257559732178653])
    (by decide +kernel) (by have := prime10; simp [*]; norm_num)

theorem prime12 : Nat.Prime 172054593956031949258510691 :=
  prime_of_pratt (g := 2) (factors := [2, 5, 1361, 2851, 4434155615661930479])
    (by decide +kernel) (by have := prime11; simp [*]; norm_num)

theorem prime13 : Nat.Prime 292386187 :=
  prime_of_pratt (g := 2) (factors := [2, 3, 3, 3, 3, 307, 5879])
    (by decide +kernel) (by simp; norm_num)

theorem prime14 : Nat.Prime 213441916511 :=
  prime_of_pratt (g := 13) (factors := [2, 5, 73, 292386187])
    (by decide +kernel) (by have := prime13; simp [*]; norm_num)

theorem prime15 : Nat.Prime 19757330305831588566944191468367130476339 :=
  prime_of_pratt (g := 2) (factors := [2, 269, 213441916511, 172054593956031949258510691])
    (by decide +kernel) (by have := prime14; have := prime12; simp [*]; norm_num)

theorem prime16 : Nat.Prime 276602624281642239937218680557139826668747 :=
  prime_of_pratt (g := 2) (factors := [2, 7, 19757330305831588566944191468367130476339])
    (by decide +kernel) (by have := prime15; simp [*]; norm_num)

theorem prime17 : Nat.Prime 14741173 :=
  prime_of_pratt (g := 2) (factors := [2, 2, 3, 3, 409477])
    (by decide +kernel) (by simp; norm_num)

theorem prime18 : Nat.Prime 58964693 :=
  prime_of_pratt (g := 2) (factors := [2, 2, 14741173])
    (by decide +kernel) (by have := prime17; simp [*]; norm_num)

theorem prime19 : Nat.Prime 3044861653679985063343 :=
  prime_of_pratt (g := 5) (factors := [2, 3, 11, 30703, 82163, 132667, 137849])
    (by decide +kernel) (by simp; norm_num)

theorem prime20 : Nat.Prime 198211423230930754013084525763697 :=
  prime_of_pratt (g := 5) (factors := [2, 2, 2, 2, 3, 23, 58964693, 3044861653679985063343])
    (by decide +kernel) (by have := prime18; have := prime19; simp [*]; norm_num)

/-- The prime of the field. -/
def p : Nat := 2 ^ 255 - 19

theorem p_prime : p.Prime :=
  prime_of_pratt (g := 2)
    (factors := [2, 2, 3, 65147, 74058212732561358302231226437062788676166966415465897661863160754340907])
    (by decide +kernel) (by have := prime8; simp [*]; norm_num)

instance : Fact p.Prime := ⟨p_prime⟩

/-- The order of the base point. -/
def q : Nat := 2 ^ 252 + 27742317777372353535851937790883648493

theorem q_prime : q.Prime :=
  prime_of_pratt (g := 2)
    (factors := [2, 2, 3, 11, 198211423230930754013084525763697, 276602624281642239937218680557139826668747])
    (by decide +kernel) (by have := prime20; have := prime16; simp [*]; norm_num)

end Verif.Ed25519
