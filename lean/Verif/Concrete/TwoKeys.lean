import Verif.Concrete.Boxes
import Verif.Concrete.Poly1305

/-
One cipher text for two one-time keys: Poly1305 with two different clamped numbers takes every pair of values on cipher texts
of fourteen pieces (J. Len, P. Grubbs, T. Ristenpart, "Partitioning oracle attacks", 2021, and Y. Dodis, P. Grubbs,
T. Ristenpart, J. Woodage, "Fast message franking", 2018, describe such cipher texts; here they are shown to exist for every two
keys).
-/

namespace Verif.XChaCha
open Sha2 (pieces)
open Blake3 (leVal leBytes leBytes_length)
open Ed25519 (leVal_injective leVal_lt leVal_leBytes)
open Boxes (comb det fourteen)

theorem boxes_polyP : 4 * (2 ^ 128 - 1) = polyP + 1 := by decide

/-- Small powers are different when the numbers are. -/
theorem pow_ne {r1 r2 : Nat} (h1 : r1 < 2 ^ 124) (h2 : r2 < 2 ^ 124) (h0 : 0 < r2) (hne : r1 ≠ r2) {d : Nat} (hd : 0 < d)
    (hd' : d ≤ 13) : (r1 : ZMod polyP) ^ d ≠ (r2 : ZMod polyP) ^ d := by
  intro e
  have hlt : 2 ^ 124 + 2 ^ 124 < polyP := by decide
  have hz : (r2 : ZMod polyP) ≠ 0 := fun hz => by
    have := natCast_inj (m := r2) (m' := 0) (by omega) (by omega) (by rw [hz]; simp)
    omega
  have hρ : ((r1 : ZMod polyP) / r2) ^ d = 1 := by
    rw [div_pow, e, div_self (pow_ne_zero _ hz)]
  have hρ0 : (r1 : ZMod polyP) / r2 ≠ 0 := fun h => by
    rw [h, zero_pow (by omega)] at hρ
    exact zero_ne_one hρ
  have hρ' : ((r1 : ZMod polyP) / r2) ^ (polyP - 1) = 1 := ZMod.pow_card_sub_one_eq_one hρ0
  have ho : orderOf ((r1 : ZMod polyP) / r2) ∣ Nat.gcd d (polyP - 1) :=
    Nat.dvd_gcd (orderOf_dvd_of_pow_eq_one hρ) (orderOf_dvd_of_pow_eq_one hρ')
  have hg : Nat.gcd d (polyP - 1) ∣ 2 := by
    interval_cases d <;> decide +kernel
  have h2' : ((r1 : ZMod polyP) / r2) ^ 2 = 1 := orderOf_dvd_iff_pow_eq_one.mp (ho.trans hg)
  rw [sq] at h2'
  rcases mul_self_eq_one_iff.mp h2' with h | h
  · rw [div_eq_one_iff_eq hz] at h
    exact hne (natCast_inj (by omega) (by omega) h)
  · rw [div_eq_iff hz] at h
    have h' : ((r1 + r2 : Nat) : ZMod polyP) = (0 : Nat) := by
      rw [Nat.cast_add, h]; simp
    have := natCast_inj (by omega) (by omega) h'
    omega

/-- Pairs of powers, from the high ones down to the squares. -/
def powers (r1 r2 : ZMod polyP) : Nat → List (ZMod polyP × ZMod polyP)
  | 0 => []
  | n + 1 => (r1 ^ (n + 2), r2 ^ (n + 2)) :: powers r1 r2 n

theorem powers_length (r1 r2 : ZMod polyP) (n : Nat) : (powers r1 r2 n).length = n := by
  induction n with
  | zero => rfl
  | succ n ih => simp [powers, ih]

theorem powers_mem {r1 r2 : ZMod polyP} {n : Nat} {v : ZMod polyP × ZMod polyP} (h : v ∈ powers r1 r2 n) :
    ∃ i < n, v = (r1 ^ (i + 2), r2 ^ (i + 2)) := by
  induction n with
  | zero => simp [powers] at h
  | succ n ih =>
    rcases List.mem_cons.mp h with rfl | h
    · exact ⟨n, by omega, rfl⟩
    · obtain ⟨i, hi, e⟩ := ih h
      exact ⟨i, by omega, e⟩

theorem powers_pairwise {r1 r2 : ZMod polyP} (h1 : r1 ≠ 0) (h2 : r2 ≠ 0) (n : Nat) (hn : n ≤ 14)
    (h : ∀ d, 0 < d → d ≤ 13 → r1 ^ d ≠ r2 ^ d) : (powers r1 r2 n).Pairwise fun u v => det u v ≠ 0 := by
  induction n with
  | zero => exact List.Pairwise.nil
  | succ n ih =>
    refine List.Pairwise.cons (fun v hv => ?_) (ih (by omega))
    obtain ⟨i, hi, rfl⟩ := powers_mem hv
    obtain ⟨d, rfl⟩ : ∃ d, n = i + d := ⟨n - i, by omega⟩
    intro e
    simp only [det] at e
    have e' : (r1 * r2) ^ (i + 2) * (r1 ^ d - r2 ^ d) = 0 := by
      rw [← e]; ring
    rcases mul_eq_zero.mp e' with e' | e'
    · exact mul_ne_zero h1 h2 (pow_eq_zero_iff (by omega) |>.mp e')
    · exact h d (by omega) (by omega) (sub_eq_zero.mp e')

/-- Horner's rule from the front. -/
def hor (r : ZMod polyP) : List Nat → ZMod polyP
  | [] => 0
  | m :: ms => (m : ZMod polyP) * r ^ (ms.length + 1) + hor r ms

theorem hor_snoc (r : ZMod polyP) (ms : List Nat) (m : Nat) : hor r (ms ++ [m]) = (hor r ms + m) * r := by
  induction ms with
  | nil => simp [hor]
  | cons x ms ih =>
    rw [List.cons_append, hor, ih, hor, List.length_append]
    simp only [List.length_cons, List.length_nil]
    ring

theorem accOf_hor (r : Nat) (ms : List Nat) : (accOf r ms : ZMod polyP) = hor r ms := by
  induction ms using List.reverseRecOn with
  | nil => simp [accOf, hor]
  | append_singleton ms m ih => rw [accOf_snoc, ZMod.natCast_mod, Nat.cast_mul, Nat.cast_add, ih, hor_snoc]

theorem hor_comb (r1 r2 : ZMod polyP) (N L : Nat) (xs : List Nat) :
    hor r1 (xs.map (· + N) ++ [L]) = (comb xs (powers r1 r2 xs.length)).1 + hor r1 (List.replicate xs.length N ++ [L]) ∧
      hor r2 (xs.map (· + N) ++ [L]) = (comb xs (powers r1 r2 xs.length)).2 + hor r2 (List.replicate xs.length N ++ [L]) := by
  induction xs with
  | nil => simp [comb]
  | cons x xs ih =>
    simp only [List.map_cons, List.cons_append, List.length_cons, powers, comb, List.replicate_succ, hor, ih.1, ih.2,
      Prod.fst_add, Prod.snd_add, List.length_append, List.length_map, List.length_replicate, List.length_nil, Nat.cast_add]
    constructor <;> ring

/-- Fourteen numbers below `2^128` for any two values. -/
theorem two_values {r1 r2 : Nat} (h1 : r1 < 2 ^ 124) (h2 : r2 < 2 ^ 124) (h10 : 0 < r1) (h20 : 0 < r2) (hne : r1 ≠ r2) (L : Nat)
    {w1 w2 : Nat} (hw1 : w1 < polyP) (hw2 : w2 < polyP) : ∃ xs : List Nat, xs.length = 14 ∧ (∀ x ∈ xs, x < 2 ^ 128) ∧
      accOf r1 (xs.map (· + 2 ^ 128) ++ [L]) = w1 ∧ accOf r2 (xs.map (· + 2 ^ 128) ++ [L]) = w2 := by
  have hlt : 2 ^ 124 < polyP := by decide
  have nz : ∀ {r : Nat}, r < 2 ^ 124 → 0 < r → (r : ZMod polyP) ≠ 0 := by
    intro r hr h0 e
    have := natCast_inj (m := r) (m' := 0) (by omega) (by omega) (by rw [e]; simp)
    omega
  obtain ⟨xs, hl, hx, e⟩ := fourteen (p := polyP) boxes_polyP (powers_length r1 r2 14)
    (powers_pairwise (nz h1 h10) (nz h2 h20) 14 (Nat.le_refl _) fun d a b => pow_ne h1 h2 h20 hne a b)
    ((w1 : ZMod polyP) - hor r1 (List.replicate 14 (2 ^ 128) ++ [L]), (w2 : ZMod polyP) - hor r2 (List.replicate 14 (2 ^ 128) ++ [L]))
  obtain ⟨c1, c2⟩ := hor_comb r1 r2 (2 ^ 128) L xs
  rw [hl, e] at c1 c2
  simp only [sub_add_cancel] at c1 c2
  have accLt : ∀ r ms, accOf r ms < polyP := by
    intro r ms
    induction ms using List.reverseRecOn with
    | nil => simp only [accOf, List.foldl_nil]; decide
    | append_singleton ms m ih => rw [accOf_snoc]; exact Nat.mod_lt _ (by decide)
  exact ⟨xs, hl, hx, natCast_inj (accLt _ _) hw1 (by rw [accOf_hor, c1]), natCast_inj (accLt _ _) hw2 (by rw [accOf_hor, c2])⟩

theorem accOf_zero (ms : List Nat) : accOf 0 ms = 0 := by
  cases ms using List.reverseRecOn with
  | nil => rfl
  | append_singleton ms m => rw [accOf_snoc, Nat.mul_zero, Nat.zero_mod]

/-- The same when one of the numbers is zero: its value is zero. -/
theorem two_sums {r1 r2 : Nat} (h1 : r1 < 2 ^ 124) (h2 : r2 < 2 ^ 124) (hne : r1 ≠ r2) (L : Nat) {s1 s2 : Nat}
    (hs1 : s1 < 2 ^ 128) (hs2 : s2 < 2 ^ 128) : ∃ xs : List Nat, xs.length = 14 ∧ (∀ x ∈ xs, x < 2 ^ 128) ∧
      (accOf r1 (xs.map (· + 2 ^ 128) ++ [L]) + s1) % 2 ^ 128 = (accOf r2 (xs.map (· + 2 ^ 128) ++ [L]) + s2) % 2 ^ 128 := by
  have hp : 2 ^ 128 + 2 ^ 128 < polyP := by decide
  have other : ∀ r : Nat, ∃ q, q < 2 ^ 124 ∧ 0 < q ∧ r ≠ q := fun r =>
    if h : r = 1 then ⟨2, by omega, by omega, by omega⟩ else ⟨1, by omega, by omega, h⟩
  by_cases z1 : r1 = 0
  · subst z1
    obtain ⟨q, q1, q2, q3⟩ := other r2
    obtain ⟨xs, a, b, c, -⟩ := two_values h2 q1 (by omega) q2 q3 L (w1 := s1 + 2 ^ 128 - s2) (w2 := 0) (by omega) (by omega)
    refine ⟨xs, a, b, ?_⟩
    rw [c, accOf_zero]
    omega
  · by_cases z2 : r2 = 0
    · subst z2
      obtain ⟨q, q1, q2, q3⟩ := other r1
      obtain ⟨xs, a, b, c, -⟩ := two_values h1 q1 (by omega) q2 q3 L (w1 := s2 + 2 ^ 128 - s1) (w2 := 0) (by omega) (by omega)
      refine ⟨xs, a, b, ?_⟩
      rw [c, accOf_zero]
      omega
    · obtain ⟨xs, a, b, c, d⟩ := two_values h1 h2 (by omega) (by omega) hne L (w1 := s2) (w2 := s1) (by omega) (by omega)
      refine ⟨xs, a, b, ?_⟩
      rw [c, d, Nat.add_comm]

theorem blocks_unique {l l' : List Bytes} (h : ∀ b ∈ l, b.length = 16) (h' : ∀ b ∈ l', b.length = 16)
    (e : l.flatten = l'.flatten) : l = l' := by
  induction l generalizing l' with
  | nil => cases l' with
    | nil => rfl
    | cons b l' =>
      have := congrArg List.length e
      have := h' b (by simp)
      simp only [List.flatten_nil, List.flatten_cons, List.length_append, List.length_nil] at *
      omega
  | cons a l ih => cases l' with
    | nil =>
      have := congrArg List.length e
      have := h a (by simp)
      simp only [List.flatten_nil, List.flatten_cons, List.length_append, List.length_nil] at *
      omega
    | cons b l' =>
      rw [List.flatten_cons, List.flatten_cons] at e
      obtain ⟨e1, e2⟩ := List.append_inj e (by rw [h a (by simp), h' b (by simp)])
      rw [e1, ih (fun b hb => h b (by simp [hb])) (fun b hb => h' b (by simp [hb])) e2]

/-- The cipher text with these numbers. -/
def cipherOf (xs : List Nat) : Bytes := (xs.map (leBytes 16)).flatten

theorem cipherOf_length (xs : List Nat) : (cipherOf xs).length = 16 * xs.length := by
  unfold cipherOf
  induction xs with
  | nil => rfl
  | cons x xs ih => simp only [List.map_cons, List.flatten_cons, List.length_append, leBytes_length, ih, List.length_cons]; omega

theorem number_of {x : Nat} (h : x < 2 ^ 128) : leVal (leBytes 16 x ++ [1]) = x + 2 ^ 128 := by
  have e : (256 : Nat) ^ 16 = 2 ^ 128 := by decide
  rw [leVal_snoc_one, leBytes_length, leVal_leBytes (by rw [e]; exact h), e]

theorem map_numbers (xs : List Nat) (N : Nat) (f : Bytes → Nat) (b : Bytes) (h : ∀ x ∈ xs, f (leBytes 16 x) = x + N) :
    (xs.map (leBytes 16) ++ [b]).map f = xs.map (· + N) ++ [f b] := by
  rw [List.map_append, List.map_map, List.map_singleton]
  congr 1
  exact List.map_congr_left h

theorem macNumbers_cipherOf (xs : List Nat) (h : ∀ x ∈ xs, x < 2 ^ 128) :
    macNumbers (cipherOf xs) = xs.map (· + 2 ^ 128) ++ [leVal (leBytes 8 0 ++ leBytes 8 (16 * xs.length) ++ [1])] := by
  have hl := macData_length (cipherOf xs)
  obtain ⟨p1, p2, -⟩ := pieces_spec _ (macData (cipherOf xs)) (Nat.le_refl _) (by omega)
  have hp : pieces 16 (macData (cipherOf xs)).length (macData (cipherOf xs)) =
      xs.map (leBytes 16) ++ [leBytes 8 0 ++ leBytes 8 (16 * xs.length)] := by
    refine blocks_unique p2 ?_ (p1.trans ?_)
    · intro b hb
      rcases List.mem_append.mp hb with hb | hb
      · obtain ⟨x, -, rfl⟩ := List.mem_map.mp hb
        exact leBytes_length _ _
      · rw [List.mem_singleton.mp hb, List.length_append, leBytes_length, leBytes_length]
    · have hz : zeros16 (cipherOf xs) = [] := by
        unfold zeros16
        rw [cipherOf_length]
        simp
      rw [macData, hz, cipherOf_length, List.append_nil, List.flatten_append, List.flatten_singleton, List.append_assoc, cipherOf]
  rw [macNumbers, hp]
  exact map_numbers _ _ _ _ fun x hx => number_of (h x hx)

theorem oneTime_small (k n : Bytes) : oneTime k n < 2 ^ 124 :=
  Nat.lt_of_le_of_lt Nat.and_le_right (by decide)

/-- The second half of the one-time key. -/
def addend (k n : Bytes) : Nat := leVal (((block k n 0).take 32).drop 16)

theorem addend_lt (k n : Bytes) : addend k n < 2 ^ 128 := by
  have h := leVal_lt (((block k n 0).take 32).drop 16)
  have hl : (((block k n 0).take 32).drop 16).length ≤ 16 := by
    rw [List.length_drop, List.length_take]; omega
  refine Nat.lt_of_lt_of_le h (Nat.le_trans (Nat.pow_le_pow_right (by decide) hl) (by decide))

/-- Two keys with different numbers: some cipher text of 224 bytes has the same tag under both. -/
theorem two_keys (k n k' n' : Bytes) (h : oneTime k n ≠ oneTime k' n') :
    ∃ c : Bytes, c.length = 224 ∧ tag k n [] c = tag k' n' [] c := by
  obtain ⟨xs, hl, hx, e⟩ := two_sums (oneTime_small k n) (oneTime_small k' n') h
    (leVal (leBytes 8 0 ++ leBytes 8 224 ++ [1])) (addend_lt k n) (addend_lt k' n')
  refine ⟨cipherOf xs, by rw [cipherOf_length, hl], ?_⟩
  rw [tag_eq, tag_eq, macNumbers_cipherOf xs hx, hl]
  exact congrArg (leBytes 16) e

/-- Two keys with one number and different addends: no cipher text. -/
theorem no_two_keys {k n k' n' : Bytes} (h : oneTime k n = oneTime k' n') {c : Bytes} (e : tag k n [] c = tag k' n' [] c) :
    addend k n = addend k' n' := by
  rw [tag_eq, tag_eq, h] at e
  have small : ∀ x, leVal (leBytes 16 (x % 2 ^ 128)) = x % 2 ^ 128 := fun x =>
    leVal_leBytes (Nat.lt_of_lt_of_le (Nat.mod_lt _ (by decide)) (by decide))
  have e' := congrArg leVal e
  rw [small, small] at e'
  have h1 := addend_lt k n
  have h2 := addend_lt k' n'
  unfold addend at *
  omega

end Verif.XChaCha
