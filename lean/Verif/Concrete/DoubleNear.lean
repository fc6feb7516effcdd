import Verif.Concrete.DoubleError
import Mathlib.Data.Nat.Log

/-! Doubles that go through their JSON text: what `serde_json` reads back from what `ryu` printed is at most a few
places away. -/

namespace Verif.Double

/-! ### The texts of doubles -/

theorem gap_grid : (2 : ℚ) * 10 ^ (-326 : Int) < 1 / 2 ^ 1074 := by
  rw [show (10 : ℚ) ^ (-326 : Int) = 1 / 10 ^ 326 by rw [zpow_neg, one_div]; rfl, mul_one_div, div_lt_div_iff₀ (by positivity) (by positivity)]
  have : 2 * 2 ^ 1074 < 10 ^ 326 := by decide +kernel
  rw [one_mul]
  exact_mod_cast this

theorem half_val {k S : Nat} {x : Int} (hk : 0 < k) (h : ofDec S x = k) : valQ k ≤ 2 * decQ S x := by
  have := (ofDec_mid S x).2 (k - 1) (by omega)
  rw [show k - 1 + 1 = k by omega] at this
  have := valQ_nonneg (k - 1)
  linarith

/-- The last of the shortest digits is not below `10^-330`. -/
theorem shortest_low {k : Nat} (hk : 0 < k) : -330 ≤ (shortest k).2 := by
  by_contra hc
  have hv : 0 < valQ k := by have := valQ_strictMono hk; rwa [valQ_zero] at this
  obtain ⟨h1, -⟩ := shortest_spec hk
  -- digits on a grid that is fine enough
  have hgrid : (0 : ℚ) < 10 ^ (-326 : Int) := ten_pos _
  obtain ⟨D, hD1, hD2⟩ : ∃ D : Nat, decQ D (-326) ≤ valQ k ∧ valQ k < decQ D (-326) + 10 ^ (-326 : Int) := by
    refine ⟨⌊valQ k / 10 ^ (-326 : Int)⌋₊, ?_, ?_⟩
    · unfold decQ
      rw [← le_div_iff₀ hgrid]
      exact Nat.floor_le (by positivity)
    · unfold decQ
      have := Nat.lt_floor_add_one (valQ k / 10 ^ (-326 : Int))
      rw [div_lt_iff₀ hgrid] at this
      linarith
  have hk' : ofDec D (-326) = k := by
    refine le_antisymm (ofDec_of_le hD1) ?_
    by_contra hlt
    have a := (ofDec_mid D (-326)).1
    have b := valQ_strictMono.monotone (show ofDec D (-326) ≤ k - 1 by omega)
    have c := valQ_strictMono.monotone (show ofDec D (-326) + 1 ≤ k by omega)
    have d := gapQ_one (k - 1)
    rw [show k - 1 + 1 = k by omega] at d
    have e := gap_grid
    generalize (1 : ℚ) / 2 ^ 1074 = δ at *
    linarith
  have hD0 : D ≠ 0 := by
    rintro rfl
    rw [ofDec_zero] at hk'
    omega
  have least := shortest_least hk (m := Nat.log 10 D + 1) (by omega) (Nat.lt_pow_succ_log_self (by omega) D) hk'
  have hlog := Nat.pow_log_le_self 10 hD0
  have h10 : (shortest k).1 ≤ 10 * D := by rw [pow_succ] at least; omega
  have half := half_val hk h1
  -- the value of the digits is far too small
  have small : decQ (shortest k).1 (shortest k).2 ≤ 10 * D * 10 ^ (-331 : Int) := by
    unfold decQ
    refine mul_le_mul (by exact_mod_cast h10) (ten_le (by omega)) (ten_pos _).le (by positivity)
  have e : (10 : ℚ) ^ (-331 : Int) = 10 ^ (-326 : Int) * (1 / 100000) := by
    rw [show (-331 : Int) = -326 + -5 by norm_num, ten_add]
    norm_num
  rw [e] at small
  unfold decQ at hD1
  generalize (10 : ℚ) ^ (-326 : Int) = γ at *
  generalize (D : ℚ) = d at *
  have : (10 : ℚ) * d * (γ * (1 / 100000)) = d * γ / 10000 := by ring
  rw [this] at small
  linarith

theorem valQ_low : valQ (2 ^ 53) < 10 ^ (-291 : Int) := by
  have h : units (2 ^ 53) = 2 ^ 53 := by decide +kernel
  unfold valQ
  rw [h, one_eq, show (10 : ℚ) ^ (-291 : Int) = 1 / 10 ^ 291 by rw [zpow_neg, one_div]; rfl, div_lt_div_iff₀ (by positivity) (by positivity)]
  have : 2 ^ 53 * 10 ^ 291 < 1 * 2 ^ 1074 := by decide +kernel
  exact_mod_cast this

/-- Two places from a number that is not very small are less than a `2^50`th. -/
theorem places_ratio {k g : Nat} (h : (10 : ℚ) ^ (-291 : Int) ≤ valQ k) (h1 : g ≤ k + 2) (h2 : k ≤ g + 2) :
    |valQ g - valQ k| ≤ valQ k / 2 ^ 50 := by
  have hk : 2 ^ 53 ≤ k := by
    by_contra hc
    have := valQ_strictMono (show k < 2 ^ 53 by omega)
    exact absurd (lt_of_lt_of_le (this.trans valQ_low) h) (lt_irrefl _)
  clear h
  have v0 := valQ_nonneg k
  have gap : ∀ j, 2 ^ 52 ≤ j → valQ j ≤ 2 * valQ k → 0 ≤ valQ (j + 1) - valQ j ∧ valQ (j + 1) - valQ j ≤ 2 * valQ k / 2 ^ 52 := by
    intro j hj hv
    refine ⟨by have := valQ_strictMono (Nat.lt_succ_self j); linarith, ?_⟩
    rw [le_div_iff₀ (by positivity), mul_comm]
    exact (gap_small hj).trans hv
  have e : valQ k / 2 ^ 50 = 2 * (2 * valQ k / 2 ^ 52) := by ring
  rw [e]
  have up : ∀ j, j ≤ k → valQ j ≤ 2 * valQ k := fun j hj => by
    have := valQ_strictMono.monotone hj
    linarith
  have hδ : 2 * valQ k / 2 ^ 52 ≤ valQ k := by
    rw [div_le_iff₀ (by positivity)]
    nlinarith
  obtain ⟨j, rfl⟩ : ∃ j, k = j + 2 := ⟨k - 2, by omega⟩
  have g0 := gap j (by omega) (up _ (by omega))
  have g1 := gap (j + 1) (by omega) (up _ (by omega))
  have g2 := gap (j + 2) (by omega) (up _ (by omega))
  have g3 := gap (j + 3) (by omega) (by have := g2.2; rw [show j + 2 + 1 = j + 3 from rfl] at this; linarith)
  simp only [show j + 1 + 1 = j + 2 from rfl, show j + 2 + 1 = j + 3 from rfl, show j + 3 + 1 = j + 4 from rfl] at g1 g2 g3
  generalize 2 * valQ (j + 2) / 2 ^ 52 = δ at *
  have : g = j ∨ g = j + 1 ∨ g = j + 2 ∨ g = j + 3 ∨ g = j + 4 := by omega
  rw [abs_le]
  rcases this with rfl | rfl | rfl | rfl | rfl <;> constructor <;> linarith

theorem top_309 : top ≤ ofDec 1 309 := by decide +kernel

theorem exp_high {S k : Nat} {x : Int} (hS : 0 < S) (hk : k < top) (h : ofDec S x = k) : x ≤ 308 := by
  by_contra hc
  have : ofDec 1 309 ≤ ofDec S x := by
    apply ofDec_mono
    unfold decQ
    have hs : ((1 : Nat) : ℚ) ≤ S := by exact_mod_cast hS
    exact mul_le_mul hs (ten_le (by omega)) (ten_pos _).le (by positivity)
  have := top_309
  omega

/-- Magnitudes of at least `10^-291` have digits down to `10^-308` at most. -/
theorem exp_low {S k : Nat} {x : Int} (hS : S < 10 ^ 17) (hk : 0 < k) (h : ofDec S x = k) (hv : (10 : ℚ) ^ (-291 : Int) ≤ valQ k) : -308 ≤ x := by
  by_contra hc
  have half := half_val hk h
  have small : decQ S x ≤ 10 ^ (17 : Int) * 10 ^ (-309 : Int) := by
    unfold decQ
    refine mul_le_mul ?_ (ten_le (by omega)) (ten_pos _).le (ten_pos _).le
    rw [show (17 : Int) = ((17 : Nat) : Int) from rfl, ten_nat]
    exact_mod_cast hS.le
  rw [← ten_add] at small
  have e : (10 : ℚ) ^ (-291 : Int) = 10 ^ (17 + -309 : Int) * 10 := by
    rw [show (-291 : Int) = (17 + -309) + 1 by norm_num, ten_add]
    norm_num
  have := ten_pos (17 + -309 : Int)
  rw [e] at hv
  linarith

/-- The two largest doubles, of either sign. -/
theorem largest : ∀ n : Bool, (parse (print ⟨n, ⟨top - 1, by decide +kernel⟩⟩)).map (fun g => (g.neg, top - g.mag.1)) = some (n, 1) ∧
    (parse (print ⟨n, ⟨top - 2, by decide +kernel⟩⟩)).map (fun g => (g.neg, top - g.mag.1)) = some (n, 1) := by
  decide +kernel

theorem dec_lt (D : Nat) : D < 10 ^ (natDec D).length := by
  by_contra hc
  have := natDec_spec D
  have hv := decVal_lt (natDec_digits D).2
  rw [this.2.1] at hv
  omega

theorem low_top : ofDec (10 ^ 17) (-309) + 3 < top := by decide +kernel

/-- One or two steps of the reader end close to what the digits stand for. -/
theorem scale_near {S : Nat} {x : Int} (hS : 0 < S) (hS17 : S < 10 ^ 17) (hlow : -330 ≤ x) (hx : x ≤ 308) (ht : ofDec S x + 2 < top) :
    ∃ g, scale 4 (round S 1) x = some g ∧ g < top ∧ g ≤ ofDec S x + 3 ∧ ofDec S x ≤ g + 3 ∧
      (-308 ≤ x → g ≤ ofDec S x + 2 ∧ ofDec S x ≤ g + 2) := by
  rcases le_or_gt 0 x with h0 | h0
  · obtain ⟨e, rfl⟩ := Int.eq_ofNat_of_zero_le h0
    obtain ⟨n1, n2⟩ := mul_near (e := e) hS
    refine ⟨_, ?_, ?_, ?_, ?_, fun _ => ⟨n1, n2⟩⟩
    · rw [scale, if_pos (by omega), if_pos h0, Int.natAbs_natCast, if_pos (by omega)]
    all_goals omega
  rcases le_or_gt (-308) x with h1 | h1
  · obtain ⟨e, he⟩ := Int.eq_ofNat_of_zero_le (show 0 ≤ -x by omega)
    obtain rfl : x = -(e : Int) := by omega
    obtain ⟨n1, n2⟩ := div_near (e := e) hS
    refine ⟨_, ?_, ?_, ?_, ?_, fun _ => ⟨n1, n2⟩⟩
    · rw [scale, if_pos (by omega), if_neg (by omega), Int.natAbs_neg, Int.natAbs_natCast]
    all_goals omega
  · obtain ⟨e, he⟩ := Int.eq_ofNat_of_zero_le (show 0 ≤ -x - 308 by omega)
    obtain rfl : x = -((308 + e : Nat) : Int) := by omega
    obtain ⟨n1, n2⟩ := div2_near (e := e) hS (by omega) (by omega)
    have hsmall : ofDec S (-((308 + e : Nat) : Int)) ≤ ofDec (10 ^ 17) (-309) := by
      apply ofDec_mono
      unfold decQ
      exact mul_le_mul (by exact_mod_cast hS17.le) (ten_le (by omega)) (ten_pos _).le (Nat.cast_nonneg _)
    have hlt := low_top
    have hne : round S 1 ≠ 0 := by
      intro hz
      have := units_round_pos hS
      rw [hz] at this
      exact absurd this.1 (by rw [valQ_zero]; exact lt_irrefl _)
    refine ⟨div (div (round S 1) (round (10 ^ 308) 1)) (round (10 ^ e) 1), ?_, ?_, n1, n2, fun h => absurd h (by omega)⟩
    · rw [scale, if_neg (by omega), if_neg hne, if_neg (by omega), scale, if_pos (by omega), if_neg (by omega),
        show (-((308 + e : Nat) : Int) + 308).natAbs = e by omega]
    · generalize ofDec (10 ^ 17) (-309) = b at *
      omega

theorem digits_bounds {S z : Nat} {x : Int} {p : Nat × Int} (s0 : 0 < p.1) (s17 : p.1 < 10 ^ 17) (slow : -330 ≤ p.2)
    (t3 : S = p.1 * 10 ^ z) (t4 : x = p.2 - z)
    (t6 : z = 0 ∨ 0 ≤ p.2 ∧ (natDec p.1).length + p.2 ≤ 16 ∧ z = p.2.toNat + 1) : 0 < S ∧ S < 10 ^ 17 ∧ -330 ≤ x := by
  refine ⟨by rw [t3]; positivity, ?_, ?_⟩
  · rcases t6 with rfl | ⟨h1, h2, rfl⟩
    · rwa [t3, pow_zero, Nat.mul_one]
    · have hd := dec_lt p.1
      rw [t3]
      calc p.1 * 10 ^ (p.2.toNat + 1) < 10 ^ (natDec p.1).length * 10 ^ (p.2.toNat + 1) :=
            Nat.mul_lt_mul_of_pos_right hd (by positivity)
        _ = 10 ^ ((natDec p.1).length + (p.2.toNat + 1)) := (pow_add _ _ _).symm
        _ ≤ 10 ^ 17 := Nat.pow_le_pow_right (by omega) (by omega)
  · rcases t6 with rfl | ⟨h1, h2, rfl⟩ <;> omega

attribute [local irreducible] parse print top in
/-- A double comes back from its text within two places of the order of doubles, very small ones within three. -/
theorem parse_print (f : F64) : ∃ g : F64, parse (print f) = some g ∧ g.neg = f.neg ∧
    g.mag.1 ≤ f.mag.1 + 3 ∧ f.mag.1 ≤ g.mag.1 + 3 ∧
    ((10 : ℚ) ^ (-291 : Int) ≤ valQ f.mag.1 → g.mag.1 ≤ f.mag.1 + 2 ∧ f.mag.1 ≤ g.mag.1 + 2) := by
  rcases Nat.eq_zero_or_pos f.mag.1 with hz | hpos
  · -- zeros
    obtain ⟨n, m, hm⟩ := f
    simp only at hz
    subst hz
    exact ⟨_, zero_survives n, rfl, by simp, by simp, fun _ => ⟨by simp, by simp⟩⟩
  by_cases hlarge : f.mag.1 + 2 < top
  · obtain ⟨S, x, t1, t2, z, t3, t4, -, t6⟩ := print_means f
    have hl := print_length f
    rw [if_neg (by omega)] at t3
    replace t4 := t4 (by omega)
    have s0 := shortest_pos hpos
    have s17 := shortest_lt hpos
    have slow := shortest_low hpos
    obtain ⟨hS, hS17, hlow⟩ : 0 < S ∧ S < 10 ^ 17 ∧ -330 ≤ x := by
      clear t1 t2 hl hlarge
      generalize shortest f.mag.1 = p at *
      exact digits_bounds s0 s17 slow t3 t4 t6
    have hx := exp_high hS f.mag.2 t2
    have hparse := parse_means t1 (by omega) (by omega) (by omega)
    obtain ⟨g, g1, g2, g3, g4, g5⟩ := scale_near hS hS17 hlow hx (by rw [t2]; exact hlarge)
    rw [g1] at hparse
    simp only [finish, dif_pos g2] at hparse
    rw [t2] at g3 g4 g5
    exact ⟨_, hparse, rfl, g3, g4, fun hv => g5 (exp_low hS17 hpos t2 hv)⟩
  · obtain ⟨n, m, hm⟩ := f
    simp only at hpos hlarge ⊢
    have key : ∀ (m : Nat) (hm : m < top), (parse (print ⟨n, ⟨m, hm⟩⟩)).map (fun g => (g.neg, top - g.mag.1)) = some (n, 1) → top ≤ m + 2 →
        ∃ g : F64, parse (print ⟨n, ⟨m, hm⟩⟩) = some g ∧ g.neg = n ∧ g.mag.1 ≤ m + 2 ∧ m ≤ g.mag.1 + 2 := by
      intro m hm h h2
      rw [Option.map_eq_some_iff] at h
      obtain ⟨g, g1, g2⟩ := h
      rw [Prod.mk.injEq] at g2
      have := g.mag.2
      exact ⟨g, g1, g2.1, by omega, by omega⟩
    have both := largest n
    have : m = top - 1 ∨ m = top - 2 := by omega
    obtain ⟨g, h1, h2, h3, h4⟩ : ∃ g : F64, parse (print ⟨n, ⟨m, hm⟩⟩) = some g ∧ g.neg = n ∧ g.mag.1 ≤ m + 2 ∧ m ≤ g.mag.1 + 2 := by
      rcases this with rfl | rfl
      · exact key _ hm both.1 (by omega)
      · exact key _ hm both.2 (by omega)
    exact ⟨g, h1, h2, by omega, by omega, fun _ => ⟨h3, h4⟩⟩

/-! ### Canonical texts -/

theorem readInt_append (ds r : Bytes) (s : Nat) (h : s * 10 ^ ds.length + decVal ds < 2 ^ 64) :
    readInt (ds ++ r) s = readInt r (s * 10 ^ ds.length + decVal ds) := by
  induction ds generalizing s with
  | nil => simp [decVal, valBE]
  | cons b l ih =>
    rw [decVal_cons, List.length_cons, pow_succ] at h ⊢
    have hp : 1 ≤ 10 ^ l.length := Nat.one_le_pow _ _ (by omega)
    have e : s * (10 ^ l.length * 10) + ((b.toNat - 0x30) * 10 ^ l.length + decVal l) =
        (s * 10 + (b.toNat - 0x30)) * 10 ^ l.length + decVal l := by ring
    rw [e] at h ⊢
    have : s * 10 + (b.toNat - 0x30) < 2 ^ 64 := by
      have := Nat.le_mul_of_pos_right (s * 10 + (b.toNat - 0x30)) hp
      omega
    rw [List.cons_append, readInt, if_pos this, ih _ h]

theorem readInt_zeros (z s : Nat) (h : s < 2 ^ 64) :
    ∃ a c : Nat, a + c = z ∧ s * 10 ^ a < 2 ^ 64 ∧ readInt (List.replicate z 0x30) s = (s * 10 ^ a, (c : Int)) := by
  induction z generalizing s with
  | zero => exact ⟨0, 0, rfl, by omega, by simp [readInt]⟩
  | succ z ih =>
    rw [List.replicate_succ, readInt, show s * 10 + ((0x30 : UInt8).toNat - 0x30) = s * 10 from rfl]
    split
    · rename_i hs
      obtain ⟨a, c, h1, h2, h3⟩ := ih _ hs
      refine ⟨a + 1, c, by omega, ?_, ?_⟩
      · rw [pow_succ']; rw [← Nat.mul_assoc]; exact h2
      · rw [h3, pow_succ' 10 a, Nat.mul_assoc]
    · refine ⟨0, z + 1, by omega, by omega, ?_⟩
      simp

/-- How an integer too long for 64 bits is read: the digits that fit, and zeros. -/
theorem parse_long {D : Nat} (hD : D < 2 ^ 64) (z : Nat) (neg : Bool) :
    ∃ a c : Nat, a + c = z ∧ parse ((if neg then [0x2d] else []) ++ (natDec D ++ List.replicate z 0x30)) =
      finish neg (scale 4 (round (D * 10 ^ a) 1) c) := by
  obtain ⟨a, c, h1, -, h3⟩ := readInt_zeros z D hD
  refine ⟨a, c, h1, ?_⟩
  obtain ⟨hne, hdig⟩ := natDec_digits D
  have hval := (natDec_spec D).2.1
  have hr : readInt (natDec D ++ List.replicate z 0x30) 0 = (D * 10 ^ a, (c : Int)) := by
    rw [readInt_append _ _ _ (by omega), Nat.zero_mul, Nat.zero_add, hval, h3]
  have hall : ∀ b ∈ natDec D ++ List.replicate z 0x30, Spec.Digit b := by
    intro b hb
    rcases List.mem_append.mp hb with hb | hb
    · exact hdig b hb
    · rw [List.eq_of_mem_replicate hb]; exact digit_zero
  have hmag : readMag (natDec D ++ List.replicate z 0x30) = scale 4 (round (D * 10 ^ a) 1) c := by
    unfold readMag
    simp only [spanDigits_all hall, hr]
  have hhead : (natDec D ++ List.replicate z 0x30).head? ≠ some 0x2d := by
    obtain ⟨b, l, hb⟩ := List.exists_cons_of_ne_nil hne
    rw [hb, List.cons_append, List.head?_cons]
    rintro h
    cases h
    exact not_digit_minus (hdig _ (by rw [hb]; simp))
  generalize natDec D ++ List.replicate z 0x30 = t at *
  unfold parse
  cases neg with
  | false =>
    simp only [Bool.false_eq_true, if_false, List.nil_append, hhead, hmag]
    generalize scale 4 (round (D * 10 ^ a) 1) c = o
    cases o <;> simp [finish]
  | true =>
    simp only [if_true, List.singleton_append, List.head?_cons, List.tail_cons, hmag]
    generalize scale 4 (round (D * 10 ^ a) 1) c = o
    cases o <;> simp [finish]

/-- What a canonical text of a double is read as. -/
def NearNum (f : F64) : Num F64 → Prop
  | .float g => g.neg = f.neg ∧ g.mag.1 ≤ f.mag.1 + 3 ∧ f.mag.1 ≤ g.mag.1 + 3 ∧
    ((10 : ℚ) ^ (-291 : Int) ≤ valQ f.mag.1 → g.mag.1 ≤ f.mag.1 + 2 ∧ f.mag.1 ≤ g.mag.1 + 2)
  | .pos n => ofDec n.1 0 = f.mag.1 ∧ (f.neg = true → f.mag.1 = 0)
  | .neg k => ofDec (k.1 + 1) 0 = f.mag.1 ∧ f.neg = true

/-- Canonical texts without point and exponent have at most 21 digits. -/
theorem printEs_int (f : F64) (h : 0 < f.mag.1) (h0 : 0 ≤ (shortest f.mag.1).2) :
    (natDec (shortest f.mag.1).1).length + (shortest f.mag.1).2 ≤ 21 ∧
      printEs f = (if f.neg then [0x2d] else []) ++ natDec ((shortest f.mag.1).1 * 10 ^ (shortest f.mag.1).2.toNat) ∨
    21 < (natDec (shortest f.mag.1).1).length + (shortest f.mag.1).2 ∧
      Spec.TextMeans (printEs f) f.neg (shortest f.mag.1).1 (shortest f.mag.1).2 := by
  have hp := shortest_pos h
  unfold printEs
  rw [if_neg (by omega)]
  generalize shortest f.mag.1 = p at *
  obtain ⟨z, hz, hz'⟩ := es_means (natDec_digits p.1) (natDec_head hp) p.2
  rw [(natDec_spec p.1).2.1] at hz
  rcases hz' with ⟨rfl, h⟩ | ⟨h1, h2, rfl, h4⟩
  · right
    refine ⟨h h0, ?_⟩
    have := means_neg hz f.neg
    simpa using this
  · exact .inl ⟨h2, by rw [h4, natDec_mul_ten hp]⟩

theorem long_top : ofDec (10 ^ 21) 0 + 3 < top := by decide +kernel

/-- An integer of at most 21 digits, too long for 64 bits: read within two places. -/
theorem mul_long (neg : Bool) {S c k : Nat} (hS : 0 < S) (hc : c ≤ 21) (hk : ofDec S c = k) (hle : k + 2 < top) :
    ∃ g : F64, finish neg (scale 4 (round S 1) c) = some g ∧ g.neg = neg ∧
      g.mag.1 ≤ k + 2 ∧ k ≤ g.mag.1 + 2 := by
  obtain ⟨n1, n2⟩ := mul_near (e := c) hS
  rw [hk] at n1 n2
  rw [scale, if_pos (by omega), if_pos (by omega), Int.natAbs_natCast]
  generalize mul (round S 1) (round (10 ^ c) 1) = m at *
  have htop : m < top := by omega
  rw [if_pos htop, finish, dif_pos htop]
  exact ⟨_, rfl, rfl, n1, n2⟩

theorem long_near (f : F64) {D z : Nat} (hp : 0 < D) (hD : D < 2 ^ 64) (h21 : D * 10 ^ z < 10 ^ 21)
    (hval : ofDec (D * 10 ^ z) 0 = f.mag.1) :
    ∃ g : F64, parse ((if f.neg then [0x2d] else []) ++ natDec (D * 10 ^ z)) = some g ∧ NearNum f (.float g) := by
  obtain ⟨a, c, e1, e2⟩ := parse_long hD z f.neg
  have hk : ofDec (D * 10 ^ a) c = f.mag.1 := by
    rw [ofDec_shift, show (c : Int) + a = 0 + z by omega, ← ofDec_shift]
    exact hval
  have hz : z < 21 := (Nat.pow_lt_pow_iff_right (by omega)).mp
    (lt_of_le_of_lt (Nat.le_mul_of_pos_left (10 ^ z) hp) h21)
  have hle : f.mag.1 + 2 < top := by
    have hlt := long_top
    have : f.mag.1 ≤ ofDec (10 ^ 21) 0 := by
      rw [← hval]
      apply ofDec_mono
      unfold decQ
      exact mul_le_mul (by exact_mod_cast h21.le) le_rfl (ten_pos _).le (Nat.cast_nonneg _)
    generalize ofDec (10 ^ 21) 0 = b at *
    omega
  obtain ⟨g, g1, g2, g3, g4⟩ := mul_long f.neg (by positivity) (by omega) hk hle
  rw [natDec_mul_ten hp, e2, g1]
  exact ⟨g, rfl, g2, by omega, by omega, fun _ => ⟨g3, g4⟩⟩

theorem dec_int (f : F64) {n : Nat} (hval : ofDec n 0 = f.mag.1) {g : F64}
    (g1 : parse ((if f.neg then [0x2d] else []) ++ natDec n) = some g) (g2 : NearNum f (.float g)) :
    ∃ m : Num F64, decNum parse ((if f.neg then [0x2d] else []) ++ natDec n) = some m ∧ NearNum f m := by
  obtain ⟨d1, d2, d3, d4, d5⟩ := natDec_spec n
  have hi := isIntTok_natDec n f.neg
  have hmap : (parse ((if f.neg then [0x2d] else []) ++ natDec n)).map Num.float = some (.float g) := by
    rw [g1]
    rfl
  generalize parse = P at *
  cases hneg : f.neg with
  | true =>
    rw [hneg] at hi hmap
    simp only [if_true, List.singleton_append] at hi hmap ⊢
    unfold decNum
    rw [if_pos hi, if_pos (by simp)]
    simp only [List.tail_cons, d2]
    by_cases hr : 1 ≤ n ∧ n ≤ 2 ^ 63
    · rw [dif_pos hr]
      refine ⟨_, rfl, ?_, hneg⟩
      show ofDec (n - 1 + 1) 0 = _
      rw [show n - 1 + 1 = n by omega]
      exact hval
    · rw [dif_neg hr]
      exact ⟨_, hmap, g2⟩
  | false =>
    rw [hneg] at hi hmap
    simp only [Bool.false_eq_true, if_false, List.nil_append] at hi hmap ⊢
    unfold decNum
    rw [if_pos hi, if_neg d4]
    simp only [d2]
    by_cases hr : n < 2 ^ 64
    · rw [dif_pos hr]
      exact ⟨_, rfl, hval, fun h => by rw [hneg] at h; cases h⟩
    · rw [dif_neg hr]
      exact ⟨_, hmap, g2⟩

attribute [local irreducible] parse print top in
theorem parse_printEs (f : F64) : ∃ m : Num F64, decNum parse (printEs f) = some m ∧ NearNum f m := by
  rcases Nat.eq_zero_or_pos f.mag.1 with h | h
  · refine ⟨.pos 0, ?_, ?_⟩
    · unfold printEs
      rw [if_pos h]
      rfl
    · exact ⟨by rw [h]; exact ofDec_zero _, fun _ => h⟩
  obtain ⟨z, h1, h2⟩ := printEs_parts f h
  have hl := printEs_length f
  have hl' := print_length f
  have hlt := shortest_lt h
  have hp := shortest_pos h
  have hexp := shortest_exp h f.mag.2
  have hof := (shortest_spec h).1
  rcases h2 with ⟨rfl, h2⟩ | ⟨h2, h3, h4⟩
  · -- with point or exponent: read as serde_json's text
    obtain ⟨S, x, p1, p2, z', p3, p4, p5, p6⟩ := print_means f
    obtain ⟨g, g1, g2⟩ := parse_print f
    rw [if_neg (by omega)] at p3
    have hx := p4 (by omega)
    clear p4 p5 p2 hof
    have hlen : (natDec (shortest f.mag.1).1).length ≤ 17 := natDec_length hlt (by omega)
    generalize shortest f.mag.1 = p at *
    have hne : p.2 ≠ 0 := by
      intro h0
      have := h2 (by omega)
      omega
    have hz' : z' = 0 := by
      rcases p6 with p6 | ⟨a, b, -⟩
      · exact p6
      · have := h2 a
        omega
    subst hz'
    rw [p3, hx] at p1
    have hS : p.1 * 10 ^ 0 < 2 ^ 64 := by omega
    have hni := not_int_of_means h1 (by simpa using hne)
    refine ⟨.float g, ?_, g2⟩
    unfold decNum
    rw [hni, if_neg (by simp)]
    rw [parse_means h1 (by omega) hS (by omega), ← parse_means p1 (by omega) hS (by omega), g1]
    rfl
  · -- written as an integer
    have hval : ofDec ((shortest f.mag.1).1 * 10 ^ z) 0 = f.mag.1 := by
      have := ofDec_shift (shortest f.mag.1).1 z 0
      rw [this, Int.zero_add, h3, Int.toNat_of_nonneg h2]
      exact hof
    have hlen : (natDec (shortest f.mag.1).1).length ≤ 17 := natDec_length hlt (by omega)
    have h21 : (natDec (shortest f.mag.1).1).length + (shortest f.mag.1).2 ≤ 21 := by
      rcases printEs_int f h h2 with ⟨a, -⟩ | ⟨a, b⟩
      · exact a
      · have := (means_unique h1 b).2.2
        omega
    rw [h4]
    have hn21 : (shortest f.mag.1).1 * 10 ^ z < 10 ^ 21 := by
      calc (shortest f.mag.1).1 * 10 ^ z < 10 ^ (natDec (shortest f.mag.1).1).length * 10 ^ z :=
            Nat.mul_lt_mul_of_pos_right (dec_lt _) (by positivity)
        _ = 10 ^ ((natDec (shortest f.mag.1).1).length + z) := (pow_add _ _ _).symm
        _ ≤ 10 ^ 21 := Nat.pow_le_pow_right (by omega) (by omega)
    obtain ⟨g, g1, g2⟩ := long_near f hp (by omega) hn21 hval
    exact dec_int f hval g1 g2

end Verif.Double
