import Verif.Concrete.DoubleText

/-
Which doubles are read back from their texts: the bounds of the texts, and the everyday decimals.
-/

namespace Verif.Double
open Verif Spec

attribute [local irreducible] one

/-! ### Bounds -/

theorem shortest_lt {k : Nat} (hk : 0 < k) : (shortest k).1 < 10 ^ 17 := by
  have h := withDigits_17 hk
  obtain ⟨p, hp⟩ := Option.isSome_iff_exists.mp h
  have hv := withDigits_spec hp
  have hb := withDigits_bound hk (by omega) hp
  rcases Nat.lt_or_ge p.1 (10 ^ 17) with h | h
  · exact shortest_least hk (by omega) h hv
  · have he : p.1 = 1 * 10 ^ 17 := by omega
    rw [he, ofDec_shift] at hv
    exact lt_of_lt_of_le (shortest_least hk (m := 1) (by omega) (by omega) hv) (by norm_num)

theorem shortest_pos {k : Nat} (hk : 0 < k) : 0 < (shortest k).1 := by
  have := (shortest_spec hk).2
  rcases Nat.eq_zero_or_pos (shortest k).1 with h | h
  · rw [h] at this; simp at this
  · exact h

theorem top_small : top ≤ ofDec 1 400 := by decide +kernel

theorem ofDec_tiny : ofDec 1 (-383) = 0 := by decide +kernel

theorem shortest_exp {k : Nat} (hk : 0 < k) (ht : k < top) : (shortest k).2.natAbs < 400 := by
  obtain ⟨h1, -⟩ := shortest_spec hk
  have h2 := shortest_lt hk
  have h3 := shortest_pos hk
  generalize shortest k = p at *
  obtain ⟨D, e⟩ := p
  simp only at h1 h2 h3 ⊢
  by_contra hc
  rcases le_or_gt 0 e with h | h
  · have : ofDec 1 400 ≤ ofDec D e := by
      apply ofDec_mono
      unfold decQ
      have a : (10 : ℚ) ^ (400 : Int) ≤ 10 ^ e := ten_le (by omega)
      have b : (1 : ℚ) ≤ D := by exact_mod_cast h3
      have := mul_le_mul b a (ten_pos 400).le (by linarith)
      simpa using this
    have := top_small
    omega
  · have : ofDec D e ≤ ofDec 1 (-383) := by
      apply ofDec_mono
      unfold decQ
      have a : (10 : ℚ) ^ e ≤ 10 ^ (-400 : Int) := ten_le (by omega)
      have b : (D : ℚ) ≤ 10 ^ (17 : Int) := by
        rw [show (17 : Int) = ((17 : Nat) : Int) from rfl, ten_nat]
        exact_mod_cast h2.le
      have c := mul_le_mul b a (ten_pos e).le (ten_pos 17).le
      rw [← ten_add] at c
      simpa using c
    rw [ofDec_tiny] at this
    omega

theorem natDec_short (n : Nat) : (natDec n).length ≤ n + 1 :=
  natDec_length (lt_trans (Nat.lt_succ_self n) (Nat.lt_pow_self (by omega))) (by omega)

theorem sci_length (plus ds : Bytes) (x : Int) (hp : plus.length ≤ 1) :
    (sciText plus ds x).length ≤ ds.length + x.natAbs + 5 := by
  unfold sciText expText
  have h1 := natDec_short x.natAbs
  have h2 : (if x < 0 then [0x2d] else plus).length ≤ 1 := by split <;> simp [hp]
  have h3 : (if ds.length = 1 then [] else 0x2e :: ds.drop 1).length ≤ ds.length - 1 + 1 := by
    split <;> simp
  simp only [List.length_append, List.length_cons, List.length_take]
  omega

theorem ryu_length (ds : Bytes) (e : Int) : (ryuText ds e).length ≤ 2 * ds.length + e.natAbs + 9 := by
  unfold ryuText
  simp only
  split
  · simp only [List.length_append, List.length_replicate, List.length_cons, List.length_nil]; omega
  · split
    · simp only [List.length_append, List.length_cons, List.length_take, List.length_drop]; omega
    · split
      · simp only [List.length_append, List.length_replicate, List.length_cons, List.length_nil]; omega
      · have := sci_length [] ds (ds.length + e - 1) (by simp)
        omega

theorem es_length (ds : Bytes) (e : Int) : (esText ds e).length ≤ 2 * ds.length + e.natAbs + 9 := by
  unfold esText
  simp only
  split
  · simp only [List.length_append, List.length_replicate]; omega
  · split
    · simp only [List.length_append, List.length_cons, List.length_take, List.length_drop]; omega
    · split
      · simp only [List.length_append, List.length_replicate, List.length_cons, List.length_nil]; omega
      · have := sci_length [0x2b] ds (ds.length + e - 1) (by simp)
        omega

theorem print_length (f : F64) : (print f).length < 1000 := by
  have hs : (if f.neg then [(0x2d : UInt8)] else []).length ≤ 1 := by split <;> simp
  unfold print
  rw [List.length_append]
  rcases Nat.eq_zero_or_pos f.mag.1 with h | h
  · rw [if_pos h]
    simp only [List.length_cons, List.length_nil]
    omega
  · rw [if_neg (show f.mag.1 ≠ 0 by omega)]
    have a := shortest_exp h f.mag.2
    have b := shortest_lt h
    generalize shortest f.mag.1 = p at *
    have c := natDec_length b (by omega)
    have d := ryu_length (natDec p.1) p.2
    omega

theorem printEs_length (f : F64) : (printEs f).length < 1000 := by
  have hs : (if f.neg then [(0x2d : UInt8)] else []).length ≤ 1 := by split <;> simp
  unfold printEs
  rcases Nat.eq_zero_or_pos f.mag.1 with h | h
  · rw [if_pos h]
    simp only [List.length_cons, List.length_nil]
    omega
  · rw [if_neg (by omega), List.length_append]
    have a := shortest_exp h f.mag.2
    have b := shortest_lt h
    generalize shortest f.mag.1 = p at *
    have c := natDec_length b (by omega)
    have d := es_length (natDec p.1) p.2
    omega

/-! ### Reading printed texts -/

theorem finish_eq {n : Bool} {k : Nat} (f : F64) (hn : f.neg = n) (hk : f.mag.1 = k) : finish n (some k) = some f := by
  subst hn hk
  exact dif_pos f.mag.2

/-- A double is read back from serde_json's text if its shortest digits and the power of ten are exact. -/
theorem print_survives (f : F64) (h53 : (shortest f.mag.1).1 < 2 ^ 53) (he : (shortest f.mag.1).2.natAbs ≤ 22)
    (hc : (shortest f.mag.1).2 < 0 ∨ (shortest f.mag.1).1 * 5 ^ ((shortest f.mag.1).2.toNat + 1) < 2 ^ 53 ∨
      16 < (natDec (shortest f.mag.1).1).length + (shortest f.mag.1).2) :
    parse (print f) = some f := by
  have hl := print_length f
  obtain ⟨S, x, h1, h2, z, h3, h4, h5, h6⟩ := print_means f
  rcases Nat.eq_zero_or_pos f.mag.1 with h | h
  · rw [if_pos h] at h3
    have hx := h5 h
    subst h3 hx
    obtain ⟨g, g1, g2, g3⟩ := parse_exact h1 (by omega) (round_nat (a := 0) (b := 0) (by omega)) (by omega) (by omega)
    rw [g1]
    congr 1
    obtain ⟨gn, gm⟩ := g
    obtain ⟨fn, fm⟩ := f
    simp only at g2 g3 h2 ⊢
    rw [g2]
    congr 1
    exact Fin.ext (g3.trans h2)
  · rw [if_neg (by omega)] at h3
    have hx := h4 (by omega)
    have hlen := shortest_lt h
    generalize shortest f.mag.1 = p at *
    have hS : units (round S 1) = S * one ∧ S < 2 ^ 64 ∧ x.natAbs ≤ 22 := by
      rcases h6 with rfl | ⟨h7, h8, rfl⟩
      · rw [pow_zero, Nat.mul_one] at h3
        subst h3
        have := round_nat (b := 0) h53
        rw [pow_zero, Nat.mul_one] at this
        exact ⟨this, by omega, by omega⟩
      · have h9 : p.1 * 5 ^ (p.2.toNat + 1) < 2 ^ 53 := by
          rcases hc with hc | hc | hc
          · omega
          · exact hc
          · omega
        have e : S = p.1 * 5 ^ (p.2.toNat + 1) * 2 ^ (p.2.toNat + 1) := by
          rw [h3, Nat.mul_assoc, ← Nat.mul_pow]
        refine ⟨by rw [e]; exact round_nat h9, ?_, by omega⟩
        have hd := natDec_digits p.1
        have hlt : p.1 < 10 ^ (natDec p.1).length := by
          by_contra hc
          have := natDec_spec p.1
          have hv := decVal_lt hd.2
          rw [this.2.1] at hv
          omega
        have h10 : p.1 * 10 ^ p.2.toNat < 10 ^ 16 := by
          calc p.1 * 10 ^ p.2.toNat < 10 ^ (natDec p.1).length * 10 ^ p.2.toNat :=
                Nat.mul_lt_mul_of_pos_right hlt (by positivity)
            _ = 10 ^ ((natDec p.1).length + p.2.toNat) := by rw [pow_add]
            _ ≤ 10 ^ 16 := Nat.pow_le_pow_right (by omega) (by omega)
        rw [h3, pow_succ, ← Nat.mul_assoc]
        omega
    obtain ⟨g, g1, g2, g3⟩ := parse_exact h1 (by omega) hS.1 hS.2.1 hS.2.2
    rw [g1]
    congr 1
    obtain ⟨gn, gm⟩ := g
    obtain ⟨fn, fm⟩ := f
    simp only at g2 g3 h2 ⊢
    rw [g2]
    congr 1
    exact Fin.ext (g3.trans h2)

/-- Trailing zeros taken off. -/
theorem strip_zeros {D : Nat} (h : 0 < D) : ∃ D' z : Nat, D = D' * 10 ^ z ∧ D' % 10 ≠ 0 := by
  induction D using Nat.strong_induction_on with
  | _ D ih =>
    by_cases h0 : D % 10 = 0
    · obtain ⟨D', z, h1, h2⟩ := ih (D / 10) (by omega) (by omega)
      refine ⟨D', z + 1, ?_, h2⟩
      rw [pow_succ, ← Nat.mul_assoc, ← h1]
      omega
    · exact ⟨D, 0, by simp, h0⟩

theorem normal_22 : 2 ^ 52 ≤ ofDec 1 (-22) := by decide +kernel

/-- Decimals of at most 15 digits with at most 22 of them after the point: what the shortest digits are. -/
theorem shortest_everyday {k D x : Nat} (hD : D < 10 ^ 15) (hx : x ≤ 22) (h0 : 0 < D) (hk : k = ofDec D (-(x : Int))) :
    0 < k ∧ (shortest k).1 < 10 ^ 15 ∧ (shortest k).2.natAbs ≤ 22 ∧
      (0 ≤ (shortest k).2 → (shortest k).1 * 10 ^ (shortest k).2.toNat < 10 ^ 15) := by
  obtain ⟨D', z, h1, h2⟩ := strip_zeros h0
  have hp : 0 < D' := by rcases Nat.eq_zero_or_pos D' with h | h; (rw [h] at h2; simp at h2); exact h
  have hle : D' ≤ D := by rw [h1]; exact Nat.le_mul_of_pos_right _ (by positivity)
  have hz : z ≤ 14 := by
    by_contra hc
    have : 10 ^ 15 ≤ 10 ^ z := Nat.pow_le_pow_right (by omega) (by omega)
    have := Nat.le_mul_of_pos_left (10 ^ z) hp
    omega
  have hbig : 2 ^ 52 ≤ ofDec D (-(x : Int)) := by
    refine normal_22.trans (ofDec_mono ?_)
    unfold decQ
    have a : (10 : ℚ) ^ (-22 : Int) ≤ 10 ^ (-(x : Int)) := ten_le (by omega)
    have b : (1 : ℚ) ≤ D := by exact_mod_cast h0
    have := mul_le_mul b a (ten_pos (-22)).le (by linarith)
    simpa using this
  have he : ofDec D (-(x : Int)) = ofDec D' (z - x) := by
    rw [h1, ofDec_shift]
    congr 1
    omega
  rw [he] at hbig hk
  have hs := shortest_15 h2 (by omega) hbig
  rw [← hk] at hs hbig
  rw [hs]
  refine ⟨by omega, by omega, by simp only; omega, ?_⟩
  intro hc
  simp only at hc ⊢
  calc D' * 10 ^ ((z : Int) - x).toNat ≤ D' * 10 ^ z := Nat.mul_le_mul_left _ (Nat.pow_le_pow_right (by omega) (by omega))
    _ < 10 ^ 15 := by omega

theorem zero_survives (n : Bool) :
    parse (print ⟨n, 0, by decide +kernel⟩) = some ⟨n, 0, by decide +kernel⟩ := by cases n <;> decide +kernel

/-- Decimals of at most 15 digits with at most 22 of them after the point are read back. -/
theorem everyday_survives (f : F64) {D x : Nat} (hD : D < 10 ^ 15) (hx : x ≤ 22) (hf : f.mag.1 = ofDec D (-(x : Int))) :
    parse (print f) = some f := by
  rcases Nat.eq_zero_or_pos D with rfl | h0
  · rw [ofDec_zero] at hf
    obtain ⟨n, m, hm⟩ := f
    simp only at hf
    subst hf
    exact zero_survives n
  · obtain ⟨hk, h1, h2, h3⟩ := shortest_everyday hD hx h0 hf
    refine print_survives f (lt_trans h1 (by norm_num)) h2 ?_
    rcases lt_or_ge (shortest f.mag.1).2 0 with h | h
    · exact .inl h
    · refine .inr (.inl ?_)
      have h4 := h3 h
      generalize shortest f.mag.1 = p at *
      calc p.1 * 5 ^ (p.2.toNat + 1) = 5 * (p.1 * 5 ^ p.2.toNat) := by rw [pow_succ]; ring
        _ ≤ 5 * (p.1 * 10 ^ p.2.toNat) := by
          exact Nat.mul_le_mul_left _ (Nat.mul_le_mul_left _ (Nat.pow_le_pow_left (by omega) _))
        _ < 2 ^ 53 := by omega

/-! ### Reading canonical texts -/

theorem isIntTok_natDec (n : Nat) (neg : Bool) : isIntTok ((if neg then [0x2d] else []) ++ natDec n) = true := by
  obtain ⟨h1, h2, -, h4, h5⟩ := natDec_spec n
  cases neg with
  | true => simp [isIntTok, h1]
  | false =>
    rw [if_neg (by simp), List.nil_append]
    cases h : natDec n with
    | nil => exact absurd h h5
    | cons b r =>
      have hb : b ≠ 0x2d := by simpa [h] using h4
      rw [h] at h1
      simp only [isIntTok, if_neg hb, h1]

/-- A text that stands for a number with digits after the point is no integer. -/
theorem not_int_of_means {t : Bytes} {n : Bool} {S : Nat} {x : Int} (h : TextMeans t n S x) (hx : x ≠ 0) :
    isIntTok t = false := by
  by_contra hc
  rw [Bool.not_eq_false] at hc
  obtain ⟨i, f, d, e, y, h1, h2, h3, h4, h5, h6⟩ := h
  have hall : (i ++ (f ++ e)).all isDigit = true := by
    have hi := intPart_head (r := f ++ e) h1
    cases n with
    | true =>
      have h4 : t = 0x2d :: (i ++ (f ++ e)) := by simpa using h4
      rw [h4] at hc
      simpa [isIntTok] using hc
    | false =>
      have h4 : t = i ++ (f ++ e) := by simpa using h4
      rw [h4] at hc
      obtain ⟨b, l, hb⟩ := List.exists_cons_of_ne_nil hi.2
      rw [hb, List.cons_append] at hc hi ⊢
      rw [isIntTok, if_neg (by simpa using hi.1)] at hc
      exact hc
  have hall := all_isDigit.mp hall
  have hf : f = [] ∧ d = [] := by
    rcases h2 with h | ⟨-, rfl⟩
    · exact h
    · exact absurd (hall 0x2e (by simp)) (by unfold Digit; decide)
  have he : e = [] := by
    rcases (expMeans_part h3).head with h | ⟨c, r, rfl, hc⟩
    · exact h
    · have := not_digit_of (.inr hc)
      rw [(isDigit_iff c).mpr (hall c (by simp))] at this
      cases this
  subst he
  have hy : y = 0 := by have := expMeans_val h3; simpa [expVal] using this.symm
  rw [hf.2, hy] at h6
  exact hx (by simpa using h6)

/-- The digits and the power of ten of serde_jcs's text. -/
theorem printEs_parts (f : F64) (h : 0 < f.mag.1) :
    ∃ z : Nat, TextMeans (printEs f) f.neg ((shortest f.mag.1).1 * 10 ^ z) ((shortest f.mag.1).2 - z) ∧
      (z = 0 ∧ (0 ≤ (shortest f.mag.1).2 → 21 < (natDec (shortest f.mag.1).1).length + (shortest f.mag.1).2) ∨
        0 ≤ (shortest f.mag.1).2 ∧ z = (shortest f.mag.1).2.toNat ∧
          printEs f = (if f.neg then [0x2d] else []) ++ natDec ((shortest f.mag.1).1 * 10 ^ z)) := by
  have hp := shortest_pos h
  unfold printEs
  rw [if_neg (by omega)]
  generalize shortest f.mag.1 = p at *
  obtain ⟨z, hz, hz'⟩ := es_means (natDec_digits p.1) (natDec_head hp) p.2
  rw [(natDec_spec p.1).2.1] at hz
  refine ⟨z, means_neg hz _, ?_⟩
  rcases hz' with h | ⟨h1, h2, rfl, h4⟩
  · exact .inl h
  · exact .inr ⟨h1, rfl, by rw [h4, natDec_mul_ten hp]⟩

/-- Whole numbers written without point are read as integers with the same text. -/
theorem reread_int (n : Nat) (neg : Bool) (hn : 0 < n) (hn' : n < 2 ^ 63) :
    ∃ m : Num F64, decNum parse ((if neg then [0x2d] else []) ++ natDec n) = some m ∧
      jcsNum m = (if neg then [0x2d] else []) ++ natDec n := by
  obtain ⟨h1, h2, h3, h4, h5⟩ := natDec_spec n
  have hi := isIntTok_natDec n neg
  cases neg with
  | true =>
    refine ⟨.neg ⟨n - 1, by omega⟩, ?_, ?_⟩
    · unfold decNum
      rw [if_pos hi, if_pos (by simp)]
      simp only [if_true, List.singleton_append, List.tail_cons, h2]
      rw [dif_pos (by omega)]
    · simp only [jcsNum, printNum, if_true, List.singleton_append]
      rw [show n - 1 + 1 = n by omega]
  | false =>
    refine ⟨.pos ⟨n, by omega⟩, ?_, ?_⟩
    · simp only [Bool.false_eq_true, if_false, List.nil_append] at hi ⊢
      unfold decNum
      rw [if_pos hi, if_neg h4]
      simp only [h2]
      rw [dif_pos (by omega)]
    · simp [jcsNum, printNum]

theorem es_negative {D : Nat} {e : Int} (hp : 0 < D) (h2 : 0 ≤ e → 21 < (natDec D).length + e)
    (hb : 0 ≤ e → D * 10 ^ e.toNat < 2 ^ 63) : e < 0 := by
  by_contra hc
  have a := h2 (by omega)
  have b := hb (by omega)
  obtain ⟨m, rfl⟩ : ∃ m : Nat, e = m := ⟨e.toNat, by omega⟩
  rw [Int.toNat_natCast] at b
  have hm : m < 21 := by
    by_contra hcc
    have c : 10 ^ 21 ≤ 10 ^ m := Nat.pow_le_pow_right (by omega) (by omega)
    have := Nat.le_mul_of_pos_left (10 ^ m) hp
    omega
  have hd : (natDec D).length ≤ 21 - m := by
    refine natDec_length ?_ (by omega)
    by_contra hcc
    have c : 10 ^ (21 - m) * 10 ^ m ≤ D * 10 ^ m := Nat.mul_le_mul_right _ (by omega)
    rw [← pow_add, show 21 - m + m = 21 by omega] at c
    omega
  omega

/-- A double below `2^63` that is read back from serde_json's text: its canonical text is read as a number with the
same canonical text. -/
theorem printEs_reread (f : F64) (hs : parse (print f) = some f)
    (hb : f.mag.1 ≠ 0 → 0 ≤ (shortest f.mag.1).2 → (shortest f.mag.1).1 * 10 ^ (shortest f.mag.1).2.toNat < 2 ^ 63) :
    ∃ m : Num F64, decNum parse (printEs f) = some m ∧ jcsNum m = printEs f := by
  rcases Nat.eq_zero_or_pos f.mag.1 with h | h
  · unfold printEs
    rw [if_pos h]
    exact ⟨.pos 0, rfl, rfl⟩
  · obtain ⟨z, h1, h2⟩ := printEs_parts f h
    have hl := printEs_length f
    have hl' := print_length f
    have hlt := shortest_lt h
    have hp := shortest_pos h
    have hexp := shortest_exp h f.mag.2
    have hb := hb (by omega)
    obtain ⟨S, x, p1, p2, z', p3, p4, p5, p6⟩ := print_means f
    rw [if_neg (by omega)] at p3
    have hx := p4 (by omega)
    clear p4 p5 p2
    generalize shortest f.mag.1 = p at *
    rcases h2 with ⟨rfl, h2⟩ | ⟨h2, h3, h4⟩
    · have hneg : p.2 < 0 := es_negative hp h2 hb
      have hz' : z' = 0 := by omega
      subst hz'
      rw [p3, hx] at p1
      have hS : p.1 * 10 ^ 0 < 2 ^ 64 := by omega
      refine ⟨.float f, ?_, rfl⟩
      have hni := not_int_of_means h1 (by omega)
      unfold decNum
      rw [hni, if_neg (by simp)]
      rw [parse_means h1 (by omega) hS (by omega), ← parse_means p1 (by omega) hS (by omega), hs]
      rfl
    · rw [h4]
      subst h3
      exact reread_int _ _ (Nat.mul_pos hp (by positivity)) (hb h2)

/-- Everyday decimals: the canonical text is read as a number with the same canonical text. -/
theorem everyday_reread (f : F64) {D x : Nat} (hD : D < 10 ^ 15) (hx : x ≤ 22) (hf : f.mag.1 = ofDec D (-(x : Int))) :
    ∃ m : Num F64, decNum parse (printEs f) = some m ∧ jcsNum m = printEs f := by
  refine printEs_reread f (everyday_survives f hD hx hf) ?_
  intro h0 he
  rcases Nat.eq_zero_or_pos D with rfl | hpos
  · rw [ofDec_zero] at hf
    omega
  · have := (shortest_everyday hD hx hpos hf).2.2.2 he
    omega

end Verif.Double
