import Verif.Concrete.DoubleDigits
import Verif.Lemmas.Reads
import Mathlib.Data.Nat.Digits.Lemmas

/-
The texts of doubles and how they are read: printed texts are number tokens that denote the double, and serde_json's way of
reading is exact for moderate numbers.
-/

namespace Verif.Spec
open Verif

/-- An exponent part and its value. -/
def ExpMeans (l : Bytes) (y : Int) : Prop :=
  (l = [] ∧ y = 0) ∨ ∃ c s d, (c = 0x65 ∨ c = 0x45) ∧ Digits d ∧ l = c :: (s ++ d) ∧
    ((s = [] ∨ s = [0x2b]) ∧ y = decimal d ∨ s = [0x2d] ∧ y = -(decimal d : Int))

/-- The number text (RFC 8259 §6) stands for `S * 10^x`, with a minus sign if `neg`. -/
def TextMeans (t : Bytes) (neg : Bool) (S : Nat) (x : Int) : Prop :=
  ∃ i f d e y, IntPart i ∧ (f = [] ∧ d = [] ∨ Digits d ∧ f = 0x2e :: d) ∧ ExpMeans e y ∧
    t = (if neg then [0x2d] else []) ++ (i ++ (f ++ e)) ∧ S = decimal (i ++ d) ∧ x = y - d.length

end Verif.Spec

namespace Verif.Double
open Verif Spec

attribute [local irreducible] one

/-! ### Digits -/

theorem decVal_append (a b : Bytes) : decVal (a ++ b) = decVal a * 10 ^ b.length + decVal b := by
  unfold decVal valBE
  rw [List.map_append, List.reverse_append, Nat.ofDigits_append, List.length_reverse, List.length_map]
  ring

theorem decVal_cons (b : UInt8) (l : Bytes) : decVal (b :: l) = (b.toNat - 0x30) * 10 ^ l.length + decVal l := by
  have := decVal_append [b] l
  rw [List.singleton_append] at this
  rw [this]
  simp [decVal, valBE]

theorem decVal_zeros (n : Nat) : decVal (List.replicate n 0x30) = 0 := by
  induction n with
  | zero => rfl
  | succ n ih => rw [List.replicate_succ, decVal_cons, ih]; simp

theorem decVal_lt {l : Bytes} (h : ∀ b ∈ l, Digit b) : decVal l < 10 ^ l.length := by
  induction l with
  | nil => simp [decVal, valBE]
  | cons b l ih =>
    have h1 := ih fun c hc => h c (by simp [hc])
    have h2 : b.toNat - 0x30 ≤ 9 := by
      have := (h b (by simp)).2
      have : b.toNat ≤ 0x39 := this
      omega
    rw [decVal_cons, List.length_cons, pow_succ]
    have := Nat.mul_le_mul_right (10 ^ l.length) h2
    omega

theorem digit_zero : Digit 0x30 := by unfold Digit; decide

theorem natDec_digits (n : Nat) : Digits (natDec n) := by
  obtain ⟨h1, -, -, -, h5⟩ := natDec_spec n
  exact ⟨h5, all_isDigit.mp h1⟩

theorem natDec_head {n : Nat} (h : 0 < n) : (natDec n).head? ≠ some 0x30 := by
  have hne : digitsBE 10 n ≠ [] := by
    simp [digitsBE, Nat.digits_ne_nil_iff_ne_zero]; omega
  have hhead := digitsBE_head 10 n hne
  have hlt := digitsBE_lt (b := 10) (by omega) n
  unfold natDec
  rw [if_neg (by omega)]
  obtain ⟨d, l, hdl⟩ := List.exists_cons_of_ne_nil hne
  simp only [hdl, List.head_cons] at hhead
  rw [hdl] at hlt ⊢
  have hd := hlt d (by simp)
  simp only [List.map_cons, List.head?_cons, ne_eq, Option.some.injEq]
  intro he
  have h2 : (byte (0x30 + d)).toNat = 0x30 + d := byte_toNat_of_lt (by omega)
  rw [he] at h2
  simp at h2
  omega

theorem natDec_int (n : Nat) : IntPart (natDec n) := by
  rcases Nat.eq_zero_or_pos n with rfl | h
  · exact .inl rfl
  · exact .inr ⟨natDec_digits n, natDec_head h⟩

theorem natDec_length {n m : Nat} (h : n < 10 ^ m) (hm : 0 < m) : (natDec n).length ≤ m := by
  unfold natDec
  split
  · exact hm
  · rw [List.length_map, digitsBE, List.length_reverse]
    exact (Nat.digits_length_le_iff (by omega) n).mpr h

theorem natDec_mul_ten {n : Nat} (h : 0 < n) (z : Nat) : natDec (n * 10 ^ z) = natDec n ++ List.replicate z 0x30 := by
  unfold natDec
  have hp : 0 < 10 ^ z := by positivity
  rw [if_neg (Nat.mul_pos h hp).ne', if_neg (by omega)]
  have : digitsBE 10 (n * 10 ^ z) = digitsBE 10 n ++ List.replicate z 0 := by
    unfold digitsBE
    rw [Nat.mul_comm, Nat.digits_base_pow_mul (by omega) h, List.reverse_append, List.reverse_replicate]
  rw [this, List.map_append, List.map_replicate]
  rfl

/-! ### Printed texts -/

theorem expText_means {plus : Bytes} (hp : plus = [] ∨ plus = [0x2b]) (x : Int) : ExpMeans (0x65 :: expText plus x) x := by
  obtain ⟨-, hv, -⟩ := natDec_spec x.natAbs
  rw [decVal_eq] at hv
  right
  unfold expText
  split
  · exact ⟨0x65, [0x2d], natDec x.natAbs, .inl rfl, natDec_digits _, rfl, .inr ⟨rfl, by rw [hv]; omega⟩⟩
  · exact ⟨0x65, plus, natDec x.natAbs, .inl rfl, natDec_digits _, rfl, .inl ⟨hp, by rw [hv]; omega⟩⟩

theorem take_int {ds : Bytes} (hd : Digits ds) (h0 : ds.head? ≠ some 0x30) {n : Nat} (hn : 0 < n) : IntPart (ds.take n) := by
  obtain ⟨b, l, rfl⟩ := List.exists_cons_of_ne_nil hd.1
  obtain ⟨m, rfl⟩ : ∃ m, n = m + 1 := ⟨n - 1, by omega⟩
  refine .inr ⟨⟨by simp, fun c hc => hd.2 c (List.mem_of_mem_take hc)⟩, ?_⟩
  simpa using h0

theorem sci_means {plus ds : Bytes} (hp : plus = [] ∨ plus = [0x2b]) (hd : Digits ds) (h0 : ds.head? ≠ some 0x30) (e : Int) :
    TextMeans (sciText plus ds (ds.length + e - 1)) false (decVal ds) e := by
  have hl : 0 < ds.length := List.length_pos_iff.mpr hd.1
  refine ⟨ds.take 1, if ds.length = 1 then [] else 0x2e :: ds.drop 1, ds.drop 1, _, _, take_int hd h0 (by omega), ?_,
    expText_means hp (ds.length + e - 1), ?_, ?_, ?_⟩
  · split
    · rename_i h1
      exact .inl ⟨rfl, List.drop_eq_nil_of_le (by omega)⟩
    · refine .inr ⟨⟨?_, fun c hc => hd.2 c (List.mem_of_mem_drop hc)⟩, rfl⟩
      intro hc
      have := List.drop_eq_nil_iff.mp hc
      omega
  · simp [sciText]
  · rw [List.take_append_drop, decVal_eq]
  · rw [List.length_drop]
    omega

theorem point_means {ds : Bytes} (hd : Digits ds) (h0 : ds.head? ≠ some 0x30) {e : Int} (he : e < 0)
    (hk : 0 < ds.length + e) :
    TextMeans (ds.take (ds.length + e).toNat ++ 0x2e :: ds.drop (ds.length + e).toNat) false (decVal ds) e := by
  refine ⟨_, _, ds.drop (ds.length + e).toNat, [], 0, take_int hd h0 (n := (ds.length + e).toNat) (by omega),
    .inr ⟨⟨?_, fun c hc => hd.2 c (List.mem_of_mem_drop hc)⟩, rfl⟩, .inl ⟨rfl, rfl⟩, ?_, ?_, ?_⟩
  · intro hc
    have := List.drop_eq_nil_iff.mp hc
    omega
  · simp
  · rw [List.take_append_drop, decVal_eq]
  · rw [List.length_drop]
    omega

theorem small_means {ds : Bytes} (hd : Digits ds) {e : Int} (hk : ds.length + e ≤ 0) :
    TextMeans ([0x30, 0x2e] ++ List.replicate (-(ds.length + e)).toNat 0x30 ++ ds) false (decVal ds) e := by
  refine ⟨[0x30], 0x2e :: (List.replicate (-(ds.length + e)).toNat 0x30 ++ ds),
    List.replicate (-(ds.length + e)).toNat 0x30 ++ ds, [], 0, .inl rfl, .inr ⟨⟨?_, ?_⟩, rfl⟩, .inl ⟨rfl, rfl⟩, ?_, ?_, ?_⟩
  · simp [hd.1]
  · intro c hc
    rcases List.mem_append.mp hc with h | h
    · rw [List.eq_of_mem_replicate h]; exact digit_zero
    · exact hd.2 c h
  · simp
  · rw [← decVal_eq, decVal_append, decVal_append, decVal_zeros]
    simp [decVal, valBE]
  · simp only [List.length_append, List.length_replicate]
    omega

theorem ryu_means {ds : Bytes} (hd : Digits ds) (h0 : ds.head? ≠ some 0x30) (e : Int) :
    ∃ z : Nat, TextMeans (ryuText ds e) false (decVal ds * 10 ^ z) (e - z) ∧
      (z = 0 ∨ 0 ≤ e ∧ ds.length + e ≤ 16 ∧ z = e.toNat + 1) := by
  unfold ryuText
  simp only
  split
  · rename_i h
    refine ⟨e.toNat + 1, ⟨ds ++ List.replicate e.toNat 0x30, [0x2e, 0x30], [0x30], [], 0, ?_, .inr ⟨⟨by simp, ?_⟩, rfl⟩,
      .inl ⟨rfl, rfl⟩, by simp, ?_, ?_⟩, .inr ⟨h.1, h.2, rfl⟩⟩
    · refine .inr ⟨⟨by simp [hd.1], ?_⟩, ?_⟩
      · intro c hc
        rcases List.mem_append.mp hc with h | h
        · exact hd.2 c h
        · rw [List.eq_of_mem_replicate h]; exact digit_zero
      · obtain ⟨b, l, rfl⟩ := List.exists_cons_of_ne_nil hd.1
        simpa using h0
    · intro c hc
      simp only [List.mem_singleton] at hc
      rw [hc]; exact digit_zero
    · rw [← decVal_eq, List.append_assoc, decVal_append, decVal_append, decVal_zeros]
      simp [decVal, valBE]
    · simp only [List.length_singleton]
      omega
  · rename_i hA
    refine ⟨0, ?_, .inl rfl⟩
    simp only [pow_zero, Nat.mul_one, Nat.cast_zero, Int.sub_zero]
    split
    · rename_i h
      refine point_means hd h0 ?_ h.1
      by_contra hc
      exact hA ⟨by omega, h.2⟩
    · split
      · rename_i h
        exact small_means hd h.2
      · exact sci_means (.inl rfl) hd h0 e

theorem es_means {ds : Bytes} (hd : Digits ds) (h0 : ds.head? ≠ some 0x30) (e : Int) :
    ∃ z : Nat, TextMeans (esText ds e) false (decVal ds * 10 ^ z) (e - z) ∧
      (z = 0 ∧ (0 ≤ e → 21 < ds.length + e) ∨
        0 ≤ e ∧ ds.length + e ≤ 21 ∧ z = e.toNat ∧ esText ds e = ds ++ List.replicate e.toNat 0x30) := by
  unfold esText
  simp only
  split
  · rename_i h
    refine ⟨e.toNat, ⟨ds ++ List.replicate e.toNat 0x30, [], [], [], 0, ?_, .inl ⟨rfl, rfl⟩,
      .inl ⟨rfl, rfl⟩, by simp, ?_, ?_⟩, .inr ⟨h.1, h.2, rfl, rfl⟩⟩
    · refine .inr ⟨⟨by simp [hd.1], ?_⟩, ?_⟩
      · intro c hc
        rcases List.mem_append.mp hc with h | h
        · exact hd.2 c h
        · rw [List.eq_of_mem_replicate h]; exact digit_zero
      · obtain ⟨b, l, rfl⟩ := List.exists_cons_of_ne_nil hd.1
        simpa using h0
    · rw [← decVal_eq, List.append_nil, decVal_append, decVal_zeros, List.length_replicate, Nat.add_zero]
    · simp only [List.length_nil]
      omega
  · rename_i hA
    refine ⟨0, ?_, .inl ⟨rfl, fun he => by omega⟩⟩
    simp only [pow_zero, Nat.mul_one, Nat.cast_zero, Int.sub_zero]
    split
    · rename_i h
      refine point_means hd h0 ?_ h.1
      by_contra hc
      exact hA ⟨by omega, h.2⟩
    · split
      · rename_i h
        exact small_means hd h.2
      · exact sci_means (.inr rfl) hd h0 e

theorem means_neg {t : Bytes} {S : Nat} {x : Int} (h : TextMeans t false S x) (n : Bool) :
    TextMeans ((if n then [0x2d] else []) ++ t) n S x := by
  obtain ⟨i, f, d, e, y, h1, h2, h3, rfl, h5, h6⟩ := h
  exact ⟨i, f, d, e, y, h1, h2, h3, by simp, h5, h6⟩

theorem means_text {t : Bytes} {n : Bool} {S : Nat} {x : Int} (h : TextMeans t n S x) : NumberText t := by
  obtain ⟨i, f, d, e, y, h1, h2, h3, h4, -, -⟩ := h
  refine ⟨if n then [0x2d] else [], i, f, e, by cases n <;> simp, h1, ?_, ?_, h4⟩
  · rcases h2 with ⟨h, -⟩ | ⟨h, h'⟩
    · exact .inl h
    · exact .inr ⟨d, h, h'⟩
  · rcases h3 with ⟨h, -⟩ | ⟨c, s, d, hc, hd, he, hs⟩
    · exact .inl h
    · refine .inr ⟨c, s, d, hc, ?_, hd, he⟩
      rcases hs with ⟨h | h, -⟩ | ⟨h, -⟩ <;> simp [h]

theorem means_tok {t : Bytes} {n : Bool} {S : Nat} {x : Int} (h : TextMeans t n S x) : IsNumTok t :=
  isNumTok_of_text (means_text h)

/-- What the text of serde_json stands for: the double is the nearest one. -/
theorem print_means (f : F64) : ∃ S x, TextMeans (print f) f.neg S x ∧ ofDec S x = f.mag.1 ∧
    ∃ z : Nat, S = (if f.mag.1 = 0 then 0 else (shortest f.mag.1).1 * 10 ^ z) ∧
      (f.mag.1 ≠ 0 → x = (shortest f.mag.1).2 - z) ∧ (f.mag.1 = 0 → x = -1) ∧
      (z = 0 ∨ 0 ≤ (shortest f.mag.1).2 ∧ (natDec (shortest f.mag.1).1).length + (shortest f.mag.1).2 ≤ 16 ∧
        z = (shortest f.mag.1).2.toNat + 1) := by
  unfold print
  rcases Nat.eq_zero_or_pos f.mag.1 with h | h
  · simp only [if_pos h]
    refine ⟨0, -1, means_neg ⟨[0x30], [0x2e, 0x30], [0x30], [], 0, .inl rfl, .inr ⟨⟨by simp, ?_⟩, rfl⟩,
      .inl ⟨rfl, rfl⟩, rfl, rfl, rfl⟩ _, by rw [ofDec_zero, h], 0, rfl, fun hc => absurd h hc, fun _ => rfl, .inl rfl⟩
    intro c hc
    simp only [List.mem_singleton] at hc
    rw [hc]; exact digit_zero
  · simp only [if_neg (show f.mag.1 ≠ 0 by omega)]
    obtain ⟨s1, s2⟩ := shortest_spec h
    generalize shortest f.mag.1 = p at *
    have hp : 0 < p.1 := by
      rcases Nat.eq_zero_or_pos p.1 with h | h
      · rw [h] at s2; simp at s2
      · exact h
    obtain ⟨z, hz, hz'⟩ := ryu_means (natDec_digits p.1) (natDec_head hp) p.2
    rw [(natDec_spec p.1).2.1] at hz
    refine ⟨_, _, means_neg hz _, ?_, z, rfl, fun _ => rfl, fun hc => absurd hc (by omega), hz'⟩
    rw [ofDec_shift, Int.sub_add_cancel]
    exact s1

/-- What the text of serde_jcs stands for: the double is the nearest one; the sign of zero is lost. -/
theorem printEs_means (f : F64) : ∃ S x, TextMeans (printEs f) (f.neg && decide (f.mag.1 ≠ 0)) S x ∧ ofDec S x = f.mag.1 := by
  unfold printEs
  rcases Nat.eq_zero_or_pos f.mag.1 with h | h
  · simp only [if_pos h]
    refine ⟨0, 0, ⟨[0x30], [], [], [], 0, .inl rfl, .inl ⟨rfl, rfl⟩, .inl ⟨rfl, rfl⟩, ?_, rfl, rfl⟩, by rw [ofDec_zero, h]⟩
    simp [h]
  · have hne : f.mag.1 ≠ 0 := by omega
    simp only [ne_eq, hne, not_false_eq_true, decide_true, Bool.and_true]
    obtain ⟨s1, s2⟩ := shortest_spec h
    generalize shortest f.mag.1 = p at *
    have hp : 0 < p.1 := by
      rcases Nat.eq_zero_or_pos p.1 with h | h
      · rw [h] at s2; simp at s2
      · exact h
    obtain ⟨z, hz, -⟩ := es_means (natDec_digits p.1) (natDec_head hp) p.2
    rw [(natDec_spec p.1).2.1] at hz
    refine ⟨_, _, means_neg hz _, ?_⟩
    rw [ofDec_shift, Int.sub_add_cancel]
    exact s1

/-! ### The meaning of a text is unique -/

theorem expMeans_part {e : Bytes} {y : Int} (h : ExpMeans e y) : ExpPart e := by
  rcases h with ⟨h, -⟩ | ⟨c, s, d, hc, hd, he, hs⟩
  · exact .inl h
  · refine .inr ⟨c, s, d, hc, ?_, hd, he⟩
    rcases hs with ⟨h | h, -⟩ | ⟨h, -⟩ <;> simp [h]

theorem scanSign_digits {d : Bytes} (hd : Digits d) : scanSign d = ([], d) := by
  obtain ⟨b, l, rfl⟩ := List.exists_cons_of_ne_nil hd.1
  have h := hd.2 b (by simp)
  have : ¬ (b = 0x2b ∨ b = 0x2d) := by
    unfold Digit at h
    rintro (rfl | rfl) <;> revert h <;> decide
  simp [scanSign, this]

/-- The value of an exponent part, computed. -/
def expVal : Bytes → Int
  | [] => 0
  | _ :: r => if (scanSign r).1 = [0x2d] then -(decVal (spanDigits (scanSign r).2).1 : Int)
    else decVal (spanDigits (scanSign r).2).1

theorem expMeans_val {e : Bytes} {y : Int} (h : ExpMeans e y) : expVal e = y := by
  rcases h with ⟨rfl, rfl⟩ | ⟨c, s, d, hc, hd, rfl, hs⟩
  · rfl
  · unfold expVal
    rcases hs with ⟨rfl | rfl, rfl⟩ | ⟨rfl, rfl⟩
    · simp [scanSign_digits hd, spanDigits_all hd.2, decVal_eq]
    · simp [scanSign, spanDigits_all hd.2, decVal_eq]
    · simp [scanSign, spanDigits_all hd.2, decVal_eq]

/-- The parts of a number without sign. -/
theorem unsigned_unique {i f d e i' f' d' e' : Bytes} (hi : IntPart i) (hf : f = [] ∧ d = [] ∨ Digits d ∧ f = 0x2e :: d)
    (he : ExpPart e) (hi' : IntPart i') (hf' : f' = [] ∧ d' = [] ∨ Digits d' ∧ f' = 0x2e :: d') (he' : ExpPart e')
    (h : i ++ (f ++ e) = i' ++ (f' ++ e')) : i = i' ∧ d = d' ∧ e = e' := by
  have frac : ∀ {f d : Bytes}, f = [] ∧ d = [] ∨ Digits d ∧ f = 0x2e :: d → FracPart f := by
    intro f d h
    rcases h with ⟨h, -⟩ | ⟨h, h'⟩
    · exact .inl h
    · exact .inr ⟨d, h, h'⟩
  have a := scanInt_text hi (fracExp_head (frac hf) he)
  have b := scanInt_text hi' (fracExp_head (frac hf') he')
  rw [h, b] at a
  injection a with a
  injection a with a1 a2
  have c := scanFrac_text (frac hf) he
  have c' := scanFrac_text (frac hf') he'
  rw [← a2, c'] at c
  injection c with c
  injection c with c1 c2
  refine ⟨a1.symm, ?_, c2.symm⟩
  rcases hf with ⟨rfl, rfl⟩ | ⟨-, rfl⟩
  · rcases hf' with ⟨-, rfl⟩ | ⟨-, rfl⟩
    · rfl
    · cases c1
  · rcases hf' with ⟨rfl, -⟩ | ⟨-, rfl⟩
    · cases c1
    · injection c1 with _ c1
      exact c1.symm

theorem intPart_head {i r : Bytes} (h : IntPart i) : (i ++ r).head? ≠ some 0x2d ∧ i ≠ [] := by
  rcases h with rfl | ⟨hd, -⟩
  · exact ⟨by simp, by simp⟩
  · obtain ⟨b, l, rfl⟩ := List.exists_cons_of_ne_nil hd.1
    have := hd.2 b (by simp)
    refine ⟨?_, by simp⟩
    simp only [List.cons_append, List.head?_cons, ne_eq, Option.some.injEq]
    rintro rfl
    exact not_digit_minus this

/-- A text has at most one meaning. -/
theorem means_unique {t : Bytes} {n n' : Bool} {S S' : Nat} {x x' : Int} (h : TextMeans t n S x) (h' : TextMeans t n' S' x') :
    n = n' ∧ S = S' ∧ x = x' := by
  obtain ⟨i, f, d, e, y, h1, h2, h3, h4, h5, h6⟩ := h
  obtain ⟨i', f', d', e', y', h1', h2', h3', h4', h5', h6'⟩ := h'
  have hn : n = n' := by
    rw [h4'] at h4
    have a := (intPart_head (r := f ++ e) h1).1
    have a' := (intPart_head (r := f' ++ e') h1').1
    cases n <;> cases n'
    · rfl
    · exfalso
      simp only [Bool.false_eq_true, if_false, if_true, List.nil_append] at h4
      rw [← h4] at a
      exact a rfl
    · exfalso
      simp only [Bool.false_eq_true, if_false, if_true, List.nil_append] at h4
      rw [h4] at a'
      exact a' rfl
    · rfl
  subst hn
  have hu : i ++ (f ++ e) = i' ++ (f' ++ e') := List.append_cancel_left (h4.symm.trans h4')
  obtain ⟨rfl, rfl, rfl⟩ := unsigned_unique h1 h2 (expMeans_part h3) h1' h2' (expMeans_part h3') hu
  refine ⟨rfl, by rw [h5, h5'], ?_⟩
  rw [h6, h6', ← expMeans_val h3, ← expMeans_val h3']

/-! ### Exact arithmetic -/

theorem one_eq : one = 2 ^ 1074 := by unfold one; rfl

/-- Whole numbers with at most 53 significant bits are doubles. -/
theorem round_nat {a b : Nat} (ha : a < 2 ^ 53) : units (round (a * 2 ^ b) 1) = a * 2 ^ b * one := by
  have key : ∃ k, a * 2 ^ b * one = units k * 1 := by
    rcases Nat.eq_zero_or_pos a with rfl | h0
    · exact ⟨0, by simp [units_zero]⟩
    · have hb := log2_bounds (n := a) (by omega)
      generalize Nat.log2 a = l at hb
      have hl : l ≤ 52 := by
        by_contra hc
        have : 2 ^ 53 ≤ 2 ^ l := Nat.pow_le_pow_right (by omega) (by omega)
        omega
      refine ⟨(b + 1022 + l) * 2 ^ 52 + a * 2 ^ (52 - l), ?_⟩
      have h1 : 2 ^ 52 ≤ a * 2 ^ (52 - l) := by
        calc 2 ^ 52 = 2 ^ l * 2 ^ (52 - l) := by rw [← pow_add]; congr 1; omega
          _ ≤ a * 2 ^ (52 - l) := Nat.mul_le_mul_right _ hb.1
      have h2 : a * 2 ^ (52 - l) ≤ 2 ^ 53 := by
        calc a * 2 ^ (52 - l) ≤ 2 ^ (l + 1) * 2 ^ (52 - l) := Nat.mul_le_mul_right _ hb.2.le
          _ = 2 ^ 53 := by rw [← pow_add]; congr 1; omega
      rw [units_index h2 (.inr h1), one_eq, Nat.mul_one, Nat.mul_assoc, Nat.mul_assoc, ← pow_add, ← pow_add]
      congr 2
      omega
  obtain ⟨k, hk⟩ := key
  rw [round_exact (by omega) hk]
  rw [hk, Nat.mul_one]

theorem round_ten {e : Nat} (h : e ≤ 22) : units (round (10 ^ e) 1) = 10 ^ e * one := by
  have : 10 ^ e = 5 ^ e * 2 ^ e := by rw [← Nat.mul_pow]
  rw [this]
  refine round_nat (lt_of_le_of_lt (Nat.pow_le_pow_right (by omega) h) (by decide +kernel))

/-- Multiplying or dividing by a power of ten up to `10^22` once is exact. -/
theorem scale_exact {S : Nat} {x : Int} (hS : units (round S 1) = S * one) (h64 : S < 2 ^ 64) (hx : x.natAbs ≤ 22) :
    scale 4 (round S 1) x = some (ofDec S x) ∧ ofDec S x < top := by
  have hmul : ∀ m : Nat, m ≤ 22 → mul (round S 1) (round (10 ^ m) 1) = round (S * 10 ^ m) 1 := by
    intro m hm
    unfold mul
    rw [hS, round_ten hm]
    have : S * one * (10 ^ m * one) = (one * one) * (S * 10 ^ m) := by ring
    rw [this]
    have := round_scale (c := one * one) (Nat.mul_pos one_pos one_pos) (S * 10 ^ m) 1
    rw [Nat.mul_one] at this
    exact this
  have hdiv : ∀ m : Nat, m ≤ 22 → div (round S 1) (round (10 ^ m) 1) = round S (10 ^ m) := by
    intro m hm
    unfold div
    rw [hS, round_ten hm, Nat.mul_comm S, Nat.mul_comm (10 ^ m)]
    exact round_scale one_pos S (10 ^ m)
  have htop : ofDec S x < top := by
    have hbig : round (2 ^ 64 * 10 ^ 22) 1 < top := by decide +kernel
    refine lt_of_le_of_lt ?_ hbig
    unfold ofDec
    refine round_mono (by positivity) (by omega) ?_
    have h1 : S * 10 ^ x.toNat ≤ 2 ^ 64 * 10 ^ 22 :=
      Nat.mul_le_mul h64.le (Nat.pow_le_pow_right (by omega) (by omega))
    have h2 : ((S * 10 ^ x.toNat : Nat) : ℚ) ≤ ((2 ^ 64 * 10 ^ 22 : Nat) : ℚ) := by exact_mod_cast h1
    have h3 : (1 : ℚ) ≤ ((10 ^ (-x).toNat : Nat) : ℚ) := by exact_mod_cast Nat.one_le_pow _ _ (by omega)
    rw [Nat.cast_one, div_one]
    refine le_trans ?_ h2
    exact div_le_self (by positivity) h3
  refine ⟨?_, htop⟩
  rw [scale]
  rw [if_pos (by omega)]
  rcases le_or_gt 0 x with h | h
  · rw [if_pos h, hmul _ hx]
    have e : round (S * 10 ^ x.natAbs) 1 = ofDec S x := by
      unfold ofDec
      rw [show (-x).toNat = 0 by omega, show x.toNat = x.natAbs by omega, pow_zero]
    rw [e, if_pos htop]
  · rw [if_neg (by omega), hdiv _ hx]
    unfold ofDec
    rw [show (-x).toNat = x.natAbs by omega, show x.toNat = 0 by omega, pow_zero, Nat.mul_one]

/-! ### Reading -/

theorem readInt_fits (ds : Bytes) (s : Nat) (h : s * 10 ^ ds.length + decVal ds < 2 ^ 64) :
    readInt ds s = (s * 10 ^ ds.length + decVal ds, 0) := by
  induction ds generalizing s with
  | nil => simp [readInt, decVal, valBE]
  | cons b l ih =>
    rw [decVal_cons, List.length_cons, pow_succ] at h ⊢
    have hp : 1 ≤ 10 ^ l.length := Nat.one_le_pow _ _ (by omega)
    have e : s * (10 ^ l.length * 10) + ((b.toNat - 0x30) * 10 ^ l.length + decVal l) =
        (s * 10 + (b.toNat - 0x30)) * 10 ^ l.length + decVal l := by ring
    rw [e] at h ⊢
    have : s * 10 + (b.toNat - 0x30) < 2 ^ 64 := by
      have := Nat.le_mul_of_pos_right (s * 10 + (b.toNat - 0x30)) hp
      omega
    rw [readInt, if_pos this, ih _ h]

theorem readFrac_fits (ds : Bytes) (s : Nat) (x : Int) (h : s * 10 ^ ds.length + decVal ds < 2 ^ 64) :
    readFrac ds s x = (s * 10 ^ ds.length + decVal ds, x - ds.length) := by
  induction ds generalizing s x with
  | nil => simp [readFrac, decVal, valBE]
  | cons b l ih =>
    rw [decVal_cons, List.length_cons, pow_succ] at h ⊢
    have hp : 1 ≤ 10 ^ l.length := Nat.one_le_pow _ _ (by omega)
    have e : s * (10 ^ l.length * 10) + ((b.toNat - 0x30) * 10 ^ l.length + decVal l) =
        (s * 10 + (b.toNat - 0x30)) * 10 ^ l.length + decVal l := by ring
    rw [e] at h ⊢
    have : s * 10 + (b.toNat - 0x30) < 2 ^ 64 := by
      have := Nat.le_mul_of_pos_right (s * 10 + (b.toNat - 0x30)) hp
      omega
    rw [readFrac, if_pos this, ih _ _ h]
    congr 1
    push_cast
    omega

theorem readExp_eq {e : Bytes} {y : Int} (he : ExpMeans e y) (S : Nat) (x : Int) (hy : y.natAbs < 2 ^ 31)
    (hx : (x + y).natAbs < 2 ^ 31) : readExp e S x = scale 4 (round S 1) (x + y) := by
  rcases he with ⟨rfl, rfl⟩ | ⟨c, s, d, hc, hd, rfl, hs⟩
  · simp [readExp]
  · unfold readExp
    rcases hs with ⟨rfl | rfl, rfl⟩ | ⟨rfl, rfl⟩
    · simp only [List.nil_append, scanSign_digits hd, spanDigits_all hd.2, decVal_eq]
      rw [if_neg (by simp), if_pos (by omega), min_eq_left (by omega)]
    · simp only [List.cons_append, List.nil_append, scanSign, spanDigits_all hd.2, decVal_eq, true_or, if_true]
      rw [if_neg (by simp), if_pos (by omega), min_eq_left (by omega)]
    · simp only [List.cons_append, List.nil_append, scanSign, spanDigits_all hd.2, decVal_eq, or_true, if_true]
      rw [if_pos (by omega), max_eq_left (by omega)]
      congr 1

/-- The double made of a magnitude that was read. -/
def finish (n : Bool) : Option Nat → Option F64
  | some k => if h : k < top then some ⟨n, k, h⟩ else none
  | none => none

/-- How a text is read depends only on what it stands for, if the digits fit in `u64`. -/
theorem parse_means {t : Bytes} {n : Bool} {S : Nat} {x : Int} (h : TextMeans t n S x) (ht : t.length < 2 ^ 30)
    (h64 : S < 2 ^ 64) (hx : x.natAbs < 2 ^ 30) : parse t = finish n (scale 4 (round S 1) x) := by
  obtain ⟨i, f, d, e, y, h1, h2, h3, h4, h5, h6⟩ := h
  have hlen : d.length < 2 ^ 30 := by
    rw [h4] at ht
    rcases h2 with ⟨-, rfl⟩ | ⟨-, rfl⟩
    · simp
    · simp only [List.length_append, List.length_cons] at ht
      omega
  have hread : readMag (i ++ (f ++ e)) = scale 4 (round S 1) x := by
    have hfp : FracPart f := by
      rcases h2 with ⟨h, -⟩ | ⟨h, h'⟩
      · exact .inl h
      · exact .inr ⟨d, h, h'⟩
    have hid : ∀ b ∈ i, Digit b := by
      rcases h1 with rfl | ⟨h, -⟩
      · intro b hb; simp only [List.mem_singleton] at hb; rw [hb]; exact digit_zero
      · exact h.2
    have hspan := spanDigits_stop hid (fracExp_head hfp (expMeans_part h3))
    rw [← decVal_eq, decVal_append] at h5
    have hi0 : decVal i < 2 ^ 64 := by
      have hp : 1 ≤ 10 ^ d.length := Nat.one_le_pow _ _ (by omega)
      have := Nat.le_mul_of_pos_right (decVal i) hp
      omega
    have hri : readInt i 0 = (decVal i, 0) := by
      have := readInt_fits i 0 (by omega)
      rw [this]
      simp
    unfold readMag
    simp only [hspan, hri]
    rcases h2 with ⟨rfl, rfl⟩ | ⟨hd, rfl⟩
    · simp only [List.length_nil, pow_zero, Nat.mul_one] at h5
      have h5 : S = decVal i := by rw [h5]; simp [decVal, valBE]
      have h6 : x = y := by rw [h6]; simp
      simp only [List.nil_append]
      cases he : e with
      | nil =>
        rw [he] at h3
        have hy : y = 0 := by have := expMeans_val h3; simpa [expVal] using this.symm
        rw [← h5, h6, hy]
      | cons c r =>
        have hc : c ≠ 0x2e := by
          rcases (expMeans_part h3).head with h | ⟨c', r', h, hc⟩
          · rw [he] at h; cases h
          · rw [he] at h
            injection h with h _
            subst h
            rintro rfl
            revert hc; decide
        simp only [if_neg hc]
        rw [← he, readExp_eq h3 _ _ (by omega) (by omega), ← h5, h6]
        congr 1
        omega
    · simp only [List.cons_append, if_true]
      rw [spanDigits_stop hd.2 (by
        intro b t hb
        rcases (expMeans_part h3).head with h | ⟨c', r', h, hc⟩
        · rw [h] at hb; cases hb
        · rw [h] at hb
          injection hb with hb _
          subst hb
          exact not_digit_of (.inr hc))]
      simp only
      rw [readFrac_fits d _ _ (by rw [← h5]; exact h64)]
      simp only
      rw [readExp_eq h3 _ _ (by omega) (by omega), ← h5]
      congr 1
      omega
  unfold parse
  have hhead := (intPart_head (r := f ++ e) h1).1
  cases n with
  | false =>
    have h4 : t = i ++ (f ++ e) := by simpa using h4
    simp only [h4, hhead, if_false, hread]
    generalize scale 4 (round S 1) x = o
    cases o <;> simp [finish]
  | true =>
    have h4 : t = 0x2d :: (i ++ (f ++ e)) := by simpa using h4
    simp only [h4, List.head?_cons, if_true, List.tail_cons, hread]
    generalize scale 4 (round S 1) x = o
    cases o <;> simp [finish]

/-- Reading is exact if the digits are a double (for example below `2^53`) and the exponent of the last digit is at most 22
in magnitude. -/
theorem parse_exact {t : Bytes} {n : Bool} {S : Nat} {x : Int} (h : TextMeans t n S x) (ht : t.length < 2 ^ 30)
    (hS : units (round S 1) = S * one) (h64 : S < 2 ^ 64) (hx : x.natAbs ≤ 22) :
    ∃ f : F64, parse t = some f ∧ f.neg = n ∧ f.mag.1 = ofDec S x := by
  obtain ⟨hs1, hs2⟩ := scale_exact hS h64 hx
  refine ⟨⟨n, ofDec S x, hs2⟩, ?_, rfl, rfl⟩
  rw [parse_means h ht h64 (by omega), hs1]
  exact dif_pos hs2

end Verif.Double
