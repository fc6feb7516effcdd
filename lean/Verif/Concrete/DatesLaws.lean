import Verif.Concrete.Dates
import Mathlib.Tactic.IntervalCases
import Mathlib.Data.List.Induction
import Mathlib.Data.List.TakeWhile

/-
What `Verif/Concrete/Dates.lean` computes: the program accepts exactly the texts of the grammar.
-/

namespace Verif.Chrono
open Verif Spec

theorem char_eq (c k : Char) : c = k ↔ c.toNat = k.toNat :=
  ⟨fun h => by rw [h], fun h => Char.ext (UInt32.toNat_inj.mp h)⟩

theorem char_le (c k : Char) : c ≤ k ↔ c.toNat ≤ k.toNat := Iff.rfl

theorem isWhite_iff (c : Char) : isWhite c = true ↔ c.toNat ∈ whites := by
  simp only [isWhite, Bool.or_eq_true, Bool.and_eq_true, beq_iff_eq, decide_eq_true_eq, char_eq, char_le, whites, List.mem_cons,
    List.not_mem_nil, or_false, Char.reduceToNat]
  omega

theorem isDigit_iff (c : Char) : isDigit c = true ↔ 48 ≤ c.toNat ∧ c.toNat ≤ 57 := by
  simp only [isDigit, Bool.and_eq_true, decide_eq_true_eq, char_le, Char.reduceToNat]

theorem digit_not_white {c : Char} (h : isDigit c = true) : isWhite c = false := by
  rw [Bool.eq_false_iff, Ne, isWhite_iff]
  have := (isDigit_iff c).mp h
  simp only [whites, List.mem_cons, List.not_mem_nil, or_false]
  omega

/-- The text does not start with a character of the class. -/
def Stops (p : Char → Bool) (s : Str) : Prop := ∀ c r, s = c :: r → p c = false

theorem Stops.cons {p : Char → Bool} {c : Char} {r : Str} (h : p c = false) : Stops p (c :: r) := by
  intro c' r' e; cases e; exact h

theorem Stops.nil {p : Char → Bool} : Stops p [] := fun _ _ h => nomatch h

theorem dropWhile_app {p : Char → Bool} {w x : Str} (hw : ∀ c ∈ w, p c = true) (hx : Stops p x) : (w ++ x).dropWhile p = x := by
  rw [List.dropWhile_append_of_pos hw]
  cases x with
  | nil => rfl
  | cons c r => rw [List.dropWhile_cons_of_neg (by rw [hx c r rfl]; decide)]

theorem takeWhile_app {p : Char → Bool} {w x : Str} (hw : ∀ c ∈ w, p c = true) (hx : Stops p x) : (w ++ x).takeWhile p = w := by
  rw [List.takeWhile_append_of_pos hw]
  cases x with
  | nil => simp
  | cons c r => rw [List.takeWhile_cons_of_neg (by rw [hx c r rfl]; decide), List.append_nil]

theorem white_iff (w : Str) : Blank w ↔ ∀ c ∈ w, isWhite c = true :=
  forall_congr' fun c => forall_congr' fun _ => (isWhite_iff c).symm

theorem trim_app {w x : Str} (hw : Blank w) (hx : Stops isWhite x) : trimStart (w ++ x) = x :=
  dropWhile_app ((white_iff w).mp hw) hx

theorem trim_split (s : Str) : ∃ w, Blank w ∧ s = w ++ trimStart s ∧ Stops isWhite (trimStart s) := by
  refine ⟨s.takeWhile isWhite, (white_iff _).mpr fun c hc => (List.mem_takeWhile_imp hc), (List.takeWhile_append_dropWhile).symm, ?_⟩
  intro c r h
  have := List.head?_dropWhile_not (p := isWhite) s
  rw [show s.dropWhile isWhite = c :: r from h] at this
  simpa using this

theorem blank_nil : Blank [] := fun _ h => nomatch h

theorem blank_append {a b : Str} (ha : Blank a) (hb : Blank b) : Blank (a ++ b) := by
  intro c hc
  rcases List.mem_append.mp hc with h | h
  · exact ha c h
  · exact hb c h

theorem value_eq (d : Str) : d.foldl (fun n c => n * 10 + (c.toNat - 48)) 0 = Nat.ofDigits 10 (d.reverse.map fun c => c.toNat - 48) := by
  induction d using List.reverseRecOn with
  | nil => rfl
  | append_singleton d c ih =>
    rw [List.foldl_append, ih, List.reverse_append]
    simp only [List.foldl_cons, List.foldl_nil, List.reverse_cons, List.reverse_nil, List.nil_append, List.cons_append, List.map_cons,
      Nat.ofDigits_cons]
    ring_nf

theorem digits_iff (d : Str) : Decimals d ↔ ∀ c ∈ d, isDigit c = true :=
  forall_congr' fun c => forall_congr' fun _ => (isDigit_iff c).symm

theorem number_split {k n : Nat} {s r : Str} (h : number k s = some (n, r)) : ∃ d, s = d ++ r ∧ Numeral k n d := by
  have hp : (s.take k).takeWhile isDigit <+: s := (List.takeWhile_prefix _).trans (List.take_prefix _ _)
  have hl : ((s.take k).takeWhile isDigit).length ≤ k :=
    ((List.takeWhile_prefix _).length_le).trans (by rw [List.length_take]; omega)
  have hd : Decimals ((s.take k).takeWhile isDigit) := (digits_iff _).mpr fun c hc => List.mem_takeWhile_imp hc
  unfold number at h
  generalize (s.take k).takeWhile isDigit = d at *
  cases d with
  | nil => cases h
  | cons c d =>
    simp only [Option.some.injEq, Prod.mk.injEq] at h
    obtain ⟨h1, h2⟩ := h
    obtain ⟨x, hx⟩ := hp
    refine ⟨c :: d, ?_, by simp, hl, hd, ?_⟩
    · rw [← h2, ← hx, List.drop_left]
    · rw [← h1]; exact value_eq (c :: d)

theorem number_app {k n : Nat} {d r : Str} (hd : Numeral k n d) (hr : Stops isDigit r) : number k (d ++ r) = some (n, r) := by
  have e : ((d ++ r).take k).takeWhile isDigit = d := by
    rw [List.take_append, List.take_of_length_le hd.short]
    refine takeWhile_app ((digits_iff d).mp hd.digits) ?_
    intro c x h
    cases r with
    | nil => simp at h
    | cons a r =>
      obtain hk | hk : k - d.length = 0 ∨ ∃ m, k - d.length = m + 1 := by
        cases k - d.length with
        | zero => exact .inl rfl
        | succ m => exact .inr ⟨m, rfl⟩
      · rw [hk] at h; cases h
      · obtain ⟨m, hk⟩ := hk
        rw [hk] at h
        cases h
        exact hr _ _ rfl
  unfold number
  rw [e]
  obtain ⟨h1, -, -, h2⟩ := hd
  cases d with
  | nil => exact absurd rfl h1
  | cons c d =>
    simp only [List.drop_left]
    rw [h2]
    exact congrArg some (Prod.ext (value_eq (c :: d)) rfl)

theorem numeral_stops {k n : Nat} {d r : Str} (hd : Numeral k n d) : Stops isWhite (d ++ r) := by
  intro c x h
  cases d with
  | nil => exact absurd rfl hd.some
  | cons a d => cases h; exact digit_not_white ((isDigit_iff _).mpr (hd.digits _ (List.mem_cons_self ..)))

theorem numeric_split {k lo hi n : Nat} {s r : Str} (h : numeric k lo hi s = some (n, r)) :
    ∃ w d, s = w ++ d ++ r ∧ Blank w ∧ Numeral k n d ∧ lo ≤ n ∧ n ≤ hi := by
  unfold numeric at h
  split at h
  · cases h
  · rename_i n' r' hn
    split at h
    · rename_i hb
      cases h
      obtain ⟨w, hw, e, -⟩ := trim_split s
      obtain ⟨d, e', hd⟩ := number_split hn
      exact ⟨w, d, by rw [List.append_assoc, ← e']; exact e, hw, hd, hb⟩
    · cases h

theorem numeric_app {k lo hi n : Nat} {w d r : Str} (hw : Blank w) (hd : Numeral k n d) (hr : Stops isDigit r) (h1 : lo ≤ n) (h2 : n ≤ hi) :
    numeric k lo hi (w ++ (d ++ r)) = some (n, r) := by
  unfold numeric
  rw [trim_app hw (numeral_stops hd), number_app hd hr]
  exact if_pos ⟨h1, h2⟩

theorem sep_split {c : Char} {s r : Str} (h : sep c s = some r) : ∃ w, s = w ++ c :: r ∧ Blank w := by
  obtain ⟨w, hw, e, -⟩ := trim_split s
  unfold sep literal at h
  split at h
  · rename_i x r' hx
    split at h
    · rename_i hc
      cases h; subst hc
      exact ⟨w, by rw [← hx]; exact e, hw⟩
    · cases h
  · cases h

theorem sep_app {c : Char} {w r : Str} (hw : Blank w) (hc : isWhite c = false) : sep c (w ++ c :: r) = some r := by
  unfold sep
  rw [trim_app hw (.cons hc)]
  exact if_pos rfl

theorem white_digit {w x : Str} (hw : Blank w) (hx : Stops isDigit x) : Stops isDigit (w ++ x) := by
  cases w with
  | nil => exact hx
  | cons c w =>
    refine .cons ?_
    have := hw c (List.mem_cons_self ..)
    rw [← isWhite_iff] at this
    cases hd : isDigit c with
    | false => rfl
    | true => rw [digit_not_white hd] at this; cases this

theorem year_split {n : Nat} {s r : Str} (h : year s = some (n, r)) : ∃ w d, s = w ++ d ++ r ∧ Blank w ∧ IsYear n d := by
  obtain ⟨w, hw, e, -⟩ := trim_split s
  unfold year at h
  split at h
  · cases h
  · rename_i c x hx
    rw [hx] at e
    split at h
    · rename_i hc
      split at h
      · cases h
      · rename_i n' r' hn
        split at h
        · rename_i hb
          cases h
          obtain ⟨d, rfl, hd⟩ := number_split hn
          refine ⟨w, c :: d, by rw [e]; simp, hw, .signed ?_ ⟨hd.some, le_rfl, hd.digits, hd.value⟩ hb⟩
          simp only [Bool.or_eq_true, beq_iff_eq] at hc
          rcases hc with rfl | rfl <;> decide
        · cases h
    · obtain ⟨d, e', hd⟩ := number_split h
      exact ⟨w, d, by rw [List.append_assoc, ← e']; exact e, hw, .plain hd⟩

/-- A year with a sign. -/
theorem year_signed {n : Nat} {w d r : Str} {sign : Char} (hw : Blank w) (hs : sign ∈ "+-".toList) (hd : Numeral d.length n d)
    (hr : Stops isDigit r) : year (w ++ (sign :: d ++ r)) = if n ≤ 262141 then some (n, r) else none := by
  have h1 : isWhite sign = false ∧ (sign == '-' || sign == '+') = true := by
    simp only [show "+-".toList = ['+', '-'] from rfl, List.mem_cons, List.not_mem_nil, or_false] at hs
    rcases hs with rfl | rfl <;> exact ⟨rfl, rfl⟩
  unfold year
  rw [List.cons_append, trim_app hw (.cons h1.1)]
  simp only [h1.2, if_true]
  rw [number_app (k := (d ++ r).length) ⟨hd.some, by rw [List.length_append]; omega, hd.digits, hd.value⟩ hr]

theorem year_plain {n : Nat} {w d r : Str} (hw : Blank w) (hd : Numeral 4 n d) (hr : Stops isDigit r) :
    year (w ++ (d ++ r)) = some (n, r) := by
  unfold year
  rw [trim_app hw (numeral_stops hd)]
  cases d with
  | nil => exact absurd rfl hd.some
  | cons c d =>
    have hc := hd.digits c (List.mem_cons_self ..)
    have : (c == '-' || c == '+') = false := by
      rw [Bool.or_eq_false_iff, beq_eq_false_iff_ne, beq_eq_false_iff_ne]
      constructor <;> (rintro rfl; revert hc; decide)
    simp only [List.cons_append, this, Bool.false_eq_true, if_false]
    exact number_app hd hr

theorem year_app {n : Nat} {w d r : Str} (hw : Blank w) (hd : IsYear n d) (hr : Stops isDigit r) : year (w ++ (d ++ r)) = some (n, r) := by
  cases hd with
  | plain h => exact year_plain hw h hr
  | signed hs h hb => rw [year_signed hw hs h hr, if_pos hb]

/-- What stands before the separator of date and time. -/
structure DatePart (y m d : Nat) (t : Str) : Prop where
  ex : ∃ (y' m' d' w₀ w₁ w₂ w₃ w₄ : Str), t = w₀ ++ y' ++ w₁ ++ "-".toList ++ w₂ ++ m' ++ w₃ ++ "-".toList ++ w₄ ++ d' ∧
    IsYear y y' ∧ Numeral 2 m m' ∧ Numeral 2 d d' ∧ Blank w₀ ∧ Blank w₁ ∧ Blank w₂ ∧ Blank w₃ ∧ Blank w₄
  month : 1 ≤ m ∧ m ≤ 12
  day : 1 ≤ d ∧ d ≤ 31

theorem date_split {s r : Str} {y m d : Nat} (h : date s = some ((y, m, d), r)) : ∃ t, s = t ++ r ∧ DatePart y m d t := by
  unfold date at h
  simp only [Option.bind_eq_bind, Option.bind_eq_some_iff, Option.pure_def, Option.some.injEq, Prod.exists] at h
  obtain ⟨y0, s1, h1, s2, h2, m0, s3, h3, s4, h4, d0, s5, h5, e⟩ := h
  simp only [Prod.mk.injEq] at e
  obtain ⟨⟨rfl, rfl, rfl⟩, rfl⟩ := e
  obtain ⟨w0, y', rfl, hw0, hy⟩ := year_split h1
  obtain ⟨w1, rfl, hw1⟩ := sep_split h2
  obtain ⟨w2, m', rfl, hw2, hm, hm'⟩ := numeric_split h3
  obtain ⟨w3, rfl, hw3⟩ := sep_split h4
  obtain ⟨w4, d', rfl, hw4, hd, hd'⟩ := numeric_split h5
  exact ⟨w0 ++ y' ++ w1 ++ "-".toList ++ w2 ++ m' ++ w3 ++ "-".toList ++ w4 ++ d', by simp,
    ⟨⟨y', m', d', w0, w1, w2, w3, w4, rfl, hy, hm, hd, hw0, hw1, hw2, hw3, hw4⟩, hm', hd'⟩⟩

theorem date_app {t r : Str} {y m d : Nat} (h : DatePart y m d t) (hr : Stops isDigit r) : date (t ++ r) = some ((y, m, d), r) := by
  obtain ⟨⟨y', m', d', w0, w1, w2, w3, w4, rfl, hy, hm, hd, hw0, hw1, hw2, hw3, hw4⟩, hm', hd'⟩ := h
  simp only [List.append_assoc, show "-".toList = ['-'] from rfl, List.cons_append, List.nil_append]
  unfold date
  rw [year_app hw0 hy (white_digit hw1 (.cons rfl))]
  simp only [Option.bind_eq_bind, Option.bind_some]
  rw [sep_app hw1 rfl, Option.bind_some, numeric_app hw2 hm (white_digit hw3 (.cons rfl)) hm'.1 hm'.2, Option.bind_some,
    sep_app hw3 rfl, Option.bind_some, numeric_app hw4 hd hr hd'.1 hd'.2]
  rfl

theorem fraction_split {s r : Str} (h : fraction s = some r) : ∃ f, s = f ++ r ∧ Fraction f := by
  unfold fraction at h
  split at h
  · rename_i x
    have hp : x.takeWhile isDigit <+: x := List.takeWhile_prefix _
    have hd : Decimals (x.takeWhile isDigit) := (digits_iff _).mpr fun c hc => List.mem_takeWhile_imp hc
    generalize x.takeWhile isDigit = d at *
    cases d with
    | nil => cases h
    | cons c d =>
      simp only [Option.some.injEq] at h
      obtain ⟨z, rfl⟩ := hp
      rw [List.drop_left] at h
      subst h
      exact ⟨'.' :: c :: d, by simp, .some (by simp) hd⟩
  · cases h; exact ⟨[], rfl, .none⟩

theorem fraction_app {f r : Str} (h : Fraction f) (hr : Stops isDigit r) (hd : Stops (· == '.') r) : fraction (f ++ r) = some r := by
  cases h with
  | none =>
    unfold fraction
    split
    · rename_i x e
      exact absurd (hd '.' x e) (by decide)
    · rfl
  | some h1 h2 =>
    rename_i d
    have e := takeWhile_app ((digits_iff d).mp h2) hr
    show (match (d ++ r).takeWhile isDigit with | [] => none | d' => some ((d ++ r).drop d'.length)) = _
    rw [e]
    cases d with
    | nil => exact absurd rfl h1
    | cons c d => simp only [List.drop_left]

theorem fraction_stops {f r : Str} (h : Fraction f) (hr : Stops isDigit r) : Stops isDigit (f ++ r) := by
  cases h with
  | none => exact hr
  | some => exact .cons rfl

/-- The time with its fraction, and the white space behind. -/
structure TimePart (t : Str) : Prop where
  ex : ∃ (h mi s : Nat) (h' mi' s' f w₅ w₆ w₇ w₈ w₉ w₁₀ : Str), t = w₅ ++ h' ++ w₆ ++ ":".toList ++ w₇ ++ mi' ++ w₈ ++ ":".toList ++
      w₉ ++ s' ++ f ++ w₁₀ ∧ Numeral 2 h h' ∧ h < 24 ∧ Numeral 2 mi mi' ∧ mi < 60 ∧ Numeral 2 s s' ∧ s ≤ 60 ∧ Fraction f ∧
      Blank w₅ ∧ Blank w₆ ∧ Blank w₇ ∧ Blank w₈ ∧ Blank w₉ ∧ Blank w₁₀

theorem time_split {s r : Str} (h : time s = some r) : ∃ t, s = t ++ r ∧ TimePart t := by
  unfold time at h
  simp only [Option.bind_eq_bind, Option.bind_eq_some_iff, Option.pure_def, Option.some.injEq, Prod.exists] at h
  obtain ⟨hh, s1, h1, s2, h2, mi, s3, h3, s4, h4, ss, s5, h5, s6, h6, e⟩ := h
  obtain ⟨w5, h', rfl, hw5, hh', -, hb⟩ := numeric_split h1
  obtain ⟨w6, rfl, hw6⟩ := sep_split h2
  obtain ⟨w7, m', rfl, hw7, hm, -, hb2⟩ := numeric_split h3
  obtain ⟨w8, rfl, hw8⟩ := sep_split h4
  obtain ⟨w9, s', rfl, hw9, hs, -, hb3⟩ := numeric_split h5
  obtain ⟨f, rfl, hf⟩ := fraction_split h6
  obtain ⟨w10, hw10, e10, -⟩ := trim_split s6
  rw [e] at e10
  subst e10
  exact ⟨w5 ++ h' ++ w6 ++ ":".toList ++ w7 ++ m' ++ w8 ++ ":".toList ++ w9 ++ s' ++ f ++ w10, by simp,
    ⟨hh, mi, ss, h', m', s', f, w5, w6, w7, w8, w9, w10, rfl, hh', by omega, hm, by omega, hs, hb3, hf, hw5, hw6, hw7, hw8, hw9, hw10⟩⟩

theorem white_dot {w x : Str} (hw : Blank w) (hx : Stops (· == '.') x) : Stops (· == '.') (w ++ x) := by
  cases w with
  | nil => exact hx
  | cons c w =>
    refine .cons ?_
    have := hw c (List.mem_cons_self ..)
    by_cases h : c = '.'
    · subst h; revert this; decide
    · simpa using h

theorem time_app {t r : Str} (h : TimePart t) (hr : Stops isDigit r) (hd : Stops (· == '.') r) (hw : Stops isWhite r) :
    time (t ++ r) = some r := by
  obtain ⟨hh, mi, ss, h', m', s', f, w5, w6, w7, w8, w9, w10, rfl, hh', hb, hm, hb2, hs, hb3, hf, hw5, hw6, hw7, hw8, hw9, hw10⟩ := h
  simp only [List.append_assoc, show ":".toList = [':'] from rfl, List.cons_append, List.nil_append]
  unfold time
  rw [numeric_app hw5 hh' (white_digit hw6 (.cons rfl)) (Nat.zero_le _) (by omega)]
  simp only [Option.bind_eq_bind, Option.bind_some]
  rw [sep_app hw6 rfl, Option.bind_some, numeric_app hw7 hm (white_digit hw8 (.cons rfl)) (Nat.zero_le _) (by omega), Option.bind_some,
    sep_app hw8 rfl, Option.bind_some, numeric_app hw9 hs (fraction_stops hf (white_digit hw10 hr)) (Nat.zero_le _) hb3, Option.bind_some,
    fraction_app hf (white_digit hw10 hr) (white_dot hw10 hd), Option.bind_some, trim_app hw10 hw]
  rfl

theorem two_digits {n : Nat} {d : Str} (h : Numeral 2 n d) (hl : d.length = 2) :
    ∃ a b, d = [a, b] ∧ isDigit a = true ∧ isDigit b = true ∧ n = (a.toNat - 48) * 10 + (b.toNat - 48) := by
  match d, hl with
  | [a, b], _ =>
    refine ⟨a, b, rfl, (digits_iff _).mp h.digits a (by simp), (digits_iff _).mp h.digits b (by simp), ?_⟩
    rw [h.value]
    simp [Nat.ofDigits_cons]
    omega

theorem numeral_two {a b : Char} (ha : isDigit a = true) (hb : isDigit b = true) :
    Numeral 2 ((a.toNat - 48) * 10 + (b.toNat - 48)) [a, b] := by
  refine ⟨by simp, by simp, (digits_iff _).mpr (by simp [ha, hb]), ?_⟩
  simp [Nat.ofDigits_cons]
  omega

theorem between_iff (w : Str) : (∀ c ∈ w, c = ':' ∨ c.toNat ∈ whites) ↔ ∀ c ∈ w, (c == ':' || isWhite c) = true := by
  refine forall_congr' fun c => forall_congr' fun _ => ?_
  rw [Bool.or_eq_true, beq_iff_eq, isWhite_iff]

theorem offset_split {s r : Str} {o : Nat} (h : offset s = some (o, r)) (ho : o < 86400) (sign : Char) (hs : sign ∈ "+-−".toList) :
    ∃ z, sign :: s = z ++ r ∧ Zone z := by
  unfold offset at h
  split at h
  · rename_i a b x
    split at h
    · rename_i hab
      rw [Bool.and_eq_true] at hab
      split at h
      · rename_i c d y hy
        split at h
        · rename_i hcd
          simp only [Bool.and_eq_true, decide_eq_true_eq, char_le, Char.reduceToNat] at hcd
          simp only [Option.some.injEq, Prod.mk.injEq] at h
          obtain ⟨rfl, rfl⟩ := h
          have hc : isDigit c = true := (isDigit_iff c).mpr ⟨hcd.1.1, by omega⟩
          have hd' := (isDigit_iff d).mp hcd.2
          refine ⟨sign :: [a, b] ++ (x.takeWhile fun c => c == ':' || isWhite c) ++ [c, d], ?_,
            .offset hs (numeral_two hab.1 hab.2) rfl (by omega) ((between_iff _).mpr fun c hc => List.mem_takeWhile_imp (p := fun c => c == ':' || isWhite c) hc)
              (numeral_two hc hcd.2) rfl (by omega)⟩
          have e := (List.takeWhile_append_dropWhile (p := fun c => c == ':' || isWhite c) (l := x)).symm
          rw [hy] at e
          conv_lhs => rw [e]
          simp
        · cases h
      · cases h
    · cases h
  · cases h

theorem zone_split {s r : Str} {o : Nat} (h : zone s = some (o, r)) (ho : o < 86400) : ∃ w z, s = w ++ z ++ r ∧ Blank w ∧ Zone z := by
  obtain ⟨w, hw, e, -⟩ := trim_split s
  unfold zone at h
  split at h
  · cases h
  · rename_i a x hx
    rw [hx] at e
    split at h
    · rename_i hu
      simp only [Option.some.injEq, Prod.mk.injEq] at h
      obtain ⟨-, rfl⟩ := h
      match x, hu with
      | [], hu => cases hu
      | [_], hu => cases hu
      | t :: c :: y, hu =>
        simp only [isUtc, Bool.and_eq_true, Bool.or_eq_true, beq_iff_eq] at hu
        refine ⟨w, [a, t, c], by simpa using e, hw, .utc ?_ ?_ ?_⟩
        · rcases hu.1.1 with rfl | rfl <;> decide
        · rcases hu.1.2 with rfl | rfl <;> decide
        · rcases hu.2 with rfl | rfl <;> decide
    · split at h
      · rename_i hz
        simp only [Bool.or_eq_true, beq_iff_eq] at hz
        simp only [Option.some.injEq, Prod.mk.injEq] at h
        obtain ⟨-, rfl⟩ := h
        refine ⟨w, [a], by simpa using e, hw, .zulu ?_⟩
        rcases hz with rfl | rfl <;> decide
      · split at h
        · rename_i hs
          simp only [Bool.or_eq_true, beq_iff_eq] at hs
          obtain ⟨z, hz, hz'⟩ := offset_split h ho a (by rcases hs with (rfl | rfl) | rfl <;> decide)
          exact ⟨w, z, by rw [List.append_assoc, ← hz]; exact e, hw, hz'⟩
        · cases h

theorem isUtc_other {a : Char} {r : Str} (h : (a == 'U' || a == 'u') = false) : isUtc (a :: r) = false := by
  match r with
  | [] => rfl
  | [_] => rfl
  | b :: c :: r => simp only [isUtc, h, Bool.false_and]

theorem zone_app {w z r : Str} (hw : Blank w) (hz : Zone z) : ∃ o, o < 86400 ∧ zone (w ++ (z ++ r)) = some (o, r) := by
  cases hz with
  | zulu h =>
    rename_i c
    simp only [show "Zz".toList = ['Z', 'z'] from rfl, List.mem_cons, List.not_mem_nil, or_false] at h
    refine ⟨0, by decide, ?_⟩
    unfold zone
    rcases h with rfl | rfl <;> (rw [List.singleton_append, trim_app hw (.cons rfl)]; exact if_neg (by rw [isUtc_other (by decide)]; decide))
  | utc hu ht hc =>
    simp only [show "Uu".toList = ['U', 'u'] from rfl, show "Tt".toList = ['T', 't'] from rfl, show "Cc".toList = ['C', 'c'] from rfl,
      List.mem_cons, List.not_mem_nil, or_false] at hu ht hc
    refine ⟨0, by decide, ?_⟩
    unfold zone
    rcases hu with rfl | rfl <;> rcases ht with rfl | rfl <;> rcases hc with rfl | rfl <;>
      (simp only [List.cons_append, List.nil_append]; rw [trim_app hw (.cons rfl)]; rfl)
  | offset hs h1 h2 h3 h4 h5 h6 h7 =>
    rename_i sign h m hh between mm
    obtain ⟨a, b, rfl, ha, hb, rfl⟩ := two_digits h1 h2
    obtain ⟨c, d, rfl, hc, hd, rfl⟩ := two_digits h5 h6
    have hc' := (isDigit_iff c).mp hc
    have hd' := (isDigit_iff d).mp hd
    have e : (between ++ ([c, d] ++ r)).dropWhile (fun c => c == ':' || isWhite c) = [c, d] ++ r := by
      refine dropWhile_app ((between_iff _).mp h4) (.cons ?_)
      rw [digit_not_white hc]
      have : c ≠ ':' := by rintro rfl; revert hc; decide
      simpa using this
    have ho : offset ([a, b] ++ (between ++ ([c, d] ++ r))) = some (((a.toNat - 48) * 10 + (b.toNat - 48)) * 3600 +
        ((c.toNat - 48) * 10 + (d.toNat - 48)) * 60, r) := by
      show (if (isDigit a && isDigit b) = true then (match (between ++ ([c, d] ++ r)).dropWhile (fun c => c == ':' || isWhite c) with
        | c :: d :: r => if ('0' ≤ c && c ≤ '5' && isDigit d) = true then
          some (((a.toNat - 48) * 10 + (b.toNat - 48)) * 3600 + ((c.toNat - 48) * 10 + (d.toNat - 48)) * 60, r) else none
        | _ => none) else none) = _
      rw [ha, hb, e]
      simp only [Bool.and_self, if_true, List.cons_append, List.nil_append]
      refine if_pos ?_
      simp only [Bool.and_eq_true, decide_eq_true_eq, char_le, Char.reduceToNat, hd, and_true]
      omega
    refine ⟨((a.toNat - 48) * 10 + (b.toNat - 48)) * 3600 + ((c.toNat - 48) * 10 + (d.toNat - 48)) * 60, ?_, ?_⟩
    rotate_left
    · unfold zone
      simp only [show "+-−".toList = ['+', '-', '−'] from rfl, List.mem_cons, List.not_mem_nil, or_false] at hs
      simp only [List.append_assoc, List.cons_append (a := sign)]
      rcases hs with rfl | rfl | rfl <;> (rw [trim_app hw (.cons rfl)]; exact (if_neg (by rw [isUtc_other (by decide)]; decide)).trans ho)
    · omega

theorem zone_stops {z r : Str} (hz : Zone z) : Stops isWhite (z ++ r) ∧ Stops isDigit (z ++ r) ∧ Stops (· == '.') (z ++ r) := by
  have key : ∀ (l : List Char) (c : Char) (x : Str), c ∈ l → l.all (fun c => !isWhite c && !isDigit c && !(c == '.')) = true →
      Stops isWhite (c :: x) ∧ Stops isDigit (c :: x) ∧ Stops (· == '.') (c :: x) := by
    intro l c x hc hl
    have := List.all_eq_true.mp hl c hc
    simp only [Bool.and_eq_true, Bool.not_eq_true'] at this
    exact ⟨.cons this.1.1, .cons this.1.2, .cons this.2⟩
  cases hz with
  | zulu h => exact key _ _ _ h (by decide)
  | utc hu => exact key _ _ _ hu (by decide)
  | offset hs => simp only [List.cons_append]; exact key _ _ _ hs (by decide)

theorem day_iff {y m d : Nat} (hm : 1 ≤ m ∧ m ≤ 12) (hd : 1 ≤ d ∧ d ≤ 31) : dayExists y m d = true ↔ Day y m d := by
  have hl : (y % 4 == 0 && (y % 100 != 0 || y % 400 == 0)) = true ↔ Leap y := by
    simp only [Bool.and_eq_true, beq_iff_eq, Bool.or_eq_true, bne_iff_ne, Leap]
    constructor
    · intro h; exact ⟨by omega, fun h' => by omega⟩
    · rintro ⟨h1, h2⟩; exact ⟨by omega, by omega⟩
  have e : dayExists y m d = true ↔ d ≤ [31, if (y % 4 == 0 && (y % 100 != 0 || y % 400 == 0)) = true then 29 else 28, 31, 30, 31, 30, 31,
      31, 30, 31, 30, 31].getD (m - 1) 0 := by
    unfold dayExists; exact decide_eq_true_iff
  have e' : Day y m d ↔ (m ∈ [4, 6, 9, 11] → d ≤ 30) ∧ (m = 2 → d ≤ 29 ∧ (d = 29 → Leap y)) :=
    ⟨fun h => ⟨h.thirty, h.february⟩, fun h => ⟨hm, hd, h.1, h.2⟩⟩
  rw [e, e', ← hl]
  generalize (y % 4 == 0 && (y % 100 != 0 || y % 400 == 0)) = leap
  obtain ⟨m1, m2⟩ := hm
  interval_cases m <;> cases leap <;> simp <;> omega

/-- The texts accepted are those of the grammar. -/
theorem accepts_iff (t : Str) : accepts t = true ↔ IsDateText t := by
  constructor
  · intro h
    unfold accepts at h
    split at h
    · cases h
    · rename_i y m d s hdate
      obtain ⟨t1, rfl, hdp⟩ := date_split hdate
      split at h
      · cases h
      · rename_i c s
        split at h
        · rename_i hc
          split at h
          · cases h
          · rename_i s2 htime
            obtain ⟨t2, rfl, htp⟩ := time_split htime
            split at h
            · cases h
            · rename_i o s3 hzone
              simp only [Bool.and_eq_true, decide_eq_true_eq, List.isEmpty_iff] at h
              obtain ⟨⟨h1, h2⟩, h3⟩ := h
              obtain ⟨w, z, rfl, hw, hz⟩ := zone_split hzone h3
              obtain ⟨w11, hw11, e11, -⟩ := trim_split s3
              rw [h1, List.append_nil] at e11
              subst e11
              obtain ⟨⟨y', m', d', w0, w1, w2, w3, w4, rfl, hy, hm, hd, hw0, hw1, hw2, hw3, hw4⟩, hm', hd'⟩ := hdp
              obtain ⟨hh, mi, ss, h', mi', s', f, w5, w6, w7, w8, w9, w10, rfl, hh', hb, hmi, hb2, hs, hb3, hf, hw5, hw6, hw7, hw8, hw9, hw10⟩ := htp
              refine ⟨y, m, d, hh, mi, ss, y', m', d', h', mi', s', f, z, w0, w1, w2, w3, w4, w5, w6, w7, w8, w9, w10 ++ w, s3, c, ?_, hy, hm, hd,
                (day_iff hm' hd').mp h2, ?_, hh', hb, hmi, hb2, hs, hb3, hf, hz, hw0, hw1, hw2, hw3, hw4, hw5, hw6, hw7, hw8, hw9,
                blank_append hw10 hw, hw11⟩
              · simp
              · simp only [Bool.or_eq_true, beq_iff_eq] at hc
                rcases hc with (rfl | rfl) | rfl <;> decide
        · cases h
  · rintro ⟨y, m, d, hh, mi, ss, y', m', d', h', mi', s', f, z, w0, w1, w2, w3, w4, w5, w6, w7, w8, w9, w10, w11, c, ht, hy, hm, hd, hday, hc, hh', hb,
      hmi, hb2, hs, hb3, hf, hz, hw0, hw1, hw2, hw3, hw4, hw5, hw6, hw7, hw8, hw9, hw10, hw11⟩
    have hdp : DatePart y m d (w0 ++ y' ++ w1 ++ "-".toList ++ w2 ++ m' ++ w3 ++ "-".toList ++ w4 ++ d') :=
      ⟨⟨y', m', d', w0, w1, w2, w3, w4, rfl, hy, hm, hd, hw0, hw1, hw2, hw3, hw4⟩, hday.month, hday.day⟩
    have htp : TimePart (w5 ++ h' ++ w6 ++ ":".toList ++ w7 ++ mi' ++ w8 ++ ":".toList ++ w9 ++ s' ++ f ++ w10) :=
      ⟨⟨hh, mi, ss, h', mi', s', f, w5, w6, w7, w8, w9, w10, rfl, hh', hb, hmi, hb2, hs, hb3, hf, hw5, hw6, hw7, hw8, hw9, hw10⟩⟩
    have e : w0 ++ y' ++ w1 ++ "-".toList ++ w2 ++ m' ++ w3 ++ "-".toList ++ w4 ++ d' ++ c :: w5 ++ h' ++ w6 ++ ":".toList ++ w7 ++ mi' ++
        w8 ++ ":".toList ++ w9 ++ s' ++ f ++ w10 ++ z ++ w11 = (w0 ++ y' ++ w1 ++ "-".toList ++ w2 ++ m' ++ w3 ++ "-".toList ++ w4 ++ d') ++
        c :: ((w5 ++ h' ++ w6 ++ ":".toList ++ w7 ++ mi' ++ w8 ++ ":".toList ++ w9 ++ s' ++ f ++ w10) ++ (z ++ w11)) := by
      simp only [List.append_assoc, List.cons_append]
    rw [ht, e]
    simp only [show "Tt ".toList = ['T', 't', ' '] from rfl, List.mem_cons, List.not_mem_nil, or_false] at hc
    obtain ⟨z1, z2, z3⟩ := zone_stops (r := w11) hz
    obtain ⟨o, ho, hzone⟩ := zone_app (r := w11) blank_nil hz
    have hc1 : isDigit c = false := by rcases hc with rfl | rfl | rfl <;> rfl
    have hc2 : (c == 't' || c == 'T' || c == ' ') = true := by rcases hc with rfl | rfl | rfl <;> rfl
    unfold accepts
    rw [date_app hdp (.cons hc1)]
    simp only [hc2, if_true]
    rw [time_app htp z2 z3 z1]
    simp only
    rw [List.nil_append] at hzone
    rw [hzone]
    have hend : trimStart w11 = [] := by
      have := trim_app hw11 (x := []) Stops.nil
      rwa [List.append_nil] at this
    simp only [hend, (day_iff hday.month hday.day).mpr hday, ho, decide_true, List.isEmpty_nil, Bool.and_self]

end Verif.Chrono
