import Verif.Concrete.DatesLaws
import Verif.Props.Order
import Verif.Props.Pem

/-
C83: the creation dates of proofs. `validate_created` parses the text with `str::parse::<DateTime<Utc>>` and throws the date
away; chrono reads a relaxed form of RFC 3339 (`Verif/Concrete/Dates.lean`).
-/

namespace Verif.Spec

/-- The text does not start with a sign and one of the years 262142 to 262144. -/
def Settled (t : Str) : Prop :=
  ∀ w sign d r y, t = w ++ (sign :: d ++ r) → Blank w → sign ∈ "+-".toList → Numeral d.length y d →
    (∀ c x, r = c :: x → ¬ (48 ≤ c.toNat ∧ c.toNat ≤ 57)) → y < 262142 ∨ 262144 < y

/-- Dates are read by chrono. Left open are texts with a year at the ends of its range of dates, which differ between versions. -/
def ChronoDates (E : Env) : Prop := ∀ t, Settled t → (E.parseDate t = .ok () ↔ Chrono.accepts t = true)

/-- `s` is `n` in two digits. -/
def Two (n : Nat) (s : Str) : Prop := Numeral 2 n s ∧ s.length = 2

/-- Date and time with two digits for each number but the year. -/
def Shape (y mo d h mi s : Nat) (year : Str) (sep : Char) (rest : Str) (t : Str) : Prop :=
  ∃ mo' d' h' mi' s', t = year ++ "-".toList ++ mo' ++ "-".toList ++ d' ++ sep :: h' ++ ":".toList ++ mi' ++ ":".toList ++ s' ++ rest ∧
    Numeral year.length y year ∧ Two mo mo' ∧ Two d d' ∧ Two h h' ∧ Two mi mi' ∧ Two s s' ∧ Day y mo d ∧ mi < 60

/-- `hh:mm` with a sign. -/
def Offset (limit : Nat) (z : Str) : Prop :=
  ∃ sign h m h' m', z = sign :: h' ++ ":".toList ++ m' ∧ sign ∈ "+-".toList ∧ Two h h' ∧ Two m m' ∧ m < 60 ∧ h * 60 + m ≤ limit

/-- `date-time` of RFC 3339, section 5.6. -/
def IsRfc3339 (t : Str) : Prop :=
  ∃ y mo d h mi s year sep fraction zone, Shape y mo d h mi s year sep (fraction ++ zone) t ∧ year.length = 4 ∧ sep ∈ "Tt".toList ∧
    h < 24 ∧ s ≤ 60 ∧ Fraction fraction ∧ ((zone = "Z".toList ∨ zone = "z".toList) ∨ Offset 1439 zone)

/-- `dateTimeStamp` of XML Schema 1.1, which the Recommendation asks for, without sign before the year. `late` is the form with hour 24
for the end of a day. -/
def IsStamp (year : Str) (late : Bool) (t : Str) : Prop :=
  ∃ y mo d h mi s fraction zone, Shape y mo d h mi s year 'T' (fraction ++ zone) t ∧ 4 ≤ year.length ∧
    (4 < year.length → year.head? ≠ some '0') ∧ s < 60 ∧ Fraction fraction ∧ (zone = "Z".toList ∨ Offset 840 zone) ∧
    (late = false → h < 24) ∧ (late = true → h = 24 ∧ mi = 0 ∧ s = 0 ∧ ∀ c ∈ fraction, c = '.' ∨ c = '0')

/-- Any date-time stamp. -/
def IsDateTimeStamp (t : Str) : Prop := ∃ year late r, IsStamp year late r ∧ (t = r ∨ t = '-' :: r)

/-- What `Utc::now().to_string()` gives from the year 0 to the year 9999. -/
def IsNow (t : Str) : Prop :=
  ∃ y mo d h mi s year fraction, Shape y mo d h mi s year ' ' (fraction ++ " UTC".toList) t ∧ year.length = 4 ∧ h < 24 ∧ s ≤ 60 ∧
    Fraction fraction ∧ fraction.length ∈ [0, 4, 7, 10]

end Verif.Spec

namespace Verif.Props
open Verif Spec

/-- C83: the texts accepted as creation date. -/
theorem C83_dates {E : Env} (C : ChronoDates E) (t : Str) (hu : Settled t) : E.parseDate t = .ok () ↔ IsDateText t := by
  rw [C t hu, Chrono.accepts_iff]

theorem stops_digit {r : Str} (h : ∀ c x, r = c :: x → ¬ (48 ≤ c.toNat ∧ c.toNat ≤ 57)) : Chrono.Stops Chrono.isDigit r := fun c x e => by
  rw [Bool.eq_false_iff, Ne, Chrono.isDigit_iff]
  exact h c x e

theorem sign_class {sign : Char} (h : sign ∈ "+-".toList) : Chrono.isWhite sign = false ∧ Chrono.isDigit sign = false := by
  simp only [show "+-".toList = ['+', '-'] from rfl, List.mem_cons, List.not_mem_nil, or_false] at h
  rcases h with rfl | rfl <;> exact ⟨rfl, rfl⟩

theorem signed_digits {w d r w' d' r' : Str} {sign sign' : Char} (e : w ++ (sign :: d ++ r) = w' ++ (sign' :: d' ++ r')) (hw : Blank w)
    (hw' : Blank w') (hs : sign ∈ "+-".toList) (hs' : sign' ∈ "+-".toList) (hd : Decimals d) (hd' : Decimals d')
    (hr : Chrono.Stops Chrono.isDigit r) (hr' : Chrono.Stops Chrono.isDigit r') : d = d' := by
  have h := congrArg Chrono.trimStart e
  rw [List.cons_append, List.cons_append, Chrono.trim_app hw (.cons (sign_class hs).1), Chrono.trim_app hw' (.cons (sign_class hs').1),
    List.cons.injEq] at h
  have h' := congrArg (List.takeWhile Chrono.isDigit) h.2
  rwa [Chrono.takeWhile_app ((Chrono.digits_iff d).mp hd) hr, Chrono.takeWhile_app ((Chrono.digits_iff d').mp hd') hr'] at h'

theorem settled_of {t : Str} {p : Nat × Str} (h : Chrono.year t = some p) : Settled t := by
  intro w sign d r y e hw hs hd hr
  rw [e, Chrono.year_signed hw hs hd (stops_digit hr)] at h
  split at h
  · omega
  · cases h

theorem numeral_start {k n : Nat} {d w r : Str} (h : Numeral k n d) (hw : Blank w) : Settled (w ++ (d ++ r)) := by
  intro w' sign d' r' y e hw' hs _ _
  have hsw := sign_class hs
  have e1 := Chrono.trim_app hw (Chrono.numeral_stops (r := r) h)
  rw [e, List.cons_append, Chrono.trim_app hw' (.cons hsw.1)] at e1
  cases d with
  | nil => exact absurd rfl h.some
  | cons a d =>
    rw [List.cons_append, List.cons.injEq] at e1
    rw [e1.1, (Chrono.isDigit_iff a).mpr (h.digits a (List.mem_cons_self ..))] at hsw
    cases hsw.2

/-- C83: no text of the grammar is left open. -/
theorem dateText_settled {t : Str} (h : IsDateText t) : Settled t := by
  obtain ⟨y, mo, d, h, mi, s, y', mo', d', h', mi', s', f, z, w0, w1, w2, w3, w4, w5, w6, w7, w8, w9, w10, w11, c, ht, hy, -, -, -, -, -, -, -, -,
    -, -, -, -, hw0, hw1, -⟩ := h
  rw [ht]
  simp only [List.append_assoc]
  exact settled_of (Chrono.year_app hw0 hy (Chrono.white_digit hw1 (.cons rfl)))

/-- C83: options are taken by their type, their suite and this text. -/
theorem C83_options {E : Env} (C : ChronoDates E) (p : Proof) (hu : ∀ c, p.created = some c → Settled c) :
    GoodOptions E p ↔ p.typ = "DataIntegrityProof".toList ∧ p.cryptosuite = some "eddsa-jcs-2022".toList ∧
      ∃ c, p.created = some c ∧ IsDateText c := by
  constructor
  · rintro ⟨h1, h2, c, h3, h4⟩
    exact ⟨h1, h2, c, h3, (C83_dates C c (hu c h3)).mp h4⟩
  · rintro ⟨h1, h2, c, h3, h4⟩
    exact ⟨h1, h2, c, h3, (C83_dates C c (hu c h3)).mpr h4⟩

/-- C83: with another creation date, or none, nothing is signed and nothing is accepted. -/
theorem C83_refused {E : Env} (C : ChronoDates E) (L : E.JcsLaws) (opts : Proof)
    (hc : ∀ c, opts.created = some c → Settled c ∧ ¬ IsDateText c) :
    (∀ (kp : E.EdKP) (v : VC E), ∃ m, sign E (VC E) kp v opts = .error (.proofGenerationError m)) ∧
    (∀ (kp : E.EdKP) (v : VP E), ∃ m, sign E (VP E) kp v opts = .error (.proofGenerationError m)) ∧
    (∀ pub bs purpose (v : VC E), v.proof = some opts → ¬ AcceptedVC pub bs purpose v) ∧
    (∀ pub bs purpose (v : VP E), v.proof = some opts → ¬ AcceptedVP pub bs purpose v) := by
  have hbad : ¬ GoodOptions E opts := by
    rintro ⟨-, -, c, h3, h4⟩
    exact (hc c h3).2 ((C83_dates C c (hc c h3).1).mp h4)
  refine ⟨fun kp v => ?_, fun kp v => ?_, fun pub bs purpose v hv ha => ?_, fun pub bs purpose v hv ha => ?_⟩
  · cases h : sign E (VC E) kp v opts with
    | ok out => exact absurd (((C32_vc L kp v opts).1 out).mp h).1 hbad
    | error e => obtain ⟨m, rfl⟩ := (C32_vc L kp v opts).2 e h; exact ⟨m, rfl⟩
  · cases h : sign E (VP E) kp v opts with
    | ok out => exact absurd (((C32_vp L kp v opts).1 out).mp h).1 hbad
    | error e => obtain ⟨m, rfl⟩ := (C32_vp L kp v opts).2 e h; exact ⟨m, rfl⟩
  · obtain ⟨-, p, h1, h2, -⟩ := (accepted_vc_iff L pub bs purpose v).mp ha
    rw [hv] at h1; cases h1
    exact hbad h2
  · obtain ⟨-, p, h1, h2, -⟩ := (accepted_vp_iff L pub bs purpose v).mp ha
    rw [hv] at h1; cases h1
    exact hbad h2

/-- `Shape` with any text for the year. -/
theorem shape_year {y mo d h mi s : Nat} {year mo' d' h' mi' s' : Str} {sep : Char} {f w z : Str} (hy : IsYear y year) (hmo : Two mo mo')
    (hd : Two d d') (hh' : Two h h') (hmi : Two mi mi') (hs' : Two s s') (hday : Day y mo d) (hm : mi < 60)
    (hsep : sep ∈ "Tt ".toList) (hh : h < 24) (hss : s ≤ 60) (hf : Fraction f) (hw : Blank w) (hz : Zone z) :
    IsDateText (year ++ "-".toList ++ mo' ++ "-".toList ++ d' ++ sep :: h' ++ ":".toList ++ mi' ++ ":".toList ++ s' ++ (f ++ (w ++ z))) := by
  refine ⟨y, mo, d, h, mi, s, year, mo', d', h', mi', s', f, z, [], [], [], [], [], [], [], [], [], [], w, [], sep, ?_, hy, hmo.1, hd.1, hday, hsep,
    hh'.1, hh, hmi.1, hm, hs'.1, hss, hf, hz, Chrono.blank_nil, Chrono.blank_nil, Chrono.blank_nil, Chrono.blank_nil, Chrono.blank_nil,
    Chrono.blank_nil, Chrono.blank_nil, Chrono.blank_nil, Chrono.blank_nil, Chrono.blank_nil, hw, Chrono.blank_nil⟩
  simp only [List.append_assoc, List.cons_append, List.nil_append, List.append_nil]

theorem shape_text {y mo d h mi s : Nat} {year : Str} {sep : Char} {f w z t : Str} (hs : Shape y mo d h mi s year sep (f ++ (w ++ z)) t)
    (h4 : year.length = 4) (hsep : sep ∈ "Tt ".toList) (hh : h < 24) (hss : s ≤ 60) (hf : Fraction f) (hw : Blank w) (hz : Zone z) :
    IsDateText t := by
  obtain ⟨mo', d', h', mi', s', ht, hy, hmo, hd, hh', hmi, hs', hday, hm⟩ := hs
  rw [h4] at hy
  rw [ht]
  exact shape_year (.plain hy) hmo hd hh' hmi hs' hday hm hsep hh hss hf hw hz

theorem offset_zone {limit : Nat} (hl : limit ≤ 1439) {z : Str} (h : Offset limit z) : Zone z := by
  obtain ⟨sign, h, m, h', m', rfl, hs, hh, hm, hm60, hle⟩ := h
  refine .offset ?_ hh.1 hh.2 (by omega) (by simp) hm.1 hm.2 hm60
  simp only [show "+-".toList = ['+', '-'] from rfl, List.mem_cons, List.not_mem_nil, or_false] at hs
  rcases hs with rfl | rfl <;> decide

/-- C83: every text of RFC 3339 is accepted. -/
theorem C83_rfc3339 {E : Env} (C : ChronoDates E) (t : Str) (h : IsRfc3339 t) : E.parseDate t = .ok () := by
  have hd : IsDateText t := by
    obtain ⟨y, mo, d, hh, mi, s, year, sep, f, z, hs, h4, hsep, h24, h60, hf, hz⟩ := h
    refine shape_text (w := []) hs h4 ?_ h24 h60 hf Chrono.blank_nil ?_
    · simp only [show "Tt".toList = ['T', 't'] from rfl, List.mem_cons, List.not_mem_nil, or_false] at hsep
      rcases hsep with rfl | rfl <;> decide
    · rcases hz with (rfl | rfl) | hz
      · exact .zulu (by decide)
      · exact .zulu (by decide)
      · exact offset_zone le_rfl hz
  exact (C83_dates C t (dateText_settled hd)).mpr hd

theorem numeric_none {k lo hi n : Nat} {w d r : Str} (hw : Blank w) (hd : Numeral k n d) (hr : Chrono.Stops Chrono.isDigit r) (h : hi < n) :
    Chrono.numeric k lo hi (w ++ (d ++ r)) = none := by
  unfold Chrono.numeric
  rw [Chrono.trim_app hw (Chrono.numeral_stops hd), Chrono.number_app hd hr]
  exact if_neg (by omega)

/-- The form with hour 24. -/
theorem late_refused {y mo d : Nat} {year mo' d' h' mi' s' f z : Str} (hy : IsYear y year) (hmo : Two mo mo') (hd : Two d d')
    (hh' : Two 24 h') (hday : Day y mo d) :
    Chrono.accepts (year ++ "-".toList ++ mo' ++ "-".toList ++ d' ++ 'T' :: h' ++ ":".toList ++ mi' ++ ":".toList ++ s' ++ (f ++ z)) ≠ true := by
  have hdp : Chrono.DatePart y mo d (year ++ "-".toList ++ mo' ++ "-".toList ++ d') :=
    ⟨⟨year, mo', d', [], [], [], [], [], by simp only [List.append_assoc, List.nil_append], hy, hmo.1, hd.1, Chrono.blank_nil, Chrono.blank_nil,
      Chrono.blank_nil, Chrono.blank_nil, Chrono.blank_nil⟩, hday.month, hday.day⟩
  have e : year ++ "-".toList ++ mo' ++ "-".toList ++ d' ++ 'T' :: h' ++ ":".toList ++ mi' ++ ":".toList ++ s' ++ (f ++ z) =
      (year ++ "-".toList ++ mo' ++ "-".toList ++ d') ++ 'T' :: ([] ++ (h' ++ ':' :: (mi' ++ ":".toList ++ s' ++ (f ++ z)))) := by
    simp only [List.append_assoc, List.cons_append, List.nil_append, show ":".toList = [':'] from rfl]
  have htime : Chrono.time ([] ++ (h' ++ ':' :: (mi' ++ ":".toList ++ s' ++ (f ++ z)))) = none := by
    unfold Chrono.time
    rw [numeric_none Chrono.blank_nil hh'.1 (.cons rfl) (by decide)]
    rfl
  rw [e]
  unfold Chrono.accepts
  rw [Chrono.date_app hdp (.cons rfl)]
  simp only [htime]
  decide

theorem stamp_zone {z : Str} (h : z = "Z".toList ∨ Offset 840 z) : Zone z := by
  rcases h with rfl | hz
  · exact .zulu (by decide)
  · exact offset_zone (by decide) hz

/-- C83: a date-time stamp without sign is accepted if its year has four digits and it is not in the form with hour 24. -/
theorem C83_stamp {E : Env} (C : ChronoDates E) (t year : Str) (late : Bool) (h : IsStamp year late t) :
    E.parseDate t = .ok () ↔ year.length = 4 ∧ late = false := by
  obtain ⟨y, mo, d, hh, mi, s, f, z, hs, h4, h0, h60, hf, hz, h24, hlate⟩ := h
  have hu : Settled t := by
    obtain ⟨mo', d', h', mi', s', ht, hy, -⟩ := hs
    rw [ht]
    simp only [List.append_assoc]
    exact numeral_start (w := []) hy Chrono.blank_nil
  rw [C t hu]
  by_cases hl : year.length = 4
  · cases late with
    | false =>
      refine iff_of_true ?_ ⟨hl, rfl⟩
      rw [Chrono.accepts_iff]
      exact shape_text (w := []) hs hl (by decide) (h24 rfl) (by omega) hf Chrono.blank_nil (stamp_zone hz)
    | true =>
      refine iff_of_false ?_ (fun h => nomatch h.2)
      obtain ⟨rfl, -⟩ := hlate rfl
      obtain ⟨mo', d', h', mi', s', ht, hy, hmo, hd, hh', hmi, hs', hday, hm⟩ := hs
      rw [hl] at hy
      rw [ht]
      exact late_refused (.plain hy) hmo hd hh' hday
  · refine iff_of_false ?_ (fun h => hl h.1)
    obtain ⟨mo', d', h', mi', s', ht, hy, -⟩ := hs
    rw [Chrono.accepts_iff]
    rintro ⟨y₂, mo, d, h, mi, s, y', mo'', d'', h', mi'', s'', f, z, w0, w1, w2, w3, w4, w5, w6, w7, w8, w9, w10, w11, c, ht2, hy2, -, -, -, -, -, -, -,
      -, -, -, -, -, hw0, hw1, -⟩
    have e : ∀ (n k : Nat) (w y x : Str), Blank w → Numeral k n y → Chrono.Stops Chrono.isDigit x →
        (Chrono.trimStart (w ++ (y ++ x))).takeWhile Chrono.isDigit = y := fun n k w y x hw hy hx => by
      rw [Chrono.trim_app hw (Chrono.numeral_stops hy)]
      exact Chrono.takeWhile_app ((Chrono.digits_iff y).mp hy.digits) hx
    have e1 := congrArg (fun t => (Chrono.trimStart t).takeWhile Chrono.isDigit) (ht.symm.trans ht2)
    simp only [List.append_assoc, show "-".toList = ['-'] from rfl, List.cons_append, List.nil_append] at e1
    have e2 := (e _ _ [] year _ Chrono.blank_nil hy (.cons rfl)).symm.trans e1
    cases hy2 with
    | plain hy2 =>
      rw [e _ _ w0 y' _ hw0 hy2 (Chrono.white_digit hw1 (.cons rfl))] at e2
      rw [e2] at hl h4
      have := hy2.short
      omega
    | @signed sign d hsign _ _ =>
      have hsw := sign_class hsign
      rw [List.cons_append, Chrono.trim_app hw0 (.cons hsw.1), List.takeWhile_cons_of_neg (by rw [hsw.2]; decide)] at e2
      exact hy.some e2

/-- C83: with a sign the year may have any number of digits up to the range of chrono, on either side of the year 0. -/
theorem C83_signed {E : Env} (C : ChronoDates E) (sign : Char) (r year : Str) (late : Bool) (y : Nat) (hsign : sign ∈ "+-".toList)
    (h : IsStamp year late r) (hy : Numeral year.length y year) (hr : y < 262142 ∨ 262144 < y) :
    E.parseDate (sign :: r) = .ok () ↔ y < 262142 ∧ late = false := by
  obtain ⟨y', mo, d, hh, mi, s, f, z, hs, h4, h0, h60, hf, hz, h24, hlate⟩ := h
  obtain ⟨mo', d', h', mi', s', ht, hy', hmo, hd, hh', hmi, hs', hday, hm⟩ := hs
  have : y' = y := hy'.value.trans hy.value.symm
  subst this
  have et : sign :: r = (sign :: year) ++ "-".toList ++ mo' ++ "-".toList ++ d' ++ 'T' :: h' ++ ":".toList ++ mi' ++ ":".toList ++ s' ++ (f ++ z) := by
    rw [ht]
    simp only [List.append_assoc, List.cons_append]
  have es : sign :: r = [] ++ (sign :: year ++ '-' :: (mo' ++ "-".toList ++ d' ++ 'T' :: h' ++ ":".toList ++ mi' ++ ":".toList ++ s' ++ (f ++ z))) := by
    rw [ht]
    simp only [List.append_assoc, List.cons_append, List.nil_append, show "-".toList = ['-'] from rfl]
  have ey := Chrono.year_signed (r := '-' :: (mo' ++ "-".toList ++ d' ++ 'T' :: h' ++ ":".toList ++ mi' ++ ":".toList ++ s' ++ (f ++ z)))
    Chrono.blank_nil hsign hy (.cons rfl)
  rw [← es] at ey
  rcases hr with hr | hr
  · rw [if_pos (by omega)] at ey
    have hyear : IsYear y' (sign :: year) := .signed hsign hy (by omega)
    rw [C _ (settled_of ey)]
    cases late with
    | false =>
      refine iff_of_true ?_ ⟨hr, rfl⟩
      rw [Chrono.accepts_iff, et]
      exact shape_year (w := []) hyear hmo hd hh' hmi hs' hday hm (by decide) (h24 rfl) (by omega) hf Chrono.blank_nil (stamp_zone hz)
    | true =>
      refine iff_of_false ?_ (fun h => nomatch h.2)
      obtain ⟨rfl, -⟩ := hlate rfl
      rw [et]
      exact late_refused hyear hmo hd hh' hday
  · rw [if_neg (by omega)] at ey
    have hset : Settled (sign :: r) := by
      intro w sign' d r' n e hw hs hd' hr'
      have e1 := signed_digits (e.symm.trans es) hw Chrono.blank_nil hs hsign hd'.digits hy.digits (stops_digit hr') (.cons rfl)
      subst e1
      rw [hd'.value, ← hy.value]
      exact .inr hr
    rw [C _ hset]
    refine iff_of_false ?_ (fun h => by omega)
    unfold Chrono.accepts Chrono.date
    rw [ey]
    decide

theorem numeral_no_space {k n : Nat} {d : Str} (h : Numeral k n d) : ' ' ∉ d := fun m => by
  have := h.digits _ m
  revert this; decide

theorem fraction_no_space {f : Str} (h : Fraction f) : ' ' ∉ f := by
  cases h with
  | none => simp
  | some h1 h2 =>
    intro m
    rcases List.mem_cons.mp m with e | m
    · cases e
    · have := h2 _ m
      revert this; decide

theorem offset_no_space {l : Nat} {z : Str} (h : Offset l z) : ' ' ∉ z := by
  obtain ⟨sign, h, m, h', m', rfl, hs, hh, hm, -⟩ := h
  have h1 := numeral_no_space hh.1
  have h2 := numeral_no_space hm.1
  simp only [show "+-".toList = ['+', '-'] from rfl, List.mem_cons, List.not_mem_nil, or_false] at hs
  simp only [show ":".toList = [':'] from rfl, List.mem_append, List.mem_cons, List.not_mem_nil, or_false, h1, h2]
  rcases hs with rfl | rfl <;> decide

theorem shape_space {y mo d h mi s : Nat} {year rest t : Str} {sep : Char} (hs : Shape y mo d h mi s year sep rest t) :
    ' ' ∈ t ↔ sep = ' ' ∨ ' ' ∈ rest := by
  obtain ⟨mo', d', h', mi', s', ht, hy, hmo, hd, hh', hmi, hs', -⟩ := hs
  have e0 := numeral_no_space hy
  have e1 := numeral_no_space hmo.1
  have e2 := numeral_no_space hd.1
  have e3 := numeral_no_space hh'.1
  have e4 := numeral_no_space hmi.1
  have e5 := numeral_no_space hs'.1
  have d1 : (' ' : Char) ≠ '-' := by decide
  have d2 : (' ' : Char) ≠ ':' := by decide
  rw [ht]
  simp only [show ":".toList = [':'] from rfl, show "-".toList = ['-'] from rfl, List.mem_append, List.mem_cons, List.not_mem_nil, or_false, e0, e1,
    e2, e3, e4, e5, d1, d2, false_or, eq_comm]

/-- C83: the text the tests of the repository use, `Utc::now().to_string()`, is accepted. It is neither in RFC 3339 nor a
date-time stamp, as the Recommendation requires it to be. -/
theorem C83_now {E : Env} (C : ChronoDates E) (t : Str) (h : IsNow t) :
    E.parseDate t = .ok () ∧ ¬ IsRfc3339 t ∧ ¬ IsDateTimeStamp t := by
  obtain ⟨y, mo, d, hh, mi, s, year, f, hs, h4, h24, h60, hf, -⟩ := h
  have hspace : ' ' ∈ t := (shape_space hs).mpr (.inl rfl)
  refine ⟨?_, ?_, ?_⟩
  · have hd : IsDateText t := shape_text (w := [' ']) (z := "UTC".toList) hs h4 (by decide) h24 h60 hf (fun c hc => by
      rcases List.mem_singleton.mp hc with rfl; decide) (.utc (by decide) (by decide) (by decide))
    exact (C83_dates C t (dateText_settled hd)).mpr hd
  · rintro ⟨y, mo, d, hh, mi, s, year, sep, f, z, hs, -, hsep, -, -, hf, hz⟩
    rcases (shape_space hs).mp hspace with rfl | hm
    · revert hsep; decide
    · rcases List.mem_append.mp hm with hm | hm
      · exact fraction_no_space hf hm
      · rcases hz with (rfl | rfl) | hz
        · revert hm; decide
        · revert hm; decide
        · exact offset_no_space hz hm
  · rintro ⟨year, late, r, ⟨y, mo, d, hh, mi, s, f, z, hs, -, -, -, hf, hz, -⟩, ht⟩
    have hr : ' ' ∈ r := by
      rcases ht with rfl | rfl
      · exact hspace
      · simpa using hspace
    rcases (shape_space hs).mp hr with e | hm
    · revert e; decide
    · rcases List.mem_append.mp hm with hm | hm
      · exact fraction_no_space hf hm
      · rcases hz with rfl | hz
        · revert hm; decide
        · exact offset_no_space hz hm

/-- C83: so every document can be signed, and is accepted, with a creation date that the Recommendation does not allow. -/
theorem C83_interop {E : Env} (C : ChronoDates E) (L : E.JcsLaws) (N : E.NumLaws) (K : E.EdLaws) (kp : E.EdKP) (opts : Proof) (now : Str)
    (hnow : IsNow now) (ht : opts.typ = "DataIntegrityProof".toList) (hs : opts.cryptosuite = some "eddsa-jcs-2022".toList)
    (hp : opts.proofPurpose ≠ .unknown) (hval : opts.proofValue = []) :
    (∀ v : VC E, VCComplete v → v.proof = none → Survives E v.credentialSubject.1 → v.credentialSubject.1.depth ≤ 126 →
      ∃ signed q t, sign E (VC E) kp v { opts with created := some now } = .ok signed ∧ signed.proof = some q ∧ q.created = some now ∧
        signed.toJson = .ok t ∧ verify E (VC E) (E.edPub kp) (utf8 t.text) opts.proofPurpose = .ok ⟨true, some v⟩ ∧ ¬ IsDateTimeStamp now) ∧
    (∀ v : VP E, VPComplete v → v.proof = none → (∀ c ∈ v.verifiableCredential, Survives E c.credentialSubject.1) →
      (∀ c ∈ v.verifiableCredential, c.credentialSubject.1.depth ≤ 124) →
      ∃ signed q t, sign E (VP E) kp v { opts with created := some now } = .ok signed ∧ signed.proof = some q ∧ q.created = some now ∧
        signed.toJson = .ok t ∧ verify E (VP E) (E.edPub kp) (utf8 t.text) opts.proofPurpose = .ok ⟨true, some v⟩ ∧ ¬ IsDateTimeStamp now) := by
  obtain ⟨h1, -, h3⟩ := C83_now C now hnow
  have hg : GoodOptions E { opts with created := some now } := ⟨ht, hs, now, rfl, h1⟩
  refine ⟨fun v hv hn hsu hd => ?_, fun v hv hn hsu hd => ?_⟩
  · obtain ⟨s, g1, -, g2⟩ := C31_vc L N K kp v { opts with created := some now } hv hn hg hp hval
    obtain ⟨t, g3, g4⟩ := g2 hsu hd
    obtain ⟨_, _, _, text, _, e⟩ := ((C32_vc L kp v _).1 _).mp g1
    exact ⟨s, _, t, g1, by rw [e], rfl, g3, g4, h3⟩
  · obtain ⟨s, g1, -, g2⟩ := C31_vp L N K kp v { opts with created := some now } hv hn hg hp hval
    obtain ⟨t, g3, g4⟩ := g2 fun c hc => ⟨hsu c hc, hd c hc⟩
    obtain ⟨_, _, _, text, _, e⟩ := ((C32_vp L kp v _).1 _).mp g1
    exact ⟨s, _, t, g1, by rw [e], rfl, g3, g4, h3⟩

/-! ### A world, and cases -/

/-- An environment with the dates of chrono. -/
@[reducible] def dated (E : Env) : Env :=
  { E with parseDate := fun t => if Chrono.accepts t then .ok () else .error "input contains invalid characters".toList }

theorem dated_chrono (E : Env) : ChronoDates (dated E) := by
  intro t _
  show (if Chrono.accepts t = true then (Except.ok () : Except Str Unit) else _) = _ ↔ _
  split
  · rename_i h; exact iff_of_true rfl h
  · rename_i h; exact iff_of_false (fun h' => nomatch h') h

theorem numeral_of {k n : Nat} {d : Str} (h : d ≠ [] ∧ d.length ≤ k ∧ d.all Chrono.isDigit = true ∧
    n = Nat.ofDigits 10 (d.reverse.map fun c => c.toNat - 48)) : Numeral k n d :=
  ⟨h.1, h.2.1, (Chrono.digits_iff d).mpr (List.all_eq_true.mp h.2.2.1), h.2.2.2⟩

theorem decimals_of {d : Str} (h : d.all Chrono.isDigit = true) : Decimals d := (Chrono.digits_iff d).mpr (List.all_eq_true.mp h)

/-- `C83_now`: a text printed for an instant. -/
theorem sample_now : IsNow "2024-02-29 12:34:56.789012345 UTC".toList :=
  ⟨2024, 2, 29, 12, 34, 56, "2024".toList, ".789012345".toList,
    ⟨"02".toList, "29".toList, "12".toList, "34".toList, "56".toList, by decide, numeral_of (by decide), ⟨numeral_of (by decide), by decide⟩,
      ⟨numeral_of (by decide), by decide⟩, ⟨numeral_of (by decide), by decide⟩, ⟨numeral_of (by decide), by decide⟩,
      ⟨numeral_of (by decide), by decide⟩, ⟨by decide, by decide, by decide, fun _ => ⟨by decide, fun _ => ⟨by decide, by decide⟩⟩⟩, by decide⟩,
    by decide, by decide, by decide, .some (by decide) (decimals_of (by decide)), by decide⟩

example : (dated Toy.env).parseDate "2024-02-29 12:34:56.789012345 UTC".toList = .ok () ∧
    ¬ IsDateTimeStamp "2024-02-29 12:34:56.789012345 UTC".toList :=
  ⟨(C83_now (dated_chrono _) _ sample_now).1, (C83_now (dated_chrono Toy.env) _ sample_now).2.2⟩

/-- `C83_stamp`: the first second of the year 10000, and the end of a day. -/
theorem sample_stamps : IsStamp "10000".toList false "10000-01-01T00:00:00Z".toList ∧ IsStamp "2024".toList true "2024-02-29T24:00:00.0+14:00".toList ∧
    IsStamp "2024".toList false "2024-02-29T23:59:59.5-05:30".toList := by
  have two : ∀ (n : Nat) (s : Str), (s ≠ [] ∧ s.length ≤ 2 ∧ s.all Chrono.isDigit = true ∧ n = Nat.ofDigits 10 (s.reverse.map fun c => c.toNat - 48)) →
    s.length = 2 → Two n s := fun n s h hl => ⟨numeral_of h, hl⟩
  refine ⟨⟨10000, 1, 1, 0, 0, 0, [], "Z".toList, ⟨"01".toList, "01".toList, "00".toList, "00".toList, "00".toList, by decide, numeral_of (by decide),
      two _ _ (by decide) rfl, two _ _ (by decide) rfl, two _ _ (by decide) rfl, two _ _ (by decide) rfl, two _ _ (by decide) rfl,
      ⟨by decide, by decide, by decide, fun h => absurd h (by decide)⟩, by decide⟩, by decide, by decide, by decide, .none, .inl rfl, fun _ => by decide, fun h => nomatch h⟩,
    ⟨2024, 2, 29, 24, 0, 0, ".0".toList, "+14:00".toList, ⟨"02".toList, "29".toList, "24".toList, "00".toList, "00".toList, by decide,
      numeral_of (by decide), two _ _ (by decide) rfl, two _ _ (by decide) rfl, two _ _ (by decide) rfl, two _ _ (by decide) rfl,
      two _ _ (by decide) rfl, ⟨by decide, by decide, by decide, fun _ => ⟨by decide, fun _ => ⟨by decide, by decide⟩⟩⟩, by decide⟩, by decide, by decide,
      by decide, .some (by decide) (decimals_of (by decide)), .inr ⟨'+', 14, 0, "14".toList, "00".toList, by decide, by decide, two _ _ (by decide) rfl,
        two _ _ (by decide) rfl, by decide, by decide⟩, (fun h => nomatch h), fun _ => by decide⟩,
    ⟨2024, 2, 29, 23, 59, 59, ".5".toList, "-05:30".toList, ⟨"02".toList, "29".toList, "23".toList, "59".toList, "59".toList, by decide,
      numeral_of (by decide), two _ _ (by decide) rfl, two _ _ (by decide) rfl, two _ _ (by decide) rfl, two _ _ (by decide) rfl,
      two _ _ (by decide) rfl, ⟨by decide, by decide, by decide, fun _ => ⟨by decide, fun _ => ⟨by decide, by decide⟩⟩⟩, by decide⟩, by decide, by decide,
      by decide, .some (by decide) (decimals_of (by decide)), .inr ⟨'-', 5, 30, "05".toList, "30".toList, by decide, by decide, two _ _ (by decide) rfl,
        two _ _ (by decide) rfl, by decide, by decide⟩, fun _ => by decide, fun h => nomatch h⟩⟩

example : (dated Toy.env).parseDate "10000-01-01T00:00:00Z".toList ≠ .ok () ∧ (dated Toy.env).parseDate "2024-02-29T24:00:00.0+14:00".toList ≠ .ok () ∧
    (dated Toy.env).parseDate "2024-02-29T23:59:59.5-05:30".toList = .ok () :=
  ⟨fun h => absurd ((C83_stamp (dated_chrono _) _ _ _ sample_stamps.1).mp h).1 (by decide),
   fun h => absurd ((C83_stamp (dated_chrono _) _ _ _ sample_stamps.2.1).mp h).2 (by decide),
   (C83_stamp (dated_chrono _) _ _ _ sample_stamps.2.2).mpr ⟨rfl, rfl⟩⟩

/-- `C83_signed`: the first second of the year 10000 with a sign, the end of a day of the year -2024, and a year out of range. -/
example : (dated Toy.env).parseDate "+10000-01-01T00:00:00Z".toList = .ok () ∧ (dated Toy.env).parseDate "-10000-01-01T00:00:00Z".toList = .ok () ∧
    (dated Toy.env).parseDate "-2024-02-29T24:00:00.0+14:00".toList ≠ .ok () :=
  ⟨(C83_signed (dated_chrono _) '+' _ _ _ 10000 (by decide) sample_stamps.1 (numeral_of (by decide)) (by decide)).mpr ⟨by decide, rfl⟩,
   (C83_signed (dated_chrono _) '-' _ _ _ 10000 (by decide) sample_stamps.1 (numeral_of (by decide)) (by decide)).mpr ⟨by decide, rfl⟩,
   fun h => absurd ((C83_signed (dated_chrono _) '-' _ _ _ 2024 (by decide) sample_stamps.2.1 (numeral_of (by decide)) (by decide)).mp h).2 (by decide)⟩

/-- `C83_dates`: a date before the year 0 that is no date-time stamp, with a month of one digit. -/
example : (dated Toy.env).parseDate "-44-3-15 12:00:00 UTC".toList = .ok () := by
  have h : IsDateText "-44-3-15 12:00:00 UTC".toList := (Chrono.accepts_iff _).mp (by decide)
  exact (C83_dates (dated_chrono _) _ (dateText_settled h)).mpr h

/-- `C83_rfc3339`: a leap second in lower case. -/
example : (dated Toy.env).parseDate "1990-12-31t23:59:60z".toList = .ok () :=
  C83_rfc3339 (dated_chrono _) _ ⟨1990, 12, 31, 23, 59, 60, "1990".toList, 't', [], "z".toList,
    ⟨"12".toList, "31".toList, "23".toList, "59".toList, "60".toList, by decide, numeral_of (by decide), ⟨numeral_of (by decide), by decide⟩,
      ⟨numeral_of (by decide), by decide⟩, ⟨numeral_of (by decide), by decide⟩, ⟨numeral_of (by decide), by decide⟩,
      ⟨numeral_of (by decide), by decide⟩, ⟨by decide, by decide, by decide, fun h => absurd h (by decide)⟩, by decide⟩,
    by decide, by decide, by decide, by decide, .none, .inl (.inr rfl)⟩

/-- `C83_dates`, `C83_options`: the 29th of February of a year that is no leap year, and what it does to options. -/
example : ¬ GoodOptions (dated Toy.env) { toyProof with created := some "2023-02-29T00:00:00Z".toList } := by
  have hu : Settled "2023-02-29T00:00:00Z".toList :=
    numeral_start (w := []) (numeral_of (k := 4) (n := 2023) (d := "2023".toList) (by decide)) Chrono.blank_nil
  rw [C83_options (dated_chrono Toy.env) _ (by rintro c h; cases h; exact hu)]
  rintro ⟨-, -, c, h, hd⟩
  cases h
  exact absurd ((Chrono.accepts_iff _).mpr hd) (by decide)

/-- `C83_refused`: nothing is signed with that date. -/
example (v : VC (dated Toy.env)) : ∃ m, sign (dated Toy.env) (VC (dated Toy.env)) (7 : UInt8) v
    { toyProof with created := some "2023-02-29T00:00:00Z".toList } = .error (.proofGenerationError m) := by
  refine (C83_refused (dated_chrono Toy.env) ⟨Toy.jcsLaws.1, Toy.jcsLaws.2, Toy.jcsLaws.3, Toy.jcsLaws.4⟩ _ ?_).1 _ v
  intro c h
  cases h
  exact ⟨numeral_start (w := []) (numeral_of (k := 4) (n := 2023) (d := "2023".toList) (by decide)) Chrono.blank_nil,
    fun hd => absurd ((Chrono.accepts_iff _).mpr hd) (by decide)⟩

/-- `C83_interop`: a credential and a presentation in a world of the standard algorithms. -/
theorem dated_documents {E : Env} {seed : E.EdKP → Bytes} {bits : E.F → Double.F64} (S : Standard E seed bits) (kp : E.EdKP) :
    (∃ signed t, sign (dated E) (VC (dated E)) kp ⟨["c".toList], ["t".toList], ⟨.str "x".toList, trivial⟩, none, "i".toList, "j".toList⟩
        { toyProof with created := some "2024-02-29 12:34:56.789012345 UTC".toList } = .ok signed ∧ signed.toJson = .ok t ∧
      ∃ v, verify (dated E) (VC (dated E)) ((dated E).edPub kp) (utf8 t.text) .assertionMethod = .ok ⟨true, some v⟩) ∧
    ∃ signed t, sign (dated E) (VP (dated E)) kp ⟨["c".toList], ["t".toList], [⟨["c".toList], ["t".toList], ⟨.str "x".toList, trivial⟩, none, "i".toList, "j".toList⟩], none, some "h".toList⟩
        { toyProof with created := some "2024-02-29 12:34:56.789012345 UTC".toList } = .ok signed ∧ signed.toJson = .ok t ∧
      ∃ v, verify (dated E) (VP (dated E)) ((dated E).edPub kp) (utf8 t.text) .assertionMethod = .ok ⟨true, some v⟩ := by
  obtain ⟨-, K, -, -, -, N, L⟩ := C81_all S
  obtain ⟨h1, h2⟩ := C83_interop (dated_chrono E) ⟨L.1, L.2, L.3, L.4⟩ N ⟨K.1, K.2⟩ kp toyProof _ sample_now (by decide) (by decide) (by decide) rfl
  obtain ⟨s, q, t, g1, -, -, g2, g3, -⟩ := h1 ⟨["c".toList], ["t".toList], ⟨.str "x".toList, trivial⟩, none, "i".toList, "j".toList⟩
    ⟨by simp, by simp, by simp⟩ rfl (by simp [Survives, Json.nums]) (by simp [Json.depth])
  obtain ⟨s', q', t', k1, -, -, k2, k3, -⟩ := h2 ⟨["c".toList], ["t".toList], [⟨["c".toList], ["t".toList], ⟨.str "x".toList, trivial⟩, none, "i".toList, "j".toList⟩], none, some "h".toList⟩
    ⟨by simp, by simp, by simp⟩ rfl (by simp [Survives, Json.nums]) (by simp [Json.depth])
  exact ⟨⟨s, t, g1, g2, _, g3⟩, s', t', k1, k2, _, k3⟩

example := dated_documents standard_standard sampleKey

end Verif.Props
