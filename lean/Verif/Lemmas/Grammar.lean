import Verif.Spec.Grammar

/-
The reader of `Json/Raw.lean` accepts exactly the texts of the grammar in `Spec/Grammar.lean`.
-/

namespace Verif
open Spec

/-! ### White space -/

theorem isWs_iff (b : UInt8) : isWs b = true ↔ b ∈ ([0x20, 0x0a, 0x09, 0x0d] : Bytes) := by
  simp [isWs, or_assoc]

theorem Spec.White.nil : White [] := by intro b hb; cases hb

theorem Spec.White.of_cons {b : UInt8} {w : Bytes} (h : White (b :: w)) : isWs b = true ∧ White w :=
  ⟨(isWs_iff b).mpr (h b (by simp)), fun c hc => h c (by simp [hc])⟩

theorem Spec.White.append {a b : Bytes} (ha : White a) (hb : White b) : White (a ++ b) := by
  intro c hc
  rcases List.mem_append.mp hc with h | h
  · exact ha c h
  · exact hb c h

theorem skipWs_white {w : Bytes} (h : White w) (r : Bytes) : skipWs (w ++ r) = skipWs r := by
  induction w with
  | nil => rfl
  | cons b w ih =>
    obtain ⟨h1, h2⟩ := White.of_cons h
    simp only [List.cons_append, skipWs, h1, if_true, ih h2]

theorem skipWs_idem (r : Bytes) : skipWs (skipWs r) = skipWs r := by
  induction r with
  | nil => rfl
  | cons b r ih =>
    simp only [skipWs]
    split
    · exact ih
    · rename_i h; simp [skipWs, h]

theorem skipWs_split (r : Bytes) : ∃ w, White w ∧ r = w ++ skipWs r := by
  induction r with
  | nil => exact ⟨[], White.nil, rfl⟩
  | cons b r ih =>
    simp only [skipWs]
    split
    · rename_i h
      obtain ⟨w, hw, e⟩ := ih
      refine ⟨b :: w, ?_, by rw [List.cons_append, ← e]⟩
      intro c hc
      rcases List.mem_cons.mp hc with rfl | hc
      · exact (isWs_iff _).mp h
      · exact hw c hc
    · exact ⟨[], White.nil, rfl⟩

theorem skipWs_nil_iff (r : Bytes) : skipWs r = [] ↔ White r := by
  constructor
  · intro h
    obtain ⟨w, hw, e⟩ := skipWs_split r
    rw [h, List.append_nil] at e
    rw [e]; exact hw
  · intro h
    have := skipWs_white h []
    rw [List.append_nil] at this
    rw [this]; rfl

theorem parseValue_skip (f : Nat) (bs : Bytes) : Raw.parseValue f (skipWs bs) = Raw.parseValue f bs := by
  cases f with
  | zero => rfl
  | succ f => simp only [Raw.parseValue, skipWs_idem]

theorem parseMember_skip (f : Nat) (bs : Bytes) : Raw.parseMember f (skipWs bs) = Raw.parseMember f bs := by
  cases f with
  | zero => rfl
  | succ f => simp only [Raw.parseMember, skipWs_idem]

theorem parseValue_white {w : Bytes} (h : White w) (f : Nat) (r : Bytes) :
    Raw.parseValue f (w ++ r) = Raw.parseValue f r := by
  rw [← parseValue_skip, skipWs_white h, parseValue_skip]

theorem parseMember_white {w : Bytes} (h : White w) (f : Nat) (r : Bytes) :
    Raw.parseMember f (w ++ r) = Raw.parseMember f r := by
  rw [← parseMember_skip, skipWs_white h, parseMember_skip]

/-! ### Strings -/

theorem isDigit_iff (b : UInt8) : isDigit b = true ↔ Digit b := by
  simp [isDigit, Digit]

theorem isHexByte_iff (b : UInt8) : isHexByte b = true ↔ HexDigit b := by
  simp [isHexByte, HexDigit, isDigit_iff, or_assoc]

theorem isSimpleEsc_iff (b : UInt8) :
    isSimpleEsc b = true ↔ b ∈ ([0x22, 0x5c, 0x2f, 0x62, 0x66, 0x6e, 0x72, 0x74] : Bytes) := by
  simp [isSimpleEsc, or_assoc]

theorem scanStr_sound (n : Nat) : ∀ (r : Bytes), r.length ≤ n → ∀ s rest, scanStr r = some (s, rest) →
    StringText s ∧ r = s ++ 0x22 :: rest := by
  induction n with
  | zero =>
    intro r hr s rest h
    cases r with
    | nil => simp [scanStr] at h
    | cons b r => simp at hr
  | succ n ih =>
    intro r hr s rest h
    cases r with
    | nil => simp [scanStr] at h
    | cons b r =>
      rw [scanStr.eq_def] at h
      simp only at h
      split at h
      · rename_i hb
        cases h
        exact ⟨.nil, by rw [hb]; rfl⟩
      · rename_i hq
        split at h
        · rename_i hb
          subst hb
          cases r with
          | nil => cases h
          | cons e r' =>
            simp only at h
            split at h
            · rename_i he
              obtain ⟨p, hp, e'⟩ := Option.map_eq_some_iff.mp h
              cases e'
              obtain ⟨h1, h2⟩ := ih r' (by simp at hr; omega) p.1 p.2 hp
              exact ⟨.esc ((isSimpleEsc_iff e).mp he) h1, by rw [h2]; simp⟩
            · split at h
              · rename_i he
                subst he
                split at h
                · rename_i a b c d r''
                  split at h
                  · rename_i hx
                    simp only [Bool.and_eq_true, isHexByte_iff] at hx
                    obtain ⟨p, hp, e'⟩ := Option.map_eq_some_iff.mp h
                    cases e'
                    obtain ⟨h1, h2⟩ := ih r'' (by simp at hr; omega) p.1 p.2 hp
                    exact ⟨.uni hx.1.1.1 hx.1.1.2 hx.1.2 hx.2 h1, by rw [h2]; simp⟩
                  · cases h
                · cases h
              · cases h
        · rename_i hb
          split at h
          · cases h
          · rename_i hc
            obtain ⟨p, hp, e'⟩ := Option.map_eq_some_iff.mp h
            cases e'
            obtain ⟨h1, h2⟩ := ih r (by simp at hr; omega) p.1 p.2 hp
            exact ⟨.plain (by omega) hq hb h1, by rw [h2]; simp⟩

theorem isStrTok_of_text {s : Bytes} (h : StringText s) : IsStrTok s := by
  intro rest
  induction h with
  | nil => rw [List.nil_append, scanStr.eq_def]; rfl
  | plain h1 h2 h3 _ ih =>
    rw [List.cons_append, scanStr.eq_def]
    simp only [if_neg h2, if_neg h3, if_neg (Nat.not_lt.mpr h1), ih]
    rfl
  | esc he _ ih =>
    simp only [List.cons_append]
    rw [scanStr.eq_def]
    simp only [show ((0x5c : UInt8) = 0x22) = False by decide, if_false, if_true, (isSimpleEsc_iff _).mpr he, ih]
    rfl
  | uni ha hb hc hd _ ih =>
    simp only [List.cons_append]
    rw [scanStr.eq_def]
    simp only [show ((0x5c : UInt8) = 0x22) = False by decide, if_false, if_true,
      show isSimpleEsc 0x75 = false by decide, Bool.false_eq_true, (isHexByte_iff _).mpr ha, (isHexByte_iff _).mpr hb,
      (isHexByte_iff _).mpr hc, (isHexByte_iff _).mpr hd, Bool.and_self, ih]
    rfl

theorem scanStr_iff (r s rest : Bytes) :
    scanStr r = some (s, rest) ↔ StringText s ∧ r = s ++ 0x22 :: rest := by
  constructor
  · exact scanStr_sound r.length r (Nat.le_refl _) s rest
  · rintro ⟨h, rfl⟩; exact isStrTok_of_text h rest

/-- A string token is what the grammar says. -/
theorem isStrTok_iff (s : Bytes) : IsStrTok s ↔ StringText s :=
  ⟨fun h => ((scanStr_iff _ _ _).mp (h [])).1, isStrTok_of_text⟩

/-! ### Numbers -/

theorem spanDigits_sound (r : Bytes) : r = (spanDigits r).1 ++ (spanDigits r).2 ∧ ∀ b ∈ (spanDigits r).1, Digit b := by
  induction r with
  | nil => simp [spanDigits]
  | cons b r ih =>
    simp only [spanDigits]
    split
    · rename_i h
      refine ⟨by simpa using ih.1, ?_⟩
      intro c hc
      rcases List.mem_cons.mp hc with rfl | hc
      · exact (isDigit_iff _).mp h
      · exact ih.2 c hc
    · simp

theorem spanDigits_all {l : Bytes} (h : ∀ b ∈ l, Digit b) : spanDigits l = (l, []) := by
  induction l with
  | nil => rfl
  | cons b l ih =>
    simp [spanDigits, (isDigit_iff b).mpr (h b (by simp)), ih fun c hc => h c (by simp [hc])]

theorem scanInt_sound {r i rest : Bytes} (h : scanInt r = some (i, rest)) : IntPart i ∧ r = i ++ rest := by
  cases r with
  | nil => cases h
  | cons b r =>
    simp only [scanInt] at h
    split at h
    · rename_i hb
      subst hb
      cases r with
      | nil => cases h; exact ⟨.inl rfl, rfl⟩
      | cons c r =>
        simp only at h
        split at h
        · cases h
        · cases h; exact ⟨.inl rfl, rfl⟩
    · rename_i hb
      split at h
      · rename_i hd
        cases h
        have := spanDigits_sound r
        refine ⟨.inr ⟨⟨by simp, ?_⟩, by simpa using hb⟩, by rw [List.cons_append, ← this.1]⟩
        intro c hc
        rcases List.mem_cons.mp hc with rfl | hc
        · exact (isDigit_iff _).mp hd
        · exact this.2 c hc
      · cases h

theorem scanFrac_sound {r i rest : Bytes} (h : scanFrac r = some (i, rest)) : FracPart i ∧ r = i ++ rest := by
  cases r with
  | nil => cases h; exact ⟨.inl rfl, rfl⟩
  | cons b r =>
    simp only [scanFrac] at h
    split at h
    · rename_i hb
      subst hb
      split at h
      · cases h
      · rename_i hn
        cases h
        have := spanDigits_sound r
        exact ⟨.inr ⟨_, ⟨hn, this.2⟩, rfl⟩, by rw [List.cons_append, ← this.1]⟩
    · cases h; exact ⟨.inl rfl, rfl⟩

theorem scanSign_sound (r : Bytes) :
    (scanSign r).1 ∈ ([[], [0x2b], [0x2d]] : List Bytes) ∧ r = (scanSign r).1 ++ (scanSign r).2 := by
  cases r with
  | nil => simp [scanSign]
  | cons b r =>
    simp only [scanSign]
    split
    · rename_i h; rcases h with rfl | rfl <;> simp
    · simp

theorem scanExp_sound {r i rest : Bytes} (h : scanExp r = some (i, rest)) : ExpPart i ∧ r = i ++ rest := by
  cases r with
  | nil => cases h; exact ⟨.inl rfl, rfl⟩
  | cons b r =>
    simp only [scanExp] at h
    split at h
    · rename_i hb
      split at h
      · cases h
      · rename_i hn
        cases h
        have h1 := scanSign_sound r
        have h2 := spanDigits_sound (scanSign r).2
        refine ⟨.inr ⟨_, _, _, hb, h1.1, ⟨hn, h2.2⟩, rfl⟩, ?_⟩
        rw [List.cons_append, List.append_assoc, ← h2.1, ← h1.2]
    · cases h; exact ⟨.inl rfl, rfl⟩

theorem scanUNum_sound {r t rest : Bytes} (h : scanUNum r = some (t, rest)) :
    (∃ i f e, IntPart i ∧ FracPart f ∧ ExpPart e ∧ t = i ++ (f ++ e)) ∧ r = t ++ rest := by
  unfold scanUNum at h
  split at h
  · cases h
  · rename_i i r1 h1
    split at h
    · cases h
    · rename_i f r2 h2
      split at h
      · cases h
      · rename_i e r3 h3
        cases h
        obtain ⟨a1, rfl⟩ := scanInt_sound h1
        obtain ⟨a2, rfl⟩ := scanFrac_sound h2
        obtain ⟨a3, rfl⟩ := scanExp_sound h3
        exact ⟨⟨_, _, _, a1, a2, a3, rfl⟩, by simp⟩

theorem scanNum_sound {r t rest : Bytes} (h : scanNum r = some (t, rest)) : NumberText t ∧ r = t ++ rest := by
  cases r with
  | nil => cases h
  | cons b r =>
    simp only [scanNum] at h
    split at h
    · rename_i hb
      subst hb
      obtain ⟨p, hp, e'⟩ := Option.map_eq_some_iff.mp h
      cases e'
      obtain ⟨⟨i, f, e, h1, h2, h3, h4⟩, h5⟩ := scanUNum_sound hp
      exact ⟨⟨[0x2d], i, f, e, by simp, h1, h2, h3, by rw [h4]; rfl⟩, by rw [h5]; rfl⟩
    · obtain ⟨⟨i, f, e, h1, h2, h3, h4⟩, h5⟩ := scanUNum_sound h
      exact ⟨⟨[], i, f, e, by simp, h1, h2, h3, by rw [h4]; rfl⟩, h5⟩

theorem not_digit_of {b : UInt8} (h : b = 0x2e ∨ b = 0x65 ∨ b = 0x45) : isDigit b = false := by
  rcases h with rfl | rfl | rfl <;> decide

theorem scanExp_text {e : Bytes} (h : ExpPart e) : scanExp e = some (e, []) := by
  rcases h with rfl | ⟨c, s, d, hc, hs, hd, rfl⟩
  · rfl
  · simp only [scanExp, if_pos hc]
    have hsig : scanSign (s ++ d) = (s, d) := by
      simp only [List.mem_cons, List.not_mem_nil, or_false] at hs
      rcases hs with rfl | rfl | rfl
      · obtain ⟨b, r, rfl⟩ := List.exists_cons_of_ne_nil hd.1
        have hb : Digit b := hd.2 b (by simp)
        have : ¬ (b = 0x2b ∨ b = 0x2d) := by
          rintro (rfl | rfl) <;> revert hb <;> unfold Digit <;> decide
        simp [scanSign, this]
      · simp [scanSign]
      · simp [scanSign]
    simp only [hsig, spanDigits_all hd.2, if_neg hd.1]

theorem Spec.ExpPart.head {e : Bytes} (h : ExpPart e) : e = [] ∨ ∃ c r, e = c :: r ∧ (c = 0x65 ∨ c = 0x45) := by
  rcases h with rfl | ⟨c, s, d, hc, _, _, rfl⟩
  · exact .inl rfl
  · exact .inr ⟨c, _, rfl, hc⟩

/-- Digits followed by something that does not start with a digit. -/
theorem spanDigits_stop {l r : Bytes} (h : ∀ b ∈ l, Digit b) (hr : ∀ b t, r = b :: t → isDigit b = false) :
    spanDigits (l ++ r) = (l, r) := by
  induction l with
  | nil =>
    cases r with
    | nil => rfl
    | cons b r => simp [spanDigits, hr b r rfl]
  | cons b l ih =>
    simp [spanDigits, (isDigit_iff b).mpr (h b (by simp)), ih fun c hc => h c (by simp [hc])]

theorem scanFrac_text {f e : Bytes} (hf : FracPart f) (he : ExpPart e) : scanFrac (f ++ e) = some (f, e) := by
  rcases hf with rfl | ⟨d, hd, rfl⟩
  · rcases he.head with rfl | ⟨c, r, rfl, hc⟩
    · rfl
    · have : c ≠ 0x2e := by rintro rfl; revert hc; decide
      simp [scanFrac, this]
  · simp only [List.cons_append, scanFrac, if_true]
    rw [spanDigits_stop hd.2]
    · simp only [if_neg hd.1]
    · intro b t hb
      rcases he.head with rfl | ⟨c, r, rfl, hc⟩
      · cases hb
      · cases hb; exact not_digit_of (.inr hc)

theorem scanInt_text {i r : Bytes} (hi : IntPart i) (hr : ∀ b t, r = b :: t → isDigit b = false) :
    scanInt (i ++ r) = some (i, r) := by
  rcases hi with rfl | ⟨hd, h0⟩
  · cases r with
    | nil => rfl
    | cons b r => simp [scanInt, hr b r rfl]
  · obtain ⟨b, l, rfl⟩ := List.exists_cons_of_ne_nil hd.1
    have hb : b ≠ 0x30 := by simpa using h0
    have := spanDigits_stop (l := l) (r := r) (fun c hc => hd.2 c (by simp [hc])) hr
    simp only [List.cons_append, scanInt, if_neg hb, (isDigit_iff b).mpr (hd.2 b (by simp)), if_true, this]

theorem fracExp_head {f e : Bytes} (hf : FracPart f) (he : ExpPart e) :
    ∀ b t, f ++ e = b :: t → isDigit b = false := by
  intro b t h
  rcases hf with rfl | ⟨d, hd, rfl⟩
  · rcases he.head with rfl | ⟨c, r, rfl, hc⟩
    · cases h
    · cases h; exact not_digit_of (.inr hc)
  · cases h; decide

theorem scanUNum_text {i f e : Bytes} (hi : IntPart i) (hf : FracPart f) (he : ExpPart e) :
    scanUNum (i ++ (f ++ e)) = some (i ++ (f ++ e), []) := by
  simp only [scanUNum, scanInt_text hi (fracExp_head hf he), scanFrac_text hf he, scanExp_text he]

theorem isNumTok_of_text {t : Bytes} (h : NumberText t) : IsNumTok t := by
  obtain ⟨m, i, f, e, hm, hi, hf, he, rfl⟩ := h
  have hu := scanUNum_text hi hf he
  simp only [List.mem_cons, List.not_mem_nil, or_false] at hm
  unfold IsNumTok
  rcases hm with rfl | rfl
  · obtain ⟨b, r, hb, hne⟩ : ∃ b r, i = b :: r ∧ b ≠ 0x2d := by
      rcases hi with rfl | ⟨hd, _⟩
      · exact ⟨_, _, rfl, by decide⟩
      · obtain ⟨b, l, rfl⟩ := List.exists_cons_of_ne_nil hd.1
        refine ⟨b, l, rfl, ?_⟩
        rintro rfl
        have := hd.2 0x2d (by simp)
        revert this; unfold Digit; decide
    subst hb
    simp only [List.nil_append, List.cons_append] at hu ⊢
    simp only [scanNum, if_neg hne, hu]
  · simp only [List.cons_append, List.nil_append, scanNum, if_true, hu]
    rfl

/-- A number token is what the grammar says. -/
theorem isNumTok_iff (t : Bytes) : IsNumTok t ↔ NumberText t :=
  ⟨fun h => (scanNum_sound h).1, isNumTok_of_text⟩

/-! ### Soundness -/

theorem expect_sound {l r rest : Bytes} (h : expect l r = some rest) : r = l ++ rest := by
  induction l generalizing r with
  | nil => cases h; rfl
  | cons a l ih =>
    cases r with
    | nil => cases h
    | cons b r =>
      simp only [expect] at h
      split at h
      · rename_i hab; rw [ih h, hab]; rfl
      · cases h

theorem parse_sound (f : Nat) :
    (∀ bs v rest, Raw.parseValue f bs = some (v, rest) → ∃ w b, White w ∧ ValueText v b ∧ bs = w ++ (b ++ rest)) ∧
    (∀ bs xs rest, Raw.parseTail f bs = some (xs, rest) → ∃ w, White w ∧ ((xs = [] ∧ bs = w ++ 0x5d :: rest) ∨
      ∃ b, ElemsText xs b ∧ bs = w ++ 0x2c :: (b ++ 0x5d :: rest))) ∧
    (∀ bs m rest, Raw.parseMember f bs = some (m, rest) → ∃ w u v b, White w ∧ StringText m.1 ∧ White u ∧ White v ∧
      ValueText m.2 b ∧ bs = w ++ 0x22 :: (m.1 ++ 0x22 :: (u ++ 0x3a :: (v ++ (b ++ rest))))) ∧
    (∀ bs ms rest, Raw.parseMTail f bs = some (ms, rest) → ∃ w, White w ∧ ((ms = [] ∧ bs = w ++ 0x7d :: rest) ∨
      ∃ b, MembersText ms b ∧ bs = w ++ 0x2c :: (b ++ 0x7d :: rest))) := by
  induction f with
  | zero =>
    refine ⟨?_, ?_, ?_, ?_⟩ <;> intro _ _ _ h
    · simp [Raw.parseValue] at h
    · simp [Raw.parseTail] at h
    · simp [Raw.parseMember] at h
    · simp [Raw.parseMTail] at h
  | succ f ih =>
    obtain ⟨ihV, ihT, ihM, ihMT⟩ := ih
    refine ⟨?_, ?_, ?_, ?_⟩
    · intro bs v rest h
      obtain ⟨w, hw, hbs⟩ := skipWs_split bs
      simp only [Raw.parseValue] at h
      split at h
      · cases h
      · rename_i b r hs
        rw [hs] at hbs
        refine ⟨w, ?_⟩
        subst hbs
        split at h
        · rename_i hb
          subst hb
          obtain ⟨p, hp, e⟩ := Option.map_eq_some_iff.mp h
          cases e
          obtain ⟨h1, h2⟩ := (scanStr_iff _ _ _).mp hp
          exact ⟨_, hw, .str h1, by rw [h2]; simp⟩
        · split at h
          · rename_i hb
            subst hb
            obtain ⟨w', hw', hr⟩ := skipWs_split r
            split at h
            · cases h
            · rename_i c r' hs'
              rw [hs'] at hr
              split at h
              · rename_i hc
                subst hc
                cases h
                exact ⟨_, hw, .objNil hw', by rw [hr]; simp⟩
              · split at h
                · cases h
                · rename_i m r1 hm
                  split at h
                  · cases h
                  · rename_i ms r2 hms
                    cases h
                    obtain ⟨u0, u, v, b, h1, h2, h3, h4, h5, h6⟩ := ihM _ _ _ hm
                    rw [h6] at hr
                    obtain ⟨w2, hw2, ⟨rfl, h8⟩ | ⟨b2, h7, h8⟩⟩ := ihMT _ _ _ hms
                    · refine ⟨_, hw, .obj (.one (hw'.append h1) h2 h3 h4 h5 hw2), ?_⟩
                      rw [hr, h8]; simp
                    · refine ⟨_, hw, .obj (.more (hw'.append h1) h2 h3 h4 h5 hw2 h7), ?_⟩
                      rw [hr, h8]; simp
          · split at h
            · rename_i hb
              subst hb
              obtain ⟨w', hw', hr⟩ := skipWs_split r
              split at h
              · cases h
              · rename_i c r' hs'
                rw [hs'] at hr
                split at h
                · rename_i hc
                  subst hc
                  cases h
                  exact ⟨_, hw, .arrNil hw', by rw [hr]; simp⟩
                · split at h
                  · cases h
                  · rename_i x r1 hm
                    split at h
                    · cases h
                    · rename_i xs r2 hms
                      cases h
                      obtain ⟨u0, b, h1, h5, h6⟩ := ihV _ _ _ hm
                      rw [h6] at hr
                      obtain ⟨w2, hw2, ⟨rfl, h8⟩ | ⟨b2, h7, h8⟩⟩ := ihT _ _ _ hms
                      · refine ⟨_, hw, .arr (.one (hw'.append h1) h5 hw2), ?_⟩
                        rw [hr, h8]; simp
                      · refine ⟨_, hw, .arr (.more (hw'.append h1) h5 hw2 h7), ?_⟩
                        rw [hr, h8]; simp
            · split at h
              · rename_i hb
                subst hb
                obtain ⟨p, hp, e⟩ := Option.map_eq_some_iff.mp h
                cases e
                exact ⟨_, hw, .null, by rw [expect_sound hp]; rfl⟩
              · split at h
                · rename_i hb
                  subst hb
                  obtain ⟨p, hp, e⟩ := Option.map_eq_some_iff.mp h
                  cases e
                  exact ⟨_, hw, .true, by rw [expect_sound hp]; rfl⟩
                · split at h
                  · rename_i hb
                    subst hb
                    obtain ⟨p, hp, e⟩ := Option.map_eq_some_iff.mp h
                    cases e
                    exact ⟨_, hw, .false, by rw [expect_sound hp]; rfl⟩
                  · obtain ⟨p, hp, e⟩ := Option.map_eq_some_iff.mp h
                    cases e
                    obtain ⟨h1, h2⟩ := scanNum_sound hp
                    exact ⟨_, hw, .num h1, by rw [h2]⟩
    · intro bs xs rest h
      obtain ⟨w, hw, hbs⟩ := skipWs_split bs
      simp only [Raw.parseTail] at h
      split at h
      · cases h
      · rename_i b r hs
        rw [hs] at hbs
        refine ⟨w, hw, ?_⟩
        split at h
        · rename_i hb
          subst hb
          cases h
          exact .inl ⟨rfl, hbs⟩
        · split at h
          · rename_i hb
            subst hb
            split at h
            · cases h
            · rename_i x r1 hm
              split at h
              · cases h
              · rename_i ys r2 hms
                cases h
                obtain ⟨u0, b, h1, h5, h6⟩ := ihV _ _ _ hm
                right
                obtain ⟨w2, hw2, ⟨rfl, h8⟩ | ⟨b2, h7, h8⟩⟩ := ihT _ _ _ hms
                · exact ⟨_, .one h1 h5 hw2, by rw [hbs, h6, h8]; simp⟩
                · exact ⟨_, .more h1 h5 hw2 h7, by rw [hbs, h6, h8]; simp⟩
          · cases h
    · intro bs m rest h
      obtain ⟨w, hw, hbs⟩ := skipWs_split bs
      simp only [Raw.parseMember] at h
      split at h
      · cases h
      · rename_i b r hs
        rw [hs] at hbs
        split at h
        · rename_i hb
          subst hb
          split at h
          · cases h
          · rename_i k r1 hk
            obtain ⟨u, hu, hr1⟩ := skipWs_split r1
            split at h
            · cases h
            · rename_i c r2 hs2
              rw [hs2] at hr1
              split at h
              · rename_i hc
                subst hc
                split at h
                · cases h
                · rename_i x r3 hx
                  cases h
                  obtain ⟨h1, h2⟩ := (scanStr_iff _ _ _).mp hk
                  obtain ⟨v, b, h3, h4, h5⟩ := ihV _ _ _ hx
                  exact ⟨w, u, v, b, hw, h1, hu, h3, h4, by rw [hbs, h2, hr1, h5]⟩
              · cases h
        · cases h
    · intro bs xs rest h
      obtain ⟨w, hw, hbs⟩ := skipWs_split bs
      simp only [Raw.parseMTail] at h
      split at h
      · cases h
      · rename_i b r hs
        rw [hs] at hbs
        refine ⟨w, hw, ?_⟩
        split at h
        · rename_i hb
          subst hb
          cases h
          exact .inl ⟨rfl, hbs⟩
        · split at h
          · rename_i hb
            subst hb
            split at h
            · cases h
            · rename_i m r1 hm
              split at h
              · cases h
              · rename_i ys r2 hms
                cases h
                obtain ⟨u0, u, v, b, h1, h2, h3, h4, h5, h6⟩ := ihM _ _ _ hm
                right
                obtain ⟨w2, hw2, ⟨rfl, h8⟩ | ⟨b2, h7, h8⟩⟩ := ihMT _ _ _ hms
                · exact ⟨_, .one h1 h2 h3 h4 h5 hw2, by rw [hbs, h6, h8]; simp⟩
                · exact ⟨_, .more h1 h2 h3 h4 h5 hw2 h7, by rw [hbs, h6, h8]; simp⟩
          · cases h

/-! ### Completeness -/

theorem white_numStop {w : Bytes} (h : White w) {r : Bytes} (hr : NumStop r) : NumStop (w ++ r) := by
  cases w with
  | nil => exact hr
  | cons b w =>
    have := h b (by simp)
    simp only [List.mem_cons, List.not_mem_nil, or_false] at this
    simp only [List.cons_append, NumStop, NumEnd]
    rcases this with rfl | rfl | rfl | rfl <;> decide

theorem Spec.ValueText.starts {v : Raw} {b : Bytes} (h : ValueText v b) : StartsOk b := by
  cases h with
  | null => exact ⟨_, _, rfl, by decide, by decide, by decide⟩
  | true => exact ⟨_, _, rfl, by decide, by decide, by decide⟩
  | false => exact ⟨_, _, rfl, by decide, by decide, by decide⟩
  | num ht =>
    obtain ⟨c, r, rfl, hb⟩ := numTok_head ((isNumTok_iff _).mpr ht)
    have := ne_of_digit hb
    exact ⟨c, r, rfl, this.1, this.2.2.2.2.2.2.2.1, this.2.2.2.2.2.2.2.2⟩
  | str => exact ⟨_, _, rfl, by decide, by decide, by decide⟩
  | arrNil => exact ⟨_, _, rfl, by decide, by decide, by decide⟩
  | arr => exact ⟨_, _, rfl, by decide, by decide, by decide⟩
  | objNil => exact ⟨_, _, rfl, by decide, by decide, by decide⟩
  | obj => exact ⟨_, _, rfl, by decide, by decide, by decide⟩

theorem skipWs_starts {w b r : Bytes} (hw : White w) (hb : StartsOk b) : skipWs (w ++ (b ++ r)) = b ++ r := by
  rw [skipWs_white hw]
  obtain ⟨c, t, rfl, h1, _⟩ := hb
  rw [List.cons_append, skipWs_of_not h1]

mutual
theorem parseValue_text {v : Raw} {b : Bytes} (h : ValueText v b) (f : Nat) (hf : 2 * b.length ≤ f) (rest : Bytes)
    (hr : NumStop rest) : Raw.parseValue f (b ++ rest) = some (v, rest) := by
  cases f with
  | zero =>
    exfalso
    obtain ⟨c, t, rfl, _⟩ := h.starts
    simp at hf
  | succ f =>
  cases h with
  | null =>
    simp only [List.cons_append, Raw.parseValue]
    rw [skipWs_of_not (by decide)]
    rfl
  | true =>
    simp only [List.cons_append, Raw.parseValue]
    rw [skipWs_of_not (by decide)]
    rfl
  | false =>
    simp only [List.cons_append, Raw.parseValue]
    rw [skipWs_of_not (by decide)]
    rfl
  | num ht =>
    exact Raw.parseValue_render (.num b) ((isNumTok_iff _).mpr ht) (f + 1) (by simp [Raw.fuel]) rest hr
  | str hs =>
    exact Raw.parseValue_render (.str _) ((isStrTok_iff _).mpr hs) (f + 1) (by simp [Raw.fuel]) rest hr
  | arrNil hw =>
    simp only [List.cons_append, List.append_assoc, List.nil_append, Raw.parseValue]
    rw [skipWs_of_not (by decide)]
    simp only [skipWs_white hw]
    rw [skipWs_of_not (by decide)]
    simp
  | objNil hw =>
    simp only [List.cons_append, List.append_assoc, List.nil_append, Raw.parseValue]
    rw [skipWs_of_not (by decide)]
    simp only [skipWs_white hw]
    rw [skipWs_of_not (by decide)]
    simp
  | arr he =>
    obtain ⟨x, xs', r1, rfl, h1, h2, c, t, h3, h4⟩ := parseElems_text he f (by simp at hf; omega) rest
    simp only [List.cons_append, List.append_assoc, List.nil_append, Raw.parseValue]
    rw [skipWs_of_not (by decide)]
    rw [← parseValue_skip, h3] at h1
    simp only [h3, if_neg h4, h1, h2]
    simp
  | obj he =>
    obtain ⟨x, xs', r1, rfl, h1, h2, c, t, h3, h4⟩ := parseMembers_text he f (by simp at hf; omega) rest
    simp only [List.cons_append, List.append_assoc, List.nil_append, Raw.parseValue]
    rw [skipWs_of_not (by decide)]
    rw [← parseMember_skip, h3] at h1
    simp only [h3, if_neg h4, h1, h2]
    simp
theorem parseElems_text {xs : List Raw} {b : Bytes} (h : ElemsText xs b) (f : Nat) (hf : 2 * b.length + 1 ≤ f)
    (rest : Bytes) : ∃ x xs' r1, xs = x :: xs' ∧ Raw.parseValue f (b ++ 0x5d :: rest) = some (x, r1) ∧
      Raw.parseTail f r1 = some (xs', rest) ∧
      ∃ c t, skipWs (b ++ 0x5d :: rest) = c :: t ∧ c ≠ 0x5d := by
  cases h with
  | one hw hv hw' =>
    rename_i x w b w'
    obtain ⟨g, rfl⟩ : ∃ g, f = g + 1 := ⟨f - 1, by omega⟩
    refine ⟨x, [], w' ++ 0x5d :: rest, rfl, ?_, ?_, ?_⟩
    · simp only [List.append_assoc]
      rw [parseValue_white hw]
      exact parseValue_text hv (g + 1) (by simp at hf; omega) _ (white_numStop hw' (by
        simp only [NumStop, NumEnd]; decide))
    · simp only [Raw.parseTail, skipWs_white hw']
      rw [skipWs_of_not (by decide)]
      simp
    · simp only [List.append_assoc]
      rw [skipWs_starts hw hv.starts]
      obtain ⟨c, t, rfl, _, h2, _⟩ := hv.starts
      exact ⟨c, _, rfl, h2⟩
  | more hw hv hw' he =>
    rename_i x xs w b w' r
    obtain ⟨g, rfl⟩ : ∃ g, f = g + 1 := ⟨f - 1, by omega⟩
    refine ⟨x, xs, w' ++ 0x2c :: (r ++ 0x5d :: rest), rfl, ?_, ?_, ?_⟩
    · simp only [List.append_assoc, List.cons_append]
      rw [parseValue_white hw]
      exact parseValue_text hv (g + 1) (by simp at hf; omega) _ (white_numStop hw' (by
        simp only [NumStop, NumEnd]; decide))
    · obtain ⟨y, ys, r1, rfl, h1, h2, _⟩ := parseElems_text he g (by simp at hf; omega) rest
      simp only [Raw.parseTail, skipWs_white hw']
      rw [skipWs_of_not (by decide)]
      simp only [show ((0x2c : UInt8) = 0x5d) = False by decide, if_false, if_true, h1, h2]
    · simp only [List.append_assoc]
      rw [skipWs_starts hw hv.starts]
      obtain ⟨c, t, rfl, _, h2, _⟩ := hv.starts
      exact ⟨c, _, rfl, h2⟩
theorem parseMembers_text {xs : List (Bytes × Raw)} {b : Bytes} (h : MembersText xs b) (f : Nat)
    (hf : 2 * b.length + 1 ≤ f) (rest : Bytes) :
    ∃ x xs' r1, xs = x :: xs' ∧ Raw.parseMember f (b ++ 0x7d :: rest) = some (x, r1) ∧
      Raw.parseMTail f r1 = some (xs', rest) ∧
      ∃ c t, skipWs (b ++ 0x7d :: rest) = c :: t ∧ c ≠ 0x7d := by
  cases h with
  | one hw hk hu hv' hv hw' =>
    rename_i k x w u v b w'
    obtain ⟨g, rfl⟩ : ∃ g, f = g + 1 := ⟨f - 1, by omega⟩
    refine ⟨(k, x), [], w' ++ 0x7d :: rest, rfl, ?_, ?_, ?_⟩
    · simp only [List.append_assoc, List.cons_append]
      rw [parseMember_white hw]
      simp only [Raw.parseMember]
      rw [skipWs_of_not (by decide)]
      simp only [if_true, isStrTok_of_text hk _]
      rw [skipWs_white hu, skipWs_of_not (by decide)]
      simp only [if_true]
      rw [parseValue_white hv', parseValue_text hv g (by simp at hf; omega) _ (white_numStop hw' (by
        simp only [NumStop, NumEnd]; decide))]
    · simp only [Raw.parseMTail, skipWs_white hw']
      rw [skipWs_of_not (by decide)]
      simp
    · simp only [List.append_assoc, List.cons_append]
      rw [skipWs_white hw, skipWs_of_not (by decide)]
      exact ⟨_, _, rfl, by decide⟩
  | more hw hk hu hv' hv hw' he =>
    rename_i k x xs w u v b w' r
    obtain ⟨g, rfl⟩ : ∃ g, f = g + 1 := ⟨f - 1, by omega⟩
    refine ⟨(k, x), xs, w' ++ 0x2c :: (r ++ 0x7d :: rest), rfl, ?_, ?_, ?_⟩
    · simp only [List.append_assoc, List.cons_append]
      rw [parseMember_white hw]
      simp only [Raw.parseMember]
      rw [skipWs_of_not (by decide)]
      simp only [if_true, isStrTok_of_text hk _]
      rw [skipWs_white hu, skipWs_of_not (by decide)]
      simp only [if_true]
      rw [parseValue_white hv', parseValue_text hv g (by simp at hf; omega) _ (white_numStop hw' (by
        simp only [NumStop, NumEnd]; decide))]
    · obtain ⟨y, ys, r1, rfl, h1, h2, _⟩ := parseMembers_text he g (by simp at hf; omega) rest
      simp only [Raw.parseMTail, skipWs_white hw']
      rw [skipWs_of_not (by decide)]
      simp only [show ((0x2c : UInt8) = 0x7d) = False by decide, if_false, if_true, h1, h2]
    · simp only [List.append_assoc, List.cons_append]
      rw [skipWs_white hw, skipWs_of_not (by decide)]
      exact ⟨_, _, rfl, by decide⟩
end

/-- The reader accepts exactly the texts of the grammar and returns the tree they spell. -/
theorem Raw.parse_iff (bs : Bytes) (r : Raw) : Raw.parse bs = some r ↔ JsonText r bs := by
  constructor
  · intro h
    unfold Raw.parse at h
    split at h
    · cases h
    · rename_i v rest hv
      split at h
      · rename_i hr
        cases h
        obtain ⟨w, b, hw, hb, e⟩ := (parse_sound _).1 _ _ _ hv
        exact ⟨w, b, rest, hw, hb, (skipWs_nil_iff _).mp hr, e⟩
      · cases h
  · rintro ⟨w, b, w', hw, hb, hw', rfl⟩
    have hstop : NumStop w' := by
      have := white_numStop hw' (r := []) trivial
      rwa [List.append_nil] at this
    unfold Raw.parse
    rw [parseValue_white hw, parseValue_text hb _ (by simp; omega) _ hstop]
    simp only [(skipWs_nil_iff _).mpr hw', if_true]

end Verif
