import Verif.Lemmas.Grammar
import Verif.Lemmas.Reorder
import Verif.Lemmas.RawEq
import Verif.Spec.Reads
import Verif.Spec.HexAny

/-
The reader meets `Spec/Reads.lean`.
-/

namespace Verif
open Spec

/-! ### Strings -/

theorem hexVal_table : ∀ k < 256, ∀ n < 16, ((utf8 "0123456789abcdef".toList)[n]? = some (byte k) ∨
    (utf8 "0123456789ABCDEF".toList)[n]? = some (byte k)) ↔ (isHexByte (byte k) = true ∧ hexByteVal (byte k) = n) := by
  decide +kernel

theorem hexByteVal_lt : ∀ k < 256, isHexByte (byte k) = true → hexByteVal (byte k) < 16 := by decide +kernel

theorem Spec.hexVal_iff (b : UInt8) (n : Nat) : HexVal b n ↔ isHexByte b = true ∧ hexByteVal b = n := by
  unfold HexVal
  by_cases hn : n < 16
  · have := hexVal_table b.toNat (UInt8.lt256 b) n hn
    rwa [byte_of_toNat] at this
  · have h1 : (utf8 "0123456789abcdef".toList).length = 16 := by decide +kernel
    have h2 : (utf8 "0123456789ABCDEF".toList).length = 16 := by decide +kernel
    rw [List.getElem?_eq_none (by omega), List.getElem?_eq_none (by omega)]
    constructor
    · rintro (h | h) <;> cases h
    · rintro ⟨h, rfl⟩
      have := hexByteVal_lt b.toNat (UInt8.lt256 b)
      rw [byte_of_toNat] at this
      exact absurd (this h) hn

theorem Spec.codeUnit_iff (a b c d : UInt8) (n : Nat) :
    CodeUnit a b c d n ↔ (isHexByte a = true ∧ isHexByte b = true ∧ isHexByte c = true ∧ isHexByte d = true) ∧
      hex4 a b c d = n := by
  unfold CodeUnit hex4
  constructor
  · rintro ⟨x, y, z, w, hx, hy, hz, hw, rfl⟩
    rw [hexVal_iff] at hx hy hz hw
    obtain ⟨h1, rfl⟩ := hx
    obtain ⟨h2, rfl⟩ := hy
    obtain ⟨h3, rfl⟩ := hz
    obtain ⟨h4, rfl⟩ := hw
    exact ⟨⟨h1, h2, h3, h4⟩, by omega⟩
  · rintro ⟨⟨h1, h2, h3, h4⟩, rfl⟩
    exact ⟨_, _, _, _, (hexVal_iff _ _).mpr ⟨h1, rfl⟩, (hexVal_iff _ _).mpr ⟨h2, rfl⟩, (hexVal_iff _ _).mpr ⟨h3, rfl⟩,
      (hexVal_iff _ _).mpr ⟨h4, rfl⟩, by omega⟩

theorem hex4_lt {a b c d : UInt8} (h : isHexByte a = true ∧ isHexByte b = true ∧ isHexByte c = true ∧
    isHexByte d = true) : hex4 a b c d < 0x10000 := by
  obtain ⟨h1, h2, h3, h4⟩ := h
  have lt : ∀ b : UInt8, isHexByte b = true → hexByteVal b < 16 := by
    intro b hb
    have := hexByteVal_lt b.toNat (UInt8.lt256 b)
    rw [byte_of_toNat] at this
    exact this hb
  have := lt a h1
  have := lt b h2
  have := lt c h3
  have := lt d h4
  unfold hex4
  omega

theorem unescape_plain {b : UInt8} (hb : b ≠ 0x5c) (s : Bytes) : unescape (b :: s) = (unescape s).map (b :: ·) := by
  rw [unescape.eq_def]; simp only [if_neg hb]

theorem unescape_esc {e : UInt8} (he : e ≠ 0x75) (s : Bytes) :
    unescape (0x5c :: e :: s) = (unescape s).map (simpleEsc e :: ·) := by
  rw [unescape.eq_def]; simp only [if_true, if_neg he]

theorem escapes_spec : ∀ p ∈ escapes, p.1 ≠ 0x75 ∧ [simpleEsc p.1] = utf8EncodeChar p.2 ∧ isCont (simpleEsc p.1) = false := by
  decide +kernel

theorem escapes_all : ∀ e ∈ ([0x22, 0x5c, 0x2f, 0x62, 0x66, 0x6e, 0x72, 0x74] : Bytes), ∃ c, (e, c) ∈ escapes := by
  intro e he
  simp only [List.mem_cons, List.not_mem_nil, or_false] at he
  rcases he with rfl | rfl | rfl | rfl | rfl | rfl | rfl | rfl <;> exact ⟨_, by simp [escapes]; try rfl⟩

theorem escapes_mem {e : UInt8} {c : Char} (h : (e, c) ∈ escapes) :
    e ∈ ([0x22, 0x5c, 0x2f, 0x62, 0x66, 0x6e, 0x72, 0x74] : Bytes) := by
  have : ∀ p ∈ escapes, p.1 ∈ ([0x22, 0x5c, 0x2f, 0x62, 0x66, 0x6e, 0x72, 0x74] : Bytes) := by decide
  exact this _ h

/-- Shape of an encoded character. -/
theorem utf8EncodeChar_shape (c : Char) : ∃ b r, utf8EncodeChar c = b :: r ∧ isCont b = false ∧
    (∀ x ∈ r, isCont x = true) ∧ (c.toNat < 128 → b.toNat = c.toNat) ∧ (128 ≤ c.toNat → 128 ≤ b.toNat) := by
  have hlt := Char.toNat_lt c
  have cont : ∀ n, isCont (byte (0x80 + n % 64)) = true := by
    intro n
    simp only [isCont, byte_toNat_of_lt (n := 0x80 + n % 64) (by omega), Bool.and_eq_true, decide_eq_true_eq]
    omega
  unfold utf8EncodeChar
  dsimp only
  split
  · refine ⟨_, _, rfl, ?_, by simp, ?_, ?_⟩
    · simp only [isCont, byte_toNat_of_lt (n := c.toNat) (by omega), Bool.and_eq_false_iff, decide_eq_false_iff_not]
      omega
    · intro h; exact byte_toNat_of_lt (by omega)
    · intro h; omega
  · split
    · refine ⟨_, _, rfl, ?_, ?_, by omega, ?_⟩
      · simp only [isCont, byte_toNat_of_lt (n := 0xC0 + c.toNat / 64) (by omega), Bool.and_eq_false_iff,
          decide_eq_false_iff_not]
        omega
      · intro x hx
        simp only [List.mem_singleton] at hx
        subst hx; exact cont _
      · intro _; rw [byte_toNat_of_lt (by omega)]; omega
    · split
      · refine ⟨_, _, rfl, ?_, ?_, by omega, ?_⟩
        · simp only [isCont, byte_toNat_of_lt (n := 0xE0 + c.toNat / 4096) (by omega), Bool.and_eq_false_iff,
            decide_eq_false_iff_not]
          omega
        · intro x hx
          simp only [List.mem_cons, List.not_mem_nil, or_false] at hx
          rcases hx with rfl | rfl <;> exact cont _
        · intro _; rw [byte_toNat_of_lt (by omega)]; omega
      · refine ⟨_, _, rfl, ?_, ?_, by omega, ?_⟩
        · simp only [isCont, byte_toNat_of_lt (n := 0xF0 + c.toNat / 262144) (by omega), Bool.and_eq_false_iff,
            decide_eq_false_iff_not]
          omega
        · intro x hx
          simp only [List.mem_cons, List.not_mem_nil, or_false] at hx
          rcases hx with rfl | rfl | rfl <;> exact cont _
        · intro _; rw [byte_toNat_of_lt (by omega)]; omega

theorem utf8Encode_eq_append {t : Str} {c : Char} {bs : Bytes} (h : utf8EncodeChar c ++ bs = utf8Encode t) :
    ∃ t', t = c :: t' ∧ bs = utf8Encode t' := by
  have hd := utf8Decode_encode t
  rw [← h, utf8Decode_encodeChar] at hd
  obtain ⟨t', ht', rfl⟩ := Option.map_eq_some_iff.mp hd
  exact ⟨t', rfl, (utf8Encode_decode ht').symm⟩

/-- What `\uXXXX` contributes. -/
theorem unescape_uni {a b c d : UInt8} {s bs : Bytes} (hs : StringText s) (h4 : isHexByte a = true ∧ isHexByte b = true ∧
    isHexByte c = true ∧ isHexByte d = true)
    (h : unescape (0x5c :: 0x75 :: a :: b :: c :: d :: s) = some bs) :
    (∃ ch bs', CodeUnit a b c d ch.toNat ∧ unescape s = some bs' ∧ bs = utf8EncodeChar ch ++ bs') ∨
    (∃ a' b' c' d' s' hi lo ch bs', s = 0x5c :: 0x75 :: a' :: b' :: c' :: d' :: s' ∧ StringText s' ∧
      CodeUnit a b c d (0xD800 + hi) ∧ hi < 0x400 ∧ CodeUnit a' b' c' d' (0xDC00 + lo) ∧ lo < 0x400 ∧
      ch.toNat = 0x10000 + 0x400 * hi + lo ∧ unescape s' = some bs' ∧ bs = utf8EncodeChar ch ++ bs') := by
  have hlt := hex4_lt h4
  rw [unescape.eq_def] at h
  simp only [if_true] at h
  split at h
  · cases h
  · rename_i hlo
    split at h
    · rename_i hhi
      right
      split at h
      · rename_i x u g1 g2 g3 g4 r3
        split at h
        · rename_i hc
          obtain ⟨rfl, rfl, hl1, hl2⟩ := hc
          obtain ⟨bs', hb, rfl⟩ := Option.map_eq_some_iff.mp h
          have hg : (isHexByte g1 = true ∧ isHexByte g2 = true ∧ isHexByte g3 = true ∧ isHexByte g4 = true) ∧
              StringText r3 := by
            cases hs with
            | plain _ _ h5c => exact absurd rfl h5c
            | esc he _ => simp at he
            | uni h1 h2 h3 h4 hr =>
              exact ⟨⟨(isHexByte_iff _).mpr h1, (isHexByte_iff _).mpr h2, (isHexByte_iff _).mpr h3,
                (isHexByte_iff _).mpr h4⟩, hr⟩
          refine ⟨g1, g2, g3, g4, r3, hex4 a b c d - 0xD800, hex4 g1 g2 g3 g4 - 0xDC00, _, bs', rfl, hg.2, ?_, by omega, ?_,
            by omega, ?_, hb, rfl⟩
          · exact (codeUnit_iff _ _ _ _ _).mpr ⟨h4, by omega⟩
          · exact (codeUnit_iff _ _ _ _ _).mpr ⟨hg.1, by omega⟩
          · rw [Char.toNat_ofNat_valid]
            · omega
            · right; omega
        · cases h
      · cases h
    · rename_i hhi
      left
      obtain ⟨bs', hb, rfl⟩ := Option.map_eq_some_iff.mp h
      refine ⟨_, bs', (codeUnit_iff _ _ _ _ _).mpr ⟨h4, ?_⟩, hb, rfl⟩
      rw [Char.toNat_ofNat_valid]
      unfold Nat.isValidChar
      omega

/-- A continuation byte of the result is a byte of the token. -/
theorem unescape_cont {s bs : Bytes} {x : UInt8} (hs : StringText s) (h : unescape s = some (x :: bs))
    (hx : isCont x = true) : ∃ s', s = x :: s' ∧ StringText s' ∧ unescape s' = some bs := by
  cases hs with
  | nil => rw [unescape.eq_def] at h; cases h
  | @plain b s _ _ h5c hr =>
    rw [unescape_plain h5c] at h
    obtain ⟨bs', hb, he⟩ := Option.map_eq_some_iff.mp h
    cases he
    exact ⟨s, rfl, hr, hb⟩
  | @esc e s he hr =>
    obtain ⟨c, hc⟩ := escapes_all e he
    obtain ⟨h1, h2, h3⟩ := escapes_spec _ hc
    rw [unescape_esc h1] at h
    obtain ⟨bs', hb, he⟩ := Option.map_eq_some_iff.mp h
    cases he
    rw [h3] at hx; cases hx
  | @uni a b c d s h1 h2 h3 h4 hr =>
    have key : ∀ (ch : Char) (bs' : Bytes), x :: bs = utf8EncodeChar ch ++ bs' → False := by
      intro ch bs' e
      obtain ⟨y, r, hy, hc, _⟩ := utf8EncodeChar_shape ch
      rw [hy] at e
      cases e
      rw [hc] at hx; cases hx
    rcases unescape_uni hr ⟨(isHexByte_iff _).mpr h1, (isHexByte_iff _).mpr h2, (isHexByte_iff _).mpr h3,
      (isHexByte_iff _).mpr h4⟩ h with ⟨ch, bs', _, _, e⟩ | ⟨_, _, _, _, _, _, _, ch, bs', _, _, _, _, _, _, _, _, e⟩
    · exact (key ch bs' e).elim
    · exact (key ch bs' e).elim

theorem unescape_conts {r s bs : Bytes} (hr : ∀ x ∈ r, isCont x = true) (hs : StringText s)
    (h : unescape s = some (r ++ bs)) : ∃ s', s = r ++ s' ∧ StringText s' ∧ unescape s' = some bs := by
  induction r generalizing s with
  | nil => exact ⟨s, rfl, hs, h⟩
  | cons x r ih =>
    obtain ⟨s1, rfl, h1, h2⟩ := unescape_cont hs h (hr x (by simp))
    obtain ⟨s2, rfl, h3, h4⟩ := ih (fun y hy => hr y (by simp [hy])) h1 h2
    exact ⟨s2, rfl, h3, h4⟩

theorem utf8_one (c : Char) : utf8 [c] = utf8EncodeChar c := by
  rw [utf8_eq]; simp [utf8Encode]

theorem spells_of_unescape (n : Nat) : ∀ s : Bytes, s.length ≤ n → StringText s → ∀ t, unescape s = some (utf8Encode t) →
    Spells s t := by
  induction n with
  | zero =>
    intro s hn hs t h
    cases s with
    | nil =>
      rw [unescape.eq_def] at h
      simp only [Option.some.injEq] at h
      cases utf8Encode_injective (a := []) (b := t) h
      exact .nil
    | cons => simp at hn
  | succ n ih =>
    intro s hn hs t h
    cases hs with
    | nil =>
      rw [unescape.eq_def] at h
      simp only [Option.some.injEq] at h
      cases utf8Encode_injective (a := []) (b := t) h
      exact .nil
    | @plain b s h32 h22 h5c hr =>
      rw [unescape_plain h5c] at h
      obtain ⟨bs, hb, he⟩ := Option.map_eq_some_iff.mp h
      cases t with
      | nil => cases he
      | cons c t =>
        obtain ⟨y, r, hy, _, hcont, hlo, hhi⟩ := utf8EncodeChar_shape c
        rw [utf8Encode_cons, hy] at he
        simp only [List.cons_append, List.cons.injEq] at he
        obtain ⟨rfl, rfl⟩ := he
        obtain ⟨s', rfl, h1, h2⟩ := unescape_conts hcont hr hb
        have hs' := ih s' (by simp only [List.length_cons, List.length_append] at hn; omega) h1 t h2
        have e : b :: (r ++ s') = utf8 [c] ++ s' := by rw [utf8_one, hy]; rfl
        rw [e]
        have hne : ∀ d : Char, d.toNat < 128 → b ≠ byte d.toNat → c ≠ d := by
          rintro d hd hb rfl
          exact hb (UInt8.ext_nat (by rw [byte_toNat_of_lt (by omega)]; exact hlo hd))
        refine .plain ?_ (hne _ (by decide) h22) (hne _ (by decide) h5c) hs'
        by_cases hc : c.toNat < 128
        · rw [← hlo hc]; exact h32
        · omega
    | @esc e s he hr =>
      obtain ⟨c, hc⟩ := escapes_all e he
      obtain ⟨h1, h2, _⟩ := escapes_spec _ hc
      rw [unescape_esc h1] at h
      obtain ⟨bs, hb, he⟩ := Option.map_eq_some_iff.mp h
      have e2 : utf8EncodeChar c ++ bs = utf8Encode t := by rw [← he, ← h2]; rfl
      obtain ⟨t', rfl, rfl⟩ := utf8Encode_eq_append e2
      exact .esc hc (ih s (by simp only [List.length_cons] at hn; omega) hr t' hb)
    | @uni a b c d s h1 h2 h3 h4 hr =>
      rcases unescape_uni hr ⟨(isHexByte_iff _).mpr h1, (isHexByte_iff _).mpr h2, (isHexByte_iff _).mpr h3,
        (isHexByte_iff _).mpr h4⟩ h with
        ⟨ch, bs', hu, hb, e⟩ | ⟨a', b', c', d', s', hi, lo, ch, bs', rfl, hs', hu, hhi, hu', hlo, hch, hb, e⟩
      · obtain ⟨t', rfl, rfl⟩ := utf8Encode_eq_append e.symm
        exact .unit hu (ih s (by simp only [List.length_cons] at hn; omega) hr t' hb)
      · obtain ⟨t', rfl, rfl⟩ := utf8Encode_eq_append e.symm
        exact .pair hu hhi hu' hlo hch (ih s' (by simp only [List.length_cons] at hn; omega) hs' t' hb)

theorem unescape_append_plain {l : Bytes} (hl : ∀ b ∈ l, b ≠ 0x5c) (s : Bytes) :
    unescape (l ++ s) = (unescape s).map (l ++ ·) := by
  induction l with
  | nil => simp
  | cons b l ih =>
    rw [List.cons_append, unescape_plain (hl b (by simp)), ih fun x hx => hl x (by simp [hx])]
    cases unescape s <;> rfl

theorem Spec.Spells.unescape {s : Bytes} {t : Str} (h : Spells s t) : unescape s = some (utf8Encode t) := by
  induction h with
  | nil => rw [Verif.unescape.eq_def]; rfl
  | @plain c s t h32 h22 h5c _ ih =>
    obtain ⟨y, r, hy, _, hcont, hlo, hhi⟩ := utf8EncodeChar_shape c
    rw [utf8_one, unescape_append_plain _ s, ih]
    · rfl
    · rw [hy]
      intro b hb
      rcases List.mem_cons.mp hb with rfl | hb
      · rintro rfl
        by_cases hc : c.toNat < 128
        · apply h5c
          apply Char.ext
          apply UInt32.toNat_inj.mp
          exact (hlo hc).symm
        · have := hhi (by omega)
          revert this; decide
      · rintro rfl
        have := hcont _ hb
        revert this; decide
  | @esc e c s t hc _ ih =>
    obtain ⟨h1, h2, _⟩ := escapes_spec _ hc
    rw [unescape_esc h1, ih, utf8Encode_cons, ← h2]
    rfl
  | @unit x y z w c s t hu _ ih =>
    obtain ⟨_, hv⟩ := (codeUnit_iff _ _ _ _ _).mp hu
    have hcv := Char.isValid c
    unfold Nat.isValidChar at hcv
    rw [Verif.unescape.eq_def]
    simp only [if_true, hv]
    rw [if_neg (by omega), if_neg (by omega), ih, Char.ofNat_toNat']
    rfl
  | @pair x y z w x' y' z' w' hi lo c s t hu hhi hu' hlo hc _ ih =>
    obtain ⟨_, hv⟩ := (codeUnit_iff _ _ _ _ _).mp hu
    obtain ⟨_, hv'⟩ := (codeUnit_iff _ _ _ _ _).mp hu'
    rw [Verif.unescape.eq_def]
    simp only [if_true, hv, hv']
    rw [if_neg (by omega), if_pos (by omega), if_pos (by refine ⟨trivial, trivial, ?_, ?_⟩ <;> omega), ih]
    have : 65536 + (55296 + hi - 55296) * 1024 + (56320 + lo - 56320) = c.toNat := by omega
    rw [this, Char.ofNat_toNat']
    rfl

/-- What a string token is read as. -/
theorem decStr_iff {s : Bytes} (hs : StringText s) (t : Str) : decStr s = some t ↔ Spells s t := by
  constructor
  · intro h
    obtain ⟨bs, hb, hd⟩ := Option.bind_eq_some_iff.mp h
    rw [← utf8Encode_decode hd] at hb
    exact spells_of_unescape s.length s (Nat.le_refl _) hs t hb
  · intro h
    simp [decStr, h.unescape]

/-! ### Numbers -/

theorem decVal_eq (ds : Bytes) : decVal ds = decimal ds := by
  unfold decVal decimal
  rw [valueOf_eq]

theorem all_isDigit {l : Bytes} : l.all isDigit = true ↔ ∀ b ∈ l, Digit b := by
  simp only [List.all_eq_true, isDigit_iff]

theorem not_digit_minus : ¬ Digit 0x2d := by unfold Digit; decide

theorem Spec.NumberText.ne_minus {t : Bytes} (h : NumberText t) : t ≠ [] ∧ t ≠ [0x2d] := by
  obtain ⟨m, i, f, e, hm, hi, hf, he, rfl⟩ := h
  have hi' : ∃ b r, i = b :: r ∧ b ≠ 0x2d := by
    rcases hi with rfl | ⟨⟨hne, hd⟩, _⟩
    · exact ⟨_, _, rfl, by decide⟩
    · obtain ⟨b, r, rfl⟩ := List.exists_cons_of_ne_nil hne
      refine ⟨b, r, rfl, ?_⟩
      rintro rfl
      exact not_digit_minus (hd _ (by simp))
  obtain ⟨b, r, rfl, hb⟩ := hi'
  simp only [List.mem_cons, List.not_mem_nil, or_false] at hm
  rcases hm with rfl | rfl
  · refine ⟨by simp, ?_⟩
    intro h
    simp only [List.nil_append, List.cons_append, List.cons.injEq] at h
    exact hb h.1
  · refine ⟨by simp, by simp⟩

/-- What a number token is read as. -/
theorem decNum_iff {F : Type} (fr : Bytes → Option F) {t : Bytes} (ht : NumberText t) (n : Num F) :
    decNum fr t = some n ↔ NumMeans fr t n := by
  obtain ⟨hne, hne'⟩ := ht.ne_minus
  have hfloat : ¬ SmallNat t → ¬ SmallNeg t → ((fr t).map Num.float = some n ↔ NumMeans fr t n) := by
    intro h1 h2
    constructor
    · intro h
      obtain ⟨f, hf, rfl⟩ := Option.map_eq_some_iff.mp h
      exact .float h1 h2 hf
    · intro h
      cases h with
      | nat h => exact absurd h h1
      | neg hd he =>
        exfalso
        exact h2 ⟨_, rfl, hd, by omega, by rename_i k; have := k.2; omega⟩
      | float _ _ hf => rw [hf]; rfl
  obtain ⟨b, r, rfl⟩ := List.exists_cons_of_ne_nil hne
  by_cases hb : b = 0x2d
  · subst hb
    have hr : r ≠ [] := by rintro rfl; exact hne' rfl
    have hnat : ¬ SmallNat (0x2d :: r) := fun h => not_digit_minus (h.1.2 _ (by simp))
    unfold decNum
    simp only [isIntTok, if_true, List.head?_cons, List.tail_cons, decVal_eq]
    split
    · rename_i hall
      rw [all_isDigit] at hall
      split
      · rename_i h
        constructor
        · intro e
          cases e
          exact .neg ⟨hr, hall⟩ (by simp only; omega)
        · intro h'
          cases h' with
          | nat h => exact absurd h hnat
          | neg hd he =>
            simp only [Option.some.injEq, Num.neg.injEq]
            apply Fin.ext
            simp only; omega
          | float _ h2 _ => exact absurd ⟨r, rfl, ⟨hr, hall⟩, h.1, h.2⟩ h2
      · rename_i h
        refine hfloat hnat ?_
        rintro ⟨ds, e, _, h1, h2⟩
        cases e
        exact h ⟨h1, h2⟩
    · rename_i hall
      refine hfloat hnat ?_
      rintro ⟨ds, e, hd, _, _⟩
      cases e
      exact hall (all_isDigit.mpr hd.2)
  · have hneg : ¬ SmallNeg (b :: r) := by
      rintro ⟨ds, e, _⟩
      cases e
      exact hb rfl
    unfold decNum
    have hh : (b :: r).head? ≠ some 0x2d := by simpa using hb
    simp only [isIntTok, if_neg hb, if_neg hh, decVal_eq]
    split
    · rename_i hall
      rw [all_isDigit] at hall
      split
      · rename_i h
        constructor
        · intro e
          cases e
          exact .nat ⟨⟨hne, hall⟩, h⟩
        · intro h'
          cases h' with
          | nat h => rfl
          | neg hd he => exact absurd rfl hb
          | float h1 _ _ => exact absurd ⟨⟨hne, hall⟩, h⟩ h1
      · rename_i h
        exact hfloat (fun h' => h h'.2) hneg
    · rename_i hall
      exact hfloat (fun h' => hall (all_isDigit.mpr h'.1.2)) hneg

/-! ### Values -/

theorem strLt_iff (a b : Str) : strLt a b = true ↔ a < b := by
  induction a generalizing b with
  | nil => cases b <;> simp [strLt]
  | cons x a ih =>
    cases b with
    | nil => simp [strLt]
    | cons y b =>
      rw [List.cons_lt_cons_iff]
      simp only [strLt, Bool.or_eq_true, decide_eq_true_eq, Bool.and_eq_true, beq_iff_eq, ih]
      rfl

theorem increasing_iff {α : Type} (m : List (Str × α)) : Increasing m ↔ KeysSorted m := by
  unfold Increasing KeysSorted
  simp only [strLt_iff]

theorem btInsert_mem_iff {α : Type} {k : Str} {v : α} {l : List (Str × α)} (h : KeysSorted l) (p : Str × α) :
    p ∈ btInsert k v l ↔ p = (k, v) ∨ (p.1 ≠ k ∧ p ∈ l) := by
  induction l with
  | nil => simp [btInsert]
  | cons q l ih =>
    obtain ⟨k', v'⟩ := q
    unfold KeysSorted at h
    rw [List.pairwise_cons] at h
    have hl : ∀ q ∈ l, strLt k' q.1 = true := h.1
    simp only [btInsert]
    split
    · rename_i hk
      subst hk
      simp only [List.mem_cons]
      constructor
      · rintro (h | h)
        · exact .inl h
        · refine .inr ⟨?_, .inr h⟩
          intro e
          have := hl p h
          rw [e, strLt_irrefl] at this; cases this
      · rintro (h | ⟨h1, rfl | h⟩)
        · exact .inl h
        · exact absurd rfl h1
        · exact .inr h
    · rename_i hk
      split
      · rename_i hlt
        simp only [List.mem_cons]
        have hne : ∀ q, q = (k', v') ∨ q ∈ l → q.1 ≠ k := by
          rintro q (rfl | hq) rfl
          · exact hk rfl
          · have := strLt_asymm hlt
            rw [hl q hq] at this; cases this
        constructor
        · rintro (h | h)
          · exact .inl h
          · exact .inr ⟨hne p h, h⟩
        · rintro (h | ⟨_, h⟩)
          · exact .inl h
          · exact .inr h
      · simp only [List.mem_cons, ih h.2]
        constructor
        · rintro (rfl | h | ⟨h1, h2⟩)
          · exact .inr ⟨fun e => hk e.symm, .inl rfl⟩
          · exact .inl h
          · exact .inr ⟨h1, .inr h2⟩
        · rintro (h | ⟨h1, h | h⟩)
          · exact .inr (.inl h)
          · exact .inl h
          · exact .inr (.inr ⟨h1, h⟩)

theorem lastOf_append {α : Type} (l : List (Str × α)) (p : Str × α) (k : Str) (v : α) :
    LastOf (l ++ [p]) k v ↔ p = (k, v) ∨ (p.1 ≠ k ∧ LastOf l k v) := by
  constructor
  · rintro ⟨pre, post, h, hp⟩
    rcases List.eq_nil_or_concat post with rfl | ⟨post', q, rfl⟩
    · have := List.append_inj' h rfl
      exact .inl (List.cons.inj this.2).1
    · rw [List.concat_eq_append, ← List.cons_append, ← List.append_assoc] at h
      have := List.append_inj' h rfl
      obtain ⟨h1, h2⟩ := this
      cases h2
      refine .inr ⟨hp p (by simp), pre, post', h1, ?_⟩
      intro x hx
      exact hp x (by simp [hx])
  · rintro (rfl | ⟨h1, pre, post, rfl, h2⟩)
    · exact ⟨l, [], rfl, by simp⟩
    · refine ⟨pre, post ++ [p], by simp, ?_⟩
      intro x hx
      rcases List.mem_append.mp hx with hx | hx
      · exact h2 x hx
      · simp at hx; subst hx; exact h1

theorem btOfList_append {α : Type} (l : List (Str × α)) (p : Str × α) :
    btOfList (l ++ [p]) = btInsert p.1 p.2 (btOfList l) := by
  simp [btOfList]

theorem btOfList_mem_iff {α : Type} (l : List (Str × α)) (k : Str) (v : α) : (k, v) ∈ btOfList l ↔ LastOf l k v := by
  induction l using List.reverseRecOn with
  | nil =>
    constructor
    · intro h; cases h
    · rintro ⟨pre, post, h, _⟩; simp at h
  | append_singleton l p ih =>
    rw [btOfList_append, btInsert_mem_iff (btOfList_sorted l), lastOf_append, ih]
    constructor
    · rintro (h | ⟨h1, h2⟩)
      · exact .inl h.symm
      · exact .inr ⟨fun e => h1 e.symm, h2⟩
    · rintro (h | ⟨h1, h2⟩)
      · exact .inl h.symm
      · exact .inr ⟨fun e => h1 e.symm, h2⟩

theorem btOfList_iff {α : Type} (l m : List (Str × α)) :
    m = btOfList l ↔ Increasing m ∧ ∀ k v, (k, v) ∈ m ↔ LastOf l k v := by
  constructor
  · rintro rfl
    exact ⟨(increasing_iff _).mpr (btOfList_sorted l), btOfList_mem_iff l⟩
  · rintro ⟨h1, h2⟩
    rw [increasing_iff] at h1
    refine Json.eq_of_perm_keysSorted h1 (btOfList_sorted l) ?_
    have nd : ∀ {m : List (Str × α)}, KeysSorted m → m.Nodup := fun h => List.Nodup.of_map _ h.nodup
    rw [List.perm_ext_iff_of_nodup (nd h1) (nd (btOfList_sorted l))]
    rintro ⟨k, v⟩
    rw [h2, btOfList_mem_iff]

section
variable {F : Type} (fr : Bytes → Option F)

mutual
/-- What a token tree is read as, and when. -/
theorem decValue_iff (r : Raw) (hr : r.Ok) (d : Nat) (hd : 1 ≤ d) (j : Json (Num F)) :
    decValue fr d r = some j ↔ nesting r < d ∧ ValueMeans fr r j := by
  match r, hr with
  | .null, _ =>
    simp only [decValue, Option.some.injEq, nesting]
    constructor
    · rintro rfl; exact ⟨hd, .null⟩
    · rintro ⟨_, h⟩; cases h; rfl
  | .bool b, _ =>
    simp only [decValue, Option.some.injEq, nesting]
    constructor
    · rintro rfl; exact ⟨hd, .bool⟩
    · rintro ⟨_, h⟩; cases h; rfl
  | .num t, ht =>
    have ht : NumberText t := (isNumTok_iff t).mp (by simpa [Raw.Ok] using ht)
    simp only [decValue, Option.map_eq_some_iff, nesting, decNum_iff fr ht]
    constructor
    · rintro ⟨n, h, rfl⟩; exact ⟨hd, .num h⟩
    · rintro ⟨_, h⟩; cases h with | num h => exact ⟨_, h, rfl⟩
  | .str s, hs =>
    have hs : StringText s := (isStrTok_iff s).mp (by simpa [Raw.Ok] using hs)
    simp only [decValue, Option.map_eq_some_iff, nesting, decStr_iff hs]
    constructor
    · rintro ⟨n, h, rfl⟩; exact ⟨hd, .str h⟩
    · rintro ⟨_, h⟩; cases h with | str h => exact ⟨_, h, rfl⟩
  | .arr xs, hx =>
    have hx : Raw.OkList xs := by simpa [Raw.Ok] using hx
    simp only [decValue, nesting]
    split
    · constructor
      · intro h; cases h
      · rintro ⟨h, _⟩; omega
    · simp only [Option.map_eq_some_iff, decValues_iff xs hx (d - 1) (by omega)]
      constructor
      · rintro ⟨l, ⟨h1, h2⟩, rfl⟩; exact ⟨by omega, .arr h2⟩
      · rintro ⟨h1, h2⟩; cases h2 with | arr h => exact ⟨_, ⟨by omega, h⟩, rfl⟩
  | .obj kvs, hx =>
    have hx : Raw.OkMembers kvs := by simpa [Raw.Ok] using hx
    simp only [decValue, nesting]
    split
    · constructor
      · intro h; cases h
      · rintro ⟨h, _⟩; omega
    · simp only [Option.map_eq_some_iff, decMembers_iff kvs hx (d - 1) (by omega)]
      constructor
      · rintro ⟨l, ⟨h1, h2⟩, rfl⟩
        obtain ⟨h3, h4⟩ := (btOfList_iff l _).mp rfl
        exact ⟨by omega, .obj h2 h3 h4⟩
      · rintro ⟨h1, h2⟩
        cases h2 with | obj h h3 h4 => exact ⟨_, ⟨by omega, h⟩, by rw [(btOfList_iff _ _).mpr ⟨h3, h4⟩]⟩
theorem decValues_iff (xs : List Raw) (hx : Raw.OkList xs) (d : Nat) (hd : 1 ≤ d) (ys : List (Json (Num F))) :
    decValues fr d xs = some ys ↔ nestingList xs < d ∧ ValuesMean fr xs ys := by
  match xs, hx with
  | [], _ =>
    simp only [decValues, Option.some.injEq, nestingList]
    constructor
    · rintro rfl; exact ⟨hd, .nil⟩
    · rintro ⟨_, h⟩; cases h; rfl
  | x :: xs, hx =>
    simp only [Raw.OkList] at hx
    have h1 := decValue_iff x hx.1 d hd
    have h2 := decValues_iff xs hx.2 d hd
    simp only [decValues, nestingList]
    constructor
    · intro h
      split at h
      · cases h
      · rename_i y hy
        split at h
        · cases h
        · rename_i zs hzs
          cases h
          obtain ⟨a, b⟩ := (h1 y).mp hy
          obtain ⟨a', b'⟩ := (h2 zs).mp hzs
          exact ⟨by omega, .cons b b'⟩
    · rintro ⟨h, h'⟩
      cases h' with
      | cons b b' =>
        rw [(h1 _).mpr ⟨by omega, b⟩, (h2 _).mpr ⟨by omega, b'⟩]
theorem decMembers_iff (xs : List (Bytes × Raw)) (hx : Raw.OkMembers xs) (d : Nat) (hd : 1 ≤ d)
    (ys : List (Str × Json (Num F))) : decMembers fr d xs = some ys ↔ nestingMembers xs < d ∧ MembersMean fr xs ys := by
  match xs, hx with
  | [], _ =>
    simp only [decMembers, Option.some.injEq, nestingMembers]
    constructor
    · rintro rfl; exact ⟨hd, .nil⟩
    · rintro ⟨_, h⟩; cases h; rfl
  | (k, x) :: xs, hx =>
    simp only [Raw.OkMembers] at hx
    have h0 := decStr_iff ((isStrTok_iff k).mp hx.1)
    have h1 := decValue_iff x hx.2.1 d hd
    have h2 := decMembers_iff xs hx.2.2 d hd
    simp only [decMembers, nestingMembers]
    constructor
    · intro h
      split at h
      · cases h
      · rename_i n hn
        split at h
        · cases h
        · rename_i y hy
          split at h
          · cases h
          · rename_i zs hzs
            cases h
            obtain ⟨a, b⟩ := (h1 y).mp hy
            obtain ⟨a', b'⟩ := (h2 zs).mp hzs
            exact ⟨by omega, .cons ((h0 _).mp hn) b b'⟩
    · rintro ⟨h, h'⟩
      cases h' with
      | cons hn b b' =>
        rw [(h0 _).mpr hn, (h1 _).mpr ⟨by omega, b⟩, (h2 _).mpr ⟨by omega, b'⟩]
end
end

/-! ### Structures -/

theorem okMembers_mem {kvs : List (Bytes × Raw)} (h : Raw.OkMembers kvs) : ∀ kv ∈ kvs, StringText kv.1 ∧ kv.2.Ok := by
  induction kvs with
  | nil => simp
  | cons kv kvs ih =>
    obtain ⟨k, x⟩ := kv
    simp only [Raw.OkMembers] at h
    intro p hp
    rcases List.mem_cons.mp hp with rfl | hp
    · exact ⟨(isStrTok_iff k).mp h.1, h.2.1⟩
    · exact ih h.2.2 p hp

theorem okList_mem {xs : List Raw} (h : Raw.OkList xs) : ∀ x ∈ xs, x.Ok := by
  induction xs with
  | nil => simp
  | cons x xs ih =>
    simp only [Raw.OkList] at h
    intro p hp
    rcases List.mem_cons.mp hp with rfl | hp
    · exact h.1
    · exact ih h.2 p hp

theorem knownMembers_mem {known : List Str} {kvs : List (Bytes × Raw)} (n : Str) (x : Raw) :
    (n, x) ∈ knownMembers known kvs ↔ n ∈ known ∧ ∃ k, (k, x) ∈ kvs ∧ decStr k = some n := by
  simp only [knownMembers, List.mem_filterMap]
  constructor
  · rintro ⟨kv, hkv, he⟩
    obtain ⟨m, hm, he⟩ := Option.bind_eq_some_iff.mp he
    split at he
    · rename_i hk
      cases he
      exact ⟨hk, kv.1, hkv, hm⟩
    · cases he
  · rintro ⟨hn, k, hk, hd⟩
    exact ⟨(k, x), hk, by simp [hd, hn]⟩

theorem knownMembers_nodup {known : List Str} {kvs : List (Bytes × Raw)} :
    ((knownMembers known kvs).map (·.1)).Nodup ↔
      ∀ n ∈ known, ∀ (i j : Nat) (p q : Bytes × Raw), kvs[i]? = some p → kvs[j]? = some q → decStr p.1 = some n →
        decStr q.1 = some n → i = j := by
  induction kvs with
  | nil => simp [knownMembers]
  | cons kv kvs ih =>
    obtain ⟨k, x⟩ := kv
    have step : (∀ n ∈ known, ∀ (i j : Nat) (p q : Bytes × Raw), ((k, x) :: kvs)[i]? = some p →
        ((k, x) :: kvs)[j]? = some q → decStr p.1 = some n → decStr q.1 = some n → i = j) ↔
        (∀ n ∈ known, decStr k = some n → ∀ q ∈ kvs, decStr q.1 ≠ some n) ∧
        ∀ n ∈ known, ∀ (i j : Nat) (p q : Bytes × Raw), kvs[i]? = some p → kvs[j]? = some q → decStr p.1 = some n →
          decStr q.1 = some n → i = j := by
      constructor
      · intro h
        refine ⟨?_, ?_⟩
        · intro n hn hk q hq hq'
          obtain ⟨j, hj⟩ := List.mem_iff_getElem?.mp hq
          have := h n hn 0 (j + 1) (k, x) q (by simp) (by simpa using hj) hk hq'
          omega
        · intro n hn i j p q hi hj hp hq
          have := h n hn (i + 1) (j + 1) p q (by simpa using hi) (by simpa using hj) hp hq
          omega
      · rintro ⟨h1, h2⟩ n hn i j p q hi hj hp hq
        cases i with
        | zero =>
          cases j with
          | zero => rfl
          | succ j =>
            simp only [List.getElem?_cons_zero, Option.some.injEq] at hi
            subst hi
            exact absurd hq (h1 n hn hp q (List.mem_iff_getElem?.mpr ⟨j, by simpa using hj⟩))
        | succ i =>
          cases j with
          | zero =>
            simp only [List.getElem?_cons_zero, Option.some.injEq] at hj
            subst hj
            exact absurd hp (h1 n hn hq p (List.mem_iff_getElem?.mpr ⟨i, by simpa using hi⟩))
          | succ j =>
            rw [h2 n hn i j p q (by simpa using hi) (by simpa using hj) hp hq]
    rw [step]
    by_cases hk : ∃ n ∈ known, decStr k = some n
    · obtain ⟨n, hn, hk⟩ := hk
      have e : knownMembers known ((k, x) :: kvs) = (n, x) :: knownMembers known kvs := by
        simp [knownMembers, hk, hn]
      rw [e, List.map_cons, List.nodup_cons, ih]
      refine and_congr_left fun _ => ?_
      constructor
      · intro h n' hn' hk' q hq hq'
        rw [hk] at hk'
        cases hk'
        exact h (List.mem_map.mpr ⟨(n, q.2), (knownMembers_mem _ _).mpr ⟨hn, q.1, hq, hq'⟩, rfl⟩)
      · intro h hm
        obtain ⟨q, hq, hq'⟩ := List.mem_map.mp hm
        obtain ⟨m, y⟩ := q
        simp only at hq'
        subst hq'
        obtain ⟨_, k', hk', hd⟩ := (knownMembers_mem _ _).mp hq
        exact h _ hn hk (k', y) hk' hd
    · have e : knownMembers known ((k, x) :: kvs) = knownMembers known kvs := by
        have : ((decStr k).bind fun n => if n ∈ known then some (n, x) else none) = none := by
          cases hd : decStr k with
          | none => rfl
          | some n =>
            have : n ∉ known := fun hn => hk ⟨n, hn, hd⟩
            simp [this]
        simp [knownMembers, this]
      rw [e, ih]
      constructor
      · intro h
        exact ⟨fun n hn hk' => absurd ⟨n, hn, hk'⟩ hk, h⟩
      · intro h; exact h.2

theorem lookup_zip {names : List Str} {xs : List Raw} (hn : names.Nodup) (hl : xs.length = names.length) {i : Nat} {n : Str}
    (h : names[i]? = some n) : (names.zip xs).lookup n = xs[i]? := by
  induction names generalizing xs i with
  | nil => simp at h
  | cons m names ih =>
    cases xs with
    | nil => simp at hl
    | cons x xs =>
      rw [List.nodup_cons] at hn
      cases i with
      | zero =>
        simp only [List.getElem?_cons_zero, Option.some.injEq] at h
        subst h
        simp
      | succ i =>
        simp only [List.getElem?_cons_succ] at h
        have hne : (n == m) = false := by
          rw [beq_eq_false_iff_ne]
          rintro rfl
          exact hn.1 (List.mem_iff_getElem?.mpr ⟨i, h⟩)
        simp only [List.zip_cons_cons, List.lookup_cons, hne, List.getElem?_cons_succ]
        exact ih hn.2 (by simpa using hl) h

/-- The struct reader finds the named members. -/
theorem structFields_spec {names : List String} (hn : names.Nodup) {d : Nat} {r : Raw} (hr : r.Ok)
    {fs : List (Str × Raw)} (h : structFields (names.map String.toList) d r = some fs) :
    StructOf names r (fun n => fs.lookup n.toList) := by
  cases r with
  | obj kvs =>
    have hok : Raw.OkMembers kvs := by simpa [Raw.Ok] using hr
    have hdec : ∀ kv ∈ kvs, ∀ n, decStr kv.1 = some n ↔ Spells kv.1 n := fun kv hkv n => decStr_iff (okMembers_mem hok kv hkv).1 n
    simp only [structFields] at h
    split at h
    · cases h
    · obtain ⟨h1, h2, h3⟩ := (collectFields_iff _ _ _ _ (by simp)).mp h
      rw [List.nil_append] at h2 h3
      subst h3
      refine .obj ?_ ?_ ?_
      · intro kv hkv
        obtain ⟨n, hn⟩ := Option.isSome_iff_exists.mp (h1 kv hkv)
        exact ⟨n, (hdec kv hkv n).mp hn⟩
      · intro n hmem i j p q hp hq h3 h4
        exact knownMembers_nodup.mp h2 n.toList (List.mem_map.mpr ⟨n, hmem, rfl⟩) i j p q hp hq
          ((hdec p (List.mem_iff_getElem?.mpr ⟨i, hp⟩) _).mpr h3) ((hdec q (List.mem_iff_getElem?.mpr ⟨j, hq⟩) _).mpr h4)
      · intro n hmem x
        rw [lookup_mem_iff h2, knownMembers_mem]
        constructor
        · rintro ⟨_, k, hk, hd⟩; exact ⟨k, hk, (hdec _ hk _).mp hd⟩
        · rintro ⟨k, hk, hd⟩
          exact ⟨List.mem_map.mpr ⟨n, hmem, rfl⟩, k, hk, (hdec _ hk _).mpr hd⟩
  | arr xs =>
    simp only [structFields] at h
    split at h
    · cases h
    · split at h
      · rename_i hl
        cases h
        refine .arr (by simpa using hl) ?_
        intro i n hi
        refine lookup_zip ?_ hl (by simp [hi])
        exact hn.map fun a b hab => String.toList_inj.mp hab
      · cases h
  | _ => cases h

/-- Whatever meets the description is read. -/
theorem structFields_of {names : List String} (hn : names.Nodup) {d : Nat} (hd : 2 ≤ d) {r : Raw} (hr : r.Ok)
    {get : String → Option Raw} (h : StructOf names r get) :
    ∃ fs, structFields (names.map String.toList) d r = some fs ∧ ∀ n ∈ names, fs.lookup n.toList = get n := by
  cases h with
  | @obj kvs get h1 h2 h3 =>
    have hok : Raw.OkMembers kvs := by simpa [Raw.Ok] using hr
    have hdec : ∀ kv ∈ kvs, ∀ n, decStr kv.1 = some n ↔ Spells kv.1 n := fun kv hkv n => decStr_iff (okMembers_mem hok kv hkv).1 n
    have hnd : ((knownMembers (names.map String.toList) kvs).map (·.1)).Nodup := by
      rw [knownMembers_nodup]
      intro n hmem i j p q hp hq h4 h5
      obtain ⟨n, hm, rfl⟩ := List.mem_map.mp hmem
      exact h2 n hm i j p q hp hq ((hdec p (List.mem_iff_getElem?.mpr ⟨i, hp⟩) _).mp h4)
        ((hdec q (List.mem_iff_getElem?.mpr ⟨j, hq⟩) _).mp h5)
    refine ⟨knownMembers (names.map String.toList) kvs, ?_, ?_⟩
    · simp only [structFields, if_neg (show ¬ d ≤ 1 by omega)]
      rw [collectFields_iff _ _ _ _ (by simp)]
      refine ⟨?_, by simpa using hnd, by simp⟩
      intro kv hkv
      obtain ⟨n, hn⟩ := h1 kv hkv
      rw [(hdec kv hkv n).mpr hn]; rfl
    · intro n hmem
      apply Option.ext
      intro x
      rw [lookup_mem_iff hnd, knownMembers_mem, h3 n hmem]
      constructor
      · rintro ⟨_, k, hk, hd⟩; exact ⟨k, hk, (hdec _ hk _).mp hd⟩
      · rintro ⟨k, hk, hd⟩
        exact ⟨List.mem_map.mpr ⟨n, hmem, rfl⟩, k, hk, (hdec _ hk _).mpr hd⟩
  | @arr xs get hl hg =>
    refine ⟨(names.map String.toList).zip xs, ?_, ?_⟩
    · simp only [structFields, if_neg (show ¬ d ≤ 1 by omega), List.length_map, if_pos hl]
    · intro n hmem
      obtain ⟨i, hi⟩ := List.mem_iff_getElem?.mp hmem
      rw [hg i n hi]
      refine lookup_zip ?_ (by simpa using hl) (by simp [hi])
      exact hn.map fun a b hab => String.toList_inj.mp hab

theorem Spec.StructOf.ok {names : List String} {r : Raw} {get : String → Option Raw} (h : StructOf names r get) (hr : r.Ok)
    {n : String} (hn : n ∈ names) {y : Raw} (hy : get n = some y) : y.Ok := by
  cases h with
  | @obj kvs get h1 h2 h3 =>
    obtain ⟨k, hk, _⟩ := (h3 n hn y).mp hy
    exact (okMembers_mem (by simpa [Raw.Ok] using hr) _ hk).2
  | @arr xs get hl hg =>
    obtain ⟨i, hi⟩ := List.mem_iff_getElem?.mp hn
    rw [hg i n hi] at hy
    exact okList_mem (by simpa [Raw.Ok] using hr) _ (List.mem_iff_getElem?.mpr ⟨i, hy⟩)

/-- A struct reader that goes on with the fields, against a description of the fields. -/
theorem struct_iff {names : List String} (hn : names.Nodup) {d : Nat} (hd : 2 ≤ d) {r : Raw} (hr : r.Ok)
    {A : List (Str × Raw) → Prop} {B : (String → Option Raw) → Prop}
    (h : ∀ fs get, (∀ n ∈ names, fs.lookup n.toList = get n) → (∀ n ∈ names, ∀ y, get n = some y → y.Ok) → (A fs ↔ B get)) :
    (∃ fs, structFields (names.map String.toList) d r = some fs ∧ A fs) ↔ ∃ get, StructOf names r get ∧ B get := by
  constructor
  · rintro ⟨fs, h1, h2⟩
    have hs := structFields_spec hn hr h1
    exact ⟨_, hs, (h fs _ (fun _ _ => rfl) fun n hn y hy => hs.ok hr hn hy).mp h2⟩
  · rintro ⟨get, h1, h2⟩
    obtain ⟨fs, h3, h4⟩ := structFields_of hn hd hr h1
    exact ⟨fs, h3, (h fs get h4 fun n hn y hy => h1.ok hr hn hy).mpr h2⟩

theorem reqField_iff {α : Type} {fs : List (Str × Raw)} {get : String → Option Raw} {n : String} {f : Raw → Option α}
    {P : Raw → α → Prop} (x : α) (h : fs.lookup n.toList = get n) (hok : ∀ y, get n = some y → y.Ok)
    (hf : ∀ y, y.Ok → (f y = some x ↔ P y x)) : reqField fs n.toList f = some x ↔ Needs get n P x := by
  unfold reqField Needs
  rw [h]
  cases hg : get n with
  | none => simp
  | some y => simp [hf y (hok y hg)]

theorem optField_iff {α : Type} {fs : List (Str × Raw)} {get : String → Option Raw} {n : String} {f : Raw → Option α}
    {P : Raw → α → Prop} (o : Option α) (h : fs.lookup n.toList = get n) (hok : ∀ y, get n = some y → y.Ok)
    (hf : ∀ y, y.Ok → ∀ x, f y = some x ↔ P y x) : optField fs n.toList f = some o ↔ May get n P o := by
  unfold optField
  rw [h]
  cases hg : get n with
  | none => cases o <;> simp [May, hg]
  | some y =>
    have := hf y (hok y hg)
    cases y <;> cases o <;> simp [May, hg, this]

theorem readsText_iff (y : Raw) (hy : y.Ok) (t : Str) : decString y = some t ↔ ReadsText y t := by
  unfold ReadsText
  cases y with
  | str s =>
    have hs : StringText s := (isStrTok_iff s).mp (by simpa [Raw.Ok] using hy)
    simp [decString, decStr_iff hs]
  | _ => simp [decString]

theorem optAll_iff {α β : Type} (f : α → Option β) (xs : List α) (ys : List β) :
    optAll f xs = some ys ↔ List.Forall₂ (fun x y => f x = some y) xs ys := by
  induction xs generalizing ys with
  | nil => cases ys <;> simp [optAll]
  | cons x xs ih =>
    simp only [optAll]
    constructor
    · intro h
      split at h
      · cases h
      · rename_i y hy
        split at h
        · cases h
        · rename_i zs hzs
          cases h
          exact .cons hy ((ih zs).mp hzs)
    · intro h
      cases h with
      | cons h1 h2 => rw [h1, (ih _).mpr h2]

theorem readsList_iff {α : Type} {f : Nat → Raw → Option α} {P : Raw → α → Prop} {d : Nat} (hd : 2 ≤ d)
    (hf : ∀ y, y.Ok → ∀ x, f (d - 1) y = some x ↔ P y x) (y : Raw) (hy : y.Ok) (l : List α) :
    decVec f d y = some l ↔ ReadsList P y l := by
  unfold ReadsList
  cases y with
  | arr xs =>
    have hok : ∀ x ∈ xs, x.Ok := okList_mem (by simpa [Raw.Ok] using hy)
    simp only [decVec, if_neg (show ¬ d ≤ 1 by omega), optAll_iff, Raw.arr.injEq]
    have : List.Forall₂ (fun x y => f (d - 1) x = some y) xs l ↔ List.Forall₂ P xs l := by
      clear hy
      induction xs generalizing l with
      | nil => cases l <;> simp
      | cons x xs ih =>
        cases l with
        | nil => simp
        | cons z l =>
          rw [List.forall₂_cons, List.forall₂_cons, hf x (hok x (by simp)), ih l (fun x hx => hok x (by simp [hx]))]
    rw [this]
    constructor
    · intro h; exact ⟨xs, rfl, h⟩
    · rintro ⟨_, rfl, h⟩; exact h
  | _ => simp [decVec]

theorem purpose_name (s : Str) (p : ProofPurpose) : ProofPurpose.ofSerName s = some p ↔ s = (purposeText p).toList := by
  constructor
  · intro h
    unfold ProofPurpose.ofSerName at h
    repeat' split at h
    all_goals first
      | (cases h; assumption)
      | cases h
  · rintro rfl
    cases p <;> decide +kernel

theorem readsPurpose_iff {d : Nat} (hd : 2 ≤ d) (y : Raw) (hy : y.Ok) (p : ProofPurpose) :
    ProofPurpose.dec d y = some p ↔ ReadsPurpose y p := by
  have hs : ∀ s, StringText s → ((decStr s).bind ProofPurpose.ofSerName = some p ↔ Spells s (purposeText p).toList) := by
    intro s hs
    rw [Option.bind_eq_some_iff]
    simp only [purpose_name, decStr_iff hs]
    constructor
    · rintro ⟨_, h, rfl⟩; exact h
    · intro h; exact ⟨_, h, rfl⟩
  unfold ReadsPurpose ReadsText
  unfold ProofPurpose.dec
  split
  · rename_i s
    have hst : StringText s := (isStrTok_iff s).mp (by simpa [Raw.Ok] using hy)
    rw [hs s hst]
    constructor
    · intro h; exact .inl ⟨s, rfl, h⟩
    · rintro (⟨_, e, h⟩ | ⟨_, e, _⟩)
      · cases e; exact h
      · cases e
  · rename_i k
    have hst : StringText k := (okMembers_mem (kvs := [(k, .null)]) (by simpa [Raw.Ok] using hy) (k, .null) (by simp)).1
    rw [if_neg (by omega), hs k hst]
    constructor
    · intro h; exact .inr ⟨k, rfl, h⟩
    · rintro (⟨_, e, _⟩ | ⟨_, e, h⟩)
      · cases e
      · cases e; exact h
  · rename_i h1 h2
    constructor
    · intro h; cases h
    · rintro (⟨s, rfl, _⟩ | ⟨k, rfl, _⟩)
      · exact absurd rfl (h1 s)
      · exact absurd rfl (h2 k)

theorem Proof.dec_iff (d : Nat) (r : Raw) (p : Proof) : Proof.dec d r = some p ↔
    ∃ fs, structFields Proof.fieldNames d r = some fs ∧
      reqField fs "id".toList decString = some p.id ∧ reqField fs "type".toList decString = some p.typ ∧
      reqField fs "proofPurpose".toList (ProofPurpose.dec (d - 1)) = some p.proofPurpose ∧
      reqField fs "proofValue".toList decString = some p.proofValue ∧
      reqField fs "verificationMethod".toList decString = some p.verificationMethod ∧
      optField fs "created".toList decString = some p.created ∧ optField fs "expires".toList decString = some p.expires ∧
      optField fs "cryptosuite".toList decString = some p.cryptosuite := by
  unfold Proof.dec
  cases structFields Proof.fieldNames d r with
  | none => simp
  | some fs =>
    simp only [bind, Option.bind_eq_some_iff, Option.some.injEq]
    constructor
    · rintro ⟨a, ha, b, hb, c, hc, e, he, f, hf, g, hg, i, hi, j, hj, rfl⟩
      exact ⟨fs, rfl, ha, hb, hc, he, hf, hg, hi, hj⟩
    · rintro ⟨_, rfl, ha, hb, hc, he, hf, hg, hi, hj⟩
      exact ⟨_, ha, _, hb, _, hc, _, he, _, hf, _, hg, _, hi, _, hj, rfl⟩

theorem readsProof_iff {d : Nat} (hd : 3 ≤ d) (r : Raw) (hr : r.Ok) (p : Proof) :
    Proof.dec d r = some p ↔ ReadsProof r p := by
  rw [Proof.dec_iff]
  refine struct_iff (names := ["id", "type", "proofPurpose", "proofValue", "verificationMethod", "created", "expires",
    "cryptosuite"]) (by decide) (by omega) hr ?_
  intro fs get h hok
  have req := fun (n : String) (hn : n ∈ _) (x : Str) => reqField_iff x (h n hn) (hok n hn) fun y hy => readsText_iff y hy x
  have opt := fun (n : String) (hn : n ∈ _) (x : Option Str) => optField_iff x (h n hn) (hok n hn) readsText_iff
  rw [req "id" (by simp), req "type" (by simp), req "proofValue" (by simp), req "verificationMethod" (by simp),
    opt "created" (by simp), opt "expires" (by simp), opt "cryptosuite" (by simp),
    reqField_iff _ (h "proofPurpose" (by simp)) (hok "proofPurpose" (by simp))
      fun y hy => readsPurpose_iff (by omega) y hy p.proofPurpose]

theorem decVal'_iff {E : Env} {d : Nat} (hd : 1 ≤ d) (r : Raw) (hr : r.Ok) (v : Value E) :
    decVal' E d r = some v ↔ nesting r ≤ d - 1 ∧ ValueMeans E.floatParse r v.1 := by
  have : decVal' E d r = some v ↔ decValue E.floatParse d r = some v.1 := by
    unfold decVal'
    split
    · rename_i j hj
      constructor
      · intro h; cases h; exact hj
      · intro h; rw [hj] at h; cases h; rfl
    · rename_i hj
      constructor
      · intro h; cases h
      · intro h; rw [hj] at h; cases h
  rw [this, decValue_iff _ r hr d hd]
  constructor
  · rintro ⟨h, h'⟩; exact ⟨by omega, h'⟩
  · rintro ⟨h, h'⟩; exact ⟨by omega, h'⟩

theorem VC.dec_iff {E : Env} (d : Nat) (r : Raw) (v : VC E) : VC.dec E d r = some v ↔
    ∃ fs, structFields VC.fieldNames d r = some fs ∧
      reqField fs "@context".toList (decVec (fun _ => decString) (d - 1)) = some v.contexts ∧
      reqField fs "type".toList (decVec (fun _ => decString) (d - 1)) = some v.types ∧
      reqField fs "credentialSubject".toList (decVal' E (d - 1)) = some v.credentialSubject ∧
      optField fs "proof".toList (Proof.dec (d - 1)) = some v.proof ∧
      reqField fs "id".toList decString = some v.id ∧ reqField fs "issuer".toList decString = some v.issuer := by
  refine ⟨VC.dec_some, ?_⟩
  rintro ⟨fs, hfs, ha, hb, hc, hp, hi, hj⟩
  unfold VC.dec
  simp only [hfs, ha, hb, hc, hp, hi, hj, bind, Option.bind_some]

theorem readsVC_iff {E : Env} {d : Nat} (hd : 4 ≤ d) (r : Raw) (hr : r.Ok) (v : VC E) :
    VC.dec E d r = some v ↔ ReadsVC E (d - 2) r v := by
  rw [VC.dec_iff]
  refine struct_iff (names := ["@context", "type", "credentialSubject", "proof", "id", "issuer"]) (by decide) (by omega)
    hr ?_
  intro fs get h hok
  have req := fun (n : String) (hn : n ∈ _) (x : Str) => reqField_iff x (h n hn) (hok n hn) fun y hy => readsText_iff y hy x
  have list := fun (n : String) (hn : n ∈ _) (x : List Str) => reqField_iff x (h n hn) (hok n hn)
    fun y hy => readsList_iff (f := fun _ => decString) (d := d - 1) (by omega) readsText_iff y hy x
  rw [list "@context" (by simp), list "type" (by simp), req "id" (by simp), req "issuer" (by simp),
    optField_iff _ (h "proof" (by simp)) (hok "proof" (by simp)) (readsProof_iff (d := d - 1) (by omega)),
    reqField_iff (P := fun x j => nesting x ≤ d - 2 ∧ ValueMeans E.floatParse x j.1) _ (h "credentialSubject" (by simp))
      (hok "credentialSubject" (by simp)) fun y hy => decVal'_iff (d := d - 1) (by omega) y hy v.credentialSubject]
  rfl

theorem VP.dec_iff {E : Env} (d : Nat) (r : Raw) (v : VP E) : VP.dec E d r = some v ↔
    ∃ fs, structFields VP.fieldNames d r = some fs ∧
      reqField fs "@context".toList (decVec (fun _ => decString) (d - 1)) = some v.contexts ∧
      reqField fs "type".toList (decVec (fun _ => decString) (d - 1)) = some v.types ∧
      reqField fs "verifiableCredential".toList (decVec (VC.dec E) (d - 1)) = some v.verifiableCredential ∧
      optField fs "proof".toList (Proof.dec (d - 1)) = some v.proof ∧
      optField fs "holder".toList decString = some v.holder := by
  refine ⟨VP.dec_some, ?_⟩
  rintro ⟨fs, hfs, ha, hb, hc, hp, hi⟩
  unfold VP.dec
  simp only [hfs, ha, hb, hc, hp, hi, bind, Option.bind_some]

theorem readsVP_iff {E : Env} {d : Nat} (hd : 6 ≤ d) (r : Raw) (hr : r.Ok) (v : VP E) :
    VP.dec E d r = some v ↔ ReadsVP E (d - 4) r v := by
  rw [VP.dec_iff]
  refine struct_iff (names := ["@context", "type", "verifiableCredential", "proof", "holder"]) (by decide) (by omega) hr ?_
  intro fs get h hok
  have list := fun (n : String) (hn : n ∈ _) (x : List Str) => reqField_iff x (h n hn) (hok n hn)
    fun y hy => readsList_iff (f := fun _ => decString) (d := d - 1) (by omega) readsText_iff y hy x
  have hvc : ∀ y, y.Ok → ∀ x, VC.dec E (d - 1 - 1) y = some x ↔ ReadsVC E (d - 4) y x := by
    intro y hy x
    have := readsVC_iff (E := E) (d := d - 1 - 1) (by omega) y hy x
    rwa [show d - 1 - 1 - 2 = d - 4 by omega] at this
  rw [list "@context" (by simp), list "type" (by simp),
    optField_iff _ (h "proof" (by simp)) (hok "proof" (by simp)) (readsProof_iff (d := d - 1) (by omega)),
    optField_iff _ (h "holder" (by simp)) (hok "holder" (by simp)) readsText_iff,
    reqField_iff _ (h "verifiableCredential" (by simp)) (hok "verifiableCredential" (by simp))
      fun y hy => readsList_iff (d := d - 1) (by omega) hvc y hy v.verifiableCredential]

theorem readsKey_iff {d : Nat} (hd : 2 ≤ d) (r : Raw) (hr : r.Ok) (p : Primary) :
    Primary.dec d r = some p ↔ ReadsKey r p := by
  have e : Primary.dec d r = some p ↔ ∃ fs, structFields Primary.fieldNames d r = some fs ∧
      reqField fs "id".toList decString = some p.id ∧ reqField fs "controller".toList decString = some p.controller ∧
      reqField fs "type".toList decString = some p.verificationType ∧
      reqField fs "publicKeyMultibase".toList decString = some p.multibase := by
    unfold Primary.dec
    cases structFields Primary.fieldNames d r with
    | none => simp
    | some fs =>
      simp only [bind, Option.bind_eq_some_iff, Option.some.injEq]
      constructor
      · rintro ⟨a, ha, b, hb, c, hc, e, he, rfl⟩
        exact ⟨fs, rfl, ha, hb, hc, he⟩
      · rintro ⟨_, rfl, ha, hb, hc, he⟩
        exact ⟨_, ha, _, hb, _, hc, _, he, rfl⟩
  rw [e]
  refine struct_iff (names := ["id", "controller", "type", "publicKeyMultibase"]) (by decide) (by omega) hr ?_
  intro fs get h hok
  have req := fun (n : String) (hn : n ∈ _) (x : Str) => reqField_iff x (h n hn) (hok n hn) fun y hy => readsText_iff y hy x
  rw [req "id" (by simp), req "controller" (by simp), req "type" (by simp), req "publicKeyMultibase" (by simp)]

theorem readsDoc_iff {d : Nat} (hd : 4 ≤ d) (r : Raw) (hr : r.Ok) (v : Doc) :
    Doc.dec d r = some v ↔ ReadsDoc r v := by
  have e : Doc.dec d r = some v ↔ ∃ fs, structFields Doc.fieldNames d r = some fs ∧
      reqField fs "@context".toList (decVec (fun _ => decString) (d - 1)) = some v.context ∧
      reqField fs "id".toList decString = some v.id ∧
      optField fs "authentication".toList (decVec Primary.dec (d - 1)) = some v.authentication ∧
      optField fs "capabilityInvocation".toList (decVec Primary.dec (d - 1)) = some v.capInvoke ∧
      optField fs "capabilityDelegation".toList (decVec Primary.dec (d - 1)) = some v.capDelegate ∧
      optField fs "assertionMethod".toList (decVec Primary.dec (d - 1)) = some v.assertion := by
    unfold Doc.dec
    cases structFields Doc.fieldNames d r with
    | none => simp
    | some fs =>
      simp only [bind, Option.bind_eq_some_iff, Option.some.injEq]
      constructor
      · rintro ⟨a, ha, b, hb, c, hc, e, he, f, hf, g, hg, rfl⟩
        exact ⟨fs, rfl, ha, hb, hc, he, hf, hg⟩
      · rintro ⟨_, rfl, ha, hb, hc, he, hf, hg⟩
        exact ⟨_, ha, _, hb, _, hc, _, he, _, hf, _, hg, rfl⟩
  rw [e]
  refine struct_iff (names := ["@context", "id", "authentication", "capabilityInvocation", "capabilityDelegation",
    "assertionMethod"]) (by decide) (by omega) hr ?_
  intro fs get h hok
  have keys := fun (n : String) (hn : n ∈ _) (x : Option (List Primary)) => optField_iff x (h n hn) (hok n hn)
    fun y hy l => readsList_iff (d := d - 1) (by omega) (readsKey_iff (d := d - 1 - 1) (by omega)) y hy l
  rw [keys "authentication" (by simp), keys "capabilityInvocation" (by simp), keys "capabilityDelegation" (by simp),
    keys "assertionMethod" (by simp),
    reqField_iff _ (h "id" (by simp)) (hok "id" (by simp)) fun y hy => readsText_iff y hy v.id,
    reqField_iff _ (h "@context" (by simp)) (hok "@context" (by simp))
      fun y hy => readsList_iff (f := fun _ => decString) (d := d - 1) (by omega) readsText_iff y hy v.context]

theorem readsConnectionProps_iff {d : Nat} (hd : 2 ≤ d) (r : Raw) (hr : r.Ok) (p : UserConnectionCredentialProperties) :
    UserConnectionCredentialProperties.dec d r = some p ↔ ReadsConnectionProps r p := by
  have e : UserConnectionCredentialProperties.dec d r = some p ↔
      ∃ fs, structFields ["userAgentAddress".toList, "userDid".toList] d r = some fs ∧
        reqField fs "userAgentAddress".toList decString = some p.userAgentAddress ∧
        reqField fs "userDid".toList decString = some p.userDid := by
    unfold UserConnectionCredentialProperties.dec
    cases structFields ["userAgentAddress".toList, "userDid".toList] d r with
    | none => simp
    | some fs =>
      simp only [bind, Option.bind_eq_some_iff, Option.some.injEq]
      constructor
      · rintro ⟨a, ha, b, hb, rfl⟩
        exact ⟨fs, rfl, ha, hb⟩
      · rintro ⟨_, rfl, ha, hb⟩
        exact ⟨_, ha, _, hb, rfl⟩
  rw [e]
  refine struct_iff (names := ["userAgentAddress", "userDid"]) (by decide) (by omega) hr ?_
  intro fs get h hok
  have req := fun (n : String) (hn : n ∈ _) (x : Str) => reqField_iff x (h n hn) (hok n hn) fun y hy => readsText_iff y hy x
  rw [req "userAgentAddress" (by simp), req "userDid" (by simp)]

theorem readsConnection_iff {d : Nat} (hd : 4 ≤ d) (r : Raw) (hr : r.Ok) (c : UserConnectionCredential) :
    UserConnectionCredential.dec d r = some c ↔ ReadsConnection r c := by
  have e : UserConnectionCredential.dec d r = some c ↔
      ∃ fs, structFields ["UserConnectionCredential".toList] d r = some fs ∧
        reqField fs "UserConnectionCredential".toList (UserConnectionCredentialContext.dec (d - 1)) =
          some c.userConnectionCredential := by
    unfold UserConnectionCredential.dec
    cases structFields ["UserConnectionCredential".toList] d r with
    | none => simp
    | some fs =>
      simp only [bind, Option.bind_eq_some_iff, Option.some.injEq]
      constructor
      · rintro ⟨a, ha, rfl⟩
        exact ⟨fs, rfl, ha⟩
      · rintro ⟨_, rfl, ha⟩
        exact ⟨_, ha, rfl⟩
  rw [e]
  refine struct_iff (names := ["UserConnectionCredential"]) (by decide) (by omega) hr ?_
  intro fs get h hok
  refine reqField_iff _ (h "UserConnectionCredential" (by simp)) (hok "UserConnectionCredential" (by simp)) ?_
  intro y hy
  have e : UserConnectionCredentialContext.dec (d - 1) y = some c.userConnectionCredential ↔
      ∃ fs, structFields ["@context".toList] (d - 1) y = some fs ∧
        reqField fs "@context".toList (UserConnectionCredentialProperties.dec (d - 1 - 1)) =
          some c.userConnectionCredential.context := by
    unfold UserConnectionCredentialContext.dec
    cases structFields ["@context".toList] (d - 1) y with
    | none => simp
    | some fs =>
      simp only [bind, Option.bind_eq_some_iff, Option.some.injEq]
      constructor
      · rintro ⟨a, ha, e⟩
        exact ⟨fs, rfl, by rw [ha, ← e]⟩
      · rintro ⟨_, rfl, ha⟩
        exact ⟨_, ha, rfl⟩
  rw [e]
  refine struct_iff (names := ["@context"]) (by decide) (by omega) hy ?_
  intro fs get h hok
  exact reqField_iff _ (h "@context" (by simp)) (hok "@context" (by simp))
    fun y hy => readsConnectionProps_iff (by omega) y hy _

/-! ### From bytes -/

mutual
theorem Spec.ValueText.ok {r : Raw} {b : Bytes} (h : ValueText r b) : r.Ok := by
  match h with
  | .null => simp [Raw.Ok]
  | .true => simp [Raw.Ok]
  | .false => simp [Raw.Ok]
  | .num h => simpa [Raw.Ok] using (isNumTok_iff _).mpr h
  | .str h => simpa [Raw.Ok] using (isStrTok_iff _).mpr h
  | .arrNil _ => simp [Raw.Ok, Raw.OkList]
  | .arr h => simpa [Raw.Ok] using Spec.ElemsText.ok h
  | .objNil _ => simp [Raw.Ok, Raw.OkMembers]
  | .obj h => simpa [Raw.Ok] using Spec.MembersText.ok h
theorem Spec.ElemsText.ok {xs : List Raw} {b : Bytes} (h : ElemsText xs b) : Raw.OkList xs := by
  match h with
  | .one _ h _ => simpa [Raw.OkList] using Spec.ValueText.ok h
  | .more _ h _ h' => simpa [Raw.OkList] using ⟨Spec.ValueText.ok h, Spec.ElemsText.ok h'⟩
theorem Spec.MembersText.ok {xs : List (Bytes × Raw)} {b : Bytes} (h : MembersText xs b) : Raw.OkMembers xs := by
  match h with
  | .one _ hk _ _ h _ => simpa [Raw.OkMembers] using ⟨(isStrTok_iff _).mpr hk, Spec.ValueText.ok h⟩
  | .more _ hk _ _ h _ h' =>
    simpa [Raw.OkMembers] using ⟨(isStrTok_iff _).mpr hk, Spec.ValueText.ok h, Spec.MembersText.ok h'⟩
end

theorem fromSlice_iff {α : Type} {f : Nat → Raw → Option α} {P : Raw → α → Prop}
    (hf : ∀ r, r.Ok → ∀ x, f 128 r = some x ↔ P r x) (bs : Bytes) (x : α) :
    fromSlice f bs = some x ↔ ∃ r, JsonText r bs ∧ P r x := by
  unfold fromSlice
  have ok : ∀ r, JsonText r bs → r.Ok := by
    rintro r ⟨_, _, _, _, h, _⟩; exact h.ok
  constructor
  · intro h
    split at h
    · cases h
    · rename_i r hr
      rw [Raw.parse_iff] at hr
      exact ⟨r, hr, (hf r (ok r hr) x).mp h⟩
  · rintro ⟨r, hr, h⟩
    rw [(Raw.parse_iff bs r).mpr hr]
    exact (hf r (ok r hr) x).mpr h

theorem Spec.JsonText.ok {r : Raw} {bs : Bytes} (h : JsonText r bs) : r.Ok := by
  obtain ⟨_, _, _, _, h, _⟩ := h; exact h.ok

theorem Spec.Spells.dec {s : Bytes} {t : Str} (h : Spells s t) : decStr s = some t := by
  simp [decStr, h.unescape]

theorem not_spells {kvs : List (Bytes × Raw)} {bs : Bytes} {n : Str} (h : JsonText (.obj kvs) bs)
    (hm : ∀ kv ∈ kvs, ¬ Spells kv.1 n) : ∀ kv ∈ kvs, decStr kv.1 ≠ some n := by
  intro kv hkv hd
  exact hm kv hkv ((decStr_iff (okMembers_mem (by simpa [Raw.Ok] using h.ok) kv hkv).1 n).mp hd)

/-! ### Tests of the descriptions, for the examples -/

theorem jsonText_of_same {bs : Bytes} {r : Raw}
    (h : (match Raw.parse bs with
      | some x => Raw.same x r
      | none => false) = true) : JsonText r bs := (Raw.parse_iff bs r).mp (Raw.parse_of_same h)

theorem spells_of_dec {s : Bytes} {t : Str} (h : scanStr (s ++ [0x22]) = some (s, [])) (hd : decStr s = some t) :
    Spells s t := (decStr_iff ((scanStr_iff _ _ _).mp h).1 t).mp hd

theorem not_spells_of_dec {kvs : List (Bytes × Raw)} {n : Str} (h : ∀ kv ∈ kvs, decStr kv.1 ≠ some n) :
    ∀ kv ∈ kvs, ¬ Spells kv.1 n := fun kv hkv hs => h kv hkv hs.dec

end Verif
