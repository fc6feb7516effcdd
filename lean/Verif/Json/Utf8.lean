import Verif.Json.Value

/-
Printed JSON is valid UTF-8, so `serde_json::to_string` / `serde_jcs::to_string` return a `String` whose
bytes are the printed bytes.
-/

namespace Verif

/-- The bytes of some string. -/
def IsUtf8 (b : Bytes) : Prop := ∃ s : Str, b = utf8Encode s

/-- The `String` with the given bytes (`String::from_utf8_unchecked` as used by `to_string`). -/
def bytesToStr (b : Bytes) : Str := (utf8Decode b).getD []

theorem utf8Encode_bytesToStr {b : Bytes} (h : IsUtf8 b) : utf8Encode (bytesToStr b) = b := by
  obtain ⟨s, rfl⟩ := h
  simp [bytesToStr, utf8Decode_encode]

theorem bytesToStr_inj {a b : Bytes} (ha : IsUtf8 a) (hb : IsUtf8 b) (h : bytesToStr a = bytesToStr b) :
    a = b := by
  rw [← utf8Encode_bytesToStr ha, ← utf8Encode_bytesToStr hb, h]

theorem IsUtf8.nil : IsUtf8 [] := ⟨[], rfl⟩

theorem IsUtf8.append {a b : Bytes} (ha : IsUtf8 a) (hb : IsUtf8 b) : IsUtf8 (a ++ b) := by
  obtain ⟨s, rfl⟩ := ha
  obtain ⟨t, rfl⟩ := hb
  exact ⟨s ++ t, by rw [utf8Encode_append]⟩

theorem IsUtf8.ascii1 {b : UInt8} (h : b.toNat < 128) : IsUtf8 [b] := by
  refine ⟨[Char.ofNat b.toNat], ?_⟩
  have : (Char.ofNat b.toNat).toNat = b.toNat := Char.toNat_ofNat_valid (Or.inl (by omega))
  simp [utf8Encode, utf8EncodeChar, this, h]

theorem IsUtf8.cons {b : UInt8} {r : Bytes} (h : b.toNat < 128) (hr : IsUtf8 r) : IsUtf8 (b :: r) :=
  (IsUtf8.ascii1 h).append hr

theorem IsUtf8.ascii {l : Bytes} (h : ∀ b ∈ l, b.toNat < 128) : IsUtf8 l := by
  induction l with
  | nil => exact .nil
  | cons b l ih => exact .cons (h b (by simp)) (ih fun x hx => h x (by simp [hx]))

theorem escape_append (a b : Bytes) : escape (a ++ b) = escape a ++ escape b := by
  induction a with
  | nil => simp [escape]
  | cons x a ih => simp [escape, ih]

theorem escape_high {l : Bytes} (h : ∀ b ∈ l, 128 ≤ b.toNat) : escape l = l := by
  induction l with
  | nil => rfl
  | cons b l ih =>
    have hb := h b (by simp)
    have : escByte b = [b] := by
      have hne : ∀ c : UInt8, c.toNat < 128 → b ≠ c := by
        intro c hc e; subst e; omega
      unfold escByte
      rw [if_neg (hne _ (by decide)), if_neg (hne _ (by decide)), if_neg (hne _ (by decide)),
        if_neg (hne _ (by decide)), if_neg (hne _ (by decide)), if_neg (hne _ (by decide)),
        if_neg (hne _ (by decide)), if_neg (by omega)]
    rw [escape, this, ih fun x hx => h x (by simp [hx])]
    rfl

theorem escByte_ascii {b : UInt8} (h : b.toNat < 128) : IsUtf8 (escByte b) := by
  apply IsUtf8.ascii
  intro x hx
  rcases escByte_cases b with ⟨e, he, h1, _, _⟩ | ⟨h8, he⟩ | ⟨he, _, _, _⟩
  · rw [he] at hx
    simp only [List.mem_cons, List.not_mem_nil, or_false] at hx
    rcases hx with rfl | rfl
    · decide
    · simp only [isSimpleEsc, Bool.or_eq_true, beq_iff_eq] at h1
      rcases h1 with ((((((rfl | rfl) | rfl) | rfl) | rfl) | rfl) | rfl) | rfl <;> decide
  · rw [he] at hx
    have hh : ∀ n, n < 16 → (hexByte n).toNat < 128 := by
      intro n hn
      have : ∀ n : Fin 16, (hexByte n.1).toNat < 128 := by decide
      exact this ⟨n, hn⟩
    simp only [List.mem_cons, List.not_mem_nil, or_false] at hx
    rcases hx with rfl | rfl | rfl | rfl | rfl | rfl
    · decide
    · decide
    · decide
    · decide
    · exact hh _ (by omega)
    · exact hh _ (by omega)
  · rw [he] at hx
    simp only [List.mem_cons, List.not_mem_nil, or_false] at hx
    rw [hx]; exact h

theorem utf8EncodeChar_cases (c : Char) :
    (∃ b, utf8EncodeChar c = [b] ∧ b.toNat < 128) ∨ ∀ b ∈ utf8EncodeChar c, 128 ≤ b.toNat := by
  have hc := Char.toNat_lt c
  unfold utf8EncodeChar
  dsimp only
  split
  · left; exact ⟨_, rfl, by rw [byte_toNat]; omega⟩
  · right
    split
    · intro b hb
      simp only [List.mem_cons, List.not_mem_nil, or_false] at hb
      rcases hb with rfl | rfl <;> rw [byte_toNat] <;> omega
    · split
      · intro b hb
        simp only [List.mem_cons, List.not_mem_nil, or_false] at hb
        rcases hb with rfl | rfl | rfl <;> rw [byte_toNat] <;> omega
      · intro b hb
        simp only [List.mem_cons, List.not_mem_nil, or_false] at hb
        rcases hb with rfl | rfl | rfl | rfl <;> rw [byte_toNat] <;> omega

theorem isUtf8_encStr (s : Str) : IsUtf8 (encStr s) := by
  unfold encStr
  induction s with
  | nil => exact .nil
  | cons c s ih =>
    rw [utf8Encode_cons, escape_append]
    refine IsUtf8.append ?_ ih
    rcases utf8EncodeChar_cases c with ⟨b, he, hb⟩ | h
    · rw [he]
      simp only [escape, List.append_nil]
      exact escByte_ascii hb
    · rw [escape_high h]
      exact ⟨[c], by simp [utf8Encode]⟩

/-! ### Number tokens are ASCII -/

theorem digit_ascii {b : UInt8} (h : isDigit b = true) : b.toNat < 128 := by
  simp only [isDigit, Bool.and_eq_true, decide_eq_true_eq] at h
  omega

theorem spanDigits_ascii (l : Bytes) : ∀ b ∈ (spanDigits l).1, b.toNat < 128 := by
  induction l with
  | nil => simp [spanDigits]
  | cons c l ih =>
    simp only [spanDigits]
    split
    · rename_i h
      intro b hb
      rcases List.mem_cons.mp hb with rfl | hb
      · exact digit_ascii h
      · exact ih b hb
    · simp

theorem scanInt_ascii {l i r : Bytes} (h : scanInt l = some (i, r)) : ∀ b ∈ i, b.toNat < 128 := by
  cases l with
  | nil => cases h
  | cons c l =>
    simp only [scanInt] at h
    split at h
    · rename_i hc
      split at h
      · cases h; simp [hc]
      · split at h
        · cases h
        · cases h; simp [hc]
    · split at h
      · rename_i hd
        cases h
        intro b hb
        rcases List.mem_cons.mp hb with rfl | hb
        · exact digit_ascii hd
        · exact spanDigits_ascii l b hb
      · cases h

theorem scanFrac_ascii {l i r : Bytes} (h : scanFrac l = some (i, r)) : ∀ b ∈ i, b.toNat < 128 := by
  cases l with
  | nil => cases h; simp
  | cons c l =>
    simp only [scanFrac] at h
    split at h
    · rename_i hc
      split at h
      · cases h
      · cases h
        intro b hb
        rcases List.mem_cons.mp hb with rfl | hb
        · rw [hc]; decide
        · exact spanDigits_ascii l b hb
    · cases h; simp

theorem scanExp_ascii {l i r : Bytes} (h : scanExp l = some (i, r)) : ∀ b ∈ i, b.toNat < 128 := by
  cases l with
  | nil => cases h; simp
  | cons c l =>
    simp only [scanExp] at h
    split at h
    · rename_i hc
      split at h
      · cases h
      · cases h
        intro b hb
        rcases List.mem_cons.mp hb with rfl | hb
        · rcases hc with rfl | rfl <;> decide
        · rcases List.mem_append.mp hb with hb | hb
          · cases l with
            | nil => simp [scanSign] at hb
            | cons d l =>
              simp only [scanSign] at hb
              split at hb
              · rename_i hd
                simp only [List.mem_cons, List.not_mem_nil, or_false] at hb
                rw [hb]
                rcases hd with rfl | rfl <;> decide
              · simp at hb
          · exact spanDigits_ascii _ b hb
    · cases h; simp

theorem scanUNum_ascii {l i r : Bytes} (h : scanUNum l = some (i, r)) : ∀ b ∈ i, b.toNat < 128 := by
  unfold scanUNum at h
  split at h
  · cases h
  · rename_i h1
    split at h
    · cases h
    · rename_i h2
      split at h
      · cases h
      · rename_i h3
        cases h
        intro b hb
        rcases List.mem_append.mp hb with hb | hb
        · exact scanInt_ascii h1 b hb
        · rcases List.mem_append.mp hb with hb | hb
          · exact scanFrac_ascii h2 b hb
          · exact scanExp_ascii h3 b hb

theorem isNumTok_ascii {t : Bytes} (h : IsNumTok t) : ∀ b ∈ t, b.toNat < 128 := by
  unfold IsNumTok at h
  cases t with
  | nil => cases h
  | cons c t =>
    simp only [scanNum] at h
    split at h
    · rename_i hc
      obtain ⟨⟨p1, p2⟩, hp, he⟩ := Option.map_eq_some_iff.mp h
      cases he
      intro b hb
      rcases List.mem_cons.mp hb with rfl | hb
      · rw [hc]; decide
      · exact scanUNum_ascii hp b hb
    · exact scanUNum_ascii h

namespace Json
variable {N : Type}

mutual
theorem render_utf8 {p : N → Bytes} (hp : ∀ n, IsNumTok (p n)) (j : Json N) : IsUtf8 ((toRaw p j).render) := by
  match j with
  | .null => exact .ascii (by simp only [toRaw, Raw.render]; decide)
  | .bool true => exact .ascii (by simp only [toRaw, Raw.render]; decide)
  | .bool false => exact .ascii (by simp only [toRaw, Raw.render]; decide)
  | .num n => simp only [toRaw, Raw.render]; exact .ascii (isNumTok_ascii (hp n))
  | .str s =>
    simp only [toRaw, Raw.render]
    exact .cons (by decide) ((isUtf8_encStr s).append (.ascii1 (by decide)))
  | .arr [] => exact .ascii (by simp only [toRaw, toRawList, Raw.render]; decide)
  | .arr (x :: xs) =>
    simp only [toRaw, toRawList, Raw.render]
    exact .cons (by decide) ((render_utf8 hp x).append (renderTail_utf8 hp xs))
  | .obj [] => exact .ascii (by simp only [toRaw, toRawMembers, Raw.render]; decide)
  | .obj ((k, v) :: kvs) =>
    simp only [toRaw, toRawMembers, Raw.render]
    exact .cons (by decide) (.cons (by decide) ((isUtf8_encStr k).append (.cons (by decide) (.cons (by decide)
      ((render_utf8 hp v).append (renderMTail_utf8 hp kvs))))))
theorem renderTail_utf8 {p : N → Bytes} (hp : ∀ n, IsNumTok (p n)) (xs : List (Json N)) :
    IsUtf8 (Raw.renderTail (toRawList p xs)) := by
  match xs with
  | [] => exact .ascii (by simp only [toRawList, Raw.renderTail]; decide)
  | x :: xs =>
    simp only [toRawList, Raw.renderTail]
    exact .cons (by decide) ((render_utf8 hp x).append (renderTail_utf8 hp xs))
theorem renderMTail_utf8 {p : N → Bytes} (hp : ∀ n, IsNumTok (p n)) (kvs : List (Str × Json N)) :
    IsUtf8 (Raw.renderMTail (toRawMembers p kvs)) := by
  match kvs with
  | [] => exact .ascii (by simp only [toRawMembers, Raw.renderMTail]; decide)
  | (k, v) :: kvs =>
    simp only [toRawMembers, Raw.renderMTail]
    exact .cons (by decide) (.cons (by decide) ((isUtf8_encStr k).append (.cons (by decide) (.cons (by decide)
      ((render_utf8 hp v).append (renderMTail_utf8 hp kvs))))))
end

theorem text_utf8 {p : N → Bytes} (hp : ∀ n, IsNumTok (p n)) (j : Json N) : IsUtf8 (text p j) := render_utf8 hp j

theorem jcs_utf8 {le : Str → Str → Bool} {p : N → Bytes} (hp : ∀ n, IsNumTok (p n)) (j : Json N) :
    IsUtf8 (jcs le p j) := render_utf8 hp _

end Json
end Verif
