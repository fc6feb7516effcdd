import Verif.Base

/-
JSON text at the byte level: the tree of tokens (`Raw`), the compact printer and the reader.

* `Raw.render` is `serde_json`'s `CompactFormatter` (no white space) applied to a tree of tokens.
* `Raw.parse` is the grammar `serde_json::from_slice` accepts (crate serde_json 1.x; used at
  core/src/verifiable/vc.rs:132 and vp.rs:134): strict JSON, white space between tokens, nothing but
  white space after the value. String and number tokens are kept as raw bytes; they are decoded later
  (`Json/Decode.lean`) by whatever type is deserialised, exactly as serde ignores the content of
  members it does not know.
* The reader's recursion limit is not applied here but when a token tree is decoded, because
  serde_json does not apply it to ignored members.
-/

namespace Verif

/-- A JSON token tree. `num` and `str` hold the raw bytes of the token (without the quotes). -/
inductive Raw where
  | null
  | bool (b : Bool)
  | num (tok : Bytes)
  | str (raw : Bytes)
  | arr (xs : List Raw)
  | obj (kvs : List (Bytes × Raw))

/-! ### Printer -/

mutual
/-- Compact printer. -/
def Raw.render : Raw → Bytes
  | .null => [0x6e, 0x75, 0x6c, 0x6c]
  | .bool true => [0x74, 0x72, 0x75, 0x65]
  | .bool false => [0x66, 0x61, 0x6c, 0x73, 0x65]
  | .num t => t
  | .str s => 0x22 :: (s ++ [0x22])
  | .arr [] => [0x5b, 0x5d]
  | .arr (x :: xs) => 0x5b :: (x.render ++ Raw.renderTail xs)
  | .obj [] => [0x7b, 0x7d]
  | .obj ((k, v) :: kvs) => 0x7b :: 0x22 :: (k ++ 0x22 :: 0x3a :: (v.render ++ Raw.renderMTail kvs))
/-- Remaining array elements and the closing bracket. -/
def Raw.renderTail : List Raw → Bytes
  | [] => [0x5d]
  | x :: xs => 0x2c :: (x.render ++ Raw.renderTail xs)
/-- Remaining object members and the closing brace. -/
def Raw.renderMTail : List (Bytes × Raw) → Bytes
  | [] => [0x7d]
  | (k, v) :: kvs => 0x2c :: 0x22 :: (k ++ 0x22 :: 0x3a :: (v.render ++ Raw.renderMTail kvs))
end

/-! ### Reader -/

/-- JSON white space. -/
def isWs (b : UInt8) : Bool := b == 0x20 || b == 0x0a || b == 0x09 || b == 0x0d

/-- `parse_whitespace`. -/
def skipWs : Bytes → Bytes
  | [] => []
  | b :: r => if isWs b then skipWs r else b :: r

/-- ASCII decimal digit. -/
def isDigit (b : UInt8) : Bool := 0x30 ≤ b.toNat && b.toNat ≤ 0x39

/-- ASCII hex digit of either case. -/
def isHexByte (b : UInt8) : Bool :=
  isDigit b || (0x61 ≤ b.toNat && b.toNat ≤ 0x66) || (0x41 ≤ b.toNat && b.toNat ≤ 0x46)

/-- The characters that may follow a backslash, apart from `u`. -/
def isSimpleEsc (b : UInt8) : Bool :=
  b == 0x22 || b == 0x5c || b == 0x2f || b == 0x62 || b == 0x66 || b == 0x6e || b == 0x72 || b == 0x74

/-- Read a string token up to its closing quote (`ignore_str`): control bytes are rejected, escapes are
checked for form only. -/
def scanStr : Bytes → Option (Bytes × Bytes)
  | [] => none
  | b :: r =>
    if b = 0x22 then some ([], r)
    else if b = 0x5c then
      match r with
      | [] => none
      | e :: r' =>
        if isSimpleEsc e then (scanStr r').map fun p => (b :: e :: p.1, p.2)
        else if e = 0x75 then
          match r' with
          | h1 :: h2 :: h3 :: h4 :: r'' =>
            if isHexByte h1 && isHexByte h2 && isHexByte h3 && isHexByte h4 then
              (scanStr r'').map fun p => (b :: e :: h1 :: h2 :: h3 :: h4 :: p.1, p.2)
            else none
          | _ => none
        else none
    else if b.toNat < 0x20 then none
    else (scanStr r).map fun p => (b :: p.1, p.2)

/-- Longest prefix of digits. -/
def spanDigits : Bytes → Bytes × Bytes
  | [] => ([], [])
  | b :: r => if isDigit b then ((b :: (spanDigits r).1), (spanDigits r).2) else ([], b :: r)

/-- Integer part: `0` or a digit string without leading zero. -/
def scanInt : Bytes → Option (Bytes × Bytes)
  | [] => none
  | b :: r =>
    if b = 0x30 then
      match r with
      | [] => some ([b], [])
      | b' :: r' => if isDigit b' then none else some ([b], b' :: r')
    else if isDigit b then some (b :: (spanDigits r).1, (spanDigits r).2)
    else none

/-- Optional fraction. -/
def scanFrac : Bytes → Option (Bytes × Bytes)
  | [] => some ([], [])
  | b :: r =>
    if b = 0x2e then
      if (spanDigits r).1 = [] then none else some (b :: (spanDigits r).1, (spanDigits r).2)
    else some ([], b :: r)

/-- Optional exponent sign. -/
def scanSign : Bytes → Bytes × Bytes
  | [] => ([], [])
  | b :: r => if b = 0x2b ∨ b = 0x2d then ([b], r) else ([], b :: r)

/-- Optional exponent. -/
def scanExp : Bytes → Option (Bytes × Bytes)
  | [] => some ([], [])
  | b :: r =>
    if b = 0x65 ∨ b = 0x45 then
      if (spanDigits (scanSign r).2).1 = [] then none
      else some (b :: ((scanSign r).1 ++ (spanDigits (scanSign r).2).1), (spanDigits (scanSign r).2).2)
    else some ([], b :: r)

/-- Number without its sign. -/
def scanUNum (bs : Bytes) : Option (Bytes × Bytes) :=
  match scanInt bs with
  | none => none
  | some (i, r1) =>
    match scanFrac r1 with
    | none => none
    | some (f, r2) =>
      match scanExp r2 with
      | none => none
      | some (e, r3) => some (i ++ (f ++ e), r3)

/-- A number token (`ignore_number` / `parse_integer`). -/
def scanNum : Bytes → Option (Bytes × Bytes)
  | [] => none
  | b :: r => if b = 0x2d then (scanUNum r).map fun p => (b :: p.1, p.2) else scanUNum (b :: r)

/-- Read a fixed literal. -/
def expect : Bytes → Bytes → Option Bytes
  | [], r => some r
  | _ :: _, [] => none
  | a :: l, b :: r => if a = b then expect l r else none

mutual
/-- Read one value. The fuel bounds nesting plus list length; the entry point supplies more than the
input length, so it is never exhausted (see `Raw.parseValue_render`). -/
def Raw.parseValue : Nat → Bytes → Option (Raw × Bytes)
  | 0, _ => none
  | f + 1, bs =>
    match skipWs bs with
    | [] => none
    | b :: r =>
      if b = 0x22 then (scanStr r).map fun p => (.str p.1, p.2)
      else if b = 0x7b then
        match skipWs r with
        | [] => none
        | c :: r' =>
          if c = 0x7d then some (.obj [], r')
          else
            match Raw.parseMember f (c :: r') with
            | none => none
            | some (m, r1) =>
              match Raw.parseMTail f r1 with
              | none => none
              | some (ms, r2) => some (.obj (m :: ms), r2)
      else if b = 0x5b then
        match skipWs r with
        | [] => none
        | c :: r' =>
          if c = 0x5d then some (.arr [], r')
          else
            match Raw.parseValue f (c :: r') with
            | none => none
            | some (x, r1) =>
              match Raw.parseTail f r1 with
              | none => none
              | some (xs, r2) => some (.arr (x :: xs), r2)
      else if b = 0x6e then (expect [0x75, 0x6c, 0x6c] r).map fun p => (.null, p)
      else if b = 0x74 then (expect [0x72, 0x75, 0x65] r).map fun p => (.bool true, p)
      else if b = 0x66 then (expect [0x61, 0x6c, 0x73, 0x65] r).map fun p => (.bool false, p)
      else (scanNum (b :: r)).map fun p => (.num p.1, p.2)
/-- Remaining elements of an array. -/
def Raw.parseTail : Nat → Bytes → Option (List Raw × Bytes)
  | 0, _ => none
  | f + 1, bs =>
    match skipWs bs with
    | [] => none
    | b :: r =>
      if b = 0x5d then some ([], r)
      else if b = 0x2c then
        match Raw.parseValue f r with
        | none => none
        | some (x, r1) =>
          match Raw.parseTail f r1 with
          | none => none
          | some (xs, r2) => some (x :: xs, r2)
      else none
/-- One object member. -/
def Raw.parseMember : Nat → Bytes → Option ((Bytes × Raw) × Bytes)
  | 0, _ => none
  | f + 1, bs =>
    match skipWs bs with
    | [] => none
    | b :: r =>
      if b = 0x22 then
        match scanStr r with
        | none => none
        | some (k, r1) =>
          match skipWs r1 with
          | [] => none
          | c :: r2 =>
            if c = 0x3a then
              match Raw.parseValue f r2 with
              | none => none
              | some (v, r3) => some ((k, v), r3)
            else none
      else none
/-- Remaining members of an object. -/
def Raw.parseMTail : Nat → Bytes → Option (List (Bytes × Raw) × Bytes)
  | 0, _ => none
  | f + 1, bs =>
    match skipWs bs with
    | [] => none
    | b :: r =>
      if b = 0x7d then some ([], r)
      else if b = 0x2c then
        match Raw.parseMember f r with
        | none => none
        | some (m, r1) =>
          match Raw.parseMTail f r1 with
          | none => none
          | some (ms, r2) => some (m :: ms, r2)
      else none
end

/-- `serde_json::from_slice` up to typing: one value, then only white space. -/
def Raw.parse (bs : Bytes) : Option Raw :=
  match Raw.parseValue (2 * bs.length + 2) bs with
  | none => none
  | some (v, r) => if skipWs r = [] then some v else none

/-! ### Well-formed tokens -/

/-- The bytes between quotes form one string token. -/
def IsStrTok (s : Bytes) : Prop := ∀ rest, scanStr (s ++ 0x22 :: rest) = some (s, rest)

/-- The bytes form one number token. -/
def IsNumTok (t : Bytes) : Prop := scanNum t = some (t, [])

instance (t : Bytes) : Decidable (IsNumTok t) := inferInstanceAs (Decidable (_ = _))

mutual
/-- Every token of the tree is well formed. -/
def Raw.Ok : Raw → Prop
  | .num t => IsNumTok t
  | .str s => IsStrTok s
  | .arr xs => Raw.OkList xs
  | .obj kvs => Raw.OkMembers kvs
  | _ => True
def Raw.OkList : List Raw → Prop
  | [] => True
  | x :: xs => x.Ok ∧ Raw.OkList xs
def Raw.OkMembers : List (Bytes × Raw) → Prop
  | [] => True
  | (k, v) :: kvs => IsStrTok k ∧ v.Ok ∧ Raw.OkMembers kvs
end

/-! ### Number scanning with trailing input -/

/-- A byte that cannot continue a number token. -/
def NumEnd (b : UInt8) : Prop := isDigit b = false ∧ b ≠ 0x2e ∧ b ≠ 0x65 ∧ b ≠ 0x45

/-- The rest of the input cannot continue a number token. -/
def NumStop : Bytes → Prop
  | [] => True
  | b :: _ => NumEnd b

theorem spanDigits_append {t : Bytes} (rest : Bytes) (h : NumStop rest) :
    spanDigits (t ++ rest) =
      if (spanDigits t).2 = [] then ((spanDigits t).1, rest) else ((spanDigits t).1, (spanDigits t).2 ++ rest) := by
  induction t with
  | nil =>
    cases rest with
    | nil => rfl
    | cons b r => simp [spanDigits, h.1]
  | cons c t ih =>
    by_cases hc : isDigit c
    · simp only [List.cons_append, spanDigits, hc, if_true, ih]
      split <;> simp
    · simp [spanDigits, hc]

/-- Result of running a scanner on extended input. -/
def Extends (s : Bytes → Option (Bytes × Bytes)) : Prop :=
  ∀ t rest i r, NumStop rest → s t = some (i, r) → s (t ++ rest) = some (i, r ++ rest)

theorem spanDigits_append' {t : Bytes} (rest : Bytes) (h : NumStop rest) :
    spanDigits (t ++ rest) = ((spanDigits t).1, (spanDigits t).2 ++ rest) := by
  rw [spanDigits_append rest h]
  split
  · rename_i h; simp [h]
  · rfl

theorem scanInt_extends : Extends scanInt := by
  intro t rest i r hs h
  cases t with
  | nil => cases h
  | cons b t =>
    simp only [List.cons_append, scanInt] at h ⊢
    split at h
    · rename_i hb
      rw [if_pos hb]
      cases t with
      | nil =>
        cases h
        cases rest with
        | nil => rfl
        | cons c rest => simp [hs.1]
      | cons c t =>
        simp only [List.cons_append] at h ⊢
        split at h
        · cases h
        · rename_i hc
          cases h
          rw [if_neg hc]
          simp
    · rename_i hb
      rw [if_neg hb]
      split at h
      · rename_i hd
        cases h
        rw [if_pos hd, spanDigits_append' rest hs]
      · cases h

theorem scanFrac_extends : Extends scanFrac := by
  intro t rest i r hs h
  cases t with
  | nil =>
    cases h
    cases rest with
    | nil => rfl
    | cons c rest => simp [scanFrac, hs.2.1]
  | cons b t =>
    simp only [List.cons_append, scanFrac] at h ⊢
    split at h
    · rename_i hb
      rw [if_pos hb, spanDigits_append' rest hs]
      split at h
      · cases h
      · rename_i hn
        cases h
        rw [if_neg hn]
    · rename_i hb
      cases h
      rw [if_neg hb]
      simp

theorem scanExp_extends : Extends scanExp := by
  intro t rest i r hs h
  cases t with
  | nil =>
    cases h
    cases rest with
    | nil => rfl
    | cons c rest => simp [scanExp, hs.2.2.1, hs.2.2.2]
  | cons b t =>
    simp only [List.cons_append, scanExp] at h ⊢
    split at h
    · rename_i hb
      rw [if_pos hb]
      split at h
      · cases h
      · rename_i hn
        cases h
        have hsign : scanSign (t ++ rest) = ((scanSign t).1, (scanSign t).2 ++ rest) := by
          cases t with
          | nil => simp [scanSign, spanDigits] at hn
          | cons c t =>
            simp only [List.cons_append, scanSign]
            split <;> rfl
        rw [hsign]
        simp only
        rw [spanDigits_append' rest hs, if_neg hn]
    · rename_i hb
      cases h
      rw [if_neg hb]
      simp

theorem scanUNum_extends : Extends scanUNum := by
  intro t rest i r hs h
  unfold scanUNum at h
  split at h
  · cases h
  · rename_i i1 r1 h1
    split at h
    · cases h
    · rename_i f r2 h2
      split at h
      · cases h
      · rename_i e r3 h3
        cases h
        unfold scanUNum
        rw [scanInt_extends _ _ _ _ hs h1]
        simp only
        rw [scanFrac_extends _ _ _ _ hs h2]
        simp only
        rw [scanExp_extends _ _ _ _ hs h3]

theorem scanNum_extends : Extends scanNum := by
  intro t rest i r hs h
  cases t with
  | nil => cases h
  | cons b t =>
    simp only [List.cons_append, scanNum] at h ⊢
    split at h
    · rename_i hb
      rw [if_pos hb]
      obtain ⟨p, hp, he⟩ := Option.map_eq_some_iff.mp h
      cases he
      rw [scanUNum_extends _ _ _ _ hs hp]
      rfl
    · rename_i hb
      rw [if_neg hb]
      exact scanUNum_extends (b :: t) rest i r hs h

theorem scanNum_tok {t : Bytes} (ht : IsNumTok t) {rest : Bytes} (h : NumStop rest) :
    scanNum (t ++ rest) = some (t, rest) := by
  simpa using scanNum_extends t rest t [] h ht

/-- First byte of a number token: a digit or a minus sign. -/
theorem numTok_head {t : Bytes} (ht : IsNumTok t) :
    ∃ b r, t = b :: r ∧ (b = 0x2d ∨ isDigit b = true) := by
  cases t with
  | nil => cases ht
  | cons b r =>
    refine ⟨b, r, rfl, ?_⟩
    by_cases hb : b = 0x2d
    · exact Or.inl hb
    · right
      unfold IsNumTok at ht
      simp only [scanNum, if_neg hb, scanUNum] at ht
      split at ht
      · cases ht
      · rename_i i1 r1 h1
        simp only [scanInt] at h1
        split at h1
        · rename_i h0; rw [h0]; rfl
        · split at h1
          · assumption
          · cases h1

theorem ne_of_digit {b : UInt8} (h : b = 0x2d ∨ isDigit b = true) :
    isWs b = false ∧ b ≠ 0x22 ∧ b ≠ 0x7b ∧ b ≠ 0x5b ∧ b ≠ 0x6e ∧ b ≠ 0x74 ∧ b ≠ 0x66 ∧ b ≠ 0x5d ∧ b ≠ 0x7d := by
  rcases h with rfl | h
  · decide
  · simp only [isDigit, Bool.and_eq_true, decide_eq_true_eq] at h
    have key : ∀ c : UInt8, (c.toNat < 0x30 ∨ 0x39 < c.toNat) → b ≠ c := by
      intro c hc he; subst he; omega
    refine ⟨?_, key _ (by decide), key _ (by decide), key _ (by decide), key _ (by decide),
      key _ (by decide), key _ (by decide), key _ (by decide), key _ (by decide)⟩
    simp only [isWs, Bool.or_eq_false_iff, beq_eq_false_iff_ne, ne_eq]
    exact ⟨⟨⟨key _ (by decide), key _ (by decide)⟩, key _ (by decide)⟩, key _ (by decide)⟩

/-! ### Reader after printer -/

theorem skipWs_of_not {b : UInt8} {r : Bytes} (h : isWs b = false) : skipWs (b :: r) = b :: r := by
  simp [skipWs, h]

/-- The first byte of a printed value is neither white space nor a closing bracket. -/
def StartsOk (bs : Bytes) : Prop := ∃ b r, bs = b :: r ∧ isWs b = false ∧ b ≠ 0x5d ∧ b ≠ 0x7d

theorem render_starts (v : Raw) (hv : v.Ok) (rest : Bytes) : StartsOk (v.render ++ rest) := by
  cases v with
  | null => exact ⟨0x6e, _, rfl, by decide, by decide, by decide⟩
  | bool b => cases b <;> exact ⟨_, _, rfl, by decide, by decide, by decide⟩
  | num t =>
    obtain ⟨b, r, rfl, hb⟩ := numTok_head (by simpa [Raw.Ok] using hv)
    have := ne_of_digit hb
    exact ⟨b, r ++ rest, by simp [Raw.render], this.1, this.2.2.2.2.2.2.2.1, this.2.2.2.2.2.2.2.2⟩
  | str s => exact ⟨0x22, _, by simp only [Raw.render, List.cons_append]; rfl, by decide, by decide, by decide⟩
  | arr xs => cases xs <;> exact ⟨0x5b, _, by simp only [Raw.render, List.cons_append]; rfl, by decide, by decide, by decide⟩
  | obj kvs =>
    cases kvs with
    | nil => exact ⟨0x7b, _, by simp only [Raw.render, List.cons_append]; rfl, by decide, by decide, by decide⟩
    | cons p kvs => exact ⟨0x7b, _, by simp only [Raw.render, List.cons_append]; rfl, by decide, by decide, by decide⟩

mutual
/-- Fuel needed to read a printed tree. -/
def Raw.fuel : Raw → Nat
  | .arr xs => Raw.fuelList xs + 1
  | .obj kvs => Raw.fuelMembers kvs + 1
  | _ => 1
def Raw.fuelList : List Raw → Nat
  | [] => 1
  | x :: xs => x.fuel + Raw.fuelList xs + 1
def Raw.fuelMembers : List (Bytes × Raw) → Nat
  | [] => 1
  | (_, v) :: kvs => v.fuel + Raw.fuelMembers kvs + 2
end

theorem numStop_tail (xs : List Raw) (rest : Bytes) : NumStop (Raw.renderTail xs ++ rest) := by
  cases xs with
  | nil => simp only [Raw.renderTail, List.cons_append, NumStop, NumEnd]; decide
  | cons x xs => simp only [Raw.renderTail, List.cons_append, NumStop, NumEnd]; decide

theorem numStop_mtail (xs : List (Bytes × Raw)) (rest : Bytes) : NumStop (Raw.renderMTail xs ++ rest) := by
  cases xs with
  | nil => simp only [Raw.renderMTail, List.cons_append, NumStop, NumEnd]; decide
  | cons x xs => simp only [Raw.renderMTail, List.cons_append, NumStop, NumEnd]; decide

theorem parseMember_of {f : Nat} {k : Bytes} {v : Raw} {rest : Bytes}
    (hk : IsStrTok k) (hv : Raw.parseValue f (v.render ++ rest) = some (v, rest)) :
    Raw.parseMember (f + 1) (0x22 :: (k ++ 0x22 :: 0x3a :: (v.render ++ rest))) = some ((k, v), rest) := by
  simp only [Raw.parseMember]
  rw [skipWs_of_not (by decide)]
  simp only [if_true, hk _]
  rw [skipWs_of_not (by decide)]
  simp only [if_true, hv]

mutual
/-- Reading a printed value, followed by anything that cannot extend a number, gives the value back. -/
theorem Raw.parseValue_render (v : Raw) (hv : v.Ok) (f : Nat) (hf : v.fuel ≤ f) (rest : Bytes)
    (hr : NumStop rest) : Raw.parseValue f (v.render ++ rest) = some (v, rest) := by
  cases f with
  | zero => exfalso; cases v <;> simp [Raw.fuel] at hf
  | succ f =>
  match v, hv, hf with
  | .null, _, _ =>
    simp only [Raw.render, List.cons_append, Raw.parseValue]
    rw [skipWs_of_not (by decide)]
    rfl
  | .bool true, _, _ =>
    simp only [Raw.render, List.cons_append, Raw.parseValue]
    rw [skipWs_of_not (by decide)]
    rfl
  | .bool false, _, _ =>
    simp only [Raw.render, List.cons_append, Raw.parseValue]
    rw [skipWs_of_not (by decide)]
    rfl
  | .num t, hv, _ =>
    have ht : IsNumTok t := by simpa [Raw.Ok] using hv
    obtain ⟨b, r, hbr, hb⟩ := numTok_head ht
    obtain ⟨h1, h2, h3, h4, h5, h6, h7, _⟩ := ne_of_digit hb
    have hs := scanNum_tok ht hr
    simp only [Raw.render, Raw.parseValue]
    rw [hbr] at hs ⊢
    simp only [List.cons_append] at hs ⊢
    rw [skipWs_of_not h1]
    simp only [if_neg h2, if_neg h3, if_neg h4, if_neg h5, if_neg h6, if_neg h7, hs]
    rfl
  | .str s, hv, _ =>
    have hs : IsStrTok s := by simpa [Raw.Ok] using hv
    simp only [Raw.render, List.cons_append, List.append_assoc, List.nil_append, Raw.parseValue]
    rw [skipWs_of_not (by decide)]
    simp only [if_true, hs rest]
    rfl
  | .arr [], _, _ =>
    simp only [Raw.render, List.cons_append, List.nil_append, Raw.parseValue]
    rw [skipWs_of_not (by decide)]
    simp only [show ((0x5b : UInt8) = 0x22) = False by decide,
      show ((0x5b : UInt8) = 0x7b) = False by decide, if_false, if_true]
    rw [skipWs_of_not (by decide)]
    simp only [if_true]
  | .arr (x :: xs), hv, hf =>
    simp only [Raw.Ok, Raw.OkList] at hv
    simp only [Raw.fuel, Raw.fuelList] at hf
    have ih := Raw.parseValue_render x hv.1 f (by omega) (Raw.renderTail xs ++ rest) (numStop_tail xs rest)
    have it := Raw.parseTail_render xs hv.2 f (by omega) rest
    obtain ⟨b, r, hbr, h1, h2, h3⟩ := render_starts x hv.1 (Raw.renderTail xs ++ rest)
    simp only [Raw.render, List.cons_append, List.append_assoc, Raw.parseValue]
    rw [skipWs_of_not (by decide)]
    simp only [show ((0x5b : UInt8) = 0x22) = False by decide,
      show ((0x5b : UInt8) = 0x7b) = False by decide, if_false, if_true]
    rw [hbr] at ih ⊢
    rw [skipWs_of_not h1]
    simp only [if_neg h2, ih, it]
  | .obj [], _, _ =>
    simp only [Raw.render, List.cons_append, List.nil_append, Raw.parseValue]
    rw [skipWs_of_not (by decide)]
    simp only [show ((0x7b : UInt8) = 0x22) = False by decide, if_false, if_true]
    rw [skipWs_of_not (by decide)]
    simp only [if_true]
  | .obj ((k, v) :: kvs), hv, hf =>
    simp only [Raw.Ok, Raw.OkMembers] at hv
    simp only [Raw.fuel, Raw.fuelMembers] at hf
    obtain ⟨g, hg⟩ : ∃ g, f = g + 1 := ⟨f - 1, by omega⟩
    have ih := Raw.parseValue_render v hv.2.1 g (by omega) (Raw.renderMTail kvs ++ rest) (numStop_mtail kvs rest)
    have it := Raw.parseMTail_render kvs hv.2.2 f (by omega) rest
    have im := parseMember_of hv.1 ih
    rw [← hg] at im
    simp only [Raw.render, List.cons_append, List.append_assoc, Raw.parseValue]
    rw [skipWs_of_not (by decide)]
    simp only [show ((0x7b : UInt8) = 0x22) = False by decide, if_false, if_true]
    rw [skipWs_of_not (by decide)]
    simp only [show ((0x22 : UInt8) = 0x7d) = False by decide, if_false, im, it]
theorem Raw.parseTail_render (xs : List Raw) (hv : Raw.OkList xs) (f : Nat) (hf : Raw.fuelList xs ≤ f)
    (rest : Bytes) : Raw.parseTail f (Raw.renderTail xs ++ rest) = some (xs, rest) := by
  cases f with
  | zero => exfalso; cases xs <;> simp [Raw.fuelList] at hf
  | succ f =>
  match xs, hv, hf with
  | [], _, _ =>
    simp only [Raw.renderTail, List.cons_append, List.nil_append, Raw.parseTail]
    rw [skipWs_of_not (by decide)]
    simp only [if_true]
  | x :: xs, hv, hf =>
    simp only [Raw.OkList] at hv
    simp only [Raw.fuelList] at hf
    have ih := Raw.parseValue_render x hv.1 f (by omega) (Raw.renderTail xs ++ rest) (numStop_tail xs rest)
    have it := Raw.parseTail_render xs hv.2 f (by omega) rest
    simp only [Raw.renderTail, List.cons_append, List.append_assoc, Raw.parseTail]
    rw [skipWs_of_not (by decide)]
    simp only [show ((0x2c : UInt8) = 0x5d) = False by decide, if_false, if_true, ih, it]
theorem Raw.parseMTail_render (kvs : List (Bytes × Raw)) (hv : Raw.OkMembers kvs) (f : Nat)
    (hf : Raw.fuelMembers kvs ≤ f) (rest : Bytes) :
    Raw.parseMTail f (Raw.renderMTail kvs ++ rest) = some (kvs, rest) := by
  cases f with
  | zero => exfalso; cases kvs <;> simp [Raw.fuelMembers] at hf
  | succ f =>
  match kvs, hv, hf with
  | [], _, _ =>
    simp only [Raw.renderMTail, List.cons_append, List.nil_append, Raw.parseMTail]
    rw [skipWs_of_not (by decide)]
    simp only [if_true]
  | (k, v) :: kvs, hv, hf =>
    simp only [Raw.OkMembers] at hv
    simp only [Raw.fuelMembers] at hf
    obtain ⟨g, hg⟩ : ∃ g, f = g + 1 := ⟨f - 1, by omega⟩
    have ih := Raw.parseValue_render v hv.2.1 g (by omega) (Raw.renderMTail kvs ++ rest) (numStop_mtail kvs rest)
    have it := Raw.parseMTail_render kvs hv.2.2 f (by omega) rest
    have im := parseMember_of hv.1 ih
    rw [← hg] at im
    simp only [Raw.renderMTail, List.cons_append, List.append_assoc, Raw.parseMTail]
    rw [skipWs_of_not (by decide)]
    simp only [show ((0x2c : UInt8) = 0x7d) = False by decide, if_false, if_true, im, it]
end

mutual
theorem Raw.fuel_le (v : Raw) (hv : v.Ok) : v.fuel ≤ 2 * v.render.length := by
  match v, hv with
  | .null, _ => simp [Raw.fuel, Raw.render]
  | .bool true, _ => simp [Raw.fuel, Raw.render]
  | .bool false, _ => simp [Raw.fuel, Raw.render]
  | .num t, hv =>
    obtain ⟨b, r, rfl, _⟩ := numTok_head (by simpa [Raw.Ok] using hv)
    simp [Raw.fuel, Raw.render]; omega
  | .str s, _ => simp [Raw.fuel, Raw.render]; omega
  | .arr [], _ => simp [Raw.fuel, Raw.fuelList, Raw.render]
  | .arr (x :: xs), hv =>
    simp only [Raw.Ok, Raw.OkList] at hv
    have := Raw.fuel_le x hv.1
    have := Raw.fuelList_le xs hv.2
    simp [Raw.fuel, Raw.fuelList, Raw.render]; omega
  | .obj [], _ => simp [Raw.fuel, Raw.fuelMembers, Raw.render]
  | .obj ((k, v) :: kvs), hv =>
    simp only [Raw.Ok, Raw.OkMembers] at hv
    have := Raw.fuel_le v hv.2.1
    have := Raw.fuelMembers_le kvs hv.2.2
    simp [Raw.fuel, Raw.fuelMembers, Raw.render]; omega
theorem Raw.fuelList_le (xs : List Raw) (hv : Raw.OkList xs) :
    Raw.fuelList xs ≤ 2 * (Raw.renderTail xs).length := by
  match xs, hv with
  | [], _ => simp [Raw.fuelList, Raw.renderTail]
  | x :: xs, hv =>
    simp only [Raw.OkList] at hv
    have := Raw.fuel_le x hv.1
    have := Raw.fuelList_le xs hv.2
    simp [Raw.fuelList, Raw.renderTail]; omega
theorem Raw.fuelMembers_le (kvs : List (Bytes × Raw)) (hv : Raw.OkMembers kvs) :
    Raw.fuelMembers kvs ≤ 2 * (Raw.renderMTail kvs).length := by
  match kvs, hv with
  | [], _ => simp [Raw.fuelMembers, Raw.renderMTail]
  | (k, v) :: kvs, hv =>
    simp only [Raw.OkMembers] at hv
    have := Raw.fuel_le v hv.2.1
    have := Raw.fuelMembers_le kvs hv.2.2
    simp [Raw.fuelMembers, Raw.renderMTail]; omega
end

/-- The reader inverts the printer on every tree of well-formed tokens. -/
theorem Raw.parse_render (v : Raw) (hv : v.Ok) : Raw.parse v.render = some v := by
  have hf := Raw.fuel_le v hv
  have := Raw.parseValue_render v hv (2 * v.render.length + 2) (by omega) [] trivial
  rw [List.append_nil] at this
  simp only [Raw.parse, this, skipWs, if_true]

/-- Printing is injective on trees of well-formed tokens. -/
theorem Raw.render_injective {a b : Raw} (ha : a.Ok) (hb : b.Ok) (h : a.render = b.render) : a = b := by
  have := Raw.parse_render a ha
  rw [h, Raw.parse_render b hb] at this
  exact (Option.some.inj this).symm

end Verif
