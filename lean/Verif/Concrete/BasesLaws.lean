import Verif.Concrete.Bases
import Mathlib.Data.Set.Card
import Mathlib.Data.Set.Finite.Lattice

/-
What the decoders of `Bases` read, and how many texts a byte string has.
-/

namespace Verif.Spec
open Verif

/-- The bases the model leaves open are the ones of the crate. -/
def CrateBases (E : Env) : Prop :=
  ∀ base t, base ≠ .base58Btc → base ≠ .base16Lower → E.mbOther base t = Bases.decode E.mbFold base t

/-- The ways to write `n` as a sum of numbers between 1 and `m`, in order. -/
def Parts (m n : Nat) : Set (List Nat) := {l | l.sum = n ∧ ∀ i ∈ l, 1 ≤ i ∧ i ≤ m}

end Verif.Spec

namespace Verif.Bases
open Spec

theorem decode_iff (fold : MBase → Bool) (base : MBase) (b : Bytes) (t : Str) :
    decode fold base t = some b ↔ IsText fold base b t := by
  have hl : (if fold base then t.map lowerAscii else t) = lowered (fold base) t := by
    unfold lowered
    rw [List.map_congr_left fun c _ => lowerAscii_eq c]
  have hu : (if fold base then t.map upperAscii else t) = raised (fold base) t := by
    unfold raised
    rw [List.map_congr_left fun c _ => upperAscii_eq c]
  unfold decode IsText
  simp only [hl, hu]
  cases base
  case identity =>
    simp only [Option.some.injEq]
    rw [utf8_eq]
  case base10 => exact number_iff (by decide) _ _
  case base36Lower => exact number_iff (by decide) _ _
  case base36Upper => exact number_iff (by decide) _ _
  case base58Flickr => exact number_iff (by decide +kernel) _ _
  case base58Btc => exact number_iff (by decide +kernel) _ _
  case base2 => exact groups_iff (by decide) rfl (by omega) _ _
  case base8 => exact groups_iff (by decide) rfl (by omega) _ _
  case base16Lower => exact groups_iff (by decide) rfl (by omega) _ _
  case base16Upper => exact groups_iff (by decide) rfl (by omega) _ _
  case base32Lower => exact groups_iff (by decide +kernel) rfl (by omega) _ _
  case base32Upper => exact groups_iff (by decide +kernel) rfl (by omega) _ _
  case base32HexLower => exact groups_iff (by decide +kernel) rfl (by omega) _ _
  case base32HexUpper => exact groups_iff (by decide +kernel) rfl (by omega) _ _
  case base32Z => exact groups_iff (by decide +kernel) rfl (by omega) _ _
  case base64 => exact groups_iff (by decide +kernel) rfl (by omega) _ _
  case base64Url => exact groups_iff (by decide +kernel) rfl (by omega) _ _
  case base32PadLower =>
    exact padded_iff (by decide +kernel) rfl (by omega) (by omega) (by omega) (by decide) _ _ le_rfl _
  case base32PadUpper =>
    exact padded_iff (by decide +kernel) rfl (by omega) (by omega) (by omega) (by decide) _ _ le_rfl _
  case base32HexPadLower =>
    exact padded_iff (by decide +kernel) rfl (by omega) (by omega) (by omega) (by decide) _ _ le_rfl _
  case base32HexPadUpper =>
    exact padded_iff (by decide +kernel) rfl (by omega) (by omega) (by omega) (by decide) _ _ le_rfl _
  case base64Pad =>
    exact padded_iff (by decide +kernel) rfl (by omega) (by omega) (by omega) (by decide +kernel) _ _ le_rfl _
  case base64UrlPad =>
    exact padded_iff (by decide +kernel) rfl (by omega) (by omega) (by omega) (by decide +kernel) _ _ le_rfl _

/-! ### The two bases of the model -/

theorem byte_bits : ∀ n < 256, bitsOf 4 (n / 16) ++ bitsOf 4 (n % 16) = bitsOf 8 n := by decide +kernel

theorem hex_groups (b : Bytes) (t : Str) : IsHex b t ↔ IsGroups 4 "0123456789abcdef".toList b t := by
  have h : IsGroups 4 "0123456789abcdef".toList b (hexEncode b) := by
    refine ⟨b.flatMap fun x => [x.toNat / 16, x.toNat % 16], 0, ?_, ?_, by omega, ?_⟩
    · intro d hd
      obtain ⟨x, _, hx⟩ := List.mem_flatMap.mp hd
      have := UInt8.lt256 x
      simp only [List.mem_cons, List.not_mem_nil, or_false] at hx
      rcases hx with rfl | rfl <;> omega
    · induction b with
      | nil => rfl
      | cons x b ih =>
        have hx := UInt8.lt256 x
        rw [hexEncode_cons]
        simp only [List.map_cons, List.flatMap_cons, List.cons_append, List.nil_append, ih]
        show _ = hexDigits[x.toNat / 16]? :: hexDigits[x.toNat % 16]? :: _
        rw [hexDigits_get (x.toNat / 16) (by omega), hexDigits_get (x.toNat % 16) (by omega)]
    · rw [List.replicate_zero, List.append_nil, List.flatMap_assoc]
      refine List.flatMap_congr fun x _ => ?_
      simp only [List.flatMap_cons, List.flatMap_nil, List.append_nil]
      exact byte_bits _ (UInt8.lt256 x)
  rw [isHex_iff, isGroups_iff rfl (by omega), ← (isGroups_iff rfl (by omega) b _).mp h]

theorem fold_table : ∀ n < 128, ∀ d < 16, ("0123456789abcdef".toList[d]? = some (lowerHex (Char.ofNat n)) ↔
    "0123456789abcdef".toList[d]? = some (Char.ofNat n).toLower) := by decide +kernel

theorem fold_char (c : Char) (d : Nat) : "0123456789abcdef".toList[d]? = some (lowerHex c) ↔
    "0123456789abcdef".toList[d]? = some c.toLower := by
  by_cases hd : d < 16
  · by_cases hc : c.toNat < 128
    · have := fold_table _ hc d hd
      rwa [Char.ofNat_toNat'] at this
    · have h1 : lowerHex c = c := by
        unfold lowerHex
        rw [if_neg (by omega)]
      have h2 : c.toLower = c := by
        rw [← lowerAscii_eq]
        unfold lowerAscii
        rw [if_neg (by omega)]
      rw [h1, h2]
  · have : "0123456789abcdef".toList[d]? = none := List.getElem?_eq_none (by
      show 16 ≤ d
      omega)
    rw [this]
    simp

theorem hexAny_groups (b : Bytes) (t : Str) : IsHexAny b t ↔ IsGroups 4 "0123456789abcdef".toList b (t.map Char.toLower) := by
  unfold IsHexAny
  rw [hex_groups]
  have key : ∀ (t : Str) (ds : List Nat), (t.map lowerHex).map some = ds.map ("0123456789abcdef".toList[·]?) ↔
      (t.map Char.toLower).map some = ds.map ("0123456789abcdef".toList[·]?) := by
    intro t
    induction t with
    | nil => intro ds; rfl
    | cons c t ih =>
      intro ds
      cases ds with
      | nil => simp
      | cons d ds =>
        simp only [List.map_cons, List.cons.injEq]
        have h1 := ih ds
        simp only [List.map_map] at h1 ⊢
        rw [h1, eq_comm, fold_char, eq_comm]
  unfold IsGroups
  simp only [key]

theorem base58_number (b : Bytes) (t : Str) :
    IsBase58 b t ↔ IsNumber "123456789ABCDEFGHJKLMNPQRSTUVWXYZabcdefghijkmnopqrstuvwxyz".toList b t := Iff.rfl

theorem other_prefix : ∀ p ∈ otherBases, p.1 = prefixOf p.2 ∧ p.2 ≠ .base58Btc ∧ p.2 ≠ .base16Lower := by decide

theorem prefix_other (base : MBase) (h1 : base ≠ .base58Btc) (h2 : base ≠ .base16Lower) : (prefixOf base, base) ∈ otherBases := by
  cases base <;> first | exact absurd rfl h1 | exact absurd rfl h2 | decide

/-- Multibase texts, for the crate's bases. -/
theorem multibase_iff {E : Env} (C : CrateBases E) (base : MBase) (b : Bytes) (t : Str) :
    IsMultibase E base b t ↔ ∃ r, t = prefixOf base :: r ∧ IsText E.mbFold base b r := by
  constructor
  · intro h
    cases h with
    | base58 h =>
      obtain ⟨r, rfl, h⟩ := h
      exact ⟨r, rfl, h⟩
    | @base16 _ r h =>
      refine ⟨r, rfl, ?_⟩
      show IsGroups 4 _ b (lowered _ r)
      cases hf : E.mbFold .base16Lower with
      | false => exact (hex_groups _ _).mp h
      | true =>
        have h2 := (hexDecode_iff _ _).mp (h.unique ▸ hexDecode_encode b : hexDecode r = some b)
        exact (hexAny_groups _ _).mp h2
    | @base16Any _ r hf h =>
      refine ⟨r, rfl, ?_⟩
      show IsGroups 4 _ b (lowered _ r)
      rw [hf]
      exact (hexAny_groups _ _).mp h
    | @other c _ _ r hc h =>
      obtain ⟨h1, h2, h3⟩ := other_prefix _ hc
      simp only at h1 h2 h3
      rw [C _ _ h2 h3, decode_iff] at h
      exact ⟨r, by rw [h1], h⟩
  · rintro ⟨r, rfl, h⟩
    by_cases h1 : base = .base58Btc
    · subst h1
      exact .base58 ⟨r, rfl, h⟩
    · by_cases h2 : base = .base16Lower
      · subst h2
        change IsGroups 4 _ b (lowered _ r) at h
        cases hf : E.mbFold .base16Lower with
        | false =>
          rw [hf] at h
          exact .base16 ((hex_groups _ _).mpr h)
        | true =>
          rw [hf] at h
          exact .base16Any hf ((hexAny_groups _ _).mpr h)
      · refine .other (prefix_other base h1 h2) ?_
        rw [C _ _ h1 h2, decode_iff]
        exact h

/-! ### Sums -/

theorem Parts.zero (m : Nat) : Parts m 0 = {[]} := by
  ext l
  simp only [Parts, Set.mem_ofPred_eq, Set.mem_singleton_iff]
  constructor
  · rintro ⟨h1, h2⟩
    cases l with
    | nil => rfl
    | cons i l =>
      have := (h2 i List.mem_cons_self).1
      rw [List.sum_cons] at h1
      omega
  · rintro rfl
    simp

theorem Parts.succ (m n : Nat) :
    Parts m (n + 1) = ⋃ j ∈ Finset.range (min m (n + 1)), (List.cons (j + 1)) '' Parts m (n - j) := by
  ext l
  simp only [Parts, Set.mem_ofPred_eq, Set.mem_iUnion, Finset.mem_range, Set.mem_image, exists_prop]
  constructor
  · rintro ⟨h1, h2⟩
    cases l with
    | nil => simp at h1
    | cons i l =>
      have hi := h2 i List.mem_cons_self
      rw [List.sum_cons] at h1
      refine ⟨i - 1, by omega, l, ⟨by omega, fun j hj => h2 j (List.mem_cons_of_mem _ hj)⟩, ?_⟩
      rw [Nat.sub_add_cancel hi.1]
  · rintro ⟨j, hj, l, ⟨h1, h2⟩, rfl⟩
    refine ⟨by rw [List.sum_cons]; omega, ?_⟩
    intro i hi
    rcases List.mem_cons.mp hi with rfl | hi
    · omega
    · exact h2 i hi

theorem Parts.finite (m n : Nat) : (Parts m n).Finite := by
  induction n using Nat.strong_induction_on with
  | _ n ih =>
    cases n with
    | zero => rw [Parts.zero]; exact Set.finite_singleton _
    | succ n =>
      rw [Parts.succ]
      exact Set.Finite.biUnion (Finset.finite_toSet _) fun j hj => (ih _ (by omega)).image _

theorem Parts.card_succ (m n : Nat) :
    (Parts m (n + 1)).ncard = ∑ j ∈ Finset.range (min m (n + 1)), (Parts m (n - j)).ncard := by
  classical
  have e : Parts m (n + 1) =
      (((Finset.range (min m (n + 1))).biUnion fun j => ((Parts.finite m (n - j)).toFinset.image (List.cons (j + 1))) : Finset (List Nat)) :
        Set (List Nat)) := by
    rw [Parts.succ]
    simp
  rw [e, Set.ncard_coe_finset, Finset.card_biUnion]
  · refine Finset.sum_congr rfl fun j _ => ?_
    rw [Finset.card_image_of_injective _ (List.cons_injective), Set.ncard_eq_toFinset_card _ (Parts.finite m (n - j))]
  · intro i _ j _ hij
    rw [Function.onFun, Finset.disjoint_left]
    intro l h1 h2
    obtain ⟨x, _, rfl⟩ := Finset.mem_image.mp h1
    obtain ⟨y, _, h⟩ := Finset.mem_image.mp h2
    simp only [List.cons.injEq] at h
    omega

/-- The numbers of ways, the last one first: each is the sum of the `m` before. -/
def table (m : Nat) : Nat → List Nat
  | 0 => [1]
  | n + 1 => match table m n with
    | l => (l.take m).sum :: l

theorem table_eq (m n : Nat) : table m n = (List.range (n + 1)).map fun j => (Parts m (n - j)).ncard := by
  induction n with
  | zero => simp [table, Parts.zero]
  | succ n ih =>
    show (((table m n).take m).sum :: table m n) = _
    rw [List.range_succ_eq_map, List.map_cons, List.map_map]
    congr 1
    · rw [Nat.sub_zero, Parts.card_succ, ih, ← List.map_take, List.take_range, Finset.sum_range]
      rw [← List.sum_ofFn]
      congr 1
      apply List.ext_getElem
      · simp
      · intro i h1 h2
        simp
    · rw [ih]
      apply List.map_congr_left
      intro j hj
      simp

theorem ways_eq (m n : Nat) : (Parts m n).ncard = (table m n).headD 0 := by
  rw [table_eq, List.range_succ_eq_map]
  simp

theorem ways_64 : (Parts 3 64).ncard = 53560898629395777 ∧ (Parts 5 64).ncard = 3306249823176533408 := by
  rw [ways_eq, ways_eq]
  decide +kernel

/-! ### Padded texts -/

/-- The text of a byte string cut into blocks of the given sizes. -/
def paddedText (k full : Nat) (a : Str) : Bytes → List Nat → Str
  | _, [] => []
  | b, i :: l =>
    groupsText k a (b.take i) ++ List.replicate (full - (groupsText k a (b.take i)).length) '=' ++ paddedText k full a (b.drop i) l

theorem block_length {k full m : Nat} {a : Str} (hk : 0 < k) (hm : k * full = 8 * m) (b : Bytes) :
    (groupsText k a b).length ≤ full ↔ b.length ≤ m := by
  have h := groupsText_length (a := a) hk b
  have hf := fill_lt hk b.length
  constructor
  · intro hl
    have := Nat.mul_le_mul_left k hl
    omega
  · intro hb
    by_contra hl
    have : k * (full + 1) ≤ k * (groupsText k a b).length := Nat.mul_le_mul_left _ (by omega)
    rw [Nat.mul_add] at this
    omega

theorem isPadded_iff {k full m : Nat} {a : Str} (ha : a.length = 2 ^ k) (hk : 0 < k) (hm : k * full = 8 * m) (b : Bytes) (t : Str) :
    IsPadded k full a b t ↔ ∃ l ∈ Parts m b.length, paddedText k full a b l = t := by
  constructor
  · intro h
    induction h with
    | nil => exact ⟨[], ⟨rfl, by simp⟩, rfl⟩
    | @block b b' t t' hb h hl hr ih =>
      obtain ⟨l, ⟨h1, h2⟩, rfl⟩ := ih
      rw [isGroups_iff ha hk] at h
      subst h
      rw [block_length hk hm] at hl
      have hpos : 0 < b.length := List.length_pos_iff.mpr hb
      refine ⟨b.length :: l, ⟨by rw [List.sum_cons, h1, List.length_append], ?_⟩, ?_⟩
      · intro i hi
        rcases List.mem_cons.mp hi with rfl | hi
        · omega
        · exact h2 i hi
      · rw [paddedText, List.take_left', List.drop_left'] <;> rfl
  · rintro ⟨l, ⟨h1, h2⟩, rfl⟩
    induction l generalizing b with
    | nil =>
      have : b = [] := List.eq_nil_of_length_eq_zero (by simpa using h1.symm)
      subst this
      exact .nil
    | cons i l ih =>
      rw [List.sum_cons] at h1
      have hi := h2 i List.mem_cons_self
      have := ih (b.drop i) (by rw [List.length_drop]; omega) fun j hj => h2 j (List.mem_cons_of_mem _ hj)
      have hne : b.take i ≠ [] := by
        intro e
        have := congrArg List.length e
        rw [List.length_take, List.length_nil] at this
        omega
      have r := IsPadded.block hne ((isGroups_iff ha hk _ _).mpr rfl)
        ((block_length (a := a) hk hm (b.take i)).mpr (by rw [List.length_take]; omega)) this
      rw [List.take_append_drop] at r
      exact r

theorem paddedText_inj {k full m : Nat} {a : Str} (hn : a.Nodup) (ha : a.length = 2 ^ k) (hk : 0 < k) (h8 : k ≤ 8) (hm : k * full = 8 * m)
    (hp : '=' ∉ a) (b : Bytes) (l l' : List Nat) (h : l ∈ Parts m b.length) (h' : l' ∈ Parts m b.length)
    (e : paddedText k full a b l = paddedText k full a b l') : l = l' := by
  induction l generalizing b l' with
  | nil =>
    have h0 : b.length = 0 := h.1.symm
    rw [h0, Parts.zero] at h'
    exact h'.symm
  | cons i l ih =>
    have h1 := h.1
    have hi := h.2 i List.mem_cons_self
    rw [List.sum_cons] at h1
    cases l' with
    | nil =>
      have := h'.1
      simp at this
      omega
    | cons j l' =>
      have h1' := h'.1
      have hj := h'.2 j List.mem_cons_self
      rw [List.sum_cons] at h1'
      rw [paddedText, paddedText] at e
      have g1 := (block_length (a := a) hk hm (b.take i)).mpr (by rw [List.length_take]; omega)
      have g2 := (block_length (a := a) hk hm (b.take j)).mpr (by rw [List.length_take]; omega)
      obtain ⟨e1, e2⟩ := List.append_inj e (by simp only [List.length_append, List.length_replicate]; omega)
      have e3 := congrArg (fun t : Str => (t.reverse.dropWhile (· == '=')).reverse) e1
      simp only [strip_pad hp (groupsText_mem ha _)] at e3
      have e4 := congrArg List.length (groupsText_inj hn ha hk h8 e3)
      rw [List.length_take, List.length_take] at e4
      have hij : i = j := by omega
      subst hij
      rw [ih (b.drop i) l' ⟨by rw [List.length_drop]; omega, fun x hx => h.2 x (List.mem_cons_of_mem _ hx)⟩
        ⟨by rw [List.length_drop]; omega, fun x hx => h'.2 x (List.mem_cons_of_mem _ hx)⟩ e2]

theorem padded_set {k full m : Nat} {a : Str} (ha : a.length = 2 ^ k) (hk : 0 < k) (hm : k * full = 8 * m) (b : Bytes) :
    {t | IsPadded k full a b t} = paddedText k full a b '' Parts m b.length := by
  ext t
  exact isPadded_iff ha hk hm b t

theorem padded_card {k full m : Nat} {a : Str} (hn : a.Nodup) (ha : a.length = 2 ^ k) (hk : 0 < k) (h8 : k ≤ 8) (hm : k * full = 8 * m)
    (hp : '=' ∉ a) (b : Bytes) : {t | IsPadded k full a b t}.ncard = (Parts m b.length).ncard ∧ {t | IsPadded k full a b t}.Finite := by
  rw [padded_set ha hk hm]
  exact ⟨Set.InjOn.ncard_image fun l h l' h' e => paddedText_inj hn ha hk h8 hm hp b l l' h h' e, (Parts.finite _ _).image _⟩

/-! ### How many texts -/

/-- The number of texts of a byte string in a base when letters are read as they are. -/
noncomputable def number (b : Bytes) (base : MBase) : Nat :=
  match base with
  | .identity => if (utf8Decode b).isSome then 1 else 0
  | .base32PadLower | .base32PadUpper | .base32HexPadLower | .base32HexPadUpper => (Parts 5 b.length).ncard
  | .base64Pad | .base64UrlPad => (Parts 3 b.length).ncard
  | _ => 1

theorem single {P : Str → Prop} {x : Str} (h : ∀ t, P t ↔ t = x) : {t | P t}.ncard = 1 ∧ {t | P t}.Finite := by
  have : {t | P t} = {x} := by
    ext t
    exact h t
  rw [this]
  exact ⟨Set.ncard_singleton _, Set.finite_singleton _⟩

theorem text_card {fold : MBase → Bool} (base : MBase) (hf : fold base = false) (b : Bytes) :
    {t | IsText fold base b t}.ncard = number b base ∧ {t | IsText fold base b t}.Finite := by
  cases base
  case identity =>
    cases hb : utf8Decode b with
    | some s =>
      simp only [number, hb, Option.isSome_some, if_true]
      refine single (x := s) fun t => ?_
      show utf8 t = b ↔ _
      rw [eq_comm, ← utf8Decode_iff, hb, Option.some.injEq, eq_comm]
    | none =>
      have : {t | IsText fold .identity b t} = ∅ := by
        ext t
        simp only [Set.mem_ofPred_eq, Set.mem_empty_iff_false, iff_false]
        intro h
        have := (utf8Decode_iff b t).mpr (Eq.symm h)
        rw [hb] at this; cases this
      rw [this]
      simp [number, hb]
  case base2 => exact single (isGroups_iff rfl (by omega) b)
  case base8 => exact single (isGroups_iff rfl (by omega) b)
  case base10 => exact single (isNumber_iff (by decide) b)
  case base58Flickr => exact single (isNumber_iff (by decide) b)
  case base58Btc => exact single (isNumber_iff (by decide) b)
  case base64 => exact single (isGroups_iff rfl (by omega) b)
  case base64Url => exact single (isGroups_iff rfl (by omega) b)
  case base64Pad =>
    refine padded_card (k := 6) (full := 4) (m := 3) ?_ ?_ (by omega) (by omega) rfl ?_ b <;> decide +kernel
  case base64UrlPad =>
    refine padded_card (k := 6) (full := 4) (m := 3) ?_ ?_ (by omega) (by omega) rfl ?_ b <;> decide +kernel
  all_goals
    simp only [IsText, hf, lowered, raised, Bool.false_eq_true, if_false]
  case base16Lower => exact single (isGroups_iff rfl (by omega) b)
  case base16Upper => exact single (isGroups_iff rfl (by omega) b)
  case base32Lower => exact single (isGroups_iff rfl (by omega) b)
  case base32Upper => exact single (isGroups_iff rfl (by omega) b)
  case base32HexLower => exact single (isGroups_iff rfl (by omega) b)
  case base32HexUpper => exact single (isGroups_iff rfl (by omega) b)
  case base32Z => exact single (isGroups_iff rfl (by omega) b)
  case base36Lower => exact single (isNumber_iff (by decide) b)
  case base36Upper => exact single (isNumber_iff (by decide) b)
  case base32PadLower =>
    refine padded_card (k := 5) (full := 8) (m := 5) ?_ ?_ (by omega) (by omega) rfl ?_ b <;> decide +kernel
  case base32PadUpper =>
    refine padded_card (k := 5) (full := 8) (m := 5) ?_ ?_ (by omega) (by omega) rfl ?_ b <;> decide +kernel
  case base32HexPadLower =>
    refine padded_card (k := 5) (full := 8) (m := 5) ?_ ?_ (by omega) (by omega) rfl ?_ b <;> decide +kernel
  case base32HexPadUpper =>
    refine padded_card (k := 5) (full := 8) (m := 5) ?_ ?_ (by omega) (by omega) rfl ?_ b <;> decide +kernel

/-- All bases. -/
def allBases : List MBase :=
  [.identity, .base2, .base8, .base10, .base16Lower, .base16Upper, .base32Lower, .base32Upper, .base32PadLower, .base32PadUpper,
   .base32HexLower, .base32HexUpper, .base32HexPadLower, .base32HexPadUpper, .base32Z, .base36Lower, .base36Upper, .base58Flickr,
   .base58Btc, .base64, .base64Pad, .base64Url, .base64UrlPad]

theorem mem_allBases (base : MBase) : base ∈ allBases := by cases base <;> decide

theorem allBases_nodup : allBases.Nodup := by decide

theorem union_card {α β : Type} (S : α → Set β) (hd : ∀ x y z, z ∈ S x → z ∈ S y → x = y) (hfin : ∀ x, (S x).Finite) (l : List α)
    (hn : l.Nodup) : {z | ∃ x ∈ l, z ∈ S x}.ncard = (l.map fun x => (S x).ncard).sum ∧ {z | ∃ x ∈ l, z ∈ S x}.Finite := by
  induction l with
  | nil => simp
  | cons x l ih =>
    obtain ⟨h1, h2⟩ := List.nodup_cons.mp hn
    obtain ⟨i1, i2⟩ := ih h2
    have e : {z | ∃ y ∈ x :: l, z ∈ S y} = S x ∪ {z | ∃ y ∈ l, z ∈ S y} := by
      ext z
      simp
    rw [e]
    refine ⟨?_, (hfin x).union i2⟩
    rw [Set.ncard_union_eq ?_ (hfin x) i2, i1, List.map_cons, List.sum_cons]
    rw [Set.disjoint_left]
    rintro z hz ⟨y, hy, hz'⟩
    exact h1 (hd x y z hz hz' ▸ hy)

theorem number_sum (b : Bytes) : (allBases.map (number b)).sum =
    16 + 4 * (Parts 5 b.length).ncard + 2 * (Parts 3 b.length).ncard + (if (utf8Decode b).isSome then 1 else 0) := by
  simp only [allBases, List.map_cons, List.map_nil, List.sum_cons, List.sum_nil, number]
  generalize (Parts 5 b.length).ncard = x
  generalize (Parts 3 b.length).ncard = y
  generalize (if (utf8Decode b).isSome then 1 else 0) = z
  omega

theorem multibase_card {E : Env} (C : CrateBases E) (hf : ∀ base, E.mbFold base = false) (b : Bytes) :
    {t | ∃ base, IsMultibase E base b t}.ncard =
      16 + 4 * (Parts 5 b.length).ncard + 2 * (Parts 3 b.length).ncard + (if (utf8Decode b).isSome then 1 else 0) ∧
    {t | ∃ base, IsMultibase E base b t}.Finite := by
  have hset : ∀ base, {t | IsMultibase E base b t} = List.cons (prefixOf base) '' {t | IsText E.mbFold base b t} := by
    intro base
    ext t
    rw [Set.mem_ofPred_eq, multibase_iff C]
    constructor
    · rintro ⟨r, rfl, h⟩; exact ⟨r, h, rfl⟩
    · rintro ⟨r, h, rfl⟩; exact ⟨r, rfl, h⟩
  have hcard : ∀ base, {t | IsMultibase E base b t}.ncard = number b base := by
    intro base
    rw [hset, Set.ncard_image_of_injective _ List.cons_injective, (text_card base (hf base) b).1]
  have hfin : ∀ base, {t | IsMultibase E base b t}.Finite := by
    intro base
    rw [hset]
    exact (text_card base (hf base) b).2.image _
  have h := union_card (fun base => {t | IsMultibase E base b t})
    (fun x y z h1 h2 => by
      have h1 := (mbDecode_iff E _ _ _).mpr h1
      have h2 := (mbDecode_iff E _ _ _).mpr h2
      rw [h1] at h2
      simpa using h2) hfin allBases allBases_nodup
  have e : {z | ∃ x ∈ allBases, z ∈ {t | IsMultibase E x b t}} = {t | ∃ base, IsMultibase E base b t} := by
    ext t
    simp [mem_allBases]
  rw [e] at h
  refine ⟨h.1.trans ?_, h.2⟩
  rw [← number_sum]
  exact congrArg List.sum (List.map_congr_left fun x _ => hcard x)

/-! ### Letters of either case -/

/-- The characters whose lower case is `c`. -/
def lowerFiber (c : Char) : List Char :=
  if 97 ≤ c.toNat ∧ c.toNat ≤ 122 then [c, upperAscii c] else if 65 ≤ c.toNat ∧ c.toNat ≤ 90 then [] else [c]

/-- The characters whose upper case is `c`. -/
def upperFiber (c : Char) : List Char :=
  if 65 ≤ c.toNat ∧ c.toNat ≤ 90 then [c, lowerAscii c] else if 97 ≤ c.toNat ∧ c.toNat ≤ 122 then [] else [c]

theorem lower_table : ∀ n < 128, ∀ m < 128,
    ((Char.ofNat m).toLower = Char.ofNat n ↔ Char.ofNat m ∈ lowerFiber (Char.ofNat n)) := by decide +kernel

theorem upper_table : ∀ n < 128, ∀ m < 128,
    ((Char.ofNat m).toUpper = Char.ofNat n ↔ Char.ofNat m ∈ upperFiber (Char.ofNat n)) := by decide +kernel

theorem mem_lowerFiber (c d : Char) : d.toLower = c ↔ d ∈ lowerFiber c := by
  by_cases hc : c.toNat < 128
  · by_cases hd : d.toNat < 128
    · have := lower_table _ hc _ hd
      rwa [Char.ofNat_toNat', Char.ofNat_toNat'] at this
    · have h1 : d.toLower = d := by
        rw [← lowerAscii_eq]
        unfold lowerAscii
        rw [if_neg (by omega)]
      rw [h1]
      have hne : d ≠ c := by rintro rfl; exact hd hc
      have hup : (upperAscii c).toNat < 128 := by
        unfold upperAscii
        split
        · rw [Char.toNat_ofNat_valid (by left; omega)]; omega
        · exact hc
      have hne' : d ≠ upperAscii c := by rintro rfl; exact hd hup
      unfold lowerFiber
      split
      · simp [hne, hne']
      · split <;> simp [hne]
  · have h2 : lowerFiber c = [c] := by
      unfold lowerFiber
      rw [if_neg (by omega), if_neg (by omega)]
    rw [h2, List.mem_singleton, ← lowerAscii_eq]
    unfold lowerAscii
    split
    · have : Char.ofNat (d.toNat + 32) ≠ c := by
        rintro rfl
        rw [Char.toNat_ofNat_valid (by left; omega)] at hc
        omega
      have : d ≠ c := by rintro rfl; omega
      simp [*]
    · rfl

theorem mem_upperFiber (c d : Char) : d.toUpper = c ↔ d ∈ upperFiber c := by
  by_cases hc : c.toNat < 128
  · by_cases hd : d.toNat < 128
    · have := upper_table _ hc _ hd
      rwa [Char.ofNat_toNat', Char.ofNat_toNat'] at this
    · have h1 : d.toUpper = d := by
        rw [← upperAscii_eq]
        unfold upperAscii
        rw [if_neg (by omega)]
      rw [h1]
      have hne : d ≠ c := by rintro rfl; exact hd hc
      have hup : (lowerAscii c).toNat < 128 := by
        unfold lowerAscii
        split
        · rw [Char.toNat_ofNat_valid (by left; omega)]; omega
        · exact hc
      have hne' : d ≠ lowerAscii c := by rintro rfl; exact hd hup
      unfold upperFiber
      split
      · simp [hne, hne']
      · split <;> simp [hne]
  · have h2 : upperFiber c = [c] := by
      unfold upperFiber
      rw [if_neg (by omega), if_neg (by omega)]
    rw [h2, List.mem_singleton, ← upperAscii_eq]
    unfold upperAscii
    split
    · have : Char.ofNat (d.toNat - 32) ≠ c := by
        rintro rfl
        rw [Char.toNat_ofNat_valid (by left; omega)] at hc
        omega
      have : d ≠ c := by rintro rfl; omega
      simp [*]
    · rfl

theorem fiber_card {f : Char → Char} {V : Char → List Char} (hV : ∀ c d, f d = c ↔ d ∈ V c) (hn : ∀ c, (V c).Nodup) (s : Str) :
    {r : Str | r.map f = s}.ncard = (s.map fun c => (V c).length).prod ∧ {r : Str | r.map f = s}.Finite := by
  induction s with
  | nil =>
    have : {r : Str | r.map f = []} = {[]} := by
      ext r
      simp
    rw [this]
    simp
  | cons c s ih =>
    have e : {r : Str | r.map f = c :: s} = (fun p : Char × Str => p.1 :: p.2) '' ({d | d ∈ V c} ×ˢ {r : Str | r.map f = s}) := by
      ext r
      simp only [Set.mem_ofPred_eq, Set.mem_image, Set.mem_prod, Prod.exists]
      constructor
      · intro h
        cases r with
        | nil => simp at h
        | cons d r =>
          simp only [List.map_cons, List.cons.injEq] at h
          exact ⟨d, r, ⟨(hV c d).mp h.1, h.2⟩, rfl⟩
      · rintro ⟨d, r, ⟨h1, h2⟩, rfl⟩
        simp [h2, (hV c d).mpr h1]
    have hfin : {d | d ∈ V c}.Finite := List.finite_toSet _
    have hc : {d | d ∈ V c}.ncard = (V c).length := by
      rw [← List.toFinset_card_of_nodup (hn c), ← Set.ncard_coe_finset]
      congr 1
      ext d
      simp
    rw [e]
    refine ⟨?_, (hfin.prod ih.2).image _⟩
    rw [Set.ncard_image_of_injective, Set.ncard_prod, hc, ih.1, List.map_cons, List.prod_cons]
    rintro ⟨a, b⟩ ⟨a', b'⟩ h
    simpa using h

theorem preimage_finite {f : Char → Char} {V : Char → List Char} (hV : ∀ c d, f d = c ↔ d ∈ V c) (hn : ∀ c, (V c).Nodup)
    {S : Set Str} (hS : S.Finite) : {r : Str | r.map f ∈ S}.Finite := by
  have : {r : Str | r.map f ∈ S} = ⋃ s ∈ S, {r : Str | r.map f = s} := by
    ext r
    simp
  rw [this]
  exact hS.biUnion fun s _ => (fiber_card hV hn s).2

theorem lowerFiber_nodup (c : Char) : (lowerFiber c).Nodup := by
  unfold lowerFiber
  split
  · rename_i h
    have : c ≠ upperAscii c := by
      intro e
      have := congrArg Char.toNat e
      unfold upperAscii at this
      rw [if_pos h, Char.toNat_ofNat_valid (by left; omega)] at this
      omega
    simpa using this
  · split <;> simp

theorem upperFiber_nodup (c : Char) : (upperFiber c).Nodup := by
  unfold upperFiber
  split
  · rename_i h
    have : c ≠ lowerAscii c := by
      intro e
      have := congrArg Char.toNat e
      unfold lowerAscii at this
      rw [if_pos h, Char.toNat_ofNat_valid (by left; omega)] at this
      omega
    simpa using this
  · split <;> simp

theorem numberText_mem {a : Str} (ha : 1 < a.length) (b : Bytes) : ∀ c ∈ numberText a b, c ∈ a := by
  intro c hc
  obtain ⟨d, hd, rfl⟩ := List.mem_map.mp hc
  have h := rebase_lt ha _ d hd
  simp [h]

theorem padded_mem {k full : Nat} {a : Str} (ha : a.length = 2 ^ k) (hk : 0 < k) {b : Bytes} {t : Str} (h : IsPadded k full a b t) :
    ∀ c ∈ t, c ∈ '=' :: a := by
  induction h with
  | nil => simp
  | @block b b' t t' hb h hl hr ih =>
    rw [isGroups_iff ha hk] at h
    subst h
    intro c hc
    simp only [List.mem_append] at hc
    rcases hc with (hc | hc) | hc
    · exact List.mem_cons_of_mem _ (groupsText_mem ha _ c hc)
    · rw [List.eq_of_mem_replicate hc]; simp
    · exact ih c hc

theorem lowered_fixed {a t : Str} (h : ∀ c ∈ t, c ∈ a) (ha : ∀ c ∈ a, c.toLower = c) (fold : Bool) : lowered fold t = t := by
  unfold lowered
  split
  · rw [List.map_congr_left fun c hc => ha c (h c hc), List.map_id']
  · rfl

theorem raised_fixed {a t : Str} (h : ∀ c ∈ t, c ∈ a) (ha : ∀ c ∈ a, c.toUpper = c) (fold : Bool) : raised fold t = t := by
  unfold raised
  split
  · rw [List.map_congr_left fun c hc => ha c (h c hc), List.map_id']
  · rfl

/-- Texts read with letters as they are, are read with letters of either case. -/
theorem strict_text (fold : MBase → Bool) (base : MBase) (b : Bytes) (t : Str) (h : IsText (fun _ => false) base b t) :
    IsText fold base b t := by
  cases base
  case base16Lower =>
    have h' : IsGroups 4 _ b t := h
    have hm : ∀ c ∈ t, c ∈ "0123456789abcdef".toList := by
      rw [(isGroups_iff rfl (by omega) _ _).mp h']
      exact groupsText_mem rfl _
    show IsGroups 4 _ b (lowered _ t)
    rw [lowered_fixed hm (by decide +kernel)]
    exact h'
  case base32Lower =>
    have h' : IsGroups 5 _ b t := h
    have hm : ∀ c ∈ t, c ∈ "abcdefghijklmnopqrstuvwxyz234567".toList := by
      rw [(isGroups_iff rfl (by omega) _ _).mp h']
      exact groupsText_mem rfl _
    show IsGroups 5 _ b (lowered _ t)
    rw [lowered_fixed hm (by decide +kernel)]
    exact h'
  case base32HexLower =>
    have h' : IsGroups 5 _ b t := h
    have hm : ∀ c ∈ t, c ∈ "0123456789abcdefghijklmnopqrstuv".toList := by
      rw [(isGroups_iff rfl (by omega) _ _).mp h']
      exact groupsText_mem rfl _
    show IsGroups 5 _ b (lowered _ t)
    rw [lowered_fixed hm (by decide +kernel)]
    exact h'
  case base32Z =>
    have h' : IsGroups 5 _ b t := h
    have hm : ∀ c ∈ t, c ∈ "ybndrfg8ejkmcpqxot1uwisza345h769".toList := by
      rw [(isGroups_iff rfl (by omega) _ _).mp h']
      exact groupsText_mem rfl _
    show IsGroups 5 _ b (lowered _ t)
    rw [lowered_fixed hm (by decide +kernel)]
    exact h'
  case base36Lower =>
    have h' : IsNumber _ b t := h
    have hm : ∀ c ∈ t, c ∈ "0123456789abcdefghijklmnopqrstuvwxyz".toList := by
      rw [(isNumber_iff (by decide) _ _).mp h']
      exact numberText_mem (by decide) _
    show IsNumber _ b (lowered _ t)
    rw [lowered_fixed hm (by decide +kernel)]
    exact h'
  case base32PadLower =>
    have h' : IsPadded 5 8 _ b t := h
    have hm := padded_mem rfl (by omega) h'
    show IsPadded 5 8 _ b (lowered _ t)
    rw [lowered_fixed hm (by decide +kernel)]
    exact h'
  case base32HexPadLower =>
    have h' : IsPadded 5 8 _ b t := h
    have hm := padded_mem rfl (by omega) h'
    show IsPadded 5 8 _ b (lowered _ t)
    rw [lowered_fixed hm (by decide +kernel)]
    exact h'
  case base16Upper =>
    have h' : IsGroups 4 _ b t := h
    have hm : ∀ c ∈ t, c ∈ "0123456789ABCDEF".toList := by
      rw [(isGroups_iff rfl (by omega) _ _).mp h']
      exact groupsText_mem rfl _
    show IsGroups 4 _ b (raised _ t)
    rw [raised_fixed hm (by decide +kernel)]
    exact h'
  case base32Upper =>
    have h' : IsGroups 5 _ b t := h
    have hm : ∀ c ∈ t, c ∈ "ABCDEFGHIJKLMNOPQRSTUVWXYZ234567".toList := by
      rw [(isGroups_iff rfl (by omega) _ _).mp h']
      exact groupsText_mem rfl _
    show IsGroups 5 _ b (raised _ t)
    rw [raised_fixed hm (by decide +kernel)]
    exact h'
  case base32HexUpper =>
    have h' : IsGroups 5 _ b t := h
    have hm : ∀ c ∈ t, c ∈ "0123456789ABCDEFGHIJKLMNOPQRSTUV".toList := by
      rw [(isGroups_iff rfl (by omega) _ _).mp h']
      exact groupsText_mem rfl _
    show IsGroups 5 _ b (raised _ t)
    rw [raised_fixed hm (by decide +kernel)]
    exact h'
  case base36Upper =>
    have h' : IsNumber _ b t := h
    have hm : ∀ c ∈ t, c ∈ "0123456789ABCDEFGHIJKLMNOPQRSTUVWXYZ".toList := by
      rw [(isNumber_iff (by decide) _ _).mp h']
      exact numberText_mem (by decide) _
    show IsNumber _ b (raised _ t)
    rw [raised_fixed hm (by decide +kernel)]
    exact h'
  case base32PadUpper =>
    have h' : IsPadded 5 8 _ b t := h
    have hm := padded_mem rfl (by omega) h'
    show IsPadded 5 8 _ b (raised _ t)
    rw [raised_fixed hm (by decide +kernel)]
    exact h'
  case base32HexPadUpper =>
    have h' : IsPadded 5 8 _ b t := h
    have hm := padded_mem rfl (by omega) h'
    show IsPadded 5 8 _ b (raised _ t)
    rw [raised_fixed hm (by decide +kernel)]
    exact h'
  all_goals exact h

/-- There are finitely many texts. -/
theorem text_finite (fold : MBase → Bool) (base : MBase) (b : Bytes) : {t | IsText fold base b t}.Finite := by
  cases hf : fold base with
  | false => exact (text_card base hf b).2
  | true =>
    have hs := (text_card (fold := fun _ => false) base rfl b).2
    have hl := preimage_finite mem_lowerFiber lowerFiber_nodup hs
    have hu := preimage_finite mem_upperFiber upperFiber_nodup hs
    cases base
    case base16Lower =>
      refine hl.subset fun t ht => ?_
      simpa only [IsText, Set.mem_ofPred_eq, hf, lowered, if_true, Bool.false_eq_true, if_false] using ht
    case base32Lower =>
      refine hl.subset fun t ht => ?_
      simpa only [IsText, Set.mem_ofPred_eq, hf, lowered, if_true, Bool.false_eq_true, if_false] using ht
    case base32HexLower =>
      refine hl.subset fun t ht => ?_
      simpa only [IsText, Set.mem_ofPred_eq, hf, lowered, if_true, Bool.false_eq_true, if_false] using ht
    case base32Z =>
      refine hl.subset fun t ht => ?_
      simpa only [IsText, Set.mem_ofPred_eq, hf, lowered, if_true, Bool.false_eq_true, if_false] using ht
    case base36Lower =>
      refine hl.subset fun t ht => ?_
      simpa only [IsText, Set.mem_ofPred_eq, hf, lowered, if_true, Bool.false_eq_true, if_false] using ht
    case base32PadLower =>
      refine hl.subset fun t ht => ?_
      simpa only [IsText, Set.mem_ofPred_eq, hf, lowered, if_true, Bool.false_eq_true, if_false] using ht
    case base32HexPadLower =>
      refine hl.subset fun t ht => ?_
      simpa only [IsText, Set.mem_ofPred_eq, hf, lowered, if_true, Bool.false_eq_true, if_false] using ht
    case base16Upper =>
      refine hu.subset fun t ht => ?_
      simpa only [IsText, Set.mem_ofPred_eq, hf, raised, if_true, Bool.false_eq_true, if_false] using ht
    case base32Upper =>
      refine hu.subset fun t ht => ?_
      simpa only [IsText, Set.mem_ofPred_eq, hf, raised, if_true, Bool.false_eq_true, if_false] using ht
    case base32HexUpper =>
      refine hu.subset fun t ht => ?_
      simpa only [IsText, Set.mem_ofPred_eq, hf, raised, if_true, Bool.false_eq_true, if_false] using ht
    case base36Upper =>
      refine hu.subset fun t ht => ?_
      simpa only [IsText, Set.mem_ofPred_eq, hf, raised, if_true, Bool.false_eq_true, if_false] using ht
    case base32PadUpper =>
      refine hu.subset fun t ht => ?_
      simpa only [IsText, Set.mem_ofPred_eq, hf, raised, if_true, Bool.false_eq_true, if_false] using ht
    case base32HexPadUpper =>
      refine hu.subset fun t ht => ?_
      simpa only [IsText, Set.mem_ofPred_eq, hf, raised, if_true, Bool.false_eq_true, if_false] using ht
    all_goals exact hs

theorem letters_prod {V : Char → List Char} {a s : Str} (hs : ∀ c ∈ s, c ∈ a)
    (ha : ∀ c ∈ a, (V c).length = if c.isAlpha then 2 else 1) : (s.map fun c => (V c).length).prod = 2 ^ s.countP Char.isAlpha := by
  induction s with
  | nil => rfl
  | cons c s ih =>
    rw [List.map_cons, List.prod_cons, ih fun x hx => hs x (List.mem_cons_of_mem _ hx), ha c (hs c List.mem_cons_self),
      List.countP_cons]
    split <;> simp [pow_succ, mul_comm]

theorem lower_card {a s : Str} (hs : ∀ c ∈ s, c ∈ a) (ha : ∀ c ∈ a, (lowerFiber c).length = if c.isAlpha then 2 else 1) :
    {t : Str | t.map Char.toLower = s}.ncard = 2 ^ s.countP Char.isAlpha := by
  rw [(fiber_card mem_lowerFiber lowerFiber_nodup s).1, letters_prod hs ha]

theorem upper_card {a s : Str} (hs : ∀ c ∈ s, c ∈ a) (ha : ∀ c ∈ a, (upperFiber c).length = if c.isAlpha then 2 else 1) :
    {t : Str | t.map Char.toUpper = s}.ncard = 2 ^ s.countP Char.isAlpha := by
  rw [(fiber_card mem_upperFiber upperFiber_nodup s).1, letters_prod hs ha]

/-- Bases without padding whose alphabet has letters of one case. -/
def casedBases : List MBase :=
  [.base16Lower, .base16Upper, .base32Lower, .base32Upper, .base32HexLower, .base32HexUpper, .base32Z, .base36Lower, .base36Upper]

/-- With letters of either case there are as many texts as choices of case. -/
theorem cased_card {fold : MBase → Bool} {base : MBase} (hf : fold base = true) (hc : base ∈ casedBases) {b : Bytes} {s : Str}
    (hs : IsText (fun _ => false) base b s) : {t | IsText fold base b t}.ncard = 2 ^ s.countP Char.isAlpha := by
  simp only [casedBases, List.mem_cons, List.not_mem_nil, or_false] at hc
  rcases hc with rfl | rfl | rfl | rfl | rfl | rfl | rfl | rfl | rfl
  · have hs' : IsGroups 4 "0123456789abcdef".toList b s := hs
    rw [isGroups_iff rfl (by omega)] at hs'
    have e : {t | IsText fold .base16Lower b t} = {t : Str | t.map Char.toLower = s} := by
      ext t
      simp only [IsText, hf, lowered, if_true, Set.mem_ofPred_eq]
      rw [isGroups_iff rfl (by omega), hs']
    rw [e]
    exact lower_card (a := "0123456789abcdef".toList) (by rw [hs']; exact groupsText_mem rfl b) (by decide +kernel)
  · have hs' : IsGroups 4 "0123456789ABCDEF".toList b s := hs
    rw [isGroups_iff rfl (by omega)] at hs'
    have e : {t | IsText fold .base16Upper b t} = {t : Str | t.map Char.toUpper = s} := by
      ext t
      simp only [IsText, hf, raised, if_true, Set.mem_ofPred_eq]
      rw [isGroups_iff rfl (by omega), hs']
    rw [e]
    exact upper_card (a := "0123456789ABCDEF".toList) (by rw [hs']; exact groupsText_mem rfl b) (by decide +kernel)
  · have hs' : IsGroups 5 "abcdefghijklmnopqrstuvwxyz234567".toList b s := hs
    rw [isGroups_iff rfl (by omega)] at hs'
    have e : {t | IsText fold .base32Lower b t} = {t : Str | t.map Char.toLower = s} := by
      ext t
      simp only [IsText, hf, lowered, if_true, Set.mem_ofPred_eq]
      rw [isGroups_iff rfl (by omega), hs']
    rw [e]
    exact lower_card (a := "abcdefghijklmnopqrstuvwxyz234567".toList) (by rw [hs']; exact groupsText_mem rfl b) (by decide +kernel)
  · have hs' : IsGroups 5 "ABCDEFGHIJKLMNOPQRSTUVWXYZ234567".toList b s := hs
    rw [isGroups_iff rfl (by omega)] at hs'
    have e : {t | IsText fold .base32Upper b t} = {t : Str | t.map Char.toUpper = s} := by
      ext t
      simp only [IsText, hf, raised, if_true, Set.mem_ofPred_eq]
      rw [isGroups_iff rfl (by omega), hs']
    rw [e]
    exact upper_card (a := "ABCDEFGHIJKLMNOPQRSTUVWXYZ234567".toList) (by rw [hs']; exact groupsText_mem rfl b) (by decide +kernel)
  · have hs' : IsGroups 5 "0123456789abcdefghijklmnopqrstuv".toList b s := hs
    rw [isGroups_iff rfl (by omega)] at hs'
    have e : {t | IsText fold .base32HexLower b t} = {t : Str | t.map Char.toLower = s} := by
      ext t
      simp only [IsText, hf, lowered, if_true, Set.mem_ofPred_eq]
      rw [isGroups_iff rfl (by omega), hs']
    rw [e]
    exact lower_card (a := "0123456789abcdefghijklmnopqrstuv".toList) (by rw [hs']; exact groupsText_mem rfl b) (by decide +kernel)
  · have hs' : IsGroups 5 "0123456789ABCDEFGHIJKLMNOPQRSTUV".toList b s := hs
    rw [isGroups_iff rfl (by omega)] at hs'
    have e : {t | IsText fold .base32HexUpper b t} = {t : Str | t.map Char.toUpper = s} := by
      ext t
      simp only [IsText, hf, raised, if_true, Set.mem_ofPred_eq]
      rw [isGroups_iff rfl (by omega), hs']
    rw [e]
    exact upper_card (a := "0123456789ABCDEFGHIJKLMNOPQRSTUV".toList) (by rw [hs']; exact groupsText_mem rfl b) (by decide +kernel)
  · have hs' : IsGroups 5 "ybndrfg8ejkmcpqxot1uwisza345h769".toList b s := hs
    rw [isGroups_iff rfl (by omega)] at hs'
    have e : {t | IsText fold .base32Z b t} = {t : Str | t.map Char.toLower = s} := by
      ext t
      simp only [IsText, hf, lowered, if_true, Set.mem_ofPred_eq]
      rw [isGroups_iff rfl (by omega), hs']
    rw [e]
    exact lower_card (a := "ybndrfg8ejkmcpqxot1uwisza345h769".toList) (by rw [hs']; exact groupsText_mem rfl b) (by decide +kernel)
  · have hs' : IsNumber "0123456789abcdefghijklmnopqrstuvwxyz".toList b s := hs
    rw [isNumber_iff (by decide)] at hs'
    have e : {t | IsText fold .base36Lower b t} = {t : Str | t.map Char.toLower = s} := by
      ext t
      simp only [IsText, hf, lowered, if_true, Set.mem_ofPred_eq]
      rw [isNumber_iff (by decide), hs']
    rw [e]
    exact lower_card (a := "0123456789abcdefghijklmnopqrstuvwxyz".toList) (by rw [hs']; exact numberText_mem (by decide) b) (by decide +kernel)
  · have hs' : IsNumber "0123456789ABCDEFGHIJKLMNOPQRSTUVWXYZ".toList b s := hs
    rw [isNumber_iff (by decide)] at hs'
    have e : {t | IsText fold .base36Upper b t} = {t : Str | t.map Char.toUpper = s} := by
      ext t
      simp only [IsText, hf, raised, if_true, Set.mem_ofPred_eq]
      rw [isNumber_iff (by decide), hs']
    rw [e]
    exact upper_card (a := "0123456789ABCDEFGHIJKLMNOPQRSTUVWXYZ".toList) (by rw [hs']; exact numberText_mem (by decide) b) (by decide +kernel)

end Verif.Bases
