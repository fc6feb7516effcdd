import Verif.Props.Did
import Verif.Props.Hashlink
import Verif.Props.Identity

/-
C87: DIDs and DID URLs by the grammar of DID Core (W3C Recommendation, sections 3.1 and 3.2) and RFC 3986
(core/src/did/mod.rs:59-121, core/src/did/query.rs:27-43, core/src/identity/mod.rs).
-/

namespace Verif.Spec
open Verif

/-- HEXDIG of RFC 5234 (letters of either case). -/
def HexDig (c : Char) : Prop := c ∈ "0123456789abcdefABCDEF".toList

/-- Sequences of characters of one kind and of pct-encoded ones (`%` HEXDIG HEXDIG). -/
inductive Encoded (p : Char → Prop) : Str → Prop where
  | nil : Encoded p []
  | char {c s} (hc : p c) (h : Encoded p s) : Encoded p (c :: s)
  | pct {a b s} (ha : HexDig a) (hb : HexDig b) (h : Encoded p s) : Encoded p ('%' :: a :: b :: s)

/-- `idchar` of DID Core, without pct-encoded. -/
def IdChar (c : Char) : Prop := c.isAlphanum = true ∨ c ∈ ".-_".toList

/-- `pchar` of RFC 3986, without pct-encoded. -/
def PChar (c : Char) : Prop := c.isAlphanum = true ∨ c ∈ "-._~!$&'()*+,;=:@".toList

/-- `did` of DID Core: `did:`, a method name, `:`, and a method specific id whose last part is not empty. -/
def IsDid (t : Str) : Prop :=
  ∃ (method : Str) (heads : List Str) (last : Str), method ≠ [] ∧ (∀ c ∈ method, c.isLower = true ∨ c.isDigit = true) ∧
    (∀ h ∈ heads, Encoded IdChar h) ∧ last ≠ [] ∧ Encoded IdChar last ∧
    t = "did:".toList ++ method ++ ":".toList ++ heads.flatMap (fun h => h ++ ":".toList) ++ last

/-- `query` and `fragment` of RFC 3986. -/
def IsQuery (t : Str) : Prop := Encoded (fun c => PChar c ∨ c = '/' ∨ c = '?') t

/-- `path-abempty` of RFC 3986. -/
def IsPath (t : Str) : Prop := ∃ segments : List Str, (∀ s ∈ segments, Encoded PChar s) ∧ t = segments.flatMap (fun s => '/' :: s)

/-- `did-url` of DID Core with the parts given. -/
structure IsDidUrl (t did path : Str) (query fragment : Option Str) : Prop where
  did_ok : IsDid did
  path_ok : IsPath path
  query_ok : ∀ q, query = some q → IsQuery q
  fragment_ok : ∀ f, fragment = some f → IsQuery f
  text : t = did ++ path ++ (query.map ("?".toList ++ ·)).getD [] ++ (fragment.map ("#".toList ++ ·)).getD []

/-- `unreserved` of RFC 3986. -/
def Unreserved (c : Char) : Prop := c.isAlphanum = true ∨ c ∈ "-._~".toList

instance (c : Char) : Decidable (Unreserved c) := inferInstanceAs (Decidable (_ ∨ _))

/-- A byte, percent-encoded unless it is an unreserved character (RFC 3986, section 2). -/
def pctByte (b : UInt8) : Str :=
  if b.toNat < 128 ∧ Unreserved (Char.ofNat b.toNat) then [Char.ofNat b.toNat]
  else ['%', "0123456789ABCDEF".toList.getD (b.toNat / 16) '0', "0123456789ABCDEF".toList.getD (b.toNat % 16) '0']

/-- Percent-encoding of a text. -/
def pctEncode (s : Str) : Str := (utf8 s).flatMap pctByte

/-- Percent-decoding, to bytes. -/
def pctDecode : Str → Bytes
  | '%' :: a :: b :: r => UInt8.ofNat ("0123456789ABCDEF".toList.idxOf a * 16 + "0123456789ABCDEF".toList.idxOf b) :: pctDecode r
  | c :: r => UInt8.ofNat c.toNat :: pctDecode r
  | [] => []

end Verif.Spec

namespace Verif.Props
open Verif Spec Hashlink

theorem _root_.Verif.Spec.Encoded.append {p : Char → Prop} {x y : Str} (hx : Encoded p x) (hy : Encoded p y) : Encoded p (x ++ y) := by
  induction hx with
  | nil => exact hy
  | char hc _ ih => exact .char hc ih
  | pct ha hb _ ih => exact .pct ha hb ih

theorem _root_.Verif.Spec.Encoded.not_mem {p : Char → Prop} {x : Str} (hx : Encoded p x) {c : Char} (hc : ¬ p c) (h1 : c ≠ '%') (h2 : ¬ HexDig c) :
    c ∉ x := by
  induction hx with
  | nil => simp
  | char hd _ ih =>
    rw [List.mem_cons, not_or]
    exact ⟨fun e => hc (e ▸ hd), ih⟩
  | pct ha hb _ ih =>
    simp only [List.mem_cons, not_or]
    exact ⟨h1, fun e => h2 (e ▸ ha), fun e => h2 (e ▸ hb), ih⟩

theorem _root_.Verif.Spec.Encoded.cons_iff {p : Char → Prop} {c : Char} (hc : c ≠ '%') (s : Str) : Encoded p (c :: s) ↔ p c ∧ Encoded p s := by
  constructor
  · intro h
    cases h with
    | char h1 h2 => exact ⟨h1, h2⟩
    | pct => exact absurd rfl hc
  · rintro ⟨h1, h2⟩; exact .char h1 h2

theorem _root_.Verif.Spec.Encoded.of_left {p : Char → Prop} {c : Char} (hc : c ≠ '%') (hh : ¬ HexDig c) {y w : Str} (h : Encoded p w) :
    ∀ x, w = x ++ c :: y → Encoded p x ∧ Encoded p (c :: y) := by
  induction h with
  | nil => intro x e; cases x <;> cases e
  | @char d s hd hs ih =>
    intro x e
    cases x with
    | nil =>
      have e : d :: s = c :: y := e
      exact ⟨.nil, e ▸ .char hd hs⟩
    | cons d' x =>
      injection e with e1 e2
      subst e1
      obtain ⟨h1, h2⟩ := ih x e2
      exact ⟨.char hd h1, h2⟩
  | @pct a b s ha hb hs ih =>
    intro x e
    match x, e with
    | [], e =>
      have e : '%' :: a :: b :: s = c :: y := e
      injection e with e1
      exact absurd e1.symm hc
    | [_], e =>
      have e : '%' :: a :: b :: s = _ :: c :: y := e
      injection e with _ e
      injection e with e
      exact absurd (e ▸ ha) hh
    | [_, _], e =>
      have e : '%' :: a :: b :: s = _ :: _ :: c :: y := e
      injection e with _ e
      injection e with _ e
      injection e with e
      exact absurd (e ▸ hb) hh
    | d1 :: d2 :: d3 :: x, e =>
      injection e with e1 e4
      injection e4 with e2 e5
      injection e5 with e3 e6
      subst e1 e2 e3
      obtain ⟨h1, h2⟩ := ih x e6
      exact ⟨.pct ha hb h1, h2⟩

theorem _root_.Verif.Spec.Encoded.of_chars {p : Char → Prop} {x : Str} (h : ∀ c ∈ x, p c) : Encoded p x := by
  induction x with
  | nil => exact .nil
  | cons c x ih => exact .char (h c (by simp)) (ih fun d hd => h d (by simp [hd]))

instance (c : Char) : Decidable (HexDig c) := inferInstanceAs (Decidable (_ ∈ _))
instance (c : Char) : Decidable (IdChar c) := inferInstanceAs (Decidable (_ ∨ _))
instance (c : Char) : Decidable (PChar c) := inferInstanceAs (Decidable (_ ∨ _))

theorem base58_idchar : ∀ c ∈ b58Alphabet, IdChar c := by decide +kernel

/-- The DID of a key is a DID. -/
theorem IsDidOf.isDid {E : Env} {pub : E.EdPub} {hex payload did : Str} (h : IsDidOf E pub hex payload did) : IsDid did := by
  refine ⟨"prople".toList, [], payload, by decide, by decide, by simp, ?_, ?_, ?_⟩
  · rw [h.payload_eq.unique]; exact List.cons_ne_nil _ _
  · rw [h.payload_eq.unique]
    refine .of_chars fun c hc => ?_
    rcases List.mem_cons.mp hc with rfl | hc
    · decide
    · exact base58_idchar c (base58Encode_chars _ c hc)
  · rw [h.did_eq]; simp

/-- C87: the DID of every key is a DID by the grammar of DID Core. -/
theorem C87_did {E : Env} (d : DID E) : ∃ i, d.identity = .ok i ∧ IsDid i.value := by
  obtain ⟨i, _, _, hi, h, _⟩ := identity_isDid d
  exact ⟨i, hi, h.isDid⟩

theorem _root_.Verif.Spec.IsDid.not_mem {t : Str} (h : IsDid t) {c : Char} (hc : ¬ IdChar c) (h1 : c ≠ '%') (h2 : ¬ HexDig c) (h3 : c ≠ ':') :
    c ∉ t := by
  obtain ⟨method, heads, last, -, hm, hh, -, hl, rfl⟩ := h
  have hal : c.isAlphanum = false := by rw [← Bool.not_eq_true]; exact fun e => hc (.inl e)
  have hd : c ∉ "did:".toList := by
    intro m
    have : c = 'd' ∨ c = 'i' ∨ c = 'd' ∨ c = ':' := by simpa using m
    rcases this with rfl | rfl | rfl | rfl
    · exact hc (by decide)
    · exact hc (by decide)
    · exact hc (by decide)
    · exact h3 rfl
  have hmm : c ∉ method := by
    intro m
    rcases hm c m with e | e
    · simp [Char.isAlphanum, Char.isAlpha, e] at hal
    · simp [Char.isAlphanum, e] at hal
  have hcol : c ∉ ":".toList := by simpa using h3
  simp only [List.mem_append, not_or]
  refine ⟨⟨⟨⟨hd, hmm⟩, hcol⟩, ?_⟩, hl.not_mem hc h1 h2⟩
  rw [List.mem_flatMap]
  rintro ⟨x, hx, m⟩
  rcases List.mem_append.mp m with m | m
  · exact (hh x hx).not_mem hc h1 h2 m
  · exact hcol m

theorem _root_.Verif.Spec.IsPath.not_mem {t : Str} (h : IsPath t) {c : Char} (hc : ¬ PChar c) (h1 : c ≠ '%') (h2 : ¬ HexDig c) (h3 : c ≠ '/') :
    c ∉ t := by
  obtain ⟨segs, hs, rfl⟩ := h
  rw [List.mem_flatMap]
  rintro ⟨x, hx, m⟩
  rcases List.mem_cons.mp m with m | m
  · exact h3 m
  · exact (hs x hx).not_mem hc h1 h2 m

theorem isPath_nil : IsPath [] := ⟨[], by simp, rfl⟩

/-- A query is the only part of a URL that may contain `?`, apart from the fragment. -/
theorem url_query {t d q : Str} (hd : '?' ∉ d) (ht : t = d ++ '?' :: q) (hq : '#' ∉ t) {did path : Str} {query fragment : Option Str}
    (h : IsDidUrl t did path query fragment) : did ++ path = d ∧ query = some q ∧ fragment = none := by
  obtain ⟨h1, h2, h3, h4, h5⟩ := h
  cases fragment with
  | some f => rw [h5] at hq; simp at hq
  | none =>
    have n1 : '?' ∉ did := h1.not_mem (by decide) (by decide) (by decide) (by decide)
    have n2 : '?' ∉ path := h2.not_mem (by decide) (by decide) (by decide) (by decide)
    have n : '?' ∉ did ++ path := by rw [List.mem_append, not_or]; exact ⟨n1, n2⟩
    cases query with
    | none =>
      simp at h5
      rw [ht] at h5
      exact absurd (h5 ▸ by simp : '?' ∈ did ++ path) n
    | some q' =>
      have e : d ++ '?' :: q = (did ++ path) ++ '?' :: q' := by rw [← ht, h5]; simp
      have b1 := before_append hd q
      have b2 := after_append hd q
      rw [e, before_append n] at b1
      rw [e, after_append n] at b2
      exact ⟨b1, by rw [b2], rfl⟩

theorem isQuery_cons {c : Char} (hc : c ≠ '%') (hp : PChar c) (s : Str) : IsQuery (c :: s) ↔ IsQuery s := by
  unfold IsQuery
  rw [Encoded.cons_iff hc]
  exact ⟨fun h => h.2, fun h => ⟨.inl hp, h⟩⟩

theorem isQuery_prefix (k : Str) (hk : ∀ c ∈ k, c ≠ '%' ∧ PChar c) (s : Str) : IsQuery (k ++ s) ↔ IsQuery s := by
  induction k with
  | nil => rfl
  | cons c k ih =>
    rw [List.cons_append, isQuery_cons (hk c (by simp)).1 (hk c (by simp)).2]
    exact ih fun d hd => hk d (by simp [hd])

theorem isQuery_amp (a h : Str) : IsQuery (a ++ '&' :: h) ↔ IsQuery a ∧ IsQuery h := by
  constructor
  · intro e
    obtain ⟨h1, h2⟩ := Encoded.of_left (by decide) (by decide) e a rfl
    exact ⟨h1, (isQuery_cons (by decide) (by decide) h).mp h2⟩
  · rintro ⟨h1, h2⟩
    exact h1.append ((isQuery_cons (by decide) (by decide) h).mpr h2)

/-- The query that `build_uri` makes. -/
theorem buildUri_query {E : Env} (d : DID E) (i : Identity E) (hi : d.identity = .ok i) (p : Params) (uri : Str)
    (h : d.buildUri (some p) = .ok uri) : ∃ q, uri = i.value ++ '?' :: q ∧
      (IsQuery q ↔ (∀ a, p.address = some a → IsQuery a) ∧ ∀ l, p.hl = some l → IsQuery l) ∧
      ('#' ∈ q ↔ (∃ a, p.address = some a ∧ '#' ∈ a) ∨ ∃ l, p.hl = some l ∧ '#' ∈ l) := by
  obtain ⟨i', hi', _, h0, h1, h2, h3⟩ := C10_build_uri d
  rw [hi] at hi'; cases hi'
  have ka : ∀ a, IsQuery ("address=".toList ++ a) ↔ IsQuery a := fun a => isQuery_prefix _ (by decide) a
  have kh : ∀ a, IsQuery ("hl=".toList ++ a) ↔ IsQuery a := fun a => isQuery_prefix _ (by decide) a
  obtain ⟨a, l⟩ := p
  cases a with
  | none =>
    cases l with
    | none => rw [h0] at h; cases h
    | some l =>
      rw [h2] at h
      refine ⟨"hl=".toList ++ l, by cases h; simp, ?_, ?_⟩
      · rw [kh]; simp
      · simp
  | some a =>
    cases l with
    | none =>
      rw [h1] at h
      refine ⟨"address=".toList ++ a, by cases h; simp, ?_, ?_⟩
      · rw [ka]; simp
      · simp
    | some l =>
      rw [h3] at h
      refine ⟨("address=".toList ++ a) ++ '&' :: ("hl=".toList ++ l), by cases h; simp, ?_, ?_⟩
      · rw [isQuery_amp, ka, kh]; simp
      · simp

/-- C87: what `build_uri` makes is a DID URL of the DID, with the parameters in its query, exactly if the values consist of
characters of a query. Nothing is escaped. -/
theorem C87_url {E : Env} (d : DID E) (i : Identity E) (hi : d.identity = .ok i) (p : Params) (uri : Str)
    (h : d.buildUri (some p) = .ok uri) :
    (∃ q, IsDidUrl uri i.value [] (some q) none) ↔
      (∀ a, p.address = some a → IsQuery a) ∧ ∀ l, p.hl = some l → IsQuery l := by
  obtain ⟨q, rfl, hq, hs⟩ := buildUri_query d i hi p uri h
  obtain ⟨_, x, y, hi', hd, _⟩ := identity_isDid d
  rw [hi] at hi'; cases hi'
  have hsafe := did_safe hd
  rw [← hq]
  constructor
  · rintro ⟨q', h⟩
    have hn : '#' ∉ i.value ++ '?' :: q := by
      rw [h.text]
      simp only [Option.map_some, Option.getD_some, Option.map_none, Option.getD_none, List.append_nil, List.mem_append, not_or]
      exact ⟨hsafe.2.2.2.1, by decide, (h.query_ok q' rfl).not_mem (by decide) (by decide) (by decide)⟩
    have := (url_query hsafe.1 rfl hn h).2.1
    cases this
    exact h.query_ok _ rfl
  · intro h
    exact ⟨q, hd.isDid, isPath_nil, by rintro _ ⟨⟩; exact h, by simp, by simp⟩

/-- C87: the entries of the document of a DID, whatever the history of the identity, are named by DID URLs: the DID and a
fragment. The controller is the DID. -/
theorem C87_entries {E : Env} (d : DID E) (i : Identity E) (hi : d.identity = .ok i) (ops : List (IdOp E)) :
    IsDid (ops.foldl IdOp.apply i).toDoc.id ∧
    ∀ p ∈ (ops.foldl IdOp.apply i).toDoc.authentication.getD [] ++ (ops.foldl IdOp.apply i).toDoc.assertion.getD [],
      p.controller = i.value ∧ ∃ f, IsDidUrl p.id i.value [] none (some f) := by
  obtain ⟨_, x, y, hi', hd, e1, e2⟩ := identity_isDid d
  rw [hi] at hi'; cases hi'
  have er : ops.foldl IdOp.apply i = idRun i.value ops := by
    obtain ⟨v, a, b⟩ := i
    cases e1; cases e2; rfl
  rw [er]
  obtain ⟨h1, _, _, _, h5, h6, _⟩ := C12_document i.value ops
  refine ⟨by rw [h1]; exact hd.isDid, ?_⟩
  have key : ∀ (f g : Str) (o : Option (MethodSeed E)) (l : Option (List Primary)), IsQuery f → IsQuery g →
      EntriesIs E i.value ('#' :: f) ('#' :: g) o l → ∀ p ∈ l.getD [], p.controller = i.value ∧ ∃ f, IsDidUrl p.id i.value [] none (some f) := by
    intro f g o l hf hg he p hp
    cases o with
    | none => cases he; simp at hp
    | some s =>
      obtain ⟨l, rfl, ⟨kv, ka, rfl, _⟩⟩ := he
      rcases List.mem_pair.mp hp with rfl | rfl
      · exact ⟨rfl, f, hd.isDid, isPath_nil, by simp, by rintro _ ⟨⟩; exact hf, by simp⟩
      · exact ⟨rfl, g, hd.isDid, isPath_nil, by simp, by rintro _ ⟨⟩; exact hg, by simp⟩
  have hq : ∀ t : Str, (∀ c ∈ t, PChar c) → IsQuery t := fun t h => .of_chars fun c hc => .inl (h c hc)
  intro p hp
  rcases List.mem_append.mp hp with hp | hp
  · exact key "key-auth-verification".toList "key-auth-aggrement".toList _ _ (hq _ (by decide)) (hq _ (by decide)) h5 p hp
  · exact key "key-assertion-verification".toList "key-assertion-aggrement".toList _ _ (hq _ (by decide)) (hq _ (by decide)) h6 p hp

/-! ### Escaping -/

theorem escapeByte_spec : ∀ n < 256,
    (∃ a b, pctByte (UInt8.ofNat n) = ['%', a, b] ∧ HexDig a ∧ HexDig b ∧
      "0123456789ABCDEF".toList.idxOf a * 16 + "0123456789ABCDEF".toList.idxOf b = n) ∨
    (∃ c, pctByte (UInt8.ofNat n) = [c] ∧ PChar c ∧ c ≠ '%' ∧ c.toNat = n ∧ Unreserved c) := by
  intro n hn
  have hb : (UInt8.ofNat n).toNat = n := by rw [UInt8.toNat_ofNat']; omega
  unfold pctByte
  rw [hb]
  by_cases h : n < 128 ∧ Unreserved (Char.ofNat n)
  · rw [if_pos h]
    right
    refine ⟨_, rfl, ?_, ?_, ?_, h.2⟩
    · rcases h.2 with e | e
      · exact .inl e
      · exact .inr (List.Sublist.subset (l₁ := "-._~".toList) (by decide) e)
    · intro e; rw [e] at h; exact absurd h.2 (by decide)
    · exact (by decide +kernel : ∀ n < 128, (Char.ofNat n).toNat = n) n h.1
  · rw [if_neg h]
    left
    have hx : ∀ m < 16, HexDig ("0123456789ABCDEF".toList.getD m '0') ∧
        "0123456789ABCDEF".toList.idxOf ("0123456789ABCDEF".toList.getD m '0') = m := by decide +kernel
    have h1 := hx (n / 16) (by omega)
    have h2 := hx (n % 16) (by omega)
    refine ⟨_, _, rfl, h1.1, h2.1, ?_⟩
    rw [h1.2, h2.2]; omega

theorem escapeByte_cases (b : UInt8) :
    (∃ x y, pctByte b = ['%', x, y] ∧ HexDig x ∧ HexDig y ∧
      UInt8.ofNat ("0123456789ABCDEF".toList.idxOf x * 16 + "0123456789ABCDEF".toList.idxOf y) = b) ∨
    (∃ c, pctByte b = [c] ∧ PChar c ∧ c ≠ '%' ∧ UInt8.ofNat c.toNat = b ∧ Unreserved c) := by
  have h := escapeByte_spec b.toNat b.toNat_lt
  rw [UInt8.ofNat_toNat] at h
  rcases h with ⟨x, y, h1, h2, h3, h4⟩ | ⟨c, h1, h2, h3, h4, h5⟩
  · exact .inl ⟨x, y, h1, h2, h3, by rw [h4, UInt8.ofNat_toNat]⟩
  · exact .inr ⟨c, h1, h2, h3, by rw [h4, UInt8.ofNat_toNat], h5⟩

theorem unescape_char {c : Char} (hc : c ≠ '%') (r : Str) : pctDecode (c :: r) = UInt8.ofNat c.toNat :: pctDecode r := by
  rw [pctDecode]
  intro a b r' e
  exact absurd e hc

theorem unescape_escape (bs : Bytes) : pctDecode (bs.flatMap pctByte) = bs := by
  induction bs with
  | nil => rfl
  | cons b bs ih =>
    rw [List.flatMap_cons]
    rcases escapeByte_cases b with ⟨x, y, h1, _, _, h4⟩ | ⟨c, h1, _, h3, h4, _⟩
    · rw [h1]
      show UInt8.ofNat _ :: pctDecode (bs.flatMap pctByte) = _
      rw [h4, ih]
    · rw [h1]
      show pctDecode (c :: bs.flatMap pctByte) = _
      rw [unescape_char h3, h4, ih]

theorem escape_encoded (bs : Bytes) : Encoded Unreserved (bs.flatMap pctByte) := by
  induction bs with
  | nil => exact .nil
  | cons b bs ih =>
    rw [List.flatMap_cons]
    rcases escapeByte_cases b with ⟨x, y, h1, h2, h3, _⟩ | ⟨c, h1, _, _, _, h5⟩
    · rw [h1]; exact .pct h2 h3 ih
    · rw [h1]; exact .char h5 ih

theorem _root_.Verif.Spec.Encoded.mono {p q : Char → Prop} (hpq : ∀ c, p c → q c) {x : Str} (h : Encoded p x) : Encoded q x := by
  induction h with
  | nil => exact .nil
  | char hc _ ih => exact .char (hpq _ hc) ih
  | pct ha hb _ ih => exact .pct ha hb ih

theorem unreserved_pchar (c : Char) (h : Unreserved c) : PChar c := by
  rcases h with e | e
  · exact .inl e
  · exact .inr (List.Sublist.subset (l₁ := "-._~".toList) (by decide) e)

theorem escape_query (s : Str) : IsQuery (pctEncode s) := (escape_encoded _).mono fun c h => .inl (unreserved_pchar c h)

theorem escape_clean (v : Option Str) : Clean (v.map pctEncode) := by
  intro t ht
  cases v with
  | none => cases ht
  | some s =>
    cases ht
    have h := escape_encoded (utf8 s)
    exact ⟨h.not_mem (by decide) (by decide) (by decide), h.not_mem (by decide) (by decide) (by decide),
      h.not_mem (by decide) (by decide) (by decide)⟩

/-- C87: for parameters of any content, percent-encoding the values first gives a DID URL of the DID, from which `parse_uri`
returns the encoded values, and these decode to the values; two values with one encoding are equal. -/
theorem C87_escape {E : Env} (d : DID E) (i : Identity E) (hi : d.identity = .ok i) (p : Params) (h : p.address ≠ none ∨ p.hl ≠ none) :
    ∃ uri, d.buildUri (some ⟨p.address.map pctEncode, p.hl.map pctEncode⟩) = .ok uri ∧ (∃ q, IsDidUrl uri i.value [] (some q) none) ∧
      DID.parseUri uri = some (.ok (i.value, ⟨p.address.map pctEncode, p.hl.map pctEncode⟩)) ∧
      ∀ s, pctDecode (pctEncode s) = utf8 s := by
  obtain ⟨uri, hu⟩ := C07_builds d ⟨p.address.map pctEncode, p.hl.map pctEncode⟩ (by simpa using h)
  refine ⟨uri, hu, ?_, ?_, fun s => unescape_escape _⟩
  · rw [C87_url d i hi _ uri hu]
    constructor
    · intro a ha
      obtain ⟨s, _, rfl⟩ := Option.map_eq_some_iff.mp ha
      exact escape_query s
    · intro a ha
      obtain ⟨s, _, rfl⟩ := Option.map_eq_some_iff.mp ha
      exact escape_query s
  · rw [C07_uri_roundtrip d i hi _ uri hu]
    exact ⟨escape_clean _, escape_clean _⟩

/-! ### Fragments -/

/-- C87: `parse_uri` does not know fragments. A DID URL with the parameters in its query, continued by a fragment, gives the
last parameter with the fragment in it: a hashlink continued by a fragment, which no data satisfy. -/
theorem C87_fragment {E : Env} (H : E.HashLaws) (d : DID E) (i : Identity E) (hi : d.identity = .ok i) (p : Params) (uri f : Str)
    (h : d.buildUri (some p) = .ok uri) (hf : '?' ∉ f ∧ '&' ∉ f ∧ '=' ∉ f) :
    ((∀ a, p.address = some a → IsQuery a) → (∀ l, p.hl = some l → IsQuery l) → IsQuery f →
      ∃ q, IsDidUrl (uri ++ '#' :: f) i.value [] (some q) (some f)) ∧
    (∀ l, p.hl = some l → Clean p.address → Clean p.hl →
      DID.parseUri (uri ++ '#' :: f) = some (.ok (i.value, ⟨p.address, some (l ++ '#' :: f)⟩)) ∧
      ∀ v : JSONValue, verifyFromJson E (.ok v) (l ++ '#' :: f) ≠ .ok ()) ∧
    (∀ a, p.address = some a → p.hl = none → Clean p.address →
      DID.parseUri (uri ++ '#' :: f) = some (.ok (i.value, ⟨some (a ++ '#' :: f), none⟩))) ∧
    DID.parseUri (i.value ++ '#' :: f) = some (.ok (i.value ++ '#' :: f, ⟨none, none⟩)) := by
  obtain ⟨i', hi', _, h0, h1, h2, h3⟩ := C10_build_uri d
  rw [hi] at hi'; cases hi'
  obtain ⟨_, _, _, hi', hd, _⟩ := identity_isDid d
  rw [hi] at hi'; cases hi'
  have hsafe := did_safe hd
  have clean : ∀ t : Str, Clean (some t) → Clean (some (t ++ '#' :: f)) := by
    intro t ht s hs
    cases hs
    obtain ⟨c1, c2, c3⟩ := ht t rfl
    refine ⟨?_, ?_, ?_⟩ <;> rw [List.mem_append, List.mem_cons, not_or, not_or]
    · exact ⟨c1, by decide, hf.1⟩
    · exact ⟨c2, by decide, hf.2.1⟩
    · exact ⟨c3, by decide, hf.2.2⟩
  refine ⟨?_, ?_⟩
  · intro ha hl hq
    obtain ⟨q, g1, g2, g3, -, g5⟩ := (C87_url d i hi p uri h).mpr ⟨ha, hl⟩
    exact ⟨q, g1, g2, g3, by rintro _ ⟨⟩; exact hq, by rw [g5]; simp⟩
  obtain ⟨a, l⟩ := p
  refine ⟨?_, ?_, ?_⟩
  · rintro l' hl ha hc
    cases hl
    refine ⟨?_, ?_⟩
    · have hu : d.buildUri (some ⟨a, some (l' ++ '#' :: f)⟩) = .ok (uri ++ '#' :: f) := by
        cases a with
        | none => rw [h2] at h; cases h; rw [h2]; simp
        | some a => rw [h3] at h; cases h; rw [h3]; simp
      exact (C07_uri_roundtrip d i hi _ _ hu).mpr ⟨ha, clean _ hc⟩
    · intro v e
      rw [(C21_exact H v _).1, C23_shape H] at e
      exact (payload_safe e '#' (by simp)).2.2.2.2 rfl
  · rintro a' ha hl hc
    cases ha; cases hl
    have hu : d.buildUri (some ⟨some (a' ++ '#' :: f), none⟩) = .ok (uri ++ '#' :: f) := by
      rw [h1] at h; cases h; rw [h1]; simp
    exact (C07_uri_roundtrip d i hi _ _ hu).mpr ⟨clean _ hc, by intro t ht; cases ht⟩
  · have n : '?' ∉ i.value ++ '#' :: f := by
      rw [List.mem_append, List.mem_cons, not_or, not_or]; exact ⟨hsafe.1, by decide, hf.1⟩
    rw [parseUri_spec, before_self n]
    have hp : ∀ k : Str, param k (i.value ++ '#' :: f) = none := by
      intro k
      have e : after '?' (i.value ++ '#' :: f) = [] := by
        rcases split_cases '?' (i.value ++ '#' :: f) with ⟨_, _, h⟩ | ⟨h, _, _⟩
        · exact h.1
        · rw [h] at n; simp at n
      unfold param
      rw [e, before_self (by simp)]
      simp [segmentValue]
    rw [hp, hp]

/-- C87: of a DID URL `parse_uri` finds the DID exactly if the URL has no path and no fragment directly behind the DID. -/
theorem C87_component (u did path : Str) (query fragment : Option Str) (h : IsDidUrl u did path query fragment) :
    (∃ p, DID.parseUri u = some (.ok (did, p))) ↔ path = [] ∧ (query ≠ none ∨ fragment = none) := by
  have n1 : '?' ∉ did := h.did_ok.not_mem (by decide) (by decide) (by decide) (by decide)
  have n2 : '?' ∉ path := h.path_ok.not_mem (by decide) (by decide) (by decide) (by decide)
  have n : '?' ∉ did ++ path := by rw [List.mem_append, not_or]; exact ⟨n1, n2⟩
  have key : (∃ p, DID.parseUri u = some (.ok (did, p))) ↔ before '?' u = did := by
    rw [parseUri_spec]
    simp
  rw [key, h.text]
  cases query with
  | some q =>
    have e : did ++ path ++ ((some q).map ("?".toList ++ ·)).getD [] ++ (fragment.map ("#".toList ++ ·)).getD [] =
        (did ++ path) ++ '?' :: (q ++ (fragment.map ("#".toList ++ ·)).getD []) := by simp
    rw [e, before_append n]
    simp
  | none =>
    cases fragment with
    | none =>
      have e : did ++ path ++ ((none : Option Str).map ("?".toList ++ ·)).getD [] ++ ((none : Option Str).map ("#".toList ++ ·)).getD [] =
        did ++ path := by simp
      rw [e, before_self n]
      simp
    | some f =>
      have e : did ++ path ++ ((none : Option Str).map ("?".toList ++ ·)).getD [] ++ ((some f).map ("#".toList ++ ·)).getD [] =
        (did ++ path) ++ '#' :: f := by simp
      rw [e]
      constructor
      · intro g
        exfalso
        have : before '?' ((did ++ path) ++ '#' :: f) = (did ++ path) ++ '#' :: before '?' f := by
          unfold before
          rw [List.takeWhile_append_of_pos (by intro c hc; simp; rintro rfl; exact n hc)]
          rfl
        rw [this] at g
        have := congrArg List.length g
        simp at this
      · rintro ⟨_, g | g⟩
        · exact absurd rfl g
        · cases g

/-- A DID URL with all its parts. -/
theorem isDidUrl_sample : IsDidUrl "did:web:example.com%3A80:a/b/c?hl=x%20y&q=/?#z?".toList "did:web:example.com%3A80:a".toList
    "/b/c".toList (some "hl=x%20y&q=/?".toList) (some "z?".toList) := by
  have hch : ∀ t : Str, (∀ c ∈ t, IdChar c) → Encoded IdChar t := fun t h => .of_chars h
  have hq : ∀ t : Str, (∀ c ∈ t, PChar c ∨ c = '/' ∨ c = '?') → IsQuery t := fun t h => .of_chars h
  refine ⟨⟨"web".toList, ["example.com%3A80".toList], "a".toList, by decide, by decide, ?_, by decide, hch _ (by decide), by decide⟩,
    ⟨["b".toList, "c".toList], ?_, by decide⟩, ?_, ?_, by decide⟩
  · intro t ht
    rw [List.mem_singleton.mp ht]
    exact (hch "example.com".toList (by decide)).append (.pct (by decide) (by decide) (hch "80".toList (by decide)))
  · intro t ht
    rcases List.mem_pair.mp ht with rfl | rfl <;> exact .of_chars (by decide)
  · rintro _ ⟨⟩
    exact (hq "hl=x".toList (by decide)).append (.pct (by decide) (by decide) (hq "y&q=/?".toList (by decide)))
  · rintro _ ⟨⟩
    exact hq _ (by decide)

/-- Its path is taken for a part of the DID; without the path the DID is found. -/
example : DID.parseUri "did:web:example.com%3A80:a/b/c?hl=x%20y&q=/?#z?".toList =
    some (.ok ("did:web:example.com%3A80:a/b/c".toList, ⟨none, some "x%20y".toList⟩)) := by decide +kernel

/-- A space, a `#` and a letter outside of ASCII do not belong in a query, and their encoding does. -/
example : ¬ IsQuery "a b".toList ∧ ¬ IsQuery "a#b".toList ∧ ¬ IsQuery "é".toList ∧ ¬ IsQuery "100%".toList ∧
    pctEncode "a b#é/100%".toList = "a%20b%23%C3%A9%2F100%25".toList := by
  refine ⟨?_, ?_, ?_, ?_, by decide +kernel⟩
  · intro h; exact h.not_mem (c := ' ') (by decide) (by decide) (by decide) (by decide)
  · intro h; exact h.not_mem (c := '#') (by decide) (by decide) (by decide) (by decide)
  · intro h; exact h.not_mem (c := 'é') (by decide) (by decide) (by decide) (by decide)
  · intro h
    obtain ⟨_, h⟩ := (Encoded.cons_iff (by decide) _).mp h
    obtain ⟨_, h⟩ := (Encoded.cons_iff (by decide) _).mp h
    obtain ⟨_, h⟩ := (Encoded.cons_iff (by decide) _).mp h
    cases h with
    | char hc _ => exact absurd hc (by decide)

/-- A URI with an address of libp2p is a DID URL; with a fragment behind it the hashlink is another one. -/
example (d : DID Toy.env) : ∃ i uri q, d.identity = .ok i ∧
    d.buildUri (some ⟨some "/ip4/1.2.3.4/tcp/80".toList, some "zQ3".toList⟩) = .ok uri ∧ IsDidUrl uri i.value [] (some q) none ∧
    DID.parseUri (uri ++ "#key-1".toList) = some (.ok (i.value, ⟨some "/ip4/1.2.3.4/tcp/80".toList, some "zQ3#key-1".toList⟩)) := by
  obtain ⟨i, hi, _⟩ := C87_did d
  obtain ⟨uri, hu⟩ := C07_builds d ⟨some "/ip4/1.2.3.4/tcp/80".toList, some "zQ3".toList⟩ (by simp)
  have hq : ∀ t : Str, (∀ c ∈ t, PChar c ∨ c = '/' ∨ c = '?') → IsQuery t := fun t h => .of_chars h
  obtain ⟨q, h⟩ := (C87_url d i hi _ uri hu).mpr ⟨by rintro _ ⟨⟩; exact hq _ (by decide), by rintro _ ⟨⟩; exact hq _ (by decide)⟩
  refine ⟨i, uri, q, hi, hu, h, ?_⟩
  exact ((C87_fragment Toy.hashLaws d i hi _ uri "key-1".toList hu (by decide)).2.1 _ rfl
    (by rintro _ ⟨⟩; decide) (by rintro _ ⟨⟩; decide)).1

end Verif.Props
