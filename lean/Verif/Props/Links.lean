import Verif.Props.Syntax
import Verif.Props.Address

/-
C109: build_uri escapes nothing and parse_uri takes any text, so that values with `?`, `&` or `=` are cut or read as something
else (C07, C84), fragments become part of a hashlink and repeated or unknown parameters are skipped (C09, C87). A caller can mend
this on top of the two functions: it encodes the values first, and takes only texts that it would write itself
(core/src/did/mod.rs:80-121, core/src/did/query.rs:13-43).
-/

namespace Verif.Links
open Verif

def safe (c : Char) : Bool := c.isAlphanum || "-._~".toList.contains c

def digits : Str := "0123456789ABCDEF".toList

def pctOf (b : UInt8) : Str :=
  if decide (b.toNat < 128) && safe (Char.ofNat b.toNat) then [Char.ofNat b.toNat]
  else ['%', digits.getD (b.toNat / 16) '0', digits.getD (b.toNat % 16) '0']

/-- Percent-encoding of a value. -/
def pct (s : Str) : Str := (utf8Encode s).flatMap pctOf

def bytes : Str → Bytes
  | '%' :: a :: b :: r => UInt8.ofNat (digits.idxOf a * 16 + digits.idxOf b) :: bytes r
  | c :: r => UInt8.ofNat c.toNat :: bytes r
  | [] => []

/-- The value of an encoded text, if it is encoded as `pct` does. -/
def unpct (s : Str) : Option Str := (utf8Decode (bytes s)).filter fun t => pct t == s

def unpctOption : Option Str → Option (Option Str)
  | none => some none
  | some s => (unpct s).map some

/-- A DID of the library: `did:prople:` and the hexadecimal digits of 32 bytes in base58btc. -/
def didOk (E : Env) (did : Str) : Bool :=
  match (Identity.new E did).account with
  | .error _ => false
  | .ok payload =>
    match E.mbDecode payload with
    | some (.base58Btc, b) =>
      match (utf8Decode b).bind hexDecode with
      | some hash => hash.length == 32 && did == "did:prople:".toList ++ multibaseEncode58 (utf8Encode (hexEncode hash))
      | none => false
    | _ => false

/-- The text of a link. -/
def text (did : Str) : Params → Str
  | ⟨none, none⟩ => did
  | ⟨some a, none⟩ => did ++ "?address=".toList ++ pct a
  | ⟨none, some h⟩ => did ++ "?hl=".toList ++ pct h
  | ⟨some a, some h⟩ => did ++ "?address=".toList ++ pct a ++ "&hl=".toList ++ pct h

/-- `build_uri` with encoded values. -/
def make {E : Env} (d : DID E) : Params → Except DIDError Str
  | ⟨none, none⟩ => d.buildUri none
  | ⟨a, h⟩ => d.buildUri (some ⟨a.map pct, h.map pct⟩)

/-- `parse_uri`, taken only if the text is the link of what was read. -/
def read (E : Env) (uri : Str) : Option (Str × Params) :=
  match DID.parseUri uri with
  | some (.ok (did, p)) =>
    match unpctOption p.address, unpctOption p.hl with
    | some a, some h => if didOk E did && text did ⟨a, h⟩ == uri then some (did, ⟨a, h⟩) else none
    | _, _ => none
  | _ => none

end Verif.Links

namespace Verif.Spec
open Verif

/-- The DIDs that 32 bytes give. -/
def IsPropleDid (did : Str) : Prop :=
  ∃ (hash : Bytes) (hex payload : Str), hash.length = 32 ∧ IsHex hash hex ∧ IsMultibase58 (utf8 hex) payload ∧
    did = "did:prople:".toList ++ payload

/-- The link of a DID and parameters: the values percent-encoded (RFC 3986), address first. -/
inductive IsLink : Str → Params → Str → Prop where
  | bare {did} (h : IsPropleDid did) : IsLink did ⟨none, none⟩ did
  | address {did a} (h : IsPropleDid did) : IsLink did ⟨some a, none⟩ (did ++ "?address=".toList ++ pctEncode a)
  | hl {did l} (h : IsPropleDid did) : IsLink did ⟨none, some l⟩ (did ++ "?hl=".toList ++ pctEncode l)
  | both {did a l} (h : IsPropleDid did) :
    IsLink did ⟨some a, some l⟩ (did ++ "?address=".toList ++ pctEncode a ++ "&hl=".toList ++ pctEncode l)

end Verif.Spec

namespace Verif.Props
open Verif Spec Hashlink Links

/-! ### Values -/

theorem pctOf_eq (b : UInt8) : pctOf b = pctByte b := by
  unfold pctOf pctByte safe Unreserved digits
  simp only [Bool.and_eq_true, decide_eq_true_eq, Bool.or_eq_true, List.contains_iff_mem]
  exact if_congr Iff.rfl rfl rfl

theorem pct_eq (s : Str) : pct s = pctEncode s := by
  unfold pct pctEncode
  rw [utf8_eq]
  exact congrArg (fun f => List.flatMap f _) (funext pctOf_eq)

theorem bytes_eq (s : Str) : bytes s = pctDecode s := by
  fun_induction bytes s with
  | case1 a b r ih => rw [pctDecode, ih]; rfl
  | case2 c r hne ih => rw [pctDecode, ih]; exact hne
  | case3 => rfl

/-- C109: what is unpctd is the encoding of the value. -/
theorem unpct_iff (s t : Str) : unpct s = some t ↔ s = pctEncode t := by
  unfold unpct
  rw [Option.filter_eq_some_iff, beq_iff_eq, pct_eq, bytes_eq]
  constructor
  · rintro ⟨_, h⟩
    exact h.symm
  · rintro rfl
    refine ⟨?_, rfl⟩
    unfold pctEncode
    rw [unescape_escape]
    exact (utf8Decode_iff _ _).mpr rfl

theorem unpctOption_iff (s t : Option Str) : unpctOption s = some t ↔ s = t.map pctEncode := by
  cases s with
  | none => cases t <;> simp [unpctOption]
  | some s =>
    unfold unpctOption
    rw [Option.map_eq_some_iff]
    constructor
    · rintro ⟨a, h, rfl⟩
      rw [(unpct_iff s a).mp h]
      rfl
    · intro h
      cases t with
      | none => cases h
      | some t => exact ⟨t, (unpct_iff s t).mpr (Option.some.inj h), rfl⟩

/-! ### DIDs -/

theorem propleDid_account {E : Env} {did hex payload : Str} (h : IsMultibase58 (utf8 hex) payload)
    (e : did = "did:prople:".toList ++ payload) : (Identity.new E did).account = .ok payload := by
  have hp : ':' ∉ payload := fun m => (payload_safe h _ m).1 rfl
  have e' : did = "did".toList ++ ':' :: ("prople".toList ++ ':' :: payload) := by rw [e]; simp
  unfold Identity.account Identity.new DID_SYNTAX_MARK
  simp only
  rw [e', splitOn_append_sep (by decide), splitOn_append_sep (by decide), splitOn_of_not_mem hp]
  rfl

theorem didOk_iff (E : Env) (did : Str) : didOk E did = true ↔ IsPropleDid did := by
  constructor
  · intro h
    unfold didOk at h
    split at h
    · cases h
    split at h
    · split at h
      · rename_i hash _
        rw [Bool.and_eq_true, beq_iff_eq, beq_iff_eq] at h
        exact ⟨hash, _, _, h.1, hexEncode_spec _, by rw [← utf8_eq]; exact multibaseEncode58_spec _, h.2⟩
      · cases h
    · cases h
  · rintro ⟨hash, hex, payload, h1, h2, h3, h4⟩
    have hh := h2.unique
    have hp := h3.unique
    unfold didOk
    rw [propleDid_account h3 h4]
    have hm : E.mbDecode payload = some (.base58Btc, utf8 hex) := by rw [hp]; exact multibaseDecode_encode58 _ _ _
    simp only [hm]
    have hd : (utf8Decode (utf8 hex)).bind hexDecode = some hash := by
      rw [(utf8Decode_iff _ _).mpr rfl, hh]
      exact hexDecode_encode hash
    simp only [hd]
    rw [Bool.and_eq_true, beq_iff_eq, beq_iff_eq, h4, hp, hh, utf8_eq]
    exact ⟨h1, rfl⟩

theorem propleDid_safe {did : Str} (h : IsPropleDid did) : '?' ∉ did ∧ '#' ∉ did ∧ IsDid did := by
  obtain ⟨hash, hex, payload, _, _, h3, rfl⟩ := h
  refine ⟨?_, ?_, "prople".toList, [], payload, by decide, by decide, by simp, ?_, ?_, by simp⟩
  · rw [List.mem_append, not_or]
    exact ⟨by decide, fun m => (payload_safe h3 _ m).2.1 rfl⟩
  · rw [List.mem_append, not_or]
    exact ⟨by decide, fun m => (payload_safe h3 _ m).2.2.2.2 rfl⟩
  · rw [h3.unique]; exact List.cons_ne_nil _ _
  · rw [h3.unique]
    refine .of_chars fun c hc => ?_
    rcases List.mem_cons.mp hc with rfl | hc
    · decide
    · exact base58_idchar c (base58Encode_chars _ c hc)

/-! ### Links -/

theorem isLink_iff (did : Str) (p : Params) (uri : Str) : IsLink did p uri ↔ IsPropleDid did ∧ uri = text did p := by
  obtain ⟨a, l⟩ := p
  constructor
  · intro h
    cases h <;> exact ⟨by assumption, by simp only [text, pct_eq]⟩
  · rintro ⟨h, rfl⟩
    cases a <;> cases l <;> simp only [text, pct_eq]
    · exact .bare h
    · exact .hl h
    · exact .address h
    · exact .both h

/-- C109: `parse_uri` finds in a link the DID and the encoded values. -/
theorem C109_library {did : Str} {p : Params} {uri : Str} (h : IsLink did p uri) :
    DID.parseUri uri = some (.ok (did, ⟨p.address.map pctEncode, p.hl.map pctEncode⟩)) := by
  rw [parseUri_spec]
  have amp : ∀ (k v : Str) (c : Char), c ∉ k → c ≠ '=' → c ∉ v → c ∉ k ++ '=' :: v := by
    intro k v c h1 h2 h3
    simp [h1, h2, h3]
  have comm : ∀ (did q : Str), '?' ∉ did → '?' ∉ q → before '?' (did ++ '?' :: q) = did ∧ ∀ k, param k (did ++ '?' :: q) =
      ((splitOn '&' q).filterMap (segmentValue k)).getLast? := by
    intro did q hq hq'
    refine ⟨before_append hq _, fun k => ?_⟩
    unfold param
    rw [after_append hq, before_self hq', splitOn_core]
  have clean : ∀ a, '?' ∉ pctEncode a ∧ '&' ∉ pctEncode a ∧ '=' ∉ pctEncode a := fun a => escape_clean (some a) _ rfl
  cases h with
  | bare h =>
    have n := (propleDid_safe h).1
    have hp : ∀ k : Str, param k did = none := by
      intro k
      have e : after '?' did = [] := by
        rcases split_cases '?' did with ⟨_, _, h⟩ | ⟨h, _, _⟩
        · exact h.1
        · rw [h] at n; simp at n
      unfold param
      rw [e, before_self (by simp)]
      simp [segmentValue]
    rw [before_self n, hp, hp]
    rfl
  | @address a h =>
    obtain ⟨d1, d2, d3⟩ := clean a
    have eu : did ++ "?address=".toList ++ pctEncode a = did ++ '?' :: ("address".toList ++ '=' :: pctEncode a) := by simp
    obtain ⟨b1, b2⟩ := comm did ("address".toList ++ '=' :: pctEncode a) (propleDid_safe h).1 (amp _ _ _ (by decide) (by decide) d1)
    rw [eu, b1, b2, b2, splitOn_of_not_mem (amp _ _ _ (by decide) (by decide) d2)]
    simp only [List.filterMap_cons, List.filterMap_nil, segmentValue_assign (by decide : '=' ∉ "address".toList) d3]
    rfl
  | @hl a h =>
    obtain ⟨d1, d2, d3⟩ := clean a
    have eu : did ++ "?hl=".toList ++ pctEncode a = did ++ '?' :: ("hl".toList ++ '=' :: pctEncode a) := by simp
    obtain ⟨b1, b2⟩ := comm did ("hl".toList ++ '=' :: pctEncode a) (propleDid_safe h).1 (amp _ _ _ (by decide) (by decide) d1)
    rw [eu, b1, b2, b2, splitOn_of_not_mem (amp _ _ _ (by decide) (by decide) d2)]
    simp only [List.filterMap_cons, List.filterMap_nil, segmentValue_assign (by decide : '=' ∉ "hl".toList) d3]
    rfl
  | @both a l h =>
    obtain ⟨d1, d2, d3⟩ := clean a
    obtain ⟨c1, c2, c3⟩ := clean l
    have eu : did ++ "?address=".toList ++ pctEncode a ++ "&hl=".toList ++ pctEncode l =
        did ++ '?' :: (("address".toList ++ '=' :: pctEncode a) ++ '&' :: ("hl".toList ++ '=' :: pctEncode l)) := by simp
    obtain ⟨b1, b2⟩ := comm did (("address".toList ++ '=' :: pctEncode a) ++ '&' :: ("hl".toList ++ '=' :: pctEncode l))
      (propleDid_safe h).1 (by
        have := amp "address".toList (pctEncode a) '?' (by decide) (by decide) d1
        have := amp "hl".toList (pctEncode l) '?' (by decide) (by decide) c1
        simp only [List.mem_append, List.mem_cons, not_or] at *
        exact ⟨by assumption, by decide, by assumption⟩)
    rw [eu, b1, b2, b2, splitOn_append_sep (amp _ _ _ (by decide) (by decide) d2),
      splitOn_of_not_mem (amp _ _ _ (by decide) (by decide) c2)]
    simp only [List.filterMap_cons, List.filterMap_nil,
      segmentValue_assign (by decide : '=' ∉ "hl".toList) c3,
      segmentValue_assign (by decide : '=' ∉ "address".toList) d3]
    rfl

/-- C109: the caller reads exactly the links. -/
theorem C109_read (E : Env) (uri did : Str) (p : Params) : Links.read E uri = some (did, p) ↔ IsLink did p uri := by
  constructor
  · intro h
    unfold Links.read at h
    split at h
    · split at h
      · split at h
        · rename_i hc
          rw [Bool.and_eq_true, beq_iff_eq, didOk_iff] at hc
          cases h
          exact (isLink_iff _ _ _).mpr ⟨hc.1, hc.2.symm⟩
        · cases h
      · cases h
    · cases h
  · intro h
    have hp := C109_library h
    obtain ⟨h1, h2⟩ := (isLink_iff _ _ _).mp h
    unfold Links.read
    rw [hp]
    simp only [(unpctOption_iff _ _).mpr rfl]
    rw [if_pos]
    rw [Bool.and_eq_true, beq_iff_eq, didOk_iff]
    exact ⟨h1, h2.symm⟩

/-- C109: the caller makes the link of its DID, for parameters of any content. -/
theorem C109_make {E : Env} (H : E.HashLaws) (d : DID E) (i : Identity E) (hi : d.identity = .ok i) (p : Params) (uri : Str) :
    Links.make d p = .ok uri ↔ IsLink i.value p uri := by
  obtain ⟨i', hi', h, _, h1, h2, h3⟩ := C10_build_uri d
  rw [hi] at hi'; cases hi'
  obtain ⟨_, hex, payload, hi', hd, _⟩ := identity_isDid d
  rw [hi] at hi'; cases hi'
  have hv : IsPropleDid i.value := ⟨_, hex, payload, H.blake3_len _, hd.hex_eq, hd.payload_eq, hd.did_eq⟩
  have key : Links.make d p = .ok (text i.value p) := by
    obtain ⟨a, l⟩ := p
    cases a with
    | none =>
      cases l with
      | none => exact h
      | some l => exact h2 _
    | some a =>
      cases l with
      | none => exact h1 _
      | some l => exact h3 _ _
  rw [key, isLink_iff, Except.ok.injEq]
  exact ⟨fun e => ⟨hv, e.symm⟩, fun e => e.2.symm⟩

/-- C109: what is made is read, whatever the values contain. -/
theorem C109_roundtrip {E : Env} (H : E.HashLaws) (d : DID E) (p : Params) :
    ∃ i uri, d.identity = .ok i ∧ Links.make d p = .ok uri ∧ Links.read E uri = some (i.value, p) := by
  obtain ⟨i, _, _, hi, _⟩ := identity_isDid d
  obtain ⟨_, hex, payload, hi', hd, _⟩ := identity_isDid d
  rw [hi] at hi'; cases hi'
  have h := (isLink_iff i.value p _).mpr ⟨⟨_, hex, payload, H.blake3_len _, hd.hex_eq, hd.payload_eq, hd.did_eq⟩, rfl⟩
  exact ⟨i, _, hi, (C109_make H d i hi p _).mpr h, (C109_read E _ _ _).mpr h⟩

/-- C109: a link says one thing, in one way. -/
theorem C109_unique {did did' : Str} {p p' : Params} {uri uri' : Str} (h : IsLink did p uri) (h' : IsLink did' p' uri') :
    uri = uri' ↔ did = did' ∧ p = p' := by
  constructor
  · rintro rfl
    have a := (C109_read Toy.env uri did p).mpr h
    rw [(C109_read Toy.env uri did' p').mpr h'] at a
    cases a
    exact ⟨rfl, rfl⟩
  · rintro ⟨rfl, rfl⟩
    rw [((isLink_iff _ _ _).mp h).2, ((isLink_iff _ _ _).mp h').2]

/-- C109: a link is a DID URL by DID Core of its DID, without path and fragment; it has a query exactly if there are parameters. -/
theorem C109_url {did : Str} {p : Params} {uri : Str} (h : IsLink did p uri) :
    (∃ query, IsDidUrl uri did [] query none ∧ (query = none ↔ p = ⟨none, none⟩)) ∧ '#' ∉ uri := by
  have ka : ∀ a, IsQuery ("address=".toList ++ pctEncode a) := fun a =>
    (Encoded.of_chars (by intro c hc; exact .inl (by revert c; decide))).append (escape_query a)
  have kl : ∀ a, IsQuery ("hl=".toList ++ pctEncode a) := fun a =>
    (Encoded.of_chars (by intro c hc; exact .inl (by revert c; decide))).append (escape_query a)
  have km : IsQuery ("&".toList) := Encoded.of_chars (by intro c hc; exact .inl (by revert c; decide))
  have nq : ∀ q, IsQuery q → '#' ∉ q := fun q hq => hq.not_mem (by decide) (by decide) (by decide)
  have key : ∀ did q, IsPropleDid did → IsQuery q → uri = did ++ '?' :: q → IsDidUrl uri did [] (some q) none ∧ '#' ∉ uri := by
    intro did q hd hq e
    obtain ⟨_, s2, s3⟩ := propleDid_safe hd
    refine ⟨⟨s3, isPath_nil, by rintro _ ⟨⟩; exact hq, by simp, by rw [e]; simp⟩, ?_⟩
    rw [e, List.mem_append, List.mem_cons, not_or, not_or]
    exact ⟨s2, by decide, nq q hq⟩
  cases h with
  | bare h =>
    obtain ⟨_, s2, s3⟩ := propleDid_safe h
    exact ⟨⟨none, ⟨s3, isPath_nil, by simp, by simp, by simp⟩, by simp⟩, s2⟩
  | @address a h =>
    obtain ⟨h1, h2⟩ := key did _ h (ka a) (by simp)
    exact ⟨⟨_, h1, by simp⟩, h2⟩
  | @hl l h =>
    obtain ⟨h1, h2⟩ := key did _ h (kl l) (by simp)
    exact ⟨⟨_, h1, by simp⟩, h2⟩
  | @both a l h =>
    obtain ⟨h1, h2⟩ := key did _ h (((ka a).append km).append (kl l)) (by simp)
    exact ⟨⟨_, h1, by simp⟩, h2⟩

theorem encoded_chars {x : Str} (h : Encoded Unreserved x) : ∀ c ∈ x, Unreserved c ∨ c = '%' := by
  have hex : ∀ c, HexDig c → Unreserved c := by
    intro c hc
    unfold HexDig at hc
    revert c
    decide
  induction h with
  | nil => simp
  | char hc _ ih => exact List.forall_mem_cons.mpr ⟨.inl hc, ih⟩
  | pct ha hb _ ih =>
    exact List.forall_mem_cons.mpr ⟨.inr rfl, List.forall_mem_cons.mpr ⟨.inl (hex _ ha), List.forall_mem_cons.mpr ⟨.inl (hex _ hb), ih⟩⟩⟩

/-- C109: a link consists of letters, digits and `-._~:?&=%`: no blank, quotation mark or bracket ends it where it stands in a text. -/
theorem C109_chars {did : Str} {p : Params} {uri : Str} (h : IsLink did p uri) :
    ∀ c ∈ uri, c.isAlphanum = true ∨ c ∈ "-._~:?&=%".toList := by
  have hd : ∀ did, IsPropleDid did → ∀ c ∈ did, c.isAlphanum = true ∨ c ∈ "-._~:?&=%".toList := by
    rintro _ ⟨_, _, payload, _, _, h3, rfl⟩ c hc
    rcases List.mem_append.mp hc with hc | hc
    · exact (show ∀ c ∈ "did:prople:".toList, c.isAlphanum = true ∨ c ∈ "-._~:?&=%".toList by decide) c hc
    · rw [h3.unique] at hc
      rcases List.mem_cons.mp hc with rfl | hc
      · decide
      · exact (base58_idchar c (base58Encode_chars _ c hc)).imp_right
          ((show ∀ c ∈ ".-_".toList, c ∈ "-._~:?&=%".toList by decide) c)
  have hv : ∀ a, ∀ c ∈ pctEncode a, c.isAlphanum = true ∨ c ∈ "-._~:?&=%".toList := by
    intro a c hc
    rcases encoded_chars (escape_encoded (utf8 a)) c hc with h | rfl
    · exact h.imp_right fun e => List.Sublist.subset (l₁ := "-._~".toList) (by decide) e
    · decide
  have hk : ∀ k ∈ ["?address=".toList, "?hl=".toList, "&hl=".toList], ∀ c ∈ k, c.isAlphanum = true ∨ c ∈ "-._~:?&=%".toList := by decide
  intro c hc
  cases h with
  | bare h => exact hd _ h c hc
  | address h =>
    simp only [List.mem_append] at hc
    rcases hc with (hc | hc) | hc
    · exact hd _ h c hc
    · exact hk _ (by simp) c hc
    · exact hv _ c hc
  | hl h =>
    simp only [List.mem_append] at hc
    rcases hc with (hc | hc) | hc
    · exact hd _ h c hc
    · exact hk _ (by simp) c hc
    · exact hv _ c hc
  | both h =>
    simp only [List.mem_append] at hc
    rcases hc with (((hc | hc) | hc) | hc) | hc
    · exact hd _ h c hc
    · exact hk _ (by simp) c hc
    · exact hv _ c hc
    · exact hk _ (by simp) c hc
    · exact hv _ c hc

/-- C109: so nothing with a path, a fragment, a blank or another character is read. -/
theorem C109_refused (E : Env) (uri : Str) (c : Char) (hc : c ∈ uri) (h : c.isAlphanum = false) (h' : c ∉ "-._~:?&=%".toList) :
    Links.read E uri = none := by
  cases hr : Links.read E uri with
  | none => rfl
  | some r =>
    obtain ⟨did, p⟩ := r
    rcases C109_chars ((C109_read E uri did p).mp hr) c hc with e | e
    · rw [h] at e; cases e
    · exact (h' e).elim

/-! ### What links carry -/

/-- C109: an address in a link comes back with its components, host names of any content included. -/
theorem C109_address {E : Env} (H : E.HashLaws) {parts : E.Multiaddr → List AddrPart} (C : CrateAddrs E parts) (d : DID E)
    (ps : List AddrPart) (t : Str) (ht : t ≠ []) (h : IsAddress ps t) (link : Option Str) :
    ∃ i uri p m, d.identity = .ok i ∧ Links.make d ⟨some t, link⟩ = .ok uri ∧ Links.read E uri = some (i.value, p) ∧ p.hl = link ∧
      p.parseMultiaddr E = .ok (some m) ∧ parts m = ps := by
  obtain ⟨i, uri, h1, h2, h3⟩ := C109_roundtrip H d ⟨some t, link⟩
  obtain ⟨m, hm, hp⟩ := (C84_addresses C t ht link).1 ps h
  exact ⟨i, uri, _, m, h1, h2, h3, rfl, hm, hp⟩

/-- C109: whoever takes key and data by a link has the key of its maker and the data of the hashlink, or a collision. -/
theorem C109_trust {E : Env} (H : E.HashLaws) (d d' : DID E) (v w : JSONValue) (l : Str) (a : Option Str) (uri did : Str) (p : Params)
    (l' : Str) (i' : Identity E) (hg : generateFromJson E (.ok v) = .ok l) (hm : Links.make d ⟨a, some l⟩ = .ok uri)
    (hr : Links.read E uri = some (did, p)) (hl : p.hl = some l') (hi : d'.identity = .ok i') (hd : i'.value = did)
    (hv : verifyFromJson E (.ok w) l' = .ok ()) :
    p.address = a ∧
    (v.text = w.text ∨ (utf8 v.text ≠ utf8 w.text ∧ E.blake3 (utf8 v.text) = E.blake3 (utf8 w.text))) ∧
    (E.edPubBytes d.account.pubkey = E.edPubBytes d'.account.pubkey ∨
      (E.edPubBytes d.account.pubkey ≠ E.edPubBytes d'.account.pubkey ∧
        E.sha384 (E.edPubBytes d.account.pubkey) = E.sha384 (E.edPubBytes d'.account.pubkey)) ∨
      (E.sha384 (E.edPubBytes d.account.pubkey) ≠ E.sha384 (E.edPubBytes d'.account.pubkey) ∧
        E.blake3 (E.sha384 (E.edPubBytes d.account.pubkey)) = E.blake3 (E.sha384 (E.edPubBytes d'.account.pubkey)))) := by
  obtain ⟨i, uri', h1, h2, h3⟩ := C109_roundtrip H d ⟨a, some l⟩
  rw [hm] at h2; cases h2
  rw [h3] at hr; cases hr
  cases hl
  exact ⟨rfl, C22_integrity H v w l hg hv, C05_did_identifies_key d d' i i' h1 hi hd.symm⟩

/-! ### Examples -/

/-- A host name that would bring in a hashlink (`C84_injected`) and a value with a fragment and a blank come back. -/
example : ∃ i uri, (DID.new Toy.env (7 : UInt8)).identity = .ok i ∧
    Links.make (DID.new Toy.env (7 : UInt8)) ⟨some "/dns4/example.com&hl=zQm".toList, some "a b#c=d?e%".toList⟩ = .ok uri ∧
    Links.read Toy.env uri = some (i.value, ⟨some "/dns4/example.com&hl=zQm".toList, some "a b#c=d?e%".toList⟩) :=
  C109_roundtrip Toy.hashLaws _ _

example : pct "/dns4/a&hl=z".toList = "%2Fdns4%2Fa%26hl%3Dz".toList ∧ unpct "%2Fdns4%2Fa%26hl%3Dz".toList = some "/dns4/a&hl=z".toList ∧
    unpct "%2fdns4".toList = none ∧ unpct "/dns4".toList = none ∧ unpct "%41".toList = none ∧ unpct "%FF".toList = none ∧
    unpct "%E2%82%AC".toList = some "€".toList ∧ unpct "a%4".toList = none := by
  refine ⟨?_, ?_, ?_, ?_, ?_, ?_, ?_, ?_⟩ <;> decide +kernel

/-- `C109_url`, `C109_chars`, `C109_library`: there are links. -/
example : ∃ did uri, IsLink did ⟨none, some "zQm".toList⟩ uri := by
  obtain ⟨i, uri, _, _, h⟩ := C109_roundtrip Toy.hashLaws (DID.new Toy.env (7 : UInt8)) ⟨none, some "zQm".toList⟩
  exact ⟨i.value, uri, (C109_read _ _ _ _).mp h⟩

/-- `C109_refused`: a link with a fragment. -/
example (uri f : Str) : Links.read Toy.env (uri ++ '#' :: f) = none :=
  C109_refused Toy.env _ '#' (by simp) (by decide) (by decide)

/-- Texts that `parse_uri` takes and the caller refuses. -/
example : (∃ did p, DID.parseUri "x?hl=a&hl=b&other".toList = some (.ok (did, p))) ∧
    Links.read Toy.env "x?hl=a&hl=b&other".toList = none ∧ Links.read Toy.env "did:prople:zabc?hl=a".toList = none :=
  ⟨⟨_, _, rfl⟩, by decide +kernel, by decide +kernel⟩

/-- `C109_address` with a host name of this kind. -/
example : ∃ i uri p m, (DID.new (addressed Toy.env) (7 : UInt8)).identity = .ok i ∧
    Links.make (DID.new (addressed Toy.env) (7 : UInt8)) ⟨some "/dns4/a&hl=z".toList, none⟩ = .ok uri ∧
    Links.read (addressed Toy.env) uri = some (i.value, p) ∧ p.hl = none ∧
    p.parseMultiaddr (addressed Toy.env) = .ok (some m) ∧ m = [⟨"dns4".toList, .text "a&hl=z".toList⟩] :=
  C109_address (E := addressed Toy.env) ⟨Toy.hashLaws.1, Toy.hashLaws.2, Toy.hashLaws.3⟩ (addressed_crate Toy.env) _ _ _ (by decide)
    ((Multiaddr.parse_iff _ _).mp (by decide +kernel)) none

/-- The hypotheses of `C109_trust` are met. -/
example (v : JSONValue) : ∃ l uri did p i, generateFromJson Toy.env (.ok v) = .ok l ∧
    Links.make (DID.new Toy.env (7 : UInt8)) ⟨none, some l⟩ = .ok uri ∧ Links.read Toy.env uri = some (did, p) ∧ p.hl = some l ∧
    (DID.new Toy.env (7 : UInt8)).identity = .ok i ∧ i.value = did ∧ verifyFromJson Toy.env (.ok v) l = .ok () := by
  obtain ⟨l, h1, h2⟩ := (C20_roundtrip Toy.hashLaws (.ok v)).1 v rfl
  obtain ⟨i, uri, h3, h4, h5⟩ := C109_roundtrip Toy.hashLaws (DID.new Toy.env (7 : UInt8)) ⟨none, some l⟩
  exact ⟨l, uri, _, _, i, h1, h4, h5, rfl, h3, rfl, h2⟩

end Verif.Props
