import Verif.Props.Careful
import Verif.Props.Traces

/-
C102: the DID as the only thing a verifier has to know.

By C75 the library's documents do not show who controls a DID, so C69 starts from a URI with a hashlink. The programs
`Careful.endorse`, `Careful.openDoc` and `Careful.keyOf` are callers, not part of /repo: the owner signs the text of the
document with the account key (`Account::signature`, core/src/account/mod.rs:117-119), whose hash is the DID
(core/src/did/mod.rs:59-78), and hands out the public key and the signature along with the text. A reader finds keys in
whatever collection of such bundles it received, from whomever, and gives them to the careful reader of C101.
-/

namespace Verif.Careful
open Verif Props

/-- A document text with the account's public key and signature. -/
structure Endorsed where
  text : Bytes
  key : Bytes
  mark : Str

/-- What is put before the text to be signed: longer than the 64 bytes signed for credentials and presentations. -/
def tag : Bytes := utf8Encode "This account, whose public key has the DID, endorses the DID document: ".toList

/-- The owner endorses the document of an identity. -/
def endorse {E : Env} (d : DID E) (i : Identity E) : Option Endorsed :=
  match i.toDoc.toJson E with
  | .ok t => some ⟨utf8Encode t.text, E.edPubBytes d.account.pubkey,
      hexEncode (d.account.sign (tag ++ utf8Encode t.text))⟩
  | .error _ => none

/-- The DID of a public key. -/
def didOf (E : Env) (pub : E.EdPub) : Str :=
  "did:prople:".toList ++ multibaseEncode58 (utf8Encode (hexEncode (E.blake3 (E.sha384 (E.edPubBytes pub)))))

/-- The document of a bundle, if it is endorsed by the key of the DID. -/
def openDoc (E : Env) (did : Str) (b : Endorsed) : Option Doc :=
  match E.edPubOfBytes b.key with
  | none => none
  | some pub =>
    match E.edVerify pub (tag ++ b.text) b.mark, fromSlice Doc.dec b.text with
    | .ok true, some doc => if didOf E pub = did then some doc else none
    | _, _ => none

/-- The Ed25519 key of the entry with this identifier. -/
def entryKey (E : Env) (method : Str) (e : Primary) : Option E.EdPub :=
  if e.id = method then
    match e.decodePubKey E with
    | .ok (.edDSA k) => some k
    | _ => none
  else none

/-- The key of a verification method: looked up in the documents endorsed by the DID before the '#'. -/
def keyOf (E : Env) (store : List Endorsed) (method : Str) : Option E.EdPub :=
  store.findSome? fun b =>
    match openDoc E (method.takeWhile (· != '#')) b with
    | none => none
    | some doc => (doc.authentication.getD [] ++ doc.assertion.getD []).findSome? (entryKey E method)

/-- The policy of a reader with a clock and received bundles. -/
def anchored {E : Env} (expired : Str → Bool) (store : List Endorsed) : Policy E := ⟨expired, keyOf E store⟩

end Verif.Careful

namespace Verif.Props
open Verif Spec Careful

/-! ### What happens -/

/-- What happens, in order. -/
inductive Deed (E : Env) (J : Type) where
  /-- party `j` endorses the document of an identity of its DID after these calls -/
  | endorse (j : J) (ops : List (IdOp E))
  /-- party `j` uses its account key otherwise -/
  | account (j : J) (u : KeyUse E)
  /-- party `j` uses the verification key made from `s` -/
  | use (j : J) (s : MethodSeed E) (u : KeyUse E)
  /-- someone reads bytes, with bundles received from anyone -/
  | read (store : List Endorsed) (bs : Bytes) (aim : ProofPurpose)

/-- `did` is the DID of the account. -/
def Owns {E : Env} (d : DID E) (did : Str) : Prop := ∃ i, d.identity = .ok i ∧ i.value = did

/-- The text of the document of an identity with this DID after the calls. -/
def docText (E : Env) (did : Str) (ops : List (IdOp E)) : Bytes := utf8 (jsonText E (idRun did ops).toDoc.toTree)

/-- Before event `n` party `j` endorsed a document in which the method has this key: the key of one of its slots. -/
def Vouched {E : Env} {J : Type} (tr : List (Deed E J)) (n : Nat) (j : J) (did method : Str) (pub : E.EdPub)
    (s : MethodSeed E) : Prop :=
  ∃ (k : Nat) (ops : List (IdOp E)), k < n ∧ tr[k]? = some (.endorse j ops) ∧ pub = E.edPub (E.edGenerate s.ed) ∧
    ((method = did ++ "#key-auth-verification".toList ∧ firstAuth ops = some s) ∨
      (method = did ++ "#key-assertion-verification".toList ∧ firstAssertion ops = some s))

/-- The message was signed with the account key before event `n`. -/
def AccountSigned {E : Env} {J : Type} (did : J → DID E) (tr : List (Deed E J)) (n : Nat) (j : J) (m : Bytes) : Prop :=
  ∃ k, k < n ∧ ((∃ ops i, tr[k]? = some (.endorse j ops) ∧ (did j).identity = .ok i ∧ m = tag ++ docText E i.value ops) ∨
    ∃ u, tr[k]? = some (.account j u) ∧ u.Signs (did j).account.pair m)

/-- What can go wrong with the bundles. -/
inductive Cheated {E : Env} {J : Type} (did : J → DID E) (tr : List (Deed E J)) (n : Nat) (j : J) (b : Endorsed) : Prop where
  /-- another public key has the same DID, because a hash collides -/
  | collision (pub : E.EdPub) (h : E.edPubOfBytes b.key = some pub)
      (ne : E.edPubBytes pub ≠ E.edPubBytes (did j).account.pubkey)
      (same : E.sha384 (E.edPubBytes pub) = E.sha384 (E.edPubBytes (did j).account.pubkey) ∨
        (E.sha384 (E.edPubBytes pub) ≠ E.sha384 (E.edPubBytes (did j).account.pubkey) ∧
          E.blake3 (E.sha384 (E.edPubBytes pub)) = E.blake3 (E.sha384 (E.edPubBytes (did j).account.pubkey))))
  /-- the account key was asked to sign the tagged text as raw bytes -/
  | raw (k : Nat) (h : k < n) (e : tr[k]? = some (.account j (.raw (tag ++ b.text))))
  /-- a signature of the account key on something it never signed -/
  | forged (h : E.edVerify (did j).account.pubkey (tag ++ b.text) b.mark = .ok true)
      (h' : ¬ AccountSigned did tr n j (tag ++ b.text))

/-- Use `u` of a verification key with public key `pub`, before event `n`. -/
def UsedKey {E : Env} {J : Type} (tr : List (Deed E J)) (n : Nat) (pub : E.EdPub) (j : J) (s : MethodSeed E)
    (u : KeyUse E) : Prop :=
  ∃ k, k < n ∧ tr[k]? = some (.use j s u) ∧ E.edPub (E.edGenerate s.ed) = pub

/-- How a signature with options `o` on `d` under `pub` came about, if the document was not signed. -/
inductive Stolen {E : Env} {J : Type} (tr : List (Deed E J)) (n : Nat) (pub : E.EdPub) (o d : Bytes) (text : Str) : Prop where
  /-- just this message was signed as raw bytes -/
  | raw (j : J) (s : MethodSeed E) (h : UsedKey tr n pub j s (.raw (message E o d)))
  /-- no key with this public key was used on the message -/
  | forged (h : Accepts E pub (message E o d) text)
      (h' : ∀ j s u, UsedKey tr n pub j s u → ¬ u.Signs (E.edGenerate s.ed) (message E o d))
  /-- SHA-256 collides -/
  | collision (j : J) (s : MethodSeed E) (u : KeyUse E) (h : UsedKey tr n pub j s u) (h' : u.Collides o d)

/-! ### The bundles -/

theorem tag_length : 64 < tag.length := by decide +kernel

theorem openDoc_iff (E : Env) (did : Str) (b : Endorsed) (doc : Doc) : openDoc E did b = some doc ↔
    ∃ pub, E.edPubOfBytes b.key = some pub ∧ didOf E pub = did ∧ E.edVerify pub (tag ++ b.text) b.mark = .ok true ∧
      fromSlice Doc.dec b.text = some doc := by
  unfold openDoc
  cases hk : E.edPubOfBytes b.key with
  | none => simp
  | some pub =>
    simp only [Option.some.injEq]
    constructor
    · intro h
      split at h
      · rename_i h1 h2
        split at h
        · rename_i h3
          cases h
          exact ⟨pub, rfl, h3, h1, h2⟩
        · cases h
      · cases h
    · rintro ⟨_, rfl, h1, h2, h3⟩
      rw [h2, h3]
      simp only
      rw [if_pos h1]

theorem entryKey_iff (E : Env) (method : Str) (e : Primary) (k : E.EdPub) :
    entryKey E method e = some k ↔ e.id = method ∧ e.decodePubKey E = .ok (.edDSA k) := by
  unfold entryKey
  split
  · rename_i h
    simp only [h, true_and]
    split
    · rename_i k' h'
      rw [h']
      simp
    · rename_i h'
      constructor
      · intro h; cases h
      · intro h; exact (h' k h).elim
  · rename_i h
    constructor
    · intro g; cases g
    · intro g; exact (h g.1).elim

theorem didOf_owns {E : Env} (d : DID E) : Owns d (didOf E d.account.pubkey) := ⟨_, rfl, rfl⟩

theorem owns_iff {E : Env} (d : DID E) (did : Str) : Owns d did ↔ did = didOf E d.account.pubkey := by
  constructor
  · rintro ⟨i, h, rfl⟩
    cases h
    rfl
  · rintro rfl
    exact didOf_owns d

theorem didOf_isDid (E : Env) (pub : E.EdPub) : ∃ hex payload, IsDidOf E pub hex payload (didOf E pub) :=
  ⟨_, _, hexEncode_spec _, by rw [utf8_eq]; exact multibaseEncode58_spec _, rfl⟩

/-- Equal DIDs: equal public keys or a collision. -/
theorem didOf_inj {E : Env} {p q : E.EdPub} (h : didOf E p = didOf E q) :
    E.edPubBytes p = E.edPubBytes q ∨ (E.edPubBytes p ≠ E.edPubBytes q ∧
      (E.sha384 (E.edPubBytes p) = E.sha384 (E.edPubBytes q) ∨
        (E.sha384 (E.edPubBytes p) ≠ E.sha384 (E.edPubBytes q) ∧
          E.blake3 (E.sha384 (E.edPubBytes p)) = E.blake3 (E.sha384 (E.edPubBytes q))))) := by
  have e3 : E.blake3 (E.sha384 (E.edPubBytes p)) = E.blake3 (E.sha384 (E.edPubBytes q)) :=
    hexEncode_injective (utf8Encode_injective (multibaseEncode58_injective (List.append_cancel_left h)))
  by_cases hb : E.edPubBytes p = E.edPubBytes q
  · exact .inl hb
  · refine .inr ⟨hb, ?_⟩
    by_cases hs : E.sha384 (E.edPubBytes p) = E.sha384 (E.edPubBytes q)
    · exact .inl hs
    · exact .inr ⟨hs, e3⟩

theorem docText_eq {E : Env} (did : Str) (ops : List (IdOp E)) :
    (idRun did ops).toDoc.toJson E = .ok ⟨jsonText E (idRun did ops).toDoc.toTree⟩ := rfl

theorem docText_reads {E : Env} (N : E.NumLaws) (did : Str) (ops : List (IdOp E)) :
    fromSlice Doc.dec (docText E did ops) = some (idRun did ops).toDoc := by
  unfold docText
  rw [utf8_eq, fromSlice_text N]
  exact Doc.dec_toTree _ _ 128 (by omega)

/-- What the owner hands out. -/
theorem endorse_eq {E : Env} (d : DID E) (i : Identity E) (hi : d.identity = .ok i) (ops : List (IdOp E)) :
    endorse d (ops.foldl IdOp.apply i) = some ⟨docText E i.value ops, E.edPubBytes d.account.pubkey,
      hexEncode (E.edSign d.account.pair (tag ++ docText E i.value ops))⟩ := by
  have e : ops.foldl IdOp.apply i = idRun i.value ops := by
    unfold idRun
    rw [← identity_new hi]
  rw [e]
  unfold endorse docText
  rw [docText_eq i.value ops]
  simp only [Account.sign, utf8_eq]

theorem endorse_some {E : Env} (d : DID E) (i : Identity E) (hi : d.identity = .ok i) (ops : List (IdOp E)) :
    ∃ b, endorse d (ops.foldl IdOp.apply i) = some b ∧ b.text = docText E i.value ops ∧
      b.key = E.edPubBytes d.account.pubkey := by
  have h := endorse_eq d i hi ops
  generalize docText E i.value ops = x at h ⊢
  generalize tag ++ x = m at h
  exact ⟨_, h, rfl, rfl⟩

/-- The keys of the entries of the document of an identity. -/
theorem entries_key {E : Env} (K : E.EdLaws) (did method : Str) (ops : List (IdOp E)) (e : Primary) (pub : E.EdPub)
    (he : e ∈ (idRun did ops).toDoc.authentication.getD [] ++ (idRun did ops).toDoc.assertion.getD [])
    (hk : entryKey E method e = some pub) :
    ∃ s, pub = E.edPub (E.edGenerate s.ed) ∧
      ((method = did ++ "#key-auth-verification".toList ∧ firstAuth ops = some s) ∨
        (method = did ++ "#key-assertion-verification".toList ∧ firstAssertion ops = some s)) := by
  obtain ⟨hid, hd⟩ := (entryKey_iff _ _ _ _).mp hk
  obtain ⟨_, _, _, _, e5, e6, _⟩ := C12_document did ops
  have key : ∀ {s : Option (MethodSeed E)} {l : Option (List Primary)} {a b : Str}, EntriesIs E did a b s l →
      e ∈ l.getD [] → ∃ s', s = some s' ∧ pub = E.edPub (E.edGenerate s'.ed) ∧ method = did ++ a := by
    intro s l a b h hl
    cases s with
    | none => rw [show l = none from h] at hl; cases hl
    | some s =>
      obtain ⟨l', e, ⟨kv, ka, el, k1, _⟩⟩ := h
      rw [e, el] at hl
      simp only [Option.getD_some, List.mem_cons, List.not_mem_nil, or_false] at hl
      rcases hl with rfl | rfl
      · have := (C15_eddsa (E := E) ⟨did ++ a, did, "Ed25519VerificationKey2020".toList, kv⟩
          (E.edPub (E.edGenerate s.ed))).mpr ⟨rfl, _, isKeyText_holds k1, K.pub_bytes _⟩
        rw [this] at hd
        cases hd
        exact ⟨s, rfl, rfl, hid.symm⟩
      · have := ((C15_eddsa _ _).mp hd).1
        simp only at this
        exact absurd this (by decide)
  rcases List.mem_append.mp he with he | he
  · obtain ⟨s, h1, h2, h3⟩ := key e5 he
    exact ⟨s, h2, .inl ⟨h3, h1⟩⟩
  · obtain ⟨s, h1, h2, h3⟩ := key e6 he
    exact ⟨s, h2, .inr ⟨h3, h1⟩⟩

theorem takeWhile_did {did f : Str} (h : '#' ∉ did) : (did ++ '#' :: f).takeWhile (· != '#') = did :=
  before_append h f

theorem owns_clean {E : Env} {d : DID E} {did : Str} (h : Owns d did) : '#' ∉ did := by
  rw [(owns_iff _ _).mp h]
  obtain ⟨_, _, h⟩ := didOf_isDid E d.account.pubkey
  exact (did_safe h).2.2.2.1

/-! ### C102 -/

/-- C102: the key found for a method of a party's DID, in whatever bundles, is the key of a slot in a document the party
endorsed before; or a hash collides, or the account key signed the tagged text as raw bytes, or its signature is forged. -/
theorem C102_key {E : Env} {J : Type} (H : E.HashLaws) (N : E.NumLaws) (K : E.EdLaws) (did : J → DID E)
    (tr : List (Deed E J)) (n : Nat) (store : List Endorsed) (j : J) (id fragment : Str) (ho : Owns (did j) id)
    (pub : E.EdPub) (hk : keyOf E store (id ++ '#' :: fragment) = some pub) :
    (∃ s, Vouched tr n j id (id ++ '#' :: fragment) pub s) ∨ ∃ b ∈ store, Cheated did tr n j b := by
  unfold keyOf at hk
  obtain ⟨b, hb, hk⟩ := List.exists_of_findSome?_eq_some hk
  rw [takeWhile_did (owns_clean ho)] at hk
  split at hk
  · cases hk
  rename_i doc hdoc
  obtain ⟨e, he, hke⟩ := List.exists_of_findSome?_eq_some hk
  obtain ⟨pub0, h1, h2, h3, h4⟩ := (openDoc_iff _ _ _ _).mp hdoc
  have hid := (owns_iff _ _).mp ho
  rw [hid] at h2
  rcases didOf_inj h2 with hp | ⟨hp, hc⟩
  swap
  · exact .inr ⟨b, hb, .collision pub0 h1 hp hc⟩
  have hp' : pub0 = (did j).account.pubkey := by
    have := congrArg E.edPubOfBytes hp
    rw [K.pub_bytes, K.pub_bytes] at this
    exact Option.some.inj this
  subst hp'
  by_cases hs : AccountSigned did tr n j (tag ++ b.text)
  swap
  · exact .inr ⟨b, hb, .forged h3 hs⟩
  obtain ⟨k, hkn, ⟨ops, i, g1, g2, g3⟩ | ⟨u, g1, g2⟩⟩ := hs
  · left
    have e1 := List.append_cancel_left g3
    have e2 : i.value = id := by
      rw [hid]; exact (owns_iff _ _).mp ⟨i, g2, rfl⟩
    rw [e1, e2, docText_reads N] at h4
    cases h4
    obtain ⟨s, r1, r2⟩ := entries_key K id _ ops e pub he hke
    exact ⟨s, k, ops, hkn, g1, r1, r2⟩
  · right
    have hl : ∀ o d : Bytes, tag ++ b.text ≠ message E o d := by
      intro o d h
      have := congrArg List.length h
      simp only [List.length_append, message, H.sha256_len] at this
      have := tag_length
      omega
    cases u with
    | vc v opts => exact (hl _ _ g2.2).elim
    | vp v opts => exact (hl _ _ g2.2).elim
    | raw m =>
      have : tag ++ b.text = m := g2
      subst this
      exact ⟨b, hb, .raw k hkn g1⟩

/-- A message accepted under a key: what the key was used on. -/
theorem signed_or_stolen_vc {E : Env} {J : Type} (H : E.HashLaws) (L : E.JcsLaws) (tr : List (Deed E J)) (n : Nat)
    {pub : E.EdPub} {bs : Bytes} {aim : ProofPurpose} {w : VC E} {q : Proof} (ha : AcceptedVC pub bs aim w)
    (hq : w.proof = some q) :
    (∃ j s v opts out, UsedKey tr n pub j s (.vc v opts) ∧ sign E (VC E) (E.edGenerate s.ed) v opts = .ok out ∧
      SameVC v (unsignedVC w) ∧ opts = unvalued q) ∨
    Stolen tr n pub (optionBytes E (unvalued q)) (vcBytes (unsignedVC w)) q.proofValue := by
  by_cases hex : ∃ j s u, UsedKey tr n pub j s u ∧
      u.Signs (E.edGenerate s.ed) (message E (optionBytes E (unvalued q)) (vcBytes (unsignedVC w)))
  swap
  · exact .inr (.forged (accepted_accepts_vc L ha hq) fun j s u h h' => hex ⟨j, s, u, h, h'⟩)
  obtain ⟨j, s, u, hu, hs⟩ := hex
  rcases C64_vc H L (E.edGenerate s.ed) [u] pub bs aim w q ha hq with ⟨v, opts, out, h1, h2, h3, h4⟩ | h | ⟨_, h⟩ | ⟨u', h1, h2⟩
  · rw [List.mem_singleton] at h1
    subst h1
    exact .inl ⟨j, s, v, opts, out, hu, h2, h3, h4⟩
  · rw [List.mem_singleton] at h
    subst h
    exact .inr (.raw j s hu)
  · exact (h u (by simp) hs).elim
  · rw [List.mem_singleton] at h1
    subst h1
    exact .inr (.collision j s _ hu h2)

theorem signed_or_stolen_vp {E : Env} {J : Type} (H : E.HashLaws) (L : E.JcsLaws) (tr : List (Deed E J)) (n : Nat)
    {pub : E.EdPub} {bs : Bytes} {aim : ProofPurpose} {w : VP E} {q : Proof} (ha : AcceptedVP pub bs aim w)
    (hq : w.proof = some q) :
    (∃ j s v opts out, UsedKey tr n pub j s (.vp v opts) ∧ sign E (VP E) (E.edGenerate s.ed) v opts = .ok out ∧
      SameVP v (unsignedVP w) ∧ opts = unvalued q) ∨
    Stolen tr n pub (optionBytes E (unvalued q)) (vpBytes (unsignedVP w)) q.proofValue := by
  by_cases hex : ∃ j s u, UsedKey tr n pub j s u ∧
      u.Signs (E.edGenerate s.ed) (message E (optionBytes E (unvalued q)) (vpBytes (unsignedVP w)))
  swap
  · exact .inr (.forged (accepted_accepts_vp L ha hq) fun j s u h h' => hex ⟨j, s, u, h, h'⟩)
  obtain ⟨j, s, u, hu, hs⟩ := hex
  rcases C64_vp H L (E.edGenerate s.ed) [u] pub bs aim w q ha hq with ⟨v, opts, out, h1, h2, h3, h4⟩ | h | ⟨_, h⟩ | ⟨u', h1, h2⟩
  · rw [List.mem_singleton] at h1
    subst h1
    exact .inl ⟨j, s, v, opts, out, hu, h2, h3, h4⟩
  · rw [List.mem_singleton] at h
    subst h
    exact .inr (.raw j s hu)
  · exact (h u (by simp) hs).elim
  · rw [List.mem_singleton] at h1
    subst h1
    exact .inr (.collision j s _ hu h2)

/-- The credential `w` comes from party `j`: before event `n` the party endorsed the key of the verification method as a
key of one of its slots, and a key with that public key signed this credential with these options. -/
def IssuedBy {E : Env} {J : Type} (tr : List (Deed E J)) (n : Nat) (j : J) (did : Str) (w : VC E) : Prop :=
  ∃ q pub s j' s' v opts out, w.proof = some q ∧ Vouched tr n j did q.verificationMethod pub s ∧
    UsedKey tr n pub j' s' (.vc v opts) ∧ sign E (VC E) (E.edGenerate s'.ed) v opts = .ok out ∧
    SameVC v (unsignedVC w) ∧ opts = unvalued q

/-- The same for presentations. -/
def PresentedBy {E : Env} {J : Type} (tr : List (Deed E J)) (n : Nat) (j : J) (did : Str) (w : VP E) : Prop :=
  ∃ q pub s j' s' v opts out, w.proof = some q ∧ Vouched tr n j did q.verificationMethod pub s ∧
    UsedKey tr n pub j' s' (.vp v opts) ∧ sign E (VP E) (E.edGenerate s'.ed) v opts = .ok out ∧
    SameVP v (unsignedVP w) ∧ opts = unvalued q

theorem sound_issued {E : Env} {J : Type} (H : E.HashLaws) (L : E.JcsLaws) (N : E.NumLaws) (K : E.EdLaws) (did : J → DID E)
    (tr : List (Deed E J)) (n : Nat) (store : List Endorsed) (expired : Str → Bool) {aim : ProofPurpose} {bs : Bytes}
    {w : VC E} (h : SoundVC E (anchored expired store) aim bs w) (j : J) (ho : Owns (did j) w.issuer) :
    IssuedBy tr n j w.issuer w ∨ (∃ b ∈ store, Cheated did tr n j b) ∨
      ∃ q pub, w.proof = some q ∧ keyOf E store q.verificationMethod = some pub ∧
        Stolen tr n pub (optionBytes E (unvalued q)) (vcBytes (unsignedVC w)) q.proofValue := by
  obtain ⟨q, pub, hq, hk, ha⟩ := soundVC_accepted L h
  obtain ⟨q', hq', hs⟩ := h.proof
  rw [hq] at hq'; cases hq'
  obtain ⟨f, hf⟩ := hs.owner
  have hk' : keyOf E store (w.issuer ++ '#' :: f) = some pub := hf ▸ hk
  rcases C102_key H N K did tr n store j w.issuer f ho pub hk' with ⟨s, hv⟩ | hc
  swap
  · exact .inr (.inl hc)
  rcases signed_or_stolen_vc H L tr n ha hq with ⟨j', s', v, opts, out, h1, h2, h3, h4⟩ | hx
  · exact .inl ⟨q, pub, s, j', s', v, opts, out, hq, hf ▸ hv, h1, h2, h3, h4⟩
  · exact .inr (.inr ⟨q, pub, hq, hk, hx⟩)

/-- C102 (credentials): starting from nothing but the DID of the issuer, in every interleaving of endorsements and key uses:
a credential the careful reader returns, from whatever bytes and bundles, was signed before with a key its issuer endorsed
before; or the cryptography is broken, or a key signed just this message as raw bytes. -/
theorem C102_vc {E : Env} {J : Type} (H : E.HashLaws) (L : E.JcsLaws) (N : E.NumLaws) (K : E.EdLaws) (did : J → DID E)
    (tr : List (Deed E J)) (n : Nat) (store : List Endorsed) (bs : Bytes) (aim : ProofPurpose)
    (_hn : tr[n]? = some (.read store bs aim)) (expired : Str → Bool) (w : VC E)
    (h : readVC (anchored expired store) aim bs = some w) (j : J) (ho : Owns (did j) w.issuer) :
    IssuedBy tr n j w.issuer w ∨ (∃ b ∈ store, Cheated did tr n j b) ∨
      ∃ q pub, w.proof = some q ∧ keyOf E store q.verificationMethod = some pub ∧
        Stolen tr n pub (optionBytes E (unvalued q)) (vcBytes (unsignedVC w)) q.proofValue :=
  sound_issued H L N K did tr n store expired ((C101_vc L _ _ _ _).mp h) j ho

/-- C102 (presentations): the same for the holder, and for the issuer of every credential inside. -/
theorem C102_vp {E : Env} {J : Type} (H : E.HashLaws) (L : E.JcsLaws) (N : E.NumLaws) (K : E.EdLaws) (did : J → DID E)
    (tr : List (Deed E J)) (n : Nat) (store : List Endorsed) (bs : Bytes) (aim : ProofPurpose)
    (_hn : tr[n]? = some (.read store bs aim)) (expired : Str → Bool) (w : VP E)
    (h : readVP (anchored expired store) aim bs = some w) :
    (∃ holder, w.holder = some holder ∧ ∀ j, Owns (did j) holder →
      PresentedBy tr n j holder w ∨ (∃ b ∈ store, Cheated did tr n j b) ∨
        ∃ q pub, w.proof = some q ∧ keyOf E store q.verificationMethod = some pub ∧
          Stolen tr n pub (optionBytes E (unvalued q)) (vpBytes (unsignedVP w)) q.proofValue) ∧
    ∀ c ∈ w.verifiableCredential, ∀ j, Owns (did j) c.issuer →
      IssuedBy tr n j c.issuer c ∨ (∃ b ∈ store, Cheated did tr n j b) ∨
        ∃ q pub, c.proof = some q ∧ keyOf E store q.verificationMethod = some pub ∧
          Stolen tr n pub (optionBytes E (unvalued q)) (vcBytes (unsignedVC c)) q.proofValue := by
  have hs := (C101_vp L _ _ _ _).mp h
  refine ⟨?_, fun c hc j ho => sound_issued H L N K did tr n store expired (hs.credentials c hc) j ho⟩
  obtain ⟨q, pub, hq, hk, ha⟩ := soundVP_accepted L hs
  obtain ⟨q', holder, hq', hh, hp⟩ := hs.proof
  rw [hq] at hq'; cases hq'
  refine ⟨holder, hh, fun j ho => ?_⟩
  obtain ⟨f, hf⟩ := hp.owner
  have hk' : keyOf E store (holder ++ '#' :: f) = some pub := hf ▸ hk
  rcases C102_key H N K did tr n store j holder f ho pub hk' with ⟨s, hv⟩ | hc
  swap
  · exact .inr (.inl hc)
  rcases signed_or_stolen_vp H L tr n ha hq with ⟨j', s', v, opts, out, h1, h2, h3, h4⟩ | hx
  · exact .inl ⟨q, pub, s, j', s', v, opts, out, hq, hf ▸ hv, h1, h2, h3, h4⟩
  · exact .inr (.inr ⟨q, pub, hq, hk, hx⟩)

/-! ### C102: where nothing is broken -/

/-- No two parties have verification keys with the same public key. -/
def PartiesApart {E : Env} {J : Type} (tr : List (Deed E J)) : Prop :=
  ∀ (k k' : Nat) (j j' : J) (ops : List (IdOp E)) (s s' : MethodSeed E) (u : KeyUse E),
    tr[k]? = some (.endorse j ops) → firstAuth ops = some s ∨ firstAssertion ops = some s →
    tr[k']? = some (.use j' s' u) → E.edPub (E.edGenerate s.ed) = E.edPub (E.edGenerate s'.ed) → j = j'

theorem Vouched.slot {E : Env} {J : Type} {tr : List (Deed E J)} {n : Nat} {j : J} {did method : Str} {pub : E.EdPub}
    {s : MethodSeed E} (h : Vouched tr n j did method pub s) : ∃ (k : Nat) (ops : List (IdOp E)), k < n ∧
      tr[k]? = some (.endorse j ops) ∧ (firstAuth ops = some s ∨ firstAssertion ops = some s) ∧
      pub = E.edPub (E.edGenerate s.ed) := by
  obtain ⟨k, ops, h1, h2, h3, ⟨_, h4⟩ | ⟨_, h4⟩⟩ := h
  · exact ⟨k, ops, h1, h2, .inl h4, h3⟩
  · exact ⟨k, ops, h1, h2, .inr h4, h3⟩

/-- C102: if nothing was forged, no hash collides, no key signed raw messages of this shape and the parties' keys are
different, then a credential the careful reader returns was signed by its issuer, with one of the issuer's keys. -/
theorem C102_honest_vc {E : Env} {J : Type} (H : E.HashLaws) (L : E.JcsLaws) (N : E.NumLaws) (K : E.EdLaws) (did : J → DID E)
    (tr : List (Deed E J)) (ha : PartiesApart tr) (n : Nat) (store : List Endorsed) (bs : Bytes) (aim : ProofPurpose)
    (hn : tr[n]? = some (.read store bs aim)) (expired : Str → Bool) (w : VC E)
    (h : readVC (anchored expired store) aim bs = some w) (j : J) (ho : Owns (did j) w.issuer)
    (hc : ∀ b ∈ store, ¬ Cheated did tr n j b)
    (hx : ∀ q pub, w.proof = some q → keyOf E store q.verificationMethod = some pub →
      ¬ Stolen tr n pub (optionBytes E (unvalued q)) (vcBytes (unsignedVC w)) q.proofValue) :
    ∃ q k s v opts out, w.proof = some q ∧ k < n ∧ tr[k]? = some (.use j s (.vc v opts)) ∧
      sign E (VC E) (E.edGenerate s.ed) v opts = .ok out ∧ SameVC v (unsignedVC w) ∧ opts = unvalued q := by
  rcases C102_vc H L N K did tr n store bs aim hn expired w h j ho with h | ⟨b, hb, h⟩ | ⟨q, pub, h1, h0, h2⟩
  · obtain ⟨q, pub, s, j', s', v, opts, out, h1, h2, ⟨k, h3, h4, h5⟩, h6, h7, h8⟩ := h
    obtain ⟨k0, ops, _, g1, g2, g3⟩ := h2.slot
    have : j = j' := ha k0 k j j' ops s s' _ g1 g2 h4 (g3.symm.trans h5.symm)
    subst this
    exact ⟨q, k, s', v, opts, out, h1, h3, h4, h6, h7, h8⟩
  · exact (hc b hb h).elim
  · exact (hx q pub h1 h0 h2).elim

/-- C102: the same for presentations: the holder signed the presentation, and each issuer the credentials inside. -/
theorem C102_honest_vp {E : Env} {J : Type} (H : E.HashLaws) (L : E.JcsLaws) (N : E.NumLaws) (K : E.EdLaws) (did : J → DID E)
    (tr : List (Deed E J)) (ha : PartiesApart tr) (n : Nat) (store : List Endorsed) (bs : Bytes) (aim : ProofPurpose)
    (hn : tr[n]? = some (.read store bs aim)) (expired : Str → Bool) (w : VP E)
    (h : readVP (anchored expired store) aim bs = some w)
    (hc : ∀ j, ∀ b ∈ store, ¬ Cheated did tr n j b)
    (hx : ∀ q pub, w.proof = some q → keyOf E store q.verificationMethod = some pub →
      ¬ Stolen tr n pub (optionBytes E (unvalued q)) (vpBytes (unsignedVP w)) q.proofValue)
    (hx' : ∀ c ∈ w.verifiableCredential, ∀ q pub, c.proof = some q → keyOf E store q.verificationMethod = some pub →
      ¬ Stolen tr n pub (optionBytes E (unvalued q)) (vcBytes (unsignedVC c)) q.proofValue) :
    (∀ holder j, w.holder = some holder → Owns (did j) holder →
      ∃ q k s v opts out, w.proof = some q ∧ k < n ∧ tr[k]? = some (.use j s (.vp v opts)) ∧
        sign E (VP E) (E.edGenerate s.ed) v opts = .ok out ∧ SameVP v (unsignedVP w) ∧ opts = unvalued q) ∧
    ∀ c ∈ w.verifiableCredential, ∀ j, Owns (did j) c.issuer →
      ∃ q k s v opts out, c.proof = some q ∧ k < n ∧ tr[k]? = some (.use j s (.vc v opts)) ∧
        sign E (VC E) (E.edGenerate s.ed) v opts = .ok out ∧ SameVC v (unsignedVC c) ∧ opts = unvalued q := by
  obtain ⟨⟨holder, hh, hp⟩, hcs⟩ := C102_vp H L N K did tr n store bs aim hn expired w h
  refine ⟨fun holder' j hh' ho => ?_, fun c hcm j ho => ?_⟩
  · rw [hh] at hh'; cases hh'
    rcases hp j ho with h | ⟨b, hb, h⟩ | ⟨q, pub, h1, h0, h2⟩
    · obtain ⟨q, pub, s, j', s', v, opts, out, h1, h2, ⟨k, h3, h4, h5⟩, h6, h7, h8⟩ := h
      obtain ⟨k0, ops, _, g1, g2, g3⟩ := h2.slot
      have : j = j' := ha k0 k j j' ops s s' _ g1 g2 h4 (g3.symm.trans h5.symm)
      subst this
      exact ⟨q, k, s', v, opts, out, h1, h3, h4, h6, h7, h8⟩
    · exact (hc j b hb h).elim
    · exact (hx q pub h1 h0 h2).elim
  · rcases hcs c hcm j ho with h | ⟨b, hb, h⟩ | ⟨q, pub, h1, h0, h2⟩
    · obtain ⟨q, pub, s, j', s', v, opts, out, h1, h2, ⟨k, h3, h4, h5⟩, h6, h7, h8⟩ := h
      obtain ⟨k0, ops, _, g1, g2, g3⟩ := h2.slot
      have : j = j' := ha k0 k j j' ops s s' _ g1 g2 h4 (g3.symm.trans h5.symm)
      subst this
      exact ⟨q, k, s', v, opts, out, h1, h3, h4, h6, h7, h8⟩
    · exact (hc j b hb h).elim
    · exact (hx' c hcm q pub h1 h0 h2).elim

/-! ### C102: impostors -/

/-- C102: the impersonation of C75 fails: with bundles of other accounts only, whatever documents they endorse, no key is
found for the DID and nothing is read that names it as issuer or holder. -/
theorem C102_impostor {E : Env} (L : E.JcsLaws) (K : E.EdLaws) (id : Str) (store : List Endorsed)
    (hs : ∀ b ∈ store, ∃ (d : DID E) (i : Identity E), endorse d i = some b ∧ ¬ Owns d id) (hid : '#' ∉ id)
    (expired : Str → Bool) (aim : ProofPurpose) (bs : Bytes) :
    (∀ fragment, keyOf E store (id ++ '#' :: fragment) = none) ∧
    (∀ w, readVC (anchored (E := E) expired store) aim bs = some w → w.issuer ≠ id) ∧
    ∀ w, readVP (anchored (E := E) expired store) aim bs = some w →
      w.holder ≠ some id ∧ ∀ c ∈ w.verifiableCredential, c.issuer ≠ id := by
  have key : ∀ fragment, keyOf E store (id ++ '#' :: fragment) = none := by
    intro fragment
    unfold keyOf
    rw [List.findSome?_eq_none_iff]
    intro b hb
    rw [takeWhile_did hid]
    split
    · rfl
    rename_i doc hdoc
    exfalso
    obtain ⟨pub, h1, h2, _⟩ := (openDoc_iff _ _ _ _).mp hdoc
    obtain ⟨d, i, he, hn⟩ := hs b hb
    unfold endorse at he
    split at he
    · cases he
      rw [K.pub_bytes] at h1
      cases h1
      exact hn ((owns_iff _ _).mpr h2.symm)
    · cases he
  have vc : ∀ {a : ProofPurpose} {x : Bytes} {w : VC E}, SoundVC E (anchored expired store) a x w → w.issuer ≠ id := by
    rintro a x w h rfl
    obtain ⟨q, _, hq⟩ := h.proof
    obtain ⟨f, hf⟩ := hq.owner
    obtain ⟨pub, _, _, hk, _⟩ := hq.signed
    rw [hf] at hk
    have : keyOf E store (w.issuer ++ '#' :: f) = some pub := hk
    rw [key] at this
    cases this
  refine ⟨key, fun w h => vc ((C101_vc L _ _ _ _).mp h), fun w h => ?_⟩
  have hw := (C101_vp L _ _ _ _).mp h
  refine ⟨fun hh => ?_, fun c hc => vc (hw.credentials c hc)⟩
  obtain ⟨q, holder, _, hh', hq⟩ := hw.proof
  rw [hh] at hh'; cases hh'
  obtain ⟨f, hf⟩ := hq.owner
  obtain ⟨pub, _, _, hk, _⟩ := hq.signed
  rw [hf] at hk
  have : keyOf E store (id ++ '#' :: f) = some pub := hk
  rw [key] at this
  cases this

/-! ### C102: honest bundles work -/

theorem openDoc_endorsed {E : Env} (N : E.NumLaws) (K : E.EdLaws) (d : DID E) (i : Identity E) (hi : d.identity = .ok i)
    (ops : List (IdOp E)) (b : Endorsed) (hb : endorse d (ops.foldl IdOp.apply i) = some b) :
    openDoc E i.value b = some (idRun i.value ops).toDoc := by
  rw [endorse_eq d i hi ops] at hb
  have hr := docText_reads N i.value ops
  generalize docText E i.value ops = x at hb hr
  have hv := K.verify_sign d.account.pair (tag ++ x)
  generalize hm : tag ++ x = m at hb hv
  rw [← Option.some.inj hb]
  refine (openDoc_iff _ _ _ _).mpr ⟨d.account.pubkey, K.pub_bytes _, ((owns_iff _ _).mp ⟨i, hi, rfl⟩).symm, ?_, hr⟩
  simp only
  rw [hm]
  exact hv

theorem method_clean {E : Env} {d : DID E} {i : Identity E} (hi : d.identity = .ok i) (f : Str) :
    (i.value ++ '#' :: f).takeWhile (· != '#') = i.value :=
  takeWhile_did (owns_clean (d := d) ⟨i, hi, rfl⟩)

/-- C102: in a collection with the bundle of the owner, and before it only bundles with keys of other DIDs, the methods of
the endorsed document lead to the keys of its slots. -/
theorem C102_found {E : Env} (N : E.NumLaws) (K : E.EdLaws) (d : DID E) (i : Identity E) (hi : d.identity = .ok i)
    (ops : List (IdOp E)) (b : Endorsed) (hb : endorse d (ops.foldl IdOp.apply i) = some b) (pre post : List Endorsed)
    (hpre : ∀ x ∈ pre, ∀ pub hex payload, E.edPubOfBytes x.key = some pub → ¬ IsDidOf E pub hex payload i.value) :
    (∀ s, firstAuth ops = some s →
      keyOf E (pre ++ b :: post) (i.value ++ "#key-auth-verification".toList) = some (E.edPub (E.edGenerate s.ed))) ∧
    ∀ s, firstAssertion ops = some s →
      keyOf E (pre ++ b :: post) (i.value ++ "#key-assertion-verification".toList) = some (E.edPub (E.edGenerate s.ed)) := by
  obtain ⟨_, _, _, _, e5, e6, _⟩ := C12_document i.value ops
  have skip : ∀ (f : Str) (k : E.EdPub), ((idRun i.value ops).toDoc.authentication.getD [] ++
      (idRun i.value ops).toDoc.assertion.getD []).findSome? (entryKey E (i.value ++ '#' :: f)) = some k →
      keyOf E (pre ++ b :: post) (i.value ++ '#' :: f) = some k := by
    intro f k hk
    unfold keyOf
    rw [method_clean hi, List.findSome?_append, List.findSome?_eq_none_iff.mpr, Option.none_or, List.findSome?_cons,
      openDoc_endorsed N K d i hi ops b hb]
    · simp only [hk]
    · intro x hx
      cases ho : openDoc E i.value x with
      | none => rfl
      | some doc =>
        obtain ⟨pub, h1, h2, _⟩ := (openDoc_iff _ _ _ _).mp ho
        obtain ⟨hex, payload, h3⟩ := didOf_isDid E pub
        rw [h2] at h3
        exact (hpre x hx pub hex payload h1 h3).elim
  have first : ∀ {a c : Str} {s : MethodSeed E} {l : Option (List Primary)}, EntriesIs E i.value a c (some s) l →
      (l.getD []).findSome? (entryKey E (i.value ++ a)) = some (E.edPub (E.edGenerate s.ed)) := by
    intro a c s l h
    obtain ⟨l', e, ⟨kv, ka, el, k1, _⟩⟩ := h
    rw [e, el]
    have := (entryKey_iff E (i.value ++ a) ⟨i.value ++ a, i.value, "Ed25519VerificationKey2020".toList, kv⟩
      (E.edPub (E.edGenerate s.ed))).mpr ⟨rfl, (C15_eddsa _ _).mpr ⟨rfl, _, isKeyText_holds k1, K.pub_bytes _⟩⟩
    rw [Option.getD_some, List.findSome?_cons, this]
  constructor
  · intro s hs
    refine skip "key-auth-verification".toList _ ?_
    rw [hs] at e5
    rw [List.findSome?_append]
    rw [show ((idRun i.value ops).toDoc.authentication.getD []).findSome?
      (entryKey E (i.value ++ '#' :: "key-auth-verification".toList)) = _ from first e5]
    rfl
  · intro s hs
    refine skip "key-assertion-verification".toList _ ?_
    rw [hs] at e6
    rw [List.findSome?_append, show ((idRun i.value ops).toDoc.assertion.getD []).findSome?
      (entryKey E (i.value ++ '#' :: "key-assertion-verification".toList)) = _ from first e6,
      List.findSome?_eq_none_iff.mpr]
    · rfl
    intro e he
    cases hk : entryKey E (i.value ++ '#' :: "key-assertion-verification".toList) e with
    | none => rfl
    | some k =>
      exfalso
      have hid := ((entryKey_iff _ _ _ _).mp hk).1
      cases hf : firstAuth ops with
      | none =>
        rw [hf] at e5
        rw [show (idRun i.value ops).toDoc.authentication = none from e5] at he
        cases he
      | some s' =>
        rw [hf] at e5
        obtain ⟨l', e', ⟨kv, ka, el, _⟩⟩ := e5
        rw [e', el] at he
        simp only [Option.getD_some, List.mem_cons, List.not_mem_nil, or_false] at he
        rcases he with rfl | rfl
        · simp only [List.append_cancel_left_eq] at hid
          exact absurd hid (by decide)
        · simp only [List.append_cancel_left_eq] at hid
          exact absurd hid (by decide)

/-- C102: honest credentials pass: signed with the assertion key of an endorsed document, under its method and for the DID
as issuer, a credential is returned by a reader who only received the bundle. -/
theorem C102_complete_vc {E : Env} (L : E.JcsLaws) (N : E.NumLaws) (K : E.EdLaws) (d : DID E) (i : Identity E)
    (hi : d.identity = .ok i) (ops : List (IdOp E)) (b : Endorsed) (hb : endorse d (ops.foldl IdOp.apply i) = some b)
    (pre post : List Endorsed)
    (hpre : ∀ x ∈ pre, ∀ pub hex payload, E.edPubOfBytes x.key = some pub → ¬ IsDidOf E pub hex payload i.value)
    (s : MethodSeed E) (hs : firstAssertion ops = some s) (v : VC E) (opts : Proof) (hv : VCComplete v)
    (hissuer : v.issuer = i.value) (hopts : GoodOptions E opts) (hp : opts.proofPurpose ≠ .unknown)
    (hm : opts.verificationMethod = i.value ++ "#key-assertion-verification".toList) (expired : Str → Bool)
    (hx : ∀ e, opts.expires = some e → expired e = false) (hd : v.credentialSubject.1.depth ≤ 126)
    (hn : Rereads E v.credentialSubject.1) :
    ∃ signed t w, signVC (E.edGenerate s.ed) v opts = .ok signed ∧ signed.toJcs = .ok t ∧ SameVC signed w ∧
      readVC (anchored expired (pre ++ b :: post)) opts.proofPurpose (utf8 t) = some w := by
  obtain ⟨signed, h⟩ := ((C101_sign_iff L (E.edGenerate s.ed) opts).1 v).mpr
    ⟨_, ((C32_vc L _ _ _).1 _).mpr ⟨hopts, hp, hv, _, multibaseEncode58_spec _, rfl⟩⟩
  obtain ⟨t, w, h1, h2, h3⟩ := C101_honest_vc L K (anchored expired (pre ++ b :: post)) (E.edGenerate s.ed) v opts signed h
    "key-assertion-verification".toList (by rw [hissuer]; exact hm)
    (by rw [hm]; exact (C102_found N K d i hi ops b hb pre post hpre).2 s hs) hx hd hn
  exact ⟨signed, t, w, h, h1, h2, h3⟩

/-- C102: honest presentations pass: signed with the authentication key of the holder's endorsed document. -/
theorem C102_complete_vp {E : Env} (L : E.JcsLaws) (N : E.NumLaws) (K : E.EdLaws) (d : DID E) (i : Identity E)
    (hi : d.identity = .ok i) (ops : List (IdOp E)) (b : Endorsed) (hb : endorse d (ops.foldl IdOp.apply i) = some b)
    (pre post : List Endorsed)
    (hpre : ∀ x ∈ pre, ∀ pub hex payload, E.edPubOfBytes x.key = some pub → ¬ IsDidOf E pub hex payload i.value)
    (s : MethodSeed E) (hs : firstAuth ops = some s) (v : VP E) (opts : Proof) (hv : VPComplete v)
    (hholder : v.holder = some i.value) (hopts : GoodOptions E opts) (hp : opts.proofPurpose ≠ .unknown)
    (hm : opts.verificationMethod = i.value ++ "#key-auth-verification".toList) (expired : Str → Bool)
    (hx : ∀ e, opts.expires = some e → expired e = false)
    (hd : ∀ c ∈ v.verifiableCredential, c.credentialSubject.1.depth ≤ 124)
    (hc : ∀ c ∈ v.verifiableCredential, ∃ t w, c.toJcs = .ok t ∧ SameVC c w ∧
      readVC (anchored expired (pre ++ b :: post)) .assertionMethod (utf8 t) = some w) :
    ∃ signed t w, signVP (E.edGenerate s.ed) v opts = .ok signed ∧ signed.toJcs = .ok t ∧ SameVP signed w ∧
      readVP (anchored expired (pre ++ b :: post)) opts.proofPurpose (utf8 t) = some w := by
  obtain ⟨signed, h⟩ := ((C101_sign_iff L (E.edGenerate s.ed) opts).2 v).mpr
    ⟨_, ((C32_vp L _ _ _).1 _).mpr ⟨hopts, hp, hv, _, multibaseEncode58_spec _, rfl⟩⟩
  obtain ⟨t, w, h1, h2, h3⟩ := C101_honest_vp L K (anchored expired (pre ++ b :: post)) (E.edGenerate s.ed) v opts signed h
    i.value "key-auth-verification".toList hholder (by exact hm)
    (by rw [hm]; exact (C102_found N K d i hi ops b hb pre post hpre).1 s hs) hx hd hc
  exact ⟨signed, t, w, h, h1, h2, h3⟩

/-! ### Cases -/

/-- One party endorses its document, signs a credential with its assertion key, and somebody reads it. -/
def story {E : Env} (ops : List (IdOp E)) (s : MethodSeed E) (v : VC E) (opts : Proof) (b : Endorsed) (bs : Bytes) :
    List (Deed E Unit) :=
  [.endorse () ops, .use () s (.vc { v with proof := none } { opts with proofValue := [] }),
    .read [b] bs opts.proofPurpose]

/-- The hypotheses of `C102_honest_vc` are met in this story, under the laws alone: nothing is forged or stolen in it. -/
theorem story_meets {E : Env} (L : E.JcsLaws) (N : E.NumLaws) (K : E.EdLaws) (d : DID E) (i : Identity E)
    (hi : d.identity = .ok i) (ops : List (IdOp E)) (s : MethodSeed E) (hs : firstAssertion ops = some s) (v : VC E)
    (opts : Proof) (hv : VCComplete v) (hissuer : v.issuer = i.value) (hopts : GoodOptions E opts)
    (hp : opts.proofPurpose ≠ .unknown) (hm : opts.verificationMethod = i.value ++ "#key-assertion-verification".toList)
    (hx : opts.expires = none) (hd : v.credentialSubject.1.depth ≤ 126) (hn : Rereads E v.credentialSubject.1) :
    ∃ b bs, ∃ w : VC E, PartiesApart (story ops s v opts b bs) ∧
      (story ops s v opts b bs)[2]? = some (.read [b] bs opts.proofPurpose) ∧
      readVC (anchored (fun _ => true) [b]) opts.proofPurpose bs = some w ∧ Owns d w.issuer ∧
      (∀ x ∈ [b], ¬ Cheated (fun _ => d) (story ops s v opts b bs) 2 () x) ∧
      ∀ q pub, w.proof = some q → keyOf E [b] q.verificationMethod = some pub →
        ¬ Stolen (story ops s v opts b bs) 2 pub (optionBytes E (unvalued q)) (vcBytes (unsignedVC w)) q.proofValue := by
  obtain ⟨b, hb, htx, hkb⟩ := endorse_some d i hi ops
  obtain ⟨signed, t, w, h1, h2, h3, h4⟩ := C102_complete_vc L N K d i hi ops _ hb [] [] (by simp) s hs v opts hv hissuer hopts
    hp hm (fun _ => true) (by rw [hx]; simp) hd hn
  have hkey := (C102_found N K d i hi ops _ hb [] [] (by simp)).2 s hs
  rw [List.nil_append] at hkey h4
  generalize utf8 t = bs at h4
  obtain ⟨_, _, _, text, ht, rfl⟩ := ((C32_vc L _ _ _).1 _).mp h1
  refine ⟨b, bs, w, ?_, rfl, h4, ⟨i, hi, hissuer.symm.trans h3.issuer⟩, ?_, ?_⟩
  · intro _ _ j j' _ _ _ _ _ _ _ _
    rfl
  · intro x hx'
    rw [List.mem_singleton.mp hx']
    rintro (⟨pub, g1, g2, _⟩ | ⟨k, g1, g2⟩ | ⟨g1, g2⟩)
    · rw [hkb, K.pub_bytes] at g1
      cases g1
      exact g2 rfl
    · match k, g1 with
      | 0, _ => exact nomatch g2
      | 1, _ => exact nomatch g2
    · refine g2 ⟨0, by omega, .inl ⟨ops, i, rfl, hi, ?_⟩⟩
      rw [htx]
  · intro q pub hq hk
    have hq' := h3.proof
    rw [hq] at hq'
    simp only at hq'
    cases hq'
    have hpub : pub = E.edPub (E.edGenerate s.ed) := by
      have : keyOf E [b] opts.verificationMethod = some pub := hk
      rw [hm, hkey] at this
      exact (Option.some.inj this).symm
    subst hpub
    have hsame : SameVC { v with proof := none } (unsignedVC w) :=
      ⟨h3.contexts, h3.types, h3.subject, rfl, h3.id, h3.issuer⟩
    have hbytes := vcBytes_of_same L hsame
    rintro (⟨j, s', k, g1, g2, _⟩ | ⟨_, g⟩ | ⟨j, s', u, ⟨k, g1, g2, _⟩, g3⟩)
    · match k, g1 with
      | 0, _ => exact nomatch g2
      | 1, _ => exact nomatch g2
    · refine g () s _ ⟨1, by omega, rfl, rfl⟩ ⟨⟨_, h1⟩, ?_⟩
      rw [hbytes]
      rfl
    · match k, g1 with
      | 0, _ => exact nomatch g2
      | 1, _ =>
        cases g2
        rcases g3 with ⟨g, _⟩ | ⟨g, _⟩
        · exact g rfl
        · exact g hbytes.symm

/-- A story of an account with the sample calls and subject. -/
example : ∃ (d : DID Toy.env) (i : Identity Toy.env) (s : MethodSeed Toy.env) (v : VC Toy.env) (opts : Proof),
    d.identity = .ok i ∧ firstAssertion toyOps = some s ∧ VCComplete v ∧ v.issuer = i.value ∧ GoodOptions Toy.env opts ∧
      opts.proofPurpose ≠ .unknown ∧ opts.verificationMethod = i.value ++ "#key-assertion-verification".toList ∧
      opts.expires = none ∧ v.credentialSubject.1.depth ≤ 126 ∧ Rereads Toy.env v.credentialSubject.1 :=
  ⟨DID.new Toy.env (3 : UInt8), Identity.new Toy.env (didOf Toy.env (3 : UInt8)), _,
    { toySigned with issuer := didOf Toy.env (3 : UInt8) },
    { toyProof with verificationMethod := didOf Toy.env (3 : UInt8) ++ "#key-assertion-verification".toList }, rfl, rfl,
    toySigned_complete, rfl, ⟨toyProof_good.1, toyProof_good.2, toyProof_good.3⟩, by decide, rfl, rfl,
    by simp [toySigned, toyVC, toySubject, Json.depth, Json.depthMembers], toy_rereads _⟩

/-- The hypotheses of `C102_vp` and `C102_complete_vp` are met: a credential in a presentation of the same party, read from a
collection in which a bundle of another account comes first. -/
example (d : DID Toy.env) (i : Identity Toy.env) (hi : d.identity = .ok i) (ops : List (IdOp Toy.env)) (s s' : MethodSeed Toy.env)
    (hs : firstAssertion ops = some s) (hs' : firstAuth ops = some s') (other : Endorsed)
    (ho : ∀ pub hex payload, Toy.env.edPubOfBytes other.key = some pub → ¬ IsDidOf Toy.env pub hex payload i.value) :
    ∃ (b : Endorsed) (bs : Bytes) (w : VP Toy.env), w.holder = some i.value ∧
      readVP (anchored (fun _ => true) [other, b]) .assertionMethod bs = some w := by
  obtain ⟨b, hb, _⟩ := endorse_some d i hi ops
  have hpre : ∀ x ∈ [other], ∀ pub hex payload, Toy.env.edPubOfBytes x.key = some pub →
      ¬ IsDidOf Toy.env pub hex payload i.value := by
    intro x hx
    rw [List.mem_singleton.mp hx]
    exact ho
  have hg : ∀ m : Str, GoodOptions Toy.env { toyProof with verificationMethod := m } :=
    fun m => ⟨toyProof_good.1, toyProof_good.2, toyProof_good.3⟩
  obtain ⟨c, t, w, h1, h2, h3, h4⟩ := C102_complete_vc Toy.jcsLaws Toy.numLaws Toy.edLaws d i hi ops b hb [other] [] hpre s hs
    { toySigned with issuer := i.value } { toyProof with verificationMethod := i.value ++ "#key-assertion-verification".toList }
    toySigned_complete rfl (hg _) (show toyProof.proofPurpose ≠ .unknown by decide) rfl (fun _ => true) (by intro e h; cases h)
    (by simp [toySigned, toyVC, toySubject, Json.depth, Json.depthMembers]) (toy_rereads _)
  unfold signVC at h1
  have hd : c.credentialSubject.1.depth ≤ 124 := by
    obtain ⟨_, _, _, text, _, rfl⟩ := ((C32_vc Toy.jcsLaws _ _ _).1 _).mp h1
    simp [toySigned, toyVC, toySubject, Json.depth, Json.depthMembers]
  obtain ⟨p, t', w', a1, a2, a3, a4⟩ := C102_complete_vp Toy.jcsLaws Toy.numLaws Toy.edLaws d i hi ops b hb [other] [] hpre s' hs'
    ⟨["urn:c".toList], ["P".toList], [c], none, some i.value⟩
    { toyProof with verificationMethod := i.value ++ "#key-auth-verification".toList }
    ⟨by simp, by simp, by simp⟩ rfl (hg _) (show toyProof.proofPurpose ≠ .unknown by decide) rfl (fun _ => true) (by intro e h; cases h)
    (by intro x hx; rw [List.mem_singleton.mp hx]; exact hd)
    (by intro x hx; rw [List.mem_singleton.mp hx]; exact ⟨t, w, h2, h3, h4⟩)
  unfold signVP at a1
  obtain ⟨_, _, _, text, _, rfl⟩ := ((C32_vp Toy.jcsLaws _ _ _).1 _).mp a1
  exact ⟨b, _, w', a3.holder.symm, a4⟩

/-- Two accounts with different DIDs, as `C102_impostor` and the bundle before the owner's ask for. -/
theorem toy_apart : ¬ Owns (DID.new Toy.env (4 : UInt8)) (didOf Toy.env (3 : UInt8)) := by
  rw [owns_iff]
  intro h
  rcases didOf_inj h with h | ⟨_, h | ⟨_, h⟩⟩
  · exact absurd h (by decide)
  · exact absurd h (by decide +kernel)
  · exact absurd h (by decide +kernel)

/-- The impostor of C75 with an endorsement of their own: nothing is read for the DID of the other. -/
example : ∃ (d : DID Toy.env) (b : Endorsed), endorse d (idRun (didOf Toy.env (3 : UInt8)) toyOps) = some b ∧
    ¬ Owns d (didOf Toy.env (3 : UInt8)) ∧ '#' ∉ didOf Toy.env (3 : UInt8) ∧
    ∀ f, keyOf Toy.env [b] (didOf Toy.env (3 : UInt8) ++ '#' :: f) = none := by
  have hc : '#' ∉ didOf Toy.env (3 : UInt8) := owns_clean (didOf_owns (DID.new Toy.env (3 : UInt8)))
  refine ⟨DID.new Toy.env (4 : UInt8), _, rfl, toy_apart, hc, ?_⟩
  exact (C102_impostor Toy.jcsLaws Toy.edLaws _ _ (by
    intro b hb
    rw [List.mem_singleton.mp hb]
    exact ⟨_, _, rfl, toy_apart⟩) hc (fun _ => true) .assertionMethod []).1

end Verif.Props
