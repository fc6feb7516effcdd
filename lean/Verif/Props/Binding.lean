import Verif.Concrete.CurveOrder
import Verif.Props.Signature
import Verif.Props.Accept
import Verif.Props.Identity

/-
C93: which public keys bind those who publish them. The keys of key pairs do (C79); here all public keys a document may
hold (core/src/doc/mod.rs:59-89, core/src/verifiable/proof/eddsa.rs:65-112).
-/

namespace Verif.Spec
open Verif

/-- The eight public keys whose point gives the neutral point when multiplied by eight, in hex. -/
def smallKeys : List Str :=
  ["0100000000000000000000000000000000000000000000000000000000000000".toList,
   "26e8958fc2b227b045c3f489f2ef98f0d5dfac05d3c63339b13802886d53fc05".toList,
   "0000000000000000000000000000000000000000000000000000000000000000".toList,
   "c7176a703d4dd84fba3c0b760d10670f2a2053fa2c39ccc64ec7fd7792ac037a".toList,
   "ecffffffffffffffffffffffffffffffffffffffffffffffffffffffffffff7f".toList,
   "c7176a703d4dd84fba3c0b760d10670f2a2053fa2c39ccc64ec7fd7792ac03fa".toList,
   "0000000000000000000000000000000000000000000000000000000000000080".toList,
   "26e8958fc2b227b045c3f489f2ef98f0d5dfac05d3c63339b13802886d53fc85".toList]

/-- Nothing is accepted that RFC 8032 refuses, for public keys that are points. Verification may be stricter. -/
def Rfc8032Sound (E : Env) : Prop := ∀ p m sig, Ed25519.pointDecompress (E.edPubBytes p) ≠ none →
  E.edVerify p m (hexEncode sig) = .ok true → Ed25519.verify (E.edPubBytes p) m sig = true

end Verif.Spec

namespace Verif.Props
open Verif Spec
open Verif.Ed25519 (publicKey challenge enc pointDecompress pointCompress pointMul pointEqual base neutral eighth)
open Verif.Blake3 (leBytes)

theorem enc_eighth (k : Nat) (hk : k < 8) : hexEncode (enc (k • eighth)) =
    smallKeys.getD k [] := by
  rw [← Ed25519.pointCompress_eq (Ed25519.rep_mul (lt_trans hk (by decide)) Ed25519.rep_eighth)]
  interval_cases k <;> decide +kernel

theorem getD_eq {l : List Str} {k : Nat} (h : k < l.length) : l.getD k [] = l[k] := by
  rw [List.getD_eq_getElem?_getD, List.getElem?_eq_getElem h]
  rfl

theorem mem_smallKeys (g : Edwards.Point Ed25519.D) : hexEncode (enc g) ∈ smallKeys ↔ 8 • g = 0 := by
  rw [Ed25519.small_iff]
  constructor
  · intro h
    obtain ⟨k, hk, e⟩ := List.mem_iff_getElem.mp h
    have hk8 : k < 8 := hk
    refine ⟨k, hk8, Ed25519.enc_injective (hexEncode_injective ?_)⟩
    rw [enc_eighth k hk8, ← e, getD_eq hk]
  · rintro ⟨k, hk, rfl⟩
    rw [enc_eighth k hk]
    interval_cases k <;> decide

/-- C93: the curve has eight times as many points as the base point has multiples. -/
theorem C93_points : Nat.card (Edwards.Point Ed25519.D) = 8 * (2 ^ 252 + 27742317777372353535851937790883648493) := by
  rw [Ed25519.card_points, mul_comm]
  rfl

/-- C93: which encodings of points give the neutral point when multiplied by eight: the eight listed. -/
theorem C93_small (b : Bytes) (P : Ed25519.Ext) (h : pointDecompress b = some P) :
    pointEqual (pointMul 8 P) neutral = true ↔ hexEncode b ∈ smallKeys := by
  obtain ⟨g, rfl, hP⟩ := Ed25519.pointDecompress_some h
  rw [Ed25519.pointEqual_iff (Ed25519.rep_mul (by decide) hP) Ed25519.rep_neutral, mem_smallKeys]

theorem small_point {b : Bytes} (h : hexEncode b ∈ smallKeys) : ∃ g, b = enc g ∧ 8 • g = 0 := by
  obtain ⟨k, hk, e⟩ := List.mem_iff_getElem.mp h
  have hk8 : k < 8 := hk
  have : b = enc (k • eighth) := by
    apply hexEncode_injective
    rw [enc_eighth k hk8, ← e, getD_eq hk]
  exact ⟨_, this, (Ed25519.small_iff _).mpr ⟨k, hk8, rfl⟩⟩

/-- C93: all eight are read as public keys, and published in a document they are decoded as such. -/
theorem C93_read {E : Env} {seed : E.EdKP → Bytes} (A : Ed25519Keys E seed) (key : Bytes) (hk : hexEncode key ∈ smallKeys)
    (e : Primary) (ht : e.verificationType = "Ed25519VerificationKey2020".toList) (hm : HoldsHex E e.multibase key) :
    ∃ pub, E.edPubOfBytes key = some pub ∧ e.decodePubKey E = .ok (.edDSA pub) := by
  obtain ⟨g, rfl, -⟩ := small_point hk
  have hd : pointDecompress (enc g) ≠ none := by
    obtain ⟨Q, hQ, -⟩ := Ed25519.pointDecompress_enc g
    rw [hQ]
    exact fun h => nomatch h
  cases hp : E.edPubOfBytes (enc g) with
  | none => exact absurd hp (A.reads _ hd)
  | some pub => exact ⟨pub, rfl, (C15_eddsa e pub).mpr ⟨ht, _, hm, hp⟩⟩

/-- C93: none of them is the public key of a key pair. -/
theorem C93_own {E : Env} {seed : E.EdKP → Bytes} (A : Ed25519Keys E seed) (kp : E.EdKP) :
    hexEncode (E.edPubBytes (E.edPub kp)) ∉ smallKeys := by
  rw [A.pub, Ed25519.publicKey_eq, mem_smallKeys]
  intro h
  have := addOrderOf_dvd_of_nsmul_eq_zero h
  rw [Ed25519.order_publicKey] at this
  have := Nat.le_of_dvd (by decide) this
  revert this
  decide +kernel

theorem collides_of_conflict {E : Env} (S : Rfc8032Sound E) {pub : E.EdPub}
    (hd : pointDecompress (E.edPubBytes pub) ≠ none) (hk : hexEncode (E.edPubBytes pub) ∉ smallKeys)
    {sig o d o' d' : Bytes} (h : Conflict E pub sig o d o' d') :
    Collides E (sig.take 32 ++ E.edPubBytes pub) o d o' d' := by
  cases h with
  | options hne h => exact .options hne h
  | document hne h => exact .document hne h
  | signature hne hex hs h h' =>
    rw [isHex_iff.mp hs] at h h'
    have h1 := S pub _ _ hd h
    have h2 := S pub _ _ hd h'
    cases hQ : pointDecompress (E.edPubBytes pub) with
    | none => exact absurd hQ hd
    | some Q =>
      obtain ⟨g, eg, -⟩ := Ed25519.pointDecompress_some hQ
      rw [eg] at h1 h2 hk
      rw [mem_smallKeys] at hk
      have e := Ed25519.verify_two_of hk h1 h2
      unfold challenge Ed25519.hashModQ at e
      rw [eg]
      refine .challenge ?_ hne e
      obtain ⟨_, R, _, _, _, e1, _⟩ := (Ed25519.verify_iff _ _ _).mp h1
      rw [e1, List.take_left' (Ed25519.enc_length R), List.length_append, Ed25519.enc_length, Ed25519.enc_length]

/-- C93: under every public key that is a point, the eight included, a signature cannot be altered in its second half: two
signatures accepted for one message with the same first 32 bytes are the same. -/
theorem C93_second_half {E : Env} (S : Rfc8032Sound E) (pub : E.EdPub) (hd : pointDecompress (E.edPubBytes pub) ≠ none)
    (msg : Bytes) (t t' : Str) (base base' : MBase) (sig sig' : Bytes) (ht : IsMultibase E base sig t)
    (ht' : IsMultibase E base' sig' t') (h : Accepts E pub msg t) (h' : Accepts E pub msg t')
    (hhead : sig.take 32 = sig'.take 32) : sig = sig' := by
  obtain ⟨_, s1, hex, g1, g2, g3⟩ := h
  obtain ⟨_, s1', hex', g1', g2', g3'⟩ := h'
  cases isMultibase_bytes ht g1
  cases isMultibase_bytes ht' g1'
  rw [isHex_iff.mp g2] at g3
  rw [isHex_iff.mp g2'] at g3'
  have v := S pub _ _ hd g3
  have v' := S pub _ _ hd g3'
  have hlen : (sig.take 32).length = 32 := by
    obtain ⟨_, R, s, _, _, rfl, _⟩ := (Ed25519.verify_iff _ _ _).mp v
    rw [List.take_left' (Ed25519.enc_length R), Ed25519.enc_length]
  rw [← List.take_append_drop 32 sig] at v
  rw [← List.take_append_drop 32 sig', ← hhead] at v'
  have := Ed25519.verify_unique hlen v v'
  rw [← List.take_append_drop 32 sig, ← List.take_append_drop 32 sig', hhead, this]

/-- C93: under every public key but those eight, whoever made it, one signature is accepted for one credential only: two
accepted texts with the same signature bytes hold the same credential and options, or show a collision of SHA-256 or of
SHA-512 modulo the order of the base point. Nothing is assumed about signatures, and nothing about who holds the key. -/
theorem C93_vc {E : Env} (S : Rfc8032Sound E) (H : E.HashLaws) (L : E.JcsLaws) (pub : E.EdPub)
    (hd : pointDecompress (E.edPubBytes pub) ≠ none) (hk : hexEncode (E.edPubBytes pub) ∉ smallKeys) (bs bs' : Bytes)
    (purpose purpose' : ProofPurpose) (v w : VC E) (q q' : Proof) (sig : Bytes) (base base' : MBase)
    (ha : AcceptedVC pub bs purpose v) (hw : AcceptedVC pub bs' purpose' w) (hq : v.proof = some q)
    (hq' : w.proof = some q') (hsig : IsMultibase E base sig q.proofValue)
    (hsig' : IsMultibase E base' sig q'.proofValue) :
    (SameVC (unsignedVC v) (unsignedVC w) ∧ unvalued q = unvalued q' ∧ purpose = purpose') ∨
    Collides E (sig.take 32 ++ E.edPubBytes pub) (optionBytes E (unvalued q)) (vcBytes (unsignedVC v))
      (optionBytes E (unvalued q')) (vcBytes (unsignedVC w)) := by
  rcases C57_vc H L pub bs bs' purpose purpose' v w q q' sig base base' ha hw hq hq' hsig hsig' with h | h
  · exact .inl h
  · exact .inr (collides_of_conflict S hd hk h)

/-- C93: the same for presentations. -/
theorem C93_vp {E : Env} (S : Rfc8032Sound E) (H : E.HashLaws) (L : E.JcsLaws) (pub : E.EdPub)
    (hd : pointDecompress (E.edPubBytes pub) ≠ none) (hk : hexEncode (E.edPubBytes pub) ∉ smallKeys) (bs bs' : Bytes)
    (purpose purpose' : ProofPurpose) (v w : VP E) (q q' : Proof) (sig : Bytes) (base base' : MBase)
    (ha : AcceptedVP pub bs purpose v) (hw : AcceptedVP pub bs' purpose' w) (hq : v.proof = some q)
    (hq' : w.proof = some q') (hsig : IsMultibase E base sig q.proofValue)
    (hsig' : IsMultibase E base' sig q'.proofValue) :
    (SameVP (unsignedVP v) (unsignedVP w) ∧ unvalued q = unvalued q' ∧ purpose = purpose') ∨
    Collides E (sig.take 32 ++ E.edPubBytes pub) (optionBytes E (unvalued q)) (vpBytes (unsignedVP v))
      (optionBytes E (unvalued q')) (vpBytes (unsignedVP w)) := by
  rcases C57_vp H L pub bs bs' purpose purpose' v w q q' sig base base' ha hw hq hq' hsig hsig' with h | h
  · exact .inl h
  · exact .inr (collides_of_conflict S hd hk h)

/-- C93: under each of the eight keys the hash of a message counts only modulo eight: a proof value accepted for one
message is accepted for every message whose hash leaves the same rest. -/
theorem C93_rest {E : Env} (V : Rfc8032Verify E) (pub : E.EdPub) (hk : hexEncode (E.edPubBytes pub) ∈ smallKeys)
    (m m' : Bytes) (t : Str) (base : MBase) (sig : Bytes) (ht : IsMultibase E base sig t)
    (hr : Blake3.leVal (Sha2.sha512 (sig.take 32 ++ E.edPubBytes pub ++ m)) %
        (2 ^ 252 + 27742317777372353535851937790883648493) % 8 =
      Blake3.leVal (Sha2.sha512 (sig.take 32 ++ E.edPubBytes pub ++ m')) %
        (2 ^ 252 + 27742317777372353535851937790883648493) % 8)
    (h : Accepts E pub m t) : Accepts E pub m' t := by
  obtain ⟨_, sig1, hex, g1, g2, g3⟩ := h
  cases isMultibase_bytes ht g1
  refine ⟨_, _, hex, ht, g2, ?_⟩
  obtain ⟨g, eg, hg⟩ := small_point hk
  have hd : pointDecompress (E.edPubBytes pub) ≠ none := by
    obtain ⟨Q, hQ, -⟩ := Ed25519.pointDecompress_enc g
    rw [eg, hQ]
    exact fun h => nomatch h
  rw [isHex_iff.mp g2] at g3 ⊢
  rw [V _ _ _ hd] at g3 ⊢
  rw [eg] at g3 hr ⊢
  exact Ed25519.verify_small hg hr g3

/-- C93: so documents signed by nobody are accepted under each of the eight: to every number there is a proof value, found
without any secret, which is accepted on every complete credential and presentation whose hash is divisible by eight, one
in eight for each number. (For the first of the eight keys this is so for every hash, C79.) -/
theorem C93_forged {E : Env} {seed : E.EdKP → Bytes} (A : Ed25519Keys E seed) (V : Rfc8032Verify E) (L : E.JcsLaws)
    (key : Bytes) (hk : hexEncode key ∈ smallKeys) (r : Nat)
    (hr : r < 2 ^ 252 + 27742317777372353535851937790883648493) :
    ∃ pub t, E.edPubOfBytes key = some pub ∧ IsMultibase58 (pointCompress (pointMul r base) ++ leBytes 32 r) t ∧
      (∀ bs v p, VC.parseJsonBytes E bs = .ok v → v.proof = some p → p.proofValue = t → GoodOptions E p →
        p.proofPurpose ≠ .unknown → VCComplete v →
        Ed25519.hashModQ (pointCompress (pointMul r base) ++ key ++
          message E (optionBytes E (unvalued p)) (vcBytes (unsignedVC v))) % 8 = 0 →
        verify E (VC E) pub bs p.proofPurpose = .ok ⟨true, some (unsignedVC v)⟩) ∧
      ∀ bs v p, VP.parseJsonBytes E bs = .ok v → v.proof = some p → p.proofValue = t → GoodOptions E p →
        p.proofPurpose ≠ .unknown → VPComplete v →
        Ed25519.hashModQ (pointCompress (pointMul r base) ++ key ++
          message E (optionBytes E (unvalued p)) (vpBytes (unsignedVP v))) % 8 = 0 →
        verify E (VP E) pub bs p.proofPurpose = .ok ⟨true, some (unsignedVP v)⟩ := by
  obtain ⟨g, rfl, hg⟩ := small_point hk
  have hd : pointDecompress (enc g) ≠ none := by
    obtain ⟨Q, hQ, -⟩ := Ed25519.pointDecompress_enc g
    rw [hQ]
    exact fun h => nomatch h
  cases hp : E.edPubOfBytes (enc g) with
  | none => exact absurd hp (A.reads _ hd)
  | some pub =>
    have hb := A.bytes _ _ hp
    have ht := multibaseEncode58_spec (pointCompress (pointMul r base) ++ leBytes 32 r)
    have acc : ∀ m, Ed25519.hashModQ (pointCompress (pointMul r base) ++ enc g ++ m) % 8 = 0 →
        Accepts E pub m (multibaseEncode58 (pointCompress (pointMul r base) ++ leBytes 32 r)) := by
      intro m hm
      refine ⟨_, _, _, .base58 ht, hexEncode_spec _, ?_⟩
      rw [V pub m _ (by rw [hb]; exact hd), hb]
      exact Ed25519.verify_made hg hr m hm
    refine ⟨pub, _, rfl, ht, ?_, ?_⟩
    · intro bs v p h1 h2 h3 h4 h5 h6 h7
      exact ((C33_vc L pub bs p.proofPurpose _).mpr ⟨v, p, h1, h2, h4, rfl, h5, h6, h3 ▸ acc _ h7, rfl⟩).1
    · intro bs v p h1 h2 h3 h4 h5 h6 h7
      exact ((C33_vp L pub bs p.proofPurpose _).mpr ⟨v, p, h1, h2, h4, rfl, h5, h6, h3 ▸ acc _ h7, rfl⟩).1

/-! ### Values -/

theorem signing_sound : Rfc8032Sound signing := fun p m sig h => (signing_rfc p m sig h).mp

/-- The sample credential with a given proof value. -/
def signingWith (t : Str) : VC signing := { signingVC with proof := some { toyProof with proofValue := t } }

theorem signing_accepted (pub : signing.EdPub) (t : Str) (h : Accepts signing pub signingMessage t) :
    ∃ text, (signingWith t).toJson = .ok text ∧ AcceptedVC pub (utf8 text.text) .assertionMethod (signingWith t) := by
  obtain ⟨text, h1, h2⟩ := C26_json_roundtrip signing_numLaws (signingWith t) (by exact signingVC_complete)
    (signing_survives _) signing_depth
  have h2' : VC.parseJsonBytes signing (utf8 text.text) = .ok (signingWith t) := by
    rw [utf8_eq]
    exact h2
  refine ⟨text, h1, h2', _, ((C33_vc signing_jcsLaws pub _ .assertionMethod _).mpr
    ⟨signingWith t, { toyProof with proofValue := t }, h2', rfl, ⟨toyProof_good.1, toyProof_good.2, toyProof_good.3⟩, rfl,
      by decide, by exact signingVC_complete, ?_, rfl⟩).1, rfl⟩
  exact signing_message ▸ h

/-- The sum of the base point and the point of order eight: the public key of no key pair, and none of the eight. -/
def mixedKey : Bytes :=
  [0xda, 0x99, 0xe2, 0x8b, 0xa5, 0x29, 0xcd, 0xde, 0x35, 0xa2, 0x5f, 0xba, 0x90, 0x59, 0xe7, 0x8e,
   0xca, 0xee, 0x23, 0x9f, 0x99, 0x75, 0x5b, 0x9b, 0x1a, 0xa4, 0xf6, 0x5d, 0xf0, 0x08, 0x03, 0xe2]

/-- A signature of the sample credential that it accepts. -/
def mixedSignature : Bytes :=
  [0xb4, 0xb9, 0x37, 0xfc, 0xa9, 0x5b, 0x2f, 0x1e, 0x93, 0xe4, 0x1e, 0x62, 0xfc, 0x3c, 0x78, 0x81,
   0x8f, 0xf3, 0x8a, 0x66, 0x09, 0x6f, 0xad, 0x6e, 0x79, 0x73, 0xe5, 0xc9, 0x00, 0x06, 0xd3, 0x21,
   0x70, 0xa4, 0x29, 0x8f, 0xb4, 0xca, 0x48, 0xf7, 0xf9, 0xf4, 0x7e, 0x56, 0xd1, 0xc7, 0x9f, 0x49,
   0xfd, 0x0e, 0x9e, 0xe5, 0x11, 0x2b, 0xe9, 0x61, 0x72, 0x8e, 0x42, 0xf9, 0x12, 0x82, 0x37, 0x0d]

theorem mixed_point : mixedKey = enc (Ed25519.B + eighth) := by
  rw [← Ed25519.pointCompress_eq (Ed25519.rep_add Ed25519.rep_base Ed25519.rep_eighth)]
  decide +kernel

theorem mixed_reads : pointDecompress mixedKey ≠ none := by
  obtain ⟨Q, hQ, -⟩ := Ed25519.pointDecompress_enc (Ed25519.B + eighth)
  rw [mixed_point, hQ]
  exact fun h => nomatch h

theorem mixed_verify : Ed25519.verify mixedKey signingMessage mixedSignature = true := by decide +kernel

theorem mixed_own (secret : Bytes) : mixedKey ≠ publicKey secret := by
  intro e
  rw [mixed_point, Ed25519.publicKey_eq] at e
  have := congrArg addOrderOf (Ed25519.enc_injective e)
  rw [Ed25519.order_generator, Ed25519.order_publicKey] at this
  revert this
  decide +kernel

theorem mixed_accepts (b : MBase) (t : Str) (h : IsMultibase signing b mixedSignature t) :
    Accepts signing (⟨mixedKey, mixed_reads⟩ : signing.EdPub) signingMessage t := by
  refine ⟨b, _, _, h, hexEncode_spec _, ?_⟩
  have := mixed_verify
  revert this
  generalize hk : (⟨mixedKey, mixed_reads⟩ : signing.EdPub) = pub
  have e : mixedKey = pub.1 := by rw [← hk]
  rw [e]
  exact (signing_rfc pub _ _ pub.2).mpr

/-- `C93_second_half`: under that key, the signature with the second half replaced is refused. -/
example (b b' : MBase) (t t' : Str) (h : IsMultibase signing b mixedSignature t)
    (h' : IsMultibase signing b' (mixedSignature.take 32 ++ List.replicate 32 7) t') (pub : signing.EdPub)
    (hp : signing.edPubBytes pub = mixedKey) (ha : Accepts signing pub signingMessage t) : ¬ Accepts signing pub signingMessage t' := by
  intro ha'
  have e := C93_second_half signing_sound pub (by rw [hp]; exact mixed_reads) signingMessage t t' b b' _ _ h h' ha ha' (by decide +kernel)
  revert e
  decide +kernel

/-- `C93_vc`: two spellings of one signature, accepted under a public key that belongs to no key pair. -/
example : ∃ (pub : signing.EdPub) (bs bs' : Bytes) (v w : VC signing) (q q' : Proof),
    (∀ kp, pub ≠ signing.edPub kp) ∧ pointDecompress (signing.edPubBytes pub) ≠ none ∧
    hexEncode (signing.edPubBytes pub) ∉ smallKeys ∧
    AcceptedVC pub bs .assertionMethod v ∧ AcceptedVC pub bs' .assertionMethod w ∧
    v.proof = some q ∧ w.proof = some q' ∧ q ≠ q' ∧ IsMultibase signing .base58Btc mixedSignature q.proofValue ∧
    IsMultibase signing .base16Lower mixedSignature q'.proofValue := by
  have s1 : IsMultibase signing .base58Btc mixedSignature (multibaseEncode58 mixedSignature) :=
    .base58 (multibaseEncode58_spec _)
  have s2 : IsMultibase signing .base16Lower mixedSignature ('f' :: hexEncode mixedSignature) := .base16 (hexEncode_spec _)
  obtain ⟨t, -, h2⟩ := signing_accepted _ _ (mixed_accepts _ _ s1)
  obtain ⟨t', -, h4⟩ := signing_accepted _ _ (mixed_accepts _ _ s2)
  refine ⟨⟨mixedKey, mixed_reads⟩, _, _, _, _, _, _, ?_, mixed_reads, ?_, h2, h4, rfl, rfl, ?_, s1, s2⟩
  · intro kp h
    exact mixed_own kp (congrArg Subtype.val h)
  · show hexEncode mixedKey ∉ smallKeys
    decide +kernel
  · intro h
    have := congrArg (fun q => q.proofValue.head?) h
    revert this
    simp [multibaseEncode58]

/-- The fifth of the eight keys, of order two. -/
def twoKey : Bytes := 0xec :: (List.replicate 30 0xff ++ [0x7f])

theorem twoKey_small : hexEncode twoKey ∈ smallKeys := by decide +kernel

/-- `C93_forged`, `C93_read`: under this key the sample credential is accepted with the signature made of the number one.
Nobody signed it. -/
example : ∃ (pub : signing.EdPub) (t : Str) (text : JSONValue), signing.edPubOfBytes twoKey = some pub ∧
    IsMultibase58 (pointCompress (pointMul 1 base) ++ leBytes 32 1) t ∧ (signingWith t).toJson = .ok text ∧
    AcceptedVC pub (utf8 text.text) .assertionMethod (signingWith t) ∧
    (⟨"#k".toList, "x".toList, "Ed25519VerificationKey2020".toList, 'f' :: hexEncode (utf8 (hexEncode twoKey))⟩ :
      Primary).decodePubKey signing = .ok (.edDSA pub) := by
  obtain ⟨pub, t, h1, h2, h3, -⟩ := C93_forged signing_keys signing_rfc signing_jcsLaws twoKey twoKey_small 1 (by decide)
  obtain ⟨pub', h4, h5⟩ := C93_read signing_keys twoKey twoKey_small
    ⟨"#k".toList, "x".toList, "Ed25519VerificationKey2020".toList, 'f' :: hexEncode (utf8 (hexEncode twoKey))⟩ rfl
    ⟨_, _, .base16 (hexEncode_spec _), hexEncode_spec _⟩
  rw [h1] at h4
  cases h4
  obtain ⟨text, h6, h7⟩ := C26_json_roundtrip signing_numLaws (signingWith t) (by exact signingVC_complete)
    (signing_survives _) signing_depth
  have h7' : VC.parseJsonBytes signing (utf8 text.text) = .ok (signingWith t) := by
    rw [utf8_eq]
    exact h7
  have hm : Ed25519.hashModQ (pointCompress (pointMul 1 base) ++ twoKey ++ signingMessage) % 8 = 0 := by decide +kernel
  refine ⟨pub, t, text, h1, h2, h6, ⟨h7', _, h3 _ _ { toyProof with proofValue := t } h7' rfl rfl
    ⟨toyProof_good.1, toyProof_good.2, toyProof_good.3⟩ (fun h => nomatch h) (by exact signingVC_complete) ?_, rfl⟩, h5⟩
  exact signing_message ▸ hm

/-- `C93_small`, `C93_own`: the public key of the first test of RFC 8032, and the key of order two. -/
example : hexEncode (signing.edPubBytes (signing.edPub Ed25519.secret1)) ∉ smallKeys ∧
    ∃ P, pointDecompress twoKey = some P ∧ pointEqual (pointMul 8 P) neutral = true := by
  refine ⟨C93_own signing_keys _, ?_⟩
  obtain ⟨g, e, -⟩ := small_point twoKey_small
  obtain ⟨Q, hQ, -⟩ := Ed25519.pointDecompress_enc g
  rw [← e] at hQ
  exact ⟨Q, hQ, (C93_small _ _ hQ).mpr twoKey_small⟩

/-- `C93_rest`: the same proof value is accepted under the same key for a message of one byte. -/
example (pub : signing.EdPub) (h : signing.edPubBytes pub = twoKey) :
    Accepts signing pub [10] (multibaseEncode58 (pointCompress (pointMul 1 base) ++ leBytes 32 1)) := by
  have hl : (pointCompress (pointMul 1 base) ++ leBytes 32 1).take 32 = pointCompress (pointMul 1 base) := by decide +kernel
  refine C93_rest signing_rfc pub (h ▸ twoKey_small) signingMessage [10] _ _ _ (.base58 (multibaseEncode58_spec _)) ?_
    ⟨_, _, _, .base58 (multibaseEncode58_spec _), hexEncode_spec _, ?_⟩
  · rw [hl, h]
    decide +kernel
  · refine (signing_rfc pub _ _ pub.2).mpr ?_
    rw [h]
    decide +kernel

/-- `C93_vp`: a signed presentation under the key of its holder. -/
example : ∃ (bs : Bytes) (v : VP signing) (q : Proof) (base : MBase) (sig : Bytes),
    AcceptedVP (signing.edPub Ed25519.secret1) bs .assertionMethod v ∧ v.proof = some q ∧
    IsMultibase signing base sig q.proofValue ∧
    pointDecompress (signing.edPubBytes (signing.edPub Ed25519.secret1)) ≠ none ∧
    hexEncode (signing.edPubBytes (signing.edPub Ed25519.secret1)) ∉ smallKeys := by
  obtain ⟨signed, t, -, -, h3⟩ := C79_roundtrip_vp signing_keys signing_jcsLaws signing_numLaws Ed25519.secret1
    ⟨["c".toList], ["t".toList], [signingVC], none, some "h".toList⟩ toyProof ⟨by simp, by simp, by simp⟩ rfl signing_options
    (by decide) rfl (fun _ hc => by
      rw [List.mem_singleton.mp hc]
      exact ⟨signing_survives _, le_trans (le_of_eq (by simp [signingVC, Json.depth])) (Nat.zero_le 124)⟩)
  obtain ⟨v, p, h4, h5, -, -, -, -, ⟨base, sig, _, h6, -⟩, -⟩ :=
    (C33_vp signing_jcsLaws _ _ _ _).mp ⟨h3, rfl⟩
  exact ⟨_, v, p, base, sig, ⟨h4, _, h3, rfl⟩, h5, h6, (signing.edPub Ed25519.secret1).2, C93_own signing_keys _⟩

end Verif.Props
