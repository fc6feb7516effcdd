import Verif.Concrete.Ed25519Laws
import Verif.Props.Actual
import Verif.Props.Tamper
import Verif.Props.Sizes

/-
C79: the laws assumed of signatures hold of Ed25519 as in RFC 8032 (`Verif/Concrete/Ed25519.lean`), and what follows for
signed documents without any assumption about signatures (core/src/verifiable/proof/eddsa.rs:37-112, serialize.rs:69-73,
verifier.rs:7-17, core/src/account/mod.rs:109-119).
-/

namespace Verif.Spec
open Verif

/-- The keys of the environment are Ed25519 keys; `seed` gives the 32 secret bytes of a key pair. -/
structure Ed25519Keys (E : Env) (seed : E.EdKP → Bytes) : Prop where
  /-- the public key of a key pair -/
  pub : ∀ k, E.edPubBytes (E.edPub k) = Ed25519.publicKey (seed k)
  sign : ∀ k m, E.edSign k m = Ed25519.sign (seed k) m
  /-- what is accepted under the public key of a key pair -/
  verify : ∀ k m sig, E.edVerify (E.edPub k) m (hexEncode sig) = .ok true ↔
    Ed25519.verify (Ed25519.publicKey (seed k)) m sig = true
  /-- encodings of points are read as public keys -/
  reads : ∀ b, Ed25519.pointDecompress b ≠ none → E.edPubOfBytes b ≠ none
  /-- a public key read from bytes has these bytes -/
  bytes : ∀ b p, E.edPubOfBytes b = some p → E.edPubBytes p = b
  /-- public keys with the same bytes are the same -/
  ext : ∀ p p', E.edPubBytes p = E.edPubBytes p' → p = p'
  /-- public keys come from key pairs and from bytes -/
  origin : ∀ p, (∃ k, p = E.edPub k) ∨ ∃ b, E.edPubOfBytes b = some p

/-- Verification is that of RFC 8032 for all public keys that are points, also those that belong to no key pair. -/
def Rfc8032Verify (E : Env) : Prop := ∀ p m sig, Ed25519.pointDecompress (E.edPubBytes p) ≠ none →
  (E.edVerify p m (hexEncode sig) = .ok true ↔ Ed25519.verify (E.edPubBytes p) m sig = true)

/-- Two texts with the same hash: either a collision of SHA-256 on the options, or one on the documents, or one of
SHA-512 modulo the order of the base point on two messages after the same 64 bytes (the first half of the signature and
the public key). -/
inductive Collides (E : Env) (head o d o' d' : Bytes) : Prop where
  | options (hne : o ≠ o') (h : E.sha256 o = E.sha256 o')
  | document (hne : d ≠ d') (h : E.sha256 d = E.sha256 d')
  | challenge (hlen : head.length = 64) (hne : message E o d ≠ message E o' d')
      (h : Blake3.leVal (Sha2.sha512 (head ++ message E o d)) ≡
        Blake3.leVal (Sha2.sha512 (head ++ message E o' d')) [MOD 2 ^ 252 + 27742317777372353535851937790883648493])

end Verif.Spec

namespace Verif.Props
open Verif Spec
open Verif.Ed25519 (publicKey challenge enc pointDecompress)
open Verif.Blake3 (leBytes)

/-- C79: the laws assumed of signatures hold of Ed25519. -/
theorem C79_laws {E : Env} {seed : E.EdKP → Bytes} (A : Ed25519Keys E seed) : E.EdLaws := by
  refine ⟨fun k m => ?_, fun p => ?_⟩
  · rw [A.verify, A.sign]
    exact Ed25519.verify_sign _ _
  · rcases A.origin p with ⟨k, rfl⟩ | ⟨b, h⟩
    · have hd : pointDecompress (E.edPubBytes (E.edPub k)) ≠ none := by
        rw [A.pub, Ed25519.publicKey_eq]
        obtain ⟨Q, hQ, -⟩ := Ed25519.pointDecompress_enc (Ed25519.secretScalar (seed k) • Ed25519.B)
        rw [hQ]
        exact fun h => nomatch h
      cases hp : E.edPubOfBytes (E.edPubBytes (E.edPub k)) with
      | none => exact absurd hp (A.reads _ hd)
      | some p' => rw [A.ext _ _ (A.bytes _ _ hp)]
    · rw [A.bytes _ _ h, h]

/-- C79: public keys of key pairs have 32 bytes, signatures 64; the text of a signature has 65 to 89 characters. -/
theorem C79_sizes {E : Env} {seed : E.EdKP → Bytes} (A : Ed25519Keys E seed) (L : E.JcsLaws) (kp : E.EdKP) :
    (E.edPubBytes (E.edPub kp)).length = 32 ∧ (∀ m, (E.edSign kp m).length = 64) ∧
    (∀ v opts out q, sign E (VC E) kp v opts = .ok out → out.proof = some q →
      65 ≤ q.proofValue.length ∧ q.proofValue.length ≤ 89) ∧
    ∀ v opts out q, sign E (VP E) kp v opts = .ok out → out.proof = some q →
      65 ≤ q.proofValue.length ∧ q.proofValue.length ≤ 89 := by
  have h64 : ∀ m, (E.edSign kp m).length = 64 := fun m => by rw [A.sign]; exact Ed25519.sign_length _ _
  refine ⟨by rw [A.pub]; exact Ed25519.publicKey_length _, h64, ?_, ?_⟩
  · exact fun v opts out q h1 h2 => C74_signature_vc L kp v opts out q h1 h2 h64
  · exact fun v opts out q h1 h2 => C74_signature_vp L kp v opts out q h1 h2 h64

/-- C79: what the public key of a key pair accepts: the equation s B = R + h A between points of the curve, with A the
public key, R and s the halves of the signature and h the hash of R, A and the message. -/
theorem C79_equation {E : Env} {seed : E.EdKP → Bytes} (A : Ed25519Keys E seed) (kp : E.EdKP) (msg : Bytes) (t : Str) :
    Accepts E (E.edPub kp) msg t ↔
      ∃ base R s, IsMultibase E base (enc R ++ leBytes 32 s) t ∧
        s < 2 ^ 252 + 27742317777372353535851937790883648493 ∧
        s • Ed25519.B = R + Ed25519.hashModQ (enc R ++ E.edPubBytes (E.edPub kp) ++ msg) •
          (Ed25519.secretScalar (seed kp) • Ed25519.B) := by
  rw [A.pub]
  constructor
  · rintro ⟨base, sig, hex, h1, h2, h3⟩
    rw [isHex_iff.mp h2, A.verify, Ed25519.verify_iff] at h3
    obtain ⟨P, R, s, e1, hs, rfl, e2⟩ := h3
    have : P = Ed25519.secretScalar (seed kp) • Ed25519.B :=
      Ed25519.enc_injective (by rw [← e1, Ed25519.publicKey_eq])
    rw [this] at e2
    exact ⟨base, R, s, h1, hs, e2⟩
  · rintro ⟨base, R, s, h1, hs, e⟩
    refine ⟨base, _, _, h1, hexEncode_spec _, ?_⟩
    rw [A.verify, Ed25519.verify_iff]
    exact ⟨_, R, s, Ed25519.publicKey_eq _, hs, rfl, e⟩

/-- C79: signed credentials are accepted, with no assumption about signatures. -/
theorem C79_roundtrip_vc {E : Env} {seed : E.EdKP → Bytes} (A : Ed25519Keys E seed) (L : E.JcsLaws) (N : E.NumLaws)
    (kp : E.EdKP) (v : VC E) (opts : Proof) (hv : VCComplete v) (hproof : v.proof = none) (ho : GoodOptions E opts)
    (hp : opts.proofPurpose ≠ .unknown) (hval : opts.proofValue = []) (hn : Survives E v.credentialSubject.1)
    (hd : v.credentialSubject.1.depth ≤ 126) :
    ∃ signed t, sign E (VC E) kp v opts = .ok signed ∧ signed.toJson = .ok t ∧
      verify E (VC E) (E.edPub kp) (utf8 t.text) opts.proofPurpose = .ok ⟨true, some v⟩ := by
  obtain ⟨signed, h1, -, h2⟩ := C31_vc L N (C79_laws A) kp v opts hv hproof ho hp hval
  obtain ⟨t, h3, h4⟩ := h2 hn hd
  exact ⟨signed, t, h1, h3, h4⟩

/-- C79: and presentations. -/
theorem C79_roundtrip_vp {E : Env} {seed : E.EdKP → Bytes} (A : Ed25519Keys E seed) (L : E.JcsLaws) (N : E.NumLaws)
    (kp : E.EdKP) (v : VP E) (opts : Proof) (hv : VPComplete v) (hproof : v.proof = none) (ho : GoodOptions E opts)
    (hp : opts.proofPurpose ≠ .unknown) (hval : opts.proofValue = [])
    (hn : ∀ c ∈ v.verifiableCredential, Survives E c.credentialSubject.1 ∧ c.credentialSubject.1.depth ≤ 124) :
    ∃ signed t, sign E (VP E) kp v opts = .ok signed ∧ signed.toJson = .ok t ∧
      verify E (VP E) (E.edPub kp) (utf8 t.text) opts.proofPurpose = .ok ⟨true, some v⟩ := by
  obtain ⟨signed, h1, -, h2⟩ := C31_vp L N (C79_laws A) kp v opts hv hproof ho hp hval
  obtain ⟨t, h3, h4⟩ := h2 hn
  exact ⟨signed, t, h1, h3, h4⟩

/-- One signature, two messages, one key pair: a collision. -/
theorem collides_of_broken {E : Env} {seed : E.EdKP → Bytes} (A : Ed25519Keys E seed) {kp : E.EdKP} {sig o d o' d' : Bytes}
    (h : Broken E kp (E.edPub kp) sig o d o' d') :
    Collides E (sig.take 32 ++ E.edPubBytes (E.edPub kp)) o d o' d' := by
  cases h with
  | options hne h => exact .options hne h
  | document hne h => exact .document hne h
  | signature hne h hex hs h' =>
    have h1 := (C79_laws A).verify_sign kp (E.sha256 o ++ E.sha256 d)
    rw [← h, A.verify] at h1
    rw [isHex_iff.mp hs, A.verify] at h'
    have := Ed25519.verify_two h1 h'
    unfold challenge Ed25519.hashModQ at this
    refine .challenge ?_ hne ?_
    · rw [List.length_append, List.length_take, h, (show (E.edSign kp _).length = 64 by rw [A.sign]; exact Ed25519.sign_length _ _),
        A.pub, Ed25519.publicKey_length]
      rfl
    · rw [A.pub]
      exact this

/-- C79: whatever the key pair's own public key accepts with the signature of a signed credential is that credential with
those options, up to number spelling in the subject, or it shows a collision of hashes. Nothing is assumed about
signatures. -/
theorem C79_tamper_vc {E : Env} {seed : E.EdKP → Bytes} (A : Ed25519Keys E seed) (H : E.HashLaws) (L : E.JcsLaws)
    (kp : E.EdKP) (v : VC E) (opts : Proof) (signed : VC E) (q0 : Proof) (sig : Bytes)
    (hs : sign E (VC E) kp v opts = .ok signed) (hq0 : signed.proof = some q0) (hsig : IsMultibase58 sig q0.proofValue)
    (bs : Bytes) (purpose : ProofPurpose) (r : VerificationResult (VC E)) (w : VC E) (q : Proof) (base : MBase)
    (hr : verify E (VC E) (E.edPub kp) bs purpose = .ok r) (hok : r.verified = true)
    (hw : VC.parseJsonBytes E bs = .ok w) (hq : w.proof = some q) (hqsig : IsMultibase E base sig q.proofValue) :
    (SameVC v (unsignedVC w) ∧ opts = unvalued q) ∨
    Collides E (sig.take 32 ++ E.edPubBytes (E.edPub kp)) (optionBytes E opts) (vcBytes v) (optionBytes E (unvalued q))
      (vcBytes (unsignedVC w)) := by
  rcases C35_vc H L kp v opts signed q0 sig hs hq0 hsig (E.edPub kp) bs purpose r w q base hr hok hw hq hqsig with h | h
  · exact .inl h
  · exact .inr (collides_of_broken A h)

/-- C79: the same for presentations. -/
theorem C79_tamper_vp {E : Env} {seed : E.EdKP → Bytes} (A : Ed25519Keys E seed) (H : E.HashLaws) (L : E.JcsLaws)
    (kp : E.EdKP) (v : VP E) (opts : Proof) (signed : VP E) (q0 : Proof) (sig : Bytes)
    (hs : sign E (VP E) kp v opts = .ok signed) (hq0 : signed.proof = some q0) (hsig : IsMultibase58 sig q0.proofValue)
    (bs : Bytes) (purpose : ProofPurpose) (r : VerificationResult (VP E)) (w : VP E) (q : Proof) (base : MBase)
    (hr : verify E (VP E) (E.edPub kp) bs purpose = .ok r) (hok : r.verified = true)
    (hw : VP.parseJsonBytes E bs = .ok w) (hq : w.proof = some q) (hqsig : IsMultibase E base sig q.proofValue) :
    (SameVP v (unsignedVP w) ∧ opts = unvalued q) ∨
    Collides E (sig.take 32 ++ E.edPubBytes (E.edPub kp)) (optionBytes E opts) (vpBytes v) (optionBytes E (unvalued q))
      (vpBytes (unsignedVP w)) := by
  rcases C35_vp H L kp v opts signed q0 sig hs hq0 hsig (E.edPub kp) bs purpose r w q base hr hok hw hq hqsig with h | h
  · exact .inl h
  · exact .inr (collides_of_broken A h)

/-- C79: a signature cannot be altered in its second half: of all texts whose first 32 bytes are given, at most one
signature is accepted for a message. -/
theorem C79_second_half {E : Env} {seed : E.EdKP → Bytes} (A : Ed25519Keys E seed) (kp : E.EdKP) (msg : Bytes) (t t' : Str)
    (base base' : MBase) (sig sig' : Bytes) (ht : IsMultibase E base sig t) (ht' : IsMultibase E base' sig' t')
    (h : Accepts E (E.edPub kp) msg t) (h' : Accepts E (E.edPub kp) msg t') (hhead : sig.take 32 = sig'.take 32) :
    sig = sig' := by
  obtain ⟨_, s1, hex, g1, g2, g3⟩ := h
  obtain ⟨_, s1', hex', g1', g2', g3'⟩ := h'
  cases isMultibase_bytes ht g1
  cases isMultibase_bytes ht' g1'
  rw [isHex_iff.mp g2, A.verify] at g3
  rw [isHex_iff.mp g2', A.verify] at g3'
  have hlen : (sig.take 32).length = 32 := by
    obtain ⟨_, R, s, _, _, rfl, _⟩ := (Ed25519.verify_iff _ _ _).mp g3
    rw [List.take_left' (Ed25519.enc_length R), Ed25519.enc_length]
  rw [← List.take_append_drop 32 sig] at g3
  rw [← List.take_append_drop 32 sig', ← hhead] at g3'
  have := Ed25519.verify_unique hlen g3 g3'
  rw [← List.take_append_drop 32 sig, ← List.take_append_drop 32 sig', hhead, this]

/-- The public key of the neutral point, and the signature it accepts. -/
def neutralKey : Bytes := 1 :: List.replicate 31 0
def neutralSignature : Bytes := neutralKey ++ List.replicate 32 0

theorem enc_zero : enc 0 = neutralKey := by
  have hy : (1 : ZMod Ed25519.p).val = 1 := ZMod.val_one _
  show leBytes 32 ((1 : ZMod Ed25519.p).val + 2 ^ 255 * ((0 : ZMod Ed25519.p).val % 2)) = _
  rw [hy, ZMod.val_zero]
  decide +kernel

/-- C79: a public key that belongs to no key pair. Verification as in RFC 8032 accepts it, and one signature under it for
every message: there is one text that, as proof value, makes every complete credential and presentation with good
options accepted under this key. What is accepted under a key found in a document need not have been signed by anybody. -/
theorem C79_neutral_key {E : Env} {seed : E.EdKP → Bytes} (A : Ed25519Keys E seed) (V : Rfc8032Verify E) (L : E.JcsLaws) :
    ∃ pub t, E.edPubOfBytes neutralKey = some pub ∧ IsMultibase58 neutralSignature t ∧
      (∀ bs v p, VC.parseJsonBytes E bs = .ok v → v.proof = some p → p.proofValue = t → GoodOptions E p →
        p.proofPurpose ≠ .unknown → VCComplete v →
        verify E (VC E) pub bs p.proofPurpose = .ok ⟨true, some (unsignedVC v)⟩) ∧
      ∀ bs v p, VP.parseJsonBytes E bs = .ok v → v.proof = some p → p.proofValue = t → GoodOptions E p →
        p.proofPurpose ≠ .unknown → VPComplete v →
        verify E (VP E) pub bs p.proofPurpose = .ok ⟨true, some (unsignedVP v)⟩ := by
  have hd : pointDecompress neutralKey ≠ none := by
    obtain ⟨Q, hQ, -⟩ := Ed25519.pointDecompress_enc 0
    rw [enc_zero] at hQ
    rw [hQ]
    exact fun h => nomatch h
  have hz : neutralSignature = enc 0 ++ leBytes 32 0 := by
    rw [enc_zero]
    decide +kernel
  cases hp : E.edPubOfBytes neutralKey with
  | none => exact absurd hp (A.reads _ hd)
  | some pub =>
    have hb := A.bytes _ _ hp
    have ht := multibaseEncode58_spec neutralSignature
    have acc : ∀ m, Accepts E pub m (multibaseEncode58 neutralSignature) := by
      intro m
      refine ⟨_, _, _, .base58 ht, hexEncode_spec _, ?_⟩
      rw [V pub m _ (by rw [hb]; exact hd), hb, hz, ← enc_zero]
      exact Ed25519.verify_neutral m
    refine ⟨pub, _, rfl, ht, ?_, ?_⟩
    · intro bs v p h1 h2 h3 h4 h5 h6
      exact ((C33_vc L pub bs p.proofPurpose _).mpr ⟨v, p, h1, h2, h4, rfl, h5, h6, h3 ▸ acc _, rfl⟩).1
    · intro bs v p h1 h2 h3 h4 h5 h6
      exact ((C33_vp L pub bs p.proofPurpose _).mpr ⟨v, p, h1, h2, h4, rfl, h5, h6, h3 ▸ acc _, rfl⟩).1

/-! ### A world with Ed25519, and values in it -/

/-- The world of `real` with Ed25519 keys: key pairs are their 32 secret bytes, public keys the encodings of points, and
the PEM text of a key is the hex text of its secret. -/
def signing : Env :=
  { real with
    EdSeed := Bytes
    EdKP := Bytes
    EdPriv := Bytes
    EdPub := { b : Bytes // pointDecompress b ≠ none }
    edGenerate := id
    edPub := fun k => ⟨publicKey k, by
      obtain ⟨Q, hQ, -⟩ := Ed25519.pointDecompress_enc (Ed25519.secretScalar k • Ed25519.B)
      rw [Ed25519.publicKey_eq, hQ]
      exact fun h => nomatch h⟩
    edPriv := id
    edPubBytes := fun p => p.1
    edPubOfBytes := fun b => if h : pointDecompress b ≠ none then some ⟨b, h⟩ else none
    edPem := fun k => .ok (hexEncode k)
    edOfPem := fun t =>
      match hexDecode t with
      | some k => .ok k
      | none => .error "bad pem".toList
    edSign := Ed25519.sign
    edVerify := fun p m t =>
      match hexDecode t with
      | some sig => .ok (Ed25519.verify p.1 m sig)
      | none => .error "bad signature".toList }

theorem signing_verify (p : signing.EdPub) (m sig : Bytes) :
    signing.edVerify p m (hexEncode sig) = .ok true ↔ Ed25519.verify (signing.edPubBytes p) m sig = true := by
  show (match hexDecode (hexEncode sig) with
    | some sig => Except.ok (Ed25519.verify p.1 m sig)
    | none => .error "bad signature".toList) = .ok true ↔ _
  rw [hexDecode_encode]
  exact ⟨Except.ok.inj, congrArg Except.ok⟩

theorem signing_keys : Ed25519Keys signing (fun k => k) where
  pub _ := rfl
  sign _ _ := rfl
  verify k m sig := signing_verify _ m sig
  reads b h := by
    show (if h : pointDecompress b ≠ none then some (⟨b, h⟩ : signing.EdPub) else none) ≠ none
    rw [dif_pos h]
    exact fun h => nomatch h
  bytes b p h := by
    have h' : (if h : pointDecompress b ≠ none then some (⟨b, h⟩ : signing.EdPub) else none) = some p := h
    split at h'
    · cases h'; rfl
    · cases h'
  ext p p' h := Subtype.ext h
  origin p := .inr ⟨p.1, by
    show (if h : pointDecompress p.1 ≠ none then some (⟨p.1, h⟩ : signing.EdPub) else none) = some p
    rw [dif_pos p.2]
    rfl⟩

theorem signing_rfc : Rfc8032Verify signing := fun p m sig _ => signing_verify p m sig

theorem signing_actual : Actual signing := ⟨rfl, rfl, rfl, real_actual.enc, real_actual.dec⟩

theorem signing_jcsLaws : signing.JcsLaws :=
  ⟨Toy.jcsLaws.num_tok, Toy.jcsLaws.key_total, Toy.jcsLaws.key_trans, Toy.jcsLaws.key_antisymm⟩

theorem signing_numLaws : signing.NumLaws := Toy.numLaws

theorem signing_dhLaw : signing.DhLaw := Toy.dhLaw

theorem signing_pemLaw : signing.PemLaw := by
  have key : ∀ (k : Bytes) (t : Str), (Except.ok (hexEncode k) : Except Str Str) = .ok t →
      (match hexDecode t with
      | some k => Except.ok k
      | none => .error "bad pem".toList) = (.ok k : Except Str Bytes) := by
    intro k t h
    cases h
    rw [hexDecode_encode]
  exact key

/-- All laws together: the assumptions of every theorem about keys and documents hold in a world with the actual hashes,
cipher and signatures. -/
theorem signing_laws : signing.HashLaws ∧ signing.EdLaws ∧ signing.PemLaw ∧ signing.DhLaw ∧ signing.AeadLaw ∧
    signing.NumLaws ∧ signing.JcsLaws :=
  ⟨(C78_laws signing_actual).1, C79_laws signing_keys, signing_pemLaw, signing_dhLaw, (C78_laws signing_actual).2,
   signing_numLaws, signing_jcsLaws⟩

/-- A sample credential. -/
def signingVC : VC signing :=
  ⟨["c".toList], ["t".toList], ⟨.str "b".toList, trivial⟩, none, "urn:1".toList, "did:prople:x".toList⟩

theorem signingVC_complete : VCComplete signingVC := ⟨by simp [signingVC], by simp [signingVC], by simp [signingVC]⟩

theorem signing_options : GoodOptions signing toyProof := ⟨toyProof_good.1, toyProof_good.2, toyProof_good.3⟩

/-- The signed credential. -/
def signingSigned : VC signing :=
  { signingVC with proof := some { toyProof with proofValue :=
      "z4GdmCZd9KYQ3gaH8K484VdrngXecoSQaozuCKrF3Xozerrw7kih4umP9CzonGa9SH6FTZ6k5mEzoyW4nVncvC8NU".toList } }

/-- The two canonical texts. -/
theorem signing_texts : canonicalText signing (proofObject toyProof) =
      ("{\"created\":\"2024\",\"cryptosuite\":\"eddsa-jcs-2022\",\"id\":\"p1\",\"proofPurpose\":\"assertionMethod" ++
       "\",\"proofValue\":\"\",\"type\":\"DataIntegrityProof\",\"verificationMethod\":\"did:x#k\"}").toList ∧
    canonicalText signing (vcObject signingVC) =
      "{\"@context\":[\"c\"],\"credentialSubject\":\"b\",\"id\":\"urn:1\",\"issuer\":\"did:prople:x\",\"type\":[\"t\"]}".toList := by
  decide +kernel

/-- The signed message. -/
def signingMessage : Bytes :=
  [0x75, 0x3a, 0xf5, 0x1f, 0xd2, 0x04, 0x97, 0xc5, 0xef, 0x5b, 0xf7, 0x34, 0x85, 0xd7, 0xfe, 0x87,
   0x99, 0x16, 0xa8, 0x4e, 0x13, 0xe6, 0xc6, 0x47, 0xa2, 0x10, 0x03, 0x32, 0x27, 0xd5, 0x50, 0x50,
   0xd6, 0xd2, 0x5e, 0xbb, 0xe7, 0xc8, 0xd0, 0xb4, 0x7f, 0x76, 0xcc, 0x9f, 0x4d, 0xd7, 0x5e, 0xaf,
   0xe0, 0x4c, 0xb1, 0x35, 0xa6, 0x44, 0x4a, 0x68, 0x9f, 0x68, 0x23, 0x38, 0xf0, 0xef, 0xcf, 0x1d]

theorem signing_message : message signing (optionBytes signing toyProof) (vcBytes signingVC) = signingMessage := by
  unfold message optionBytes vcBytes
  rw [signing_texts.1, signing_texts.2]
  show Sha2.sha256 _ ++ Sha2.sha256 _ = _
  decide +kernel

theorem signing_value : multibaseEncode58 (Ed25519.sign Ed25519.secret1 signingMessage) =
    "z4GdmCZd9KYQ3gaH8K484VdrngXecoSQaozuCKrF3Xozerrw7kih4umP9CzonGa9SH6FTZ6k5mEzoyW4nVncvC8NU".toList := by
  decide +kernel

/-- The sample credential under the secret key of the first test of RFC 8032. The proof value is the one computed by a
Python transcription of the reference program there, with `hashlib`, over `json.dumps` with sorted keys of options and
credential. -/
theorem signing_signed : sign signing (VC signing) Ed25519.secret1 signingVC toyProof = .ok signingSigned := by
  refine ((C32_vc signing_jcsLaws Ed25519.secret1 signingVC toyProof).1 _).mpr
    ⟨signing_options, by decide, signingVC_complete, _, ?_, rfl⟩
  rw [signing_message, ← signing_value]
  exact multibaseEncode58_spec _

theorem signing_survives (j : Json (Num signing.F)) : Survives signing j := by
  intro f _
  cases f <;> rfl

theorem signing_depth : signingVC.credentialSubject.1.depth ≤ 126 := by simp [signingVC, Json.depth]

/-- Its JSON text is accepted, and the credential comes back. The hypotheses of `C79_roundtrip_vc` and `C79_tamper_vc` hold. -/
example : ∃ t, signingSigned.toJson = .ok t ∧ VC.parseJsonBytes signing (utf8 t.text) = .ok signingSigned ∧
    verify signing (VC signing) (signing.edPub Ed25519.secret1) (utf8 t.text) .assertionMethod = .ok ⟨true, some signingVC⟩ := by
  obtain ⟨signed, t, h1, h2, h3⟩ := C79_roundtrip_vc signing_keys signing_jcsLaws signing_numLaws Ed25519.secret1 signingVC
    toyProof signingVC_complete rfl signing_options (by decide) rfl (signing_survives _) signing_depth
  rw [signing_signed] at h1
  cases h1
  obtain ⟨t', h4, h5⟩ := C26_json_roundtrip signing_numLaws signingSigned (by exact signingVC_complete)
    (signing_survives _) signing_depth
  rw [h2] at h4
  cases h4
  refine ⟨t, h2, ?_, h3⟩
  rw [utf8_eq]
  exact h5

/-- The same for `C79_roundtrip_vp` and `C79_tamper_vp`. -/
example : ∃ signed t, sign signing (VP signing) Ed25519.secret1 ⟨["c".toList], ["t".toList], [signingVC], none, some "h".toList⟩ toyProof =
      .ok signed ∧ signed.toJson = .ok t ∧
    verify signing (VP signing) (signing.edPub Ed25519.secret1) (utf8 t.text) .assertionMethod =
      .ok ⟨true, some ⟨["c".toList], ["t".toList], [signingVC], none, some "h".toList⟩⟩ :=
  C79_roundtrip_vp signing_keys signing_jcsLaws signing_numLaws Ed25519.secret1 _
    toyProof ⟨by simp, by simp, by simp⟩ rfl signing_options (by decide) rfl
    (fun _ hc => by
      rw [List.mem_singleton.mp hc]
      exact ⟨signing_survives _, le_trans (le_of_eq (by simp [signingVC, Json.depth])) (Nat.zero_le 124)⟩)

/-- `C79_sizes` on it. -/
example : "z4GdmCZd9KYQ3gaH8K484VdrngXecoSQaozuCKrF3Xozerrw7kih4umP9CzonGa9SH6FTZ6k5mEzoyW4nVncvC8NU".toList.length ≤ 89 :=
  ((C79_sizes signing_keys signing_jcsLaws Ed25519.secret1).2.2.1 _ _ _ _ signing_signed rfl).2

theorem signing_accepts (k m : Bytes) : Accepts signing (signing.edPub k) m (multibaseEncode58 (Ed25519.sign k m)) :=
  ⟨_, _, _, .base58 (multibaseEncode58_spec _), hexEncode_spec _, (C79_laws signing_keys).verify_sign k m⟩

/-- `C79_equation` and `C79_second_half`: the signature of the sample, and one that differs from it in the second half. -/
example : Accepts signing (signing.edPub Ed25519.secret1) signingMessage
      (multibaseEncode58 (Ed25519.sign Ed25519.secret1 signingMessage)) ∧
    ¬ Accepts signing (signing.edPub Ed25519.secret1) signingMessage
      (multibaseEncode58 ((Ed25519.sign Ed25519.secret1 signingMessage).take 32 ++ List.replicate 32 7)) := by
  have h := signing_accepts Ed25519.secret1 signingMessage
  have hd : (Ed25519.sign Ed25519.secret1 signingMessage).drop 32 ≠ List.replicate 32 7 := by decide +kernel
  have hl := Ed25519.sign_length Ed25519.secret1 signingMessage
  revert h hd hl
  generalize Ed25519.sign Ed25519.secret1 signingMessage = sig
  intro h hd hl
  have h32 : (sig.take 32).length = 32 := by rw [List.length_take, hl]; rfl
  refine ⟨h, fun h' => ?_⟩
  have := C79_second_half signing_keys Ed25519.secret1 signingMessage _ _ _ _ _ _ (.base58 (multibaseEncode58_spec _))
    (.base58 (multibaseEncode58_spec _)) h h' (List.take_left' h32).symm
  exact hd (by rw [this, List.drop_left' h32])

/-- `C79_neutral_key`: the sample credential with a proof value that no secret key made. -/
example : ∃ pub t text, signing.edPubOfBytes neutralKey = some pub ∧
    ({ signingVC with proof := some { toyProof with proofValue := t } } : VC signing).toJson = .ok text ∧
    verify signing (VC signing) pub (utf8 text.text) .assertionMethod = .ok ⟨true, some signingVC⟩ := by
  obtain ⟨pub, t, h1, -, h2, -⟩ := C79_neutral_key signing_keys signing_rfc signing_jcsLaws
  obtain ⟨text, h4, h5⟩ := C26_json_roundtrip signing_numLaws
    ({ signingVC with proof := some { toyProof with proofValue := t } } : VC signing) (by exact signingVC_complete)
    (signing_survives _) signing_depth
  refine ⟨pub, t, text, h1, h4, ?_⟩
  rw [utf8_eq]
  exact h2 _ _ _ h5 rfl rfl ⟨toyProof_good.1, toyProof_good.2, toyProof_good.3⟩ (fun h => nomatch h)
    (by exact signingVC_complete)

end Verif.Props
