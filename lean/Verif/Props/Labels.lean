import Verif.Props.Challenge

/-
C107: `Account::signature` (core/src/account/mod.rs:117-119) signs any bytes, also the 64 bytes that stand for a credential or
a presentation (core/src/verifiable/proof/hash.rs), so who gets raw signatures gets proofs. A caller that puts a label and the
occasion before the bytes keeps the two apart: then the alternative "signed as raw bytes" of C64, C102 and C105 is gone.
-/

namespace Verif.Labels
open Verif

/-- Longer than the 64 bytes signed for documents, and not the beginning of an endorsement. -/
def label : Str := "Bytes signed on request by this account, no proof and no DID document, on the occasion: ".toList

/-- What is signed for these bytes on this occasion. -/
def frame (occasion m : Bytes) : Bytes := utf8Encode (label ++ hexEncode occasion ++ ":".toList) ++ m

/-- The caller's way to sign bytes. -/
def stamp {E : Env} (a : Account E) (occasion m : Bytes) : Str := hexEncode (a.sign (frame occasion m))

/-- The caller's way to check this. -/
def check (E : Env) (pub : E.EdPub) (occasion m : Bytes) (mark : Str) : Bool :=
  match E.edVerify pub (frame occasion m) mark with
  | .ok true => true
  | _ => false

/-- The same for someone who knows the DID only and is given the public key. -/
def checkFrom (E : Env) (did : Str) (key occasion m : Bytes) (mark : Str) : Bool :=
  match E.edPubOfBytes key with
  | none => false
  | some pub => decide (Careful.didOf E pub = did) && check E pub occasion m mark

end Verif.Labels

namespace Verif.Spec
open Verif

/-- The bytes signed for `m` on an occasion. -/
def Framed (occasion m framed : Bytes) : Prop :=
  ∃ hex, IsHex occasion hex ∧
    framed = utf8 "Bytes signed on request by this account, no proof and no DID document, on the occasion: ".toList ++ utf8 hex ++ 58 :: m

end Verif.Spec

namespace Verif.Props
open Verif Spec Careful Labels

/-! ### What raw signatures give away -/

/-- C107: why it is needed. There is a way to compute 64 bytes from a credential and options, and one to put a credential together
from a signature on them, such that the result is just what the library makes with the key: one raw signature is one credential. -/
theorem C107_raw_vc {E : Env} (H : E.HashLaws) (L : E.JcsLaws) : ∃ (digest : VC E → Proof → Bytes) (join : VC E → Proof → Bytes → VC E),
    ∀ (a : Account E) (v : VC E) (opts : Proof) (out : VC E), sign E (VC E) a.pair v opts = .ok out →
      (digest v opts).length = 64 ∧ out = join v opts (a.sign (digest v opts)) := by
  refine ⟨fun v opts => message E (optionBytes E opts) (vcBytes v), fun v opts sig => ⟨v.contexts, v.types, v.credentialSubject,
    some ⟨opts.id, opts.typ, opts.proofPurpose, multibaseEncode58 sig, opts.verificationMethod, opts.created, opts.expires,
      opts.cryptosuite⟩, v.id, v.issuer⟩, fun a v opts out h => ⟨by simp [message, H.sha256_len], ?_⟩⟩
  obtain ⟨-, -, -, text, ht, rfl⟩ := ((C32_vc L a.pair v opts).1 out).mp h
  rw [ht.unique]
  rfl

/-- C107 (presentations). -/
theorem C107_raw_vp {E : Env} (H : E.HashLaws) (L : E.JcsLaws) : ∃ (digest : VP E → Proof → Bytes) (join : VP E → Proof → Bytes → VP E),
    ∀ (a : Account E) (v : VP E) (opts : Proof) (out : VP E), sign E (VP E) a.pair v opts = .ok out →
      (digest v opts).length = 64 ∧ out = join v opts (a.sign (digest v opts)) := by
  refine ⟨fun v opts => message E (optionBytes E opts) (vpBytes v), fun v opts sig => ⟨v.contexts, v.types, v.verifiableCredential,
    some ⟨opts.id, opts.typ, opts.proofPurpose, multibaseEncode58 sig, opts.verificationMethod, opts.created, opts.expires,
      opts.cryptosuite⟩, v.holder⟩, fun a v opts out h => ⟨by simp [message, H.sha256_len], ?_⟩⟩
  obtain ⟨-, -, -, text, ht, rfl⟩ := ((C32_vp L a.pair v opts).1 out).mp h
  rw [ht.unique]
  rfl

/-! ### Labels -/

theorem frame_iff (occasion m framed : Bytes) : framed = frame occasion m ↔ Framed occasion m framed := by
  have e : frame occasion m = utf8 label ++ utf8 (hexEncode occasion) ++ 58 :: m := by
    unfold frame
    rw [utf8Encode_append, utf8Encode_append, utf8_eq, utf8_eq, List.append_assoc (utf8Encode label ++ _)]
    rfl
  rw [e]
  constructor
  · rintro rfl
    exact ⟨_, hexEncode_spec _, rfl⟩
  · rintro ⟨hex, h1, rfl⟩
    rw [isHex_iff.mp h1]
    rfl

theorem utf8Encode_hex (b : Bytes) : 58 ∉ utf8Encode (hexEncode b) := by
  intro h
  obtain ⟨c, hc, h⟩ := List.mem_flatMap.mp h
  have hr := hexEncode_chars b c hc
  rw [utf8Encode_ascii c (by omega)] at h
  have e := congrArg UInt8.toNat (List.mem_singleton.mp h)
  rw [byte_toNat] at e
  have : (58 : UInt8).toNat = 58 := rfl
  omega

/-- C107: the bytes signed have one occasion and one content. -/
theorem C107_frame (o m o' m' framed : Bytes) (h : Framed o m framed) (h' : Framed o' m' framed) : o = o' ∧ m = m' := by
  obtain ⟨hex, h1, rfl⟩ := h
  obtain ⟨hex', h1', e⟩ := h'
  rw [isHex_iff.mp h1, isHex_iff.mp h1', List.append_assoc, List.append_assoc, utf8_eq (hexEncode o), utf8_eq (hexEncode o')] at e
  have e := List.append_cancel_left e
  have key : ∀ (a b x y : Bytes), 58 ∉ a → 58 ∉ b → a ++ 58 :: x = b ++ 58 :: y → a = b ∧ x = y := by
    intro a
    induction a with
    | nil =>
      intro b x y _ hb e
      cases b with
      | nil => simpa using e
      | cons c b => simp only [List.nil_append, List.cons_append, List.cons.injEq] at e; exact absurd (by simp [← e.1]) hb
    | cons c a ih =>
      intro b x y ha hb e
      cases b with
      | nil => simp only [List.nil_append, List.cons_append, List.cons.injEq] at e; exact absurd (by simp [e.1]) ha
      | cons c' b =>
        simp only [List.cons_append, List.cons.injEq] at e
        obtain ⟨h1, h2⟩ := ih b x y (fun m => ha (by simp [m])) (fun m => hb (by simp [m])) e.2
        exact ⟨by rw [e.1, h1], h2⟩
  obtain ⟨g1, g2⟩ := key _ _ _ _ (utf8Encode_hex o) (utf8Encode_hex o') e
  exact ⟨hexEncode_injective (utf8Encode_injective g1), g2⟩

/-- C107: they are not what is signed for a credential or presentation, nor what is signed to endorse a document. -/
theorem C107_apart {E : Env} (H : E.HashLaws) (o m framed : Bytes) (h : Framed o m framed) :
    (∀ x y, framed ≠ message E x y) ∧ ∀ text, framed ≠ tag ++ text := by
  obtain ⟨hex, -, rfl⟩ := h
  constructor
  · intro x y e
    have hl := congrArg List.length e
    have : 64 < (utf8 "Bytes signed on request by this account, no proof and no DID document, on the occasion: ".toList).length := by
      decide +kernel
    simp only [message, List.length_append, H.sha256_len] at hl
    omega
  · intro text e
    have := congrArg List.head? e
    rw [List.append_assoc, List.head?_append_of_ne_nil _ (by decide +kernel), List.head?_append_of_ne_nil _ (by decide +kernel)] at this
    exact absurd this (by decide +kernel)

theorem labels_check {E : Env} (pub : E.EdPub) (o m : Bytes) (mark : Str) :
    check E pub o m mark = true ↔ E.edVerify pub (frame o m) mark = .ok true := by
  unfold check
  split
  · simp_all
  · rename_i h
    exact ⟨(fun e => nomatch e), fun e => absurd e h⟩

/-- C107: marks check under the account's public key, for what they were made for. -/
theorem C107_checks {E : Env} (K : E.EdLaws) (a : Account E) (o m : Bytes) : check E a.pubkey o m (stamp a o m) = true :=
  (labels_check _ _ _ _).mpr (K.verify_sign _ _)

/-! ### Histories of one key -/

/-- A use of a key in which bytes are signed with a label. -/
inductive Act (E : Env) where
  | vc (v : VC E) (opts : Proof)
  | vp (v : VP E) (opts : Proof)
  | stamp (occasion m : Bytes)

/-- What the library is asked for. -/
def Act.use {E : Env} : Act E → KeyUse E
  | .vc v opts => .vc v opts
  | .vp v opts => .vp v opts
  | .stamp o m => .raw (frame o m)

/-- The message was signed in the course of the acts. -/
def SignedIn {E : Env} (kp : E.EdKP) (acts : List (Act E)) (m : Bytes) : Prop :=
  (∃ v opts out, .vc v opts ∈ acts ∧ sign E (VC E) kp v opts = .ok out ∧ m = message E (optionBytes E opts) (vcBytes v)) ∨
  (∃ v opts out, .vp v opts ∈ acts ∧ sign E (VP E) kp v opts = .ok out ∧ m = message E (optionBytes E opts) (vpBytes v)) ∨
  ∃ o x, .stamp o x ∈ acts ∧ Framed o x m

theorem signedIn_iff {E : Env} (kp : E.EdKP) (acts : List (Act E)) (m : Bytes) :
    SignedIn kp acts m ↔ ∃ u ∈ acts.map Act.use, u.Signs kp m := by
  constructor
  · rintro (⟨v, opts, out, h1, h2, h3⟩ | ⟨v, opts, out, h1, h2, h3⟩ | ⟨o, x, h1, h2⟩)
    · exact ⟨_, List.mem_map_of_mem (f := Act.use) h1, ⟨out, h2⟩, h3⟩
    · exact ⟨_, List.mem_map_of_mem (f := Act.use) h1, ⟨out, h2⟩, h3⟩
    · exact ⟨_, List.mem_map_of_mem (f := Act.use) h1, (frame_iff _ _ _).mpr h2⟩
  · rintro ⟨u, hu, hs⟩
    obtain ⟨x, hx, rfl⟩ := List.mem_map.mp hu
    cases x with
    | vc v opts => obtain ⟨⟨out, h1⟩, h2⟩ := hs; exact .inl ⟨v, opts, out, hx, h1, h2⟩
    | vp v opts => obtain ⟨⟨out, h1⟩, h2⟩ := hs; exact .inr (.inl ⟨v, opts, out, hx, h1, h2⟩)
    | stamp o m => exact .inr (.inr ⟨o, m, hx, (frame_iff _ _ _).mp hs⟩)

/-- C107: a mark that checks was made for just these bytes on just this occasion, whatever else the key signed; or it is a
forgery. -/
theorem C107_stamp {E : Env} (H : E.HashLaws) (kp : E.EdKP) (acts : List (Act E)) (pub : E.EdPub) (o m : Bytes) (mark : Str)
    (h : check E pub o m mark = true) : .stamp o m ∈ acts ∨
      ∃ framed, Framed o m framed ∧ E.edVerify pub framed mark = .ok true ∧ ¬ SignedIn kp acts framed := by
  have hf := (frame_iff o m _).mp rfl
  by_cases hs : SignedIn kp acts (frame o m)
  · left
    rcases hs with ⟨v, opts, -, -, -, e⟩ | ⟨v, opts, -, -, -, e⟩ | ⟨o', m', h1, h2⟩
    · exact ((C107_apart H o m _ hf).1 _ _ e).elim
    · exact ((C107_apart H o m _ hf).1 _ _ e).elim
    · obtain ⟨rfl, rfl⟩ := C107_frame _ _ _ _ _ hf h2
      exact h1
  · exact .inr ⟨_, hf, (labels_check _ _ _ _).mp h, hs⟩

/-- C107 (credentials): whatever is accepted was signed as a credential with these options, or the signature is forged or
SHA-256 collides: bytes signed with a label never help. -/
theorem C107_vc {E : Env} (H : E.HashLaws) (L : E.JcsLaws) (kp : E.EdKP) (acts : List (Act E)) (pub : E.EdPub)
    (bs : Bytes) (purpose : ProofPurpose) (w : VC E) (q : Proof) (ha : AcceptedVC pub bs purpose w) (hq : w.proof = some q) :
    (∃ v opts out, .vc v opts ∈ acts ∧ sign E (VC E) kp v opts = .ok out ∧ SameVC v (unsignedVC w) ∧ opts = unvalued q) ∨
    (Accepts E pub (message E (optionBytes E (unvalued q)) (vcBytes (unsignedVC w))) q.proofValue ∧
      ¬ SignedIn kp acts (message E (optionBytes E (unvalued q)) (vcBytes (unsignedVC w)))) ∨
    (∃ v opts, .vc v opts ∈ acts ∧ Collides E (optionBytes E (unvalued q)) (vcBytes (unsignedVC w)) (optionBytes E opts) (vcBytes v)) ∨
    ∃ v opts, .vp v opts ∈ acts ∧ Collides E (optionBytes E (unvalued q)) (vcBytes (unsignedVC w)) (optionBytes E opts) (vpBytes v) := by
  rcases C64_vc H L kp (acts.map Act.use) pub bs purpose w q ha hq with ⟨v, opts, out, h, h'⟩ | h | ⟨h, h'⟩ | ⟨u, hu, h⟩
  · obtain ⟨x, hx, e⟩ := List.mem_map.mp h
    cases x <;> cases e
    exact .inl ⟨v, opts, out, hx, h'⟩
  · obtain ⟨x, hx, e⟩ := List.mem_map.mp h
    cases x with
    | stamp o m => exact ((C107_apart H o m _ ((frame_iff o m _).mp rfl)).1 _ _ (KeyUse.raw.inj e)).elim
    | vc => cases e
    | vp => cases e
  · refine .inr (.inl ⟨h, fun hs => ?_⟩)
    obtain ⟨u, hu, hs⟩ := (signedIn_iff _ _ _).mp hs
    exact h' u hu hs
  · obtain ⟨x, hx, rfl⟩ := List.mem_map.mp hu
    cases x with
    | vc v opts => exact .inr (.inr (.inl ⟨v, opts, hx, h⟩))
    | vp v opts => exact .inr (.inr (.inr ⟨v, opts, hx, h⟩))
    | stamp => exact h.elim

/-- C107 (presentations). -/
theorem C107_vp {E : Env} (H : E.HashLaws) (L : E.JcsLaws) (kp : E.EdKP) (acts : List (Act E)) (pub : E.EdPub)
    (bs : Bytes) (purpose : ProofPurpose) (w : VP E) (q : Proof) (ha : AcceptedVP pub bs purpose w) (hq : w.proof = some q) :
    (∃ v opts out, .vp v opts ∈ acts ∧ sign E (VP E) kp v opts = .ok out ∧ SameVP v (unsignedVP w) ∧ opts = unvalued q) ∨
    (Accepts E pub (message E (optionBytes E (unvalued q)) (vpBytes (unsignedVP w))) q.proofValue ∧
      ¬ SignedIn kp acts (message E (optionBytes E (unvalued q)) (vpBytes (unsignedVP w)))) ∨
    (∃ v opts, .vc v opts ∈ acts ∧ Collides E (optionBytes E (unvalued q)) (vpBytes (unsignedVP w)) (optionBytes E opts) (vcBytes v)) ∨
    ∃ v opts, .vp v opts ∈ acts ∧ Collides E (optionBytes E (unvalued q)) (vpBytes (unsignedVP w)) (optionBytes E opts) (vpBytes v) := by
  rcases C64_vp H L kp (acts.map Act.use) pub bs purpose w q ha hq with ⟨v, opts, out, h, h'⟩ | h | ⟨h, h'⟩ | ⟨u, hu, h⟩
  · obtain ⟨x, hx, e⟩ := List.mem_map.mp h
    cases x <;> cases e
    exact .inl ⟨v, opts, out, hx, h'⟩
  · obtain ⟨x, hx, e⟩ := List.mem_map.mp h
    cases x with
    | stamp o m => exact ((C107_apart H o m _ ((frame_iff o m _).mp rfl)).1 _ _ (KeyUse.raw.inj e)).elim
    | vc => cases e
    | vp => cases e
  · refine .inr (.inl ⟨h, fun hs => ?_⟩)
    obtain ⟨u, hu, hs⟩ := (signedIn_iff _ _ _).mp hs
    exact h' u hu hs
  · obtain ⟨x, hx, rfl⟩ := List.mem_map.mp hu
    cases x with
    | vc v opts => exact .inr (.inr (.inl ⟨v, opts, hx, h⟩))
    | vp v opts => exact .inr (.inr (.inr ⟨v, opts, hx, h⟩))
    | stamp => exact h.elim

/-! ### All parties -/

/-- In the trace bytes are signed with labels only, by account keys and verification keys. -/
def Orderly {E : Env} {J : Type} (tr : List (Deed E J)) : Prop :=
  ∀ (k : Nat) (j : J) (m : Bytes), (tr[k]? = some (.account j (.raw m)) ∨ ∃ s, tr[k]? = some (.use j s (.raw m))) → ∃ o x, Framed o x m

/-- What can go wrong with the bundles: a hash collides or the account's signature is forged. -/
def Faked {E : Env} {J : Type} (did : J → DID E) (tr : List (Deed E J)) (n : Nat) (j : J) (b : Endorsed) : Prop :=
  (∃ pub, E.edPubOfBytes b.key = some pub ∧ E.edPubBytes pub ≠ E.edPubBytes (did j).account.pubkey ∧
    (E.sha384 (E.edPubBytes pub) = E.sha384 (E.edPubBytes (did j).account.pubkey) ∨
      E.sha384 (E.edPubBytes pub) ≠ E.sha384 (E.edPubBytes (did j).account.pubkey) ∧
        E.blake3 (E.sha384 (E.edPubBytes pub)) = E.blake3 (E.sha384 (E.edPubBytes (did j).account.pubkey)))) ∨
  E.edVerify (did j).account.pubkey (tag ++ b.text) b.mark = .ok true ∧ ¬ AccountSigned did tr n j (tag ++ b.text)

/-- What can go wrong with a signature: it is forged or SHA-256 collides. -/
def Falsified {E : Env} {J : Type} (tr : List (Deed E J)) (n : Nat) (pub : E.EdPub) (o d : Bytes) (text : Str) : Prop :=
  (Accepts E pub (message E o d) text ∧
    ∀ (j : J) s u, UsedKey tr n pub j s u → ¬ u.Signs (E.edGenerate s.ed) (message E o d)) ∨
  ∃ (j : J) (s : MethodSeed E) (u : KeyUse E), UsedKey tr n pub j s u ∧ u.Collides o d

theorem orderly_cheated {E : Env} {J : Type} {did : J → DID E} {tr : List (Deed E J)} (H : E.HashLaws) (ho : Orderly tr) {n : Nat} {j : J}
    {b : Endorsed} (h : Cheated did tr n j b) : Faked did tr n j b := by
  cases h with
  | collision pub h ne same => exact .inl ⟨pub, h, ne, same⟩
  | forged h h' => exact .inr ⟨h, h'⟩
  | raw k h e =>
    obtain ⟨o, x, hf⟩ := ho k j _ (.inl e)
    exact ((C107_apart H o x _ hf).2 _ rfl).elim

theorem orderly_stolen {E : Env} {J : Type} {tr : List (Deed E J)} (H : E.HashLaws) (ho : Orderly tr) {n : Nat} {pub : E.EdPub}
    {o d : Bytes} {text : Str} (h : Stolen tr n pub o d text) : Falsified tr n pub o d text := by
  cases h with
  | forged h h' => exact .inl ⟨h, h'⟩
  | collision j s u h h' => exact .inr ⟨j, s, u, h, h'⟩
  | raw j s h =>
    obtain ⟨k, -, h2, -⟩ := h
    obtain ⟨o, x, hf⟩ := ho k j _ (.inr ⟨s, h2⟩)
    exact ((C107_apart H o x _ hf).1 _ _ rfl).elim

/-- C107: in every interleaving of all parties, starting from the DID: a credential that is read was signed before with a key its
issuer endorsed before, or a signature is forged or a hash collides. -/
theorem C107_trace_vc {E : Env} {J : Type} (H : E.HashLaws) (L : E.JcsLaws) (N : E.NumLaws) (K : E.EdLaws) (did : J → DID E)
    (tr : List (Deed E J)) (ht : Orderly tr) (n : Nat) (store : List Endorsed) (bs : Bytes) (aim : ProofPurpose)
    (hn : tr[n]? = some (.read store bs aim)) (expired : Str → Bool) (w : VC E)
    (h : readVC (anchored expired store) aim bs = some w) (j : J) (ho : Owns (did j) w.issuer) :
    IssuedBy tr n j w.issuer w ∨ (∃ b ∈ store, Faked did tr n j b) ∨
      ∃ q pub, w.proof = some q ∧ keyOf E store q.verificationMethod = some pub ∧
        Falsified tr n pub (optionBytes E (unvalued q)) (vcBytes (unsignedVC w)) q.proofValue := by
  rcases C102_vc H L N K did tr n store bs aim hn expired w h j ho with h | ⟨b, hb, h⟩ | ⟨q, pub, h1, h2, h⟩
  · exact .inl h
  · exact .inr (.inl ⟨b, hb, orderly_cheated H ht h⟩)
  · exact .inr (.inr ⟨q, pub, h1, h2, orderly_stolen H ht h⟩)

/-- C107: an answer that is read (C105) was signed by the holder for just this question, after it was asked, with credentials
about the holder by their issuers, or a signature is forged or a hash collides. -/
theorem C107_trace_answer {E : Env} {J : Type} (H : E.HashLaws) (L : E.JcsLaws) (N : E.NumLaws) (K : E.EdLaws) (did : J → DID E)
    (tr : List (Deed E J)) (ht : Orderly tr) (n : Nat) (store : List Endorsed) (bs : Bytes) (aim : ProofPurpose)
    (hn : tr[n]? = some (.read store bs aim)) (expired : Str → Bool) (domain nonce : Bytes) (w : VP E)
    (h : readAnswer (anchored expired store) aim domain nonce bs = some w)
    (asked : Nat) (hf : ∀ k j s v opts, k < asked → tr[k]? = some (Deed.use j s (.vp v opts)) →
      opts.id ≠ "urn:question:".toList ++ hexEncode domain ++ ":".toList ++ hexEncode nonce) :
    ∃ holder, w.holder = some holder ∧
      (∀ j, Owns (did j) holder → (∃ k, asked ≤ k ∧ AnsweredAt tr n k j holder domain nonce w) ∨
        (∃ b ∈ store, Faked did tr n j b) ∨
        ∃ q pub, w.proof = some q ∧ keyOf E store q.verificationMethod = some pub ∧
          Falsified tr n pub (optionBytes E (unvalued q)) (vpBytes (unsignedVP w)) q.proofValue) ∧
      ∀ c ∈ w.verifiableCredential, About holder c ∧ ∀ j, Owns (did j) c.issuer →
        IssuedBy tr n j c.issuer c ∨ (∃ b ∈ store, Faked did tr n j b) ∨
        ∃ q pub, c.proof = some q ∧ keyOf E store q.verificationMethod = some pub ∧
          Falsified tr n pub (optionBytes E (unvalued q)) (vcBytes (unsignedVC c)) q.proofValue := by
  obtain ⟨holder, hh, h1, h2⟩ := C105_agreement H L N K did tr n store bs aim hn expired domain nonce w h asked hf
  refine ⟨holder, hh, fun j ho => ?_, fun c hc => ⟨(h2 c hc).1, fun j ho => ?_⟩⟩
  · rcases h1 j ho with h | ⟨b, hb, h⟩ | ⟨q, pub, h1, h2, h⟩
    · exact .inl h
    · exact .inr (.inl ⟨b, hb, orderly_cheated H ht h⟩)
    · exact .inr (.inr ⟨q, pub, h1, h2, orderly_stolen H ht h⟩)
  · rcases (h2 c hc).2 j ho with h | ⟨b, hb, h⟩ | ⟨q, pub, h1, h2, h⟩
    · exact .inl h
    · exact .inr (.inl ⟨b, hb, orderly_cheated H ht h⟩)
    · exact .inr (.inr ⟨q, pub, h1, h2, orderly_stolen H ht h⟩)

/-- C107 (presentations without questions): the holder, and the issuers of the credentials inside. -/
theorem C107_trace_vp {E : Env} {J : Type} (H : E.HashLaws) (L : E.JcsLaws) (N : E.NumLaws) (K : E.EdLaws) (did : J → DID E)
    (tr : List (Deed E J)) (ht : Orderly tr) (n : Nat) (store : List Endorsed) (bs : Bytes) (aim : ProofPurpose)
    (hn : tr[n]? = some (.read store bs aim)) (expired : Str → Bool) (w : VP E)
    (h : readVP (anchored expired store) aim bs = some w) :
    (∃ holder, w.holder = some holder ∧ ∀ j, Owns (did j) holder →
      PresentedBy tr n j holder w ∨ (∃ b ∈ store, Faked did tr n j b) ∨
        ∃ q pub, w.proof = some q ∧ keyOf E store q.verificationMethod = some pub ∧
          Falsified tr n pub (optionBytes E (unvalued q)) (vpBytes (unsignedVP w)) q.proofValue) ∧
    ∀ c ∈ w.verifiableCredential, ∀ j, Owns (did j) c.issuer →
      IssuedBy tr n j c.issuer c ∨ (∃ b ∈ store, Faked did tr n j b) ∨
        ∃ q pub, c.proof = some q ∧ keyOf E store q.verificationMethod = some pub ∧
          Falsified tr n pub (optionBytes E (unvalued q)) (vcBytes (unsignedVC c)) q.proofValue := by
  obtain ⟨⟨holder, hh, h1⟩, h2⟩ := C102_vp H L N K did tr n store bs aim hn expired w h
  refine ⟨⟨holder, hh, fun j ho => ?_⟩, fun c hc j ho => ?_⟩
  · rcases h1 j ho with h | ⟨b, hb, h⟩ | ⟨q, pub, h1, h2, h⟩
    · exact .inl h
    · exact .inr (.inl ⟨b, hb, orderly_cheated H ht h⟩)
    · exact .inr (.inr ⟨q, pub, h1, h2, orderly_stolen H ht h⟩)
  · rcases h2 c hc j ho with h | ⟨b, hb, h⟩ | ⟨q, pub, h1, h2, h⟩
    · exact .inl h
    · exact .inr (.inl ⟨b, hb, orderly_cheated H ht h⟩)
    · exact .inr (.inr ⟨q, pub, h1, h2, orderly_stolen H ht h⟩)

/-- C107: marks of an account check for everybody who knows its DID. -/
theorem C107_checks_did {E : Env} (K : E.EdLaws) (d : DID E) (id : Str) (h : Owns d id) (o m : Bytes) :
    checkFrom E id (E.edPubBytes d.account.pubkey) o m (stamp d.account o m) = true := by
  unfold checkFrom
  rw [K.pub_bytes]
  exact Bool.and_eq_true_iff.mpr ⟨decide_eq_true ((owns_iff _ _).mp h).symm, C107_checks K _ _ _⟩

/-- C107: starting from the DID of party `j`, in every interleaving: a mark that checks, with whatever public key it came, was made
before by the account of the DID for just these bytes on just this occasion; or a hash collides or the signature is forged. -/
theorem C107_trace_stamp {E : Env} {J : Type} (H : E.HashLaws) (K : E.EdLaws) (did : J → DID E) (tr : List (Deed E J)) (n : Nat) (j : J)
    (id : Str) (ho : Owns (did j) id) (key o m : Bytes) (mark : Str) (h : checkFrom E id key o m mark = true) :
    ∃ framed pub, Framed o m framed ∧ E.edPubOfBytes key = some pub ∧
      ((∃ k, k < n ∧ tr[k]? = some (.account j (.raw framed))) ∨
      (E.edVerify (did j).account.pubkey framed mark = .ok true ∧ ¬ AccountSigned did tr n j framed) ∨
      (E.edPubBytes pub ≠ E.edPubBytes (did j).account.pubkey ∧
        (E.sha384 (E.edPubBytes pub) = E.sha384 (E.edPubBytes (did j).account.pubkey) ∨
          E.sha384 (E.edPubBytes pub) ≠ E.sha384 (E.edPubBytes (did j).account.pubkey) ∧
            E.blake3 (E.sha384 (E.edPubBytes pub)) = E.blake3 (E.sha384 (E.edPubBytes (did j).account.pubkey))))) := by
  have hf := (frame_iff o m _).mp rfl
  unfold checkFrom at h
  cases hk : E.edPubOfBytes key with
  | none => rw [hk] at h; cases h
  | some pub =>
    simp only [hk, Bool.and_eq_true, decide_eq_true_eq] at h
    obtain ⟨h1, h2⟩ := h
    refine ⟨_, pub, hf, rfl, ?_⟩
    rw [(owns_iff _ _).mp ho] at h1
    rcases didOf_inj h1 with hp | hp
    swap
    · exact .inr (.inr hp)
    have hp' : pub = (did j).account.pubkey := by
      have := congrArg E.edPubOfBytes hp
      rw [K.pub_bytes, K.pub_bytes] at this
      exact Option.some.inj this
    subst hp'
    by_cases hs : AccountSigned did tr n j (frame o m)
    · left
      obtain ⟨k, hkn, ⟨ops, i, -, -, e⟩ | ⟨u, g1, g2⟩⟩ := hs
      · exact ((C107_apart H o m _ hf).2 _ e).elim
      · cases u with
        | vc v opts => exact ((C107_apart H o m _ hf).1 _ _ g2.2).elim
        | vp v opts => exact ((C107_apart H o m _ hf).1 _ _ g2.2).elim
        | raw m' => exact ⟨k, hkn, by rw [g1, show frame o m = m' from g2]⟩
    · exact .inr (.inl ⟨(labels_check _ _ _ _).mp h2, hs⟩)

/-! ### Cases -/

/-- `C107_vc`, `C107_stamp`: the key signs a credential and, with a label, the very 64 bytes of another one; the first is accepted and
the mark checks. -/
example : ∃ (acts : List (Act Toy.env)) (v : VC Toy.env) (bs : Bytes) (w : VC Toy.env) (q : Proof), acts.length = 2 ∧
    .stamp [1] (message Toy.env (optionBytes Toy.env toyProof) (vcBytes v)) ∈ acts ∧
    (message Toy.env (optionBytes Toy.env toyProof) (vcBytes v)).length = 64 ∧
    AcceptedVC (E := Toy.env) (7 : UInt8) bs .assertionMethod w ∧ w.proof = some q ∧ .vc toyVC toyProof ∈ acts ∧
    check Toy.env (7 : UInt8) [1] (message Toy.env (optionBytes Toy.env toyProof) (vcBytes v))
      (stamp (E := Toy.env) ⟨(7 : UInt8)⟩ [1] (message Toy.env (optionBytes Toy.env toyProof) (vcBytes v))) = true := by
  obtain ⟨s, q, sig, bs, r, hsign, hq, hsig, hverify, hverified, hparse, hmb⟩ := toy_signed_vc
  have key : ∀ v : VC Toy.env, (message Toy.env (optionBytes Toy.env toyProof) (vcBytes v)).length = 64 :=
    fun v => by simp [message, Toy.hashLaws.sha256_len]
  refine ⟨[.vc toyVC toyProof, .stamp [1] (message Toy.env (optionBytes Toy.env toyProof) (vcBytes { toyVC with id := "urn:other".toList }))],
    { toyVC with id := "urn:other".toList }, bs, s, q, rfl, ?_, key _, ⟨hparse, r, hverify, hverified⟩, hq, ?_, C107_checks Toy.edLaws ⟨(7 : UInt8)⟩ _ _⟩
  · exact List.mem_cons_of_mem _ (List.mem_singleton.mpr rfl)
  · exact List.mem_cons_self

/-- `C107_frame`, `C107_apart`: there are such bytes. -/
example : Framed [0xab] [1, 2] (utf8 "Bytes signed on request by this account, no proof and no DID document, on the occasion: ab:".toList ++ [1, 2]) :=
  (frame_iff _ _ _).mp (by decide +kernel)

/-- `C107_raw_vc`: without labels, the credential of the toy world is had from a raw signature. -/
example : ∃ out, sign Toy.env (VC Toy.env) (7 : UInt8) toyVC toyProof = .ok out := by
  obtain ⟨s, q, sig, bs, r, hsign, -⟩ := toy_signed_vc
  exact ⟨_, hsign⟩

/-- `C107_trace_vc`, `C107_trace_answer`, `C107_trace_stamp`: in an orderly trace the account of key 3 endorses its document, signs bytes
on request with both kinds of keys, and answers a question; the answer is read and the mark checks. -/
example (v : VP Toy.env) (o : Proof) (m : Bytes) : ∃ (s s' : MethodSeed Toy.env) (b : Endorsed) (bs : Bytes) (w : VP Toy.env)
    (tr : List (Deed Toy.env Unit)), tr = [.endorse () toyOps, .account () (.raw (frame [1] m)), .use () s (.raw (frame [2] m)),
      .use () s' (.vp v o), .read [b] bs .assertionMethod] ∧ Orderly tr ∧
    tr[4]? = some (.read [b] bs .assertionMethod) ∧ readAnswer (anchored (fun _ => true) [b]) .assertionMethod [1] [2] bs = some w ∧
    (∀ k j x y opts, k < 3 → tr[k]? = some (Deed.use j x (.vp y opts)) → opts.id ≠ "urn:question:".toList ++ hexEncode [1] ++ ":".toList ++ hexEncode [2]) ∧
    Owns (DID.new Toy.env (3 : UInt8)) (didOf Toy.env (3 : UInt8)) ∧ w.holder = some (didOf Toy.env (3 : UInt8)) ∧
    checkFrom Toy.env (didOf Toy.env (3 : UInt8)) (Toy.env.edPubBytes (DID.new Toy.env (3 : UInt8)).account.pubkey) [1] m
      (stamp (DID.new Toy.env (3 : UInt8)).account [1] m) = true := by
  obtain ⟨s, hs⟩ : ∃ s, firstAssertion toyOps = some s := ⟨_, rfl⟩
  obtain ⟨s', hs'⟩ : ∃ s, firstAuth toyOps = some s := ⟨_, rfl⟩
  obtain ⟨b, bs, w, h1, _, h2⟩ := toy_answer (DID.new Toy.env (3 : UInt8)) _ rfl toyOps s s' hs hs' [1] [2]
  have ho : Owns (DID.new Toy.env (3 : UInt8)) (didOf Toy.env (3 : UInt8)) := didOf_owns _
  have hc := C107_checks_did Toy.edLaws _ _ ho [1] m
  refine ⟨s, s', b, bs, w, _, rfl, ?_, rfl, h2, ?_, ho, h1, hc⟩
  · intro k j x h
    match k with
    | 0 => rcases h with h | ⟨_, h⟩ <;> cases h
    | 1 =>
      rcases h with h | ⟨_, h⟩ <;> cases h
      exact ⟨_, _, (frame_iff _ _ _).mp rfl⟩
    | 2 =>
      rcases h with h | ⟨_, h⟩ <;> cases h
      exact ⟨_, _, (frame_iff _ _ _).mp rfl⟩
    | 3 => rcases h with h | ⟨_, h⟩ <;> cases h
    | 4 => rcases h with h | ⟨_, h⟩ <;> cases h
    | k + 5 => rcases h with h | ⟨_, h⟩ <;> cases h
  · intro k j x y opts hk e
    match k, hk with
    | 0, _ => exact nomatch e
    | 1, _ => exact nomatch e
    | 2, _ => exact nomatch e

end Verif.Props
