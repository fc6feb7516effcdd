import Verif.Props.Accept
import Verif.Props.Replay
import Verif.Props.Padding

/-
C64: unforgeability over histories of signing calls.
-/

namespace Verif.Props
open Verif Spec

/-! ### C64 -/

/-- A use of a private key: signing a credential or a presentation, or `Account::signature` on chosen bytes. -/
inductive KeyUse (E : Env) where
  | vc (v : VC E) (opts : Proof)
  | vp (v : VP E) (opts : Proof)
  | raw (m : Bytes)

/-- The message a use puts a signature on, if it succeeds. -/
def KeyUse.Signs {E : Env} (kp : E.EdKP) (m : Bytes) : KeyUse E → Prop
  | .vc v opts => (∃ out, sign E (VC E) kp v opts = .ok out) ∧ m = message E (optionBytes E opts) (vcBytes v)
  | .vp v opts => (∃ out, sign E (VP E) kp v opts = .ok out) ∧ m = message E (optionBytes E opts) (vpBytes v)
  | .raw m' => m = m'

/-- Two different byte strings with the same SHA-256 hash, one of them hashed when verifying and one when signing. -/
def Collides (E : Env) (o d o' d' : Bytes) : Prop :=
  (o ≠ o' ∧ E.sha256 o = E.sha256 o') ∨ (d ≠ d' ∧ E.sha256 d = E.sha256 d')

/-- The hash inputs of a use collide with `o` and `d`. -/
def KeyUse.Collides {E : Env} (o d : Bytes) : KeyUse E → Prop
  | .vc v opts => Props.Collides E o d (optionBytes E opts) (vcBytes v)
  | .vp v opts => Props.Collides E o d (optionBytes E opts) (vpBytes v)
  | .raw _ => False

theorem message_or_collides {E : Env} (H : E.HashLaws) {o d o' d' : Bytes} (h : message E o d = message E o' d') :
    (o = o' ∧ d = d') ∨ Collides E o d o' d' := by
  obtain ⟨h1, h2⟩ := List.append_inj h (by rw [H.sha256_len, H.sha256_len])
  by_cases ho : o = o'
  · by_cases hd : d = d'
    · exact .inl ⟨ho, hd⟩
    · exact .inr (.inr ⟨hd, h2⟩)
  · exact .inr (.inl ⟨ho, h1⟩)

/-- C64 (credentials): let a key be used any number of times, in any order and on anything. Whatever credential is
accepted afterwards, from whatever bytes and with whatever signature, is one that was signed with those options, up to
number spelling in the subject; or the key was asked to sign just this message as raw bytes; or a signature is accepted
on a message the key was never used for; or SHA-256 collides on explicit inputs. -/
theorem C64_vc {E : Env} (H : E.HashLaws) (L : E.JcsLaws) (kp : E.EdKP) (uses : List (KeyUse E)) (pub : E.EdPub)
    (bs : Bytes) (purpose : ProofPurpose) (w : VC E) (q : Proof) (ha : AcceptedVC pub bs purpose w)
    (hq : w.proof = some q) :
    (∃ v opts out, .vc v opts ∈ uses ∧ sign E (VC E) kp v opts = .ok out ∧ SameVC v (unsignedVC w) ∧
      opts = unvalued q) ∨
    .raw (message E (optionBytes E (unvalued q)) (vcBytes (unsignedVC w))) ∈ uses ∨
    (Accepts E pub (message E (optionBytes E (unvalued q)) (vcBytes (unsignedVC w))) q.proofValue ∧
      ∀ u ∈ uses, ¬ u.Signs kp (message E (optionBytes E (unvalued q)) (vcBytes (unsignedVC w)))) ∨
    ∃ u ∈ uses, u.Collides (optionBytes E (unvalued q)) (vcBytes (unsignedVC w)) := by
  obtain ⟨hw, r, hr, hok⟩ := ha
  obtain ⟨w', q', h1, h2, _, _, _, h3, h4, _⟩ := (C33_vc L pub bs purpose r).mp ⟨hr, hok⟩
  rw [hw] at h1; cases h1
  rw [hq] at h2; cases h2
  by_cases hs : ∃ u ∈ uses, u.Signs kp (message E (optionBytes E (unvalued q)) (vcBytes (unsignedVC w)))
  · obtain ⟨u, hu, hsig⟩ := hs
    cases u with
    | raw m => rw [show _ = m from hsig]; exact .inr (.inl hu)
    | vc v opts =>
      obtain ⟨⟨out, ho⟩, hm⟩ := hsig
      rcases message_or_collides H hm with ⟨a, b⟩ | h
      · obtain ⟨_, _, hv, _⟩ := ((C32_vc L kp v opts).1 out).mp ho
        exact .inl ⟨v, opts, out, hu, ho, vcBytes_same L hv h3 b.symm, optionBytes_inj L a.symm⟩
      · exact .inr (.inr (.inr ⟨_, hu, h⟩))
    | vp v opts =>
      obtain ⟨_, hm⟩ := hsig
      rcases message_or_collides H hm with ⟨_, b⟩ | h
      · exact (vcBytes_ne_vpBytes L _ _ b).elim
      · exact .inr (.inr (.inr ⟨_, hu, h⟩))
  · exact .inr (.inr (.inl ⟨h4, fun u hu h => hs ⟨u, hu, h⟩⟩))

/-- C64 (presentations). -/
theorem C64_vp {E : Env} (H : E.HashLaws) (L : E.JcsLaws) (kp : E.EdKP) (uses : List (KeyUse E)) (pub : E.EdPub)
    (bs : Bytes) (purpose : ProofPurpose) (w : VP E) (q : Proof) (ha : AcceptedVP pub bs purpose w)
    (hq : w.proof = some q) :
    (∃ v opts out, .vp v opts ∈ uses ∧ sign E (VP E) kp v opts = .ok out ∧ SameVP v (unsignedVP w) ∧
      opts = unvalued q) ∨
    .raw (message E (optionBytes E (unvalued q)) (vpBytes (unsignedVP w))) ∈ uses ∨
    (Accepts E pub (message E (optionBytes E (unvalued q)) (vpBytes (unsignedVP w))) q.proofValue ∧
      ∀ u ∈ uses, ¬ u.Signs kp (message E (optionBytes E (unvalued q)) (vpBytes (unsignedVP w)))) ∨
    ∃ u ∈ uses, u.Collides (optionBytes E (unvalued q)) (vpBytes (unsignedVP w)) := by
  obtain ⟨hw, r, hr, hok⟩ := ha
  obtain ⟨w', q', h1, h2, _, _, _, h3, h4, _⟩ := (C33_vp L pub bs purpose r).mp ⟨hr, hok⟩
  rw [hw] at h1; cases h1
  rw [hq] at h2; cases h2
  by_cases hs : ∃ u ∈ uses, u.Signs kp (message E (optionBytes E (unvalued q)) (vpBytes (unsignedVP w)))
  · obtain ⟨u, hu, hsig⟩ := hs
    cases u with
    | raw m => rw [show _ = m from hsig]; exact .inr (.inl hu)
    | vp v opts =>
      obtain ⟨⟨out, ho⟩, hm⟩ := hsig
      rcases message_or_collides H hm with ⟨a, b⟩ | h
      · obtain ⟨_, _, hv, _⟩ := ((C32_vp L kp v opts).1 out).mp ho
        exact .inl ⟨v, opts, out, hu, ho, vpBytes_same L hv h3 b.symm, optionBytes_inj L a.symm⟩
      · exact .inr (.inr (.inr ⟨_, hu, h⟩))
    | vc v opts =>
      obtain ⟨_, hm⟩ := hsig
      rcases message_or_collides H hm with ⟨_, b⟩ | h
      · exact (vcBytes_ne_vpBytes L _ _ b.symm).elim
      · exact .inr (.inr (.inr ⟨_, hu, h⟩))
  · exact .inr (.inr (.inl ⟨h4, fun u hu h => hs ⟨u, hu, h⟩⟩))

/-- C64: so if signatures cannot be forged in this history, its hash inputs do not collide and no raw signature is made
on 64 bytes, every accepted credential was signed by the key. -/
theorem C64_honest_vc {E : Env} (H : E.HashLaws) (L : E.JcsLaws) (kp : E.EdKP) (uses : List (KeyUse E)) (pub : E.EdPub)
    (hraw : ∀ m, .raw m ∈ uses → m.length ≠ 64)
    (hunf : ∀ m text, Accepts E pub m text → ∃ u ∈ uses, u.Signs kp m)
    (bs : Bytes) (purpose : ProofPurpose) (w : VC E) (q : Proof) (ha : AcceptedVC pub bs purpose w)
    (hq : w.proof = some q)
    (hcol : ∀ u ∈ uses, ¬ u.Collides (optionBytes E (unvalued q)) (vcBytes (unsignedVC w))) :
    ∃ v opts out, .vc v opts ∈ uses ∧ sign E (VC E) kp v opts = .ok out ∧ SameVC v (unsignedVC w) ∧ opts = unvalued q := by
  rcases C64_vc H L kp uses pub bs purpose w q ha hq with h | h | ⟨h, h'⟩ | ⟨u, hu, h⟩
  · exact h
  · exact (hraw _ h (by simp [message, H.sha256_len])).elim
  · obtain ⟨u, hu, hs⟩ := hunf _ _ h
    exact (h' u hu hs).elim
  · exact (hcol u hu h).elim

/-- C64: and every accepted presentation. -/
theorem C64_honest_vp {E : Env} (H : E.HashLaws) (L : E.JcsLaws) (kp : E.EdKP) (uses : List (KeyUse E)) (pub : E.EdPub)
    (hraw : ∀ m, .raw m ∈ uses → m.length ≠ 64)
    (hunf : ∀ m text, Accepts E pub m text → ∃ u ∈ uses, u.Signs kp m)
    (bs : Bytes) (purpose : ProofPurpose) (w : VP E) (q : Proof) (ha : AcceptedVP pub bs purpose w)
    (hq : w.proof = some q)
    (hcol : ∀ u ∈ uses, ¬ u.Collides (optionBytes E (unvalued q)) (vpBytes (unsignedVP w))) :
    ∃ v opts out, .vp v opts ∈ uses ∧ sign E (VP E) kp v opts = .ok out ∧ SameVP v (unsignedVP w) ∧ opts = unvalued q := by
  rcases C64_vp H L kp uses pub bs purpose w q ha hq with h | h | ⟨h, h'⟩ | ⟨u, hu, h⟩
  · exact h
  · exact (hraw _ h (by simp [message, H.sha256_len])).elim
  · obtain ⟨u, hu, hs⟩ := hunf _ _ h
    exact (h' u hu hs).elim
  · exact (hcol u hu h).elim

/-! ### Examples -/

/-- `E` accepting signatures on `m` only. -/
@[reducible] def Env.only (E : Env) (m : Bytes) : Env := { E with edVerify := fun _ x _ => .ok (decide (x = m)) }

/-- A credential there. -/
def onlyVC {E : Env} (m : Bytes) (v : VC E) : VC (Env.only E m) :=
  ⟨v.contexts, v.types, v.credentialSubject, v.proof, v.id, v.issuer⟩

theorem only_message {E : Env} (m : Bytes) (v : VC E) (p : Proof) :
    message (Env.only E m) (optionBytes (Env.only E m) p) (vcBytes (onlyVC m v)) =
      message E (optionBytes E p) (vcBytes v) := rfl

/-- The message of the toy credential. -/
def toyMessage : Bytes := message Toy.env (optionBytes Toy.env toyProof) (vcBytes toyVC)

theorem only_hash (m : Bytes) : (Env.only Toy.env m).HashLaws := ⟨Toy.hashLaws.1, Toy.hashLaws.2, Toy.hashLaws.3⟩
theorem only_jcs (m : Bytes) : (Env.only Toy.env m).JcsLaws :=
  ⟨Toy.jcsLaws.1, Toy.jcsLaws.2, Toy.jcsLaws.3, Toy.jcsLaws.4⟩

/-- A history with a raw signature and a credential, all hypotheses of `C64_honest_vc` met, and a credential accepted. -/
example : ∃ (E : Env) (k : E.EdKP) (pub : E.EdPub) (uses : List (KeyUse E)) (bs : Bytes) (w : VC E) (q : Proof),
    E.HashLaws ∧ E.JcsLaws ∧ uses.length = 2 ∧
    (∀ m, .raw m ∈ uses → m.length ≠ 64) ∧
    (∀ m text, Accepts E pub m text → ∃ u ∈ uses, u.Signs k m) ∧
    AcceptedVC pub bs .assertionMethod w ∧ w.proof = some q ∧
    ∀ u ∈ uses, ¬ u.Collides (optionBytes E (unvalued q)) (vcBytes (unsignedVC w)) := by
  have he := only_message toyMessage toyVC toyProof
  rw [← toyMessage.eq_1] at he
  generalize toyMessage = M at he
  have hg : GoodOptions (Env.only Toy.env M) toyProof := ⟨toyProof_good.1, toyProof_good.2, toyProof_good.3⟩
  have hc : VCComplete (onlyVC M toyVC) := toyVC_complete
  have hc' : VCComplete ({ onlyVC M toyVC with proof := some { toyProof with proofValue := "f00".toList } } : VC (Env.only Toy.env M)) :=
    toyVC_complete
  have hs := ((C32_vc (only_jcs M) (7 : UInt8) (onlyVC M toyVC) toyProof).1 _).mpr
    ⟨hg, by decide, hc, _, multibaseEncode58_spec _, rfl⟩
  obtain ⟨t, _, h2⟩ := C26_json_roundtrip (E := Env.only Toy.env M) Toy.numLaws
    { onlyVC M toyVC with proof := some { toyProof with proofValue := "f00".toList } } hc' (Toy.survives _)
    (by simp [onlyVC, toyVC, toySubject, Json.depth, Json.depthMembers])
  have h5 := (C33_vc (only_jcs M) (7 : UInt8) t.toBytes .assertionMethod ⟨true, some (onlyVC M toyVC)⟩).mpr
      ⟨_, _, h2, rfl, ⟨hg.1, hg.2, hg.3⟩, rfl, by decide, hc',
        ⟨_, [0], _, .base16 (isHex_iff.mpr (by decide +kernel)), isHex_iff.mpr rfl,
          congrArg Except.ok (decide_eq_true he)⟩, rfl⟩
  refine ⟨Env.only Toy.env M, (7 : UInt8), (7 : UInt8), [.raw [1, 2, 3], .vc (onlyVC M toyVC) toyProof], t.toBytes, _, _,
    only_hash M, only_jcs M, rfl, ?_, ?_, ⟨h2, _, h5⟩, rfl, ?_⟩
  · intro m hm
    simp only [List.mem_cons, KeyUse.raw.injEq, List.not_mem_nil, or_false, reduceCtorEq] at hm
    subst hm
    decide
  · rintro m text ⟨_, _, _, _, _, h⟩
    have e : m = M := of_decide_eq_true (Except.ok.inj h)
    exact ⟨.vc (onlyVC M toyVC) toyProof, by simp, ⟨_, hs⟩, e.trans he.symm⟩
  · intro u hu
    simp only [List.mem_cons, List.not_mem_nil, or_false] at hu
    rcases hu with rfl | rfl
    · exact id
    · rintro (⟨h, _⟩ | ⟨h, _⟩) <;> exact h rfl

/-- A presentation there. -/
def onlyVP {E : Env} (m : Bytes) (v : VP E) : VP (Env.only E m) :=
  ⟨v.contexts, v.types, v.verifiableCredential.map (onlyVC m), v.proof, v.holder⟩

theorem only_message_vp {E : Env} (m : Bytes) (v : VP E) (p : Proof) :
    message (Env.only E m) (optionBytes (Env.only E m) p) (vpBytes (onlyVP m v)) =
      message E (optionBytes E p) (vpBytes v) := by
  have h : vpObject (onlyVP m v) = (vpObject v : Json (Num E.F)) := by
    unfold vpObject onlyVP
    simp only [List.map_map]
    rfl
  unfold vpBytes
  rw [h]
  rfl

/-- The message of the toy presentation. -/
def toyMessageVP : Bytes := message Toy.env (optionBytes Toy.env toyProof) (vpBytes toyVP)

/-- The same for `C64_vp` and `C64_honest_vp`. -/
example : ∃ (E : Env) (k : E.EdKP) (pub : E.EdPub) (uses : List (KeyUse E)) (bs : Bytes) (w : VP E) (q : Proof),
    E.HashLaws ∧ E.JcsLaws ∧ uses.length = 2 ∧
    (∀ m, .raw m ∈ uses → m.length ≠ 64) ∧
    (∀ m text, Accepts E pub m text → ∃ u ∈ uses, u.Signs k m) ∧
    AcceptedVP pub bs .assertionMethod w ∧ w.proof = some q ∧
    ∀ u ∈ uses, ¬ u.Collides (optionBytes E (unvalued q)) (vpBytes (unsignedVP w)) := by
  have he := only_message_vp toyMessageVP toyVP toyProof
  rw [← toyMessageVP.eq_1] at he
  generalize toyMessageVP = M at he
  have hg : GoodOptions (Env.only Toy.env M) toyProof := ⟨toyProof_good.1, toyProof_good.2, toyProof_good.3⟩
  have hc : VPComplete (onlyVP M toyVP) := by simp [VPComplete, onlyVP, toyVP, Ne]
  have hc' : VPComplete ({ onlyVP M toyVP with proof := some { toyProof with proofValue := "f00".toList } } : VP (Env.only Toy.env M)) :=
    hc
  have hs := ((C32_vp (only_jcs M) (7 : UInt8) (onlyVP M toyVP) toyProof).1 _).mpr
    ⟨hg, by decide, hc, _, multibaseEncode58_spec _, rfl⟩
  obtain ⟨t, _, h2⟩ := C27_json_roundtrip (E := Env.only Toy.env M) Toy.numLaws
    { onlyVP M toyVP with proof := some { toyProof with proofValue := "f00".toList } } hc' (fun _ _ => Toy.survives _)
    (fun _ hc => by revert hc; simp [onlyVP, toyVP]; rintro rfl; simp [onlyVC, toyVC, toySubject, Json.depth, Json.depthMembers])
  have h5 := (C33_vp (only_jcs M) (7 : UInt8) t.toBytes .assertionMethod ⟨true, some (onlyVP M toyVP)⟩).mpr
      ⟨_, _, h2, rfl, ⟨hg.1, hg.2, hg.3⟩, rfl, by decide, hc',
        ⟨_, [0], _, .base16 (isHex_iff.mpr (by decide +kernel)), isHex_iff.mpr rfl,
          congrArg Except.ok (decide_eq_true he)⟩, rfl⟩
  refine ⟨Env.only Toy.env M, (7 : UInt8), (7 : UInt8), [.raw [1, 2, 3], .vp (onlyVP M toyVP) toyProof], t.toBytes, _, _,
    only_hash M, only_jcs M, rfl, ?_, ?_, ⟨h2, _, h5⟩, rfl, ?_⟩
  · intro m hm
    simp only [List.mem_cons, KeyUse.raw.injEq, List.not_mem_nil, or_false, reduceCtorEq] at hm
    subst hm
    decide
  · rintro m text ⟨_, _, _, _, _, h⟩
    have e : m = M := of_decide_eq_true (Except.ok.inj h)
    exact ⟨.vp (onlyVP M toyVP) toyProof, by simp, ⟨_, hs⟩, e.trans he.symm⟩
  · intro u hu
    simp only [List.mem_cons, List.not_mem_nil, or_false] at hu
    rcases hu with rfl | rfl
    · exact id
    · rintro (⟨h, _⟩ | ⟨h, _⟩) <;> exact h rfl

/-- The raw alternative of `C64_vc` occurs: no credential was signed, only the 64 bytes of its message. -/
example : ∃ (bs : Bytes) (w : VC Toy.env) (q : Proof) (m : Bytes),
    AcceptedVC (E := Toy.env) (7 : UInt8) bs .assertionMethod w ∧ w.proof = some q ∧ m.length = 64 ∧
    (KeyUse.raw (message Toy.env (optionBytes Toy.env (unvalued q)) (vcBytes (unsignedVC w))) : KeyUse Toy.env) ∈
      [.raw m] := by
  obtain ⟨s, q, sig, bs, r, hsign, hq, hsig, hverify, hverified, hparse, hmb⟩ := toy_signed_vc
  exact ⟨bs, s, q, message Toy.env (optionBytes Toy.env (unvalued q)) (vcBytes (unsignedVC s)),
    ⟨hparse, r, hverify, hverified⟩, hq, by simp [message, Toy.hashLaws.sha256_len], by simp⟩

/-- The forged alternative occurs: a scheme accepting every signature, and a key that was never used. -/
example : ∃ (bs : Bytes) (w : VC Toy.weak) (q : Proof),
    AcceptedVC (E := Toy.weak) (7 : UInt8) bs .assertionMethod w ∧ w.proof = some q ∧
    Accepts Toy.weak (7 : UInt8) (message Toy.weak (optionBytes Toy.weak (unvalued q)) (vcBytes (unsignedVC w))) q.proofValue := by
  obtain ⟨t, _, h⟩ := weakSigned_accepted "did:a".toList
  rcases C64_vc Toy.weak_hashLaws Toy.weak_jcsLaws (7 : UInt8) [] (7 : UInt8) _ _ _ _ h rfl with
    ⟨_, _, _, h', _⟩ | h' | ⟨h', _⟩ | ⟨_, h', _⟩
  · exact (nomatch h')
  · exact (nomatch h')
  · exact ⟨_, _, _, h, rfl, h'⟩
  · exact (nomatch h')

end Verif.Props
