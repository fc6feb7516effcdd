import Verif.Props.Identity
import Verif.Props.Keys

/-
C19, further: how far `Pairs::is_valid` (core/src/keys/verification.rs:27-35, core/src/keys/agreement.rs:27-30) is from
the intended meaning, and where that meaning holds: of the pairs the library makes, and of the pairs that pass the
check of a caller who also decodes the public key.
-/

namespace Verif.Props
open Verif Spec

/-- C19: when private keys are never written as the empty text, `is_valid` does not look at the public key: it gives the
same answer whatever the public key text is. -/
theorem C19_blind {E : Env} (hp : ∀ k t, E.edPem k = .ok t → t ≠ []) (hd : ∀ k, E.dhSecret k ≠ []) (t t' : Str) (k : E.EdPriv)
    (d : E.DhKP) :
    (Verification.Pairs.mk (E := E) t k).isValid = (Verification.Pairs.mk (E := E) t' k).isValid ∧
    (Agreement.Pairs.mk (E := E) t d).isValid = true := by
  refine ⟨?_, ((C19_is_valid_partial (E := E) ⟨t, k⟩ ⟨t, d⟩).2).mpr (.inr (hd d))⟩
  rw [Bool.eq_iff_iff, (C19_is_valid_partial (E := E) ⟨t, k⟩ ⟨t, d⟩).1, (C19_is_valid_partial (E := E) ⟨t', k⟩ ⟨t, d⟩).1]
  constructor <;> rintro ⟨pem, h, _⟩ <;> exact ⟨pem, h, .inr (hp _ _ h)⟩

/-- C19: the intended meaning holds of the pairs the library makes, which carry the public key in base58btc: a pair that
is valid has both texts, and an agreement pair is always valid. -/
theorem C19_generated {E : Env} (seed : E.EdSeed) (seed' : E.DhSeed) :
    let p := (Verification.Key.new E seed).generate
    let a := (Agreement.Key.new E seed').generate
    (p.isValid = true ↔ ∃ pem, E.edPem p.privKey = .ok pem) ∧ a.isValid = true ∧
      (∃ rest, p.pubKey = 'z' :: rest) ∧ ∃ rest, a.pubKey = 'z' :: rest := by
  have hz : ∀ b, ∃ rest, multibaseEncode58 b = 'z' :: rest := fun b => ⟨_, rfl⟩
  intro p a
  obtain ⟨r, hr⟩ : ∃ rest, p.pubKey = 'z' :: rest := hz _
  obtain ⟨r', hr'⟩ : ∃ rest, a.pubKey = 'z' :: rest := hz _
  obtain ⟨h1, h2⟩ := C19_is_valid_partial p a
  refine ⟨?_, h2.mpr (.inl (by simp [hr'])), ⟨r, hr⟩, r', hr'⟩
  rw [h1]
  constructor
  · rintro ⟨pem, h, _⟩; exact ⟨pem, h⟩
  · rintro ⟨pem, h⟩; exact ⟨pem, h, .inl (by simp [hr])⟩

/-- C19: a caller who decodes the public key in addition gets the intended meaning, for every pair: the public key text
is not empty and holds a public key, and the private key can be written. -/
theorem C19_checked {E : Env} (p : Verification.Pairs E) (a : Agreement.Pairs E) :
    (∀ k, p.isValid = true → p.decodePubKey = .ok k →
      p.pubKey ≠ [] ∧ (∃ pem, E.edPem p.privKey = .ok pem) ∧ ∃ raw, HoldsHex E p.pubKey raw ∧ E.edPubOfBytes raw = some k) ∧
    (∀ k, a.isValid = true → a.decodePublicKey = .ok k →
      a.pubKey ≠ [] ∧ ∃ raw, HoldsHex E a.pubKey raw ∧ E.dhPubOfBytes raw = some k) := by
  have hne : ∀ t raw, HoldsHex E t raw → t ≠ [] := by
    rintro t raw ⟨base, text, h, _⟩ rfl
    cases h with
    | base58 h => exact absurd h.unique (by simp [multibaseEncode58])
  refine ⟨fun k hv h => ?_, fun k _ h => ?_⟩
  · obtain ⟨pem, hp, _⟩ := (C19_is_valid_partial p a).1.mp hv
    obtain ⟨raw, h1, h2⟩ := ((C67_verification_decode p).1 k).mp h
    exact ⟨hne _ _ h1, ⟨pem, hp⟩, raw, h1, h2⟩
  · obtain ⟨raw, h1, h2⟩ := ((C67_agreement_decode a).1 k).mp h
    exact ⟨hne _ _ h1, raw, h1, h2⟩

/-- `C19_blind`: a pair with garbage for a public key is as valid as any. -/
example : (Verification.Pairs.mk (E := Toy.env) "garbage".toList (3 : UInt8)).isValid = true ∧
    (∀ k t, Toy.env.edPem k = .ok t → t ≠ []) := ⟨rfl, fun k t h => by cases h; exact List.cons_ne_nil _ _⟩

/-- `C19_checked`: the pairs the library makes pass the check. -/
example : ∃ k, (Verification.Key.new Toy.env (3 : UInt8)).generate.isValid = true ∧
    (Verification.Key.new Toy.env (3 : UInt8)).generate.decodePubKey = .ok k := 
  ⟨_, rfl, (C67_generated Toy.edLaws Toy.dhLaw (3 : UInt8) (3 : UInt8)).1⟩

end Verif.Props
