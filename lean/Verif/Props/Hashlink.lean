import Verif.Spec.Multibase
import Verif.Model.Hashlink
import Verif.Toy

/-
C20–C23: hashlinks. `data` is the result of `data.to_json()`.
-/

namespace Verif.Props
open Verif Spec Hashlink

theorem multihash_spec {E : Env} (H : E.HashLaws) (b : Bytes) :
    multihash32 0x1e (E.blake3 b) = some (0x1e :: 0x20 :: E.blake3 b) := by
  simp only [multihash32, H.blake3_len, Nat.le_refl, if_true, uvarint_small (show 0x1e < 128 by omega),
    uvarint_small (show 32 < 128 by omega)]
  rfl

/-- C23: the text is `z` and base58btc of the multihash (code 0x1e, length 32, BLAKE3 digest) of the JSON text. -/
theorem C23_shape {E : Env} (H : E.HashLaws) (v : JSONValue) (t : Str) :
    generateFromJson E (.ok v) = .ok t ↔ IsMultibase58 (0x1e :: 0x20 :: E.blake3 (utf8 v.text)) t := by
  have e : generateFromJson E (.ok v) = .ok (multibaseEncode58 (0x1e :: 0x20 :: E.blake3 (utf8 v.text))) := by
    show (match multihash32 0x1e (E.blake3 (utf8Encode v.text)) with
      | none => _
      | some out => _) = _
    rw [multihash_spec H, utf8_eq]
  rw [e]
  constructor
  · intro h; cases h; exact multibaseEncode58_spec _
  · intro h; rw [h.unique]

example : ∃ t, generateFromJson Toy.env (.ok ⟨"{}".toList⟩) = .ok t ∧ t.head? = some 'z' := by
  refine ⟨_, (C23_shape Toy.hashLaws _ _).mpr (multibaseEncode58_spec _), rfl⟩

/-- C21: verification accepts exactly the generated text; every rejection is a `HashLinkError`. -/
theorem C21_exact {E : Env} (H : E.HashLaws) (v : JSONValue) (t : Str) :
    (verifyFromJson E (.ok v) t = .ok () ↔ generateFromJson E (.ok v) = .ok t) ∧
    (generateFromJson E (.ok v) ≠ .ok t → ∃ m, verifyFromJson E (.ok v) t = .error (.hashLinkError m)) := by
  have e : verifyFromJson E (.ok v) t =
      match E.mbDecode t with
      | none => .error (.hashLinkError (E.msg (.multibase t)))
      | some (base, bytes) =>
        if base ≠ .base58Btc then .error (.hashLinkError "unknown base encoded type".toList)
        else if bytes ≠ 0x1e :: 0x20 :: E.blake3 (utf8 v.text) then .error (.hashLinkError "invalid hashlink".toList)
        else .ok () := by
    show (match E.mbDecode t with
      | none => _
      | some (base, bytes) => if _ then _ else
        match multihash32 0x1e (E.blake3 (utf8Encode v.text)) with
        | none => _
        | some out => _) = _
    rw [multihash_spec H, utf8_eq]
  have hiff : verifyFromJson E (.ok v) t = .ok () ↔ generateFromJson E (.ok v) = .ok t := by
    rw [C23_shape H, e]
    constructor
    · intro h
      cases hd : E.mbDecode t with
      | none => rw [hd] at h; cases h
      | some p =>
        obtain ⟨base, bytes⟩ := p
        rw [hd] at h
        simp only at h
        split at h
        · cases h
        · rename_i hb
          split at h
          · cases h
          · rename_i hx
            have := (mbDecode_iff E t base bytes).mp hd
            rw [Decidable.not_not.mp hb, Decidable.not_not.mp hx] at this
            cases this with
            | base58 h => exact h
            | other hc h => exact absurd rfl (ofCode_other _ hc).2.1
    · intro h
      rw [(mbDecode_iff E t _ _).mpr (.base58 h)]
      simp
  refine ⟨hiff, ?_⟩
  intro h
  rw [Ne, ← hiff] at h
  rw [e] at h ⊢
  split
  · exact ⟨_, rfl⟩
  · split
    · exact ⟨_, rfl⟩
    · split
      · exact ⟨_, rfl⟩
      · rename_i h1 h2 h3
        rw [h1] at h
        simp only [h2, h3, if_false] at h
        exact absurd trivial h

/-- C20: a generated hashlink verifies; a failing `to_json` is passed on by both. -/
theorem C20_roundtrip {E : Env} (H : E.HashLaws) (data : Except DIDError JSONValue) :
    (∀ v, data = .ok v → ∃ t, generateFromJson E data = .ok t ∧ verifyFromJson E data t = .ok ()) ∧
    (∀ e, data = .error e → generateFromJson E data = .error e ∧ ∀ t, verifyFromJson E data t = .error e) := by
  refine ⟨?_, ?_⟩
  · rintro v rfl
    have := (C23_shape H v _).mpr (multibaseEncode58_spec _)
    exact ⟨_, this, (C21_exact H v _).1.mpr this⟩
  · rintro e rfl
    exact ⟨rfl, fun _ => rfl⟩

/-- C22: a hashlink accepted for another value means equal JSON text or a BLAKE3 collision. -/
theorem C22_integrity {E : Env} (H : E.HashLaws) (v w : JSONValue) (t : Str)
    (hg : generateFromJson E (.ok v) = .ok t) (hv : verifyFromJson E (.ok w) t = .ok ()) :
    v.text = w.text ∨ (utf8 v.text ≠ utf8 w.text ∧ E.blake3 (utf8 v.text) = E.blake3 (utf8 w.text)) := by
  rw [(C21_exact H w t).1] at hv
  rw [C23_shape H] at hg hv
  have e := multibaseEncode58_injective (hg.unique.symm.trans hv.unique)
  simp only [List.cons.injEq, true_and] at e
  by_cases h : utf8 v.text = utf8 w.text
  · left
    refine utf8Encode_injective ?_
    rw [utf8_eq, utf8_eq] at *
    exact h
  · exact Or.inr ⟨h, e⟩

/-- `C22_integrity`: a hashlink made and verified. -/
example : ∃ t, generateFromJson Toy.env (.ok ⟨"{\"a\":1}".toList⟩) = .ok t ∧
    verifyFromJson Toy.env (.ok ⟨"{\"a\":1}".toList⟩) t = .ok () :=
  (C20_roundtrip Toy.hashLaws _).1 _ rfl

end Verif.Props
