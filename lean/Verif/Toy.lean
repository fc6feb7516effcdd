import Verif.Env

/-
A concrete environment satisfying every assumed law. It shows that the hypotheses of the theorems can be met
together; the examples beside the theorems use it. It is not cryptography.
-/

namespace Verif.Toy
open Verif

/-- A polynomial digest with the given number of bytes. -/
def digest (len : Nat) (b : Bytes) : Bytes :=
  let n := b.foldl (fun acc x => (acc * 257 + x.toNat + 1) % (256 ^ len - 189)) 7
  (List.range len).map fun i => byte (n / 256 ^ i)

theorem digest_len (len : Nat) (b : Bytes) : (digest len b).length = len := by simp [digest]

def fprint (b : Bool) : Bytes := if b then [0x31, 0x2e, 0x35] else [0x30, 0x2e, 0x35]

def fparse (t : Bytes) : Option Bool :=
  if t = [0x31, 0x2e, 0x35] then some true else if t = [0x30, 0x2e, 0x35] then some false else none

/-- Toy primitives: the signature of `m` under `k` is `k` followed by `m`; the AEAD prepends key and nonce as a
tag; the KDF concatenates password and salt. -/
def env : Env where
  msg := fun _ => "dependency error".toList
  F := Bool
  floatPrint := fprint
  floatParse := fparse
  jcsNum := printNum fprint
  keyLe a b := !strLt b a
  sha256 := digest 32
  sha384 := digest 48
  blake3 := digest 32
  EdSeed := UInt8
  EdKP := UInt8
  EdPriv := UInt8
  EdPub := UInt8
  edGenerate := id
  edPub := id
  edPriv := id
  edPubBytes k := [k]
  edPubOfBytes
    | [k] => some k
    | _ => none
  edPem k := .ok (hexEncode [k])
  edOfPem t :=
    match hexDecode t with
    | some [k] => .ok k
    | _ => .error "bad pem".toList
  edSign k m := k :: m
  edVerify p m sig := if sig.length % 2 = 1 then .error "bad signature".toList else .ok (sig == hexEncode (p :: m))
  DhSeed := UInt8
  DhKP := UInt8
  DhPub := UInt8
  dhGenerate := id
  dhPub := id
  dhPubBytes k := [0, k]
  dhPubOfBytes
    | [0, k] => some k
    | _ => none
  dhSecret k := [1, k]
  kdfDefault := { mCost := 8, pCost := 1, tCost := 1, outputLen := 32 }
  kdf p pw salt := if p.outputLen = 0 then .error "bad params".toList else .ok (utf8Encode pw ++ 0xff :: salt)
  aeadEnc k n p := .ok (k ++ n ++ p)
  aeadDec k n c := if (k ++ n).isPrefixOf c then .ok (c.drop (k ++ n).length) else .error "aead".toList
  parseDate s := if s.head? = some '2' then .ok () else .error "bad date".toList
  Multiaddr := Str
  parseMultiaddr s := if s.head? = some '/' then .ok s else .error "bad multiaddr".toList
  mbFold _ := false
  mbOther _ _ := none

theorem hashLaws : env.HashLaws := ⟨digest_len 32, digest_len 48, digest_len 32⟩

theorem edLaws : env.EdLaws where
  verify_sign k m := by
    have : (hexEncode (k :: m)).length % 2 = 0 := by
      have : ∀ l : Bytes, (hexEncode l).length = 2 * l.length := by
        intro l
        induction l with
        | nil => rfl
        | cons a l ih => simp [hexEncode] at ih ⊢; omega
      rw [this]; omega
    show (if (hexEncode (k :: m)).length % 2 = 1 then _ else _) = _
    rw [if_neg (by omega)]
    exact congrArg Except.ok (beq_self_eq_true _)
  pub_bytes _ := rfl

theorem pemLaw : env.PemLaw := by
  intro k t h
  have h' : Except.ok (hexEncode [k]) = (Except.ok t : Except Str Str) := h
  injection h' with h'
  subst h'
  show (match hexDecode (hexEncode [k]) with
    | some [k] => Except.ok k
    | _ => .error "bad pem".toList) = _
  rw [hexDecode_encode]
  rfl

theorem dhLaw : env.DhLaw := fun _ => rfl

theorem aeadLaw : env.AeadLaw := by
  intro k n p c h
  have h' : Except.ok (k ++ n ++ p) = (Except.ok c : Except Str Bytes) := h
  injection h' with h'
  subst h'
  show (if (k ++ n).isPrefixOf (k ++ n ++ p) = true then _ else _) = _
  rw [if_pos (by simp)]
  simp

theorem numLaws : env.NumLaws where
  tok f := (by decide : ∀ b : Bool, IsNumTok (fprint b)) f
  notInt f := (by decide : ∀ b : Bool, isIntTok (fprint b) = false) f

/-- Every number of the toy environment survives. -/
theorem survives (j : Json (Num env.F)) : Survives env j := by
  intro f _
  cases f <;> rfl

/-- The toy environment with a reader of floating point numbers that takes every one for 1.5. -/
def lossy : Env := { env with floatParse := fun _ => some true }

theorem lossy_numLaws : lossy.NumLaws := numLaws

theorem jcsLaws : env.JcsLaws where
  num_tok := printNum_tok numLaws.tok
  key_total a b := by
    show (!strLt b a) = true ∨ (!strLt a b) = true
    cases h : strLt b a
    · simp
    · simp [strLt_asymm h]
  key_trans a b c := by
    show (!strLt b a) = true → (!strLt c b) = true → (!strLt c a) = true
    intro h1 h2
    cases h : strLt c a with
    | false => rfl
    | true =>
      rcases strLt_tri a b with h3 | h3 | h3
      · rw [strLt_trans h h3] at h2; simp at h2
      · subst h3; rw [h] at h2; simp at h2
      · rw [h3] at h1; simp at h1
  key_antisymm a b := by
    show (!strLt b a) = true → (!strLt a b) = true → a = b
    intro h1 h2
    rcases strLt_tri a b with h3 | h3 | h3
    · rw [h3] at h2; simp at h2
    · exact h3
    · rw [h3] at h1; simp at h1

/-- The toy environment with a signature scheme that accepts everything. -/
def weak : Env := { env with edVerify := fun _ _ _ => .ok true }

theorem weak_hashLaws : weak.HashLaws := ⟨hashLaws.1, hashLaws.2, hashLaws.3⟩

theorem weak_numLaws : weak.NumLaws := numLaws

theorem weak_jcsLaws : weak.JcsLaws := ⟨jcsLaws.1, jcsLaws.2, jcsLaws.3, jcsLaws.4⟩

theorem weak_edLaws : weak.EdLaws := ⟨fun _ _ => rfl, fun _ => rfl⟩

end Verif.Toy
