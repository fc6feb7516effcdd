import Verif.Model.Secure
import Verif.Lemmas.Reads
import Verif.Lemmas.RoundTrip
import Verif.Props.Identity

/-
C54: JSON of the exported private keys (core/src/keys/secure.rs).
-/

namespace Verif.Spec
open Verif

/-- The two encrypted private keys of one slot on the wire. The second name is spelt as in the code. -/
def pairsObject {E : Env} (K : KeySecureCodec E) (p : PrivateKeyPairs) : Json (Num E.F) :=
  object [("verification", some (K.toTree p.verification)), ("aggrement", some (K.toTree p.aggrement))]

/-- The exported private keys of an identity on the wire. -/
def privateKeysObject {E : Env} (K : KeySecureCodec E) (p : IdentityPrivateKeyPairs) : Json (Num E.F) :=
  object [("identity", some (.str p.identity)), ("authentication", p.authentication.map (pairsObject K)),
    ("assertion", p.assertion.map (pairsObject K))]

/-- The encrypted keys of one slot. -/
def pairsRecords (p : PrivateKeyPairs) : List KeySecure := [p.verification, p.aggrement]

/-- All encrypted keys of an export. -/
def exportedRecords (p : IdentityPrivateKeyPairs) : List KeySecure :=
  (p.authentication.toList ++ p.assertion.toList).flatMap pairsRecords

/-- Two encrypted private keys, read by the reader of the dependency. -/
def ReadsPairs (R : Raw → KeySecure → Prop) (r : Raw) (p : PrivateKeyPairs) : Prop :=
  ∃ get, StructOf ["verification", "aggrement"] r get ∧
    Needs get "verification" R p.verification ∧ Needs get "aggrement" R p.aggrement

/-- The exported private keys. -/
def ReadsPrivateKeys (R : Raw → KeySecure → Prop) (r : Raw) (p : IdentityPrivateKeyPairs) : Prop :=
  ∃ get, StructOf ["identity", "authentication", "assertion"] r get ∧
    Needs get "identity" ReadsText p.identity ∧ May get "authentication" (ReadsPairs R) p.authentication ∧
    May get "assertion" (ReadsPairs R) p.assertion

end Verif.Spec

namespace Verif
open Spec

variable {E : Env} {K : KeySecureCodec E}

theorem PrivateKeyPairs.dec_toTree (p : PrivateKeyPairs) (L : ∀ ks ∈ pairsRecords p, K.Keeps ks) (d : Nat)
    (hd : 101 ≤ d) :
    PrivateKeyPairs.dec K d ((p.toTree K).toRaw (printNum E.floatPrint)) = some p := by
  obtain ⟨a, b⟩ := p
  unfold PrivateKeyPairs.dec PrivateKeyPairs.toTree
  rw [structFields_obj _ _ _ d (by omega)]
  · simp [reqField, List.lookup, L a (by simp [pairsRecords]) (d - 1) (show 100 ≤ d - 1 by omega),
      L b (by simp [pairsRecords]) (d - 1) (show 100 ≤ d - 1 by omega)]
  · simp [PrivateKeyPairs.fieldNames]
  · simp

theorem IdentityPrivateKeyPairs.dec_toTree (p : IdentityPrivateKeyPairs)
    (L : ∀ ks ∈ exportedRecords p, K.Keeps ks) (d : Nat) (hd : 102 ≤ d) :
    IdentityPrivateKeyPairs.dec K d ((p.toTree K).toRaw (printNum E.floatPrint)) = some p := by
  obtain ⟨i, a, b⟩ := p
  unfold IdentityPrivateKeyPairs.dec IdentityPrivateKeyPairs.toTree
  rw [structFields_obj _ _ _ d (by omega)]
  · simp only [List.map_append, List.append_assoc]
    rw [optField_map (printNum E.floatPrint) (f := PrivateKeyPairs.toTree K) (o := a),
      optField_map (printNum E.floatPrint) (f := PrivateKeyPairs.toTree K) (o := b)]
    · simp [reqField, decString_toRaw]
    · simp [List.lookup, lookup_optMember, lookup_optMember']
    · intro v hv; exact PrivateKeyPairs.dec_toTree v (fun ks hk => L ks (by simp [exportedRecords, hv, hk])) _ (by omega)
    · intro v _; simp [Json.toRaw, PrivateKeyPairs.toTree]
    · simp [List.lookup, lookup_optMember, lookup_optMember']
    · intro v hv; exact PrivateKeyPairs.dec_toTree v (fun ks hk => L ks (by simp [exportedRecords, hv, hk])) _ (by omega)
    · intro v _; simp [Json.toRaw, PrivateKeyPairs.toTree]
  · cases a <;> cases b <;> simp [optMember, IdentityPrivateKeyPairs.fieldNames]
  · cases a <;> cases b <;> simp [optMember]

theorem privateKeys_tree (p : IdentityPrivateKeyPairs) : p.toTree K = privateKeysObject K p := by
  obtain ⟨i, a, b⟩ := p
  cases a <;> cases b <;> rfl

theorem readsPairs_iff {d : Nat} (hd : 2 ≤ d) (r : Raw) (hr : r.Ok) (p : PrivateKeyPairs) :
    PrivateKeyPairs.dec K d r = some p ↔ ReadsPairs (fun r ks => K.dec (d - 1) r = some ks) r p := by
  have e : PrivateKeyPairs.dec K d r = some p ↔
      ∃ fs, structFields ["verification".toList, "aggrement".toList] d r = some fs ∧
        reqField fs "verification".toList (K.dec (d - 1)) = some p.verification ∧
        reqField fs "aggrement".toList (K.dec (d - 1)) = some p.aggrement := by
    unfold PrivateKeyPairs.dec PrivateKeyPairs.fieldNames
    cases structFields ["verification".toList, "aggrement".toList] d r with
    | none => simp
    | some fs =>
      simp only [bind, Option.bind_eq_some_iff, Option.some.injEq]
      constructor
      · rintro ⟨a, ha, b, hb, rfl⟩
        exact ⟨fs, rfl, ha, hb⟩
      · rintro ⟨_, rfl, ha, hb⟩
        exact ⟨_, ha, _, hb, rfl⟩
  rw [e]
  refine struct_iff (names := ["verification", "aggrement"]) (by decide) (by omega) hr ?_
  intro fs get h hok
  have req := fun (n : String) (hn : n ∈ _) (x : KeySecure) =>
    reqField_iff (f := K.dec (d - 1)) (P := fun r ks => K.dec (d - 1) r = some ks) x (h n hn) (hok n hn)
      fun y _ => Iff.rfl
  rw [req "verification" (by simp), req "aggrement" (by simp)]

theorem readsPrivateKeys_iff {d : Nat} (hd : 3 ≤ d) (r : Raw) (hr : r.Ok) (p : IdentityPrivateKeyPairs) :
    IdentityPrivateKeyPairs.dec K d r = some p ↔
      ReadsPrivateKeys (fun r ks => K.dec (d - 2) r = some ks) r p := by
  have e : IdentityPrivateKeyPairs.dec K d r = some p ↔
      ∃ fs, structFields ["identity".toList, "authentication".toList, "assertion".toList] d r = some fs ∧
        reqField fs "identity".toList decString = some p.identity ∧
        optField fs "authentication".toList (PrivateKeyPairs.dec K (d - 1)) = some p.authentication ∧
        optField fs "assertion".toList (PrivateKeyPairs.dec K (d - 1)) = some p.assertion := by
    unfold IdentityPrivateKeyPairs.dec IdentityPrivateKeyPairs.fieldNames
    cases structFields ["identity".toList, "authentication".toList, "assertion".toList] d r with
    | none => simp
    | some fs =>
      simp only [bind, Option.bind_eq_some_iff, Option.some.injEq]
      constructor
      · rintro ⟨a, ha, b, hb, c, hc, rfl⟩
        exact ⟨fs, rfl, ha, hb, hc⟩
      · rintro ⟨_, rfl, ha, hb, hc⟩
        exact ⟨_, ha, _, hb, _, hc, rfl⟩
  rw [e]
  refine struct_iff (names := ["identity", "authentication", "assertion"]) (by decide) (by omega) hr ?_
  intro fs get h hok
  have opt := fun (n : String) (hn : n ∈ _) (x : Option PrivateKeyPairs) =>
    optField_iff (f := PrivateKeyPairs.dec K (d - 1)) (P := ReadsPairs (fun r ks => K.dec (d - 2) r = some ks)) x
      (h n hn) (hok n hn) fun y hy x => readsPairs_iff (by omega) y hy x
  rw [opt "authentication" (by simp), opt "assertion" (by simp),
    reqField_iff _ (h "identity" (by simp)) (hok "identity" (by simp)) fun y hy => readsText_iff y hy p.identity]

end Verif

namespace Verif.Props
open Verif Spec

/-! ### C54 -/

/-- C54: exact text of the exported private keys. -/
theorem C54_text {E : Env} (L : E.NumLaws) (K : KeySecureCodec E) (p : IdentityPrivateKeyPairs) :
    p.toJson K = .ok ⟨plainText E (privateKeysObject K p)⟩ := by
  unfold IdentityPrivateKeyPairs.toJson JSONValue.ofString
  rw [jsonText_eq L, privateKeys_tree]

/-- C54: the exported private keys survive printing and parsing. -/
theorem C54_json_roundtrip {E : Env} (L : E.NumLaws) (K : KeySecureCodec E) (p : IdentityPrivateKeyPairs)
    (hK : ∀ ks ∈ exportedRecords p, K.Keeps ks) :
    ∃ t, p.toJson K = .ok t ∧ fromSlice (IdentityPrivateKeyPairs.dec K) t.toBytes = some p := by
  refine ⟨⟨jsonText E (p.toTree K)⟩, by rfl, ?_⟩
  unfold JSONValue.toBytes
  rw [fromSlice_text L]
  exact IdentityPrivateKeyPairs.dec_toTree p hK 128 (by omega)

/-- C54: which texts are read as exported private keys, and as which. -/
theorem C54_reads {E : Env} (K : KeySecureCodec E) (bs : Bytes) (p : IdentityPrivateKeyPairs) :
    fromSlice (IdentityPrivateKeyPairs.dec K) bs = some p ↔
      ∃ r, JsonText r bs ∧ ReadsPrivateKeys (fun r ks => K.dec 126 r = some ks) r p :=
  fromSlice_iff (fun r hr x => readsPrivateKeys_iff (d := 128) (by omega) r hr x) bs p

/-- C54: keys exported from an identity, stored as JSON and read again decrypt to the private keys of the
identity. -/
theorem C54_stored {E : Env} (L : E.NumLaws) (A : E.AeadLaw) (K : KeySecureCodec E) (v : Str)
    (ops : List (IdOp E)) (r : PrivateKeysRandom) (pw : Str) (out : IdentityPrivateKeyPairs)
    (h : (idRun v ops).buildPrivateKeys r pw = .ok out)
    (hK : ∀ ks ∈ exportedRecords out, K.Keeps ks) :
    ∃ t out', out.toJson K = .ok t ∧ fromSlice (IdentityPrivateKeyPairs.dec K) t.toBytes = some out' ∧
      out'.identity = v ∧ SlotDecrypts E pw (firstAuth ops) out'.authentication ∧
      SlotDecrypts E pw (firstAssertion ops) out'.assertion := by
  obtain ⟨t, h1, h2⟩ := C54_json_roundtrip L K out hK
  exact ⟨t, out, h1, h2, C14_private_keys A v ops r pw out h⟩

/-- A codec for the examples: an array of texts, numbers in unary. -/
def toyCodec : KeySecureCodec Toy.env where
  toTree k :=
    let n := fun x => Json.str (List.replicate x 'x')
    .arr [.str k.cipherText, .str k.nonce, .str k.salt, n k.kdfParams.mCost, n k.kdfParams.pCost,
      n k.kdfParams.tCost, n k.kdfParams.outputLen]
  dec _ r :=
    match r with
    | .arr [a, b, c, d, e, f, g] => do
      some ⟨← decString a, ← decString b, ⟨(← decString d).length, (← decString e).length, (← decString f).length,
        (← decString g).length⟩, ← decString c⟩
    | _ => none

theorem toyCodec_keeps (ks : KeySecure) : toyCodec.Keeps ks := by
  obtain ⟨a, b, ⟨m, p, t, o⟩, c⟩ := ks
  intro d _
  simp [toyCodec, Json.toRaw, Json.toRawList, decString, decStr_encStr]

/-- `C54_json_roundtrip`, `C54_stored`: the keys of two methods exported, and read back from the text. -/
example : ∃ out t, (idRun "did:x".toList toyOps).buildPrivateKeys ⟨toyRandom, toyRandom, toyRandom, toyRandom⟩
    "pw".toList = .ok out ∧ out.authentication ≠ none ∧ (exportedRecords out).length ≠ 0 ∧ out.toJson toyCodec = .ok t ∧
    fromSlice (IdentityPrivateKeyPairs.dec toyCodec) t.toBytes = some out := by
  exact ⟨_, _, rfl, by simp, by decide,
    (C54_json_roundtrip Toy.numLaws toyCodec _ fun ks _ => toyCodec_keeps ks).choose_spec⟩

/-- The text of one encrypted key, for the example below. -/
def toyRecord : Raw :=
  (toyCodec.toTree ⟨"00".toList, "01".toList, ⟨1, 1, 1, 1⟩, "s".toList⟩).toRaw (printNum Toy.env.floatPrint)

/-- The spelling `agreement` is not accepted. -/
example :
    (PrivateKeyPairs.dec toyCodec 128 (.obj [(encStr "verification".toList, toyRecord),
      (encStr "aggrement".toList, toyRecord)])).isSome = true ∧
    PrivateKeyPairs.dec toyCodec 128 (.obj [(encStr "verification".toList, toyRecord),
      (encStr "agreement".toList, toyRecord)]) = none := by
  decide +kernel

end Verif.Props
