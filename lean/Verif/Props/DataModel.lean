import Verif.Props.Syntax
import Verif.Props.Wire
import Verif.Props.Json
import Verif.Props.Proof

/-
C91: written documents against the W3C data models the code refers to: Verifiable Credentials Data Model 2.0
(core/src/verifiable/vc.rs:18, vp.rs:14), Data Integrity 1.0 (core/src/verifiable/proof/types.rs:14) and DID Core
(core/src/doc/mod.rs:4).
-/

namespace Verif.Spec
open Verif

/-! ### The data models, on JSON texts -/

/-- `x` is a member of name `k` of the object `r`. -/
def Member (r : Raw) (k : String) (x : Raw) : Prop := ∃ kvs s, r = .obj kvs ∧ (s, x) ∈ kvs ∧ Spells s k.toList

/-- There are members of name `k`, and all are as `P` says. -/
def Has (r : Raw) (k : String) (P : Raw → Prop) : Prop := (∃ x, Member r k x) ∧ ∀ x, Member r k x → P x

/-- Members of name `k` are as `P` says. -/
def MayHave (r : Raw) (k : String) (P : Raw → Prop) : Prop := ∀ x, Member r k x → P x

/-- `scheme` of RFC 3986. -/
def IsScheme (t : Str) : Prop :=
  ∃ c s, t = c :: s ∧ c.isAlpha = true ∧ ∀ x ∈ s, x.isAlphanum = true ∨ x ∈ "+-.".toList

/-- The outer form of `URI` of RFC 3986: a scheme, a colon, and characters that may occur in a URI. -/
def IsUri (t : Str) : Prop :=
  ∃ scheme rest, IsScheme scheme ∧ Encoded (fun c => c.isAlphanum = true ∨ c ∈ "-._~:/?#[]@!$&'()*+,;=".toList) rest ∧
    t = scheme ++ ':' :: rest

/-- A JSON string. -/
def SomeText (x : Raw) : Prop := ∃ t, ReadsText x t

/-- A JSON string with a URI. -/
def UriText (x : Raw) : Prop := ∃ t, ReadsText x t ∧ IsUri t

/-- A JSON object. -/
def SomeObject (x : Raw) : Prop := ∃ kvs, x = .obj kvs

/-- An ordered set of contexts that begins with `first`; the others are URIs or objects. -/
def ContextsFrom (first : String) (x : Raw) : Prop :=
  ∃ y ys, x = .arr (y :: ys) ∧ ReadsText y first.toList ∧ ∀ z ∈ ys, UriText z ∨ SomeObject z

/-- One type or a set of types, among them `name`. -/
def TypesWith (name : String) (x : Raw) : Prop :=
  ReadsText x name.toList ∨ ∃ ys, x = .arr ys ∧ (∀ y ∈ ys, SomeText y) ∧ ∃ y ∈ ys, ReadsText y name.toList

/-- A URI, or an object with a URI for `id`. -/
def Party (x : Raw) : Prop := UriText x ∨ (SomeObject x ∧ Has x "id" UriText)

/-- An object with at least one member. -/
def Claims (x : Raw) : Prop := ∃ kv kvs, x = .obj (kv :: kvs)

/-- Claims about one subject, or about a set of subjects. -/
def Subjects (x : Raw) : Prop := Claims x ∨ ∃ y ys, x = .arr (y :: ys) ∧ ∀ z ∈ y :: ys, Claims z

/-- Data Integrity 1.0, section 2.1 (dates are the matter of C83). -/
structure ProofModel (r : Raw) : Prop where
  id : MayHave r "id" UriText
  type : Has r "type" SomeText
  suite : (∃ x, Member r "type" x ∧ ReadsText x "DataIntegrityProof".toList) → Has r "cryptosuite" SomeText
  purpose : Has r "proofPurpose" SomeText
  method : MayHave r "verificationMethod" UriText
  value : MayHave r "proofValue" SomeText

/-- Verifiable Credentials Data Model 2.0, sections 4.3 (contexts), 4.4 (identifiers), 4.5 (types), 4.7 (issuer),
4.8 (credential subject), 4.12 (securing mechanisms). -/
structure CredentialModel (r : Raw) : Prop where
  contexts : Has r "@context" (ContextsFrom "https://www.w3.org/ns/credentials/v2")
  id : MayHave r "id" UriText
  types : Has r "type" (TypesWith "VerifiableCredential")
  issuer : Has r "issuer" Party
  subject : Has r "credentialSubject" Subjects
  proof : MayHave r "proof" ProofModel

/-- Verifiable Credentials Data Model 2.0, section 4.13. -/
structure PresentationModel (r : Raw) : Prop where
  contexts : Has r "@context" (ContextsFrom "https://www.w3.org/ns/credentials/v2")
  id : MayHave r "id" UriText
  types : Has r "type" (TypesWith "VerifiablePresentation")
  holder : MayHave r "holder" Party
  credentials : MayHave r "verifiableCredential" fun x => CredentialModel x ∨ ∃ xs, x = .arr xs ∧ ∀ y ∈ xs, CredentialModel y
  proof : MayHave r "proof" ProofModel

/-- A JSON string with a DID URL. -/
def DidUrlText (x : Raw) : Prop := ∃ t, ReadsText x t ∧ ∃ did path query fragment, IsDidUrl t did path query fragment

/-- A JSON string with a DID. -/
def DidText (x : Raw) : Prop := ∃ t, ReadsText x t ∧ IsDid t

/-- DID Core, section 5.2: verification methods. -/
structure MethodModel (r : Raw) : Prop where
  id : Has r "id" DidUrlText
  type : Has r "type" SomeText
  controller : Has r "controller" DidText
  key : MayHave r "publicKeyMultibase" SomeText

/-- DID Core, section 5.3: a set of verification methods, given or referred to. -/
def Methods (x : Raw) : Prop := ∃ xs, x = .arr xs ∧ ∀ y ∈ xs, DidUrlText y ∨ MethodModel y

/-- DID Core, section 5: DID documents (in JSON-LD, section 6.3). -/
structure DocumentModel (r : Raw) : Prop where
  contexts : Has r "@context" (ContextsFrom "https://www.w3.org/ns/did/v1")
  id : Has r "id" DidText
  relations : ∀ k ∈ ["authentication", "assertionMethod", "keyAgreement", "capabilityInvocation", "capabilityDelegation"],
    MayHave r k Methods

/-- Keys for key agreement (suite X25519KeyAgreementKey2020) are not listed for other purposes. -/
def AgreementApart (r : Raw) : Prop :=
  ∀ k ∈ ["authentication", "assertionMethod", "capabilityInvocation", "capabilityDelegation"], ∀ xs, Member r k (.arr xs) →
    ∀ y ∈ xs, ∀ z, Member y "type" z → ¬ ReadsText z "X25519KeyAgreementKey2020".toList

/-- A text holds a JSON value as `P` says. -/
def TextIs (P : Raw → Prop) (bs : Bytes) : Prop := ∃ r, JsonText r bs ∧ P r

/-! ### What the models ask of the fields -/

/-- The claims of a credential are those of one or more subjects. -/
def SubjectsValue {N : Type} (j : Json N) : Prop :=
  (∃ kv kvs, j = .obj (kv :: kvs)) ∨ ∃ x xs, j = .arr (x :: xs) ∧ ∀ y ∈ x :: xs, ∃ kv kvs, y = .obj (kv :: kvs)

structure ProofFields (p : Proof) : Prop where
  id : IsUri p.id
  method : IsUri p.verificationMethod
  suite : p.typ = "DataIntegrityProof".toList → p.cryptosuite ≠ none

structure CredentialFields {E : Env} (v : VC E) : Prop where
  first : v.contexts.head? = some "https://www.w3.org/ns/credentials/v2".toList
  others : ∀ c ∈ v.contexts.tail, IsUri c
  type : "VerifiableCredential".toList ∈ v.types
  id : IsUri v.id
  issuer : IsUri v.issuer
  subject : SubjectsValue v.credentialSubject.1
  proof : ∀ p, v.proof = some p → ProofFields p

structure PresentationFields {E : Env} (v : VP E) : Prop where
  first : v.contexts.head? = some "https://www.w3.org/ns/credentials/v2".toList
  others : ∀ c ∈ v.contexts.tail, IsUri c
  type : "VerifiablePresentation".toList ∈ v.types
  holder : ∀ h, v.holder = some h → IsUri h
  credentials : ∀ c ∈ v.verifiableCredential, CredentialFields c
  proof : ∀ p, v.proof = some p → ProofFields p

structure DocumentFields (d : Doc) : Prop where
  first : d.context.head? = some "https://www.w3.org/ns/did/v1".toList
  others : ∀ c ∈ d.context.tail, IsUri c
  id : IsDid d.id
  keys : ∀ l ∈ [d.authentication, d.assertion, d.capInvoke, d.capDelegate], ∀ p ∈ l.getD [],
    IsDid p.controller ∧ ∃ did path query fragment, IsDidUrl p.id did path query fragment

end Verif.Spec

namespace Verif
open Spec

/-! ### Written trees -/

/-- A way of turning JSON values into token trees that keeps everything but the order of members and numbers. -/
structure Renders {N : Type} (g : Json N → Raw) : Prop where
  null : g .null = .null
  bool : ∀ b, g (.bool b) = .bool b
  num : ∀ n, ∃ t, g (.num n) = .num t
  str : ∀ s, g (.str s) = .str (encStr s)
  arr : ∀ xs, g (.arr xs) = .arr (xs.map g)
  obj : ∀ l, ∃ l', g (.obj l) = .obj l' ∧ ∀ s x, (s, x) ∈ l' ↔ ∃ k j, (k, j) ∈ l ∧ s = encStr k ∧ x = g j

theorem renders_toRaw {N : Type} (p : N → Bytes) : Renders (Json.toRaw p) where
  null := by simp [Json.toRaw]
  bool := by simp [Json.toRaw]
  num n := ⟨p n, by simp [Json.toRaw]⟩
  str := by simp [Json.toRaw]
  arr := by simp [Json.toRaw, Json.toRawList_eq]
  obj l := by
    refine ⟨_, by simp only [Json.toRaw, Json.toRawMembers_eq]; rfl, fun s x => ?_⟩
    simp only [List.mem_map, Prod.mk.injEq, Prod.exists]
    constructor
    · rintro ⟨k, j, h, h1, h2⟩; exact ⟨k, j, h, h1.symm, h2.symm⟩
    · rintro ⟨k, j, h, h1, h2⟩; exact ⟨k, j, h, h1.symm, h2.symm⟩

theorem canonList_map {N : Type} (le : Str → Str → Bool) (xs : List (Json N)) : Json.canonList le xs = xs.map (Json.canon le) := by
  induction xs with
  | nil => simp [Json.canonList]
  | cons x xs ih => simp [Json.canonList, ih]

theorem canonMembers_map {N : Type} (le : Str → Str → Bool) (xs : List (Str × Json N)) :
    Json.canonMembers le xs = xs.map fun kv => (kv.1, kv.2.canon le) := by
  induction xs with
  | nil => simp [Json.canonMembers]
  | cons x xs ih => obtain ⟨k, v⟩ := x; simp [Json.canonMembers, ih]

theorem renders_canon {N : Type} (le : Str → Str → Bool) (p : N → Bytes) : Renders fun j => (Json.canon le j).toRaw p where
  null := by simp [Json.toRaw, Json.canon]
  bool := by simp [Json.toRaw, Json.canon]
  num n := ⟨p n, by simp [Json.toRaw, Json.canon]⟩
  str := by simp [Json.toRaw, Json.canon]
  arr xs := by simp [Json.toRaw, Json.toRawList_eq, Json.canon, canonList_map, Function.comp_def]
  obj l := by
    refine ⟨_, by simp only [Json.canon, Json.toRaw, Json.toRawMembers_eq]; rfl, fun s x => ?_⟩
    simp only [List.mem_map, List.mem_mergeSort, canonMembers_map, Prod.mk.injEq, Prod.exists]
    constructor
    · rintro ⟨k, j, ⟨k', j', h, rfl, rfl⟩, h1, h2⟩; exact ⟨_, _, h, h1.symm, h2.symm⟩
    · rintro ⟨k, j, h, h1, h2⟩; exact ⟨_, _, ⟨_, _, h, rfl, rfl⟩, h1.symm, h2.symm⟩

theorem spells_encStr (s t : Str) : Spells (encStr s) t ↔ t = s := by
  have h : Spells (encStr s) s := spells_of_dec (isStrTok_encStr s []) (decStr_encStr s)
  constructor
  · intro h'
    have := h'.dec
    rw [h.dec] at this
    exact (Option.some.inj this).symm
  · rintro rfl; exact h

namespace Renders
variable {N : Type} {g : Json N → Raw} (R : Renders g)
include R

theorem readsText (j : Json N) (t : Str) : ReadsText (g j) t ↔ j = .str t := by
  unfold ReadsText
  cases j with
  | null => simp [R.null]
  | bool b => simp [R.bool]
  | num n => obtain ⟨x, hx⟩ := R.num n; simp [hx]
  | str s =>
    simp only [R.str, Raw.str.injEq, exists_eq_left', spells_encStr, Json.str.injEq]
    exact eq_comm
  | arr xs => simp [R.arr]
  | obj l => obtain ⟨l', h, _⟩ := R.obj l; simp [h]

theorem eq_arr (j : Json N) (ys : List Raw) : g j = .arr ys ↔ ∃ xs, j = .arr xs ∧ ys = xs.map g := by
  cases j with
  | null => simp [R.null]
  | bool b => simp [R.bool]
  | num n => obtain ⟨x, hx⟩ := R.num n; simp [hx]
  | str s => simp [R.str]
  | arr xs =>
    simp only [R.arr, Raw.arr.injEq, Json.arr.injEq, exists_eq_left']
    exact eq_comm
  | obj l => obtain ⟨l', h, _⟩ := R.obj l; simp [h]

theorem isObject (j : Json N) : SomeObject (g j) ↔ ∃ l, j = .obj l := by
  unfold SomeObject
  cases j with
  | null => simp [R.null]
  | bool b => simp [R.bool]
  | num n => obtain ⟨x, hx⟩ := R.num n; simp [hx]
  | str s => simp [R.str]
  | arr xs => simp [R.arr]
  | obj l => obtain ⟨l', h, _⟩ := R.obj l; simp [h]

theorem member (l : List (Str × Json N)) (k : String) (x : Raw) :
    Member (g (.obj l)) k x ↔ ∃ j, (k.toList, j) ∈ l ∧ x = g j := by
  obtain ⟨l', h, hm⟩ := R.obj l
  unfold Member
  constructor
  · rintro ⟨kvs, s, e, hs, hk⟩
    rw [h, Raw.obj.injEq] at e
    subst e
    obtain ⟨k', j, h1, rfl, h3⟩ := (hm s x).mp hs
    rw [spells_encStr] at hk
    exact ⟨j, hk ▸ h1, h3⟩
  · rintro ⟨j, h1, h2⟩
    exact ⟨l', _, h, (hm _ x).mpr ⟨_, j, h1, rfl, h2⟩, (spells_encStr _ _).mpr rfl⟩

theorem claims (j : Json N) : Claims (g j) ↔ ∃ kv kvs, j = .obj (kv :: kvs) := by
  constructor
  · rintro ⟨kv, kvs, h⟩
    obtain ⟨l, rfl⟩ := (R.isObject j).mp ⟨_, h⟩
    obtain ⟨l', h', hm⟩ := R.obj l
    rw [h', Raw.obj.injEq] at h
    obtain ⟨k, j, hk, _⟩ := (hm kv.1 kv.2).mp (by rw [h]; simp)
    cases l with
    | nil => cases hk
    | cons a l => exact ⟨a, l, rfl⟩
  · rintro ⟨⟨k, j⟩, kvs, rfl⟩
    obtain ⟨l', h', hm⟩ := R.obj ((k, j) :: kvs)
    have := (hm (encStr k) (g j)).mpr ⟨k, j, by simp, rfl, rfl⟩
    cases l' with
    | nil => cases this
    | cons a l => exact ⟨a, l, h'⟩

theorem subjects (j : Json N) : Subjects (g j) ↔ SubjectsValue j := by
  unfold Subjects SubjectsValue
  rw [R.claims]
  refine or_congr Iff.rfl ?_
  constructor
  · rintro ⟨y, ys, h, hy⟩
    obtain ⟨xs, rfl, hx⟩ := (R.eq_arr _ _).mp h
    cases xs with
    | nil => cases hx
    | cons x xs =>
      refine ⟨x, xs, rfl, fun z hz => (R.claims z).mp (hy _ ?_)⟩
      rw [hx]; exact List.mem_map_of_mem hz
  · rintro ⟨x, xs, rfl, hx⟩
    refine ⟨g x, xs.map g, by rw [R.arr]; rfl, fun z hz => ?_⟩
    obtain ⟨y, hy, rfl⟩ := List.mem_map.mp (show z ∈ (x :: xs).map g from hz)
    exact (R.claims y).mpr (hx y hy)

theorem someText (s : Str) : SomeText (g (.str s)) := ⟨s, (R.readsText _ _).mpr rfl⟩

theorem uriText (s : Str) : UriText (g (.str s)) ↔ IsUri s := by
  simp [UriText, R.readsText]

theorem didText (s : Str) : DidText (g (.str s)) ↔ IsDid s := by
  simp [DidText, R.readsText]

theorem didUrlText (s : Str) : DidUrlText (g (.str s)) ↔ ∃ did path query fragment, IsDidUrl s did path query fragment := by
  simp [DidUrlText, R.readsText]

theorem str_object (s : Str) : ¬ SomeObject (g (.str s)) := by
  rw [R.isObject]; simp

theorem party (s : Str) : Party (g (.str s)) ↔ IsUri s := by
  simp [Party, R.str_object, R.uriText]

theorem contextsFrom (first : String) (l : List Str) : ContextsFrom first (g (strings l)) ↔
    l.head? = some first.toList ∧ ∀ c ∈ l.tail, IsUri c := by
  unfold ContextsFrom strings
  rw [R.arr]
  cases l with
  | nil => simp
  | cons a l =>
    simp only [List.map_cons, Raw.arr.injEq, List.cons.injEq, List.head?_cons, Option.some.injEq, List.tail_cons]
    constructor
    · rintro ⟨y, ys, ⟨rfl, rfl⟩, h1, h2⟩
      rw [R.readsText, Json.str.injEq] at h1
      refine ⟨h1, fun c hc => ?_⟩
      have := h2 (g (.str c)) (by simpa using ⟨c, hc, rfl⟩)
      simpa [R.uriText, R.str_object] using this
    · rintro ⟨rfl, h⟩
      refine ⟨_, _, ⟨rfl, rfl⟩, (R.readsText _ _).mpr rfl, fun z hz => .inl ?_⟩
      simp only [List.map_map, List.mem_map, Function.comp_apply] at hz
      obtain ⟨c, hc, rfl⟩ := hz
      exact (R.uriText c).mpr (h c hc)

theorem typesWith (name : String) (l : List Str) : TypesWith name (g (strings l)) ↔ name.toList ∈ l := by
  unfold TypesWith strings
  rw [R.readsText, R.arr]
  constructor
  · rintro (h | ⟨ys, h, _, y, hy, ht⟩)
    · cases h
    · rw [Raw.arr.injEq] at h
      subst h
      simp only [List.map_map, List.mem_map, Function.comp_apply] at hy
      obtain ⟨s, hs, rfl⟩ := hy
      rw [R.readsText, Json.str.injEq] at ht
      exact ht ▸ hs
  · intro h
    refine .inr ⟨_, rfl, fun y hy => ?_, g (.str name.toList), ?_, (R.readsText _ _).mpr rfl⟩
    · simp only [List.map_map, List.mem_map, Function.comp_apply] at hy
      obtain ⟨s, _, rfl⟩ := hy
      exact R.someText s
    · simpa using ⟨_, h, rfl⟩

/-- Members of an object given by named values. -/
theorem memberObject (l : List (String × Option (Json N))) (k : String) (x : Raw) :
    Member (g (object l)) k x ↔ ∃ j, (k, some j) ∈ l ∧ x = g j := by
  unfold object
  rw [R.member]
  refine exists_congr fun j => and_congr ?_ Iff.rfl
  simp only [List.mem_filterMap, Option.map_eq_some_iff, Prod.mk.injEq, Prod.exists]
  constructor
  · rintro ⟨a, b, h, c, rfl, h1, rfl⟩
    rwa [← String.toList_inj.mp h1]
  · intro h
    exact ⟨k, _, h, j, rfl, rfl, rfl⟩

theorem has {l : List (String × Option (Json N))} {k : String} (j : Json N) {P : Raw → Prop}
    (h : ∀ j', (k, some j') ∈ l ↔ j' = j) : Has (g (object l)) k P ↔ P (g j) := by
  unfold Has
  simp only [R.memberObject, h]
  simp

theorem mayHave {l : List (String × Option (Json N))} {k : String} (o : Option (Json N)) {P : Raw → Prop}
    (h : ∀ j', (k, some j') ∈ l ↔ o = some j') : MayHave (g (object l)) k P ↔ ∀ j, o = some j → P (g j) := by
  unfold MayHave
  simp only [R.memberObject, h]
  constructor
  · intro hp j hj; exact hp _ ⟨j, hj, rfl⟩
  · rintro hp x ⟨j, hj, rfl⟩; exact hp j hj

theorem proofModel (p : Proof) : ProofModel (g (proofObject p)) ↔ ProofFields p := by
  have e1 : MayHave (g (proofObject p)) "id" UriText ↔ IsUri p.id :=
    (R.mayHave (some (.str p.id)) fun j => by simp [eq_comm]).trans (by simp [R.uriText])
  have e2 : Has (g (proofObject p)) "type" SomeText :=
    (R.has (.str p.typ) fun j => by simp).mpr (R.someText _)
  have e3 : (∃ x, Member (g (proofObject p)) "type" x ∧ ReadsText x "DataIntegrityProof".toList) ↔
      p.typ = "DataIntegrityProof".toList := by
    unfold proofObject
    simp [R.memberObject, R.readsText]
  have e4 : Has (g (proofObject p)) "cryptosuite" SomeText ↔ p.cryptosuite ≠ none := by
    cases hc : p.cryptosuite with
    | none =>
      refine iff_of_false ?_ (by simp)
      rintro ⟨⟨x, hx⟩, _⟩
      unfold proofObject at hx
      rw [R.memberObject, hc] at hx
      simp at hx
    | some c =>
      refine iff_of_true ((R.has (.str c) fun j => ?_).mpr (R.someText _)) (by simp)
      simp [hc, eq_comm]
  have e5 : Has (g (proofObject p)) "proofPurpose" SomeText :=
    (R.has (.str (purposeText p.proofPurpose).toList) fun j => by simp).mpr (R.someText _)
  have e6 : MayHave (g (proofObject p)) "verificationMethod" UriText ↔ IsUri p.verificationMethod :=
    (R.mayHave (some (.str p.verificationMethod)) fun j => by simp [eq_comm]).trans (by simp [R.uriText])
  have e7 : MayHave (g (proofObject p)) "proofValue" SomeText :=
    (R.mayHave (some (.str p.proofValue)) fun j => by simp [eq_comm]).mpr (by simp [R.someText])
  constructor
  · rintro ⟨h1, _, h3, _, h5, _⟩
    exact ⟨e1.mp h1, e6.mp h5, fun h => e4.mp (h3 (e3.mpr h))⟩
  · rintro ⟨h1, h2, h3⟩
    exact ⟨e1.mpr h1, e2, fun h => e4.mpr (h3 (e3.mp h)), e5, e6.mpr h2, e7⟩

end Renders

theorem credentialModel {E : Env} {g : Json (Num E.F) → Raw} (R : Renders g) (v : VC E) :
    CredentialModel (g (vcObject v)) ↔ CredentialFields v := by
  have e1 : Has (g (vcObject v)) "@context" (ContextsFrom "https://www.w3.org/ns/credentials/v2") ↔ _ :=
    (R.has (strings v.contexts) fun j => by simp).trans (R.contextsFrom _ _)
  have e2 : MayHave (g (vcObject v)) "id" UriText ↔ IsUri v.id :=
    (R.mayHave (some (.str v.id)) fun j => by simp [eq_comm]).trans (by simp [R.uriText])
  have e3 : Has (g (vcObject v)) "type" (TypesWith "VerifiableCredential") ↔ _ :=
    (R.has (strings v.types) fun j => by simp).trans (R.typesWith _ _)
  have e4 : Has (g (vcObject v)) "issuer" Party ↔ _ :=
    (R.has (.str v.issuer) fun j => by simp).trans (R.party _)
  have e5 : Has (g (vcObject v)) "credentialSubject" Subjects ↔ _ :=
    (R.has v.credentialSubject.1 fun j => by simp).trans (R.subjects _)
  have e6 : MayHave (g (vcObject v)) "proof" ProofModel ↔ ∀ p, v.proof = some p → ProofFields p := by
    refine (R.mayHave (v.proof.map proofObject) fun j => by simp).trans ?_
    cases v.proof with
    | none => simp
    | some p => simp [R.proofModel]
  constructor
  · rintro ⟨h1, h2, h3, h4, h5, h6⟩
    exact ⟨(e1.mp h1).1, (e1.mp h1).2, e3.mp h3, e2.mp h2, e4.mp h4, e5.mp h5, e6.mp h6⟩
  · rintro ⟨h1, h2, h3, h4, h5, h6, h7⟩
    exact ⟨e1.mpr ⟨h1, h2⟩, e2.mpr h4, e3.mpr h3, e4.mpr h5, e5.mpr h6, e6.mpr h7⟩

theorem presentationModel {E : Env} {g : Json (Num E.F) → Raw} (R : Renders g) (v : VP E) :
    PresentationModel (g (vpObject v)) ↔ PresentationFields v := by
  have e1 : Has (g (vpObject v)) "@context" (ContextsFrom "https://www.w3.org/ns/credentials/v2") ↔ _ :=
    (R.has (strings v.contexts) fun j => by simp).trans (R.contextsFrom _ _)
  have e2 : MayHave (g (vpObject v)) "id" UriText :=
    (R.mayHave none fun j => by simp).mpr (by simp)
  have e3 : Has (g (vpObject v)) "type" (TypesWith "VerifiablePresentation") ↔ _ :=
    (R.has (strings v.types) fun j => by simp).trans (R.typesWith _ _)
  have e4 : MayHave (g (vpObject v)) "holder" Party ↔ ∀ h, v.holder = some h → IsUri h := by
    refine (R.mayHave (v.holder.map .str) fun j => by simp).trans ?_
    cases v.holder with
    | none => simp
    | some p => simp [R.party]
  have e5 : MayHave (g (vpObject v)) "verifiableCredential"
      (fun x => CredentialModel x ∨ ∃ xs, x = .arr xs ∧ ∀ y ∈ xs, CredentialModel y) ↔
      ∀ c ∈ v.verifiableCredential, CredentialFields c := by
    refine (R.mayHave (some (.arr (v.verifiableCredential.map vcObject))) fun j => by simp [eq_comm]).trans ?_
    simp only [Option.some.injEq, forall_eq']
    constructor
    · rintro (h | ⟨xs, h, hx⟩) c hc
      · obtain ⟨⟨x, kvs, s, e, _⟩, _⟩ := h.contexts
        rw [R.arr] at e; cases e
      · rw [R.arr, Raw.arr.injEq] at h
        subst h
        exact (credentialModel R c).mp (hx _ (List.mem_map_of_mem (List.mem_map_of_mem hc)))
    · intro h
      refine .inr ⟨_, R.arr _, fun y hy => ?_⟩
      simp only [List.map_map, List.mem_map, Function.comp_apply] at hy
      obtain ⟨c, hc, rfl⟩ := hy
      exact (credentialModel R c).mpr (h c hc)
  have e6 : MayHave (g (vpObject v)) "proof" ProofModel ↔ ∀ p, v.proof = some p → ProofFields p := by
    refine (R.mayHave (v.proof.map proofObject) fun j => by simp).trans ?_
    cases v.proof with
    | none => simp
    | some p => simp [R.proofModel]
  constructor
  · rintro ⟨h1, h2, h3, h4, h5, h6⟩
    exact ⟨(e1.mp h1).1, (e1.mp h1).2, e3.mp h3, e4.mp h4, e5.mp h5, e6.mp h6⟩
  · rintro ⟨h1, h2, h3, h4, h5, h6⟩
    exact ⟨e1.mpr ⟨h1, h2⟩, e2, e3.mpr h3, e4.mpr h4, e5.mpr h5, e6.mpr h6⟩

theorem methodModel {N : Type} {g : Json N → Raw} (R : Renders g) (p : Primary) :
    MethodModel (g (keyObject p)) ↔
      IsDid p.controller ∧ ∃ did path query fragment, IsDidUrl p.id did path query fragment := by
  have e1 : Has (g (keyObject p)) "id" DidUrlText ↔ _ :=
    (R.has (.str p.id) fun j => by simp).trans (R.didUrlText _)
  have e2 : Has (g (keyObject p)) "type" SomeText :=
    (R.has (.str p.verificationType) fun j => by simp).mpr (R.someText _)
  have e3 : Has (g (keyObject p)) "controller" DidText ↔ _ :=
    (R.has (.str p.controller) fun j => by simp).trans (R.didText _)
  have e4 : MayHave (g (keyObject p)) "publicKeyMultibase" SomeText :=
    (R.mayHave (some (.str p.multibase)) fun j => by simp [eq_comm]).mpr (by simp [R.someText])
  constructor
  · rintro ⟨h1, _, h3, _⟩; exact ⟨e3.mp h3, e1.mp h1⟩
  · rintro ⟨h1, h2⟩; exact ⟨e1.mpr h2, e2, e3.mpr h1, e4⟩

theorem methods {N : Type} {g : Json N → Raw} (R : Renders g) (l : Option (List Primary)) :
    (∀ j, (l.map fun l => Json.arr (l.map keyObject)) = some j → Methods (g j)) ↔
      ∀ p ∈ l.getD [], IsDid p.controller ∧ ∃ did path query fragment, IsDidUrl p.id did path query fragment := by
  cases l with
  | none => simp
  | some l =>
    simp only [Option.map_some, Option.some.injEq, forall_eq', Option.getD_some]
    unfold Methods
    rw [R.arr]
    constructor
    · rintro ⟨xs, h, hx⟩ p hp
      rw [Raw.arr.injEq] at h
      subst h
      rcases hx _ (List.mem_map_of_mem (List.mem_map_of_mem hp)) with ⟨t, ht, _⟩ | h
      · rw [R.readsText] at ht; cases ht
      · exact (methodModel R p).mp h
    · intro h
      refine ⟨_, rfl, fun y hy => .inr ?_⟩
      simp only [List.map_map, List.mem_map, Function.comp_apply] at hy
      obtain ⟨p, hp, rfl⟩ := hy
      exact (methodModel R p).mpr (h p hp)

theorem documentModel {N : Type} {g : Json N → Raw} (R : Renders g) (d : Doc) :
    DocumentModel (g (docObject d)) ↔ DocumentFields d := by
  have e1 : Has (g (docObject d)) "@context" (ContextsFrom "https://www.w3.org/ns/did/v1") ↔ _ :=
    (R.has (strings d.context) fun j => by simp).trans (R.contextsFrom _ _)
  have e2 : Has (g (docObject d)) "id" DidText ↔ _ :=
    (R.has (.str d.id) fun j => by simp).trans (R.didText _)
  have r1 : MayHave (g (docObject d)) "authentication" Methods ↔ _ :=
    (R.mayHave _ fun j => by simp).trans (methods R d.authentication)
  have r2 : MayHave (g (docObject d)) "assertionMethod" Methods ↔ _ :=
    (R.mayHave _ fun j => by simp).trans (methods R d.assertion)
  have r3 : MayHave (g (docObject d)) "capabilityInvocation" Methods ↔ _ :=
    (R.mayHave _ fun j => by simp).trans (methods R d.capInvoke)
  have r4 : MayHave (g (docObject d)) "capabilityDelegation" Methods ↔ _ :=
    (R.mayHave _ fun j => by simp).trans (methods R d.capDelegate)
  have r5 : MayHave (g (docObject d)) "keyAgreement" Methods :=
    (R.mayHave none fun j => by simp).mpr (by simp)
  constructor
  · rintro ⟨h1, h2, h3⟩
    refine ⟨(e1.mp h1).1, (e1.mp h1).2, e2.mp h2, ?_⟩
    simp only [List.mem_cons, List.not_mem_nil, or_false, forall_eq_or_imp, forall_eq] at h3 ⊢
    exact ⟨r1.mp h3.1, r2.mp h3.2.1, r3.mp h3.2.2.2.1, r4.mp h3.2.2.2.2⟩
  · rintro ⟨h1, h2, h3, h4⟩
    refine ⟨e1.mpr ⟨h1, h2⟩, e2.mpr h3, ?_⟩
    simp only [List.mem_cons, List.not_mem_nil, or_false, forall_eq_or_imp, forall_eq] at h4 ⊢
    exact ⟨r1.mpr h4.1, r2.mpr h4.2.1, r5, r3.mpr h4.2.2.1, r4.mpr h4.2.2.2⟩

end Verif

namespace Verif.Props
open Verif Spec

theorem textIs_json {E : Env} (N : E.NumLaws) (P : Raw → Prop) (j : Json (Num E.F)) :
    TextIs P (utf8 (plainText E j)) ↔ P (j.toRaw (printNum E.floatPrint)) := by
  have h : JsonText (j.toRaw (printNum E.floatPrint)) (utf8 (plainText E j)) := by
    rw [← jsonText_eq N, ← Raw.parse_iff]
    rw [utf8_eq, jsonText_bytes N]
    exact Raw.parse_render _ (Json.toRaw_ok (printNum_tok N.tok) j)
  constructor
  · rintro ⟨r, hr, hp⟩
    rwa [C50_unambiguous hr h] at hp
  · exact fun hp => ⟨_, h, hp⟩

theorem textIs_jcs {E : Env} (L : E.JcsLaws) (P : Raw → Prop) (j : Json (Num E.F)) (hd : DistinctKeys j) :
    TextIs P (utf8 (canonicalText E j)) ↔ P ((j.canon E.keyLe).toRaw E.jcsNum) := by
  have h : JsonText ((j.canon E.keyLe).toRaw E.jcsNum) (utf8 (canonicalText E j)) := by
    rw [← jcsText_eq L j hd, ← Raw.parse_iff]
    rw [utf8_eq, jcsText_bytes L]
    exact Raw.parse_render _ (Json.toRaw_ok L.num_tok _)
  constructor
  · rintro ⟨r, hr, hp⟩
    rwa [C50_unambiguous hr h] at hp
  · exact fun hp => ⟨_, h, hp⟩

/-! ### Written texts -/

/-- C91: exactly which credentials have a JSON text that is a credential by the data model. -/
theorem C91_vc {E : Env} (N : E.NumLaws) (v : VC E) (t : JSONValue) (h : v.toJson = .ok t) :
    TextIs CredentialModel (utf8 t.text) ↔ CredentialFields v := by
  have hv := (C24_serialise_iff v).1.mp ⟨t, h⟩
  rw [C49_vc_text N v hv, Except.ok.injEq] at h
  subst h
  exact (textIs_json N _ _).trans (credentialModel (renders_toRaw _) v)

/-- C91: likewise the canonical text. -/
theorem C91_vc_canonical {E : Env} (L : E.JcsLaws) (v : VC E) (t : Str) (h : v.toJcs = .ok t) :
    TextIs CredentialModel (utf8 t) ↔ CredentialFields v := by
  have hv := (C24_serialise_iff v).2.1.mp ⟨t, h⟩
  rw [C49_vc_canonical L v hv, Except.ok.injEq] at h
  subst h
  exact (textIs_jcs L _ _ (vc_distinct v)).trans (credentialModel (renders_canon _ _) v)

/-- C91: presentations. -/
theorem C91_vp {E : Env} (N : E.NumLaws) (v : VP E) (t : JSONValue) (h : v.toJson = .ok t) :
    TextIs PresentationModel (utf8 t.text) ↔ PresentationFields v := by
  have hv := (C25_serialise_iff v).1.mp ⟨t, h⟩
  rw [C49_vp_text N v hv, Except.ok.injEq] at h
  subst h
  exact (textIs_json N _ _).trans (presentationModel (renders_toRaw _) v)

/-- C91: canonical texts of presentations. -/
theorem C91_vp_canonical {E : Env} (L : E.JcsLaws) (v : VP E) (t : Str) (h : v.toJcs = .ok t) :
    TextIs PresentationModel (utf8 t) ↔ PresentationFields v := by
  have hv := (C25_serialise_iff v).2.1.mp ⟨t, h⟩
  rw [C49_vp_canonical L v hv, Except.ok.injEq] at h
  subst h
  exact (textIs_jcs L _ _ (vp_distinct v)).trans (presentationModel (renders_canon _ _) v)

/-- C91: DID documents, whatever they hold. No text has a member `keyAgreement`. -/
theorem C91_doc {E : Env} (N : E.NumLaws) (d : Doc) (t : JSONValue) (h : d.toJson E = .ok t) :
    (TextIs DocumentModel (utf8 t.text) ↔ DocumentFields d) ∧
      TextIs (fun r => ∀ x, ¬ Member r "keyAgreement" x) (utf8 t.text) := by
  rw [C49_doc_text N d, Except.ok.injEq] at h
  subst h
  refine ⟨(textIs_json N _ _).trans (documentModel (renders_toRaw _) d), (textIs_json N _ _).mpr fun x hx => ?_⟩
  unfold docObject at hx
  rw [(renders_toRaw _).memberObject] at hx
  simp at hx

theorem isUri_of (scheme rest : Str) {c : Char} {s : Str} (h1 : scheme = c :: s) (h2 : c.isAlpha = true)
    (h3 : ∀ x ∈ s, x.isAlphanum = true ∨ x ∈ "+-.".toList)
    (h4 : ∀ c ∈ rest, c.isAlphanum = true ∨ c ∈ "-._~:/?#[]@!$&'()*+,;=".toList) : IsUri (scheme ++ ':' :: rest) :=
  ⟨scheme, rest, ⟨c, s, h1, h2, h3⟩, .of_chars h4, rfl⟩

/-- C91: the document of a DID, after any history of calls, is a DID document by the data model. -/
theorem C91_did {E : Env} (N : E.NumLaws) (d : DID E) (i : Identity E) (hi : d.identity = .ok i) (ops : List (IdOp E)) :
    ∃ t, (ops.foldl IdOp.apply i).toDoc.toJson E = .ok t ∧ TextIs DocumentModel (utf8 t.text) := by
  have ht := C49_doc_text N (ops.foldl IdOp.apply i).toDoc
  refine ⟨_, ht, ((C91_doc N _ _ ht).1).mpr ?_⟩
  obtain ⟨h1, h2⟩ := C87_entries d i hi ops
  obtain ⟨_, x, y, hi', hd, e1, e2⟩ := identity_isDid d
  rw [hi] at hi'; cases hi'
  have er : ops.foldl IdOp.apply i = idRun i.value ops := by
    obtain ⟨v, a, b⟩ := i
    cases e1; cases e2; rfl
  rw [er] at h1 h2 ⊢
  obtain ⟨_, g2, g3, g4, _⟩ := C12_document i.value ops
  refine ⟨by rw [g2]; rfl, ?_, h1, ?_⟩
  · rw [g2]
    intro c hc
    simp only [List.tail_cons, List.mem_cons, List.not_mem_nil, or_false] at hc
    rcases hc with rfl | rfl
    · exact isUri_of "https".toList "//w3id.org/security/suites/ed25519-2020/v1".toList rfl (by decide) (by decide) (by decide)
    · exact isUri_of "https".toList "//w3id.org/security/suites/x25519-2020/v1".toList rfl (by decide) (by decide) (by decide)
  · intro l hl p hp
    have key : ∀ p ∈ (idRun i.value ops).toDoc.authentication.getD [] ++ (idRun i.value ops).toDoc.assertion.getD [],
        IsDid p.controller ∧ ∃ did path query fragment, IsDidUrl p.id did path query fragment := by
      intro p hp
      obtain ⟨hc, f, hf⟩ := h2 p hp
      exact ⟨hc ▸ hd.isDid, _, _, _, _, hf⟩
    simp only [List.mem_cons, List.not_mem_nil, or_false] at hl
    rcases hl with rfl | rfl | rfl | rfl
    · exact key p (List.mem_append_left _ hp)
    · exact key p (List.mem_append_right _ hp)
    · rw [g3] at hp; simp at hp
    · rw [g4] at hp; simp at hp

theorem listed {E : Env} (d : Doc) (k : String) (l : Option (List Primary)) (g : Json (Num E.F) → Raw) (R : Renders g)
    (hk : ∀ x, Member (g (docObject d)) k x ↔ ∃ l', l = some l' ∧ x = .arr (l'.map fun p => g (keyObject p))) :
    (∀ xs, Member (g (docObject d)) k (.arr xs) → ∀ y ∈ xs, ∀ z, Member y "type" z → ¬ ReadsText z "X25519KeyAgreementKey2020".toList) ↔
      ∀ p ∈ l.getD [], p.verificationType ≠ "X25519KeyAgreementKey2020".toList := by
  have m : ∀ (p : Primary) z, Member (g (keyObject p)) "type" z ↔ z = g (.str p.verificationType) := by
    intro p z
    unfold keyObject
    rw [R.memberObject]
    simp
  constructor
  · intro h p hp
    cases l with
    | none => simp at hp
    | some l' =>
      have := h _ ((hk _).mpr ⟨l', rfl, rfl⟩) _ (List.mem_map_of_mem hp) _ ((m p _).mpr rfl)
      rwa [R.readsText, Json.str.injEq] at this
  · intro h xs hx y hy z hz
    obtain ⟨l', rfl, e⟩ := (hk _).mp hx
    rw [Raw.arr.injEq] at e
    subst e
    obtain ⟨p, hp, rfl⟩ := List.mem_map.mp hy
    rw [m] at hz
    subst hz
    rw [R.readsText, Json.str.injEq]
    exact h p hp

/-- C91: a document lists keys for key agreement under other purposes as soon as any key has been made. -/
theorem C91_agreement {E : Env} (N : E.NumLaws) (v : Str) (ops : List (IdOp E)) :
    ∃ t, (idRun v ops).toDoc.toJson E = .ok t ∧
      (TextIs AgreementApart (utf8 t.text) ↔ firstAuth ops = none ∧ firstAssertion ops = none) := by
  refine ⟨_, C49_doc_text N _, (textIs_json N _ _).trans ?_⟩
  obtain ⟨_, _, g3, g4, g5, g6, _⟩ := C12_document v ops
  generalize (idRun v ops).toDoc = d at g3 g4 g5 g6
  have R := renders_toRaw (printNum E.floatPrint)
  have hl : ∀ (k : String) (l : Option (List Primary)),
      (∀ j : Json (Num E.F), (k, some j) ∈ [("@context", some (strings d.context)), ("id", some (.str d.id)),
        ("authentication", d.authentication.map fun l => .arr (l.map keyObject)),
        ("capabilityInvocation", d.capInvoke.map fun l => .arr (l.map keyObject)),
        ("capabilityDelegation", d.capDelegate.map fun l => .arr (l.map keyObject)),
        ("assertionMethod", d.assertion.map fun l => .arr (l.map keyObject))] ↔
          (l.map fun l => Json.arr (l.map keyObject)) = some j) →
      ((∀ xs, Member ((docObject d).toRaw (printNum E.floatPrint)) k (.arr xs) → ∀ y ∈ xs, ∀ z, Member y "type" z →
        ¬ ReadsText z "X25519KeyAgreementKey2020".toList) ↔
        ∀ p ∈ l.getD [], p.verificationType ≠ "X25519KeyAgreementKey2020".toList) := by
    intro k l hk
    refine listed d k l _ R fun x => ?_
    unfold docObject
    rw [R.memberObject]
    constructor
    · rintro ⟨j, hj, rfl⟩
      rw [hk] at hj
      obtain ⟨l', rfl, rfl⟩ := Option.map_eq_some_iff.mp hj
      exact ⟨l', rfl, by rw [R.arr, List.map_map]; rfl⟩
    · rintro ⟨l', rfl, rfl⟩
      exact ⟨_, (hk _).mpr rfl, by rw [R.arr, List.map_map]; rfl⟩
  have a1 := hl "authentication" d.authentication fun j => by simp
  have a2 := hl "assertionMethod" d.assertion fun j => by simp
  have a3 := hl "capabilityInvocation" d.capInvoke fun j => by simp
  have a4 := hl "capabilityDelegation" d.capDelegate fun j => by simp
  have slot : ∀ (f g : Str) (o : Option (MethodSeed E)) (l : Option (List Primary)), EntriesIs E v f g o l →
      ((∀ p ∈ l.getD [], p.verificationType ≠ "X25519KeyAgreementKey2020".toList) ↔ o = none) := by
    intro f g o l h
    cases o with
    | none => cases h; simp
    | some s =>
      obtain ⟨l, rfl, ⟨kv, ka, rfl, _⟩⟩ := h
      simp
  unfold AgreementApart
  simp only [List.mem_cons, List.not_mem_nil, or_false, forall_eq_or_imp, forall_eq]
  rw [a1, a2, a3, a4, slot _ _ _ _ g5, slot _ _ _ _ g6, g3, g4]
  simp

/-! ### Signing -/

/-- C91: signing asks for none of this, and a signed credential conforms exactly if the credential does without its
proof and the proof is named, and its key is named, by URIs. -/
theorem C91_signed {E : Env} (L : E.JcsLaws) (kp : E.EdKP) (v : VC E) (opts : Proof) (w : VC E)
    (h : sign E (VC E) kp v opts = .ok w) :
    CredentialFields w ↔ CredentialFields { v with proof := none } ∧ IsUri opts.id ∧ IsUri opts.verificationMethod := by
  obtain ⟨ho, _, _, text, _, rfl⟩ := ((C32_vc L kp v opts).1 w).mp h
  constructor
  · rintro ⟨h1, h2, h3, h4, h5, h6, h7⟩
    exact ⟨⟨h1, h2, h3, h4, h5, h6, by simp⟩, (h7 _ rfl).id, (h7 _ rfl).method⟩
  · rintro ⟨⟨h1, h2, h3, h4, h5, h6, _⟩, h8, h9⟩
    refine ⟨h1, h2, h3, h4, h5, h6, ?_⟩
    rintro p ⟨⟩
    exact ⟨h8, h9, fun _ => by simp [ho.suite]⟩

/-- C91: presentations likewise. -/
theorem C91_signed_vp {E : Env} (L : E.JcsLaws) (kp : E.EdKP) (v : VP E) (opts : Proof) (w : VP E)
    (h : sign E (VP E) kp v opts = .ok w) :
    PresentationFields w ↔ PresentationFields { v with proof := none } ∧ IsUri opts.id ∧ IsUri opts.verificationMethod := by
  obtain ⟨ho, _, _, text, _, rfl⟩ := ((C32_vp L kp v opts).1 w).mp h
  constructor
  · rintro ⟨h1, h2, h3, h4, h5, h6⟩
    exact ⟨⟨h1, h2, h3, h4, h5, by simp⟩, (h6 _ rfl).id, (h6 _ rfl).method⟩
  · rintro ⟨⟨h1, h2, h3, h4, h5, _⟩, h8, h9⟩
    refine ⟨h1, h2, h3, h4, h5, ?_⟩
    rintro p ⟨⟩
    exact ⟨h8, h9, fun _ => by simp [ho.suite]⟩

theorem not_uri {t : Str} (h : ':' ∉ t) : ¬ IsUri t := by
  rintro ⟨s, r, _, _, rfl⟩
  simp at h

/-- C91: a credential without any of what the data model asks for is signed, and accepted as sent, under every key. -/
theorem C91_unchecked {E : Env} (L : E.JcsLaws) (N : E.NumLaws) (K : E.EdLaws) (kp : E.EdKP) (opts : Proof)
    (ho : GoodOptions E opts) (hp : opts.proofPurpose ≠ .unknown) (hval : opts.proofValue = []) :
    ∃ (v signed : VC E) (t : JSONValue), sign E (VC E) kp v opts = .ok signed ∧ signed.toJson = .ok t ∧
      verify E (VC E) (E.edPub kp) (utf8 t.text) opts.proofPurpose = .ok ⟨true, some v⟩ ∧
      v.contexts.head? ≠ some "https://www.w3.org/ns/credentials/v2".toList ∧ (∀ c ∈ v.contexts, ¬ IsUri c) ∧
      "VerifiableCredential".toList ∉ v.types ∧ ¬ IsUri v.id ∧ ¬ IsUri v.issuer ∧ ¬ SubjectsValue v.credentialSubject.1 := by
  let v : VC E := ⟨["x".toList], ["x".toList], ⟨.str "x".toList, by simp [Json.Sorted]⟩, none, "x".toList, "x".toList⟩
  obtain ⟨signed, h1, _, h3⟩ := C31_vc L N K kp v opts ⟨by simp [v], by simp [v], by simp [v]⟩ rfl ho hp hval
  obtain ⟨t, h4, h5⟩ := h3 (by intro f hf; simp [v, Json.nums] at hf) (by simp [v, Json.depth])
  refine ⟨v, signed, t, h1, h4, h5, by simp [v], ?_, by simp [v], not_uri (t := "x".toList) (by decide),
    not_uri (t := "x".toList) (by decide), ?_⟩
  · intro c hc
    simp only [v, List.mem_cons, List.not_mem_nil, or_false] at hc
    subst hc
    exact not_uri (by decide)
  · rintro (⟨_, _, h⟩ | ⟨_, _, h, _⟩) <;> simp [v] at h

/-! ### Reading -/

theorem readsText_unique {x : Raw} {t t' : Str} (h : ReadsText x t) (h' : ReadsText x t') : t = t' := by
  obtain ⟨s, rfl, hs⟩ := h
  obtain ⟨s', e, hs'⟩ := h'
  cases e
  have := hs.dec
  rw [hs'.dec] at this
  exact (Option.some.inj this).symm

theorem struct_member {names : List String} {r : Raw} {get : String → Option Raw} (h : StructOf names r get)
    (ho : SomeObject r) {n : String} (hn : n ∈ names) (x : Raw) : get n = some x ↔ Member r n x := by
  obtain ⟨kvs, rfl⟩ := ho
  cases h with
  | obj h1 h2 h3 =>
    rw [h3 n hn]
    unfold Member
    constructor
    · rintro ⟨k, hk, hs⟩; exact ⟨_, k, rfl, hk, hs⟩
    · rintro ⟨_, k, e, hk, hs⟩; cases e; exact ⟨k, hk, hs⟩

theorem has_object {r : Raw} {k : String} {P : Raw → Prop} (h : Has r k P) : SomeObject r := by
  obtain ⟨⟨_, kvs, _, e, _⟩, _⟩ := h
  exact ⟨kvs, e⟩

theorem uri_read {x : Raw} {t : Str} (h : UriText x) (ht : ReadsText x t) : IsUri t := by
  obtain ⟨t', h1, h2⟩ := h
  rwa [readsText_unique ht h1]

theorem party_read {x : Raw} {t : Str} (h : Party x) (ht : ReadsText x t) : IsUri t := by
  rcases h with h | ⟨⟨kvs, rfl⟩, _⟩
  · exact uri_read h ht
  · obtain ⟨s, e, _⟩ := ht; cases e

theorem contexts_read {first : String} {x : Raw} {l : List Str} (h : ContextsFrom first x) (hl : ReadsList ReadsText x l) :
    l.head? = some first.toList ∧ ∀ c ∈ l.tail, IsUri c := by
  obtain ⟨y, ys, rfl, h1, h2⟩ := h
  obtain ⟨xs, e, hf⟩ := hl
  rw [Raw.arr.injEq] at e
  subst e
  cases hf with
  | @cons _ a _ l ha hf =>
    refine ⟨by rw [List.head?_cons, readsText_unique h1 ha], fun c hc => ?_⟩
    rw [List.tail_cons] at hc
    obtain ⟨z, hz, hr⟩ : ∃ z ∈ ys, ReadsText z c := by
      clear h2
      induction hf with
      | nil => cases hc
      | @cons z d zs ds hzd _ ih =>
        rcases List.mem_cons.mp hc with rfl | hc
        · exact ⟨z, by simp, hzd⟩
        · obtain ⟨z', h1, h2⟩ := ih hc
          exact ⟨z', List.mem_cons_of_mem _ h1, h2⟩
    rcases h2 z hz with h | ⟨kvs, rfl⟩
    · exact uri_read h hr
    · obtain ⟨s, e, _⟩ := hr; cases e

theorem types_read {name : String} {x : Raw} {l : List Str} (h : TypesWith name x) (hl : ReadsList ReadsText x l) :
    name.toList ∈ l := by
  obtain ⟨xs, rfl, hf⟩ := hl
  rcases h with ⟨s, e, _⟩ | ⟨ys, e, h0, y, hy, ht⟩
  · cases e
  · rw [Raw.arr.injEq] at e
    subst e
    clear h0
    induction hf with
    | nil => cases hy
    | @cons z d zs ds hzd _ ih =>
      rcases List.mem_cons.mp hy with rfl | hy
      · rw [readsText_unique ht hzd]; simp
      · exact List.mem_cons_of_mem _ (ih hy)

theorem claims_read {F : Type} {fr : Bytes → Option F} {x : Raw} {j : Json (Num F)} (h : Claims x) (hm : ValueMeans fr x j) :
    ∃ kv kvs, j = .obj (kv :: kvs) := by
  obtain ⟨kv, kvs, rfl⟩ := h
  cases hm with
  | @obj _ l m hl _ hm =>
    cases hl with
    | @cons k n x y xs ys h1 h2 h3 =>
      have : ∃ k v, LastOf ((n, y) :: ys) k v := by
        rcases List.eq_nil_or_concat ((n, y) :: ys) with e | ⟨i, a, e⟩
        · cases e
        · exact ⟨a.1, a.2, i, [], by rw [e]; simp, by simp⟩
      obtain ⟨k, v, hkv⟩ := this
      have := (hm k v).mpr hkv
      cases m with
      | nil => cases this
      | cons a m => exact ⟨a, m, rfl⟩

theorem subjects_read {F : Type} {fr : Bytes → Option F} {x : Raw} {j : Json (Num F)} (h : Subjects x) (hm : ValueMeans fr x j) :
    SubjectsValue j := by
  rcases h with h | ⟨y, ys, rfl, h⟩
  · exact .inl (claims_read h hm)
  · right
    cases hm with
    | @arr _ zs hz =>
      have all : ∀ (xs : List Raw) (zs : List (Json (Num F))), ValuesMean fr xs zs → (∀ z ∈ xs, Claims z) →
          ∀ z ∈ zs, ∃ kv kvs, z = .obj (kv :: kvs) := by
        intro xs
        induction xs with
        | nil => intro zs hz _ z hm; cases hz; cases hm
        | cons x xs ih =>
          intro zs hz hc z hm
          cases hz with
          | cons h1 h2 =>
            rcases List.mem_cons.mp hm with rfl | hm
            · exact claims_read (hc x (by simp)) h1
            · exact ih _ h2 (fun z hz => hc z (by simp [hz])) z hm
      cases zs with
      | nil => cases hz
      | cons a zs => exact ⟨a, zs, rfl, all _ _ hz h⟩

theorem proof_read {r : Raw} {p : Proof} (h : ProofModel r) (hr : ReadsProof r p) : ProofFields p := by
  obtain ⟨get, hs, ⟨y1, g1, t1⟩, ⟨y2, g2, t2⟩, _, _, ⟨y5, g5, t5⟩, _, _, hc⟩ := hr
  have ho := has_object h.type
  refine ⟨uri_read (h.id y1 ((struct_member hs ho (by simp) _).mp g1)) t1,
    uri_read (h.method y5 ((struct_member hs ho (by simp) _).mp g5)) t5, fun e => ?_⟩
  have := h.suite ⟨y2, (struct_member hs ho (by simp) _).mp g2, e ▸ t2⟩
  intro hn
  rw [hn] at hc
  obtain ⟨⟨x, hx⟩, hall⟩ := this
  obtain ⟨t, s, rfl, _⟩ := hall x hx
  have hg := (struct_member hs ho (n := "cryptosuite") (by simp) _).mpr hx
  rcases hc with hc | hc <;> rw [hg] at hc <;> cases hc

theorem credential_read {E : Env} {limit : Nat} {r : Raw} {v : VC E} (h : CredentialModel r) (hr : ReadsVC E limit r v) :
    CredentialFields v := by
  obtain ⟨get, hs, ⟨y1, g1, t1⟩, ⟨y2, g2, t2⟩, ⟨y3, g3, _, t3⟩, hp, ⟨y4, g4, t4⟩, ⟨y5, g5, t5⟩⟩ := hr
  have ho := has_object h.contexts
  have hc := contexts_read (h.contexts.2 y1 ((struct_member hs ho (by simp) _).mp g1)) t1
  refine ⟨hc.1, hc.2, types_read (h.types.2 y2 ((struct_member hs ho (by simp) _).mp g2)) t2,
    uri_read (h.id y4 ((struct_member hs ho (by simp) _).mp g4)) t4,
    party_read (h.issuer.2 y5 ((struct_member hs ho (by simp) _).mp g5)) t5,
    subjects_read (h.subject.2 y3 ((struct_member hs ho (by simp) _).mp g3)) t3, fun p e => ?_⟩
  rw [e] at hp
  obtain ⟨y, g, _, t⟩ := hp
  exact proof_read (h.proof y ((struct_member hs ho (by simp) _).mp g)) t

theorem fields_complete {E : Env} {v : VC E} (h : CredentialFields v) : VCComplete v := by
  refine ⟨fun e => ?_, fun e => ?_, fun e => ?_⟩
  · have := h.first; rw [e] at this; cases this
  · have := h.type; rw [e] at this; cases this
  · have := h.subject
    rw [e] at this
    rcases this with ⟨_, _, h⟩ | ⟨_, _, h, _⟩ <;> cases h

/-- C91: a text by the data model that is read can be written again, and its text is one by the data model. -/
theorem C91_read {E : Env} (N : E.NumLaws) (bs : Bytes) (v : VC E) (h : VC.parseJsonBytes E bs = .ok v)
    (hc : TextIs CredentialModel bs) :
    CredentialFields v ∧ ∃ t, v.toJson = .ok t ∧ TextIs CredentialModel (utf8 t.text) := by
  obtain ⟨r, hr, hv⟩ := (C51_reads_vc bs v).mp h
  obtain ⟨r', hr', hm⟩ := hc
  rw [C50_unambiguous hr' hr] at hm
  have hf := credential_read hm hv
  have ht := C49_vc_text N v (fields_complete hf)
  exact ⟨hf, _, ht, (C91_vc N v _ ht).mpr hf⟩

/-- C91: presentations likewise, as long as they hold credentials. -/
theorem C91_read_vp {E : Env} (N : E.NumLaws) (bs : Bytes) (v : VP E) (h : VP.parseJsonBytes E bs = .ok v)
    (hc : TextIs PresentationModel bs) :
    PresentationFields v ∧
      (v.verifiableCredential ≠ [] → ∃ t, v.toJson = .ok t ∧ TextIs PresentationModel (utf8 t.text)) := by
  obtain ⟨r, hr, hv⟩ := (C51_reads_vp bs v).mp h
  obtain ⟨r', hr', hm⟩ := hc
  rw [C50_unambiguous hr' hr] at hm
  have hf : PresentationFields v := by
    obtain ⟨get, hs, ⟨y1, g1, t1⟩, ⟨y2, g2, t2⟩, ⟨y3, g3, t3⟩, hp, hh⟩ := hv
    have ho := has_object hm.contexts
    have hc := contexts_read (hm.contexts.2 y1 ((struct_member hs ho (by simp) _).mp g1)) t1
    refine ⟨hc.1, hc.2, types_read (hm.types.2 y2 ((struct_member hs ho (by simp) _).mp g2)) t2, fun h e => ?_, fun c hc => ?_, fun p e => ?_⟩
    · rw [e] at hh
      obtain ⟨y, g, _, t⟩ := hh
      exact party_read (hm.holder y ((struct_member hs ho (by simp) _).mp g)) t
    · obtain ⟨xs, rfl, hf⟩ := t3
      rcases hm.credentials _ ((struct_member hs ho (by simp) _).mp g3) with hx | ⟨ys, e, hx⟩
      · obtain ⟨_, e⟩ := has_object hx.contexts; cases e
      · rw [Raw.arr.injEq] at e
        subst e
        have : ∃ x ∈ xs, ReadsVC E 124 x c := by
          clear g3 hx
          generalize v.verifiableCredential = l at hf hc
          induction hf with
          | nil => cases hc
          | @cons z d zs ds hzd _ ih =>
            rcases List.mem_cons.mp hc with rfl | hc
            · exact ⟨z, by simp, hzd⟩
            · obtain ⟨z', h1, h2⟩ := ih hc
              exact ⟨z', List.mem_cons_of_mem _ h1, h2⟩
        obtain ⟨x, hx1, hx2⟩ := this
        exact credential_read (hx x hx1) hx2
    · rw [e] at hp
      obtain ⟨y, g, _, t⟩ := hp
      exact proof_read (hm.proof y ((struct_member hs ho (by simp) _).mp g)) t
  refine ⟨hf, fun hne => ?_⟩
  have hcv : VPComplete v := by
    refine ⟨fun e => ?_, fun e => ?_, hne⟩
    · have := hf.first; rw [e] at this; cases this
    · have := hf.type; rw [e] at this; cases this
  have ht := C49_vp_text N v hcv
  exact ⟨_, ht, (C91_vp N v _ ht).mpr hf⟩

/-- C91: what the data model allows and the reader refuses: an issuer that is not a text, a single type that is not
in an array, a context that is not a text, no `id`. -/
theorem C91_refused {E : Env} (bs : Bytes) (r : Raw) (h : JsonText r bs) (ho : SomeObject r)
    (hx : (∃ x, Member r "issuer" x ∧ ¬ SomeText x) ∨ (∃ x, Member r "type" x ∧ SomeText x) ∨
      (∃ xs, Member r "@context" (.arr xs) ∧ ∃ y ∈ xs, ¬ SomeText y) ∨ ¬ ∃ x, Member r "id" x) :
    ∀ v, VC.parseJsonBytes E bs ≠ .ok v := by
  intro v hv
  obtain ⟨r', hr, hv⟩ := (C51_reads_vc bs v).mp hv
  rw [C50_unambiguous hr h] at hv
  obtain ⟨get, hs, ⟨y1, g1, t1⟩, ⟨y2, g2, t2⟩, _, _, ⟨y4, g4, t4⟩, ⟨y5, g5, t5⟩⟩ := hv
  have one : ∀ {n x y}, n ∈ ["@context", "type", "credentialSubject", "proof", "id", "issuer"] → get n = some y → Member r n x → x = y := by
    intro n x y hn hy hx
    have := (struct_member hs ho hn _).mpr hx
    rw [hy] at this
    exact (Option.some.inj this).symm
  rcases hx with ⟨x, hm, hx⟩ | ⟨x, hm, t, hx⟩ | ⟨xs, hm, y, hy, hx⟩ | hx
  · rw [one (by simp) g5 hm] at hx
    exact hx ⟨_, t5⟩
  · rw [one (by simp) g2 hm] at hx
    obtain ⟨xs, rfl, _⟩ := t2
    obtain ⟨s, e, _⟩ := hx
    cases e
  · have e := one (by simp) g1 hm
    subst e
    obtain ⟨xs', e, hf⟩ := t1
    rw [Raw.arr.injEq] at e
    subst e
    have : SomeText y := by
      clear g1 hm
      generalize v.contexts = l at hf
      induction hf with
      | nil => cases hy
      | cons hzd _ ih =>
        rcases List.mem_cons.mp hy with rfl | hy
        · exact ⟨_, hzd⟩
        · exact ih hy
    exact hx this
  · exact hx ⟨y4, (struct_member hs ho (by simp) _).mp g4⟩

/-! ### Examples -/

/-- A credential by the data model. -/
def modelVC : VC Toy.env :=
  { contexts := ["https://www.w3.org/ns/credentials/v2".toList, "https://example.org/degrees/v1".toList]
    types := ["VerifiableCredential".toList, "Degree".toList], credentialSubject := toySubject, proof := none
    id := "urn:1".toList, issuer := "did:x".toList }

/-- Options with URIs. -/
def modelProof : Proof := { toyProof with id := "urn:p1".toList }

theorem modelVC_fields : CredentialFields modelVC := by
  refine ⟨rfl, ?_, by decide, isUri_of "urn".toList "1".toList rfl (by decide) (by decide) (by decide),
    isUri_of "did".toList "x".toList rfl (by decide) (by decide) (by decide), .inl ⟨_, _, rfl⟩, nofun⟩
  intro c hc
  rw [List.mem_singleton.mp hc]
  exact isUri_of "https".toList "//example.org/degrees/v1".toList rfl (by decide) (by decide) (by decide)

/-- `C91_vc`, `C91_vc_canonical`, `C91_signed`: the sample is written, signed and written again by the data model. -/
example : (∃ t, modelVC.toJson = .ok t ∧ TextIs CredentialModel (utf8 t.text)) ∧
    (∃ t, modelVC.toJcs = .ok t ∧ TextIs CredentialModel (utf8 t)) ∧
    ∃ w t, sign Toy.env (VC Toy.env) (7 : UInt8) modelVC modelProof = .ok w ∧ w.toJson = .ok t ∧
      TextIs CredentialModel (utf8 t.text) := by
  have hc := fields_complete modelVC_fields
  refine ⟨⟨_, C49_vc_text Toy.numLaws _ hc, (C91_vc Toy.numLaws _ _ (C49_vc_text Toy.numLaws _ hc)).mpr modelVC_fields⟩,
    ⟨_, C49_vc_canonical Toy.jcsLaws _ hc,
      (C91_vc_canonical Toy.jcsLaws _ _ (C49_vc_canonical Toy.jcsLaws _ hc)).mpr modelVC_fields⟩, ?_⟩
  have hs := ((C32_vc Toy.jcsLaws (7 : UInt8) modelVC modelProof).1 _).mpr
    ⟨⟨by decide, by decide, "2024".toList, rfl, rfl⟩, by decide, hc, _, multibaseEncode58_spec _, rfl⟩
  have hf := (C91_signed Toy.jcsLaws _ _ _ _ hs).mpr ⟨modelVC_fields,
    isUri_of "urn".toList "p1".toList rfl (by decide) (by decide) (by decide),
    isUri_of "did".toList "x#k".toList rfl (by decide) (by decide) (by decide)⟩
  have ht := C49_vc_text Toy.numLaws _ (fields_complete hf)
  exact ⟨_, _, hs, ht, (C91_vc Toy.numLaws _ _ ht).mpr hf⟩

/-- The sample credential of C24 is complete, and its text is not a credential by the data model. -/
example : ∃ t, toyVC.toJson = .ok t ∧ ¬ TextIs CredentialModel (utf8 t.text) := by
  have ht := C49_vc_text Toy.numLaws toyVC toyVC_complete
  refine ⟨_, ht, fun h => ?_⟩
  exact absurd ((C91_vc Toy.numLaws _ _ ht).mp h).type (by decide)

/-- `C91_read`: the text of the sample is read. -/
example : ∃ bs, VC.parseJsonBytes Toy.env bs = .ok modelVC ∧ TextIs CredentialModel bs := by
  have hc := fields_complete modelVC_fields
  obtain ⟨t, ht, hp⟩ := C26_json_roundtrip Toy.numLaws modelVC hc (by intro f hf; simp [modelVC, toySubject, Json.nums, Json.numsMembers] at hf) (by decide)
  refine ⟨utf8 t.text, ?_, (C91_vc Toy.numLaws _ _ ht).mpr modelVC_fields⟩
  rwa [utf8_eq]

/-- A presentation by the data model. -/
def modelVP : VP Toy.env :=
  { contexts := ["https://www.w3.org/ns/credentials/v2".toList], types := ["VerifiablePresentation".toList]
    verifiableCredential := [modelVC], proof := none, holder := some "did:y".toList }

theorem modelVP_fields : PresentationFields modelVP := by
  refine ⟨rfl, nofun, by decide, ?_, ?_, nofun⟩
  · rintro _ ⟨⟩
    exact isUri_of "did".toList "y".toList rfl (by decide) (by decide) (by decide)
  · intro c hc
    rw [List.mem_singleton.mp hc]
    exact modelVC_fields

/-- `C91_vp`, `C91_vp_canonical`. -/
example : (∃ t, modelVP.toJson = .ok t ∧ TextIs PresentationModel (utf8 t.text)) ∧
    ∃ t, modelVP.toJcs = .ok t ∧ TextIs PresentationModel (utf8 t) := by
  have hc : VPComplete modelVP := ⟨by decide, by decide, by simp [modelVP]⟩
  exact ⟨⟨_, C49_vp_text Toy.numLaws _ hc, (C91_vp Toy.numLaws _ _ (C49_vp_text Toy.numLaws _ hc)).mpr modelVP_fields⟩,
    ⟨_, C49_vp_canonical Toy.jcsLaws _ hc,
      (C91_vp_canonical Toy.jcsLaws _ _ (C49_vp_canonical Toy.jcsLaws _ hc)).mpr modelVP_fields⟩⟩

/-- `C91_read_vp`, `C91_signed_vp`: the text of the sample is read; signed it conforms. -/
example : (∃ bs, VP.parseJsonBytes Toy.env bs = .ok modelVP ∧ TextIs PresentationModel bs) ∧
    ∃ w, sign Toy.env (VP Toy.env) (7 : UInt8) modelVP modelProof = .ok w ∧ PresentationFields w := by
  have hc : VPComplete modelVP := ⟨by decide, by decide, by simp [modelVP]⟩
  constructor
  · obtain ⟨t, ht, hp⟩ := C27_json_roundtrip Toy.numLaws modelVP hc (by
      intro c hc
      rw [List.mem_singleton.mp hc]
      intro f hf
      simp [modelVC, toySubject, Json.nums, Json.numsMembers] at hf) (by
      intro c hc
      rw [List.mem_singleton.mp hc]
      decide)
    refine ⟨utf8 t.text, ?_, (C91_vp Toy.numLaws _ _ ht).mpr modelVP_fields⟩
    rwa [utf8_eq]
  · have hs := ((C32_vp Toy.jcsLaws (7 : UInt8) modelVP modelProof).1 _).mpr
      ⟨⟨by decide, by decide, "2024".toList, rfl, rfl⟩, by decide, hc, _, multibaseEncode58_spec _, rfl⟩
    exact ⟨_, hs, (C91_signed_vp Toy.jcsLaws _ _ _ _ hs).mpr ⟨modelVP_fields,
      isUri_of "urn".toList "p1".toList rfl (by decide) (by decide) (by decide),
      isUri_of "did".toList "x#k".toList rfl (by decide) (by decide) (by decide)⟩⟩

/-- A credential whose issuer is an object. -/
def issuerTree : Json Bytes :=
  object [("@context", some (strings ["https://www.w3.org/ns/credentials/v2".toList])),
    ("type", some (strings ["VerifiableCredential".toList])),
    ("issuer", some (object [("id", some (.str "did:x".toList)), ("name", some (.str "X".toList))])),
    ("credentialSubject", some (object [("id", some (.str "did:y".toList))])), ("id", some (.str "urn:1".toList))]

/-- Its text. -/
def issuerText : Bytes := utf8Encode ("{\"@context\":[\"https://www.w3.org/ns/credentials/v2\"],\"type\":[\"VerifiableCredential\"]," ++
  "\"issuer\":{\"id\":\"did:x\",\"name\":\"X\"},\"credentialSubject\":{\"id\":\"did:y\"},\"id\":\"urn:1\"}").toList

theorem issuerText_json : JsonText (issuerTree.toRaw id) issuerText := jsonText_of_same (by decide +kernel)

/-- `C91_refused`: this text is a credential by the data model, and is not read. -/
example : TextIs CredentialModel issuerText ∧ ∀ v, VC.parseJsonBytes Toy.env issuerText ≠ .ok v := by
  have R := renders_toRaw (N := Bytes) id
  refine ⟨⟨_, issuerText_json, ?_, ?_, ?_, ?_, ?_, ?_⟩, ?_⟩
  · exact (R.has (strings ["https://www.w3.org/ns/credentials/v2".toList]) fun j => by simp).mpr
      ((R.contextsFrom _ _).mpr ⟨rfl, by simp⟩)
  · refine (R.mayHave (some (.str "urn:1".toList)) fun j => by simp [eq_comm]).mpr ?_
    rintro _ ⟨⟩
    exact (R.uriText _).mpr (isUri_of "urn".toList "1".toList rfl (by decide) (by decide) (by decide))
  · exact (R.has (strings ["VerifiableCredential".toList]) fun j => by simp).mpr ((R.typesWith _ _).mpr (by simp))
  · refine (R.has (object [("id", some (.str "did:x".toList)), ("name", some (.str "X".toList))]) fun j => by simp).mpr (.inr ⟨(R.isObject _).mpr ⟨_, rfl⟩, ?_⟩)
    refine (R.has (.str "did:x".toList) fun j => by simp).mpr ((R.uriText _).mpr ?_)
    exact isUri_of "did".toList "x".toList rfl (by decide) (by decide) (by decide)
  · exact (R.has (object [("id", some (.str "did:y".toList))]) fun j => by simp).mpr ((R.subjects _).mpr (.inl ⟨_, _, rfl⟩))
  · exact (R.mayHave none fun j => by simp).mpr (by simp)
  · refine C91_refused _ _ issuerText_json ((R.isObject _).mpr ⟨_, rfl⟩) (.inl ⟨_, (R.memberObject _ _ _).mpr
      ⟨object [("id", some (.str "did:x".toList)), ("name", some (.str "X".toList))], ?_, rfl⟩, ?_⟩)
    · simp
    · rintro ⟨t, ht⟩
      rw [R.readsText] at ht
      cases ht

/-- `C91_did`, `C91_agreement`: without keys the document lists no agreement key; with one call it does, for
authentication. -/
example : (∃ t, (idRun (E := Toy.env) "did:x".toList []).toDoc.toJson Toy.env = .ok t ∧ TextIs AgreementApart (utf8 t.text)) ∧
    ∃ t, (idRun (E := Toy.env) "did:x".toList [.auth ⟨(7 : UInt8), (2 : UInt8)⟩]).toDoc.toJson Toy.env = .ok t ∧
      ¬ TextIs AgreementApart (utf8 t.text) := by
  obtain ⟨t, h1, h2⟩ := C91_agreement (E := Toy.env) Toy.numLaws "did:x".toList []
  obtain ⟨t', h1', h2'⟩ := C91_agreement (E := Toy.env) Toy.numLaws "did:x".toList [.auth ⟨(7 : UInt8), (2 : UInt8)⟩]
  exact ⟨⟨t, h1, h2.mpr ⟨rfl, rfl⟩⟩, ⟨t', h1', fun h => nomatch (h2'.mp h).1⟩⟩

/-- `C91_unchecked`: options and laws as asked for. -/
example : Toy.env.JcsLaws ∧ Toy.env.NumLaws ∧ Toy.env.EdLaws ∧ GoodOptions Toy.env modelProof ∧
    modelProof.proofPurpose ≠ .unknown ∧ modelProof.proofValue = [] :=
  ⟨Toy.jcsLaws, Toy.numLaws, Toy.edLaws, ⟨by decide, by decide, "2024".toList, rfl, rfl⟩, by decide, by decide⟩

end Verif.Props
