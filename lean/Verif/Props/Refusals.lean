import Verif.Props.Json
import Verif.Props.Reader
import Verif.Props.Proof

/-
C77: the complete list of reasons for which the readers of credentials, presentations and DID documents
(core/src/verifiable/vc.rs:131-136, vp.rs:133-138, core/src/doc/mod.rs:113-135) refuse a text, and documents of the
W3C data models that they refuse.
-/

namespace Verif.Spec
open Verif

/-- The token tree cannot be a structure with these members. -/
inductive BadStruct (names : List String) : Raw → Prop
  /-- neither an object nor an array -/
  | kind {r : Raw} : (∀ kvs, r ≠ .obj kvs) → (∀ xs, r ≠ .arr xs) → BadStruct names r
  /-- an array with too many or too few elements -/
  | length {xs : List Raw} : xs.length ≠ names.length → BadStruct names (.arr xs)
  /-- an object, some name of which stands for no text -/
  | name {kvs : List (Bytes × Raw)} {k : Bytes} {x : Raw} : (k, x) ∈ kvs → (∀ n, ¬ Spells k n) → BadStruct names (.obj kvs)
  /-- an object with one of these members twice -/
  | twice {kvs : List (Bytes × Raw)} {n : String} {i j : Nat} {p q : Bytes × Raw} : n ∈ names → i ≠ j →
      kvs[i]? = some p → kvs[j]? = some q → Spells p.1 n.toList → Spells q.1 n.toList → BadStruct names (.obj kvs)

/-- `x` is given for the member `n`: by name in an object, by position in an array. -/
inductive Given (names : List String) : Raw → String → Raw → Prop
  | obj {kvs : List (Bytes × Raw)} {k : Bytes} {n : String} {x : Raw} : (k, x) ∈ kvs → Spells k n.toList →
      Given names (.obj kvs) n x
  | arr {xs : List Raw} {i : Nat} {n : String} {x : Raw} : names[i]? = some n → xs[i]? = some x →
      Given names (.arr xs) n x

/-- A member that has to be there is missing, or what is given for it is bad. -/
def BadNeeded (names : List String) (r : Raw) (n : String) (B : Raw → Prop) : Prop :=
  (∀ x, ¬ Given names r n x) ∨ ∃ x, Given names r n x ∧ B x

/-- Something bad other than `null` is given for a member. -/
def BadMay (names : List String) (r : Raw) (n : String) (B : Raw → Prop) : Prop :=
  ∃ x, Given names r n x ∧ x ≠ .null ∧ B x

/-- Not a string, or a string token that stands for no text. -/
inductive BadText : Raw → Prop
  | kind {r : Raw} : (∀ s, r ≠ .str s) → BadText r
  | token {s : Bytes} : (∀ t, ¬ Spells s t) → BadText (.str s)

/-- Not an array, or an array with a bad element. -/
inductive BadList (B : Raw → Prop) : Raw → Prop
  | kind {r : Raw} : (∀ xs, r ≠ .arr xs) → BadList B r
  | element {xs : List Raw} {x : Raw} : x ∈ xs → B x → BadList B (.arr xs)

/-- A value with a string or a name that stands for no text, or with a number out of range, somewhere. -/
inductive BadValue {F : Type} (fr : Bytes → Option F) : Raw → Prop
  | number {t : Bytes} : ¬ SmallNat t → ¬ SmallNeg t → fr t = none → BadValue fr (.num t)
  | token {s : Bytes} : (∀ t, ¬ Spells s t) → BadValue fr (.str s)
  | element {xs : List Raw} {x : Raw} : x ∈ xs → BadValue fr x → BadValue fr (.arr xs)
  | name {kvs : List (Bytes × Raw)} {k : Bytes} {x : Raw} : (k, x) ∈ kvs → (∀ n, ¬ Spells k n) → BadValue fr (.obj kvs)
  | member {kvs : List (Bytes × Raw)} {k : Bytes} {x : Raw} : (k, x) ∈ kvs → BadValue fr x → BadValue fr (.obj kvs)

/-- Not a proof. -/
inductive BadProof (r : Raw) : Prop
  | struct : BadStruct ["id", "type", "proofPurpose", "proofValue", "verificationMethod", "created", "expires",
      "cryptosuite"] r → BadProof r
  | text {n : String} : n ∈ ["id", "type", "proofValue", "verificationMethod"] →
      BadNeeded ["id", "type", "proofPurpose", "proofValue", "verificationMethod", "created", "expires", "cryptosuite"]
        r n BadText → BadProof r
  | purpose : BadNeeded ["id", "type", "proofPurpose", "proofValue", "verificationMethod", "created", "expires",
      "cryptosuite"] r "proofPurpose" (fun x => ∀ p, ¬ ReadsPurpose x p) → BadProof r
  | option {n : String} : n ∈ ["created", "expires", "cryptosuite"] →
      BadMay ["id", "type", "proofPurpose", "proofValue", "verificationMethod", "created", "expires", "cryptosuite"]
        r n BadText → BadProof r

/-- Not a credential. -/
inductive BadVC (E : Env) (limit : Nat) (r : Raw) : Prop
  | struct : BadStruct ["@context", "type", "credentialSubject", "proof", "id", "issuer"] r → BadVC E limit r
  | texts {n : String} : n ∈ ["@context", "type"] →
      BadNeeded ["@context", "type", "credentialSubject", "proof", "id", "issuer"] r n (BadList BadText) → BadVC E limit r
  | subject : BadNeeded ["@context", "type", "credentialSubject", "proof", "id", "issuer"] r "credentialSubject"
      (fun x => limit < nesting x ∨ BadValue E.floatParse x) → BadVC E limit r
  | proof : BadMay ["@context", "type", "credentialSubject", "proof", "id", "issuer"] r "proof" BadProof → BadVC E limit r
  | text {n : String} : n ∈ ["id", "issuer"] →
      BadNeeded ["@context", "type", "credentialSubject", "proof", "id", "issuer"] r n BadText → BadVC E limit r

/-- Not a presentation. -/
inductive BadVP (E : Env) (limit : Nat) (r : Raw) : Prop
  | struct : BadStruct ["@context", "type", "verifiableCredential", "proof", "holder"] r → BadVP E limit r
  | texts {n : String} : n ∈ ["@context", "type"] →
      BadNeeded ["@context", "type", "verifiableCredential", "proof", "holder"] r n (BadList BadText) → BadVP E limit r
  | credentials : BadNeeded ["@context", "type", "verifiableCredential", "proof", "holder"] r "verifiableCredential"
      (BadList (BadVC E limit)) → BadVP E limit r
  | proof : BadMay ["@context", "type", "verifiableCredential", "proof", "holder"] r "proof" BadProof → BadVP E limit r
  | holder : BadMay ["@context", "type", "verifiableCredential", "proof", "holder"] r "holder" BadText → BadVP E limit r

/-- Not a published key. -/
inductive BadKey (r : Raw) : Prop
  | struct : BadStruct ["id", "controller", "type", "publicKeyMultibase"] r → BadKey r
  | text {n : String} : n ∈ ["id", "controller", "type", "publicKeyMultibase"] →
      BadNeeded ["id", "controller", "type", "publicKeyMultibase"] r n BadText → BadKey r

/-- Not a DID document. -/
inductive BadDoc (r : Raw) : Prop
  | struct : BadStruct ["@context", "id", "authentication", "capabilityInvocation", "capabilityDelegation",
      "assertionMethod"] r → BadDoc r
  | contexts : BadNeeded ["@context", "id", "authentication", "capabilityInvocation", "capabilityDelegation",
      "assertionMethod"] r "@context" (BadList BadText) → BadDoc r
  | id : BadNeeded ["@context", "id", "authentication", "capabilityInvocation", "capabilityDelegation",
      "assertionMethod"] r "id" BadText → BadDoc r
  | keys {n : String} : n ∈ ["authentication", "capabilityInvocation", "capabilityDelegation", "assertionMethod"] →
      BadMay ["@context", "id", "authentication", "capabilityInvocation", "capabilityDelegation", "assertionMethod"]
        r n (BadList BadKey) → BadDoc r

/-- Members of a credential in a form that the W3C Verifiable Credentials Data Model 2.0 allows and this library does
not read. -/
inductive W3CVC (kvs : List (Bytes × Raw)) : Prop
  /-- section 4.3: `@context` as a single URL (data model 1.1) -/
  | oneContext {k s : Bytes} : (k, .str s) ∈ kvs → Spells k "@context".toList → W3CVC kvs
  /-- section 4.3: a context given in place -/
  | inlineContext {k : Bytes} {xs : List Raw} {c : List (Bytes × Raw)} : (k, .arr xs) ∈ kvs →
      Spells k "@context".toList → .obj c ∈ xs → W3CVC kvs
  /-- section 4.5: `type` as a single string -/
  | oneType {k s : Bytes} : (k, .str s) ∈ kvs → Spells k "type".toList → W3CVC kvs
  /-- section 4.7: the issuer as an object with an `id` -/
  | issuer {k : Bytes} {i : List (Bytes × Raw)} : (k, .obj i) ∈ kvs → Spells k "issuer".toList → W3CVC kvs
  /-- section 4.4: `id` is optional -/
  | noId : (∀ kv ∈ kvs, ¬ Spells kv.1 "id".toList) → W3CVC kvs
  /-- section 4.12: several proofs -/
  | proofs {k : Bytes} {xs : List Raw} : (k, .arr xs) ∈ kvs → Spells k "proof".toList → (∀ x ∈ xs, ∃ p, x = .obj p) →
      W3CVC kvs
  /-- Data Integrity 1.0, section 2.1: the `id` of a proof is optional -/
  | proofNoId {k : Bytes} {p : List (Bytes × Raw)} : (k, .obj p) ∈ kvs → Spells k "proof".toList →
      (∀ kv ∈ p, ¬ Spells kv.1 "id".toList) → W3CVC kvs

/-- Likewise for presentations, section 4.13. -/
inductive W3CVP (kvs : List (Bytes × Raw)) : Prop
  | oneContext {k s : Bytes} : (k, .str s) ∈ kvs → Spells k "@context".toList → W3CVP kvs
  | inlineContext {k : Bytes} {xs : List Raw} {c : List (Bytes × Raw)} : (k, .arr xs) ∈ kvs →
      Spells k "@context".toList → .obj c ∈ xs → W3CVP kvs
  | oneType {k s : Bytes} : (k, .str s) ∈ kvs → Spells k "type".toList → W3CVP kvs
  /-- a single credential -/
  | oneCredential {k : Bytes} {c : List (Bytes × Raw)} : (k, .obj c) ∈ kvs → Spells k "verifiableCredential".toList →
      W3CVP kvs
  /-- the member is optional -/
  | noCredential : (∀ kv ∈ kvs, ¬ Spells kv.1 "verifiableCredential".toList) → W3CVP kvs
  /-- a credential in one of the forms above -/
  | credential {k : Bytes} {xs : List Raw} {c : List (Bytes × Raw)} : (k, .arr xs) ∈ kvs →
      Spells k "verifiableCredential".toList → .obj c ∈ xs → W3CVC c → W3CVP kvs
  /-- the holder as an object with an `id` -/
  | holder {k : Bytes} {i : List (Bytes × Raw)} : (k, .obj i) ∈ kvs → Spells k "holder".toList → W3CVP kvs
  | proofs {k : Bytes} {xs : List Raw} : (k, .arr xs) ∈ kvs → Spells k "proof".toList → (∀ x ∈ xs, ∃ p, x = .obj p) →
      W3CVP kvs
  | proofNoId {k : Bytes} {p : List (Bytes × Raw)} : (k, .obj p) ∈ kvs → Spells k "proof".toList →
      (∀ kv ∈ p, ¬ Spells kv.1 "id".toList) → W3CVP kvs

/-- Members of a DID document in a form that W3C DID Core 1.0 allows and this library does not read. -/
inductive W3CDoc (kvs : List (Bytes × Raw)) : Prop
  /-- section 6.3.1: a single context -/
  | oneContext {k s : Bytes} : (k, .str s) ∈ kvs → Spells k "@context".toList → W3CDoc kvs
  | inlineContext {k : Bytes} {xs : List Raw} {c : List (Bytes × Raw)} : (k, .arr xs) ∈ kvs →
      Spells k "@context".toList → .obj c ∈ xs → W3CDoc kvs
  /-- section 6.2: no context in the JSON representation -/
  | noContext : (∀ kv ∈ kvs, ¬ Spells kv.1 "@context".toList) → W3CDoc kvs
  /-- section 5.3: a key given by reference -/
  | reference {n : String} {k s : Bytes} {xs : List Raw} :
      n ∈ ["authentication", "capabilityInvocation", "capabilityDelegation", "assertionMethod"] → (k, .arr xs) ∈ kvs →
      Spells k n.toList → .str s ∈ xs → W3CDoc kvs
  /-- section 5.2.1: a key in another format, for example `publicKeyJwk` -/
  | otherKey {n : String} {k : Bytes} {xs : List Raw} {key : List (Bytes × Raw)} :
      n ∈ ["authentication", "capabilityInvocation", "capabilityDelegation", "assertionMethod"] → (k, .arr xs) ∈ kvs →
      Spells k n.toList → .obj key ∈ xs → (∀ kv ∈ key, ¬ Spells kv.1 "publicKeyMultibase".toList) → W3CDoc kvs

end Verif.Spec

namespace Verif
open Spec

/-- What a structure gives for its members. -/
theorem structOf_iff {names : List String} (r : Raw) (get : String → Option Raw) :
    StructOf names r get ↔ ¬ BadStruct names r ∧ ∀ n ∈ names, ∀ x, get n = some x ↔ Given names r n x := by
  constructor
  · intro h
    cases h with
    | @obj kvs get h1 h2 h3 =>
      refine ⟨?_, ?_⟩
      · intro hb
        cases hb with
        | kind h _ => exact h _ rfl
        | name hm hs => obtain ⟨n, hn⟩ := h1 _ hm; exact hs n hn
        | twice hn hij hp hq hs hs' => exact hij (h2 _ hn _ _ _ _ hp hq hs hs')
      · intro n hn x
        rw [h3 n hn x]
        constructor
        · rintro ⟨k, hm, hs⟩; exact .obj hm hs
        · intro h; cases h with | obj hm hs => exact ⟨_, hm, hs⟩
    | @arr xs get h1 h2 =>
      refine ⟨?_, ?_⟩
      · intro hb
        cases hb with
        | kind _ h => exact h _ rfl
        | length h => exact h h1
      · intro n hm x
        obtain ⟨i, hi⟩ := List.mem_iff_getElem?.mp hm
        constructor
        · intro h; exact .arr hi ((h2 i n hi).symm.trans h)
        · intro h
          cases h with
          | arr hj hx => exact (h2 _ n hj).trans hx
  · rintro ⟨hb, hg⟩
    match r with
    | .obj kvs =>
      refine .obj ?_ ?_ ?_
      · intro kv hm
        by_contra hc
        exact hb (.name (k := kv.1) (x := kv.2) hm fun n hn => hc ⟨n, hn⟩)
      · intro n hn i j p q hp hq hs hs'
        by_contra hc
        exact hb (.twice hn hc hp hq hs hs')
      · intro n hn x
        rw [hg n hn x]
        constructor
        · intro h; cases h with | obj hm hs => exact ⟨_, hm, hs⟩
        · rintro ⟨k, hm, hs⟩; exact .obj hm hs
    | .arr xs =>
      have hl : xs.length = names.length := by
        by_contra hc; exact hb (.length hc)
      refine .arr hl ?_
      intro i n hi
      have hlt : i < xs.length := by rw [hl]; exact (List.getElem?_eq_some_iff.mp hi).1
      rw [List.getElem?_eq_getElem hlt]
      exact (hg n (List.mem_of_getElem? hi) _).mpr (.arr hi (List.getElem?_eq_getElem hlt))
    | .null => exact absurd (.kind (fun _ h => by cases h) fun _ h => by cases h) hb
    | .bool _ => exact absurd (.kind (fun _ h => by cases h) fun _ h => by cases h) hb
    | .num _ => exact absurd (.kind (fun _ h => by cases h) fun _ h => by cases h) hb
    | .str _ => exact absurd (.kind (fun _ h => by cases h) fun _ h => by cases h) hb

/-- A structure that is not bad gives something or nothing for each member, and only one thing. -/
theorem struct_get {names : List String} (hn : names.Nodup) {r : Raw} (hb : ¬ BadStruct names r) :
    ∃ get, StructOf names r get ∧ ∀ n ∈ names, ∀ x, get n = some x ↔ Given names r n x := by
  classical
  have uniq : ∀ n ∈ names, ∀ x y, Given names r n x → Given names r n y → x = y := by
    intro n hm x y hx hy
    cases hx with
    | obj hx hs =>
      cases hy with
      | obj hy hs' =>
        obtain ⟨i, hi⟩ := List.mem_iff_getElem?.mp hx
        obtain ⟨j, hj⟩ := List.mem_iff_getElem?.mp hy
        by_cases hij : i = j
        · subst hij; rw [hi] at hj; cases hj; rfl
        · exact absurd (.twice hm hij hi hj hs hs') hb
    | @arr xs i _ _ hi hx =>
      cases hy with
      | @arr _ j _ _ hj hy =>
        have hij : i = j := by
          obtain ⟨h1, h2⟩ := List.getElem?_eq_some_iff.mp hi
          obtain ⟨h3, h4⟩ := List.getElem?_eq_some_iff.mp hj
          exact (List.Nodup.getElem_inj_iff hn).mp (h2.trans h4.symm)
        subst hij; rw [hx] at hy; cases hy; rfl
  have key : ∀ n ∈ names, ∀ x,
      (if h : ∃ x, Given names r n x then some h.choose else none) = some x ↔ Given names r n x := by
    intro n hm x
    by_cases h : ∃ x, Given names r n x
    · rw [dif_pos h]
      constructor
      · intro e; cases e; exact h.choose_spec
      · intro hx; exact congrArg some (uniq n hm _ _ h.choose_spec hx)
    · rw [dif_neg h]
      constructor
      · intro e; cases e
      · intro hx; exact absurd ⟨x, hx⟩ h
  exact ⟨_, (structOf_iff r _).mpr ⟨hb, key⟩, key⟩

theorem badNeeded_iff {α : Type} {names : List String} {r : Raw} {n : String} {get : String → Option Raw}
    {P : Raw → α → Prop} {B : Raw → Prop} (hg : ∀ x, get n = some x ↔ Given names r n x)
    (hB : ∀ x, Given names r n x → (B x ↔ ∀ y, ¬ P x y)) : BadNeeded names r n B ↔ ∀ y, ¬ Needs get n P y := by
  constructor
  · rintro (h | ⟨x, hx, hb⟩) y ⟨z, hz, hp⟩
    · exact h z ((hg z).mp hz)
    · rw [(hg x).mpr hx] at hz; cases hz
      exact (hB x hx).mp hb y hp
  · intro h
    by_cases hx : ∃ x, Given names r n x
    · obtain ⟨x, hx⟩ := hx
      exact .inr ⟨x, hx, (hB x hx).mpr fun y hp => h y ⟨x, (hg x).mpr hx, hp⟩⟩
    · exact .inl fun x h => hx ⟨x, h⟩

theorem badMay_iff {α : Type} {names : List String} {r : Raw} {n : String} {get : String → Option Raw}
    {P : Raw → α → Prop} {B : Raw → Prop} (hg : ∀ x, get n = some x ↔ Given names r n x)
    (hB : ∀ x, Given names r n x → (B x ↔ ∀ y, ¬ P x y)) : BadMay names r n B ↔ ∀ y, ¬ May get n P y := by
  constructor
  · rintro ⟨x, hx, h0, hb⟩ y hy
    have hx' := (hg x).mpr hx
    cases y with
    | none =>
      rcases hy with hy | hy <;> rw [hx'] at hy <;> cases hy
      exact h0 rfl
    | some y =>
      obtain ⟨z, hz, _, hp⟩ := hy
      rw [hx'] at hz; cases hz
      exact (hB x hx).mp hb y hp
  · intro h
    cases hx : get n with
    | none => exact absurd (.inl hx) (h none)
    | some x =>
      have h0 : x ≠ .null := by rintro rfl; exact h none (.inr hx)
      exact ⟨x, (hg x).mp hx, h0, (hB x ((hg x).mp hx)).mpr fun y hp => h (some y) ⟨x, hx, h0, hp⟩⟩

theorem badText_iff (r : Raw) : BadText r ↔ ∀ t, ¬ ReadsText r t := by
  constructor
  · rintro (h | h) t ⟨s, hs, ht⟩
    · exact h s hs
    · cases hs; exact h t ht
  · intro h
    by_cases hs : ∃ s, r = .str s
    · obtain ⟨s, rfl⟩ := hs
      exact .token fun t ht => h t ⟨s, rfl, ht⟩
    · exact .kind fun s e => hs ⟨s, e⟩

theorem badList_iff {α : Type} {P : Raw → α → Prop} {B : Raw → Prop} (r : Raw)
    (hB : ∀ xs, r = .arr xs → ∀ x ∈ xs, (B x ↔ ∀ y, ¬ P x y)) : BadList B r ↔ ∀ l, ¬ ReadsList P r l := by
  constructor
  · rintro (h | ⟨hm, hb⟩) l ⟨xs, hxs, hl⟩
    · exact h xs hxs
    · cases hxs
      rename_i x
      have : ∃ y, P x y := by
        clear hB hb
        induction hl with
        | nil => cases hm
        | cons h _ ih =>
          rcases List.mem_cons.mp hm with rfl | hm
          · exact ⟨_, h⟩
          · exact ih hm
      obtain ⟨y, hy⟩ := this
      exact (hB _ rfl _ hm).mp hb y hy
  · intro h
    by_cases hs : ∃ xs, r = .arr xs
    · obtain ⟨xs, rfl⟩ := hs
      by_contra hc
      have hall : ∀ x ∈ xs, ∃ y, P x y := by
        intro x hx
        by_contra hn
        exact hc (.element hx ((hB xs rfl x hx).mpr fun y hy => hn ⟨y, hy⟩))
      have : ∃ l, List.Forall₂ P xs l := by
        clear h hc hB
        induction xs with
        | nil => exact ⟨[], .nil⟩
        | cons a xs ih =>
          obtain ⟨y, hy⟩ := hall a (by simp)
          obtain ⟨l, hl⟩ := ih fun x hx => hall x (by simp [hx])
          exact ⟨y :: l, .cons hy hl⟩
      obtain ⟨l, hl⟩ := this
      exact h l ⟨xs, rfl, hl⟩
    · exact .kind fun s e => hs ⟨s, e⟩

section
variable {F : Type} (fr : Bytes → Option F)

theorem num_means (t : Bytes) (h : ¬ (¬ SmallNat t ∧ ¬ SmallNeg t ∧ fr t = none)) : ∃ n, NumMeans fr t n := by
  by_cases h1 : SmallNat t
  · exact ⟨_, .nat h1⟩
  · by_cases h2 : SmallNeg t
    · obtain ⟨ds, rfl, hd, hl, hu⟩ := h2
      exact ⟨.neg ⟨decimal ds - 1, by omega⟩, .neg hd (by simp only; omega)⟩
    · cases h3 : fr t with
      | none => exact absurd ⟨h1, h2, h3⟩ h
      | some f => exact ⟨_, .float h1 h2 h3⟩

mutual
theorem means_of_not_bad (r : Raw) (h : ¬ BadValue fr r) : ∃ j, ValueMeans fr r j := by
  match r with
  | .null => exact ⟨_, .null⟩
  | .bool b => exact ⟨_, .bool⟩
  | .num t =>
    obtain ⟨n, hn⟩ := num_means fr t fun ⟨h1, h2, h3⟩ => h (.number h1 h2 h3)
    exact ⟨_, .num hn⟩
  | .str s =>
    by_cases hs : ∃ t, Spells s t
    · obtain ⟨t, ht⟩ := hs; exact ⟨_, .str ht⟩
    · exact absurd (.token fun t ht => hs ⟨t, ht⟩) h
  | .arr xs =>
    obtain ⟨l, hl⟩ := means_of_not_bads xs fun x hx hb => h (.element hx hb)
    exact ⟨_, .arr hl⟩
  | .obj kvs =>
    obtain ⟨l, hl⟩ := means_of_not_badm kvs (fun kv hm hn => h (.name (k := kv.1) (x := kv.2) hm hn))
      fun kv hm hb => h (.member (k := kv.1) (x := kv.2) hm hb)
    obtain ⟨h3, h4⟩ := (btOfList_iff l _).mp rfl
    exact ⟨_, .obj hl h3 h4⟩
theorem means_of_not_bads (xs : List Raw) (h : ∀ x ∈ xs, ¬ BadValue fr x) : ∃ l, ValuesMean fr xs l := by
  match xs with
  | [] => exact ⟨_, .nil⟩
  | x :: xs =>
    obtain ⟨y, hy⟩ := means_of_not_bad x (h x (by simp))
    obtain ⟨l, hl⟩ := means_of_not_bads xs fun x hx => h x (by simp [hx])
    exact ⟨_, .cons hy hl⟩
theorem means_of_not_badm (xs : List (Bytes × Raw)) (hk : ∀ kv ∈ xs, ¬ ∀ n, ¬ Spells kv.1 n)
    (h : ∀ kv ∈ xs, ¬ BadValue fr kv.2) : ∃ l, MembersMean fr xs l := by
  match xs with
  | [] => exact ⟨_, .nil⟩
  | (k, x) :: xs =>
    obtain ⟨y, hy⟩ := means_of_not_bad x (h (k, x) (by simp))
    obtain ⟨l, hl⟩ := means_of_not_badm xs (fun kv hm => hk kv (by simp [hm])) fun kv hm => h kv (by simp [hm])
    have hk' := hk (k, x) (by simp)
    simp only [not_forall, not_not] at hk'
    obtain ⟨n, hn⟩ := hk'
    exact ⟨_, .cons hn hy hl⟩
end

theorem values_mem {xs : List Raw} {l : List (Json (Num F))} (h : ValuesMean fr xs l) {x : Raw} (hx : x ∈ xs) :
    ∃ y, ValueMeans fr x y := by
  induction xs generalizing l with
  | nil => cases hx
  | cons a xs ih =>
    cases h with
    | cons h1 h2 =>
      rcases List.mem_cons.mp hx with rfl | hx
      · exact ⟨_, h1⟩
      · exact ih h2 hx

theorem members_mem {xs : List (Bytes × Raw)} {l : List (Str × Json (Num F))} (h : MembersMean fr xs l) {k : Bytes}
    {x : Raw} (hx : (k, x) ∈ xs) : (∃ n, Spells k n) ∧ ∃ y, ValueMeans fr x y := by
  induction xs generalizing l with
  | nil => cases hx
  | cons a xs ih =>
    cases h with
    | cons h0 h1 h2 =>
      rcases List.mem_cons.mp hx with hx | hx
      · cases hx; exact ⟨⟨_, h0⟩, _, h1⟩
      · exact ih h2 hx

theorem not_means_of_bad {r : Raw} (h : BadValue fr r) : ∀ j, ¬ ValueMeans fr r j := by
  induction h with
  | number h1 h2 h3 =>
    intro j hj
    cases hj with
    | num h =>
      cases h with
      | nat h => exact h1 h
      | @neg ds k hd he => exact h2 ⟨_, rfl, hd, by omega, by have := k.2; omega⟩
      | float _ _ h => rw [h3] at h; cases h
  | token hs => intro j hj; cases hj with | str h => exact hs _ h
  | element hx _ ih =>
    intro j hj
    cases hj with | arr h => obtain ⟨y, hy⟩ := values_mem fr h hx; exact ih y hy
  | name hm hn =>
    intro j hj
    cases hj with | obj h _ _ => obtain ⟨⟨n, h⟩, _⟩ := members_mem fr h hm; exact hn n h
  | member hm _ ih =>
    intro j hj
    cases hj with | obj h _ _ => obtain ⟨_, y, hy⟩ := members_mem fr h hm; exact ih y hy

theorem badValue_iff (r : Raw) : BadValue fr r ↔ ∀ j, ¬ ValueMeans fr r j := by
  constructor
  · intro h; exact not_means_of_bad fr h
  · intro h
    by_contra hb
    obtain ⟨j, hj⟩ := means_of_not_bad fr r hb
    exact h j hj

end

theorem given_ok {names : List String} {r : Raw} (hr : r.Ok) {n : String} {x : Raw} (h : Given names r n x) : x.Ok := by
  cases h with
  | obj hm _ => exact (okMembers_mem (by simpa [Raw.Ok] using hr) _ hm).2
  | arr _ hx => exact okList_mem (by simpa [Raw.Ok] using hr) _ (List.mem_of_getElem? hx)

theorem badProof_iff (r : Raw) : BadProof r ↔ ∀ p, ¬ ReadsProof r p := by
  constructor
  · rintro h p ⟨get, hs, h1, h2, h3, h4, h5, h6, h7, h8⟩
    obtain ⟨hb, hg⟩ := (structOf_iff _ _).mp hs
    have need := fun (n : String) (hn : n ∈ _) => (badNeeded_iff (P := ReadsText) (hg n hn) fun x _ => badText_iff x).mp
    have may := fun (n : String) (hn : n ∈ _) => (badMay_iff (P := ReadsText) (hg n hn) fun x _ => badText_iff x).mp
    cases h with
    | struct h => exact hb h
    | text hn h =>
      simp only [List.mem_cons, List.not_mem_nil, or_false] at hn
      rcases hn with rfl | rfl | rfl | rfl
      · exact need _ (by simp) h _ h1
      · exact need _ (by simp) h _ h2
      · exact need _ (by simp) h _ h4
      · exact need _ (by simp) h _ h5
    | purpose h => exact (badNeeded_iff (hg _ (by simp)) fun x _ => Iff.rfl).mp h _ h3
    | option hn h =>
      simp only [List.mem_cons, List.not_mem_nil, or_false] at hn
      rcases hn with rfl | rfl | rfl
      · exact may _ (by simp) h _ h6
      · exact may _ (by simp) h _ h7
      · exact may _ (by simp) h _ h8
  · intro h
    by_contra hc
    obtain ⟨get, hs, hg⟩ := struct_get (by decide) fun hb => hc (.struct hb)
    have need : ∀ n ∈ ["id", "type", "proofValue", "verificationMethod"], ∃ y, Needs get n ReadsText y := by
      intro n hn
      by_contra hx
      refine hc (.text hn ((badNeeded_iff (hg n ?_) fun x _ => badText_iff x).mpr fun y hy => hx ⟨y, hy⟩))
      clear hx; revert n; decide
    have may : ∀ n ∈ ["created", "expires", "cryptosuite"], ∃ y, May get n ReadsText y := by
      intro n hn
      by_contra hx
      refine hc (.option hn ((badMay_iff (hg n ?_) fun x _ => badText_iff x).mpr fun y hy => hx ⟨y, hy⟩))
      clear hx; revert n; decide
    have purp : ∃ y, Needs get "proofPurpose" ReadsPurpose y := by
      by_contra hx
      exact hc (.purpose ((badNeeded_iff (hg _ (by simp)) fun x _ => Iff.rfl).mpr fun y hy => hx ⟨y, hy⟩))
    obtain ⟨i, hi⟩ := need "id" (by simp)
    obtain ⟨t, ht⟩ := need "type" (by simp)
    obtain ⟨v, hv⟩ := need "proofValue" (by simp)
    obtain ⟨m, hm⟩ := need "verificationMethod" (by simp)
    obtain ⟨c, hcr⟩ := may "created" (by simp)
    obtain ⟨e, he⟩ := may "expires" (by simp)
    obtain ⟨u, hu⟩ := may "cryptosuite" (by simp)
    obtain ⟨q, hq⟩ := purp
    exact h ⟨i, t, q, v, m, c, e, u⟩ ⟨get, hs, hi, ht, hq, hv, hm, hcr, he, hu⟩

/-- What is read as a value is sorted, hence a value. -/
theorem value_of_means {E : Env} {r : Raw} (hr : r.Ok) {j : Json (Num E.F)} (h : ValueMeans E.floatParse r j) :
    ∃ v : Value E, v.1 = j := by
  have hd := (decValue_iff E.floatParse r hr (nesting r + 1) (by omega) j).mpr ⟨by omega, h⟩
  have : ∃ v, decVal' E (nesting r + 1) r = some v := by
    unfold decVal'
    split
    · exact ⟨_, rfl⟩
    · rename_i hn; rw [hd] at hn; cases hn
  obtain ⟨v, hv⟩ := this
  have h1 := ((decVal'_iff (by omega) r hr v).mp hv).2
  have h2 := (decValue_iff E.floatParse r hr (nesting r + 1) (by omega) v.1).mpr ⟨by omega, h1⟩
  rw [hd] at h2
  exact ⟨v, (Option.some.inj h2).symm⟩

theorem badSubject_iff {E : Env} {limit : Nat} (r : Raw) : (limit < nesting r ∨ BadValue E.floatParse r) ↔
    ∀ j, ¬ (nesting r ≤ limit ∧ ValueMeans E.floatParse r j) := by
  rw [badValue_iff]
  constructor
  · rintro (h | h) j ⟨h1, h2⟩
    · omega
    · exact h j h2
  · intro h
    by_cases hl : limit < nesting r
    · exact .inl hl
    · exact .inr fun j hj => h j ⟨by omega, hj⟩

theorem badTexts_iff (r : Raw) : BadList BadText r ↔ ∀ l, ¬ ReadsList ReadsText r l :=
  badList_iff r fun _ _ x _ => badText_iff x

theorem badVC_iff {E : Env} {limit : Nat} (r : Raw) (hr : r.Ok) : BadVC E limit r ↔ ∀ v, ¬ ReadsVC E limit r v := by
  constructor
  · rintro h v ⟨get, hs, h1, h2, h3, h4, h5, h6⟩
    obtain ⟨hb, hg⟩ := (structOf_iff _ _).mp hs
    have need := fun (n : String) (hn : n ∈ _) => (badNeeded_iff (P := ReadsText) (hg n hn) fun x _ => badText_iff x).mp
    have needs := fun (n : String) (hn : n ∈ _) =>
      (badNeeded_iff (P := ReadsList ReadsText) (hg n hn) fun x _ => badTexts_iff x).mp
    cases h with
    | struct h => exact hb h
    | texts hn h =>
      simp only [List.mem_cons, List.not_mem_nil, or_false] at hn
      rcases hn with rfl | rfl
      · exact needs _ (by simp) h _ h1
      · exact needs _ (by simp) h _ h2
    | subject h => exact (badNeeded_iff (hg _ (by simp)) fun x _ => badSubject_iff x).mp h _ h3
    | proof h => exact (badMay_iff (hg _ (by simp)) fun x _ => badProof_iff x).mp h _ h4
    | text hn h =>
      simp only [List.mem_cons, List.not_mem_nil, or_false] at hn
      rcases hn with rfl | rfl
      · exact need _ (by simp) h _ h5
      · exact need _ (by simp) h _ h6
  · intro h
    by_contra hc
    obtain ⟨get, hs, hg⟩ := struct_get (by decide) fun hb => hc (.struct hb)
    have need : ∀ n ∈ ["id", "issuer"], ∃ y, Needs get n ReadsText y := by
      intro n hn
      by_contra hx
      refine hc (.text hn ((badNeeded_iff (hg n ?_) fun x _ => badText_iff x).mpr fun y hy => hx ⟨y, hy⟩))
      clear hx; revert n; decide
    have needs : ∀ n ∈ ["@context", "type"], ∃ y, Needs get n (ReadsList ReadsText) y := by
      intro n hn
      by_contra hx
      refine hc (.texts hn ((badNeeded_iff (hg n ?_) fun x _ => badTexts_iff x).mpr fun y hy => hx ⟨y, hy⟩))
      clear hx; revert n; decide
    have subj : ∃ y, Needs get "credentialSubject" (fun x j => nesting x ≤ limit ∧ ValueMeans E.floatParse x j) y := by
      by_contra hx
      exact hc (.subject ((badNeeded_iff (hg _ (by simp)) fun x _ => badSubject_iff x).mpr fun y hy => hx ⟨y, hy⟩))
    have prf : ∃ y, May get "proof" ReadsProof y := by
      by_contra hx
      exact hc (.proof ((badMay_iff (hg _ (by simp)) fun x _ => badProof_iff x).mpr fun y hy => hx ⟨y, hy⟩))
    obtain ⟨c, hcx⟩ := needs "@context" (by simp)
    obtain ⟨t, ht⟩ := needs "type" (by simp)
    obtain ⟨j, hj⟩ := subj
    obtain ⟨p, hp⟩ := prf
    obtain ⟨i, hi⟩ := need "id" (by simp)
    obtain ⟨u, hu⟩ := need "issuer" (by simp)
    obtain ⟨x, hx, hl, hm⟩ := hj
    obtain ⟨v, rfl⟩ := value_of_means (given_ok hr ((hg "credentialSubject" (by simp) x).mp hx)) hm
    exact h ⟨c, t, v, p, i, u⟩ ⟨get, hs, hcx, ht, ⟨x, hx, hl, hm⟩, hp, hi, hu⟩

theorem badVP_iff {E : Env} {limit : Nat} (r : Raw) (hr : r.Ok) : BadVP E limit r ↔ ∀ v, ¬ ReadsVP E limit r v := by
  have creds : ∀ {names : List String} {n : String} (x : Raw), Given names r n x →
      (BadList (BadVC E limit) x ↔ ∀ l, ¬ ReadsList (ReadsVC E limit) x l) := by
    intro names n x hx
    refine badList_iff x ?_
    rintro xs rfl y hy
    exact badVC_iff y (okList_mem (by simpa [Raw.Ok] using given_ok hr hx) y hy)
  constructor
  · rintro h v ⟨get, hs, h1, h2, h3, h4, h5⟩
    obtain ⟨hb, hg⟩ := (structOf_iff _ _).mp hs
    have needs := fun (n : String) (hn : n ∈ _) =>
      (badNeeded_iff (P := ReadsList ReadsText) (hg n hn) fun x _ => badTexts_iff x).mp
    cases h with
    | struct h => exact hb h
    | texts hn h =>
      simp only [List.mem_cons, List.not_mem_nil, or_false] at hn
      rcases hn with rfl | rfl
      · exact needs _ (by simp) h _ h1
      · exact needs _ (by simp) h _ h2
    | credentials h => exact (badNeeded_iff (hg _ (by simp)) creds).mp h _ h3
    | proof h => exact (badMay_iff (hg _ (by simp)) fun x _ => badProof_iff x).mp h _ h4
    | holder h => exact (badMay_iff (hg _ (by simp)) fun x _ => badText_iff x).mp h _ h5
  · intro h
    by_contra hc
    obtain ⟨get, hs, hg⟩ := struct_get (by decide) fun hb => hc (.struct hb)
    have needs : ∀ n ∈ ["@context", "type"], ∃ y, Needs get n (ReadsList ReadsText) y := by
      intro n hn
      by_contra hx
      refine hc (.texts hn ((badNeeded_iff (hg n ?_) fun x _ => badTexts_iff x).mpr fun y hy => hx ⟨y, hy⟩))
      clear hx; revert n; decide
    have crd : ∃ y, Needs get "verifiableCredential" (ReadsList (ReadsVC E limit)) y := by
      by_contra hx
      exact hc (.credentials ((badNeeded_iff (hg _ (by simp)) creds).mpr fun y hy => hx ⟨y, hy⟩))
    have prf : ∃ y, May get "proof" ReadsProof y := by
      by_contra hx
      exact hc (.proof ((badMay_iff (hg _ (by simp)) fun x _ => badProof_iff x).mpr fun y hy => hx ⟨y, hy⟩))
    have hol : ∃ y, May get "holder" ReadsText y := by
      by_contra hx
      exact hc (.holder ((badMay_iff (hg _ (by simp)) fun x _ => badText_iff x).mpr fun y hy => hx ⟨y, hy⟩))
    obtain ⟨c, hcx⟩ := needs "@context" (by simp)
    obtain ⟨t, ht⟩ := needs "type" (by simp)
    obtain ⟨j, hj⟩ := crd
    obtain ⟨p, hp⟩ := prf
    obtain ⟨i, hi⟩ := hol
    exact h ⟨c, t, j, p, i⟩ ⟨get, hs, hcx, ht, hj, hp, hi⟩

theorem badKey_iff (r : Raw) : BadKey r ↔ ∀ p, ¬ ReadsKey r p := by
  constructor
  · rintro h p ⟨get, hs, h1, h2, h3, h4⟩
    obtain ⟨hb, hg⟩ := (structOf_iff _ _).mp hs
    have need := fun (n : String) (hn : n ∈ _) => (badNeeded_iff (P := ReadsText) (hg n hn) fun x _ => badText_iff x).mp
    cases h with
    | struct h => exact hb h
    | text hn h =>
      simp only [List.mem_cons, List.not_mem_nil, or_false] at hn
      rcases hn with rfl | rfl | rfl | rfl
      · exact need _ (by simp) h _ h1
      · exact need _ (by simp) h _ h2
      · exact need _ (by simp) h _ h3
      · exact need _ (by simp) h _ h4
  · intro h
    by_contra hc
    obtain ⟨get, hs, hg⟩ := struct_get (by decide) fun hb => hc (.struct hb)
    have need : ∀ n ∈ ["id", "controller", "type", "publicKeyMultibase"], ∃ y, Needs get n ReadsText y := by
      intro n hn
      by_contra hx
      exact hc (.text hn ((badNeeded_iff (hg n hn) fun x _ => badText_iff x).mpr fun y hy => hx ⟨y, hy⟩))
    obtain ⟨i, hi⟩ := need "id" (by simp)
    obtain ⟨t, ht⟩ := need "controller" (by simp)
    obtain ⟨v, hv⟩ := need "type" (by simp)
    obtain ⟨m, hm⟩ := need "publicKeyMultibase" (by simp)
    exact h ⟨i, t, v, m⟩ ⟨get, hs, hi, ht, hv, hm⟩

theorem badDoc_iff (r : Raw) : BadDoc r ↔ ∀ d, ¬ ReadsDoc r d := by
  have keys : ∀ x : Raw, BadList BadKey x ↔ ∀ l, ¬ ReadsList ReadsKey x l :=
    fun x => badList_iff x fun _ _ y _ => badKey_iff y
  constructor
  · rintro h p ⟨get, hs, h1, h2, h3, h4, h5, h6⟩
    obtain ⟨hb, hg⟩ := (structOf_iff _ _).mp hs
    have may := fun (n : String) (hn : n ∈ _) =>
      (badMay_iff (P := ReadsList ReadsKey) (hg n hn) fun x _ => keys x).mp
    cases h with
    | struct h => exact hb h
    | contexts h => exact (badNeeded_iff (hg _ (by simp)) fun x _ => badTexts_iff x).mp h _ h1
    | id h => exact (badNeeded_iff (hg _ (by simp)) fun x _ => badText_iff x).mp h _ h2
    | keys hn h =>
      simp only [List.mem_cons, List.not_mem_nil, or_false] at hn
      rcases hn with rfl | rfl | rfl | rfl
      · exact may _ (by simp) h _ h3
      · exact may _ (by simp) h _ h4
      · exact may _ (by simp) h _ h5
      · exact may _ (by simp) h _ h6
  · intro h
    by_contra hc
    obtain ⟨get, hs, hg⟩ := struct_get (by decide) fun hb => hc (.struct hb)
    have may : ∀ n ∈ ["authentication", "capabilityInvocation", "capabilityDelegation", "assertionMethod"],
        ∃ y, May get n (ReadsList ReadsKey) y := by
      intro n hn
      by_contra hx
      refine hc (.keys hn ((badMay_iff (hg n ?_) fun x _ => keys x).mpr fun y hy => hx ⟨y, hy⟩))
      clear hx; revert n; decide
    have ctx : ∃ y, Needs get "@context" (ReadsList ReadsText) y := by
      by_contra hx
      exact hc (.contexts ((badNeeded_iff (hg _ (by simp)) fun x _ => badTexts_iff x).mpr fun y hy => hx ⟨y, hy⟩))
    have idn : ∃ y, Needs get "id" ReadsText y := by
      by_contra hx
      exact hc (.id ((badNeeded_iff (hg _ (by simp)) fun x _ => badText_iff x).mpr fun y hy => hx ⟨y, hy⟩))
    obtain ⟨c, hcx⟩ := ctx
    obtain ⟨i, hi⟩ := idn
    obtain ⟨a, ha⟩ := may "authentication" (by simp)
    obtain ⟨b, hb⟩ := may "capabilityInvocation" (by simp)
    obtain ⟨d, hd⟩ := may "capabilityDelegation" (by simp)
    obtain ⟨e, he⟩ := may "assertionMethod" (by simp)
    exact h ⟨c, i, a, b, d, e⟩ ⟨get, hs, hcx, hi, ha, hb, hd, he⟩

end Verif

namespace Verif.Props
open Verif Spec

theorem vc_refused {E : Env} (bs : Bytes) : (∃ m, VC.parseJsonBytes E bs = .error (.proofGenerationError m)) ↔
    ∀ v, VC.parseJsonBytes E bs ≠ .ok v := by
  unfold VC.parseJsonBytes
  cases fromSlice (VC.dec E) bs <;> simp

theorem vp_refused {E : Env} (bs : Bytes) : (∃ m, VP.parseJsonBytes E bs = .error (.proofGenerationError m)) ↔
    ∀ v, VP.parseJsonBytes E bs ≠ .ok v := by
  unfold VP.parseJsonBytes
  cases fromSlice (VP.dec E) bs <;> simp

/-- C77 (credentials): a text is refused exactly if it is not JSON, or for one of the listed reasons. -/
theorem C77_vc {E : Env} (bs : Bytes) : (∃ m, VC.parseJsonBytes E bs = .error (.proofGenerationError m)) ↔
    ∀ r, JsonText r bs → BadVC E 126 r := by
  rw [vc_refused]
  simp only [ne_eq, C51_reads_vc, not_exists, not_and]
  constructor
  · intro h r hr; exact (badVC_iff r hr.ok).mpr fun v => h v r hr
  · intro h v r hr; exact (badVC_iff r hr.ok).mp (h r hr) v

/-- C77 (presentations). -/
theorem C77_vp {E : Env} (bs : Bytes) : (∃ m, VP.parseJsonBytes E bs = .error (.proofGenerationError m)) ↔
    ∀ r, JsonText r bs → BadVP E 124 r := by
  rw [vp_refused]
  simp only [ne_eq, C51_reads_vp, not_exists, not_and]
  constructor
  · intro h r hr; exact (badVP_iff r hr.ok).mpr fun v => h v r hr
  · intro h v r hr; exact (badVP_iff r hr.ok).mp (h r hr) v

/-- C77 (DID documents). -/
theorem C77_doc (bs : Bytes) : fromSlice Doc.dec bs = none ↔ ∀ r, JsonText r bs → BadDoc r := by
  rw [Option.eq_none_iff_forall_ne_some]
  simp only [ne_eq, C51_reads_doc, not_exists, not_and]
  constructor
  · intro h r hr; exact (badDoc_iff r).mpr fun v => h v r hr
  · intro h v r hr; exact (badDoc_iff r).mp (h r hr) v

theorem not_given {names : List String} {kvs : List (Bytes × Raw)} {n : String}
    (h : ∀ kv ∈ kvs, ¬ Spells kv.1 n.toList) (x : Raw) : ¬ Given names (.obj kvs) n x := by
  intro hg
  cases hg with
  | obj hm hs => exact h _ hm hs

theorem badContext {xs : List Raw} {c : List (Bytes × Raw)} (h : .obj c ∈ xs) : BadList BadText (.arr xs) :=
  .element h (.kind fun _ e => by cases e)

theorem badTexts_str (s : Bytes) : BadList BadText (.str s) := .kind fun _ e => by cases e

theorem badProof_noId {p : List (Bytes × Raw)} (h : ∀ kv ∈ p, ¬ Spells kv.1 "id".toList) : BadProof (.obj p) :=
  .text (n := "id") (by simp) (.inl (not_given h))

theorem badProof_set {xs : List Raw} (h : ∀ x ∈ xs, ∃ p, x = .obj p) : BadProof (.arr xs) := by
  by_cases hl : xs.length = 8
  · match xs, hl with
    | x :: xs, _ =>
      refine .text (n := "id") (by simp) (.inr ⟨x, .arr (i := 0) rfl rfl, .kind ?_⟩)
      obtain ⟨p, rfl⟩ := h x (by simp)
      intro s e; cases e
  · exact .struct (.length hl)

theorem w3c_badVC {E : Env} {limit : Nat} {kvs : List (Bytes × Raw)} (h : W3CVC kvs) : BadVC E limit (.obj kvs) := by
  cases h with
  | oneContext hm hs => exact .texts (n := "@context") (by simp) (.inr ⟨_, .obj hm hs, badTexts_str _⟩)
  | inlineContext hm hs hx => exact .texts (n := "@context") (by simp) (.inr ⟨_, .obj hm hs, badContext hx⟩)
  | oneType hm hs => exact .texts (n := "type") (by simp) (.inr ⟨_, .obj hm hs, badTexts_str _⟩)
  | issuer hm hs => exact .text (n := "issuer") (by simp) (.inr ⟨_, .obj hm hs, .kind fun _ e => by cases e⟩)
  | noId h => exact .text (n := "id") (by simp) (.inl (not_given h))
  | proofs hm hs h => exact .proof ⟨_, .obj hm hs, (fun e => by cases e), badProof_set h⟩
  | proofNoId hm hs h => exact .proof ⟨_, .obj hm hs, (fun e => by cases e), badProof_noId h⟩

theorem w3c_badVP {E : Env} {limit : Nat} {kvs : List (Bytes × Raw)} (h : W3CVP kvs) : BadVP E limit (.obj kvs) := by
  cases h with
  | oneContext hm hs => exact .texts (n := "@context") (by simp) (.inr ⟨_, .obj hm hs, badTexts_str _⟩)
  | inlineContext hm hs hx => exact .texts (n := "@context") (by simp) (.inr ⟨_, .obj hm hs, badContext hx⟩)
  | oneType hm hs => exact .texts (n := "type") (by simp) (.inr ⟨_, .obj hm hs, badTexts_str _⟩)
  | oneCredential hm hs => exact .credentials (.inr ⟨_, .obj hm hs, .kind fun _ e => by cases e⟩)
  | noCredential h => exact .credentials (.inl (not_given h))
  | credential hm hs hx hw => exact .credentials (.inr ⟨_, .obj hm hs, .element hx (w3c_badVC hw)⟩)
  | holder hm hs => exact .holder ⟨_, .obj hm hs, (fun e => by cases e), .kind fun _ e => by cases e⟩
  | proofs hm hs h => exact .proof ⟨_, .obj hm hs, (fun e => by cases e), badProof_set h⟩
  | proofNoId hm hs h => exact .proof ⟨_, .obj hm hs, (fun e => by cases e), badProof_noId h⟩

theorem w3c_badDoc {kvs : List (Bytes × Raw)} (h : W3CDoc kvs) : BadDoc (.obj kvs) := by
  cases h with
  | oneContext hm hs => exact .contexts (.inr ⟨_, .obj hm hs, badTexts_str _⟩)
  | inlineContext hm hs hx => exact .contexts (.inr ⟨_, .obj hm hs, badContext hx⟩)
  | noContext h => exact .contexts (.inl (not_given h))
  | reference hn hm hs hx =>
    exact .keys hn ⟨_, .obj hm hs, (fun e => by cases e),
      .element hx (.struct (.kind (fun _ e => by cases e) fun _ e => by cases e))⟩
  | otherKey hn hm hs hx h =>
    exact .keys hn ⟨_, .obj hm hs, (fun e => by cases e),
      .element hx (.text (n := "publicKeyMultibase") (by simp) (.inl (not_given h)))⟩

/-- The token tree of a text is unique. -/
theorem jsonText_unique {bs : Bytes} {r r' : Raw} (h : JsonText r bs) (h' : JsonText r' bs) : r = r' := by
  have h1 := (Raw.parse_iff _ _).mpr h
  rw [(Raw.parse_iff _ _).mpr h'] at h1
  exact (Option.some.inj h1).symm

theorem verify_unread {E : Env} {T : Type} [Proofable T] {bs : Bytes} {m : Str}
    (h : (Proofable.parseJsonBytes bs : Except ProofError T) = .error (.proofGenerationError m)) (pub : E.EdPub)
    (purpose : ProofPurpose) : verify E T pub bs purpose = .error (.proofGenerationError m) := by
  unfold verify Integrity.verifyProof
  simp only [h]

/-- C77 (credentials): a credential of the W3C data model in one of the listed forms is refused, whatever else it
contains, before any key or signature is looked at. -/
theorem C77_w3c_vc {E : Env} {bs : Bytes} {kvs : List (Bytes × Raw)} (h : JsonText (.obj kvs) bs) (hw : W3CVC kvs)
    (pub : E.EdPub) (purpose : ProofPurpose) :
    ∃ m, VC.parseJsonBytes E bs = .error (.proofGenerationError m) ∧
      verify E (VC E) pub bs purpose = .error (.proofGenerationError m) := by
  obtain ⟨m, hm⟩ := (C77_vc bs).mpr fun r hr => jsonText_unique h hr ▸ w3c_badVC (E := E) (limit := 126) hw
  exact ⟨m, hm, verify_unread hm pub purpose⟩

/-- C77 (presentations). -/
theorem C77_w3c_vp {E : Env} {bs : Bytes} {kvs : List (Bytes × Raw)} (h : JsonText (.obj kvs) bs) (hw : W3CVP kvs)
    (pub : E.EdPub) (purpose : ProofPurpose) :
    ∃ m, VP.parseJsonBytes E bs = .error (.proofGenerationError m) ∧
      verify E (VP E) pub bs purpose = .error (.proofGenerationError m) := by
  obtain ⟨m, hm⟩ := (C77_vp bs).mpr fun r hr => jsonText_unique h hr ▸ w3c_badVP (E := E) (limit := 124) hw
  exact ⟨m, hm, verify_unread hm pub purpose⟩

/-- C77 (DID documents). -/
theorem C77_w3c_doc {bs : Bytes} {kvs : List (Bytes × Raw)} (h : JsonText (.obj kvs) bs) (hw : W3CDoc kvs) :
    fromSlice Doc.dec bs = none :=
  (C77_doc bs).mpr fun _ hr => jsonText_unique h hr ▸ w3c_badDoc hw

/-- C77 (DID documents): other members, for example `verificationMethod`, `keyAgreement`, `controller` or `service`,
are skipped without notice. -/
theorem C77_skipped_doc {bs bs' : Bytes} {pre post : List (Bytes × Raw)} {k : Bytes} {x : Raw} {n : Str}
    (h : JsonText (.obj (pre ++ post)) bs) (h' : JsonText (.obj (pre ++ (k, x) :: post)) bs') (hk : Spells k n)
    (hn : n ∉ ["@context", "id", "authentication", "capabilityInvocation", "capabilityDelegation",
      "assertionMethod"].map String.toList) : fromSlice Doc.dec bs' = fromSlice Doc.dec bs := by
  simp only [fromSlice, (Raw.parse_iff _ _).mpr h, (Raw.parse_iff _ _).mpr h']
  unfold Doc.dec
  rw [structEquiv_insert (known := Doc.fieldNames) pre post x hk.dec hn]

/-- A credential as in the W3C examples, with the issuer as an object. -/
def w3cText : Bytes := utf8Encode
  "{\"@context\":[\"c\"],\"type\":[\"t\"],\"credentialSubject\":{\"a\":1},\"id\":\"i\",\"issuer\":{\"id\":\"s\"}}".toList

/-- Members of `w3cText`. -/
def w3cMembers : List (Bytes × Raw) :=
  [(utf8Encode "@context".toList, .arr [.str [0x63]]), (utf8Encode "type".toList, .arr [.str [0x74]]),
   (utf8Encode "credentialSubject".toList, .obj [([0x61], .num [0x31])]), (utf8Encode "id".toList, .str [0x69]),
   (utf8Encode "issuer".toList, .obj [(utf8Encode "id".toList, .str [0x73])])]

theorem w3cText_parse : JsonText (.obj w3cMembers) w3cText := jsonText_of_same (by decide +kernel)

theorem w3cMembers_issuer : W3CVC w3cMembers :=
  .issuer (k := utf8Encode "issuer".toList) (i := [(utf8Encode "id".toList, .str [0x73])])
    (List.mem_of_getElem? (i := 4) rfl) (spells_of_dec (by decide +kernel) (by decide +kernel))

/-- The hypotheses of `C77_w3c_vc` hold for a text which, with the issuer as a string, would be read
(`shortText_reads`). -/
example (pub : Toy.env.EdPub) : ∃ m,
    verify Toy.env (VC Toy.env) pub w3cText .assertionMethod = .error (.proofGenerationError m) :=
  (C77_w3c_vc w3cText_parse w3cMembers_issuer pub .assertionMethod).imp fun _ h => h.2

/-- A presentation that contains this credential. -/
def w3cPresentation : Bytes := utf8Encode
  "{\"@context\":[],\"type\":[],\"verifiableCredential\":[{\"@context\":[\"c\"],\"type\":[\"t\"],\"credentialSubject\":{\"a\":1},\"id\":\"i\",\"issuer\":{\"id\":\"s\"}}]}".toList

/-- Members of `w3cPresentation`. -/
def w3cPresented : List (Bytes × Raw) :=
  [(utf8Encode "@context".toList, .arr []), (utf8Encode "type".toList, .arr []),
   (utf8Encode "verifiableCredential".toList, .arr [.obj w3cMembers])]

theorem w3cPresentation_parse : JsonText (.obj w3cPresented) w3cPresentation := jsonText_of_same (by decide +kernel)

/-- The hypotheses of `C77_w3c_vp` hold for it. -/
example (pub : Toy.env.EdPub) : ∃ m,
    verify Toy.env (VP Toy.env) pub w3cPresentation .assertionMethod = .error (.proofGenerationError m) :=
  (C77_w3c_vp w3cPresentation_parse
    (.credential (k := utf8Encode "verifiableCredential".toList) (xs := [.obj w3cMembers])
      (List.mem_of_getElem? (i := 2) rfl) (spells_of_dec (by decide +kernel) (by decide +kernel))
      (List.mem_singleton.mpr rfl) w3cMembers_issuer) pub .assertionMethod).imp fun _ h => h.2

/-- A document whose authentication key is a reference. -/
def w3cDoc : Bytes := utf8Encode
  "{\"@context\":[\"c\"],\"id\":\"did:a\",\"authentication\":[\"did:a#k\"]}".toList

/-- Members of `w3cDoc`. -/
def w3cDocMembers : List (Bytes × Raw) :=
  [(utf8Encode "@context".toList, .arr [.str [0x63]]), (utf8Encode "id".toList, .str (utf8Encode "did:a".toList)),
   (utf8Encode "authentication".toList, .arr [.str (utf8Encode "did:a#k".toList)])]

theorem w3cDoc_parse : JsonText (.obj w3cDocMembers) w3cDoc := jsonText_of_same (by decide +kernel)

/-- The hypotheses of `C77_w3c_doc` hold for it. -/
example : fromSlice Doc.dec w3cDoc = none :=
  C77_w3c_doc w3cDoc_parse
    (.reference (n := "authentication") (k := utf8Encode "authentication".toList) (s := utf8Encode "did:a#k".toList)
      (xs := [.str (utf8Encode "did:a#k".toList)]) (by simp) (List.mem_of_getElem? (i := 2) rfl)
      (spells_of_dec (by decide +kernel) (by decide +kernel)) (List.mem_singleton.mpr rfl))

/-- A small document, and the same with a `verificationMethod`. -/
def smallDoc : Bytes := utf8Encode "{\"@context\":[\"c\"],\"id\":\"did:a\"}".toList

/-- See `smallDoc`. -/
def smallDocMore : Bytes := utf8Encode "{\"@context\":[\"c\"],\"verificationMethod\":[{}],\"id\":\"did:a\"}".toList

theorem smallDoc_parse : JsonText (.obj ([(utf8Encode "@context".toList, .arr [.str [0x63]])] ++
    [(utf8Encode "id".toList, .str (utf8Encode "did:a".toList))])) smallDoc := jsonText_of_same (by decide +kernel)

theorem smallDocMore_parse : JsonText (.obj ([(utf8Encode "@context".toList, .arr [.str [0x63]])] ++
    (utf8Encode "verificationMethod".toList, .arr [.obj []]) ::
    [(utf8Encode "id".toList, .str (utf8Encode "did:a".toList))])) smallDocMore :=
  jsonText_of_same (by decide +kernel)

/-- The hypotheses of `C77_skipped_doc` hold for a readable document. -/
example : fromSlice Doc.dec smallDocMore = fromSlice Doc.dec smallDoc ∧ (fromSlice Doc.dec smallDoc).isSome = true :=
  ⟨C77_skipped_doc smallDoc_parse smallDocMore_parse (spells_of_dec (by decide +kernel) (by decide +kernel))
    (n := "verificationMethod".toList) (by decide), by decide +kernel⟩

end Verif.Props
