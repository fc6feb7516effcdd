import Verif.Props.Careful
import Verif.Props.Chain
import Verif.Props.Received
import Verif.Props.Suites

/-
C104: callers that translate the keys of documents from and to the key suites, and check restored keys against the document.
They mend what C88, C90 and C98 say of the library (core/src/doc/mod.rs:46-109, core/src/keys/secure.rs:49-65,
core/src/account/mod.rs:71-107). The functions in `Verif.Keyring` are the caller's; they call the library.
-/

namespace Verif.Keyring

/-- An entry the library reads, with its key written as the suites say. -/
def exportEntry (E : Env) (p : Primary) : Option Primary :=
  match p.decodePubKey E with
  | .ok (.edDSA k) => some { p with multibase := multibaseEncode58 (0xed :: 0x01 :: E.edPubBytes k) }
  | .ok (.ecdh k) => some { p with multibase := multibaseEncode58 (0xec :: 0x01 :: E.dhPubBytes k) }
  | .error _ => none

/-- An entry with its key as the suites say, with the key written as the library does. -/
def importEntry (E : Env) (p : Primary) : Option Primary :=
  if p.multibase.head? ≠ some 'z' then none
  else
    match E.mbDecode p.multibase with
    | none => none
    | some (_, bytes) =>
      if bytes.length ≠ 34 then none
      else if (p.verificationType = VERIFICATION_TYPE_ED25519 ∧ bytes.take 2 = [0xed, 0x01]) ∨
          (p.verificationType = VERIFICATION_TYPE_X25519 ∧ bytes.take 2 = [0xec, 0x01]) then
        some { p with multibase := multibaseEncode58 (utf8Encode (hexEncode (bytes.drop 2))) }
      else none

/-- All entries of a list that may be absent. -/
def entries (f : Primary → Option Primary) : Option (List Primary) → Option (Option (List Primary))
  | none => some none
  | some l => (l.mapM f).map some

/-- All entries of a document. -/
def document (f : Primary → Option Primary) (d : Doc) : Option Doc := do
  let authentication ← entries f d.authentication
  let capInvoke ← entries f d.capInvoke
  let capDelegate ← entries f d.capDelegate
  let assertion ← entries f d.assertion
  some { d with authentication, capInvoke, capDelegate, assertion }

/-- Restores the signing key of a slot: the costs written in the record must be enough and the public key must be the one in
the entry. -/
def restoreKey (E : Env) (enough : KdfParams → Bool) (entry : Primary) (pw : Str) (p : PrivateKeyPairs) : Option (Account E) :=
  if enough p.verification.kdfParams then
    match Account.fromKeysecure E pw p.verification, entry.decodePubKey E with
    | .ok a, .ok (.edDSA k) => if E.edPubBytes a.pubkey = E.edPubBytes k then some a else none
    | _, _ => none
  else none

/-- Restores the secret of a slot in the same way, with the X25519 function of RFC 7748. -/
def restoreSecret (E : Env) (enough : KdfParams → Bool) (entry : Primary) (pw : Str) (p : PrivateKeyPairs) : Option Bytes :=
  if enough p.aggrement.kdfParams then
    match p.decryptAgreement E pw, entry.decodePubKey E with
    | .ok plain, .ok (.ecdh k) =>
      match (utf8Decode plain).bind hexDecode with
      | none => none
      | some s => if s.length = 32 ∧ X25519.publicKey s = E.dhPubBytes k then some s else none
    | _, _ => none
  else none

/-- The value agreed on with the key of an entry, refused if it is zero (RFC 7748, section 6.1). -/
def agree (E : Env) (s : Bytes) (entry : Primary) : Option Bytes :=
  match entry.decodePubKey E with
  | .ok (.ecdh k) => if X25519.x25519 s (E.dhPubBytes k) = List.replicate 32 0 then none else some (X25519.x25519 s (E.dhPubBytes k))
  | _ => none

end Verif.Keyring

namespace Verif.Spec
open Verif

/-- The same entry but for the text of the key. -/
structure SameEntry (p q : Primary) : Prop where
  id : q.id = p.id
  controller : q.controller = p.controller
  type : q.verificationType = p.verificationType

/-- The same document but for its entries, which are related. -/
structure SameDoc (R : Primary → Primary → Prop) (d d' : Doc) : Prop where
  context : d'.context = d.context
  id : d'.id = d.id
  authentication : Option.Rel (List.Forall₂ R) d.authentication d'.authentication
  capInvoke : Option.Rel (List.Forall₂ R) d.capInvoke d'.capInvoke
  capDelegate : Option.Rel (List.Forall₂ R) d.capDelegate d'.capDelegate
  assertion : Option.Rel (List.Forall₂ R) d.assertion d'.assertion

/-- All entries of a document. -/
def allEntries (d : Doc) : List Primary :=
  d.authentication.getD [] ++ d.capInvoke.getD [] ++ d.capDelegate.getD [] ++ d.assertion.getD []

/-- The library reads a key with these bytes from the entry. -/
def KeyBytes (E : Env) (p : Primary) (raw : Bytes) : Prop :=
  (∃ k, p.decodePubKey E = .ok (.edDSA k) ∧ raw = E.edPubBytes k) ∨ ∃ k, p.decodePubKey E = .ok (.ecdh k) ∧ raw = E.dhPubBytes k

/-- What a library knows of key bytes: public keys have 32 of them, and keys read from bytes have these. -/
structure KeySizes (E : Env) : Prop where
  ed : ∀ k, (E.edPubBytes k).length = 32
  dh : ∀ k, (E.dhPubBytes k).length = 32
  ed_bytes : ∀ b k, E.edPubOfBytes b = some k → E.edPubBytes k = b
  dh_bytes : ∀ b k, E.dhPubOfBytes b = some k → E.dhPubBytes k = b

end Verif.Spec

namespace Verif.Props
open Verif Spec Keyring

theorem sameEntry_iff (p : Primary) (q : Primary) (t : Str) : q = { p with multibase := t } ↔ SameEntry p q ∧ q.multibase = t := by
  constructor
  · rintro rfl; exact ⟨⟨rfl, rfl, rfl⟩, rfl⟩
  · rintro ⟨⟨h1, h2, h3⟩, h4⟩
    cases q; cases p
    simp only at h1 h2 h3 h4
    subst h1 h2 h3 h4
    rfl

/-- C104: an entry is translated to the suites exactly if the library reads its key; the text is then the one the suites define
for the key, and the rest of the entry is unchanged. -/
theorem C104_export_entry {E : Env} (Z : KeySizes E) (p q : Primary) :
    exportEntry E p = some q ↔ ∃ raw, KeyBytes E p raw ∧ SameEntry p q ∧ IsSuiteKey p.verificationType raw q.multibase := by
  unfold exportEntry KeyBytes
  cases hd : p.decodePubKey E with
  | error e => simp
  | ok k =>
    cases k with
    | edDSA k =>
      have ht := ((C15_eddsa p k).mp hd).1
      simp only [Option.some.injEq, Except.ok.injEq, PublicKeyDecoded.edDSA.injEq, reduceCtorEq, false_and, exists_false, or_false,
        exists_eq_left']
      rw [eq_comm, sameEntry_iff]
      constructor
      · rintro ⟨h1, h2⟩
        exact ⟨_, rfl, h1, [0xed, 0x01], by rw [ht]; rfl, Z.ed k, by rw [h2]; exact multibaseEncode58_spec _⟩
      · rintro ⟨_, rfl, h1, code, hc, -, hm⟩
        rw [ht] at hc
        obtain rfl : [0xed, 0x01] = code := Option.some.inj hc
        exact ⟨h1, hm.unique⟩
    | ecdh k =>
      have ht := ((C15_ecdh p k).mp hd).1
      simp only [Option.some.injEq, Except.ok.injEq, PublicKeyDecoded.ecdh.injEq, reduceCtorEq, false_and, exists_false, false_or,
        exists_eq_left']
      rw [eq_comm, sameEntry_iff]
      constructor
      · rintro ⟨h1, h2⟩
        exact ⟨_, rfl, h1, [0xec, 0x01], by rw [ht]; rfl, Z.dh k, by rw [h2]; exact multibaseEncode58_spec _⟩
      · rintro ⟨_, rfl, h1, code, hc, -, hm⟩
        rw [ht] at hc
        obtain rfl : [0xec, 0x01] = code := Option.some.inj hc
        exact ⟨h1, hm.unique⟩

theorem suiteKey_code {type : Str} {code : Bytes} : suiteCode type = some code ↔
    (type = VERIFICATION_TYPE_ED25519 ∧ code = [0xed, 0x01]) ∨ (type = VERIFICATION_TYPE_X25519 ∧ code = [0xec, 0x01]) := by
  have hne : VERIFICATION_TYPE_ED25519 ≠ VERIFICATION_TYPE_X25519 := by decide
  have e1 : "Ed25519VerificationKey2020".toList = VERIFICATION_TYPE_ED25519 := rfl
  have e2 : "X25519KeyAgreementKey2020".toList = VERIFICATION_TYPE_X25519 := rfl
  unfold suiteCode
  rw [e1, e2]
  by_cases h1 : type = VERIFICATION_TYPE_ED25519
  · rw [if_pos h1, h1]
    simp [hne, eq_comm]
  · rw [if_neg h1]
    by_cases h2 : type = VERIFICATION_TYPE_X25519
    · rw [if_pos h2, h2]
      simp [Ne.symm hne, eq_comm]
    · rw [if_neg h2]
      simp [h1, h2]

/-- C104: an entry is translated from the suites exactly if its text is the one they define, for its type, of some 32 bytes;
the text is then the library's text of these bytes. -/
theorem C104_import_entry {E : Env} (p q : Primary) :
    importEntry E p = some q ↔ ∃ raw, IsSuiteKey p.verificationType raw p.multibase ∧ SameEntry p q ∧ IsKeyText raw q.multibase := by
  unfold importEntry
  by_cases hz : p.multibase.head? ≠ some 'z'
  · rw [if_pos hz]
    simp only [reduceCtorEq, false_iff]
    rintro ⟨raw, ⟨code, -, -, hm⟩, -⟩
    apply hz
    rw [hm.unique]; rfl
  · rw [if_neg hz]
    rw [not_not] at hz
    cases hd : E.mbDecode p.multibase with
    | none =>
      simp only [reduceCtorEq, false_iff]
      rintro ⟨raw, ⟨code, -, -, hm⟩, -⟩
      rw [mbDecode_none] at hd
      exact hd _ _ (.base58 hm)
    | some x =>
      obtain ⟨base, bytes⟩ := x
      have hb : ∀ b, IsMultibase58 b p.multibase → b = bytes := by
        intro b hb
        have := (mbDecode_iff _ _ _ _).mpr (IsMultibase.base58 (E := E) hb)
        rw [hd] at this
        simp only [Option.some.injEq, Prod.mk.injEq] at this
        exact this.2.symm
      have hown : IsMultibase58 bytes p.multibase := by
        have hm := (mbDecode_iff _ _ _ _).mp hd
        exact multibase_z hm hz
      simp only
      by_cases hl : bytes.length ≠ 34
      · rw [if_pos hl]
        simp only [reduceCtorEq, false_iff]
        rintro ⟨raw, ⟨code, hc, hr, hm⟩, -⟩
        have := hb _ hm
        rcases suiteCode_cases hc with rfl | rfl <;> (rw [← this] at hl; simp [hr] at hl)
      · rw [if_neg hl]
        rw [not_not] at hl
        split
        · rename_i hc
          rw [Option.some.injEq, eq_comm, sameEntry_iff]
          constructor
          · rintro ⟨h1, h2⟩
            refine ⟨bytes.drop 2, ⟨bytes.take 2, suiteKey_code.mpr ?_, by simp [hl], by rw [List.take_append_drop]; exact hown⟩, h1, ?_⟩
            · exact hc
            · rw [h2]; exact keyText _
          · rintro ⟨raw, ⟨code, hcc, hr, hm⟩, h1, h2⟩
            refine ⟨h1, ?_⟩
            have e := hb _ hm
            have : bytes.drop 2 = raw := by
              rw [← e]
              rcases suiteCode_cases hcc with rfl | rfl <;> rfl
            rw [this, h2.unique]
        · rename_i hc
          simp only [reduceCtorEq, false_iff]
          rintro ⟨raw, ⟨code, hcc, hr, hm⟩, -⟩
          apply hc
          have e := hb _ hm
          rcases suiteKey_code.mp hcc with ⟨g1, rfl⟩ | ⟨g1, rfl⟩
          · exact .inl ⟨g1, by rw [← e]; rfl⟩
          · exact .inr ⟨g1, by rw [← e]; rfl⟩

/-! ### Documents -/

theorem mapM_iff (f : Primary → Option Primary) (l l' : List Primary) :
    l.mapM f = some l' ↔ List.Forall₂ (fun p q => f p = some q) l l' := by
  induction l generalizing l' with
  | nil =>
    rw [List.mapM_nil, List.forall₂_nil_left_iff]
    exact ⟨fun h => (Option.some.inj h).symm, fun h => by rw [h]; rfl⟩
  | cons p l ih =>
    rw [List.mapM_cons, List.forall₂_cons_left_iff]
    cases hp : f p with
    | none => simp
    | some q =>
      simp only [Option.bind_eq_bind, Option.bind_some, Option.pure_def, Option.bind_eq_some_iff, Option.some.injEq]
      constructor
      · rintro ⟨m, h1, h2⟩
        exact ⟨q, m, rfl, (ih m).mp h1, h2.symm⟩
      · rintro ⟨q', m, h1, h2, h3⟩
        exact ⟨m, (ih m).mpr h2, by rw [h3, h1]⟩

theorem translated_iff (f : Primary → Option Primary) (l l' : Option (List Primary)) :
    entries f l = some l' ↔ Option.Rel (List.Forall₂ fun p q => f p = some q) l l' := by
  cases l with
  | none =>
    constructor
    · intro h; obtain rfl : none = l' := Option.some.inj h; exact .none
    · intro h; cases h; rfl
  | some l =>
    show (l.mapM f).map some = some l' ↔ _
    rw [Option.map_eq_some_iff]
    constructor
    · rintro ⟨m, h1, rfl⟩
      exact .some ((mapM_iff f l m).mp h1)
    · intro h
      cases h with
      | some h => exact ⟨_, (mapM_iff f l _).mpr h, rfl⟩

theorem document_iff (f : Primary → Option Primary) (d d' : Doc) :
    document f d = some d' ↔ SameDoc (fun p q => f p = some q) d d' := by
  unfold document
  simp only [Option.bind_eq_bind, Option.bind_eq_some_iff, Option.some.injEq, translated_iff]
  constructor
  · rintro ⟨a, h1, b, h2, c, h3, e, h4, rfl⟩
    exact ⟨rfl, rfl, h1, h2, h3, h4⟩
  · rintro ⟨h1, h2, h3, h4, h5, h6⟩
    refine ⟨_, h3, _, h4, _, h5, _, h6, ?_⟩
    cases d'; cases d
    simp only at h1 h2
    subst h1 h2
    rfl

theorem SameDoc.congr {R S : Primary → Primary → Prop} (h : ∀ p q, R p q ↔ S p q) (d d' : Doc) : SameDoc R d d' ↔ SameDoc S d d' := by
  have : R = S := funext fun p => funext fun q => propext (h p q)
  rw [this]

/-- C104: a document is translated to the suites exactly if the library reads the keys of all its entries, and only their texts
change. -/
theorem C104_export {E : Env} (Z : KeySizes E) (d d' : Doc) : document (exportEntry E) d = some d' ↔
    SameDoc (fun p q => ∃ raw, KeyBytes E p raw ∧ SameEntry p q ∧ IsSuiteKey p.verificationType raw q.multibase) d d' := by
  rw [document_iff, SameDoc.congr (C104_export_entry Z)]

/-- C104: a document is translated from the suites exactly if all its entries have keys by the suites, and only their texts
change. -/
theorem C104_import {E : Env} (d d' : Doc) : document (importEntry E) d = some d' ↔
    SameDoc (fun p q => ∃ raw, IsSuiteKey p.verificationType raw p.multibase ∧ SameEntry p q ∧ IsKeyText raw q.multibase) d d' := by
  rw [document_iff, SameDoc.congr C104_import_entry]

/-- C104: what the library then reads is the key the suites say: the key of the bytes after the prefix. -/
theorem C104_import_key {E : Env} (p q : Primary) (raw : Bytes) (h : importEntry E p = some q)
    (hr : IsSuiteKey p.verificationType raw p.multibase) :
    (∀ k, q.decodePubKey E = .ok (.edDSA k) ↔ p.verificationType = "Ed25519VerificationKey2020".toList ∧ E.edPubOfBytes raw = some k) ∧
    ∀ k, q.decodePubKey E = .ok (.ecdh k) ↔ p.verificationType = "X25519KeyAgreementKey2020".toList ∧ E.dhPubOfBytes raw = some k := by
  obtain ⟨raw', hs, h1, h2⟩ := (C104_import_entry p q).mp h
  obtain ⟨code, c1, -, m1⟩ := hr
  obtain ⟨code', c2, -, m2⟩ := hs
  rw [c1] at c2; cases c2
  have e : raw' = raw := by
    have := multibaseEncode58_injective (m2.unique.symm.trans m1.unique)
    exact List.append_cancel_left this
  subst e
  have hh : HoldsHex E q.multibase raw' := isKeyText_holds h2
  constructor
  · intro k
    rw [C15_eddsa, h1.type]
    constructor
    · rintro ⟨g1, r, g2, g3⟩; rw [hh.unique g2]; exact ⟨g1, g3⟩
    · rintro ⟨g1, g2⟩; exact ⟨g1, _, hh, g2⟩
  · intro k
    rw [C15_ecdh, h1.type]
    constructor
    · rintro ⟨g1, r, g2, g3⟩; rw [hh.unique g2]; exact ⟨g1, g3⟩
    · rintro ⟨g1, g2⟩; exact ⟨g1, _, hh, g2⟩

theorem SameDoc.flip {R S : Primary → Primary → Prop} {d d' : Doc}
    (h : ∀ p ∈ allEntries d, ∀ q ∈ allEntries d', R p q → S q p) (hd : SameDoc R d d') : SameDoc S d' d := by
  have hl : ∀ {x y : List Primary}, List.Forall₂ R x y → (∀ p ∈ x, ∀ q ∈ y, R p q → S q p) → List.Forall₂ S y x := by
    intro x y hx
    induction hx with
    | nil => intro _; exact .nil
    | cons g _ ih => exact fun k => .cons (k _ (by simp) _ (by simp) g) (ih fun p hp q hq => k p (by simp [hp]) q (by simp [hq]))
  have ho : ∀ {x y : Option (List Primary)}, Option.Rel (List.Forall₂ R) x y → (∀ p ∈ x.getD [], ∀ q ∈ y.getD [], R p q → S q p) →
      Option.Rel (List.Forall₂ S) y x := by
    intro x y hx k
    cases hx with
    | none => exact .none
    | some g => exact .some (hl g k)
  unfold allEntries at h
  simp only [List.mem_append] at h
  exact ⟨hd.context.symm, hd.id.symm, ho hd.authentication fun p hp q hq => h p (by simp [hp]) q (by simp [hq]),
    ho hd.capInvoke fun p hp q hq => h p (by simp [hp]) q (by simp [hq]),
    ho hd.capDelegate fun p hp q hq => h p (by simp [hp]) q (by simp [hq]),
    ho hd.assertion fun p hp q hq => h p (by simp [hp]) q (by simp [hq])⟩

theorem SameDoc.exists {R : Primary → Primary → Prop} {d : Doc} (h : ∀ p ∈ allEntries d, ∃ q, R p q) : ∃ d', SameDoc R d d' := by
  have hl : ∀ x : List Primary, (∀ p ∈ x, ∃ q, R p q) → ∃ y, List.Forall₂ R x y := by
    intro x
    induction x with
    | nil => intro _; exact ⟨[], .nil⟩
    | cons p x ih =>
      intro g
      obtain ⟨q, hq⟩ := g p (by simp)
      obtain ⟨y, hy⟩ := ih fun p hp => g p (by simp [hp])
      exact ⟨q :: y, .cons hq hy⟩
  have ho : ∀ x : Option (List Primary), (∀ p ∈ x.getD [], ∃ q, R p q) → ∃ y, Option.Rel (List.Forall₂ R) x y := by
    intro x g
    cases x with
    | none => exact ⟨none, .none⟩
    | some x =>
      obtain ⟨y, hy⟩ := hl x g
      exact ⟨some y, .some hy⟩
  unfold allEntries at h
  simp only [List.mem_append] at h
  obtain ⟨a, ha⟩ := ho d.authentication fun p hp => h p (by simp [hp])
  obtain ⟨b, hb⟩ := ho d.capInvoke fun p hp => h p (by simp [hp])
  obtain ⟨c, hc⟩ := ho d.capDelegate fun p hp => h p (by simp [hp])
  obtain ⟨e, he⟩ := ho d.assertion fun p hp => h p (by simp [hp])
  exact ⟨⟨d.context, d.id, a, b, c, e⟩, rfl, rfl, ha, hb, hc, he⟩

theorem SameEntry.symm {p q : Primary} (h : SameEntry p q) : SameEntry q p := ⟨h.id.symm, h.controller.symm, h.type.symm⟩

theorem keyBytes_holds {E : Env} (Z : KeySizes E) {p : Primary} {raw : Bytes} (h : KeyBytes E p raw) : HoldsHex E p.multibase raw := by
  rcases h with ⟨k, hk, rfl⟩ | ⟨k, hk, rfl⟩
  · obtain ⟨_, r, h1, h2⟩ := (C15_eddsa p k).mp hk
    rw [Z.ed_bytes r k h2]; exact h1
  · obtain ⟨_, r, h1, h2⟩ := (C15_ecdh p k).mp hk
    rw [Z.dh_bytes r k h2]; exact h1

theorem keyBytes_of {E : Env} {p : Primary} {k : PublicKeyDecoded E} (h : p.decodePubKey E = .ok k) : ∃ raw, KeyBytes E p raw := by
  cases k with
  | edDSA k => exact ⟨_, .inl ⟨k, h, rfl⟩⟩
  | ecdh k => exact ⟨_, .inr ⟨k, h, rfl⟩⟩

/-- C104: a document in the library's spelling comes back when it is translated to the suites and from them. -/
theorem C104_there_and_back {E : Env} (Z : KeySizes E) (d d' : Doc) (hd : ∀ p ∈ allEntries d, ∃ raw, IsKeyText raw p.multibase)
    (h : document (exportEntry E) d = some d') : document (importEntry E) d' = some d := by
  rw [document_iff] at h ⊢
  refine SameDoc.flip (fun p hp q _ hq => ?_) h
  obtain ⟨raw, ht⟩ := hd p hp
  obtain ⟨raw', h1, h2, h3⟩ := (C104_export_entry Z p q).mp hq
  obtain rfl := (keyBytes_holds Z h1).unique (isKeyText_holds ht)
  exact (C104_import_entry q p).mpr ⟨raw', by rw [h2.type]; exact h3, SameEntry.symm h2, ht⟩

/-- C104: a document by the suites comes back when it is translated from them and to them, if the library reads its keys. -/
theorem C104_back_and_there {E : Env} (Z : KeySizes E) (d d' : Doc) (h : document (importEntry E) d = some d')
    (hd : ∀ p ∈ allEntries d', ∃ k, p.decodePubKey E = .ok k) : document (exportEntry E) d' = some d := by
  rw [document_iff] at h ⊢
  refine SameDoc.flip (fun p _ q hq hpq => ?_) h
  obtain ⟨raw, h1, h2, h3⟩ := (C104_import_entry p q).mp hpq
  obtain ⟨k, hk⟩ := hd q hq
  obtain ⟨raw', hr⟩ := keyBytes_of hk
  obtain rfl := (keyBytes_holds Z hr).unique (isKeyText_holds h3)
  exact (C104_export_entry Z q p).mpr ⟨raw', hr, SameEntry.symm h2, by rw [h2.type]; exact h1⟩

/-- The entries of a slot by the suites: absent if the slot was not built, else the two keys of its seeds. -/
def SuiteEntries (E : Env) (did idV idA : Str) : Option (MethodSeed E) → Option (List Primary) → Prop
  | none, x => x = none
  | some s, x => ∃ kv ka, x = some [⟨did ++ idV, did, "Ed25519VerificationKey2020".toList, kv⟩,
      ⟨did ++ idA, did, "X25519KeyAgreementKey2020".toList, ka⟩] ∧
    IsSuiteKey "Ed25519VerificationKey2020".toList (E.edPubBytes (E.edPub (E.edGenerate s.ed))) kv ∧
    IsSuiteKey "X25519KeyAgreementKey2020".toList (E.dhPubBytes (E.dhPub (E.dhGenerate s.dh))) ka

theorem slot_export {E : Env} (Z : KeySizes E) (K : E.EdLaws) (D : E.DhLaw) {did a b : Str} {o : Option (MethodSeed E)}
    {x : Option (List Primary)} (h : EntriesIs E did a b o x) :
    (∀ p ∈ x.getD [], ∃ raw, IsKeyText raw p.multibase) ∧ ∃ y, entries (exportEntry E) x = some y ∧ SuiteEntries E did a b o y := by
  cases o with
  | none =>
    obtain rfl : x = none := h
    exact ⟨by simp, none, rfl, rfl⟩
  | some s =>
    obtain ⟨l, rfl, ⟨kv, ka, rfl, h1, h2⟩⟩ := h
    refine ⟨?_, _, ?_, ⟨_, _, rfl, ⟨[0xed, 0x01], rfl, Z.ed _, multibaseEncode58_spec _⟩,
      ⟨[0xec, 0x01], rfl, Z.dh _, multibaseEncode58_spec _⟩⟩⟩
    · intro p hp
      rcases List.mem_pair.mp hp with rfl | rfl
      · exact ⟨_, h1⟩
      · exact ⟨_, h2⟩
    · rw [translated_iff]
      refine .some (.cons ?_ (.cons ?_ .nil))
      · unfold exportEntry
        rw [(C15_eddsa _ _).mpr ⟨rfl, _, isKeyText_holds h1, K.pub_bytes _⟩]
        rfl
      · unfold exportEntry
        rw [(C15_ecdh _ _).mpr ⟨rfl, _, isKeyText_holds h2, D _⟩]
        rfl

/-- C104: the document of an identity, whatever its history, is translated; its entries are, by the suites, the keys of the
slots, nothing else changes, and the document comes back. -/
theorem C104_written {E : Env} (Z : KeySizes E) (K : E.EdLaws) (D : E.DhLaw) (v : Str) (ops : List (IdOp E)) :
    ∃ d', document (exportEntry E) (idRun v ops).toDoc = some d' ∧
      d'.id = v ∧ d'.context = (idRun v ops).toDoc.context ∧ d'.capInvoke = none ∧ d'.capDelegate = none ∧
      SuiteEntries E v "#key-auth-verification".toList "#key-auth-aggrement".toList (firstAuth ops) d'.authentication ∧
      SuiteEntries E v "#key-assertion-verification".toList "#key-assertion-aggrement".toList (firstAssertion ops) d'.assertion ∧
      document (importEntry E) d' = some (idRun v ops).toDoc := by
  obtain ⟨h1, _, h3, h4, h5, h6, _⟩ := C12_document v ops
  obtain ⟨a1, y, a2, a3⟩ := slot_export Z K D h5
  obtain ⟨b1, z, b2, b3⟩ := slot_export Z K D h6
  have hd : document (exportEntry E) (idRun v ops).toDoc =
      some { (idRun v ops).toDoc with authentication := y, capInvoke := none, capDelegate := none, assertion := z } := by
    unfold document
    rw [a2, b2, h3, h4]
    rfl
  refine ⟨_, hd, h1, rfl, rfl, rfl, a3, b3, C104_there_and_back Z _ _ ?_ hd⟩
  intro p hp
  unfold allEntries at hp
  rw [h3, h4] at hp
  simp only [Option.getD_none, List.append_nil, List.mem_append] at hp
  rcases hp with hp | hp
  · exact a1 p hp
  · exact b1 p hp

/-- C104: an identity is made from a DID, its document is translated to the suites and written as JSON. Whoever reads the text
and translates it from the suites has a document that works as in C55: its keys verify what the owner signs after restoring
their account from the stored keys. -/
theorem C104_chain {E : Env} (Z : KeySizes E) (L : E.JcsLaws) (N : E.NumLaws) (K : E.EdLaws) (D : E.DhLaw) (P : E.PemLaw)
    (A : E.AeadLaw) (v : Str) (ops : List (IdOp E)) (r : PrivateKeysRandom) (pw : Str) (out : IdentityPrivateKeyPairs)
    (hout : (idRun v ops).buildPrivateKeys r pw = .ok out) :
    ∃ d' text got doc, document (exportEntry E) (idRun v ops).toDoc = some d' ∧ d'.toJson E = .ok text ∧
      fromSlice Doc.dec text.toBytes = some got ∧ document (importEntry E) got = some doc ∧ doc.id = v ∧
      (firstAuth ops ≠ none → SlotWorks E pw v doc.authentication out.authentication) ∧
      (firstAssertion ops ≠ none → SlotWorks E pw v doc.assertion out.assertion) := by
  obtain ⟨d', h1, -, -, -, -, -, -, h2⟩ := C104_written Z K D v ops
  obtain ⟨t, h3, h4⟩ := C18_json_roundtrip N d'
  obtain ⟨g1, _, _, _, g5, g6, _⟩ := C12_document v ops
  obtain ⟨-, k2, k3⟩ := C14_private_keys A v ops r pw out hout
  refine ⟨d', t, d', _, h1, h3, h4, h2, g1, ?_, ?_⟩
  · intro hs
    cases hf : firstAuth ops with
    | none => exact absurd hf hs
    | some s =>
      rw [hf] at g5 k2
      exact slot_works L N K D P g5 k2
  · intro hs
    cases hf : firstAssertion ops with
    | none => exact absurd hf hs
    | some s =>
      rw [hf] at g6 k3
      exact slot_works L N K D P g6 k3

/-! ### Restored keys -/

/-- C104: what the checked restore returns: the account the library restores, from a record whose costs are enough, if its
public key is the one in the entry. -/
theorem C104_restore {E : Env} (K : E.EdLaws) (enough : KdfParams → Bool) (e : Primary) (pw : Str) (p : PrivateKeyPairs) (a : Account E) :
    restoreKey E enough e pw p = some a ↔ enough p.verification.kdfParams = true ∧ Account.fromKeysecure E pw p.verification = .ok a ∧
      e.decodePubKey E = .ok (.edDSA a.pubkey) := by
  have inj : ∀ k k' : E.EdPub, E.edPubBytes k = E.edPubBytes k' → k = k' := by
    intro k k' h
    have := K.pub_bytes k
    rw [h, K.pub_bytes] at this
    exact (Option.some.inj this).symm
  unfold restoreKey
  cases enough p.verification.kdfParams with
  | false => simp
  | true =>
    cases Account.fromKeysecure E pw p.verification with
    | error m => simp
    | ok a' =>
      cases e.decodePubKey E with
      | error m => simp
      | ok k =>
        cases k with
        | ecdh k => simp
        | edDSA k =>
          simp only [if_true, true_and, Except.ok.injEq, PublicKeyDecoded.edDSA.injEq]
          constructor
          · intro h
            split at h
            · rename_i hb
              cases h
              exact ⟨rfl, inj _ _ hb.symm⟩
            · cases h
          · rintro ⟨rfl, rfl⟩
            rw [if_pos rfl]

/-- C104: so whoever made the record and whatever the password, what the restored account signs is accepted under the key in the
document. (Without the check it need not: C98.) -/
theorem C104_restore_signs {E : Env} (L : E.JcsLaws) (N : E.NumLaws) (K : E.EdLaws) (enough : KdfParams → Bool) (e : Primary) (pw : Str)
    (p : PrivateKeyPairs) (a : Account E) (h : restoreKey E enough e pw p = some a) :
    ∃ pub, e.decodePubKey E = .ok (.edDSA pub) ∧
    (∀ m, E.edVerify pub m (hexEncode (a.sign m)) = .ok true) ∧
    (∀ (v : VC E) opts, VCComplete v → v.proof = none → GoodOptions E opts → opts.proofPurpose ≠ .unknown →
      opts.proofValue = [] → Survives E v.credentialSubject.1 → v.credentialSubject.1.depth ≤ 126 →
      ∃ signed t, sign E (VC E) a.pair v opts = .ok signed ∧ signed.toJson = .ok t ∧
        verify E (VC E) pub (utf8 t.text) opts.proofPurpose = .ok ⟨true, some v⟩) ∧
    (∀ (v : VP E) opts, VPComplete v → v.proof = none → GoodOptions E opts → opts.proofPurpose ≠ .unknown →
      opts.proofValue = [] →
      (∀ c ∈ v.verifiableCredential, Survives E c.credentialSubject.1 ∧ c.credentialSubject.1.depth ≤ 124) →
      ∃ signed t, sign E (VP E) a.pair v opts = .ok signed ∧ signed.toJson = .ok t ∧
        verify E (VP E) pub (utf8 t.text) opts.proofPurpose = .ok ⟨true, some v⟩) := by
  obtain ⟨-, -, hk⟩ := (C104_restore K enough e pw p a).mp h
  refine ⟨_, hk, fun m => K.verify_sign _ _, ?_, ?_⟩
  · intro v opts g1 g2 g3 g4 g5 g6 g7
    obtain ⟨signed, k1, _, k2⟩ := C31_vc L N K a.pair v opts g1 g2 g3 g4 g5
    obtain ⟨t, k3, k4⟩ := k2 g6 g7
    exact ⟨signed, t, k1, k3, k4⟩
  · intro v opts g1 g2 g3 g4 g5 g6
    obtain ⟨signed, k1, _, k2⟩ := C31_vp L N K a.pair v opts g1 g2 g3 g4 g5
    obtain ⟨t, k3, k4⟩ := k2 g6
    exact ⟨signed, t, k1, k3, k4⟩

/-- C104: two records, two passwords, one entry: the restored accounts have the same public key. -/
theorem C104_restore_one {E : Env} (K : E.EdLaws) (enough enough' : KdfParams → Bool) (e : Primary) (pw pw' : Str)
    (p p' : PrivateKeyPairs) (a a' : Account E) (h : restoreKey E enough e pw p = some a) (h' : restoreKey E enough' e pw' p' = some a') :
    a.pubkey = a'.pubkey := by
  have h1 := ((C104_restore K enough e pw p a).mp h).2.2
  have h2 := ((C104_restore K enough' e pw' p' a').mp h').2.2
  rw [h1] at h2
  simpa using h2

/-- The records of an export are made at the default costs. -/
theorem export_costs {E : Env} (v : Str) (ops : List (IdOp E)) (r : PrivateKeysRandom) (pw : Str) (out : IdentityPrivateKeyPairs)
    (h : (idRun v ops).buildPrivateKeys r pw = .ok out) (p : PrivateKeyPairs) (hp : out.authentication = some p ∨ out.assertion = some p) :
    p.verification.kdfParams = E.kdfDefault ∧ p.aggrement.kdfParams = E.kdfDefault := by
  have slot : ∀ (rv ra : ExportRandom) x y, Identity.buildSlot (E := E) rv ra pw x = .ok (some y) →
      y.verification.kdfParams = E.kdfDefault ∧ y.aggrement.kdfParams = E.kdfDefault := by
    intro rv ra x y h
    cases x with
    | none => cases h
    | some m =>
      simp only [Identity.buildSlot] at h
      cases hv : m.verificationPairs.buildKeysecure rv pw with
      | error e => rw [hv] at h; cases h
      | ok kv =>
        rw [hv] at h
        simp only at h
        cases ha : m.agreementPairs.buildKeysecure ra pw with
        | error e => rw [ha] at h; cases h
        | ok ka =>
          rw [ha] at h; cases h
          obtain ⟨_, _, i1⟩ := ((C67_verification_build rv _ pw).1 kv).mp hv
          obtain ⟨_, _, i2⟩ := ((C67_agreement_build ra _ pw).1 ka).mp ha
          exact ⟨i1.params, i2.params⟩
  unfold Identity.buildPrivateKeys at h
  cases ha : Identity.buildSlot r.authVerification r.authAgreement pw (idRun v ops).authentication with
  | error e => rw [ha] at h; cases h
  | ok a =>
    rw [ha] at h
    simp only at h
    cases hb : Identity.buildSlot r.assertionVerification r.assertionAgreement pw (idRun v ops).assertion with
    | error e => rw [hb] at h; cases h
    | ok b =>
      rw [hb] at h; cases h
      rcases hp with hp | hp
      · obtain rfl : a = some p := hp
        exact slot _ _ _ _ ha
      · obtain rfl : b = some p := hp
        exact slot _ _ _ _ hb

/-- C104: the keys of an export are restored against the document of the identity, if the default costs are enough. -/
theorem C104_restore_honest {E : Env} (K : E.EdLaws) (D : E.DhLaw) (P : E.PemLaw) (A : E.AeadLaw) (enough : KdfParams → Bool)
    (he : enough E.kdfDefault = true) (v : Str) (ops : List (IdOp E)) (r : PrivateKeysRandom) (pw : Str) (out : IdentityPrivateKeyPairs)
    (h : (idRun v ops).buildPrivateKeys r pw = .ok out) (p : PrivateKeyPairs) (l : List Primary)
    (hs : SameSlot out (idRun v ops).toDoc p l) :
    ∃ e1 e2 a, l = [e1, e2] ∧ restoreKey E enough e1 pw p = some a := by
  obtain ⟨-, h2, h3⟩ := C14_published K D P A v ops r pw out h
  have hc := (export_costs v ops r pw out h p (by rcases hs with ⟨h1, -⟩ | ⟨h1, -⟩ <;> simp [h1])).1
  have slot : ∀ x y, SlotPublished E pw x y → x = some p → y = some l → ∃ e1 e2 a, l = [e1, e2] ∧ restoreKey E enough e1 pw p = some a := by
    rintro x y (⟨g1, -⟩ | ⟨p', e1, e2, pem, hex, kp, dh, g1, g2, g3, g4, g5, -⟩) hx hy
    · rw [g1] at hx; cases hx
    · rw [g1] at hx; cases hx
      rw [g2] at hy; cases hy
      refine ⟨e1, e2, ⟨kp⟩, rfl, (C104_restore K enough e1 pw p _).mpr ⟨by rw [hc]; exact he, ?_, g5⟩⟩
      have hd : p.verification.decrypt E pw = .ok (utf8 pem) := by
        unfold PrivateKeyPairs.decryptVerification at g3
        cases hx : p.verification.decrypt E pw with
        | error e => rw [hx] at g3; cases g3
        | ok x => rw [hx] at g3; cases g3; rfl
      rw [fromKeysecure_of_decrypt hd]
      exact (C02_pem_accept pem _ g4).1
  rcases hs with ⟨g1, g2⟩ | ⟨g1, g2⟩
  · exact slot _ _ h2 g1 g2
  · exact slot _ _ h3 g1 g2

/-- C104: what the checked restore of a secret returns. -/
theorem C104_secret {E : Env} (enough : KdfParams → Bool) (e : Primary) (pw : Str) (p : PrivateKeyPairs) (s : Bytes) :
    restoreSecret E enough e pw p = some s ↔ enough p.aggrement.kdfParams = true ∧ s.length = 32 ∧
      (∃ hex, p.decryptAgreement E pw = .ok (utf8 hex) ∧ IsHexAny s hex) ∧
      ∃ k, e.decodePubKey E = .ok (.ecdh k) ∧ E.dhPubBytes k = X25519.publicKey s := by
  unfold restoreSecret
  cases enough p.aggrement.kdfParams with
  | false => simp
  | true =>
    cases p.decryptAgreement E pw with
    | error m => simp
    | ok plain =>
      cases e.decodePubKey E with
      | error m => simp
      | ok k =>
        cases k with
        | edDSA k => simp
        | ecdh k =>
          simp only [if_true, true_and, Except.ok.injEq, PublicKeyDecoded.ecdh.injEq, exists_eq_left']
          have hx : ∀ s, (utf8Decode plain).bind hexDecode = some s ↔ ∃ hex, plain = utf8 hex ∧ IsHexAny s hex := by
            intro s
            rw [Option.bind_eq_some_iff]
            simp only [utf8Decode_iff, hexDecode_iff]
          cases hb : (utf8Decode plain).bind hexDecode with
          | none =>
            simp only [reduceCtorEq, false_iff]
            rintro ⟨-, h, -⟩
            rw [← hx, hb] at h; cases h
          | some s' =>
            simp only
            rw [← hx, hb]
            constructor
            · intro h
              split at h
              · rename_i g
                cases h
                exact ⟨g.1, rfl, g.2.symm⟩
              · cases h
            · rintro ⟨g1, g2, g3⟩
              cases g2
              rw [if_pos ⟨g1, g3.symm⟩]

/-- C104: a secret restored against the entry of a key pair, from whichever record and with whichever password, agrees with
everybody on the same value as the secret of the pair: from every key on the curve, in particular from all keys the library
publishes. -/
theorem C104_secret_same {E : Env} (X : X25519Keys E) (enough : KdfParams → Bool) (e : Primary) (pw : Str) (p : PrivateKeyPairs)
    (s : Bytes) (h : restoreSecret E enough e pw p = some s) (k : E.DhKP) (hk : e.decodePubKey E = .ok (.ecdh (E.dhPub k))) :
    (∀ b, OnCurve b → X25519.x25519 s b = X25519.x25519 (E.dhSecret k) b) ∧
    ∀ k' : E.DhKP, X25519.x25519 s (E.dhPubBytes (E.dhPub k')) = X25519.x25519 (E.dhSecret k) (E.dhPubBytes (E.dhPub k')) := by
  obtain ⟨-, -, -, k0, h1, h2⟩ := (C104_secret enough e pw p s).mp h
  rw [hk] at h1
  cases h1
  have key : ∀ b, OnCurve b → X25519.x25519 s b = X25519.x25519 (E.dhSecret k) b := by
    intro b hb
    by_cases hs : IsSmall b
    · rw [(C94_zero s b).mpr hs, (C94_zero _ b).mpr hs]
    · rw [(C94_shared s (E.dhSecret k) b hs _ _ (X25519.isScalar s) (X25519.isScalar _)).1 hb]
      have := (C85_scalars X k s _ _ (X25519.isScalar _) (X25519.isScalar s)).mp h2
      have hq : order25519 = Ed25519.q := by decide +kernel
      have hl := X25519.scalar_lt (E.dhSecret k)
      have : 2 ^ 255 ≤ 8 * Ed25519.q := by decide +kernel
      omega
  exact ⟨key, fun k' => key _ (C94_own X k').1⟩

/-- C104: the secrets of an export are restored against the document of the identity. -/
theorem C104_secret_honest {E : Env} (X : X25519Keys E) (A : E.AeadLaw) (enough : KdfParams → Bool) (he : enough E.kdfDefault = true)
    (v : Str) (ops : List (IdOp E)) (r : PrivateKeysRandom) (pw : Str) (out : IdentityPrivateKeyPairs)
    (h : (idRun v ops).buildPrivateKeys r pw = .ok out) (p : PrivateKeyPairs) (l : List Primary)
    (hs : SameSlot out (idRun v ops).toDoc p l) : ∃ e ∈ l, ∃ s, restoreSecret E enough e pw p = some s := by
  have hor : out.authentication = some p ∨ out.assertion = some p := by rcases hs with ⟨h1, -⟩ | ⟨h1, -⟩ <;> simp [h1]
  have hc := (export_costs v ops r pw out h p hor).2
  obtain ⟨-, h2⟩ := restored_slot A h hor
  obtain ⟨e, k, hex, g1, g2, g3, g4, g5⟩ := h2 l hs
  have Ld : E.DhLaw := (C81_laws (seed := fun _ => [])).2 X
  exact ⟨e, g1, E.dhSecret k, (C104_secret enough e pw p _).mpr ⟨by rw [hc]; exact he, X.length k, ⟨hex, g4, hexAny_of g5⟩, E.dhPub k,
    (C15_ecdh e _).mpr ⟨(g2 e g1).mpr rfl, _, isKeyText_holds g3, Ld _⟩, X.pub k⟩⟩

/-- C104: the checked agreement gives the value of X25519 for every key but those from which everybody computes zero, and never
zero. Keys published by the library are never refused. -/
theorem C104_agree {E : Env} (X : X25519Keys E) (s : Bytes) (e : Primary) :
    (∀ z, agree E s e = some z ↔ ∃ k, e.decodePubKey E = .ok (.ecdh k) ∧ ¬ IsSmall (E.dhPubBytes k) ∧ z = X25519.x25519 s (E.dhPubBytes k)) ∧
    (∀ z, agree E s e = some z → z ≠ List.replicate 32 0) ∧
    ∀ k : E.DhKP, e.decodePubKey E = .ok (.ecdh (E.dhPub k)) → agree E s e ≠ none := by
  have key : ∀ z, agree E s e = some z ↔ ∃ k, e.decodePubKey E = .ok (.ecdh k) ∧ ¬ IsSmall (E.dhPubBytes k) ∧
      z = X25519.x25519 s (E.dhPubBytes k) := by
    intro z
    unfold agree
    cases e.decodePubKey E with
    | error m => simp
    | ok k =>
      cases k with
      | edDSA k => simp
      | ecdh k =>
        simp only [Except.ok.injEq, PublicKeyDecoded.ecdh.injEq, exists_eq_left', ← C94_zero s]
        split
        · rename_i h; simp [h]
        · rename_i h
          simp only [Option.some.injEq, h, not_false_eq_true, true_and]
          exact eq_comm
  refine ⟨key, ?_, ?_⟩
  · intro z hz
    obtain ⟨k, -, h1, rfl⟩ := (key z).mp hz
    rwa [Ne, C94_zero]
  · intro k hk hn
    have := (key _).mpr ⟨_, hk, (C94_own X k).2.2, rfl⟩
    rw [hn] at this
    cases this

/-! ### Cases -/

theorem standard_sizes : KeySizes standard where
  ed k := standard_lengths.1 _ _ ((C79_laws standard_signatures).pub_bytes k)
  dh k := standard_lengths.2 _ _ ((C81_laws (seed := fun _ => [])).2 standard_agreement k)
  ed_bytes := standard_signatures.bytes
  dh_bytes := standard_agreement.bytes

/-- `C104_export`, `C104_written`, `C104_there_and_back`: the document of a history with both slots, translated and back. -/
example : ∃ d', document (exportEntry standard) (idRun "did:x".toList standardOps).toDoc = some d' ∧
    d' ≠ (idRun "did:x".toList standardOps).toDoc ∧ (allEntries d').length = 4 ∧
    document (importEntry standard) d' = some (idRun "did:x".toList standardOps).toDoc := by
  obtain ⟨d', h1, -, -, h2, h3, h4, h5, h6⟩ := C104_written standard_sizes (C79_laws standard_signatures)
    ((C81_laws (seed := fun _ => [])).2 standard_agreement) "did:x".toList standardOps
  obtain ⟨kv, ka, e1, s1, -⟩ := h4
  obtain ⟨kv', ka', e2, -⟩ := h5
  refine ⟨d', h1, ?_, ?_, h6⟩
  · intro e
    have := (C88_written (E := standard) "did:x".toList standardOps ⟨"did:x".toList ++ "#key-auth-verification".toList, "did:x".toList,
      "Ed25519VerificationKey2020".toList, kv⟩ (by rw [← e, e1]; simp)).2
    exact this _ _ s1
  · unfold allEntries
    rw [e1, e2, h2, h3]
    rfl

/-- `C104_import`, `C104_import_key`, `C104_back_and_there`: the key of RFC 8032, section 7.1, test 2, as other implementations
write it. -/
example : ∃ q k, importEntry standard ⟨"did:x#k".toList, "did:x".toList, "Ed25519VerificationKey2020".toList,
      multibaseEncode58 ([0xed, 0x01] ++ Ed25519.publicKey sampleKey.1)⟩ = some q ∧
    q.decodePubKey standard = .ok (.edDSA k) ∧ standard.edPubBytes k = Ed25519.publicKey sampleKey.1 := by
  have hp : standard.edPubBytes (standard.edPub sampleKey) = Ed25519.publicKey sampleKey.1 := standard_signatures.pub sampleKey
  have hs : IsSuiteKey "Ed25519VerificationKey2020".toList (Ed25519.publicKey sampleKey.1)
      (multibaseEncode58 ([0xed, 0x01] ++ Ed25519.publicKey sampleKey.1)) :=
    ⟨[0xed, 0x01], rfl, by rw [← hp]; exact standard_sizes.ed _, multibaseEncode58_spec _⟩
  generalize Ed25519.publicKey sampleKey.1 = raw at hp hs ⊢
  obtain ⟨q, hq⟩ : ∃ q, importEntry standard ⟨"did:x#k".toList, "did:x".toList, "Ed25519VerificationKey2020".toList,
      multibaseEncode58 ([0xed, 0x01] ++ raw)⟩ = some q :=
    ⟨⟨"did:x#k".toList, "did:x".toList, "Ed25519VerificationKey2020".toList, multibaseEncode58 (utf8Encode (hexEncode raw))⟩,
      (C104_import_entry _ _).mpr ⟨raw, hs, ⟨rfl, rfl, rfl⟩, keyText raw⟩⟩
  refine ⟨q, standard.edPub sampleKey, hq, ((C104_import_key _ q _ hq hs).1 _).mpr ⟨rfl, ?_⟩, hp⟩
  rw [← hp]
  exact (C79_laws standard_signatures).pub_bytes _

/-- Entries in other bases, of other lengths, or with the prefix of the other suite are not translated. -/
example : importEntry Toy.env ⟨[], [], "Ed25519VerificationKey2020".toList, "f00".toList⟩ = none ∧
    importEntry Toy.env ⟨[], [], "Ed25519VerificationKey2020".toList, multibaseEncode58 (0xed :: 0x01 :: List.replicate 31 0)⟩ = none ∧
    importEntry Toy.env ⟨[], [], "X25519KeyAgreementKey2020".toList, multibaseEncode58 (0xed :: 0x01 :: List.replicate 32 0)⟩ = none := by
  decide +kernel

/-- `C104_chain`: both slots of the history in the environment of the standards. -/
example : ∃ out, (idRun "did:x".toList standardOps).buildPrivateKeys ⟨toyRandom, toyRandom, toyRandom, toyRandom⟩ "pw".toList = .ok out ∧
    firstAuth standardOps ≠ none ∧ firstAssertion standardOps ≠ none := by
  obtain ⟨out, h⟩ := standard_exports "did:x".toList standardOps
  exact ⟨out, h, nofun, nofun⟩

/-- `C104_restore`, `C104_restore_honest`: a record is restored against its own entry; not against the entry of another key, and
not if the costs are not enough. -/
example : ∃ ks t t', (Verification.Key.new Toy.env (7 : UInt8)).generate.buildKeysecure toyRandom "pw".toList = .ok ks ∧
    t = (Verification.Key.new Toy.env (7 : UInt8)).generate.pubKey ∧ t' = (Verification.Key.new Toy.env (8 : UInt8)).generate.pubKey ∧
    (∃ a, restoreKey Toy.env (fun _ => true) ⟨[], [], "Ed25519VerificationKey2020".toList, t⟩ "pw".toList ⟨ks, ks⟩ = some a) ∧
    restoreKey Toy.env (fun _ => true) ⟨[], [], "Ed25519VerificationKey2020".toList, t'⟩ "pw".toList ⟨ks, ks⟩ = none ∧
    restoreKey Toy.env (fun _ => false) ⟨[], [], "Ed25519VerificationKey2020".toList, t⟩ "pw".toList ⟨ks, ks⟩ = none :=
  ⟨_, _, _, rfl, rfl, rfl, ⟨_, rfl⟩, rfl, rfl⟩

/-- `C104_secret`, `C104_secret_same`, `C104_agree`: Alice restores her secret against her document and agrees with Bob. -/
example : ∃ out p l e s, (idRun "did:alice".toList aliceOps).buildPrivateKeys ⟨toyRandom, toyRandom, toyRandom, toyRandom⟩ "pw".toList = .ok out ∧
    SameSlot out (idRun "did:alice".toList aliceOps).toDoc p l ∧ e ∈ l ∧
    restoreSecret standard (fun _ => true) e "pw".toList p = some s ∧ s = aliceSecret := by
  obtain ⟨out, h⟩ := standard_exports "did:alice".toList aliceOps
  have A : standard.AeadLaw := (C78_laws standard_standard.actual).2
  obtain ⟨e, p, l, hex, hs, he, ht, hd, hx⟩ := standard_restored _ _ out h _ (.inl rfl)
  have hor : out.authentication = some p ∨ out.assertion = some p := by rcases hs with ⟨h1, -⟩ | ⟨h1, -⟩ <;> simp [h1]
  obtain ⟨e', he', s, hs'⟩ := C104_secret_honest standard_agreement A (fun _ => true) rfl _ _ _ _ out h p l hs
  refine ⟨out, p, l, e', s, h, hs, he', hs', ?_⟩
  obtain ⟨-, -, ⟨hex', g1, g2⟩, -⟩ := (C104_secret _ _ _ _ _).mp hs'
  rw [hd] at g1
  have : hex = hex' := by
    rw [utf8_eq, utf8_eq] at g1
    exact utf8Encode_injective (Except.ok.inj g1)
  subst this
  have := hexAny_of hx
  rw [← hexDecode_iff] at this g2
  rw [g2] at this
  exact Option.some.inj this

/-- A key from which everybody computes zero is refused. -/
example : agree standard aliceSecret ⟨[], [], "X25519KeyAgreementKey2020".toList,
    multibaseEncode58 (utf8Encode (hexEncode (List.replicate 32 0)))⟩ = none := by
  cases h : agree standard aliceSecret ⟨[], [], "X25519KeyAgreementKey2020".toList,
    multibaseEncode58 (utf8Encode (hexEncode (List.replicate 32 0)))⟩ with
  | none => rfl
  | some z =>
    obtain ⟨k, hk, hs, -⟩ := ((C104_agree standard_agreement aliceSecret _).1 z).mp h
    exfalso
    apply hs
    obtain ⟨-, raw, h1, h2⟩ := (C15_ecdh _ _).mp hk
    have hr : raw = List.replicate 32 0 := h1.unique (isKeyText_holds (keyText _))
    rw [standard_agreement.bytes raw k h2, hr, ← C94_zero aliceSecret]
    decide +kernel

end Verif.Props
