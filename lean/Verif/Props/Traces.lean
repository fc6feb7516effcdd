import Verif.Props.Forgery
import Verif.Props.Chain

/-
C69: any number of parties over time, with the DID URI as the only trusted thing a verifier starts from.

Parties make keys (core/src/identity/mod.rs), sign with them, and publish URIs that carry the hashlink of their current
document (core/src/did/mod.rs, core/src/hashlink.rs). A verifier takes a URI, receives a document and a credential from
anyone, checks the document against the hashlink, takes the key out of it and calls `verify_proof`. Everything the
verifier receives is arbitrary; events of all parties interleave in any order.
-/

namespace Verif.Props
open Verif Spec Hashlink

/-! ### C69 -/

/-- The two slots of an identity. -/
inductive Slot where
  | auth
  | assertion

/-- Randomness of the call that filled the slot. -/
def Slot.first {E : Env} : Slot → List (IdOp E) → Option (MethodSeed E)
  | .auth => firstAuth
  | .assertion => firstAssertion

/-- The entries of the slot in a document. -/
def Slot.entries : Slot → Doc → Option (List Primary)
  | .auth, d => d.authentication
  | .assertion, d => d.assertion

/-- What happens, in order. -/
inductive Event (E : Env) (J : Type) where
  /-- party `j` calls `build_auth_method` or `build_assertion_method` -/
  | build (j : J) (op : IdOp E)
  /-- party `j` uses the private key in a slot -/
  | use (j : J) (slot : Slot) (u : KeyUse E)
  /-- party `j` gives out a URI for its document -/
  | publish (j : J) (address : Option Str) (uri : Str)
  /-- someone checks received document bytes and signed bytes, starting from a URI -/
  | check (uri : Str) (doc : Bytes) (slot : Slot) (bs : Bytes) (purpose : ProofPurpose)

/-- The calls of a party in a trace. -/
def opsOf {E : Env} {J : Type} [DecidableEq J] (j : J) (tr : List (Event E J)) : List (IdOp E) :=
  tr.filterMap fun
    | .build i op => if i = j then some op else none
    | _ => none

/-- The key a party has in a slot after the first `n` events. -/
def keyAt {E : Env} {J : Type} [DecidableEq J] (tr : List (Event E J)) (n : Nat) (j : J) (slot : Slot) :
    Option (MethodSeed E) := slot.first (opsOf j (tr.take n))

/-- `uri` is the URI of `d` with the hashlink of the document after the calls. -/
def PublishedUri {E : Env} (d : DID E) (ops : List (IdOp E)) (address : Option Str) (uri : Str) : Prop :=
  ∃ i link, d.identity = .ok i ∧ generateFromJson E ((ops.foldl IdOp.apply i).toDoc.toJson E) = .ok link ∧
    d.buildUri (some ⟨address, some link⟩) = .ok uri

/-- Honest publication: at every `publish` event, the URI is the one the library makes then. -/
def Honest {E : Env} {J : Type} [DecidableEq J] (did : J → DID E) (tr : List (Event E J)) : Prop :=
  ∀ (n : Nat) j address uri, tr[n]? = some (.publish j address uri) →
    Clean address ∧ PublishedUri (did j) (opsOf j (tr.take n)) address uri

/-- The verifier's way from a URI and received bytes to a public key. -/
def Resolves (E : Env) (uri : Str) (docBytes : Bytes) (slot : Slot) (pub : E.EdPub) : Prop :=
  ∃ did params link doc entry rest, DID.parseUri uri = some (.ok (did, params)) ∧ params.hl = some link ∧
    fromSlice Doc.dec docBytes = some doc ∧ verifyFromJson E (doc.toJson E) link = .ok () ∧
    slot.entries doc = some (entry :: rest) ∧ entry.decodePubKey E = .ok (.edDSA pub)

/-- The document of the party at that time and the received one have different texts with the same BLAKE3 hash. -/
def LinkCollides {E : Env} {J : Type} [DecidableEq J] (did : J → DID E) (tr : List (Event E J)) (n : Nat) (j : J)
    (docBytes : Bytes) : Prop :=
  ∃ i t doc t', (did j).identity = .ok i ∧ ((opsOf j (tr.take n)).foldl IdOp.apply i).toDoc.toJson E = .ok t ∧
    fromSlice Doc.dec docBytes = some doc ∧ doc.toJson E = .ok t' ∧
    utf8 t.text ≠ utf8 t'.text ∧ E.blake3 (utf8 t.text) = E.blake3 (utf8 t'.text)

theorem identity_new {E : Env} {d : DID E} {i : Identity E} (hi : d.identity = .ok i) : i = Identity.new E i.value := by
  obtain ⟨j, _, _, hj, _, h1, h2⟩ := identity_isDid d
  rw [hi] at hj
  cases hj
  obtain ⟨a, b, c⟩ := i
  simp only at h1 h2
  subst h1 h2
  rfl

/-- C69: the key a verifier gets from a published URI is the one the party had in the slot at the time of publication,
whatever document was received; or BLAKE3 collides. -/
theorem C69_resolve {E : Env} {J : Type} [DecidableEq J] (H : E.HashLaws) (N : E.NumLaws) (K : E.EdLaws) (did : J → DID E)
    (tr : List (Event E J)) (hh : Honest did tr) (i : Nat) (j : J) (address : Option Str) (uri : Str)
    (hi : tr[i]? = some (.publish j address uri)) (docBytes : Bytes) (slot : Slot) (pub : E.EdPub)
    (hr : Resolves E uri docBytes slot pub) :
    (∃ s, keyAt tr i j slot = some s ∧ pub = E.edPub (E.edGenerate s.ed)) ∨ LinkCollides did tr i j docBytes := by
  obtain ⟨ha, x, link, hx, hl, hu⟩ := hh i j address uri hi
  obtain ⟨d, params, link', doc, entry, rest, p1, p2, p3, p4, p5, p6⟩ := hr
  obtain ⟨link0, uri0, q1, q2, q3, _, q5⟩ := C56_document H N (did j) x hx
    ((opsOf j (tr.take i)).foldl IdOp.apply x).toDoc address ha
  rw [hl] at q1; cases q1
  rw [hu] at q2; cases q2
  rw [p1] at q3; cases q3
  cases p2
  rcases q5 doc p4 with rfl | ⟨t, t', r1, r2, r3, r4⟩
  swap
  · exact .inr ⟨x, t, doc, t', hx, r1, p3, r2, r3, r4⟩
  left
  have hrun : (opsOf j (tr.take i)).foldl IdOp.apply x = idRun x.value (opsOf j (tr.take i)) := by
    unfold idRun
    rw [← identity_new hx]
  rw [hrun] at p5
  obtain ⟨_, _, _, _, e5, e6, _⟩ := C12_document x.value (opsOf j (tr.take i))
  have key : ∀ {s : Option (MethodSeed E)} {l : Option (List Primary)} {a b : Str}, EntriesIs E x.value a b s l →
      l = some (entry :: rest) → ∃ s', s = some s' ∧ pub = E.edPub (E.edGenerate s'.ed) := by
    intro s l a b h hl
    cases s with
    | none => rw [show l = none from h] at hl; cases hl
    | some s =>
      obtain ⟨l', e, ⟨kv, ka, el, k1, _⟩⟩ := h
      rw [e, el] at hl
      cases hl
      have := (C15_eddsa (E := E) ⟨x.value ++ a, x.value, "Ed25519VerificationKey2020".toList, kv⟩
        (E.edPub (E.edGenerate s.ed))).mpr ⟨rfl, _, isKeyText_holds k1, K.pub_bytes _⟩
      rw [this] at p6
      cases p6
      exact ⟨s, rfl, rfl⟩
  cases slot with
  | auth => exact key e5 p5
  | assertion => exact key e6 p5

/-- Use `u` of a key with public key `pub`, before the `n`-th event. -/
def UsedBefore {E : Env} {J : Type} [DecidableEq J] (tr : List (Event E J)) (n : Nat) (pub : E.EdPub) (k : Nat) (j : J) (slot : Slot)
    (s : MethodSeed E) (u : KeyUse E) : Prop :=
  k < n ∧ tr[k]? = some (.use j slot u) ∧ keyAt tr k j slot = some s ∧ E.edPub (E.edGenerate s.ed) = pub

/-- A signature on `m` verifies although no key with this public key was used on `m` before. -/
def Forged {E : Env} {J : Type} [DecidableEq J] (tr : List (Event E J)) (n : Nat) (pub : E.EdPub) (m : Bytes) (text : Str) : Prop :=
  Accepts E pub m text ∧ ∀ k j slot s u, UsedBefore tr n pub k j slot s u → ¬ u.Signs (E.edGenerate s.ed) m

theorem accepted_accepts_vc {E : Env} (L : E.JcsLaws) {pub : E.EdPub} {bs : Bytes} {purpose : ProofPurpose} {w : VC E}
    {q : Proof} (ha : AcceptedVC pub bs purpose w) (hq : w.proof = some q) :
    Accepts E pub (message E (optionBytes E (unvalued q)) (vcBytes (unsignedVC w))) q.proofValue := by
  obtain ⟨hw, r, hr, hok⟩ := ha
  obtain ⟨w', q', h1, h2, _, _, _, _, h4, _⟩ := (C33_vc L pub bs purpose r).mp ⟨hr, hok⟩
  rw [hw] at h1; cases h1
  rw [hq] at h2; cases h2
  exact h4

theorem accepted_accepts_vp {E : Env} (L : E.JcsLaws) {pub : E.EdPub} {bs : Bytes} {purpose : ProofPurpose} {w : VP E}
    {q : Proof} (ha : AcceptedVP pub bs purpose w) (hq : w.proof = some q) :
    Accepts E pub (message E (optionBytes E (unvalued q)) (vpBytes (unsignedVP w))) q.proofValue := by
  obtain ⟨hw, r, hr, hok⟩ := ha
  obtain ⟨w', q', h1, h2, _, _, _, _, h4, _⟩ := (C33_vp L pub bs purpose r).mp ⟨hr, hok⟩
  rw [hw] at h1; cases h1
  rw [hq] at h2; cases h2
  exact h4

/-- C69 (credentials): in every trace, a credential accepted at event `n` from a URI published before was signed before
with a key of the public key the publisher had in the slot; or such a key signed just this message as raw bytes; or the
signature is a forgery; or SHA-256 or BLAKE3 collide on explicit inputs. -/
theorem C69_vc {E : Env} {J : Type} [DecidableEq J] (H : E.HashLaws) (L : E.JcsLaws) (N : E.NumLaws) (K : E.EdLaws) (did : J → DID E)
    (tr : List (Event E J)) (hh : Honest did tr) (i n : Nat) (j : J) (address : Option Str) (uri : Str)
    (hi : tr[i]? = some (.publish j address uri)) (docBytes : Bytes) (slot : Slot) (bs : Bytes) (purpose : ProofPurpose)
    (_hn : tr[n]? = some (.check uri docBytes slot bs purpose)) (pub : E.EdPub) (hr : Resolves E uri docBytes slot pub)
    (w : VC E) (q : Proof) (ha : AcceptedVC pub bs purpose w) (hq : w.proof = some q) :
    LinkCollides did tr i j docBytes ∨ (∃ s, keyAt tr i j slot = some s ∧ pub = E.edPub (E.edGenerate s.ed)) ∧
      ((∃ k j' slot' s' v opts out, UsedBefore tr n pub k j' slot' s' (.vc v opts) ∧
          sign E (VC E) (E.edGenerate s'.ed) v opts = .ok out ∧ SameVC v (unsignedVC w) ∧ opts = unvalued q) ∨
        (∃ k j' slot' s', UsedBefore tr n pub k j' slot' s'
          (.raw (message E (optionBytes E (unvalued q)) (vcBytes (unsignedVC w))))) ∨
        Forged tr n pub (message E (optionBytes E (unvalued q)) (vcBytes (unsignedVC w))) q.proofValue ∨
        ∃ k j' slot' s' u, UsedBefore tr n pub k j' slot' s' u ∧
          u.Collides (optionBytes E (unvalued q)) (vcBytes (unsignedVC w))) := by
  rcases C69_resolve H N K did tr hh i j address uri hi docBytes slot pub hr with hs | hc
  swap
  · exact .inl hc
  refine .inr ⟨hs, ?_⟩
  by_cases hf : Forged tr n pub (message E (optionBytes E (unvalued q)) (vcBytes (unsignedVC w))) q.proofValue
  · exact .inr (.inr (.inl hf))
  have : ∃ k j' slot' s' u, UsedBefore tr n pub k j' slot' s' u ∧
      u.Signs (E.edGenerate s'.ed) (message E (optionBytes E (unvalued q)) (vcBytes (unsignedVC w))) := by
    by_contra hne
    exact hf ⟨accepted_accepts_vc L ha hq, fun k j' slot' s' u h1 h2 => hne ⟨k, j', slot', s', u, h1, h2⟩⟩
  obtain ⟨k, j', slot', s', u, hu, hsig⟩ := this
  rcases C64_vc H L (E.edGenerate s'.ed) [u] pub bs purpose w q ha hq with
    ⟨v, opts, out, h1, h2, h3, h4⟩ | h | ⟨_, h⟩ | ⟨u', h1, h2⟩
  · rw [List.mem_singleton] at h1
    subst h1
    exact .inl ⟨k, j', slot', s', v, opts, out, hu, h2, h3, h4⟩
  · rw [List.mem_singleton] at h
    subst h
    exact .inr (.inl ⟨k, j', slot', s', hu⟩)
  · exact absurd hsig (h u (List.mem_singleton.mpr rfl))
  · rw [List.mem_singleton] at h1
    subst h1
    exact .inr (.inr (.inr ⟨k, j', slot', s', _, hu, h2⟩))

/-- C69 (presentations). -/
theorem C69_vp {E : Env} {J : Type} [DecidableEq J] (H : E.HashLaws) (L : E.JcsLaws) (N : E.NumLaws) (K : E.EdLaws) (did : J → DID E)
    (tr : List (Event E J)) (hh : Honest did tr) (i n : Nat) (j : J) (address : Option Str) (uri : Str)
    (hi : tr[i]? = some (.publish j address uri)) (docBytes : Bytes) (slot : Slot) (bs : Bytes) (purpose : ProofPurpose)
    (_hn : tr[n]? = some (.check uri docBytes slot bs purpose)) (pub : E.EdPub) (hr : Resolves E uri docBytes slot pub)
    (w : VP E) (q : Proof) (ha : AcceptedVP pub bs purpose w) (hq : w.proof = some q) :
    LinkCollides did tr i j docBytes ∨ (∃ s, keyAt tr i j slot = some s ∧ pub = E.edPub (E.edGenerate s.ed)) ∧
      ((∃ k j' slot' s' v opts out, UsedBefore tr n pub k j' slot' s' (.vp v opts) ∧
          sign E (VP E) (E.edGenerate s'.ed) v opts = .ok out ∧ SameVP v (unsignedVP w) ∧ opts = unvalued q) ∨
        (∃ k j' slot' s', UsedBefore tr n pub k j' slot' s'
          (.raw (message E (optionBytes E (unvalued q)) (vpBytes (unsignedVP w))))) ∨
        Forged tr n pub (message E (optionBytes E (unvalued q)) (vpBytes (unsignedVP w))) q.proofValue ∨
        ∃ k j' slot' s' u, UsedBefore tr n pub k j' slot' s' u ∧
          u.Collides (optionBytes E (unvalued q)) (vpBytes (unsignedVP w))) := by
  rcases C69_resolve H N K did tr hh i j address uri hi docBytes slot pub hr with hs | hc
  swap
  · exact .inl hc
  refine .inr ⟨hs, ?_⟩
  by_cases hf : Forged tr n pub (message E (optionBytes E (unvalued q)) (vpBytes (unsignedVP w))) q.proofValue
  · exact .inr (.inr (.inl hf))
  have : ∃ k j' slot' s' u, UsedBefore tr n pub k j' slot' s' u ∧
      u.Signs (E.edGenerate s'.ed) (message E (optionBytes E (unvalued q)) (vpBytes (unsignedVP w))) := by
    by_contra hne
    exact hf ⟨accepted_accepts_vp L ha hq, fun k j' slot' s' u h1 h2 => hne ⟨k, j', slot', s', u, h1, h2⟩⟩
  obtain ⟨k, j', slot', s', u, hu, hsig⟩ := this
  rcases C64_vp H L (E.edGenerate s'.ed) [u] pub bs purpose w q ha hq with
    ⟨v, opts, out, h1, h2, h3, h4⟩ | h | ⟨_, h⟩ | ⟨u', h1, h2⟩
  · rw [List.mem_singleton] at h1
    subst h1
    exact .inl ⟨k, j', slot', s', v, opts, out, hu, h2, h3, h4⟩
  · rw [List.mem_singleton] at h
    subst h
    exact .inr (.inl ⟨k, j', slot', s', hu⟩)
  · exact absurd hsig (h u (List.mem_singleton.mpr rfl))
  · rw [List.mem_singleton] at h1
    subst h1
    exact .inr (.inr (.inr ⟨k, j', slot', s', _, hu, h2⟩))

theorem first_append {E : Env} (slot : Slot) (a b : List (IdOp E)) {s : MethodSeed E} (h : slot.first a = some s) :
    slot.first (a ++ b) = some s := by
  induction a with
  | nil => cases slot <;> cases h
  | cons x a ih =>
    cases slot <;> cases x <;> first | exact h | exact ih h

/-- C69: a key, once in a slot, stays there for the rest of every trace. -/
theorem C69_keys_stay {E : Env} {J : Type} [DecidableEq J] (tr : List (Event E J)) (m n : Nat) (hmn : m ≤ n) (j : J) (slot : Slot)
    (s : MethodSeed E) (h : keyAt tr m j slot = some s) : keyAt tr n j slot = some s := by
  unfold keyAt at *
  have : tr.take n = tr.take m ++ (tr.take n).drop m := by
    conv => lhs; rw [← List.take_append_drop m (tr.take n)]
    rw [List.take_take, Nat.min_eq_left hmn]
  rw [this]
  unfold opsOf at *
  rw [List.filterMap_append]
  exact first_append slot _ _ h

/-- Different slots never have the same public key. -/
def KeysApart {E : Env} {J : Type} [DecidableEq J] (tr : List (Event E J)) : Prop :=
  ∀ k k' j j' slot slot' s s', keyAt tr k j slot = some s → keyAt tr k' j' slot' = some s' →
    E.edPub (E.edGenerate s.ed) = E.edPub (E.edGenerate s'.ed) → j = j' ∧ slot = slot'

/-- C69: so if keys are apart, nobody signs 64 raw bytes, the signature is no forgery and the hashes do not collide, the
publisher itself signed the credential, with these options, with the key in this slot, before. -/
theorem C69_honest_vc {E : Env} {J : Type} [DecidableEq J] (H : E.HashLaws) (L : E.JcsLaws) (N : E.NumLaws) (K : E.EdLaws)
    (did : J → DID E) (tr : List (Event E J)) (hh : Honest did tr) (hk : KeysApart tr)
    (hraw : ∀ (k : Nat) j slot m, tr[k]? = some (.use j slot (.raw m)) → m.length ≠ 64)
    (i n : Nat) (j : J) (address : Option Str) (uri : Str) (hi : tr[i]? = some (.publish j address uri))
    (docBytes : Bytes) (slot : Slot) (bs : Bytes) (purpose : ProofPurpose)
    (hn : tr[n]? = some (.check uri docBytes slot bs purpose)) (pub : E.EdPub) (hr : Resolves E uri docBytes slot pub)
    (w : VC E) (q : Proof) (ha : AcceptedVC pub bs purpose w) (hq : w.proof = some q)
    (hlink : ¬ LinkCollides did tr i j docBytes)
    (hforge : ¬ Forged tr n pub (message E (optionBytes E (unvalued q)) (vcBytes (unsignedVC w))) q.proofValue)
    (hcol : ∀ (k : Nat) j slot u, tr[k]? = some (.use j slot u) →
      ¬ u.Collides (optionBytes E (unvalued q)) (vcBytes (unsignedVC w))) :
    ∃ s k v opts out, keyAt tr i j slot = some s ∧ k < n ∧ tr[k]? = some (.use j slot (.vc v opts)) ∧
      sign E (VC E) (E.edGenerate s.ed) v opts = .ok out ∧ SameVC v (unsignedVC w) ∧ opts = unvalued q := by
  rcases C69_vc H L N K did tr hh i n j address uri hi docBytes slot bs purpose hn pub hr w q ha hq with
    h | ⟨⟨s, hs, hp⟩, h⟩
  · exact (hlink h).elim
  rcases h with ⟨k, j', slot', s', v, opts, out, ⟨h1, h2, h3, h4⟩, h5, h6, h7⟩ | ⟨k, j', slot', s', ⟨h1, h2, h3, h4⟩⟩ | h |
    ⟨k, j', slot', s', u, ⟨h1, h2, h3, h4⟩, h5⟩
  · obtain ⟨rfl, rfl⟩ := hk i k j j' slot slot' s s' hs h3 (hp.symm.trans h4.symm)
    have e : s = s' := by
      have a := C69_keys_stay tr i (max i k) (Nat.le_max_left _ _) j slot s hs
      have b := C69_keys_stay tr k (max i k) (Nat.le_max_right _ _) j slot s' h3
      rw [a] at b
      exact Option.some.inj b
    subst e
    exact ⟨s, k, v, opts, out, hs, h1, h2, h5, h6, h7⟩
  · exact (hraw k j' slot' _ h2 (by simp [message, H.sha256_len])).elim
  · exact (hforge h).elim
  · exact (hcol k j' slot' u h2 h5).elim

/-- C69: and presentations. -/
theorem C69_honest_vp {E : Env} {J : Type} [DecidableEq J] (H : E.HashLaws) (L : E.JcsLaws) (N : E.NumLaws) (K : E.EdLaws)
    (did : J → DID E) (tr : List (Event E J)) (hh : Honest did tr) (hk : KeysApart tr)
    (hraw : ∀ (k : Nat) j slot m, tr[k]? = some (.use j slot (.raw m)) → m.length ≠ 64)
    (i n : Nat) (j : J) (address : Option Str) (uri : Str) (hi : tr[i]? = some (.publish j address uri))
    (docBytes : Bytes) (slot : Slot) (bs : Bytes) (purpose : ProofPurpose)
    (hn : tr[n]? = some (.check uri docBytes slot bs purpose)) (pub : E.EdPub) (hr : Resolves E uri docBytes slot pub)
    (w : VP E) (q : Proof) (ha : AcceptedVP pub bs purpose w) (hq : w.proof = some q)
    (hlink : ¬ LinkCollides did tr i j docBytes)
    (hforge : ¬ Forged tr n pub (message E (optionBytes E (unvalued q)) (vpBytes (unsignedVP w))) q.proofValue)
    (hcol : ∀ (k : Nat) j slot u, tr[k]? = some (.use j slot u) →
      ¬ u.Collides (optionBytes E (unvalued q)) (vpBytes (unsignedVP w))) :
    ∃ s k v opts out, keyAt tr i j slot = some s ∧ k < n ∧ tr[k]? = some (.use j slot (.vp v opts)) ∧
      sign E (VP E) (E.edGenerate s.ed) v opts = .ok out ∧ SameVP v (unsignedVP w) ∧ opts = unvalued q := by
  rcases C69_vp H L N K did tr hh i n j address uri hi docBytes slot bs purpose hn pub hr w q ha hq with
    h | ⟨⟨s, hs, hp⟩, h⟩
  · exact (hlink h).elim
  rcases h with ⟨k, j', slot', s', v, opts, out, ⟨h1, h2, h3, h4⟩, h5, h6, h7⟩ | ⟨k, j', slot', s', ⟨h1, h2, h3, h4⟩⟩ | h |
    ⟨k, j', slot', s', u, ⟨h1, h2, h3, h4⟩, h5⟩
  · obtain ⟨rfl, rfl⟩ := hk i k j j' slot slot' s s' hs h3 (hp.symm.trans h4.symm)
    have e : s = s' := by
      have a := C69_keys_stay tr i (max i k) (Nat.le_max_left _ _) j slot s hs
      have b := C69_keys_stay tr k (max i k) (Nat.le_max_right _ _) j slot s' h3
      rw [a] at b
      exact Option.some.inj b
    subst e
    exact ⟨s, k, v, opts, out, hs, h1, h2, h5, h6, h7⟩
  · exact (hraw k j' slot' _ h2 (by simp [message, H.sha256_len])).elim
  · exact (hforge h).elim
  · exact (hcol k j' slot' u h2 h5).elim

/-! ### Examples -/

/-- Seed of the party that signs. -/
def toySeed : MethodSeed Toy.env := ⟨(7 : UInt8), (2 : UInt8)⟩

/-- Two parties make keys, one of them uses its key, publishes a URI, and someone checks. -/
def toyTrace (u : KeyUse Toy.env) (uri : Str) (doc bs : Bytes) : List (Event Toy.env Bool) :=
  [.build true (.assertion toySeed), .build false (.assertion ⟨(3 : UInt8), (4 : UInt8)⟩),
   .use true .assertion u, .publish true none uri, .check uri doc .assertion bs .assertionMethod]

theorem toyTrace_apart (u : KeyUse Toy.env) (uri : Str) (doc bs : Bytes) : KeysApart (toyTrace u uri doc bs) := by
  have key : ∀ k j slot s, keyAt (toyTrace u uri doc bs) k j slot = some s →
      slot = .assertion ∧ s.ed = if j then (7 : UInt8) else (3 : UInt8) := by
    intro k j slot s h
    have h' := C69_keys_stay _ k (k + 5) (by omega) j slot s h
    have e : (toyTrace u uri doc bs).take (k + 5) = toyTrace u uri doc bs := List.take_of_length_le (by simp [toyTrace])
    unfold keyAt at h'
    rw [e] at h'
    cases slot <;> cases j <;> simp [toyTrace, opsOf, Slot.first, firstAuth, firstAssertion] at h' <;> rw [← h'] <;> exact ⟨rfl, rfl⟩
  intro k k' j j' slot slot' s s' h h' hp
  obtain ⟨rfl, a⟩ := key _ _ _ _ h
  obtain ⟨rfl, b⟩ := key _ _ _ _ h'
  have e : s.ed = s'.ed := hp
  rw [a, b] at e
  have e' : (if j then (7 : UInt8) else (3 : UInt8)) = if j' then (7 : UInt8) else (3 : UInt8) := e
  refine ⟨?_, rfl⟩
  cases j <;> cases j' <;> first | rfl | exact absurd e' (by decide)

theorem toyTrace_ok (did : Bool → DID Toy.env) (u : KeyUse Toy.env) (bs : Bytes) : ∃ uri doc,
    Honest did (toyTrace u uri doc bs) ∧ Resolves Toy.env uri doc .assertion (7 : UInt8) ∧
    ¬ LinkCollides did (toyTrace u uri doc bs) 3 true doc := by
  obtain ⟨x, _, _, hx, _⟩ := identity_isDid (did true)
  have hrun : ∀ uri doc, ((opsOf true ((toyTrace u uri doc bs).take 3)).foldl IdOp.apply x).toDoc =
      (idRun x.value [.assertion toySeed]).toDoc := by
    intro uri doc
    unfold idRun
    rw [← identity_new hx]
    rfl
  obtain ⟨link, uri, h1, h2, h3, h4, _⟩ := C56_document Toy.hashLaws Toy.numLaws (did true) x hx
    (idRun x.value [.assertion toySeed]).toDoc none (fun _ h => nomatch h)
  obtain ⟨t, t1, t2⟩ := C18_json_roundtrip Toy.numLaws (idRun x.value [.assertion toySeed]).toDoc
  refine ⟨uri, t.toBytes, ?_, ?_, ?_⟩
  · intro n j address uri' hn
    rcases n with _ | _ | _ | _ | _ | n <;> simp [toyTrace] at hn
    obtain ⟨rfl, rfl, rfl⟩ := hn
    refine ⟨fun _ h => (nomatch h), x, link, hx, ?_, h2⟩
    rw [hrun]
    exact h1
  · obtain ⟨_, _, _, _, _, e6, _⟩ := C12_document (E := Toy.env) x.value [.assertion toySeed]
    obtain ⟨l, e, ⟨kv, ka, el, k1, _⟩⟩ := e6
    rw [el] at e
    exact ⟨x.value, _, link, _, _, _, h3, rfl, t2, h4, e,
      (C15_eddsa _ _).mpr ⟨rfl, _, isKeyText_holds k1, Toy.edLaws.pub_bytes _⟩⟩
  · rintro ⟨x', t', doc, t'', g1, g2, g3, g4, g5, _⟩
    rw [hx] at g1; cases g1
    rw [hrun, t1] at g2; cases g2
    rw [t2] at g3; cases g3
    rw [t1] at g4; cases g4
    exact g5 rfl

/-- All hypotheses of `C69_resolve`, `C69_keys_stay`, `C69_vc` and `C69_honest_vc` are met in a trace in which a credential is accepted. -/
example (did : Bool → DID Toy.env) : ∃ (tr : List (Event Toy.env Bool)) (uri : Str) (doc bs : Bytes) (w : VC Toy.env) (q : Proof),
    Honest did tr ∧ KeysApart tr ∧
    (∀ (k : Nat) j slot m, tr[k]? = some (.use j slot (.raw m)) → m.length ≠ 64) ∧
    tr[3]? = some (.publish true none uri) ∧ tr[4]? = some (.check uri doc .assertion bs .assertionMethod) ∧
    Resolves Toy.env uri doc .assertion (7 : UInt8) ∧ AcceptedVC (E := Toy.env) (7 : UInt8) bs .assertionMethod w ∧
    w.proof = some q ∧ ¬ LinkCollides did tr 3 true doc ∧
    ¬ Forged tr 4 (7 : UInt8) (message Toy.env (optionBytes Toy.env (unvalued q)) (vcBytes (unsignedVC w))) q.proofValue ∧
    ∀ (k : Nat) j slot u, tr[k]? = some (.use j slot u) →
      ¬ u.Collides (optionBytes Toy.env (unvalued q)) (vcBytes (unsignedVC w)) := by
  obtain ⟨signed, q, sig, bs, r, h1, h2, h3, h4, h5, h6, _⟩ := toy_signed_vc
  obtain ⟨uri, doc, g1, g2, g3⟩ := toyTrace_ok did (.vc toyVC toyProof) bs
  obtain ⟨_, _, _, text, _, hs⟩ := ((C32_vc Toy.jcsLaws (7 : UInt8) toyVC toyProof).1 _).mp h1
  have e1 : unsignedVC signed = toyVC := by rw [hs]; rfl
  have e2 : unvalued q = toyProof := by rw [hs] at h2; cases h2; rfl
  refine ⟨_, uri, doc, bs, signed, q, g1, toyTrace_apart _ _ _ _, ?_, rfl, rfl, g2, ⟨h6, r, h4, h5⟩, h2, g3, ?_, ?_⟩
  · intro k j slot m hk
    rcases k with _ | _ | _ | _ | _ | k <;> simp [toyTrace] at hk
  · rintro ⟨_, hf⟩
    rw [e1, e2] at hf
    exact hf 2 true .assertion toySeed (.vc toyVC toyProof) ⟨by omega, rfl, rfl, rfl⟩ ⟨⟨_, h1⟩, rfl⟩
  · intro k j slot u hk
    rcases k with _ | _ | _ | _ | _ | k <;> simp [toyTrace] at hk
    obtain ⟨_, _, rfl⟩ := hk
    rw [e1, e2]
    rintro (⟨h, _⟩ | ⟨h, _⟩) <;> exact h rfl

/-- The same for `C69_vp` and `C69_honest_vp`. -/
example (did : Bool → DID Toy.env) : ∃ (tr : List (Event Toy.env Bool)) (uri : Str) (doc bs : Bytes) (w : VP Toy.env) (q : Proof),
    Honest did tr ∧ KeysApart tr ∧
    (∀ (k : Nat) j slot m, tr[k]? = some (.use j slot (.raw m)) → m.length ≠ 64) ∧
    tr[3]? = some (.publish true none uri) ∧ tr[4]? = some (.check uri doc .assertion bs .assertionMethod) ∧
    Resolves Toy.env uri doc .assertion (7 : UInt8) ∧ AcceptedVP (E := Toy.env) (7 : UInt8) bs .assertionMethod w ∧
    w.proof = some q ∧ ¬ LinkCollides did tr 3 true doc ∧
    ¬ Forged tr 4 (7 : UInt8) (message Toy.env (optionBytes Toy.env (unvalued q)) (vpBytes (unsignedVP w))) q.proofValue ∧
    ∀ (k : Nat) j slot u, tr[k]? = some (.use j slot u) →
      ¬ u.Collides (optionBytes Toy.env (unvalued q)) (vpBytes (unsignedVP w)) := by
  obtain ⟨signed, q, sig, bs, r, h1, h2, h3, h4, h5, h6, _⟩ := toy_signed_vp
  obtain ⟨uri, doc, g1, g2, g3⟩ := toyTrace_ok did (.vp toyVP toyProof) bs
  obtain ⟨_, _, _, text, _, hs⟩ := ((C32_vp Toy.jcsLaws (7 : UInt8) toyVP toyProof).1 _).mp h1
  have e1 : unsignedVP signed = toyVP := by rw [hs]; rfl
  have e2 : unvalued q = toyProof := by rw [hs] at h2; cases h2; rfl
  refine ⟨_, uri, doc, bs, signed, q, g1, toyTrace_apart _ _ _ _, ?_, rfl, rfl, g2, ⟨h6, r, h4, h5⟩, h2, g3, ?_, ?_⟩
  · intro k j slot m hk
    rcases k with _ | _ | _ | _ | _ | k <;> simp [toyTrace] at hk
  · rintro ⟨_, hf⟩
    rw [e1, e2] at hf
    exact hf 2 true .assertion toySeed (.vp toyVP toyProof) ⟨by omega, rfl, rfl, rfl⟩ ⟨⟨_, h1⟩, rfl⟩
  · intro k j slot u hk
    rcases k with _ | _ | _ | _ | _ | k <;> simp [toyTrace] at hk
    obtain ⟨_, _, rfl⟩ := hk
    rw [e1, e2]
    rintro (⟨h, _⟩ | ⟨h, _⟩) <;> exact h rfl

end Verif.Props
