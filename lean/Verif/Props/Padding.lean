import Verif.Lemmas.Padding
import Verif.Props.Accept
import Verif.Props.Relay

/-
C61: members of a received text that are not covered by the signature.
-/

namespace Verif.Spec

/-- One more member, with a name outside `known` and any value. -/
inductive Adds (known : List String) : List (Bytes × Raw) → List (Bytes × Raw) → Prop
  | mk (pre post : List (Bytes × Raw)) {k : Bytes} {n : Str} (x : Raw) : Spells k n → n ∉ known.map String.toList →
      Adds known (pre ++ post) (pre ++ (k, x) :: post)

/-- Members of a proof. -/
def proofMembers : List String :=
  ["id", "type", "proofPurpose", "proofValue", "verificationMethod", "created", "expires", "cryptosuite"]

/-- Members of a credential. -/
def vcMembers : List String := ["@context", "type", "credentialSubject", "proof", "id", "issuer"]

/-- Members of a presentation. -/
def vpMembers : List String := ["@context", "type", "verifiableCredential", "proof", "holder"]

/-- Token trees that differ in members that are not those of a credential or, inside its proof, of a proof. -/
inductive PaddedVC : Raw → Raw → Prop
  | symm {a b : Raw} : PaddedVC a b → PaddedVC b a
  | trans {a b c : Raw} : PaddedVC a b → PaddedVC b c → PaddedVC a c
  | top {a b : List (Bytes × Raw)} : Adds vcMembers a b → PaddedVC (.obj a) (.obj b)
  | proof {a b : List (Bytes × Raw)} (pre post : List (Bytes × Raw)) {k : Bytes} : Spells k "proof".toList →
      Adds proofMembers a b → PaddedVC (.obj (pre ++ (k, .obj a) :: post)) (.obj (pre ++ (k, .obj b) :: post))

/-- The same for presentations and the credentials inside. -/
inductive PaddedVP : Raw → Raw → Prop
  | symm {a b : Raw} : PaddedVP a b → PaddedVP b a
  | trans {a b c : Raw} : PaddedVP a b → PaddedVP b c → PaddedVP a c
  | top {a b : List (Bytes × Raw)} : Adds vpMembers a b → PaddedVP (.obj a) (.obj b)
  | proof {a b : List (Bytes × Raw)} (pre post : List (Bytes × Raw)) {k : Bytes} : Spells k "proof".toList →
      Adds proofMembers a b → PaddedVP (.obj (pre ++ (k, .obj a) :: post)) (.obj (pre ++ (k, .obj b) :: post))
  | credential {a b : Raw} (pre post : List (Bytes × Raw)) (xs ys : List Raw) {k : Bytes} :
      Spells k "verifiableCredential".toList → PaddedVC a b →
      PaddedVP (.obj (pre ++ (k, .arr (xs ++ a :: ys)) :: post)) (.obj (pre ++ (k, .arr (xs ++ b :: ys)) :: post))

/-- What one would like to hold of accepted credentials: no member of the text can be given another text value. -/
def EveryMemberSigned (E : Env) : Prop :=
  ∀ (pub : E.EdPub) (purpose : ProofPurpose) (pre post : List (Bytes × Raw)) (k x y : Bytes) (s t : Str) (bs bs' : Bytes)
    (out out' : Option (VC E)),
    JsonText (.obj (pre ++ (k, .str x) :: post)) bs → JsonText (.obj (pre ++ (k, .str y) :: post)) bs' →
    Spells x s → Spells y t → Props.verify E (VC E) pub bs purpose = .ok ⟨true, out⟩ →
    Props.verify E (VC E) pub bs' purpose = .ok ⟨true, out'⟩ → s = t

end Verif.Spec

namespace Verif
open Spec

theorem Spec.PaddedVC.dec {E : Env} {a b : Raw} (h : PaddedVC a b) : ∀ d, VC.dec E d a = VC.dec E d b := by
  induction h with
  | symm _ ih => exact fun d => (ih d).symm
  | trans _ _ ih1 ih2 => exact fun d => (ih1 d).trans (ih2 d)
  | top h =>
    intro d
    obtain ⟨pre, post, x, hk, hn⟩ := h
    unfold VC.dec
    rw [structEquiv_insert (known := VC.fieldNames) pre post x hk.dec hn]
  | proof pre post hk h =>
    intro d
    obtain ⟨pre', post', x, hk', hn⟩ := h
    refine VC.dec_proof pre post _ _ hk.dec ?_
    unfold Proof.dec
    rw [structEquiv_insert (known := Proof.fieldNames) pre' post' x hk'.dec hn]

theorem Spec.PaddedVP.dec {E : Env} {a b : Raw} (h : PaddedVP a b) : ∀ d, VP.dec E d a = VP.dec E d b := by
  induction h with
  | symm _ ih => exact fun d => (ih d).symm
  | trans _ _ ih1 ih2 => exact fun d => (ih1 d).trans (ih2 d)
  | top h =>
    intro d
    obtain ⟨pre, post, x, hk, hn⟩ := h
    unfold VP.dec
    rw [structEquiv_insert (known := VP.fieldNames) pre post x hk.dec hn]
  | proof pre post hk h =>
    intro d
    obtain ⟨pre', post', x, hk', hn⟩ := h
    refine VP.dec_proof pre post _ _ hk.dec ?_
    unfold Proof.dec
    rw [structEquiv_insert (known := Proof.fieldNames) pre' post' x hk'.dec hn]
  | credential pre post xs ys hk h =>
    exact fun d => VP.dec_credential pre post xs ys _ _ hk.dec h.dec

theorem okMembers_append {a b : List (Bytes × Raw)} (h : Raw.OkMembers a) (h' : Raw.OkMembers b) :
    Raw.OkMembers (a ++ b) := by
  induction a with
  | nil => exact h'
  | cons x a ih =>
    obtain ⟨k, v⟩ := x
    exact ⟨h.1, h.2.1, ih h.2.2⟩

end Verif

namespace Verif.Props
open Verif Spec

/-- C61: members that are not those of a credential, nor of a proof inside its proof, have no influence on
verification whatever they say: they are neither signed nor returned. -/
theorem C61_ignored_vc {E : Env} {r r' : Raw} {bs bs' : Bytes} (h : JsonText r bs) (h' : JsonText r' bs')
    (hp : PaddedVC r r') (pub : E.EdPub) (purpose : ProofPurpose) :
    Alike (verify E (VC E) pub bs purpose) (verify E (VC E) pub bs' purpose) := by
  refine C59_alike (EddsaJcs2022.suite E (VC E)) bs bs' (VC.parse_alike ?_) pub purpose
  simp only [fromSlice, (Raw.parse_iff _ _).mpr h, (Raw.parse_iff _ _).mpr h', hp.dec 128]

/-- C61: the same for presentations and the credentials inside. -/
theorem C61_ignored_vp {E : Env} {r r' : Raw} {bs bs' : Bytes} (h : JsonText r bs) (h' : JsonText r' bs')
    (hp : PaddedVP r r') (pub : E.EdPub) (purpose : ProofPurpose) :
    Alike (verify E (VP E) pub bs purpose) (verify E (VP E) pub bs' purpose) := by
  refine C59_alike (EddsaJcs2022.suite E (VP E)) bs bs' (VP.parse_alike ?_) pub purpose
  simp only [fromSlice, (Raw.parse_iff _ _).mpr h, (Raw.parse_iff _ _).mpr h', hp.dec 128]

/-- C61: to every credential text that is an object, anybody can add for example a `validUntil` with any text; the
outcome of verification stays the same under every key. -/
theorem C61_add_anything {E : Env} {kvs : List (Bytes × Raw)} {bs : Bytes} (h : JsonText (.obj kvs) bs) (n s : Str)
    (hn : n ∉ vcMembers.map String.toList) :
    ∃ bs', JsonText (.obj (kvs ++ [(encStr n, .str (encStr s))])) bs' ∧
      ∀ pub purpose, Alike (verify E (VC E) pub bs' purpose) (verify E (VC E) pub bs purpose) := by
  have hok : (Raw.obj (kvs ++ [(encStr n, .str (encStr s))])).Ok := by
    have := h.ok
    simp only [Raw.Ok] at this ⊢
    exact okMembers_append this ⟨isStrTok_encStr n, by simp only [Raw.Ok]; exact isStrTok_encStr s, trivial⟩
  have h' : JsonText (.obj (kvs ++ [(encStr n, .str (encStr s))])) (Raw.render _) :=
    (Raw.parse_iff _ _).mp (Raw.parse_render _ hok)
  have hs : Spells (encStr n) n :=
    (decStr_iff (okMembers_mem (by simpa [Raw.Ok] using hok) (encStr n, .str (encStr s)) (by simp)).1 n).mp (decStr_encStr n)
  refine ⟨_, h', fun pub purpose => (C61_ignored_vc h h' (.top ?_) pub purpose).symm⟩
  have := Adds.mk (known := vcMembers) kvs [] (.str (encStr s)) hs hn
  simpa using this

theorem toRaw_obj {E : Env} (v : VC E) (p : Num E.F → Bytes) : ∃ kvs, v.toTree.toRaw p = .obj kvs := by
  unfold VC.toTree
  rw [Json.toRaw]
  exact ⟨_, rfl⟩

/-- The tree of a printed credential. -/
theorem printed_vc {E : Env} (N : E.NumLaws) {v : VC E} {t : JSONValue} (h : v.toJson = .ok t) :
    ∃ kvs, JsonText (.obj kvs) (utf8 t.text) := by
  have e : t.text = jsonText E v.toTree := by
    have hv := (C24_serialise_iff v).1.mp ⟨t, h⟩
    rw [C49_vc_text N v hv, Except.ok.injEq] at h
    rw [← h, jsonText_eq N, vc_tree]
  obtain ⟨kvs, hk⟩ := toRaw_obj v (printNum E.floatPrint)
  refine ⟨kvs, (Raw.parse_iff _ _).mp ?_⟩
  rw [utf8_eq, e, jsonText_bytes N, ← hk]
  exact Raw.parse_render _ (Json.toRaw_ok (printNum_tok N.tok) _)

/-- C61, the full claim fails: a text can be added to an accepted credential and changed at will. -/
theorem C61_full_false : ¬ EveryMemberSigned Toy.env := by
  intro hf
  obtain ⟨_, _, _, h⟩ := C31_vc Toy.jcsLaws Toy.numLaws Toy.edLaws (7 : UInt8) toyVC toyProof toyVC_complete rfl
    toyProof_good (by decide) rfl
  obtain ⟨t, h1, h2⟩ := h (Toy.survives _) (by simp [toyVC, toySubject, Json.depth, Json.depthMembers])
  obtain ⟨kvs, h3⟩ := printed_vc Toy.numLaws h1
  obtain ⟨b1, c1, d1⟩ := C61_add_anything (E := Toy.env) h3 "validUntil".toList "2020".toList (by decide)
  obtain ⟨b2, c2, d2⟩ := C61_add_anything (E := Toy.env) h3 "validUntil".toList "2099".toList (by decide)
  have := hf (7 : UInt8) .assertionMethod kvs [] _ _ _ "2020".toList "2099".toList b1 b2 _ _ c1 c2
    (spells_of_dec (by decide +kernel) (by decide +kernel)) (spells_of_dec (by decide +kernel) (by decide +kernel))
    (((d1 _ _).ok_iff _).mpr h2) (((d2 _ _).ok_iff _).mpr h2)
  exact absurd this (by decide)

/-- C61, what holds: two accepted texts that differ in one member of the credential other than the proof hold the
same credential up to number spelling, hence the same text if the member is a text; or there is an explicit collision
or the key accepts the signature for two explicit messages. -/
theorem C61_vc_partial {E : Env} (H : E.HashLaws) (L : E.JcsLaws) (pub : E.EdPub) (purpose : ProofPurpose)
    (pre post : List (Bytes × Raw)) (k : Bytes) (n : Str) (x y : Raw) (bs bs' : Bytes) (v w : VC E)
    (h : JsonText (.obj (pre ++ (k, x) :: post)) bs) (h' : JsonText (.obj (pre ++ (k, y) :: post)) bs')
    (hk : Spells k n) (hn : n ∈ vcMembers.map String.toList) (hp : n ≠ "proof".toList)
    (ha : AcceptedVC pub bs purpose v) (hw : AcceptedVC pub bs' purpose w) :
    (SameVC v w ∧ ∀ s t a b, x = .str s → y = .str t → Spells s a → Spells t b → a = b) ∨
    ∃ q base sig, v.proof = some q ∧ w.proof = some q ∧ IsMultibase E base sig q.proofValue ∧
      Conflict E pub sig (optionBytes E (unvalued q)) (vcBytes (unsignedVC v)) (optionBytes E (unvalued q))
        (vcBytes (unsignedVC w)) := by
  have hpv := ha.1
  have hpw := hw.1
  unfold VC.parseJsonBytes fromSlice at hpv hpw
  rw [(Raw.parse_iff _ _).mpr h] at hpv
  rw [(Raw.parse_iff _ _).mpr h'] at hpw
  simp only at hpv hpw
  cases hdv : VC.dec E 128 (.obj (pre ++ (k, x) :: post)) with
  | none => rw [hdv] at hpv; cases hpv
  | some v' =>
  rw [hdv] at hpv; cases hpv
  cases hdw : VC.dec E 128 (.obj (pre ++ (k, y) :: post)) with
  | none => rw [hdw] at hpw; cases hpw
  | some w' =>
  rw [hdw] at hpw; cases hpw
  obtain ⟨fs, e1, v1, v2, v3, v4, v5, v6⟩ := (VC.dec_iff _ _ _).mp hdv
  obtain ⟨fs', e2, w1, w2, w3, w4, w5, w6⟩ := (VC.dec_iff _ _ _).mp hdw
  rcases structFields_replace (known := VC.fieldNames) (d := 128) pre post x y hk.dec hn with ⟨e, _⟩ | ⟨gs, gs', g1, g2, g3, g4, g5⟩
  · rw [e1] at e; cases e
  rw [e1] at g1; cases g1
  rw [e2] at g2; cases g2
  rw [optField_lookup (g3 _ (Ne.symm hp)), w4] at v4
  have hproof : v.proof = w.proof := (Option.some.inj v4).symm
  obtain ⟨_, r, hr, hok⟩ := id ha
  obtain ⟨v', q, a1, a2, _, _, _, _, ⟨base, sig, _, a4, _, _⟩, _⟩ := (C33_vc L pub bs purpose r).mp ⟨hr, hok⟩
  rw [ha.1] at a1; cases a1
  rcases C57_vc H L pub bs bs' purpose purpose v w q q sig base base ha hw a2 (hproof ▸ a2) a4 a4 with ⟨hs, _⟩ | hc
  · have hs' : SameVC v w := ⟨hs.contexts, hs.types, hs.subject, hproof, hs.id, hs.issuer⟩
    refine .inl ⟨hs', ?_⟩
    rintro s t a b rfl rfl ha hb
    simp only [reqField] at v1 v2 v3 v5 v6 w1 w2 w3 w5 w6
    simp only [vcMembers, List.map_cons, List.map_nil, List.mem_cons, List.not_mem_nil, or_false] at hn
    rcases hn with rfl | rfl | rfl | rfl | rfl | rfl
    · rw [g4] at v1; cases v1
    · rw [g4] at v2; cases v2
    · rw [g4] at v3; rw [g5] at w3
      have h1 := congrArg (Option.map Subtype.val) v3
      have h2 := congrArg (Option.map Subtype.val) w3
      simp only [decVal'_map, decValue, ha.dec, hb.dec, Option.map_some, Option.some.injEq] at h1 h2
      have := hs.subject
      simp only [unsignedVC] at this
      rw [← h1, ← h2] at this
      simpa [Json.mapNum] using this
    · exact absurd rfl hp
    · rw [g4] at v5; rw [g5] at w5
      simp only [decString, ha.dec, hb.dec, Option.some.injEq] at v5 w5
      rw [v5, w5]; exact hs'.id
    · rw [g4] at v6; rw [g5] at w6
      simp only [decString, ha.dec, hb.dec, Option.some.injEq] at v6 w6
      rw [v6, w6]; exact hs'.issuer
  · exact .inr ⟨q, base, sig, a2, hproof ▸ a2, a4, hc⟩

/-- C61, what holds for presentations. -/
theorem C61_vp_partial {E : Env} (H : E.HashLaws) (L : E.JcsLaws) (pub : E.EdPub) (purpose : ProofPurpose)
    (pre post : List (Bytes × Raw)) (k : Bytes) (n : Str) (x y : Raw) (bs bs' : Bytes) (v w : VP E)
    (h : JsonText (.obj (pre ++ (k, x) :: post)) bs) (h' : JsonText (.obj (pre ++ (k, y) :: post)) bs')
    (hk : Spells k n) (hn : n ∈ vpMembers.map String.toList) (hp : n ≠ "proof".toList)
    (ha : AcceptedVP pub bs purpose v) (hw : AcceptedVP pub bs' purpose w) :
    (SameVP v w ∧ ∀ s t a b, x = .str s → y = .str t → Spells s a → Spells t b → a = b) ∨
    ∃ q base sig, v.proof = some q ∧ w.proof = some q ∧ IsMultibase E base sig q.proofValue ∧
      Conflict E pub sig (optionBytes E (unvalued q)) (vpBytes (unsignedVP v)) (optionBytes E (unvalued q))
        (vpBytes (unsignedVP w)) := by
  have hpv := ha.1
  have hpw := hw.1
  unfold VP.parseJsonBytes fromSlice at hpv hpw
  rw [(Raw.parse_iff _ _).mpr h] at hpv
  rw [(Raw.parse_iff _ _).mpr h'] at hpw
  simp only at hpv hpw
  cases hdv : VP.dec E 128 (.obj (pre ++ (k, x) :: post)) with
  | none => rw [hdv] at hpv; cases hpv
  | some v' =>
  rw [hdv] at hpv; cases hpv
  cases hdw : VP.dec E 128 (.obj (pre ++ (k, y) :: post)) with
  | none => rw [hdw] at hpw; cases hpw
  | some w' =>
  rw [hdw] at hpw; cases hpw
  obtain ⟨fs, e1, v1, v2, v3, v4, v5⟩ := (VP.dec_iff _ _ _).mp hdv
  obtain ⟨fs', e2, w1, w2, w3, w4, w5⟩ := (VP.dec_iff _ _ _).mp hdw
  rcases structFields_replace (known := VP.fieldNames) (d := 128) pre post x y hk.dec hn with ⟨e, _⟩ | ⟨gs, gs', g1, g2, g3, g4, g5⟩
  · rw [e1] at e; cases e
  rw [e1] at g1; cases g1
  rw [e2] at g2; cases g2
  rw [optField_lookup (g3 _ (Ne.symm hp)), w4] at v4
  have hproof : v.proof = w.proof := (Option.some.inj v4).symm
  obtain ⟨_, r, hr, hok⟩ := id ha
  obtain ⟨v', q, a1, a2, _, _, _, _, ⟨base, sig, _, a4, _, _⟩, _⟩ := (C33_vp L pub bs purpose r).mp ⟨hr, hok⟩
  rw [ha.1] at a1; cases a1
  rcases C57_vp H L pub bs bs' purpose purpose v w q q sig base base ha hw a2 (hproof ▸ a2) a4 a4 with ⟨hs, _⟩ | hc
  · have hs' : SameVP v w := ⟨hs.contexts, hs.types, hs.credentials, hproof, hs.holder⟩
    refine .inl ⟨hs', ?_⟩
    rintro s t a b rfl rfl ha hb
    simp only [reqField] at v1 v2 v3 w1 w2 w3
    simp only [vpMembers, List.map_cons, List.map_nil, List.mem_cons, List.not_mem_nil, or_false] at hn
    rcases hn with rfl | rfl | rfl | rfl | rfl
    · rw [g4] at v1; cases v1
    · rw [g4] at v2; cases v2
    · rw [g4] at v3; cases v3
    · exact absurd rfl hp
    · simp only [optField, g4, g5, decString, ha.dec, hb.dec, Option.map_some, Option.some.injEq] at v5 w5
      have := hs'.holder
      rw [← v5, ← w5] at this
      exact Option.some.inj this
  · exact .inr ⟨q, base, sig, a2, hproof ▸ a2, a4, hc⟩

/-- Two proof objects that differ in one member other than the proof value: the proofs have the same value, and if the
options are the same, so is the member, if it is a text. -/
theorem proof_member {d : Nat} {pre post : List (Bytes × Raw)} {k : Bytes} {n : Str} {x y : Raw} {p q : Proof}
    (hk : Spells k n) (hn : n ∈ proofMembers.map String.toList) (hp : n ≠ "proofValue".toList)
    (hd : Proof.dec d (.obj (pre ++ (k, x) :: post)) = some p)
    (hd' : Proof.dec d (.obj (pre ++ (k, y) :: post)) = some q) :
    q.proofValue = p.proofValue ∧ (unvalued p = unvalued q → p = q ∧
      ∀ s t a b, x = .str s → y = .str t → Spells s a → Spells t b → a = b) := by
  obtain ⟨fs, e1, v1, v2, v3, v4, v5, v6, v7, v8⟩ := (Proof.dec_iff _ _ _).mp hd
  obtain ⟨fs', e2, w1, w2, w3, w4, w5, w6, w7, w8⟩ := (Proof.dec_iff _ _ _).mp hd'
  rcases structFields_replace (known := Proof.fieldNames) (d := d) pre post x y hk.dec hn with ⟨e, _⟩ | ⟨gs, gs', g1, g2, g3, g4, g5⟩
  · rw [e1] at e; cases e
  rw [e1] at g1; cases g1
  rw [e2] at g2; cases g2
  rw [reqField_lookup (g3 _ (Ne.symm hp)), w4] at v4
  have hv : q.proofValue = p.proofValue := Option.some.inj v4
  refine ⟨hv, fun he => ?_⟩
  simp only [unvalued, Proof.mk.injEq, true_and] at he
  obtain ⟨i1, i2, i3, i5, i6, i7, i8⟩ := he
  refine ⟨by cases p; cases q; simp_all, ?_⟩
  rintro s t a b rfl rfl ha hb
  simp only [proofMembers, List.map_cons, List.map_nil, List.mem_cons, List.not_mem_nil, or_false] at hn
  rcases hn with rfl | rfl | rfl | rfl | rfl | rfl | rfl | rfl
  · simp only [reqField, g4, g5, decString, ha.dec, hb.dec, Option.some.injEq] at v1 w1
    rw [v1, w1, i1]
  · simp only [reqField, g4, g5, decString, ha.dec, hb.dec, Option.some.injEq] at v2 w2
    rw [v2, w2, i2]
  · simp only [reqField, g4, g5, ProofPurpose.dec, ha.dec, hb.dec, Option.bind_some] at v3 w3
    rw [(purpose_name a _).mp v3, (purpose_name b _).mp w3, i3]
  · exact absurd rfl hp
  · simp only [reqField, g4, g5, decString, ha.dec, hb.dec, Option.some.injEq] at v5 w5
    rw [v5, w5, i5]
  · simp only [optField, g4, g5, decString, ha.dec, hb.dec, Option.map_some, Option.some.injEq] at v6 w6
    exact Option.some.inj (by rw [v6, w6, i6])
  · simp only [optField, g4, g5, decString, ha.dec, hb.dec, Option.map_some, Option.some.injEq] at v7 w7
    exact Option.some.inj (by rw [v7, w7, i7])
  · simp only [optField, g4, g5, decString, ha.dec, hb.dec, Option.map_some, Option.some.injEq] at v8 w8
    exact Option.some.inj (by rw [v8, w8, i8])

/-- C61, what holds inside the proof: two accepted texts that differ in one member of the proof other than the proof
value are the same credential with the same proof, hence the same text if the member is a text; or the key accepts the
signature for two explicit messages, or the options collide. -/
theorem C61_vc_proof_partial {E : Env} (H : E.HashLaws) (L : E.JcsLaws) (pub : E.EdPub) (purpose purpose' : ProofPurpose)
    (pre post ppre ppost : List (Bytes × Raw)) (k m : Bytes) (n : Str) (x y : Raw) (bs bs' : Bytes) (v w : VC E)
    (h : JsonText (.obj (pre ++ (k, .obj (ppre ++ (m, x) :: ppost)) :: post)) bs)
    (h' : JsonText (.obj (pre ++ (k, .obj (ppre ++ (m, y) :: ppost)) :: post)) bs')
    (hk : Spells k "proof".toList) (hm : Spells m n) (hn : n ∈ proofMembers.map String.toList)
    (hp : n ≠ "proofValue".toList) (ha : AcceptedVC pub bs purpose v) (hw : AcceptedVC pub bs' purpose' w) :
    unsignedVC v = unsignedVC w ∧
    ((v = w ∧ purpose = purpose' ∧ ∀ s t a b, x = .str s → y = .str t → Spells s a → Spells t b → a = b) ∨
    ∃ q q' base sig, v.proof = some q ∧ w.proof = some q' ∧ q'.proofValue = q.proofValue ∧
      IsMultibase E base sig q.proofValue ∧
      Conflict E pub sig (optionBytes E (unvalued q)) (vcBytes (unsignedVC v)) (optionBytes E (unvalued q'))
        (vcBytes (unsignedVC v))) := by
  have hpv := ha.1
  have hpw := hw.1
  unfold VC.parseJsonBytes fromSlice at hpv hpw
  rw [(Raw.parse_iff _ _).mpr h] at hpv
  rw [(Raw.parse_iff _ _).mpr h'] at hpw
  simp only at hpv hpw
  cases hdv : VC.dec E 128 (.obj (pre ++ (k, .obj (ppre ++ (m, x) :: ppost)) :: post)) with
  | none => rw [hdv] at hpv; cases hpv
  | some v' =>
  rw [hdv] at hpv; cases hpv
  cases hdw : VC.dec E 128 (.obj (pre ++ (k, .obj (ppre ++ (m, y) :: ppost)) :: post)) with
  | none => rw [hdw] at hpw; cases hpw
  | some w' =>
  rw [hdw] at hpw; cases hpw
  obtain ⟨fs, e1, v1, v2, v3, v4, v5, v6⟩ := (VC.dec_iff _ _ _).mp hdv
  obtain ⟨fs', e2, w1, w2, w3, w4, w5, w6⟩ := (VC.dec_iff _ _ _).mp hdw
  rcases structFields_replace (known := VC.fieldNames) (d := 128) pre post (.obj (ppre ++ (m, x) :: ppost))
    (.obj (ppre ++ (m, y) :: ppost)) hk.dec (by decide) with ⟨e, _⟩ | ⟨gs, gs', g1, g2, g3, g4, g5⟩
  · rw [e1] at e; cases e
  rw [e1] at g1; cases g1
  rw [e2] at g2; cases g2
  rw [reqField_lookup (g3 _ (by decide)), w1] at v1
  rw [reqField_lookup (g3 _ (by decide)), w2] at v2
  rw [reqField_lookup (g3 _ (by decide)), w3] at v3
  rw [reqField_lookup (g3 _ (by decide)), w5] at v5
  rw [reqField_lookup (g3 _ (by decide)), w6] at v6
  have hu : unsignedVC v = unsignedVC w := by
    simp only [unsignedVC, VC.mk.injEq, true_and]
    exact ⟨(Option.some.inj v1).symm, (Option.some.inj v2).symm, (Option.some.inj v3).symm,
      (Option.some.inj v5).symm, (Option.some.inj v6).symm⟩
  simp only [optField, g4, Option.map_eq_some_iff] at v4
  simp only [optField, g5, Option.map_eq_some_iff] at w4
  obtain ⟨q, dq, hq⟩ := v4
  obtain ⟨q', dq', hq'⟩ := w4
  obtain ⟨hval, hsame⟩ := proof_member hm hn hp dq dq'
  obtain ⟨_, r, hr, hok⟩ := id ha
  obtain ⟨v', q0, a1, a2, _, _, _, _, ⟨base, sig, _, a4, _, _⟩, _⟩ := (C33_vc L pub bs purpose r).mp ⟨hr, hok⟩
  rw [ha.1] at a1; cases a1
  rw [← hq] at a2; cases a2
  refine ⟨hu, ?_⟩
  rcases C57_vc H L pub bs bs' purpose purpose' v w q q' sig base base ha hw hq.symm hq'.symm a4 (hval ▸ a4) with
    ⟨_, ho, hpp⟩ | hc
  · obtain ⟨hqq, ht⟩ := hsame ho
    refine .inl ⟨?_, hpp, ht⟩
    have hpr : v.proof = w.proof := by rw [← hq, ← hq', hqq]
    cases v; cases w
    simp_all [unsignedVC]
  · rw [← hu] at hc
    exact .inr ⟨q, q', base, sig, hq.symm, hq'.symm, hval, a4, hc⟩

/-- C61, what holds inside the proof of a presentation. -/
theorem C61_vp_proof_partial {E : Env} (H : E.HashLaws) (L : E.JcsLaws) (pub : E.EdPub) (purpose purpose' : ProofPurpose)
    (pre post ppre ppost : List (Bytes × Raw)) (k m : Bytes) (n : Str) (x y : Raw) (bs bs' : Bytes) (v w : VP E)
    (h : JsonText (.obj (pre ++ (k, .obj (ppre ++ (m, x) :: ppost)) :: post)) bs)
    (h' : JsonText (.obj (pre ++ (k, .obj (ppre ++ (m, y) :: ppost)) :: post)) bs')
    (hk : Spells k "proof".toList) (hm : Spells m n) (hn : n ∈ proofMembers.map String.toList)
    (hp : n ≠ "proofValue".toList) (ha : AcceptedVP pub bs purpose v) (hw : AcceptedVP pub bs' purpose' w) :
    unsignedVP v = unsignedVP w ∧
    ((v = w ∧ purpose = purpose' ∧ ∀ s t a b, x = .str s → y = .str t → Spells s a → Spells t b → a = b) ∨
    ∃ q q' base sig, v.proof = some q ∧ w.proof = some q' ∧ q'.proofValue = q.proofValue ∧
      IsMultibase E base sig q.proofValue ∧
      Conflict E pub sig (optionBytes E (unvalued q)) (vpBytes (unsignedVP v)) (optionBytes E (unvalued q'))
        (vpBytes (unsignedVP v))) := by
  have hpv := ha.1
  have hpw := hw.1
  unfold VP.parseJsonBytes fromSlice at hpv hpw
  rw [(Raw.parse_iff _ _).mpr h] at hpv
  rw [(Raw.parse_iff _ _).mpr h'] at hpw
  simp only at hpv hpw
  cases hdv : VP.dec E 128 (.obj (pre ++ (k, .obj (ppre ++ (m, x) :: ppost)) :: post)) with
  | none => rw [hdv] at hpv; cases hpv
  | some v' =>
  rw [hdv] at hpv; cases hpv
  cases hdw : VP.dec E 128 (.obj (pre ++ (k, .obj (ppre ++ (m, y) :: ppost)) :: post)) with
  | none => rw [hdw] at hpw; cases hpw
  | some w' =>
  rw [hdw] at hpw; cases hpw
  obtain ⟨fs, e1, v1, v2, v3, v4, v5⟩ := (VP.dec_iff _ _ _).mp hdv
  obtain ⟨fs', e2, w1, w2, w3, w4, w5⟩ := (VP.dec_iff _ _ _).mp hdw
  rcases structFields_replace (known := VP.fieldNames) (d := 128) pre post (.obj (ppre ++ (m, x) :: ppost))
    (.obj (ppre ++ (m, y) :: ppost)) hk.dec (by decide) with ⟨e, _⟩ | ⟨gs, gs', g1, g2, g3, g4, g5⟩
  · rw [e1] at e; cases e
  rw [e1] at g1; cases g1
  rw [e2] at g2; cases g2
  rw [reqField_lookup (g3 _ (by decide)), w1] at v1
  rw [reqField_lookup (g3 _ (by decide)), w2] at v2
  rw [reqField_lookup (g3 _ (by decide)), w3] at v3
  rw [optField_lookup (g3 _ (by decide)), w5] at v5
  have hu : unsignedVP v = unsignedVP w := by
    simp only [unsignedVP, VP.mk.injEq, true_and]
    exact ⟨(Option.some.inj v1).symm, (Option.some.inj v2).symm, (Option.some.inj v3).symm, (Option.some.inj v5).symm⟩
  simp only [optField, g4, Option.map_eq_some_iff] at v4
  simp only [optField, g5, Option.map_eq_some_iff] at w4
  obtain ⟨q, dq, hq⟩ := v4
  obtain ⟨q', dq', hq'⟩ := w4
  obtain ⟨hval, hsame⟩ := proof_member hm hn hp dq dq'
  obtain ⟨_, r, hr, hok⟩ := id ha
  obtain ⟨v', q0, a1, a2, _, _, _, _, ⟨base, sig, _, a4, _, _⟩, _⟩ := (C33_vp L pub bs purpose r).mp ⟨hr, hok⟩
  rw [ha.1] at a1; cases a1
  rw [← hq] at a2; cases a2
  refine ⟨hu, ?_⟩
  rcases C57_vp H L pub bs bs' purpose purpose' v w q q' sig base base ha hw hq.symm hq'.symm a4 (hval ▸ a4) with
    ⟨_, ho, hpp⟩ | hc
  · obtain ⟨hqq, ht⟩ := hsame ho
    refine .inl ⟨?_, hpp, ht⟩
    have hpr : v.proof = w.proof := by rw [← hq, ← hq', hqq]
    cases v; cases w
    simp_all [unsignedVP]
  · rw [← hu] at hc
    exact .inr ⟨q, q', base, sig, hq.symm, hq'.symm, hval, a4, hc⟩

/-! ### Examples -/

theorem toRawMembers_append {N : Type} (p : N → Bytes) : ∀ a b : List (Str × Json N),
    Json.toRawMembers p (a ++ b) = Json.toRawMembers p a ++ Json.toRawMembers p b
  | [], _ => by simp [Json.toRawMembers]
  | (_, _) :: a, b => by simp [Json.toRawMembers, toRawMembers_append p a b]

/-- The members of a credential before the issuer. -/
def beforeIssuer {E : Env} (v : VC E) : List (Bytes × Raw) :=
  Json.toRawMembers (printNum E.floatPrint) ([("@context".toList, strArr v.contexts),
    ("type".toList, strArr v.types), ("credentialSubject".toList, v.credentialSubject)]
    ++ optMember "proof".toList Proof.toTree v.proof ++ [("id".toList, .str v.id)])

theorem printed_issuer {E : Env} (N : E.NumLaws) {v : VC E} {t : JSONValue} (h : v.toJson = .ok t) :
    JsonText (.obj (beforeIssuer v ++ [(encStr "issuer".toList, .str (encStr v.issuer))])) (utf8 t.text) := by
  have e : t.text = jsonText E v.toTree := by
    have hv := (C24_serialise_iff v).1.mp ⟨t, h⟩
    rw [C49_vc_text N v hv, Except.ok.injEq] at h
    rw [← h, jsonText_eq N, vc_tree]
  have hk : v.toTree.toRaw (printNum E.floatPrint) =
      .obj (beforeIssuer v ++ [(encStr "issuer".toList, .str (encStr v.issuer))]) := by
    simp [VC.toTree, beforeIssuer, Json.toRaw, Json.toRawMembers, toRawMembers_append]
  refine (Raw.parse_iff _ _).mp ?_
  rw [utf8_eq, e, jsonText_bytes N, ← hk]
  exact Raw.parse_render _ (Json.toRaw_ok (printNum_tok N.tok) _)

/-- A signed credential of the environment whose signatures mean nothing. -/
def weakSigned (issuer : Str) : VC Toy.weak :=
  { weakVC with proof := some { toyProof with proofValue := "f00".toList }, issuer }

theorem weakSigned_accepted (issuer : Str) : ∃ t, (weakSigned issuer).toJson = .ok t ∧
    AcceptedVC (E := Toy.weak) (7 : UInt8) (utf8 t.text) .assertionMethod (weakSigned issuer) := by
  have hc : VCComplete (weakSigned issuer) := ⟨by simp [weakSigned, weakVC], by simp [weakSigned, weakVC], by simp [weakSigned, weakVC]⟩
  obtain ⟨t, h1, h2⟩ := C26_json_roundtrip Toy.weak_numLaws (weakSigned issuer) hc
    (by simp [weakSigned, weakVC, Survives, Json.nums]) (by simp [weakSigned, weakVC, Json.depth])
  have h3 : VC.parseJsonBytes Toy.weak (utf8 t.text) = .ok (weakSigned issuer) := by rw [utf8_eq]; exact h2
  have h5 := (C33_vc Toy.weak_jcsLaws (7 : UInt8) (utf8 t.text) .assertionMethod
      ⟨true, some (unsignedVC (weakSigned issuer))⟩).mpr
      ⟨_, _, h3, rfl, ⟨toyProof_good.1, toyProof_good.2, toyProof_good.3⟩, rfl, by decide, hc,
        ⟨_, [0], _, .base16 (isHex_iff.mpr (by decide +kernel)), isHex_iff.mpr rfl, rfl⟩, rfl⟩
  exact ⟨t, h1, h3, _, h5⟩

/-- Where signatures mean nothing the hypotheses of `C61_vc_partial` are met with different issuers, so the second
alternative occurs. -/
example : ∃ (pre : List (Bytes × Raw)) (k s t : Bytes) (bs bs' : Bytes),
    JsonText (.obj (pre ++ [(k, .str s)])) bs ∧ JsonText (.obj (pre ++ [(k, .str t)])) bs' ∧ s ≠ t ∧
    Spells k "issuer".toList ∧ AcceptedVC (E := Toy.weak) (7 : UInt8) bs .assertionMethod (weakSigned "s".toList) ∧
    AcceptedVC (E := Toy.weak) (7 : UInt8) bs' .assertionMethod (weakSigned "t".toList) := by
  obtain ⟨t, h1, h2⟩ := weakSigned_accepted "s".toList
  obtain ⟨t', h1', h2'⟩ := weakSigned_accepted "t".toList
  have e : beforeIssuer (weakSigned "t".toList) = beforeIssuer (weakSigned "s".toList) := rfl
  have p2 := printed_issuer Toy.weak_numLaws h1'
  rw [e] at p2
  have hs : encStr "s".toList ≠ encStr "t".toList := by decide +kernel
  have hk : Spells (encStr "issuer".toList) "issuer".toList := spells_of_dec (by decide +kernel) (by decide +kernel)
  exact ⟨_, _, _, _, _, _, printed_issuer Toy.weak_numLaws h1, p2, hs, hk, h2, h2'⟩

/-- A signed credential whose proof has the given identifier, where signatures mean nothing. -/
def weakProved (id : Str) : VC Toy.weak :=
  { weakVC with proof := some { toyProof with id, proofValue := "f00".toList } }

/-- Members before and after the proof, and of the proof after its identifier. -/
def provedBefore : List (Bytes × Raw) :=
  Json.toRawMembers (printNum Toy.weak.floatPrint) [("@context".toList, strArr weakVC.contexts),
    ("type".toList, strArr weakVC.types), ("credentialSubject".toList, weakVC.credentialSubject)]

def provedAfter : List (Bytes × Raw) :=
  Json.toRawMembers (printNum Toy.weak.floatPrint) [("id".toList, .str weakVC.id), ("issuer".toList, .str weakVC.issuer)]

def provedRest : List (Bytes × Raw) :=
  match (Proof.toTree { toyProof with proofValue := "f00".toList } : Json (Num Toy.weak.F)).toRaw (printNum Toy.weak.floatPrint) with
  | .obj (_ :: kvs) => kvs
  | _ => []

theorem weakProved_accepted (id : Str) : ∃ bs,
    JsonText (.obj (provedBefore ++ (encStr "proof".toList,
      .obj ([] ++ (encStr "id".toList, .str (encStr id)) :: provedRest)) :: provedAfter)) bs ∧
    AcceptedVC (E := Toy.weak) (7 : UInt8) bs .assertionMethod (weakProved id) := by
  have hc : VCComplete (weakProved id) := ⟨by simp [weakProved, weakVC], by simp [weakProved, weakVC], by simp [weakProved, weakVC]⟩
  obtain ⟨t, h1, h2⟩ := C26_json_roundtrip Toy.weak_numLaws (weakProved id) hc
    (by simp [weakProved, weakVC, Survives, Json.nums]) (by simp [weakProved, weakVC, Json.depth])
  have h3 : VC.parseJsonBytes Toy.weak (utf8 t.text) = .ok (weakProved id) := by rw [utf8_eq]; exact h2
  have h5 := (C33_vc Toy.weak_jcsLaws (7 : UInt8) (utf8 t.text) .assertionMethod
      ⟨true, some (unsignedVC (weakProved id))⟩).mpr
      ⟨_, _, h3, rfl, ⟨toyProof_good.1, toyProof_good.2, toyProof_good.3⟩, rfl, by decide, hc,
        ⟨_, [0], _, .base16 (isHex_iff.mpr (by decide +kernel)), isHex_iff.mpr rfl, rfl⟩, rfl⟩
  refine ⟨_, ?_, h3, _, h5⟩
  have e : t.text = jsonText Toy.weak (weakProved id).toTree := by
    rw [C49_vc_text Toy.weak_numLaws _ hc, Except.ok.injEq] at h1
    rw [← h1, jsonText_eq Toy.weak_numLaws, vc_tree]
  refine (Raw.parse_iff _ _).mp ?_
  rw [utf8_eq, e, jsonText_bytes Toy.weak_numLaws]
  have hk : (weakProved id).toTree.toRaw (printNum Toy.weak.floatPrint) =
      .obj (provedBefore ++ (encStr "proof".toList,
        .obj ([] ++ (encStr "id".toList, .str (encStr id)) :: provedRest)) :: provedAfter) := by
    simp [VC.toTree, weakProved, provedBefore, provedAfter, provedRest, Proof.toTree, optMember, Json.toRaw,
      Json.toRawMembers, toRawMembers_append]
  rw [← hk]
  exact Raw.parse_render _ (Json.toRaw_ok (printNum_tok Toy.weak_numLaws.tok) _)

/-- Where signatures mean nothing the hypotheses of `C61_vc_proof_partial` are met with different proof identifiers, so
the second alternative occurs. -/
example : ∃ (pre post rest : List (Bytes × Raw)) (k m s t : Bytes) (bs bs' : Bytes),
    JsonText (.obj (pre ++ (k, .obj ([] ++ (m, .str s) :: rest)) :: post)) bs ∧
    JsonText (.obj (pre ++ (k, .obj ([] ++ (m, .str t) :: rest)) :: post)) bs' ∧ s ≠ t ∧
    Spells k "proof".toList ∧ Spells m "id".toList ∧
    AcceptedVC (E := Toy.weak) (7 : UInt8) bs .assertionMethod (weakProved "s".toList) ∧
    AcceptedVC (E := Toy.weak) (7 : UInt8) bs' .assertionMethod (weakProved "t".toList) := by
  obtain ⟨bs, h1, h2⟩ := weakProved_accepted "s".toList
  obtain ⟨bs', h1', h2'⟩ := weakProved_accepted "t".toList
  have hs : encStr "s".toList ≠ encStr "t".toList := by decide +kernel
  have hk : Spells (encStr "proof".toList) "proof".toList := spells_of_dec (by decide +kernel) (by decide +kernel)
  have hm : Spells (encStr "id".toList) "id".toList := spells_of_dec (by decide +kernel) (by decide +kernel)
  exact ⟨_, _, _, _, _, _, _, _, _, h1, h1', hs, hk, hm, h2, h2'⟩

/-- The same for a presentation. -/
def weakShown (id : Str) : VP Toy.weak :=
  { weakVP [] with proof := some { toyProof with id, proofValue := "f00".toList }, holder := some "h".toList }

def shownBefore : List (Bytes × Raw) :=
  Json.toRawMembers (printNum Toy.weak.floatPrint) [("@context".toList, strArr (weakVP []).contexts),
    ("type".toList, strArr (weakVP []).types),
    ("verifiableCredential".toList, .arr ((weakVP []).verifiableCredential.map VC.toTree))]

theorem weakShown_accepted (id : Str) : ∃ bs,
    JsonText (.obj (shownBefore ++ (encStr "proof".toList,
      .obj ([] ++ (encStr "id".toList, .str (encStr id)) :: provedRest)) ::
        [(encStr "holder".toList, .str (encStr "h".toList))])) bs ∧
    AcceptedVP (E := Toy.weak) (7 : UInt8) bs .assertionMethod (weakShown id) := by
  have hc : VPComplete (weakShown id) := ⟨by simp [weakShown, weakVP], by simp [weakShown, weakVP], by simp [weakShown, weakVP]⟩
  obtain ⟨t, h1, h2⟩ := C27_json_roundtrip Toy.weak_numLaws (weakShown id) hc
    (by simp [weakShown, weakVP, weakVC, Survives, Json.nums]) (by simp [weakShown, weakVP, weakVC, Json.depth])
  have h3 : VP.parseJsonBytes Toy.weak (utf8 t.text) = .ok (weakShown id) := by rw [utf8_eq]; exact h2
  have h5 := (C33_vp Toy.weak_jcsLaws (7 : UInt8) (utf8 t.text) .assertionMethod
      ⟨true, some (unsignedVP (weakShown id))⟩).mpr
      ⟨_, _, h3, rfl, ⟨toyProof_good.1, toyProof_good.2, toyProof_good.3⟩, rfl, by decide, hc,
        ⟨_, [0], _, .base16 (isHex_iff.mpr (by decide +kernel)), isHex_iff.mpr rfl, rfl⟩, rfl⟩
  refine ⟨_, ?_, h3, _, h5⟩
  have e : t.text = jsonText Toy.weak (weakShown id).toTree := by
    rw [C49_vp_text Toy.weak_numLaws _ hc, Except.ok.injEq] at h1
    rw [← h1, jsonText_eq Toy.weak_numLaws, vp_tree]
  refine (Raw.parse_iff _ _).mp ?_
  rw [utf8_eq, e, jsonText_bytes Toy.weak_numLaws]
  have hk : (weakShown id).toTree.toRaw (printNum Toy.weak.floatPrint) =
      .obj (shownBefore ++ (encStr "proof".toList,
        .obj ([] ++ (encStr "id".toList, .str (encStr id)) :: provedRest)) ::
          [(encStr "holder".toList, .str (encStr "h".toList))]) := by
    simp [VP.toTree, weakShown, shownBefore, provedRest, Proof.toTree, optMember, Json.toRaw,
      Json.toRawMembers, toRawMembers_append]
  rw [← hk]
  exact Raw.parse_render _ (Json.toRaw_ok (printNum_tok Toy.weak_numLaws.tok) _)

/-- The same for `C61_vp_proof_partial`. -/
example : ∃ (pre post rest : List (Bytes × Raw)) (k m s t : Bytes) (bs bs' : Bytes),
    JsonText (.obj (pre ++ (k, .obj ([] ++ (m, .str s) :: rest)) :: post)) bs ∧
    JsonText (.obj (pre ++ (k, .obj ([] ++ (m, .str t) :: rest)) :: post)) bs' ∧ s ≠ t ∧
    Spells k "proof".toList ∧ Spells m "id".toList ∧
    AcceptedVP (E := Toy.weak) (7 : UInt8) bs .assertionMethod (weakShown "s".toList) ∧
    AcceptedVP (E := Toy.weak) (7 : UInt8) bs' .assertionMethod (weakShown "t".toList) := by
  obtain ⟨bs, h1, h2⟩ := weakShown_accepted "s".toList
  obtain ⟨bs', h1', h2'⟩ := weakShown_accepted "t".toList
  have hs : encStr "s".toList ≠ encStr "t".toList := by decide +kernel
  have hk : Spells (encStr "proof".toList) "proof".toList := spells_of_dec (by decide +kernel) (by decide +kernel)
  have hm : Spells (encStr "id".toList) "id".toList := spells_of_dec (by decide +kernel) (by decide +kernel)
  exact ⟨_, _, _, _, _, _, _, _, _, h1, h1', hs, hk, hm, h2, h2'⟩

/-- The members of a presentation before the holder. -/
def beforeHolder {E : Env} (v : VP E) : List (Bytes × Raw) :=
  Json.toRawMembers (printNum E.floatPrint) ([("@context".toList, strArr v.contexts),
    ("type".toList, strArr v.types), ("verifiableCredential".toList, .arr (v.verifiableCredential.map VC.toTree))]
    ++ optMember "proof".toList Proof.toTree v.proof)

theorem printed_holder {E : Env} (N : E.NumLaws) {v : VP E} {t : JSONValue} {holder : Str} (h : v.toJson = .ok t)
    (hh : v.holder = some holder) :
    JsonText (.obj (beforeHolder v ++ [(encStr "holder".toList, .str (encStr holder))])) (utf8 t.text) := by
  have e : t.text = jsonText E v.toTree := by
    have hv := (C25_serialise_iff v).1.mp ⟨t, h⟩
    rw [C49_vp_text N v hv, Except.ok.injEq] at h
    rw [← h, jsonText_eq N, vp_tree]
  have hk : v.toTree.toRaw (printNum E.floatPrint) =
      .obj (beforeHolder v ++ [(encStr "holder".toList, .str (encStr holder))]) := by
    simp [VP.toTree, beforeHolder, hh, optMember, Json.toRaw, Json.toRawMembers, toRawMembers_append]
  refine (Raw.parse_iff _ _).mp ?_
  rw [utf8_eq, e, jsonText_bytes N, ← hk]
  exact Raw.parse_render _ (Json.toRaw_ok (printNum_tok N.tok) _)

/-- The same for a presentation. -/
def weakHeld (holder : Str) : VP Toy.weak := { weakVP "f00".toList with holder := some holder }

theorem weakHeld_accepted (holder : Str) : ∃ t, (weakHeld holder).toJson = .ok t ∧
    AcceptedVP (E := Toy.weak) (7 : UInt8) (utf8 t.text) .assertionMethod (weakHeld holder) := by
  have hc : VPComplete (weakHeld holder) := ⟨by simp [weakHeld, weakVP], by simp [weakHeld, weakVP], by simp [weakHeld, weakVP]⟩
  obtain ⟨t, h1, h2⟩ := C27_json_roundtrip Toy.weak_numLaws (weakHeld holder) hc
    (by simp [weakHeld, weakVP, weakVC, Survives, Json.nums]) (by simp [weakHeld, weakVP, weakVC, Json.depth])
  have h3 : VP.parseJsonBytes Toy.weak (utf8 t.text) = .ok (weakHeld holder) := by rw [utf8_eq]; exact h2
  have h5 := (C33_vp Toy.weak_jcsLaws (7 : UInt8) (utf8 t.text) .assertionMethod
      ⟨true, some (unsignedVP (weakHeld holder))⟩).mpr
      ⟨_, _, h3, rfl, ⟨toyProof_good.1, toyProof_good.2, toyProof_good.3⟩, rfl, by decide, hc,
        ⟨_, [0], _, .base16 (isHex_iff.mpr (by decide +kernel)), isHex_iff.mpr rfl, rfl⟩, rfl⟩
  exact ⟨t, h1, h3, _, h5⟩

/-- The same for `C61_vp_partial` with different holders. -/
example : ∃ (pre : List (Bytes × Raw)) (k s t : Bytes) (bs bs' : Bytes),
    JsonText (.obj (pre ++ [(k, .str s)])) bs ∧ JsonText (.obj (pre ++ [(k, .str t)])) bs' ∧ s ≠ t ∧
    Spells k "holder".toList ∧ AcceptedVP (E := Toy.weak) (7 : UInt8) bs .assertionMethod (weakHeld "s".toList) ∧
    AcceptedVP (E := Toy.weak) (7 : UInt8) bs' .assertionMethod (weakHeld "t".toList) := by
  obtain ⟨t, h1, h2⟩ := weakHeld_accepted "s".toList
  obtain ⟨t', h1', h2'⟩ := weakHeld_accepted "t".toList
  have e : beforeHolder (weakHeld "t".toList) = beforeHolder (weakHeld "s".toList) := rfl
  have p2 := printed_holder Toy.weak_numLaws h1' rfl
  rw [e] at p2
  have hs : encStr "s".toList ≠ encStr "t".toList := by decide +kernel
  have hk : Spells (encStr "holder".toList) "holder".toList := spells_of_dec (by decide +kernel) (by decide +kernel)
  exact ⟨_, _, _, _, _, _, printed_holder Toy.weak_numLaws h1 rfl, p2, hs, hk, h2, h2'⟩

/-- A credential whose proof says something more. -/
def paddedText (more : String) : Bytes := utf8Encode
  ("{\"id\":\"i\",\"issuer\":\"s\",\"@context\":[\"c\"],\"type\":[\"t\"],\"credentialSubject\":true,\"proof\":{".toList
    ++ more.toList ++
    "\"id\":\"p\",\"type\":\"d\",\"verificationMethod\":\"m\",\"proofPurpose\":\"authentication\",\"proofValue\":\"z\"}}".toList)

/-- The members of its proof. -/
def paddedProof : List (Bytes × Raw) :=
  [(encStr "id".toList, .str (encStr "p".toList)), (encStr "type".toList, .str (encStr "d".toList)),
   (encStr "verificationMethod".toList, .str (encStr "m".toList)),
   (encStr "proofPurpose".toList, .str (encStr "authentication".toList)),
   (encStr "proofValue".toList, .str (encStr "z".toList))]

/-- Its tree. -/
def paddedTree (more : List (Bytes × Raw)) : Raw := .obj ([(encStr "id".toList, .str (encStr "i".toList)),
  (encStr "issuer".toList, .str (encStr "s".toList)), (encStr "@context".toList, .arr [.str (encStr "c".toList)]),
  (encStr "type".toList, .arr [.str (encStr "t".toList)]), (encStr "credentialSubject".toList, .bool true)] ++
  (encStr "proof".toList, .obj (more ++ paddedProof)) :: [])

theorem paddedTree_padded : PaddedVC (paddedTree []) (paddedTree [(encStr "nonce".toList, .null)]) :=
  .proof _ [] (spells_of_dec (by decide +kernel) (by decide +kernel))
    (Adds.mk [] paddedProof (k := encStr "nonce".toList) (n := "nonce".toList) .null
      (spells_of_dec (by decide +kernel) (by decide +kernel)) (by decide))

theorem paddedText_parse : JsonText (paddedTree []) (paddedText "") := jsonText_of_same (by decide +kernel)

theorem paddedText_parse' : JsonText (paddedTree [(encStr "nonce".toList, .null)]) (paddedText "\"nonce\":null,") :=
  jsonText_of_same (by decide +kernel)

theorem paddedText_reads : (VC.parseJsonBytes Toy.env (paddedText "")).isOk = true := by decide +kernel

/-- Both texts are read as one credential, and every verification of one ends like that of the other. -/
example (pub : UInt8) (purpose : ProofPurpose) :
    (∃ v, VC.parseJsonBytes Toy.env (paddedText "") = .ok v ∧
      VC.parseJsonBytes Toy.env (paddedText "\"nonce\":null,") = .ok v) ∧
    Alike (verify Toy.env (VC Toy.env) pub (paddedText "") purpose)
      (verify Toy.env (VC Toy.env) pub (paddedText "\"nonce\":null,") purpose) := by
  have h := paddedText_parse
  have h' := paddedText_parse'
  have hr := paddedText_reads
  revert h h' hr
  generalize paddedText "" = a
  generalize paddedText "\"nonce\":null," = b
  intro h h' hr
  refine ⟨?_, C61_ignored_vc (E := Toy.env) h h' paddedTree_padded pub purpose⟩
  have e : Alike (VC.parseJsonBytes Toy.env a) (VC.parseJsonBytes Toy.env b) := VC.parse_alike (by
    simp only [fromSlice, (Raw.parse_iff _ _).mpr h, (Raw.parse_iff _ _).mpr h', paddedTree_padded.dec 128])
  cases hv : VC.parseJsonBytes Toy.env a with
  | ok v => exact ⟨v, rfl, (e.ok_iff v).mp hv⟩
  | error e => rw [hv] at hr; cases hr

/-- A presentation of it. -/
def heldText (more : String) : Bytes :=
  utf8Encode "{\"@context\":[\"c\"],\"type\":[\"t\"],\"verifiableCredential\":[".toList ++ paddedText more ++
    utf8Encode "]}".toList

/-- Its tree. -/
def heldTree (more : List (Bytes × Raw)) : Raw :=
  .obj ([(encStr "@context".toList, .arr [.str (encStr "c".toList)]), (encStr "type".toList, .arr [.str (encStr "t".toList)])] ++
    (encStr "verifiableCredential".toList, .arr ([] ++ paddedTree more :: [])) :: [])

theorem heldText_parse : JsonText (heldTree []) (heldText "") := jsonText_of_same (by decide +kernel)

theorem heldText_parse' : JsonText (heldTree [(encStr "nonce".toList, .null)]) (heldText "\"nonce\":null,") :=
  jsonText_of_same (by decide +kernel)

theorem heldText_reads : (VP.parseJsonBytes Toy.env (heldText "")).isOk = true := by decide +kernel

theorem heldTree_padded : PaddedVP (heldTree []) (heldTree [(encStr "nonce".toList, .null)]) :=
  .credential _ [] [] [] (spells_of_dec (by decide +kernel) (by decide +kernel)) paddedTree_padded

example (pub : UInt8) (purpose : ProofPurpose) :
    (∃ v, VP.parseJsonBytes Toy.env (heldText "") = .ok v ∧
      VP.parseJsonBytes Toy.env (heldText "\"nonce\":null,") = .ok v) ∧
    Alike (verify Toy.env (VP Toy.env) pub (heldText "") purpose)
      (verify Toy.env (VP Toy.env) pub (heldText "\"nonce\":null,") purpose) := by
  have h := heldText_parse
  have h' := heldText_parse'
  have hr := heldText_reads
  revert h h' hr
  generalize heldText "" = a
  generalize heldText "\"nonce\":null," = b
  intro h h' hr
  refine ⟨?_, C61_ignored_vp (E := Toy.env) h h' heldTree_padded pub purpose⟩
  have e : Alike (VP.parseJsonBytes Toy.env a) (VP.parseJsonBytes Toy.env b) := VP.parse_alike (by
    simp only [fromSlice, (Raw.parse_iff _ _).mpr h, (Raw.parse_iff _ _).mpr h', heldTree_padded.dec 128])
  cases hv : VP.parseJsonBytes Toy.env a with
  | ok v => exact ⟨v, rfl, (e.ok_iff v).mp hv⟩
  | error e => rw [hv] at hr; cases hr

/-- Something added to a credential that is accepted. -/
example : ∃ (bs bs' : Bytes) (kvs : List (Bytes × Raw)) (r : VerificationResult (VC Toy.env)), JsonText (.obj kvs) bs ∧
    JsonText (.obj (kvs ++ [(encStr "validUntil".toList, .str (encStr "2099".toList))])) bs' ∧ r.verified = true ∧
    verify Toy.env (VC Toy.env) (7 : UInt8) bs .assertionMethod = .ok r ∧
    verify Toy.env (VC Toy.env) (7 : UInt8) bs' .assertionMethod = .ok r := by
  obtain ⟨_, _, _, h⟩ := C31_vc Toy.jcsLaws Toy.numLaws Toy.edLaws (7 : UInt8) toyVC toyProof toyVC_complete rfl
    toyProof_good (by decide) rfl
  obtain ⟨t, h1, h2⟩ := h (Toy.survives _) (by simp [toyVC, toySubject, Json.depth, Json.depthMembers])
  obtain ⟨kvs, h3⟩ := printed_vc Toy.numLaws h1
  obtain ⟨b1, c1, d1⟩ := C61_add_anything (E := Toy.env) h3 "validUntil".toList "2099".toList (by decide)
  exact ⟨_, b1, kvs, _, h3, c1, rfl, h2, ((d1 _ _).ok_iff _).mpr h2⟩

end Verif.Props
