import Verif.Concrete.BasesLaws
import Verif.Props.Pem

/-
C82: the texts `multibase::decode` reads, in every base of the crate, and how many of them carry the same bytes. Proof
values and published keys are read with it, and the base is ignored (C38, C15).

`Spec.CrateBases E` says that the bases the model leaves open are those of the crate (`Verif/Concrete/Bases.lean`). Which of
them take letters of either case stays open (`E.mbFold`); `hf` below says that none does.
-/

namespace Verif.Props
open Verif Spec

/-- C82: what is decoded, for every base and text. -/
theorem C82_decode {E : Env} (C : CrateBases E) (base : MBase) (b : Bytes) (t : Str) :
    E.mbDecode t = some (base, b) ↔ ∃ r, t = prefixOf base :: r ∧ IsText E.mbFold base b r := by
  rw [mbDecode_iff, Bases.multibase_iff C]

/-- C82: a text is refused when no base reads it. -/
theorem C82_refused {E : Env} (C : CrateBases E) (t : Str) :
    E.mbDecode t = none ↔ ∀ base r b, t = prefixOf base :: r → ¬ IsText E.mbFold base b r := by
  rw [mbDecode_none]
  constructor
  · intro h base r b e hr
    exact h base b ((Bases.multibase_iff C _ _ _).mpr ⟨r, e, hr⟩)
  · intro h base b hr
    obtain ⟨r, e, hr⟩ := (Bases.multibase_iff C _ _ _).mp hr
    exact h base r b e hr

/-- The bases with padding. -/
def paddedBases : List MBase :=
  [.base32PadLower, .base32PadUpper, .base32HexPadLower, .base32HexPadUpper, .base64Pad, .base64UrlPad]

/-- C82: without padding, and letters read as they are, a byte string has one text in a base; in the identity base only if it
is UTF-8. -/
theorem C82_one {E : Env} (C : CrateBases E) (base : MBase) (hf : E.mbFold base = false) (hp : base ∉ paddedBases) (b : Bytes) :
    (∀ t t', IsMultibase E base b t → IsMultibase E base b t' → t = t') ∧
    ((∃ t, IsMultibase E base b t) ↔ base = .identity → ∃ s, b = utf8 s) := by
  have hfin := (Bases.text_card base hf b).2
  have hcard := (Bases.text_card base hf b).1
  have hle : Bases.number b base ≤ 1 := by
    cases base <;> first
      | exact (hp (by decide)).elim
      | exact le_rfl
      | (show (if (utf8Decode b).isSome then 1 else 0) ≤ 1; split <;> decide)
  have hsome : (∃ r, IsText E.mbFold base b r) ↔ Bases.number b base ≠ 0 := by
    rw [← hcard, ne_eq, Set.ncard_eq_zero hfin, ← ne_eq, ← Set.nonempty_iff_ne_empty]
    rfl
  constructor
  · intro t t' h h'
    obtain ⟨r, rfl, hr⟩ := (Bases.multibase_iff C _ _ _).mp h
    obtain ⟨r', rfl, hr'⟩ := (Bases.multibase_iff C _ _ _).mp h'
    rw [(Set.ncard_le_one hfin).mp (hcard.trans_le hle) r hr r' hr']
  · have e : (∃ t, IsMultibase E base b t) ↔ ∃ r, IsText E.mbFold base b r := by
      constructor
      · rintro ⟨t, h⟩
        obtain ⟨r, -, h⟩ := (Bases.multibase_iff C _ _ _).mp h
        exact ⟨r, h⟩
      · rintro ⟨r, h⟩
        exact ⟨_, (Bases.multibase_iff C _ _ _).mpr ⟨r, rfl, h⟩⟩
    rw [e]
    by_cases hi : base = .identity
    · subst hi
      constructor
      · rintro ⟨r, h⟩ -
        exact ⟨r, Eq.symm h⟩
      · intro h
        obtain ⟨s, hs⟩ := h rfl
        exact ⟨s, hs.symm⟩
    · rw [hsome]
      refine iff_of_true ?_ fun h => absurd h hi
      cases base <;> first
        | exact (hp (by decide)).elim
        | exact absurd rfl hi
        | exact one_ne_zero

/-- C82: the number of texts of a byte string, letters read as they are. Each padded text is one way to cut the bytes into
blocks: of at most five bytes in base 32, of at most three in base 64. -/
theorem C82_count {E : Env} (C : CrateBases E) (hf : ∀ base, E.mbFold base = false) (b : Bytes) :
    ((∃ s, b = utf8 s) → {t | ∃ base, IsMultibase E base b t}.ncard =
      17 + 4 * (Parts 5 b.length).ncard + 2 * (Parts 3 b.length).ncard) ∧
    ((¬ ∃ s, b = utf8 s) → {t | ∃ base, IsMultibase E base b t}.ncard =
      16 + 4 * (Parts 5 b.length).ncard + 2 * (Parts 3 b.length).ncard) := by
  have h := (Bases.multibase_card C hf b).1
  constructor
  · rintro ⟨s, hs⟩
    rw [(utf8Decode_iff b s).mpr hs, Option.isSome_some, if_pos rfl] at h
    omega
  · intro hn
    have : utf8Decode b = none := by
      cases hd : utf8Decode b with
      | none => rfl
      | some s => exact absurd ⟨s, (utf8Decode_iff b s).mp hd⟩ hn
    rw [this, Option.isSome_none, if_neg (by decide)] at h
    omega

/-- C82: a base that takes letters of either case reads every choice of cases, so that each letter doubles the texts. -/
theorem C82_letters {E : Env} (C : CrateBases E) (base : MBase) (hf : E.mbFold base = true) (hc : base ∈ Bases.casedBases) (b : Bytes) :
    ∃ s, (∀ r, IsText (fun _ => false) base b r ↔ r = s) ∧
      {t | IsMultibase E base b t}.ncard = 2 ^ s.countP Char.isAlpha := by
  have h1 : {t | IsText (fun _ => false) base b t}.ncard = 1 := by
    rw [(Bases.text_card base rfl b).1]
    simp only [Bases.casedBases, List.mem_cons, List.not_mem_nil, or_false] at hc
    rcases hc with rfl | rfl | rfl | rfl | rfl | rfl | rfl | rfl | rfl <;> rfl
  obtain ⟨s, hs⟩ := Set.ncard_eq_one.mp h1
  have hs' : ∀ r, IsText (fun _ => false) base b r ↔ r = s := fun r => by
    have : r ∈ {t | IsText (fun _ => false) base b t} ↔ r ∈ ({s} : Set Str) := by rw [hs]
    exact this
  refine ⟨s, hs', ?_⟩
  have e : {t | IsMultibase E base b t} = List.cons (prefixOf base) '' {t | IsText E.mbFold base b t} := by
    ext t
    rw [Set.mem_ofPred_eq, Bases.multibase_iff C]
    constructor
    · rintro ⟨r, rfl, h⟩; exact ⟨r, h, rfl⟩
    · rintro ⟨r, h, rfl⟩; exact ⟨r, rfl, h⟩
  rw [e, Set.ncard_image_of_injective _ List.cons_injective]
  exact Bases.cased_card hf hc ((hs' s).mpr rfl)

theorem spellings_finite {E : Env} (C : CrateBases E) (b : Bytes) : {t | ∃ base, IsMultibase E base b t}.Finite := by
  have hfin : ∀ base, {t | IsMultibase E base b t}.Finite := by
    intro base
    have e : {t | IsMultibase E base b t} = List.cons (prefixOf base) '' {t | IsText E.mbFold base b t} := by
      ext t
      rw [Set.mem_ofPred_eq, Bases.multibase_iff C]
      constructor
      · rintro ⟨r, rfl, h⟩; exact ⟨r, h, rfl⟩
      · rintro ⟨r, h, rfl⟩; exact ⟨r, rfl, h⟩
    rw [e]
    exact (Bases.text_finite _ _ _).image _
  have e : {t | ∃ base, IsMultibase E base b t} = ⋃ base ∈ Bases.allBases.toFinset, {t | IsMultibase E base b t} := by
    ext t
    simp [Bases.mem_allBases]
  rw [e]
  exact Set.Finite.biUnion (Finset.finite_toSet _) fun base _ => hfin base

/-- An environment with the crate's bases; `fold` says which take letters of either case. -/
@[reducible] def rebased (E : Env) (fold : MBase → Bool) : Env := { E with mbFold := fold, mbOther := Bases.decode fold }

theorem rebased_crate (E : Env) (fold : MBase → Bool) : CrateBases (rebased E fold) := fun _ _ _ _ => rfl

/-- C82: 64 bytes, as a signature or the hex text of a key has, have more than 13 quintillion texts. -/
theorem C82_sixty_four {E : Env} (C : CrateBases E) (b : Bytes) (hb : b.length = 64) :
    {t | ∃ base, IsMultibase E base b t}.Finite ∧
    13332121089964925202 ≤ {t | ∃ base, IsMultibase E base b t}.ncard ∧
    ((∃ s, b = utf8 s) → 13332121089964925203 ≤ {t | ∃ base, IsMultibase E base b t}.ncard) ∧
    ((∀ base, E.mbFold base = false) → {t | ∃ base, IsMultibase E base b t}.ncard ≤ 13332121089964925203) := by
  have hfin := spellings_finite C b
  have hw := Bases.ways_64
  have hp := C82_count (rebased_crate E fun _ => false) (fun _ => rfl) b
  have hsub : {t | ∃ base, IsMultibase (rebased E fun _ => false) base b t} ⊆ {t | ∃ base, IsMultibase E base b t} := by
    rintro t ⟨base, h⟩
    obtain ⟨r, rfl, hr⟩ := (Bases.multibase_iff (rebased_crate E fun _ => false) _ _ _).mp h
    exact ⟨base, (Bases.multibase_iff C _ _ _).mpr ⟨r, rfl, Bases.strict_text _ _ _ _ hr⟩⟩
  have hle := Set.ncard_le_ncard hsub hfin
  rw [hb, hw.1, hw.2] at hp
  refine ⟨hfin, ?_, ?_, ?_⟩
  · refine le_trans ?_ hle
    by_cases hs : ∃ s, b = utf8 s
    · rw [hp.1 hs]; omega
    · rw [hp.2 hs]
  · intro hs
    refine le_trans ?_ hle
    rw [hp.1 hs]
  · intro hf
    have hc := C82_count C hf b
    rw [hb, hw.1, hw.2] at hc
    by_cases hs : ∃ s, b = utf8 s
    · rw [hc.1 hs]
    · rw [hc.2 hs]; omega

/-- C82: a signed credential is accepted with each of more than 13 quintillion proof values, all made from the one it was
given without the key. -/
theorem C82_vc {E : Env} (C : CrateBases E) (L : E.JcsLaws) (N : E.NumLaws) (K : E.EdLaws) (kp : E.EdKP)
    (h64 : ∀ m, (E.edSign kp m).length = 64) (v : VC E)
    (opts : Proof) (hv : VCComplete v) (hn : Survives E v.credentialSubject.1) (hd : v.credentialSubject.1.depth ≤ 126) (hproof : v.proof = none)
    (ho : GoodOptions E opts) (hp : opts.proofPurpose ≠ .unknown) (hval : opts.proofValue = []) :
    ∃ (signed : VC E) (q : Proof) (values : Set Str), sign E (VC E) kp v opts = .ok signed ∧ signed.proof = some q ∧
      values.Finite ∧ 13332121089964925202 ≤ values.ncard ∧ q.proofValue ∈ values ∧
      ∀ x, x ∈ values →
        (∃ sig base, IsMultibase58 sig q.proofValue ∧ IsMultibase E base sig x) ∧
        ∃ t, ({ signed with proof := some { q with proofValue := x } } : VC E).toJson = .ok t ∧
          AcceptedVC (E.edPub kp) t.toBytes opts.proofPurpose { signed with proof := some { q with proofValue := x } } := by
  obtain ⟨c, t, s, pr, i, iss⟩ := v
  obtain ⟨oi, ot, op, ov, om, oc, oe, os⟩ := opts
  simp only at hproof hval
  subst hproof hval
  have hs := ((C32_vc L kp ⟨c, t, s, none, i, iss⟩ ⟨oi, ot, op, [], om, oc, oe, os⟩).1 _).mpr
    ⟨ho, hp, hv, _, multibaseEncode58_spec _, rfl⟩
  obtain ⟨h1, h2, -⟩ := C82_sixty_four C (E.edSign kp
    (message E (optionBytes E (unvalued ⟨oi, ot, op, [], om, oc, oe, os⟩)) (vcBytes (unsignedVC (⟨c, t, s, none, i, iss⟩ : VC E))))) (h64 _)
  refine ⟨_, _, _, hs, rfl, h1, h2, ⟨.base58Btc, .base58 (multibaseEncode58_spec _)⟩, ?_⟩
  rintro x ⟨base, hx⟩
  exact ⟨⟨_, base, multibaseEncode58_spec _, hx⟩,
    accepted_vc L N K kp ⟨c, t, s, none, i, iss⟩ ⟨oi, ot, op, [], om, oc, oe, os⟩ hv hn hd ho hp base x hx⟩

/-- C82: the same for presentations. -/
theorem C82_vp {E : Env} (C : CrateBases E) (L : E.JcsLaws) (N : E.NumLaws) (K : E.EdLaws) (kp : E.EdKP)
    (h64 : ∀ m, (E.edSign kp m).length = 64) (v : VP E)
    (opts : Proof) (hv : VPComplete v) (hn : ∀ c ∈ v.verifiableCredential, Survives E c.credentialSubject.1)
    (hd : ∀ c ∈ v.verifiableCredential, c.credentialSubject.1.depth ≤ 124) (hproof : v.proof = none)
    (ho : GoodOptions E opts) (hp : opts.proofPurpose ≠ .unknown) (hval : opts.proofValue = []) :
    ∃ (signed : VP E) (q : Proof) (values : Set Str), sign E (VP E) kp v opts = .ok signed ∧ signed.proof = some q ∧
      values.Finite ∧ 13332121089964925202 ≤ values.ncard ∧ q.proofValue ∈ values ∧
      ∀ x, x ∈ values →
        (∃ sig base, IsMultibase58 sig q.proofValue ∧ IsMultibase E base sig x) ∧
        ∃ t, ({ signed with proof := some { q with proofValue := x } } : VP E).toJson = .ok t ∧
          AcceptedVP (E.edPub kp) t.toBytes opts.proofPurpose { signed with proof := some { q with proofValue := x } } := by
  obtain ⟨c, t, s, pr, i⟩ := v
  obtain ⟨oi, ot, op, ov, om, oc, oe, os⟩ := opts
  simp only at hproof hval
  subst hproof hval
  have hs := ((C32_vp L kp ⟨c, t, s, none, i⟩ ⟨oi, ot, op, [], om, oc, oe, os⟩).1 _).mpr
    ⟨ho, hp, hv, _, multibaseEncode58_spec _, rfl⟩
  obtain ⟨h1, h2, -⟩ := C82_sixty_four C (E.edSign kp
    (message E (optionBytes E (unvalued ⟨oi, ot, op, [], om, oc, oe, os⟩)) (vpBytes (unsignedVP (⟨c, t, s, none, i⟩ : VP E))))) (h64 _)
  refine ⟨_, _, _, hs, rfl, h1, h2, ⟨.base58Btc, .base58 (multibaseEncode58_spec _)⟩, ?_⟩
  rintro x ⟨base, hx⟩
  exact ⟨⟨_, base, multibaseEncode58_spec _, hx⟩,
    accepted_vp L N K kp ⟨c, t, s, none, i⟩ ⟨oi, ot, op, [], om, oc, oe, os⟩ hv hn hd ho hp base x hx⟩

/-- C82: a key published for 32 bytes is decoded alike from each of more than 13 quintillion texts. -/
theorem C82_key {E : Env} (C : CrateBases E) (p : Primary) (key : Bytes) (hk : IsKeyText key p.multibase) (h32 : key.length = 32) :
    ∃ texts : Set Str, texts.Finite ∧ 13332121089964925203 ≤ texts.ncard ∧ p.multibase ∈ texts ∧
      ∀ t ∈ texts, ({ p with multibase := t } : Primary).decodePubKey E = p.decodePubKey E := by
  obtain ⟨hex, h1, h2⟩ := hk
  have hl : (utf8 hex).length = 64 := by
    rw [h1.unique, utf8_length_of_ascii fun c hc => ?_, hexEncode_length, h32]
    have := hexEncode_chars key c hc
    omega
  obtain ⟨f1, -, f2, -⟩ := C82_sixty_four C (utf8 hex) hl
  refine ⟨_, f1, f2 ⟨hex, rfl⟩, ⟨.base58Btc, .base58 h2⟩, ?_⟩
  rintro t ⟨base, ht⟩
  exact C15_base_irrelevant p t .base58Btc base _ (.base58 h2) ht

/-- C82: so it is for every key of the document of an identity, whatever was called on it before. -/
theorem C82_document {E : Env} (C : CrateBases E) (v : Str) (ops : List (IdOp E))
    (he : ∀ k, (E.edPubBytes (E.edPub k)).length = 32) (hd : ∀ k, (E.dhPubBytes (E.dhPub k)).length = 32)
    (p : Primary) (hp : p ∈ (idRun v ops).toDoc.authentication.getD [] ++ (idRun v ops).toDoc.assertion.getD []) :
    ∃ texts : Set Str, texts.Finite ∧ 13332121089964925203 ≤ texts.ncard ∧ p.multibase ∈ texts ∧
      ∀ t ∈ texts, ({ p with multibase := t } : Primary).decodePubKey E = p.decodePubKey E := by
  obtain ⟨_, _, _, _, h1, h2, _⟩ := C12_document v ops
  have key : ∀ (o : Option (MethodSeed E)) (x : Option (List Primary)) (a b : Str), EntriesIs E v a b o x →
      p ∈ x.getD [] → ∃ k : Bytes, IsKeyText k p.multibase ∧ k.length = 32 := by
    intro o x a b h hp
    cases o with
    | none => rw [show x = none from h] at hp; simp at hp
    | some s =>
      obtain ⟨l, rfl, kv, ka, rfl, hv, ha⟩ := h
      simp only [Option.getD_some, List.mem_cons, List.not_mem_nil, or_false] at hp
      rcases hp with rfl | rfl
      · exact ⟨_, hv, he _⟩
      · exact ⟨_, ha, hd _⟩
  obtain ⟨k, hk, h32⟩ : ∃ k : Bytes, IsKeyText k p.multibase ∧ k.length = 32 := by
    rcases List.mem_append.mp hp with hp | hp
    · exact key _ _ _ _ h1 hp
    · exact key _ _ _ _ h2 hp
  exact C82_key C p k hk h32

/-- C82: a hashlink, of which only the base58btc text is taken, has one text. -/
theorem C82_hashlink {E : Env} (H : E.HashLaws) (v : JSONValue) :
    {t | Hashlink.verifyFromJson E (.ok v) t = .ok ()}.ncard = 1 := by
  obtain ⟨t, h1, -⟩ := (C20_roundtrip H (.ok v)).1 v rfl
  rw [Set.ncard_eq_one]
  refine ⟨t, ?_⟩
  ext x
  rw [Set.mem_ofPred_eq, (C21_exact H v x).1, h1, Set.mem_singleton_iff]
  constructor
  · intro h; cases h; rfl
  · rintro rfl; rfl

/-! ### A world -/

theorem rebased_laws {E : Env} (fold : MBase → Bool) (L : E.JcsLaws) (N : E.NumLaws) (K : E.EdLaws) :
    (rebased E fold).JcsLaws ∧ (rebased E fold).NumLaws ∧ (rebased E fold).EdLaws :=
  ⟨⟨L.1, L.2, L.3, L.4⟩, N, ⟨K.1, K.2⟩⟩

/-- Every base takes letters as they are. -/
def strictly : MBase → Bool := fun _ => false

/-- The bases with letters of one case and without padding take either case. -/
def loosely : MBase → Bool := fun base => decide (base ∈ Bases.casedBases)

/-- `C82_decode`: the same two bytes in base 64 without and with padding, and with the padding put after each byte. -/
example : (rebased Toy.env strictly).mbDecode "mAQI".toList = some (.base64, [1, 2]) ∧
    (rebased Toy.env strictly).mbDecode "MAQI=".toList = some (.base64Pad, [1, 2]) ∧
    (rebased Toy.env strictly).mbDecode "MAQ==Ag==".toList = some (.base64Pad, [1, 2]) ∧
    (rebased Toy.env strictly).mbDecode "mAQI=".toList = none := by decide +kernel

/-- `C82_refused`: an upper-case hex digit behind `f`, unless either case is taken; a base that does not exist. -/
example : (rebased Toy.env strictly).mbDecode "fAb".toList = none ∧
    (rebased Toy.env loosely).mbDecode "fAb".toList = some (.base16Lower, [0xab]) ∧
    (rebased Toy.env loosely).mbDecode "xAb".toList = none := by decide +kernel

/-- `C82_one`: a byte that is no text has none in the identity base; it has one in base 64. -/
example : (¬ ∃ t, IsMultibase (rebased Toy.env strictly) .identity [255] t) ∧
    (∃ t, IsMultibase (rebased Toy.env strictly) .base64 [255] t) ∧
    ∀ t t', IsMultibase (rebased Toy.env strictly) .base64 [255] t → IsMultibase (rebased Toy.env strictly) .base64 [255] t' → t = t' := by
  have C := rebased_crate Toy.env strictly
  refine ⟨fun h => ?_, (C82_one C .base64 rfl (by decide) [255]).2.mpr (fun h => nomatch h), (C82_one C .base64 rfl (by decide) [255]).1⟩
  obtain ⟨s, hs⟩ := (C82_one C .identity rfl (by decide) [255]).2.mp h rfl
  have := (utf8Decode_iff _ s).mpr hs
  revert this
  rw [show utf8Decode [255] = none by decide +kernel]
  exact fun h => nomatch h

/-- The ways to cut five bytes into blocks. -/
theorem parts_five : (Parts 5 5).ncard = 16 ∧ (Parts 3 5).ncard = 13 := by
  constructor <;> (rw [Bases.ways_eq]; decide +kernel)

/-- `C82_count`: "Hello" has 107 texts. -/
example : {t | ∃ base, IsMultibase (rebased Toy.env strictly) base [72, 101, 108, 108, 111] t}.ncard = 107 := by
  have h := (C82_count (rebased_crate Toy.env strictly) (fun _ => rfl) [72, 101, 108, 108, 111]).1
    ⟨"Hello".toList, by rw [utf8_eq]; decide +kernel⟩
  rw [h, show ([72, 101, 108, 108, 111] : Bytes).length = 5 from rfl, parts_five.1, parts_five.2]

/-- `C82_sixty_four`: 64 zero bytes. -/
example : 13332121089964925203 ≤ {t | ∃ base, IsMultibase (rebased Toy.env strictly) base (List.replicate 64 0) t}.ncard :=
  (C82_sixty_four (rebased_crate Toy.env strictly) (List.replicate 64 0) rfl).2.2.1
    ⟨List.replicate 64 '\x00', by rw [utf8_eq]; decide +kernel⟩

/-- `C82_letters`: if either case is taken, "Hello" has eight texts behind `f`: its hex text 48656c6c6f has three letters. -/
example : {t | IsMultibase (rebased Toy.env loosely) .base16Lower [72, 101, 108, 108, 111] t}.ncard = 8 := by
  obtain ⟨s, h1, h2⟩ := C82_letters (rebased_crate Toy.env loosely) .base16Lower (by decide) (by decide) [72, 101, 108, 108, 111]
  rw [h2, ← (h1 "48656c6c6f".toList).mp ((Bases.decode_iff _ _ _ _).mp (by decide +kernel))]
  decide +kernel

/-- `C82_vc` and `C82_vp`: documents in a world of the standard algorithms, whichever bases take either case. -/
theorem rebased_vc {E : Env} {seed : E.EdKP → Bytes} {bits : E.F → Double.F64} (S : Standard E seed bits) (kp : E.EdKP)
    (ho : GoodOptions E toyProof) (fold : MBase → Bool) : ∃ (signed : VC (rebased E fold)) (q : Proof) (values : Set Str),
    sign _ (VC (rebased E fold)) kp ⟨["c".toList], ["t".toList], ⟨.str "x".toList, trivial⟩, none, "i".toList, "j".toList⟩ toyProof = .ok signed ∧
    signed.proof = some q ∧ 13332121089964925202 ≤ values.ncard ∧
    ∀ x ∈ values, ∃ bs, AcceptedVC ((rebased E fold).edPub kp) bs .assertionMethod
      { signed with proof := some { q with proofValue := x } } := by
  obtain ⟨-, K, -, -, -, N, L⟩ := C81_all S
  obtain ⟨L', N', K'⟩ := rebased_laws fold L N K
  obtain ⟨s, q, vs, h1, h2, -, h3, -, h4⟩ := C82_vc (rebased_crate E fold) L' N' K' kp
    (fun m => (congrArg List.length (S.signatures.sign kp m)).trans (Ed25519.sign_length _ _)) ⟨["c".toList], ["t".toList], ⟨.str "x".toList, trivial⟩, none, "i".toList, "j".toList⟩ toyProof
    ⟨by simp, by simp, by simp⟩ (by simp [Survives, Json.nums]) (by simp [Json.depth]) rfl ⟨ho.1, ho.2, ho.3⟩ (by decide) rfl
  exact ⟨s, q, vs, h1, h2, h3, fun x hx => by obtain ⟨-, t, -, h⟩ := h4 x hx; exact ⟨_, h⟩⟩

theorem rebased_vp {E : Env} {seed : E.EdKP → Bytes} {bits : E.F → Double.F64} (S : Standard E seed bits) (kp : E.EdKP)
    (ho : GoodOptions E toyProof) (fold : MBase → Bool) : ∃ (signed : VP (rebased E fold)) (q : Proof) (values : Set Str),
    sign _ (VP (rebased E fold)) kp ⟨["c".toList], ["t".toList],
      [⟨["c".toList], ["t".toList], ⟨.str "x".toList, trivial⟩, none, "i".toList, "j".toList⟩], none, some "h".toList⟩ toyProof = .ok signed ∧
    signed.proof = some q ∧ 13332121089964925202 ≤ values.ncard ∧
    ∀ x ∈ values, ∃ bs, AcceptedVP ((rebased E fold).edPub kp) bs .assertionMethod
      { signed with proof := some { q with proofValue := x } } := by
  obtain ⟨-, K, -, -, -, N, L⟩ := C81_all S
  obtain ⟨L', N', K'⟩ := rebased_laws fold L N K
  obtain ⟨s, q, vs, h1, h2, -, h3, -, h4⟩ := C82_vp (rebased_crate E fold) L' N' K' kp
    (fun m => (congrArg List.length (S.signatures.sign kp m)).trans (Ed25519.sign_length _ _)) ⟨["c".toList], ["t".toList],
      [⟨["c".toList], ["t".toList], ⟨.str "x".toList, trivial⟩, none, "i".toList, "j".toList⟩], none, some "h".toList⟩ toyProof
    ⟨by simp, by simp, by simp⟩ (by simp [Survives, Json.nums]) (by simp [Json.depth]) rfl ⟨ho.1, ho.2, ho.3⟩ (by decide) rfl
  exact ⟨s, q, vs, h1, h2, h3, fun x hx => by obtain ⟨-, t, -, h⟩ := h4 x hx; exact ⟨_, h⟩⟩

theorem standard_options : GoodOptions standard toyProof := ⟨toyProof_good.1, toyProof_good.2, toyProof_good.3⟩

/-- The hypotheses hold. -/
example := fun fold => And.intro (rebased_vc standard_standard sampleKey standard_options fold)
  (rebased_vp standard_standard sampleKey standard_options fold)

/-- `C82_key` and `C82_document`: the entries for a built method. -/
example (fold : MBase → Bool) : ∃ p, p ∈ ((idRun (E := rebased standard fold) "did:x".toList
      [.auth ⟨sampleKey, (⟨List.replicate 32 9, rfl⟩ : Bytes32)⟩]).toDoc.authentication.getD []) ∧
    ∃ texts : Set Str, 13332121089964925203 ≤ texts.ncard ∧
      ∀ t ∈ texts, ({ p with multibase := t } : Primary).decodePubKey (rebased standard fold) = p.decodePubKey (rebased standard fold) := by
  have hd := C82_document (rebased_crate standard fold) "did:x".toList [.auth ⟨sampleKey, (⟨List.replicate 32 9, rfl⟩ : Bytes32)⟩]
    (fun k => (congrArg List.length (standard_signatures.pub k)).trans (Ed25519.publicKey_length _))
    (fun k => (congrArg List.length (standard_agreement.pub k)).trans (X25519.publicKey_length _))
  obtain ⟨-, _, _, _, ⟨l, hl, kv, ka, e, -⟩, -⟩ := C12_document (E := rebased standard fold) "did:x".toList
    [.auth ⟨sampleKey, (⟨List.replicate 32 9, rfl⟩ : Bytes32)⟩]
  rw [hl, e] at hd ⊢
  obtain ⟨ts, -, h2, -, h4⟩ := hd _ (List.mem_append_left _ (List.mem_cons_self ..))
  exact ⟨_, List.mem_cons_self .., ts, h2, h4⟩

/-- `C82_hashlink` -/
example : {t | Hashlink.verifyFromJson Toy.env (.ok ⟨"{}".toList⟩) t = .ok ()}.ncard = 1 := C82_hashlink Toy.hashLaws _

end Verif.Props
