import Verif.Props.Builds
import Verif.Props.Careful
import Verif.Props.Nearby
import Verif.Props.Verifiers

/-
C106: two builds of the library may differ on dates, multibase letters, weak keys and signatures (C92, C100). A caller's
reader that asks a little more than the careful reader of C101, with checks of its own that involve no dependency, gets the
same answer for every text from every build, also from one whose signature check is stricter than RFC 8032; and a caller's
issuer that reads its own text back before it publishes it knows that all of them accept it
(core/src/verifiable/proof/integrity.rs, eddsa.rs, core/src/verifiable/objects/vc.rs, vp.rs).
-/

namespace Verif.Portable
open Verif Careful

/-- What the reader knows: which expiry dates have passed, and the bytes of the public key of a verification method. -/
structure Table where
  expired : Str → Bool
  keyBytes : Str → Option Bytes

/-- The bytes decode to a point, and not to one that eight times itself is neutral. -/
def keyOk (b : Bytes) : Bool :=
  match Ed25519.pointDecompress b with
  | none => false
  | some A => !Ed25519.pointEqual (Ed25519.pointMul 8 A) Ed25519.neutral

/-- Only such keys are used. -/
def policy (E : Env) (T : Table) : Policy E where
  expired := T.expired
  keyOf m :=
    match T.keyBytes m with
    | none => none
    | some b => if keyOk b = true then E.edPubOfBytes b else none

def digits (s : Str) : Bool := s.all fun c => decide (48 ≤ c.toNat ∧ c.toNat ≤ 57)

def value (s : Str) : Nat := s.foldl (fun n c => 10 * n + (c.toNat - 48)) 0

def lastDay (y m : Nat) : Nat :=
  if m = 2 then (if y % 4 = 0 ∧ (y % 100 ≠ 0 ∨ y % 400 = 0) then 29 else 28) else if m ∈ [4, 6, 9, 11] then 30 else 31

/-- `yyyy-mm-ddThh:mm:ssZ`, nothing else. -/
def dateOk (t : Str) : Bool :=
  let y := t.take 4
  let m := (t.drop 5).take 2
  let d := (t.drop 8).take 2
  let h := (t.drop 11).take 2
  let i := (t.drop 14).take 2
  let s := (t.drop 17).take 2
  decide (t.length = 20 ∧ t = y ++ "-".toList ++ m ++ "-".toList ++ d ++ 'T' :: h ++ ":".toList ++ i ++ ":".toList ++ s ++ "Z".toList ∧
    (digits y = true ∧ digits m = true ∧ digits d = true ∧ digits h = true ∧ digits i = true ∧ digits s = true) ∧
    (1 ≤ value m ∧ value m ≤ 12) ∧ (1 ≤ value d ∧ value d ≤ lastDay (value y) (value m)) ∧ value h < 24 ∧ value i < 60 ∧ value s < 60)

/-- The first half of the signature must be such a point too. -/
def headOk (E : Env) (t : Str) : Bool :=
  match E.mbDecode t with
  | none => false
  | some (_, sig) => keyOk (sig.take 32)

def proofOk (E : Env) : Option Proof → Bool
  | none => false
  | some p => (match p.created with | none => false | some c => dateOk c) && headOk E p.proofValue

/-- Reads a credential. -/
def readVC (E : Env) (T : Table) (purpose : ProofPurpose) (bs : Bytes) : Option (VC E) :=
  match Careful.readVC (policy E T) purpose bs with
  | none => none
  | some v => if proofOk E v.proof = true then some v else none

/-- Reads a presentation; the credentials inside are held to the same. -/
def readVP (E : Env) (T : Table) (purpose : ProofPurpose) (bs : Bytes) : Option (VP E) :=
  match Careful.readVP (policy E T) purpose bs with
  | none => none
  | some v => if proofOk E v.proof = true ∧ v.verifiableCredential.all (fun c => proofOk E c.proof) = true then some v else none

/-- Signs, writes the canonical text and publishes it if it reads back. -/
def issueVC (E : Env) (T : Table) (kp : E.EdKP) (v : VC E) (opts : Proof) : Option Str :=
  match signVC kp v opts with
  | .error _ => none
  | .ok signed =>
    match signed.toJcs with
    | .error _ => none
    | .ok t => if (readVC E T opts.proofPurpose (utf8Encode t)).isSome = true then some t else none

/-- The same for presentations. -/
def issueVP (E : Env) (T : Table) (kp : E.EdKP) (v : VP E) (opts : Proof) : Option Str :=
  match signVP kp v opts with
  | .error _ => none
  | .ok signed =>
    match signed.toJcs with
    | .error _ => none
    | .ok t => if (readVP E T opts.proofPurpose (utf8Encode t)).isSome = true then some t else none

end Verif.Portable

namespace Verif.Spec
open Verif Portable Props

/-- Signature checks between the strict one and that of RFC 8032, for public keys that are points. -/
def Between (E : Env) : Prop := ∀ p m sig, Ed25519.pointDecompress (E.edPubBytes p) ≠ none →
  (Spec.strictly (E.edPubBytes p) m sig → E.edVerify p m (hexEncode sig) = .ok true) ∧
  (E.edVerify p m (hexEncode sig) = .ok true → plainly (E.edPubBytes p) m sig)

/-- A date and time in UTC to the second, with four digits for the year. -/
def Zulu (t : Str) : Prop :=
  ∃ y mo d h mi s year, Shape y mo d h mi s year 'T' "Z".toList t ∧ year.length = 4 ∧ h < 24 ∧ s < 60

/-- A proof as the standards have it, with no word left to the dependencies but the sorting of the members of the options. -/
structure Agreed (E : Env) (T : Table) (did : Str) (purpose : ProofPurpose) (p : Proof) (doc : Bytes) : Prop where
  type : p.typ = "DataIntegrityProof".toList
  suite : p.cryptosuite = some "eddsa-jcs-2022".toList
  created : ∃ c, p.created = some c ∧ Zulu c
  aim : p.proofPurpose = purpose
  known : purpose ≠ .unknown
  fresh : ∀ e, p.expires = some e → T.expired e = false
  owner : ∃ fragment, p.verificationMethod = did ++ '#' :: fragment
  signed : ∃ key sig, T.keyBytes p.verificationMethod = some key ∧ IsMultibase58 sig p.proofValue ∧
    Spec.strictly key (Sha2.sha256 (optionBytes E (unvalued p)) ++ Sha2.sha256 doc) sig

structure AgreedVC (E : Env) (T : Table) (purpose : ProofPurpose) (bs : Bytes) (v : VC E) : Prop where
  complete : VCComplete v
  text : bs = vcBytes v
  reads : VC.parseJsonBytes E bs = .ok v
  proof : ∃ p, v.proof = some p ∧ Agreed E T v.issuer purpose p (vcBytes (unsignedVC v))

structure AgreedVP (E : Env) (T : Table) (purpose : ProofPurpose) (bs : Bytes) (v : VP E) : Prop where
  complete : VPComplete v
  text : bs = vpBytes v
  reads : VP.parseJsonBytes E bs = .ok v
  proof : ∃ p h, v.proof = some p ∧ v.holder = some h ∧ Agreed E T h purpose p (vpBytes (unsignedVP v))
  credentials : ∀ c ∈ v.verifiableCredential, AgreedVC E T .assertionMethod (vcBytes c) c

end Verif.Spec

namespace Verif.Props
open Verif Spec Portable

/-! ### The checks -/

theorem digits_dec (s : Str) : digits s = true ↔ Decimals s := by
  unfold digits Decimals
  rw [List.all_eq_true]
  exact forall_congr' fun c => forall_congr' fun _ => decide_eq_true_iff

theorem value_eq (s : Str) : value s = Nat.ofDigits 10 (s.reverse.map fun c => c.toNat - 48) := by
  induction s using List.reverseRecOn with
  | nil => rfl
  | append_singleton s c ih =>
    unfold value at *
    rw [List.foldl_append, ih, List.reverse_append]
    simp [Nat.ofDigits_cons]
    omega

theorem leap_iff (y : Nat) : (y % 4 = 0 ∧ (y % 100 ≠ 0 ∨ y % 400 = 0)) ↔ Leap y := by
  unfold Leap
  omega

theorem lastDay_iff (y m d : Nat) (hm : 1 ≤ m ∧ m ≤ 12) : (1 ≤ d ∧ d ≤ lastDay y m) ↔ Day y m d := by
  constructor
  · rintro ⟨h1, h2⟩
    refine ⟨hm, ⟨h1, ?_⟩, ?_, ?_⟩
    · unfold lastDay at h2
      split_ifs at h2 <;> omega
    · intro h
      unfold lastDay at h2
      rw [if_neg (by rintro rfl; revert h; decide), if_pos h] at h2
      exact h2
    · rintro rfl
      unfold lastDay at h2
      rw [if_pos rfl] at h2
      split_ifs at h2 with hl
      · exact ⟨h2, fun _ => (leap_iff y).mp hl⟩
      · exact ⟨by omega, by omega⟩
  · rintro ⟨-, ⟨h1, h2⟩, h3, h4⟩
    refine ⟨h1, ?_⟩
    unfold lastDay
    split_ifs with h5 h6 h7
    · exact (h4 h5).1
    · have := (h4 h5)
      rcases Nat.lt_or_ge d 29 with h | h
      · omega
      · exact absurd ((leap_iff y).mpr (this.2 (by omega))) h6
    · exact h3 h7
    · exact h2

theorem two_iff (s : Str) (hl : s.length = 2) (hd : digits s = true) : Two (value s) s :=
  ⟨⟨(by rintro rfl; cases hl), by omega, (digits_dec s).mp hd, value_eq s⟩, hl⟩

/-- C106: the caller's check of the date takes exactly the dates of this form. -/
theorem C106_date (t : Str) : dateOk t = true ↔ Zulu t := by
  unfold dateOk
  rw [decide_eq_true_iff]
  constructor
  · rintro ⟨hl, ht, ⟨h1, h2, h3, h4, h5, h6⟩, hm, hd, hh, hi, hs⟩
    have l2 : ∀ k, k ≤ 17 → ((t.drop k).take 2).length = 2 := fun k hk => by
      rw [List.length_take, List.length_drop, hl]; omega
    have l4 : (t.take 4).length = 4 := by rw [List.length_take, hl]; rfl
    refine ⟨_, _, _, _, _, _, t.take 4, ⟨_, _, _, _, _, ht, ⟨?_, le_rfl, (digits_dec _).mp h1, rfl⟩, two_iff _ (l2 5 (by omega)) h2,
      two_iff _ (l2 8 (by omega)) h3, two_iff _ (l2 11 (by omega)) h4, two_iff _ (l2 14 (by omega)) h5, two_iff _ (l2 17 (by omega)) h6, ?_, hi⟩,
      l4, hh, hs⟩
    · intro e; rw [e] at l4; cases l4
    · rw [← value_eq]
      exact (lastDay_iff _ _ _ hm).mp hd
  · rintro ⟨y, mo, d, h, mi, s, year, ⟨mo', d', h', mi', s', ht, hy, hmo, hd, hh, hmi, hs, hday, hmi60⟩, h4, h24, h60⟩
    have hv : ∀ {n x}, Two n x → value x = n ∧ digits x = true := fun {n x} h =>
      ⟨(value_eq x).trans h.1.value.symm, (digits_dec x).mpr h.1.digits⟩
    have hvy : value year = y := (value_eq year).trans hy.value.symm
    have hdy := (digits_dec year).mpr hy.digits
    obtain ⟨v1, g1⟩ := hv hmo
    obtain ⟨v2, g2⟩ := hv hd
    obtain ⟨v3, g3⟩ := hv hh
    obtain ⟨v4, g4⟩ := hv hmi
    obtain ⟨v5, g5⟩ := hv hs
    have k1 : t.take 4 = year := by rw [ht]; simp only [List.append_assoc]; rw [List.take_left' h4]
    have part : ∀ (a b c : Str) n, t = a ++ (b ++ c) → a.length = n → b.length = 2 → (t.drop n).take 2 = b := fun a b c n e ha hb => by
      rw [e, List.drop_left' ha, List.take_left' hb]
    have k2 := part (year ++ "-".toList) mo' _ 5 (by rw [ht]; simp only [List.append_assoc]; rfl) (by simp [h4]) hmo.2
    have k3 := part (year ++ "-".toList ++ mo' ++ "-".toList) d' _ 8 (by rw [ht]; simp only [List.append_assoc]; rfl) (by simp [h4, hmo.2]) hd.2
    have k4 := part (year ++ "-".toList ++ mo' ++ "-".toList ++ d' ++ ['T']) h' _ 11
      (by rw [ht]; simp only [List.append_assoc, List.cons_append, List.nil_append]; rfl) (by simp [h4, hmo.2, hd.2]) hh.2
    have k5 := part (year ++ "-".toList ++ mo' ++ "-".toList ++ d' ++ ['T'] ++ h' ++ ":".toList) mi' _ 14
      (by rw [ht]; simp only [List.append_assoc, List.cons_append, List.nil_append]; rfl) (by simp [h4, hmo.2, hd.2, hh.2]) hmi.2
    have k6 := part (year ++ "-".toList ++ mo' ++ "-".toList ++ d' ++ ['T'] ++ h' ++ ":".toList ++ mi' ++ ":".toList) s' _ 17
      (by rw [ht]; simp only [List.append_assoc, List.cons_append, List.nil_append]; rfl) (by simp [h4, hmo.2, hd.2, hh.2, hmi.2]) hs.2
    simp only [k1, k2, k3, k4, k5, k6, v1, v2, v3, v4, v5, hvy]
    refine ⟨?_, ht, ⟨hdy, g1, g2, g3, g4, g5⟩, hday.month, (lastDay_iff y mo d hday.month).mpr hday, h24, hmi60, h60⟩
    rw [ht]
    simp [h4, hmo.2, hd.2, hh.2, hmi.2, hs.2]

/-- C106: such dates are in RFC 3339 and date-time stamps of XML Schema, and every build reads them. -/
theorem C106_dates (t : Str) (h : Zulu t) :
    IsRfc3339 t ∧ IsDateTimeStamp t ∧ Settled t ∧ ∀ E : Env, ChronoDates E → E.parseDate t = .ok () := by
  obtain ⟨y, mo, d, h, mi, s, year, hs, h4, h24, h60⟩ := h
  have hr : IsRfc3339 t := ⟨y, mo, d, h, mi, s, year, 'T', [], "Z".toList, hs, h4, by decide, h24, by omega, .none, .inl (.inl rfl)⟩
  refine ⟨hr, ⟨year, false, t, ⟨y, mo, d, h, mi, s, [], "Z".toList, hs, by omega, by omega, h60, .none, .inl rfl, fun _ => h24, nofun⟩, .inl rfl⟩,
    ?_, fun E C => C83_rfc3339 C t hr⟩
  exact dateText_settled (shape_text (f := []) (w := []) (z := "Z".toList) hs h4 (by decide) h24 (by omega) .none Chrono.blank_nil (.zulu (by decide)))

/-- C106: the caller's check of keys takes exactly the points that are not among the eight. -/
theorem C106_key (b : Bytes) : keyOk b = true ↔ Ed25519.pointDecompress b ≠ none ∧ hexEncode b ∉ smallKeys := by
  unfold keyOk
  cases h : Ed25519.pointDecompress b with
  | none => simp
  | some A =>
    obtain ⟨g, rfl, hr⟩ := Ed25519.pointDecompress_some h
    simp only [Bool.not_eq_true', ne_eq, reduceCtorEq, not_false_eq_true, true_and]
    rw [mem_smallKeys, ← Ed25519.pointEqual_iff (Ed25519.rep_mul (by decide) hr) Ed25519.rep_neutral, Bool.not_eq_true]

/-! ### What the reader accepts -/

theorem policy_key {E : Env} (T : Table) (m : Str) (pub : E.EdPub) :
    (policy E T).keyOf m = some pub ↔ ∃ b, T.keyBytes m = some b ∧ keyOk b = true ∧ E.edPubOfBytes b = some pub := by
  cases ht : T.keyBytes m with
  | none => simp [policy, ht]
  | some b =>
    by_cases h : keyOk b = true
    · simp [policy, ht, h]
    · simp [policy, ht, h]

theorem multibase_unique (E : Env) {a b : Bytes} {t : Str} (ha : IsMultibase58 a t) (hb : IsMultibase58 b t) : a = b := by
  have e := (mbDecode_iff E t _ _).mpr (.base58 ha)
  rw [(mbDecode_iff E t _ _).mpr (.base58 hb)] at e
  cases e
  rfl

theorem portable_proof {E : Env} (p : Proof) (sig : Bytes) (h : IsMultibase58 sig p.proofValue) :
    Portable.proofOk E (some p) = true ↔ (∃ c, p.created = some c ∧ Zulu c) ∧ keyOk (sig.take 32) = true := by
  have hh : headOk E p.proofValue = keyOk (sig.take 32) := by
    unfold headOk
    rw [(mbDecode_iff E _ _ _).mpr (.base58 h)]
  unfold Portable.proofOk
  rw [Bool.and_eq_true, hh]
  refine and_congr_left fun _ => ?_
  cases p.created with
  | none => simp
  | some c => simp [C106_date]

section
variable {E : Env} {seed : E.EdKP → Bytes} {bits : E.F → Double.F64} {parts : E.Multiaddr → List AddrPart}

theorem agreed_iff (C : Conforms E seed bits parts) (V : Between E) (T : Table) (did : Str) (purpose : ProofPurpose) (p : Proof)
    (doc : Bytes) : (Sound E (policy E T) did purpose p doc ∧ Portable.proofOk E (some p) = true) ↔ Agreed E T did purpose p doc := by
  have hm : message E (optionBytes E (unvalued p)) doc = Sha2.sha256 (optionBytes E (unvalued p)) ++ Sha2.sha256 doc := by
    unfold message
    rw [C.standard.actual.sha256]
  constructor
  · rintro ⟨⟨h1, h2, h3, h4, h5, pub, sig, hex, h6, h7, h8, h9⟩, hp⟩
    obtain ⟨b, k1, k2, k3⟩ := (policy_key T _ pub).mp h6
    obtain ⟨g1, g2⟩ := (portable_proof p sig h7).mp hp
    obtain ⟨k4, k5⟩ := (C106_key b).mp k2
    have eb := C.standard.signatures.bytes _ _ k3
    rw [isHex_iff.mp h8, hm] at h9
    refine ⟨h1.type, h1.suite, g1, h2, h3, h4, h5, b, sig, k1, h7, ?_, k5, ((C106_key _).mp g2).2⟩
    have := (V pub _ sig (by rw [eb]; exact k4)).2 h9
    rwa [eb] at this
  · rintro ⟨h1, h2, ⟨c, h3, h3'⟩, h4, h5, h6, h7, key, sig, k1, k2, k3⟩
    obtain ⟨A, R, s, eA, hs, e0, -⟩ := (Ed25519.verify_iff _ _ _).mp k3.1
    have dk : Ed25519.pointDecompress key ≠ none := by
      obtain ⟨Q, hQ, -⟩ := Ed25519.pointDecompress_enc A
      rw [eA, hQ]
      exact nofun
    have dr : Ed25519.pointDecompress (sig.take 32) ≠ none := by
      obtain ⟨Q, hQ, -⟩ := Ed25519.pointDecompress_enc R
      rw [e0, List.take_left' (Ed25519.enc_length R), hQ]
      exact nofun
    cases hp : E.edPubOfBytes key with
    | none => exact absurd hp (C.standard.signatures.reads _ dk)
    | some pub =>
      have eb := C.standard.signatures.bytes _ _ hp
      refine ⟨⟨⟨h1, h2, c, h3, (C106_dates c h3').2.2.2 E C.dates⟩, h4, h5, h6, h7, pub, sig, _,
        (policy_key T _ pub).mpr ⟨key, k1, (C106_key _).mpr ⟨dk, k3.2.1⟩, hp⟩, k2, hexEncode_spec _, ?_⟩,
        (portable_proof p sig k2).mpr ⟨⟨c, h3, h3'⟩, (C106_key _).mpr ⟨dr, k3.2.2⟩⟩⟩
      rw [hm]
      exact (V pub _ sig (by rw [eb]; exact dk)).1 (by rw [eb]; exact k3)

theorem portable_readVC (T : Table) (purpose : ProofPurpose) (bs : Bytes) (v : VC E) :
    Portable.readVC E T purpose bs = some v ↔ Careful.readVC (policy E T) purpose bs = some v ∧ Portable.proofOk E v.proof = true := by
  unfold Portable.readVC
  cases Careful.readVC (policy E T) purpose bs with
  | none => simp
  | some w =>
    by_cases h : Portable.proofOk E w.proof = true
    · simp only [h, if_true, Option.some.injEq]
      exact ⟨fun e => ⟨e, e ▸ h⟩, fun e => e.1⟩
    · simp only [h, if_false, Option.some.injEq, reduceCtorEq, false_iff, not_and]
      rintro rfl
      exact h

theorem portable_readVP (T : Table) (purpose : ProofPurpose) (bs : Bytes) (v : VP E) :
    Portable.readVP E T purpose bs = some v ↔ Careful.readVP (policy E T) purpose bs = some v ∧ Portable.proofOk E v.proof = true ∧
      ∀ c ∈ v.verifiableCredential, Portable.proofOk E c.proof = true := by
  have hall : ∀ w : VP E, (Portable.proofOk E w.proof = true ∧ w.verifiableCredential.all (fun c => Portable.proofOk E c.proof) = true) ↔
      (Portable.proofOk E w.proof = true ∧ ∀ c ∈ w.verifiableCredential, Portable.proofOk E c.proof = true) := fun w => by
    rw [List.all_eq_true]
  unfold Portable.readVP
  cases Careful.readVP (policy E T) purpose bs with
  | none => simp
  | some w =>
    simp only [hall]
    split_ifs with h
    · simp only [Option.some.injEq]
      exact ⟨fun e => ⟨e, e ▸ h⟩, fun e => e.1⟩
    · simp only [Option.some.injEq, false_iff, not_and]
      rintro rfl h1 h2
      exact h ⟨h1, h2⟩

theorem soundVC_agreed (C : Conforms E seed bits parts) (V : Between E) (T : Table) (purpose : ProofPurpose) (bs : Bytes) (v : VC E) :
    (SoundVC E (policy E T) purpose bs v ∧ Portable.proofOk E v.proof = true) ↔ AgreedVC E T purpose bs v := by
  constructor
  · rintro ⟨⟨h1, h2, h3, p, h4, h5⟩, hp⟩
    rw [h4] at hp
    exact ⟨h1, h2, h3, p, h4, (agreed_iff C V T _ _ _ _).mp ⟨h5, hp⟩⟩
  · rintro ⟨h1, h2, h3, p, h4, h5⟩
    obtain ⟨h6, h7⟩ := (agreed_iff C V T _ _ _ _).mpr h5
    exact ⟨⟨h1, h2, h3, p, h4, h6⟩, by rw [h4]; exact h7⟩

/-- C106 (credentials): the reader returns exactly the credentials that agree with the standards. -/
theorem C106_vc (C : Conforms E seed bits parts) (V : Between E) (T : Table) (purpose : ProofPurpose) (bs : Bytes) (v : VC E) :
    Portable.readVC E T purpose bs = some v ↔ AgreedVC E T purpose bs v := by
  rw [portable_readVC, C101_vc C.jcs, soundVC_agreed C V]

/-- C106 (presentations). -/
theorem C106_vp (C : Conforms E seed bits parts) (V : Between E) (T : Table) (purpose : ProofPurpose) (bs : Bytes) (v : VP E) :
    Portable.readVP E T purpose bs = some v ↔ AgreedVP E T purpose bs v := by
  rw [portable_readVP, C101_vp C.jcs]
  constructor
  · rintro ⟨⟨h1, h2, h3, ⟨p, h, h4, h5, h6⟩, h7⟩, hp, hc⟩
    rw [h4] at hp
    exact ⟨h1, h2, h3, ⟨p, h, h4, h5, (agreed_iff C V T _ _ _ _).mp ⟨h6, hp⟩⟩,
      fun c hm => (soundVC_agreed C V T _ _ _).mp ⟨h7 c hm, hc c hm⟩⟩
  · rintro ⟨h1, h2, h3, ⟨p, h, h4, h5, h6⟩, h7⟩
    obtain ⟨g1, g2⟩ := (agreed_iff C V T _ _ _ _).mpr h6
    exact ⟨⟨h1, h2, h3, ⟨p, h, h4, h5, g1⟩, fun c hm => ((soundVC_agreed C V T _ _ _).mpr (h7 c hm)).1⟩, by rw [h4]; exact g2,
      fun c hm => ((soundVC_agreed C V T _ _ _).mpr (h7 c hm)).2⟩

/-- The key of a method that was found. -/
theorem table_pub (C : Conforms E seed bits parts) {T : Table} {did : Str} {purpose : ProofPurpose} {p : Proof} {doc : Bytes}
    (h : Agreed E T did purpose p doc) : ∃ key pub sig, T.keyBytes p.verificationMethod = some key ∧ E.edPubOfBytes key = some pub ∧
      E.edPubBytes pub = key ∧ IsMultibase58 sig p.proofValue ∧ Spec.strictly key (message E (optionBytes E (unvalued p)) doc) sig := by
  obtain ⟨key, sig, k1, k2, k3⟩ := h.signed
  obtain ⟨A, -, -, eA, -⟩ := (Ed25519.verify_iff _ _ _).mp k3.1
  have dk : Ed25519.pointDecompress key ≠ none := by
    obtain ⟨Q, hQ, -⟩ := Ed25519.pointDecompress_enc A
    rw [eA, hQ]
    exact nofun
  cases hp : E.edPubOfBytes key with
  | none => exact absurd hp (C.standard.signatures.reads _ dk)
  | some pub =>
    refine ⟨key, pub, sig, k1, hp, C.standard.signatures.bytes _ _ hp, k2, ?_⟩
    unfold message
    rw [C.standard.actual.sha256]
    exact k3

theorem agreed_good (C : Conforms E seed bits parts) {T : Table} {did : Str} {purpose : ProofPurpose} {p : Proof} {doc : Bytes}
    (h : Agreed E T did purpose p doc) : GoodOptions E p := by
  obtain ⟨c, h1, h2⟩ := h.created
  exact ⟨h.type, h.suite, c, h1, (C106_dates c h2).2.2.2 E C.dates⟩

/-- C106: whatever it returns is accepted by the library, by the strict verifier, by that of RFC 8032 and by the one with the
factor eight, under the key in the table. -/
theorem C106_all_vc (C : Conforms E seed bits parts) (V : Between E) (T : Table) (purpose : ProofPurpose) (bs : Bytes) (v : VC E)
    (h : Portable.readVC E T purpose bs = some v) : ∃ p key pub, v.proof = some p ∧ T.keyBytes p.verificationMethod = some key ∧
      E.edPubOfBytes key = some pub ∧ AcceptedVC pub bs purpose v ∧ OtherVC Spec.strictly pub bs purpose v ∧
      OtherVC plainly pub bs purpose v ∧ OtherVC byEight pub bs purpose v := by
  obtain ⟨h1, h2, h3, p, h4, h5⟩ := (C106_vc C V T purpose bs v).mp h
  obtain ⟨key, pub, sig, k1, k2, k3, k4, k5⟩ := table_pub C h5
  have other : ∀ W : Verifier, (∀ m, Spec.strictly key m sig → W key m sig) → OtherVC W pub bs purpose v := fun W hW =>
    ⟨h3, p, _, sig, h4, agreed_good C h5, h5.aim, h5.known, h1, .base58 k4, by rw [k3]; exact hW _ k5⟩
  refine ⟨p, key, pub, h4, k1, k2, ?_, other _ fun _ h => h, other _ fun m h => (C100_order key m sig).1 h,
    other _ fun m h => (C100_order key m sig).2 ((C100_order key m sig).1 h)⟩
  obtain ⟨g1, -⟩ := (soundVC_agreed C V T purpose bs v).mpr ⟨h1, h2, h3, p, h4, h5⟩
  obtain ⟨p', pub', e1, e2, e3⟩ := soundVC_accepted C.jcs g1
  rw [h4] at e1
  cases e1
  obtain ⟨b, f1, -, f3⟩ := (policy_key T _ pub').mp e2
  rw [k1] at f1
  cases f1
  rw [k2] at f3
  cases f3
  exact e3

/-- C106: the same for presentations and all credentials inside. -/
theorem C106_all_vp (C : Conforms E seed bits parts) (V : Between E) (T : Table) (purpose : ProofPurpose) (bs : Bytes) (v : VP E)
    (h : Portable.readVP E T purpose bs = some v) : (∃ p key pub, v.proof = some p ∧ T.keyBytes p.verificationMethod = some key ∧
      E.edPubOfBytes key = some pub ∧ AcceptedVP pub bs purpose v ∧ OtherVP Spec.strictly pub bs purpose v ∧
      OtherVP plainly pub bs purpose v ∧ OtherVP byEight pub bs purpose v) ∧
    ∀ c ∈ v.verifiableCredential, ∃ t, c.toJcs = .ok t ∧ Portable.readVC E T .assertionMethod (utf8 t) = some c := by
  have ha := (C106_vp C V T purpose bs v).mp h
  obtain ⟨h1, h2, h3, ⟨p, hd, h4, h4', h5⟩, h6⟩ := ha
  constructor
  · obtain ⟨key, pub, sig, k1, k2, k3, k4, k5⟩ := table_pub C h5
    have other : ∀ W : Verifier, (∀ m, Spec.strictly key m sig → W key m sig) → OtherVP W pub bs purpose v := fun W hW =>
      ⟨h3, p, _, sig, h4, agreed_good C h5, h5.aim, h5.known, h1, .base58 k4, by rw [k3]; exact hW _ k5⟩
    refine ⟨p, key, pub, h4, k1, k2, ?_, other _ fun _ h => h, other _ fun m h => (C100_order key m sig).1 h,
      other _ fun m h => (C100_order key m sig).2 ((C100_order key m sig).1 h)⟩
    have g1 := (C101_vp C.jcs _ _ _ _).mp ((portable_readVP T purpose bs v).mp h).1
    obtain ⟨p', pub', e1, e2, e3⟩ := soundVP_accepted C.jcs g1
    rw [h4] at e1
    cases e1
    obtain ⟨b, f1, -, f3⟩ := (policy_key T _ pub').mp e2
    rw [k1] at f1
    cases f1
    rw [k2] at f3
    cases f3
    exact e3
  · intro c hm
    obtain ⟨t, ht⟩ := (C24_serialise_iff c).2.1.mpr (h6 c hm).complete
    refine ⟨t, ht, (C106_vc C V T _ _ _).mpr ?_⟩
    rw [utf8_eq, ((vc_toJcs_iff C.jcs c t).mp ht).2]
    exact h6 c hm

end

/-! ### Two builds -/

section
variable {E₁ E₂ : Env} {seed₁ : E₁.EdKP → Bytes} {seed₂ : E₂.EdKP → Bytes} {bits₁ : E₁.F → Double.F64} {bits₂ : E₂.F → Double.F64}
  {parts₁ : E₁.Multiaddr → List AddrPart} {parts₂ : E₂.Multiaddr → List AddrPart}

/-- None, or related values. -/
def NoneOrBoth {α₁ α₂ : Type} (R : α₁ → α₂ → Prop) (x₁ : Option α₁) (x₂ : Option α₂) : Prop :=
  (x₁ = none ∧ x₂ = none) ∨ ∃ a₁ a₂, x₁ = some a₁ ∧ x₂ = some a₂ ∧ R a₁ a₂

theorem agreed_same (C₁ : Conforms E₁ seed₁ bits₁ parts₁) (C₂ : Conforms E₂ seed₂ bits₂ parts₂) {T : Table} {did : Str}
    {purpose : ProofPurpose} {p : Proof} {doc : Bytes} (h : Agreed E₁ T did purpose p doc) : Agreed E₂ T did purpose p doc := by
  obtain ⟨h1, h2, h3, h4, h5, h6, h7, h8⟩ := h
  exact ⟨h1, h2, h3, h4, h5, h6, h7, by rwa [same_optionBytes C₁ C₂]⟩

theorem agreedVC_same (C₁ : Conforms E₁ seed₁ bits₁ parts₁) (C₂ : Conforms E₂ seed₂ bits₂ parts₂) {T : Table} {purpose : ProofPurpose}
    {bs : Bytes} {v₁ : VC E₁} {v₂ : VC E₂} (hs : SameCredential v₁ v₂) (hr : VC.parseJsonBytes E₂ bs = .ok v₂)
    (h : AgreedVC E₁ T purpose bs v₁) : AgreedVC E₂ T purpose bs v₂ := by
  cases (same_vc C₁ C₂ v₁ v₂).mp hs
  obtain ⟨h1, h2, h3, p, h4, h5⟩ := h
  obtain ⟨g1, g2⟩ := same_vcBytes C₁ C₂ v₁ h1
  have g3 := (same_vcBytes C₁ C₂ (unsignedVC v₁) h1).2
  exact ⟨g1, h2.trans g2.symm, hr, p, h4, by
    have := agreed_same C₁ C₂ h5
    rw [← g3] at this
    exact this⟩

/-- What a build reads from a text that the other does too. -/
theorem read_other (C₁ : Conforms E₁ seed₁ bits₁ parts₁) (C₂ : Conforms E₂ seed₂ bits₂ parts₂) {bs : Bytes} {v₁ : VC E₁}
    (h : VC.parseJsonBytes E₁ bs = .ok v₁) : ∃ v₂, VC.parseJsonBytes E₂ bs = .ok v₂ ∧ SameCredential v₁ v₂ := by
  rcases C92_read_vc C₁ C₂ bs with ⟨e₁, e₂, h₁, -⟩ | ⟨a, b, h₁, h₂, hs⟩
  · rw [h] at h₁; cases h₁
  · rw [h] at h₁; cases h₁
    exact ⟨b, h₂, hs⟩

theorem portable_vc (C₁ : Conforms E₁ seed₁ bits₁ parts₁) (C₂ : Conforms E₂ seed₂ bits₂ parts₂) (V₁ : Between E₁) (V₂ : Between E₂)
    {T : Table} {purpose : ProofPurpose} {bs : Bytes} {v₁ : VC E₁} (h : Portable.readVC E₁ T purpose bs = some v₁) :
    ∃ v₂, Portable.readVC E₂ T purpose bs = some v₂ ∧ SameCredential v₁ v₂ := by
  have h' := (C106_vc C₁ V₁ T purpose bs v₁).mp h
  obtain ⟨v₂, h₂, hs⟩ := read_other C₁ C₂ h'.reads
  exact ⟨v₂, (C106_vc C₂ V₂ T purpose bs v₂).mpr (agreedVC_same C₁ C₂ hs h₂ h'), hs⟩

theorem portable_vp (C₁ : Conforms E₁ seed₁ bits₁ parts₁) (C₂ : Conforms E₂ seed₂ bits₂ parts₂) (V₁ : Between E₁) (V₂ : Between E₂)
    {T : Table} {purpose : ProofPurpose} {bs : Bytes} {v₁ : VP E₁} (h : Portable.readVP E₁ T purpose bs = some v₁) :
    ∃ v₂, Portable.readVP E₂ T purpose bs = some v₂ ∧ SamePresentation v₁ v₂ := by
  obtain ⟨h1, h2, h3, ⟨p, hd, h4, h4', h5⟩, h6⟩ := (C106_vp C₁ V₁ T purpose bs v₁).mp h
  rcases C92_read_vp C₁ C₂ bs with ⟨e₁, e₂, h₁, -⟩ | ⟨a, b, h₁, h₂, hs⟩
  · rw [h3] at h₁; cases h₁
  · rw [h3] at h₁; cases h₁
    refine ⟨b, (C106_vp C₂ V₂ T purpose bs b).mpr ?_, hs⟩
    cases (same_vp C₁ C₂ _ _).mp hs
    obtain ⟨g1, g2⟩ := same_vpBytes C₁ C₂ v₁ h1
    have g3 := (same_vpBytes C₁ C₂ (unsignedVP v₁) h1).2
    refine ⟨g1, h2.trans g2.symm, h₂, ⟨p, hd, h4, h4', ?_⟩, ?_⟩
    · have := agreed_same C₁ C₂ h5
      rw [← g3] at this
      exact this
    · intro c hc
      obtain ⟨c₁, hc₁, rfl⟩ := List.mem_map.mp hc
      have ha := h6 c₁ hc₁
      obtain ⟨c₂, k1, k2⟩ := read_other C₁ C₂ ha.reads
      cases (same_vc C₁ C₂ _ _).mp k2
      rw [(same_vcBytes C₁ C₂ c₁ ha.complete).2]
      exact agreedVC_same C₁ C₂ k2 k1 ha

/-- C106: two builds with one table give the same answer for every text: both nothing, or both the same credential. -/
theorem C106_same_vc (C₁ : Conforms E₁ seed₁ bits₁ parts₁) (C₂ : Conforms E₂ seed₂ bits₂ parts₂) (V₁ : Between E₁) (V₂ : Between E₂)
    (T : Table) (purpose : ProofPurpose) (bs : Bytes) :
    NoneOrBoth SameCredential (Portable.readVC E₁ T purpose bs) (Portable.readVC E₂ T purpose bs) := by
  cases h₁ : Portable.readVC E₁ T purpose bs with
  | some v₁ =>
    obtain ⟨v₂, h₂, hs⟩ := portable_vc C₁ C₂ V₁ V₂ h₁
    exact .inr ⟨v₁, v₂, rfl, h₂, hs⟩
  | none =>
    cases h₂ : Portable.readVC E₂ T purpose bs with
    | none => exact .inl ⟨rfl, rfl⟩
    | some v₂ =>
      obtain ⟨v₁, h, -⟩ := portable_vc C₂ C₁ V₂ V₁ h₂
      rw [h₁] at h
      cases h

/-- C106: or the same presentation. -/
theorem C106_same_vp (C₁ : Conforms E₁ seed₁ bits₁ parts₁) (C₂ : Conforms E₂ seed₂ bits₂ parts₂) (V₁ : Between E₁) (V₂ : Between E₂)
    (T : Table) (purpose : ProofPurpose) (bs : Bytes) :
    NoneOrBoth SamePresentation (Portable.readVP E₁ T purpose bs) (Portable.readVP E₂ T purpose bs) := by
  cases h₁ : Portable.readVP E₁ T purpose bs with
  | some v₁ =>
    obtain ⟨v₂, h₂, hs⟩ := portable_vp C₁ C₂ V₁ V₂ h₁
    exact .inr ⟨v₁, v₂, rfl, h₂, hs⟩
  | none =>
    cases h₂ : Portable.readVP E₂ T purpose bs with
    | none => exact .inl ⟨rfl, rfl⟩
    | some v₂ =>
      obtain ⟨v₁, h, -⟩ := portable_vp C₂ C₁ V₂ V₁ h₂
      rw [h₁] at h
      cases h

/-- The second table knows the keys of the first and holds no date for passed that the first does not. -/
def Wider (T₁ T₂ : Table) : Prop :=
  (∀ m key, T₁.keyBytes m = some key → T₂.keyBytes m = some key) ∧ ∀ e, T₁.expired e = false → T₂.expired e = false

theorem agreed_wider {E : Env} {T₁ T₂ : Table} (hT : Wider T₁ T₂) {did : Str} {purpose : ProofPurpose} {p : Proof} {doc : Bytes}
    (h : Agreed E T₁ did purpose p doc) : Agreed E T₂ did purpose p doc := by
  obtain ⟨h1, h2, h3, h4, h5, h6, h7, key, sig, h8, h9⟩ := h
  exact ⟨h1, h2, h3, h4, h5, fun e he => hT.2 e (h6 e he), h7, key, sig, hT.1 _ _ h8, h9⟩

theorem agreedVC_wider {E : Env} {T₁ T₂ : Table} (hT : Wider T₁ T₂) {purpose : ProofPurpose} {bs : Bytes} {v : VC E}
    (h : AgreedVC E T₁ purpose bs v) : AgreedVC E T₂ purpose bs v := by
  obtain ⟨h1, h2, h3, p, h4, h5⟩ := h
  exact ⟨h1, h2, h3, p, h4, agreed_wider hT h5⟩

/-- C106: a reader with a wider table returns at least as much, in every build. -/
theorem C106_wider (C₁ : Conforms E₁ seed₁ bits₁ parts₁) (C₂ : Conforms E₂ seed₂ bits₂ parts₂) (V₁ : Between E₁) (V₂ : Between E₂)
    (T₁ T₂ : Table) (hT : Wider T₁ T₂) (purpose : ProofPurpose) (bs : Bytes) :
    (∀ v₁, Portable.readVC E₁ T₁ purpose bs = some v₁ → ∃ v₂, Portable.readVC E₂ T₂ purpose bs = some v₂ ∧ SameCredential v₁ v₂) ∧
    ∀ v₁, Portable.readVP E₁ T₁ purpose bs = some v₁ → ∃ v₂, Portable.readVP E₂ T₂ purpose bs = some v₂ ∧ SamePresentation v₁ v₂ := by
  constructor
  · intro v₁ h
    exact portable_vc C₁ C₂ V₁ V₂ ((C106_vc C₁ V₁ T₂ purpose bs v₁).mpr (agreedVC_wider hT ((C106_vc C₁ V₁ T₁ purpose bs v₁).mp h)))
  · intro v₁ h
    obtain ⟨h1, h2, h3, ⟨p, hd, h4, h4', h5⟩, h6⟩ := (C106_vp C₁ V₁ T₁ purpose bs v₁).mp h
    exact portable_vp C₁ C₂ V₁ V₂ ((C106_vp C₁ V₁ T₂ purpose bs v₁).mpr ⟨h1, h2, h3, ⟨p, hd, h4, h4', agreed_wider hT h5⟩,
      fun c hc => agreedVC_wider hT (h6 c hc)⟩)

end

/-! ### Issuing -/

section
variable {E : Env} {seed : E.EdKP → Bytes} {bits : E.F → Double.F64} {parts : E.Multiaddr → List AddrPart}

/-- The number a signature starts from is not zero. -/
def Nonzero (secret o d : Bytes) : Prop :=
  Blake3.leVal (Sha2.sha512 (Ed25519.secretPrefix secret ++ (Sha2.sha256 o ++ Sha2.sha256 d))) %
    (2 ^ 252 + 27742317777372353535851937790883648493) ≠ 0

theorem issueVC_iff (T : Table) (kp : E.EdKP) (v : VC E) (opts : Proof) (t : Str) : issueVC E T kp v opts = some t ↔
    ∃ signed w, Careful.signVC kp v opts = .ok signed ∧ signed.toJcs = .ok t ∧ Portable.readVC E T opts.proofPurpose (utf8Encode t) = some w := by
  unfold issueVC
  cases h1 : Careful.signVC kp v opts with
  | error e => simp
  | ok signed =>
    cases h2 : signed.toJcs with
    | error e => simp [h2]
    | ok t' =>
      simp only [h2]
      constructor
      · intro h
        split_ifs at h with h3
        cases h
        obtain ⟨w, hw⟩ := Option.isSome_iff_exists.mp h3
        exact ⟨signed, w, rfl, h2, hw⟩
      · rintro ⟨_, w, e1, e2, hw⟩
        cases e1
        rw [h2] at e2
        cases e2
        rw [hw]
        rfl

theorem issueVP_iff (T : Table) (kp : E.EdKP) (v : VP E) (opts : Proof) (t : Str) : issueVP E T kp v opts = some t ↔
    ∃ signed w, Careful.signVP kp v opts = .ok signed ∧ signed.toJcs = .ok t ∧ Portable.readVP E T opts.proofPurpose (utf8Encode t) = some w := by
  unfold issueVP
  cases h1 : Careful.signVP kp v opts with
  | error e => simp
  | ok signed =>
    cases h2 : signed.toJcs with
    | error e => simp [h2]
    | ok t' =>
      simp only [h2]
      constructor
      · intro h
        split_ifs at h with h3
        cases h
        obtain ⟨w, hw⟩ := Option.isSome_iff_exists.mp h3
        exact ⟨signed, w, rfl, h2, hw⟩
      · rintro ⟨_, w, e1, e2, hw⟩
        cases e1
        rw [h2] at e2
        cases e2
        rw [hw]
        rfl

theorem own_key (C : Conforms E seed bits parts) (T : Table) (kp : E.EdKP) (m : Str)
    (hk : T.keyBytes m = some (Ed25519.publicKey (seed kp))) : (policy E T).keyOf m = some (E.edPub kp) := by
  have hp := C.standard.signatures.pub kp
  refine (policy_key T m _).mpr ⟨_, hk, (C106_key _).mpr ⟨?_, ?_⟩, ?_⟩
  · rw [Ed25519.publicKey_eq]
    obtain ⟨Q, hQ, -⟩ := Ed25519.pointDecompress_enc (Ed25519.secretScalar (seed kp) • Ed25519.B)
    rw [hQ]
    exact nofun
  · rw [← hp]
    exact C93_own C.standard.signatures kp
  · rw [← hp]
    exact (C92_laws C).2.1.pub_bytes _

/-- The head of a fresh signature. -/
theorem signed_head (C : Conforms E seed bits parts) (kp : E.EdKP) (o d sig : Bytes) (h : Issued kp (message E o d) sig) :
    keyOk (sig.take 32) = true ↔ Nonzero (seed kp) o d := by
  obtain ⟨h1, -, h3⟩ := C100_signed C.standard.signatures C.jcs kp _ sig h
  have hm : message E o d = Sha2.sha256 o ++ Sha2.sha256 d := by unfold message; rw [C.standard.actual.sha256]
  rw [hm] at h1 h3
  rw [C106_key]
  refine Iff.trans ?_ h3
  obtain ⟨A, R, s, eA, hs, e0, -⟩ := (Ed25519.verify_iff _ _ _).mp h1
  have dr : Ed25519.pointDecompress (sig.take 32) ≠ none := by
    obtain ⟨Q, hQ, -⟩ := Ed25519.pointDecompress_enc R
    rw [e0, List.take_left' (Ed25519.enc_length R), hQ]
    exact nofun
  exact ⟨fun h => ⟨h1, C93_own C.standard.signatures kp, h.2⟩, fun h => ⟨dr, h.2.2⟩⟩

theorem forall₂_left {α β : Type} {R : α → β → Prop} {l : List α} {m : List β} (h : List.Forall₂ R l m) {a : α} (ha : a ∈ l) :
    ∃ b ∈ m, R a b := by
  induction h with
  | nil => cases ha
  | @cons x y l m hxy _ ih =>
    rcases List.mem_cons.mp ha with rfl | ha
    · exact ⟨y, by simp, hxy⟩
    · obtain ⟨b, hb, hr⟩ := ih ha
      exact ⟨b, by simp [hb], hr⟩

theorem forall₂_right {α β : Type} {R : α → β → Prop} {l : List α} {m : List β} (h : List.Forall₂ R l m) {b : β} (hb : b ∈ m) :
    ∃ a ∈ l, R a b := by
  obtain ⟨a, ha, hr⟩ := forall₂_left h.flip hb
  exact ⟨a, ha, hr⟩

/-- C106: when the issuer publishes: it can sign, the date has the form, the method is a fragment of the issuer, the expiry has
not passed, the subject is not too deep, its numbers are read back, and the number the signature starts from is not zero. -/
theorem C106_issue_vc (C : Conforms E seed bits parts) (T : Table) (kp : E.EdKP) (v : VC E) (opts : Proof)
    (hk : T.keyBytes opts.verificationMethod = some (Ed25519.publicKey (seed kp))) (t : Str) : issueVC E T kp v opts = some t ↔
      (∃ signed, Careful.signVC kp v opts = .ok signed ∧ signed.toJcs = .ok t) ∧ (∃ c, opts.created = some c ∧ Zulu c) ∧
      (∃ fragment, opts.verificationMethod = v.issuer ++ '#' :: fragment) ∧ (∀ e, opts.expires = some e → T.expired e = false) ∧
      v.credentialSubject.1.depth ≤ 126 ∧ Rereads E v.credentialSubject.1 ∧
      Nonzero (seed kp) (optionBytes E (unvalued opts)) (vcBytes (unsignedVC v)) := by
  rw [issueVC_iff]
  have L := C.jcs
  have key := own_key C T kp opts.verificationMethod hk
  constructor
  · rintro ⟨signed, w, h1, h2, h3⟩
    refine ⟨⟨signed, h1, h2⟩, ?_⟩
    obtain ⟨g1, g2⟩ := (portable_readVC T _ _ _).mp h3
    obtain ⟨s1, s2, s3, p, s4, s5⟩ := (C101_vc L _ _ _ _).mp g1
    obtain ⟨c1, c2, c3, text, c4, rfl⟩ := ((C32_vc L kp _ _).1 _).mp h1
    obtain ⟨a1, a2⟩ := (vc_toJcs_iff L w t).mp ((vc_toJcs_iff L w t).mpr ⟨s1, s2⟩)
    have hw : w.toJcs = .ok t := (vc_toJcs_iff L w t).mpr ⟨s1, s2⟩
    have hsame := (C29_vc L _ w ((vc_toJcs_iff L _ t).mp h2).1 s1).mp (h2.trans hw.symm)
    have hp := hsame.proof.symm
    rw [s4] at hp
    cases hp
    rw [s4] at g2
    obtain ⟨d1, d2⟩ := (portable_proof _ _ c4).mp g2
    have hdepth : v.credentialSubject.1.depth = w.credentialSubject.1.depth := by
      have := congrArg Json.depth hsame.subject
      rwa [depth_mapNum, depth_mapNum] at this
    have hd : v.credentialSubject.1.depth ≤ 126 := hdepth ▸ parsed_depth_vc s3
    refine ⟨d1, ?_, s5.fresh, hd, ?_, ?_⟩
    · have := s5.owner
      rw [← hsame.issuer] at this
      exact this
    · obtain ⟨t', b1, b2, -⟩ := C53_vc L _ ((vc_toJcs_iff L _ t).mp h2).1 hd
      rw [h2] at b1
      cases b1
      exact b2.mp ⟨w, by rw [utf8_eq]; exact s3, hsame⟩
    · exact (signed_head C kp _ _ _ (.vc h1 rfl c4)).mp d2
  · rintro ⟨⟨signed, h1, h2⟩, h3, ⟨fragment, h4⟩, h5, h6, h7, h8⟩
    obtain ⟨t', w, a1, a2, a3⟩ := C101_honest_vc L (C92_laws C).2.1 (policy E T) kp v opts signed h1 fragment h4 key h5 h6 h7
    rw [h2] at a1
    cases a1
    refine ⟨signed, w, h1, h2, (portable_readVC T _ _ _).mpr ⟨by rw [← utf8_eq]; exact a3, ?_⟩⟩
    obtain ⟨c1, c2, c3, text, c4, rfl⟩ := ((C32_vc L kp _ _).1 _).mp h1
    rw [← a2.proof]
    exact (portable_proof _ _ c4).mpr ⟨h3, (signed_head C kp _ _ _ (.vc h1 rfl c4)).mpr h8⟩

/-- C106: when the issuer publishes a presentation: the same, and every credential inside is one the reader returns. -/
theorem C106_issue_vp (C : Conforms E seed bits parts) (V : Between E) (T : Table) (kp : E.EdKP) (v : VP E) (opts : Proof)
    (hk : T.keyBytes opts.verificationMethod = some (Ed25519.publicKey (seed kp))) (t : Str) : issueVP E T kp v opts = some t ↔
      (∃ signed, Careful.signVP kp v opts = .ok signed ∧ signed.toJcs = .ok t) ∧ (∃ c, opts.created = some c ∧ Zulu c) ∧
      (∃ holder fragment, v.holder = some holder ∧ opts.verificationMethod = holder ++ '#' :: fragment) ∧
      (∀ e, opts.expires = some e → T.expired e = false) ∧
      (∀ c ∈ v.verifiableCredential, c.credentialSubject.1.depth ≤ 124 ∧ ∃ t w, c.toJcs = .ok t ∧ SameVC c w ∧
        Portable.readVC E T .assertionMethod (utf8 t) = some w) ∧
      Nonzero (seed kp) (optionBytes E (unvalued opts)) (vpBytes (unsignedVP v)) := by
  rw [issueVP_iff]
  have L := C.jcs
  have key := own_key C T kp opts.verificationMethod hk
  constructor
  · rintro ⟨signed, w, h1, h2, h3⟩
    refine ⟨⟨signed, h1, h2⟩, ?_⟩
    have hag := (C106_vp C V T _ _ _).mp h3
    obtain ⟨g1, g2, -⟩ := (portable_readVP T _ _ _).mp h3
    obtain ⟨s1, s2, s3, ⟨p, holder, s4, s4', s5⟩, -⟩ := (C101_vp L _ _ _ _).mp g1
    obtain ⟨c1, c2, c3, text, c4, rfl⟩ := ((C32_vp L kp _ _).1 _).mp h1
    have hw : w.toJcs = .ok t := (vp_toJcs_iff L w t).mpr ⟨s1, s2⟩
    have hsame := (C29_vp L _ w ((vp_toJcs_iff L _ t).mp h2).1 s1).mp (h2.trans hw.symm)
    have hp := hsame.proof.symm
    rw [s4] at hp
    cases hp
    rw [s4] at g2
    obtain ⟨d1, d2⟩ := (portable_proof _ _ c4).mp g2
    refine ⟨d1, ⟨holder, ?_⟩, s5.fresh, ?_, ?_⟩
    · obtain ⟨f, hf⟩ := s5.owner
      exact ⟨f, hsame.holder.trans s4', hf⟩
    · intro c hc
      have hl : List.Forall₂ SameVC v.verifiableCredential w.verifiableCredential := hsame.credentials
      obtain ⟨x, hx, hcx⟩ : ∃ x ∈ w.verifiableCredential, SameVC c x := by
        exact forall₂_left hl hc
      have hax := hag.credentials x hx
      have hcc : VCComplete c := VCComplete.same (v := x) (w := c)
        ⟨hcx.contexts.symm, hcx.types.symm, hcx.subject.symm, hcx.proof.symm, hcx.id.symm, hcx.issuer.symm⟩ hax.complete
      obtain ⟨tc, htc⟩ := (C24_serialise_iff c).2.1.mpr hcc
      have hdepth : c.credentialSubject.1.depth = x.credentialSubject.1.depth := by
        have := congrArg Json.depth hcx.subject
        rwa [depth_mapNum, depth_mapNum] at this
      refine ⟨hdepth ▸ parsed_depth_vp s3 x hx, tc, x, htc, hcx, (C106_vc C V T _ _ _).mpr ?_⟩
      rw [utf8_eq, ((vc_toJcs_iff L c tc).mp htc).2, vcBytes_of_same L hcx]
      exact hax
    · exact (signed_head C kp _ _ _ (.vp h1 rfl c4)).mp d2
  · rintro ⟨⟨signed, h1, h2⟩, h3, ⟨holder, fragment, h4, h4'⟩, h5, h6, h8⟩
    obtain ⟨t', w, a1, a2, a3⟩ := C101_honest_vp L (C92_laws C).2.1 (policy E T) kp v opts signed h1 holder fragment h4 h4' key h5
      (fun c hc => (h6 c hc).1) (fun c hc => by
        obtain ⟨-, t, w, k1, k2, k3⟩ := h6 c hc
        exact ⟨t, w, k1, k2, ((portable_readVC T _ _ _).mp k3).1⟩)
    rw [h2] at a1
    cases a1
    refine ⟨signed, w, h1, h2, (portable_readVP T _ _ _).mpr ⟨by rw [← utf8_eq]; exact a3, ?_, ?_⟩⟩
    · obtain ⟨c1, c2, c3, text, c4, rfl⟩ := ((C32_vp L kp _ _).1 _).mp h1
      rw [← a2.proof]
      exact (portable_proof _ _ c4).mpr ⟨h3, (signed_head C kp _ _ _ (.vp h1 rfl c4)).mpr h8⟩
    · intro x hx
      obtain ⟨c1, c2, c3, text, c4, rfl⟩ := ((C32_vp L kp _ _).1 _).mp h1
      have hl : List.Forall₂ SameVC v.verifiableCredential w.verifiableCredential := a2.credentials
      obtain ⟨c, hc, hcx⟩ : ∃ c ∈ v.verifiableCredential, SameVC c x := by
        exact forall₂_right hl hx
      obtain ⟨-, t, y, k1, k2, k3⟩ := h6 c hc
      have := ((portable_readVC T _ _ _).mp k3).2
      rw [← k2.proof, hcx.proof] at this
      exact this

end

section
variable {E₁ E₂ : Env} {seed₁ : E₁.EdKP → Bytes} {seed₂ : E₂.EdKP → Bytes} {bits₁ : E₁.F → Double.F64} {bits₂ : E₂.F → Double.F64}
  {parts₁ : E₁.Multiaddr → List AddrPart} {parts₂ : E₂.Multiaddr → List AddrPart}

/-- C106: what the issuer publishes, every build returns, with the text it was published in. -/
theorem C106_issued_vc (C₁ : Conforms E₁ seed₁ bits₁ parts₁) (C₂ : Conforms E₂ seed₂ bits₂ parts₂) (V₁ : Between E₁) (V₂ : Between E₂)
    (T₁ T₂ : Table) (hT : Wider T₁ T₂) (kp : E₁.EdKP) (v : VC E₁) (opts : Proof) (t : Str) (h : issueVC E₁ T₁ kp v opts = some t) :
    ∃ w, Portable.readVC E₂ T₂ opts.proofPurpose (utf8 t) = some w ∧ w.toJcs = .ok t ∧ w.issuer = v.issuer ∧ w.id = v.id ∧
      w.types = v.types ∧ w.contexts = v.contexts := by
  obtain ⟨signed, w₁, h1, h2, h3⟩ := (issueVC_iff T₁ kp v opts t).mp h
  obtain ⟨w, h4, h5⟩ := (C106_wider C₁ C₂ V₁ V₂ T₁ T₂ hT _ _).1 w₁ h3
  have ha := (C106_vc C₁ V₁ T₁ _ _ _).mp h3
  have hw₁ : w₁.toJcs = .ok t := (vc_toJcs_iff C₁.jcs w₁ t).mpr ⟨ha.complete, ha.text⟩
  have hsame := (C29_vc C₁.jcs _ w₁ ((vc_toJcs_iff C₁.jcs _ t).mp h2).1 ha.complete).mp (h2.trans hw₁.symm)
  obtain ⟨-, -, -, text, -, rfl⟩ := ((C32_vc C₁.jcs kp _ _).1 _).mp h1
  refine ⟨w, by rw [utf8_eq]; exact h4, ?_, h5.issuer.symm.trans hsame.issuer.symm, h5.id.symm.trans hsame.id.symm,
    h5.types.symm.trans hsame.types.symm, h5.contexts.symm.trans hsame.contexts.symm⟩
  rw [← (C92_texts_vc C₁ C₂ h5).2.2]
  exact hw₁

/-- C106: the same for presentations. -/
theorem C106_issued_vp (C₁ : Conforms E₁ seed₁ bits₁ parts₁) (C₂ : Conforms E₂ seed₂ bits₂ parts₂) (V₁ : Between E₁) (V₂ : Between E₂)
    (T₁ T₂ : Table) (hT : Wider T₁ T₂) (kp : E₁.EdKP) (v : VP E₁) (opts : Proof) (t : Str) (h : issueVP E₁ T₁ kp v opts = some t) :
    ∃ w, Portable.readVP E₂ T₂ opts.proofPurpose (utf8 t) = some w ∧ w.toJcs = .ok t ∧ w.holder = v.holder ∧
      w.verifiableCredential.length = v.verifiableCredential.length := by
  obtain ⟨signed, w₁, h1, h2, h3⟩ := (issueVP_iff T₁ kp v opts t).mp h
  obtain ⟨w, h4, h5⟩ := (C106_wider C₁ C₂ V₁ V₂ T₁ T₂ hT _ _).2 w₁ h3
  have ha := (C106_vp C₁ V₁ T₁ _ _ _).mp h3
  have hw₁ : w₁.toJcs = .ok t := (vp_toJcs_iff C₁.jcs w₁ t).mpr ⟨ha.complete, ha.text⟩
  have hsame := (C29_vp C₁.jcs _ w₁ ((vp_toJcs_iff C₁.jcs _ t).mp h2).1 ha.complete).mp (h2.trans hw₁.symm)
  obtain ⟨-, -, -, text, -, rfl⟩ := ((C32_vp C₁.jcs kp _ _).1 _).mp h1
  refine ⟨w, by rw [utf8_eq]; exact h4, ?_, h5.holder.symm.trans hsame.holder.symm,
    h5.credentials.length_eq.symm.trans hsame.credentials.length_eq.symm⟩
  rw [← (C92_texts_vp C₁ C₂ h5).2.2]
  exact hw₁

end

/-- What the careful signer makes. -/
def sealedVC {E : Env} (kp : E.EdKP) (v : VC E) (opts : Proof) : VC E :=
  { v with proof := some { opts with
      proofValue := multibaseEncode58 (E.edSign kp (message E (optionBytes E (unvalued opts)) (vcBytes (unsignedVC v)))) } }

theorem sealed_eq {E : Env} (L : E.JcsLaws) {kp : E.EdKP} {v signed : VC E} {opts : Proof} (h : Careful.signVC kp v opts = .ok signed) :
    signed = sealedVC kp v opts := by
  obtain ⟨-, -, -, text, g4, rfl⟩ := ((C32_vc L kp _ _).1 _).mp h
  rw [g4.unique]
  rfl

/-- What was published may stand inside a presentation. -/
theorem issued_inside {E : Env} {seed : E.EdKP → Bytes} {bits : E.F → Double.F64} {parts : E.Multiaddr → List AddrPart}
    (C : Conforms E seed bits parts) (V : Between E) (T : Table) (kp : E.EdKP) (v : VC E) (opts : Proof) (t : Str)
    (h : issueVC E T kp v opts = some t) (hp : opts.proofPurpose = .assertionMethod) :
    (sealedVC kp v opts).credentialSubject.1.depth ≤ 126 ∧ ∃ t w, (sealedVC kp v opts).toJcs = .ok t ∧ SameVC (sealedVC kp v opts) w ∧
      Portable.readVC E T .assertionMethod (utf8 t) = some w := by
  obtain ⟨signed, w, h1, h2, h3⟩ := (issueVC_iff _ _ _ _ _).mp h
  have e := sealed_eq C.jcs h1
  subst e
  have ha := (C106_vc C V _ _ _ _).mp h3
  have hsame := (C29_vc C.jcs _ w ((vc_toJcs_iff C.jcs _ t).mp h2).1 ha.complete).mp
    (h2.trans ((vc_toJcs_iff C.jcs w t).mpr ⟨ha.complete, ha.text⟩).symm)
  refine ⟨?_, t, w, h2, hsame, by rw [utf8_eq, ← hp]; exact h3⟩
  have := congrArg Json.depth hsame.subject
  rw [depth_mapNum, depth_mapNum] at this
  rw [this]
  exact parsed_depth_vc ha.reads

/-! ### Cases -/

/-- The check of RFC 8032 is between the two, and so is one that refuses the eight keys. -/
theorem between_rfc {E : Env} (V : Rfc8032Verify E) : Between E := fun p m sig hd => ⟨fun h => (V p m sig hd).mpr h.1, (V p m sig hd).mp⟩

theorem one_between : Between one := between_rfc one_rfc

theorem two_between : Between two := fun p m sig hd => by
  have key : two.edVerify p m (hexEncode sig) =
    if hexEncode (one.edPubBytes p) ∈ smallKeys then .ok false else one.edVerify p m (hexEncode sig) := rfl
  rw [key]
  constructor
  · intro h
    rw [if_neg h.2.1]
    exact (one_rfc p m sig hd).mpr h.1
  · intro h
    split_ifs at h
    · cases h
    · exact (one_rfc p m sig hd).mp h

/-- A date of the form, and its neighbours. -/
example : Zulu "2024-02-29T23:59:59Z".toList ∧ ¬ Zulu "2023-02-29T23:59:59Z".toList ∧ ¬ Zulu "2024-02-29T23:59:60Z".toList ∧
    ¬ Zulu "2024-02-29 23:59:59Z".toList ∧ ¬ Zulu "+2024-02-29T23:59:59Z".toList ∧ ¬ Zulu "2024-02-29T24:00:00Z".toList := by
  simp only [← C106_date]
  decide

def steadyOptions : Proof := { plainOptions with created := some "2024-02-29T23:59:59Z".toList, verificationMethod := "did:prople:x#k".toList }

def steadyTable : Table := ⟨fun _ => false, fun m => if m = "did:prople:x#k".toList then some (Ed25519.publicKey (standardSeed sampleKey)) else none⟩

theorem steady_zulu : Zulu "2024-02-29T23:59:59Z".toList := (C106_date _).mp (by decide)

theorem oneVC_rereads : Rereads one oneVC.credentialSubject.1 := by
  refine (C80_documents one_conforms.standard.numbers _ fun f hf => ?_).2
  simp only [oneVC, Json.nums, Json.numsList, List.mem_append, List.mem_singleton, List.not_mem_nil, or_false, reduceCtorEq] at hf
  cases hf
  exact small_everyday

theorem steady_nonzero : Nonzero (standardSeed sampleKey) (optionBytes one (unvalued steadyOptions)) (vcBytes (unsignedVC oneVC)) := by
  unfold Nonzero
  decide +kernel

theorem steady_good : GoodOptions one steadyOptions := ⟨rfl, rfl, _, rfl, (C106_dates _ steady_zulu).2.2.2 one one_conforms.dates⟩

theorem steady_key (m : Str) (hm : m = "did:prople:x#k".toList) : steadyTable.keyBytes m = some (Ed25519.publicKey (standardSeed sampleKey)) := by
  unfold steadyTable
  exact if_pos hm

/-- `C106_issue_vc`: a credential with numbers is published. -/
theorem steady_issue : ∃ t, issueVC one steadyTable sampleKey oneVC steadyOptions = some t := by
  have hs := ((C32_vc one_conforms.jcs sampleKey ({ oneVC with proof := none } : VC one) { steadyOptions with proofValue := [] }).1 _).mpr
    ⟨⟨steady_good.1, steady_good.2, steady_good.3⟩, by decide, oneVC_complete, _, multibaseEncode58_spec _, rfl⟩
  obtain ⟨t, ht⟩ := (C24_serialise_iff _).2.1.mpr (show VCComplete ({ oneVC with proof := some { steadyOptions with proofValue := _ } } : VC one)
    from oneVC_complete)
  exact ⟨t, (C106_issue_vc one_conforms steadyTable sampleKey oneVC steadyOptions (steady_key _ rfl) t).mpr
    ⟨⟨_, hs, ht⟩, ⟨_, rfl, steady_zulu⟩, ⟨"k".toList, rfl⟩, fun _ _ => rfl, by simp [oneVC, Json.depth, Json.depthList], oneVC_rereads, steady_nonzero⟩⟩

/-- `C106_issued_vc`, `C106_vc`, `C106_all_vc`: the other build, whose signature check is stricter, returns it. -/
example : ∃ t w, issueVC one steadyTable sampleKey oneVC steadyOptions = some t ∧
    Portable.readVC two steadyTable .assertionMethod (utf8 t) = some w ∧ w.toJcs = .ok t ∧ w.issuer = oneVC.issuer := by
  obtain ⟨t, ht⟩ := steady_issue
  obtain ⟨w, h1, h2, h3, -⟩ := C106_issued_vc one_conforms two_conforms one_between two_between steadyTable steadyTable
    ⟨fun _ _ h => h, fun _ h => h⟩ _ _ _ t ht
  exact ⟨t, w, ht, h1, h2, h3⟩

theorem signs_vp {E : Env} (L : E.JcsLaws) (kp : E.EdKP) (v : VP E) (opts : Proof) (ho : GoodOptions E opts)
    (hp : opts.proofPurpose ≠ .unknown) (hv : VPComplete v) : ∃ signed t, Careful.signVP kp v opts = .ok signed ∧ signed.toJcs = .ok t := by
  have hs := ((C32_vp L kp { v with proof := none } { opts with proofValue := [] }).1 _).mpr
    ⟨⟨ho.1, ho.2, ho.3⟩, hp, hv, _, multibaseEncode58_spec _, rfl⟩
  obtain ⟨t, ht⟩ := (C25_serialise_iff _).2.1.mpr (show VPComplete { v with proof := some { opts with proofValue := _ } } from hv)
  exact ⟨_, t, hs, ht⟩

theorem inside_one {E : Env} {seed : E.EdKP → Bytes} {bits : E.F → Double.F64} {parts : E.Multiaddr → List AddrPart}
    (C : Conforms E seed bits parts) (V : Between E) (T : Table) (kp : E.EdKP) (v : VC E) (opts : Proof) (t : Str)
    (h : issueVC E T kp v opts = some t) (hp : opts.proofPurpose = .assertionMethod) (hd : v.credentialSubject.1.depth ≤ 124)
    (c : VC E) (hm : c ∈ [sealedVC kp v opts]) :
    c.credentialSubject.1.depth ≤ 124 ∧ ∃ t w, c.toJcs = .ok t ∧ SameVC c w ∧ Portable.readVC E T .assertionMethod (utf8 t) = some w := by
  rw [List.mem_singleton] at hm
  subst hm
  exact ⟨hd, (issued_inside C V T kp v opts t h hp).2⟩

def steadyVP (c : VC one) : VP one :=
  { contexts := ["c".toList], types := ["P".toList], verifiableCredential := [c], proof := none, holder := some "did:prople:x".toList }

def steadyVC : VC one := sealedVC sampleKey oneVC steadyOptions

theorem steadyVP_nonzero : Nonzero (standardSeed sampleKey) (optionBytes one (unvalued steadyOptions)) (vpBytes (unsignedVP (steadyVP steadyVC))) := by
  unfold Nonzero
  decide +kernel

theorem steadyVP_complete (c : VC one) : VPComplete (steadyVP c) := ⟨nofun, nofun, nofun⟩

theorem oneVC_depth : oneVC.credentialSubject.1.depth ≤ 124 := by simp [oneVC, Json.depth, Json.depthList]

theorem issues_steadyVP (c : VC one) (o : Proof) (ho : GoodOptions one o) (hp : o.proofPurpose = .assertionMethod)
    (hz : ∃ d, o.created = some d ∧ Zulu d) (hvm : o.verificationMethod = "did:prople:x#k".toList)
    (hin : ∀ c' ∈ [c], c'.credentialSubject.1.depth ≤ 124 ∧ ∃ t w, c'.toJcs = .ok t ∧ SameVC c' w ∧
      Portable.readVC one steadyTable .assertionMethod (utf8 t) = some w)
    (hn : Nonzero (standardSeed sampleKey) (optionBytes one (unvalued o)) (vpBytes (unsignedVP (steadyVP c)))) :
    ∃ t, issueVP one steadyTable sampleKey (steadyVP c) o = some t := by
  obtain ⟨s, t, h1, h2⟩ := signs_vp one_conforms.jcs sampleKey (steadyVP c) o ho (by rw [hp]; nofun) (steadyVP_complete c)
  refine ⟨t, (C106_issue_vp one_conforms one_between steadyTable sampleKey (steadyVP c) o (steady_key _ hvm) t).mpr
      ⟨⟨_, h1, h2⟩, hz, ⟨"did:prople:x".toList, "k".toList, rfl, hvm⟩, fun _ _ => rfl, hin, hn⟩⟩

/-- `C106_issue_vp`, `C106_issued_vp`, `C106_vp`, `C106_all_vp`: a presentation of it is published too, and returned by the other build. -/
theorem steadyVP_issue : ∃ t, issueVP one steadyTable sampleKey (steadyVP steadyVC) steadyOptions = some t := by
  obtain ⟨tc, htc⟩ := steady_issue
  have := inside_one one_conforms one_between steadyTable sampleKey oneVC steadyOptions tc htc rfl oneVC_depth
  exact issues_steadyVP _ _ steady_good rfl ⟨_, rfl, steady_zulu⟩ rfl this steadyVP_nonzero

example : ∃ t w, issueVP one steadyTable sampleKey (steadyVP steadyVC) steadyOptions = some t ∧
    Portable.readVP two steadyTable .assertionMethod (utf8 t) = some w ∧ w.toJcs = .ok t ∧ w.verifiableCredential.length = 1 := by
  obtain ⟨t, ht⟩ := steadyVP_issue
  obtain ⟨w, h1, h2, -, h3⟩ := C106_issued_vp one_conforms two_conforms one_between two_between steadyTable steadyTable
    ⟨fun _ _ h => h, fun _ h => h⟩ _ _ _ t ht
  exact ⟨t, w, ht, h1, h2, h3⟩

/-- `C106_same_vc`, `C106_key`: on the text of `C92_open` the library answers differently in the two builds; both readers refuse it, since
the key is one of the eight. -/
example : ∃ (T : Table) (p₁ : one.EdPub) (p₂ : two.EdPub) (bs : Bytes) (v : VC one) (q : Proof), v.proof = some q ∧
    T.keyBytes q.verificationMethod = some (one.edPubBytes p₁) ∧ one.edPubBytes p₁ = two.edPubBytes p₂ ∧
    AcceptedVC p₁ bs .assertionMethod v ∧ (¬ ∃ w, AcceptedVC p₂ bs .assertionMethod w) ∧
    Portable.readVC one T .assertionMethod bs = none ∧ Portable.readVC two T .assertionMethod bs = none := by
  obtain ⟨pub, t, h1, -, h2, -⟩ := C79_neutral_key one_conforms.standard.signatures one_rfc one_conforms.jcs
  have hb := one_conforms.standard.signatures.bytes _ _ h1
  let v : VC one := { oneVC with proof := some { plainOptions with proofValue := t } }
  have hv : VCComplete v := oneVC_complete
  obtain ⟨text, -, g2⟩ := C26_json_roundtrip (C92_laws one_conforms).2.2.2.2.2.1 v hv oneVC_survives
    (by simp [v, oneVC, Json.depth, Json.depthList])
  let T : Table := ⟨fun _ => false, fun _ => some (one.edPubBytes pub)⟩
  have hw : keyOk (one.edPubBytes pub) ≠ true := by
    rw [Ne, C106_key, hb]
    exact fun h => h.2 (by decide +kernel)
  have hnone : Portable.readVC one T .assertionMethod text.toBytes = none := by
    cases h : Portable.readVC one T .assertionMethod text.toBytes with
    | none => rfl
    | some w =>
      obtain ⟨p, key, pub', -, k1, -, -, k2, -⟩ := C106_all_vc one_conforms one_between T _ _ w h
      cases k1
      obtain ⟨-, -, -, sig, -, -, -, -, -, -, k3⟩ := k2
      have := (C106_vc one_conforms one_between T _ _ w).mp h
      obtain ⟨-, -, -, p, -, h5⟩ := this
      obtain ⟨key, sig, f1, -, f3⟩ := h5.signed
      cases f1
      exact absurd (by rw [hb]; decide +kernel) f3.2.1
  refine ⟨T, pub, pub, text.toBytes, v, _, rfl, rfl, rfl, ⟨g2, _, h2 _ v _ g2 rfl rfl ⟨rfl, rfl, _, rfl, by decide +kernel⟩ (fun h => nomatch h) hv, rfl⟩, ?_, hnone, ?_⟩
  · rintro ⟨w, hr, r, h, hok⟩
    obtain ⟨w, p, -, -, -, -, -, -, ⟨_, sig, hex, -, -, ha⟩, -⟩ := (C33_vc two_conforms.jcs _ _ _ _).mp ⟨h, hok⟩
    have : (if hexEncode (one.edPubBytes pub) ∈ smallKeys then (Except.ok false : Except Str Bool) else one.edVerify pub
      (message two (optionBytes two (unvalued p)) (vcBytes (unsignedVC w))) hex) = .ok true := ha
    rw [hb, if_pos (by decide +kernel)] at this
    cases this
  · rcases C106_same_vc one_conforms two_conforms one_between two_between T .assertionMethod text.toBytes with ⟨-, h⟩ | ⟨a, b, h, -⟩
    · exact h
    · rw [hnone] at h
      cases h

end Verif.Props
