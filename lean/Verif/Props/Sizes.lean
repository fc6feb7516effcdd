import Verif.Props.Did
import Verif.Props.Identity
import Verif.Props.Hashlink
import Verif.Props.Proof

/-
C74: lengths of the texts the code makes. DIDs have 99 or 100 characters, hashlinks 47 (and start with `zgV` or
`zgW`), published keys of 32 bytes 88 or 89, signatures of 64 bytes 65 to 89.
-/

namespace Verif
open Spec

/-- Length of a base58btc text: the leading zeros and the digits of the number. -/
theorem isBase58_length {b : Bytes} {t : Str} (h : IsBase58 b t) :
    t.length = zerosOf (b.map UInt8.toNat) + (Nat.digits 58 (valueOf 256 (b.map UInt8.toNat))).length := by
  rw [h.unique, zerosOf_eq, valueOf_eq]
  simp [base58Encode, rebase, digitsBE]

/-- The number of a byte text with first byte `a` and `n` further bytes. -/
theorem value_bounds (a : UInt8) (r : Bytes) :
    a.toNat * 256 ^ r.length ≤ valueOf 256 ((a :: r).map UInt8.toNat) ∧
      valueOf 256 ((a :: r).map UInt8.toNat) < (a.toNat + 1) * 256 ^ r.length := by
  have e : valueOf 256 ((a :: r).map UInt8.toNat) =
      a.toNat * 256 ^ r.length + Nat.ofDigits 256 (r.map UInt8.toNat).reverse := by
    unfold valueOf
    rw [List.map_cons, List.foldl_cons, valueOf_acc]
    simp
  have hlt : Nat.ofDigits 256 (r.map UInt8.toNat).reverse < 256 ^ r.length := by
    have := Nat.ofDigits_lt_base_pow_length (b := 256) (l := (r.map UInt8.toNat).reverse) (by omega) (by
      intro x hx
      simp only [List.mem_reverse, List.mem_map] at hx
      obtain ⟨y, _, rfl⟩ := hx
      exact y.toNat_lt)
    simpa using this
  rw [e, Nat.add_mul, Nat.one_mul]
  constructor <;> omega

theorem zerosOf_cons {a : UInt8} (r : Bytes) (h : a ≠ 0) : zerosOf ((a :: r).map UInt8.toNat) = 0 := by
  have : ¬ a.toNat = 0 := fun e => h (UInt8.toNat.inj e)
  simp [zerosOf, this]

/-- Length of the text of bytes that do not start with zero, from bounds on the number. -/
theorem base58_length_between {a : UInt8} {r : Bytes} {t : Str} (h : IsBase58 (a :: r) t) (ha : a ≠ 0) {l u : Nat}
    (hl : 58 ^ l ≤ a.toNat * 256 ^ r.length) (hu : (a.toNat + 1) * 256 ^ r.length ≤ 58 ^ u) : l < t.length ∧ t.length ≤ u := by
  obtain ⟨h1, h2⟩ := value_bounds a r
  rw [isBase58_length h, zerosOf_cons r ha, Nat.zero_add]
  exact ⟨(Nat.lt_digits_length_iff (by omega) _).mpr (by omega), (Nat.digits_length_le_iff (by omega) _).mpr (by omega)⟩

/-- Length of the base58btc text of any bytes. -/
theorem base58_length_any {b : Bytes} {t : Str} (h : IsBase58 b t) {u : Nat} (hu : 256 ^ b.length ≤ 58 ^ u) :
    b.length ≤ t.length ∧ t.length ≤ u := by
  rw [isBase58_length h]
  obtain ⟨z, r, rfl, hr⟩ : ∃ z r, b = List.replicate z 0 ++ r ∧ ∀ a r', r = a :: r' → a ≠ 0 := by
    clear h hu
    induction b with
    | nil => exact ⟨0, [], rfl, by simp⟩
    | cons a b ih =>
      by_cases ha : a = 0
      · obtain ⟨z, r, e, hr⟩ := ih
        exact ⟨z + 1, r, by rw [ha, e]; rfl, hr⟩
      · exact ⟨0, a :: b, rfl, by rintro x y e; cases e; exact ha⟩
  have hz : ∀ z, zerosOf ((List.replicate z 0 ++ r).map UInt8.toNat) = z + zerosOf (r.map UInt8.toNat) := by
    intro z
    induction z with
    | zero => simp
    | succ z ih =>
      have : zerosOf ((List.replicate (z + 1) 0 ++ r).map UInt8.toNat) =
          zerosOf ((List.replicate z 0 ++ r).map UInt8.toNat) + 1 := by
        simp [zerosOf, List.replicate_succ]
      omega
  have hv : valueOf 256 ((List.replicate z 0 ++ r).map UInt8.toNat) = valueOf 256 (r.map UInt8.toNat) := by
    rw [valueOf_eq, valueOf_eq, List.map_append, List.map_replicate]
    exact valBE_replicate _ _ _
  rw [hz, hv]
  rw [List.length_append, List.length_replicate] at hu ⊢
  cases r with
  | nil =>
    have : (58 : Nat) ^ z ≤ 58 ^ u := le_trans (Nat.pow_le_pow_left (by omega : 58 ≤ 256) z) (by simpa using hu)
    have := (Nat.pow_le_pow_iff_right (by omega : 1 < 58)).mp this
    simp [zerosOf, valueOf]
    omega
  | cons a r =>
    obtain ⟨h1, h2⟩ := value_bounds a r
    rw [zerosOf_cons r (hr _ _ rfl)]
    have ha : 1 ≤ a.toNat := by
      have : a.toNat ≠ 0 := fun e => hr _ _ rfl (UInt8.toNat.inj e)
      omega
    have ha' : a.toNat + 1 ≤ 256 := a.toNat_lt
    simp only [List.length_cons] at hu ⊢
    constructor
    · have : r.length < (Nat.digits 58 (valueOf 256 ((a :: r).map UInt8.toNat))).length := by
        refine (Nat.lt_digits_length_iff (by omega) _).mpr ?_
        calc 58 ^ r.length ≤ 256 ^ r.length := Nat.pow_le_pow_left (by omega) _
          _ ≤ a.toNat * 256 ^ r.length := Nat.le_mul_of_pos_left _ ha
          _ ≤ _ := h1
      omega
    · have hzu : z ≤ u := by
        have : (58 : Nat) ^ z ≤ 58 ^ u := by
          calc 58 ^ z ≤ 256 ^ z := Nat.pow_le_pow_left (by omega) _
            _ ≤ 256 ^ (z + (r.length + 1)) := Nat.pow_le_pow_right (by omega) (by omega)
            _ ≤ _ := hu
        exact (Nat.pow_le_pow_iff_right (by omega : 1 < 58)).mp this
      have : (Nat.digits 58 (valueOf 256 ((a :: r).map UInt8.toNat))).length ≤ u - z := by
        refine (Nat.digits_length_le_iff (by omega) _).mpr ?_
        have h58 : 0 < 58 ^ z := Nat.pow_pos (by omega)
        refine Nat.lt_of_mul_lt_mul_left (a := 58 ^ z) ?_
        rw [← Nat.pow_add, Nat.add_sub_cancel' hzu]
        calc 58 ^ z * valueOf 256 ((a :: r).map UInt8.toNat)
            < 58 ^ z * ((a.toNat + 1) * 256 ^ r.length) := Nat.mul_lt_mul_of_pos_left h2 h58
          _ ≤ 256 ^ z * (256 * 256 ^ r.length) :=
            Nat.mul_le_mul (Nat.pow_le_pow_left (by omega) _) (Nat.mul_le_mul_right _ ha')
          _ = 256 ^ (z + (r.length + 1)) := by rw [Nat.pow_add, Nat.pow_succ']
          _ ≤ _ := hu
      omega

end Verif

namespace Verif.Props
open Verif Spec Hashlink

/-- The text of a key or digest of 32 bytes: multibase of its 64 hex digits. -/
theorem keyText_length {b : Bytes} {t : Str} (h : IsKeyText b t) (hb : b.length = 32) :
    t.length = 88 ∨ t.length = 89 := by
  obtain ⟨hex, hh, r, rfl, hr⟩ := h
  have e := hh.unique
  subst e
  rw [utf8_eq] at hr
  obtain ⟨x, b, rfl⟩ : ∃ x b', b = x :: b' := by
    cases b with
    | nil => simp at hb
    | cons x b => exact ⟨x, b, rfl⟩
  have hchar : ∀ c ∈ hexEncode (x :: b), 48 ≤ c.toNat ∧ c.toNat ≤ 102 := by
    intro c hc
    have := hexEncode_chars _ c hc
    omega
  have hlen := hexEncode_length (x :: b)
  obtain ⟨c, s, hs⟩ : ∃ c s, hexEncode (x :: b) = c :: s := ⟨_, _, rfl⟩
  rw [hs] at hr hchar hlen
  have hbytes : ∀ s : Str, (∀ c ∈ s, 48 ≤ c.toNat ∧ c.toNat ≤ 102) → (utf8Encode s).length = s.length := by
    intro s hs
    induction s with
    | nil => rfl
    | cons c s ih =>
      rw [utf8Encode_cons, utf8Encode_ascii c (by have := hs c (by simp); omega)]
      simp [ih fun c hc => hs c (by simp [hc])]
  have hc := hchar c (by simp)
  rw [utf8Encode_cons, utf8Encode_ascii c (by omega)] at hr
  have hcb : (byte c.toNat).toNat = c.toNat := by
    simp [byte]
    omega
  have hl : (utf8Encode s).length = 63 := by
    rw [hbytes s fun c hc => hchar c (by simp [hc])]
    simp only [List.length_cons] at hlen hb
    omega
  have := base58_length_between (a := byte c.toNat) (r := utf8Encode s) (l := 86) (u := 88) hr
    (fun e => by rw [e] at hcb; simp at hcb; omega)
    (by
      rw [hl, hcb]
      exact le_trans (by decide +kernel : 58 ^ 86 ≤ 48 * 256 ^ 63) (Nat.mul_le_mul_right _ hc.1))
    (by
      rw [hl, hcb]
      exact le_trans (Nat.mul_le_mul_right _ (by omega : c.toNat + 1 ≤ 103)) (by decide +kernel : 103 * 256 ^ 63 ≤ 58 ^ 88))
  simp only [List.length_cons]
  omega

/-- C74: a DID has 99 or 100 characters. -/
theorem C74_did {E : Env} (H : E.HashLaws) (d : DID E) (i : Identity E) (hi : d.identity = .ok i) :
    i.value.length = 99 ∨ i.value.length = 100 := by
  obtain ⟨i', hex, payload, hi', ⟨h1, h2, h3⟩, _⟩ := identity_isDid d
  rw [hi] at hi'; cases hi'
  have := keyText_length ⟨hex, h1, h2⟩ (H.blake3_len _)
  rw [h3, List.length_append, show "did:prople:".toList.length = 11 from rfl]
  omega

/-- C74: a published key of 32 bytes is a text of 88 or 89 characters. -/
theorem C74_keys {E : Env} (v : Str) (ops : List (IdOp E))
    (he : ∀ k, (E.edPubBytes (E.edPub k)).length = 32) (hd : ∀ k, (E.dhPubBytes (E.dhPub k)).length = 32)
    (p : Primary) (hp : p ∈ (idRun v ops).toDoc.authentication.getD [] ++ (idRun v ops).toDoc.assertion.getD []) :
    p.multibase.length = 88 ∨ p.multibase.length = 89 := by
  obtain ⟨_, _, _, _, h1, h2, _⟩ := C12_document v ops
  have key : ∀ (o : Option (MethodSeed E)) (x : Option (List Primary)) (a b : Str), EntriesIs E v a b o x →
      p ∈ x.getD [] → p.multibase.length = 88 ∨ p.multibase.length = 89 := by
    intro o x a b h hp
    cases o with
    | none => rw [show x = none from h] at hp; simp at hp
    | some s =>
      obtain ⟨l, rfl, kv, ka, rfl, hv, ha⟩ := h
      simp only [Option.getD_some, List.mem_cons, List.not_mem_nil, or_false] at hp
      rcases hp with rfl | rfl
      · exact keyText_length hv (he _)
      · exact keyText_length ha (hd _)
  rcases List.mem_append.mp hp with hp | hp
  · exact key _ _ _ _ h1 hp
  · exact key _ _ _ _ h2 hp

/-- C74: the text of a signature of 64 bytes has 65 to 89 characters. -/
theorem C74_signature_vc {E : Env} (L : E.JcsLaws) (kp : E.EdKP) (v : VC E) (opts : Proof) (out : VC E) (q : Proof)
    (hs : sign E (VC E) kp v opts = .ok out) (hq : out.proof = some q) (h64 : ∀ m, (E.edSign kp m).length = 64) :
    65 ≤ q.proofValue.length ∧ q.proofValue.length ≤ 89 := by
  obtain ⟨_, _, _, t, ⟨r, rfl, hr⟩, rfl⟩ := ((C32_vc L kp v opts).1 out).mp hs
  cases hq
  have := base58_length_any (u := 88) hr (by rw [h64]; decide +kernel)
  rw [h64] at this
  simp only [List.length_cons]
  omega

/-- C74: and in presentations. -/
theorem C74_signature_vp {E : Env} (L : E.JcsLaws) (kp : E.EdKP) (v : VP E) (opts : Proof) (out : VP E) (q : Proof)
    (hs : sign E (VP E) kp v opts = .ok out) (hq : out.proof = some q) (h64 : ∀ m, (E.edSign kp m).length = 64) :
    65 ≤ q.proofValue.length ∧ q.proofValue.length ≤ 89 := by
  obtain ⟨_, _, _, t, ⟨r, rfl, hr⟩, rfl⟩ := ((C32_vp L kp v opts).1 out).mp hs
  cases hq
  have := base58_length_any (u := 88) hr (by rw [h64]; decide +kernel)
  rw [h64] at this
  simp only [List.length_cons]
  omega

theorem d39 : base58Digits[39]? = some 'g' := by decide +kernel
theorem d28 : base58Digits[28]? = some 'V' := by decide +kernel
theorem d29 : base58Digits[29]? = some 'W' := by decide +kernel

/-- C74: every hashlink has 47 characters and starts with `zgV` or `zgW`. -/
theorem C74_hashlink {E : Env} (H : E.HashLaws) (v : JSONValue) (t : Str) (h : generateFromJson E (.ok v) = .ok t) :
    t.length = 47 ∧ (t.take 3 = "zgV".toList ∨ t.take 3 = "zgW".toList) := by
  obtain ⟨r, rfl, hr⟩ := (C23_shape H v t).mp h
  have hlen := H.blake3_len (utf8 v.text)
  generalize E.blake3 (utf8 v.text) = dig at hr hlen
  have hl := base58_length_between (a := 0x1e) (r := 0x20 :: dig) (l := 45) (u := 46) hr (by decide)
    (by rw [List.length_cons, hlen]; decide +kernel) (by rw [List.length_cons, hlen]; decide +kernel)
  have hr46 : r.length = 46 := by omega
  refine ⟨by simp [hr46], ?_⟩
  obtain ⟨ds, hds, hmap, hval, _⟩ := hr
  have hdl : ds.length = 46 := by
    have := congrArg List.length hmap
    simpa [hr46] using this.symm
  match ds, hdl, hds, hmap, hval with
  | d0 :: d1 :: rest, hdl, hds, hmap, hval =>
    match r, hr46, hmap with
    | c0 :: c1 :: r, _, hmap =>
      simp only [List.map_cons, List.cons.injEq] at hmap
      obtain ⟨e0, e1, _⟩ := hmap
      have hrest : rest.length = 44 := by simpa using hdl
      have hlt : Nat.ofDigits 58 rest.reverse < 58 ^ 44 := by
        have := Nat.ofDigits_lt_base_pow_length (b := 58) (l := rest.reverse) (by omega) (by
          intro x hx
          exact hds x (by simp [List.mem_reverse.mp hx]))
        simpa [hrest] using this
      have hv58 : valueOf 58 (d0 :: d1 :: rest) = (d0 * 58 + d1) * 58 ^ 44 + Nat.ofDigits 58 rest.reverse := by
        unfold valueOf
        rw [List.foldl_cons, List.foldl_cons, valueOf_acc, hrest]
        simp
      have hdig : Nat.ofDigits 256 (dig.map UInt8.toNat).reverse < 256 ^ 32 := by
        have := Nat.ofDigits_lt_base_pow_length (b := 256) (l := (dig.map UInt8.toNat).reverse) (by omega) (by
          intro x hx
          simp only [List.mem_reverse, List.mem_map] at hx
          obtain ⟨y, _, rfl⟩ := hx
          exact y.toNat_lt)
        simpa [hlen] using this
      have hv256 : valueOf 256 ((0x1e :: 0x20 :: dig).map UInt8.toNat) =
          7712 * 256 ^ 32 + Nat.ofDigits 256 (dig.map UInt8.toNat).reverse := by
        unfold valueOf
        rw [List.map_cons, List.map_cons, List.foldl_cons, List.foldl_cons, valueOf_acc, List.length_map, hlen]
        rfl
      rw [hv58, hv256] at hval
      have h0 := hds d0 (by simp)
      have h1 := hds d1 (by simp)
      have hd : d0 * 58 + d1 = 39 * 58 + 28 ∨ d0 * 58 + d1 = 39 * 58 + 29 := by
        norm_num at hval hlt hdig
        omega
      have hd0 : d0 = 39 := by omega
      have hd1 : d1 = 28 ∨ d1 = 29 := by omega
      subst hd0
      have c0g : c0 = 'g' := Option.some.inj (e0.trans d39)
      subst c0g
      rcases hd1 with rfl | rfl
      · left
        have : c1 = 'V' := Option.some.inj (e1.trans d28)
        subst this; rfl
      · right
        have : c1 = 'W' := Option.some.inj (e1.trans d29)
        subst this; rfl

/-- C74: a DID URI with the hashlink of a JSON text has 150 or 151 characters. -/
theorem C74_uri {E : Env} (H : E.HashLaws) (d : DID E) (v : JSONValue) (t uri : Str)
    (h : generateFromJson E (.ok v) = .ok t) (hu : d.buildUri (some { address := none, hl := some t }) = .ok uri) :
    uri.length = 150 ∨ uri.length = 151 := by
  obtain ⟨i, hi, _, _, _, h2, _⟩ := C10_build_uri d
  rw [h2] at hu
  cases hu
  have h1 := C74_did H d i hi
  have h2 := (C74_hashlink H v t h).1
  simp only [List.length_append, h2, show "?hl=".toList.length = 4 from rfl]
  omega

/-- Toy primitives with keys of 32 bytes and signatures of 64 bytes. -/
def wide : Env := { Toy.env with
  edPubBytes := fun k => k :: List.replicate 31 0
  dhPubBytes := fun k => k :: List.replicate 31 0
  edSign := fun k m => k :: (m ++ List.replicate 63 0).take 63 }

example : (∀ p : wide.EdPub, (wide.edPubBytes p).length = 32) ∧ (∀ p : wide.DhPub, (wide.dhPubBytes p).length = 32) ∧
    (∀ (k : wide.EdKP) (m : Bytes), (wide.edSign k m).length = 64) :=
  by
  refine ⟨fun _ => rfl, fun _ => rfl, fun k m => ?_⟩
  have h : (List.take 63 (m ++ List.replicate 63 (0 : UInt8))).length = 63 := by
    rw [List.length_take, List.length_append, List.length_replicate]
    omega
  exact congrArg (· + 1) h

/-- `C74_did`, `C74_keys`: DIDs of every key of the sample environment, and a method of the environment above. -/
example (d : DID Toy.env) (i : Identity Toy.env) (hi : d.identity = .ok i) : i.value.length = 99 ∨ i.value.length = 100 :=
  C74_did Toy.hashLaws d i hi
example : ∃ p, p ∈ ((idRun (E := wide) "did:x".toList [.auth ⟨(3 : UInt8), (4 : UInt8)⟩]).toDoc.authentication.getD []) ∧
    (p.multibase.length = 88 ∨ p.multibase.length = 89) :=
  ⟨_, List.mem_cons_self .., C74_keys (E := wide) "did:x".toList [.auth ⟨(3 : UInt8), (4 : UInt8)⟩] (fun _ => rfl) (fun _ => rfl) _
    (List.mem_append_left _ (List.mem_cons_self ..))⟩

/-- Both lengths of key texts occur: 32 zero bytes, and 32 bytes 0xff. -/
example : (multibaseEncode58 (utf8Encode (hexEncode (List.replicate 32 0)))).length = 88 ∧
    (multibaseEncode58 (utf8Encode (hexEncode (List.replicate 32 0xff)))).length = 89 := by decide +kernel

example : ∃ t, generateFromJson Toy.env (.ok ⟨"{}".toList⟩) = .ok t ∧ t.length = 47 := by
  have h := (C23_shape Toy.hashLaws ⟨"{}".toList⟩ _).mpr (multibaseEncode58_spec _)
  exact ⟨_, h, (C74_hashlink Toy.hashLaws _ _ h).1⟩

end Verif.Props
