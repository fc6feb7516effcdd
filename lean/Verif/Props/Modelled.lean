import Verif.Props.Careful
import Verif.Props.DataModel
import Verif.Props.Order

/-
C108: the library checks neither what the W3C data model asks of a credential or presentation (C91) nor that the names in the
subject are ordered alike by RFC 8785 and by Rust (C63). A caller can check both: what its signer signs and its reader returns
is by the data model, in every text of it
(core/src/verifiable/vc.rs:98, vp.rs:102 `validate`, core/src/verifiable/proof/integrity.rs `add_proof`, `verify_proof`).
-/

namespace Verif.Modelled
open Verif Careful

def hex (c : Char) : Bool := "0123456789abcdefABCDEF".toList.contains c

/-- The characters of a URI, and `%` with two hexadecimal digits. -/
def uriChars : Str → Bool
  | [] => true
  | '%' :: a :: b :: s => hex a && hex b && uriChars s
  | c :: s => (c.isAlphanum || "-._~:/?#[]@!$&'()*+,;=".toList.contains c) && uriChars s

/-- A scheme, a colon, and such characters. -/
def uri (t : Str) : Bool :=
  match t.takeWhile (· != ':'), t.dropWhile (· != ':') with
  | c :: s, _ :: rest => c.isAlpha && s.all (fun x => x.isAlphanum || "+-.".toList.contains x) && uriChars rest
  | _, _ => false

def contexts : List Str → Bool
  | first :: others => first == "https://www.w3.org/ns/credentials/v2".toList && others.all uri
  | [] => false

def claims {N : Type} : Json N → Bool
  | .obj (_ :: _) => true
  | _ => false

def subjects {N : Type} : Json N → Bool
  | .arr (x :: xs) => (x :: xs).all claims
  | j => claims j

def proof (p : Proof) : Bool :=
  uri p.id && uri p.verificationMethod && !(p.typ == "DataIntegrityProof".toList && p.cryptosuite.isNone)

/-- The caller's check of a credential. -/
def credential {E : Env} (v : VC E) : Bool :=
  contexts v.contexts && v.types.contains "VerifiableCredential".toList && uri v.id && uri v.issuer && subjects v.credentialSubject.1 &&
    v.proof.all proof

/-- The caller's check of a presentation. -/
def presentation {E : Env} (v : VP E) : Bool :=
  contexts v.contexts && v.types.contains "VerifiablePresentation".toList && v.holder.all uri && v.verifiableCredential.all credential &&
    v.proof.all proof

mutual
/-- All names at all levels. -/
def names {N : Type} (ok : Char → Bool) : Json N → Bool
  | .arr xs => namesElems ok xs
  | .obj kvs => namesMembers ok kvs
  | _ => true
def namesElems {N : Type} (ok : Char → Bool) : List (Json N) → Bool
  | [] => true
  | x :: xs => names ok x && namesElems ok xs
def namesMembers {N : Type} (ok : Char → Bool) : List (Str × Json N) → Bool
  | [] => true
  | (k, v) :: kvs => k.all ok && names ok v && namesMembers ok kvs
end

def low (c : Char) : Bool := decide (c.toNat < 0x10000)

def split (c : Char) : Bool := decide (c.toNat < 0xE000 ∨ 0x10000 ≤ c.toNat)

/-- The caller's check that the order of names is not in doubt. -/
def ordered {E : Env} (cs : List (VC E)) : Bool :=
  cs.all (fun c => names low c.credentialSubject.1) || cs.all (fun c => names split c.credentialSubject.1)

/-- Signs what will be by the data model. -/
def signVC {E : Env} (kp : E.EdKP) (v : VC E) (opts : Proof) : Option (VC E) :=
  if credential { v with proof := none } && uri opts.id && uri opts.verificationMethod && ordered [v] then
    (Careful.signVC kp v opts).toOption
  else none

def signVP {E : Env} (kp : E.EdKP) (v : VP E) (opts : Proof) : Option (VP E) :=
  if presentation { v with proof := none } && uri opts.id && uri opts.verificationMethod && ordered v.verifiableCredential then
    (Careful.signVP kp v opts).toOption
  else none

/-- Reads what is by the data model. -/
def readVC {E : Env} (P : Policy E) (purpose : ProofPurpose) (bs : Bytes) : Option (VC E) :=
  (Careful.readVC P purpose bs).filter fun v => credential v && ordered [v]

def readVP {E : Env} (P : Policy E) (purpose : ProofPurpose) (bs : Bytes) : Option (VP E) :=
  (Careful.readVP P purpose bs).filter fun v => presentation v && ordered v.verifiableCredential

end Verif.Modelled

namespace Verif.Spec
open Verif

/-- No two names in the subjects are ordered differently by UTF-16 units and by code points, for want of characters that are. -/
def Undisputed {E : Env} (cs : List (VC E)) : Prop :=
  (∀ c ∈ cs, AllNames Basic c.credentialSubject.1) ∨ ∀ c ∈ cs, AllNames NoUpper c.credentialSubject.1

end Verif.Spec

namespace Verif.Props
open Verif Spec Modelled

/-! ### The checks -/

theorem hex_iff (c : Char) : Modelled.hex c = true ↔ HexDig c := by
  unfold Modelled.hex HexDig
  exact List.contains_iff_mem

theorem uriChars_iff (t : Str) : uriChars t = true ↔ Encoded (fun c => c.isAlphanum = true ∨ c ∈ "-._~:/?#[]@!$&'()*+,;=".toList) t := by
  fun_induction uriChars t with
  | case1 => exact ⟨fun _ => .nil, fun _ => rfl⟩
  | case2 a b s ih =>
    rw [Bool.and_eq_true, Bool.and_eq_true, hex_iff, hex_iff, ih]
    constructor
    · rintro ⟨⟨h1, h2⟩, h3⟩
      exact .pct h1 h2 h3
    · intro h
      cases h with
      | pct h1 h2 h3 => exact ⟨⟨h1, h2⟩, h3⟩
      | char hc h => exact absurd hc (by decide)
  | case3 c s hne ih =>
    rw [Bool.and_eq_true, Bool.or_eq_true, List.contains_iff_mem, ih]
    constructor
    · rintro ⟨h1, h2⟩
      exact .char h1 h2
    · intro h
      cases h with
      | pct h1 h2 h3 => exact (hne _ _ _ rfl rfl).elim
      | char hc h => exact ⟨hc, h⟩

theorem scheme_no_colon {t : Str} (h : IsScheme t) : ':' ∉ t := by
  obtain ⟨c, s, rfl, h1, h2⟩ := h
  intro hm
  rcases List.mem_cons.mp hm with rfl | hm
  · revert h1; decide
  · rcases h2 _ hm with h | h
    · revert h; decide
    · revert h; decide

theorem scheme_take {a r : Str} (h : ':' ∉ a) :
    (a ++ ':' :: r).takeWhile (· != ':') = a ∧ (a ++ ':' :: r).dropWhile (· != ':') = ':' :: r := by
  induction a with
  | nil => exact ⟨rfl, rfl⟩
  | cons c a ih =>
    obtain ⟨h1, h2⟩ := ih fun hm => h (List.mem_cons_of_mem _ hm)
    have hc : (c != ':') = true := bne_iff_ne.mpr fun e => h (e ▸ List.mem_cons_self)
    rw [List.cons_append, List.takeWhile_cons, List.dropWhile_cons, if_pos hc, if_pos hc, h1, h2]
    exact ⟨rfl, rfl⟩

/-- C108: the caller's check of URIs takes exactly these. -/
theorem C108_uri (t : Str) : uri t = true ↔ IsUri t := by
  have key : ∀ c (s r : Str), (c.isAlpha && s.all (fun x => x.isAlphanum || "+-.".toList.contains x) && uriChars r) = true ↔
      IsScheme (c :: s) ∧ Encoded (fun c => c.isAlphanum = true ∨ c ∈ "-._~:/?#[]@!$&'()*+,;=".toList) r := by
    intro c s r
    rw [Bool.and_eq_true, Bool.and_eq_true, uriChars_iff, List.all_eq_true]
    refine and_congr_left fun _ => ⟨fun h => ⟨c, s, rfl, h.1, fun x hx => ?_⟩, ?_⟩
    · have := h.2 x hx
      rwa [Bool.or_eq_true, List.contains_iff_mem] at this
    · rintro ⟨_, _, ⟨⟩, h1, h2⟩
      exact ⟨h1, fun x hx => by rw [Bool.or_eq_true, List.contains_iff_mem]; exact h2 x hx⟩
  constructor
  · intro h
    unfold uri at h
    split at h
    · rename_i c s d rest e1 e2
      obtain ⟨h1, h2⟩ := (key _ _ _).mp h
      refine ⟨_, _, h1, h2, ?_⟩
      have hd : d = ':' := by
        have := List.head?_dropWhile_not (p := (· != ':')) t
        rw [e2] at this
        simpa using this
      subst hd
      rw [← e1, ← e2, List.takeWhile_append_dropWhile]
    · cases h
  · rintro ⟨scheme, rest, h1, h2, rfl⟩
    obtain ⟨e1, e2⟩ := scheme_take (r := rest) (scheme_no_colon h1)
    unfold uri
    rw [e1, e2]
    obtain ⟨c, s, rfl, h3⟩ := h1
    exact (key _ _ _).mpr ⟨⟨c, s, rfl, h3⟩, h2⟩

theorem contexts_iff (l : List Str) :
    contexts l = true ↔ l.head? = some "https://www.w3.org/ns/credentials/v2".toList ∧ ∀ c ∈ l.tail, IsUri c := by
  cases l with
  | nil => exact ⟨(fun h => nomatch h), fun h => nomatch h.1⟩
  | cons a l =>
    unfold contexts
    rw [Bool.and_eq_true, beq_iff_eq, List.all_eq_true, List.head?_cons, Option.some.injEq, List.tail_cons]
    exact and_congr_right fun _ => forall_congr' fun c => forall_congr' fun _ => C108_uri c

theorem claims_iff {N : Type} (j : Json N) : claims j = true ↔ ∃ kv kvs, j = .obj (kv :: kvs) := by
  constructor
  · intro h
    unfold claims at h
    split at h
    · exact ⟨_, _, rfl⟩
    · cases h
  · rintro ⟨kv, kvs, rfl⟩
    rfl

theorem subjects_iff {N : Type} (j : Json N) : subjects j = true ↔ SubjectsValue j := by
  unfold SubjectsValue
  constructor
  · intro h
    unfold subjects at h
    split at h
    · rename_i x xs
      exact .inr ⟨x, xs, rfl, fun y hy => (claims_iff y).mp (List.all_eq_true.mp h y hy)⟩
    · exact .inl ((claims_iff _).mp h)
  · rintro (⟨kv, kvs, rfl⟩ | ⟨x, xs, rfl, h⟩)
    · rfl
    · exact List.all_eq_true.mpr fun y hy => (claims_iff y).mpr (h y hy)

theorem proofFields_iff (p : Proof) : Modelled.proof p = true ↔ ProofFields p := by
  unfold Modelled.proof
  rw [Bool.and_eq_true, Bool.and_eq_true, C108_uri, C108_uri]
  constructor
  · rintro ⟨⟨h1, h2⟩, h3⟩
    refine ⟨h1, h2, fun ht hn => ?_⟩
    rw [ht, hn] at h3
    revert h3
    decide
  · rintro ⟨h1, h2, h3⟩
    refine ⟨⟨h1, h2⟩, ?_⟩
    rw [Bool.not_eq_true', Bool.and_eq_false_iff]
    by_cases ht : p.typ = "DataIntegrityProof".toList
    · right
      cases hc : p.cryptosuite with
      | none => exact (h3 ht hc).elim
      | some c => rfl
    · exact .inl (beq_false_of_ne ht)

theorem optional_iff {A : Type} (f : A → Bool) (P : A → Prop) (h : ∀ a, f a = true ↔ P a) (o : Option A) :
    o.all f = true ↔ ∀ a, o = some a → P a := by
  cases o with
  | none => exact ⟨(fun _ _ h => nomatch h), fun _ => rfl⟩
  | some a => exact ⟨fun ha _ e => Option.some.inj e ▸ (h a).mp ha, fun ha => (h a).mpr (ha a rfl)⟩

/-- C108: the caller's check of a credential asks exactly what the data model asks of the fields. -/
theorem C108_credential {E : Env} (v : VC E) : credential v = true ↔ CredentialFields v := by
  unfold credential
  rw [Bool.and_eq_true, Bool.and_eq_true, Bool.and_eq_true, Bool.and_eq_true, Bool.and_eq_true, contexts_iff, C108_uri, C108_uri,
    subjects_iff, List.contains_iff_mem, optional_iff _ _ proofFields_iff]
  exact ⟨fun ⟨⟨⟨⟨⟨⟨h1, h2⟩, h3⟩, h4⟩, h5⟩, h6⟩, h7⟩ => ⟨h1, h2, h3, h4, h5, h6, h7⟩,
    fun ⟨h1, h2, h3, h4, h5, h6, h7⟩ => ⟨⟨⟨⟨⟨⟨h1, h2⟩, h3⟩, h4⟩, h5⟩, h6⟩, h7⟩⟩

/-- C108 (presentations). -/
theorem C108_presentation {E : Env} (v : VP E) : presentation v = true ↔ PresentationFields v := by
  unfold presentation
  rw [Bool.and_eq_true, Bool.and_eq_true, Bool.and_eq_true, Bool.and_eq_true, contexts_iff, optional_iff _ _ C108_uri,
    List.contains_iff_mem, optional_iff _ _ proofFields_iff, List.all_eq_true]
  exact ⟨fun ⟨⟨⟨⟨⟨h1, h2⟩, h3⟩, h4⟩, h5⟩, h6⟩ => ⟨h1, h2, h3, h4, fun c hc => (C108_credential c).mp (h5 c hc), h6⟩,
    fun ⟨h1, h2, h3, h4, h5, h6⟩ => ⟨⟨⟨⟨⟨h1, h2⟩, h3⟩, h4⟩, fun c hc => (C108_credential c).mpr (h5 c hc)⟩, h6⟩⟩

mutual
theorem names_iff {N : Type} (ok : Char → Bool) : (j : Json N) → (names ok j = true ↔ AllNames (fun s => ∀ c ∈ s, ok c = true) j)
  | .arr xs => by rw [names, AllNames]; exact namesElems_iff ok xs
  | .obj kvs => by rw [names, AllNames]; exact namesMembers_iff ok kvs
  | .null => by simp [names, AllNames]
  | .bool _ => by simp [names, AllNames]
  | .num _ => by simp [names, AllNames]
  | .str _ => by simp [names, AllNames]
theorem namesElems_iff {N : Type} (ok : Char → Bool) : (xs : List (Json N)) →
    (namesElems ok xs = true ↔ AllNamesElems (fun s => ∀ c ∈ s, ok c = true) xs)
  | [] => by simp [namesElems, AllNamesElems]
  | x :: xs => by rw [namesElems, AllNamesElems, Bool.and_eq_true, names_iff ok x, namesElems_iff ok xs]
theorem namesMembers_iff {N : Type} (ok : Char → Bool) : (kvs : List (Str × Json N)) →
    (namesMembers ok kvs = true ↔ AllNamesMembers (fun s => ∀ c ∈ s, ok c = true) kvs)
  | [] => by simp [namesMembers, AllNamesMembers]
  | (k, v) :: kvs => by
    rw [namesMembers, AllNamesMembers, Bool.and_eq_true, Bool.and_eq_true, names_iff ok v, namesMembers_iff ok kvs, List.all_eq_true, and_assoc]
end

/-- C108: the caller's check of names. -/
theorem C108_names {E : Env} (cs : List (VC E)) : ordered cs = true ↔ Undisputed cs := by
  have h1 : (fun s : Str => ∀ c ∈ s, low c = true) = Basic := by
    funext s
    unfold Basic low
    simp only [decide_eq_true_eq]
  have h2 : (fun s : Str => ∀ c ∈ s, split c = true) = NoUpper := by
    funext s
    unfold NoUpper split
    simp only [decide_eq_true_eq, eq_iff_iff]
    exact forall_congr' fun c => forall_congr' fun _ => by omega
  unfold ordered Undisputed
  rw [Bool.or_eq_true, List.all_eq_true, List.all_eq_true, ← h1, ← h2]
  simp only [names_iff]

/-! ### Reading -/

theorem filter_iff {A : Type} (o : Option A) (f : A → Bool) (a : A) : o.filter f = some a ↔ o = some a ∧ f a = true := by
  cases o with
  | none => simp
  | some b =>
    rw [Option.filter_some, Option.some.injEq]
    by_cases hb : f b = true
    · rw [if_pos hb, Option.some.injEq]
      exact ⟨fun e => ⟨e, e ▸ hb⟩, And.left⟩
    · rw [if_neg hb]
      exact ⟨(fun e => nomatch e), fun ⟨e, h⟩ => (hb (e ▸ h)).elim⟩

/-- C108: the reader returns exactly the sound credentials (C101) whose text is by the data model and whose names are in no doubtful
order. -/
theorem C108_read_vc {E : Env} (L : E.JcsLaws) (P : Careful.Policy E) (purpose : ProofPurpose) (bs : Bytes) (v : VC E) :
    Modelled.readVC P purpose bs = some v ↔ SoundVC E P purpose bs v ∧ TextIs CredentialModel bs ∧ Undisputed [v] := by
  unfold Modelled.readVC
  rw [filter_iff, C101_vc L, Bool.and_eq_true, C108_credential, C108_names]
  refine and_congr_right fun hs => and_congr_left fun _ => ?_
  have ht := C49_vc_canonical L v hs.complete
  rw [← C91_vc_canonical L v _ ht, hs.text]
  exact Iff.rfl

/-- C108 (presentations): every credential inside as well. -/
theorem C108_read_vp {E : Env} (L : E.JcsLaws) (P : Careful.Policy E) (purpose : ProofPurpose) (bs : Bytes) (v : VP E) :
    Modelled.readVP P purpose bs = some v ↔ SoundVP E P purpose bs v ∧ TextIs PresentationModel bs ∧ Undisputed v.verifiableCredential := by
  unfold Modelled.readVP
  rw [filter_iff, C101_vp L, Bool.and_eq_true, C108_presentation, C108_names]
  refine and_congr_right fun hs => and_congr_left fun _ => ?_
  have ht := C49_vp_canonical L v hs.complete
  rw [← C91_vp_canonical L v _ ht, hs.text]
  exact Iff.rfl

/-! ### Signing -/

theorem undisputed_append {E : Env} {v w : VC E} (h : v.credentialSubject = w.credentialSubject) : Undisputed [v] ↔ Undisputed [w] := by
  simp only [Undisputed, List.mem_singleton, forall_eq, h]

theorem toOption_iff {A B : Type} (e : Except A B) (b : B) : e.toOption = some b ↔ e = .ok b := by
  cases e with
  | error a => exact ⟨(fun h => nomatch h), fun h => nomatch h⟩
  | ok c => exact ⟨fun h => congrArg _ (Option.some.inj h), fun h => congrArg _ (Except.ok.inj h)⟩

/-- C108: the signer signs exactly what the careful signer (C101) signs that is by the data model, proof and all, and has its names in
no doubtful order. -/
theorem C108_sign_vc {E : Env} (L : E.JcsLaws) (kp : E.EdKP) (v : VC E) (opts : Proof) (out : VC E) :
    Modelled.signVC kp v opts = some out ↔ Careful.signVC kp v opts = .ok out ∧ CredentialFields out ∧ Undisputed [out] := by
  have key : Careful.signVC kp v opts = .ok out → out.credentialSubject = v.credentialSubject ∧
      (CredentialFields out ↔ CredentialFields { v with proof := none } ∧ IsUri opts.id ∧ IsUri opts.verificationMethod) := by
    intro h
    refine ⟨?_, C91_signed L kp { v with proof := none } { opts with proofValue := [] } out h⟩
    obtain ⟨_, _, _, text, _, rfl⟩ := ((C32_vc L kp _ _).1 out).mp h
    rfl
  have cond : (credential { v with proof := none } && uri opts.id && uri opts.verificationMethod && ordered [v]) = true ↔
      (CredentialFields { v with proof := none } ∧ IsUri opts.id ∧ IsUri opts.verificationMethod) ∧ Undisputed [v] := by
    rw [Bool.and_eq_true, Bool.and_eq_true, Bool.and_eq_true, C108_credential, C108_uri, C108_uri, C108_names, and_assoc (c := IsUri _)]
  unfold Modelled.signVC
  split
  · rename_i hc
    obtain ⟨hf, hu⟩ := cond.mp hc
    rw [toOption_iff]
    refine ⟨fun h => ⟨h, (key h).2.mpr hf, (undisputed_append (key h).1).mpr hu⟩, And.left⟩
  · rename_i hc
    refine ⟨(fun h => nomatch h), fun ⟨h, hf, hu⟩ => (hc (cond.mpr ⟨(key h).2.mp hf, (undisputed_append (key h).1).mp hu⟩)).elim⟩

/-- C108 (presentations). -/
theorem C108_sign_vp {E : Env} (L : E.JcsLaws) (kp : E.EdKP) (v : VP E) (opts : Proof) (out : VP E) :
    Modelled.signVP kp v opts = some out ↔
      Careful.signVP kp v opts = .ok out ∧ PresentationFields out ∧ Undisputed out.verifiableCredential := by
  have key : Careful.signVP kp v opts = .ok out → out.verifiableCredential = v.verifiableCredential ∧
      (PresentationFields out ↔ PresentationFields { v with proof := none } ∧ IsUri opts.id ∧ IsUri opts.verificationMethod) := by
    intro h
    refine ⟨?_, C91_signed_vp L kp { v with proof := none } { opts with proofValue := [] } out h⟩
    obtain ⟨_, _, _, text, _, rfl⟩ := ((C32_vp L kp _ _).1 out).mp h
    rfl
  have cond : (presentation { v with proof := none } && uri opts.id && uri opts.verificationMethod && ordered v.verifiableCredential) = true ↔
      (PresentationFields { v with proof := none } ∧ IsUri opts.id ∧ IsUri opts.verificationMethod) ∧ Undisputed v.verifiableCredential := by
    rw [Bool.and_eq_true, Bool.and_eq_true, Bool.and_eq_true, C108_presentation, C108_uri, C108_uri, C108_names, and_assoc (c := IsUri _)]
  unfold Modelled.signVP
  split
  · rename_i hc
    obtain ⟨hf, hu⟩ := cond.mp hc
    rw [toOption_iff]
    refine ⟨fun h => ⟨h, (key h).2.mpr hf, (key h).1 ▸ hu⟩, And.left⟩
  · rename_i hc
    refine ⟨(fun h => nomatch h), fun ⟨h, hf, hu⟩ => (hc (cond.mpr ⟨(key h).2.mp hf, (key h).1 ▸ hu⟩)).elim⟩

/-- C108: every text written of what is signed is by the data model. -/
theorem C108_written {E : Env} (L : E.JcsLaws) (N : E.NumLaws) (kp : E.EdKP) (opts : Proof) :
    (∀ v out : VC E, Modelled.signVC kp v opts = some out →
      (∃ t, out.toJson = .ok t ∧ TextIs CredentialModel (utf8 t.text)) ∧ ∃ t, out.toJcs = .ok t ∧ TextIs CredentialModel (utf8 t)) ∧
    ∀ v out : VP E, Modelled.signVP kp v opts = some out →
      (∃ t, out.toJson = .ok t ∧ TextIs PresentationModel (utf8 t.text)) ∧
        ∃ t, out.toJcs = .ok t ∧ TextIs PresentationModel (utf8 t) := by
  constructor
  · intro v out h
    obtain ⟨hs, hf, _⟩ := (C108_sign_vc L kp v opts out).mp h
    have hc := fields_complete hf
    exact ⟨⟨_, C49_vc_text N _ hc, (C91_vc N _ _ (C49_vc_text N _ hc)).mpr hf⟩,
      ⟨_, C49_vc_canonical L _ hc, (C91_vc_canonical L _ _ (C49_vc_canonical L _ hc)).mpr hf⟩⟩
  · intro v out h
    obtain ⟨hs, hf, _⟩ := (C108_sign_vp L kp v opts out).mp h
    have hc : VPComplete out := by
      obtain ⟨_, _, ⟨h1, h2, h3⟩, text, _, rfl⟩ := ((C32_vp L kp _ _).1 out).mp hs
      exact ⟨h1, h2, h3⟩
    exact ⟨⟨_, C49_vp_text N _ hc, (C91_vp N _ _ (C49_vp_text N _ hc)).mpr hf⟩,
      ⟨_, C49_vp_canonical L _ hc, (C91_vp_canonical L _ _ (C49_vp_canonical L _ hc)).mpr hf⟩⟩

/-! ### Honest texts -/

mutual
theorem names_mapNum {N M : Type} (f : N → M) (P : Str → Prop) : (j : Json N) → (AllNames P (j.mapNum f) ↔ AllNames P j)
  | .arr xs => by simp only [Json.mapNum, AllNames]; exact namesElems_mapNum f P xs
  | .obj kvs => by simp only [Json.mapNum, AllNames]; exact namesMembers_mapNum f P kvs
  | .null => by simp [Json.mapNum, AllNames]
  | .bool _ => by simp [Json.mapNum, AllNames]
  | .num _ => by simp [Json.mapNum, AllNames]
  | .str _ => by simp [Json.mapNum, AllNames]
theorem namesElems_mapNum {N M : Type} (f : N → M) (P : Str → Prop) : (xs : List (Json N)) →
    (AllNamesElems P (Json.mapNumList f xs) ↔ AllNamesElems P xs)
  | [] => by simp [Json.mapNumList, AllNamesElems]
  | x :: xs => by simp only [Json.mapNumList, AllNamesElems]; rw [names_mapNum f P x, namesElems_mapNum f P xs]
theorem namesMembers_mapNum {N M : Type} (f : N → M) (P : Str → Prop) : (kvs : List (Str × Json N)) →
    (AllNamesMembers P (Json.mapNumMembers f kvs) ↔ AllNamesMembers P kvs)
  | [] => by simp [Json.mapNumMembers, AllNamesMembers]
  | (k, v) :: kvs => by simp only [Json.mapNumMembers, AllNamesMembers]; rw [names_mapNum f P v, namesMembers_mapNum f P kvs]
end

theorem same_names {E : Env} {a b : VC E} (h : SameVC a b) (P : Str → Prop) :
    AllNames P a.credentialSubject.1 ↔ AllNames P b.credentialSubject.1 := by
  rw [← names_mapNum E.jcsNum, h.subject, names_mapNum]

theorem same_undisputed {E : Env} {cs ds : List (VC E)} (h : List.Forall₂ SameVC cs ds) : Undisputed cs ↔ Undisputed ds := by
  have key : ∀ P : Str → Prop, (∀ c ∈ cs, AllNames P c.credentialSubject.1) ↔ ∀ c ∈ ds, AllNames P c.credentialSubject.1 := by
    intro P
    induction h with
    | nil => exact Iff.rfl
    | cons h _ ih => rw [List.forall_mem_cons, List.forall_mem_cons, ih, same_names h]
  unfold Undisputed
  rw [key, key]

/-- C108: what the signer signs for the issuer is returned by the reader, from its canonical text. -/
theorem C108_honest_vc {E : Env} (L : E.JcsLaws) (K : E.EdLaws) (P : Careful.Policy E) (kp : E.EdKP) (v : VC E) (opts : Proof)
    (signed : VC E) (hs : Modelled.signVC kp v opts = some signed) (fragment : Str)
    (ho : opts.verificationMethod = v.issuer ++ '#' :: fragment)
    (hk : P.keyOf opts.verificationMethod = some (E.edPub kp)) (hx : ∀ e, opts.expires = some e → P.expired e = false)
    (hd : v.credentialSubject.1.depth ≤ 126) (hn : Rereads E v.credentialSubject.1) :
    ∃ t w, signed.toJcs = .ok t ∧ SameVC signed w ∧ Modelled.readVC P opts.proofPurpose (utf8 t) = some w := by
  obtain ⟨h1, h2, h3⟩ := (C108_sign_vc L kp v opts signed).mp hs
  obtain ⟨t, w, a1, a2, a3⟩ := C101_honest_vc L K P kp v opts signed h1 fragment ho hk hx hd hn
  exact ⟨t, w, a1, a2, (C108_read_vc L P _ _ _).mpr ⟨(C101_vc L P _ _ _).mp a3, (C91_vc_canonical L _ _ a1).mpr h2,
    (same_undisputed (.cons a2 .nil)).mp h3⟩⟩

/-- C108 (presentations). -/
theorem C108_honest_vp {E : Env} (L : E.JcsLaws) (K : E.EdLaws) (P : Careful.Policy E) (kp : E.EdKP) (v : VP E) (opts : Proof)
    (signed : VP E) (hs : Modelled.signVP kp v opts = some signed) (holder fragment : Str) (hh : v.holder = some holder)
    (ho : opts.verificationMethod = holder ++ '#' :: fragment)
    (hk : P.keyOf opts.verificationMethod = some (E.edPub kp)) (hx : ∀ e, opts.expires = some e → P.expired e = false)
    (hd : ∀ c ∈ v.verifiableCredential, c.credentialSubject.1.depth ≤ 124)
    (hc : ∀ c ∈ v.verifiableCredential, ∃ t w, c.toJcs = .ok t ∧ SameVC c w ∧
      Careful.readVC P .assertionMethod (utf8 t) = some w) :
    ∃ t w, signed.toJcs = .ok t ∧ SameVP signed w ∧ Modelled.readVP P opts.proofPurpose (utf8 t) = some w := by
  obtain ⟨h1, h2, h3⟩ := (C108_sign_vp L kp v opts signed).mp hs
  obtain ⟨t, w, a1, a2, a3⟩ := C101_honest_vp L K P kp v opts signed h1 holder fragment hh ho hk hx hd hc
  exact ⟨t, w, a1, a2, (C108_read_vp L P _ _ _).mpr ⟨(C101_vp L P _ _ _).mp a3, (C91_vp_canonical L _ _ a1).mpr h2,
    (same_undisputed a2.credentials).mp h3⟩⟩

/-! ### Both orders of names -/

/-- The same policy under another member order. -/
def movePolicy {E : Env} (le : Str → Str → Bool) (P : Careful.Policy E) : Careful.Policy (E.withOrder le) := ⟨P.expired, P.keyOf⟩

theorem undisputed_move {E : Env} (le : Str → Str → Bool) (cs : List (VC E)) : Undisputed (cs.map (moveVC le)) ↔ Undisputed cs := by
  unfold Undisputed
  rw [List.forall_mem_map, List.forall_mem_map]
  exact Iff.rfl

theorem sound_move {E : Env} (P : Careful.Policy E) (did : Str) (purpose : ProofPurpose) (p : Proof) (doc : Bytes) :
    Sound (E.withOrder unitLe) (movePolicy unitLe P) did purpose p doc ↔
      Sound (E.withOrder pointLe) (movePolicy pointLe P) did purpose p doc := by
  constructor
  · rintro ⟨⟨g1, g2, g3⟩, h1, h2, h3, h4, pub, sig, hex, h5, h6, h7, h8⟩
    refine ⟨⟨g1, g2, g3⟩, h1, h2, h3, h4, pub, sig, hex, h5, h6, h7, ?_⟩
    rw [options_agree] at h8
    exact h8
  · rintro ⟨⟨g1, g2, g3⟩, h1, h2, h3, h4, pub, sig, hex, h5, h6, h7, h8⟩
    refine ⟨⟨g1, g2, g3⟩, h1, h2, h3, h4, pub, sig, hex, h5, h6, h7, ?_⟩
    rw [← options_agree] at h8
    exact h8

theorem soundVC_move {E : Env} (P : Careful.Policy E) (purpose : ProofPurpose) (bs : Bytes) (v : VC E)
    (h : AllNames Basic v.credentialSubject.1 ∨ AllNames NoUpper v.credentialSubject.1) :
    SoundVC (E.withOrder unitLe) (movePolicy unitLe P) purpose bs (moveVC unitLe v) ↔
      SoundVC (E.withOrder pointLe) (movePolicy pointLe P) purpose bs (moveVC pointLe v) := by
  have e1 := vc_bytes_agree v h
  have e2 : vcBytes (unsignedVC (moveVC unitLe v)) = vcBytes (unsignedVC (moveVC pointLe v)) := vc_bytes_agree (unsignedVC v) h
  constructor
  · rintro ⟨h1, h2, h3, p, h4, h5⟩
    exact ⟨h1, h2.trans e1, (vc_parse_move _ _ _).mpr ((vc_parse_move _ _ _).mp h3), p, h4, e2 ▸ (sound_move P _ _ _ _).mp h5⟩
  · rintro ⟨h1, h2, h3, p, h4, h5⟩
    exact ⟨h1, h2.trans e1.symm, (vc_parse_move _ _ _).mpr ((vc_parse_move _ _ _).mp h3), p, h4, e2 ▸ (sound_move P _ _ _ _).mpr h5⟩

theorem soundVP_move {E : Env} (P : Careful.Policy E) (purpose : ProofPurpose) (bs : Bytes) (v : VP E)
    (h : Undisputed v.verifiableCredential) :
    SoundVP (E.withOrder unitLe) (movePolicy unitLe P) purpose bs (moveVP unitLe v) ↔
      SoundVP (E.withOrder pointLe) (movePolicy pointLe P) purpose bs (moveVP pointLe v) := by
  have e1 := vp_bytes_agree v h
  have e2 : vpBytes (unsignedVP (moveVP unitLe v)) = vpBytes (unsignedVP (moveVP pointLe v)) := vp_bytes_agree (unsignedVP v) h
  have h' : ∀ c ∈ v.verifiableCredential, AllNames Basic c.credentialSubject.1 ∨ AllNames NoUpper c.credentialSubject.1 :=
    fun c hc => h.imp (fun h => h c hc) fun h => h c hc
  constructor
  · rintro ⟨h1, h2, h3, ⟨p, d, h4, h5, h6⟩, h7⟩
    refine ⟨(vp_complete_move _ _).mpr ((vp_complete_move _ _).mp h1), h2.trans e1,
      (vp_parse_move _ _ _).mpr ((vp_parse_move _ _ _).mp h3), ⟨p, d, h4, h5, e2 ▸ (sound_move P _ _ _ _).mp h6⟩, ?_⟩
    intro c hc
    obtain ⟨c, hm, rfl⟩ := List.mem_map.mp hc
    have := h7 _ (List.mem_map_of_mem hm)
    rw [vc_bytes_agree c (h' c hm)] at this
    exact (soundVC_move P _ _ c (h' c hm)).mp this
  · rintro ⟨h1, h2, h3, ⟨p, d, h4, h5, h6⟩, h7⟩
    refine ⟨(vp_complete_move _ _).mpr ((vp_complete_move _ _).mp h1), h2.trans e1.symm,
      (vp_parse_move _ _ _).mpr ((vp_parse_move _ _ _).mp h3), ⟨p, d, h4, h5, e2 ▸ (sound_move P _ _ _ _).mpr h6⟩, ?_⟩
    intro c hc
    obtain ⟨c, hm, rfl⟩ := List.mem_map.mp hc
    have := h7 _ (List.mem_map_of_mem hm)
    rw [← vc_bytes_agree c (h' c hm)] at this
    exact (soundVC_move P _ _ c (h' c hm)).mpr this

/-- C108: under the member order of RFC 8785 and under that of Rust's strings the reader returns the same. -/
theorem C108_order_read {E : Env} (L : E.JcsLaws) (P : Careful.Policy E) (purpose : ProofPurpose) (bs : Bytes) :
    (∀ v : VC E, Modelled.readVC (movePolicy unitLe P) purpose bs = some (moveVC unitLe v) ↔
      Modelled.readVC (movePolicy pointLe P) purpose bs = some (moveVC pointLe v)) ∧
    ∀ v : VP E, Modelled.readVP (movePolicy unitLe P) purpose bs = some (moveVP unitLe v) ↔
      Modelled.readVP (movePolicy pointLe P) purpose bs = some (moveVP pointLe v) := by
  constructor
  · intro v
    rw [C108_read_vc (C63_laws L).1, C108_read_vc (C63_laws L).2]
    have u := undisputed_move unitLe [v]
    have u' := undisputed_move pointLe [v]
    rw [List.map_singleton] at u u'
    rw [u, u']
    have key : Undisputed [v] → (AllNames Basic v.credentialSubject.1 ∨ AllNames NoUpper v.credentialSubject.1) := fun h => by
      simpa only [Undisputed, List.mem_singleton, forall_eq] using h
    exact ⟨fun ⟨h1, h2, h3⟩ => ⟨(soundVC_move P _ _ v (key h3)).mp h1, h2, h3⟩,
      fun ⟨h1, h2, h3⟩ => ⟨(soundVC_move P _ _ v (key h3)).mpr h1, h2, h3⟩⟩
  · intro v
    rw [C108_read_vp (C63_laws L).1, C108_read_vp (C63_laws L).2]
    have u : Undisputed (moveVP unitLe v).verifiableCredential ↔ _ := undisputed_move unitLe v.verifiableCredential
    have u' : Undisputed (moveVP pointLe v).verifiableCredential ↔ _ := undisputed_move pointLe v.verifiableCredential
    rw [u, u']
    exact ⟨fun ⟨h1, h2, h3⟩ => ⟨(soundVP_move P _ _ v h3).mp h1, h2, h3⟩,
      fun ⟨h1, h2, h3⟩ => ⟨(soundVP_move P _ _ v h3).mpr h1, h2, h3⟩⟩

theorem credentialFields_move {E : Env} (le : Str → Str → Bool) (v : VC E) : CredentialFields (moveVC le v) ↔ CredentialFields v :=
  ⟨fun ⟨h1, h2, h3, h4, h5, h6, h7⟩ => ⟨h1, h2, h3, h4, h5, h6, h7⟩, fun ⟨h1, h2, h3, h4, h5, h6, h7⟩ => ⟨h1, h2, h3, h4, h5, h6, h7⟩⟩

theorem presentationFields_move {E : Env} (le : Str → Str → Bool) (v : VP E) :
    PresentationFields (moveVP le v) ↔ PresentationFields v := by
  constructor
  · rintro ⟨h1, h2, h3, h4, h5, h6⟩
    exact ⟨h1, h2, h3, h4, fun c hc => (credentialFields_move le c).mp (h5 _ (List.mem_map_of_mem hc)), h6⟩
  · rintro ⟨h1, h2, h3, h4, h5, h6⟩
    refine ⟨h1, h2, h3, h4, fun c hc => ?_, h6⟩
    obtain ⟨c, hm, rfl⟩ := List.mem_map.mp hc
    exact (credentialFields_move le c).mpr (h5 c hm)

/-- C108: and the signer signs the same, with the same signature. -/
theorem C108_order_sign {E : Env} (L : E.JcsLaws) (kp : E.EdKP) (opts : Proof) :
    (∀ v out : VC E, Modelled.signVC (E := E.withOrder unitLe) kp (moveVC unitLe v) opts = some (moveVC unitLe out) ↔
      Modelled.signVC (E := E.withOrder pointLe) kp (moveVC pointLe v) opts = some (moveVC pointLe out)) ∧
    ∀ v out : VP E, Modelled.signVP (E := E.withOrder unitLe) kp (moveVP unitLe v) opts = some (moveVP unitLe out) ↔
      Modelled.signVP (E := E.withOrder pointLe) kp (moveVP pointLe v) opts = some (moveVP pointLe out) := by
  constructor
  · intro v out
    have same : ∀ le, (E.withOrder le).JcsLaws → Careful.signVC (E := E.withOrder le) kp (moveVC le v) opts = .ok (moveVC le out) →
        out.credentialSubject = v.credentialSubject := by
      intro le L' h
      obtain ⟨_, _, _, text, _, e⟩ := ((C32_vc L' kp _ _).1 _).mp h
      have := congrArg (VC.credentialSubject (E := E.withOrder le)) e
      exact this
    have agree := fun h => C63_sign_vc L kp { v with proof := none } { opts with proofValue := [] } h out
    have key : Undisputed [out] → (AllNames Basic out.credentialSubject.1 ∨ AllNames NoUpper out.credentialSubject.1) := fun h => by
      simpa only [Undisputed, List.mem_singleton, forall_eq] using h
    have u := undisputed_move unitLe [out]
    have u' := undisputed_move pointLe [out]
    rw [List.map_singleton] at u u'
    rw [C108_sign_vc (C63_laws L).1, C108_sign_vc (C63_laws L).2, u, u', credentialFields_move, credentialFields_move]
    constructor
    · rintro ⟨h1, h2, h3⟩
      have hv := key h3
      rw [same _ (C63_laws L).1 h1] at hv
      exact ⟨(agree hv).mp h1, h2, h3⟩
    · rintro ⟨h1, h2, h3⟩
      have hv := key h3
      rw [same _ (C63_laws L).2 h1] at hv
      exact ⟨(agree hv).mpr h1, h2, h3⟩
  · intro v out
    have same : ∀ le, (E.withOrder le).JcsLaws → Careful.signVP (E := E.withOrder le) kp (moveVP le v) opts = .ok (moveVP le out) →
        out.verifiableCredential = v.verifiableCredential := by
      intro le L' h
      obtain ⟨_, _, _, text, _, e⟩ := ((C32_vp L' kp _ _).1 _).mp h
      exact List.map_injective_iff.mpr (fun _ _ => moveVC_inj) (congrArg VP.verifiableCredential e)
    have agree := fun h => C63_sign_vp L kp { v with proof := none } { opts with proofValue := [] } h out
    have u : Undisputed (moveVP unitLe out).verifiableCredential ↔ _ := undisputed_move unitLe out.verifiableCredential
    have u' : Undisputed (moveVP pointLe out).verifiableCredential ↔ _ := undisputed_move pointLe out.verifiableCredential
    rw [C108_sign_vp (C63_laws L).1, C108_sign_vp (C63_laws L).2, u, u', presentationFields_move, presentationFields_move]
    constructor
    · rintro ⟨h1, h2, h3⟩
      have hv := h3
      rw [same _ (C63_laws L).1 h1] at hv
      exact ⟨(agree hv).mp h1, h2, h3⟩
    · rintro ⟨h1, h2, h3⟩
      have hv := h3
      rw [same _ (C63_laws L).2 h1] at hv
      exact ⟨(agree hv).mpr h1, h2, h3⟩

/-! ### Examples -/

theorem modelVC_undisputed : Undisputed [modelVC] := .inl fun c hc => by
  rw [List.mem_singleton.mp hc]
  exact toySubject_basic

theorem modelProof_uris : IsUri modelProof.id ∧ IsUri modelProof.verificationMethod :=
  ⟨isUri_of "urn".toList "p1".toList rfl (by decide) (by decide) (by decide),
    isUri_of "did".toList "x#k".toList rfl (by decide) (by decide) (by decide)⟩

/-- The sample credential is signed, written by the data model, and read. -/
theorem model_signed : ∃ signed t w, Modelled.signVC (E := Toy.env) (7 : UInt8) modelVC modelProof = some signed ∧
    signed.toJcs = .ok t ∧ SameVC signed w ∧ Modelled.readVC toyPolicy .assertionMethod (utf8 t) = some w := by
  obtain ⟨s, hs⟩ := ((C101_sign_iff Toy.jcsLaws (7 : UInt8) modelProof).1 modelVC).mpr
    ⟨_, ((C32_vc Toy.jcsLaws (7 : UInt8) modelVC modelProof).1 _).mpr
      ⟨⟨toyProof_good.type, toyProof_good.suite, toyProof_good.created⟩, by decide, fields_complete modelVC_fields, _,
        multibaseEncode58_spec _, rfl⟩⟩
  have hf := (C91_signed Toy.jcsLaws (7 : UInt8) { modelVC with proof := none } { modelProof with proofValue := [] } s hs).mpr
    ⟨modelVC_fields, modelProof_uris⟩
  have he : s.credentialSubject = modelVC.credentialSubject := by
    obtain ⟨_, _, _, text, _, rfl⟩ := ((C32_vc Toy.jcsLaws (7 : UInt8) { modelVC with proof := none }
      { modelProof with proofValue := [] }).1 _).mp hs
    rfl
  have h := (C108_sign_vc Toy.jcsLaws (7 : UInt8) modelVC modelProof s).mpr ⟨hs, hf, (undisputed_append he).mpr modelVC_undisputed⟩
  obtain ⟨t, w, h1, h2, h3⟩ := C108_honest_vc Toy.jcsLaws Toy.edLaws toyPolicy (7 : UInt8) modelVC modelProof s h "k".toList
    (by decide) toyPolicy_key (by intro e h; cases h)
    (by simp [modelVC, toySubject, Json.depth, Json.depthMembers]) (toy_rereads _)
  exact ⟨s, t, w, h, h1, h2, h3⟩

/-- And in a presentation of the same party. -/
theorem model_presented : ∃ v signed t w, Modelled.signVP (E := Toy.env) (7 : UInt8) v modelProof = some signed ∧
    v.verifiableCredential ≠ [] ∧ signed.toJcs = .ok t ∧ SameVP signed w ∧
    Modelled.readVP toyPolicy .assertionMethod (utf8 t) = some w := by
  obtain ⟨s, t, w, h1, h2, h3, h4⟩ := model_signed
  obtain ⟨hs, hf, hu⟩ := (C108_sign_vc Toy.jcsLaws (7 : UInt8) modelVC modelProof s).mp h1
  have he : s.credentialSubject = modelVC.credentialSubject := by
    obtain ⟨_, _, _, text, _, rfl⟩ := ((C32_vc Toy.jcsLaws (7 : UInt8) { modelVC with proof := none }
      { modelProof with proofValue := [] }).1 _).mp hs
    rfl
  have hd : s.credentialSubject.1.depth ≤ 124 := by
    rw [he]
    simp [modelVC, toySubject, Json.depth, Json.depthMembers]
  obtain ⟨h4, _⟩ := (filter_iff _ _ _).mp h4
  let v : VP Toy.env := { modelVP with verifiableCredential := [s], holder := some "did:x".toList }
  have hv : PresentationFields { v with proof := none } := by
    obtain ⟨a1, a2, a3, _, _, a6⟩ := modelVP_fields
    refine ⟨a1, a2, a3, ?_, fun c hc => List.mem_singleton.mp hc ▸ hf, a6⟩
    rintro h ⟨⟩
    exact isUri_of "did".toList "x".toList rfl (by decide) (by decide) (by decide)
  obtain ⟨sp, hsp⟩ := ((C101_sign_iff Toy.jcsLaws (7 : UInt8) modelProof).2 v).mpr
      ⟨_, ((C32_vp Toy.jcsLaws (7 : UInt8) _ modelProof).1 _).mpr
      ⟨⟨toyProof_good.type, toyProof_good.suite, toyProof_good.created⟩, by decide,
        ⟨by simp [v, modelVP], by simp [v, modelVP], by simp [v]⟩, _, multibaseEncode58_spec _, rfl⟩⟩
  have hpf := (C91_signed_vp Toy.jcsLaws (7 : UInt8) { v with proof := none } { modelProof with proofValue := [] } sp hsp).mpr
    ⟨hv, modelProof_uris⟩
  have hpe : sp.verifiableCredential = v.verifiableCredential := by
    obtain ⟨_, _, _, text, _, rfl⟩ := ((C32_vp Toy.jcsLaws (7 : UInt8) { v with proof := none }
      { modelProof with proofValue := [] }).1 _).mp hsp
    rfl
  have h := (C108_sign_vp Toy.jcsLaws (7 : UInt8) v modelProof sp).mpr ⟨hsp, hpf, hpe ▸ hu⟩
  obtain ⟨t', w', b1, b2, b3⟩ := C108_honest_vp Toy.jcsLaws Toy.edLaws toyPolicy (7 : UInt8) v modelProof sp h
    "did:x".toList "k".toList rfl (by decide) toyPolicy_key (by intro e h; cases h)
    (by intro c hc; rw [List.mem_singleton.mp hc]; exact hd)
    (by intro c hc; rw [List.mem_singleton.mp hc]; exact ⟨t, w, h2, h3, h4⟩)
  exact ⟨v, sp, t', w', h, by simp [v], b1, b2, b3⟩

/-- The hypotheses of `C108_written` are met. -/
example : ∃ (v out : VC Toy.env), Modelled.signVC (E := Toy.env) (7 : UInt8) v modelProof = some out :=
  let ⟨s, _, _, h, _⟩ := model_signed; ⟨modelVC, s, h⟩

/-- The checks bite: an identifier that is no URI, a percent sign without digits, another first context, and names in doubtful order. -/
example : uri "".toList = false ∧ uri "did".toList = false ∧ uri "1x:a".toList = false ∧ uri "did:a b".toList = false ∧
    uri "did:%4".toList = false ∧ uri "did:%4g".toList = false ∧ uri "did:prople:%4F?service=a&x#k".toList = true ∧
    credential { modelVC with contexts := ["https://www.w3.org/2018/credentials/v1".toList] } = false ∧
    credential { modelVC with id := "1".toList } = false ∧ ordered [splitVC] = false := by
  refine ⟨by decide, by decide, by decide, by decide, by decide, by decide, by decide, by decide, by decide, by decide⟩

/-- The library signs a credential that this caller refuses. -/
example : (∃ out, sign Toy.env (VC Toy.env) (7 : UInt8) toyVC toyProof = .ok out) ∧
    Modelled.signVC (E := Toy.env) (7 : UInt8) toyVC toyProof = none := by
  refine ⟨⟨_, ((C32_vc Toy.jcsLaws (7 : UInt8) toyVC toyProof).1 _).mpr
      ⟨⟨toyProof_good.type, toyProof_good.suite, toyProof_good.created⟩, by decide, toyVC_complete, _, multibaseEncode58_spec _, rfl⟩⟩, ?_⟩
  unfold Modelled.signVC
  rw [if_neg]
  decide

/-- The toy credential under both orders. -/
example : ∃ out : VC Toy.env,
    Modelled.signVC (E := Toy.env.withOrder unitLe) (7 : UInt8) (moveVC unitLe modelVC) modelProof = some (moveVC unitLe out) ∧
    Modelled.signVC (E := Toy.env.withOrder pointLe) (7 : UInt8) (moveVC pointLe modelVC) modelProof = some (moveVC pointLe out) := by
  have h := ((C32_vc (C63_laws Toy.jcsLaws).1 (7 : UInt8) (moveVC unitLe modelVC) { modelProof with proofValue := [] }).1 (moveVC unitLe
    ⟨modelVC.contexts, modelVC.types, modelVC.credentialSubject, some ⟨modelProof.id, modelProof.typ, modelProof.proofPurpose,
      multibaseEncode58 _, modelProof.verificationMethod, modelProof.created, modelProof.expires, modelProof.cryptosuite⟩,
      modelVC.id, modelVC.issuer⟩)).mpr
    ⟨⟨toyProof_good.1, toyProof_good.2, toyProof_good.3⟩, by decide,
      fields_complete ((credentialFields_move unitLe modelVC).mpr modelVC_fields), _, multibaseEncode58_spec _, rfl⟩
  have h' := (C108_sign_vc (C63_laws Toy.jcsLaws).1 (7 : UInt8) (moveVC unitLe modelVC) modelProof _).mpr ⟨h,
    (C91_signed (C63_laws Toy.jcsLaws).1 (7 : UInt8) (moveVC unitLe modelVC) { modelProof with proofValue := [] } _ h).mpr
      ⟨(credentialFields_move unitLe modelVC).mpr modelVC_fields, modelProof_uris⟩, .inl fun c hc => by
        rw [List.mem_singleton.mp hc]; exact toySubject_basic⟩
  exact ⟨_, h', ((C108_order_sign (E := Toy.env) Toy.jcsLaws (7 : UInt8) modelProof).1 modelVC _).mp h'⟩

end Verif.Props
