import Verif.Spec.Text
import Verif.Model.VP
import Verif.Model.Context

/-
Independent description of the JSON texts the library writes: a writer on character level, an insertion sort for
the canonical form, and the members of each document with their literal names.
-/

namespace Verif.Spec
open Verif

/-- JSON spelling of a character inside a string: only the quote, the backslash and control characters are
escaped. -/
def escChar (c : Char) : Str :=
  if c = '"' then ['\\', '"']
  else if c = '\\' then ['\\', '\\']
  else if c = Char.ofNat 8 then ['\\', 'b']
  else if c = '\t' then ['\\', 't']
  else if c = '\n' then ['\\', 'n']
  else if c = Char.ofNat 12 then ['\\', 'f']
  else if c = '\r' then ['\\', 'r']
  else if c.toNat < 32 then
    ['\\', 'u', '0', '0', if c.toNat < 16 then '0' else '1', (hexDigits[c.toNat % 16]?).getD '0']
  else [c]

/-- A JSON string. -/
def quote (s : Str) : Str := '"' :: s.flatMap escChar ++ ['"']

mutual
/-- Compact JSON text, numbers written by `num`. -/
def write {N : Type} (num : N → Str) : Json N → Str
  | .null => "null".toList
  | .bool b => if b then "true".toList else "false".toList
  | .num n => num n
  | .str s => quote s
  | .arr xs => '[' :: writeElems num xs ++ [']']
  | .obj kvs => '{' :: writeMembers num kvs ++ ['}']
/-- Elements separated by commas. -/
def writeElems {N : Type} (num : N → Str) : List (Json N) → Str
  | [] => []
  | x :: xs => write num x ++ (if xs.isEmpty then [] else ',' :: writeElems num xs)
/-- Members separated by commas. -/
def writeMembers {N : Type} (num : N → Str) : List (Str × Json N) → Str
  | [] => []
  | (k, v) :: kvs => quote k ++ ':' :: write num v ++ (if kvs.isEmpty then [] else ',' :: writeMembers num kvs)
end

/-- ASCII bytes as text. -/
def asciiText (b : Bytes) : Str := b.map fun x => Char.ofNat x.toNat

/-- Number text in plain JSON: decimal integers, floats as the float printer writes them. -/
def numText (E : Env) : Num E.F → Str
  | .pos n => Nat.toDigits 10 n.1
  | .neg k => '-' :: Nat.toDigits 10 (k.1 + 1)
  | .float f => asciiText (E.floatPrint f)

/-- Insert a member into members sorted by key. -/
def insertMember {N : Type} (le : Str → Str → Bool) (m : Str × Json N) : List (Str × Json N) → List (Str × Json N)
  | [] => [m]
  | x :: xs => if le m.1 x.1 then m :: x :: xs else x :: insertMember le m xs

mutual
/-- Members of every object sorted by key. -/
def sortKeys {N : Type} (le : Str → Str → Bool) : Json N → Json N
  | .arr xs => .arr (sortKeysElems le xs)
  | .obj kvs => .obj (sortKeysMembers le kvs)
  | .null => .null
  | .bool b => .bool b
  | .num n => .num n
  | .str s => .str s
def sortKeysElems {N : Type} (le : Str → Str → Bool) : List (Json N) → List (Json N)
  | [] => []
  | x :: xs => sortKeys le x :: sortKeysElems le xs
def sortKeysMembers {N : Type} (le : Str → Str → Bool) : List (Str × Json N) → List (Str × Json N)
  | [] => []
  | (k, v) :: kvs => insertMember le (k, sortKeys le v) (sortKeysMembers le kvs)
end

/-- Canonical (JCS) text: sorted members, compact, canonical numbers. -/
def canonicalText (E : Env) (j : Json (Num E.F)) : Str :=
  write (fun n => asciiText (E.jcsNum n)) (sortKeys E.keyLe j)

/-- Plain JSON text. -/
def plainText (E : Env) (j : Json (Num E.F)) : Str := write (numText E) j

/-- An object from named values, leaving out the absent ones. -/
def object {N : Type} (l : List (String × Option (Json N))) : Json N :=
  .obj (l.filterMap fun x => x.2.map fun v => (x.1.toList, v))

/-- An array of strings. -/
def strings {N : Type} (l : List Str) : Json N := .arr (l.map .str)

/-- Wire names of the proof purposes. -/
def purposeText : ProofPurpose → String
  | .assertionMethod => "assertionMethod"
  | .authentication => "authentication"
  | .keyAgreement => "keyAgreement"
  | .capabilityDelegation => "capabilityDelegation"
  | .capabilityInvocation => "capabilityInvocation"
  | .unknown => "unknown"

/-- A proof on the wire. -/
def proofObject {N : Type} (p : Proof) : Json N :=
  object [("id", some (.str p.id)), ("type", some (.str p.typ)),
    ("proofPurpose", some (.str (purposeText p.proofPurpose).toList)), ("proofValue", some (.str p.proofValue)),
    ("verificationMethod", some (.str p.verificationMethod)), ("created", p.created.map .str),
    ("expires", p.expires.map .str), ("cryptosuite", p.cryptosuite.map .str)]

/-- A credential on the wire. -/
def vcObject {E : Env} (v : VC E) : Json (Num E.F) :=
  object [("@context", some (strings v.contexts)), ("type", some (strings v.types)),
    ("credentialSubject", some v.credentialSubject.1), ("proof", v.proof.map proofObject),
    ("id", some (.str v.id)), ("issuer", some (.str v.issuer))]

/-- A presentation on the wire. -/
def vpObject {E : Env} (v : VP E) : Json (Num E.F) :=
  object [("@context", some (strings v.contexts)), ("type", some (strings v.types)),
    ("verifiableCredential", some (.arr (v.verifiableCredential.map vcObject))),
    ("proof", v.proof.map proofObject), ("holder", v.holder.map .str)]

/-- A published key on the wire. -/
def keyObject {N : Type} (p : Primary) : Json N :=
  object [("id", some (.str p.id)), ("controller", some (.str p.controller)),
    ("type", some (.str p.verificationType)), ("publicKeyMultibase", some (.str p.multibase))]

/-- A DID document on the wire. -/
def docObject {N : Type} (d : Doc) : Json N :=
  object [("@context", some (strings d.context)), ("id", some (.str d.id)),
    ("authentication", d.authentication.map fun l => .arr (l.map keyObject)),
    ("capabilityInvocation", d.capInvoke.map fun l => .arr (l.map keyObject)),
    ("capabilityDelegation", d.capDelegate.map fun l => .arr (l.map keyObject)),
    ("assertionMethod", d.assertion.map fun l => .arr (l.map keyObject))]

/-- A connection credential on the wire. -/
def connectionObject {N : Type} (address did : Str) : Json N :=
  object [("UserConnectionCredential", some (object [("@context", some (object
    [("userAgentAddress", some (.str address)), ("userDid", some (.str did))]))]))]

end Verif.Spec

namespace Verif
open Spec

/-! ### The printer meets the description -/

theorem utf8Encode_ascii (c : Char) (h : c.toNat < 128) : utf8EncodeChar c = [byte c.toNat] := by
  simp [utf8EncodeChar, h]

theorem asciiText_bytes {b : Bytes} (h : ∀ x ∈ b, x.toNat < 128) : utf8Encode (asciiText b) = b := by
  induction b with
  | nil => rfl
  | cons x b ih =>
    have hx := h x (by simp)
    have e : (Char.ofNat x.toNat).toNat = x.toNat := Char.toNat_ofNat_valid (Or.inl (by omega))
    show utf8Encode (Char.ofNat x.toNat :: asciiText b) = _
    rw [utf8Encode_cons, utf8Encode_ascii _ (by rw [e]; exact hx), ih fun y hy => h y (by simp [hy]), e]
    simp only [List.singleton_append, List.cons.injEq, and_true]
    exact UInt8.ext_nat (byte_toNat_of_lt (UInt8.lt256 x))

theorem escByte_char : ∀ n < 128, escByte (byte n) = utf8Encode (escChar (Char.ofNat n)) := by decide +kernel

theorem encStr_eq (s : Str) : encStr s = utf8Encode (s.flatMap escChar) := by
  unfold encStr
  induction s with
  | nil => rfl
  | cons c s ih =>
    rw [utf8Encode_cons, escape_append, ih, List.flatMap_cons, utf8Encode_append]
    congr 1
    by_cases h : c.toNat < 128
    · rw [utf8Encode_ascii c h]
      have := escByte_char c.toNat h
      rw [show Char.ofNat c.toNat = c from Char.ofNat_toNat c] at this
      simp [escape, this]
    · have hne : ∀ d : Char, d.toNat < 128 → c ≠ d := by rintro d hd rfl; exact h hd
      have e : escChar c = [c] := by
        unfold escChar
        rw [if_neg (hne _ (by decide)), if_neg (hne _ (by decide)), if_neg (hne _ (by decide)), if_neg (hne _ (by decide)),
          if_neg (hne _ (by decide)), if_neg (hne _ (by decide)), if_neg (hne _ (by decide)), if_neg (by omega)]
      rw [e]
      rcases utf8EncodeChar_cases c with ⟨b, hb, hlt⟩ | hhi
      · exfalso
        have : (utf8EncodeChar c).length = 1 := by rw [hb]; rfl
        unfold utf8EncodeChar at hb
        simp only [h, if_false] at hb
        split at hb
        · simp at hb
        · split at hb <;> simp at hb
      · rw [escape_high hhi]
        simp [utf8Encode]

theorem quote_eq (s : Str) : utf8Encode (quote s) = 0x22 :: encStr s ++ [0x22] := by
  unfold quote
  rw [encStr_eq, List.cons_append, utf8Encode_cons, utf8Encode_append]
  rfl

section
variable {N : Type} {num : N → Str} {p : N → Bytes}

mutual
theorem write_eq (h : ∀ n, utf8Encode (num n) = p n) (j : Json N) :
    utf8Encode (write num j) = (j.toRaw p).render := by
  match j with
  | .null => simp only [write, Json.toRaw, Raw.render]; decide +kernel
  | .bool true => simp only [write, Json.toRaw, Raw.render]; decide +kernel
  | .bool false => simp only [write, Json.toRaw, Raw.render]; decide +kernel
  | .num n => simp only [write, Json.toRaw, Raw.render, h]
  | .str s => simp only [write, Json.toRaw, Raw.render, quote_eq]; try simp
  | .arr [] => simp only [write, writeElems, Json.toRaw, Json.toRawList, Raw.render]; decide +kernel
  | .arr (x :: xs) =>
    simp only [write, writeElems, Json.toRaw, Json.toRawList, Raw.render, List.cons_append, List.append_assoc]
    rw [utf8Encode_cons, utf8Encode_append, write_eq h x, utf8Encode_append, writeTail_eq h xs]
    rfl
  | .obj [] => simp only [write, writeMembers, Json.toRaw, Json.toRawMembers, Raw.render]; decide +kernel
  | .obj ((k, v) :: kvs) =>
    simp only [write, writeMembers, Json.toRaw, Json.toRawMembers, Raw.render, List.cons_append, List.append_assoc]
    rw [utf8Encode_cons, utf8Encode_append, quote_eq, utf8Encode_cons, utf8Encode_append, write_eq h v,
      utf8Encode_append, writeMTail_eq h kvs]
    simp
    rfl
theorem writeTail_eq (h : ∀ n, utf8Encode (num n) = p n) (xs : List (Json N)) :
    utf8Encode (if xs.isEmpty then [] else ',' :: writeElems num xs) ++ utf8Encode [']'] =
      Raw.renderTail (Json.toRawList p xs) := by
  match xs with
  | [] => simp only [Json.toRawList, Raw.renderTail]; rfl
  | x :: xs =>
    simp only [Json.toRawList, Raw.renderTail, List.isEmpty_cons, writeElems]
    simp only [Bool.false_eq_true, if_false]
    rw [utf8Encode_cons, utf8Encode_append, write_eq h x, List.append_assoc, List.append_assoc, writeTail_eq h xs]
    rfl
theorem writeMTail_eq (h : ∀ n, utf8Encode (num n) = p n) (kvs : List (Str × Json N)) :
    utf8Encode (if kvs.isEmpty then [] else ',' :: writeMembers num kvs) ++ utf8Encode ['}'] =
      Raw.renderMTail (Json.toRawMembers p kvs) := by
  match kvs with
  | [] => simp only [Json.toRawMembers, Raw.renderMTail]; rfl
  | (k, v) :: kvs =>
    simp only [Json.toRawMembers, Raw.renderMTail, List.isEmpty_cons, writeMembers]
    simp only [Bool.false_eq_true, if_false]
    rw [utf8Encode_cons, utf8Encode_append, utf8Encode_append, quote_eq, utf8Encode_cons, write_eq h v]
    simp only [List.append_assoc, List.cons_append]
    rw [writeMTail_eq h kvs]
    rfl
end
end

/-! ### Numbers -/

theorem digitChar_bytes : ∀ d < 10, utf8EncodeChar (Nat.digitChar d) = [byte (0x30 + d)] := by decide +kernel

theorem natDec_text (n : Nat) : utf8Encode (Nat.toDigits 10 n) = natDec n := by
  induction n using Nat.strongRecOn with
  | _ n ih =>
    rw [Nat.toDigits_eq_if (by omega)]
    split
    · rename_i h
      rw [show utf8Encode [Nat.digitChar n] = utf8EncodeChar (Nat.digitChar n) by simp [utf8Encode], digitChar_bytes n h]
      unfold natDec
      by_cases h0 : n = 0
      · subst h0; rfl
      · rw [if_neg h0]; simp [digitsBE, Nat.digits_of_lt 10 n h0 h]
    · rename_i h
      rw [utf8Encode_append, ih (n / 10) (by omega),
        show utf8Encode [Nat.digitChar (n % 10)] = utf8EncodeChar (Nat.digitChar (n % 10)) by simp [utf8Encode],
        digitChar_bytes _ (by omega)]
      unfold natDec
      rw [if_neg (by omega), if_neg (by omega)]
      have : Nat.digits 10 n = n % 10 :: Nat.digits 10 (n / 10) := by
        rw [Nat.digits_def' (by omega) (by omega)]
      simp [digitsBE, this]

theorem numText_bytes {E : Env} (L : E.NumLaws) (n : Num E.F) :
    utf8Encode (numText E n) = printNum E.floatPrint n := by
  cases n with
  | pos n => exact natDec_text _
  | neg k =>
    simp only [numText, printNum]
    rw [utf8Encode_cons, natDec_text]; rfl
  | float f => exact asciiText_bytes (isNumTok_ascii (L.tok f))

/-! ### Order -/

section
variable {N : Type} {le : Str → Str → Bool}

theorem insertMember_perm (m : Str × Json N) (l : List (Str × Json N)) : (insertMember le m l).Perm (m :: l) := by
  induction l with
  | nil => exact .refl _
  | cons x l ih =>
    simp only [insertMember]
    split
    · exact .refl _
    · exact (ih.cons x).trans (.swap _ _ _)

theorem insertMember_sorted (tot : ∀ a b, le a b = true ∨ le b a = true)
    (tr : ∀ a b c, le a b = true → le b c = true → le a c = true) (m : Str × Json N) (l : List (Str × Json N))
    (h : l.Pairwise fun a b => le a.1 b.1 = true) : (insertMember le m l).Pairwise fun a b => le a.1 b.1 = true := by
  induction l with
  | nil => simp [insertMember]
  | cons x l ih =>
    simp only [insertMember]
    rw [List.pairwise_cons] at h
    split
    · rename_i hm
      rw [List.pairwise_cons, List.pairwise_cons]
      refine ⟨?_, h⟩
      intro y hy
      rcases List.mem_cons.mp hy with rfl | hy
      · exact hm
      · exact tr _ _ _ hm (h.1 y hy)
    · rename_i hm
      rw [List.pairwise_cons]
      refine ⟨?_, ih h.2⟩
      intro y hy
      rcases List.mem_cons.mp ((insertMember_perm m l).mem_iff.mp hy) with rfl | hy
      · exact (tot _ _).resolve_left hm
      · exact h.1 y hy

theorem sortKeysMembers_sorted (tot : ∀ a b, le a b = true ∨ le b a = true)
    (tr : ∀ a b c, le a b = true → le b c = true → le a c = true) (l : List (Str × Json N)) :
    (sortKeysMembers le l).Pairwise fun a b => le a.1 b.1 = true := by
  induction l with
  | nil => simp [sortKeysMembers]
  | cons x l ih => obtain ⟨k, v⟩ := x; exact insertMember_sorted tot tr _ _ ih

theorem sortKeysMembers_perm (l : List (Str × Json N)) :
    (sortKeysMembers le l).Perm (l.map fun m => (m.1, sortKeys le m.2)) := by
  induction l with
  | nil => simp [sortKeysMembers]
  | cons x l ih =>
    obtain ⟨k, v⟩ := x
    simp only [sortKeysMembers, List.map_cons]
    exact (insertMember_perm _ _).trans (ih.cons _)

mutual
/-- Every object has distinct member names. -/
def Spec.DistinctKeys : Json N → Prop
  | .arr xs => DistinctKeysElems xs
  | .obj kvs => (kvs.map (·.1)).Nodup ∧ DistinctKeysMembers kvs
  | _ => True
def Spec.DistinctKeysElems : List (Json N) → Prop
  | [] => True
  | x :: xs => DistinctKeys x ∧ DistinctKeysElems xs
def Spec.DistinctKeysMembers : List (Str × Json N) → Prop
  | [] => True
  | (_, v) :: kvs => DistinctKeys v ∧ DistinctKeysMembers kvs
end

mutual
theorem distinct_of_sorted (j : Json N) (h : j.Sorted) : DistinctKeys j := by
  match j, h with
  | .null, _ => simp [DistinctKeys]
  | .bool _, _ => simp [DistinctKeys]
  | .num _, _ => simp [DistinctKeys]
  | .str _, _ => simp [DistinctKeys]
  | .arr xs, h => simp only [Json.Sorted, DistinctKeys] at *; exact distinctElems_of_sorted xs h
  | .obj kvs, h =>
    simp only [Json.Sorted, DistinctKeys] at *
    refine ⟨?_, distinctMembers_of_sorted kvs h.2⟩
    rw [List.Nodup, List.pairwise_map]
    refine h.1.imp ?_
    intro a b hab e
    rw [e] at hab
    rw [strLt_irrefl] at hab; cases hab
theorem distinctElems_of_sorted (xs : List (Json N)) (h : Json.SortedList xs) : DistinctKeysElems xs := by
  match xs, h with
  | [], _ => simp [DistinctKeysElems]
  | x :: xs, h =>
    simp only [Json.SortedList, DistinctKeysElems] at *
    exact ⟨distinct_of_sorted x h.1, distinctElems_of_sorted xs h.2⟩
theorem distinctMembers_of_sorted (xs : List (Str × Json N)) (h : Json.SortedMembers xs) : DistinctKeysMembers xs := by
  match xs, h with
  | [], _ => simp [DistinctKeysMembers]
  | (k, x) :: xs, h =>
    simp only [Json.SortedMembers, DistinctKeysMembers] at *
    exact ⟨distinct_of_sorted x h.1, distinctMembers_of_sorted xs h.2⟩
end

theorem sort_unique (as : ∀ a b, le a b = true → le b a = true → a = b) {l l' : List (Str × Json N)}
    (hn : (l.map (·.1)).Nodup) (hp : l.Perm l') (h : l.Pairwise fun a b => le a.1 b.1 = true)
    (h' : l'.Pairwise fun a b => le a.1 b.1 = true) : l = l' := by
  refine hp.eq_of_pairwise ?_ h h'
  intro a b ha hb hab hba
  have hk := as _ _ hab hba
  have hb' := hp.mem_iff.mpr hb
  exact List.inj_on_of_nodup_map hn ha hb' hk

mutual
/-- The canonical order of the printer is the sorted order. -/
theorem canon_eq_sortKeys (tot : ∀ a b, le a b = true ∨ le b a = true)
    (tr : ∀ a b c, le a b = true → le b c = true → le a c = true)
    (as : ∀ a b, le a b = true → le b a = true → a = b) (j : Json N) (hd : DistinctKeys j) :
    j.canon le = sortKeys le j := by
  match j, hd with
  | .null, _ => simp [Json.canon, sortKeys]
  | .bool _, _ => simp [Json.canon, sortKeys]
  | .num _, _ => simp [Json.canon, sortKeys]
  | .str _, _ => simp [Json.canon, sortKeys]
  | .arr xs, hd =>
    simp only [Json.canon, sortKeys, DistinctKeys] at *
    rw [canonElems_eq tot tr as xs hd]
  | .obj kvs, hd =>
    simp only [Json.canon, sortKeys, DistinctKeys] at *
    rw [canonMembers_eq' tot tr as kvs hd.2]
    congr 1
    have hp : ((kvs.map fun m => (m.1, sortKeys le m.2)).mergeSort (Json.memLe le)).Perm (sortKeysMembers le kvs) :=
      (List.mergeSort_perm _ _).trans (sortKeysMembers_perm kvs).symm
    refine sort_unique as ?_ hp ?_ (sortKeysMembers_sorted tot tr kvs)
    · have : ((kvs.map fun m => (m.1, sortKeys le m.2)).map (·.1)).Nodup := by
        rw [List.map_map]; exact hd.1
      exact ((List.mergeSort_perm _ _).map _).nodup_iff.mpr this
    · refine List.pairwise_mergeSort ?_ ?_ _
      · intro a b c h1 h2; exact tr _ _ _ h1 h2
      · intro a b
        rcases tot a.1 b.1 with h | h <;> simp [h]
theorem canonElems_eq (tot : ∀ a b, le a b = true ∨ le b a = true)
    (tr : ∀ a b c, le a b = true → le b c = true → le a c = true)
    (as : ∀ a b, le a b = true → le b a = true → a = b) (xs : List (Json N)) (hd : DistinctKeysElems xs) :
    Json.canonList le xs = sortKeysElems le xs := by
  match xs, hd with
  | [], _ => simp [Json.canonList, sortKeysElems]
  | x :: xs, hd =>
    simp only [Json.canonList, sortKeysElems, DistinctKeysElems] at *
    rw [canon_eq_sortKeys tot tr as x hd.1, canonElems_eq tot tr as xs hd.2]
theorem canonMembers_eq' (tot : ∀ a b, le a b = true ∨ le b a = true)
    (tr : ∀ a b c, le a b = true → le b c = true → le a c = true)
    (as : ∀ a b, le a b = true → le b a = true → a = b) (kvs : List (Str × Json N)) (hd : DistinctKeysMembers kvs) :
    Json.canonMembers le kvs = kvs.map fun m => (m.1, sortKeys le m.2) := by
  match kvs, hd with
  | [], _ => simp [Json.canonMembers]
  | (k, v) :: kvs, hd =>
    simp only [Json.canonMembers, List.map_cons, DistinctKeysMembers] at *
    rw [canon_eq_sortKeys tot tr as v hd.1, canonMembers_eq' tot tr as kvs hd.2]
end
end

/-! ### Texts -/

theorem jsonText_eq {E : Env} (L : E.NumLaws) (j : Json (Num E.F)) : jsonText E j = plainText E j := by
  apply utf8Encode_injective
  rw [jsonText_bytes L]
  exact (write_eq (numText_bytes L) j).symm

theorem jcsText_eq {E : Env} (L : E.JcsLaws) (j : Json (Num E.F)) (hd : DistinctKeys j) :
    jcsText E j = canonicalText E j := by
  apply utf8Encode_injective
  rw [jcsText_bytes L]
  unfold Json.jcs canonicalText
  rw [canon_eq_sortKeys L.key_total L.key_trans L.key_antisymm j hd]
  exact (write_eq (fun n => asciiText_bytes (isNumTok_ascii (L.num_tok n))) _).symm

theorem proof_tree {N : Type} (p : Proof) : (p.toTree : Json N) = proofObject p := by
  obtain ⟨i, t, pp, pv, m, c, e, s⟩ := p
  cases c <;> cases e <;> cases s <;> cases pp <;> rfl

theorem vc_tree {E : Env} (v : VC E) : v.toTree = vcObject v := by
  obtain ⟨c, t, s, p, i, iss⟩ := v
  cases p with
  | none => rfl
  | some p =>
    show Json.obj _ = Json.obj _
    simp only [optMember, proof_tree]
    rfl

theorem vp_tree {E : Env} (v : VP E) : v.toTree = vpObject v := by
  obtain ⟨c, t, s, p, h⟩ := v
  have : s.map VC.toTree = s.map vcObject := List.map_congr_left fun x _ => vc_tree x
  unfold VP.toTree vpObject
  rw [this]
  cases p <;> cases h <;> simp only [optMember, proof_tree] <;> rfl

theorem key_tree {N : Type} (p : Primary) : (p.toTree : Json N) = keyObject p := rfl

theorem doc_tree {N : Type} (d : Doc) : (d.toTree : Json N) = docObject d := by
  obtain ⟨c, i, a, b, e, f⟩ := d
  cases a <;> cases b <;> cases e <;> cases f <;> rfl

theorem connection_tree {N : Type} (a d : Str) :
    (UserConnectionCredential.toTree ⟨⟨⟨a, d⟩⟩⟩ : Json N) = connectionObject a d := rfl

theorem strings_distinct {N : Type} (l : List Str) : DistinctKeys (strings l : Json N) := by
  simp only [strings, DistinctKeys]
  induction l with
  | nil => simp [DistinctKeysElems]
  | cons x l ih => simp only [List.map_cons, DistinctKeysElems]; exact ⟨by simp [DistinctKeys], ih⟩

theorem proof_distinct {N : Type} (p : Proof) : DistinctKeys (proofObject p : Json N) := by
  obtain ⟨i, t, pp, pv, m, c, e, s⟩ := p
  cases c <;> cases e <;> cases s <;>
    simp [proofObject, object, DistinctKeys, DistinctKeysMembers]

theorem vc_distinct {E : Env} (v : VC E) : DistinctKeys (vcObject v) := by
  obtain ⟨c, t, s, p, i, iss⟩ := v
  have := distinct_of_sorted s.1 s.2
  cases p <;>
    simp [vcObject, object, DistinctKeys, DistinctKeysMembers, strings_distinct, proof_distinct, this]

theorem vp_distinct {E : Env} (v : VP E) : DistinctKeys (vpObject v) := by
  obtain ⟨c, t, s, p, h⟩ := v
  have : DistinctKeysElems (s.map vcObject) := by
    induction s with
    | nil => simp [DistinctKeysElems]
    | cons x l ih => simp only [List.map_cons, DistinctKeysElems]; exact ⟨vc_distinct x, ih⟩
  cases p <;> cases h <;>
    simp [vpObject, object, DistinctKeys, DistinctKeysMembers, strings_distinct, proof_distinct, this]

end Verif
