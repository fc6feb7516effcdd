import Verif.Spec.Grammar
import Verif.Spec.Wire

/-
What a JSON text means to the library, as relations: which text a string token spells, which number a number token
stands for, which value a token tree stands for, and which credential, presentation or DID document it is read as.
Together with `Spec/Grammar.lean` this says, without mentioning the reader, for which byte strings reading succeeds
and with what result.
-/

namespace Verif.Spec
open Verif

/-- Two results are alike: equal, or both say that the text cannot be read. (The text of that error may differ: it
names a line and a column.) -/
def Alike {α : Type} (x y : Except ProofError α) : Prop :=
  x = y ∨ ∃ m m', x = .error (.proofGenerationError m) ∧ y = .error (.proofGenerationError m')

/-! ### Strings -/

/-- A hex digit of either case and its value. -/
def HexVal (b : UInt8) (n : Nat) : Prop :=
  (utf8 "0123456789abcdef".toList)[n]? = some b ∨ (utf8 "0123456789ABCDEF".toList)[n]? = some b

/-- Four hex digits and the code unit they stand for. -/
def CodeUnit (a b c d : UInt8) (n : Nat) : Prop :=
  ∃ x y z w, HexVal a x ∧ HexVal b y ∧ HexVal c z ∧ HexVal d w ∧ n = 4096 * x + 256 * y + 16 * z + w

/-- RFC 8259 §7: the two-character escapes. -/
def escapes : List (UInt8 × Char) :=
  [(0x22, '"'), (0x5c, '\\'), (0x2f, '/'), (0x62, Char.ofNat 8), (0x66, Char.ofNat 12), (0x6e, Char.ofNat 10),
   (0x72, Char.ofNat 13), (0x74, Char.ofNat 9)]

/-- The bytes between the quotes of a JSON string spell the text. -/
inductive Spells : Bytes → Str → Prop
  | nil : Spells [] []
  /-- a character in UTF-8 that needs no escape -/
  | plain {c : Char} {s : Bytes} {t : Str} : 32 ≤ c.toNat → c ≠ '"' → c ≠ '\\' → Spells s t →
      Spells (utf8 [c] ++ s) (c :: t)
  /-- a two-character escape -/
  | esc {e : UInt8} {c : Char} {s : Bytes} {t : Str} : (e, c) ∈ escapes → Spells s t → Spells (0x5c :: e :: s) (c :: t)
  /-- `\uXXXX` of a character (a surrogate is not one) -/
  | unit {x y z w : UInt8} {c : Char} {s : Bytes} {t : Str} : CodeUnit x y z w c.toNat → Spells s t →
      Spells (0x5c :: 0x75 :: x :: y :: z :: w :: s) (c :: t)
  /-- `\uXXXX\uXXXX`: a surrogate pair -/
  | pair {x y z w x' y' z' w' : UInt8} {h l : Nat} {c : Char} {s : Bytes} {t : Str} :
      CodeUnit x y z w (0xD800 + h) → h < 0x400 → CodeUnit x' y' z' w' (0xDC00 + l) → l < 0x400 →
      c.toNat = 0x10000 + 0x400 * h + l → Spells s t →
      Spells (0x5c :: 0x75 :: x :: y :: z :: w :: 0x5c :: 0x75 :: x' :: y' :: z' :: w' :: s) (c :: t)

/-! ### Numbers and values -/

/-- The natural number written with decimal digits. -/
def decimal (ds : Bytes) : Nat := valueOf 10 (ds.map fun b => b.toNat - 48)

/-- A natural number below `2^64`. -/
def SmallNat (t : Bytes) : Prop := Digits t ∧ decimal t < 2 ^ 64

/-- A minus sign and a natural number from 1 to `2^63`. -/
def SmallNeg (t : Bytes) : Prop := ∃ ds, t = 0x2d :: ds ∧ Digits ds ∧ 1 ≤ decimal ds ∧ decimal ds ≤ 2 ^ 63

/-- The number a token stands for; what is not an integer of 64 bits goes to the `f64` parser. -/
inductive NumMeans {F : Type} (fr : Bytes → Option F) : Bytes → Num F → Prop
  | nat {t : Bytes} (h : SmallNat t) : NumMeans fr t (.pos ⟨decimal t, h.2⟩)
  | neg {ds : Bytes} {k : Fin (2 ^ 63)} : Digits ds → decimal ds = k.1 + 1 → NumMeans fr (0x2d :: ds) (.neg k)
  | float {t : Bytes} {f : F} : ¬ SmallNat t → ¬ SmallNeg t → fr t = some f → NumMeans fr t (.float f)

/-- Strictly increasing in the order of Unicode code points. -/
def Increasing {α : Type} (m : List (Str × α)) : Prop := m.Pairwise fun a b => a.1 < b.1

/-- `v` is the last value given for the name `k`. -/
def LastOf {α : Type} (l : List (Str × α)) (k : Str) (v : α) : Prop :=
  ∃ pre post, l = pre ++ (k, v) :: post ∧ ∀ p ∈ post, p.1 ≠ k

mutual
/-- The value a token tree stands for. -/
inductive ValueMeans {F : Type} (fr : Bytes → Option F) : Raw → Json (Num F) → Prop
  | null : ValueMeans fr .null .null
  | bool {b : Bool} : ValueMeans fr (.bool b) (.bool b)
  | num {t : Bytes} {n : Num F} : NumMeans fr t n → ValueMeans fr (.num t) (.num n)
  | str {s : Bytes} {t : Str} : Spells s t → ValueMeans fr (.str s) (.str t)
  | arr {xs : List Raw} {ys : List (Json (Num F))} : ValuesMean fr xs ys → ValueMeans fr (.arr xs) (.arr ys)
  /-- members are kept in order of their names, the last of several with the same name wins -/
  | obj {kvs : List (Bytes × Raw)} {l m : List (Str × Json (Num F))} : MembersMean fr kvs l → Increasing m →
      (∀ k v, (k, v) ∈ m ↔ LastOf l k v) → ValueMeans fr (.obj kvs) (.obj m)
inductive ValuesMean {F : Type} (fr : Bytes → Option F) : List Raw → List (Json (Num F)) → Prop
  | nil : ValuesMean fr [] []
  | cons {x : Raw} {y : Json (Num F)} {xs : List Raw} {ys : List (Json (Num F))} : ValueMeans fr x y →
      ValuesMean fr xs ys → ValuesMean fr (x :: xs) (y :: ys)
inductive MembersMean {F : Type} (fr : Bytes → Option F) : List (Bytes × Raw) → List (Str × Json (Num F)) → Prop
  | nil : MembersMean fr [] []
  | cons {k : Bytes} {n : Str} {x : Raw} {y : Json (Num F)} {xs : List (Bytes × Raw)}
      {ys : List (Str × Json (Num F))} : Spells k n → ValueMeans fr x y → MembersMean fr xs ys →
      MembersMean fr ((k, x) :: xs) ((n, y) :: ys)
end

mutual
/-- How deeply arrays and objects are nested. -/
def nesting : Raw → Nat
  | .arr xs => 1 + nestingList xs
  | .obj kvs => 1 + nestingMembers kvs
  | _ => 0
def nestingList : List Raw → Nat
  | [] => 0
  | x :: xs => max (nesting x) (nestingList xs)
def nestingMembers : List (Bytes × Raw) → Nat
  | [] => 0
  | (_, x) :: xs => max (nesting x) (nestingMembers xs)
end

/-! ### Structures -/

/-- `get` gives the value of each named member of a token tree: an object in which every name can be read and each
of the named members occurs at most once, other members being ignored; or an array with as many elements as
names. -/
inductive StructOf (names : List String) : Raw → (String → Option Raw) → Prop
  | obj {kvs : List (Bytes × Raw)} {get : String → Option Raw} :
      (∀ kv ∈ kvs, ∃ n, Spells kv.1 n) →
      (∀ n ∈ names, ∀ (i j : Nat) (p q : Bytes × Raw), kvs[i]? = some p → kvs[j]? = some q →
        Spells p.1 n.toList → Spells q.1 n.toList → i = j) →
      (∀ n ∈ names, ∀ x, get n = some x ↔ ∃ k, (k, x) ∈ kvs ∧ Spells k n.toList) →
      StructOf names (.obj kvs) get
  | arr {xs : List Raw} {get : String → Option Raw} : xs.length = names.length →
      (∀ (i : Nat) (n : String), names[i]? = some n → get n = xs[i]?) → StructOf names (.arr xs) get

/-- A member that has to be there. -/
def Needs {α : Type} (get : String → Option Raw) (n : String) (P : Raw → α → Prop) (x : α) : Prop :=
  ∃ y, get n = some y ∧ P y x

/-- A member that may be missing or `null`. -/
def May {α : Type} (get : String → Option Raw) (n : String) (P : Raw → α → Prop) : Option α → Prop
  | none => get n = none ∨ get n = some .null
  | some x => ∃ y, get n = some y ∧ y ≠ .null ∧ P y x

/-- A string. -/
def ReadsText (r : Raw) (t : Str) : Prop := ∃ s, r = .str s ∧ Spells s t

/-- An array, element by element. -/
def ReadsList {α : Type} (P : Raw → α → Prop) (r : Raw) (l : List α) : Prop := ∃ xs, r = .arr xs ∧ List.Forall₂ P xs l

/-- A proof purpose: its name, or an object with its name as only member and value `null`. -/
def ReadsPurpose (r : Raw) (p : ProofPurpose) : Prop :=
  ReadsText r (purposeText p).toList ∨ ∃ k, r = .obj [(k, .null)] ∧ Spells k (purposeText p).toList

/-- A proof. -/
def ReadsProof (r : Raw) (p : Proof) : Prop :=
  ∃ get, StructOf ["id", "type", "proofPurpose", "proofValue", "verificationMethod", "created", "expires", "cryptosuite"]
      r get ∧
    Needs get "id" ReadsText p.id ∧ Needs get "type" ReadsText p.typ ∧
    Needs get "proofPurpose" ReadsPurpose p.proofPurpose ∧ Needs get "proofValue" ReadsText p.proofValue ∧
    Needs get "verificationMethod" ReadsText p.verificationMethod ∧ May get "created" ReadsText p.created ∧
    May get "expires" ReadsText p.expires ∧ May get "cryptosuite" ReadsText p.cryptosuite

/-- A credential whose subject is nested at most `limit` deep. -/
def ReadsVC (E : Env) (limit : Nat) (r : Raw) (v : VC E) : Prop :=
  ∃ get, StructOf ["@context", "type", "credentialSubject", "proof", "id", "issuer"] r get ∧
    Needs get "@context" (ReadsList ReadsText) v.contexts ∧ Needs get "type" (ReadsList ReadsText) v.types ∧
    Needs get "credentialSubject" (fun x j => nesting x ≤ limit ∧ ValueMeans E.floatParse x j) v.credentialSubject.1 ∧
    May get "proof" ReadsProof v.proof ∧ Needs get "id" ReadsText v.id ∧ Needs get "issuer" ReadsText v.issuer

/-- A presentation whose credential subjects are nested at most `limit` deep. -/
def ReadsVP (E : Env) (limit : Nat) (r : Raw) (v : VP E) : Prop :=
  ∃ get, StructOf ["@context", "type", "verifiableCredential", "proof", "holder"] r get ∧
    Needs get "@context" (ReadsList ReadsText) v.contexts ∧ Needs get "type" (ReadsList ReadsText) v.types ∧
    Needs get "verifiableCredential" (ReadsList (ReadsVC E limit)) v.verifiableCredential ∧
    May get "proof" ReadsProof v.proof ∧ May get "holder" ReadsText v.holder

/-- A published key. -/
def ReadsKey (r : Raw) (p : Primary) : Prop :=
  ∃ get, StructOf ["id", "controller", "type", "publicKeyMultibase"] r get ∧
    Needs get "id" ReadsText p.id ∧ Needs get "controller" ReadsText p.controller ∧
    Needs get "type" ReadsText p.verificationType ∧ Needs get "publicKeyMultibase" ReadsText p.multibase

/-- A DID document. -/
def ReadsDoc (r : Raw) (d : Doc) : Prop :=
  ∃ get, StructOf ["@context", "id", "authentication", "capabilityInvocation", "capabilityDelegation",
      "assertionMethod"] r get ∧
    Needs get "@context" (ReadsList ReadsText) d.context ∧ Needs get "id" ReadsText d.id ∧
    May get "authentication" (ReadsList ReadsKey) d.authentication ∧
    May get "capabilityInvocation" (ReadsList ReadsKey) d.capInvoke ∧
    May get "capabilityDelegation" (ReadsList ReadsKey) d.capDelegate ∧
    May get "assertionMethod" (ReadsList ReadsKey) d.assertion

/-- The properties of a connection credential. -/
def ReadsConnectionProps (r : Raw) (c : UserConnectionCredentialProperties) : Prop :=
  ∃ get, StructOf ["userAgentAddress", "userDid"] r get ∧
    Needs get "userAgentAddress" ReadsText c.userAgentAddress ∧ Needs get "userDid" ReadsText c.userDid

/-- A connection credential: two nested objects with one named member each around the properties. -/
def ReadsConnection (r : Raw) (c : UserConnectionCredential) : Prop :=
  ∃ get, StructOf ["UserConnectionCredential"] r get ∧
    Needs get "UserConnectionCredential" (fun r' (c' : UserConnectionCredentialContext) =>
      ∃ get', StructOf ["@context"] r' get' ∧ Needs get' "@context" ReadsConnectionProps c'.context)
      c.userConnectionCredential

end Verif.Spec
