import Verif.Model.VP

/-
The derived `PartialEq` of documents: `VC` (core/src/verifiable/vc.rs:19), `VP` (core/src/verifiable/vp.rs:15) and
`Proof` (core/src/verifiable/proof/mod.rs:34). The derived comparison goes field by field; the one of strings, options,
vectors and of `Proof`, which has no other fields, is equality. `serde_json::Value` and `Number` derive it, too; the one of
floating point numbers is a parameter (`==` of f64).
-/

namespace Verif

/-- `PartialEq for serde_json::Number` (derive on the enum of the three kinds): numbers of different kinds differ. -/
def Num.eq {F : Type} (feq : F → F → Bool) : Num F → Num F → Bool
  | .pos n, .pos m => n = m
  | .neg n, .neg m => n = m
  | .float f, .float g => feq f g
  | _, _ => false

namespace Json
variable {N : Type}

mutual
/-- `PartialEq for serde_json::Value` (derive). -/
def eq (p : N → N → Bool) : Json N → Json N → Bool
  | .null, .null => true
  | .bool a, .bool b => a = b
  | .num a, .num b => p a b
  | .str a, .str b => a = b
  | .arr a, .arr b => eqList p a b
  | .obj a, .obj b => eqMembers p a b
  | _, _ => false
/-- `PartialEq for Vec`. -/
def eqList (p : N → N → Bool) : List (Json N) → List (Json N) → Bool
  | [], [] => true
  | a :: as, b :: bs => eq p a b && eqList p as bs
  | _, _ => false
/-- `PartialEq for BTreeMap`: the members in order. -/
def eqMembers (p : N → N → Bool) : List (Str × Json N) → List (Str × Json N) → Bool
  | [], [] => true
  | (k, a) :: as, (l, b) :: bs => k = l && eq p a b && eqMembers p as bs
  | _, _ => false
end

end Json

variable {E : Env}

/-- `PartialEq for VC` (derive), core/src/verifiable/vc.rs:19-36. -/
def VC.eq (feq : E.F → E.F → Bool) (v w : VC E) : Bool :=
  v.contexts = w.contexts && v.types = w.types && v.credentialSubject.1.eq (Num.eq feq) w.credentialSubject.1 &&
  v.proof = w.proof && v.id = w.id && v.issuer = w.issuer

/-- `PartialEq for Vec<VC>`. -/
def VC.eqAll (feq : E.F → E.F → Bool) : List (VC E) → List (VC E) → Bool
  | [], [] => true
  | v :: vs, w :: ws => VC.eq feq v w && VC.eqAll feq vs ws
  | _, _ => false

/-- `PartialEq for VP` (derive), core/src/verifiable/vp.rs:15-32. -/
def VP.eq (feq : E.F → E.F → Bool) (v w : VP E) : Bool :=
  v.contexts = w.contexts && v.types = w.types && VC.eqAll feq v.verifiableCredential w.verifiableCredential &&
  v.proof = w.proof && v.holder = w.holder

end Verif
