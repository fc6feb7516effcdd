import Verif.Lemmas.RoundTrip
import Verif.Props.Identity

/-
C16–C18: DID documents.
-/

namespace Verif.Props
open Verif

/-! ### C16 -/

/-- A builder call on a document. -/
inductive DocOp where
  | context (c : Str)
  | authentication (p : Primary)
  | assertion (p : Primary)
  | capDelegate (p : Primary)
  | capInvoke (p : Primary)
  deriving DecidableEq

/-- The effect of a builder call. -/
def DocOp.apply (d : Doc) : DocOp → Doc
  | .context c => d.addContext c
  | .authentication p => d.addAuthentication p
  | .assertion p => d.addAssertion p
  | .capDelegate p => d.addCapDelegate p
  | .capInvoke p => d.addCapInvoke p

/-- The document after `Doc::generate(id)` followed by the calls. -/
def docRun (id : Str) (ops : List DocOp) : Doc := ops.foldl DocOp.apply (Doc.generate id)

/-- Arguments of the `add_context` calls, in call order. -/
def DocOp.contexts (ops : List DocOp) : List Str := ops.filterMap fun | .context c => some c | _ => none
/-- Arguments of the `add_authentication` calls, in call order. -/
def DocOp.authentications (ops : List DocOp) : List Primary :=
  ops.filterMap fun | .authentication p => some p | _ => none
/-- Arguments of the `add_assertion` calls, in call order. -/
def DocOp.assertions (ops : List DocOp) : List Primary := ops.filterMap fun | .assertion p => some p | _ => none
/-- Arguments of the `add_cap_delegate` calls, in call order. -/
def DocOp.capDelegates (ops : List DocOp) : List Primary :=
  ops.filterMap fun | .capDelegate p => some p | _ => none
/-- Arguments of the `add_cap_invoke` calls, in call order. -/
def DocOp.capInvokes (ops : List DocOp) : List Primary := ops.filterMap fun | .capInvoke p => some p | _ => none

/-- An optional list that is absent exactly when there is nothing in it. -/
def presentUnlessEmpty {α : Type} : List α → Option (List α)
  | [] => none
  | x :: xs => some (x :: xs)

/-- Which list of the document a call extends. -/
def DocOp.target : DocOp → Nat
  | .context _ => 0
  | .authentication _ => 1
  | .assertion _ => 2
  | .capDelegate _ => 3
  | .capInvoke _ => 4

theorem pushOpt_append (l : List Primary) (p : Primary) :
    Doc.pushOpt (presentUnlessEmpty l) p = presentUnlessEmpty (l ++ [p]) := by
  cases l <;> rfl

/-- C16: each list holds exactly the arguments of its own calls in call order. -/
theorem C16_builder_history (id : Str) (ops : List DocOp) :
    (docRun id ops).id = id ∧
    (docRun id ops).context = "https://www.w3.org/ns/did/v1".toList :: DocOp.contexts ops ∧
    (docRun id ops).authentication = presentUnlessEmpty (DocOp.authentications ops) ∧
    (docRun id ops).assertion = presentUnlessEmpty (DocOp.assertions ops) ∧
    (docRun id ops).capDelegate = presentUnlessEmpty (DocOp.capDelegates ops) ∧
    (docRun id ops).capInvoke = presentUnlessEmpty (DocOp.capInvokes ops) := by
  induction ops using List.reverseRecOn with
  | nil => exact ⟨rfl, rfl, rfl, rfl, rfl, rfl⟩
  | append_singleton ops op ih =>
    have e : docRun id (ops ++ [op]) = op.apply (docRun id ops) := by simp [docRun]
    obtain ⟨h1, h2, h3, h4, h5, h6⟩ := ih
    rw [e]
    cases op <;>
      simp [DocOp.apply, Doc.addContext, Doc.addAuthentication, Doc.addAssertion, Doc.addCapDelegate,
        Doc.addCapInvoke, DocOp.contexts, DocOp.authentications, DocOp.assertions, DocOp.capDelegates,
        DocOp.capInvokes, List.filterMap_append, h1, h2, h3, h4, h5, h6] at * <;>
      simp_all [pushOpt_append]

/-- C16: a key list is absent iff it had no call. -/
theorem C16_absent_iff (id : Str) (ops : List DocOp) :
    ((docRun id ops).authentication = none ↔ ∀ p, .authentication p ∉ ops) ∧
    ((docRun id ops).assertion = none ↔ ∀ p, .assertion p ∉ ops) ∧
    ((docRun id ops).capDelegate = none ↔ ∀ p, .capDelegate p ∉ ops) ∧
    ((docRun id ops).capInvoke = none ↔ ∀ p, .capInvoke p ∉ ops) := by
  obtain ⟨_, _, h3, h4, h5, h6⟩ := C16_builder_history id ops
  have key : ∀ l : List Primary, presentUnlessEmpty l = none ↔ l = [] := by
    intro l; cases l <;> simp [presentUnlessEmpty]
  rw [h3, h4, h5, h6]
  refine ⟨?_, ?_, ?_, ?_⟩ <;> rw [key] <;>
    simp only [DocOp.authentications, DocOp.assertions, DocOp.capDelegates, DocOp.capInvokes,
      List.filterMap_eq_nil_iff] <;>
    constructor
  all_goals first
    | (intro h p hp; have := h _ hp; simp at this)
    | (intro h a ha; cases a <;> first | rfl | exact absurd ha (h _))

/-- C16: calls on different lists commute, on every document. -/
theorem C16_commute (d : Doc) (a b : DocOp) (h : a.target ≠ b.target) :
    b.apply (a.apply d) = a.apply (b.apply d) := by
  cases a <;> cases b <;> first | rfl | exact absurd rfl h

/-- Sample key entry. -/
def toyPrimary (k : Char) : Primary :=
  { id := "did:prople:x#".toList ++ [k], controller := "did:prople:x".toList,
    verificationType := "Ed25519VerificationKey2020".toList, multibase := ['z', k] }

/-- Sample history touching every list. -/
def toyDocOps : List DocOp :=
  [.authentication (toyPrimary 'a'), .context "urn:x".toList, .assertion (toyPrimary 'b'),
   .authentication (toyPrimary 'c'), .capInvoke (toyPrimary 'd')]

example : DocOp.authentications toyDocOps = [toyPrimary 'a', toyPrimary 'c'] ∧
    (docRun "did:prople:x".toList toyDocOps).authentication = some [toyPrimary 'a', toyPrimary 'c'] ∧
    (docRun "did:prople:x".toList toyDocOps).capDelegate = none ∧
    (docRun "did:prople:x".toList toyDocOps).context = ["https://www.w3.org/ns/did/v1".toList, "urn:x".toList] := by
  decide +kernel

/-- `C16_commute`: a context and an assertion key. -/
example (d : Doc) : (DocOp.assertion (toyPrimary 'a')).apply ((DocOp.context "urn:x".toList).apply d) =
    (DocOp.context "urn:x".toList).apply ((DocOp.assertion (toyPrimary 'a')).apply d) := C16_commute _ _ _ (by decide)

/-! ### C17 -/

/-- C17: validation succeeds iff there is an id and a context. -/
theorem C17_validate_iff (d : Doc) : d.validate = .ok () ↔ d.id ≠ [] ∧ d.context ≠ [] := by
  obtain ⟨c, i, _, _, _, _⟩ := d
  cases c <;> cases i <;> simp [Doc.validate]

/-- C17: a missing id is reported before a missing context. -/
theorem C17_validate_errors (d : Doc) :
    (d.id = [] → d.validate = .error (.validateError "[doc]: missing id".toList)) ∧
    (d.id ≠ [] → d.context = [] →
      d.validate = .error (.validateError "[doc]: at least one context must be filled".toList)) := by
  obtain ⟨c, i, _, _, _, _⟩ := d
  cases c <;> cases i <;> simp [Doc.validate]

/-- C17: built documents with a non-empty id validate. -/
theorem C17_built_docs_validate (id : Str) (hid : id ≠ []) (ops : List DocOp) :
    (docRun id ops).validate = .ok () := by
  obtain ⟨h1, h2, _⟩ := C16_builder_history id ops
  rw [C17_validate_iff, h1, h2]
  exact ⟨hid, by simp⟩

/-- C17: the document of an identity validates iff the identity text is non-empty. -/
theorem C17_identity_docs_validate {E : Env} (v : Str) (ops : List (IdOp E)) :
    (idRun v ops).toDoc.validate = .ok () ↔ v ≠ [] := by
  obtain ⟨h1, h2, _⟩ := C12_document v ops
  rw [C17_validate_iff, h1, h2]
  simp

example : (idRun "did:x".toList toyOps).toDoc.validate = .ok () :=
  (C17_identity_docs_validate _ _).mpr (by decide)

example : (⟨[], [], none, none, none, none⟩ : Doc).validate = .error (.validateError "[doc]: missing id".toList) := by decide +kernel

/-- `C17_built_docs_validate`: a document after five calls. -/
example : (docRun "did:prople:x".toList toyDocOps).validate = .ok () := C17_built_docs_validate _ (by decide) _

/-! ### C18 -/

/-- C18: a document survives printing and parsing. -/
theorem C18_json_roundtrip {E : Env} (L : E.NumLaws) (d : Doc) :
    ∃ t, d.toJson E = .ok t ∧ fromSlice Doc.dec t.toBytes = some d := by
  refine ⟨⟨jsonText E d.toTree⟩, by rfl, ?_⟩
  unfold JSONValue.toBytes
  rw [fromSlice_text L]
  exact Doc.dec_toTree _ d 128 (by omega)

/-- C18: distinct documents have distinct texts. -/
theorem C18_text_injective {E : Env} (L : E.NumLaws) (d d' : Doc) (h : d.toJson E = d'.toJson E) : d = d' := by
  obtain ⟨t, h1, h2⟩ := C18_json_roundtrip L d
  obtain ⟨t', h1', h2'⟩ := C18_json_roundtrip L d'
  rw [h1, h1'] at h
  cases h
  rw [h2] at h2'
  exact Option.some.inj h2'

/-- Empty and absent lists, a quote, a control character and a non-ASCII character. -/
def toyDoc : Doc :=
  { context := [], id := ['"', Char.ofNat 1, 'é'], authentication := some [], capInvoke := none,
    capDelegate := some [toyPrimary 'q'], assertion := none }

example : ∃ t, toyDoc.toJson Toy.env = .ok t ∧ fromSlice Doc.dec t.toBytes = some toyDoc :=
  C18_json_roundtrip Toy.numLaws toyDoc

/-- `C18_text_injective`: an absent and an empty list are not written alike. -/
example : toyDoc.toJson Toy.env ≠ { toyDoc with assertion := some [] }.toJson Toy.env :=
  fun h => by simpa [toyDoc] using congrArg Doc.assertion (C18_text_injective Toy.numLaws _ _ h)

end Verif.Props
