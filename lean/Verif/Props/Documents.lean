import Verif.Lemmas.RoundTrip
import Verif.Spec.Text
import Verif.Toy

/-
C24–C27, C30, C42, C43, C45, C46: credentials, presentations, proofs and their JSON text.
-/

namespace Verif.Props
open Verif Spec

/-! ### C24 -/

/-- What a credential must have before it can be written. -/
def VCComplete {E : Env} (v : VC E) : Prop :=
  v.contexts ≠ [] ∧ v.types ≠ [] ∧ v.credentialSubject.1 ≠ .null

/-- C24: validation of a credential, error precedence included. -/
theorem C24_validate {E : Env} (v : VC E) :
    (v.validate = .ok () ↔ VCComplete v) ∧
    (v.contexts = [] → v.validate = .error (.generateVCError "vc_error: empty context".toList)) ∧
    (v.contexts ≠ [] → v.types = [] → v.validate = .error (.generateVCError "vc_error: empty types".toList)) ∧
    (v.contexts ≠ [] → v.types ≠ [] → v.credentialSubject.1 = .null →
      v.validate = .error (.generateVCError "vc_error: credential should not be null".toList)) := by
  obtain ⟨c, t, ⟨s, hs⟩, p, i, iss⟩ := v
  cases c <;> cases t <;> cases s <;> simp [VC.validate, VCComplete, VC.isNullValue]

/-- C24: JSON text and canonical text exist iff the credential validates; otherwise the validation error is
returned. -/
theorem C24_serialise_iff {E : Env} (v : VC E) :
    ((∃ t, v.toJson = .ok t) ↔ VCComplete v) ∧ ((∃ t, v.toJcs = .ok t) ↔ VCComplete v) ∧
    (∀ e, v.validate = .error e → v.toJson = .error e ∧ v.toJcs = .error e) := by
  rw [← (C24_validate v).1]
  unfold VC.toJson VC.toJcs
  cases v.validate with
  | ok u => simp
  | error e => simp

/-- A credential subject that is not null. -/
def toySubject : Value Toy.env := ⟨.obj [("a".toList, .num (.pos 1)), ("b".toList, .str ['"'])],
  by simp [Json.Sorted, Json.SortedMembers, KeysSorted, strLt]⟩

/-- A sample credential. -/
def toyVC : VC Toy.env :=
  { contexts := ["urn:c".toList], types := ["T".toList], credentialSubject := toySubject, proof := none,
    id := "urn:1".toList, issuer := "did:x".toList }

example : VCComplete toyVC := ⟨by decide, by decide, fun h => by cases h⟩
example : ¬ VCComplete (VC.new Toy.env "i".toList "j".toList) := fun h => h.1 rfl
/-- The context error wins over the others. -/
example : (VC.new Toy.env "i".toList "j".toList).toJson =
    .error (.generateVCError "vc_error: empty context".toList) := rfl

/-! ### C25 -/

/-- What a presentation must have before it can be written. -/
def VPComplete {E : Env} (v : VP E) : Prop :=
  v.contexts ≠ [] ∧ v.types ≠ [] ∧ v.verifiableCredential ≠ []

/-- C25: validation of a presentation, error precedence included. -/
theorem C25_validate {E : Env} (v : VP E) :
    (v.validate = .ok () ↔ VPComplete v) ∧
    (v.contexts = [] → v.validate = .error (.generateJSONError "vp: empty context".toList)) ∧
    (v.contexts ≠ [] → v.types = [] → v.validate = .error (.generateJSONError "vp: empty types".toList)) ∧
    (v.contexts ≠ [] → v.types ≠ [] → v.verifiableCredential = [] →
      v.validate = .error (.generateJSONError "vp: empty credentials".toList)) := by
  obtain ⟨c, t, s, p, h⟩ := v
  cases c <;> cases t <;> cases s <;> simp [VP.validate, VPComplete]

/-- C25: JSON text and canonical text exist iff the presentation validates. -/
theorem C25_serialise_iff {E : Env} (v : VP E) :
    ((∃ t, v.toJson = .ok t) ↔ VPComplete v) ∧ ((∃ t, v.toJcs = .ok t) ↔ VPComplete v) ∧
    (∀ e, v.validate = .error e → v.toJson = .error e ∧ v.toJcs = .error e) := by
  rw [← (C25_validate v).1]
  unfold VP.toJson VP.toJcs
  cases v.validate with
  | ok u => simp
  | error e => simp

/-- C25: the embedded credentials are not validated: any list of credentials, valid or not, is accepted. -/
theorem C25_embedded_not_validated {E : Env} (v : VP E) (h : VPComplete v) (cs : List (VC E)) (hne : cs ≠ []) :
    ({ v with verifiableCredential := cs }).validate = .ok () :=
  (C25_validate _).1.mpr ⟨h.1, h.2.1, hne⟩

/-- A sample presentation. -/
def toyVP : VP Toy.env :=
  { contexts := ["urn:c".toList], types := ["P".toList], verifiableCredential := [toyVC], proof := none,
    holder := some "did:h".toList }

example : VPComplete toyVP := ⟨by decide, by decide, by simp [toyVP]⟩
example : ({ toyVP with verifiableCredential := [VC.new Toy.env [] []] }).validate = .ok () :=
  C25_embedded_not_validated _ ⟨by decide, by decide, by simp [toyVP]⟩ _ (by simp)

/-! ### C26 -/

theorem survives_of_read {E : Env} (L : E.NumLaws) (v : Value E) {d : Nat} (hd : v.1.depth < d)
    (h : decValue E.floatParse d (v.1.toRaw (printNum E.floatPrint)) = some v.1) : Survives E v.1 := by
  have hs := decValue_nums _ _ h
  have hn : ∀ n ∈ v.1.nums, decNum E.floatParse (printNum E.floatPrint n) =
      some ((decNum E.floatParse (printNum E.floatPrint n)).getD n) := by
    intro n hn
    obtain ⟨m, hm⟩ := Option.isSome_iff_exists.mp (hs n hn)
    rw [hm]; rfl
  rw [decValue_toRaw v.1 (ρ := fun n => (decNum E.floatParse (printNum E.floatPrint n)).getD n) hn v.2 d hd] at h
  intro f hf
  have h1 := (Json.mapNum_eq_self v.1).mp (Option.some.inj h) _ hf
  have h2 := hn _ hf
  rw [h1, decNum_printNum L] at h2
  simp only [Option.map_eq_some_iff, Num.float.injEq] at h2
  obtain ⟨g, hg, rfl⟩ := h2
  exact hg

/-- C26: a credential survives printing and parsing when its floating point numbers do and its subject nests at most
126 containers. -/
theorem C26_json_roundtrip {E : Env} (L : E.NumLaws) (v : VC E) (hv : VCComplete v)
    (hn : Survives E v.credentialSubject.1) (hd : v.credentialSubject.1.depth ≤ 126) :
    ∃ t, v.toJson = .ok t ∧ VC.parseJsonBytes E t.toBytes = .ok v := by
  refine ⟨⟨jsonText E v.toTree⟩, ?_, ?_⟩
  · unfold VC.toJson; rw [(C24_validate v).1.mpr hv]; rfl
  · unfold VC.parseJsonBytes JSONValue.toBytes
    rw [fromSlice_text L, VC.dec_toTree v (decNum_reread L (ρ := id) hn) 128 (by omega) (by omega), rereadNum_id,
      VC.mapNum_id]

/-- C26: what is read back when the floating point numbers change (`ρ` says how) on the way. -/
theorem C26_reread {E : Env} (L : E.NumLaws) (v : VC E) (hv : VCComplete v) (ρ : E.F → E.F)
    (hn : ∀ f, Num.float f ∈ v.credentialSubject.1.nums → E.floatParse (E.floatPrint f) = some (ρ f))
    (hd : v.credentialSubject.1.depth ≤ 126) :
    ∃ t, v.toJson = .ok t ∧
      VC.parseJsonBytes E t.toBytes = .ok { v with credentialSubject := v.credentialSubject.mapNum (rereadNum E ρ) } := by
  refine ⟨⟨jsonText E v.toTree⟩, ?_, ?_⟩
  · unfold VC.toJson; rw [(C24_validate v).1.mpr hv]; rfl
  · unfold VC.parseJsonBytes JSONValue.toBytes
    rw [fromSlice_text L, VC.dec_toTree v (decNum_reread L hn) 128 (by omega) (by omega)]
    rfl

/-- C26: the condition on the numbers is needed. -/
theorem C26_exact {E : Env} (L : E.NumLaws) (v : VC E) (hv : VCComplete v) (hd : v.credentialSubject.1.depth ≤ 126) :
    (∃ t, v.toJson = .ok t ∧ VC.parseJsonBytes E t.toBytes = .ok v) ↔ Survives E v.credentialSubject.1 := by
  refine ⟨?_, fun hn => C26_json_roundtrip L v hv hn hd⟩
  rintro ⟨t, h1, h2⟩
  have ht : v.toJson = .ok ⟨jsonText E v.toTree⟩ := by unfold VC.toJson; rw [(C24_validate v).1.mpr hv]; rfl
  rw [ht] at h1
  have e := Except.ok.inj h1
  subst e
  have hp : VC.parseJsonBytes E (JSONValue.mk (jsonText E v.toTree)).toBytes =
      (match VC.dec E 128 (v.toTree.toRaw (printNum E.floatPrint)) with
        | some w => .ok w
        | none => .error (.proofGenerationError (E.msg (.vc (JSONValue.mk (jsonText E v.toTree)).toBytes)))) := by
    unfold VC.parseJsonBytes JSONValue.toBytes
    rw [fromSlice_text L]
    cases VC.dec E 128 (v.toTree.toRaw (printNum E.floatPrint)) <;> rfl
  cases hw : VC.dec E 128 (v.toTree.toRaw (printNum E.floatPrint)) with
  | none => rw [hp, hw] at h2; cases h2
  | some w =>
    rw [hp, hw] at h2
    have e : w = v := Except.ok.inj h2
    rw [e] at hw
    exact survives_of_read L v.credentialSubject (by omega) (VC.dec_subject v v 128 (by omega) hw)

/-- C26: a number whose text is refused makes the whole text unreadable. -/
theorem C26_unreadable {E : Env} (L : E.NumLaws) (v : VC E) (hv : VCComplete v) (f : E.F)
    (hf : Num.float f ∈ v.credentialSubject.1.nums) (hn : E.floatParse (E.floatPrint f) = none) :
    ∃ t m, v.toJson = .ok t ∧ VC.parseJsonBytes E t.toBytes = .error (.proofGenerationError m) := by
  refine ⟨⟨jsonText E v.toTree⟩, E.msg (.vc (JSONValue.mk (jsonText E v.toTree)).toBytes), ?_, ?_⟩
  · unfold VC.toJson; rw [(C24_validate v).1.mpr hv]; rfl
  · unfold VC.parseJsonBytes JSONValue.toBytes
    rw [fromSlice_text L]
    cases h : VC.dec E 128 (v.toTree.toRaw (printNum E.floatPrint)) with
    | none => rfl
    | some w =>
      have := decValue_nums _ _ (VC.dec_subject v w 128 (by omega) h) _ hf
      rw [decNum_printNum L] at this
      simp [hn] at this

/-- C26: with deeper nesting the text is written but cannot be read. -/
theorem C26_too_deep {E : Env} (L : E.NumLaws) (v : VC E) (hv : VCComplete v)
    (hd : 126 < v.credentialSubject.1.depth) :
    ∃ t m, v.toJson = .ok t ∧ VC.parseJsonBytes E t.toBytes = .error (.proofGenerationError m) := by
  refine ⟨⟨jsonText E v.toTree⟩, E.msg (.vc (JSONValue.mk (jsonText E v.toTree)).toBytes), ?_, ?_⟩
  · unfold VC.toJson; rw [(C24_validate v).1.mpr hv]; rfl
  · unfold VC.parseJsonBytes JSONValue.toBytes
    rw [fromSlice_text L, VC.dec_deep v 128 (by omega) (by omega)]

example : ∃ t, toyVC.toJson = .ok t ∧ VC.parseJsonBytes Toy.env t.toBytes = .ok toyVC :=
  C26_json_roundtrip Toy.numLaws toyVC ⟨by decide, by decide, fun h => by cases h⟩ (Toy.survives _)
    (by simp [toyVC, toySubject, Json.depth, Json.depthMembers])

/-- `C26_unreadable`: where 0.5 is not read at all. -/
example : ∃ t m, (⟨["c".toList], ["t".toList], ⟨.num (.float (false : Bool)), trivial⟩, none, [], []⟩ :
      VC { Toy.env with floatParse := fun _ => none }).toJson = .ok t ∧
    VC.parseJsonBytes { Toy.env with floatParse := fun _ => none } t.toBytes = .error (.proofGenerationError m) :=
  C26_unreadable (E := { Toy.env with floatParse := fun _ => none }) Toy.numLaws _ ⟨by simp, by simp, by simp⟩ (false : Bool)
    (by simp [Json.nums]) rfl

/-- A credential about the number 0.5. -/
def halfVC : VC Toy.lossy := ⟨["c".toList], ["t".toList], ⟨.num (.float (false : Bool)), trivial⟩, none, [], []⟩

/-- Where 0.5 is read as 1.5 this credential does not come back; what comes back is known. -/
example : (¬ ∃ t, halfVC.toJson = .ok t ∧ VC.parseJsonBytes Toy.lossy t.toBytes = .ok halfVC) ∧
    ∃ t, halfVC.toJson = .ok t ∧
      VC.parseJsonBytes Toy.lossy t.toBytes =
        .ok ⟨["c".toList], ["t".toList], ⟨.num (.float (true : Bool)), trivial⟩, none, [], []⟩ := by
  have hv : VCComplete halfVC := ⟨by simp [halfVC], by simp [halfVC], by simp [halfVC]⟩
  have hd : halfVC.credentialSubject.1.depth ≤ 126 := by simp [halfVC, Json.depth]
  refine ⟨fun h => ?_, C26_reread Toy.lossy_numLaws halfVC hv (fun _ => (true : Bool)) (fun _ _ => rfl) hd⟩
  have := (C26_exact Toy.lossy_numLaws halfVC hv hd).mp h (false : Bool) (by simp [halfVC, Json.nums])
  cases Option.some.inj this

/-- `n` nested arrays. -/
def nestArr {N : Type} : Nat → Json N
  | 0 => .bool true
  | n + 1 => .arr [nestArr n]

theorem nestArr_depth {N : Type} (n : Nat) : (nestArr n : Json N).depth = n := by
  induction n with
  | zero => simp [nestArr, Json.depth]
  | succ n ih => simp [nestArr, Json.depth, Json.depthList, ih]

theorem nestArr_sorted {N : Type} (n : Nat) : (nestArr n : Json N).Sorted := by
  induction n with
  | zero => simp [nestArr, Json.Sorted]
  | succ n ih => simp [nestArr, Json.Sorted, Json.SortedList, ih]

theorem nestArr_ne_null {N : Type} (n : Nat) : (nestArr n : Json N) ≠ .null := by cases n <;> simp [nestArr]

/-- A credential whose subject is `n` nested arrays. -/
def nestVC (n : Nat) : VC Toy.env := { toyVC with credentialSubject := ⟨nestArr n, nestArr_sorted n⟩ }

example : ∃ t m, (nestVC 127).toJson = .ok t ∧
    VC.parseJsonBytes Toy.env t.toBytes = .error (.proofGenerationError m) :=
  C26_too_deep Toy.numLaws _ ⟨by decide, by decide, nestArr_ne_null _⟩ (by simp [nestVC, nestArr_depth])
example : ∃ t, (nestVC 126).toJson = .ok t ∧ VC.parseJsonBytes Toy.env t.toBytes = .ok (nestVC 126) :=
  C26_json_roundtrip Toy.numLaws _ ⟨by decide, by decide, nestArr_ne_null _⟩ (Toy.survives _) (by simp [nestVC, nestArr_depth])

/-! ### C27 -/

/-- C27: a presentation survives printing and parsing when the floating point numbers in the embedded subjects do and
every embedded subject nests at most 124 containers; the embedded credentials need not validate. -/
theorem C27_json_roundtrip {E : Env} (L : E.NumLaws) (v : VP E) (hv : VPComplete v)
    (hn : ∀ c ∈ v.verifiableCredential, Survives E c.credentialSubject.1)
    (hd : ∀ c ∈ v.verifiableCredential, c.credentialSubject.1.depth ≤ 124) :
    ∃ t, v.toJson = .ok t ∧ VP.parseJsonBytes E t.toBytes = .ok v := by
  refine ⟨⟨jsonText E v.toTree⟩, ?_, ?_⟩
  · unfold VP.toJson; rw [(C25_validate v).1.mpr hv]; rfl
  · unfold VP.parseJsonBytes JSONValue.toBytes
    rw [fromSlice_text L, VP.dec_toTree v (fun c hc => decNum_reread L (ρ := id) (hn c hc)) 128 (by omega)
      (fun c hc => by have := hd c hc; omega), rereadNum_id, VP.mapNum_id]

/-- C27: the condition on the numbers is needed. -/
theorem C27_exact {E : Env} (L : E.NumLaws) (v : VP E) (hv : VPComplete v)
    (hd : ∀ c ∈ v.verifiableCredential, c.credentialSubject.1.depth ≤ 124) :
    (∃ t, v.toJson = .ok t ∧ VP.parseJsonBytes E t.toBytes = .ok v) ↔
      ∀ c ∈ v.verifiableCredential, Survives E c.credentialSubject.1 := by
  refine ⟨?_, fun hn => C27_json_roundtrip L v hv hn hd⟩
  rintro ⟨t, h1, h2⟩
  have ht : v.toJson = .ok ⟨jsonText E v.toTree⟩ := by unfold VP.toJson; rw [(C25_validate v).1.mpr hv]; rfl
  rw [ht] at h1
  have e := Except.ok.inj h1
  subst e
  have hp : VP.parseJsonBytes E (JSONValue.mk (jsonText E v.toTree)).toBytes =
      (match VP.dec E 128 (v.toTree.toRaw (printNum E.floatPrint)) with
        | some w => .ok w
        | none => .error (.proofGenerationError (E.msg (.vp (JSONValue.mk (jsonText E v.toTree)).toBytes)))) := by
    unfold VP.parseJsonBytes JSONValue.toBytes
    rw [fromSlice_text L]
    cases VP.dec E 128 (v.toTree.toRaw (printNum E.floatPrint)) <;> rfl
  cases hw : VP.dec E 128 (v.toTree.toRaw (printNum E.floatPrint)) with
  | none => rw [hp, hw] at h2; cases h2
  | some w =>
    rw [hp, hw] at h2
    have e : w = v := Except.ok.inj h2
    rw [e] at hw
    have h := VP.dec_credentials v v 128 (by omega) hw
    have key : ∀ l : List (VC E), optAll (fun c : VC E => VC.dec E (128 - 2) (c.toTree.toRaw (printNum E.floatPrint))) l
        = some l → ∀ c ∈ l, VC.dec E (128 - 2) (c.toTree.toRaw (printNum E.floatPrint)) = some c := by
      intro l
      induction l with
      | nil => simp
      | cons x l ih =>
        intro h
        simp only [optAll] at h
        split at h
        · cases h
        · rename_i y hy
          split at h
          · cases h
          · rename_i ys hys
            simp only [Option.some.injEq, List.cons.injEq] at h
            obtain ⟨rfl, rfl⟩ := h
            intro c hc
            rcases List.mem_cons.mp hc with rfl | hc
            · exact hy
            · exact ih hys c hc
    intro c hc
    exact survives_of_read L c.credentialSubject (by have := hd c hc; omega)
      (VC.dec_subject c c 126 (by omega) (key _ h c hc))

/-- C27: with a deeper embedded subject the text is written but cannot be read. -/
theorem C27_too_deep {E : Env} (L : E.NumLaws) (v : VP E) (hv : VPComplete v)
    (c : VC E) (hc : c ∈ v.verifiableCredential) (hd : 124 < c.credentialSubject.1.depth) :
    ∃ t m, v.toJson = .ok t ∧ VP.parseJsonBytes E t.toBytes = .error (.proofGenerationError m) := by
  refine ⟨⟨jsonText E v.toTree⟩, E.msg (.vp (JSONValue.mk (jsonText E v.toTree)).toBytes), ?_, ?_⟩
  · unfold VP.toJson; rw [(C25_validate v).1.mpr hv]; rfl
  · unfold VP.parseJsonBytes JSONValue.toBytes
    rw [fromSlice_text L, VP.dec_deep v 128 (by omega) c hc (by omega)]

/-- `C27_exact`: a presentation of the credential about 0.5, where that is read as 1.5. -/
example : ¬ ∃ t, (⟨["c".toList], ["t".toList], [halfVC], none, none⟩ : VP Toy.lossy).toJson = .ok t ∧
    VP.parseJsonBytes Toy.lossy t.toBytes = .ok ⟨["c".toList], ["t".toList], [halfVC], none, none⟩ := by
  rw [C27_exact Toy.lossy_numLaws _ ⟨by simp, by simp, by simp⟩ (by simp [halfVC, Json.depth])]
  intro h
  have := h halfVC (by simp) (false : Bool) (by simp [halfVC, Json.nums])
  exact Bool.noConfusion (Option.some.inj (show some true = some false from this))

/-- The second embedded credential does not validate. -/
example : ∃ t, ({ toyVP with verifiableCredential := [nestVC 124, VC.new Toy.env [] []] } : VP Toy.env).toJson = .ok t ∧
    VP.parseJsonBytes Toy.env t.toBytes =
      .ok { toyVP with verifiableCredential := [nestVC 124, VC.new Toy.env [] []] } :=
  C27_json_roundtrip Toy.numLaws _ ⟨by decide, by decide, by simp⟩ (fun _ _ => Toy.survives _) (by
    simp [nestVC, nestArr_depth, VC.new, valueNull, Json.depth])
example : ∃ t m, ({ toyVP with verifiableCredential := [toyVC, nestVC 125] } : VP Toy.env).toJson = .ok t ∧
    VP.parseJsonBytes Toy.env t.toBytes = .error (.proofGenerationError m) :=
  C27_too_deep Toy.numLaws _ ⟨by decide, by decide, by simp⟩ (nestVC 125) (by simp) (by simp [nestVC, nestArr_depth])

/-! ### C30 -/

/-- A builder call on a credential. -/
inductive VCOp (E : Env) where
  | context (c : Str)
  | type (t : Str)
  | credential (v : Value E)
  | proof (p : Proof)
  | removeProof

/-- The effect of a builder call. -/
def VCOp.apply {E : Env} (v : VC E) : VCOp E → VC E
  | .context c => v.addContext c
  | .type t => v.addType t
  | .credential c => v.setCredential c
  | .proof p => v.setProof p
  | .removeProof => v.removeProof

/-- The credential after `VC::new(id, issuer)` followed by the calls. -/
def vcRun {E : Env} (id issuer : Str) (ops : List (VCOp E)) : VC E := ops.foldl VCOp.apply (VC.new E id issuer)

/-- C30: lists hold the arguments of their own calls in order, single-valued fields the last argument given. -/
theorem C30_vc_history {E : Env} (id issuer : Str) (ops : List (VCOp E)) :
    (vcRun id issuer ops).id = id ∧ (vcRun id issuer ops).issuer = issuer ∧
    (vcRun id issuer ops).contexts = ops.filterMap (fun | .context c => some c | _ => none) ∧
    (vcRun id issuer ops).types = ops.filterMap (fun | .type t => some t | _ => none) ∧
    (vcRun id issuer ops).credentialSubject =
      ((ops.filterMap fun | .credential c => some c | _ => none).getLast?).getD ⟨.null, by simp [Json.Sorted]⟩ ∧
    (vcRun id issuer ops).proof =
      ((ops.filterMap fun | .proof p => some (some p) | .removeProof => some none | _ => none).getLast?).getD none := by
  induction ops using List.reverseRecOn with
  | nil => exact ⟨rfl, rfl, rfl, rfl, rfl, rfl⟩
  | append_singleton ops op ih =>
    have e : vcRun id issuer (ops ++ [op]) = op.apply (vcRun id issuer ops) := by simp [vcRun]
    obtain ⟨h1, h2, h3, h4, h5, h6⟩ := ih
    rw [e]
    cases op <;>
      simp [VCOp.apply, VC.addContext, VC.addType, VC.setCredential, VC.setProof, VC.removeProof,
        List.filterMap_append, h1, h2, h3, h4, h5, h6]

/-- A builder call on a presentation. -/
inductive VPOp (E : Env) where
  | context (c : Str)
  | type (t : Str)
  | credential (v : VC E)
  | proof (p : Proof)
  | holder (h : Str)
  | removeProof

/-- The effect of a builder call. -/
def VPOp.apply {E : Env} (v : VP E) : VPOp E → VP E
  | .context c => v.addContext c
  | .type t => v.addType t
  | .credential c => v.addCredential c
  | .proof p => v.addProof p
  | .holder h => v.setHolder h
  | .removeProof => v.removeProof

/-- The presentation after `VP::new()` followed by the calls. -/
def vpRun {E : Env} (ops : List (VPOp E)) : VP E := ops.foldl VPOp.apply (VP.new E)

/-- C30: the same for presentations. -/
theorem C30_vp_history {E : Env} (ops : List (VPOp E)) :
    (vpRun ops).contexts = ops.filterMap (fun | .context c => some c | _ => none) ∧
    (vpRun ops).types = ops.filterMap (fun | .type t => some t | _ => none) ∧
    (vpRun ops).verifiableCredential = ops.filterMap (fun | .credential c => some c | _ => none) ∧
    (vpRun ops).holder = (ops.filterMap fun | .holder c => some c | _ => none).getLast? ∧
    (vpRun ops).proof =
      ((ops.filterMap fun | .proof p => some (some p) | .removeProof => some none | _ => none).getLast?).getD none := by
  induction ops using List.reverseRecOn with
  | nil => exact ⟨rfl, rfl, rfl, rfl, rfl⟩
  | append_singleton ops op ih =>
    have e : vpRun (ops ++ [op]) = op.apply (vpRun ops) := by simp [vpRun]
    obtain ⟨h1, h2, h3, h4, h5⟩ := ih
    rw [e]
    cases op <;>
      simp [VPOp.apply, VP.addContext, VP.addType, VP.addCredential, VP.addProof, VP.removeProof, VP.setHolder,
        List.filterMap_append, h1, h2, h3, h4, h5]

/-- C30: `get_proof`, `setup_proof` and `remove_proof` touch only the proof of a credential. -/
theorem C30_vc_proof_slot {E : Env} (v : VC E) (p : Proof) :
    Proofable.getProof (Proofable.setupProof v p) = some p ∧
    Proofable.getProof (Proofable.removeProof v) = none ∧
    Proofable.removeProof (Proofable.setupProof v p) = Proofable.removeProof v ∧
    (Proofable.removeProof v).contexts = v.contexts ∧ (Proofable.removeProof v).types = v.types ∧
    (Proofable.removeProof v).credentialSubject = v.credentialSubject ∧ (Proofable.removeProof v).id = v.id ∧
    (Proofable.removeProof v).issuer = v.issuer :=
  ⟨rfl, rfl, rfl, rfl, rfl, rfl, rfl, rfl⟩

/-- C30: the same for presentations. -/
theorem C30_vp_proof_slot {E : Env} (v : VP E) (p : Proof) :
    Proofable.getProof (Proofable.setupProof v p) = some p ∧
    Proofable.getProof (Proofable.removeProof v) = none ∧
    Proofable.removeProof (Proofable.setupProof v p) = Proofable.removeProof v ∧
    (Proofable.removeProof v).contexts = v.contexts ∧ (Proofable.removeProof v).types = v.types ∧
    (Proofable.removeProof v).verifiableCredential = v.verifiableCredential ∧
    (Proofable.removeProof v).holder = v.holder :=
  ⟨rfl, rfl, rfl, rfl, rfl, rfl, rfl⟩

example : (vcRun "i".toList "j".toList
    [.type "A".toList, .proof (Proof.new "p".toList), .context "c".toList, .type "B".toList,
      .proof (Proof.new "q".toList)] : VC Toy.env).types = ["A".toList, "B".toList] ∧
    (vcRun "i".toList "j".toList
    [.type "A".toList, .proof (Proof.new "p".toList), .context "c".toList, .type "B".toList,
      .proof (Proof.new "q".toList)] : VC Toy.env).proof = some (Proof.new "q".toList) := by
  exact ⟨rfl, rfl⟩

/-! ### C42 -/

/-- The purposes that have a name, with their names. -/
def purposeNames : List (ProofPurpose × Str) :=
  [(.assertionMethod, "assertionMethod".toList), (.authentication, "authentication".toList),
   (.keyAgreement, "keyAgreement".toList), (.capabilityDelegation, "capabilityDelegation".toList),
   (.capabilityInvocation, "capabilityInvocation".toList)]

/-- C42: displayed text and JSON text of a purpose are its name, `unknown` for the unknown purpose, and different
purposes have different texts. -/
theorem C42_display (p : ProofPurpose) (d : Nat) :
    p.display = ((purposeNames.lookup p).getD "unknown".toList) ∧ p.serName = p.display ∧
    ProofPurpose.ofString p.display = p ∧ ProofPurpose.dec d (.str (encStr p.display)) = some p := by
  refine ⟨by cases p <;> decide, by cases p <;> rfl, by cases p <;> decide, ?_⟩
  have : p.display = p.serName := by cases p <;> rfl
  rw [this]
  exact purpose_dec p d

/-- C42: a text converts to the purpose it names; every other text converts to the unknown purpose. -/
theorem C42_of_string (s : Str) :
    (∀ p, p ≠ .unknown → (ProofPurpose.ofString s = p ↔ (p, s) ∈ purposeNames)) ∧
    (ProofPurpose.ofString s = .unknown ↔ ∀ p, (p, s) ∉ purposeNames) := by
  have hne : ∀ p, (p, s) ∈ purposeNames → p ≠ .unknown := by
    intro p h; rintro rfl; simp [purposeNames] at h
  have key : ∀ p, p ≠ .unknown → (ProofPurpose.ofString s = p ↔ (p, s) ∈ purposeNames) := by
    intro p hp
    unfold ProofPurpose.ofString
    constructor
    · intro h
      subst h
      repeat' split
      all_goals first | (simp [purposeNames, *]; done) | skip
      rename_i h1 h2 h3 h4 h5
      simp only [h1, h2, h3, h4, h5, if_false] at hp
      exact absurd rfl hp
    · intro h
      simp only [purposeNames, List.mem_cons, Prod.mk.injEq, List.not_mem_nil, or_false] at h
      rcases h with ⟨rfl, rfl⟩ | ⟨rfl, rfl⟩ | ⟨rfl, rfl⟩ | ⟨rfl, rfl⟩ | ⟨rfl, rfl⟩ <;> decide
  refine ⟨key, ?_, ?_⟩
  · intro h p hm
    have := (key p (hne p hm)).mpr hm
    exact hne p hm (this.symm.trans h)
  · intro h
    by_cases hu : ProofPurpose.ofString s = .unknown
    · exact hu
    · exact absurd ((key _ hu).mp rfl) (h _)

/-- A JSON string token is read as a purpose iff it stands for one of the six names; with the specification of string
tokens in `C42_json`. -/
theorem purpose_dec_str (d : Nat) (tok : Bytes) (p : ProofPurpose) :
    ProofPurpose.dec d (.str tok) = some p ↔
      ∃ s, decStr tok = some s ∧ ((p, s) ∈ purposeNames ∨ (p = .unknown ∧ s = "unknown".toList)) := by
  simp only [ProofPurpose.dec]
  cases decStr tok with
  | none => simp
  | some s =>
    simp only [Option.bind_some, Option.some.injEq, exists_eq_left']
    unfold ProofPurpose.ofSerName
    constructor
    · intro h
      repeat' split at h
      all_goals first | (cases h; done) | (cases h; subst s; simp [purposeNames])
    · intro h
      simp only [purposeNames, List.mem_cons, Prod.mk.injEq, List.not_mem_nil, or_false] at h
      rcases h with (⟨rfl, rfl⟩ | ⟨rfl, rfl⟩ | ⟨rfl, rfl⟩ | ⟨rfl, rfl⟩ | ⟨rfl, rfl⟩) | ⟨rfl, rfl⟩ <;> decide

example : ProofPurpose.ofString "keyAgreement".toList = .keyAgreement ∧
    ProofPurpose.ofString "KeyAgreement".toList = .unknown ∧
    ProofPurpose.dec 9 (.str (encStr "assertion".toList)) = none := by decide +kernel

/-! ### C43 -/

/-- A setter call on a proof. -/
inductive ProofOp where
  | typ (t : Str)
  | signature (s : Str)
  | purpose (p : Str)
  | method (m : Str)
  | cryptosuite (s : Str)
  | created (c : Str)
  | expires (e : Str)
  | removeProofValue

/-- The effect of a setter call. -/
def ProofOp.apply (p : Proof) : ProofOp → Proof
  | .typ t => p.setTyp t
  | .signature s => p.setSignatureAsString s
  | .purpose s => p.setPurpose s
  | .method m => p.setMethod m
  | .cryptosuite s => p.setCryptosuite s
  | .created c => p.setCreated c
  | .expires e => p.setExpires e
  | .removeProofValue => p.removeProofValue

/-- Last argument selected from a history, or the initial value. -/
def lastOr {α β : Type} (init : β) (f : α → Option β) (ops : List α) : β := ((ops.filterMap f).getLast?).getD init

theorem lastOr_append {α β : Type} (init : β) (f : α → Option β) (ops : List α) (op : α) :
    lastOr init f (ops ++ [op]) = (f op).getD (lastOr init f ops) := by
  unfold lastOr
  rw [List.filterMap_append]
  cases h : f op <;> simp [h]

/-- C43: every field holds the value of its last setter call, or its initial value. -/
theorem C43_history (p : Proof) (ops : List ProofOp) :
    ops.foldl ProofOp.apply p =
      { id := p.id
        typ := lastOr p.typ (fun | .typ t => some t | _ => none) ops
        proofPurpose := lastOr p.proofPurpose (fun | .purpose s => some (ProofPurpose.ofString s) | _ => none) ops
        proofValue := lastOr p.proofValue (fun | .signature s => some s | .removeProofValue => some [] | _ => none) ops
        verificationMethod := lastOr p.verificationMethod (fun | .method s => some s | _ => none) ops
        created := lastOr p.created (fun | .created s => some (some s) | _ => none) ops
        expires := lastOr p.expires (fun | .expires s => some (some s) | _ => none) ops
        cryptosuite := lastOr p.cryptosuite (fun | .cryptosuite s => some (some s) | _ => none) ops } := by
  induction ops using List.reverseRecOn with
  | nil => rfl
  | append_singleton ops op ih =>
    rw [List.foldl_append, ih]
    simp only [lastOr_append]
    cases op <;> rfl

/-- C43: initial values. -/
theorem C43_initial (id : Str) :
    Proof.new id = ⟨id, "DataIntegrityProof".toList, .unknown, [], [], none, none, some "eddsa-jcs-2022".toList⟩ ∧
    Proof.default = ⟨[], [], .unknown, [], [], none, none, none⟩ := ⟨rfl, rfl⟩

/-- Which field a setter writes. -/
def ProofOp.field : ProofOp → Nat
  | .typ _ => 0
  | .signature _ => 1
  | .removeProofValue => 1
  | .purpose _ => 2
  | .method _ => 3
  | .cryptosuite _ => 4
  | .created _ => 5
  | .expires _ => 6

/-- C43: setters of different fields commute. -/
theorem C43_commute (p : Proof) (a b : ProofOp) (h : a.field ≠ b.field) : b.apply (a.apply p) = a.apply (b.apply p) := by
  cases a <;> cases b <;> first | rfl | exact absurd rfl h

/-- C43: `remove_proof_value` clears the proof value and nothing else. -/
theorem C43_remove_proof_value (p : Proof) :
    p.removeProofValue.proofValue = [] ∧ ∀ v, p.removeProofValue.setSignatureAsString v = { p with proofValue := v } :=
  ⟨rfl, fun _ => rfl⟩

/-- `C43_commute`: a purpose and a signature. -/
example (p : Proof) : (ProofOp.signature "s".toList).apply ((ProofOp.purpose "authentication".toList).apply p) =
    (ProofOp.purpose "authentication".toList).apply ((ProofOp.signature "s".toList).apply p) := C43_commute _ _ _ (by decide)

example : ([.purpose "authentication".toList, .signature "s".toList, .purpose "assertionMethod".toList].foldl
    ProofOp.apply (Proof.new "i".toList)).proofPurpose = .assertionMethod := by decide +kernel

/-! ### C45 -/

/-- C45: text to bytes and back. -/
theorem C45_to_bytes (E : Env) (v : JSONValue) :
    v.toBytes = utf8 v.text ∧ JSONValue.tryFrom E v.toBytes = .ok v := by
  refine ⟨(utf8_eq _).symm, ?_⟩
  simp [JSONValue.tryFrom, JSONValue.toBytes, utf8Decode_encode]

/-- C45: bytes are accepted iff they are valid UTF-8, and are then returned unchanged. -/
theorem C45_try_from (E : Env) (b : Bytes) :
    (∀ v, JSONValue.tryFrom E b = .ok v ↔ b = utf8 v.text) ∧
    ((∀ s, b ≠ utf8 s) → ∃ m, JSONValue.tryFrom E b = .error (.invalidJSONBytes m)) := by
  have key : ∀ v, JSONValue.tryFrom E b = .ok v ↔ b = utf8 v.text := by
    intro v
    rw [utf8_eq]
    unfold JSONValue.tryFrom
    cases h : utf8Decode b with
    | none =>
      simp only [reduceCtorEq, false_iff]
      rintro rfl
      rw [utf8Decode_encode] at h; cases h
    | some s =>
      have := utf8Encode_decode h
      simp only [Except.ok.injEq]
      constructor
      · rintro rfl; exact this.symm
      · intro e
        have : s = v.text := utf8Encode_injective (this.trans e)
        subst this; rfl
  refine ⟨key, ?_⟩
  intro h
  cases hd : JSONValue.tryFrom E b with
  | ok v => exact absurd ((key v).mp hd) (h _)
  | error e =>
    unfold JSONValue.tryFrom at hd
    split at hd
    · cases hd
    · cases hd; exact ⟨_, rfl⟩

example : JSONValue.tryFrom Toy.env [0xc3, 0xa9] = .ok ⟨['é']⟩ :=
  ((C45_try_from Toy.env _).1 _).mpr (by decide +kernel)
example : JSONValue.tryFrom Toy.env [0xc3] = .error (.invalidJSONBytes "dependency error".toList) := by decide +kernel

/-! ### C46 -/

/-- Number-free JSON objects need no number laws; the text of a connection credential reads back. -/
theorem C46_json_roundtrip {E : Env} (L : E.NumLaws) (p : UserConnectionCredential) :
    ∃ t, p.toJson E = .ok t ∧ fromSlice UserConnectionCredential.dec t.toBytes = some p := by
  refine ⟨⟨jsonText E p.toTree⟩, by rfl, ?_⟩
  unfold JSONValue.toBytes
  rw [fromSlice_text L]
  exact UserConnectionCredential.dec_toTree _ p 128 (by omega)

/-- C46: the default connection credential names the vocabulary terms of its two properties. -/
theorem C46_default : UserConnectionCredential.default = ⟨⟨{
    userAgentAddress := "https://schema.org/identifier".toList
    userDid := "https://www.w3.org/2018/credentials/#VerifiableCredential".toList }⟩⟩ := rfl

example : ∃ t, UserConnectionCredential.default.toJson Toy.env = .ok t ∧
    fromSlice UserConnectionCredential.dec t.toBytes = some .default :=
  C46_json_roundtrip Toy.numLaws _

end Verif.Props
