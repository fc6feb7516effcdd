import Verif.Props.Accept
import Verif.Spec.Order

/-
C63: member orders.
-/

namespace Verif.Props
open Verif Spec

/-! ### C63 -/

/-- C63: the member order of RFC 8785 and the order of code points satisfy the laws assumed of the order. -/
theorem C63_laws {E : Env} (L : E.JcsLaws) : (E.withOrder unitLe).JcsLaws ∧ (E.withOrder pointLe).JcsLaws :=
  ⟨⟨L.num_tok, fun _ _ => lexLe_total _ _, fun _ _ _ => lexLe_trans _ _ _,
      fun _ _ h h' => units_inj (lexLe_antisymm _ _ h h')⟩,
    ⟨L.num_tok, fun _ _ => lexLe_total _ _, fun _ _ _ => lexLe_trans _ _ _,
      fun _ _ h h' => points_inj (lexLe_antisymm _ _ h h')⟩⟩

/-- C63: the order of UTF-8 bytes (of Rust's `String`, hence of `BTreeMap<String, _>`) is the order of code points. -/
theorem C63_bytes (a b : Str) : byteLe a b = pointLe a b := bytes_order a b

/-- C63: so is the member order of the modelled `serde_json::Value`. -/
theorem C63_value_order (a b : Str) : strLt a b = true ↔ byteLe a b = true ∧ a ≠ b := by
  rw [C63_bytes]
  unfold pointLe
  induction a generalizing b with
  | nil => cases b <;> simp [strLt, lexLe]
  | cons c a ih =>
    cases b with
    | nil => simp [strLt, lexLe]
    | cons d b =>
      simp only [strLt, List.map_cons, lexLe, Bool.or_eq_true, Bool.and_eq_true, decide_eq_true_eq, beq_iff_eq, ih b, ne_eq,
        List.cons.injEq, not_and]
      constructor
      · rintro (h | ⟨rfl, h, h'⟩)
        · exact ⟨.inl h, fun e => by subst e; omega⟩
        · exact ⟨.inr ⟨rfl, h⟩, fun _ => h'⟩
      · rintro ⟨h | ⟨h, h'⟩, hn⟩
        · exact .inl h
        · have := toNat_inj h
          exact .inr ⟨this, h', hn this⟩

/-- C63: the orders of UTF-16 code units and of code points agree on names without supplementary characters, and on
names without characters from U+E000 to U+FFFF. -/
theorem C63_agree {a b : Str} (h : (Basic a ∧ Basic b) ∨ (NoUpper a ∧ NoUpper b)) : unitLe a b = pointLe a b :=
  units_order h

/-- C63: the condition is sharp. -/
theorem C63_disagree (c d : Char) (hc : 0xE000 ≤ c.toNat) (hc' : c.toNat < 0x10000) (hd : 0x10000 ≤ d.toNat) (s t : Str) :
    pointLe (c :: s) (d :: t) = true ∧ unitLe (c :: s) (d :: t) = false := by
  have := char_bounds d
  constructor
  · simp only [pointLe, List.map_cons, lexLe, Bool.or_eq_true, decide_eq_true_eq]
    exact .inl (by omega)
  · simp only [unitLe, List.flatMap_cons, utf16Units, if_pos hc', if_neg (show ¬ d.toNat < 0x10000 by omega),
      List.cons_append, List.nil_append, lexLe, Bool.or_eq_false_iff, Bool.and_eq_false_iff, decide_eq_false_iff_not]
    exact ⟨by omega, .inl (by omega)⟩

theorem object_names {N : Type} {P : Str → Prop} (l : List (String × Option (Json N)))
    (h : ∀ x ∈ l, P x.1.toList ∧ ∀ v, x.2 = some v → AllNames P v) : AllNames P (object l) := by
  unfold object
  simp only [AllNames]
  rw [allNamesMembers_iff]
  intro m hm
  obtain ⟨x, hx, e⟩ := List.mem_filterMap.mp hm
  obtain ⟨v, hv, rfl⟩ := Option.map_eq_some_iff.mp e
  exact ⟨(h x hx).1, (h x hx).2 v hv⟩

theorem elems_names {N : Type} {P : Str → Prop} (l : List (Json N)) (h : ∀ x ∈ l, AllNames P x) :
    AllNames P (.arr l : Json N) := by
  simp only [AllNames]
  induction l with
  | nil => trivial
  | cons x l ih => exact ⟨h x (by simp), ih fun y hy => h y (by simp [hy])⟩

theorem strings_names {N : Type} {P : Str → Prop} (l : List Str) : AllNames P (strings l : Json N) := by
  refine elems_names _ fun x hx => ?_
  obtain ⟨s, _, rfl⟩ := List.mem_map.mp hx
  trivial

theorem proof_names {N : Type} {P : Str → Prop} (hP : ∀ s : Str, (∀ c ∈ s, c.toNat < 0x80) → P s) (p : Proof) :
    AllNames P (proofObject p : Json N) := by
  refine object_names _ fun x hx => ?_
  simp only [List.mem_cons, List.not_mem_nil, or_false] at hx
  rcases hx with rfl | rfl | rfl | rfl | rfl | rfl | rfl | rfl <;> refine ⟨hP _ (by simp only; decide), fun v hv => ?_⟩ <;>
    simp only [Option.some.injEq, Option.map_eq_some_iff] at hv
  all_goals first
    | (subst hv; trivial)
    | (obtain ⟨_, _, rfl⟩ := hv; trivial)

/-- The names of the credential's own members and of its proof are plain. -/
theorem vc_names {E : Env} {P : Str → Prop} (hP : ∀ s : Str, (∀ c ∈ s, c.toNat < 0x80) → P s) (v : VC E)
    (hs : AllNames P v.credentialSubject.1) : AllNames P (vcObject v) := by
  refine object_names _ fun x hx => ?_
  simp only [List.mem_cons, List.not_mem_nil, or_false] at hx
  rcases hx with rfl | rfl | rfl | rfl | rfl | rfl <;> refine ⟨hP _ (by simp only; decide), fun w hw => ?_⟩ <;>
    simp only [Option.some.injEq, Option.map_eq_some_iff] at hw
  · subst hw; exact strings_names _
  · subst hw; exact strings_names _
  · subst hw; exact hs
  · obtain ⟨_, _, rfl⟩ := hw; exact proof_names hP _
  · subst hw; trivial
  · subst hw; trivial

theorem vp_names {E : Env} {P : Str → Prop} (hP : ∀ s : Str, (∀ c ∈ s, c.toNat < 0x80) → P s) (v : VP E)
    (hs : ∀ c ∈ v.verifiableCredential, AllNames P c.credentialSubject.1) : AllNames P (vpObject v) := by
  refine object_names _ fun x hx => ?_
  simp only [List.mem_cons, List.not_mem_nil, or_false] at hx
  rcases hx with rfl | rfl | rfl | rfl | rfl <;> refine ⟨hP _ (by simp only; decide), fun w hw => ?_⟩ <;>
    simp only [Option.some.injEq, Option.map_eq_some_iff] at hw
  · subst hw; exact strings_names _
  · subst hw; exact strings_names _
  · subst hw
    refine elems_names _ fun x hx => ?_
    obtain ⟨c, hc, rfl⟩ := List.mem_map.mp hx
    exact vc_names hP c (hs c hc)
  · obtain ⟨_, _, rfl⟩ := hw; exact proof_names hP _
  · obtain ⟨_, _, rfl⟩ := hw; trivial

/-- Names on which the orders agree. -/
def Plain {E : Env} (j : Json (Num E.F)) : Prop := AllNames Basic j ∨ AllNames NoUpper j

theorem canonical_agree {E : Env} (j : Json (Num E.F)) (h : Plain (E := E) j) :
    canonicalText (E.withOrder unitLe) j = canonicalText (E.withOrder pointLe) j := by
  unfold canonicalText
  rcases h with h | h
  · rw [sortKeys_congr (le := (E.withOrder unitLe).keyLe) (le' := (E.withOrder pointLe).keyLe)
      (fun a b ha hb => C63_agree (.inl ⟨ha, hb⟩)) j h]
  · rw [sortKeys_congr (le := (E.withOrder unitLe).keyLe) (le' := (E.withOrder pointLe).keyLe)
      (fun a b ha hb => C63_agree (.inr ⟨ha, hb⟩)) j h]

/-- The same credential under another member order. -/
def moveVC {E : Env} (le : Str → Str → Bool) (v : VC E) : VC (E.withOrder le) :=
  ⟨v.contexts, v.types, v.credentialSubject, v.proof, v.id, v.issuer⟩

/-- The same presentation under another member order. -/
def moveVP {E : Env} (le : Str → Str → Bool) (v : VP E) : VP (E.withOrder le) :=
  ⟨v.contexts, v.types, v.verifiableCredential.map (moveVC le), v.proof, v.holder⟩

theorem vc_bytes_agree {E : Env} (v : VC E)
    (h : AllNames Basic v.credentialSubject.1 ∨ AllNames NoUpper v.credentialSubject.1) :
    vcBytes (moveVC unitLe v) = vcBytes (moveVC pointLe v) := by
  have hp : Plain (E := E) (vcObject v) := by
    rcases h with h | h
    · exact .inl (vc_names (fun s hs c hc => by have := hs c hc; omega) v h)
    · exact .inr (vc_names (fun s hs c hc => by have := hs c hc; omega) v h)
  exact congrArg utf8 (canonical_agree (E := E) (vcObject v) hp)

theorem vp_object_move {E : Env} (le : Str → Str → Bool) (v : VP E) :
    vpObject (moveVP le v) = (vpObject v : Json (Num E.F)) := by
  unfold vpObject moveVP
  simp only [List.map_map]
  rfl

theorem vp_bytes_agree {E : Env} (v : VP E)
    (h : (∀ c ∈ v.verifiableCredential, AllNames Basic c.credentialSubject.1) ∨
      ∀ c ∈ v.verifiableCredential, AllNames NoUpper c.credentialSubject.1) :
    vpBytes (moveVP unitLe v) = vpBytes (moveVP pointLe v) := by
  have hp : Plain (E := E) (vpObject v) := by
    rcases h with h | h
    · exact .inl (vp_names (fun s hs c hc => by have := hs c hc; omega) v h)
    · exact .inr (vp_names (fun s hs c hc => by have := hs c hc; omega) v h)
  unfold vpBytes
  rw [vp_object_move, vp_object_move]
  exact congrArg utf8 (canonical_agree (E := E) (vpObject v) hp)

theorem options_agree {E : Env} (p : Proof) :
    optionBytes (E.withOrder unitLe) p = optionBytes (E.withOrder pointLe) p :=
  congrArg utf8 (canonical_agree (E := E) (proofObject p) (.inl (proof_names (fun s hs c hc => by have := hs c hc; omega) p)))

/-- C63: if the names inside the subject are such names, the two orders give the same signatures. -/
theorem C63_sign_vc {E : Env} (L : E.JcsLaws) (kp : E.EdKP) (v : VC E) (opts : Proof)
    (h : AllNames Basic v.credentialSubject.1 ∨ AllNames NoUpper v.credentialSubject.1) (out : VC E) :
    sign (E.withOrder unitLe) (VC _) kp (moveVC unitLe v) opts = .ok (moveVC unitLe out) ↔
      sign (E.withOrder pointLe) (VC _) kp (moveVC pointLe v) opts = .ok (moveVC pointLe out) := by
  rw [(C32_vc (C63_laws L).1 _ _ _).1, (C32_vc (C63_laws L).2 _ _ _).1, vc_bytes_agree v h, options_agree]
  obtain ⟨c, t, s, p, i, iss⟩ := out
  constructor
  · rintro ⟨h1, h2, h3, text, h4, h5⟩
    exact ⟨⟨h1.1, h1.2, h1.3⟩, h2, h3, text, h4, by simpa [moveVC] using h5⟩
  · rintro ⟨h1, h2, h3, text, h4, h5⟩
    exact ⟨⟨h1.1, h1.2, h1.3⟩, h2, h3, text, h4, by simpa [moveVC] using h5⟩

theorem decVal_val {E : Env} (d : Nat) (r : Raw) : (decVal' E d r).map Subtype.val = decValue E.floatParse d r := by
  unfold decVal'
  split
  · rename_i j hj; exact hj.symm
  · rename_i hj; exact hj.symm

theorem decVal_move {E : Env} (le : Str → Str → Bool) (d : Nat) (r : Raw) :
    (decVal' (E.withOrder le) d r : Option (Value E)) = decVal' E d r :=
  Option.map_injective Subtype.val_injective ((decVal_val (E := E.withOrder le) d r).trans (decVal_val (E := E) d r).symm)

theorem vc_dec_move {E : Env} (le : Str → Str → Bool) (d : Nat) (r : Raw) :
    VC.dec (E.withOrder le) d r = (VC.dec E d r).map (moveVC le) := by
  unfold VC.dec
  have e : (decVal' (E.withOrder le) (d - 1) : Raw → Option (Value E)) = decVal' E (d - 1) :=
    funext fun r => decVal_move le (d - 1) r
  cases structFields VC.fieldNames d r with
  | none => rfl
  | some fs =>
    simp only [bind]
    cases reqField fs "@context".toList (decVec (fun _ => decString) (d - 1)) with
    | none => rfl
    | some a =>
      cases reqField fs "type".toList (decVec (fun _ => decString) (d - 1)) with
      | none => rfl
      | some b =>
        simp only [Option.bind_some]
        have e' : (reqField fs "credentialSubject".toList (decVal' (E.withOrder le) (d - 1)) : Option (Value E)) =
            reqField fs "credentialSubject".toList (decVal' E (d - 1)) := by rw [← e]
        generalize reqField fs "credentialSubject".toList (decVal' E (d - 1)) = x at e'
        have e2 := e'
        subst e2
        cases hx : reqField fs "credentialSubject".toList (decVal' (E.withOrder le) (d - 1)) with
        | none => rfl
        | some x =>
          cases optField fs "proof".toList (Proof.dec (d - 1)) with
          | none => rfl
          | some p =>
            cases reqField fs "id".toList decString with
            | none => rfl
            | some i => cases reqField fs "issuer".toList decString <;> rfl

theorem optAll_map {α β : Type} {f : Raw → Option α} {g : Raw → Option β} {m : α → β} (h : ∀ r, g r = (f r).map m) :
    ∀ xs, optAll g xs = (optAll f xs).map (List.map m)
  | [] => rfl
  | x :: xs => by
    simp only [optAll, h, optAll_map h xs]
    cases f x with
    | none => rfl
    | some a => cases optAll f xs <;> rfl

theorem vp_dec_move {E : Env} (le : Str → Str → Bool) (d : Nat) (r : Raw) :
    VP.dec (E.withOrder le) d r = (VP.dec E d r).map (moveVP le) := by
  unfold VP.dec
  have e : ∀ r, decVec (VC.dec (E.withOrder le)) (d - 1) r = (decVec (VC.dec E) (d - 1) r).map (List.map (moveVC le)) := by
    intro r
    cases r <;> simp only [decVec, Option.map_none]
    split
    · rfl
    · exact optAll_map (fun r => vc_dec_move le _ r) _
  cases structFields VP.fieldNames d r with
  | none => rfl
  | some fs =>
    simp only [bind]
    cases reqField fs "@context".toList (decVec (fun _ => decString) (d - 1)) with
    | none => rfl
    | some a =>
      cases reqField fs "type".toList (decVec (fun _ => decString) (d - 1)) with
      | none => rfl
      | some b =>
        simp only [Option.bind_some]
        have e' : reqField fs "verifiableCredential".toList (decVec (VC.dec (E.withOrder le)) (d - 1)) =
            (reqField fs "verifiableCredential".toList (decVec (VC.dec E) (d - 1))).map (List.map (moveVC le)) := by
          unfold reqField
          cases fs.lookup "verifiableCredential".toList with
          | none => rfl
          | some r => exact e r
        rw [e']
        cases reqField fs "verifiableCredential".toList (decVec (VC.dec E) (d - 1)) with
        | none => rfl
        | some x =>
          simp only [Option.map_some, Option.bind_some]
          cases optField fs "proof".toList (Proof.dec (d - 1)) with
          | none => rfl
          | some p => cases optField fs "holder".toList decString <;> rfl

theorem moveVC_inj {E : Env} {le : Str → Str → Bool} {v w : VC E} (h : moveVC le v = moveVC le w) : v = w := by
  obtain ⟨a, b, c, d, e, f⟩ := v
  obtain ⟨a', b', c', d', e', f'⟩ := w
  simpa [moveVC] using h

theorem moveVP_inj {E : Env} {le : Str → Str → Bool} {v w : VP E} (h : moveVP le v = moveVP le w) : v = w := by
  obtain ⟨a, b, c, d, e⟩ := v
  obtain ⟨a', b', c', d', e'⟩ := w
  simp only [moveVP, VP.mk.injEq] at h
  obtain ⟨rfl, rfl, h, rfl, rfl⟩ := h
  rw [List.map_injective_iff.mpr (fun _ _ => moveVC_inj) h]

theorem vc_parse_move {E : Env} (le : Str → Str → Bool) (bs : Bytes) (v : VC E) :
    VC.parseJsonBytes (E.withOrder le) bs = .ok (moveVC le v) ↔ VC.parseJsonBytes E bs = .ok v := by
  unfold VC.parseJsonBytes fromSlice
  cases Raw.parse bs with
  | none => simp
  | some r =>
    simp only [vc_dec_move]
    cases VC.dec E 128 r with
    | none => simp
    | some w =>
      simp only [Option.map_some, Except.ok.injEq]
      exact ⟨moveVC_inj, fun h => by rw [h]⟩

theorem vp_parse_move {E : Env} (le : Str → Str → Bool) (bs : Bytes) (v : VP E) :
    VP.parseJsonBytes (E.withOrder le) bs = .ok (moveVP le v) ↔ VP.parseJsonBytes E bs = .ok v := by
  unfold VP.parseJsonBytes fromSlice
  cases Raw.parse bs with
  | none => simp
  | some r =>
    simp only [vp_dec_move]
    cases VP.dec E 128 r with
    | none => simp
    | some w =>
      simp only [Option.map_some, Except.ok.injEq]
      exact ⟨moveVP_inj, fun h => by rw [h]⟩

/-- What acceptance means under an order, without the result. -/
theorem accepted_vc_iff {E : Env} (L : E.JcsLaws) (pub : E.EdPub) (bs : Bytes) (purpose : ProofPurpose) (v : VC E) :
    AcceptedVC pub bs purpose v ↔ VC.parseJsonBytes E bs = .ok v ∧ ∃ p, v.proof = some p ∧ GoodOptions E p ∧
      p.proofPurpose = purpose ∧ purpose ≠ .unknown ∧ VCComplete v ∧
      Accepts E pub (message E (optionBytes E (unvalued p)) (vcBytes (unsignedVC v))) p.proofValue := by
  constructor
  · rintro ⟨h, r, h1, h2⟩
    obtain ⟨w, p, a1, a2, a3, a4, a5, a6, a7, _⟩ := (C33_vc L pub bs purpose r).mp ⟨h1, h2⟩
    rw [h] at a1; cases a1
    exact ⟨h, p, a2, a3, a4, a5, a6, a7⟩
  · rintro ⟨h, p, a2, a3, a4, a5, a6, a7⟩
    exact ⟨h, _, (C33_vc L pub bs purpose _).mpr ⟨v, p, h, a2, a3, a4, a5, a6, a7, rfl⟩⟩

theorem accepted_vp_iff {E : Env} (L : E.JcsLaws) (pub : E.EdPub) (bs : Bytes) (purpose : ProofPurpose) (v : VP E) :
    AcceptedVP pub bs purpose v ↔ VP.parseJsonBytes E bs = .ok v ∧ ∃ p, v.proof = some p ∧ GoodOptions E p ∧
      p.proofPurpose = purpose ∧ purpose ≠ .unknown ∧ VPComplete v ∧
      Accepts E pub (message E (optionBytes E (unvalued p)) (vpBytes (unsignedVP v))) p.proofValue := by
  constructor
  · rintro ⟨h, r, h1, h2⟩
    obtain ⟨w, p, a1, a2, a3, a4, a5, a6, a7, _⟩ := (C33_vp L pub bs purpose r).mp ⟨h1, h2⟩
    rw [h] at a1; cases a1
    exact ⟨h, p, a2, a3, a4, a5, a6, a7⟩
  · rintro ⟨h, p, a2, a3, a4, a5, a6, a7⟩
    exact ⟨h, _, (C33_vp L pub bs purpose _).mpr ⟨v, p, h, a2, a3, a4, a5, a6, a7, rfl⟩⟩

theorem multibase_move {E : Env} (le : Str → Str → Bool) (b : MBase) (bytes : Bytes) (t : Str) :
    IsMultibase (E.withOrder le) b bytes t ↔ IsMultibase E b bytes t := by
  constructor <;> intro h <;> cases h
  · exact .base58 (by assumption)
  · exact .base16 (by assumption)
  · exact .base16Any (by assumption) (by assumption)
  · exact .other (by assumption) (by assumption)
  · exact .base58 (by assumption)
  · exact .base16 (by assumption)
  · exact .base16Any (by assumption) (by assumption)
  · exact .other (by assumption) (by assumption)

theorem accepts_move {E : Env} (le : Str → Str → Bool) (pub : E.EdPub) (m : Bytes) (t : Str) :
    Accepts (E.withOrder le) pub m t ↔ Accepts E pub m t := by
  constructor
  · rintro ⟨b, sig, hex, h1, h2, h3⟩; exact ⟨b, sig, hex, (multibase_move le _ _ _).mp h1, h2, h3⟩
  · rintro ⟨b, sig, hex, h1, h2, h3⟩; exact ⟨b, sig, hex, (multibase_move le _ _ _).mpr h1, h2, h3⟩

/-- C63: and the same verdicts, whatever the received bytes. -/
theorem C63_verify_vc {E : Env} (L : E.JcsLaws) (pub : E.EdPub) (bs : Bytes) (purpose : ProofPurpose) (v : VC E)
    (h : AllNames Basic v.credentialSubject.1 ∨ AllNames NoUpper v.credentialSubject.1) :
    AcceptedVC (E := E.withOrder unitLe) pub bs purpose (moveVC unitLe v) ↔
      AcceptedVC (E := E.withOrder pointLe) pub bs purpose (moveVC pointLe v) := by
  rw [accepted_vc_iff (C63_laws L).1, accepted_vc_iff (C63_laws L).2, vc_parse_move, vc_parse_move]
  have e : vcBytes (unsignedVC (moveVC unitLe v)) = vcBytes (unsignedVC (moveVC pointLe v)) :=
    vc_bytes_agree (unsignedVC v) h
  simp only [accepts_move, options_agree, e]
  constructor
  · rintro ⟨h, p, a2, a3, a4, a5, a6, a7⟩
    exact ⟨h, p, a2, ⟨a3.1, a3.2, a3.3⟩, a4, a5, a6, a7⟩
  · rintro ⟨h, p, a2, a3, a4, a5, a6, a7⟩
    exact ⟨h, p, a2, ⟨a3.1, a3.2, a3.3⟩, a4, a5, a6, a7⟩

theorem vp_complete_move {E : Env} (le : Str → Str → Bool) (v : VP E) : VPComplete (moveVP le v) ↔ VPComplete v := by
  simp [VPComplete, moveVP]

/-- C63: the same for presentations. -/
theorem C63_sign_vp {E : Env} (L : E.JcsLaws) (kp : E.EdKP) (v : VP E) (opts : Proof)
    (h : (∀ c ∈ v.verifiableCredential, AllNames Basic c.credentialSubject.1) ∨
      ∀ c ∈ v.verifiableCredential, AllNames NoUpper c.credentialSubject.1) (out : VP E) :
    sign (E.withOrder unitLe) (VP _) kp (moveVP unitLe v) opts = .ok (moveVP unitLe out) ↔
      sign (E.withOrder pointLe) (VP _) kp (moveVP pointLe v) opts = .ok (moveVP pointLe out) := by
  rw [(C32_vp (C63_laws L).1 _ _ _).1, (C32_vp (C63_laws L).2 _ _ _).1, vp_bytes_agree v h, options_agree,
    vp_complete_move, vp_complete_move]
  obtain ⟨c, t, s, p, hd⟩ := out
  have inj : ∀ le, Function.Injective (List.map (moveVC (E := E) le)) := fun le =>
    List.map_injective_iff.mpr fun _ _ => moveVC_inj
  constructor
  · rintro ⟨h1, h2, h3, text, h4, h5⟩
    refine ⟨⟨h1.1, h1.2, h1.3⟩, h2, h3, text, h4, ?_⟩
    simp only [moveVP, VP.mk.injEq] at h5 ⊢
    obtain ⟨a, b, c, d⟩ := h5
    exact ⟨a, b, congrArg _ (inj _ c), d⟩
  · rintro ⟨h1, h2, h3, text, h4, h5⟩
    refine ⟨⟨h1.1, h1.2, h1.3⟩, h2, h3, text, h4, ?_⟩
    simp only [moveVP, VP.mk.injEq] at h5 ⊢
    obtain ⟨a, b, c, d⟩ := h5
    exact ⟨a, b, congrArg _ (inj _ c), d⟩

/-- C63: the same for presentations. -/
theorem C63_verify_vp {E : Env} (L : E.JcsLaws) (pub : E.EdPub) (bs : Bytes) (purpose : ProofPurpose) (v : VP E)
    (h : (∀ c ∈ v.verifiableCredential, AllNames Basic c.credentialSubject.1) ∨
      ∀ c ∈ v.verifiableCredential, AllNames NoUpper c.credentialSubject.1) :
    AcceptedVP (E := E.withOrder unitLe) pub bs purpose (moveVP unitLe v) ↔
      AcceptedVP (E := E.withOrder pointLe) pub bs purpose (moveVP pointLe v) := by
  rw [accepted_vp_iff (C63_laws L).1, accepted_vp_iff (C63_laws L).2, vp_parse_move, vp_parse_move, vp_complete_move,
    vp_complete_move]
  have e : vpBytes (unsignedVP (moveVP unitLe v)) = vpBytes (unsignedVP (moveVP pointLe v)) :=
    vp_bytes_agree (unsignedVP v) h
  simp only [accepts_move, options_agree, e]
  constructor
  · rintro ⟨h, p, a2, a3, a4, a5, a6, a7⟩
    exact ⟨h, p, a2, ⟨a3.1, a3.2, a3.3⟩, a4, a5, a6, a7⟩
  · rintro ⟨h, p, a2, a3, a4, a5, a6, a7⟩
    exact ⟨h, p, a2, ⟨a3.1, a3.2, a3.3⟩, a4, a5, a6, a7⟩

/-- A credential on which the orders disagree: its subject has members named by the private use character U+E000 and
by the supplementary character U+10000. -/
def splitVC : VC Toy.env :=
  ⟨["c".toList], ["t".toList], ⟨.obj [([Char.ofNat 0xE000], .bool true), ([Char.ofNat 0x10000], .bool false)],
    by simp [Json.Sorted, Json.SortedMembers, KeysSorted]; decide⟩, none, "i".toList, "s".toList⟩

/-- C63: outside the condition two implementations of the cryptosuite may sign different bytes. -/
theorem C63_bytes_differ : VCComplete splitVC ∧ vcBytes (moveVC unitLe splitVC) ≠ vcBytes (moveVC pointLe splitVC) :=
  ⟨⟨by decide, by decide, nofun⟩, by decide +kernel⟩

/-! ### Examples -/

theorem toySubject_basic : AllNames Basic toyVC.credentialSubject.1 := by
  simp [toyVC, toySubject, AllNames, AllNamesMembers, Basic]

/-- `C63_agree` and `C63_disagree`: two names in one order, and two whose order depends on what is compared. -/
example : unitLe "a".toList [Char.ofNat 0xE000] = pointLe "a".toList [Char.ofNat 0xE000] ∧
    pointLe [Char.ofNat 0xE000] [Char.ofNat 0x1F600] = true ∧ unitLe [Char.ofNat 0xE000] [Char.ofNat 0x1F600] = false := by
  refine ⟨C63_agree (.inl ⟨?_, ?_⟩), C63_disagree _ _ (by decide) (by decide) (by decide) [] []⟩ <;> intro c hc <;> simp at hc <;> subst hc <;>
    decide

/-- The toy credential is signed and accepted under both orders. -/
example : ∃ out : VC Toy.env,
    sign (Toy.env.withOrder unitLe) (VC _) (7 : UInt8) (moveVC unitLe toyVC) toyProof = .ok (moveVC unitLe out) ∧
    sign (Toy.env.withOrder pointLe) (VC _) (7 : UInt8) (moveVC pointLe toyVC) toyProof = .ok (moveVC pointLe out) := by
  have h := ((C32_vc (C63_laws Toy.jcsLaws).1 (7 : UInt8) (moveVC unitLe toyVC) toyProof).1 (moveVC unitLe
    ⟨toyVC.contexts, toyVC.types, toyVC.credentialSubject, some ⟨toyProof.id, toyProof.typ, toyProof.proofPurpose,
      multibaseEncode58 _, toyProof.verificationMethod, toyProof.created, toyProof.expires, toyProof.cryptosuite⟩,
      toyVC.id, toyVC.issuer⟩)).mpr
    ⟨⟨toyProof_good.1, toyProof_good.2, toyProof_good.3⟩, by decide, toyVC_complete, _, multibaseEncode58_spec _, rfl⟩
  exact ⟨_, h, (C63_sign_vc Toy.jcsLaws (7 : UInt8) toyVC toyProof (.inl toySubject_basic) _).mp h⟩

example : Basic "a".toList ∧ Basic [Char.ofNat 0xE000] ∧ NoUpper [Char.ofNat 0x1F600] ∧ NoUpper "a".toList := by
  refine ⟨?_, ?_, ?_, ?_⟩ <;> intro c hc <;> simp at hc <;> subst hc <;> decide

example : ∃ (v : VC Toy.env) (bs : Bytes),
    AcceptedVC (E := Toy.env.withOrder unitLe) (7 : UInt8) bs .assertionMethod (moveVC unitLe v) ∧
    AcceptedVC (E := Toy.env.withOrder pointLe) (7 : UInt8) bs .assertionMethod (moveVC pointLe v) := by
  obtain ⟨t, _, h⟩ := accepted_vc (E := Toy.env.withOrder unitLe) (C63_laws Toy.jcsLaws).1 Toy.numLaws
    ⟨Toy.edLaws.1, Toy.edLaws.2⟩ (7 : UInt8) (moveVC unitLe toyVC) toyProof toyVC_complete (Toy.survives _)
    (by simp [moveVC, toyVC, toySubject, Json.depth, Json.depthMembers])
    ⟨toyProof_good.1, toyProof_good.2, toyProof_good.3⟩ (by decide) .base58Btc _ (.base58 (multibaseEncode58_spec _))
  refine ⟨⟨toyVC.contexts, toyVC.types, toyVC.credentialSubject, some _, toyVC.id, toyVC.issuer⟩, t.toBytes, h,
    (C63_verify_vc (E := Toy.env) Toy.jcsLaws (7 : UInt8) t.toBytes .assertionMethod
      ⟨toyVC.contexts, toyVC.types, toyVC.credentialSubject, some _, toyVC.id, toyVC.issuer⟩ (.inl toySubject_basic)).mp h⟩

theorem toyVP_basic : ∀ c ∈ toyVP.verifiableCredential, AllNames Basic c.credentialSubject.1 := by
  intro c hc
  simp only [toyVP, List.mem_singleton] at hc
  subst hc
  exact toySubject_basic

/-- The toy presentation under both orders. -/
example : ∃ out : VP Toy.env,
    sign (Toy.env.withOrder unitLe) (VP _) (7 : UInt8) (moveVP unitLe toyVP) toyProof = .ok (moveVP unitLe out) ∧
    sign (Toy.env.withOrder pointLe) (VP _) (7 : UInt8) (moveVP pointLe toyVP) toyProof = .ok (moveVP pointLe out) := by
  have h := ((C32_vp (C63_laws Toy.jcsLaws).1 (7 : UInt8) (moveVP unitLe toyVP) toyProof).1 (moveVP unitLe
    ⟨toyVP.contexts, toyVP.types, toyVP.verifiableCredential, some ⟨toyProof.id, toyProof.typ, toyProof.proofPurpose,
      multibaseEncode58 _, toyProof.verificationMethod, toyProof.created, toyProof.expires, toyProof.cryptosuite⟩,
      toyVP.holder⟩)).mpr
    ⟨⟨toyProof_good.1, toyProof_good.2, toyProof_good.3⟩, by decide, (vp_complete_move _ _).mpr toyVP_complete, _,
      multibaseEncode58_spec _, rfl⟩
  exact ⟨_, h, (C63_sign_vp Toy.jcsLaws (7 : UInt8) toyVP toyProof (.inl toyVP_basic) _).mp h⟩

example : ∃ (v : VP Toy.env) (bs : Bytes),
    AcceptedVP (E := Toy.env.withOrder unitLe) (7 : UInt8) bs .assertionMethod (moveVP unitLe v) ∧
    AcceptedVP (E := Toy.env.withOrder pointLe) (7 : UInt8) bs .assertionMethod (moveVP pointLe v) := by
  obtain ⟨t, _, h⟩ := accepted_vp (E := Toy.env.withOrder unitLe) (C63_laws Toy.jcsLaws).1 Toy.numLaws
    ⟨Toy.edLaws.1, Toy.edLaws.2⟩ (7 : UInt8) (moveVP unitLe toyVP) toyProof ((vp_complete_move _ _).mpr toyVP_complete)
    (fun _ _ => Toy.survives _)
    (fun _ hc => by
      revert hc; simp [moveVP, toyVP]; rintro rfl; simp [moveVC, toyVC, toySubject, Json.depth, Json.depthMembers])
    ⟨toyProof_good.1, toyProof_good.2, toyProof_good.3⟩ (by decide) .base58Btc _ (.base58 (multibaseEncode58_spec _))
  refine ⟨⟨toyVP.contexts, toyVP.types, toyVP.verifiableCredential, some _, toyVP.holder⟩, t.toBytes, h,
    (C63_verify_vp (E := Toy.env) Toy.jcsLaws (7 : UInt8) t.toBytes .assertionMethod
      ⟨toyVP.contexts, toyVP.types, toyVP.verifiableCredential, some _, toyVP.holder⟩ (.inl toyVP_basic)).mp h⟩

end Verif.Props
