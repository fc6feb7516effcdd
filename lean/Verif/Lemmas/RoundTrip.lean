import Verif.Model.VP
import Verif.Model.Context
import Verif.Lemmas.Reorder

/-
Reading back what was printed, type by type. Helper lemmas for the theorems in Verif/Props.
-/

namespace Verif

theorem structFields_obj {N : Type} (p : N → Bytes) (known : List Str) (l : List (Str × Json N)) (d : Nat)
    (hd : 2 ≤ d) (hk : ∀ x ∈ l.map (·.1), x ∈ known) (hn : (l.map (·.1)).Nodup) :
    structFields known d ((Json.obj l).toRaw p) = some (l.map fun x => (x.1, x.2.toRaw p)) := by
  simp only [Json.toRaw, structFields, if_neg (show ¬ d ≤ 1 by omega)]
  rw [collectFields_all p known l []]
  · simp
  · intro x hx; exact hk _ (List.mem_map_of_mem hx)
  · simpa using hn

theorem purpose_dec (pp : ProofPurpose) (d : Nat) : ProofPurpose.dec d (.str (encStr pp.serName)) = some pp := by
  simp only [ProofPurpose.dec, decStr_encStr]
  cases pp <;> rfl

theorem lookup_optMember {N α : Type} (pr : N → Bytes) (k n : Str) (f : α → Json N) (o : Option α)
    (r : List (Str × Raw)) :
    (((optMember n f o).map fun x => (x.1, x.2.toRaw pr)) ++ r).lookup k =
      if k = n then (o.map fun v => (f v).toRaw pr).or (r.lookup k) else r.lookup k := by
  cases o with
  | none => simp [optMember]
  | some v =>
    by_cases h : k = n
    · simp [optMember, h]
    · simp [optMember, List.lookup, h]
      have : (k == n) = false := by simpa using h
      rw [this]

theorem lookup_optMember' {N α : Type} (pr : N → Bytes) (k n : Str) (f : α → Json N) (o : Option α) :
    ((optMember n f o).map fun x => (x.1, x.2.toRaw pr)).lookup k =
      if k = n then (o.map fun v => (f v).toRaw pr) else none := by
  have := lookup_optMember pr k n f o []
  simpa using this

/-- An optional field that holds the printed value reads back. -/
theorem optField_map {N α : Type} (pr : N → Bytes) (fs : List (Str × Raw)) (k : Str) (f : α → Json N)
    (g : Raw → Option α) (o : Option α) (h : fs.lookup k = o.map fun v => (f v).toRaw pr)
    (hg : ∀ v, o = some v → g ((f v).toRaw pr) = some v) (hn : ∀ v, o = some v → (f v).toRaw pr ≠ .null) :
    optField fs k g = some o := by
  unfold optField
  cases o with
  | none => rw [h]; rfl
  | some v =>
    rw [h]
    simp only [Option.map_some]
    have := hn v rfl
    split
    · simp_all
    · simp_all
    · rename_i r hr heq
      cases heq
      rw [hg v rfl]; rfl

theorem decVec_toRaw {N α : Type} (pr : N → Bytes) (f : Nat → Raw → Option α) (t : α → Json N) (l : List α) (d : Nat)
    (hd : 2 ≤ d) (h : ∀ x ∈ l, f (d - 1) ((t x).toRaw pr) = some x) :
    decVec f d ((Json.arr (l.map t)).toRaw pr) = some l := by
  simp only [Json.toRaw, decVec, if_neg (show ¬ d ≤ 1 by omega), Json.toRawList_eq, List.map_map]
  exact optAll_map l h

theorem decVec_str {N : Type} (pr : N → Bytes) (l : List Str) (d : Nat) (hd : 2 ≤ d) :
    decVec (fun _ => decString) d ((strArr l : Json N).toRaw pr) = some l :=
  decVec_toRaw pr _ _ l d hd fun x _ => decString_toRaw pr x

theorem Proof.dec_toTree {N : Type} (pr : N → Bytes) (p : Proof) (d : Nat) (hd : 2 ≤ d) :
    Proof.dec d ((p.toTree : Json N).toRaw pr) = some p := by
  obtain ⟨id, typ, pp, pv, vm, c, e, s⟩ := p
  unfold Proof.dec Proof.toTree
  rw [structFields_obj pr _ _ d hd]
  · simp only [List.map_append, List.append_assoc]
    rw [optField_map pr (f := Json.str) (o := c), optField_map pr (f := Json.str) (o := e),
      optField_map pr (f := Json.str) (o := s)]
    · simp [reqField, List.lookup, decString, Json.toRaw, decStr_encStr, purpose_dec]
    · simp [List.lookup, lookup_optMember, lookup_optMember']
    · intro v _; exact decString_toRaw pr v
    · intro v _; simp [Json.toRaw]
    · simp [List.lookup, lookup_optMember, lookup_optMember']
    · intro v _; exact decString_toRaw pr v
    · intro v _; simp [Json.toRaw]
    · simp [List.lookup, lookup_optMember, lookup_optMember']
    · intro v _; exact decString_toRaw pr v
    · intro v _; simp [Json.toRaw]
  · cases c <;> cases e <;> cases s <;> simp [optMember, Proof.fieldNames]
  · cases c <;> cases e <;> cases s <;> simp [optMember]

theorem Primary.dec_toTree {N : Type} (pr : N → Bytes) (p : Primary) (d : Nat) (hd : 2 ≤ d) :
    Primary.dec d ((p.toTree : Json N).toRaw pr) = some p := by
  obtain ⟨id, c, t, m⟩ := p
  unfold Primary.dec Primary.toTree
  rw [structFields_obj pr _ _ d hd]
  · simp [reqField, List.lookup, decString, Json.toRaw, decStr_encStr]
  · simp [Primary.fieldNames]
  · simp

theorem Doc.dec_toTree {N : Type} (pr : N → Bytes) (x : Doc) (d : Nat) (hd : 4 ≤ d) :
    Doc.dec d ((x.toTree : Json N).toRaw pr) = some x := by
  obtain ⟨ctx, id, a, b, c, e⟩ := x
  unfold Doc.dec Doc.toTree
  rw [structFields_obj pr _ _ d (by omega)]
  · simp only [List.map_append, List.append_assoc]
    have arr : ∀ v : List Primary, decVec Primary.dec (d - 1) ((Json.arr (v.map Primary.toTree) : Json N).toRaw pr) = some v :=
      fun v => decVec_toRaw pr _ _ v _ (by omega) fun x _ => Primary.dec_toTree pr x _ (by omega)
    rw [optField_map pr (f := fun l => Json.arr (l.map Primary.toTree)) (o := a),
      optField_map pr (f := fun l => Json.arr (l.map Primary.toTree)) (o := b),
      optField_map pr (f := fun l => Json.arr (l.map Primary.toTree)) (o := c),
      optField_map pr (f := fun l => Json.arr (l.map Primary.toTree)) (o := e)]
    · simp [reqField, List.lookup, decString_toRaw, decVec_str pr ctx (d - 1) (by omega)]
    · simp [List.lookup, lookup_optMember, lookup_optMember']
    · intro v _; exact arr v
    · intro v _; simp [Json.toRaw]
    · simp [List.lookup, lookup_optMember, lookup_optMember']
    · intro v _; exact arr v
    · intro v _; simp [Json.toRaw]
    · simp [List.lookup, lookup_optMember, lookup_optMember']
    · intro v _; exact arr v
    · intro v _; simp [Json.toRaw]
    · simp [List.lookup, lookup_optMember, lookup_optMember']
    · intro v _; exact arr v
    · intro v _; simp [Json.toRaw]
  · cases a <;> cases b <;> cases c <;> cases e <;> simp [optMember, Doc.fieldNames]
  · cases a <;> cases b <;> cases c <;> cases e <;> simp [optMember]

theorem optAll_comp {α β γ : Type} (f : α → Option β) (g : γ → α) (l : List γ) :
    optAll f (l.map g) = optAll (fun x => f (g x)) l := by
  induction l with
  | nil => rfl
  | cons x xs ih => simp only [List.map_cons, optAll, ih]

theorem optAll_map' {α β γ : Type} {f : α → Option β} {g : γ → α} {h : γ → β} (l : List γ)
    (hf : ∀ x ∈ l, f (g x) = some (h x)) : optAll f (l.map g) = some (l.map h) := by
  induction l with
  | nil => rfl
  | cons x xs ih =>
    simp only [List.map_cons, optAll, hf x (by simp)]
    rw [ih (fun y hy => hf y (by simp [hy]))]

theorem VC.structFields_toTree {E : Env} (pr : Num E.F → Bytes) (v : VC E) (d : Nat) (hd : 2 ≤ d) :
    structFields VC.fieldNames d (v.toTree.toRaw pr) =
      some (([("@context".toList, strArr v.contexts), ("type".toList, strArr v.types),
         ("credentialSubject".toList, v.credentialSubject.1)]
        ++ optMember "proof".toList Proof.toTree v.proof
        ++ [("id".toList, .str v.id), ("issuer".toList, .str v.issuer)] : List (Str × Json (Num E.F))).map fun x => (x.1, x.2.toRaw pr)) := by
  obtain ⟨ctx, ty, cs, pf, id, iss⟩ := v
  unfold VC.toTree
  rw [structFields_obj _ _ _ d hd]
  · cases pf <;> simp [optMember, VC.fieldNames]
  · cases pf <;> simp [optMember]

/-- A credential with the numbers of its subject replaced. -/
def VC.mapNum {E : Env} (ρ : Num E.F → Num E.F) (v : VC E) : VC E :=
  ⟨v.contexts, v.types, Value.mapNum ρ v.credentialSubject, v.proof, v.id, v.issuer⟩

/-- A presentation with the numbers of all subjects replaced. -/
def VP.mapNum {E : Env} (ρ : Num E.F → Num E.F) (v : VP E) : VP E :=
  ⟨v.contexts, v.types, v.verifiableCredential.map (VC.mapNum ρ), v.proof, v.holder⟩

theorem VC.dec_toTree {E : Env} {pr : Num E.F → Bytes} {ρ : Num E.F → Num E.F} (v : VC E)
    (hn : ∀ n ∈ v.credentialSubject.1.nums, decNum E.floatParse (pr n) = some (ρ n)) (d : Nat) (hd : 3 ≤ d)
    (hs : v.credentialSubject.1.depth < d - 1) :
    VC.dec E d (v.toTree.toRaw pr) = some (v.mapNum ρ) := by
  unfold VC.dec
  rw [VC.structFields_toTree pr v d (by omega)]
  obtain ⟨ctx, ty, cs, pf, id, iss⟩ := v
  simp only [List.map_append, List.append_assoc]
  rw [optField_map pr (f := Proof.toTree) (o := pf)]
  · simp [reqField, List.lookup, lookup_optMember, decString_toRaw, decVec_str _ _ (d - 1) (show 2 ≤ d - 1 by omega),
      decVal'_toRaw cs hn (d - 1) hs, VC.mapNum]
  · simp [List.lookup, lookup_optMember]
  · intro v _; exact Proof.dec_toTree _ v _ (by omega)
  · intro v _; simp [Json.toRaw, Proof.toTree]

theorem VC.dec_deep {E : Env} (v : VC E) (d : Nat) (hd : 3 ≤ d) (hs : d - 1 ≤ v.credentialSubject.1.depth) :
    VC.dec E d (v.toTree.toRaw (printNum E.floatPrint)) = none := by
  unfold VC.dec
  rw [VC.structFields_toTree (printNum E.floatPrint) v d (by omega)]
  obtain ⟨ctx, ty, cs, pf, id, iss⟩ := v
  simp only [List.map_append, List.append_assoc]
  simp [reqField, List.lookup, decVec_str _ _ (d - 1) (show 2 ≤ d - 1 by omega),
      decVal'_deep cs (d - 1) (by omega) hs]

theorem VP.structFields_toTree {E : Env} (pr : Num E.F → Bytes) (v : VP E) (d : Nat) (hd : 2 ≤ d) :
    structFields VP.fieldNames d (v.toTree.toRaw pr) =
      some (([("@context".toList, strArr v.contexts), ("type".toList, strArr v.types),
         ("verifiableCredential".toList, .arr (v.verifiableCredential.map VC.toTree))]
        ++ optMember "proof".toList Proof.toTree v.proof
        ++ optMember "holder".toList .str v.holder : List (Str × Json (Num E.F))).map fun x => (x.1, x.2.toRaw pr)) := by
  obtain ⟨ctx, ty, cs, pf, h⟩ := v
  unfold VP.toTree
  rw [structFields_obj _ _ _ d hd]
  · cases pf <;> cases h <;> simp [optMember, VP.fieldNames]
  · cases pf <;> cases h <;> simp [optMember]

theorem VP.dec_toTree {E : Env} {pr : Num E.F → Bytes} {ρ : Num E.F → Num E.F} (v : VP E)
    (hn : ∀ c ∈ v.verifiableCredential, ∀ n ∈ c.credentialSubject.1.nums, decNum E.floatParse (pr n) = some (ρ n))
    (d : Nat) (hd : 5 ≤ d)
    (hs : ∀ c ∈ v.verifiableCredential, c.credentialSubject.1.depth < d - 3) :
    VP.dec E d (v.toTree.toRaw pr) = some (v.mapNum ρ) := by
  unfold VP.dec
  rw [VP.structFields_toTree pr v d (by omega)]
  obtain ⟨ctx, ty, cs, pf, h⟩ := v
  simp only [List.map_append, List.append_assoc]
  have arr : decVec (VC.dec E) (d - 1) ((Json.arr (cs.map VC.toTree)).toRaw pr) =
      some (cs.map (VC.mapNum ρ)) := by
    simp only [Json.toRaw, decVec, if_neg (show ¬ d - 1 ≤ 1 by omega), Json.toRawList_eq, List.map_map]
    exact optAll_map' cs fun x hx => VC.dec_toTree x (hn x hx) _ (by omega) (by have := hs x hx; omega)
  rw [optField_map pr (f := Proof.toTree) (o := pf),
    optField_map pr (f := Json.str) (o := h)]
  · simp [reqField, List.lookup, decVec_str _ _ (d - 1) (show 2 ≤ d - 1 by omega), arr, VP.mapNum]
  · simp [List.lookup, lookup_optMember, lookup_optMember']
  · intro v _; exact decString_toRaw _ v
  · intro v _; simp [Json.toRaw]
  · simp [List.lookup, lookup_optMember, lookup_optMember']
  · intro v _; exact Proof.dec_toTree _ v _ (by omega)
  · intro v _; simp [Json.toRaw, Proof.toTree]

/-- What the reader makes of a number printed by `serde_json`. -/
def rereadNum (E : Env) (ρ : E.F → E.F) : Num E.F → Num E.F
  | .float f => .float (ρ f)
  | n => n

theorem decNum_reread {E : Env} (L : E.NumLaws) {ρ : E.F → E.F} {l : List (Num E.F)}
    (h : ∀ f, Num.float f ∈ l → E.floatParse (E.floatPrint f) = some (ρ f)) :
    ∀ n ∈ l, decNum E.floatParse (printNum E.floatPrint n) = some (rereadNum E ρ n) := by
  intro n hn
  rw [decNum_printNum L]
  cases n with
  | pos _ => rfl
  | neg _ => rfl
  | float f => simp [h f hn, rereadNum]

theorem rereadNum_id {E : Env} : rereadNum E id = id := by
  funext n; cases n <;> rfl

theorem Value.mapNum_id {E : Env} (v : Value E) : Value.mapNum id v = v :=
  Subtype.ext ((Json.mapNum_eq_self v.1).mpr fun _ _ => rfl)

theorem VC.mapNum_id {E : Env} (v : VC E) : v.mapNum _root_.id = v := by
  obtain ⟨a, b, c, d, e, f⟩ := v
  simp [VC.mapNum, Value.mapNum_id]

theorem VP.mapNum_id {E : Env} (v : VP E) : v.mapNum _root_.id = v := by
  obtain ⟨a, b, c, d, e⟩ := v
  have : VC.mapNum (E := E) _root_.id = _root_.id := funext VC.mapNum_id
  simp [VP.mapNum, this]

/-- The subject of a credential that is read was read. -/
theorem VC.dec_subject {E : Env} {pr : Num E.F → Bytes} (v w : VC E) (d : Nat) (hd : 3 ≤ d)
    (h : VC.dec E d (v.toTree.toRaw pr) = some w) :
    decValue E.floatParse (d - 1) (v.credentialSubject.1.toRaw pr) = some w.credentialSubject.1 := by
  unfold VC.dec at h
  rw [VC.structFields_toTree pr v d (by omega)] at h
  obtain ⟨ctx, ty, cs, pf, id, iss⟩ := v
  simp only [bind, Option.bind_eq_some_iff] at h
  obtain ⟨_, _, _, _, c, hc, _, _, _, _, _, _, h⟩ := h
  cases h
  simp only [List.map_append, List.append_assoc, reqField] at hc
  simp only [List.map_cons, List.cons_append, List.lookup, show ("credentialSubject".toList == "@context".toList) = false by decide,
    show ("credentialSubject".toList == "type".toList) = false by decide, beq_self_eq_true] at hc
  rw [← decVal'_map, hc]
  rfl

/-- A presentation that is read has its credentials read one by one. -/
theorem VP.dec_credentials {E : Env} {pr : Num E.F → Bytes} (v w : VP E) (d : Nat) (hd : 5 ≤ d)
    (h : VP.dec E d (v.toTree.toRaw pr) = some w) :
    optAll (fun c : VC E => VC.dec E (d - 2) (c.toTree.toRaw pr)) v.verifiableCredential = some w.verifiableCredential := by
  unfold VP.dec at h
  rw [VP.structFields_toTree pr v d (by omega)] at h
  obtain ⟨ctx, ty, cs, pf, hl⟩ := v
  simp only [bind, Option.bind_eq_some_iff] at h
  obtain ⟨_, _, _, _, c, hc, _, _, _, _, h⟩ := h
  cases h
  simp only [List.map_append, List.append_assoc, reqField] at hc
  simp only [List.map_cons, List.cons_append, List.lookup,
    show ("verifiableCredential".toList == "@context".toList) = false by decide,
    show ("verifiableCredential".toList == "type".toList) = false by decide, beq_self_eq_true] at hc
  simp only [Json.toRaw, decVec, if_neg (show ¬ d - 1 ≤ 1 by omega), Json.toRawList_eq, List.map_map] at hc
  rw [optAll_comp] at hc
  exact hc

theorem optAll_none {α β : Type} {f : α → Option β} {l : List α} {x : α} (hx : x ∈ l) (h : f x = none) :
    optAll f l = none := by
  cases ho : optAll f l with
  | none => rfl
  | some r =>
    obtain ⟨y, _, e⟩ := optAll_mem' ho x hx
    rw [h] at e; cases e

theorem VP.dec_deep {E : Env} (v : VP E) (d : Nat) (hd : 5 ≤ d) (c : VC E) (hc : c ∈ v.verifiableCredential)
    (hs : d - 3 ≤ c.credentialSubject.1.depth) :
    VP.dec E d (v.toTree.toRaw (printNum E.floatPrint)) = none := by
  unfold VP.dec
  rw [VP.structFields_toTree (printNum E.floatPrint) v d (by omega)]
  obtain ⟨ctx, ty, cs, pf, h⟩ := v
  simp only [List.map_append, List.append_assoc]
  have arr : decVec (VC.dec E) (d - 1) ((Json.arr (cs.map VC.toTree)).toRaw (printNum E.floatPrint)) = none := by
    simp only [Json.toRaw, decVec, if_neg (show ¬ d - 1 ≤ 1 by omega), Json.toRawList_eq, List.map_map]
    exact optAll_none (List.mem_map_of_mem hc) (VC.dec_deep c _ (by omega) (by omega))
  simp [reqField, List.lookup, decVec_str _ _ (d - 1) (show 2 ≤ d - 1 by omega), arr]

theorem UserConnectionCredential.dec_toTree {N : Type} (pr : N → Bytes) (p : UserConnectionCredential) (d : Nat)
    (hd : 4 ≤ d) : UserConnectionCredential.dec d ((p.toTree : Json N).toRaw pr) = some p := by
  obtain ⟨⟨⟨a, b⟩⟩⟩ := p
  unfold UserConnectionCredential.dec UserConnectionCredential.toTree
  rw [structFields_obj pr _ _ d (by omega)]
  · simp only [List.map_cons, List.map_nil, reqField, List.lookup, beq_self_eq_true]
    unfold UserConnectionCredentialContext.dec UserConnectionCredentialContext.toTree
    rw [structFields_obj pr _ _ (d - 1) (by omega)]
    · simp only [List.map_cons, List.map_nil, reqField, List.lookup, beq_self_eq_true]
      unfold UserConnectionCredentialProperties.dec UserConnectionCredentialProperties.toTree
      rw [structFields_obj pr _ _ (d - 1 - 1) (by omega)]
      · simp [reqField, List.lookup, decString_toRaw]
      · simp
      · simp
    · simp
    · simp
  · simp
  · simp

end Verif
