import Verif.Lemmas.Canon

/-
The same document held by two builds of the library, on dependencies that represent numbers differently. Helper lemmas for
the theorems in Verif/Props/Builds.lean.
-/

namespace Verif
open Spec

/-- A number with its floating point part in another type. -/
def Num.map {F G : Type} (φ : F → G) : Num F → Num G
  | .pos n => .pos n
  | .neg k => .neg k
  | .float f => .float (φ f)

/-- `φ` takes the floating point numbers of one environment to those of another: same texts, same readings. -/
structure Moves (E₁ E₂ : Env) (φ : E₁.F → E₂.F) : Prop where
  print : ∀ f, E₂.floatPrint (φ f) = E₁.floatPrint f
  parse : ∀ t, E₂.floatParse t = (E₁.floatParse t).map φ
  jcs : ∀ n : Num E₁.F, E₂.jcsNum (n.map φ) = E₁.jcsNum n
  order : E₂.keyLe = E₁.keyLe

theorem toRaw_comp {N M : Type} (q : N → M) (p : M → Bytes) (j : Json N) : (j.mapNum q).toRaw p = j.toRaw (p ∘ q) := by
  rw [← toRaw_mapNum p, Json.mapNum_mapNum, toRaw_mapNum]

theorem btInsert_map {α β : Type} (f : α → β) (k : Str) (v : α) (l : List (Str × α)) :
    btInsert k (f v) (l.map fun x => (x.1, f x.2)) = (btInsert k v l).map fun x => (x.1, f x.2) := by
  induction l with
  | nil => rfl
  | cons x l ih =>
    obtain ⟨k', v'⟩ := x
    simp only [List.map_cons, btInsert]
    split
    · rfl
    · split
      · rfl
      · rw [ih]; rfl

theorem btOfList_map {α β : Type} (f : α → β) (l : List (Str × α)) :
    btOfList (l.map fun x => (x.1, f x.2)) = (btOfList l).map fun x => (x.1, f x.2) := by
  have : ∀ acc : List (Str × α), (l.map fun x => (x.1, f x.2)).foldl (fun m kv => btInsert kv.1 kv.2 m)
      (acc.map fun x => (x.1, f x.2)) = (l.foldl (fun m kv => btInsert kv.1 kv.2 m) acc).map fun x => (x.1, f x.2) := by
    induction l with
    | nil => intro acc; rfl
    | cons x l ih =>
      intro acc
      simp only [List.map_cons, List.foldl_cons]
      rw [btInsert_map, ih]
  exact this []

section
variable {F G : Type} {φ : F → G} {fr : Bytes → Option F} {gr : Bytes → Option G}

theorem decNum_map (h : ∀ t, gr t = (fr t).map φ) (t : Bytes) : decNum gr t = (decNum fr t).map (Num.map φ) := by
  unfold decNum
  rw [h]
  split
  · split
    · split
      · rfl
      · cases fr t <;> rfl
    · split
      · rfl
      · cases fr t <;> rfl
  · cases fr t <;> rfl

mutual
theorem decValue_map (h : ∀ t, gr t = (fr t).map φ) (r : Raw) (d : Nat) :
    decValue gr d r = (decValue fr d r).map (Json.mapNum (Num.map φ)) := by
  match r with
  | .null => rfl
  | .bool _ => rfl
  | .num t =>
    simp only [decValue, decNum_map h]
    cases decNum fr t <;> rfl
  | .str s =>
    simp only [decValue]
    cases decStr s <;> rfl
  | .arr xs =>
    simp only [decValue, decValues_map h xs]
    split
    · rfl
    · cases decValues fr (d - 1) xs with
      | none => rfl
      | some l => simp only [Option.map_some, Json.mapNum, Json.mapNumList_eq]
  | .obj kvs =>
    simp only [decValue, decMembers_map h kvs]
    split
    · rfl
    · cases decMembers fr (d - 1) kvs with
      | none => rfl
      | some l => simp only [Option.map_some, Json.mapNum, Json.mapNumMembers_eq, btOfList_map]
theorem decValues_map (h : ∀ t, gr t = (fr t).map φ) (xs : List Raw) (d : Nat) :
    decValues gr d xs = (decValues fr d xs).map (List.map (Json.mapNum (Num.map φ))) := by
  match xs with
  | [] => rfl
  | x :: xs =>
    simp only [decValues, decValue_map h x, decValues_map h xs]
    cases decValue fr d x with
    | none => rfl
    | some y => cases decValues fr d xs <;> rfl
theorem decMembers_map (h : ∀ t, gr t = (fr t).map φ) (xs : List (Bytes × Raw)) (d : Nat) :
    decMembers gr d xs = (decMembers fr d xs).map (List.map fun x => (x.1, x.2.mapNum (Num.map φ))) := by
  match xs with
  | [] => rfl
  | (k, x) :: xs =>
    simp only [decMembers, decValue_map h x, decMembers_map h xs]
    cases decStr k with
    | none => rfl
    | some k' =>
      cases decValue fr d x with
      | none => rfl
      | some y => cases decMembers fr d xs <;> rfl
end
end

variable {E₁ E₂ : Env} {φ : E₁.F → E₂.F}

/-- A value in the other environment. -/
def Value.over (φ : E₁.F → E₂.F) (v : Value E₁) : Value E₂ :=
  ⟨v.1.mapNum (Num.map φ), Json.sorted_mapNum _ _ v.2⟩

/-- A credential in the other environment. -/
def VC.over (φ : E₁.F → E₂.F) (v : VC E₁) : VC E₂ :=
  ⟨v.contexts, v.types, v.credentialSubject.over φ, v.proof, v.id, v.issuer⟩

/-- A presentation in the other environment. -/
def VP.over (φ : E₁.F → E₂.F) (v : VP E₁) : VP E₂ :=
  ⟨v.contexts, v.types, v.verifiableCredential.map (VC.over φ), v.proof, v.holder⟩

theorem decVal'_over (M : Moves E₁ E₂ φ) (d : Nat) (r : Raw) : decVal' E₂ d r = (decVal' E₁ d r).map (Value.over φ) := by
  have h := decValue_map M.parse r d
  unfold decVal'
  split
  · rename_i j hj
    split
    · rename_i k hk
      rw [hj, hk] at h
      cases h
      rfl
    · rename_i hk
      rw [hj, hk] at h
      cases h
  · rename_i hj
    split
    · rename_i k hk
      rw [hj, hk] at h
      cases h
    · rfl

theorem reqField_over {α β : Type} (fs : List (Str × Raw)) (k : Str) {f : Raw → Option α} {g : Raw → Option β} {m : α → β}
    (h : ∀ r, g r = (f r).map m) : reqField fs k g = (reqField fs k f).map m := by
  unfold reqField
  cases fs.lookup k with
  | none => rfl
  | some r => exact h r

theorem VC.dec_over (M : Moves E₁ E₂ φ) (d : Nat) (r : Raw) : VC.dec E₂ d r = (VC.dec E₁ d r).map (VC.over φ) := by
  unfold VC.dec
  cases structFields VC.fieldNames d r with
  | none => rfl
  | some fs =>
    simp only
    rw [reqField_over fs "credentialSubject".toList (decVal'_over M (d - 1))]
    cases reqField fs "@context".toList (decVec (fun _ => decString) (d - 1)) with
    | none => rfl
    | some a =>
    cases reqField fs "type".toList (decVec (fun _ => decString) (d - 1)) with
    | none => rfl
    | some b =>
    cases reqField fs "credentialSubject".toList (decVal' E₁ (d - 1)) with
    | none => rfl
    | some c =>
    cases optField fs "proof".toList (Proof.dec (d - 1)) with
    | none => rfl
    | some p =>
    cases reqField fs "id".toList decString with
    | none => rfl
    | some i =>
    cases reqField fs "issuer".toList decString with
    | none => rfl
    | some s => rfl

theorem optAll_over {α β γ : Type} {f : α → Option β} {g : α → Option γ} {m : β → γ} (h : ∀ x, g x = (f x).map m) (l : List α) :
    optAll g l = (optAll f l).map (List.map m) := by
  induction l with
  | nil => rfl
  | cons x l ih =>
    simp only [optAll, h, ih]
    cases f x with
    | none => rfl
    | some y => cases optAll f l <;> rfl

theorem decVec_over {α β : Type} {f : Nat → Raw → Option α} {g : Nat → Raw → Option β} {m : α → β} (h : ∀ d r, g d r = (f d r).map m)
    (d : Nat) (r : Raw) : decVec g d r = (decVec f d r).map (List.map m) := by
  cases r <;> try rfl
  simp only [decVec]
  split
  · rfl
  · exact optAll_over (h _) _

theorem VP.dec_over (M : Moves E₁ E₂ φ) (d : Nat) (r : Raw) : VP.dec E₂ d r = (VP.dec E₁ d r).map (VP.over φ) := by
  unfold VP.dec
  cases structFields VP.fieldNames d r with
  | none => rfl
  | some fs =>
    simp only
    rw [reqField_over fs "verifiableCredential".toList (decVec_over (VC.dec_over M) (d - 1))]
    cases reqField fs "@context".toList (decVec (fun _ => decString) (d - 1)) with
    | none => rfl
    | some a =>
    cases reqField fs "type".toList (decVec (fun _ => decString) (d - 1)) with
    | none => rfl
    | some b =>
    cases reqField fs "verifiableCredential".toList (decVec (VC.dec E₁) (d - 1)) with
    | none => rfl
    | some c =>
    cases optField fs "proof".toList (Proof.dec (d - 1)) with
    | none => rfl
    | some p =>
    cases optField fs "holder".toList decString with
    | none => rfl
    | some i => rfl

theorem fromSlice_over {α β : Type} {f : Nat → Raw → Option α} {g : Nat → Raw → Option β} {m : α → β}
    (h : ∀ d r, g d r = (f d r).map m) (bs : Bytes) : fromSlice g bs = (fromSlice f bs).map m := by
  unfold fromSlice
  cases Raw.parse bs with
  | none => rfl
  | some r => exact h _ r

/-! ### Texts -/

theorem printNum_over (M : Moves E₁ E₂ φ) : printNum E₂.floatPrint ∘ Num.map φ = printNum E₁.floatPrint := by
  funext n
  cases n with
  | pos _ => rfl
  | neg _ => rfl
  | float f => exact M.print f

theorem jsonText_over (M : Moves E₁ E₂ φ) (j : Json (Num E₁.F)) : jsonText E₂ (j.mapNum (Num.map φ)) = jsonText E₁ j := by
  unfold jsonText Json.text
  rw [toRaw_comp, printNum_over M]

theorem jcsText_over (M : Moves E₁ E₂ φ) (j : Json (Num E₁.F)) : jcsText E₂ (j.mapNum (Num.map φ)) = jcsText E₁ j := by
  unfold jcsText Json.jcs
  rw [M.order, Json.canon_mapNum, toRaw_comp, show E₂.jcsNum ∘ Num.map φ = E₁.jcsNum from funext M.jcs]

theorem strArr_over {N N' : Type} (p : N → N') (l : List Str) : (strArr l).mapNum p = strArr l := by
  simp only [strArr, Json.mapNum, Json.mapNumList_eq, List.map_map, Json.arr.injEq]
  exact List.map_congr_left fun _ _ => rfl

theorem optMember_str_over {N N' : Type} (p : N → N') (k : Str) (o : Option Str) :
    (optMember k Json.str o).map (fun x => (x.1, x.2.mapNum p)) = optMember k Json.str o := by
  cases o <;> rfl

theorem Proof.toTree_over {N N' : Type} (p : N → N') (q : Proof) : (q.toTree : Json N).mapNum p = q.toTree := by
  simp only [Proof.toTree, Json.mapNum, Json.mapNumMembers_eq, List.map_append, optMember_str_over]
  rfl

theorem optMember_proof_over {N N' : Type} (p : N → N') (k : Str) (o : Option Proof) :
    (optMember k Proof.toTree o).map (fun x => (x.1, x.2.mapNum p)) = optMember k Proof.toTree o := by
  cases o with
  | none => rfl
  | some q => simp only [optMember, List.map_cons, List.map_nil, Proof.toTree_over]

theorem VC.toTree_over (v : VC E₁) : (v.over φ).toTree = v.toTree.mapNum (Num.map φ) := by
  simp only [VC.toTree, Json.mapNum, Json.mapNumMembers_eq, List.map_append, optMember_proof_over, List.map_cons, List.map_nil,
    strArr_over]
  rfl

theorem VP.toTree_over (v : VP E₁) : (v.over φ).toTree = v.toTree.mapNum (Num.map φ) := by
  simp only [VP.toTree, Json.mapNum, Json.mapNumMembers_eq, List.map_append, optMember_proof_over, optMember_str_over, List.map_cons,
    List.map_nil, strArr_over, Json.mapNumList_eq, VP.over, List.map_map]
  rw [show VC.toTree ∘ VC.over φ = Json.mapNum (Num.map φ) ∘ VC.toTree from funext fun c => VC.toTree_over c]

theorem null_over (v : Value E₁) : (v.over φ).1 = .null ↔ v.1 = .null := by
  obtain ⟨j, h⟩ := v
  cases j <;> simp [Value.over, Json.mapNum]

theorem VC.validate_over (v : VC E₁) : (v.over φ).validate = v.validate := by
  have h : VC.isNullValue (v.credentialSubject.over φ) = VC.isNullValue v.credentialSubject := by
    obtain ⟨a, b, ⟨j, h⟩, c, d, e⟩ := v
    cases j <;> rfl
  unfold VC.validate
  rw [show (v.over φ).credentialSubject = v.credentialSubject.over φ from rfl, h]
  rfl

theorem VP.validate_over (v : VP E₁) : (v.over φ).validate = v.validate := by
  obtain ⟨a, b, c, d, e⟩ := v
  cases c <;> rfl

theorem VC.toJson_over (M : Moves E₁ E₂ φ) (v : VC E₁) : (v.over φ).toJson = v.toJson := by
  unfold VC.toJson
  rw [VC.validate_over, VC.toTree_over, jsonText_over M]

theorem VC.toJcs_over (M : Moves E₁ E₂ φ) (v : VC E₁) : (v.over φ).toJcs = v.toJcs := by
  unfold VC.toJcs
  rw [VC.validate_over, VC.toTree_over, jcsText_over M]

theorem VP.toJson_over (M : Moves E₁ E₂ φ) (v : VP E₁) : (v.over φ).toJson = v.toJson := by
  unfold VP.toJson
  rw [VP.validate_over, VP.toTree_over, jsonText_over M]

theorem VP.toJcs_over (M : Moves E₁ E₂ φ) (v : VP E₁) : (v.over φ).toJcs = v.toJcs := by
  unfold VP.toJcs
  rw [VP.validate_over, VP.toTree_over, jcsText_over M]

/-- Trees without numbers have the same canonical text everywhere. -/
theorem proof_jcs_over (M : Moves E₁ E₂ φ) (p : Proof) : jcsText E₂ p.toTree = jcsText E₁ p.toTree := by
  rw [← jcsText_over M, Proof.toTree_over]

end Verif
