import Verif.Spec.Wire

/-
Canonical texts determine the documents. Helper lemmas for the theorems in Verif/Props.
-/

namespace Verif
open Spec

/-- Canonical tree with numbers replaced by their canonical text. -/
def canonTree (E : Env) (j : Json (Num E.F)) : Json Bytes := (j.mapNum E.jcsNum).canon E.keyLe

theorem jcsText_inj {E : Env} (L : E.JcsLaws) {a b : Json (Num E.F)} (h : jcsText E a = jcsText E b) :
    canonTree E a = canonTree E b := by
  have h' : a.jcs E.keyLe E.jcsNum = b.jcs E.keyLe E.jcsNum := by
    rw [← jcsText_bytes L, ← jcsText_bytes L, h]
  exact Json.jcs_inj L.num_tok h'

mutual
theorem toRaw_mapNum {N : Type} (p : N → Bytes) (j : Json N) : (j.mapNum p).toRaw id = j.toRaw p := by
  match j with
  | .null => simp [Json.mapNum, Json.toRaw]
  | .bool _ => simp [Json.mapNum, Json.toRaw]
  | .num _ => simp [Json.mapNum, Json.toRaw]
  | .str _ => simp [Json.mapNum, Json.toRaw]
  | .arr xs => simp only [Json.mapNum, Json.toRaw, toRawList_mapNum p xs]
  | .obj kvs => simp only [Json.mapNum, Json.toRaw, toRawMembers_mapNum p kvs]
theorem toRawList_mapNum {N : Type} (p : N → Bytes) (xs : List (Json N)) :
    Json.toRawList id (Json.mapNumList p xs) = Json.toRawList p xs := by
  match xs with
  | [] => simp [Json.mapNumList, Json.toRawList]
  | x :: xs => simp only [Json.mapNumList, Json.toRawList, toRaw_mapNum p x, toRawList_mapNum p xs]
theorem toRawMembers_mapNum {N : Type} (p : N → Bytes) (xs : List (Str × Json N)) :
    Json.toRawMembers id (Json.mapNumMembers p xs) = Json.toRawMembers p xs := by
  match xs with
  | [] => simp [Json.mapNumMembers, Json.toRawMembers]
  | (k, x) :: xs => simp only [Json.mapNumMembers, Json.toRawMembers, toRaw_mapNum p x, toRawMembers_mapNum p xs]
end

theorem jcsText_congr {E : Env} {a b : Json (Num E.F)} (h : canonTree E a = canonTree E b) :
    jcsText E a = jcsText E b := by
  unfold jcsText Json.jcs
  rw [← toRaw_mapNum E.jcsNum, ← toRaw_mapNum E.jcsNum, ← Json.canon_mapNum, ← Json.canon_mapNum]
  show bytesToStr ((canonTree E a).toRaw id).render = _
  rw [h]; rfl

theorem mapNumMembers_eq {N M : Type} (p : N → M) (l : List (Str × Json N)) :
    Json.mapNumMembers p l = l.map fun x => (x.1, x.2.mapNum p) := by
  induction l with
  | nil => rfl
  | cons x l ih => obtain ⟨k, v⟩ := x; simp only [Json.mapNumMembers, ih, List.map_cons]

theorem mapNumList_eq {N M : Type} (p : N → M) (l : List (Json N)) :
    Json.mapNumList p l = l.map (Json.mapNum p) := by
  induction l with
  | nil => rfl
  | cons x l ih => simp only [Json.mapNumList, ih, List.map_cons]

theorem canonList_eq {N : Type} (le : Str → Str → Bool) (l : List (Json N)) :
    Json.canonList le l = l.map (Json.canon le) := by
  induction l with
  | nil => rfl
  | cons x l ih => simp only [Json.canonList, ih, List.map_cons]

theorem toList_inj {a b : String} (h : a.toList = b.toList) : a = b := String.toList_inj.mp h

theorem object_keys_nodup {N : Type} (l : List (String × Option (Json N))) (hn : (l.map (·.1)).Nodup) :
    ((l.filterMap fun x => x.2.map fun v => (x.1.toList, v)).map (·.1)).Nodup := by
  have hs : ((l.filterMap fun x => x.2.map fun v => (x.1.toList, v)).map (·.1)).Sublist (l.map fun x => x.1.toList) := by
    clear hn
    induction l with
    | nil => simp
    | cons x l ih =>
      obtain ⟨k, o⟩ := x
      cases o with
      | none => simpa using ih.cons _
      | some v => simpa using ih
  refine hs.nodup ?_
  have : (l.map fun x => x.1.toList) = (l.map (·.1)).map String.toList := by rw [List.map_map]; rfl
  rw [this]
  exact hn.map (fun a b h => toList_inj h)

theorem object_lookup {N : Type} (l : List (String × Option (Json N))) (hn : (l.map (·.1)).Nodup)
    {k : String} {o : Option (Json N)} (h : (k, o) ∈ l) :
    (l.filterMap fun x => x.2.map fun v => (x.1.toList, v)).lookup k.toList = o := by
  induction l with
  | nil => simp at h
  | cons x l ih =>
    obtain ⟨k', o'⟩ := x
    simp only [List.map_cons, List.nodup_cons] at hn
    rcases List.mem_cons.mp h with e | h'
    · cases e
      cases o with
      | some v => simp
      | none =>
        simp only [List.filterMap_cons, Option.map_none]
        rw [List.lookup_eq_none_iff]
        intro q hq
        obtain ⟨y, hy, e⟩ := List.mem_filterMap.mp hq
        obtain ⟨v, _, e'⟩ := Option.map_eq_some_iff.mp e
        have : k ≠ y.1 := fun e => hn.1 (e ▸ List.mem_map_of_mem hy)
        rw [← e']
        simpa using fun e => this (toList_inj e)
    · have hk : k ≠ k' := fun e => hn.1 (e ▸ List.mem_map_of_mem h')
      have hk' : k.toList ≠ k'.toList := fun e => hk (toList_inj e)
      cases o' with
      | none => simpa using ih hn.2 h'
      | some v =>
        simp only [List.filterMap_cons, Option.map_some, List.lookup]
        rw [show (k.toList == k'.toList) = false by simpa using hk']
        exact ih hn.2 h'

/-- Objects with equal canonical trees agree on every named member. -/
theorem object_inj {E : Env} {l l' : List (String × Option (Json (Num E.F)))} (hn : (l.map (·.1)).Nodup)
    (hn' : (l'.map (·.1)).Nodup) (h : canonTree E (object l) = canonTree E (object l')) {k : String}
    {o o' : Option (Json (Num E.F))} (hk : (k, o) ∈ l) (hk' : (k, o') ∈ l') :
    o.map (canonTree E) = o'.map (canonTree E) := by
  have key : ∀ l : List (Str × Json (Num E.F)), ∀ k,
      ((Json.mapNumMembers E.jcsNum l).lookup k) = (l.lookup k).map (Json.mapNum E.jcsNum) := by
    intro l k
    rw [mapNumMembers_eq]
    induction l with
    | nil => rfl
    | cons x l ih =>
      simp only [List.map_cons, List.lookup]
      cases k == x.1 <;> simp [ih]
  have nod : ∀ l : List (Str × Json (Num E.F)), (l.map (·.1)).Nodup →
      ((Json.mapNumMembers E.jcsNum l).map (·.1)).Nodup := by
    intro l hl
    rw [mapNumMembers_eq, List.map_map]; exact hl
  unfold canonTree object at h
  simp only [Json.mapNum] at h
  have := Json.canon_obj_lookup (nod _ (object_keys_nodup l hn)) (nod _ (object_keys_nodup l' hn')) h k.toList
  rw [key, key, object_lookup l hn hk, object_lookup l' hn' hk', Option.map_map, Option.map_map] at this
  exact this

theorem canonTree_str {E : Env} (s : Str) : canonTree E (.str s) = .str s := by
  simp [canonTree, Json.mapNum, Json.canon]

theorem canonTree_strings {E : Env} (l : List Str) : canonTree E (strings l) = .arr (l.map .str) := by
  simp only [canonTree, strings, Json.mapNum, mapNumList_eq, Json.canon, canonList_eq, List.map_map]
  congr 1

theorem strings_inj {E : Env} {l l' : List Str} (h : canonTree E (strings l) = canonTree E (strings l')) : l = l' := by
  rw [canonTree_strings, canonTree_strings, Json.arr.injEq] at h
  exact List.map_injective_iff.mpr (fun a b e => by cases e; rfl) h

theorem str_inj {E : Env} {a b : Str} (h : canonTree E (.str a) = canonTree E (.str b)) : a = b := by
  rw [canonTree_str, canonTree_str] at h
  cases h; rfl

theorem optStr_inj {E : Env} {a b : Option Str}
    (h : (a.map Json.str).map (canonTree E) = (b.map Json.str).map (canonTree E)) : a = b := by
  cases a <;> cases b <;> simp at h
  · rfl
  · rw [str_inj h]

theorem purposeText_inj {a b : ProofPurpose} (h : (purposeText a).toList = (purposeText b).toList) : a = b := by
  cases a <;> cases b <;> first | rfl | (revert h; decide)

/-- `object_inj` by position. -/
theorem object_at {E : Env} {l l' : List (String × Option (Json (Num E.F)))}
    (h : canonTree E (object l) = canonTree E (object l')) (hn : (l.map (·.1)).Nodup) (hn' : (l'.map (·.1)).Nodup)
    (i : Nat) {k : String} {o o' : Option (Json (Num E.F))} (hk : l[i]? = some (k, o)) (hk' : l'[i]? = some (k, o')) :
    o.map (canonTree E) = o'.map (canonTree E) :=
  object_inj hn hn' h (List.mem_of_getElem? hk) (List.mem_of_getElem? hk')

theorem proof_inj {E : Env} {a b : Proof}
    (h : canonTree E (proofObject a) = canonTree E (proofObject b)) : a = b := by
  have f := object_at h (by simp) (by simp)
  obtain ⟨i, t, pp, pv, m, c, e, s⟩ := a
  obtain ⟨i', t', pp', pv', m', c', e', s'⟩ := b
  have h0 := str_inj (Option.some.inj (f 0 rfl rfl))
  have h1 := str_inj (Option.some.inj (f 1 rfl rfl))
  have h2 := purposeText_inj (str_inj (Option.some.inj (f 2 rfl rfl)))
  have h3 := str_inj (Option.some.inj (f 3 rfl rfl))
  have h4 := str_inj (Option.some.inj (f 4 rfl rfl))
  have h5 := optStr_inj (f 5 rfl rfl)
  have h6 := optStr_inj (f 6 rfl rfl)
  have h7 := optStr_inj (f 7 rfl rfl)
  simp only at h0 h1 h2 h3 h4 h5 h6 h7
  subst h0 h1 h2 h3 h4 h5 h6 h7
  rfl

theorem optProof_inj {E : Env} {a b : Option Proof}
    (h : (a.map proofObject).map (canonTree E) = (b.map proofObject).map (canonTree E)) : a = b := by
  cases a <;> cases b <;> simp at h
  · rfl
  · rw [proof_inj h]

/-- Credentials agree, comparing the numbers of the subject by their canonical text. -/
structure Spec.SameVC {E : Env} (a b : VC E) : Prop where
  contexts : a.contexts = b.contexts
  types : a.types = b.types
  subject : a.credentialSubject.1.mapNum E.jcsNum = b.credentialSubject.1.mapNum E.jcsNum
  proof : a.proof = b.proof
  id : a.id = b.id
  issuer : a.issuer = b.issuer

/-- Presentations agree, comparing the embedded credentials as above, position by position. -/
structure Spec.SameVP {E : Env} (a b : VP E) : Prop where
  contexts : a.contexts = b.contexts
  types : a.types = b.types
  credentials : List.Forall₂ SameVC a.verifiableCredential b.verifiableCredential
  proof : a.proof = b.proof
  holder : a.holder = b.holder

theorem vc_inj {E : Env} {a b : VC E} (h : canonTree E (vcObject a) = canonTree E (vcObject b)) : SameVC a b := by
  have nd : ∀ v : VC E, (List.map (fun x : String × Option (Json (Num E.F)) => x.1)
      [("@context", some (strings v.contexts)), ("type", some (strings v.types)),
    ("credentialSubject", some v.credentialSubject.1), ("proof", v.proof.map proofObject),
    ("id", some (.str v.id)), ("issuer", some (.str v.issuer))]).Nodup := by intro v; simp
  have f := object_at h (nd a) (nd b)
  have h0 := strings_inj (Option.some.inj (f 0 rfl rfl))
  have h1 := strings_inj (Option.some.inj (f 1 rfl rfl))
  have h2 := Option.some.inj (f 2 rfl rfl)
  have h3 := optProof_inj (f 3 rfl rfl)
  have h4 := str_inj (Option.some.inj (f 4 rfl rfl))
  have h5 := str_inj (Option.some.inj (f 5 rfl rfl))
  refine ⟨h0, h1, ?_, h3, h4, h5⟩
  exact Json.canon_inj_sorted E.keyLe _ _ (Json.sorted_mapNum _ _ a.credentialSubject.2)
    (Json.sorted_mapNum _ _ b.credentialSubject.2) h2

theorem vcs_inj {E : Env} {a b : List (VC E)}
    (h : canonTree E (.arr (a.map vcObject)) = canonTree E (.arr (b.map vcObject))) : List.Forall₂ SameVC a b := by
  simp only [canonTree, Json.mapNum, mapNumList_eq, Json.canon, canonList_eq, List.map_map, Json.arr.injEq] at h
  induction a generalizing b with
  | nil => cases b <;> simp at h; exact .nil
  | cons x a ih =>
    cases b with
    | nil => simp at h
    | cons y b =>
      simp only [List.map_cons, List.cons.injEq] at h
      exact .cons (vc_inj h.1) (ih h.2)

theorem vp_inj {E : Env} {a b : VP E} (h : canonTree E (vpObject a) = canonTree E (vpObject b)) : SameVP a b := by
  have nd : ∀ v : VP E, (List.map (fun x : String × Option (Json (Num E.F)) => x.1)
      [("@context", some (strings v.contexts)), ("type", some (strings v.types)),
    ("verifiableCredential", some (.arr (v.verifiableCredential.map vcObject))),
    ("proof", v.proof.map proofObject), ("holder", v.holder.map .str)]).Nodup := by intro v; simp
  have f := object_at h (nd a) (nd b)
  exact ⟨strings_inj (Option.some.inj (f 0 rfl rfl)), strings_inj (Option.some.inj (f 1 rfl rfl)),
    vcs_inj (Option.some.inj (f 2 rfl rfl)), optProof_inj (f 3 rfl rfl), optStr_inj (f 4 rfl rfl)⟩

theorem SameVC.mapNum {E : Env} {a b : VC E} (h : SameVC a b) :
    (vcObject a).mapNum E.jcsNum = (vcObject b).mapNum E.jcsNum := by
  obtain ⟨c, t, s, p, i, iss⟩ := a
  obtain ⟨c', t', s', p', i', iss'⟩ := b
  obtain ⟨h1, h2, h3, h4, h5, h6⟩ := h
  simp only at h1 h2 h3 h4 h5 h6
  subst h1 h2 h4 h5 h6
  cases p <;>
    simp [vcObject, object, Json.mapNum, mapNumMembers_eq, h3]

theorem SameVC.canonTree {E : Env} {a b : VC E} (h : SameVC a b) :
    canonTree E (vcObject a) = canonTree E (vcObject b) := by
  unfold Verif.canonTree
  rw [SameVC.mapNum h]

theorem SameVP.canonTree {E : Env} {a b : VP E} (h : SameVP a b) :
    canonTree E (vpObject a) = canonTree E (vpObject b) := by
  obtain ⟨c, t, s, p, i⟩ := a
  obtain ⟨c', t', s', p', i'⟩ := b
  obtain ⟨h1, h2, h3, h4, h5⟩ := h
  simp only at h1 h2 h3 h4 h5
  subst h1 h2 h4 h5
  have key : (Json.arr (s.map vcObject)).mapNum E.jcsNum = (Json.arr (s'.map vcObject)).mapNum E.jcsNum := by
    simp only [Json.mapNum, mapNumList_eq, List.map_map, Json.arr.injEq]
    induction h3 with
    | nil => rfl
    | cons hx _ ih => simp only [List.map_cons, Function.comp, SameVC.mapNum hx, List.cons.injEq, true_and]; exact ih
  unfold Verif.canonTree
  congr 1
  cases p <;> cases i <;>
    simp [vpObject, object, Json.mapNum, mapNumMembers_eq] <;> simpa [Json.mapNum] using key

end Verif
