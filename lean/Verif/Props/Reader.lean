import Verif.Lemmas.Reorder
import Verif.Lemmas.RawEq
import Verif.Lemmas.Reads
import Verif.Props.Wire

/-
C28: what the readers of core/src/verifiable/vc.rs:131-136 and vp.rs:133-138 do with the order of members, with
unknown, repeated and missing members.

`JsonText r bs` says that `bs` is the JSON text of the token tree `r`, `Spells k n` that the string token `k` stands
for the text `n` (`Spec/Grammar.lean`, `Spec/Reads.lean`).
-/

namespace Verif.Props
open Verif Spec

/-! ### C42 -/

/-- C42: a JSON string is read as a purpose iff it spells one of the six names. -/
theorem C42_json (d : Nat) {tok : Bytes} (h : StringText tok) (p : ProofPurpose) :
    ProofPurpose.dec d (.str tok) = some p ↔
      ∃ s, Spells tok s ∧ ((p, s) ∈ purposeNames ∨ (p = .unknown ∧ s = "unknown".toList)) := by
  rw [purpose_dec_str]
  simp only [decStr_iff h]

theorem stringText_of_scan {s : Bytes} (h : scanStr (s ++ [0x22]) = some (s, [])) : StringText s :=
  ((scanStr_iff _ _ _).mp h).1

-- `C42_json`: the first letter escaped: `\u006beyAgreement`
example : StringText (0x5c :: 0x75 :: 0x30 :: 0x30 :: 0x36 :: 0x62 :: encStr "eyAgreement".toList) ∧
    ProofPurpose.dec 9 (.str (0x5c :: 0x75 :: 0x30 :: 0x30 :: 0x36 :: 0x62 :: encStr "eyAgreement".toList)) =
      some .keyAgreement :=
  ⟨stringText_of_scan (by decide +kernel), by decide +kernel⟩

/-! ### Order -/

end Verif.Props

namespace Verif
open Spec

theorem VC.parse_alike {E : Env} {bs bs' : Bytes} (h : fromSlice (VC.dec E) bs = fromSlice (VC.dec E) bs') :
    Alike (VC.parseJsonBytes E bs) (VC.parseJsonBytes E bs') := by
  unfold VC.parseJsonBytes
  rw [h]
  cases fromSlice (VC.dec E) bs' with
  | some v => exact Or.inl rfl
  | none => exact Or.inr ⟨_, _, rfl, rfl⟩

theorem VP.parse_alike {E : Env} {bs bs' : Bytes} (h : fromSlice (VP.dec E) bs = fromSlice (VP.dec E) bs') :
    Alike (VP.parseJsonBytes E bs) (VP.parseJsonBytes E bs') := by
  unfold VP.parseJsonBytes
  rw [h]
  cases fromSlice (VP.dec E) bs' with
  | some v => exact Or.inl rfl
  | none => exact Or.inr ⟨_, _, rfl, rfl⟩

namespace Spec.Alike

theorem refl {α : Type} (x : Except ProofError α) : Alike x x := Or.inl rfl

theorem symm {α : Type} {x y : Except ProofError α} (h : Alike x y) : Alike y x := by
  rcases h with h | ⟨m, m', h, h'⟩
  · exact Or.inl h.symm
  · exact Or.inr ⟨m', m, h', h⟩

/-- Of two results that are alike, one is a success if the other is, with the same value. -/
theorem ok_iff {α : Type} {x y : Except ProofError α} (h : Alike x y) (v : α) : x = .ok v ↔ y = .ok v := by
  rcases h with rfl | ⟨m, m', rfl, rfl⟩
  · rfl
  · simp

theorem eq_of_ok {α : Type} {x y : Except ProofError α} (h : Alike x y) {v : α} (hv : x = .ok v) : x = y :=
  hv.trans ((h.ok_iff v).mp hv).symm

end Spec.Alike

end Verif

namespace Verif.Props
open Verif Spec

/-- C28 (credentials): texts whose token trees differ only in member order, at any depth, are read alike. -/
theorem C28_order_vc {E : Env} {bs bs' : Bytes} {r r' : Raw} (h : JsonText r bs)
    (h' : JsonText r' bs') (hr : Reorder r r') :
    Alike (VC.parseJsonBytes E bs) (VC.parseJsonBytes E bs') := by
  refine VC.parse_alike ?_
  simp only [fromSlice, (Raw.parse_iff _ _).mpr h, (Raw.parse_iff _ _).mpr h', VC.dec_resp E 128 r r' hr]

/-- C28 (presentations). -/
theorem C28_order_vp {E : Env} {bs bs' : Bytes} {r r' : Raw} (h : JsonText r bs)
    (h' : JsonText r' bs') (hr : Reorder r r') :
    Alike (VP.parseJsonBytes E bs) (VP.parseJsonBytes E bs') := by
  refine VP.parse_alike ?_
  simp only [fromSlice, (Raw.parse_iff _ _).mpr h, (Raw.parse_iff _ _).mpr h', VP.dec_resp E 128 r r' hr]

/-- C28 (DID documents). -/
theorem C28_order_doc {bs bs' : Bytes} {r r' : Raw} (h : JsonText r bs)
    (h' : JsonText r' bs') (hr : Reorder r r') : fromSlice Doc.dec bs = fromSlice Doc.dec bs' := by
  simp only [fromSlice, (Raw.parse_iff _ _).mpr h, (Raw.parse_iff _ _).mpr h', Doc.dec_resp 128 r r' hr]

/-- A small credential text, and the same with members reordered on two levels and white space added. -/
def shortText : Bytes := utf8Encode
  "{\"@context\":[\"c\"],\"type\":[\"t\"],\"credentialSubject\":{\"a\":1,\"b\":[true]},\"id\":\"i\",\"issuer\":\"s\"}".toList

/-- See `shortText`. -/
def shortTextMoved : Bytes := utf8Encode
  "{\"issuer\":\"s\", \"id\":\"i\", \"credentialSubject\":{\"b\":[true],\"a\":1},\n\"type\":[\"t\"],\"@context\":[\"c\"]}".toList

/-- Members of `shortText`. -/
def shortMembers : List (Bytes × Raw) :=
  [(utf8Encode "@context".toList, .arr [.str [0x63]]), (utf8Encode "type".toList, .arr [.str [0x74]]),
   (utf8Encode "credentialSubject".toList, .obj [([0x61], .num [0x31]), ([0x62], .arr [.bool true])]),
   (utf8Encode "id".toList, .str [0x69]), (utf8Encode "issuer".toList, .str [0x73])]

/-- Members of `shortTextMoved`. -/
def shortMembersMoved : List (Bytes × Raw) :=
  [(utf8Encode "issuer".toList, .str [0x73]), (utf8Encode "id".toList, .str [0x69]),
   (utf8Encode "credentialSubject".toList, .obj [([0x62], .arr [.bool true]), ([0x61], .num [0x31])]),
   (utf8Encode "type".toList, .arr [.str [0x74]]), (utf8Encode "@context".toList, .arr [.str [0x63]])]

theorem shortText_parse : JsonText (.obj shortMembers) shortText :=
  jsonText_of_same (by decide +kernel)

theorem shortTextMoved_parse : JsonText (.obj shortMembersMoved) shortTextMoved :=
  jsonText_of_same (by decide +kernel)

/-- The text is a readable credential. -/
theorem shortText_reads : (match VC.parseJsonBytes Toy.env shortText with
    | .ok v => decide (v.id = "i".toList ∧ v.contexts = ["c".toList] ∧ v.types = ["t".toList] ∧ v.proof = none)
    | .error _ => false) = true := by decide +kernel

/-- The hypotheses of `C28_order_vc` hold for two different texts of one readable credential. -/
theorem shortText_moved : VC.parseJsonBytes Toy.env shortText = VC.parseJsonBytes Toy.env shortTextMoved := by
  obtain ⟨v, hv⟩ : ∃ v, VC.parseJsonBytes Toy.env shortText = .ok v := by
    have := shortText_reads
    revert this
    cases VC.parseJsonBytes Toy.env shortText with
    | ok v => exact fun _ => ⟨v, rfl⟩
    | error e => exact fun h => nomatch h
  refine Alike.eq_of_ok (C28_order_vc shortText_parse shortTextMoved_parse ?_) hv
  refine .trans (.perm (List.reverse_perm shortMembers).symm (by decide +kernel)) ?_
  exact .member _ [_, _] [_, _] (.perm (.swap _ _ _) (by decide +kernel))

/-! ### Unknown members -/

/-- C28 (credentials): a member with another name than the six of a credential changes nothing, whatever its
value. -/
theorem C28_unknown_vc {E : Env} {bs bs' : Bytes} {pre post : List (Bytes × Raw)} {k : Bytes} {x : Raw} {n : Str}
    (h : JsonText (.obj (pre ++ post)) bs) (h' : JsonText (.obj (pre ++ (k, x) :: post)) bs')
    (hk : Spells k n)
    (hn : n ∉ ["@context", "type", "credentialSubject", "proof", "id", "issuer"].map String.toList) :
    Alike (VC.parseJsonBytes E bs') (VC.parseJsonBytes E bs) := by
  have e := structEquiv_insert (known := VC.fieldNames) (d := 128) pre post x hk.dec hn
  refine VC.parse_alike ?_
  simp only [fromSlice, (Raw.parse_iff _ _).mpr h, (Raw.parse_iff _ _).mpr h', VC.dec, e]

/-- C28 (presentations): likewise for the five names of a presentation. -/
theorem C28_unknown_vp {E : Env} {bs bs' : Bytes} {pre post : List (Bytes × Raw)} {k : Bytes} {x : Raw} {n : Str}
    (h : JsonText (.obj (pre ++ post)) bs) (h' : JsonText (.obj (pre ++ (k, x) :: post)) bs')
    (hk : Spells k n)
    (hn : n ∉ ["@context", "type", "verifiableCredential", "proof", "holder"].map String.toList) :
    Alike (VP.parseJsonBytes E bs') (VP.parseJsonBytes E bs) := by
  have e := structEquiv_insert (known := VP.fieldNames) (d := 128) pre post x hk.dec hn
  refine VP.parse_alike ?_
  simp only [fromSlice, (Raw.parse_iff _ _).mpr h, (Raw.parse_iff _ _).mpr h', VP.dec, e]

/-- An extra member, here with a value no credential member could have, changes nothing. -/
example : Alike (VC.parseJsonBytes Toy.env (utf8Encode
    "{\"@context\":[\"c\"],\"validUntil\":[[-1e9,{}]],\"type\":[\"t\"],\"credentialSubject\":{\"a\":1,\"b\":[true]},\"id\":\"i\",\"issuer\":\"s\"}".toList))
    (VC.parseJsonBytes Toy.env shortText) :=
  C28_unknown_vc (pre := shortMembers.take 1) (post := shortMembers.drop 1) (k := utf8Encode "validUntil".toList)
    (x := .arr [.arr [.num (utf8Encode "-1e9".toList), .obj []]]) (n := "validUntil".toList)
    shortText_parse (jsonText_of_same (by decide +kernel)) (spells_of_dec (by decide +kernel) (by decide +kernel))
    (by decide +kernel)

/-! ### Repeated and missing members -/

/-- C28 (credentials): a repeated member of a credential is an error. -/
theorem C28_duplicate_vc {E : Env} {bs : Bytes} {pre mid post : List (Bytes × Raw)} {k k' : Bytes} {x y : Raw}
    {n : Str} (h : JsonText (.obj (pre ++ (k, x) :: (mid ++ (k', y) :: post))) bs)
    (hk : Spells k n) (hk' : Spells k' n)
    (hn : n ∈ ["@context", "type", "credentialSubject", "proof", "id", "issuer"].map String.toList) :
    ∃ e, VC.parseJsonBytes E bs = .error (.proofGenerationError e) := by
  refine ⟨E.msg (.vc bs), ?_⟩
  have e : structFields VC.fieldNames 128 (.obj (pre ++ (k, x) :: (mid ++ (k', y) :: post))) = none :=
    structFields_duplicate hk.dec hk'.dec hn
  simp only [VC.parseJsonBytes, fromSlice, (Raw.parse_iff _ _).mpr h, VC.dec, e]

/-- C28 (presentations): a repeated member of a presentation is an error. -/
theorem C28_duplicate_vp {E : Env} {bs : Bytes} {pre mid post : List (Bytes × Raw)} {k k' : Bytes} {x y : Raw}
    {n : Str} (h : JsonText (.obj (pre ++ (k, x) :: (mid ++ (k', y) :: post))) bs)
    (hk : Spells k n) (hk' : Spells k' n)
    (hn : n ∈ ["@context", "type", "verifiableCredential", "proof", "holder"].map String.toList) :
    ∃ e, VP.parseJsonBytes E bs = .error (.proofGenerationError e) := by
  refine ⟨E.msg (.vp bs), ?_⟩
  have e : structFields VP.fieldNames 128 (.obj (pre ++ (k, x) :: (mid ++ (k', y) :: post))) = none :=
    structFields_duplicate hk.dec hk'.dec hn
  simp only [VP.parseJsonBytes, fromSlice, (Raw.parse_iff _ _).mpr h, VP.dec, e]

/-- C28 (credentials): every member but `proof` is mandatory. -/
theorem C28_missing_vc {E : Env} {bs : Bytes} {kvs : List (Bytes × Raw)} {n : Str}
    (h : JsonText (.obj kvs) bs) (hm : ∀ kv ∈ kvs, ¬ Spells kv.1 n)
    (hn : n ∈ ["@context", "type", "credentialSubject", "id", "issuer"].map String.toList) :
    ∃ e, VC.parseJsonBytes E bs = .error (.proofGenerationError e) := by
  refine ⟨E.msg (.vc bs), ?_⟩
  simp only [VC.parseJsonBytes, fromSlice, (Raw.parse_iff _ _).mpr h]
  cases hd : VC.dec E 128 (.obj kvs) with
  | none => rfl
  | some v =>
    exfalso
    obtain ⟨fs, hs, h1, h2, h3, _, h5, h6⟩ := VC.dec_some hd
    have hl := structFields_missing hs (not_spells h hm)
    simp only [List.map_cons, List.map_nil, List.mem_cons, List.not_mem_nil, or_false] at hn
    rcases hn with rfl | rfl | rfl | rfl | rfl
    · rw [reqField_missing _ hl] at h1; cases h1
    · rw [reqField_missing _ hl] at h2; cases h2
    · rw [reqField_missing _ hl] at h3; cases h3
    · rw [reqField_missing _ hl] at h5; cases h5
    · rw [reqField_missing _ hl] at h6; cases h6

/-- C28 (presentations): every member but `proof` and `holder` is mandatory. -/
theorem C28_missing_vp {E : Env} {bs : Bytes} {kvs : List (Bytes × Raw)} {n : Str}
    (h : JsonText (.obj kvs) bs) (hm : ∀ kv ∈ kvs, ¬ Spells kv.1 n)
    (hn : n ∈ ["@context", "type", "verifiableCredential"].map String.toList) :
    ∃ e, VP.parseJsonBytes E bs = .error (.proofGenerationError e) := by
  refine ⟨E.msg (.vp bs), ?_⟩
  simp only [VP.parseJsonBytes, fromSlice, (Raw.parse_iff _ _).mpr h]
  cases hd : VP.dec E 128 (.obj kvs) with
  | none => rfl
  | some v =>
    exfalso
    obtain ⟨fs, hs, h1, h2, h3, _⟩ := VP.dec_some hd
    have hl := structFields_missing hs (not_spells h hm)
    simp only [List.map_cons, List.map_nil, List.mem_cons, List.not_mem_nil, or_false] at hn
    rcases hn with rfl | rfl | rfl
    · rw [reqField_missing _ hl] at h1; cases h1
    · rw [reqField_missing _ hl] at h2; cases h2
    · rw [reqField_missing _ hl] at h3; cases h3

/-- Repeating `id`, the second time spelled with an escape, is an error. -/
example : ∃ e, VC.parseJsonBytes Toy.env (utf8Encode
    "{\"id\":\"i\",\"@context\":[\"c\"],\"type\":[\"t\"],\"credentialSubject\":{\"a\":1,\"b\":[true]},\"\\u0069d\":\"i\",\"issuer\":\"s\"}".toList)
    = .error (.proofGenerationError e) :=
  C28_duplicate_vc (pre := []) (mid := shortMembers.take 3) (post := shortMembers.drop 4)
    (k := utf8Encode "id".toList) (k' := utf8Encode "\\u0069d".toList) (x := .str [0x69]) (y := .str [0x69])
    (n := "id".toList) (jsonText_of_same (by decide +kernel)) (spells_of_dec (by decide +kernel) (by decide +kernel))
    (spells_of_dec (by decide +kernel) (by decide +kernel)) (by decide +kernel)

/-- Leaving out `issuer` is an error. -/
example : ∃ e, VC.parseJsonBytes Toy.env (utf8Encode
    "{\"@context\":[\"c\"],\"type\":[\"t\"],\"credentialSubject\":{\"a\":1,\"b\":[true]},\"id\":\"i\"}".toList)
    = .error (.proofGenerationError e) :=
  C28_missing_vc (kvs := shortMembers.take 4) (n := "issuer".toList) (jsonText_of_same (by decide +kernel))
    (not_spells_of_dec (by decide +kernel)) (by decide +kernel)

/-! ### Presentations and DID documents -/

/-- Members of a small presentation text. -/
def shortVPMembers : List (Bytes × Raw) :=
  [(utf8Encode "@context".toList, .arr [.str [0x63]]), (utf8Encode "type".toList, .arr [.str [0x74]]),
   (utf8Encode "verifiableCredential".toList, .arr [.obj shortMembers]), (utf8Encode "holder".toList, .str [0x68])]

/-- The text of a small presentation. -/
def shortVPText : Bytes := utf8Encode
  "{\"@context\":[\"c\"],\"type\":[\"t\"],\"verifiableCredential\":[{\"@context\":[\"c\"],\"type\":[\"t\"],\"credentialSubject\":{\"a\":1,\"b\":[true]},\"id\":\"i\",\"issuer\":\"s\"}],\"holder\":\"h\"}".toList

theorem shortVPText_parse : JsonText (.obj shortVPMembers) shortVPText := jsonText_of_same (by decide +kernel)

/-- The text is a readable presentation. -/
theorem shortVPText_reads : (match VP.parseJsonBytes Toy.env shortVPText with
    | .ok v => decide (v.contexts = ["c".toList] ∧ v.types = ["t".toList] ∧ v.verifiableCredential.length = 1 ∧
        v.holder = some "h".toList ∧ v.proof = none)
    | .error _ => false) = true := by decide +kernel

/-- `C28_order_vc`: two different texts of one readable credential. -/
example : Alike (VC.parseJsonBytes Toy.env shortText) (VC.parseJsonBytes Toy.env shortTextMoved) :=
  C28_order_vc shortText_parse shortTextMoved_parse
    (.trans (.perm (List.reverse_perm shortMembers).symm (by decide +kernel)) (.member _ [_, _] [_, _] (.perm (.swap _ _ _) (by decide +kernel))))

/-- The same presentation with its members in the opposite order. -/
example : Alike (VP.parseJsonBytes Toy.env shortVPText) (VP.parseJsonBytes Toy.env (utf8Encode
    "{\"holder\":\"h\",\"verifiableCredential\":[{\"@context\":[\"c\"],\"type\":[\"t\"],\"credentialSubject\":{\"a\":1,\"b\":[true]},\"id\":\"i\",\"issuer\":\"s\"}],\"type\":[\"t\"],\"@context\":[\"c\"]}".toList)) :=
  C28_order_vp shortVPText_parse (r' := .obj shortVPMembers.reverse) (jsonText_of_same (by decide +kernel))
    (.perm (List.reverse_perm shortVPMembers).symm (by decide +kernel))

/-- With an extra member. -/
example : Alike (VP.parseJsonBytes Toy.env (utf8Encode
    "{\"@context\":[\"c\"],\"id\":null,\"type\":[\"t\"],\"verifiableCredential\":[{\"@context\":[\"c\"],\"type\":[\"t\"],\"credentialSubject\":{\"a\":1,\"b\":[true]},\"id\":\"i\",\"issuer\":\"s\"}],\"holder\":\"h\"}".toList))
    (VP.parseJsonBytes Toy.env shortVPText) :=
  C28_unknown_vp (pre := shortVPMembers.take 1) (post := shortVPMembers.drop 1) (k := utf8Encode "id".toList)
    (x := .null) (n := "id".toList) shortVPText_parse (jsonText_of_same (by decide +kernel))
    (spells_of_dec (by decide +kernel) (by decide +kernel)) (by decide +kernel)

/-- With `holder` twice: an error. -/
example : ∃ e, VP.parseJsonBytes Toy.env (utf8Encode
    "{\"holder\":\"h\",\"@context\":[\"c\"],\"type\":[\"t\"],\"verifiableCredential\":[{\"@context\":[\"c\"],\"type\":[\"t\"],\"credentialSubject\":{\"a\":1,\"b\":[true]},\"id\":\"i\",\"issuer\":\"s\"}],\"holder\":\"h\"}".toList)
    = .error (.proofGenerationError e) :=
  C28_duplicate_vp (pre := []) (mid := shortVPMembers.take 3) (post := shortVPMembers.drop 4)
    (k := utf8Encode "holder".toList) (k' := utf8Encode "holder".toList) (x := .str [0x68]) (y := .str [0x68])
    (n := "holder".toList) (jsonText_of_same (by decide +kernel)) (spells_of_dec (by decide +kernel) (by decide +kernel))
    (spells_of_dec (by decide +kernel) (by decide +kernel)) (by decide +kernel)

/-- Without credentials: an error. -/
example : ∃ e, VP.parseJsonBytes Toy.env (utf8Encode "{\"@context\":[\"c\"],\"type\":[\"t\"]}".toList)
    = .error (.proofGenerationError e) :=
  C28_missing_vp (kvs := shortVPMembers.take 2) (n := "verifiableCredential".toList)
    (jsonText_of_same (by decide +kernel)) (not_spells_of_dec (by decide +kernel)) (by decide +kernel)

/-- Two members of a DID document exchanged. -/
example : fromSlice Doc.dec (utf8Encode "{\"id\":\"i\",\"@context\":[\"c\"]}".toList) =
    fromSlice Doc.dec (utf8Encode "{\"@context\":[\"c\"],\"id\":\"i\"}".toList) :=
  C28_order_doc (r := .obj [(utf8Encode "id".toList, .str [0x69]), (utf8Encode "@context".toList, .arr [.str [0x63]])])
    (r' := .obj [(utf8Encode "@context".toList, .arr [.str [0x63]]), (utf8Encode "id".toList, .str [0x69])])
    (jsonText_of_same (by decide +kernel)) (jsonText_of_same (by decide +kernel)) (.perm (.swap _ _ _) (by decide +kernel))

end Verif.Props
