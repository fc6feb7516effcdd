import Verif.Props.Reader

/-
C50, C51: exactly which byte strings the readers of core/src/verifiable/vc.rs:131-136 and vp.rs:133-138 accept, and
what they return.
-/

namespace Verif.Props
open Verif Spec

/-! ### The text -/

/-- C50: a byte string that is not a JSON text is rejected by both readers. -/
theorem C50_not_json {E : Env} {bs : Bytes} (h : ¬ ∃ r, JsonText r bs) :
    (∃ e, VC.parseJsonBytes E bs = .error (.proofGenerationError e)) ∧
      ∃ e, VP.parseJsonBytes E bs = .error (.proofGenerationError e) := by
  have e : Raw.parse bs = none := by
    cases hp : Raw.parse bs with
    | none => rfl
    | some r => exact absurd ⟨r, (Raw.parse_iff bs r).mp hp⟩ h
  simp only [VC.parseJsonBytes, VP.parseJsonBytes, fromSlice, e]
  exact ⟨⟨_, rfl⟩, ⟨_, rfl⟩⟩

/-- C50: a JSON text has one token tree only. -/
theorem C50_unambiguous {bs : Bytes} {r r' : Raw} (h : JsonText r bs) (h' : JsonText r' bs) : r = r' := by
  have := (Raw.parse_iff bs r).mpr h
  rw [(Raw.parse_iff bs r').mpr h'] at this
  exact (Option.some.inj this).symm

/-- C50: white space around the tokens does not matter: texts of the same token tree are read alike. -/
theorem C50_white_space {E : Env} {bs bs' : Bytes} {r : Raw} (h : JsonText r bs) (h' : JsonText r bs') :
    Alike (VC.parseJsonBytes E bs) (VC.parseJsonBytes E bs') ∧ Alike (VP.parseJsonBytes E bs) (VP.parseJsonBytes E bs') := by
  refine ⟨VC.parse_alike ?_, VP.parse_alike ?_⟩ <;>
    simp only [fromSlice, (Raw.parse_iff _ _).mpr h, (Raw.parse_iff _ _).mpr h']

theorem not_jsonText {bs : Bytes} (h : (Raw.parse bs).isNone = true) : ¬ ∃ r, JsonText r bs := by
  rintro ⟨r, hr⟩
  rw [(Raw.parse_iff bs r).mpr hr] at h
  cases h

/-- `C50_unambiguous`: a text and its only tree. -/
example (r : Raw) (h : JsonText r shortText) : r = .obj shortMembers := C50_unambiguous h shortText_parse

/-- A readable text followed by a stray brace. -/
example : ∃ e, VC.parseJsonBytes Toy.env (shortText ++ [0x7d]) = .error (.proofGenerationError e) :=
  (C50_not_json (not_jsonText (by decide +kernel))).1

/-- A trailing comma. -/
example : ∃ e, VC.parseJsonBytes Toy.env (utf8Encode
    "{\"@context\":[\"c\",],\"type\":[\"t\"],\"credentialSubject\":1,\"id\":\"i\",\"issuer\":\"s\"}".toList)
    = .error (.proofGenerationError e) :=
  (C50_not_json (not_jsonText (by decide +kernel))).1

/-- A number with a leading zero. -/
example : ∃ e, VC.parseJsonBytes Toy.env (utf8Encode
    "{\"@context\":[\"c\"],\"type\":[\"t\"],\"credentialSubject\":01,\"id\":\"i\",\"issuer\":\"s\"}".toList)
    = .error (.proofGenerationError e) :=
  (C50_not_json (not_jsonText (by decide +kernel))).1

/-- White space in front of and behind a readable text. -/
example : Alike (VC.parseJsonBytes Toy.env (0x0a :: shortText ++ [0x20, 0x09])) (VC.parseJsonBytes Toy.env shortText) :=
  (C50_white_space (jsonText_of_same (r := .obj shortMembers) (by decide +kernel)) shortText_parse).1

/-! ### The result -/

/-- C51 (credentials): reading succeeds exactly on the JSON texts that describe a credential whose subject is nested
at most 126 deep, and gives that credential. -/
theorem C51_reads_vc {E : Env} (bs : Bytes) (v : VC E) :
    VC.parseJsonBytes E bs = .ok v ↔ ∃ r, JsonText r bs ∧ ReadsVC E 126 r v := by
  rw [← fromSlice_iff (fun r hr x => readsVC_iff (d := 128) (by omega) r hr x) bs v]
  unfold VC.parseJsonBytes
  cases fromSlice (VC.dec E) bs <;> simp

/-- C51 (presentations): likewise; the subjects of the credentials inside are nested at most 124 deep. -/
theorem C51_reads_vp {E : Env} (bs : Bytes) (v : VP E) :
    VP.parseJsonBytes E bs = .ok v ↔ ∃ r, JsonText r bs ∧ ReadsVP E 124 r v := by
  rw [← fromSlice_iff (fun r hr x => readsVP_iff (d := 128) (by omega) r hr x) bs v]
  unfold VP.parseJsonBytes
  cases fromSlice (VP.dec E) bs <;> simp

/-- C51 (DID documents). -/
theorem C51_reads_doc (bs : Bytes) (v : Doc) : fromSlice Doc.dec bs = some v ↔ ∃ r, JsonText r bs ∧ ReadsDoc r v :=
  fromSlice_iff (fun r hr x => readsDoc_iff (d := 128) (by omega) r hr x) bs v

/-- C51 (proofs). -/
theorem C51_reads_proof (bs : Bytes) (p : Proof) : fromSlice Proof.dec bs = some p ↔ ∃ r, JsonText r bs ∧ ReadsProof r p :=
  fromSlice_iff (fun r hr x => readsProof_iff (d := 128) (by omega) r hr x) bs p

/-- C51 (connection credentials). -/
theorem C51_reads_connection (bs : Bytes) (c : UserConnectionCredential) :
    fromSlice UserConnectionCredential.dec bs = some c ↔ ∃ r, JsonText r bs ∧ ReadsConnection r c :=
  fromSlice_iff (fun r hr x => readsConnection_iff (d := 128) (by omega) r hr x) bs c

/-- C51: what a text describes is unique. -/
theorem C51_unique_vc {E : Env} {bs : Bytes} {r r' : Raw} {v v' : VC E} (h : JsonText r bs) (hv : ReadsVC E 126 r v)
    (h' : JsonText r' bs) (hv' : ReadsVC E 126 r' v') : v = v' := by
  have h1 := (C51_reads_vc bs v).mpr ⟨r, h, hv⟩
  rw [(C51_reads_vc bs v').mpr ⟨r', h', hv'⟩] at h1
  exact (Except.ok.inj h1).symm

/-- C51: what a text describes is unique. -/
theorem C51_unique_vp {E : Env} {bs : Bytes} {r r' : Raw} {v v' : VP E} (h : JsonText r bs) (hv : ReadsVP E 124 r v)
    (h' : JsonText r' bs) (hv' : ReadsVP E 124 r' v') : v = v' := by
  have h1 := (C51_reads_vp bs v).mpr ⟨r, h, hv⟩
  rw [(C51_reads_vp bs v').mpr ⟨r', h', hv'⟩] at h1
  exact (Except.ok.inj h1).symm

/-! ### Examples -/

theorem str_means {F : Type} {fr : Bytes → Option F} {s : Bytes} {t : Str} (h : scanStr (s ++ [0x22]) = some (s, []))
    (hd : decStr s = some t) : ValueMeans fr (.str s) (.str t) := .str (spells_of_dec h hd)

theorem readsText_of_dec {s : Bytes} {t : Str} (h : scanStr (s ++ [0x22]) = some (s, [])) (hd : decStr s = some t) :
    ReadsText (.str s) t := ⟨s, rfl, spells_of_dec h hd⟩

/-- A credential written as an array of its six members, with a repeated name inside the subject and an escaped
character in the id; the empty proof member is `null`. -/
def arrayText : Bytes := utf8Encode
  "[[\"c\"],[\"t\"],{\"b\":1,\"a\":-2,\"b\":\"x\"},null,\"\\ud83d\\ude00\\n\",\"s\"]".toList

/-- Token tree of `arrayText`. -/
def arrayTree : Raw :=
  .arr [.arr [.str [0x63]], .arr [.str [0x74]],
    .obj [([0x62], .num [0x31]), ([0x61], .num [0x2d, 0x32]), ([0x62], .str [0x78])], .null,
    .str (utf8Encode "\\ud83d\\ude00\\n".toList), .str [0x73]]

/-- What `arrayText` is read as. -/
def arrayVC : VC Toy.env :=
  { contexts := [['c']], types := [['t']],
    credentialSubject := ⟨.obj [(['a'], .num (.neg 1)), (['b'], .str ['x'])], by
      simp [Json.Sorted, Json.SortedMembers, KeysSorted, strLt]⟩
    proof := none, id := [Char.ofNat 0x1F600, '\n'], issuer := ['s'] }

/-- `arrayVC` is what the array describes: last `b` wins, the surrogate pair is one character. -/
theorem arrayVC_described : ReadsVC Toy.env 126 arrayTree arrayVC := by
  refine ⟨fun n => if n = "@context" then some (.arr [.str [0x63]]) else if n = "type" then some (.arr [.str [0x74]])
    else if n = "credentialSubject" then
      some (.obj [([0x62], .num [0x31]), ([0x61], .num [0x2d, 0x32]), ([0x62], .str [0x78])])
    else if n = "proof" then some .null
    else if n = "id" then some (.str (utf8Encode "\\ud83d\\ude00\\n".toList)) else some (.str [0x73]), ?_, ?_⟩
  · refine .arr rfl ?_
    intro i n h
    match i, h with
    | 0, h => cases h; rfl
    | 1, h => cases h; rfl
    | 2, h => cases h; rfl
    | 3, h => cases h; rfl
    | 4, h => cases h; rfl
    | 5, h => cases h; rfl
    | i + 6, h => simp at h
  · refine ⟨⟨_, rfl, _, rfl, .cons (readsText_of_dec (by decide) (by decide)) .nil⟩,
      ⟨_, rfl, _, rfl, .cons (readsText_of_dec (by decide) (by decide)) .nil⟩, ⟨_, rfl, by decide, ?_⟩, .inr rfl,
      ⟨_, rfl, readsText_of_dec (by decide +kernel) (by decide +kernel)⟩,
      ⟨_, rfl, readsText_of_dec (by decide) (by decide)⟩⟩
    refine .obj (l := [(['b'], .num (.pos 1)), (['a'], .num (.neg 1)), (['b'], .str ['x'])]) ?_ ?_ ?_
    · refine .cons (spells_of_dec (by decide) (by decide)) (.num ?_)
        (.cons (spells_of_dec (by decide) (by decide)) (.num ?_)
          (.cons (spells_of_dec (by decide) (by decide)) (str_means (by decide) (by decide)) .nil))
      · exact .nat ⟨⟨by simp, by simp [Digit]⟩, by decide⟩
      · exact .neg ⟨by simp, by simp [Digit]⟩ (by decide)
    · exact (increasing_iff _).mpr (by simp [KeysSorted, strLt])
    · intro k v
      have e : btOfList [(['b'], Json.num (.pos 1)), (['a'], .num (.neg 1)), (['b'], .str ['x'])] =
          ([(['a'], .num (.neg 1)), (['b'], .str ['x'])] : List (Str × Json (Num Toy.env.F))) := by
        simp [btOfList, btInsert, strLt]
      rw [← btOfList_mem_iff, e]

/-- `C51_unique_vc`: the only credential this text can stand for. -/
example (r : Raw) (v : VC Toy.env) (h : JsonText r arrayText) (hv : ReadsVC Toy.env 126 r v) : v = arrayVC :=
  C51_unique_vc h hv (jsonText_of_same (by decide +kernel)) arrayVC_described

/-- `C51_unique_vp`: a text with a presentation, which is the only one it can stand for. -/
example : ∃ r v, JsonText r shortVPText ∧ ReadsVP Toy.env 124 r v ∧
    ∀ r' w, JsonText r' shortVPText → ReadsVP Toy.env 124 r' w → w = v := by
  obtain ⟨v, hv⟩ : ∃ v, VP.parseJsonBytes Toy.env shortVPText = .ok v := by
    have := shortVPText_reads
    revert this
    cases VP.parseJsonBytes Toy.env shortVPText with
    | ok v => exact fun _ => ⟨v, rfl⟩
    | error e => exact fun h => nomatch h
  obtain ⟨r, h1, h2⟩ := (C51_reads_vp _ _).mp hv
  exact ⟨r, v, h1, h2, fun r' w h3 h4 => C51_unique_vp h3 h4 h1 h2⟩

example : VC.parseJsonBytes Toy.env arrayText = .ok arrayVC :=
  (C51_reads_vc _ _).mpr ⟨arrayTree, jsonText_of_same (by decide +kernel), arrayVC_described⟩

end Verif.Props
