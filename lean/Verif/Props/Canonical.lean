import Verif.Props.Replay
import Verif.Lemmas.Canonical
import Verif.Lemmas.Reads

/-
C53: canonical text as a transport format. What `to_jcs` writes can be read back, gives the same document up to
number spelling, and is verified like the document itself.
-/

namespace Verif

open Spec

/-- Every number of the value, written canonically, is read as a number with the same canonical text. (2.0, written
`2`, is read as the integer 2, which is written `2`.) -/
def Spec.Rereads (E : Env) (j : Json (Num E.F)) : Prop :=
  ∀ n ∈ j.nums, ∃ m, NumMeans E.floatParse (E.jcsNum n) m ∧ E.jcsNum m = E.jcsNum n

/-- What the reader makes of a number printed by `serde_jcs`. -/
def rejcs (E : Env) (n : Num E.F) : Num E.F := (decNum E.floatParse (E.jcsNum n)).getD n

theorem rereads_iff {E : Env} (L : E.JcsLaws) (j : Json (Num E.F)) :
    Rereads E j ↔ ∀ n ∈ j.nums, decNum E.floatParse (E.jcsNum n) = some (rejcs E n) ∧
      E.jcsNum (rejcs E n) = E.jcsNum n := by
  unfold Rereads rejcs
  constructor
  · intro h n hn
    obtain ⟨m, h1, h2⟩ := h n hn
    rw [(decNum_iff _ ((isNumTok_iff _).mp (L.num_tok n)) m).mpr h1]
    exact ⟨rfl, h2⟩
  · intro h n hn
    exact ⟨_, (decNum_iff _ ((isNumTok_iff _).mp (L.num_tok n)) _).mp (h n hn).1, (h n hn).2⟩

theorem rejcs_same {E : Env} (L : E.JcsLaws) {j : Json (Num E.F)} (h : Rereads E j) :
    (j.mapNum (rejcs E)).mapNum E.jcsNum = j.mapNum E.jcsNum := by
  rw [Json.mapNum_mapNum]
  exact Json.mapNum_congr j fun n hn => ((rereads_iff L j).mp h n hn).2

/-- Conversely. -/
theorem rereads_of_read {E : Env} (L : E.JcsLaws) (v w : Value E) {d : Nat} (hd : v.1.depth < d)
    (h : decValue E.floatParse d (v.1.toRaw E.jcsNum) = some w.1)
    (hs : w.1.mapNum E.jcsNum = v.1.mapNum E.jcsNum) : Rereads E v.1 := by
  have hn : ∀ n ∈ v.1.nums, decNum E.floatParse (E.jcsNum n) = some (rejcs E n) := by
    intro n hn
    obtain ⟨m, hm⟩ := Option.isSome_iff_exists.mp (decValue_nums _ _ h n hn)
    unfold rejcs
    rw [hm]; rfl
  rw [decValue_toRaw v.1 hn v.2 d hd] at h
  rw [← Option.some.inj h, Json.mapNum_mapNum] at hs
  rw [rereads_iff L]
  exact fun n hm => ⟨hn n hm, (Json.eq_of_mapNum v.1 hs) n hm⟩

theorem VC.same_mapNum {E : Env} (L : E.JcsLaws) (v : VC E) (h : Rereads E v.credentialSubject.1) :
    SameVC v (v.mapNum (rejcs E)) :=
  ⟨rfl, rfl, (rejcs_same L h).symm, rfl, rfl, rfl⟩

theorem VP.same_mapNum {E : Env} (L : E.JcsLaws) (v : VP E)
    (h : ∀ c ∈ v.verifiableCredential, Rereads E c.credentialSubject.1) : SameVP v (v.mapNum (rejcs E)) := by
  refine ⟨rfl, rfl, ?_, rfl, rfl⟩
  show List.Forall₂ SameVC v.verifiableCredential (v.verifiableCredential.map (VC.mapNum (rejcs E)))
  generalize v.verifiableCredential = l at h
  induction l with
  | nil => exact .nil
  | cons x l ih =>
    exact .cons (VC.same_mapNum L x (h x (by simp))) (ih fun c hc => h c (by simp [hc]))

theorem optAll_cons {α β : Type} {f : α → Option β} {a : α} {l : List α} {b : β} {m : List β}
    (h : optAll f (a :: l) = some (b :: m)) : f a = some b ∧ optAll f l = some m := by
  simp only [optAll] at h
  cases ha : f a with
  | none => simp [ha] at h
  | some x =>
    cases hl : optAll f l with
    | none => simp [ha, hl] at h
    | some y => simp only [ha, hl, Option.some.injEq, List.cons.injEq] at h; simp [h]

theorem VC.parse_jcs {E : Env} (L : E.JcsLaws) (v : VC E) :
    VC.parseJsonBytes E (utf8Encode (jcsText E v.toTree)) =
      (match VC.dec E 128 (v.toTree.toRaw E.jcsNum) with
        | some w => .ok w
        | none => .error (.proofGenerationError (E.msg (.vc (utf8Encode (jcsText E v.toTree)))))) := by
  unfold VC.parseJsonBytes
  rw [fromSlice_jcs L _ (VC.dec_resp E) _ (by rw [vc_tree]; exact vc_distinct v)]
  cases VC.dec E 128 (v.toTree.toRaw E.jcsNum) <;> rfl

theorem VP.parse_jcs {E : Env} (L : E.JcsLaws) (v : VP E) :
    VP.parseJsonBytes E (utf8Encode (jcsText E v.toTree)) =
      (match VP.dec E 128 (v.toTree.toRaw E.jcsNum) with
        | some w => .ok w
        | none => .error (.proofGenerationError (E.msg (.vp (utf8Encode (jcsText E v.toTree)))))) := by
  unfold VP.parseJsonBytes
  rw [fromSlice_jcs L _ (VP.dec_resp E) _ (by rw [vp_tree]; exact vp_distinct v)]
  cases VP.dec E 128 (v.toTree.toRaw E.jcsNum) <;> rfl

end Verif

namespace Verif.Props
open Verif Spec

/-! ### C53 -/

theorem VCComplete.same {E : Env} {v w : VC E} (h : SameVC v w) (hv : VCComplete v) : VCComplete w := by
  refine ⟨h.contexts ▸ hv.1, h.types ▸ hv.2.1, ?_⟩
  intro e
  have := h.subject
  rw [e] at this
  simp only [Json.mapNum] at this
  have h3 := hv.2.2
  cases hs : v.credentialSubject.1 <;> rw [hs] at this h3 <;> simp [Json.mapNum] at this
  exact h3 rfl

theorem VPComplete.same {E : Env} {v w : VP E} (h : SameVP v w) (hv : VPComplete v) : VPComplete w := by
  refine ⟨h.contexts ▸ hv.1, h.types ▸ hv.2.1, ?_⟩
  intro e
  have := h.credentials
  rw [e] at this
  cases hs : v.verifiableCredential with
  | nil => exact hv.2.2 hs
  | cons _ _ => rw [hs] at this; cases this

/-- C53: the canonical text of a credential is read as the same credential, up to number spelling, exactly when its
numbers allow it; written again it gives the same text. -/
theorem C53_vc {E : Env} (L : E.JcsLaws) (v : VC E) (hv : VCComplete v) (hd : v.credentialSubject.1.depth ≤ 126) :
    ∃ t, v.toJcs = .ok t ∧
      ((∃ w, VC.parseJsonBytes E (utf8 t) = .ok w ∧ SameVC v w) ↔ Rereads E v.credentialSubject.1) ∧
      ∀ w, VC.parseJsonBytes E (utf8 t) = .ok w → SameVC v w → w.toJcs = .ok t := by
  have ht : v.toJcs = .ok (jcsText E v.toTree) := by unfold VC.toJcs; rw [(C24_validate v).1.mpr hv]
  refine ⟨_, ht, ⟨?_, ?_⟩, ?_⟩
  · rintro ⟨w, h1, h2⟩
    rw [utf8_eq, VC.parse_jcs L] at h1
    cases hw : VC.dec E 128 (v.toTree.toRaw E.jcsNum) with
    | none => rw [hw] at h1; cases h1
    | some x =>
      rw [hw] at h1
      have e : x = w := Except.ok.inj h1
      rw [e] at hw
      exact rereads_of_read L v.credentialSubject w.credentialSubject (d := 127) (by omega)
        (VC.dec_subject v w 128 (by omega) hw) h2.subject.symm
  · intro hn
    refine ⟨v.mapNum (rejcs E), ?_, VC.same_mapNum L v hn⟩
    rw [utf8_eq, VC.parse_jcs L,
      VC.dec_toTree v (fun n hm => ((rereads_iff L _).mp hn n hm).1) 128 (by omega) (by omega)]
  · intro w _ h
    rw [← ht]
    exact ((C29_vc L v w hv (VCComplete.same h hv)).mpr h).symm

/-- C53: the same for presentations. -/
theorem C53_vp {E : Env} (L : E.JcsLaws) (v : VP E) (hv : VPComplete v)
    (hd : ∀ c ∈ v.verifiableCredential, c.credentialSubject.1.depth ≤ 124) :
    ∃ t, v.toJcs = .ok t ∧
      ((∃ w, VP.parseJsonBytes E (utf8 t) = .ok w ∧ SameVP v w) ↔
        ∀ c ∈ v.verifiableCredential, Rereads E c.credentialSubject.1) ∧
      ∀ w, VP.parseJsonBytes E (utf8 t) = .ok w → SameVP v w → w.toJcs = .ok t := by
  have ht : v.toJcs = .ok (jcsText E v.toTree) := by unfold VP.toJcs; rw [(C25_validate v).1.mpr hv]
  refine ⟨_, ht, ⟨?_, ?_⟩, ?_⟩
  · rintro ⟨w, h1, h2⟩
    rw [utf8_eq, VP.parse_jcs L] at h1
    cases hw : VP.dec E 128 (v.toTree.toRaw E.jcsNum) with
    | none => rw [hw] at h1; cases h1
    | some x =>
      rw [hw] at h1
      have e : x = w := Except.ok.inj h1
      rw [e] at hw
      have hc := VP.dec_credentials v w 128 (by omega) hw
      have hs := h2.credentials
      generalize v.verifiableCredential = l at hc hs hd
      generalize w.verifiableCredential = m at hc hs
      induction hs with
      | nil => simp
      | @cons a b l m hab hlm ih =>
        obtain ⟨hb, hm⟩ := optAll_cons hc
        intro c hc
        rcases List.mem_cons.mp hc with rfl | hc
        · exact rereads_of_read L c.credentialSubject b.credentialSubject (d := 125)
            (by have := hd c (by simp); omega) (VC.dec_subject c b 126 (by omega) hb) hab.subject.symm
        · exact ih (fun c hc => hd c (by simp [hc])) hm c hc
  · intro hn
    refine ⟨v.mapNum (rejcs E), ?_, VP.same_mapNum L v hn⟩
    rw [utf8_eq, VP.parse_jcs L,
      VP.dec_toTree v (fun c hc n hm => ((rereads_iff L _).mp (hn c hc) n hm).1) 128 (by omega)
        (fun c hc => by have := hd c hc; omega)]
  · intro w _ h
    rw [← ht]
    exact ((C29_vp L v w hv (VPComplete.same h hv)).mpr h).symm

theorem vcBytes_of_same {E : Env} (L : E.JcsLaws) {v w : VC E} (h : SameVC v w) : vcBytes v = vcBytes w := by
  unfold vcBytes
  rw [← jcsText_eq L _ (vc_distinct v), ← jcsText_eq L _ (vc_distinct w), jcsText_congr (SameVC.canonTree h)]

theorem vpBytes_of_same {E : Env} (L : E.JcsLaws) {v w : VP E} (h : SameVP v w) : vpBytes v = vpBytes w := by
  unfold vpBytes
  rw [← jcsText_eq L _ (vp_distinct v), ← jcsText_eq L _ (vp_distinct w), jcsText_congr (SameVP.canonTree h)]

theorem accepted_of_same_vc {E : Env} (L : E.JcsLaws) {v w : VC E} (h : SameVC v w) {bs bs' : Bytes}
    (hb : VC.parseJsonBytes E bs = .ok v) (hb' : VC.parseJsonBytes E bs' = .ok w) {pub : E.EdPub}
    {purpose : ProofPurpose} (ha : AcceptedVC pub bs purpose v) : AcceptedVC pub bs' purpose w := by
  obtain ⟨_, r, hr, hok⟩ := ha
  obtain ⟨v', p, a1, a2, a3, a4, a5, a6, a7, _⟩ := (C33_vc L pub bs purpose r).mp ⟨hr, hok⟩
  rw [hb] at a1; cases a1
  have hu : SameVC (unsignedVC v) (unsignedVC w) := ⟨h.contexts, h.types, h.subject, rfl, h.id, h.issuer⟩
  rw [vcBytes_of_same L hu] at a7
  exact ⟨hb', _, (C33_vc L pub bs' purpose ⟨true, some (unsignedVC w)⟩).mpr
    ⟨w, p, hb', h.proof ▸ a2, a3, a4, a5, VCComplete.same h a6, a7, rfl⟩⟩

theorem accepted_of_same_vp {E : Env} (L : E.JcsLaws) {v w : VP E} (h : SameVP v w) {bs bs' : Bytes}
    (hb : VP.parseJsonBytes E bs = .ok v) (hb' : VP.parseJsonBytes E bs' = .ok w) {pub : E.EdPub}
    {purpose : ProofPurpose} (ha : AcceptedVP pub bs purpose v) : AcceptedVP pub bs' purpose w := by
  obtain ⟨_, r, hr, hok⟩ := ha
  obtain ⟨v', p, a1, a2, a3, a4, a5, a6, a7, _⟩ := (C33_vp L pub bs purpose r).mp ⟨hr, hok⟩
  rw [hb] at a1; cases a1
  have hu : SameVP (unsignedVP v) (unsignedVP w) := ⟨h.contexts, h.types, h.credentials, rfl, h.holder⟩
  rw [vpBytes_of_same L hu] at a7
  exact ⟨hb', _, (C33_vp L pub bs' purpose ⟨true, some (unsignedVP w)⟩).mpr
    ⟨w, p, hb', h.proof ▸ a2, a3, a4, a5, VPComplete.same h a6, a7, rfl⟩⟩

theorem SameVC.symm {E : Env} {v w : VC E} (h : SameVC v w) : SameVC w v :=
  ⟨h.contexts.symm, h.types.symm, h.subject.symm, h.proof.symm, h.id.symm, h.issuer.symm⟩

theorem SameVP.symm {E : Env} {v w : VP E} (h : SameVP v w) : SameVP w v :=
  ⟨h.contexts.symm, h.types.symm, (List.Forall₂.imp (fun _ _ h => SameVC.symm h) h.credentials).flip, h.proof.symm,
    h.holder.symm⟩

/-- C53: a credential is accepted from one text exactly when it is accepted from any other text of the same
document up to number spelling, whatever the order of members, white space, escapes and unknown members. -/
theorem C53_same_verdict_vc {E : Env} (L : E.JcsLaws) (v w : VC E) (h : SameVC v w) (bs bs' : Bytes)
    (hb : VC.parseJsonBytes E bs = .ok v) (hb' : VC.parseJsonBytes E bs' = .ok w) (pub : E.EdPub)
    (purpose : ProofPurpose) : AcceptedVC pub bs purpose v ↔ AcceptedVC pub bs' purpose w :=
  ⟨accepted_of_same_vc L h hb hb', accepted_of_same_vc L (SameVC.symm h) hb' hb⟩

/-- C53: the same for presentations. -/
theorem C53_same_verdict_vp {E : Env} (L : E.JcsLaws) (v w : VP E) (h : SameVP v w) (bs bs' : Bytes)
    (hb : VP.parseJsonBytes E bs = .ok v) (hb' : VP.parseJsonBytes E bs' = .ok w) (pub : E.EdPub)
    (purpose : ProofPurpose) : AcceptedVP pub bs purpose v ↔ AcceptedVP pub bs' purpose w :=
  ⟨accepted_of_same_vp L h hb hb', accepted_of_same_vp L (SameVP.symm h) hb' hb⟩

/-- C53: a signed credential sent as canonical text is accepted, and the document handed out is the one that was
signed, up to number spelling. -/
theorem C53_sent_vc {E : Env} (L : E.JcsLaws) (K : E.EdLaws) (kp : E.EdKP) (v : VC E) (opts : Proof)
    (hv : VCComplete v) (hproof : v.proof = none) (ho : GoodOptions E opts) (hp : opts.proofPurpose ≠ .unknown)
    (hval : opts.proofValue = []) (hd : v.credentialSubject.1.depth ≤ 126) (hn : Rereads E v.credentialSubject.1) :
    ∃ signed t w, sign E (VC E) kp v opts = .ok signed ∧ signed.toJcs = .ok t ∧ SameVC v w ∧
      verify E (VC E) (E.edPub kp) (utf8 t) opts.proofPurpose = .ok ⟨true, some w⟩ := by
  obtain ⟨c, t, s, pr, i, iss⟩ := v
  obtain ⟨oi, ot, op, ov, om, oc, oe, os⟩ := opts
  simp only at hproof hval
  subst hproof hval
  obtain ⟨text, htext⟩ : ∃ text, IsMultibase58 (E.edSign kp (message E
    (optionBytes E ⟨oi, ot, op, [], om, oc, oe, os⟩) (vcBytes (E := E) ⟨c, t, s, none, i, iss⟩))) text := ⟨_, multibaseEncode58_spec _⟩
  have hs := ((C32_vc L kp ⟨c, t, s, none, i, iss⟩ ⟨oi, ot, op, [], om, oc, oe, os⟩).1 _).mpr ⟨ho, hp, hv, _, htext, rfl⟩
  obtain ⟨tx, h1, h2, _⟩ := C53_vc L (⟨c, t, s, some ⟨oi, ot, op, text, om, oc, oe, os⟩, i, iss⟩ : VC E) hv hd
  obtain ⟨w, h3, h4⟩ := h2.mpr hn
  have hu : SameVC (⟨c, t, s, none, i, iss⟩ : VC E) (unsignedVC w) :=
    ⟨h4.contexts, h4.types, h4.subject, rfl, h4.id, h4.issuer⟩
  refine ⟨_, tx, unsignedVC w, hs, h1, hu, ?_⟩
  have hw : w.proof = some ⟨oi, ot, op, text, om, oc, oe, os⟩ := h4.proof.symm
  refine ((C33_vc L (E.edPub kp) (utf8 tx) op ⟨true, some (unsignedVC w)⟩).mpr
    ⟨w, _, h3, hw, ⟨ho.1, ho.2, ho.3⟩, rfl, hp, VCComplete.same h4 hv, ?_, rfl⟩).1
  rw [← vcBytes_of_same L hu]
  exact ⟨_, _, _, .base58 htext, hexEncode_spec _, K.verify_sign kp _⟩

/-- C53: the same for presentations. -/
theorem C53_sent_vp {E : Env} (L : E.JcsLaws) (K : E.EdLaws) (kp : E.EdKP) (v : VP E) (opts : Proof)
    (hv : VPComplete v) (hproof : v.proof = none) (ho : GoodOptions E opts) (hp : opts.proofPurpose ≠ .unknown)
    (hval : opts.proofValue = []) (hd : ∀ c ∈ v.verifiableCredential, c.credentialSubject.1.depth ≤ 124)
    (hn : ∀ c ∈ v.verifiableCredential, Rereads E c.credentialSubject.1) :
    ∃ signed t w, sign E (VP E) kp v opts = .ok signed ∧ signed.toJcs = .ok t ∧ SameVP v w ∧
      verify E (VP E) (E.edPub kp) (utf8 t) opts.proofPurpose = .ok ⟨true, some w⟩ := by
  obtain ⟨c, t, s, pr, i⟩ := v
  obtain ⟨oi, ot, op, ov, om, oc, oe, os⟩ := opts
  simp only at hproof hval
  subst hproof hval
  obtain ⟨text, htext⟩ : ∃ text, IsMultibase58 (E.edSign kp (message E
    (optionBytes E ⟨oi, ot, op, [], om, oc, oe, os⟩) (vpBytes (E := E) ⟨c, t, s, none, i⟩))) text := ⟨_, multibaseEncode58_spec _⟩
  have hs := ((C32_vp L kp ⟨c, t, s, none, i⟩ ⟨oi, ot, op, [], om, oc, oe, os⟩).1 _).mpr ⟨ho, hp, hv, _, htext, rfl⟩
  obtain ⟨tx, h1, h2, _⟩ := C53_vp L (⟨c, t, s, some ⟨oi, ot, op, text, om, oc, oe, os⟩, i⟩ : VP E) hv hd
  obtain ⟨w, h3, h4⟩ := h2.mpr hn
  have hu : SameVP (⟨c, t, s, none, i⟩ : VP E) (unsignedVP w) :=
    ⟨h4.contexts, h4.types, h4.credentials, rfl, h4.holder⟩
  refine ⟨_, tx, unsignedVP w, hs, h1, hu, ?_⟩
  have hw : w.proof = some ⟨oi, ot, op, text, om, oc, oe, os⟩ := h4.proof.symm
  refine ((C33_vp L (E.edPub kp) (utf8 tx) op ⟨true, some (unsignedVP w)⟩).mpr
    ⟨w, _, h3, hw, ⟨ho.1, ho.2, ho.3⟩, rfl, hp, VPComplete.same h4 hv, ?_, rfl⟩).1
  rw [← vpBytes_of_same L hu]
  exact ⟨_, _, _, .base58 htext, hexEncode_spec _, K.verify_sign kp _⟩

theorem toy_rereads (j : Json (Num Toy.env.F)) : Rereads Toy.env j := by
  rw [rereads_iff Toy.jcsLaws]
  intro n _
  have h : decNum Toy.env.floatParse (Toy.env.jcsNum n) = some n := by
    refine (decNum_printNum (fr := Toy.env.floatParse) Toy.numLaws n).trans ?_
    cases n with
    | pos _ => rfl
    | neg _ => rfl
    | float f => cases f <;> rfl
  unfold rejcs
  rw [h]
  exact ⟨rfl, rfl⟩

/-- `C53_vp` and `C53_same_verdict_vp`: the canonical text of the sample presentation is read as the same presentation, and
both it and the JSON text have the same verdicts. -/
example : ∃ t t' w, toyVP.toJcs = .ok t ∧ toyVP.toJson = .ok t' ∧ VP.parseJsonBytes Toy.env (utf8 t) = .ok w ∧ w.toJcs = .ok t ∧
    ∀ pub purpose, AcceptedVP pub t'.toBytes purpose toyVP ↔ AcceptedVP pub (utf8 t) purpose w := by
  obtain ⟨t, h1, h2, h3⟩ := C53_vp Toy.jcsLaws toyVP ⟨by decide, by decide, by simp [toyVP]⟩
    (by simp [toyVP, toyVC, toySubject, Json.depth, Json.depthMembers])
  obtain ⟨w, hw, hs⟩ := h2.mpr fun _ _ => toy_rereads _
  obtain ⟨t', h4, h5⟩ := C27_json_roundtrip Toy.numLaws toyVP ⟨by decide, by decide, by simp [toyVP]⟩ (fun _ _ => Toy.survives _)
    (by simp [toyVP, toyVC, toySubject, Json.depth, Json.depthMembers])
  exact ⟨t, t', w, h1, h4, hw, h3 w hw hs, C53_same_verdict_vp Toy.jcsLaws toyVP w hs _ _ h5 hw⟩

/-- The same for `C53_vc` and `C53_same_verdict_vc`. -/
example : ∃ t t' w, toyVC.toJcs = .ok t ∧ toyVC.toJson = .ok t' ∧ VC.parseJsonBytes Toy.env (utf8 t) = .ok w ∧ w.toJcs = .ok t ∧
    ∀ pub purpose, AcceptedVC pub t'.toBytes purpose toyVC ↔ AcceptedVC pub (utf8 t) purpose w := by
  obtain ⟨t, h1, h2, h3⟩ := C53_vc Toy.jcsLaws toyVC toyVC_complete
    (by simp [toyVC, toySubject, Json.depth, Json.depthMembers])
  obtain ⟨w, hw, hs⟩ := h2.mpr (toy_rereads _)
  obtain ⟨t', h4, h5⟩ := C26_json_roundtrip Toy.numLaws toyVC toyVC_complete (Toy.survives _)
    (by simp [toyVC, toySubject, Json.depth, Json.depthMembers])
  exact ⟨t, t', w, h1, h4, hw, h3 w hw hs, C53_same_verdict_vc Toy.jcsLaws toyVC w hs _ _ h5 hw⟩

/-- The sample credential and presentation, signed and sent as canonical text. -/
example : ∃ signed t w, sign Toy.env (VC Toy.env) (7 : UInt8) toyVC toyProof = .ok signed ∧ signed.toJcs = .ok t ∧
    SameVC toyVC w ∧ verify Toy.env (VC Toy.env) (7 : UInt8) (utf8 t) .assertionMethod = .ok ⟨true, some w⟩ :=
  C53_sent_vc Toy.jcsLaws Toy.edLaws (7 : UInt8) toyVC toyProof toyVC_complete rfl toyProof_good (by decide) rfl
    (by simp [toyVC, toySubject, Json.depth, Json.depthMembers]) (toy_rereads _)
example : ∃ signed t w, sign Toy.env (VP Toy.env) (7 : UInt8) toyVP toyProof = .ok signed ∧ signed.toJcs = .ok t ∧
    SameVP toyVP w ∧ verify Toy.env (VP Toy.env) (7 : UInt8) (utf8 t) .assertionMethod = .ok ⟨true, some w⟩ :=
  C53_sent_vp Toy.jcsLaws Toy.edLaws (7 : UInt8) toyVP toyProof ⟨by decide, by decide, by simp [toyVP]⟩ rfl
    toyProof_good (by decide) rfl
    (by simp [toyVP, toyVC, toySubject, Json.depth, Json.depthMembers]) (fun _ _ => toy_rereads _)

/-- An environment in which one float is written canonically as the integer 2. -/
def wholeEnv : Env :=
  { Toy.env with jcsNum := fun n => match n with
      | .float (false : Bool) => [0x32]
      | n => printNum Toy.fprint n }

theorem wholeEnv_jcsLaws : wholeEnv.JcsLaws :=
  ⟨fun n => by
    show IsNumTok (match n with
      | .float (false : Bool) => [0x32]
      | n => printNum Toy.fprint n)
    split
    · decide
    · exact printNum_tok Toy.numLaws.tok _, Toy.jcsLaws.2, Toy.jcsLaws.3, Toy.jcsLaws.4⟩

/-- A credential about 2.0. -/
def wholeVC : VC wholeEnv := ⟨["c".toList], ["t".toList], ⟨.num (.float (false : Bool)), trivial⟩, none, [], []⟩

/-- Its canonical text is read as a credential about 2: a different value, the same canonical text. -/
example : ∃ t w, wholeVC.toJcs = .ok t ∧ VC.parseJsonBytes wholeEnv (utf8 t) = .ok w ∧ SameVC wholeVC w := by
  have hr : Rereads wholeEnv wholeVC.credentialSubject.1 := by
    intro n hn
    have e : n = .float (false : Bool) := by simpa [wholeVC, Json.nums] using hn
    subst e
    refine ⟨.pos ⟨2, by omega⟩, ?_, by decide⟩
    exact (decNum_iff (F := Bool) _ ((isNumTok_iff _).mp (by decide)) _).mp (by rfl)
  obtain ⟨t, h1, h2, _⟩ := C53_vc wholeEnv_jcsLaws wholeVC ⟨by simp [wholeVC], by simp [wholeVC], by simp [wholeVC]⟩
    (by simp [wholeVC, Json.depth])
  obtain ⟨w, h3, h4⟩ := h2.mpr hr
  exact ⟨t, w, h1, h3, h4⟩

end Verif.Props
