import Verif.Props.Pads

/-
C110: a vault of a caller of the library that takes no two records on one pad: the key stores of
core/src/keys/verification.rs:48-58, core/src/keys/agreement.rs:34-44 and core/src/identity/mod.rs:153-199 draw salt and
nonce anew at every call and look at no earlier record (C96). The vault compares the records and has an identity exported
again when they repeat.
-/

namespace Verif.Vault
open Verif

/-- Caller's code: the comparison of costs, salt and decoded nonce. -/
def clash (a b : KeySecure) : Bool :=
  decide (a.kdfParams = b.kdfParams) && decide (a.salt = b.salt) &&
    match hexDecode a.nonce, hexDecode b.nonce with
    | some x, some y => decide (x = y)
    | _, _ => false

/-- Caller's code: one record is taken, unless a kept one clashes with it. -/
def put (v : List KeySecure) (ks : KeySecure) : Option (List KeySecure) :=
  if v.any (clash ks) then none else some (ks :: v)

/-- Caller's code: all records are taken or none. -/
def putAll : List KeySecure → List KeySecure → Option (List KeySecure)
  | v, [] => some v
  | v, ks :: rest => (put v ks).bind fun v' => putAll v' rest

/-- The records of an export in the order of the value: `IdentityPrivateKeyPairs`, core/src/keys/secure.rs:76-81. -/
def recordsOf (out : IdentityPrivateKeyPairs) : List KeySecure :=
  let pairs : Option PrivateKeyPairs → List KeySecure
    | none => []
    | some p => [p.verification, p.aggrement]
  pairs out.authentication ++ pairs out.assertion

/-- Caller's code: `build_private_keys` (core/src/identity/mod.rs:153-199) is called until its records are taken; the
values drawn by the calls are the arguments. -/
def save {E : Env} (v : List KeySecure) (i : Identity E) (pw : Str) :
    List PrivateKeysRandom → Option (IdentityPrivateKeyPairs × List KeySecure)
  | [] => none
  | r :: rs =>
    match i.buildPrivateKeys r pw with
    | .error _ => save v i pw rs
    | .ok out =>
      match putAll v (recordsOf out) with
      | some v' => some (out, v')
      | none => save v i pw rs

/-- What is asked of the vault: to keep a record from anywhere, or to export an identity. -/
inductive Step (E : Env) where
  | record (ks : KeySecure)
  | identity (i : Identity E) (pw : Str) (draws : List PrivateKeysRandom)

/-- Caller's code: a request that is refused changes nothing. -/
def step {E : Env} (v : List KeySecure) : Step E → List KeySecure
  | .record ks => (put v ks).getD v
  | .identity i pw draws => ((save v i pw draws).map (·.2)).getD v

/-- The vault after a history. -/
def run {E : Env} (steps : List (Step E)) : List KeySecure := steps.foldl step []

end Verif.Vault

namespace Verif.Spec
open Verif

/-- Neither among themselves nor with the kept ones do two of the records lie on one pad. -/
def NoPad (kept records : List KeySecure) : Prop :=
  (∀ ks ∈ records, ∀ k ∈ kept, ¬ OnePad ks k) ∧ records.Pairwise fun x y => ¬ OnePad x y

/-- The record is opened with this key and this nonce under the password. -/
def OpenedBy (E : Env) (pw : Str) (ks : KeySecure) (key nonce : Bytes) : Prop :=
  E.kdf ks.kdfParams pw (utf8 ks.salt) = .ok key ∧ IsHexAny nonce ks.nonce

end Verif.Spec

namespace Verif.Props
open Verif Spec

theorem onePad_symm {a b : KeySecure} (h : OnePad a b) : OnePad b a := by
  obtain ⟨h1, h2, n, h3, h4⟩ := h
  exact ⟨h1.symm, h2.symm, n, h4, h3⟩

/-- C110: the comparison says exactly whether two records are on one pad. -/
theorem C110_clash (a b : KeySecure) : Vault.clash a b = true ↔ OnePad a b := by
  unfold Vault.clash OnePad
  rw [Bool.and_eq_true, Bool.and_eq_true, decide_eq_true_iff, decide_eq_true_iff, and_assoc]
  refine and_congr_right fun _ => and_congr_right fun _ => ?_
  constructor
  · intro h
    split at h
    · rename_i x y hx hy
      have e := of_decide_eq_true h
      subst e
      exact ⟨x, (hexDecode_iff _ _).mp hx, (hexDecode_iff _ _).mp hy⟩
    · cases h
  · rintro ⟨n, h1, h2⟩
    rw [(hexDecode_iff _ _).mpr h1, (hexDecode_iff _ _).mpr h2]
    exact decide_eq_true rfl

/-- C110: a record is taken exactly if no kept record is on one pad with it. -/
theorem C110_put (v v' : List KeySecure) (ks : KeySecure) :
    Vault.put v ks = some v' ↔ v' = ks :: v ∧ ∀ k ∈ v, ¬ OnePad ks k := by
  unfold Vault.put
  by_cases h : v.any (Vault.clash ks) = true
  · rw [if_pos h]
    constructor
    · intro e; cases e
    · rintro ⟨-, hn⟩
      obtain ⟨k, hk, hc⟩ := List.any_eq_true.mp h
      exact absurd ((C110_clash _ _).mp hc) (hn k hk)
  · rw [if_neg h]
    constructor
    · intro e
      refine ⟨(Option.some.inj e).symm, fun k hk o => h ?_⟩
      exact List.any_eq_true.mpr ⟨k, hk, (C110_clash _ _).mpr o⟩
    · rintro ⟨rfl, -⟩; rfl

/-- C110: several records are taken exactly if no two of them and none of them with a kept one are on one pad; then all
are kept, and the kept ones too. -/
theorem C110_all (records v v' : List KeySecure) :
    Vault.putAll v records = some v' ↔ v' = records.reverse ++ v ∧ NoPad v records := by
  induction records generalizing v with
  | nil =>
    unfold Vault.putAll NoPad
    constructor
    · intro e; exact ⟨(Option.some.inj e).symm, (fun _ h => nomatch h), List.Pairwise.nil⟩
    · rintro ⟨rfl, -⟩; rfl
  | cons ks rest ih =>
    unfold Vault.putAll
    rw [Option.bind_eq_some_iff]
    constructor
    · rintro ⟨w, hw, h⟩
      obtain ⟨rfl, h1⟩ := (C110_put _ _ _).mp hw
      obtain ⟨rfl, h2, h3⟩ := (ih _).mp h
      refine ⟨by simp, ?_, List.pairwise_cons.mpr ⟨fun x hx o => ?_, h3⟩⟩
      · intro x hx k hk
        rcases List.mem_cons.mp hx with rfl | hx
        · exact h1 k hk
        · exact h2 x hx k (List.mem_cons_of_mem _ hk)
      · exact h2 x hx ks List.mem_cons_self (onePad_symm o)
    · rintro ⟨rfl, h2, h3⟩
      obtain ⟨h4, h5⟩ := List.pairwise_cons.mp h3
      refine ⟨ks :: v, (C110_put _ _ _).mpr ⟨rfl, h2 ks List.mem_cons_self⟩, (ih _).mpr ⟨by simp, ?_, h5⟩⟩
      intro x hx k hk
      rcases List.mem_cons.mp hk with rfl | hk
      · exact fun o => h4 x hx (onePad_symm o)
      · exact h2 x (List.mem_cons_of_mem _ hx) k hk

theorem recordsOf_eq (out : IdentityPrivateKeyPairs) : Vault.recordsOf out = exportedRecords out := by
  obtain ⟨i, a, b⟩ := out
  cases a <;> cases b <;> rfl

/-- C110: an export is kept exactly with the first call whose records fit; the calls before it failed or repeated. -/
theorem C110_save {E : Env} (v : List KeySecure) (i : Identity E) (pw : Str) (draws : List PrivateKeysRandom)
    (out : IdentityPrivateKeyPairs) (v' : List KeySecure) :
    Vault.save v i pw draws = some (out, v') ↔
      ∃ before r after, draws = before ++ r :: after ∧ i.buildPrivateKeys r pw = .ok out ∧ NoPad v (exportedRecords out) ∧
        v' = (exportedRecords out).reverse ++ v ∧
        ∀ b ∈ before, ∀ o, i.buildPrivateKeys b pw = .ok o → ¬ NoPad v (exportedRecords o) := by
  have later : ∀ {r rs}, (∀ o, i.buildPrivateKeys r pw = .ok o → ¬ NoPad v (exportedRecords o)) →
      ((∃ before r' after, rs = before ++ r' :: after ∧ i.buildPrivateKeys r' pw = .ok out ∧ NoPad v (exportedRecords out) ∧
        v' = (exportedRecords out).reverse ++ v ∧
        ∀ b ∈ before, ∀ o, i.buildPrivateKeys b pw = .ok o → ¬ NoPad v (exportedRecords o)) ↔
      ∃ before r' after, r :: rs = before ++ r' :: after ∧ i.buildPrivateKeys r' pw = .ok out ∧
        NoPad v (exportedRecords out) ∧ v' = (exportedRecords out).reverse ++ v ∧
        ∀ b ∈ before, ∀ o, i.buildPrivateKeys b pw = .ok o → ¬ NoPad v (exportedRecords o)) := by
    intro r rs hr
    constructor
    · rintro ⟨b, r', a, rfl, h1, h2, h3, h4⟩
      refine ⟨r :: b, r', a, rfl, h1, h2, h3, fun x hx => ?_⟩
      rcases List.mem_cons.mp hx with rfl | hx
      · exact hr
      · exact h4 x hx
    · rintro ⟨b, r', a, e, h1, h2, h3, h4⟩
      cases b with
      | nil =>
        cases e
        exact absurd h2 (hr _ h1)
      | cons x b =>
        cases e
        exact ⟨b, r', a, rfl, h1, h2, h3, fun y hy => h4 y (List.mem_cons_of_mem _ hy)⟩
  induction draws with
  | nil =>
    constructor
    · intro e; cases e
    · rintro ⟨b, r, a, e, -⟩
      cases b <;> cases e
  | cons r rs ih =>
    unfold Vault.save
    split
    · rename_i e he
      exact ih.trans (later fun o ho => by rw [he] at ho; cases ho)
    · rename_i o ho
      rw [recordsOf_eq]
      split
      · rename_i w hw
        obtain ⟨rfl, hn⟩ := (C110_all _ _ _).mp hw
        constructor
        · intro e
          cases e
          exact ⟨[], r, rs, rfl, ho, hn, rfl, (fun _ h => nomatch h)⟩
        · rintro ⟨b, r', a, e, h1, h2, rfl, h4⟩
          cases b with
          | nil =>
            cases e
            rw [ho] at h1
            cases h1
            rfl
          | cons x b =>
            cases e
            exact absurd hn (h4 r List.mem_cons_self o ho)
      · rename_i hw
        refine ih.trans (later fun o' ho' hn => ?_)
        rw [ho] at ho'
        cases ho'
        rw [(C110_all _ _ _).mpr ⟨rfl, hn⟩] at hw
        cases hw

/-- C110: an export is refused exactly if every call failed or repeated. -/
theorem C110_refused {E : Env} (v : List KeySecure) (i : Identity E) (pw : Str) (draws : List PrivateKeysRandom) :
    Vault.save v i pw draws = none ↔
      ∀ r ∈ draws, ∀ o, i.buildPrivateKeys r pw = .ok o → ¬ NoPad v (exportedRecords o) := by
  induction draws with
  | nil => exact ⟨(fun _ _ h => nomatch h), fun _ => rfl⟩
  | cons r rs ih =>
    unfold Vault.save
    rw [List.forall_mem_cons, ← ih]
    split
    · rename_i e he
      exact ⟨fun h => ⟨(fun o ho => by rw [he] at ho; cases ho), h⟩, fun h => h.2⟩
    · rename_i o ho
      rw [recordsOf_eq]
      split
      · rename_i w hw
        constructor
        · intro e; cases e
        · intro h
          exact absurd ((C110_all _ _ _).mp hw).2 (h.1 o ho)
      · rename_i hw
        refine ⟨fun h => ⟨fun o' ho' hn => ?_, h⟩, fun h => h.2⟩
        rw [ho] at ho'
        cases ho'
        rw [(C110_all _ _ _).mpr ⟨rfl, hn⟩] at hw
        cases hw

theorem noPad_append {v records : List KeySecure} (hv : v.Pairwise fun x y => ¬ OnePad x y) (h : NoPad v records) :
    (records.reverse ++ v).Pairwise fun x y => ¬ OnePad x y := by
  rw [List.pairwise_append]
  refine ⟨?_, hv, fun x hx k hk => h.1 x (List.mem_reverse.mp hx) k hk⟩
  rw [List.pairwise_reverse]
  exact h.2.imp fun hn o => hn (onePad_symm o)

/-- One request: the vault stays, or records without a common pad are put on top of it. -/
theorem vault_step {E : Env} (v : List KeySecure) (s : Vault.Step E) :
    ∃ records, Vault.step v s = records.reverse ++ v ∧ NoPad v records := by
  have none' : NoPad v [] := ⟨(fun _ h => nomatch h), List.Pairwise.nil⟩
  cases s with
  | record ks =>
    rw [show Vault.step v (.record (E := E) ks) = (Vault.put v ks).getD v from rfl]
    cases h : Vault.put v ks with
    | none => exact ⟨[], rfl, none'⟩
    | some w =>
      obtain ⟨rfl, hn⟩ := (C110_put _ _ _).mp h
      refine ⟨[ks], rfl, fun x hx => ?_, List.pairwise_singleton _ _⟩
      rw [List.mem_singleton.mp hx]
      exact hn
  | identity i pw draws =>
    rw [show Vault.step v (.identity i pw draws) = ((Vault.save v i pw draws).map (·.2)).getD v from rfl]
    cases h : Vault.save v i pw draws with
    | none => exact ⟨[], rfl, none'⟩
    | some w =>
      obtain ⟨out, w⟩ := w
      obtain ⟨_, _, _, -, -, hn, rfl, -⟩ := (C110_save _ _ _ _ _ _).mp h
      exact ⟨_, rfl, hn⟩

/-- C110: after every history no two kept records are on one pad, whoever made them and whatever was drawn. -/
theorem C110_never {E : Env} (steps : List (Vault.Step E)) :
    (Vault.run steps).Pairwise fun x y => ¬ OnePad x y := by
  have go : ∀ (steps : List (Vault.Step E)) v, v.Pairwise (fun x y => ¬ OnePad x y) →
      (steps.foldl Vault.step v).Pairwise fun x y => ¬ OnePad x y := by
    intro steps
    induction steps with
    | nil => exact fun v h => h
    | cons s rest ih =>
      intro v h
      obtain ⟨records, e, hn⟩ := vault_step v s
      rw [List.foldl_cons]
      refine ih _ ?_
      rw [e]
      exact noPad_append h hn
  exact go steps [] List.Pairwise.nil

/-- C110: nothing that was kept is lost or changed by later requests. -/
theorem C110_keeps {E : Env} (steps more : List (Vault.Step E)) :
    Vault.run steps <:+ Vault.run (steps ++ more) := by
  have go : ∀ (more : List (Vault.Step E)) v, v <:+ more.foldl Vault.step v := by
    intro more
    induction more with
    | nil => exact fun v => List.suffix_refl v
    | cons s rest ih =>
      intro v
      obtain ⟨records, e, -⟩ := vault_step v s
      rw [List.foldl_cons]
      exact (e ▸ List.suffix_append _ _ : v <:+ Vault.step v s).trans (ih _)
  unfold Vault.run
  rw [List.foldl_append]
  exact go more _

/-- C110: what is left for one key and one nonce to open two kept records is that Argon2 gives this key for two different
pairs of costs and salt. -/
theorem C110_streams {E : Env} (steps : List (Vault.Step E)) (n m : Nat) (a b : KeySecure) (hnm : n ≠ m)
    (ha : (Vault.run steps)[n]? = some a) (hb : (Vault.run steps)[m]? = some b) (pw pw' : Str) (key nonce : Bytes)
    (oa : OpenedBy E pw a key nonce) (ob : OpenedBy E pw' b key nonce) :
    (a.kdfParams ≠ b.kdfParams ∨ a.salt ≠ b.salt) ∧ E.kdf a.kdfParams pw (utf8 a.salt) = E.kdf b.kdfParams pw' (utf8 b.salt) := by
  refine ⟨?_, oa.1.trans ob.1.symm⟩
  have pw' : ¬ OnePad a b := by
    obtain ⟨hn, ea⟩ := List.getElem?_eq_some_iff.mp ha
    obtain ⟨hm, eb⟩ := List.getElem?_eq_some_iff.mp hb
    have P := List.pairwise_iff_getElem.mp (C110_never steps)
    rcases Nat.lt_or_gt_of_ne hnm with h | h
    · have := P n m hn hm h
      rwa [ea, eb] at this
    · have := P m n hm hn h
      rw [ea, eb] at this
      exact fun o => this (onePad_symm o)
  by_contra hne
  rw [not_or, not_not, not_not] at hne
  exact pw' ⟨hne.1, hne.2, nonce, oa.2, ob.2⟩

/-- C110: over records of the library the vault asks for no more than a salt or a nonce that was not drawn before. -/
theorem C110_fresh {E : Env} (v : List KeySecure) (used : List ExportRandom)
    (hv : ∀ k ∈ v, ∃ u ∈ used, ∃ pw, StoredWith E u pw k) (i : Identity E) (pw : Str) (draws : List PrivateKeysRandom)
    (r : PrivateKeysRandom) (hr : r ∈ draws) (out : IdentityPrivateKeyPairs) (h : i.buildPrivateKeys r pw = .ok out)
    (hp : [r.authVerification, r.authAgreement, r.assertionVerification, r.assertionAgreement].Pairwise
      fun x y => x.salt ≠ y.salt ∨ x.nonce ≠ y.nonce)
    (hu : ∀ x ∈ [r.authVerification, r.authAgreement, r.assertionVerification, r.assertionAgreement], ∀ u ∈ used,
      x.salt ≠ u.salt ∨ x.nonce ≠ u.nonce) :
    ∃ kept, Vault.save v i pw draws = some kept := by
  obtain ⟨s1, s2, s3⟩ := C96_identity i r pw out h
  have made : ∀ ks ∈ exportedRecords out, ∃ x ∈ [r.authVerification, r.authAgreement, r.assertionVerification,
      r.assertionAgreement], StoredWith E x pw ks := by
    intro ks hk
    rw [← recordsOf_eq] at hk
    unfold Vault.recordsOf at hk
    rcases List.mem_append.mp hk with hk | hk
    · cases ha : out.authentication with
      | none => rw [ha] at hk; cases hk
      | some p =>
        rw [ha] at hk
        obtain ⟨a1, a2⟩ := s1 p ha
        rcases List.mem_cons.mp hk with rfl | hk
        · exact ⟨_, by simp, a1⟩
        · rw [List.mem_singleton.mp hk]; exact ⟨_, by simp, a2⟩
    · cases ha : out.assertion with
      | none => rw [ha] at hk; cases hk
      | some p =>
        rw [ha] at hk
        obtain ⟨a1, a2⟩ := s2 p ha
        rcases List.mem_cons.mp hk with rfl | hk
        · exact ⟨_, by simp, a1⟩
        · rw [List.mem_singleton.mp hk]; exact ⟨_, by simp, a2⟩
  have hn : NoPad v (exportedRecords out) := by
    refine ⟨fun ks hk k hkv o => ?_, s3 hp⟩
    obtain ⟨x, hx, sx⟩ := made ks hk
    obtain ⟨u, hu', pw', su⟩ := hv k hkv
    obtain ⟨e1, e2⟩ := (C96_repeats sx su).mp o
    rcases hu x hx u hu' with hd | hd
    · exact hd e1
    · exact hd e2
  cases hs : Vault.save v i pw draws with
  | some kept => exact ⟨kept, rfl⟩
  | none => exact absurd hn ((C110_refused _ _ _ _).mp hs r hr out h)

/-! ### Cases -/

/-- `C110_clash`: capital digits of the nonce do not hide a repetition; another salt and a nonce that is no hexadecimal
text do not clash. -/
example : Vault.clash ⟨"00".toList, "ab".toList, ⟨1, 2, 3, 4⟩, "s".toList⟩ ⟨"11".toList, "AB".toList, ⟨1, 2, 3, 4⟩, "s".toList⟩ = true ∧
    Vault.clash ⟨"00".toList, "ab".toList, ⟨1, 2, 3, 4⟩, "s".toList⟩ ⟨"00".toList, "ab".toList, ⟨1, 2, 3, 4⟩, "t".toList⟩ = false ∧
    Vault.clash ⟨"00".toList, "x".toList, ⟨1, 2, 3, 4⟩, "s".toList⟩ ⟨"00".toList, "x".toList, ⟨1, 2, 3, 4⟩, "s".toList⟩ = false := by
  decide

/-- One value for all four calls. -/
def sameRandoms : PrivateKeysRandom := ⟨toyRandom, toyRandom, toyRandom, toyRandom⟩

/-- `C110_save`, `C110_refused`, `C110_fresh`: an export with repeated values is refused and made again with others; once
it is kept, the same values are refused. -/
example : ∃ out v, Vault.save [] (idRun "did:x".toList standardOps) "pw".toList [sameRandoms] = none ∧
    Vault.save [] (idRun "did:x".toList standardOps) "pw".toList [sameRandoms, fourRandoms] = some (out, v) ∧
    (idRun "did:x".toList standardOps).buildPrivateKeys fourRandoms "pw".toList = .ok out ∧
    Vault.save v (idRun "did:x".toList standardOps) "pw".toList [fourRandoms] = none := by
  have ex := fun r => (C81_exports standard_texts standard_standard.actual "did:x".toList standardOps r "pw".toList).mpr
    ⟨fun _ => ⟨standard_derives _ _, standard_derives _ _⟩, fun _ => ⟨standard_derives _ _, standard_derives _ _⟩⟩
  obtain ⟨same, hs⟩ := ex sameRandoms
  obtain ⟨out, h⟩ := ex fourRandoms
  have some' : ∀ {r o}, (idRun "did:x".toList standardOps).buildPrivateKeys r "pw".toList = .ok o →
      ∃ p, o.authentication = some p ∧ p.verification ∈ exportedRecords o := by
    intro r o h
    obtain ⟨-, ⟨p, _, _, hp, -⟩, -⟩ := (C62_export _ _ _ _ _).mp h
    refine ⟨p, hp, ?_⟩
    rw [← recordsOf_eq]
    unfold Vault.recordsOf
    rw [hp]
    simp
  have bad : ∀ v, ¬ NoPad v (exportedRecords same) := by
    intro v hn
    obtain ⟨p, hp, -⟩ := some' hs
    obtain ⟨s1, s2⟩ := (C96_identity _ _ _ _ hs).1 p hp
    have P := hn.2
    rw [← recordsOf_eq] at P
    unfold Vault.recordsOf at P
    rw [hp] at P
    exact (List.pairwise_cons.mp P).1 p.aggrement (by simp) ((C96_repeats s1 s2).mpr ⟨rfl, rfl⟩)
  have good : NoPad [] (exportedRecords out) :=
    ⟨(fun _ _ _ h => nomatch h), (C96_identity _ _ _ _ h).2.2 (by unfold fourRandoms toyRandom; decide)⟩
  refine ⟨out, _, (C110_refused _ _ _ _).mpr ?_, (C110_save _ _ _ _ _ _).mpr
    ⟨[sameRandoms], fourRandoms, [], rfl, h, good, rfl, ?_⟩, h, (C110_refused _ _ _ _).mpr ?_⟩
  · intro r hr o ho
    rw [List.mem_singleton.mp hr, hs] at ho
    cases ho
    exact bad _
  · intro r hr o ho
    rw [List.mem_singleton.mp hr, hs] at ho
    cases ho
    exact bad _
  · intro r hr o ho hn
    rw [List.mem_singleton.mp hr, h] at ho
    cases ho
    obtain ⟨p, hp, hm⟩ := some' h
    obtain ⟨s1, -⟩ := (C96_identity _ _ _ _ h).1 p hp
    exact hn.1 _ hm p.verification (List.mem_append_left _ (List.mem_reverse.mpr hm))
      ((C96_repeats s1 s1).mpr ⟨rfl, rfl⟩)

/-- `C110_never`, `C110_keeps`: of three records two are kept, the one that repeats is not. -/
example : Vault.run (E := standard) [.record ⟨"00".toList, "ab".toList, ⟨1, 2, 3, 4⟩, "s".toList⟩,
      .record ⟨"11".toList, "AB".toList, ⟨1, 2, 3, 4⟩, "s".toList⟩, .record ⟨"22".toList, "ac".toList, ⟨1, 2, 3, 4⟩, "s".toList⟩] =
    [⟨"22".toList, "ac".toList, ⟨1, 2, 3, 4⟩, "s".toList⟩, ⟨"00".toList, "ab".toList, ⟨1, 2, 3, 4⟩, "s".toList⟩] := by
  decide

/-- `C110_streams`: where Argon2 is replaced by a constant, one key and one nonce open two kept records; their salts
differ. -/
example : ∃ a b, (Vault.run (E := { standard with kdf := fun _ _ _ => .ok (List.replicate 32 0) })
      [.record ⟨"00".toList, "ab".toList, ⟨1, 2, 3, 4⟩, "s".toList⟩, .record ⟨"11".toList, "ab".toList, ⟨1, 2, 3, 4⟩, "t".toList⟩]) =
        [b, a] ∧
    OpenedBy { standard with kdf := fun _ _ _ => .ok (List.replicate 32 0) } "pw".toList a (List.replicate 32 0) [0xab] ∧
    OpenedBy { standard with kdf := fun _ _ _ => .ok (List.replicate 32 0) } "pw".toList b (List.replicate 32 0) [0xab] ∧
    a.salt ≠ b.salt :=
  ⟨_, _, rfl, ⟨rfl, (hexDecode_iff _ _).mp (by decide)⟩, ⟨rfl, (hexDecode_iff _ _).mp (by decide)⟩, by decide⟩

end Verif.Props
