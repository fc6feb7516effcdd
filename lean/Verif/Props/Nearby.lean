import Verif.Concrete.DoubleNear
import Verif.Props.Numbers

/-
C89: how far floating point numbers move when documents are sent as JSON text
(core/src/verifiable/vc.rs:71-95 and 131-136, core/src/verifiable/vp.rs:77-99 and 133-138; `Verif/Concrete/Double.lean`).
-/

namespace Verif.Spec
open Verif
open Verif.Double (F64)

/-- Of the same sign, and at most `n` places apart in the order of doubles. -/
def Places (n : Nat) (f g : F64) : Prop := g.neg = f.neg ∧ g.mag.1 ≤ f.mag.1 + n ∧ f.mag.1 ≤ g.mag.1 + n

/-- What may be read for a number sent in canonical text: integers as they are, doubles as an integer they are the nearest double
to (so 2.0 as 2), or as a double at most three places away, two from `10^-291`. -/
inductive Nearby {E : Env} (bits : E.F → F64) : Num E.F → Num E.F → Prop
  | pos (n) : Nearby bits (.pos n) (.pos n)
  | neg (k) : Nearby bits (.neg k) (.neg k)
  | asPos {f n} : Nearest (bits f).mag n.1 → ((bits f).neg = true → (bits f).mag.1 = 0) → Nearby bits (.float f) (.pos n)
  | asNeg {f k} : Nearest (bits f).mag ((k.1 + 1 : Nat) : ℚ) → (bits f).neg = true → Nearby bits (.float f) (.neg k)
  | asFloat {f g} : Places 3 (bits f) (bits g) → ((10 : ℚ) ^ (-291 : Int) ≤ ieee (bits f).mag → Places 2 (bits f) (bits g)) →
      Nearby bits (.float f) (.float g)

/-- `w` is what is left of `v` after it was written as JSON text and read again `n` times. -/
inductive RelayedVC {E : Env} : Nat → VC E → VC E → Prop
  | here (v : VC E) : RelayedVC 0 v v
  | step {n : Nat} {u v w : VC E} {t : JSONValue} : RelayedVC n u v → v.toJson = .ok t →
      VC.parseJsonBytes E (utf8 t.text) = .ok w → RelayedVC (n + 1) u w

inductive RelayedVP {E : Env} : Nat → VP E → VP E → Prop
  | here (v : VP E) : RelayedVP 0 v v
  | step {n : Nat} {u v w : VP E} {t : JSONValue} : RelayedVP n u v → v.toJson = .ok t →
      VP.parseJsonBytes E (utf8 t.text) = .ok w → RelayedVP (n + 1) u w

end Verif.Spec

namespace Verif.Props
open Verif Spec
open Verif.Double (F64)

variable {E : Env} {bits : E.F → F64}

/-- C89: a number is always read back from its text, with its sign, at most three places away; from `10^-291` upwards at most
two places, and changed by less than a `2^50`th. -/
theorem C89_number (N : Doubles E bits) (f : E.F) : ∃ g, E.floatParse (E.floatPrint f) = some g ∧ Places 3 (bits f) (bits g) ∧
    ((10 : ℚ) ^ (-291 : Int) ≤ ieee (bits f).mag → Places 2 (bits f) (bits g) ∧
      |ieee (bits g).mag - ieee (bits f).mag| ≤ ieee (bits f).mag / 2 ^ 50) := by
  obtain ⟨g, h1, h2, h3, h4, h5⟩ := Double.parse_print (bits f)
  rw [← N.print, ← N.parse, Option.map_eq_some_iff] at h1
  obtain ⟨g, hg, rfl⟩ := h1
  refine ⟨g, hg, ⟨h2, h3, h4⟩, fun hv => ?_⟩
  rw [Double.ieee_eq] at hv ⊢
  obtain ⟨h6, h7⟩ := h5 hv
  refine ⟨⟨h2, h6, h7⟩, ?_⟩
  rw [Double.ieee_eq]
  exact Double.places_ratio hv h6 h7

/-- What a number is read back as. -/
def readBack (E : Env) (f : E.F) : E.F := (E.floatParse (E.floatPrint f)).getD f

theorem readBack_spec (N : Doubles E bits) (f : E.F) : E.floatParse (E.floatPrint f) = some (readBack E f) := by
  obtain ⟨g, hg, -⟩ := C89_number N f
  unfold readBack
  rw [hg]; rfl

theorem readBack_of {f g : E.F} (h : E.floatParse (E.floatPrint f) = some g) : readBack E f = g := by
  unfold readBack
  rw [h]; rfl

theorem Places.trans {m n : Nat} {f g h : F64} (a : Places m f g) (b : Places n g h) : Places (m + n) f h := by
  obtain ⟨a1, a2, a3⟩ := a
  obtain ⟨b1, b2, b3⟩ := b
  exact ⟨b1.trans a1, by omega, by omega⟩

theorem readBack_iterate (N : Doubles E bits) (n : Nat) (f : E.F) : Places (3 * n) (bits f) (bits ((readBack E)^[n] f)) := by
  induction n with
  | zero => exact ⟨rfl, by simp, by simp⟩
  | succ n ih =>
    rw [Function.iterate_succ_apply', Nat.mul_succ]
    refine Places.trans ih ?_
    obtain ⟨g, hg, hp, -⟩ := C89_number N ((readBack E)^[n] f)
    rw [readBack_spec N] at hg
    cases hg
    exact hp

theorem vc_readBack (N : Doubles E bits) (v : VC E) (hv : VCComplete v) (hd : v.credentialSubject.1.depth ≤ 126) :
    ∃ t, v.toJson = .ok t ∧ VC.parseJsonBytes E (utf8 t.text) = .ok (v.mapNum (rereadNum E (readBack E))) := by
  obtain ⟨t, h1, h2⟩ := C26_reread (C80_laws N).1 v hv (readBack E) (fun f _ => readBack_spec N f) hd
  have e : JSONValue.toBytes t = utf8 t.text := (utf8_eq _).symm
  rw [e] at h2
  exact ⟨t, h1, h2⟩

theorem vp_parse_text (L : E.NumLaws) (v : VP E) {w : VP E} (h : VP.dec E 128 (v.toTree.toRaw (printNum E.floatPrint)) = some w) :
    VP.parseJsonBytes E (utf8 (jsonText E v.toTree)) = .ok w := by
  rw [utf8_eq]
  unfold VP.parseJsonBytes
  rw [fromSlice_text L, h]

theorem vp_text (v : VP E) (hv : VPComplete v) : v.toJson = .ok ⟨jsonText E v.toTree⟩ := by
  unfold VP.toJson; rw [(C25_validate v).1.mpr hv]; rfl

theorem vp_readBack (N : Doubles E bits) (v : VP E) (hv : VPComplete v)
    (hd : ∀ c ∈ v.verifiableCredential, c.credentialSubject.1.depth ≤ 124) :
    ∃ t, v.toJson = .ok t ∧ VP.parseJsonBytes E (utf8 t.text) = .ok (v.mapNum (rereadNum E (readBack E))) := by
  have L := (C80_laws N).1
  have hρ : ∀ c ∈ v.verifiableCredential, ∀ f, Num.float f ∈ c.credentialSubject.1.nums →
      E.floatParse (E.floatPrint f) = some (readBack E f) := fun c _ f _ => readBack_spec N f
  have h1 := vp_text v hv
  have h2 := vp_parse_text L v (VP.dec_toTree v (fun c hc => decNum_reread L (hρ c hc)) 128 (by omega)
    (fun c hc => by have := hd c hc; omega))
  generalize jsonText E v.toTree = y at *
  exact ⟨⟨y⟩, h1, h2⟩

theorem readBack_near (N : Doubles E bits) (f : E.F) : Places 3 (bits f) (bits (readBack E f)) ∧
    ((10 : ℚ) ^ (-291 : Int) ≤ ieee (bits f).mag → Places 2 (bits f) (bits (readBack E f)) ∧
      |ieee (bits (readBack E f)).mag - ieee (bits f).mag| ≤ ieee (bits f).mag / 2 ^ 50) := by
  obtain ⟨g, hg, h⟩ := C89_number N f
  rw [readBack_spec N] at hg
  cases hg
  exact h

/-- C89: a credential is always read from its own JSON text, as it was but for the floating point numbers of its subject
(`ρ` says what becomes of each), which stay that close. -/
theorem C89_vc (N : Doubles E bits) (v : VC E) (hv : VCComplete v) (hd : v.credentialSubject.1.depth ≤ 126) :
    ∃ (t : JSONValue) (ρ : E.F → E.F), v.toJson = .ok t ∧
      VC.parseJsonBytes E (utf8 t.text) = .ok { v with credentialSubject := v.credentialSubject.mapNum (rereadNum E ρ) } ∧
      ∀ f, Places 3 (bits f) (bits (ρ f)) ∧ ((10 : ℚ) ^ (-291 : Int) ≤ ieee (bits f).mag → Places 2 (bits f) (bits (ρ f)) ∧
        |ieee (bits (ρ f)).mag - ieee (bits f).mag| ≤ ieee (bits f).mag / 2 ^ 50) := by
  obtain ⟨t, h1, h2⟩ := vc_readBack N v hv hd
  exact ⟨t, readBack E, h1, h2, readBack_near N⟩

/-- C89: the same for presentations. -/
theorem C89_vp (N : Doubles E bits) (v : VP E) (hv : VPComplete v)
    (hd : ∀ c ∈ v.verifiableCredential, c.credentialSubject.1.depth ≤ 124) :
    ∃ (t : JSONValue) (ρ : E.F → E.F), v.toJson = .ok t ∧
      VP.parseJsonBytes E (utf8 t.text) = .ok { v with
        verifiableCredential := v.verifiableCredential.map fun c =>
          { c with credentialSubject := c.credentialSubject.mapNum (rereadNum E ρ) } } ∧
      ∀ f, Places 3 (bits f) (bits (ρ f)) ∧ ((10 : ℚ) ^ (-291 : Int) ≤ ieee (bits f).mag → Places 2 (bits f) (bits (ρ f)) ∧
        |ieee (bits (ρ f)).mag - ieee (bits f).mag| ≤ ieee (bits f).mag / 2 ^ 50) := by
  obtain ⟨t, h1, h2⟩ := vp_readBack N v hv hd
  exact ⟨t, readBack E, h1, h2, readBack_near N⟩

/-! ### Sent on and on -/

mutual
theorem depth_mapNum {A B : Type} (p : A → B) (j : Json A) : (j.mapNum p).depth = j.depth := by
  match j with
  | .null => rfl
  | .bool _ => rfl
  | .num _ => rfl
  | .str _ => rfl
  | .arr xs => simp only [Json.mapNum, Json.depth, depth_mapNumList p xs]
  | .obj kvs => simp only [Json.mapNum, Json.depth, depth_mapNumMembers p kvs]
theorem depth_mapNumList {A B : Type} (p : A → B) (xs : List (Json A)) :
    Json.depthList (Json.mapNumList p xs) = Json.depthList xs := by
  match xs with
  | [] => rfl
  | x :: xs => simp only [Json.mapNumList, Json.depthList, depth_mapNum p x, depth_mapNumList p xs]
theorem depth_mapNumMembers {A B : Type} (p : A → B) (xs : List (Str × Json A)) :
    Json.depthMembers (Json.mapNumMembers p xs) = Json.depthMembers xs := by
  match xs with
  | [] => rfl
  | (k, x) :: xs => simp only [Json.mapNumMembers, Json.depthMembers, depth_mapNum p x, depth_mapNumMembers p xs]
end

theorem mapNum_ne_null {A B : Type} {p : A → B} {j : Json A} (h : j ≠ .null) : j.mapNum p ≠ .null := by
  cases j <;> simp_all [Json.mapNum]

theorem rereadNum_comp (ρ σ : E.F → E.F) : rereadNum E σ ∘ rereadNum E ρ = rereadNum E (σ ∘ ρ) := by
  funext n; cases n <;> rfl

theorem Value.mapNum_comp (ρ σ : E.F → E.F) (v : Value E) :
    Value.mapNum (rereadNum E σ) (Value.mapNum (rereadNum E ρ) v) = Value.mapNum (rereadNum E (σ ∘ ρ)) v := by
  refine Subtype.ext ?_
  show Json.mapNum _ (Json.mapNum _ v.1) = Json.mapNum _ v.1
  rw [Json.mapNum_mapNum, rereadNum_comp]

/-- C89: a credential can be sent on any number of times; `n` times move its numbers by at most `3 n` places, the rest stays. -/
theorem C89_relays_vc (N : Doubles E bits) (v : VC E) (hv : VCComplete v) (hd : v.credentialSubject.1.depth ≤ 126) (n : Nat) :
    ∃ (ρ : E.F → E.F), (∀ f, Places (3 * n) (bits f) (bits (ρ f))) ∧
      ∀ w, RelayedVC n v w ↔ w = { v with credentialSubject := v.credentialSubject.mapNum (rereadNum E ρ) } := by
  refine ⟨(readBack E)^[n], readBack_iterate N n, ?_⟩
  induction n with
  | zero =>
    intro w
    have e : ({ v with credentialSubject := v.credentialSubject.mapNum (rereadNum E (readBack E)^[0]) } : VC E) = v := by
      rw [Function.iterate_zero, rereadNum_id, Value.mapNum_id]
    rw [e]
    constructor
    · intro h; cases h; rfl
    · rintro rfl; exact .here _
  | succ n ih =>
    intro w
    generalize hu : ({ v with credentialSubject := v.credentialSubject.mapNum (rereadNum E (readBack E)^[n]) } : VC E) = u at ih
    obtain ⟨t, h1, h2⟩ := vc_readBack N u (by subst hu; exact ⟨hv.1, hv.2.1, mapNum_ne_null hv.2.2⟩) (by subst hu; exact (depth_mapNum _ _).trans_le hd)
    have e : u.mapNum (rereadNum E (readBack E)) =
        { v with credentialSubject := v.credentialSubject.mapNum (rereadNum E (readBack E)^[n + 1]) } := by
      subst hu
      unfold VC.mapNum
      rw [Value.mapNum_comp, Function.iterate_succ']
    rw [e] at h2
    constructor
    · intro h
      cases h with
      | step a b c =>
        rw [(ih _).mp a] at b
        rw [h1] at b
        cases b
        rw [h2] at c
        cases c
        rfl
    · rintro rfl
      exact .step ((ih u).mpr rfl) h1 h2

/-- C89: the same for presentations. -/
theorem C89_relays_vp (N : Doubles E bits) (v : VP E) (hv : VPComplete v)
    (hd : ∀ c ∈ v.verifiableCredential, c.credentialSubject.1.depth ≤ 124) (n : Nat) :
    ∃ (ρ : E.F → E.F), (∀ f, Places (3 * n) (bits f) (bits (ρ f))) ∧
      ∀ w, RelayedVP n v w ↔ w = { v with
        verifiableCredential := v.verifiableCredential.map fun c =>
          { c with credentialSubject := c.credentialSubject.mapNum (rereadNum E ρ) } } := by
  refine ⟨(readBack E)^[n], readBack_iterate N n, ?_⟩
  induction n with
  | zero =>
    intro w
    have e : ({ v with
        verifiableCredential := v.verifiableCredential.map fun c =>
          { c with credentialSubject := c.credentialSubject.mapNum (rereadNum E (readBack E)^[0]) } } : VP E) = v := by
      rw [Function.iterate_zero, rereadNum_id]
      simp only [Value.mapNum_id, List.map_id']
    rw [e]
    constructor
    · intro h; cases h; rfl
    · rintro rfl; exact .here _
  | succ n ih =>
    intro w
    generalize hu : ({ v with
        verifiableCredential := v.verifiableCredential.map fun c =>
          { c with credentialSubject := c.credentialSubject.mapNum (rereadNum E (readBack E)^[n]) } } : VP E) = u at ih
    obtain ⟨t, h1, h2⟩ := vp_readBack N u (by subst hu; exact ⟨hv.1, hv.2.1, by simpa using hv.2.2⟩) (by
      subst hu
      intro c hc
      obtain ⟨c', hc', rfl⟩ := List.mem_map.mp hc
      exact (depth_mapNum _ _).trans_le (hd c' hc'))
    have e : u.mapNum (rereadNum E (readBack E)) = { v with
        verifiableCredential := v.verifiableCredential.map fun c =>
          { c with credentialSubject := c.credentialSubject.mapNum (rereadNum E (readBack E)^[n + 1]) } } := by
      subst hu
      unfold VP.mapNum VC.mapNum
      simp only [List.map_map, Function.comp_def, Value.mapNum_comp, Function.iterate_succ']
    rw [e] at h2
    constructor
    · intro h
      cases h with
      | step a b c =>
        rw [(ih _).mp a] at b
        rw [h1] at b
        cases b
        rw [h2] at c
        cases c
        rfl
    · rintro rfl
      exact .step ((ih u).mpr rfl) h1 h2

/-! ### Canonical text -/

theorem nearest_int {n : Nat} {f : F64} (h : Double.ofDec n 0 = f.mag.1) : Nearest f.mag.1 (n : ℚ) := by
  have h := (Double.nearest_iff (S := n) (x := 0) f.mag.2).mpr h
  simpa using h

theorem decNum_pos {fr : Bytes → Option E.F} (n : Fin (2 ^ 64)) : decNum fr (natDec n.1) = some (.pos n) := by
  obtain ⟨-, d2, -, d4, -⟩ := natDec_spec n.1
  have hi := Double.isIntTok_natDec n.1 false
  simp only [Bool.false_eq_true, if_false, List.nil_append] at hi
  unfold decNum
  rw [if_pos hi, if_neg d4]
  simp only [d2]
  rw [dif_pos n.2]

theorem decNum_neg {fr : Bytes → Option E.F} (k : Fin (2 ^ 63)) : decNum fr (0x2d :: natDec (k.1 + 1)) = some (.neg k) := by
  obtain ⟨-, d2, -, -, -⟩ := natDec_spec (k.1 + 1)
  have hi := Double.isIntTok_natDec (k.1 + 1) true
  simp only [if_true, List.singleton_append] at hi
  unfold decNum
  rw [if_pos hi, if_pos (by simp)]
  simp only [List.tail_cons, d2]
  rw [dif_pos (by omega)]
  rfl

theorem decNum_as (N : Doubles E bits) {t : Bytes} {m : Num F64} (h : decNum Double.parse t = some m) :
    ∃ m' : Num E.F, decNum E.floatParse t = some m' ∧ (match m' with
      | .pos n => m = .pos n
      | .neg k => m = .neg k
      | .float g => m = .float (bits g)) := by
  unfold decNum at h ⊢
  have hp := N.parse t
  have key : (Double.parse t).map Num.float = some m → ∃ m' : Num E.F, (E.floatParse t).map Num.float = some m' ∧ (match m' with
      | .pos n => m = .pos n
      | .neg k => m = .neg k
      | .float g => m = .float (bits g)) := by
    intro h
    rw [← hp, Option.map_map, Option.map_eq_some_iff] at h
    obtain ⟨g, hg, rfl⟩ := h
    exact ⟨.float g, by rw [hg]; rfl, rfl⟩
  by_cases h1 : isIntTok t = true
  · rw [if_pos h1] at h ⊢
    by_cases h2 : t.head? = some 0x2d
    · rw [if_pos h2] at h ⊢
      by_cases h3 : 1 ≤ decVal t.tail ∧ decVal t.tail ≤ 2 ^ 63
      · rw [dif_pos h3] at h ⊢
        exact ⟨_, rfl, (Option.some.inj h).symm⟩
      · rw [dif_neg h3] at h ⊢
        exact key h
    · rw [if_neg h2] at h ⊢
      by_cases h3 : decVal t < 2 ^ 64
      · rw [dif_pos h3] at h ⊢
        exact ⟨_, rfl, (Option.some.inj h).symm⟩
      · rw [dif_neg h3] at h ⊢
        exact key h
  · rw [if_neg h1] at h ⊢
    exact key h

theorem canonical_dec (N : Doubles E bits) (n : Num E.F) : ∃ m, decNum E.floatParse (E.jcsNum n) = some m ∧ Nearby bits n m := by
  rw [N.jcs]
  cases n with
  | pos n => exact ⟨_, decNum_pos n, .pos n⟩
  | neg k => exact ⟨_, decNum_neg k, .neg k⟩
  | float f =>
    obtain ⟨m, h1, h2⟩ := Double.parse_printEs (bits f)
    obtain ⟨m', h3, h4⟩ := decNum_as N h1
    refine ⟨m', h3, ?_⟩
    cases m' with
    | pos n => subst h4; exact .asPos (nearest_int h2.1) h2.2
    | neg k => subst h4; exact .asNeg (nearest_int h2.1) h2.2
    | float g =>
      subst h4
      obtain ⟨a, b, c, d⟩ := h2
      refine .asFloat ⟨a, b, c⟩ fun hv => ?_
      rw [Double.ieee_eq] at hv
      exact ⟨a, d hv⟩

theorem rejcs_near (N : Doubles E bits) (n : Num E.F) : decNum E.floatParse (E.jcsNum n) = some (rejcs E n) ∧ Nearby bits n (rejcs E n) := by
  obtain ⟨m, h1, h2⟩ := canonical_dec N n
  unfold rejcs
  rw [h1]
  exact ⟨rfl, h2⟩

/-- C89: a credential is always read from its canonical text too; its numbers are integers or stay as close. -/
theorem C89_canonical_vc (N : Doubles E bits) (hk : E.keyLe = unitLe) (v : VC E) (hv : VCComplete v)
    (hd : v.credentialSubject.1.depth ≤ 126) :
    ∃ (t : Str) (ρ : Num E.F → Num E.F), v.toJcs = .ok t ∧
      VC.parseJsonBytes E (utf8 t) = .ok { v with credentialSubject := v.credentialSubject.mapNum ρ } ∧
      ∀ n, NumMeans E.floatParse (E.jcsNum n) (ρ n) ∧ Nearby bits n (ρ n) := by
  have L := (C80_laws N).2 hk
  have ht : v.toJcs = .ok (jcsText E v.toTree) := by unfold VC.toJcs; rw [(C24_validate v).1.mpr hv]
  have hp : VC.parseJsonBytes E (utf8 (jcsText E v.toTree)) = .ok (v.mapNum (rejcs E)) := by
    rw [utf8_eq, VC.parse_jcs L, VC.dec_toTree v (fun n _ => (rejcs_near N n).1) 128 (by omega) (by omega)]
  generalize jcsText E v.toTree = y at *
  exact ⟨y, rejcs E, ht, hp, fun n => ⟨(decNum_iff _ ((isNumTok_iff _).mp (L.num_tok n)) _).mp (rejcs_near N n).1,
    (rejcs_near N n).2⟩⟩

/-- C89: the same for presentations. -/
theorem C89_canonical_vp (N : Doubles E bits) (hk : E.keyLe = unitLe) (v : VP E) (hv : VPComplete v)
    (hd : ∀ c ∈ v.verifiableCredential, c.credentialSubject.1.depth ≤ 124) :
    ∃ (t : Str) (ρ : Num E.F → Num E.F), v.toJcs = .ok t ∧
      VP.parseJsonBytes E (utf8 t) = .ok { v with
        verifiableCredential := v.verifiableCredential.map fun c =>
          { c with credentialSubject := c.credentialSubject.mapNum ρ } } ∧
      ∀ n, NumMeans E.floatParse (E.jcsNum n) (ρ n) ∧ Nearby bits n (ρ n) := by
  have L := (C80_laws N).2 hk
  have ht : v.toJcs = .ok (jcsText E v.toTree) := by unfold VP.toJcs; rw [(C25_validate v).1.mpr hv]
  have hp : VP.parseJsonBytes E (utf8 (jcsText E v.toTree)) = .ok (v.mapNum (rejcs E)) := by
    rw [utf8_eq, VP.parse_jcs L, VP.dec_toTree v (fun c _ n _ => (rejcs_near N n).1) 128 (by omega)
      (fun c hc => by have := hd c hc; omega)]
  generalize jcsText E v.toTree = y at *
  exact ⟨y, rejcs E, ht, hp, fun n => ⟨(decNum_iff _ ((isNumTok_iff _).mp (L.num_tok n)) _).mp (rejcs_near N n).1,
    (rejcs_near N n).2⟩⟩

/-- 4.6399431359216316e-07, and two places further. -/
def far0 : F64 := ⟨false, 0x3e9f235c9272ecab, by decide +kernel⟩
def far2 : F64 := ⟨false, 0x3e9f235c9272ecad, by decide +kernel⟩
theorem far_read : Double.parse (Double.print far0) = some far2 := by decide +kernel

/-- 9.491132674283999e+35 and 9.491132674284e+35. -/
def swing0 : F64 := ⟨false, 0x4766d95cb3ddb424, by decide +kernel⟩
def swing1 : F64 := ⟨false, 0x4766d95cb3ddb425, by decide +kernel⟩
theorem swing_read : Double.parse (Double.print swing0) = some swing1 ∧ Double.parse (Double.print swing1) = some swing0 := by
  decide +kernel

/-- 5.685185610919394e-16 and its successors. -/
def creep (n : Nat) : F64 := ⟨false, (0x3cc47ba87fb793f2 + n) % Double.top, Nat.mod_lt _ (by decide +kernel)⟩
theorem creep_read : ∀ n < 15, Double.parse (Double.print (creep n)) = some (creep (n + 1)) := by decide +kernel

theorem read_of_bits (N : Doubles E bits) {a b : F64} (h : Double.parse (Double.print a) = some b) {f g : E.F} (hf : bits f = a)
    (hg : bits g = b) : E.floatParse (E.floatPrint f) = some g := by
  subst hf hg
  rw [← N.print, ← N.parse, Option.map_eq_some_iff] at h
  obtain ⟨g', h1, h2⟩ := h
  rw [h1, N.bijective.1 h2]

/-- C89: two places in one step do occur; some numbers move on each time they are sent, and some change every time, for ever. -/
theorem C89_moves (N : Doubles E bits) :
    (∃ f g, E.floatParse (E.floatPrint f) = some g ∧ (bits g).mag.1 = (bits f).mag.1 + 2) ∧
    (∃ c : Nat → E.F, (∀ n < 15, E.floatParse (E.floatPrint (c n)) = some (c (n + 1))) ∧ (bits (c 15)).mag.1 = (bits (c 0)).mag.1 + 15) ∧
    ∃ f g, f ≠ g ∧ E.floatParse (E.floatPrint f) = some g ∧ E.floatParse (E.floatPrint g) = some f := by
  have sur := N.bijective.2
  refine ⟨?_, ?_, ?_⟩
  · obtain ⟨f, hf⟩ := sur far0
    obtain ⟨g, hg⟩ := sur far2
    exact ⟨f, g, read_of_bits N far_read hf hg, by rw [hf, hg]; decide +kernel⟩
  · choose c hc using fun n => sur (creep n)
    exact ⟨c, fun n hn => read_of_bits N (creep_read n hn) (hc n) (hc _), by rw [hc, hc]; decide +kernel⟩
  · obtain ⟨f, hf⟩ := sur swing0
    obtain ⟨g, hg⟩ := sur swing1
    refine ⟨f, g, ?_, read_of_bits N swing_read.1 hf hg, read_of_bits N swing_read.2 hg hf⟩
    rintro rfl
    have h := hf.symm.trans hg
    exact absurd h (by decide +kernel)

/-! ### Concrete cases -/

/-- `C89_number`: 0.1 is above `10^-291`, and comes back. -/
example : (10 : ℚ) ^ (-291 : Int) ≤ ieee tenth.mag ∧
    ∃ g : F64, numeric.floatParse (numeric.floatPrint tenth) = some g ∧ Places 2 tenth g := by
  have h : (10 : ℚ) ^ (-291 : Int) ≤ ieee tenth.mag := by
    have : (10 : ℚ) ^ (-291 : Int) ≤ 10 ^ (-2 : Int) := Double.ten_le (by norm_num)
    refine this.trans ?_
    norm_num [ieee, tenth]
  obtain ⟨g, h1, -, h2⟩ := C89_number numeric_doubles tenth
  exact ⟨h, g, h1, (h2 h).1⟩

/-- `C89_vc`, `C89_relays_vc`: a credential about 9.491132674283999e+35, sent three times. -/
example : RelayedVC 3 (plainVC swing0) (plainVC swing1) ∧
    ∃ ρ : F64 → F64, (∀ f, Places 9 f (ρ f)) ∧ ρ swing0 = swing1 := by
  obtain ⟨ρ, h1, h2⟩ := C89_relays_vc numeric_doubles (plainVC swing0) (plainVC_complete _) (by simp [plainVC, Json.depth]) 3
  have r1 : readBack numeric swing0 = swing1 := by
    have h := read_of_bits numeric_doubles (f := swing0) (g := swing1) swing_read.1 rfl rfl
    exact readBack_of h
  have r2 : readBack numeric swing1 = swing0 := by
    have h := read_of_bits numeric_doubles (f := swing1) (g := swing0) swing_read.2 rfl rfl
    exact readBack_of h
  have one : ∀ f : F64, ∃ t, (plainVC f).toJson = .ok t ∧ VC.parseJsonBytes numeric (utf8 t.text) = .ok (plainVC (readBack numeric f)) :=
    fun f => vc_readBack numeric_doubles (plainVC f) (plainVC_complete _) (by simp [plainVC, Json.depth])
  obtain ⟨t1, a1, b1⟩ := one swing0
  obtain ⟨t2, a2, b2⟩ := one swing1
  rw [r1] at b1
  rw [r2] at b2
  have hr : RelayedVC 3 (plainVC swing0) (plainVC swing1) := .step (.step (.step (.here _) a1 b1) a2 b2) a1 b1
  refine ⟨hr, ρ, h1, ?_⟩
  have e := (h2 _).mp hr
  have e2 := congrArg (fun v => v.credentialSubject.1) e
  have e3 : Json.num (Num.float swing1) = Json.num (Num.float (ρ swing0)) := e2
  exact (Num.float.inj (Json.num.inj e3)).symm

/-- `C89_canonical_vc`: a credential about 9.491132674283999e+35, sent canonically. -/
example : ∃ t w, (plainVC swing0).toJcs = .ok t ∧ VC.parseJsonBytes numeric (utf8 t) = .ok w ∧ w = plainVC swing1 := by
  obtain ⟨t, ρ, h1, h2, h3⟩ := C89_canonical_vc numeric_doubles rfl (plainVC swing0) (plainVC_complete _) (by simp [plainVC, Json.depth])
  refine ⟨t, _, h1, h2, ?_⟩
  have e : ρ (.float swing0) = .float swing1 := by
    have hm := (h3 (.float swing0)).1
    have hn : ∃ x, Double.printEs swing0 = x ∧ isIntTok x = false ∧ Double.parse x = some swing1 := ⟨_, rfl, by decide +kernel⟩
    obtain ⟨x, x1, x2, x3⟩ := hn
    have hj : numeric.jcsNum (.float swing0) = x := x1
    rw [hj] at hm
    have ht := (decNum_iff _ ((isNumTok_iff _).mp (hj ▸ ((C80_laws numeric_doubles).2 rfl).num_tok (.float swing0))) _).mpr hm
    unfold decNum at ht
    rw [x2, if_neg (by simp)] at ht
    have hp : numeric.floatParse x = some swing1 := x3
    rw [hp] at ht
    exact (Option.some.inj ht).symm
  have e2 : (plainVC swing0).credentialSubject.mapNum ρ = (plainVC swing1).credentialSubject := by
    refine Subtype.ext ?_
    show Json.num (ρ (.float swing0)) = Json.num (.float swing1)
    rw [e]
  rw [e2]
  rfl

/-- `C89_canonical_vp`: the sample presentation. -/
example : ∃ t w, numericVP.toJcs = .ok t ∧ VP.parseJsonBytes numeric (utf8 t) = .ok w := by
  have hd : ∀ c ∈ numericVP.verifiableCredential, c.credentialSubject.1.depth ≤ 124 := by
    have hc : ∀ c ∈ numericVP.verifiableCredential, c = numericVC := by simp [numericVP]
    intro c h; rw [hc c h]; exact numericVC_depth
  obtain ⟨t, ρ, h1, h2, -⟩ := C89_canonical_vp numeric_doubles rfl numericVP numericVP_complete hd
  exact ⟨t, _, h1, h2⟩

/-- `C89_vp`, `C89_relays_vp`: the sample presentation. -/
example : VPComplete numericVP ∧ (∀ c ∈ numericVP.verifiableCredential, c.credentialSubject.1.depth ≤ 124) ∧
    ∃ t w, numericVP.toJson = .ok t ∧ VP.parseJsonBytes numeric (utf8 t.text) = .ok w := by
  have hd : ∀ c ∈ numericVP.verifiableCredential, c.credentialSubject.1.depth ≤ 124 := by
    have hc : ∀ c ∈ numericVP.verifiableCredential, c = numericVC := by simp [numericVP]
    intro c h; rw [hc c h]; exact numericVC_depth
  obtain ⟨t, ρ, h1, h2, -⟩ := C89_vp numeric_doubles numericVP numericVP_complete hd
  exact ⟨numericVP_complete, hd, t, _, h1, h2⟩

end Verif.Props
