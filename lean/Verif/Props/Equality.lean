import Verif.Model.Equality
import Verif.Props.Numbers
import Verif.Props.Canonical

/-
C86: what `==` on credentials and presentations means, and how it relates to what is signed.
-/

namespace Verif.Spec
open Verif.Double (F64)

/-- The number a double stands for. -/
def f64Value (b : F64) : ℚ := if b.neg then -ieee b.mag else ieee b.mag

/-- A number of a JSON value: an integer or a real number; which of them is kept apart. -/
inductive Kind where
  | integer (z : ℤ)
  | real (q : ℚ)

/-- The number itself, apart from the sign of zero. -/
def kind {F : Type} (bits : F → F64) : Num F → Kind
  | .pos n => .integer n.1
  | .neg k => .integer (-(k.1 + 1 : ℕ))
  | .float f => .real (f64Value (bits f))

/-- Is the number stored as a double? -/
def isDouble {F : Type} : Num F → Bool
  | .float _ => true
  | _ => false

/-- Equal credentials: the same strings, the same proof, the same subject with equal numbers. -/
structure EqualVC {E : Env} (bits : E.F → F64) (v w : VC E) : Prop where
  contexts : v.contexts = w.contexts
  types : v.types = w.types
  subject : v.credentialSubject.1.mapNum (kind bits) = w.credentialSubject.1.mapNum (kind bits)
  proof : v.proof = w.proof
  id : v.id = w.id
  issuer : v.issuer = w.issuer

/-- Equal presentations. -/
structure EqualVP {E : Env} (bits : E.F → F64) (v w : VP E) : Prop where
  contexts : v.contexts = w.contexts
  types : v.types = w.types
  credentials : List.Forall₂ (EqualVC bits) v.verifiableCredential w.verifiableCredential
  proof : v.proof = w.proof
  holder : v.holder = w.holder

/-- Doubles in the same places of the subject. -/
def SamePlaces {E : Env} (v w : VC E) : Prop :=
  v.credentialSubject.1.mapNum isDouble = w.credentialSubject.1.mapNum isDouble

end Verif.Spec

namespace Verif.Json

mutual
theorem eq_iff {N M : Type} {p : N → N → Bool} {g : N → M} (h : ∀ x y, p x y = true ↔ g x = g y) :
    (a b : Json N) → (eq p a b = true ↔ mapNum g a = mapNum g b)
  | .null, b => by cases b <;> simp [eq, mapNum]
  | .bool x, b => by cases b <;> simp [eq, mapNum]
  | .num x, b => by cases b <;> simp [eq, mapNum, h]
  | .str x, b => by cases b <;> simp [eq, mapNum]
  | .arr x, b => by
    cases b with
    | arr y => simp only [eq, mapNum, Json.arr.injEq]; exact eqList_iff h x y
    | _ => simp [eq, mapNum]
  | .obj x, b => by
    cases b with
    | obj y => simp only [eq, mapNum, Json.obj.injEq]; exact eqMembers_iff h x y
    | _ => simp [eq, mapNum]
theorem eqList_iff {N M : Type} {p : N → N → Bool} {g : N → M} (h : ∀ x y, p x y = true ↔ g x = g y) :
    (a b : List (Json N)) → (eqList p a b = true ↔ mapNumList g a = mapNumList g b)
  | [], b => by cases b <;> simp [eqList, mapNumList]
  | x :: xs, [] => by simp [eqList, mapNumList]
  | x :: xs, y :: ys => by
    simp only [eqList, mapNumList, List.cons.injEq, Bool.and_eq_true]
    exact and_congr (eq_iff h x y) (eqList_iff h xs ys)
theorem eqMembers_iff {N M : Type} {p : N → N → Bool} {g : N → M} (h : ∀ x y, p x y = true ↔ g x = g y) :
    (a b : List (Str × Json N)) → (eqMembers p a b = true ↔ mapNumMembers g a = mapNumMembers g b)
  | [], b => by cases b <;> simp [eqMembers, mapNumMembers]
  | x :: xs, [] => by simp [eqMembers, mapNumMembers]
  | (k, x) :: xs, (l, y) :: ys => by
    simp only [eqMembers, mapNumMembers, List.cons.injEq, Bool.and_eq_true, Prod.mk.injEq, decide_eq_true_eq]
    exact and_congr (and_congr Iff.rfl (eq_iff h x y)) (eqMembers_iff h xs ys)
end

mutual
theorem eq_and {N : Type} (p q : N → N → Bool) :
    (a b : Json N) → eq (fun x y => p x y && q x y) a b = (eq p a b && eq q a b)
  | .null, b => by cases b <;> simp [eq]
  | .bool x, b => by cases b <;> simp [eq]
  | .num x, b => by cases b <;> simp [eq]
  | .str x, b => by cases b <;> simp [eq]
  | .arr x, b => by
    cases b with
    | arr y => simp only [eq]; exact eqList_and p q x y
    | _ => simp [eq]
  | .obj x, b => by
    cases b with
    | obj y => simp only [eq]; exact eqMembers_and p q x y
    | _ => simp [eq]
theorem eqList_and {N : Type} (p q : N → N → Bool) :
    (a b : List (Json N)) → eqList (fun x y => p x y && q x y) a b = (eqList p a b && eqList q a b)
  | [], b => by cases b <;> simp [eqList]
  | x :: xs, [] => by simp [eqList]
  | x :: xs, y :: ys => by
    simp only [eqList, eq_and p q x y, eqList_and p q xs ys]
    cases eq p x y <;> cases eq q x y <;> cases eqList p xs ys <;> simp
theorem eqMembers_and {N : Type} (p q : N → N → Bool) :
    (a b : List (Str × Json N)) → eqMembers (fun x y => p x y && q x y) a b = (eqMembers p a b && eqMembers q a b)
  | [], b => by cases b <;> simp [eqMembers]
  | x :: xs, [] => by simp [eqMembers]
  | (k, x) :: xs, (l, y) :: ys => by
    simp only [eqMembers, eq_and p q x y, eqMembers_and p q xs ys]
    cases decide (k = l) <;> cases eq p x y <;> cases eq q x y <;> cases eqMembers p xs ys <;> simp
end

/-- Two maps on numbers at once. -/
theorem mapNum_pair {N A B C : Type} {g : N → A} {g1 : N → B} {g2 : N → C}
    (h : ∀ x y, g x = g y ↔ g1 x = g1 y ∧ g2 x = g2 y) (a b : Json N) :
    mapNum g a = mapNum g b ↔ mapNum g1 a = mapNum g1 b ∧ mapNum g2 a = mapNum g2 b := by
  classical
  rw [← eq_iff (p := fun x y => decide (g1 x = g1 y) && decide (g2 x = g2 y)) (fun x y => by simp [h]), eq_and, Bool.and_eq_true,
    eq_iff (p := fun x y => decide (g1 x = g1 y)) (g := g1) (by simp),
    eq_iff (p := fun x y => decide (g2 x = g2 y)) (g := g2) (by simp)]

end Verif.Json

namespace Verif.Props
open Verif Spec
open Verif.Double (F64)

variable {E : Env} {bits : E.F → F64}

/-- `==` of `f64`: equal as numbers. -/
def Ieee (bits : E.F → F64) (feq : E.F → E.F → Bool) : Prop :=
  ∀ f g, feq f g = true ↔ f64Value (bits f) = f64Value (bits g)

theorem num_eq_iff {feq : E.F → E.F → Bool} (h : Ieee bits feq) (x y : Num E.F) : Num.eq feq x y = true ↔ kind bits x = kind bits y := by
  cases x with
  | pos n =>
    cases y with
    | pos m => simp only [Num.eq, kind, decide_eq_true_eq, Kind.integer.injEq, Fin.ext_iff]; omega
    | neg m => simp only [Num.eq, kind, Kind.integer.injEq, Bool.false_eq_true, false_iff]; omega
    | float f => simp [Num.eq, kind]
  | neg n =>
    cases y with
    | pos m => simp only [Num.eq, kind, Kind.integer.injEq, Bool.false_eq_true, false_iff]; omega
    | neg m => simp only [Num.eq, kind, decide_eq_true_eq, Kind.integer.injEq, Fin.ext_iff]; omega
    | float f => simp [Num.eq, kind]
  | float f =>
    cases y with
    | float g => simp only [Num.eq, kind, Kind.real.injEq]; exact h f g
    | _ => simp [Num.eq, kind]

/-- C86: two credentials are `==` exactly if they are equal. -/
theorem C86_vc {feq : E.F → E.F → Bool} (h : Ieee bits feq) (v w : VC E) : VC.eq feq v w = true ↔ EqualVC bits v w := by
  unfold VC.eq
  simp only [Bool.and_eq_true, decide_eq_true_eq, Json.eq_iff (num_eq_iff h)]
  exact ⟨fun ⟨⟨⟨⟨⟨h1, h2⟩, h3⟩, h4⟩, h5⟩, h6⟩ => ⟨h1, h2, h3, h4, h5, h6⟩, fun ⟨h1, h2, h3, h4, h5, h6⟩ => ⟨⟨⟨⟨⟨h1, h2⟩, h3⟩, h4⟩, h5⟩, h6⟩⟩

/-- C86: the same for presentations. -/
theorem C86_vp {feq : E.F → E.F → Bool} (h : Ieee bits feq) (v w : VP E) : VP.eq feq v w = true ↔ EqualVP bits v w := by
  have hl : ∀ a b : List (VC E), VC.eqAll feq a b = true ↔ List.Forall₂ (EqualVC bits) a b := by
    intro a
    induction a with
    | nil => intro b; cases b <;> simp [VC.eqAll]
    | cons x a ih => intro b; cases b <;> simp [VC.eqAll, ih, C86_vc h]
  unfold VP.eq
  simp only [Bool.and_eq_true, decide_eq_true_eq, hl]
  exact ⟨fun ⟨⟨⟨⟨h1, h2⟩, h3⟩, h4⟩, h5⟩ => ⟨h1, h2, h3, h4, h5⟩, fun ⟨h1, h2, h3, h4, h5⟩ => ⟨⟨⟨⟨h1, h2⟩, h3⟩, h4⟩, h5⟩⟩

theorem ieee_zero (k : Nat) : ieee k = 0 ↔ k = 0 := by
  rw [Double.ieee_eq]
  have h0 : Double.valQ 0 = 0 := by unfold Double.valQ; rw [Double.units_zero, Nat.cast_zero, zero_div]
  rw [← h0]
  exact ⟨fun h => Double.valQ_strictMono.injective h, fun h => by rw [h]⟩

theorem ieee_nonneg (k : Nat) : 0 ≤ ieee k := by
  rw [Double.ieee_eq]
  unfold Double.valQ
  positivity

theorem ieee_inj {k l : Nat} (h : ieee k = ieee l) : k = l := by
  rw [Double.ieee_eq, Double.ieee_eq] at h
  exact Double.valQ_strictMono.injective h

/-- Doubles are equal as numbers iff their canonical texts are equal. -/
theorem float_eq_iff (N : Doubles E bits) (f g : E.F) :
    f64Value (bits f) = f64Value (bits g) ↔ E.jcsNum (.float f) = E.jcsNum (.float g) := by
  rw [(C80_distinct N f g).2]
  constructor
  · intro h
    unfold f64Value at h
    have hf := ieee_nonneg (bits f).mag.1
    have hg := ieee_nonneg (bits g).mag.1
    have ext : (bits f).neg = (bits g).neg → (bits f).mag.1 = (bits g).mag.1 → f = g := by
      intro h1 h2
      refine N.bijective.1 ?_
      generalize bits f = a at *
      generalize bits g = b at *
      obtain ⟨_, _⟩ := a
      obtain ⟨_, _⟩ := b
      simp only at h1 h2
      rw [h1, Fin.ext h2]
    cases h1 : (bits f).neg <;> cases h2 : (bits g).neg <;> simp only [h1, h2, if_true, if_false, Bool.false_eq_true] at h
    · exact .inl (ext (h1.trans h2.symm) (ieee_inj h))
    · exact .inr ⟨by linarith, by linarith⟩
    · exact .inr ⟨by linarith, by linarith⟩
    · exact .inl (ext (h1.trans h2.symm) (ieee_inj (neg_injective h)))
  · rintro (rfl | ⟨h1, h2⟩)
    · rfl
    · simp [f64Value, h1, h2]

theorem natDec_injective {n m : Nat} (h : natDec n = natDec m) : n = m := by
  rw [← (natDec_spec n).2.1, h, (natDec_spec m).2.1]

theorem natDec_ne_neg {n m : Nat} (h : natDec n = 0x2d :: natDec m) : False :=
  (natDec_spec n).2.2.2.1 (by rw [h]; rfl)

/-- C86: numbers are equal iff their canonical texts are and both or neither are doubles. -/
theorem C86_number (N : Doubles E bits) (x y : Num E.F) :
    kind bits x = kind bits y ↔ E.jcsNum x = E.jcsNum y ∧ isDouble x = isDouble y := by
  cases x with
  | pos n =>
    cases y with
    | pos m =>
      simp only [kind, Kind.integer.injEq, isDouble, and_true, N.jcs]
      exact ⟨fun h => by rw [show n.1 = m.1 by omega], fun h => by rw [natDec_injective h]⟩
    | neg m =>
      simp only [kind, Kind.integer.injEq, isDouble, and_true, N.jcs]
      exact ⟨fun h => by omega, fun h => (natDec_ne_neg h).elim⟩
    | float f => simp [kind, isDouble]
  | neg n =>
    cases y with
    | neg m =>
      simp only [kind, Kind.integer.injEq, isDouble, and_true, N.jcs, List.cons.injEq, true_and]
      exact ⟨fun h => by rw [show n.1 = m.1 by omega], fun h => by have := natDec_injective h; omega⟩
    | pos m =>
      simp only [kind, Kind.integer.injEq, isDouble, and_true, N.jcs]
      exact ⟨fun h => by omega, fun h => (natDec_ne_neg h.symm).elim⟩
    | float f => simp [kind, isDouble]
  | float f =>
    cases y with
    | float g => simp only [kind, Kind.real.injEq, isDouble, and_true]; exact float_eq_iff N f g
    | _ => simp [kind, isDouble]

/-- C86: equal credentials are those with the same canonical members and doubles in the same places. -/
theorem C86_canonical_vc (N : Doubles E bits) (v w : VC E) : EqualVC bits v w ↔ SameVC v w ∧ SamePlaces v w := by
  have h := Json.mapNum_pair (C86_number N) v.credentialSubject.1 w.credentialSubject.1
  exact ⟨fun e => ⟨⟨e.contexts, e.types, (h.mp e.subject).1, e.proof, e.id, e.issuer⟩, (h.mp e.subject).2⟩,
    fun ⟨e, p⟩ => ⟨e.contexts, e.types, h.mpr ⟨e.subject, p⟩, e.proof, e.id, e.issuer⟩⟩

/-- C86: the same for presentations. -/
theorem C86_canonical_vp (N : Doubles E bits) (v w : VP E) :
    EqualVP bits v w ↔ SameVP v w ∧ List.Forall₂ SamePlaces v.verifiableCredential w.verifiableCredential := by
  have hl : ∀ a b : List (VC E), List.Forall₂ (EqualVC bits) a b ↔ List.Forall₂ SameVC a b ∧ List.Forall₂ SamePlaces a b := by
    intro a
    induction a with
    | nil => intro b; cases b <;> simp
    | cons x a ih =>
      intro b
      cases b with
      | nil => simp
      | cons y b => simp only [List.forall₂_cons, ih, C86_canonical_vc N]; tauto
  exact ⟨fun e => ⟨⟨e.contexts, e.types, ((hl _ _).mp e.credentials).1, e.proof, e.holder⟩, ((hl _ _).mp e.credentials).2⟩,
    fun ⟨e, p⟩ => ⟨e.contexts, e.types, (hl _ _).mpr ⟨e.credentials, p⟩, e.proof, e.holder⟩⟩

/-- C86: `==` is an equivalence; documents that are `==` have the same canonical text, and documents with the same canonical
text are `==` if they have doubles in the same places. -/
theorem C86_equal (N : Doubles E bits) (hk : E.keyLe = unitLe) {feq : E.F → E.F → Bool} (h : Ieee bits feq) :
    Equivalence (fun v w : VC E => VC.eq feq v w = true) ∧ Equivalence (fun v w : VP E => VP.eq feq v w = true) ∧
    (∀ v w : VC E, VCComplete v → VCComplete w → (VC.eq feq v w = true ↔ v.toJcs = w.toJcs ∧ SamePlaces v w)) ∧
    ∀ v w : VP E, VPComplete v → VPComplete w →
      (VP.eq feq v w = true ↔ v.toJcs = w.toJcs ∧ List.Forall₂ SamePlaces v.verifiableCredential w.verifiableCredential) := by
  have L := (C80_laws N).2 hk
  have refl : ∀ v : VC E, EqualVC bits v v := fun v => ⟨rfl, rfl, rfl, rfl, rfl, rfl⟩
  have symm : ∀ {v w : VC E}, EqualVC bits v w → EqualVC bits w v := fun e =>
    ⟨e.contexts.symm, e.types.symm, e.subject.symm, e.proof.symm, e.id.symm, e.issuer.symm⟩
  have trans : ∀ {u v w : VC E}, EqualVC bits u v → EqualVC bits v w → EqualVC bits u w := fun e e' =>
    ⟨e.contexts.trans e'.contexts, e.types.trans e'.types, e.subject.trans e'.subject, e.proof.trans e'.proof, e.id.trans e'.id,
      e.issuer.trans e'.issuer⟩
  simp only [C86_vc h, C86_vp h]
  refine ⟨⟨refl, symm, trans⟩, ⟨?_, ?_, ?_⟩, ?_, ?_⟩
  · intro v
    exact ⟨rfl, rfl, List.forall₂_same.mpr fun c _ => refl c, rfl, rfl⟩
  · intro v w e
    exact ⟨e.contexts.symm, e.types.symm, (e.credentials.imp fun _ _ => symm).flip, e.proof.symm, e.holder.symm⟩
  · intro u v w e e'
    refine ⟨e.contexts.trans e'.contexts, e.types.trans e'.types, ?_, e.proof.trans e'.proof, e.holder.trans e'.holder⟩
    have h1 := e.credentials
    have h2 := e'.credentials
    generalize u.verifiableCredential = a at h1
    generalize v.verifiableCredential = b at h1 h2
    generalize w.verifiableCredential = c at h2
    induction h1 generalizing c with
    | nil => cases h2; exact .nil
    | cons x _ ih =>
      cases h2 with
      | cons y h2 => exact .cons (trans x y) (ih _ h2)
  · intro v w hv hw
    rw [C29_vc L v w hv hw]
    exact C86_canonical_vc N v w
  · intro v w hv hw
    rw [C29_vp L v w hv hw]
    exact C86_canonical_vp N v w

/-- C86: credentials that are `==` get the same proof, and remain `==`. -/
theorem C86_signed_vc (N : Doubles E bits) (hk : E.keyLe = unitLe) {feq : E.F → E.F → Bool} (h : Ieee bits feq) (kp : E.EdKP)
    (v w : VC E) (opts : Proof) (he : VC.eq feq v w = true) (out : VC E) (hs : sign E (VC E) kp v opts = .ok out) :
    ∃ out', sign E (VC E) kp w opts = .ok out' ∧ out'.proof = out.proof ∧ VC.eq feq out out' = true := by
  have L := (C80_laws N).2 hk
  have e := (C86_vc h v w).mp he
  have hsame := ((C86_canonical_vc N v w).mp e).1
  obtain ⟨h1, h2, h3, text, h4, rfl⟩ := ((C32_vc L kp v opts).1 _).mp hs
  rw [vcBytes_of_same L hsame] at h4
  refine ⟨_, ((C32_vc L kp w opts).1 _).mpr ⟨h1, h2, VCComplete.same hsame h3, text, h4, rfl⟩, rfl, ?_⟩
  exact (C86_vc h _ _).mpr ⟨e.contexts, e.types, e.subject, rfl, e.id, e.issuer⟩

/-- C86: the same for presentations. -/
theorem C86_signed_vp (N : Doubles E bits) (hk : E.keyLe = unitLe) {feq : E.F → E.F → Bool} (h : Ieee bits feq) (kp : E.EdKP)
    (v w : VP E) (opts : Proof) (he : VP.eq feq v w = true) (out : VP E) (hs : sign E (VP E) kp v opts = .ok out) :
    ∃ out', sign E (VP E) kp w opts = .ok out' ∧ out'.proof = out.proof ∧ VP.eq feq out out' = true := by
  have L := (C80_laws N).2 hk
  have e := (C86_vp h v w).mp he
  have hsame := ((C86_canonical_vp N v w).mp e).1
  obtain ⟨h1, h2, h3, text, h4, rfl⟩ := ((C32_vp L kp v opts).1 _).mp hs
  rw [vpBytes_of_same L hsame] at h4
  refine ⟨_, ((C32_vp L kp w opts).1 _).mpr ⟨h1, h2, VPComplete.same hsame h3, text, h4, rfl⟩, rfl, ?_⟩
  exact (C86_vp h _ _).mpr ⟨e.contexts, e.types, e.credentials, rfl, e.holder⟩

/-- A number whose canonical text is that of a 64-bit integer. -/
def WrittenAsInteger (E : Env) (n : Num E.F) : Prop := SmallNat (E.jcsNum n) ∨ SmallNeg (E.jcsNum n)

theorem isDouble_rejcs (N : Doubles E bits) {n m : Num E.F} (h : NumMeans E.floatParse (E.jcsNum n) m) :
    isDouble m = isDouble n ↔ (isDouble n = true → ¬ WrittenAsInteger E n) := by
  have hint : isDouble n = false → WrittenAsInteger E n := by
    intro hn
    cases n with
    | pos n =>
      refine .inl ?_
      rw [N.jcs]
      refine ⟨Double.natDec_digits _, ?_⟩
      rw [← decVal_eq, (natDec_spec n.1).2.1]
      exact n.2
    | neg k =>
      refine .inr ?_
      rw [N.jcs]
      refine ⟨_, rfl, Double.natDec_digits _, ?_⟩
      rw [← decVal_eq, (natDec_spec (k.1 + 1)).2.1]
      omega
    | float f => cases hn
  unfold WrittenAsInteger at *
  generalize E.jcsNum n = t at *
  cases h with
  | nat h =>
    cases hn : isDouble n <;> simp [isDouble, h]
  | @neg ds k hd hk =>
    have : SmallNeg (0x2d :: ds) := ⟨ds, rfl, hd, by omega, by have := k.2; omega⟩
    cases hn : isDouble n <;> simp [isDouble, this]
  | float h1 h2 h3 =>
    cases hn : isDouble n with
    | false => rcases hint hn with h | h <;> contradiction
    | true => simp [isDouble, h1, h2]

theorem samePlaces_rejcs (N : Doubles E bits) (hk : E.keyLe = unitLe) (v : VC E) (hr : Rereads E v.credentialSubject.1) :
    SamePlaces v (v.mapNum (rejcs E)) ↔ ∀ f, Num.float f ∈ v.credentialSubject.1.nums → ¬ WrittenAsInteger E (.float f) := by
  have L := (C80_laws N).2 hk
  have hp : SamePlaces v (v.mapNum (rejcs E)) ↔ ∀ n ∈ v.credentialSubject.1.nums, isDouble (rejcs E n) = isDouble n := by
    show v.credentialSubject.1.mapNum isDouble = (v.credentialSubject.1.mapNum (rejcs E)).mapNum isDouble ↔ _
    rw [Json.mapNum_mapNum]
    constructor
    · intro e n hn
      exact (Json.eq_of_mapNum v.credentialSubject.1 e n hn).symm
    · intro e
      exact Json.mapNum_congr _ fun n hn => (e n hn).symm
  rw [hp]
  have hm : ∀ n ∈ v.credentialSubject.1.nums, NumMeans E.floatParse (E.jcsNum n) (rejcs E n) := fun n hn =>
    (decNum_iff _ ((isNumTok_iff _).mp (L.num_tok n)) _).mp ((rereads_iff L _).mp hr n hn).1
  constructor
  · intro e f hf
    exact (isDouble_rejcs N (hm _ hf)).mp (e _ hf) rfl
  · intro e n hn
    refine (isDouble_rejcs N (hm _ hn)).mpr fun hd => ?_
    cases n with
    | float f => exact e f hn
    | _ => cases hd

/-- C86: the credential read back from the canonical text is `==` to the one written exactly if none of its doubles is
written like an integer. (A double that is, 2.0 for one, comes back as an integer.) -/
theorem C86_sent_vc (N : Doubles E bits) (hk : E.keyLe = unitLe) {feq : E.F → E.F → Bool} (h : Ieee bits feq) (v : VC E)
    (hv : VCComplete v) (hd : v.credentialSubject.1.depth ≤ 126) (hr : Rereads E v.credentialSubject.1) :
    ∃ t w, v.toJcs = .ok t ∧ VC.parseJsonBytes E (utf8 t) = .ok w ∧ w.toJcs = .ok t ∧
      (VC.eq feq v w = true ↔ ∀ f, Num.float f ∈ v.credentialSubject.1.nums → ¬ WrittenAsInteger E (.float f)) := by
  have L := (C80_laws N).2 hk
  have ht : v.toJcs = .ok (jcsText E v.toTree) := by unfold VC.toJcs; rw [(C24_validate v).1.mpr hv]
  have hsame := VC.same_mapNum L v hr
  refine ⟨_, v.mapNum (rejcs E), ht, ?_, ?_, ?_⟩
  · rw [utf8_eq, VC.parse_jcs L,
      VC.dec_toTree v (fun n hm => ((rereads_iff L _).mp hr n hm).1) 128 (by omega) (by omega)]
  · rw [← ht]
    exact ((C29_vc L v _ hv (VCComplete.same hsame hv)).mpr hsame).symm
  · rw [C86_vc h, C86_canonical_vc N, samePlaces_rejcs N hk v hr]
    exact ⟨fun e => e.2, fun e => ⟨hsame, e⟩⟩

/-- C86: the same for presentations. -/
theorem C86_sent_vp (N : Doubles E bits) (hk : E.keyLe = unitLe) {feq : E.F → E.F → Bool} (h : Ieee bits feq) (v : VP E)
    (hv : VPComplete v) (hd : ∀ c ∈ v.verifiableCredential, c.credentialSubject.1.depth ≤ 124)
    (hr : ∀ c ∈ v.verifiableCredential, Rereads E c.credentialSubject.1) :
    ∃ t w, v.toJcs = .ok t ∧ VP.parseJsonBytes E (utf8 t) = .ok w ∧ w.toJcs = .ok t ∧
      (VP.eq feq v w = true ↔ ∀ c ∈ v.verifiableCredential, ∀ f, Num.float f ∈ c.credentialSubject.1.nums →
        ¬ WrittenAsInteger E (.float f)) := by
  have L := (C80_laws N).2 hk
  have ht : v.toJcs = .ok (jcsText E v.toTree) := by unfold VP.toJcs; rw [(C25_validate v).1.mpr hv]
  have hsame := VP.same_mapNum L v hr
  refine ⟨_, v.mapNum (rejcs E), ht, ?_, ?_, ?_⟩
  · rw [utf8_eq, VP.parse_jcs L,
      VP.dec_toTree v (fun c hc n hm => ((rereads_iff L _).mp (hr c hc) n hm).1) 128 (by omega)
        (fun c hc => by have := hd c hc; omega)]
  · rw [← ht]
    exact ((C29_vp L v _ hv (VPComplete.same hsame hv)).mpr hsame).symm
  · rw [C86_vp h, C86_canonical_vp N]
    have hl : List.Forall₂ SamePlaces v.verifiableCredential (v.mapNum (rejcs E)).verifiableCredential ↔
        ∀ c ∈ v.verifiableCredential, ∀ f, Num.float f ∈ c.credentialSubject.1.nums → ¬ WrittenAsInteger E (.float f) := by
      show List.Forall₂ SamePlaces v.verifiableCredential (v.verifiableCredential.map (VC.mapNum (rejcs E))) ↔ _
      rw [List.forall₂_map_right_iff, List.forall₂_same]
      exact forall₂_congr fun c hc => samePlaces_rejcs N hk c (hr c hc)
    rw [hl]
    exact ⟨fun e => e.2, fun e => ⟨hsame, e⟩⟩

/-! ### Concrete cases, in the world of `Verif/Props/Numbers.lean` -/

/-- `==` of doubles. -/
def numericEq (f g : numeric.F) : Bool := decide (f64Value f = f64Value g)

theorem numericEq_ieee : Ieee (E := numeric) id numericEq := fun _ _ => decide_eq_true_iff

def zeroPlus : F64 := ⟨false, 0, by decide +kernel⟩
def zeroMinus : F64 := ⟨true, 0, by decide +kernel⟩

/-- `C86_vc`, `C86_equal`, `C86_signed_vc`: credentials with 0.0 and -0.0 are `==` although their JSON texts differ; they have
one canonical text and get the same proof. -/
example : VC.eq numericEq (plainVC zeroPlus) (plainVC zeroMinus) = true ∧
    (plainVC zeroPlus).toJcs = (plainVC zeroMinus).toJcs ∧
    numeric.floatPrint zeroPlus ≠ numeric.floatPrint zeroMinus ∧
    ∃ out out', sign numeric (VC numeric) Ed25519.secret1 (plainVC zeroPlus) toyProof = .ok out ∧
      sign numeric (VC numeric) Ed25519.secret1 (plainVC zeroMinus) toyProof = .ok out' ∧ out'.proof = out.proof := by
  have he : VC.eq numericEq (plainVC zeroPlus) (plainVC zeroMinus) = true := by
    rw [C86_vc numericEq_ieee]
    refine ⟨rfl, rfl, ?_, rfl, rfl, rfl⟩
    have : f64Value zeroPlus = f64Value zeroMinus := by norm_num [f64Value, zeroPlus, zeroMinus, ieee]
    exact congrArg (fun q => Json.num (Kind.real q)) this
  obtain ⟨text, htext⟩ : ∃ text, IsMultibase58 (numeric.edSign Ed25519.secret1 (message numeric (optionBytes numeric toyProof)
      (vcBytes (plainVC zeroPlus)))) text := ⟨_, multibaseEncode58_spec _⟩
  have hs := ((C32_vc numeric_laws.2.2.2.2.2.2 Ed25519.secret1 (plainVC zeroPlus) toyProof).1 _).mpr
    ⟨numeric_options, by decide, plainVC_complete _, text, htext, rfl⟩
  obtain ⟨out', h1, h2, -⟩ := C86_signed_vc numeric_doubles rfl numericEq_ieee Ed25519.secret1 _ _ toyProof he _ hs
  exact ⟨he, (((C86_equal numeric_doubles rfl numericEq_ieee).2.2.1 _ _ (plainVC_complete _) (plainVC_complete _)).mp he).1,
    by decide +kernel, _, out', hs, h1, h2⟩

/-- The presentations of them. -/
example : VP.eq numericEq (⟨["c".toList], ["P".toList], [plainVC zeroPlus, plainVC tenth], none, none⟩ : VP numeric)
    ⟨["c".toList], ["P".toList], [plainVC zeroMinus, plainVC tenth], none, none⟩ = true ∧
    VP.eq numericEq (⟨["c".toList], ["P".toList], [plainVC zeroPlus, plainVC tenth], none, none⟩ : VP numeric)
    ⟨["c".toList], ["P".toList], [plainVC zeroPlus, plainVC small], none, none⟩ = false := by
  have h0 : f64Value zeroPlus = f64Value zeroMinus := by norm_num [f64Value, zeroPlus, zeroMinus, ieee]
  constructor
  · rw [C86_vp numericEq_ieee]
    refine ⟨rfl, rfl, .cons ⟨rfl, rfl, ?_, rfl, rfl, rfl⟩ (.cons ⟨rfl, rfl, rfl, rfl, rfl, rfl⟩ .nil), rfl, rfl⟩
    exact congrArg (fun q => Json.num (Kind.real q)) h0
  · rw [← Bool.not_eq_true, C86_vp numericEq_ieee]
    rintro ⟨-, -, h, -, -⟩
    cases h with
    | cons _ h =>
      cases h with
      | cons h _ =>
        have : f64Value tenth = f64Value small := Kind.real.inj (Json.num.inj h.subject)
        revert this
        norm_num [f64Value, tenth, small, ieee]

/-- `C86_number`: 30.0 and 30 have the same canonical text and are not equal. -/
example : numeric.jcsNum (.float thirty) = numeric.jcsNum (.pos 30) ∧ kind (F := numeric.F) id (.float thirty) ≠ kind id (.pos 30) :=
  ⟨by decide +kernel, fun h => by cases h⟩

/-- `C86_sent_vc`: the sample credential has the number 30.0 and does not come back `==`; one with 0.1 does. -/
example : (∃ t w, numericVC.toJcs = .ok t ∧ VC.parseJsonBytes numeric (utf8 t) = .ok w ∧ w.toJcs = .ok t ∧
      VC.eq numericEq numericVC w = false) ∧
    ∃ t w, (plainVC tenth).toJcs = .ok t ∧ VC.parseJsonBytes numeric (utf8 t) = .ok w ∧ VC.eq numericEq (plainVC tenth) w = true := by
  constructor
  · obtain ⟨t, w, h1, h2, h3, h4⟩ := C86_sent_vc numeric_doubles rfl numericEq_ieee numericVC numericVC_complete
      (by have := numericVC_depth; omega) (C80_documents numeric_doubles _ numericVC_numbers).2
    refine ⟨t, w, h1, h2, h3, ?_⟩
    rw [← Bool.not_eq_true, h4]
    intro h
    refine h thirty (by simp [numericVC, Json.nums, Json.numsList]) (.inl ?_)
    have e : numeric.jcsNum (.float thirty) = [0x33, 0x30] := by decide +kernel
    rw [e]
    exact ⟨⟨by decide, all_isDigit.mp (by decide)⟩, by decide⟩
  · have hn : ∀ f, Num.float f ∈ (plainVC tenth).credentialSubject.1.nums → f = tenth := by
      intro f hf
      simp only [plainVC, Json.nums, List.mem_singleton] at hf
      exact Num.float.inj hf
    obtain ⟨t, w, h1, h2, -, h4⟩ := C86_sent_vc numeric_doubles rfl numericEq_ieee (plainVC tenth) (plainVC_complete _)
      (by simp [plainVC, Json.depth]) (C80_documents numeric_doubles _ (fun f hf => by rw [hn f hf]; exact tenth_everyday)).2
    refine ⟨t, w, h1, h2, h4.mpr fun f hf => ?_⟩
    rw [hn f hf]
    have e : numeric.jcsNum (.float tenth) = [0x30, 0x2e, 0x31] := by decide +kernel
    unfold WrittenAsInteger
    rw [e]
    rintro (⟨⟨-, h⟩, -⟩ | ⟨ds, h, -⟩)
    · have := all_isDigit.mpr h
      revert this
      decide
    · cases h

/-- `C86_sent_vp`, `C86_signed_vp`: a presentation of the sample credential does not come back `==`. -/
example : ∃ t w, numericVP.toJcs = .ok t ∧ VP.parseJsonBytes numeric (utf8 t) = .ok w ∧ VP.eq numericEq numericVP w = false := by
  have hc : ∀ c ∈ numericVP.verifiableCredential, c = numericVC := by simp [numericVP]
  obtain ⟨t, w, h1, h2, -, h4⟩ := C86_sent_vp numeric_doubles rfl numericEq_ieee numericVP numericVP_complete
    (fun c h => by rw [hc c h]; exact numericVC_depth)
    (fun c h => by rw [hc c h]; exact (C80_documents numeric_doubles _ numericVC_numbers).2)
  refine ⟨t, w, h1, h2, ?_⟩
  rw [← Bool.not_eq_true, h4]
  intro h
  refine h numericVC (by simp [numericVP]) thirty (by simp [numericVC, Json.nums, Json.numsList]) (.inl ?_)
  have e : numeric.jcsNum (.float thirty) = [0x33, 0x30] := by decide +kernel
  rw [e]
  exact ⟨⟨by decide, all_isDigit.mp (by decide)⟩, by decide⟩

end Verif.Props
