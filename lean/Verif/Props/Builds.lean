import Verif.Lemmas.Builds
import Verif.Props.Address
import Verif.Props.Binding
import Verif.Props.Dates
import Verif.Props.Equality
import Verif.Props.Passwords
import Verif.Props.Spellings

/-
C92: the standards determine the library. Two builds on dependencies that do what the standards say, however they represent
keys, numbers and addresses and whatever their error texts, agree on every DID, document, link, URI, signature and
acceptance (all of core/src; nothing of this is visible in one build alone).
-/

namespace Verif.Spec
open Verif

/-- The dependencies do what the standards say; `seed`, `bits` and `parts` tell which secret, double and address a value
of theirs is. -/
structure Conforms (E : Env) (seed : E.EdKP → Bytes) (bits : E.F → Double.F64) (parts : E.Multiaddr → List AddrPart) : Prop where
  standard : Standard E seed bits
  passwords : Argon2Keys E
  dates : ChronoDates E
  bases : CrateBases E
  addresses : CrateAddrs E parts

/-- The same credential in two builds: same strings, same proof, and a subject with the same JSON text. -/
structure SameCredential {E₁ E₂ : Env} (v₁ : VC E₁) (v₂ : VC E₂) : Prop where
  contexts : v₁.contexts = v₂.contexts
  types : v₁.types = v₂.types
  subject : plainText E₁ v₁.credentialSubject.1 = plainText E₂ v₂.credentialSubject.1
  proof : v₁.proof = v₂.proof
  id : v₁.id = v₂.id
  issuer : v₁.issuer = v₂.issuer

/-- The same presentation in two builds. -/
structure SamePresentation {E₁ E₂ : Env} (v₁ : VP E₁) (v₂ : VP E₂) : Prop where
  contexts : v₁.contexts = v₂.contexts
  types : v₁.types = v₂.types
  credentials : List.Forall₂ SameCredential v₁.verifiableCredential v₂.verifiableCredential
  proof : v₁.proof = v₂.proof
  holder : v₁.holder = v₂.holder

/-- Both fail, or both succeed with related results. -/
def BothOrNeither {ε₁ ε₂ α₁ α₂ : Type} (R : α₁ → α₂ → Prop) (x₁ : Except ε₁ α₁) (x₂ : Except ε₂ α₂) : Prop :=
  (∃ e₁ e₂, x₁ = .error e₁ ∧ x₂ = .error e₂) ∨ ∃ a₁ a₂, x₁ = .ok a₁ ∧ x₂ = .ok a₂ ∧ R a₁ a₂

/-- Both builds draw the same secrets for a verification method. -/
structure SameSecrets {E₁ E₂ : Env} (seed₁ : E₁.EdKP → Bytes) (seed₂ : E₂.EdKP → Bytes) (s₁ : MethodSeed E₁) (s₂ : MethodSeed E₂) :
    Prop where
  signing : seed₁ (E₁.edGenerate s₁.ed) = seed₂ (E₂.edGenerate s₂.ed)
  agreement : E₁.dhSecret (E₁.dhGenerate s₁.dh) = E₂.dhSecret (E₂.dhGenerate s₂.dh)

/-- The creation date of these options, if there is one, is not left open. -/
def PlainDate (p : Proof) : Prop := ∀ c, p.created = some c → Settled c

end Verif.Spec

namespace Verif.Props
open Verif Spec Hashlink

/-- Both builds are asked to build the same methods, with the same secrets. -/
inductive SameCall {E₁ E₂ : Env} (seed₁ : E₁.EdKP → Bytes) (seed₂ : E₂.EdKP → Bytes) : IdOp E₁ → IdOp E₂ → Prop where
  | auth {s₁ s₂} (h : SameSecrets seed₁ seed₂ s₁ s₂) : SameCall seed₁ seed₂ (.auth s₁) (.auth s₂)
  | assertion {s₁ s₂} (h : SameSecrets seed₁ seed₂ s₁ s₂) : SameCall seed₁ seed₂ (.assertion s₁) (.assertion s₂)

/-! ### Numbers -/

/-- The number with the same bits. -/
noncomputable def move {F₁ F₂ : Type} (bits₁ : F₁ → Double.F64) {bits₂ : F₂ → Double.F64} (h : Function.Bijective bits₂) : F₁ → F₂ :=
  fun f => (h.2 (bits₁ f)).choose

theorem move_bits {F₁ F₂ : Type} (bits₁ : F₁ → Double.F64) {bits₂ : F₂ → Double.F64} (h : Function.Bijective bits₂) (f : F₁) :
    bits₂ (move bits₁ h f) = bits₁ f := (h.2 (bits₁ f)).choose_spec

section
variable {E₁ E₂ : Env} {bits₁ : E₁.F → Double.F64} {bits₂ : E₂.F → Double.F64}

theorem moves (N₁ : Doubles E₁ bits₁) (N₂ : Doubles E₂ bits₂) (ho : E₂.keyLe = E₁.keyLe) :
    Moves E₁ E₂ (move bits₁ N₂.bijective) where
  print f := by rw [N₂.print, N₁.print, move_bits bits₁ N₂.bijective]
  parse t := by
    have h₁ := N₁.parse t
    have h₂ := N₂.parse t
    cases h : E₁.floatParse t with
    | none =>
      rw [h] at h₁
      rw [← h₁] at h₂
      cases h' : E₂.floatParse t with
      | none => rfl
      | some g => rw [h'] at h₂; cases h₂
    | some f =>
      rw [h] at h₁
      rw [← h₁] at h₂
      cases h' : E₂.floatParse t with
      | none => rw [h'] at h₂; cases h₂
      | some g =>
        rw [h'] at h₂
        have hb : bits₂ g = bits₁ f := Option.some.inj h₂
        refine congrArg some (N₂.bijective.1 ?_)
        rw [hb, move_bits bits₁ N₂.bijective]
  jcs n := by
    rw [N₁.jcs, N₂.jcs]
    cases n with
    | pos n => rfl
    | neg n => rfl
    | float f =>
      show Double.printEs (bits₂ (move bits₁ N₂.bijective f)) = Double.printEs (bits₁ f)
      rw [move_bits bits₁ N₂.bijective]
  order := ho

theorem printNum_injective (L : E₁.NumLaws) (N : Doubles E₁ bits₁) : Function.Injective (printNum E₁.floatPrint) := by
  have hp : ∀ (n : Nat) f, natDec n ≠ E₁.floatPrint f := fun n f h => by
    have h1 : isIntTok (natDec n) = true := Double.isIntTok_natDec n false
    rw [h, L.notInt] at h1
    cases h1
  have hn : ∀ (n : Nat) f, 0x2d :: natDec n ≠ E₁.floatPrint f := fun n f h => by
    have h1 : isIntTok (0x2d :: natDec n) = true := Double.isIntTok_natDec n true
    rw [h, L.notInt] at h1
    cases h1
  intro a b h
  cases a with
  | pos n =>
    cases b with
    | pos m => exact congrArg Num.pos (Fin.ext (natDec_injective h))
    | neg m => exact (natDec_ne_neg h).elim
    | float f => exact (hp _ _ h).elim
  | neg n =>
    cases b with
    | pos m => exact (natDec_ne_neg h.symm).elim
    | neg m => exact congrArg Num.neg (Fin.ext (by have := natDec_injective (List.cons.inj h).2; omega))
    | float f => exact (hn _ _ h).elim
  | float f =>
    cases b with
    | pos m => exact (hp _ _ h.symm).elim
    | neg m => exact (hn _ _ h.symm).elim
    | float g => exact congrArg Num.float ((C80_distinct N f g).1 h)

theorem mapNum_injective {N M : Type} [Nonempty N] {p : N → M} (hp : Function.Injective p) : Function.Injective (Json.mapNum p) := by
  intro a b h
  have h1 := congrArg (Json.mapNum (Function.invFun p)) h
  rw [Json.mapNum_mapNum, Json.mapNum_mapNum, (Function.invFun_comp hp : _ ∘ p = id)] at h1
  have hi : ∀ j : Json N, Json.mapNum id j = j := fun j => (Json.mapNum_eq_self j).mpr fun _ _ => rfl
  rwa [hi, hi] at h1

theorem value_ext (L : E₁.NumLaws) (N : Doubles E₁ bits₁) {a b : Value E₁} (h : plainText E₁ a.1 = plainText E₁ b.1) : a = b := by
  rw [← jsonText_eq L, ← jsonText_eq L] at h
  have h1 := congrArg utf8Encode h
  rw [jsonText_bytes L, jsonText_bytes L] at h1
  have h2 := Raw.render_injective (Json.toRaw_ok (printNum_tok L.tok) _) (Json.toRaw_ok (printNum_tok L.tok) _) h1
  have : Nonempty (Num E₁.F) := ⟨.pos 0⟩
  exact Subtype.ext (mapNum_injective (printNum_injective L N) (Json.toRaw_inj _ _ h2))
end

section
variable {E₁ E₂ : Env} {seed₁ : E₁.EdKP → Bytes} {seed₂ : E₂.EdKP → Bytes} {bits₁ : E₁.F → Double.F64} {bits₂ : E₂.F → Double.F64}
  {parts₁ : E₁.Multiaddr → List AddrPart} {parts₂ : E₂.Multiaddr → List AddrPart}

theorem _root_.Verif.Spec.Conforms.moves (C₁ : Conforms E₁ seed₁ bits₁ parts₁) (C₂ : Conforms E₂ seed₂ bits₂ parts₂) :
    Moves E₁ E₂ (move bits₁ C₂.standard.numbers.bijective) :=
  Props.moves C₁.standard.numbers C₂.standard.numbers (C₂.standard.order.trans C₁.standard.order.symm)

theorem _root_.Verif.Spec.Conforms.num (C : Conforms E₁ seed₁ bits₁ parts₁) : E₁.NumLaws := (C80_laws C.standard.numbers).1
theorem _root_.Verif.Spec.Conforms.jcs (C : Conforms E₁ seed₁ bits₁ parts₁) : E₁.JcsLaws := (C80_laws C.standard.numbers).2 C.standard.order

theorem subject_over (C₁ : Conforms E₁ seed₁ bits₁ parts₁) (C₂ : Conforms E₂ seed₂ bits₂ parts₂) (a : Value E₁) (b : Value E₂) :
    plainText E₁ a.1 = plainText E₂ b.1 ↔ b = a.over (move bits₁ C₂.standard.numbers.bijective) := by
  have h : plainText E₂ (a.over (move bits₁ C₂.standard.numbers.bijective)).1 = plainText E₁ a.1 := by
    rw [← jsonText_eq C₂.num, ← jsonText_eq C₁.num]
    exact jsonText_over (C₁.moves C₂) a.1
  constructor
  · intro e
    exact value_ext C₂.num C₂.standard.numbers (by rw [h, e])
  · rintro rfl
    exact h.symm

theorem same_vc (C₁ : Conforms E₁ seed₁ bits₁ parts₁) (C₂ : Conforms E₂ seed₂ bits₂ parts₂) (v₁ : VC E₁) (v₂ : VC E₂) :
    SameCredential v₁ v₂ ↔ v₂ = v₁.over (move bits₁ C₂.standard.numbers.bijective) := by
  obtain ⟨a, b, c, d, e, f⟩ := v₁
  obtain ⟨a', b', c', d', e', f'⟩ := v₂
  constructor
  · rintro ⟨rfl, rfl, h, rfl, rfl, rfl⟩
    rw [(subject_over C₁ C₂ c c').mp h]
    rfl
  · intro h
    simp only [VC.over, VC.mk.injEq] at h
    obtain ⟨rfl, rfl, h, rfl, rfl, rfl⟩ := h
    exact ⟨rfl, rfl, (subject_over C₁ C₂ c c').mpr h, rfl, rfl, rfl⟩

theorem same_vp (C₁ : Conforms E₁ seed₁ bits₁ parts₁) (C₂ : Conforms E₂ seed₂ bits₂ parts₂) (v₁ : VP E₁) (v₂ : VP E₂) :
    SamePresentation v₁ v₂ ↔ v₂ = v₁.over (move bits₁ C₂.standard.numbers.bijective) := by
  have hl : ∀ (l₁ : List (VC E₁)) (l₂ : List (VC E₂)), List.Forall₂ SameCredential l₁ l₂ ↔
      l₂ = l₁.map (VC.over (move bits₁ C₂.standard.numbers.bijective)) := by
    intro l₁
    induction l₁ with
    | nil => intro l₂; cases l₂ <;> simp
    | cons x l₁ ih =>
      intro l₂
      cases l₂ with
      | nil => simp
      | cons y l₂ => rw [List.forall₂_cons, same_vc C₁ C₂, ih, List.map_cons, List.cons.injEq]
  obtain ⟨a, b, c, d, e⟩ := v₁
  obtain ⟨a', b', c', d', e'⟩ := v₂
  constructor
  · rintro ⟨rfl, rfl, h, rfl, rfl⟩
    rw [(hl c c').mp h]
    rfl
  · intro h
    simp only [VP.over, VP.mk.injEq] at h
    obtain ⟨rfl, rfl, h, rfl, rfl⟩ := h
    exact ⟨rfl, rfl, (hl c c').mpr h, rfl, rfl⟩

/-! ### Texts and reading -/

/-- C92: all laws assumed anywhere hold of conforming dependencies. -/
theorem C92_laws {E : Env} {seed : E.EdKP → Bytes} {bits : E.F → Double.F64} {parts : E.Multiaddr → List AddrPart}
    (C : Conforms E seed bits parts) :
    E.HashLaws ∧ E.EdLaws ∧ E.PemLaw ∧ E.DhLaw ∧ E.AeadLaw ∧ E.NumLaws ∧ E.JcsLaws := C81_all C.standard

/-- C92: a credential that two builds hold has one JSON text and one canonical text, and both builds check it alike, with the
same errors. -/
theorem C92_texts_vc (C₁ : Conforms E₁ seed₁ bits₁ parts₁) (C₂ : Conforms E₂ seed₂ bits₂ parts₂) {v₁ : VC E₁} {v₂ : VC E₂}
    (h : SameCredential v₁ v₂) : v₁.validate = v₂.validate ∧ v₁.toJson = v₂.toJson ∧ v₁.toJcs = v₂.toJcs := by
  cases (same_vc C₁ C₂ v₁ v₂).mp h
  exact ⟨(VC.validate_over v₁).symm, (VC.toJson_over (C₁.moves C₂) v₁).symm, (VC.toJcs_over (C₁.moves C₂) v₁).symm⟩

/-- C92: and so has a presentation. -/
theorem C92_texts_vp (C₁ : Conforms E₁ seed₁ bits₁ parts₁) (C₂ : Conforms E₂ seed₂ bits₂ parts₂) {v₁ : VP E₁} {v₂ : VP E₂}
    (h : SamePresentation v₁ v₂) : v₁.validate = v₂.validate ∧ v₁.toJson = v₂.toJson ∧ v₁.toJcs = v₂.toJcs := by
  cases (same_vp C₁ C₂ v₁ v₂).mp h
  exact ⟨(VP.validate_over v₁).symm, (VP.toJson_over (C₁.moves C₂) v₁).symm, (VP.toJcs_over (C₁.moves C₂) v₁).symm⟩

/-- C92: two builds read every text alike: both refuse it, or both read the same credential in it. -/
theorem C92_read_vc (C₁ : Conforms E₁ seed₁ bits₁ parts₁) (C₂ : Conforms E₂ seed₂ bits₂ parts₂) (bs : Bytes) :
    BothOrNeither SameCredential (VC.parseJsonBytes E₁ bs) (VC.parseJsonBytes E₂ bs) := by
  have h := fromSlice_over (VC.dec_over (C₁.moves C₂)) bs
  unfold VC.parseJsonBytes
  rw [h]
  cases fromSlice (VC.dec E₁) bs with
  | none => exact .inl ⟨_, _, rfl, rfl⟩
  | some v => exact .inr ⟨v, _, rfl, rfl, (same_vc C₁ C₂ _ _).mpr rfl⟩

/-- C92: or the same presentation. -/
theorem C92_read_vp (C₁ : Conforms E₁ seed₁ bits₁ parts₁) (C₂ : Conforms E₂ seed₂ bits₂ parts₂) (bs : Bytes) :
    BothOrNeither SamePresentation (VP.parseJsonBytes E₁ bs) (VP.parseJsonBytes E₂ bs) := by
  have h := fromSlice_over (VP.dec_over (C₁.moves C₂)) bs
  unfold VP.parseJsonBytes
  rw [h]
  cases fromSlice (VP.dec E₁) bs with
  | none => exact .inl ⟨_, _, rfl, rfl⟩
  | some v => exact .inr ⟨v, _, rfl, rfl, (same_vp C₁ C₂ _ _).mpr rfl⟩

/-! ### Signing and verifying -/

theorem same_options (C₁ : Conforms E₁ seed₁ bits₁ parts₁) (C₂ : Conforms E₂ seed₂ bits₂ parts₂) (p : Proof) (hd : PlainDate p) :
    GoodOptions E₁ p ↔ GoodOptions E₂ p := by
  rw [C83_options C₁.dates p hd, C83_options C₂.dates p hd]

theorem same_optionBytes (C₁ : Conforms E₁ seed₁ bits₁ parts₁) (C₂ : Conforms E₂ seed₂ bits₂ parts₂) (p : Proof) :
    optionBytes E₂ p = optionBytes E₁ p := by
  rw [← optionBytes_eq C₁.jcs, ← optionBytes_eq C₂.jcs, proof_jcs_over (C₁.moves C₂)]

theorem same_vcBytes (C₁ : Conforms E₁ seed₁ bits₁ parts₁) (C₂ : Conforms E₂ seed₂ bits₂ parts₂) (v : VC E₁) (hv : VCComplete v) :
    VCComplete (v.over (move bits₁ C₂.standard.numbers.bijective)) ∧
      vcBytes (v.over (move bits₁ C₂.standard.numbers.bijective)) = vcBytes v := by
  have h := C49_vc_canonical C₁.jcs v hv
  have h1 := (vc_toJcs_iff C₁.jcs v _).mp h
  have h2 := (vc_toJcs_iff C₂.jcs (v.over (move bits₁ C₂.standard.numbers.bijective)) _).mp ((VC.toJcs_over (C₁.moves C₂) v).trans h)
  exact ⟨h2.1, h2.2.symm.trans h1.2⟩

theorem same_vpBytes (C₁ : Conforms E₁ seed₁ bits₁ parts₁) (C₂ : Conforms E₂ seed₂ bits₂ parts₂) (v : VP E₁) (hv : VPComplete v) :
    VPComplete (v.over (move bits₁ C₂.standard.numbers.bijective)) ∧
      vpBytes (v.over (move bits₁ C₂.standard.numbers.bijective)) = vpBytes v := by
  have h := C49_vp_canonical C₁.jcs v hv
  have h1 := (vp_toJcs_iff C₁.jcs v _).mp h
  have h2 := (vp_toJcs_iff C₂.jcs (v.over (move bits₁ C₂.standard.numbers.bijective)) _).mp ((VP.toJcs_over (C₁.moves C₂) v).trans h)
  exact ⟨h2.1, h2.2.symm.trans h1.2⟩

theorem vcComplete_over (φ : E₁.F → E₂.F) (v : VC E₁) : VCComplete (v.over φ) ↔ VCComplete v := by
  unfold VCComplete
  exact and_congr Iff.rfl (and_congr Iff.rfl (not_congr (null_over _)))

theorem vpComplete_over (φ : E₁.F → E₂.F) (v : VP E₁) : VPComplete (v.over φ) ↔ VPComplete v := by
  unfold VPComplete VP.over
  simp

theorem same_message (C₁ : Conforms E₁ seed₁ bits₁ parts₁) (C₂ : Conforms E₂ seed₂ bits₂ parts₂) (o d : Bytes) :
    message E₂ o d = message E₁ o d := by
  unfold message
  rw [C₁.standard.actual.sha256, C₂.standard.actual.sha256]

theorem same_sign (C₁ : Conforms E₁ seed₁ bits₁ parts₁) (C₂ : Conforms E₂ seed₂ bits₂ parts₂) {k₁ : E₁.EdKP} {k₂ : E₂.EdKP}
    (hk : seed₁ k₁ = seed₂ k₂) (m : Bytes) : E₂.edSign k₂ m = E₁.edSign k₁ m := by
  rw [C₁.standard.signatures.sign, C₂.standard.signatures.sign, hk]

/-- C92: two builds with the same secret sign alike: both refuse, or both give the same signed credential, to the letter. -/
theorem C92_sign_vc (C₁ : Conforms E₁ seed₁ bits₁ parts₁) (C₂ : Conforms E₂ seed₂ bits₂ parts₂) {k₁ : E₁.EdKP} {k₂ : E₂.EdKP}
    (hk : seed₁ k₁ = seed₂ k₂) {v₁ : VC E₁} {v₂ : VC E₂} (h : SameCredential v₁ v₂) (opts : Proof) (hd : PlainDate opts) :
    BothOrNeither SameCredential (sign E₁ (VC E₁) k₁ v₁ opts) (sign E₂ (VC E₂) k₂ v₂ opts) := by
  cases (same_vc C₁ C₂ v₁ v₂).mp h
  have key : ∀ out, sign E₁ (VC E₁) k₁ v₁ opts = .ok out →
      sign E₂ (VC E₂) k₂ (v₁.over (move bits₁ C₂.standard.numbers.bijective)) opts =
        .ok (out.over (move bits₁ C₂.standard.numbers.bijective)) := by
    intro out ho
    obtain ⟨g1, g2, g3, text, g4, rfl⟩ := ((C32_vc C₁.jcs k₁ v₁ opts).1 out).mp ho
    obtain ⟨g5, g6⟩ := same_vcBytes C₁ C₂ v₁ g3
    refine ((C32_vc C₂.jcs k₂ _ opts).1 _).mpr ⟨(same_options C₁ C₂ opts hd).mp g1, g2, g5, text, ?_, rfl⟩
    rw [same_optionBytes C₁ C₂, g6, same_message C₁ C₂, same_sign C₁ C₂ hk]
    exact g4
  cases h₁ : sign E₁ (VC E₁) k₁ v₁ opts with
  | ok out => exact .inr ⟨out, _, rfl, key out h₁, (same_vc C₁ C₂ _ _).mpr rfl⟩
  | error e =>
    cases h₂ : sign E₂ (VC E₂) k₂ (v₁.over (move bits₁ C₂.standard.numbers.bijective)) opts with
    | error e' => exact .inl ⟨_, _, rfl, rfl⟩
    | ok out =>
      obtain ⟨g1, g2, g3, -⟩ := ((C32_vc C₂.jcs k₂ _ opts).1 out).mp h₂
      have := ((C32_vc C₁.jcs k₁ v₁ opts).1 _).mpr ⟨(same_options C₁ C₂ opts hd).mpr g1, g2, (vcComplete_over _ _).mp g3, _,
        multibaseEncode58_spec _, rfl⟩
      rw [h₁] at this
      cases this

/-- C92: and the same signed presentation. -/
theorem C92_sign_vp (C₁ : Conforms E₁ seed₁ bits₁ parts₁) (C₂ : Conforms E₂ seed₂ bits₂ parts₂) {k₁ : E₁.EdKP} {k₂ : E₂.EdKP}
    (hk : seed₁ k₁ = seed₂ k₂) {v₁ : VP E₁} {v₂ : VP E₂} (h : SamePresentation v₁ v₂) (opts : Proof) (hd : PlainDate opts) :
    BothOrNeither SamePresentation (sign E₁ (VP E₁) k₁ v₁ opts) (sign E₂ (VP E₂) k₂ v₂ opts) := by
  cases (same_vp C₁ C₂ v₁ v₂).mp h
  have key : ∀ out, sign E₁ (VP E₁) k₁ v₁ opts = .ok out →
      sign E₂ (VP E₂) k₂ (v₁.over (move bits₁ C₂.standard.numbers.bijective)) opts =
        .ok (out.over (move bits₁ C₂.standard.numbers.bijective)) := by
    intro out ho
    obtain ⟨g1, g2, g3, text, g4, rfl⟩ := ((C32_vp C₁.jcs k₁ v₁ opts).1 out).mp ho
    obtain ⟨g5, g6⟩ := same_vpBytes C₁ C₂ v₁ g3
    refine ((C32_vp C₂.jcs k₂ _ opts).1 _).mpr ⟨(same_options C₁ C₂ opts hd).mp g1, g2, g5, text, ?_, rfl⟩
    rw [same_optionBytes C₁ C₂, g6, same_message C₁ C₂, same_sign C₁ C₂ hk]
    exact g4
  cases h₁ : sign E₁ (VP E₁) k₁ v₁ opts with
  | ok out => exact .inr ⟨out, _, rfl, key out h₁, (same_vp C₁ C₂ _ _).mpr rfl⟩
  | error e =>
    cases h₂ : sign E₂ (VP E₂) k₂ (v₁.over (move bits₁ C₂.standard.numbers.bijective)) opts with
    | error e' => exact .inl ⟨_, _, rfl, rfl⟩
    | ok out =>
      obtain ⟨g1, g2, g3, -⟩ := ((C32_vp C₂.jcs k₂ _ opts).1 out).mp h₂
      have := ((C32_vp C₁.jcs k₁ v₁ opts).1 _).mpr ⟨(same_options C₁ C₂ opts hd).mpr g1, g2, (vpComplete_over _ _).mp g3, _,
        multibaseEncode58_spec _, rfl⟩
      rw [h₁] at this
      cases this

/-- Both builds take letters of either case in the same bases, or the text is in base 58, as the library writes it. -/
def SameSpelling (E₁ E₂ : Env) (t : Str) : Prop := E₁.mbFold = E₂.mbFold ∨ t.head? = some 'z'

theorem same_multibase (C₁ : Conforms E₁ seed₁ bits₁ parts₁) (C₂ : Conforms E₂ seed₂ bits₂ parts₂) {t : Str}
    (ht : SameSpelling E₁ E₂ t) (base : MBase) (b : Bytes) : IsMultibase E₁ base b t ↔ IsMultibase E₂ base b t := by
  rw [Bases.multibase_iff C₁.bases, Bases.multibase_iff C₂.bases]
  rcases ht with h | h
  · rw [h]
  · refine exists_congr fun r => and_congr_right fun hr => ?_
    subst hr
    cases base <;> first | exact Iff.rfl | exact absurd (Option.some.inj h) (by decide)

theorem same_accepts (C₁ : Conforms E₁ seed₁ bits₁ parts₁) (C₂ : Conforms E₂ seed₂ bits₂ parts₂) {k₁ : E₁.EdKP} {k₂ : E₂.EdKP}
    (hk : seed₁ k₁ = seed₂ k₂) {t : Str} (ht : SameSpelling E₁ E₂ t) (m : Bytes) :
    Accepts E₁ (E₁.edPub k₁) m t ↔ Accepts E₂ (E₂.edPub k₂) m t := by
  unfold Accepts
  refine exists_congr fun base => exists_congr fun sig => exists_congr fun hex => ?_
  rw [same_multibase C₁ C₂ ht]
  refine and_congr Iff.rfl (and_congr_right fun hh => ?_)
  rw [isHex_iff.mp hh, C₁.standard.signatures.verify, C₂.standard.signatures.verify, hk]

theorem received_accepts (C₁ : Conforms E₁ seed₁ bits₁ parts₁) (C₂ : Conforms E₂ seed₂ bits₂ parts₂) (V₁ : Rfc8032Verify E₁)
    (V₂ : Rfc8032Verify E₂) {p₁ : E₁.EdPub} {p₂ : E₂.EdPub} (hp : E₁.edPubBytes p₁ = E₂.edPubBytes p₂)
    (hd : Ed25519.pointDecompress (E₁.edPubBytes p₁) ≠ none) {t : Str} (ht : SameSpelling E₁ E₂ t) (m : Bytes) :
    Accepts E₁ p₁ m t ↔ Accepts E₂ p₂ m t := by
  unfold Accepts
  refine exists_congr fun base => exists_congr fun sig => exists_congr fun hex => ?_
  rw [same_multibase C₁ C₂ ht]
  refine and_congr Iff.rfl (and_congr_right fun hh => ?_)
  rw [isHex_iff.mp hh, V₁ _ _ _ hd, V₂ _ _ _ (hp ▸ hd), hp]

/-- What is known of the text for two builds to judge it alike: the proof in it, if there is one, has a date that is not left
open, and a signature text both read alike. -/
def Judged (E₁ E₂ : Env) (p : Option Proof) : Prop := ∀ q, p = some q → PlainDate q ∧ SameSpelling E₁ E₂ q.proofValue

theorem judge_vc (C₁ : Conforms E₁ seed₁ bits₁ parts₁) (C₂ : Conforms E₂ seed₂ bits₂ parts₂) {p₁ : E₁.EdPub} {p₂ : E₂.EdPub}
    (hacc : ∀ t, SameSpelling E₁ E₂ t → ∀ m, Accepts E₁ p₁ m t ↔ Accepts E₂ p₂ m t) (bs : Bytes)
    (hj : ∀ v, VC.parseJsonBytes E₁ bs = .ok v → Judged E₁ E₂ v.proof) (purpose : ProofPurpose) :
    ((∃ r, verify E₁ (VC E₁) p₁ bs purpose = .ok r ∧ r.verified = true) ↔
      ∃ r, verify E₂ (VC E₂) p₂ bs purpose = .ok r ∧ r.verified = true) ∧
    ∀ d₁ d₂, verify E₁ (VC E₁) p₁ bs purpose = .ok ⟨true, some d₁⟩ →
      verify E₂ (VC E₂) p₂ bs purpose = .ok ⟨true, some d₂⟩ → SameCredential d₁ d₂ := by
  have key : ∀ v p, VC.parseJsonBytes E₁ bs = .ok v → v.proof = some p →
      (GoodOptions E₁ p ∧ p.proofPurpose = purpose ∧ purpose ≠ .unknown ∧ VCComplete v ∧
        Accepts E₁ p₁ (message E₁ (optionBytes E₁ (unvalued p)) (vcBytes (unsignedVC v))) p.proofValue ↔
      GoodOptions E₂ p ∧ p.proofPurpose = purpose ∧ purpose ≠ .unknown ∧
        VCComplete (v.over (move bits₁ C₂.standard.numbers.bijective)) ∧
        Accepts E₂ p₂ (message E₂ (optionBytes E₂ (unvalued p))
          (vcBytes (unsignedVC (v.over (move bits₁ C₂.standard.numbers.bijective))))) p.proofValue) := by
    intro v p hv hp
    obtain ⟨hd, hs⟩ := hj v hv p hp
    rw [same_options C₁ C₂ p hd, vcComplete_over]
    refine and_congr Iff.rfl (and_congr Iff.rfl (and_congr Iff.rfl (and_congr_right fun hc => ?_)))
    have hb := (same_vcBytes C₁ C₂ (unsignedVC v) hc).2
    rw [show unsignedVC (v.over (move bits₁ C₂.standard.numbers.bijective)) =
      (unsignedVC v).over (move bits₁ C₂.standard.numbers.bijective) from rfl, hb, same_optionBytes C₁ C₂, same_message C₁ C₂]
    exact hacc _ hs _
  rcases C92_read_vc C₁ C₂ bs with ⟨e₁, e₂, h₁, h₂⟩ | ⟨v, w, h₁, h₂, hs⟩
  · constructor
    · constructor
      · rintro ⟨r, h⟩
        obtain ⟨v, p, h, -⟩ := (C33_vc C₁.jcs _ bs purpose r).mp h
        rw [h₁] at h; cases h
      · rintro ⟨r, h⟩
        obtain ⟨v, p, h, -⟩ := (C33_vc C₂.jcs _ bs purpose r).mp h
        rw [h₂] at h; cases h
    · intro d₁ d₂ h
      obtain ⟨v, p, h, -⟩ := (C33_vc C₁.jcs _ bs purpose _).mp ⟨h, rfl⟩
      rw [h₁] at h; cases h
  · cases (same_vc C₁ C₂ v w).mp hs
    constructor
    · constructor
      · rintro ⟨r, h⟩
        obtain ⟨v', p, g1, g2, g3, g4, g5, g6, g7, -⟩ := (C33_vc C₁.jcs _ bs purpose r).mp h
        rw [h₁] at g1; cases g1
        obtain ⟨k3, k4, k5, k6, k7⟩ := (key v p h₁ g2).mp ⟨g3, g4, g5, g6, g7⟩
        exact ⟨_, (C33_vc C₂.jcs _ bs purpose _).mpr ⟨_, p, h₂, g2, k3, k4, k5, k6, k7, rfl⟩⟩
      · rintro ⟨r, h⟩
        obtain ⟨v', p, g1, g2, g3, g4, g5, g6, g7, -⟩ := (C33_vc C₂.jcs _ bs purpose r).mp h
        rw [h₂] at g1; cases g1
        obtain ⟨k3, k4, k5, k6, k7⟩ := (key v p h₁ g2).mpr ⟨g3, g4, g5, g6, g7⟩
        exact ⟨_, (C33_vc C₁.jcs _ bs purpose _).mpr ⟨_, p, h₁, g2, k3, k4, k5, k6, k7, rfl⟩⟩
    · intro d₁ d₂ g₁ g₂
      obtain ⟨v', p, g1, -, -, -, -, -, -, e⟩ := (C33_vc C₁.jcs _ bs purpose _).mp ⟨g₁, rfl⟩
      obtain ⟨w', p', g1', -, -, -, -, -, -, e'⟩ := (C33_vc C₂.jcs _ bs purpose _).mp ⟨g₂, rfl⟩
      rw [h₁] at g1; cases g1
      rw [h₂] at g1'; cases g1'
      cases e
      cases e'
      exact (same_vc C₁ C₂ _ _).mpr rfl

/-- C92: two builds judge every text alike: what one accepts under a public key the other accepts, and both hand back the
same credential. -/
theorem C92_verify_vc (C₁ : Conforms E₁ seed₁ bits₁ parts₁) (C₂ : Conforms E₂ seed₂ bits₂ parts₂) {k₁ : E₁.EdKP} {k₂ : E₂.EdKP}
    (hk : seed₁ k₁ = seed₂ k₂) (bs : Bytes) (hj : ∀ v, VC.parseJsonBytes E₁ bs = .ok v → Judged E₁ E₂ v.proof) (purpose : ProofPurpose) :
    ((∃ r, verify E₁ (VC E₁) (E₁.edPub k₁) bs purpose = .ok r ∧ r.verified = true) ↔
      ∃ r, verify E₂ (VC E₂) (E₂.edPub k₂) bs purpose = .ok r ∧ r.verified = true) ∧
    ∀ d₁ d₂, verify E₁ (VC E₁) (E₁.edPub k₁) bs purpose = .ok ⟨true, some d₁⟩ →
      verify E₂ (VC E₂) (E₂.edPub k₂) bs purpose = .ok ⟨true, some d₂⟩ → SameCredential d₁ d₂ :=
  judge_vc C₁ C₂ (fun _ ht m => same_accepts C₁ C₂ hk ht m) bs hj purpose

/-- C92: two builds that verify as RFC 8032 says, for every key, judge every text alike under every received key that is a point. -/
theorem C92_received_vc (C₁ : Conforms E₁ seed₁ bits₁ parts₁) (C₂ : Conforms E₂ seed₂ bits₂ parts₂) (V₁ : Rfc8032Verify E₁)
    (V₂ : Rfc8032Verify E₂) {p₁ : E₁.EdPub} {p₂ : E₂.EdPub} (hp : E₁.edPubBytes p₁ = E₂.edPubBytes p₂)
    (hd : Ed25519.pointDecompress (E₁.edPubBytes p₁) ≠ none) (bs : Bytes)
    (hj : ∀ v, VC.parseJsonBytes E₁ bs = .ok v → Judged E₁ E₂ v.proof) (purpose : ProofPurpose) :
    ((∃ r, verify E₁ (VC E₁) p₁ bs purpose = .ok r ∧ r.verified = true) ↔
      ∃ r, verify E₂ (VC E₂) p₂ bs purpose = .ok r ∧ r.verified = true) ∧
    ∀ d₁ d₂, verify E₁ (VC E₁) p₁ bs purpose = .ok ⟨true, some d₁⟩ →
      verify E₂ (VC E₂) p₂ bs purpose = .ok ⟨true, some d₂⟩ → SameCredential d₁ d₂ :=
  judge_vc C₁ C₂ (fun _ ht m => received_accepts C₁ C₂ V₁ V₂ hp hd ht m) bs hj purpose

theorem judge_vp (C₁ : Conforms E₁ seed₁ bits₁ parts₁) (C₂ : Conforms E₂ seed₂ bits₂ parts₂) {p₁ : E₁.EdPub} {p₂ : E₂.EdPub}
    (hacc : ∀ t, SameSpelling E₁ E₂ t → ∀ m, Accepts E₁ p₁ m t ↔ Accepts E₂ p₂ m t) (bs : Bytes)
    (hj : ∀ v, VP.parseJsonBytes E₁ bs = .ok v → Judged E₁ E₂ v.proof) (purpose : ProofPurpose) :
    ((∃ r, verify E₁ (VP E₁) p₁ bs purpose = .ok r ∧ r.verified = true) ↔
      ∃ r, verify E₂ (VP E₂) p₂ bs purpose = .ok r ∧ r.verified = true) ∧
    ∀ d₁ d₂, verify E₁ (VP E₁) p₁ bs purpose = .ok ⟨true, some d₁⟩ →
      verify E₂ (VP E₂) p₂ bs purpose = .ok ⟨true, some d₂⟩ → SamePresentation d₁ d₂ := by
  have key : ∀ v p, VP.parseJsonBytes E₁ bs = .ok v → v.proof = some p →
      (GoodOptions E₁ p ∧ p.proofPurpose = purpose ∧ purpose ≠ .unknown ∧ VPComplete v ∧
        Accepts E₁ p₁ (message E₁ (optionBytes E₁ (unvalued p)) (vpBytes (unsignedVP v))) p.proofValue ↔
      GoodOptions E₂ p ∧ p.proofPurpose = purpose ∧ purpose ≠ .unknown ∧
        VPComplete (v.over (move bits₁ C₂.standard.numbers.bijective)) ∧
        Accepts E₂ p₂ (message E₂ (optionBytes E₂ (unvalued p))
          (vpBytes (unsignedVP (v.over (move bits₁ C₂.standard.numbers.bijective))))) p.proofValue) := by
    intro v p hv hp
    obtain ⟨hd, hs⟩ := hj v hv p hp
    rw [same_options C₁ C₂ p hd, vpComplete_over]
    refine and_congr Iff.rfl (and_congr Iff.rfl (and_congr Iff.rfl (and_congr_right fun hc => ?_)))
    have hb := (same_vpBytes C₁ C₂ (unsignedVP v) hc).2
    rw [show unsignedVP (v.over (move bits₁ C₂.standard.numbers.bijective)) =
      (unsignedVP v).over (move bits₁ C₂.standard.numbers.bijective) from rfl, hb, same_optionBytes C₁ C₂, same_message C₁ C₂]
    exact hacc _ hs _
  rcases C92_read_vp C₁ C₂ bs with ⟨e₁, e₂, h₁, h₂⟩ | ⟨v, w, h₁, h₂, hs⟩
  · constructor
    · constructor
      · rintro ⟨r, h⟩
        obtain ⟨v, p, h, -⟩ := (C33_vp C₁.jcs _ bs purpose r).mp h
        rw [h₁] at h; cases h
      · rintro ⟨r, h⟩
        obtain ⟨v, p, h, -⟩ := (C33_vp C₂.jcs _ bs purpose r).mp h
        rw [h₂] at h; cases h
    · intro d₁ d₂ h
      obtain ⟨v, p, h, -⟩ := (C33_vp C₁.jcs _ bs purpose _).mp ⟨h, rfl⟩
      rw [h₁] at h; cases h
  · cases (same_vp C₁ C₂ v w).mp hs
    constructor
    · constructor
      · rintro ⟨r, h⟩
        obtain ⟨v', p, g1, g2, g3, g4, g5, g6, g7, -⟩ := (C33_vp C₁.jcs _ bs purpose r).mp h
        rw [h₁] at g1; cases g1
        obtain ⟨k3, k4, k5, k6, k7⟩ := (key v p h₁ g2).mp ⟨g3, g4, g5, g6, g7⟩
        exact ⟨_, (C33_vp C₂.jcs _ bs purpose _).mpr ⟨_, p, h₂, g2, k3, k4, k5, k6, k7, rfl⟩⟩
      · rintro ⟨r, h⟩
        obtain ⟨v', p, g1, g2, g3, g4, g5, g6, g7, -⟩ := (C33_vp C₂.jcs _ bs purpose r).mp h
        rw [h₂] at g1; cases g1
        obtain ⟨k3, k4, k5, k6, k7⟩ := (key v p h₁ g2).mpr ⟨g3, g4, g5, g6, g7⟩
        exact ⟨_, (C33_vp C₁.jcs _ bs purpose _).mpr ⟨_, p, h₁, g2, k3, k4, k5, k6, k7, rfl⟩⟩
    · intro d₁ d₂ g₁ g₂
      obtain ⟨v', p, g1, -, -, -, -, -, -, e⟩ := (C33_vp C₁.jcs _ bs purpose _).mp ⟨g₁, rfl⟩
      obtain ⟨w', p', g1', -, -, -, -, -, -, e'⟩ := (C33_vp C₂.jcs _ bs purpose _).mp ⟨g₂, rfl⟩
      rw [h₁] at g1; cases g1
      rw [h₂] at g1'; cases g1'
      cases e
      cases e'
      exact (same_vp C₁ C₂ _ _).mpr rfl

/-- C92: the same for presentations. -/
theorem C92_verify_vp (C₁ : Conforms E₁ seed₁ bits₁ parts₁) (C₂ : Conforms E₂ seed₂ bits₂ parts₂) {k₁ : E₁.EdKP} {k₂ : E₂.EdKP}
    (hk : seed₁ k₁ = seed₂ k₂) (bs : Bytes) (hj : ∀ v, VP.parseJsonBytes E₁ bs = .ok v → Judged E₁ E₂ v.proof) (purpose : ProofPurpose) :
    ((∃ r, verify E₁ (VP E₁) (E₁.edPub k₁) bs purpose = .ok r ∧ r.verified = true) ↔
      ∃ r, verify E₂ (VP E₂) (E₂.edPub k₂) bs purpose = .ok r ∧ r.verified = true) ∧
    ∀ d₁ d₂, verify E₁ (VP E₁) (E₁.edPub k₁) bs purpose = .ok ⟨true, some d₁⟩ →
      verify E₂ (VP E₂) (E₂.edPub k₂) bs purpose = .ok ⟨true, some d₂⟩ → SamePresentation d₁ d₂ :=
  judge_vp C₁ C₂ (fun _ ht m => same_accepts C₁ C₂ hk ht m) bs hj purpose

/-- C92: the same for presentations. -/
theorem C92_received_vp (C₁ : Conforms E₁ seed₁ bits₁ parts₁) (C₂ : Conforms E₂ seed₂ bits₂ parts₂) (V₁ : Rfc8032Verify E₁)
    (V₂ : Rfc8032Verify E₂) {p₁ : E₁.EdPub} {p₂ : E₂.EdPub} (hp : E₁.edPubBytes p₁ = E₂.edPubBytes p₂)
    (hd : Ed25519.pointDecompress (E₁.edPubBytes p₁) ≠ none) (bs : Bytes)
    (hj : ∀ v, VP.parseJsonBytes E₁ bs = .ok v → Judged E₁ E₂ v.proof) (purpose : ProofPurpose) :
    ((∃ r, verify E₁ (VP E₁) p₁ bs purpose = .ok r ∧ r.verified = true) ↔
      ∃ r, verify E₂ (VP E₂) p₂ bs purpose = .ok r ∧ r.verified = true) ∧
    ∀ d₁ d₂, verify E₁ (VP E₁) p₁ bs purpose = .ok ⟨true, some d₁⟩ →
      verify E₂ (VP E₂) p₂ bs purpose = .ok ⟨true, some d₂⟩ → SamePresentation d₁ d₂ :=
  judge_vp C₁ C₂ (fun _ ht m => received_accepts C₁ C₂ V₁ V₂ hp hd ht m) bs hj purpose

/-! ### DIDs, documents, links, addresses -/

/-- C92: the DID of a secret is the same in both builds, and so is every URI. -/
theorem C92_did (C₁ : Conforms E₁ seed₁ bits₁ parts₁) (C₂ : Conforms E₂ seed₂ bits₂ parts₂) (d₁ : DID E₁) (d₂ : DID E₂)
    (h : seed₁ d₁.account.pair = seed₂ d₂.account.pair) :
    (∃ i₁ i₂, d₁.identity = .ok i₁ ∧ d₂.identity = .ok i₂ ∧ i₁.value = i₂.value) ∧
      ∀ params, d₁.buildUri params = d₂.buildUri params := by
  obtain ⟨i₁, x₁, p₁, h1, h2, -, h4, h5⟩ := C78_did C₁.standard.actual d₁
  obtain ⟨i₂, x₂, p₂, g1, g2, -, g4, g5⟩ := C78_did C₂.standard.actual d₂
  have e : E₁.edPubBytes d₁.account.pubkey = E₂.edPubBytes d₂.account.pubkey :=
    (C₁.standard.signatures.pub _).trans (by rw [h]; exact (C₂.standard.signatures.pub _).symm)
  rw [e] at h2
  have hx : x₁ = x₂ := (isHex_iff.mp h2).trans (isHex_iff.mp g2).symm
  subst hx
  have hv : i₁.value = i₂.value := by rw [h5, g5, h4.unique, g4.unique]
  refine ⟨⟨i₁, i₂, h1, g1, hv⟩, fun params => ?_⟩
  unfold DID.buildUri
  rw [h1, g1]
  simp only
  rw [hv]

theorem primary_over {N N' : Type} (q : N → N') (p : Primary) : (p.toTree : Json N).mapNum q = p.toTree := by
  simp only [Primary.toTree, Json.mapNum, Json.mapNumMembers_eq]
  rfl

theorem doc_over {N N' : Type} (q : N → N') (d : Doc) : (d.toTree : Json N).mapNum q = d.toTree := by
  have hm : ∀ (k : Str) (o : Option (List Primary)),
      (optMember k (fun l => Json.arr (l.map Primary.toTree)) o).map (fun x => (x.1, x.2.mapNum q)) =
        optMember k (fun l => Json.arr (l.map Primary.toTree)) o := by
    intro k o
    cases o with
    | none => rfl
    | some l =>
      simp only [optMember, List.map_cons, List.map_nil, Json.mapNum, Json.mapNumList_eq, List.map_map]
      rw [show Json.mapNum q ∘ Primary.toTree = Primary.toTree from funext fun p => primary_over q p]
  simp only [Doc.toTree, Json.mapNum, Json.mapNumMembers_eq, List.map_append, hm, List.map_cons, List.map_nil, strArr_over]

theorem same_first (C₁ : Conforms E₁ seed₁ bits₁ parts₁) (C₂ : Conforms E₂ seed₂ bits₂ parts₂) {v a b : Str}
    {s₁ : Option (MethodSeed E₁)} {s₂ : Option (MethodSeed E₂)} (h : Option.Rel (SameSecrets seed₁ seed₂) s₁ s₂)
    {l₁ l₂ : Option (List Primary)} (h₁ : EntriesIs E₁ v a b s₁ l₁) (h₂ : EntriesIs E₂ v a b s₂ l₂) : l₁ = l₂ := by
  cases h with
  | none => rw [show l₁ = none from h₁, show l₂ = none from h₂]
  | some h =>
    obtain ⟨_, rfl, ⟨kv₁, ka₁, rfl, h3, h4⟩⟩ := h₁
    obtain ⟨_, rfl, ⟨kv₂, ka₂, rfl, g3, g4⟩⟩ := h₂
    rw [C₁.standard.signatures.pub, h.signing, ← C₂.standard.signatures.pub] at h3
    rw [C₁.standard.agreement.pub, h.agreement, ← C₂.standard.agreement.pub] at h4
    rw [h3.unique, h4.unique, g3.unique, g4.unique]

theorem same_calls {ops₁ : List (IdOp E₁)} {ops₂ : List (IdOp E₂)} (h : List.Forall₂ (SameCall seed₁ seed₂) ops₁ ops₂) :
    Option.Rel (SameSecrets seed₁ seed₂) (firstAuth ops₁) (firstAuth ops₂) ∧
    Option.Rel (SameSecrets seed₁ seed₂) (firstAssertion ops₁) (firstAssertion ops₂) := by
  induction h with
  | nil => exact ⟨.none, .none⟩
  | cons hx _ ih =>
    cases hx with
    | auth h => exact ⟨.some h, ih.2⟩
    | assertion h => exact ⟨ih.1, .some h⟩

/-- C92: identities with the same DID, built by the same calls with the same secrets, have the same document, and every
document has the same JSON text. -/
theorem C92_document (C₁ : Conforms E₁ seed₁ bits₁ parts₁) (C₂ : Conforms E₂ seed₂ bits₂ parts₂) (v : Str) {ops₁ : List (IdOp E₁)}
    {ops₂ : List (IdOp E₂)} (h : List.Forall₂ (SameCall seed₁ seed₂) ops₁ ops₂) :
    (idRun v ops₁).toDoc = (idRun v ops₂).toDoc ∧ ∀ doc : Doc, doc.toJson E₁ = doc.toJson E₂ := by
  obtain ⟨r1, r2⟩ := same_calls h
  obtain ⟨a1, a2, a3, a4, a5, a6, -⟩ := C12_document v ops₁
  obtain ⟨b1, b2, b3, b4, b5, b6, -⟩ := C12_document v ops₂
  constructor
  · have e1 := same_first C₁ C₂ r1 a5 b5
    have e2 := same_first C₁ C₂ r2 a6 b6
    have e3 := a1.trans b1.symm
    have e4 := a2.trans b2.symm
    have e5 := a3.trans b3.symm
    have e6 := a4.trans b4.symm
    generalize (idRun v ops₁).toDoc = x at *
    generalize (idRun v ops₂).toDoc = y at *
    obtain ⟨_, _, _, _, _, _⟩ := x
    obtain ⟨_, _, _, _, _, _⟩ := y
    simp only at e1 e2 e3 e4 e5 e6
    subst e1 e2 e3 e4 e5 e6
    rfl
  · intro doc
    unfold Doc.toJson
    rw [← jsonText_over (C₁.moves C₂), doc_over]

/-- C92: a JSON text has the same hashlink in both builds, and both accept the same hashlinks for it. -/
theorem C92_hashlink (C₁ : Conforms E₁ seed₁ bits₁ parts₁) (C₂ : Conforms E₂ seed₂ bits₂ parts₂) (v : JSONValue) :
    generateFromJson E₁ (.ok v) = generateFromJson E₂ (.ok v) ∧
      ∀ t, verifyFromJson E₁ (.ok v) t = .ok () ↔ verifyFromJson E₂ (.ok v) t = .ok () := by
  obtain ⟨t, h1, h2, h3⟩ := C78_hashlink C₁.standard.actual v
  obtain ⟨t', g1, g2, g3⟩ := C78_hashlink C₂.standard.actual v
  have e : t = t' := by rw [h1.unique, g1.unique]
  subst e
  exact ⟨by rw [h2, g2], fun x => by rw [h3, g3]⟩

/-- C92: addresses are read alike, as far as they are written out. -/
theorem C92_address (C₁ : Conforms E₁ seed₁ bits₁ parts₁) (C₂ : Conforms E₂ seed₂ bits₂ parts₂) (t : Str) (ht : t ≠ [])
    (hc : (∃ ps, IsAddress ps t) ∨ Covered t) (hl : Option Str) :
    BothOrNeither (fun m₁ m₂ => m₁.map parts₁ = m₂.map parts₂) (Params.parseMultiaddr E₁ ⟨some t, hl⟩)
      (Params.parseMultiaddr E₂ ⟨some t, hl⟩) := by
  obtain ⟨h1, h2⟩ := C84_addresses C₁.addresses t ht hl
  obtain ⟨g1, g2⟩ := C84_addresses C₂.addresses t ht hl
  by_cases hp : ∃ ps, IsAddress ps t
  · obtain ⟨ps, hp⟩ := hp
    obtain ⟨m₁, a1, a2⟩ := h1 ps hp
    obtain ⟨m₂, b1, b2⟩ := g1 ps hp
    exact .inr ⟨_, _, a1, b1, by simp [a2, b2]⟩
  · have hc := hc.resolve_left hp
    obtain ⟨e₁, a⟩ := h2 hc hp
    obtain ⟨e₂, b⟩ := g2 hc hp
    exact .inl ⟨_, _, a, b⟩

/-! ### Stored keys -/

/-- C92: a private key text is read as the same secret by both builds. -/
theorem C92_pem (C₁ : Conforms E₁ seed₁ bits₁ parts₁) (C₂ : Conforms E₂ seed₂ bits₂ parts₂) (t : Str) (s : Bytes) (h : IsKeyPem t s) :
    ∃ a₁ a₂, Account.fromPem E₁ t = .ok a₁ ∧ Account.fromPem E₂ t = .ok a₂ ∧ seed₁ a₁.pair = s ∧ seed₂ a₂.pair = s := by
  obtain ⟨a₁, h1, h2, -⟩ := C81_read C₁.standard.texts C₁.standard.signatures t s h
  obtain ⟨a₂, g1, g2, -⟩ := C81_read C₂.standard.texts C₂.standard.signatures t s h
  exact ⟨a₁, a₂, h1, g1, h2, g2⟩

/-- C92: stored keys open alike: same password, same bytes. -/
theorem C92_stored (C₁ : Conforms E₁ seed₁ bits₁ parts₁) (C₂ : Conforms E₂ seed₂ bits₂ parts₂) (p : PrivateKeyPairs) (pw : Str)
    (b : Bytes) : (p.decryptVerification E₁ pw = .ok b ↔ p.decryptVerification E₂ pw = .ok b) ∧
      (p.decryptAgreement E₁ pw = .ok b ↔ p.decryptAgreement E₂ pw = .ok b) := by
  obtain ⟨h1, h2⟩ := C90_opens C₁.passwords C₁.standard.actual p pw b
  obtain ⟨g1, g2⟩ := C90_opens C₂.passwords C₂.standard.actual p pw b
  exact ⟨h1.trans g1.symm, h2.trans g2.symm⟩

/-- C92: what one build exports the other restores, with the same secrets. -/
theorem C92_export (C₁ : Conforms E₁ seed₁ bits₁ parts₁) (C₂ : Conforms E₂ seed₂ bits₂ parts₂) (v : Str) (ops : List (IdOp E₁))
    (r : PrivateKeysRandom) (pw : Str) (out : IdentityPrivateKeyPairs) (h : (idRun v ops).buildPrivateKeys r pw = .ok out)
    (s : MethodSeed E₁) (p : PrivateKeyPairs)
    (hs : firstAuth ops = some s ∧ out.authentication = some p ∨ firstAssertion ops = some s ∧ out.assertion = some p) :
    (∃ a, DID.fromKeysecure E₂ pw p.verification = .ok ⟨a⟩ ∧ seed₂ a.pair = seed₁ (E₁.edGenerate s.ed)) ∧
      ∃ hex, IsHex (E₁.dhSecret (E₁.dhGenerate s.dh)) hex ∧ p.decryptAgreement E₂ pw = .ok (utf8 hex) := by
  have hd : SlotDecrypts E₁ pw (some s) (some p) := by
    obtain ⟨-, h2, h3⟩ := C14_private_keys (C92_laws C₁).2.2.2.2.1 v ops r pw out h
    rcases hs with ⟨a, b⟩ | ⟨a, b⟩
    · rwa [a, b] at h2
    · rwa [a, b] at h3
  obtain ⟨p', pem, hex, e, h1, h2, h3, h4⟩ := hd
  cases e
  constructor
  · obtain ⟨t, g1, g2⟩ := C₁.standard.texts.write (E₁.edGenerate s.ed)
    rw [h1] at g1
    cases g1
    have ho := (C90_opens C₁.passwords C₁.standard.actual p pw _).1.mp h3
    obtain ⟨a, k1, k2, -⟩ := C81_read C₂.standard.texts C₂.standard.signatures pem _ g2
    have k3 := (C81_record C₂.standard.texts C₂.standard.actual a pw).1 p.verification pem
      ((encrypts_iff C₂.passwords pw _ _).mpr ho) (k2 ▸ g2)
    exact ⟨a, ((C04_did_keysecure pw _).1 a).mpr k3, k2⟩
  · exact ⟨hex, h2, (C92_stored C₁ C₂ p pw _).2.mp h4⟩

/-- C92: a published key text of a secret is read by every build as the public key of this secret. -/
theorem C92_key {E : Env} {seed : E.EdKP → Bytes} {bits : E.F → Double.F64} {parts : E.Multiaddr → List AddrPart}
    (C : Conforms E seed bits parts) (e : Primary) (s : Bytes) (hs : s.length = 32)
    (ht : e.verificationType = "Ed25519VerificationKey2020".toList) (hk : IsKeyText (Ed25519.publicKey s) e.multibase) :
    ∃ k, seed k = s ∧ e.decodePubKey E = .ok (.edDSA (E.edPub k)) := by
  obtain ⟨k, -, rfl⟩ := C.standard.texts.read _ s ((Pkcs8.keyPem_iff _ _).mpr ⟨hs, .inr rfl⟩)
  refine ⟨k, rfl, (C15_eddsa e _).mpr ⟨ht, _, isKeyText_holds hk, ?_⟩⟩
  rw [← C.standard.signatures.pub]
  exact (C92_laws C).2.1.pub_bytes _

/-- C92: so is an entry with the bytes of any point. -/
theorem C92_entry {E : Env} {seed : E.EdKP → Bytes} {bits : E.F → Double.F64} {parts : E.Multiaddr → List AddrPart}
    (C : Conforms E seed bits parts) (e : Primary) (b : Bytes) (hb : Ed25519.pointDecompress b ≠ none)
    (ht : e.verificationType = "Ed25519VerificationKey2020".toList) (hk : IsKeyText b e.multibase) :
    ∃ pub, e.decodePubKey E = .ok (.edDSA pub) ∧ E.edPubBytes pub = b := by
  cases hp : E.edPubOfBytes b with
  | none => exact absurd hp (C.standard.signatures.reads _ hb)
  | some pub => exact ⟨pub, (C15_eddsa e _).mpr ⟨ht, _, isKeyText_holds hk, hp⟩, C.standard.signatures.bytes _ _ hp⟩

end

/-! ### Three builds -/

/-- One build stored the keys and published the entries; a second restores the account and signs; a third reads the published
key and accepts, and has the same document. -/
def Carries (E₂ E₃ : Env) (pw did : Str) (entries : Option (List Primary)) (stored : Option PrivateKeyPairs) : Prop :=
  ∃ e1 e2 pairs account pub, entries = some [e1, e2] ∧ stored = some pairs ∧ e1.controller = did ∧
    DID.fromKeysecure E₂ pw pairs.verification = .ok ⟨account⟩ ∧ e1.decodePubKey E₃ = .ok (.edDSA pub) ∧
    (∀ (v : VC E₂) opts, VCComplete v → v.proof = none → GoodOptions E₂ opts → PlainDate opts → opts.proofPurpose ≠ .unknown →
      opts.proofValue = [] → Survives E₂ v.credentialSubject.1 → v.credentialSubject.1.depth ≤ 126 →
      ∃ signed t w, sign E₂ (VC E₂) account.pair v opts = .ok signed ∧ signed.toJson = .ok t ∧
        verify E₃ (VC E₃) pub (utf8 t.text) opts.proofPurpose = .ok ⟨true, some w⟩ ∧ SameCredential v w) ∧
    ∀ (v : VP E₂) opts, VPComplete v → v.proof = none → GoodOptions E₂ opts → PlainDate opts → opts.proofPurpose ≠ .unknown →
      opts.proofValue = [] →
      (∀ c ∈ v.verifiableCredential, Survives E₂ c.credentialSubject.1 ∧ c.credentialSubject.1.depth ≤ 124) →
      ∃ signed t w, sign E₂ (VP E₂) account.pair v opts = .ok signed ∧ signed.toJson = .ok t ∧
        verify E₃ (VP E₃) pub (utf8 t.text) opts.proofPurpose = .ok ⟨true, some w⟩ ∧ SamePresentation v w

section
variable {E₁ E₂ E₃ : Env} {seed₁ : E₁.EdKP → Bytes} {seed₂ : E₂.EdKP → Bytes} {seed₃ : E₃.EdKP → Bytes}
  {bits₁ : E₁.F → Double.F64} {bits₂ : E₂.F → Double.F64} {bits₃ : E₃.F → Double.F64}
  {parts₁ : E₁.Multiaddr → List AddrPart} {parts₂ : E₂.Multiaddr → List AddrPart} {parts₃ : E₃.Multiaddr → List AddrPart}

theorem multibase58_head {b : Bytes} {t : Str} (h : IsMultibase58 b t) : t.head? = some 'z' := by
  rw [h.unique]
  rfl

theorem carry_vc (C₂ : Conforms E₂ seed₂ bits₂ parts₂) (C₃ : Conforms E₃ seed₃ bits₃ parts₃) {k₂ : E₂.EdKP} {k₃ : E₃.EdKP}
    (hk : seed₂ k₂ = seed₃ k₃) (v : VC E₂) (opts : Proof) (hv : VCComplete v) (hproof : v.proof = none) (ho : GoodOptions E₂ opts)
    (hd : PlainDate opts) (hp : opts.proofPurpose ≠ .unknown) (hval : opts.proofValue = []) (hn : Survives E₂ v.credentialSubject.1)
    (hdep : v.credentialSubject.1.depth ≤ 126) :
    ∃ signed t w, sign E₂ (VC E₂) k₂ v opts = .ok signed ∧ signed.toJson = .ok t ∧
      verify E₃ (VC E₃) (E₃.edPub k₃) (utf8 t.text) opts.proofPurpose = .ok ⟨true, some w⟩ ∧ SameCredential v w := by
  obtain ⟨-, l2, -, -, -, l6, l7⟩ := C92_laws C₂
  obtain ⟨signed, h1, h2, h3⟩ := C31_vc l7 l6 l2 k₂ v opts hv hproof ho hp hval
  obtain ⟨t, h4, h5⟩ := h3 hn hdep
  obtain ⟨-, -, -, text, g4, rfl⟩ := ((C32_vc l7 k₂ v opts).1 signed).mp h1
  have hread : VC.parseJsonBytes E₂ (utf8 t.text) = .ok ⟨v.contexts, v.types, v.credentialSubject,
      some ⟨opts.id, opts.typ, opts.proofPurpose, text, opts.verificationMethod, opts.created, opts.expires, opts.cryptosuite⟩,
      v.id, v.issuer⟩ := by
    obtain ⟨tx, k1, k2⟩ := C26_json_roundtrip l6 (v := ⟨v.contexts, v.types, v.credentialSubject,
      some ⟨opts.id, opts.typ, opts.proofPurpose, text, opts.verificationMethod, opts.created, opts.expires, opts.cryptosuite⟩,
      v.id, v.issuer⟩) hv hn hdep
    rw [h4] at k1
    cases k1
    rw [utf8_eq]
    exact k2
  obtain ⟨j1, j2⟩ := C92_verify_vc C₂ C₃ hk (utf8 t.text) (fun v' h' => by
    rw [hread] at h'
    cases h'
    intro q hq
    cases hq
    exact ⟨hd, .inr (multibase58_head g4)⟩) opts.proofPurpose
  obtain ⟨r, k1, k2⟩ := j1.mp ⟨_, h5, rfl⟩
  obtain ⟨w, p, -, -, -, -, -, -, -, rfl⟩ := (C33_vc C₃.jcs _ _ _ r).mp ⟨k1, k2⟩
  exact ⟨_, t, _, h1, h4, k1, j2 _ _ h5 k1⟩

theorem carry_vp (C₂ : Conforms E₂ seed₂ bits₂ parts₂) (C₃ : Conforms E₃ seed₃ bits₃ parts₃) {k₂ : E₂.EdKP} {k₃ : E₃.EdKP}
    (hk : seed₂ k₂ = seed₃ k₃) (v : VP E₂) (opts : Proof) (hv : VPComplete v) (hproof : v.proof = none) (ho : GoodOptions E₂ opts)
    (hd : PlainDate opts) (hp : opts.proofPurpose ≠ .unknown) (hval : opts.proofValue = [])
    (hn : ∀ c ∈ v.verifiableCredential, Survives E₂ c.credentialSubject.1 ∧ c.credentialSubject.1.depth ≤ 124) :
    ∃ signed t w, sign E₂ (VP E₂) k₂ v opts = .ok signed ∧ signed.toJson = .ok t ∧
      verify E₃ (VP E₃) (E₃.edPub k₃) (utf8 t.text) opts.proofPurpose = .ok ⟨true, some w⟩ ∧ SamePresentation v w := by
  obtain ⟨-, l2, -, -, -, l6, l7⟩ := C92_laws C₂
  obtain ⟨signed, h1, h2, h3⟩ := C31_vp l7 l6 l2 k₂ v opts hv hproof ho hp hval
  obtain ⟨t, h4, h5⟩ := h3 hn
  obtain ⟨-, -, -, text, g4, rfl⟩ := ((C32_vp l7 k₂ v opts).1 signed).mp h1
  have hread : VP.parseJsonBytes E₂ (utf8 t.text) = .ok ⟨v.contexts, v.types, v.verifiableCredential,
      some ⟨opts.id, opts.typ, opts.proofPurpose, text, opts.verificationMethod, opts.created, opts.expires, opts.cryptosuite⟩,
      v.holder⟩ := by
    obtain ⟨tx, k1, k2⟩ := C27_json_roundtrip l6 (v := ⟨v.contexts, v.types, v.verifiableCredential,
      some ⟨opts.id, opts.typ, opts.proofPurpose, text, opts.verificationMethod, opts.created, opts.expires, opts.cryptosuite⟩,
      v.holder⟩) hv (fun c hc => (hn c hc).1) fun c hc => (hn c hc).2
    rw [h4] at k1
    cases k1
    rw [utf8_eq]
    exact k2
  obtain ⟨j1, j2⟩ := C92_verify_vp C₂ C₃ hk (utf8 t.text) (fun v' h' => by
    rw [hread] at h'
    cases h'
    intro q hq
    cases hq
    exact ⟨hd, .inr (multibase58_head g4)⟩) opts.proofPurpose
  obtain ⟨r, k1, k2⟩ := j1.mp ⟨_, h5, rfl⟩
  obtain ⟨w, p, -, -, -, -, -, -, -, rfl⟩ := (C33_vp C₃.jcs _ _ _ r).mp ⟨k1, k2⟩
  exact ⟨_, t, _, h1, h4, k1, j2 _ _ h5 k1⟩

/-- C92: an identity made, published and exported by one build, used to sign by a second, verified by a third. -/
theorem C92_three (C₁ : Conforms E₁ seed₁ bits₁ parts₁) (C₂ : Conforms E₂ seed₂ bits₂ parts₂) (C₃ : Conforms E₃ seed₃ bits₃ parts₃)
    (v : Str) (ops : List (IdOp E₁)) (r : PrivateKeysRandom) (pw : Str) (out : IdentityPrivateKeyPairs)
    (hout : (idRun v ops).buildPrivateKeys r pw = .ok out) :
    ∃ docText doc, (idRun v ops).toDoc.toJson E₁ = .ok docText ∧ fromSlice Doc.dec docText.toBytes = some doc ∧ doc.id = v ∧
      (firstAuth ops ≠ none → Carries E₂ E₃ pw v doc.authentication out.authentication) ∧
      (firstAssertion ops ≠ none → Carries E₂ E₃ pw v doc.assertion out.assertion) := by
  obtain ⟨docText, h1, h2⟩ := C18_json_roundtrip C₁.num (idRun v ops).toDoc
  obtain ⟨a1, -, -, -, a5, a6, -⟩ := C12_document v ops
  obtain ⟨-, b2, b3⟩ := C14_private_keys (C92_laws C₁).2.2.2.2.1 v ops r pw out hout
  refine ⟨docText, _, h1, h2, a1, ?_, ?_⟩
  · intro hs
    obtain ⟨s, hs⟩ := Option.ne_none_iff_exists'.mp hs
    rw [hs] at a5 b2
    obtain ⟨l, e1, ⟨kv, ka, rfl, k1, -⟩⟩ := a5
    obtain ⟨p, -, -, e2, -⟩ := b2
    obtain ⟨⟨a, g1, g2⟩, -⟩ := C92_export C₁ C₂ v ops r pw out hout s p (.inl ⟨hs, e2⟩)
    rw [C₁.standard.signatures.pub] at k1
    obtain ⟨k, j1, j2⟩ := C92_key C₃ ⟨_, _, "Ed25519VerificationKey2020".toList, kv⟩ _ (C₁.standard.texts.length _) rfl k1
    exact ⟨_, _, p, a, _, e1, e2, rfl, g1, j2, carry_vc C₂ C₃ (g2.trans j1.symm), carry_vp C₂ C₃ (g2.trans j1.symm)⟩
  · intro hs
    obtain ⟨s, hs⟩ := Option.ne_none_iff_exists'.mp hs
    rw [hs] at a6 b3
    obtain ⟨l, e1, ⟨kv, ka, rfl, k1, -⟩⟩ := a6
    obtain ⟨p, -, -, e2, -⟩ := b3
    obtain ⟨⟨a, g1, g2⟩, -⟩ := C92_export C₁ C₂ v ops r pw out hout s p (.inr ⟨hs, e2⟩)
    rw [C₁.standard.signatures.pub] at k1
    obtain ⟨k, j1, j2⟩ := C92_key C₃ ⟨_, _, "Ed25519VerificationKey2020".toList, kv⟩ _ (C₁.standard.texts.length _) rfl k1
    exact ⟨_, _, p, a, _, e1, e2, rfl, g1, j2, carry_vc C₂ C₃ (g2.trans j1.symm), carry_vp C₂ C₃ (g2.trans j1.symm)⟩

end

/-! ### Two builds -/

section
variable {E : Env} {seed : E.EdKP → Bytes} {bits : E.F → Double.F64} {parts : E.Multiaddr → List AddrPart}

theorem rebased_standard (S : Standard E seed bits) (fold : MBase → Bool) : Standard (rebased E fold) seed bits where
  actual := ⟨S.actual.sha256, S.actual.sha384, S.actual.blake3, S.actual.enc, S.actual.dec⟩
  signatures := ⟨S.signatures.pub, S.signatures.sign, S.signatures.verify, S.signatures.reads, S.signatures.bytes, S.signatures.ext,
    S.signatures.origin⟩
  numbers := ⟨S.numbers.bijective, S.numbers.print, S.numbers.parse,
    fun n => (S.numbers.jcs n).trans (by cases n <;> rfl)⟩
  order := S.order
  texts := ⟨S.texts.length, S.texts.ext, S.texts.write, S.texts.read⟩
  agreement := ⟨S.agreement.length, S.agreement.pub, S.agreement.reads, S.agreement.bytes, S.agreement.ext, S.agreement.origin⟩

theorem dated_standard (S : Standard E seed bits) : Standard (dated E) seed bits where
  actual := ⟨S.actual.sha256, S.actual.sha384, S.actual.blake3, S.actual.enc, S.actual.dec⟩
  signatures := ⟨S.signatures.pub, S.signatures.sign, S.signatures.verify, S.signatures.reads, S.signatures.bytes, S.signatures.ext,
    S.signatures.origin⟩
  numbers := ⟨S.numbers.bijective, S.numbers.print, S.numbers.parse,
    fun n => (S.numbers.jcs n).trans (by cases n <;> rfl)⟩
  order := S.order
  texts := ⟨S.texts.length, S.texts.ext, S.texts.write, S.texts.read⟩
  agreement := ⟨S.agreement.length, S.agreement.pub, S.agreement.reads, S.agreement.bytes, S.agreement.ext, S.agreement.origin⟩

theorem addressed_standard (S : Standard E seed bits) : Standard (addressed E) seed bits where
  actual := ⟨S.actual.sha256, S.actual.sha384, S.actual.blake3, S.actual.enc, S.actual.dec⟩
  signatures := ⟨S.signatures.pub, S.signatures.sign, S.signatures.verify, S.signatures.reads, S.signatures.bytes, S.signatures.ext,
    S.signatures.origin⟩
  numbers := ⟨S.numbers.bijective, S.numbers.print, S.numbers.parse,
    fun n => (S.numbers.jcs n).trans (by cases n <;> rfl)⟩
  order := S.order
  texts := ⟨S.texts.length, S.texts.ext, S.texts.write, S.texts.read⟩
  agreement := ⟨S.agreement.length, S.agreement.pub, S.agreement.reads, S.agreement.bytes, S.agreement.ext, S.agreement.origin⟩

theorem hashed_standard (S : Standard E seed bits) : Standard (hashed E) seed bits where
  actual := hashed_of S.actual
  signatures := hashed_signatures_of S.signatures
  numbers := ⟨S.numbers.bijective, S.numbers.print, S.numbers.parse,
    fun n => (S.numbers.jcs n).trans (by cases n <;> rfl)⟩
  order := S.order
  texts := hashed_texts_of S.texts
  agreement := ⟨S.agreement.length, S.agreement.pub, S.agreement.reads, S.agreement.bytes, S.agreement.ext, S.agreement.origin⟩

/-- Dependencies that do what the standards say, in all respects. -/
@[reducible] def whole (E : Env) (fold : MBase → Bool) : Env := hashed (addressed (dated (rebased E fold)))

theorem whole_conforms (S : Standard E seed bits) (fold : MBase → Bool) : Conforms (whole E fold) seed bits id where
  standard := hashed_standard (addressed_standard (dated_standard (rebased_standard S fold)))
  passwords := hashed_argon _
  dates := dated_chrono (rebased E fold)
  bases := rebased_crate E fold
  addresses := ⟨(addressed_crate (dated (rebased E fold))).reads, (addressed_crate (dated (rebased E fold))).refuses⟩

/-- A value in a box. -/
structure Boxed (α : Type) where
  val : α

/-- Other dependencies: numbers in boxes, private keys written without the public key, other error texts, other default costs,
letters of either case, a range of dates that ends later, and nothing accepted under the keys of small order. -/
@[reducible] def variant (E : Env) (seed : E.EdKP → Bytes) : Env :=
  { E with
    msg := fun _ => "failed".toList
    F := Boxed E.F
    floatPrint := fun f => E.floatPrint f.val
    floatParse := fun t => (E.floatParse t).map Boxed.mk
    jcsNum := fun n => E.jcsNum (n.map Boxed.val)
    EdPriv := E.EdKP
    edPriv := id
    edPem := fun k => .ok (Pkcs8.keyTextV1 (seed k))
    kdfDefault := ⟨65536, 4, 3, 32⟩
    edVerify := fun p m t => if hexEncode (E.edPubBytes p) ∈ smallKeys then .ok false else E.edVerify p m t
    mbFold := loosely
    mbOther := Bases.decode loosely
    parseDate := fun t => if t = "+262143-01-01T00:00:00Z".toList then .ok () else E.parseDate t }

theorem variant_conforms (C : Conforms E seed bits parts) : Conforms (variant E seed) seed (fun f => bits f.val) parts where
  standard :=
    { actual := ⟨C.1.actual.sha256, C.1.actual.sha384, C.1.actual.blake3, C.1.actual.enc, C.1.actual.dec⟩
      signatures := ⟨C.1.signatures.pub, C.1.signatures.sign, fun k m sig => by
          refine Iff.trans ?_ (C.1.signatures.verify k m sig)
          show (if _ then _ else _) = _ ↔ _
          rw [if_neg (C93_own C.1.signatures k)], C.1.signatures.reads, C.1.signatures.bytes,
        C.1.signatures.ext, C.1.signatures.origin⟩
      numbers :=
        { bijective := ⟨fun ⟨a⟩ ⟨b⟩ h => congrArg Boxed.mk (C.1.numbers.bijective.1 h), fun x =>
            let ⟨f, hf⟩ := C.1.numbers.bijective.2 x
            ⟨⟨f⟩, hf⟩⟩
          print := fun f => C.1.numbers.print f.val
          parse := fun t => by
            refine Eq.trans ?_ (C.1.numbers.parse t)
            show Option.map _ ((E.floatParse t).map Boxed.mk) = _
            cases E.floatParse t <;> rfl
          jcs := fun n => by
            refine (C.1.numbers.jcs (n.map Boxed.val)).trans ?_
            cases n <;> rfl }
      order := C.1.order
      texts := ⟨C.1.texts.length, C.1.texts.ext, fun k => ⟨_, rfl, (Pkcs8.keyPem_iff _ _).mpr ⟨C.1.texts.length k, .inl rfl⟩⟩,
        C.1.texts.read⟩
      agreement := ⟨C.1.agreement.length, C.1.agreement.pub, C.1.agreement.reads, C.1.agreement.bytes, C.1.agreement.ext,
        C.1.agreement.origin⟩ }
  passwords := C.passwords
  dates := by
    intro t ht
    refine Iff.trans ?_ (C.dates t ht)
    have hne : t ≠ "+262143-01-01T00:00:00Z".toList := fun h => by
      have := ht [] '+' "262143".toList "-01-01T00:00:00Z".toList 262143 h Chrono.blank_nil (by decide) (numeral_of (by decide)) (by
        intro c x e
        cases e
        decide)
      omega
    show (if _ then _ else _) = _ ↔ _
    rw [if_neg hne]
  bases := fun _ _ _ _ => rfl
  addresses := ⟨C.addresses.reads, C.addresses.refuses⟩

end

/-- The first of two builds. -/
@[reducible] def one : Env := whole standard strictly

/-- The second. -/
@[reducible] def two : Env := variant one standardSeed

theorem one_conforms : Conforms one standardSeed id id := whole_conforms standard_standard strictly

theorem two_conforms : Conforms two standardSeed (fun f => id f.val) id := variant_conforms one_conforms

/-- A credential with numbers, in the first build. -/
def oneVC : VC one :=
  ⟨["c".toList], ["t".toList], ⟨.arr [.num (.float small), .num (.pos 7)], by simp [Json.Sorted, Json.SortedList]⟩, none,
    "urn:1".toList, "did:prople:x".toList⟩

/-- The same credential in the second. -/
def twoVC : VC two :=
  ⟨["c".toList], ["t".toList], ⟨.arr [.num (.float ⟨small⟩), .num (.pos 7)], by simp [Json.Sorted, Json.SortedList]⟩, none,
    "urn:1".toList, "did:prople:x".toList⟩

theorem one_two : SameCredential oneVC twoVC := ⟨rfl, rfl, rfl, rfl, rfl, rfl⟩

theorem oneVC_complete : VCComplete oneVC := ⟨by simp [oneVC], by simp [oneVC], by simp [oneVC]⟩

theorem twoVC_complete : VCComplete twoVC := ⟨by simp [twoVC], by simp [twoVC], by simp [twoVC]⟩

theorem twoVC_survives : Survives two twoVC.credentialSubject.1 := by
  refine (C80_documents two_conforms.standard.numbers _ fun f hf => ?_).1
  simp only [twoVC, Json.nums, Json.numsList, List.mem_append, List.mem_singleton, List.not_mem_nil, or_false, reduceCtorEq] at hf
  cases hf
  exact small_everyday

theorem one_rfc : Rfc8032Verify one := fun p m sig _ => signing_verify p m sig

theorem oneVC_survives : Survives one oneVC.credentialSubject.1 := by
  refine (C80_documents one_conforms.standard.numbers _ fun f hf => ?_).1
  simp only [oneVC, Json.nums, Json.numsList, List.mem_append, List.mem_singleton, List.not_mem_nil, or_false, reduceCtorEq] at hf
  cases hf
  exact small_everyday

/-- Options with a plain date. -/
def plainOptions : Proof :=
  ⟨"urn:p".toList, "DataIntegrityProof".toList, .assertionMethod, [], "did:x#k".toList, some "2024-02-29T23:59:60Z".toList, none,
    some "eddsa-jcs-2022".toList⟩

/-- Options with a date in the year 262143. -/
def lateOptions : Proof := { plainOptions with created := some "+262143-01-01T00:00:00Z".toList }

theorem plain_date : PlainDate plainOptions := by
  intro c hc
  cases hc
  exact numeral_start (w := []) (numeral_of (k := 4) (n := 2024) (d := "2024".toList) (by decide)) Chrono.blank_nil

/-- C92: what the standards leave open is real: two conforming builds that write the private key of one secret differently, one
of which signs with a date in the year 262143 and the other not, one of which reads a multibase text the other does not, and one of which accepts a credential under a key of small
order that the other refuses. -/
theorem C92_open : ∃ (E₁ E₂ : Env) (seed₁ : E₁.EdKP → Bytes) (seed₂ : E₂.EdKP → Bytes) (bits₁ : E₁.F → Double.F64)
    (bits₂ : E₂.F → Double.F64) (parts₁ : E₁.Multiaddr → List AddrPart) (parts₂ : E₂.Multiaddr → List AddrPart),
    Conforms E₁ seed₁ bits₁ parts₁ ∧ Conforms E₂ seed₂ bits₂ parts₂ ∧
    (∃ (a₁ : Account E₁) (a₂ : Account E₂) (t₁ t₂ : Str), seed₁ a₁.pair = seed₂ a₂.pair ∧ a₁.buildPem = .ok t₁ ∧ a₂.buildPem = .ok t₂ ∧
      t₁.length = 168 ∧ t₂.length = 119) ∧
    (∃ (k₁ : E₁.EdKP) (k₂ : E₂.EdKP) (v₁ : VC E₁) (v₂ : VC E₂) (opts : Proof), seed₁ k₁ = seed₂ k₂ ∧ SameCredential v₁ v₂ ∧
      (∃ e, sign E₁ (VC E₁) k₁ v₁ opts = .error e) ∧ ∃ out, sign E₂ (VC E₂) k₂ v₂ opts = .ok out) ∧
    (∃ t, E₁.mbDecode t = none ∧ E₂.mbDecode t ≠ none) ∧
    ∃ (p₁ : E₁.EdPub) (p₂ : E₂.EdPub) (bs : Bytes) (r : VerificationResult (VC E₁)), E₁.edPubBytes p₁ = E₂.edPubBytes p₂ ∧
      verify E₁ (VC E₁) p₁ bs .assertionMethod = .ok r ∧ r.verified = true ∧
      ∀ r', verify E₂ (VC E₂) p₂ bs .assertionMethod = .ok r' → r'.verified = false := by
  refine ⟨one, two, standardSeed, standardSeed, id, fun f => id f.val, id, id, one_conforms, two_conforms, ?_, ?_, ?_, ?_⟩
  · exact ⟨⟨sampleKey⟩, ⟨sampleKey⟩, Pkcs8.keyText Pkcs8.sample, Pkcs8.keyTextV1 Pkcs8.sample, rfl, rfl, rfl,
      Pkcs8.keyText_length (by decide +kernel), Pkcs8.keyTextV1_length (by decide +kernel)⟩
  · refine ⟨sampleKey, sampleKey, oneVC, twoVC, lateOptions, rfl, one_two, ?_, ?_⟩
    · cases h : sign one (VC one) sampleKey oneVC lateOptions with
      | error e => exact ⟨e, rfl⟩
      | ok out =>
        obtain ⟨⟨-, -, c, hc, hd⟩, -⟩ := ((C32_vc one_conforms.jcs _ _ _).1 out).mp h
        cases hc
        exact absurd hd (by decide +kernel)
    · exact ⟨_, ((C32_vc two_conforms.jcs sampleKey twoVC lateOptions).1 _).mpr
        ⟨⟨rfl, rfl, _, rfl, by decide +kernel⟩, by decide, twoVC_complete, _, multibaseEncode58_spec _, rfl⟩⟩
  · exact ⟨"fAB".toList, by decide +kernel, by decide +kernel⟩
  · obtain ⟨pub, t, h1, -, h2, -⟩ := C79_neutral_key one_conforms.standard.signatures one_rfc one_conforms.jcs
    have hb := one_conforms.standard.signatures.bytes _ _ h1
    let v : VC one := { oneVC with proof := some { plainOptions with proofValue := t } }
    have hv : VCComplete v := oneVC_complete
    obtain ⟨text, -, g2⟩ := C26_json_roundtrip (C92_laws one_conforms).2.2.2.2.2.1 v hv oneVC_survives
      (by simp [v, oneVC, Json.depth, Json.depthList])
    refine ⟨pub, pub, text.toBytes, _, rfl, h2 _ v _ g2 rfl rfl ⟨rfl, rfl, _, rfl, by decide +kernel⟩ (fun h => nomatch h) hv, rfl, fun r' h => ?_⟩
    cases hr : r'.verified with
    | false => rfl
    | true =>
      exfalso
      obtain ⟨w, p, -, -, -, -, -, -, ⟨_, sig, hex, -, -, ha⟩, -⟩ := (C33_vc two_conforms.jcs _ _ _ _).mp ⟨h, hr⟩
      have : (if hexEncode (one.edPubBytes pub) ∈ smallKeys then (Except.ok false : Except Str Bool) else one.edVerify pub
        (message two (optionBytes two (unvalued p)) (vcBytes (unsignedVC w))) hex) = .ok true := ha
      rw [hb, if_pos (by decide +kernel)] at this
      cases this

/-! Cases for the theorems above, in these two builds. -/

/-- A presentation in either build. -/
def oneVP : VP one :=
  { contexts := ["c".toList], types := ["P".toList], verifiableCredential := [oneVC], proof := none, holder := "did:prople:h".toList }

def twoVP : VP two :=
  { contexts := ["c".toList], types := ["P".toList], verifiableCredential := [twoVC], proof := none, holder := "did:prople:h".toList }

theorem one_two_vp : SamePresentation oneVP twoVP := ⟨rfl, rfl, .cons one_two .nil, rfl, rfl⟩

theorem plain_good_two : GoodOptions two plainOptions := ⟨rfl, rfl, _, rfl, by decide +kernel⟩

/-- `C92_texts_vc`, `C92_texts_vp`: numbers and all. -/
example : oneVC.toJcs = twoVC.toJcs ∧ oneVP.toJson = twoVP.toJson :=
  ⟨(C92_texts_vc one_conforms two_conforms one_two).2.2, (C92_texts_vp one_conforms two_conforms one_two_vp).2.1⟩

/-- `C92_sign_vc`: both builds sign, and the signed credentials have one text. -/
example : ∃ s₁ s₂, sign one (VC one) sampleKey oneVC plainOptions = .ok s₁ ∧ sign two (VC two) sampleKey twoVC plainOptions = .ok s₂ ∧
    s₁.toJcs = s₂.toJcs := by
  have h₂ := ((C32_vc two_conforms.jcs sampleKey twoVC plainOptions).1 _).mpr
    ⟨plain_good_two, by decide, twoVC_complete, _, multibaseEncode58_spec _, rfl⟩
  rcases C92_sign_vc one_conforms two_conforms (k₁ := sampleKey) (k₂ := sampleKey) rfl one_two plainOptions plain_date with
    ⟨e₁, e₂, -, h⟩ | ⟨s₁, s₂, h, h', hs⟩
  · rw [h] at h₂; cases h₂
  · exact ⟨s₁, s₂, h, h', (C92_texts_vc one_conforms two_conforms hs).2.2⟩

/-- `C92_sign_vp`: and presentations. -/
example := C92_sign_vp one_conforms two_conforms (k₁ := sampleKey) (k₂ := sampleKey) rfl one_two_vp plainOptions plain_date

/-- `C92_read_vc`, `C92_verify_vc`: what the second build signed and wrote, the first accepts, with its own numbers. -/
example : ∃ s t w, sign two (VC two) sampleKey twoVC plainOptions = .ok s ∧ s.toJson = .ok t ∧
    verify one (VC one) (one.edPub sampleKey) (utf8 t.text) .assertionMethod = .ok ⟨true, some w⟩ ∧ SameCredential twoVC w := by
  obtain ⟨s, t, w, h1, h2, h3, h4⟩ := carry_vc two_conforms one_conforms (k₂ := sampleKey) (k₃ := sampleKey) rfl twoVC plainOptions
    twoVC_complete rfl plain_good_two plain_date (by decide) rfl twoVC_survives (by simp [twoVC, Json.depth, Json.depthList])
  exact ⟨s, t, w, h1, h2, h3, h4⟩

/-- `C92_did`: one DID from one secret. -/
example := C92_did one_conforms two_conforms ⟨⟨sampleKey⟩⟩ ⟨⟨sampleKey⟩⟩ rfl

/-- An identity with both methods, in either build. -/
def oneOps : List (IdOp one) :=
  [.auth ⟨sampleKey, (⟨List.replicate 32 9, rfl⟩ : Bytes32)⟩, .assertion ⟨sampleKey, (⟨List.replicate 32 9, rfl⟩ : Bytes32)⟩]

def twoOps : List (IdOp two) :=
  [.auth ⟨sampleKey, (⟨List.replicate 32 9, rfl⟩ : Bytes32)⟩, .assertion ⟨sampleKey, (⟨List.replicate 32 9, rfl⟩ : Bytes32)⟩]

theorem variant_secrets (E : Env) (seed : E.EdKP → Bytes) (s : MethodSeed E) :
    SameSecrets (E₁ := E) (E₂ := variant E seed) seed seed s ⟨s.ed, s.dh⟩ := ⟨rfl, rfl⟩

/-- `C92_document`: one DID document. -/
example : (idRun "did:x".toList oneOps).toDoc = (idRun "did:x".toList twoOps).toDoc :=
  (C92_document one_conforms two_conforms _ (.cons (.auth (variant_secrets one _ _)) (.cons (.assertion (variant_secrets one _ _)) .nil))).1

/-- `C92_export`, `C92_three`: the first build exports, the second restores and signs a credential with numbers, the first reads
the published key and accepts. -/
example : ∃ (out : IdentityPrivateKeyPairs) (doc : Doc) (e1 e2 : Primary) (pairs : PrivateKeyPairs) (a : Account two) (pub : one.EdPub)
    (signed : VC two) (t : JSONValue) (w : VC one),
    doc.authentication = some [e1, e2] ∧ out.authentication = some pairs ∧ DID.fromKeysecure two "pw".toList pairs.verification = .ok ⟨a⟩ ∧
    e1.decodePubKey one = .ok (.edDSA pub) ∧ sign two (VC two) a.pair twoVC plainOptions = .ok signed ∧ signed.toJson = .ok t ∧
    verify one (VC one) pub (utf8 t.text) .assertionMethod = .ok ⟨true, some w⟩ ∧ SameCredential twoVC w := by
  let r : ExportRandom := ⟨"saltsalt".toList, List.replicate 24 7, rfl⟩
  have hr : InputsOk "pw".toList (utf8 r.salt) := lowest_ok.2
  obtain ⟨out, hout⟩ := (C90_exports one_conforms.passwords one_conforms.standard.actual one_conforms.standard.texts "did:x".toList oneOps
    ⟨r, r, r, r⟩ "pw".toList).mpr ⟨fun _ => by decide +kernel, fun _ => ⟨hr, hr⟩, fun _ => ⟨hr, hr⟩⟩
  obtain ⟨-, doc, -, -, -, h, -⟩ := C92_three one_conforms two_conforms one_conforms _ _ _ _ _ hout
  obtain ⟨e1, e2, pairs, a, pub, h1, h2, -, h3, h4, h5, -⟩ := h (by simp [oneOps, firstAuth])
  obtain ⟨signed, t, w, g1, g2, g3, g4⟩ := h5 twoVC plainOptions twoVC_complete rfl plain_good_two plain_date (by decide) rfl twoVC_survives
    (by simp [twoVC, Json.depth, Json.depthList])
  exact ⟨out, doc, e1, e2, pairs, a, pub, signed, t, w, h1, h2, h3, h4, g1, g2, g3, g4⟩

/-- `C92_pem`: the key of RFC 8410, as OpenSSL writes it, and as this library does. -/
example := C92_pem one_conforms two_conforms sampleText1 Pkcs8.sample sample_text1

/-- `C92_address`: an address both builds read. -/
example : ∃ m₁ m₂ : List AddrPart, Params.parseMultiaddr one ⟨some "/ip4/127.0.0.1/tcp/80".toList, none⟩ = .ok (some m₁) ∧
    Params.parseMultiaddr two ⟨some "/ip4/127.0.0.1/tcp/80".toList, none⟩ = .ok (some m₂) ∧ m₁ = m₂ := by
  have h : IsAddress [⟨"ip4".toList, .ip4 127 0 0 1⟩, ⟨"tcp".toList, .number 80⟩] "/ip4/127.0.0.1/tcp/80".toList :=
    (Multiaddr.parse_iff _ _).mp (by decide +kernel)
  obtain ⟨m, h1, -⟩ := (C84_addresses one_conforms.addresses _ (by decide) none).1 _ h
  rcases C92_address one_conforms two_conforms _ (by decide) (.inl ⟨_, h⟩) none with ⟨e₁, e₂, h2, -⟩ | ⟨m₁, m₂, h2, h3, h4⟩
  · rw [h1] at h2; cases h2
  · rw [h1] at h2
    cases h2
    cases m₂ with
    | none => cases h4
    | some m₂ => exact ⟨m, m₂, h1, h3, Option.some.inj h4⟩

/-- `C92_key`: the published entry of a secret. -/
example (s : Bytes) (hs : s.length = 32) (t : Str) (hk : IsKeyText (Ed25519.publicKey s) t) :=
  C92_key two_conforms ⟨"did:x#k".toList, "did:x".toList, "Ed25519VerificationKey2020".toList, t⟩ s hs rfl hk

/-- `C92_entry`, `C92_received_vc`, `C92_received_vp`: the key of the neutral point, published, is read by two builds, which agree on
what it accepts. -/
example (t : Str) (hk : IsKeyText neutralKey t) (bs : Bytes)
    (hj : ∀ v, VC.parseJsonBytes one bs = .ok v → Judged one (whole standard loosely) v.proof)
    (hj' : ∀ v, VP.parseJsonBytes one bs = .ok v → Judged one (whole standard loosely) v.proof) :
    ∃ p₁ p₂, Primary.decodePubKey one ⟨"did:x#k".toList, "did:x".toList, "Ed25519VerificationKey2020".toList, t⟩ = .ok (.edDSA p₁) ∧
      Primary.decodePubKey (whole standard loosely) ⟨"did:x#k".toList, "did:x".toList, "Ed25519VerificationKey2020".toList, t⟩ =
        .ok (.edDSA p₂) ∧
      ((∃ r, verify one (VC one) p₁ bs .assertionMethod = .ok r ∧ r.verified = true) ↔
        ∃ r, verify (whole standard loosely) (VC (whole standard loosely)) p₂ bs .assertionMethod = .ok r ∧ r.verified = true) ∧
      ((∃ r, verify one (VP one) p₁ bs .authentication = .ok r ∧ r.verified = true) ↔
        ∃ r, verify (whole standard loosely) (VP (whole standard loosely)) p₂ bs .authentication = .ok r ∧ r.verified = true) := by
  have hn : Ed25519.pointDecompress neutralKey ≠ none := by
    obtain ⟨Q, hQ, -⟩ := Ed25519.pointDecompress_enc 0
    rw [enc_zero] at hQ
    rw [hQ]
    exact fun h => nomatch h
  obtain ⟨p₁, h₁, b₁⟩ := C92_entry one_conforms ⟨"did:x#k".toList, "did:x".toList, "Ed25519VerificationKey2020".toList, t⟩ _ hn rfl hk
  obtain ⟨p₂, h₂, b₂⟩ := C92_entry (whole_conforms standard_standard loosely)
    ⟨"did:x#k".toList, "did:x".toList, "Ed25519VerificationKey2020".toList, t⟩ _ hn rfl hk
  exact ⟨p₁, p₂, h₁, h₂,
    (C92_received_vc one_conforms (whole_conforms standard_standard loosely) one_rfc (fun p m sig _ => signing_verify p m sig) (b₁.trans b₂.symm)
      (b₁ ▸ hn) bs hj .assertionMethod).1,
    (C92_received_vp one_conforms (whole_conforms standard_standard loosely) one_rfc (fun p m sig _ => signing_verify p m sig) (b₁.trans b₂.symm)
      (b₁ ▸ hn) bs hj' .authentication).1⟩

end Verif.Props
