import Verif.Concrete.DoubleNearest
import Verif.Props.Signature
import Verif.Props.Canonical
import Verif.Props.Order

/-
C80: floating point numbers in subjects, written and read as by `ryu`, `ryu-js` and serde_json
(`Verif/Concrete/Double.lean`; core/src/verifiable/vc.rs:71-95 and 131-136, core/src/verifiable/vp.rs:77-99 and 133-138).
-/

namespace Verif.Spec
open Verif

/-- The floating point numbers of the environment are finite doubles, written and read by the programs of
`Verif/Concrete/Double.lean`; `bits` gives the bits of a number. -/
structure Doubles (E : Env) (bits : E.F → Double.F64) : Prop where
  bijective : Function.Bijective bits
  print : ∀ f, E.floatPrint f = Double.print (bits f)
  parse : ∀ t, (E.floatParse t).map bits = Double.parse t
  jcs : ∀ n, E.jcsNum n = match n with
    | .pos n => natDec n.1
    | .neg k => 0x2d :: natDec (k.1 + 1)
    | .float f => Double.printEs (bits f)

/-- Nearest to a decimal of at most 15 digits, at most 22 of them after the point. -/
def Everyday (k : Nat) : Prop := ∃ D x : Nat, D < 10 ^ 15 ∧ x ≤ 22 ∧ Nearest k (D / 10 ^ x)

end Verif.Spec

namespace Verif.Props
open Verif Spec
open Verif.Double (F64)
open Verif.Ed25519 (publicKey)

variable {E : Env} {bits : E.F → F64}

theorem decQ_def (S : Nat) (x : Int) : Double.decQ S x = S * 10 ^ x := rfl

theorem isIntTok_chars {t : Bytes} (h : isIntTok t = true) : ∀ b ∈ t, Digit b ∨ b = 0x2d := by
  cases t with
  | nil => cases h
  | cons c r =>
    rw [isIntTok] at h
    split at h
    · rename_i hc
      intro b hb
      rcases List.mem_cons.mp hb with rfl | hb
      · exact .inr hc
      · exact .inl (all_isDigit.mp h b hb)
    · exact fun b hb => .inl (all_isDigit.mp h b hb)

theorem ryu_mark (ds : Bytes) (e : Int) : 0x2e ∈ Double.ryuText ds e ∨ 0x65 ∈ Double.ryuText ds e := by
  unfold Double.ryuText
  simp only
  split
  · left; simp
  · split
    · left; simp
    · split
      · left; simp
      · right; simp [Double.sciText]

theorem print_notInt (f : F64) : isIntTok (Double.print f) = false := by
  by_contra hc
  have h := isIntTok_chars (Bool.not_eq_false _ ▸ hc)
  have hm : 0x2e ∈ Double.print f ∨ 0x65 ∈ Double.print f := by
    unfold Double.print
    rcases Nat.eq_zero_or_pos f.mag.1 with h | h
    · rw [if_pos h]; left; simp
    · rw [if_neg (show f.mag.1 ≠ 0 by omega)]
      rcases ryu_mark (natDec (Double.shortest f.mag.1).1) (Double.shortest f.mag.1).2 with h | h
      · exact .inl (List.mem_append_right _ h)
      · exact .inr (List.mem_append_right _ h)
  rcases hm with hm | hm <;> rcases h _ hm with h | h
  · revert h; unfold Digit; decide
  · revert h; decide
  · revert h; unfold Digit; decide
  · revert h; decide

theorem doubles_tok (N : Doubles E bits) (n : Num E.F) : IsNumTok (E.jcsNum n) := by
  rw [N.jcs]
  cases n with
  | pos n => exact (natDec_spec n.1).2.2.1
  | neg k => exact isNumTok_neg (natDec_spec _).2.2.1 (natDec_spec _).2.2.2.1
  | float f =>
    obtain ⟨S, x, h, -⟩ := Double.printEs_means (bits f)
    exact Double.means_tok h

/-- C80: the laws assumed of number texts hold of the actual ones. -/
theorem C80_laws (N : Doubles E bits) : E.NumLaws ∧ (E.keyLe = unitLe → E.JcsLaws) := by
  refine ⟨⟨fun f => ?_, fun f => ?_⟩, fun hk => ?_⟩
  · rw [N.print]
    obtain ⟨S, x, h, -⟩ := Double.print_means (bits f)
    exact Double.means_tok h
  · rw [N.print]
    exact print_notInt _
  · have L := (C63_laws Toy.jcsLaws).1
    refine ⟨doubles_tok N, ?_, ?_, ?_⟩ <;> rw [hk]
    · exact L.key_total
    · exact L.key_trans
    · exact L.key_antisymm

/-- C80: both texts of a number stand for a decimal to which the number is the nearest double; the sign is written, except
that of zero in the canonical text. -/
theorem C80_text (N : Doubles E bits) (f : E.F) :
    (∃ S x, TextMeans (E.floatPrint f) (bits f).neg S x ∧ Nearest (bits f).mag (S * 10 ^ x)) ∧
    ∃ S x, TextMeans (E.jcsNum (.float f)) ((bits f).neg && decide ((bits f).mag.1 ≠ 0)) S x ∧
      Nearest (bits f).mag (S * 10 ^ x) := by
  rw [N.print, N.jcs]
  obtain ⟨S, x, h1, h2, -⟩ := Double.print_means (bits f)
  obtain ⟨S', x', h1', h2'⟩ := Double.printEs_means (bits f)
  exact ⟨⟨S, x, h1, (Double.nearest_iff (bits f).mag.2).mpr h2⟩, S', x', h1', (Double.nearest_iff (bits f).mag.2).mpr h2'⟩

/-- C80: both texts have the same digits, apart from zeros at the end: as few as possible (at most 17), and of the decimals
with as few digits that the number is nearest to, the one closest to the number. -/
theorem C80_shortest (N : Doubles E bits) (f : E.F) (h0 : (bits f).mag.1 ≠ 0) :
    ∃ (D : Nat) (e : Int) (z z' : Nat), D % 10 ≠ 0 ∧ D < 10 ^ 17 ∧
      TextMeans (E.floatPrint f) (bits f).neg (D * 10 ^ z) (e - z) ∧
      TextMeans (E.jcsNum (.float f)) (bits f).neg (D * 10 ^ z') (e - z') ∧
      ∀ (m S : Nat) (x : Int), S < 10 ^ m → Nearest (bits f).mag (S * 10 ^ x) →
        D < 10 ^ m ∧ (10 ^ (m - 1) ≤ D → |D * 10 ^ e - ieee (bits f).mag| ≤ |S * 10 ^ x - ieee (bits f).mag|) := by
  have hj : E.jcsNum (.float f) = Double.printEs (bits f) := N.jcs _
  rw [N.print, hj]
  generalize bits f = g at *
  have hg : 0 < g.mag.1 := by omega
  obtain ⟨S, x, h1, -, z, h3, h4, -, -⟩ := Double.print_means g
  obtain ⟨z', h5, -⟩ := Double.printEs_parts g hg
  have hx := h4 h0
  rw [if_neg h0] at h3
  subst h3 hx
  refine ⟨_, _, z, z', (Double.shortest_spec hg).2, Double.shortest_lt hg, h1, h5, ?_⟩
  intro m S x hS hn
  have hn := (Double.nearest_iff g.mag.2).mp hn
  have hm : 0 < m := by
    rcases Nat.eq_zero_or_pos m with rfl | h
    · have : S = 0 := by simpa using hS
      rw [this, Double.ofDec_zero] at hn
      omega
    · exact h
  refine ⟨Double.shortest_least hg hm hS hn, fun hD => ?_⟩
  rw [Double.ieee_eq]
  exact Double.shortest_closest hg hD hS hn

/-- C80: numbers with the same text are the same; with the same canonical text, the same but for the sign of zero. -/
theorem C80_distinct (N : Doubles E bits) (f g : E.F) :
    (E.floatPrint f = E.floatPrint g → f = g) ∧
    (E.jcsNum (.float f) = E.jcsNum (.float g) ↔ f = g ∨ ieee (bits f).mag = 0 ∧ ieee (bits g).mag = 0) := by
  have ext : (bits f).neg = (bits g).neg → (bits f).mag.1 = (bits g).mag.1 → f = g := by
    intro h1 h2
    refine N.bijective.1 ?_
    generalize bits f = a at *
    generalize bits g = b at *
    obtain ⟨_, _⟩ := a
    obtain ⟨_, _⟩ := b
    simp only at h1 h2
    rw [h1, Fin.ext h2]
  have hz : ∀ k, ieee k = 0 ↔ k = 0 := by
    intro k
    rw [Double.ieee_eq]
    have h0 : Double.valQ 0 = 0 := by unfold Double.valQ; rw [Double.units_zero, Nat.cast_zero, zero_div]
    rw [← h0]
    exact ⟨fun h => Double.valQ_strictMono.injective h, fun h => by rw [h]⟩
  rw [N.print, N.print, N.jcs, N.jcs, hz, hz]
  refine ⟨fun h => ?_, ⟨fun h => ?_, ?_⟩⟩
  · obtain ⟨S, x, h1, h2, -⟩ := Double.print_means (bits f)
    obtain ⟨S', x', h1', h2', -⟩ := Double.print_means (bits g)
    rw [h] at h1
    obtain ⟨e1, e2, e3⟩ := Double.means_unique h1 h1'
    subst e2 e3
    exact ext e1 (h2.symm.trans h2')
  · simp only at h
    obtain ⟨S, x, h1, h2⟩ := Double.printEs_means (bits f)
    obtain ⟨S', x', h1', h2'⟩ := Double.printEs_means (bits g)
    rw [h] at h1
    obtain ⟨e1, e2, e3⟩ := Double.means_unique h1 h1'
    subst e2 e3
    have hm := h2.symm.trans h2'
    by_cases h0 : (bits f).mag.1 = 0
    · exact .inr ⟨h0, hm ▸ h0⟩
    · rw [← hm] at e1
      simp only [ne_eq, h0, not_false_eq_true, decide_true, Bool.and_true] at e1
      exact .inl (ext e1 hm)
  · rintro (rfl | ⟨h1, h2⟩)
    · rfl
    · simp only
      unfold Double.printEs
      rw [if_pos h1, if_pos h2]

/-- C80: reading is correctly rounded if the digits are below 2^53 and the power of ten at most 22 in magnitude. -/
theorem C80_read (N : Doubles E bits) {t : Bytes} {n : Bool} {S : Nat} {x : Int} (h : TextMeans t n S x)
    (hS : S < 2 ^ 53) (hx : -22 ≤ x ∧ x ≤ 22) (ht : t.length < 2 ^ 30) :
    ∃ f, E.floatParse t = some f ∧ (bits f).neg = n ∧ Nearest (bits f).mag (S * 10 ^ x) := by
  have hr := Double.round_nat (b := 0) hS
  rw [pow_zero, Nat.mul_one] at hr
  obtain ⟨g, h1, h2, h3⟩ := Double.parse_exact h ht hr (by omega) (by omega)
  have hp := N.parse t
  rw [h1, Option.map_eq_some_iff] at hp
  obtain ⟨f, hf, rfl⟩ := hp
  exact ⟨f, hf, h2, (Double.nearest_iff (bits f).mag.2).mpr h3.symm⟩

theorem everyday_iff {k : Nat} (hk : k < Double.top) (h : Everyday k) : ∃ D x : Nat, D < 10 ^ 15 ∧ x ≤ 22 ∧ k = Double.ofDec D (-(x : Int)) := by
  obtain ⟨D, x, h1, h2, h3⟩ := h
  refine ⟨D, x, h1, h2, ?_⟩
  rw [div_eq_mul_inv, ← zpow_natCast, ← zpow_neg] at h3
  exact ((Double.nearest_iff hk).mp h3).symm

theorem survive_of_bits (N : Doubles E bits) {f : E.F} : E.floatParse (E.floatPrint f) = some f ↔
    Double.parse (Double.print (bits f)) = some (bits f) := by
  rw [← N.print, ← N.parse, Option.map_eq_some_iff]
  constructor
  · intro h
    exact ⟨f, h, rfl⟩
  · rintro ⟨g, h, hg⟩
    rw [h, N.bijective.1 hg]

theorem decNum_bits (N : Doubles E bits) {t : Bytes} {m : Num F64} (h : decNum Double.parse t = some m) :
    ∃ m' : Num E.F, decNum E.floatParse t = some m' ∧ E.jcsNum m' = Double.jcsNum m := by
  have hf : (Double.parse t).map Num.float = some m → ∃ m' : Num E.F, (E.floatParse t).map Num.float = some m' ∧
      E.jcsNum m' = Double.jcsNum m := by
    intro h
    rw [← N.parse, Option.map_map, Option.map_eq_some_iff] at h
    obtain ⟨g, h1, rfl⟩ := h
    refine ⟨.float g, by rw [h1]; rfl, ?_⟩
    rw [N.jcs]
    rfl
  unfold decNum at h ⊢
  split at h
  · rename_i hi
    rw [if_pos hi]
    split at h
    · rename_i hh
      rw [if_pos hh]
      split at h
      · rename_i hc
        rw [dif_pos hc]
        cases h
        exact ⟨_, rfl, by rw [N.jcs]; rfl⟩
      · rename_i hc
        rw [dif_neg hc]
        exact hf h
    · rename_i hh
      rw [if_neg hh]
      split at h
      · rename_i hc
        rw [dif_pos hc]
        cases h
        exact ⟨_, rfl, by rw [N.jcs]; rfl⟩
      · rename_i hc
        rw [dif_neg hc]
        exact hf h
  · rename_i hi
    rw [if_neg hi]
    exact hf h

/-- C80: decimals of at most 15 digits, at most 22 of them after the point, are read back from their text, and their
canonical text is read as a number with the same canonical text. -/
theorem C80_everyday (N : Doubles E bits) (f : E.F) (h : Everyday (bits f).mag) :
    E.floatParse (E.floatPrint f) = some f ∧
    ∃ m, NumMeans E.floatParse (E.jcsNum (.float f)) m ∧ E.jcsNum m = E.jcsNum (.float f) := by
  obtain ⟨D, x, h1, h2, h3⟩ := everyday_iff (bits f).mag.2 h
  refine ⟨(survive_of_bits N).mpr (Double.everyday_survives _ h1 h2 h3), ?_⟩
  obtain ⟨m, h4, h5⟩ := Double.everyday_reread _ h1 h2 h3
  obtain ⟨m', h6, h7⟩ := decNum_bits N h4
  have hj : E.jcsNum (.float f) = Double.printEs (bits f) := N.jcs _
  refine ⟨m', ?_, by rw [h7, h5, hj]⟩
  refine (decNum_iff _ ((isNumTok_iff _).mp (doubles_tok N (.float f))) m').mp ?_
  rw [hj]
  exact h6

/-- C80: documents whose numbers with a fraction are such decimals are read back from their JSON text and from their
canonical text. -/
theorem C80_documents (N : Doubles E bits) (j : Json (Num E.F)) (h : ∀ f, Num.float f ∈ j.nums → Everyday (bits f).mag) :
    Survives E j ∧ Rereads E j := by
  refine ⟨fun f hf => (C80_everyday N f (h f hf)).1, fun n hn => ?_⟩
  cases n with
  | float f => exact (C80_everyday N f (h f hn)).2
  | pos n =>
    have hj : E.jcsNum (.pos n) = natDec n.1 := N.jcs _
    refine ⟨.pos n, (decNum_iff _ ((isNumTok_iff _).mp (doubles_tok N (.pos n))) _).mp ?_, rfl⟩
    rw [hj]
    have := decNum_printNum (fr := E.floatParse) (C80_laws N).1 (.pos n)
    exact this
  | neg k =>
    have hj : E.jcsNum (.neg k) = 0x2d :: natDec (k.1 + 1) := N.jcs _
    refine ⟨.neg k, (decNum_iff _ ((isNumTok_iff _).mp (doubles_tok N (.neg k))) _).mp ?_, rfl⟩
    rw [hj]
    have := decNum_printNum (fr := E.floatParse) (C80_laws N).1 (.neg k)
    exact this

/-- C80: such credentials, signed, are accepted from their JSON text and from their canonical text; nothing is assumed
about signatures, hashes or number texts. -/
theorem C80_sent_vc (N : Doubles E bits) (hk : E.keyLe = unitLe) {seed : E.EdKP → Bytes} (A : Ed25519Keys E seed) (kp : E.EdKP)
    (v : VC E) (opts : Proof) (hv : VCComplete v) (hproof : v.proof = none) (ho : GoodOptions E opts)
    (hp : opts.proofPurpose ≠ .unknown) (hval : opts.proofValue = []) (hd : v.credentialSubject.1.depth ≤ 126)
    (hn : ∀ f, Num.float f ∈ v.credentialSubject.1.nums → Everyday (bits f).mag) :
    ∃ signed t t' w, sign E (VC E) kp v opts = .ok signed ∧ signed.toJson = .ok t ∧ signed.toJcs = .ok t' ∧ SameVC v w ∧
      verify E (VC E) (E.edPub kp) (utf8 t.text) opts.proofPurpose = .ok ⟨true, some v⟩ ∧
      verify E (VC E) (E.edPub kp) (utf8 t') opts.proofPurpose = .ok ⟨true, some w⟩ := by
  obtain ⟨L1, L2⟩ := C80_laws N
  obtain ⟨hs, hr⟩ := C80_documents N _ hn
  obtain ⟨signed, t, h1, h2, h3⟩ := C79_roundtrip_vc A (L2 hk) L1 kp v opts hv hproof ho hp hval hs hd
  obtain ⟨signed', t', w, h4, h5, h6, h7⟩ := C53_sent_vc (L2 hk) (C79_laws A) kp v opts hv hproof ho hp hval hd hr
  rw [h1] at h4
  cases h4
  exact ⟨signed, t, t', w, h1, h2, h5, h6, h3, h7⟩

/-- C80: and presentations. -/
theorem C80_sent_vp (N : Doubles E bits) (hk : E.keyLe = unitLe) {seed : E.EdKP → Bytes} (A : Ed25519Keys E seed) (kp : E.EdKP)
    (v : VP E) (opts : Proof) (hv : VPComplete v) (hproof : v.proof = none) (ho : GoodOptions E opts)
    (hp : opts.proofPurpose ≠ .unknown) (hval : opts.proofValue = [])
    (hd : ∀ c ∈ v.verifiableCredential, c.credentialSubject.1.depth ≤ 124)
    (hn : ∀ c ∈ v.verifiableCredential, ∀ f, Num.float f ∈ c.credentialSubject.1.nums → Everyday (bits f).mag) :
    ∃ signed t t' w, sign E (VP E) kp v opts = .ok signed ∧ signed.toJson = .ok t ∧ signed.toJcs = .ok t' ∧ SameVP v w ∧
      verify E (VP E) (E.edPub kp) (utf8 t.text) opts.proofPurpose = .ok ⟨true, some v⟩ ∧
      verify E (VP E) (E.edPub kp) (utf8 t') opts.proofPurpose = .ok ⟨true, some w⟩ := by
  obtain ⟨L1, L2⟩ := C80_laws N
  have hs := fun c hc => (C80_documents N _ (hn c hc)).1
  have hr := fun c hc => (C80_documents N _ (hn c hc)).2
  obtain ⟨signed, t, h1, h2, h3⟩ := C79_roundtrip_vp A (L2 hk) L1 kp v opts hv hproof ho hp hval
    fun c hc => ⟨hs c hc, hd c hc⟩
  obtain ⟨signed', t', w, h4, h5, h6, h7⟩ := C53_sent_vp (L2 hk) (C79_laws A) kp v opts hv hproof ho hp hval hd hr
  rw [h1] at h4
  cases h4
  exact ⟨signed, t, t', w, h1, h2, h5, h6, h3, h7⟩

/-! ### Numbers that change -/

/-- What is read from the text of a number has its sign. -/
theorem parse_sign {f g : F64} (h : Double.parse (Double.print f) = some g) : g.neg = f.neg := by
  obtain ⟨S, x, h1, -⟩ := Double.print_means f
  obtain ⟨i, t, d, e, y, h2, -, -, h3, -, -⟩ := h1
  have hh := (Double.intPart_head (r := t ++ e) h2).1
  unfold Double.parse at h
  simp only at h
  have hs : decide ((Double.print f).head? = some 0x2d) = f.neg := by
    rw [h3]
    cases f.neg with
    | true => simp
    | false => simpa using hh
  split at h
  · split at h
    · cases h
      exact hs
    · cases h
  · cases h

/-- A number that is read with the same canonical text is read back. -/
theorem survive_of_jcs (N : Doubles E bits) {f g : E.F} (h : E.floatParse (E.floatPrint f) = some g)
    (hj : E.jcsNum (.float g) = E.jcsNum (.float f)) : g = f := by
  have hp := N.parse (E.floatPrint f)
  rw [h, N.print] at hp
  have hs := parse_sign hp.symm
  have hz : ∀ k, ieee k = 0 → k = 0 := by
    intro k
    have h0 : Double.valQ 0 = 0 := by unfold Double.valQ; rw [Double.units_zero, Nat.cast_zero, zero_div]
    rw [Double.ieee_eq, ← h0]
    exact fun h => Double.valQ_strictMono.injective h
  rcases ((C80_distinct N g f).2.mp hj) with h | ⟨h1, h2⟩
  · exact h
  · refine N.bijective.1 ?_
    have h1 := hz _ h1
    have h2 := hz _ h2
    generalize bits f = a at *
    generalize bits g = b at *
    obtain ⟨_, _⟩ := a
    obtain ⟨_, _⟩ := b
    simp only at h1 h2 hs
    rw [hs, Fin.ext (h1.trans h2.symm)]

/-- 9007199254740991.0 and 9007199254740990.0. -/
def odd16 : F64 := ⟨false, 0x433fffffffffffff, by decide +kernel⟩
def even16 : F64 := ⟨false, 0x433ffffffffffffe, by decide +kernel⟩

theorem odd16_read : Double.parse (Double.print odd16) = some even16 := by decide +kernel

/-- C80: not every number is read back: 9007199254740991 (2^53 - 1), as a floating point number, is written as
`9007199254740991.0` and read as 9007199254740990. -/
theorem C80_not_all (N : Doubles E bits) : ∃ f g, E.floatPrint f = "9007199254740991.0".toList.map (fun c => UInt8.ofNat c.toNat) ∧
    E.floatParse (E.floatPrint f) = some g ∧ ieee (bits f).mag = 9007199254740991 ∧ ieee (bits g).mag = 9007199254740990 := by
  obtain ⟨f, hf⟩ := N.bijective.2 odd16
  have hp := N.parse (E.floatPrint f)
  rw [N.print, hf, odd16_read, Option.map_eq_some_iff] at hp
  obtain ⟨g, hg, hg'⟩ := hp
  refine ⟨f, g, ?_, by rw [N.print, hf]; exact hg, ?_, ?_⟩
  · rw [N.print, hf]
    decide +kernel
  · rw [hf]
    norm_num [ieee, odd16]
  · rw [hg']
    norm_num [ieee, even16]

theorem all_or_none (l : List (Num E.F)) : (∃ ρ : E.F → E.F, ∀ f, Num.float f ∈ l → E.floatParse (E.floatPrint f) = some (ρ f)) ∨
    ∃ f, Num.float f ∈ l ∧ E.floatParse (E.floatPrint f) = none := by
  by_cases h : ∃ f, Num.float f ∈ l ∧ E.floatParse (E.floatPrint f) = none
  · exact .inr h
  · left
    refine ⟨fun f => (E.floatParse (E.floatPrint f)).getD f, fun f hf => ?_⟩
    cases hp : E.floatParse (E.floatPrint f) with
    | none => exact absurd ⟨f, hf, hp⟩ h
    | some g => simp only [hp, Option.getD_some]

/-- Numbers read with the same canonical texts are read back. -/
theorem survives_of_same (N : Doubles E bits) {j : Json (Num E.F)} {ρ : E.F → E.F}
    (hρ : ∀ f, Num.float f ∈ j.nums → E.floatParse (E.floatPrint f) = some (ρ f))
    (h : j.mapNum E.jcsNum = (j.mapNum (rereadNum E ρ)).mapNum E.jcsNum) : Survives E j := by
  intro f hf
  rw [Json.mapNum_mapNum] at h
  have h1 := Json.eq_of_mapNum j h _ hf
  have h2 := hρ f hf
  rw [h2, survive_of_jcs N h2 h1.symm]

/-- C80: a signed credential that is sent as JSON text and accepted has numbers that are read back, or the two signed texts
show a collision of hashes: a number that is not read back makes the credential's own signature worthless. -/
theorem C80_relay_vc (N : Doubles E bits) (hk : E.keyLe = unitLe) {seed : E.EdKP → Bytes} (A : Ed25519Keys E seed)
    (H : E.HashLaws) (kp : E.EdKP) (v : VC E) (opts : Proof) (signed : VC E) (t : JSONValue) (hs : sign E (VC E) kp v opts = .ok signed)
    (ht : signed.toJson = .ok t) (hd : v.credentialSubject.1.depth ≤ 126) (purpose : ProofPurpose)
    (r : VerificationResult (VC E)) (hr : verify E (VC E) (E.edPub kp) (utf8 t.text) purpose = .ok r) (hok : r.verified = true) :
    Survives E v.credentialSubject.1 ∨ ∃ w, VC.parseJsonBytes E (utf8 t.text) = .ok w ∧
      Collides E ((E.edSign kp (message E (optionBytes E opts) (vcBytes v))).take 32 ++ E.edPubBytes (E.edPub kp))
        (optionBytes E opts) (vcBytes v) (optionBytes E (unvalued opts)) (vcBytes (unsignedVC w)) := by
  obtain ⟨L1, L2⟩ := C80_laws N
  obtain ⟨_, _, hv, text, htext, e⟩ := ((C32_vc (L2 hk) kp v opts).1 _).mp hs
  obtain ⟨w, p, hw, -⟩ := (C33_vc (L2 hk) (E.edPub kp) _ purpose r).mp ⟨hr, hok⟩
  rcases all_or_none v.credentialSubject.1.nums with ⟨ρ, hρ⟩ | ⟨f, hf, hn⟩
  · obtain ⟨t', h1, h2⟩ := C26_reread L1 signed (by rw [e]; exact hv) ρ (by rw [e]; exact hρ) (by rw [e]; exact hd)
    rw [ht] at h1
    cases h1
    unfold JSONValue.toBytes at h2
    rw [← utf8_eq] at h2
    subst e
    rcases C79_tamper_vc A H (L2 hk) kp v opts _ _ _ hs rfl htext _ purpose r _ _ _ hr hok h2 rfl (.base58 htext) with ⟨h3, -⟩ | h3
    · exact .inl (survives_of_same N hρ h3.subject)
    · exact .inr ⟨_, h2, h3⟩
  · obtain ⟨t', m, h1, h2⟩ := C26_unreadable L1 signed (by rw [e]; exact hv) f (by rw [e]; exact hf) hn
    rw [ht] at h1
    cases h1
    unfold JSONValue.toBytes at h2
    rw [← utf8_eq, hw] at h2
    cases h2

theorem forall₂_some {α β : Type} {R : α → β → Prop} {l : List α} {m : List β} (h : List.Forall₂ R l m) : ∀ a ∈ l, ∃ b, R a b := by
  induction h with
  | nil => simp
  | cons h _ ih =>
    intro a ha
    rcases List.mem_cons.mp ha with rfl | ha
    · exact ⟨_, h⟩
    · exact ih a ha

theorem forall₂_map {α : Type} {R : α → α → Prop} {f : α → α} {l : List α} (h : List.Forall₂ R l (l.map f)) : ∀ a ∈ l, R a (f a) := by
  induction l with
  | nil => simp
  | cons x l ih =>
    rw [List.map_cons, List.forall₂_cons] at h
    intro a ha
    rcases List.mem_cons.mp ha with rfl | ha
    · exact h.1
    · exact ih h.2 a ha

/-- A presentation read from its own JSON text is the presentation with its numbers as read. -/
theorem vp_read_own (L : E.NumLaws) (v w : VP E) (hv : VPComplete v) (hd : ∀ c ∈ v.verifiableCredential, c.credentialSubject.1.depth ≤ 124)
    {t : JSONValue} (ht : v.toJson = .ok t) (hw : VP.parseJsonBytes E (utf8 t.text) = .ok w) :
    ∃ ρ : E.F → E.F, (∀ c ∈ v.verifiableCredential, ∀ f, Num.float f ∈ c.credentialSubject.1.nums →
      E.floatParse (E.floatPrint f) = some (ρ f)) ∧ w = v.mapNum (rereadNum E ρ) := by
  have ht' : t = ⟨jsonText E v.toTree⟩ := by
    have h0 : v.toJson = .ok ⟨jsonText E v.toTree⟩ := by unfold VP.toJson; rw [(C25_validate v).1.mpr hv]; rfl
    exact Except.ok.inj (ht.symm.trans h0)
  subst ht'
  rw [utf8_eq] at hw
  dsimp only at hw
  have hp : VP.parseJsonBytes E (utf8Encode (jsonText E v.toTree)) =
      (match VP.dec E 128 (v.toTree.toRaw (printNum E.floatPrint)) with
        | some w => .ok w
        | none => .error (.proofGenerationError (E.msg (.vp (utf8Encode (jsonText E v.toTree)))))) := by
    unfold VP.parseJsonBytes
    rw [fromSlice_text L]
    cases VP.dec E 128 (v.toTree.toRaw (printNum E.floatPrint)) <;> rfl
  replace hw := hp.symm.trans hw
  cases hdec : VP.dec E 128 (v.toTree.toRaw (printNum E.floatPrint)) with
  | none => rw [hdec] at hw; cases hw
  | some w' =>
    rw [hdec] at hw
    have e : w' = w := Except.ok.inj hw
    subst e
    have hc := (optAll_iff _ _ _).mp (VP.dec_credentials v w' 128 (by omega) hdec)
    have hρ : ∀ c ∈ v.verifiableCredential, ∀ f, Num.float f ∈ c.credentialSubject.1.nums →
        E.floatParse (E.floatPrint f) = some ((E.floatParse (E.floatPrint f)).getD f) := by
      intro c hcm f hf
      obtain ⟨c', hc'⟩ := forall₂_some hc c hcm
      have := decValue_nums _ _ (VC.dec_subject c c' 126 (by omega) hc') _ hf
      rw [decNum_printNum L] at this
      simp only [Option.isSome_map] at this
      obtain ⟨g, hg⟩ := Option.isSome_iff_exists.mp this
      rw [hg]; rfl
    refine ⟨_, hρ, ?_⟩
    have := VP.dec_toTree v (fun c hc => decNum_reread L (hρ c hc)) 128 (by omega) (fun c hc => by have := hd c hc; omega)
    rw [hdec] at this
    exact Option.some.inj this

/-- C80: the same for presentations. -/
theorem C80_relay_vp (N : Doubles E bits) (hk : E.keyLe = unitLe) {seed : E.EdKP → Bytes} (A : Ed25519Keys E seed)
    (H : E.HashLaws) (kp : E.EdKP) (v : VP E) (opts : Proof) (signed : VP E) (t : JSONValue) (hs : sign E (VP E) kp v opts = .ok signed)
    (ht : signed.toJson = .ok t) (hd : ∀ c ∈ v.verifiableCredential, c.credentialSubject.1.depth ≤ 124) (purpose : ProofPurpose)
    (r : VerificationResult (VP E)) (hr : verify E (VP E) (E.edPub kp) (utf8 t.text) purpose = .ok r) (hok : r.verified = true) :
    (∀ c ∈ v.verifiableCredential, Survives E c.credentialSubject.1) ∨ ∃ w, VP.parseJsonBytes E (utf8 t.text) = .ok w ∧
      Collides E ((E.edSign kp (message E (optionBytes E opts) (vpBytes v))).take 32 ++ E.edPubBytes (E.edPub kp))
        (optionBytes E opts) (vpBytes v) (optionBytes E (unvalued opts)) (vpBytes (unsignedVP w)) := by
  obtain ⟨L1, L2⟩ := C80_laws N
  obtain ⟨_, _, hv, text, htext, e⟩ := ((C32_vp (L2 hk) kp v opts).1 _).mp hs
  obtain ⟨w, p, hw, -⟩ := (C33_vp (L2 hk) (E.edPub kp) _ purpose r).mp ⟨hr, hok⟩
  obtain ⟨ρ, hρ, hwρ⟩ := vp_read_own L1 signed w (by rw [e]; exact hv) (by rw [e]; exact hd) ht hw
  subst e
  subst hwρ
  rcases C79_tamper_vp A H (L2 hk) kp v opts _ _ _ hs rfl htext _ purpose r _ _ _ hr hok hw rfl (.base58 htext) with ⟨h3, -⟩ | h3
  · left
    intro c hc
    exact survives_of_same N (hρ c hc) (forall₂_map h3.credentials c hc).subject
  · exact .inr ⟨_, hw, h3⟩

/-! ### Integers and floating point numbers -/

theorem natDec_means (n : Nat) (neg : Bool) : TextMeans ((if neg then [0x2d] else []) ++ natDec n) neg n 0 := by
  refine ⟨natDec n, [], [], [], 0, Double.natDec_int n, .inl ⟨rfl, rfl⟩, .inl ⟨rfl, rfl⟩, by simp, ?_, by simp⟩
  rw [List.append_nil]
  rw [← decVal_eq, (natDec_spec n).2.1]

/-- C80: an integer and a floating point number with the same canonical text have the same sign, and the floating point
number is the double nearest to the integer. -/
theorem C80_same (N : Doubles E bits) (f : E.F) :
    (∀ n, E.jcsNum (.pos n) = E.jcsNum (.float f) → Nearest (bits f).mag (n.1 : Nat) ∧ ((bits f).neg = true → n.1 = 0)) ∧
    ∀ k, E.jcsNum (.neg k) = E.jcsNum (.float f) → Nearest (bits f).mag ((k.1 + 1 : Nat)) ∧ (bits f).neg = true := by
  obtain ⟨-, S, x, h1, h2⟩ := C80_text N f
  constructor
  · intro n h
    rw [← h, N.jcs] at h1
    obtain ⟨e1, e2, e3⟩ := Double.means_unique h1 (natDec_means n.1 false)
    subst e2 e3
    rw [zpow_zero, mul_one] at h2
    refine ⟨h2, fun hn => ?_⟩
    rw [hn, Bool.true_and, decide_eq_false_iff_not, not_not] at e1
    have hz : E.jcsNum (.float f) = [0x30] := by
      rw [N.jcs]
      exact if_pos e1
    rw [hz, N.jcs] at h
    have h' : natDec n.1 = natDec 0 := h
    rw [← (natDec_spec n.1).2.1, h', (natDec_spec 0).2.1]
  · intro k h
    rw [← h, N.jcs] at h1
    obtain ⟨e1, e2, e3⟩ := Double.means_unique h1 (natDec_means (k.1 + 1) true)
    subst e2 e3
    rw [zpow_zero, mul_one] at h2
    exact ⟨h2, (Bool.and_eq_true_iff.mp e1).1⟩

/-! ### A world with the actual numbers, hashes, cipher and signatures -/

def numeric : Env :=
  { signing with
    F := F64
    floatPrint := Double.print
    floatParse := Double.parse
    jcsNum := Double.jcsNum
    keyLe := unitLe }

theorem numeric_doubles : Doubles numeric id where
  bijective := Function.bijective_id
  print _ := rfl
  parse t := Option.map_id_fun' ▸ rfl
  jcs n := by cases n <;> rfl

theorem numeric_keys : Ed25519Keys numeric (fun k => k) :=
  ⟨signing_keys.pub, signing_keys.sign, signing_keys.verify, signing_keys.reads, signing_keys.bytes, signing_keys.ext,
   signing_keys.origin⟩

theorem numeric_actual : Actual numeric := ⟨rfl, rfl, rfl, real_actual.enc, real_actual.dec⟩

/-- All laws, in this world. -/
theorem numeric_laws : numeric.HashLaws ∧ numeric.EdLaws ∧ numeric.PemLaw ∧ numeric.DhLaw ∧ numeric.AeadLaw ∧
    numeric.NumLaws ∧ numeric.JcsLaws :=
  ⟨(C78_laws numeric_actual).1, C79_laws numeric_keys, signing_pemLaw, signing_dhLaw, (C78_laws numeric_actual).2,
   (C80_laws numeric_doubles).1, (C80_laws numeric_doubles).2 rfl⟩

theorem numeric_read (t : Bytes) : numeric.floatParse t = Double.parse t := rfl

theorem everyday_of {k D x : Nat} (hk : k < Double.top) (hD : D < 10 ^ 15) (hx : x ≤ 22)
    (h : Double.ofDec D (-(x : Int)) = k) : Everyday k := by
  refine ⟨D, x, hD, hx, ?_⟩
  rw [div_eq_mul_inv, ← zpow_natCast, ← zpow_neg]
  exact (Double.nearest_iff hk).mpr h

/-- -1.75, 0.1 and 30. -/
def small : F64 := ⟨true, 0x3ffc000000000000, by decide +kernel⟩
def tenth : F64 := ⟨false, 0x3fb999999999999a, by decide +kernel⟩
def thirty : F64 := ⟨false, 0x403e000000000000, by decide +kernel⟩

theorem small_everyday : Everyday small.mag := everyday_of (D := 175) (x := 2) small.mag.2 (by omega) (by omega) (by decide +kernel)
theorem tenth_everyday : Everyday tenth.mag := everyday_of (D := 1) (x := 1) tenth.mag.2 (by omega) (by omega) (by decide +kernel)
theorem thirty_everyday : Everyday thirty.mag := everyday_of (D := 30) (x := 0) thirty.mag.2 (by omega) (by omega) (by decide +kernel)

/-- `C80_documents`: a subject with these numbers. -/
example : Survives numeric (.arr [.num (.float small), .num (.float tenth), .num (.pos ⟨5, by decide⟩)]) ∧
    Rereads numeric (.arr [.num (.float small), .num (.float tenth), .num (.pos ⟨5, by decide⟩)]) := by
  refine C80_documents numeric_doubles _ fun f hf => ?_
  simp only [Json.nums, Json.numsList, List.mem_append, List.mem_singleton, List.not_mem_nil, or_false, reduceCtorEq] at hf
  rcases hf with h | h <;> cases h
  · exact small_everyday
  · exact tenth_everyday

/-- `C80_text`, `C80_everyday`: their texts, and what is read from them. -/
example : numeric.floatPrint small = utf8 "-1.75".toList ∧ numeric.jcsNum (.float small) = utf8 "-1.75".toList ∧
    numeric.floatPrint tenth = utf8 "0.1".toList ∧ numeric.jcsNum (.float thirty) = utf8 "30".toList ∧
    numeric.floatPrint thirty = utf8 "30.0".toList ∧ numeric.floatParse (utf8 "30.0".toList) = some thirty := by
  have h := (C80_everyday numeric_doubles thirty thirty_everyday).1
  refine ⟨by decide +kernel, by decide +kernel, by decide +kernel, by decide +kernel, by decide +kernel, ?_⟩
  have e : utf8 "30.0".toList = numeric.floatPrint thirty := by decide +kernel
  rw [e]
  exact h

/-- `C80_shortest`, `C80_distinct`: numbers next to each other have different digits, as many as needed; both zeros have one
canonical text. -/
example : numeric.floatPrint tenth = utf8 "0.1".toList ∧
    numeric.floatPrint (⟨false, 0x3fb999999999999b, by decide +kernel⟩ : F64) = utf8 "0.10000000000000002".toList ∧
    numeric.floatPrint (⟨false, 0x3fb9999999999999, by decide +kernel⟩ : F64) = utf8 "0.09999999999999999".toList ∧
    numeric.floatPrint (⟨true, 0, by decide +kernel⟩ : F64) = utf8 "-0.0".toList ∧
    numeric.jcsNum (.float (⟨true, 0, by decide +kernel⟩ : F64)) = utf8 "0".toList ∧
    numeric.jcsNum (.float (⟨false, 0, by decide +kernel⟩ : F64)) = utf8 "0".toList := by
  refine ⟨?_, ?_, ?_, ?_, ?_, ?_⟩ <;> decide +kernel

/-- `C80_read`: a text with a fraction and an exponent. -/
example : TextMeans (utf8 "-12.50e-1".toList) true 1250 (-3) ∧
    ∃ f : F64, numeric.floatParse (utf8 "-12.50e-1".toList) = some f ∧ f.neg = true ∧ f.mag.1 = 0x3ff4000000000000 ∧
      Nearest f.mag (1250 * 10 ^ (-3 : Int)) := by
  have h : TextMeans (utf8 "-12.50e-1".toList) true 1250 (-3) :=
    ⟨utf8 "12".toList, utf8 ".50".toList, utf8 "50".toList, utf8 "e-1".toList, -1,
      .inr ⟨⟨by decide, all_isDigit.mp (by decide +kernel)⟩, by decide +kernel⟩,
      .inr ⟨⟨by decide, all_isDigit.mp (by decide +kernel)⟩, by decide +kernel⟩,
      .inr ⟨0x65, [0x2d], [0x31], .inl rfl, ⟨by decide, all_isDigit.mp (by decide +kernel)⟩, by decide +kernel, .inr ⟨rfl, by decide +kernel⟩⟩,
      by decide +kernel, by decide +kernel, by decide +kernel⟩
  obtain ⟨f, h1, h2, h3⟩ := C80_read numeric_doubles h (by norm_num) ⟨by norm_num, by norm_num⟩ (by decide +kernel)
  have e : Double.parse (utf8 "-12.50e-1".toList) = some ⟨true, 0x3ff4000000000000, by decide +kernel⟩ := by decide +kernel
  have e2 := Option.some.inj (h1.symm.trans ((numeric_read _).trans e))
  exact ⟨h, f, h1, h2, by rw [e2], by exact_mod_cast h3⟩

/-- `C80_same`: 1 and 1.0 have one canonical text; so have 1152921504606847000 and the double 2^60, which is
1152921504606846976. -/
example : numeric.jcsNum (.pos 1) = numeric.jcsNum (.float (⟨false, 0x3ff0000000000000, by decide +kernel⟩ : F64)) ∧
    numeric.jcsNum (.pos 1152921504606847000) = numeric.jcsNum (.float (⟨false, 0x43b0000000000000, by decide +kernel⟩ : F64)) ∧
    ieee 0x43b0000000000000 = 1152921504606846976 := by
  refine ⟨by decide +kernel, by decide +kernel, ?_⟩
  norm_num [ieee]

/-- A sample credential with numbers. -/
def numericVC : VC numeric :=
  ⟨["c".toList], ["t".toList], ⟨.arr [.num (.float small), .num (.float tenth), .num (.float thirty), .num (.pos 7)], by
    simp [Json.Sorted, Json.SortedList]⟩, none, "urn:1".toList, "did:prople:x".toList⟩

theorem numericVC_complete : VCComplete numericVC := ⟨by simp [numericVC], by simp [numericVC], by simp [numericVC]⟩

theorem numericVC_numbers (f : numeric.F) (h : Num.float f ∈ numericVC.credentialSubject.1.nums) : Everyday (id f : F64).mag := by
  simp only [numericVC, Json.nums, Json.numsList, List.mem_append, List.mem_singleton, List.append_nil, reduceCtorEq,
    or_false] at h
  rcases h with h | h | h <;> cases Num.float.inj h
  · exact small_everyday
  · exact tenth_everyday
  · exact thirty_everyday

theorem numeric_options : GoodOptions numeric toyProof := ⟨toyProof_good.1, toyProof_good.2, toyProof_good.3⟩

theorem numericVC_depth : numericVC.credentialSubject.1.depth ≤ 124 := by simp [numericVC, Json.depth, Json.depthList]

/-- The hypotheses of `C80_sent_vc` and `C80_relay_vc` hold. -/
example : ∃ signed t t' w, sign numeric (VC numeric) Ed25519.secret1 numericVC toyProof = .ok signed ∧ signed.toJson = .ok t ∧
    signed.toJcs = .ok t' ∧ SameVC numericVC w ∧
    verify numeric (VC numeric) (numeric.edPub Ed25519.secret1) (utf8 t.text) .assertionMethod = .ok ⟨true, some numericVC⟩ ∧
    verify numeric (VC numeric) (numeric.edPub Ed25519.secret1) (utf8 t') .assertionMethod = .ok ⟨true, some w⟩ :=
  C80_sent_vc numeric_doubles rfl numeric_keys Ed25519.secret1 numericVC toyProof numericVC_complete rfl numeric_options
    (by decide) rfl (by have := numericVC_depth; omega) numericVC_numbers

/-- The canonical text that is signed. -/
example : canonicalText numeric (vcObject numericVC) =
    "{\"@context\":[\"c\"],\"credentialSubject\":[-1.75,0.1,30,7],\"id\":\"urn:1\",\"issuer\":\"did:prople:x\",\"type\":[\"t\"]}".toList := by
  decide +kernel

/-- A presentation of it. -/
def numericVP : VP numeric :=
  { contexts := ["c".toList], types := ["P".toList], verifiableCredential := [numericVC], proof := none,
    holder := some "did:h".toList }

theorem numericVP_complete : VPComplete numericVP := ⟨by simp [numericVP], by simp [numericVP], by simp [numericVP]⟩

/-- The hypotheses of `C80_sent_vp` and `C80_relay_vp` hold. -/
example : ∃ signed t t' w, sign numeric (VP numeric) Ed25519.secret1 numericVP toyProof = .ok signed ∧ signed.toJson = .ok t ∧
    signed.toJcs = .ok t' ∧ SameVP numericVP w ∧
    verify numeric (VP numeric) (numeric.edPub Ed25519.secret1) (utf8 t.text) .assertionMethod = .ok ⟨true, some numericVP⟩ ∧
    verify numeric (VP numeric) (numeric.edPub Ed25519.secret1) (utf8 t') .assertionMethod = .ok ⟨true, some w⟩ := by
  have hc : ∀ c ∈ numericVP.verifiableCredential, c = numericVC := by simp [numericVP]
  refine C80_sent_vp numeric_doubles rfl numeric_keys Ed25519.secret1 numericVP toyProof numericVP_complete rfl numeric_options
    (by decide) rfl (fun c h => ?_) (fun c h => ?_)
  · rw [hc c h]; exact numericVC_depth
  · rw [hc c h]; exact numericVC_numbers

/-! A credential that is refused when it is sent as its own JSON text. -/

/-- The sample credential with another number. -/
def plainVC (f : F64) : VC numeric :=
  ⟨["c".toList], ["t".toList], ⟨.num (.float f), trivial⟩, none, "urn:1".toList, "did:prople:x".toList⟩

theorem odd16_texts : canonicalText numeric (proofObject toyProof) =
      ("{\"created\":\"2024\",\"cryptosuite\":\"eddsa-jcs-2022\",\"id\":\"p1\",\"proofPurpose\":\"assertionMethod" ++
       "\",\"proofValue\":\"\",\"type\":\"DataIntegrityProof\",\"verificationMethod\":\"did:x#k\"}").toList ∧
    canonicalText numeric (vcObject (plainVC odd16)) = ("{\"@context\":[\"c\"],\"credentialSubject\":9007199254740991," ++
      "\"id\":\"urn:1\",\"issuer\":\"did:prople:x\",\"type\":[\"t\"]}").toList ∧
    canonicalText numeric (vcObject (plainVC even16)) = ("{\"@context\":[\"c\"],\"credentialSubject\":9007199254740990," ++
      "\"id\":\"urn:1\",\"issuer\":\"did:prople:x\",\"type\":[\"t\"]}").toList := by
  decide +kernel

theorem plainVC_complete (f : F64) : VCComplete (plainVC f) := ⟨by simp [plainVC], by simp [plainVC], by simp [plainVC]⟩

def oddMessage : Bytes :=
  [0x75, 0x3a, 0xf5, 0x1f, 0xd2, 0x04, 0x97, 0xc5, 0xef, 0x5b, 0xf7, 0x34, 0x85, 0xd7, 0xfe, 0x87,
   0x99, 0x16, 0xa8, 0x4e, 0x13, 0xe6, 0xc6, 0x47, 0xa2, 0x10, 0x03, 0x32, 0x27, 0xd5, 0x50, 0x50,
   0x69, 0x67, 0xd9, 0x20, 0xfc, 0x94, 0xda, 0x49, 0x55, 0xbe, 0xaf, 0x59, 0x60, 0xd7, 0x95, 0xc7,
   0x21, 0xc4, 0x37, 0x46, 0x7e, 0x78, 0xe9, 0xf3, 0x33, 0x24, 0xd1, 0xdf, 0x51, 0x46, 0xcc, 0x3a]

def evenMessage : Bytes :=
  [0x75, 0x3a, 0xf5, 0x1f, 0xd2, 0x04, 0x97, 0xc5, 0xef, 0x5b, 0xf7, 0x34, 0x85, 0xd7, 0xfe, 0x87,
   0x99, 0x16, 0xa8, 0x4e, 0x13, 0xe6, 0xc6, 0x47, 0xa2, 0x10, 0x03, 0x32, 0x27, 0xd5, 0x50, 0x50,
   0x77, 0x47, 0x17, 0xe2, 0xb4, 0x31, 0x02, 0xb3, 0xb5, 0x39, 0x4f, 0x4b, 0xfa, 0x9b, 0xcb, 0x1f,
   0x5c, 0x45, 0x1a, 0xbd, 0xd5, 0x9b, 0xb2, 0x54, 0x03, 0xb1, 0xee, 0xf7, 0x04, 0x63, 0xea, 0x04]

theorem odd_message : message numeric (optionBytes numeric toyProof) (vcBytes (plainVC odd16)) = oddMessage ∧
    message numeric (optionBytes numeric toyProof) (vcBytes (plainVC even16)) = evenMessage := by
  unfold message optionBytes vcBytes
  rw [odd16_texts.1, odd16_texts.2.1, odd16_texts.2.2]
  show Sha2.sha256 _ ++ Sha2.sha256 _ = _ ∧ Sha2.sha256 _ ++ Sha2.sha256 _ = _
  decide +kernel

/-- First half of the signature and public key. -/
def oddHead : Bytes :=
  [0x3f, 0x29, 0x4b, 0x61, 0x8a, 0x6f, 0x02, 0x1f, 0xff, 0x37, 0x3a, 0xcd, 0x05, 0x0e, 0x38, 0x7e,
   0x5c, 0xf2, 0xb2, 0x73, 0x58, 0x8f, 0xa2, 0x38, 0xce, 0xb6, 0x76, 0xa0, 0x63, 0xc6, 0x74, 0x70,
   0xd7, 0x5a, 0x98, 0x01, 0x82, 0xb1, 0x0a, 0xb7, 0xd5, 0x4b, 0xfe, 0xd3, 0xc9, 0x64, 0x07, 0x3a,
   0x0e, 0xe1, 0x72, 0xf3, 0xda, 0xa6, 0x23, 0x25, 0xaf, 0x02, 0x1a, 0x68, 0xf7, 0x07, 0x51, 0x1a]

theorem odd_head : (Ed25519.sign Ed25519.secret1 oddMessage).take 32 ++ publicKey Ed25519.secret1 = oddHead := by
  decide +kernel

theorem odd_challenges : ¬ Blake3.leVal (Sha2.sha512 (oddHead ++ oddMessage)) ≡ Blake3.leVal (Sha2.sha512 (oddHead ++ evenMessage))
    [MOD 2 ^ 252 + 27742317777372353535851937790883648493] := by
  unfold Nat.ModEq
  decide +kernel

theorem odd_survives : ¬ Survives numeric (plainVC odd16).credentialSubject.1 := by
  intro h
  have h1 := h odd16 (by simp [plainVC, Json.nums])
  have h2 : numeric.floatParse (numeric.floatPrint odd16) = some even16 := (numeric_read _).trans odd16_read
  rw [h1] at h2
  have h3 : odd16 = even16 := Option.some.inj h2
  exact absurd h3 (by decide)

theorem odd_reread {t : JSONValue} {signed : VC numeric} {p : Proof} (hs : signed = { plainVC odd16 with proof := some p })
    (ht : signed.toJson = .ok t) : VC.parseJsonBytes numeric (utf8 t.text) = .ok { plainVC even16 with proof := some p } := by
  subst hs
  obtain ⟨t', h1, h2⟩ := C26_reread numeric_laws.2.2.2.2.2.1 { plainVC odd16 with proof := some p } (by exact plainVC_complete _)
    (fun _ => even16) (fun f hf => by
      simp only [plainVC, Json.nums, List.mem_singleton] at hf
      cases Num.float.inj hf
      exact (numeric_read _).trans odd16_read) (by simp [plainVC, Json.depth])
  rw [ht] at h1
  cases h1
  rw [utf8_eq]
  exact h2

/-- `C80_relay_vc` at work: `plainVC odd16` is signed, but what is read from its JSON text is `plainVC even16`, and it is not
accepted. -/
example : ∃ signed t, sign numeric (VC numeric) Ed25519.secret1 (plainVC odd16) toyProof = .ok signed ∧ signed.toJson = .ok t ∧
    ∀ r, verify numeric (VC numeric) (numeric.edPub Ed25519.secret1) (utf8 t.text) .assertionMethod = .ok r →
      r.verified = false := by
  have L := numeric_laws.2.2.2.2.2.2
  obtain ⟨text, htext⟩ : ∃ text, IsMultibase58 (numeric.edSign Ed25519.secret1 (message numeric (optionBytes numeric toyProof)
      (vcBytes (plainVC odd16)))) text := ⟨_, multibaseEncode58_spec _⟩
  have hs := ((C32_vc L Ed25519.secret1 (plainVC odd16) toyProof).1 _).mpr
    ⟨numeric_options, by decide, plainVC_complete _, text, htext, rfl⟩
  refine ⟨_, _, hs, C49_vc_text numeric_laws.2.2.2.2.2.1 _ (by exact plainVC_complete _), fun r hr => ?_⟩
  by_contra hok
  rw [Bool.not_eq_false] at hok
  have ht := C49_vc_text numeric_laws.2.2.2.2.2.1 ({ plainVC odd16 with proof := some { toyProof with proofValue := text } } : VC numeric)
    (by exact plainVC_complete _)
  rcases C80_relay_vc numeric_doubles rfl numeric_keys numeric_laws.1 Ed25519.secret1 (plainVC odd16) toyProof _ _ hs ht
    (by simp [plainVC, Json.depth]) _ r hr hok with h | ⟨w, hw, h⟩
  · exact odd_survives h
  · rw [odd_reread rfl ht] at hw
    cases hw
    have e1 : unvalued toyProof = toyProof := rfl
    have e2 : vcBytes (unsignedVC ({ plainVC even16 with proof := some { toyProof with proofValue := text } } : VC numeric)) =
      vcBytes (plainVC even16) := rfl
    rw [e1, e2] at h
    have e3 : (numeric.edSign Ed25519.secret1 (message numeric (optionBytes numeric toyProof) (vcBytes (plainVC odd16)))).take 32 ++
        numeric.edPubBytes (numeric.edPub Ed25519.secret1) = oddHead := by
      rw [odd_message.1]
      exact (congrArg₂ (fun a b => a.take 32 ++ b) (numeric_keys.sign Ed25519.secret1 _) (numeric_keys.pub Ed25519.secret1)).trans
        odd_head
    rw [e3] at h
    cases h with
    | options hne h => exact hne rfl
    | document hne h =>
      have h' : message numeric (optionBytes numeric toyProof) (vcBytes (plainVC odd16)) =
          message numeric (optionBytes numeric toyProof) (vcBytes (plainVC even16)) := by unfold message; rw [h]
      rw [odd_message.1, odd_message.2] at h'
      exact absurd h' (by decide)
    | challenge hlen hne h =>
      rw [odd_message.1, odd_message.2] at h
      exact odd_challenges h

end Verif.Props
