import Verif.Concrete.MultiaddrLaws
import Verif.Props.Chain

/-
C84: network addresses in DID URIs. `Params::parse_multiaddr` (core/src/did/query.rs:14-25) parses the text with the crate
multiaddr (`Verif/Concrete/Multiaddr.lean`).
-/

namespace Verif.Spec

/-- No segment is the name of a protocol that is not modelled. -/
def Covered (t : Str) : Prop := ∀ a n b, t = a ++ '/' :: n ++ b → '/' ∉ n → (b = [] ∨ b.head? = some '/') → n ∉ openNames

/-- Addresses are read by the crate; `parts` are the components `Multiaddr::iter` gives. Left open are the empty text and texts
that are refused or contain the name of a protocol that is not modelled. -/
structure CrateAddrs (E : Env) (parts : E.Multiaddr → List AddrPart) : Prop where
  reads : ∀ t ps, t ≠ [] → Multiaddr.parse t = some ps → ∃ m, E.parseMultiaddr t = .ok m ∧ parts m = ps
  refuses : ∀ t, t ≠ [] → Covered t → Multiaddr.parse t = none → ∃ e, E.parseMultiaddr t = .error e

/-- The host names in an address. -/
def hosts (ps : List AddrPart) : List Str := ps.filterMap fun p => match p.value with
  | .text s => some s
  | _ => none

end Verif.Spec

namespace Verif.Props
open Verif Spec

/-! ### The text -/

/-- C84: a text has one reading. -/
theorem C84_unique {ps ps' : List AddrPart} {t : Str} (h : IsAddress ps t) (h' : IsAddress ps' t) : ps = ps' := by
  rw [← Multiaddr.parse_iff] at h h'
  exact Option.some.inj (h.symm.trans h')

/-- C84: the texts that are read as an address, and as which; all others are refused. -/
theorem C84_addresses {E : Env} {parts : E.Multiaddr → List AddrPart} (C : CrateAddrs E parts) (t : Str) (ht : t ≠ []) (hl : Option Str) :
    (∀ ps, IsAddress ps t → ∃ m, Params.parseMultiaddr E ⟨some t, hl⟩ = .ok (some m) ∧ parts m = ps) ∧
    (Covered t → (¬ ∃ ps, IsAddress ps t) → ∃ e, Params.parseMultiaddr E ⟨some t, hl⟩ = .error (.generateMultiAddrError e)) := by
  obtain ⟨-, h1, h2⟩ := C48_parse_multiaddr E hl
  constructor
  · intro ps h
    obtain ⟨m, h3, h4⟩ := C.reads t ps ht ((Multiaddr.parse_iff t ps).mpr h)
    exact ⟨m, h1 t m h3, h4⟩
  · intro hc h
    cases hp : Multiaddr.parse t with
    | some ps => exact absurd ⟨ps, (Multiaddr.parse_iff t ps).mp hp⟩ h
    | none =>
      obtain ⟨e, he⟩ := C.refuses t ht hc hp
      exact ⟨e, h2 t e he⟩

/-- C84: addresses can be put one after the other. -/
theorem C84_append {ps qs : List AddrPart} {t u : Str} (h : IsAddress ps t) (h' : IsAddress qs u) : IsAddress (ps ++ qs) (t ++ u) := by
  induction h with
  | nil => exact h'
  | @flag p ps t hp _ ih => rw [List.append_assoc]; exact .flag hp ih
  | @value p v s ps t hv _ ih =>
    rw [List.append_assoc]
    exact .value hv ih

theorem parts_append : ∀ (n : Nat) (l : List Str) (ps : List AddrPart), l.length ≤ n → Multiaddr.parts l = some ps →
    ∀ m, Multiaddr.parts (l ++ m) = (Multiaddr.parts m).map (ps ++ ·) := by
  intro n
  induction n with
  | zero =>
    intro l ps hl h m
    cases l with
    | nil => cases h; simp
    | cons => simp at hl
  | succ n ih =>
    intro l ps hl h m
    cases l with
    | nil => cases h; simp
    | cons p l =>
      unfold Multiaddr.parts at h
      rw [List.cons_append]
      conv_lhs => unfold Multiaddr.parts
      split_ifs at h ⊢ with hf
      · obtain ⟨ps', h1, rfl⟩ := Option.map_eq_some_iff.mp h
        rw [ih l ps' (by simpa using hl) h1 m, Option.map_map]
        rfl
      · cases l with
        | nil => cases h
        | cons s l =>
          simp only [Option.bind_eq_bind, Option.bind_eq_some_iff, Option.pure_def, Option.some.injEq] at h
          obtain ⟨v, h1, ps', h2, rfl⟩ := h
          simp only [List.cons_append, h1, Option.bind_eq_bind, Option.bind_some]
          rw [ih l ps' (by simp at hl; omega) h2 m]
          cases Multiaddr.parts m <;> rfl

theorem split_append (a b : Str) : splitOn '/' (a ++ '/' :: b) = splitOn '/' a ++ splitOn '/' b := by
  induction a with
  | nil => exact Multiaddr.split_slash b
  | cons c a ih =>
    rw [List.cons_append, splitOn, splitOn]
    split_ifs with h
    · rw [ih]; rfl
    · rw [ih]
      cases ha : splitOn '/' a with
      | nil => exact absurd ha (splitOn_ne_nil _ _)
      | cons x y => rfl

/-- C84: after an address nothing is allowed but an address: no slash at the end, no name of another protocol, no name
that lacks its value. -/
theorem C84_refused {ps : List AddrPart} {t : Str} (h : IsAddress ps t) :
    (¬ ∃ qs, IsAddress qs (t ++ "/".toList)) ∧
    (∀ p rest, '/' ∉ p → p ∉ flagNames → p ∉ "ip4".toList :: "ip6".toList :: "memory".toList :: "p2p".toList :: portNames ++ hostNames →
      (rest = [] ∨ rest.head? = some '/') → ¬ ∃ qs, IsAddress qs (t ++ '/' :: p ++ rest)) ∧
    (∀ p, '/' ∉ p → p ∉ flagNames → ¬ ∃ qs, IsAddress qs (t ++ '/' :: p)) ∧
    ∀ c rest, c ≠ '/' → ¬ ∃ qs, IsAddress qs (c :: rest) := by
  obtain ⟨l, h1, h2⟩ := Multiaddr.parts_app h
  have key : ∀ (p : Str) (m : List Str) (u : Str), splitOn '/' u = p :: m → Multiaddr.parts (p :: m) = none →
      ¬ ∃ qs, IsAddress qs (t ++ '/' :: u) := by
    rintro p m u hu hm ⟨qs, hq⟩
    rw [← Multiaddr.parse_iff] at hq
    unfold Multiaddr.parse at hq
    rw [split_append, h1, hu, List.cons_append] at hq
    simp only at hq
    rw [parts_append _ l ps (Nat.le_refl _) h2 (p :: m), hm] at hq
    cases hq
  have hvalue : ∀ (p s : Str), p ∉ "ip4".toList :: "ip6".toList :: "memory".toList :: "p2p".toList :: portNames ++ hostNames →
      Multiaddr.value p s = none := by
    intro p s hp
    simp only [List.cons_append, List.mem_cons, List.mem_append, not_or] at hp
    obtain ⟨a, b, c, f, d, e⟩ := hp
    unfold Multiaddr.value
    rw [if_neg a, if_neg b, if_neg (by exact d), if_neg c, if_neg f, if_neg (by exact e)]
  refine ⟨key [] [] [] rfl rfl, fun p rest hp hf hv hr => ?_, fun p hp hf => ?_, ?_⟩
  · have hs : ∃ m, splitOn '/' (p ++ rest) = p :: m := by
      rcases hr with rfl | hr
      · exact ⟨[], by rw [List.append_nil]; exact splitOn_of_not_mem hp⟩
      · cases rest with
        | nil => cases hr
        | cons c rest =>
          cases hr
          exact ⟨_, splitOn_append_sep hp rest⟩
    obtain ⟨m, hm⟩ := hs
    rw [List.append_assoc]
    refine key p m (p ++ rest) hm ?_
    unfold Multiaddr.parts
    rw [if_neg (by exact hf)]
    cases m with
    | nil => rfl
    | cons s m => simp only [hvalue p s hv, Option.bind_eq_bind, Option.bind_none]
  · refine key p [] p (splitOn_of_not_mem hp) ?_
    unfold Multiaddr.parts
    rw [if_neg (by exact hf)]
  · rintro c rest hc ⟨qs, hq⟩
    generalize e : c :: rest = t at hq
    cases hq with
    | nil => cases e
    | flag => cases e; exact hc rfl
    | value => cases e; exact hc rfl

/-! ### Spellings -/

theorem octet_unique {n : Nat} {d d' : Str} (h : Octet n d) (h' : Octet n d') : d = d' := by
  have inj : ∀ {a b : Char}, (48 ≤ a.toNat ∧ a.toNat ≤ 57) → (48 ≤ b.toNat ∧ b.toNat ≤ 57) → a.toNat - 48 = b.toNat - 48 → a = b := by
    intro a b ha hb e
    exact (Chrono.char_eq a b).mpr (by omega)
  have key : ∀ {d : Str}, Octet n d → d.head? ≠ some '0' → Nat.digits 10 n = d.reverse.map fun c => c.toNat - 48 := by
    intro d h hz
    rw [h.1.value]
    refine Nat.digits_ofDigits 10 (by omega) _ (fun x hx => ?_) (fun hne => ?_)
    · obtain ⟨c, hc, rfl⟩ := List.mem_map.mp hx
      have := h.1.digits c (List.mem_reverse.mp hc)
      omega
    · cases d with
      | nil => exact absurd rfl h.1.some
      | cons c d =>
        simp only [List.reverse_cons, List.map_append, List.map_cons, List.map_nil, List.getLast_append_singleton]
        intro e
        have := h.1.digits c (List.mem_cons_self ..)
        exact hz (by rw [(Chrono.char_eq c '0').mpr (by have : '0'.toNat = 48 := rfl; omega)]; rfl)
  have zero : ∀ {d : Str}, Octet n d → n = 0 → d = "0".toList := by
    intro d h hn
    by_contra hd
    have := key h (fun hz => hd (h.2.2 hz))
    rw [hn, Nat.digits_zero] at this
    exact h.1.some (List.reverse_eq_nil_iff.mp (List.map_eq_nil_iff.mp this.symm))
  by_cases hn : n = 0
  · rw [zero h hn, zero h' hn]
  · have nz : ∀ {d : Str}, Octet n d → d.head? ≠ some '0' := by
      intro d h hz
      have := h.2.2 hz
      have hv := h.1.value
      rw [this] at hv
      exact hn hv
    have e := (key h (nz h)).symm.trans (key h' (nz h'))
    refine List.reverse_injective ?_
    have gen : ∀ (x y : Str), (∀ c ∈ x, 48 ≤ c.toNat ∧ c.toNat ≤ 57) → (∀ c ∈ y, 48 ≤ c.toNat ∧ c.toNat ≤ 57) →
        x.map (fun c => c.toNat - 48) = y.map (fun c => c.toNat - 48) → x = y := by
      intro x
      induction x with
      | nil => intro y _ _ e; exact (List.map_eq_nil_iff.mp e.symm).symm
      | cons a x ih =>
        intro y hx hy e
        cases y with
        | nil => cases e
        | cons b y =>
          simp only [List.map_cons, List.cons.injEq] at e
          rw [inj (hx a (by simp)) (hy b (by simp)) e.1, ih y (fun c hc => hx c (by simp [hc])) (fun c hc => hy c (by simp [hc])) e.2]
    exact gen _ _ (fun c hc => h.1.digits c (List.mem_reverse.mp hc)) (fun c hc => h'.1.digits c (List.mem_reverse.mp hc)) e

theorem numeral_exists (n : Nat) : ∃ d, Numeral d.length n d := by
  by_cases hn : n = 0
  · exact ⟨"0".toList, by simp, Nat.le_refl _, by intro c hc; simp at hc; subst hc; decide, hn⟩
  · refine ⟨(Nat.digits 10 n).reverse.map fun x => Char.ofNat (48 + x), ?_, Nat.le_refl _, ?_, ?_⟩
    · intro h
      exact Nat.digits_ne_nil_iff_ne_zero.mpr hn (List.reverse_eq_nil_iff.mp (List.map_eq_nil_iff.mp h))
    · intro c hc
      obtain ⟨x, hx, rfl⟩ := List.mem_map.mp hc
      have hx := Nat.digits_lt_base (by omega) (List.mem_reverse.mp hx)
      interval_cases x <;> decide
    · rw [← List.map_reverse, List.reverse_reverse, List.map_map]
      conv_lhs => rw [← Nat.ofDigits_digits 10 n]
      congr 1
      conv_lhs => rw [← List.map_id (Nat.digits 10 n)]
      refine List.map_congr_left fun x hx => ?_
      have hx := Nat.digits_lt_base (by omega) hx
      interval_cases x <;> decide

theorem numeral_zeros {n : Nat} {d : Str} (h : Numeral d.length n d) (k : Nat) :
    Numeral (List.replicate k '0' ++ d).length n (List.replicate k '0' ++ d) := by
  induction k with
  | zero => exact h
  | succ k ih =>
    rw [List.replicate_succ, List.cons_append]
    refine ⟨by simp, Nat.le_refl _, fun c hc => ?_, ?_⟩
    · rcases List.mem_cons.mp hc with rfl | hc
      · decide
      · exact ih.digits c hc
    · rw [List.reverse_cons, List.map_append, Nat.ofDigits_append, ← ih.value]
      simp

/-- C84: an IPv4 address has one text, and so has a peer; a port has infinitely many. -/
theorem C84_spellings :
    (∀ a b c d t t', IsAddress [⟨"ip4".toList, .ip4 a b c d⟩] t → IsAddress [⟨"ip4".toList, .ip4 a b c d⟩] t' → t = t') ∧
    (∀ b t t', IsAddress [⟨"p2p".toList, .peer b⟩] t → IsAddress [⟨"p2p".toList, .peer b⟩] t' → t = t') ∧
    ∀ p ∈ portNames, ∀ n < 65536, {t | IsAddress [⟨p, .number n⟩] t}.Infinite := by
  refine ⟨?_, ?_, ?_⟩
  · have key : ∀ a b c d t, IsAddress [⟨"ip4".toList, .ip4 a b c d⟩] t → ∃ s, t = "/ip4/".toList ++ s ∧ IsIp4 a b c d s := by
      intro a b c d t h
      cases h with
      | @value p v s ps t hv ht =>
        cases ht
        cases hv with
        | ip4 h => exact ⟨s, by simp, h⟩
    intro a b c d t t' h h'
    obtain ⟨s, rfl, a', b', c', d', rfl, o1, o2, o3, o4⟩ := key a b c d t h
    obtain ⟨s', rfl, a'', b'', c'', d'', rfl, o1', o2', o3', o4'⟩ := key a b c d t' h'
    rw [octet_unique o1 o1', octet_unique o2 o2', octet_unique o3 o3', octet_unique o4 o4']
  · have key : ∀ b t, IsAddress [⟨"p2p".toList, .peer b⟩] t → t = "/p2p/".toList ++ base58Encode b := by
      intro b t h
      cases h with
      | @value p v s ps t hv ht =>
        cases ht
        cases hv with
        | peer _ h =>
          rw [h.unique]
          simp
    intro b t t' h h'
    rw [key b t h, key b t' h']
  · intro p hp n hn
    obtain ⟨d, hd⟩ := numeral_exists n
    refine Set.infinite_of_injective_forall_mem (f := fun k => '/' :: p ++ '/' :: (List.replicate k '0' ++ d) ++ []) ?_ ?_
    · intro k k' e
      have := congrArg List.length e
      simp only [List.length_append, List.length_cons, List.length_replicate, List.length_nil] at this
      omega
    · intro k
      exact .value (.port hp ⟨_, .inl rfl, numeral_zeros hd k, hn⟩) .nil

/-! ### In a URI -/

theorem address_clean {ps : List AddrPart} {t : Str} (h : IsAddress ps t) (k : Char) (hk : k ∈ "?&=".toList) :
    k ∉ t ↔ ∀ s ∈ hosts ps, k ∉ s := by
  have hk' : k ∈ "/?&=".toList := List.mem_cons_of_mem _ hk
  have hs : '/' ≠ k := by rintro rfl; revert hk; decide
  induction h with
  | nil => exact iff_of_true (fun h => nomatch h) (fun _ h => nomatch h)
  | @flag p ps t hp _ ih =>
    have h1 := Multiaddr.names_clean.2.1 p hp k hk'
    rw [show hosts (⟨p, .none⟩ :: ps) = hosts ps from rfl]
    refine Iff.trans ?_ ih
    simp only [List.cons_append, List.mem_cons, List.mem_append, not_or]
    exact ⟨fun h => h.2.2, fun h => ⟨hs.symm, h1, h⟩⟩
  | @value p v s ps t hv _ ih =>
    have h1 := Multiaddr.names_clean.1 p (Multiaddr.value_name hv) k hk'
    have e : (k ∉ '/' :: p ++ '/' :: s ++ t) ↔ k ∉ s ∧ k ∉ t := by
      simp only [List.cons_append, List.append_assoc, List.mem_cons, List.mem_append, not_or]
      exact ⟨fun h => h.2.2.2, fun h => ⟨hs.symm, h1, hs.symm, h⟩⟩
    rw [e]
    refine (and_congr_right fun _ => ih).trans ?_
    rcases Multiaddr.plain_value hv with rfl | hpl
    · rw [show hosts (⟨p, .text s⟩ :: ps) = s :: hosts ps from rfl, List.forall_mem_cons]
    · have hn : k ∉ s := fun hm => Multiaddr.plain_ne (hpl k hm) hk' rfl
      cases hv with
      | host hp h =>
        rw [show hosts (⟨p, .text s⟩ :: ps) = s :: hosts ps from rfl, List.forall_mem_cons]
      | _ => exact ⟨fun h => h.2, fun h => ⟨hn, h⟩⟩

/-- C84: the address of a URI comes back, with its components, iff no host name in it contains `?`, `&` or `=`. In particular
every address without host names does. -/
theorem C84_uri {E : Env} {parts : E.Multiaddr → List AddrPart} (C : CrateAddrs E parts) (d : DID E) (i : Identity E)
    (hi : d.identity = .ok i) (ps : List AddrPart) (t : Str) (ht : t ≠ []) (h : IsAddress ps t) (link : Option Str) (hlink : Clean link) :
    ∃ uri m, d.buildUri (some ⟨some t, link⟩) = .ok uri ∧
      (DID.parseUri uri = some (.ok (i.value, ⟨some t, link⟩)) ↔ ∀ s ∈ hosts ps, '?' ∉ s ∧ '&' ∉ s ∧ '=' ∉ s) ∧
      Params.parseMultiaddr E ⟨some t, link⟩ = .ok (some m) ∧ parts m = ps ∧
      (hosts ps = [] → DID.parseUri uri = some (.ok (i.value, ⟨some t, link⟩))) := by
  obtain ⟨uri, hu⟩ := C07_builds d ⟨some t, link⟩ (.inl (by simp))
  obtain ⟨m, hm, hp⟩ := (C84_addresses C t ht link).1 ps h
  have e : DID.parseUri uri = some (.ok (i.value, ⟨some t, link⟩)) ↔ ∀ s ∈ hosts ps, '?' ∉ s ∧ '&' ∉ s ∧ '=' ∉ s := by
    rw [C07_uri_roundtrip d i hi _ uri hu]
    have h1 := address_clean h '?' (by decide)
    have h2 := address_clean h '&' (by decide)
    have h3 := address_clean h '=' (by decide)
    constructor
    · intro hc s hs
      obtain ⟨a, b, c⟩ := hc.1 t rfl
      exact ⟨h1.mp a s hs, h2.mp b s hs, h3.mp c s hs⟩
    · intro hc
      refine ⟨fun t' ht' => ?_, hlink⟩
      cases ht'
      exact ⟨h1.mpr fun s hs => (hc s hs).1, h2.mpr fun s hs => (hc s hs).2.1, h3.mpr fun s hs => (hc s hs).2.2⟩
  exact ⟨uri, m, hu, e, hm, hp, fun h0 => e.mpr fun s hs => by rw [h0] at hs; cases hs⟩

/-- C84: a host name can carry a hashlink into the URI: the address of `dns4` with the name `host&hl=link` gives the same URI as
the address with the name `host` together with the hashlink `link`, and is read as that. -/
theorem C84_injected {E : Env} (d : DID E) (i : Identity E) (hi : d.identity = .ok i) (ps : List AddrPart) (t host link : Str)
    (h : IsAddress ps t) (hps : hosts ps = []) (h1 : '/' ∉ host ∧ '/' ∉ link) (h2 : Clean (some host)) (h3 : Clean (some link)) :
    IsAddress (ps ++ [⟨"dns4".toList, .text (host ++ "&hl=".toList ++ link)⟩]) (t ++ "/dns4/".toList ++ host ++ "&hl=".toList ++ link) ∧
    IsAddress (ps ++ [⟨"dns4".toList, .text host⟩]) (t ++ "/dns4/".toList ++ host) ∧
    ∃ uri, d.buildUri (some ⟨some (t ++ "/dns4/".toList ++ host ++ "&hl=".toList ++ link), none⟩) = .ok uri ∧
      d.buildUri (some ⟨some (t ++ "/dns4/".toList ++ host), some link⟩) = .ok uri ∧
      DID.parseUri uri = some (.ok (i.value, ⟨some (t ++ "/dns4/".toList ++ host), some link⟩)) := by
  have hd : "dns4".toList ∈ hostNames := by decide
  have a1 : IsAddress (ps ++ [⟨"dns4".toList, .text (host ++ "&hl=".toList ++ link)⟩])
      (t ++ "/dns4/".toList ++ host ++ "&hl=".toList ++ link) := by
    have := C84_append h (.value (.host hd (s := host ++ "&hl=".toList ++ link) (by simp [h1.1, h1.2])) .nil)
    simpa using this
  have a2 : IsAddress (ps ++ [⟨"dns4".toList, .text host⟩]) (t ++ "/dns4/".toList ++ host) := by
    have := C84_append h (.value (.host hd (s := host) h1.1) .nil)
    simpa using this
  refine ⟨a1, a2, ?_⟩
  obtain ⟨i', hi', -, -, b1, -, b2⟩ := C10_build_uri d
  have hu := b2 (t ++ "/dns4/".toList ++ host) link
  refine ⟨_, ?_, hu, ?_⟩
  · rw [b1]
    simp only [List.append_assoc]
  · refine (C07_uri_roundtrip d i hi _ _ hu).mpr ⟨fun x hx => ?_, h3⟩
    cases hx
    have hh : hosts (ps ++ [⟨"dns4".toList, .text host⟩]) = [host] := by
      unfold hosts at hps ⊢
      rw [List.filterMap_append, hps]
      rfl
    obtain ⟨c1, c2, c3⟩ := h2 host rfl
    have key : ∀ k ∈ "?&=".toList, k ∉ host → k ∉ t ++ "/dns4/".toList ++ host := by
      intro k hk hkh
      exact (address_clean a2 k hk).mpr (by rw [hh]; intro s hs; rw [List.mem_singleton.mp hs]; exact hkh)
    exact ⟨key _ (by decide) c1, key _ (by decide) c2, key _ (by decide) c3⟩

/-! ### A world -/

/-- An environment with the addresses of the crate. -/
@[reducible] def addressed (E : Env) : Env :=
  { E with
    Multiaddr := List AddrPart
    parseMultiaddr := fun t => match Multiaddr.parse t with
      | some ps => .ok ps
      | none => .error "invalid multiaddr".toList }

theorem addressed_crate (E : Env) : CrateAddrs (addressed E) id := by
  constructor
  · intro t ps _ h
    refine ⟨ps, ?_, rfl⟩
    show (match Multiaddr.parse t with | some ps => (.ok ps : Except Str (List AddrPart)) | none => _) = _
    rw [h]
  · intro t _ _ h
    refine ⟨"invalid multiaddr".toList, ?_⟩
    show (match Multiaddr.parse t with | some ps => (.ok ps : Except Str (List AddrPart)) | none => _) = _
    rw [h]

theorem covered_of {t : Str} (h : ∀ s ∈ splitOn '/' t, s ∉ openNames) : Covered t := by
  intro a n b e hn hb
  refine h n ?_
  rw [e, List.append_assoc, List.cons_append, split_append]
  refine List.mem_append_right _ ?_
  rcases hb with rfl | hb
  · rw [List.append_nil, splitOn_of_not_mem hn]; simp
  · cases b with
    | nil => cases hb
    | cons c b =>
      cases hb
      rw [splitOn_append_sep hn]
      simp

/-- test_parse_valid_multiaddr and test_parse_invalid_multiaddr, core/src/did/query.rs:85-106, with the components; the
hypotheses of `C84_addresses`. -/
example : Params.parseMultiaddr (addressed Toy.env) { address := some "/ip4/127.0.0.1/tcp/1234".toList } =
      .ok (some ([⟨"ip4".toList, .ip4 127 0 0 1⟩, ⟨"tcp".toList, .number 1234⟩] : List AddrPart)) ∧
    (∃ e, Params.parseMultiaddr (addressed Toy.env) { address := some "invalid".toList } = .error (.generateMultiAddrError e)) ∧
    Covered "invalid".toList ∧ ¬ ∃ ps, IsAddress ps "invalid".toList := by
  refine ⟨?_, ?_⟩
  · obtain ⟨m, h1, h2⟩ := (C84_addresses (addressed_crate Toy.env) "/ip4/127.0.0.1/tcp/1234".toList (by decide) none).1
      [⟨"ip4".toList, .ip4 127 0 0 1⟩, ⟨"tcp".toList, .number 1234⟩] ((Multiaddr.parse_iff _ _).mp (by decide +kernel))
    have h2 : m = [⟨"ip4".toList, .ip4 127 0 0 1⟩, ⟨"tcp".toList, .number 1234⟩] := h2
    rw [h1, h2]
  · have h1 : Covered "invalid".toList := covered_of (by decide +kernel)
    have h2 : ¬ ∃ ps, IsAddress ps "invalid".toList := (C84_refused .nil).2.2.2 'i' "nvalid".toList (by decide)
    exact ⟨(C84_addresses (addressed_crate Toy.env) _ (by decide) none).2 h1 h2, h1, h2⟩

/-- `C84_refused`: a slash at the end, an unknown protocol, a missing port, no slash at the start. -/
example : (¬ ∃ ps, IsAddress ps "/tcp/80/".toList) ∧ (¬ ∃ ps, IsAddress ps "/tcp/80/smtp/25".toList) ∧
    (¬ ∃ ps, IsAddress ps "/tcp/80/udp".toList) ∧ ¬ ∃ ps, IsAddress ps "tcp/80".toList := by
  have h : IsAddress [⟨"tcp".toList, .number 80⟩] "/tcp/80".toList := (Multiaddr.parse_iff _ _).mp (by decide +kernel)
  obtain ⟨h1, h2, h3, h4⟩ := C84_refused h
  exact ⟨h1, h2 "smtp".toList "/25".toList (by decide) (by decide) (by decide) (.inr rfl), h3 "udp".toList (by decide) (by decide),
    h4 't' "cp/80".toList (by decide)⟩

/-- `C84_addresses`, `C84_spellings`: an address of the kind libp2p uses, with a peer. -/
example : ∃ b, IsAddress [⟨"ip4".toList, .ip4 7 7 7 7⟩, ⟨"tcp".toList, .number 4242⟩, ⟨"p2p".toList, .peer b⟩]
    "/ip4/7.7.7.7/tcp/4242/p2p/QmYyQSo1c1Ym7orWxLYvCrM2EmxFTANf8wXmmE7DWjhx5N".toList ∧ b.length = 34 := by
  refine ⟨(base58Decode "QmYyQSo1c1Ym7orWxLYvCrM2EmxFTANf8wXmmE7DWjhx5N".toList).getD [], ?_, by decide +kernel⟩
  exact (Multiaddr.parse_iff _ _).mp (by decide +kernel)

/-- `C84_spellings`: three texts of one port. -/
example : IsAddress [⟨"tcp".toList, .number 80⟩] "/tcp/80".toList ∧ IsAddress [⟨"tcp".toList, .number 80⟩] "/tcp/0080".toList ∧
    IsAddress [⟨"tcp".toList, .number 80⟩] "/tcp/+80".toList :=
  ⟨(Multiaddr.parse_iff _ _).mp (by decide +kernel), (Multiaddr.parse_iff _ _).mp (by decide +kernel),
    (Multiaddr.parse_iff _ _).mp (by decide +kernel)⟩

/-- `C84_unique`, `C84_append`, `C84_uri`: an IPv6 address, and a relayed one. -/
example (d : DID (addressed Toy.env)) (i : Identity (addressed Toy.env)) (hi : d.identity = .ok i) : ∃ uri,
    d.buildUri (some ⟨some "/ip6/2001:db8::1/udp/443/quic-v1/p2p-circuit/ip4/10.0.0.1/tcp/80".toList, some "zQm".toList⟩) = .ok uri ∧
    DID.parseUri uri = some (.ok (i.value,
      ⟨some "/ip6/2001:db8::1/udp/443/quic-v1/p2p-circuit/ip4/10.0.0.1/tcp/80".toList, some "zQm".toList⟩)) := by
  have h1 : IsAddress [⟨"ip6".toList, .ip6 [0x2001, 0xdb8, 0, 0, 0, 0, 0, 1]⟩, ⟨"udp".toList, .number 443⟩, ⟨"quic-v1".toList, .none⟩,
    ⟨"p2p-circuit".toList, .none⟩] "/ip6/2001:db8::1/udp/443/quic-v1/p2p-circuit".toList := (Multiaddr.parse_iff _ _).mp (by decide +kernel)
  have h2 : IsAddress [⟨"ip4".toList, .ip4 10 0 0 1⟩, ⟨"tcp".toList, .number 80⟩] "/ip4/10.0.0.1/tcp/80".toList :=
    (Multiaddr.parse_iff _ _).mp (by decide +kernel)
  obtain ⟨uri, m, h3, -, -, -, h4⟩ := C84_uri (addressed_crate Toy.env) d i hi _ _ (by simp) (C84_append h1 h2) (some "zQm".toList)
    (by intro t h; cases h; decide)
  exact ⟨uri, h3, h4 rfl⟩

/-- `C84_injected` -/
example (d : DID Toy.env) (i : Identity Toy.env) (hi : d.identity = .ok i) : ∃ uri,
    d.buildUri (some ⟨some "/dns4/example.com&hl=zQm".toList, none⟩) = .ok uri ∧
    DID.parseUri uri = some (.ok (i.value, ⟨some "/dns4/example.com".toList, some "zQm".toList⟩)) := by
  obtain ⟨-, -, uri, h1, -, h2⟩ := C84_injected d i hi [] [] "example.com".toList "zQm".toList .nil rfl (by decide)
    (by intro t h; cases h; decide) (by intro t h; cases h; decide)
  exact ⟨uri, h1, h2⟩

end Verif.Props
