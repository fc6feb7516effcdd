import Verif.Concrete.Multiaddr
import Verif.Concrete.DatesLaws

/- The reader of network addresses and the texts it accepts. -/

namespace Verif.Multiaddr
open Spec
open Chrono (Stops char_le takeWhile_app dropWhile_app)

/-- The bounds in `digit` as numbers. -/
theorem bounds : '0'.toNat = 48 ∧ '9'.toNat = 57 ∧ 'a'.toNat = 97 ∧ 'f'.toNat = 102 ∧ 'A'.toNat = 65 ∧ 'F'.toNat = 70 := by decide

/-- A digit. -/
def isDigit (radix : Nat) (c : Char) : Bool := (digit radix c).isSome

theorem digit_ten (c : Char) : digit 10 c = if 48 ≤ c.toNat ∧ c.toNat ≤ 57 then some (c.toNat - 48) else none := by
  simp only [digit, Bool.and_eq_true, decide_eq_true_eq, char_le, bounds]
  split_ifs <;> first | rfl | omega

theorem digit_sixteen (c : Char) (h : HexChar c) : digit 16 c = some (hexValue c) := by
  unfold HexChar at h
  simp only [digit, hexValue, Bool.and_eq_true, decide_eq_true_eq, char_le, bounds]
  split_ifs <;> first | rfl | omega

theorem isDigit_ten (c : Char) : isDigit 10 c = true ↔ 48 ≤ c.toNat ∧ c.toNat ≤ 57 := by
  unfold isDigit
  rw [digit_ten]
  split_ifs <;> simp_all

theorem isDigit_sixteen (c : Char) : isDigit 16 c = true ↔ HexChar c := by
  constructor
  · intro h
    revert h
    simp only [isDigit, digit, HexChar, Bool.and_eq_true, decide_eq_true_eq, char_le, bounds]
    split_ifs <;> first | omega | simp
  · intro h
    rw [isDigit, digit_sixteen c h]
    rfl

/-- The value of digits. -/
def total (radix : Nat) (d : Str) : Nat := d.foldl (fun n c => n * radix + (digit radix c).getD 0) 0

theorem total_eq (radix : Nat) (d : Str) : total radix d = Nat.ofDigits radix (d.reverse.map fun c => (digit radix c).getD 0) := by
  unfold total
  induction d using List.reverseRecOn with
  | nil => rfl
  | append_singleton d c ih =>
    rw [List.foldl_append, List.reverse_append, List.map_append]
    simp only [List.foldl_cons, List.foldl_nil, List.reverse_cons, List.reverse_nil, List.nil_append, List.map_cons, List.map_nil,
      List.singleton_append, Nat.ofDigits_cons]
    rw [ih]
    simp only [Nat.mul_comm, Nat.add_comm]

theorem total_ten {d : Str} (h : Decimals d) : total 10 d = Nat.ofDigits 10 (d.reverse.map fun c => c.toNat - 48) := by
  rw [total_eq]
  congr 1
  refine List.map_congr_left fun c hc => ?_
  rw [digit_ten, if_pos (h c (List.mem_reverse.mp hc))]
  rfl

theorem total_sixteen {d : Str} (h : ∀ c ∈ d, HexChar c) : total 16 d = Nat.ofDigits 16 (d.reverse.map hexValue) := by
  rw [total_eq]
  congr 1
  refine List.map_congr_left fun c hc => ?_
  rw [digit_sixteen c (h c (List.mem_reverse.mp hc))]
  rfl

/-- What `number` takes. -/
structure Taken (radix max : Nat) (zeros : Bool) (n : Nat) (d : Str) : Prop where
  nonempty : d ≠ []
  short : d.length ≤ max
  digits : ∀ c ∈ d, isDigit radix c = true
  value : n = total radix d
  zero : zeros = false → d.head? = Option.some '0' → d.length ≤ 1

theorem number_split {radix max : Nat} {zeros : Bool} {s r : Str} {n : Nat} (h : number radix max zeros s = some (n, r)) :
    ∃ d, s = d ++ r ∧ Taken radix max zeros n d := by
  unfold number at h
  simp only at h
  split_ifs at h with hc
  simp only [Bool.or_eq_true, List.isEmpty_iff, decide_eq_true_eq, Bool.and_eq_true, Bool.not_eq_true', beq_iff_eq, not_or, not_and,
    not_lt] at hc
  cases h
  refine ⟨s.takeWhile fun c => (digit radix c).isSome, ?_, hc.1.1, hc.1.2, fun c hm => ?_, rfl, fun hz hh => hc.2 ⟨hz, hh⟩⟩
  · have := List.takeWhile_append_dropWhile (p := fun c => (digit radix c).isSome) (l := s)
    conv_lhs => rw [← this]
    congr 1
    conv_rhs => rw [← this]
    rw [List.drop_left']
    · rw [this]
  · exact List.mem_takeWhile_imp hm

theorem number_app {radix max : Nat} {zeros : Bool} {d r : Str} {n : Nat} (h : Taken radix max zeros n d) (hr : Stops (isDigit radix) r) :
    number radix max zeros (d ++ r) = some (n, r) := by
  unfold number
  have ht : (d ++ r).takeWhile (fun c => (digit radix c).isSome) = d := takeWhile_app h.digits hr
  simp only [ht]
  rw [if_neg, List.drop_left, h.value]
  · rfl
  · simp only [Bool.or_eq_true, List.isEmpty_iff, decide_eq_true_eq, Bool.and_eq_true, Bool.not_eq_true', beq_iff_eq, not_or, not_and, not_lt]
    exact ⟨⟨h.nonempty, h.short⟩, fun hz => h.zero hz.1 hz.2⟩

theorem number_none {radix max : Nat} {zeros : Bool} {r : Str} (hr : Stops (isDigit radix) r) : number radix max zeros r = none := by
  unfold number
  have ht : ([] ++ r).takeWhile (fun c => (digit radix c).isSome) = [] := takeWhile_app (fun _ h => nomatch h) hr
  simp only [List.nil_append] at ht
  simp only [ht]
  rfl

theorem octet_iff (n : Nat) (d : Str) : Octet n d ↔ Taken 10 3 false n d ∧ n < 256 := by
  constructor
  · rintro ⟨h1, h2, h3⟩
    refine ⟨⟨h1.some, h1.short, fun c hc => (isDigit_ten c).mpr (h1.digits c hc), ?_, fun _ h => ?_⟩, by omega⟩
    · rw [total_ten h1.digits]; exact h1.value
    · rw [h3 h]; decide
  · rintro ⟨h1, h2⟩
    have hd : Decimals d := fun c hc => (isDigit_ten c).mp (h1.digits c hc)
    refine ⟨⟨h1.nonempty, h1.short, hd, ?_⟩, by omega, fun h => ?_⟩
    · rw [← total_ten hd]; exact h1.value
    · have := h1.zero rfl h
      match d, h, this with
      | [c], h, _ => cases h; rfl

theorem octet_split {s r : Str} {n : Nat} (h : octet s = some (n, r)) : ∃ d, s = d ++ r ∧ Octet n d := by
  unfold octet at h
  cases hn : number 10 3 false s with
  | none => rw [hn] at h; cases h
  | some x =>
    obtain ⟨m, r'⟩ := x
    rw [hn] at h
    simp only at h
    split_ifs at h with hm
    cases h
    obtain ⟨d, h1, h2⟩ := number_split hn
    exact ⟨d, h1, (octet_iff _ _).mpr ⟨h2, hm⟩⟩

theorem octet_app {d r : Str} {n : Nat} (h : Octet n d) (hr : Stops (isDigit 10) r) : octet (d ++ r) = some (n, r) := by
  obtain ⟨h1, h2⟩ := (octet_iff _ _).mp h
  unfold octet
  rw [number_app h1 hr]
  exact if_pos h2

theorem given_split {c : Char} {s r : Str} (h : given c s = some r) : s = c :: r := by
  unfold given at h
  split at h
  · split_ifs at h with e
    cases h
    rw [e]
  · cases h

theorem given_app (c : Char) (r : Str) : given c (c :: r) = some r := if_pos rfl

theorem dot_stops (r : Str) : Stops (isDigit 10) ('.' :: r) := .cons (by decide)

theorem ip4_split {s r : Str} {a b c d : Nat} (h : ip4 s = some ((a, b, c, d), r)) : ∃ t, s = t ++ r ∧ IsIp4 a b c d t := by
  simp only [ip4, Option.bind_eq_bind, Option.bind_eq_some_iff, Prod.exists, Option.pure_def, Option.some.injEq, Prod.mk.injEq] at h
  obtain ⟨a', s1, h1, s2, h2, b', s3, h3, s4, h4, c', s5, h5, s6, h6, d', s7, h7, ⟨rfl, rfl, rfl, rfl⟩, rfl⟩ := h
  obtain ⟨t1, rfl, o1⟩ := octet_split h1
  cases given_split h2
  obtain ⟨t2, rfl, o2⟩ := octet_split h3
  cases given_split h4
  obtain ⟨t3, rfl, o3⟩ := octet_split h5
  cases given_split h6
  obtain ⟨t4, rfl, o4⟩ := octet_split h7
  exact ⟨_, by simp, t1, t2, t3, t4, rfl, o1, o2, o3, o4⟩

theorem ip4_app {t r : Str} {a b c d : Nat} (h : IsIp4 a b c d t) (hr : Stops (isDigit 10) r) : ip4 (t ++ r) = some ((a, b, c, d), r) := by
  obtain ⟨t1, t2, t3, t4, rfl, o1, o2, o3, o4⟩ := h
  simp only [List.append_assoc, List.cons_append]
  unfold ip4
  rw [octet_app o1 (dot_stops _)]
  simp only [Option.bind_eq_bind, Option.bind_some, given_app]
  rw [octet_app o2 (dot_stops _)]
  simp only [Option.bind_some, given_app]
  rw [octet_app o3 (dot_stops _)]
  simp only [Option.bind_some, given_app]
  rw [octet_app o4 hr]
  rfl

theorem group_iff (n : Nat) (s : Str) : HexGroup n s ↔ Taken 16 4 true n s := by
  constructor
  · intro h
    exact ⟨h.some, h.short, fun c hc => (isDigit_sixteen c).mpr (h.digits c hc), by rw [total_sixteen h.digits]; exact h.value,
      fun hz => nomatch hz⟩
  · intro h
    have hd : ∀ c ∈ s, HexChar c := fun c hc => (isDigit_sixteen c).mp (h.digits c hc)
    exact ⟨h.nonempty, h.short, hd, by rw [← total_sixteen hd]; exact h.value⟩

/-- The text with the colon that separates it from a group before. -/
def after (first : Bool) (t : Str) : Str := if first then t else ':' :: t

theorem separated_split {α : Type} {first : Bool} {f : Str → Option (α × Str)} {s r : Str} {x : α}
    (h : separated first f s = some (x, r)) : ∃ u, s = after first u ∧ f u = some (x, r) := by
  unfold separated at h
  cases first with
  | true => exact ⟨s, rfl, h⟩
  | false =>
    simp only [Bool.false_eq_true, if_false] at h
    obtain ⟨u, h1, h2⟩ := Option.bind_eq_some_iff.mp h
    exact ⟨u, given_split h1, h2⟩

theorem separated_app {α : Type} (first : Bool) (f : Str → Option (α × Str)) (u : Str) : separated first f (after first u) = f u := by
  cases first <;> simp [separated, after, given]

theorem after_append (first : Bool) (a b : Str) : after first (a ++ b) = after first a ++ b := by
  cases first <;> rfl

theorem groups_split : ∀ (n : Nat) (first : Bool) (s : Str) (gs : List Nat) (v4 : Bool) (r : Str), groups n first s = (gs, v4, r) →
    gs.length ≤ n ∧ ((gs = [] ∧ v4 = false ∧ r = s) ∨
      ∃ t, s = after first t ++ r ∧ Ending gs t ∧ (v4 = false → Groups gs t)) := by
  intro n
  induction n with
  | zero =>
    intro first s gs v4 r h
    cases h
    exact ⟨Nat.le_refl _, .inl ⟨rfl, rfl, rfl⟩⟩
  | succ n ih =>
    intro first s gs v4 r h
    unfold groups at h
    cases hq : (if 1 ≤ n then separated first ip4 s else none) with
    | some x =>
      obtain ⟨⟨a, b, c, d⟩, r'⟩ := x
      rw [hq] at h
      cases h
      split_ifs at hq with hn
      obtain ⟨u, rfl, hu⟩ := separated_split hq
      obtain ⟨t, rfl, ht⟩ := ip4_split hu
      exact ⟨by simp; omega, .inr ⟨t, after_append _ _ _, .quad ht, fun h => nomatch h⟩⟩
    | none =>
      rw [hq] at h
      simp only at h
      cases hg : separated first (number 16 4 true) s with
      | none =>
        rw [hg] at h
        cases h
        exact ⟨Nat.zero_le _, .inl ⟨rfl, rfl, rfl⟩⟩
      | some x =>
        obtain ⟨g, r'⟩ := x
        rw [hg] at h
        simp only at h
        obtain ⟨u, rfl, hu⟩ := separated_split hg
        obtain ⟨t, rfl, ht⟩ := number_split hu
        rw [← group_iff] at ht
        cases hr : groups n false r' with
        | mk gs' x =>
          obtain ⟨v4', r''⟩ := x
          rw [hr] at h
          cases h
          obtain ⟨hl, ⟨rfl, rfl, rfl⟩ | ⟨t', rfl, h1, h2⟩⟩ := ih _ _ _ _ _ hr
          · exact ⟨by simp, .inr ⟨t, after_append _ _ _, .one ht, fun _ => .one ht⟩⟩
          · refine ⟨by simp; omega, .inr ⟨t ++ ':' :: t', ?_, .more ht h1, fun h => .more ht (h2 h)⟩⟩
            cases first <;> simp [after]

/-- No group can be read on. -/
structure Blocked (r : Str) : Prop where
  digit : Stops (isDigit 16) r
  dot : Stops (· == '.') r
  quad : separated false ip4 r = none
  group : separated false (number 16 4 true) r = none

theorem blocked_nil : Blocked [] := ⟨.nil, .nil, rfl, rfl⟩

theorem octet_none {r : Str} (hr : Stops (isDigit 10) r) : octet r = none := by
  unfold octet
  rw [number_none hr]

theorem ip4_none {r : Str} (hr : Stops (isDigit 10) r) : ip4 r = none := by
  unfold ip4
  rw [octet_none hr]
  rfl

theorem blocked_colons (r : Str) : Blocked (':' :: ':' :: r) := by
  refine ⟨.cons (by decide), .cons rfl, ?_, ?_⟩
  · exact (separated_app false ip4 (':' :: r)).trans (ip4_none (.cons (by decide)))
  · exact (separated_app false _ (':' :: r)).trans (number_none (.cons (by decide)))

theorem stops_ten {r : Str} (h : Stops (isDigit 16) r) : Stops (isDigit 10) r := by
  intro c r' e
  have := h c r' e
  by_contra h'
  rw [Bool.not_eq_false, isDigit_ten] at h'
  rw [(isDigit_sixteen c).mpr (.inl h')] at this
  cases this

/-- A hexadecimal group without a dot behind is not read as an IPv4 address. -/
theorem ip4_group {n : Nat} {g r : Str} (h : HexGroup n g) (hr : Stops (isDigit 16) r) (hd : Stops (· == '.') r) : ip4 (g ++ r) = none := by
  cases hi : ip4 (g ++ r) with
  | none => rfl
  | some x =>
    obtain ⟨⟨a, b, c, d⟩, r'⟩ := x
    obtain ⟨t, ht, t1, t2, t3, t4, rfl, o1, -⟩ := ip4_split hi
    have e1 := takeWhile_app (fun c hc => (isDigit_sixteen c).mpr (h.digits c hc)) hr
    have e2 := dropWhile_app (fun c hc => (isDigit_sixteen c).mpr (h.digits c hc)) hr
    rw [ht] at e2
    simp only [List.append_assoc, List.cons_append] at e2
    rw [dropWhile_app (fun c hc => (isDigit_sixteen c).mpr (.inl (o1.1.digits c hc))) (.cons (by decide))] at e2
    have := hd _ _ e2.symm
    cases this

theorem groups_blocked (n : Nat) {r : Str} (h : Blocked r) : groups n false r = ([], false, r) := by
  cases n with
  | zero => rfl
  | succ n =>
    unfold groups
    rw [h.quad, h.group]
    simp

theorem groups_app {gs : List Nat} {t : Str} (h : Ending gs t) : ∀ (n : Nat) (first : Bool) (r : Str), gs.length ≤ n → Blocked r →
    ∃ v4, groups n first (after first t ++ r) = (gs, v4, r) ∧ (Groups gs t → v4 = false) := by
  induction h with
  | @one g s hg =>
    intro n first r hl hr
    obtain ⟨n, rfl⟩ : ∃ k, n = k + 1 := ⟨n - 1, by simp at hl; omega⟩
    refine ⟨false, ?_, fun _ => rfl⟩
    unfold groups
    rw [← after_append, separated_app, separated_app, ip4_group hg hr.digit hr.dot, ite_self, number_app ((group_iff _ _).mp hg) hr.digit]
    simp only
    rw [groups_blocked n hr]
  | @quad a b c d s hq =>
    intro n first r hl hr
    obtain ⟨n, rfl⟩ : ∃ k, n = k + 2 := ⟨n - 2, by simp at hl; omega⟩
    refine ⟨true, ?_, fun hg => ?_⟩
    · unfold groups
      rw [← after_append, separated_app, if_pos (by omega), ip4_app hq (stops_ten hr.digit)]
    · exfalso
      obtain ⟨t1, t2, t3, t4, e, -⟩ := hq
      have key : ∀ {gs : List Nat} {t : Str}, Groups gs t → '.' ∉ t := by
        intro gs t hg
        induction hg with
        | one h =>
          intro hm
          exact absurd (h.digits _ hm) (by unfold HexChar; decide)
        | more h _ ih =>
          intro hm
          rcases List.mem_append.mp hm with hm | hm
          · exact absurd (h.digits _ hm) (by unfold HexChar; decide)
          · rcases List.mem_cons.mp hm with hm | hm
            · exact absurd hm (by decide)
            · exact ih hm
      exact key hg (by rw [e]; simp)
  | @more g s gs t hg ht ih =>
    intro n first r hl hr
    obtain ⟨n, rfl⟩ : ∃ k, n = k + 1 := ⟨n - 1, by simp at hl; omega⟩
    obtain ⟨v4, h1, h2⟩ := ih n false r (by simp at hl; omega) hr
    refine ⟨v4, ?_, fun h => ?_⟩
    · unfold groups
      have e : after first (s ++ ':' :: t) ++ r = after first (s ++ (after false t ++ r)) := by
        rw [← after_append]; simp [after]
      rw [e, separated_app, separated_app, ip4_group hg (r := after false t ++ r) (.cons (by decide)) (.cons rfl), ite_self,
        number_app ((group_iff _ _).mp hg) (r := after false t ++ r) (.cons (by decide))]
      simp only
      rw [h1]
    · generalize hgs : g :: gs = l at h
      generalize hu : s ++ ':' :: t = u at h
      cases h with
      | one h =>
        rw [← hu] at h
        exact absurd (h.digits ':' (by simp)) (by unfold HexChar; decide)
      | @more n' s' gs' t' h h' =>
        have e1 := dropWhile_app (fun c hc => (isDigit_sixteen c).mpr (hg.digits c hc)) (x := ':' :: t) (.cons (by decide))
        have e2 := dropWhile_app (fun c hc => (isDigit_sixteen c).mpr (h.digits c hc)) (x := ':' :: t') (.cons (by decide))
        rw [hu, e2] at e1
        cases e1
        cases hgs
        exact h2 h'

theorem groups_ending {gs : List Nat} {t : Str} (h : Groups gs t) : Ending gs t := by
  induction h with
  | one h => exact .one h
  | more h _ ih => exact .more h ih

theorem groups_first {r : Str} (n : Nat) (hr : Stops (isDigit 16) r) : groups n true r = ([], false, r) := by
  cases n with
  | zero => rfl
  | succ n =>
    unfold groups
    simp only [separated, if_true, ip4_none (stops_ten hr), ite_self, number_none hr]

theorem ip6_iff (gs : List Nat) (s : Str) : ip6 s = some (gs, []) ↔ IsIp6 gs s := by
  constructor
  · intro h
    unfold ip6 at h
    cases hh : groups 8 true s with
    | mk hs x =>
      obtain ⟨v4, r⟩ := x
      rw [hh] at h
      simp only at h
      obtain ⟨hl, hcase⟩ := groups_split _ _ _ _ _ _ hh
      split_ifs at h with h8 hv
      · cases h
        rcases hcase with ⟨rfl, -⟩ | ⟨t, rfl, h1, -⟩
        · cases h8
        · exact ⟨h8, .inl (by simpa [after] using h1)⟩
      · split at h
        · rename_i r'
          cases ht : groups (7 - hs.length) true r' with
          | mk ts x =>
            obtain ⟨v4', r''⟩ := x
            rw [ht] at h
            simp only [Option.some.injEq, Prod.mk.injEq] at h
            obtain ⟨rfl, rfl⟩ := h
            obtain ⟨hl', hcase'⟩ := groups_split _ _ _ _ _ _ ht
            have hhead : ∃ head, s = head ++ "::".toList ++ r' ∧ ((hs = [] ∧ head = []) ∨ Groups hs head) := by
              rcases hcase with ⟨rfl, -, rfl⟩ | ⟨t, rfl, -, h2⟩
              · exact ⟨[], rfl, .inl ⟨rfl, rfl⟩⟩
              · exact ⟨t, by simp [after], .inr (h2 (by simpa using hv))⟩
            obtain ⟨head, rfl, hhead⟩ := hhead
            refine ⟨by simp; omega, .inr ⟨hs, ts, 8 - hs.length - ts.length - 1, head, r', rfl, ?_, hhead, ?_⟩⟩
            · congr 2
              congr 1
              omega
            · rcases hcase' with ⟨rfl, -, rfl⟩ | ⟨t, rfl, h1, -⟩
              · exact .inl ⟨rfl, rfl⟩
              · exact .inr (by simpa [after] using h1)
        · cases h
  · rintro ⟨h8, h | ⟨hs, ts, k, head, tail, rfl, rfl, hh, ht⟩⟩
    · obtain ⟨v4, h1, -⟩ := groups_app h 8 true [] (by omega) blocked_nil
      unfold ip6
      simp only [after, if_true, List.append_nil] at h1
      rw [h1]
      simp only [h8, if_true]
    · simp only [List.length_append, List.length_replicate] at h8
      have e1 : groups 8 true (head ++ "::".toList ++ tail) = (hs, false, ':' :: ':' :: tail) := by
        rcases hh with ⟨rfl, rfl⟩ | hh
        · exact groups_first 8 (.cons (by decide))
        · obtain ⟨v4, h1, h2⟩ := groups_app (groups_ending hh) 8 true (':' :: ':' :: tail) (by omega) (blocked_colons _)
          rw [h2 hh] at h1
          simpa [after] using h1
      have e2 : ∃ v4, groups (7 - hs.length) true tail = (ts, v4, []) := by
        rcases ht with ⟨rfl, rfl⟩ | ht
        · exact ⟨false, groups_first _ .nil⟩
        · obtain ⟨v4, h1, -⟩ := groups_app ht (7 - hs.length) true [] (by omega) blocked_nil
          exact ⟨v4, by simpa [after] using h1⟩
      obtain ⟨v4, e2⟩ := e2
      unfold ip6
      rw [e1]
      simp only
      rw [if_neg (by omega), if_neg (by decide), e2]
      simp only
      rw [show 8 - hs.length - ts.length = k + 1 by omega]

theorem ip4_iff (a b c d : Nat) (s : Str) : ip4 s = some ((a, b, c, d), []) ↔ IsIp4 a b c d s := by
  constructor
  · intro h
    obtain ⟨t, rfl, ht⟩ := ip4_split h
    rwa [List.append_nil]
  · intro h
    have := ip4_app h (r := []) .nil
    rwa [List.append_nil] at this

theorem unsigned_digits {limit n : Nat} {d : Str} : ((if d.isEmpty || !d.all (fun c => (digit 10 c).isSome) then none
      else if total 10 d < limit then some (total 10 d) else none) = some n) ↔ Numeral d.length n d ∧ n < limit := by
  constructor
  · intro h
    split_ifs at h with h1 h2
    cases h
    simp only [Bool.or_eq_true, List.isEmpty_iff, Bool.not_eq_true', not_or, Bool.not_eq_false, List.all_eq_true] at h1
    have hd : Decimals d := fun c hc => (isDigit_ten c).mp (h1.2 c hc)
    exact ⟨⟨h1.1, Nat.le_refl _, hd, total_ten hd⟩, h2⟩
  · rintro ⟨h1, h2⟩
    have e : total 10 d = n := (total_ten h1.digits).trans h1.value.symm
    rw [if_neg, e, if_pos h2]
    simp only [Bool.or_eq_true, List.isEmpty_iff, Bool.not_eq_true', not_or, Bool.not_eq_false, List.all_eq_true]
    exact ⟨h1.some, fun c hc => (isDigit_ten c).mpr (h1.digits c hc)⟩

theorem unsigned_iff (limit n : Nat) (s : Str) : unsigned limit s = some n ↔ LooseNumber limit n s := by
  unfold unsigned
  simp only
  rw [show ∀ d : Str, d.foldl (fun n c => n * 10 + (digit 10 c).getD 0) 0 = total 10 d from fun _ => rfl]
  constructor
  · intro h
    obtain ⟨h1, h2⟩ := unsigned_digits.mp h
    split at h1
    · exact ⟨_, .inr rfl, h1, h2⟩
    · exact ⟨_, .inl rfl, h1, h2⟩
  · rintro ⟨d, rfl | rfl, h1, h2⟩
    · refine unsigned_digits.mpr ?_
      split
      · exact absurd (h1.digits '+' (List.mem_cons_self ..)) (by decide)
      · exact ⟨h1, h2⟩
    · exact unsigned_digits.mpr ⟨h1, h2⟩

theorem varint_small (k n : Nat) (b r : Bytes) (hn : n < 128) : varint (k + 1) b = some (n, r) ↔ ∃ c, c.toNat = n ∧ b = c :: r := by
  cases b with
  | nil => exact iff_of_false (fun h => nomatch h) (fun ⟨_, _, h⟩ => nomatch h)
  | cons c b =>
    unfold varint
    split_ifs with hc
    · rw [Option.some.injEq, Prod.mk.injEq]
      constructor
      · rintro ⟨h, rfl⟩
        exact ⟨c, h, rfl⟩
      · rintro ⟨c', h, e⟩
        cases e
        exact ⟨h, rfl⟩
    · have hc : 128 ≤ c.toNat := by
        have := UInt8.lt_iff_toNat_lt.not.mp hc
        have e : (128 : UInt8).toNat = 128 := rfl
        omega
      refine iff_of_false (fun h => ?_) ?_
      · split at h
        · rename_i m r' _
          split_ifs at h with h0
          rw [Option.some.injEq, Prod.mk.injEq] at h
          omega
        · cases h
      · rintro ⟨c', h, e⟩
        cases e
        omega

theorem peer_iff (b b' : Bytes) : peer b = some b' ↔ b = b' ∧ IsPeer b := by
  unfold peer multihash
  constructor
  · intro h
    split at h
    · rename_i code d hm
      split_ifs at h with hc
      cases h
      refine ⟨rfl, ?_⟩
      simp only [Option.bind_eq_bind, Option.bind_eq_some_iff] at hm
      obtain ⟨⟨code', r⟩, h1, ⟨size, d'⟩, h2, h3⟩ := hm
      simp only at h2 h3
      split_ifs at h3 with h4
      cases h3
      have hcode : code < 128 := by rcases hc with hc | hc <;> omega
      obtain ⟨c, c1, rfl⟩ := (varint_small 9 _ _ _ hcode).mp h1
      obtain ⟨n, n1, rfl⟩ := (varint_small 9 _ _ _ (by omega)).mp h2
      refine ⟨n, d, by omega, ?_⟩
      rcases hc with hc | ⟨hc, hd⟩
      · exact .inl ⟨by rw [UInt8.toNat_inj.mp (c1.trans (hc.trans rfl) : c.toNat = (0x12 : UInt8).toNat)], by omega⟩
      · exact .inr ⟨by rw [UInt8.toNat_inj.mp (c1.trans (hc.trans rfl) : c.toNat = (0 : UInt8).toNat)], hd⟩
    · cases h
  · rintro ⟨rfl, n, d, hd, h⟩
    have hv : ∀ c : UInt8, c.toNat < 128 → ∀ r, varint 10 (c :: r) = some (c.toNat, r) :=
      fun c hc r => (varint_small 9 _ _ _ hc).mpr ⟨c, rfl, rfl⟩
    rcases h with ⟨rfl, h⟩ | ⟨rfl, h⟩
    · simp only [hv 0x12 (by decide), hv n (by omega), Option.bind_eq_bind, Option.bind_some]
      rw [if_pos ⟨by decide, by omega, hd⟩]
      simp only
      rw [if_pos (.inl rfl)]
    · simp only [hv 0 (by decide), hv n (by omega), Option.bind_eq_bind, Option.bind_some]
      rw [if_pos ⟨by decide, by omega, hd⟩]
      simp only
      rw [if_pos (.inr ⟨rfl, h⟩)]

theorem peer_text (b : Bytes) (s : Str) : (base58Decode s).bind peer = some b ↔ IsPeer b ∧ IsBase58 b s := by
  rw [Option.bind_eq_some_iff]
  constructor
  · rintro ⟨a, h1, h2⟩
    obtain ⟨rfl, h⟩ := (peer_iff _ _).mp h2
    exact ⟨h, by rw [← base58Encode_decode h1]; exact base58Encode_spec _⟩
  · rintro ⟨h1, h2⟩
    exact ⟨b, by rw [h2.unique, base58Decode_encode], (peer_iff _ _).mpr ⟨rfl, h1⟩⟩

theorem value_iff (p s : Str) (v : AddrValue) (hs : '/' ∉ s) : value p s = some v ↔ IsValue p v s := by
  constructor
  · intro h
    unfold value at h
    split_ifs at h with h1 h2 h3 h4 h6 h5
    · subst h1
      split at h
      · rename_i hq
        cases h
        exact .ip4 ((ip4_iff ..).mp hq)
      · cases h
    · subst h2
      split at h
      · rename_i hq
        cases h
        exact .ip6 ((ip6_iff ..).mp hq)
      · cases h
    · obtain ⟨n, hn, rfl⟩ := Option.map_eq_some_iff.mp h
      exact .port h3 ((unsigned_iff _ _ _).mp hn)
    · obtain ⟨n, hn, rfl⟩ := Option.map_eq_some_iff.mp h
      subst h4
      exact .memory ((unsigned_iff _ _ _).mp hn)
    · obtain ⟨b, hb, rfl⟩ := Option.map_eq_some_iff.mp h
      subst h6
      obtain ⟨h1, h2⟩ := (peer_text _ _).mp hb
      exact .peer h1 h2
    · cases h
      exact .host h5 hs
  · intro h
    unfold value
    cases h with
    | ip4 h =>
      rw [if_pos rfl, (ip4_iff ..).mpr h]
    | ip6 h =>
      rw [if_neg (by decide), if_pos rfl, (ip6_iff ..).mpr h]
    | @port p n s hp h =>
      have h1 : ∀ p ∈ portNames, p ≠ "ip4".toList ∧ p ≠ "ip6".toList := by decide
      rw [if_neg (h1 p hp).1, if_neg (h1 p hp).2, if_pos (by exact hp), (unsigned_iff 65536 n s).mpr h]
      rfl
    | @memory n s h =>
      rw [if_neg (by decide), if_neg (by decide), if_neg (by decide), if_pos rfl, (unsigned_iff 18446744073709551616 n s).mpr h]
      rfl
    | @peer b s h1 h2 =>
      rw [if_neg (by decide), if_neg (by decide), if_neg (by decide), if_neg (by decide), if_pos rfl, (peer_text b s).mpr ⟨h1, h2⟩]
      rfl
    | @host p s hp h =>
      have h1 : ∀ p ∈ hostNames, p ≠ "ip4".toList ∧ p ≠ "ip6".toList ∧ p ≠ "memory".toList ∧ p ≠ "p2p".toList ∧
        p ∉ portNames := by decide
      obtain ⟨a, b, c, e, d⟩ := h1 p hp
      rw [if_neg a, if_neg b, if_neg (by exact d), if_neg c, if_neg e, if_pos (by exact hp)]

/-! ### The text -/

/-- The characters of numbers, IP addresses and peers. -/
def Plain (c : Char) : Prop := HexChar c ∨ c = '.' ∨ c = ':' ∨ c = '+' ∨ c ∈ b58Alphabet

theorem plain_peer {b : Bytes} {s : Str} (h : IsBase58 b s) : ∀ x ∈ s, Plain x := by
  rw [h.unique]
  exact fun x hx => .inr (.inr (.inr (.inr (base58Encode_chars b x hx))))

theorem plain_ip4 {a b c d : Nat} {s : Str} (h : IsIp4 a b c d s) : ∀ x ∈ s, Plain x := by
  obtain ⟨t1, t2, t3, t4, rfl, o1, o2, o3, o4⟩ := h
  intro x hx
  simp only [List.append_assoc, List.cons_append, List.mem_append, List.mem_cons] at hx
  rcases hx with hx | hx | hx | hx | hx | hx | hx
  · exact .inl (.inl (o1.1.digits x hx))
  · exact .inr (.inl hx)
  · exact .inl (.inl (o2.1.digits x hx))
  · exact .inr (.inl hx)
  · exact .inl (.inl (o3.1.digits x hx))
  · exact .inr (.inl hx)
  · exact .inl (.inl (o4.1.digits x hx))

theorem plain_ending {gs : List Nat} {s : Str} (h : Ending gs s) : ∀ x ∈ s, Plain x := by
  induction h with
  | one h => exact fun x hx => .inl (h.digits x hx)
  | quad h => exact plain_ip4 h
  | more h _ ih =>
    intro x hx
    simp only [List.mem_append, List.mem_cons] at hx
    rcases hx with hx | hx | hx
    · exact .inl (h.digits x hx)
    · exact .inr (.inr (.inl hx))
    · exact ih x hx

theorem plain_ip6 {gs : List Nat} {s : Str} (h : IsIp6 gs s) : ∀ x ∈ s, Plain x := by
  obtain ⟨-, h | ⟨hs, ts, k, head, tail, rfl, -, hh, ht⟩⟩ := h
  · exact plain_ending h
  · intro x hx
    rcases List.mem_append.mp hx with hx | hx
    · rcases List.mem_append.mp hx with hx | hx
      · rcases hh with ⟨-, rfl⟩ | hh
        · cases hx
        · exact plain_ending (groups_ending hh) x hx
      · refine .inr (.inr (.inl ?_))
        revert hx
        simp
    · rcases ht with ⟨-, rfl⟩ | ht
      · cases hx
      · exact plain_ending ht x hx

theorem plain_number {limit n : Nat} {s : Str} (h : LooseNumber limit n s) : ∀ x ∈ s, Plain x := by
  obtain ⟨d, rfl | rfl, h, -⟩ := h
  · exact fun x hx => .inl (.inl (h.digits x hx))
  · intro x hx
    rcases List.mem_cons.mp hx with hx | hx
    · exact .inr (.inr (.inr (.inl hx)))
    · exact .inl (.inl (h.digits x hx))

theorem plain_value {p s : Str} {v : AddrValue} (h : IsValue p v s) : v = .text s ∨ ∀ x ∈ s, Plain x := by
  cases h with
  | ip4 h => exact .inr (plain_ip4 h)
  | ip6 h => exact .inr (plain_ip6 h)
  | port _ h => exact .inr (plain_number h)
  | memory h => exact .inr (plain_number h)
  | peer _ h => exact .inr (plain_peer h)
  | host => exact .inl rfl

theorem plain_ne {c k : Char} (h : Plain c) (hk : k ∈ "/?&=".toList) : c ≠ k := by
  rintro rfl
  revert h
  unfold Plain HexChar
  revert hk
  rw [show "/?&=".toList = ['/', '?', '&', '='] from rfl]
  simp only [List.mem_cons, List.not_mem_nil, or_false]
  rintro (rfl | rfl | rfl | rfl) <;> decide

theorem value_no_slash {p s : Str} {v : AddrValue} (h : IsValue p v s) : '/' ∉ s := by
  cases h with
  | host _ h => exact h
  | ip4 h => exact fun hm => plain_ne (plain_ip4 h _ hm) (by decide) rfl
  | ip6 h => exact fun hm => plain_ne (plain_ip6 h _ hm) (by decide) rfl
  | port _ h => exact fun hm => plain_ne (plain_number h _ hm) (by decide) rfl
  | memory h => exact fun hm => plain_ne (plain_number h _ hm) (by decide) rfl
  | peer _ h => exact fun hm => plain_ne (plain_peer h _ hm) (by decide) rfl

/-- The names of protocols with a value. -/
def valued : List Str := ["ip4".toList, "ip6".toList, "memory".toList, "p2p".toList] ++ portNames ++ hostNames

theorem value_name {p s : Str} {v : AddrValue} (h : IsValue p v s) : p ∈ valued := by
  cases h with
  | ip4 => decide
  | ip6 => decide
  | memory => decide
  | peer => decide
  | port h => exact List.mem_append_left _ (List.mem_append_right _ h)
  | host h => exact List.mem_append_right _ h

theorem names_clean : (∀ p ∈ valued, ∀ c ∈ "/?&=".toList, c ∉ p) ∧ (∀ p ∈ flagNames, ∀ c ∈ "/?&=".toList, c ∉ p) ∧
    ∀ p ∈ valued, p ∉ flagNames := by decide

/-- Segments with a slash before each. -/
def slashed (l : List Str) : Str := (l.map ('/' :: ·)).flatten

theorem join_slashed (l : List Str) : joinWith '/' ([] :: l) = slashed l := by
  have key : ∀ (l : List Str) (a : Str), joinWith '/' (a :: l) = a ++ slashed l := by
    intro l
    induction l with
    | nil => intro a; simp [joinWith, slashed]
    | cons b l ih =>
      intro a
      rw [joinWith, ih b]
      simp [slashed]
  exact key l []

theorem split_app {p t h : Str} {r : List Str} (hp : '/' ∉ p) (ht : splitOn '/' t = h :: r) : splitOn '/' (p ++ t) = (p ++ h) :: r := by
  induction p with
  | nil => exact ht
  | cons c p ih =>
    simp only [List.mem_cons, not_or] at hp
    rw [List.cons_append, splitOn, if_neg (Ne.symm hp.1), ih hp.2]
    rfl

theorem split_slash (t : Str) : splitOn '/' ('/' :: t) = [] :: splitOn '/' t := by
  rw [splitOn, if_pos rfl]

theorem parts_split : ∀ (n : Nat) (l : List Str) (ps : List AddrPart), l.length ≤ n → (∀ s ∈ l, '/' ∉ s) → parts l = some ps →
    IsAddress ps (slashed l) := by
  intro n
  induction n with
  | zero =>
    intro l ps hl _ h
    cases l with
    | nil => cases h; exact .nil
    | cons => simp at hl
  | succ n ih =>
    intro l ps hl hs h
    cases l with
    | nil => cases h; exact .nil
    | cons p l =>
      unfold parts at h
      split_ifs at h with hf
      · obtain ⟨ps', h1, rfl⟩ := Option.map_eq_some_iff.mp h
        exact .flag hf (ih l ps' (by simpa using hl) (fun s hm => hs s (List.mem_cons_of_mem _ hm)) h1)
      · cases l with
        | nil => cases h
        | cons s l =>
          simp only [Option.bind_eq_bind, Option.bind_eq_some_iff, Option.pure_def, Option.some.injEq] at h
          obtain ⟨v, h1, ps', h2, rfl⟩ := h
          have h3 := (value_iff p s v (hs s (by simp))).mp h1
          have h4 := IsAddress.value h3 (ih l ps' (by simp at hl; omega) (fun s hm => hs s (by simp [hm])) h2)
          simpa [slashed] using h4

theorem parts_app {ps : List AddrPart} {t : Str} (h : IsAddress ps t) : ∃ l, splitOn '/' t = [] :: l ∧ parts l = some ps := by
  induction h with
  | nil => exact ⟨[], rfl, rfl⟩
  | @flag p ps t hp _ ih =>
    obtain ⟨l, h1, h2⟩ := ih
    refine ⟨p :: l, ?_, ?_⟩
    · rw [List.cons_append, split_slash, split_app (names_clean.2.1 p hp _ (by decide)) h1, List.append_nil]
    · unfold parts
      rw [if_pos (by exact hp), h2]
      rfl
  | @value p v s ps t hv _ ih =>
    obtain ⟨l, h1, h2⟩ := ih
    have hn := value_name hv
    refine ⟨p :: s :: l, ?_, ?_⟩
    · have e : splitOn '/' ('/' :: (s ++ t)) = [] :: s :: l := by
        rw [split_slash, split_app (value_no_slash hv) h1, List.append_nil]
      rw [List.append_assoc, List.cons_append, List.cons_append, split_slash, split_app (names_clean.1 p hn _ (by decide)) e, List.append_nil]
    · unfold parts
      rw [if_neg (by exact names_clean.2.2 p hn)]
      simp only
      rw [(value_iff p s v (value_no_slash hv)).mpr hv, h2]
      rfl

theorem parse_iff (t : Str) (ps : List AddrPart) : parse t = some ps ↔ IsAddress ps t := by
  constructor
  · intro h
    unfold parse at h
    split at h
    · rename_i l hl
      have := parts_split _ l ps (Nat.le_refl _) (fun s hs => splitOn_no_sep '/' t s (by rw [hl]; simp [hs])) h
      rwa [← join_slashed, ← hl, joinWith_splitOn] at this
    · cases h
  · intro h
    obtain ⟨l, h1, h2⟩ := parts_app h
    unfold parse
    rw [h1]
    exact h2

end Verif.Multiaddr
