import Verif.Spec.Uri
import Verif.Toy

/-
C07–C10, C48: building and parsing DID URIs.
-/

namespace Verif.Props
open Verif Spec

/-! ### The loop of `parse_uri` -/

theorem parseQueries_step (q : Str) (p : Params) :
    ∃ p' : Params, (∀ qs, DID.parseQueries (q :: qs) p = DID.parseQueries qs p') ∧
      p'.address = (segmentValue "address".toList q).or p.address ∧
      p'.hl = (segmentValue "hl".toList q).or p.hl := by
  by_cases h : '=' ∈ q
  · obtain ⟨h1, h2⟩ := splitOn_snd h
    refine ⟨(let v := before '=' (after '=' q)
             let p := if before '=' q = "address".toList then { p with address := some v } else p
             if before '=' q = "hl".toList then { p with hl := some v } else p), ?_, ?_, ?_⟩
    · intro qs
      rw [DID.parseQueries]
      simp only [if_neg (show ¬ (splitOn '=' q).length ≤ 1 by omega), splitOn_head, h1]
    · unfold segmentValue
      by_cases ha : before '=' q = "address".toList
      · have hn : ¬ before '=' q = "hl".toList := by rw [ha]; decide
        simp only [if_pos ha, if_neg hn, if_pos (And.intro h ha), Option.or]
      · have hx : ¬ ('=' ∈ q ∧ before '=' q = "address".toList) := fun x => ha x.2
        by_cases hb : before '=' q = "hl".toList
        · simp only [if_neg ha, if_pos hb, if_neg hx, Option.or]
        · simp only [if_neg ha, if_neg hb, if_neg hx, Option.or]
    · unfold segmentValue
      by_cases ha : before '=' q = "hl".toList
      · simp only [if_pos ha, if_pos (And.intro h ha), Option.or]
      · have hx : ¬ ('=' ∈ q ∧ before '=' q = "hl".toList) := fun x => ha x.2
        by_cases hb : before '=' q = "address".toList
        · simp only [if_neg ha, if_pos hb, if_neg hx, Option.or]
        · simp only [if_neg ha, if_neg hb, if_neg hx, Option.or]
  · refine ⟨p, ?_, ?_, ?_⟩
    · intro qs
      rw [DID.parseQueries, splitOn_single h]
      simp
    · simp [segmentValue, h]
    · simp [segmentValue, h]

theorem parseQueries_spec (qs : List Str) (p : Params) :
    ∃ r : Params, DID.parseQueries qs p = some r ∧
      r.address = ((qs.filterMap (segmentValue "address".toList)).getLast?).or p.address ∧
      r.hl = ((qs.filterMap (segmentValue "hl".toList)).getLast?).or p.hl := by
  induction qs generalizing p with
  | nil => exact ⟨p, rfl, by simp, by simp⟩
  | cons q qs ih =>
    obtain ⟨p', h1, h2, h3⟩ := parseQueries_step q p
    obtain ⟨r, g1, g2, g3⟩ := ih p'
    have key : ∀ (o a b : Option Str) (l : List Str),
        (l.getLast?.or (o.or a)) = ((o.toList ++ l).getLast?).or a := by
      intro o a b l
      cases o with
      | none => simp
      | some x =>
        cases l with
        | nil => simp
        | cons y l => simp [List.getLast?_cons]
    have fm : ∀ k, (q :: qs).filterMap (segmentValue k) =
        (segmentValue k q).toList ++ qs.filterMap (segmentValue k) := by
      intro k
      rw [List.filterMap_cons]
      cases segmentValue k q <;> simp
    refine ⟨r, by rw [h1, g1], ?_, ?_⟩
    · rw [g2, h2, fm, key _ _ none]
    · rw [g3, h3, fm, key _ _ none]

theorem Params.ext' {p q : Params} (h1 : p.address = q.address) (h2 : p.hl = q.hl) : p = q := by
  cases p; cases q; cases h1; cases h2; rfl

/-- What `parse_uri` computes, in terms of the description in `Verif.Spec`. -/
theorem parseUri_spec (uri : Str) :
    DID.parseUri uri = some (.ok (before '?' uri,
      { address := param "address".toList uri, hl := param "hl".toList uri })) := by
  unfold DID.parseUri
  have hne : (splitOn '?' uri).isEmpty = false := by
    cases h : splitOn '?' uri with
    | nil => exact absurd h (splitOn_ne_nil _ _)
    | cons a l => rfl
  simp only [hne, Bool.false_eq_true, if_false, splitOn_head]
  by_cases h : '?' ∈ uri
  · obtain ⟨h1, h2⟩ := splitOn_snd h
    obtain ⟨r, g1, g2, g3⟩ := parseQueries_spec (splitOn '&' (before '?' (after '?' uri))) {}
    simp only [gt_iff_lt, h2, if_true, h1, g1]
    congr 4
    refine Params.ext' ?_ ?_
    · rw [g2]; simp [param, splitOn_core]
    · rw [g3]; simp [param, splitOn_core]
  · have he : after '?' uri = [] := by
      rcases split_cases '?' uri with ⟨_, _, h3, _⟩ | ⟨h1, _, _⟩
      · exact h3
      · rw [h1] at h; simp at h
    have hp : ∀ k, param k uri = none := by
      intro k
      unfold param
      rw [he]
      simp [before, segmentValue]
    rw [splitOn_single h]
    simp [hp]

/-! ### C08 -/

/-- C08: `parse_uri` never panics and never errors; the first component is the text before the first `?`. -/
theorem C08_parse_uri_total (uri : Str) :
    ∃ params, DID.parseUri uri = some (.ok (uri.takeWhile (· != '?'), params)) :=
  ⟨_, parseUri_spec uri⟩

example : DID.parseUri "did:x?a=b=c&&?&hl".toList = some (.ok ("did:x".toList, {})) := by decide +kernel
example : DID.parseUri "".toList = some (.ok ("".toList, {})) := by decide +kernel

/-! ### C09 -/

/-- C09: the parsed fields are the last assignments in the first query part, everything else is ignored. -/
theorem C09_parse_uri_params (uri : Str) :
    ∃ did params, DID.parseUri uri = some (.ok (did, params)) ∧
      params.address = param "address".toList uri ∧ params.hl = param "hl".toList uri :=
  ⟨_, _, parseUri_spec uri, rfl, rfl⟩

/-- C09: a segment that is neither `address=...` nor `hl=...` can be dropped anywhere. -/
theorem C09_unknown_segment_ignored (a b : List Str) (seg : Str) (did rest : Str) (hd : '?' ∉ did)
    (hseg : '&' ∉ seg ∧ '?' ∉ seg) (ha : ∀ s ∈ a, '&' ∉ s ∧ '?' ∉ s) (hb : ∀ s ∈ b, '&' ∉ s ∧ '?' ∉ s)
    (hk : ∀ r, seg ≠ "address=".toList ++ r ∧ seg ≠ "hl=".toList ++ r) (hr : rest = [] ∨ rest.head? = some '?')
    (hne : a ++ b ≠ []) :
    DID.parseUri (did ++ "?".toList ++ joinWith '&' (a ++ seg :: b) ++ rest) =
      DID.parseUri (did ++ "?".toList ++ joinWith '&' (a ++ b)) := by
  have hs : ∀ k : Str, '=' ∉ k → (∀ r, seg ≠ k ++ '=' :: r) → segmentValue k seg = none := by
    intro k _ hk
    unfold segmentValue
    rw [if_neg]
    rintro ⟨h1, h2⟩
    rcases split_cases '=' seg with ⟨h3, _⟩ | ⟨h3, _, _⟩
    · exact h3 h1
    · exact hk _ (h2 ▸ h3)
  have bq : ∀ x rest : Str, '?' ∉ x → (rest = [] ∨ rest.head? = some '?') → before '?' (x ++ rest) = x := by
    intro x rest hx hr
    unfold before
    rw [List.takeWhile_append_of_pos (by intro c hc; simp; rintro rfl; exact hx hc)]
    rcases hr with rfl | hr
    · simp
    · cases rest with
      | nil => simp
      | cons c r => simp at hr; simp [hr]
  have aq : ∀ x : Str, after '?' (did ++ "?".toList ++ x) = x := by
    intro x
    unfold after
    rw [List.append_assoc, List.dropWhile_append_of_pos (by intro c hc; simp; rintro rfl; exact hd hc)]
    simp
  have b0 : ∀ x : Str, before '?' (did ++ "?".toList ++ x) = did := by
    intro x
    rw [List.append_assoc]
    exact bq did _ hd (Or.inr rfl)
  have jm : ∀ l : List Str, (∀ s ∈ l, '?' ∉ s) → '?' ∉ joinWith '&' l := by
    intro l
    induction l with
    | nil => intro _; simp [joinWith]
    | cons x l ih =>
      intro h
      cases l with
      | nil => simpa [joinWith] using h x (by simp)
      | cons y l =>
        simp only [joinWith, List.mem_append, List.mem_cons, not_or]
        exact ⟨h x (by simp), by decide, ih fun s hs => h s (by simp [hs])⟩
  have hall : ∀ s ∈ a ++ seg :: b, '&' ∉ s ∧ '?' ∉ s := by
    intro s hs
    rcases List.mem_append.mp hs with h | h
    · exact ha s h
    · rcases List.mem_cons.mp h with rfl | h
      · exact hseg
      · exact hb s h
  have hall' : ∀ s ∈ a ++ b, '&' ∉ s ∧ '?' ∉ s := by
    intro s hs
    rcases List.mem_append.mp hs with h | h
    · exact ha s h
    · exact hb s h
  have hp : ∀ k : Str, '=' ∉ k → (∀ r, seg ≠ k ++ '=' :: r) →
      param k (did ++ "?".toList ++ joinWith '&' (a ++ seg :: b) ++ rest) =
        param k (did ++ "?".toList ++ joinWith '&' (a ++ b)) := by
    intro k h1 h2
    have e1 := bq _ rest (jm _ fun s hs => (hall s hs).2) hr
    have e2 := bq (joinWith '&' (a ++ b)) [] (jm _ fun s hs => (hall' s hs).2) (Or.inl rfl)
    rw [List.append_nil] at e2
    unfold param
    rw [List.append_assoc _ _ rest, aq, aq, e1, e2, ← splitOn_core, ← splitOn_core,
      splitOn_joinWith (by simp) (fun s hs => (hall s hs).1), splitOn_joinWith hne (fun s hs => (hall' s hs).1)]
    simp [hs k h1 h2]
  rw [parseUri_spec, parseUri_spec, List.append_assoc _ _ rest, b0, b0, ← List.append_assoc,
    hp "address".toList (by decide) (fun r => by have := (hk r).1; simpa using this),
    hp "hl".toList (by decide) (fun r => by have := (hk r).2; simpa using this)]

example : DID.parseUri "did:p:z?address=1&x=2&address=3=9&hl=&hl?address=4".toList =
    some (.ok ("did:p:z".toList, { address := some "3".toList, hl := some [] })) := by decide +kernel

/-- `C09_unknown_segment_ignored`: a segment with an unknown name between two known ones, and a tail. -/
example : DID.parseUri "did:p:z?address=1&x=2&hl=q?t".toList = DID.parseUri "did:p:z?address=1&hl=q".toList :=
  C09_unknown_segment_ignored ["address=1".toList] ["hl=q".toList] "x=2".toList "did:p:z".toList "?t".toList (by decide) (by decide)
    (by simp) (by simp) (fun r => ⟨by simp, by simp⟩) (.inr rfl) (by simp)

/-! ### C10 -/

/-- C10: the three shapes of a URI and the one failure. -/
theorem C10_build_uri {E : Env} (d : DID E) :
    ∃ id : Identity E, d.identity = .ok id ∧
      d.buildUri none = .ok id.value ∧
      d.buildUri (some { address := none, hl := none }) = .error .buildURIError ∧
      (∀ a, d.buildUri (some { address := some a, hl := none }) = .ok (id.value ++ "?address=".toList ++ a)) ∧
      (∀ h, d.buildUri (some { address := none, hl := some h }) = .ok (id.value ++ "?hl=".toList ++ h)) ∧
      (∀ a h, d.buildUri (some { address := some a, hl := some h }) =
        .ok (id.value ++ "?address=".toList ++ a ++ "&hl=".toList ++ h)) := by
  refine ⟨_, rfl, rfl, rfl, ?_, ?_, ?_⟩
  · intro a; simp [DID.buildUri, DID.identity, Params.buildQuery, joinWith]
  · intro a; simp [DID.buildUri, DID.identity, Params.buildQuery, joinWith]
  · intro a h; simp [DID.buildUri, DID.identity, Params.buildQuery, joinWith]

/-! ### C48 -/

/-- C48: the multiaddr view depends only on `address`. -/
theorem C48_parse_multiaddr (E : Env) (hl : Option Str) :
    Params.parseMultiaddr E { address := none, hl } = .ok none ∧
    (∀ a m, E.parseMultiaddr a = .ok m → Params.parseMultiaddr E { address := some a, hl } = .ok (some m)) ∧
    (∀ a e, E.parseMultiaddr a = .error e →
      Params.parseMultiaddr E { address := some a, hl } = .error (.generateMultiAddrError e)) := by
  refine ⟨rfl, ?_, ?_⟩
  · intro a m h; simp [Params.parseMultiaddr, h]
  · intro a m h; simp [Params.parseMultiaddr, h]

/-- `C48_parse_multiaddr`: an address that is read and one that is not. -/
example : Params.parseMultiaddr Toy.env { address := some "/ip4/1.2.3.4".toList, hl := none } = .ok (some "/ip4/1.2.3.4".toList) ∧
    ∃ e, Params.parseMultiaddr Toy.env { address := some "nope".toList, hl := none } = .error (.generateMultiAddrError e) :=
  ⟨(C48_parse_multiaddr Toy.env none).2.1 _ _ rfl, _, (C48_parse_multiaddr Toy.env none).2.2 _ _ rfl⟩

end Verif.Props
