import Verif.Model.Did
import Verif.Spec.Text

/-
Independent description of query parameters in a DID URI, and facts relating it to `str::split`.
-/

namespace Verif.Spec
open Verif

/-- The text before the first `sep` (all of it if there is none). -/
def before (sep : Char) (s : Str) : Str := s.takeWhile (· != sep)

/-- The text after the first `sep` (empty if there is none). -/
def after (sep : Char) (s : Str) : Str := (s.dropWhile (· != sep)).drop 1

/-- The value a `&`-segment assigns to `key`: the segment is `key=value` or `key=value=...`. -/
def segmentValue (key : Str) (seg : Str) : Option Str :=
  if '=' ∈ seg ∧ before '=' seg = key then some (before '=' (after '=' seg)) else none

/-- The value of `key` in a URI: the last assignment among the `&`-segments of the text between the first and
the second `?`. -/
def param (key : Str) (uri : Str) : Option Str :=
  (((before '?' (after '?' uri)).splitOn '&').filterMap (segmentValue key)).getLast?

end Verif.Spec

namespace Verif
open Spec

theorem splitOn_core (sep : Char) (s : Str) : splitOn sep s = s.splitOn sep := by
  induction s with
  | nil => rfl
  | cons c s ih =>
    rw [List.splitOn_cons_eq_if_modifyHead, splitOn, ih]
    by_cases h : c = sep
    · simp [h]
    · simp only [h, if_false, beq_iff_eq]
      cases hs : s.splitOn sep with
      | nil => exact absurd hs (List.splitOn_ne_nil _ _)
      | cons a l => rfl

theorem split_cases (sep : Char) (s : Str) :
    (sep ∉ s ∧ before sep s = s ∧ after sep s = [] ∧ splitOn sep s = [s]) ∨
    (s = before sep s ++ sep :: after sep s ∧ sep ∉ before sep s ∧
      splitOn sep s = before sep s :: splitOn sep (after sep s)) := by
  induction s with
  | nil => left; exact ⟨by simp, rfl, rfl, rfl⟩
  | cons c s ih =>
    by_cases h : c = sep
    · right
      subst h
      have hb : before c (c :: s) = [] := by simp [before]
      have ha : after c (c :: s) = s := by simp [after]
      rw [hb, ha]
      exact ⟨rfl, by simp, by simp [splitOn]⟩
    · have hb : before sep (c :: s) = c :: before sep s := by simp [before, h]
      have ha : after sep (c :: s) = after sep s := by simp [after, h]
      rw [hb, ha]
      rcases ih with ⟨h1, h2, h3, h4⟩ | ⟨h1, h2, h3⟩
      · left
        exact ⟨by simp [h1, Ne.symm h], by rw [h2], h3, splitOn_of_not_mem (by simp [h1, Ne.symm h])⟩
      · right
        refine ⟨by rw [List.cons_append, ← h1], by simp [h2, Ne.symm h], ?_⟩
        rw [splitOn, if_neg h, h3]

theorem before_not_mem (sep : Char) (s : Str) : sep ∉ before sep s := by
  rcases split_cases sep s with ⟨h1, h2, _⟩ | ⟨_, h, _⟩
  · rw [h2]; exact h1
  · exact h

theorem splitOn_head (sep : Char) (s : Str) : (splitOn sep s)[0]? = some (before sep s) := by
  rcases split_cases sep s with ⟨_, h2, _, h4⟩ | ⟨_, _, h⟩
  · rw [h4, h2]; rfl
  · rw [h]; rfl

theorem splitOn_snd {sep : Char} {s : Str} (h : sep ∈ s) :
    (splitOn sep s)[1]? = some (before sep (after sep s)) ∧ 1 < (splitOn sep s).length := by
  rcases split_cases sep s with ⟨h1, _⟩ | ⟨_, _, h3⟩
  · exact absurd h h1
  · rw [h3]
    refine ⟨?_, ?_⟩
    · rw [List.getElem?_cons_succ]; exact splitOn_head _ _
    · rw [List.length_cons, length_splitOn]; omega

theorem splitOn_single {sep : Char} {s : Str} (h : sep ∉ s) : splitOn sep s = [s] := splitOn_of_not_mem h

end Verif
