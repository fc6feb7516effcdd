import Verif.Lemmas.Reads

/-
Nothing that was read is nested too deeply to be read again.
-/

namespace Verif

theorem Json.depthMembers_lt {N : Type} {l : List (Str × Json N)} {d : Nat} :
    Json.depthMembers l < d ↔ 0 < d ∧ ∀ x ∈ l, x.2.depth < d := by
  induction l with
  | nil => simp [Json.depthMembers]
  | cons x l ih =>
    obtain ⟨k, v⟩ := x
    simp only [Json.depthMembers, List.mem_cons, forall_eq_or_imp]
    rw [Nat.max_lt, ih]
    constructor
    · rintro ⟨a, b, c⟩; exact ⟨b, a, c⟩
    · rintro ⟨a, b, c⟩; exact ⟨b, a, c⟩

section
variable {F : Type} {fr : Bytes → Option F}

mutual
theorem decValue_depth (r : Raw) (d : Nat) (hd : 1 ≤ d) (j : Json (Num F)) (h : decValue fr d r = some j) :
    j.depth < d := by
  match r, h with
  | .null, h => simp only [decValue, Option.some.injEq] at h; subst h; simp only [Json.depth]; omega
  | .bool b, h => simp only [decValue, Option.some.injEq] at h; subst h; simp only [Json.depth]; omega
  | .num n, h =>
    simp only [decValue, Option.map_eq_some_iff] at h
    obtain ⟨_, _, rfl⟩ := h; simp only [Json.depth]; omega
  | .str s, h =>
    simp only [decValue, Option.map_eq_some_iff] at h
    obtain ⟨_, _, rfl⟩ := h; simp only [Json.depth]; omega
  | .arr xs, h =>
    simp only [decValue] at h
    split at h
    · cases h
    · obtain ⟨l, hl, rfl⟩ := Option.map_eq_some_iff.mp h
      have := decValues_depth xs (d - 1) (by omega) l hl
      simp only [Json.depth]
      omega
  | .obj kvs, h =>
    simp only [decValue] at h
    split at h
    · cases h
    · obtain ⟨l, hl, rfl⟩ := Option.map_eq_some_iff.mp h
      have h1 := Json.depthMembers_lt.mp (decMembers_depth kvs (d - 1) (by omega) l hl)
      have h2 : Json.depthMembers (btOfList l) < d - 1 :=
        Json.depthMembers_lt.mpr ⟨h1.1, fun x hx => h1.2 x (btOfList_mem hx)⟩
      simp only [Json.depth]
      omega
theorem decValues_depth (xs : List Raw) (d : Nat) (hd : 1 ≤ d) (l : List (Json (Num F)))
    (h : decValues fr d xs = some l) : Json.depthList l < d := by
  match xs, h with
  | [], h => simp only [decValues, Option.some.injEq] at h; subst h; simp only [Json.depthList]; omega
  | x :: xs, h =>
    simp only [decValues] at h
    split at h
    · cases h
    · rename_i y hy
      split at h
      · cases h
      · rename_i ys hys
        cases h
        have h1 := decValue_depth x d hd y hy
        have h2 := decValues_depth xs d hd ys hys
        simp only [Json.depthList]
        omega
theorem decMembers_depth (xs : List (Bytes × Raw)) (d : Nat) (hd : 1 ≤ d) (l : List (Str × Json (Num F)))
    (h : decMembers fr d xs = some l) : Json.depthMembers l < d := by
  match xs, h with
  | [], h => simp only [decMembers, Option.some.injEq] at h; subst h; simp only [Json.depthMembers]; omega
  | (k, x) :: xs, h =>
    simp only [decMembers] at h
    split at h
    · cases h
    · split at h
      · cases h
      · rename_i y hy
        split at h
        · cases h
        · rename_i ys hys
          cases h
          have h1 := decValue_depth x d hd y hy
          have h2 := decMembers_depth xs d hd ys hys
          simp only [Json.depthMembers]
          omega
end
end

theorem decVal'_depth {E : Env} {d : Nat} (hd : 1 ≤ d) {r : Raw} {v : Value E} (h : decVal' E d r = some v) :
    v.1.depth < d := by
  unfold decVal' at h
  split at h
  · rename_i j hj
    cases h
    exact decValue_depth r d hd j hj
  · cases h

theorem VC.dec_depth {E : Env} {d : Nat} (hd : 2 ≤ d) {r : Raw} {v : VC E} (h : VC.dec E d r = some v) :
    v.credentialSubject.1.depth < d - 1 := by
  obtain ⟨fs, _, _, _, h3, _⟩ := (VC.dec_iff d r v).mp h
  unfold reqField at h3
  split at h3
  · cases h3
  · exact decVal'_depth (by omega) h3

theorem forall₂_mem_right {α β : Type} {R : α → β → Prop} {l : List α} {m : List β} (h : List.Forall₂ R l m) :
    ∀ b ∈ m, ∃ a, R a b := by
  induction h with
  | nil => intro b hb; cases hb
  | cons hab _ ih =>
    intro b hb
    rcases List.mem_cons.mp hb with rfl | hb
    · exact ⟨_, hab⟩
    · exact ih b hb

theorem VP.dec_depth {E : Env} {d : Nat} (hd : 4 ≤ d) {r : Raw} {v : VP E} (h : VP.dec E d r = some v) :
    ∀ c ∈ v.verifiableCredential, c.credentialSubject.1.depth < d - 3 := by
  obtain ⟨fs, _, _, _, h3, _⟩ := (VP.dec_iff d r v).mp h
  unfold reqField at h3
  split at h3
  · cases h3
  · rename_i x _
    cases x with
    | arr xs =>
      simp only [decVec] at h3
      split at h3
      · cases h3
      · have h4 := (optAll_iff _ _ _).mp h3
        intro c hc
        obtain ⟨y, hy⟩ := forall₂_mem_right h4 c hc
        have := VC.dec_depth (by omega) hy
        omega
    | _ => cases h3

end Verif
