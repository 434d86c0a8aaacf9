/-
Facts about `std::map` as a sorted list.
-/
import Verif.Model.Map

namespace PE

/-- A strict linear order. -/
structure StrictOrd {κ : Type} (lt : κ → κ → Bool) : Prop where
  irrefl : ∀ a, lt a a = false
  trans : ∀ a b c, lt a b = true → lt b c = true → lt a c = true
  tri : ∀ a b, lt a b = false → a ≠ b → lt b a = true

/-- The keys are ascending. -/
def MapSorted {κ ν : Type} (lt : κ → κ → Bool) (m : List (κ × ν)) : Prop := m.Pairwise (fun a b => lt a.1 b.1 = true)

theorem natOrd : StrictOrd (fun a b : Nat => decide (a < b)) :=
  ⟨fun a => by simp, fun a b c h1 h2 => by simp at *; omega, fun a b h1 h2 => by simp at *; omega⟩

theorem mapAdd_mem {κ ν : Type} [DecidableEq κ] {lt : κ → κ → Bool} {k : κ} {v : ν} {m : List (κ × ν)} {x : κ × ν}
    (h : x ∈ mapAdd lt k v m) : x = (k, v) ∨ x ∈ m := by
  induction m with
  | nil => rw [mapAdd] at h; simpa using h
  | cons y m ih =>
    obtain ⟨k', v'⟩ := y
    rw [mapAdd] at h
    split at h
    · exact Or.inr h
    · split at h
      · rcases List.mem_cons.mp h with h | h
        · exact Or.inl h
        · exact Or.inr h
      · rcases List.mem_cons.mp h with h | h
        · exact Or.inr (h ▸ List.mem_cons_self)
        · rcases ih h with h | h
          · exact Or.inl h
          · exact Or.inr (List.mem_cons_of_mem _ h)

theorem mapAdd_sorted {κ ν : Type} [DecidableEq κ] {lt : κ → κ → Bool} (ho : StrictOrd lt) (k : κ) (v : ν) {m : List (κ × ν)}
    (h : MapSorted lt m) : MapSorted lt (mapAdd lt k v m) := by
  induction m with
  | nil => rw [mapAdd]; exact List.pairwise_singleton _ _
  | cons y m ih =>
    obtain ⟨k', v'⟩ := y
    unfold MapSorted at h
    rw [List.pairwise_cons] at h
    rw [mapAdd]
    split
    · unfold MapSorted; rw [List.pairwise_cons]; exact h
    · rename_i hne
      split
      · rename_i hlt
        unfold MapSorted
        rw [List.pairwise_cons, List.pairwise_cons]
        refine ⟨fun x hx => ?_, h⟩
        rcases List.mem_cons.mp hx with rfl | hx
        · exact hlt
        · exact ho.trans _ _ _ hlt (h.1 x hx)
      · rename_i hlt
        unfold MapSorted
        rw [List.pairwise_cons]
        refine ⟨fun x hx => ?_, ih h.2⟩
        rcases mapAdd_mem hx with rfl | hx
        · exact ho.tri _ _ (by simpa using hlt) hne
        · exact h.1 x hx

theorem mapFind_cons {κ ν : Type} [DecidableEq κ] (k : κ) (x : κ × ν) (m : List (κ × ν)) :
    mapFind k (x :: m) = if x.1 = k then some x.2 else mapFind k m := by
  unfold mapFind
  rw [List.find?_cons]
  by_cases h : x.1 = k <;> simp [h]

theorem mapFind_none {κ ν : Type} [DecidableEq κ] {k : κ} {m : List (κ × ν)} (h : ∀ x ∈ m, x.1 ≠ k) : mapFind k m = none := by
  unfold mapFind
  rw [List.find?_eq_none.mpr (fun x hx => by simpa using h x hx)]
  rfl

theorem mapFind_mem {κ ν : Type} [DecidableEq κ] {k : κ} {v : ν} {m : List (κ × ν)} (h : mapFind k m = some v) : (k, v) ∈ m := by
  unfold mapFind at h
  rw [Option.map_eq_some_iff] at h
  obtain ⟨x, hx, rfl⟩ := h
  have h1 := List.find?_some hx
  have h2 := List.mem_of_find?_eq_some hx
  simp only [decide_eq_true_eq] at h1
  obtain ⟨a, b⟩ := x
  subst h1
  exact h2

/-- `insert` followed by `find`. -/
theorem mapFind_insert {κ ν : Type} [DecidableEq κ] {lt : κ → κ → Bool} (ho : StrictOrd lt) (k : κ) (v : ν) {m : List (κ × ν)}
    (h : MapSorted lt m) (k' : κ) :
    mapFind k' (mapAdd lt k v m) = if k' = k then some ((mapFind k m).getD v) else mapFind k' m := by
  induction m with
  | nil =>
    rw [mapAdd, mapFind_cons]
    by_cases hk : k' = k
    · rw [if_pos hk.symm, if_pos hk]; rfl
    · rw [if_neg (fun h => hk h.symm), if_neg hk]
  | cons y m ih =>
    obtain ⟨a, b⟩ := y
    unfold MapSorted at h
    rw [List.pairwise_cons] at h
    rw [mapAdd]
    split
    · rename_i hka
      by_cases hk : k' = k
      · rw [if_pos hk, mapFind_cons, mapFind_cons, if_pos (hka.symm.trans hk.symm) , if_pos hka.symm]; rfl
      · rw [if_neg hk]
    · rename_i hka
      split
      · rename_i hlt
        rw [mapFind_cons]
        by_cases hk : k' = k
        · rw [if_pos hk.symm, if_pos hk, mapFind_none]
          · rfl
          · intro x hx he
            rcases List.mem_cons.mp hx with rfl | hx
            · exact hka he.symm
            · have := ho.trans _ _ _ hlt (h.1 x hx)
              rw [he, ho.irrefl] at this
              cases this
        · rw [if_neg (fun h => hk h.symm), if_neg hk]
      · rw [mapFind_cons, mapFind_cons, mapFind_cons, ih h.2]
        by_cases hk : k' = k
        · subst hk
          dsimp only
          rw [if_neg (fun h => hka h.symm), if_pos rfl, if_pos rfl, if_neg (fun h => hka h.symm)]
        · rw [if_neg hk, if_neg hk]

end PE
