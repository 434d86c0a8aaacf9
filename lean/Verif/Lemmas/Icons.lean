/-
Lemmas for icons and cursors: numbers for new images.
-/
import Verif.Spec.Icons
import Verif.Lemmas.ResourceManager
import Verif.Props.ResourceManager

namespace PE

theorem range'_cons {i stop : Nat} (h : i < stop) : List.range' i (stop - i) = i :: List.range' (i + 1) (stop - (i + 1)) := by
  rw [show stop - i = (stop - (i + 1)) + 1 by omega, List.range'_succ]

theorem snoc_cons {α : Type} (a : List α) (x : α) (b : List α) : a ++ x :: b = a ++ [x] ++ b := by simp

theorem pushRange_eq {stop count : Nat} (hs : stop < 65536) : ∀ (k i : Nat) (acc : List Nat), stop - i ≤ k → i ≤ stop → acc.length < count →
    pushRange stop count i acc = .ok ((acc ++ List.range' i (stop - i)).take count) := by
  intro k
  induction k with
  | zero =>
    intro i acc hk hi ha
    have : i = stop := by omega
    subst this
    rw [pushRange, if_pos rfl, Nat.sub_self, List.range'_zero, List.append_nil, List.take_of_length_le (by omega)]
  | succ k ih =>
    intro i acc hk hi ha
    rw [pushRange]
    by_cases he : i = stop
    · subst he
      rw [if_pos rfl, Nat.sub_self, List.range'_zero, List.append_nil, List.take_of_length_le (by omega)]
    · rw [if_neg he, range'_cons (by omega), snoc_cons acc _ (List.range' _ _)]
      by_cases hc : acc.length + 1 = count
      · rw [if_pos hc, List.take_append_of_le_length (by simp; omega), List.take_of_length_le (by simp; omega)]
      · rw [if_neg hc, dif_pos ha, show w16 (i + 1) = i + 1 by unfold w16; omega]
        exact ih _ _ (by omega) (by omega) (by simp; omega)

/-- The numbers strictly between the elements of a sorted list that starts with `prev`. -/
def between : Nat → List Nat → List Nat
  | _, [] => []
  | prev, c :: cs => List.range' (prev + 1) (c - (prev + 1)) ++ between c cs

theorem take_step {α : Type} (a b : List α) (n : Nat) (h : (a.take n).length = n) : (a ++ b).take n = a.take n := by
  rw [List.length_take] at h
  rw [List.take_append_of_le_length (by omega)]

theorem gapsFrom_eq {count : Nat} : ∀ (ids : List Nat) (prev : Nat) (acc : List Nat), (prev :: ids).Pairwise (· ≤ ·) →
    (∀ x ∈ prev :: ids, x < 65536) → acc.length < count →
    gapsFrom count prev ids acc = .ok ((acc ++ between prev ids).take count) := by
  intro ids
  induction ids with
  | nil =>
    intro prev acc _ _ ha
    rw [gapsFrom, between, List.append_nil, List.take_of_length_le (by omega)]
  | cons c cs ih =>
    intro prev acc hp hl ha
    rw [List.pairwise_cons] at hp
    have hpc := hp.1 c List.mem_cons_self
    have l1 := hl prev List.mem_cons_self
    have l2 := hl c (List.mem_cons_of_mem _ List.mem_cons_self)
    rw [gapsFrom, between]
    have e : nextGap count prev c acc =
        .ok ((acc ++ List.range' (prev + 1) (c - (prev + 1))).take count) := by
      unfold nextGap
      by_cases hlt : prev < c
      · rw [if_pos (by unfold sub32; omega), show w16 c = c by unfold w16; omega, show w16 (prev + 1) = prev + 1 by unfold w16; omega]
        exact pushRange_eq l2 _ _ _ (Nat.le_refl _) (by omega) ha
      · rw [if_neg (by unfold sub32; omega), show c - (prev + 1) = 0 by omega, List.range'_zero, List.append_nil,
          List.take_of_length_le (by omega)]
    rw [e, ok_bind, ← List.append_assoc]
    by_cases hc : ((acc ++ List.range' (prev + 1) (c - (prev + 1))).take count).length = count
    · rw [if_pos hc, take_step _ _ _ hc]
    · rw [if_neg hc]
      rw [List.length_take] at hc
      rw [List.take_of_length_le (by omega)]
      exact ih c _ hp.2 (fun x hx => hl x (List.mem_cons_of_mem _ hx)) (by omega)

theorem gaps_eq {count : Nat} (hc0 : 0 < count) (ids : List Nat) (hp : ids.Pairwise (· ≤ ·)) (hl : ∀ x ∈ ids, x < 65536) :
    gaps count ids = .ok ((between 0 ids).take count) := by
  cases ids with
  | nil => rw [gaps, between, List.take_nil]
  | cons c cs =>
    have l2 := hl c List.mem_cons_self
    rw [gaps, between]
    have e : firstGap count c = .ok ((List.range' (0 + 1) (c - (0 + 1))).take count) := by
      unfold firstGap
      by_cases hlt : c > 1
      · rw [if_pos hlt, pushRange_eq l2 _ _ _ (Nat.le_refl _) (by omega) (by simpa using hc0)]
        rfl
      · rw [if_neg hlt, show c - (0 + 1) = 0 by omega, List.range'_zero, List.take_nil]
    rw [e, ok_bind]
    by_cases hc : ((List.range' (0 + 1) (c - (0 + 1))).take count).length = count
    · rw [if_pos hc, take_step _ _ _ hc]
    · rw [if_neg hc]
      rw [List.length_take] at hc
      rw [List.take_of_length_le (by omega)]
      exact gapsFrom_eq cs c _ hp hl (by omega)

theorem pushAfter_eq : ∀ (n m : Nat) (acc : List Nat), m + n ≤ 65535 → pushAfter n m acc = acc ++ List.range' (m + 1) n := by
  intro n
  induction n with
  | zero => intro m acc _; rw [pushAfter, List.range'_zero, List.append_nil]
  | succ n ih =>
    intro m acc h
    rw [pushAfter, show w32 (m + 1) = m + 1 by unfold w32; omega, show w16 (m + 1) = m + 1 by unfold w16; omega, ih _ _ (by omega),
      List.range'_succ, snoc_cons acc _ (List.range' _ _)]

theorem pushAll_eq {stop : Nat} (hs : stop < 65536) : ∀ (fuel i : Nat) (acc : List Nat), i ≤ stop → stop - i < fuel →
    pushAll stop fuel i acc = .ok (acc ++ List.range' i (stop - i)) := by
  intro fuel
  induction fuel with
  | zero => intro i acc _ h; omega
  | succ fuel ih =>
    intro i acc hi hf
    rw [pushAll]
    by_cases he : i = stop
    · subst he
      rw [if_pos rfl, Nat.sub_self, List.range'_zero, List.append_nil]
    · rw [if_neg he, show w16 (i + 1) = i + 1 by unfold w16; omega, ih _ _ (by omega) (by omega), range'_cons (i := i) (by omega), snoc_cons acc _ (List.range' _ _)]

theorem foldl_max_mem (l : List Nat) (a : Nat) : l.foldl max a = a ∨ l.foldl max a ∈ l := by
  induction l generalizing a with
  | nil => exact Or.inl rfl
  | cons x l ih =>
    rw [List.foldl_cons]
    rcases ih (max a x) with h | h
    · rw [h]
      rcases Nat.le_total a x with h' | h'
      · right; rw [Nat.max_eq_right h']; exact List.mem_cons_self
      · left; exact Nat.max_eq_left h'
    · right; exact List.mem_cons_of_mem _ h

theorem foldl_max_ge (l : List Nat) (a : Nat) : a ≤ l.foldl max a ∧ ∀ x ∈ l, x ≤ l.foldl max a := by
  induction l generalizing a with
  | nil => exact ⟨Nat.le_refl _, by intro x hx; cases hx⟩
  | cons x l ih =>
    rw [List.foldl_cons]
    obtain ⟨h1, h2⟩ := ih (max a x)
    refine ⟨by omega, fun y hy => ?_⟩
    rcases List.mem_cons.mp hy with rfl | hy
    · omega
    · exact h2 y hy

/-- The gaps and the numbers behind the last element are all the missing numbers. -/
theorem between_after {N : Nat} : ∀ (ids : List Nat) (prev : Nat), (prev :: ids).Pairwise (· ≤ ·) → (∀ x ∈ prev :: ids, x ≤ N) →
    between prev ids ++ List.range' (ids.foldl max prev + 1) (N - ids.foldl max prev) =
      (List.range' (prev + 1) (N - prev)).filter (fun x => !ids.contains x) := by
  intro ids
  induction ids with
  | nil =>
    intro prev _ _
    rw [between, List.foldl_nil, List.nil_append]
    exact (List.filter_eq_self.mpr (fun x _ => rfl)).symm
  | cons c cs ih =>
    intro prev hp hl
    rw [List.pairwise_cons] at hp
    have hpc := hp.1 c List.mem_cons_self
    have hcN := hl c (List.mem_cons_of_mem _ List.mem_cons_self)
    have hcs := (List.pairwise_cons.mp hp.2).1
    rw [between, List.foldl_cons, Nat.max_eq_right hpc, List.append_assoc, ih c hp.2 (fun x hx => hl x (List.mem_cons_of_mem _ hx))]
    have e2 : (List.range' (c + 1) (N - c)).filter (fun x => !cs.contains x) = (List.range' (c + 1) (N - c)).filter (fun x => !(c :: cs).contains x) := by
      apply List.filter_congr
      intro x hx
      rw [List.mem_range'_1] at hx
      rw [Bool.eq_iff_iff]
      simp only [List.contains_cons, Bool.not_eq_true', Bool.or_eq_false_iff, beq_eq_false_iff_ne]
      constructor
      · intro h; exact ⟨by omega, h⟩
      · intro h; exact h.2
    rw [e2]
    by_cases hlt : prev < c
    · have e3 : List.range' (prev + 1) (N - prev) = List.range' (prev + 1) (c - (prev + 1)) ++ c :: List.range' (c + 1) (N - c) := by
        rw [show N - prev = (c - (prev + 1)) + ((N - c) + 1) by omega, ← List.range'_append_1, List.range'_succ,
          show prev + 1 + (c - (prev + 1)) = c by omega]
      rw [e3, List.filter_append, List.filter_cons]
      have e4 : (!(c :: cs).contains c) = false := by simp
      rw [e4, if_neg (by simp)]
      congr 1
      rw [List.filter_eq_self.mpr]
      intro x hx
      rw [List.mem_range'_1] at hx
      simp only [Bool.not_eq_true', List.contains_eq_mem, decide_eq_false_iff_not]
      intro hm
      rcases List.mem_cons.mp hm with rfl | hm
      · omega
      · have := hcs x hm
        omega
    · have : prev = c := by omega
      subst this
      rw [show prev - (prev + 1) = 0 by omega, List.range'_zero, List.nil_append]

theorem numbers_eq {r d : ResDir} {t : ResKey} (h : r.sub [t] = some d) : r.numbers t = idList d.es := by
  unfold ResDir.numbers
  rw [h]
  rfl

theorem listIds_eq (r : ResDir) (t : ResKey) :
    (∃ d, r.sub [t] = some d ∧ r.listIds t = .ok (idList d.es)) ∨ (r.sub [t] = none ∧ ∃ e, r.listIds t = .error e) := by
  cases h : r.typeDir t with
  | ok d =>
    left
    refine ⟨d, typeDir_ok.mp h, ?_⟩
    unfold ResDir.listIds
    rw [h, ok_bind]
  | error e =>
    right
    constructor
    · cases hs : r.sub [t] with
      | none => rfl
      | some d => rw [typeDir_ok.mpr hs] at h; cases h
    · refine ⟨e, ?_⟩
      unfold ResDir.listIds
      rw [h]
      rfl

end PE
