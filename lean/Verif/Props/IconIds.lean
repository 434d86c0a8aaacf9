/-
C35: the numbers of new icons and cursors.
-/
import Verif.Lemmas.Icons

namespace PE

theorem lk_none {es : List ResEntry} {k : ResKey} : lk es k = none ↔ ∀ e ∈ es, e.key ≠ k := by
  unfold lk
  rw [List.find?_eq_none]
  simp

theorem sorted_ids (ids : List Nat) : (sortBy (fun a b => decide (a ≤ b)) ids).Pairwise (· ≤ ·) := by
  have := sortBy_sorted (fun a b : Nat => decide (a ≤ b)) (fun a b c h1 h2 => by simp at *; omega) (fun a b => by simp; omega) ids
  exact this.imp (fun h => by simpa using h)

theorem mem_sorted_ids (ids : List Nat) (x : Nat) : x ∈ sortBy (fun a b => decide (a ≤ b)) ids ↔ x ∈ ids := (sortBy_perm _ ids).mem_iff

/-- C35, mode `icon_place_free_ids`: the new images get the lowest free numbers, in ascending order. -/
theorem C35_lowest_free (r d : ResDir) (t : ResKey) (hd : r.sub [t] = some d) (hu : ∀ x, r.Used t x → x < 65536) (n : Nat) (h0 : 0 < n)
    (hn : n ≤ (freeNumbers (r.numbers t)).length) : r.freeIds t true n = .ok ((freeNumbers (r.numbers t)).take n) := by
  rw [numbers_eq hd] at hn ⊢
  have hlt : ∀ x ∈ idList d.es, x < 65536 := by
    intro x hx
    refine hu x ⟨d, hd, ?_⟩
    obtain ⟨e, he⟩ := (mem_idList _ _).mp hx
    rw [List.mem_map]
    exact ⟨e, lk_mem he, lk_key he⟩
  rcases listIds_eq r t with ⟨d', hd', hl⟩ | ⟨hs, _⟩
  · rw [hd] at hd'
    cases hd'
    unfold ResDir.freeIds
    rw [hl]
    dsimp only
    generalize hs : sortBy (fun a b => decide (a ≤ b)) (idList d.es) = s at *
    have sp : s.Pairwise (· ≤ ·) := hs ▸ sorted_ids _
    have sm : ∀ x, x ∈ s ↔ x ∈ idList d.es := fun x => hs ▸ mem_sorted_ids _ x
    have sl : ∀ x ∈ s, x < 65536 := fun x hx => hlt x ((sm x).mp hx)
    have e1 : freeBelow true n s = .ok ((between 0 s).take n) := by
      unfold freeBelow
      rw [if_pos rfl]
      exact gaps_eq h0 s sp sl
    rw [e1, ok_bind]
    refine congrArg Except.ok ?_
    have e2 := between_after (N := 65535) s 0 (List.pairwise_cons.mpr ⟨fun x _ => Nat.zero_le x, sp⟩) (fun x hx => by
      rcases List.mem_cons.mp hx with rfl | hx
      · omega
      · have := sl x hx; omega)
    have e3 : freeNumbers (idList d.es) = between 0 s ++ List.range' (s.foldl max 0 + 1) (65535 - s.foldl max 0) := by
      rw [e2]
      unfold freeNumbers
      apply List.filter_congr
      intro x _
      rw [Bool.eq_iff_iff]
      simp only [Bool.not_eq_true', List.contains_eq_mem, decide_eq_false_iff_not]
      rw [sm]
    rw [e3] at hn ⊢
    have hM : s.foldl max 0 ≤ 65535 := by
      rcases foldl_max_mem s 0 with h | h
      · omega
      · have := sl _ h; omega
    rw [List.length_append, List.length_range'] at hn
    generalize s.foldl max 0 = M at *
    by_cases hc : n ≤ (between 0 s).length
    · rw [List.take_append_of_le_length hc, List.length_take, Nat.min_eq_left hc, Nat.sub_self, pushAfter]
    · rw [List.take_of_length_le (by omega), pushAfter_eq _ _ _ (by omega), List.take_append]
      rw [List.take_of_length_le (by omega)]
      congr 1
      have : List.range' (M + 1) (65535 - M) = List.range' (M + 1) (n - (between 0 s).length) ++
          List.range' (M + 1 + (n - (between 0 s).length)) (65535 - M - (n - (between 0 s).length)) := by
        rw [List.range'_append_1]
        congr 1
        omega
      rw [this, List.take_append_of_le_length (by simp), List.take_of_length_le (by simp)]
  · rw [hd] at hs; cases hs

/-- C35, mode `icon_place_after_max_icon_id`: the new images get the numbers behind the highest one. -/
theorem C35_after_last (r d : ResDir) (t : ResKey) (hd : r.sub [t] = some d) (n : Nat) (hn : n ≤ 65535)
    (hu : ∀ x, r.Used t x → x + n ≤ 65535) :
    ∃ last, r.freeIds t false n = .ok (List.range' (last + 1) n) ∧ (last = 0 ∨ r.Used t last) ∧ ∀ x, r.Used t x → x ≤ last := by
  have hmem : ∀ x, x ∈ idList d.es ↔ r.Used t x := by
    intro x
    rw [mem_idList]
    constructor
    · rintro ⟨e, he⟩
      exact ⟨d, hd, List.mem_map.mpr ⟨e, lk_mem he, lk_key he⟩⟩
    · rintro ⟨d', hd', hx⟩
      rw [hd] at hd'
      cases hd'
      cases he : lk d.es (.id x) with
      | none => exact absurd hx (by
          rw [List.mem_map]
          rintro ⟨e, he', hk⟩
          exact lk_none.mp he e he' hk)
      | some e => exact ⟨e, rfl⟩
  rcases listIds_eq r t with ⟨d', hd', hl⟩ | ⟨hs, _⟩
  · rw [hd] at hd'
    cases hd'
    refine ⟨(sortBy (fun a b => decide (a ≤ b)) (idList d.es)).foldl max 0, ?_, ?_, ?_⟩
    · unfold ResDir.freeIds
      rw [hl]
      show (do let acc ← (Except.ok [] : Res (List Nat)); _) = _
      rw [ok_bind]
      refine congrArg Except.ok ?_
      rw [List.length_nil, Nat.sub_zero]
      refine pushAfter_eq n _ [] ?_
      rcases foldl_max_mem (sortBy (fun a b => decide (a ≤ b)) (idList d.es)) 0 with h | h
      · rw [h]; omega
      · exact hu _ ((hmem _).mp ((mem_sorted_ids _ _).mp h))
    · rcases foldl_max_mem (sortBy (fun a b => decide (a ≤ b)) (idList d.es)) 0 with h | h
      · exact Or.inl h
      · exact Or.inr ((hmem _).mp ((mem_sorted_ids _ _).mp h))
    · intro x hx
      exact (foldl_max_ge _ 0).2 x ((mem_sorted_ids _ _).mpr ((hmem x).mpr hx))
  · rw [hd] at hs; cases hs

/-- C35, no resource of the type: the new images get the numbers from 1 on. -/
theorem C35_first (r : ResDir) (t : ResKey) (hd : r.sub [t] = none) (free : Bool) (n : Nat) (hn : n ≤ 65534) :
    r.freeIds t free n = .ok (List.range' 1 n) := by
  rcases listIds_eq r t with ⟨d, h, _⟩ | ⟨_, e, he⟩
  · rw [hd] at h; cases h
  · unfold ResDir.freeIds
    rw [he]
    dsimp only
    rw [pushAll_eq (by omega) _ _ _ (by omega) (by omega)]
    rfl

/-- C35: if there is room, the new images get different numbers that no image of that type has, so that no image is overwritten. Missing:
    without room (or with numbers above 65535) numbers are used twice, see `C35_collision`, `C35_wide_collision`, `C35_hang`. -/
theorem C35_fresh_partial (r : ResDir) (t : ResKey) (free : Bool) (n : Nat) (h0 : 0 < n) (hn : n ≤ 65535) (hr : r.Room t free n) :
    ∃ nums, r.freeIds t free n = .ok nums ∧ nums.length = n ∧ nums.Nodup ∧ ∀ x ∈ nums, 1 ≤ x ∧ x ≤ 65535 ∧ ¬ r.Used t x := by
  obtain ⟨h1, h2, h3⟩ := hr
  cases hd : r.sub [t] with
  | none =>
    refine ⟨_, C35_first r t hd free n (h1 hd), List.length_range', List.nodup_range', fun x hx => ?_⟩
    rw [List.mem_range'_1] at hx
    have := h1 hd
    refine ⟨by omega, by omega, ?_⟩
    rintro ⟨d, h, _⟩
    rw [hd] at h; cases h
  | some d =>
    cases free with
    | true =>
      rw [if_pos rfl] at h3
      refine ⟨_, C35_lowest_free r d t hd h2 n h0 h3, by rw [List.length_take, Nat.min_eq_left h3], ?_, fun x hx => ?_⟩
      · exact (List.Pairwise.filter _ List.nodup_range').sublist (List.take_sublist _ _)
      · have hx := List.mem_of_mem_take hx
        unfold freeNumbers at hx
        rw [List.mem_filter, List.mem_range'_1] at hx
        refine ⟨by omega, by omega, ?_⟩
        rintro ⟨d', hd', hk⟩
        rw [hd] at hd'
        cases hd'
        have hc := hx.2
        rw [numbers_eq hd] at hc
        simp only [Bool.not_eq_true', List.contains_eq_mem, decide_eq_false_iff_not] at hc
        refine hc ((mem_idList _ _).mpr ?_)
        cases he : lk d.es (.id x) with
        | none => exact absurd hk (by
            rw [List.mem_map]
            rintro ⟨e, he', hk⟩
            exact lk_none.mp he e he' hk)
        | some e => exact ⟨e, rfl⟩
    | false =>
      rw [if_neg (by decide)] at h3
      obtain ⟨last, e, hlast, hmax⟩ := C35_after_last r d t hd n hn h3
      have hl : last + n ≤ 65535 := by
        rcases hlast with rfl | h
        · omega
        · exact h3 last h
      refine ⟨_, e, List.length_range', List.nodup_range', fun x hx => ?_⟩
      rw [List.mem_range'_1] at hx
      refine ⟨by omega, by omega, fun h => ?_⟩
      have := hmax x h
      omega

/-- A tree with icons 1, 3, 4, 7 and 8, as in the comment in the code. -/
def iconTree (ids : List Nat) : ResDir :=
  { es := [.dir (.id 3) {} (ids.map fun i => .dir (.id i) {} [.data (.id 1033) 0 [UInt8.ofNat i]])] }

theorem iconTree_sub (ids : List Nat) :
    (iconTree ids).sub [.id 3] = some { es := ids.map fun i => .dir (.id i) {} [.data (.id 1033) 0 [UInt8.ofNat i]] } := rfl

theorem iconTree_used {ids : List Nat} {x : Nat} (h : (iconTree ids).Used (.id 3) x) : x ∈ ids := by
  obtain ⟨d, hd, hx⟩ := h
  rw [iconTree_sub] at hd
  cases hd
  simpa [ResEntry.key] using hx

theorem iconTree_numbers (ids : List Nat) : (iconTree ids).numbers (.id 3) = ids := by
  rw [numbers_eq (iconTree_sub ids)]
  unfold idList
  induction ids with
  | nil => rfl
  | cons a l ih => rw [List.map_cons, List.filterMap_cons]; exact congrArg (a :: ·) ih

/-- The hypotheses of `C35_lowest_free` hold and the result is the one in the comment in the code. -/
example : (iconTree [8, 1, 3, 7, 4]).freeIds (.id 3) true 5 = .ok [2, 5, 6, 9, 10] := by
  have hf : ∃ rest, freeNumbers [8, 1, 3, 7, 4] = [2, 5, 6, 9, 10] ++ rest := by
    refine ⟨(List.range' (1 + 10) 65525).filter (fun x => ![8, 1, 3, 7, 4].contains x), ?_⟩
    unfold freeNumbers
    rw [show (65535 : Nat) = 10 + 65525 from rfl, ← List.range'_append_1, List.filter_append,
      show (List.range' 1 10).filter (fun x => ![8, 1, 3, 7, 4].contains x) = [2, 5, 6, 9, 10] by decide]
  obtain ⟨rest, hf⟩ := hf
  have := C35_lowest_free (iconTree [8, 1, 3, 7, 4]) _ (.id 3) (iconTree_sub _) (fun x hx => by
    have := iconTree_used hx; simp at this; omega) 5 (by decide) (by
    rw [iconTree_numbers, hf, List.length_append]
    exact Nat.le_add_right _ _)
  rw [this, iconTree_numbers, hf]
  exact congrArg Except.ok (List.take_left (l₁ := [2, 5, 6, 9, 10]))

/-- The hypotheses of `C35_fresh_partial` hold (mode `icon_place_after_max_icon_id`). -/
example : (iconTree [8, 1, 3, 7, 4]).Room (.id 3) false 5 := by
  refine ⟨fun h => ?_, fun x hx => ?_, ?_⟩
  · rw [iconTree_sub] at h; cases h
  · have := iconTree_used hx; simp at this; omega
  · rw [if_neg (by decide)]
    intro x hx
    have := iconTree_used hx; simp at this; omega

/-- C35 is false in general: with number 65535 in use, the mode `icon_place_after_max_icon_id` goes on with 0 and 1, and
    icon 1 is overwritten. -/
theorem C35_collision : (iconTree [1, 65535]).freeIds (.id 3) false 2 = .ok [0, 1] ∧ (iconTree [1, 65535]).Used (.id 3) 1 :=
  ⟨rfl, ⟨_, rfl, by decide⟩⟩

/-- C35 is false in general: numbers above 65535, which are allowed in resources, are cut to 16 bits, and icon 5 is overwritten. -/
theorem C35_wide_collision : (iconTree [5, 65540]).freeIds (.id 3) false 1 = .ok [5] ∧ (iconTree [5, 65540]).Used (.id 3) 5 :=
  ⟨rfl, ⟨_, rfl, by decide⟩⟩

theorem pushAll_hang {stop : Nat} (hs : 65536 ≤ stop) : ∀ (fuel i : Nat) (acc : List Nat), i < 65536 → pushAll stop fuel i acc = ubE .hang := by
  intro fuel
  induction fuel with
  | zero => intro i acc _; rfl
  | succ fuel ih =>
    intro i acc hi
    rw [pushAll, if_neg (by omega)]
    exact ih _ _ (by unfold w16; omega)

/-- C35: for 65535 new images of a type that does not exist the numbering never ends. -/
theorem C35_hang (r : ResDir) (t : ResKey) (h : r.sub [t] = none) (free : Bool) : r.freeIds t free 65535 = .error (.ub .hang) := by
  rcases listIds_eq r t with ⟨d, h', _⟩ | ⟨_, e, he⟩
  · rw [h] at h'; cases h'
  · unfold ResDir.freeIds
    rw [he]
    exact pushAll_hang (by omega) _ _ _ (by omega)

/-- The hypothesis of `C35_hang` holds for an empty tree. -/
example : ({ es := [] } : ResDir).freeIds (.id 3) true 65535 = .error (.ub .hang) := C35_hang _ _ rfl _

end PE
