/-
C42: `version_info_editor` and `version_info_viewer` agree. C64: translations and their strings.
-/
import Verif.Props.VersionInfo
import Mathlib.Data.List.Count

namespace PE

/-! ### Maps -/

theorem mapFind_put {κ ν : Type} [DecidableEq κ] (lt : κ → κ → Bool) (k : κ) (v : ν) (m : List (κ × ν)) (k' : κ) :
    mapFind k' (mapPut lt k v m) = if k' = k then some v else mapFind k' m := by
  induction m with
  | nil =>
    rw [mapPut, mapFind_cons]
    by_cases hk : k = k'
    · rw [if_pos hk, if_pos hk.symm]
    · rw [if_neg hk, if_neg (fun h => hk h.symm)]
  | cons y m ih =>
    obtain ⟨a, b⟩ := y
    unfold mapPut
    by_cases h1 : k = a
    · subst h1
      rw [if_pos rfl, mapFind_cons, mapFind_cons]
      by_cases hk : k = k'
      · rw [if_pos hk, if_pos hk.symm]
      · rw [if_neg hk, if_neg hk, if_neg (fun h => hk h.symm)]
    · rw [if_neg h1]
      by_cases h2 : lt k a = true
      · rw [if_pos h2, mapFind_cons]
        by_cases hk : k = k'
        · rw [if_pos hk, if_pos hk.symm]
        · rw [if_neg hk, if_neg (fun h => hk h.symm)]
      · rw [if_neg h2, mapFind_cons, mapFind_cons, ih]
        by_cases hk : a = k'
        · rw [if_pos hk, if_pos hk, if_neg (fun h => h1 (h.symm.trans hk.symm))]
        · rw [if_neg hk, if_neg hk]

theorem mapFind_map {κ ν : Type} [DecidableEq κ] (k : κ) (g : ν → ν) (m : List (κ × ν)) (k' : κ) :
    mapFind k' (m.map fun x => if x.1 = k then (x.1, g x.2) else x) = if k' = k then (mapFind k m).map g else mapFind k' m := by
  induction m with
  | nil => by_cases h : k' = k <;> simp [mapFind, h]
  | cons y m ih =>
    obtain ⟨a, b⟩ := y
    rw [List.map_cons]
    dsimp only
    by_cases h1 : a = k
    · rw [if_pos h1, mapFind_cons, mapFind_cons, ih, mapFind_cons]
      subst h1
      by_cases h2 : a = k'
      · subst h2; simp
      · rw [if_neg h2, if_neg (fun h => h2 h.symm), if_neg h2, if_neg (fun h => h2 h.symm)]
    · rw [if_neg h1, mapFind_cons, mapFind_cons, mapFind_cons, ih, if_neg h1]
      by_cases h2 : a = k'
      · rw [if_pos h2, if_pos h2, if_neg (fun h => h1 (h2.trans h))]
      · rw [if_neg h2, if_neg h2]

theorem mapFind_head {κ ν : Type} [DecidableEq κ] (x : κ × ν) (m : List (κ × ν)) : mapFind x.1 (x :: m) = some x.2 := by
  rw [mapFind_cons, if_pos rfl]

/-! ### What the table is -/

/-- The table that a call without (or with) a translation means: the named one; without a name, the default one if it is there, else the first
    one, else a new default one. Stated as in the documentation of the class, not by the code. -/
def VerInfo.Means (v : VerInfo) (tr k : WStr) : Prop :=
  (tr ≠ [] ∧ k = tr) ∨
  (tr = [] ∧ k = defaultLang ∧ (v.strings = [] ∨ ∃ t, mapFind defaultLang v.strings = some t)) ∨
  (tr = [] ∧ mapFind defaultLang v.strings = none ∧ ∃ t m, v.strings = (k, t) :: m)

theorem means_unique {v : VerInfo} {tr k k' : WStr} (h : v.Means tr k) (h' : v.Means tr k') : k = k' := by
  rcases h with ⟨a, b⟩ | ⟨a, b, c⟩ | ⟨a, b, t, m, c⟩ <;> rcases h' with ⟨a', b'⟩ | ⟨a', b', c'⟩ | ⟨a', b', t', m', c'⟩
  · rw [b, b']
  · exact absurd a' a
  · exact absurd a' a
  · exact absurd a a'
  · rw [b, b']
  · rcases c with c | ⟨t, c⟩
    · rw [c] at c'; cases c'
    · rw [c] at b'; cases b'
  · exact absurd a a'
  · rcases c' with c' | ⟨t, c'⟩
    · rw [c'] at c; cases c
    · rw [c'] at b; cases b
  · rw [c] at c'
    injection c' with h1 h2
    injection h1

theorem select_key (v : VerInfo) (tr : WStr) : v.Means tr (v.select tr).1 := by
  unfold VerInfo.select VerInfo.Means
  by_cases ht : tr = []
  · rw [if_pos ht]
    cases h : mapFind defaultLang v.strings with
    | some t => exact .inr (.inl ⟨ht, rfl, .inr ⟨t, rfl⟩⟩)
    | none =>
      cases hs : v.strings with
      | nil => exact .inr (.inl ⟨ht, rfl, .inl rfl⟩)
      | cons x m => exact .inr (.inr ⟨ht, rfl, x.2, m, rfl⟩)
  · rw [if_neg ht]
    cases h : mapFind tr v.strings with
    | some t => exact .inl ⟨ht, rfl⟩
    | none => exact .inl ⟨ht, rfl⟩

/-- `get_property` looks into the table that is meant. -/
theorem table_means {v : VerInfo} {tr k : WStr} (h : v.Means tr k) : v.table tr = mapFind k v.strings := by
  unfold VerInfo.table
  rcases h with ⟨a, b⟩ | ⟨a, b, c⟩ | ⟨a, b, t, m, c⟩
  · rw [if_neg a, b]
  · rw [if_pos a, b]
    rcases c with c | ⟨t, c⟩
    · rw [c]; rfl
    · rw [c]
  · rw [if_pos a, b]
    dsimp only
    rw [c, mapFind_cons, if_pos rfl]
    rfl

theorem mapAdd_new {κ ν : Type} [DecidableEq κ] (lt : κ → κ → Bool) (k : κ) (v : ν) : ∀ {m : List (κ × ν)}, mapFind k m = none →
    ∀ k', mapFind k' (mapAdd lt k v m) = if k' = k then some v else mapFind k' m
  | [], _, k' => by
    rw [mapAdd, mapFind_cons]
    by_cases hk : k = k'
    · rw [if_pos hk, if_pos hk.symm]
    · rw [if_neg hk, if_neg (fun h => hk h.symm)]
  | (a, b) :: m, h, k' => by
    rw [mapFind_cons] at h
    by_cases h1 : a = k
    · rw [if_pos h1] at h; cases h
    rw [if_neg h1] at h
    unfold mapAdd
    rw [if_neg (fun h => h1 h.symm)]
    by_cases h2 : lt k a = true
    · rw [if_pos h2, mapFind_cons]
      by_cases hk : k = k'
      · rw [if_pos hk, if_pos hk.symm]
      · rw [if_neg hk, if_neg (fun h => hk h.symm)]
    · rw [if_neg h2, mapFind_cons, mapFind_cons, mapAdd_new lt k v h k']
      by_cases hk : a = k'
      · rw [if_pos hk, if_pos hk, if_neg (fun h => h1 (hk.trans h))]
      · rw [if_neg hk, if_neg hk]

/-- The tables after `set_property`: only the meant one changes, in one string. -/
theorem set_tables {v : VerInfo} {tr k : WStr} (h : v.Means tr k) (name value : WStr) (k' : WStr) :
    mapFind k' (v.set name value tr).strings =
      if k' = k then some (mapPut wlt name value ((mapFind k v.strings).getD [])) else mapFind k' v.strings := by
  have hk := means_unique h (select_key v tr)
  unfold VerInfo.set
  dsimp only
  rw [mapFind_map, ← hk]
  have key : ∀ (s : VerInfo), (s = v ∧ (∃ t, mapFind k v.strings = some t)) ∨ (s = v.addTable k ∧ mapFind k v.strings = none) →
      (if k' = k then (mapFind k s.strings).map (mapPut wlt name value) else mapFind k' s.strings) =
      if k' = k then some (mapPut wlt name value ((mapFind k v.strings).getD [])) else mapFind k' v.strings := by
    rintro s (⟨rfl, t, ht⟩ | ⟨rfl, hn⟩)
    · rw [ht]; rfl
    · unfold VerInfo.addTable
      dsimp only
      rw [mapAdd_new wlt k [] hn, mapAdd_new wlt k [] hn, if_pos rfl, hn]
      by_cases e : k' = k
      · rw [if_pos e, if_pos e]; rfl
      · rw [if_neg e, if_neg e, if_neg e]
  refine key _ ?_
  rw [hk]
  unfold VerInfo.select
  by_cases ht : tr = []
  · rw [if_pos ht]
    cases hd : mapFind defaultLang v.strings with
    | some t => exact .inl ⟨rfl, t, hd⟩
    | none =>
      cases hs : v.strings with
      | nil => exact .inr ⟨rfl, rfl⟩
      | cons x m => exact .inl ⟨rfl, x.2, by dsimp only; exact mapFind_head x m⟩
  · rw [if_neg ht]
    cases hd : mapFind tr v.strings with
    | some t => exact .inl ⟨rfl, t, hd⟩
    | none => exact .inr ⟨rfl, hd⟩

/-- What a call means does not change by a change of the meant table. -/
theorem set_means {v : VerInfo} {tr k : WStr} (h : v.Means tr k) (name value : WStr) : (v.set name value tr).Means tr k := by
  have ht := set_tables h name value
  rcases h with ⟨a, b⟩ | ⟨a, b, c⟩ | ⟨a, b, t, m, c⟩
  · exact .inl ⟨a, b⟩
  · have := ht k
    rw [if_pos rfl, b] at this
    exact .inr (.inl ⟨a, b, .inr ⟨_, this⟩⟩)
  · refine .inr (.inr ⟨a, ?_, ?_⟩)
    · rw [ht, if_neg (fun e => ?_), b]
      rw [e, c, mapFind_cons, if_pos rfl] at b
      cases b
    · have hs : v.select tr = (k, v) := by
        unfold VerInfo.select
        rw [if_pos a, b, c]
      unfold VerInfo.set
      rw [hs]
      dsimp only
      rw [c, List.map_cons]
      exact ⟨_, _, by rw [if_pos rfl]⟩

/-! ### C42 -/

/-- C42: after `set_property`, `get_property` for the same translation (which may be empty) returns the value. -/
theorem C42_get_after_set (v : VerInfo) (name value tr : WStr) (thr : Bool) : (v.set name value tr).get name tr thr = .ok value := by
  have h := select_key v tr
  unfold VerInfo.get
  rw [table_means (set_means h name value), set_tables h, if_pos rfl, Option.bind_some, mapFind_put, if_pos rfl]

/-- C42: all the other strings of this table are unchanged. -/
theorem C42_other_names (v : VerInfo) (name value tr name' : WStr) (thr : Bool) (hn : name' ≠ name) :
    (v.set name value tr).get name' tr thr = v.get name' tr thr := by
  have h := select_key v tr
  unfold VerInfo.get
  rw [table_means (set_means h name value), set_tables h, if_pos rfl, Option.bind_some, mapFind_put, if_neg hn, table_means h]
  cases mapFind (v.select tr).1 v.strings with
  | none => rfl
  | some t => rfl

/-- C42: all the other tables are unchanged. -/
theorem C42_other_tables (v : VerInfo) (name value tr k tr' name' : WStr) (thr : Bool) (h : v.Means tr k) (ht : tr' ≠ []) (hk : tr' ≠ k) :
    (v.set name value tr).get name' tr' thr = v.get name' tr' thr := by
  unfold VerInfo.get
  rw [table_means (.inl ⟨ht, rfl⟩), table_means (v := v) (.inl ⟨ht, rfl⟩), set_tables h, if_neg hk]

theorem multiAdd_count (x : Nat × Nat) (m : TransMap) (y : Nat × Nat) : (multiAdd x m).count y = m.count y + if y = x then 1 else 0 := by
  induction m with
  | nil =>
    by_cases h : y = x
    · subst h; simp [multiAdd]
    · rw [if_neg h]; simp only [multiAdd]; rw [List.count_cons]; simp [Ne.symm h]
  | cons z m ih =>
    unfold multiAdd
    by_cases h : x.1 < z.1
    · rw [if_pos h, List.count_cons (a := y) (b := x)]
      by_cases e : y = x
      · subst e; simp
      · rw [if_neg e]; simp [Ne.symm e]
    · rw [if_neg h, List.count_cons, ih, List.count_cons]; omega

theorem multiAdd_mem (x : Nat × Nat) (m : TransMap) (y : Nat × Nat) : y ∈ multiAdd x m ↔ y = x ∨ y ∈ m := by
  rw [← List.count_pos_iff, multiAdd_count, ← List.count_pos_iff]
  by_cases h : y = x
  · rw [if_pos h]; simp [h]
  · rw [if_neg h]; simp [h]

theorem multiAdd_sorted (x : Nat × Nat) {m : TransMap} (h : m.Pairwise (fun a b => a.1 ≤ b.1)) :
    (multiAdd x m).Pairwise (fun a b => a.1 ≤ b.1) := by
  induction m with
  | nil => exact List.pairwise_singleton _ _
  | cons z m ih =>
    rw [List.pairwise_cons] at h
    unfold multiAdd
    by_cases hx : x.1 < z.1
    · rw [if_pos hx]
      refine List.pairwise_cons.mpr ⟨fun y hy => ?_, List.pairwise_cons.mpr h⟩
      rcases List.mem_cons.mp hy with rfl | hy
      · omega
      · have := h.1 y hy; omega
    · rw [if_neg hx]
      refine List.pairwise_cons.mpr ⟨fun y hy => ?_, ih h.2⟩
      rcases (multiAdd_mem x m y).mp hy with rfl | hy
      · omega
      · exact h.1 y hy

theorem addTrans_count (x : Nat × Nat) (m : TransMap) (y : Nat × Nat) :
    (addTrans x m).count y = if y = x then max 1 (m.count x) else m.count y := by
  unfold addTrans
  by_cases hx : x ∈ m
  · rw [if_pos hx]
    have := List.count_pos_iff.mpr hx
    by_cases h : y = x
    · rw [if_pos h, h]; omega
    · rw [if_neg h]
  · rw [if_neg hx, multiAdd_count]
    have := List.count_eq_zero.mpr hx
    by_cases h : y = x
    · rw [if_pos h, if_pos h, h]; omega
    · rw [if_neg h, if_neg h]; omega

theorem set_trans (v : VerInfo) (name value tr : WStr) :
    (v.set name value tr).trans = (v.select tr).2.trans := rfl

/-- C42: if the table is there, the translations are unchanged. If it is not, its translation is in the list afterwards: once if it was not there,
    and as often as before if it was; all the others are as before, and the list stays in order. -/
theorem C42_translations (v : VerInfo) (name value tr k : WStr) (h : v.Means tr k) :
    (∀ t, mapFind k v.strings = some t → (v.set name value tr).trans = v.trans) ∧
    (mapFind k v.strings = none → ∀ y, (v.set name value tr).trans.count y =
      if y = transIds k then max 1 (v.trans.count y) else v.trans.count y) := by
  have hk := means_unique h (select_key v tr)
  rw [set_trans]
  have : (∃ t, mapFind k v.strings = some t) ∧ (v.select tr).2 = v ∨ mapFind k v.strings = none ∧ (v.select tr).2 = v.addTable k := by
    rw [hk]
    unfold VerInfo.select
    by_cases ht : tr = []
    · rw [if_pos ht]
      cases hd : mapFind defaultLang v.strings with
      | some t => exact .inl ⟨⟨t, hd⟩, rfl⟩
      | none =>
        cases hs : v.strings with
        | nil => exact .inr ⟨rfl, rfl⟩
        | cons x m => exact .inl ⟨⟨x.2, by dsimp only; exact mapFind_head x m⟩, rfl⟩
    · rw [if_neg ht]
      cases hd : mapFind tr v.strings with
      | some t => exact .inl ⟨⟨t, hd⟩, rfl⟩
      | none => exact .inr ⟨hd, rfl⟩
  rcases this with ⟨⟨t, h1⟩, h2⟩ | ⟨h1, h2⟩
  · rw [h2]
    exact ⟨fun _ _ => rfl, (fun hn => by rw [h1] at hn; cases hn)⟩
  · rw [h2]
    refine ⟨(fun t ht => by rw [h1] at ht; cases ht), fun _ y => ?_⟩
    show (addTrans _ _).count y = _
    rw [addTrans_count]
    by_cases e : y = transIds k
    · rw [if_pos e, if_pos e, e]
    · rw [if_neg e, if_neg e]

theorem mapPut_mem {κ ν : Type} [DecidableEq κ] {lt : κ → κ → Bool} {k : κ} {v : ν} : ∀ {m : List (κ × ν)} {x : κ × ν}, x ∈ mapPut lt k v m →
    x.1 = k ∨ x ∈ m
  | [], x, h => by rw [mapPut, List.mem_singleton] at h; exact .inl (by rw [h])
  | (a, b) :: m, x, h => by
    unfold mapPut at h
    by_cases h1 : k = a
    · rw [if_pos h1] at h
      rcases List.mem_cons.mp h with e | e
      · exact .inl (by rw [e, h1])
      · exact .inr (List.mem_cons_of_mem _ e)
    · rw [if_neg h1] at h
      by_cases h2 : lt k a = true
      · rw [if_pos h2] at h
        rcases List.mem_cons.mp h with e | e
        · exact .inl (by rw [e])
        · exact .inr e
      · rw [if_neg h2] at h
        rcases List.mem_cons.mp h with e | e
        · exact .inr (by rw [e]; exact List.mem_cons_self)
        · rcases mapPut_mem e with e | e
          · exact .inl e
          · exact .inr (List.mem_cons_of_mem _ e)

theorem mapPut_sorted {κ ν : Type} [DecidableEq κ] {lt : κ → κ → Bool} (ho : StrictOrd lt) {k : κ} {v : ν} {m : List (κ × ν)}
    (h : MapSorted lt m) : MapSorted lt (mapPut lt k v m) := by
  induction m with
  | nil => exact List.pairwise_singleton _ _
  | cons y m ih =>
    obtain ⟨a, b⟩ := y
    unfold MapSorted at h ⊢
    rw [List.pairwise_cons] at h
    unfold mapPut
    by_cases h1 : k = a
    · rw [if_pos h1]; exact List.pairwise_cons.mpr ⟨h.1, h.2⟩
    rw [if_neg h1]
    by_cases h2 : lt k a = true
    · rw [if_pos h2]
      refine List.pairwise_cons.mpr ⟨fun x hx => ?_, List.pairwise_cons.mpr h⟩
      rcases List.mem_cons.mp hx with e | e
      · rw [e]; exact h2
      · exact ho.trans _ _ _ h2 (h.1 x e)
    · rw [if_neg h2]
      refine List.pairwise_cons.mpr ⟨fun x hx => ?_, ih h.2⟩
      rcases mapPut_mem hx with e | e
      · show lt a x.1 = true
        rw [e]
        exact ho.tri k a (by simpa using h2) h1
      · exact h.1 x e

/-- C42: the maps stay maps: all keys ascending. -/
theorem C42_sorted (v : VerInfo) (name value tr : WStr) (h : v.strings.Sorted) (ht : v.trans.Pairwise (fun a b => a.1 ≤ b.1)) :
    (v.set name value tr).strings.Sorted ∧ (v.set name value tr).trans.Pairwise (fun a b => a.1 ≤ b.1) := by
  have hadd : ∀ k, (v.addTable k).strings.Sorted ∧ (v.addTable k).trans.Pairwise (fun a b => a.1 ≤ b.1) := by
    intro k
    refine ⟨⟨mapAdd_sorted wlt_ord _ _ h.1, fun t hm => ?_⟩, ?_⟩
    · rcases mapAdd_mem hm with e | e
      · rw [e]; exact List.Pairwise.nil
      · exact h.2 t e
    · show (addTrans _ _).Pairwise _
      unfold addTrans
      by_cases hx : transIds k ∈ v.trans
      · rw [if_pos hx]; exact ht
      · rw [if_neg hx]; exact multiAdd_sorted _ ht
  have hsel : (v.select tr).2.strings.Sorted ∧ (v.select tr).2.trans.Pairwise (fun a b => a.1 ≤ b.1) := by
    unfold VerInfo.select
    by_cases hr : tr = []
    · rw [if_pos hr]
      cases hd : mapFind defaultLang v.strings with
      | some t => exact ⟨h, ht⟩
      | none =>
        cases hs : v.strings with
        | nil => exact hadd _
        | cons x m => exact ⟨h, ht⟩
    · rw [if_neg hr]
      cases hd : mapFind tr v.strings with
      | some t => exact ⟨h, ht⟩
      | none => exact hadd _
  refine ⟨⟨?_, ?_⟩, hsel.2⟩
  · unfold VerInfo.set MapSorted
    dsimp only
    rw [List.pairwise_map]
    refine List.Pairwise.imp (fun {a b} hab => ?_) hsel.1.1
    have e : ∀ x : WStr × StrMap, (if x.1 = (v.select tr).1 then (x.1, mapPut wlt name value x.2) else x).1 = x.1 := by
      intro x; split <;> rfl
    rw [e, e]
    exact hab
  · intro t hm
    unfold VerInfo.set at hm
    dsimp only at hm
    obtain ⟨x, hx, e⟩ := List.mem_map.mp hm
    rw [← e]
    by_cases hk : x.1 = (v.select tr).1
    · rw [if_pos hk]; exact mapPut_sorted wlt_ord (hsel.1.2 x hx)
    · rw [if_neg hk]; exact hsel.1.2 x hx

/-- C42: a string that is in no table meant by the call: an exception, or the empty string. -/
theorem C42_missing (v : VerInfo) (name tr k : WStr) (h : v.Means tr k) (hn : ∀ t, mapFind k v.strings = some t → mapFind name t = none) :
    v.get name tr true = throwE .versionInfoStringDoesNotExist ∧ v.get name tr false = .ok [] := by
  have : (v.table tr).bind (mapFind name) = none := by
    rw [table_means h]
    cases e : mapFind k v.strings with
    | none => rfl
    | some t => exact hn t e
  unfold VerInfo.get
  rw [this]
  exact ⟨rfl, rfl⟩

/-! ### C64: translations and their strings -/

theorem hexVal_digit {n : Nat} (h : n < 16) : hexVal (hexDigit n) = some n := by
  unfold hexDigit hexVal
  by_cases h1 : n < 10
  · rw [if_pos h1, if_pos (by omega)]; congr 1; omega
  · rw [if_neg h1, if_neg (by omega), if_pos (by omega)]; congr 1; omega

theorem hexDigit_ne {n : Nat} (h : n < 16) : hexDigit n ≠ 120 ∧ hexDigit n ≠ 88 ∧ hexDigit n ≠ 45 ∧ hexDigit n ≠ 43 ∧ isBlank (hexDigit n) = false := by
  have : ∀ n < 16, hexDigit n ≠ 120 ∧ hexDigit n ≠ 88 ∧ hexDigit n ≠ 45 ∧ hexDigit n ≠ 43 ∧ isBlank (hexDigit n) = false := by decide
  exact this n h

theorem dropPrefix_ne {a b : Nat} {s : WStr} (h1 : b ≠ 120) (h2 : b ≠ 88) : dropPrefix (a :: b :: s) = a :: b :: s := by
  unfold dropPrefix
  split
  · rename_i e; injection e with e1 e2; injection e2 with e2 e3; exact absurd e2 h1
  · rename_i e; injection e with e1 e2; injection e2 with e2 e3; exact absurd e2 h2
  · rfl

theorem hexParse_digits {a b : Nat} {s : WStr} (ha : a < 16) (hb : b < 16) : hexParse (hexDigit a :: hexDigit b :: s) =
    min ((hexDigits (hexDigit a :: hexDigit b :: s)).foldl (fun n d => 16 * n + d) 0) 4294967295 := by
  unfold hexParse
  have h1 := hexDigit_ne ha
  have h2 := hexDigit_ne hb
  have e : (hexDigit a :: hexDigit b :: s).dropWhile isBlank = hexDigit a :: hexDigit b :: s := by
    rw [List.dropWhile_cons, h1.2.2.2.2]; rfl
  rw [e]
  split
  · rename_i e'; injection e' with e1 e2; exact absurd e1 h1.2.2.1
  · rename_i e'; injection e' with e1 e2; exact absurd e1 h1.2.2.2.1
  · unfold hexNumber
    rw [dropPrefix_ne h2.1 h2.2.1]

/-- C64: the string of a translation (`get_translation_list`) is read back as this translation (`translation_from_string`). -/
theorem C64_string_round_trip (x : Nat × Nat) (h1 : x.1 < 65536) (h2 : x.2 < 65536) : transIds (transName x) = x := by
  obtain ⟨a, b⟩ := x
  dsimp only at h1 h2
  have hp : hexParse (transName (a, b)) = a * 65536 + b := by
    unfold transName hex4
    simp only [List.cons_append, List.nil_append]
    rw [hexParse_digits (Nat.mod_lt _ (by omega)) (Nat.mod_lt _ (by omega))]
    simp only [hexDigits, hexVal_digit (Nat.mod_lt _ (show 16 > 0 by omega)), List.foldl_cons, List.foldl_nil]
    omega
  unfold transIds
  rw [hp]
  refine Prod.ext ?_ ?_ <;> dsimp only <;> omega

/-- The character `c` is the hexadecimal digit `d`, in either case. -/
def HexChar (c d : Nat) : Prop := (d < 10 ∧ c = 48 + d) ∨ (10 ≤ d ∧ d < 16 ∧ (c = 97 + (d - 10) ∨ c = 65 + (d - 10)))

theorem hexVal_iff (c d : Nat) : hexVal c = some d ↔ HexChar c d := by
  unfold hexVal HexChar
  constructor
  · intro h
    split at h
    · cases h; omega
    · split at h
      · cases h; omega
      · split at h
        · cases h; omega
        · cases h
  · intro h
    by_cases h1 : 48 ≤ c ∧ c ≤ 57
    · rw [if_pos h1]; congr 1; omega
    · rw [if_neg h1]
      by_cases h2 : 97 ≤ c ∧ c ≤ 102
      · rw [if_pos h2]; congr 1; omega
      · rw [if_neg h2, if_pos (by omega)]; congr 1; omega

theorem hexVal_none {c : Nat} (h : ∀ d, ¬ HexChar c d) : hexVal c = none := by
  cases e : hexVal c with
  | none => rfl
  | some d => exact absurd ((hexVal_iff c d).mp e) (h d)

/-- The characters `cs` are the digits `ds`. -/
inductive HexChars : WStr → List Nat → Prop where
  | nil : HexChars [] []
  | cons {c d : Nat} {cs : WStr} {ds : List Nat} : HexChar c d → HexChars cs ds → HexChars (c :: cs) (d :: ds)

theorem hexDigits_of {cs : WStr} {ds : List Nat} (h : HexChars cs ds) {rest : WStr} (hr : ∀ c t, rest = c :: t → ∀ d, ¬ HexChar c d) :
    hexDigits (cs ++ rest) = ds := by
  induction h with
  | nil =>
    cases rest with
    | nil => rfl
    | cons c t =>
      show hexDigits (c :: t) = []
      unfold hexDigits
      rw [hexVal_none (hr c t rfl)]
  | cons hc _ ih =>
    rw [List.cons_append]
    unfold hexDigits
    rw [(hexVal_iff _ _).mpr hc]
    dsimp only
    rw [ih]

/-- The number with these hexadecimal digits, most significant first. -/
def hexOf : List Nat → Nat
  | [] => 0
  | d :: ds => d * 16 ^ ds.length + hexOf ds

theorem foldl_hexOf (ds : List Nat) : ∀ n, ds.foldl (fun n d => 16 * n + d) n = n * 16 ^ ds.length + hexOf ds := by
  induction ds with
  | nil => intro n; simp [hexOf]
  | cons d ds ih =>
    intro n
    rw [List.foldl_cons, ih, hexOf, List.length_cons, Nat.pow_succ, Nat.add_mul, ← Nat.add_assoc]
    congr 2
    rw [Nat.mul_comm 16 n, Nat.mul_assoc, Nat.mul_comm 16]

theorem HexChar.plain {c d : Nat} (h : HexChar c d) : c ≠ 120 ∧ c ≠ 88 ∧ c ≠ 45 ∧ c ≠ 43 ∧ isBlank c = false := by
  unfold HexChar at h
  refine ⟨by omega, by omega, by omega, by omega, ?_⟩
  unfold isBlank
  rw [Bool.or_eq_false_iff, Bool.and_eq_false_iff]
  exact ⟨by rw [beq_eq_false_iff_ne]; omega, Or.inr (decide_eq_false (by omega))⟩

/-- A prefix of a hexadecimal number. -/
def HexPrefix (p : WStr) : Prop := p = [] ∨ p = [48, 120] ∨ p = [48, 88]

theorem dropPrefix_of {pre cs rest : WStr} {ds : List Nat} (hp : HexPrefix pre) (h : HexChars cs ds)
    (h0 : pre = [] → cs ≠ [] ∧ (cs = [48] → ∀ t, rest ≠ 120 :: t ∧ rest ≠ 88 :: t)) :
    dropPrefix (pre ++ (cs ++ rest)) = cs ++ rest := by
  rcases hp with rfl | rfl | rfl
  · obtain ⟨hne, h48⟩ := h0 rfl
    rw [List.nil_append]
    cases h with
    | nil => exact absurd rfl hne
    | @cons c d cs ds hc hcs =>
      cases hcs with
      | nil =>
        rw [List.cons_append, List.nil_append]
        unfold dropPrefix
        split
        · rename_i e; injection e with e1 e2; subst e1; exact absurd e2 (h48 rfl _).1
        · rename_i e; injection e with e1 e2; subst e1; exact absurd e2 (h48 rfl _).2
        · rfl
      | cons hc' _ =>
        rw [List.cons_append, List.cons_append]
        exact dropPrefix_ne hc'.plain.1 hc'.plain.2.1
  · rfl
  · rfl

theorem dropWhile_blanks {b t : WStr} (hb : ∀ c ∈ b, c = 32 ∨ (9 ≤ c ∧ c ≤ 13)) (ht : ∀ c s, t = c :: s → isBlank c = false) :
    (b ++ t).dropWhile isBlank = t := by
  induction b with
  | nil =>
    cases t with
    | nil => rfl
    | cons c s => rw [List.nil_append, List.dropWhile_cons, ht c s rfl]; rfl
  | cons c b ih =>
    rw [List.cons_append, List.dropWhile_cons]
    have : isBlank c = true := by
      unfold isBlank
      have := hb c List.mem_cons_self
      simp
      omega
    rw [this, if_pos rfl]
    exact ih fun x hx => hb x (List.mem_cons_of_mem _ hx)

/-- C64: what `translation_from_string` makes of a string that consists of blanks, a sign, a prefix, hexadecimal digits of either
    case and anything that is not such a digit: the number with these digits, the greatest number if it is too large, the
    negated number if the sign is a minus. -/
theorem C64_parse (b sign pre cs rest : WStr) (ds : List Nat) (hb : ∀ c ∈ b, c = 32 ∨ (9 ≤ c ∧ c ≤ 13))
    (hs : sign = [] ∨ sign = [43] ∨ sign = [45]) (hp : HexPrefix pre) (h : HexChars cs ds)
    (h0 : pre = [] → cs ≠ [] ∧ (cs = [48] → ∀ t, rest ≠ 120 :: t ∧ rest ≠ 88 :: t))
    (hr : ∀ c t, rest = c :: t → ∀ d, ¬ HexChar c d) :
    transIds (b ++ (sign ++ (pre ++ (cs ++ rest)))) =
      (fun n => (n / 65536, n % 65536)) (if 4294967296 ≤ hexOf ds then 4294967295
        else if sign = [45] then (4294967296 - hexOf ds) % 4294967296 else hexOf ds) := by
  have hd : (hexDigits (dropPrefix (pre ++ (cs ++ rest)))).foldl (fun n d => 16 * n + d) 0 = hexOf ds := by
    rw [dropPrefix_of hp h h0, hexDigits_of h hr, foldl_hexOf]; simp
  have hn : hexNumber (pre ++ (cs ++ rest)) = min (hexOf ds) 4294967295 := by unfold hexNumber; rw [hd]
  have hhead : ∀ c s, pre ++ (cs ++ rest) = c :: s → c ≠ 45 ∧ c ≠ 43 ∧ isBlank c = false := by
    intro c s e
    rcases hp with rfl | rfl | rfl
    · cases h with
      | nil => exact absurd rfl (h0 rfl).1
      | cons hc _ => injection e with e1 e2; subst e1; exact ⟨hc.plain.2.2.1, hc.plain.2.2.2.1, hc.plain.2.2.2.2⟩
    · injection e with e1 e2; subst e1; decide
    · injection e with e1 e2; subst e1; decide
  suffices hx : hexParse (b ++ (sign ++ (pre ++ (cs ++ rest)))) = (if 4294967296 ≤ hexOf ds then 4294967295
        else if sign = [45] then (4294967296 - hexOf ds) % 4294967296 else hexOf ds) by
    unfold transIds; rw [hx]
  unfold hexParse
  rcases hs with rfl | rfl | rfl
  · rw [List.nil_append, dropWhile_blanks hb fun c s e => (hhead c s e).2.2, if_neg (show ([] : WStr) ≠ [45] by decide)]
    split
    · rename_i e; exact absurd rfl (hhead _ _ e).1
    · rename_i e; exact absurd rfl (hhead _ _ e).2.1
    · rw [hn]; split <;> omega
  · rw [dropWhile_blanks hb (fun c s e => by injection e with e1 e2; subst e1; rfl), if_neg (show ([43] : WStr) ≠ [45] by decide)]
    show hexNumber (pre ++ (cs ++ rest)) = _
    rw [hn]; split <;> omega
  · rw [List.cons_append, List.nil_append, dropWhile_blanks hb (fun c s e => by injection e with e1 e2; subst e1; rfl), if_pos rfl]
    show (if (hexDigits (dropPrefix (pre ++ (cs ++ rest)))).foldl (fun n d => 16 * n + d) 0 < 4294967296 then sub32 0 (hexNumber (pre ++ (cs ++ rest))) else 4294967295) = _
    rw [hd, hn]
    unfold sub32
    split
    · rw [if_neg (by omega)]; omega
    · rw [if_pos (by omega)]

/-- " -0X1f!" is the negated number 0x1f. -/
example : transIds [32, 45, 48, 88, 49, 102, 33] = (65535, 65505) :=
  C64_parse [32] [45] [48, 88] [49, 102] [33] [1, 15] (by decide) (.inr (.inr rfl)) (.inr (.inr rfl))
    (.cons (by unfold HexChar; omega) (.cons (by unfold HexChar; omega) .nil)) (fun h => by cases h)
    (fun c t e d => by injection e with e1 _; subst e1; unfold HexChar; omega)

/-- C64: different translations have different strings of 8 characters. -/
theorem C64_strings_differ (x y : Nat × Nat) (hx1 : x.1 < 65536) (hx2 : x.2 < 65536) (hy1 : y.1 < 65536) (hy2 : y.2 < 65536) :
    (transName x).length = 8 ∧ (transName x = transName y → x = y) := by
  refine ⟨rfl, fun h => ?_⟩
  rw [← C64_string_round_trip x hx1 hx2, h, C64_string_round_trip y hy1 hy2]

/-- C64: `translation_from_string` yields two 16-bit numbers for every string. -/
theorem C64_ids_16bit (s : WStr) : (transIds s).1 < 65536 ∧ (transIds s).2 < 65536 := by
  have hn : ∀ t, hexNumber t ≤ 4294967295 := fun t => by unfold hexNumber; omega
  have : hexParse s ≤ 4294967295 := by
    unfold hexParse
    split
    · split
      · unfold sub32; omega
      · omega
    · exact hn _
    · exact hn _
  unfold transIds
  dsimp only
  omega

/-- C64: `add_translation` with a translation that is in the list changes nothing; else it is in it once, the others as before. -/
theorem C64_add (v : VerInfo) (tr : WStr) (y : Nat × Nat) :
    (v.addTranslation tr).strings = v.strings ∧
    (v.addTranslation tr).trans.count y = if y = transIds tr then max 1 (v.trans.count y) else v.trans.count y := by
  refine ⟨rfl, ?_⟩
  show (addTrans _ _).count y = _
  rw [addTrans_count]
  by_cases e : y = transIds tr
  · rw [if_pos e, if_pos e, e]
  · rw [if_neg e, if_neg e]

/-- C64: `remove_translation` with the string of a translation removes its table and (once) its translation, and nothing else. -/
theorem C64_remove (v : VerInfo) (x : Nat × Nat) (h1 : x.1 < 65536) (h2 : x.2 < 65536) :
    (∀ k, mapFind k (v.removeTranslation (transName x)).strings = if k = transName x then none else mapFind k v.strings) ∧
    (∀ y, (v.removeTranslation (transName x)).trans.count y = v.trans.count y - if y = x then 1 else 0) := by
  unfold VerInfo.removeTranslation
  rw [C64_string_round_trip x h1 h2]
  unfold VerInfo.removeIds
  dsimp only
  constructor
  · intro k
    generalize transName x = n
    induction v.strings with
    | nil => by_cases h : k = n <;> simp [mapFind, h]
    | cons z m ih =>
      obtain ⟨a, b⟩ := z
      rw [List.filter_cons]
      dsimp only
      by_cases ha : a = n
      · rw [if_neg (by simp [ha]), ih, mapFind_cons]
        by_cases hk : k = n
        · rw [if_pos hk, if_pos hk]
        · rw [if_neg hk, if_neg hk, if_neg (fun e => hk (e.symm.trans ha))]
      · rw [if_pos (by simp [ha]), mapFind_cons, ih, mapFind_cons]
        by_cases hk : k = n
        · rw [if_pos hk, if_pos hk, if_neg (fun e => ha (e.trans hk))]
        · rw [if_neg hk, if_neg hk]
  · intro y
    rw [List.count_erase]
    by_cases h : y = x
    · subst h; simp
    · simp [h, Ne.symm h]

/-- C64: removing a translation that was just added (and was not there) yields the former list. -/
theorem C64_add_remove (v : VerInfo) (x : Nat × Nat) (h1 : x.1 < 65536) (h2 : x.2 < 65536) (hn : x ∉ v.trans)
    (hk : mapFind (transName x) v.strings = none) : (v.addTranslation (transName x)).removeTranslation (transName x) = v := by
  obtain ⟨ss, ts⟩ := v
  unfold VerInfo.removeTranslation VerInfo.addTranslation VerInfo.removeIds addTrans
  rw [C64_string_round_trip x h1 h2]
  dsimp only at hn hk ⊢
  rw [if_neg hn]
  congr 1
  · refine List.filter_eq_self.mpr (fun a ha => decide_eq_true (fun e => ?_))
    rw [← e] at hk
    unfold mapFind at hk
    rw [Option.map_eq_none_iff, List.find?_eq_none] at hk
    exact hk a ha (decide_eq_true rfl)
  · clear hk
    induction ts with
    | nil => simp [multiAdd]
    | cons z m ih =>
      have hz : z ≠ x := fun e => hn (by rw [e]; exact List.mem_cons_self)
      unfold multiAdd
      by_cases hx : x.1 < z.1
      · rw [if_pos hx, List.erase_cons_head]
      · rw [if_neg hx, List.erase_cons_tail (by simpa using hz), ih (fun h => hn (List.mem_cons_of_mem _ h))]

/-- C64, for other strings it does not hold: "041904B0" means the same translation, but `remove_translation` leaves the table of this name
    in place, while the translation is gone. -/
theorem C64_upper_case : ∃ (v : VerInfo) (tr name value : WStr), v.get name tr true = .ok value ∧ transIds tr ∈ v.trans ∧
    transIds tr ∉ (v.removeTranslation tr).trans ∧ (v.removeTranslation tr).get name tr true = .ok value := by
  refine ⟨(⟨[], []⟩ : VerInfo).set [65] [66] [48, 52, 49, 57, 48, 52, 66, 48], [48, 52, 49, 57, 48, 52, 66, 48], [65], [66], C42_get_after_set _ _ _ _ _,
    by decide, by decide, ?_⟩
  decide +kernel

/-! ### The hypotheses can be met -/

def demoInfo : VerInfo := ⟨demoStrings, demoTrans⟩

example : demoInfo.Means [] defaultLang ∧ demoInfo.Means [65] [65] ∧ mapFind [65] demoInfo.strings = none :=
  ⟨.inr (.inl ⟨rfl, rfl, .inr ⟨_, rfl⟩⟩), .inl ⟨by decide, rfl⟩, rfl⟩

example : demoInfo.strings.Sorted ∧ demoInfo.trans.Pairwise (fun a b => a.1 ≤ b.1) := ⟨demoVer_ok.sorted, demoVer_ok.trans.1⟩

example : (0x409, 0x4e4) ∉ demoInfo.trans ∧ mapFind (transName (0x409, 0x4e4)) demoInfo.strings = none := by decide

end PE
