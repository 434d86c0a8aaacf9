/-
Helper lemmas: the export directory after `rebuild_exports`.
-/
import Verif.Lemmas.Exports
import Verif.Lemmas.LoadConfig
import Verif.Props.BoundImport

namespace PE

/-! ### The order of names -/

theorem bytesLe_lt {a b : Bytes} (h : bytesLe a b = true) (hne : a ≠ b) : a < b := by
  induction a generalizing b with
  | nil =>
    cases b with
    | nil => exact absurd rfl hne
    | cons y ys => exact List.nil_lt_cons _ _
  | cons x xs ih =>
    cases b with
    | nil => simp [bytesLe] at h
    | cons y ys =>
      rw [bytesLe] at h
      rw [List.cons_lt_cons_iff]
      split at h
      · left; assumption
      · next h1 =>
        split at h
        · simp at h
        · next h2 =>
          have hxy : x = y := by
            have h1 : y ≤ x := UInt8.not_lt.mp h1
            have h2 : x ≤ y := UInt8.not_lt.mp h2
            exact UInt8.le_antisymm h2 h1
          subst hxy
          exact Or.inr ⟨rfl, ih h (fun hc => hne (by rw [hc]))⟩

theorem bytesLe_total (a b : Bytes) : bytesLe a b = true ∨ bytesLe b a = true := by
  induction a generalizing b with
  | nil => left; rfl
  | cons x xs ih =>
    cases b with
    | nil => right; rfl
    | cons y ys =>
      rw [bytesLe, bytesLe]
      by_cases h1 : x < y
      · left; rw [if_pos h1]
      · by_cases h2 : y < x
        · right; rw [if_pos h2]
        · rw [if_neg h1, if_neg h2, if_neg h1, if_neg h2]; exact ih ys

theorem bytesLe_refl (a : Bytes) : bytesLe a a = true := by
  rcases bytesLe_total a a with h | h <;> exact h

theorem lt_bytesLe {a b : Bytes} (h : a < b) : bytesLe a b = true := by
  induction a generalizing b with
  | nil => rfl
  | cons x xs ih =>
    cases b with
    | nil => exact absurd h (List.not_lt_nil _)
    | cons y ys =>
      rw [List.cons_lt_cons_iff] at h
      rw [bytesLe]
      rcases h with h | ⟨h, h'⟩
      · rw [if_pos h]
      · subst h
        rw [if_neg (UInt8.lt_irrefl x), if_neg (UInt8.lt_irrefl x)]; exact ih h'

theorem bytes_lt_trans {a b c : Bytes} (h1 : a < b) (h2 : b < c) : a < c := by
  induction a generalizing b c with
  | nil =>
    cases c with
    | nil => exact absurd h2 (List.not_lt_nil _)
    | cons z zs => exact List.nil_lt_cons _ _
  | cons x xs ih =>
    cases b with
    | nil => exact absurd h1 (List.not_lt_nil _)
    | cons y ys =>
      cases c with
      | nil => exact absurd h2 (List.not_lt_nil _)
      | cons z zs =>
        rw [List.cons_lt_cons_iff] at *
        rcases h1 with h1 | ⟨rfl, h1⟩ <;> rcases h2 with h2 | ⟨rfl, h2⟩
        · exact Or.inl (UInt8.lt_trans h1 h2)
        · exact Or.inl h1
        · exact Or.inl h2
        · exact Or.inr ⟨rfl, ih h1 h2⟩

theorem bytes_lt_irrefl (a : Bytes) : ¬ a < a := by
  induction a with
  | nil => exact List.not_lt_nil _
  | cons x xs ih =>
    rw [List.cons_lt_cons_iff]
    rintro (h | ⟨-, h⟩)
    · exact UInt8.lt_irrefl x h
    · exact ih h

theorem bytesLe_trans {a b c : Bytes} (h1 : bytesLe a b = true) (h2 : bytesLe b c = true) : bytesLe a c = true := by
  by_cases e1 : a = b
  · rw [e1]; exact h2
  · by_cases e2 : b = c
    · rw [← e2]; exact h1
    · exact lt_bytesLe (bytes_lt_trans (bytesLe_lt h1 e1) (bytesLe_lt h2 e2))

/-! ### Facts about the list -/

theorem foldl_min_eq (l : List ExportFn) (a lo : Nat) (h1 : ∀ f ∈ l, lo ≤ f.ordinal) (h2 : lo ≤ a)
    (h3 : a = lo ∨ ∃ f ∈ l, f.ordinal = lo) : l.foldl (fun m f => min m f.ordinal) a = lo := by
  induction l generalizing a with
  | nil =>
    rcases h3 with h3 | ⟨f, hf, _⟩
    · exact h3
    · simp at hf
  | cons f l ih =>
    rw [List.foldl_cons]
    have hf := h1 f List.mem_cons_self
    refine ih _ (fun g hg => h1 g (List.mem_cons_of_mem _ hg)) (by omega) ?_
    rcases h3 with h3 | ⟨g, hg, h3⟩
    · left; omega
    · rcases List.mem_cons.mp hg with rfl | hg
      · left; omega
      · right; exact ⟨g, hg, h3⟩

theorem foldl_max_eq (l : List ExportFn) (a hi : Nat) (h1 : ∀ f ∈ l, f.ordinal ≤ hi) (h2 : a ≤ hi)
    (h3 : a = hi ∨ ∃ f ∈ l, f.ordinal = hi) : l.foldl (fun m f => max m f.ordinal) a = hi := by
  induction l generalizing a with
  | nil =>
    rcases h3 with h3 | ⟨f, hf, _⟩
    · exact h3
    · simp at hf
  | cons f l ih =>
    rw [List.foldl_cons]
    have hf := h1 f List.mem_cons_self
    refine ih _ (fun g hg => h1 g (List.mem_cons_of_mem _ hg)) (by omega) ?_
    rcases h3 with h3 | ⟨g, hg, h3⟩
    · left; omega
    · rcases List.mem_cons.mp hg with rfl | hg
      · left; omega
      · right; exact ⟨g, hg, h3⟩

/-- The duplicate check succeeds exactly if nothing is doubled (and new with respect to what was seen). -/
theorem exportDup_spec (l : List ExportFn) (os : List Nat) (ns : List Bytes) :
    (exportDup os ns l = .ok () ∧ (l.map ExportFn.ordinal).Nodup ∧ (namesOf l).Nodup ∧
      (∀ f ∈ l, f.ordinal ∉ os) ∧ ∀ n ∈ namesOf l, n ∉ ns) ∨
    (exportDup os ns l = throwE .duplicateExportedFunctionOrdinal ∧
      ¬ ((l.map ExportFn.ordinal).Nodup ∧ ∀ f ∈ l, f.ordinal ∉ os)) ∨
    (exportDup os ns l = throwE .duplicateExportedFunctionName ∧ ¬ ((namesOf l).Nodup ∧ ∀ n ∈ namesOf l, n ∉ ns)) := by
  induction l generalizing os ns with
  | nil => left; simp [exportDup, namesOf]
  | cons f l ih =>
    rw [exportDup]
    by_cases h1 : f.ordinal ∈ os
    · rw [if_pos h1]
      right; left
      exact ⟨rfl, fun h => h.2 f List.mem_cons_self h1⟩
    · rw [if_neg h1]
      have hnd : ∀ os' : List Nat, (f.ordinal ∈ os') → (∀ x, x ∈ os' ↔ x = f.ordinal ∨ x ∈ os) →
          (((l.map ExportFn.ordinal).Nodup ∧ ∀ g ∈ l, g.ordinal ∉ os') ↔
            (((f :: l).map ExportFn.ordinal).Nodup ∧ ∀ g ∈ f :: l, g.ordinal ∉ os)) := by
        intro os' _ h'
        simp only [List.map_cons, List.nodup_cons, List.mem_map, not_exists, not_and, List.forall_mem_cons, h', not_or]
        constructor
        · rintro ⟨a, b⟩; exact ⟨⟨fun g hg => (b g hg).1, a⟩, h1, fun g hg => (b g hg).2⟩
        · rintro ⟨⟨a, b⟩, _, c⟩; exact ⟨b, fun g hg => ⟨a g hg, c g hg⟩⟩
      have ho := hnd (f.ordinal :: os) List.mem_cons_self (fun x => List.mem_cons)
      by_cases h2 : f.name = []
      · rw [if_neg (by simp [h2])]
        have hn : namesOf (f :: l) = namesOf l := by unfold namesOf; rw [List.filter_cons_of_neg (by simp [h2])]
        rw [hn]
        rcases ih (f.ordinal :: os) ns with ⟨a, b, c, d, e⟩ | ⟨a, b⟩ | ⟨a, b⟩
        · left
          have := ho.mp ⟨b, d⟩
          exact ⟨a, this.1, c, this.2, e⟩
        · right; left; exact ⟨a, fun h => b (ho.mpr h)⟩
        · right; right; exact ⟨a, b⟩
      · rw [if_pos h2]
        have hn : namesOf (f :: l) = f.name :: namesOf l := by
          unfold namesOf; rw [List.filter_cons_of_pos (by simp [h2]), List.map_cons]
        rw [hn]
        by_cases h3 : f.name ∈ ns
        · rw [if_pos h3]
          right; right
          exact ⟨rfl, fun h => h.2 f.name List.mem_cons_self h3⟩
        · rw [if_neg h3]
          have hnn : ((namesOf l).Nodup ∧ ∀ n ∈ namesOf l, n ∉ f.name :: ns) ↔
              ((f.name :: namesOf l).Nodup ∧ ∀ n ∈ f.name :: namesOf l, n ∉ ns) := by
            rw [List.forall_mem_cons]
            simp only [List.nodup_cons, List.mem_cons, not_or]
            constructor
            · rintro ⟨a, b⟩
              exact ⟨⟨fun hc => (b _ hc).1 rfl, a⟩, h3, fun n hn => (b n hn).2⟩
            · rintro ⟨⟨a, b⟩, _, c⟩
              exact ⟨b, fun n hn => ⟨fun hc => a (hc ▸ hn), c n hn⟩⟩
          rcases ih (f.ordinal :: os) (f.name :: ns) with ⟨a, b, c, d, e⟩ | ⟨a, b⟩ | ⟨a, b⟩
          · left
            have t1 := ho.mp ⟨b, d⟩
            have t2 := hnn.mp ⟨c, e⟩
            exact ⟨a, t1.1, t2.1, t1.2, t2.2⟩
          · right; left; exact ⟨a, fun h => b (ho.mpr h)⟩
          · right; right; exact ⟨a, fun h => b (hnn.mpr h)⟩

theorem slotCount_eq (l : List ExportFn) (nx hi : Nat) (h1 : ∀ f ∈ l, nx ≤ f.ordinal ∧ f.ordinal ≤ hi)
    (h2 : ∃ f ∈ l, f.ordinal = hi) (h3 : l.Pairwise (fun a b => a.ordinal < b.ordinal)) : slotCount nx l = hi + 1 - nx := by
  induction l generalizing nx with
  | nil => obtain ⟨f, hf, _⟩ := h2; simp at hf
  | cons f l ih =>
    rw [List.pairwise_cons] at h3
    have hf := h1 f List.mem_cons_self
    rw [slotCount]
    cases l with
    | nil =>
      obtain ⟨g, hg, h2⟩ := h2
      rw [List.mem_singleton] at hg
      subst hg
      simp only [slotCount]; omega
    | cons g l =>
      have hg := h3.1 g List.mem_cons_self
      have := h1 g (by simp)
      rw [ih (f.ordinal + 1) (fun e he => ⟨h3.1 e he, (h1 e (List.mem_cons_of_mem _ he)).2⟩) ?_ h3.2]
      · omega
      · obtain ⟨e, he, h2⟩ := h2
        rcases List.mem_cons.mp he with rfl | he
        · exfalso; omega
        · exact ⟨e, he, h2⟩

theorem length_le_slotCount (l : List ExportFn) (nx : Nat) : l.length ≤ slotCount nx l := by
  induction l generalizing nx with
  | nil => exact Nat.le_refl _
  | cons f l ih => rw [List.length_cons, slotCount]; have := ih (f.ordinal + 1); omega

theorem eq_of_nodup_map {α β : Type} {f : α → β} {l : List α} (h : (l.map f).Nodup) {a b : α} (ha : a ∈ l) (hb : b ∈ l)
    (hab : f a = f b) : a = b := by
  induction l with
  | nil => simp at ha
  | cons x l ih =>
    rw [List.map_cons, List.nodup_cons] at h
    rcases List.mem_cons.mp ha with ha' | ha' <;> rcases List.mem_cons.mp hb with hb' | hb'
    · rw [ha', hb']
    · exact absurd (List.mem_map.mpr ⟨b, hb', by rw [← hab, ha']⟩) h.1
    · exact absurd (List.mem_map.mpr ⟨a, ha', by rw [hab, hb']⟩) h.1
    · exact ih h.2 ha' hb'

theorem find?_unique {es : List (Bytes × Nat)} {k : Nat} {e : Bytes × Nat} (he : e ∈ es) (hk : e.2 = k)
    (hu : ∀ e' ∈ es, e'.2 = k → e' = e) : es.find? (fun e => e.2 == k) = some e := by
  cases h : es.find? (fun e => e.2 == k) with
  | none =>
    rw [List.find?_eq_none] at h
    exact absurd (beq_iff_eq.mpr hk) (h e he)
  | some e' =>
    have h1 := List.mem_of_find?_eq_some h
    have h2 := List.find?_some h
    rw [hu e' h1 (beq_iff_eq.mp h2)]

/-! ### The sorted list -/

/-- The list sorted by ordinals. -/
def sortedFns (l : List ExportFn) : List ExportFn := sortBy (fun a b => decide (a.ordinal ≤ b.ordinal)) l

theorem sortedFns_perm (l : List ExportFn) : (sortedFns l).Perm l := sortBy_perm _ l

theorem sortedFns_lt {l : List ExportFn} (h : (l.map ExportFn.ordinal).Nodup) :
    (sortedFns l).Pairwise (fun a b => a.ordinal < b.ordinal) := by
  have h1 := sortBy_sorted (fun a b : ExportFn => decide (a.ordinal ≤ b.ordinal))
    (fun a b c => by simp only [decide_eq_true_eq]; omega) (fun a b => by simp only [decide_eq_true_eq]; omega) l
  have h2 : ((sortedFns l).map ExportFn.ordinal).Nodup := ((sortedFns_perm l).map _).nodup_iff.mpr h
  unfold List.Nodup at h2
  rw [List.pairwise_map] at h2
  refine (List.Pairwise.and h1 h2).imp ?_
  rintro a b ⟨h3, h4⟩
  have := of_decide_eq_true h3
  omega

theorem mem_exportNames {base : Nat} {l : List ExportFn} {e : Bytes × Nat} : e ∈ exportNames base l ↔
    ∃ f ∈ l, f.name ≠ [] ∧ e = (f.name, w16 (sub32 f.ordinal base)) := by
  unfold exportNames
  rw [(sortBy_perm _ _).mem_iff, List.mem_map]
  constructor
  · rintro ⟨f, hf, rfl⟩
    rw [List.mem_filter] at hf
    exact ⟨f, hf.1, of_decide_eq_true hf.2, rfl⟩
  · rintro ⟨f, hf, hn, rfl⟩
    exact ⟨f, List.mem_filter.mpr ⟨hf, decide_eq_true hn⟩, rfl⟩

theorem exportNames_length (base : Nat) (l : List ExportFn) :
    (exportNames base l).length = (l.filter (fun f => decide (f.name ≠ []))).length := by
  unfold exportNames
  rw [(sortBy_perm _ _).length_eq, List.length_map]

theorem exportNames_str (base : Nat) (l : List ExportFn) :
    (nameStrBytes (exportNames base l)).length = (l.map (fun f => strSize f.name)).sum := by
  rw [nameStrBytes_length]
  unfold exportNames
  rw [((sortBy_perm _ _).map _).sum_nat, List.map_map]
  induction l with
  | nil => rfl
  | cons f l ih =>
    by_cases h : f.name = []
    · rw [List.filter_cons_of_neg (by simp [h]), ih, List.map_cons, List.sum_cons]; simp [strSize, h]
    · rw [List.filter_cons_of_pos (by simp [h]), List.map_cons, List.sum_cons, ih, List.map_cons, List.sum_cons]
      simp [strSize, h]

/-- The name table is strictly ascending. -/
theorem exportNames_sorted {base : Nat} {l : List ExportFn} (h : (namesOf l).Nodup) :
    (exportNames base l).Pairwise (fun a b => a.1 < b.1) := by
  have h1 := sortBy_sorted (fun a b : Bytes × Nat => bytesLe a.1 b.1) (fun a b c => bytesLe_trans)
    (fun a b => bytesLe_total _ _)
    ((l.filter (fun f => decide (f.name ≠ []))).map (fun f => (f.name, w16 (sub32 f.ordinal base))))
  have h2 : ((exportNames base l).map Prod.fst).Nodup := by
    unfold exportNames
    rw [((sortBy_perm _ _).map _).nodup_iff, List.map_map]
    exact h
  unfold List.Nodup at h2
  rw [List.pairwise_map] at h2
  exact (List.Pairwise.and h1 h2).imp (fun ⟨h3, h4⟩ => bytesLe_lt h3 h4)


theorem namedSum (l : List ExportFn) :
    (l.map (fun f => if f.name = [] then 0 else f.name.length + 1 + 4 + 2)).sum =
      (l.map (fun f => strSize f.name)).sum + (l.filter (fun f => decide (f.name ≠ []))).length * 4 +
      (l.filter (fun f => decide (f.name ≠ []))).length * 2 := by
  induction l with
  | nil => rfl
  | cons f l ih =>
    by_cases h : f.name = []
    · rw [List.filter_cons_of_neg (by simp [h])]; simp only [List.map_cons, List.sum_cons, if_pos h, strSize]; simp only [strSize] at ih; omega
    · rw [List.filter_cons_of_pos (by simp [h])]; simp only [List.map_cons, List.sum_cons, if_neg h, strSize, List.length_cons]; simp only [strSize] at ih; omega

theorem readBack_shown (va base pf : Nat) (l : List ExportFn) :
    (readBack va base pf l).map ExportFn.shown = l.map ExportFn.shown := by
  induction l generalizing pf with
  | nil => rfl
  | cons f l ih =>
    rw [readBack, List.map_cons, List.map_cons, ih]
    refine congrArg (· :: _) ?_
    unfold ExportFn.shown
    by_cases h : f.fwd = [] <;> simp [h]

theorem readBack_mem {va base pf : Nat} {l : List ExportFn} {g : ExportFn} (h : g ∈ readBack va base pf l) :
    g.nameOrdinal = if g.name = [] then 0 else g.ordinal - base := by
  induction l generalizing pf with
  | nil => simp [readBack] at h
  | cons f l ih =>
    rw [readBack, List.mem_cons] at h
    rcases h with rfl | h
    · rfl
    · exact ih h

theorem readBack_ordinals (va base pf : Nat) (l : List ExportFn) :
    (readBack va base pf l).map ExportFn.ordinal = l.map ExportFn.ordinal := by
  induction l generalizing pf with
  | nil => rfl
  | cons f l ih => rw [readBack, List.map_cons, List.map_cons, ih]

theorem nameTable_scan {p : Image} {va : Nat} {m : Bytes} {s : Sec} (h : Window p va m s) (pr0 po0 : Nat) :
    ∀ (es : List (Bytes × Nat)) (ps i : Nat), At m (pr0 + i * 4) (nameRvaBytes va ps es) → At m ps (nameStrBytes es) →
      At m (po0 + i * 2) (nameOrdBytes es) → (∀ e ∈ es, e.2 < 2 ^ 16 ∧ ∀ c ∈ e.1, c ≠ 0) →
      nameTable p (va + pr0) (va + po0) es.length i = .ok es := by
  intro es
  induction es with
  | nil => intro ps i _ _ _ _; rfl
  | cons e es ih =>
    intro ps i h1 h2 h3 h5
    have hf := h.fin
    simp only [nameRvaBytes] at h1
    simp only [nameStrBytes] at h2
    simp only [nameOrdBytes] at h3
    have l1 := h1.1
    have l2 := h2.1
    have l3 := h3.1
    simp only [List.length_append, List.length_singleton, leBytes_length] at l1 l2 l3
    obtain ⟨o1, o2⟩ := h5 e List.mem_cons_self
    rw [List.length_cons, nameTable]
    rw [show va + pr0 + 4 * i = va + (pr0 + i * 4) by omega, show va + po0 + 2 * i = va + (po0 + i * 2) by omega,
      h.readInt_at true h1.left (by omega) (by omega), ok_bind, h.ptr true ps (by omega), ok_bind]
    dsimp only
    rw [h2.left.readCStr o2, ok_bind, h.readInt_at true h3.left (by omega) (by omega), ok_bind,
      ih (ps + (e.1.length + 1)) (i + 1) (h1.right (by rw [leBytes_length]; omega))
        (h2.right (by simp only [List.length_append, List.length_singleton])) (h3.right (by rw [leBytes_length]; omega))
        (fun e he => h5 e (List.mem_cons_of_mem _ he)), ok_bind]

theorem exportFields_rd (i : ExportInfo) (nr : Nat) (h : i.Writable) (h1 : i.base < 2 ^ 32) (h2 : i.numFuncs < 2 ^ 32)
    (h3 : i.numNames < 2 ^ 32) (h4 : i.rvaFuncs < 2 ^ 32) (h5 : i.rvaNames < 2 ^ 32) (h6 : i.rvaOrds < 2 ^ 32) (h7 : nr < 2 ^ 32) :
    rd 4 (encFields (exportDirFields i nr)) 0 = i.chars ∧ rd 4 (encFields (exportDirFields i nr)) 4 = i.stamp ∧
    rd 2 (encFields (exportDirFields i nr)) 8 = i.major ∧ rd 2 (encFields (exportDirFields i nr)) 10 = i.minor ∧
    rd 4 (encFields (exportDirFields i nr)) 12 = nr ∧ rd 4 (encFields (exportDirFields i nr)) 16 = i.base ∧
    rd 4 (encFields (exportDirFields i nr)) 20 = i.numFuncs ∧ rd 4 (encFields (exportDirFields i nr)) 24 = i.numNames ∧
    rd 4 (encFields (exportDirFields i nr)) 28 = i.rvaFuncs ∧ rd 4 (encFields (exportDirFields i nr)) 32 = i.rvaNames ∧
    rd 4 (encFields (exportDirFields i nr)) 36 = i.rvaOrds := by
  obtain ⟨c1, c2, c3, c4, -⟩ := h
  have hfs : ∀ f ∈ exportDirFields i nr, f.2 < 256 ^ f.1 := by
    unfold exportDirFields
    simp only [List.forall_mem_cons]
    refine ⟨by omega, by omega, by omega, by omega, by omega, by omega, by omega, by omega, by omega, by omega, by omega, by simp⟩
  have key : ∀ k w v off, (exportDirFields i nr)[k]? = some (w, v) → (((exportDirFields i nr).take k).map Prod.fst).sum = off →
      rd w (encFields (exportDirFields i nr)) off = v := by
    intro k w v off ha hb
    have := rd_enc_nth [] hfs ha hb
    rwa [List.append_nil] at this
  exact ⟨key 0 _ _ _ rfl rfl, key 1 _ _ _ rfl rfl, key 2 _ _ _ rfl rfl, key 3 _ _ _ rfl rfl, key 4 _ _ _ rfl rfl,
    key 5 _ _ _ rfl rfl, key 6 _ _ _ rfl rfl, key 7 _ _ _ rfl rfl, key 8 _ _ _ rfl rfl, key 9 _ _ _ rfl rfl, key 10 _ _ _ rfl rfl⟩


theorem Window.length_dvd {q : Image} {va : Nat} {m : Bytes} {s : Sec} (h : Window q va m s) (hv : ValidTable q)
    (hm : 0 < m.length) : q.nt.secAlign ∣ m.length := by
  have h1 := h.len false 0 hm
  have hf := hv.fits s h.smem
  have hfin := hf.fin
  have hva := h.sva
  unfold Image.dataLenFrom at h1
  rw [if_neg (by rintro ⟨h, -⟩; cases h), h.sec 0 hm, ok_bind, if_neg (by omega)] at h1
  have h2 := Except.ok.inj h1
  simp only [Sec.viewLen] at h2
  rw [Sec.alignedVS_eq hv.sa hf, w32, Nat.mod_eq_of_lt (by omega)] at h2
  rw [show m.length = s.span q.nt.secAlign by omega]
  exact ceilTo_dvd _ _

set_option maxHeartbeats 2000000 in
/-- Reading the directory back. -/
theorem exports_read {q : Image} {va : Nat} {m : Bytes} {s : Sec} (hwin : Window q va m s) {start size : Nat}
    (hd1 : q.nt.getDirRva dirExport = .ok (va + start)) (hd2 : q.nt.getDirSize dirExport = .ok size)
    (hd3 : q.hasDir dirExport = .ok true) {dd : Bytes} {inf : ExportInfo} {name : Bytes}
    (hrds : rd 4 dd 0 = inf.chars ∧ rd 4 dd 4 = inf.stamp ∧ rd 2 dd 8 = inf.major ∧ rd 2 dd 10 = inf.minor ∧
      rd 4 dd 12 = va + (start + 40) ∧ rd 4 dd 16 = inf.base ∧ rd 4 dd 20 = inf.numFuncs ∧ rd 4 dd 24 = inf.numNames ∧
      rd 4 dd 28 = inf.rvaFuncs ∧ rd 4 dd 32 = inf.rvaNames ∧ rd 4 dd 36 = inf.rvaOrds)
    (hinfo : ∀ c ∈ name, c ≠ 0) {base nf nn pN pO pF pA pR : Nat} (i0 : inf.name = name) (i1 : inf.base = base)
    (i2 : inf.numFuncs = nf) (i3 : inf.numNames = nn) (i4 : inf.rvaFuncs = va + pA) (i5 : inf.rvaNames = va + pR)
    (i6 : inf.rvaOrds = va + pO) (hdl : dd.length = 40) {S : List ExportFn} {es : List (Bytes × Nat)}
    (hnn : es.length = nn) (hnf : slotCount base S = nf) (hle : nn ≤ nf) (hnf0 : 0 < nf) (hnf1 : nf ≤ 2 ^ 16)
    (p0 : start + 40 + 1 ≤ pN) (p1 : pN + (nameStrBytes es).length = pO) (p2 : pO + nn * 2 = pF)
    (p3 : pF + (fwdBytes S).length = pA) (p4 : pA + nf * 4 = pR) (p5 : pR + nn * 4 = start + size) (p6 : start + size ≤ m.length)
    (p7 : nn = 0 → start + size < m.length)
    (g1 : At m start dd) (g2 : At m (start + 40) (name ++ [0])) (g3 : At m pA (addrBytes va base pF S)) (g4 : At m pF (fwdBytes S))
    (g5 : At m pR (nameRvaBytes va pN es)) (g6 : At m pN (nameStrBytes es)) (g7 : At m pO (nameOrdBytes es))
    (hE2 : ∀ e ∈ es, e.2 < 2 ^ 16 ∧ ∀ c ∈ e.1, c ≠ 0) (hS1 : ∀ f ∈ S, base ≤ f.ordinal)
    (hS2 : S.Pairwise (fun a b => a.ordinal < b.ordinal)) (hS3 : ∀ f ∈ S, f.Writable)
    (hS4 : ∀ f ∈ S, f.name ≠ [] → f.fwd = [] → ¬ (va + start + 4 ≤ f.rva ∧ f.rva < va + start + size))
    (hfind : ∀ f ∈ S, (es.find? (fun e => e.2 == f.ordinal - base)).map Prod.fst = if f.name = [] then none else some f.name) :
    q.getExports = .ok (some inf, readBack va base pF S) := by
  have hf := hwin.fin
  have hpR : pR < m.length := by omega
  clear p7
  obtain ⟨r1, r2, r3, r4, r5, r6, r7, r8, r9, r10, r11⟩ := hrds
  have wid : ∀ x, x < 2 ^ 32 → w32 x = x := fun x hx => by rw [w32, Nat.mod_eq_of_lt hx]
  have hex : q.exportInfo dd = .ok inf := by
    unfold Image.exportInfo
    rw [r5, hwin.exportStr g2 (by omega) hinfo, ok_bind, r1, r2, r3, r4, r6, r7, r8, r9, r10, r11, ← i0]
  have hss : ∀ a b, a + b < 2 ^ 32 → isSumSafe a (w32 b) = true := by
    intro a b h; rw [wid b (by omega)]; unfold isSumSafe; rw [decide_eq_true (by omega)]
  have hss' : isSumSafe (va + start) size = true := by unfold isSumSafe; rw [decide_eq_true (by omega)]
  have hck : q.exportCheck dd (va + start) size = .ok () := by
    unfold Image.exportCheck
    rw [r7, r8, r9, r10, r11, i2, i3, i4, i5, i6, throwIf_neg (by omega), ok_bind,
      hss (va + pA) (nf * 4) (by omega), hss (va + pR) (nn * 4) (by omega),
      throwIf_neg (by
        rw [hss (va + pO) (nf * 4) (by omega), hss']
        simp only [Bool.true_eq_false, or_false]
        omega), ok_bind,
      hwin.len true pA (by omega), ok_bind, throwIf_neg (by omega), ok_bind, if_pos (by omega),
      hwin.len true pO (by omega), ok_bind, throwIf_neg (by omega), ok_bind,
      hwin.len true pR (by omega), ok_bind, throwIf_neg (by omega)]
  have hloop : q.exportLoop dd (va + start) size nf 0 = .ok (readBack va base pF S) := by
    have := exportLoop_eq hwin (d := dd) (start := start) (size := size) (P := pA) (base := base) (by rw [r9, i4])
      (by rw [r6, i1]) (by omega) S base pF (Nat.le_refl _) (by simpa using g3) g4 (by omega) (by omega) p6 hS1 hS2 hS3 hS4
      (fun f hf => by
        rw [r11, r10, r8, i5, i6, i3, ← hfind f hf, ← hnn]
        exact exportName_scan hwin _ pR pO es pN 0 (by simpa using g5) g6 (by simpa using g7) (by omega) hE2)
    rwa [Nat.sub_self, hnf] at this
  unfold Image.getExports
  rw [hd3, ok_bind, if_pos rfl, hd1, ok_bind, hd2, ok_bind, hwin.len true start (by omega), ok_bind,
    throwIf_neg (by omega), ok_bind, hwin.readT true start 40 (by omega) (by omega), ok_bind,
    show slice m start 40 = dd by rw [← hdl]; exact g1.2, hex, ok_bind, r7, i2, if_neg (by omega), hck, ok_bind, hloop, ok_bind]

set_option maxHeartbeats 4000000 in
/-- What the rebuilder writes, and what is read. -/
theorem exports_lasting (p : Image) (i off : Nat) (s : Sec) (info : ExportInfo) (l : List ExportFn) (strip : Bool)
    (lo hi start size : Nat) (hh : Host p i s) (hdirs : p.nt.DirsOk) (hnum : dirExport < p.nt.numRva)
    (hinfo : info.Writable) (hl : ExportsOk l) (hrange : OrdinalRange l lo hi)
    (hoff : off < 2 ^ 32 - 4) (hstart : start = ceilTo off 4) (hsize : size = exportSize info l lo hi)
    (hroom : HostRoom p i s (start + size))
    (hend : namesOf l ≠ [] ∨ start + size < s.data.length ∨ ¬ p.nt.secAlign ∣ start + size)
    (hout : ∀ f ∈ l, f.name ≠ [] → f.fwd = [] → ¬ (s.va + start + 4 ≤ f.rva ∧ f.rva < s.va + start + size)) :
    ∃ (q : Image) (inf : ExportInfo) (pf : Nat), p.rebuildExports info l i off true strip = .ok (q, (s.va + start, size)) ∧
      RebuiltIn p q i s start size dirExport (s.va + start, size) ∧
      (inf.chars = info.chars ∧ inf.stamp = info.stamp ∧ inf.major = info.major ∧ inf.minor = info.minor ∧
        inf.name = info.name ∧ inf.base = lo ∧ inf.numFuncs = hi - lo + 1 ∧ inf.numNames = (namesOf l).length) ∧
      Durable p q i s start size dirExport (s.va + start, size) strip false (fun r =>
        r.getExports = .ok (some inf, readBack s.va lo pf (sortedFns l)) ∧
        nameTable r inf.rvaNames inf.rvaOrds inf.numNames 0 = .ok (exportNames lo (sortedFns l))) := by
  have hs1 : off ≤ start := by rw [hstart]; exact ceilTo_ge (by omega)
  have hs2 : start < off + 4 := by rw [hstart]; exact ceilTo_lt (by omega)
  have hau : alignUp off 4 = start := by
    rw [hstart] at hs2 ⊢; exact alignUp_of_le pow2_4 (by omega) (by omega)
  obtain ⟨hl1, hl2⟩ := hroom.lt hh
  have hgl := (hroom.grow hh).lt hh
  have hg := growTo_ge s.data (start + size)
  have hpos' := hh.pos
  -- the list
  obtain ⟨flo, hflo, hflo'⟩ := hrange.lo_mem
  obtain ⟨fhi, hfhi, hfhi'⟩ := hrange.hi_mem
  have hlohi : lo ≤ hi := by have := hrange.le flo hflo; omega
  have hhi16 : hi < 2 ^ 16 := by have := (hl.ok fhi hfhi).ordinal; omega
  have hmax := foldl_max_eq l 0 hi (fun f hf => (hrange.le f hf).2) (by omega) (Or.inr hrange.hi_mem)
  have hne : l ≠ [] := by intro h; rw [h] at hflo; simp at hflo
  have hmin := foldl_min_eq l (if l = [] then info.base else 4294967295) lo (fun f hf => (hrange.le f hf).1)
    (by rw [if_neg hne]; omega) (Or.inr hrange.lo_mem)
  have hdup : exportDup [] [] l = .ok () := by
    rcases exportDup_spec l [] [] with h | h | h
    · exact h.1
    · exact absurd ⟨hl.ordinals, fun f _ => by simp⟩ h.2
    · exact absurd ⟨hl.names, fun f _ => by simp⟩ h.2
  have hperm := sortedFns_perm l
  have hpw := sortedFns_lt hl.ordinals
  have hsnames : (namesOf (sortedFns l)).Nodup := by
    unfold namesOf
    exact ((hperm.filter _).map _).nodup_iff.mpr hl.names
  have hsc : slotCount lo (sortedFns l) = hi + 1 - lo := slotCount_eq _ lo hi
    (fun f hf => hrange.le f (hperm.mem_iff.mp hf)) ⟨fhi, hperm.mem_iff.mpr hfhi, hfhi'⟩ hpw
  have hnn : (exportNames lo (sortedFns l)).length = (l.filter (fun f => decide (f.name ≠ []))).length := by
    rw [exportNames_length, (hperm.filter _).length_eq]
  have hstr : (nameStrBytes (exportNames lo (sortedFns l))).length = (l.map (fun f => strSize f.name)).sum := by
    rw [exportNames_str, (hperm.map _).sum_nat]
  have hfwd : (fwdBytes (sortedFns l)).length = (l.map (fun f => strSize f.fwd)).sum := by
    rw [fwdBytes_length, (hperm.map _).sum_nat]
  have hsz : size = 40 + (info.name.length + 1) + ((l.map (fun f => strSize f.name)).sum +
      (l.filter (fun f => decide (f.name ≠ []))).length * 4 + (l.filter (fun f => decide (f.name ≠ []))).length * 2) +
      (l.map (fun f => strSize f.fwd)).sum + 4 * (hi - lo + 1) := by
    rw [hsize, exportSize, namedSum]; rfl
  have hnl : (namesOf l).length = (l.filter (fun f => decide (f.name ≠ []))).length := by
    unfold namesOf; rw [List.length_map]
  have hnle : (l.filter (fun f => decide (f.name ≠ []))).length ≤ hi - lo + 1 := by
    have h1 := length_le_slotCount (sortedFns l) lo
    have h2 : (l.filter (fun f => decide (f.name ≠ []))).length ≤ l.length := List.length_filter_le _ _
    rw [hperm.length_eq, hsc] at h1
    omega
  have hsorted : sortBy (fun a b : ExportFn => decide (a.ordinal ≤ b.ordinal)) l = sortedFns l := rfl
  have hE2 : ∀ e ∈ exportNames lo (sortedFns l), e.2 < 2 ^ 16 ∧ ∀ c ∈ e.1, c ≠ 0 := by
    intro e he
    obtain ⟨f, hf, -, rfl⟩ := mem_exportNames.mp he
    exact ⟨Nat.mod_lt _ (by omega), (hl.ok f (hperm.mem_iff.mp hf)).name⟩
  have hfind : ∀ f ∈ sortedFns l, ((exportNames lo (sortedFns l)).find? (fun e => e.2 == f.ordinal - lo)).map Prod.fst =
      if f.name = [] then none else some f.name := by
    intro f hf
    have hw : ∀ g ∈ sortedFns l, w16 (sub32 g.ordinal lo) = g.ordinal - lo := by
      intro g hg
      have h1 := hrange.le g (hperm.mem_iff.mp hg)
      rw [sub32_of_le h1.1 (by omega), w16, Nat.mod_eq_of_lt (by omega)]
    have hinj : ∀ g ∈ sortedFns l, g.ordinal - lo = f.ordinal - lo → g = f := by
      intro g hg h
      have h1 := hrange.le g (hperm.mem_iff.mp hg)
      have h2 := hrange.le f (hperm.mem_iff.mp hf)
      exact eq_of_nodup_map hl.ordinals (hperm.mem_iff.mp hg) (hperm.mem_iff.mp hf) (by omega)
    by_cases hn : f.name = []
    · rw [if_pos hn]
      have : (exportNames lo (sortedFns l)).find? (fun e => e.2 == f.ordinal - lo) = none := by
        rw [List.find?_eq_none]
        intro e he hc
        obtain ⟨g, hg, hgn, rfl⟩ := mem_exportNames.mp he
        have := beq_iff_eq.mp hc
        dsimp only at this
        rw [hw g hg] at this
        rw [hinj g hg this] at hgn
        exact hgn hn
      rw [this]; rfl
    · rw [if_neg hn, find?_unique (e := (f.name, w16 (sub32 f.ordinal lo))) (mem_exportNames.mpr ⟨f, hf, hn, rfl⟩) (hw f hf)]
      · rfl
      · intro e he hk
        obtain ⟨g, hg, hgn, rfl⟩ := mem_exportNames.mp he
        dsimp only at hk
        rw [hw g hg] at hk
        rw [hinj g hg hk]
  -- positions
  generalize hA : (l.map (fun f => strSize f.name)).sum = A at *
  generalize hF : (l.map (fun f => strSize f.fwd)).sum = F at *
  generalize hN : (l.filter (fun f => decide (f.name ≠ []))).length = nn at *
  generalize hL : info.name.length = L at *
  generalize hO : lo = base at *
  generalize hS : sortedFns l = S at *
  generalize hEs : exportNames base S = es at *
  have wid : ∀ x, x < 2 ^ 32 → w32 x = x := fun x hx => by rw [w32, Nat.mod_eq_of_lt hx]
  have hnf : w32 (sub32 hi base + 1) = hi - base + 1 := by rw [sub32_of_le hlohi (by omega), wid _ (by omega)]
  generalize hnfv : hi - base + 1 = nf at *
  have hneed : w32 (40 + w32 (nn * 2) + w32 (nf * 4) + (L + 1 + w32 A + w32 F) + w32 (nn * 4)) = size := by
    rw [wid (nn * 2) (by omega), wid (nf * 4) (by omega), wid A (by omega), wid F (by omega), wid (nn * 4) (by omega),
      wid _ (by omega)]
    omega
  generalize hpN : L + 1 + start + 40 = pN at *
  generalize hpO : pN + A = pO at *
  generalize hpF : pO + nn * 2 = pF at *
  generalize hpA : pF + F = pA at *
  generalize hpR : pA + nf * 4 = pR at *
  generalize hinf : ({ info with base := base, numFuncs := nf, numNames := nn, rvaFuncs := s.va + pA,
                                 rvaNames := s.va + pR, rvaOrds := s.va + pO } : ExportInfo) = inf
  have hiw : inf.Writable := by rw [← hinf]; exact ⟨hinfo.chars, hinfo.stamp, hinfo.major, hinfo.minor, hinfo.name⟩
  have i1 : inf.base = base := by rw [← hinf]
  have i2 : inf.numFuncs = nf := by rw [← hinf]
  have i3 : inf.numNames = nn := by rw [← hinf]
  have i4 : inf.rvaFuncs = s.va + pA := by rw [← hinf]
  have i5 : inf.rvaNames = s.va + pR := by rw [← hinf]
  have i6 : inf.rvaOrds = s.va + pO := by rw [← hinf]
  have i7 : inf.chars = info.chars ∧ inf.stamp = info.stamp ∧ inf.major = info.major ∧ inf.minor = info.minor ∧
      inf.name = info.name := by rw [← hinf]; exact ⟨rfl, rfl, rfl, rfl, rfl⟩
  have hdl : (encFields (exportDirFields inf (s.va + (start + 40)))).length = 40 := by rw [encFields_length]; rfl
  have hrds := exportFields_rd inf (s.va + (start + 40)) hiw (by omega) (by omega) (by omega) (by omega) (by omega) (by omega)
    (by omega)
  generalize hD0 : encFields (exportDirFields inf (s.va + (start + 40))) = dd at *
  -- the writes
  obtain ⟨d1, e1, a1, m1⟩ := writeAt_mod (b := growTo s.data (start + size)) (o := start) (x := dd) (by omega)
  rw [hdl] at m1
  have l1 := m1.len
  obtain ⟨d2, e2, a2, m2⟩ := writeAt_mod (b := d1) (o := start + 40) (x := info.name ++ [0]) (by
    simp only [List.length_append, List.length_singleton]; omega)
  simp only [List.length_append, List.length_singleton, hL] at m2
  have l2 := m2.len
  have hhead : ∀ f, S.head? = some f → f.ordinal = base := by
    intro f hf
    cases S with
    | nil => simp at hf
    | cons g S =>
      have hfg : g = f := by simpa using hf
      subst hfg
      rw [List.pairwise_cons] at hpw
      have h1 := hrange.le g (hperm.mem_iff.mp List.mem_cons_self)
      rcases List.mem_cons.mp (hperm.mem_iff.mpr hflo) with h | h
      · rw [← h]; exact hflo'
      · have := hpw.1 flo h; omega
  obtain ⟨d3, e3, a3, b3, m3⟩ := writeExportFns_spec s.va S d2 pA pF base base (by omega) (by omega) (by omega)
    (Or.inr ⟨rfl, hhead⟩) (fun f hf => (hrange.le f (hperm.mem_iff.mp hf)).1) hpw
  rw [hfwd, hsc] at m3
  have l3 := m3.len
  obtain ⟨d4, e4, a4, b4, c4, m4⟩ := writeExportNames_spec s.va es d3 pR pN pO (by omega) (by omega) (by omega) (by omega)
  rw [hstr, hnn] at m4
  have l4 := m4.len
  have f1 : At d4 start dd := m4.at (m3.at (m2.at a1 (by rw [hdl]; intro j _ _; omega)) (by rw [hdl]; intro j _ _; omega))
    (by rw [hdl]; intro j _ _; omega)
  have f2 : At d4 (start + 40) (info.name ++ [0]) := by
    refine m4.at (m3.at a2 ?_) ?_ <;> simp only [List.length_append, List.length_singleton, hL] <;> intro j _ _ <;> omega
  have f3 : At d4 pA (addrBytes s.va base pF S) := m4.at a3 (by rw [addrBytes_length, hsc]; intro j _ _; omega)
  have f4 : At d4 pF (fwdBytes S) := m4.at b3 (by rw [hfwd]; intro j _ _; omega)
  have hall := ((m1.trans m2).trans m3).trans m4
  have hpatch := hall.patch (lo := start) (n := size) (fun j hj => by omega) (by omega)
  have hel : (slice d4 start size).length = size := slice_length_of_le (by omega)
  obtain ⟨q, hq, hw⟩ := finishDir_written (e := slice d4 start size) (pos := start) strip (s.va + start, size) hh hdirs hnum
    (by omega) (by omega) hroom
  rw [← hpatch] at hq
  refine ⟨q, inf, pF, ?_, ?_, ⟨i7.1, i7.2.1, i7.2.2.1, i7.2.2.2.1, i7.2.2.2.2, i1, by omega, by omega⟩, ?_⟩
  · unfold Image.rebuildExports
    rw [hh.sec]
    dsimp only
    rw [hmax, hmin, hdup, ok_bind, hsorted, hnf, hA, hF, hN, hL, hau, hneed, wid (size + start) (by omega),
      Nat.add_comm size start, hroom.check hh, ok_bind, wid A (by omega), wid (nn * 2) (by omega), wid F (by omega),
      wid (nf * 4) (by omega), hpN, wid pN (by omega), hpO, wid pO (by omega), hpF, wid pF (by omega), hpA, wid pA (by omega),
      hpR, wid pR (by omega), wid (start + 40) (by omega), wid (s.va + pA) (by omega), wid (s.va + pR) (by omega),
      wid (s.va + pO) (by omega), wid (s.va + (start + 40)) (by omega), hinf, hD0, e1, ok_bind, e2, ok_bind, e3, ok_bind,
      hEs, e4, ok_bind, wid (s.va + start) (by omega)]
    exact hq
  · have := hw.rebuilt
    rw [hel] at this
    exact this
  · obtain ⟨hfr, L', hL1, hL2, hL3, hsh⟩ := hw.shown hh (by omega) (by omega)
    rw [hel] at hfr
    refine ⟨hfr, _, L', Nat.le_of_eq hel, hsh false (by intro h; cases h), fun r hr => ?_⟩
    obtain ⟨m, t, hwin, -, hLm, hat, -⟩ := hr.window
    have hwf := hwin.fin
    have g1 := f1.within hat (by omega) (by omega) (by omega)
    have g2 := f2.within hat (by omega) (by omega) (by simp only [List.length_append, List.length_singleton]; omega)
    have g3 := f3.within hat (by omega) (by omega) (by rw [addrBytes_length]; omega)
    have g4 := f4.within hat (by omega) (by omega) (by omega)
    have g5 := a4.within hat (by omega) (by omega) (by rw [nameRvaBytes_length]; omega)
    have g6 := b4.within hat (by omega) (by omega) (by omega)
    have g7 := c4.within hat (by omega) (by omega) (by rw [nameOrdBytes_length]; omega)
    refine ⟨?_, ?_⟩
    · refine exports_read hwin (pN := pN) (pO := pO) (pF := pF) (pA := pA) (pR := pR) (nn := nn) (nf := nf) hr.rva hr.size
        (hr.has.trans (congrArg _ (decide_eq_true (by dsimp only; omega)))) hrds
        hinfo.name i7.2.2.2.2 i1 i2 i3 i4 i5 i6 hdl hnn (by omega) hnle (by omega) (by omega) (by omega) (by omega) (by omega)
        (by omega) (by omega) (by omega) (by omega) ?_ g1 g2 g3 g4 g5 g6 g7 hE2
        (fun f hf => (hrange.le f (hperm.mem_iff.mp hf)).1) hpw (fun f hf => hl.ok f (hperm.mem_iff.mp hf))
        (fun f hf => hout f (hperm.mem_iff.mp hf)) hfind
      intro h0
      rcases hend with h | h | h
      · exact absurd (List.length_eq_zero_iff.mp (hnl.trans h0)) h
      · omega
      · rcases Nat.lt_or_eq_of_le hL1 with h' | h'
        · omega
        · rw [h'] at h; exact absurd hL3 h
    · rw [i5, i6, i3, ← hnn]
      exact nameTable_scan hwin pR pO es pN 0 (by simpa using g5) g6 (by simpa using g7) hE2

/-- What the rebuilder writes, and what is read. -/
theorem exports_written (p : Image) (i off : Nat) (s : Sec) (info : ExportInfo) (l : List ExportFn) (strip : Bool)
    (lo hi start size : Nat) (hh : Host p i s) (hdirs : p.nt.DirsOk) (hnum : dirExport < p.nt.numRva)
    (hinfo : info.Writable) (hl : ExportsOk l) (hrange : OrdinalRange l lo hi)
    (hoff : off < 2 ^ 32 - 4) (hstart : start = ceilTo off 4) (hsize : size = exportSize info l lo hi)
    (hroom : HostRoom p i s (start + size))
    (hend : namesOf l ≠ [] ∨ start + size < s.data.length ∨ ¬ p.nt.secAlign ∣ start + size)
    (hout : ∀ f ∈ l, f.name ≠ [] → f.fwd = [] → ¬ (s.va + start + 4 ≤ f.rva ∧ f.rva < s.va + start + size)) :
    ∃ (q : Image) (inf : ExportInfo) (pf : Nat), p.rebuildExports info l i off true strip = .ok (q, (s.va + start, size)) ∧
      RebuiltIn p q i s start size dirExport (s.va + start, size) ∧
      q.getExports = .ok (some inf, readBack s.va lo pf (sortedFns l)) ∧
      (inf.chars = info.chars ∧ inf.stamp = info.stamp ∧ inf.major = info.major ∧ inf.minor = info.minor ∧
        inf.name = info.name ∧ inf.base = lo ∧ inf.numFuncs = hi - lo + 1 ∧ inf.numNames = (namesOf l).length) ∧
      nameTable q inf.rvaNames inf.rvaOrds inf.numNames 0 = .ok (exportNames lo (sortedFns l)) := by
  obtain ⟨q, inf, pf, h1, h2, h3, h4⟩ := exports_lasting p i off s info l strip lo hi start size hh hdirs hnum hinfo hl hrange hoff
    hstart hsize hroom hend hout
  exact ⟨q, inf, pf, h1, h2, h4.now.1, h3, h4.now.2⟩

end PE
