/-
Helper lemmas for the resource directory: sorting of the tree before it is written.
-/
import Verif.Lemmas.ResourcesRead

namespace PE

/-! ### The order of keys -/

/-- The comparison of the sort. -/
def keyLe (a b : ResEntry) : Bool := !b.key.lt a.key

theorem ResKey.lt_iff (a b : ResKey) : a.lt b = true ↔ a.Before b := by
  cases a <;> cases b <;> simp [ResKey.lt, ResKey.Before]

theorem ResKey.before_irrefl (a : ResKey) : ¬ a.Before a := by
  cases a with
  | id n => exact Nat.lt_irrefl n
  | name w => exact List.lt_irrefl w

theorem ResKey.before_trans {a b c : ResKey} (h1 : a.Before b) (h2 : b.Before c) : a.Before c := by
  cases a <;> cases b <;> cases c <;> simp only [ResKey.Before] at h1 h2 ⊢
  · exact Nat.lt_trans h1 h2
  · exact List.lt_trans h1 h2

theorem ResKey.before_total (a b : ResKey) : a.Before b ∨ a = b ∨ b.Before a := by
  cases a with
  | id n => cases b with
    | id k =>
      rcases Nat.lt_trichotomy n k with h | h | h
      · exact Or.inl h
      · exact Or.inr (Or.inl (by rw [h]))
      · exact Or.inr (Or.inr h)
    | name v => exact Or.inr (Or.inr trivial)
  | name w => cases b with
    | id k => exact Or.inl trivial
    | name v =>
      by_cases h1 : w < v
      · exact Or.inl h1
      · by_cases h2 : v < w
        · exact Or.inr (Or.inr h2)
        · exact Or.inr (Or.inl (by rw [List.le_antisymm (List.not_lt.mp h2) (List.not_lt.mp h1)]))

theorem keyLe_iff (a b : ResEntry) : keyLe a b = true ↔ ¬ b.key.Before a.key := by
  unfold keyLe; rw [Bool.not_eq_true', ← ResKey.lt_iff]; simp

theorem keyLe_trans (a b c : ResEntry) (h1 : keyLe a b = true) (h2 : keyLe b c = true) : keyLe a c = true := by
  rw [keyLe_iff] at *
  intro h3
  rcases ResKey.before_total a.key b.key with h | h | h
  · rcases ResKey.before_total b.key c.key with h' | h' | h'
    · exact ResKey.before_irrefl _ (ResKey.before_trans h3 (ResKey.before_trans h h'))
    · rw [h'] at h; exact ResKey.before_irrefl _ (ResKey.before_trans h3 h)
    · exact h2 h'
  · rw [h] at h3; exact h2 h3
  · exact h1 h

theorem keyLe_total (a b : ResEntry) : keyLe a b = true ∨ keyLe b a = true := by
  rw [keyLe_iff, keyLe_iff]
  by_cases h : b.key.Before a.key
  · exact Or.inr fun h' => ResKey.before_irrefl _ (ResKey.before_trans h h')
  · exact Or.inl h

theorem sortKeys_sorted {l : List ResEntry} (h : (l.map ResEntry.key).Nodup) :
    ((sortBy keyLe l).map ResEntry.key).Pairwise ResKey.Before := by
  have h1 := sortBy_sorted keyLe keyLe_trans keyLe_total l
  have h2 : ((sortBy keyLe l).map ResEntry.key).Nodup := ((sortBy_perm keyLe l).map _).nodup_iff.mpr h
  rw [List.pairwise_map]
  rw [List.Nodup, List.pairwise_map] at h2
  refine (h1.and h2).imp ?_
  rintro a b ⟨h1, h2⟩
  rcases ResKey.before_total a.key b.key with h | h | h
  · exact h
  · exact absurd h h2
  · exact absurd h ((keyLe_iff a b).mp h1)

theorem insertBy_head {l : List ResEntry} {x : ResEntry} (h : ∀ y ∈ l, x.key.Before y.key) : insertBy keyLe x l = x :: l := by
  cases l with
  | nil => rfl
  | cons y l =>
    rw [insertBy, if_pos]
    rw [keyLe_iff]
    intro h'
    exact ResKey.before_irrefl _ (ResKey.before_trans h' (h y (by simp)))

theorem sortBy_id {l : List ResEntry} (h : (l.map ResEntry.key).Pairwise ResKey.Before) : sortBy keyLe l = l := by
  induction l with
  | nil => rfl
  | cons x l ih =>
    rw [List.map_cons, List.pairwise_cons] at h
    rw [sortBy, ih h.2]
    exact insertBy_head fun y hy => h.1 _ (List.mem_map_of_mem hy)

/-! ### Sorted trees -/

theorem sortEntries_map (es : List ResEntry) : sortEntries es = es.map ResEntry.sort := by
  induction es with
  | nil => rfl
  | cons e es ih => rw [sortEntries, ih, List.map_cons]

/-- The sorted entries of a directory. -/
def sortedOf (es : List ResEntry) : List ResEntry := sortBy keyLe (es.map ResEntry.sort)

theorem ResEntry.sort_dir (k : ResKey) (h : ResHdr) (es : List ResEntry) : (ResEntry.dir k h es).sort = .dir k h (sortedOf es) := by
  rw [ResEntry.sort, sortEntries_map]; rfl

theorem ResDir.sort_eq (r : ResDir) : r.sort = { r with es := sortedOf r.es } := by
  unfold ResDir.sort; rw [sortEntries_map]; rfl

theorem sortedOf_perm (es : List ResEntry) : (sortedOf es).Perm (es.map ResEntry.sort) := sortBy_perm _ _

theorem ResEntry.sort_key (e : ResEntry) : e.sort.key = e.key := by
  cases e with
  | dir k h es => rw [ResEntry.sort_dir]; rfl
  | _ => rw [ResEntry.sort]

theorem ResEntry.sort_isNamed (e : ResEntry) : e.sort.isNamed = e.isNamed := by unfold ResEntry.isNamed; rw [e.sort_key]

theorem map_sort_key (es : List ResEntry) : (es.map ResEntry.sort).map ResEntry.key = es.map ResEntry.key := by
  rw [List.map_map]; apply List.map_congr_left; intro e _; exact e.sort_key

theorem sortedOf_keys (es : List ResEntry) : ((sortedOf es).map ResEntry.key).Perm (es.map ResEntry.key) := by
  have := (sortedOf_perm es).map ResEntry.key
  rwa [map_sort_key] at this

theorem sortedOf_length (es : List ResEntry) : (sortedOf es).length = es.length := by
  rw [(sortedOf_perm es).length_eq, List.length_map]

theorem sortedOf_counts (es : List ResEntry) : namedCount (sortedOf es) = namedCount es ∧ idCount (sortedOf es) = idCount es := by
  unfold namedCount idCount
  rw [(sortedOf_perm es).countP_eq, (sortedOf_perm es).countP_eq, List.countP_map, List.countP_map]
  constructor <;> congr 1 <;> funext e <;> simp [ResEntry.sort_isNamed]

theorem DirOk.sortedOf {h : ResHdr} {es : List ResEntry} (hd : DirOk h es) : DirOk h (PE.sortedOf es) := by
  obtain ⟨c1, c2⟩ := sortedOf_counts es
  exact ⟨hd.hdr, by rw [c1]; exact hd.named, by rw [c2]; exact hd.ids, (sortedOf_keys es).nodup_iff.mpr hd.keys⟩

theorem allOk_iff (es : List ResEntry) : AllOk es ↔ ∀ e ∈ es, e.Ok := by
  induction es with
  | nil => simp [AllOk]
  | cons e es ih => rw [AllOk, ih, List.forall_mem_cons]

theorem allData_iff (P : Bytes → Prop) (es : List ResEntry) : AllData P es ↔ ∀ e ∈ es, e.AllData P := by
  induction es with
  | nil => simp [AllData]
  | cons e es ih => rw [AllData, ih, List.forall_mem_cons]

theorem tablesOf_sum (es : List ResEntry) : tablesOf es = (es.map ResEntry.tables).sum := by
  induction es with
  | nil => rfl
  | cons e es ih => rw [tablesOf, ih, List.map_cons, List.sum_cons]

theorem namesIn_sum (es : List ResEntry) : namesIn es = (es.map ResEntry.names).sum := by
  induction es with
  | nil => rfl
  | cons e es ih => rw [namesIn, ih, List.map_cons, List.sum_cons]

mutual
/-- The space of all data, each rounded up. -/
def ResEntry.weight : ResEntry → Nat
  | .empty _ => 0
  | .data _ _ d => 16 + ceilTo d.length 4
  | .dir _ _ es => weightOf es
def weightOf : List ResEntry → Nat
  | [] => 0
  | e :: es => e.weight + weightOf es
end

theorem weightOf_sum (es : List ResEntry) : weightOf es = (es.map ResEntry.weight).sum := by
  induction es with
  | nil => rfl
  | cons e es ih => rw [weightOf, ih, List.map_cons, List.sum_cons]

/-- What sorting keeps of an entry. -/
structure SortKeeps (e : ResEntry) : Prop where
  ok : e.Ok → e.sort.Ok
  tables : e.sort.tables = e.tables
  names : e.sort.names = e.names
  weight : e.sort.weight = e.weight
  all : ∀ P, e.AllData P → e.sort.AllData P

/-- What sorting keeps of a list of entries. -/
structure SortKeepsAll (es : List ResEntry) : Prop where
  ok : AllOk es → AllOk (sortedOf es)
  tables : tablesOf (sortedOf es) = tablesOf es
  names : namesIn (sortedOf es) = namesIn es
  weight : weightOf (sortedOf es) = weightOf es
  all : ∀ P, AllData P es → AllData P (sortedOf es)

theorem SortKeepsAll.of {es : List ResEntry} (h : ∀ e ∈ es, SortKeeps e) : SortKeepsAll es := by
  have hp := sortedOf_perm es
  refine ⟨?_, ?_, ?_, ?_, ?_⟩
  · rw [allOk_iff, allOk_iff]
    intro ha e he
    obtain ⟨e', he', rfl⟩ := List.mem_map.mp (hp.mem_iff.mp he)
    exact (h e' he').ok (ha e' he')
  · rw [tablesOf_sum, tablesOf_sum, (hp.map _).sum_nat, List.map_map]
    congr 1; apply List.map_congr_left; intro e he; exact (h e he).tables
  · rw [namesIn_sum, namesIn_sum, (hp.map _).sum_nat, List.map_map]
    congr 1; apply List.map_congr_left; intro e he; exact (h e he).names
  · rw [weightOf_sum, weightOf_sum, (hp.map _).sum_nat, List.map_map]
    congr 1; apply List.map_congr_left; intro e he; exact (h e he).weight
  · intro P
    rw [allData_iff, allData_iff]
    intro ha e he
    obtain ⟨e', he', rfl⟩ := List.mem_map.mp (hp.mem_iff.mp he)
    exact (h e' he').all P (ha e' he')

mutual
theorem ResEntry.sortKeeps : ∀ e : ResEntry, SortKeeps e
  | .empty _ => ⟨id, rfl, rfl, rfl, fun _ h => h⟩
  | .data _ _ _ => by
    have : ∀ k cp d, (ResEntry.data k cp d).sort = .data k cp d := fun _ _ _ => by rw [ResEntry.sort]
    refine ⟨?_, ?_, ?_, ?_, ?_⟩ <;> rw [this]
    · exact id
    · exact fun _ h => h
  | .dir k h es => by
    have hk := SortKeepsAll.of (sortKeepsAll es)
    refine ⟨?_, ?_, ?_, ?_, ?_⟩ <;> rw [ResEntry.sort_dir]
    · rw [ResEntry.Ok, ResEntry.Ok]; exact fun ⟨a, b, c⟩ => ⟨a, b.sortedOf, hk.ok c⟩
    · rw [ResEntry.tables, ResEntry.tables, hk.tables, sortedOf_length]
    · rw [ResEntry.names, ResEntry.names, hk.names]
    · rw [ResEntry.weight, ResEntry.weight, hk.weight]
    · intro P; rw [ResEntry.AllData, ResEntry.AllData]; exact hk.all P
theorem sortKeepsAll : ∀ (es : List ResEntry), ∀ e ∈ es, SortKeeps e
  | [], _, h => by simp at h
  | e :: es, x, h => by
    by_cases hx : x = e
    · rw [hx]; exact e.sortKeeps
    · exact sortKeepsAll es x ((List.mem_cons.mp h).resolve_left hx)
end

theorem sortedOf_keeps (es : List ResEntry) : SortKeepsAll es := SortKeepsAll.of (sortKeepsAll es)

/-! ### The end of the data -/

theorem ceilTo_add_16 (x n : Nat) : ceilTo (ceilTo x 4 + 16 + n) 4 = ceilTo x 4 + (16 + ceilTo n 4) := by
  have hd := ceilTo_dvd x 4
  generalize ceilTo x 4 = y at hd ⊢
  unfold ceilTo
  split <;> split <;> omega

mutual
theorem ResEntry.dataEnd_ceil : ∀ (e : ResEntry) (pos : Nat), ceilTo (e.dataEnd pos) 4 = ceilTo pos 4 + e.weight
  | .empty _, pos => rfl
  | .data _ _ d, pos => by rw [ResEntry.dataEnd, ResEntry.weight]; exact ceilTo_add_16 _ _
  | .dir _ _ es, pos => by rw [ResEntry.dataEnd, ResEntry.weight]; exact dataEndOf_ceil es pos
theorem dataEndOf_ceil : ∀ (es : List ResEntry) (pos : Nat), ceilTo (dataEndOf es pos) 4 = ceilTo pos 4 + weightOf es
  | [], pos => rfl
  | e :: es, pos => by rw [dataEndOf, weightOf, dataEndOf_ceil es, e.dataEnd_ceil]; omega
end

mutual
theorem ResEntry.dataEnd_dvd : ∀ (e : ResEntry) (pos : Nat), e.AllData (fun d => 4 ∣ d.length) → e.weight ≠ 0 ∨ 4 ∣ pos →
    4 ∣ e.dataEnd pos
  | .empty _, pos, _, h => by
    rw [ResEntry.weight] at h; rw [ResEntry.dataEnd]; exact h.resolve_left (by simp)
  | .data _ _ d, pos, hd, _ => by
    rw [ResEntry.AllData] at hd
    rw [ResEntry.dataEnd]; have := ceilTo_dvd pos 4; omega
  | .dir _ _ es, pos, hd, h => by
    rw [ResEntry.AllData] at hd
    rw [ResEntry.weight] at h
    rw [ResEntry.dataEnd]; exact dataEndOf_dvd es pos hd h
theorem dataEndOf_dvd : ∀ (es : List ResEntry) (pos : Nat), AllData (fun d => 4 ∣ d.length) es → weightOf es ≠ 0 ∨ 4 ∣ pos →
    4 ∣ dataEndOf es pos
  | [], pos, _, h => h.resolve_left (by simp [weightOf])
  | e :: es, pos, hd, h => by
    rw [weightOf] at h
    rw [dataEndOf]
    by_cases he : weightOf es = 0
    · exact dataEndOf_dvd es _ hd.2 (Or.inr (e.dataEnd_dvd pos hd.1 (by omega)))
    · exact dataEndOf_dvd es _ hd.2 (Or.inl he)
end

mutual
theorem ResEntry.dataEnd_zero : ∀ (e : ResEntry) (pos : Nat), e.weight = 0 → e.dataEnd pos = pos
  | .empty _, pos, _ => rfl
  | .data _ _ d, pos, h => by rw [ResEntry.weight] at h; omega
  | .dir _ _ es, pos, h => by rw [ResEntry.weight] at h; rw [ResEntry.dataEnd]; exact dataEndOf_zero es pos h
theorem dataEndOf_zero : ∀ (es : List ResEntry) (pos : Nat), weightOf es = 0 → dataEndOf es pos = pos
  | [], pos, _ => rfl
  | e :: es, pos, h => by
    rw [weightOf] at h
    rw [dataEndOf, e.dataEnd_zero pos (by omega), dataEndOf_zero es pos (by omega)]
end

/-- Sorting moves the end by less than 4 bytes, and not at all when all sizes are multiples of 4. -/
theorem sorted_end (es : List ResEntry) (pos : Nat) : dataEndOf (sortedOf es) pos < dataEndOf es pos + 4 ∧
    ceilTo (dataEndOf (sortedOf es) pos) 4 = ceilTo (dataEndOf es pos) 4 ∧
    (AllData (fun d => 4 ∣ d.length) es → dataEndOf (sortedOf es) pos = dataEndOf es pos) := by
  have h1 := dataEndOf_ceil es pos
  have h2 := dataEndOf_ceil (sortedOf es) pos
  have hk := sortedOf_keeps es
  rw [hk.weight] at h2
  have g1 := ceilTo_ge (x := dataEndOf (sortedOf es) pos) (a := 4) (by omega)
  have g2 := ceilTo_lt (x := dataEndOf es pos) (a := 4) (by omega)
  refine ⟨by omega, by omega, fun ha => ?_⟩
  by_cases hz : weightOf es = 0
  · rw [dataEndOf_zero _ _ (by rw [hk.weight]; exact hz), dataEndOf_zero _ _ hz]
  · have d1 := dataEndOf_dvd es pos ha (Or.inl hz)
    have d2 := dataEndOf_dvd (sortedOf es) pos (hk.all _ ha) (Or.inl (by rw [hk.weight]; exact hz))
    rw [ceilTo_of_dvd d1] at h1
    rw [ceilTo_of_dvd d2] at h2
    omega

/-! ### Paths -/

theorem find?_key_none {es : List ResEntry} {k : ResKey} : es.find? (fun e => decide (e.key = k)) = none ↔ k ∉ es.map ResEntry.key := by
  rw [List.find?_eq_none, List.mem_map]
  constructor
  · rintro h ⟨e, he, rfl⟩; exact h e he (by simp)
  · intro h e he hk; exact h ⟨e, he, by simpa using hk⟩

theorem find?_key_some {es : List ResEntry} {k : ResKey} (hn : (es.map ResEntry.key).Nodup) {e : ResEntry} (he : e ∈ es) (hk : e.key = k) :
    es.find? (fun e => decide (e.key = k)) = some e := by
  induction es with
  | nil => simp at he
  | cons x es ih =>
    rw [List.map_cons, List.nodup_cons] at hn
    rw [List.find?_cons]
    by_cases hx : x.key = k
    · rcases List.mem_cons.mp he with rfl | he
      · simp [hx]
      · exact absurd (by rw [hx, ← hk]; exact List.mem_map_of_mem he) hn.1
    · rcases List.mem_cons.mp he with rfl | he
      · exact absurd hk hx
      · simp only [hx, decide_false]; exact ih hn.2 he

/-- What is read for an entry. -/
def ResEntry.fin (e : ResEntry) : ResEntry := e.sort.canon

theorem ResEntry.fin_key (e : ResEntry) : e.fin.key = e.key := by unfold ResEntry.fin; rw [e.sort.canon_key, e.sort_key]

/-- What is read for the entries of a directory. -/
def finOf (es : List ResEntry) : List ResEntry := canonAll (sortedOf es)

theorem finOf_perm (es : List ResEntry) : (finOf es).Perm (es.map ResEntry.fin) := by
  unfold finOf
  rw [canonAll_map]
  have := (sortedOf_perm es).map ResEntry.canon
  rwa [List.map_map] at this

theorem ResEntry.fin_dir (k : ResKey) (h : ResHdr) (es : List ResEntry) :
    (ResEntry.dir k h es).fin = .dir k { h with named := namedCount es, ids := idCount es } (finOf es) := by
  unfold ResEntry.fin
  obtain ⟨c1, c2⟩ := sortedOf_counts es
  rw [ResEntry.sort_dir, ResEntry.canon, c1, c2]; rfl

theorem finOf_keys (es : List ResEntry) : (finOf es).map ResEntry.key = (sortedOf es).map ResEntry.key := by
  unfold finOf
  rw [canonAll_map, List.map_map]; apply List.map_congr_left; intro e _; exact e.canon_key

theorem find?_finOf {es : List ResEntry} (hn : (es.map ResEntry.key).Nodup) (k : ResKey) :
    (finOf es).find? (fun e => decide (e.key = k)) = (es.find? (fun e => decide (e.key = k))).map ResEntry.fin := by
  have hn' : ((finOf es).map ResEntry.key).Nodup := by rw [finOf_keys]; exact (sortedOf_keys es).nodup_iff.mpr hn
  cases he : es.find? (fun e => decide (e.key = k)) with
  | none =>
    rw [find?_key_none] at he
    rw [Option.map_none, find?_key_none, finOf_keys]
    exact fun h => he ((sortedOf_keys es).mem_iff.mp h)
  | some e =>
    have hk : e.key = k := by have := List.find?_some he; simpa using this
    have hm := List.mem_of_find?_eq_some he
    exact find?_key_some hn' ((finOf_perm es).mem_iff.mpr (List.mem_map_of_mem hm)) (by rw [e.fin_key, hk])

theorem ResEntry.fin_shown (e : ResEntry) : e.fin.shown = e.shown := by
  cases e with
  | dir k h es => rw [ResEntry.fin_dir]; rfl
  | _ => unfold ResEntry.fin; rw [ResEntry.sort]; rfl

/-- What is read for a directory. -/
def ResDir.fin (r : ResDir) : ResDir := { h := { r.h with named := namedCount r.es, ids := idCount r.es }, es := finOf r.es }

theorem ResDir.fin_level (r : ResDir) (hn : (r.es.map ResEntry.key).Nodup) : r.Level r.fin := by
  refine ⟨rfl, rfl, rfl, rfl, rfl, rfl, ?_, ?_⟩
  · have := (finOf_perm r.es).map ResEntry.shown
    rw [List.map_map] at this
    refine this.trans (List.Perm.of_eq ?_)
    apply List.map_congr_left; intro e _; exact e.fin_shown
  · show ((finOf r.es).map ResEntry.key).Pairwise ResKey.Before
    rw [finOf_keys]
    exact sortKeys_sorted (by rw [map_sort_key]; exact hn)

theorem ResDir.fin_sub (path : List ResKey) : ∀ r : ResDir, (r.es.map ResEntry.key).Nodup → AllOk r.es →
    r.fin.sub path = (r.sub path).map ResDir.fin ∧ ∀ a, r.sub path = some a → (a.es.map ResEntry.key).Nodup := by
  induction path with
  | nil =>
    intro r hn _
    rw [ResDir.sub, ResDir.sub]
    exact ⟨rfl, fun a ha => by rw [← Option.some.inj ha]; exact hn⟩
  | cons k ks ih =>
    intro r hn hok
    rw [ResDir.sub, ResDir.sub]
    rw [show r.fin.es = finOf r.es from rfl, find?_finOf hn]
    cases he : r.es.find? (fun e => decide (e.key = k)) with
    | none => exact ⟨rfl, fun a ha => by simp at ha⟩
    | some e =>
      have hm := List.mem_of_find?_eq_some he
      have hoke := (allOk_iff _).mp hok e hm
      cases e with
      | empty k => exact hoke.elim
      | data k cp d => exact ⟨rfl, fun a ha => by simp at ha⟩
      | dir k' h es =>
        rw [Option.map_some, ResEntry.fin_dir]
        exact ih { h := h, es := es } hoke.2.1.keys hoke.2.2

theorem ResDir.same_fin (r : ResDir) (h : r.Ok) : r.Same r.fin := by
  intro path
  obtain ⟨h1, h2⟩ := ResDir.fin_sub path r h.dir.keys h.all
  rw [h1]
  cases hp : r.sub path with
  | none => trivial
  | some a => exact a.fin_level (h2 a hp)

/-! ### Trees in order -/

theorem before_nodup {l : List ResKey} (h : l.Pairwise ResKey.Before) : l.Nodup := by
  unfold List.Nodup
  refine h.imp ?_
  intro a b h e
  subst e
  exact ResKey.before_irrefl a h

mutual
theorem ResEntry.sort_id : ∀ e : ResEntry, (∀ k h es, e = .dir k h es → ({ h := h, es := es } : ResDir).Ordered) → e.sort = e
  | .empty _, _ => by rw [ResEntry.sort]
  | .data _ _ _, _ => by rw [ResEntry.sort]
  | .dir k h es, ho => by
    have ho := ho k h es rfl
    rw [ResEntry.sort_dir]
    congr 1
    unfold sortedOf
    rw [sortEntries_id es (fun e he k' h' es' hd => ?_), sortBy_id (ho [] _ rfl)]
    intro path a ha
    refine ho (k' :: path) a ?_
    rw [ResDir.sub, find?_key_some (e := e) (before_nodup (ho [] _ rfl)) he (by rw [hd]; rfl), hd]
    exact ha
theorem sortEntries_id : ∀ es : List ResEntry,
    (∀ e ∈ es, ∀ k h es', e = .dir k h es' → ({ h := h, es := es' } : ResDir).Ordered) → es.map ResEntry.sort = es
  | [], _ => rfl
  | e :: es, ho => by
    rw [List.map_cons, ResEntry.sort_id e (ho e (by simp)), sortEntries_id es (fun x hx => ho x (List.mem_cons_of_mem _ hx))]
end

theorem ResDir.sortedOf_id {r : ResDir} (ho : r.Ordered) : sortedOf r.es = r.es := by
  have := ResEntry.sort_id (.dir (.id 0) r.h r.es) (fun k h es e => by
    injection e with _ e1 e2
    rw [← e1, ← e2]; exact ho)
  rw [ResEntry.sort_dir] at this
  injection this

end PE
