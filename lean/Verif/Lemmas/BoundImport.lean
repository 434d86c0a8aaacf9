/-
Helper lemmas about the bound import directory.
-/
import Verif.Model.BoundImport
import Verif.Lemmas.At

namespace PE

/-- All records of a bound import directory in order: (time stamp, number of references, name). -/
def boundEntries (l : List BoundMod) : List (Nat × Nat × Bytes) :=
  l.flatMap (fun m => (m.stamp, m.refs.length, m.name) :: m.refs.map (fun r => (r.stamp, 0, r.name)))

/-- The records of the entries, when the first string is at offset `o`. -/
def boundRecs (o : Nat) : List (Nat × Nat × Bytes) → Bytes
  | [] => []
  | e :: es => (leBytes 4 e.1 ++ (leBytes 2 o ++ leBytes 2 e.2.1)) ++ boundRecs (o + (e.2.2.length + 1)) es

/-- The strings of the entries. -/
def boundStrs (es : List (Nat × Nat × Bytes)) : Bytes := es.flatMap (fun e => e.2.2 ++ [0])

@[simp] theorem boundRecs_length (o : Nat) (es : List (Nat × Nat × Bytes)) : (boundRecs o es).length = 8 * es.length := by
  induction es generalizing o with
  | nil => rfl
  | cons e es ih =>
    simp only [boundRecs, List.length_append, leBytes_length, ih, List.length_cons]; omega

@[simp] theorem boundStrs_nil : boundStrs [] = [] := rfl
theorem boundStrs_cons (e : Nat × Nat × Bytes) (es : List (Nat × Nat × Bytes)) :
    boundStrs (e :: es) = (e.2.2 ++ [0]) ++ boundStrs es := rfl
theorem boundStrs_append (a b : List (Nat × Nat × Bytes)) : boundStrs (a ++ b) = boundStrs a ++ boundStrs b := by
  simp [boundStrs]

theorem boundRecs_append (o : Nat) (a b : List (Nat × Nat × Bytes)) :
    boundRecs o (a ++ b) = boundRecs o a ++ boundRecs (o + (boundStrs a).length) b := by
  induction a generalizing o with
  | nil => rfl
  | cons e a ih =>
    rw [List.cons_append, boundRecs, boundRecs, ih, boundStrs_cons, List.append_assoc]
    rw [show o + (e.2.2 ++ [(0 : UInt8)] ++ boundStrs a).length = o + (e.2.2.length + 1) + (boundStrs a).length by
      simp only [List.length_append, List.length_cons, List.length_nil]; omega]
    simp only [List.append_assoc]

theorem boundEntries_nil : boundEntries [] = [] := rfl
theorem boundEntries_cons (m : BoundMod) (l : List BoundMod) :
    boundEntries (m :: l) = ((m.stamp, m.refs.length, m.name) :: m.refs.map (fun r => (r.stamp, 0, r.name))) ++ boundEntries l :=
  rfl

theorem boundStructs_eq (l : List BoundMod) : boundStructs l = 8 * (boundEntries l).length := by
  induction l with
  | nil => rfl
  | cons m l ih =>
    rw [boundEntries_cons]
    simp only [boundStructs, List.map_cons, List.sum_cons, List.length_append, List.length_cons, List.length_map] at ih ⊢
    omega

theorem boundStrs_refs (rs : List BoundRef) : (boundStrs (rs.map (fun r => (r.stamp, 0, r.name)))).length =
    (rs.map (fun r => r.name.length + 1)).sum := by
  induction rs with
  | nil => rfl
  | cons r rs ih =>
    rw [List.map_cons, boundStrs_cons, List.length_append, ih]
    simp

theorem boundStrings_eq (l : List BoundMod) : boundStrings l = (boundStrs (boundEntries l)).length := by
  induction l with
  | nil => rfl
  | cons m l ih =>
    rw [boundEntries_cons, boundStrs_append, boundStrs_cons]
    simp only [boundStrings, List.map_cons, List.sum_cons, List.length_append, boundStrs_refs, List.length_cons,
      List.length_nil] at ih ⊢
    omega

/-- Two areas that both grow. -/
theorem patch_two {d r1 r2 s1 s2 : Bytes} {a b : Nat} (h : a + r1.length + r2.length ≤ b)
    (hl : b + s1.length + s2.length ≤ d.length) :
    patch (patch (patch (patch d a r1) b s1) (a + r1.length) r2) (b + s1.length) s2 =
      patch (patch d a (r1 ++ r2)) b (s1 ++ s2) := by
  have h1 := patch_length (b := d) (off := a) (d := r1) (by omega)
  have h2 := patch_length (b := d) (off := a) (d := r1 ++ r2) (by rw [List.length_append]; omega)
  rw [patch_swap (b := patch d a r1) (by omega) (by omega) (by omega), patch_patch_adjacent (b := d) (by omega),
    patch_patch_adjacent (by omega)]

/-- One record and its string. -/
theorem bound_step {base ps pt a c : Nat} {name d : Bytes} {es : List (Nat × Nat × Bytes)} (hb : base ≤ ps)
    (h : ps + 8 * (es.length + 1) ≤ pt) (hl : pt + (boundStrs ((a, c, name) :: es)).length ≤ d.length) :
    patch (patch (patch (patch d ps (leBytes 4 a ++ (leBytes 2 (pt - base) ++ leBytes 2 c))) pt (name ++ [0])) (ps + 8)
      (boundRecs (pt + (name.length + 1) - base) es)) (pt + (name.length + 1)) (boundStrs es) =
    patch (patch d ps (boundRecs (pt - base) ((a, c, name) :: es))) pt (boundStrs ((a, c, name) :: es)) := by
  rw [boundStrs_cons, List.length_append] at hl
  simp only [List.length_append, List.length_cons, List.length_nil] at hl
  generalize hx : leBytes 4 a ++ (leBytes 2 (pt - base) ++ leBytes 2 c) = x
  have hxl : x.length = 8 := by rw [← hx]; simp
  have h1 := patch_length (b := d) (off := ps) (d := x) (by omega)
  rw [patch_swap (b := patch d ps x) (by simp only [List.length_append, List.length_cons, List.length_nil]; omega)
    (by rw [boundRecs_length]; omega) (by rw [boundRecs_length]; omega)]
  have h2 := patch_patch_adjacent (b := d) (off := ps) (d := x) (e := boundRecs (pt + (name.length + 1) - base) es)
    (by rw [boundRecs_length]; omega)
  rw [hxl] at h2
  rw [h2]
  have h3 := patch_length (b := d) (off := ps) (d := x ++ boundRecs (pt + (name.length + 1) - base) es)
    (by rw [List.length_append, boundRecs_length]; omega)
  have h4 := patch_patch_adjacent (b := patch d ps (x ++ boundRecs (pt + (name.length + 1) - base) es)) (off := pt)
    (d := name ++ [0]) (e := boundStrs es)
    (by simp only [List.length_append, List.length_cons, List.length_nil]; omega)
  rw [show pt + (name ++ [(0 : UInt8)]).length = pt + (name.length + 1) by simp] at h4
  rw [h4, boundStrs_cons, boundRecs, hx]
  rw [show pt - base + (name.length + 1) = pt + (name.length + 1) - base by omega]

theorem writeBoundRefs_eq (base : Nat) (rs : List BoundRef) (d : Bytes) (ps pt : Nat) (hb : base ≤ ps)
    (h : ps + 8 * rs.length ≤ pt) (hl : pt + (boundStrs (rs.map (fun r => (r.stamp, 0, r.name)))).length ≤ d.length)
    (h32 : d.length < 2 ^ 32) :
    writeBoundRefs base d ps pt rs = .ok (patch (patch d ps (boundRecs (pt - base) (rs.map (fun r => (r.stamp, 0, r.name))))) pt
      (boundStrs (rs.map (fun r => (r.stamp, 0, r.name)))), (ps + 8 * rs.length,
        pt + (boundStrs (rs.map (fun r => (r.stamp, 0, r.name)))).length)) := by
  induction rs generalizing d ps pt with
  | nil => simp [writeBoundRefs, boundRecs, patch_nil]
  | cons r rs ih =>
    have hstep := bound_step (a := r.stamp) (c := 0) (name := r.name) (es := rs.map (fun r => (r.stamp, 0, r.name)))
      (d := d) hb (by simpa using h) hl
    rw [List.length_cons] at h
    rw [List.map_cons, boundStrs_cons, List.length_append] at hl
    simp only [List.length_append, List.length_cons, List.length_nil] at hl
    have h1 := patch_length (b := d) (off := ps) (d := leBytes 4 r.stamp ++ (leBytes 2 (pt - base) ++ leBytes 2 0))
      (by simp; omega)
    have h2 := patch_length (b := patch d ps (leBytes 4 r.stamp ++ (leBytes 2 (pt - base) ++ leBytes 2 0))) (off := pt)
      (d := r.name ++ [0]) (by simp; omega)
    unfold writeBoundRefs
    rw [sub32_of_le (by omega) (by omega), writeAt_ok (by simp; omega), ok_bind, writeAt_ok (by simp; omega), ok_bind]
    rw [w32, Nat.mod_eq_of_lt (by omega), w32, Nat.mod_eq_of_lt (by omega)]
    rw [ih _ _ _ (by omega) (by omega) (by omega) (by omega), hstep]
    refine congrArg Except.ok ?_
    rw [List.map_cons, boundStrs_cons]
    simp only [List.length_append, List.length_cons, List.length_nil]
    refine Prod.ext rfl (Prod.ext ?_ ?_) <;> simp only <;> omega

theorem writeBoundMods_eq (base : Nat) (l : List BoundMod) (d : Bytes) (ps pt : Nat) (hb : base ≤ ps)
    (h : ps + 8 * (boundEntries l).length ≤ pt) (hl : pt + (boundStrs (boundEntries l)).length ≤ d.length)
    (h32 : d.length < 2 ^ 32) :
    writeBoundMods base d ps pt l = .ok (patch (patch d ps (boundRecs (pt - base) (boundEntries l))) pt
      (boundStrs (boundEntries l))) := by
  induction l generalizing d ps pt with
  | nil => simp [writeBoundMods, boundRecs, patch_nil, boundEntries_nil]
  | cons m l ih =>
    generalize hes : m.refs.map (fun r => (r.stamp, 0, r.name)) = es at *
    have hesl : es.length = m.refs.length := by rw [← hes]; simp
    have hent : boundEntries (m :: l) = (m.stamp, m.refs.length, m.name) :: (es ++ boundEntries l) := by
      rw [boundEntries_cons, hes]; rfl
    rw [hent] at h hl ⊢
    have hstep := bound_step (a := m.stamp) (c := m.refs.length) (name := m.name) (es := es ++ boundEntries l)
      (d := d) hb (by simpa using h) hl
    rw [List.length_cons, List.length_append] at h
    rw [boundStrs_cons, List.length_append, boundStrs_append] at hl
    simp only [List.length_append, List.length_cons, List.length_nil] at hl
    unfold writeBoundMods
    rw [sub32_of_le (by omega) (by omega)]
    generalize hx : leBytes 4 m.stamp ++ (leBytes 2 (pt - base) ++ leBytes 2 m.refs.length) = x at *
    have hxl : x.length = 8 := by rw [← hx]; simp
    have h1 := patch_length (b := d) (off := ps) (d := x) (by omega)
    have h2 := patch_length (b := patch d ps x) (off := pt) (d := m.name ++ [0]) (by simp; omega)
    rw [writeAt_ok (by omega), ok_bind, writeAt_ok (by simp; omega), ok_bind]
    rw [w32, Nat.mod_eq_of_lt (by omega), w32, Nat.mod_eq_of_lt (by omega)]
    generalize patch (patch d ps x) pt (m.name ++ [0]) = d1 at *
    rw [writeBoundRefs_eq _ _ _ _ _ (by omega) (by omega) (by rw [hes]; omega) (by omega), ok_bind, hes]
    dsimp only
    have h3 := patch_length (b := d1) (off := ps + 8) (d := boundRecs (pt + (m.name.length + 1) - base) es)
      (by rw [boundRecs_length]; omega)
    have h4 := patch_length (b := patch d1 (ps + 8) (boundRecs (pt + (m.name.length + 1) - base) es))
      (off := pt + (m.name.length + 1)) (d := boundStrs es) (by omega)
    rw [ih _ _ _ (by omega) (by omega) (by omega) (by omega), ← hstep]
    refine congrArg Except.ok ?_
    rw [boundRecs_append, boundStrs_append]
    rw [← patch_two (by simp only [boundRecs_length]; omega) (by omega), boundRecs_length, hesl,
      show pt + (m.name.length + 1) - base + (boundStrs es).length =
        pt + (m.name.length + 1) + (boundStrs es).length - base by omega]

theorem boundRefs_eq {b : Bytes} {len : Nat} (rs : List BoundRef) (pos o : Nat)
    (h1 : At b pos (boundRecs o (rs.map (fun r => (r.stamp, 0, r.name)))))
    (h2 : At b o (boundStrs (rs.map (fun r => (r.stamp, 0, r.name)))))
    (hp : pos + 8 * rs.length ≤ len) (ho : o + (boundStrs (rs.map (fun r => (r.stamp, 0, r.name)))).length ≤ len)
    (h32 : len < 2 ^ 32) (h16 : o + (boundStrs (rs.map (fun r => (r.stamp, 0, r.name)))).length ≤ 65536)
    (hr : ∀ r ∈ rs, r.stamp < 2 ^ 32 ∧ ∀ x ∈ r.name, x ≠ 0) :
    boundRefs b len rs.length pos = .ok rs := by
  induction rs generalizing pos o with
  | nil => rfl
  | cons r rs ih =>
    rw [List.map_cons] at h1 h2 ho h16
    rw [boundStrs_cons] at h2 ho h16
    simp only [List.length_append, List.length_cons, List.length_nil] at ho h16 hp
    rw [boundRecs] at h1
    obtain ⟨r1, r2⟩ := hr r (by simp)
    rw [List.length_cons, boundRefs]
    rw [throwIf_neg (by omega), ok_bind, ((h1.left).right (by simp)).left.readU (by omega), ok_bind,
      (h2.left).checkedCStr _ r2 (by dsimp only; omega), ok_bind, (h1.left.left).readU r1, ok_bind]
    rw [w32, Nat.mod_eq_of_lt (by omega), ih (pos + 8) (o + (r.name.length + 1)) (h1.right (by simp))
      (h2.right (by simp)) (by omega) (by omega) (by omega) (fun x hx => hr x (by simp [hx]))]
    rfl

theorem boundLoop_eq {b : Bytes} {len : Nat} (l : List BoundMod) (pos o : Nat)
    (h1 : At b pos (boundRecs o (boundEntries l))) (h2 : At b o (boundStrs (boundEntries l)))
    (hz : At b (pos + 8 * (boundEntries l).length + 4) (leBytes 2 0)) (hlen : len = b.length)
    (hp : pos + 8 * (boundEntries l).length + 8 ≤ len) (h32 : len < 2 ^ 32) (ho0 : 0 < o)
    (h16 : o + (boundStrs (boundEntries l)).length ≤ 65536)
    (hr : ∀ m ∈ l, m.stamp < 2 ^ 32 ∧ (∀ x ∈ m.name, x ≠ 0) ∧ ∀ r ∈ m.refs, r.stamp < 2 ^ 32 ∧ ∀ x ∈ r.name, x ≠ 0) :
    boundLoop b len pos = .ok l := by
  induction l generalizing pos o with
  | nil =>
    rw [boundLoop, At.readU (v := 0) (by simpa [boundEntries_nil] using hz) (by decide), ok_bind, if_pos rfl]
  | cons m l ih =>
    have hent := boundEntries_cons m l
    obtain ⟨m1, m2, m3⟩ := hr m (by simp)
    have ho := h2.le
    rw [hent] at h1 h2 hz hp h16 ho
    generalize hes : m.refs.map (fun r => (r.stamp, 0, r.name)) = es at *
    have hesl : es.length = m.refs.length := by rw [← hes]; simp
    rw [List.cons_append] at h1 h2 hz hp h16 ho
    rw [boundRecs] at h1
    rw [boundStrs_cons] at h2 h16 ho
    simp only [List.length_append, List.length_cons, List.length_nil, boundStrs_append] at ho h16 hp hz
    have hml : m.refs.length < 65536 := by
      have : es.length ≤ (boundStrs es).length := by
        clear h1 h2 hz hp h16 ho hes hesl hent
        induction es with
        | nil => simp
        | cons e es ih => rw [boundStrs_cons]; simp; omega
      omega
    have h1a := h1.left
    have h1b := h1.right (n := pos + 8) (by simp)
    rw [boundRecs_append] at h1b
    have h2b := h2.right (n := o + (m.name.length + 1)) (by simp)
    rw [boundStrs_append] at h2b
    rw [boundLoop]
    rw [(h1a.right (n := pos + 4) (by simp)).left.readU (by omega), ok_bind, if_neg (by omega)]
    rw [(h2.left).checkedCStr _ m2 (by dsimp only; omega), ok_bind, (h1a.left).readU m1, ok_bind]
    rw [((h1a.right (n := pos + 4) (by simp)).right (n := pos + 6) (by simp)).readU (by omega), ok_bind]
    dsimp only
    rw [throwIf_neg, ok_bind]
    · rw [w32, Nat.mod_eq_of_lt (a := pos + 8) (by omega), w32, Nat.mod_eq_of_lt (by omega)]
      have hrefs := boundRefs_eq (b := b) (len := len) m.refs (pos + 8) (o + (m.name.length + 1)) (by rw [hes]; exact h1b.left)
        (by rw [hes]; exact h2b.left) (by omega) (by rw [hes]; omega) (by omega) (by rw [hes]; omega) m3
      rw [hrefs, ok_bind, throwIf_neg (by omega), ok_bind, dif_pos (by omega)]
      rw [ih (pos + 8 + 8 * m.refs.length) (o + (m.name.length + 1) + (boundStrs es).length)
        (h1b.right (by rw [boundRecs_length]; omega)) (h2b.right rfl)
        (by
          have : pos + 8 + 8 * m.refs.length + 8 * (boundEntries l).length + 4 =
            pos + 8 * (es.length + (boundEntries l).length + 1) + 4 := by omega
          rw [this]; exact hz)
        (by omega) (by omega) (by omega) (fun x hx => hr x (by simp [hx]))]
      rfl
    · rintro (h | h)
      · omega
      · unfold isSumSafe w32 at h
        rw [decide_eq_false_iff_not] at h
        omega

end PE
