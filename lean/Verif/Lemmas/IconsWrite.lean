/-
What adding an icon or cursor file does to the tree and to the data of the group.
-/
import Verif.Lemmas.IconsFile
import Verif.Props.IconIds
import Verif.Props.ResourceManager

namespace PE

/-! ### Entries of the first and second level -/

/-- The entry for type and name. -/
def ResDir.second (r : ResDir) (t n : ResKey) : Option ResEntry := (dirOf (lk r.es t)).bind (fun d => lk d.es n)

theorem sub_two (r : ResDir) (t n : ResKey) : r.sub [t, n] = dirOf (r.second t n) := by
  rw [sub_cons]
  unfold ResDir.second
  cases dirOf (lk r.es t) with
  | none => rfl
  | some d => exact sub_one d n

theorem entry3_second (r : ResDir) (t n l : ResKey) : r.entry3 t n l = (dirOf (r.second t n)).bind (fun d => lk d.es l) := by
  unfold ResDir.entry3
  rw [sub_two]
  cases dirOf (r.second t n) <;> rfl

theorem getData_second {r r' : ResDir} {t n : ResKey} (h : r'.second t n = r.second t n) {lang : Nat} {x : Nat × Bytes} :
    r'.getData t n lang = .ok x ↔ r.getData t n lang = .ok x := by
  rw [getData_ok, getData_ok, entry3_second, entry3_second, h]

theorem blocked_iff (r : ResDir) (t n : ResKey) :
    r.Blocked t n ↔ (∃ e, lk r.es t = some e ∧ e.NotDir) ∨ ∃ e, r.second t n = some e ∧ e.NotDir := by
  unfold ResDir.Blocked ResDir.second
  rw [sub_one]
  refine or_congr Iff.rfl ⟨?_, ?_⟩
  · rintro ⟨d, e, hd, he, hn⟩
    exact ⟨e, by rw [hd]; exact he, hn⟩
  · rintro ⟨e, he, hn⟩
    cases hd : dirOf (lk r.es t) with
    | none => rw [hd] at he; cases he
    | some d => rw [hd] at he; exact ⟨d, e, rfl, he, hn⟩

theorem not_used_iff (r : ResDir) (t : ResKey) (x : Nat) : ¬ r.Used t x ↔ r.second t (.id x) = none := by
  unfold ResDir.Used ResDir.second
  rw [sub_one]
  cases dirOf (lk r.es t) with
  | none => exact ⟨fun _ => rfl, fun _ ⟨d, h, _⟩ => (by cases h)⟩
  | some d =>
    show _ ↔ lk d.es (.id x) = none
    rw [lk_none]
    constructor
    · intro h e he hk
      exact h ⟨d, rfl, List.mem_map.mpr ⟨e, he, hk⟩⟩
    · rintro h ⟨d', hd, hm⟩
      cases hd
      obtain ⟨e, he, hk⟩ := List.mem_map.mp hm
      exact h e he hk

/-- Adding a resource changes no other entries of the first and second level. -/
theorem add_levels {r r' : ResDir} {d : Bytes} {t n : ResKey} {lang cp stamp : Nat} (h : r.addResource d t n lang cp stamp = (r', .ok ())) :
    (∀ t', t' ≠ t → lk r'.es t' = lk r.es t') ∧ (∃ hh es, lk r'.es t = some (.dir t hh es)) ∧
    (∀ t' n', (t', n') ≠ (t, n) → r'.second t' n' = r.second t' n') := by
  obtain ⟨root, h2, es2, es2', h3, es3, e, f2, f3, u2, u3⟩ := addResource_spec r d t n lang cp stamp (ok_not_blocked h)
  rw [e] at h
  injection h with h _
  subst h
  refine ⟨fun t' ht => u2.2 t' ht, ⟨h2, es2', u2.1⟩, fun t' n' hne => ?_⟩
  unfold ResDir.second
  by_cases ht : t' = t
  · subst ht
    have hn : n' ≠ n := fun h => hne (by rw [h])
    show (dirOf (lk root t')).bind _ = _
    rw [u2.1]
    show lk es2' n' = _
    rw [u3.2 n' hn]
    rcases found_dir f2 with h | ⟨h, _, h'⟩
    · rw [h]; rfl
    · rw [h, h']; rfl
  · show (dirOf (lk root t')).bind _ = _
    rw [u2.2 t' ht]

/-! ### The loop over the images -/

/-- The stored data of image `j` of the file. -/
def IcKind.storedOf (k : IcKind) (f : Bytes) (j : Nat) : Bytes :=
  match k with
  | .icon => slice f (rd 4 f (6 + 16 * j + 12)) (rd 4 f (6 + 16 * j + 8))
  | .cursor => slice f (6 + 16 * j + 4) 4 ++ slice f (rd 4 f (6 + 16 * j + 12)) (rd 4 f (6 + 16 * j + 8))

theorem stored_eq {k : IcKind} {f : Bytes} (hf : IcoFile f) {j : Nat} (hj : j < rd 2 f 4) :
    k.stored f (slice f (6 + 16 * j) 16) = .ok (k.storedOf f j) := by
  have h1 := hf.fits j hj
  unfold IcKind.stored
  rw [rd_slice (by omega), rd_slice (by omega), if_neg (by omega)]
  cases k with
  | icon => rfl
  | cursor => show Except.ok (slice (slice f (6 + 16 * j) 16) 4 4 ++ _) = _; rw [slice_slice (by omega)]; rfl

theorem slice_le (b : Bytes) (o n : Nat) : (slice b o n).length ≤ n := by rw [slice_length]; omega

theorem groupEntry_length {k : IcKind} {e : Bytes} {num : Nat} (he : 12 ≤ e.length) : (k.groupEntry e num).length = 14 := by
  cases k with
  | icon =>
    unfold IcKind.groupEntry
    dsimp only
    rw [List.length_append, leBytes_length, slice_length_of_le (by omega)]
  | cursor =>
    unfold IcKind.groupEntry
    simp only [List.length_append, leBytes_length]

theorem patch_append {a t e : Bytes} : patch (a ++ t) a.length e = a ++ e ++ t.drop e.length := by
  unfold patch
  rw [List.take_append_of_le_length (by omega), List.take_of_length_le (by omega), List.drop_append]
  rw [List.drop_eq_nil_of_le (by omega), List.nil_append]
  congr 2
  omega

theorem writeAt_append {a t e : Bytes} {o : Nat} (ho : o = a.length) (h : e.length ≤ t.length) :
    writeAt (a ++ t) o e = .ok (a ++ e ++ t.drop e.length) := by
  subst ho
  rw [writeAt_ok (by rw [List.length_append]; omega), patch_append]

/-- The entries of the group for the images from `i` on. -/
def newEntries (k : IcKind) (f : Bytes) (nums : List Nat) (i n : Nat) : Bytes :=
  ((List.range' i n).map fun j => k.groupEntry (slice f (6 + 16 * j) 16) (nums.getD j 0)).flatten

theorem icOne_eq {k : IcKind} {f : Bytes} {nums : List Nat} {base i num : Nat} {pre tail : Bytes} (hf : IcoFile f) (hi : i < rd 2 f 4)
    (hn : nums[i]? = some num) (hp : pre.length = 6 + 14 * (base + i)) (ht : 14 ≤ tail.length) :
    icOne k f nums base i (pre ++ tail) = .ok (num, pre ++ k.groupEntry (slice f (6 + 16 * i) 16) num ++ tail.drop 14, k.storedOf f i) := by
  have hh := hf.headers
  have hg : (k.groupEntry (slice f (6 + 16 * i) 16) num).length = 14 :=
    groupEntry_length (by rw [slice_length_of_le (by omega)]; omega)
  unfold icOne
  rw [readN_ok (by omega), ok_bind, hn]
  dsimp only
  rw [writeAt_append (by omega) (by omega), ok_bind, stored_eq hf hi, ok_bind, hg]

theorem icAddAll_spec (k : IcKind) (f : Bytes) (nums : List Nat) (base lang cp stamp : Nat) (hf : IcoFile f)
    (hnl : nums.length = rd 2 f 4) (hnd : nums.Nodup) : ∀ (n i : Nat) (r : ResDir) (pre tail : Bytes), i + n = rd 2 f 4 →
    pre.length = 6 + 14 * (base + i) → tail.length = 14 * n → (∀ e, lk r.es k.imgType = some e → ¬ e.NotDir) →
    (∀ j x, i ≤ j → nums[j]? = some x → r.second k.imgType (.id x) = none) →
    ∃ r', icAddAll k f nums base lang cp stamp n i r (pre ++ tail) = (r', .ok (pre ++ newEntries k f nums i n)) ∧
      (∀ t, t ≠ k.imgType → lk r'.es t = lk r.es t) ∧
      (∀ t m, (t = k.imgType → ∀ j x, i ≤ j → nums[j]? = some x → m ≠ .id x) → r'.second t m = r.second t m) ∧
      (∀ j x, i ≤ j → nums[j]? = some x → r'.getData k.imgType (.id x) lang = .ok (cp, k.storedOf f j)) := by
  intro n
  induction n with
  | zero =>
    intro i r pre tail hi hp ht _ _
    have : tail = [] := List.length_eq_zero_iff.mp (by omega)
    subst this
    refine ⟨r, rfl, fun _ _ => rfl, fun _ _ _ => rfl, fun j x hj hx => ?_⟩
    have := (List.getElem?_eq_some_iff.mp hx).1
    omega
  | succ n ih =>
    intro i r pre tail hi hp ht hd hs
    have hil : i < nums.length := by omega
    have hx : nums[i]? = some nums[i] := List.getElem?_eq_getElem hil
    generalize hnum : nums[i] = num at hx
    have hb : ¬ r.Blocked k.imgType (.id num) := by
      rw [blocked_iff]
      rintro (⟨e, he, hn⟩ | ⟨e, he, hn⟩)
      · exact hd e he hn
      · rw [hs i num (Nat.le_refl _) hx] at he; cases he
    have hadd := (C33_add_throws r (k.storedOf f i) k.imgType (.id num) lang cp stamp).2 hb
    cases ha : r.addResource (k.storedOf f i) k.imgType (.id num) lang cp stamp with
    | mk r1 res =>
      rw [ha] at hadd
      dsimp only at hadd
      subst hadd
      obtain ⟨l1, ⟨hh, es, l2⟩, l3⟩ := add_levels ha
      have hg : (k.groupEntry (slice f (6 + 16 * i) 16) num).length = 14 :=
        groupEntry_length (by have := hf.headers; rw [slice_length_of_le (by omega)]; omega)
      have hother : ∀ j x, i < j → nums[j]? = some x → x ≠ num := by
        intro j x hj hjx hxn
        subst hxn
        obtain ⟨hjl, hje⟩ := List.getElem?_eq_some_iff.mp hjx
        exact List.pairwise_iff_getElem.mp hnd i j hil hjl hj (hnum.trans hje.symm)
      obtain ⟨r', e, c1, c2, c3⟩ := ih (i + 1) r1 (pre ++ k.groupEntry (slice f (6 + 16 * i) 16) num) (tail.drop 14) (by omega)
        (by rw [List.length_append, hg]; omega) (by rw [List.length_drop]; omega)
        (fun e he hn => by rw [l2] at he; cases he; exact hn)
        (fun j x hj hjx => by
          rw [l3 _ _ (fun h => by
            injection h with _ h
            injection h with h
            exact hother j x (by omega) hjx h)]
          exact hs j x (by omega) hjx)
      refine ⟨r', ?_, fun t ht => (c1 t ht).trans (l1 t ht), fun t m hm => ?_, fun j x hj hjx => ?_⟩
      · rw [icAddAll, icOne_eq hf (by omega) hx hp (by omega)]
        dsimp only
        rw [ha]
        dsimp only
        rw [e]
        unfold newEntries
        rw [List.range'_succ, List.map_cons, List.flatten_cons, List.append_assoc, List.getD_eq_getElem?_getD, hx]
        rfl
      · rw [c2 t m (fun ht j x hj hjx => hm ht j x (by omega) hjx)]
        refine l3 t m (fun h => ?_)
        injection h with h1 h2
        exact hm h1 i num (Nat.le_refl _) hx h2
      · by_cases hji : j = i
        · subst hji
          rw [hx] at hjx
          cases hjx
          rw [getData_second (c2 k.imgType (.id num) (fun _ j' x' hj' hx' h => by
            injection h with h
            exact hother j' x' (by omega) hx' h.symm))]
          refine C33_add_then_get r r1 _ _ _ lang cp stamp ha (fun a ha' => ?_)
          rw [sub_two, hs j num (Nat.le_refl _) hx] at ha'
          cases ha'
        · exact c3 j x (by omega) hjx

end PE
