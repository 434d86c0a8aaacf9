/-
C33, C34, C58, C59: looking up and editing resources.
-/
import Verif.Lemmas.ResourceManager
import Verif.Props.Resources

namespace PE

/-! ### Lookups -/

theorem entryBy_eq (r : ResDir) (k : ResKey) :
    r.entryBy k = match lk r.es k with
      | some e => .ok e
      | none => throwE .resourceDirectoryEntryNotFound := by
  unfold ResDir.entryBy lk
  rw [hasKey_eq]
  rfl

theorem entryBy_ok {r : ResDir} {k : ResKey} {e : ResEntry} : r.entryBy k = .ok e ↔ lk r.es k = some e := by
  rw [entryBy_eq]
  cases lk r.es k with
  | none => simp [throwE]
  | some e' => simp

theorem typeDir_ok {r d : ResDir} {t : ResKey} : r.typeDir t = .ok d ↔ r.sub [t] = some d := by
  rw [sub_one]
  unfold ResDir.typeDir
  rw [entryBy_eq]
  cases lk r.es t with
  | none => simp [throwE, dirOf, bind, Except.bind]
  | some e => cases e <;> simp [throwE, dirOf, bind, Except.bind, ResEntry.getDir]

theorem nameDir_ok {r d : ResDir} {t n : ResKey} : r.nameDir t n = .ok d ↔ r.sub [t, n] = some d := by
  rw [sub_cons]
  unfold ResDir.nameDir
  constructor
  · intro h
    cases hd : r.typeDir t with
    | error e => rw [hd] at h; cases h
    | ok a =>
      have h1 := typeDir_ok.mp hd
      rw [sub_one] at h1
      rw [h1, Option.bind_some]
      rw [hd, ok_bind] at h
      exact typeDir_ok.mp h
  · intro h
    cases hd : dirOf (lk r.es t) with
    | none => rw [hd] at h; cases h
    | some a =>
      rw [hd, Option.bind_some] at h
      rw [typeDir_ok.mpr (by rw [sub_one]; exact hd), ok_bind]
      exact typeDir_ok.mpr h

/-- What a lookup with a language returns: code page and data of the entry, if it has data. -/
theorem getData_ok {r : ResDir} {t n : ResKey} {lang : Nat} {x : Nat × Bytes} :
    r.getData t n lang = .ok x ↔ r.entry3 t n (.id lang) = some (.data (.id lang) x.1 x.2) := by
  unfold ResDir.getData ResDir.entry3
  constructor
  · intro h
    cases hd : r.nameDir t n with
    | error e => rw [hd] at h; cases h
    | ok a =>
      rw [nameDir_ok.mp hd]
      rw [hd, ok_bind] at h
      cases he : a.entryBy (.id lang) with
      | error e => rw [he] at h; cases h
      | ok e =>
        rw [he, ok_bind] at h
        have h1 := entryBy_ok.mp he
        have h2 := lk_key h1
        show lk a.es _ = _
        rw [h1]
        cases e with
        | empty k => cases h
        | data k cp d => cases h; cases h2; rfl
        | dir k hh es => cases h
  · intro h
    cases hd : r.sub [t, n] with
    | none => rw [hd] at h; cases h
    | some a =>
      rw [hd] at h
      rw [nameDir_ok.mpr hd, ok_bind, entryBy_ok.mpr h, ok_bind]
      rfl

/-! ### C33, C34: adding -/

/-- C33: adding a resource succeeds exactly if no entry on the way to it (its type, its name) is something else than a
    directory; if it does not succeed it throws and changes nothing. -/
theorem C33_add_throws (r : ResDir) (d : Bytes) (t n : ResKey) (lang cp stamp : Nat) :
    (r.Blocked t n → r.addResource d t n lang cp stamp = (r, throwE .resourceDirectoryEntryError)) ∧
    (¬ r.Blocked t n → (r.addResource d t n lang cp stamp).2 = .ok ()) := by
  refine ⟨addResource_blocked r d t n lang cp stamp, fun h => ?_⟩
  obtain ⟨root, h2, es2, es2', h3, es3, e, _⟩ := addResource_spec r d t n lang cp stamp h
  rw [e]

theorem ok_not_blocked {r r' : ResDir} {d : Bytes} {t n : ResKey} {lang cp stamp : Nat}
    (h : r.addResource d t n lang cp stamp = (r', .ok ())) : ¬ r.Blocked t n := by
  intro hb
  rw [addResource_blocked r d t n lang cp stamp hb] at h
  injection h with _ h
  cases h

/-- C33: after adding a resource its data and code page are found, provided that the directory of its languages did not
    have the language more than once (`C33_duplicates`). -/
theorem C33_add_then_get (r r' : ResDir) (d : Bytes) (t n : ResKey) (lang cp stamp : Nat)
    (h : r.addResource d t n lang cp stamp = (r', .ok ()))
    (hc : ∀ a, r.sub [t, n] = some a → (a.es.map ResEntry.key).count (.id lang) ≤ 1) : r'.getData t n lang = .ok (cp, d) := by
  obtain ⟨root, h2, es2, es2', h3, es3, e, f2, f3, u2, u3⟩ := addResource_spec r d t n lang cp stamp (ok_not_blocked h)
  rw [e] at h
  cases h
  rw [getData_ok, entry3_eq, u2.1]
  show (dirOf (lk es2' n)).bind _ = _
  rw [u3.1]
  show lk (putLang es3 lang cp d) _ = _
  refine (putLang_upd es3 lang cp d ?_).1
  rcases found_dir f3 with g3 | ⟨_, _, rfl⟩
  · rcases found_dir f2 with g2 | ⟨_, _, rfl⟩
    · refine hc { h := h3, es := es3 } ?_
      rw [sub_cons, g2, Option.bind_some, sub_one]
      exact g3
    · rw [lk_nil] at g3; cases g3
  · simp

/-- C34: adding a resource does not change what is found for any other type, name and language. -/
theorem C34_add_keeps (r : ResDir) (d : Bytes) (t n : ResKey) (lang cp stamp : Nat) (t' n' l' : ResKey)
    (hne : (t', n', l') ≠ (t, n, .id lang)) : (r.addResource d t n lang cp stamp).1.entry3 t' n' l' = r.entry3 t' n' l' := by
  by_cases hb : r.Blocked t n
  · rw [addResource_blocked r d t n lang cp stamp hb]
  · obtain ⟨root, h2, es2, es2', h3, es3, e, f2, f3, u2, u3⟩ := addResource_spec r d t n lang cp stamp hb
    rw [e, entry3_eq, entry3_eq]
    by_cases ht : t' = t
    · subst ht
      show (dirOf (lk root t')).bind _ = _
      rw [u2.1]
      show (dirOf (lk es2' n')).bind _ = _
      have hsub : (dirOf (lk r.es t')).bind (fun d => (dirOf (lk d.es n')).bind (fun d' => lk d'.es l')) =
          (dirOf (lk es2 n')).bind (fun d' => lk d'.es l') := by
        rcases found_dir f2 with g2 | ⟨g2, _, rfl⟩
        · rw [g2]; rfl
        · rw [g2]; rfl
      rw [hsub]
      by_cases hn : n' = n
      · subst hn
        have hl : l' ≠ .id lang := fun h => hne (by rw [h])
        rw [u3.1]
        show lk (putLang es3 lang cp d) l' = _
        rw [putLang_other _ _ _ _ hl]
        rcases found_dir f3 with g3 | ⟨g3, _, rfl⟩
        · rw [g3]; rfl
        · rw [g3]; rfl
      · rw [u3.2 _ hn]
    · show (dirOf (lk root t')).bind _ = _
      rw [u2.2 _ ht]

/-- C34: adding a resource keeps the fields (time stamp, versions, counters) of all directories of types and names that
    were there, and those of the root. -/
theorem C34_add_keeps_directories (r : ResDir) (d : Bytes) (t n : ResKey) (lang cp stamp : Nat) :
    (r.addResource d t n lang cp stamp).1.h = r.h ∧
    (∀ t' a, r.sub [t'] = some a → ∃ b, (r.addResource d t n lang cp stamp).1.sub [t'] = some b ∧ b.h = a.h) ∧
    (∀ t' n' a, r.sub [t', n'] = some a → ∃ b, (r.addResource d t n lang cp stamp).1.sub [t', n'] = some b ∧ b.h = a.h) := by
  by_cases hb : r.Blocked t n
  · rw [addResource_blocked r d t n lang cp stamp hb]
    exact ⟨rfl, fun t' a h => ⟨a, h, rfl⟩, fun t' n' a h => ⟨a, h, rfl⟩⟩
  · obtain ⟨root, h2, es2, es2', h3, es3, e, f2, f3, u2, u3⟩ := addResource_spec r d t n lang cp stamp hb
    rw [e]
    refine ⟨rfl, fun t' a h => ?_, fun t' n' a h => ?_⟩
    · rw [sub_one] at *
      by_cases ht : t' = t
      · subst ht
        refine ⟨_, by show dirOf (lk root t') = _; rw [u2.1]; rfl, ?_⟩
        rcases found_dir f2 with g2 | ⟨g2, _, _⟩
        · rw [g2] at h; cases h; rfl
        · rw [g2] at h; cases h
      · exact ⟨a, by show dirOf (lk root t') = _; rw [u2.2 _ ht]; exact h, rfl⟩
    · rw [sub_cons] at *
      show ∃ b, (dirOf (lk root t')).bind _ = _ ∧ _
      by_cases ht : t' = t
      · subst ht
        rw [u2.1]
        show ∃ b, ResDir.sub { h := h2, es := es2' } [n'] = _ ∧ _
        rcases found_dir f2 with g2 | ⟨g2, _, _⟩
        · rw [g2, Option.bind_some, sub_one] at h
          rw [sub_one]
          dsimp only at h ⊢
          by_cases hn : n' = n
          · subst hn
            refine ⟨_, by rw [u3.1]; rfl, ?_⟩
            rcases found_dir f3 with g3 | ⟨g3, _, _⟩
            · rw [g3] at h; cases h; rfl
            · rw [g3] at h; cases h
          · exact ⟨a, by rw [u3.2 _ hn]; exact h, rfl⟩
        · rw [g2] at h; cases h
      · exact ⟨a, by rw [u2.2 _ ht]; exact h, rfl⟩

/-! ### C34: removing -/

theorem count_of_nodup {es : List ResEntry} (h : (es.map ResEntry.key).Nodup) (k : ResKey) : (es.map ResEntry.key).count k ≤ 1 :=
  List.nodup_iff_count.mp h k

theorem first_eq (r : ResDir) (k : ResKey) : r.first k = lk r.es k := rfl

/-- C34: removing a type returns whether it was there, and afterwards it is gone and everything else is as before. -/
theorem C34_remove_type (r : ResDir) (t : ResKey) (hu : r.Unique) :
    (r.removeType t).2 = .ok (r.first t).isSome ∧ (r.removeType t).1.h = r.h ∧
    ∀ t', (r.removeType t).1.first t' = if t' = t then none else r.first t' := by
  unfold ResDir.removeType
  cases h : findKey r.es t with
  | none =>
    have h1 := findKey_none.mp h
    refine ⟨by rw [first_eq, h1]; rfl, rfl, fun t' => ?_⟩
    by_cases ht : t' = t
    · rw [if_pos ht, ht]; exact h1
    · rw [if_neg ht]
  | some i =>
    obtain ⟨e, h1, h2⟩ := findKey_some h
    have hu := upd_erase h (count_of_nodup (hu [] r rfl) t)
    refine ⟨by rw [first_eq, h2]; rfl, rfl, fun t' => ?_⟩
    by_cases ht : t' = t
    · rw [if_pos ht, ht]; exact hu.1
    · rw [if_neg ht]; exact hu.2 _ ht

/-- C34: removing a resource (in all languages) throws only if its type is not a directory, and then changes nothing;
    otherwise it returns whether the resource was there, the resource is gone and everything else is as before; if it was the
    last one its type is gone too. -/
theorem C34_remove_name (r : ResDir) (t n : ResKey) (hu : r.Unique) :
    (∀ e, r.first t = some e → e.NotDir → r.removeName t n = (r, throwE .resourceDirectoryEntryError)) ∧
    ((∀ e, r.first t = some e → ¬ e.NotDir) →
      (r.removeName t n).2 = .ok (match r.sub [t] with | some d => (d.first n).isSome | none => false) ∧
      (∀ t' n' l', (r.removeName t n).1.entry3 t' n' l' = if t' = t ∧ n' = n then none else r.entry3 t' n' l') ∧
      ((r.removeName t n).2 = .ok true → ∀ d, (r.removeName t n).1.sub [t] = some d → d.es ≠ [])) := by
  unfold ResDir.removeName
  constructor
  · intro e he hn
    cases h : findKey r.es t with
    | none => rw [first_eq, findKey_none.mp h] at he; cases he
    | some i =>
      obtain ⟨e', h1, h2⟩ := findKey_some h
      have : e' = e := Option.some.inj (h2.symm.trans he)
      subst this
      dsimp only
      rw [h1]
      cases e' <;> first | rfl | exact hn.elim
  · intro hd
    cases h : findKey r.es t with
    | none =>
      have h1 := findKey_none.mp h
      refine ⟨by rw [sub_one, h1]; rfl, fun t' n' l' => ?_, fun h => by cases h⟩
      dsimp only
      split
      · rename_i h; rw [entry3_eq, h.1, h1]; rfl
      · rfl
    | some i =>
      obtain ⟨e, h1, h2⟩ := findKey_some h
      rcases dir_or_not e with ⟨hh, es, he⟩ | he
      · rw [lk_key h2] at he
        subst he
        have hsub : r.sub [t] = some { h := hh, es := es } := by rw [sub_one, h2]; rfl
        dsimp only
        rw [h1, hsub]
        dsimp only
        cases g : findKey es n with
        | none =>
          have g1 := findKey_none.mp g
          refine ⟨by rw [first_eq, g1]; rfl, fun t' n' l' => ?_, fun h => by cases h⟩
          dsimp only
          split
          · rename_i hc
            rw [entry3_eq, hc.1, hc.2, h2]
            show (dirOf (lk es n)).bind _ = _
            rw [g1]; rfl
          · rfl
        | some j =>
          obtain ⟨e2, g1, g2⟩ := findKey_some g
          have u2 := upd_erase g (count_of_nodup (hu [t] _ hsub) n)
          dsimp only
          by_cases hem : (es.eraseIdx j).isEmpty = true
          · rw [if_pos hem]
            have u := upd_erase h (count_of_nodup (hu [] r rfl) t)
            refine ⟨by rw [first_eq, g2]; rfl, fun t' n' l' => ?_, fun _ d hd => ?_⟩
            · rw [entry3_eq, entry3_eq]
              by_cases ht : t' = t
              · subst ht
                show (dirOf (lk (r.es.eraseIdx i) t')).bind _ = _
                rw [u.1]
                by_cases hn : n' = n
                · rw [if_pos ⟨rfl, hn⟩]; rfl
                · rw [if_neg (fun h => hn h.2), h2]
                  show _ = (dirOf (lk es n')).bind _
                  rw [← u2.2 _ hn, lk_none_of_empty hem]; rfl
              · rw [if_neg (fun h => ht h.1)]
                show (dirOf (lk (r.es.eraseIdx i) t')).bind _ = _
                rw [u.2 _ ht]
            · rw [sub_one] at hd
              dsimp only at hd
              rw [u.1] at hd; cases hd
          · rw [if_neg hem]
            have u := upd_set h (e := .dir t hh (es.eraseIdx j)) rfl
            refine ⟨by rw [first_eq, g2]; rfl, fun t' n' l' => ?_, fun _ d hd => ?_⟩
            · rw [entry3_eq, entry3_eq]
              show (dirOf (lk (r.es.set i _) t')).bind _ = _
              by_cases ht : t' = t
              · subst ht
                rw [u.1, h2]
                show (dirOf (lk (es.eraseIdx j) n')).bind _ = if _ then none else (dirOf (lk es n')).bind _
                by_cases hn : n' = n
                · rw [if_pos ⟨rfl, hn⟩, hn, u2.1]; rfl
                · rw [if_neg (fun h => hn h.2), u2.2 _ hn]
              · rw [if_neg (fun h => ht h.1), u.2 _ ht]
            · rw [sub_one] at hd
              dsimp only at hd
              rw [u.1] at hd
              cases hd
              intro h
              exact hem (by rw [show es.eraseIdx j = [] from h]; rfl)
      · exact absurd he (hd e h2)

theorem isSome_entry3 {r d : ResDir} {t n l : ResKey} (h : r.sub [t, n] = some d) : r.entry3 t n l = lk d.es l := by
  unfold ResDir.entry3; rw [h]; rfl

/-- C34: removing a resource in one language throws exactly if something on the way to it is not a directory, and then
    changes nothing. -/
theorem C34_remove_throws (r : ResDir) (t n : ResKey) (lang : Nat) (hb : r.Blocked t n) :
    r.removeLang t n lang = (r, throwE .resourceDirectoryEntryError) := by
  unfold ResDir.removeLang
  rcases hb with ⟨e, he, hn⟩ | ⟨dd, e, hd, he, hn⟩
  · cases h : findKey r.es t with
    | none => rw [first_eq, findKey_none.mp h] at he; cases he
    | some i =>
      obtain ⟨e', h1, h2⟩ := findKey_some h
      have : e' = e := Option.some.inj (h2.symm.trans he)
      subst this
      dsimp only
      rw [h1]
      cases e' <;> first | rfl | exact hn.elim
  · rw [sub_one] at hd
    obtain ⟨k, hk⟩ := dirOf_some hd
    cases h : findKey r.es t with
    | none => rw [findKey_none.mp h] at hk; cases hk
    | some i =>
      obtain ⟨e', h1, h2⟩ := findKey_some h
      have : e' = .dir k dd.h dd.es := Option.some.inj (h2.symm.trans hk)
      subst this
      dsimp only
      rw [h1]
      dsimp only
      cases g : findKey dd.es n with
      | none => rw [first_eq, findKey_none.mp g] at he; cases he
      | some j =>
        obtain ⟨e'', g1, g2⟩ := findKey_some g
        have : e'' = e := Option.some.inj (g2.symm.trans he)
        subst this
        dsimp only
        rw [g1]
        cases e'' <;> first | rfl | exact hn.elim

/-- C34: otherwise it returns whether the resource was there; afterwards it is gone, everything else is as before, and no
    directory on the way to it is left empty. -/
theorem C34_remove_language (r : ResDir) (t n : ResKey) (lang : Nat) (hu : r.Unique) (hb : ¬ r.Blocked t n) :
    (r.removeLang t n lang).2 = .ok (r.entry3 t n (.id lang)).isSome ∧
    (∀ t' n' l', (r.removeLang t n lang).1.entry3 t' n' l' =
      if t' = t ∧ n' = n ∧ l' = .id lang then none else r.entry3 t' n' l') ∧
    ((r.removeLang t n lang).2 = .ok true →
      (∀ d, (r.removeLang t n lang).1.sub [t] = some d → d.es ≠ []) ∧
      (∀ d, (r.removeLang t n lang).1.sub [t, n] = some d → d.es ≠ [])) := by
  unfold ResDir.removeLang
  cases h : findKey r.es t with
  | none =>
    have h1 := findKey_none.mp h
    refine ⟨by rw [entry3_eq, h1]; rfl, fun t' n' l' => ?_, fun h => by cases h⟩
    dsimp only
    split
    · rename_i h; rw [entry3_eq, h.1, h1]; rfl
    · rfl
  | some i =>
    obtain ⟨e, h1, h2⟩ := findKey_some h
    rcases dir_or_not e with ⟨hh, es, he⟩ | he
    · rw [lk_key h2] at he
      subst he
      have hsub : r.sub [t] = some { h := hh, es := es } := by rw [sub_one, h2]; rfl
      have h3 : ∀ n' l', r.entry3 t n' l' = (dirOf (lk es n')).bind (fun d' => lk d'.es l') := fun n' l' => by rw [entry3_eq, h2]; rfl
      dsimp only
      rw [h1]
      dsimp only
      cases g : findKey es n with
      | none =>
        have g1 := findKey_none.mp g
        refine ⟨by rw [h3, g1]; rfl, fun t' n' l' => ?_, fun h => by cases h⟩
        dsimp only
        split
        · rename_i hc
          rw [hc.1, hc.2.1, h3, g1]; rfl
        · rfl
      | some j =>
        obtain ⟨e2, g1, g2⟩ := findKey_some g
        rcases dir_or_not e2 with ⟨hh2, es2, he2⟩ | he2
        · rw [lk_key g2] at he2
          subst he2
          have hsub2 : r.sub [t, n] = some { h := hh2, es := es2 } := by
            rw [sub_cons, h2]; show ResDir.sub { h := hh, es := es } [n] = _; rw [sub_one]; dsimp only; rw [g2]; rfl
          have g3 : ∀ l', r.entry3 t n l' = lk es2 l' := fun l' => by rw [h3, g2]; rfl
          dsimp only
          rw [g1]
          dsimp only
          cases f : findKey es2 (.id lang) with
          | none =>
            have f1 := findKey_none.mp f
            refine ⟨by rw [g3, f1]; rfl, fun t' n' l' => ?_, fun h => by cases h⟩
            dsimp only
            split
            · rename_i hc
              rw [hc.1, hc.2.1, hc.2.2, g3, f1]
            · rfl
          | some m =>
            obtain ⟨e3, f1, f2⟩ := findKey_some f
            have u3 := upd_erase f (count_of_nodup (hu [t, n] _ hsub2) _)
            have u2 := upd_erase g (count_of_nodup (hu [t] _ hsub) n)
            have u1 := upd_erase h (count_of_nodup (hu [] r rfl) t)
            dsimp only
            by_cases hem3 : (es2.eraseIdx m).isEmpty = true
            · rw [if_pos hem3]
              have l3 : ∀ l', l' ≠ .id lang → lk es2 l' = none := fun l' hl => by rw [← u3.2 _ hl, lk_none_of_empty hem3]
              by_cases hem2 : (es.eraseIdx j).isEmpty = true
              · rw [if_pos hem2]
                have l2 : ∀ n', n' ≠ n → lk es n' = none := fun n' hn => by rw [← u2.2 _ hn, lk_none_of_empty hem2]
                refine ⟨by rw [g3, f2]; rfl, fun t' n' l' => ?_, fun _ => ⟨fun d hd => ?_, fun d hd => ?_⟩⟩
                · rw [entry3_eq]
                  show (dirOf (lk (r.es.eraseIdx i) t')).bind _ = _
                  by_cases ht : t' = t
                  · subst ht
                    rw [u1.1]
                    by_cases hn : n' = n
                    · subst hn
                      by_cases hl : l' = .id lang
                      · rw [if_pos ⟨rfl, rfl, hl⟩]; rfl
                      · rw [if_neg (fun h => hl h.2.2), g3, l3 _ hl]; rfl
                    · rw [if_neg (fun h => hn h.2.1), h3, l2 _ hn]; rfl
                  · rw [if_neg (fun h => ht h.1), u1.2 _ ht, entry3_eq]
                · rw [sub_one] at hd; dsimp only at hd; rw [u1.1] at hd; cases hd
                · rw [sub_cons] at hd; dsimp only at hd; rw [u1.1] at hd; cases hd
              · rw [if_neg hem2]
                have u := upd_set h (e := .dir t hh (es.eraseIdx j)) rfl
                refine ⟨by rw [g3, f2]; rfl, fun t' n' l' => ?_, fun _ => ⟨fun d hd => ?_, fun d hd => ?_⟩⟩
                · rw [entry3_eq]
                  show (dirOf (lk (r.es.set i _) t')).bind _ = _
                  by_cases ht : t' = t
                  · subst ht
                    rw [u.1]
                    show (dirOf (lk (es.eraseIdx j) n')).bind _ = _
                    by_cases hn : n' = n
                    · subst hn
                      rw [u2.1]
                      by_cases hl : l' = .id lang
                      · rw [if_pos ⟨rfl, rfl, hl⟩]; rfl
                      · rw [if_neg (fun h => hl h.2.2), g3, l3 _ hl]; rfl
                    · rw [if_neg (fun h => hn h.2.1), h3, u2.2 _ hn]
                  · rw [if_neg (fun h => ht h.1), u.2 _ ht, entry3_eq]
                · rw [sub_one] at hd; dsimp only at hd; rw [u.1] at hd; cases hd
                  intro h; exact hem2 (by rw [show es.eraseIdx j = [] from h]; rfl)
                · rw [sub_cons] at hd; dsimp only at hd; rw [u.1] at hd
                  replace hd : ResDir.sub { h := hh, es := es.eraseIdx j } [n] = some d := hd
                  rw [sub_one] at hd; dsimp only at hd; rw [u2.1] at hd; cases hd
            · rw [if_neg hem3]
              have v2 := upd_set g (e := .dir n hh2 (es2.eraseIdx m)) rfl
              have u := upd_set h (e := .dir t hh (es.set j (.dir n hh2 (es2.eraseIdx m)))) rfl
              refine ⟨by rw [g3, f2]; rfl, fun t' n' l' => ?_, fun _ => ⟨fun d hd => ?_, fun d hd => ?_⟩⟩
              · rw [entry3_eq]
                show (dirOf (lk (r.es.set i _) t')).bind _ = _
                by_cases ht : t' = t
                · subst ht
                  rw [u.1]
                  show (dirOf (lk (es.set j _) n')).bind _ = _
                  by_cases hn : n' = n
                  · subst hn
                    rw [v2.1]
                    show lk (es2.eraseIdx m) l' = _
                    by_cases hl : l' = .id lang
                    · rw [if_pos ⟨rfl, rfl, hl⟩, hl, u3.1]
                    · rw [if_neg (fun h => hl h.2.2), g3, u3.2 _ hl]
                  · rw [if_neg (fun h => hn h.2.1), h3, v2.2 _ hn]
                · rw [if_neg (fun h => ht h.1), u.2 _ ht, entry3_eq]
              · rw [sub_one] at hd; dsimp only at hd; rw [u.1] at hd; cases hd
                intro h
                have := lk_none_of_empty (es := es.set j (.dir n hh2 (es2.eraseIdx m))) (by rw [show es.set j _ = [] from h]; rfl) n
                rw [v2.1] at this; cases this
              · rw [sub_cons] at hd; dsimp only at hd; rw [u.1] at hd
                replace hd : ResDir.sub { h := hh, es := es.set j (.dir n hh2 (es2.eraseIdx m)) } [n] = some d := hd
                rw [sub_one] at hd; dsimp only at hd; rw [v2.1] at hd; cases hd
                intro h; exact hem3 (by rw [show es2.eraseIdx m = [] from h]; rfl)
        · exact absurd (Or.inr ⟨_, e2, hsub, g2, he2⟩) hb
    · exact absurd (Or.inl ⟨e, h2, he⟩) hb

/-! ### C58: edited resources in the file -/

theorem level_keys {a b : ResDir} (h : a.Level b) : (b.es.map ResEntry.key).Perm (a.es.map ResEntry.key) := by
  have := h.perm.map Prod.fst
  have hm : ∀ l : List ResEntry, (l.map ResEntry.shown).map Prod.fst = l.map ResEntry.key := fun l => by
    rw [List.map_map]
    refine List.map_congr_left fun e _ => ?_
    cases e <;> rfl
  rwa [hm, hm] at this

theorem level_first {a b : ResDir} (h : a.Level b) (k : ResKey) (cp : Nat) (d : Bytes) :
    lk a.es k = some (.data k cp d) ↔ lk b.es k = some (.data k cp d) := by
  have hb := before_nodup h.sorted
  have ha := (level_keys h).nodup_iff.mp hb
  have hs : ∀ e : ResEntry, e.shown = (k, some (cp, d)) → e = .data k cp d := by
    intro e he
    cases e with
    | empty _ => cases he
    | data _ _ _ => cases he; rfl
    | dir _ _ _ => cases he
  have key : ∀ l m : List ResEntry, (l.map ResEntry.shown).Perm (m.map ResEntry.shown) → (l.map ResEntry.key).Nodup →
      lk m k = some (.data k cp d) → lk l k = some (.data k cp d) := by
    intro l m hp hn hm
    have hmem : (k, some (cp, d)) ∈ l.map ResEntry.shown := hp.mem_iff.mpr (List.mem_map.mpr ⟨_, lk_mem hm, rfl⟩)
    obtain ⟨e, he, hsh⟩ := List.mem_map.mp hmem
    rw [hs e hsh] at he
    exact find?_key_some hn he rfl
  exact ⟨key _ _ h.perm hb, key _ _ h.perm.symm ha⟩

/-- C31, C58: lookups with a language have the same results in a tree and in what is read after writing it. -/
theorem C58_same_lookup (r s : ResDir) (h : r.Same s) (t n : ResKey) (lang : Nat) (x : Nat × Bytes) :
    r.getData t n lang = .ok x ↔ s.getData t n lang = .ok x := by
  rw [getData_ok, getData_ok]
  unfold ResDir.entry3
  have hp := h [t, n]
  cases ha : r.sub [t, n] with
  | none =>
    rw [ha] at hp
    cases hb : s.sub [t, n] with
    | none => simp
    | some b => rw [hb] at hp; exact hp.elim
  | some a =>
    rw [ha] at hp
    cases hb : s.sub [t, n] with
    | none => rw [hb] at hp; exact hp.elim
    | some b => rw [hb] at hp; exact level_first hp _ _ _

/-- A directory whose stored fields are in range and that is not full: what is needed to add an entry. -/
theorem dirOk_of {h : ResHdr} {es : List ResEntry} (hh : h.Ok) (hl : es.length < 65536) (hk : (es.map ResEntry.key).Nodup) : DirOk h es :=
  ⟨hh, Nat.lt_of_le_of_lt List.countP_le_length hl, Nat.lt_of_le_of_lt List.countP_le_length hl, hk⟩

theorem stampOk {stamp : Nat} (h : stamp < 2 ^ 32) : ({ stamp := stamp } : ResHdr).Ok := ⟨by show 0 < 2 ^ 32; omega, h, by show 0 < 65536; omega, by show 0 < 65536; omega⟩

theorem map_set_key {es : List ResEntry} {i : Nat} {e e' : ResEntry} (h : es[i]? = some e) (hk : e'.key = e.key) :
    (es.set i e').map ResEntry.key = es.map ResEntry.key := by
  rw [List.map_set]
  exact List.set_self' _ _ _ (by rw [List.getElem?_map, h]; simp [hk])

/-- Replacing the directory for a key keeps a list of entries in order. -/
theorem replaceOk {hd : ResHdr} {es es' : List ResEntry} {k : ResKey} {stamp i : Nat} {h : ResHdr} {sub sub' : List ResEntry}
    (h1 : DirOk hd es) (h2 : AllOk es) (hl : es.length < 65535) (hk : k.Ok) (hst : stamp < 2 ^ 32)
    (hi : es'[i]? = some (.dir k h sub))
    (he : es' = es ∨ (es' = es ++ [.dir k { stamp := stamp } []] ∧ lk es k = none)) (h3 : DirOk h sub') (h4 : AllOk sub') :
    DirOk hd (es'.set i (.dir k h sub')) ∧ AllOk (es'.set i (.dir k h sub')) := by
  have hkeys : (es'.map ResEntry.key).Nodup := by
    rcases he with rfl | ⟨rfl, hn⟩
    · exact h1.keys
    · rw [List.map_append, List.nodup_append]
      refine ⟨h1.keys, by simp, fun a ha b hb hab => ?_⟩
      simp only [List.map_cons, List.map_nil, List.mem_singleton] at hb
      exact find?_key_none.mp hn (by rw [hab, hb] at ha; exact ha)
  have hlen : es'.length < 65536 := by
    rcases he with rfl | ⟨rfl, _⟩
    · omega
    · rw [List.length_append]; simp; omega
  have hok : AllOk es' := by
    rcases he with rfl | ⟨rfl, _⟩
    · exact h2
    · rw [allOk_iff] at *
      intro e he
      rw [List.mem_append, List.mem_singleton] at he
      rcases he with he | rfl
      · exact h2 e he
      · exact ⟨hk, dirOk_of (stampOk hst) (by simp) (by simp), trivial⟩
  refine ⟨dirOk_of h1.hdr (by simpa using hlen) (by rw [map_set_key (e' := .dir k h sub') hi rfl]; exact hkeys), ?_⟩
  rw [allOk_iff] at *
  intro e he
  rcases List.mem_or_eq_of_mem_set he with h | rfl
  · exact hok e h
  · exact ⟨hk, h3, by rw [allOk_iff]; exact h4⟩

theorem foundOk {es : List ResEntry} {k : ResKey} {stamp : Nat} {h : ResHdr} {sub : List ResEntry} (hst : stamp < 2 ^ 32)
    (h2 : AllOk es) (hf : Found es k stamp h sub) : DirOk h sub ∧ AllOk sub := by
  rcases hf with hf | ⟨_, rfl, rfl⟩
  · have := (allOk_iff es).mp h2 _ (lk_mem hf)
    exact ⟨this.2.1, this.2.2⟩
  · exact ⟨dirOk_of (stampOk hst) (by simp) (by simp), trivial⟩

theorem putLang_ok {hd : ResHdr} {es : List ResEntry} {lang cp : Nat} {d : Bytes} (h1 : DirOk hd es) (h2 : AllOk es) (hl : es.length < 65535)
    (hlang : lang < 65536) (hcp : cp < 2 ^ 32) : DirOk hd (putLang es lang cp d) ∧ AllOk (putLang es lang cp d) := by
  have hp : ∃ fs, putLang es lang cp d = fs ++ [.data (.id lang) cp d] ∧ fs.Sublist es ∧ lk fs (.id lang) = none := by
    unfold putLang
    cases h : findKey es (.id lang) with
    | none => exact ⟨es, rfl, List.Sublist.refl _, findKey_none.mp h⟩
    | some m => exact ⟨es.eraseIdx m, rfl, List.eraseIdx_sublist _ _, lk_erase_self h (count_of_nodup h1.keys _)⟩
  obtain ⟨fs, e, hs, hn⟩ := hp
  rw [e]
  have := hs.length_le
  refine ⟨dirOk_of h1.hdr (by rw [List.length_append]; simp; omega) ?_, ?_⟩
  · rw [List.map_append, List.nodup_append]
    refine ⟨(hs.map _).nodup h1.keys, by simp, fun a ha b hb hab => ?_⟩
    simp only [List.map_cons, List.map_nil, List.mem_singleton] at hb
    exact find?_key_none.mp hn (by rw [hab, hb] at ha; exact ha)
  · rw [allOk_iff] at *
    intro x hx
    rw [List.mem_append, List.mem_singleton] at hx
    rcases hx with hx | rfl
    · exact h2 x (hs.subset hx)
    · exact ⟨hlang, hcp⟩

/-- C58: adding a resource to a tree that the format can hold (and none of whose directories is full) gives a tree that the
    format can hold. -/
theorem C58_add_ok (r r' : ResDir) (d : Bytes) (t n : ResKey) (lang cp stamp : Nat) (hr : r.Ok)
    (hfull : ∀ path a, r.sub path = some a → a.es.length < 65535) (ht : t.Ok) (hn : n.Ok) (hlang : lang < 65536) (hcp : cp < 2 ^ 32)
    (hst : stamp < 2 ^ 32) (h : r.addResource d t n lang cp stamp = (r', .ok ())) : r'.Ok := by
  have hb := ok_not_blocked h
  obtain ⟨es, i, h2, es2, a1, a2, a3, a4, a5⟩ := withKey_dir r.es t stamp (fun e he hn => hb (Or.inl ⟨e, he, hn⟩))
  have hb2 : ∀ e, lk es2 n = some e → ¬ e.NotDir := by
    intro e he hn
    rcases a3 with h | ⟨h, _, h'⟩
    · exact hb (Or.inr ⟨{ h := h2, es := es2 }, e, by rw [sub_one, h]; rfl, he, hn⟩)
    · rw [h', lk_nil] at he; cases he
  obtain ⟨es2', j, h3, es3, b1, b2, b3, b4, b5⟩ := withKey_dir es2 n stamp hb2
  unfold ResDir.addResource at h
  rw [a1] at h
  dsimp only at h
  rw [a2] at h
  dsimp only at h
  rw [b1] at h
  dsimp only at h
  rw [b2] at h
  dsimp only at h
  have hr' := (Prod.mk.inj h).1
  subst hr'
  have l1 := hfull [] r rfl
  have l2 : es2.length < 65535 := by
    rcases found_dir a3 with g | ⟨_, _, rfl⟩
    · exact hfull [t] _ (by rw [sub_one]; exact g)
    · simp
  have l3 : es3.length < 65535 := by
    rcases found_dir b3 with g | ⟨_, _, rfl⟩
    · rcases found_dir a3 with g' | ⟨_, _, rfl⟩
      · refine hfull [t, n] { h := h3, es := es3 } ?_
        rw [sub_cons, g', Option.bind_some, sub_one]
        exact g
      · rw [lk_nil] at g; cases g
    · simp
  obtain ⟨o2, p2⟩ := foundOk hst hr.all a3
  obtain ⟨o3, p3⟩ := foundOk hst p2 b3
  obtain ⟨q3, q3'⟩ := putLang_ok (d := d) o3 p3 l3 hlang hcp
  obtain ⟨q2, q2'⟩ := replaceOk o2 p2 l2 hn hst b2 b5 q3 q3'
  obtain ⟨q1, q1'⟩ := replaceOk hr.dir hr.all l1 ht hst a2 a5 q2 q2'
  refine ⟨q1, q1', fun hnil => ?_⟩
  have := (a4 (.dir t h2 (es2'.set j (.dir n h3 (putLang es3 lang cp d)))) rfl).1
  dsimp only at hnil
  rw [hnil, lk_nil] at this
  cases this

/-- C58: a resource that was added is in the file: after `rebuild_resources` the data are found by type, name and language
    in what `get_resources` reads, and all others as before. (The conditions about space are those of C31.) -/
theorem C58_added_is_stored (p : Image) (i off : Nat) (s : Sec) (r r' : ResDir) (strip : Bool) (start pos fin : Nat)
    (d : Bytes) (t n : ResKey) (lang cp stamp : Nat) (hr : r.Ok) (hfull : ∀ path a, r.sub path = some a → a.es.length < 65535)
    (ht : t.Ok) (hn : n.Ok) (hlang : lang < 65536) (hcp : cp < 2 ^ 32) (hst : stamp < 2 ^ 32)
    (hadd : r.addResource d t n lang cp stamp = (r', .ok ()))
    (hh : Host p i s) (hdirs : p.nt.DirsOk) (hnum : dirResource < p.nt.numRva)
    (hoff : off < 2 ^ 32 - 4) (hstart : start = ceilTo off 4)
    (hpos : pos = start + ((start - off) + (16 + 8 * r'.es.length + tablesOf r'.es) + namesIn r'.es))
    (hfin : fin = dataEndOf r'.es pos) (hroom : HostRoom p i s fin) (hsmall : fin + 3 < start + 2 ^ 31)
    (hfit : r'.Ordered ∨ AllData (fun d => 4 ∣ d.length) r'.es ∨ fin + 3 ≤ s.data.length)
    (hend : AllData (fun d => d ≠ []) r'.es ∨ ceilTo fin 4 < s.data.length ∨ (4 ∣ p.nt.secAlign ∧ ¬ p.nt.secAlign ∣ ceilTo fin 4)) :
    ∃ q dir u, p.rebuildResources r' i off true strip = .ok (q, dir) ∧ q.getResources = .ok u ∧
      u.getData t n lang = .ok (cp, d) ∧
      ∀ t' n' lang' x, (t', n', lang') ≠ (t, n, lang) → (u.getData t' n' lang' = .ok x ↔ r.getData t' n' lang' = .ok x) := by
  have hr' := C58_add_ok r r' d t n lang cp stamp hr hfull ht hn hlang hcp hst hadd
  obtain ⟨q, m, u, e1, _, _, e4, e5⟩ := C31_round_trip_partial p i off s r' strip start pos fin hh hdirs hnum hr' hoff hstart hpos hfin hroom
    hsmall hfit hend
  refine ⟨q, _, u, e1, e4, (C58_same_lookup r' u e5 t n lang (cp, d)).mp ?_, fun t' n' lang' x hne => ?_⟩
  · refine C33_add_then_get r r' d t n lang cp stamp hadd fun a ha => ?_
    have hso := hr.all
    rw [sub_cons] at ha
    cases g : dirOf (lk r.es t) with
    | none => rw [g] at ha; cases ha
    | some b =>
      rw [g, Option.bind_some, sub_one] at ha
      obtain ⟨k, hk⟩ := dirOf_some g
      obtain ⟨k', hk'⟩ := dirOf_some ha
      have o1 := (allOk_iff r.es).mp hr.all _ (lk_mem hk)
      have o2 := (allOk_iff b.es).mp o1.2.2 _ (lk_mem hk')
      exact count_of_nodup o2.2.1.keys _
  · rw [← C58_same_lookup r' u e5, getData_ok, getData_ok]
    have := C34_add_keeps r d t n lang cp stamp t' n' (.id lang') (fun h => hne (by
      obtain ⟨h1, h2⟩ := Prod.mk.inj h
      obtain ⟨h2, h3⟩ := Prod.mk.inj h2
      rw [h1, h2, ResKey.id.inj h3]))
    rw [hadd] at this
    dsimp only at this
    rw [this]

/-! ### C59: lists and counts -/

theorem mem_idList (es : List ResEntry) (n : Nat) : n ∈ idList es ↔ ∃ e, lk es (.id n) = some e := by
  unfold idList
  rw [List.mem_filterMap]
  constructor
  · rintro ⟨e, he, hk⟩
    cases hl : lk es (.id n) with
    | some x => exact ⟨x, rfl⟩
    | none =>
      refine absurd (List.mem_map.mpr ⟨e, he, ?_⟩) (find?_key_none.mp hl)
      cases hke : e.key with
      | name w => rw [hke] at hk; cases hk
      | id m => rw [hke] at hk; cases hk; rfl
  · rintro ⟨e, he⟩
    exact ⟨e, lk_mem he, by rw [lk_key he]⟩

theorem mem_nameList (es : List ResEntry) (w : WStr) : w ∈ nameList es ↔ ∃ e, lk es (.name w) = some e := by
  unfold nameList
  rw [List.mem_filterMap]
  constructor
  · rintro ⟨e, he, hk⟩
    cases hl : lk es (.name w) with
    | some x => exact ⟨x, rfl⟩
    | none =>
      refine absurd (List.mem_map.mpr ⟨e, he, ?_⟩) (find?_key_none.mp hl)
      cases hke : e.key with
      | id m => rw [hke] at hk; cases hk
      | name w => rw [hke] at hk; cases hk; rfl
  · rintro ⟨e, he⟩
    exact ⟨e, lk_mem he, by rw [lk_key he]⟩

theorem lists_length (es : List ResEntry) : (nameList es).length + (idList es).length = es.length := by
  induction es with
  | nil => rfl
  | cons e es ih =>
    unfold nameList idList at *
    cases hk : e.key with
    | id m => simp only [List.filterMap_cons, hk, List.length_cons]; omega
    | name w => simp only [List.filterMap_cons, hk, List.length_cons]; omega

theorem idList_length (es : List ResEntry) : (idList es).length = es.countP (fun e => !e.isNamed) := by
  induction es with
  | nil => rfl
  | cons e es ih =>
    unfold idList at *
    rw [List.countP_cons, ← ih]
    unfold ResEntry.isNamed
    cases hk : e.key with
    | id m => simp [hk]
    | name w => simp [hk]

/-- C59: `list_resource_types` lists exactly the numbered types that exist. -/
theorem C59_types (r : ResDir) (n : Nat) : (n ∈ r.listTypes ↔ r.resourceExists (.id n) = true) ∧
    (∀ k, r.resourceExists k = true ↔ ∃ e, r.first k = some e) := by
  have h2 : ∀ k, r.resourceExists k = true ↔ ∃ e, r.first k = some e := fun k => by
    unfold ResDir.resourceExists ResDir.first
    rw [hasKey_eq, Option.isSome_iff_exists]
  exact ⟨by rw [h2]; exact mem_idList r.es n, h2⟩

/-- C59: for a type with a directory, the lists of names and numbers hold exactly the resources that can be found, and
    together they are as many as `get_resource_count` says. For anything else all three throw. -/
theorem C59_resources (r : ResDir) (t : ResKey) :
    (∀ d, r.sub [t] = some d → d.es.length < 2 ^ 32 → ∃ ws ns, r.listNames t = .ok ws ∧ r.listIds t = .ok ns ∧
      (∀ w, w ∈ ws ↔ ∃ e, d.first (.name w) = some e) ∧ (∀ n, n ∈ ns ↔ ∃ e, d.first (.id n) = some e) ∧
      r.resourceCount t = .ok (ws.length + ns.length)) ∧
    (r.sub [t] = none → ∃ x, r.listNames t = throwE x ∧ r.listIds t = throwE x ∧ r.resourceCount t = throwE x) := by
  constructor
  · intro d hd hl
    have h := typeDir_ok.mpr hd
    unfold ResDir.listNames ResDir.listIds ResDir.resourceCount
    rw [h]
    refine ⟨_, _, rfl, rfl, mem_nameList d.es, mem_idList d.es, ?_⟩
    rw [ok_bind, lists_length, w32, Nat.mod_eq_of_lt hl]
  · intro hd
    have h : ∃ x, r.typeDir t = throwE x := by
      unfold ResDir.typeDir
      rw [entryBy_eq]
      rw [sub_one] at hd
      cases hl : lk r.es t with
      | none => exact ⟨_, rfl⟩
      | some e =>
        rw [hl] at hd
        cases e with
        | dir k h es => cases hd
        | empty k => exact ⟨_, rfl⟩
        | data k cp d => exact ⟨_, rfl⟩
    obtain ⟨x, h⟩ := h
    unfold ResDir.listNames ResDir.listIds ResDir.resourceCount
    rw [h]
    exact ⟨x, rfl, rfl, rfl⟩

/-- C59: the languages listed for a resource are exactly those that can be found; their number is `get_language_count`. -/
theorem C59_languages (r d : ResDir) (t n : ResKey) (h : r.sub [t, n] = some d) (hl : d.es.length < 2 ^ 32) :
    ∃ ls, r.listLanguages t n = .ok ls ∧ r.languageCount t n = .ok ls.length ∧ ∀ l, l ∈ ls ↔ ∃ e, r.entry3 t n (.id l) = some e := by
  unfold ResDir.listLanguages ResDir.languageCount
  rw [nameDir_ok.mpr h]
  refine ⟨_, rfl, ?_, fun l => ?_⟩
  · have : d.es.countP (fun e => !e.isNamed) ≤ d.es.length := List.countP_le_length
    rw [ok_bind, idList_length, w32, Nat.mod_eq_of_lt (by omega)]
  · rw [isSome_entry3 h]
    exact mem_idList d.es l

/-- C59: with an index instead of a language: the data of the entry at that position of the directory of languages; an
    index that is too large throws. If all entries are numbered and have data, the same data are found with the
    language at that position in `list_resource_languages`. -/
theorem C59_index (r d : ResDir) (t n : ResKey) (h : r.sub [t, n] = some d) (index : Nat) :
    (d.es.length ≤ index → r.getDataAt t n index = throwE .resourceDataEntryNotFound) ∧
    (∀ ls, r.listLanguages t n = .ok ls → (∀ e ∈ d.es, e.isNamed = false) → (d.es.map ResEntry.key).Nodup →
      ∀ l, ls[index]? = some l → r.getDataAt t n index = r.getData t n l) := by
  unfold ResDir.listLanguages ResDir.getDataAt ResDir.getData
  rw [nameDir_ok.mpr h]
  constructor
  · intro hi
    rw [ok_bind, List.getElem?_eq_none hi]
  · intro ls hls hnn hnd l hl
    rw [ok_bind] at hls
    cases hls
    rw [ok_bind, ok_bind]
    have hids : (idList d.es).map ResKey.id = d.es.map ResEntry.key := by
      have : ∀ es : List ResEntry, (∀ e ∈ es, e.isNamed = false) → (idList es).map ResKey.id = es.map ResEntry.key := by
        intro es
        induction es with
        | nil => intro _; rfl
        | cons e es ih =>
          intro hn
          have h1 := hn e (by simp)
          have h2 := ih (fun x hx => hn x (List.mem_cons_of_mem _ hx))
          unfold idList at *
          unfold ResEntry.isNamed at h1
          cases hk : e.key with
          | id m => simp only [List.filterMap_cons, hk, List.map_cons, h2]
          | name w => rw [hk] at h1; cases h1
      exact this _ hnn
    have hk : (d.es.map ResEntry.key)[index]? = some (.id l) := by rw [← hids, List.getElem?_map, hl]; rfl
    rw [List.getElem?_map, Option.map_eq_some_iff] at hk
    obtain ⟨e, he, hke⟩ := hk
    have := find?_key_some hnd (List.mem_of_getElem? he) hke
    rw [he, entryBy_ok.mpr this, ok_bind]

/-! ### Examples and counterexamples -/

/-- C33, C34, C58: adding to the tree of the example for C31. -/
example : ∃ r', demoRes.addResource [1, 2] (.id 5) (.id 1) 7 1200 3 = (r', .ok ()) ∧ r'.getData (.id 5) (.id 1) 7 = .ok (1200, [1, 2]) ∧
    r'.getData (.id 5) (.id 1) 1033 = .ok (1252, [1, 2, 3, 4]) ∧
    r'.listLanguages (.id 5) (.id 1) = .ok [1033, 7] := by
  refine ⟨_, rfl, ?_, ?_, ?_⟩ <;> decide +kernel

example : demoRes.addResource [1, 2] (.id 5) (.id 1) 7 1200 3 =
      ((demoRes.addResource [1, 2] (.id 5) (.id 1) 7 1200 3).1, .ok ()) := rfl

theorem tables_mem {es : List ResEntry} {e : ResEntry} (h : e ∈ es) : e.tables ≤ tablesOf es := by
  induction es with
  | nil => cases h
  | cons x es ih =>
    rw [tablesOf]
    rcases List.mem_cons.mp h with rfl | h
    · omega
    · have := ih h; omega

theorem sub_length (path : List ResKey) : ∀ r a : ResDir, r.sub path = some a → 8 * a.es.length ≤ 8 * r.es.length + tablesOf r.es := by
  induction path with
  | nil => intro r a h; cases h; omega
  | cons k ks ih =>
    intro r a h
    rw [sub_cons] at h
    cases hd : dirOf (lk r.es k) with
    | none => rw [hd] at h; cases h
    | some d =>
      rw [hd, Option.bind_some] at h
      have h1 := ih d a h
      obtain ⟨k', hk⟩ := dirOf_some hd
      have h2 := tables_mem (lk_mem hk)
      rw [ResEntry.tables] at h2
      omega

/-- C58 applies to it. -/
example : ∃ q dir u, demoImage.rebuildResources (demoRes.addResource [1, 2, 3, 4] (.id 5) (.id 1) 7 1200 3).1 1 6 true true = .ok (q, dir) ∧
    q.getResources = .ok u ∧ u.getData (.id 5) (.id 1) 7 = .ok (1200, [1, 2, 3, 4]) ∧
    ∀ t' n' lang' x, (t', n', lang') ≠ (.id 5, .id 1, 7) → (u.getData t' n' lang' = .ok x ↔ demoRes.getData t' n' lang' = .ok x) :=
  C58_added_is_stored demoImage 1 6 _ demoRes (demoRes.addResource [1, 2, 3, 4] (.id 5) (.id 1) 7 1200 3).1 true 8 154 220
    [1, 2, 3, 4] (.id 5) (.id 1) 7 1200 3 demoRes_ok
    (fun path a h => by
      have := sub_length path _ a h
      have h2 : 8 * demoRes.es.length + tablesOf demoRes.es = 112 := by decide
      omega)
    (by show 5 < 65536; omega) (by show 1 < 65536; omega) (by decide) (by decide) (by decide) rfl demo_host_last ⟨rfl, by decide⟩ (by decide)
    (by decide) (by decide) (by decide) (by decide) (by decide) (by decide)
    (Or.inr (Or.inl ⟨⟨⟨by show 4 ∣ 4; omega, by show 4 ∣ 4; omega, trivial⟩, trivial⟩, ⟨⟨by show 4 ∣ 8; omega, trivial⟩, trivial⟩, trivial⟩))
    (Or.inl ⟨⟨⟨List.cons_ne_nil _ _, List.cons_ne_nil _ _, trivial⟩, trivial⟩, ⟨⟨List.cons_ne_nil _ _, trivial⟩, trivial⟩, trivial⟩)

/-- C34: removing the only language of a resource removes its type. -/
example : (demoRes.removeLang (.id 5) (.id 1) 1033).2 = .ok true ∧ (demoRes.removeLang (.id 5) (.id 1) 1033).1.listTypes = [] ∧
    (demoRes.removeLang (.id 5) (.id 1) 1034).2 = .ok false := by
  refine ⟨?_, ?_, ?_⟩ <;> decide +kernel

/-- Every tree that the format can hold has unique keys. -/
theorem ok_unique {r : ResDir} (hr : r.Ok) : r.Unique := by
  have : ∀ (path : List ResKey) (r : ResDir), DirOk r.h r.es → AllOk r.es → ∀ a, r.sub path = some a → (a.es.map ResEntry.key).Nodup := by
    intro path
    induction path with
    | nil => intro r h _ a ha; cases ha; exact h.keys
    | cons k ks ih =>
      intro r h h' a ha
      rw [sub_cons] at ha
      cases hd : dirOf (lk r.es k) with
      | none => rw [hd] at ha; cases ha
      | some d =>
        rw [hd, Option.bind_some] at ha
        obtain ⟨k', hk⟩ := dirOf_some hd
        have o := (allOk_iff r.es).mp h' _ (lk_mem hk)
        exact ih d o.2.1 o.2.2 a ha
  exact fun path a h => this path r hr.dir hr.all a h

/-- C34 applies to the tree of the example. -/
example : (demoRes.removeLang (.id 5) (.id 1) 1033).2 = .ok true ∧
    (demoRes.removeLang (.id 5) (.id 1) 1033).1.entry3 (.name [0x41, 0x416]) (.id 2) (.id 0) = some (.data (.id 0) 0 [9, 8, 7, 6, 5, 4, 3, 2]) := by
  have hb : ¬ demoRes.Blocked (.id 5) (.id 1) := by
    rintro (⟨e, he, hn⟩ | ⟨d, e, hd, he, hn⟩)
    · cases he; exact hn
    · cases hd; cases he; exact hn
  obtain ⟨h1, h2, _⟩ := C34_remove_language demoRes (.id 5) (.id 1) 1033 (ok_unique demoRes_ok) hb
  exact ⟨h1, by rw [h2]; rfl⟩

/-- C59 applies to it. -/
example : ∃ ls, demoRes.listLanguages (.id 5) (.id 1) = .ok ls ∧ demoRes.languageCount (.id 5) (.id 1) = .ok ls.length ∧
    ∀ l, l ∈ ls ↔ ∃ e, demoRes.entry3 (.id 5) (.id 1) (.id l) = some e :=
  C59_languages demoRes _ (.id 5) (.id 1) rfl (by decide)

/-- C33: if the directory of languages has the language twice, the new data are not found. -/
theorem C33_duplicates : ∃ (r r' : ResDir), r.addResource [1] (.id 5) (.id 1) 7 0 0 = (r', .ok ()) ∧
    r'.getData (.id 5) (.id 1) 7 = .ok (0, [3]) :=
  ⟨{ es := [.dir (.id 5) {} [.dir (.id 1) {} [.data (.id 7) 0 [2], .data (.id 7) 0 [3]]]] }, _, rfl, by decide +kernel⟩

/-- C58: adding does not count: after adding a resource to an empty tree, `get_number_of_id_entries` still is 0 (until the
    tree is written and read again). -/
theorem C58_counters_stale : ∃ r', ({} : ResDir).addResource [1] (.id 5) (.id 1) 7 0 0 = (r', .ok ()) ∧ idCount r'.es = 1 ∧ r'.h.ids = 0 :=
  ⟨_, rfl, by decide, rfl⟩

end PE
