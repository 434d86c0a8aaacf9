/-
Lookups in edited lists of resource entries.
-/
import Verif.Spec.ResourceManager
import Verif.Lemmas.Basic

namespace PE

/-- The first entry with a key. -/
def lk (es : List ResEntry) (k : ResKey) : Option ResEntry := es.find? (fun e => e.key = k)

theorem hasKey_eq (k : ResKey) : ResEntry.hasKey k = fun e => decide (e.key = k) := by
  funext e
  unfold ResEntry.hasKey ResEntry.isNamed
  rw [Bool.eq_iff_iff]
  cases k <;> cases h : e.key <;> simp

theorem lk_nil (k : ResKey) : lk [] k = none := rfl

theorem lk_cons (e : ResEntry) (es : List ResEntry) (k : ResKey) : lk (e :: es) k = if e.key = k then some e else lk es k := by
  unfold lk
  rw [List.find?_cons]
  by_cases h : e.key = k <;> simp [h]

theorem lk_key {es : List ResEntry} {k : ResKey} {e : ResEntry} (h : lk es k = some e) : e.key = k := by
  have := List.find?_some h
  simpa using this

theorem lk_mem {es : List ResEntry} {k : ResKey} {e : ResEntry} (h : lk es k = some e) : e ∈ es := List.mem_of_find?_eq_some h

theorem lk_append (es fs : List ResEntry) (k : ResKey) : lk (es ++ fs) k = (lk es k).or (lk fs k) := by
  unfold lk; rw [List.find?_append]

theorem findKey_none {es : List ResEntry} {k : ResKey} : findKey es k = none ↔ lk es k = none := by
  unfold findKey lk
  rw [hasKey_eq, List.findIdx?_eq_none_iff, List.find?_eq_none]
  simp

theorem findKey_some {es : List ResEntry} {k : ResKey} {i : Nat} (h : findKey es k = some i) :
    ∃ e, es[i]? = some e ∧ lk es k = some e := by
  unfold findKey at h
  rw [hasKey_eq] at h
  induction es generalizing i with
  | nil => simp at h
  | cons a as ih =>
    rw [List.findIdx?_cons] at h
    rw [lk_cons]
    by_cases hk : a.key = k
    · simp only [hk, decide_true, if_true] at h
      cases h
      exact ⟨a, rfl, by rw [if_pos hk]⟩
    · rw [if_neg (by simpa using hk)] at h
      rw [Option.map_eq_some_iff] at h
      obtain ⟨j, hj, rfl⟩ := h
      obtain ⟨e, h1, h2⟩ := ih hj
      exact ⟨e, by simpa using h1, by rw [if_neg hk]; exact h2⟩

/-- Replacing the entry that a lookup finds. -/
theorem lk_set {es : List ResEntry} {k : ResKey} {i : Nat} (h : findKey es k = some i) {e : ResEntry} (he : e.key = k) (k' : ResKey) :
    lk (es.set i e) k' = if k' = k then some e else lk es k' := by
  unfold findKey at h
  rw [hasKey_eq] at h
  induction es generalizing i with
  | nil => simp at h
  | cons a as ih =>
    rw [List.findIdx?_cons] at h
    by_cases hk : a.key = k
    · simp only [hk, decide_true, if_true] at h
      cases h
      rw [List.set_cons_zero, lk_cons, lk_cons, he, hk]
      by_cases hkk : k' = k
      · rw [if_pos hkk, if_pos hkk.symm]
      · rw [if_neg hkk, if_neg (fun h => hkk h.symm), if_neg (fun h => hkk h.symm)]
    · rw [if_neg (by simpa using hk)] at h
      rw [Option.map_eq_some_iff] at h
      obtain ⟨j, hj, rfl⟩ := h
      rw [List.set_cons_succ, lk_cons, lk_cons, ih hj]
      by_cases hkk : k' = k
      · subst hkk; rw [if_neg hk, if_pos rfl, if_pos rfl]
      · rw [if_neg hkk, if_neg hkk]

/-- Removing the entry that a lookup finds. -/
theorem lk_erase {es : List ResEntry} {k : ResKey} {i : Nat} (h : findKey es k = some i) {k' : ResKey} (hk' : k' ≠ k) :
    lk (es.eraseIdx i) k' = lk es k' := by
  unfold findKey at h
  rw [hasKey_eq] at h
  induction es generalizing i with
  | nil => simp at h
  | cons a as ih =>
    rw [List.findIdx?_cons] at h
    by_cases hk : a.key = k
    · simp only [hk, decide_true, if_true] at h
      cases h
      rw [List.eraseIdx_cons_zero, lk_cons, if_neg (by rw [hk]; exact fun h => hk' h.symm)]
    · rw [if_neg (by simpa using hk)] at h
      rw [Option.map_eq_some_iff] at h
      obtain ⟨j, hj, rfl⟩ := h
      rw [List.eraseIdx_cons_succ, lk_cons, lk_cons, ih hj]

theorem count_key_pos {es : List ResEntry} {k : ResKey} {e : ResEntry} (h : e ∈ es) (he : e.key = k) : 0 < (es.map ResEntry.key).count k :=
  List.count_pos_iff.mpr (List.mem_map.mpr ⟨e, h, he⟩)

/-- The removed entry is gone, if the key was unique. -/
theorem lk_erase_self {es : List ResEntry} {k : ResKey} {i : Nat} (h : findKey es k = some i) (hc : (es.map ResEntry.key).count k ≤ 1) :
    lk (es.eraseIdx i) k = none := by
  unfold findKey at h
  rw [hasKey_eq] at h
  induction es generalizing i with
  | nil => simp at h
  | cons a as ih =>
    rw [List.map_cons, List.count_cons] at hc
    rw [List.findIdx?_cons] at h
    by_cases hk : a.key = k
    · simp only [hk, decide_true, if_true] at h
      cases h
      rw [List.eraseIdx_cons_zero]
      cases hl : lk as k with
      | none => rfl
      | some e =>
        have := count_key_pos (lk_mem hl) (lk_key hl)
        rw [if_pos (by simpa using hk)] at hc
        omega
    · rw [if_neg (by simpa using hk)] at h
      rw [Option.map_eq_some_iff] at h
      obtain ⟨j, hj, rfl⟩ := h
      rw [List.eraseIdx_cons_succ, lk_cons, if_neg hk]
      exact ih hj (by omega)

theorem lk_none_of_empty {es : List ResEntry} (h : es.isEmpty = true) (k : ResKey) : lk es k = none := by
  cases es with
  | nil => rfl
  | cons a as => cases h

/-- `es'` differs from `es` in the entry for `k`, which is `x` now. -/
def Upd (es es' : List ResEntry) (k : ResKey) (x : Option ResEntry) : Prop := lk es' k = x ∧ ∀ k', k' ≠ k → lk es' k' = lk es k'

theorem upd_set {es : List ResEntry} {k : ResKey} {i : Nat} (h : findKey es k = some i) {e : ResEntry} (he : e.key = k) :
    Upd es (es.set i e) k (some e) :=
  ⟨by rw [lk_set h he, if_pos rfl], fun k' hk' => by rw [lk_set h he, if_neg hk']⟩

theorem upd_erase {es : List ResEntry} {k : ResKey} {i : Nat} (h : findKey es k = some i) (hc : (es.map ResEntry.key).count k ≤ 1) :
    Upd es (es.eraseIdx i) k none :=
  ⟨lk_erase_self h hc, fun _ hk' => lk_erase h hk'⟩

theorem findKey_push {es : List ResEntry} {k : ResKey} {e : ResEntry} (h : findKey es k = none) (he : e.key = k) :
    findKey (es ++ [e]) k = some es.length := by
  unfold findKey at *
  rw [hasKey_eq] at *
  rw [List.findIdx?_append, h]
  simp [he]

theorem upd_push {es : List ResEntry} {k : ResKey} {e : ResEntry} (h : lk es k = none) (he : e.key = k) :
    Upd es (es ++ [e]) k (some e) := by
  refine ⟨by rw [lk_append, h, lk_cons, if_pos he]; rfl, fun k' hk' => ?_⟩
  rw [lk_append, lk_cons, if_neg (fun h => hk' (h.symm.trans he)), lk_nil, Option.or_none]

theorem Upd.trans {a b c : List ResEntry} {k : ResKey} {x y : Option ResEntry} (h : Upd a b k x) (h' : Upd b c k y) : Upd a c k y :=
  ⟨h'.1, fun k' hk' => (h'.2 k' hk').trans (h.2 k' hk')⟩

theorem putLang_upd (es : List ResEntry) (lang cp : Nat) (d : Bytes) (hc : (es.map ResEntry.key).count (.id lang) ≤ 1) :
    Upd es (putLang es lang cp d) (.id lang) (some (.data (.id lang) cp d)) := by
  unfold putLang
  cases h : findKey es (.id lang) with
  | none => exact upd_push (findKey_none.mp h) rfl
  | some m => exact (upd_erase h hc).trans (upd_push (upd_erase h hc).1 rfl)

theorem putLang_other (es : List ResEntry) (lang cp : Nat) (d : Bytes) {k : ResKey} (hk : k ≠ .id lang) :
    lk (putLang es lang cp d) k = lk es k := by
  unfold putLang
  have hp : ∀ l, lk (l ++ [ResEntry.data (.id lang) cp d]) k = lk l k := fun l => by
    rw [lk_append, lk_cons, if_neg (fun h => hk h.symm), lk_nil, Option.or_none]
  cases h : findKey es (.id lang) with
  | none => exact hp _
  | some m => exact (hp _).trans (lk_erase h hk)

/-! ### Paths -/

/-- The directory in an entry. -/
def dirOf : Option ResEntry → Option ResDir
  | some (.dir _ h es) => some { h := h, es := es }
  | _ => none

theorem sub_cons (r : ResDir) (k : ResKey) (ks : List ResKey) :
    r.sub (k :: ks) = (dirOf (lk r.es k)).bind (fun d => d.sub ks) := by
  rw [ResDir.sub]
  unfold lk dirOf
  split
  · rename_i heq; rw [heq]; rfl
  · cases h : List.find? (fun e => decide (e.key = k)) r.es with
    | none => rfl
    | some e => cases e <;> simp_all

theorem sub_nil (r : ResDir) : r.sub [] = some r := rfl

theorem sub_one (r : ResDir) (k : ResKey) : r.sub [k] = dirOf (lk r.es k) := by
  rw [sub_cons]
  cases dirOf (lk r.es k) <;> rfl

theorem entry3_eq (r : ResDir) (t n l : ResKey) :
    r.entry3 t n l = (dirOf (lk r.es t)).bind (fun d => (dirOf (lk d.es n)).bind (fun d' => lk d'.es l)) := by
  unfold ResDir.entry3
  rw [sub_cons]
  cases dirOf (lk r.es t) with
  | none => rfl
  | some d =>
    simp only [Option.bind_some, sub_one]
    cases dirOf (lk d.es n) <;> rfl

theorem dirOf_some {e : Option ResEntry} {d : ResDir} (h : dirOf e = some d) : ∃ k, e = some (.dir k d.h d.es) := by
  unfold dirOf at h
  split at h
  · cases h; exact ⟨_, rfl⟩
  · cases h

theorem notDir_dirOf {e : ResEntry} (h : e.NotDir) : dirOf (some e) = none := by
  cases e <;> first | rfl | exact h.elim

theorem dir_or_not (e : ResEntry) : (∃ h es, e = .dir e.key h es) ∨ e.NotDir := by
  cases e with
  | empty k => exact Or.inr trivial
  | data k cp d => exact Or.inr trivial
  | dir k h es => exact Or.inl ⟨h, es, rfl⟩

/-! ### Adding -/

/-- The list and the position from `withKey`: the entry that was there, or a new directory. -/
theorem withKey_spec (es : List ResEntry) (k : ResKey) (stamp : Nat) :
    (∃ i e, withKey es k stamp = (es, i) ∧ es[i]? = some e ∧ lk es k = some e ∧ findKey es k = some i) ∨
    (lk es k = none ∧ withKey es k stamp = (es ++ [.dir k { stamp := stamp } []], es.length)) := by
  unfold withKey
  cases h : findKey es k with
  | none => exact Or.inr ⟨findKey_none.mp h, rfl⟩
  | some i =>
    obtain ⟨e, h1, h2⟩ := findKey_some h
    exact Or.inl ⟨i, e, rfl, h1, h2, rfl⟩

/-- The directory for a key, as `add_resource` finds or makes it. -/
def Found (es : List ResEntry) (k : ResKey) (stamp : Nat) (h : ResHdr) (sub : List ResEntry) : Prop :=
  lk es k = some (.dir k h sub) ∨ (lk es k = none ∧ h = { stamp := stamp } ∧ sub = [])

/-- If the entry is a directory or missing, `withKey` finds or makes the directory and it can be replaced. -/
theorem withKey_dir (es : List ResEntry) (k : ResKey) (stamp : Nat) (hb : ∀ e, lk es k = some e → ¬ e.NotDir) :
    ∃ es' i h sub, withKey es k stamp = (es', i) ∧ es'[i]? = some (.dir k h sub) ∧ Found es k stamp h sub ∧
      (∀ e : ResEntry, e.key = k → Upd es (es'.set i e) k (some e)) ∧
      (es' = es ∨ (es' = es ++ [.dir k { stamp := stamp } []] ∧ lk es k = none)) := by
  rcases withKey_spec es k stamp with ⟨i, e, h1, h2, h3, h4⟩ | ⟨h1, h2⟩
  · rcases dir_or_not e with ⟨h, sub, he⟩ | he
    · rw [lk_key h3] at he
      subst he
      exact ⟨es, i, h, sub, h1, h2, Or.inl h3, fun e he => upd_set h4 he, Or.inl rfl⟩
    · exact absurd he (hb e h3)
  · refine ⟨_, _, _, _, h2, by simp, Or.inr ⟨h1, rfl, rfl⟩, fun e he => ?_, Or.inr ⟨rfl, h1⟩⟩
    exact (upd_push (e := .dir k { stamp := stamp } []) h1 rfl).trans (upd_set (findKey_push (findKey_none.mpr h1) rfl) he)

/-- What adding does if nothing is in the way. -/
theorem addResource_spec (r : ResDir) (d : Bytes) (t n : ResKey) (lang cp stamp : Nat) (hb : ¬ r.Blocked t n) :
    ∃ root h2 es2 es2' h3 es3, r.addResource d t n lang cp stamp = ({ r with es := root }, .ok ()) ∧
      Found r.es t stamp h2 es2 ∧ Found es2 n stamp h3 es3 ∧
      Upd r.es root t (some (.dir t h2 es2')) ∧ Upd es2 es2' n (some (.dir n h3 (putLang es3 lang cp d))) := by
  obtain ⟨es, i, h2, es2, a1, a2, a3, a4, _⟩ := withKey_dir r.es t stamp (fun e he hn => hb (Or.inl ⟨e, he, hn⟩))
  have hb2 : ∀ e, lk es2 n = some e → ¬ e.NotDir := by
    intro e he hn
    rcases a3 with h | ⟨h, _, h'⟩
    · exact hb (Or.inr ⟨{ h := h2, es := es2 }, e, by rw [sub_one, h]; rfl, he, hn⟩)
    · rw [h', lk_nil] at he; cases he
  obtain ⟨es2', j, h3, es3, b1, b2, b3, b4, _⟩ := withKey_dir es2 n stamp hb2
  refine ⟨_, h2, es2, _, h3, es3, ?_, a3, b3, a4 _ rfl, b4 _ rfl⟩
  unfold ResDir.addResource
  rw [a1]
  dsimp only
  rw [a2]
  dsimp only
  rw [b1]
  dsimp only
  rw [b2]

theorem List.set_self' {α : Type} (l : List α) (i : Nat) (a : α) (h : l[i]? = some a) : l.set i a = l := by
  induction l generalizing i with
  | nil => simp
  | cons x xs ih =>
    cases i with
    | zero => simp at h; simp [h]
    | succ i => simp at h; simp [ih i h]

/-- If something is in the way, adding throws and changes nothing. -/
theorem addResource_blocked (r : ResDir) (d : Bytes) (t n : ResKey) (lang cp stamp : Nat) (hb : r.Blocked t n) :
    r.addResource d t n lang cp stamp = (r, throwE .resourceDirectoryEntryError) := by
  unfold ResDir.addResource
  rcases hb with ⟨e, he, hn⟩ | ⟨dd, e, hd, he, hn⟩
  · rcases withKey_spec r.es t stamp with ⟨i, e', h1, h2, h3, h4⟩ | ⟨h1, _⟩
    · have : e' = e := Option.some.inj (h3.symm.trans he)
      subst this
      rw [h1]
      dsimp only
      rw [h2]
      cases e' <;> first | rfl | exact hn.elim
    · exact absurd (h1.symm.trans he) (by simp)
  · rw [sub_one] at hd
    obtain ⟨k, hk⟩ := dirOf_some hd
    rcases withKey_spec r.es t stamp with ⟨i, e', h1, h2, h3, h4⟩ | ⟨h1, _⟩
    · have : e' = .dir k dd.h dd.es := Option.some.inj (h3.symm.trans hk)
      subst this
      rw [h1]
      dsimp only
      rw [h2]
      dsimp only
      rcases withKey_spec dd.es n stamp with ⟨j, e'', g1, g2, g3, g4⟩ | ⟨g1, _⟩
      · have : e'' = e := Option.some.inj (g3.symm.trans he)
        subst this
        rw [g1]
        dsimp only
        rw [g2]
        have := List.set_self' _ _ _ h2
        cases e'' <;> first | exact hn.elim | (dsimp only; rw [this])
      · exact absurd (g1.symm.trans he) (by simp)
    · exact absurd (h1.symm.trans hk) (by simp)

theorem found_dir {es : List ResEntry} {k : ResKey} {stamp : Nat} {h : ResHdr} {sub : List ResEntry} (hf : Found es k stamp h sub) :
    (dirOf (lk es k) = some { h := h, es := sub }) ∨ (dirOf (lk es k) = none ∧ h = { stamp := stamp } ∧ sub = []) := by
  rcases hf with h | ⟨h, h', h''⟩
  · left; rw [h]; rfl
  · right; exact ⟨by rw [h]; rfl, h', h''⟩

end PE
