/-
What the rebuilders leave behind when they throw: all they did was to write to the section.
-/
import Verif.Lemmas.FailingSafe
import Verif.Lemmas.ResourcesSort
namespace PE

/-- The image whose section `i` (it is `s`) has other raw data. -/
def withData (p : Image) (i : Nat) (s : Sec) (d : Bytes) : Image := { p with secs := p.secs.set i { s with data := d } }

theorem withData_get {p : Image} {i : Nat} {s : Sec} (h : p.secs[i]? = some s) (d : Bytes) :
    (withData p i s d).secs[i]? = some { s with data := d } := getElem?_setSelf h _

theorem withData_set (p : Image) (i : Nat) (s : Sec) (d c : Bytes) :
    ({ withData p i s d with secs := (withData p i s d).secs.set i { ({ s with data := d } : Sec) with data := c } } : Image) =
      withData p i s c := by
  unfold withData
  rw [List.set_set]

/-- The operation changes only the bytes of section `i`; given `c`, it does not throw. -/
def KeepsSec (p : Image) (i : Nat) (s : Sec) (c : Prop) {α : Type} (m : IM α) : Prop :=
  ∀ d : Bytes, (c → Calm m (withData p i s d)) ∧ ∃ d', d'.length = d.length ∧ (m (withData p i s d)).2 = withData p i s d'

section
variable {p : Image} {i : Nat} {s : Sec} {c : Prop}

theorem KeepsSec.mono {α : Type} {c' : Prop} {m : IM α} (h : KeepsSec p i s c m) (hc : c' → c) : KeepsSec p i s c' m :=
  fun d => ⟨fun x => (h d).1 (hc x), (h d).2⟩

theorem KeepsSec.pure {α : Type} (a : α) : KeepsSec p i s c (Pure.pure a : IM α) := fun d => ⟨fun _ => Calm.pure a _, d, rfl, rfl⟩

theorem KeepsSec.lift {α : Type} {r : Res α} (h : c → NoExn r) : KeepsSec p i s c (IM.lift r) := fun d => ⟨fun x => Calm.lift (h x), d, rfl, rfl⟩

theorem KeepsSec.bind {α β : Type} {m : IM α} {g : α → IM β} (hm : KeepsSec p i s c m) (hg : ∀ a, KeepsSec p i s c (g a)) :
    KeepsSec p i s c (m >>= g) := by
  intro d
  obtain ⟨h1, d1, hd1, h2⟩ := hm d
  rcases h : m (withData p i s d) with ⟨e | a, q⟩
  · rw [h] at h2
    refine ⟨fun x => Calm.bind (h1 x) fun a q' hq' => ?_, d1, hd1, ?_⟩
    · rw [h] at hq'; cases hq'
    · rw [run_bind_error h]; exact h2
  · rw [h] at h2
    have h2 : q = withData p i s d1 := h2
    subst h2
    obtain ⟨h3, d2, hd2, h4⟩ := hg a d1
    refine ⟨fun x => Calm.bind (h1 x) fun a' q' hq' => ?_, d2, hd2.trans hd1, ?_⟩
    · rw [h] at hq'
      obtain ⟨h5, rfl⟩ := Prod.mk.inj hq'
      rw [← Except.ok.inj h5]
      exact h3 x
    · rw [run_bind_ok h]; exact h4

theorem KeepsSec.image {β : Type} {g : Image → IM β} (hg : ∀ d, KeepsSec p i s c (g (withData p i s d))) :
    KeepsSec p i s c (IM.image >>= g) := fun d => hg d d

theorem KeepsSec.onData (h : p.secs[i]? = some s) {f : Bytes → Res Bytes} (hf : ∀ d, Writes d (f d)) :
    KeepsSec p i s c (IM.onData i f) := by
  intro d
  have hs := withData_get h d
  refine ⟨fun _ => onData_calm hs (hf _).1, ?_⟩
  cases hx : f d with
  | error x =>
    refine ⟨d, rfl, ?_⟩
    unfold IM.onData
    rw [run_sec hs, run_lift_error hx]
  | ok d' =>
    refine ⟨d', (hf d).2 d' hx, ?_⟩
    unfold IM.onData
    rw [run_sec hs, run_lift_ok hx]
    exact withData_set p i s d d'

theorem KeepsSec.sec (h : p.secs[i]? = some s) : KeepsSec p i s c (IM.sec i) := by
  intro d
  have hs : IM.sec i (withData p i s d) = (.ok { s with data := d }, withData p i s d) := by
    unfold IM.sec; rw [withData_get h d]
  refine ⟨fun _ => ?_, d, rfl, ?_⟩
  · unfold Calm; rw [hs]; exact NoExn.ok _
  · rw [hs]

theorem writeAt_noExn (d : Bytes) (o : Nat) (x : Bytes) : NoExn (writeAt d o x) := (Writes.at d o x).1

theorem KeepsSec.loc (h : p.secs[i]? = some s) (o : Nat) (x : Bytes) : KeepsSec p i s c (writeLocM (.sec i o) x) := by
  intro d
  have hs := withData_get h d
  have hw : (withData p i s d).writeLoc (.sec i o) x = writeAt d o x >>= fun b => .ok (withData p i s b) := by
    unfold Image.writeLoc
    dsimp only
    rw [hs]
    dsimp only
    refine bind_congr' fun b => ?_
    rw [← withData_set p i s d b]
  unfold writeLocM
  cases hx : writeAt d o x with
  | error e =>
    rw [hx] at hw
    refine ⟨fun _ y hy => ?_, d, rfl, ?_⟩
    · rw [run_image, run_lift_error hw] at hy
      cases e with
      | ub u => cases hy
      | exn z => exact writeAt_noExn d o x z hx
    · rw [run_image, run_lift_error hw]
  | ok b =>
    rw [hx] at hw
    refine ⟨fun _ y hy => ?_, b, writeAt_length hx, ?_⟩
    · rw [run_image, run_lift_ok hw] at hy; cases hy
    · rw [run_image, run_lift_ok hw]; rfl

/-- Writing and then finishing: an exception comes from the writing, or the section is huge. -/
theorem keepsFinish {α : Type} (hp : Small p) (h : p.secs[i]? = some s) {d : Bytes} (hne : d ≠ [] ∨ s.vsize ≠ 0)
    {strip save : Bool} (hl : strip = true → i + 1 ≠ p.secs.length → d.length ≤ 2147483648) {body : IM α} (hk : KeepsSec p i s c body)
    {id : Nat} (hc : CanSave p save id) {dir : α → Nat × Nat} {e : Err}
    (he : ((body >>= fun a => finishDirM i strip save id (dir a)) (withData p i s d)).1 = throwE e)
    (hn : NoHuge ((body >>= fun a => finishDirM i strip save id (dir a)) (withData p i s d)).2) :
    ¬ c ∧ ∃ d', d'.length = d.length ∧
      ((body >>= fun a => finishDirM i strip save id (dir a)) (withData p i s d)).2 = withData p i s d' := by
  obtain ⟨h1, d1, hd1, h2⟩ := hk d
  rcases hb : body (withData p i s d) with ⟨x | a, q⟩
  · rw [hb] at h2
    rw [run_bind_error hb] at he ⊢
    refine ⟨fun x => h1 x e ?_, d1, hd1, h2⟩
    rw [hb]
    cases he
    rfl
  · rw [hb] at h2
    have h2 : q = withData p i s d1 := h2
    subst h2
    rw [run_bind_ok hb] at he hn
    exfalso
    refine finishDirM_within (s := { s with data := d1 }) (withData_get h d1) hp.fa hp.sa (hp.virt s (List.mem_of_getElem? h)) ?_ ?_ hc he hn
    · rcases hne with h3 | h3
      · refine Or.inl fun h0 => h3 ?_
        have : d1 = [] := h0
        rw [this] at hd1
        exact List.length_eq_zero_iff.1 hd1.symm
      · exact Or.inr h3
    · intro h3 h4
      show d1.length ≤ _
      rw [hd1]
      refine hl h3 ?_
      unfold withData at h4
      simpa using h4

/-- The check of the space bounds what is needed in a section that is not the last one. -/
theorem spaceCheck_bound (hp : Small p) (h : p.secs[i]? = some s) {need : Nat} (hs : p.spaceCheck i s need = .ok ())
    (hi : i + 1 ≠ p.secs.length) : need ≤ 2147483648 := by
  unfold Image.spaceCheck at hs
  by_cases hx : i + 1 ≠ p.secs.length ∧ (s.empty = true ∨ alignUp s.rawSize p.nt.fileAlign < need)
  · rw [throwIf_pos hx] at hs; cases hs
  · have hr := hp.raw s (List.mem_of_getElem? h)
    have h1 := alignUp_2gb hp.fa hr
    have h2 := ceilTo_le_2gb hp.fa hr
    rw [h1] at hx
    have : ¬ ceilTo s.rawSize p.nt.fileAlign < need := fun h3 => hx ⟨hi, Or.inr h3⟩
    omega

theorem growTo_bound (hp : Small p) (h : p.secs[i]? = some s) {need : Nat} (hs : p.spaceCheck i s need = .ok ())
    (hi : i + 1 ≠ p.secs.length) : (growTo s.data need).length ≤ 2147483648 := by
  have h1 := spaceCheck_bound hp h hs hi
  have h2 := hp.data s (List.mem_of_getElem? h)
  rw [growTo_max]
  omega

theorem growTo_ne {d : Bytes} (need : Nat) (h : d ≠ []) : growTo d need ≠ [] := by
  intro h0
  have := growTo_max d need
  rw [h0] at this
  have h1 : ([] : Bytes).length = 0 := rfl
  have h2 : 0 < d.length := List.length_pos_iff.2 h
  omega

theorem growTo_full (hp : Small p) (h : p.secs[i]? = some s) (need : Nat) : growTo s.data need ≠ [] ∨ s.vsize ≠ 0 :=
  (hp.full s (List.mem_of_getElem? h)).imp_left (growTo_ne need)

/-! ### Resources -/

theorem isUcs2_of {c : Nat} (h : Ucs2Char c) : isUcs2 c = true := by
  unfold isUcs2
  rcases h with h | h <;> simp <;> omega

theorem toUcs2_noExn {w : WStr} (h : ∀ c ∈ w, Ucs2Char c) : NoExn (toUcs2 w) := by
  unfold toUcs2
  rw [if_pos (List.all_eq_true.2 fun c hc => isUcs2_of (h c hc))]
  exact NoExn.ok _

theorem putNameM_keeps (h : p.secs[i]? = some s) (base : Nat) (k : ResKey) (np : Nat) :
    KeepsSec p i s k.Named (putNameM i base k np) := by
  cases k with
  | id n => exact KeepsSec.pure _
  | name w =>
    unfold putNameM
    exact KeepsSec.bind (KeepsSec.onData h fun d => Writes.at _ _ _) fun _ => KeepsSec.bind (KeepsSec.lift fun x => toUcs2_noExn x) fun u =>
      KeepsSec.bind (KeepsSec.onData h fun d => Writes.at _ _ _) fun _ => KeepsSec.pure _

mutual
theorem ResEntry.putM_keeps (h : p.secs[i]? = some s) (va base : Nat) : ∀ (e : ResEntry) (tp : Nat) (x : ResPos),
    KeepsSec p i s (e.Named ∧ e.complete = true) (e.putM i va base tp x)
  | .empty k, tp, x => by
    unfold ResEntry.putM
    refine KeepsSec.bind ((putNameM_keeps h base k _).mono fun y => ?_) fun _ => KeepsSec.lift fun y => ?_
    · unfold ResEntry.Named at y; exact y.1
    · unfold ResEntry.complete at y; exact absurd y.2 (by simp)
  | .data k cp dt, tp, x => by
    unfold ResEntry.putM
    refine KeepsSec.bind ((putNameM_keeps h base k _).mono fun y => ?_) fun r => ?_
    · unfold ResEntry.Named at y; exact y.1
    · exact KeepsSec.bind (KeepsSec.onData h fun d => Writes.at _ _ _) fun _ => KeepsSec.bind (KeepsSec.onData h fun d => Writes.at _ _ _) fun _ =>
        KeepsSec.bind (KeepsSec.onData h fun d => Writes.at _ _ _) fun _ => KeepsSec.pure _
  | .dir k hh es, tp, x => by
    unfold ResEntry.putM
    refine KeepsSec.bind ((putNameM_keeps h base k _).mono fun y => ?_) fun r => ?_
    · unfold ResEntry.Named at y; exact y.1.1
    · refine KeepsSec.bind (KeepsSec.onData h fun d => Writes.at _ _ _) fun _ => KeepsSec.bind (KeepsSec.onData h fun d => Writes.at _ _ _) fun _ =>
        (putEntriesM_keeps h va base es _ _).mono fun y => ?_
      unfold ResEntry.Named ResEntry.complete at y
      exact ⟨y.1.2, y.2⟩
theorem putEntriesM_keeps (h : p.secs[i]? = some s) (va base : Nat) : ∀ (es : List ResEntry) (tp : Nat) (x : ResPos),
    KeepsSec p i s (AllNamed es ∧ completeAll es = true) (putEntriesM i va base es tp x)
  | [], tp, x => by
    unfold putEntriesM; exact KeepsSec.pure _
  | e :: es, tp, x => by
    unfold putEntriesM
    refine KeepsSec.bind ((ResEntry.putM_keeps h va base e _ _).mono fun y => ?_) fun x' =>
      (putEntriesM_keeps h va base es _ _).mono fun y => ?_
    · unfold AllNamed completeAll at y
      simp only [Bool.and_eq_true] at y
      exact ⟨y.1.1, y.2.1⟩
    · unfold AllNamed completeAll at y
      simp only [Bool.and_eq_true] at y
      exact ⟨y.1.2, y.2.2⟩
end

theorem allNamed_iff (es : List ResEntry) : AllNamed es ↔ ∀ e ∈ es, e.Named := by
  induction es with
  | nil => simp [AllNamed]
  | cons e es ih => simp [AllNamed, ih]

theorem completeAll_iff (es : List ResEntry) : completeAll es = true ↔ ∀ e ∈ es, e.complete = true := by
  induction es with
  | nil => simp [completeAll]
  | cons e es ih => simp [completeAll, ih]

theorem sortedOf_all {P : ResEntry → Prop} {es : List ResEntry} (h : ∀ e ∈ es, P e.sort) : ∀ e ∈ sortedOf es, P e := by
  intro e he
  have := (sortedOf_perm es).mem_iff.1 he
  obtain ⟨e', h1, rfl⟩ := List.mem_map.1 this
  exact h e' h1

mutual
theorem ResEntry.sort_good : ∀ e : ResEntry, e.Named ∧ e.complete = true → e.sort.Named ∧ e.sort.complete = true
  | .empty k, h => by unfold ResEntry.sort; exact h
  | .data k cp d, h => by unfold ResEntry.sort; exact h
  | .dir k hh es, h => by
    rw [ResEntry.sort_dir]
    unfold ResEntry.Named ResEntry.complete at h ⊢
    have h1 := (allNamed_iff es).1 h.1.2
    have h2 := (completeAll_iff es).1 h.2
    have h3 := sort_goodAll es fun e he => ⟨h1 e he, h2 e he⟩
    exact ⟨⟨h.1.1, (allNamed_iff _).2 (sortedOf_all fun e he => (h3 e he).1)⟩,
      (completeAll_iff _).2 (sortedOf_all fun e he => (h3 e he).2)⟩
theorem sort_goodAll : ∀ es : List ResEntry, (∀ e ∈ es, e.Named ∧ e.complete = true) →
    ∀ e ∈ es, e.sort.Named ∧ e.sort.complete = true
  | [], _ => fun e he => by cases he
  | x :: xs, h => fun e he => by
    rcases List.mem_cons.1 he with h0 | h1
    · rw [h0]; exact ResEntry.sort_good x (h x List.mem_cons_self)
    · exact sort_goodAll xs (fun e he => h e (List.mem_cons_of_mem _ he)) e h1
end

theorem putDirM_keeps (h : p.secs[i]? = some s) (va base : Nat) (r : ResDir) (x : ResPos) (hc : completeAll r.es = true) :
    KeepsSec p i s (AllNamed r.es) (putDirM i va base r.sort x) := by
  unfold putDirM
  refine KeepsSec.bind (KeepsSec.onData h fun d => Writes.at _ _ _) fun _ => (putEntriesM_keeps h va base _ _ _).mono fun y => ?_
  rw [ResDir.sort_eq]
  have h1 := (allNamed_iff r.es).1 y
  have h2 := (completeAll_iff r.es).1 hc
  have h3 := sort_goodAll r.es fun e he => ⟨h1 e he, h2 e he⟩
  exact ⟨(allNamed_iff _).2 (sortedOf_all fun e he => (h3 e he).1), (completeAll_iff _).2 (sortedOf_all fun e he => (h3 e he).2)⟩

end

end PE
