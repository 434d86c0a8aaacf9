/-
Facts about programs with resource trees.
-/
import Verif.Lemmas.ResourceObjects
import Verif.Props.Objects
namespace PE

/-- The invariant: the variables stand for the values `m` and own the addresses `F`. -/
structure Trees (σ : RState) (m : Nat → Option ResEntry) (F : Nat → Nat → Prop) : Prop where
  dead : ∀ v, σ.vars v = none ↔ m v = none
  rep : ∀ v o e, σ.vars v = some o → m v = some e → Rep σ.heap.cells o e (F v)
  nothing : ∀ v, σ.vars v = none → ∀ a, ¬ F v a
  disj : ∀ v w a, F v a → F w a → v = w
  used : ∀ a, σ.heap.cells a ≠ none → ∃ v, F v a
  ok : σ.heap.Ok

/-- The place `d` has the reference `r`, where the object `o` stands for `e` and owns `S`. -/
structure EntryAt (σ : RState) (d : ELoc) (r : ERef) (o : EObj) (e : ResEntry) (S : Nat → Prop) : Prop where
  res : σ.resolve d = .ok r
  read : σ.read r = .ok o
  rep : Rep σ.heap.cells o e S

theorem Trees.live {σ : RState} {m : Nat → Option ResEntry} {F : Nat → Nat → Prop} (t : Trees σ m F) {v : Nat} {e : ResEntry}
    (h : m v = some e) : ∃ o, σ.vars v = some o ∧ Rep σ.heap.cells o e (F v) := by
  cases hv : σ.vars v with
  | none => rw [(t.dead v).mp hv] at h; cases h
  | some o => exact ⟨o, rfl, t.rep v o e hv h⟩

theorem Trees.alloc {σ : RState} {m : Nat → Option ResEntry} {F : Nat → Nat → Prop} (t : Trees σ m F) {v a : Nat} (h : F v a) :
    σ.heap.cells a ≠ none := by
  cases hv : σ.vars v with
  | none => exact absurd h (t.nothing v hv a)
  | some o =>
    cases hm : m v with
    | none => rw [(t.dead v).mpr hm] at hv; cases hv
    | some e => exact Rep.mem h e (t.rep v o e hv hm)

theorem read_var {σ : RState} {v : Nat} {o : EObj} (h : σ.vars v = some o) : σ.read (.var v) = .ok o := by
  unfold RState.read; simp only [h]

theorem read_elem {σ : RState} {a j : Nat} {hd : ResHdr} {os : List EObj} {o : EObj} (h : σ.heap.cells a = some (.dir hd os))
    (ho : os[j]? = some o) : σ.read (.elem a j) = .ok o := by
  unfold RState.read Heap.dirAt
  simp only [h]
  show (match os[j]? with | some o => _ | none => _) = _
  rw [ho]

theorem read_elem_iff {σ : RState} {a j : Nat} {o : EObj} (h : σ.read (.elem a j) = .ok o) :
    ∃ hd os, σ.heap.cells a = some (.dir hd os) ∧ os[j]? = some o := by
  unfold RState.read Heap.dirAt at h
  split at h
  · next hc => cases hc
  · next a' j' hc =>
    cases hc
    cases hx : σ.heap.cells a with
    | none => rw [hx] at h; cases h
    | some x =>
      rw [hx] at h
      cases x with
      | data cp d => cases h
      | dir hd os =>
        refine ⟨hd, os, rfl, ?_⟩
        have h : (match os[j]? with | some o => (.ok o : Res EObj) | none => ubE .oobIndex) = .ok o := h
        cases ho : os[j]? with
        | none => rw [ho] at h; cases h
        | some y => rw [ho] at h; cases h; rfl

theorem resolve_nil {σ : RState} {v : Nat} {o : EObj} (h : σ.vars v = some o) : σ.resolve (v, []) = .ok (.var v) := by
  unfold RState.resolve
  rw [read_var h]
  rfl

theorem resolve_cons {σ : RState} {v i : Nat} {l : List Nat} {o : EObj} {a j : Nat} (h : σ.vars v = some o)
    (hw : σ.heap.walk o i l = .ok (a, j)) : σ.resolve (v, i :: l) = .ok (.elem a j) := by
  unfold RState.resolve
  rw [read_var h]
  show (σ.heap.walk o i l >>= _) = _
  rw [hw]
  rfl

theorem write_var {σ : RState} {v : Nat} {o o2 : EObj} (h : σ.vars v = some o) :
    σ.write (.var v) o2 = .ok { σ with vars := setVar σ.vars v (some o2) } := by
  unfold RState.write; simp only [h]

theorem write_elem {σ : RState} {a j : Nat} {hd : ResHdr} {os : List EObj} {o o2 : EObj} (h : σ.heap.cells a = some (.dir hd os))
    (ho : os[j]? = some o) : σ.write (.elem a j) o2 = .ok { σ with heap := σ.heap.store a (.dir hd (os.set j o2)) } := by
  unfold RState.write Heap.dirAt
  simp only [h]
  rw [List.getElem?_eq_some_iff] at ho
  show (if j < os.length then _ else _) = _
  rw [if_pos ho.1]

theorem store_ok {h : Heap RCell} (k : h.Ok) {a : Nat} (ha : h.cells a ≠ none) (x : RCell) : (h.store a x).Ok := by
  have hlt := k.lt ha
  refine ⟨k.pos, ?_, ?_⟩
  · show (if 0 = a then _ else _) = _
    rw [if_neg (fun e => ha (by rw [← e]; exact k.null)), k.null]
  · intro b hb
    have hb : h.next ≤ b := hb
    show (if b = a then _ else _) = _
    rw [if_neg (by omega), k.top b hb]

theorem store_self (h : Heap RCell) (a : Nat) (x : RCell) : (h.store a x).cells a = some x := by
  show (if a = a then _ else _) = _
  rw [if_pos rfl]

theorem store_ne (h : Heap RCell) {a b : Nat} (x : RCell) (hb : b ≠ a) : (h.store a x).cells b = h.cells b := by
  show (if b = a then _ else _) = _
  rw [if_neg hb]

/-- What `write` at a place does when the memory has changed only in what belongs to the place. -/
structure Changed (σ : RState) (r : ERef) (S : Nat → Prop) (o2 : EObj) (e2 : ResEntry) (S2 : Nat → Prop) (h2 : Heap RCell) :
    Prop where
  ok : h2.Ok
  rep : Rep h2.cells o2 e2 S2
  kept : ∀ b, ¬ S b → ¬ S2 b → h2.cells b = σ.heap.cells b
  free : ∀ b, S2 b → S b ∨ σ.heap.cells b = none
  gone : ∀ b, S b → ¬ S2 b → h2.cells b = none

/-- The places that stay as they are. -/
structure Frame (σ τ : RState) (r : ERef) (S : Nat → Prop) : Prop where
  read : ∀ q x, q ≠ r → (∀ b j, q = .elem b j → ¬ S b) → σ.read q = .ok x → τ.read q = .ok x
  cells : ∀ b, σ.heap.cells b ≠ none → ¬ S b → (∀ j, r ≠ .elem b j) → τ.heap.cells b = σ.heap.cells b

theorem Trees.place {σ : RState} {m : Nat → Option ResEntry} {F : Nat → Nat → Prop} (t : Trees σ m F) {d : ELoc} {e : ResEntry}
    (hg : getAt m d = some e) : ∃ r o S, EntryAt σ d r o e S ∧ (∀ b, S b → F d.1 b) ∧ (∀ a j, r = .elem a j → F d.1 a ∧ ¬ S a) ∧
      (∀ v, r = .var v → v = d.1) ∧
      ∀ h2 o2 e2 S2, Changed σ r S o2 e2 S2 h2 → ∃ τ F', RState.write { σ with heap := h2 } r o2 = .ok τ ∧
        Trees τ (putAt m d e2) F' ∧ EntryAt τ d r o2 e2 S2 ∧ Frame σ τ r S ∧ τ.heap.next = h2.next := by
  obtain ⟨v, p⟩ := d
  unfold getAt at hg
  dsimp only at hg
  cases hm : m v with
  | none => rw [hm] at hg; cases hg
  | some e0 =>
  rw [hm] at hg
  obtain ⟨o0, hv, r0⟩ := t.live hm
  dsimp only at hg
  -- what is common to both cases
  have key : ∀ (S S2 : Nat → Prop) (r : ERef) (h2 h3 : Heap RCell) (o1 o2 : EObj) (e2 : ResEntry) (vars : Nat → Option EObj)
      (x : ResEntry), (∀ b, S b → F v b) → Changed σ r S o2 e2 S2 h2 → vars v = some o1 →
      (∀ w, w ≠ v → vars w = σ.vars w) → h3.Ok → h3.next = h2.next →
      (∀ b, h3.cells b ≠ h2.cells b → F v b ∧ ¬ S b) →
      (∀ b, h3.cells b ≠ none → h2.cells b ≠ none ∨ (F v b ∧ ¬ S b)) →
      Rep h3.cells o1 x (fun b => (F v b ∧ ¬ S b) ∨ S2 b) →
      Trees { heap := h3, vars := vars } (setVar m v (some x))
        (fun w => if w = v then (fun b => (F v b ∧ ¬ S b) ∨ S2 b) else F w) := by
    intro S S2 r h2 h3 o1 o2 e2 vars x hsub ch hv1 hvs hk hnext hdiff hne hrep
    have sep : ∀ w b, w ≠ v → F w b → ¬ S b ∧ ¬ S2 b := by
      intro w b hw hb
      have hS : ¬ S b := fun hs => hw (t.disj w v b hb (hsub b hs))
      refine ⟨hS, fun hs => ?_⟩
      rcases ch.free b hs with h | h
      · exact hS h
      · exact t.alloc hb h
    refine ⟨?_, ?_, ?_, ?_, ?_, hk⟩
    · intro w
      by_cases hw : w = v
      · subst hw
        dsimp only
        rw [hv1, setVar_self]
        exact ⟨fun h => (by cases h), fun h => (by cases h)⟩
      · dsimp only
        rw [hvs w hw, setVar_ne _ _ hw]
        exact t.dead w
    · intro w o e h1 h2'
      by_cases hw : w = v
      · subst hw
        dsimp only at h1 ⊢
        rw [hv1] at h1
        rw [setVar_self] at h2'
        cases h1; cases h2'
        rw [if_pos rfl]
        exact hrep
      · dsimp only at h1 ⊢
        rw [hvs w hw] at h1
        rw [setVar_ne _ _ hw] at h2'
        rw [if_neg hw]
        refine Rep.congr (fun b hb => ?_) (fun _ => Iff.rfl) e (t.rep w o e h1 h2')
        obtain ⟨s1, s2⟩ := sep w b hw hb
        have : h3.cells b = h2.cells b := by
          apply Classical.byContradiction
          intro hn
          exact hw (t.disj w v b hb (hdiff b hn).1)
        rw [this, ch.kept b s1 s2]
    · intro w hw b
      dsimp only at hw ⊢
      by_cases hwv : w = v
      · subst hwv; rw [hv1] at hw; cases hw
      · rw [if_neg hwv]
        rw [hvs w hwv] at hw
        exact t.nothing w hw b
    · intro w1 w2 b h1 h2'
      by_cases hw1 : w1 = v
      · by_cases hw2 : w2 = v
        · rw [hw1, hw2]
        · subst hw1
          rw [if_pos rfl] at h1
          rw [if_neg hw2] at h2'
          rcases h1 with ⟨h1, -⟩ | h1
          · exact t.disj _ _ b h1 h2'
          · exact absurd h1 (sep w2 b hw2 h2').2
      · rw [if_neg hw1] at h1
        by_cases hw2 : w2 = v
        · subst hw2
          rw [if_pos rfl] at h2'
          rcases h2' with ⟨h2', -⟩ | h2'
          · exact t.disj _ _ b h1 h2'
          · exact absurd h2' (sep w1 b hw1 h1).2
        · rw [if_neg hw2] at h2'
          exact t.disj _ _ b h1 h2'
    · intro b hb
      dsimp only at hb
      have own : (F v b ∧ ¬ S b) → ∃ w, (if w = v then (fun b => (F v b ∧ ¬ S b) ∨ S2 b) else F w) b := by
        intro h
        exact ⟨v, by rw [if_pos rfl]; exact .inl h⟩
      rcases hne b hb with hb' | hb'
      · rcases Classical.em (S2 b) with h | h
        · exact ⟨v, by rw [if_pos rfl]; exact .inr h⟩
        · rcases Classical.em (S b) with hs | hs
          · exact absurd (ch.gone b hs h) hb'
          · rw [ch.kept b hs h] at hb'
            obtain ⟨w, hw⟩ := t.used b hb'
            by_cases hwv : w = v
            · subst hwv; exact own ⟨hw, hs⟩
            · exact ⟨w, by rw [if_neg hwv]; exact hw⟩
      · exact own hb'
  cases p with
  | nil =>
    simp only [ResEntry.at, Option.some.injEq] at hg
    subst hg
    refine ⟨.var v, o0, F v, ⟨resolve_nil hv, read_var hv, r0⟩, fun b hb => hb, fun a j h => (by cases h),
      fun w h => (by cases h; rfl), ?_⟩
    intro h2 o2 e2 S2 ch
    refine ⟨_, fun w => if w = v then (fun b => (F v b ∧ ¬ F v b) ∨ S2 b) else F w, write_var hv, ?_, ?_, ?_, rfl⟩
    · unfold putAt
      dsimp only
      rw [hm]
      show Trees _ (setVar m v (some (ResEntry.putAt e2 [] e0))) _
      rw [ResEntry.putAt]
      refine key (F v) S2 (.var v) h2 h2 o2 o2 e2 _ e2 (fun b hb => hb) ch (setVar_self _ _ _)
        (fun w hw => setVar_ne _ _ hw) ch.ok rfl (fun b hb => absurd rfl hb) (fun b hb => .inl hb) ?_
      refine Rep.congr (fun _ _ => rfl) (fun b => ?_) e2 ch.rep
      constructor
      · rintro (⟨h, h'⟩ | h)
        · exact absurd h h'
        · exact h
      · exact .inr
    · refine ⟨resolve_nil (setVar_self _ _ _), read_var (setVar_self _ _ _), ch.rep⟩
    · constructor
      · intro q x hq hS hx
        cases q with
        | var w =>
          have hw : w ≠ v := fun h => hq (by rw [h])
          unfold RState.read at hx ⊢
          dsimp only at hx ⊢
          rw [setVar_ne _ _ hw]
          exact hx
        | elem b j =>
          obtain ⟨hd, os, c1, c2⟩ := read_elem_iff hx
          refine read_elem (hd := hd) (os := os) ?_ c2
          have h1 := hS b j rfl
          have h3 : ¬ S2 b := by
            intro h
            rcases ch.free b h with h | h
            · exact h1 h
            · rw [h] at c1; cases c1
          dsimp only
          rw [ch.kept b h1 h3, c1]
      · intro b hb h1 _
        have h3 : ¬ S2 b := by
          intro h
          rcases ch.free b h with h | h
          · exact h1 h
          · exact hb h
        exact ch.kept b h1 h3
  | cons i l =>
    obtain ⟨a, j, o1, S1, f, fa, fna, fsub, fput⟩ := focus l r0 hg
    obtain ⟨hd, os, c1, c2⟩ := f.cell
    refine ⟨.elem a j, o1, S1, ⟨resolve_cons hv f.walk, read_elem c1 c2, f.rep⟩, fsub, fun a' j' h => (by cases h; exact ⟨fa, fna⟩),
      fun w h => (by cases h), ?_⟩
    intro h2 o2 e2 S2 ch
    have hS2a : ¬ S2 a := by
      intro h
      rcases ch.free a h with h | h
      · exact fna h
      · exact t.alloc fa h
    have c1' : h2.cells a = some (.dir hd os) := by rw [ch.kept a fna hS2a, c1]
    have hlt : j < os.length := by rw [List.getElem?_eq_some_iff] at c2; exact c2.1
    have hrep3 : Rep (h2.store a (.dir hd (os.set j o2))).cells o2 e2 S2 := by
      refine Rep.congr (fun b hb => ?_) (fun _ => Iff.rfl) e2 ch.rep
      exact store_ne _ _ (fun h => hS2a (by rw [← h]; exact hb))
    obtain ⟨w1, w2⟩ := fput (h2.store a (.dir hd (os.set j o2))) o2 e2 S2 (by
        intro hd' os' h
        rw [c1] at h
        cases h
        exact store_self _ _ _) (by
        intro b hb hb' hb''
        rw [store_ne _ _ hb'', ch.kept b hb']
        intro h
        rcases ch.free b h with h | h
        · exact hb' h
        · exact t.alloc hb h) hrep3 (by
        intro b hb hb'
        rcases ch.free b hb with h | h
        · exact h
        · exact absurd h (t.alloc hb'))
    refine ⟨_, fun w => if w = v then (fun b => (F v b ∧ ¬ S1 b) ∨ S2 b) else F w,
      write_elem (σ := { σ with heap := h2 }) c1' c2, ?_, ?_, ?_, rfl⟩
    · unfold putAt
      dsimp only
      rw [hm]
      refine key S1 S2 (.elem a j) h2 _ o0 o2 e2 _ _ fsub ch hv (fun w _ => rfl) ?_ rfl ?_ ?_ w1
      · exact store_ok ch.ok (by rw [c1']; exact fun x => by cases x) _
      · intro b hb
        have hba : b = a := Decidable.byContradiction fun hn => hb (store_ne _ _ hn)
        rw [hba]
        exact ⟨fa, fna⟩
      · intro b hb
        by_cases hba : b = a
        · rw [hba]; exact .inr ⟨fa, fna⟩
        · rw [store_ne _ _ hba] at hb; exact .inl hb
    · exact ⟨resolve_cons (σ := { σ with heap := _ }) hv w2, read_elem (store_self _ _ _) (by rw [List.getElem?_set_self hlt]), hrep3⟩
    · have hnot : ∀ b, σ.heap.cells b ≠ none → ¬ S1 b → ¬ S2 b := by
        intro b hb h1 h
        rcases ch.free b h with h | h
        · exact h1 h
        · exact hb h
      constructor
      · intro q x hq hS hx
        cases q with
        | var w => exact hx
        | elem b j' =>
          obtain ⟨hd', os', d1, d2⟩ := read_elem_iff hx
          have h1 := hS b j' rfl
          have h3 := hnot b (by rw [d1]; exact fun x => by cases x) h1
          by_cases hba : b = a
          · subst hba
            rw [c1] at d1
            cases d1
            have hj : j ≠ j' := fun h => hq (by rw [h])
            refine read_elem (store_self _ _ _) ?_
            rw [List.getElem?_set_ne hj]
            exact d2
          · refine read_elem (hd := hd') (os := os') ?_ d2
            dsimp only
            rw [store_ne _ _ hba, ch.kept b h1 h3, d1]
      · intro b hb h1 hr
        have hba : b ≠ a := fun h => hr j (by rw [h])
        dsimp only
        rw [store_ne _ _ hba]
        exact ch.kept b h1 (hnot b hb h1)

/-! ### Two places -/

theorem EntryAt.unique {σ : RState} {d : ELoc} {r r' : ERef} {o o' : EObj} {e : ResEntry} {S S' : Nat → Prop} (a : EntryAt σ d r o e S)
    (b : EntryAt σ d r' o' e S') : r = r' ∧ o = o' ∧ ∀ x, S x ↔ S' x := by
  have h := a.res
  rw [b.res] at h
  cases h
  have h := a.read
  rw [b.read] at h
  cases h
  exact ⟨rfl, rfl, Rep.uniq e a.rep b.rep⟩

/-- What is known about a place (`Trees.place`) holds for its reference. -/
theorem Trees.change {σ : RState} {m : Nat → Option ResEntry} {F : Nat → Nat → Prop} (t : Trees σ m F) {d : ELoc} {e : ResEntry}
    (hg : getAt m d = some e) {r : ERef} {o : EObj} {S : Nat → Prop} (a : EntryAt σ d r o e S) {h2 : Heap RCell} {o2 : EObj}
    {e2 : ResEntry} {S2 : Nat → Prop} (ch : Changed σ r S o2 e2 S2 h2) : ∃ τ F', RState.write { σ with heap := h2 } r o2 = .ok τ ∧
        Trees τ (putAt m d e2) F' ∧ EntryAt τ d r o2 e2 S2 ∧ Frame σ τ r S ∧ τ.heap.next = h2.next := by
  obtain ⟨r', o', S', a', -, -, -, h⟩ := t.place hg
  obtain ⟨rfl, rfl, hs⟩ := a.unique a'
  obtain ⟨τ, F', g1, g2, g3, g4, g5⟩ := h h2 o2 e2 S2 ⟨ch.ok, ch.rep, fun b hb => ch.kept b (fun x => hb ((hs b).mp x)),
    fun b hb => (ch.free b hb).imp (hs b).mp id, fun b hb => ch.gone b ((hs b).mpr hb)⟩
  exact ⟨τ, F', g1, g2, g3, ⟨fun q x hq hS => g4.read q x hq (fun b j hb hn => hS b j hb ((hs b).mpr hn)),
    fun b hb hb' => g4.cells b hb (fun x => hb' ((hs b).mpr x))⟩, g5⟩

theorem Trees.holder {σ : RState} {m : Nat → Option ResEntry} {F : Nat → Nat → Prop} (t : Trees σ m F) {d : ELoc} {e : ResEntry}
    (hg : getAt m d = some e) {r : ERef} {o : EObj} {S : Nat → Prop} (a : EntryAt σ d r o e S) :
    (∀ b, S b → F d.1 b) ∧ (∀ a j, r = .elem a j → F d.1 a ∧ ¬ S a) ∧ (∀ v, r = .var v → v = d.1) := by
  obtain ⟨r', o', S', a', h1, h2, h3, -⟩ := t.place hg
  obtain ⟨rfl, rfl, hs⟩ := a.unique a'
  refine ⟨fun b hb => h1 b ((hs b).mp hb), fun a j h => ⟨(h2 a j h).1, fun x => (h2 a j h).2 ((hs a).mp x)⟩, h3⟩

theorem Trees.focusAt {σ : RState} {m : Nat → Option ResEntry} {F : Nat → Nat → Prop} (t : Trees σ m F) {v i : Nat} {l : List Nat}
    {e : ResEntry} (hg : getAt m (v, i :: l) = some e) {r : ERef} {o : EObj} {S : Nat → Prop} (a : EntryAt σ (v, i :: l) r o e S)
    {o0 : EObj} {e0 : ResEntry} (hv : σ.vars v = some o0) (hm : m v = some e0) :
    ∃ b j, r = .elem b j ∧ Focus σ.heap o0 e0 i l b j o e S := by
  unfold getAt at hg
  dsimp only at hg
  rw [hm] at hg
  obtain ⟨b, j, o1, S1, f, -⟩ := focus l (t.rep v o0 e0 hv hm) hg
  obtain ⟨hd, os, c1, c2⟩ := f.cell
  obtain ⟨rfl, rfl, hs⟩ := a.unique ⟨resolve_cons hv f.walk, read_elem c1 c2, f.rep⟩
  exact ⟨b, j, rfl, f.walk, f.cell, f.isAt, a.rep⟩

theorem getAt_live {m : Nat → Option ResEntry} {d : ELoc} {e : ResEntry} (h : getAt m d = some e) : ∃ e0, m d.1 = some e0 := by
  unfold getAt at h
  cases hm : m d.1 with
  | none => rw [hm] at h; cases h
  | some e0 => exact ⟨e0, rfl⟩

theorem Trees.sep {σ : RState} {m : Nat → Option ResEntry} {F : Nat → Nat → Prop} (t : Trees σ m F) {d s : ELoc} {e y : ResEntry}
    (hd : getAt m d = some e) (hs : getAt m s = some y) {r q : ERef} {o x : EObj} {S T : Nat → Prop} (a : EntryAt σ d r o e S)
    (b : EntryAt σ s q x y T) (hn : ¬ Inside d s) : ∀ c j, q = .elem c j → ¬ S c := by
  intro c j hq hS
  have h1 := (t.holder hd a).1 c hS
  have h2 := ((t.holder hs b).2.1 c j hq).1
  have hv := t.disj _ _ c h1 h2
  obtain ⟨v, p⟩ := d
  obtain ⟨w, p'⟩ := s
  dsimp only at hv
  subst hv
  obtain ⟨e0, hm⟩ := getAt_live hd
  obtain ⟨o0, hv, r0⟩ := t.live hm
  dsimp only at hm hv r0
  cases p' with
  | nil =>
    have := b.res
    rw [resolve_nil hv] at this
    cases this
    cases hq
  | cons i' l' =>
    cases p with
    | nil => exact hn ⟨rfl, by simp, by simp⟩
    | cons i l =>
      obtain ⟨a1, j1, rfl, f⟩ := t.focusAt hd a hv hm
      obtain ⟨b1, j2, rfl, f'⟩ := t.focusAt hs b hv hm
      cases hq
      refine f.sep l r0 f' (fun h => hn ⟨rfl, h.1, fun h' => h.2 (List.cons.inj h').2⟩) hS

theorem Trees.apart {σ : RState} {m : Nat → Option ResEntry} {F : Nat → Nat → Prop} (t : Trees σ m F) {d s : ELoc} {e y : ResEntry}
    (hd : getAt m d = some e) (hs : getAt m s = some y) {r q : ERef} {o x : EObj} {S T : Nat → Prop} (a : EntryAt σ d r o e S)
    (b : EntryAt σ s q x y T) (hn : ApartL d s) : q ≠ r ∧ (∀ c j, q = .elem c j → ¬ S c) ∧ (∀ c j, r = .elem c j → ¬ T c) ∧
      ∀ c, S c → ¬ T c := by
  have s1 : ¬ Inside d s := fun h => (hn h.1).1 h.2.1
  have s2 : ¬ Inside s d := fun h => (hn h.1.symm).2 h.2.1
  refine ⟨?_, t.sep hd hs a b s1, t.sep hs hd b a s2, ?_⟩
  · intro h
    obtain ⟨v, p⟩ := d
    obtain ⟨w, p'⟩ := s
    subst h
    by_cases hvw : v = w
    · subst hvw
      obtain ⟨e0, hm⟩ := getAt_live hd
      obtain ⟨o0, hv, r0⟩ := t.live hm
      dsimp only at hm hv r0
      have ap := hn rfl
      dsimp only at ap
      cases p with
      | nil => exact ap.1 (by simp)
      | cons i l =>
        cases p' with
        | nil => exact ap.2 (by simp)
        | cons i' l' =>
          obtain ⟨a1, j1, h1, f⟩ := t.focusAt hd a hv hm
          obtain ⟨b1, j2, h2, f'⟩ := t.focusAt hs b hv hm
          rw [h1] at h2
          cases h2
          exact (Focus.apart l r0 f f' ap).1 ⟨rfl, rfl⟩
    · cases q with
      | var u =>
        exact hvw (((t.holder hd a).2.2 u rfl).symm.trans ((t.holder hs b).2.2 u rfl))
      | elem c j =>
        exact hvw (t.disj v w c ((t.holder hd a).2.1 c j rfl).1 ((t.holder hs b).2.1 c j rfl).1)
  · intro c h1 h2
    have k1 := (t.holder hd a).1 c h1
    have k2 := (t.holder hs b).1 c h2
    have hv := t.disj _ _ c k1 k2
    obtain ⟨v, p⟩ := d
    obtain ⟨w, p'⟩ := s
    dsimp only at hv
    subst hv
    obtain ⟨e0, hm⟩ := getAt_live hd
    obtain ⟨o0, hv, r0⟩ := t.live hm
    dsimp only at hm hv r0
    have ap := hn rfl
    dsimp only at ap
    cases p with
    | nil => exact ap.1 (by simp)
    | cons i l =>
      cases p' with
      | nil => exact ap.2 (by simp)
      | cons i' l' =>
        obtain ⟨a1, j1, h1', f⟩ := t.focusAt hd a hv hm
        obtain ⟨b1, j2, h2', f'⟩ := t.focusAt hs b hv hm
        exact (Focus.apart l r0 f f' ap).2 c h1 h2

/-- The object at a reference. -/
structure Held (σ : RState) (q : ERef) (x : EObj) (y : ResEntry) (T : Nat → Prop) : Prop where
  read : σ.read q = .ok x
  rep : Rep σ.heap.cells x y T

theorem EntryAt.held {σ : RState} {d : ELoc} {r : ERef} {o : EObj} {e : ResEntry} {S : Nat → Prop} (a : EntryAt σ d r o e S) : Held σ r o e S :=
  ⟨a.read, a.rep⟩

theorem Frame.held {σ τ : RState} {r q : ERef} {S T : Nat → Prop} {x : EObj} {y : ResEntry} (f : Frame σ τ r S) (h : Held σ q x y T)
    (h1 : q ≠ r) (h2 : ∀ c j, q = .elem c j → ¬ S c) (h3 : ∀ c j, r = .elem c j → ¬ T c) (h4 : ∀ c, S c → ¬ T c) : Held τ q x y T := by
  refine ⟨f.read q x h1 h2 h.read, Rep.congr (fun a ha => ?_) (fun _ => Iff.rfl) y h.rep⟩
  exact f.cells a (Rep.mem ha y h.rep) (fun x => h4 a x ha) (fun j hj => h3 a j hj ha)

/-! ### The value at a place -/

theorem at_putAt (x : ResEntry) (p : List Nat) : ∀ e e1, ResEntry.at p e = some e1 → ResEntry.at p (ResEntry.putAt x p e) = some x := by
  induction p with
  | nil => intro e e1 _; rfl
  | cons i l ih =>
    intro e e1 h
    obtain ⟨k, hd, es, c, rfl, hc, hat⟩ := at_dir h
    rw [ResEntry.putAt, hc]
    dsimp only
    rw [ResEntry.at]
    simp only [ResEntry.kids]
    rw [List.getElem?_set_self (by rw [List.getElem?_eq_some_iff] at hc; exact hc.1)]
    exact ih c e1 hat

theorem putAt_putAt (x y : ResEntry) (p : List Nat) : ∀ e, ResEntry.putAt y p (ResEntry.putAt x p e) = ResEntry.putAt y p e := by
  induction p with
  | nil => intro e; rfl
  | cons i l ih =>
    intro e
    cases e with
    | empty k => rfl
    | data k cp d => rfl
    | dir k hd es =>
      rw [ResEntry.putAt, ResEntry.putAt]
      cases hc : es[i]? with
      | none =>
        dsimp only
        rw [ResEntry.putAt, hc]
      | some c =>
        dsimp only
        rw [ResEntry.putAt, List.getElem?_set_self (by rw [List.getElem?_eq_some_iff] at hc; exact hc.1)]
        dsimp only
        rw [ih c, List.set_set]

theorem getAt_putAt {m : Nat → Option ResEntry} {d : ELoc} {e : ResEntry} (x : ResEntry) (h : getAt m d = some e) :
    getAt (putAt m d x) d = some x := by
  obtain ⟨e0, hm⟩ := getAt_live h
  unfold getAt at h
  rw [hm] at h
  unfold getAt putAt
  rw [setVar_self, hm]
  exact at_putAt x d.2 e0 e h

theorem putAt_twice (m : Nat → Option ResEntry) (d : ELoc) (x y : ResEntry) : putAt (putAt m d x) d y = putAt m d y := by
  unfold putAt
  rw [setVar_self, setVar_setVar]
  cases m d.1 with
  | none => rfl
  | some e => simp only [Option.map_some]; rw [putAt_putAt]

end PE
