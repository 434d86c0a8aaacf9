/-
C77, C78: objects that own memory.
-/
import Verif.Model.Objects
import Verif.Lemmas.Basic
namespace PE

/-! ### C77: `debug_info` -/

/-- The program respects the lifetimes of its variables: objects are created in unused variables, everything else is
    done with living objects; informations that are set are of one of the four kinds. -/
def Lives (live : Nat → Bool) : List DOp → Prop
  | [] => True
  | .make v _ :: l => live v = false ∧ Lives (fun x => if x = v then true else live x) l
  | .copy v w :: l => live v = false ∧ live w = true ∧ Lives (fun x => if x = v then true else live x) l
  | .assign v w :: l => live v = true ∧ live w = true ∧ Lives live l
  | .set v x :: l => live v = true ∧ (1 ≤ x.rank ∧ x.rank ≤ 4) ∧ Lives live l
  | .setType v _ :: l => live v = true ∧ Lives live l
  | .destroy v :: l => live v = true ∧ Lives (fun x => if x = v then false else live x) l

/-- The meaning of a program in which objects are values. -/
def valuesStep (m : Nat → Option DebugInfo) : DOp → Nat → Option DebugInfo
  | .make v dir => setVar m v (some { dir := dir, adv := .none })
  | .copy v w => setVar m v (m w)
  | .assign v w => setVar m v (m w)
  | .set v x => setVar m v ((m v).map fun d => { d with adv := x })
  | .setType v _ => setVar m v ((m v).map fun d => { d with adv := .none })
  | .destroy v => setVar m v none

/-- The same with the exception of the assignment of an object to itself. -/
def realStep (m : Nat → Option DebugInfo) : DOp → Nat → Option DebugInfo
  | .assign v w => setVar m v (if v = w then (m v).map fun d => { d with adv := .none } else m w)
  | op => valuesStep m op

def valuesRun (m : Nat → Option DebugInfo) (l : List DOp) : Nat → Option DebugInfo := l.foldl valuesStep m
def realRun (m : Nat → Option DebugInfo) (l : List DOp) : Nat → Option DebugInfo := l.foldl realStep m

/-- No object is assigned to itself. -/
def NoSelf (l : List DOp) : Prop := ∀ v, DOp.assign v v ∉ l

/-- The object `o` stands for the value `d`. -/
def ObjVal (h : Heap AdvInfo) (o : DObj) (d : DebugInfo) : Prop :=
  o.dir = d.dir ∧ o.type = d.adv.rank ∧
  (if hasInfo o.type then o.ptr ≠ 0 ∧ h.cells o.ptr = some d.adv else o.ptr = 0)

/-- The invariant. -/
structure Owned (σ : DState) (m : Nat → Option DebugInfo) : Prop where
  dead : ∀ v, σ.vars v = none ↔ m v = none
  val : ∀ v o d, σ.vars v = some o → m v = some d → ObjVal σ.heap o d
  own : ∀ v w o u, σ.vars v = some o → σ.vars w = some u → o.ptr = u.ptr → o.ptr ≠ 0 → v = w
  used : ∀ a x, σ.heap.cells a = some x → ∃ v o, σ.vars v = some o ∧ o.ptr = a
  fresh : ∀ a x, σ.heap.cells a = some x → a < σ.heap.next
  null : σ.heap.cells 0 = none
  pos : 0 < σ.heap.next

theorem owned_empty : Owned {} (fun _ => none) := by
  constructor
  · intro v; exact ⟨fun _ => rfl, fun _ => rfl⟩
  · intro v o d h; cases h
  · intro v w o u h; cases h
  · intro a x h; cases h
  · intro a x h; cases h
  · rfl
  · decide

theorem Owned.live {σ : DState} {m : Nat → Option DebugInfo} (h : Owned σ m) {v : Nat} {d : DebugInfo} (hd : m v = some d) :
    ∃ o, σ.vars v = some o ∧ σ.obj v = .ok o ∧ ObjVal σ.heap o d := by
  cases hv : σ.vars v with
  | none => rw [(h.dead v).mp hv] at hd; cases hd
  | some o => exact ⟨o, rfl, by unfold DState.obj; rw [hv], h.val v o d hv hd⟩

theorem setVar_self {α : Type} (m : Nat → Option α) (v : Nat) (x : Option α) : setVar m v x v = x := by
  unfold setVar; rw [if_pos rfl]

theorem setVar_ne {α : Type} (m : Nat → Option α) {v w : Nat} (x : Option α) (h : w ≠ v) : setVar m v x w = m w := by
  unfold setVar; rw [if_neg h]

theorem setVar_setVar {α : Type} (m : Nat → Option α) (v : Nat) (x y : Option α) : setVar (setVar m v x) v y = setVar m v y := by
  funext w; unfold setVar; split <;> rfl

theorem setVar_same {α : Type} (m : Nat → Option α) (v : Nat) (x : Option α) (h : m v = x) : setVar m v x = m := by
  funext w
  by_cases e : w = v
  · subst e; rw [setVar_self, h]
  · rw [setVar_ne _ _ e]

/-- Releasing the information of a living object. -/
theorem Owned.freeAdv {σ : DState} {m : Nat → Option DebugInfo} (h : Owned σ m) {v : Nat} {d : DebugInfo} (hd : m v = some d) :
    ∃ τ, σ.freeAdv v = .ok τ ∧ τ.vars v = some { dir := d.dir, type := 0, ptr := 0 } ∧
      (∀ w, w ≠ v → τ.vars w = σ.vars w) ∧ Owned τ (setVar m v (some { d with adv := .none })) := by
  obtain ⟨o, ho, hoo, hval⟩ := h.live hd
  have key : ∀ (h' : Heap AdvInfo), h'.next = σ.heap.next →
      (∀ a, h'.cells a = if hasInfo o.type ∧ a = o.ptr then none else σ.heap.cells a) →
      Owned { heap := h', vars := setVar σ.vars v (some { o with type := 0, ptr := 0 }) }
        (setVar m v (some { d with adv := .none })) := by
    intro h' hn hc
    have hsub : ∀ a x, h'.cells a = some x → σ.heap.cells a = some x ∧ ¬ (hasInfo o.type = true ∧ a = o.ptr) := by
      intro a x hx
      rw [hc] at hx
      split at hx
      · cases hx
      · exact ⟨hx, by assumption⟩
    refine ⟨?_, ?_, ?_, ?_, ?_, ?_, ?_⟩
    · intro w
      by_cases e : w = v
      · subst e
        dsimp only
        rw [setVar_self, setVar_self]
        exact ⟨fun h => (by cases h), fun h => (by cases h)⟩
      · dsimp only; rw [setVar_ne _ _ e, setVar_ne _ _ e]; exact h.dead w
    · intro w o' d' h1 h2
      by_cases e : w = v
      · subst e
        dsimp only at h1
        rw [setVar_self] at h1 h2
        cases h1; cases h2
        exact ⟨hval.1, rfl, rfl⟩
      · dsimp only at h1
        rw [setVar_ne _ _ e] at h1 h2
        obtain ⟨q1, q2, q3⟩ := h.val w o' d' h1 h2
        refine ⟨q1, q2, ?_⟩
        split at q3
        · next hi =>
          rw [if_pos hi]
          refine ⟨q3.1, ?_⟩
          dsimp only
          rw [hc, if_neg ?_]
          · exact q3.2
          · rintro ⟨-, h4⟩
            exact e (h.own w v o' o h1 ho h4 q3.1)
        · next hi => rw [if_neg hi]; exact q3
    · intro w1 w2 o1 o2 h1 h2 h3 h4
      dsimp only at h1 h2
      by_cases e1 : w1 = v
      · subst e1
        rw [setVar_self] at h1
        cases h1
        exact absurd rfl h4
      · by_cases e2 : w2 = v
        · subst e2
          rw [setVar_self] at h2
          cases h2
          exact absurd h3 h4
        · rw [setVar_ne _ _ e1] at h1
          rw [setVar_ne _ _ e2] at h2
          exact h.own w1 w2 o1 o2 h1 h2 h3 h4
    · intro a x hx
      obtain ⟨hx1, hx2⟩ := hsub a x hx
      obtain ⟨w, u, hw, hu⟩ := h.used a x hx1
      by_cases e : w = v
      · subst e
        rw [ho] at hw
        cases hw
        by_cases hi : hasInfo o.type = true
        · exact absurd ⟨hi, hu.symm⟩ hx2
        · have := hval.2.2
          rw [if_neg hi] at this
          rw [← hu, this, h.null] at hx1
          cases hx1
      · exact ⟨w, u, by dsimp only; rw [setVar_ne _ _ e]; exact hw, hu⟩
    · intro a x hx
      show a < h'.next
      rw [hn]
      exact h.fresh a x (hsub a x hx).1
    · cases hx : h'.cells 0 with
      | none => rfl
      | some x => have := (hsub 0 x hx).1; rw [h.null] at this; cases this
    · show 0 < h'.next
      rw [hn]; exact h.pos
  unfold DState.freeAdv
  rw [hoo, ok_bind]
  by_cases hi : hasInfo o.type = true
  · rw [if_pos hi]
    have hv3 := hval.2.2
    rw [if_pos hi] at hv3
    unfold Heap.delete
    rw [if_neg hv3.1]
    unfold Heap.deref
    rw [hv3.2]
    dsimp only
    rw [if_pos (by rw [beq_iff_eq]; exact hval.2.1.symm)]
    refine ⟨_, rfl, ?_, ?_, key _ rfl ?_⟩
    · dsimp only; rw [setVar_self, hval.1]
    · intro w hw; exact setVar_ne _ _ hw
    · intro a
      dsimp only
      by_cases e : a = o.ptr
      · rw [if_pos e, if_pos ⟨hi, e⟩]
      · rw [if_neg e, if_neg (fun h => e h.2)]
  · rw [if_neg hi]
    refine ⟨_, rfl, ?_, ?_, key _ rfl ?_⟩
    · dsimp only; rw [setVar_self, hval.1]
    · intro w hw; exact setVar_ne _ _ hw
    · intro a; rw [if_neg (fun h => hi h.1)]

/-- Giving an information to an object that has none. -/
theorem Owned.putAdv {σ : DState} {m : Nat → Option DebugInfo} (h : Owned σ m) {v : Nat} {d : DebugInfo} (hd : m v = some d)
    (hn : d.adv = .none) (x : AdvInfo) (hx : 1 ≤ x.rank ∧ x.rank ≤ 4) :
    ∃ τ, σ.putAdv v x = .ok τ ∧ τ.vars v = some { dir := d.dir, type := x.rank, ptr := σ.heap.next } ∧
      (∀ w, w ≠ v → τ.vars w = σ.vars w) ∧ Owned τ (setVar m v (some { d with adv := x })) := by
  obtain ⟨o, ho, hoo, hval⟩ := h.live hd
  have hi : hasInfo x.rank = true := by simp [hasInfo, hx]
  have hop : o.ptr = 0 := by
    have h2 := hval.2.2
    rw [hval.2.1, hn, if_neg (by decide)] at h2
    exact h2
  have hpos := h.pos
  unfold DState.putAdv
  rw [hoo, ok_bind]
  refine ⟨_, rfl, ?_, fun w hw => setVar_ne _ _ hw, ?_, ?_, ?_, ?_, ?_, ?_, ?_⟩
  · dsimp only [Heap.alloc]; rw [setVar_self, hval.1]
  · intro w
    by_cases e : w = v
    · subst e
      dsimp only
      rw [setVar_self, setVar_self]
      exact ⟨fun h => (by cases h), fun h => (by cases h)⟩
    · dsimp only; rw [setVar_ne _ _ e, setVar_ne _ _ e]; exact h.dead w
  · intro w o' d' h1 h2
    by_cases e : w = v
    · subst e
      dsimp only at h1
      rw [setVar_self] at h1 h2
      cases h1; cases h2
      refine ⟨hval.1, rfl, ?_⟩
      dsimp only [Heap.alloc]
      rw [if_pos hi]
      exact ⟨by omega, if_pos rfl⟩
    · dsimp only at h1
      rw [setVar_ne _ _ e] at h1 h2
      obtain ⟨q1, q2, q3⟩ := h.val w o' d' h1 h2
      refine ⟨q1, q2, ?_⟩
      split at q3
      · next hi' =>
        rw [if_pos hi']
        refine ⟨q3.1, ?_⟩
        dsimp only [Heap.alloc]
        rw [if_neg ?_]
        · exact q3.2
        · have := h.fresh _ _ q3.2
          omega
      · next hi' => rw [if_neg hi']; exact q3
  · have hlt : ∀ w u, σ.vars w = some u → u.ptr < σ.heap.next := by
      intro w u hw
      cases hmw : m w with
      | none => rw [(h.dead w).mpr hmw] at hw; cases hw
      | some e =>
        have h3 := (h.val w u e hw hmw).2.2
        split at h3
        · exact h.fresh _ _ h3.2
        · omega
    intro w1 w2 o1 o2 h1 h2 h3 h4
    dsimp only [Heap.alloc] at h1 h2
    by_cases e1 : w1 = v
    · by_cases e2 : w2 = v
      · rw [e1, e2]
      · subst e1
        rw [setVar_self] at h1
        rw [setVar_ne _ _ e2] at h2
        cases h1
        have := hlt w2 o2 h2
        dsimp only at h3
        omega
    · by_cases e2 : w2 = v
      · subst e2
        rw [setVar_self] at h2
        rw [setVar_ne _ _ e1] at h1
        cases h2
        have := hlt w1 o1 h1
        dsimp only at h3
        omega
      · rw [setVar_ne _ _ e1] at h1
        rw [setVar_ne _ _ e2] at h2
        exact h.own w1 w2 o1 o2 h1 h2 h3 h4
  · intro a y hy
    dsimp only [Heap.alloc] at hy ⊢
    by_cases ea : a = σ.heap.next
    · exact ⟨v, _, setVar_self _ _ _, ea.symm⟩
    · rw [if_neg ea] at hy
      obtain ⟨w, u, hw, hu⟩ := h.used a y hy
      by_cases e : w = v
      · subst e
        rw [ho] at hw
        cases hw
        rw [← hu, hop, h.null] at hy
        cases hy
      · exact ⟨w, u, by rw [setVar_ne _ _ e]; exact hw, hu⟩
  · intro a y hy
    dsimp only [Heap.alloc] at hy ⊢
    by_cases ea : a = σ.heap.next
    · omega
    · rw [if_neg ea] at hy
      have := h.fresh a y hy
      omega
  · dsimp only [Heap.alloc]
    rw [if_neg (by omega)]
    exact h.null
  · dsimp only [Heap.alloc]
    omega

/-- Other plain fields, or a new object without information. -/
theorem Owned.putPlain {σ : DState} {m : Nat → Option DebugInfo} (h : Owned σ m) (v : Nat) (o : DObj) (d : DebugInfo)
    (hv : ObjVal σ.heap o d) (hp : o.ptr = 0 ∨ ∃ u, σ.vars v = some u ∧ u.ptr = o.ptr)
    (hu : ∀ u, σ.vars v = some u → u.ptr = o.ptr ∨ u.ptr = 0) :
    Owned { σ with vars := setVar σ.vars v (some o) } (setVar m v (some d)) := by
  refine ⟨?_, ?_, ?_, ?_, h.fresh, h.null, h.pos⟩
  · intro w
    by_cases e : w = v
    · subst e
      dsimp only
      rw [setVar_self, setVar_self]
      exact ⟨fun h => (by cases h), fun h => (by cases h)⟩
    · dsimp only; rw [setVar_ne _ _ e, setVar_ne _ _ e]; exact h.dead w
  · intro w o' d' h1 h2
    by_cases e : w = v
    · subst e
      dsimp only at h1
      rw [setVar_self] at h1 h2
      cases h1; cases h2
      exact hv
    · dsimp only at h1
      rw [setVar_ne _ _ e] at h1 h2
      exact h.val w o' d' h1 h2
  · intro w1 w2 o1 o2 h1 h2 h3 h4
    dsimp only at h1 h2
    by_cases e1 : w1 = v
    · by_cases e2 : w2 = v
      · rw [e1, e2]
      · subst e1
        rw [setVar_self] at h1
        rw [setVar_ne _ _ e2] at h2
        cases h1
        rcases hp with hp | ⟨u, hu1, hu2⟩
        · exact absurd hp h4
        · exact h.own w1 w2 u o2 hu1 h2 (hu2.trans h3) (by rw [hu2]; exact h4)
    · by_cases e2 : w2 = v
      · subst e2
        rw [setVar_self] at h2
        rw [setVar_ne _ _ e1] at h1
        cases h2
        rcases hp with hp | ⟨u, hu1, hu2⟩
        · exact absurd (h3.trans hp) h4
        · exact h.own w1 w2 o1 u h1 hu1 (h3.trans hu2.symm) h4
      · rw [setVar_ne _ _ e1] at h1
        rw [setVar_ne _ _ e2] at h2
        exact h.own w1 w2 o1 o2 h1 h2 h3 h4
  · intro a y hy
    obtain ⟨w, u, hw, hu'⟩ := h.used a y hy
    by_cases e : w = v
    · subst e
      rcases hu u hw with h5 | h5
      · exact ⟨w, o, setVar_self _ _ _, h5.symm.trans hu'⟩
      · rw [← hu', h5, h.null] at hy
        cases hy
    · exact ⟨w, u, by dsimp only; rw [setVar_ne _ _ e]; exact hw, hu'⟩

theorem hasInfo_rank {x : AdvInfo} (h : hasInfo x.rank = true) : 1 ≤ x.rank ∧ x.rank ≤ 4 := by
  unfold hasInfo at h
  rw [Bool.and_eq_true] at h
  exact ⟨of_decide_eq_true h.1, of_decide_eq_true h.2⟩

theorem eq_none_of_rank {x : AdvInfo} (h : x.rank = 0) : x = .none := by cases x <;> first | rfl | cases h

theorem putType_noop {σ : DState} {v : Nat} {o : DObj} (hv : σ.vars v = some o) : σ.putType v o.type = .ok σ := by
  unfold DState.putType DState.obj
  rw [hv]
  show Except.ok _ = _
  refine congrArg Except.ok ?_
  rw [setVar_same _ _ _ hv]

/-- Copying the information of one living object into another one (or the same). -/
theorem Owned.copyAdv {σ : DState} {m : Nat → Option DebugInfo} (h : Owned σ m) {v w : Nat} {d e : DebugInfo}
    (hd : m v = some d) (he : m w = some e) :
    ∃ τ, σ.copyAdv v w = .ok τ ∧
      Owned τ (setVar m v (some { d with adv := if v = w then .none else e.adv })) := by
  obtain ⟨τ, h1, h2, h3, h4⟩ := h.freeAdv hd
  obtain ⟨f, hf1, hf2⟩ : ∃ f, setVar m v (some { d with adv := .none }) w = some f ∧ f.adv = if v = w then .none else e.adv := by
    by_cases hvw : v = w
    · subst hvw
      exact ⟨_, setVar_self _ _ _, by rw [if_pos rfl]⟩
    · exact ⟨e, by rw [setVar_ne _ _ (fun h => hvw h.symm)]; exact he, by rw [if_neg hvw]⟩
  rw [← hf2]
  obtain ⟨i, hi1, hi2, hi3⟩ := h4.live hf1
  have hmv : setVar m v (some { d with adv := .none }) v = some { d with adv := .none } := setVar_self _ _ _
  unfold DState.copyAdv
  rw [h1, ok_bind, hi2, ok_bind]
  by_cases hh : hasInfo i.type = true
  · rw [if_pos hh]
    have h5 := hi3.2.2
    rw [if_pos hh] at h5
    have hder : τ.heap.deref (fun x => x.rank == i.type) i.ptr = .ok f.adv := by
      unfold Heap.deref
      rw [h5.2]
      dsimp only
      rw [if_pos (by rw [beq_iff_eq]; exact hi3.2.1.symm)]
    have hvw : w ≠ v := by
      intro e1
      subst e1
      rw [if_pos rfl] at hf2
      rw [hi3.2.1, hf2] at hh
      exact absurd hh (by decide)
    obtain ⟨ρ, p1, p2, p3, p4⟩ := h4.putAdv hmv rfl f.adv (hasInfo_rank (by rw [← hi3.2.1]; exact hh))
    rw [hder, ok_bind, p1, ok_bind]
    have hi' : ρ.obj w = .ok i := by
      unfold DState.obj
      rw [p3 w hvw, hi1]
    rw [hi', ok_bind, hi3.2.1]
    refine ⟨ρ, putType_noop p2, ?_⟩
    rw [setVar_setVar] at p4
    exact p4
  · rw [if_neg hh]
    have hov : τ.obj v = .ok { dir := d.dir, type := 0, ptr := 0 } := by unfold DState.obj; rw [h2]
    unfold DState.putType
    rw [hov, ok_bind]
    refine ⟨_, rfl, ?_⟩
    have := h4.putPlain v { dir := d.dir, type := i.type, ptr := 0 } { d with adv := f.adv } ⟨rfl, hi3.2.1, by rw [if_neg hh]⟩ (.inl rfl)
      (fun u hu => by rw [h2] at hu; cases hu; exact .inl rfl)
    rw [setVar_setVar] at this
    exact this

/-- One step of a program keeps the invariant. -/
theorem Owned.step {σ : DState} {m : Nat → Option DebugInfo} (h : Owned σ m) (op : DOp)
    (hl : Lives (fun v => (m v).isSome) [op]) : ∃ τ, σ.step op = .ok τ ∧ Owned τ (realStep m op) := by
  cases op with
  | make v dir =>
    have hm : m v = none := by have := hl.1; dsimp only at this; cases hm : m v with | none => rfl | some x => rw [hm] at this; cases this
    exact ⟨_, rfl, h.putPlain v { dir := dir } { dir := dir, adv := .none } ⟨rfl, rfl, rfl⟩ (.inl rfl)
      (fun u hu => by rw [(h.dead v).mpr hm] at hu; cases hu)⟩
  | copy v w =>
    have hm : m v = none := by have := hl.1; dsimp only at this; cases hm : m v with | none => rfl | some x => rw [hm] at this; cases this
    obtain ⟨e, he⟩ := Option.isSome_iff_exists.mp hl.2.1
    obtain ⟨i, hi1, hi2, hi3⟩ := h.live he
    unfold DState.step
    dsimp only
    rw [hi2, ok_bind]
    -- the type of the new object is set, but there is nothing to release
    have hvw : w ≠ v := by rintro rfl; rw [hm] at he; cases he
    have hσ : (DState.mk σ.heap (setVar σ.vars v (some { dir := i.dir, type := i.type }))).copyAdv v w =
        (DState.mk σ.heap (setVar σ.vars v (some { dir := i.dir }))).copyAdv v w := by
      unfold DState.copyAdv
      refine congrArg (fun x => x >>= _) ?_
      unfold DState.freeAdv DState.obj
      dsimp only
      rw [setVar_self, setVar_self]
      dsimp only
      have e1 : σ.heap.delete (fun x => x.rank == i.type) 0 = .ok σ.heap := by unfold Heap.delete; rw [if_pos rfl]
      have e2 : hasInfo 0 = false := by decide
      simp only [ok_bind, setVar_setVar, e1, ite_self, e2, Bool.false_eq_true, if_false]
    rw [hσ]
    have h0 := h.putPlain v { dir := i.dir } { dir := i.dir, adv := .none } ⟨rfl, rfl, rfl⟩ (.inl rfl)
      (fun u hu => by rw [(h.dead v).mpr hm] at hu; cases hu)
    obtain ⟨τ, q1, q2⟩ := h0.copyAdv (v := v) (w := w) (setVar_self _ _ _) (by rw [setVar_ne _ _ hvw]; exact he)
    refine ⟨τ, q1, ?_⟩
    rw [setVar_setVar, if_neg (fun h => hvw h.symm)] at q2
    show Owned τ (setVar m v (m w))
    rw [he]
    have e2 : ({ dir := i.dir, adv := e.adv } : DebugInfo) = e := by rw [hi3.1]
    rw [e2] at q2
    exact q2
  | assign v w =>
    obtain ⟨d, hd⟩ := Option.isSome_iff_exists.mp hl.1
    obtain ⟨e, he⟩ := Option.isSome_iff_exists.mp hl.2.1
    obtain ⟨τ, q1, q2⟩ := h.copyAdv hd he
    unfold DState.step
    dsimp only
    rw [q1, ok_bind]
    -- the value of `w` now
    obtain ⟨f, hf1, hf2, hf3⟩ : ∃ f, setVar m v (some { d with adv := if v = w then .none else e.adv }) w = some f ∧
        f.dir = e.dir ∧ f.adv = if v = w then .none else e.adv := by
      by_cases hvw : v = w
      · subst hvw
        rw [hd] at he
        cases he
        exact ⟨_, setVar_self _ _ _, rfl, rfl⟩
      · exact ⟨e, by rw [setVar_ne _ _ (fun h => hvw h.symm)]; exact he, rfl, by rw [if_neg hvw]⟩
    obtain ⟨i, hi1, hi2, hi3⟩ := q2.live hf1
    obtain ⟨o, ho1, ho2, ho3⟩ := q2.live (setVar_self _ _ _)
    rw [hi2, ok_bind]
    unfold DState.putDir
    rw [ho2, ok_bind, ok_bind]
    have hty : i.type = o.type := by rw [hi3.2.1, ho3.2.1, hf3]
    have h6 := q2.putPlain v { o with dir := i.dir } { dir := e.dir, adv := if v = w then .none else e.adv }
      ⟨hi3.1.trans hf2, ho3.2.1, ho3.2.2⟩ (.inr ⟨o, ho1, rfl⟩) (fun u hu => by rw [ho1] at hu; cases hu; exact .inl rfl)
    refine ⟨{ τ with vars := setVar τ.vars v (some { o with dir := i.dir }) }, ?_, ?_⟩
    · rw [hty]
      exact putType_noop (o := { o with dir := i.dir }) (setVar_self _ _ _)
    · rw [setVar_setVar] at h6
      show Owned _ (setVar m v (if v = w then (m v).map fun d => { d with adv := .none } else m w))
      by_cases hvw : v = w
      · subst hvw
        rw [hd] at he
        cases he
        rw [if_pos rfl] at h6 ⊢
        rw [hd]
        exact h6
      · rw [if_neg hvw] at h6 ⊢
        rw [he]
        exact h6
  | set v x =>
    obtain ⟨d, hd⟩ := Option.isSome_iff_exists.mp hl.1
    obtain ⟨τ, h1, h2, h3, h4⟩ := h.freeAdv hd
    obtain ⟨ρ, p1, p2, p3, p4⟩ := h4.putAdv (setVar_self _ _ _) rfl x hl.2.1
    unfold DState.step
    dsimp only
    rw [h1, ok_bind]
    refine ⟨ρ, p1, ?_⟩
    rw [setVar_setVar] at p4
    show Owned ρ (setVar m v ((m v).map fun d => { d with adv := x }))
    rw [hd]
    exact p4
  | setType v t =>
    obtain ⟨d, hd⟩ := Option.isSome_iff_exists.mp hl.1
    obtain ⟨τ, h1, h2, h3, h4⟩ := h.freeAdv hd
    unfold DState.step
    dsimp only
    have hov : τ.obj v = .ok { dir := d.dir, type := 0, ptr := 0 } := by unfold DState.obj; rw [h2]
    rw [h1, ok_bind, hov, ok_bind]
    refine ⟨τ, if_neg (by show ¬ (0 ≥ 5); decide), ?_⟩
    show Owned τ (setVar m v ((m v).map fun d => { d with adv := .none }))
    rw [hd]
    exact h4
  | destroy v =>
    obtain ⟨d, hd⟩ := Option.isSome_iff_exists.mp hl.1
    obtain ⟨τ, h1, h2, h3, h4⟩ := h.freeAdv hd
    unfold DState.step
    dsimp only
    rw [h1, ok_bind]
    refine ⟨_, rfl, ?_, ?_, ?_, ?_, h4.fresh, h4.null, h4.pos⟩
    · intro w
      show setVar τ.vars v none w = none ↔ setVar m v none w = none
      by_cases e : w = v
      · subst e; rw [setVar_self, setVar_self]; exact ⟨fun _ => rfl, fun _ => rfl⟩
      · rw [setVar_ne _ _ e, setVar_ne _ _ e]
        have := h4.dead w
        rw [setVar_ne _ _ e] at this
        exact this
    · intro w o' d' q1 q2
      change setVar τ.vars v none w = some o' at q1
      change setVar m v none w = some d' at q2
      by_cases e : w = v
      · subst e; rw [setVar_self] at q1; cases q1
      · rw [setVar_ne _ _ e] at q1 q2
        exact h4.val w o' d' q1 (by rw [setVar_ne _ _ e]; exact q2)
    · intro w1 w2 o1 o2 q1 q2
      change setVar τ.vars v none w1 = some o1 at q1
      change setVar τ.vars v none w2 = some o2 at q2
      by_cases e1 : w1 = v
      · subst e1; rw [setVar_self] at q1; cases q1
      by_cases e2 : w2 = v
      · subst e2; rw [setVar_self] at q2; cases q2
      rw [setVar_ne _ _ e1] at q1
      rw [setVar_ne _ _ e2] at q2
      exact h4.own w1 w2 o1 o2 q1 q2
    · intro a x hx
      obtain ⟨w, u, hw, hu⟩ := h4.used a x hx
      by_cases e : w = v
      · subst e
        rw [h2] at hw
        cases hw
        change τ.heap.cells a = some x at hx
        rw [← hu, h4.null] at hx
        cases hx
      · exact ⟨w, u, by show setVar τ.vars v none w = _; rw [setVar_ne _ _ e]; exact hw, hu⟩

theorem isSome_setVar (m : Nat → Option DebugInfo) (v : Nat) (x : Option DebugInfo) :
    (fun w => (setVar m v x w).isSome) = fun w => if w = v then x.isSome else (m w).isSome := by
  funext w
  unfold setVar
  split <;> rfl

theorem live_of_same (m : Nat → Option DebugInfo) (v : Nat) (hv : (m v).isSome = true) :
    (fun w => if w = v then true else (m w).isSome) = fun w => (m w).isSome := by
  funext w
  split
  · next e => subst e; exact hv.symm
  · rfl

/-- Splitting off the first step. -/
theorem Lives.cons {m : Nat → Option DebugInfo} {op : DOp} {l : List DOp} (h : Lives (fun v => (m v).isSome) (op :: l)) :
    Lives (fun v => (m v).isSome) [op] ∧ Lives (fun v => (realStep m op v).isSome) l := by
  cases op with
  | make v dir =>
    refine ⟨⟨h.1, trivial⟩, ?_⟩
    show Lives (fun w => (setVar m v _ w).isSome) l
    rw [isSome_setVar]; exact h.2
  | copy v w =>
    refine ⟨⟨h.1, h.2.1, trivial⟩, ?_⟩
    show Lives (fun w' => (setVar m v (m w) w').isSome) l
    rw [isSome_setVar, show (m w).isSome = true from h.2.1]; exact h.2.2
  | assign v w =>
    refine ⟨⟨h.1, h.2.1, trivial⟩, ?_⟩
    show Lives (fun w' => (setVar m v (if v = w then (m v).map fun d => { d with adv := .none } else m w) w').isSome) l
    have e : (if v = w then (m v).map fun d => ({ d with adv := .none } : DebugInfo) else m w).isSome = true := by
      split
      · rw [Option.isSome_map]; exact h.1
      · exact h.2.1
    rw [isSome_setVar, e, live_of_same m v h.1]; exact h.2.2
  | set v x =>
    refine ⟨⟨h.1, h.2.1, trivial⟩, ?_⟩
    show Lives (fun w' => (setVar m v ((m v).map fun d => { d with adv := x }) w').isSome) l
    rw [isSome_setVar, Option.isSome_map, show (m v).isSome = true from h.1, live_of_same m v h.1]; exact h.2.2
  | setType v t =>
    refine ⟨⟨h.1, trivial⟩, ?_⟩
    show Lives (fun w' => (setVar m v ((m v).map fun d => { d with adv := .none }) w').isSome) l
    rw [isSome_setVar, Option.isSome_map, show (m v).isSome = true from h.1, live_of_same m v h.1]; exact h.2
  | destroy v =>
    refine ⟨⟨h.1, trivial⟩, ?_⟩
    show Lives (fun w' => (setVar m v none w').isSome) l
    rw [isSome_setVar]; exact h.2

theorem Owned.run {l : List DOp} : ∀ {σ : DState} {m : Nat → Option DebugInfo}, Owned σ m →
    Lives (fun v => (m v).isSome) l → ∃ τ, σ.run l = .ok τ ∧ Owned τ (realRun m l) := by
  induction l with
  | nil => intro σ m h _; exact ⟨σ, rfl, h⟩
  | cons op l ih =>
    intro σ m h hl
    obtain ⟨h1, h2⟩ := hl.cons
    obtain ⟨τ, q1, q2⟩ := h.step op h1
    obtain ⟨ρ, r1, r2⟩ := ih q2 h2
    refine ⟨ρ, ?_, r2⟩
    rw [DState.run, q1, ok_bind]
    exact r1

theorem realRun_noSelf (l : List DOp) (hn : NoSelf l) (m : Nat → Option DebugInfo) : realRun m l = valuesRun m l := by
  induction l generalizing m with
  | nil => rfl
  | cons op l ih =>
    show realRun (realStep m op) l = valuesRun (valuesStep m op) l
    have e : realStep m op = valuesStep m op := by
      cases op with
      | assign v w =>
        have : v ≠ w := by rintro rfl; exact hn v (by simp)
        show setVar m v (if v = w then _ else _) = setVar m v (m w)
        rw [if_neg this]
      | _ => rfl
    rw [e]
    exact ih (fun v hv => hn v (by simp [hv])) _

/-- What can be observed of an object, for the value it stands for. -/
theorem Owned.observe {σ : DState} {m : Nat → Option DebugInfo} (h : Owned σ m) {v : Nat} {d : DebugInfo} (hd : m v = some d) :
    σ.typeOf v = .ok d.adv.rank ∧ (∀ r, 1 ≤ r → r ≤ 4 → σ.get r v = if d.adv.rank = r then .ok d.adv
      else throwE .advancedDebugInformationRequestError) ∧ ∃ o, σ.vars v = some o ∧ o.dir = d.dir := by
  obtain ⟨o, h1, h2, h3⟩ := h.live hd
  refine ⟨?_, ?_, o, h1, h3.1⟩
  · unfold DState.typeOf; rw [h2, ok_bind, h3.2.1]
  · intro r hr1 hr2
    unfold DState.get
    rw [h2, ok_bind, h3.2.1]
    by_cases e : d.adv.rank = r
    · rw [if_neg (fun h => h e), if_pos e]
      have h4 := h3.2.2
      rw [h3.2.1, e, if_pos (by simp [hasInfo, hr1, hr2])] at h4
      unfold Heap.deref
      rw [h4.2]
      dsimp only
      rw [if_pos (by rw [beq_iff_eq]; exact e)]
    · rw [if_pos e, if_neg e]

/-- C77: debug information objects are values. In every program that respects the lifetimes of its objects and assigns no
    object to itself, no object is used or released after its release; every object shows the fields and
    the information that were set or copied, copies being independent of their originals; and memory is owned by exactly
    the living objects, so nothing is left when all of them are destroyed. -/
theorem C77_values (l : List DOp) (hl : Lives (fun _ => false) l) (hn : NoSelf l) :
    ∃ τ, DState.run {} l = .ok τ ∧
      (∀ v, τ.vars v = none ↔ valuesRun (fun _ => none) l v = none) ∧
      (∀ v d, valuesRun (fun _ => none) l v = some d → τ.typeOf v = .ok d.adv.rank ∧
        (∀ r, 1 ≤ r → r ≤ 4 → τ.get r v = if d.adv.rank = r then .ok d.adv
          else throwE .advancedDebugInformationRequestError) ∧ ∃ o, τ.vars v = some o ∧ o.dir = d.dir) ∧
      ((∀ v, valuesRun (fun _ => none) l v = none) → ∀ a, τ.heap.cells a = none) := by
  obtain ⟨τ, h1, h2⟩ := Owned.run (m := fun _ => none) owned_empty hl
  rw [realRun_noSelf l hn] at h2
  refine ⟨τ, h1, h2.dead, fun v d hd => h2.observe hd, fun hall a => ?_⟩
  cases hx : τ.heap.cells a with
  | none => rfl
  | some x =>
    obtain ⟨v, o, hv, -⟩ := h2.used a x hx
    rw [(h2.dead v).mpr (hall v)] at hv
    cases hv

/-- C77: with assignments of objects to themselves nothing is used after its release either, and nothing is lost from
    memory. -/
theorem C77_safe (l : List DOp) (hl : Lives (fun _ => false) l) : ∃ τ, DState.run {} l = .ok τ ∧
    (∀ v w o u, τ.vars v = some o → τ.vars w = some u → o.ptr = u.ptr → o.ptr ≠ 0 → v = w) ∧
    ∀ a x, τ.heap.cells a = some x → ∃ v o, τ.vars v = some o ∧ o.ptr = a := by
  obtain ⟨τ, h1, h2⟩ := Owned.run (m := fun _ => none) owned_empty hl
  exact ⟨τ, h1, h2.own, h2.used⟩

/-- The limit of C77: the assignment of an object to itself loses the information. -/
theorem C77_self_assignment : ∃ (l : List DOp) (τ : DState), Lives (fun _ => false) l ∧ DState.run {} l = .ok τ ∧
    τ.typeOf 0 = .ok 0 ∧ ∃ d, valuesRun (fun _ => none) l 0 = some d ∧ d.adv = .pdb20 1 2 [3] :=
  ⟨[.make 0 [], .set 0 (.pdb20 1 2 [3]), .assign 0 0], _, ⟨rfl, rfl, ⟨by decide, by decide⟩, rfl, rfl, trivial⟩, rfl, rfl, _, rfl, rfl⟩

/-- A program with copies, assignments and a change of the original after copying. -/
def objDemo : List DOp :=
  [.make 0 [1], .set 0 (.pdb20 1 2 [3]), .copy 1 0, .set 0 (.misc 1 (.ansi [65])), .make 2 [2], .assign 2 1, .destroy 1]

example : Lives (fun _ => false) objDemo ∧ NoSelf objDemo ∧ ∃ τ, DState.run {} objDemo = .ok τ ∧
    τ.get 2 2 = .ok (.pdb20 1 2 [3]) ∧ τ.get 3 0 = .ok (.misc 1 (.ansi [65])) ∧ τ.vars 1 = none := by
  refine ⟨by unfold objDemo; exact ⟨rfl, rfl, ⟨by decide, by decide⟩, rfl, rfl, rfl, ⟨by decide, by decide⟩, rfl, rfl, rfl, rfl, trivial⟩, ?_, _, rfl, rfl, rfl, rfl⟩
  intro v hv
  simp [objDemo] at hv
  omega

/-! ### C78: `pe_base` -/

/-- The program respects the lifetimes of its images and assigns no image to itself. -/
def PLives (live : Nat → Bool) : List POp → Prop
  | [] => True
  | .make v _ :: l => live v = false ∧ PLives (fun x => if x = v then true else live x) l
  | .fail _ :: l => PLives live l
  | .copy v w :: l => live v = false ∧ live w = true ∧ PLives (fun x => if x = v then true else live x) l
  | .assign v w :: l => live v = true ∧ live w = true ∧ v ≠ w ∧ PLives live l
  | .edit v _ :: l => live v = true ∧ PLives live l
  | .destroy v :: l => live v = true ∧ PLives (fun x => if x = v then false else live x) l

/-- The meaning of a program in which images are values. -/
def imagesStep (m : Nat → Option Image) : POp → Nat → Option Image
  | .make v p => setVar m v (some p)
  | .fail _ => m
  | .copy v w => setVar m v (m w)
  | .assign v w => setVar m v (m w)
  | .edit v g => setVar m v ((m v).map g)
  | .destroy v => setVar m v none

def imagesRun (m : Nat → Option Image) (l : List POp) : Nat → Option Image := l.foldl imagesStep m

/-- The invariant; `lost` says which addresses are owned by nobody. -/
structure POwned (σ : PState) (m : Nat → Option Image) (lost : Nat) : Prop where
  dead : ∀ v, σ.vars v = none ↔ m v = none
  val : ∀ v o p, σ.vars v = some o → m v = some p → o.props ≠ 0 ∧ ∃ c, σ.heap.cells o.props = some c ∧ o.rest.withProps c = p
  own : ∀ v w o u, σ.vars v = some o → σ.vars w = some u → o.props = u.props → v = w
  used : ∃ L : List Nat, L.length = lost ∧ ∀ a c, σ.heap.cells a = some c → a ∈ L ∨ ∃ v o, σ.vars v = some o ∧ o.props = a
  fresh : ∀ a c, σ.heap.cells a = some c → a < σ.heap.next
  null : σ.heap.cells 0 = none
  pos : 0 < σ.heap.next

theorem powned_empty : POwned {} (fun _ => none) 0 := by
  constructor
  · intro v; exact ⟨fun _ => rfl, fun _ => rfl⟩
  · intro v o d h; cases h
  · intro v w o u h; cases h
  · exact ⟨[], rfl, fun a c h => by cases h⟩
  · intro a x h; cases h
  · rfl
  · decide

theorem withProps_self (p : Image) : p.withProps (p.kind, p.nt) = p := rfl

/-- The number of constructors that failed. -/
def failures : List POp → Nat
  | [] => 0
  | .fail _ :: l => failures l + 1
  | _ :: l => failures l

section
variable {σ : PState} {m : Nat → Option Image} {n : Nat}

theorem POwned.live (h : POwned σ m n) {v : Nat} {p : Image} (hp : m v = some p) :
    ∃ o c, σ.vars v = some o ∧ σ.obj v = .ok o ∧ o.props ≠ 0 ∧ σ.heap.cells o.props = some c ∧ o.rest.withProps c = p ∧
      σ.heap.deref (fun _ => true) o.props = .ok c := by
  cases hv : σ.vars v with
  | none => rw [(h.dead v).mp hv] at hp; cases hp
  | some o =>
    obtain ⟨h1, c, h2, h3⟩ := h.val v o p hv hp
    refine ⟨o, c, rfl, by unfold PState.obj; rw [hv], h1, h2, h3, ?_⟩
    unfold Heap.deref; rw [h2]; rfl

/-- Destroying an image. -/
theorem POwned.drop (h : POwned σ m n) {v : Nat} {p : Image} (hp : m v = some p) :
    ∃ o τh, σ.obj v = .ok o ∧ σ.heap.delete (fun _ => true) o.props = .ok τh ∧
      POwned { heap := τh, vars := setVar σ.vars v none } (setVar m v none) n := by
  obtain ⟨o, c, h1, h2, h3, h4, h5, h6⟩ := h.live hp
  refine ⟨o, { σ.heap with cells := fun b => if b = o.props then none else σ.heap.cells b }, h2,
    by unfold Heap.delete; rw [if_neg h3, h6]; rfl, ?_, ?_, ?_, ?_, ?_, ?_, h.pos⟩
  · intro w
    dsimp only
    by_cases e : w = v
    · subst e; rw [setVar_self, setVar_self]; exact ⟨fun _ => rfl, fun _ => rfl⟩
    · rw [setVar_ne _ _ e, setVar_ne _ _ e]; exact h.dead w
  · intro w o' p' q1 q2
    dsimp only at q1 ⊢
    by_cases e : w = v
    · subst e; rw [setVar_self] at q1; cases q1
    · rw [setVar_ne _ _ e] at q1 q2
      obtain ⟨r1, c', r2, r3⟩ := h.val w o' p' q1 q2
      refine ⟨r1, c', ?_, r3⟩
      rw [if_neg ?_]
      · exact r2
      · intro e'
        exact e (h.own w v o' o q1 h1 e')
  · intro w1 w2 o1 o2 q1 q2
    dsimp only at q1 q2
    by_cases e1 : w1 = v
    · subst e1; rw [setVar_self] at q1; cases q1
    by_cases e2 : w2 = v
    · subst e2; rw [setVar_self] at q2; cases q2
    rw [setVar_ne _ _ e1] at q1
    rw [setVar_ne _ _ e2] at q2
    exact h.own w1 w2 o1 o2 q1 q2
  · obtain ⟨L, hL, hu⟩ := h.used
    refine ⟨L, hL, fun a x hx => ?_⟩
    dsimp only at hx ⊢
    split at hx
    · cases hx
    · next ea =>
      rcases hu a x hx with hl | ⟨w, u, hw, hu'⟩
      · exact .inl hl
      · refine .inr ⟨w, u, ?_, hu'⟩
        have e : w ≠ v := by
          rintro rfl
          rw [h1] at hw
          cases hw
          exact ea hu'.symm
        rw [setVar_ne _ _ e]; exact hw
  · intro a x hx
    dsimp only at hx ⊢
    split at hx
    · cases hx
    · exact h.fresh a x hx
  · dsimp only
    rw [if_neg (fun e => h3 e.symm)]
    exact h.null

/-- A new image with its own properties. -/
theorem POwned.add (h : POwned σ m n) {v : Nat} (hv : m v = none) (r : Image) (c : Props) :
    POwned { heap := (σ.heap.alloc c).2, vars := setVar σ.vars v (some { rest := r, props := σ.heap.next }) }
      (setVar m v (some (r.withProps c))) n := by
  have hpos := h.pos
  refine ⟨?_, ?_, ?_, ?_, ?_, ?_, ?_⟩
  · intro w
    dsimp only
    by_cases e : w = v
    · subst e; rw [setVar_self, setVar_self]; exact ⟨fun h => (by cases h), fun h => (by cases h)⟩
    · rw [setVar_ne _ _ e, setVar_ne _ _ e]; exact h.dead w
  · intro w o' p' q1 q2
    dsimp only [Heap.alloc] at q1 ⊢
    by_cases e : w = v
    · subst e
      rw [setVar_self] at q1 q2
      cases q1; cases q2
      exact ⟨by dsimp only; omega, c, if_pos rfl, rfl⟩
    · rw [setVar_ne _ _ e] at q1 q2
      obtain ⟨r1, c', r2, r3⟩ := h.val w o' p' q1 q2
      refine ⟨r1, c', ?_, r3⟩
      have := h.fresh _ _ r2
      rw [if_neg (by omega)]
      exact r2
  · have hlt : ∀ w u, σ.vars w = some u → u.props < σ.heap.next := by
      intro w u hw
      cases hmw : m w with
      | none => rw [(h.dead w).mpr hmw] at hw; cases hw
      | some e =>
        obtain ⟨-, c', h3, -⟩ := h.val w u e hw hmw
        exact h.fresh _ _ h3
    intro w1 w2 o1 o2 q1 q2 q3
    dsimp only at q1 q2
    by_cases e1 : w1 = v
    · by_cases e2 : w2 = v
      · rw [e1, e2]
      · subst e1
        rw [setVar_self] at q1
        rw [setVar_ne _ _ e2] at q2
        cases q1
        have := hlt w2 o2 q2
        dsimp only at q3
        omega
    · by_cases e2 : w2 = v
      · subst e2
        rw [setVar_self] at q2
        rw [setVar_ne _ _ e1] at q1
        cases q2
        have := hlt w1 o1 q1
        dsimp only at q3
        omega
      · rw [setVar_ne _ _ e1] at q1
        rw [setVar_ne _ _ e2] at q2
        exact h.own w1 w2 o1 o2 q1 q2 q3
  · obtain ⟨L, hL, hu⟩ := h.used
    refine ⟨L, hL, fun a x hx => ?_⟩
    dsimp only [Heap.alloc] at hx ⊢
    by_cases ea : a = σ.heap.next
    · exact .inr ⟨v, _, setVar_self _ _ _, ea.symm⟩
    · rw [if_neg ea] at hx
      rcases hu a x hx with hl | ⟨w, u, hw, hu'⟩
      · exact .inl hl
      · refine .inr ⟨w, u, ?_, hu'⟩
        have e : w ≠ v := by
          rintro rfl
          rw [(h.dead w).mpr hv] at hw
          cases hw
        rw [setVar_ne _ _ e]; exact hw
  · intro a x hx
    dsimp only [Heap.alloc] at hx ⊢
    by_cases ea : a = σ.heap.next
    · omega
    · rw [if_neg ea] at hx
      have := h.fresh a x hx
      omega
  · dsimp only [Heap.alloc]
    rw [if_neg (by omega)]
    exact h.null
  · dsimp only [Heap.alloc]
    omega

theorem POwned.step (h : POwned σ m n) (op : POp) (hl : PLives (fun v => (m v).isSome) [op]) :
    ∃ τ, σ.step op = .ok τ ∧ POwned τ (imagesStep m op) (n + failures [op]) := by
  have dead_of : ∀ {v : Nat}, (m v).isSome = false → m v = none := by
    intro v hv
    cases hm : m v with
    | none => rfl
    | some x => rw [hm] at hv; cases hv
  cases op with
  | make v p => exact ⟨_, rfl, h.add (dead_of hl.1) p (p.kind, p.nt)⟩
  | fail p =>
    refine ⟨_, rfl, h.dead, ?_, h.own, ?_, ?_, ?_, ?_⟩
    · intro w o' p' q1 q2
      dsimp only [Heap.alloc]
      obtain ⟨r1, c', r2, r3⟩ := h.val w o' p' q1 q2
      refine ⟨r1, c', ?_, r3⟩
      have := h.fresh _ _ r2
      rw [if_neg (by omega)]
      exact r2
    · obtain ⟨L, hL, hu⟩ := h.used
      refine ⟨σ.heap.next :: L, by rw [List.length_cons, hL]; rfl, fun a x hx => ?_⟩
      dsimp only [Heap.alloc] at hx
      by_cases ea : a = σ.heap.next
      · exact .inl (by rw [ea]; exact List.mem_cons_self)
      · rw [if_neg ea] at hx
        rcases hu a x hx with hl | hr
        · exact .inl (List.mem_cons_of_mem _ hl)
        · exact .inr hr
    · intro a x hx
      dsimp only [Heap.alloc] at hx ⊢
      by_cases ea : a = σ.heap.next
      · omega
      · rw [if_neg ea] at hx
        have := h.fresh a x hx
        omega
    · have := h.pos
      dsimp only [Heap.alloc]
      rw [if_neg (by omega)]
      exact h.null
    · dsimp only [Heap.alloc]
      omega
  | copy v w =>
    obtain ⟨p, hp⟩ := Option.isSome_iff_exists.mp hl.2.1
    obtain ⟨o, c, h1, h2, h3, h4, h5, h6⟩ := h.live hp
    unfold PState.step
    dsimp only
    rw [h2, ok_bind, h6, ok_bind]
    refine ⟨_, rfl, ?_⟩
    show POwned _ (setVar m v (m w)) _
    rw [hp, ← h5]
    exact h.add (dead_of hl.1) o.rest c
  | assign v w =>
    obtain ⟨p, hp⟩ := Option.isSome_iff_exists.mp hl.1
    obtain ⟨q, hq⟩ := Option.isSome_iff_exists.mp hl.2.1
    have hvw : v ≠ w := hl.2.2.1
    obtain ⟨o, τh, d1, d2, d3⟩ := h.drop hp
    obtain ⟨i, c, h1, h2, h3, h4, h5, h6⟩ := h.live hq
    have hwv : w ≠ v := fun e => hvw e.symm
    obtain ⟨i', c', k1, k2, k3, k4, k5, k6⟩ := d3.live (v := w) (p := q) (by rw [setVar_ne _ _ hwv]; exact hq)
    dsimp only at k1 k4 k6
    rw [setVar_ne _ _ hwv, h1] at k1
    obtain rfl := Option.some.inj k1
    unfold PState.step
    dsimp only
    rw [d1, ok_bind, h2, ok_bind, d2, ok_bind]
    have e1 : PState.obj { heap := τh, vars := setVar σ.vars v (some { rest := i.rest, props := 0 }) } w = .ok i := by
      unfold PState.obj
      dsimp only
      rw [setVar_ne _ _ hwv, h1]
    have e2 : PState.obj { heap := τh, vars := setVar σ.vars v (some { rest := i.rest, props := 0 }) } v =
        .ok { rest := i.rest, props := 0 } := by
      unfold PState.obj
      dsimp only
      rw [setVar_self]
    rw [e1, ok_bind, k6, ok_bind, e2, ok_bind]
    refine ⟨_, rfl, ?_⟩
    rw [setVar_setVar]
    show POwned _ (setVar m v (m w)) _
    have := d3.add (v := v) (setVar_self _ _ _) i.rest c'
    rw [setVar_setVar, setVar_setVar, k5] at this
    rw [hq]
    exact this
  | edit v g =>
    obtain ⟨p, hp⟩ := Option.isSome_iff_exists.mp hl.1
    obtain ⟨o, c, h1, h2, h3, h4, h5, h6⟩ := h.live hp
    unfold PState.step
    dsimp only
    rw [h2, ok_bind, h6, ok_bind, h5]
    refine ⟨_, rfl, ?_, ?_, ?_, ?_, ?_, ?_, h.pos⟩
    · intro w
      show setVar σ.vars v _ w = none ↔ setVar m v ((m v).map g) w = none
      by_cases e : w = v
      · subst e
        rw [setVar_self, setVar_self, hp]
        exact ⟨fun h => (by cases h), fun h => (by cases h)⟩
      · rw [setVar_ne _ _ e, setVar_ne _ _ e]; exact h.dead w
    · intro w o' p' q1 q2
      change setVar σ.vars v _ w = some o' at q1
      change setVar m v ((m v).map g) w = some p' at q2
      dsimp only [Heap.store]
      by_cases e : w = v
      · subst e
        rw [setVar_self] at q1 q2
        rw [hp] at q2
        cases q1; cases q2
        exact ⟨h3, _, if_pos rfl, withProps_self _⟩
      · rw [setVar_ne _ _ e] at q1 q2
        obtain ⟨r1, c', r2, r3⟩ := h.val w o' p' q1 q2
        refine ⟨r1, c', ?_, r3⟩
        rw [if_neg ?_]
        · exact r2
        · intro e'
          exact e (h.own w v o' o q1 h1 e')
    · intro w1 w2 o1 o2 q1 q2 q3
      change setVar σ.vars v _ w1 = some o1 at q1
      change setVar σ.vars v _ w2 = some o2 at q2
      have key : ∀ w o', setVar σ.vars v (some { o with rest := g p }) w = some o' → ∃ u, σ.vars w = some u ∧ u.props = o'.props := by
        intro w o' q
        by_cases e : w = v
        · subst e
          rw [setVar_self] at q
          cases q
          exact ⟨o, h1, rfl⟩
        · rw [setVar_ne _ _ e] at q
          exact ⟨o', q, rfl⟩
      obtain ⟨u1, a1, b1⟩ := key _ _ q1
      obtain ⟨u2, a2, b2⟩ := key _ _ q2
      exact h.own w1 w2 u1 u2 a1 a2 (by rw [b1, b2]; exact q3)
    · obtain ⟨L, hL, hu⟩ := h.used
      refine ⟨L, hL, fun a x hx => ?_⟩
      dsimp only [Heap.store] at hx ⊢
      by_cases ea : a = o.props
      · exact .inr ⟨v, _, setVar_self _ _ _, ea.symm⟩
      · rw [if_neg ea] at hx
        rcases hu a x hx with hl | ⟨w, u, hw, hu'⟩
        · exact .inl hl
        · refine .inr ⟨w, u, ?_, hu'⟩
          have e : w ≠ v := by
            rintro rfl
            rw [h1] at hw
            cases hw
            exact ea hu'.symm
          rw [setVar_ne _ _ e]; exact hw
    · intro a x hx
      dsimp only [Heap.store] at hx ⊢
      by_cases ea : a = o.props
      · rw [ea]; exact h.fresh _ _ h4
      · rw [if_neg ea] at hx
        exact h.fresh a x hx
    · dsimp only [Heap.store]
      rw [if_neg (fun e => h3 e.symm)]
      exact h.null
  | destroy v =>
    obtain ⟨p, hp⟩ := Option.isSome_iff_exists.mp hl.1
    obtain ⟨o, τh, d1, d2, d3⟩ := h.drop hp
    unfold PState.step
    dsimp only
    rw [d1, ok_bind, d2, ok_bind]
    exact ⟨_, rfl, d3⟩
end

theorem isSome_setVar' (m : Nat → Option Image) (v : Nat) (x : Option Image) :
    (fun w => (setVar m v x w).isSome) = fun w => if w = v then x.isSome else (m w).isSome := by
  funext w
  unfold setVar
  split <;> rfl

theorem live_of_same' (m : Nat → Option Image) (v : Nat) (hv : (m v).isSome = true) :
    (fun w => if w = v then true else (m w).isSome) = fun w => (m w).isSome := by
  funext w
  split
  · next e => subst e; exact hv.symm
  · rfl

theorem PLives.cons {m : Nat → Option Image} {op : POp} {l : List POp} (h : PLives (fun v => (m v).isSome) (op :: l)) :
    PLives (fun v => (m v).isSome) [op] ∧ PLives (fun v => (imagesStep m op v).isSome) l := by
  cases op with
  | make v p =>
    refine ⟨⟨h.1, trivial⟩, ?_⟩
    show PLives (fun w => (setVar m v _ w).isSome) l
    rw [isSome_setVar']; exact h.2
  | fail p => exact ⟨trivial, h⟩
  | copy v w =>
    refine ⟨⟨h.1, h.2.1, trivial⟩, ?_⟩
    show PLives (fun w' => (setVar m v (m w) w').isSome) l
    rw [isSome_setVar', show (m w).isSome = true from h.2.1]; exact h.2.2
  | assign v w =>
    refine ⟨⟨h.1, h.2.1, h.2.2.1, trivial⟩, ?_⟩
    show PLives (fun w' => (setVar m v (m w) w').isSome) l
    rw [isSome_setVar', show (m w).isSome = true from h.2.1, live_of_same' m v h.1]; exact h.2.2.2
  | edit v g =>
    refine ⟨⟨h.1, trivial⟩, ?_⟩
    show PLives (fun w' => (setVar m v ((m v).map g) w').isSome) l
    rw [isSome_setVar', Option.isSome_map, show (m v).isSome = true from h.1, live_of_same' m v h.1]; exact h.2
  | destroy v =>
    refine ⟨⟨h.1, trivial⟩, ?_⟩
    show PLives (fun w' => (setVar m v none w').isSome) l
    rw [isSome_setVar']; exact h.2

theorem failures_cons (op : POp) (l : List POp) : failures (op :: l) = failures [op] + failures l := by
  cases op <;> simp only [failures] <;> omega

theorem POwned.run {l : List POp} : ∀ {σ : PState} {m : Nat → Option Image} {n : Nat}, POwned σ m n →
    PLives (fun v => (m v).isSome) l → ∃ τ, σ.run l = .ok τ ∧ POwned τ (imagesRun m l) (n + failures l) := by
  induction l with
  | nil => intro σ m n h _; exact ⟨σ, rfl, h⟩
  | cons op l ih =>
    intro σ m n h hl
    obtain ⟨h1, h2⟩ := hl.cons
    obtain ⟨τ, q1, q2⟩ := h.step op h1
    obtain ⟨ρ, r1, r2⟩ := ih q2 h2
    refine ⟨ρ, ?_, ?_⟩
    · rw [PState.run, q1, ok_bind]
      exact r1
    · rw [failures_cons, ← Nat.add_assoc]
      exact r2

/-- C78: images are values. In every program that respects the lifetimes of its images and assigns no image to itself,
    nothing is used or released after its release; every image is what was put, copied, assigned or edited
    into it, changes of a copy or of the original not being visible in the other; and memory is owned by exactly the
    living images, except for one block for each constructor that failed. -/
theorem C78_values (l : List POp) (hl : PLives (fun _ => false) l) : ∃ τ, PState.run {} l = .ok τ ∧
    (∀ v, τ.vars v = none ↔ imagesRun (fun _ => none) l v = none) ∧
    (∀ v p, imagesRun (fun _ => none) l v = some p → τ.value v = .ok p) ∧
    ∃ L : List Nat, L.length = failures l ∧
      ∀ a c, τ.heap.cells a = some c → a ∈ L ∨ ∃ v o, τ.vars v = some o ∧ o.props = a := by
  obtain ⟨τ, h1, h2⟩ := POwned.run (m := fun _ => none) powned_empty hl
  refine ⟨τ, h1, h2.dead, fun v p hp => ?_, ?_⟩
  · obtain ⟨o, c, q1, q2, q3, q4, q5, q6⟩ := h2.live hp
    unfold PState.value
    rw [q2, ok_bind, q6, ok_bind, q5]
  · obtain ⟨L, hL, hu⟩ := h2.used
    exact ⟨L, by rw [hL]; omega, hu⟩

/-- C78: if no constructor fails and all images are destroyed, all memory is released. -/
theorem C78_no_leak (l : List POp) (hl : PLives (fun _ => false) l) (hf : failures l = 0)
    (hd : ∀ v, imagesRun (fun _ => none) l v = none) : ∃ τ, PState.run {} l = .ok τ ∧ ∀ a, τ.heap.cells a = none := by
  obtain ⟨τ, h1, h2, -, L, hL, hu⟩ := C78_values l hl
  refine ⟨τ, h1, fun a => ?_⟩
  cases hx : τ.heap.cells a with
  | none => rfl
  | some c =>
    rcases hu a c hx with h | ⟨v, o, hv, -⟩
    · rw [List.length_eq_zero_iff.mp (hL.trans hf)] at h
      cases h
    · rw [(h2 v).mpr (hd v)] at hv
      cases hv

/-- The limits of C78: an image assigned to itself is used after its properties have been released, for every image. -/
theorem C78_self_assignment (p : Image) : PState.run {} [.make 0 p, .assign 0 0] = .error (.ub .dangling) := rfl

/-- A failed constructor leaves its properties object behind. -/
theorem C78_leak (p : Image) : ∃ τ, PState.run {} [.fail p] = .ok τ ∧ (∀ v, τ.vars v = none) ∧ τ.heap.cells 1 = some (p.kind, p.nt) :=
  ⟨_, rfl, fun _ => rfl, rfl⟩

/-- A copy that is edited while the original is kept, then assigned back, for an empty image. -/
def imgDemo (p : Image) : List POp :=
  [.make 0 p, .copy 1 0, .edit 1 (fun q => { q with stub := [7], nt := { q.nt with entry := 5 } }), .make 2 p, .assign 2 1, .destroy 1]

example (p : Image) : PLives (fun _ => false) (imgDemo p) ∧ ∃ τ, PState.run {} (imgDemo p) = .ok τ ∧
    τ.value 0 = .ok p ∧ τ.value 2 = .ok { p with stub := [7], nt := { p.nt with entry := 5 } } ∧ τ.vars 1 = none :=
  ⟨⟨rfl, rfl, rfl, rfl, rfl, rfl, rfl, by decide, rfl, trivial⟩, _, rfl, rfl, rfl, rfl⟩

end PE
