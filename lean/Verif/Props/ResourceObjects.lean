/-
C80: the objects of resource trees.
-/
import Verif.Lemmas.ResourceObjectsOps
namespace PE

theorem trees_empty : Trees {} (fun _ => none) (fun _ _ => False) := by
  refine ⟨fun v => ⟨fun _ => rfl, fun _ => rfl⟩, ?_, fun _ _ _ x => x, fun _ _ _ x => absurd x (fun x => x), ?_, ?_⟩
  · intro v o e h; cases h
  · intro a h; exact absurd rfl h
  · exact ⟨by decide, rfl, fun _ _ => rfl⟩

/-- An object in a variable that was not in use. -/
theorem Trees.fresh {σ : RState} {m : Nat → Option ResEntry} {F : Nat → Nat → Prop} (t : Trees σ m F) {v : Nat} (hv : m v = none)
    {h : Heap RCell} {S : Nat → Prop} (c : Copied σ.heap h S) {o : EObj} {e : ResEntry} (r : Rep h.cells o e S) :
    Trees { heap := h, vars := setVar σ.vars v (some o) } (setVar m v (some e)) (fun w => if w = v then S else F w) := by
  have hlow : ∀ w b, F w b → b < σ.heap.next := fun w b hb => t.ok.lt (t.alloc hb)
  have hS : ∀ b, S b → σ.heap.next ≤ b := fun b hb => ((c.new b).mp hb).1
  refine ⟨?_, ?_, ?_, ?_, ?_, c.ok⟩
  · intro w
    by_cases hw : w = v
    · subst hw
      dsimp only
      rw [setVar_self, setVar_self]
      exact ⟨fun h => (by cases h), fun h => (by cases h)⟩
    · dsimp only
      rw [setVar_ne _ _ hw, setVar_ne _ _ hw]
      exact t.dead w
  · intro w o' e' h1 h2
    by_cases hw : w = v
    · subst hw
      dsimp only at h1 ⊢
      rw [setVar_self] at h1 h2
      cases h1; cases h2
      rw [if_pos rfl]
      exact r
    · dsimp only at h1 ⊢
      rw [setVar_ne _ _ hw] at h1 h2
      rw [if_neg hw]
      exact Rep.congr (fun b hb => c.old b (hlow w b hb)) (fun _ => Iff.rfl) e' (t.rep w o' e' h1 h2)
  · intro w hw b
    dsimp only at hw ⊢
    by_cases hwv : w = v
    · subst hwv; rw [setVar_self] at hw; cases hw
    · rw [if_neg hwv]
      rw [setVar_ne _ _ hwv] at hw
      exact t.nothing w hw b
  · intro w1 w2 b h1 h2
    by_cases hw1 : w1 = v
    · by_cases hw2 : w2 = v
      · rw [hw1, hw2]
      · rw [if_pos hw1] at h1
        rw [if_neg hw2] at h2
        have := hS b h1; have := hlow _ b h2
        omega
    · rw [if_neg hw1] at h1
      by_cases hw2 : w2 = v
      · rw [if_pos hw2] at h2
        have := hS b h2; have := hlow _ b h1
        omega
      · rw [if_neg hw2] at h2
        exact t.disj _ _ b h1 h2
  · intro b hb
    dsimp only at hb
    by_cases hl : b < σ.heap.next
    · rw [c.old b hl] at hb
      obtain ⟨w, hw⟩ := t.used b hb
      have hwv : w ≠ v := fun h => t.nothing w ((t.dead w).mpr (by rw [h]; exact hv)) b hw
      exact ⟨w, by rw [if_neg hwv]; exact hw⟩
    · exact ⟨v, by rw [if_pos rfl]; exact (c.new b).mpr ⟨Nat.le_of_not_lt hl, hb⟩⟩

theorem Trees.destroy {σ : RState} {m : Nat → Option ResEntry} {F : Nat → Nat → Prop} (t : Trees σ m F) {v : Nat} {e : ResEntry}
    (hm : m v = some e) : ∃ τ F', σ.step (.destroy v) = .ok τ ∧ Trees τ (setVar m v none) F' := by
  have hg : getAt m (v, []) = some e := by unfold getAt; rw [hm]; rfl
  obtain ⟨r, o, S, a, -, -, -, -⟩ := t.place hg
  obtain ⟨o0, hv, -⟩ := t.live hm
  have hr := a.res
  rw [resolve_nil hv] at hr
  cases hr
  obtain ⟨τ, F1, g1, g2, g3, g4⟩ := t.release hg a
  have hput : putAt m (v, []) (.empty e.key) = setVar m v (some (.empty e.key)) := by
    unfold putAt
    dsimp only
    rw [hm]
    rfl
  rw [hput] at g2
  have hF : ∀ b, ¬ F1 v b := by
    intro b hb
    obtain ⟨o1, h1, h2⟩ := g2.live (setVar_self _ _ _)
    simp only [Rep] at h2
    exact h2.2.2 b hb
  refine ⟨{ τ with vars := setVar τ.vars v none }, F1, ?_, ?_, ?_, ?_, g2.disj, g2.used, g2.ok⟩
  · show (σ.release (.var v) >>= _) = _
    rw [bindOk g1]
  · intro w
    by_cases hw : w = v
    · subst hw
      dsimp only
      rw [setVar_self, setVar_self]
      exact ⟨fun _ => rfl, fun _ => rfl⟩
    · dsimp only
      rw [setVar_ne _ _ hw, setVar_ne _ _ hw]
      have := g2.dead w
      rw [setVar_ne _ _ hw] at this
      exact this
  · intro w o' e' h1 h2
    have hw : w ≠ v := fun h => by rw [h, setVar_self] at h2; cases h2
    dsimp only at h1 ⊢
    rw [setVar_ne _ _ hw] at h1 h2
    exact g2.rep w o' e' h1 (by rw [setVar_ne _ _ hw]; exact h2)
  · intro w hw b
    by_cases hwv : w = v
    · rw [hwv]; exact hF b
    · dsimp only at hw
      rw [setVar_ne _ _ hwv] at hw
      exact g2.nothing w hw b

theorem Trees.copy {σ : RState} {m : Nat → Option ResEntry} {F : Nat → Nat → Prop} (t : Trees σ m F) {v : Nat} {s : ELoc} {y : ResEntry}
    (hv : m v = none) (hs : getAt m s = some y) : ∃ τ F', σ.step (.copy v s) = .ok τ ∧ Trees τ (setVar m v (some y)) F' := by
  obtain ⟨q, i, T, b, -⟩ := t.place hs
  obtain ⟨p, h, S, c1, c2, c3⟩ := copyPtr_ok (n := σ.heap.next) t.ok y (Rep.deep_lt t.ok b.rep) b.rep
  refine ⟨_, _, ?_, t.fresh hv c2 c3⟩
  show (σ.resolve s >>= _) = _
  rw [bindOk b.res, bindOk b.read]
  unfold copyObj
  rw [c1]
  rfl

theorem Trees.assignSelf {σ : RState} {m : Nat → Option ResEntry} {F : Nat → Nat → Prop} (t : Trees σ m F) {d : ELoc} {e : ResEntry}
    (hg : getAt m d = some e) : ∃ τ F', σ.step (.assign d d) = .ok τ ∧ Trees τ (putAt m d (.empty e.key)) F' := by
  obtain ⟨r, o, S, a, -⟩ := t.place hg
  obtain ⟨τ, F1, g1, g2, g3, g4⟩ := t.release hg a
  refine ⟨τ, F1, ?_, g2⟩
  show (σ.resolve d >>= _) = _
  rw [bindOk a.res, bindOk a.res]
  unfold RState.assign
  rw [bindOk g1, bindOk g3.read, bindOk g3.read, bindOk (write_same g3.read), bindOk g3.read]
  obtain ⟨n, hn⟩ : ∃ n, τ.heap.next = n + 1 := ⟨τ.heap.next - 1, by have := g2.ok.pos; omega⟩
  rw [hn]
  dsimp only
  rw [copyPtr, if_pos rfl]
  rfl

theorem isNamed_eq (y : ResEntry) : y.isNamed = y.key.isName := by
  unfold ResEntry.isNamed ResKey.isName
  cases y.key <;> rfl

/-- Every meant operation works and keeps the invariant. -/
theorem Trees.step {σ : RState} {m : Nat → Option ResEntry} {F : Nat → Nat → Prop} (t : Trees σ m F) (op : ROp) (h : Meant m op) :
    ∃ τ F', σ.step op = .ok τ ∧ Trees τ (treeStep m op) F' := by
  have some_of : ∀ {d : ELoc}, getAt m d ≠ none → ∃ e, getAt m d = some e := fun {d} hd => by
    cases hx : getAt m d with
    | none => exact absurd hx hd
    | some e => exact ⟨e, rfl⟩
  cases op with
  | make v =>
    have := t.fresh h (Copied.refl t.ok (S := fun _ => False) (fun _ x => x)) (o := {}) (e := .empty (.id 0))
      (Rep.ofEmpty rfl rfl (fun _ x => x))
    exact ⟨_, _, rfl, this⟩
  | copy v s =>
    obtain ⟨y, hy⟩ := some_of h.2
    obtain ⟨τ, F', g1, g2⟩ := t.copy h.1 hy
    exact ⟨τ, F', g1, by simp only [treeStep]; rw [hy]; exact g2⟩
  | assign d s =>
    obtain ⟨h1, h2, h3⟩ := h
    obtain ⟨e, he⟩ := some_of h1
    obtain ⟨y, hy⟩ := some_of h2
    simp only [treeStep]
    rw [hy]
    dsimp only
    by_cases hds : d = s
    · subst hds
      rw [he] at hy
      cases hy
      rw [if_pos rfl]
      exact t.assignSelf he
    · rw [if_neg hds]
      exact t.assign he hy (h3.resolve_left hds)
  | setKey d k =>
    obtain ⟨e, he⟩ := some_of h
    simp only [treeStep]
    rw [he]
    exact t.setKey he k
  | addData d cp b =>
    obtain ⟨e, he⟩ := some_of h
    obtain ⟨r, o, S, a, -⟩ := t.place he
    simp only [treeStep]
    rw [he]
    obtain ⟨τ, F', g1, g2⟩ := t.addData he a (x := fun _ => .ok (cp, b)) (fun _ _ => rfl)
    refine ⟨τ, F', ?_, g2⟩
    show (σ.resolve d >>= _) = _
    rw [bindOk a.res]
    exact g1
  | addDataOf d s =>
    obtain ⟨h1, ⟨k, cp, b, hs⟩, h3⟩ := h
    obtain ⟨e, he⟩ := some_of h1
    simp only [treeStep]
    rw [he, hs]
    exact t.addDataOf he hs h3
  | setData d cp b =>
    obtain ⟨k, cp0, b0, he⟩ := h
    simp only [treeStep]
    rw [he]
    exact t.setData he cp b
  | addDir d hd =>
    obtain ⟨e, he⟩ := some_of h
    obtain ⟨r, o, S, a, -⟩ := t.place he
    simp only [treeStep]
    rw [he]
    obtain ⟨τ, F', g1, g2⟩ := t.addDir he a (x := fun _ => .ok (hd, [])) (es := [])
      (fun _ _ => ⟨rfl, fun _ => False, RepL.nil (fun _ x => x)⟩)
    refine ⟨τ, F', ?_, g2⟩
    show (σ.resolve d >>= _) = _
    rw [bindOk a.res]
    exact g1
  | addDirOf d s =>
    obtain ⟨h1, ⟨k, hd, es, hs⟩, h3⟩ := h
    obtain ⟨e, he⟩ := some_of h1
    simp only [treeStep]
    rw [he, hs]
    exact t.addDirOf he hs h3
  | setHdr d hd =>
    obtain ⟨k, hd0, es, he⟩ := h
    simp only [treeStep]
    rw [he]
    exact t.setHdr he hd
  | push d s re =>
    obtain ⟨⟨k, hd, es, he⟩, h2, h3⟩ := h
    obtain ⟨y, hy⟩ := some_of h2
    simp only [treeStep]
    rw [he, hy]
    obtain ⟨τ, F', g1, g2⟩ := t.push he hy h3
    refine ⟨τ, F', g1, ?_⟩
    simp only [ResDir.add]
    rw [isNamed_eq]
    exact g2
  | pop d =>
    obtain ⟨k, hd, es, he, hne⟩ := h
    simp only [treeStep]
    rw [he]
    have hes : es = es.dropLast ++ [es.getLast hne] := (List.dropLast_concat_getLast hne).symm
    rw [hes] at he
    exact t.pop he
  | clear d =>
    obtain ⟨k, hd, es, he⟩ := h
    simp only [treeStep]
    rw [he]
    exact t.clear he
  | destroy v =>
    cases hm : m v with
    | none => exact absurd hm h
    | some e => exact t.destroy hm

theorem Trees.run {σ : RState} {m : Nat → Option ResEntry} {F : Nat → Nat → Prop} (t : Trees σ m F) (l : List ROp)
    (h : MeantAll m l) : ∃ τ F', σ.run l = .ok τ ∧ Trees τ (treeRun m l) F' := by
  induction l generalizing σ m F with
  | nil => exact ⟨σ, F, rfl, t⟩
  | cons op l ih =>
    obtain ⟨τ, F1, g1, g2⟩ := t.step op h.1
    obtain ⟨υ, F2, k1, k2⟩ := ih g2 h.2
    refine ⟨υ, F2, ?_, k2⟩
    show (σ.step op >>= _) = _
    rw [bindOk g1]
    exact k1

/-- What the getters return for the entry `e` at the place `d`. -/
structure ShowsEntry (σ : RState) (d : ELoc) (e : ResEntry) : Prop where
  key : σ.keyOf d = .ok e.key
  data : σ.dataOf d = e.getData
  dir : σ.hdrOf d = (do let r ← e.getDir; .ok (r.h, r.es.length))

theorem Trees.shows {σ : RState} {m : Nat → Option ResEntry} {F : Nat → Nat → Prop} (t : Trees σ m F) {d : ELoc} {e : ResEntry}
    (hg : getAt m d = some e) : ShowsEntry σ d e := by
  obtain ⟨r, o, S, a, -⟩ := t.place hg
  refine ⟨?_, ?_, ?_⟩
  · unfold RState.keyOf
    rw [bindOk a.res, bindOk a.read, a.rep.key]
  · unfold RState.dataOf
    rw [bindOk a.res, bindOk a.read]
    have := a.rep
    cases e with
    | empty k =>
      simp only [Rep] at this
      unfold EObj.dataPtr
      rw [if_pos (.inl this.2.1)]
      rfl
    | data k cp b =>
      simp only [Rep] at this
      rw [bindOk (dataPtr_ok this.2.1 this.2.2.1)]
      exact dataAt_ok this.2.2.2.1
    | dir k hd es =>
      simp only [Rep] at this
      unfold EObj.dataPtr
      rw [if_pos (.inr this.2.1)]
      rfl
  · unfold RState.hdrOf RState.dirOf
    have hr : (do let r ← σ.resolve d; let o ← σ.read r; o.dirPtr) = o.dirPtr := by rw [bindOk a.res, bindOk a.read]
    rw [hr]
    have := a.rep
    cases e with
    | empty k =>
      simp only [Rep] at this
      unfold EObj.dirPtr
      rw [if_pos (.inl this.2.1)]
      rfl
    | data k cp b =>
      simp only [Rep] at this
      unfold EObj.dirPtr
      rw [if_pos (.inr this.2.1)]
      rfl
    | dir k hd es =>
      simp only [Rep] at this
      obtain ⟨b1, b2, b3, os, U, b4, b5, b6, b7⟩ := this
      rw [bindOk (dirPtr_ok b2 b3), bindOk (dirAt_ok b4)]
      show Except.ok (hd, os.length) = Except.ok (hd, es.length)
      rw [b5.length]

/-! Whether a concrete program is meant can be computed. -/

def isDataB : Option ResEntry → Bool
  | some (.data _ _ _) => true
  | _ => false
def isDirB : Option ResEntry → Bool
  | some (.dir _ _ _) => true
  | _ => false
def apartB (d s : ELoc) : Bool := d.1 != s.1 || (!(d.2.isPrefixOf s.2) && !(s.2.isPrefixOf d.2))
def insideB (d s : ELoc) : Bool := d.1 == s.1 && d.2.isPrefixOf s.2 && d.2 != s.2

def meantB (m : Nat → Option ResEntry) : ROp → Bool
  | .make v => (m v).isNone
  | .copy v s => (m v).isNone && (getAt m s).isSome
  | .assign d s => (getAt m d).isSome && (getAt m s).isSome && (d == s || apartB d s)
  | .setKey d _ => (getAt m d).isSome
  | .addData d _ _ => (getAt m d).isSome
  | .addDataOf d s => (getAt m d).isSome && isDataB (getAt m s) && apartB d s
  | .setData d _ _ => isDataB (getAt m d)
  | .addDir d _ => (getAt m d).isSome
  | .addDirOf d s => (getAt m d).isSome && isDirB (getAt m s) && apartB d s
  | .setHdr d _ => isDirB (getAt m d)
  | .push d s re => isDirB (getAt m d) && (getAt m s).isSome && (!re || !insideB d s)
  | .pop d =>
    match getAt m d with
    | some (.dir _ _ (_ :: _)) => true
    | _ => false
  | .clear d => isDirB (getAt m d)
  | .destroy v => (m v).isSome

def meantAllB (m : Nat → Option ResEntry) : List ROp → Bool
  | [] => true
  | op :: l => meantB m op && meantAllB (treeStep m op) l

theorem isDataB_sound {e : Option ResEntry} (h : isDataB e = true) : IsData e := by
  unfold isDataB at h
  split at h
  · exact ⟨_, _, _, rfl⟩
  · cases h

theorem isDirB_sound {e : Option ResEntry} (h : isDirB e = true) : IsDir e := by
  unfold isDirB at h
  split at h
  · exact ⟨_, _, _, rfl⟩
  · cases h

theorem apartB_sound {d s : ELoc} (h : apartB d s = true) : ApartL d s := by
  intro he
  unfold apartB at h
  rw [he] at h
  simp only [bne_self_eq_false, Bool.false_or, Bool.and_eq_true, Bool.not_eq_true'] at h
  refine ⟨fun hp => ?_, fun hp => ?_⟩
  · have := List.isPrefixOf_iff_prefix.mpr hp
    rw [h.1] at this; cases this
  · have := List.isPrefixOf_iff_prefix.mpr hp
    rw [h.2] at this; cases this

theorem insideB_sound {d s : ELoc} (h : insideB d s = false) : ¬ Inside d s := by
  rintro ⟨h1, h2, h3⟩
  have h2' := List.isPrefixOf_iff_prefix.mpr h2
  unfold insideB at h
  rw [h1, h2', beq_self_eq_true] at h
  simp only [Bool.true_and, bne_eq_false_iff_eq] at h
  exact h3 h

theorem someB_sound {α : Type} {e : Option α} (h : e.isSome = true) : e ≠ none := by
  intro hn; rw [hn] at h; cases h

theorem meantB_sound {m : Nat → Option ResEntry} {op : ROp} (h : meantB m op = true) : Meant m op := by
  cases op <;> simp only [meantB, Bool.and_eq_true, Bool.or_eq_true, Bool.not_eq_true'] at h <;> simp only [Meant]
  case make v => exact Option.isNone_iff_eq_none.mp h
  case copy v s => exact ⟨Option.isNone_iff_eq_none.mp h.1, someB_sound h.2⟩
  case assign d s =>
    refine ⟨someB_sound h.1.1, someB_sound h.1.2, ?_⟩
    rcases h.2 with h | h
    · exact .inl (eq_of_beq h)
    · exact .inr (apartB_sound h)
  case setKey d k => exact someB_sound h
  case addData d cp b => exact someB_sound h
  case addDataOf d s => exact ⟨someB_sound h.1.1, isDataB_sound h.1.2, apartB_sound h.2⟩
  case setData d cp b => exact isDataB_sound h
  case addDir d hd => exact someB_sound h
  case addDirOf d s => exact ⟨someB_sound h.1.1, isDirB_sound h.1.2, apartB_sound h.2⟩
  case setHdr d hd => exact isDirB_sound h
  case push d s re =>
    refine ⟨isDirB_sound h.1.1, someB_sound h.1.2, fun hr => ?_⟩
    rcases h.2 with h | h
    · rw [hr] at h; cases h
    · exact insideB_sound h
  case pop d =>
    revert h
    cases getAt m d with
    | none => intro h; cases h
    | some e =>
      cases e with
      | empty k => intro h; cases h
      | data k cp b => intro h; cases h
      | dir k hd es =>
        cases es with
        | nil => intro h; cases h
        | cons x xs => intro _; exact ⟨k, hd, x :: xs, rfl, List.cons_ne_nil _ _⟩
  case clear d => exact isDirB_sound h
  case destroy v => exact someB_sound h

theorem meantAllB_sound {m : Nat → Option ResEntry} {l : List ROp} (h : meantAllB m l = true) : MeantAll m l := by
  induction l generalizing m with
  | nil => trivial
  | cons op l ih =>
    simp only [meantAllB, Bool.and_eq_true] at h
    exact ⟨meantB_sound h.1, ih h.2⟩

/-- A tree is built: a directory with an entry with data and an entry with a directory; it is copied, the copy is changed, a
    part of it is assigned to the first tree, the vector is moved. -/
def treeProgram : List ROp :=
  [.make 0, .addDir (0, []) {}, .make 1, .setKey (1, []) (.name [65]), .addData (1, []) 1252 [1, 2, 3],
   .push (0, []) (1, []) true, .push (0, []) (0, [0]) false, .setKey (0, [1]) (.id 7), .addDir (0, [1]) {},
   .push (0, [1]) (1, []) true, .copy 2 (0, []), .setData (2, [0]) 0 [9], .assign (0, [1, 0]) (2, [0]),
   .push (0, []) (2, [1]) true, .addDataOf (1, []) (2, [0]), .addDirOf (1, []) (0, [2]), .pop (2, []), .clear (2, [])]

/-- C80: programs that use resource trees as meant never use memory that has been released, and every getter returns what
    it would return if entries and directories were values without any sharing. -/
theorem C80_values (l : List ROp) (h : MeantAll (fun _ => none) l) : ∃ τ, RState.run {} l = .ok τ ∧
    ∀ d e, getAt (treeRun (fun _ => none) l) d = some e → ShowsEntry τ d e := by
  obtain ⟨τ, F, g1, g2⟩ := trees_empty.run l h
  exact ⟨τ, g1, fun d e he => g2.shows he⟩

example : MeantAll (fun _ => none) treeProgram := meantAllB_sound (by decide +kernel)

example : okAnd (RState.run {} treeProgram) (fun τ => decide (τ.dataOf (0, [1, 0]) = .ok (0, [9]) ∧
    τ.dataOf (0, [0]) = .ok (1252, [1, 2, 3]) ∧ τ.hdrOf (0, []) = .ok ({ named := 2, ids := 1 }, 3) ∧
    τ.dataOf (1, [0]) = .ok (1252, [1, 2, 3]) ∧ τ.hdrOf (2, []) = .ok ({}, 0))) = true := by decide +kernel

/-- C80: when all objects are gone, all memory has been given back. -/
theorem C80_no_leak (l : List ROp) (h : MeantAll (fun _ => none) l) (hd : ∀ v, treeRun (fun _ => none) l v = none) :
    ∃ τ, RState.run {} l = .ok τ ∧ ∀ a, τ.heap.cells a = none := by
  obtain ⟨τ, F, g1, g2⟩ := trees_empty.run l h
  refine ⟨τ, g1, fun a => ?_⟩
  apply Decidable.byContradiction
  intro hn
  obtain ⟨v, hv⟩ := g2.used a hn
  exact g2.nothing v ((g2.dead v).mpr (hd v)) a hv

example : MeantAll (fun _ => none) (treeProgram ++ [.destroy 1, .destroy 0, .destroy 2]) := meantAllB_sound (by decide +kernel)

/-- The variable an operation is about. -/
def ROp.var : ROp → Nat
  | .make v | .copy v _ | .destroy v => v
  | .assign d _ | .setKey d _ | .addData d _ _ | .addDataOf d _ | .setData d _ _ | .addDir d _ | .addDirOf d _ | .setHdr d _
  | .push d _ _ | .pop d | .clear d => d.1

/-- C80: an operation changes one tree only. -/
theorem treeStep_other (m : Nat → Option ResEntry) (op : ROp) {w : Nat} (hw : w ≠ op.var) : treeStep m op w = m w := by
  have of_put : ∀ {d : ELoc} {m' : Nat → Option ResEntry}, w ≠ d.1 → (m' = m ∨ ∃ x, m' = putAt m d x) → m' w = m w := by
    rintro d m' h (h0 | ⟨x, h0⟩)
    · rw [h0]
    · rw [h0]; exact setVar_ne _ _ h
  cases op <;> simp only [ROp.var] at hw <;> simp only [treeStep]
  case make v => exact setVar_ne _ _ hw
  case copy v s => exact setVar_ne _ _ hw
  case destroy v => exact setVar_ne _ _ hw
  all_goals
    refine of_put hw ?_
    repeat' split
    all_goals first
      | exact .inl rfl
      | exact .inr ⟨_, rfl⟩

theorem treeRun_other (m : Nat → Option ResEntry) (l : List ROp) {w : Nat} (hw : ∀ op ∈ l, w ≠ op.var) : treeRun m l w = m w := by
  induction l generalizing m with
  | nil => rfl
  | cons op l ih =>
    exact (ih (treeStep m op) (fun o ho => hw o (List.mem_cons_of_mem _ ho))).trans (treeStep_other m op (hw op List.mem_cons_self))

example : ∀ v, treeRun (fun _ => none) (treeProgram ++ [.destroy 1, .destroy 0, .destroy 2]) v = none := by
  intro v
  by_cases hv : v < 3
  · have : ∀ v < 3, (treeRun (fun _ => none) (treeProgram ++ [.destroy 1, .destroy 0, .destroy 2]) v).isNone = true := by decide +kernel
    exact Option.isNone_iff_eq_none.mp (this v hv)
  · refine treeRun_other _ _ (fun op ho => ?_)
    have : ∀ op ∈ treeProgram ++ [.destroy 1, .destroy 0, .destroy 2], op.var < 3 := by decide +kernel
    have := this op ho
    omega

/-! ### What is not meant -/

/-- A directory with the entries `a` (data) and `b` (a directory with an entry with data). -/
def twoLevels : List ROp :=
  [.make 0, .addDir (0, []) {}, .make 1, .addData (1, []) 0 [1], .push (0, []) (1, []) false, .push (0, []) (1, []) false,
   .addDir (0, [1]) {}, .push (0, [1]) (1, []) false]

/-- C80: a program after `twoLevels` does something undefined. -/
def Undefined (op : ROp) : Prop := RState.run {} (twoLevels ++ [op]) = .error (.ub .dangling)

instance (op : ROp) : Decidable (Undefined op) :=
  match h : RState.run {} (twoLevels ++ [op]) with
  | .error (.ub .dangling) => .isTrue h
  | .error (.ub .oobRead) | .error (.ub .oobWrite) | .error (.ub .oobIndex) | .error (.ub .badIter) | .error (.ub .hang)
  | .error (.ub .uninit) | .error (.exn _) | .ok _ => .isFalse (fun x => by rw [Undefined, h] at x; cases x)

/-- C80: assigning an entry to itself loses its content (the memory is not used after it was released). -/
theorem C80_self_assignment (m : Nat → Option ResEntry) (d : ELoc) (e : ResEntry) (h : getAt m d = some e) (l : List ROp)
    (hl : MeantAll (fun _ => none) l) (hm : treeRun (fun _ => none) l = m) :
    ∃ τ, RState.run {} (l ++ [.assign d d]) = .ok τ ∧ τ.keyOf d = .ok e.key ∧
      τ.dataOf d = throwE .resourceDirectoryEntryError ∧ τ.hdrOf d = throwE .resourceDirectoryEntryError := by
  have hall : MeantAll (fun _ => none) (l ++ [.assign d d]) := by
    have : ∀ (m0 : Nat → Option ResEntry) (l : List ROp), MeantAll m0 l → treeRun m0 l = m → MeantAll m0 (l ++ [.assign d d]) := by
      intro m0 l
      induction l generalizing m0 with
      | nil =>
        intro _ h0
        have h0 : m0 = m := h0
        have hne : getAt m d ≠ none := by rw [h]; exact fun x => by cases x
        exact ⟨by rw [h0]; exact ⟨hne, hne, .inl rfl⟩, trivial⟩
      | cons op l ih => intro h1 h2; exact ⟨h1.1, ih _ h1.2 h2⟩
    exact this _ l hl hm
  obtain ⟨τ, g1, g2⟩ := C80_values _ hall
  have hrun : treeRun (fun _ => none) (l ++ [.assign d d]) = putAt m d (.empty e.key) := by
    unfold treeRun
    rw [List.foldl_append]
    have : List.foldl treeStep (fun _ => none) l = m := hm
    rw [this]
    show treeStep m (.assign d d) = _
    simp only [treeStep]
    rw [h]
    simp only [if_pos]
  have := g2 d (.empty e.key) (by rw [hrun]; exact getAt_putAt _ h)
  exact ⟨τ, g1, this.key, this.data, this.dir⟩

example : ∃ e, getAt (treeRun (fun _ => none) twoLevels) (0, [1]) = some e ∧ MeantAll (fun _ => none) twoLevels :=
  ⟨_, rfl, meantAllB_sound (by decide +kernel)⟩

/-- C80: an entry must not be assigned an entry out of the directory it contains. -/
theorem C80_assign_child : Undefined (.assign (0, []) (0, [0])) := by decide +kernel

/-- C80: nor may it be given its own data, -/
theorem C80_add_own_data : Undefined (.addDataOf (1, []) (1, [])) := by decide +kernel

/-- C80: or its own directory, or one inside of it. -/
theorem C80_add_own_dir : Undefined (.addDirOf (0, []) (0, [])) ∧ Undefined (.addDirOf (0, []) (0, [1])) := by decide +kernel

/-- C80: an element of a directory must not be added to the same directory, if its vector is moved. -/
theorem C80_push_own_element : Undefined (.push (0, []) (0, [0]) true) ∧
    ∃ τ, RState.run {} (twoLevels ++ [.push (0, []) (0, [0]) false]) = .ok τ ∧ τ.hdrOf (0, []) = .ok ({ ids := 3 }, 3) := by
  refine ⟨by decide +kernel, ?_⟩
  obtain ⟨τ, h1, h2⟩ := exists_of_okAnd (x := RState.run {} (twoLevels ++ [.push (0, []) (0, [0]) false]))
    (f := fun τ => decide (τ.hdrOf (0, []) = .ok ({ ids := 3 }, 3))) (by decide +kernel)
  exact ⟨τ, h1, of_decide_eq_true h2⟩

/-- C80: assigning an entry to one inside of it gives the inner one what is left of the outer one after the inner one has
    been emptied: not the old value of the outer one. -/
theorem C80_assign_parent : ∃ τ, RState.run {} (twoLevels ++ [.assign (0, [0]) (0, [])]) = .ok τ ∧
    τ.hdrOf (0, [0]) = .ok ({ ids := 2 }, 2) ∧ τ.dataOf (0, [0, 0]) = throwE .resourceDirectoryEntryError ∧
    τ.dataOf (0, [0, 1, 0]) = .ok (0, [1]) := by
  obtain ⟨τ, h1, h2⟩ := exists_of_okAnd (x := RState.run {} (twoLevels ++ [.assign (0, [0]) (0, [])]))
    (f := fun τ => decide (τ.hdrOf (0, [0]) = .ok ({ ids := 2 }, 2) ∧ τ.dataOf (0, [0, 0]) = throwE .resourceDirectoryEntryError ∧
    τ.dataOf (0, [0, 1, 0]) = .ok (0, [1]))) (by decide +kernel)
  exact ⟨τ, h1, of_decide_eq_true h2⟩

end PE
