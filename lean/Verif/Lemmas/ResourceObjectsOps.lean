/-
The operations on resource trees keep the invariant.
-/
import Verif.Lemmas.ResourceObjectsState
namespace PE

theorem Rep.setKey {c : Cells} {o : EObj} {e : ResEntry} {S : Nat → Prop} (k : ResKey) (r : Rep c o e S) :
    Rep c { o with key := k } (e.withKey k) S := by
  cases e with
  | empty k' => simp only [Rep, ResEntry.withKey] at r ⊢; exact ⟨trivial, r.2⟩
  | data k' cp d => simp only [Rep, ResEntry.withKey] at r ⊢; exact ⟨trivial, r.2⟩
  | dir k' hd es => simp only [Rep, ResEntry.withKey] at r ⊢; exact ⟨trivial, r.2⟩

theorem Rep.key {c : Cells} {o : EObj} {e : ResEntry} {S : Nat → Prop} (r : Rep c o e S) : o.key = e.key := by
  cases e with
  | empty k' => simp only [Rep, ResEntry.key] at r ⊢; exact r.1
  | data k' cp d => simp only [Rep, ResEntry.key] at r ⊢; exact r.1
  | dir k' hd es => simp only [Rep, ResEntry.key] at r ⊢; exact r.1

theorem Rep.ofEmpty {c : Cells} {o : EObj} {k : ResKey} {S : Nat → Prop} (h1 : o.key = k) (h2 : o.ptr = 0) (h3 : ∀ a, ¬ S a) :
    Rep c o (.empty k) S := by
  simp only [Rep]; exact ⟨h1, h2, h3⟩

/-- Nothing has changed but the members of the object. -/
theorem Changed.same {σ : RState} {r : ERef} {S : Nat → Prop} {o2 : EObj} {e2 : ResEntry} (k : σ.heap.Ok)
    (h : Rep σ.heap.cells o2 e2 S) : Changed σ r S o2 e2 S σ.heap :=
  ⟨k, h, fun _ _ _ => rfl, fun _ h => .inl h, fun _ h h' => absurd h h'⟩

theorem bindOk {α β : Type} {a : α} {x : Res α} (h : x = .ok a) (f : α → Res β) : (x >>= f) = f a := by rw [h]; rfl

theorem Trees.release {σ : RState} {m : Nat → Option ResEntry} {F : Nat → Nat → Prop} (t : Trees σ m F) {d : ELoc} {e : ResEntry}
    (hg : getAt m d = some e) {r : ERef} {o : EObj} {S : Nat → Prop} (a : EntryAt σ d r o e S) :
    ∃ τ F', σ.release r = .ok τ ∧ Trees τ (putAt m d (.empty e.key)) F' ∧
      EntryAt τ d r { o with ptr := 0 } (.empty e.key) (fun _ => False) ∧ Frame σ τ r S := by
  obtain ⟨h, h1, h2⟩ := releasePtr_ok (n := σ.heap.next) e (Rep.deep_lt t.ok a.rep) a.rep
  obtain ⟨τ, F', g1, g2, g3, g4, -⟩ := t.change hg a (h2 := h) (o2 := { o with ptr := 0 }) (e2 := .empty e.key) (S2 := fun _ => False)
    ⟨h2.ok t.ok, Rep.ofEmpty a.rep.key rfl (fun _ x => x), fun b hb _ => h2.kept b hb, fun b hb => absurd hb (fun x => x),
      fun b hb _ => h2.gone b hb⟩
  refine ⟨τ, F', ?_, g2, g3, g4⟩
  unfold RState.release
  rw [bindOk a.read, bindOk h1]
  exact g1

/-- The reading of an object when other memory has been allocated. -/
theorem Copied.read {σ : RState} {h : Heap RCell} {S : Nat → Prop} (k : σ.heap.Ok) (c : Copied σ.heap h S) {q : ERef} {x : EObj}
    (hx : σ.read q = .ok x) : RState.read { σ with heap := h } q = .ok x := by
  cases q with
  | var w => exact hx
  | elem b j =>
    obtain ⟨hd, os, c1, c2⟩ := read_elem_iff hx
    refine read_elem (hd := hd) (os := os) ?_ c2
    dsimp only
    rw [c.keep k (by rw [c1]; exact fun x => by cases x), c1]

/-- A new content for an entry without content. -/
theorem Trees.fill {σ : RState} {m : Nat → Option ResEntry} {F : Nat → Nat → Prop} (t : Trees σ m F) {d : ELoc} {k : ResKey}
    (hg : getAt m d = some (.empty k)) {r : ERef} {o : EObj} {S : Nat → Prop} (a : EntryAt σ d r o (.empty k) S) {h : Heap RCell}
    {S2 : Nat → Prop} (c : Copied σ.heap h S2) {o2 : EObj} {e2 : ResEntry} (hr : Rep h.cells o2 e2 S2) :
    ∃ τ F', RState.write { σ with heap := h } r o2 = .ok τ ∧ Trees τ (putAt m d e2) F' ∧ EntryAt τ d r o2 e2 S2 ∧ Frame σ τ r S := by
  have hS : ∀ b, ¬ S b := by
    have := a.rep
    simp only [Rep] at this
    exact this.2.2
  have ch : Changed σ r S o2 e2 S2 h := by
    refine ⟨c.ok, hr, ?_, ?_, ?_⟩
    · intro b _ hb
      by_cases hlt : b < σ.heap.next
      · exact c.old b hlt
      · have hle := Nat.le_of_not_lt hlt
        rw [t.ok.top b hle]
        apply Decidable.byContradiction
        intro hn
        exact hb ((c.new b).mpr ⟨hle, hn⟩)
    · intro b hb
      exact .inr (t.ok.top b ((c.new b).mp hb).1)
    · intro b hb
      exact absurd hb (hS b)
  obtain ⟨τ, F', g1, g2, g3, g4, -⟩ := t.change hg a ch
  exact ⟨τ, F', g1, g2, g3, g4⟩

theorem Trees.setKey {σ : RState} {m : Nat → Option ResEntry} {F : Nat → Nat → Prop} (t : Trees σ m F) {d : ELoc} {e : ResEntry}
    (hg : getAt m d = some e) (k : ResKey) : ∃ τ F', σ.step (.setKey d k) = .ok τ ∧ Trees τ (putAt m d (e.withKey k)) F' := by
  obtain ⟨r, o, S, a, -⟩ := t.place hg
  obtain ⟨τ, F', g1, g2, -⟩ := t.change hg a (h2 := σ.heap) (Changed.same t.ok (a.rep.setKey k))
  refine ⟨τ, F', ?_, g2⟩
  show (σ.resolve d >>= _) = _
  rw [bindOk a.res, bindOk a.read]
  exact g1

/-- `add_data_entry`, when the argument can be used after `release`. -/
theorem Trees.addData {σ : RState} {m : Nat → Option ResEntry} {F : Nat → Nat → Prop} (t : Trees σ m F) {d : ELoc} {e : ResEntry}
    (hg : getAt m d = some e) {r : ERef} {o : EObj} {S : Nat → Prop} (a : EntryAt σ d r o e S) {x : RState → Res (Nat × Bytes)} {cp : Nat}
    {b : Bytes} (hx : ∀ τ, Frame σ τ r S → x τ = .ok (cp, b)) :
    ∃ τ F', σ.addData r x = .ok τ ∧ Trees τ (putAt m d (.data e.key cp b)) F' := by
  obtain ⟨τ, F1, g1, g2, g3, g4⟩ := t.release hg a
  have c : Copied τ.heap (τ.heap.alloc (.data cp b)).2 (fun a => a = τ.heap.next ∨ False) :=
    (Copied.refl g2.ok (fun _ x => x)).alloc _
  have hr : Rep (τ.heap.alloc (.data cp b)).2.cells { o with incl := true, ptr := τ.heap.next } (.data e.key cp b)
      (fun a => a = τ.heap.next ∨ False) := by
    simp only [Rep]
    refine ⟨a.rep.key, trivial, Nat.ne_of_gt g2.ok.pos, ?_, fun a => by simp⟩
    show (if τ.heap.next = τ.heap.next then _ else _) = _
    rw [if_pos rfl]
  obtain ⟨υ, F2, k1, k2, -⟩ := g2.fill (getAt_putAt _ hg) g3 c hr
  refine ⟨υ, F2, ?_, by rw [putAt_twice] at k2; exact k2⟩
  unfold RState.addData
  rw [bindOk g1, bindOk (hx τ g4)]
  show RState.point { τ with heap := (τ.heap.alloc (.data cp b)).2 } r true τ.heap.next = _
  unfold RState.point
  rw [bindOk (c.read g2.ok g3.read)]
  exact k1

/-- `add_resource_directory`, when the argument can be used after `release`. -/
theorem Trees.addDir {σ : RState} {m : Nat → Option ResEntry} {F : Nat → Nat → Prop} (t : Trees σ m F) {d : ELoc} {e : ResEntry}
    (hg : getAt m d = some e) {r : ERef} {o : EObj} {S : Nat → Prop} (a : EntryAt σ d r o e S) {x : RState → Res (ResHdr × List EObj)}
    {hd : ResHdr} {os : List EObj} {es : List ResEntry}
    (hx : ∀ τ, Frame σ τ r S → x τ = .ok (hd, os) ∧ ∃ T, RepL τ.heap.cells os es T) :
    ∃ τ F', σ.addDir r x = .ok τ ∧ Trees τ (putAt m d (.dir e.key hd es)) F' := by
  obtain ⟨τ, F1, g1, g2, g3, g4⟩ := t.release hg a
  obtain ⟨x1, T, x2⟩ := hx τ g4
  obtain ⟨os', h', S', e1, e2, e3⟩ := copyEs_ok (n := τ.heap.next) g2.ok es (RepL.deep_lt g2.ok x2) x2
  have c := e2.alloc (.dir hd os')
  have hr : Rep (h'.alloc (.dir hd os')).2.cells { o with incl := false, ptr := h'.next } (.dir e.key hd es)
      (fun a => a = h'.next ∨ S' a) := by
    refine Rep.ofDir a.rep.key rfl (Nat.ne_of_gt e2.ok.pos) (os := os') ?_ ?_ ?_
    · show (if h'.next = h'.next then _ else _) = _
      rw [if_pos rfl]
    · refine RepL.congr (fun a ha => ?_) (fun _ => Iff.rfl) es e3
      show (if a = h'.next then _ else _) = _
      have := e2.ok.lt (RepL.mem ha es e3)
      rw [if_neg (by omega)]
    · intro ha
      exact Nat.lt_irrefl _ (e2.ok.lt (RepL.mem ha es e3))
  obtain ⟨υ, F2, k1, k2, -⟩ := g2.fill (getAt_putAt _ hg) g3 c hr
  refine ⟨υ, F2, ?_, by rw [putAt_twice] at k2; exact k2⟩
  unfold RState.addDir
  rw [bindOk g1, bindOk x1]
  dsimp only
  rw [bindOk e1]
  show RState.point { τ with heap := (h'.alloc (.dir hd os')).2 } r false h'.next = _
  unfold RState.point
  rw [bindOk (c.read g2.ok g3.read)]
  exact k1

theorem Rep.empty_of_null {c : Cells} {o : EObj} {e : ResEntry} {S : Nat → Prop} (r : Rep c o e S) (h : o.ptr = 0) :
    e = .empty o.key := by
  cases e with
  | empty k => simp only [Rep] at r; rw [r.1]
  | data k cp d => simp only [Rep] at r; exact absurd h r.2.2.1
  | dir k hd es => simp only [Rep] at r; exact absurd h r.2.2.1

theorem Trees.assign {σ : RState} {m : Nat → Option ResEntry} {F : Nat → Nat → Prop} (t : Trees σ m F) {d s : ELoc} {e y : ResEntry}
    (hg : getAt m d = some e) (hs : getAt m s = some y) (hn : ApartL d s) :
    ∃ τ F', σ.step (.assign d s) = .ok τ ∧ Trees τ (putAt m d y) F' := by
  obtain ⟨r, o, S, a, -⟩ := t.place hg
  obtain ⟨q, i, T, b, -⟩ := t.place hs
  obtain ⟨n1, n2, n3, n4⟩ := t.apart hg hs a b hn
  obtain ⟨τ, F1, g1, g2, g3, g4⟩ := t.release hg a
  have b1 : Held τ q i y T := g4.held b.held n1 n2 n3 n4
  obtain ⟨υ, F2, k1, k2, k3, k4, -⟩ := g2.change (getAt_putAt _ hg) g3 (h2 := τ.heap)
    (o2 := { o with key := i.key, incl := i.incl, ptr := 0 }) (e2 := .empty i.key) (S2 := fun _ => False)
    (Changed.same g2.ok (Rep.ofEmpty rfl rfl (fun _ x => x)))
  rw [putAt_twice] at k2
  have b2 : Held υ q i y T := k4.held b1 n1 (fun _ _ _ x => x) n3 (fun _ x => absurd x (fun x => x))
  obtain ⟨p, h, S', c1, c2, c3⟩ := copyPtr_ok (n := υ.heap.next) k2.ok y (Rep.deep_lt k2.ok b2.rep) b2.rep
  have start : σ.step (.assign d s) = (if i.ptr = 0 then .ok υ
      else do
        let o ← { υ with heap := h }.read r
        { υ with heap := h }.write r { o with ptr := p }) := by
    show (σ.resolve d >>= _) = _
    rw [bindOk a.res, bindOk b.res]
    unfold RState.assign
    rw [bindOk g1, bindOk b1.read, bindOk g3.read, bindOk (show τ.write r _ = .ok υ from k1), bindOk b2.read, bindOk c1]
  rw [start]
  by_cases hp : i.ptr = 0
  · rw [if_pos hp]
    refine ⟨υ, F2, rfl, ?_⟩
    rw [b.rep.empty_of_null hp]
    exact k2
  · rw [if_neg hp]
    have hg2 : getAt (putAt m d (.empty i.key)) d = some (.empty i.key) := getAt_putAt _ hg
    obtain ⟨ω, F3, w1, w2, -⟩ := k2.fill hg2 k3 c2 c3
    refine ⟨ω, F3, ?_, by rw [putAt_twice] at w2; exact w2⟩
    rw [bindOk (c2.read k2.ok k3.read)]
    exact w1

theorem dirPtr_ok {o : EObj} (h1 : o.incl = false) (h2 : o.ptr ≠ 0) : o.dirPtr = .ok o.ptr := by
  unfold EObj.dirPtr
  rw [if_neg (by rintro (x | x); exact h2 x; rw [h1] at x; cases x)]

theorem dataPtr_ok {o : EObj} (h1 : o.incl = true) (h2 : o.ptr ≠ 0) : o.dataPtr = .ok o.ptr := by
  unfold EObj.dataPtr
  rw [if_neg (by rintro (x | x); exact h2 x; rw [h1] at x; cases x)]

theorem dirAt_ok {h : Heap RCell} {a : Nat} {hd : ResHdr} {os : List EObj} (e : h.cells a = some (.dir hd os)) :
    h.dirAt a = .ok (hd, os) := by
  unfold Heap.dirAt; rw [e]

theorem dataAt_ok {h : Heap RCell} {a cp : Nat} {d : Bytes} (e : h.cells a = some (.data cp d)) : h.dataAt a = .ok (cp, d) := by
  unfold Heap.dataAt; rw [e]

theorem Trees.addDataOf {σ : RState} {m : Nat → Option ResEntry} {F : Nat → Nat → Prop} (t : Trees σ m F) {d s : ELoc} {e : ResEntry}
    {k : ResKey} {cp : Nat} {by' : Bytes} (hg : getAt m d = some e) (hs : getAt m s = some (.data k cp by')) (hn : ApartL d s) :
    ∃ τ F', σ.step (.addDataOf d s) = .ok τ ∧ Trees τ (putAt m d (.data e.key cp by')) F' := by
  obtain ⟨r, o, S, a, -⟩ := t.place hg
  obtain ⟨q, i, T, b, -⟩ := t.place hs
  obtain ⟨n1, n2, n3, n4⟩ := t.apart hg hs a b hn
  have br := b.rep
  simp only [Rep] at br
  obtain ⟨b1, b2, b3, b4, b5⟩ := br
  have hx : ∀ τ, Frame σ τ r S → τ.heap.dataAt i.ptr = .ok (cp, by') := by
    intro τ f
    have := (f.held b.held n1 n2 n3 n4).rep
    simp only [Rep] at this
    exact dataAt_ok this.2.2.2.1
  obtain ⟨τ, F', g1, g2⟩ := t.addData hg a (x := fun τ => τ.heap.dataAt i.ptr) hx
  refine ⟨τ, F', ?_, g2⟩
  show (σ.resolve d >>= _) = _
  rw [bindOk a.res, bindOk b.res, bindOk b.read, bindOk (dataPtr_ok b2 b3)]
  exact g1

theorem Trees.addDirOf {σ : RState} {m : Nat → Option ResEntry} {F : Nat → Nat → Prop} (t : Trees σ m F) {d s : ELoc} {e : ResEntry}
    {k : ResKey} {hd : ResHdr} {es : List ResEntry} (hg : getAt m d = some e) (hs : getAt m s = some (.dir k hd es)) (hn : ApartL d s) :
    ∃ τ F', σ.step (.addDirOf d s) = .ok τ ∧ Trees τ (putAt m d (.dir e.key hd es)) F' := by
  obtain ⟨r, o, S, a, -⟩ := t.place hg
  obtain ⟨q, i, T, b, -⟩ := t.place hs
  obtain ⟨n1, n2, n3, n4⟩ := t.apart hg hs a b hn
  have br := b.rep
  simp only [Rep] at br
  obtain ⟨b1, b2, b3, os, U, b4, b5, b6, b7⟩ := br
  have hx : ∀ τ, Frame σ τ r S → τ.heap.dirAt i.ptr = .ok (hd, os) ∧ ∃ T, RepL τ.heap.cells os es T := by
    intro τ f
    have hc : ∀ x, T x → τ.heap.cells x = σ.heap.cells x := by
      intro x hx
      exact f.cells x (Rep.mem hx _ b.rep) (fun y => n4 x y hx) (fun j hj => n3 x j hj hx)
    refine ⟨dirAt_ok ?_, U, RepL.congr (fun x hx => hc x ((b7 x).mpr (.inr hx))) (fun _ => Iff.rfl) es b5⟩
    rw [hc _ ((b7 _).mpr (.inl rfl)), b4]
  obtain ⟨τ, F', g1, g2⟩ := t.addDir hg a (x := fun τ => τ.heap.dirAt i.ptr) hx
  refine ⟨τ, F', ?_, g2⟩
  show (σ.resolve d >>= _) = _
  rw [bindOk a.res, bindOk b.res, bindOk b.read, bindOk (dirPtr_ok b2 b3)]
  exact g1

/-! ### Changes of the content of an entry -/

theorem write_same {σ : RState} {r : ERef} {o : EObj} (h : σ.read r = .ok o) : σ.write r o = .ok σ := by
  cases r with
  | var v =>
    unfold RState.read at h
    dsimp only at h
    cases hv : σ.vars v with
    | none => rw [hv] at h; cases h
    | some o' =>
      rw [hv] at h
      cases h
      rw [write_var hv, setVar_same _ _ _ hv]
  | elem a j =>
    obtain ⟨hd, os, c1, c2⟩ := read_elem_iff h
    rw [write_elem c1 c2]
    have : os.set j o = os := by
      rw [List.getElem?_eq_some_iff] at c2
      obtain ⟨hlt, rfl⟩ := c2
      exact List.set_getElem_self hlt
    rw [this]
    have : σ.heap.store a (.dir hd os) = σ.heap := by
      unfold Heap.store
      congr 1
      funext b
      by_cases hb : b = a
      · rw [if_pos hb, hb, c1]
      · rw [if_neg hb]
    rw [this]

theorem Trees.inner {σ : RState} {m : Nat → Option ResEntry} {F : Nat → Nat → Prop} (t : Trees σ m F) {d : ELoc} {e : ResEntry}
    (hg : getAt m d = some e) {r : ERef} {o : EObj} {S : Nat → Prop} (a : EntryAt σ d r o e S) {h2 : Heap RCell}
    {e2 : ResEntry} {S2 : Nat → Prop} (ch : Changed σ r S o e2 S2 h2) :
    ∃ F', Trees { σ with heap := h2 } (putAt m d e2) F' := by
  obtain ⟨τ, F', g1, g2, -⟩ := t.change hg a ch
  have hr : RState.read { σ with heap := h2 } r = .ok o := by
    cases r with
    | var v => exact a.read
    | elem b j =>
      obtain ⟨hd, os, c1, c2⟩ := read_elem_iff a.read
      obtain ⟨-, hb, -⟩ := t.holder hg a
      have h1 := (hb b j rfl).2
      refine read_elem (hd := hd) (os := os) ?_ c2
      dsimp only
      rw [ch.kept b h1, c1]
      intro h
      rcases ch.free b h with h | h
      · exact h1 h
      · rw [c1] at h; cases h
  rw [write_same hr] at g1
  cases g1
  exact ⟨F', g2⟩

theorem Trees.setData {σ : RState} {m : Nat → Option ResEntry} {F : Nat → Nat → Prop} (t : Trees σ m F) {d : ELoc} {k : ResKey}
    {cp0 : Nat} {b0 : Bytes} (hg : getAt m d = some (.data k cp0 b0)) (cp : Nat) (b : Bytes) :
    ∃ τ F', σ.step (.setData d cp b) = .ok τ ∧ Trees τ (putAt m d (.data k cp b)) F' := by
  obtain ⟨r, o, S, a, -⟩ := t.place hg
  have br := a.rep
  simp only [Rep] at br
  obtain ⟨b1, b2, b3, b4, b5⟩ := br
  obtain ⟨F', g⟩ := t.inner hg a (h2 := σ.heap.store o.ptr (.data cp b)) (e2 := .data k cp b) (S2 := S)
    ⟨store_ok t.ok (by rw [b4]; exact fun x => by cases x) _, by
      simp only [Rep]
      exact ⟨b1, b2, b3, store_self _ _ _, b5⟩, by
      intro c hc _
      exact store_ne _ _ (fun x => hc ((b5 c).mpr x)), fun _ h => .inl h, fun _ h h' => absurd h h'⟩
  refine ⟨_, F', ?_, g⟩
  show (σ.resolve d >>= _) = _
  rw [bindOk a.res, bindOk a.read, bindOk (dataPtr_ok b2 b3), bindOk (dataAt_ok b4)]

theorem dirOf_ok {σ : RState} {d : ELoc} {r : ERef} {o : EObj} {e : ResEntry} {S : Nat → Prop} (a : EntryAt σ d r o e S)
    (h1 : o.incl = false) (h2 : o.ptr ≠ 0) : σ.dirOf d = .ok o.ptr := by
  unfold RState.dirOf
  rw [bindOk a.res, bindOk a.read]
  exact dirPtr_ok h1 h2

/-- The directory of an entry gets other fields and elements; `h` is the memory apart from this. -/
theorem Trees.redir {σ : RState} {m : Nat → Option ResEntry} {F : Nat → Nat → Prop} (t : Trees σ m F) {d : ELoc} {k : ResKey}
    {hd : ResHdr} {es : List ResEntry} (hg : getAt m d = some (.dir k hd es)) {r : ERef} {o : EObj} {S : Nat → Prop}
    (a : EntryAt σ d r o (.dir k hd es) S) {h : Heap RCell} {T : Nat → Prop} {hd' : ResHdr} {os' : List EObj} {es' : List ResEntry}
    (ho : h.Ok) (hp : h.cells o.ptr ≠ none) (hrep : RepL h.cells os' es' T) (hTp : ¬ T o.ptr)
    (hk : ∀ b, ¬ S b → ¬ T b → h.cells b = σ.heap.cells b) (hf : ∀ b, T b → S b ∨ σ.heap.cells b = none)
    (hgn : ∀ b, S b → b ≠ o.ptr → ¬ T b → h.cells b = none) :
    ∃ F', Trees { σ with heap := h.store o.ptr (.dir hd' os') } (putAt m d (.dir k hd' es')) F' := by
  have br := a.rep
  simp only [Rep] at br
  obtain ⟨b1, b2, b3, os, U, b4, b5, b6, b7⟩ := br
  have hSp : S o.ptr := (b7 _).mpr (.inl rfl)
  refine t.inner hg a (S2 := fun b => b = o.ptr ∨ T b) ⟨store_ok ho hp _, ?_, ?_, ?_, ?_⟩
  · refine Rep.ofDir b1 b2 b3 (store_self _ _ _) ?_ hTp
    exact RepL.congr (fun x hx => store_ne _ _ (fun y => hTp (by rw [← y]; exact hx))) (fun _ => Iff.rfl) es' hrep
  · intro b hb hb'
    rw [store_ne _ _ (fun x => hb' (.inl x))]
    exact hk b hb (fun x => hb' (.inr x))
  · rintro b (hb | hb)
    · rw [hb]; exact .inl hSp
    · exact hf b hb
  · intro b hb hb'
    rw [store_ne _ _ (fun x => hb' (.inl x))]
    exact hgn b hb (fun x => hb' (.inl x)) (fun x => hb' (.inr x))

theorem RepL.append {c : Cells} {o : EObj} {e : ResEntry} {U : Nat → Prop} (r : Rep c o e U) (es : List ResEntry) :
    ∀ {os : List EObj} {T : Nat → Prop}, RepL c os es T → (∀ a, T a → ¬ U a) →
      RepL c (os ++ [o]) (es ++ [e]) (fun a => T a ∨ U a) := by
  induction es with
  | nil =>
    intro os T h hd
    simp only [RepL] at h
    rw [h.1]
    refine RepL.congr (fun _ _ => rfl) (fun a => ?_) [e] (RepL.cons r (RepL.nil (S := fun _ => False) (fun _ x => x)) (fun _ _ x => x))
    constructor
    · rintro (x | x)
      · exact absurd x (h.2 a)
      · exact .inl x
    · rintro (x | x)
      · exact .inr x
      · exact absurd x (fun x => x)
  | cons e' es ih =>
    intro os T h hd
    simp only [RepL] at h
    obtain ⟨o', os1, T1, U1, rfl, r2, r3, r4, r5⟩ := h
    have := ih r3 (fun a ha => hd a ((r5 a).mpr (.inr ha)))
    refine RepL.congr (fun _ _ => rfl) (fun a => ?_) _ (RepL.cons r2 this ?_)
    · rw [r5]
      exact or_assoc
    · rintro a ha (hb | hb)
      · exact r4 a ha hb
      · exact hd a ((r5 a).mpr (.inl ha)) hb

theorem RepL.unappend {c : Cells} {e : ResEntry} (es : List ResEntry) :
    ∀ {os : List EObj} {T : Nat → Prop}, RepL c os (es ++ [e]) T → ∃ os0 o T0 U, os = os0 ++ [o] ∧ RepL c os0 es T0 ∧ Rep c o e U ∧
      (∀ a, T0 a → ¬ U a) ∧ ∀ a, T a ↔ (T0 a ∨ U a) := by
  induction es with
  | nil =>
    intro os T h
    simp only [List.nil_append, RepL] at h
    obtain ⟨o, os1, T1, U1, rfl, r2, ⟨r3, r3'⟩, r4, r5⟩ := h
    subst r3
    exact ⟨[], o, U1, T1, rfl, RepL.nil r3', r2, fun a ha => absurd ha (r3' a), fun a => (r5 a).trans Or.comm⟩
  | cons e' es ih =>
    intro os T h
    simp only [List.cons_append, RepL] at h
    obtain ⟨o, os1, T1, U1, rfl, r2, r3, r4, r5⟩ := h
    obtain ⟨os0, o', T0, U, rfl, q2, q3, q4, q5⟩ := ih r3
    refine ⟨o :: os0, o', fun a => T1 a ∨ T0 a, U, rfl, RepL.cons r2 q2 (fun a ha hb => r4 a ha ((q5 a).mpr (.inl hb))), q3, ?_, ?_⟩
    · rintro a (ha | ha) hb
      · exact r4 a ha ((q5 a).mpr (.inr hb))
      · exact q4 a ha hb
    · intro a
      rw [r5, q5]
      exact or_assoc.symm

theorem Trees.setHdr {σ : RState} {m : Nat → Option ResEntry} {F : Nat → Nat → Prop} (t : Trees σ m F) {d : ELoc} {k : ResKey}
    {hd : ResHdr} {es : List ResEntry} (hg : getAt m d = some (.dir k hd es)) (hd' : ResHdr) :
    ∃ τ F', σ.step (.setHdr d hd') = .ok τ ∧ Trees τ (putAt m d (.dir k hd' es)) F' := by
  obtain ⟨r, o, S, a, -⟩ := t.place hg
  have br := a.rep
  simp only [Rep] at br
  obtain ⟨b1, b2, b3, os, U, b4, b5, b6, b7⟩ := br
  obtain ⟨F', g⟩ := t.redir hg a (h := σ.heap) (hd' := hd') t.ok (by rw [b4]; exact fun x => by cases x) b5 b6 (fun _ _ _ => rfl)
    (fun b hb => .inl ((b7 b).mpr (.inr hb))) (fun b hb hb' hb'' => absurd (((b7 b).mp hb).resolve_left hb') hb'')
  refine ⟨_, F', ?_, g⟩
  show (σ.dirOf d >>= _) = _
  rw [bindOk (dirOf_ok a b2 b3), bindOk (dirAt_ok b4)]

theorem Trees.clear {σ : RState} {m : Nat → Option ResEntry} {F : Nat → Nat → Prop} (t : Trees σ m F) {d : ELoc} {k : ResKey}
    {hd : ResHdr} {es : List ResEntry} (hg : getAt m d = some (.dir k hd es)) :
    ∃ τ F', σ.step (.clear d) = .ok τ ∧ Trees τ (putAt m d (.dir k { hd with named := 0, ids := 0 } [])) F' := by
  obtain ⟨r, o, S, a, -⟩ := t.place hg
  have br := a.rep
  simp only [Rep] at br
  obtain ⟨b1, b2, b3, os, U, b4, b5, b6, b7⟩ := br
  obtain ⟨h', e1, e2⟩ := releaseEs_ok (n := σ.heap.next) es (RepL.deep_lt t.ok b5) b5
  obtain ⟨F', g⟩ := t.redir hg a (h := h') (hd' := { hd with named := 0, ids := 0 }) (os' := []) (es' := []) (T := fun _ => False)
    (e2.ok t.ok) (by rw [e2.kept _ b6, b4]; exact fun x => by cases x) (RepL.nil (fun _ x => x)) (fun x => x)
    (fun b hb _ => e2.kept b (fun x => hb ((b7 b).mpr (.inr x)))) (fun b hb => absurd hb (fun x => x))
    (fun b hb hb' _ => e2.gone b (((b7 b).mp hb).resolve_left hb'))
  refine ⟨_, F', ?_, g⟩
  show (σ.dirOf d >>= _) = _
  rw [bindOk (dirOf_ok a b2 b3)]
  unfold Heap.clearDir
  rw [bindOk (dirAt_ok b4)]
  show ((releaseEs (releaseObj σ.heap.next) σ.heap os >>= _) >>= _) = _
  rw [e1]
  rfl

theorem Trees.pop {σ : RState} {m : Nat → Option ResEntry} {F : Nat → Nat → Prop} (t : Trees σ m F) {d : ELoc} {k : ResKey}
    {hd : ResHdr} {es : List ResEntry} {e : ResEntry} (hg : getAt m d = some (.dir k hd (es ++ [e]))) :
    ∃ τ F', σ.step (.pop d) = .ok τ ∧ Trees τ (putAt m d (.dir k hd es)) F' := by
  obtain ⟨r, o, S, a, -⟩ := t.place hg
  have br := a.rep
  simp only [Rep] at br
  obtain ⟨b1, b2, b3, os, U, b4, b5, b6, b7⟩ := br
  obtain ⟨os0, ol, T0, W, rfl, q2, q3, q4, q5⟩ := RepL.unappend es b5
  obtain ⟨h', e1, e2⟩ := releasePtr_ok (n := σ.heap.next) e (Rep.deep_lt t.ok q3) q3
  have keep : ∀ b, ¬ W b → h'.cells b = σ.heap.cells b := e2.kept
  have hWp : ¬ W o.ptr := fun x => b6 ((q5 _).mpr (.inr x))
  obtain ⟨F', g⟩ := t.redir hg a (h := h') (hd' := hd) (os' := os0) (es' := es) (T := T0)
    (e2.ok t.ok) (by rw [keep _ hWp, b4]; exact fun x => by cases x)
    (RepL.congr (fun b hb => keep b (q4 b hb)) (fun _ => Iff.rfl) es q2) (fun x => b6 ((q5 _).mpr (.inl x)))
    (fun b hb _ => keep b (fun x => hb ((b7 b).mpr (.inr ((q5 b).mpr (.inr x))))))
    (fun b hb => .inl ((b7 b).mpr (.inr ((q5 b).mpr (.inl hb)))))
    (fun b hb hb' hb'' => e2.gone b (((q5 b).mp (((b7 b).mp hb).resolve_left hb')).resolve_left hb''))
  refine ⟨_, F', ?_, g⟩
  show (σ.dirOf d >>= _) = _
  rw [bindOk (dirOf_ok a b2 b3)]
  unfold Heap.popBack
  rw [bindOk (dirAt_ok b4)]
  show ((match (os0 ++ [ol]).getLast? with | none => _ | some o => _) >>= _) = _
  rw [List.getLast?_concat]
  show ((releasePtr σ.heap.next σ.heap ol.incl ol.ptr >>= _) >>= _) = _
  rw [e1]
  show Except.ok _ = _
  rw [List.dropLast_concat]

theorem Trees.push {σ : RState} {m : Nat → Option ResEntry} {F : Nat → Nat → Prop} (t : Trees σ m F) {d s : ELoc} {k : ResKey}
    {hd : ResHdr} {es : List ResEntry} {y : ResEntry} (hg : getAt m d = some (.dir k hd es)) (hs : getAt m s = some y) {re : Bool}
    (hn : re = true → ¬ Inside d s) :
    ∃ τ F', σ.step (.push d s re) = .ok τ ∧ Trees τ (putAt m d (.dir k (hd.bump y.key.isName) (es ++ [y]))) F' := by
  obtain ⟨r, o, S, a, -⟩ := t.place hg
  obtain ⟨q, i, T, b, -⟩ := t.place hs
  have br := a.rep
  simp only [Rep] at br
  obtain ⟨b1, b2, b3, os, U, b4, b5, b6, b7⟩ := br
  obtain ⟨p, h1, S1, c1, c2, c3⟩ := copyPtr_ok (n := σ.heap.next) t.ok y (Rep.deep_lt t.ok b.rep) b.rep
  have hlt : o.ptr < σ.heap.next := t.ok.lt (by rw [b4]; exact fun x => by cases x)
  have b4' : h1.cells o.ptr = some (.dir hd os) := by rw [c2.old _ hlt, b4]
  have b5' : RepL h1.cells os es U := RepL.congr (fun x hx => c2.keep t.ok (RepL.mem hx es b5)) (fun _ => Iff.rfl) es b5
  have hUS : ∀ x, U x → ¬ S1 x := by
    intro x hx hx'
    have := t.ok.lt (RepL.mem hx es b5)
    have := ((c2.new x).mp hx').1
    omega
  have hS1p : ¬ S1 o.ptr := fun x => by have := ((c2.new _).mp x).1; omega
  have newk : ∀ x, ¬ S1 x → h1.cells x = σ.heap.cells x := by
    intro x hx
    by_cases hl : x < σ.heap.next
    · exact c2.old x hl
    · have hle := Nat.le_of_not_lt hl
      rw [t.ok.top x hle]
      apply Decidable.byContradiction
      intro hne
      exact hx ((c2.new x).mpr ⟨hle, hne⟩)
  have hcopy : copyObj σ.heap.next σ.heap i = .ok ({ i with ptr := p }, h1) := by
    unfold copyObj
    rw [bindOk c1]
  have store2 : ∀ (h : Heap RCell) (x y : RCell), (h.store o.ptr x).store o.ptr y = h.store o.ptr y := by
    intro h x y
    unfold Heap.store
    congr 1
    funext z
    by_cases hz : z = o.ptr
    · simp only [if_pos hz]
    · simp only [if_neg hz]
  cases re with
  | false =>
    have hrep : RepL h1.cells (os ++ [{ i with ptr := p }]) (es ++ [y]) (fun x => U x ∨ S1 x) := RepL.append c3 es b5' hUS
    obtain ⟨F', g⟩ := t.redir hg a (h := h1) (hd' := hd.bump y.key.isName) c2.ok (by rw [b4']; exact fun x => by cases x) hrep
      (by rintro (x | x); exact b6 x; exact hS1p x) (fun x _ hx => newk x (fun z => hx (.inr z)))
      (by
        rintro x (hx | hx)
        · exact .inl ((b7 x).mpr (.inr hx))
        · exact .inr (t.ok.top x ((c2.new x).mp hx).1))
      (fun x hx hx' hx'' => absurd (.inl (((b7 x).mp hx).resolve_left hx')) hx'')
    refine ⟨_, F', ?_, g⟩
    have hread : RState.read { σ with heap := h1.store o.ptr (.dir hd (os ++ [{ i with ptr := p }])) } q = .ok i := by
      cases q with
      | var w => exact b.read
      | elem c j =>
        obtain ⟨hd', os', d1, d2⟩ := read_elem_iff b.read
        by_cases hc : c = o.ptr
        · subst hc
          rw [b4] at d1
          cases d1
          refine read_elem (store_self _ _ _) ?_
          rw [List.getElem?_append_left (by rw [List.getElem?_eq_some_iff] at d2; exact d2.1)]
          exact d2
        · refine read_elem (hd := hd') (os := os') ?_ d2
          dsimp only
          rw [store_ne _ _ hc, c2.keep t.ok (by rw [d1]; exact fun x => by cases x), d1]
    show (σ.dirOf d >>= _) = _
    rw [bindOk (dirOf_ok a b2 b3), bindOk b.res]
    unfold RState.push
    rw [bindOk b.read]
    have hpb : σ.heap.pushBack o.ptr i false = .ok (h1.store o.ptr (.dir hd (os ++ [{ i with ptr := p }]))) := by
      unfold Heap.pushBack
      rw [bindOk hcopy]
      dsimp only
      rw [bindOk (dirAt_ok b4')]
      rfl
    rw [bindOk hpb]
    dsimp only
    have hm : RState.readAfter { σ with heap := h1.store o.ptr (.dir hd (os ++ [{ i with ptr := p }])) } o.ptr false q = .ok i := by
      unfold RState.readAfter
      cases q with
      | var w => exact hread
      | elem c j =>
        dsimp only
        rw [if_neg (fun z => Bool.false_ne_true z.1)]
        exact hread
    rw [bindOk hm, bindOk (dirAt_ok (store_self _ _ _)), store2, b.rep.key]
  | true =>
    have sep := t.sep hg hs a b (hn rfl)
    obtain ⟨os2, h2, U2, e1, e2, e3⟩ := copyEs_ok (n := h1.next) c2.ok es (RepL.deep_lt c2.ok b5') b5'
    have b5'' : RepL h2.cells os es U := RepL.congr (fun x hx => e2.keep c2.ok (RepL.mem hx es b5')) (fun _ => Iff.rfl) es b5'
    obtain ⟨h3, f1, f2⟩ := releaseEs_ok (n := h2.next) es (RepL.deep_lt e2.ok b5'') b5''
    have hUlt : ∀ x, U x → x < σ.heap.next := fun x hx => t.ok.lt (RepL.mem hx es b5)
    have hS1 : ∀ x, S1 x → σ.heap.next ≤ x ∧ x < h1.next := fun x hx =>
      ⟨((c2.new x).mp hx).1, c2.ok.lt ((c2.new x).mp hx).2⟩
    have hU2 : ∀ x, U2 x → h1.next ≤ x := fun x hx => ((e2.new x).mp hx).1
    have hle := c2.le
    have keep2 : ∀ x, ¬ S1 x → ¬ U2 x → h2.cells x = σ.heap.cells x := by
      intro x hx hx'
      by_cases hl : x < h1.next
      · rw [e2.old x hl, newk x hx]
      · have hle' := Nat.le_of_not_lt hl
        rw [t.ok.top x (by omega)]
        apply Decidable.byContradiction
        intro hne
        exact hx' ((e2.new x).mpr ⟨hle', hne⟩)
    have ptr3 : h3.cells o.ptr = some (.dir hd os) := by
      rw [f2.kept _ b6, keep2 _ hS1p (fun x => by have := hU2 _ x; omega), b4]
    have hrep : RepL h3.cells (os2 ++ [{ i with ptr := p }]) (es ++ [y]) (fun x => U2 x ∨ S1 x) := by
      have q1 : RepL h3.cells os2 es U2 := RepL.congr (fun x hx => f2.kept x (fun z => by
        have := hUlt x z; have := hU2 x hx; omega)) (fun _ => Iff.rfl) es e3
      have q2 : Rep h3.cells { i with ptr := p } y S1 := Rep.congr (fun x hx => by
        have := hS1 x hx
        rw [f2.kept x (fun z => by have := hUlt x z; omega), e2.old x this.2]) (fun _ => Iff.rfl) y c3
      exact RepL.append q2 es q1 (fun x hx hx' => by have := hU2 x hx; have := hS1 x hx'; omega)
    obtain ⟨F', g⟩ := t.redir hg a (h := h3) (hd' := hd.bump y.key.isName) (f2.ok e2.ok) (by rw [ptr3]; exact fun x => by cases x) hrep
      (by rintro (x | x); · have := hU2 _ x; omega
          · exact hS1p x)
      (by
        intro x hx hx'
        rw [f2.kept x (fun z => hx ((b7 x).mpr (.inr z))), keep2 x (fun z => hx' (.inr z)) (fun z => hx' (.inl z))])
      (by
        rintro x (hx | hx)
        · exact .inr (t.ok.top x (by have := hU2 x hx; omega))
        · exact .inr (t.ok.top x (hS1 x hx).1))
      (fun x hx hx' hx'' => f2.gone x (((b7 x).mp hx).resolve_left hx'))
    refine ⟨_, F', ?_, g⟩
    have hread : RState.read { σ with heap := h3.store o.ptr (.dir hd (os2 ++ [{ i with ptr := p }])) } q = .ok i := by
      cases q with
      | var w => exact b.read
      | elem c j =>
        obtain ⟨hd', os', d1, d2⟩ := read_elem_iff b.read
        have hc := sep c j rfl
        have hcl : c < σ.heap.next := t.ok.lt (by rw [d1]; exact fun x => by cases x)
        refine read_elem (hd := hd') (os := os') ?_ d2
        dsimp only
        rw [store_ne _ _ (fun z => hc ((b7 c).mpr (.inl z))), f2.kept c (fun z => hc ((b7 c).mpr (.inr z))),
          keep2 c (fun z => by have := hS1 c z; omega) (fun z => by have := hU2 c z; omega), d1]
    show (σ.dirOf d >>= _) = _
    rw [bindOk (dirOf_ok a b2 b3), bindOk b.res]
    unfold RState.push
    rw [bindOk b.read]
    have hpb : σ.heap.pushBack o.ptr i true = .ok (h3.store o.ptr (.dir hd (os2 ++ [{ i with ptr := p }]))) := by
      unfold Heap.pushBack
      rw [bindOk hcopy]
      dsimp only
      rw [bindOk (dirAt_ok b4')]
      dsimp only
      rw [if_pos rfl, bindOk e1]
      dsimp only
      rw [bindOk f1]
    rw [bindOk hpb]
    dsimp only
    have hm : RState.readAfter { σ with heap := h3.store o.ptr (.dir hd (os2 ++ [{ i with ptr := p }])) } o.ptr true q = .ok i := by
      unfold RState.readAfter
      cases q with
      | var w => exact hread
      | elem c j =>
        dsimp only
        rw [if_neg (fun z => sep c j rfl ((b7 c).mpr (.inl z.2)))]
        exact hread
    rw [bindOk hm, bindOk (dirAt_ok (store_self _ _ _)), store2, b.rep.key]

end PE
