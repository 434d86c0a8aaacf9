/-
Vocabulary and helper lemmas: a section of an image shows certain bytes, and a change leaves the rest of the section alone.
-/
import Verif.Lemmas.At
import Verif.Lemmas.Place
namespace PE

/-- The section `i` of `r`, at the address of `s`, shows the bytes `e` at offset `pos` (if `raw`: also within the raw data), it has at
    least `L` bytes of memory, and `r` has the directory `id` with the entry `dir`; kind and base are those of `p`. -/
structure Shown (p r : Image) (i : Nat) (s : Sec) (pos L : Nat) (e : Bytes) (id : Nat) (dir : Nat × Nat) (raw : Bool) : Prop where
  kind : r.kind = p.kind
  base : r.nt.imageBase = p.nt.imageBase
  rva : r.nt.getDirRva id = .ok dir.1
  size : r.nt.getDirSize id = .ok dir.2
  has : r.hasDir id = .ok (decide (dir.1 ≠ 0))
  sec : ∃ t, Host r i t ∧ t.va = s.va ∧ L ≤ (t.memory r.nt.secAlign).length ∧ At (t.memory r.nt.secAlign) pos e ∧
    (raw = true → At t.data pos e)

/-- The section `i` of `q` stands where the section `s` of `p` was, is not smaller, and shows the same bytes outside of
    `[lo, lo + len)`; with `raw`, also its raw data are the same there. -/
def FrameKept (p q : Image) (i : Nat) (s : Sec) (lo len : Nat) (raw : Prop) : Prop :=
  ∃ t, Host q i t ∧ t.va = s.va ∧ (s.memory p.nt.secAlign).length ≤ (t.memory q.nt.secAlign).length ∧
    (∀ o n, o + n ≤ (s.memory p.nt.secAlign).length → o + n ≤ lo ∨ lo + len ≤ o →
      slice (t.memory q.nt.secAlign) o n = slice (s.memory p.nt.secAlign) o n) ∧
    (raw → s.data.length ≤ t.data.length ∧ (∀ o n, o + n ≤ s.data.length → o + n ≤ lo ∨ lo + len ≤ o →
      slice t.data o n = slice s.data o n) ∧ ∀ o, o < lo ∨ lo + len ≤ o → t.data.getD o 0 = s.data.getD o 0)

theorem Host.window {p : Image} {i : Nat} {s : Sec} (h : Host p i s) : Window p s.va (s.memory p.nt.secAlign) s :=
  window_of_valid h.valid h.sec h.hdr (Nat.le_trans h.data h.raw)

theorem Host.memory_length {p : Image} {i : Nat} {s : Sec} (h : Host p i s) :
    (s.memory p.nt.secAlign).length = s.span p.nt.secAlign := by
  have := h.data
  have := h.raw
  unfold Sec.memory
  simp
  omega

theorem Sec.data_le (s : Sec) (a : Nat) : s.data.length ≤ (s.memory a).length := by
  unfold Sec.memory; simp

/-- How the readers see the bytes. -/
theorem Shown.window {p r : Image} {i : Nat} {s : Sec} {pos L : Nat} {e : Bytes} {id : Nat} {dir : Nat × Nat} {raw : Bool}
    (h : Shown p r i s pos L e id dir raw) : ∃ m t, Window r s.va m t ∧ t.data.length ≤ m.length ∧ L ≤ m.length ∧ At m pos e ∧
      (raw = true → RawWindow r s.va t.data ∧ At t.data pos e) := by
  obtain ⟨t, h1, h2, h3, h4, h5⟩ := h.sec
  have hw := h1.window
  have hr := rawWindow_of hw h1.hdr (t.data_le _)
  rw [h2] at hw hr
  exact ⟨_, t, hw, t.data_le _, h3, h4, fun g => ⟨hr, h5 g⟩⟩

/-- Other calls leave the bytes alone. -/
theorem At.framed {m m' e : Bytes} {pos lo len : Nat} (h : At m pos e) (hl : m.length ≤ m'.length)
    (hs : ∀ o n, o + n ≤ m.length → o + n ≤ lo ∨ lo + len ≤ o → slice m' o n = slice m o n)
    (hd : pos + e.length ≤ lo ∨ lo + len ≤ pos) : At m' pos e :=
  ⟨Nat.le_trans h.1 hl, by rw [hs pos e.length h.1 hd]; exact h.2⟩

/-- A part of the written bytes. -/
theorem At.within {d m x : Bytes} {o start n : Nat} (h : At d o x) (hm : At m start (slice d start n)) (hd : start + n ≤ d.length)
    (h1 : start ≤ o) (h2 : o + x.length ≤ start + n) : At m o x := by
  have hl : (slice d start n).length = n := slice_length_of_le hd
  have : At (slice d start n) (o - start) x := by
    refine ⟨by omega, ?_⟩
    rw [slice_slice (by omega), show start + (o - start) = o by omega]
    exact h.2
  have g := hm.trans this
  rwa [show start + (o - start) = o by omega] at g

theorem zeros_add (a b : Nat) : zeros (a + b) = zeros a ++ zeros b := by
  unfold zeros; rw [List.replicate_append_replicate]

theorem growTo_eq (d : Bytes) (n : Nat) : growTo d n = d ++ zeros (n - d.length) := by
  unfold growTo
  split
  · rw [resize_of_le (by omega)]
  · next h => rw [show n - d.length = 0 by omega]; simp [zeros]

theorem patch_before {b c e : Bytes} {o : Nat} (h : o + e.length ≤ b.length) : patch (b ++ c) o e = patch b o e ++ c := by
  unfold patch
  rw [List.take_append_of_le_length (by omega), List.drop_append_of_le_length (by omega)]
  simp

theorem slice_zeros_ext {d : Bytes} {a b o n : Nat} (h1 : o + n ≤ d.length + a) (h2 : o + n ≤ d.length + b) :
    slice (d ++ zeros a) o n = slice (d ++ zeros b) o n := by
  have key : ∀ {a b : Nat}, a ≤ b → o + n ≤ d.length + a → slice (d ++ zeros a) o n = slice (d ++ zeros b) o n := by
    intro a b hab h
    rw [show b = a + (b - a) by omega, zeros_add, ← List.append_assoc]
    rw [slice_append_left (b := zeros (b - a)) (by simpa using h)]
  rcases Nat.le_total a b with h | h
  · exact key h h1
  · exact (key h h2).symm

theorem getD_append_zeros (d : Bytes) (n i : Nat) : (d ++ zeros n).getD i 0 = d.getD i 0 := by
  rw [List.getD_eq_getElem?_getD, List.getD_eq_getElem?_getD]
  by_cases hi : i < d.length
  · rw [List.getElem?_append_left hi]
  · rw [List.getElem?_append_right (by omega), List.getElem?_eq_none (l := d) (by omega)]
    unfold zeros
    rw [List.getElem?_replicate]
    split <;> rfl

theorem getD_patch_outside {b e : Bytes} {pos o : Nat} (h : pos + e.length ≤ b.length) (ho : o < pos ∨ pos + e.length ≤ o) :
    (patch b pos e).getD o 0 = b.getD o 0 := by
  have hl := patch_length h
  rw [List.getD_eq_getElem?_getD, List.getD_eq_getElem?_getD]
  by_cases hi : o < b.length
  · have := slice_patch_disjoint (n := 1) (o := o) h (by omega)
    have := congrArg (fun x => x[0]?) this
    simp only [getElem?_slice] at this
    rw [if_pos (by omega), if_pos (by omega), Nat.add_zero] at this
    rw [this]
  · rw [List.getElem?_eq_none (by omega), List.getElem?_eq_none (by omega)]

/-- The data of the section after the rebuilder, as bytes in memory. -/
theorem Rehosted.landed {q : Image} {i : Nat} {s s' : Sec} {d : Bytes} {k : Nat} (h : Rehosted q i s) (h1 : q.secs[i]? = some s')
    (h2 : s'.va = s.va) (h3 : Window q s.va (d ++ zeros k) s') (hd : d ≠ []) :
    Host q i s' ∧ s'.memory q.nt.secAlign = d ++ zeros k ∧ s.span q.nt.secAlign ≤ d.length + k := by
  obtain ⟨t, g1, g2, g3, g4⟩ := h
  have hst : s' = t := by have := g1.sec; rw [h1] at this; exact Option.some.inj this
  subst hst
  have hw := g1.window
  rw [h2] at hw
  have hml := g1.memory_length
  have hp : 0 < (s'.memory q.nt.secAlign).length := by
    have := ceilTo_ge (x := s'.vsize) g1.valid.sa.pos
    rw [hml, Sec.span, if_neg g3]
    omega
  have hdl : 0 < d.length := List.length_pos_iff.mpr hd
  have e1 := hw.ptr false 0 hp
  rw [h3.ptr false 0 (by simp; omega)] at e1
  have e2 : d ++ zeros k = s'.memory q.nt.secAlign := (Prod.mk.inj (Except.ok.inj e1)).1
  refine ⟨g1, e2.symm, ?_⟩
  have : (d ++ zeros k).length = s'.span q.nt.secAlign := by rw [e2, hml]
  simp only [List.length_append, zeros_length] at this
  omega

theorem DirPlaced.landed {p q : Image} {i : Nat} {s : Sec} {d : Bytes} {strip : Bool} {id : Nat} {dir : Nat × Nat}
    (h : DirPlaced p q i s d strip id dir) (hd : d ≠ []) : ∃ t k, Host q i t ∧ t.va = s.va ∧
      t.memory q.nt.secAlign = d ++ zeros k ∧ s.span p.nt.secAlign ≤ d.length + k ∧
      (strip = false ∨ i + 1 = p.secs.length → t.data = d) := by
  obtain ⟨k, s', h1, h2, h3, h4, h5⟩ := h.here
  obtain ⟨g1, g2, g3⟩ := h.again.landed h1 h2 h3 hd
  have hsa : q.nt.secAlign = p.nt.secAlign := by rw [h.nt]
  exact ⟨s', k, g1, h2, g2, by rw [← hsa]; exact g3, h4⟩

/-- What the landing of `patch (s.data ++ zeros) pos e` means for the section. -/
theorem landed_shown {p q : Image} {i : Nat} {s t : Sec} {z k pos : Nat} {e : Bytes} {id : Nat} {dir : Nat × Nat} {raw : Prop}
    (hh : Host p i s) (ht : Host q i t) (hva : t.va = s.va) (hle : pos + e.length ≤ s.data.length + z)
    (hm : t.memory q.nt.secAlign = patch (s.data ++ zeros z) pos e ++ zeros k)
    (hsp : s.span p.nt.secAlign ≤ s.data.length + z + k) (hd : raw → t.data = patch (s.data ++ zeros z) pos e)
    (kind : q.kind = p.kind) (base : q.nt.imageBase = p.nt.imageBase) (sa : q.nt.secAlign = p.nt.secAlign)
    (rva : q.nt.getDirRva id = .ok dir.1) (size : q.nt.getDirSize id = .ok dir.2)
    (has : q.hasDir id = .ok (decide (dir.1 ≠ 0))) :
    FrameKept p q i s pos e.length raw ∧ ∃ L, s.data.length + z ≤ L ∧ p.nt.secAlign ∣ L ∧
      ∀ b : Bool, (b = true → raw) → Shown p q i s pos L e id dir b := by
  have hb : (s.data ++ zeros z).length = s.data.length + z := by simp
  have hpl : (patch (s.data ++ zeros z) pos e).length = s.data.length + z := by rw [patch_length (by omega), hb]
  have hat := at_patch (b := s.data ++ zeros z) (o := pos) (x := e) (by omega)
  have hsm := hh.memory_length
  have hml : (t.memory q.nt.secAlign).length = s.data.length + z + k := by rw [hm]; simp [hpl]
  have hm' : t.memory q.nt.secAlign = patch (s.data ++ zeros (z + k)) pos e := by
    rw [hm, ← patch_before (by omega), zeros_add, List.append_assoc]
  refine ⟨⟨t, ht, hva, by omega, ?_, ?_⟩, s.data.length + z + k, by omega, ?_, ?_⟩
  · intro o n ho hdis
    rw [hm', slice_patch_disjoint (by simp; omega) (by omega)]
    unfold Sec.memory
    refine slice_zeros_ext (by omega) ?_
    have hl := s.data_le p.nt.secAlign
    omega
  · intro hr
    rw [hd hr, hpl]
    refine ⟨by omega, fun o n ho hdis => ?_, fun o ho => ?_⟩
    · rw [slice_patch_disjoint (by omega) (by omega), slice_append_left ho]
    · rw [getD_patch_outside (by omega) ho, getD_append_zeros]
  · rw [← hml, ht.memory_length, sa]; exact ceilTo_dvd _ _
  · intro b hb'
    refine ⟨kind, base, rva, size, has, t, ht, hva, by omega, ?_, fun hb'' => ?_⟩
    · rw [hm]; exact hat.more _
    · rw [hd (hb' hb'')]; exact hat

/-- The same for everything written with the common end of the rebuilders. -/
theorem Written.shown {p q : Image} {i : Nat} {s : Sec} {pos N : Nat} {e : Bytes} {strip : Bool} {id : Nat} {dir : Nat × Nat}
    (h : Written p q i s pos N e strip id dir) (hh : Host p i s) (hN : pos + e.length ≤ N) (h0 : 0 < N) :
    FrameKept p q i s pos e.length (strip = false ∨ i + 1 = p.secs.length) ∧ ∃ L, N ≤ L ∧ s.data.length ≤ L ∧ p.nt.secAlign ∣ L ∧
      ∀ b : Bool, (b = true → strip = false ∨ i + 1 = p.secs.length) → Shown p q i s pos L e id dir b := by
  have hp := h.placed
  rw [growTo_eq] at hp
  have hle : pos + e.length ≤ (s.data ++ zeros (N - s.data.length)).length := by simp; omega
  have hpl := patch_length hle
  have hpl' : (s.data ++ zeros (N - s.data.length)).length = s.data.length + (N - s.data.length) := by simp
  obtain ⟨t, k, h1, h2, h3, h4, h5⟩ := hp.landed (by
    intro h0'; rw [h0'] at hpl; simp at hpl; omega)
  obtain ⟨g1, L, g2, g3, g4⟩ := landed_shown (raw := strip = false ∨ i + 1 = p.secs.length) hh h1 h2 (by omega) h3 (by omega) h5
    h.rebuilt.kind (by rw [h.rebuilt.nt]) (by rw [h.rebuilt.nt]) h.rebuilt.rva h.rebuilt.size h.has
  exact ⟨g1, L, by omega, by omega, g3, g4⟩

/-- A section of an image after a change somewhere else. -/
theorem Shown.other {p q r : Image} {i : Nat} {s : Sec} {pos L : Nat} {e : Bytes} {id : Nat} {dir : Nat × Nat} {raw : Bool}
    (h : Shown p q i s pos L e id dir raw) (kind : r.kind = q.kind) (base : r.nt.imageBase = q.nt.imageBase)
    (sa : r.nt.secAlign = q.nt.secAlign) (rva : r.nt.getDirRva id = q.nt.getDirRva id)
    (size : r.nt.getDirSize id = q.nt.getDirSize id) (has : r.hasDir id = q.hasDir id) (hs : ∀ t, Host q i t → Host r i t) :
    Shown p r i s pos L e id dir raw := by
  obtain ⟨t, h1, h2, h3, h4, h5⟩ := h.sec
  exact ⟨kind.trans h.kind, base.trans h.base, rva.trans h.rva, size.trans h.size, has.trans h.has, t, hs t h1, h2,
    by rw [sa]; exact h3, by rw [sa]; exact h4, h5⟩

/-- A section after a change in another part of it. -/
theorem Shown.framed {p q r : Image} {i : Nat} {s t : Sec} {pos L lo len : Nat} {e : Bytes} {id : Nat} {dir : Nat × Nat} {raw : Bool}
    {R : Prop} (h : Shown p q i s pos L e id dir raw) (ht : Host q i t) (hf : FrameKept q r i t lo len R)
    (kind : r.kind = q.kind) (base : r.nt.imageBase = q.nt.imageBase) (rva : r.nt.getDirRva id = q.nt.getDirRva id)
    (size : r.nt.getDirSize id = q.nt.getDirSize id) (has : r.hasDir id = q.hasDir id)
    (hd : pos + e.length ≤ lo ∨ lo + len ≤ pos) (hR : raw = true → R) : Shown p r i s pos L e id dir raw := by
  obtain ⟨t', h1, h2, h3, h4, h5⟩ := h.sec
  have : t' = t := by have := h1.sec; rw [ht.sec] at this; exact (Option.some.inj this).symm
  subst this
  obtain ⟨u, g1, g2, g3, g4, g5⟩ := hf
  refine ⟨kind.trans h.kind, base.trans h.base, rva.trans h.rva, size.trans h.size, has.trans h.has, u, g1, g2.trans h2, by omega,
    h4.framed g3 g4 hd, fun hr => ?_⟩
  obtain ⟨g6, g7, -⟩ := g5 (hR hr)
  exact (h5 hr).framed g6 g7 hd

theorem FrameKept.mono {p q : Image} {i : Nat} {s : Sec} {lo len len' : Nat} {raw : Prop} (h : FrameKept p q i s lo len raw)
    (hl : len ≤ len') : FrameKept p q i s lo len' raw := by
  obtain ⟨t, h1, h2, h3, h4, h5⟩ := h
  exact ⟨t, h1, h2, h3, fun o n ho hd => h4 o n ho (by omega), fun hr =>
    ⟨(h5 hr).1, fun o n ho hd => (h5 hr).2.1 o n ho (by omega), fun o ho => (h5 hr).2.2 o (by omega)⟩⟩

/-- A rebuilder wrote at most `len` bytes at offset `lo` of the section `s` (number `i`) of `p`, giving `q`: the rest of the section is kept,
    and every image that shows the written bytes and the directory can be read as told. -/
structure Durable (p q : Image) (i : Nat) (s : Sec) (lo len : Nat) (id : Nat) (dir : Nat × Nat) (strip raw : Bool)
    (reads : Image → Prop) : Prop where
  frame : FrameKept p q i s lo len (strip = false ∨ i + 1 = p.secs.length)
  shown : ∃ e L, e.length ≤ len ∧ Shown p q i s lo L e id dir raw ∧ ∀ r, Shown p r i s lo L e id dir raw → reads r

theorem Durable.now {p q : Image} {i : Nat} {s : Sec} {lo len : Nat} {id : Nat} {dir : Nat × Nat} {strip raw : Bool}
    {reads : Image → Prop} (h : Durable p q i s lo len id dir strip raw reads) : reads q := by
  obtain ⟨e, L, -, h1, h2⟩ := h.shown
  exact h2 q h1

end PE
