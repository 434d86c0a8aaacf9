/-
C94: memory safety of the functions that write.
-/
import Verif.Lemmas.FailingSafe
import Verif.Lemmas.ExportsRound
import Verif.Lemmas.Reloc
import Verif.Lemmas.LoadConfig
import Verif.Spec.Writers

namespace PE

/-! ### Writing inside of the data -/

theorem writeAt_fit {d x : Bytes} {o : Nat} (h : o + x.length ≤ d.length) : ∃ d', writeAt d o x = .ok d' ∧ d'.length = d.length := by
  have : writeAt d o x = .ok (patch d o x) := by unfold writeAt; rw [if_pos h]
  exact ⟨_, this, writeAt_length this⟩

theorem alignUp_bounds {off a : Nat} (ha : Pow2 a) (h : off + (a - 1) < 4294967296) :
    off ≤ alignUp off a ∧ alignUp off a ≤ off + (a - 1) ∧ alignUp off a = ceilTo off a := by
  have h1 := ceilTo_lt (x := off) ha.pos
  have h2 := ceilTo_ge (x := off) ha.pos
  rw [alignUp_of_le ha (by omega) (by omega)]
  exact ⟨h2, by omega, rfl⟩

/-- Four bytes alignment moves a position by less than four. -/
theorem alignUp4_bounds {off : Nat} (h : off + 3 < 4294967296) : off ≤ alignUp off 4 ∧ alignUp off 4 ≤ off + 3 ∧ alignUp off 4 % 4 = 0 := by
  obtain ⟨h1, h2, h3⟩ := alignUp_bounds pow2_4 h
  exact ⟨h1, h2, by rw [h3]; exact Nat.mod_eq_zero_of_dvd (ceilTo_dvd off 4)⟩

/-! ### Bound imports -/

theorem writeBoundRefs_fit (base : Nat) (l : List BoundRef) (d : Bytes) (ps pt : Nat) (h1 : ps + 8 * l.length ≤ d.length)
    (h2 : pt + (l.map (fun r => r.name.length + 1)).sum ≤ d.length) (h3 : ps + 8 * l.length < 4294967296)
    (h4 : pt + (l.map (fun r => r.name.length + 1)).sum < 4294967296) :
    ∃ d', writeBoundRefs base d ps pt l = .ok (d', (ps + 8 * l.length, pt + (l.map (fun r => r.name.length + 1)).sum)) ∧
      d'.length = d.length := by
  induction l generalizing d ps pt with
  | nil => exact ⟨d, rfl, rfl⟩
  | cons r rs ih =>
    simp only [List.length_cons, List.map_cons, List.sum_cons] at *
    obtain ⟨d1, e1, l1⟩ := writeAt_fit (d := d) (o := ps) (x := leBytes 4 r.stamp ++ (leBytes 2 (sub32 pt base) ++ leBytes 2 0))
      (by simp only [List.length_append, leBytes_length]; omega)
    obtain ⟨d2, e2, l2⟩ := writeAt_fit (d := d1) (o := pt) (x := r.name ++ [0]) (by simp only [List.length_append, List.length_singleton]; omega)
    have w1 : w32 (ps + 8) = ps + 8 := Nat.mod_eq_of_lt (by omega)
    have w2 : w32 (pt + (r.name.length + 1)) = pt + (r.name.length + 1) := Nat.mod_eq_of_lt (by omega)
    obtain ⟨d3, e3, l3⟩ := ih d2 (ps + 8) (pt + (r.name.length + 1)) (by omega) (by omega) (by omega) (by omega)
    refine ⟨d3, ?_, by omega⟩
    unfold writeBoundRefs
    rw [e1, ok_bind, e2, ok_bind, w1, w2, e3]
    congr 3 <;> omega

theorem writeBoundMods_fit (base : Nat) (l : List BoundMod) (d : Bytes) (ps pt : Nat) (h1 : ps + boundStructs l ≤ d.length)
    (h2 : pt + boundStrings l ≤ d.length) (h3 : ps + boundStructs l < 4294967296) (h4 : pt + boundStrings l < 4294967296) :
    ∃ d', writeBoundMods base d ps pt l = .ok d' ∧ d'.length = d.length := by
  induction l generalizing d ps pt with
  | nil => exact ⟨d, rfl, rfl⟩
  | cons m ms ih =>
    simp only [boundStructs, boundStrings, List.map_cons, List.sum_cons] at *
    obtain ⟨d1, e1, l1⟩ := writeAt_fit (d := d) (o := ps) (x := leBytes 4 m.stamp ++ (leBytes 2 (sub32 pt base) ++ leBytes 2 m.refs.length))
      (by simp only [List.length_append, leBytes_length]; omega)
    obtain ⟨d2, e2, l2⟩ := writeAt_fit (d := d1) (o := pt) (x := m.name ++ [0]) (by simp only [List.length_append, List.length_singleton]; omega)
    have w1 : w32 (ps + 8) = ps + 8 := Nat.mod_eq_of_lt (by omega)
    have w2 : w32 (pt + (m.name.length + 1)) = pt + (m.name.length + 1) := Nat.mod_eq_of_lt (by omega)
    obtain ⟨d3, e3, l3⟩ := writeBoundRefs_fit base m.refs d2 (ps + 8) (pt + (m.name.length + 1)) (by omega) (by omega) (by omega) (by omega)
    obtain ⟨d4, e4, l4⟩ := ih d3 (ps + 8 + 8 * m.refs.length) (pt + (m.name.length + 1) + (m.refs.map (fun r => r.name.length + 1)).sum)
      (by omega) (by omega) (by omega) (by omega)
    refine ⟨d4, ?_, by omega⟩
    unfold writeBoundMods
    rw [e1, ok_bind, e2, ok_bind, w1, w2, e3, ok_bind]
    exact e4

theorem boundSpace_eq (l : List BoundMod) : boundSpace l = 8 + boundStructs l + boundStrings l := by
  unfold boundSpace boundStructs boundStrings
  have : ∀ rs : List BoundRef, (rs.map fun r => 8 + (r.name.length + 1)).sum = 8 * rs.length + (rs.map fun r => r.name.length + 1).sum := by
    intro rs
    induction rs with
    | nil => rfl
    | cons r rs ih => simp only [List.map_cons, List.sum_cons, List.length_cons, ih]; omega
  induction l with
  | nil => rfl
  | cons m ms ih => simp only [List.map_cons, List.sum_cons, this] at ih ⊢; omega

/-- C94: writing bound imports, whatever the names and numbers, as long as everything ends below 4 GiB. -/
theorem C94_bound (p : Image) (hd : p.nt.dirs.length = 16) (l : List BoundMod) (i off : Nat) (save strip : Bool)
    (h : off + 3 + boundSpace l < 4294967296) (u : UB) : p.rebuildBound l i off save strip ≠ ubE u := by
  rw [boundSpace_eq] at h
  refine (show NoUB (p.rebuildBound l i off save strip) from ?_) u
  unfold Image.rebuildBound
  split
  · exact NoUB.throwE _
  · next s hs =>
    obtain ⟨a1, a2, -⟩ := alignUp4_bounds (off := off) (by omega)
    have w1 : w32 (boundStrings l) = boundStrings l := Nat.mod_eq_of_lt (by omega)
    have w2 : w32 (8 + boundStructs l + boundStrings l) = 8 + boundStructs l + boundStrings l := Nat.mod_eq_of_lt (by omega)
    have w3 : w32 (8 + boundStructs l + boundStrings l + alignUp off 4) = 8 + boundStructs l + boundStrings l + alignUp off 4 := Nat.mod_eq_of_lt (by omega)
    have w4 : sub32 (w32 (alignUp off 4 + (8 + boundStructs l + boundStrings l))) (boundStrings l) = alignUp off 4 + 8 + boundStructs l := by
      unfold sub32 w32; omega
    simp only [w1, w2, w3, w4]
    refine NoUB.bind (NoUB.throwIf _ _) fun _ _ => ?_
    have hg := growTo_max s.data (8 + boundStructs l + boundStrings l + alignUp off 4)
    obtain ⟨d', e, -⟩ := writeBoundMods_fit (alignUp off 4) l (growTo s.data (8 + boundStructs l + boundStrings l + alignUp off 4))
      (alignUp off 4) (alignUp off 4 + 8 + boundStructs l) (by omega) (by omega) (by omega) (by omega)
    rw [e, ok_bind]
    exact finishDir_noUB (List.getElem?_eq_some_iff.mp hs).1 hd (by decide)

/-! ### Relocations -/

/-- C94: writing relocations; with the rounding of the raw data up to the file alignment, everything has to end below 4 GiB. -/
theorem C94_relocations (p : Image) (hd : p.nt.dirs.length = 16) (hfa : Pow2 p.nt.fileAlign) (ts : List RelocTable) (i off : Nat)
    (save strip : Bool) (h : off + 6 + relocBytes ts + p.nt.fileAlign ≤ 4294967296) (u : UB) :
    p.rebuildRelocations ts i off save strip ≠ ubE u := by
  refine (show NoUB (p.rebuildRelocations ts i off save strip) from ?_) u
  have hfp := hfa.pos
  unfold Image.rebuildRelocations
  split
  · exact NoUB.throwE _
  · next s hs =>
    obtain ⟨a1, a2, a3⟩ := alignUp4_bounds (off := off) (by omega)
    generalize alignUp off 4 = start at *
    have e1 : sub32 start off = start - off := sub32_of_le a1 (by omega)
    have e2 := relocNeeded_eq start (start - off) a3 ts (start - off) (Nat.le_refl _) (by omega) (by omega)
    have e3 : w32 (start - off + relocBytes ts + start) = start - off + relocBytes ts + start := Nat.mod_eq_of_lt (by omega)
    simp only [e1, e2, e3]
    refine NoUB.bind (NoUB.throwIf _ _) fun _ _ => ?_
    obtain ⟨b1, b2, -⟩ := alignUp_bounds (off := start - off + relocBytes ts + start) hfa (by omega)
    have hlen : start + relocBytes ts ≤ (if s.data.length < start - off + relocBytes ts + start then
        resize s.data (alignUp (start - off + relocBytes ts + start) p.nt.fileAlign) else s.data).length := by
      split
      · rw [resize_length]; omega
      · omega
    rw [relocWriteTables_eq ts _ start hlen (by omega) a3, ok_bind]
    have hf := finishDir_noUB (p := p) (s := s) (id := dirBaseReloc) (strip := strip) (save := save) (List.getElem?_eq_some_iff.mp hs).1 hd (by decide)
      (d := patch (if s.data.length < start - off + relocBytes ts + start then
        resize s.data (alignUp (start - off + relocBytes ts + start) p.nt.fileAlign) else s.data) start (encTables ts))
      (dir := (s.rvaFromOffset start, sub32 (start - off + relocBytes ts) (start - off)))
    unfold Image.finishDir at hf
    revert hf
    dsimp only
    generalize Image.recalculateSectionSizes _ _ _ = R
    intro hf
    cases R with
    | error e => exact hf
    | ok q =>
      rw [ok_bind] at hf ⊢
      cases save with
      | false => exact NoUB.ok _
      | true =>
        rw [if_pos rfl] at hf ⊢
        revert hf
        generalize NtHdr.setDirRva _ _ _ = A
        intro hf
        cases A with
        | error e => exact hf
        | ok nt =>
          rw [ok_bind] at hf ⊢
          revert hf
          generalize NtHdr.setDirSize _ _ _ = B
          intro hf
          cases B with
          | error e => exact hf
          | ok nt => exact NoUB.ok _

/-! ### Load configuration -/

theorem rvaToVa_noUB (p : Image) (rva : Nat) : NoUB (p.rvaToVa rva) := by
  unfold Image.rvaToVa Image.rvaToVa32
  split
  · split
    · exact NoUB.throwE _
    · exact NoUB.ok _
  · exact NoUB.ok _

theorem writeVals_fit (w : Nat) (vs : List Nat) (d : Bytes) (pos : Nat) (h : pos + w * vs.length ≤ d.length)
    (h32 : pos + w * vs.length < 4294967296) : ∃ d', writeVals w d pos vs = .ok d' ∧ d'.length = d.length := by
  induction vs generalizing d pos with
  | nil => exact ⟨d, rfl, rfl⟩
  | cons v vs ih =>
    rw [List.length_cons, Nat.mul_succ] at h h32
    obtain ⟨d1, e1, l1⟩ := writeAt_fit (d := d) (o := pos) (x := leBytes w v) (by rw [leBytes_length]; omega)
    have w1 : w32 (pos + w) = pos + w := Nat.mod_eq_of_lt (by omega)
    obtain ⟨d2, e2, l2⟩ := ih d1 (pos + w) (by omega) (by omega)
    refine ⟨d2, ?_, by omega⟩
    unfold writeVals
    rw [e1, ok_bind, w1, e2]

theorem writeLocks_noUB (p : Image) (vs : List Nat) (d : Bytes) (pos : Nat) (h : pos + p.kind.ptr * (vs.length + 1) ≤ d.length)
    (h32 : pos + p.kind.ptr * (vs.length + 1) < 4294967296) : NoUB (p.writeLocks d pos vs) := by
  induction vs generalizing d pos with
  | nil =>
    obtain ⟨d1, e1, -⟩ := writeAt_fit (d := d) (o := pos) (x := leBytes p.kind.ptr 0) (by rw [leBytes_length]; simpa using h)
    unfold Image.writeLocks
    rw [e1]
    exact NoUB.ok _
  | cons v vs ih =>
    rw [List.length_cons, Nat.mul_succ] at h h32
    unfold Image.writeLocks
    refine NoUB.bind (rvaToVa_noUB _ _) fun va _ => ?_
    obtain ⟨d1, e1, l1⟩ := writeAt_fit (d := d) (o := pos) (x := leBytes p.kind.ptr va) (by rw [leBytes_length]; omega)
    have w1 : w32 (pos + p.kind.ptr) = pos + p.kind.ptr := Nat.mod_eq_of_lt (by omega)
    rw [e1, ok_bind, w1]
    exact ih d1 _ (by omega) (by omega)

/-- C94: writing the load configuration with its tables. -/
theorem C94_config (p : Image) (hd : p.nt.dirs.length = 16) (c : ConfigInfo) (i off : Nat) (wse wlock save strip : Bool)
    (h : off + (p.kind.ptr - 1) + configSpace p.kind c wse wlock < 4294967296) (u : UB) :
    p.rebuildConfig c i off wse wlock save strip ≠ ubE u := by
  refine (show NoUB (p.rebuildConfig c i off wse wlock save strip) from ?_) u
  unfold Image.rebuildConfig
  split
  · exact NoUB.throwE _
  · next s hs =>
    have hp := p.kind.ptr_pow2
    unfold configSpace at h
    obtain ⟨a1, a2, -⟩ := alignUp_bounds (off := off) hp (by omega)
    generalize alignUp off p.kind.ptr = start at *
    have e1 : w32 (off + sub32 start off) = start := by
      rw [sub32_of_le a1 (by omega), w32, Nat.mod_eq_of_lt (by omega)]; omega
    have hz : configSizes p.kind c wse wlock = (if wse then 4 * c.handlers.length else 0, if wlock then p.kind.ptr * (c.locks.length + 1) else 0) := by
      unfold configSizes
      congr 1
      · cases wse
        · rfl
        · rw [if_pos rfl, if_pos rfl, w32, Nat.mul_comm, Nat.mod_eq_of_lt]
          rw [if_pos rfl] at h; omega
      · cases wlock
        · rfl
        · rw [if_pos rfl, if_pos rfl, w32, Nat.mul_comm, Nat.mod_eq_of_lt]
          simp only [if_true] at h; omega
    rw [e1, hz]
    generalize hA : (if wse = true then 4 * c.handlers.length else 0) = A at *
    generalize hB : (if wlock = true then p.kind.ptr * (c.locks.length + 1) else 0) = B at *
    dsimp only
    have w1 : w32 (p.kind.sizeofConfig + start) = p.kind.sizeofConfig + start := Nat.mod_eq_of_lt (by omega)
    have w2 : w32 (p.kind.sizeofConfig + A) = p.kind.sizeofConfig + A := Nat.mod_eq_of_lt (by omega)
    have w3 : w32 (p.kind.sizeofConfig + A + start) = p.kind.sizeofConfig + A + start := Nat.mod_eq_of_lt (by omega)
    have w4 : w32 (p.kind.sizeofConfig + A + B) = p.kind.sizeofConfig + A + B := Nat.mod_eq_of_lt (by omega)
    have w5 : w32 (p.kind.sizeofConfig + A + B + start) = p.kind.sizeofConfig + A + B + start := Nat.mod_eq_of_lt (by omega)
    simp only [w1, w2, w3, w4, w5]
    have ht : ∀ (b : Bool) (l : List Nat) (x y z : Nat), NoUB (p.tableVa b l x y z) := by
      intro b l x y z
      unfold Image.tableVa
      split
      · split
        · exact NoUB.ok _
        · exact rvaToVa_noUB _ _
      · exact NoUB.ok _
    refine NoUB.bind (NoUB.throwIf _ _) fun _ _ => NoUB.bind (ht _ _ _ _ _) fun seVa _ => NoUB.bind (ht _ _ _ _ _) fun lockVa _ => ?_
    have hg := growTo_max s.data (p.kind.sizeofConfig + A + B + start)
    obtain ⟨d1, f1, l1⟩ := writeAt_fit (d := growTo s.data (p.kind.sizeofConfig + A + B + start)) (o := start)
      (x := encFields (configFields p.kind { c with seTable := seVa, lockTable := lockVa, seCount := c.handlers.length }))
      (by rw [configFields_length]; omega)
    have hlen : 4 * (if wse = true then sortBy (fun a b : Nat => decide (a ≤ b)) c.handlers else []).length = A := by
      rw [← hA]
      split
      · rw [(sortBy_perm _ _).length_eq]
      · rfl
    obtain ⟨d2, f2, l2⟩ := writeVals_fit 4 (if wse = true then sortBy (fun a b : Nat => decide (a ≤ b)) c.handlers else []) d1
      (p.kind.sizeofConfig + start) (by omega) (by omega)
    rw [f1, ok_bind, f2, ok_bind]
    split
    · next hl =>
      rw [if_pos hl.1] at hB
      exact NoUB.bind (writeLocks_noUB p _ _ _ (by omega) (by omega)) fun d _ =>
        finishDir_noUB (List.getElem?_eq_some_iff.mp hs).1 hd (by decide)
    · exact finishDir_noUB (List.getElem?_eq_some_iff.mp hs).1 hd (by decide)

/-! ### Exports -/

theorem writeExportFns_fit (va hi : Nat) (fs : List ExportFn) (d : Bytes) (pa pf last : Nat)
    (hs : fs.Pairwise fun a b => a.ordinal < b.ordinal) (hlo : ∀ f ∈ fs, last < f.ordinal) (hhi : ∀ f ∈ fs, f.ordinal ≤ hi)
    (h1 : pa + 4 * (hi - last) ≤ d.length) (h2 : pf + (fs.map fun f => strSize f.fwd).sum ≤ d.length)
    (h3 : pa + 4 * (hi - last) < 4294967296) (h4 : pf + (fs.map fun f => strSize f.fwd).sum < 4294967296) :
    ∃ d', writeExportFns va d pa pf last fs = .ok d' ∧ d'.length = d.length := by
  induction fs generalizing d pa pf last with
  | nil => exact ⟨d, rfl, rfl⟩
  | cons f fs ih =>
    have hf := hlo f (List.mem_cons_self ..)
    have hf' := hhi f (List.mem_cons_self ..)
    obtain ⟨hp, hs'⟩ := List.pairwise_cons.mp hs
    have hhi' : ∀ g ∈ fs, g.ordinal ≤ hi := fun g hg => hhi g (List.mem_cons_of_mem _ hg)
    simp only [List.map_cons, List.sum_cons] at h2 h4
    have w1 : w32 (pa + 4 * (f.ordinal - last - 1)) = pa + 4 * (f.ordinal - last - 1) := Nat.mod_eq_of_lt (by omega)
    have w2 : w32 (pa + 4 * (f.ordinal - last - 1) + 4) = pa + 4 * (f.ordinal - last) := by
      rw [w32, Nat.mod_eq_of_lt (by omega)]; omega
    obtain ⟨d1, e1, l1⟩ := writeAt_fit (d := d) (o := pa) (x := zeros (4 * (f.ordinal - last - 1))) (by rw [zeros_length]; omega)
    unfold writeExportFns
    simp only [if_pos hf, w1, w2]
    rw [e1, ok_bind]
    split
    · next hne =>
      have hss : strSize f.fwd = f.fwd.length + 1 := if_neg hne
      obtain ⟨d2, e2, l2⟩ := writeAt_fit (d := d1) (o := pa + 4 * (f.ordinal - last - 1)) (x := leBytes 4 (w32 (va + pf))) (by rw [leBytes_length]; omega)
      obtain ⟨d3, e3, l3⟩ := writeAt_fit (d := d2) (o := pf) (x := f.fwd ++ [0]) (by simp only [List.length_append, List.length_singleton]; omega)
      have w3 : w32 (pf + (f.fwd.length + 1)) = pf + (f.fwd.length + 1) := Nat.mod_eq_of_lt (by omega)
      obtain ⟨d4, e4, l4⟩ := ih d3 (pa + 4 * (f.ordinal - last)) (pf + (f.fwd.length + 1)) f.ordinal hs' hp hhi' (by omega) (by omega) (by omega) (by omega)
      exact ⟨d4, by rw [e2, ok_bind, e3, ok_bind, w3, e4], by omega⟩
    · obtain ⟨d2, e2, l2⟩ := writeAt_fit (d := d1) (o := pa + 4 * (f.ordinal - last - 1)) (x := leBytes 4 f.rva) (by rw [leBytes_length]; omega)
      obtain ⟨d4, e4, l4⟩ := ih d2 (pa + 4 * (f.ordinal - last)) pf f.ordinal hs' hp hhi' (by omega) (by omega) (by omega) (by omega)
      exact ⟨d4, by rw [e2, ok_bind, e4], by omega⟩

/-- The same from the lowest ordinal on. -/
theorem writeExportFns_fit' (va lo hi : Nat) (fs : List ExportFn) (d : Bytes) (pa pf : Nat)
    (hs : fs.Pairwise fun a b => a.ordinal < b.ordinal) (hlo : ∀ f ∈ fs, lo ≤ f.ordinal) (hlo' : ∃ f ∈ fs, f.ordinal = lo) (hhi : ∀ f ∈ fs, f.ordinal ≤ hi)
    (h1 : pa + 4 * (hi - lo + 1) ≤ d.length) (h2 : pf + (fs.map fun f => strSize f.fwd).sum ≤ d.length)
    (h3 : pa + 4 * (hi - lo + 1) < 4294967296) (h4 : pf + (fs.map fun f => strSize f.fwd).sum < 4294967296) :
    ∃ d', writeExportFns va d pa pf lo fs = .ok d' ∧ d'.length = d.length := by
  cases fs with
  | nil => exact ⟨d, rfl, rfl⟩
  | cons f fs =>
    obtain ⟨hp, hs'⟩ := List.pairwise_cons.mp hs
    have hf : f.ordinal = lo := by
      obtain ⟨g, hg, e⟩ := hlo'
      have := hlo f (List.mem_cons_self ..)
      rcases List.mem_cons.mp hg with rfl | hg
      · exact e
      · have := hp g hg; omega
    have hhi' : ∀ g ∈ fs, g.ordinal ≤ hi := fun g hg => hhi g (List.mem_cons_of_mem _ hg)
    have hlo'' : ∀ g ∈ fs, lo < g.ordinal := fun g hg => by have := hp g hg; omega
    simp only [List.map_cons, List.sum_cons] at h2 h4
    have w1 : w32 pa = pa := Nat.mod_eq_of_lt (by omega)
    have w2 : w32 (pa + 4) = pa + 4 := Nat.mod_eq_of_lt (by omega)
    obtain ⟨d1, e1, l1⟩ := writeAt_fit (d := d) (o := pa) (x := zeros 0) (by rw [zeros_length]; omega)
    unfold writeExportFns
    simp only [if_neg (show ¬ f.ordinal > lo by omega), Nat.mul_zero, Nat.add_zero, w1, w2]
    rw [e1, ok_bind]
    split
    · next hne =>
      have hss : strSize f.fwd = f.fwd.length + 1 := if_neg hne
      obtain ⟨d2, e2, l2⟩ := writeAt_fit (d := d1) (o := pa) (x := leBytes 4 (w32 (va + pf))) (by rw [leBytes_length]; omega)
      obtain ⟨d3, e3, l3⟩ := writeAt_fit (d := d2) (o := pf) (x := f.fwd ++ [0]) (by simp only [List.length_append, List.length_singleton]; omega)
      have w3 : w32 (pf + (f.fwd.length + 1)) = pf + (f.fwd.length + 1) := Nat.mod_eq_of_lt (by omega)
      obtain ⟨d4, e4, l4⟩ := writeExportFns_fit va hi fs d3 (pa + 4) (pf + (f.fwd.length + 1)) lo hs' hlo'' hhi' (by omega) (by omega) (by omega) (by omega)
      exact ⟨d4, by rw [e2, ok_bind, e3, ok_bind, w3, e4], by omega⟩
    · obtain ⟨d2, e2, l2⟩ := writeAt_fit (d := d1) (o := pa) (x := leBytes 4 f.rva) (by rw [leBytes_length]; omega)
      obtain ⟨d4, e4, l4⟩ := writeExportFns_fit va hi fs d2 (pa + 4) pf lo hs' hlo'' hhi' (by omega) (by omega) (by omega) (by omega)
      exact ⟨d4, by rw [e2, ok_bind, e4], by omega⟩

theorem writeExportNames_fit (va : Nat) (es : List (Bytes × Nat)) (d : Bytes) (pr ps po : Nat)
    (h1 : pr + 4 * es.length ≤ d.length) (h2 : ps + (es.map fun e => e.1.length + 1).sum ≤ d.length) (h3 : po + 2 * es.length ≤ d.length)
    (g1 : pr + 4 * es.length < 4294967296) (g2 : ps + (es.map fun e => e.1.length + 1).sum < 4294967296) (g3 : po + 2 * es.length < 4294967296) :
    ∃ d', writeExportNames va d pr ps po es = .ok d' ∧ d'.length = d.length := by
  induction es generalizing d pr ps po with
  | nil => exact ⟨d, rfl, rfl⟩
  | cons e es ih =>
    simp only [List.map_cons, List.sum_cons, List.length_cons] at *
    obtain ⟨d1, e1, l1⟩ := writeAt_fit (d := d) (o := pr) (x := leBytes 4 (w32 (va + ps))) (by rw [leBytes_length]; omega)
    obtain ⟨d2, e2, l2⟩ := writeAt_fit (d := d1) (o := ps) (x := e.1 ++ [0]) (by simp only [List.length_append, List.length_singleton]; omega)
    obtain ⟨d3, e3, l3⟩ := writeAt_fit (d := d2) (o := po) (x := leBytes 2 e.2) (by rw [leBytes_length]; omega)
    obtain ⟨d4, e4, l4⟩ := ih d3 (pr + 4) (ps + (e.1.length + 1)) (po + 2) (by omega) (by omega) (by omega) (by omega) (by omega) (by omega)
    have w1 : w32 (pr + 4) = pr + 4 := Nat.mod_eq_of_lt (by omega)
    have w2 : w32 (ps + (e.1.length + 1)) = ps + (e.1.length + 1) := Nat.mod_eq_of_lt (by omega)
    have w3 : w32 (po + 2) = po + 2 := Nat.mod_eq_of_lt (by omega)
    refine ⟨d4, ?_, by omega⟩
    unfold writeExportNames
    rw [e1, ok_bind, e2, ok_bind, e3, ok_bind, w1, w2, w3, e4]

theorem exportNames_strings (base : Nat) (l : List ExportFn) :
    ((exportNames base l).map fun e => e.1.length + 1).sum = (l.map fun f => strSize f.name).sum := by
  rw [← exportNames_str base l, nameStrBytes_length]

/-- C94: writing exports. The ordinals run from `lo` to `hi`; nothing is asked of names, addresses and forward strings, and functions
    with the same name or ordinal are no problem either. -/
theorem C94_exports (p : Image) (hd : p.nt.dirs.length = 16) (info : ExportInfo) (l : List ExportFn) (i off lo hi : Nat) (save strip : Bool)
    (hr : OrdinalRange l lo hi) (hhi : hi < 65536) (h : off + 3 + exportSize info l lo hi < 4294967296) (u : UB) :
    p.rebuildExports info l i off save strip ≠ ubE u := by
  refine (show NoUB (p.rebuildExports info l i off save strip) from ?_) u
  unfold Image.rebuildExports
  split
  · exact NoUB.throwE _
  · next s hs =>
    rw [exportSize, namedSum] at h
    change off + 3 + (40 + (info.name.length + 1) + _ + (l.map fun f => strSize f.fwd).sum + _) < _ at h
    obtain ⟨a1, a2, -⟩ := alignUp4_bounds (off := off) (by omega)
    obtain ⟨flo, hflo, hflo'⟩ := hr.lo_mem
    have hlohi : lo ≤ hi := by have := hr.le flo hflo; omega
    have hne : l ≠ [] := by intro e; rw [e] at hflo; simp at hflo
    have hmax := foldl_max_eq l 0 hi (fun f hf => (hr.le f hf).2) (by omega) (Or.inr hr.hi_mem)
    have hmin := foldl_min_eq l (if l = [] then info.base else 4294967295) lo (fun f hf => (hr.le f hf).1)
      (by rw [if_neg hne]; omega) (Or.inr hr.lo_mem)
    rw [hmax, hmin]
    have hperm := sortedFns_perm l
    have hsorted : sortBy (fun a b : ExportFn => decide (a.ordinal ≤ b.ordinal)) l = sortedFns l := rfl
    have hn1 := exportNames_length lo (sortedFns l)
    have hn2 := exportNames_strings lo (sortedFns l)
    have hn3 : ((sortedFns l).map fun f => strSize f.fwd).sum = (l.map fun f => strSize f.fwd).sum := (hperm.map _).sum_nat
    rw [(hperm.map _).sum_nat] at hn2
    rw [(hperm.filter _).length_eq] at hn1
    rw [hsorted]
    generalize alignUp off 4 = start at *
    generalize (l.filter fun f => decide (f.name ≠ [])).length = nn at *
    generalize (l.map fun f => strSize f.name).sum = zn at *
    generalize (l.map fun f => strSize f.fwd).sum = zf at *
    have w1 : w32 zn = zn := Nat.mod_eq_of_lt (by omega)
    have w2 : w32 zf = zf := Nat.mod_eq_of_lt (by omega)
    have w3 : w32 (nn * 2) = nn * 2 := Nat.mod_eq_of_lt (by omega)
    have w4 : w32 (sub32 hi lo + 1) = hi - lo + 1 := by rw [sub32_of_le hlohi (by omega), w32, Nat.mod_eq_of_lt (by omega)]
    have w5 : w32 ((hi - lo + 1) * 4) = (hi - lo + 1) * 4 := Nat.mod_eq_of_lt (by omega)
    have w6 : w32 (nn * 4) = nn * 4 := Nat.mod_eq_of_lt (by omega)
    have w7 : w32 (40 + nn * 2 + (hi - lo + 1) * 4 + (info.name.length + 1 + zn + zf) + nn * 4) =
      40 + nn * 2 + (hi - lo + 1) * 4 + (info.name.length + 1 + zn + zf) + nn * 4 := Nat.mod_eq_of_lt (by omega)
    have w8 : w32 (40 + nn * 2 + (hi - lo + 1) * 4 + (info.name.length + 1 + zn + zf) + nn * 4 + start) =
      40 + nn * 2 + (hi - lo + 1) * 4 + (info.name.length + 1 + zn + zf) + nn * 4 + start := Nat.mod_eq_of_lt (by omega)
    have w9 : w32 (info.name.length + 1 + start + 40) = info.name.length + 1 + start + 40 := Nat.mod_eq_of_lt (by omega)
    have w10 : w32 (info.name.length + 1 + start + 40 + zn) = info.name.length + 1 + start + 40 + zn := Nat.mod_eq_of_lt (by omega)
    have w11 : w32 (info.name.length + 1 + start + 40 + zn + nn * 2) = info.name.length + 1 + start + 40 + zn + nn * 2 :=
      Nat.mod_eq_of_lt (by omega)
    have w12 : w32 (info.name.length + 1 + start + 40 + zn + nn * 2 + zf) = info.name.length + 1 + start + 40 + zn + nn * 2 + zf :=
      Nat.mod_eq_of_lt (by omega)
    have w13 : w32 (info.name.length + 1 + start + 40 + zn + nn * 2 + zf + (hi - lo + 1) * 4) =
      info.name.length + 1 + start + 40 + zn + nn * 2 + zf + (hi - lo + 1) * 4 := Nat.mod_eq_of_lt (by omega)
    have w14 : w32 (start + 40) = start + 40 := Nat.mod_eq_of_lt (by omega)
    simp only [w1, w2, w3, w4, w5, w6, w7, w8, w9, w10, w11, w12, w13, w14]
    rcases exportDup_spec l [] [] with hx | hx | hx
    · rw [hx.1, ok_bind]
      refine NoUB.bind (NoUB.throwIf _ _) fun _ _ => ?_
      have hg := growTo_max s.data (40 + nn * 2 + (hi - lo + 1) * 4 + (info.name.length + 1 + zn + zf) + nn * 4 + start)
      generalize growTo s.data (40 + nn * 2 + (hi - lo + 1) * 4 + (info.name.length + 1 + zn + zf) + nn * 4 + start) = d0 at *
      obtain ⟨d1, f1, l1⟩ := writeAt_fit (d := d0) (o := start) (x := encFields (exportDirFields
        { info with base := lo, numFuncs := hi - lo + 1, numNames := nn, rvaFuncs := w32 (s.va + (info.name.length + 1 + start + 40 + zn + nn * 2 + zf)),
                    rvaNames := w32 (s.va + (info.name.length + 1 + start + 40 + zn + nn * 2 + zf + (hi - lo + 1) * 4)),
                    rvaOrds := w32 (s.va + (info.name.length + 1 + start + 40 + zn)) } (w32 (s.va + (start + 40)))))
        (by rw [encFields_length]; simp only [exportDirFields, List.map_cons, List.map_nil, List.sum_cons, List.sum_nil]; omega)
      obtain ⟨d2, f2, l2⟩ := writeAt_fit (d := d1) (o := start + 40) (x := info.name ++ [0])
        (by simp only [List.length_append, List.length_singleton]; omega)
      obtain ⟨d3, f3, l3⟩ := writeExportFns_fit' s.va lo hi (sortedFns l) d2 (info.name.length + 1 + start + 40 + zn + nn * 2 + zf)
        (info.name.length + 1 + start + 40 + zn + nn * 2) (sortedFns_lt hx.2.1) (fun f hf => (hr.le f (hperm.mem_iff.mp hf)).1)
        ⟨flo, hperm.mem_iff.mpr hflo, hflo'⟩ (fun f hf => (hr.le f (hperm.mem_iff.mp hf)).2) (by omega) (by omega) (by omega) (by omega)
      obtain ⟨d4, f4, l4⟩ := writeExportNames_fit s.va (exportNames lo (sortedFns l)) d3
        (info.name.length + 1 + start + 40 + zn + nn * 2 + zf + (hi - lo + 1) * 4) (info.name.length + 1 + start + 40)
        (info.name.length + 1 + start + 40 + zn) (by omega) (by omega) (by omega) (by omega) (by omega) (by omega)
      rw [f1, ok_bind, f2, ok_bind, f3, ok_bind, f4, ok_bind]
      exact finishDir_noUB (List.getElem?_eq_some_iff.mp hs).1 hd (by decide)
    · rw [hx.1]; exact NoUB.throwE _
    · rw [hx.1]; exact NoUB.throwE _

/-- C94: writing an export directory without functions. (With a base of 2 and more the size of the address table is negative, see
    `C27_empty_list`.) -/
theorem C94_exports_empty (p : Image) (hd : p.nt.dirs.length = 16) (info : ExportInfo) (i off : Nat) (save strip : Bool)
    (hb : info.base ≤ 1) (h : off + 3 + 45 + info.name.length < 4294967296) (u : UB) :
    p.rebuildExports info [] i off save strip ≠ ubE u := by
  refine (show NoUB (p.rebuildExports info [] i off save strip) from ?_) u
  unfold Image.rebuildExports
  split
  · exact NoUB.throwE _
  · next s hs =>
    obtain ⟨a1, a2, -⟩ := alignUp4_bounds (off := off) (by omega)
    generalize alignUp off 4 = start at *
    have hz : ∃ k, k ≤ 4 ∧ w32 (w32 (sub32 0 info.base + 1) * 4) = k := by
      rcases (show info.base = 0 ∨ info.base = 1 by omega) with e | e <;> rw [e]
      · exact ⟨4, by decide, by decide⟩
      · exact ⟨0, by decide, by decide⟩
    obtain ⟨k, hk, hz⟩ := hz
    simp only [List.foldl_nil, if_true, hz, List.filter_nil, List.length_nil, List.map_nil, List.sum_nil, Nat.zero_mul, show w32 0 = 0 from rfl,
      Nat.add_zero, show exportDup [] [] [] = .ok () from rfl, ok_bind, show sortBy (fun a b : ExportFn => decide (a.ordinal ≤ b.ordinal)) [] = [] from rfl,
      show ∀ b, exportNames b [] = [] from fun _ => rfl, writeExportFns, writeExportNames]
    have w1 : w32 (40 + k + (info.name.length + 1)) = 40 + k + (info.name.length + 1) := Nat.mod_eq_of_lt (by omega)
    have w2 : w32 (40 + k + (info.name.length + 1) + start) = 40 + k + (info.name.length + 1) + start := Nat.mod_eq_of_lt (by omega)
    have w3 : w32 (start + 40) = start + 40 := Nat.mod_eq_of_lt (by omega)
    simp only [w1, w2, w3]
    refine NoUB.bind (NoUB.throwIf _ _) fun _ _ => ?_
    have hg := growTo_max s.data (40 + k + (info.name.length + 1) + start)
    generalize growTo s.data (40 + k + (info.name.length + 1) + start) = d0 at *
    have hw : ∀ (inf : ExportInfo) (r : Nat), ∃ d1, writeAt d0 start (encFields (exportDirFields inf r)) = .ok d1 ∧ d1.length = d0.length := fun inf r =>
      writeAt_fit (by rw [encFields_length]; simp only [exportDirFields, List.map_cons, List.map_nil, List.sum_cons, List.sum_nil]; omega)
    refine NoUB.bind (fun u => ?_) fun d1 hd1 => ?_
    · obtain ⟨d1, f1, -⟩ := hw _ _
      rw [f1]; exact NoUB.ok _ u
    · have l1 := writeAt_length hd1
      obtain ⟨d2, f2, l2⟩ := writeAt_fit (d := d1) (o := start + 40) (x := info.name ++ [0])
        (by simp only [List.length_append, List.length_singleton]; omega)
      rw [f2, ok_bind]
      exact finishDir_noUB (List.getElem?_eq_some_iff.mp hs).1 hd (by decide)

end PE
