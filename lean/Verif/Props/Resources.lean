/-
C30, C31, C32: the resource directory.
-/
import Verif.Lemmas.ResourcesRound
import Verif.Lemmas.ResourcesSafe
import Verif.Props.Imports

namespace PE

/-! ### C30: reading -/

/-- C30: `get_resources` ends on every image, whatever the data are (also if the directories form a cycle): the only
    undefined behaviour that can happen is a read outside of a buffer (`C30_name_overread`) or, for a directory table
    without 16 slots, an index outside of it. -/
theorem C30_terminates (p : Image) : p.getResources ≠ .error (.ub .hang) := by
  have hnt : ∀ id u, (p.nt.directoryExists id = .error (.ub u) ∨ p.nt.getDirRva id = .error (.ub u)) → u = .oobIndex := by
    intro id u h
    unfold NtHdr.directoryExists NtHdr.getDirRva NtHdr.dirAt at h
    cases hd : p.nt.dirs[id]? with
    | none =>
      rw [hd] at h
      rcases h with h | h <;> split at h <;> cases h <;> rfl
    | some d =>
      rw [hd] at h
      rcases h with h | h <;> split at h <;> cases h
  have h : Only (fun u => u = .oobRead ∨ u = .oobIndex) p.getResources := by
    unfold Image.getResources
    refine Only.bind (fun u hu => Or.inr (hnt _ u (Or.inl hu))) fun b _ => ?_
    split
    · refine Only.bind (fun u hu => Or.inr (hnt _ u (Or.inr hu))) fun res _ => ?_
      refine Only.bind (fun u hu => Or.inl ?_) fun r _ => Only.ok _
      exact (resDir_safe (resName_only p res) 2147483649 0 [] (by omega) ⟨List.nodup_nil, by simp⟩ (by simp)).1 u hu
    · exact Only.ok _
  intro hc
  rcases h _ hc with h | h <;> cases h

theorem getResources_safe {p : Image} (hr : Readable p)
    (hname : ∀ res off len avail, p.readInt 2 (w32 (res + off)) .virt true = .ok len →
      p.dataLenFrom (w32 (res + off + 2)) (w32 (res + off + 2)) .virt true = .ok avail → len ≤ avail → 2 * len ≤ avail) (u : UB) :
    p.getResources ≠ .error (.ub u) := by
  refine (show NoUB p.getResources from ?_) u
  unfold Image.getResources
  refine NoUB.bind (hasDir_noUB hr.dirs.slots (by decide)) fun b _ => ?_
  split
  · refine NoUB.bind (getDir_noUB hr.dirs _).1 fun res _ => NoUB.bind (fun u hu => ?_) fun r _ => NoUB.ok _
    have hB : ∀ off, Only (fun _ => False) (p.resName res off) := fun off => Only.of_noUB (resName_noUB (hname res off))
    exact (resDir_safe hB 2147483649 0 [] (by omega) ⟨List.nodup_nil, by simp⟩ (by simp)).1 u hu
  · exact NoUB.ok _

/-- C30: on every image loaded from a file in which the names of resources lie completely inside of the data, reading the
    resources returns a tree or throws. Missing: the code compares the number of characters of a name (instead of
    the number of bytes) with the available space, see `C30_name_overread`. -/
theorem C30_safe_partial (k : Kind) (strict fromMem dbg : Bool) (pre : List (Nat × Nat)) (hp : pre.length = 16)
    (hp' : ∀ d ∈ pre, d.1 < 2 ^ 32) (file : Bytes) (p : Image) (h : load k strict fromMem dbg pre file = .ok p)
    (hname : ∀ res off len avail, p.readInt 2 (w32 (res + off)) .virt true = .ok len →
      p.dataLenFrom (w32 (res + off + 2)) (w32 (res + off + 2)) .virt true = .ok avail → len ≤ avail → 2 * len ≤ avail) (u : UB) :
    p.getResources ≠ .error (.ub u) := by
  exact getResources_safe (loaded_readable hp hp' h) hname u

/-! ### C31: round trip -/

/-- What `rebuild_resources` writes, and what it is for the reader. -/
theorem resources_durable (p : Image) (i off : Nat) (s : Sec) (r : ResDir) (strip : Bool) (start pos fin : Nat)
    (hh : Host p i s) (hdirs : p.nt.DirsOk) (hnum : dirResource < p.nt.numRva) (hr : r.Ok)
    (hoff : off < 2 ^ 32 - 4) (hstart : start = ceilTo off 4)
    (hpos : pos = start + ((start - off) + (16 + 8 * r.es.length + tablesOf r.es) + namesIn r.es))
    (hfin : fin = dataEndOf r.es pos) (hroom : HostRoom p i s fin) (hsmall : fin + 3 < start + 2 ^ 31)
    (hfit : r.Ordered ∨ AllData (fun d => 4 ∣ d.length) r.es ∨ fin + 3 ≤ s.data.length)
    (hend : AllData (fun d => d ≠ []) r.es ∨ ceilTo fin 4 < s.data.length ∨ (4 ∣ p.nt.secAlign ∧ ¬ p.nt.secAlign ∣ ceilTo fin 4)) :
    ∃ q n, p.rebuildResources r i off true strip = .ok (q, (s.va + start, fin - start)) ∧
      RebuiltIn p q i s start n dirResource (s.va + start, fin - start) ∧ n < fin - start + 4 ∧
      Durable p q i s start n dirResource (s.va + start, fin - start) strip false (fun w => ∃ t, w.getResources = .ok t ∧ r.Same t) := by
  obtain ⟨h1, h2, h3⟩ := sorted_end r.es pos
  have hge := dataEndOf_ge r.es pos
  have hcg := ceilTo_ge (x := dataEndOf (sortedOf r.es) pos) (a := 4) (by omega)
  have hsf : start + (fin - start) = fin := by omega
  have hf : dataEndOf (sortedOf r.es) pos ≤ fin ∨ dataEndOf (sortedOf r.es) pos ≤ s.data.length := by
    rcases hfit with h | h | h
    · left; rw [ResDir.sortedOf_id h]; omega
    · left; rw [h3 h]; omega
    · right; omega
  obtain ⟨q, e1, e2, e3⟩ := resources_lasting p i off s r strip start pos (fin - start) _ hh hdirs hnum hr hoff hstart hpos
    (by rw [hfin]) rfl (by rw [hsf]; exact hroom) (by omega) (by rw [hsf]; exact hf) (by omega) (by
      rcases hend with h | h | ⟨h, h'⟩
      · exact Or.inl h
      · right; left; rw [hfin, ← h2] at h; omega
      · right; right
        intro hd
        refine h' ?_
        rw [hfin, ← h2, ceilTo_of_dvd (Nat.dvd_trans h hd)]
        exact hd)
  obtain ⟨x, L, x1, x2, x3⟩ := e3.shown
  exact ⟨q, _, e1, e2, by omega, e3.frame, x, L, x1, x2, fun w hw => ⟨_, x3 w hw, r.same_fin hr⟩⟩

/-- C31: with enough room `rebuild_resources` stores any tree that the format can hold, changes nothing else, and
    `get_resources` then returns the same tree, sorted. Missing: the size computed for the data can be up to 3 bytes too
    small if the tree is not in order (`C32_overflow`), hence `hfit`; an empty resource at the very end of the section
    cannot be read (`C31_empty_at_end`), hence `hend`; numbers above 16 bits (`C31_long_id`). -/
theorem C31_round_trip_partial (p : Image) (i off : Nat) (s : Sec) (r : ResDir) (strip : Bool) (start pos fin : Nat)
    (hh : Host p i s) (hdirs : p.nt.DirsOk) (hnum : dirResource < p.nt.numRva) (hr : r.Ok)
    (hoff : off < 2 ^ 32 - 4) (hstart : start = ceilTo off 4)
    (hpos : pos = start + ((start - off) + (16 + 8 * r.es.length + tablesOf r.es) + namesIn r.es))
    (hfin : fin = dataEndOf r.es pos) (hroom : HostRoom p i s fin) (hsmall : fin + 3 < start + 2 ^ 31)
    (hfit : r.Ordered ∨ AllData (fun d => 4 ∣ d.length) r.es ∨ fin + 3 ≤ s.data.length)
    (hend : AllData (fun d => d ≠ []) r.es ∨ ceilTo fin 4 < s.data.length ∨ (4 ∣ p.nt.secAlign ∧ ¬ p.nt.secAlign ∣ ceilTo fin 4)) :
    ∃ q n t, p.rebuildResources r i off true strip = .ok (q, (s.va + start, fin - start)) ∧
      RebuiltIn p q i s start n dirResource (s.va + start, fin - start) ∧ n < fin - start + 4 ∧
      q.getResources = .ok t ∧ r.Same t := by
  obtain ⟨q, n, h1, h2, h3, h4⟩ := resources_durable p i off s r strip start pos fin hh hdirs hnum hr hoff hstart hpos hfin hroom hsmall hfit
    hend
  obtain ⟨t, h5, h6⟩ := h4.now
  exact ⟨q, n, t, h1, h2, h3, h5, h6⟩

/-! ### C32: space -/

/-- C32: for every tree (of less than 4 GiB) and every section: if the tree is in order, or all sizes of data are multiples
    of 4, or there are 3 more bytes in the section, then `rebuild_resources` never writes outside of the data of the
    section: it returns or throws. Missing: all other trees (`C32_overflow`). -/
theorem C32_in_bounds_partial (p : Image) (i off : Nat) (s : Sec) (r : ResDir) (save strip : Bool) (start pos fin : Nat)
    (hs : p.secs[i]? = some s) (hdirs : p.nt.dirs.length = 16) (hoff : off < 2 ^ 32 - 4) (hstart : start = ceilTo off 4)
    (hpos : pos = start + ((start - off) + (16 + 8 * r.es.length + tablesOf r.es) + namesIn r.es))
    (hfin : fin = dataEndOf r.es pos) (hlt : fin + 3 < 2 ^ 32)
    (hfit : r.Ordered ∨ AllData (fun d => 4 ∣ d.length) r.es ∨ fin + 3 ≤ s.data.length) (u : UB) :
    p.rebuildResources r i off save strip ≠ .error (.ub u) := by
  refine (show NoUB (p.rebuildResources r i off save strip) from ?_) u
  obtain ⟨h1, h2, h3⟩ := sorted_end r.es pos
  have hk := sortedOf_keeps r.es
  have hge := dataEndOf_ge r.es pos
  have hge' := dataEndOf_ge (sortedOf r.es) pos
  have hlen := sortedOf_length r.es
  have hcg := ceilTo_ge (x := off) (a := 4) (by omega)
  have hcl' := ceilTo_lt (x := off) (a := 4) (by omega)
  have hg := growTo_ge s.data fin
  have hf : dataEndOf (sortedOf r.es) pos ≤ (growTo s.data fin).length := by
    rcases hfit with h | h | h
    · rw [ResDir.sortedOf_id h]; omega
    · rw [h3 h]; omega
    · omega
  unfold Image.rebuildResources
  rw [hs]
  dsimp only
  have hau : alignUp off 4 = start := by rw [alignUp_of_le pow2_4 (by omega) (by omega), hstart]
  refine NoUB.bind (NoUB.throwIf _ _) fun _ _ => NoUB.bind (NoUB.throwIf _ _) fun _ _ => ?_
  rw [hau, structsOf_eq, stringsOf_eq, sub32_of_le (by omega) (by omega)]
  have wid : ∀ x, x < 4294967296 → w32 x = x := fun x hx => by rw [w32, Nat.mod_eq_of_lt hx]
  rw [show start - off + 16 + (8 * r.es.length + tablesOf r.es) = start - off + (16 + 8 * r.es.length + tablesOf r.es) by omega,
    wid (start - off + (16 + 8 * r.es.length + tablesOf r.es)) (by omega), wid (namesIn r.es) (by omega),
    wid (start + (start - off + (16 + 8 * r.es.length + tablesOf r.es))) (by omega),
    show start + (start - off + (16 + 8 * r.es.length + tablesOf r.es)) + namesIn r.es = pos by omega, wid pos (by omega),
    dataPosOf_eq _ _ (by omega), sub32_of_le (by omega) (by omega),
    show start - off + (16 + 8 * r.es.length + tablesOf r.es) + namesIn r.es + (dataEndOf r.es pos - pos) = fin - start by omega,
    wid (fin - start) (by omega), show fin - start + start = fin by omega, wid fin (by omega), ResDir.sort_eq]
  refine NoUB.bind (NoUB.throwIf _ _) fun _ _ => NoUB.bind ?_ fun d _ =>
    finishDir_noUB (List.getElem?_eq_some_iff.mp hs).1 hdirs (by decide)
  have hL : dataEndOf (sortedOf r.es) pos < 4294967296 := by omega
  unfold putDir
  dsimp only
  refine NoUB.bind (writeAt_noUB (by rw [resHdrBytes_length]; omega)) fun d1 hd1 => ?_
  have l1 := writeAt_length hd1
  have hcn := countNamed_le (sortedOf r.es)
  rw [wid (start + 16) (by omega), wid _ (by omega)]
  have ht := hk.tables
  have hn := hk.names
  exact (putEntries_safe hL (sortedOf r.es) d1 (start + 16) (start + 16 + 8 * (countNamed (sortedOf r.es) + countIds (sortedOf r.es)))
    (start + (start - off + (16 + 8 * r.es.length + tablesOf r.es))) pos (by omega) (by omega) (by omega) (by omega) (Nat.le_refl _)).1

/-! ### Examples and counterexamples -/

/-- A tree with a named and a numbered type, not in order. -/
def demoRes : ResDir :=
  { h := { chars := 1, stamp := 2, major := 3, minor := 4 },
    es := [.dir (.id 5) {} [.dir (.id 1) { stamp := 7 } [.data (.id 1033) 1252 [1, 2, 3, 4]]],
      .dir (.name [0x41, 0x416]) {} [.dir (.id 2) {} [.data (.id 0) 0 [9, 8, 7, 6, 5, 4, 3, 2]]]] }

theorem demoRes_ok : demoRes.Ok := by
  refine ⟨⟨⟨by decide, by decide, by decide, by decide⟩, by decide, by decide, by decide⟩, ?_, by decide⟩
  refine ⟨⟨by show 5 < 65536; omega, ⟨⟨by decide, by decide, by decide, by decide⟩, by decide, by decide, by decide⟩, ?_⟩,
    ⟨⟨by decide, by decide⟩, ⟨⟨by decide, by decide, by decide, by decide⟩, by decide, by decide, by decide⟩, ?_⟩, trivial⟩
  · exact ⟨⟨by show 1 < 65536; omega, ⟨⟨by decide, by decide, by decide, by decide⟩, by decide, by decide, by decide⟩,
      ⟨by show 1033 < 65536; omega, by decide⟩, trivial⟩, trivial⟩
  · exact ⟨⟨by show 2 < 65536; omega, ⟨⟨by decide, by decide, by decide, by decide⟩, by decide, by decide, by decide⟩,
      ⟨by show 0 < 65536; omega, by decide⟩, trivial⟩, trivial⟩

theorem demoRes_len : AllData (fun d => 4 ∣ d.length) demoRes.es :=
  ⟨⟨⟨by show 4 ∣ 4; omega, trivial⟩, trivial⟩, ⟨⟨by show 4 ∣ 8; omega, trivial⟩, trivial⟩, trivial⟩

theorem demoRes_ne : AllData (fun d => d ≠ []) demoRes.es :=
  ⟨⟨⟨List.cons_ne_nil _ _, trivial⟩, trivial⟩, ⟨⟨List.cons_ne_nil _ _, trivial⟩, trivial⟩, trivial⟩

/-- C31 applies to this tree, at offset 6 of the last section. -/
example : ∃ q n t, demoImage.rebuildResources demoRes 1 6 true true = .ok (q, (0x2008, 184)) ∧
    RebuiltIn demoImage q 1 (demoImage.secs[1]'(by decide)) 8 n dirResource (0x2008, 184) ∧ n < 184 + 4 ∧ q.getResources = .ok t ∧
    demoRes.Same t :=
  C31_round_trip_partial demoImage 1 6 _ demoRes true 8 146 192 demo_host_last ⟨rfl, by decide⟩ (by decide) demoRes_ok
    (by decide) (by decide) (by decide) (by decide) (by decide) (by decide) (Or.inr (Or.inl demoRes_len)) (Or.inl demoRes_ne)

/-- C32 applies to the same. -/
example (u : UB) : demoImage.rebuildResources demoRes 1 6 true true ≠ .error (.ub u) :=
  C32_in_bounds_partial demoImage 1 6 _ demoRes true true 8 146 192 rfl rfl (by decide) (by decide) (by decide) (by decide)
    (by decide) (Or.inr (Or.inl demoRes_len)) u

/-- C32 is false in general: the space for the data is computed in the given order and the data are written in sorted
    order. Here data of 4 and 1 bytes are in reverse order, and the second is written 3 bytes behind the end. -/
theorem C32_overflow : ∃ (p : Image) (s : Sec) (r : ResDir), Host p 1 s ∧ p.nt.DirsOk ∧ dirResource < p.nt.numRva ∧ r.Ok ∧
    p.rebuildResources r 1 0 true false = .error (.ub .oobWrite) := by
  refine ⟨demoImage, _, { es := [.data (.id 2) 0 [1, 2, 3, 4], .data (.id 1) 0 [5]] }, demo_host_last, ⟨rfl, by decide⟩, by decide, ?_,
    by decide +kernel⟩
  exact ⟨⟨⟨by decide, by decide, by decide, by decide⟩, by decide, by decide, by decide⟩,
    ⟨⟨by show 2 < 65536; omega, by decide⟩, ⟨by show 1 < 65536; omega, by decide⟩, trivial⟩, by decide⟩

/-- A tree with one empty resource. -/
def emptyRes : ResDir := { es := [.data (.id 1) 0 []] }

/-- C31: an empty resource that ends up at the end of the pages of the section is written but cannot be read again (the
    reader asks for the section of the address behind the end). -/
theorem C31_empty_at_end : ∃ (p q : Image) (s : Sec) (r : ResDir) (dir : Nat × Nat), Host p 1 s ∧ p.nt.DirsOk ∧
    dirResource < p.nt.numRva ∧ r.Ok ∧ HostRoom p 1 s 4096 ∧ p.rebuildResources r 1 4056 true false = .ok (q, dir) ∧
    q.getResources = .error (.exn .noSectionFound) := by
  obtain ⟨⟨q, dir⟩, h1, h2⟩ := exists_of_okAnd (x := demoImage.rebuildResources emptyRes 1 4056 true false)
    (f := fun r => decide (r.1.getResources.map (fun t => t.es.length) = .error (.exn .noSectionFound))) (by decide +kernel)
  have h2 := of_decide_eq_true h2
  refine ⟨demoImage, q, _, emptyRes, dir, demo_host_last, ⟨rfl, by decide⟩, by decide, ?_, by decide, h1, ?_⟩
  · exact ⟨⟨⟨by decide, by decide, by decide, by decide⟩, by decide, by decide, by decide⟩,
      ⟨⟨by show 1 < 65536; omega, by decide⟩, trivial⟩, by decide⟩
  · cases hq : q.getResources with
    | ok t => rw [hq] at h2; cases h2
    | error e => rw [hq] at h2; cases h2; rfl

/-- C31: the number of a resource is written with 32 bits but read with 16. -/
theorem C31_long_id : ∃ (p q : Image) (s : Sec) (dir : Nat × Nat) (t : ResDir), Host p 1 s ∧ p.nt.DirsOk ∧
    dirResource < p.nt.numRva ∧ HostRoom p 1 s 100 ∧
    p.rebuildResources { es := [.data (.id 65537) 0 [7]] } 1 0 true false = .ok (q, dir) ∧
    q.getResources = .ok t ∧ t.es = [.data (.id 1) 0 [7]] := by
  obtain ⟨⟨q, dir⟩, h1, h2⟩ := exists_of_okAnd (x := demoImage.rebuildResources { es := [.data (.id 65537) 0 [7]] } 1 0 true false)
    (f := fun r => decide (r.1.getResources.map (fun t => t.es) = .ok [.data (.id 1) 0 [7]])) (by decide +kernel)
  have h2 := of_decide_eq_true h2
  cases hq : q.getResources with
  | error e => rw [hq] at h2; cases h2
  | ok t => rw [hq] at h2; exact ⟨demoImage, q, _, dir, t, demo_host_last, ⟨rfl, by decide⟩, by decide, by decide, h1, hq, Except.ok.inj h2⟩

/-- An image whose only section is filled completely; the resource directory has one entry whose name of 2 characters
    begins 2 bytes before the end of the section. -/
def overreadImage : Image :=
  { kind := .pe32, dos := createDos, lfanew := 0x80, hdrData := zeros 16,
    nt := { (createNt .pe32 0x1000 3) with
      sizeHeaders := 0x200, sizeImage := 0x2000, numSections := 1, dirs := [(0, 0), (0, 0), (0x1000, 0x1000)] ++ List.replicate 13 (0, 0) },
    secs := [{ va := 0x1000, vsize := 0x1000, rawSize := 0x1000, rawPtr := 0x200,
               data := zeros 12 ++ [1, 0, 0, 0] ++ [0xFC, 0x0F, 0, 0x80, 0, 0, 0, 0] ++ zeros 4068 ++ [2, 0, 65, 0] }] }

/-- C30 is false in general: the length of a name (which counts characters) is compared with the number of available bytes,
    and reading the name goes on behind the end of the data of the section. -/
theorem C30_name_overread : overreadImage.getResources = .error (.ub .oobRead) := by
  have : overreadImage.getResources.map (fun t => t.es.length) = .error (.ub .oobRead) := by decide +kernel
  cases hq : overreadImage.getResources with
  | ok t => rw [hq] at this; cases this
  | error e => rw [hq] at this; cases this; rfl

end PE
