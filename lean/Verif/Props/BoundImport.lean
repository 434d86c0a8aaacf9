/-
C44, C54: the bound import directory.
-/
import Verif.Lemmas.BoundImport
import Verif.Props.LoadConfig
import Verif.Lemmas.Shown

namespace PE

/-- The number of records of a bound import list: one per module and one per forwarder reference. -/
def boundCount (l : List BoundMod) : Nat := (l.map (fun m => 1 + m.refs.length)).sum

/-- The bytes a bound import list takes: eight for every record and for the final one, and the zero terminated names. -/
def boundSize (l : List BoundMod) : Nat :=
  8 + (l.map (fun m => 8 + (m.name.length + 1) + (m.refs.map (fun r => 8 + (r.name.length + 1))).sum)).sum

/-- A name that can be written as a C string, and a 32-bit time stamp. -/
def BoundRef.Ok (r : BoundRef) : Prop := r.stamp < 2 ^ 32 ∧ ∀ x ∈ r.name, x ≠ 0
/-- The same for a module and all its references. -/
def BoundMod.Ok (m : BoundMod) : Prop := m.stamp < 2 ^ 32 ∧ (∀ x ∈ m.name, x ≠ 0) ∧ ∀ r ∈ m.refs, r.Ok

theorem boundCount_eq (l : List BoundMod) : boundCount l = (boundEntries l).length := by
  have := boundStructs_eq l
  have h : boundStructs l = 8 * boundCount l := by
    unfold boundStructs boundCount
    clear this
    induction l with
    | nil => rfl
    | cons m l ih => simp only [List.map_cons, List.sum_cons]; omega
  omega

theorem boundSize_eq (l : List BoundMod) : boundSize l = 8 + boundStructs l + boundStrings l := by
  unfold boundSize boundStructs boundStrings
  have hr : ∀ rs : List BoundRef, (rs.map (fun r => 8 + (r.name.length + 1))).sum =
      8 * rs.length + (rs.map (fun r => r.name.length + 1)).sum := by
    intro rs
    induction rs with
    | nil => rfl
    | cons r rs ih => simp only [List.map_cons, List.sum_cons, List.length_cons]; omega
  induction l with
  | nil => rfl
  | cons m l ih => simp only [List.map_cons, List.sum_cons, hr] at ih ⊢; omega

theorem getD_growTo (d : Bytes) (n i : Nat) : (growTo d n).getD i 0 = d.getD i 0 := by
  unfold growTo
  split
  · next h =>
    rw [resize_of_le (by omega), List.getD_eq_getElem?_getD, List.getD_eq_getElem?_getD]
    by_cases hi : i < d.length
    · rw [List.getElem?_append_left hi]
    · rw [List.getElem?_append_right (by omega), List.getElem?_eq_none (l := d) (by omega)]
      unfold zeros
      rw [List.getElem?_replicate]
      split <;> rfl
  · rfl

set_option maxHeartbeats 1000000 in
/-- What `rebuild_bound_imports` writes, and what it is for the reader. -/
theorem bound_written (p : Image) (i off : Nat) (s : Sec) (l : List BoundMod) (strip : Bool)
    (hh : Host p i s) (hdirs : p.nt.DirsOk) (hnum : dirBoundImport < p.nt.numRva) (hl : ∀ m ∈ l, m.Ok)
    (hoff : off < 2 ^ 32 - 4) (hstrip : strip = false ∨ i + 1 = p.secs.length) (hsize : boundSize l ≤ 65536)
    (start : Nat) (hstart : start = ceilTo off 4) (hroom : HostRoom p i s (start + boundSize l))
    (hterm : ∀ j < 2, s.data.getD (start + 8 * boundCount l + 4 + j) 0 = 0) :
    ∃ q, p.rebuildBound l i off true strip = .ok (q, (s.va + start, boundSize l)) ∧
      RebuiltIn p q i s start (boundSize l) dirBoundImport (s.va + start, boundSize l) ∧
      Durable p q i s start (boundSize l) dirBoundImport (s.va + start, boundSize l) strip true (fun r => r.getBound = .ok l) := by
  have hs1 : off ≤ start := by rw [hstart]; exact ceilTo_ge (by omega)
  have hs2 : start < off + 4 := by
    rw [hstart]; exact ceilTo_lt (by omega)
  have hau : alignUp off 4 = start := by
    rw [hstart] at hs2 ⊢; exact alignUp_of_le pow2_4 (by omega) (by omega)
  obtain ⟨hl1, hl2⟩ := hroom.lt hh
  have hbs := boundSize_eq l
  have e1 := boundStructs_eq l
  have e2 := boundStrings_eq l
  have e3 := boundCount_eq l
  have hgl := (hroom.grow hh).lt hh
  have hg := growTo_ge s.data (start + boundSize l)
  generalize hes : boundEntries l = es at *
  generalize hN : boundSize l = N at *
  have hneed : w32 (8 + boundStructs l + w32 (boundStrings l)) = N := by
    simp only [w32]; rw [Nat.mod_eq_of_lt (a := boundStrings l) (by omega), Nat.mod_eq_of_lt (by omega)]; omega
  have hpt : sub32 (w32 (start + N)) (w32 (boundStrings l)) = start + (boundRecs (8 * es.length + 8) es).length + 8 := by
    simp only [w32]
    rw [Nat.mod_eq_of_lt (a := boundStrings l) (by omega), Nat.mod_eq_of_lt (by omega), sub32_of_le (by omega) (by omega),
      boundRecs_length]
    omega
  have hrl := boundRecs_length (8 * es.length + 8) es
  generalize hE : boundRecs (8 * es.length + 8) es ++ (slice (growTo s.data (start + N)) (start + 8 * es.length) 8 ++
    boundStrs es) = e
  have hgapl : (slice (growTo s.data (start + N)) (start + 8 * es.length) 8).length = 8 :=
    slice_length_of_le (by omega)
  have hel : e.length = N := by
    rw [← hE]; simp only [List.length_append, hrl, hgapl]; omega
  obtain ⟨q, hq, hw⟩ := finishDir_written (e := e) (pos := start) strip (s.va + start, N) hh hdirs hnum (by omega)
    (by omega) hroom
  have hpos' := hh.pos
  refine ⟨q, ?_, ?_, ?_⟩
  · unfold Image.rebuildBound
    rw [hh.sec]
    dsimp only
    rw [hau, hneed, show w32 (N + start) = start + N by rw [w32, Nat.mod_eq_of_lt (by omega)]; omega,
      hroom.check hh, ok_bind, hpt]
    rw [writeBoundMods_eq _ _ _ _ _ (by omega) (by rw [hes, hrl]; omega) (by rw [hes, hrl]; omega) (by omega), ok_bind, hes]
    rw [show start + (boundRecs (8 * es.length + 8) es).length + 8 - start = 8 * es.length + 8 by rw [hrl]; omega]
    rw [patch_gap (by omega), hrl, hE]
    rw [show w32 (s.va + start) = s.va + start by rw [w32, Nat.mod_eq_of_lt (by omega)]]
    exact hq
  · have := hw.rebuilt
    rw [hel] at this
    exact this
  · obtain ⟨hfr, L, -, -, -, hsh⟩ := hw.shown hh (by omega) (by omega)
    rw [hel] at hfr
    refine ⟨hfr, e, L, by omega, hsh true (fun _ => hstrip), fun r hr => ?_⟩
    obtain ⟨m, t, hwin, htl, -, -, hrw⟩ := hr.window
    have hfin := hwin.fin
    obtain ⟨hraw, hat⟩ := hrw rfl
    generalize t.data = D at *
    have hDl := hat.le
    have hat' : At (D.drop start) 0 e := At.drop (by simpa using hat)
    unfold Image.getBound
    rw [hr.has, ok_bind, decide_eq_true (by dsimp only; omega), if_pos rfl, hr.rva, ok_bind]
    dsimp only
    rw [hraw.len true start (by omega), ok_bind, hr.size, ok_bind, throwIf_neg (by omega), ok_bind,
      hraw.ptr true start (by omega), ok_bind]
    dsimp only
    rw [throwIf_neg (by omega), ok_bind]
    rw [← hE] at hat'
    have hA := hat'.left
    have hB := (hat'.right (n := 8 * es.length) (by rw [hrl, Nat.zero_add])).left
    have hC := (hat'.right (n := 8 * es.length) (by rw [hrl, Nat.zero_add])).right (n := 8 * es.length + 8) (by rw [hgapl])
    refine boundLoop_eq l 0 (8 * es.length + 8) (by rw [hes]; exact hA) (by rw [hes]; exact hC) ?_ (by simp) (by rw [hes]; omega)
      (by omega) (by omega) (by rw [hes]; omega) (fun m hm => hl m hm)
    rw [hes, Nat.zero_add]
    refine At.trans hB ⟨by rw [leBytes_length, hgapl]; decide, ?_⟩
    rw [leBytes_length]
    rw [leBytes_zero]
    have hz : ∀ j < 2, (growTo s.data (start + N)).getD (start + 8 * es.length + 4 + j) 0 = 0 := by
      intro j hj; rw [getD_growTo, ← e3]; exact hterm j hj
    apply List.ext_getElem?
    intro j
    rw [getElem?_slice, getElem?_slice]
    unfold zeros
    rw [List.getElem?_replicate]
    split
    · next hj =>
      rw [if_pos (by omega)]
      have := hz j hj
      rw [List.getD_eq_getElem?_getD, List.getElem?_eq_getElem (by omega), Option.getD_some] at this
      rw [show start + 8 * es.length + (4 + j) = start + 8 * es.length + 4 + j by omega, List.getElem?_eq_getElem (by omega), this]
    · rfl

/-- C44: with enough room, `rebuild_bound_imports` succeeds, changes nothing else, and `get_bound_import_module_list`
    then returns the same modules, time stamps and forwarder references in the same order. The offsets of the format have
    16 bits, so the whole directory has to fit into 64 KiB. Missing: the final null record is never written, so the
    place for it (two bytes of it) must have been zero or beyond the end of the section data (`C44_no_terminator`); a
    section that is not the last one and is stripped (`C44_stripped_unreadable`). -/
theorem C44_round_trip_partial (p : Image) (i off : Nat) (s : Sec) (l : List BoundMod) (strip : Bool)
    (hh : Host p i s) (hdirs : p.nt.DirsOk) (hnum : dirBoundImport < p.nt.numRva) (hl : ∀ m ∈ l, m.Ok)
    (hoff : off < 2 ^ 32 - 4) (hstrip : strip = false ∨ i + 1 = p.secs.length) (hsize : boundSize l ≤ 65536)
    (start : Nat) (hstart : start = ceilTo off 4) (hroom : HostRoom p i s (start + boundSize l))
    (hterm : ∀ j < 2, s.data.getD (start + 8 * boundCount l + 4 + j) 0 = 0) :
    ∃ q, p.rebuildBound l i off true strip = .ok (q, (s.va + start, boundSize l)) ∧
      RebuiltIn p q i s start (boundSize l) dirBoundImport (s.va + start, boundSize l) ∧
      q.getBound = .ok l := by
  obtain ⟨q, h1, h2, h3⟩ := bound_written p i off s l strip hh hdirs hnum hl hoff hstrip hsize start hstart hroom hterm
  exact ⟨q, h1, h2, h3.now⟩

/-- Two modules, one with two forwarder references. -/
def demoBound : List BoundMod :=
  [⟨[0x61, 0x2E, 0x64], 7, [⟨[0x62], 9⟩, ⟨[], 10⟩]⟩, ⟨[0x63, 0x63], 8, []⟩]

theorem demoBound_ok : ∀ m ∈ demoBound, m.Ok := by
  unfold demoBound BoundMod.Ok BoundRef.Ok
  decide

/-- C44 applies to the demo image, at offset 18 of its last section. -/
example : ∃ q, demoImage.rebuildBound demoBound 1 18 true true = .ok (q, (0x2014, 50)) ∧ q.getBound = .ok demoBound := by
  obtain ⟨q, h1, -, h2⟩ := C44_round_trip_partial demoImage 1 18 _ demoBound true demo_host_last
    ⟨rfl, by decide⟩ (by decide) demoBound_ok (by decide) (Or.inr rfl) (by decide) 20 (by decide) (by decide)
    (by decide)
  exact ⟨q, h1, h2⟩

/-- What is missing in C44: when the list is written over old data, these stay in the place of the final null record, so
    that reading back goes on with rubbish (here it throws). -/
theorem C44_no_terminator : ∃ (p q : Image) (s : Sec) (dir : Nat × Nat), Host p 1 s ∧
    p.nt.DirsOk ∧ dirBoundImport < p.nt.numRva ∧ HostRoom p 1 s 512 ∧
    p.rebuildBound [] 1 0 true false = .ok (q, dir) ∧ q.getBound = .error (.exn .incorrectBoundImportDirectory) := by
  obtain ⟨⟨q, dir⟩, h1, h2⟩ := exists_of_okAnd (x := demoImage.rebuildBound [] 1 0 true false)
    (f := fun r => decide (r.1.getBound = .error (.exn .incorrectBoundImportDirectory))) (by decide +kernel)
  exact ⟨demoImage, q, _, dir, demo_host_last, ⟨rfl, by decide⟩, by decide, by decide, h1, of_decide_eq_true h2⟩

/-- What is missing in C44: in a section that is not the last one and is stripped, the zero that ends the last name is
    cut off, and reading throws. -/
theorem C44_stripped_unreadable : ∃ (p q : Image) (s : Sec) (dir : Nat × Nat), Host p 0 s ∧
    p.nt.DirsOk ∧ dirBoundImport < p.nt.numRva ∧ HostRoom p 0 s 512 ∧
    p.rebuildBound demoBound 0 8 true true = .ok (q, dir) ∧
    q.getBound = .error (.exn .incorrectBoundImportDirectory) := by
  obtain ⟨⟨q, dir⟩, h1, h2⟩ := exists_of_okAnd (x := demoImage.rebuildBound demoBound 0 8 true true)
    (f := fun r => decide (r.1.getBound = .error (.exn .incorrectBoundImportDirectory))) (by decide +kernel)
  exact ⟨demoImage, q, _, dir, demo_host_first, ⟨rfl, by decide⟩, by decide, by decide, h1, of_decide_eq_true h2⟩

/-! ### Reading is safe -/

theorem readU_noUB {n : Nat} {b : Bytes} {o : Nat} (h : o + n ≤ b.length) : NoUB (readU n b o) := by
  rw [readU_ok h]; exact NoUB.ok _

theorem boundRefs_noUB {b : Bytes} {len : Nat} (hb : len ≤ b.length) (n pos : Nat) : NoUB (boundRefs b len n pos) := by
  induction n generalizing pos with
  | zero => exact NoUB.ok _
  | succ n ih =>
    rw [boundRefs]
    refine NoUB.bind (NoUB.throwIf _ _) (fun _ h1 => ?_)
    rw [throwIf_ok_iff] at h1
    exact NoUB.bind (readU_noUB (by omega)) (fun o _ => NoUB.bind (checkedCStr_noUB hb _ _) (fun _ _ =>
      NoUB.bind (readU_noUB (by omega)) (fun _ _ => NoUB.bind (ih _) (fun _ _ => NoUB.ok _))))

theorem boundLoop_noUB {b : Bytes} {len : Nat} (hb : len ≤ b.length) (pos : Nat) (hpos : pos + 8 ≤ len) :
    NoUB (boundLoop b len pos) := by
  induction hm : len - pos using Nat.strongRecOn generalizing pos with
  | _ m ih =>
    rw [boundLoop]
    refine NoUB.bind (readU_noUB (by omega)) (fun off _ => ?_)
    split
    · exact NoUB.ok _
    · refine NoUB.bind (checkedCStr_noUB hb _ _) (fun _ _ => NoUB.bind (readU_noUB (by omega)) (fun _ _ =>
        NoUB.bind (readU_noUB (by omega)) (fun n hn => NoUB.bind (NoUB.throwIf _ _) (fun _ h1 =>
        NoUB.bind (boundRefs_noUB hb _ _) (fun _ _ => NoUB.bind (NoUB.throwIf _ _) (fun _ h2 => ?_))))))
      rw [throwIf_ok_iff] at h1 h2
      have hn' : n < 65536 := by
        rw [readU_ok (by omega)] at hn
        rw [← Except.ok.inj hn]
        exact rd_lt 2 _ _
      have hsafe : pos + 16 + n * 8 ≤ 4294967295 := by
        have h3 : isSumSafe pos (w32 (2 * 8 + n * 8)) = true := by
          cases h : isSumSafe pos (w32 (2 * 8 + n * 8)) with
          | true => rfl
          | false => exact absurd (Or.inr h) h1
        unfold isSumSafe w32 at h3
        rw [decide_eq_true_eq] at h3
        omega
      have hw : w32 (pos + 8 + 8 * n) = pos + 8 + 8 * n := by rw [w32, Nat.mod_eq_of_lt (by omega)]
      rw [hw] at h2 ⊢
      rw [dif_pos (by omega)]
      exact NoUB.bind (ih _ (by omega) _ (by omega) rfl) (fun _ _ => NoUB.ok _)

/-- The length and the pointer of a directory belong to the same buffer. -/
theorem dataLen_ptr {p : Image} {rva len : Nat} {b : Bytes} {o : Nat} (t : DataType) (hdrs : Bool)
    (h1 : p.dataLenFrom rva rva t hdrs = .ok len) (h2 : p.ptrFromRva rva t hdrs = .ok (b, o)) :
    len ≤ (b.drop o).length := by
  have hw : ∀ x, w32 x ≤ x := fun x => Nat.mod_le _ _
  unfold Image.dataLenFrom at h1
  unfold Image.ptrFromRva at h2
  by_cases hc : hdrs = true ∧ rva < p.hdrData.length
  · rw [if_pos ⟨hc.1, hc.2, hc.2⟩] at h1
    rw [if_pos hc] at h2
    cases h1; cases h2
    rw [List.length_drop]
    exact hw _
  · rw [if_neg (by rintro ⟨a, b, _⟩; exact hc ⟨a, b⟩)] at h1
    rw [if_neg hc] at h2
    obtain ⟨s, hs, h2⟩ := bind_ok_iff.mp h2
    rw [hs, ok_bind] at h1
    split at h1
    · simp at h1
    · next hlt =>
      cases h1; cases h2
      have := hw (s.viewLen t p.nt.secAlign + s.va - rva)
      have hv : s.viewLen t p.nt.secAlign ≤ (s.view t p.nt.secAlign).length := by
        cases t
        · exact Nat.le_refl _
        · simp only [Sec.viewLen, Sec.view, Sec.virt, List.length_append, zeros_length]; omega
      rw [List.length_drop]
      omega

theorem ptrFromRva_noUB (p : Image) (rva : Nat) (t : DataType) (h : Bool) : NoUB (p.ptrFromRva rva t h) := by
  unfold Image.ptrFromRva
  split
  · exact NoUB.ok _
  · exact NoUB.bind (sectionFromRva_noUB _ _) (fun _ _ => NoUB.ok _)

theorem getBound_noUB {p : Image} (hp : Readable p) : NoUB p.getBound := by
  unfold Image.getBound
  refine NoUB.bind (hasDir_noUB hp.dirs.slots (by decide)) (fun b _ => ?_)
  split
  · refine NoUB.bind (getDir_noUB hp.dirs _).1 (fun rva hrva => NoUB.bind (dataLenFrom_noUB _ _ _ _ _) (fun n hn =>
      NoUB.bind (getDir_noUB hp.dirs _).2.1 (fun size _ => NoUB.bind (NoUB.throwIf _ _) (fun _ _ =>
      NoUB.bind (ptrFromRva_noUB _ _ _ _) (fun bo hbo => NoUB.bind (NoUB.throwIf _ _) (fun _ h1 => ?_))))))
    obtain ⟨buf, o⟩ := bo
    rw [throwIf_ok_iff] at h1
    exact boundLoop_noUB (dataLen_ptr _ _ hn hbo) 0 (by omega)
  · exact NoUB.ok _

/-- C54: on every image loaded from any file, `get_bound_import_module_list` returns or throws: it never reads outside
    of a buffer and always ends. -/
theorem C54_bound_safe (k : Kind) (strict fromMem dbg : Bool) (pre : List (Nat × Nat)) (hp : pre.length = 16)
    (hp' : ∀ d ∈ pre, d.1 < 2 ^ 32) (file : Bytes) (p : Image) (h : load k strict fromMem dbg pre file = .ok p) (u : UB) :
    p.getBound ≠ .error (.ub u) :=
  getBound_noUB (loaded_readable hp hp' h) u

end PE
