/-
C27, C28, C55: the export directory.
-/
import Verif.Lemmas.ExportsRound

namespace PE

/-- C27: with enough room, `rebuild_exports` succeeds, changes nothing else, and `get_exported_functions` then returns the
    same functions sorted by ordinal, with the name ordinals relative to the smallest ordinal, and the same information with
    the right counts. Missing (the code loses them): functions with address 0 (`C27_zero_rva`), forwards without
    a name (`C27_unnamed_forward`), addresses of named functions that point into the directory itself (they look like
    forwards), an empty list (`C27_empty_list`), and a list without names whose directory ends exactly at the end of
    the section (`C27_end_of_section`). -/
theorem C27_round_trip_partial (p : Image) (i off : Nat) (s : Sec) (info : ExportInfo) (l : List ExportFn) (strip : Bool)
    (lo hi start size : Nat) (hh : Host p i s) (hdirs : p.nt.DirsOk) (hnum : dirExport < p.nt.numRva)
    (hinfo : info.Writable) (hl : ExportsOk l) (hrange : OrdinalRange l lo hi)
    (hoff : off < 2 ^ 32 - 4) (hstart : start = ceilTo off 4) (hsize : size = exportSize info l lo hi)
    (hroom : HostRoom p i s (start + size))
    (hend : namesOf l ≠ [] ∨ start + size < s.data.length ∨ ¬ p.nt.secAlign ∣ start + size)
    (hout : ∀ f ∈ l, f.name ≠ [] → f.fwd = [] → ¬ (s.va + start + 4 ≤ f.rva ∧ f.rva < s.va + start + size)) :
    ∃ q, p.rebuildExports info l i off true strip = .ok (q, (s.va + start, size)) ∧
      RebuiltIn p q i s start size dirExport (s.va + start, size) ∧
      ∃ (inf : ExportInfo) (l' : List ExportFn), q.getExports = .ok (some inf, l') ∧
        l'.Pairwise (fun a b => a.ordinal < b.ordinal) ∧ (l'.map ExportFn.shown).Perm (l.map ExportFn.shown) ∧
        (∀ f ∈ l', f.nameOrdinal = if f.name = [] then 0 else f.ordinal - lo) ∧
        inf.chars = info.chars ∧ inf.stamp = info.stamp ∧ inf.major = info.major ∧ inf.minor = info.minor ∧
        inf.name = info.name ∧ inf.base = lo ∧ inf.numFuncs = hi - lo + 1 ∧ inf.numNames = (namesOf l).length := by
  obtain ⟨q, inf, pf, h1, h2, h3, h4, -⟩ := exports_written p i off s info l strip lo hi start size hh hdirs hnum hinfo hl
    hrange hoff hstart hsize hroom hend hout
  refine ⟨q, h1, h2, inf, _, h3, ?_, ?_, fun f hf => readBack_mem hf, h4⟩
  · have := sortedFns_lt hl.ordinals
    rw [← List.pairwise_map (f := ExportFn.ordinal) (R := (· < ·))] at this ⊢
    rw [readBack_ordinals]; exact this
  · rw [readBack_shown]; exact (sortedFns_perm l).map _

/-- C28: after `rebuild_exports` the name table, read entry by entry, is in strictly ascending byte order, and it has exactly
    the named functions of the list, each with its ordinal relative to the base of the directory. -/
theorem C28_names_sorted (p : Image) (i off : Nat) (s : Sec) (info : ExportInfo) (l : List ExportFn) (strip : Bool)
    (lo hi start size : Nat) (hh : Host p i s) (hdirs : p.nt.DirsOk) (hnum : dirExport < p.nt.numRva)
    (hinfo : info.Writable) (hl : ExportsOk l) (hrange : OrdinalRange l lo hi)
    (hoff : off < 2 ^ 32 - 4) (hstart : start = ceilTo off 4) (hsize : size = exportSize info l lo hi)
    (hroom : HostRoom p i s (start + size))
    (hend : namesOf l ≠ [] ∨ start + size < s.data.length ∨ ¬ p.nt.secAlign ∣ start + size)
    (hout : ∀ f ∈ l, f.name ≠ [] → f.fwd = [] → ¬ (s.va + start + 4 ≤ f.rva ∧ f.rva < s.va + start + size)) :
    ∃ q inf l' t, p.rebuildExports info l i off true strip = .ok (q, (s.va + start, size)) ∧
      q.getExports = .ok (some inf, l') ∧ nameTable q inf.rvaNames inf.rvaOrds inf.numNames 0 = .ok t ∧
      t.Pairwise (fun a b => a.1 < b.1) ∧
      ∀ n o, (n, o) ∈ t ↔ ∃ f ∈ l, f.name ≠ [] ∧ f.name = n ∧ f.ordinal = lo + o := by
  obtain ⟨q, inf, pf, h1, h2, h3, h4, h5⟩ := exports_written p i off s info l strip lo hi start size hh hdirs hnum hinfo hl
    hrange hoff hstart hsize hroom hend hout
  have hperm := sortedFns_perm l
  refine ⟨q, inf, _, _, h1, h3, h5, exportNames_sorted ?_, fun n o => ?_⟩
  · unfold namesOf
    exact ((hperm.filter _).map _).nodup_iff.mpr hl.names
  · have hw : ∀ f ∈ l, w16 (sub32 f.ordinal lo) = f.ordinal - lo := by
      intro f hf
      have h1 := hrange.le f hf
      have := (hl.ok f hf).ordinal
      rw [sub32_of_le h1.1 (by omega), w16, Nat.mod_eq_of_lt (by omega)]
    rw [mem_exportNames]
    constructor
    · rintro ⟨f, hf, hn, he⟩
      have hf' := hperm.mem_iff.mp hf
      rw [hw f hf'] at he
      have h1 := hrange.le f hf'
      have e1 := congrArg Prod.fst he
      have e2 := congrArg Prod.snd he
      dsimp only at e1 e2
      exact ⟨f, hf', hn, e1.symm, by omega⟩
    · rintro ⟨f, hf, hn, rfl, ho⟩
      refine ⟨f, hperm.mem_iff.mpr hf, hn, ?_⟩
      rw [hw f hf, ho, Nat.add_sub_cancel_left]

/-- C28: on a strictly ascending name table the binary search of a loader finds exactly the entries of the table. -/
theorem C28_binary_search (t : List (Bytes × Nat)) (ht : t.Pairwise (fun a b => a.1 < b.1)) (x : Bytes) (o : Nat) :
    bsearch t x 0 t.length = some o ↔ (x, o) ∈ t := by
  have hlt : ∀ (i j : Nat) (a b : Bytes × Nat), t[i]? = some a → t[j]? = some b → i < j → a.1 < b.1 := by
    intro i j a b ha hb hij
    obtain ⟨hi, rfl⟩ := List.getElem?_eq_some_iff.mp ha
    obtain ⟨hj, rfl⟩ := List.getElem?_eq_some_iff.mp hb
    exact List.pairwise_iff_getElem.mp ht i j hi hj hij
  have main : ∀ n lo, lo + n ≤ t.length →
      (bsearch t x lo n = some o ↔ ∃ k, lo ≤ k ∧ k < lo + n ∧ t[k]? = some (x, o)) := by
    intro n
    induction n using Nat.strongRecOn with
    | _ n ih =>
      intro lo hle
      rw [bsearch]
      by_cases h0 : n = 0
      · rw [dif_pos h0]
        constructor
        · intro h; cases h
        · rintro ⟨k, h1, h2, -⟩; omega
      · rw [dif_neg h0]
        have hmid : lo + n / 2 < t.length := by omega
        obtain ⟨e, he⟩ : ∃ e, t[lo + n / 2]? = some e := ⟨_, List.getElem?_eq_getElem hmid⟩
        rw [he]
        dsimp only
        by_cases h1 : x < e.1
        · rw [if_pos h1, ih (n / 2) (by omega) lo (by omega)]
          constructor
          · rintro ⟨k, a, b, c⟩; exact ⟨k, a, by omega, c⟩
          · rintro ⟨k, a, b, c⟩
            refine ⟨k, a, ?_, c⟩
            rcases Nat.lt_trichotomy k (lo + n / 2) with h | h | h
            · exact h
            · rw [h, he] at c; rw [Option.some.inj c] at h1; exact absurd h1 (bytes_lt_irrefl _)
            · exact absurd (bytes_lt_trans h1 (hlt _ _ _ _ he c h)) (bytes_lt_irrefl _)
        · rw [if_neg h1]
          by_cases h2 : e.1 < x
          · rw [if_pos h2, ih (n - n / 2 - 1) (by omega) (lo + n / 2 + 1) (by omega)]
            constructor
            · rintro ⟨k, a, b, c⟩; exact ⟨k, by omega, by omega, c⟩
            · rintro ⟨k, a, b, c⟩
              refine ⟨k, ?_, by omega, c⟩
              rcases Nat.lt_trichotomy k (lo + n / 2) with h | h | h
              · exact absurd (bytes_lt_trans h2 (hlt _ _ _ _ c he h)) (bytes_lt_irrefl _)
              · rw [h, he] at c; rw [Option.some.inj c] at h2; exact absurd h2 (bytes_lt_irrefl _)
              · exact h
          · rw [if_neg h2]
            constructor
            · intro h
              have hx : e.1 = x := by
                rcases bytesLe_total e.1 x with h3 | h3
                · exact Decidable.byContradiction (fun hc => h2 (bytesLe_lt h3 hc))
                · exact Decidable.byContradiction (fun hc => h1 (bytesLe_lt h3 (fun h => hc h.symm)))
              refine ⟨lo + n / 2, by omega, by omega, ?_⟩
              rw [he, ← hx, ← Option.some.inj h]
            · rintro ⟨k, a, b, c⟩
              rcases Nat.lt_trichotomy k (lo + n / 2) with h | h | h
              · exact absurd (hlt _ _ _ _ c he h) h1
              · rw [h, he] at c; rw [Option.some.inj c]
              · exact absurd (hlt _ _ _ _ he c h) h2
  rw [main t.length 0 (by omega), List.mem_iff_getElem?]
  constructor
  · rintro ⟨k, -, -, h⟩; exact ⟨k, h⟩
  · rintro ⟨k, h⟩
    obtain ⟨hk, -⟩ := List.getElem?_eq_some_iff.mp h
    exact ⟨k, by omega, by omega, h⟩

/-- C28: two functions with the same ordinal, or two with the same name, make `rebuild_exports` throw before anything is
    written; the exception is the right one if only one of the two is the case. -/
theorem C28_duplicates (p : Image) (i off : Nat) (s : Sec) (info : ExportInfo) (l : List ExportFn) (save strip : Bool)
    (hs : p.secs[i]? = some s) (h : ¬ ((l.map ExportFn.ordinal).Nodup ∧ (namesOf l).Nodup)) :
    (p.rebuildExports info l i off save strip = .error (.exn .duplicateExportedFunctionOrdinal) ∧
      ¬ (l.map ExportFn.ordinal).Nodup) ∨
    (p.rebuildExports info l i off save strip = .error (.exn .duplicateExportedFunctionName) ∧ ¬ (namesOf l).Nodup) := by
  unfold Image.rebuildExports
  rw [hs]
  dsimp only
  rcases exportDup_spec l [] [] with h1 | ⟨h1, h2⟩ | ⟨h1, h2⟩
  · exact absurd ⟨h1.2.1, h1.2.2.1⟩ h
  · rw [h1]
    exact Or.inl ⟨rfl, fun hn => h2 ⟨hn, fun f _ => by simp⟩⟩
  · rw [h1]
    exact Or.inr ⟨rfl, fun hn => h2 ⟨hn, fun f _ => by simp⟩⟩

/-! ### Concrete cases -/

/-- Four functions with a gap in the ordinals, in no order: two named ones, one forward, one without a name. -/
def demoExports : List ExportFn :=
  [{ ordinal := 9, rva := 0x1004, name := [0x62, 0x63] }, { ordinal := 5, rva := 0, name := [0x7A], fwd := [0x6B, 0x2E, 0x66] },
   { ordinal := 6, rva := 0x1000 }, { ordinal := 12, rva := 0x1008, name := [0x62] }]

def demoExportInfo : ExportInfo := { chars := 1, stamp := 77, major := 2, minor := 3, name := [0x6C, 0x69, 0x62] }

theorem demoExports_ok : ExportsOk demoExports := by
  refine ⟨?_, by decide, by decide⟩
  unfold demoExports
  simp only [List.forall_mem_cons]
  refine ⟨⟨?_, ?_, ?_, ?_, ?_⟩, ⟨?_, ?_, ?_, ?_, ?_⟩, ⟨?_, ?_, ?_, ?_, ?_⟩, ⟨?_, ?_, ?_, ?_, ?_⟩, by simp⟩ <;> decide

theorem demoExports_range : OrdinalRange demoExports 5 12 :=
  ⟨⟨_, List.mem_cons_of_mem _ List.mem_cons_self, rfl⟩, ⟨{ ordinal := 12, rva := 0x1008, name := [0x62] }, by decide, rfl⟩, by decide⟩

theorem demoExportInfo_ok : demoExportInfo.Writable := ⟨by decide, by decide, by decide, by decide, by decide⟩

/-- C27 applies to the demo image, at offset 18 of its last section. -/
example : ∃ q inf l', demoImage.rebuildExports demoExportInfo demoExports 1 18 true true = .ok (q, (0x2014, 105)) ∧
    q.getExports = .ok (some inf, l') ∧ (l'.map ExportFn.shown).Perm (demoExports.map ExportFn.shown) := by
  obtain ⟨q, h1, -, inf, l', h2, -, h3, -⟩ := C27_round_trip_partial demoImage 1 18 _ demoExportInfo demoExports true 5 12 20 105
    demo_host_last ⟨rfl, by decide⟩ (by decide) demoExportInfo_ok demoExports_ok demoExports_range (by decide) (by decide)
    (by decide) (by decide) (Or.inl (by decide)) (by decide)
  exact ⟨q, inf, l', h1, h2, h3⟩

/-- C28 applies to the same data: the table has the three names. -/
example : ∃ q inf l' t, demoImage.rebuildExports demoExportInfo demoExports 1 18 true true = .ok (q, (0x2014, 105)) ∧
    q.getExports = .ok (some inf, l') ∧ nameTable q inf.rvaNames inf.rvaOrds inf.numNames 0 = .ok t ∧
    bsearch t [0x62, 0x63] 0 t.length = some 4 ∧ bsearch t [0x7A] 0 t.length = some 0 := by
  obtain ⟨q, inf, l', t, h1, h2, h3, h4, h5⟩ := C28_names_sorted demoImage 1 18 _ demoExportInfo demoExports true 5 12 20 105
    demo_host_last ⟨rfl, by decide⟩ (by decide) demoExportInfo_ok demoExports_ok demoExports_range (by decide) (by decide)
    (by decide) (by decide) (Or.inl (by decide)) (by decide)
  refine ⟨q, inf, l', t, h1, h2, h3, (C28_binary_search t h4 _ _).mpr ((h5 _ _).mpr ?_),
    (C28_binary_search t h4 _ _).mpr ((h5 _ _).mpr ?_)⟩ <;> decide

/-- C28: a doubled ordinal and a doubled name. -/
example : demoImage.rebuildExports {} [{ ordinal := 1, rva := 4 }, { ordinal := 1, rva := 8 }] 1 0 true true =
      .error (.exn .duplicateExportedFunctionOrdinal) ∧
    demoImage.rebuildExports {} [{ ordinal := 1, rva := 4, name := [0x61] }, { ordinal := 2, rva := 8, name := [0x61] }] 1 0 true true =
      .error (.exn .duplicateExportedFunctionName) := by
  constructor
  · rcases C28_duplicates demoImage 1 0 _ {} [{ ordinal := 1, rva := 4 }, { ordinal := 1, rva := 8 }] true true rfl (by decide) with h | h
    · exact h.1
    · exact absurd (by decide) h.2
  · rcases C28_duplicates demoImage 1 0 _ {} [{ ordinal := 1, rva := 4, name := [0x61] }, { ordinal := 2, rva := 8, name := [0x61] }]
      true true rfl (by decide) with h | h
    · exact absurd (by decide) h.2
    · exact h.1

/-- What is missing in C27: a function with the address 0 is not read back. -/
theorem C27_zero_rva : ∃ (p q : Image) (s : Sec) (dir : Nat × Nat) (inf : ExportInfo), Host p 1 s ∧ p.nt.DirsOk ∧
    dirExport < p.nt.numRva ∧ HostRoom p 1 s 512 ∧
    p.rebuildExports {} [{ ordinal := 1, rva := 0, name := [0x61] }] 1 0 true false = .ok (q, dir) ∧
    q.getExports = .ok (some inf, []) := by
  obtain ⟨⟨q, dir⟩, h1, h2⟩ := exists_of_okAnd
    (x := demoImage.rebuildExports {} [{ ordinal := 1, rva := 0, name := [0x61] }] 1 0 true false)
    (f := fun r => okAnd r.1.getExports (fun x => decide (x.1.isSome ∧ x.2 = []))) (by decide +kernel)
  obtain ⟨⟨inf, l⟩, h3, h4⟩ := exists_of_okAnd h2
  obtain ⟨h5, h6⟩ := of_decide_eq_true h4
  obtain ⟨inf, rfl⟩ := Option.isSome_iff_exists.mp h5
  dsimp only at h6
  subst h6
  exact ⟨demoImage, q, _, dir, inf, demo_host_last, ⟨rfl, by decide⟩, by decide, by decide, h1, h3⟩

/-- What is missing in C27: the forward of a function without a name is lost, the function comes back with the address of the
    forward string instead. -/
theorem C27_unnamed_forward : ∃ (p q : Image) (s : Sec) (dir : Nat × Nat) (inf : ExportInfo) (f : ExportFn), Host p 1 s ∧
    p.nt.DirsOk ∧ dirExport < p.nt.numRva ∧ HostRoom p 1 s 512 ∧
    p.rebuildExports {} [{ ordinal := 1, fwd := [0x61, 0x2E, 0x62] }] 1 0 true false = .ok (q, dir) ∧
    q.getExports = .ok (some inf, [f]) ∧ f.fwd = [] ∧ f.rva ≠ 0 := by
  obtain ⟨⟨q, dir⟩, h1, h2⟩ := exists_of_okAnd
    (x := demoImage.rebuildExports {} [{ ordinal := 1, fwd := [0x61, 0x2E, 0x62] }] 1 0 true false)
    (f := fun r => okAnd r.1.getExports (fun x => decide (x.1.isSome ∧ x.2 = [{ ordinal := 1, rva := 0x2029 }]))) (by decide +kernel)
  obtain ⟨⟨inf, l⟩, h3, h4⟩ := exists_of_okAnd h2
  obtain ⟨h5, h6⟩ := of_decide_eq_true h4
  obtain ⟨inf, rfl⟩ := Option.isSome_iff_exists.mp h5
  dsimp only at h6
  subst h6
  exact ⟨demoImage, q, _, dir, inf, _, demo_host_last, ⟨rfl, by decide⟩, by decide, by decide, h1, h3, rfl, by decide⟩

/-- What is missing in C27: with an empty list and an ordinal base other than 1 the count of functions wraps around; the
    buffer is then too small for the directory itself, and the rebuilder writes past its end. -/
theorem C27_empty_list : ∃ (p : Image) (s : Sec) (info : ExportInfo), Host p 1 s ∧ p.nt.DirsOk ∧
    dirExport < p.nt.numRva ∧ HostRoom p 1 s 512 ∧ info.Writable ∧
    p.rebuildExports info [] 1 0 true false = .error (.ub .oobWrite) :=
  ⟨demoImage, _, { base := 10 }, demo_host_last, ⟨rfl, by decide⟩, by decide, by decide,
    ⟨by decide, by decide, by decide, by decide, by decide⟩, by decide +kernel⟩

/-- What is missing in C27: without names, a directory that ends exactly where the section ends stores the address behind
    the section as the address of the (empty) name table, and reading throws. -/
theorem C27_end_of_section : ∃ (p q : Image) (s : Sec) (dir : Nat × Nat) (info : ExportInfo) (e : Err), Host p 1 s ∧ p.nt.DirsOk ∧
    dirExport < p.nt.numRva ∧ HostRoom p 1 s 4096 ∧ info.Writable ∧
    p.rebuildExports info [{ ordinal := 1, rva := 0x1000 }] 1 4048 true false = .ok (q, dir) ∧
    q.getExports = .error (.exn e) := by
  obtain ⟨⟨q, dir⟩, h1, h2⟩ := exists_of_okAnd
    (x := demoImage.rebuildExports { name := [0x61, 0x62, 0x63] } [{ ordinal := 1, rva := 0x1000 }] 1 4048 true false)
    (f := fun r => decide (r.1.getExports = .error (.exn .noSectionFound))) (by decide +kernel)
  exact ⟨demoImage, q, _, dir, { name := [0x61, 0x62, 0x63] }, .noSectionFound, demo_host_last, ⟨rfl, by decide⟩, by decide, by decide,
    ⟨by decide, by decide, by decide, by decide, by decide⟩, h1, of_decide_eq_true h2⟩

/-! ### Reading is safe -/

theorem isNullTerminated_noUB {b : Bytes} {n : Nat} (h : n ≤ b.length) : NoUB (isNullTerminated b n) := by
  unfold isNullTerminated
  rw [if_pos h]
  split <;> exact NoUB.ok _

theorem readCStr_noUB {b : Bytes} {o n : Nat} (h : isNullTerminated (b.drop o) n = .ok true) : NoUB (readCStr b o) := by
  unfold isNullTerminated at h
  split at h
  · next hc =>
    unfold readCStr
    rw [hasNul_iff] at hc
    rw [if_pos (hasNul_iff.mpr (List.mem_of_mem_take hc))]
    exact NoUB.ok _
  · split at h
    · cases h
    · simp at h

theorem strAt_noUB (p : Image) (e : Err) (rva : Nat) : NoUB (p.strAt e rva) := by
  unfold Image.strAt
  refine NoUB.bind (dataLenFrom_noUB _ _ _ _ _) (fun n hn => NoUB.bind (NoUB.throwIf _ _) (fun _ _ =>
    NoUB.bind (ptrFromRva_noUB _ _ _ _) (fun bo hbo => ?_)))
  obtain ⟨b, o⟩ := bo
  refine NoUB.bind (isNullTerminated_noUB (dataLen_ptr _ _ hn hbo)) (fun t ht => NoUB.bind (NoUB.throwIf _ _) (fun _ h => ?_))
  rw [throwIf_ok_iff] at h
  cases t with
  | false => exact absurd rfl h
  | true => exact readCStr_noUB ht

theorem exportStr_noUB (p : Image) (rva : Nat) : NoUB (p.exportStr rva) := strAt_noUB _ _ _

theorem exportName_noUB (p : Image) (ords names ordinal n i : Nat) :
    NoUB (p.exportName ords names ordinal n i) := by
  induction n generalizing i with
  | zero => exact NoUB.ok _
  | succ n ih =>
    rw [Image.exportName]
    refine NoUB.bind (readInt_noUB _ _ _ _ _) (fun o _ => ?_)
    split
    · exact NoUB.bind (readInt_noUB _ _ _ _ _) (fun _ _ => NoUB.bind (exportStr_noUB _ _) (fun _ _ => NoUB.ok _))
    · exact ih _

theorem exportLoop_noUB (p : Image) (d : Bytes) (dr ds n k : Nat) : NoUB (p.exportLoop d dr ds n k) := by
  induction n generalizing k with
  | zero => exact NoUB.ok _
  | succ n ih =>
    rw [Image.exportLoop]
    refine NoUB.bind (readInt_noUB _ _ _ _ _) (fun rva _ => ?_)
    split
    · exact ih _
    · refine NoUB.bind (NoUB.throwIf _ _) (fun _ _ => NoUB.bind (exportName_noUB _ _ _ _ _ _) (fun r _ => ?_))
      cases r with
      | none => exact NoUB.bind (ih _) (fun _ _ => NoUB.ok _)
      | some name =>
        refine NoUB.bind ?_ (fun _ _ => NoUB.bind (ih _) (fun _ _ => NoUB.ok _))
        unfold Image.exportFwd
        split
        · exact exportStr_noUB _ _
        · exact NoUB.ok _

theorem getExports_noUB {p : Image} (hp : Readable p) : NoUB p.getExports := by
  unfold Image.getExports
  refine NoUB.bind (hasDir_noUB hp.dirs.slots (by decide)) (fun b _ => ?_)
  split
  · refine NoUB.bind (getDir_noUB hp.dirs _).1 (fun rva _ => NoUB.bind (getDir_noUB hp.dirs _).2.1 (fun size _ =>
      NoUB.bind (dataLenFrom_noUB _ _ _ _ _) (fun n _ => NoUB.bind (NoUB.throwIf _ _) (fun _ _ =>
      NoUB.bind (readT_noUB _ _ _ _ _) (fun d _ => NoUB.bind ?_ (fun info _ => ?_))))))
    · unfold Image.exportInfo
      exact NoUB.bind (exportStr_noUB _ _) (fun _ _ => NoUB.ok _)
    · split
      · exact NoUB.ok _
      · refine NoUB.bind ?_ (fun _ _ => NoUB.bind (exportLoop_noUB _ _ _ _ _ _) (fun _ _ => NoUB.ok _))
        unfold Image.exportCheck
        refine NoUB.bind (NoUB.throwIf _ _) (fun _ _ => NoUB.bind (NoUB.throwIf _ _) (fun _ _ =>
          NoUB.bind (dataLenFrom_noUB _ _ _ _ _) (fun _ _ => NoUB.bind (NoUB.throwIf _ _) (fun _ _ => ?_))))
        split
        · exact NoUB.bind (dataLenFrom_noUB _ _ _ _ _) (fun _ _ => NoUB.bind (NoUB.throwIf _ _) (fun _ _ =>
            NoUB.bind (dataLenFrom_noUB _ _ _ _ _) (fun _ _ => NoUB.throwIf _ _)))
        · exact NoUB.ok _
  · exact NoUB.ok _

/-- C55: on every image loaded from any file, `get_exported_functions` returns or throws: it never reads outside of a
    buffer (and it always ends, as the model is a total function). -/
theorem C55_exports_safe (k : Kind) (strict fromMem dbg : Bool) (pre : List (Nat × Nat)) (hp : pre.length = 16)
    (hp' : ∀ d ∈ pre, d.1 < 2 ^ 32) (file : Bytes) (p : Image) (h : load k strict fromMem dbg pre file = .ok p) (u : UB) :
    p.getExports ≠ .error (.ub u) :=
  getExports_noUB (loaded_readable hp hp' h) u

/-- C55: the list of functions does not depend on whether the information about the directory is asked for. Reading
    both succeeds only if reading the list alone does; the other way round only the name of the library can be in the way. -/
theorem C55_list_agrees (p : Image) (l : List ExportFn) :
    (∀ i, p.getExports = .ok (i, l) → p.getExportList = .ok l) ∧
    (p.getExportList = .ok l → (∃ i, p.getExports = .ok (i, l)) ∨
      ∃ rva d e, p.nt.getDirRva dirExport = .ok rva ∧ p.readT 40 rva .virt true = .ok d ∧
        p.exportStr (rd 4 d 12) = .error (.exn e)) := by
  unfold Image.getExports Image.getExportList
  constructor
  · intro i h
    obtain ⟨b, hb, h⟩ := bind_ok_iff.mp h
    rw [hb, ok_bind]
    cases b
    · cases h; rfl
    · simp only [if_true] at h ⊢
      obtain ⟨rva, h1, h⟩ := bind_ok_iff.mp h
      obtain ⟨size, h2, h⟩ := bind_ok_iff.mp h
      obtain ⟨n, h3, h⟩ := bind_ok_iff.mp h
      obtain ⟨u, h4, h⟩ := bind_ok_iff.mp h
      obtain ⟨d, h5, h⟩ := bind_ok_iff.mp h
      obtain ⟨info, h6, h⟩ := bind_ok_iff.mp h
      rw [h1, ok_bind, h2, ok_bind, h3, ok_bind, h4, ok_bind, h5, ok_bind]
      unfold Image.exportFns
      split at h
      · next h0 => rw [if_pos h0]; cases h; rfl
      · next h0 =>
        rw [if_neg h0]
        obtain ⟨u, h7, h⟩ := bind_ok_iff.mp h
        obtain ⟨l', h8, h⟩ := bind_ok_iff.mp h
        rw [h7, ok_bind, h8]
        cases h; rfl
  · intro h
    obtain ⟨b, hb, h⟩ := bind_ok_iff.mp h
    rw [hb, ok_bind]
    cases b
    · left; cases h; exact ⟨_, rfl⟩
    · simp only [if_true] at h ⊢
      obtain ⟨rva, h1, h⟩ := bind_ok_iff.mp h
      obtain ⟨size, h2, h⟩ := bind_ok_iff.mp h
      obtain ⟨n, h3, h⟩ := bind_ok_iff.mp h
      obtain ⟨u, h4, h⟩ := bind_ok_iff.mp h
      obtain ⟨d, h5, h⟩ := bind_ok_iff.mp h
      rw [h1, ok_bind, h2, ok_bind, h3, ok_bind, h4, ok_bind, h5, ok_bind]
      cases hs : p.exportStr (rd 4 d 12) with
      | error e =>
        cases e with
        | exn e => exact .inr ⟨rva, d, e, rfl, h5, hs⟩
        | ub u => exact absurd hs (exportStr_noUB p _ u)
      | ok nm =>
        left
        unfold Image.exportInfo
        rw [hs, ok_bind, ok_bind]
        unfold Image.exportFns at h
        split at h
        · next h0 => rw [if_pos h0]; cases h; exact ⟨_, rfl⟩
        · next h0 =>
          rw [if_neg h0]
          obtain ⟨u, h7, h⟩ := bind_ok_iff.mp h
          rw [h7, ok_bind, h]
          exact ⟨_, rfl⟩

theorem getExportList_safe {p : Image} (hr : Readable p) (u : UB) :
    p.getExportList ≠ .error (.ub u) := by
  revert u
  show NoUB _
  unfold Image.getExportList
  refine NoUB.bind (hasDir_noUB hr.dirs.slots (by decide)) (fun b _ => ?_)
  split
  · refine NoUB.bind (getDir_noUB hr.dirs _).1 (fun rva _ => NoUB.bind (getDir_noUB hr.dirs _).2.1 (fun size _ =>
      NoUB.bind (dataLenFrom_noUB _ _ _ _ _) (fun n _ => NoUB.bind (NoUB.throwIf _ _) (fun _ _ =>
      NoUB.bind (readT_noUB _ _ _ _ _) (fun d _ => ?_)))))
    unfold Image.exportFns
    split
    · exact NoUB.ok _
    · refine NoUB.bind ?_ (fun _ _ => exportLoop_noUB _ _ _ _ _ _)
      unfold Image.exportCheck
      refine NoUB.bind (NoUB.throwIf _ _) (fun _ _ => NoUB.bind (NoUB.throwIf _ _) (fun _ _ =>
        NoUB.bind (dataLenFrom_noUB _ _ _ _ _) (fun _ _ => NoUB.bind (NoUB.throwIf _ _) (fun _ _ => ?_))))
      split
      · exact NoUB.bind (dataLenFrom_noUB _ _ _ _ _) (fun _ _ => NoUB.bind (NoUB.throwIf _ _) (fun _ _ =>
          NoUB.bind (dataLenFrom_noUB _ _ _ _ _) (fun _ _ => NoUB.throwIf _ _)))
      · exact NoUB.ok _
  · exact NoUB.ok _

/-- C55: also `get_exported_functions(pe)` never reads outside of a buffer. -/
theorem C55_list_safe (k : Kind) (strict fromMem dbg : Bool) (pre : List (Nat × Nat)) (hp : pre.length = 16)
    (hp' : ∀ d ∈ pre, d.1 < 2 ^ 32) (file : Bytes) (p : Image) (h : load k strict fromMem dbg pre file = .ok p) (u : UB) :
    p.getExportList ≠ .error (.ub u) := by
  exact getExportList_safe (loaded_readable hp hp' h) u

/-! ### The helper queries -/

/-- C56: `get_export_ordinal_limits` gives the smallest and the largest ordinal. -/
theorem C56_limits (l : List ExportFn) (lo hi : Nat) (hl : ∀ f ∈ l, f.ordinal < 2 ^ 16) (h : OrdinalRange l lo hi) :
    exportLimits l = (lo, hi) := by
  obtain ⟨f, hf, hf'⟩ := h.lo_mem
  have hne : l ≠ [] := by intro h; rw [h] at hf; simp at hf
  have hfl := hl f hf
  unfold exportLimits
  rw [if_neg hne, foldl_min_eq l 65535 lo (fun f hf => (h.le f hf).1) (by omega) (Or.inr h.lo_mem),
    foldl_max_eq l 0 hi (fun f hf => (h.le f hf).2) (by omega) (Or.inr h.hi_mem)]

/-- C56: `exported_name_exists` is true exactly if a function of the list has that (non-empty) name. -/
theorem C56_name_exists (n : Bytes) (l : List ExportFn) : exportNameExists n l = true ↔ n ∈ namesOf l := by
  unfold exportNameExists namesOf
  rw [List.any_eq_true, List.mem_map]
  constructor
  · rintro ⟨f, hf, h⟩
    rw [Bool.and_eq_true, beq_iff_eq] at h
    exact ⟨f, List.mem_filter.mpr ⟨hf, h.1⟩, h.2⟩
  · rintro ⟨f, hf, h⟩
    rw [List.mem_filter] at hf
    exact ⟨f, hf.1, by rw [Bool.and_eq_true, beq_iff_eq]; exact ⟨hf.2, h⟩⟩

/-- C56: `exported_ordinal_exists` is true exactly if a function of the list has that ordinal. -/
theorem C56_ordinal_exists (o : Nat) (l : List ExportFn) :
    exportOrdinalExists o l = true ↔ o ∈ l.map ExportFn.ordinal := by
  unfold exportOrdinalExists
  rw [List.any_eq_true, List.mem_map]
  constructor
  · rintro ⟨f, hf, h⟩; exact ⟨f, hf, beq_iff_eq.mp h⟩
  · rintro ⟨f, hf, h⟩; exact ⟨f, hf, beq_iff_eq.mpr h⟩

/-- C56 on the demo list. -/
example : exportLimits demoExports = (5, 12) ∧ exportNameExists [0x7A] demoExports = true ∧
    exportOrdinalExists 7 demoExports = false :=
  ⟨C56_limits _ _ _ (by decide) demoExports_range, (C56_name_exists _ _).mpr (by decide), by
    cases h : exportOrdinalExists 7 demoExports with
    | false => rfl
    | true => exact absurd ((C56_ordinal_exists _ _).mp h) (by decide)⟩

end PE
