/-
C23-C25: relocation items, reading and writing of the relocation directory.
-/
import Verif.Lemmas.Reloc
import Verif.Lemmas.Shown
namespace PE

/-! ### C23 -/

/-- C23: decoding any 16-bit item and encoding it again gives the item; encoding an entry with a 12-bit rva and a
    4-bit type gives the word `type * 4096 + rva`, and decoding gives the entry back. -/
theorem C23_item_round_trip :
    (∀ item, item < 65536 → (RelocEntry.ofItem item).item = item ∧ (RelocEntry.ofItem item).Ok) ∧
    (∀ e : RelocEntry, e.Ok → e.item = e.word ∧ RelocEntry.ofItem e.item = e) := by
  constructor
  · intro item h
    have hok : (RelocEntry.ofItem item).Ok := by
      rw [ofItem_eq]; exact ⟨Nat.mod_lt _ (by decide), by show item / 4096 < 16; omega⟩
    refine ⟨?_, hok⟩
    rw [item_eq hok, ofItem_eq]
    unfold RelocEntry.word
    simp only
    omega
  · intro e h; exact ⟨item_eq h, ofItem_item h⟩

example : (RelocEntry.mk 0x123 3).Ok := ⟨by decide, by decide⟩
example : (RelocEntry.mk 0x123 3).item = 0x3123 := by decide

/-! ### C24 -/

/-- The blocks of a relocation directory of `size` bytes at rva `start`, from address `pos` on: each block has a page
    rva, a nonzero block size and then 16-bit items up to its end; the next block follows immediately. The chain ends
    when `size` bytes have been passed or at a zero block size. -/
inductive BlockChain (p : Image) (start size : Nat) : Nat → List RelocTable → Prop
  | done (pos : Nat) (h : start + size ≤ pos) : BlockChain p start size pos []
  | zero (pos : Nat) (hdr : Bytes) (h : p.readT 8 pos .virt true = .ok hdr) (hz : rd 4 hdr 4 = 0) :
      BlockChain p start size pos []
  | block (pos : Nat) (hdr : Bytes) (es : List RelocEntry) (rest : List RelocTable)
      (hin : pos < start + size) (h : p.readT 8 pos .virt true = .ok hdr) (hnz : rd 4 hdr 4 ≠ 0)
      (hcount : es.length = (rd 4 hdr 4 - 7) / 2)
      (hitems : ∀ k e, es[k]? = some e → ∃ w, p.readInt 2 (pos + 8 + 2 * k) .virt true = .ok w ∧
        e = ⟨w % 4096, w / 4096⟩)
      (hend : pos + rd 4 hdr 4 < 2 ^ 32)
      (hrest : BlockChain p start size (pos + rd 4 hdr 4) rest) :
      BlockChain p start size pos (⟨rd 4 hdr 0, es⟩ :: rest)

theorem relocEntries_noUB (p : Image) (l : Bool) (pos size i : Nat) : NoUB (p.relocEntries l pos size i) := by
  fun_induction Image.relocEntries p l pos size i with
  | case1 i h ih =>
    refine NoUB.bind (readInt_noUB _ _ _ _ _) (fun a _ => NoUB.bind ih (fun b _ => ?_))
    dsimp only
    split <;> exact NoUB.ok _
  | case2 => exact NoUB.ok _

theorem relocBlocks_noUB (p : Image) (l : Bool) (rs pos a b c : Nat) : NoUB (p.relocBlocks l rs pos a b c) := by
  fun_induction Image.relocBlocks p l rs pos a b c with
  | case1 => exact NoUB.throwE _
  | case2 pos r s t h1 h2 ih =>
    refine NoUB.bind (relocEntries_noUB _ _ _ _ _) (fun es _ => ?_)
    dsimp only
    split
    · exact NoUB.ok _
    · exact NoUB.bind (readT_noUB _ _ _ _ _) (fun hdr _ => NoUB.bind (ih hdr) (fun _ _ => NoUB.ok _))
  | case3 => exact NoUB.ok _

theorem dataLenFrom_noUB (p : Image) (a b : Nat) (t : DataType) (h : Bool) : NoUB (p.dataLenFrom a b t h) := by
  unfold Image.dataLenFrom
  split
  · exact NoUB.ok _
  · refine NoUB.bind (sectionFromRva_noUB _ _) (fun s _ => ?_)
    split
    · exact NoUB.throwE _
    · exact NoUB.ok _

theorem getDir_noUB {h : NtHdr} (ho : h.DirsOk) (id : Nat) : NoUB (h.getDirRva id) ∧ NoUB (h.getDirSize id) ∧
    (1 ≤ h.numRva → NoUB (h.directoryExists id)) := by
  have h1 := ho.slots
  have h2 := ho.count
  refine ⟨?_, ?_, fun hp => by rw [NtHdr.directoryExists_eq ho hp]; exact NoUB.ok _⟩
  · unfold NtHdr.getDirRva
    split
    · exact NoUB.throwE _
    · rw [NtHdr.dirAt_ok (by omega)]; exact NoUB.ok _
  · unfold NtHdr.getDirSize
    split
    · exact NoUB.throwE _
    · rw [NtHdr.dirAt_ok (by omega)]; exact NoUB.ok _

theorem hasDir_noUB {h : NtHdr} (hs : h.dirs.length = 16) {id : Nat} (hid : id < 16) :
    NoUB (h.directoryExists id) := by
  unfold NtHdr.directoryExists
  split
  · rw [NtHdr.dirAt_ok (by omega)]; exact NoUB.ok _
  · exact NoUB.ok _

/-- C24 (safety): reading relocations never commits undefined behaviour, for any image with at most 16
    directories; it is a total function, so it terminates. -/
theorem C24_safe (p : Image) (ho : p.nt.DirsOk) (listAbs : Bool) (u : UB) :
    p.getRelocations listAbs ≠ .error (.ub u) := by
  have : NoUB (p.getRelocations listAbs) := by
    unfold Image.getRelocations Image.hasReloc
    refine NoUB.bind (NoUB.bind (hasDir_noUB ho.slots (by decide)) (fun _ _ => NoUB.ok _)) (fun a _ => ?_)
    split
    · refine NoUB.bind (getDir_noUB ho _).1 (fun _ _ => NoUB.bind (dataLenFrom_noUB _ _ _ _ _) (fun _ _ =>
        NoUB.bind (NoUB.throwIf _ _) (fun _ _ => NoUB.bind (readT_noUB _ _ _ _ _) (fun _ _ =>
        NoUB.bind (NoUB.throwIf _ _) (fun _ _ => NoUB.bind (getDir_noUB ho _).2.1 (fun _ _ => relocBlocks_noUB _ _ _ _ _ _ _))))))
    · exact NoUB.ok _
  exact this u

theorem relocEntries_spec (p : Image) (pos size i : Nat) (es : List RelocEntry)
    (h : p.relocEntries true pos size i = .ok es) (hlt : pos + size < 2 ^ 32) :
    es.length = (size + 1 - i) / 2 ∧
    ∀ k e, es[k]? = some e → ∃ w, p.readInt 2 (pos + i + 2 * k) .virt true = .ok w ∧ e = ⟨w % 4096, w / 4096⟩ := by
  fun_induction Image.relocEntries p true pos size i generalizing es with
  | case1 i hi ih =>
    obtain ⟨w, hw, h⟩ := bind_ok_iff.mp h
    obtain ⟨rest, hr, h⟩ := bind_ok_iff.mp h
    dsimp only at h
    rw [if_pos (.inl rfl)] at h
    injection h with h
    obtain ⟨h1, h2⟩ := ih rest hr
    subst h
    refine ⟨by simp [h1]; omega, ?_⟩
    intro k e hk
    cases k with
    | zero =>
      simp only [List.getElem?_cons_zero, Option.some.injEq] at hk
      rw [w32, Nat.mod_eq_of_lt (by omega)] at hw
      exact ⟨w, hw, by rw [← hk, ofItem_eq]⟩
    | succ k =>
      simp only [List.getElem?_cons_succ] at hk
      obtain ⟨w', hw', he⟩ := h2 k e hk
      exact ⟨w', by rw [← hw']; congr 1; omega, he⟩
  | case2 i hi =>
    injection h with h; subst h
    exact ⟨by simp; omega, by simp⟩

theorem relocBlocks_spec (p : Image) (start rs pos : Nat) (hdr : Bytes) (readSize : Nat) (ts : List RelocTable)
    (hhdr : p.readT 8 pos .virt true = .ok hdr) (hpos : pos = start + readSize) (hp32 : pos < 2 ^ 32)
    (hrs : rs < 2 ^ 32)
    (h : p.relocBlocks true rs pos (rd 4 hdr 0) (rd 4 hdr 4) readSize = .ok ts) :
    BlockChain p start rs pos ts := by
  generalize hn : 2 ^ 32 - pos = n
  induction n using Nat.strongRecOn generalizing pos hdr readSize ts with
  | _ n ih =>
    unfold Image.relocBlocks at h
    split at h
    · next hc =>
      split at h
      · simp at h
      · next hs =>
        simp only [isSumSafe, decide_eq_false_iff_not] at hs
        obtain ⟨es, he, h⟩ := bind_ok_iff.mp h
        dsimp only at h
        have hb := rd_lt 4 hdr 4
        have hlt : pos + rd 4 hdr 4 < 2 ^ 32 := by omega
        obtain ⟨s1, s2⟩ := relocEntries_spec p pos _ 8 es he hlt
        have hw : w32 (readSize + rd 4 hdr 4) = readSize + rd 4 hdr 4 := by
          rw [w32, Nat.mod_eq_of_lt (by omega)]
        rw [hw] at h
        split at h
        · next hd =>
          injection h with h
          subst h
          exact .block pos hdr es [] (by omega) hhdr hc.1 (by omega) s2 hlt (.done _ (by omega))
        · next hd =>
          obtain ⟨hdr', hh', h⟩ := bind_ok_iff.mp h
          obtain ⟨rest, hr, h⟩ := bind_ok_iff.mp h
          injection h with h
          subst h
          refine .block pos hdr es rest (by omega) hhdr hc.1 (by omega) s2 hlt ?_
          exact ih (2 ^ 32 - (pos + rd 4 hdr 4)) (by omega) _ hdr' (readSize + rd 4 hdr 4) rest hh' (by omega) hlt hr rfl
    · next hc =>
      injection h with h
      subst h
      by_cases hz : rd 4 hdr 4 = 0
      · exact .zero pos hdr hhdr hz
      · exact .done pos (by omega)

/-- C24 (exactness): whatever `get_relocations` returns (ABSOLUTE entries listed) is exactly the chain of consecutive
    blocks at the directory address. -/
theorem C24_blocks (p : Image) (ts : List RelocTable) (rva size : Nat) (hrva : p.nt.getDirRva dirBaseReloc = .ok rva)
    (hsize : p.nt.getDirSize dirBaseReloc = .ok size) (h32 : rva < 2 ^ 32 ∧ size < 2 ^ 32)
    (hhas : p.hasReloc = .ok true) (h : p.getRelocations true = .ok ts) : BlockChain p rva size rva ts := by
  unfold Image.getRelocations at h
  rw [hhas, ok_bind, if_pos rfl, hrva, ok_bind] at h
  obtain ⟨len, _, h⟩ := bind_ok_iff.mp h
  obtain ⟨_, _, h⟩ := bind_ok_iff.mp h
  obtain ⟨hdr, hh, h⟩ := bind_ok_iff.mp h
  obtain ⟨_, _, h⟩ := bind_ok_iff.mp h
  rw [hsize, ok_bind] at h
  exact relocBlocks_spec p rva size rva hdr 0 ts hh rfl h32.1 h32.2 h

theorem relocEntries_filter (p : Image) (pos size i : Nat) :
    p.relocEntries false pos size i =
      (p.relocEntries true pos size i).map (List.filter (fun e => decide (e.type ≠ 0))) := by
  fun_induction Image.relocEntries p true pos size i with
  | case1 i hi ih =>
    rw [Image.relocEntries, if_pos hi]
    cases h1 : p.readInt 2 (w32 (pos + i)) .virt true with
    | error e => rfl
    | ok w =>
      simp only [ok_bind, ih]
      cases h2 : p.relocEntries true pos size (i + 2) with
      | error e => rfl
      | ok r =>
        simp only [ok_bind, Except.map, true_or, if_true, Bool.false_eq_true, false_or]
        by_cases ht : (RelocEntry.ofItem w).type = 0
        · simp [ht]
        · simp [ht]
  | case2 i hi => rw [Image.relocEntries, if_neg hi]; rfl

theorem relocBlocks_filter (p : Image) (rs pos a b c : Nat) :
    p.relocBlocks false rs pos a b c = (p.relocBlocks true rs pos a b c).map (List.map RelocTable.active) := by
  fun_induction Image.relocBlocks p true rs pos a b c with
  | case1 pos r s t h1 h2 => rw [Image.relocBlocks, if_pos h1, dif_pos h2]; rfl
  | case2 pos r s t h1 h2 ih =>
    rw [Image.relocBlocks, if_pos h1, dif_neg h2, relocEntries_filter]
    cases h3 : p.relocEntries true pos s 8 with
    | error e => rfl
    | ok es =>
      simp only [Except.map, ok_bind]
      by_cases hd : w32 (t + s) ≥ rs
      · rw [if_pos hd, if_pos hd]; rfl
      · rw [if_neg hd, if_neg hd]
        cases h4 : p.readT 8 (pos + s) .virt true with
        | error e => rfl
        | ok hdr =>
          simp only [ok_bind]
          rw [ih hdr]
          cases h5 : p.relocBlocks true rs (pos + s) (rd 4 hdr 0) (rd 4 hdr 4) (w32 (t + s)) <;> rfl
  | case3 pos r s t h1 => rw [Image.relocBlocks, if_neg h1]; rfl

/-- C24 (filter): without `list_absolute_entries` the result is the same, minus the entries of type ABSOLUTE. -/
theorem C24_absolute_filter (p : Image) :
    p.getRelocations false = (p.getRelocations true).map (List.map RelocTable.active) := by
  unfold Image.getRelocations
  cases h1 : p.hasReloc with
  | error e => rfl
  | ok b =>
    cases b
    · rfl
    · simp only [ok_bind, if_true]
      cases h2 : p.nt.getDirRva dirBaseReloc with
      | error e => rfl
      | ok r =>
        simp only [ok_bind]
        cases h3 : p.dataLenFrom r r .virt true with
        | error e => rfl
        | ok len =>
          simp only [ok_bind]
          cases h4 : throwIf (len < 8) .incorrectRelocationDirectory with
          | error e => rfl
          | ok _ =>
            simp only [ok_bind]
            cases h5 : p.readT 8 r .virt true with
            | error e => rfl
            | ok hdr =>
              simp only [ok_bind]
              cases h6 : throwIf (rd 4 hdr 4 % 2 ≠ 0) .incorrectRelocationDirectory with
              | error e => rfl
              | ok _ =>
                simp only [ok_bind]
                cases h7 : p.nt.getDirSize dirBaseReloc with
                | error e => rfl
                | ok sz => simp only [ok_bind]; exact relocBlocks_filter _ _ _ _ _ _

/-! ### C25 -/

set_option maxHeartbeats 1000000 in
/-- What `rebuild_relocations` writes, and what it is for the reader. -/
theorem relocs_lasting (p : Image) (i off : Nat) (s : Sec) (tables : List RelocTable) (strip : Bool)
    (hh : Host p i s) (hdirs : p.nt.DirsOk) (hnum : dirBaseReloc < p.nt.numRva) (hne : tables ≠ [])
    (hok : ∀ t ∈ tables, t.rva < 2 ^ 32 ∧ ∀ e ∈ t.relocs, e.Ok) (hoff : off < 2 ^ 32 - 4)
    (hroom : HostRoom p i s (ceilTo off 4 + (ceilTo off 4 - off) + relocBytes tables)) :
    ∃ p' dir, p.rebuildRelocations tables i off true strip = .ok (p', dir) ∧
      dir = (s.va + ceilTo off 4, relocBytes tables) ∧
      p'.nt.getDirRva dirBaseReloc = .ok dir.1 ∧ p'.nt.getDirSize dirBaseReloc = .ok dir.2 ∧
      p'.getRelocations true = .ok (tables.map (fun t => ⟨t.rva, t.stored⟩)) ∧
      p'.getRelocations false = .ok (tables.map RelocTable.active) ∧
      ValidTable p' ∧ p'.hdrData = p.hdrData ∧ p'.secs.length = p.secs.length ∧
      (∀ j, j ≠ i → p'.secs[j]? = p.secs[j]?) ∧
      (∀ o n, o + n ≤ s.data.length → o + n ≤ ceilTo off 4 ∨ ceilTo off 4 + relocBytes tables ≤ o → 0 < n →
        p'.readT n (s.va + o) .virt true = .ok (slice s.data o n)) ∧
      p' = { p with secs := p'.secs, nt := p'.nt } ∧ Rehosted p' i s ∧
      p'.nt = { p.nt with
        dirs := p.nt.dirs.set dirBaseReloc dir, chars := p.nt.chars &&& 0xfffe, dllChars := p.nt.dllChars ||| 0x40 } ∧
      Durable p p' i s (ceilTo off 4) (relocBytes tables) dirBaseReloc dir strip false (fun r => r.nt.chars &&& 1 = 0 →
        r.getRelocations true = .ok (tables.map (fun t => ⟨t.rva, t.stored⟩)) ∧
        r.getRelocations false = .ok (tables.map RelocTable.active)) ∧ p'.nt.chars &&& 1 = 0 := by
  have hv := hh.valid
  have hstart : alignUp off 4 = ceilTo off 4 := by
    have h1 := ceilTo_lt (x := off) (a := 4) (by decide)
    exact alignUp_of_le pow2_4 (by omega) (by omega)
  have hs1 := ceilTo_ge (x := off) (a := 4) (by decide)
  have hs2 := ceilTo_lt (x := off) (a := 4) (by decide)
  have hs4 : ceilTo off 4 % 4 = 0 := Nat.mod_eq_zero_of_dvd (ceilTo_dvd off 4)
  generalize hst : ceilTo off 4 = start at *
  have hdelta : sub32 start off = start - off := sub32_of_le hs1 (by omega)
  obtain ⟨hl1, hl2⟩ := hroom.lt hh
  obtain ⟨t, ts, rfl⟩ := List.exists_cons_of_ne_nil hne
  generalize htab : t :: ts = tables at *
  have hneeded : relocNeeded start (start - off) tables (start - off) = start - off + relocBytes tables := by
    exact relocNeeded_eq _ _ hs4 _ _ (Nat.le_refl _) (by omega) (by omega)
  have hb8 : 8 ≤ relocBytes tables := by rw [← htab]; simp [relocBytes]; omega
  have hw1 : w32 (start - off + relocBytes tables + start) = start + (start - off) + relocBytes tables := by
    rw [w32, Nat.mod_eq_of_lt (by omega)]; omega
  have hm := List.mem_of_getElem? hh.sec
  have hfits := hv.fits s hm
  have hrawlt : s.va + ceilTo s.rawSize p.nt.fileAlign < 2 ^ 32 := by
    have := hh.raw; have := hfits.fin; omega
  have hau : alignUp s.rawSize p.nt.fileAlign = ceilTo s.rawSize p.nt.fileAlign :=
    alignUp_of_le hv.fa hfits.rawSize (by omega)
  -- the buffer written to
  generalize hN : start + (start - off) + relocBytes tables = N at *
  have hd0 : ∃ d0, (if s.data.length < N then resize s.data (alignUp N p.nt.fileAlign) else s.data) = d0 ∧
      s.data.length ≤ d0.length ∧ N ≤ d0.length ∧ HostRoom p i s d0.length ∧
      (∀ o n, o + n ≤ s.data.length → slice d0 o n = slice s.data o n) ∧ ∃ z, d0 = s.data ++ zeros z := by
    refine ⟨_, rfl, ?_⟩
    split
    · next hlt =>
      have hc := ceilTo_ge (x := N) hv.fa.pos
      rw [alignUp_of_le hv.fa (by omega) (by omega), resize_length]
      exact ⟨by omega, hc, hroom.ceil hv, fun o n h => slice_resize (by omega) h, _, resize_of_le (by omega)⟩
    · next hge =>
      refine ⟨Nat.le_refl _, by omega, ?_, fun _ _ _ => rfl, 0, by simp [zeros]⟩
      unfold HostRoom at hroom ⊢
      have hdat := hh.data
      have hraw := hh.raw
      split
      · have : ceilTo s.data.length p.nt.secAlign ≤ s.span p.nt.secAlign :=
          ceilTo_least hv.sa.pos (ceilTo_dvd _ _) (by omega)
        have := hfits.fin
        omega
      · next hc => rw [if_neg hc] at hroom; exact ⟨hroom.1, hdat⟩
  obtain ⟨d0, hd0, hge0, hN0, hroom0, hkeep, z, hz⟩ := hd0
  have hl0 := (hroom0.lt hh).1
  have hwr := relocWriteTables_eq tables d0 start (by omega) (by omega) hs4
  have hpl : (patch d0 start (encTables tables)).length = d0.length :=
    patch_length (by rw [encTables_length]; omega)
  have hne1 : patch d0 start (encTables tables) ≠ [] := by
    intro h; rw [h] at hpl; simp at hpl; omega
  have hge1 : s.data.length ≤ (patch d0 start (encTables tables)).length := by omega
  have hroom1 : HostRoom p i s (patch d0 start (encTables tables)).length := by rw [hpl]; exact hroom0
  have hrec := recalc_host strip hh hne1 hge1 hroom1
  obtain ⟨k, hwin⟩ := hosted_window strip hh hne1 hge1 hroom1
  have hval := hosted_valid strip hh hne1 hge1 hroom1
  have hagain := hosted_again strip hh hne1 hge1 hroom1
  have hfacts := hosted_facts strip hh hne1 hge1 hroom1
  have hdd : strip = false ∨ i + 1 = p.secs.length →
      (hosted p i s (patch d0 start (encTables tables)) strip).data = patch d0 start (encTables tables) := by
    intro hs
    unfold hosted
    dsimp only
    rw [if_neg (by rintro ⟨h1, h2⟩; rcases hs with h | h; · rw [h] at h1; cases h1
                   · exact h2 h)]
    rfl
  generalize hosted p i s (patch d0 start (encTables tables)) strip = s' at *
  have hneed' : sub32 (start - off + relocBytes tables) (start - off) = relocBytes tables := by
    rw [sub32_of_le (by omega) (by omega)]; omega
  have hdirrva : s.rvaFromOffset start = s.va + start := by
    unfold Sec.rvaFromOffset; rw [w32, Nat.mod_eq_of_lt (by omega)]
  have hreb : p.rebuildRelocations tables i off true strip =
      .ok ({ p with
        secs := p.secs.set i s'
        nt := { ({ p.nt with dirs := p.nt.dirs.set dirBaseReloc (s.va + start, relocBytes tables) } : NtHdr).clearCharFlags 0x1 with
          dllChars := p.nt.dllChars ||| 0x40 } }, (s.va + start, relocBytes tables)) := by
    have hbind := setDir_both hdirs hnum (s.va + start) (relocBytes tables)
    unfold Image.rebuildRelocations
    simp only [hh.sec, hstart, hdelta, hneeded, hw1, hd0, hneed', hdirrva]
    rw [throwIf_neg, ok_bind, hwr, ok_bind]
    · dsimp only
      rw [hrec, ok_bind]
      simp only [if_true]
      have h1 := setDir_rva hdirs hnum (s.va + start)
      rw [h1, ok_bind] at hbind
      rw [h1, ok_bind, hbind, ok_bind]
      rfl
    · rintro ⟨hc1, hc2⟩
      unfold HostRoom at hroom
      rw [if_neg hc1] at hroom
      rcases hc2 with h | h
      · exact hroom.1 (by simpa [Sec.empty] using h)
      · rw [hau] at h; omega
  refine ⟨_, _, hreb, rfl, ?_⟩
  -- facts about the new header
  have hd2 : (({ p.nt with dirs := p.nt.dirs.set dirBaseReloc (s.va + start, relocBytes tables) } : NtHdr)).DirsOk :=
    DirsOk.set hdirs _ _
  have hslot : (p.nt.dirs.set dirBaseReloc (s.va + start, relocBytes tables))[dirBaseReloc]? =
      some (s.va + start, relocBytes tables) := by
    rw [List.getElem?_set_self]; have := hdirs.slots; have : dirBaseReloc = 5 := rfl; omega
  generalize hq : ({ p with
        secs := p.secs.set i s'
        nt := { ({ p.nt with dirs := p.nt.dirs.set dirBaseReloc (s.va + start, relocBytes tables) } : NtHdr).clearCharFlags 0x1 with
          dllChars := p.nt.dllChars ||| 0x40 } } : Image) = q
  have hqd : q.nt.DirsOk := by rw [← hq]; exact ⟨hd2.slots, hd2.count⟩
  have hqs : q.nt.dirs[dirBaseReloc]? = some (s.va + start, relocBytes tables) := by rw [← hq]; exact hslot
  have hqn : dirBaseReloc < q.nt.numRva := by rw [← hq]; exact hnum
  obtain ⟨g1, g2, g3⟩ := getDir_stored hqd hqn hqs
  have hqw : Window q s.va (patch d0 start (encTables tables) ++ zeros k) s' := by
    rw [← hq]; exact hwin.congr rfl rfl rfl
  have hpos := hh.pos
  have hqr : q.nt.chars &&& 1 = 0 := by
    rw [← hq]
    have : (p.nt.chars &&& (65535 - 0x1)) &&& 1 = 0 := by
      rw [Nat.and_assoc]; exact Nat.and_zero _
    simp [NtHdr.clearCharFlags, this]
  have ht : t ∈ tables := by rw [← htab]; simp
  have hts : ∀ x ∈ ts, x ∈ tables := by intro x hx; rw [← htab]; simp [hx]
  have htb : 8 + 2 * t.stored.length ≤ relocBytes tables := by rw [← htab]; simp [relocBytes]
  have e1 : rd 4 (leBytes 4 t.rva ++ leBytes 4 (8 + 2 * t.stored.length)) 0 = t.rva := by
    rw [rd_here, Nat.mod_eq_of_lt (by have := (hok t ht).1; omega)]
  have e2 : rd 4 (leBytes 4 t.rva ++ leBytes 4 (8 + 2 * t.stored.length)) 4 = 8 + 2 * t.stored.length := by
    rw [rd_leBytes_skip (by omega), rd_here', Nat.mod_eq_of_lt (by omega)]
  have hel := encTables_length tables
  have hget : ∀ (L : Nat) (r : Image),
      Shown p r i s start L (encTables tables) dirBaseReloc (s.va + start, relocBytes tables) false → r.nt.chars &&& 1 = 0 →
      ∀ la, r.getRelocations la =
        .ok (tables.map (fun t => ⟨t.rva, t.stored.filter (fun e => la || decide (e.type ≠ 0))⟩)) := by
    intro L r hr hch la
    obtain ⟨m, t', hwin, -, -, hat, -⟩ := hr.window
    have hfin := hwin.fin
    have hale := hat.le
    have hm' : m = m.take start ++ encTables tables ++ m.drop (start + (encTables tables).length) := by
      have := hat.split
      rw [List.append_assoc, ← this, List.take_append_drop]
    have hpre : (m.take start).length = start := by rw [List.length_take]; omega
    have hslice8 : slice m start 8 = leBytes 4 t.rva ++ leBytes 4 (8 + 2 * t.stored.length) := by
      rw [hm', List.append_assoc, slice_append_right (by omega), hpre, Nat.sub_self, ← htab]
      simp only [encTables, List.flatMap_cons, encTable]
      rw [List.append_assoc, List.append_assoc]
      exact slice_append_here (by simp)
    have hblk := relocBlocks_eq hwin la ts (fun x hx => hok x (hts x hx)) start 0 (m.take start)
      (m.drop (start + (encTables tables).length)) t (hok t ht) (by rw [htab]; exact hm') hpre
      (by rw [htab]; omega)
    rw [htab, Nat.zero_add] at hblk
    have hhr : r.hasReloc = .ok true := by
      unfold Image.hasReloc
      have := hr.has
      unfold Image.hasDir at this
      rw [this, ok_bind]
      simp [hch]; omega
    unfold Image.getRelocations
    rw [hhr, ok_bind, if_pos rfl, hr.rva, ok_bind]
    dsimp only
    rw [hwin.len true start (by omega), ok_bind, throwIf_neg (by omega), ok_bind,
      hwin.readT true start 8 (by omega) (by omega), ok_bind, hslice8, e1, e2, throwIf_neg (by omega), ok_bind, hr.size, ok_bind]
    exact hblk
  have hml : (patch d0 start (encTables tables) ++ zeros k).length = d0.length + k := by simp [hpl]
  have hqa : Rehosted q i s := by rw [← hq]; exact hagain.congr rfl rfl rfl rfl rfl
  have hi : i < p.secs.length := by
    have := hh.sec; rw [List.getElem?_eq_some_iff] at this; exact this.1
  obtain ⟨l1, l2, l3⟩ := hqa.landed (by rw [← hq]; simp [hi]) hfacts.1 hqw hne1
  have hsa : q.nt.secAlign = p.nt.secAlign := by rw [← hq]; rfl
  have hqb : q.nt.imageBase = p.nt.imageBase := by rw [← hq]; rfl
  have hdl0 : d0.length = s.data.length + z := by rw [hz]; simp
  obtain ⟨fr, L, -, -, hsh⟩ := landed_shown (raw := strip = false ∨ i + 1 = p.secs.length) (id := dirBaseReloc)
    (dir := (s.va + start, relocBytes tables)) (z := z) (k := k) (pos := start) (e := encTables tables)
    hh l1 hfacts.1 (by omega) (by rw [← hz]; exact l2) (by rw [← hsa]; omega) (by rw [← hz]; exact hdd) (by rw [← hq]) hqb hsa g1 g2 g3
  rw [hel] at fr
  have hreads : ∀ r : Image,
      Shown p r i s start L (encTables tables) dirBaseReloc (s.va + start, relocBytes tables) false → r.nt.chars &&& 1 = 0 →
        r.getRelocations true = .ok (tables.map (fun t => ⟨t.rva, t.stored⟩)) ∧
        r.getRelocations false = .ok (tables.map RelocTable.active) := by
    intro r hr hch
    refine ⟨?_, ?_⟩
    · rw [hget L r hr hch true]
      simp
    · rw [hget L r hr hch false]
      refine congrArg Except.ok (List.map_congr_left ?_)
      intro x _
      have hfil : x.stored.filter (fun e => false || decide (e.type ≠ 0)) =
          x.relocs.filter (fun e => decide (e.type ≠ 0)) := by
        unfold RelocTable.stored
        split <;> simp
      rw [hfil]; rfl
  have hnow := hreads q (hsh false (by intro h; cases h)) hqr
  refine ⟨g1, g2, hnow.1, hnow.2, ?_, ?_, ?_, ?_, ?_, by rw [← hq], hqa, by rw [← hq]; rfl,
    ⟨fr, _, L, Nat.le_of_eq hel, hsh false (by intro h; cases h), hreads⟩, hqr⟩
  · rw [← hq]; exact hval.congr rfl rfl rfl rfl
  · rw [← hq]
  · rw [← hq]; simp
  · intro j hj; rw [← hq]; simp [Ne.symm hj]
  · intro o n h1 h2 h3
    rw [hqw.readT true o n (by omega) (by omega), slice_append_left (by omega),
      slice_patch_disjoint (by rw [encTables_length]; omega) (by rw [encTables_length]; omega), hkeep o n h1]

/-- C25 for non-empty lists of tables: with enough room in the section, `rebuild_relocations` succeeds, the directory
    starts at the (DWORD aligned) requested offset and covers the blocks, and `get_relocations` then returns the same
    tables: with the stored padding entry if ABSOLUTE entries are listed, else without ABSOLUTE entries. Other sections
    are untouched, and so are the bytes of the section outside of the written range.
    Missing: the empty list, see `C25_empty_list_unreadable`. -/
theorem C25_round_trip_partial (p : Image) (i off : Nat) (s : Sec) (tables : List RelocTable) (strip : Bool)
    (hh : Host p i s) (hdirs : p.nt.DirsOk) (hnum : dirBaseReloc < p.nt.numRva) (hne : tables ≠ [])
    (hok : ∀ t ∈ tables, t.rva < 2 ^ 32 ∧ ∀ e ∈ t.relocs, e.Ok) (hoff : off < 2 ^ 32 - 4)
    (hroom : HostRoom p i s (ceilTo off 4 + (ceilTo off 4 - off) + relocBytes tables)) :
    ∃ p' dir, p.rebuildRelocations tables i off true strip = .ok (p', dir) ∧
      dir = (s.va + ceilTo off 4, relocBytes tables) ∧
      p'.nt.getDirRva dirBaseReloc = .ok dir.1 ∧ p'.nt.getDirSize dirBaseReloc = .ok dir.2 ∧
      p'.getRelocations true = .ok (tables.map (fun t => ⟨t.rva, t.stored⟩)) ∧
      p'.getRelocations false = .ok (tables.map RelocTable.active) ∧
      ValidTable p' ∧ p'.hdrData = p.hdrData ∧ p'.secs.length = p.secs.length ∧
      (∀ j, j ≠ i → p'.secs[j]? = p.secs[j]?) ∧
      (∀ o n, o + n ≤ s.data.length → o + n ≤ ceilTo off 4 ∨ ceilTo off 4 + relocBytes tables ≤ o → 0 < n →
        p'.readT n (s.va + o) .virt true = .ok (slice s.data o n)) ∧
      p' = { p with secs := p'.secs, nt := p'.nt } ∧ Rehosted p' i s ∧
      p'.nt = { p.nt with
        dirs := p.nt.dirs.set dirBaseReloc dir, chars := p.nt.chars &&& 0xfffe, dllChars := p.nt.dllChars ||| 0x40 } := by
  obtain ⟨q, d, h1, h2, h3, h4, h5, h6, h7, h8, h9, h10, h11, h12, h13, h14, -⟩ := relocs_lasting p i off s tables strip hh hdirs hnum hne hok hoff hroom
  exact ⟨q, d, h1, h2, h3, h4, h5, h6, h7, h8, h9, h10, h11, h12, h13, h14⟩

theorem demo_valid : ValidTable demoImage where
  sa := pow2_4096
  fa := pow2_512
  le := by decide
  fits := demo_fits
  aligned := by
    intro s hs
    simp only [demoImage, List.mem_cons, List.not_mem_nil, or_false] at hs
    rcases hs with rfl | rfl <;> decide
  nonempty := by
    intro s hs
    simp only [demoImage, List.mem_cons, List.not_mem_nil, or_false] at hs
    rcases hs with rfl | rfl <;> decide
  contig := ⟨by decide, trivial⟩
  num := rfl
  count := by decide
  pages := by
    intro s hs
    simp only [demoImage, List.mem_cons, List.not_mem_nil, or_false] at hs
    rcases hs with rfl | rfl <;> exact ⟨by decide, fun h => by revert h; decide⟩

/-- The last section of the demo image can take rebuilt directories. -/
theorem demo_host_last : Host demoImage 1 (demoImage.secs[1]'(by decide)) where
  valid := demo_valid
  sec := rfl
  hdr := by decide
  pos := by decide
  data := by decide
  raw := by decide

/-- So can the first one (within its raw size). -/
theorem demo_host_first : Host demoImage 0 (demoImage.secs[0]'(by decide)) where
  valid := demo_valid
  sec := rfl
  hdr := by decide
  pos := by decide
  data := by decide
  raw := by decide

/-- C25 applies to the demo image, growing the last section, with two tables of odd and even length. -/
example : ∃ p' dir, demoImage.rebuildRelocations
    [⟨0x1000, [⟨4, 3⟩, ⟨8, 3⟩, ⟨12, 3⟩]⟩, ⟨0x2000, [⟨0, 10⟩, ⟨8, 10⟩]⟩] 1 18 true true = .ok (p', dir) ∧
    p'.getRelocations false = .ok [⟨0x1000, [⟨4, 3⟩, ⟨8, 3⟩, ⟨12, 3⟩]⟩, ⟨0x2000, [⟨0, 10⟩, ⟨8, 10⟩]⟩] := by
  obtain ⟨p', dir, h1, -, -, -, -, h2, -⟩ := C25_round_trip_partial demoImage 1 18 _
    [⟨0x1000, [⟨4, 3⟩, ⟨8, 3⟩, ⟨12, 3⟩]⟩, ⟨0x2000, [⟨0, 10⟩, ⟨8, 10⟩]⟩] true demo_host_last
    ⟨rfl, by decide⟩ (by decide) (by simp) (by simp [RelocEntry.Ok]) (by decide) (by decide)
  exact ⟨p', dir, h1, h2⟩

/-- The demo image with other bytes in its last section. -/
def demoImage2 : Image := { demoImage with secs := [demoImage.secs[0]'(by decide),
    { (demoImage.secs[1]'(by decide)) with data := [0, 0, 0, 0, 1, 0, 0, 0] }] }

theorem demo2_host : Host demoImage2 1 (demoImage2.secs[1]'(by decide)) := by
  refine ⟨⟨pow2_4096, pow2_512, by decide, ?_, ?_, ?_, ⟨by decide, trivial⟩, rfl, by decide, ?_⟩,
      rfl, by decide, by decide, by decide, by decide⟩
  all_goals
    intro s hs
    simp only [demoImage2, demoImage, List.getElem_cons_zero, List.getElem_cons_succ, List.mem_cons, List.not_mem_nil,
      or_false] at hs
    rcases hs with rfl | rfl
  · constructor <;> decide
  · constructor <;> decide
  · decide
  · decide
  · decide
  · decide
  · exact ⟨by decide, fun h => by revert h; decide⟩
  · exact ⟨by decide, fun h => by revert h; decide⟩

/-- What is missing in C25: an empty list is written as a directory of size 0 over the old section bytes, whose
    "block header" is still inspected when reading, so `get_relocations` can throw. -/
theorem C25_empty_list_unreadable : ∃ (p p' : Image) (s : Sec) (dir : Nat × Nat), Host p 1 s ∧ p.nt.DirsOk ∧
    dirBaseReloc < p.nt.numRva ∧ HostRoom p 1 s 0 ∧
    p.rebuildRelocations [] 1 0 true false = .ok (p', dir) ∧
    p'.getRelocations = .error (.exn .incorrectRelocationDirectory) := by
  obtain ⟨⟨p', dir⟩, h1, h2⟩ := exists_of_okAnd (x := demoImage2.rebuildRelocations [] 1 0 true false)
    (f := fun r => decide (r.1.getRelocations = .error (.exn .incorrectRelocationDirectory))) (by decide +kernel)
  exact ⟨demoImage2, p', _, dir, demo2_host, ⟨rfl, by decide⟩, by decide, by decide, h1, of_decide_eq_true h2⟩

end PE
