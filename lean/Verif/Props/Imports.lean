/-
C29, C57: the import directory.
-/
import Verif.Lemmas.ImportsRound
import Verif.Props.Exports

namespace PE

/-! ### Sizes -/

theorem fnStrs_length (fs : List ImportFn) :
    (fnStrs fs).length = (fs.map (fun f => if f.name = [] then 0 else f.name.length + 3)).sum := by
  induction fs with
  | nil => rfl
  | cons f fs ih => rw [fnStrs, List.length_append, fnStr_length, ih]; rfl

theorem libStrs_length (ls : List ImportLib) : (libStrs ls).length = importNames ls := by
  unfold importNames
  induction ls with
  | nil => rfl
  | cons l ls ih => rw [libStrs, List.length_append, ih, libStr_length, fnStrs_length]; rfl

theorem importStrings_eq (ls : List ImportLib) : importStrings ls = importNames ls := by
  unfold importStrings importNames
  congr 1
  refine List.map_congr_left (fun l _ => ?_)
  congr 2
  refine List.map_congr_left (fun f _ => ?_)
  by_cases h : f.name = [] <;> simp [h]

theorem importIatSize_eq (ptr : Nat) (ls : List ImportLib) : importIatSize ptr ls = ptr * thunkCount ls := by
  unfold importIatSize thunkCount
  induction ls with
  | nil => rfl
  | cons l ls ih => rw [List.map_cons, List.sum_cons, ih, List.map_cons, List.sum_cons, ← Nat.mul_add, Nat.add_comm 1]

theorem libIats_length (c : ImportCfg) (ptr va ps : Nat) (ls : List ImportLib) :
    (libIats c ptr va ps ls).length = ptr * thunkCount (freshLibs c.save ls) := by
  unfold freshLibs thunkCount
  induction ls generalizing ps with
  | nil => rfl
  | cons l ls ih =>
    rw [libIats, List.length_append, ih, libIat_length]
    by_cases hk : l.Kept c.save
    · have hw : libW c l = false := by
        cases h : libW c l with
        | false => rfl
        | true => exact absurd hk ((libW_iff c l).mp h)
      rw [hw, List.filter_cons_of_neg (by simpa using hk)]; simp
    · rw [(libW_iff c l).mpr hk, List.filter_cons_of_pos (by simpa using hk)]
      simp only [if_true, List.map_cons, List.sum_cons, Nat.mul_add]

theorem libOrigs_length (c : ImportCfg) (ptr va ps : Nat) (ls : List ImportLib) :
    (libOrigs c ptr va ps ls).length = if c.buildOrig then ptr * thunkCount (freshLibs c.save ls) else 0 := by
  unfold freshLibs thunkCount
  induction ls generalizing ps with
  | nil => simp [libOrigs]
  | cons l ls ih =>
    rw [libOrigs, List.length_append, ih, libOrig_length]
    unfold libB
    by_cases hk : l.Kept c.save
    · have hw : libW c l = false := by
        cases h : libW c l with
        | false => rfl
        | true => exact absurd hk ((libW_iff c l).mp h)
      rw [hw, List.filter_cons_of_neg (by simpa using hk)]; simp
    · rw [(libW_iff c l).mpr hk, List.filter_cons_of_pos (by simpa using hk)]
      cases c.buildOrig <;> simp [Nat.mul_add]

theorem thunkCount_fresh_le (save : Bool) (ls : List ImportLib) : thunkCount (freshLibs save ls) ≤ thunkCount ls := by
  unfold freshLibs thunkCount
  induction ls with
  | nil => exact Nat.le_refl _
  | cons l ls ih =>
    by_cases hk : l.Kept save
    · rw [List.filter_cons_of_neg (by simpa using hk)]; simp only [List.map_cons, List.sum_cons]; omega
    · rw [List.filter_cons_of_pos (by simpa using hk)]; simp only [List.map_cons, List.sum_cons]; omega

theorem readLibs_same (c : ImportCfg) (ptr va ps pi po : Nat) (ls : List ImportLib) :
    (readLibs c ptr va ps pi po ls).length = ls.length ∧ ∀ (k : Nat) (l l' : ImportLib), ls[k]? = some l →
      (readLibs c ptr va ps pi po ls)[k]? = some l' → l.Same l' c.save c.buildOrig := by
  induction ls generalizing ps pi po with
  | nil => exact ⟨rfl, fun k l l' h => by simp at h⟩
  | cons l ls ih =>
    obtain ⟨i1, i2⟩ := ih (ps + (libStr l).length) (pi + (libIat c ptr va ps l).length) (po + (libOrig c ptr va ps l).length)
    refine ⟨by rw [readLibs, List.length_cons, List.length_cons, i1], fun k g g' h h' => ?_⟩
    rw [readLibs] at h'
    cases k with
    | succ k =>
      rw [List.getElem?_cons_succ] at h h'
      exact i2 k g g' h h'
    | zero =>
      rw [List.getElem?_cons_zero] at h h'
      cases h
      cases h'
      refine ⟨rfl, rfl, fun hk => ?_, fun hk => ?_⟩
      · have hw : libW c l = false := by
          cases h : libW c l with
          | false => rfl
          | true => exact absurd hk ((libW_iff c l).mp h)
        unfold libFt libOft
        simp [hw]
      · rw [if_pos ((libW_iff c l).mpr hk)]
        exact ⟨readFns_shown _ _ _ _ _, fun ho => by rw [ho, readFns_orig]⟩

/-! ### The round trip -/

theorem finishDir_withData (p : Image) (i : Nat) (s : Sec) (d D : Bytes) (strip save : Bool) (id : Nat) (dir : Nat × Nat) :
    (p.withData i s d).finishDir i { s with data := d } D strip save id dir = p.finishDir i s D strip save id dir := by
  unfold Image.finishDir Image.withData
  simp only [List.set_set]

/-- Cutting off what was grown too much. -/
theorem Mod.cut {b d' : Bytes} {N n : Nat} {S : Nat → Prop} (h : Mod (growTo b N) d' S) (hn : n ≤ N) (hb : b.length ≤ n) :
    Mod (growTo b n) (resize d' n) S := by
  have hl := h.len
  rw [growTo_length] at hl
  rw [resize_of_ge (by omega)]
  refine ⟨by rw [List.length_take, growTo_length]; omega, fun j hj => ?_⟩
  rw [List.getElem?_take]
  have key : ∀ M, n ≤ M → j < n → (growTo b M)[j]? = if j < b.length then b[j]? else some 0 := by
    intro M hM hjn
    unfold growTo
    split
    · rw [resize_of_le (by omega)]
      split
      · next h => rw [List.getElem?_append_left h]
      · next h => rw [List.getElem?_append_right (by omega)]; unfold zeros; rw [List.getElem?_replicate, if_pos (by omega)]
    · rw [if_pos (by omega)]
  split
  · next hc => rw [h.same j hj, key N hn hc, key n (Nat.le_refl _) hc]
  · next hc =>
    rw [List.getElem?_eq_none]
    rw [growTo_length]; omega

theorem At.cut {d x : Bytes} {o n : Nat} (h : At d o x) (hn : n ≤ d.length) (hx : o + x.length ≤ n) : At (resize d n) o x := by
  rw [resize_of_ge hn]
  rw [at_ext] at h ⊢
  refine ⟨by rw [List.length_take]; omega, fun i hi => ?_⟩
  rw [List.getElem?_take, if_pos (by omega)]
  exact h.2 i hi

/-- The image with another directory entry. -/
def Image.withDir (p : Image) (id : Nat) (dir : Nat × Nat) : Image :=
  { p with nt := { p.nt with dirs := p.nt.dirs.set id dir } }

set_option maxHeartbeats 1000000 in
/-- What `rebuild_imports` writes, and what it is for the reader. -/
theorem imports_lasting (p : Image) (i off : Nat) (s : Sec) (ls : List ImportLib) (c : ImportCfg) (zeroIat strip : Bool)
    (hh : Host p i s) (hdirs : p.nt.DirsOk) (hnum : dirImport < p.nt.numRva) (hnum2 : zeroIat = true → dirIat < p.nt.numRva)
    (hfill : c.fill = false) (hrew : c.rewrite = false) (hl : ∀ l ∈ ls, l.Ok p i c.save c.buildOrig)
    (hlow : p.kind.ptr = 4 → s.va + off + importNames ls ≤ 2 ^ 31)
    (iat fin need : Nat) (hsz : ImportSizes p.kind.ptr off c ls iat fin need) (hroom : HostRoom p i s (off + need))
    (hend : s.data.length ≤ fin) :
    ∃ q q' : Image,
      p.rebuildImports ls i c off true zeroIat strip = .ok (q', (s.va + off + importNames ls, need - importNames ls)) ∧
      RebuiltIn p q i s off (fin - off) dirImport (s.va + off + importNames ls, need - importNames ls) ∧
      q' = (if zeroIat then q.withDir dirIat (0, 0) else q) ∧
      Durable p q' i s off (fin - off) dirImport (s.va + off + importNames ls, need - importNames ls) strip false (fun r =>
        ∀ (P : Image) (j : Nat), Within { P with secs := P.secs.eraseIdx j } r → (∀ l ∈ ls, l.Ok P j c.save c.buildOrig) →
          ∃ ls' : List ImportLib, r.getImports = .ok ls' ∧ ls'.length = ls.length ∧
            ∀ (k : Nat) (l l' : ImportLib), ls[k]? = some l → ls'[k]? = some l' → l.Same l' c.save c.buildOrig) := by
  have hp := p.kind.ptr_cases
  have hi : i < p.secs.length := by
    have := hh.sec; rw [List.getElem?_eq_some_iff] at this; exact this.1
  have hpow : Pow2 p.kind.ptr := by
    rcases hp with h | h <;> rw [h]
    · exact ⟨2, by omega, rfl⟩
    · exact ⟨3, by omega, rfl⟩
  obtain ⟨hl1, hl2⟩ := hroom.lt hh
  have hgl := (hroom.grow hh).lt hh
  have hg := growTo_ge s.data (off + need)
  have hpos' := hh.pos
  have e1 := importStrings_eq ls
  have e2 := importIatSize_eq p.kind.ptr ls
  have e3 := libStrs_length ls
  have e4 := libIats_length c p.kind.ptr s.va off ls
  have e5 := libOrigs_length c p.kind.ptr s.va off ls
  have e6 := Nat.mul_le_mul_left p.kind.ptr (thunkCount_fresh_le c.save ls)
  obtain ⟨z1, z2, z3⟩ := hsz
  generalize hN : importNames ls = N at *
  generalize hT : p.kind.ptr * thunkCount ls = T at *
  generalize hF : p.kind.ptr * thunkCount (freshLibs c.save ls) = F at *
  generalize hn : ls.length = n at *
  have c1 : off + N + 20 * (n + 1) ≤ iat := by rw [z1]; exact ceilTo_ge (by omega)
  have c2 : iat < off + N + 20 * (n + 1) + p.kind.ptr := by rw [z1]; exact ceilTo_lt (by omega)
  have hfin : fin ≤ off + need := by
    cases hb : c.buildOrig <;> rw [hb] at z2 z3 <;> simp only [Bool.false_eq_true, if_false, if_true] at z2 z3 <;> omega
  have hT2 : T ≤ need := by
    cases hb : c.buildOrig <;> rw [hb] at z3 <;> simp only [Bool.false_eq_true, if_false, if_true] at z3 <;> omega
  have wid : ∀ x, x < 2 ^ 32 → w32 x = x := fun x hx => by rw [w32, Nat.mod_eq_of_lt hx]
  have hneed : w32 ((1 + n) * 20 + (if c.buildOrig || c.fill then T * 2 else T) + p.kind.ptr + N) = need := by
    rw [hfill, Bool.or_false]
    cases hb : c.buildOrig <;> rw [hb] at z3 <;> simp only [Bool.false_eq_true, if_false, if_true] at z3 ⊢ <;>
      rw [wid _ (by omega)] <;> omega
  have hiat : alignUp (w32 (N + off + (1 + n) * 20)) p.kind.ptr = iat := by
    rw [wid _ (by omega), z1, show N + off + (1 + n) * 20 = off + N + 20 * (n + 1) by omega]
    exact alignUp_of_le hpow (by omega) (by rw [z1] at c2; omega)
  have hfinO : fin = iat + T + (libOrigs c p.kind.ptr s.va off ls).length := by rw [e5]; exact z2
  -- the writes
  obtain ⟨d1, ft, oft, w1, a1, a2, a3, a4, m1⟩ := putLibs_spec (p := p) (va := s.va) (s := s) hi hfill hrew ls
    (growTo s.data (off + need)) off iat (iat + T) (off + N) 0 0 (by omega) (by omega) (by omega) (by rw [e4]; omega) (by omega)
    (fun l hm hw hb f hf hne => by
      have := ((hl l hm).fresh ((libW_iff c l).mp hw) f hf).unnamed hne
      rw [hb] at this; simp at this)
  have l1 := m1.len
  have hm2 := m1.cut (n := fin) (by omega) (by omega)
  have b1 := a1.cut (n := fin) (by omega) (by omega)
  have b2 := a2.cut (n := fin) (by omega) (by rw [descBytes_length]; omega)
  have b3 := a3.cut (n := fin) (by omega) (by rw [e4]; omega)
  have b4 := a4.cut (n := fin) (by omega) (by omega)
  have hroom2 : HostRoom p i s fin := hroom.mono hh.valid hfin
  have hgf := growTo_ge s.data fin
  have hpatch := hm2.patch (lo := off) (n := fin - off) (by
    intro j hj
    rw [e3, e4, hn] at hj
    omega) (by omega)
  have hrl : (resize d1 fin).length = fin := resize_length _ _
  have hsl : (slice (resize d1 fin) off (fin - off)).length = fin - off := slice_length_of_le (by omega)
  obtain ⟨q, hq, hw⟩ := finishDir_written (e := slice (resize d1 fin) off (fin - off)) (pos := off) strip
    (s.va + off + N, need - N) hh hdirs hnum (show 0 < fin by omega) (by omega) hroom2
  have hplaced := hw.placed
  have hreb := hw.rebuilt
  rw [hsl] at hreb
  rw [← hpatch] at hq hplaced
  have hcore : ∀ q' : Image, q' = (if zeroIat then q.withDir dirIat (0, 0) else q) →
      q'.secs = q.secs ∧ q'.hdrData = q.hdrData ∧ q'.nt.secAlign = q.nt.secAlign ∧ q'.nt.fileAlign = q.nt.fileAlign ∧
      q'.nt.numSections = q.nt.numSections ∧ q'.kind = q.kind ∧ q'.nt.getDirRva dirImport = .ok (s.va + off + N) ∧
      q'.hasDir dirImport = .ok true := by
    intro q' hq'
    cases zeroIat with
    | false =>
      simp only [Bool.false_eq_true, if_false] at hq'
      subst hq'
      refine ⟨rfl, rfl, rfl, rfl, rfl, rfl, hreb.rva, ?_⟩
      rw [hw.has]; congr 1; rw [decide_eq_true_eq]; dsimp only; omega
    | true =>
      simp only [if_true] at hq'
      subst hq'
      have hd := hplaced.dirsOk hdirs
      have hnt := hplaced.nt
      have hs := hdirs.slots
      have hst := getDir_stored (h := (q.withDir dirIat (0, 0)).nt) (DirsOk.set hd dirIat (0, 0)) (id := dirImport)
        (d := (s.va + off + N, need - N)) (by show dirImport < q.nt.numRva; rw [hnt]; exact hnum) (by
          show (q.nt.dirs.set dirIat (0, 0))[dirImport]? = _
          rw [List.getElem?_set_ne (by decide), hnt]
          exact List.getElem?_set_self (by have := hdirs.count; omega))
      refine ⟨rfl, rfl, rfl, rfl, rfl, rfl, hst.1, ?_⟩
      show (q.withDir dirIat (0, 0)).nt.directoryExists dirImport = _
      rw [hst.2.2]; congr 1; rw [decide_eq_true_eq]; dsimp only; omega
  refine ⟨q, _, ?_, hreb, rfl, ?_⟩
  · unfold Image.rebuildImports
    rw [hh.sec]
    dsimp only
    rw [e1, e2, hn, wid N (by omega), wid T (by omega), hneed, show w32 (need + off) = off + need by rw [wid _ (by omega)]; omega,
      hroom.check hh, ok_bind, hiat, wid (iat + T) (by omega), wid (N + off) (by omega), Nat.add_comm N off]
    have w1' := w1
    unfold Image.withData at w1'
    rw [w1', ok_bind]
    dsimp only
    have hsec : (p.secs.set i { s with data := d1 })[i]? = some { s with data := d1 } := List.getElem?_set_self hi
    rw [hsec]
    dsimp only
    have hf' := finishDir_withData p i s d1 (resize d1 fin) strip true dirImport (s.va + off + N, need - N)
    unfold Image.withData at hf'
    rw [← hfinO, wid (off + N) (by omega), ← Nat.add_assoc, wid (s.va + off + N) (by omega), sub32_of_le (by omega) (by omega), hf', hq,
      ok_bind]
    dsimp only
    cases zeroIat with
    | false => rfl
    | true =>
      have hd := hplaced.dirsOk hdirs
      have hn2 : dirIat < q.nt.numRva := by rw [hplaced.nt]; exact hnum2 rfl
      have hb := setDir_both hd hn2 0 0
      have hb1 := setDir_rva hd hn2 0
      rw [hb1, ok_bind] at hb
      simp only [Bool.and_self, if_true]
      rw [hb1, ok_bind, hb, ok_bind]
      rfl
  · generalize hq' : (if zeroIat then q.withDir dirIat (0, 0) else q) = q'
    obtain ⟨k1, k2, k3, k4, k5, k6, k7, k8⟩ := hcore q' hq'.symm
    obtain ⟨hfr, L, hL1, -, -, hsh⟩ := hw.shown hh (by omega) (by omega)
    rw [hsl] at hfr
    have hhost : ∀ t, Host q i t → Host q' i t := fun t ht =>
      ⟨ht.valid.congr k1 k3 k4 k5, by rw [k1]; exact ht.sec, by rw [k2]; exact ht.hdr, ht.pos, by rw [k4]; exact ht.data,
        by rw [k3, k4]; exact ht.raw⟩
    have hkb : q'.nt.imageBase = q.nt.imageBase := by rw [← hq']; split <;> rfl
    have hsz' : q'.nt.getDirSize dirImport = q.nt.getDirSize dirImport := by
      rw [← hq']
      cases zeroIat with
      | false => rfl
      | true =>
        simp only [if_true]
        unfold NtHdr.getDirSize NtHdr.dirAt Image.withDir
        simp only [List.getElem?_set_ne (show dirIat ≠ dirImport by decide)]
    refine ⟨?_, _, L, Nat.le_of_eq hsl, (hsh false (by intro h; cases h)).other k6 hkb k3 (k7.trans hreb.rva.symm) hsz'
      (k8.trans ?_) hhost, fun r hr P j hwi hok => ?_⟩
    · obtain ⟨t, t1, t2, t3, t4, t5⟩ := hfr
      exact ⟨t, hhost t t1, t2, by rw [k3]; exact t3, by rw [k3]; exact t4, t5⟩
    · rw [hw.has]; exact (congrArg Except.ok (decide_eq_true (by dsimp only; omega))).symm
    have hkk : r.kind = p.kind := hr.kind
    obtain ⟨m, t, hwin, -, hLm, hat, -⟩ := hr.window
    have c1' := b1.within hat (by omega) (by omega) (by omega)
    have c2' := b2.within hat (by omega) (by omega) (by rw [descBytes_length]; omega)
    have c3' := b3.within hat (by omega) (by omega) (by rw [e4]; omega)
    have c4' := b4.within hat (by omega) (by omega) (by omega)
    refine ⟨readLibs c p.kind.ptr s.va off iat (iat + T) ls, ?_, (readLibs_same _ _ _ _ _ _ ls).1.trans hn,
      (readLibs_same _ _ _ _ _ _ ls).2⟩
    unfold Image.getImports
    rw [hr.has, ok_bind, if_pos (decide_eq_true (by dsimp only; omega)), hr.rva, ok_bind]
    dsimp only
    obtain ⟨x, y, hxy, hx⟩ := descBytes_split c p.kind.ptr s.va off iat (iat + T) ls
    have hxat : At m (off + N) x := by
      have := c2'; rw [hxy] at this; exact this.left
    rw [Nat.add_assoc, hwin.readT_at true hxat (by omega) hx, ok_bind]
    have := importLoop_eq (c := c) hwin hh.pos hwi ls off iat (iat + T) (off + N) x c1' (by rw [hkk]; exact c2')
      (by rw [hkk]; exact c3') (by rw [hkk]; exact c4') hxat hx hok
      (by rw [hkk, e3]; intro h; have := hlow h; omega) (by rw [e3]; omega)
    rw [hkk] at this
    exact this

/-- C29: with enough room, `rebuild_imports` succeeds, changes nothing but the section data and the directory entries, and
    `get_imported_functions` then returns the same libraries (names, time stamps) with the same functions in the same order;
    libraries whose tables are kept have the same table addresses. Missing: the settings that rewrite kept tables or fill
    missing lookup tables (see `C29_settings_partial`, `C29_fill_without_build`), functions by number when no lookup table is built
    (`C29_ordinal_without_original`), zero IAT values (`C29_zero_iat_value`); data of the section behind the written ones,
    which are cut off (`C29_cuts_data`); for PE32, names at or above 2 GiB. -/
theorem C29_round_trip_partial (p : Image) (i off : Nat) (s : Sec) (ls : List ImportLib) (c : ImportCfg) (zeroIat strip : Bool)
    (hh : Host p i s) (hdirs : p.nt.DirsOk) (hnum : dirImport < p.nt.numRva) (hnum2 : zeroIat = true → dirIat < p.nt.numRva)
    (hfill : c.fill = false) (hrew : c.rewrite = false) (hl : ∀ l ∈ ls, l.Ok p i c.save c.buildOrig)
    (hlow : p.kind.ptr = 4 → s.va + off + importNames ls ≤ 2 ^ 31)
    (iat fin need : Nat) (hsz : ImportSizes p.kind.ptr off c ls iat fin need) (hroom : HostRoom p i s (off + need))
    (hend : s.data.length ≤ fin) :
    ∃ (q q' : Image) (ls' : List ImportLib),
      p.rebuildImports ls i c off true zeroIat strip = .ok (q', (s.va + off + importNames ls, need - importNames ls)) ∧
      RebuiltIn p q i s off (fin - off) dirImport (s.va + off + importNames ls, need - importNames ls) ∧
      q' = (if zeroIat then q.withDir dirIat (0, 0) else q) ∧ q'.getImports = .ok ls' ∧ ls'.length = ls.length ∧
      ∀ (k : Nat) (l l' : ImportLib), ls[k]? = some l → ls'[k]? = some l' → l.Same l' c.save c.buildOrig := by
  obtain ⟨q, q', h1, h2, h3, h4⟩ := imports_lasting p i off s ls c zeroIat strip hh hdirs hnum hnum2 hfill hrew hl hlow iat fin need hsz
    hroom hend
  have hk : q'.secs = q.secs ∧ q'.hdrData = q.hdrData ∧ q'.nt.secAlign = q.nt.secAlign ∧ q'.nt.fileAlign = q.nt.fileAlign ∧
      q'.nt.numSections = q.nt.numSections ∧ q'.kind = q.kind := by
    rw [h3]; split <;> exact ⟨rfl, rfl, rfl, rfl, rfl, rfl⟩
  obtain ⟨k1, k2, k3, k4, k5, k6⟩ := hk
  have hwi : Within { p with secs := p.secs.eraseIdx i } q' := within_erase (h2.valid.congr k1 k3 k4 k5) (by rw [k6, h2.kind])
    (by rw [k2, h2.hdr]) (by rw [k3, h2.nt]) (fun j hj => by rw [k1, h2.others j hj])
  obtain ⟨ls', h5, h6, h7⟩ := h4.now p i hwi hl
  exact ⟨q, q', ls', h1, h2, h3, h5, h6, h7⟩

/-! ### Reading never fails badly -/

theorem importFn_noUB (p : Image) (a l : Nat) : NoUB (p.importFn a l) := by
  unfold Image.importFn
  split
  · exact NoUB.ok _
  · exact NoUB.bind (NoUB.throwIf _ _) (fun _ _ => NoUB.bind (strAt_noUB _ _ _) (fun _ _ =>
      NoUB.bind (readInt_noUB _ _ _ _ _) (fun _ _ => NoUB.ok _)))

theorem readInt_below {p : Image} (hp : ReadsBelow4G p) {n rva v : Nat} (hr : rva < 4294967296)
    {t : DataType} {hdrs : Bool} (h : p.readInt n rva t hdrs = .ok v) : rva + n < 4294967296 := by
  unfold Image.readInt at h
  obtain ⟨b, hb, -⟩ := bind_ok_iff.mp h
  exact readT_below hp hr hb

theorem importThunks_noUB {p : Image} (hp : ReadsBelow4G p) (thunk orig : Nat) (hr : thunk < 4294967296) :
    NoUB (p.importThunks thunk orig) := by
  generalize hm : 4294967296 - thunk = m
  induction m using Nat.strongRecOn generalizing thunk orig with
  | _ m ih =>
    rw [Image.importThunks]
    refine NoUB.bind (readInt_noUB _ _ _ _ _) (fun a ha => ?_)
    have hb := readInt_below hp hr ha
    have hk := p.kind.ptr_cases
    by_cases h0 : a = 0
    · rw [if_pos h0]; exact NoUB.ok _
    · rw [if_neg h0]
      refine NoUB.bind (readInt_noUB _ _ _ _ _) (fun l _ => ?_)
      by_cases h1 : l = 0
      · rw [if_pos h1]; exact NoUB.ok _
      · rw [if_neg h1]
        refine NoUB.bind (importFn_noUB _ _ _) (fun f _ => ?_)
        have hw : w32 (thunk + p.kind.ptr) = thunk + p.kind.ptr := by rw [w32, Nat.mod_eq_of_lt hb]
        rw [hw, dif_pos (by omega)]
        exact NoUB.bind (ih (4294967296 - (thunk + p.kind.ptr)) (by omega) _ _ hb rfl) (fun _ _ => NoUB.ok _)

theorem importTables_noUB {p : Image} (hp : ReadsBelow4G p) (ft oft : Nat) (hr : ft < 4294967296) : NoUB (p.importTables ft oft) := by
  unfold Image.importTables
  refine NoUB.bind (readInt_noUB _ _ _ _ _) (fun a ha => NoUB.bind ?_ (fun l _ => ?_))
  · unfold Image.importLookup0
    split
    · exact NoUB.ok _
    · exact readInt_noUB _ _ _ _ _
  · split
    · exact importThunks_noUB hp _ _ hr
    · exact NoUB.ok _

theorem importLoop_noUB {p : Image} (hp : ReadsBelow4G p) (pos : Nat) (d : Bytes) : NoUB (p.importLoop pos d) := by
  generalize hm : 4294967296 - pos = m
  induction m using Nat.strongRecOn generalizing pos d with
  | _ m ih =>
    rw [Image.importLoop]
    by_cases h0 : rd 4 d 12 = 0
    · rw [if_pos h0]; exact NoUB.ok _
    · rw [if_neg h0]
      refine NoUB.bind (strAt_noUB _ _ _) (fun _ _ => NoUB.bind (importTables_noUB hp _ _ (rd_lt 4 _ _)) (fun _ _ => ?_))
      by_cases h1 : isSumSafe pos 20 = true
      · rw [dif_pos h1]
        have h2 := h1
        simp only [isSumSafe, decide_eq_true_eq] at h2
        exact NoUB.bind (readT_noUB _ _ _ _ _) (fun d' _ =>
          NoUB.bind (ih (4294967296 - (pos + 20)) (by omega) _ _ rfl) (fun _ _ => NoUB.ok _))
      · rw [dif_neg h1]; exact NoUB.throwE _

theorem getImports_safe {p : Image} (hr : Readable p) (u : UB) :
    p.getImports ≠ .error (.ub u) := by
  refine (show NoUB p.getImports from ?_) u
  unfold Image.getImports
  refine NoUB.bind (hasDir_noUB hr.dirs.slots (by decide)) (fun b _ => ?_)
  split
  · exact NoUB.bind (getDir_noUB hr.dirs _).1 (fun rva _ => NoUB.bind (readT_noUB _ _ _ _ _) (fun d _ =>
      importLoop_noUB hr.reads _ _))
  · exact NoUB.ok _

/-- C57: on every image loaded from any file, `get_imported_functions` returns or throws: it never reads outside of a
    buffer, and its loops always end. -/
theorem C57_imports_safe (k : Kind) (strict fromMem dbg : Bool) (pre : List (Nat × Nat)) (hp : pre.length = 16)
    (hp' : ∀ d ∈ pre, d.1 < 2 ^ 32) (file : Bytes) (p : Image) (h : load k strict fromMem dbg pre file = .ok p) (u : UB) :
    p.getImports ≠ .error (.ub u) := by
  exact getImports_safe (loaded_readable hp hp' h) u

/-! ### Examples and counterexamples -/

/-- The demo image with the tables of one library in its first section: IAT at 0x1000, lookup table at 0x1008, the hint
    and the name of the only function at 0x1010. -/
def importImage : Image := { demoImage with
  secs := [{ (demoImage.secs[0]'(by decide)) with data :=
      [0, 0x10, 0x40, 0, 0, 0, 0, 0, 0x10, 0x10, 0, 0, 0, 0, 0, 0, 7, 0, 0x78, 0x79, 0] },
    { (demoImage.secs[1]'(by decide)) with data := List.replicate 64 2 }] }

theorem import_valid : ValidTable importImage where
  sa := pow2_4096
  fa := pow2_512
  le := by decide
  fits := by
    intro s hs
    simp only [importImage, List.mem_cons, List.not_mem_nil, or_false] at hs
    rcases hs with rfl | rfl <;> constructor <;> decide
  aligned := by
    intro s hs
    simp only [importImage, List.mem_cons, List.not_mem_nil, or_false] at hs
    rcases hs with rfl | rfl <;> decide
  nonempty := by
    intro s hs
    simp only [importImage, List.mem_cons, List.not_mem_nil, or_false] at hs
    rcases hs with rfl | rfl <;> decide
  contig := ⟨by decide, trivial⟩
  num := rfl
  count := by decide
  pages := by decide

theorem import_host : Host importImage 1 (importImage.secs[1]'(by decide)) where
  valid := import_valid
  sec := rfl
  hdr := by decide
  pos := by decide
  data := by decide
  raw := by decide

/-- A library whose tables are kept and a new one with a function by name and one by number. -/
def demoImports : List ImportLib :=
  [{ name := [0x61], rvaIat := 0x1000, rvaOrig := 0x1008, stamp := 3, funcs := [{ name := [0x78, 0x79], hint := 7, iatVa := 0x401000 }] },
   { name := [0x62, 0x63], stamp := 4, funcs := [{ name := [0x66], hint := 1, iatVa := 0x55 }, { ordinal := 9, iatVa := 0x56 }] }]

theorem demoImports_ok : ∀ l ∈ demoImports, l.Ok importImage 1 true true := by
  unfold demoImports
  simp only [List.mem_cons, List.not_mem_nil, or_false]
  rintro l (rfl | rfl)
  · exact ⟨by decide, by decide, fun h => absurd (by decide) h, fun _ => ⟨by decide, by decide, by decide +kernel⟩⟩
  · refine ⟨by decide, by decide, fun _ => ?_, fun h => absurd h (by decide)⟩
    simp only [List.mem_cons, List.not_mem_nil, or_false]
    rintro f (rfl | rfl)
    · exact ⟨by decide, fun _ => by decide, fun h => absurd h (by decide), fun _ => by decide⟩
    · exact ⟨by decide, fun h => absurd rfl h, fun _ => by decide, fun _ => by decide⟩

/-- C29 applies to this image and list, at offset 18 of the last section. -/
example : ∃ q q' ls', importImage.rebuildImports demoImports 1 {} 18 true true true = .ok (q', (0x2020, 104)) ∧
    q' = (if true then q.withDir dirIat (0, 0) else q) ∧ q'.getImports = .ok ls' ∧ ls'.length = 2 := by
  obtain ⟨q, q', ls', h1, -, h2, h3, h4, -⟩ := C29_round_trip_partial importImage 1 18 _ demoImports {} true true import_host
    ⟨rfl, by decide⟩ (by decide) (fun _ => by decide) rfl rfl demoImports_ok (by decide) 92 124 118
    ⟨by decide, by decide, by decide⟩ (by decide) (by decide)
  exact ⟨q, q', ls', h1, h2, h3, h4⟩

/-- C29: data of the section behind the new directory are cut off, although there is room enough (`raw_data.resize`
    is done even if the data get shorter): here all bytes from offset 20 on are gone. -/
theorem C29_cuts_data : ∃ (p q : Image) (s s' : Sec) (dir : Nat × Nat), Host p 1 s ∧ p.nt.DirsOk ∧ dirImport < p.nt.numRva ∧
    HostRoom p 1 s (0 + 24) ∧ p.rebuildImports [] 1 {} 0 true false false = .ok (q, dir) ∧ q.secs[1]? = some s' ∧
    s.data[40]? = some 2 ∧ s'.data.length = 20 := by
  obtain ⟨⟨q, dir⟩, h1, h2⟩ := exists_of_okAnd (x := importImage.rebuildImports [] 1 {} 0 true false false)
    (f := fun r => decide ((r.1.secs[1]?.map (fun t : Sec => t.data.length)) = some 20)) (by decide +kernel)
  have h2 := of_decide_eq_true h2
  rw [Option.map_eq_some_iff] at h2
  obtain ⟨s', h3, h4⟩ := h2
  exact ⟨importImage, q, _, s', dir, import_host, ⟨rfl, by decide⟩, by decide, by decide, h1, h3, by decide, h4⟩

theorem one_lib {β : Type} [DecidableEq β] {q : Image} {g : ImportLib → β} {x : β}
    (h : decide ((q.getImports.map (fun t => t.map g)) = .ok [x]) = true) : ∃ l, q.getImports = .ok [l] ∧ g l = x := by
  have h := of_decide_eq_true h
  cases hq : q.getImports with
  | error e => rw [hq] at h; cases h
  | ok t =>
    rw [hq] at h
    have h := Except.ok.inj h
    match t, h with
    | [l], h => exact ⟨l, rfl, (List.cons.inj h).1⟩

/-- C29: when a lookup table is built, a function whose IAT value is 0 ends the table: the functions from there on are
    lost. -/
theorem C29_zero_iat_value : ∃ (p q : Image) (s : Sec) (dir : Nat × Nat) (l l' : ImportLib), Host p 1 s ∧ p.nt.DirsOk ∧
    dirImport < p.nt.numRva ∧ HostRoom p 1 s (0 + 200) ∧ p.rebuildImports [l] 1 {} 0 true false false = .ok (q, dir) ∧
    q.getImports = .ok [l'] ∧ l.funcs.length = 2 ∧ l'.funcs = [] := by
  obtain ⟨⟨q, dir⟩, h1, h2⟩ := exists_of_okAnd
    (x := importImage.rebuildImports [{ name := [0x61], funcs := [{ name := [0x62] }, { name := [0x63], iatVa := 1 }] }] 1 {} 0 true false false)
    (f := fun r => decide ((r.1.getImports.map (fun t => t.map ImportLib.funcs)) = .ok [[]])) (by decide +kernel)
  obtain ⟨l', hq, h3⟩ := one_lib h2
  exact ⟨importImage, q, _, dir, _, l', import_host, ⟨rfl, by decide⟩, by decide, by decide, h1, hq, rfl, h3⟩

/-- C29: without a lookup table, the IAT entry of a function that is imported by number is overwritten by the next one
    (the position is not moved on). -/
theorem C29_ordinal_without_original : ∃ (p q : Image) (s : Sec) (dir : Nat × Nat) (l l' : ImportLib), Host p 1 s ∧ p.nt.DirsOk ∧
    dirImport < p.nt.numRva ∧ HostRoom p 1 s (0 + 200) ∧
    p.rebuildImports [l] 1 { buildOrig := false } 0 true false false = .ok (q, dir) ∧
    q.getImports = .ok [l'] ∧ l.funcs = [{ ordinal := 5 }, { name := [0x63] }] ∧ l'.funcs.map ImportFn.name = [[0x63]] := by
  obtain ⟨⟨q, dir⟩, h1, h2⟩ := exists_of_okAnd
    (x := importImage.rebuildImports [{ name := [0x61], funcs := [{ ordinal := 5 }, { name := [0x63] }] }] 1 { buildOrig := false } 0 true false false)
    (f := fun r => decide ((r.1.getImports.map (fun t => t.map (fun l => l.funcs.map ImportFn.name))) = .ok [[[0x63]]])) (by decide +kernel)
  obtain ⟨l', hq, h3⟩ := one_lib h2
  exact ⟨importImage, q, _, dir, _, l', import_host, ⟨rfl, by decide⟩, by decide, by decide, h1, hq, rfl, h3⟩

/-- C29: `fill_missing_original_iats` without `build_original_iat` writes a lookup table but leaves its address 0 in the
    descriptor, so the IAT (which has the given addresses) is read as the lookup table: here the name is lost. -/
theorem C29_fill_without_build : ∃ (p q : Image) (s : Sec) (dir : Nat × Nat) (l l' : ImportLib), Host p 1 s ∧ p.nt.DirsOk ∧
    dirImport < p.nt.numRva ∧ HostRoom p 1 s (0 + 200) ∧
    p.rebuildImports [l] 1 { buildOrig := false, fill := true } 0 true false false = .ok (q, dir) ∧
    q.getImports = .ok [l'] ∧ l.funcs = [{ name := [0x63], iatVa := 0x80000001 }] ∧ l'.funcs = [{ ordinal := 1, iatVa := 0x80000001 }] := by
  obtain ⟨⟨q, dir⟩, h1, h2⟩ := exists_of_okAnd
    (x := importImage.rebuildImports [{ name := [0x61], funcs := [{ name := [0x63], iatVa := 0x80000001 }] }] 1 { buildOrig := false, fill := true } 0
      true false false)
    (f := fun r => decide ((r.1.getImports.map (fun t => t.map ImportLib.funcs)) = .ok [[{ ordinal := 1, iatVa := 0x80000001 }]])) (by decide +kernel)
  obtain ⟨l', hq, h3⟩ := one_lib h2
  exact ⟨importImage, q, _, dir, _, l', import_host, ⟨rfl, by decide⟩, by decide, by decide, h1, hq, rfl, h3⟩

end PE
