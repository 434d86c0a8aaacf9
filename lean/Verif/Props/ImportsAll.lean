/-
C29: the import directory, with all settings of the rebuilder.
-/
import Verif.Lemmas.Hdr
import Verif.Lemmas.ImportsAllRead
import Verif.Props.Imports

namespace PE

/-! ### Sizes -/

theorem tabI_le (c : ImportCfg) (n : Nat) (ls : List ImportLib) : tabI c n ls ≤ n * thunkCount ls := by
  unfold thunkCount
  induction ls with
  | nil => exact Nat.le_refl _
  | cons l ls ih =>
    have hm := Nat.mul_add n (l.funcs.length + 1) (ls.map (fun l => l.funcs.length + 1)).sum
    rw [tabI, List.map_cons, List.sum_cons, hm]
    have : (allI c l).raw (n * (l.funcs.length + 1)) ≤ n * (l.funcs.length + 1) := by
      cases allI c l <;> simp [Dest.raw]
    omega

theorem tabO_eq (c : ImportCfg) (n : Nat) (ls : List ImportLib) :
    tabO c n ls = n * thunkCount (ls.filter (fun l => decide (l.NewLook c))) := by
  unfold thunkCount
  induction ls with
  | nil => rfl
  | cons l ls ih =>
    rw [tabO, ih]
    by_cases h : l.NewLook c
    · have h0 : allO c l = .new := by
        unfold allO
        rw [if_neg h.1, if_pos h]
      rw [List.filter_cons_of_pos (by simpa using h), List.map_cons, List.sum_cons, h0]
      simp only [Dest.raw, Nat.mul_add]
    · have h0 : (allO c l).raw (n * (l.funcs.length + 1)) = 0 := by
        unfold allO
        rw [if_neg h]
        split <;> rfl
      rw [List.filter_cons_of_neg (by simpa using h), h0, Nat.zero_add]

theorem thunkCount_filter_le (f : ImportLib → Bool) (ls : List ImportLib) : thunkCount (ls.filter f) ≤ thunkCount ls := by
  unfold thunkCount
  induction ls with
  | nil => exact Nat.le_refl _
  | cons l ls ih =>
    cases h : f l with
    | false => rw [List.filter_cons_of_neg (by simp [h])]; simp only [List.map_cons, List.sum_cons]; omega
    | true => rw [List.filter_cons_of_pos h]; simp only [List.map_cons, List.sum_cons]; omega

theorem readAll_same (c : ImportCfg) (n va ps pi po : Nat) (hva : 0 < va) (ls : List ImportLib)
    (hf : ∀ l ∈ ls, l.Written c → c.fill = true → c.buildOrig = true) :
    (readAll c n va ps pi po ls).length = ls.length ∧ ∀ (k : Nat) (l l' : ImportLib), ls[k]? = some l →
      (readAll c n va ps pi po ls)[k]? = some l' → l.AllSame l' c := by
  induction ls generalizing ps pi po with
  | nil => exact ⟨rfl, fun k l l' h => by simp at h⟩
  | cons l ls ih =>
    obtain ⟨i1, i2⟩ := ih (ps + (libStr l).length) (pi + (allI c l).raw (n * (l.funcs.length + 1)))
      (po + (allO c l).raw (n * (l.funcs.length + 1))) (fun g hg => hf g (List.mem_cons_of_mem _ hg))
    refine ⟨by rw [readAll, List.length_cons, List.length_cons, i1], fun k g g' h h' => ?_⟩
    rw [readAll] at h'
    cases k with
    | succ k =>
      rw [List.getElem?_cons_succ] at h h'
      exact i2 k g g' h h'
    | zero =>
      rw [List.getElem?_cons_zero] at h h'
      cases h
      cases h'
      refine ⟨rfl, rfl, fun hk => ?_, fun hk hn => ?_, fun hfl => ?_, ?_, fun hx => ?_⟩
      · show allFt c va pi l = _
        unfold allFt; rw [if_pos hk]
      · show allOft c va po l = _
        unfold allOft
        rw [if_pos hk]
        split
        · next hb =>
          split
          · next hro => rw [if_neg (fun hf' => hn ⟨hk, hb, hf', hro⟩), hro]
          · rfl
        · rfl
      · exact allOft_looked hva ⟨hfl.2.1, Or.inr (Or.inr hfl.2.2.1)⟩
      · show (allFns c n va ps l).map _ = _
        unfold allFns
        split
        · exact readFns_shown _ _ _ _ _
        · rfl
      · show allFns c n va ps l = _
        unfold allFns
        split
        · next hw =>
          rcases hx with hx | hx
          · exact absurd hw hx
          · rw [allB_looked hw (hf l List.mem_cons_self hw), decide_eq_true hx, readFns_orig]
        · rfl

/-! ### The round trip -/

theorem Window.withHdr {q : Image} {va : Nat} {m : Bytes} {s : Sec} (hw : Window q va m s) {h : Bytes} (h1 : q.hdrData.length ≤ va)
    (h2 : h.length ≤ va) : Window (q.withHdr h) va m s where
  fin := hw.fin
  sva := hw.sva
  smem := hw.smem
  sec := hw.sec
  readT := fun hdrs off n ho hn => by
    rw [← hw.readT hdrs off n ho hn]
    unfold Image.readT
    rw [if_neg (by show ¬ (_ ∧ _ ∧ _ < h.length); omega), if_neg (by omega)]
    rfl
  ptr := fun hdrs off ho => by
    rw [← hw.ptr hdrs off ho]
    unfold Image.ptrFromRva
    rw [if_neg (by show ¬ (_ ∧ _ < h.length); omega), if_neg (by omega)]
    rfl
  len := fun hdrs off ho => by
    rw [← hw.len hdrs off ho]
    unfold Image.dataLenFrom
    rw [if_neg (by show ¬ (_ ∧ _ < h.length ∧ _); omega), if_neg (by omega)]
    rfl

theorem LibsDone.withHdr {c : ImportCfg} {n va i : Nat} {p : Image} {m h : Bytes} (hlen : h.length ≤ p.hdrData.length) :
    ∀ {ls : List ImportLib} {ps pi po : Nat}, LibsDone c n va i p m ps pi po ls → LibsDone c n va i (p.withHdr h) m ps pi po ls := by
  have hr : ∀ {j a n}, TabRoom p i j a n → TabRoom (p.withHdr h) i j a n := fun hr => by
    obtain ⟨h0, s, g1, g2, g3, g4, g5⟩ := hr
    exact ⟨h0, s, g1, by show h.length ≤ _; omega, g3, g4, g5⟩
  have ht : ∀ {j k pos a x}, Tables p m j k pos a x → Tables (p.withHdr h) m j k pos a x := fun ht => ⟨ht.raw, ht.tab⟩
  intro ls
  induction ls with
  | nil => intro _ _ _ _; trivial
  | cons l ls ih =>
    intro ps pi po hd
    obtain ⟨⟨j, a0, a1⟩, ⟨j', b0, b1⟩, c1⟩ := hd
    exact ⟨⟨j, fun h => hr (a0 h), ht a1⟩, ⟨j', fun h => hr (b0 h), ht b1⟩, ih c1⟩

set_option maxHeartbeats 1000000 in
/-- The round trip; reading is done with the header bytes `h0`. -/
theorem settings_core (p : Image) (i off : Nat) (s : Sec) (ls : List ImportLib) (c : ImportCfg) (zeroIat strip : Bool)
    (hh : Host p i s) (hdirs : p.nt.DirsOk) (hnum : dirImport < p.nt.numRva) (hnum2 : zeroIat = true → dirIat < p.nt.numRva)
    (h0 : Bytes) (hlen : h0.length ≤ p.hdrData.length) (hl : ∀ l ∈ ls, l.AllOk (p.withHdr h0) i c)
    (hrm : ∀ l ∈ ls, ∀ t ∈ l.tables p.kind.ptr c, ∃ j, TabRoom p i j t.1 t.2) (hap : (importTabs p.kind.ptr c ls).Pairwise TabsApart)
    (hlow : p.kind.ptr = 4 → s.va + off + importNames ls ≤ 2 ^ 31)
    (iat fin need : Nat) (hsz : ImportAllSizes p.kind.ptr off c ls iat fin need) (hroom : HostRoom p i s (off + need))
    (hend : s.data.length ≤ fin) :
    ∃ (p' q q' : Image) (ls' : List ImportLib),
      p.rebuildImports ls i c off true zeroIat strip = .ok (q', (s.va + off + importNames ls, need - importNames ls)) ∧
      Retabled p p' i (InTabs (importTabs p.kind.ptr c ls)) ∧
      RebuiltIn p' q i s off (fin - off) dirImport (s.va + off + importNames ls, need - importNames ls) ∧
      q' = (if zeroIat then q.withDir dirIat (0, 0) else q) ∧ (q'.withHdr h0).getImports = .ok ls' ∧ ls'.length = ls.length ∧
      ∀ (k : Nat) (l l' : ImportLib), ls[k]? = some l → ls'[k]? = some l' → l.AllSame l' c := by
  have hp := p.kind.ptr_cases
  have hi : i < p.secs.length := by
    have := hh.sec; rw [List.getElem?_eq_some_iff] at this; exact this.1
  have hpow : Pow2 p.kind.ptr := by
    rcases hp with h | h <;> rw [h]
    · exact ⟨2, by omega, rfl⟩
    · exact ⟨3, by omega, rfl⟩
  obtain ⟨hl1, hl2⟩ := hroom.lt hh
  have hgl := (hroom.grow hh).lt hh
  have hg := growTo_ge s.data (off + need)
  have hpos' := hh.pos
  have e1 := importStrings_eq ls
  have e2 := importIatSize_eq p.kind.ptr ls
  have e3 := libStrs_length ls
  have e4 := tabI_le c p.kind.ptr ls
  have e5 := tabO_eq c p.kind.ptr ls
  have e6 := Nat.mul_le_mul_left p.kind.ptr (thunkCount_filter_le (fun l => decide (l.NewLook c)) ls)
  have e7 : ¬ (c.buildOrig = true ∨ c.fill = true) → p.kind.ptr * thunkCount (ls.filter (fun l => decide (l.NewLook c))) = 0 := by
    intro h
    have : ls.filter (fun l => decide (l.NewLook c)) = [] := by
      rw [List.filter_eq_nil_iff]
      intro l _ hn
      have hn := (of_decide_eq_true hn).2
      rcases hn with hn | hn
      · exact h (Or.inl hn.2)
      · exact h (Or.inr hn)
    rw [this]; rfl
  obtain ⟨z1, z2, z3⟩ := hsz
  generalize hN : importNames ls = N at *
  generalize hT : p.kind.ptr * thunkCount ls = T at *
  generalize hF : p.kind.ptr * thunkCount (ls.filter (fun l => decide (l.NewLook c))) = F at *
  generalize hn : ls.length = n at *
  have c1 : off + N + 20 * (n + 1) ≤ iat := by rw [z1]; exact ceilTo_ge (by omega)
  have c2 : iat < off + N + 20 * (n + 1) + p.kind.ptr := by rw [z1]; exact ceilTo_lt (by omega)
  have hfin : fin ≤ off + need := by
    by_cases hb : c.buildOrig = true ∨ c.fill = true
    · rw [if_pos hb] at z3; omega
    · rw [if_neg hb] at z3
      have := e7 hb
      omega
  have hT2 : T ≤ need := by
    split at z3 <;> omega
  have wid : ∀ x, x < 2 ^ 32 → w32 x = x := fun x hx => by rw [w32, Nat.mod_eq_of_lt hx]
  have hneed : w32 ((1 + n) * 20 + (if c.buildOrig || c.fill then T * 2 else T) + p.kind.ptr + N) = need := by
    simp only [Bool.or_eq_true]
    split at z3
    · next hb => rw [if_pos hb, wid _ (by omega)]; omega
    · next hb => rw [if_neg hb, wid _ (by omega)]; omega
  have hiat : alignUp (w32 (N + off + (1 + n) * 20)) p.kind.ptr = iat := by
    rw [wid _ (by omega), z1, show N + off + (1 + n) * 20 = off + N + 20 * (n + 1) by omega]
    exact alignUp_of_le hpow (by omega) (by rw [z1] at c2; omega)
  have hfinO : fin = iat + T + tabO c p.kind.ptr ls := by rw [e5]; exact z2
  have hfill : ∀ l ∈ ls, l.Written c → c.fill = true → c.buildOrig = true := fun l hm => (hl l hm).fill
  -- the writes
  obtain ⟨p', d1, ft, oft, w1, a1, a2, a3, m1, hret⟩ := putLibs_all (i := i) (va := s.va) (n := p.kind.ptr) (s := s) (c := c) ls p
    (growTo s.data (off + need)) off iat (iat + T) (off + N) 0 0 hh.valid hh.sec rfl (by omega) (by omega) (by omega) (by omega) (by omega)
    hrm hap (fun l hm h1 h2 => by
      have hk : ¬ l.Kept c.save := by
        intro hk
        unfold allI at h1
        rw [if_pos hk] at h1
        split at h1 <;> cases h1
      rw [allB_looked (Or.inl hk) (hfill l hm (Or.inl hk))] at h2
      exact (hl l hm).fresh hk (of_decide_eq_false h2))
  have hh' := hret.host hh
  have hi' : i < p'.secs.length := by rw [hret.count]; exact hi
  have hdirs' : p'.nt.DirsOk := by rw [hret.nt]; exact hdirs
  have hnum' : dirImport < p'.nt.numRva := by rw [hret.nt]; exact hnum
  have l1 := m1.len
  have hm2 := m1.cut (n := fin) (by omega) (by omega)
  have b1 := a1.cut (n := fin) (by omega) (by omega)
  have b2 := a2.cut (n := fin) (by omega) (by rw [allDescs_length]; omega)
  have hroom2 : HostRoom p' i s fin := hret.hostRoom (hroom.mono hh.valid hfin)
  have hgf := growTo_ge s.data fin
  have hpatch := hm2.patch (lo := off) (n := fin - off) (by
    intro j hj
    rw [e3, hn] at hj
    omega) (by omega)
  have hrl : (resize d1 fin).length = fin := resize_length _ _
  have hsl : (slice (resize d1 fin) off (fin - off)).length = fin - off := slice_length_of_le (by omega)
  obtain ⟨q, hq, hw⟩ := finishDir_written (e := slice (resize d1 fin) off (fin - off)) (pos := off) strip
    (s.va + off + N, need - N) hh' hdirs' hnum' (show 0 < fin by omega) (by omega) hroom2
  have hplaced := hw.placed
  have hreb := hw.rebuilt
  rw [hsl] at hreb
  rw [← hpatch] at hq hplaced
  have hcore : ∀ q' : Image, q' = (if zeroIat then q.withDir dirIat (0, 0) else q) →
      q'.secs = q.secs ∧ q'.hdrData = q.hdrData ∧ q'.nt.secAlign = q.nt.secAlign ∧ q'.nt.fileAlign = q.nt.fileAlign ∧
      q'.nt.numSections = q.nt.numSections ∧ q'.kind = q.kind ∧ q'.nt.getDirRva dirImport = .ok (s.va + off + N) ∧
      q'.hasDir dirImport = .ok true := by
    intro q' hq'
    cases zeroIat with
    | false =>
      simp only [Bool.false_eq_true, if_false] at hq'
      subst hq'
      refine ⟨rfl, rfl, rfl, rfl, rfl, rfl, hreb.rva, ?_⟩
      rw [hw.has]; congr 1; rw [decide_eq_true_eq]; dsimp only; omega
    | true =>
      simp only [if_true] at hq'
      subst hq'
      have hd := hplaced.dirsOk hdirs'
      have hnt := hplaced.nt
      have hs := hdirs'.slots
      have hst := getDir_stored (h := (q.withDir dirIat (0, 0)).nt) (DirsOk.set hd dirIat (0, 0)) (id := dirImport)
        (d := (s.va + off + N, need - N)) (by show dirImport < q.nt.numRva; rw [hnt]; exact hnum') (by
          show (q.nt.dirs.set dirIat (0, 0))[dirImport]? = _
          rw [List.getElem?_set_ne (by decide), hnt]
          exact List.getElem?_set_self (by have := hdirs'.count; omega))
      refine ⟨rfl, rfl, rfl, rfl, rfl, rfl, hst.1, ?_⟩
      show (q.withDir dirIat (0, 0)).nt.directoryExists dirImport = _
      rw [hst.2.2]; congr 1; rw [decide_eq_true_eq]; dsimp only; omega
  obtain ⟨rs1, rs2⟩ := readAll_same c p.kind.ptr s.va off iat (iat + T) hh.pos ls hfill
  refine ⟨p', q, _, readAll c p.kind.ptr s.va off iat (iat + T) ls, ?_, hret, hreb, rfl, ?_, rs1.trans hn, rs2⟩
  · unfold Image.rebuildImports
    rw [hh.sec]
    dsimp only
    rw [e1, e2, hn, wid N (by omega), wid T (by omega), hneed, show w32 (need + off) = off + need by rw [wid _ (by omega)]; omega,
      hroom.check hh, ok_bind, hiat, wid (iat + T) (by omega), wid (N + off) (by omega), Nat.add_comm N off]
    have w1' := w1
    unfold Image.withData at w1'
    rw [w1', ok_bind]
    dsimp only
    have hsec : (p'.secs.set i { s with data := d1 })[i]? = some { s with data := d1 } := List.getElem?_set_self hi'
    rw [hsec]
    dsimp only
    have hf' := finishDir_withData p' i s d1 (resize d1 fin) strip true dirImport (s.va + off + N, need - N)
    unfold Image.withData at hf'
    rw [← hfinO, wid (off + N) (by omega), ← Nat.add_assoc, wid (s.va + off + N) (by omega), sub32_of_le (by omega) (by omega), hf', hq,
      ok_bind]
    dsimp only
    cases zeroIat with
    | false => rfl
    | true =>
      have hd := hplaced.dirsOk hdirs'
      have hn2 : dirIat < q.nt.numRva := by rw [hplaced.nt, hret.nt]; exact hnum2 rfl
      have hb := setDir_both hd hn2 0 0
      have hb1 := setDir_rva hd hn2 0
      rw [hb1, ok_bind] at hb
      simp only [Bool.and_self, if_true]
      rw [hb1, ok_bind, hb, ok_bind]
      rfl
  · generalize hq' : (if zeroIat then q.withDir dirIat (0, 0) else q) = q'
    obtain ⟨k1, k2, k3, k4, k5, k6, k7, k8⟩ := hcore q' hq'.symm
    obtain ⟨k, s', h1, h2, h3, -, -⟩ := hplaced.here
    have hhq : q.hdrData = p.hdrData := by rw [hreb.hdr, hret.hdr]
    have hwin := (h3.congr k1 k2 k3).withHdr (h := h0) (by rw [k2, hhq]; exact hh.hdr) (by have := hh.hdr; omega)
    have hv' : ValidTable (q'.withHdr h0) := hreb.valid.congr k1 k3 k4 k5
    have hvp' : ValidTable (p'.withHdr h0) := hh'.valid.congr rfl rfl rfl rfl
    have hkk : (q'.withHdr h0).kind = p.kind := by show q'.kind = _; rw [k6, hreb.kind, hret.kind]
    have hoth : ∀ j : Nat, j ≠ i → q'.secs[j]? = p'.secs[j]? := fun j hj => by rw [k1, hreb.others j hj]
    have hsame : c.rewrite = false → ∀ j : Nat, p'.secs[j]? = p.secs[j]? := by
      intro hr j
      have ht : ∀ x, ¬ InTabs (importTabs p.kind.ptr c ls) x := by
        rintro x ⟨t, ht, -⟩
        unfold importTabs at ht
        rw [List.mem_flatMap] at ht
        obtain ⟨l, -, ht⟩ := ht
        unfold ImportLib.tables ImportLib.Relooked at ht
        simp [hr] at ht
      cases hj : p.secs[j]? with
      | none =>
        rw [List.getElem?_eq_none_iff] at hj ⊢
        rw [hret.count]; exact hj
      | some t =>
        obtain ⟨d, g1, -, g3⟩ := hret.secs j t hj
        have : d = t.data := List.ext_getElem? (fun k => g3 k (ht _))
        rw [g1, this]
    have hwi : c.rewrite = false → Within { p.withHdr h0 with secs := (p.withHdr h0).secs.eraseIdx i } (q'.withHdr h0) := fun hr =>
      within_erase hv' hkk rfl (by show q'.nt.secAlign = _; rw [k3, hreb.nt, hret.nt]; rfl)
        (fun j hj => by show q'.secs[j]? = _; rw [hoth j hj, hsame hr j]; rfl)
    have k7' : (q'.withHdr h0).nt.getDirRva dirImport = .ok (s.va + off + N) := k7
    have k8' : (q'.withHdr h0).hasDir dirImport = .ok true := k8
    unfold Image.getImports
    rw [k8', ok_bind, if_pos rfl, k7', ok_bind]
    obtain ⟨x, y, hxy, hx⟩ := allDescs_split c p.kind.ptr s.va off iat (iat + T) ls
    have hxat : At (resize d1 fin ++ zeros k) (off + N) x := by
      have := b2; rw [hxy] at this; exact this.left.more _
    rw [Nat.add_assoc, hwin.readT_at true hxat (by omega) hx, ok_bind]
    have hdone : LibsDone c p.kind.ptr s.va i p' (resize d1 fin ++ zeros k) off iat (iat + T) ls :=
      a3.map (fin := fin) (fun o x hox hx => (hx.cut (by omega) hox).more _) (by omega) (by omega)
    have := importLoop_all (c := c) (p := p.withHdr h0) (p' := p'.withHdr h0) (i := i) hwin hh.pos hv' hkk rfl
      (by show q'.nt.secAlign = p'.nt.secAlign; rw [k3, hreb.nt]) hvp' hoth hwi
      ls off iat (iat + T) (off + N) x (b1.more _) (by rw [hkk]; exact b2.more _) (by rw [hkk]; exact hdone.withHdr (by rw [hret.hdr]; exact hlen)) hxat hx hl
      (by rw [hkk, e3]; intro h; have := hlow h; omega) (by rw [List.length_append, hrl, e3]; omega)
      (by rw [List.length_append, hrl]; omega) (by rw [List.length_append, hrl]; omega)
      (by rw [List.length_append, hrl, hkk]; omega) (by rw [List.length_append, hrl, hkk]; omega)
    rw [hkk] at this
    exact this

/-- C29: the round trip for all settings, also those that overwrite kept tables and fill in missing lookup tables. With enough
    room `rebuild_imports` succeeds. TabsApart from the section of the directory and the directory entries nothing is changed but
    the bytes of the overwritten tables (`p'` is the image with these). Afterwards `get_imported_functions` returns the same
    libraries (names, time stamps) with the same functions in the same order; kept tables have the same addresses. Missing:
    filled-in lookup tables that are not built (`C29_fill_without_build`), functions by number when no lookup table is built
    (`C29_ordinal_without_original`), zero IAT values (`C29_zero_iat_value`), data of the section behind the written ones, which
    are cut off (`C29_cuts_data`), overwritten tables at the very end of raw data (`C29_table_at_end`), in the section of the
    directory or with common bytes; for PE32, names at or above 2 GiB. -/
theorem C29_settings_partial (p : Image) (i off : Nat) (s : Sec) (ls : List ImportLib) (c : ImportCfg) (zeroIat strip : Bool)
    (hh : Host p i s) (hdirs : p.nt.DirsOk) (hnum : dirImport < p.nt.numRva) (hnum2 : zeroIat = true → dirIat < p.nt.numRva)
    (hl : ∀ l ∈ ls, l.AllOk p i c) (hap : (importTabs p.kind.ptr c ls).Pairwise TabsApart)
    (hlow : p.kind.ptr = 4 → s.va + off + importNames ls ≤ 2 ^ 31)
    (iat fin need : Nat) (hsz : ImportAllSizes p.kind.ptr off c ls iat fin need) (hroom : HostRoom p i s (off + need))
    (hend : s.data.length ≤ fin) :
    ∃ (p' q q' : Image) (ls' : List ImportLib),
      p.rebuildImports ls i c off true zeroIat strip = .ok (q', (s.va + off + importNames ls, need - importNames ls)) ∧
      Retabled p p' i (InTabs (importTabs p.kind.ptr c ls)) ∧
      RebuiltIn p' q i s off (fin - off) dirImport (s.va + off + importNames ls, need - importNames ls) ∧
      q' = (if zeroIat then q.withDir dirIat (0, 0) else q) ∧ q'.getImports = .ok ls' ∧ ls'.length = ls.length ∧
      ∀ (k : Nat) (l l' : ImportLib), ls[k]? = some l → ls'[k]? = some l' → l.AllSame l' c := by
  obtain ⟨p', q, q', ls', h1, h2, h3, h4, h5, h6⟩ := settings_core p i off s ls c zeroIat strip hh hdirs hnum hnum2 p.hdrData
    (Nat.le_refl _) hl (fun l hm => (hl l hm).room) hap hlow iat fin need hsz hroom hend
  have hx : q'.hdrData = p.hdrData := by
    rw [← h2.hdr, ← h3.hdr, h4]
    split <;> rfl
  have hy : q'.withHdr p.hdrData = q' := by rw [← hx]; rfl
  rw [hy] at h5
  exact ⟨p', q, q', ls', h1, h2, h3, h4, h5, h6⟩

/-! ### Examples and counterexamples -/

/-- A library whose tables are overwritten (the function gets another name and address) and a new one. -/
def rewriteImports : List ImportLib :=
  [{ name := [0x61], rvaIat := 0x1000, rvaOrig := 0x1008, stamp := 3, funcs := [{ name := [0x78, 0x79, 0x7a], hint := 8, iatVa := 0x401004 }] },
   { name := [0x62, 0x63], stamp := 4, funcs := [{ name := [0x66], hint := 1, iatVa := 0x55 }, { ordinal := 9, iatVa := 0x56 }] }]

theorem rewriteImports_ok : ∀ l ∈ rewriteImports, l.AllOk importImage 1 { rewrite := true } := by
  unfold rewriteImports
  simp only [List.mem_cons, List.not_mem_nil, or_false]
  rintro l (rfl | rfl)
  · refine ⟨by decide, by decide, fun _ => ?_, fun _ _ => by decide, fun _ => by decide, fun h => absurd (by decide) h,
      fun h => absurd (by decide) h, ?_⟩
    · simp only [List.mem_cons, List.not_mem_nil, or_false]
      rintro f rfl
      exact ⟨by decide, fun _ => by decide, fun h => absurd h (by decide)⟩
    · intro t ht
      have ht : t ∈ [(0x1000, 8), (0x1008, 8)] := ht
      simp only [List.mem_cons, List.not_mem_nil, or_false] at ht
      rcases ht with rfl | rfl
      · exact ⟨0, by decide, _, rfl, by decide, by decide, by decide, by decide⟩
      · exact ⟨0, by decide, _, rfl, by decide, by decide, by decide, by decide⟩
  · refine ⟨by decide, by decide, fun _ => ?_, fun _ _ => by decide, fun _ => by decide, fun _ h => absurd (by decide) h,
      fun h => absurd (by decide) h, fun t ht => ?_⟩
    · simp only [List.mem_cons, List.not_mem_nil, or_false]
      rintro f (rfl | rfl)
      · exact ⟨by decide, fun _ => by decide, fun h => absurd h (by decide)⟩
      · exact ⟨by decide, fun h => absurd rfl h, fun _ => by decide⟩
    · have ht : t ∈ ([] : List (Nat × Nat)) := ht
      simp at ht

/-- C29 with overwritten tables applies to this image and list, at offset 18 of the last section. -/
example : ∃ p' q q' ls', importImage.rebuildImports rewriteImports 1 { rewrite := true } 18 true true true = .ok (q', (0x2021, 104)) ∧
    Retabled importImage p' 1 (InTabs [(0x1000, 8), (0x1008, 8)]) ∧ q' = (if true then q.withDir dirIat (0, 0) else q) ∧
    q'.getImports = .ok ls' ∧ ls'.length = 2 := by
  obtain ⟨p', q, q', ls', h1, h0, -, h2, h3, h4, -⟩ := C29_settings_partial importImage 1 18 _ rewriteImports { rewrite := true } true true
    import_host ⟨rfl, by decide⟩ (by decide) (fun _ => by decide) rewriteImports_ok
    (show List.Pairwise TabsApart [(0x1000, 8), (0x1008, 8)] by decide) (by decide) 96 128 119 ⟨by decide, by decide, by decide⟩
    (by decide) (by decide)
  exact ⟨p', q, q', ls', h1, h0, h2, h3, h4⟩

/-- A library without lookup table. -/
def fillImports : List ImportLib :=
  [{ name := [0x61], rvaIat := 0x1008, stamp := 3, funcs := [{ name := [0x78, 0x79], hint := 7, iatVa := 0x1010 }] }]

theorem fillImports_ok : ∀ l ∈ fillImports, l.AllOk importImage 1 { fill := true } := by
  unfold fillImports
  simp only [List.mem_cons, List.not_mem_nil, or_false]
  rintro l rfl
  refine ⟨by decide, by decide, fun _ => ?_, fun h => absurd h (by decide), fun _ => by decide, fun h => absurd (by decide) h,
    fun _ => ⟨by decide, by decide, by decide +kernel⟩, fun t ht => ?_⟩
  · simp only [List.mem_cons, List.not_mem_nil, or_false]
    rintro f rfl
    exact ⟨by decide, fun _ => by decide, fun h => absurd h (by decide)⟩
  · have ht : t ∈ ([] : List (Nat × Nat)) := ht
    simp at ht

/-- C29 with a filled-in lookup table applies to this image and list: the functions are the same, and there is a lookup table
    afterwards. -/
example : ∃ q' l', importImage.rebuildImports fillImports 1 { fill := true } 18 true false true = .ok (q', (0x2019, 60)) ∧
    q'.getImports = .ok [l'] ∧ l'.funcs = [{ name := [0x78, 0x79], hint := 7, iatVa := 0x1010 }] ∧ l'.rvaOrig ≠ 0 := by
  obtain ⟨p', q, q', ls', h1, h0, -, h2, h3, h4, h5⟩ := C29_settings_partial importImage 1 18 _ fillImports { fill := true } false true
    import_host ⟨rfl, by decide⟩ (by decide) (fun h => by cases h) fillImports_ok
    (show List.Pairwise TabsApart [] by decide) (by decide) 68 84 67 ⟨by decide, by decide, by decide⟩ (by decide) (by decide)
  match ls', h4 with
  | [l'], _ =>
    have hs := h5 0 _ l' rfl rfl
    exact ⟨q', l', h1, h3, hs.exact (Or.inl (by decide)), hs.filled (by decide)⟩

/-- C29: an IAT that ends where the raw data of its section end cannot be overwritten, although it fits. -/
theorem C29_table_at_end : ∃ (p : Image) (s t : Sec) (l : ImportLib), Host p 1 s ∧ p.nt.DirsOk ∧ dirImport < p.nt.numRva ∧
    HostRoom p 1 s (0 + 200) ∧ p.secs[0]? = some t ∧ t.va ≤ l.rvaIat ∧ l.rvaIat + p.kind.ptr * (l.funcs.length + 1) = t.va + t.data.length ∧
    l.funcs = [{ name := [0x78], iatVa := 1 }] ∧
    p.rebuildImports [l] 1 { rewrite := true } 0 true false false = .error (.exn .insufficientSpace) :=
  ⟨importImage, _, _, { name := [0x61], rvaIat := 0x100d, funcs := [{ name := [0x78], iatVa := 1 }] }, import_host, ⟨rfl, by decide⟩, by decide,
    by decide, rfl, by decide, by decide, rfl, by decide +kernel⟩

end PE
