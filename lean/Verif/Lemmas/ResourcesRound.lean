/-
Helper lemmas for the resource directory: writing and reading back.
-/
import Verif.Lemmas.ResourcesSort
import Verif.Lemmas.ExportsRound

namespace PE

mutual
theorem ResEntry.Laid.to {m m' : Bytes} {va base : Nat} (hm : ∀ o x, At m o x → At m' o x) : ∀ (e : ResEntry) (tp sp np dp : Nat),
    e.Laid m va base tp sp np dp → e.Laid m' va base tp sp np dp
  | .empty _, _, _, _, _, h => h
  | .data _ _ _, _, _, _, _, h => by
    rw [ResEntry.Laid] at h ⊢
    exact ⟨hm _ _ h.1, hm _ _ h.2.1, hm _ _ h.2.2.1, hm _ _ h.2.2.2⟩
  | .dir _ _ es, _, _, _, _, h => by
    rw [ResEntry.Laid] at h ⊢
    exact ⟨hm _ _ h.1, hm _ _ h.2.1, hm _ _ h.2.2.1, LaidAll.to hm es _ _ _ _ h.2.2.2⟩
theorem LaidAll.to {m m' : Bytes} {va base : Nat} (hm : ∀ o x, At m o x → At m' o x) : ∀ (es : List ResEntry) (tp sp np dp : Nat),
    LaidAll m va base es tp sp np dp → LaidAll m' va base es tp sp np dp
  | [], _, _, _, _, _ => trivial
  | e :: es, _, _, _, _, h => by
    rw [LaidAll] at h ⊢
    exact ⟨ResEntry.Laid.to hm e _ _ _ _ h.1, LaidAll.to hm es _ _ _ _ h.2⟩
end

/-- Writing a (sorted) tree. -/
theorem putDir_spec {va start : Nat} {r : ResDir} {d : Bytes} {np dp : Nat} (hd : DirOk r.h r.es) (hok : AllOk r.es)
    (hva : va + d.length < 4294967296) (h2 : start + (16 + 8 * r.es.length + tablesOf r.es) ≤ np) (h3 : np + namesIn r.es ≤ dp)
    (h4 : dataEndOf r.es dp ≤ d.length) (h5 : dataEndOf r.es dp < start + 2147483648) :
    ∃ d' s', putDir va start r d ⟨start, np, dp⟩ = .ok (d', s') ∧ At d' start (resHdrBytes r.h r.es) ∧
      LaidAll d' va start r.es (start + 16) (start + 16 + 8 * r.es.length) np dp ∧
      Mod d d' (fun i => start ≤ i ∧ i < dataEndOf r.es dp) := by
  have hge := dataEndOf_ge r.es dp
  obtain ⟨d1, e1, a1, m1⟩ := writeAt_mod (b := d) (x := resHdrBytes r.h r.es) (o := start) (by rw [resHdrBytes_length]; omega)
  rw [resHdrBytes_length] at m1
  have l1 := m1.len
  obtain ⟨d2, e2, a2, m2⟩ := putEntries_spec (va := va) (base := start) r.es d1 (start + 16) (start + 16 + 8 * r.es.length) np dp hok
    (by omega) (by omega) (by omega) (by omega) (by omega) (by omega) (by omega)
  refine ⟨d2, ⟨start + 16 + 8 * r.es.length + tablesOf r.es, np + namesIn r.es, dataEndOf r.es dp⟩, ?_, m2.at a1 ?_, a2, ?_⟩
  · unfold putDir
    dsimp only
    rw [e1, ok_bind, hd.counts, w32, w32, Nat.mod_eq_of_lt (a := start + 16) (by omega), Nat.mod_eq_of_lt (by omega), e2]
  · intro i h1 h2
    rw [resHdrBytes_length] at h2
    unfold Area
    omega
  · refine (m1.trans m2).mono fun i hi => ?_
    unfold Area at hi
    omega

/-- Reading a laid out tree from the directory entry on. -/
theorem resources_read {q : Image} {va : Nat} {m : Bytes} {s : Sec} (hw : Window q va m s) {start np dp : Nat} {r : ResDir}
    (hd : DirOk r.h r.es) (hok : AllOk r.es) (hhas : q.hasDir dirResource = .ok true) (hrva : q.nt.getDirRva dirResource = .ok (va + start))
    (ha : At m start (resHdrBytes r.h r.es)) (hl : LaidAll m va start r.es (start + 16) (start + 16 + 8 * r.es.length) np dp)
    (hin : InsideAll m.length r.es dp) (h2 : start + (16 + 8 * r.es.length + tablesOf r.es) ≤ np) (h3 : np + namesIn r.es ≤ dp)
    (h4 : dataEndOf r.es dp ≤ m.length) (h5 : dataEndOf r.es dp < start + 2147483648) :
    q.getResources = .ok { h := { r.h with named := namedCount r.es, ids := idCount r.es }, es := canonAll r.es } := by
  have hge := dataEndOf_ge r.es dp
  obtain ⟨seen, he, -⟩ := resDir_of hw (sp := start) (base := start) (top := start + 16 + 8 * r.es.length + tablesOf r.es) (f := 2147483648) hd
    (Nat.le_refl _) ha (by omega) (seen := []) (by simp) (by
      intro r' seen hs
      exact resEntries_at hw r.es 2147483648 (start + 16) (start + 16 + 8 * r.es.length) np dp 0 (start - start) r' seen hok hl hin
        (by omega) (by omega) (by omega) (by omega) (by omega) (by omega) (by omega) (by omega) hs)
  unfold Image.getResources
  rw [hhas, ok_bind, if_pos rfl, hrva, ok_bind]
  rw [Nat.sub_self] at he
  rw [he, ok_bind]

/-- A buffer that has the bytes `[start, start + n)` of `d`. -/
theorem mod_of_at {d m : Bytes} {start n : Nat} (h : At m start (slice d start n)) (hd : start + n ≤ d.length)
    (hm : d.length ≤ m.length) : Mod d (m.take d.length) (fun i => ¬ (start ≤ i ∧ i < start + n)) := by
  have hl : (slice d start n).length = n := slice_length_of_le hd
  refine ⟨by rw [List.length_take]; omega, fun i hi => ?_⟩
  have hi' : start ≤ i ∧ i < start + n := Decidable.of_not_not hi
  rw [List.getElem?_take, if_pos (by omega)]
  have h2 := congrArg (fun x => x[i - start]?) h.2
  simp only [hl, getElem?_slice] at h2
  rw [if_pos (by omega), if_pos (by omega), show start + (i - start) = i by omega] at h2
  exact h2

/-- `rebuild_resources` and `get_resources`. -/
theorem resources_lasting (p : Image) (i off : Nat) (s : Sec) (r : ResDir) (strip : Bool) (start pos need fin : Nat)
    (hh : Host p i s) (hdirs : p.nt.DirsOk) (hnum : dirResource < p.nt.numRva) (hr0 : r.Ok)
    (hoff : off < 2 ^ 32 - 4) (hstart : start = ceilTo off 4)
    (hpos : pos = start + ((start - off) + (16 + 8 * r.es.length + tablesOf r.es) + namesIn r.es))
    (hneed : need = dataEndOf r.es pos - start) (hfin : fin = dataEndOf (sortedOf r.es) pos)
    (hroom : HostRoom p i s (start + need)) (hsmall : need + 3 < 2147483648)
    (hfit : fin ≤ start + need ∨ fin ≤ s.data.length) (hcl : fin < start + need + 4)
    (hend : AllData (fun d => d ≠ []) r.es ∨ fin < s.data.length ∨ ¬ p.nt.secAlign ∣ fin) :
    ∃ q, p.rebuildResources r i off true strip = .ok (q, (s.va + start, need)) ∧
      RebuiltIn p q i s start (fin - start) dirResource (s.va + start, need) ∧
      Durable p q i s start (fin - start) dirResource (s.va + start, need) strip false (fun w => w.getResources = .ok r.fin) := by
  have hk := sortedOf_keeps r.es
  have hge := dataEndOf_ge r.es pos
  have hge' := dataEndOf_ge (sortedOf r.es) pos
  have hlen := sortedOf_length r.es
  have hcg := ceilTo_ge (x := off) (a := 4) (by omega)
  have hcl' := ceilTo_lt (x := off) (a := 4) (by omega)
  have hg := growTo_ge s.data (start + need)
  have hroomg := hroom.grow hh
  have hlt := hroomg.lt hh
  -- the same buffer, asked for with the real size
  obtain ⟨N, hN, hNr, hNg⟩ : ∃ N, fin ≤ N ∧ HostRoom p i s N ∧ growTo s.data N = growTo s.data (start + need) := by
    by_cases hc : fin ≤ start + need
    · exact ⟨start + need, hc, hroom, rfl⟩
    · have hf := hfit.resolve_left hc
      refine ⟨s.data.length, hf, hroomg.mono hh.valid hg.2, ?_⟩
      unfold growTo
      rw [if_neg (by omega), if_neg (by omega)]
  have hgN := growTo_ge s.data N
  rw [hNg] at hgN
  obtain ⟨d', s', e1, a1, a2, m1⟩ := putDir_spec (va := s.va) (start := start) (r := { r with es := sortedOf r.es })
    (d := growTo s.data (start + need)) (np := start + ((start - off) + (16 + 8 * r.es.length + tablesOf r.es))) (dp := pos)
    hr0.dir.sortedOf (hk.ok hr0.all) (by omega) (by dsimp only; rw [hlen, hk.tables]; omega) (by dsimp only; rw [hk.names]; omega)
    (by dsimp only; omega) (by dsimp only; omega)
  dsimp only at a1 a2 m1
  rw [← hfin] at m1
  have l1 := m1.len
  have hpatch := m1.patch (lo := start) (n := fin - start) (fun j hj => by omega) (by omega)
  have hel : (slice d' start (fin - start)).length = fin - start := slice_length_of_le (by omega)
  obtain ⟨q, hq, hw⟩ := finishDir_written (e := slice d' start (fin - start)) (pos := start) (N := N) strip (s.va + start, need) hh hdirs hnum
    (by omega) (by omega) hNr
  rw [hNg, ← hpatch] at hq
  have hspos := hh.pos
  refine ⟨q, ?_, ?_, ?_⟩
  · unfold Image.rebuildResources
    rw [hh.sec]
    dsimp only
    have hau : alignUp off 4 = start := by rw [alignUp_of_le pow2_4 (by omega) (by omega), hstart]
    rw [throwIf_neg (by rw [List.isEmpty_iff]; exact hr0.some), ok_bind, completeAll_of_ok _ hr0.all, throwIf_neg (by simp), ok_bind, hau,
      structsOf_eq, stringsOf_eq, sub32_of_le (by omega) (by omega)]
    have wid : ∀ x, x < 4294967296 → w32 x = x := fun x hx => by rw [w32, Nat.mod_eq_of_lt hx]
    rw [show start - off + 16 + (8 * r.es.length + tablesOf r.es) = start - off + (16 + 8 * r.es.length + tablesOf r.es) by omega,
      wid (start - off + (16 + 8 * r.es.length + tablesOf r.es)) (by omega), wid (namesIn r.es) (by omega),
      wid (start + (start - off + (16 + 8 * r.es.length + tablesOf r.es))) (by omega),
      show start + (start - off + (16 + 8 * r.es.length + tablesOf r.es)) + namesIn r.es = pos by omega, wid pos (by omega),
      dataPosOf_eq _ _ (by omega), sub32_of_le (by omega) (by omega),
      show start - off + (16 + 8 * r.es.length + tablesOf r.es) + namesIn r.es + (dataEndOf r.es pos - pos) = need by omega,
      wid need (by omega), Nat.add_comm need start, wid (start + need) (by omega), hroom.check hh, ok_bind, ResDir.sort_eq, e1, ok_bind]
    dsimp only
    unfold Sec.rvaFromOffset
    rw [wid (s.va + start) (by omega)]
    exact hq
  · have := hw.rebuilt
    rw [hel] at this
    exact this
  · obtain ⟨hfr, L', hL1, hL2, hL3, hsh⟩ := hw.shown hh (by omega) (by omega)
    rw [hel] at hfr
    have hgl := growTo_length s.data (start + need)
    have hgl' := growTo_length s.data N
    rw [hNg] at hgl'
    refine ⟨hfr, _, L', Nat.le_of_eq hel, hsh false (by intro h; cases h), fun w hr => ?_⟩
    obtain ⟨m, t, hwin, -, hLm, hat, -⟩ := hr.window
    have hmod := mod_of_at hat (by omega) (by omega)
    have hmt : m = m.take d'.length ++ m.drop d'.length := (List.take_append_drop _ _).symm
    have hin : InsideAll m.length (sortedOf r.es) pos := by
      rcases hend with h | h | h
      · exact insideAll_of_ne _ _ (hk.all _ h) (by omega)
      · exact insideAll_of_lt _ _ (by omega)
      · refine insideAll_of_lt _ _ ?_
        rcases Nat.lt_or_eq_of_le (show fin ≤ L' by omega) with h' | h'
        · omega
        · rw [h'] at h; exact absurd hL3 h
    have b1 : At m start (resHdrBytes r.h (sortedOf r.es)) := a1.within hat (by omega) (by omega) (by rw [resHdrBytes_length]; omega)
    have b2 := LaidAll.frame hmod _ _ _ _ _ a2 (fun j hj hn => hn (by
      rw [hk.names, hk.tables, hlen] at hj
      unfold Area at hj
      omega))
    have b3 : LaidAll m s.va start (sortedOf r.es) (start + 16) (start + 16 + 8 * (sortedOf r.es).length)
        (start + ((start - off) + (16 + 8 * r.es.length + tablesOf r.es))) pos := by
      rw [hmt]
      exact LaidAll.to (fun _ _ h => h.more _) _ _ _ _ _ b2
    have := resources_read hwin (r := { r with es := sortedOf r.es }) (np := start + ((start - off) + (16 + 8 * r.es.length + tablesOf r.es)))
      (dp := pos) hr0.dir.sortedOf (hk.ok hr0.all) (hr.has.trans (congrArg _ (decide_eq_true (by dsimp only; omega)))) hr.rva b1
      b3 hin (by dsimp only; rw [hlen, hk.tables]; omega) (by dsimp only; rw [hk.names]; omega)
      (by dsimp only; omega) (by dsimp only; omega)
    rw [this]
    unfold ResDir.fin finOf
    obtain ⟨c1, c2⟩ := sortedOf_counts r.es
    dsimp only
    rw [c1, c2]

/-- `rebuild_resources` and `get_resources`. -/
theorem resources_written (p : Image) (i off : Nat) (s : Sec) (r : ResDir) (strip : Bool) (start pos need fin : Nat)
    (hh : Host p i s) (hdirs : p.nt.DirsOk) (hnum : dirResource < p.nt.numRva) (hr : r.Ok)
    (hoff : off < 2 ^ 32 - 4) (hstart : start = ceilTo off 4)
    (hpos : pos = start + ((start - off) + (16 + 8 * r.es.length + tablesOf r.es) + namesIn r.es))
    (hneed : need = dataEndOf r.es pos - start) (hfin : fin = dataEndOf (sortedOf r.es) pos)
    (hroom : HostRoom p i s (start + need)) (hsmall : need + 3 < 2147483648)
    (hfit : fin ≤ start + need ∨ fin ≤ s.data.length) (hcl : fin < start + need + 4)
    (hend : AllData (fun d => d ≠ []) r.es ∨ fin < s.data.length ∨ ¬ p.nt.secAlign ∣ fin) :
    ∃ q, p.rebuildResources r i off true strip = .ok (q, (s.va + start, need)) ∧
      RebuiltIn p q i s start (fin - start) dirResource (s.va + start, need) ∧ q.getResources = .ok r.fin := by
  obtain ⟨q, h1, h2, h3⟩ := resources_lasting p i off s r strip start pos need fin hh hdirs hnum hr hoff hstart hpos hneed hfin hroom
    hsmall hfit hcl hend
  exact ⟨q, h1, h2, h3.now⟩

end PE
