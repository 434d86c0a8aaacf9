/-
The stepwise rebuilders of `Model/Failing` give the same results as the other models.
-/
import Verif.Lemmas.Failing
namespace PE

theorem setDirM_result (f : NtHdr → Res NtHdr) (p : Image) :
    (setDirM f).result p = f p.nt >>= fun nt => .ok ({ p with nt := nt }, ()) := by
  unfold setDirM
  rw [result_bind, result_image, ok_bind, result_bind, result_lift, bind_assoc']
  rfl

theorem saveDirM_result (save : Bool) (id : Nat) (dir : Nat × Nat) (p : Image) :
    (saveDirM save id dir).result p = if save then (do
        let nt ← p.nt.setDirRva id dir.1
        let nt ← nt.setDirSize id dir.2
        .ok ({ p with nt := nt }, ()))
      else .ok (p, ()) := by
  unfold saveDirM
  cases save
  · simp only [Bool.false_eq_true, if_false]; rfl
  · simp only [if_true]
    rw [result_bind, setDirM_result, bind_assoc']
    congr 1
    funext nt
    rw [ok_bind, setDirM_result]

theorem secs_set_set (p : Image) (i : Nat) (s t : Sec) :
    ({ ({ p with secs := p.secs.set i s } : Image) with
       secs := ({ p with secs := p.secs.set i s } : Image).secs.set i t } : Image) = { p with secs := p.secs.set i t } := by
  simp only [List.set_set]

theorem finishDirM_result {p : Image} {i : Nat} {s : Sec} (h : p.secs[i]? = some s) (d : Bytes)
    (strip save : Bool) (id : Nat) (dir : Nat × Nat) :
    (finishDirM i strip save id dir).result { p with secs := p.secs.set i { s with data := d } } =
      p.finishDir i s d strip save id dir := by
  unfold finishDirM Image.finishDir
  rw [result_bind, recalculateM_result (getElem?_setSelf h _), bind_assoc']
  congr 1
  funext q
  rw [ok_bind, result_bind, saveDirM_result]
  cases save
  · simp only [Bool.false_eq_true, if_false]; rfl
  · simp only [if_true]
    rw [bind_assoc']
    congr 1
    funext nt
    rw [bind_assoc']
    congr 1

/-- Two changes of the data one after the other. -/
theorem onData_onData {α : Type} {p : Image} {i : Nat} {s : Sec} (h : p.secs[i]? = some s) (f : Bytes → Res Bytes)
    (k : IM α) :
    (IM.onData i f >>= fun _ => k).result p = f s.data >>= fun d =>
      k.result { p with secs := p.secs.set i { s with data := d } } := by
  rw [result_bind, result_onData h, bind_assoc']
  congr 1

theorem onDataSet {α : Type} {p : Image} {i : Nat} {s : Sec} (h : p.secs[i]? = some s) (d0 : Bytes) (f : Bytes → Res Bytes)
    (k : IM α) :
    (IM.onData i f >>= fun _ => k).result { p with secs := p.secs.set i { s with data := d0 } } = f d0 >>= fun d =>
      k.result { p with secs := p.secs.set i { s with data := d } } := by
  rw [onData_onData (getElem?_setSelf h _)]
  dsimp only
  congr 1
  funext d
  rw [List.set_set]

theorem writeDirM_result {p : Image} {i : Nat} {s : Sec} (h : p.secs[i]? = some s) (need : Nat) (write : Bytes → Res Bytes)
    (strip save : Bool) (id : Nat) (dir : Nat × Nat) :
    (writeDirM i need write strip save id dir).result p = write (growTo s.data need) >>= fun d =>
      p.finishDir i s d strip save id dir := by
  unfold writeDirM
  rw [onData_onData h, ok_bind, onDataSet h]
  congr 1
  funext d
  rw [finishDirM_result h]

theorem rebuildExportsM_result (info : ExportInfo) (l : List ExportFn) (i off : Nat) (save strip : Bool) (p : Image) :
    (rebuildExportsM info l i off save strip).result p = p.rebuildExports info l i off save strip := by
  unfold rebuildExportsM Image.rebuildExports
  rw [result_bind, result_image, ok_bind]
  dsimp only
  cases h : p.secs[i]? with
  | none => rfl
  | some s =>
    dsimp only
    rw [result_bind, result_lift, bind_assoc']
    congr 1
    funext u
    rw [ok_bind, result_bind, result_lift, bind_assoc']
    congr 1
    funext u
    rw [ok_bind, writeDirM_result h]
    simp only [bind_assoc']

theorem rebuildBoundM_result (l : List BoundMod) (i off : Nat) (save strip : Bool) (p : Image) :
    (rebuildBoundM l i off save strip).result p = p.rebuildBound l i off save strip := by
  unfold rebuildBoundM Image.rebuildBound
  rw [result_bind, result_image, ok_bind]
  dsimp only
  cases h : p.secs[i]? with
  | none => rfl
  | some s =>
    dsimp only
    rw [result_bind, result_lift, bind_assoc']
    congr 1
    funext u
    rw [ok_bind, writeDirM_result h]

theorem putNameM_result {p : Image} {i : Nat} {s : Sec} (h : p.secs[i]? = some s) (base : Nat) (k : ResKey) (np : Nat)
    (d : Bytes) : (putNameM i base k np).result { p with secs := p.secs.set i { s with data := d } } =
      putName base k d np >>= fun r => .ok ({ p with secs := p.secs.set i { s with data := r.1 } }, r.2) := by
  unfold putNameM putName
  cases k with
  | id n => rfl
  | name w =>
    dsimp only
    rw [onDataSet h, bind_assoc']
    congr 1
    funext d
    rw [result_bind, result_lift, bind_assoc', bind_assoc']
    congr 1
    funext u
    rw [ok_bind, onDataSet h, bind_assoc']
    congr 1

mutual
theorem ResEntry.putM_result {p : Image} {i : Nat} {s : Sec} (h : p.secs[i]? = some s) (va base : Nat) :
    ∀ (e : ResEntry) (tp : Nat) (x : ResPos) (d : Bytes),
    (e.putM i va base tp x).result { p with secs := p.secs.set i { s with data := d } } =
      e.put va base d tp x >>= fun r => .ok ({ p with secs := p.secs.set i { s with data := r.1 } }, r.2)
  | .empty k, tp, x, d => by
    unfold ResEntry.putM ResEntry.put
    rw [result_bind, putNameM_result h, bind_assoc', bind_assoc']
    rfl
  | .data k cp b, tp, x, d => by
    unfold ResEntry.putM ResEntry.put
    rw [result_bind, putNameM_result h, bind_assoc', bind_assoc']
    congr 1
    funext r
    rw [ok_bind]
    dsimp only
    rw [onDataSet h, bind_assoc']
    congr 1
    funext d1
    rw [onDataSet h, bind_assoc']
    congr 1
    funext d2
    rw [onDataSet h, bind_assoc']
    congr 1
  | .dir k hd es, tp, x, d => by
    unfold ResEntry.putM ResEntry.put
    rw [result_bind, putNameM_result h, bind_assoc', bind_assoc']
    congr 1
    funext r
    rw [ok_bind]
    dsimp only
    rw [onDataSet h, bind_assoc']
    congr 1
    funext d1
    rw [onDataSet h, bind_assoc']
    congr 1
    funext d2
    exact putEntriesM_result h va base es _ _ d2
theorem putEntriesM_result {p : Image} {i : Nat} {s : Sec} (h : p.secs[i]? = some s) (va base : Nat) :
    ∀ (es : List ResEntry) (tp : Nat) (x : ResPos) (d : Bytes),
    (putEntriesM i va base es tp x).result { p with secs := p.secs.set i { s with data := d } } =
      putEntries va base es d tp x >>= fun r => .ok ({ p with secs := p.secs.set i { s with data := r.1 } }, r.2)
  | [], tp, x, d => by
    unfold putEntriesM putEntries
    rfl
  | e :: es, tp, x, d => by
    unfold putEntriesM putEntries
    rw [result_bind, e.putM_result h va base, bind_assoc', bind_assoc']
    congr 1
    funext r
    rw [ok_bind]
    exact putEntriesM_result h va base es _ _ r.1
end

theorem putDirM_result {p : Image} {i : Nat} {s : Sec} (h : p.secs[i]? = some s) (va base : Nat) (r : ResDir) (x : ResPos)
    (d : Bytes) : (putDirM i va base r x).result { p with secs := p.secs.set i { s with data := d } } =
      putDir va base r d x >>= fun r => .ok ({ p with secs := p.secs.set i { s with data := r.1 } }, r.2) := by
  unfold putDirM putDir
  rw [onDataSet h, bind_assoc']
  congr 1
  funext d1
  exact putEntriesM_result h va base r.es _ _ d1

theorem rebuildResourcesM_result (r : ResDir) (i off : Nat) (save strip : Bool) (p : Image) :
    (rebuildResourcesM r i off save strip).result p = p.rebuildResources r i off save strip := by
  unfold rebuildResourcesM Image.rebuildResources
  rw [result_bind, result_image, ok_bind]
  dsimp only
  cases h : p.secs[i]? with
  | none => rfl
  | some s =>
    dsimp only
    rw [result_bind, result_lift, bind_assoc']
    congr 1
    funext u
    rw [ok_bind, result_bind, result_lift, bind_assoc']
    congr 1
    funext u
    rw [ok_bind, result_bind, result_lift, bind_assoc']
    congr 1
    funext u
    rw [ok_bind, onData_onData h, ok_bind, result_bind, putDirM_result h, bind_assoc']
    congr 1
    funext x
    rw [ok_bind]
    exact finishDirM_result h _ _ _ _ _

theorem saveRelocM_result (save : Bool) (dir : Nat × Nat) (p : Image) :
    (saveRelocM save dir).result p = if save then (do
        let nt ← p.nt.setDirRva dirBaseReloc dir.1
        let nt ← nt.setDirSize dirBaseReloc dir.2
        let nt := nt.clearCharFlags 0x1
        .ok ({ p with nt := { nt with dllChars := nt.dllChars ||| 0x40 } }, ()))
      else .ok (p, ()) := by
  unfold saveRelocM
  cases save
  · simp only [Bool.false_eq_true, if_false]; rfl
  · simp only [if_true]
    rw [result_bind, setDirM_result, bind_assoc']
    congr 1
    funext nt
    rw [ok_bind, result_bind, setDirM_result, bind_assoc']
    congr 1

theorem rebuildRelocationsM_result (tables : List RelocTable) (i off : Nat) (save strip : Bool) (p : Image) :
    (rebuildRelocationsM tables i off save strip).result p = p.rebuildRelocations tables i off save strip := by
  unfold rebuildRelocationsM Image.rebuildRelocations
  rw [result_bind, result_image, ok_bind]
  dsimp only
  cases h : p.secs[i]? with
  | none => rfl
  | some s =>
    dsimp only
    rw [result_bind, result_lift, bind_assoc']
    congr 1
    funext u
    rw [ok_bind, onData_onData h, ok_bind, onDataSet h, bind_assoc']
    congr 1
    funext x
    rw [ok_bind, result_bind, recalculateM_result (getElem?_setSelf h _), bind_assoc']
    congr 1
    funext q
    rw [ok_bind, result_bind, saveRelocM_result]
    cases save
    · simp only [Bool.false_eq_true, if_false]; rfl
    · simp only [if_true]
      rw [bind_assoc']
      congr 1
      funext nt
      rw [bind_assoc']
      congr 1

theorem rvaToVa_sec (p : Image) (i : Nat) (s : Sec) (r : Nat) :
    ({ p with secs := p.secs.set i s } : Image).rvaToVa r = p.rvaToVa r := rfl

theorem writeLocksM_result {p : Image} {i : Nat} {s : Sec} (h : p.secs[i]? = some s) (l : List Nat) (pos : Nat) (d : Bytes) :
    (writeLocksM i pos l).result { p with secs := p.secs.set i { s with data := d } } =
      p.writeLocks d pos l >>= fun d => .ok ({ p with secs := p.secs.set i { s with data := d } }, ()) := by
  induction l generalizing pos d with
  | nil =>
    unfold writeLocksM Image.writeLocks
    rw [result_bind, result_image, ok_bind, result_onData (getElem?_setSelf h _)]
    dsimp only
    congr 1
    funext d
    rw [List.set_set]
  | cons r rs ih =>
    unfold writeLocksM Image.writeLocks
    rw [result_bind, result_image, ok_bind, result_bind, result_lift, bind_assoc', bind_assoc']
    dsimp only
    congr 1
    funext va
    rw [ok_bind, onDataSet h, bind_assoc']
    congr 1
    funext d
    exact ih _ d

theorem rebuildConfigM_result (c : ConfigInfo) (i off : Nat) (wse wlock save strip : Bool) (p : Image) :
    (rebuildConfigM c i off wse wlock save strip).result p = p.rebuildConfig c i off wse wlock save strip := by
  unfold rebuildConfigM Image.rebuildConfig
  rw [result_bind, result_image, ok_bind]
  dsimp only
  cases h : p.secs[i]? with
  | none => rfl
  | some s =>
    dsimp only
    rw [result_bind, result_lift, bind_assoc']
    congr 1
    funext u
    rw [ok_bind, onData_onData h, ok_bind, result_bind, result_lift, bind_assoc']
    congr 1
    funext a
    rw [ok_bind, result_bind, result_lift, bind_assoc']
    congr 1
    funext b
    rw [ok_bind, onDataSet h]
    congr 1
    funext d
    rw [onDataSet h]
    congr 1
    funext d
    rw [result_bind]
    have e : (writeLocksIfM (wlock && decide (c.locks ≠ [])) i
        (w32 (w32 (p.kind.sizeofConfig + (configSizes p.kind c wse wlock).1) +
          w32 (off + sub32 (alignUp off p.kind.ptr) off))) c.locks).result
        { p with secs := p.secs.set i { s with data := d } } =
        (if wlock = true ∧ c.locks ≠ [] then p.writeLocks d
          (w32 (w32 (p.kind.sizeofConfig + (configSizes p.kind c wse wlock).1) +
          w32 (off + sub32 (alignUp off p.kind.ptr) off))) c.locks else .ok d) >>= fun d =>
          .ok ({ p with secs := p.secs.set i { s with data := d } }, ()) := by
      unfold writeLocksIfM
      by_cases hb : wlock = true ∧ c.locks ≠ []
      · rw [if_pos (by simpa using hb), if_pos hb]
        exact writeLocksM_result h _ _ _
      · rw [if_neg (by simpa using hb), if_neg hb]; rfl
    rw [e, bind_assoc']
    by_cases hb : wlock = true ∧ c.locks ≠ []
    · simp only [if_pos hb]
      congr 1
      funext d
      rw [ok_bind, finishDirM_result h]
    · simp only [if_neg hb]
      rw [ok_bind, ok_bind, finishDirM_result h]
      rfl

theorem writeLocM_result (l : Loc) (x : Bytes) (p : Image) :
    (writeLocM l x).result p = p.writeLoc l x >>= fun q => .ok (q, ()) := by
  unfold writeLocM
  rw [result_bind, result_image, ok_bind, result_bind, result_lift, bind_assoc']
  rfl

end PE
