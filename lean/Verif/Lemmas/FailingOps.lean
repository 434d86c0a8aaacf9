/-
The rebuilders when they throw.
-/
import Verif.Lemmas.FailingKeeps
namespace PE

theorem bind_assocM {α β γ : Type} (m : IM α) (f : α → IM β) (g : β → IM γ) : (m >>= f) >>= g = m >>= fun a => f a >>= g := by
  funext p
  rcases h : m p with ⟨e | a, q⟩
  · rw [run_bind_error h, run_bind_error (run_bind_error h _)]
  · rw [run_bind_ok h]
    rcases h2 : f a q with ⟨e | b, r⟩
    · rw [run_bind_error h2, run_bind_error ((run_bind_ok h _).trans h2)]
    · rw [run_bind_ok h2, run_bind_ok ((run_bind_ok h _).trans h2)]

/-! ### Exports and bound imports -/

theorem rebuildExportsM_within {p : Image} (hp : Small p) (info : ExportInfo) (l : List ExportFn) (i off : Nat) (save strip : Bool)
    (hc : CanSave p save dirExport) : StrongWithin (rebuildExportsM info l i off save strip) p := by
  unfold rebuildExportsM
  refine StrongWithin.image ?_
  cases h : p.secs[i]? with
  | none => intro e _ _; rfl
  | some s =>
    dsimp only
    refine StrongWithin.lift fun _ _ => StrongWithin.lift fun _ hs => ?_
    intro e he hn
    refine absurd hn (writeDirM_within hp h ?_ (fun hi => spaceCheck_bound hp h hs hi) hc he)
    intro d
    exact Writes.bind (Writes.at _ _ _) fun c => Writes.bind (Writes.at _ _ _) fun c =>
      Writes.bind (writeExportFns_writes _ _ _ _ _ _) fun c => writeExportNames_writes _ _ _ _ _ _

theorem rebuildBoundM_within {p : Image} (hp : Small p) (l : List BoundMod) (i off : Nat) (save strip : Bool)
    (hc : CanSave p save dirBoundImport) : StrongWithin (rebuildBoundM l i off save strip) p := by
  unfold rebuildBoundM
  refine StrongWithin.image ?_
  cases h : p.secs[i]? with
  | none => intro e _ _; rfl
  | some s =>
    dsimp only
    refine StrongWithin.lift fun _ hs => ?_
    intro e he hn
    exact absurd hn (writeDirM_within hp h (fun d => writeBoundMods_writes _ _ _ _ _) (fun hi => spaceCheck_bound hp h hs hi) hc he)

/-! ### Load configuration, TLS, resources -/

theorem LeavesData.lift {α β : Type} {r : Res α} {g : α → IM β} {p : Image} {i : Nat} {c : Prop}
    (hg : ∀ a, r = .ok a → LeavesData (g a) p i c) : LeavesData (IM.lift r >>= g) p i c := by
  cases h : r with
  | error e => intro x hx _; exact Or.inl rfl
  | ok a => exact hg a h

theorem LeavesData.image {β : Type} {g : Image → IM β} {p : Image} {i : Nat} {c : Prop} (hg : LeavesData (g p) p i c) :
    LeavesData (IM.image >>= g) p i c := hg

theorem LeavesData.strong {α : Type} {m : IM α} {p : Image} {i : Nat} {c : Prop} (h : LeavesData m p i c) (hc : ¬ c) :
    StrongWithin m p := fun e he hn => (h e he hn).resolve_right fun x => hc x.1

/-- Room is made, `body` writes, sizes and directory follow. -/
theorem leavesData_of {α : Type} {p : Image} {i : Nat} {s : Sec} (hp : Small p) (h : p.secs[i]? = some s) {need : Nat}
    (hs : p.spaceCheck i s need = .ok ()) {c : Prop} {body : IM α} (hk : KeepsSec p i s c body) {strip save : Bool} {id : Nat}
    (hc : CanSave p save id) (dir : α → Nat × Nat) :
    LeavesData (IM.onData i (fun d => .ok (growTo d need)) >>= fun _ => body >>= fun a => finishDirM i strip save id (dir a)) p i (¬ c) := by
  intro e he hn
  rw [run_onData h (f := fun d => .ok (growTo d need)) rfl] at he hn ⊢
  obtain ⟨h1, d, _, h2⟩ := keepsFinish hp h (growTo_full hp h need) (fun _ hi => growTo_bound hp h hs hi) hk hc he hn
  exact Or.inr ⟨h1, s, d, h, h2⟩

theorem rvaToVa_noExn {q : Image} (h : q.kind = .pe64) (r : Nat) : NoExn (q.rvaToVa r) := by
  unfold Image.rvaToVa
  rw [h]
  exact NoExn.ok _

theorem tableVa_noExn {q : Image} (h : q.kind = .pe64) (w : Bool) (l : List Nat) (va pos old : Nat) : NoExn (q.tableVa w l va pos old) := by
  unfold Image.tableVa
  split
  · split
    · exact NoExn.ok _
    · exact rvaToVa_noExn h _
  · exact NoExn.ok _

theorem vaOrZero_noExn {q : Image} (h : q.kind = .pe64) (r : Nat) : NoExn (q.vaOrZero r) := by
  unfold Image.vaOrZero
  split
  · exact rvaToVa_noExn h _
  · exact NoExn.ok _

theorem tlsStruct_noExn {q : Image} (h : q.kind = .pe64) (t : TlsInfo) : NoExn (q.tlsStruct t) := by
  unfold Image.tlsStruct
  exact NoExn.bind (vaOrZero_noExn h _) fun _ _ => NoExn.bind (vaOrZero_noExn h _) fun _ _ => NoExn.bind (rvaToVa_noExn h _) fun _ _ =>
    NoExn.bind (vaOrZero_noExn h _) fun _ _ => NoExn.ok _

theorem writeLocksM_keeps {p : Image} {i : Nat} {s : Sec} (h : p.secs[i]? = some s) (l : List Nat) (pos : Nat) :
    KeepsSec p i s (p.kind = .pe64) (writeLocksM i pos l) := by
  induction l generalizing pos with
  | nil =>
    unfold writeLocksM
    exact KeepsSec.image fun d => KeepsSec.onData h fun d => Writes.at _ _ _
  | cons r rs ih =>
    unfold writeLocksM
    exact KeepsSec.image fun d => KeepsSec.bind (KeepsSec.lift fun x => rvaToVa_noExn (q := withData p i s d) x _) fun _ =>
      KeepsSec.bind (KeepsSec.onData h fun d => Writes.at _ _ _) fun _ => ih _

theorem rebuildConfigM_leaves {p : Image} (hp : Small p) (c : ConfigInfo) (i off : Nat) (wse wlock save strip : Bool)
    (hc : CanSave p save dirLoadConfig) : LeavesData (rebuildConfigM c i off wse wlock save strip) p i (p.kind ≠ .pe64) := by
  unfold rebuildConfigM
  refine LeavesData.image ?_
  cases h : p.secs[i]? with
  | none => intro e _ _; exact Or.inl rfl
  | some s =>
    dsimp only
    refine LeavesData.lift fun _ hs => ?_
    have hbody : ∀ (v1 v2 : Res Nat) (w1 : Nat → Nat → Bytes → Res Bytes) (w2 : Bytes → Res Bytes) (k : IM Unit) (f : IM (Nat × Nat)),
        (IM.lift v1 >>= fun a => IM.lift v2 >>= fun b => IM.onData i (w1 a b) >>= fun _ => IM.onData i w2 >>= fun _ => k >>= fun _ => f) =
        ((IM.lift v1 >>= fun a => IM.lift v2 >>= fun b => IM.onData i (w1 a b) >>= fun _ => IM.onData i w2 >>= fun _ => k) >>= fun _ => f) := by
      intro v1 v2 w1 w2 k f
      simp only [bind_assocM]
    rw [hbody]
    refine leavesData_of hp h hs (c := p.kind = .pe64) ?_ hc (fun _ => (w32 (s.va + w32 (off + sub32 (alignUp off p.kind.ptr) off)), p.kind.sizeofConfig))
    refine KeepsSec.bind (KeepsSec.lift fun x => tableVa_noExn x _ _ _ _ _) fun _ => KeepsSec.bind (KeepsSec.lift fun x => tableVa_noExn x _ _ _ _ _) fun _ =>
      KeepsSec.bind (KeepsSec.onData h fun d => Writes.at _ _ _) fun _ => KeepsSec.bind (KeepsSec.onData h fun d => writeVals_writes _ _ _ _) fun _ => ?_
    unfold writeLocksIfM
    split
    · exact writeLocksM_keeps h _ _
    · exact KeepsSec.pure _

theorem rebuildTlsM_leaves {p : Image} (hp : Small p) (t : TlsInfo) (i off : Nat) (k : ExpandType) (save strip : Bool)
    (hc : CanSave p save dirTls) : LeavesData (rebuildTlsM t i off false false k save strip) p i (p.kind ≠ .pe64) := by
  unfold rebuildTlsM
  refine LeavesData.image ?_
  cases h : p.secs[i]? with
  | none => intro e _ _; exact Or.inl rfl
  | some s =>
    dsimp only
    refine LeavesData.lift fun _ hs => LeavesData.lift fun _ _ => ?_
    have h1 : tlsPutDataM false t k = pure () := by unfold tlsPutDataM; rw [if_neg (by simp)]
    have h2 : tlsPutCallbacksM false t = pure () := by unfold tlsPutCallbacksM; rw [if_neg (by simp)]
    rw [h1, h2]
    have hbody : ∀ (v1 : Res Bytes) (w1 : Bytes → Bytes → Res Bytes) (f : Sec → IM (Nat × Nat)),
        (IM.lift v1 >>= fun a => IM.onData i (w1 a) >>= fun _ => (pure () : IM Unit) >>= fun _ => (pure () : IM Unit) >>= fun _ => IM.sec i >>= f) =
        ((IM.lift v1 >>= fun a => IM.onData i (w1 a) >>= fun _ => IM.sec i) >>= f) := by
      intro v1 w1 f
      simp only [bind_assocM]
      rfl
    rw [hbody]
    refine leavesData_of hp h hs (c := p.kind = .pe64) ?_ hc (fun s : Sec => (w32 (s.va + alignUp off p.kind.ptr), p.kind.sizeofTls))
    exact KeepsSec.bind (KeepsSec.lift fun x => tlsStruct_noExn x _) fun _ => KeepsSec.bind (KeepsSec.onData h fun d => Writes.at _ _ _) fun _ => KeepsSec.sec h

theorem rebuildResourcesM_leaves {p : Image} (hp : Small p) (r : ResDir) (i off : Nat) (save strip : Bool)
    (hc : CanSave p save dirResource) : LeavesData (rebuildResourcesM r i off save strip) p i (¬ AllNamed r.es) := by
  unfold rebuildResourcesM
  refine LeavesData.image ?_
  cases h : p.secs[i]? with
  | none => intro e _ _; exact Or.inl rfl
  | some s =>
    dsimp only
    refine LeavesData.lift fun _ _ => LeavesData.lift fun _ hcm => LeavesData.lift fun _ hs => ?_
    have hcm : completeAll r.es = true := by
      cases h0 : completeAll r.es with
      | true => rfl
      | false => rw [throwIf_pos h0] at hcm; cases hcm
    exact leavesData_of hp h hs (c := AllNamed r.es) (putDirM_keeps h _ _ _ _ hcm) hc (fun _ => (s.rvaFromOffset (alignUp off 4), _))

/-! ### Relocations -/

theorem rebuildRelocationsM_within {p : Image} (hp : Small p) (l : List RelocTable) (i off : Nat) (save strip : Bool)
    (hv : ∀ s, p.secs[i]? = some s → s.vsize ≠ 0) (hc : CanSave p save dirBaseReloc) : StrongWithin (rebuildRelocationsM l i off save strip) p := by
  unfold rebuildRelocationsM
  refine StrongWithin.image ?_
  cases h : p.secs[i]? with
  | none => intro e _ _; rfl
  | some s =>
    dsimp only
    generalize hneed : w32 (relocNeeded (alignUp off 4) (sub32 (alignUp off 4) off) l (sub32 (alignUp off 4) off) + alignUp off 4) = need
    refine StrongWithin.lift fun _ hs => ?_
    intro e he hn
    have hm := List.mem_of_getElem? h
    have hd0 := hp.data s hm
    generalize hG : (fun d : Bytes => (.ok (if d.length < need then resize d (alignUp need p.nt.fileAlign) else d) : Res Bytes)) = G at he hn ⊢
    generalize hg : (if s.data.length < need then resize s.data (alignUp need p.nt.fileAlign) else s.data) = d0
    have hGs : G s.data = .ok d0 := by rw [← hG, ← hg]
    rw [run_onData h hGs] at he hn
    exfalso
    have hlen : i + 1 ≠ p.secs.length → d0.length ≤ 2147483648 := by
      intro hi
      have h1 := spaceCheck_bound hp h (need := need) hs hi
      rw [← hg]
      split
      · rw [resize_length, alignUp_2gb hp.fa h1]
        exact ceilTo_le_2gb hp.fa h1
      · exact hd0
    have hW : ∀ d, Writes d ((fun d => do let (d, _) ← relocWriteTables d (alignUp off 4) l; .ok d : Bytes → Res Bytes) d) :=
      fun d => WritesP.then (relocWriteTables_writes l d _) fun c a => Writes.ok c
    obtain ⟨h1, d1, hd1, h2⟩ := KeepsSec.onData (c := True) h hW d0
    generalize hF : (fun d => do let (d, _) ← relocWriteTables d (alignUp off 4) l; .ok d : Bytes → Res Bytes) = F at he hn h1 h2
    rcases hb : IM.onData i F (withData p i s d0) with ⟨x | a, q⟩
    · have he : ((IM.onData i F >>= _) (withData p i s d0)).1 = throwE e := he
      rw [run_bind_error hb] at he
      refine h1 trivial e ?_
      rw [hb]
      cases he
      rfl
    · rw [hb] at h2
      have h2 : q = withData p i s d1 := h2
      subst h2
      have he : ((IM.onData i F >>= _) (withData p i s d0)).1 = throwE e := he
      have hn : NoHuge ((IM.onData i F >>= _) (withData p i s d0)).2 := hn
      rw [run_bind_ok hb] at he hn
      refine recalcThen_within (s := { s with data := d1 }) (withData_get h d1) hp.fa hp.sa (hp.virt s hm) (Or.inr (hv s h)) ?_ ?_ ?_ he hn
      · intro _ h4
        show d1.length ≤ _
        rw [hd1]
        refine hlen ?_
        unfold withData at h4
        simpa using h4
      · exact fun q => bind_secs (saveRelocM_secs _ _ q) fun _ _ _ => rfl
      · intro q hq
        refine Calm.bind (saveRelocM_calm ?_) fun _ _ _ => Calm.pure _ _
        unfold CanSave at hc ⊢
        rw [hq]; exact hc

/-! ### Imports, if saved tables are not rewritten -/

section
variable {p : Image} {i : Nat} {s : Sec} {c : Prop}

theorem putIatM_keeps (h : p.secs[i]? = some s) {ptr : Nat} {pl : ImportPlan} (hp : pl.rewIat = false) (adv : Bool) (v : Nat) (x : ImportPos) :
    KeepsSec p i s c (putIatM i ptr pl adv v x) := by
  unfold putIatM
  rw [hp, if_neg (by simp)]
  exact KeepsSec.bind (KeepsSec.loc h _ _) fun _ => KeepsSec.pure _

theorem putOrigM_keeps (h : p.secs[i]? = some s) {ptr : Nat} {pl : ImportPlan} (hp : pl.rewOrig = false) (v : Nat) (x : ImportPos) :
    KeepsSec p i s c (putOrigM i ptr pl v x) := by
  unfold putOrigM
  rw [hp, if_neg (by simp)]
  exact KeepsSec.bind (KeepsSec.loc h _ _) fun _ => KeepsSec.pure _

theorem fnOrigM_keeps (h : p.secs[i]? = some s) {ptr : Nat} {pl : ImportPlan} (hp : pl.rewOrig = false) (v : Nat) (x : ImportPos) :
    KeepsSec p i s c (fnOrigM i ptr pl v x) := by
  unfold fnOrigM
  split
  · exact putOrigM_keeps h hp _ _
  · exact KeepsSec.pure _

theorem fnIatM_keeps (h : p.secs[i]? = some s) {ptr : Nat} {pl : ImportPlan} (hp : pl.rewIat = false) (f : ImportFn) (v : Nat) (x : ImportPos) :
    KeepsSec p i s c (fnIatM i ptr pl f v x) := by
  unfold fnIatM
  split
  · exact KeepsSec.pure _
  · split
    · exact putIatM_keeps h hp _ _ _
    · exact putIatM_keeps h hp _ _ _

theorem fnNameM_keeps (h : p.secs[i]? = some s) (f : ImportFn) (x : ImportPos) : KeepsSec p i s c (fnNameM i f x) := by
  unfold fnNameM
  split
  · exact KeepsSec.bind (KeepsSec.loc h _ _) fun _ => KeepsSec.bind (KeepsSec.loc h _ _) fun _ => KeepsSec.pure _
  · exact KeepsSec.pure _

theorem putFnsM_keeps (h : p.secs[i]? = some s) {va ptr : Nat} {pl : ImportPlan} (h1 : pl.rewIat = false) (h2 : pl.rewOrig = false)
    (l : List ImportFn) (x : ImportPos) : KeepsSec p i s c (putFnsM i va ptr pl l x) := by
  induction l generalizing x with
  | nil => exact KeepsSec.pure _
  | cons f fs ih =>
    unfold putFnsM
    refine KeepsSec.bind ?_ fun x => ih x
    unfold putFnM
    exact KeepsSec.bind (fnIatM_keeps h h1 _ _ _) fun _ => KeepsSec.bind (fnOrigM_keeps h h2 _ _) fun _ => fnNameM_keeps h _ _

theorem importPlan_noRewrite {cf : ImportCfg} (hr : cf.rewrite = false) (va iat orig : Nat) (l : ImportLib) :
    (importPlan cf va iat orig l).rewIat = false ∧ (importPlan cf va iat orig l).rewOrig = false := by
  unfold importPlan
  dsimp only
  rw [hr]
  split <;> simp

theorem putLibsM_keeps (h : p.secs[i]? = some s) {cf : ImportCfg} (hr : cf.rewrite = false) (va ptr : Nat) (ls : List ImportLib)
    (desc : Nat) (x : ImportPos) : KeepsSec p i s c (putLibsM cf i va ptr desc ls x) := by
  induction ls generalizing desc x with
  | nil =>
    unfold putLibsM
    exact KeepsSec.bind (KeepsSec.loc h _ _) fun _ => KeepsSec.pure _
  | cons l ls ih =>
    unfold putLibsM
    refine KeepsSec.bind ?_ fun x => ih _ x
    unfold putLibM
    have ⟨h1, h2⟩ := importPlan_noRewrite hr va x.iat x.orig l
    dsimp only
    refine KeepsSec.bind (KeepsSec.loc h _ _) fun _ => KeepsSec.bind (KeepsSec.loc h _ _) fun _ => KeepsSec.bind (putFnsM_keeps h h1 h2 _ _) fun _ =>
      KeepsSec.bind ?_ fun _ => fnOrigM_keeps h h2 _ _
    unfold endIatM
    split
    · exact KeepsSec.pure _
    · exact putIatM_keeps h h1 _ _ _
end

theorem NtHdr.setDirSize_numRva {h n : NtHdr} {id v : Nat} (hs : h.setDirSize id v = .ok n) : n.numRva = h.numRva := by
  unfold NtHdr.setDirSize NtHdr.dirAt NtHdr.dirSet at hs
  split at hs
  · cases hs
  · split at hs
    · rw [ok_bind] at hs
      split at hs
      · cases hs; rfl
      · cases hs
    · cases hs

theorem saveDirM_numRva {save : Bool} {id : Nat} {dir : Nat × Nat} {p q : Image} {u : Unit} (h : saveDirM save id dir p = (.ok u, q)) :
    q.nt.numRva = p.nt.numRva := by
  unfold saveDirM at h
  cases save
  · cases h; rfl
  · rw [if_pos rfl] at h
    rcases h1 : setDirM (fun h => h.setDirRva id dir.1) p with ⟨e | a, r⟩
    · rw [run_bind_error h1] at h; cases h
    · rw [run_bind_ok h1] at h
      obtain ⟨n1, h2, rfl⟩ := setDirM_run h1
      obtain ⟨n2, h3, rfl⟩ := setDirM_run h
      exact (NtHdr.setDirSize_numRva h3).trans (NtHdr.setDirRva_numRva h2)

theorem rebuildImportsM_within {p : Image} (hp : Small p) (ls : List ImportLib) (i : Nat) (cf : ImportCfg) (off : Nat)
    (setHdrs zeroIat strip : Bool) (hr : cf.rewrite = false) (hv : ∀ s, p.secs[i]? = some s → s.vsize ≠ 0)
    (hl : strip = true → i + 1 = p.secs.length)
    (hc : CanSave p setHdrs dirImport) (hc2 : CanSave p (setHdrs && zeroIat) dirIat) :
    StrongWithin (rebuildImportsM ls i cf off setHdrs zeroIat strip) p := by
  unfold rebuildImportsM
  refine StrongWithin.image ?_
  cases h : p.secs[i]? with
  | none => intro e _ _; rfl
  | some s =>
    dsimp only
    refine StrongWithin.lift fun _ hs => ?_
    intro e he hn
    exfalso
    have hm := List.mem_of_getElem? h
    generalize (w32 (w32 ((1 + ls.length) * 20 + (if (cf.buildOrig || cf.fill) = true then w32 (importIatSize p.kind.ptr ls) * 2
      else w32 (importIatSize p.kind.ptr ls)) + p.kind.ptr + w32 (importStrings ls)) + off)) = need at he hn
    rw [run_onData h (f := fun d => .ok (growTo d need)) rfl] at he hn
    obtain ⟨h1, d1, hd1, h2⟩ := putLibsM_keeps (c := True) h hr s.va p.kind.ptr ls (w32 (w32 (importStrings ls) + off))
      { str := off, iat := alignUp (w32 (w32 (importStrings ls) + off + (1 + ls.length) * 20)) p.kind.ptr,
        orig := w32 (alignUp (w32 (w32 (importStrings ls) + off + (1 + ls.length) * 20)) p.kind.ptr + w32 (importIatSize p.kind.ptr ls)) }
      (growTo s.data need)
    generalize hbody : putLibsM cf i s.va p.kind.ptr (w32 (w32 (importStrings ls) + off)) ls _ = body at he hn h1 h2
    have he : ((body >>= _) (withData p i s (growTo s.data need))).1 = throwE e := he
    have hn : NoHuge ((body >>= _) (withData p i s (growTo s.data need))).2 := hn
    rcases hb : body (withData p i s (growTo s.data need)) with ⟨x | x, q⟩
    · rw [run_bind_error hb] at he
      refine h1 trivial e ?_
      rw [hb]
      cases he
      rfl
    · rw [hb] at h2
      have h2 : q = withData p i s d1 := h2
      subst h2
      rw [run_bind_ok hb, run_onData (withData_get h d1) (f := fun d => .ok (resize d x.orig)) rfl, withData_set] at he hn
      unfold finishDirM at he hn
      simp only [bind_assocM] at he hn
      refine recalcThen_within (s := { s with data := resize d1 x.orig }) (withData_get h _) hp.fa hp.sa (hp.virt s hm)
        (Or.inr (hv s h)) ?_ ?_ ?_ he hn
      · intro h3 h4
        have := hl h3
        unfold withData at h4
        simp at h4
        exact absurd this h4
      · exact fun q => bind_secs (saveDirM_secs _ _ _ q) fun _ r _ => bind_secs rfl fun _ r _ =>
          bind_secs (saveDirM_secs _ _ _ r) fun _ _ _ => rfl
      · intro q hq
        refine Calm.bind (saveDirM_calm ?_) fun _ r hr => ?_
        · unfold CanSave at hc ⊢
          rw [hq]; exact hc
        · refine Calm.bind (Calm.pure _ _) fun _ r' hr' => ?_
          cases hr'
          refine Calm.bind (saveDirM_calm ?_) fun _ _ _ => Calm.pure _ _
          unfold CanSave at hc2 ⊢
          rw [saveDirM_numRva hr, hq]; exact hc2

end PE
