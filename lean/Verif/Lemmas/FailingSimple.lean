/-
The simple operations, rebasing and saving when they throw; calls that find no place for the directory at their end.
-/
import Verif.Lemmas.FailingOps
namespace PE

/-! ### Editing -/

theorem Calm.sec {p : Image} {i : Nat} (hi : i < p.secs.length) : Calm (IM.sec i) p := by
  unfold Calm IM.sec
  rw [List.getElem?_eq_getElem hi]
  exact NoExn.ok _

theorem setFileAlignmentM_strong (a : Nat) (p : Image) : Strong (setFileAlignmentM a) p := by
  unfold setFileAlignmentM
  exact Strong.lift fun _ _ => Strong.lift fun _ _ => Strong.image (Strong.lift fun _ _ => (Calm.modify _ _).strong)

theorem realignEndM_calm {p : Image} {i : Nat} (hi : i < p.secs.length) (s : Sec) (b : Bool) (fa : Nat) :
    Calm (realignEndM i s b fa) p ∧ (realignEndM i s b fa p).2.secs.length = p.secs.length := by
  have hs := List.getElem?_eq_getElem hi
  unfold realignEndM
  cases b
  · rw [if_neg (by simp)]
    have h1 := getElem?_setSelf hs { s with rawSize := s.alignedRS fa }
    have := result_ok_iff.1 (result_onData (p := { p with secs := p.secs.set i { s with rawSize := s.alignedRS fa } }) h1
      (fun d => .ok (resize d (s.alignedRS fa))))
    constructor
    · unfold Calm
      rw [run_bind_ok (m := IM.setSec i _) rfl, this]
      exact NoExn.ok _
    · rw [run_bind_ok (m := IM.setSec i _) rfl, this]
      simp
  · rw [if_pos rfl]
    have h1 := getElem?_setSelf hs { s with rawSize := w32 (stripNullbytes s.data).length }
    have := result_ok_iff.1 (result_onData (p := { p with secs := p.secs.set i { s with rawSize := w32 (stripNullbytes s.data).length } }) h1
      (fun d => .ok (stripNullbytes d)))
    constructor
    · unfold Calm
      rw [run_bind_ok (m := IM.setSec i _) rfl, this]
      exact NoExn.ok _
    · rw [run_bind_ok (m := IM.setSec i _) rfl, this]
      simp

theorem realignSectionM_calm {p : Image} {i : Nat} (hi : i < p.secs.length) :
    Calm (realignSectionM i) p ∧ (realignSectionM i p).2.secs.length = p.secs.length := by
  have hs := List.getElem?_eq_getElem hi
  unfold realignSectionM Calm
  rw [run_image, run_lift_ok (throwIf_neg (by omega)), run_sec hs]
  exact realignEndM_calm hi _ _ _

theorem realignSectionM_strong (i : Nat) (p : Image) : Strong (realignSectionM i) p := by
  by_cases hi : i < p.secs.length
  · exact (realignSectionM_calm hi).1.strong
  · intro e _
    unfold realignSectionM
    rw [run_image, run_lift_error (throwIf_pos (by omega))]

theorem realignFromM_calm (n : Nat) {p : Image} {i : Nat} (hi : i + n ≤ p.secs.length) : Calm (realignFromM i n) p := by
  induction n generalizing i p with
  | zero => exact Calm.pure _ _
  | succ n ih =>
    unfold realignFromM
    have ⟨h1, h2⟩ := realignSectionM_calm (p := p) (i := i) (by omega)
    refine Calm.bind h1 fun a q hq => ih ?_
    rw [hq] at h2
    dsimp only at h2
    omega

theorem realignFileM_strong (a : Nat) (p : Image) : Strong (realignFileM a) p := by
  unfold realignFileM
  intro e he
  rcases h : setFileAlignmentM a p with ⟨x | x, q⟩
  · rw [run_bind_error h] at he ⊢
    have := setFileAlignmentM_strong a p e (by rw [h]; cases he; rfl)
    rw [h] at this
    exact this
  · rw [run_bind_ok h, run_image] at he
    exact absurd he (realignFromM_calm _ (by omega) e)

theorem addSectionM_strong (s : Sec) (b : Bool) (p : Image) : Strong (addSectionM s b) p := by
  unfold addSectionM
  refine Strong.image (Strong.lift fun _ _ => Strong.lift fun t _ => Calm.strong ?_)
  exact Calm.bind (Calm.modify _ _) fun _ _ _ => Calm.bind (Calm.modify _ _) fun _ _ _ => Calm.bind (Calm.modify _ _) fun _ _ _ =>
    Calm.modify _ _

theorem setDirM_strong (f : NtHdr → Res NtHdr) (p : Image) : Strong (setDirM f) p := by
  unfold setDirM
  exact Strong.image (Strong.lift fun _ _ => (Calm.modify _ _).strong)

/-- Within 2 GiB only a void section makes the call throw; its raw size is set to zero then. -/
theorem recalculateM_exn {p : Image} {i : Nat} {s : Sec} (h : p.secs[i]? = some s) (hfa : Pow2 p.nt.fileAlign)
    (hsa : Pow2 p.nt.secAlign) (hd : s.data.length ≤ 2147483648) (hv : s.vsize ≤ 2147483648) {b : Bool} {e : Err}
    (he : (recalculateM i b p).1 = throwE e) :
    e = .zeroSectionSizes ∧ s.data = [] ∧ s.vsize = 0 ∧ (recalculateM i b p).2 = { p with secs := p.secs.set i { s with rawSize := 0 } } := by
  by_cases hne : s.data ≠ [] ∨ s.vsize ≠ 0
  · obtain ⟨t, ht⟩ := recalculateM_run h hfa hsa hd hv hne b
    rw [ht] at he
    cases he
  · have h1 : s.data = [] := Classical.byContradiction fun x => hne (Or.inl x)
    have h2 : s.vsize = 0 := Classical.byContradiction fun x => hne (Or.inr x)
    have hp := prepareM_run h
    have h3 : w32 (alignUp64 s.data.length p.nt.fileAlign) = 0 := by
      rw [h1, show ([] : Bytes).length = 0 from rfl, alignUp64_null]; rfl
    rw [if_pos ⟨h3, h2⟩, h3] at hp
    unfold recalculateM at he ⊢
    rw [run_bind_error hp] at he ⊢
    cases he
    exact ⟨rfl, h1, h2, rfl⟩

/-- Expanding a section that has a virtual size leaves everything or does everything. -/
theorem expandM_strong {p : Image} {i : Nat} (hv : ∀ s, p.secs[i]? = some s → s.vsize ≠ 0) (rva size : Nat) (k : ExpandType) :
    Strong (expandM i rva size k) p := by
  unfold expandM
  refine Strong.image (Strong.lift fun _ hl => ?_)
  have hi : i + 1 = p.secs.length := by
    by_cases x : i + 1 = p.secs.length
    · exact x
    · rw [throwIf_pos x] at hl; cases hl
  have hs := List.getElem?_eq_getElem (show i < p.secs.length by omega)
  intro e he
  rw [run_sec hs] at he ⊢
  revert e
  show Strong _ p
  refine Strong.lift fun len _ => ?_
  cases k with
  | raw =>
    unfold expandToM
    dsimp only
    split
    · intro e he
      rw [run_onData hs (f := fun d => .ok (resize d (w32 (sub32 rva p.secs[i].va + size)))) rfl] at he
      exfalso
      rcases hr : recalculateM i false (withData p i p.secs[i] (resize p.secs[i].data (w32 (sub32 rva p.secs[i].va + size)))) with ⟨x | x, q⟩
      · have he : ((recalculateM i false >>= _) (withData p i p.secs[i] (resize p.secs[i].data (w32 (sub32 rva p.secs[i].va + size))))).1 = throwE e := he
        rw [run_bind_error hr] at he
        have h3 := (recalculateM_last (withData_get hs _) (by unfold withData; simpa using hi) (b := false) (e := e) (by rw [hr]; cases he; rfl)).2
        exact hv _ hs h3
      · have he : ((recalculateM i false >>= _) (withData p i p.secs[i] (resize p.secs[i].data (w32 (sub32 rva p.secs[i].va + size))))).1 = throwE e := he
        rw [run_bind_ok hr] at he
        cases he
    · exact (Calm.pure _ _).strong
  | virt =>
    unfold expandToM
    dsimp only
    split
    · intro e he
      rcases hr : setVirtualSizeM i (w32 (sub32 rva p.secs[i].va + size)) p with ⟨x | x, q⟩
      · rw [run_bind_error hr] at he ⊢
        have h3 := (setVirtualSizeM_exn (p := p) (i := i) (v := w32 (sub32 rva p.secs[i].va + size)) (e := e) (by rw [hr]; cases he; rfl)).1
        rw [hr] at h3
        exact h3
      · rw [run_bind_ok hr] at he
        cases he
    · exact (Calm.pure _ _).strong

/-! ### Rebasing -/

theorem OnlyBytes.refl (p : Image) : OnlyBytes p p := ⟨p.secs, p.hdrData, rfl, rfl, rfl⟩

theorem OnlyBytes.trans {p q r : Image} (h1 : OnlyBytes p q) (h2 : OnlyBytes q r) : OnlyBytes p r := by
  obtain ⟨ss, h, rfl, h3, h4⟩ := h1
  obtain ⟨ss', h', rfl, h5, h6⟩ := h2
  exact ⟨ss', h', rfl, h5.trans h3, h6.trans h4⟩

theorem map_set_same {α β : Type} (f : α → β) (l : List α) (i : Nat) {a b : α} (h : l[i]? = some a) (hf : f b = f a) :
    (l.set i b).map f = l.map f := by
  rw [List.map_set, hf]
  apply List.ext_getElem?
  intro j
  rw [List.getElem?_set]
  split
  · rename_i hj
    subst hj
    have hi : i < l.length := by
      rcases Nat.lt_or_ge i l.length with x | x
      · exact x
      · rw [List.getElem?_eq_none x] at h; cases h
    rw [if_pos (by simpa using hi), List.getElem?_map, h]
    rfl
  · rfl

theorem writeLoc_onlyBytes {p q : Image} {l : Loc} {x : Bytes} (h : p.writeLoc l x = .ok q) : OnlyBytes p q := by
  unfold Image.writeLoc at h
  cases l with
  | hdr o =>
    dsimp only at h
    obtain ⟨b, hb, h⟩ := bind_ok_iff.1 h
    rw [← Except.ok.inj h]
    exact ⟨p.secs, b, rfl, writeAt_length hb, rfl⟩
  | sec i o =>
    dsimp only at h
    split at h
    · cases h
    · rename_i s hs
      obtain ⟨b, hb, h⟩ := bind_ok_iff.1 h
      rw [← Except.ok.inj h]
      refine ⟨_, p.hdrData, rfl, rfl, map_set_same _ _ _ hs ?_⟩
      unfold Sec.shape
      rw [writeAt_length hb]

theorem onlyBytes_bind {α β : Type} {m : IM α} {g : α → IM β} (hm : ∀ p, OnlyBytes p (m p).2) (hg : ∀ a p, OnlyBytes p (g a p).2)
    (p : Image) : OnlyBytes p ((m >>= g) p).2 := by
  have h1 := hm p
  rcases h : m p with ⟨e | a, q⟩
  · rw [run_bind_error h]; rw [h] at h1; exact h1
  · rw [run_bind_ok h]; rw [h] at h1; exact h1.trans (hg a q)

theorem writeLocM_onlyBytes (l : Loc) (x : Bytes) (p : Image) : OnlyBytes p (writeLocM l x p).2 := by
  unfold writeLocM
  rw [run_image]
  cases h : p.writeLoc l x with
  | error e => rw [run_lift_error rfl]; exact OnlyBytes.refl p
  | ok q => rw [run_lift_ok rfl]; exact writeLoc_onlyBytes h

theorem rebaseOneM_onlyBytes (delta rva : Nat) (p : Image) : OnlyBytes p (rebaseOneM delta rva p).2 := by
  unfold rebaseOneM
  exact onlyBytes_bind (fun q => OnlyBytes.refl q) (fun p => onlyBytes_bind (fun q => OnlyBytes.refl q)
    (fun _ => onlyBytes_bind (fun q => OnlyBytes.refl q) fun _ => writeLocM_onlyBytes _ _)) p

theorem rebaseEntriesM_onlyBytes (delta b : Nat) (l : List RelocEntry) (p : Image) : OnlyBytes p (rebaseEntriesM delta b l p).2 := by
  induction l generalizing p with
  | nil => exact OnlyBytes.refl p
  | cons e es ih =>
    unfold rebaseEntriesM
    split
    · exact ih p
    · exact onlyBytes_bind (rebaseOneM_onlyBytes _ _) (fun _ => ih) p

theorem rebaseTablesM_onlyBytes (delta : Nat) (l : List RelocTable) (p : Image) : OnlyBytes p (rebaseTablesM delta l p).2 := by
  induction l generalizing p with
  | nil => exact OnlyBytes.refl p
  | cons t ts ih =>
    unfold rebaseTablesM
    exact onlyBytes_bind (rebaseEntriesM_onlyBytes _ _ _) (fun _ => ih) p

theorem rebaseM_exn {p : Image} {l : List RelocTable} {b : Nat} {e : Err} (he : (rebaseM l b p).1 = throwE e) :
    OnlyBytes p (rebaseM l b p).2 := by
  unfold rebaseM at he ⊢
  rw [run_image] at he ⊢
  have h1 := rebaseTablesM_onlyBytes (p.kind.wrap (sub64 (w64 b) p.nt.imageBase)) l p
  rcases h : rebaseTablesM (p.kind.wrap (sub64 (w64 b) p.nt.imageBase)) l p with ⟨x | x, q⟩
  · rw [run_bind_error h]; rw [h] at h1; exact h1
  · rw [run_bind_ok h] at he; cases he

/-! ### Saving -/

theorem readN_noExn (d : Bytes) (o n : Nat) : NoExn (readN d o n) := by
  unfold readN
  split
  · exact NoExn.ok _
  · exact NoExn.ub _

theorem writeSecs_noExn (pos : Nat) (l : List Sec) : NoExn (writeSecs pos l) := by
  induction l generalizing pos with
  | nil => exact NoExn.ok _
  | cons s l ih =>
    unfold writeSecs
    exact NoExn.bind (readN_noExn _ _ _) fun _ _ => NoExn.bind (ih _) fun _ _ => NoExn.ok _

theorem headerBytes_noExn (p : Image) : NoExn p.headerBytes := by
  unfold Image.headerBytes
  split
  · exact NoExn.ub _
  · exact NoExn.ok _

theorem rebuildHeadersM_exn {p : Image} {strip changeSize : Bool} {e : Err}
    (he : (rebuildHeadersM strip changeSize false p).1 = throwE e) :
    (rebuildHeadersM strip changeSize false p).2 = p.stripDos strip := by
  unfold rebuildHeadersM at he ⊢
  rw [run_bind_ok (m := IM.modify _) rfl, run_image, run_lift_ok (show (p.stripDos strip).boundWanted false = .ok false from rfl)] at he ⊢
  unfold placeBoundM at he ⊢
  rw [if_neg (by simp), run_bind_ok (m := (pure _ : IM Nat)) rfl, run_image] at he ⊢
  by_cases h : changeSize = true ∧ ((p.stripDos strip).secs.head?.any (fun s => decide (w32 (alignUp64 ((p.stripDos strip).tablePtr strip)
    (p.stripDos strip).nt.fileAlign) > s.va)) = true)
  · rw [run_lift_error (throwIf_pos h)]
  · rw [run_lift_ok (throwIf_neg h)] at he
    cases he

theorem rebuildPeM_exn {p : Image} {strip changeSize : Bool} {e : Err} (he : (rebuildPeM strip changeSize false p).1 = throwE e) :
    (rebuildPeM strip changeSize false p).2 = p ∨ (rebuildPeM strip changeSize false p).2 = p.stripDos strip := by
  unfold rebuildPeM at he ⊢
  rw [run_image] at he ⊢
  cases h1 : p.checkBound false with
  | error x => rw [run_lift_error rfl]; exact Or.inl rfl
  | ok u =>
    rw [h1, run_lift_ok rfl] at he
    rw [run_lift_ok rfl]
    cases h2 : p.boundRva with
    | error x => rw [run_lift_error rfl]; exact Or.inl rfl
    | ok rva =>
      rw [h2, run_lift_ok rfl] at he
      rw [run_lift_ok rfl]
      dsimp only at he ⊢
      rw [Bool.false_and] at he ⊢
      rcases h3 : rebuildHeadersM strip changeSize false p with ⟨x | x, q⟩
      · rw [run_bind_error h3] at he ⊢
        right
        have := rebuildHeadersM_exn (p := p) (strip := strip) (changeSize := changeSize) (e := e) (by rw [h3]; cases he; rfl)
        rw [h3] at this
        exact this
      · rw [run_bind_ok h3, run_image] at he
        exfalso
        revert he
        refine Calm.bind (Calm.lift (headerBytes_noExn _)) (fun hdr q' _ => ?_) e
        refine Calm.bind (Calm.lift ?_) fun bound q'' _ => ?_
        · unfold Image.boundBytes Image.boundWanted
          rw [if_neg (by simp), ok_bind, if_neg (by simp)]
          exact NoExn.ok _
        · exact Calm.bind (Calm.lift (writeSecs_noExn _ _)) fun _ _ _ => Calm.pure _ _

/-! ### No place for the directory -/

/-- The number of directories and the kind of an image. -/
def Image.fixed (p : Image) : Nat × Kind := (p.nt.numRva, p.kind)

/-- The operation does not change the number of directories and the kind. -/
def KeepsNum {α : Type} (m : IM α) : Prop := ∀ p, (m p).2.fixed = p.fixed

theorem KeepsNum.pure {α : Type} (a : α) : KeepsNum (Pure.pure a : IM α) := fun _ => rfl
theorem KeepsNum.lift {α : Type} (r : Res α) : KeepsNum (IM.lift r) := fun _ => rfl
theorem KeepsNum.image : KeepsNum IM.image := fun _ => rfl
theorem KeepsNum.bind {α β : Type} {m : IM α} {g : α → IM β} (hm : KeepsNum m) (hg : ∀ a, KeepsNum (g a)) : KeepsNum (m >>= g) := by
  intro p
  have h1 := hm p
  rcases h : m p with ⟨e | a, q⟩
  · rw [run_bind_error h]; rw [h] at h1; exact h1
  · rw [run_bind_ok h]; rw [h] at h1; exact (hg a q).trans h1
theorem KeepsNum.modify {f : Image → Image} (h : ∀ p, (f p).fixed = p.fixed) : KeepsNum (IM.modify f) := fun p => h p
theorem KeepsNum.sec (i : Nat) : KeepsNum (IM.sec i) := by
  intro p
  unfold IM.sec
  cases p.secs[i]? <;> rfl
theorem KeepsNum.setSec (i : Nat) (s : Sec) : KeepsNum (IM.setSec i s) := KeepsNum.modify fun _ => rfl
theorem KeepsNum.onData (i : Nat) (f : Bytes → Res Bytes) : KeepsNum (IM.onData i f) :=
  KeepsNum.bind (KeepsNum.sec i) fun _ => KeepsNum.bind (KeepsNum.lift _) fun _ => KeepsNum.setSec i _

theorem setVirtualSizeM_num (i v : Nat) : KeepsNum (setVirtualSizeM i v) := by
  unfold setVirtualSizeM newVsizeM
  refine KeepsNum.bind KeepsNum.image fun _ => KeepsNum.bind (KeepsNum.lift _) fun _ => KeepsNum.bind (KeepsNum.sec i) fun _ =>
    KeepsNum.bind ?_ fun _ => KeepsNum.modify fun p => ?_
  · split
    · exact KeepsNum.bind (KeepsNum.lift _) fun _ => KeepsNum.setSec i _
    · exact KeepsNum.setSec i _
  · unfold Image.updateImageSize
    split <;> rfl

theorem recalculateM_num (i : Nat) (b : Bool) : KeepsNum (recalculateM i b) := by
  unfold recalculateM prepareM stripM adjustM
  refine KeepsNum.bind ?_ fun _ => KeepsNum.bind KeepsNum.image fun _ => KeepsNum.bind ?_ fun _ => KeepsNum.bind (KeepsNum.sec i) fun _ => ?_
  · exact KeepsNum.bind KeepsNum.image fun _ => KeepsNum.bind (KeepsNum.sec i) fun _ => KeepsNum.bind (KeepsNum.setSec i _) fun _ =>
      KeepsNum.bind (KeepsNum.lift _) fun _ => KeepsNum.setSec i _
  · split
    · exact KeepsNum.bind (KeepsNum.onData i _) fun _ => KeepsNum.bind (KeepsNum.sec i) fun _ => KeepsNum.setSec i _
    · exact KeepsNum.pure _
  · split
    · exact setVirtualSizeM_num i _
    · exact KeepsNum.pure _

/-- `m` is `m'` with an exception at the end, if there are at most `id` directories. -/
def FailsAtEnd {α : Type} (m m' : IM α) (id : Nat) : Prop :=
  ∀ p : Image, p.nt.numRva ≤ id → m p = (m' >>= fun _ => IM.lift (throwE .directoryDoesNotExist)) p

theorem FailsAtEnd.bind {α β : Type} {m : IM α} (hm : KeepsNum m) {f g : α → IM β} {id : Nat} (h : ∀ a, FailsAtEnd (f a) (g a) id) :
    FailsAtEnd (m >>= f) (m >>= g) id := by
  intro p hp
  rw [bind_assocM]
  have h1 := hm p
  rcases h2 : m p with ⟨e | a, q⟩
  · rw [run_bind_error h2, run_bind_error h2]
  · rw [h2] at h1
    rw [run_bind_ok h2, run_bind_ok h2]
    exact h a q (by rw [show q.nt.numRva = p.nt.numRva from congrArg Prod.fst h1]; exact hp)

theorem saveDirM_missing {p : Image} {id : Nat} (dir : Nat × Nat) (h : p.nt.numRva ≤ id) :
    saveDirM true id dir p = (throwE .directoryDoesNotExist, p) := by
  unfold saveDirM
  rw [if_pos rfl]
  refine run_bind_error ?_ _
  unfold setDirM NtHdr.setDirRva
  rw [run_image]
  dsimp only
  rw [if_pos h]
  rfl

theorem finishDirM_missing (i : Nat) (strip : Bool) (id : Nat) (dir : Nat × Nat) :
    FailsAtEnd (finishDirM i strip true id dir) (finishDirM i strip false id dir) id := by
  unfold finishDirM
  refine FailsAtEnd.bind (recalculateM_num i strip) fun _ p hp => ?_
  rw [run_bind_error (saveDirM_missing dir hp)]
  rfl

theorem saveRelocM_missing {p : Image} (dir : Nat × Nat) (h : p.nt.numRva ≤ dirBaseReloc) :
    saveRelocM true dir p = (throwE .directoryDoesNotExist, p) := by
  unfold saveRelocM
  rw [if_pos rfl]
  refine run_bind_error ?_ _
  unfold setDirM NtHdr.setDirRva
  rw [run_image]
  dsimp only
  rw [if_pos h]
  rfl

theorem FailsAtEnd.image {β : Type} {f g : Image → IM β} {id : Nat} (h : ∀ a, FailsAtEnd (f a) (g a) id) :
    FailsAtEnd (IM.image >>= f) (IM.image >>= g) id := FailsAtEnd.bind KeepsNum.image h

theorem FailsAtEnd.lift {α β : Type} {r : Res α} {f g : α → IM β} {id : Nat} (h : ∀ a, FailsAtEnd (f a) (g a) id) :
    FailsAtEnd (IM.lift r >>= f) (IM.lift r >>= g) id := FailsAtEnd.bind (KeepsNum.lift r) h

theorem FailsAtEnd.throw {β : Type} (e : Fault) (id : Nat) : FailsAtEnd (IM.lift (.error e) : IM β) (IM.lift (.error e)) id := fun _ _ => rfl

theorem writeDirM_missing (i need : Nat) (w : Bytes → Res Bytes) (strip : Bool) (id : Nat) (dir : Nat × Nat) :
    FailsAtEnd (writeDirM i need w strip true id dir) (writeDirM i need w strip false id dir) id := by
  unfold writeDirM
  exact FailsAtEnd.bind (KeepsNum.onData _ _) fun _ => FailsAtEnd.bind (KeepsNum.onData _ _) fun _ => finishDirM_missing _ _ _ _

theorem rebuildExportsM_missing (info : ExportInfo) (l : List ExportFn) (i off : Nat) (strip : Bool) :
    FailsAtEnd (rebuildExportsM info l i off true strip) (rebuildExportsM info l i off false strip) dirExport := by
  unfold rebuildExportsM
  refine FailsAtEnd.image fun p => ?_
  cases p.secs[i]? with
  | none => exact FailsAtEnd.throw _ _
  | some s => exact FailsAtEnd.lift fun _ => FailsAtEnd.lift fun _ => writeDirM_missing _ _ _ _ _ _

theorem rebuildBoundM_missing (l : List BoundMod) (i off : Nat) (strip : Bool) :
    FailsAtEnd (rebuildBoundM l i off true strip) (rebuildBoundM l i off false strip) dirBoundImport := by
  unfold rebuildBoundM
  refine FailsAtEnd.image fun p => ?_
  cases p.secs[i]? with
  | none => exact FailsAtEnd.throw _ _
  | some s => exact FailsAtEnd.lift fun _ => writeDirM_missing _ _ _ _ _ _

theorem putNameM_num (i base : Nat) (k : ResKey) (np : Nat) : KeepsNum (putNameM i base k np) := by
  cases k with
  | id n => exact KeepsNum.pure _
  | name w =>
    unfold putNameM
    exact KeepsNum.bind (KeepsNum.onData _ _) fun _ => KeepsNum.bind (KeepsNum.lift _) fun _ =>
      KeepsNum.bind (KeepsNum.onData _ _) fun _ => KeepsNum.pure _

mutual
theorem ResEntry.putM_num (i va base : Nat) : ∀ (e : ResEntry) (tp : Nat) (x : ResPos), KeepsNum (e.putM i va base tp x)
  | .empty k, tp, x => by
    unfold ResEntry.putM
    exact KeepsNum.bind (putNameM_num _ _ _ _) fun _ => KeepsNum.lift _
  | .data k cp dt, tp, x => by
    unfold ResEntry.putM
    exact KeepsNum.bind (putNameM_num _ _ _ _) fun _ => KeepsNum.bind (KeepsNum.onData _ _) fun _ => KeepsNum.bind (KeepsNum.onData _ _) fun _ =>
      KeepsNum.bind (KeepsNum.onData _ _) fun _ => KeepsNum.pure _
  | .dir k hh es, tp, x => by
    unfold ResEntry.putM
    exact KeepsNum.bind (putNameM_num _ _ _ _) fun _ => KeepsNum.bind (KeepsNum.onData _ _) fun _ => KeepsNum.bind (KeepsNum.onData _ _) fun _ =>
      putEntriesM_num i va base es _ _
theorem putEntriesM_num (i va base : Nat) : ∀ (es : List ResEntry) (tp : Nat) (x : ResPos), KeepsNum (putEntriesM i va base es tp x)
  | [], tp, x => by unfold putEntriesM; exact KeepsNum.pure _
  | e :: es, tp, x => by
    unfold putEntriesM
    exact KeepsNum.bind (ResEntry.putM_num i va base e _ _) fun _ => putEntriesM_num i va base es _ _
end

theorem rebuildResourcesM_missing (r : ResDir) (i off : Nat) (strip : Bool) :
    FailsAtEnd (rebuildResourcesM r i off true strip) (rebuildResourcesM r i off false strip) dirResource := by
  unfold rebuildResourcesM
  refine FailsAtEnd.image fun p => ?_
  cases p.secs[i]? with
  | none => exact FailsAtEnd.throw _ _
  | some s =>
    refine FailsAtEnd.lift fun _ => FailsAtEnd.lift fun _ => FailsAtEnd.lift fun _ => FailsAtEnd.bind (KeepsNum.onData _ _) fun _ =>
      FailsAtEnd.bind ?_ fun _ => finishDirM_missing _ _ _ _
    unfold putDirM
    exact KeepsNum.bind (KeepsNum.onData _ _) fun _ => putEntriesM_num _ _ _ _ _ _

theorem rebuildRelocationsM_missing (l : List RelocTable) (i off : Nat) (strip : Bool) :
    FailsAtEnd (rebuildRelocationsM l i off true strip) (rebuildRelocationsM l i off false strip) dirBaseReloc := by
  unfold rebuildRelocationsM
  refine FailsAtEnd.image fun p => ?_
  cases p.secs[i]? with
  | none => exact FailsAtEnd.throw _ _
  | some s =>
    refine FailsAtEnd.lift fun _ => FailsAtEnd.bind (KeepsNum.onData _ _) fun _ => FailsAtEnd.bind (KeepsNum.onData _ _) fun _ =>
      FailsAtEnd.bind (recalculateM_num _ _) fun _ q hq => ?_
    rw [run_bind_error (saveRelocM_missing _ hq)]
    rfl

theorem writeLocksM_num (i : Nat) (l : List Nat) (pos : Nat) : KeepsNum (writeLocksM i pos l) := by
  induction l generalizing pos with
  | nil =>
    unfold writeLocksM
    exact KeepsNum.bind KeepsNum.image fun _ => KeepsNum.onData _ _
  | cons r rs ih =>
    unfold writeLocksM
    exact KeepsNum.bind KeepsNum.image fun _ => KeepsNum.bind (KeepsNum.lift _) fun _ => KeepsNum.bind (KeepsNum.onData _ _) fun _ => ih _

theorem rebuildConfigM_missing (c : ConfigInfo) (i off : Nat) (wse wlock strip : Bool) :
    FailsAtEnd (rebuildConfigM c i off wse wlock true strip) (rebuildConfigM c i off wse wlock false strip) dirLoadConfig := by
  unfold rebuildConfigM
  refine FailsAtEnd.image fun p => ?_
  cases p.secs[i]? with
  | none => exact FailsAtEnd.throw _ _
  | some s =>
    refine FailsAtEnd.lift fun _ => FailsAtEnd.bind (KeepsNum.onData _ _) fun _ => FailsAtEnd.lift fun _ => FailsAtEnd.lift fun _ =>
      FailsAtEnd.bind (KeepsNum.onData _ _) fun _ => FailsAtEnd.bind (KeepsNum.onData _ _) fun _ => FailsAtEnd.bind ?_ fun _ =>
      finishDirM_missing _ _ _ _
    unfold writeLocksIfM
    split
    · exact writeLocksM_num _ _ _
    · exact KeepsNum.pure _

theorem writeLocM_num (l : Loc) (x : Bytes) : KeepsNum (writeLocM l x) := by
  intro p
  obtain ⟨_, _, h, _, _⟩ := writeLocM_onlyBytes l x p
  rw [h]
  rfl

theorem expandM_num (i rva size : Nat) (k : ExpandType) : KeepsNum (expandM i rva size k) := by
  unfold expandM
  refine KeepsNum.bind KeepsNum.image fun _ => KeepsNum.bind (KeepsNum.lift _) fun _ => KeepsNum.bind (KeepsNum.sec _) fun _ =>
    KeepsNum.bind (KeepsNum.lift _) fun _ => ?_
  cases k with
  | raw =>
    unfold expandToM
    dsimp only
    split
    · exact KeepsNum.bind (KeepsNum.onData _ _) fun _ => KeepsNum.bind (recalculateM_num _ _) fun _ => KeepsNum.pure _
    · exact KeepsNum.pure _
  | virt =>
    unfold expandToM
    dsimp only
    split
    · exact KeepsNum.bind (setVirtualSizeM_num _ _) fun _ => KeepsNum.pure _
    · exact KeepsNum.pure _

theorem KeepsNum.quiet {α : Type} {m : IM α} (h : KeepsNum m) : KeepsNum (IM.quiet m) := by
  intro p
  have h1 := h p
  unfold IM.quiet
  rcases h2 : m p with ⟨(x | x) | a, q⟩ <;> (rw [h2] at h1; exact h1)

theorem expandQuietM_num (rva size : Nat) (k : ExpandType) : KeepsNum (expandQuietM rva size k) :=
  KeepsNum.quiet (KeepsNum.bind KeepsNum.image fun _ => KeepsNum.bind (KeepsNum.lift _) fun _ => expandM_num _ _ _ _)

theorem tlsPutDataM_num (w : Bool) (t : TlsInfo) (k : ExpandType) : KeepsNum (tlsPutDataM w t k) := by
  unfold tlsPutDataM
  split
  · refine KeepsNum.bind (expandQuietM_num _ _ _) fun _ => KeepsNum.bind KeepsNum.image fun _ => KeepsNum.bind (KeepsNum.lift _) fun _ => ?_
    unfold tlsCopyM
    split
    · exact KeepsNum.pure _
    · exact KeepsNum.bind KeepsNum.image fun _ => KeepsNum.bind (KeepsNum.lift _) fun _ => KeepsNum.bind (KeepsNum.lift _) fun _ => writeLocM_num _ _
  · exact KeepsNum.pure _

theorem tlsPutCallbacksM_num (w : Bool) (t : TlsInfo) : KeepsNum (tlsPutCallbacksM w t) := by
  unfold tlsPutCallbacksM
  split
  · exact KeepsNum.bind KeepsNum.image fun _ => KeepsNum.bind (expandQuietM_num _ _ _) fun _ => KeepsNum.bind KeepsNum.image fun _ =>
      KeepsNum.bind (KeepsNum.lift _) fun _ => KeepsNum.bind (KeepsNum.lift _) fun _ => KeepsNum.bind (KeepsNum.lift _) fun _ =>
      KeepsNum.bind (KeepsNum.lift _) fun _ => KeepsNum.bind (KeepsNum.lift _) fun _ => KeepsNum.bind (KeepsNum.lift _) fun _ => writeLocM_num _ _
  · exact KeepsNum.pure _

/-- The stepwise model of `rebuild_tls` gives what the other model gives. -/
theorem rebuildTlsM_same (t : TlsInfo) (i off : Nat) (wcb wdata : Bool) (k : ExpandType) (save strip : Bool) (p : Image) :
    (rebuildTlsM t i off wcb wdata k save strip).result p = p.rebuildTls t i off wcb wdata k save strip := by
  refine rebuildTlsM_result t i off wcb wdata k save strip p fun d s q _ hq => ?_
  obtain ⟨r, h1, h2⟩ := bind_ok_iff.1 hq
  have h3 := tlsPutDataM_result wdata t k { p with secs := p.secs.set i { s with data := d } }
  rw [h1, ok_bind] at h3
  have h4 := tlsPutCallbacksM_result wcb t r
  rw [h2, ok_bind] at h4
  have h5 := tlsPutDataM_num wdata t k { p with secs := p.secs.set i { s with data := d } }
  have h6 := tlsPutCallbacksM_num wcb t r
  rw [result_ok_iff.1 h3] at h5
  rw [result_ok_iff.1 h4] at h6
  exact (congrArg Prod.snd h6).trans (congrArg Prod.snd h5)

theorem rebuildTlsM_missing (t : TlsInfo) (i off : Nat) (wcb wdata : Bool) (k : ExpandType) (strip : Bool) :
    FailsAtEnd (rebuildTlsM t i off wcb wdata k true strip) (rebuildTlsM t i off wcb wdata k false strip) dirTls := by
  unfold rebuildTlsM
  refine FailsAtEnd.image fun p => ?_
  cases p.secs[i]? with
  | none => exact FailsAtEnd.throw _ _
  | some s =>
    exact FailsAtEnd.lift fun _ => FailsAtEnd.lift fun _ => FailsAtEnd.bind (KeepsNum.onData _ _) fun _ => FailsAtEnd.lift fun _ =>
      FailsAtEnd.bind (KeepsNum.onData _ _) fun _ => FailsAtEnd.bind (tlsPutDataM_num _ _ _) fun _ => FailsAtEnd.bind (tlsPutCallbacksM_num _ _) fun _ =>
      FailsAtEnd.bind (KeepsNum.sec _) fun _ => finishDirM_missing _ _ _ _

theorem savedPutM_num (rva v : Nat) : KeepsNum (savedPutM rva v) := by
  unfold savedPutM
  exact KeepsNum.bind KeepsNum.image fun _ => KeepsNum.bind (KeepsNum.lift _) fun _ => KeepsNum.bind (KeepsNum.lift _) fun _ =>
    KeepsNum.bind (KeepsNum.lift _) fun _ => writeLocM_num _ _

theorem putIatM_num (i ptr : Nat) (pl : ImportPlan) (adv : Bool) (v : Nat) (x : ImportPos) : KeepsNum (putIatM i ptr pl adv v x) := by
  unfold putIatM
  split
  · exact KeepsNum.bind (savedPutM_num _ _) fun _ => KeepsNum.pure _
  · exact KeepsNum.bind (writeLocM_num _ _) fun _ => KeepsNum.pure _

theorem fnOrigM_num (i ptr : Nat) (pl : ImportPlan) (v : Nat) (x : ImportPos) : KeepsNum (fnOrigM i ptr pl v x) := by
  unfold fnOrigM putOrigM
  split
  · split
    · exact KeepsNum.bind (savedPutM_num _ _) fun _ => KeepsNum.pure _
    · exact KeepsNum.bind (writeLocM_num _ _) fun _ => KeepsNum.pure _
  · exact KeepsNum.pure _

theorem putFnM_num (i va ptr : Nat) (pl : ImportPlan) (f : ImportFn) (x : ImportPos) : KeepsNum (putFnM i va ptr pl f x) := by
  unfold putFnM
  refine KeepsNum.bind ?_ fun _ => KeepsNum.bind (fnOrigM_num _ _ _ _ _) fun _ => ?_
  · unfold fnIatM
    split
    · exact KeepsNum.pure _
    · split <;> exact putIatM_num _ _ _ _ _ _
  · unfold fnNameM
    split
    · exact KeepsNum.bind (writeLocM_num _ _) fun _ => KeepsNum.bind (writeLocM_num _ _) fun _ => KeepsNum.pure _
    · exact KeepsNum.pure _

theorem putFnsM_num (i va ptr : Nat) (pl : ImportPlan) (l : List ImportFn) (x : ImportPos) : KeepsNum (putFnsM i va ptr pl l x) := by
  induction l generalizing x with
  | nil => exact KeepsNum.pure _
  | cons f fs ih =>
    unfold putFnsM
    exact KeepsNum.bind (putFnM_num _ _ _ _ _ _) fun x => ih x

theorem putLibsM_num (cf : ImportCfg) (i va ptr : Nat) (ls : List ImportLib) (desc : Nat) (x : ImportPos) :
    KeepsNum (putLibsM cf i va ptr desc ls x) := by
  induction ls generalizing desc x with
  | nil =>
    unfold putLibsM
    exact KeepsNum.bind (writeLocM_num _ _) fun _ => KeepsNum.pure _
  | cons l ls ih =>
    unfold putLibsM
    refine KeepsNum.bind ?_ fun x => ih _ x
    unfold putLibM
    refine KeepsNum.bind (writeLocM_num _ _) fun _ => KeepsNum.bind (writeLocM_num _ _) fun _ => KeepsNum.bind (putFnsM_num _ _ _ _ _ _) fun _ =>
      KeepsNum.bind ?_ fun _ => fnOrigM_num _ _ _ _ _
    unfold endIatM
    split
    · exact KeepsNum.pure _
    · exact putIatM_num _ _ _ _ _ _

theorem rebuildImportsM_missing (ls : List ImportLib) (i : Nat) (cf : ImportCfg) (off : Nat) (zeroIat strip : Bool) :
    FailsAtEnd (rebuildImportsM ls i cf off true zeroIat strip) (rebuildImportsM ls i cf off false zeroIat strip) dirImport := by
  unfold rebuildImportsM
  refine FailsAtEnd.image fun p => ?_
  cases p.secs[i]? with
  | none => exact FailsAtEnd.throw _ _
  | some s =>
    refine FailsAtEnd.lift fun _ => FailsAtEnd.bind (KeepsNum.onData _ _) fun _ => FailsAtEnd.bind (putLibsM_num _ _ _ _ _ _ _) fun _ =>
      FailsAtEnd.bind (KeepsNum.onData _ _) fun _ q hq => ?_
    have h1 := finishDirM_missing i strip dirImport (w32 (s.va + w32 (off + w32 (importStrings ls))),
      sub32 (w32 ((1 + ls.length) * 20 + (if (cf.buildOrig || cf.fill) = true then w32 (importIatSize p.kind.ptr ls) * 2
        else w32 (importIatSize p.kind.ptr ls)) + p.kind.ptr + w32 (importStrings ls))) (w32 (importStrings ls))) q hq
    rw [bind_assocM]
    rcases h2 : finishDirM i strip false dirImport (w32 (s.va + w32 (off + w32 (importStrings ls))),
      sub32 (w32 ((1 + ls.length) * 20 + (if (cf.buildOrig || cf.fill) = true then w32 (importIatSize p.kind.ptr ls) * 2
        else w32 (importIatSize p.kind.ptr ls)) + p.kind.ptr + w32 (importStrings ls))) (w32 (importStrings ls))) q with ⟨x | x, q'⟩
    · rw [run_bind_error h2] at h1
      rw [run_bind_error h1, run_bind_error h2]
    · rw [run_bind_ok h2] at h1
      rw [run_bind_error h1, run_bind_ok h2]
      rfl

/-! ### How far rebasing got -/

/-- The relocations of a table are applied one after the other, up to the one that throws. -/
theorem rebaseOneM_exn {delta rva : Nat} {p : Image} {e : Err} (he : (rebaseOneM delta rva p).1 = throwE e) :
    (rebaseOneM delta rva p).2 = p := by
  unfold rebaseOneM at he ⊢
  revert e
  show Strong _ p
  refine Strong.image (Strong.lift fun v _ => Strong.lift fun l _ => ?_)
  unfold writeLocM
  exact Strong.image (Strong.lift fun q _ => (Calm.modify _ _).strong)

theorem applySites_append (p : Image) (delta : Nat) (l k : List Nat) :
    p.applySites delta (l ++ k) = p.applySites delta l >>= fun q => q.applySites delta k := by
  induction l generalizing p with
  | nil => rfl
  | cons r l ih =>
    show (p.rebaseOne delta r >>= fun q => q.applySites delta (l ++ k)) = (p.rebaseOne delta r >>= fun q => q.applySites delta l) >>= _
    rw [bind_assoc']
    exact bind_congr' fun q => ih q

/-- The addresses of the entries of a table at `b`. -/
def sitesOf (b : Nat) (l : List RelocEntry) : List Nat := (l.filter fun e => decide (e.type ≠ 0)).map fun e => w32 (b + e.rva)

/-- `m` applies the relocations at `l`; if it throws then those in front of the failing one have been applied. -/
def Applies (delta : Nat) (l : List Nat) (m : IM Unit) : Prop := ∀ p : Image,
  (∀ q, m p = (.ok (), q) → p.applySites delta l = .ok q) ∧
  ∀ e, (m p).1 = throwE e → ∃ pre r rest q, l = pre ++ r :: rest ∧ p.applySites delta pre = .ok q ∧
    q.rebaseOne delta r = throwE e ∧ (m p).2 = q

theorem Applies.append {delta : Nat} {l k : List Nat} {m n : IM Unit} (hm : Applies delta l m) (hn : Applies delta k n) :
    Applies delta (l ++ k) (m >>= fun _ => n) := by
  intro p
  obtain ⟨h1, h2⟩ := hm p
  rcases h : m p with ⟨x | x, q⟩
  · rw [run_bind_error h]
    rw [h] at h2
    refine ⟨fun q' hq => (by cases hq), fun e he => ?_⟩
    obtain ⟨pre, r, rest, q', h3, h4, h5, h6⟩ := h2 e (by cases he; rfl)
    exact ⟨pre, r, rest ++ k, q', by rw [h3]; simp, h4, h5, h6⟩
  · rw [run_bind_ok h]
    have h3 := h1 q h
    obtain ⟨h4, h5⟩ := hn q
    refine ⟨fun q' hq => by rw [applySites_append, h3]; exact h4 q' hq, fun e he => ?_⟩
    obtain ⟨pre, r, rest, q', h6, h7, h8, h9⟩ := h5 e he
    exact ⟨l ++ pre, r, rest, q', by rw [h6]; simp, by rw [applySites_append, h3]; exact h7, h8, h9⟩

theorem rebaseOneM_applies (delta rva : Nat) : Applies delta [rva] (rebaseOneM delta rva) := by
  intro p
  have h1 := rebaseOneM_result delta rva p
  constructor
  · intro q hq
    rw [result_ok_iff.2 hq] at h1
    obtain ⟨q', h2, h3⟩ := bind_ok_iff.1 h1.symm
    show (p.rebaseOne delta rva >>= fun q => q.applySites delta []) = _
    rw [h2]
    cases h3
    rfl
  · intro e he
    refine ⟨[], rva, [], p, rfl, rfl, ?_, rebaseOneM_exn he⟩
    rw [result_error_iff.2 he] at h1
    cases h2 : p.rebaseOne delta rva with
    | error x => rw [h2] at h1; cases h1; rfl
    | ok q => rw [h2] at h1; cases h1

theorem rebaseEntriesM_applies (delta b : Nat) (l : List RelocEntry) : Applies delta (sitesOf b l) (rebaseEntriesM delta b l) := by
  induction l with
  | nil => exact fun p => ⟨fun q hq => by cases hq; rfl, fun e he => by cases he⟩
  | cons e l ih =>
    unfold rebaseEntriesM
    by_cases h : e.type = 0
    · rw [if_pos h]
      have : sitesOf b (e :: l) = sitesOf b l := by unfold sitesOf; rw [List.filter_cons_of_neg (by simp [h])]
      rw [this]; exact ih
    · rw [if_neg h]
      have : sitesOf b (e :: l) = [w32 (b + e.rva)] ++ sitesOf b l := by unfold sitesOf; rw [List.filter_cons_of_pos (by simp [h])]; rfl
      rw [this]
      exact Applies.append (rebaseOneM_applies _ _) ih

theorem rebaseTablesM_applies (delta : Nat) (l : List RelocTable) : Applies delta (l.flatMap RelocTable.sites) (rebaseTablesM delta l) := by
  induction l with
  | nil => exact fun p => ⟨fun q hq => by cases hq; rfl, fun e he => by cases he⟩
  | cons t l ih =>
    unfold rebaseTablesM
    rw [List.flatMap_cons]
    exact Applies.append (rebaseEntriesM_applies _ _ _) ih

theorem rebaseM_applies {p : Image} {l : List RelocTable} {b : Nat} {e : Err} (he : (rebaseM l b p).1 = throwE e) :
    ∃ pre r rest, l.flatMap RelocTable.sites = pre ++ r :: rest ∧
      p.applySites (p.kind.wrap (sub64 (w64 b) p.nt.imageBase)) pre = .ok (rebaseM l b p).2 ∧
      (rebaseM l b p).2.rebaseOne (p.kind.wrap (sub64 (w64 b) p.nt.imageBase)) r = throwE e := by
  unfold rebaseM at he ⊢
  rw [run_image] at he ⊢
  have h1 := (rebaseTablesM_applies (p.kind.wrap (sub64 (w64 b) p.nt.imageBase)) l p).2 e
  rcases h : rebaseTablesM (p.kind.wrap (sub64 (w64 b) p.nt.imageBase)) l p with ⟨x | x, q⟩
  · rw [run_bind_error h] at he ⊢
    rw [h] at h1
    obtain ⟨pre, r, rest, q', h2, h3, h4, h5⟩ := h1 (by cases he; rfl)
    have h5 : q = q' := h5
    subst h5
    exact ⟨pre, r, rest, h2, h3, h4⟩
  · rw [run_bind_ok h] at he; cases he

/-! ### Imports with rewriting -/

theorem savedPutM_onlyBytes (rva v : Nat) (p : Image) : OnlyBytes p (savedPutM rva v p).2 := by
  unfold savedPutM
  exact onlyBytes_bind (fun q => OnlyBytes.refl q) (fun p => onlyBytes_bind (fun q => OnlyBytes.refl q) fun _ =>
    onlyBytes_bind (fun q => OnlyBytes.refl q) fun _ => onlyBytes_bind (fun q => OnlyBytes.refl q) fun _ => writeLocM_onlyBytes _ _) p

theorem putIatM_onlyBytes (i ptr : Nat) (pl : ImportPlan) (adv : Bool) (v : Nat) (x : ImportPos) (p : Image) :
    OnlyBytes p (putIatM i ptr pl adv v x p).2 := by
  unfold putIatM
  split
  · exact onlyBytes_bind (savedPutM_onlyBytes _ _) (fun _ q => OnlyBytes.refl q) p
  · exact onlyBytes_bind (writeLocM_onlyBytes _ _) (fun _ q => OnlyBytes.refl q) p

theorem fnOrigM_onlyBytes (i ptr : Nat) (pl : ImportPlan) (v : Nat) (x : ImportPos) (p : Image) :
    OnlyBytes p (fnOrigM i ptr pl v x p).2 := by
  unfold fnOrigM putOrigM
  split
  · split
    · exact onlyBytes_bind (savedPutM_onlyBytes _ _) (fun _ q => OnlyBytes.refl q) p
    · exact onlyBytes_bind (writeLocM_onlyBytes _ _) (fun _ q => OnlyBytes.refl q) p
  · exact OnlyBytes.refl p

theorem putFnM_onlyBytes (i va ptr : Nat) (pl : ImportPlan) (f : ImportFn) (x : ImportPos) (p : Image) :
    OnlyBytes p (putFnM i va ptr pl f x p).2 := by
  unfold putFnM
  refine onlyBytes_bind (fun p => ?_) (fun _ => onlyBytes_bind (fnOrigM_onlyBytes _ _ _ _ _) fun _ p => ?_) p
  · unfold fnIatM
    split
    · exact OnlyBytes.refl p
    · split <;> exact putIatM_onlyBytes _ _ _ _ _ _ _
  · unfold fnNameM
    split
    · exact onlyBytes_bind (writeLocM_onlyBytes _ _) (fun _ => onlyBytes_bind (writeLocM_onlyBytes _ _) fun _ q => OnlyBytes.refl q) p
    · exact OnlyBytes.refl p

theorem putFnsM_onlyBytes (i va ptr : Nat) (pl : ImportPlan) (l : List ImportFn) (x : ImportPos) (p : Image) :
    OnlyBytes p (putFnsM i va ptr pl l x p).2 := by
  induction l generalizing x p with
  | nil => exact OnlyBytes.refl p
  | cons f fs ih =>
    unfold putFnsM
    exact onlyBytes_bind (putFnM_onlyBytes _ _ _ _ _ _) (fun x => ih x) p

theorem putLibsM_onlyBytes (cf : ImportCfg) (i va ptr : Nat) (ls : List ImportLib) (desc : Nat) (x : ImportPos) (p : Image) :
    OnlyBytes p (putLibsM cf i va ptr desc ls x p).2 := by
  induction ls generalizing desc x p with
  | nil =>
    unfold putLibsM
    exact onlyBytes_bind (writeLocM_onlyBytes _ _) (fun _ q => OnlyBytes.refl q) p
  | cons l ls ih =>
    unfold putLibsM
    refine onlyBytes_bind (fun p => ?_) (fun x => ih _ x) p
    unfold putLibM
    refine onlyBytes_bind (writeLocM_onlyBytes _ _) (fun _ => onlyBytes_bind (writeLocM_onlyBytes _ _) fun _ =>
      onlyBytes_bind (putFnsM_onlyBytes _ _ _ _ _ _) fun _ => onlyBytes_bind (fun p => ?_) fun _ => fnOrigM_onlyBytes _ _ _ _ _) p
    unfold endIatM
    split
    · exact OnlyBytes.refl p
    · exact putIatM_onlyBytes _ _ _ _ _ _ p

/-- The section with the same position. -/
theorem OnlyBytes.get {p q : Image} (h : OnlyBytes p q) {i : Nat} {s : Sec} (hs : p.secs[i]? = some s) :
    ∃ t, q.secs[i]? = some t ∧ t.shape = s.shape := by
  obtain ⟨ss, hd, rfl, _, h2⟩ := h
  have h3 := congrArg (fun l : List (Sec × Nat) => l[i]?) h2
  simp only [List.getElem?_map, hs, Option.map_some] at h3
  cases ht : ss[i]? with
  | none => rw [ht] at h3; cases h3
  | some t =>
    rw [ht] at h3
    exact ⟨t, rfl, Option.some.inj h3⟩

theorem OnlyBytes.length {p q : Image} (h : OnlyBytes p q) : q.secs.length = p.secs.length := by
  obtain ⟨ss, hd, rfl, _, h2⟩ := h
  have := congrArg List.length h2
  simpa using this

theorem rebuildImportsM_grown {p : Image} (hp : Small p) (ls : List ImportLib) (i : Nat) (cf : ImportCfg) (off : Nat)
    (setHdrs zeroIat strip : Bool) (hv : ∀ s, p.secs[i]? = some s → s.vsize ≠ 0)
    (hl : strip = true → i + 1 = p.secs.length)
    (hc : CanSave p setHdrs dirImport) (hc2 : CanSave p (setHdrs && zeroIat) dirIat) {e : Err}
    (he : (rebuildImportsM ls i cf off setHdrs zeroIat strip p).1 = throwE e)
    (hn : NoHuge (rebuildImportsM ls i cf off setHdrs zeroIat strip p).2) :
    (rebuildImportsM ls i cf off setHdrs zeroIat strip p).2 = p ∨
      GrownBytes p (rebuildImportsM ls i cf off setHdrs zeroIat strip p).2 i := by
  unfold rebuildImportsM at he hn ⊢
  rw [run_image] at he hn ⊢
  cases h : p.secs[i]? with
  | none => left; rfl
  | some s =>
    rw [h] at he hn
    dsimp only at he hn ⊢
    generalize (w32 (w32 ((1 + ls.length) * 20 + (if (cf.buildOrig || cf.fill) = true then w32 (importIatSize p.kind.ptr ls) * 2
      else w32 (importIatSize p.kind.ptr ls)) + p.kind.ptr + w32 (importStrings ls)) + off)) = need at he hn ⊢
    cases hs : p.spaceCheck i s need with
    | error x => left; rw [run_lift_error rfl]
    | ok u =>
      right
      rw [hs, run_lift_ok rfl, run_onData h (f := fun d => .ok (growTo d need)) rfl] at he hn
      rw [run_lift_ok rfl, run_onData h (f := fun d => .ok (growTo d need)) rfl]
      have hm := List.mem_of_getElem? h
      refine ⟨s, growTo s.data need, h, by rw [growTo_max]; omega, ?_⟩
      have hob := putLibsM_onlyBytes cf i s.va p.kind.ptr ls (w32 (w32 (importStrings ls) + off))
        { str := off, iat := alignUp (w32 (w32 (importStrings ls) + off + (1 + ls.length) * 20)) p.kind.ptr,
          orig := w32 (alignUp (w32 (w32 (importStrings ls) + off + (1 + ls.length) * 20)) p.kind.ptr + w32 (importIatSize p.kind.ptr ls)) }
        (withData p i s (growTo s.data need))
      generalize hbody : putLibsM cf i s.va p.kind.ptr (w32 (w32 (importStrings ls) + off)) ls _ = body at he hn hob ⊢
      have he : ((body >>= _) (withData p i s (growTo s.data need))).1 = throwE e := he
      have hn : NoHuge ((body >>= _) (withData p i s (growTo s.data need))).2 := hn
      show OnlyBytes _ ((body >>= _) (withData p i s (growTo s.data need))).2
      rcases hb : body (withData p i s (growTo s.data need)) with ⟨x | x, q⟩
      · rw [run_bind_error hb]
        rw [hb] at hob
        exact hob
      · exfalso
        rw [hb] at hob
        have hob : OnlyBytes (withData p i s (growTo s.data need)) q := hob
        obtain ⟨t, ht, hts⟩ := hob.get (withData_get h _)
        have hlen : q.secs.length = p.secs.length := hob.length.trans (by unfold withData; simp)
        obtain ⟨ss, hd, hq, _, _⟩ := hob
        have hnt : q.nt = p.nt := by rw [hq]; rfl
        have htv : t.vsize = s.vsize := congrArg (fun x : Sec × Nat => x.1.vsize) hts
        rw [run_bind_ok hb, run_onData ht (f := fun d => .ok (resize d x.orig)) rfl] at he hn
        unfold finishDirM at he hn
        simp only [bind_assocM] at he hn
        refine recalcThen_within (p := { q with secs := q.secs.set i { t with data := resize t.data x.orig } })
          (s := { t with data := resize t.data x.orig }) (getElem?_setSelf ht _) ?_ ?_ ?_ (Or.inr ?_) ?_ ?_ ?_ he hn
        · show Pow2 q.nt.fileAlign
          rw [hnt]; exact hp.fa
        · show Pow2 q.nt.secAlign
          rw [hnt]; exact hp.sa
        · show t.vsize ≤ _
          rw [htv]; exact hp.virt s hm
        · show t.vsize ≠ 0
          rw [htv]; exact hv s h
        · intro h3 h4
          have := hl h3
          simp [hlen] at h4
          exact absurd this h4
        · exact fun q => bind_secs (saveDirM_secs _ _ _ q) fun _ r _ => bind_secs rfl fun _ r _ =>
            bind_secs (saveDirM_secs _ _ _ r) fun _ _ _ => rfl
        · intro q' hq'
          have hq' : q'.nt = p.nt := hq'.trans hnt
          refine Calm.bind (saveDirM_calm ?_) fun _ r hr => ?_
          · unfold CanSave at hc ⊢
            rw [hq']; exact hc
          · refine Calm.bind (Calm.pure _ _) fun _ r' hr' => ?_
            cases hr'
            refine Calm.bind (saveDirM_calm ?_) fun _ _ _ => Calm.pure _ _
            unfold CanSave at hc2 ⊢
            rw [saveDirM_numRva hr, hq']; exact hc2

end PE
