/-
Which operations of `Model/Failing` cannot throw, and what those that do leave behind.
-/
import Verif.Spec.Failing
import Verif.Lemmas.FailingRest
import Verif.Lemmas.Align
import Verif.Lemmas.LoadFacts
import Verif.Lemmas.ResourcesSafe
namespace PE

/-- No exception. -/
def NoExn {α : Type} (x : Res α) : Prop := ∀ e, x ≠ throwE e

theorem NoExn.ok {α : Type} (a : α) : NoExn (.ok a : Res α) := fun _ h => by cases h
theorem NoExn.ub {α : Type} (u : UB) : NoExn (ubE u : Res α) := fun _ h => by cases h
theorem NoExn.bind {α β : Type} {x : Res α} {f : α → Res β} (hx : NoExn x) (hf : ∀ a, x = .ok a → NoExn (f a)) :
    NoExn (x >>= f) := by
  cases h : x with
  | ok a => exact hf a h
  | error e =>
    intro b hb
    cases e with
    | ub u => cases hb
    | exn c => exact hx c h

/-- The operation does not throw. -/
def Calm {α : Type} (m : IM α) (p : Image) : Prop := NoExn (m p).1

theorem Calm.strong {α : Type} {m : IM α} {p : Image} (h : Calm m p) : Strong m p := fun e he => absurd he (h e)

theorem Calm.bind {α β : Type} {m : IM α} {g : α → IM β} {p : Image} (hm : Calm m p)
    (hg : ∀ a q, m p = (.ok a, q) → Calm (g a) q) : Calm (m >>= g) p := by
  rcases h : m p with ⟨e | a, q⟩
  · intro x hx
    rw [run_bind_error h] at hx
    refine hm x ?_
    rw [h]
    cases hx
    rfl
  · unfold Calm
    rw [run_bind_ok h]
    exact hg a q h

/-- A check first: the image is that of the rest. -/
theorem Strong.lift {α β : Type} {r : Res α} {g : α → IM β} {p : Image} (hg : ∀ a, r = .ok a → Strong (g a) p) :
    Strong (IM.lift r >>= g) p := by
  cases h : r with
  | error e => intro x hx; rfl
  | ok a => exact hg a h

theorem Strong.image {β : Type} {g : Image → IM β} {p : Image} (hg : Strong (g p) p) : Strong (IM.image >>= g) p := hg

theorem Strong.within {α : Type} {m : IM α} {p : Image} (h : Strong m p) : StrongWithin m p := fun e he _ => h e he

theorem StrongWithin.lift {α β : Type} {r : Res α} {g : α → IM β} {p : Image} (hg : ∀ a, r = .ok a → StrongWithin (g a) p) :
    StrongWithin (IM.lift r >>= g) p := by
  cases h : r with
  | error e => intro x hx _; rfl
  | ok a => exact hg a h

theorem StrongWithin.image {β : Type} {g : Image → IM β} {p : Image} (hg : StrongWithin (g p) p) :
    StrongWithin (IM.image >>= g) p := hg

/-! ### `recalculate_section_sizes` -/

theorem stripped_length_le (d : Bytes) : (stripKeepOne d.reverse).reverse.length ≤ d.length := by
  obtain ⟨k, hk⟩ := strip_zeros d
  have := congrArg List.length hk
  simp only [List.length_append, zeros_length] at this
  omega

/-- NoHuge 2 GiB, a section that is not void gets its sizes without exception, and nothing but the section changes. -/
theorem recalculateM_run {p : Image} {i : Nat} {s : Sec} (h : p.secs[i]? = some s) (hfa : Pow2 p.nt.fileAlign)
    (hsa : Pow2 p.nt.secAlign) (hd : s.data.length ≤ 2147483648) (hv : s.vsize ≤ 2147483648)
    (hne : s.data ≠ [] ∨ s.vsize ≠ 0) (b : Bool) :
    ∃ t, recalculateM i b p = (.ok (), { p with secs := p.secs.set i t }) := by
  have hr : w32 (alignUp64 s.data.length p.nt.fileAlign) = ceilTo s.data.length p.nt.fileAlign := by
    rw [alignUp64_eq hfa (by omega), w32, Nat.mod_eq_of_lt]
    have := ceilTo_le_2gb hfa hd
    omega
  have hr2 := ceilTo_le_2gb hfa hd
  have h0 : ¬ (w32 (alignUp64 s.data.length p.nt.fileAlign) = 0 ∧ s.vsize = 0) := by
    rw [hr]
    rintro ⟨h1, h2⟩
    rcases hne with h3 | h3
    · have : 0 < s.data.length := List.length_pos_iff.2 h3
      have := ceilTo_pos hfa.pos this
      omega
    · exact h3 h2
  have hp := prepareM_run h
  rw [if_neg h0, hr] at hp
  generalize hvz : (if s.vsize = 0 then ceilTo s.data.length p.nt.fileAlign
    else max (alignUp (ceilTo s.data.length p.nt.fileAlign) p.nt.fileAlign) (alignUp s.vsize p.nt.secAlign)) = v at hp
  have hv1 : ceilTo s.data.length p.nt.fileAlign ≤ v ∧ v ≤ 2147483648 := by
    rw [← hvz]
    split
    · omega
    · rw [alignUp_2gb hfa hr2, ceilTo_of_dvd (ceilTo_dvd _ _), alignUp_2gb hsa hv]
      have := ceilTo_le_2gb hsa hv
      omega
  unfold recalculateM
  rw [run_bind_ok hp, run_image]
  dsimp only
  generalize (b && decide (i + 1 ≠ (p.secs.set i { s with rawSize := ceilTo s.data.length p.nt.fileAlign, vsize := v }).length)) = c
  have hst := result_ok_iff.1 (stripM_result
    (p := { p with secs := p.secs.set i { s with rawSize := ceilTo s.data.length p.nt.fileAlign, vsize := v } })
    (getElem?_setSelf h { s with rawSize := ceilTo s.data.length p.nt.fileAlign, vsize := v }) c)
  dsimp only at hst
  rw [run_bind_ok hst]
  rw [List.set_set]
  generalize hu : (if c = true then ({ s with rawSize := w32 (stripKeepOne s.data.reverse).reverse.length, vsize := v, data := (stripKeepOne s.data.reverse).reverse } : Sec) else { s with rawSize := ceilTo s.data.length p.nt.fileAlign, vsize := v }) = u
  rw [run_sec (getElem?_setSelf h u)]
  refine ⟨u, ?_⟩
  unfold adjustM
  have hu1 : u.vsize = v := by rw [← hu]; split <;> rfl
  have hu2 : u.rawSize ≤ ceilTo s.data.length p.nt.fileAlign := by
    rw [← hu]
    have h1 := stripped_length_le s.data
    have h2 := ceilTo_ge (x := s.data.length) hfa.pos
    split
    · show w32 _ ≤ _
      rw [w32, Nat.mod_eq_of_lt (by omega)]
      omega
    · exact Nat.le_refl _
  rw [if_neg]
  · rfl
  · rw [hu1, alignUp_2gb hsa hv1.2, alignUp_2gb hfa (by omega)]
    have h1 := ceilTo_ge (x := v) hsa.pos
    have h2 := ceilTo_least hfa.pos (ceilTo_dvd s.data.length p.nt.fileAlign) hu2
    omega

/-- A section that is not stripped keeps its raw data, whatever happens. -/
theorem recalculateM_data {p : Image} {i : Nat} {s : Sec} (h : p.secs[i]? = some s) (b : Bool)
    (hl : b = true → i + 1 = p.secs.length) :
    ∃ t, (recalculateM i b p).2.secs[i]? = some t ∧ t.data = s.data := by
  unfold recalculateM
  have hp := prepareM_run h
  by_cases h0 : w32 (alignUp64 s.data.length p.nt.fileAlign) = 0 ∧ s.vsize = 0
  · rw [if_pos h0] at hp
    rw [run_bind_error hp]
    exact ⟨_, getElem?_setSelf h _, rfl⟩
  · rw [if_neg h0] at hp
    generalize hu : ({ s with rawSize := w32 (alignUp64 s.data.length p.nt.fileAlign), vsize := (if s.vsize = 0 then w32 (alignUp64 s.data.length p.nt.fileAlign) else max (alignUp (w32 (alignUp64 s.data.length p.nt.fileAlign)) p.nt.fileAlign) (alignUp s.vsize p.nt.secAlign)) } : Sec) = u at hp
    have hud : u.data = s.data := by rw [← hu]
    rw [run_bind_ok hp, run_image]
    have hb : (b && decide (i + 1 ≠ (p.secs.set i u).length)) = false := by
      cases b
      · rfl
      · simp [hl rfl]
    dsimp only
    rw [hb]
    unfold stripM
    rw [if_neg (by simp), run_bind_ok (m := (pure () : IM Unit)) rfl, run_sec (getElem?_setSelf h u)]
    unfold adjustM
    split
    · generalize hq : ({ p with secs := p.secs.set i u } : Image) = q
      have hqs : q.secs[i]? = some u := by rw [← hq]; exact getElem?_setSelf h u
      generalize alignUp u.rawSize p.nt.secAlign = v
      have h1 := setVirtualSizeM_result i v q
      have h2 := @setVirtualSizeM_exn q i v
      rcases hr : setVirtualSizeM i v q with ⟨e | a, q'⟩
      · rw [hr] at h2
        cases e with
        | exn x => exact ⟨u, by rw [(h2 rfl).1]; exact hqs, hud⟩
        | ub x =>
          exfalso
          unfold IM.result at h1
          rw [hr] at h1
          unfold Image.setSectionVirtualSize at h1
          rw [hqs] at h1
          dsimp only at h1
          repeat' split at h1
          all_goals cases h1
      · unfold IM.result at h1
        rw [hr] at h1
        unfold Image.setSectionVirtualSize at h1
        rw [hqs] at h1
        dsimp only at h1
        have hup : ∀ w : Sec, w.data = u.data → ∃ t, (({ q with secs := q.secs.set i w } : Image).updateImageSize).secs[i]? = some t ∧ t.data = s.data := by
          intro w hw
          refine ⟨w, ?_, hw.trans hud⟩
          unfold Image.updateImageSize
          split <;> exact getElem?_setSelf hqs w
        split at h1
        · cases h1
        · split at h1
          · split at h1
            · cases h1
            · rw [ok_bind] at h1
              rw [(Prod.mk.inj (Except.ok.inj h1)).1]
              exact hup _ rfl
          · rw [ok_bind] at h1
            rw [(Prod.mk.inj (Except.ok.inj h1)).1]
            exact hup _ rfl
    · exact ⟨u, getElem?_setSelf h u, hud⟩


/-! ### The ends of the rebuilders -/

theorem NtHdr.setDirRva_noExn {h : NtHdr} {id v : Nat} (hi : id < h.numRva) : NoExn (h.setDirRva id v) := by
  unfold NtHdr.setDirRva NtHdr.dirAt NtHdr.dirSet
  rw [if_neg (by omega)]
  split
  · rw [ok_bind]
    split
    · exact NoExn.ok _
    · exact NoExn.ub _
  · exact NoExn.ub _

theorem NtHdr.setDirSize_noExn {h : NtHdr} {id v : Nat} (hi : id < h.numRva) : NoExn (h.setDirSize id v) := by
  unfold NtHdr.setDirSize NtHdr.dirAt NtHdr.dirSet
  rw [if_neg (by omega)]
  split
  · rw [ok_bind]
    split
    · exact NoExn.ok _
    · exact NoExn.ub _
  · exact NoExn.ub _

theorem NtHdr.setDirRva_numRva {h n : NtHdr} {id v : Nat} (hs : h.setDirRva id v = .ok n) : n.numRva = h.numRva := by
  unfold NtHdr.setDirRva NtHdr.dirAt NtHdr.dirSet at hs
  split at hs
  · cases hs
  · split at hs
    · rw [ok_bind] at hs
      split at hs
      · cases hs; rfl
      · cases hs
    · cases hs

theorem Calm.lift {α : Type} {r : Res α} {p : Image} (h : NoExn r) : Calm (IM.lift r) p := h
theorem Calm.pure {α : Type} (a : α) (p : Image) : Calm (Pure.pure a : IM α) p := NoExn.ok a
theorem Calm.modify (f : Image → Image) (p : Image) : Calm (IM.modify f) p := NoExn.ok ()

theorem setDirM_calm {f : NtHdr → Res NtHdr} {p : Image} (h : NoExn (f p.nt)) : Calm (setDirM f) p := by
  unfold setDirM Calm
  rw [run_image]
  exact Calm.bind (Calm.lift h) fun a q _ => Calm.modify _ _

theorem setDirM_secs (f : NtHdr → Res NtHdr) (p : Image) : (setDirM f p).2.secs = p.secs := by
  unfold setDirM
  rw [run_image]
  cases h : f p.nt with
  | error e => rw [run_lift_error rfl]
  | ok nt => rw [run_lift_ok rfl]; rfl

theorem setDirM_run {f : NtHdr → Res NtHdr} {p q : Image} {u : Unit} (h : setDirM f p = (.ok u, q)) :
    ∃ nt, f p.nt = .ok nt ∧ q = { p with nt := nt } := by
  unfold setDirM at h
  rw [run_image] at h
  cases hf : f p.nt with
  | error e => rw [run_lift_error hf] at h; cases h
  | ok nt =>
    rw [run_lift_ok hf] at h
    exact ⟨nt, rfl, (Prod.mk.inj h).2.symm⟩

theorem bind_secs {α β : Type} {m : IM α} {g : α → IM β} {p : Image} (hm : (m p).2.secs = p.secs)
    (hg : ∀ a q, m p = (.ok a, q) → (g a q).2.secs = q.secs) : ((m >>= g) p).2.secs = p.secs := by
  rcases h : m p with ⟨e | a, q⟩
  · rw [run_bind_error h]; rw [h] at hm; exact hm
  · rw [run_bind_ok h]; rw [h] at hm; exact (hg a q h).trans hm

theorem saveDirM_calm {save : Bool} {id : Nat} {dir : Nat × Nat} {p : Image} (h : CanSave p save id) :
    Calm (saveDirM save id dir) p := by
  unfold saveDirM
  cases save
  · exact Calm.pure _ _
  · have hi := h rfl
    rw [if_pos rfl]
    refine Calm.bind (setDirM_calm (NtHdr.setDirRva_noExn hi)) fun a q hq => ?_
    obtain ⟨nt, h1, rfl⟩ := setDirM_run hq
    exact setDirM_calm (NtHdr.setDirSize_noExn (by rw [NtHdr.setDirRva_numRva h1]; exact hi))

theorem saveDirM_secs (save : Bool) (id : Nat) (dir : Nat × Nat) (p : Image) : (saveDirM save id dir p).2.secs = p.secs := by
  unfold saveDirM
  cases save
  · rfl
  · rw [if_pos rfl]
    exact bind_secs (setDirM_secs _ _) fun _ q _ => setDirM_secs _ q

theorem saveRelocM_calm {save : Bool} {dir : Nat × Nat} {p : Image} (h : CanSave p save dirBaseReloc) :
    Calm (saveRelocM save dir) p := by
  unfold saveRelocM
  cases save
  · exact Calm.pure _ _
  · have hi := h rfl
    rw [if_pos rfl]
    refine Calm.bind (setDirM_calm (NtHdr.setDirRva_noExn hi)) fun a q hq => ?_
    obtain ⟨nt, h1, rfl⟩ := setDirM_run hq
    refine Calm.bind (setDirM_calm (NtHdr.setDirSize_noExn (by rw [NtHdr.setDirRva_numRva h1]; exact hi))) fun a q _ => ?_
    exact Calm.bind (Calm.modify _ _) fun a q _ => Calm.modify _ _

theorem saveRelocM_secs (save : Bool) (dir : Nat × Nat) (p : Image) : (saveRelocM save dir p).2.secs = p.secs := by
  unfold saveRelocM
  cases save
  · rfl
  · rw [if_pos rfl]
    refine bind_secs (setDirM_secs _ _) fun _ q _ => bind_secs (setDirM_secs _ q) fun _ r _ => ?_
    rfl

/-- New sizes and then `k`, which stores the directory: if this throws then the section has become huge. -/
theorem recalcThen_within {α : Type} {p : Image} {i : Nat} {s : Sec} (h : p.secs[i]? = some s) (hfa : Pow2 p.nt.fileAlign)
    (hsa : Pow2 p.nt.secAlign) (hv : s.vsize ≤ 2147483648) (hne : s.data ≠ [] ∨ s.vsize ≠ 0)
    {strip : Bool} (hl : strip = true → i + 1 ≠ p.secs.length → s.data.length ≤ 2147483648) {k : IM α}
    (hk : ∀ q : Image, (k q).2.secs = q.secs) (hc : ∀ q : Image, q.nt = p.nt → Calm k q) {e : Err}
    (he : ((recalculateM i strip >>= fun _ => k) p).1 = throwE e) :
    ¬ NoHuge ((recalculateM i strip >>= fun _ => k) p).2 := by
  intro hn
  by_cases hd : s.data.length ≤ 2147483648
  · obtain ⟨t, ht⟩ := recalculateM_run h hfa hsa hd hv hne strip
    rw [run_bind_ok ht] at he
    exact hc { p with secs := p.secs.set i t } rfl e he
  · have hlast : strip = true → i + 1 = p.secs.length := by
      intro hb
      by_cases x : i + 1 = p.secs.length
      · exact x
      · exact absurd (hl hb x) hd
    obtain ⟨t, ht1, ht2⟩ := recalculateM_data h strip hlast
    have hs : ((recalculateM i strip >>= fun _ => k) p).2.secs = (recalculateM i strip p).2.secs := by
      rcases hr : recalculateM i strip p with ⟨x | x, q⟩
      · rw [run_bind_error hr]
      · rw [run_bind_ok hr]; exact hk q
    rw [← hs] at ht1
    have := hn t (List.mem_of_getElem? ht1)
    rw [ht2] at this
    exact hd this

theorem finishDirM_within {p : Image} {i : Nat} {s : Sec} (h : p.secs[i]? = some s) (hfa : Pow2 p.nt.fileAlign)
    (hsa : Pow2 p.nt.secAlign) (hv : s.vsize ≤ 2147483648) (hne : s.data ≠ [] ∨ s.vsize ≠ 0)
    {strip save : Bool} (hl : strip = true → i + 1 ≠ p.secs.length → s.data.length ≤ 2147483648) {id : Nat} {dir : Nat × Nat}
    (hc : CanSave p save id) {e : Err} (he : (finishDirM i strip save id dir p).1 = throwE e) :
    ¬ NoHuge (finishDirM i strip save id dir p).2 := by
  unfold finishDirM at he ⊢
  refine recalcThen_within h hfa hsa hv hne hl (k := saveDirM save id dir >>= fun _ => pure dir) ?_ ?_ he
  · exact fun q => bind_secs (saveDirM_secs _ _ _ q) fun _ _ _ => rfl
  · intro q hq
    refine Calm.bind (saveDirM_calm ?_) fun _ _ _ => Calm.pure _ _
    unfold CanSave at hc ⊢
    rw [hq]; exact hc

/-! ### Writing -/

/-- Writing to `d` does not throw and keeps the length. -/
def Writes (d : Bytes) (x : Res Bytes) : Prop := NoExn x ∧ ∀ d', x = .ok d' → d'.length = d.length

theorem Writes.ok (d : Bytes) : Writes d (.ok d) := ⟨NoExn.ok _, fun d' h => by cases h; rfl⟩

theorem Writes.at (d : Bytes) (o : Nat) (x : Bytes) : Writes d (writeAt d o x) := by
  refine ⟨?_, fun d' h => writeAt_length h⟩
  unfold writeAt
  split
  · exact NoExn.ok _
  · exact NoExn.ub _

theorem Writes.bind {d : Bytes} {x : Res Bytes} {f : Bytes → Res Bytes} (hx : Writes d x) (hf : ∀ c, Writes c (f c)) :
    Writes d (x >>= f) := by
  refine ⟨NoExn.bind hx.1 fun a _ => (hf a).1, fun d' h => ?_⟩
  obtain ⟨c, hc, h⟩ := bind_ok_iff.1 h
  rw [(hf c).2 d' h, hx.2 c hc]

/-- The same for writers that also return something. -/
def WritesP {α : Type} (d : Bytes) (x : Res (Bytes × α)) : Prop := NoExn x ∧ ∀ d' a, x = .ok (d', a) → d'.length = d.length

theorem WritesP.ok {α : Type} (d : Bytes) (a : α) : WritesP d (.ok (d, a)) := ⟨NoExn.ok _, fun d' b h => by cases h; rfl⟩

theorem WritesP.pre {α : Type} {d : Bytes} {x : Res Bytes} {f : Bytes → Res (Bytes × α)} (hx : Writes d x)
    (hf : ∀ c, WritesP c (f c)) : WritesP d (x >>= f) := by
  refine ⟨NoExn.bind hx.1 fun a _ => (hf a).1, fun d' a h => ?_⟩
  obtain ⟨c, hc, h⟩ := bind_ok_iff.1 h
  rw [(hf c).2 d' a h, hx.2 c hc]

theorem WritesP.bind {α β : Type} {d : Bytes} {x : Res (Bytes × α)} {f : Bytes × α → Res (Bytes × β)} (hx : WritesP d x)
    (hf : ∀ c a, WritesP c (f (c, a))) : WritesP d (x >>= f) := by
  refine ⟨NoExn.bind hx.1 fun a _ => (hf a.1 a.2).1, fun d' a h => ?_⟩
  obtain ⟨c, hc, h⟩ := bind_ok_iff.1 h
  rw [(hf c.1 c.2).2 d' a h, hx.2 c.1 c.2 hc]

theorem WritesP.then {α : Type} {d : Bytes} {x : Res (Bytes × α)} {f : Bytes × α → Res Bytes} (hx : WritesP d x)
    (hf : ∀ c a, Writes c (f (c, a))) : Writes d (x >>= f) := by
  refine ⟨NoExn.bind hx.1 fun a _ => (hf a.1 a.2).1, fun d' h => ?_⟩
  obtain ⟨c, hc, h⟩ := bind_ok_iff.1 h
  rw [(hf c.1 c.2).2 d' h, hx.2 c.1 c.2 hc]

theorem writeExportFns_writes (va : Nat) (l : List ExportFn) (d : Bytes) (pa pf last : Nat) :
    Writes d (writeExportFns va d pa pf last l) := by
  induction l generalizing d pa pf last with
  | nil => exact Writes.ok d
  | cons f fs ih =>
    unfold writeExportFns
    dsimp only
    refine Writes.bind (Writes.at _ _ _) fun c => ?_
    by_cases hf : f.fwd ≠ []
    · rw [if_pos hf]
      exact Writes.bind (Writes.at _ _ _) fun c => Writes.bind (Writes.at _ _ _) fun c => ih _ _ _ _
    · rw [if_neg hf]
      exact Writes.bind (Writes.at _ _ _) fun c => ih _ _ _ _

theorem writeExportNames_writes (va : Nat) (l : List (Bytes × Nat)) (d : Bytes) (pr ps po : Nat) :
    Writes d (writeExportNames va d pr ps po l) := by
  induction l generalizing d pr ps po with
  | nil => exact Writes.ok d
  | cons f fs ih =>
    unfold writeExportNames
    exact Writes.bind (Writes.at _ _ _) fun c => Writes.bind (Writes.at _ _ _) fun c =>
      Writes.bind (Writes.at _ _ _) fun c => ih _ _ _ _

theorem writeBoundRefs_writes (base : Nat) (l : List BoundRef) (d : Bytes) (ps pt : Nat) :
    WritesP d (writeBoundRefs base d ps pt l) := by
  induction l generalizing d ps pt with
  | nil => exact WritesP.ok d _
  | cons r rs ih =>
    unfold writeBoundRefs
    exact WritesP.pre (Writes.at _ _ _) fun c => WritesP.pre (Writes.at _ _ _) fun c => ih _ _ _

theorem writeBoundMods_writes (base : Nat) (l : List BoundMod) (d : Bytes) (ps pt : Nat) :
    Writes d (writeBoundMods base d ps pt l) := by
  induction l generalizing d ps pt with
  | nil => exact Writes.ok d
  | cons m ms ih =>
    unfold writeBoundMods
    exact Writes.bind (Writes.at _ _ _) fun c => Writes.bind (Writes.at _ _ _) fun c =>
      WritesP.then (writeBoundRefs_writes _ _ _ _ _) fun c a => ih _ _ _

theorem relocWriteEntries_writes (l : List RelocEntry) (d : Bytes) (pos : Nat) : WritesP d (relocWriteEntries d pos l) := by
  induction l generalizing d pos with
  | nil => exact WritesP.ok d _
  | cons r rs ih =>
    unfold relocWriteEntries
    exact WritesP.pre (Writes.at _ _ _) fun c => ih _ _

theorem relocWriteTables_writes (l : List RelocTable) (d : Bytes) (pos : Nat) : WritesP d (relocWriteTables d pos l) := by
  induction l generalizing d pos with
  | nil => exact WritesP.ok d _
  | cons t ts ih =>
    unfold relocWriteTables
    dsimp only
    refine WritesP.pre (Writes.at _ _ _) fun c => WritesP.bind (relocWriteEntries_writes _ _ _) fun c a => ?_
    dsimp only
    split
    · exact WritesP.pre (Writes.at _ _ _) fun c => ih _ _
    · exact ih _ _

theorem writeVals_writes (w : Nat) (l : List Nat) (d : Bytes) (pos : Nat) : Writes d (writeVals w d pos l) := by
  induction l generalizing d pos with
  | nil => exact Writes.ok d
  | cons v vs ih =>
    unfold writeVals
    exact Writes.bind (Writes.at _ _ _) fun c => ih _ _

theorem growTo_max (d : Bytes) (n : Nat) : (growTo d n).length = max d.length n := by
  unfold growTo resize
  split
  · simp only [List.length_append, List.length_take, zeros_length]; omega
  · omega

theorem onData_calm {p : Image} {i : Nat} {s : Sec} (h : p.secs[i]? = some s) {f : Bytes → Res Bytes} (hf : NoExn (f s.data)) :
    Calm (IM.onData i f) p := by
  unfold IM.onData Calm
  rw [run_sec h]
  exact Calm.bind (Calm.lift hf) fun a q _ => Calm.modify _ _

/-- Growing, writing, finishing. -/
theorem writeDirM_within {p : Image} (hp : Small p) {i : Nat} {s : Sec} (h : p.secs[i]? = some s) {need : Nat}
    {write : Bytes → Res Bytes} (hw : ∀ d, Writes d (write d))
    (hl : i + 1 ≠ p.secs.length → need ≤ 2147483648) {strip save : Bool} {id : Nat} {dir : Nat × Nat}
    (hc : CanSave p save id) {e : Err} (he : (writeDirM i need write strip save id dir p).1 = throwE e) :
    ¬ NoHuge (writeDirM i need write strip save id dir p).2 := by
  unfold writeDirM at he ⊢
  rw [run_onData h (f := fun d => .ok (growTo d need)) rfl] at he ⊢
  have hs1 := getElem?_setSelf h { s with data := growTo s.data need }
  have hm := List.mem_of_getElem? h
  have hd0 := hp.data s hm
  have hg := growTo_max s.data need
  rcases hx : write (growTo s.data need) with x | d
  · exfalso
    have : ∃ q, (IM.onData i write) { p with secs := p.secs.set i { s with data := growTo s.data need } } = (.error x, q) := by
      refine ⟨_, Prod.ext ?_ rfl⟩
      refine result_error_iff.1 ?_
      rw [result_onData hs1]
      dsimp only
      rw [hx]; rfl
    obtain ⟨q, hq⟩ := this
    rw [run_bind_error hq] at he
    cases x with
    | ub u => cases he
    | exn y => exact (hw _).1 y hx
  · rw [run_onData hs1 hx] at he ⊢
    dsimp only at he ⊢
    rw [List.set_set] at he ⊢
    have hd := (hw _).2 d hx
    refine finishDirM_within (p := { p with secs := p.secs.set i { s with data := d } }) (s := { s with data := d })
      (getElem?_setSelf h _) hp.fa hp.sa (hp.virt s hm) ?_ ?_ ?_ he
    · rcases hp.full s hm with h3 | h3
      · refine Or.inl fun h0 => ?_
        have h4 : d = [] := h0
        rw [h4, hg] at hd
        have h5 : ([] : Bytes).length = 0 := rfl
        have h6 : 0 < s.data.length := List.length_pos_iff.2 h3
        omega
      · exact Or.inr h3
    · intro _ h1
      show d.length ≤ _
      have := hl (by simpa using h1)
      omega
    · exact hc

end PE
