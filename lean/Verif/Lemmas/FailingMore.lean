/-
The stepwise operations on TLS, imports, relocations and headers of `Model/Failing` give the same results as the other
models.
-/
import Verif.Lemmas.FailingDirs
namespace PE

theorem result_ok_iff {α : Type} {m : IM α} {p q : Image} {a : α} : m.result p = .ok (q, a) ↔ m p = (.ok a, q) := by
  unfold IM.result
  rcases h : m p with ⟨e | b, r⟩
  · constructor
    · intro x; cases x
    · intro x; cases x
  · constructor
    · intro x
      obtain ⟨rfl, rfl⟩ := Prod.mk.inj (Except.ok.inj x)
      rfl
    · intro x
      obtain ⟨x1, rfl⟩ := Prod.mk.inj x
      rw [Except.ok.inj x1]

theorem result_error_iff {α : Type} {m : IM α} {p : Image} {e : Fault} : m.result p = .error e ↔ (m p).1 = .error e := by
  unfold IM.result
  rcases m p with ⟨x | b, r⟩
  · exact Iff.intro (fun h => by cases h; rfl) (fun h => by cases h; rfl)
  · exact Iff.intro (fun h => by cases h) (fun h => by cases h)

theorem run_bind_ok {α β : Type} {m : IM α} {p q : Image} {a : α} (h : m p = (.ok a, q)) (g : α → IM β) :
    (m >>= g) p = g a q := by
  show IM.andThen m g p = _
  unfold IM.andThen
  rw [h]

theorem run_bind_error {α β : Type} {m : IM α} {p q : Image} {e : Fault} (h : m p = (.error e, q)) (g : α → IM β) :
    (m >>= g) p = (.error e, q) := by
  show IM.andThen m g p = _
  unfold IM.andThen
  rw [h]

theorem run_image {p : Image} {β : Type} (g : Image → IM β) : (IM.image >>= g) p = g p p := rfl

theorem run_lift_ok {α β : Type} {p : Image} {r : Res α} {a : α} (h : r = .ok a) (g : α → IM β) :
    (IM.lift r >>= g) p = g a p := by rw [h]; rfl

theorem run_lift_error {α β : Type} {p : Image} {r : Res α} {e : Fault} (h : r = .error e) (g : α → IM β) :
    (IM.lift r >>= g) p = (.error e, p) := by rw [h]; rfl

theorem run_sec {β : Type} {p : Image} {i : Nat} {s : Sec} (h : p.secs[i]? = some s) (g : Sec → IM β) :
    (IM.sec i >>= g) p = g s p := run_bind_ok (by unfold IM.sec; rw [h]) g

theorem run_onData {β : Type} {p : Image} {i : Nat} {s : Sec} (h : p.secs[i]? = some s) {f : Bytes → Res Bytes} {d : Bytes}
    (hf : f s.data = .ok d) (g : Unit → IM β) :
    (IM.onData i f >>= g) p = g () { p with secs := p.secs.set i { s with data := d } } :=
  run_bind_ok (result_ok_iff.1 (by rw [result_onData h, hf]; rfl)) g

theorem prepareM_run {p : Image} {i : Nat} {s : Sec} (h : p.secs[i]? = some s) :
    prepareM i p = if w32 (alignUp64 s.data.length p.nt.fileAlign) = 0 ∧ s.vsize = 0 then
      (throwE .zeroSectionSizes, { p with secs := p.secs.set i { s with rawSize := w32 (alignUp64 s.data.length p.nt.fileAlign) } })
    else (.ok (), { p with secs := p.secs.set i ({ s with rawSize := w32 (alignUp64 s.data.length p.nt.fileAlign), vsize := (if s.vsize = 0 then w32 (alignUp64 s.data.length p.nt.fileAlign) else max (alignUp (w32 (alignUp64 s.data.length p.nt.fileAlign)) p.nt.fileAlign) (alignUp s.vsize p.nt.secAlign)) } : Sec) }) := by
  unfold prepareM
  rw [run_image, run_sec h]
  dsimp only
  rw [run_bind_ok (m := IM.setSec i _) rfl]
  by_cases h0 : w32 (alignUp64 s.data.length p.nt.fileAlign) = 0 ∧ s.vsize = 0
  · rw [if_pos h0, run_lift_error (throwIf_pos h0)]
    rfl
  · rw [if_neg h0, run_lift_ok (throwIf_neg h0)]
    show (Except.ok (), _) = _
    simp only [List.set_set]

theorem setVirtualSizeM_exn {p : Image} {i v : Nat} {e : Err} (h : (setVirtualSizeM i v p).1 = throwE e) :
    (setVirtualSizeM i v p).2 = p ∧ (i + 1 = p.secs.length → ∃ s, p.secs[i]? = some s ∧ s.empty = true ∧ v = 0) := by
  unfold setVirtualSizeM newVsizeM at h ⊢
  rw [run_image] at h ⊢
  by_cases hi : i + 1 = p.secs.length
  · have hn : ¬ i + 1 ≠ p.secs.length := by omega
    have hs := List.getElem?_eq_getElem (show i < p.secs.length by omega)
    rw [run_lift_ok (throwIf_neg hn), run_sec hs] at h ⊢
    by_cases hv : v = 0
    · rw [if_pos hv] at h ⊢
      by_cases he : p.secs[i].empty = true
      · refine ⟨?_, fun _ => ⟨_, hs, he, hv⟩⟩
        rw [run_bind_error (run_lift_error (throwIf_pos he) _)]
      · rw [run_bind_ok (m := IM.lift (throwIf (p.secs[i].empty = true) .errorChangingSectionVirtualSize) >>=
          fun _ => IM.setSec i { p.secs[i] with vsize := p.secs[i].rawSize }) (run_lift_ok (throwIf_neg he) _)] at h
        cases h
    · rw [if_neg hv, run_bind_ok (m := IM.setSec i { p.secs[i] with vsize := v }) rfl] at h
      cases h
  · rw [run_lift_error (throwIf_pos hi)]
    exact ⟨rfl, fun h => absurd h hi⟩

theorem alignUp_null (a : Nat) : alignUp 0 a = 0 := by
  unfold alignUp alignUpT
  rw [Nat.zero_and]
  simp

theorem alignUp64_null (a : Nat) : alignUp64 0 a = 0 := by
  unfold alignUp64 alignUpT
  rw [Nat.zero_and]
  simp

/-- `recalculate_section_sizes` on the last section throws only in `prepare_section`. -/
theorem recalculateM_last {p : Image} {i : Nat} {s : Sec} (h : p.secs[i]? = some s) (hl : i + 1 = p.secs.length) {b : Bool}
    {e : Err} (he : (recalculateM i b p).1 = throwE e) :
    ((recalculateM i b p).2 =
      { p with secs := p.secs.set i { s with rawSize := w32 (alignUp64 s.data.length p.nt.fileAlign) } }) ∧ s.vsize = 0 := by
  unfold recalculateM at he ⊢
  have hp := prepareM_run h
  by_cases h0 : w32 (alignUp64 s.data.length p.nt.fileAlign) = 0 ∧ s.vsize = 0
  · rw [if_pos h0] at hp
    rw [run_bind_error hp]
    exact ⟨rfl, h0.2⟩
  · exfalso
    rw [if_neg h0] at hp
    generalize hv : (if s.vsize = 0 then w32 (alignUp64 s.data.length p.nt.fileAlign)
                 else max (alignUp (w32 (alignUp64 s.data.length p.nt.fileAlign)) p.nt.fileAlign)
                   (alignUp s.vsize p.nt.secAlign)) = v at hp
    rw [run_bind_ok hp, run_image] at he
    have hb : (b && decide (i + 1 ≠ (p.secs.set i { s with rawSize := w32 (alignUp64 s.data.length p.nt.fileAlign), vsize := v }).length)) = false := by
      simp [hl]
    dsimp only at he
    rw [hb] at he
    unfold stripM at he
    rw [if_neg (by simp), run_bind_ok (m := (pure () : IM Unit)) rfl, run_sec (getElem?_setSelf h _)] at he
    unfold adjustM at he
    dsimp only at he
    split at he
    · rename_i hlt
      obtain ⟨_, h2⟩ := setVirtualSizeM_exn he
      obtain ⟨t, ht, hte, _⟩ := h2 (by simpa using hl)
      dsimp only at ht
      rw [getElem?_setSelf h] at ht
      cases ht
      have hd : s.data = [] := by
        have : s.data.isEmpty = true := hte
        simpa using this
      rw [hd] at hlt
      rw [show ([] : Bytes).length = 0 from rfl, alignUp64_null, show w32 0 = 0 from rfl, alignUp_null] at hlt
      omega
    · cases he

theorem expandM_left {p : Image} {i rva size : Nat} {k : ExpandType} {e : Err}
    (he : (expandM i rva size k p).1 = throwE e) : (expandM i rva size k p).2 = p.expandLeft i rva size k := by
  unfold expandM at he ⊢
  unfold Image.expandLeft
  rw [run_image] at he ⊢
  by_cases hi : i + 1 = p.secs.length
  · have hn : ¬ i + 1 ≠ p.secs.length := by omega
    have hs := List.getElem?_eq_getElem (show i < p.secs.length by omega)
    rw [run_lift_ok (throwIf_neg hn), run_sec hs] at he ⊢
    rw [hs]
    cases k with
    | raw =>
      dsimp only [ExpandType.view] at he ⊢
      cases hd : p.dataLenSec p.secs[i] rva .raw with
      | error x => rw [run_lift_error rfl]
      | ok len =>
        rw [hd, run_lift_ok rfl] at he
        rw [run_lift_ok rfl]
        unfold expandToM at he ⊢
        dsimp only at he ⊢
        by_cases hlen : len < size
        · rw [if_pos hlen] at he ⊢
          rw [if_pos ⟨hi, hlen⟩]
          rw [run_onData hs (f := fun d => .ok (resize d (w32 (sub32 rva p.secs[i].va + size)))) rfl] at he ⊢
          have hs1 := getElem?_setSelf hs { p.secs[i] with data := resize p.secs[i].data (w32 (sub32 rva p.secs[i].va + size)) }
          generalize hq : ({ p with secs := p.secs.set i { p.secs[i] with data := resize p.secs[i].data (w32 (sub32 rva p.secs[i].va + size)) } } : Image) = q at he ⊢
          have hs2 : q.secs[i]? = some { p.secs[i] with data := resize p.secs[i].data (w32 (sub32 rva p.secs[i].va + size)) } := by
            rw [← hq]; exact hs1
          have hql : i + 1 = q.secs.length := by rw [← hq]; simpa using hi
          rcases hr : recalculateM i false q with ⟨x | x, q'⟩
          · rw [run_bind_error hr] at he ⊢
            have h3 := (recalculateM_last hs2 hql (b := false) (e := e) (by rw [hr]; cases he; rfl)).1
            rw [hr] at h3
            dsimp only at h3 ⊢
            rw [h3, ← hq]
            dsimp only
            rw [List.set_set]
          · rw [run_bind_ok hr] at he
            cases he
        · rw [if_neg hlen] at he
          cases he
    | virt =>
      dsimp only [ExpandType.view] at he ⊢
      cases hd : p.dataLenSec p.secs[i] rva .virt with
      | error x => rw [run_lift_error rfl]
      | ok len =>
        rw [hd, run_lift_ok rfl] at he
        rw [run_lift_ok rfl]
        unfold expandToM at he ⊢
        dsimp only at he ⊢
        by_cases hlen : len < size
        · rw [if_pos hlen] at he ⊢
          rcases hr : setVirtualSizeM i (w32 (sub32 rva p.secs[i].va + size)) p with ⟨x | x, q'⟩
          · rw [run_bind_error hr] at he ⊢
            have h3 := setVirtualSizeM_exn (p := p) (i := i) (v := w32 (sub32 rva p.secs[i].va + size)) (e := e)
              (by rw [hr]; cases he; rfl)
            rw [hr] at h3
            exact h3.1
          · rw [run_bind_ok hr] at he
            cases he
        · rw [if_neg hlen] at he
          cases he
  · rw [run_lift_error (throwIf_pos hi)]
    cases p.secs[i]? with
    | none => rfl
    | some s =>
      cases k with
      | virt => rfl
      | raw =>
        dsimp only
        cases p.dataLenSec s rva .raw with
        | error x => rfl
        | ok len =>
          dsimp only
          rw [if_neg (fun x => hi x.1)]

theorem expandQuietM_result (rva size : Nat) (k : ExpandType) (p : Image) :
    (expandQuietM rva size k).result p = p.expandQuiet rva size k >>= fun q => .ok (q, ()) := by
  unfold expandQuietM Image.expandQuiet IM.result IM.quiet
  rw [run_image]
  cases hx : p.secIdxFromRva rva with
  | error x =>
    have : x = .exn .noSectionFound := by
      unfold Image.secIdxFromRva at hx
      split at hx
      · cases hx
      · cases hx; rfl
    rw [run_lift_error rfl, this]
    rfl
  | ok i =>
    rw [run_lift_ok rfl]
    dsimp only
    have hr := expandM_result i rva size k p
    have hl := @expandM_left p i rva size k
    rw [← hr]
    unfold IM.result
    generalize expandM i rva size k p = y at hl ⊢
    rcases y with ⟨y | y, q⟩
    · cases y with
      | ub u => rfl
      | exn e =>
        dsimp only
        have := hl (e := e) rfl
        dsimp only at this
        rw [this]
        rfl
    · rfl

end PE
